import Verif.Proofs.Delivered
/-
The readers keep their types, and are opened with them.
-/
namespace Goorc

section
variable {χ : Type} {X : RdOps χ} {R : Schema → χ → Prop} {c : Codec}

theorem skipAll_types {m : Nat} (hs : ∀ d x x', R d x → X.skip x m = .ok x' → R d x') : ∀ {cs : List Schema} {xs : List χ} (_ : List.Forall₂ R cs xs) {ys : List χ}, skipAll X m xs = .ok ys → List.Forall₂ R cs ys := by
  intro cs xs h
  induction h with
  | nil => intro ys e; rw [skipAll] at e; cases e; exact .nil
  | cons hc hcs ih =>
    intro ys e
    rw [skipAll] at e
    obtain ⟨x', e1, e⟩ := Res.bind_ok_inv e
    obtain ⟨xs', e2, e⟩ := Res.bind_ok_inv e
    cases e
    exact .cons (hs _ _ _ hc e1) (ih e2)

theorem seekAll_types {m : Nat} (hs : ∀ d x x', R d x → X.seekStride x m = .ok x' → R d x') : ∀ {cs : List Schema} {xs : List χ} (_ : List.Forall₂ R cs xs) {ys : List χ}, seekAll X m xs = .ok ys →
    List.Forall₂ R cs ys := by
  intro cs xs h
  induction h with
  | nil => intro ys e; rw [seekAll] at e; cases e; exact .nil
  | cons hc hcs ih =>
    intro ys e
    rw [seekAll] at e
    obtain ⟨x', e1, e⟩ := Res.bind_ok_inv e
    obtain ⟨xs', e2, e⟩ := Res.bind_ok_inv e
    cases e
    exact .cons (hs _ _ _ hc e1) (ih e2)

theorem structSkip_types (hs : ∀ d m x x', R d x → X.skip x m = .ok x' → R d x') {cs : List Schema} : ∀ (m : Nat) (p p' : Option BoolReader) (xs ys : List χ), List.Forall₂ R cs xs →
    structSkip X c m p xs = .ok (p', ys) → List.Forall₂ R cs ys := by
  intro m
  induction m with
  | zero => intro p p' xs ys h e; rw [structSkip] at e; cases e; exact h
  | succ m ih =>
    intro p p' xs ys h e
    rw [structSkip] at e
    obtain ⟨⟨b, p1⟩, -, e⟩ := Res.bind_ok_inv e
    cases b with
    | false => simp only [Bool.false_eq_true, if_false] at e; exact ih _ _ _ _ h e
    | true =>
      simp only [if_true] at e
      obtain ⟨xs1, e1, e⟩ := Res.bind_ok_inv e
      exact ih _ _ _ _ (skipAll_types (fun d => hs d 1) h e1) e

/-- The reader of the elements, if there is one. -/
def OptR (R : Schema → χ → Prop) (d : Schema) (x : Option χ) : Prop := ∀ y, x = some y → R d y

theorem skipOn_types (hs : ∀ d m x x', R d x → X.skip x m = .ok x' → R d x') {d : Schema} {m : Nat} {x x' : Option χ} (h : OptR R d x) (e : skipOn X m x = .ok x') :
    OptR R d x' ∧ (x = none ↔ x' = none) := by
  cases x with
  | none => rw [skipOn] at e; cases e
  | some x =>
    rw [skipOn] at e
    obtain ⟨y, e1, e⟩ := Res.bind_ok_inv e
    cases e
    exact ⟨fun z hz => by cases hz; exact hs _ _ _ _ (h x rfl) e1, by simp⟩

theorem seekOn_types {m : Nat} (hs : ∀ d x x', R d x → X.seekStride x m = .ok x' → R d x') {d : Schema} {x x' : Option χ} (h : OptR R d x) (e : seekOn X m x = .ok x') :
    OptR R d x' ∧ (x = none ↔ x' = none) := by
  cases x with
  | none => rw [seekOn] at e; cases e
  | some x =>
    rw [seekOn] at e
    obtain ⟨y, e1, e⟩ := Res.bind_ok_inv e
    cases e
    exact ⟨fun z hz => by cases hz; exact hs _ _ _ (h x rfl) e1, by simp⟩

theorem listSkip_types (hs : ∀ d m x x', R d x → X.skip x m = .ok x' → R d x') {d : Schema} : ∀ (m : Nat) (p p' : Option BoolReader) (l l' : Option IntReader) (x x' : Option χ), OptR R d x →
    listSkip X c m p l x = .ok (p', l', x') → OptR R d x' ∧ (x = none ↔ x' = none) := by
  intro m
  induction m with
  | zero => intro p p' l l' x x' h e; rw [listSkip] at e; cases e; exact ⟨h, Iff.rfl⟩
  | succ m ih =>
    intro p p' l l' x x' h e
    rw [listSkip] at e
    obtain ⟨⟨b, p1⟩, -, e⟩ := Res.bind_ok_inv e
    cases b with
    | false => simp only [Bool.false_eq_true, if_false] at e; exact ih _ _ _ _ _ _ h e
    | true =>
      simp only [if_true] at e
      obtain ⟨⟨k, l1⟩, -, e⟩ := Res.bind_ok_inv e
      obtain ⟨x1, e1, e⟩ := Res.bind_ok_inv e
      obtain ⟨k1, k2⟩ := skipOn_types hs h e1
      obtain ⟨k3, k4⟩ := ih _ _ _ _ _ _ k1 e
      exact ⟨k3, k2.trans k4⟩

theorem entrySkip_types (hs : ∀ d m x x', R d x → X.skip x m = .ok x' → R d x') {d e : Schema} {m : Nat} : ∀ (k : Nat) (x y x' y' : Option χ), OptR R d x → OptR R e y →
    entrySkip X m k x y = .ok (x', y') → (OptR R d x' ∧ (x = none ↔ x' = none)) ∧ OptR R e y' ∧ (y = none ↔ y' = none) := by
  intro k
  induction k with
  | zero => intro x y x' y' h1 h2 e; rw [entrySkip] at e; cases e; exact ⟨⟨h1, Iff.rfl⟩, h2, Iff.rfl⟩
  | succ k ih =>
    intro x y x' y' h1 h2 e
    rw [entrySkip] at e
    obtain ⟨x1, e1, e⟩ := Res.bind_ok_inv e
    obtain ⟨y1, e2, e⟩ := Res.bind_ok_inv e
    obtain ⟨a1, a2⟩ := skipOn_types hs h1 e1
    obtain ⟨b1, b2⟩ := skipOn_types hs h2 e2
    obtain ⟨⟨c1, c2⟩, c3, c4⟩ := ih _ _ _ _ a1 b1 e
    exact ⟨⟨c1, a2.trans c2⟩, c3, b2.trans c4⟩

theorem mapSkip_types (hs : ∀ d m x x', R d x → X.skip x m = .ok x' → R d x') {d e : Schema} : ∀ (m : Nat) (p p' : Option BoolReader) (l l' : Option IntReader) (x y x' y' : Option χ), OptR R d x →
    OptR R e y → mapSkip X c m p l x y = .ok (p', l', x', y') → (OptR R d x' ∧ (x = none ↔ x' = none)) ∧ OptR R e y' ∧ (y = none ↔ y' = none) := by
  intro m
  induction m with
  | zero => intro p p' l l' x y x' y' h1 h2 e; rw [mapSkip] at e; cases e; exact ⟨⟨h1, Iff.rfl⟩, h2, Iff.rfl⟩
  | succ m ih =>
    intro p p' l l' x y x' y' h1 h2 e
    rw [mapSkip] at e
    obtain ⟨⟨b, p1⟩, -, e⟩ := Res.bind_ok_inv e
    cases b with
    | false => simp only [Bool.false_eq_true, if_false] at e; exact ih _ _ _ _ _ _ _ _ h1 h2 e
    | true =>
      simp only [if_true] at e
      obtain ⟨⟨k, l1⟩, -, e⟩ := Res.bind_ok_inv e
      obtain ⟨⟨x1, y1⟩, e1, e⟩ := Res.bind_ok_inv e
      obtain ⟨⟨a1, a2⟩, b1, b2⟩ := entrySkip_types hs _ _ _ _ _ h1 h2 e1
      obtain ⟨⟨c1, c2⟩, c3, c4⟩ := ih _ _ _ _ _ _ _ _ a1 b1 e
      exact ⟨⟨c1, a2.trans c2⟩, c3, b2.trans c4⟩

end

/-- The two readers of a map are both there, or the map was never read. -/
theorem pair_types {n : Nat} {s : Schema} {y z y' z' : Option (Rd n)}
    (h : ∀ a, y = some a → ∀ b, z = some b → ∃ d e, s.children = [d, e] ∧ Reads n d a ∧ Reads n e b)
    (step : ∀ d e, OptR (Reads n) d y → OptR (Reads n) e z → (OptR (Reads n) d y' ∧ (y = none ↔ y' = none)) ∧ OptR (Reads n) e z' ∧ (z = none ↔ z' = none))
    (keep : (y = none ↔ y' = none) ∧ (z = none ↔ z' = none)) :
    ∀ a, y' = some a → ∀ b, z' = some b → ∃ d e, s.children = [d, e] ∧ Reads n d a ∧ Reads n e b := by
  intro a ha b hb
  cases y with
  | none => rw [keep.1.1 rfl] at ha; cases ha
  | some y =>
    cases z with
    | none => rw [keep.2.1 rfl] at hb; cases hb
    | some z =>
      obtain ⟨d, e, h1, h2, h3⟩ := h y rfl z rfl
      obtain ⟨⟨k1, -⟩, k2, -⟩ := step d e (fun w hw => by cases hw; exact h2) (fun w hw => by cases hw; exact h3)
      exact ⟨d, e, h1, k1 a ha, k2 b hb⟩

theorem single_types {n : Nat} {s : Schema} {y y' : Option (Rd n)} (h : ∀ a, y = some a → ∃ d, s.children = [d] ∧ Reads n d a)
    (step : ∀ d, OptR (Reads n) d y → OptR (Reads n) d y') (keep : y = none ↔ y' = none) : ∀ a, y' = some a → ∃ d, s.children = [d] ∧ Reads n d a := by
  intro a ha
  cases y with
  | none => rw [keep.1 rfl] at ha; cases ha
  | some y =>
    obtain ⟨d, h1, h2⟩ := h y rfl
    exact ⟨d, h1, step d (fun w hw => by cases hw; exact h2) a ha⟩

theorem reads_skip (c : Codec) (fuel : Nat) : ∀ (n : Nat) (s : Schema) (m : Nat) (x x' : Rd n), Reads n s x → (rdOps c fuel n).skip x m = .ok x' → Reads n s x' := by
  intro n
  induction n with
  | zero => intro s m x x' h; exact h.elim
  | succ n ih =>
    intro s m x x' hx hb
    cases x with
    | leaf t r =>
      simp only [rdOps, RdNode.skip] at hb
      obtain ⟨r1, -, hb⟩ := Res.bind_ok_inv hb
      cases hb; exact hx
    | dict r =>
      simp only [rdOps, RdNode.skip] at hb
      obtain ⟨r1, -, hb⟩ := Res.bind_ok_inv hb
      cases hb; exact hx
    | bare t r =>
      simp only [rdOps, RdNode.skip] at hb
      obtain ⟨r1, -, hb⟩ := Res.bind_ok_inv hb
      cases hb; exact hx
    | struct kind p i xs =>
      simp only [rdOps, RdNode.skip] at hb
      obtain ⟨⟨p1, xs1⟩, e1, hb⟩ := Res.bind_ok_inv hb
      cases hb
      exact ⟨hx.1, structSkip_types ih _ _ _ _ _ hx.2 e1⟩
    | list kind p l i y =>
      simp only [rdOps, RdNode.skip] at hb
      obtain ⟨⟨p1, l1, y1⟩, e1, hb⟩ := Res.bind_ok_inv hb
      cases hb
      have hk := listSkip_types (R := fun _ _ => True) (d := s) (fun _ _ _ _ _ _ => trivial) _ _ _ _ _ _ _ (fun _ _ => trivial) e1
      exact ⟨hx.1, single_types hx.2 (fun d h => (listSkip_types ih _ _ _ _ _ _ _ h e1).1) hk.2⟩
    | map kind p l i y z =>
      simp only [rdOps, RdNode.skip] at hb
      obtain ⟨⟨p1, l1, y1, z1⟩, e1, hb⟩ := Res.bind_ok_inv hb
      cases hb
      obtain ⟨⟨-, k1⟩, -, k2⟩ := mapSkip_types (R := fun _ _ => True) (d := s) (e := s) (fun _ _ _ _ _ _ => trivial) _ _ _ _ _ _ _ _ _ (fun _ _ => trivial) (fun _ _ => trivial) e1
      exact ⟨hx.1, pair_types hx.2 (fun d e h1 h2 => mapSkip_types ih _ _ _ _ _ _ _ _ _ h1 h2 e1) ⟨k1, k2⟩⟩

theorem reads_seek (c : Codec) (fuel : Nat) : ∀ (n : Nat) (s : Schema) (m : Nat) (x x' : Rd n), Reads n s x → (rdOps c fuel n).seekStride x m = .ok x' → Reads n s x' := by
  intro n
  induction n with
  | zero => intro s m x x' h; exact h.elim
  | succ n ih =>
    intro s m x x' hx hb
    cases x with
    | leaf t r =>
      simp only [rdOps, RdNode.seekStride] at hb
      obtain ⟨r1, -, hb⟩ := Res.bind_ok_inv hb
      cases hb; exact hx
    | dict r =>
      simp only [rdOps, RdNode.seekStride] at hb
      obtain ⟨r1, -, hb⟩ := Res.bind_ok_inv hb
      cases hb; exact hx
    | bare t r =>
      simp only [rdOps, RdNode.seekStride] at hb
      obtain ⟨r1, -, hb⟩ := Res.bind_ok_inv hb
      cases hb; exact hx
    | struct kind p i xs =>
      simp only [rdOps, RdNode.seekStride] at hb
      obtain ⟨p1, -, hb⟩ := Res.bind_ok_inv hb
      obtain ⟨xs1, e1, hb⟩ := Res.bind_ok_inv hb
      cases hb
      exact ⟨hx.1, seekAll_types (fun d x x' => ih d m x x') hx.2 e1⟩
    | list kind p l i y =>
      simp only [rdOps, RdNode.seekStride] at hb
      obtain ⟨⟨p1, l1⟩, -, hb⟩ := Res.bind_ok_inv hb
      obtain ⟨y1, e1, hb⟩ := Res.bind_ok_inv hb
      cases hb
      have hk := seekOn_types (R := fun _ _ => True) (d := s) (fun _ _ _ _ _ => trivial) (fun _ _ => trivial) e1
      exact ⟨hx.1, single_types hx.2 (fun d h => (seekOn_types (fun d x x' => ih d m x x') h e1).1) hk.2⟩
    | map kind p l i y z =>
      simp only [rdOps, RdNode.seekStride] at hb
      obtain ⟨⟨p1, l1⟩, -, hb⟩ := Res.bind_ok_inv hb
      obtain ⟨y1, e1, hb⟩ := Res.bind_ok_inv hb
      obtain ⟨z1, e2, hb⟩ := Res.bind_ok_inv hb
      cases hb
      have k1 := seekOn_types (R := fun _ _ => True) (d := s) (fun _ _ _ _ _ => trivial) (fun _ _ => trivial) e1
      have k2 := seekOn_types (R := fun _ _ => True) (d := s) (fun _ _ _ _ _ => trivial) (fun _ _ => trivial) e2
      exact ⟨hx.1, pair_types hx.2 (fun d e h1 h2 => ⟨seekOn_types (fun d x x' => ih d m x x') h1 e1, seekOn_types (fun d x x' => ih d m x x') h2 e2⟩) ⟨k1.2, k2.2⟩⟩

/-! ### Opening -/

/-- The reader `NewReader` chooses for a column. -/
def TagFor (s : Schema) (tag : ReaderTag) : Prop := ∃ enc, newReaderTag s.node.kind enc = .ok tag

theorem tagFor_leaf {s : Schema} {t : LeafTag} (h : TagFor s (.leaf t)) : t.For s.node.kind := by
  obtain ⟨enc, h⟩ := h
  cases hk : s.node.kind <;> rw [hk, newReaderTag] at h <;> first | (cases h; done) | ((repeat' split at h) <;> cases h <;> trivial)

theorem tagFor_other {s : Schema} {tag : ReaderTag} (h : TagFor s tag) : (tag = .dict → s.node.kind = .string) ∧ (tag = .struct → s.node.kind = .struct) ∧
    (tag = .list → s.node.kind = .list) ∧ (tag = .map → s.node.kind = .map) := by
  obtain ⟨enc, h⟩ := h
  cases hk : s.node.kind <;> rw [hk, newReaderTag] at h <;> first | (cases h; done) | ((repeat' split at h) <;> cases h <;> simp)

theorem for_plain {t : LeafTag} {k : TypeKind} (h : t.For k) : k.nested = false := by
  cases k <;> first | rfl | exact h.elim

theorem prune_node (q : Nat → Bool) (s : Schema) : (s.prune q).node = s.node := by cases s; rw [Schema.prune]; rfl

theorem prune_children (q : Nat → Bool) (s : Schema) : (s.prune q).children = match s.node.kind with
    | .struct => pruneSome q s.children
    | .list => pruneAll q s.children
    | .map => pruneAll q s.children
    | _ => [] := by
  cases s; rw [Schema.prune]; rfl

theorem prune_leaf {q : Nat → Bool} {s : Schema} (h : s.node.kind.nested = false) : (s.prune q).children = [] := by
  rw [prune_children]
  cases hk : s.node.kind <;> first | rfl | (rw [hk] at h; cases h)

theorem treesOf_reads {χ : Type} {R : Schema → χ → Prop} {f : Nat → Res χ} {q : Nat → Bool} : ∀ (cs : List Schema) (xs : List χ), (∀ c ∈ cs, ∀ x, q c.node.id = true → f c.node.id = .ok x → R (c.prune q) x) →
    treesOf f ((cs.map fun d => d.node.id).filter q) = .ok xs → List.Forall₂ R (pruneSome q cs) xs := by
  intro cs
  induction cs with
  | nil => intro xs _ h; simp only [List.map_nil, List.filter_nil, treesOf] at h; cases h; rw [pruneSome]; exact .nil
  | cons c cs ih =>
    intro xs each h
    simp only [List.map_cons, List.filter_cons] at h
    rw [pruneSome]
    split at h
    · rename_i hq
      rw [if_pos hq]
      rw [treesOf] at h
      obtain ⟨x, e1, h⟩ := Res.bind_ok_inv h
      obtain ⟨xs1, e2, h⟩ := Res.bind_ok_inv h
      cases h
      exact .cons (each c List.mem_cons_self x hq e1) (ih xs1 (fun c hc => each c (List.mem_cons_of_mem _ hc)) e2)
    · rename_i hq
      rw [if_neg hq]
      exact ih xs (fun c hc => each c (List.mem_cons_of_mem _ hc)) h

theorem treeOf_reads {bo : BatchOption} {ro : ROpts} {types : List RdType} {rs : List (Option FlatRd)} {s : Schema} (ht : TypesOf s types) (hw : s.WellFormed)
    (htags : ∀ c ∈ s.columns, bo.isInclude c.node.id = true → ∃ r, rs[c.node.id]? = some (some r) ∧ TagFor c r.tag) : ∀ (n : Nat) (d : Schema) (x : Rd n), d ∈ s.columns →
    bo.isInclude d.node.id = true → treeOf bo ro types rs n d.node.id = .ok x → Reads n (d.prune bo.isInclude) x := by
  intro n
  induction n with
  | zero => intro d x _ _ h; rw [treeOf] at h; cases h
  | succ n ih =>
    intro d x hd hi h
    obtain ⟨r, hr, hT⟩ := htags d hd hi
    obtain ⟨names, hty⟩ := ht.2 d hd
    obtain ⟨o1, o2, o3, o4⟩ := tagFor_other hT
    rw [treeOf] at h
    simp only [hty, hr] at h
    have hkids : ∀ c ∈ d.children, ∀ x, bo.isInclude c.node.id = true → treeOf bo ro types rs n c.node.id = .ok x → Reads n (c.prune bo.isInclude) x :=
      fun c hc x h1 h2 => ih c x (columns_child hd hc) h1 h2
    cases htag : r.tag with
    | leaf t =>
      simp only [htag] at h
      cases h
      rw [htag] at hT
      have hfor := tagFor_leaf hT
      have hpl := for_plain hfor
      rw [openLeaf]
      split
      · exact ⟨by rw [prune_node]; exact hpl, prune_leaf hpl⟩
      · exact ⟨by rw [prune_node]; exact hfor, prune_leaf hpl⟩
    | dict =>
      simp only [htag] at h
      cases h
      have hk := o1 htag
      have hpl : d.node.kind.nested = false := by rw [hk]; rfl
      rw [openLeaf]
      split
      · exact ⟨by rw [prune_node]; exact hpl, prune_leaf hpl⟩
      · exact ⟨by rw [prune_node]; exact hk, prune_leaf hpl⟩
    | struct =>
      simp only [htag] at h
      obtain ⟨xs, e1, h⟩ := Res.bind_ok_inv h
      cases h
      have hk := o2 htag
      refine ⟨by rw [prune_node]; exact hk, ?_⟩
      rw [prune_children, hk]
      exact treesOf_reads _ _ hkids e1
    | list =>
      simp only [htag] at h
      obtain ⟨y, e1, h⟩ := Res.bind_ok_inv h
      cases h
      have hk := o3 htag
      refine ⟨by rw [prune_node]; exact hk, fun y' hy => ?_⟩
      subst hy
      rw [prune_children, hk]
      have hl := (hw d hd).1 hk
      cases hc : d.children with
      | nil => rw [hc] at hl; cases hl
      | cons e es =>
        rw [hc] at hl e1
        cases es with
        | cons => simp at hl
        | nil =>
          simp only [List.map_cons, List.map_nil, List.filter_cons, List.filter_nil] at e1
          by_cases hie : bo.isInclude e.node.id = true
          · rw [if_pos hie] at e1
            simp only [List.getLast?_singleton, treeOn] at e1
            obtain ⟨y'', e2, e1⟩ := Res.bind_ok_inv e1
            cases e1
            exact ⟨_, by simp [pruneAll], hkids e (by rw [hc]; exact List.mem_cons_self) _ hie e2⟩
          · rw [if_neg hie] at e1
            simp only [List.getLast?_nil, treeOn] at e1
            cases e1
    | map =>
      simp only [htag] at h
      obtain ⟨y, e1, h⟩ := Res.bind_ok_inv h
      obtain ⟨z, e2, h⟩ := Res.bind_ok_inv h
      cases h
      have hk := o4 htag
      refine ⟨by rw [prune_node]; exact hk, fun y' hy z' hz => ?_⟩
      subst hy
      subst hz
      rw [prune_children, hk]
      have hl := (hw d hd).2.1 hk
      cases hc : d.children with
      | nil => rw [hc] at hl; cases hl
      | cons e es =>
        cases es with
        | nil => rw [hc] at hl; simp at hl
        | cons f fs =>
          cases fs with
          | cons => rw [hc] at hl; simp at hl
          | nil =>
            rw [hc] at e1 e2
            simp only [includedChild, List.map_cons, List.map_nil, List.getElem?_cons_zero, List.getElem?_cons_succ] at e1 e2
            by_cases hie : bo.isInclude e.node.id = true
            · by_cases hif : bo.isInclude f.node.id = true
              · rw [if_pos hie, treeOn] at e1
                rw [if_pos hif, treeOn] at e2
                obtain ⟨y'', e3, e1⟩ := Res.bind_ok_inv e1
                obtain ⟨z'', e4, e2⟩ := Res.bind_ok_inv e2
                cases e1
                cases e2
                exact ⟨_, _, by simp [pruneAll], hkids e (by rw [hc]; simp) _ hie e3, hkids f (by rw [hc]; simp) _ hif e4⟩
              · rw [if_neg hif, treeOn] at e2; cases e2
            · rw [if_neg hie, treeOn] at e1; cases e1

/-! ### New vectors -/

theorem makeSlice_mild {k : TypeKind} {v : GoVal} (m : Nat) (h : k.Holds v) : k.Mild (some (makeSlice m v)) := by
  intro b hb r hr
  cases hb
  rw [makeSlice] at hr
  rw [(List.mem_replicate.1 hr).2]
  exact h

theorem zero_holds (k : TypeKind) : k.Holds k.zero := by
  cases k <;> first | exact .inl rfl | exact .inr rfl

theorem create_loose {o : BatchOption} (s : Schema) : s.WellFormed → ∀ v, createVec o s = .ok v → Loose (s.prune o.isInclude) v ∧ (o.isInclude s.node.id = false → v = .nil) ∧ (v = .nil → o.isInclude s.node.id = false) := by
  induction s using Schema.ind with
  | h n cs ih =>
    intro hw v hv
    have hchild : ∀ c ∈ cs, c.WellFormed := fun c hc d hd => hw d (columns_trans (columns_child (self_mem_columns _) hc) hd)
    have hl := hw _ (self_mem_columns _)
    rw [createVec] at hv
    by_cases hi : o.isInclude n.id = true
    · rw [if_pos hi] at hv
      simp only [node_mk]
      rw [Schema.prune]
      have hvs : ∀ (ds : List Schema) vs, (∀ c ∈ ds, c ∈ cs) → createVecs o ds = .ok vs → List.Forall₂ Loose (pruneSome o.isInclude ds) vs := by
        intro ds
        induction ds with
        | nil => intro vs _ h; rw [createVecs] at h; cases h; rw [pruneSome]; exact .nil
        | cons c ds ihd =>
          intro vs hd h
          rw [createVecs] at h
          obtain ⟨v, e1, h⟩ := Res.bind_ok_inv h
          obtain ⟨vs1, e2, h⟩ := Res.bind_ok_inv h
          have hr := ihd vs1 (fun c hc => hd c (List.mem_cons_of_mem _ hc)) e2
          obtain ⟨k1, k2, k3⟩ := ih c (hd c List.mem_cons_self) (hchild c (hd c List.mem_cons_self)) v e1
          rw [pruneSome]
          cases v with
          | nil =>
            cases h
            rw [if_neg (by rw [k3 rfl]; decide)]
            exact hr
          | mk id kk a ws =>
            cases h
            rw [if_pos (by cases hq : o.isInclude c.node.id with | true => rfl | false => cases k2 hq)]
            exact .cons k1 hr
      have hown : ∀ (b : Bool) (g : GoVal), n.kind.Holds g → n.kind.Mild (if b then none else some (makeSlice o.rowSize g)) := by
        intro b g hg
        cases b with
        | true => exact .none
        | false => exact makeSlice_mild _ hg
      cases hk : n.kind
      all_goals simp only [hk] at hv ⊢
      all_goals rw [hk] at hown
      case union => cases hv
      case struct =>
        obtain ⟨vs, e1, hv⟩ := Res.bind_ok_inv hv
        cases hv
        refine ⟨?_, by simp [hi], by simp⟩
        have := Loose.mk n (pruneSome o.isInclude cs) (if n.hasNulls && !o.notCreateVector then some (makeSlice o.rowSize .nil) else none) vs (plain_struct hk)
          (by split
              · exact makeSlice_mild _ (.inl rfl)
              · exact .none) (hvs cs vs (fun _ h => h) e1)
        rw [hk] at this
        exact this
      case list =>
        obtain ⟨w, e1, hv⟩ := Res.bind_ok_inv hv
        cases hv
        refine ⟨?_, by simp [hi], by simp⟩
        have hlen := hl.1 hk
        simp only [Schema.children] at hlen
        cases cs with
        | nil => cases hlen
        | cons c cs =>
          cases cs with
          | cons => simp at hlen
          | nil =>
            rw [createNth] at e1
            obtain ⟨k1, -, -⟩ := ih c List.mem_cons_self (hchild c List.mem_cons_self) w e1
            have := Loose.mk n (pruneAll o.isInclude [c]) (if o.notCreateVector then none else some (makeSlice o.rowSize .nil)) [w] (fun h => by rw [hk] at h; cases h)
              (by rw [hk]; exact hown _ _ (.inl rfl)) (by simp only [pruneAll]; exact .cons k1 .nil)
            rw [hk] at this
            exact this
      case map =>
        obtain ⟨w, e1, hv⟩ := Res.bind_ok_inv hv
        obtain ⟨w', e2, hv⟩ := Res.bind_ok_inv hv
        cases hv
        refine ⟨?_, by simp [hi], by simp⟩
        have hlen := hl.2.1 hk
        simp only [Schema.children] at hlen
        cases cs with
        | nil => cases hlen
        | cons c cs =>
          cases cs with
          | nil => simp at hlen
          | cons d cs =>
            cases cs with
            | cons => simp at hlen
            | nil =>
              rw [createNth] at e1
              rw [createNth, createNth] at e2
              obtain ⟨k1, -, -⟩ := ih c (by simp) (hchild c (by simp)) w e1
              obtain ⟨k2, -, -⟩ := ih d (by simp) (hchild d (by simp)) w' e2
              have := Loose.mk n (pruneAll o.isInclude [c, d]) (some (makeSlice o.rowSize .nil)) [w, w'] (fun h => by rw [hk] at h; cases h)
                (makeSlice_mild _ (.inl rfl)) (by simp only [pruneAll]; exact .cons k1 (.cons k2 .nil))
              rw [hk] at this
              exact this
      all_goals
        cases hv
        refine ⟨?_, by simp [hi], by simp⟩
        have := Loose.mk n [] (if o.notCreateVector then none else some (makeSlice o.rowSize n.kind.zero)) [] (fun _ => rfl) (by rw [hk]; exact hown _ _ (zero_holds _)) .nil
        rw [hk] at this
        exact this
    · rw [if_neg hi] at hv
      cases hv
      exact ⟨.nil _, fun _ => rfl, fun _ => by rw [node_mk]; simpa using hi⟩

/-! ### Files -/

/-- The reader of a stripe has the types of the columns. -/
def StripeReader.Types {n : Nat} (s : Schema) (a : StripeReader (Rd n)) : Prop := ∀ x, a.reader = some x → Reads n s x

/-- All the readers of a file have the types of the columns. -/
def BatchReader.Types {n : Nat} (s : Schema) (a : BatchReader (Rd n)) : Prop := ∀ b ∈ a.stripes, StripeReader.Types s b

variable {n : Nat} {s : Schema} (c : Codec) (fuel : Nat)

theorem stripe_next_types {a a' : StripeReader (Rd n)} {v v' : Vec} {stop : Bool} (h : a.Types s) (hv : Void s v ∨ (Done s v ∧ v.len < v.cap ∧ a.cursor + 1 < a.numberOfRows))
    (hn : a.next (rdOps c fuel n) v = .ok (stop, v', a')) : Done s v' ∧ a'.Types s ∧ (stop = false → a'.cursor + 1 < a'.numberOfRows) := by
  rw [StripeReader.next] at hn
  obtain ⟨w, e1, hn⟩ := Res.bind_ok_inv hn
  cases hr : a.reader with
  | none => rw [hr] at hn; cases hn
  | some x =>
    rw [hr] at hn
    simp only at hn
    obtain ⟨⟨w', x'⟩, e2, hn⟩ := Res.bind_ok_inv hn
    injection hn with hn
    simp only [Prod.mk.injEq] at hn
    obtain ⟨rfl, rfl, rfl⟩ := hn
    obtain ⟨k1, k2, k3⟩ := reads_next c fuel n s x w w' x' (h x hr) e2
    rw [StripeReader.prepareVector] at e1
    have hdone : Done s w' ∧ Reads n s x' := by
      by_cases hpos : 0 < (if ((a.numberOfRows : Int) - a.cursor) < ((v.cap : Int) - v.len) then ((a.numberOfRows : Int) - a.cursor) else ((v.cap : Int) - v.len))
      · have hd : Done s v := by
          rcases hv with hv | hv
          · exact void_done s v hv
          · exact hv.1
        exact k3 (size_ready hpos s v w hd e1)
      · rcases hv with hv | ⟨-, h1, h2⟩
        · obtain ⟨m1, m2⟩ := k1 (size_void (Int.not_lt.1 hpos) s v w hv e1)
          exact ⟨void_done s _ m1, m2⟩
        · exfalso
          apply hpos
          split <;> omega
    refine ⟨hdone.1, fun y hy => by cases hy; exact hdone.2, fun hs => ?_⟩
    simp only [decide_eq_false_iff_not] at hs
    simp only
    omega

theorem loop_types : ∀ (f : Nat) (a a' : BatchReader (Rd n)) (v v' : Vec), a.Types s →
    (Void s v ∨ (Done s v ∧ v.len < v.cap ∧ ∀ b, a.stripes[a.stripeIndex.toNat]? = some b → b.cursor + 1 < b.numberOfRows)) → a.nextLoop (rdOps c fuel n) f v = .ok (v', a') →
    Done s v' ∧ a'.Types s := by
  intro f
  induction f with
  | zero =>
    intro a a' v v' h hv hn
    have hd : Done s v := by
      rcases hv with hv | hv
      · exact void_done s v hv
      · exact hv.1
    rw [BatchReader.nextLoop.eq_def] at hn
    simp only at hn
    split at hn
    · cases hn
    · cases g : a.stripes[a.stripeIndex.toNat]? with
      | none =>
        rw [g] at hn
        simp only at hn
        injection hn with hn
        simp only [Prod.mk.injEq] at hn
        obtain ⟨rfl, rfl⟩ := hn
        exact ⟨hd, h⟩
      | some b => rw [g] at hn; cases hn
  | succ f ih =>
    intro a a' v v' h hv hn
    have hd : Done s v := by
      rcases hv with hv | hv
      · exact void_done s v hv
      · exact hv.1
    rw [BatchReader.nextLoop.eq_def] at hn
    simp only at hn
    split at hn
    · cases hn
    · cases g : a.stripes[a.stripeIndex.toNat]? with
      | none =>
        rw [g] at hn
        simp only at hn
        injection hn with hn
        simp only [Prod.mk.injEq] at hn
        obtain ⟨rfl, rfl⟩ := hn
        exact ⟨hd, h⟩
      | some b =>
        rw [g] at hn
        simp only at hn
        obtain ⟨⟨stop, w, b'⟩, e1, hn⟩ := Res.bind_ok_inv hn
        have hb : b.Types s := h b (List.mem_of_getElem? g)
        obtain ⟨k1, k2, k3⟩ := stripe_next_types c fuel hb (hv.imp id fun h => ⟨h.1, h.2.1, h.2.2 b g⟩) e1
        have hnew : BatchReader.Types s { a with stripes := a.stripes.set a.stripeIndex.toNat b' } := by
          intro y hy
          rcases List.mem_or_eq_of_mem_set hy with hy | rfl
          · exact h y hy
          · exact k2
        cases stop with
        | true =>
          simp only [if_true] at hn
          injection hn with hn
          simp only [Prod.mk.injEq] at hn
          obtain ⟨rfl, rfl⟩ := hn
          exact ⟨k1, hnew⟩
        | false =>
          simp only [Bool.false_eq_true, if_false] at hn
          by_cases hfull : w.len ≥ w.cap
          · rw [if_pos hfull] at hn
            injection hn with hn
            simp only [Prod.mk.injEq] at hn
            obtain ⟨rfl, rfl⟩ := hn
            exact ⟨k1, hnew⟩
          · rw [if_neg hfull] at hn
            refine ih _ _ _ _ hnew (.inr ⟨k1, by omega, fun y hy => ?_⟩) hn
            rw [List.getElem?_set_self (List.getElem?_eq_some_iff.1 g).1] at hy
            cases hy
            exact k3 rfl

theorem next_types (f : Nat) {a a' : BatchReader (Rd n)} {v v' : Vec} {stop : Bool} (h : a.Types s) (hv : Loose s v) (hn : a.next (rdOps c fuel n) f v = .ok (stop, v', a')) :
    Done s v' ∧ a'.Types s := by
  rw [BatchReader.next] at hn
  obtain ⟨w, e1, hn⟩ := Res.bind_ok_inv hn
  have hw := clear_void s v w hv e1
  by_cases hend : a.cursor ≥ a.numberOfRows - 1
  · rw [if_pos hend] at hn
    injection hn with hn
    simp only [Prod.mk.injEq] at hn
    obtain ⟨rfl, rfl, rfl⟩ := hn
    exact ⟨void_done s _ hw, h⟩
  · rw [if_neg hend] at hn
    obtain ⟨⟨w', a1⟩, e2, hn⟩ := Res.bind_ok_inv hn
    obtain ⟨k1, k2⟩ := loop_types c fuel f a a1 w w' h (.inl hw) e2
    simp only [Res.pure_eq] at hn
    injection hn with hn
    simp only [Prod.mk.injEq] at hn
    obtain ⟨rfl, rfl, rfl⟩ := hn
    refine ⟨k1, fun y hy => ?_⟩
    dsimp only at hy
    split at hy
    · exact k2 y hy
    · exact k2 y hy

theorem seek_types {a a' : BatchReader (Rd n)} {row : Nat} (h : a.Types s) (hn : a.seek (rdOps c fuel n) row = .ok a') : a'.Types s := by
  have loop : ∀ (xs : List (StripeReader (Rd n))), (∀ x ∈ xs, x.Types s) → ∀ i rows, a.seekLoop (rdOps c fuel n) row i rows xs = .ok a' → a'.Types s := by
    intro xs
    induction xs with
    | nil => intro _ i rows h; rw [BatchReader.seekLoop] at h; cases h
    | cons x xs ih =>
      intro hx i rows h'
      rw [BatchReader.seekLoop] at h'
      split at h'
      · obtain ⟨x', e1, h'⟩ := Res.bind_ok_inv h'
        injection h' with h'
        subst h'
        intro y hy
        rcases List.mem_or_eq_of_mem_set hy with hy | rfl
        · exact h y hy
        · rw [StripeReader.seek] at e1
          obtain ⟨o, -, e1⟩ := Res.bind_ok_inv e1
          cases hr : x.reader with
          | none => rw [hr] at e1; cases e1
          | some z =>
            rw [hr] at e1
            simp only at e1
            obtain ⟨z1, e2, e1⟩ := Res.bind_ok_inv e1
            obtain ⟨z2, e3, e1⟩ := Res.bind_ok_inv e1
            injection e1 with e1
            subst e1
            intro w hw
            cases hw
            exact reads_skip c fuel n s _ _ _ (reads_seek c fuel n s _ _ _ (hx x List.mem_cons_self z hr) e2) e3
      · exact ih (fun x hx' => hx x (List.mem_cons_of_mem _ hx')) _ _ h'
  rw [BatchReader.seek] at hn
  split at hn
  · cases hn
  · exact loop _ h _ _ hn

theorem tour_types (f : Nat) (ops : List RowOp) : ∀ (a : BatchReader (Rd n)) (v : Vec) (out : List (Bool × Vec)), a.Types s → Loose s v →
    a.tour (rdOps c fuel n) f id v ops = .ok out → ∀ p ∈ out, Done s p.2 := by
  induction ops with
  | nil => intro a v out _ _ h p hp; rw [BatchReader.tour] at h; cases h; cases hp
  | cons op ops ih =>
    intro a v out h hv hn
    cases op with
    | next =>
      rw [BatchReader.tour] at hn
      obtain ⟨⟨stop, w, a1⟩, e1, hn⟩ := Res.bind_ok_inv hn
      obtain ⟨rest, e2, hn⟩ := Res.bind_ok_inv hn
      cases hn
      obtain ⟨k1, k2⟩ := next_types c fuel f h hv e1
      intro p hp
      rcases List.mem_cons.1 hp with rfl | hp
      · exact k1
      · exact ih a1 w rest k2 (done_loose s w k1) e2 p hp
    | seek row =>
      rw [BatchReader.tour] at hn
      obtain ⟨a1, e1, hn⟩ := Res.bind_ok_inv hn
      exact ih a1 v out (seek_types c fuel h e1) hv hn

/-- Without a vector there is no `Next`. -/
theorem tour_nil {χ : Type} (X : RdOps χ) (f : Nat) (ops : List RowOp) : ∀ (a : BatchReader χ) (out : List (Bool × Vec)), a.tour X f id .nil ops = .ok out → out = [] := by
  induction ops with
  | nil => intro a out h; rw [BatchReader.tour] at h; cases h; rfl
  | cons op ops ih =>
    intro a out hn
    cases op with
    | next =>
      rw [BatchReader.tour] at hn
      obtain ⟨⟨stop, w, a1⟩, e1, hn⟩ := Res.bind_ok_inv hn
      rw [BatchReader.next] at e1
      obtain ⟨w, e1, -⟩ := Res.bind_ok_inv e1
      rw [Vec.clear] at e1
      cases e1
    | seek row =>
      rw [BatchReader.tour] at hn
      obtain ⟨a1, e1, hn⟩ := Res.bind_ok_inv hn
      exact ih a1 out hn

theorem stripe_types {E : Env} {ro : ROpts} {bo : BatchOption} {file : Bytes} {types : List RdType} {info : StripeInfo} {s : Schema} (num : s.Numbered) (ht : TypesOf s types) (hw : s.WellFormed)
    (hin : bo.isInclude s.node.id = true) {a : StripeReader (Rd types.length)} (h : newStripeReader E ro bo file types info = .ok a) : a.Types (s.prune bo.isInclude) := by
  rw [newStripeReader] at h
  obtain ⟨footer, e1, h⟩ := Res.bind_ok_inv h
  obtain ⟨r, e2, h⟩ := Res.bind_ok_inv h
  injection h with h
  subst h
  rw [initStripe] at e2
  obtain ⟨rs, f1, e2⟩ := Res.bind_ok_inv e2
  obtain ⟨rs', f2, e2⟩ := Res.bind_ok_inv e2
  obtain ⟨u, f3, e2⟩ := Res.bind_ok_inv e2
  have htags : ∀ c ∈ s.columns, bo.isInclude c.node.id = true → ∃ r, rs'[c.node.id]? = some (some r) ∧ TagFor c r.tag := by
    intro c hc hi
    obtain ⟨names, hn⟩ := ht.2 c hc
    obtain ⟨k1, k2⟩ := initColumns_get types rs f1
    obtain ⟨enc, tag, m1, m2, m3⟩ := k2 _ _ hn hi
    exact initStreams_kinds E ro file (fun _ tag => TagFor c tag) footer.streams _ _ rs rs' f2 _ _ m3 ⟨enc, m2⟩
  have hroot : s.node.id = 0 := by
    have h0 : 0 < s.columns.length := by cases s; simp [Schema.columns]
    have := numbered_at num 0 h0
    cases s
    simpa [Schema.columns] using this
  have hfirst : (types.find? fun t => bo.isInclude t.id).map (·.id) = some s.node.id := by
    obtain ⟨names, hn⟩ := ht.2 s (self_mem_columns s)
    rw [hroot] at hn
    cases types with
    | nil => simp at hn
    | cons t ts =>
      simp only [List.getElem?_cons_zero, Option.some.injEq] at hn
      have : bo.isInclude t.id = true := by rw [hn, ← hroot]; exact hin
      rw [List.find?_cons_of_pos (by simpa using this)]
      simp [hn, hroot]
  rw [hfirst, treeOn] at e2
  obtain ⟨x, e3, e2⟩ := Res.bind_ok_inv e2
  injection e2 with e2
  subst e2
  intro y hy
  cases hy
  exact treeOf_reads ht hw htags types.length s x (self_mem_columns s) hin e3

end Goorc
