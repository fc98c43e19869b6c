import Verif.Spec.Trees
import Verif.Proofs.Projection
import Verif.Proofs.DeliveredFile
import Verif.Proofs.Collections
/-
Vectors and readers for some of the columns, with lists and maps.
-/
namespace Goorc

/-! ### Vectors -/

/-- A vector for the columns `q` of a schema. -/
inductive Shaped (q : Nat → Bool) : Schema → Vec → Prop
  | leaf (n : SchemaNode) (cs : List Schema) (a : Option Slice) (plain : n.kind.nested = false) : Shaped q (.mk n cs) (.mk n.id n.kind a [])
  | struct (n : SchemaNode) (cs : List Schema) (a : Option Slice) (vs : List Vec) (kind : n.kind = .struct)
      (below : List.Forall₂ (Shaped q) (cs.filter fun c => q c.node.id) vs) : Shaped q (.mk n cs) (.mk n.id n.kind a vs)
  | coll (n : SchemaNode) (cs : List Schema) (a : Option Slice) (vs : List Vec) (kind : n.kind = .list ∨ n.kind = .map) (all : ∀ c ∈ cs, q c.node.id = true)
      (below : List.Forall₂ (Shaped q) cs vs) : Shaped q (.mk n cs) (.mk n.id n.kind a vs)

/-- A vector without rows, and nothing below it. -/
inductive Vec.Hollow : Vec → Prop
  | nil : Hollow .nil
  | mk (id : Nat) (k : TypeKind) (a : Option Slice) (vs : List Vec) (own : (a.map (·.len)).getD 0 = 0) (below : ∀ w ∈ vs, w.Hollow) : Hollow (.mk id k a vs)

/-- A vector for the columns `q` of a schema, with room for `B` rows, and with `len` rows. -/
inductive Suited (q : Nat → Bool) (B len : Nat) : Schema → Vec → Prop
  | leaf (n : SchemaNode) (cs : List Schema) (a : Slice) (plain : n.kind.nested = false) (size : a.Sized B len) : Suited q B len (.mk n cs) (.mk n.id n.kind (some a) [])
  | struct (n : SchemaNode) (cs : List Schema) (a : Option Slice) (vs : List Vec) (kind : n.kind = .struct)
      (flags : if n.hasNulls then ∃ b, a = some b ∧ b.Sized B len else a = none)
      (one : (cs.filter fun c => q c.node.id) ≠ [])
      (below : List.Forall₂ (Suited q B len) (cs.filter fun c => q c.node.id) vs) : Suited q B len (.mk n cs) (.mk n.id n.kind a vs)
  | coll (n : SchemaNode) (cs : List Schema) (a : Slice) (vs : List Vec) (kind : n.kind = .list ∨ n.kind = .map) (size : a.Sized B len)
      (hollow : len = 0 → ∀ w ∈ vs, w.Hollow) : Suited q B len (.mk n cs) (.mk n.id n.kind (some a) vs)

/-- A choice that makes sense. -/
def Chosen (q : Nat → Bool) (s : Schema) : Prop :=
  ∀ c ∈ s.columns, (c.node.kind = .struct → (q c.node.id = true ↔ ∃ d ∈ c.children, q d.node.id = true)) ∧
    (c.node.kind = .list ∨ c.node.kind = .map → ∀ d ∈ c.children, q d.node.id = q c.node.id)

theorem Chosen.child {q : Nat → Bool} {n : SchemaNode} {cs : List Schema} (h : Chosen q (.mk n cs)) {c : Schema} (hc : c ∈ cs) : Chosen q c :=
  fun d hd => h d (columns_trans (columns_child (self_mem_columns _) hc) hd)

theorem Chosen.inside {q : Nat → Bool} {n : SchemaNode} {cs : List Schema} (h : Chosen q (.mk n cs)) (hk : n.kind = .list ∨ n.kind = .map) (hq : q n.id = true) :
    ∀ c ∈ cs, q c.node.id = true := by
  intro c hc
  rw [(h _ (self_mem_columns _)).2 hk c hc]
  exact hq

variable {q q₁ q₂ : Nat → Bool} {B len : Nat}

theorem Shaped.kept {s : Schema} {v : Vec} (h : Shaped q s v) (p : Nat → Bool) : v.kept p = p s.node.id := by
  cases h <;> rfl

theorem Shaped.not_nil {s : Schema} {v : Vec} (h : Shaped q s v) : v ≠ .nil := by
  cases h <;> simp

theorem hollow_len {v : Vec} (h : v.Hollow) : v.len = 0 := by
  induction h with
  | nil => rfl
  | mk id k a vs own below ih =>
    rw [Vec.len.eq_def]
    simp only
    rw [if_neg (by simp [own])]
    cases vs with
    | nil => rfl
    | cons w ws => exact ih w List.mem_cons_self

theorem keepAll_mem {vs : List Vec} {w : Vec} (h : w ∈ keepAll q vs) : ∃ v ∈ vs, w = v.keep q := by
  induction vs with
  | nil => rw [keepAll] at h; cases h
  | cons v vs ih =>
    rw [keepAll] at h
    split at h
    · rcases List.mem_cons.1 h with rfl | h
      · exact ⟨v, List.mem_cons_self, rfl⟩
      · obtain ⟨x, h1, h2⟩ := ih h
        exact ⟨x, List.mem_cons_of_mem _ h1, h2⟩
    · obtain ⟨x, h1, h2⟩ := ih h
      exact ⟨x, List.mem_cons_of_mem _ h1, h2⟩

theorem hollow_keep {v : Vec} (h : v.Hollow) (q : Nat → Bool) : (v.keep q).Hollow := by
  induction h with
  | nil => rw [Vec.keep]; exact .nil
  | mk id k a vs own below ih =>
    rw [Vec.keep]
    refine .mk id k a _ own fun w hw => ?_
    obtain ⟨x, h1, rfl⟩ := keepAll_mem hw
    exact ih x h1

theorem clear_hollow (v : Vec) : ∀ v', v.clear = .ok v' → v'.Hollow := by
  induction v using Vec.ind with
  | hn => intro v' h; rw [Vec.clear] at h; cases h
  | h id k a vs ih =>
    intro v' h
    rw [Vec.clear] at h
    obtain ⟨vs', e1, h⟩ := Res.bind_ok_inv h
    cases h
    have key : ∀ (us us' : List Vec), (∀ u ∈ us, u ∈ vs) → clearAll us = .ok us' → ∀ w ∈ us', w.Hollow := by
      intro us
      induction us with
      | nil => intro us' _ h w hw; rw [clearAll] at h; cases h; cases hw
      | cons u us ihu =>
        intro us' hm h w hw
        rw [clearAll] at h
        obtain ⟨u', e1, h⟩ := Res.bind_ok_inv h
        obtain ⟨us1, e2, h⟩ := Res.bind_ok_inv h
        cases h
        rcases List.mem_cons.1 hw with rfl | hw
        · exact ih u (hm u List.mem_cons_self) _ e1
        · exact ihu us1 (fun u hu => hm u (List.mem_cons_of_mem _ hu)) e2 w hw
    exact .mk id k _ _ (by cases a <;> rfl) (key vs vs' (fun _ h => h) e1)

theorem suited_len (s : Schema) : ∀ v, Suited q B len s v → v.len = len ∧ v.cap = B := by
  induction s using Schema.ind with
  | h n cs ih =>
    intro v h
    cases h with
    | leaf _ _ a plain size =>
      rw [Vec.len, Vec.cap]
      simp only [Option.map_some, Option.getD_some, size.2.1, size.1, and_true]
      split
      · rfl
      · omega
    | struct _ _ a vs kind flags one below =>
      generalize hf : (cs.filter fun c => q c.node.id) = fs at one below
      cases below with
      | nil => exact absurd rfl one
      | cons hc hcs =>
        rename_i c v fs vs
        obtain ⟨i1, i2⟩ := ih c (List.mem_of_mem_filter (hf ▸ List.mem_cons_self)) v hc
        rw [Vec.len]
        split at flags
        · obtain ⟨b, rfl, g1, g2, g3⟩ := flags
          simp only [Option.map_some, Option.getD_some, g2, i1, Vec.cap, g1, and_true]
          split <;> rfl
        · subst flags
          simp [i1, i2, Vec.cap]
    | coll _ _ a vs kind size hollow =>
      rw [Vec.len.eq_def, Vec.cap]
      simp only [Option.map_some, Option.getD_some, size.2.1, size.1, and_true]
      by_cases hl : len = 0
      · rw [if_neg (by simp [hl])]
        cases vs with
        | nil => exact hl.symm
        | cons w ws => rw [hl]; exact hollow_len (hollow hl w List.mem_cons_self)
      · rw [if_pos hl]

theorem Suited.kept {s : Schema} {v : Vec} (h : Suited q B len s v) (p : Nat → Bool) : v.kept p = p s.node.id := by
  cases h <;> rfl

theorem suited_keep (hsub : ∀ i, q₂ i = true → q₁ i = true) (s : Schema) : Chosen q₂ s → q₂ s.node.id = true → ∀ v, Suited q₁ B len s v → Suited q₂ B len s (v.keep q₂) := by
  induction s using Schema.ind with
  | h n cs ih =>
    intro hs hq v h
    cases h with
    | leaf _ _ a plain size => exact .leaf n cs a plain size
    | struct _ _ a vs kind flags one below =>
      have := keepAll_filter (q₂ := q₂) (R' := Suited q₂ B len) (fun c v h => h.kept q₂)
        (fun c v hc hv hq => ih c (List.mem_of_mem_filter hc) (hs.child (List.mem_of_mem_filter hc)) hq v hv) below
      rw [filter_within hsub] at this
      obtain ⟨d, hd, hdq⟩ := ((hs _ (self_mem_columns _)).1 kind).1 hq
      exact .struct n cs a _ kind flags (List.ne_nil_of_mem (List.mem_filter.2 ⟨hd, by exact hdq⟩)) this
    | coll _ _ a vs kind size hollow =>
      refine .coll n cs a _ kind size fun hl w hw => ?_
      obtain ⟨x, h1, rfl⟩ := keepAll_mem hw
      exact hollow_keep (hollow hl x h1) _

theorem keep_same (s : Schema) : ∀ v, Shaped q s v → v.keep q = v := by
  induction s using Schema.ind with
  | h n cs ih =>
    intro v h
    have key : ∀ fs vs, (∀ c ∈ fs, c ∈ cs ∧ q c.node.id = true) → List.Forall₂ (Shaped q) fs vs → keepAll q vs = vs := by
      intro fs vs hfs h
      induction h with
      | nil => rfl
      | cons hc hcs ihh =>
        obtain ⟨h1, h2⟩ := hfs _ List.mem_cons_self
        rw [keepAll, hc.kept, if_pos h2, ih _ h1 _ hc, ihh fun c hc => hfs c (List.mem_cons_of_mem _ hc)]
    cases h with
    | leaf _ _ a plain => rfl
    | struct _ _ a vs kind below =>
      rw [Vec.keep, key _ _ (fun c hc => List.mem_filter.1 hc) below]
    | coll _ _ a vs kind all below =>
      rw [Vec.keep, key _ _ (fun c hc => ⟨hc, all c hc⟩) below]

/-- When all the children are kept. -/
theorem keepAll_all {cs : List Schema} {vs : List Vec} (h : List.Forall₂ (Shaped q) cs vs) (hq : ∀ c ∈ cs, q₂ c.node.id = true) : keepAll q₂ vs = vs.map (·.keep q₂) := by
  induction h with
  | nil => rfl
  | cons hc hcs ih =>
    rw [keepAll, hc.kept, if_pos (hq _ List.mem_cons_self), ih fun c hc => hq c (List.mem_cons_of_mem _ hc)]
    rfl

/-! ### Clearing, sizing and filling -/

theorem clear_shaped (s : Schema) : ∀ v v', Shaped q₁ s v → v.clear = .ok v' → Shaped q₁ s v' ∧ (v.keep q₂).clear = .ok (v'.keep q₂) := by
  induction s using Schema.ind with
  | h n cs ih =>
    intro v v' h hv
    have key : ∀ (fs : List Schema) vs vs', (∀ c ∈ fs, c ∈ cs) → List.Forall₂ (Shaped q₁) fs vs → clearAll vs = .ok vs' →
        List.Forall₂ (Shaped q₁) fs vs' ∧ clearAll (keepAll q₂ vs) = .ok (keepAll q₂ vs') := fun fs vs vs' hfs below e =>
      all_keep (f := Vec.clear) (fs := clearAll) (by rw [clearAll]) (fun v vs => by rw [clearAll]) (fun c v h => h.kept q₂) (fun c v h => h.kept q₂) _ _ _
        (fun c hc v v' h1 h2 => ⟨(ih c (hfs c hc) v v' h1 h2).1, fun _ => (ih c (hfs c hc) v v' h1 h2).2⟩) below e
    cases h with
    | leaf _ _ a plain =>
      rw [Vec.clear, clearAll] at hv
      cases hv
      exact ⟨.leaf n cs _ plain, rfl⟩
    | struct _ _ a vs kind below =>
      rw [Vec.clear] at hv
      obtain ⟨vs', e1, hv⟩ := Res.bind_ok_inv hv
      cases hv
      obtain ⟨k1, k2⟩ := key _ _ _ (fun c hc => List.mem_of_mem_filter hc) below e1
      exact ⟨.struct n cs _ _ kind k1, by rw [Vec.keep, Vec.clear, k2]; rfl⟩
    | coll _ _ a vs kind all below =>
      rw [Vec.clear] at hv
      obtain ⟨vs', e1, hv⟩ := Res.bind_ok_inv hv
      cases hv
      obtain ⟨k1, k2⟩ := key _ _ _ (fun c hc => hc) below e1
      exact ⟨.coll n cs _ _ kind all k1, by rw [Vec.keep, Vec.clear, k2]; rfl⟩

theorem forall₂_step {R R' : Schema → Vec → Prop} {f : Vec → Res Vec} {fs : List Vec → Res (List Vec)} (hnil : fs [] = .ok [])
    (hcons : ∀ v vs, fs (v :: vs) = (do let v ← f v; let vs ← fs vs; pure (v :: vs))) : ∀ {cs : List Schema} {vs vs' : List Vec},
    (∀ c ∈ cs, ∀ v v', R c v → f v = .ok v' → R' c v') → List.Forall₂ R cs vs → fs vs = .ok vs' → List.Forall₂ R' cs vs' := by
  intro cs vs vs' each h
  induction h generalizing vs' with
  | nil => intro hf; rw [hnil] at hf; cases hf; exact .nil
  | cons hc hcs ih =>
    intro hf
    rw [hcons] at hf
    obtain ⟨v1, e1, hf⟩ := Res.bind_ok_inv hf
    obtain ⟨vs1, e2, hf⟩ := Res.bind_ok_inv hf
    cases hf
    exact .cons (each _ List.mem_cons_self _ _ hc e1) (ih (fun c hc => each c (List.mem_cons_of_mem _ hc)) e2)

theorem clear_suited (s : Schema) : ∀ v v', Suited q B len s v → v.clear = .ok v' → Suited q B 0 s v' := by
  induction s using Schema.ind with
  | h n cs ih =>
    intro v v' h hv
    cases h with
    | leaf _ _ a plain size =>
      rw [Vec.clear, clearAll] at hv
      cases hv
      exact .leaf n cs _ plain ⟨size.1, rfl, Nat.zero_le _⟩
    | struct _ _ a vs kind flags one below =>
      rw [Vec.clear] at hv
      obtain ⟨vs', e1, hv⟩ := Res.bind_ok_inv hv
      cases hv
      have k1 := forall₂_step (R' := Suited q B 0) (f := Vec.clear) (fs := clearAll) (by rw [clearAll]) (fun v vs => by rw [clearAll])
        (fun c hc v v' h1 h2 => ih c (List.mem_of_mem_filter hc) v v' h1 h2) below e1
      refine .struct n cs _ _ kind ?_ one k1
      split at flags
      · obtain ⟨b, rfl, g⟩ := flags
        rename_i hn
        rw [if_pos hn]
        exact ⟨_, rfl, g.1, rfl, Nat.zero_le _⟩
      · subst flags
        rename_i hn
        rw [if_neg hn]
        rfl
    | coll _ _ a vs kind size hollow =>
      have hh := clear_hollow _ _ hv
      rw [Vec.clear] at hv
      obtain ⟨vs', e1, hv⟩ := Res.bind_ok_inv hv
      cases hv
      cases hh with
      | mk _ _ _ _ own below => exact .coll n cs _ _ kind ⟨size.1, rfl, Nat.zero_le _⟩ fun _ => below

theorem emptyChild_ok {vs vs' : List Vec} {i : Nat} (h : emptyChild vs i = .ok vs') : ∃ id k a us, vs[i]? = some (.mk id k a us) ∧ vs' = vs.set i (.mk id k (a.map fun s => { s with len := 0 }) us) := by
  rw [emptyChild] at h
  cases hg : vs[i]? with
  | none => rw [hg] at h; cases h
  | some v =>
    rw [hg] at h
    cases v with
    | nil => cases h
    | mk id k a us =>
      cases h
      exact ⟨id, k, a, us, rfl, rfl⟩

theorem shaped_own {s : Schema} {id : Nat} {k : TypeKind} {a b : Option Slice} {us : List Vec} (h : Shaped q s (.mk id k a us)) : Shaped q s (.mk id k b us) := by
  cases h with
  | leaf n cs _ plain => exact .leaf n cs b plain
  | struct n cs _ _ kind below => exact .struct n cs b _ kind below
  | coll n cs _ _ kind all below => exact .coll n cs b _ kind all below

theorem forall₂_put {R : Schema → Vec → Prop} {cs : List Schema} {vs : List Vec} (h : List.Forall₂ R cs vs) : ∀ (i : Nat) (v w : Vec), vs[i]? = some v → (∀ c, R c v → R c w) → List.Forall₂ R cs (vs.set i w) := by
  induction h with
  | nil => intro i v w hg; simp at hg
  | cons hc hcs ih =>
    intro i v w hg hr
    cases i with
    | zero => simp only [List.getElem?_cons_zero, Option.some.injEq] at hg; subst hg; exact .cons (hr _ hc) hcs
    | succ i => exact .cons hc (ih i v w (by simpa using hg) hr)

theorem empty_shaped {cs : List Schema} {vs vs' : List Vec} {i : Nat} (h : List.Forall₂ (Shaped q₁) cs vs) (he : emptyChild vs i = .ok vs') :
    List.Forall₂ (Shaped q₁) cs vs' ∧ emptyChild (vs.map (·.keep q₂)) i = .ok (vs'.map (·.keep q₂)) := by
  obtain ⟨id, k, a, us, hg, rfl⟩ := emptyChild_ok he
  refine ⟨forall₂_put h i _ _ hg fun c => shaped_own, ?_⟩
  rw [emptyChild, List.getElem?_map, hg]
  simp only [Option.map_some, Vec.keep, List.map_set]

theorem empty_hollow {vs vs' : List Vec} {i : Nat} (h : ∀ w ∈ vs, w.Hollow) (he : emptyChild vs i = .ok vs') : ∀ w ∈ vs', w.Hollow := by
  obtain ⟨id, k, a, us, hg, rfl⟩ := emptyChild_ok he
  intro w hw
  rcases List.mem_or_eq_of_mem_set hw with hw | rfl
  · exact h w hw
  · have := h _ (List.mem_of_getElem? hg)
    cases this with
    | mk _ _ _ _ own below => exact .mk id k _ us (by cases a <;> rfl) below

theorem size_leaf {hasNulls : List Bool} {size : Int} {id : Nat} {k : TypeKind} (plain : k.nested = false) (a : Option Slice) (vs : List Vec) :
    setVectorSize hasNulls size (.mk id k a vs) = (do let s ← resize size a; pure (.mk id k s vs)) := by
  cases k <;> first | (exfalso; simp [TypeKind.nested] at plain; done) | (rw [setVectorSize] <;> simp)

theorem size_shaped {hasNulls : List Bool} {size : Int} (s : Schema) : Chosen q₂ s → ∀ v v', Shaped q₁ s v →
    setVectorSize hasNulls size v = .ok v' → Shaped q₁ s v' ∧ (q₂ s.node.id = true → setVectorSize hasNulls size (v.keep q₂) = .ok (v'.keep q₂)) := by
  induction s using Schema.ind with
  | h n cs ih =>
    intro hch v v' h hv
    cases h with
    | leaf _ _ a plain =>
      rw [size_leaf plain] at hv
      obtain ⟨a', e1, hv⟩ := Res.bind_ok_inv hv
      cases hv
      refine ⟨.leaf n cs a' plain, fun _ => ?_⟩
      simp only [Vec.keep, keepAll]
      rw [size_leaf plain, e1]
      rfl
    | struct _ _ a vs kind below =>
      rw [kind, setVectorSize] at hv
      cases h0 : hasNulls[n.id]? with
      | none => rw [h0] at hv; cases hv
      | some hn =>
        rw [h0] at hv
        simp only at hv
        obtain ⟨a', e1, hv⟩ := Res.bind_ok_inv hv
        obtain ⟨vs', e2, hv⟩ := Res.bind_ok_inv hv
        cases hv
        obtain ⟨k1, k2⟩ := all_keep (q₂ := q₂) (f := setVectorSize hasNulls size) (fs := setVectorSizes hasNulls size) (by rw [setVectorSizes]) (fun v vs => by rw [setVectorSizes])
          (fun c v h => h.kept q₂) (fun c v h => h.kept q₂) _ _ _ (fun c hc v v' h1 h2 => ih c (List.mem_of_mem_filter hc) (hch.child (List.mem_of_mem_filter hc)) v v' h1 h2) below e2
        have := Shaped.struct n cs a' vs' kind k1
        rw [kind] at this ⊢
        refine ⟨this, fun _ => ?_⟩
        simp only [Vec.keep]
        rw [setVectorSize]
        simp only [h0, e1, k2, Res.ok_bind]
        rfl
    | coll _ _ a vs kind all below =>
      have hall := hch.inside kind
      rcases kind with kind | kind
      · rw [kind, setVectorSize] at hv
        obtain ⟨a', e1, hv⟩ := Res.bind_ok_inv hv
        obtain ⟨vs', e2, hv⟩ := Res.bind_ok_inv hv
        cases hv
        obtain ⟨k1, k2⟩ := empty_shaped (q₂ := q₂) below e2
        have := Shaped.coll n cs a' vs' (.inl kind) all k1
        rw [kind] at this ⊢
        refine ⟨this, fun hq => ?_⟩
        simp only [Vec.keep]
        rw [keepAll_all below (hall hq), keepAll_all k1 (hall hq), setVectorSize]
        simp only [e1, k2, Res.ok_bind]
        rfl
      · rw [kind, setVectorSize] at hv
        obtain ⟨a', e1, hv⟩ := Res.bind_ok_inv hv
        obtain ⟨vs', e2, hv⟩ := Res.bind_ok_inv hv
        obtain ⟨vs'', e3, hv⟩ := Res.bind_ok_inv hv
        cases hv
        obtain ⟨k1, k2⟩ := empty_shaped (q₂ := q₂) below e2
        obtain ⟨k3, k4⟩ := empty_shaped (q₂ := q₂) k1 e3
        have := Shaped.coll n cs a' vs'' (.inr kind) all k3
        rw [kind] at this ⊢
        refine ⟨this, fun hq => ?_⟩
        simp only [Vec.keep]
        rw [keepAll_all below (hall hq), keepAll_all k3 (hall hq), setVectorSize]
        simp only [e1, k2, k4, Res.ok_bind]
        rfl

theorem size_suited {hasNulls : List Bool} {size : Int} (hpos : len = 0 ∨ 0 < size) (s : Schema) : (∀ c ∈ s.columns, hasNulls[c.node.id]? = some c.node.hasNulls) → ∀ v v', Suited q B len s v →
    setVectorSize hasNulls size v = .ok v' → Suited q B size.toNat s v' := by
  induction s using Schema.ind with
  | h n cs ih =>
    intro hn v v' h hv
    cases h with
    | leaf _ _ a plain size' =>
      rw [size_leaf plain] at hv
      obtain ⟨a', e1, hv⟩ := Res.bind_ok_inv hv
      cases hv
      obtain ⟨b, rfl, hb⟩ := resize_sized size' e1
      exact .leaf n cs b plain hb
    | struct _ _ a vs kind flags one below =>
      have h0 := hn _ (self_mem_columns _)
      simp only [node_mk] at h0
      rw [kind, setVectorSize] at hv
      simp only [h0] at hv
      obtain ⟨a', e1, hv⟩ := Res.bind_ok_inv hv
      obtain ⟨vs', e2, hv⟩ := Res.bind_ok_inv hv
      cases hv
      have k1 := forall₂_step (R' := Suited q B size.toNat) (f := setVectorSize hasNulls size) (fs := setVectorSizes hasNulls size) (by rw [setVectorSizes]) (fun v vs => by rw [setVectorSizes])
        (fun c hc v v' h1 h2 => ih c (List.mem_of_mem_filter hc) (fun d hd => hn d (columns_trans (columns_child (self_mem_columns _) (List.mem_of_mem_filter hc)) hd)) v v' h1 h2) below e2
      have := Suited.struct (B := B) (len := size.toNat) n cs a' vs' kind (by
        split at flags
        · obtain ⟨b, rfl, g⟩ := flags
          rename_i hnn
          rw [if_pos hnn] at e1 ⊢
          exact resize_sized g e1
        · subst flags
          rename_i hnn
          rw [if_neg hnn] at e1 ⊢
          cases e1
          rfl) one k1
      rw [kind] at this
      exact this
    | coll _ _ a vs kind size' hollow =>
      have hh : size.toNat = 0 → ∀ w ∈ vs, w.Hollow := by
        intro hz
        rcases hpos with hpos | hpos
        · exact hollow hpos
        · omega
      rcases kind with kind | kind
      · rw [kind, setVectorSize] at hv
        obtain ⟨a', e1, hv⟩ := Res.bind_ok_inv hv
        obtain ⟨vs', e2, hv⟩ := Res.bind_ok_inv hv
        cases hv
        obtain ⟨b, rfl, hb⟩ := resize_sized size' e1
        have := Suited.coll (q := q) n cs b vs' (.inl kind) hb fun hz => empty_hollow (hh hz) e2
        rw [kind] at this
        exact this
      · rw [kind, setVectorSize] at hv
        obtain ⟨a', e1, hv⟩ := Res.bind_ok_inv hv
        obtain ⟨vs', e2, hv⟩ := Res.bind_ok_inv hv
        obtain ⟨vs'', e3, hv⟩ := Res.bind_ok_inv hv
        cases hv
        obtain ⟨b, rfl, hb⟩ := resize_sized size' e1
        have := Suited.coll (q := q) n cs b vs'' (.inr kind) hb fun hz => empty_hollow (empty_hollow (hh hz) e2) e3
        rw [kind] at this
        exact this

theorem fill_shaped (s : Schema) : ∀ flags v v', Shaped q₁ s v → fillDown flags v = .ok v' → Shaped q₁ s v' ∧ fillDown flags (v.keep q₂) = .ok (v'.keep q₂) := by
  induction s using Schema.ind with
  | h n cs ih =>
    intro flags v v' h hv
    have key : ∀ (g : List Bool) (fs : List Schema) vs vs', (∀ c ∈ fs, c ∈ cs) → List.Forall₂ (Shaped q₁) fs vs → fillDownAll g vs = .ok vs' →
        List.Forall₂ (Shaped q₁) fs vs' ∧ fillDownAll g (keepAll q₂ vs) = .ok (keepAll q₂ vs') := fun g fs vs vs' hfs below e =>
      all_keep (f := fillDown g) (fs := fillDownAll g) (by rw [fillDownAll]) (fun v vs => by rw [fillDownAll]) (fun c v h => h.kept q₂) (fun c v h => h.kept q₂) _ _ _
        (fun c hc v v' h1 h2 => ⟨(ih c (hfs c hc) _ v v' h1 h2).1, fun _ => (ih c (hfs c hc) _ v v' h1 h2).2⟩) below e
    cases h with
    | leaf _ _ a plain =>
      have hv' := hv
      rw [fillDown] at hv
      obtain ⟨a', e1, hv⟩ := Res.bind_ok_inv hv
      rw [fillDownAll] at hv
      cases hv
      exact ⟨.leaf n cs _ plain, hv'⟩
    | struct _ _ a vs kind below =>
      rw [fillDown] at hv
      obtain ⟨a', e1, hv⟩ := Res.bind_ok_inv hv
      obtain ⟨vs', e2, hv⟩ := Res.bind_ok_inv hv
      cases hv
      obtain ⟨k1, k2⟩ := key _ _ _ _ (fun c hc => List.mem_of_mem_filter hc) below e2
      exact ⟨.struct n cs _ _ kind k1, by rw [Vec.keep, fillDown, e1]; simp only [Res.ok_bind, k2]; rfl⟩
    | coll _ _ a vs kind all below =>
      rw [fillDown] at hv
      obtain ⟨a', e1, hv⟩ := Res.bind_ok_inv hv
      obtain ⟨vs', e2, hv⟩ := Res.bind_ok_inv hv
      cases hv
      obtain ⟨k1, k2⟩ := key _ _ _ _ (fun c hc => hc) below e2
      exact ⟨.coll n cs _ _ kind all k1, by rw [Vec.keep, fillDown, e1]; simp only [Res.ok_bind, k2]; rfl⟩

theorem fill_hollow (v : Vec) : ∀ flags v', v.Hollow → fillDown flags v = .ok v' → v'.Hollow := by
  induction v using Vec.ind with
  | hn => intro flags v' _ h; rw [fillDown] at h; cases h
  | h id k a vs ih =>
    intro flags v' hh h
    rw [fillDown] at h
    obtain ⟨a', e1, h⟩ := Res.bind_ok_inv h
    obtain ⟨vs', e2, h⟩ := Res.bind_ok_inv h
    cases h
    cases hh with
    | mk _ _ _ _ own below =>
      have key : ∀ (g : List Bool) (us us' : List Vec), (∀ u ∈ us, u ∈ vs) → fillDownAll g us = .ok us' → ∀ w ∈ us', w.Hollow := by
        intro g us
        induction us with
        | nil => intro us' _ h w hw; rw [fillDownAll] at h; cases h; cases hw
        | cons u us ihu =>
          intro us' hm h w hw
          rw [fillDownAll] at h
          obtain ⟨u', e1, h⟩ := Res.bind_ok_inv h
          obtain ⟨us1, e2, h⟩ := Res.bind_ok_inv h
          cases h
          rcases List.mem_cons.1 hw with rfl | hw
          · exact ih u (hm u List.mem_cons_self) _ _ (below u (hm u List.mem_cons_self)) e1
          · exact ihu us1 (fun u hu => hm u (List.mem_cons_of_mem _ hu)) e2 w hw
      refine .mk id k a' vs' ?_ (key _ vs vs' (fun _ h => h) e2)
      rw [setNulls] at e1
      split at e1
      · cases e1
        cases a with
        | none => rfl
        | some a => exact own
      · cases e1

theorem fill_suited (s : Schema) : ∀ flags v v', Suited q B len s v → fillDown flags v = .ok v' → Suited q B len s v' := by
  induction s using Schema.ind with
  | h n cs ih =>
    intro flags v v' h hv
    cases h with
    | leaf _ _ a plain size =>
      rw [fillDown] at hv
      obtain ⟨a', e1, hv⟩ := Res.bind_ok_inv hv
      rw [fillDownAll] at hv
      cases hv
      obtain ⟨b, rfl, hb⟩ := setNulls_sized size e1
      exact .leaf n cs b plain hb
    | struct _ _ a vs kind flg one below =>
      rw [fillDown] at hv
      obtain ⟨a', e1, hv⟩ := Res.bind_ok_inv hv
      obtain ⟨vs', e2, hv⟩ := Res.bind_ok_inv hv
      cases hv
      have k1 := forall₂_step (R' := Suited q B len) (f := fillDown ((visibleRows a').map (·.null))) (fs := fillDownAll ((visibleRows a').map (·.null))) (by rw [fillDownAll])
        (fun v vs => by rw [fillDownAll]) (fun c hc v v' h1 h2 => ih c (List.mem_of_mem_filter hc) _ v v' h1 h2) below e2
      refine .struct n cs _ _ kind ?_ one k1
      split at flg
      · obtain ⟨b, rfl, g⟩ := flg
        rename_i hnn
        rw [if_pos hnn]
        exact setNulls_sized g e1
      · subst flg
        rename_i hnn
        rw [if_neg hnn]
        rw [setNulls] at e1
        split at e1
        · cases e1; rfl
        · cases e1
    | coll _ _ a vs kind size hollow =>
      have hh : len = 0 → v'.Hollow := fun hl => fill_hollow _ _ _ (.mk _ _ _ _ (by simpa [size.2.1] using hl) (hollow hl)) hv
      rw [fillDown] at hv
      obtain ⟨a', e1, hv⟩ := Res.bind_ok_inv hv
      obtain ⟨vs', e2, hv⟩ := Res.bind_ok_inv hv
      cases hv
      obtain ⟨b, rfl, hb⟩ := setNulls_sized size e1
      refine .coll n cs b vs' kind hb fun hl => ?_
      have := hh hl
      cases this with
      | mk _ _ _ _ own below => exact below

/-! ### Creating vectors -/

theorem create_shaped {o₁ o₂ : BatchOption} (hB : o₁.rowSize = o₂.rowSize) (h1 : o₁.notCreateVector = false) (h2 : o₂.notCreateVector = false)
    (hsub : ∀ i, o₂.isInclude i = true → o₁.isInclude i = true) (s : Schema) : s.WellFormed → Chosen o₁.isInclude s → Chosen o₂.isInclude s → o₁.isInclude s.node.id = true →
    ∀ v, createVec o₁ s = .ok v → Shaped o₁.isInclude s v ∧ (o₂.isInclude s.node.id = true → createVec o₂ s = .ok (v.keep o₂.isInclude)) := by
  induction s using Schema.ind with
  | h n cs ih =>
    intro hs hso hso2 hin v hv
    have hwf : ∀ c ∈ cs, c.WellFormed := fun c hc d hd => hs d (columns_trans (columns_child (self_mem_columns _) hc) hd)
    obtain ⟨hl1, hl2, hl3⟩ := hs _ (self_mem_columns _)
    simp only [node_mk, Schema.children] at hin hl1 hl2 hl3
    by_cases hk : n.kind = .struct
    · rw [createVec, if_pos hin] at hv
      simp only [hk] at hv
      obtain ⟨vs, e, hv⟩ := Res.bind_ok_inv hv
      cases hv
      have key : ∀ (ds : List Schema) vs, (∀ c ∈ ds, c ∈ cs) → createVecs o₁ ds = .ok vs →
          List.Forall₂ (Shaped o₁.isInclude) (ds.filter fun c => o₁.isInclude c.node.id) vs ∧ createVecs o₂ ds = .ok (keepAll o₂.isInclude vs) := by
        intro ds
        induction ds with
        | nil => intro vs _ h; rw [createVecs] at h; cases h; exact ⟨.nil, by rw [createVecs, keepAll]⟩
        | cons c ds ihd =>
          intro vs hd h
          rw [createVecs] at h
          obtain ⟨v, e1, h⟩ := Res.bind_ok_inv h
          obtain ⟨vs1, e2, h⟩ := Res.bind_ok_inv h
          obtain ⟨i1, i2⟩ := ihd vs1 (fun c hc => hd c (List.mem_cons_of_mem _ hc)) e2
          have hcs := hd c List.mem_cons_self
          rw [createVecs]
          by_cases hi : o₁.isInclude c.node.id = true
          · obtain ⟨k1, k2⟩ := ih c hcs (hwf c hcs) (hso.child hcs) (hso2.child hcs) hi v e1
            rw [List.filter_cons, if_pos hi]
            cases v with
            | nil => exact absurd rfl k1.not_nil
            | mk i k a us =>
              cases h
              refine ⟨.cons k1 i1, ?_⟩
              rw [keepAll, k1.kept]
              by_cases hi2 : o₂.isInclude c.node.id = true
              · rw [if_pos hi2, k2 hi2, i2]
                rfl
              · rw [if_neg hi2]
                cases c with
                | mk m es =>
                  simp only [node_mk] at hi2
                  rw [createVec, if_neg hi2, i2]
                  rfl
          · have hi2 : ¬ o₂.isInclude c.node.id = true := fun h => hi (hsub _ h)
            rw [List.filter_cons, if_neg hi]
            cases c with
            | mk m es =>
              simp only [node_mk] at hi hi2
              rw [createVec, if_neg hi] at e1
              cases e1
              cases h
              refine ⟨i1, ?_⟩
              rw [createVec, if_neg hi2, i2]
              rfl
      obtain ⟨k1, k2⟩ := key cs vs (fun _ h => h) e
      refine ⟨?_, fun hin2 => ?_⟩
      · have := Shaped.struct n cs (if (n.hasNulls && !o₁.notCreateVector) = true then some (makeSlice o₁.rowSize .nil) else none) vs hk k1
        rw [hk] at this
        exact this
      · simp only [node_mk] at hin2
        rw [createVec, if_pos hin2]
        simp only [hk, k2, Res.ok_bind, Vec.keep, h1, h2, hB]
        rfl
    · by_cases hc : n.kind = .list ∨ n.kind = .map
      · have hall := hso.inside hc hin
        have hall2 := fun h => hso2.inside hc h
        rcases hc with hc | hc
        · have hlen := hl1 hc
          rw [createVec, if_pos hin] at hv
          simp only [hc] at hv
          obtain ⟨w, e1, hv⟩ := Res.bind_ok_inv hv
          cases hv
          cases cs with
          | nil => cases hlen
          | cons c cs =>
            cases cs with
            | cons => simp at hlen
            | nil =>
              rw [createNth] at e1
              obtain ⟨k1, k2⟩ := ih c (by simp) (hwf c (by simp)) (hso.child (by simp)) (hso2.child (by simp)) (hall c (by simp)) w e1
              have := Shaped.coll n [c] (if o₁.notCreateVector then none else some (makeSlice o₁.rowSize .nil)) [w] (.inl hc) hall (.cons k1 .nil)
              rw [hc] at this
              refine ⟨this, fun hin2 => ?_⟩
              simp only [node_mk] at hin2
              have hq := hall2 hin2 c (by simp)
              rw [createVec, if_pos hin2]
              simp only [hc, createNth, k2 hq, Res.ok_bind, Vec.keep, h1, h2, hB, keepAll, k1.kept, hq, if_true]
              rfl
        · have hlen := hl2 hc
          rw [createVec, if_pos hin] at hv
          simp only [hc] at hv
          obtain ⟨w, e1, hv⟩ := Res.bind_ok_inv hv
          obtain ⟨w', e2, hv⟩ := Res.bind_ok_inv hv
          cases hv
          cases cs with
          | nil => cases hlen
          | cons c cs =>
            cases cs with
            | nil => simp at hlen
            | cons d cs =>
              cases cs with
              | cons => simp at hlen
              | nil =>
                rw [createNth] at e1
                rw [createNth, createNth] at e2
                obtain ⟨k1, k2⟩ := ih c (by simp) (hwf c (by simp)) (hso.child (by simp)) (hso2.child (by simp)) (hall c (by simp)) w e1
                obtain ⟨k3, k4⟩ := ih d (by simp) (hwf d (by simp)) (hso.child (by simp)) (hso2.child (by simp)) (hall d (by simp)) w' e2
                have := Shaped.coll n [c, d] (some (makeSlice o₁.rowSize .nil)) [w, w'] (.inr hc) hall (.cons k1 (.cons k3 .nil))
                rw [hc] at this
                refine ⟨this, fun hin2 => ?_⟩
                simp only [node_mk] at hin2
                have hq := hall2 hin2 c (by simp)
                have hq' := hall2 hin2 d (by simp)
                rw [createVec, if_pos hin2]
                simp only [hc, createNth, k2 hq, k4 hq', Res.ok_bind, Vec.keep, hB, keepAll, k1.kept, k3.kept, hq, hq', if_true]
                rfl
      · have hpl : n.kind.nested = false := by
          cases hkk : n.kind <;> rw [hkk] at hk hc hl3 <;> simp_all [TypeKind.nested]
        have cr : ∀ o : BatchOption, o.notCreateVector = false → o.isInclude n.id = true → createVec o (.mk n cs) = .ok (.mk n.id n.kind (some (makeSlice o.rowSize n.kind.zero)) []) := by
          intro o ho hi
          rw [createVec, if_pos hi]
          cases hkk : n.kind <;> rw [hkk] at hpl <;> first | exact absurd hpl (by decide) | (simp only [ho]; rfl)
        rw [cr o₁ h1 hin] at hv
        cases hv
        refine ⟨.leaf n cs _ hpl, fun hin2 => ?_⟩
        rw [cr o₂ h2 hin2, hB]
        rfl

theorem create_suited {o : BatchOption} (h1 : o.notCreateVector = false) (hB : o.rowSize ≠ 0) (s : Schema) : s.WellFormed → Chosen o.isInclude s → o.isInclude s.node.id = true →
    ∀ v, createVec o s = .ok v → Suited o.isInclude o.rowSize o.rowSize s v := by
  induction s using Schema.ind with
  | h n cs ih =>
    intro hs hso hin v hv
    have hwf : ∀ c ∈ cs, c.WellFormed := fun c hc d hd => hs d (columns_trans (columns_child (self_mem_columns _) hc) hd)
    obtain ⟨hl1, hl2, hl3⟩ := hs _ (self_mem_columns _)
    have hsized : ∀ g, (makeSlice o.rowSize g).Sized o.rowSize o.rowSize := fun g => ⟨by simp [makeSlice], rfl, Nat.le_refl _⟩
    simp only [node_mk, Schema.children] at hin hl1 hl2 hl3
    by_cases hk : n.kind = .struct
    · rw [createVec, if_pos hin] at hv
      simp only [hk] at hv
      obtain ⟨vs, e, hv⟩ := Res.bind_ok_inv hv
      cases hv
      have key : ∀ (ds : List Schema) vs, (∀ c ∈ ds, c ∈ cs) → createVecs o ds = .ok vs →
          List.Forall₂ (Suited o.isInclude o.rowSize o.rowSize) (ds.filter fun c => o.isInclude c.node.id) vs := by
        intro ds
        induction ds with
        | nil => intro vs _ h; rw [createVecs] at h; cases h; exact .nil
        | cons c ds ihd =>
          intro vs hd h
          rw [createVecs] at h
          obtain ⟨v, e1, h⟩ := Res.bind_ok_inv h
          obtain ⟨vs1, e2, h⟩ := Res.bind_ok_inv h
          have i1 := ihd vs1 (fun c hc => hd c (List.mem_cons_of_mem _ hc)) e2
          have hcs := hd c List.mem_cons_self
          by_cases hi : o.isInclude c.node.id = true
          · have k1 := ih c hcs (hwf c hcs) (hso.child hcs) hi v e1
            rw [List.filter_cons, if_pos hi]
            cases v with
            | nil => cases k1
            | mk i k a us => cases h; exact .cons k1 i1
          · rw [List.filter_cons, if_neg hi]
            cases c with
            | mk m es =>
              simp only [node_mk] at hi
              rw [createVec, if_neg hi] at e1
              cases e1
              cases h
              exact i1
      obtain ⟨d, hd, hdq⟩ := ((hso _ (self_mem_columns _)).1 hk).1 hin
      have := Suited.struct n cs (if (n.hasNulls && !o.notCreateVector) = true then some (makeSlice o.rowSize .nil) else none) vs hk (by
          rw [h1]
          cases n.hasNulls with
          | true => exact ⟨_, rfl, hsized _⟩
          | false => rfl) (List.ne_nil_of_mem (List.mem_filter.2 ⟨hd, hdq⟩)) (key cs vs (fun _ h => h) e)
      rw [hk] at this
      exact this
    · by_cases hc : n.kind = .list ∨ n.kind = .map
      · rcases hc with hc | hc
        · rw [createVec, if_pos hin] at hv
          simp only [hc, h1] at hv
          obtain ⟨w, e1, hv⟩ := Res.bind_ok_inv hv
          cases hv
          have := Suited.coll (q := o.isInclude) n cs (makeSlice o.rowSize .nil) [w] (.inl hc) (hsized _) (fun h => absurd h hB)
          rw [hc] at this
          exact this
        · rw [createVec, if_pos hin] at hv
          simp only [hc] at hv
          obtain ⟨w, e1, hv⟩ := Res.bind_ok_inv hv
          obtain ⟨w', e2, hv⟩ := Res.bind_ok_inv hv
          cases hv
          have := Suited.coll (q := o.isInclude) n cs (makeSlice o.rowSize .nil) [w, w'] (.inr hc) (hsized _) (fun h => absurd h hB)
          rw [hc] at this
          exact this
      · have hpl : n.kind.nested = false := by
          cases hkk : n.kind <;> rw [hkk] at hk hc hl3 <;> simp_all [TypeKind.nested]
        have cr : createVec o (.mk n cs) = .ok (.mk n.id n.kind (some (makeSlice o.rowSize n.kind.zero)) []) := by
          rw [createVec, if_pos hin]
          cases hkk : n.kind <;> rw [hkk] at hpl <;> first | exact absurd hpl (by decide) | (simp only [h1]; rfl)
        rw [cr] at hv
        cases hv
        exact .leaf n cs _ hpl (hsized _)

end Goorc
