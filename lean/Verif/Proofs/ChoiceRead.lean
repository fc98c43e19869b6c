import Verif.Proofs.Choice
/-
Readers of some of the columns, with lists and maps.
-/
namespace Goorc

variable {q q₁ q₂ : Nat → Bool}

/-- A vector for the columns `q`; if `size` is given, with room for that many rows, and with so many rows. -/
def Fitted (size : Option (Nat × Nat)) (q : Nat → Bool) (s : Schema) (v : Vec) : Prop := Shaped q s v ∧ ∀ B len, size = some (B, len) → Suited q B len s v

variable {sz : Option (Nat × Nat)}

theorem Shaped.fit {s : Schema} {v : Vec} (h : Shaped q s v) : Fitted none q s v := ⟨h, fun _ _ h => by cases h⟩

theorem forall₂_fit {cs : List Schema} {vs : List Vec} (h : List.Forall₂ (Fitted sz q) cs vs) :
    List.Forall₂ (Shaped q) cs vs ∧ ∀ B len, sz = some (B, len) → List.Forall₂ (Suited q B len) cs vs := by
  induction h with
  | nil => exact ⟨.nil, fun _ _ _ => .nil⟩
  | cons h hs ih => exact ⟨.cons h.1 ih.1, fun B len e => .cons (h.2 B len e) (ih.2 B len e)⟩

theorem fit_forall₂ {cs : List Schema} {vs : List Vec} (h : List.Forall₂ (Shaped q) cs vs) (h2 : ∀ B len, sz = some (B, len) → List.Forall₂ (Suited q B len) cs vs) :
    List.Forall₂ (Fitted sz q) cs vs := by
  induction h with
  | nil => exact .nil
  | cons h hs ih =>
    refine .cons ⟨h, fun B len e => ?_⟩ (ih fun B len e => ?_) <;> cases h2 B len e <;> assumption

/-- `y` is the reader of the columns `q₂` where `x` is that of the columns `q₁`. -/
def Narrowed (q₁ : Nat → Bool) : (n : Nat) → (Nat → Bool) → Schema → Rd n → Rd n → Prop
  | 0, _, _, _, _ => False
  | n + 1, q₂, s, x, y =>
    (s.node.kind.nested = false ∧ x = y ∧ ((∃ t r, x = (RdNode.leaf t r : RdNode (Rd n))) ∨ (∃ r, x = (RdNode.dict r : RdNode (Rd n))) ∨ ∃ t r, x = (RdNode.bare t r : RdNode (Rd n)))) ∨
    (s.node.kind = .struct ∧ ∃ kind p i xs ys, x = (RdNode.struct kind p i xs : RdNode (Rd n)) ∧ y = (RdNode.struct kind p i ys : RdNode (Rd n)) ∧
      Kids q₁ q₂ (Narrowed q₁ n q₂) (fun c x => Narrowed q₁ n q₁ c x x) s.children xs ys) ∨
    (s.node.kind = .list ∧ ∃ kind p l i d x1 y1, s.children = [d] ∧ x = (RdNode.list kind p l i (some x1) : RdNode (Rd n)) ∧ y = (RdNode.list kind p l i (some y1) : RdNode (Rd n)) ∧
      q₂ d.node.id = true ∧ Narrowed q₁ n q₂ d x1 y1) ∨
    (s.node.kind = .map ∧ ∃ kind p l i d e x1 x2 y1 y2, s.children = [d, e] ∧ x = (RdNode.map kind p l i (some x1) (some x2) : RdNode (Rd n)) ∧
      y = (RdNode.map kind p l i (some y1) (some y2) : RdNode (Rd n)) ∧ q₂ d.node.id = true ∧ q₂ e.node.id = true ∧ Narrowed q₁ n q₂ d x1 y1 ∧ Narrowed q₁ n q₂ e x2 y2)

section
variable {χ : Type} {X : RdOps χ} {R : Schema → χ → χ → Prop} {S : Schema → χ → Prop}

theorem kids_read (hR : ∀ c x y v v' x', R c x y → Fitted sz q₁ c v → q₂ c.node.id = true → X.nextBatch x v = .ok (v', x') →
      ∃ y', X.nextBatch y (v.keep q₂) = .ok (v'.keep q₂, y') ∧ R c x' y' ∧ Fitted sz q₁ c v')
    (hS : ∀ c x v v' x', S c x → Fitted sz q₁ c v → q₁ c.node.id = true → X.nextBatch x v = .ok (v', x') → S c x' ∧ Fitted sz q₁ c v')
    {cs : List Schema} {xs ys : List χ} (h : Kids q₁ q₂ R S cs xs ys) : ∀ (vs vs' : List Vec) (xs' : List χ), List.Forall₂ (Fitted sz q₁) (cs.filter fun c => q₁ c.node.id) vs →
    childBatches X xs vs = .ok (vs', xs') → ∃ ys', childBatches X ys (keepAll q₂ vs) = .ok (keepAll q₂ vs', ys') ∧ Kids q₁ q₂ R S cs xs' ys' ∧
      List.Forall₂ (Fitted sz q₁) (cs.filter fun c => q₁ c.node.id) vs' := by
  induction h with
  | nil =>
    intro vs vs' xs' hv h
    rw [childBatches] at h
    cases h
    exact ⟨[], by rw [childBatches], .nil, hv⟩
  | both h1 h2 hr hk ih =>
    intro vs vs' xs' hv h
    rw [List.filter_cons, if_pos h1] at hv ⊢
    cases hv with
    | cons hc hcs =>
      rw [childBatches] at h
      obtain ⟨⟨v', x'⟩, e1, h⟩ := Res.bind_ok_inv h
      obtain ⟨⟨vs1, xs1⟩, e2, h⟩ := Res.bind_ok_inv h
      cases h
      obtain ⟨y', k1, k2, k3⟩ := hR _ _ _ _ _ _ hr hc h2 e1
      obtain ⟨ys', i1, i2, i3⟩ := ih _ _ _ hcs e2
      refine ⟨y' :: ys', ?_, .both h1 h2 k2 i2, .cons k3 i3⟩
      rw [keepAll, hc.1.kept, if_pos h2, keepAll, k3.1.kept, if_pos h2, childBatches, k1]
      simp only [Res.ok_bind, i1]
      rfl
  | one h1 h2 hs hk ih =>
    intro vs vs' xs' hv h
    rw [List.filter_cons, if_pos h1] at hv ⊢
    cases hv with
    | cons hc hcs =>
      rw [childBatches] at h
      obtain ⟨⟨v', x'⟩, e1, h⟩ := Res.bind_ok_inv h
      obtain ⟨⟨vs1, xs1⟩, e2, h⟩ := Res.bind_ok_inv h
      cases h
      obtain ⟨k1, k2⟩ := hS _ _ _ _ _ hs hc h1 e1
      obtain ⟨ys', i1, i2, i3⟩ := ih _ _ _ hcs e2
      refine ⟨ys', ?_, .one h1 h2 k1 i2, .cons k2 i3⟩
      rw [keepAll, hc.1.kept, if_neg (by simp [h2]), keepAll, k2.1.kept, if_neg (by simp [h2]), i1]
  | neither h1 h2 hk ih =>
    intro vs vs' xs' hv h
    rw [List.filter_cons, if_neg (by simp [h1])] at hv ⊢
    obtain ⟨ys', i1, i2, i3⟩ := ih _ _ _ hv h
    exact ⟨ys', i1, .neither h1 h2 i2, i3⟩

theorem update_sized {B len : Nat} {a : Slice} {rows : List Value} (h : a.Sized B len) (hl : rows.length = (visibleRows (some a)).length) :
    ∃ b, updateRows (some a) rows = some b ∧ b.Sized B len := by
  refine ⟨_, rfl, ?_, h.2.1, h.2.2⟩
  simp only [visibleRows, Slice.visible, List.length_take] at hl
  simp only [Slice.update, List.length_append, List.length_drop]
  have := h.1
  omega

theorem structBatch_fit {c : Codec} {p p' : Option BoolReader} {xs xs' : List χ} {id : Nat} {k : TypeKind} {fs : List Schema} {a : Option Slice} {vs : List Vec} {v' : Vec}
    (below : List.Forall₂ (Fitted sz q₁) fs vs) (h : structBatch X c p xs (.mk id k a vs) = .ok (v', p', xs')) :
    ∃ a' vs1 vs2, v' = .mk id k a' vs2 ∧ (∀ B len b, a = some b → b.Sized B len → ∃ b', a' = some b' ∧ b'.Sized B len) ∧ (a = none → a' = none) ∧ List.Forall₂ (Fitted sz q₁) fs vs1 ∧
      childBatches X xs vs1 = .ok (vs2, xs') ∧ ∀ ys ys', childBatches X ys (keepAll q₂ vs1) = .ok (keepAll q₂ vs2, ys') →
        structBatch X c p ys (.mk id k a (keepAll q₂ vs)) = .ok (.mk id k a' (keepAll q₂ vs2), p', ys') := by
  rw [structBatch.eq_def] at h
  cases p with
  | none =>
    simp only [Res.pure_eq, Res.ok_bind] at h
    obtain ⟨⟨vs2, xs2⟩, e1, h⟩ := Res.bind_ok_inv h
    injection h with h
    simp only [Prod.mk.injEq] at h
    obtain ⟨rfl, rfl, rfl⟩ := h
    refine ⟨a, vs, vs2, rfl, fun B len b h1 h2 => ⟨b, h1, h2⟩, fun h => h, below, e1, fun ys ys' h => ?_⟩
    rw [structBatch.eq_def]
    simp only [Res.pure_eq, Res.ok_bind, h]
  | some p =>
    simp only at h
    obtain ⟨⟨w, p2⟩, e2, h⟩ := Res.bind_ok_inv h
    obtain ⟨⟨rows, p3⟩, f1, e2⟩ := Res.bind_ok_inv e2
    obtain ⟨w', f2, e2⟩ := Res.bind_ok_inv e2
    rw [fillNulls] at f2
    obtain ⟨vs', f3, f2⟩ := Res.bind_ok_inv f2
    cases f2
    cases e2
    simp only at h
    obtain ⟨⟨vs2, xs2⟩, e1, h⟩ := Res.bind_ok_inv h
    injection h with h
    simp only [Prod.mk.injEq] at h
    obtain ⟨rfl, rfl, rfl⟩ := h
    have hl := readFlags_length c _ _ _ _ f1
    obtain ⟨b1, b2⟩ := forall₂_fit below
    obtain ⟨k1, k2⟩ := all_keep (q₂ := q₂) (f := fillDown ((visibleRows (updateRows a rows)).map (·.null))) (fs := fillDownAll ((visibleRows (updateRows a rows)).map (·.null)))
      (by rw [fillDownAll]) (fun v vs => by rw [fillDownAll])
      (fun c v h => h.kept q₂) (fun c v h => h.kept q₂) _ _ _
      (fun c _ v v' h1 h2 => ⟨(fill_shaped (q₂ := q₂) c _ v v' h1 h2).1, fun _ => (fill_shaped (q₂ := q₂) c _ v v' h1 h2).2⟩) b1 f3
    refine ⟨_, vs', vs2, rfl, ?_, ?_, fit_forall₂ k1 (fun B len e => ?_), e1, fun ys ys' h => ?_⟩
    · rintro B len b rfl g
      exact update_sized g hl
    · rintro rfl
      rfl
    · exact forall₂_step (f := fillDown ((visibleRows (updateRows a rows)).map (·.null))) (fs := fillDownAll ((visibleRows (updateRows a rows)).map (·.null)))
        (by rw [fillDownAll]) (fun v vs => by rw [fillDownAll]) (fun c _ v v' h1 h2 => fill_suited c _ v v' h1 h2) (b2 B len e) f3
    · rw [structBatch.eq_def]
      simp only [f1, Res.ok_bind, fillNulls, k2, Res.pure_eq, h]

theorem prepareChild_shaped {s : Schema} {null : Bool} {l : Nat} {v v' : Vec} (h : Shaped q₁ s v) (hp : prepareChild null l v = .ok v') :
    Shaped q₁ s v' ∧ prepareChild null l (v.keep q₂) = .ok (v'.keep q₂) := by
  cases v with
  | nil => exact absurd rfl h.not_nil
  | mk id k a us =>
    simp only [prepareChild] at hp
    cases hp
    exact ⟨shaped_own h, by simp only [Vec.keep, prepareChild]⟩

variable {c : Codec}

theorem listRows_keep {T : χ → χ → Prop} {d : Schema} (hnext : ∀ x y v v' x', T x y → Shaped q₁ d v → X.nextBatch x v = .ok (v', x') →
      ∃ y', X.nextBatch y (v.keep q₂) = .ok (v'.keep q₂, y') ∧ T x' y' ∧ Shaped q₁ d v') : ∀ (vs : List Value) (p p' : Option BoolReader)
    (l l' : Option IntReader) (x y : χ) (x' : Option χ) (e : Vec) (es ws : List Vec) (rows : List Value), T x y → Shaped q₁ d e →
    listRows X c p l (some x) vs (e :: es) = .ok (rows, ws, p', l', x') →
    ∃ e' x1 y1, ws = e' :: es ∧ Shaped q₁ d e' ∧ x' = some x1 ∧ T x1 y1 ∧ rows.length = vs.length ∧
      ∀ gs, listRows X c p l (some y) vs (e.keep q₂ :: gs) = .ok (rows, e'.keep q₂ :: gs, p', l', some y1) := by
  intro vs
  induction vs with
  | nil =>
    intro p p' l l' x y x' e es ws rows hy he h
    rw [listRows] at h
    cases h
    exact ⟨e, x, y, rfl, he, rfl, hy, rfl, fun gs => by rw [listRows]⟩
  | cons old vs ih =>
    intro p p' l l' x y x' e es ws rows hy he h
    rw [listRows] at h
    obtain ⟨⟨null, p1⟩, e0, h⟩ := Res.bind_ok_inv h
    obtain ⟨⟨v, n, l1⟩, e2, h⟩ := Res.bind_ok_inv h
    simp only at h
    obtain ⟨e1, e3, h⟩ := Res.bind_ok_inv h
    obtain ⟨⟨e2', x1⟩, e4, h⟩ := Res.bind_ok_inv h
    obtain ⟨⟨rows1, ws1, p2, l2, x2⟩, e5, h⟩ := Res.bind_ok_inv h
    cases h
    obtain ⟨m1, m2⟩ := prepareChild_shaped (q₂ := q₂) he e3
    rw [nextOn] at e4
    obtain ⟨⟨u, x3⟩, e6, e4⟩ := Res.bind_ok_inv e4
    cases e4
    obtain ⟨y', n1, n2, n3⟩ := hnext _ _ _ _ _ hy m1 e6
    obtain ⟨e', x1, y1, i1, i2, i3, i4, i5, i6⟩ := ih _ _ _ _ _ _ _ _ _ _ _ n2 n3 e5
    refine ⟨e', x1, y1, i1, i2, i3, i4, by simp [i5], fun gs => ?_⟩
    rw [listRows, e0, Res.ok_bind]
    simp only
    rw [e2, Res.ok_bind]
    simp only
    rw [m2, Res.ok_bind, nextOn, n1]
    simp only [Res.ok_bind, Res.pure_eq]
    rw [i6 gs]
    rfl

theorem mapRows_keep {T T' : χ → χ → Prop} {d d' : Schema} (hnext : ∀ x y v v' x', T x y → Shaped q₁ d v → X.nextBatch x v = .ok (v', x') →
      ∃ y', X.nextBatch y (v.keep q₂) = .ok (v'.keep q₂, y') ∧ T x' y' ∧ Shaped q₁ d v')
    (hnext' : ∀ x y v v' x', T' x y → Shaped q₁ d' v → X.nextBatch x v = .ok (v', x') →
      ∃ y', X.nextBatch y (v.keep q₂) = .ok (v'.keep q₂, y') ∧ T' x' y' ∧ Shaped q₁ d' v') : ∀ (vs : List Value) (p p' : Option BoolReader)
    (l l' : Option IntReader) (x y z t : χ) (x' z' : Option χ) (e f : Vec) (es ws : List Vec) (rows : List Value), T x y → T' z t → Shaped q₁ d e → Shaped q₁ d' f →
    mapRows X c p l (some x) (some z) vs (e :: f :: es) = .ok (rows, ws, p', l', x', z') →
    ∃ e' f' x1 y1 z1 t1, ws = e' :: f' :: es ∧ Shaped q₁ d e' ∧ Shaped q₁ d' f' ∧ x' = some x1 ∧ z' = some z1 ∧ T x1 y1 ∧ T' z1 t1 ∧ rows.length = vs.length ∧
      ∀ gs, mapRows X c p l (some y) (some t) vs (e.keep q₂ :: f.keep q₂ :: gs) = .ok (rows, e'.keep q₂ :: f'.keep q₂ :: gs, p', l', some y1, some t1) := by
  intro vs
  induction vs with
  | nil =>
    intro p p' l l' x y z t x' z' e f es ws rows hy hz he hf h
    rw [mapRows] at h
    cases h
    exact ⟨e, f, x, y, z, t, rfl, he, hf, rfl, rfl, hy, hz, rfl, fun gs => by rw [mapRows]⟩
  | cons old vs ih =>
    intro p p' l l' x y z t x' z' e f es ws rows hy hz he hf h
    rw [mapRows] at h
    obtain ⟨⟨null, p1⟩, e0, h⟩ := Res.bind_ok_inv h
    obtain ⟨⟨v, n, l1⟩, e2, h⟩ := Res.bind_ok_inv h
    simp only at h
    obtain ⟨e1, e3, h⟩ := Res.bind_ok_inv h
    obtain ⟨f1, f3, h⟩ := Res.bind_ok_inv h
    obtain ⟨⟨e2', x1⟩, e4, h⟩ := Res.bind_ok_inv h
    obtain ⟨⟨f2', x2⟩, f4, h⟩ := Res.bind_ok_inv h
    obtain ⟨⟨rows1, ws1, p2, l2, x3, x4⟩, e5, h⟩ := Res.bind_ok_inv h
    cases h
    obtain ⟨m1, m2⟩ := prepareChild_shaped (q₂ := q₂) he e3
    obtain ⟨m3, m4⟩ := prepareChild_shaped (q₂ := q₂) hf f3
    rw [nextOn] at e4 f4
    obtain ⟨⟨u, x5⟩, e6, e4⟩ := Res.bind_ok_inv e4
    obtain ⟨⟨u', x6⟩, f6, f4⟩ := Res.bind_ok_inv f4
    cases e4
    cases f4
    obtain ⟨y', n1, n2, n3⟩ := hnext _ _ _ _ _ hy m1 e6
    obtain ⟨t', r1, r2, r3⟩ := hnext' _ _ _ _ _ hz m3 f6
    obtain ⟨e', f', x1, y1, z1, t1, i1, i2, i3, i4, i5, i6, i7, i8, i9⟩ := ih _ _ _ _ _ _ _ _ _ _ _ _ _ _ _ n2 r2 n3 r3 e5
    refine ⟨e', f', x1, y1, z1, t1, i1, i2, i3, i4, i5, i6, i7, by simp [i8], fun gs => ?_⟩
    rw [mapRows, e0, Res.ok_bind]
    simp only
    rw [e2, Res.ok_bind]
    simp only
    rw [m2, Res.ok_bind, m4, Res.ok_bind, nextOn, n1]
    simp only [Res.ok_bind, Res.pure_eq]
    rw [nextOn, r1]
    simp only [Res.ok_bind, Res.pure_eq]
    rw [i9 gs]
    rfl

section
variable {T T' : χ → χ → Prop} (hs : ∀ m x y x', T x y → X.skip x m = .ok x' → ∃ y', X.skip y m = .ok y' ∧ T x' y') (hs' : ∀ m x y x', T' x y → X.skip x m = .ok x' → ∃ y', X.skip y m = .ok y' ∧ T' x' y')
include hs

theorem skipOn_keep {m : Nat} {x y : χ} {x' : Option χ} (h : T x y) (e : skipOn X m (some x) = .ok x') : ∃ x1 y1, x' = some x1 ∧ skipOn X m (some y) = .ok (some y1) ∧ T x1 y1 := by
  rw [skipOn] at e
  obtain ⟨x1, e1, e⟩ := Res.bind_ok_inv e
  cases e
  obtain ⟨y1, k1, k2⟩ := hs _ _ _ _ h e1
  exact ⟨x1, y1, rfl, by rw [skipOn, k1]; rfl, k2⟩

theorem listSkip_keep : ∀ (m : Nat) (p p' : Option BoolReader) (l l' : Option IntReader) (x y : χ) (x' : Option χ), T x y →
    listSkip X c m p l (some x) = .ok (p', l', x') → ∃ x1 y1, x' = some x1 ∧ listSkip X c m p l (some y) = .ok (p', l', some y1) ∧ T x1 y1 := by
  intro m
  induction m with
  | zero => intro p p' l l' x y x' h e; rw [listSkip] at e; cases e; exact ⟨x, y, rfl, by rw [listSkip], h⟩
  | succ m ih =>
    intro p p' l l' x y x' h e
    rw [listSkip] at e
    obtain ⟨⟨b, p1⟩, e0, e⟩ := Res.bind_ok_inv e
    cases b with
    | false =>
      simp only [Bool.false_eq_true, if_false] at e
      obtain ⟨x1, y1, i1, i2, i3⟩ := ih _ _ _ _ _ _ _ h e
      refine ⟨x1, y1, i1, ?_, i3⟩
      rw [listSkip, e0, Res.ok_bind]
      simp only [Bool.false_eq_true, if_false]
      exact i2
    | true =>
      simp only [if_true] at e
      obtain ⟨⟨k, l1⟩, e2, e⟩ := Res.bind_ok_inv e
      obtain ⟨x1, e1, e⟩ := Res.bind_ok_inv e
      obtain ⟨x2, y2, rfl, k2, k3⟩ := skipOn_keep hs h e1
      obtain ⟨x3, y3, i1, i2, i3⟩ := ih _ _ _ _ _ _ _ k3 e
      refine ⟨x3, y3, i1, ?_, i3⟩
      rw [listSkip, e0, Res.ok_bind]
      simp only [if_true]
      rw [e2, Res.ok_bind]
      simp only
      rw [k2, Res.ok_bind]
      exact i2

include hs'

theorem entrySkip_keep {m : Nat} : ∀ (k : Nat) (x y z t : χ) (x' z' : Option χ), T x y → T' z t →
    entrySkip X m k (some x) (some z) = .ok (x', z') → ∃ x1 y1 z1 t1, x' = some x1 ∧ z' = some z1 ∧ entrySkip X m k (some y) (some t) = .ok (some y1, some t1) ∧ T x1 y1 ∧ T' z1 t1 := by
  intro k
  induction k with
  | zero => intro x y z t x' z' h1 h2 e; rw [entrySkip] at e; cases e; exact ⟨x, y, z, t, rfl, rfl, by rw [entrySkip], h1, h2⟩
  | succ k ih =>
    intro x y z t x' z' h1 h2 e
    rw [entrySkip] at e
    obtain ⟨x1, e1, e⟩ := Res.bind_ok_inv e
    obtain ⟨z1, e2, e⟩ := Res.bind_ok_inv e
    obtain ⟨x2, y2, rfl, a2, a3⟩ := skipOn_keep hs h1 e1
    obtain ⟨z2, t2, rfl, b2, b3⟩ := skipOn_keep hs' h2 e2
    obtain ⟨x3, y3, z3, t3, i1, i2, i3, i4, i5⟩ := ih _ _ _ _ _ _ a3 b3 e
    refine ⟨x3, y3, z3, t3, i1, i2, ?_, i4, i5⟩
    rw [entrySkip, a2, Res.ok_bind, b2, Res.ok_bind]
    exact i3

theorem mapSkip_keep : ∀ (m : Nat) (p p' : Option BoolReader) (l l' : Option IntReader) (x y z t : χ) (x' z' : Option χ), T x y → T' z t →
    mapSkip X c m p l (some x) (some z) = .ok (p', l', x', z') →
    ∃ x1 y1 z1 t1, x' = some x1 ∧ z' = some z1 ∧ mapSkip X c m p l (some y) (some t) = .ok (p', l', some y1, some t1) ∧ T x1 y1 ∧ T' z1 t1 := by
  intro m
  induction m with
  | zero => intro p p' l l' x y z t x' z' h1 h2 e; rw [mapSkip] at e; cases e; exact ⟨x, y, z, t, rfl, rfl, by rw [mapSkip], h1, h2⟩
  | succ m ih =>
    intro p p' l l' x y z t x' z' h1 h2 e
    rw [mapSkip] at e
    obtain ⟨⟨b, p1⟩, e0, e⟩ := Res.bind_ok_inv e
    cases b with
    | false =>
      simp only [Bool.false_eq_true, if_false] at e
      obtain ⟨x3, y3, z3, t3, i1, i2, i3, i4, i5⟩ := ih _ _ _ _ _ _ _ _ _ _ h1 h2 e
      refine ⟨x3, y3, z3, t3, i1, i2, ?_, i4, i5⟩
      rw [mapSkip, e0, Res.ok_bind]
      simp only [Bool.false_eq_true, if_false]
      exact i3
    | true =>
      simp only [if_true] at e
      obtain ⟨⟨k, l1⟩, e2, e⟩ := Res.bind_ok_inv e
      obtain ⟨⟨x1, z1⟩, e1, e⟩ := Res.bind_ok_inv e
      obtain ⟨x2, y2, z2, t2, rfl, rfl, k3, k4, k5⟩ := entrySkip_keep hs hs' _ _ _ _ _ _ _ h1 h2 e1
      obtain ⟨x3, y3, z3, t3, i1, i2, i3, i4, i5⟩ := ih _ _ _ _ _ _ _ _ _ _ k4 k5 e
      refine ⟨x3, y3, z3, t3, i1, i2, ?_, i4, i5⟩
      rw [mapSkip, e0, Res.ok_bind]
      simp only [if_true]
      rw [e2, Res.ok_bind]
      simp only
      rw [k3, Res.ok_bind]
      exact i3

end

theorem seekOn_keep {T : χ → χ → Prop} {m : Nat} (hs : ∀ x y x', T x y → X.seekStride x m = .ok x' → ∃ y', X.seekStride y m = .ok y' ∧ T x' y') {x y : χ} {x' : Option χ} (h : T x y)
    (e : seekOn X m (some x) = .ok x') : ∃ x1 y1, x' = some x1 ∧ seekOn X m (some y) = .ok (some y1) ∧ T x1 y1 := by
  rw [seekOn] at e
  obtain ⟨x1, e1, e⟩ := Res.bind_ok_inv e
  cases e
  obtain ⟨y1, k1, k2⟩ := hs _ _ _ h e1
  exact ⟨x1, y1, rfl, by rw [seekOn, k1]; rfl, k2⟩

end

theorem leafBatch_fit {ρ : Type} (K : ReadKind ρ) (c : Codec) {r r' : ColReader ρ} {s : Schema} {v v' : Vec} (hs : s.node.kind.nested = false) (h : Fitted sz q s v)
    (hb : leafBatch K c r v = .ok (v', r')) : Fitted sz q s v' := by
  obtain ⟨h1, h2⟩ := h
  cases h1 with
  | leaf n cs a plain =>
    rw [leafBatch] at hb
    obtain ⟨⟨rows, r1⟩, e1, hb⟩ := Res.bind_ok_inv hb
    cases hb
    rw [ReadKind.nextBatch] at e1
    obtain ⟨d, -, e1⟩ := Res.bind_ok_inv e1
    have hl := K.nextRows_length c _ _ _ _ e1
    refine ⟨.leaf n cs _ plain, fun B len e => ?_⟩
    have := h2 B len e
    generalize hw : Vec.mk n.id n.kind a [] = w at this
    cases this with
    | leaf n cs b plain size =>
      cases hw
      obtain ⟨b', hb', hs'⟩ := update_sized size hl
      rw [hb']
      exact .leaf n cs b' plain hs'
    | struct n cs b vs kind => simp only [node_mk] at hs; rw [kind] at hs; cases hs
    | coll n cs b vs kind => simp only [node_mk] at hs; rcases kind with kind | kind <;> rw [kind] at hs <;> cases hs
  | struct n cs a vs kind => simp only [node_mk] at hs; rw [kind] at hs; cases hs
  | coll n cs a vs kind => simp only [node_mk] at hs; rcases kind with kind | kind <;> rw [kind] at hs <;> cases hs

theorem keep_leaf {s : Schema} {v : Vec} (hs : s.node.kind.nested = false) (h : Shaped q s v) (p : Nat → Bool) : v.keep p = v := by
  cases h with
  | leaf n cs a plain => rfl
  | struct n cs a vs kind => simp only [node_mk] at hs; rw [kind] at hs; cases hs
  | coll n cs a vs kind => simp only [node_mk] at hs; rcases kind with kind | kind <;> rw [kind] at hs <;> cases hs

/-- A collection whose rows have been read. -/
theorem coll_fit {n : SchemaNode} {cs : List Schema} {a : Option Slice} {vs ws : List Vec} {rows : List Value} (kind : n.kind = .list ∨ n.kind = .map) (all : ∀ c ∈ cs, q c.node.id = true)
    (below : List.Forall₂ (Shaped q) cs ws) (h : ∀ B len, sz = some (B, len) → Suited q B len (.mk n cs) (.mk n.id n.kind a vs)) (hl : rows.length = (visibleRows a).length)
    (hnil : visibleRows a = [] → ws = vs) : Fitted sz q (.mk n cs) (.mk n.id n.kind (updateRows a rows) ws) := by
  refine ⟨.coll n cs _ ws kind all below, fun B len e => ?_⟩
  have := h B len e
  generalize hw : Vec.mk n.id n.kind a vs = w at this
  cases this with
  | leaf n cs b plain size => cases hw; rcases kind with kind | kind <;> rw [kind] at plain <;> cases plain
  | struct n cs b vs kind' => rcases kind with kind | kind <;> rw [kind] at kind' <;> cases kind'
  | coll n cs b vs kind size hollow =>
    cases hw
    obtain ⟨b', hb', hs'⟩ := update_sized size hl
    rw [hb']
    refine .coll n cs b' ws kind hs' fun h0 => ?_
    rw [hnil]
    · exact hollow h0
    · simp only [visibleRows, Slice.visible]
      rw [size.2.1, h0]
      rfl

theorem narrowed_next (c : Codec) (fuel : Nat) : ∀ (n : Nat) (q₂ : Nat → Bool) (sz : Option (Nat × Nat)) (s : Schema) (x y : Rd n) (v v' : Vec) (x' : Rd n), (∀ i, q₂ i = true → q₁ i = true) →
    Narrowed q₁ n q₂ s x y → Fitted sz q₁ s v → (rdOps c fuel n).nextBatch x v = .ok (v', x') →
    ∃ y', (rdOps c fuel n).nextBatch y (v.keep q₂) = .ok (v'.keep q₂, y') ∧ Narrowed q₁ n q₂ s x' y' ∧ Fitted sz q₁ s v' := by
  intro n
  induction n with
  | zero => intro q₂ sz s x y v v' x' _ h; exact h.elim
  | succ n ih =>
    intro q₂ sz s x y v v' x' hsub h hv hb
    have hself : ∀ c' x v v' x', Narrowed q₁ n q₁ c' x x → Fitted sz q₁ c' v → (rdOps c fuel n).nextBatch x v = .ok (v', x') →
        Narrowed q₁ n q₁ c' x' x' ∧ Fitted sz q₁ c' v' := by
      intro c' x v v' x' h1 h2 h3
      obtain ⟨y', k1, k2, k3⟩ := ih q₁ sz c' x x v v' x' (fun _ h => h) h1 h2 h3
      rw [keep_same c' v h2.1, h3] at k1
      injection k1 with k1
      rw [(Prod.mk.inj k1).2]
      exact ⟨(Prod.mk.inj k1).2 ▸ k2, k3⟩
    have hin : ∀ d x y v v' x', Narrowed q₁ n q₂ d x y → Shaped q₁ d v → (rdOps c fuel n).nextBatch x v = .ok (v', x') →
        ∃ y', (rdOps c fuel n).nextBatch y (v.keep q₂) = .ok (v'.keep q₂, y') ∧ Narrowed q₁ n q₂ d x' y' ∧ Shaped q₁ d v' := by
      intro d x y v v' x' h1 h2 h3
      obtain ⟨y', k1, k2, k3⟩ := ih q₂ none d x y v v' x' hsub h1 h2.fit h3
      exact ⟨y', k1, k2, k3.1⟩
    rcases h with ⟨hleaf, rfl, hx⟩ | ⟨hk, kind, p, i, xs, ys, rfl, rfl, hkids⟩ | ⟨hk, kind, p, l, i, d, x1, y1, hc, rfl, rfl, hd, hxy⟩ | ⟨hk, kind, p, l, i, d, e, x1, x2, y1, y2, hc, rfl, rfl, hd, he, hxy, hxy2⟩
    · rw [keep_leaf hleaf hv.1]
      have hfin : ∀ v'', Fitted sz q₁ s v'' → v''.keep q₂ = v'' := fun v'' h => keep_leaf hleaf h.1 q₂
      rcases hx with ⟨t, r, rfl⟩ | ⟨r, rfl⟩ | ⟨t, r, rfl⟩
      · have hb' := hb
        simp only [rdOps, RdNode.nextBatch] at hb
        obtain ⟨⟨v1, r1⟩, e1, hb⟩ := Res.bind_ok_inv hb
        cases hb
        have := leafBatch_fit _ c hleaf hv e1
        exact ⟨_, by rw [hfin _ this]; exact hb', .inl ⟨hleaf, rfl, .inl ⟨_, _, rfl⟩⟩, this⟩
      · have hb' := hb
        simp only [rdOps, RdNode.nextBatch] at hb
        obtain ⟨⟨v1, r1⟩, e1, hb⟩ := Res.bind_ok_inv hb
        cases hb
        have := leafBatch_fit _ c hleaf hv e1
        exact ⟨_, by rw [hfin _ this]; exact hb', .inl ⟨hleaf, rfl, .inr (.inl ⟨_, rfl⟩)⟩, this⟩
      · have hb' := hb
        simp only [rdOps, RdNode.nextBatch] at hb
        obtain ⟨⟨v1, r1⟩, e1, hb⟩ := Res.bind_ok_inv hb
        cases hb
        have := leafBatch_fit _ c hleaf hv e1
        exact ⟨_, by rw [hfin _ this]; exact hb', .inl ⟨hleaf, rfl, .inr (.inr ⟨_, _, rfl⟩)⟩, this⟩
    · obtain ⟨v1, v2⟩ := hv
      cases v1 with
      | leaf m cs a plain => simp only [node_mk] at hk; rw [hk] at plain; exact absurd plain (by decide)
      | coll m cs a vs kind => simp only [node_mk] at hk; rcases kind with kind | kind <;> rw [hk] at kind <;> cases kind
      | struct m cs a vs kind' below =>
        have hbelow : List.Forall₂ (Fitted sz q₁) (cs.filter fun c => q₁ c.node.id) vs := fit_forall₂ below fun B len e => by
          have := v2 B len e
          generalize hw : Vec.mk m.id m.kind a vs = w at this
          cases this with
          | leaf n cs b plain size => cases hw; rw [kind'] at plain; cases plain
          | struct n cs b vs kind flags one bel => cases hw; exact bel
          | coll n cs b vs kind => rcases kind with kind | kind <;> rw [kind] at kind' <;> cases kind'
        simp only [rdOps, RdNode.nextBatch] at hb
        obtain ⟨⟨v1, p1, xs1⟩, e1, hb⟩ := Res.bind_ok_inv hb
        cases hb
        obtain ⟨a', vs1, vs2, rfl, g1, g1', g2, e3, g4⟩ := structBatch_fit (q₁ := q₁) (q₂ := q₂) hbelow e1
        obtain ⟨ys', b1, b2, b3⟩ := kids_read (q₁ := q₁) (q₂ := q₂) (fun c' x y v v' x' h1 h2 _ h3 => ih q₂ sz c' x y v v' x' hsub h1 h2 h3)
          (fun c' x v v' x' h1 h2 _ h3 => hself c' x v v' x' h1 h2 h3) hkids vs1 vs2 xs1 g2 e3
        obtain ⟨b4, b5⟩ := forall₂_fit b3
        refine ⟨(RdNode.struct kind p1 i ys' : RdNode (Rd n)), ?_, .inr (.inl ⟨hk, kind, p1, i, xs1, ys', rfl, rfl, b2⟩), .struct m cs a' vs2 kind' b4, fun B len e => ?_⟩
        · simp only [rdOps, RdNode.nextBatch, Vec.keep]
          rw [g4 ys ys' b1]
          rfl
        · have := v2 B len e
          generalize hw : Vec.mk m.id m.kind a vs = w at this
          cases this with
          | leaf n cs b plain size => cases hw; rw [kind'] at plain; cases plain
          | coll n cs b vs kind => rcases kind with kind | kind <;> rw [kind] at kind' <;> cases kind'
          | struct n cs b vs kind flags one bel =>
            cases hw
            refine .struct m cs a' vs2 kind' ?_ one (b5 B len e)
            by_cases hn : m.hasNulls = true
            · rw [if_pos hn] at flags ⊢
              obtain ⟨b, h1, h2⟩ := flags
              exact g1 B len b h1 h2
            · rw [if_neg hn] at flags ⊢
              exact g1' flags
    · obtain ⟨v1, v2⟩ := hv
      cases v1 with
      | leaf m cs a plain => simp only [node_mk] at hk; rw [hk] at plain; exact absurd plain (by decide)
      | struct m cs a vs kind' below => simp only [node_mk] at hk; rw [hk] at kind'; cases kind'
      | coll m cs a vs kind' all below =>
        simp only [Schema.children] at hc
        subst hc
        cases below with
        | cons below1 below2 =>
          cases below2
          simp only [rdOps, RdNode.nextBatch] at hb
          obtain ⟨⟨rows, ws, p1, l1, x2⟩, e1, hb⟩ := Res.bind_ok_inv hb
          cases hb
          obtain ⟨e', x3, y3, rfl, i2, rfl, i4, i5, i6⟩ := listRows_keep (q₂ := q₂) (T := Narrowed q₁ n q₂ d) (hin d) _ _ _ _ _ _ _ _ _ _ _ _ hxy below1 e1
          refine ⟨(RdNode.list kind p1 l1 i (some y3) : RdNode (Rd n)), ?_, .inr (.inr (.inl ⟨hk, kind, p1, l1, i, d, x3, y3, rfl, rfl, rfl, hd, i4⟩)),
            coll_fit kind' all (.cons i2 .nil) v2 i5 fun h0 => ?_⟩
          · simp only [rdOps, RdNode.nextBatch, Vec.keep, keepAll, below1.kept, i2.kept, hd, if_true]
            rw [i6 []]
            rfl
          · rw [h0, listRows] at e1
            cases e1
            rfl
    · obtain ⟨v1, v2⟩ := hv
      cases v1 with
      | leaf m cs a plain => simp only [node_mk] at hk; rw [hk] at plain; exact absurd plain (by decide)
      | struct m cs a vs kind' below => simp only [node_mk] at hk; rw [hk] at kind'; cases kind'
      | coll m cs a vs kind' all below =>
        simp only [Schema.children] at hc
        subst hc
        cases below with
        | cons below1 below2 =>
          cases below2 with
          | cons below2 below3 =>
            cases below3
            simp only [rdOps, RdNode.nextBatch] at hb
            obtain ⟨⟨rows, ws, p1, l1, x3, x4⟩, e1, hb⟩ := Res.bind_ok_inv hb
            cases hb
            obtain ⟨e', f', x5, y5, z5, t5, rfl, i2, i3, rfl, rfl, i6, i7, i8, i9⟩ := mapRows_keep (q₂ := q₂) (T := Narrowed q₁ n q₂ d) (T' := Narrowed q₁ n q₂ e) (hin d) (hin e) _ _ _ _ _ _ _ _ _ _ _ _ _ _ _ _ hxy hxy2 below1 below2 e1
            refine ⟨(RdNode.map kind p1 l1 i (some y5) (some t5) : RdNode (Rd n)), ?_, .inr (.inr (.inr ⟨hk, kind, p1, l1, i, d, e, x5, z5, y5, t5, rfl, rfl, rfl, hd, he, i6, i7⟩)),
              coll_fit kind' all (.cons i2 (.cons i3 .nil)) v2 i8 fun h0 => ?_⟩
            · simp only [rdOps, RdNode.nextBatch, Vec.keep, keepAll, below1.kept, below2.kept, i2.kept, i3.kept, hd, he, if_true]
              rw [i9 []]
              rfl
            · rw [h0, mapRows] at e1
              cases e1
              rfl

theorem narrowed_skip (c : Codec) (fuel : Nat) : ∀ (n : Nat) (q₂ : Nat → Bool) (s : Schema) (m : Nat) (x y x' : Rd n),
    Narrowed q₁ n q₂ s x y → (rdOps c fuel n).skip x m = .ok x' → ∃ y', (rdOps c fuel n).skip y m = .ok y' ∧ Narrowed q₁ n q₂ s x' y' := by
  intro n
  induction n with
  | zero => intro q₂ s m x y x' h; exact h.elim
  | succ n ih =>
    intro q₂ s m x y x' h hb
    have hself : ∀ c' x x', Narrowed q₁ n q₁ c' x x → (rdOps c fuel n).skip x 1 = .ok x' → Narrowed q₁ n q₁ c' x' x' := by
      intro c' x x' h1 h3
      obtain ⟨y', k1, k2⟩ := ih q₁ c' 1 x x x' h1 h3
      rw [h3] at k1
      injection k1 with k1
      rw [← k1] at k2
      exact k2
    rcases h with ⟨hleaf, rfl, hx⟩ | ⟨hk, kind, p, i, xs, ys, rfl, rfl, hkids⟩ | ⟨hk, kind, p, l, i, d, x1, y1, hc, rfl, rfl, hd, hxy⟩ | ⟨hk, kind, p, l, i, d, e, x1, x2, y1, y2, hc, rfl, rfl, hd, he, hxy, hxy2⟩
    · refine ⟨x', hb, .inl ⟨hleaf, rfl, ?_⟩⟩
      rcases hx with ⟨t, r, rfl⟩ | ⟨r, rfl⟩ | ⟨t, r, rfl⟩ <;> simp only [rdOps, RdNode.skip] at hb <;> obtain ⟨r1, -, hb⟩ := Res.bind_ok_inv hb <;> cases hb
      · exact .inl ⟨_, _, rfl⟩
      · exact .inr (.inl ⟨_, rfl⟩)
      · exact .inr (.inr ⟨_, _, rfl⟩)
    · simp only [rdOps, RdNode.skip] at hb
      obtain ⟨⟨p1, xs1⟩, e1, hb⟩ := Res.bind_ok_inv hb
      cases hb
      have key : ∀ m p p1 xs xs1 ys, Kids q₁ q₂ (Narrowed q₁ n q₂) (fun c x => Narrowed q₁ n q₁ c x x) s.children xs ys → structSkip (rdOps c fuel n) c m p xs = .ok (p1, xs1) →
          ∃ ys1, structSkip (rdOps c fuel n) c m p ys = .ok (p1, ys1) ∧ Kids q₁ q₂ (Narrowed q₁ n q₂) (fun c x => Narrowed q₁ n q₁ c x x) s.children xs1 ys1 := by
        intro m
        induction m with
        | zero => intro p p1 xs xs1 ys hk h; rw [structSkip] at h; cases h; exact ⟨ys, by rw [structSkip], hk⟩
        | succ m ihm =>
          intro p p1 xs xs1 ys hk h
          rw [structSkip] at h
          obtain ⟨⟨b, p2⟩, f1, h⟩ := Res.bind_ok_inv h
          rw [structSkip, f1]
          simp only [Res.ok_bind]
          cases b with
          | false =>
            simp only [Bool.false_eq_true, if_false] at h ⊢
            exact ihm _ _ _ _ _ hk h
          | true =>
            simp only [if_true] at h ⊢
            obtain ⟨xs2, f2, h⟩ := Res.bind_ok_inv h
            obtain ⟨ys2, k1, k2⟩ := kids_all (f := fun x => (rdOps c fuel n).skip x 1) (fs := skipAll (rdOps c fuel n) 1) (by rw [skipAll]) (fun x xs => by rw [skipAll])
              (fun c' x y x' h1 h2 => ih q₂ c' 1 x y x' h1 h2) (fun c' x x' h1 h2 => hself c' x x' h1 h2) hk xs2 f2
            rw [k1]
            exact ihm _ _ _ _ _ k2 h
      obtain ⟨ys1, k1, k2⟩ := key m p p1 xs xs1 ys hkids e1
      refine ⟨(RdNode.struct kind p1 i ys1 : RdNode (Rd n)), ?_, .inr (.inl ⟨hk, kind, p1, i, xs1, ys1, rfl, rfl, k2⟩)⟩
      simp only [rdOps, RdNode.skip, k1]
      rfl
    · simp only [rdOps, RdNode.skip] at hb
      obtain ⟨⟨p1, l1, x2⟩, e1, hb⟩ := Res.bind_ok_inv hb
      cases hb
      obtain ⟨x3, y3, rfl, k2, k3⟩ := listSkip_keep (ih q₂ d) _ _ _ _ _ _ _ _ hxy e1
      refine ⟨(RdNode.list kind p1 l1 i (some y3) : RdNode (Rd n)), ?_, .inr (.inr (.inl ⟨hk, kind, p1, l1, i, d, x3, y3, hc, rfl, rfl, hd, k3⟩))⟩
      simp only [rdOps, RdNode.skip, k2]
      rfl
    · simp only [rdOps, RdNode.skip] at hb
      obtain ⟨⟨p1, l1, x3, x4⟩, e1, hb⟩ := Res.bind_ok_inv hb
      cases hb
      obtain ⟨x5, y5, z5, t5, rfl, rfl, k3, k4, k5⟩ := mapSkip_keep (ih q₂ d) (ih q₂ e) _ _ _ _ _ _ _ _ _ _ _ hxy hxy2 e1
      refine ⟨(RdNode.map kind p1 l1 i (some y5) (some t5) : RdNode (Rd n)), ?_, .inr (.inr (.inr ⟨hk, kind, p1, l1, i, d, e, x5, z5, y5, t5, hc, rfl, rfl, hd, he, k4, k5⟩))⟩
      simp only [rdOps, RdNode.skip, k3]
      rfl

theorem narrowed_seek (c : Codec) (fuel : Nat) : ∀ (n : Nat) (q₂ : Nat → Bool) (s : Schema) (m : Nat) (x y x' : Rd n),
    Narrowed q₁ n q₂ s x y → (rdOps c fuel n).seekStride x m = .ok x' → ∃ y', (rdOps c fuel n).seekStride y m = .ok y' ∧ Narrowed q₁ n q₂ s x' y' := by
  intro n
  induction n with
  | zero => intro q₂ s m x y x' h; exact h.elim
  | succ n ih =>
    intro q₂ s m x y x' h hb
    have hself : ∀ c' x x', Narrowed q₁ n q₁ c' x x → (rdOps c fuel n).seekStride x m = .ok x' → Narrowed q₁ n q₁ c' x' x' := by
      intro c' x x' h1 h3
      obtain ⟨y', k1, k2⟩ := ih q₁ c' m x x x' h1 h3
      rw [h3] at k1
      injection k1 with k1
      rw [← k1] at k2
      exact k2
    rcases h with ⟨hleaf, rfl, hx⟩ | ⟨hk, kind, p, i, xs, ys, rfl, rfl, hkids⟩ | ⟨hk, kind, p, l, i, d, x1, y1, hc, rfl, rfl, hd, hxy⟩ | ⟨hk, kind, p, l, i, d, e, x1, x2, y1, y2, hc, rfl, rfl, hd, he, hxy, hxy2⟩
    · refine ⟨x', hb, .inl ⟨hleaf, rfl, ?_⟩⟩
      rcases hx with ⟨t, r, rfl⟩ | ⟨r, rfl⟩ | ⟨t, r, rfl⟩ <;> simp only [rdOps, RdNode.seekStride] at hb <;> obtain ⟨r1, -, hb⟩ := Res.bind_ok_inv hb <;> cases hb
      · exact .inl ⟨_, _, rfl⟩
      · exact .inr (.inl ⟨_, rfl⟩)
      · exact .inr (.inr ⟨_, _, rfl⟩)
    · simp only [rdOps, RdNode.seekStride] at hb ⊢
      obtain ⟨p1, e1, hb⟩ := Res.bind_ok_inv hb
      obtain ⟨xs1, e2, hb⟩ := Res.bind_ok_inv hb
      cases hb
      obtain ⟨ys1, k1, k2⟩ := kids_all (f := fun x => (rdOps c fuel n).seekStride x m) (fs := seekAll (rdOps c fuel n) m) (by rw [seekAll]) (fun x xs => by rw [seekAll])
        (fun c' x y x' h1 h2 => ih q₂ c' m x y x' h1 h2) (fun c' x x' h1 h2 => hself c' x x' h1 h2) hkids xs1 e2
      refine ⟨(RdNode.struct kind p1 i ys1 : RdNode (Rd n)), ?_, .inr (.inl ⟨hk, kind, p1, i, xs1, ys1, rfl, rfl, k2⟩)⟩
      rw [e1]
      simp only [Res.ok_bind, k1]
      rfl
    · simp only [rdOps, RdNode.seekStride] at hb ⊢
      obtain ⟨⟨p1, l1⟩, e1, hb⟩ := Res.bind_ok_inv hb
      obtain ⟨x2, e2, hb⟩ := Res.bind_ok_inv hb
      cases hb
      obtain ⟨x3, y3, rfl, k2, k3⟩ := seekOn_keep (ih q₂ d m) hxy e2
      refine ⟨(RdNode.list kind p1 l1 i (some y3) : RdNode (Rd n)), ?_, .inr (.inr (.inl ⟨hk, kind, p1, l1, i, d, x3, y3, hc, rfl, rfl, hd, k3⟩))⟩
      rw [e1]
      simp only [Res.ok_bind, k2]
      rfl
    · simp only [rdOps, RdNode.seekStride] at hb ⊢
      obtain ⟨⟨p1, l1⟩, e1, hb⟩ := Res.bind_ok_inv hb
      obtain ⟨x3, e2, hb⟩ := Res.bind_ok_inv hb
      obtain ⟨x4, e3, hb⟩ := Res.bind_ok_inv hb
      cases hb
      obtain ⟨x5, y5, rfl, k2, k3⟩ := seekOn_keep (ih q₂ d m) hxy e2
      obtain ⟨x6, y6, rfl, k4, k5⟩ := seekOn_keep (ih q₂ e m) hxy2 e3
      refine ⟨(RdNode.map kind p1 l1 i (some y5) (some y6) : RdNode (Rd n)), ?_, .inr (.inr (.inr ⟨hk, kind, p1, l1, i, d, e, x5, x6, y5, y6, hc, rfl, rfl, hd, he, k3, k5⟩))⟩
      rw [e1]
      simp only [Res.ok_bind, k2, k4]
      rfl

/-! ### Opening -/

theorem treeOf_narrowed {o₁ : BatchOption} {ro : ROpts} {types : List RdType} {rs₁ : List (Option FlatRd)} {s : Schema} (ht : TypesOf s types) (hw : s.WellFormed)
    (ch₁ : Chosen o₁.isInclude s)
    (htags : ∀ c ∈ s.columns, o₁.isInclude c.node.id = true → ∃ r, rs₁[c.node.id]? = some (some r) ∧ TagFor c r.tag) : ∀ (n : Nat) (o₂ : BatchOption) (rs₂ : List (Option FlatRd)) (d : Schema) (x : Rd n),
    (∀ i, o₂.isInclude i = true → o₁.isInclude i = true) → Chosen o₂.isInclude s → (∀ i, o₂.isInclude i = true → rs₂[i]? = rs₁[i]?) → d ∈ s.columns → o₂.isInclude d.node.id = true →
    treeOf o₁ ro types rs₁ n d.node.id = .ok x → ∃ y, treeOf o₂ ro types rs₂ n d.node.id = .ok y ∧ Narrowed o₁.isInclude n o₂.isInclude d x y := by
  intro n
  induction n with
  | zero => intro o₂ rs₂ d x _ _ _ _ _ h; rw [treeOf] at h; cases h
  | succ n ih =>
    intro o₂ rs₂ d x hsub ch₂ hk hd h2 h
    obtain ⟨r, hr, hT⟩ := htags d hd (hsub _ h2)
    obtain ⟨names, hty⟩ := ht.2 d hd
    have hr2 := hk _ h2
    rw [hr] at hr2
    obtain ⟨o1, o2, o3, o4⟩ := tagFor_other hT
    rw [treeOf] at h ⊢
    simp only [hty, hr, hr2] at h ⊢
    have hkid : ∀ c ∈ d.children, ∀ x, o₂.isInclude c.node.id = true → treeOf o₁ ro types rs₁ n c.node.id = .ok x → ∃ y, treeOf o₂ ro types rs₂ n c.node.id = .ok y ∧ Narrowed o₁.isInclude n o₂.isInclude c x y :=
      fun c hc x h1 h2 => ih o₂ rs₂ c x hsub ch₂ hk (columns_child hd hc) h1 h2
    cases htag : r.tag with
    | leaf t =>
      simp only [htag] at h ⊢
      cases h
      rw [htag] at hT
      refine ⟨_, rfl, .inl ⟨for_plain (tagFor_leaf hT), rfl, ?_⟩⟩
      rw [openLeaf]
      split
      · exact .inr (.inr ⟨_, _, rfl⟩)
      · exact .inl ⟨_, _, rfl⟩
    | dict =>
      simp only [htag] at h ⊢
      cases h
      refine ⟨_, rfl, .inl ⟨by rw [o1 htag]; rfl, rfl, ?_⟩⟩
      rw [openLeaf]
      split
      · exact .inr (.inr ⟨_, _, rfl⟩)
      · exact .inr (.inl ⟨_, rfl⟩)
    | struct =>
      simp only [htag] at h ⊢
      obtain ⟨xs, e1, h⟩ := Res.bind_ok_inv h
      cases h
      obtain ⟨ys, k1, k2⟩ := treesOf_kids hsub (f₂ := treeOf o₂ ro types rs₂ n) (R := Narrowed o₁.isInclude n o₂.isInclude) (S := fun c x => Narrowed o₁.isInclude n o₁.isInclude c x x) d.children xs
        (fun c hc x h1 hx => ⟨fun h2 => hkid c hc x h2 hx, by
          obtain ⟨y, f1, f2⟩ := ih o₁ rs₁ c x (fun _ h => h) ch₁ (fun _ _ => rfl) (columns_child hd hc) h1 hx
          rw [hx] at f1
          injection f1 with f1
          rw [← f1] at f2
          exact f2⟩) e1
      rw [k1]
      exact ⟨_, rfl, .inr (.inl ⟨o2 htag, _, _, _, xs, ys, rfl, rfl, k2⟩)⟩
    | list =>
      simp only [htag] at h ⊢
      obtain ⟨y, e1, h⟩ := Res.bind_ok_inv h
      cases h
      have hkd := o3 htag
      have hl := (hw d hd).1 hkd
      cases hc : d.children with
      | nil => rw [hc] at hl; cases hl
      | cons e es =>
        rw [hc] at hl e1
        cases es with
        | cons => simp at hl
        | nil =>
          have he2 : o₂.isInclude e.node.id = true := by rw [(ch₂ d hd).2 (.inl hkd) e (by rw [hc]; simp)]; exact h2
          have he1 := hsub _ he2
          simp only [List.map_cons, List.map_nil, List.filter_cons, List.filter_nil, he1, he2, if_true, List.getLast?_singleton, treeOn] at e1 ⊢
          obtain ⟨y', e2, e1⟩ := Res.bind_ok_inv e1
          cases e1
          obtain ⟨z, k1, k2⟩ := hkid e (by rw [hc]; simp) _ he2 e2
          rw [k1]
          exact ⟨_, rfl, .inr (.inr (.inl ⟨hkd, _, _, _, _, e, y', z, hc, rfl, rfl, he2, k2⟩))⟩
    | map =>
      simp only [htag] at h ⊢
      obtain ⟨y, e1, h⟩ := Res.bind_ok_inv h
      obtain ⟨z, e2, h⟩ := Res.bind_ok_inv h
      cases h
      have hkd := o4 htag
      have hl := (hw d hd).2.1 hkd
      cases hc : d.children with
      | nil => rw [hc] at hl; cases hl
      | cons e es =>
        cases es with
        | nil => rw [hc] at hl; simp at hl
        | cons f fs =>
          cases fs with
          | cons => rw [hc] at hl; simp at hl
          | nil =>
            have he2 : o₂.isInclude e.node.id = true := by rw [(ch₂ d hd).2 (.inr hkd) e (by rw [hc]; simp)]; exact h2
            have he1 := hsub _ he2
            have hf2 : o₂.isInclude f.node.id = true := by rw [(ch₂ d hd).2 (.inr hkd) f (by rw [hc]; simp)]; exact h2
            have hf1 := hsub _ hf2
            rw [hc] at e1 e2
            simp only [includedChild, List.map_cons, List.map_nil, List.getElem?_cons_zero, List.getElem?_cons_succ, he1, hf1, he2, hf2, if_true, treeOn] at e1 e2 ⊢
            obtain ⟨y', e3, e1⟩ := Res.bind_ok_inv e1
            cases e1
            obtain ⟨z', e4, e2⟩ := Res.bind_ok_inv e2
            cases e2
            obtain ⟨w, k1, k2⟩ := hkid e (by rw [hc]; simp) _ he2 e3
            obtain ⟨w', k3, k4⟩ := hkid f (by rw [hc]; simp) _ hf2 e4
            rw [k1, k3]
            exact ⟨_, rfl, .inr (.inr (.inr ⟨hkd, _, _, _, _, e, f, y', z', w, w', hc, rfl, rfl, he2, hf2, k2, k4⟩))⟩

end Goorc
