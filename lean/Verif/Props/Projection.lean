import Verif.Proofs.Projection
import Verif.Props.Tour
import Verif.Props.Damage
import Verif.Props.Accept
/-
Which other columns are read does not matter.
-/
namespace Goorc

variable {B len : Nat}

/-- The stripe of a reader for fewer columns. -/
def StripeReader.Narrows (q₁ q₂ : Nat → Bool) (s : Schema) {n : Nat} (a b : StripeReader (Rd n)) : Prop :=
  (∀ c ∈ s.columns, a.hasNulls[c.node.id]? = some c.node.hasNulls) ∧ b.hasNulls = a.hasNulls ∧ b.numberOfRows = a.numberOfRows ∧ b.cursor = a.cursor ∧
    ∃ x y, a.reader = some x ∧ b.reader = some y ∧ Narrow q₁ n q₂ s x y

/-- A reader for fewer columns. -/
def BatchReader.Narrows (q₁ q₂ : Nat → Bool) (s : Schema) {n : Nat} (a b : BatchReader (Rd n)) : Prop :=
  b.indexStride = a.indexStride ∧ b.stripeIndex = a.stripeIndex ∧ b.numberOfRows = a.numberOfRows ∧ b.cursor = a.cursor ∧
    List.Forall₂ (StripeReader.Narrows q₁ q₂ s) a.stripes b.stripes

theorem narrows_set {α β : Type} {R : α → β → Prop} {xs : List α} {ys : List β} (h : List.Forall₂ R xs ys) : ∀ (i : Nat) (x : α) (y : β), R x y → List.Forall₂ R (xs.set i x) (ys.set i y) := by
  induction h with
  | nil => intro i x y _; exact .nil
  | cons hx hxs ih =>
    intro i x y hr
    cases i with
    | zero => exact .cons hr hxs
    | succ i => exact .cons hx (ih i x y hr)

theorem narrows_get {α β : Type} {R : α → β → Prop} {xs : List α} {ys : List β} (h : List.Forall₂ R xs ys) : ∀ (i : Nat), (xs[i]? = none ∧ ys[i]? = none) ∨ ∃ x y, xs[i]? = some x ∧ ys[i]? = some y ∧ R x y := by
  induction h with
  | nil => intro i; left; simp
  | cons hx hxs ih =>
    intro i
    cases i with
    | zero => right; exact ⟨_, _, rfl, rfl, hx⟩
    | succ i => simpa using ih i

section
variable {q₁ q₂ : Nat → Bool} {s : Schema} (hsub : ∀ i, q₂ i = true → q₁ i = true) (hsound : Sound q₂ s) (hroot : q₂ s.node.id = true) (c : Codec) (fuel : Nat) {n : Nat}

include hsub hsound hroot in
theorem suits_same_len {v : Vec} (h : Suits q₁ B len s v) : (v.keep q₂).len = v.len ∧ (v.keep q₂).cap = v.cap := by
  obtain ⟨h1, h2⟩ := suits_len s v h
  obtain ⟨h3, h4⟩ := suits_len s _ (suits_keep hsub s hsound hroot v h)
  exact ⟨by rw [h1, h3], by rw [h2, h4]⟩

include hsub hsound hroot in
theorem narrows_stripe_next {a b : StripeReader (Rd n)} {v v' : Vec} {stop : Bool} {a' : StripeReader (Rd n)} (h : a.Narrows q₁ q₂ s b) (hv : Suits q₁ B len s v)
    (hn : a.next (rdOps c fuel n) v = .ok (stop, v', a')) :
    ∃ len' b', b.next (rdOps c fuel n) (v.keep q₂) = .ok (stop, v'.keep q₂, b') ∧ a'.Narrows q₁ q₂ s b' ∧ Suits q₁ B len' s v' := by
  obtain ⟨h0, h1, h2, h3, x, y, hx, hy, hxy⟩ := h
  obtain ⟨l1, l2⟩ := suits_same_len hsub hsound hroot hv
  rw [StripeReader.next] at hn
  obtain ⟨w, e1, hn⟩ := Res.bind_ok_inv hn
  rw [hx] at hn
  simp only at hn
  obtain ⟨⟨w', x'⟩, e2, hn⟩ := Res.bind_ok_inv hn
  injection hn with hn
  simp only [Prod.mk.injEq] at hn
  obtain ⟨rfl, rfl, rfl⟩ := hn
  obtain ⟨k1, k2⟩ := size_keep (q₂ := q₂) s h0 v w hv e1
  obtain ⟨y', m1, m2, m3⟩ := narrow_next c fuel n q₂ s x y w w' x' hsub hxy k1 e2
  obtain ⟨l3, l4⟩ := suits_same_len hsub hsound hroot m3
  refine ⟨_, { b with reader := some y', cursor := b.cursor + w'.len }, ?_, ⟨h0, h1, h2, by simp only [h3], x', y', rfl, rfl, m2⟩, m3⟩
  rw [StripeReader.next, StripeReader.prepareVector, l1, l2, h1, h2, h3]
  simp only
  rw [k2]
  simp only [Res.ok_bind, hy, m1, l3, h2, h3, Res.pure_eq]

include hsub hsound hroot in
theorem narrows_loop : ∀ (f : Nat) (len : Nat) (a b a' : BatchReader (Rd n)) (v v' : Vec), a.Narrows q₁ q₂ s b → Suits q₁ B len s v → a.nextLoop (rdOps c fuel n) f v = .ok (v', a') →
    ∃ len' b', b.nextLoop (rdOps c fuel n) f (v.keep q₂) = .ok (v'.keep q₂, b') ∧ a'.Narrows q₁ q₂ s b' ∧ Suits q₁ B len' s v' := by
  intro f
  induction f with
  | zero =>
    intro len a b a' v v' h hv hn
    obtain ⟨h1, h2, h3, h4, h5⟩ := h
    rw [BatchReader.nextLoop.eq_def] at hn ⊢
    simp only at hn ⊢
    rw [h2]
    by_cases hneg : a.stripeIndex < 0
    · rw [if_pos hneg] at hn; cases hn
    · rw [if_neg hneg] at hn ⊢
      rcases narrows_get h5 a.stripeIndex.toNat with ⟨g1, g2⟩ | ⟨x, y, g1, g2, -⟩
      · rw [g1] at hn
        rw [g2]
        simp only at hn ⊢
        injection hn with hn
        simp only [Prod.mk.injEq] at hn
        obtain ⟨rfl, rfl⟩ := hn
        exact ⟨len, b, rfl, ⟨h1, h2, h3, h4, h5⟩, hv⟩
      · rw [g1] at hn; cases hn
  | succ f ih =>
    intro len a b a' v v' h hv hn
    obtain ⟨h1, h2, h3, h4, h5⟩ := h
    rw [BatchReader.nextLoop.eq_def] at hn ⊢
    simp only at hn ⊢
    rw [h2]
    by_cases hneg : a.stripeIndex < 0
    · rw [if_pos hneg] at hn; cases hn
    · rw [if_neg hneg] at hn ⊢
      rcases narrows_get h5 a.stripeIndex.toNat with ⟨g1, g2⟩ | ⟨x, y, g1, g2, g3⟩
      · rw [g1] at hn
        rw [g2]
        simp only at hn ⊢
        injection hn with hn
        simp only [Prod.mk.injEq] at hn
        obtain ⟨rfl, rfl⟩ := hn
        exact ⟨len, b, rfl, ⟨h1, h2, h3, h4, h5⟩, hv⟩
      · rw [g1] at hn
        rw [g2]
        simp only at hn ⊢
        obtain ⟨⟨stop, w, x'⟩, e1, hn⟩ := Res.bind_ok_inv hn
        obtain ⟨len1, y', k1, k2, k3⟩ := narrows_stripe_next hsub hsound hroot c fuel g3 hv e1
        obtain ⟨l1, l2⟩ := suits_same_len hsub hsound hroot k3
        rw [k1]
        simp only [Res.ok_bind] at hn ⊢
        have hnew := narrows_set h5 a.stripeIndex.toNat x' y' k2
        cases stop with
        | true =>
          simp only [if_true] at hn ⊢
          injection hn with hn
          simp only [Prod.mk.injEq] at hn
          obtain ⟨rfl, rfl⟩ := hn
          exact ⟨len1, _, rfl, ⟨h1, rfl, h3, h4, hnew⟩, k3⟩
        | false =>
          simp only [Bool.false_eq_true, if_false] at hn ⊢
          rw [l1, l2]
          by_cases hfull : w.len ≥ w.cap
          · rw [if_pos hfull] at hn ⊢
            injection hn with hn
            simp only [Prod.mk.injEq] at hn
            obtain ⟨rfl, rfl⟩ := hn
            exact ⟨len1, _, rfl, ⟨h1, rfl, h3, h4, hnew⟩, k3⟩
          · rw [if_neg hfull] at hn ⊢
            exact ih len1 { a with stripes := a.stripes.set a.stripeIndex.toNat x' } _ _ w v' ⟨h1, rfl, h3, h4, hnew⟩ k3 hn

include hsub hsound hroot in
theorem narrows_next (f : Nat) {a b a' : BatchReader (Rd n)} {v v' : Vec} {stop : Bool} (h : a.Narrows q₁ q₂ s b) (hv : Suits q₁ B len s v)
    (hn : a.next (rdOps c fuel n) f v = .ok (stop, v', a')) :
    ∃ len' b', b.next (rdOps c fuel n) f (v.keep q₂) = .ok (stop, v'.keep q₂, b') ∧ a'.Narrows q₁ q₂ s b' ∧ Suits q₁ B len' s v' := by
  rw [BatchReader.next] at hn ⊢
  obtain ⟨w, e1, hn⟩ := Res.bind_ok_inv hn
  obtain ⟨k1, k2⟩ := clear_keep (q₂ := q₂) s v w hv e1
  rw [k2]
  simp only [Res.ok_bind]
  rw [h.2.2.1, h.2.2.2.1]
  by_cases hend : a.cursor ≥ a.numberOfRows - 1
  · rw [if_pos hend] at hn ⊢
    injection hn with hn
    simp only [Prod.mk.injEq] at hn
    obtain ⟨rfl, rfl, rfl⟩ := hn
    exact ⟨0, b, rfl, h, k1⟩
  · rw [if_neg hend] at hn ⊢
    obtain ⟨⟨w', a1⟩, e2, hn⟩ := Res.bind_ok_inv hn
    obtain ⟨len1, b1, m1, m2, m3⟩ := narrows_loop hsub hsound hroot c fuel f 0 a b a1 w w' h k1 e2
    obtain ⟨l1, l2⟩ := suits_same_len hsub hsound hroot m3
    obtain ⟨h1, h2, h3, h4, h5⟩ := m2
    have hl := h5.length_eq
    rw [m1]
    simp only [Res.ok_bind, Res.pure_eq] at hn ⊢
    injection hn with hn
    simp only [Prod.mk.injEq] at hn
    obtain ⟨rfl, rfl, rfl⟩ := hn
    rw [h2, ← hl]
    by_cases hlast : a1.stripeIndex = a1.stripes.length
    · simp only [if_pos hlast, h3, h4, l1]
      exact ⟨len1, _, rfl, ⟨h1, rfl, rfl, rfl, h5⟩, m3⟩
    · simp only [if_neg hlast, h3, h4, l1]
      exact ⟨len1, _, rfl, ⟨h1, h2, rfl, rfl, h5⟩, m3⟩

theorem narrows_stripe_seek {a b a' : StripeReader (Rd n)} {stride row : Nat} (h : a.Narrows q₁ q₂ s b) (hn : a.seek (rdOps c fuel n) stride row = .ok a') :
    ∃ b', b.seek (rdOps c fuel n) stride row = .ok b' ∧ a'.Narrows q₁ q₂ s b' := by
  obtain ⟨h0, h1, h2, h3, x, y, hx, hy, hxy⟩ := h
  rw [StripeReader.seek] at hn ⊢
  obtain ⟨o, e1, hn⟩ := Res.bind_ok_inv hn
  rw [e1, Res.ok_bind]
  rw [hx] at hn
  rw [hy]
  simp only at hn ⊢
  obtain ⟨x1, e2, hn⟩ := Res.bind_ok_inv hn
  obtain ⟨x2, e3, hn⟩ := Res.bind_ok_inv hn
  injection hn with hn
  subst hn
  obtain ⟨y1, k1, k2⟩ := narrow_seek c fuel n q₂ s x y 0 x1 hxy e2
  obtain ⟨y2, k3, k4⟩ := narrow_skip c fuel n q₂ s x1 y1 o x2 k2 e3
  rw [k1, Res.ok_bind, k3, Res.ok_bind]
  exact ⟨_, rfl, h0, h1, h2, h3, x2, y2, rfl, rfl, k4⟩

theorem narrows_seek {a b a' : BatchReader (Rd n)} {row : Nat} (h : a.Narrows q₁ q₂ s b) (hn : a.seek (rdOps c fuel n) row = .ok a') :
    ∃ b', b.seek (rdOps c fuel n) row = .ok b' ∧ a'.Narrows q₁ q₂ s b' := by
  obtain ⟨h1, h2, h3, h4, h5⟩ := h
  have loop : ∀ (xs ys : List (StripeReader (Rd n))), List.Forall₂ (StripeReader.Narrows q₁ q₂ s) xs ys → ∀ i rows, a.seekLoop (rdOps c fuel n) row i rows xs = .ok a' →
      ∃ b', b.seekLoop (rdOps c fuel n) row i rows ys = .ok b' ∧ a'.Narrows q₁ q₂ s b' := by
    intro xs ys h
    induction h with
    | nil => intro i rows h; rw [BatchReader.seekLoop] at h; cases h
    | cons hx hxs ih =>
      intro i rows h
      rw [BatchReader.seekLoop] at h ⊢
      rw [hx.2.2.1]
      split at h
      · rename_i hlt
        rw [if_pos hlt, h1]
        obtain ⟨x', e1, h⟩ := Res.bind_ok_inv h
        injection h with h
        subst h
        obtain ⟨y', k1, k2⟩ := narrows_stripe_seek c fuel hx e1
        rw [k1, Res.ok_bind]
        exact ⟨_, rfl, rfl, h2, h3, h4, narrows_set h5 i x' y' k2⟩
      · rename_i hlt
        rw [if_neg hlt]
        exact ih _ _ h
  rw [BatchReader.seek] at hn ⊢
  rw [h3]
  split at hn
  · cases hn
  · rename_i hle
    rw [if_neg hle]
    exact loop _ _ h5 _ _ hn

include hsub hsound hroot in
theorem narrows_tour (f : Nat) (ops : List RowOp) : ∀ (len : Nat) (a b : BatchReader (Rd n)) (v : Vec) (out : List (Bool × Vec)), a.Narrows q₁ q₂ s b → Suits q₁ B len s v →
    a.tour (rdOps c fuel n) f id v ops = .ok out → b.tour (rdOps c fuel n) f id (v.keep q₂) ops = .ok (out.map fun p => (p.1, p.2.keep q₂)) := by
  induction ops with
  | nil => intro len a b v out _ _ h; rw [BatchReader.tour] at h ⊢; cases h; rfl
  | cons op ops ih =>
    intro len a b v out h hv hn
    cases op with
    | next =>
      rw [BatchReader.tour] at hn ⊢
      obtain ⟨⟨stop, w, a1⟩, e1, hn⟩ := Res.bind_ok_inv hn
      obtain ⟨rest, e2, hn⟩ := Res.bind_ok_inv hn
      cases hn
      obtain ⟨len1, b1, k1, k2, k3⟩ := narrows_next hsub hsound hroot c fuel f h hv e1
      rw [k1]
      simp only [Res.ok_bind]
      rw [ih len1 a1 b1 w rest k2 k3 e2]
      rfl
    | seek row =>
      rw [BatchReader.tour] at hn ⊢
      obtain ⟨a1, e1, hn⟩ := Res.bind_ok_inv hn
      obtain ⟨b1, k1, k2⟩ := narrows_seek c fuel h e1
      rw [k1, Res.ok_bind]
      exact ih len a1 b1 v out k2 hv hn

end

theorem narrow_stripe {E : Env} {ro : ROpts} {o₁ o₂ : BatchOption} {file : Bytes} {types : List RdType} {info : StripeInfo} {s : Schema} (num : s.Numbered) (ht : TypesOf s types) (hs : s.Structs)
    (hsub : ∀ i, o₂.isInclude i = true → o₁.isInclude i = true) (sel : o₂.Selects s) {a : StripeReader (Rd types.length)} (h : newStripeReader E ro o₁ file types info = .ok a) :
    ∃ b, newStripeReader E ro o₂ file types info = .ok b ∧ a.Narrows o₁.isInclude o₂.isInclude s b := by
  rw [newStripeReader] at h ⊢
  obtain ⟨footer, e1, h⟩ := Res.bind_ok_inv h
  obtain ⟨r, e2, h⟩ := Res.bind_ok_inv h
  injection h with h
  subst h
  rw [initStripe] at e2
  obtain ⟨rs, f1, e2⟩ := Res.bind_ok_inv e2
  obtain ⟨rs', f2, e2⟩ := Res.bind_ok_inv e2
  obtain ⟨u, f3, e2⟩ := Res.bind_ok_inv e2
  obtain ⟨qs, g1, g2, g3, g4⟩ := initColumns_keep hsub footer.columns types rs f1
  have hkeep : RdsKeep o₂.isInclude rs qs := by
    refine ⟨g2, fun i r hr => ?_⟩
    have hi : i < types.length := by rw [← g3]; exact (List.getElem?_eq_some_iff.1 hr).1
    have := g4 i types[i] r (List.getElem?_eq_getElem hi) hr
    obtain ⟨c, -, e, names, he⟩ := ht.at num (List.getElem?_eq_getElem hi)
    rw [he] at this
    rw [this, e]
  obtain ⟨qs', g5, hkeep'⟩ := initStreams_keep E ro file footer.streams _ _ rs qs rs' hkeep f2
  have htags : ∀ c ∈ s.columns, o₁.isInclude c.node.id = true → ∃ r, rs'[c.node.id]? = some (some r) ∧ TagFits c r.tag := by
    intro c hc hi
    obtain ⟨names, hn⟩ := ht.2 c hc
    have hlt := (List.getElem?_eq_some_iff.1 hn).1
    obtain ⟨k1, k2⟩ := initColumns_get types rs f1
    obtain ⟨enc, tag, m1, m2, m3⟩ := k2 _ _ hn hi
    exact initStreams_kinds E ro file (fun _ tag => TagFits c tag) footer.streams _ _ rs rs' f2 _ _ m3 (tag_fits (hs c hc) m2)
  have hroot : s.node.id = 0 := by
    have h0 : 0 < s.columns.length := by cases s; simp [Schema.columns]
    have := numbered_at num 0 h0
    cases s
    simpa [Schema.columns] using this
  have hfirst : ∀ o : BatchOption, o.isInclude s.node.id = true → (types.find? fun t => o.isInclude t.id).map (·.id) = some s.node.id := by
    intro o ho
    obtain ⟨names, hn⟩ := ht.2 s (self_mem_columns s)
    rw [hroot] at hn
    cases types with
    | nil => simp at hn
    | cons t ts =>
      simp only [List.getElem?_cons_zero, Option.some.injEq] at hn
      have : o.isInclude t.id = true := by rw [hn, ← hroot]; exact ho
      rw [List.find?_cons_of_pos (by simpa using this)]
      simp [hn, hroot]
  have hlink : linkAll o₂ types qs' = .ok () := by
    refine linkAll_spec o₂ types qs' fun j t r hj hr' => ?_
    obtain ⟨c, hc, rfl, names, rfl⟩ := ht.at num hj
    rcases hs c hc with hks | ⟨-, hkl⟩
    · right
      refine ⟨hks, fun d hd hinc => ?_⟩
      obtain ⟨d', hd', rfl⟩ := List.mem_map.1 hd
      have hci := (sel.2 c hc hks).2 ⟨d', hd', hinc⟩
      obtain ⟨r0, m1, -⟩ := htags c hc (hsub _ hci)
      have := hkeep'.2 _ _ m1
      rw [if_pos hci] at this
      rw [this] at hr'
      cases hr'
      rfl
    · left; simp [hkl]
  rw [hfirst o₁ (hsub _ sel.1), treeOn] at e2
  obtain ⟨x, e3, e2⟩ := Res.bind_ok_inv e2
  injection e2 with e2
  subst e2
  obtain ⟨y, k1, k2⟩ := treeOf_narrow ht htags types.length o₂ qs' s x hsub (fun i hi => by
    cases hr : rs'[i]? with
    | none =>
      have : rs'.length ≤ i := List.getElem?_eq_none_iff.1 hr
      exact List.getElem?_eq_none_iff.2 (by rw [hkeep'.1]; exact this)
    | some r => rw [hkeep'.2 i r hr, if_pos hi]) (self_mem_columns s) sel.1 e3
  refine ⟨⟨types.map (·.hasNulls), some y, info.numberOfRows, 0⟩, ?_, ht.hasNulls, rfl, rfl, rfl, x, y, rfl, rfl, k2⟩
  rw [e1]
  simp only [Res.ok_bind, initStripe, g1, g5, hlink, hfirst o₂ sel.1, treeOn, k1, Res.pure_eq]

/-- **Which other columns are read does not matter.** Whatever the bytes of the file: if a program that reads the columns `o₁` succeeds, then the same calls with fewer columns `o₂` succeed too,
every `Next` reports the same, and leaves in the vectors of the columns of `o₂` what it left there before. -/
theorem projection_partial {E : Env} {fuel : Nat} {s : Schema} {o₁ o₂ : BatchOption} {ops : List RowOp} {file : Bytes} {r : FileReader} (num : s.Numbered) (hs : s.Structs)
    (hr : newReader E file = .ok r) (ht : TypesOf s r.schemas) (size : o₁.rowSize = o₂.rowSize) (v₁ : o₁.notCreateVector = false) (v₂ : o₂.notCreateVector = false)
    (sel₁ : o₁.Selects s) (sel₂ : o₂.Selects s) (sub : ∀ i, o₂.isInclude i = true → o₁.isInclude i = true) {out : List (Bool × Vec)}
    (h : tourVectors E fuel s o₁ ops file = .ok out) : tourVectors E fuel s o₂ ops file = .ok (out.map fun p => (p.1, p.2.keep o₂.isInclude)) := by
  rw [tourVectors, hr] at h ⊢
  rw [Res.ok_bind] at h ⊢
  obtain ⟨a, e1, h⟩ := Res.bind_ok_inv h
  obtain ⟨v, e2, h⟩ := Res.bind_ok_inv h
  have hstripes : ∀ (infos : List StripeInfo) (xs : List (StripeReader (Rd r.schemas.length))), initStripes E r.opts o₁ r.file r.schemas infos = .ok xs →
      ∃ ys, initStripes E r.opts o₂ r.file r.schemas infos = .ok ys ∧ List.Forall₂ (StripeReader.Narrows o₁.isInclude o₂.isInclude s) xs ys := by
    intro infos
    induction infos with
    | nil => intro xs h; rw [initStripes] at h; cases h; exact ⟨[], by rw [initStripes], .nil⟩
    | cons i is ih =>
      intro xs h
      rw [initStripes] at h ⊢
      split at h
      · cases h
      · rename_i hz
        rw [if_neg hz]
        obtain ⟨x, f1, h⟩ := Res.bind_ok_inv h
        obtain ⟨xs1, f2, h⟩ := Res.bind_ok_inv h
        cases h
        obtain ⟨y, k1, k2⟩ := narrow_stripe num ht hs sub sel₂ f1
        obtain ⟨ys, k3, k4⟩ := ih xs1 f2
        rw [k1, k3]
        exact ⟨_, rfl, .cons k2 k4⟩
  have hopen : ∃ b, r.createBatchReader E o₂ = .ok b ∧ a.Narrows o₁.isInclude o₂.isInclude s b := by
    rw [FileReader.createBatchReader] at e1 ⊢
    rw [← size]
    split at e1
    · cases e1
    · rename_i hz
      rw [if_neg hz]
      obtain ⟨xs, f1, e1⟩ := Res.bind_ok_inv e1
      injection e1 with e1
      subst e1
      obtain ⟨ys, k1, k2⟩ := hstripes _ _ f1
      rw [k1]
      exact ⟨_, rfl, rfl, rfl, rfl, rfl, k2⟩
  obtain ⟨b, k1, k2⟩ := hopen
  rw [k1, Res.ok_bind]
  have hvec : Suits o₁.isInclude o₁.rowSize o₁.rowSize s v ∧ createVector s o₂ = .ok (v.keep o₂.isInclude) := by
    rw [createVector] at e2 ⊢
    rw [← size]
    split at e2
    · cases e2
    · rename_i hz
      rw [if_neg hz]
      obtain ⟨u, f1, e2⟩ := Res.bind_ok_inv e2
      obtain ⟨m1, m2⟩ := create_keep size v₁ v₂ sub s hs sel₁.2 sel₁.1 v e2
      exact ⟨m1, by rw [f1, Res.ok_bind]; exact m2 sel₂.1⟩
  rw [hvec.2, Res.ok_bind]
  exact narrows_tour sub sel₂.2 sel₂.1 E.c fuel (fuel + 1) ops o₁.rowSize a b v out k2 hvec.1 h

/-- **C99** Two programs that read different columns, and make the same calls, find the same in the columns both read, and are told the same. -/
theorem projections_agree {E : Env} {fuel : Nat} {s : Schema} {o₁ o₂ o : BatchOption} {ops : List RowOp} {file : Bytes} {r : FileReader} (num : s.Numbered) (hs : s.Structs)
    (hr : newReader E file = .ok r) (ht : TypesOf s r.schemas) (size₁ : o₁.rowSize = o.rowSize) (size₂ : o₂.rowSize = o.rowSize) (v₁ : o₁.notCreateVector = false) (v₂ : o₂.notCreateVector = false)
    (v : o.notCreateVector = false) (sel₁ : o₁.Selects s) (sel₂ : o₂.Selects s) (sel : o.Selects s) (sub₁ : ∀ i, o.isInclude i = true → o₁.isInclude i = true)
    (sub₂ : ∀ i, o.isInclude i = true → o₂.isInclude i = true) {out₁ out₂ : List (Bool × Vec)} (h₁ : tourVectors E fuel s o₁ ops file = .ok out₁) (h₂ : tourVectors E fuel s o₂ ops file = .ok out₂) :
    (out₁.map fun p => (p.1, p.2.keep o.isInclude)) = out₂.map fun p => (p.1, p.2.keep o.isInclude) := by
  have k₁ := projection_partial num hs hr ht size₁ v₁ v sel₁ sel sub₁ h₁
  have k₂ := projection_partial num hs hr ht size₂ v₂ v sel₂ sel sub₂ h₂
  rw [k₁] at k₂
  injection k₂

/-! ### Examples -/

/-- What a test sees: the rows of the columns of a table. -/
def Vec.columnsRead : Vec → List (Nat × List Value)
  | .nil => []
  | .mk _ _ _ cs => cs.map fun v => match v with
    | .nil => (0, [])
    | .mk id _ a _ => (id, visibleRows a)

/-- A file of 5 rows with both columns: tinyints, and booleans some of which are null. -/
def exBothEnv : Env := tinyEnv [⟨[⟨.data, 1, 2⟩, ⟨.present, 2, 2⟩, ⟨.data, 2, 2⟩], [.direct, .direct, .direct]⟩] (tinyFooter exFrail [⟨3, 0, 6, 1, 5⟩]) tinyScript

def exBothFile : Bytes := tinyFile [0x02#8, 0x07#8, 0xff#8, 0xd8#8, 0xff#8, 0xa0#8, 0x00#8]

theorem exFrail_structs : exFrail.Numbered ∧ exFrail.Structs := by
  refine ⟨rfl, fun c hc => ?_⟩
  simp only [exFrail, Schema.columns, columnsAll, List.append_nil, List.mem_cons, List.cons_append, List.nil_append, List.not_mem_nil, or_false] at hc
  rcases hc with rfl | rfl | rfl
  · exact .inl rfl
  · exact .inr ⟨rfl, rfl⟩
  · exact .inr ⟨rfl, rfl⟩

theorem exFrail_selects (o : BatchOption) (h0 : o.isInclude 0 = true) (h1 : o.isInclude 1 = true) : o.Selects exFrail := by
  refine ⟨h0, fun c hc hk => ?_⟩
  simp only [exFrail, Schema.columns, columnsAll, List.append_nil, List.mem_cons, List.cons_append, List.nil_append, List.not_mem_nil, or_false] at hc
  rcases hc with rfl | rfl | rfl
  · exact ⟨fun _ => ⟨_, List.mem_cons_self, h1⟩, fun _ => h0⟩
  · cases hk
  · cases hk

/-- The conditions of C99 are met: both columns, and the first alone, with a `Seek` between two `Next`. -/
example : ∃ r out, newReader exBothEnv exBothFile = .ok r ∧ TypesOf exFrail r.schemas ∧ exFrail.Numbered ∧ exFrail.Structs ∧
    (⟨[], 2, false⟩ : BatchOption).Selects exFrail ∧ (⟨[0, 1], 2, false⟩ : BatchOption).Selects exFrail ∧
    tourVectors exBothEnv 10 exFrail ⟨[], 2, false⟩ [.next, .seek 1, .next] exBothFile = .ok out ∧
    out.map (fun p => (p.1, p.2.columnsRead)) =
      [(false, [(1, [⟨false, .u8 7⟩, ⟨false, .u8 7⟩]), (2, [⟨false, .bool true⟩, ⟨false, .bool false⟩])]),
        (true, [(1, [⟨false, .u8 7⟩, ⟨false, .u8 7⟩]), (2, [⟨false, .bool false⟩, ⟨true, .bool false⟩])])] := by
  have h : ((tourVectors exBothEnv 10 exFrail ⟨[], 2, false⟩ [.next, .seek 1, .next] exBothFile).bind fun out => .ok (out.map fun p => (p.1, p.2.columnsRead))) =
      .ok [(false, [(1, [⟨false, .u8 7⟩, ⟨false, .u8 7⟩]), (2, [⟨false, .bool true⟩, ⟨false, .bool false⟩])]),
        (true, [(1, [⟨false, .u8 7⟩, ⟨false, .u8 7⟩]), (2, [⟨false, .bool false⟩, ⟨true, .bool false⟩])])] := by decide +kernel
  obtain ⟨out, h1, h2⟩ := Res.bind_ok_inv (x := tourVectors exBothEnv 10 exFrail ⟨[], 2, false⟩ [.next, .seek 1, .next] exBothFile) h
  injection h2 with h2
  refine ⟨⟨exBothFile, ⟨.none, 256 * 1024, 10000⟩, [⟨⟨0, .struct, ["t", "b"], [1, 2]⟩, false⟩, ⟨⟨1, .byte, [], []⟩, false⟩, ⟨⟨2, .boolean, [], []⟩, true⟩], 5,
      [tinyStats false, tinyStats false, tinyStats true], [⟨3, 0, 6, 1, 5⟩]⟩, out, rfl, ⟨rfl, ?_⟩, exFrail_structs.1, exFrail_structs.2, exFrail_selects _ rfl rfl, exFrail_selects _ rfl rfl, h1, h2⟩
  intro c hc
  simp only [exFrail, Schema.columns, columnsAll, List.append_nil, List.mem_cons, List.cons_append, List.nil_append, List.not_mem_nil, or_false] at hc
  rcases hc with rfl | rfl | rfl <;> exact ⟨_, rfl⟩

/-- **C99** The converse is false: a column that cannot be read makes the program fail that reads it, and not the one that does not. -/
theorem damage_is_local : ((tourVectors (exFrailEnv [⟨.data, 1, 2⟩, ⟨.present, 2, 9⟩, ⟨.data, 2, 70⟩] [.direct, .direct, .direct]) 10 exFrail ⟨[0, 1], 10, false⟩ [.next] exFrailFile).bind
      fun out => .ok (out.map fun p => (p.1, p.2.columnsRead))) = .ok [(true, [(1, List.replicate 5 ⟨false, .u8 7⟩)])] ∧
    ((tourVectors (exFrailEnv [⟨.data, 1, 2⟩, ⟨.present, 2, 9⟩, ⟨.data, 2, 70⟩] [.direct, .direct, .direct]) 10 exFrail ⟨[], 10, false⟩ [.next] exFrailFile).bind
      fun out => .ok (out.map fun p => (p.1, p.2.columnsRead))) = .err .eof :=
  ⟨by decide +kernel, by decide +kernel⟩

end Goorc
