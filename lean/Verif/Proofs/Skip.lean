import Verif.Proofs.ColMore
import Verif.Proofs.StructNulls
/-
Skipping rows and reading them: the lemma that does not depend on the type of a column.
-/
namespace Goorc

variable {ρ : Type} {R : ReadKind ρ} {c : Codec}

theorem ReadKind.skipRows_eq (hskip : ∀ d, R.skip c d = R.next c d >>= fun x => .ok x.2) (hsw : ∀ d, R.skipSwallows c d = false) (vec : List Value)
    (hst : ∀ old ∈ vec, ∀ x, ∃ y, R.store old.v x = .ok y) (hu : ∀ old ∈ vec, old.null = false) (r : ColReader ρ) :
    R.skipRows c vec.length r = R.nextRows c r vec >>= fun x => .ok x.2 := by
  induction vec generalizing r with
  | nil => rfl
  | cons old vec ih =>
    have ih' := fun r => ih (fun o ho => hst o (List.mem_cons_of_mem _ ho)) (fun o ho => hu o (List.mem_cons_of_mem _ ho)) r
    have data : ∀ r : ColReader ρ, (R.skip c r.data >>= fun d => R.skipRows c vec.length { r with data := d }) =
        ((do
          let (x, d) ← R.next c r.data
          let x ← R.store old.v x
          pure (x, { r with data := d }) : Res (GoVal × ColReader ρ)) >>= fun y => R.nextRows c y.2 vec >>= fun z =>
            pure (⟨false, y.1⟩ :: z.1, z.2)) >>= fun x => .ok x.2 := by
      intro r
      rw [hskip]
      cases hn : R.next c r.data with
      | ok y =>
        obtain ⟨x, d⟩ := y
        obtain ⟨z, hz⟩ := hst old (by simp) x
        simp only [Res.ok_bind, hz, Res.pure_eq, ih']
        cases R.nextRows c { r with data := d } vec <;> rfl
      | err e => rfl
      | panic => rfl
      | hang => rfl
    simp only [List.length_cons, ReadKind.skipRows, ReadKind.nextRows]
    cases hp : r.present with
    | none =>
      simp only [Res.pure_eq, Res.ok_bind, if_true, hsw, Bool.false_eq_true, if_false, hu old (by simp)]
      have := data r
      rw [this]
      simp only [hp]
      rfl
    | some p =>
      cases hb : p.next c with
      | ok y =>
        obtain ⟨b, p'⟩ := y
        simp only [hb, Res.pure_eq, Res.ok_bind]
        cases b with
        | false =>
          simp only [Bool.false_eq_true, if_false, Bool.not_false, if_true, Res.ok_bind, ih']
          cases R.nextRows c { r with present := some p' } vec <;> rfl
        | true =>
          simp only [if_true, hsw, Bool.false_eq_true, if_false, Bool.not_true]
          rw [data { r with present := some p' }]
          rfl
      | err e => simp only [hb]; rfl
      | panic => simp only [hb]; rfl
      | hang => simp only [hb]; rfl

/-- Skipping in two steps. -/
theorem ReadKind.skipRows_add (hsw : ∀ d, R.skipSwallows c d = false) (a b : Nat) (r : ColReader ρ) :
    R.skipRows c (a + b) r = R.skipRows c a r >>= fun r => R.skipRows c b r := by
  induction a generalizing r with
  | zero => simp [ReadKind.skipRows]
  | succ a ih =>
    rw [show a + 1 + b = (a + b) + 1 from by omega]
    simp only [ReadKind.skipRows, hsw, Bool.false_eq_true, if_false, ih]
    cases r.present with
    | none =>
      simp only [Res.pure_eq, Res.ok_bind, if_true]
      cases R.skip c r.data <;> rfl
    | some p =>
      cases hb : p.next c with
      | ok y =>
        obtain ⟨b', p'⟩ := y
        simp only [hb, Res.pure_eq, Res.ok_bind]
        cases b' with
        | false => rfl
        | true =>
          simp only [if_true]
          cases R.skip c r.data <;> rfl
      | err e => simp only [hb]; rfl
      | panic => simp only [hb]; rfl
      | hang => simp only [hb]; rfl

/-- If reading some rows succeeds, skipping them gives the same reader, for readers that check nothing more when they skip. -/
theorem ReadKind.skipRows_of_next (hskip : R.SkipsLikeNext c) (vec vs : List Value) (hu : ∀ old ∈ vec, old.null = false) (r r' : ColReader ρ)
    (h : R.nextRows c r vec = .ok (vs, r')) : R.skipRows c vec.length r = .ok r' := by
  induction vec generalizing r vs with
  | nil => cases h; rfl
  | cons old vec ih =>
    simp only [ReadKind.nextRows, Res.pure_eq] at h
    obtain ⟨⟨null, r1⟩, h1, h⟩ := Res.bind_ok_inv h
    obtain ⟨⟨v, r2⟩, h2, h⟩ := Res.bind_ok_inv h
    obtain ⟨⟨vs', r3⟩, h3, h⟩ := Res.bind_ok_inv h
    cases h
    have ih' := ih vs' (fun o ho => hu o (List.mem_cons_of_mem _ ho)) r2 h3
    simp only [List.length_cons, ReadKind.skipRows]
    cases hp : r.present with
    | none =>
      simp only [hp, Res.ok.injEq, Prod.mk.injEq, hu old (by simp)] at h1
      obtain ⟨rfl, rfl⟩ := h1
      simp only [Bool.false_eq_true, if_false] at h2
      obtain ⟨⟨x, d⟩, h4, h2⟩ := Res.bind_ok_inv h2
      obtain ⟨y, h5, h2⟩ := Res.bind_ok_inv h2
      cases h2
      obtain ⟨s1, s2⟩ := hskip _ _ _ h4
      simp only [Res.pure_eq, Res.ok_bind, if_true, s2, Bool.false_eq_true, if_false, s1]
      exact ih'
    | some p =>
      simp only [hp] at h1
      obtain ⟨⟨b, p'⟩, h4, h1⟩ := Res.bind_ok_inv h1
      cases h1
      simp only [h4, Res.pure_eq, Res.ok_bind]
      cases b with
      | false =>
        simp only [Bool.not_false, if_true, Res.ok.injEq, Prod.mk.injEq] at h2
        obtain ⟨rfl, rfl⟩ := h2
        simp only [Bool.false_eq_true, if_false]
        exact ih'
      | true =>
        simp only [Bool.not_true, Bool.false_eq_true, if_false] at h2
        obtain ⟨⟨x, d⟩, h5, h2⟩ := Res.bind_ok_inv h2
        obtain ⟨y, h6, h2⟩ := Res.bind_ok_inv h2
        cases h2
        obtain ⟨s1, s2⟩ := hskip _ _ _ h5
        simp only [if_true, s2, Bool.false_eq_true, if_false, s1, Res.ok_bind]
        exact ih'

/-- A column without a present stream: as many values are read as there are rows that are not marked. -/
theorem ReadKind.skipRows_unmarked (hskip : R.SkipsLikeNext c) (vec vs : List Value) (r r' : ColReader ρ) (hp : r.present = none)
    (h : R.nextRows c r vec = .ok (vs, r')) : R.skipRows c (vec.countP fun v => !v.null) r = .ok r' := by
  induction vec generalizing r vs with
  | nil => cases h; rfl
  | cons old vec ih =>
    simp only [ReadKind.nextRows, Res.pure_eq, hp, Res.ok_bind] at h
    obtain ⟨⟨v, r2⟩, h2, h⟩ := Res.bind_ok_inv h
    obtain ⟨⟨vs', r3⟩, h3, h⟩ := Res.bind_ok_inv h
    cases h
    cases hb : old.null with
    | true =>
      simp only [hb, if_true, Res.ok.injEq, Prod.mk.injEq] at h2
      obtain ⟨rfl, rfl⟩ := h2
      simp only [List.countP_cons, hb]
      have := ih vs' r hp h3
      simpa using this
    | false =>
      simp only [hb, Bool.false_eq_true, if_false] at h2
      obtain ⟨⟨x, d⟩, h5, h2⟩ := Res.bind_ok_inv h2
      obtain ⟨y, h6, h2⟩ := Res.bind_ok_inv h2
      cases h2
      obtain ⟨s1, s2⟩ := hskip _ _ _ h5
      have ih' := ih vs' { r with data := d } hp (by rw [hp]; exact h3)
      simp only [List.countP_cons, hb, Bool.not_false, if_true, ReadKind.skipRows, hp, Res.pure_eq, Res.ok_bind, s2, Bool.false_eq_true, if_false, s1]
      rw [hp] at ih'
      exact ih'

/-! ### Structs -/

variable {χ : Type} {X : RdOps χ}

theorem skipAll_iff (n : Nat) (cs cs' : List χ) : skipAll X n cs = .ok cs' ↔ List.Forall₂ (fun x x' => X.skip x n = .ok x') cs cs' := by
  induction cs generalizing cs' with
  | nil => cases cs' <;> simp [skipAll]
  | cons x cs ih =>
    simp only [skipAll, Res.pure_eq]
    constructor
    · intro h
      obtain ⟨y, h1, h⟩ := Res.bind_ok_inv h
      obtain ⟨ys, h2, h⟩ := Res.bind_ok_inv h
      cases h
      exact .cons h1 ((ih ys).1 h2)
    · intro h
      cases h with
      | cons h1 h2 => rw [h1, Res.ok_bind, (ih _).2 h2]; rfl

/-- Skipping the rows of a struct skips its children by as many rows as are there. -/
theorem structSkip_spec (Q : χ → Prop) (flags : List Bool) (p p' : BoolReader) (cs cs' : List χ) (hp : Yields (BoolReader.next c) p flags p')
    (hQ : ∀ x ∈ cs, Q x) (hzero : ∀ x, Q x → ∀ x', X.skip x 0 = .ok x' → x' = x)
    (hsplit : ∀ x, Q x → ∀ (x' : χ) (n : Nat), X.skip x (n + 1) = .ok x' → ∃ y, X.skip x 1 = .ok y ∧ X.skip y n = .ok x' ∧ Q y)
    (h : List.Forall₂ (fun x x' => X.skip x (flags.countP id) = .ok x') cs cs') :
    structSkip X c flags.length (some p) cs = .ok (some p', cs') := by
  induction flags generalizing p cs with
  | nil =>
    cases hp
    have : cs' = cs := by
      clear hsplit
      induction h with
      | nil => rfl
      | cons h1 h2 ih =>
        rw [ih (fun x hx => hQ x (List.mem_cons_of_mem _ hx)), hzero _ (hQ _ (by simp)) _ h1]
    rw [this]
    rfl
  | cons b flags ih =>
    obtain ⟨p1, h1, h2⟩ := hp
    simp only [List.length_cons, structSkip, nextPresent, h1, Res.ok_bind, Res.pure_eq]
    cases b with
    | false =>
      simp only [Bool.false_eq_true, if_false, Res.ok_bind]
      exact ih p1 cs h2 hQ (by simpa using h)
    | true =>
      simp only [if_true]
      have hc : (true :: flags).countP id = flags.countP id + 1 := by simp
      rw [hc] at h
      have : ∃ ys, List.Forall₂ (fun x x' => X.skip x 1 = .ok x') cs ys ∧ List.Forall₂ (fun x x' => X.skip x (flags.countP id) = .ok x') ys cs' ∧
          ∀ y ∈ ys, Q y := by
        clear ih hc h1 h2
        induction h with
        | nil => exact ⟨[], .nil, .nil, by simp⟩
        | cons k1 k2 ih =>
          obtain ⟨ys, m1, m2, m3⟩ := ih fun x hx => hQ x (List.mem_cons_of_mem _ hx)
          obtain ⟨y, n1, n2, n3⟩ := hsplit _ (hQ _ (by simp)) _ _ k1
          refine ⟨y :: ys, .cons n1 m1, .cons n2 m2, fun z hz => ?_⟩
          rcases List.mem_cons.1 hz with rfl | hz
          · exact n3
          · exact m3 z hz
      obtain ⟨ys, m1, m2, m3⟩ := this
      rw [(skipAll_iff 1 cs ys).2 m1, Res.ok_bind]
      exact ih p1 ys h2 m3 m2

/-- A struct that is not nullable. -/
theorem structSkip_none (Q : χ → Prop) (n : Nat) (cs cs' : List χ) (hQ : ∀ x ∈ cs, Q x) (hzero : ∀ x, Q x → ∀ x', X.skip x 0 = .ok x' → x' = x)
    (hsplit : ∀ x, Q x → ∀ (x' : χ) (n : Nat), X.skip x (n + 1) = .ok x' → ∃ y, X.skip x 1 = .ok y ∧ X.skip y n = .ok x' ∧ Q y)
    (h : List.Forall₂ (fun x x' => X.skip x n = .ok x') cs cs') : structSkip X c n none cs = .ok (none, cs') := by
  induction n generalizing cs with
  | zero =>
    have : cs' = cs := by
      clear hsplit
      induction h with
      | nil => rfl
      | cons h1 h2 ih =>
        rw [ih (fun x hx => hQ x (List.mem_cons_of_mem _ hx)), hzero _ (hQ _ (by simp)) _ h1]
    rw [this]
    rfl
  | succ n ih =>
    simp only [structSkip, nextPresent, Res.ok_bind, if_true]
    have : ∃ ys, List.Forall₂ (fun x x' => X.skip x 1 = .ok x') cs ys ∧ List.Forall₂ (fun x x' => X.skip x n = .ok x') ys cs' ∧
        ∀ y ∈ ys, Q y := by
      clear ih
      induction h with
      | nil => exact ⟨[], .nil, .nil, by simp⟩
      | cons k1 k2 ih =>
        obtain ⟨ys, m1, m2, m3⟩ := ih fun x hx => hQ x (List.mem_cons_of_mem _ hx)
        obtain ⟨y, n1, n2, n3⟩ := hsplit _ (hQ _ (by simp)) _ _ k1
        refine ⟨y :: ys, .cons n1 m1, .cons n2 m2, fun z hz => ?_⟩
        rcases List.mem_cons.1 hz with rfl | hz
        · exact n3
        · exact m3 z hz
    obtain ⟨ys, m1, m2, m3⟩ := this
    rw [(skipAll_iff 1 cs ys).2 m1, Res.ok_bind]
    exact ih ys m3 m2

end Goorc
