import Verif.Props.Column
namespace Goorc

section
variable {ρ : Type} {R : ReadKind ρ} {c : Codec} {F : BoolReader → Prop} {E : ρ → Prop}

/-- Reading null rows. -/
theorem ReadKind.Has.nulls {r : ColReader ρ} {k : Nat} {flags : List Bool} {outs : List GoVal}
    (h : R.Has c F E r (List.replicate k false ++ flags) outs) (vec : List Value) (hl : vec.length = k) :
    ∃ r', R.nextRows c r vec = .ok (vec.map (fun v => ⟨true, v.v⟩), r') ∧ R.Has c F E r' flags outs ∧
      (r'.present = none ↔ r.present = none) := by
  induction vec generalizing r k with
  | nil =>
    simp only [List.length_nil] at hl
    subst hl
    exact ⟨r, rfl, by simpa using h, Iff.rfl⟩
  | cons old vec ih =>
    cases k with
    | zero => simp at hl
    | succ k =>
      simp only [List.length_cons, Nat.add_right_cancel_iff] at hl
      rw [List.replicate_succ, List.cons_append] at h
      simp only [Has] at h
      cases hp : r.present with
      | none => simp only [hp] at h; obtain ⟨d', h1, -⟩ := h; simp at h1
      | some p =>
        simp only [hp] at h
        obtain ⟨p', d', ⟨p1, q1, q2⟩, hF, h2, hE⟩ := h
        obtain ⟨r', g1, g2, g3⟩ := ih (r := { r with present := some p1 }) (k := k) (by
          simp only [Has]; exact ⟨p', d', q2, hF, h2, hE⟩) hl
        refine ⟨r', ?_, g2, by rw [g3]; simp⟩
        simp only [nextRows, hp, q1, Res.ok_bind, Res.pure_eq, Bool.not_false, if_true, g1, List.map_cons]

/-- The first non-null row when the data streams are at their end. -/
theorem ReadKind.Has.stuck {r : ColReader ρ} {k : Nat} {flags : List Bool}
    (h : R.Has c F E r (List.replicate k false ++ true :: flags) []) (hE : ∀ d, E d → Ends (R.next c) d) (vec : List Value)
    (hl : k < vec.length) (hu : r.present = none → Unmarked vec) : ∃ e, R.nextRows c r vec = .err e := by
  have hsplit : vec.take k ++ vec.drop k = vec := List.take_append_drop _ _
  obtain ⟨r1, g1, g2, g3⟩ := h.nulls (vec.take k) (by rw [List.length_take]; omega)
  have hne : vec.drop k ≠ [] := by
    intro hn
    have := congrArg List.length hn
    simp at this
    omega
  obtain ⟨old, rest, hd⟩ := List.exists_cons_of_ne_nil hne
  have hold : old ∈ vec := by rw [← hsplit, hd]; simp
  have herr : ∃ e, R.nextRows c r1 (old :: rest) = .err e := by
    simp only [Has, Yields] at g2
    cases hp : r1.present with
    | none =>
      simp only [hp] at g2
      obtain ⟨d', -, rfl, hE'⟩ := g2
      obtain ⟨e, he⟩ := hE _ hE'
      exact ⟨e, by simp only [nextRows, hp, Res.pure_eq, Res.ok_bind, hu (g3.mp hp) old hold, Bool.false_eq_true, if_false, he, Res.err_bind]⟩
    | some p =>
      simp only [hp] at g2
      obtain ⟨p', d', ⟨p1, q1, -⟩, -, rfl, hE'⟩ := g2
      obtain ⟨e, he⟩ := hE _ hE'
      exact ⟨e, by simp only [nextRows, hp, q1, Res.ok_bind, Res.pure_eq, Bool.not_true, Bool.false_eq_true, if_false, he, Res.err_bind]⟩
  obtain ⟨e, he⟩ := herr
  refine ⟨e, ?_⟩
  rw [← hsplit, hd, nextRows_append, g1]
  simp only [Res.ok_bind, he, Res.err_bind]

/-- The first non-null row when its value cannot be stored. -/
theorem ReadKind.Has.panics {r : ColReader ρ} {k : Nat} {flags : List Bool} {x : GoVal} {outs : List GoVal}
    (h : R.Has c F E r (List.replicate k false ++ true :: flags) (x :: outs)) (vec : List Value)
    (old : Value) (hl : vec[k]? = some old) (hst : R.store old.v x = .panic) (hu : r.present = none → Unmarked vec) :
    R.nextRows c r vec = .panic := by
  have hsplit : vec.take k ++ vec.drop k = vec := List.take_append_drop _ _
  have hlt : k < vec.length := (List.getElem?_eq_some_iff.mp hl).1
  obtain ⟨r1, g1, g2, g3⟩ := h.nulls (vec.take k) (by rw [List.length_take]; omega)
  have hd : vec.drop k = old :: vec.drop (k + 1) := by
    rw [List.drop_eq_getElem_cons hlt]
    congr 1
    exact (List.getElem?_eq_some_iff.mp hl).2
  have hold : old ∈ vec := by rw [← hsplit, hd]; simp
  have hpan : R.nextRows c r1 (old :: vec.drop (k + 1)) = .panic := by
    simp only [Has] at g2
    cases hp : r1.present with
    | none =>
      simp only [hp] at g2
      obtain ⟨d', -, ⟨d1, k1, -⟩, -⟩ := g2
      simp only [nextRows, hp, Res.pure_eq, Res.ok_bind, hu (g3.mp hp) old hold, Bool.false_eq_true, if_false, k1, hst, Res.panic_bind]
    | some p =>
      simp only [hp] at g2
      obtain ⟨p', d', ⟨p1, q1, -⟩, -, ⟨d1, k1, -⟩, -⟩ := g2
      simp only [nextRows, hp, q1, Res.ok_bind, Res.pure_eq, Bool.not_true, Bool.false_eq_true, if_false, k1, hst, Res.panic_bind]
  rw [← hsplit, hd, nextRows_append, g1]
  simp only [Res.ok_bind, hpan, Res.panic_bind]

/-- A column without a present stream: rows marked null are passed over. -/
theorem ReadKind.nextRows_pour (vals : List GoVal) (vec : List Value) (hl : (vec.filter fun v => !v.null).length ≤ vals.length)
    (r : ColReader ρ) (d' : ρ) (hp : r.present = none) (hd : Yields (R.next c) r.data vals d') (hst : R.store = replaceValue) :
    ∃ r', R.nextRows c r vec = .ok (pour vec vals, r') := by
  induction vec generalizing vals r with
  | nil => exact ⟨r, rfl⟩
  | cons old vec ih =>
    obtain ⟨null, v⟩ := old
    cases null with
    | true =>
      simp only [List.filter_cons, Bool.not_true, Bool.false_eq_true, if_false] at hl
      obtain ⟨r', g⟩ := ih vals hl r hp hd
      exact ⟨r', by simp only [nextRows, hp, Res.pure_eq, Res.ok_bind, if_true, g, pour]⟩
    | false =>
      cases vals with
      | nil => simp at hl
      | cons x vals =>
        simp only [List.filter_cons, Bool.not_false, if_true, List.length_cons, Nat.add_le_add_iff_right] at hl
        obtain ⟨d1, k1, k2⟩ := hd
        obtain ⟨r', g⟩ := ih vals hl { r with data := d1 } hp k2
        refine ⟨r', ?_⟩
        simp only [hp] at g
        simp only [nextRows, hp, Res.pure_eq, Res.ok_bind, Bool.false_eq_true, if_false, k1, hst, replaceValue, g, pour]

end

end Goorc
