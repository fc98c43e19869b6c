import Verif.Spec.Columns
import Verif.Proofs.StreamTyped
namespace Goorc

/-- What a read does with a row, `st` being what `store` makes of the old and the read value. -/
def storeRow (st : GoVal → GoVal → GoVal) (old : Value) (row : Option GoVal) : Value :=
  rowValue old.v (row.map (st old.v))

theorem storeRow_replace (old : Value) (row : Option GoVal) : storeRow (fun _ x => x) old row = rowValue old.v row := by
  simp [storeRow]

theorem ReadKind.nextRows_nullable {ρ : Type} (R : ReadKind ρ) (c : Codec) (st : GoVal → GoVal → GoVal) (rows : List (Option GoVal))
    (vec : List Value) (hl : vec.length = rows.length) (r : ColReader ρ) (p p' : BoolReader) (d' : ρ) (hp : r.present = some p)
    (hy : Yields (BoolReader.next c) p (rows.map (·.isSome)) p') (hd : Yields (R.next c) r.data (rows.filterMap id) d')
    (hst : ∀ old ∈ vec, ∀ x, R.store old.v x = .ok (st old.v x)) :
    R.nextRows c r vec = .ok (List.zipWith (storeRow st) vec rows, { r with present := some p', data := d' }) := by
  induction rows generalizing vec r p with
  | nil =>
    cases vec with
    | cons _ _ => simp at hl
    | nil =>
      simp only [List.map_nil, Yields] at hy
      simp only [List.filterMap_nil, Yields] at hd
      subst hy hd
      obtain ⟨a, b, c', d, e⟩ := r
      simp only at hp
      subst hp
      rfl
  | cons row rows ih =>
    cases vec with
    | nil => simp at hl
    | cons old vec =>
      simp only [List.length_cons, Nat.add_right_cancel_iff] at hl
      have hst' : ∀ o ∈ vec, ∀ x, R.store o.v x = .ok (st o.v x) := fun o ho => hst o (List.mem_cons_of_mem _ ho)
      obtain ⟨p1, h1, h2⟩ := hy
      simp only [ReadKind.nextRows, hp, h1, Res.ok_bind, Res.pure_eq]
      cases row with
      | none =>
        have hd2 : Yields (R.next c) r.data (rows.filterMap id) d' := hd
        simp only [Option.isSome_none, Bool.not_false, if_true, Res.ok_bind]
        rw [ih vec hl { r with present := some p1 } p1 rfl h2 hd2 hst']
        rfl
      | some x =>
        obtain ⟨d1, k1, k2⟩ := hd
        simp only [Option.isSome_some, Bool.not_true, Bool.false_eq_true, if_false, k1, Res.ok_bind,
          hst old List.mem_cons_self]
        rw [ih vec hl { r with present := some p1, data := d1 } p1 rfl h2 k2 hst']
        rfl

theorem ReadKind.nextRows_full {ρ : Type} (R : ReadKind ρ) (c : Codec) (st : GoVal → GoVal → GoVal) (vals : List GoVal)
    (vec : List Value) (hl : vec.length = vals.length) (r : ColReader ρ) (d' : ρ) (hp : r.present = none) (hu : Unmarked vec)
    (hd : Yields (R.next c) r.data vals d')
    (hst : ∀ old ∈ vec, ∀ x, R.store old.v x = .ok (st old.v x)) :
    R.nextRows c r vec = .ok (List.zipWith (storeRow st) vec (vals.map some), { r with data := d' }) := by
  induction vals generalizing vec r with
  | nil =>
    cases vec with
    | cons _ _ => simp at hl
    | nil =>
      simp only [Yields] at hd
      subst hd
      rfl
  | cons x vals ih =>
    cases vec with
    | nil => simp at hl
    | cons old vec =>
      simp only [List.length_cons, Nat.add_right_cancel_iff] at hl
      have hst' : ∀ o ∈ vec, ∀ x, R.store o.v x = .ok (st o.v x) := fun o ho => hst o (List.mem_cons_of_mem _ ho)
      have hu' : Unmarked vec := fun o ho => hu o (List.mem_cons_of_mem _ ho)
      obtain ⟨d1, k1, k2⟩ := hd
      simp only [ReadKind.nextRows, hp, Res.ok_bind, Res.pure_eq, hu old List.mem_cons_self, Bool.false_eq_true, if_false, k1,
        hst old List.mem_cons_self]
      have := ih vec hl { r with data := d1 } hp hu' k2 hst'
      simp only [hp] at this
      rw [this]
      rfl

/-- A reader that has `flags` in its present stream (or none) and `outs` in its data streams, after which these satisfy
`F` and `E`. -/
def ReadKind.Has {ρ : Type} (R : ReadKind ρ) (c : Codec) (F : BoolReader → Prop) (E : ρ → Prop) (r : ColReader ρ) (flags : List Bool) (outs : List GoVal) : Prop :=
  match r.present with
  | none => ∃ d', flags.all id = true ∧ Yields (R.next c) r.data outs d' ∧ E d'
  | some p => ∃ p' d', Yields (BoolReader.next c) p flags p' ∧ F p' ∧ Yields (R.next c) r.data outs d' ∧ E d'

/-- A reader from which the rows can be read. -/
def ReadKind.Holds {ρ : Type} (R : ReadKind ρ) (c : Codec) (F : BoolReader → Prop) (E : ρ → Prop) (r : ColReader ρ) (rows : List (Option GoVal)) : Prop :=
  R.Has c F E r (rows.map (·.isSome)) (rows.filterMap id)

theorem all_some_eq {α : Type} (rows : List (Option α)) (h : rows.all (·.isSome) = true) : rows = (rows.filterMap id).map some := by
  induction rows with
  | nil => rfl
  | cons row rows ih =>
    simp only [List.all_cons, Bool.and_eq_true] at h
    cases row with
    | none => simp at h
    | some x =>
      conv => lhs; rw [ih h.2]
      rfl

theorem ReadKind.Holds.rows {ρ : Type} {R : ReadKind ρ} {c : Codec} {F : BoolReader → Prop} {E : ρ → Prop} {r : ColReader ρ} {a b : List (Option GoVal)}
    (h : R.Holds c F E r (a ++ b)) (st : GoVal → GoVal → GoVal) (vec : List Value)
    (hl : vec.length = a.length) (hu : r.present = none → Unmarked vec) (hst : ∀ old ∈ vec, ∀ x, R.store old.v x = .ok (st old.v x)) :
    ∃ r', R.nextRows c r vec = .ok (List.zipWith (storeRow st) vec a, r') ∧ R.Holds c F E r' b ∧ (r'.present = none ↔ r.present = none) ∧
      r'.hasNulls = r.hasNulls ∧ r'.kind = r.kind ∧ r'.index = r.index := by
  simp only [Holds, Has] at h
  cases hp : r.present with
  | none =>
    simp only [hp] at h
    obtain ⟨d', h1, h2, hE⟩ := h
    simp only [List.map_append, List.all_append, List.all_map, Bool.and_eq_true] at h1
    rw [List.filterMap_append] at h2
    obtain ⟨d1, k1, k2⟩ := h2.split
    have ha := all_some_eq a (by simpa [Function.comp_def] using h1.1)
    have hla : vec.length = (a.filterMap id).length := by
      rw [hl]; conv => lhs; rw [ha]
      simp
    refine ⟨{ r with data := d1 }, ?_, ?_, by simp [hp], rfl, rfl, rfl⟩
    · have := R.nextRows_full c st (a.filterMap id) vec hla r d1 hp (hu hp) k1 hst
      rw [this, ← ha]
    · simp only [Holds, Has, hp, List.all_map]
      exact ⟨d', h1.2, k2, hE⟩
  | some p =>
    simp only [hp] at h
    obtain ⟨p', d', h1, hF, h2, hE⟩ := h
    rw [List.map_append] at h1
    rw [List.filterMap_append] at h2
    obtain ⟨p1, j1, j2⟩ := h1.split
    obtain ⟨d1, k1, k2⟩ := h2.split
    refine ⟨{ r with present := some p1, data := d1 }, ?_, by simp only [Holds, Has]; exact ⟨p', d', j2, hF, k2, hE⟩, by simp, rfl, rfl, rfl⟩
    exact R.nextRows_nullable c st a vec hl r p p1 d1 hp j1 k1 hst

theorem ReadKind.Holds.batch {ρ : Type} {R : ReadKind ρ} {c : Codec} {F : BoolReader → Prop} {E : ρ → Prop} {r : ColReader ρ} {a b : List (Option GoVal)}
    (h : R.Holds c F E r (a ++ b)) (hprep : ∀ d : ρ, R.prepare c d = .ok d) (st : GoVal → GoVal → GoVal) (vec : List Value)
    (hl : vec.length = a.length) (hu : r.present = none → Unmarked vec) (hst : ∀ old ∈ vec, ∀ x, R.store old.v x = .ok (st old.v x)) :
    ∃ r', R.nextBatch c r vec = .ok (List.zipWith (storeRow st) vec a, r') ∧ R.Holds c F E r' b ∧ (r'.present = none ↔ r.present = none) ∧
      r'.hasNulls = r.hasNulls ∧ r'.kind = r.kind ∧ r'.index = r.index := by
  simp only [nextBatch, hprep, Res.ok_bind]
  exact h.rows st vec hl hu hst

/-- The batches one after the other, with a general `st`. -/
def storeAll (st : GoVal → GoVal → GoVal) : List (List Value) → List (Option GoVal) → List (List Value)
  | [], _ => []
  | vec :: vecs, rows => List.zipWith (storeRow st) vec (rows.take vec.length) :: storeAll st vecs (rows.drop vec.length)

theorem storeAll_replace (vecs : List (List Value)) (rows : List (Option GoVal)) : storeAll (fun _ x => x) vecs rows = fillAll vecs rows := by
  induction vecs generalizing rows with
  | nil => rfl
  | cons vec vecs ih =>
    simp only [storeAll, fillAll, ih, fill]
    congr 2
    funext old row
    exact storeRow_replace old row

theorem ReadKind.Holds.batches {ρ : Type} {R : ReadKind ρ} {c : Codec} {F : BoolReader → Prop} {E : ρ → Prop} (hprep : ∀ d : ρ, R.prepare c d = .ok d)
    (st : GoVal → GoVal → GoVal) (vecs : List (List Value)) {r : ColReader ρ} {rows : List (Option GoVal)} (h : R.Holds c F E r rows)
    (hl : vecs.flatten.length ≤ rows.length) (hu : r.present = none → Unmarked vecs.flatten)
    (hst : ∀ old ∈ vecs.flatten, ∀ x, R.store old.v x = .ok (st old.v x)) :
    ∃ r', R.nextBatches c r vecs = .ok (storeAll st vecs rows, r') ∧ R.Holds c F E r' (rows.drop vecs.flatten.length) := by
  induction vecs generalizing r rows with
  | nil => exact ⟨r, rfl, by simpa using h⟩
  | cons vec vecs ih =>
    simp only [List.flatten_cons, List.length_append] at hl
    have hsplit : rows.take vec.length ++ rows.drop vec.length = rows := List.take_append_drop _ _
    rw [← hsplit] at h
    obtain ⟨r1, g1, g2, g3, -⟩ := h.batch hprep st vec (by rw [List.length_take]; omega)
      (fun hn v hv => hu hn v (by simp [hv])) (fun old ho => hst old (by simp [ho]))
    obtain ⟨r2, k1, k2⟩ := ih g2 (by rw [List.length_drop]; omega) (fun hn v hv => hu (g3.mp hn) v (by
        rw [List.flatten_cons]; exact List.mem_append_right _ hv))
      (fun old ho => hst old (by rw [List.flatten_cons]; exact List.mem_append_right _ ho))
    refine ⟨r2, ?_, ?_⟩
    · simp only [nextBatches, g1, Res.ok_bind, k1, Res.pure_eq, storeAll]
    · rw [List.drop_drop] at k2
      simpa using k2

end Goorc
