import Verif.Proofs.ColLeaf
namespace Goorc

section
variable {ρ : Type} {R : ReadKind ρ} {c : Codec}

/-! ### Splitting reads -/

theorem ReadKind.nextRows_append (a b : List Value) (r : ColReader ρ) :
    R.nextRows c r (a ++ b) = (R.nextRows c r a >>= fun x => R.nextRows c x.2 b >>= fun y => pure (x.1 ++ y.1, y.2)) := by
  induction a generalizing r with
  | nil =>
    simp only [List.nil_append, ReadKind.nextRows, Res.ok_bind]
    cases R.nextRows c r b <;> rfl
  | cons old a ih => simp only [List.cons_append, ReadKind.nextRows, ih, Res.bind_assoc, Res.pure_eq, Res.ok_bind]

/-- Batches one after the other are the same as one big batch. -/
theorem ReadKind.nextBatches_flatten (hprep : ∀ d : ρ, R.prepare c d = .ok d) (vecs : List (List Value)) (r : ColReader ρ) :
    R.nextRows c r vecs.flatten = (R.nextBatches c r vecs >>= fun x => pure (x.1.flatten, x.2)) := by
  induction vecs generalizing r with
  | nil => rfl
  | cons vec vecs ih =>
    simp only [List.flatten_cons, ReadKind.nextRows_append, ReadKind.nextBatches, ReadKind.nextBatch, hprep, Res.ok_bind, Res.bind_assoc, ih,
      Res.pure_eq]

theorem ReadKind.nextBatches_err (hprep : ∀ d : ρ, R.prepare c d = .ok d) (vecs : List (List Value)) (r : ColReader ρ) (e : Err)
    (h : R.nextRows c r vecs.flatten = .err e) : R.nextBatches c r vecs = .err e := by
  rw [ReadKind.nextBatches_flatten hprep] at h
  cases hn : R.nextBatches c r vecs with
  | ok x => rw [hn] at h; cases h
  | err e' => rw [hn] at h; cases h; rfl
  | panic => rw [hn] at h; cases h
  | hang => rw [hn] at h; cases h

theorem ReadKind.nextBatches_panic (hprep : ∀ d : ρ, R.prepare c d = .ok d) (vecs : List (List Value)) (r : ColReader ρ)
    (h : R.nextRows c r vecs.flatten = .panic) : R.nextBatches c r vecs = .panic := by
  rw [ReadKind.nextBatches_flatten hprep] at h
  cases hn : R.nextBatches c r vecs with
  | ok x => rw [hn] at h; cases h
  | err e' => rw [hn] at h; cases h
  | panic => rfl
  | hang => rw [hn] at h; cases h

/-! ### Skipping -/

theorem ReadKind.Holds.skip {F : BoolReader → Prop} {E : ρ → Prop} {r : ColReader ρ} {rows : List (Option GoVal)} (h : R.Holds c F E r rows)
    (hskip : ∀ d x d', R.next c d = .ok (x, d') → R.skip c d = .ok d' ∧ R.skipSwallows c d = false) (n : Nat) (hn : n ≤ rows.length) :
    ∃ r', R.skipRows c n r = .ok r' ∧ R.Holds c F E r' (rows.drop n) ∧ (r'.present = none ↔ r.present = none) := by
  induction n generalizing r rows with
  | zero => exact ⟨r, rfl, by simpa using h, Iff.rfl⟩
  | succ n ih =>
    cases rows with
    | nil => simp at hn
    | cons row rows =>
      simp only [List.length_cons, Nat.add_le_add_iff_right] at hn
      simp only [Holds, Has] at h
      cases hp : r.present with
      | none =>
        simp only [hp] at h
        obtain ⟨d', h1, h2, hE⟩ := h
        cases row with
        | none => simp at h1
        | some x =>
          obtain ⟨d1, k1, k2⟩ := h2
          obtain ⟨s1, s2⟩ := hskip _ _ _ k1
          obtain ⟨r2, g1, g2, g3⟩ := ih (r := { r with data := d1 }) (rows := rows) (by
            simp only [Holds, Has, hp]
            exact ⟨d', by simpa using h1, k2, hE⟩) hn
          refine ⟨r2, ?_, g2, by rw [g3]; simp [hp]⟩
          simp only [ReadKind.skipRows, hp, Res.pure_eq, Res.ok_bind, if_true, s2, Bool.false_eq_true, if_false, s1]
          simp only [hp] at g1
          exact g1
      | some p =>
        simp only [hp] at h
        obtain ⟨p', d', h1, hF, h2, hE⟩ := h
        obtain ⟨p1, q1, q2⟩ := h1
        cases row with
        | none =>
          obtain ⟨r2, g1, g2, g3⟩ := ih (r := { r with present := some p1 }) (rows := rows) (by
            simp only [Holds, Has]
            exact ⟨p', d', q2, hF, h2, hE⟩) hn
          refine ⟨r2, ?_, g2, by rw [g3]; simp⟩
          simp only [Option.isSome_none] at q1
          simp only [ReadKind.skipRows, hp, q1, Res.pure_eq, Res.ok_bind, Bool.false_eq_true, if_false]
          exact g1
        | some x =>
          obtain ⟨d1, k1, k2⟩ := h2
          obtain ⟨s1, s2⟩ := hskip _ _ _ k1
          obtain ⟨r2, g1, g2, g3⟩ := ih (r := { r with present := some p1, data := d1 }) (rows := rows) (by
            simp only [Holds, Has]
            exact ⟨p', d', q2, hF, k2, hE⟩) hn
          refine ⟨r2, ?_, g2, by rw [g3]; simp⟩
          simp only [Option.isSome_some] at q1
          simp only [ReadKind.skipRows, hp, q1, Res.pure_eq, Res.ok_bind, if_true, s2, Bool.false_eq_true, if_false, s1]
          exact g1

/-- `Skip` goes on like `Next`. -/
def ReadKind.SkipsLikeNext (R : ReadKind ρ) (c : Codec) : Prop :=
  ∀ d x d', R.next c d = .ok (x, d') → R.skip c d = .ok d' ∧ R.skipSwallows c d = false

/-- What calls deliver when `store` makes `st`. -/
def deliverBy (st : GoVal → GoVal → GoVal) : List ReadOp → List (Option GoVal) → List (List Value)
  | [], _ => []
  | .batch vec :: ops, rows => List.zipWith (storeRow st) vec (rows.take vec.length) :: deliverBy st ops (rows.drop vec.length)
  | .skip n :: ops, rows => deliverBy st ops (rows.drop n)

theorem deliverBy_replace (ops : List ReadOp) (rows : List (Option GoVal)) : deliverBy (fun _ x => x) ops rows = deliver ops rows := by
  induction ops generalizing rows with
  | nil => rfl
  | cons op ops ih =>
    cases op with
    | batch vec =>
      simp only [deliverBy, deliver, ih, fill]
      congr 2
      funext old row
      exact storeRow_replace old row
    | skip n => simp only [deliverBy, deliver, ih]

theorem ReadKind.Holds.serve {F : BoolReader → Prop} {E : ρ → Prop} (hprep : ∀ d : ρ, R.prepare c d = .ok d) (hskip : R.SkipsLikeNext c)
    (st : GoVal → GoVal → GoVal) (ops : List ReadOp) {r : ColReader ρ} {rows : List (Option GoVal)} (h : R.Holds c F E r rows)
    (hl : consumed ops ≤ rows.length) (hu : r.present = none → Unmarked (vectors ops))
    (hst : ∀ old ∈ vectors ops, ∀ x, R.store old.v x = .ok (st old.v x)) :
    ∃ r', R.serve c r ops = .ok (deliverBy st ops rows, r') ∧ R.Holds c F E r' (rows.drop (consumed ops)) := by
  induction ops generalizing r rows with
  | nil => exact ⟨r, rfl, by simpa [consumed] using h⟩
  | cons op ops ih =>
    cases op with
    | batch vec =>
      simp only [consumed] at hl
      have hsplit : rows.take vec.length ++ rows.drop vec.length = rows := List.take_append_drop _ _
      rw [← hsplit] at h
      obtain ⟨r1, g1, g2, g3, -⟩ := h.batch hprep st vec (by rw [List.length_take]; omega)
        (fun hn v hv => hu hn v (by simp [vectors, hv])) (fun old ho => hst old (by simp [vectors, ho]))
      obtain ⟨r2, k1, k2⟩ := ih g2 (by rw [List.length_drop]; omega) (fun hn v hv => hu (g3.mp hn) v (by
          simp [vectors, hv]))
        (fun old ho => hst old (by simp [vectors, ho]))
      refine ⟨r2, ?_, ?_⟩
      · simp only [ReadKind.serve, g1, Res.ok_bind, k1, Res.pure_eq, deliverBy]
      · rw [List.drop_drop] at k2
        simpa [consumed] using k2
    | skip n =>
      simp only [consumed] at hl
      obtain ⟨r1, g1, g2, g3⟩ := h.skip hskip n (by omega)
      obtain ⟨r2, k1, k2⟩ := ih g2 (by rw [List.length_drop]; omega) (fun hn v hv => hu (g3.mp hn) v (by simpa [vectors] using hv))
        (fun old ho => hst old (by simpa [vectors] using ho))
      refine ⟨r2, ?_, ?_⟩
      · simp only [ReadKind.serve, g1, Res.ok_bind, k1, deliverBy]
      · rw [List.drop_drop] at k2
        simpa [consumed] using k2

/-! ### The end -/

theorem ReadKind.Holds.rows_ok {F : BoolReader → Prop} {E : ρ → Prop} {r : ColReader ρ} {a b : List (Option GoVal)}
    (h : R.Holds c F E r (a ++ b)) (st : GoVal → GoVal → GoVal) (vec : List Value)
    (hl : vec.length = a.length) (hu : r.present = none → Unmarked vec) (hst : ∀ old ∈ vec, ∀ x, R.store old.v x = .ok (st old.v x)) :
    ∃ r', R.nextRows c r vec = .ok (List.zipWith (storeRow st) vec a, r') ∧ R.Holds c F E r' b ∧ (r'.present = none ↔ r.present = none) := by
  have h' : (ReadKind.mk R.kinds R.checksNulls R.init (fun _ d => .ok d) R.next R.store R.skip R.skipSwallows R.seeksZero R.layout R.seek R.dropsOthers R.byNulls).Holds c F E r (a ++ b) := h
  obtain ⟨r', g1, g2, g3, -⟩ := h'.batch (fun _ => rfl) st vec hl hu hst
  exact ⟨r', by
    have e : ∀ (r : ColReader ρ) v, (ReadKind.mk R.kinds R.checksNulls R.init (fun _ d => .ok d) R.next R.store R.skip R.skipSwallows R.seeksZero R.layout R.seek R.dropsOthers R.byNulls).nextRows c r v = R.nextRows c r v := by
      intro r v
      induction v generalizing r with
      | nil => rfl
      | cons old v ih => simp only [ReadKind.nextRows, ih]
    simpa only [ReadKind.nextBatch, e, Res.ok_bind] using g1, g2, g3⟩

/-- The first row after the end. -/
theorem ReadKind.Holds.past {F : BoolReader → Prop} {E : ρ → Prop} {r : ColReader ρ} {rows : List (Option GoVal)} (h : R.Holds c F E r rows)
    (hF : ∀ p, F p → Ends (BoolReader.next c) p) (hE : r.present = none → ∀ d, E d → Ends (R.next c) d)
    (hst : R.store = replaceValue) (vec : List Value) (hl : rows.length < vec.length) (hu : r.present = none → Unmarked vec) :
    ∃ e, R.nextRows c r vec = .err e := by
  have hsplit : vec.take rows.length ++ vec.drop rows.length = vec := List.take_append_drop _ _
  obtain ⟨r1, g1, g2, g3⟩ := (show R.Holds c F E r (rows ++ []) by simpa using h).rows_ok (fun _ x => x) (vec.take rows.length)
    (by rw [List.length_take]; omega) (fun hn v hv => hu hn v (List.mem_of_mem_take hv)) (by intro old _ x; rw [hst]; rfl)
  have hne : vec.drop rows.length ≠ [] := by
    intro hn
    have := congrArg List.length hn
    rw [List.length_drop] at this
    simp at this
    omega
  obtain ⟨old, rest, hd⟩ := List.exists_cons_of_ne_nil hne
  have hold : old ∈ vec := by rw [← hsplit, hd]; simp
  have herr : ∃ e, R.nextRows c r1 (old :: rest) = .err e := by
    simp only [Holds, Has, List.map_nil, List.filterMap_nil, Yields] at g2
    cases hp : r1.present with
    | none =>
      simp only [hp] at g2
      obtain ⟨d', -, rfl, hE'⟩ := g2
      obtain ⟨e, he⟩ := hE (g3.mp hp) _ hE'
      exact ⟨e, by simp only [nextRows, hp, Res.pure_eq, Res.ok_bind, hu (g3.mp hp) old hold, Bool.false_eq_true, if_false, he, Res.err_bind]⟩
    | some p =>
      simp only [hp] at g2
      obtain ⟨p', d', rfl, hF', -⟩ := g2
      obtain ⟨e, he⟩ := hF _ hF'
      exact ⟨e, by simp only [nextRows, hp, he, Res.err_bind]⟩
  obtain ⟨e, he⟩ := herr
  refine ⟨e, ?_⟩
  rw [← hsplit, hd, nextRows_append, g1]
  simp only [Res.ok_bind, he, Res.err_bind]

/-- The padding of the present stream reads as null rows. -/
theorem ReadKind.Holds.padded {E : ρ → Prop} {r : ColReader ρ} {rows : List (Option GoVal)} {n : Nat} (h : R.Holds c (PresentEnd c n) E r rows)
    (hp : r.present ≠ none) : R.Holds c (Ends (BoolReader.next c)) E r (rows ++ (padding n).map fun _ => none) := by
  simp only [Holds, Has] at h ⊢
  cases hq : r.present with
  | none => exact absurd hq hp
  | some p =>
    simp only [hq] at h ⊢
    obtain ⟨p', d', h1, ⟨p2, h3, h4⟩, h2, hE⟩ := h
    refine ⟨p2, d', ?_, h4, ?_, hE⟩
    · rw [List.map_append]
      refine h1.append ?_
      have : ((padding n).map fun _ => (none : Option GoVal)).map (·.isSome) = padding n := by
        simp [padding]
      rw [this]
      exact h3
    · rw [List.filterMap_append]
      have : ((padding n).map fun _ => (none : Option GoVal)).filterMap id = [] := by simp [padding]
      rw [this, List.append_nil]
      exact h2

end

section
variable {δ κ ρ : Type} {K : LeafKind δ κ} {R : ReadKind ρ} {c : Codec} {o : COpts} {E : ρ → Prop}

theorem LeafTrip.serves (hc : c.Lossless) (ho : o.toWOpts.Sound) (hasNulls : Bool) (written : List Value)
    (hnull : hasNulls = true ∨ ∀ v ∈ written, v.null = false)
    (h : LeafTrip K R c o E (written.filterMap Value.row) (written.filterMap Value.row))
    (hprep : ∀ d : ρ, R.prepare c d = .ok d) (hst : R.store = replaceValue) (hskip : R.SkipsLikeNext c) :
    ColumnServes K R c o hasNulls written (written.map Value.row) := by
  obtain ⟨infos, body, h1, h2, h3⟩ := LeafTrip.holds hc ho hasNulls written (written.map Value.row) (rows_flags written)
    (fun hn => hnull.resolve_left (by simp [hn])) (by rw [rows_values]; exact h)
  refine ⟨infos, body, h1, fun pre post ops hl hu => ?_⟩
  obtain ⟨r, g1, g2, g3⟩ := h3 pre post
  obtain ⟨r', k1, -⟩ := g2.serve hprep hskip (fun _ x => x) ops hl (fun hn => hu (g3.mp hn)) (by intro old _ x; rw [hst]; rfl)
  simp only [serveColumn, g1, k1, Res.ok_bind, Res.pure_eq, deliverBy_replace]

/-- A nullable column ends after the padding of its present stream. -/
theorem LeafTrip.ends_nullable (hc : c.Lossless) (ho : o.toWOpts.Sound) (written : List Value)
    (h : LeafTrip K R c o E (written.filterMap Value.row) (written.filterMap Value.row))
    (hprep : ∀ d : ρ, R.prepare c d = .ok d) (hst : R.store = replaceValue) :
    ColumnEnds K R c o true written (written.map Value.row ++ (padding written.length).map fun _ => none) := by
  obtain ⟨infos, body, h1, h2, h3⟩ := LeafTrip.holds hc ho true written (written.map Value.row) (rows_flags written)
    (fun hn => by cases hn) (by rw [rows_values]; exact h)
  refine ⟨infos, body, h1, fun pre post vecs hu => ?_⟩
  obtain ⟨r, g1, g2, g3⟩ := h3 pre post
  have hpad := g2.padded (by rw [Ne, g3]; simp)
  refine ⟨fun hl => ?_, fun hl => ?_⟩
  · obtain ⟨r', k1, -⟩ := hpad.batches hprep (fun _ x => x) vecs hl (fun hn => hu (g3.mp hn)) (by intro old _ x; rw [hst]; rfl)
    simp only [readColumn, g1, k1, Res.ok_bind, Res.pure_eq, storeAll_replace]
  · obtain ⟨e, he⟩ := hpad.past (fun _ hp => hp) (fun hn => absurd (g3.mp hn) (by simp)) hst _ hl (fun hn => hu (g3.mp hn))
    exact ⟨e, by simp only [readColumn, g1, ReadKind.nextBatches_err hprep _ _ _ he, Res.err_bind]⟩

/-- A column that is not nullable ends with its last row, if its data stream does. -/
theorem LeafTrip.ends_full (hc : c.Lossless) (ho : o.toWOpts.Sound) (written : List Value) (hnull : ∀ v ∈ written, v.null = false)
    (h : LeafTrip K R c o E (written.filterMap Value.row) (written.filterMap Value.row)) (hE : ∀ d, E d → Ends (R.next c) d)
    (hprep : ∀ d : ρ, R.prepare c d = .ok d) (hst : R.store = replaceValue) :
    ColumnEnds K R c o false written (written.map Value.row) := by
  obtain ⟨infos, body, h1, h2, h3⟩ := LeafTrip.holds hc ho false written (written.map Value.row) (rows_flags written)
    (fun _ => hnull) (by rw [rows_values]; exact h)
  refine ⟨infos, body, h1, fun pre post vecs hu => ?_⟩
  obtain ⟨r, g1, g2, g3⟩ := h3 pre post
  have hpn := g3.mpr rfl
  have g2' : R.Holds c (Ends (BoolReader.next c)) E r (written.map Value.row) := by
    simp only [ReadKind.Holds, ReadKind.Has, hpn] at g2 ⊢; exact g2
  refine ⟨fun hl => ?_, fun hl => ?_⟩
  · obtain ⟨r', k1, -⟩ := g2.batches hprep (fun _ x => x) vecs hl (fun hn => hu (g3.mp hn)) (by intro old _ x; rw [hst]; rfl)
    simp only [readColumn, g1, k1, Res.ok_bind, Res.pure_eq, storeAll_replace]
  · obtain ⟨e, he⟩ := g2'.past (fun _ hp => hp) (fun _ => hE) hst _ hl (fun hn => hu (g3.mp hn))
    exact ⟨e, by simp only [readColumn, g1, ReadKind.nextBatches_err hprep _ _ _ he, Res.err_bind]⟩

end

end Goorc
