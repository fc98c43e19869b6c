import Verif.Proofs.ColData
namespace Goorc

/-! ### The statistics of the leaf columns never fail -/

theorem byte_healthy (wi : Bool) (vs : List Byte) : byteKind.Healthy wi (fun _ => True) (fun u => u.isSome = true) (vs.map .u8) where
  fresh := rfl
  stats _ _ t _ := ⟨_, rfl, trivial⟩
  index _ _ _ t u _ hu := by
    obtain ⟨n, rfl⟩ := Option.isSome_iff_exists.mp hu
    exact ⟨_, _, rfl, trivial, rfl⟩

theorem bool_healthy (wi : Bool) (vs : List Bool) : boolKind.Healthy wi (fun _ => True) (fun u => u.isSome = true) (vs.map .bool) where
  fresh := rfl
  stats v hv t _ := by
    obtain ⟨b, -, rfl⟩ := List.mem_map.mp hv
    exact ⟨_, rfl, trivial⟩
  index _ _ _ t u _ hu := by
    obtain ⟨n, rfl⟩ := Option.isSome_iff_exists.mp hu
    exact ⟨_, _, rfl, trivial, rfl⟩

theorem int_healthy (wi : Bool) (bits : IntBits) (vs : List U64) (hf : ∀ v ∈ vs, bits.fits v) :
    (intKind bits).Healthy wi (fun _ => True) (fun u => u.isSome = true) (vs.map bits.read) where
  fresh := rfl
  stats v hv t _ := by
    obtain ⟨b, hb, rfl⟩ := List.mem_map.mp hv
    simp only [intKind, bits.value_inj b (hf b hb), Res.ok_bind, Res.pure_eq]
    exact ⟨_, rfl, trivial⟩
  index _ v hv t u _ hu := by
    obtain ⟨b, hb, rfl⟩ := List.mem_map.mp hv
    obtain ⟨n, rfl⟩ := Option.isSome_iff_exists.mp hu
    simp only [intKind, bits.value_inj b (hf b hb), Res.ok_bind, Res.pure_eq]
    exact ⟨_, _, rfl, trivial, rfl⟩

theorem float_healthy (A : Arith) (vs : List (BitVec 32)) :
    (floatKind A false).Healthy false (fun _ => True) (fun u => u.isSome = true) (vs.map .f32) where
  fresh := rfl
  stats v hv t _ := by
    obtain ⟨b, hb, rfl⟩ := List.mem_map.mp hv
    exact ⟨_, rfl, trivial⟩
  index h := by cases h

theorem double_healthy (wi : Bool) (A : Arith) (vs : List (BitVec 64)) :
    (floatKind A true).Healthy wi (fun _ => True) (fun u => u.isSome = true) (vs.map .f64) where
  fresh := rfl
  stats v hv t _ := by
    obtain ⟨b, hb, rfl⟩ := List.mem_map.mp hv
    exact ⟨_, rfl, trivial⟩
  index _ v hv t u _ hu := by
    obtain ⟨b, hb, rfl⟩ := List.mem_map.mp hv
    obtain ⟨n, rfl⟩ := Option.isSome_iff_exists.mp hu
    exact ⟨_, _, rfl, trivial, rfl⟩

theorem string_healthy (wi : Bool) (vs : List Bytes) : stringKind.Healthy wi (fun _ => True) (fun u => u.isSome = true) (vs.map .str) where
  fresh := rfl
  stats v hv t _ := by
    obtain ⟨b, hb, rfl⟩ := List.mem_map.mp hv
    exact ⟨_, rfl, trivial⟩
  index _ v hv t u _ hu := by
    obtain ⟨b, hb, rfl⟩ := List.mem_map.mp hv
    obtain ⟨n, rfl⟩ := Option.isSome_iff_exists.mp hu
    exact ⟨_, _, rfl, trivial, rfl⟩

theorem binary_healthy (wi : Bool) (vs : List Bytes) : binaryKind.Healthy wi (fun _ => True) (fun u => u.isSome = true) (vs.map .bytes) where
  fresh := rfl
  stats _ _ t _ := ⟨_, rfl, trivial⟩
  index _ _ _ t u _ hu := by
    obtain ⟨n, rfl⟩ := Option.isSome_iff_exists.mp hu
    exact ⟨_, _, rfl, trivial, rfl⟩

theorem date_healthy (wi : Bool) (ts : List Int) : dateKind.Healthy wi (fun _ => True) (fun _ => True) (ts.map .date) where
  fresh := trivial
  stats v hv t _ := by
    obtain ⟨b, hb, rfl⟩ := List.mem_map.mp hv
    exact ⟨_, rfl, trivial⟩
  index _ v hv t u _ _ := by
    obtain ⟨b, hb, rfl⟩ := List.mem_map.mp hv
    exact ⟨_, _, rfl, trivial, trivial⟩

theorem ts_healthy (wi : Bool) (vs : List (Option Int × U64 × U64)) : timestampKind.Healthy wi (fun _ => True) (fun _ => True) (vs.map tsVal) where
  fresh := trivial
  stats v hv t _ := by
    obtain ⟨b, hb, rfl⟩ := List.mem_map.mp hv
    exact ⟨_, rfl, trivial⟩
  index _ v hv t u _ _ := by
    obtain ⟨b, hb, rfl⟩ := List.mem_map.mp hv
    exact ⟨_, _, rfl, trivial, trivial⟩

/-- Formatted numbers can be parsed. -/
def Arith.Parses (A : Arith) : Prop := ∀ x, A.format x ≠ [] ∧ (A.parse (A.format x)).isSome = true

theorem dec_healthy (A : Arith) (hA : A.Parses) (vs : List (U64 × U64)) :
    (decimalKind A).Healthy false (fun t => t.sum = [] ∨ (A.parse t.sum).isSome = true) (fun _ => True) (vs.map decVal) where
  fresh := trivial
  stats v hv t ht := by
    obtain ⟨b, hb, rfl⟩ := List.mem_map.mp hv
    have hsum : ∀ s : DecStats, s.sum = t.sum → ∃ x, (if s.sum ≠ [] then parseFloat A s.sum else pure 0 : Res (BitVec 64)) = .ok x := by
      intro s hs
      rw [hs]
      by_cases h0 : t.sum = []
      · simp [h0]
      · rcases ht with ht | ht
        · exact absurd ht h0
        · obtain ⟨x, hx⟩ := Option.isSome_iff_exists.mp ht
          simp [h0, parseFloat, hx]
    simp only [decimalKind, decVal, DecStats.add]
    generalize A.decString b.1 b.2.toInt = x
    have h2 : (if bytesLt (if bytesLt x t.min = true then { t with min := x } else t).max x = true then
        { (if bytesLt x t.min = true then { t with min := x } else t) with max := x }
        else (if bytesLt x t.min = true then { t with min := x } else t)).sum = t.sum := by
      cases h1 : bytesLt x t.min <;> cases h2 : bytesLt t.max x <;> simp [h2]
    generalize (if bytesLt (if bytesLt x t.min = true then { t with min := x } else t).max x = true then
        { (if bytesLt x t.min = true then { t with min := x } else t) with max := x }
        else (if bytesLt x t.min = true then { t with min := x } else t)) = s at h2
    obtain ⟨y, hy⟩ := hsum s h2
    by_cases h0 : s.sum ≠ []
    · rw [if_pos h0] at hy ⊢
      rw [hy]
      exact ⟨_, rfl, Or.inr (hA _).2⟩
    · rw [if_neg h0]
      exact ⟨_, rfl, Or.inr (hA _).2⟩
  index h := by cases h

/-! ### Rows handed to a writer -/

theorem nonNulls_eq (written : List Value) : nonNulls written = written.filterMap Value.row := rfl

theorem rows_flags (written : List Value) : (written.map Value.row).map (·.isSome) = written.map fun v => !v.null := by
  induction written with
  | nil => rfl
  | cons v written ih =>
    simp only [List.map_cons, ih]
    cases h : v.null <;> simp [Value.row, h]

theorem rows_values (written : List Value) : (written.map Value.row).filterMap id = written.filterMap Value.row := by
  simp [List.filterMap_map]

/-- The column statistics, the index statistics and the data streams of a new column all cope with `vals`, and `outs` is
what can be read. -/
def LeafTrip {δ κ ρ : Type} (K : LeafKind δ κ) (R : ReadKind ρ) (c : Codec) (o : COpts) (E : ρ → Prop) (vals outs : List GoVal) : Prop :=
  ∃ I J clean, I K.fresh ∧ J K.firstIndex ∧ K.Healthy o.writeIndex I J vals ∧
    DataRoundTrip K R c o.toWOpts clean E (K.newData o.toWOpts) vals outs

/-- Values paired with flags. -/
def spread : List Bool → List GoVal → List (Option GoVal)
  | [], _ => []
  | false :: flags, outs => none :: spread flags outs
  | true :: flags, out :: outs => some out :: spread flags outs
  | true :: flags, [] => none :: spread flags []

section
variable {δ κ ρ : Type} {K : LeafKind δ κ} {R : ReadKind ρ} {c : Codec} {o : COpts} {E : ρ → Prop}

/-- A column opened again, whatever its rows. -/
theorem LeafTrip.opened (hc : c.Lossless) (ho : o.toWOpts.Sound) (hasNulls : Bool) (written : List Value) (outs : List GoVal)
    (h : LeafTrip K R c o E (written.filterMap Value.row) outs) :
    ∃ infos body, writeColumn K c o hasNulls written = .ok (infos, body) ∧ (infos.map (·.2)).sum = body.length ∧ ∀ pre post, ∃ r,
      R.openCol o.kind hasNulls (placeStreams o.kind o.chunkSize (pre ++ body ++ post) pre.length infos) = some r ∧
      R.Has c (PresentEnd c written.length) E r (if hasNulls then written.map (fun v => !v.null) else outs.map fun _ => true) outs ∧ (r.present = none ↔ hasNulls = false) := by
  obtain ⟨I, J, clean, h1, h2, h3, h4⟩ := h
  obtain ⟨infos, body, g1, g2, g3⟩ := column_spec K R c hc o ho clean E hasNulls written
    (if hasNulls then written.map (fun v => !v.null) else outs.map fun _ => true) _ I J h1 h2 h3 h4 (fun hn => by rw [if_pos hn]) (fun hn => by simp [hn])
  refine ⟨infos, body, g1, g2, fun pre post => ?_⟩
  obtain ⟨r, k1, k2, k3⟩ := g3 pre post
  refine ⟨r, k1, ?_, k3⟩
  cases hasNulls with
  | true => simpa using k2
  | false =>
    have hp := k3.mpr rfl
    simp only [ReadKind.Has, hp, Bool.false_eq_true, if_false] at k2 ⊢
    exact k2

/-- A nullable column, or one without nulls. -/
theorem LeafTrip.holds (hc : c.Lossless) (ho : o.toWOpts.Sound) (hasNulls : Bool) (written : List Value) (rows : List (Option GoVal))
    (hflags : rows.map (·.isSome) = written.map fun v => !v.null) (hnull : hasNulls = false → ∀ v ∈ written, v.null = false)
    (h : LeafTrip K R c o E (written.filterMap Value.row) (rows.filterMap id)) :
    ∃ infos body, writeColumn K c o hasNulls written = .ok (infos, body) ∧ (infos.map (·.2)).sum = body.length ∧ ∀ pre post, ∃ r,
      R.openCol o.kind hasNulls (placeStreams o.kind o.chunkSize (pre ++ body ++ post) pre.length infos) = some r ∧
      R.Holds c (PresentEnd c written.length) E r rows ∧ (r.present = none ↔ hasNulls = false) := by
  obtain ⟨infos, body, h1, h2, h3⟩ := h.opened hc ho hasNulls written _
  refine ⟨infos, body, h1, h2, fun pre post => ?_⟩
  obtain ⟨r, g1, g2, g3⟩ := h3 pre post
  refine ⟨r, g1, ?_, g3⟩
  cases hasNulls with
  | true => simp only [if_true] at g2; rw [← hflags] at g2; exact g2
  | false =>
    simp only [Bool.false_eq_true, if_false] at g2
    have : (rows.filterMap id).map (fun _ => true) = rows.map (·.isSome) := by
      have hall : rows.all (·.isSome) = true := by
        have : (rows.map (·.isSome)).all id = true := by
          rw [hflags, List.all_map, List.all_eq_true]
          intro v hv; simp [hnull rfl v hv]
        rw [List.all_map] at this
        exact this
      conv => rhs; rw [all_some_eq rows hall]
      simp [Function.comp_def]
    rw [this] at g2
    exact g2

/-- Nullable columns, and columns without nulls, read back. -/
theorem LeafTrip.readsBack (hc : c.Lossless) (ho : o.toWOpts.Sound) (hasNulls : Bool) (written : List Value)
    (hnull : hasNulls = true ∨ ∀ v ∈ written, v.null = false)
    (h : LeafTrip K R c o E (written.filterMap Value.row) (written.filterMap Value.row))
    (hprep : ∀ d : ρ, R.prepare c d = .ok d) (hst : R.store = replaceValue) :
    ColumnReadsBack K R c o hasNulls written (written.map Value.row) := by
  obtain ⟨I, J, clean, h1, h2, h3, h4⟩ := h
  rw [← rows_values] at h4
  refine column_reads K R c hc o ho clean E hasNulls written _ I J h1 h2 h3 (by rw [rows_values] at h4 ⊢; exact h4) (fun _ => rows_flags written)
    (fun hn => ?_) hprep hst
  rcases hnull with hn' | hall
  · rw [hn] at hn'; cases hn'
  · rw [List.all_map, List.all_eq_true]
    intro v hv
    simp [Value.row, hall v hv]

/-- In a column without a present stream nulls leave no trace. -/
theorem LeafTrip.dropsNulls (hc : c.Lossless) (ho : o.toWOpts.Sound) (written : List Value)
    (h : LeafTrip K R c o E (written.filterMap Value.row) (written.filterMap Value.row))
    (hprep : ∀ d : ρ, R.prepare c d = .ok d) (hst : R.store = replaceValue) :
    ColumnReadsBack K R c o false written ((written.filterMap Value.row).map some) := by
  obtain ⟨I, J, clean, h1, h2, h3, h4⟩ := h
  refine column_reads K R c hc o ho clean E false written _ I J h1 h2 h3 (by
    simp only [List.filterMap_map, Function.comp_def, id, List.filterMap_some]; exact h4) (fun hn => by cases hn)
    (fun _ => by rw [List.all_map, List.all_eq_true]; exact fun _ _ => rfl) hprep hst

end

/-! ### The leaf columns -/

section
variable {c : Codec} (hc : c.Lossless) {o : COpts} (ho : o.toWOpts.Sound)
include hc ho

theorem byte_leaf (vs : List Byte) : LeafTrip byteKind byteRead c o (Ends (byteRead.next c)) (vs.map .u8) (vs.map .u8) :=
  ⟨fun _ => True, fun u => u.isSome = true, _, trivial, rfl, byte_healthy o.writeIndex vs,
    byte_trip hc ho _ (newStreamWriter_clean c o.toWOpts ho _ _ ⟨newByteEncoder_wf _, rfl⟩) vs⟩

theorem bool_leaf (vs : List Bool) : LeafTrip boolKind boolRead c o
    (fun r => ∃ r', Yields (boolRead.next c) r ((padding vs.length).map .bool) r' ∧ Ends (boolRead.next c) r') (vs.map .bool) (vs.map .bool) :=
  ⟨fun _ => True, fun u => u.isSome = true, _, trivial, rfl, bool_healthy o.writeIndex vs,
    bool_trip hc ho _ (newStreamWriter_clean c o.toWOpts ho _ _ ⟨rfl, newByteEncoder_wf _, rfl, rfl⟩) vs⟩

theorem int_leaf (bits : IntBits) (vs : List U64) (hf : ∀ v ∈ vs, bits.fits v) (hb : ReadsBackI vs) :
    LeafTrip (intKind bits) (intRead bits) c o (Ends ((intRead bits).next c)) (vs.map bits.read) (vs.map bits.read) :=
  ⟨fun _ => True, fun u => u.isSome = true, _, trivial, rfl, int_healthy o.writeIndex bits vs hf,
    int_trip hc ho bits _ (newStreamWriter_clean c o.toWOpts ho _ _ ⟨rfl, rfl⟩) vs hf hb⟩

theorem float_leaf (A : Arith) (hwi : o.writeIndex = false) (vs : List (BitVec 32)) :
    LeafTrip (floatKind A false) (floatRead false) c o (Ends ((floatRead false).next c)) (vs.map .f32) (vs.map .f32) :=
  ⟨fun _ => True, fun u => u.isSome = true, _, trivial, rfl, by rw [hwi]; exact float_healthy A vs,
    float_trip hc ho A _ (newStreamWriter_clean c o.toWOpts ho _ _ trivial) vs⟩

theorem double_leaf (A : Arith) (vs : List (BitVec 64)) :
    LeafTrip (floatKind A true) (floatRead true) c o (Ends ((floatRead true).next c)) (vs.map .f64) (vs.map .f64) :=
  ⟨fun _ => True, fun u => u.isSome = true, _, trivial, rfl, double_healthy o.writeIndex A vs,
    double_trip hc ho A _ (newStreamWriter_clean c o.toWOpts ho _ _ trivial) vs⟩

theorem string_leaf (vs : List Bytes) (hfit : ∀ v ∈ vs, v.length < 2 ^ 63) (hb : ReadsBackU (vs.map fun v => BitVec.ofNat 64 v.length)) :
    LeafTrip stringKind stringRead c o (Ends (stringRead.next c)) (vs.map .str) (vs.map .str) :=
  ⟨fun _ => True, fun u => u.isSome = true, _, trivial, rfl, string_healthy o.writeIndex vs,
    string_trip hc ho _ (newStreamWriter_clean c o.toWOpts ho _ _ trivial) (newStreamWriter_clean c o.toWOpts ho _ _ ⟨rfl, rfl⟩) vs hfit hb⟩

theorem binary_leaf (vs : List Bytes) : LeafTrip binaryKind binaryRead c o (Ends (binaryRead.next c)) (vs.map .bytes) [] :=
  ⟨fun _ => True, fun u => u.isSome = true, _, trivial, rfl, binary_healthy o.writeIndex vs,
    binary_trip hc ho _ (newStreamWriter_clean c o.toWOpts ho _ _ trivial) (newStreamWriter_clean c o.toWOpts ho _ _ ⟨rfl, rfl⟩) vs⟩

theorem date_leaf (ts : List Int) (hb : ReadsBackI (ts.map fun t => (toDays t).signExtend 64)) :
    LeafTrip dateKind dateRead c o (Ends (dateRead.next c)) (ts.map .date) (ts.map fun t => .date (fromDays (toDays t))) :=
  ⟨fun _ => True, fun _ => True, _, trivial, trivial, date_healthy o.writeIndex ts,
    date_trip hc ho _ (newStreamWriter_clean c o.toWOpts ho _ _ ⟨rfl, rfl⟩) ts hb⟩

theorem ts_leaf (vs : List (Option Int × U64 × U64)) (hb1 : ReadsBackI (vs.map (·.2.1))) (hb2 : ReadsBackU (vs.map fun v => encodingNano v.2.2)) :
    LeafTrip timestampKind timestampRead c o (Ends (timestampRead.next c)) (vs.map tsVal)
      (vs.map fun v => .ts none v.2.1 (decodingNano (encodingNano v.2.2))) :=
  ⟨fun _ => True, fun _ => True, _, trivial, trivial, ts_healthy o.writeIndex vs,
    ts_trip hc ho _ (newStreamWriter_clean c o.toWOpts ho _ _ ⟨rfl, rfl⟩) (newStreamWriter_clean c o.toWOpts ho _ _ ⟨rfl, rfl⟩) vs hb1 hb2⟩

theorem dec_leaf (A : Arith) (hA : A.Parses) (hwi : o.writeIndex = false) (vs : List (U64 × U64)) (hb : ReadsBackI (vs.map (·.2))) :
    LeafTrip (decimalKind A) decimalRead c o (Ends (decimalRead.next c)) (vs.map decVal) (vs.map decVal) :=
  ⟨fun t => t.sum = [] ∨ (A.parse t.sum).isSome = true, fun _ => True, _, Or.inl rfl, trivial, by rw [hwi]; exact dec_healthy A hA vs,
    dec_trip hc ho A _ (newStreamWriter_clean c o.toWOpts ho _ _ trivial) (newStreamWriter_clean c o.toWOpts ho _ _ ⟨rfl, rfl⟩) vs hb⟩

end

end Goorc
