import Verif.Proofs.ColMore
import Verif.Props.Time
/-
C37, C38, C39, C41, C43, C61, C66: leaf columns written and read back.
-/
namespace Goorc

/-! ### Typed columns -/

section
variable {c : Codec} (hc : c.Lossless) {o : COpts} (ho : o.toWOpts.Sound)
include hc ho

theorem smallint_leaf (vals : List (BitVec 16)) (hb : ReadsBackI (vals.map (·.signExtend 64))) :
    LeafTrip (intKind .small) (intRead .small) c o (Ends ((intRead .small).next c)) (vals.map .i16) (vals.map .i16) := by
  have hw : ∀ v : BitVec 16, (v.signExtend 64).setWidth 16 = v := by
    intro v
    ext i hi
    rw [BitVec.getElem_setWidth, BitVec.getLsbD_signExtend]
    simp [hi, show i < 64 by omega]
  have := int_leaf hc ho .small (vals.map (·.signExtend 64)) (by
    intro x hx
    obtain ⟨v, -, rfl⟩ := List.mem_map.mp hx
    simp only [IntBits.fits, hw]) hb
  simpa only [List.map_map, Function.comp_def, IntBits.read, hw] using this

theorem int32_leaf (vals : List (BitVec 32)) (hb : ReadsBackI (vals.map (·.signExtend 64))) :
    LeafTrip (intKind .int) (intRead .int) c o (Ends ((intRead .int).next c)) (vals.map .i32) (vals.map .i32) := by
  have hw : ∀ v : BitVec 32, (v.signExtend 64).setWidth 32 = v := by
    intro v
    ext i hi
    rw [BitVec.getElem_setWidth, BitVec.getLsbD_signExtend]
    simp [hi, show i < 64 by omega]
  have := int_leaf hc ho .int (vals.map (·.signExtend 64)) (by
    intro x hx
    obtain ⟨v, -, rfl⟩ := List.mem_map.mp hx
    simp only [IntBits.fits, hw]) hb
  simpa only [List.map_map, Function.comp_def, IntBits.read, hw] using this

theorem bigint_leaf (vals : List U64) (hb : ReadsBackI vals) :
    LeafTrip (intKind .big) (intRead .big) c o (Ends ((intRead .big).next c)) (vals.map .i64) (vals.map .i64) :=
  int_leaf hc ho .big vals (fun _ _ => trivial) hb

omit hc ho in
theorem midnight_days (d : Int) (h : -106751 ≤ d ∧ d ≤ 106751) :
    toDays (d * (86400 * 1000000000)) = BitVec.ofInt 32 d ∧ fromDays (BitVec.ofInt 32 d) = d * (86400 * 1000000000) := by
  have h1 : (BitVec.ofInt 32 d).toInt = d := by
    rw [BitVec.toInt_ofInt, Int.bmod_eq_of_le] <;> omega
  have h2 : fromDays (BitVec.ofInt 32 d) = d * (86400 * 1000000000) := by
    simp only [fromDays]
    rw [BitVec.toInt_mul, BitVec.toInt_mul, BitVec.toInt_signExtend_of_le (by omega), h1]
    have e1 : (24#64).toInt = 24 := by decide
    have e2 : (3600000000000#64).toInt = 3600000000000 := by decide
    rw [e1, e2, Int.bmod_eq_of_le (n := d * 24) (by omega) (by omega), Int.bmod_eq_of_le (by omega) (by omega)]
    omega
  exact ⟨by rw [← h2]; exact date_roundtrip_partial _ (by rw [h1]; exact h), h2⟩

theorem midnight_leaf (days : List Int) (hfit : ∀ d ∈ days, -106751 ≤ d ∧ d ≤ 106751) (hb : ReadsBackI (days.map (BitVec.ofInt 64))) :
    LeafTrip dateKind dateRead c o (Ends (dateRead.next c)) (days.map midnight) (days.map midnight) := by
  have hs : ∀ d : Int, -106751 ≤ d ∧ d ≤ 106751 → (BitVec.ofInt 32 d).signExtend 64 = BitVec.ofInt 64 d := by
    intro d h
    apply BitVec.eq_of_toInt_eq
    rw [BitVec.toInt_signExtend_of_le (by omega), BitVec.toInt_ofInt, BitVec.toInt_ofInt, Int.bmod_eq_of_le, Int.bmod_eq_of_le] <;> omega
  have := date_leaf hc ho (days.map fun d => d * (86400 * 1000000000)) (by
    rw [List.map_map]
    have : days.map ((fun t => (toDays t).signExtend 64) ∘ fun d => d * (86400 * 1000000000)) = days.map (BitVec.ofInt 64) := by
      apply List.map_congr_left
      intro d hd
      simp only [Function.comp_def, (midnight_days d (hfit d hd)).1, hs d (hfit d hd)]
    rw [this]; exact hb)
  rw [List.map_map, List.map_map] at this
  have e : days.map ((fun t => GoVal.date (fromDays (toDays t))) ∘ fun d => d * (86400 * 1000000000)) = days.map midnight := by
    apply List.map_congr_left
    intro d hd
    simp only [Function.comp_def, (midnight_days d (hfit d hd)).1, (midnight_days d (hfit d hd)).2, midnight]
  rw [e] at this
  exact this

/-! ### C37: what was written is read back -/

/-- **C37** tinyint columns. -/
theorem byte_column_roundtrip (hasNulls : Bool) (written : List Value) (hn : hasNulls = true ∨ ∀ v ∈ written, v.null = false)
    (vals : List Byte) (hv : written.filterMap Value.row = vals.map .u8) :
    ColumnReadsBack byteKind byteRead c o hasNulls written (written.map Value.row) :=
  LeafTrip.readsBack hc ho hasNulls written hn (hv ▸ byte_leaf hc ho vals) (fun _ => rfl) rfl

/-- **C37** boolean columns. -/
theorem bool_column_roundtrip (hasNulls : Bool) (written : List Value) (hn : hasNulls = true ∨ ∀ v ∈ written, v.null = false)
    (vals : List Bool) (hv : written.filterMap Value.row = vals.map .bool) :
    ColumnReadsBack boolKind boolRead c o hasNulls written (written.map Value.row) :=
  LeafTrip.readsBack hc ho hasNulls written hn (hv ▸ bool_leaf hc ho vals) (fun _ => rfl) rfl

/-- **C37** smallint columns. Integers must survive the integer encoding itself (C21, C22). -/
theorem smallint_column_roundtrip_partial (hasNulls : Bool) (written : List Value) (hn : hasNulls = true ∨ ∀ v ∈ written, v.null = false)
    (vals : List (BitVec 16)) (hv : written.filterMap Value.row = vals.map .i16) (hb : ReadsBackI (vals.map (·.signExtend 64))) :
    ColumnReadsBack (intKind .small) (intRead .small) c o hasNulls written (written.map Value.row) :=
  LeafTrip.readsBack hc ho hasNulls written hn (hv ▸ smallint_leaf hc ho vals hb) (fun _ => rfl) rfl

/-- **C37** int columns. -/
theorem int_column_roundtrip_partial (hasNulls : Bool) (written : List Value) (hn : hasNulls = true ∨ ∀ v ∈ written, v.null = false)
    (vals : List (BitVec 32)) (hv : written.filterMap Value.row = vals.map .i32) (hb : ReadsBackI (vals.map (·.signExtend 64))) :
    ColumnReadsBack (intKind .int) (intRead .int) c o hasNulls written (written.map Value.row) :=
  LeafTrip.readsBack hc ho hasNulls written hn (hv ▸ int32_leaf hc ho vals hb) (fun _ => rfl) rfl

/-- **C37** bigint columns. -/
theorem bigint_column_roundtrip_partial (hasNulls : Bool) (written : List Value) (hn : hasNulls = true ∨ ∀ v ∈ written, v.null = false)
    (vals : List U64) (hv : written.filterMap Value.row = vals.map .i64) (hb : ReadsBackI vals) :
    ColumnReadsBack (intKind .big) (intRead .big) c o hasNulls written (written.map Value.row) :=
  LeafTrip.readsBack hc ho hasNulls written hn (hv ▸ bigint_leaf hc ho vals hb) (fun _ => rfl) rfl

/-- **C37** float columns. With the row index enabled writing a float panics (`float_index_fails`). -/
theorem float_column_roundtrip_partial (A : Arith) (hasNulls : Bool) (written : List Value) (hn : hasNulls = true ∨ ∀ v ∈ written, v.null = false)
    (vals : List (BitVec 32)) (hv : written.filterMap Value.row = vals.map .f32) (hwi : o.writeIndex = false) :
    ColumnReadsBack (floatKind A false) (floatRead false) c o hasNulls written (written.map Value.row) :=
  LeafTrip.readsBack hc ho hasNulls written hn (hv ▸ float_leaf hc ho A hwi vals) (fun _ => rfl) rfl

/-- **C37** double columns. -/
theorem double_column_roundtrip (A : Arith) (hasNulls : Bool) (written : List Value) (hn : hasNulls = true ∨ ∀ v ∈ written, v.null = false)
    (vals : List (BitVec 64)) (hv : written.filterMap Value.row = vals.map .f64) :
    ColumnReadsBack (floatKind A true) (floatRead true) c o hasNulls written (written.map Value.row) :=
  LeafTrip.readsBack hc ho hasNulls written hn (hv ▸ double_leaf hc ho A vals) (fun _ => rfl) rfl

/-- **C37** string columns. The lengths must survive the integer encoding. -/
theorem string_column_roundtrip_partial (hasNulls : Bool) (written : List Value) (hn : hasNulls = true ∨ ∀ v ∈ written, v.null = false)
    (vals : List Bytes) (hv : written.filterMap Value.row = vals.map .str) (hfit : ∀ v ∈ vals, v.length < 2 ^ 63)
    (hb : ReadsBackU (vals.map fun v => BitVec.ofNat 64 v.length)) :
    ColumnReadsBack stringKind stringRead c o hasNulls written (written.map Value.row) :=
  LeafTrip.readsBack hc ho hasNulls written hn (hv ▸ string_leaf hc ho vals hfit hb) (fun _ => rfl) rfl

/-- **C37** date columns. Whole days within the range of C14, whose numbers survive the integer encoding. -/
theorem date_column_roundtrip_partial (hasNulls : Bool) (written : List Value) (hn : hasNulls = true ∨ ∀ v ∈ written, v.null = false)
    (vals : List Int) (hv : written.filterMap Value.row = vals.map midnight) (hfit : ∀ d ∈ vals, -106751 ≤ d ∧ d ≤ 106751)
    (hb : ReadsBackI (vals.map (BitVec.ofInt 64))) :
    ColumnReadsBack dateKind dateRead c o hasNulls written (written.map Value.row) :=
  LeafTrip.readsBack hc ho hasNulls written hn (hv ▸ midnight_leaf hc ho vals hfit hb) (fun _ => rfl) rfl

/-! ### C41: skipping -/

omit hc ho

theorem byte_skips : byteRead.SkipsLikeNext c := by
  intro d x d' h
  refine ⟨?_, rfl⟩
  simp only [byteRead] at h ⊢
  obtain ⟨y, h1, h2⟩ := Res.bind_ok_inv h
  cases h2; rw [h1]; rfl

theorem bool_skips : boolRead.SkipsLikeNext c := by
  intro d x d' h
  refine ⟨?_, rfl⟩
  simp only [boolRead] at h ⊢
  obtain ⟨y, h1, h2⟩ := Res.bind_ok_inv h
  cases h2; rw [h1]; rfl

theorem ints_skips (bits : IntBits) : (intRead bits).SkipsLikeNext c := by
  intro d x d' h
  refine ⟨?_, rfl⟩
  simp only [intRead] at h ⊢
  obtain ⟨y, h1, h2⟩ := Res.bind_ok_inv h
  cases h2; rw [h1]; rfl

theorem smallint_skips : (intRead .small).SkipsLikeNext c := ints_skips _
theorem int_skips : (intRead .int).SkipsLikeNext c := ints_skips _
theorem bigint_skips : (intRead .big).SkipsLikeNext c := ints_skips _

theorem float_skips : (floatRead false).SkipsLikeNext c := by
  intro d x d' h
  refine ⟨?_, rfl⟩
  simp only [floatRead, Bool.false_eq_true, if_false] at h ⊢
  obtain ⟨y, h1, h2⟩ := Res.bind_ok_inv h
  cases h2; rw [h1]; rfl

theorem double_skips : (floatRead true).SkipsLikeNext c := by
  intro d x d' h
  refine ⟨?_, rfl⟩
  simp only [floatRead, if_true] at h ⊢
  obtain ⟨y, h1, h2⟩ := Res.bind_ok_inv h
  cases h2; rw [h1]; rfl

theorem string_skips : stringRead.SkipsLikeNext c := by
  intro d x d' h
  refine ⟨?_, rfl⟩
  simp only [stringRead] at h ⊢
  obtain ⟨y, h1, h2⟩ := Res.bind_ok_inv h
  cases h2; rw [h1]; rfl

theorem date_skips : dateRead.SkipsLikeNext c := by
  intro d x d' h
  refine ⟨?_, rfl⟩
  simp only [dateRead] at h ⊢
  obtain ⟨y, h1, h2⟩ := Res.bind_ok_inv h
  cases h2; rw [h1]; rfl

include hc ho

/-- **C41** tinyint columns. -/
theorem byte_column_skip (hasNulls : Bool) (written : List Value) (hn : hasNulls = true ∨ ∀ v ∈ written, v.null = false)
    (vals : List Byte) (hv : written.filterMap Value.row = vals.map .u8) :
    ColumnServes byteKind byteRead c o hasNulls written (written.map Value.row) :=
  LeafTrip.serves hc ho hasNulls written hn (hv ▸ byte_leaf hc ho vals) (fun _ => rfl) rfl byte_skips

/-- **C41** boolean columns. -/
theorem bool_column_skip (hasNulls : Bool) (written : List Value) (hn : hasNulls = true ∨ ∀ v ∈ written, v.null = false)
    (vals : List Bool) (hv : written.filterMap Value.row = vals.map .bool) :
    ColumnServes boolKind boolRead c o hasNulls written (written.map Value.row) :=
  LeafTrip.serves hc ho hasNulls written hn (hv ▸ bool_leaf hc ho vals) (fun _ => rfl) rfl bool_skips

/-- **C41** smallint columns. -/
theorem smallint_column_skip_partial (hasNulls : Bool) (written : List Value) (hn : hasNulls = true ∨ ∀ v ∈ written, v.null = false)
    (vals : List (BitVec 16)) (hv : written.filterMap Value.row = vals.map .i16) (hb : ReadsBackI (vals.map (·.signExtend 64))) :
    ColumnServes (intKind .small) (intRead .small) c o hasNulls written (written.map Value.row) :=
  LeafTrip.serves hc ho hasNulls written hn (hv ▸ smallint_leaf hc ho vals hb) (fun _ => rfl) rfl smallint_skips

/-- **C41** int columns. -/
theorem int_column_skip_partial (hasNulls : Bool) (written : List Value) (hn : hasNulls = true ∨ ∀ v ∈ written, v.null = false)
    (vals : List (BitVec 32)) (hv : written.filterMap Value.row = vals.map .i32) (hb : ReadsBackI (vals.map (·.signExtend 64))) :
    ColumnServes (intKind .int) (intRead .int) c o hasNulls written (written.map Value.row) :=
  LeafTrip.serves hc ho hasNulls written hn (hv ▸ int32_leaf hc ho vals hb) (fun _ => rfl) rfl int_skips

/-- **C41** bigint columns. -/
theorem bigint_column_skip_partial (hasNulls : Bool) (written : List Value) (hn : hasNulls = true ∨ ∀ v ∈ written, v.null = false)
    (vals : List U64) (hv : written.filterMap Value.row = vals.map .i64) (hb : ReadsBackI vals) :
    ColumnServes (intKind .big) (intRead .big) c o hasNulls written (written.map Value.row) :=
  LeafTrip.serves hc ho hasNulls written hn (hv ▸ bigint_leaf hc ho vals hb) (fun _ => rfl) rfl bigint_skips

/-- **C41** float columns. -/
theorem float_column_skip_partial (A : Arith) (hasNulls : Bool) (written : List Value) (hn : hasNulls = true ∨ ∀ v ∈ written, v.null = false)
    (vals : List (BitVec 32)) (hv : written.filterMap Value.row = vals.map .f32) (hwi : o.writeIndex = false) :
    ColumnServes (floatKind A false) (floatRead false) c o hasNulls written (written.map Value.row) :=
  LeafTrip.serves hc ho hasNulls written hn (hv ▸ float_leaf hc ho A hwi vals) (fun _ => rfl) rfl float_skips

/-- **C41** double columns. -/
theorem double_column_skip (A : Arith) (hasNulls : Bool) (written : List Value) (hn : hasNulls = true ∨ ∀ v ∈ written, v.null = false)
    (vals : List (BitVec 64)) (hv : written.filterMap Value.row = vals.map .f64) :
    ColumnServes (floatKind A true) (floatRead true) c o hasNulls written (written.map Value.row) :=
  LeafTrip.serves hc ho hasNulls written hn (hv ▸ double_leaf hc ho A vals) (fun _ => rfl) rfl double_skips

/-- **C41** string columns. -/
theorem string_column_skip_partial (hasNulls : Bool) (written : List Value) (hn : hasNulls = true ∨ ∀ v ∈ written, v.null = false)
    (vals : List Bytes) (hv : written.filterMap Value.row = vals.map .str) (hfit : ∀ v ∈ vals, v.length < 2 ^ 63)
    (hb : ReadsBackU (vals.map fun v => BitVec.ofNat 64 v.length)) :
    ColumnServes stringKind stringRead c o hasNulls written (written.map Value.row) :=
  LeafTrip.serves hc ho hasNulls written hn (hv ▸ string_leaf hc ho vals hfit hb) (fun _ => rfl) rfl string_skips

/-- **C41** date columns. -/
theorem date_column_skip_partial (hasNulls : Bool) (written : List Value) (hn : hasNulls = true ∨ ∀ v ∈ written, v.null = false)
    (vals : List Int) (hv : written.filterMap Value.row = vals.map midnight) (hfit : ∀ d ∈ vals, -106751 ≤ d ∧ d ≤ 106751)
    (hb : ReadsBackI (vals.map (BitVec.ofInt 64))) :
    ColumnServes dateKind dateRead c o hasNulls written (written.map Value.row) :=
  LeafTrip.serves hc ho hasNulls written hn (hv ▸ midnight_leaf hc ho vals hfit hb) (fun _ => rfl) rfl date_skips

/-! ### C43: nulls in columns without a present stream -/

/-- **C43** tinyint columns. -/
theorem byte_column_drops_nulls (written : List Value) (vals : List Byte) (hv : written.filterMap Value.row = vals.map .u8) :
    ColumnReadsBack byteKind byteRead c o false written (vals.map fun v => some (GoVal.u8 v)) := by
  have := LeafTrip.dropsNulls hc ho written (hv ▸ byte_leaf hc ho vals) (fun _ => rfl) rfl
  rw [hv, List.map_map] at this
  exact this

/-- **C43** boolean columns. -/
theorem bool_column_drops_nulls (written : List Value) (vals : List Bool) (hv : written.filterMap Value.row = vals.map .bool) :
    ColumnReadsBack boolKind boolRead c o false written (vals.map fun v => some (GoVal.bool v)) := by
  have := LeafTrip.dropsNulls hc ho written (hv ▸ bool_leaf hc ho vals) (fun _ => rfl) rfl
  rw [hv, List.map_map] at this
  exact this

/-- **C43** smallint columns. -/
theorem smallint_column_drops_nulls (written : List Value) (vals : List (BitVec 16)) (hv : written.filterMap Value.row = vals.map .i16) (hb : ReadsBackI (vals.map (·.signExtend 64))) :
    ColumnReadsBack (intKind .small) (intRead .small) c o false written (vals.map fun v => some (GoVal.i16 v)) := by
  have := LeafTrip.dropsNulls hc ho written (hv ▸ smallint_leaf hc ho vals hb) (fun _ => rfl) rfl
  rw [hv, List.map_map] at this
  exact this

/-- **C43** int columns. -/
theorem int_column_drops_nulls (written : List Value) (vals : List (BitVec 32)) (hv : written.filterMap Value.row = vals.map .i32) (hb : ReadsBackI (vals.map (·.signExtend 64))) :
    ColumnReadsBack (intKind .int) (intRead .int) c o false written (vals.map fun v => some (GoVal.i32 v)) := by
  have := LeafTrip.dropsNulls hc ho written (hv ▸ int32_leaf hc ho vals hb) (fun _ => rfl) rfl
  rw [hv, List.map_map] at this
  exact this

/-- **C43** bigint columns. -/
theorem bigint_column_drops_nulls (written : List Value) (vals : List U64) (hv : written.filterMap Value.row = vals.map .i64) (hb : ReadsBackI vals) :
    ColumnReadsBack (intKind .big) (intRead .big) c o false written (vals.map fun v => some (GoVal.i64 v)) := by
  have := LeafTrip.dropsNulls hc ho written (hv ▸ bigint_leaf hc ho vals hb) (fun _ => rfl) rfl
  rw [hv, List.map_map] at this
  exact this

/-- **C43** float columns. -/
theorem float_column_drops_nulls (A : Arith) (written : List Value) (vals : List (BitVec 32)) (hv : written.filterMap Value.row = vals.map .f32) (hwi : o.writeIndex = false) :
    ColumnReadsBack (floatKind A false) (floatRead false) c o false written (vals.map fun v => some (GoVal.f32 v)) := by
  have := LeafTrip.dropsNulls hc ho written (hv ▸ float_leaf hc ho A hwi vals) (fun _ => rfl) rfl
  rw [hv, List.map_map] at this
  exact this

/-- **C43** double columns. -/
theorem double_column_drops_nulls (A : Arith) (written : List Value) (vals : List (BitVec 64)) (hv : written.filterMap Value.row = vals.map .f64) :
    ColumnReadsBack (floatKind A true) (floatRead true) c o false written (vals.map fun v => some (GoVal.f64 v)) := by
  have := LeafTrip.dropsNulls hc ho written (hv ▸ double_leaf hc ho A vals) (fun _ => rfl) rfl
  rw [hv, List.map_map] at this
  exact this

/-- **C43** string columns. -/
theorem string_column_drops_nulls (written : List Value) (vals : List Bytes) (hv : written.filterMap Value.row = vals.map .str) (hfit : ∀ v ∈ vals, v.length < 2 ^ 63)
    (hb : ReadsBackU (vals.map fun v => BitVec.ofNat 64 v.length)) :
    ColumnReadsBack stringKind stringRead c o false written (vals.map fun v => some (GoVal.str v)) := by
  have := LeafTrip.dropsNulls hc ho written (hv ▸ string_leaf hc ho vals hfit hb) (fun _ => rfl) rfl
  rw [hv, List.map_map] at this
  exact this

/-- **C43** date columns. -/
theorem date_column_drops_nulls (written : List Value) (vals : List Int) (hv : written.filterMap Value.row = vals.map midnight) (hfit : ∀ d ∈ vals, -106751 ≤ d ∧ d ≤ 106751)
    (hb : ReadsBackI (vals.map (BitVec.ofInt 64))) :
    ColumnReadsBack dateKind dateRead c o false written (vals.map fun v => some (midnight v)) := by
  have := LeafTrip.dropsNulls hc ho written (hv ▸ midnight_leaf hc ho vals hfit hb) (fun _ => rfl) rfl
  rw [hv, List.map_map] at this
  exact this

/-! ### C66: the end of a column -/

/-- **C66** tinyint columns without nulls end with their last row. -/
theorem byte_column_end (written : List Value) (hn : ∀ v ∈ written, v.null = false)
    (vals : List Byte) (hv : written.filterMap Value.row = vals.map .u8) :
    ColumnEnds byteKind byteRead c o false written (written.map Value.row) :=
  LeafTrip.ends_full hc ho written hn (hv ▸ byte_leaf hc ho vals) (fun _ h => h) (fun _ => rfl) rfl

/-- **C66** (false) Nullable tinyint columns end with up to seven null rows that were never written. -/
theorem byte_column_end_nullable (written : List Value)
    (vals : List Byte) (hv : written.filterMap Value.row = vals.map .u8) :
    ColumnEnds byteKind byteRead c o true written (written.map Value.row ++ (padding written.length).map fun _ => none) :=
  LeafTrip.ends_nullable hc ho written (hv ▸ byte_leaf hc ho vals) (fun _ => rfl) rfl

/-- **C66** (false) Nullable boolean columns end with up to seven null rows that were never written. -/
theorem bool_column_end_nullable (written : List Value)
    (vals : List Bool) (hv : written.filterMap Value.row = vals.map .bool) :
    ColumnEnds boolKind boolRead c o true written (written.map Value.row ++ (padding written.length).map fun _ => none) :=
  LeafTrip.ends_nullable hc ho written (hv ▸ bool_leaf hc ho vals) (fun _ => rfl) rfl

/-- **C66** smallint columns without nulls end with their last row. -/
theorem smallint_column_end (written : List Value) (hn : ∀ v ∈ written, v.null = false)
    (vals : List (BitVec 16)) (hv : written.filterMap Value.row = vals.map .i16) (hb : ReadsBackI (vals.map (·.signExtend 64))) :
    ColumnEnds (intKind .small) (intRead .small) c o false written (written.map Value.row) :=
  LeafTrip.ends_full hc ho written hn (hv ▸ smallint_leaf hc ho vals hb) (fun _ h => h) (fun _ => rfl) rfl

/-- **C66** (false) Nullable smallint columns end with up to seven null rows that were never written. -/
theorem smallint_column_end_nullable (written : List Value)
    (vals : List (BitVec 16)) (hv : written.filterMap Value.row = vals.map .i16) (hb : ReadsBackI (vals.map (·.signExtend 64))) :
    ColumnEnds (intKind .small) (intRead .small) c o true written (written.map Value.row ++ (padding written.length).map fun _ => none) :=
  LeafTrip.ends_nullable hc ho written (hv ▸ smallint_leaf hc ho vals hb) (fun _ => rfl) rfl

/-- **C66** int columns without nulls end with their last row. -/
theorem int_column_end (written : List Value) (hn : ∀ v ∈ written, v.null = false)
    (vals : List (BitVec 32)) (hv : written.filterMap Value.row = vals.map .i32) (hb : ReadsBackI (vals.map (·.signExtend 64))) :
    ColumnEnds (intKind .int) (intRead .int) c o false written (written.map Value.row) :=
  LeafTrip.ends_full hc ho written hn (hv ▸ int32_leaf hc ho vals hb) (fun _ h => h) (fun _ => rfl) rfl

/-- **C66** (false) Nullable int columns end with up to seven null rows that were never written. -/
theorem int_column_end_nullable (written : List Value)
    (vals : List (BitVec 32)) (hv : written.filterMap Value.row = vals.map .i32) (hb : ReadsBackI (vals.map (·.signExtend 64))) :
    ColumnEnds (intKind .int) (intRead .int) c o true written (written.map Value.row ++ (padding written.length).map fun _ => none) :=
  LeafTrip.ends_nullable hc ho written (hv ▸ int32_leaf hc ho vals hb) (fun _ => rfl) rfl

/-- **C66** bigint columns without nulls end with their last row. -/
theorem bigint_column_end (written : List Value) (hn : ∀ v ∈ written, v.null = false)
    (vals : List U64) (hv : written.filterMap Value.row = vals.map .i64) (hb : ReadsBackI vals) :
    ColumnEnds (intKind .big) (intRead .big) c o false written (written.map Value.row) :=
  LeafTrip.ends_full hc ho written hn (hv ▸ bigint_leaf hc ho vals hb) (fun _ h => h) (fun _ => rfl) rfl

/-- **C66** (false) Nullable bigint columns end with up to seven null rows that were never written. -/
theorem bigint_column_end_nullable (written : List Value)
    (vals : List U64) (hv : written.filterMap Value.row = vals.map .i64) (hb : ReadsBackI vals) :
    ColumnEnds (intKind .big) (intRead .big) c o true written (written.map Value.row ++ (padding written.length).map fun _ => none) :=
  LeafTrip.ends_nullable hc ho written (hv ▸ bigint_leaf hc ho vals hb) (fun _ => rfl) rfl

/-- **C66** float columns without nulls end with their last row. -/
theorem float_column_end (A : Arith) (written : List Value) (hn : ∀ v ∈ written, v.null = false)
    (vals : List (BitVec 32)) (hv : written.filterMap Value.row = vals.map .f32) (hwi : o.writeIndex = false) :
    ColumnEnds (floatKind A false) (floatRead false) c o false written (written.map Value.row) :=
  LeafTrip.ends_full hc ho written hn (hv ▸ float_leaf hc ho A hwi vals) (fun _ h => h) (fun _ => rfl) rfl

/-- **C66** (false) Nullable float columns end with up to seven null rows that were never written. -/
theorem float_column_end_nullable (A : Arith) (written : List Value)
    (vals : List (BitVec 32)) (hv : written.filterMap Value.row = vals.map .f32) (hwi : o.writeIndex = false) :
    ColumnEnds (floatKind A false) (floatRead false) c o true written (written.map Value.row ++ (padding written.length).map fun _ => none) :=
  LeafTrip.ends_nullable hc ho written (hv ▸ float_leaf hc ho A hwi vals) (fun _ => rfl) rfl

/-- **C66** double columns without nulls end with their last row. -/
theorem double_column_end (A : Arith) (written : List Value) (hn : ∀ v ∈ written, v.null = false)
    (vals : List (BitVec 64)) (hv : written.filterMap Value.row = vals.map .f64) :
    ColumnEnds (floatKind A true) (floatRead true) c o false written (written.map Value.row) :=
  LeafTrip.ends_full hc ho written hn (hv ▸ double_leaf hc ho A vals) (fun _ h => h) (fun _ => rfl) rfl

/-- **C66** (false) Nullable double columns end with up to seven null rows that were never written. -/
theorem double_column_end_nullable (A : Arith) (written : List Value)
    (vals : List (BitVec 64)) (hv : written.filterMap Value.row = vals.map .f64) :
    ColumnEnds (floatKind A true) (floatRead true) c o true written (written.map Value.row ++ (padding written.length).map fun _ => none) :=
  LeafTrip.ends_nullable hc ho written (hv ▸ double_leaf hc ho A vals) (fun _ => rfl) rfl

/-- **C66** string columns without nulls end with their last row. -/
theorem string_column_end (written : List Value) (hn : ∀ v ∈ written, v.null = false)
    (vals : List Bytes) (hv : written.filterMap Value.row = vals.map .str) (hfit : ∀ v ∈ vals, v.length < 2 ^ 63)
    (hb : ReadsBackU (vals.map fun v => BitVec.ofNat 64 v.length)) :
    ColumnEnds stringKind stringRead c o false written (written.map Value.row) :=
  LeafTrip.ends_full hc ho written hn (hv ▸ string_leaf hc ho vals hfit hb) (fun _ h => h) (fun _ => rfl) rfl

/-- **C66** (false) Nullable string columns end with up to seven null rows that were never written. -/
theorem string_column_end_nullable (written : List Value)
    (vals : List Bytes) (hv : written.filterMap Value.row = vals.map .str) (hfit : ∀ v ∈ vals, v.length < 2 ^ 63)
    (hb : ReadsBackU (vals.map fun v => BitVec.ofNat 64 v.length)) :
    ColumnEnds stringKind stringRead c o true written (written.map Value.row ++ (padding written.length).map fun _ => none) :=
  LeafTrip.ends_nullable hc ho written (hv ▸ string_leaf hc ho vals hfit hb) (fun _ => rfl) rfl

/-- **C66** date columns without nulls end with their last row. -/
theorem date_column_end (written : List Value) (hn : ∀ v ∈ written, v.null = false)
    (vals : List Int) (hv : written.filterMap Value.row = vals.map midnight) (hfit : ∀ d ∈ vals, -106751 ≤ d ∧ d ≤ 106751)
    (hb : ReadsBackI (vals.map (BitVec.ofInt 64))) :
    ColumnEnds dateKind dateRead c o false written (written.map Value.row) :=
  LeafTrip.ends_full hc ho written hn (hv ▸ midnight_leaf hc ho vals hfit hb) (fun _ h => h) (fun _ => rfl) rfl

/-- **C66** (false) Nullable date columns end with up to seven null rows that were never written. -/
theorem date_column_end_nullable (written : List Value)
    (vals : List Int) (hv : written.filterMap Value.row = vals.map midnight) (hfit : ∀ d ∈ vals, -106751 ≤ d ∧ d ≤ 106751)
    (hb : ReadsBackI (vals.map (BitVec.ofInt 64))) :
    ColumnEnds dateKind dateRead c o true written (written.map Value.row ++ (padding written.length).map fun _ => none) :=
  LeafTrip.ends_nullable hc ho written (hv ▸ midnight_leaf hc ho vals hfit hb) (fun _ => rfl) rfl

end

/-! ### Instances -/

/-- Options of the examples: zlib, chunks of three bytes, an index entry every two rows. -/
def exOpts : COpts := ⟨⟨.zlib, 3, true⟩, 2⟩
theorem exOpts_sound : exOpts.toWOpts.Sound := by simp [exOpts, WOpts.Sound]

example : ColumnReadsBack byteKind byteRead runCodec exOpts true [⟨false, .u8 5⟩, ⟨true, .nil⟩, ⟨false, .u8 9⟩] [some (.u8 5), none, some (.u8 9)] :=
  byte_column_roundtrip runCodec_lossless exOpts_sound true _ (Or.inl rfl) [5, 9] rfl

example : ColumnReadsBack boolKind boolRead runCodec exOpts false [⟨false, .bool true⟩, ⟨false, .bool false⟩] [some (.bool true), some (.bool false)] :=
  bool_column_roundtrip runCodec_lossless exOpts_sound false _ (Or.inr (by decide)) [true, false] rfl

example : ColumnReadsBack (intKind .small) (intRead .small) runCodec exOpts true
    [⟨false, .i16 (-3)⟩, ⟨true, .nil⟩, ⟨false, .i16 (-3)⟩, ⟨false, .i16 (-3)⟩] [some (.i16 (-3)), none, some (.i16 (-3)), some (.i16 (-3))] :=
  smallint_column_roundtrip_partial runCodec_lossless exOpts_sound true _ (Or.inl rfl) [-3, -3, -3] rfl
    (int_const_roundtrip_partial 3 (-3) (by decide) ⟨1, by decide, by decide, by decide, by decide⟩)

example : ColumnServes (intKind .int) (intRead .int) runCodec exOpts true
    [⟨false, .i32 70000⟩, ⟨true, .nil⟩, ⟨false, .i32 70000⟩] [some (.i32 70000), none, some (.i32 70000)] :=
  int_column_skip_partial runCodec_lossless exOpts_sound true _ (Or.inl rfl) [70000, 70000] rfl
    (int_const_roundtrip_partial 2 70000 (by decide) ⟨3, by decide, by decide, by decide, by decide⟩)

example : ColumnEnds (intKind .big) (intRead .big) runCodec exOpts false
    [⟨false, .i64 12⟩, ⟨false, .i64 12⟩] [some (.i64 12), some (.i64 12)] :=
  bigint_column_end runCodec_lossless exOpts_sound _ (by decide) [12, 12] rfl (int_const_roundtrip_partial 2 12 (by decide) ⟨1, by decide, by decide, by decide, by decide⟩)

example (A : Arith) : ColumnReadsBack (floatKind A false) (floatRead false) runCodec ⟨⟨.none, 7, false⟩, 1⟩ true [⟨true, .nil⟩, ⟨false, .f32 0x40490fdb⟩]
    [none, some (.f32 0x40490fdb)] :=
  float_column_roundtrip_partial runCodec_lossless (by simp [WOpts.Sound]) A true _ (Or.inl rfl) [0x40490fdb] rfl rfl

example (A : Arith) : ColumnServes (floatKind A true) (floatRead true) runCodec exOpts false [⟨false, .f64 1⟩, ⟨false, .f64 2⟩] [some (.f64 1), some (.f64 2)] :=
  double_column_skip runCodec_lossless exOpts_sound A false _ (Or.inr (by decide)) [1, 2] rfl

example : ColumnReadsBack stringKind stringRead runCodec exOpts true [⟨false, .str [104, 105]⟩, ⟨true, .nil⟩, ⟨false, .str [106, 111]⟩]
    [some (.str [104, 105]), none, some (.str [106, 111])] :=
  string_column_roundtrip_partial runCodec_lossless exOpts_sound true _ (Or.inl rfl) [[104, 105], [106, 111]] rfl (by simp)
    (uint_const_roundtrip_partial 2 2 (by decide) ⟨1, by decide, by decide, by decide, by decide⟩)

example : ColumnReadsBack dateKind dateRead runCodec exOpts true [⟨false, midnight 20000⟩, ⟨true, .nil⟩] [some (midnight 20000), none] :=
  date_column_roundtrip_partial runCodec_lossless exOpts_sound true _ (Or.inl rfl) [20000] rfl (by decide)
    (int_const_roundtrip_partial 1 20000 (by decide) ⟨2, by decide, by decide, by decide, by decide⟩)

/-! Three rows, the second of them null, through the theorems above that share their hypotheses. -/

/-- Facts about the values of the instances below: two equal integers, the lengths of two strings and one day read back. -/
theorem exBig : ReadsBackI [12, 12] := int_const_roundtrip_partial 2 12 (by decide) ⟨1, by decide, by decide, by decide, by decide⟩
theorem exInts : ReadsBackI ([70000, 70000].map fun v : BitVec 32 => v.signExtend 64) :=
  int_const_roundtrip_partial 2 70000 (by decide) ⟨3, by decide, by decide, by decide, by decide⟩
theorem exSmall : ReadsBackI ([-3, -3].map fun v : BitVec 16 => v.signExtend 64) :=
  int_const_roundtrip_partial 2 (-3) (by decide) ⟨1, by decide, by decide, by decide, by decide⟩
theorem exLens : ReadsBackU ([[104, 105], [106, 111]].map fun v : Bytes => BitVec.ofNat 64 v.length) :=
  uint_const_roundtrip_partial 2 2 (by decide) ⟨1, by decide, by decide, by decide, by decide⟩
theorem exDates : ReadsBackI ([20000, 20000].map (BitVec.ofInt 64)) :=
  int_const_roundtrip_partial 2 20000 (by decide) ⟨2, by decide, by decide, by decide, by decide⟩

/-- Two values with a null between them. -/
def exGap (a b : GoVal) : List Value := [⟨false, a⟩, ⟨true, .nil⟩, ⟨false, b⟩]
/-- The same without the null. -/
def exDense (a b : GoVal) : List Value := [⟨false, a⟩, ⟨false, b⟩]

example : ColumnReadsBack (intKind .big) (intRead .big) runCodec exOpts false (exGap (.i64 12) (.i64 12)) [some (.i64 12), some (.i64 12)] :=
  bigint_column_drops_nulls runCodec_lossless exOpts_sound _ [12, 12] rfl exBig
example : ColumnEnds (intKind .big) (intRead .big) runCodec exOpts true (exGap (.i64 12) (.i64 12))
    [some (.i64 12), none, some (.i64 12), none, none, none, none, none] :=
  bigint_column_end_nullable runCodec_lossless exOpts_sound _ [12, 12] rfl exBig
example : ColumnReadsBack (intKind .big) (intRead .big) runCodec exOpts true (exGap (.i64 12) (.i64 12)) [some (.i64 12), none, some (.i64 12)] :=
  bigint_column_roundtrip_partial runCodec_lossless exOpts_sound true _ (Or.inl rfl) [12, 12] rfl exBig
example : ColumnServes (intKind .big) (intRead .big) runCodec exOpts true (exGap (.i64 12) (.i64 12)) [some (.i64 12), none, some (.i64 12)] :=
  bigint_column_skip_partial runCodec_lossless exOpts_sound true _ (Or.inl rfl) [12, 12] rfl exBig

example : ColumnReadsBack boolKind boolRead runCodec exOpts false (exGap (.bool true) (.bool false)) [some (.bool true), some (.bool false)] :=
  bool_column_drops_nulls runCodec_lossless exOpts_sound _ [true, false] rfl
example : ColumnEnds boolKind boolRead runCodec exOpts true (exGap (.bool true) (.bool false))
    [some (.bool true), none, some (.bool false), none, none, none, none, none] :=
  bool_column_end_nullable runCodec_lossless exOpts_sound _ [true, false] rfl
example : ColumnServes boolKind boolRead runCodec exOpts true (exGap (.bool true) (.bool false)) [some (.bool true), none, some (.bool false)] :=
  bool_column_skip runCodec_lossless exOpts_sound true _ (Or.inl rfl) [true, false] rfl

example : ColumnReadsBack byteKind byteRead runCodec exOpts false (exGap (.u8 5) (.u8 9)) [some (.u8 5), some (.u8 9)] :=
  byte_column_drops_nulls runCodec_lossless exOpts_sound _ [5, 9] rfl
example : ColumnEnds byteKind byteRead runCodec exOpts false (exDense (.u8 5) (.u8 9)) [some (.u8 5), some (.u8 9)] :=
  byte_column_end runCodec_lossless exOpts_sound _ (by decide) [5, 9] rfl
example : ColumnEnds byteKind byteRead runCodec exOpts true (exGap (.u8 5) (.u8 9))
    [some (.u8 5), none, some (.u8 9), none, none, none, none, none] :=
  byte_column_end_nullable runCodec_lossless exOpts_sound _ [5, 9] rfl
example : ColumnServes byteKind byteRead runCodec exOpts true (exGap (.u8 5) (.u8 9)) [some (.u8 5), none, some (.u8 9)] :=
  byte_column_skip runCodec_lossless exOpts_sound true _ (Or.inl rfl) [5, 9] rfl

example : ColumnReadsBack dateKind dateRead runCodec exOpts false (exGap (midnight 20000) (midnight 20000)) [some (midnight 20000), some (midnight 20000)] :=
  date_column_drops_nulls runCodec_lossless exOpts_sound _ [20000, 20000] rfl (by decide) exDates
example : ColumnEnds dateKind dateRead runCodec exOpts false (exDense (midnight 20000) (midnight 20000)) [some (midnight 20000), some (midnight 20000)] :=
  date_column_end runCodec_lossless exOpts_sound _ (by decide) [20000, 20000] rfl (by decide) exDates
example : ColumnServes dateKind dateRead runCodec exOpts true (exGap (midnight 20000) (midnight 20000)) [some (midnight 20000), none, some (midnight 20000)] :=
  date_column_skip_partial runCodec_lossless exOpts_sound true _ (Or.inl rfl) [20000, 20000] rfl (by decide) exDates

example (A : Arith) : ColumnReadsBack (floatKind A true) (floatRead true) runCodec exOpts false (exGap (.f64 1) (.f64 2)) [some (.f64 1), some (.f64 2)] :=
  double_column_drops_nulls runCodec_lossless exOpts_sound A _ [1, 2] rfl
example (A : Arith) : ColumnEnds (floatKind A true) (floatRead true) runCodec exOpts false (exDense (.f64 1) (.f64 2)) [some (.f64 1), some (.f64 2)] :=
  double_column_end runCodec_lossless exOpts_sound A _ (by decide) [1, 2] rfl
example (A : Arith) : ColumnEnds (floatKind A true) (floatRead true) runCodec exOpts true (exGap (.f64 1) (.f64 2))
    [some (.f64 1), none, some (.f64 2), none, none, none, none, none] :=
  double_column_end_nullable runCodec_lossless exOpts_sound A _ [1, 2] rfl
example (A : Arith) : ColumnReadsBack (floatKind A true) (floatRead true) runCodec exOpts true (exGap (.f64 1) (.f64 2)) [some (.f64 1), none, some (.f64 2)] :=
  double_column_roundtrip runCodec_lossless exOpts_sound A true _ (Or.inl rfl) [1, 2] rfl

/-- Options without an index, for floats. -/
def exBareOpts : COpts := ⟨⟨.zlib, 3, false⟩, 2⟩
theorem exBareOpts_sound : exBareOpts.toWOpts.Sound := by simp [exBareOpts, WOpts.Sound]
example (A : Arith) : ColumnReadsBack (floatKind A false) (floatRead false) runCodec exBareOpts false (exGap (.f32 1) (.f32 2)) [some (.f32 1), some (.f32 2)] :=
  float_column_drops_nulls runCodec_lossless exBareOpts_sound A _ [1, 2] rfl rfl
example (A : Arith) : ColumnEnds (floatKind A false) (floatRead false) runCodec exBareOpts false (exDense (.f32 1) (.f32 2)) [some (.f32 1), some (.f32 2)] :=
  float_column_end runCodec_lossless exBareOpts_sound A _ (by decide) [1, 2] rfl rfl
example (A : Arith) : ColumnEnds (floatKind A false) (floatRead false) runCodec exBareOpts true (exGap (.f32 1) (.f32 2))
    [some (.f32 1), none, some (.f32 2), none, none, none, none, none] :=
  float_column_end_nullable runCodec_lossless exBareOpts_sound A _ [1, 2] rfl rfl
example (A : Arith) : ColumnServes (floatKind A false) (floatRead false) runCodec exBareOpts true (exGap (.f32 1) (.f32 2)) [some (.f32 1), none, some (.f32 2)] :=
  float_column_skip_partial runCodec_lossless exBareOpts_sound A true _ (Or.inl rfl) [1, 2] rfl rfl

example : ColumnReadsBack (intKind .int) (intRead .int) runCodec exOpts false (exGap (.i32 70000) (.i32 70000)) [some (.i32 70000), some (.i32 70000)] :=
  int_column_drops_nulls runCodec_lossless exOpts_sound _ [70000, 70000] rfl exInts
example : ColumnEnds (intKind .int) (intRead .int) runCodec exOpts false (exDense (.i32 70000) (.i32 70000)) [some (.i32 70000), some (.i32 70000)] :=
  int_column_end runCodec_lossless exOpts_sound _ (by decide) [70000, 70000] rfl exInts
example : ColumnEnds (intKind .int) (intRead .int) runCodec exOpts true (exGap (.i32 70000) (.i32 70000))
    [some (.i32 70000), none, some (.i32 70000), none, none, none, none, none] :=
  int_column_end_nullable runCodec_lossless exOpts_sound _ [70000, 70000] rfl exInts
example : ColumnReadsBack (intKind .int) (intRead .int) runCodec exOpts true (exGap (.i32 70000) (.i32 70000)) [some (.i32 70000), none, some (.i32 70000)] :=
  int_column_roundtrip_partial runCodec_lossless exOpts_sound true _ (Or.inl rfl) [70000, 70000] rfl exInts
example : ColumnReadsBack (intKind .small) (intRead .small) runCodec exOpts false (exGap (.i16 (-3)) (.i16 (-3))) [some (.i16 (-3)), some (.i16 (-3))] :=
  smallint_column_drops_nulls runCodec_lossless exOpts_sound _ [-3, -3] rfl exSmall
example : ColumnEnds (intKind .small) (intRead .small) runCodec exOpts false (exDense (.i16 (-3)) (.i16 (-3))) [some (.i16 (-3)), some (.i16 (-3))] :=
  smallint_column_end runCodec_lossless exOpts_sound _ (by decide) [-3, -3] rfl exSmall
example : ColumnEnds (intKind .small) (intRead .small) runCodec exOpts true (exGap (.i16 (-3)) (.i16 (-3)))
    [some (.i16 (-3)), none, some (.i16 (-3)), none, none, none, none, none] :=
  smallint_column_end_nullable runCodec_lossless exOpts_sound _ [-3, -3] rfl exSmall
example : ColumnServes (intKind .small) (intRead .small) runCodec exOpts true (exGap (.i16 (-3)) (.i16 (-3))) [some (.i16 (-3)), none, some (.i16 (-3))] :=
  smallint_column_skip_partial runCodec_lossless exOpts_sound true _ (Or.inl rfl) [-3, -3] rfl exSmall

example : ColumnReadsBack stringKind stringRead runCodec exOpts false (exGap (.str [104, 105]) (.str [106, 111])) [some (.str [104, 105]), some (.str [106, 111])] :=
  string_column_drops_nulls runCodec_lossless exOpts_sound _ [[104, 105], [106, 111]] rfl (by simp) exLens
example : ColumnEnds stringKind stringRead runCodec exOpts false (exDense (.str [104, 105]) (.str [106, 111])) [some (.str [104, 105]), some (.str [106, 111])] :=
  string_column_end runCodec_lossless exOpts_sound _ (by decide) [[104, 105], [106, 111]] rfl (by simp) exLens
example : ColumnEnds stringKind stringRead runCodec exOpts true (exGap (.str [104, 105]) (.str [106, 111]))
    [some (.str [104, 105]), none, some (.str [106, 111]), none, none, none, none, none] :=
  string_column_end_nullable runCodec_lossless exOpts_sound _ [[104, 105], [106, 111]] rfl (by simp) exLens
example : ColumnServes stringKind stringRead runCodec exOpts true (exGap (.str [104, 105]) (.str [106, 111]))
    [some (.str [104, 105]), none, some (.str [106, 111])] :=
  string_column_skip_partial runCodec_lossless exOpts_sound true _ (Or.inl rfl) [[104, 105], [106, 111]] rfl (by simp) exLens

end Goorc
