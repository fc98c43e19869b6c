import Verif.Proofs.ColSeekKinds
import Verif.Props.Column
/-
C46, the reading half: going to a stride of a column with the entries of its row index.
-/
namespace Goorc

section
variable {c : Codec} (hc : c.Lossless) {o : COpts} (ho : o.toWOpts.Sound) (hi : o.writeIndex = true) (hS : 1 ≤ o.stride)
include hc ho hi hS

/-- **C46** (reading) tinyint columns. -/
theorem byte_column_seek (hasNulls : Bool) (written : List Value) (hn : hasNulls = true ∨ ∀ v ∈ written, v.null = false)
    (vals : List Byte) (hv : written.filterMap Value.row = vals.map .u8) :
    ColumnSeeks byteKind byteRead c o hasNulls true written (written.map Value.row) :=
  column_seeks byteKind byteRead c hc o ho hi hS .byte rfl hasNulls written _ (fun _ => True) (fun u => u.isSome = true) trivial rfl
    (by rw [nonNulls_eq, hv]; exact byte_healthy _ vals) _ (by rw [nonNulls_eq, rows_values, hv]; exact byte_data_seeks hc ho hi vals)
    (rows_flags written) (fun h => hn.resolve_left (by simp [h])) (fun _ => rfl) rfl byte_skips

/-- **C46** (reading) boolean columns. -/
theorem bool_column_seek (hasNulls : Bool) (written : List Value) (hn : hasNulls = true ∨ ∀ v ∈ written, v.null = false)
    (vals : List Bool) (hv : written.filterMap Value.row = vals.map .bool) :
    ColumnSeeks boolKind boolRead c o hasNulls true written (written.map Value.row) :=
  column_seeks boolKind boolRead c hc o ho hi hS .bool rfl hasNulls written _ (fun _ => True) (fun u => u.isSome = true) trivial rfl
    (by rw [nonNulls_eq, hv]; exact bool_healthy _ vals) _ (by rw [nonNulls_eq, rows_values, hv]; exact bool_data_seeks hc ho hi vals)
    (rows_flags written) (fun h => hn.resolve_left (by simp [h])) (fun _ => rfl) rfl bool_skips

theorem ints_column_seek (bits : IntBits) (hasNulls : Bool) (written : List Value) (hn : hasNulls = true ∨ ∀ v ∈ written, v.null = false)
    (vals : List U64) (hf : ∀ v ∈ vals, bits.fits v) (hv : written.filterMap Value.row = vals.map bits.read) (hb : EncodesSafely .i64 true vals) :
    ColumnSeeks (intKind bits) (intRead bits) c o hasNulls true written (written.map Value.row) :=
  column_seeks (intKind bits) (intRead bits) c hc o ho hi hS (.int bits) rfl hasNulls written _ (fun _ => True) (fun u => u.isSome = true) trivial rfl
    (by rw [nonNulls_eq, hv]; exact int_healthy _ bits vals hf) _ (by rw [nonNulls_eq, rows_values, hv]; exact int_data_seeks hc ho hi bits vals hf hb)
    (rows_flags written) (fun h => hn.resolve_left (by simp [h])) (fun _ => rfl) rfl (ints_skips bits)

/-- **C46** (reading) smallint columns whose values the integer encoding keeps (C22). -/
theorem smallint_column_seek_partial (hasNulls : Bool) (written : List Value) (hn : hasNulls = true ∨ ∀ v ∈ written, v.null = false)
    (vals : List (BitVec 16)) (hv : written.filterMap Value.row = vals.map .i16) (hb : EncodesSafely .i64 true (vals.map (·.signExtend 64))) :
    ColumnSeeks (intKind .small) (intRead .small) c o hasNulls true written (written.map Value.row) := by
  have hw : ∀ v : BitVec 16, (v.signExtend 64).setWidth 16 = v := by
    intro v
    ext i hi
    rw [BitVec.getElem_setWidth, BitVec.getLsbD_signExtend]
    simp [hi, show i < 64 by omega]
  refine ints_column_seek hc ho hi hS .small hasNulls written hn _ (fun x hx => ?_) ?_ hb
  · obtain ⟨v, -, rfl⟩ := List.mem_map.mp hx
    simp only [IntBits.fits, hw]
  · rw [hv]; simp only [List.map_map, Function.comp_def, IntBits.read, hw]

/-- **C46** (reading) int columns. -/
theorem int_column_seek_partial (hasNulls : Bool) (written : List Value) (hn : hasNulls = true ∨ ∀ v ∈ written, v.null = false)
    (vals : List (BitVec 32)) (hv : written.filterMap Value.row = vals.map .i32) (hb : EncodesSafely .i64 true (vals.map (·.signExtend 64))) :
    ColumnSeeks (intKind .int) (intRead .int) c o hasNulls true written (written.map Value.row) := by
  have hw : ∀ v : BitVec 32, (v.signExtend 64).setWidth 32 = v := by
    intro v
    ext i hi
    rw [BitVec.getElem_setWidth, BitVec.getLsbD_signExtend]
    simp [hi, show i < 64 by omega]
  refine ints_column_seek hc ho hi hS .int hasNulls written hn _ (fun x hx => ?_) ?_ hb
  · obtain ⟨v, -, rfl⟩ := List.mem_map.mp hx
    simp only [IntBits.fits, hw]
  · rw [hv]; simp only [List.map_map, Function.comp_def, IntBits.read, hw]

/-- **C46** (reading) bigint columns. -/
theorem bigint_column_seek_partial (hasNulls : Bool) (written : List Value) (hn : hasNulls = true ∨ ∀ v ∈ written, v.null = false)
    (vals : List U64) (hv : written.filterMap Value.row = vals.map .i64) (hb : EncodesSafely .i64 true vals) :
    ColumnSeeks (intKind .big) (intRead .big) c o hasNulls true written (written.map Value.row) :=
  ints_column_seek hc ho hi hS .big hasNulls written hn vals (fun _ _ => trivial) hv hb

/-- **C46** (reading) double columns. Float columns have no row index: writing one with the index enabled panics
(`float_index_fails`). -/
theorem double_column_seek (A : Arith) (hasNulls : Bool) (written : List Value) (hn : hasNulls = true ∨ ∀ v ∈ written, v.null = false)
    (vals : List (BitVec 64)) (hv : written.filterMap Value.row = vals.map .f64) :
    ColumnSeeks (floatKind A true) (floatRead true) c o hasNulls true written (written.map Value.row) :=
  column_seeks (floatKind A true) (floatRead true) c hc o ho hi hS (.float A true) rfl hasNulls written _ (fun _ => True) (fun u => u.isSome = true) trivial rfl
    (by rw [nonNulls_eq, hv]; exact double_healthy _ A vals) _ (by rw [nonNulls_eq, rows_values, hv]; exact double_data_seeks hc ho hi A vals)
    (rows_flags written) (fun h => hn.resolve_left (by simp [h])) (fun _ => rfl) rfl double_skips

/-- **C46** (reading) string columns whose lengths the integer encoding keeps. -/
theorem string_column_seek_partial (hasNulls : Bool) (written : List Value) (hn : hasNulls = true ∨ ∀ v ∈ written, v.null = false)
    (vals : List Bytes) (hv : written.filterMap Value.row = vals.map .str) (hfit : ∀ v ∈ vals, v.length < 2 ^ 63)
    (hb : EncodesSafely .u64 false (vals.map fun v => BitVec.ofNat 64 v.length)) :
    ColumnSeeks stringKind stringRead c o hasNulls true written (written.map Value.row) :=
  column_seeks stringKind stringRead c hc o ho hi hS .string rfl hasNulls written _ (fun _ => True) (fun u => u.isSome = true) trivial rfl
    (by rw [nonNulls_eq, hv]; exact string_healthy _ vals) _ (by rw [nonNulls_eq, rows_values, hv]; exact string_data_seeks hc ho hi vals hfit hb)
    (rows_flags written) (fun h => hn.resolve_left (by simp [h])) (fun _ => rfl) rfl string_skips

/-- **C46** (reading) date columns: whole days in the range of C14. Stride 0 cannot be sought to (`date_seek_zero_fails`). -/
theorem date_column_seek_partial (hasNulls : Bool) (written : List Value) (hn : hasNulls = true ∨ ∀ v ∈ written, v.null = false)
    (vals : List Int) (hv : written.filterMap Value.row = vals.map midnight) (hfit : ∀ d ∈ vals, -106751 ≤ d ∧ d ≤ 106751)
    (hb : EncodesSafely .i64 true (vals.map (BitVec.ofInt 64))) :
    ColumnSeeks dateKind dateRead c o hasNulls false written (written.map Value.row) := by
  have hs : ∀ d : Int, -106751 ≤ d ∧ d ≤ 106751 → (BitVec.ofInt 32 d).signExtend 64 = BitVec.ofInt 64 d := by
    intro d h
    apply BitVec.eq_of_toInt_eq
    rw [BitVec.toInt_signExtend_of_le (by omega), BitVec.toInt_ofInt, BitVec.toInt_ofInt, Int.bmod_eq_of_le, Int.bmod_eq_of_le] <;> omega
  have e1 : (vals.map fun d => d * (86400 * 1000000000)).map (fun t => (toDays t).signExtend 64) = vals.map (BitVec.ofInt 64) := by
    rw [List.map_map]
    apply List.map_congr_left
    intro d hd
    simp only [Function.comp_def, (midnight_days d (hfit d hd)).1, hs d (hfit d hd)]
  have e2 : (vals.map fun d => d * (86400 * 1000000000)).map (fun t => GoVal.date (fromDays (toDays t))) = vals.map midnight := by
    rw [List.map_map]
    apply List.map_congr_left
    intro d hd
    simp only [Function.comp_def, (midnight_days d (hfit d hd)).1, (midnight_days d (hfit d hd)).2, midnight]
  have e3 : (vals.map fun d => d * (86400 * 1000000000)).map GoVal.date = vals.map midnight := by
    rw [List.map_map]; rfl
  have := date_data_seeks hc ho hi (vals.map fun d => d * (86400 * 1000000000)) (by rw [e1]; exact hb)
  rw [e2, e3] at this
  exact column_seeks dateKind dateRead c hc o ho hi hS .date rfl hasNulls written _ _ _ trivial trivial
    (by rw [nonNulls_eq, hv, ← e3]; exact date_healthy _ _) _ (by rw [nonNulls_eq, rows_values, hv]; exact this)
    (rows_flags written) (fun h => hn.resolve_left (by simp [h])) (fun _ => rfl) rfl date_skips

end

/-! ### Where it goes wrong -/

/-- **C46** Without an index no stride but the first can be sought to: an error. -/
theorem seek_without_index {ρ : Type} (R : ReadKind ρ) (c : Codec) (r : ColReader ρ) (h : r.index = none) (k : Nat) (hk : 1 ≤ k) :
    R.seekStride c r k = .err .other := by
  simp only [ReadKind.seekStride, getStridePositions, h]
  rw [if_neg (by omega)]; rfl

/-- **C46** A stride beyond the last index entry is not refused: the reader panics. -/
theorem seek_beyond_panics {ρ : Type} (R : ReadKind ρ) (c : Codec) (r : ColReader ρ) (es : List (List Nat)) (h : r.index = some es) (k : Nat)
    (hk : es.length < k) : R.seekStride c r k = .panic := by
  simp only [ReadKind.seekStride, getStridePositions, h]
  rw [if_neg (by omega), if_neg (by omega), List.getElem?_eq_none (by omega)]; rfl

/-- **C46** The first stride of a date column cannot be sought to. -/
theorem date_seek_zero_fails (c : Codec) (r : ColReader DateReader) : dateRead.seekStride c r 0 = .err .other := by
  have : getStridePositions r.index 0 = .err .other := by
    cases hr : r.index <;> rfl
  simp only [ReadKind.seekStride, this, show dateRead.seeksZero = false from rfl, Bool.false_eq_true, false_and, if_false]
  rfl

/-- Options of the examples: zlib, chunks of three bytes, an index entry every two rows. -/
def seekEx : COpts := ⟨⟨.zlib, 3, true⟩, 2⟩

/-- **C46** (reading) is false of columns with an empty stream: a column of nulls only has an empty data stream, and although
its index has an entry for every stride, seeking to one fails. -/
theorem null_column_seek_fails :
    (writeIndexed byteKind runCodec seekEx true (List.replicate 3 ⟨true, .nil⟩) >>= fun w =>
      roamColumn byteRead runCodec seekEx true w.2.2 0 w.2.1 w.1 [.seek 1, .batch [⟨false, .nil⟩]]) = .err .eof := by
  decide +kernel

/-- The rows of such a column can be read, only not sought to. -/
example : (writeIndexed byteKind runCodec seekEx true (List.replicate 3 ⟨true, .nil⟩) >>= fun w =>
      roamColumn byteRead runCodec seekEx true w.2.2 0 w.2.1 w.1 [.skip 2, .batch [⟨false, .nil⟩]]) = .ok [[⟨true, .nil⟩]] := by
  decide +kernel

/-! ### Concrete cases -/

/-- Five rows, two of them null: the index has two entries, and the streams can be sought in. -/
example : ∃ index infos body, writeIndexed byteKind runCodec seekEx true
      [⟨false, .u8 5⟩, ⟨true, .nil⟩, ⟨false, .u8 5⟩, ⟨false, .u8 9⟩, ⟨true, .nil⟩] = .ok (index, infos, body) ∧
    index.length = 2 ∧ (∀ i ∈ infos, SeekableLength seekEx.toWOpts i.2) := by
  have h : (match writeIndexed byteKind runCodec seekEx true [⟨false, .u8 5⟩, ⟨true, .nil⟩, ⟨false, .u8 5⟩, ⟨false, .u8 9⟩, ⟨true, .nil⟩] with
    | .ok (index, infos, _) => index.length == 2 && infos.all fun i => i.2 != 0
    | _ => false) = true := by decide +kernel
  revert h
  cases writeIndexed byteKind runCodec seekEx true [⟨false, .u8 5⟩, ⟨true, .nil⟩, ⟨false, .u8 5⟩, ⟨false, .u8 9⟩, ⟨true, .nil⟩] with
  | ok w =>
    obtain ⟨index, infos, body⟩ := w
    intro h
    simp only [Bool.and_eq_true, beq_iff_eq, List.all_eq_true, bne_iff_ne, ne_eq] at h
    exact ⟨index, infos, body, rfl, h.1, fun i hi => .inr ⟨rfl, h.2 i hi⟩⟩
  | err e => intro h; cases h
  | panic => intro h; cases h
  | hang => intro h; cases h

example : ColumnSeeks byteKind byteRead runCodec seekEx true true [⟨false, .u8 5⟩, ⟨true, .nil⟩, ⟨false, .u8 5⟩, ⟨false, .u8 9⟩, ⟨true, .nil⟩]
    [some (.u8 5), none, some (.u8 5), some (.u8 9), none] :=
  byte_column_seek runCodec_lossless (by simp [seekEx, WOpts.Sound]) rfl (by decide) true _ (.inl rfl) [5, 5, 9] rfl

/-- Calls that stay within five rows: to the last stride, back to the first, and on. -/
example : Within true 2 5 0 [.seek 2, .batch [⟨false, .nil⟩], .seek 0, .skip 1, .batch [⟨false, .nil⟩, ⟨false, .nil⟩], .seek 1] := by
  simp [Within]

theorem seekEx_ints : EncodesSafely .i64 true [5, 9] := by
  refine ⟨by decide, ?_, _, _, rfl⟩
  refine ⟨fun _ _ h => absurd h (by decide), ?_⟩
  intro e1 o1 h1
  cases h1
  refine ⟨fun _ _ h => absurd h (by decide), ?_⟩
  intro e2 o2 h2
  cases h2
  refine ⟨fun _ => Or.inr ⟨by decide, 10, by decide, by decide⟩, ?_⟩
  intro e3 o3 _
  trivial

example : ColumnSeeks (intKind .big) (intRead .big) runCodec seekEx true true [⟨false, .i64 5⟩, ⟨true, .nil⟩, ⟨true, .nil⟩, ⟨false, .i64 9⟩]
    [some (.i64 5), none, none, some (.i64 9)] :=
  bigint_column_seek_partial runCodec_lossless (by simp [seekEx, WOpts.Sound]) rfl (by decide) true _ (.inl rfl) [5, 9] rfl seekEx_ints

theorem seekEx_lengths : EncodesSafely .u64 false [2, 1] := by
  refine ⟨by decide, ?_, _, _, rfl⟩
  refine ⟨fun _ _ h => absurd h (by decide), ?_⟩
  intro e1 o1 h1
  cases h1
  refine ⟨fun _ _ h => absurd h (by decide), ?_⟩
  intro e2 o2 h2
  cases h2
  refine ⟨fun _ => Or.inr ⟨by decide, 2, by decide, by decide⟩, ?_⟩
  intro e3 o3 _
  trivial

example : ColumnSeeks stringKind stringRead runCodec seekEx true true [⟨false, .str [104, 105]⟩, ⟨true, .nil⟩, ⟨false, .str [106]⟩]
    [some (.str [104, 105]), none, some (.str [106])] :=
  string_column_seek_partial runCodec_lossless (by simp [seekEx, WOpts.Sound]) rfl (by decide) true _ (.inl rfl) [[104, 105], [106]] rfl (by simp)
    seekEx_lengths

/-! Four rows, two of them null, of the other types. -/
theorem seekEx_sound : seekEx.toWOpts.Sound := by simp [seekEx, WOpts.Sound]
/-- Two values around two nulls. -/
def exHollow (a b : GoVal) : List Value := [⟨false, a⟩, ⟨true, .nil⟩, ⟨true, .nil⟩, ⟨false, b⟩]
example : ColumnSeeks boolKind boolRead runCodec seekEx true true (exHollow (.bool true) (.bool false)) [some (.bool true), none, none, some (.bool false)] :=
  bool_column_seek runCodec_lossless seekEx_sound rfl (by decide) true _ (.inl rfl) [true, false] rfl
example (A : Arith) : ColumnSeeks (floatKind A true) (floatRead true) runCodec seekEx true true (exHollow (.f64 1) (.f64 2))
    [some (.f64 1), none, none, some (.f64 2)] :=
  double_column_seek runCodec_lossless seekEx_sound rfl (by decide) A true _ (.inl rfl) [1, 2] rfl
example : ColumnSeeks (intKind .int) (intRead .int) runCodec seekEx true true (exHollow (.i32 5) (.i32 9)) [some (.i32 5), none, none, some (.i32 9)] :=
  int_column_seek_partial runCodec_lossless seekEx_sound rfl (by decide) true _ (.inl rfl) [5, 9] rfl seekEx_ints
example : ColumnSeeks (intKind .small) (intRead .small) runCodec seekEx true true (exHollow (.i16 5) (.i16 9)) [some (.i16 5), none, none, some (.i16 9)] :=
  smallint_column_seek_partial runCodec_lossless seekEx_sound rfl (by decide) true _ (.inl rfl) [5, 9] rfl seekEx_ints
example : ColumnSeeks dateKind dateRead runCodec seekEx true false (exHollow (midnight 5) (midnight 9)) [some (midnight 5), none, none, some (midnight 9)] :=
  date_column_seek_partial runCodec_lossless seekEx_sound rfl (by decide) true _ (.inl rfl) [5, 9] rfl (by decide) seekEx_ints

end Goorc
