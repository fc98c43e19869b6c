import Verif.Proofs.Foreign
/-
C68, C75: columns of files of other writers, laid out as the ORC specification says.
-/
namespace Goorc

section
variable {c : Codec} {kind : CompKind} {size : Nat} {file : Bytes} {ps : List LaidStream} {contents : StreamKind → Bytes}
  {present : Option (List Bool)} {hasNulls : Bool}

theorem tinyint_data (h : ColumnLaid c kind size file [.data] ps contents present)
    (vals : Bytes) (hd : ByteStream (contents .data) vals) :
    ∃ d d', (byteRead).init (Goorc.lookup (laid kind size file ps)) = some d ∧ Yields ((byteRead).next c) d (vals.map .u8) d' := by
  obtain ⟨s, h1, h2⟩ := (h.lookup .data).1 (.inl (by simp))
  obtain ⟨r', k, -⟩ := BlockReader.yields_spec goodBlocks_byte vals [] (r := ⟨s, []⟩) (c := c)
    (by rw [List.append_nil]; exact .fresh h2 (byteStream_decodes hd))
  refine ⟨⟨s, []⟩, r', by simp [byteRead, h1], ?_⟩
  refine Yields.map (next := ByteReader.nextByte c) GoVal.u8 (fun r v r' hn => ?_) k
  simp only [byteRead, hn, Res.ok_bind, Res.pure_eq]

/-- **C75** tinyint columns. -/
theorem foreign_tinyint (h : ColumnLaid c kind size file [.data] ps contents present) (hn : present.isSome = true → hasNulls = true)
    (vals : Bytes) (hd : ByteStream (contents .data) vals) (rows : List (Option GoVal)) (hf : Flagged present rows)
    (hr : rows.filterMap id = vals.map .u8) : ColumnDelivers byteRead c kind size hasNulls file ps rows :=
  ColumnLaid.delivers (R := byteRead) h (by decide) hn rows hf (by rw [hr]; exact tinyint_data h vals hd) (fun _ => rfl) rfl byte_skips

theorem boolean_data (h : ColumnLaid c kind size file [.data] ps contents present)
    (vals : List Bool) (hd : BoolStream (contents .data) vals) :
    ∃ d d', (boolRead).init (Goorc.lookup (laid kind size file ps)) = some d ∧ Yields ((boolRead).next c) d (vals.map .bool) d' := by
  obtain ⟨s, h1, h2⟩ := (h.lookup .data).1 (.inl (by simp))
  obtain ⟨bytes, pad, g1, g2⟩ := hd
  have hrep := BoolReader.fresh h2 (byteStream_decodes g1)
  have e : bytes.flatMap boolsOfByte = bytesBits bytes := by
    simp only [bytesBits]; congr 1; funext b; exact boolsOfByte_bits b
  rw [e, g2] at hrep
  obtain ⟨r', k, -⟩ := BoolReader.yields_spec vals pad hrep
  refine ⟨newBoolReader s, r', by simp [boolRead, h1], ?_⟩
  refine Yields.map (next := BoolReader.next c) GoVal.bool (fun r v r' hn => ?_) k
  simp only [boolRead, hn, Res.ok_bind, Res.pure_eq]

/-- **C75** boolean columns. -/
theorem foreign_boolean (h : ColumnLaid c kind size file [.data] ps contents present) (hn : present.isSome = true → hasNulls = true)
    (vals : List Bool) (hd : BoolStream (contents .data) vals) (rows : List (Option GoVal)) (hf : Flagged present rows)
    (hr : rows.filterMap id = vals.map .bool) : ColumnDelivers boolRead c kind size hasNulls file ps rows :=
  ColumnLaid.delivers (R := boolRead) h (by decide) hn rows hf (by rw [hr]; exact boolean_data h vals hd) (fun _ => rfl) rfl bool_skips

theorem setWidth_ofInt' (w k : Nat) (x : Int) : (BitVec.ofInt (w + k) x).setWidth w = BitVec.ofInt w x := by
  apply BitVec.eq_of_toNat_eq
  rw [BitVec.toNat_setWidth, BitVec.toNat_ofInt, BitVec.toNat_ofInt]
  have p1 : (0 : Int) < ((2 ^ w : Nat) : Int) := by exact_mod_cast Nat.two_pow_pos w
  have p2 : (0 : Int) < ((2 ^ (w + k) : Nat) : Int) := by exact_mod_cast Nat.two_pow_pos (w + k)
  apply Int.ofNat_inj.mp
  rw [Int.natCast_emod, Int.toNat_of_nonneg (Int.emod_nonneg _ (by omega)), Int.toNat_of_nonneg (Int.emod_nonneg _ (by omega))]
  apply Int.emod_emod_of_dvd
  exact Int.natCast_dvd_natCast.mpr (Nat.pow_dvd_pow 2 (by omega))

theorem setWidth_ofInt (w : Nat) (hw : w ≤ 64) (x : Int) : (BitVec.ofInt 64 x).setWidth w = BitVec.ofInt w x := by
  obtain ⟨k, hk⟩ := Nat.exists_eq_add_of_le hw
  generalize 64 = n at hk
  subst hk
  exact setWidth_ofInt' w k x

theorem ints_data (bits : IntBits) (h : ColumnLaid c kind size file [.data] ps contents present)
    (blocks : List RleBlock) (hd : IntStream true (contents .data) blocks) (hh : ∀ b ∈ blocks, b.Handled true) :
    ∃ d d', ((intRead bits)).init (Goorc.lookup (laid kind size file ps)) = some d ∧ Yields (((intRead bits)).next c) d ((blocks.flatMap (·.ints true)).map fun x => bits.read (BitVec.ofInt 64 x)) d' := by
  obtain ⟨s, h1, h2⟩ := (h.lookup .data).1 (.inl (by simp))
  obtain ⟨r', k, -⟩ := intReader_yields h2 (intStream_decodes hd hh)
  refine ⟨newIntReader true s, r', by simp [intRead, h1], ?_⟩
  have := Yields.map (next := IntReader.nextInt64 c) (next' := (intRead bits).next c) bits.read (fun r v r' hn => by
    simp only [intRead, hn, Res.ok_bind, Res.pure_eq]) k
  rwa [List.map_map] at this

theorem foreign_ints (bits : IntBits) (h : ColumnLaid c kind size file [.data] ps contents present) (hn : present.isSome = true → hasNulls = true)
    (blocks : List RleBlock) (hd : IntStream true (contents .data) blocks) (hh : ∀ b ∈ blocks, b.Handled true)
    (rows : List (Option GoVal)) (hf : Flagged present rows)
    (hr : rows.filterMap id = (blocks.flatMap (·.ints true)).map fun x => bits.read (BitVec.ofInt 64 x)) :
    ColumnDelivers (intRead bits) c kind size hasNulls file ps rows :=
  ColumnLaid.delivers (R := (intRead bits)) h (by simp [intRead]) hn rows hf (by rw [hr]; exact ints_data bits h blocks hd hh) (fun _ => rfl) rfl (ints_skips bits)

/-- **C75** (partial: blocks that are `Handled`, as in C26) smallint columns. -/
theorem foreign_smallint_partial (h : ColumnLaid c kind size file [.data] ps contents present) (hn : present.isSome = true → hasNulls = true)
    (blocks : List RleBlock) (hd : IntStream true (contents .data) blocks) (hh : ∀ b ∈ blocks, b.Handled true)
    (rows : List (Option GoVal)) (hf : Flagged present rows)
    (hr : rows.filterMap id = (blocks.flatMap (·.ints true)).map fun x => .i16 (BitVec.ofInt 16 x)) :
    ColumnDelivers (intRead .small) c kind size hasNulls file ps rows :=
  foreign_ints .small h hn blocks hd hh rows hf (by rw [hr]; simp only [IntBits.read, setWidth_ofInt 16 (by omega)])

/-- **C75** (partial, likewise) int columns. -/
theorem foreign_int_partial (h : ColumnLaid c kind size file [.data] ps contents present) (hn : present.isSome = true → hasNulls = true)
    (blocks : List RleBlock) (hd : IntStream true (contents .data) blocks) (hh : ∀ b ∈ blocks, b.Handled true)
    (rows : List (Option GoVal)) (hf : Flagged present rows)
    (hr : rows.filterMap id = (blocks.flatMap (·.ints true)).map fun x => .i32 (BitVec.ofInt 32 x)) :
    ColumnDelivers (intRead .int) c kind size hasNulls file ps rows :=
  foreign_ints .int h hn blocks hd hh rows hf (by rw [hr]; simp only [IntBits.read, setWidth_ofInt 32 (by omega)])

/-- **C75** (partial, likewise) bigint columns. -/
theorem foreign_bigint_partial (h : ColumnLaid c kind size file [.data] ps contents present) (hn : present.isSome = true → hasNulls = true)
    (blocks : List RleBlock) (hd : IntStream true (contents .data) blocks) (hh : ∀ b ∈ blocks, b.Handled true)
    (rows : List (Option GoVal)) (hf : Flagged present rows)
    (hr : rows.filterMap id = (blocks.flatMap (·.ints true)).map fun x => .i64 (BitVec.ofInt 64 x)) :
    ColumnDelivers (intRead .big) c kind size hasNulls file ps rows :=
  foreign_ints .big h hn blocks hd hh rows hf hr

theorem date_data (h : ColumnLaid c kind size file [.data] ps contents present)
    (blocks : List RleBlock) (hd : IntStream true (contents .data) blocks) (hh : ∀ b ∈ blocks, b.Handled true)
    (hfit : ∀ d ∈ blocks.flatMap (·.ints true), -106751 ≤ d ∧ d ≤ 106751) :
    ∃ d d', (dateRead).init (Goorc.lookup (laid kind size file ps)) = some d ∧ Yields ((dateRead).next c) d ((blocks.flatMap (·.ints true)).map midnight) d' := by
  obtain ⟨s, h1, h2⟩ := (h.lookup .data).1 (.inl (by simp))
  have hdec : Decodes decodeDates (contents .data) (((blocks.flatMap (·.ints true)).map (BitVec.ofInt 64)).map fun v => fromDays (v.setWidth 32)) := by
    refine Decodes.map (d := decodeInt true) _ (fun s vs r hs => ?_) (intStream_decodes hd hh)
    simp only [decodeDates, Dec.runBuf_bind, hs, Res.ok_bind, Dec.pure_eq, Dec.runBuf_ret]
  obtain ⟨r', k, -⟩ := BlockReader.yields_spec goodBlocks_dates _ [] (r := ⟨s, []⟩) (c := c) (by rw [List.append_nil]; exact .fresh h2 hdec)
  refine ⟨⟨s, []⟩, r', by simp [dateRead, h1], ?_⟩
  have := Yields.map (next := DateReader.nextDate c) (next' := dateRead.next c) GoVal.date (fun r v r' hn => by
    simp only [dateRead, hn, Res.ok_bind, Res.pure_eq]) k
  rw [List.map_map, List.map_map] at this
  have e : (blocks.flatMap (·.ints true)).map midnight =
      (blocks.flatMap (·.ints true)).map (fun d => GoVal.date (fromDays ((BitVec.ofInt 64 d).setWidth 32))) := by
    apply List.map_congr_left
    intro d hd
    rw [setWidth_ofInt 32 (by omega), (midnight_days d (hfit d hd)).2, midnight]
  rw [e]
  simpa only [Function.comp_def] using this

/-- **C75** (partial, likewise; and days within 292 years of 1970, C14) date columns. -/
theorem foreign_date_partial (h : ColumnLaid c kind size file [.data] ps contents present) (hn : present.isSome = true → hasNulls = true)
    (blocks : List RleBlock) (hd : IntStream true (contents .data) blocks) (hh : ∀ b ∈ blocks, b.Handled true)
    (hfit : ∀ d ∈ blocks.flatMap (·.ints true), -106751 ≤ d ∧ d ≤ 106751)
    (rows : List (Option GoVal)) (hf : Flagged present rows)
    (hr : rows.filterMap id = (blocks.flatMap (·.ints true)).map midnight) :
    ColumnDelivers dateRead c kind size hasNulls file ps rows :=
  ColumnLaid.delivers (R := dateRead) h (by decide) hn rows hf (by rw [hr]; exact date_data h blocks hd hh hfit) (fun _ => rfl) rfl date_skips

/-! ### Numbers of fixed size -/

theorem littleEndian_inj (p q : Bytes) (hl : p.length = q.length) (h : littleEndian p = littleEndian q) : p = q := by
  induction p generalizing q with
  | nil => cases q with
    | nil => rfl
    | cons _ _ => simp at hl
  | cons x p ih => cases q with
    | nil => simp at hl
    | cons y q =>
      simp only [littleEndian] at h
      have hx := x.isLt
      have hy := y.isLt
      have h1 : x.toNat = y.toNat := by omega
      rw [BitVec.eq_of_toNat_eq h1, ih q (by simpa using hl) (by omega)]

theorem littleEndian_lt (p : Bytes) : littleEndian p < 256 ^ p.length := by
  induction p with
  | nil => simp [littleEndian]
  | cons x p ih =>
    have hx := x.isLt
    rw [littleEndian, List.length_cons, Nat.pow_succ]
    omega

theorem putLE64_littleEndian (p : Bytes) (hp : p.length = 8) : putLE64 (BitVec.ofNat 64 (littleEndian p)) = p := by
  obtain ⟨out, h1, h2, h3⟩ := double_littleEndian_partial (BitVec.ofNat 64 (littleEndian p))
  simp only [doubleEncode, Res.ok.injEq] at h1
  subst h1
  refine littleEndian_inj _ _ (by rw [h2, hp]) ?_
  rw [h3, BitVec.toNat_ofNat]
  exact Nat.mod_eq_of_lt (by have := littleEndian_lt p; rw [hp] at this; exact this)

theorem putBE32_littleEndian (p : Bytes) (hp : p.length = 4) : putBE32 (BitVec.ofNat 32 (littleEndian p.reverse)) = p := by
  obtain ⟨out, h1, h2, h3⟩ := float_bigEndian (BitVec.ofNat 32 (littleEndian p.reverse))
  simp only [floatEncode, Res.ok.injEq] at h1
  subst h1
  have : (putBE32 (BitVec.ofNat 32 (littleEndian p.reverse))).reverse = p.reverse := by
    refine littleEndian_inj _ _ (by rw [List.length_reverse, h2, List.length_reverse, hp]) ?_
    rw [h3, BitVec.toNat_ofNat]
    exact Nat.mod_eq_of_lt (by have := littleEndian_lt p.reverse; rw [List.length_reverse, hp] at this; exact this)
  exact List.reverse_injective this

theorem double_data (h : ColumnLaid c kind size file [.data] ps contents present)
    (vals : List Nat) (hd : FixedStream 8 (contents .data) vals) :
    ∃ d d', ((floatRead true)).init (Goorc.lookup (laid kind size file ps)) = some d ∧ Yields (((floatRead true)).next c) d (vals.map fun x => .f64 (BitVec.ofNat 64 x)) d' := by
  obtain ⟨s, h1, h2⟩ := (h.lookup .data).1 (.inl (by simp))
  obtain ⟨parts, g1, g2, g3⟩ := hd
  have e : contents .data = (vals.map (BitVec.ofNat 64)).flatMap putLE64 := by
    rw [g2, g3, List.map_map, ← List.flatMap_id, List.flatMap_map]
    exact List.flatMap_congr fun p hp => (putLE64_littleEndian p (g1 p hp)).symm
  rw [e] at h2
  obtain ⟨s', k, -⟩ := scalar_yields decodeDouble putLE64 (fun v rest => decodeDouble_put v rest) _ [] (r := s) (c := c)
    (by rw [List.append_nil]; exact h2)
  refine ⟨⟨true, s⟩, ⟨true, s'⟩, by simp [floatRead, h1], ?_⟩
  have := Yields.float (is64 := true) ((floatRead true).next c) GoVal.f64 (fun s v s' hs => by
    simp only [floatRead, FloatReader.nextDouble, if_true, Bool.not_true, Bool.false_eq_true, if_false, hs, Res.ok_bind, Res.pure_eq]) k
  rwa [List.map_map] at this

/-- **C75** double columns. -/
theorem foreign_double (h : ColumnLaid c kind size file [.data] ps contents present) (hn : present.isSome = true → hasNulls = true)
    (vals : List Nat) (hd : FixedStream 8 (contents .data) vals) (rows : List (Option GoVal)) (hf : Flagged present rows)
    (hr : rows.filterMap id = vals.map fun x => .f64 (BitVec.ofNat 64 x)) : ColumnDelivers (floatRead true) c kind size hasNulls file ps rows :=
  ColumnLaid.delivers (R := (floatRead true)) h (by decide) hn rows hf (by rw [hr]; exact double_data h vals hd) (fun _ => rfl) rfl double_skips

theorem float_data (h : ColumnLaid c kind size file [.data] ps contents present)
    (parts : List Bytes) (h4 : ∀ p ∈ parts, p.length = 4) (hd : contents .data = parts.flatten) :
    ∃ d d', ((floatRead false)).init (Goorc.lookup (laid kind size file ps)) = some d ∧ Yields (((floatRead false)).next c) d (parts.map fun p => .f32 (BitVec.ofNat 32 (littleEndian p.reverse))) d' := by
  obtain ⟨s, h1, h2⟩ := (h.lookup .data).1 (.inl (by simp))
  have e : contents .data = (parts.map fun p => BitVec.ofNat 32 (littleEndian p.reverse)).flatMap putBE32 := by
    rw [hd, ← List.flatMap_id, List.flatMap_map]
    exact List.flatMap_congr fun p hp => (putBE32_littleEndian p (h4 p hp)).symm
  rw [e] at h2
  obtain ⟨s', k, -⟩ := scalar_yields decodeFloat putBE32 (fun v rest => decodeFloat_put v rest) _ [] (r := s) (c := c)
    (by rw [List.append_nil]; exact h2)
  refine ⟨⟨false, s⟩, ⟨false, s'⟩, by simp [floatRead, h1], ?_⟩
  have := Yields.float (is64 := false) ((floatRead false).next c) GoVal.f32 (fun s v s' hs => by
    simp only [floatRead, FloatReader.nextFloat, Bool.false_eq_true, if_false, hs, Res.ok_bind, Res.pure_eq]) k
  rwa [List.map_map] at this

/-- **C75** (false for float columns, exact) What is delivered is the number with its four bytes in reverse order. -/
theorem foreign_float_exact (h : ColumnLaid c kind size file [.data] ps contents present) (hn : present.isSome = true → hasNulls = true)
    (parts : List Bytes) (h4 : ∀ p ∈ parts, p.length = 4) (hd : contents .data = parts.flatten) (rows : List (Option GoVal))
    (hf : Flagged present rows) (hr : rows.filterMap id = parts.map fun p => .f32 (BitVec.ofNat 32 (littleEndian p.reverse))) :
    ColumnDelivers (floatRead false) c kind size hasNulls file ps rows :=
  ColumnLaid.delivers (R := (floatRead false)) h (by decide) hn rows hf (by rw [hr]; exact float_data h parts h4 hd) (fun _ => rfl) rfl float_skips

/-! ### Text -/

theorem lengths_map (vals : List Bytes) : (vals.map fun v => ((v.length : Nat) : Int)).map (BitVec.ofInt 64) = vals.map fun v => BitVec.ofNat 64 v.length := by
  rw [List.map_map]
  apply List.map_congr_left
  intro v _
  simp [BitVec.ofInt_natCast]

/-- Strings in a data stream and a length stream. -/
theorem foreign_text (h : ColumnLaid c kind size file [.data, .length] ps contents present) (vals : List Bytes) (hs : ∀ v ∈ vals, v.length < 2 ^ 63)
    (hd : contents .data = vals.flatten) (blocks : List RleBlock) (hl : IntStream false (contents .length) blocks)
    (hh : ∀ b ∈ blocks, b.Handled false) (hlen : blocks.flatMap (·.ints false) = vals.map fun v => ((v.length : Nat) : Int)) :
    ∃ s t r', Goorc.lookup (laid kind size file ps) .data = some s ∧ Goorc.lookup (laid kind size file ps) .length = some t ∧
      Yields (TextReader.next c) ⟨s, newIntReader false t⟩ vals r' := by
  obtain ⟨s, h1, h2⟩ := (h.lookup .data).1 (.inl (by simp))
  obtain ⟨t, h3, h4⟩ := (h.lookup .length).1 (.inl (by simp))
  have hdec := intStream_decodes hl hh
  rw [hlen, lengths_map] at hdec
  obtain ⟨len', k, -⟩ := uintReader_yields h4 hdec
  rw [hd, ← List.flatMap_id] at h2
  obtain ⟨s', j⟩ := text_yields vals h2 k hs
  exact ⟨s, t, _, h1, h3, j⟩

theorem string_data (h : ColumnLaid c kind size file [.data, .length] ps contents present)
    (vals : List Bytes) (hs : ∀ v ∈ vals, v.length < 2 ^ 63) (hd : contents .data = vals.flatten) (blocks : List RleBlock)
    (hl : IntStream false (contents .length) blocks) (hh : ∀ b ∈ blocks, b.Handled false)
    (hlen : blocks.flatMap (·.ints false) = vals.map fun v => ((v.length : Nat) : Int)) :
    ∃ d d', (stringRead).init (Goorc.lookup (laid kind size file ps)) = some d ∧ Yields ((stringRead).next c) d (vals.map .str) d' := by
  obtain ⟨s, t, r', h1, h2, h3⟩ := foreign_text h vals hs hd blocks hl hh hlen
  refine ⟨⟨s, newIntReader false t⟩, r', by simp [stringRead, h1, h2], ?_⟩
  refine Yields.map (next := TextReader.next c) GoVal.str (fun r v r' hn => ?_) h3
  simp only [stringRead, hn, Res.ok_bind, Res.pure_eq]

/-- **C75** (partial: blocks of lengths that are `Handled`) string columns, direct. -/
theorem foreign_string_partial (h : ColumnLaid c kind size file [.data, .length] ps contents present) (hn : present.isSome = true → hasNulls = true)
    (vals : List Bytes) (hs : ∀ v ∈ vals, v.length < 2 ^ 63) (hd : contents .data = vals.flatten) (blocks : List RleBlock)
    (hl : IntStream false (contents .length) blocks) (hh : ∀ b ∈ blocks, b.Handled false)
    (hlen : blocks.flatMap (·.ints false) = vals.map fun v => ((v.length : Nat) : Int))
    (rows : List (Option GoVal)) (hf : Flagged present rows) (hr : rows.filterMap id = vals.map .str) :
    ColumnDelivers stringRead c kind size hasNulls file ps rows :=
  ColumnLaid.delivers (R := stringRead) h (by decide) hn rows hf (by rw [hr]; exact string_data h vals hs hd blocks hl hh hlen) (fun _ => rfl) rfl string_skips

theorem binary_skips : binaryRead.SkipsLikeNext c := by
  intro d x d' h
  simp only [binaryRead] at h ⊢
  obtain ⟨y, h1, h2⟩ := Res.bind_ok_inv h
  cases h2
  refine ⟨by rw [h1]; rfl, ?_⟩
  simp only [TextReader.next] at h1
  obtain ⟨⟨l, len⟩, g1, g2⟩ := Res.bind_ok_inv h1
  obtain ⟨⟨b, data⟩, g3, g4⟩ := Res.bind_ok_inv g2
  simp only [g1, g3]

theorem binary_data (h : ColumnLaid c kind size file [.data, .length] ps contents present)
    (vals : List Bytes) (hs : ∀ v ∈ vals, v.length < 2 ^ 63) (hd : contents .data = vals.flatten) (blocks : List RleBlock)
    (hl : IntStream false (contents .length) blocks) (hh : ∀ b ∈ blocks, b.Handled false)
    (hlen : blocks.flatMap (·.ints false) = vals.map fun v => ((v.length : Nat) : Int)) :
    ∃ d d', (binaryRead).init (Goorc.lookup (laid kind size file ps)) = some d ∧ Yields ((binaryRead).next c) d (vals.map .bytes) d' := by
  obtain ⟨s, t, r', h1, h2, h3⟩ := foreign_text h vals hs hd blocks hl hh hlen
  refine ⟨⟨s, newIntReader false t⟩, r', by simp [binaryRead, h1, h2], ?_⟩
  refine Yields.map (next := TextReader.next c) GoVal.bytes (fun r v r' hn => ?_) h3
  simp only [binaryRead, hn, Res.ok_bind, Res.pure_eq]

/-- **C75** (partial, likewise) binary columns: only the writer of this library loses them (C39). -/
theorem foreign_binary_partial (h : ColumnLaid c kind size file [.data, .length] ps contents present) (hn : present.isSome = true → hasNulls = true)
    (vals : List Bytes) (hs : ∀ v ∈ vals, v.length < 2 ^ 63) (hd : contents .data = vals.flatten) (blocks : List RleBlock)
    (hl : IntStream false (contents .length) blocks) (hh : ∀ b ∈ blocks, b.Handled false)
    (hlen : blocks.flatMap (·.ints false) = vals.map fun v => ((v.length : Nat) : Int))
    (rows : List (Option GoVal)) (hf : Flagged present rows) (hr : rows.filterMap id = vals.map .bytes) :
    ColumnDelivers binaryRead c kind size hasNulls file ps rows :=
  ColumnLaid.delivers (R := binaryRead) h (by decide) hn rows hf (by rw [hr]; exact binary_data h vals hs hd blocks hl hh hlen) (fun _ => rfl) rfl binary_skips

/-! ### Columns that meet the hypotheses -/

/-- A column with one stream, which is the whole file, without compression. -/
theorem single_laid (c : Codec) (flat : Bytes) : ColumnLaid c .none 16 flat [.data] [⟨.data, 0, flat⟩] (fun _ => flat) none where
  nodup := by simp
  kinds := by simp
  inFile := by
    intro p hp
    simp only [List.mem_singleton] at hp
    subst hp
    exact ⟨⟨[], [], by simp, rfl⟩, by decide, rfl⟩
  flags := by simp

/-- A column with a present stream and one other stream, each in one chunk. -/
theorem chunked_laid (c : Codec) (size : Nat) (ch1 ch2 : ChunkSpec) (h1 : ch1.Good c size) (h2 : ch2.Good c size) (bs : List Bool)
    (hb : BoolStream (chunkPlain [ch1]) bs) :
    ColumnLaid c .zlib size (chunkBytes [ch2] ++ chunkBytes [ch1]) [.data] [⟨.present, (chunkBytes [ch2]).length, chunkBytes [ch1]⟩, ⟨.data, 0, chunkBytes [ch2]⟩]
      (fun k => if k = .present then chunkPlain [ch1] else chunkPlain [ch2]) (some bs) where
  nodup := by simp
  kinds := by intro k; simp [or_comm]
  inFile := by
    intro p hp
    simp only [List.mem_cons, List.not_mem_nil, or_false] at hp
    rcases hp with hp | hp <;> subst hp
    · exact ⟨⟨chunkBytes [ch2], [], by simp, rfl⟩, [ch1], by simpa using h1, rfl, rfl⟩
    · exact ⟨⟨[], chunkBytes [ch1], by simp, rfl⟩, [ch2], by simpa using h2, rfl, rfl⟩
  flags := by intro bs' h; cases h; exact hb

/-- Four equal bytes. -/
example (c : Codec) : ColumnDelivers byteRead c .none 16 false [0x01#8, 0x2a#8] [⟨.data, 0, [0x01#8, 0x2a#8]⟩] (List.replicate 4 (some (.u8 0x2a#8))) :=
  foreign_tinyint (single_laid c _) (by simp) (List.replicate 4 0x2a#8)
    ⟨[.repeated 4 0x2a#8], by simp [ByteRun.WF], by decide +kernel, by decide +kernel⟩ _ (by simp [Flagged]) (by rfl)

/-- Four equal integers and a progression of two. -/
example (c : Codec) : ColumnDelivers (intRead .big) c .none 16 false [0x01#8, 0x03#8, 0xc0#8, 0x01#8, 0x0e#8, 0x02#8]
    [⟨.data, 0, [0x01#8, 0x03#8, 0xc0#8, 0x01#8, 0x0e#8, 0x02#8]⟩] ([-2, -2, -2, -2, 7, 8].map fun x => some (.i64 (BitVec.ofInt 64 x))) :=
  foreign_bigint_partial (single_laid c _) (by simp) [.shortRepeat 1 4 3, .fixedDelta 2 7 1] ⟨by simp [RleBlock.WF, InRange], by decide +kernel⟩
    (by simp [RleBlock.Handled]) _ (by simp [Flagged]) (by decide +kernel)

/-- The number 1, and what comes of it as a double and as a float. -/
example (c : Codec) : ColumnDelivers (floatRead true) c .none 16 false [0#8, 0#8, 0#8, 0#8, 0#8, 0#8, 0xf0#8, 0x3f#8] [⟨.data, 0, [0#8, 0#8, 0#8, 0#8, 0#8, 0#8, 0xf0#8, 0x3f#8]⟩]
    [some (.f64 0x3ff0000000000000#64)] :=
  foreign_double (single_laid c _) (by simp) [0x3ff0000000000000] ⟨[[0#8, 0#8, 0#8, 0#8, 0#8, 0#8, 0xf0#8, 0x3f#8]], by simp, by decide +kernel, by decide +kernel⟩
    _ (by simp [Flagged]) (by decide +kernel)

/-- **C75** is false for floats: the number 1 comes as 4.6e-41. -/
theorem foreign_float_false (c : Codec) : ColumnDelivers (floatRead false) c .none 16 false [0#8, 0#8, 0x80#8, 0x3f#8] [⟨.data, 0, [0#8, 0#8, 0x80#8, 0x3f#8]⟩]
    [some (.f32 0x0000803f#32)] :=
  foreign_float_exact (single_laid c _) (by simp) [[0#8, 0#8, 0x80#8, 0x3f#8]] (by simp) (by decide +kernel)
    _ (by simp [Flagged]) (by decide +kernel)

/-- Four rows, the third null, in two chunks stored as they are. -/
example (c : Codec) : ∃ file ps, ColumnDelivers byteRead c .zlib 16 true file ps [some (.u8 5#8), some (.u8 5#8), none, some (.u8 5#8)] := by
  refine ⟨_, _, foreign_tinyint (chunked_laid c 16 ⟨true, [0xff#8, 0xd0#8], [0xff#8, 0xd0#8]⟩ ⟨true, [0x00#8, 0x05#8], [0x00#8, 0x05#8]⟩
    ?_ ?_ [true, true, false, true] ?_) (by simp) [5#8, 5#8, 5#8] ?_ _ (by simp [Flagged]) (by rfl)⟩
  · simp [ChunkSpec.Good]
  · simp [ChunkSpec.Good]
  · exact ⟨[0xd0#8], [false, false, false, false], ⟨[.literal [0xd0#8]], by simp [ByteRun.WF], by decide +kernel, by decide +kernel⟩, by decide +kernel⟩
  · exact ⟨[.repeated 3 5#8], by simp [ByteRun.WF], by decide +kernel, by decide +kernel⟩

end

/-- Ten booleans: a run of one byte, filled up with six more bits. -/
example (c : Codec) : ColumnDelivers boolRead c .none 16 false [0xfe#8, 0xa5#8, 0x40#8] [⟨.data, 0, [0xfe#8, 0xa5#8, 0x40#8]⟩]
    ([true, false, true, false, false, true, false, true, false, true].map fun b => some (.bool b)) :=
  foreign_boolean (single_laid c _) (by simp) [true, false, true, false, false, true, false, true, false, true]
    ⟨[0xa5#8, 0x40#8], List.replicate 6 false, ⟨[.literal [0xa5#8, 0x40#8]], by simp [ByteRun.WF], by decide +kernel, by decide +kernel⟩, by decide +kernel⟩
    _ (by simp [Flagged]) (by rfl)

/-- The same integers in columns of the other types. -/
example (c : Codec) : ColumnDelivers (intRead .small) c .none 16 false [0x01#8, 0x03#8, 0xc0#8, 0x01#8, 0x0e#8, 0x02#8]
    [⟨.data, 0, [0x01#8, 0x03#8, 0xc0#8, 0x01#8, 0x0e#8, 0x02#8]⟩] ([-2, -2, -2, -2, 7, 8].map fun x => some (.i16 (BitVec.ofInt 16 x))) :=
  foreign_smallint_partial (single_laid c _) (by simp) [.shortRepeat 1 4 3, .fixedDelta 2 7 1] ⟨by simp [RleBlock.WF, InRange], by decide +kernel⟩
    (by simp [RleBlock.Handled]) _ (by simp [Flagged]) (by decide +kernel)

example (c : Codec) : ColumnDelivers (intRead .int) c .none 16 false [0x01#8, 0x03#8, 0xc0#8, 0x01#8, 0x0e#8, 0x02#8]
    [⟨.data, 0, [0x01#8, 0x03#8, 0xc0#8, 0x01#8, 0x0e#8, 0x02#8]⟩] ([-2, -2, -2, -2, 7, 8].map fun x => some (.i32 (BitVec.ofInt 32 x))) :=
  foreign_int_partial (single_laid c _) (by simp) [.shortRepeat 1 4 3, .fixedDelta 2 7 1] ⟨by simp [RleBlock.WF, InRange], by decide +kernel⟩
    (by simp [RleBlock.Handled]) _ (by simp [Flagged]) (by decide +kernel)

example (c : Codec) : ColumnDelivers dateRead c .none 16 false [0x01#8, 0x03#8, 0xc0#8, 0x01#8, 0x0e#8, 0x02#8]
    [⟨.data, 0, [0x01#8, 0x03#8, 0xc0#8, 0x01#8, 0x0e#8, 0x02#8]⟩] ([-2, -2, -2, -2, 7, 8].map fun x => some (midnight x)) :=
  foreign_date_partial (single_laid c _) (by simp) [.shortRepeat 1 4 3, .fixedDelta 2 7 1] ⟨by simp [RleBlock.WF, InRange], by decide +kernel⟩
    (by simp [RleBlock.Handled]) (by decide +kernel) _ (by simp [Flagged]) (by decide +kernel)

/-- Three texts of two bytes each: the bytes one after the other, then the lengths. -/
theorem texts_laid (c : Codec) : ColumnLaid c .none 16 [0x68#8, 0x69#8, 0x79#8, 0x6f#8, 0x6f#8, 0x6b#8, 0x00#8, 0x02#8] [.data, .length]
    [⟨.data, 0, [0x68#8, 0x69#8, 0x79#8, 0x6f#8, 0x6f#8, 0x6b#8]⟩, ⟨.length, 6, [0x00#8, 0x02#8]⟩]
    (fun k => if k = .data then [0x68#8, 0x69#8, 0x79#8, 0x6f#8, 0x6f#8, 0x6b#8] else [0x00#8, 0x02#8]) none where
  nodup := by simp
  kinds := by simp
  inFile := by
    intro p hp
    simp only [List.mem_cons, List.not_mem_nil, or_false] at hp
    rcases hp with hp | hp <;> subst hp
    · exact ⟨⟨[], _, rfl, rfl⟩, by decide, rfl⟩
    · exact ⟨⟨[0x68#8, 0x69#8, 0x79#8, 0x6f#8, 0x6f#8, 0x6b#8], [], rfl, rfl⟩, by decide, rfl⟩
  flags := by simp

example (c : Codec) : ColumnDelivers stringRead c .none 16 false [0x68#8, 0x69#8, 0x79#8, 0x6f#8, 0x6f#8, 0x6b#8, 0x00#8, 0x02#8]
    [⟨.data, 0, [0x68#8, 0x69#8, 0x79#8, 0x6f#8, 0x6f#8, 0x6b#8]⟩, ⟨.length, 6, [0x00#8, 0x02#8]⟩]
    ([[0x68#8, 0x69#8], [0x79#8, 0x6f#8], [0x6f#8, 0x6b#8]].map fun x => some (.str x)) :=
  foreign_string_partial (texts_laid c) (by simp) [[0x68#8, 0x69#8], [0x79#8, 0x6f#8], [0x6f#8, 0x6b#8]] (by simp) rfl [.shortRepeat 1 3 2]
    ⟨by simp [RleBlock.WF, InRange], by decide +kernel⟩ (by simp [RleBlock.Handled]) (by decide +kernel) _ (by simp [Flagged]) (by rfl)

example (c : Codec) : ColumnDelivers binaryRead c .none 16 false [0x68#8, 0x69#8, 0x79#8, 0x6f#8, 0x6f#8, 0x6b#8, 0x00#8, 0x02#8]
    [⟨.data, 0, [0x68#8, 0x69#8, 0x79#8, 0x6f#8, 0x6f#8, 0x6b#8]⟩, ⟨.length, 6, [0x00#8, 0x02#8]⟩]
    ([[0x68#8, 0x69#8], [0x79#8, 0x6f#8], [0x6f#8, 0x6b#8]].map fun x => some (.bytes x)) :=
  foreign_binary_partial (texts_laid c) (by simp) [[0x68#8, 0x69#8], [0x79#8, 0x6f#8], [0x6f#8, 0x6b#8]] (by simp) rfl [.shortRepeat 1 3 2]
    ⟨by simp [RleBlock.WF, InRange], by decide +kernel⟩ (by simp [RleBlock.Handled]) (by decide +kernel) _ (by simp [Flagged]) (by rfl)

end Goorc
