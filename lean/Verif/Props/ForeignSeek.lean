import Verif.Proofs.ForeignSeek
import Verif.Props.Foreign
/-
C82: row groups of files of other writers. Entry `g` of a row index says where row group `g` starts, and `SeekStride(k)` goes to the
place of entry `k - 1`: it goes to the first row of row group `k - 1`, one row group before the one asked for.
-/
namespace Goorc

section
variable {c : Codec} {kind : CompKind} {size : Nat} {file : Bytes} {ps : List LaidStream} {contents : StreamKind → Bytes}
  {present : Option (List Bool)} {hasNulls : Bool} {stride : Nat} {index : List (List Nat)}

theorem tinyint_placed (h : ColumnLaid c kind size file [.data] ps contents present) (hreach : Reachable kind size ps)
    (vals : Bytes) (hd : ByteStream (contents .data) vals) :
    ∃ over, DataPlaced byteRead c kind size file ps (vals.map .u8) (BytePlace c kind size ps contents .data vals) over := by
  have hm : ∀ (r r' : ByteReader) ws, Yields (ByteReader.nextByte c) r ws r' → Yields (byteRead.next c) r (ws.map .u8) r' := by
    intro r r' ws k
    refine Yields.map (next := ByteReader.nextByte c) GoVal.u8 (fun r v r' hn => ?_) k
    simp only [byteRead, hn, Res.ok_bind, Res.pure_eq]
  have hmem : StreamKind.data ∈ ps.map (·.kind) := (h.kinds _).mpr (.inl (by simp))
  obtain ⟨t, h1, h2⟩ := h.start hreach hmem
  refine ⟨fun r => t.Same r.stream, fun r x r' hx => ?_, ?_, fun n nums _ hp => ?_, fun _ r hr' => ?_⟩
  · simp only [byteRead] at hx
    obtain ⟨⟨b, r1⟩, h1, hx⟩ := Res.bind_ok_inv hx
    simp only [Res.pure_eq, Res.ok.injEq, Prod.mk.injEq] at hx
    have := BlockReader.next_same h1
    rw [← hx.2]; exact ⟨fun g => g.trans this, fun g => g.trans this.symm⟩
  · obtain ⟨s, g1, g2⟩ := (h.lookup .data).1 (.inl (by simp))
    rw [h1] at g1
    cases g1
    obtain ⟨r', k, -⟩ := BlockReader.yields_spec goodBlocks_byte vals [] (r := ⟨t, []⟩) (c := c)
      (by rw [List.append_nil]; exact .fresh g2 (byteStream_decodes hd))
    exact ⟨⟨t, []⟩, r', by simp [byteRead, h1], StreamReader.Same.refl _, hm _ _ _ k⟩
  · obtain ⟨t', chunk, b, x, g1, g2, g3⟩ := h.bytePlace hreach hp
    rw [h1] at g1
    cases g1
    refine ⟨[(chunk, b, [x])], fun front => ?_, fun r hs => ?_⟩
    · have := g2 front []
      rw [List.append_nil] at this
      simp only [byteRead, streamsPos, this, Res.ok_bind, Res.pure_eq]
    · obtain ⟨r', r'', j1, j2, j3⟩ := g3 r hs
      exact ⟨r', r'', j1, j2, by rw [← List.map_drop]; exact hm _ _ _ j3⟩
  · obtain ⟨s, k1, k2, k3⟩ := h2 _ hr'
    obtain ⟨r', j1, j2, j3⟩ := BlockReader.seek_spec goodBlocks_byte k1 k2 [] vals (byteStream_decodes hd)
    obtain ⟨r'', i1, -⟩ := BlockReader.yields_spec goodBlocks_byte vals [] (by rw [List.append_nil]; exact j2)
    exact ⟨r', r'', j1, (hr'.trans k3).trans j3, hm _ _ _ i1⟩

/-- **C82** (false, exact) tinyint columns. -/
theorem foreign_tinyint_seek_exact (h : ColumnLaid c kind size file [.data] ps contents present) (hreach : Reachable kind size ps)
    (hn : present.isSome = true → hasNulls = true) (vals : Bytes) (hd : ByteStream (contents .data) vals) (rows : List (Option GoVal))
    (hf : Flagged present rows) (hr : rows.filterMap id = vals.map .u8)
    (hi : IndexOf c kind size ps contents present rows stride (BytePlace c kind size ps contents .data vals) index) :
    SeeksOneEarly byteRead c kind size hasNulls file ps stride index true rows := by
  obtain ⟨over, hE⟩ := tinyint_placed h hreach vals hd
  exact ColumnLaid.roams (R := byteRead) h hreach (by decide) hn nofun rows hf (by rw [hr]; exact hE) (fun _ => rfl) rfl byte_skips stride index hi

theorem boolean_placed (h : ColumnLaid c kind size file [.data] ps contents present) (hreach : Reachable kind size ps)
    (vals : List Bool) (hd : BoolStream (contents .data) vals) :
    ∃ over, DataPlaced boolRead c kind size file ps (vals.map .bool) (BoolPlace c kind size ps contents .data vals) over := by
  have hm : ∀ (r r' : BoolReader) ws, Yields (BoolReader.next c) r ws r' → Yields (boolRead.next c) r (ws.map .bool) r' := by
    intro r r' ws k
    refine Yields.map (next := BoolReader.next c) GoVal.bool (fun r v r' hn => ?_) k
    simp only [boolRead, hn, Res.ok_bind, Res.pure_eq]
  have hmem : StreamKind.data ∈ ps.map (·.kind) := (h.kinds _).mpr (.inl (by simp))
  obtain ⟨t, h1, h2⟩ := h.boolStart hreach hmem hd
  refine ⟨fun r => t.Same r.reader.stream, fun r x r' hx => ?_, ?_, fun n nums hle hp => ?_, fun _ r hr' => ?_⟩
  · simp only [boolRead] at hx
    obtain ⟨⟨b, r1⟩, h1, hx⟩ := Res.bind_ok_inv hx
    simp only [Res.pure_eq, Res.ok.injEq, Prod.mk.injEq] at hx
    have := BoolReader.next_same h1
    rw [← hx.2]; exact ⟨fun g => g.trans this, fun g => g.trans this.symm⟩
  · obtain ⟨s, g1, g2⟩ := (h.lookup .data).1 (.inl (by simp))
    rw [h1] at g1
    cases g1
    obtain ⟨bytes, pad, q1, q2⟩ := hd
    have hrep := BoolReader.fresh g2 (byteStream_decodes q1)
    rw [bits_flatMap, q2] at hrep
    obtain ⟨r', k, -⟩ := BoolReader.yields_spec vals pad hrep
    exact ⟨newBoolReader t, r', by simp [boolRead, h1], StreamReader.Same.refl _, hm _ _ _ k⟩
  · obtain ⟨t', chunk, b, x, y, g1, g2, g3⟩ := h.boolPlace hreach (by rw [List.length_map] at hle; exact hle) hp
    rw [h1] at g1
    cases g1
    refine ⟨[(chunk, b, [x, y])], fun front => ?_, fun r hs => ?_⟩
    · have := g2 front []
      rw [List.append_nil] at this
      simp only [boolRead, streamsPos, this, Res.ok_bind, Res.pure_eq]
    · obtain ⟨r', r'', j1, j2, j3⟩ := g3 r hs
      exact ⟨r', r'', j1, j2, by rw [← List.map_drop]; exact hm _ _ _ j3⟩
  · obtain ⟨r', r'', j1, j2, j3⟩ := h2 _ hr'
    exact ⟨r', r'', j1, j2, hm _ _ _ j3⟩

/-- **C82** (false, exact) boolean columns. -/
theorem foreign_boolean_seek_exact (h : ColumnLaid c kind size file [.data] ps contents present) (hreach : Reachable kind size ps)
    (hn : present.isSome = true → hasNulls = true) (vals : List Bool) (hd : BoolStream (contents .data) vals) (rows : List (Option GoVal))
    (hf : Flagged present rows) (hr : rows.filterMap id = vals.map .bool)
    (hi : IndexOf c kind size ps contents present rows stride (BoolPlace c kind size ps contents .data vals) index) :
    SeeksOneEarly boolRead c kind size hasNulls file ps stride index true rows := by
  obtain ⟨over, hE⟩ := boolean_placed h hreach vals hd
  exact ColumnLaid.roams (R := boolRead) h hreach (by decide) hn nofun rows hf (by rw [hr]; exact hE) (fun _ => rfl) rfl bool_skips stride index hi

theorem ints_placed (bits : IntBits) (h : ColumnLaid c kind size file [.data] ps contents present) (hreach : Reachable kind size ps)
    (blocks : List RleBlock) (hd : IntStream true (contents .data) blocks) (hh : ∀ b ∈ blocks, b.Handled true) :
    ∃ over, DataPlaced (intRead bits) c kind size file ps ((blocks.flatMap (·.ints true)).map fun x => bits.read (BitVec.ofInt 64 x))
      (IntPlace c kind size ps contents true .data blocks) over := by
  have hm : ∀ (r r' : IntReader) ws, Yields (IntReader.nextInt64 c) r ws r' → Yields ((intRead bits).next c) r (ws.map bits.read) r' := by
    intro r r' ws k
    refine Yields.map (next := IntReader.nextInt64 c) bits.read (fun r v r' hn => ?_) k
    simp only [intRead, hn, Res.ok_bind, Res.pure_eq]
  have hr : ((blocks.flatMap (·.ints true)).map fun x => bits.read (BitVec.ofInt 64 x)) = ((blocks.flatMap (·.ints true)).map (BitVec.ofInt 64)).map bits.read := by
    rw [List.map_map]; rfl
  have hmem : StreamKind.data ∈ ps.map (·.kind) := (h.kinds _).mpr (.inl (by simp))
  obtain ⟨t, h1, h2⟩ := h.start hreach hmem
  refine ⟨fun r => r.signed = true ∧ t.Same r.block.stream, fun r x r' hx => ?_, ?_, fun n nums hle hp => ?_, fun _ r hr' => ?_⟩
  · simp only [intRead] at hx
    obtain ⟨⟨b, r1⟩, h1, hx⟩ := Res.bind_ok_inv hx
    simp only [Res.pure_eq, Res.ok.injEq, Prod.mk.injEq] at hx
    obtain ⟨g1, g2⟩ := IntReader.nextInt64_same h1
    rw [← hx.2, g2]; exact ⟨fun g => ⟨g.1, g.2.trans g1⟩, fun g => ⟨g.1, g.2.trans g1.symm⟩⟩
  · obtain ⟨s, g1, g2⟩ := (h.lookup .data).1 (.inl (by simp))
    rw [h1] at g1
    cases g1
    obtain ⟨r', k, -⟩ := intReader_yields g2 (intStream_decodes hd hh)
    exact ⟨newIntReader true t, r', by simp [intRead, h1], ⟨rfl, StreamReader.Same.refl _⟩, by rw [hr]; exact hm _ _ _ k⟩
  · obtain ⟨t', chunk, b, x, g1, g2, g3⟩ := h.intPlace hreach hh hp
    rw [h1] at g1
    cases g1
    refine ⟨[(chunk, b, [x])], fun front => ?_, fun r ⟨hs, hsm⟩ => ?_⟩
    · have := g2 front []
      rw [List.append_nil] at this
      simp only [intRead, streamsPos, this, Res.ok_bind, Res.pure_eq]
    · obtain ⟨s, flat, a, z, k1, k2, k3, k4, k5, k6⟩ := g3 _ hsm
      obtain ⟨r', j1, j2, j3, j4⟩ := IntReader.seek_spec k1 k3 a z (by rw [hs]; exact k4)
      obtain ⟨r'', j5, -⟩ := IntReader.yields_spec z [] (by rw [List.append_nil]; exact j2)
      rw [k5] at j1
      refine ⟨r', r'', j1, ⟨by rw [j4, hs], (hsm.trans k2).trans j3⟩, ?_⟩
      rw [hr, ← List.map_drop, ← k6]
      exact hm _ _ _ ((yields_int (by rw [j4, hs])).mp j5)
  · obtain ⟨hs, hsm⟩ := hr'
    obtain ⟨s, k1, k2, k3⟩ := h2 _ hsm
    obtain ⟨r', j1, j2, j3, j4⟩ := IntReader.seek_spec k1 k2 [] _ (by rw [hs]; exact intStream_decodes hd hh)
    obtain ⟨r'', j5, -⟩ := IntReader.yields_spec _ [] (by rw [List.append_nil]; exact j2)
    exact ⟨r', r'', j1, ⟨by rw [j4, hs], (hsm.trans k3).trans j3⟩, by rw [hr]; exact hm _ _ _ ((yields_int (by rw [j4, hs])).mp j5)⟩

/-- **C82** (false, exact for blocks that are `Handled`, C26) smallint, int and bigint columns. -/
theorem foreign_ints_seek_exact (bits : IntBits) (h : ColumnLaid c kind size file [.data] ps contents present) (hreach : Reachable kind size ps)
    (hn : present.isSome = true → hasNulls = true) (blocks : List RleBlock) (hd : IntStream true (contents .data) blocks)
    (hh : ∀ b ∈ blocks, b.Handled true) (rows : List (Option GoVal)) (hf : Flagged present rows)
    (hr : rows.filterMap id = (blocks.flatMap (·.ints true)).map fun x => bits.read (BitVec.ofInt 64 x))
    (hi : IndexOf c kind size ps contents present rows stride (IntPlace c kind size ps contents true .data blocks) index) :
    SeeksOneEarly (intRead bits) c kind size hasNulls file ps stride index true rows := by
  obtain ⟨over, hE⟩ := ints_placed bits h hreach blocks hd hh
  exact ColumnLaid.roams (R := intRead bits) h hreach (by simp [intRead]) hn nofun rows hf (by rw [hr]; exact hE) (fun _ => rfl) rfl (ints_skips bits) stride index hi

theorem date_placed (h : ColumnLaid c kind size file [.data] ps contents present) (hreach : Reachable kind size ps)
    (blocks : List RleBlock) (hd : IntStream true (contents .data) blocks)
    (hh : ∀ b ∈ blocks, b.Handled true) (hfit : ∀ d ∈ blocks.flatMap (·.ints true), -106751 ≤ d ∧ d ≤ 106751) :
    ∃ over, DataPlaced dateRead c kind size file ps ((blocks.flatMap (·.ints true)).map midnight) (IntPlace c kind size ps contents true .data blocks) over := by
  have hm : ∀ (r r' : DateReader) ws, Yields (DateReader.nextDate c) r ws r' → Yields (dateRead.next c) r (ws.map .date) r' := by
    intro r r' ws k
    refine Yields.map (next := DateReader.nextDate c) GoVal.date (fun r v r' hn => ?_) k
    simp only [dateRead, hn, Res.ok_bind, Res.pure_eq]
  have hdec : ∀ flat (vs : List U64), Decodes (IntReader.dec true) flat vs → Decodes decodeDates flat (vs.map fun v => fromDays (v.setWidth 32)) := by
    intro flat vs hv
    refine Decodes.map (d := decodeInt true) _ (fun s vs r hs => ?_) hv
    simp only [decodeDates, Dec.runBuf_bind, hs, Res.ok_bind, Dec.pure_eq, Dec.runBuf_ret]
  have hr : (blocks.flatMap (·.ints true)).map midnight = (((blocks.flatMap (·.ints true)).map (BitVec.ofInt 64)).map fun v => fromDays (v.setWidth 32)).map .date := by
    rw [List.map_map, List.map_map]
    apply List.map_congr_left
    intro d hd
    simp only [Function.comp_apply]
    rw [setWidth_ofInt 32 (by omega), (midnight_days d (hfit d hd)).2, midnight]
  have hmem : StreamKind.data ∈ ps.map (·.kind) := (h.kinds _).mpr (.inl (by simp))
  obtain ⟨t, h1, h2⟩ := h.start hreach hmem
  refine ⟨fun r => t.Same r.stream, fun r x r' hx => ?_, ?_, fun n nums hle hp => ?_, fun g => by cases g⟩
  · simp only [dateRead] at hx
    obtain ⟨⟨b, r1⟩, h1, hx⟩ := Res.bind_ok_inv hx
    simp only [Res.pure_eq, Res.ok.injEq, Prod.mk.injEq] at hx
    have := BlockReader.next_same h1
    rw [← hx.2]; exact ⟨fun g => g.trans this, fun g => g.trans this.symm⟩
  · obtain ⟨s, g1, g2⟩ := (h.lookup .data).1 (.inl (by simp))
    rw [h1] at g1
    cases g1
    obtain ⟨r', k, -⟩ := BlockReader.yields_spec goodBlocks_dates _ [] (r := ⟨t, []⟩) (c := c)
      (by rw [List.append_nil]; exact .fresh g2 (hdec _ _ (intStream_decodes hd hh)))
    exact ⟨⟨t, []⟩, r', by simp [dateRead, h1], StreamReader.Same.refl _, by rw [hr]; exact hm _ _ _ k⟩
  · obtain ⟨t', chunk, b, x, g1, g2, g3⟩ := h.intPlace hreach hh hp
    rw [h1] at g1
    cases g1
    refine ⟨[(chunk, b, [x])], fun front => ?_, fun r hsm => ?_⟩
    · have := g2 front []
      rw [List.append_nil] at this
      simp only [dateRead, streamsPos, this, Res.ok_bind, Res.pure_eq]
    · obtain ⟨s, flat, a, z, k1, k2, k3, k4, k5, k6⟩ := g3 _ hsm
      have k4 := hdec _ _ k4
      rw [List.map_append] at k4
      obtain ⟨r', j1, j2, j3⟩ := BlockReader.seek_spec goodBlocks_dates k1 k3 _ _ k4
      obtain ⟨r'', j5, -⟩ := BlockReader.yields_spec goodBlocks_dates _ [] (by rw [List.append_nil]; exact j2)
      rw [List.length_map, k5] at j1
      refine ⟨r', r'', j1, (hsm.trans k2).trans j3, ?_⟩
      rw [hr, ← List.map_drop, ← List.map_drop, ← k6]
      exact hm _ _ _ j5

/-- **C82** (false, exact for blocks that are `Handled` and days within 292 years of 1970) date columns; there is no `SeekStride(0)` for
them. Their reader goes by the schema, so a column that may have nulls must have a present stream. -/
theorem foreign_date_seek_exact (h : ColumnLaid c kind size file [.data] ps contents present) (hreach : Reachable kind size ps)
    (hn : present.isSome = hasNulls) (blocks : List RleBlock) (hd : IntStream true (contents .data) blocks)
    (hh : ∀ b ∈ blocks, b.Handled true) (hfit : ∀ d ∈ blocks.flatMap (·.ints true), -106751 ≤ d ∧ d ≤ 106751)
    (rows : List (Option GoVal)) (hf : Flagged present rows) (hr : rows.filterMap id = (blocks.flatMap (·.ints true)).map midnight)
    (hi : IndexOf c kind size ps contents present rows stride (IntPlace c kind size ps contents true .data blocks) index) :
    SeeksOneEarly dateRead c kind size hasNulls file ps stride index false rows := by
  obtain ⟨over, hE⟩ := date_placed h hreach blocks hd hh hfit
  exact ColumnLaid.roams (R := dateRead) h hreach (by decide) (fun g => by rw [← hn]; exact g) (fun _ => hn.symm) rows hf (by rw [hr]; exact hE) (fun _ => rfl) rfl date_skips stride index hi

theorem flatten_drop (w : Nat) (parts : List Bytes) (hw : ∀ p ∈ parts, p.length = w) (n : Nat) : parts.flatten.drop (w * n) = (parts.drop n).flatten := by
  induction n generalizing parts with
  | zero => simp
  | succ n ih =>
    cases parts with
    | nil => simp
    | cons p parts =>
      have : w * (n + 1) = p.length + w * n := by rw [hw p (by simp), Nat.mul_succ, Nat.add_comm]
      rw [List.flatten_cons, this, ← List.drop_drop, List.drop_left, List.drop_succ_cons]
      exact ih parts fun q hq => hw q (List.mem_cons_of_mem _ hq)

/-- Numbers of fixed size, given how they are read. -/
theorem fixed_placed (is64 : Bool) (w : Nat) {α : Type} (f : α → GoVal) (val : Bytes → α)
    (hy : ∀ (s : StreamReader) (ws : List Bytes), (∀ p ∈ ws, p.length = w) → s.Represents c ws.flatten →
      ∃ r', Yields ((floatRead is64).next c) ⟨is64, s⟩ (ws.map fun p => f (val p)) r')
    (hsame : ∀ (r : FloatReader) x r', (floatRead is64).next c r = .ok (x, r') → r.stream.Same r'.stream ∧ r'.is64 = r.is64)
    (h : ColumnLaid c kind size file [.data] ps contents present) (hreach : Reachable kind size ps)
    (parts : List Bytes) (hw : ∀ p ∈ parts, p.length = w) (hd : contents .data = parts.flatten) :
    ∃ over, DataPlaced (floatRead is64) c kind size file ps (parts.map fun p => f (val p)) (FixedPlace c kind size ps contents w) over := by
  have hmem : StreamKind.data ∈ ps.map (·.kind) := (h.kinds _).mpr (.inl (by simp))
  obtain ⟨t, h1, h2⟩ := h.start hreach hmem
  refine ⟨fun r => r.is64 = is64 ∧ t.Same r.stream, fun r x r' hx => ?_, ?_, fun n nums hle hp => ?_, fun _ r hr' => ?_⟩
  · obtain ⟨g1, g2⟩ := hsame r x r' hx
    rw [g2]; exact ⟨fun g => ⟨g.1, g.2.trans g1⟩, fun g => ⟨g.1, g.2.trans g1.symm⟩⟩
  · obtain ⟨s, g1, g2⟩ := (h.lookup .data).1 (.inl (by simp))
    rw [h1] at g1
    cases g1
    rw [hd] at g2
    obtain ⟨r', k⟩ := hy t parts hw g2
    exact ⟨⟨is64, t⟩, r', by simp [floatRead, h1], ⟨rfl, StreamReader.Same.refl _⟩, k⟩
  · obtain ⟨t', chunk, b, g1, g2, g3⟩ := h.place hreach hp
    rw [h1] at g1
    cases g1
    refine ⟨[(chunk, b, [])], fun front => ?_, fun r ⟨h64, hsm⟩ => ?_⟩
    · have := g2 front [] []
      rw [List.append_nil, List.append_nil] at this
      simp only [List.length_nil] at this
      simp only [floatRead, streamsPos, this, Res.ok_bind, Res.pure_eq]
    · obtain ⟨s, k1, k2, k3⟩ := g3 _ hsm
      rw [hd, flatten_drop w parts hw] at k2
      obtain ⟨r', k⟩ := hy s _ (fun p hp => hw p (List.mem_of_mem_drop hp)) k2
      refine ⟨⟨is64, s⟩, r', ?_, ⟨rfl, hsm.trans k3⟩, by rw [← List.map_drop]; exact k⟩
      simp only [floatRead, FloatReader.seek, k1, Res.ok_bind, Res.pure_eq, h64]
  · obtain ⟨h64, hsm⟩ := hr'
    obtain ⟨s, k1, k2, k3⟩ := h2 _ hsm
    rw [hd] at k2
    obtain ⟨r', k⟩ := hy s _ hw k2
    refine ⟨⟨is64, s⟩, r', ?_, ⟨rfl, hsm.trans k3⟩, k⟩
    simp only [floatRead, List.map_cons, List.map_nil, List.replicate_zero, FloatReader.seek, k1, Res.ok_bind, Res.pure_eq, h64]

theorem double_placed (h : ColumnLaid c kind size file [.data] ps contents present) (hreach : Reachable kind size ps)
    (vals : List Nat) (hd : FixedStream 8 (contents .data) vals) :
    ∃ over, DataPlaced (floatRead true) c kind size file ps (vals.map fun x => .f64 (BitVec.ofNat 64 x)) (FixedPlace c kind size ps contents 8) over := by
  obtain ⟨parts, g1, g2, g3⟩ := hd
  have e : (vals.map fun x => GoVal.f64 (BitVec.ofNat 64 x)) = parts.map fun p => .f64 (BitVec.ofNat 64 (littleEndian p)) := by rw [g3, List.map_map]; rfl
  rw [e]
  refine fixed_placed true 8 GoVal.f64 (fun p => BitVec.ofNat 64 (littleEndian p)) (fun s ws hw hs => ?_) (fun r x r' hx => ?_) h hreach parts g1 g2
  · have e : ws.flatten = (ws.map fun p => BitVec.ofNat 64 (littleEndian p)).flatMap putLE64 := by
      rw [← List.flatMap_id, List.flatMap_map]
      exact List.flatMap_congr fun p hp => (putLE64_littleEndian p (hw p hp)).symm
    rw [e] at hs
    obtain ⟨s', k, -⟩ := scalar_yields decodeDouble putLE64 (fun v rest => decodeDouble_put v rest) _ [] (r := s) (c := c) (by rw [List.append_nil]; exact hs)
    have := Yields.float (is64 := true) ((floatRead true).next c) GoVal.f64 (fun s v s' hs => by
      simp only [floatRead, FloatReader.nextDouble, if_true, Bool.not_true, Bool.false_eq_true, if_false, hs, Res.ok_bind, Res.pure_eq]) k
    rw [List.map_map] at this
    exact ⟨_, this⟩
  · simp only [floatRead, if_true] at hx
    obtain ⟨⟨b, r1⟩, h1, hx⟩ := Res.bind_ok_inv hx
    simp only [Res.pure_eq, Res.ok.injEq, Prod.mk.injEq] at hx
    simp only [FloatReader.nextDouble] at h1
    split at h1
    · cases h1
    · obtain ⟨⟨x1, s1⟩, h2, h1⟩ := Res.bind_ok_inv h1
      simp only [Res.pure_eq, Res.ok.injEq, Prod.mk.injEq] at h1
      rw [← hx.2, ← h1.2]; exact ⟨runStream_same _ h2, rfl⟩

/-- **C82** (false, exact) double columns. -/
theorem foreign_double_seek_exact (h : ColumnLaid c kind size file [.data] ps contents present) (hreach : Reachable kind size ps)
    (hn : present.isSome = true → hasNulls = true) (vals : List Nat) (hd : FixedStream 8 (contents .data) vals) (rows : List (Option GoVal))
    (hf : Flagged present rows) (hr : rows.filterMap id = vals.map fun x => .f64 (BitVec.ofNat 64 x))
    (hi : IndexOf c kind size ps contents present rows stride (FixedPlace c kind size ps contents 8) index) :
    SeeksOneEarly (floatRead true) c kind size hasNulls file ps stride index true rows := by
  obtain ⟨over, hE⟩ := double_placed h hreach vals hd
  exact ColumnLaid.roams (R := floatRead true) h hreach (by simp [floatRead]) hn nofun rows hf (by rw [hr]; exact hE) (fun _ => rfl) rfl double_skips stride index hi

theorem float_placed (h : ColumnLaid c kind size file [.data] ps contents present) (hreach : Reachable kind size ps)
    (parts : List Bytes) (h4 : ∀ p ∈ parts, p.length = 4) (hd : contents .data = parts.flatten) :
    ∃ over, DataPlaced (floatRead false) c kind size file ps (parts.map fun p => .f32 (BitVec.ofNat 32 (littleEndian p.reverse))) (FixedPlace c kind size ps contents 4) over := by
  refine fixed_placed false 4 GoVal.f32 (fun p => BitVec.ofNat 32 (littleEndian p.reverse)) (fun s ws hw hs => ?_) (fun r x r' hx => ?_) h hreach parts h4 hd
  · have e : ws.flatten = (ws.map fun p => BitVec.ofNat 32 (littleEndian p.reverse)).flatMap putBE32 := by
      rw [← List.flatMap_id, List.flatMap_map]
      exact List.flatMap_congr fun p hp => (putBE32_littleEndian p (hw p hp)).symm
    rw [e] at hs
    obtain ⟨s', k, -⟩ := scalar_yields decodeFloat putBE32 (fun v rest => decodeFloat_put v rest) _ [] (r := s) (c := c) (by rw [List.append_nil]; exact hs)
    have := Yields.float (is64 := false) ((floatRead false).next c) GoVal.f32 (fun s v s' hs => by
      simp only [floatRead, FloatReader.nextFloat, Bool.false_eq_true, if_false, hs, Res.ok_bind, Res.pure_eq]) k
    rw [List.map_map] at this
    exact ⟨_, this⟩
  · simp only [floatRead, Bool.false_eq_true, if_false] at hx
    obtain ⟨⟨b, r1⟩, h1, hx⟩ := Res.bind_ok_inv hx
    simp only [Res.pure_eq, Res.ok.injEq, Prod.mk.injEq] at hx
    simp only [FloatReader.nextFloat] at h1
    split at h1
    · cases h1
    · obtain ⟨⟨x1, s1⟩, h2, h1⟩ := Res.bind_ok_inv h1
      simp only [Res.pure_eq, Res.ok.injEq, Prod.mk.injEq] at h1
      rw [← hx.2, ← h1.2]; exact ⟨runStream_same _ h2, rfl⟩

/-- **C82** (false, exact) float columns; their values are wrong in any case (C75). -/
theorem foreign_float_seek_exact (h : ColumnLaid c kind size file [.data] ps contents present) (hreach : Reachable kind size ps)
    (hn : present.isSome = true → hasNulls = true) (parts : List Bytes) (h4 : ∀ p ∈ parts, p.length = 4) (hd : contents .data = parts.flatten)
    (rows : List (Option GoVal)) (hf : Flagged present rows) (hr : rows.filterMap id = parts.map fun p => .f32 (BitVec.ofNat 32 (littleEndian p.reverse)))
    (hi : IndexOf c kind size ps contents present rows stride (FixedPlace c kind size ps contents 4) index) :
    SeeksOneEarly (floatRead false) c kind size hasNulls file ps stride index true rows := by
  obtain ⟨over, hE⟩ := float_placed h hreach parts h4 hd
  exact ColumnLaid.roams (R := floatRead false) h hreach (by simp [floatRead]) hn nofun rows hf (by rw [hr]; exact hE) (fun _ => rfl) rfl float_skips stride index hi

/-- Strings and binary data, given how they are handed out. -/
theorem text_placed (R : ReadKind TextReader) (f : Bytes → GoVal) (hlay : R.layout = [0, 1])
    (hinit : ∀ s d l, s .data = some d → s .length = some l → R.init s = some ⟨d, newIntReader false l⟩)
    (hnext : ∀ r, R.next c r = (r.next c >>= fun x => pure (f x.1, x.2))) (hseek : R.seek = TextReader.seek)
    (h : ColumnLaid c kind size file [.data, .length] ps contents present) (hreach : Reachable kind size ps)
    (vals : List Bytes) (hs : ∀ v ∈ vals, v.length < 2 ^ 63) (hd : contents .data = vals.flatten)
    (blocks : List RleBlock) (hl : IntStream false (contents .length) blocks) (hh : ∀ b ∈ blocks, b.Handled false)
    (hlen : blocks.flatMap (·.ints false) = vals.map fun v => ((v.length : Nat) : Int)) :
    ∃ over, DataPlaced R c kind size file ps (vals.map f) (TextPlace c kind size ps contents vals blocks) over := by
  have hm : ∀ (r r' : TextReader) ws, Yields (TextReader.next c) r ws r' → Yields (R.next c) r (ws.map f) r' := by
    intro r r' ws k
    refine Yields.map (next := TextReader.next c) f (fun r v r' hn => ?_) k
    simp only [hnext, hn, Res.ok_bind, Res.pure_eq]
  have hmd : StreamKind.data ∈ ps.map (·.kind) := (h.kinds _).mpr (.inl (by simp))
  have hml : StreamKind.length ∈ ps.map (·.kind) := (h.kinds _).mpr (.inl (by simp))
  obtain ⟨t, h1, h2⟩ := h.start hreach hmd
  obtain ⟨u, h3, h4⟩ := h.start hreach hml
  have hdec := intStream_decodes hl hh
  rw [hlen, lengths_map] at hdec
  refine ⟨fun r => r.length.signed = false ∧ t.Same r.data ∧ u.Same r.length.block.stream, fun r x r' hx => ?_, ?_, fun n nums hle hp => ?_, fun _ r hr' => ?_⟩
  · rw [hnext] at hx
    obtain ⟨⟨b, r1⟩, h1, hx⟩ := Res.bind_ok_inv hx
    simp only [Res.pure_eq, Res.ok.injEq, Prod.mk.injEq] at hx
    simp only [TextReader.next] at h1
    obtain ⟨⟨l, len⟩, h2, h1⟩ := Res.bind_ok_inv h1
    obtain ⟨⟨b', dd⟩, h3, h1⟩ := Res.bind_ok_inv h1
    simp only [Res.pure_eq, Res.ok.injEq, Prod.mk.injEq] at h1
    obtain ⟨g1, g2⟩ := IntReader.nextUInt64_same h2
    have g3 : r.data.Same dd := by
      simp only [nextBytes] at h3
      split at h3
      · exact runStream_same _ h3
      · cases h3
    rw [← hx.2, ← h1.2]
    simp only [g2]
    exact ⟨fun g => ⟨g.1, g.2.1.trans g3, g.2.2.trans g1⟩, fun g => ⟨g.1, g.2.1.trans g3.symm, g.2.2.trans g1.symm⟩⟩
  · obtain ⟨s, t', r', g1, g2, g3⟩ := foreign_text h vals hs hd blocks hl hh hlen
    rw [h1] at g1
    cases g1
    rw [h3] at g2
    cases g2
    exact ⟨_, r', hinit _ _ _ h1 h3, ⟨rfl, StreamReader.Same.refl _, StreamReader.Same.refl _⟩, hm _ _ _ g3⟩
  · obtain ⟨a, b, hp1, hp2, rfl⟩ := hp
    obtain ⟨t', chunk, off, g1, g2, g3⟩ := h.place hreach hp1
    obtain ⟨u', chunk', off', x, g4, g5, g6⟩ := h.intPlace hreach hh hp2
    rw [h1] at g1
    cases g1
    rw [h3] at g4
    cases g4
    refine ⟨[(chunk, off, []), (chunk', off', [x])], fun front => ?_, fun r ⟨hsg, hsm, hsm'⟩ => ?_⟩
    · have e1 := g2 front [] b
      have e2 := g5 (front ++ a) []
      rw [List.append_nil] at e1 e2
      simp only [List.length_nil, List.length_append] at e1 e2
      rw [hlay]
      simp only [streamsPos]
      rw [← List.append_assoc, e1]
      simp only [Res.ok_bind, e2, Res.pure_eq]
    · obtain ⟨s, k1, k2, k3⟩ := g3 _ hsm
      obtain ⟨s', flat, y, z, q1, q2, q3, q4, q5, q6⟩ := g6 _ hsm'
      obtain ⟨r', j1, j2, j3, j4⟩ := IntReader.seek_spec q1 q3 y z (by rw [hsg]; exact q4)
      obtain ⟨r'', j5, -⟩ := IntReader.yields_spec z [] (by rw [List.append_nil]; exact j2)
      have hyu := (yields_uint (by rw [j4, hsg])).mp j5
      rw [hlen, lengths_map, ← List.map_drop] at q6
      rw [q6] at hyu
      rw [hd] at k2
      have e : vals.flatten.drop (vals.take n).flatten.length = (vals.drop n).flatten := by
        conv => lhs; rw [← List.take_append_drop n vals, List.flatten_append]
        rw [List.take_append_drop, List.drop_left]
      rw [e, ← List.flatMap_id] at k2
      obtain ⟨s'', j6⟩ := text_yields (vals.drop n) k2 hyu (fun v hv => hs v (List.mem_of_mem_drop hv))
      rw [q5] at j1
      refine ⟨⟨s, r'⟩, _, ?_, ⟨by rw [j4, hsg], hsm.trans k3, (hsm'.trans q2).trans j3⟩, by rw [← List.map_drop]; exact hm _ _ _ j6⟩
      rw [hseek]
      simp only [TextReader.seek, k1, j1, Res.ok_bind, Res.pure_eq]
  · obtain ⟨hsg, hsm, hsm'⟩ := hr'
    obtain ⟨s, k1, k2, k3⟩ := h2 _ hsm
    obtain ⟨s', q1, q2, q3⟩ := h4 _ hsm'
    obtain ⟨r', j1, j2, j3, j4⟩ := IntReader.seek_spec q1 q2 [] _ (by rw [hsg]; exact hdec)
    obtain ⟨r'', j5, -⟩ := IntReader.yields_spec _ [] (by rw [List.append_nil]; exact j2)
    have hyu := (yields_uint (by rw [j4, hsg])).mp j5
    rw [hd, ← List.flatMap_id] at k2
    obtain ⟨s'', j6⟩ := text_yields vals k2 hyu hs
    refine ⟨⟨s, r'⟩, _, ?_, ⟨by rw [j4, hsg], hsm.trans k3, (hsm'.trans q3).trans j3⟩, hm _ _ _ j6⟩
    rw [hseek, hlay]
    simp only [List.map_cons, List.map_nil, List.replicate_zero, List.replicate_one, TextReader.seek, k1, Res.ok_bind, Res.pure_eq]
    have j1' : r.length.seek c 0 0 0 = .ok r' := j1
    rw [j1']; rfl

theorem string_placed (h : ColumnLaid c kind size file [.data, .length] ps contents present) (hreach : Reachable kind size ps)
    (vals : List Bytes) (hs : ∀ v ∈ vals, v.length < 2 ^ 63) (hd : contents .data = vals.flatten)
    (blocks : List RleBlock) (hl : IntStream false (contents .length) blocks) (hh : ∀ b ∈ blocks, b.Handled false)
    (hlen : blocks.flatMap (·.ints false) = vals.map fun v => ((v.length : Nat) : Int)) :
    ∃ over, DataPlaced stringRead c kind size file ps (vals.map .str) (TextPlace c kind size ps contents vals blocks) over :=
  text_placed stringRead .str rfl (fun s d l h1 h2 => by simp [stringRead, h1, h2]) (fun r => rfl) rfl h hreach vals hs hd blocks hl hh hlen

/-- **C82** (false, exact for lengths in blocks that are `Handled`) string columns, direct. -/
theorem foreign_string_seek_exact (h : ColumnLaid c kind size file [.data, .length] ps contents present) (hreach : Reachable kind size ps)
    (hn : present.isSome = true → hasNulls = true) (vals : List Bytes) (hs : ∀ v ∈ vals, v.length < 2 ^ 63) (hd : contents .data = vals.flatten)
    (blocks : List RleBlock) (hl : IntStream false (contents .length) blocks) (hh : ∀ b ∈ blocks, b.Handled false)
    (hlen : blocks.flatMap (·.ints false) = vals.map fun v => ((v.length : Nat) : Int))
    (rows : List (Option GoVal)) (hf : Flagged present rows) (hr : rows.filterMap id = vals.map .str)
    (hi : IndexOf c kind size ps contents present rows stride (TextPlace c kind size ps contents vals blocks) index) :
    SeeksOneEarly stringRead c kind size hasNulls file ps stride index true rows := by
  obtain ⟨over, hE⟩ := string_placed h hreach vals hs hd blocks hl hh hlen
  exact ColumnLaid.roams (R := stringRead) h hreach (by decide) hn nofun rows hf (by rw [hr]; exact hE) (fun _ => rfl) rfl string_skips stride index hi

theorem binary_placed (h : ColumnLaid c kind size file [.data, .length] ps contents present) (hreach : Reachable kind size ps)
    (vals : List Bytes) (hs : ∀ v ∈ vals, v.length < 2 ^ 63) (hd : contents .data = vals.flatten)
    (blocks : List RleBlock) (hl : IntStream false (contents .length) blocks) (hh : ∀ b ∈ blocks, b.Handled false)
    (hlen : blocks.flatMap (·.ints false) = vals.map fun v => ((v.length : Nat) : Int)) :
    ∃ over, DataPlaced binaryRead c kind size file ps (vals.map .bytes) (TextPlace c kind size ps contents vals blocks) over :=
  text_placed binaryRead .bytes rfl (fun s d l h1 h2 => by simp [binaryRead, h1, h2]) (fun r => rfl) rfl h hreach vals hs hd blocks hl hh hlen

/-- **C82** (false, exact likewise) binary columns. -/
theorem foreign_binary_seek_exact (h : ColumnLaid c kind size file [.data, .length] ps contents present) (hreach : Reachable kind size ps)
    (hn : present.isSome = true → hasNulls = true) (vals : List Bytes) (hs : ∀ v ∈ vals, v.length < 2 ^ 63) (hd : contents .data = vals.flatten)
    (blocks : List RleBlock) (hl : IntStream false (contents .length) blocks) (hh : ∀ b ∈ blocks, b.Handled false)
    (hlen : blocks.flatMap (·.ints false) = vals.map fun v => ((v.length : Nat) : Int))
    (rows : List (Option GoVal)) (hf : Flagged present rows) (hr : rows.filterMap id = vals.map .bytes)
    (hi : IndexOf c kind size ps contents present rows stride (TextPlace c kind size ps contents vals blocks) index) :
    SeeksOneEarly binaryRead c kind size hasNulls file ps stride index true rows := by
  obtain ⟨over, hE⟩ := binary_placed h hreach vals hs hd blocks hl hh hlen
  exact ColumnLaid.roams (R := binaryRead) h hreach (by decide) hn nofun rows hf (by rw [hr]; exact hE) (fun _ => rfl) rfl binary_skips stride index hi

/-! ### Decimals -/

theorem posAt_at (front rest : List Nat) (j x : Nat) (h : rest[j]? = some x) : posAt (front ++ rest) (front.length + j) = .ok x := by
  have : (front ++ rest)[front.length + j]? = some x := by rw [List.getElem?_append_right (by omega), Nat.add_sub_cancel_left, h]
  simp [posAt, this]

theorem posAt_end (front rest : List Nat) (j : Nat) (h : rest.length ≤ j) : posAt (front ++ rest) (front.length + j) = .panic := by
  have : (front ++ rest)[front.length + j]? = none := by rw [List.getElem?_eq_none_iff, List.length_append]; omega
  simp [posAt, this]

/-- The reader takes one number too many for the digits, and so there is one too few for the scales. -/
theorem decimal_positions_panic {offs : Nat → Nat} {blocks : List RleBlock} {m : Nat} {nums : List Nat} (hp : DecimalPlace c kind size ps contents offs blocks m nums)
    (front : List Nat) : streamsPos kind (front ++ nums) front.length decimalRead.layout = .panic := by
  obtain ⟨a, b, ⟨p, -, -, h1⟩, ⟨f1, f2, b1, b2, n, a', -, -, -, -, -, -, ⟨q, -, -, h2⟩, rfl⟩, rfl⟩ := hp
  cases kind with
  | none =>
    obtain ⟨-, -, rfl⟩ := h1
    obtain ⟨-, -, rfl⟩ := h2
    have e0 := posAt_at front [offs m, f1.length, n] 0 _ rfl
    have e1 := posAt_at front [offs m, f1.length, n] 1 _ rfl
    have e2 := posAt_at front [offs m, f1.length, n] 2 _ rfl
    have e3 := posAt_end front [offs m, f1.length, n] 3 (by simp)
    simp only [Nat.add_zero] at e0
    simp only [decimalRead, streamsPos, streamPos, if_true, List.cons_append, List.nil_append, e0, posFrom, e1, Nat.add_assoc, Nat.reduceAdd, e2, e3, Res.ok_bind,
      Res.pure_eq, Res.panic_bind]
  | zlib =>
    obtain ⟨bf, ch, af, y, -, -, -, -, -, rfl⟩ := h1
    obtain ⟨bf', ch', af', y', -, -, -, -, -, rfl⟩ := h2
    generalize (chunkBytes bf).length = x
    generalize (chunkBytes bf').length = x'
    have e0 := posAt_at front [x, y, x', y', n] 0 _ rfl
    have e1 := posAt_at front [x, y, x', y', n] 1 _ rfl
    have e2 := posAt_at front [x, y, x', y', n] 2 _ rfl
    have e3 := posAt_at front [x, y, x', y', n] 3 _ rfl
    have e4 := posAt_at front [x, y, x', y', n] 4 _ rfl
    have e5 := posAt_end front [x, y, x', y', n] 5 (by simp)
    simp only [Nat.add_zero] at e0
    simp only [decimalRead, streamsPos, streamPos, reduceCtorEq, if_false, List.cons_append, List.nil_append, e0, posFrom, e1, Nat.add_assoc, Nat.reduceAdd, e2, e3, e4,
      e5, Res.ok_bind, Res.pure_eq, Res.panic_bind]
  | other => exact h1.elim

/-- **C82** (false, decimal columns) `SeekStride` panics, for every entry of the index. -/
theorem foreign_decimal_seek_panics (h : ColumnLaid c kind size file [.data, .secondary] ps contents present) (hn : present.isSome = true → hasNulls = true)
    (offs : Nat → Nat) (blocks : List RleBlock) (rows : List (Option GoVal))
    (hi : IndexOf c kind size ps contents present rows stride (DecimalPlace c kind size ps contents offs blocks) index)
    (k : Nat) (h1 : 1 ≤ k) (h2 : k ≤ index.length) (ops : List SeekOp) :
    roamStreams decimalRead c kind size hasNulls file ps index (.seek k :: ops) = .panic := by
  obtain ⟨s, g1, -⟩ := (h.lookup .data).1 (.inl (by simp))
  obtain ⟨t, g2, -⟩ := (h.lookup .secondary).1 (.inl (by simp))
  obtain ⟨r, k1, -, k3, k4⟩ := ColumnLaid.opens (R := decimalRead) h (by decide) hn ⟨s, newIntReader true t⟩ (by simp [decimalRead, g1, g2])
  have hkind : r.kind = kind := by
    have e := k1
    simp only [ReadKind.openCol] at e
    split at e
    · obtain ⟨dd, -, e⟩ := Option.map_eq_some_iff.mp e
      rw [← e]
    · cases e
  simp only [laid] at k1
  simp only [roamStreams, k1]
  obtain ⟨entry, he⟩ : ∃ e, index[k - 1]? = some e := ⟨_, List.getElem?_eq_getElem (by omega)⟩
  obtain ⟨-, pn, dn, rfl, hpp, hdd⟩ := hi _ _ he
  have hgp : getStridePositions (some index) k = .ok (pn ++ dn) := by
    simp only [getStridePositions]
    rw [if_neg (by omega), he]
  have hk0 : ¬ k = 0 := by omega
  have hd := decimal_positions_panic hdd
  cases hp : present with
  | none =>
    simp only [PresentPlace, hp] at hpp
    subst hpp
    have hd := hd []
    rw [List.length_nil, ← hkind] at hd
    rw [List.nil_append] at hgp hd
    simp only [ReadKind.roam, ReadKind.seekStride, hk0, and_false, if_false, hgp, Res.ok_bind, k3 hp, show decimalRead.byNulls = false from rfl, Bool.false_eq_true, false_and, hd, Res.panic_bind]
  | some bs =>
    simp only [PresentPlace, hp] at hpp
    obtain ⟨bytes, pad, j, a, n, -, ⟨f1, f2, v1, v2, x, a', -, -, -, -, -, -, h7, rfl⟩, -, rfl⟩ := hpp
    obtain ⟨chunk, b, hpos⟩ := place_streamPos h7
    have hpos := (hpos [] [x, n] dn).1
    have hd := hd (a' ++ [x] ++ [n])
    simp only [List.nil_append, List.length_nil, Nat.zero_add, List.length_cons, Nat.reduceAdd] at hpos
    rw [← hkind] at hd hpos
    obtain ⟨p, p', q1, -⟩ := k4 bs hp
    have e : a' ++ [x] ++ [n] = a' ++ [x, n] := by simp
    rw [e] at hd hgp
    simp only [ReadKind.roam, ReadKind.seekStride, hk0, and_false, if_false, hgp, Res.ok_bind, q1, hpos, show decimalRead.byNulls = false from rfl, Bool.false_eq_true, hd, Res.panic_bind]

/-- **C82** (false, date columns that may have nulls but have none) The reader expects the positions of a present stream at the front of every entry, and so it panics. -/
theorem foreign_date_unflagged_seek_panics (h : ColumnLaid c kind size file [.data] ps contents none) (blocks : List RleBlock) (rows : List (Option GoVal))
    (hi : IndexOf c kind size ps contents none rows stride (IntPlace c kind size ps contents true .data blocks) index)
    (k : Nat) (h1 : 1 ≤ k) (h2 : k ≤ index.length) (ops : List SeekOp) :
    roamStreams dateRead c kind size true file ps index (.seek k :: ops) = .panic := by
  obtain ⟨s, g1, -⟩ := (h.lookup .data).1 (.inl (by simp))
  obtain ⟨r, k1, -, k3, -⟩ := ColumnLaid.opens (R := dateRead) (hasNulls := true) h (by decide) (by simp) ⟨s, []⟩ (by simp [dateRead, g1])
  have hkind : r.kind = kind ∧ r.hasNulls = true := by
    have e := k1
    simp only [ReadKind.openCol] at e
    split at e
    · obtain ⟨dd, -, e⟩ := Option.map_eq_some_iff.mp e
      rw [← e]; exact ⟨rfl, rfl⟩
    · cases e
  simp only [laid] at k1
  simp only [roamStreams, k1]
  obtain ⟨entry, he⟩ : ∃ e, index[k - 1]? = some e := ⟨_, List.getElem?_eq_getElem (by omega)⟩
  obtain ⟨-, pn, dn, rfl, rfl, f1, f2, b1, b2, n, a, -, -, -, -, -, -, ⟨q, -, -, hq⟩, rfl⟩ := hi _ _ he
  have hgp : getStridePositions (some index) k = .ok (a ++ [n]) := by
    simp only [getStridePositions]
    rw [if_neg (by omega), he]; rfl
  have hk0 : ¬ k = 0 := by omega
  have hd : streamsPos kind (a ++ [n]) (if kind = .none then 3 else 4) dateRead.layout = .panic := by
    cases kind with
    | none =>
      obtain ⟨-, -, rfl⟩ := hq
      rfl
    | zlib =>
      obtain ⟨bf, ch, af, y, -, -, -, -, -, rfl⟩ := hq
      rfl
    | other => exact hq.elim
  simp only [ReadKind.roam, ReadKind.seekStride, hk0, and_false, if_false, hgp, Res.ok_bind, k3 rfl, show dateRead.byNulls = true from rfl, hkind.1, hkind.2, and_self,
    if_true, hd, Res.panic_bind]

/-! ### Columns that meet the hypotheses, and the property refuted -/

/-- Two dates, the days 7 and 8, each a row group of its own, in a column that may have nulls: no row group can be sought. -/
example (c : Codec) (ops : List SeekOp) (k : Nat) (h1 : 1 ≤ k) (h2 : k ≤ 2) : roamStreams dateRead c .none 16 true [0xc0#8, 0x01#8, 0x0e#8, 0x02#8]
    [⟨.data, 0, [0xc0#8, 0x01#8, 0x0e#8, 0x02#8]⟩] [[0, 0], [0, 1]] (.seek k :: ops) = .panic := by
  have hs : IntStream true [0xc0#8, 0x01#8, 0x0e#8, 0x02#8] [.fixedDelta 2 7 1] := ⟨by simp [RleBlock.WF, InRange], by decide +kernel⟩
  have he : IntStream true [] [] := ⟨by simp, rfl⟩
  refine foreign_date_unflagged_seek_panics (stride := 1) (single_laid c _) [.fixedDelta 2 7 1] [some (midnight 7), some (midnight 8)] ?_ k h1 (by simpa using h2) ops
  intro g entry hg
  match g, hg with
  | 0, hg =>
    cases hg
    exact ⟨by simp, [], [0, 0], rfl, rfl, [], _, [], _, 0, [0], rfl, rfl, he, hs, by simp, rfl, ⟨_, List.mem_singleton_self _, rfl, rfl, by simp, rfl⟩, rfl⟩
  | 1, hg =>
    cases hg
    exact ⟨by simp, [], [0, 1], rfl, rfl, [], _, [], _, 1, [0], rfl, rfl, he, hs, by decide +kernel, by rfl, ⟨_, List.mem_singleton_self _, rfl, rfl, by simp, rfl⟩, rfl⟩
  | g + 2, hg => simp at hg

/-- Six bytes in two runs, in row groups of three rows, without compression. -/
theorem groups_index (c : Codec) : IndexOf c .none 16 [⟨.data, 0, [0x00#8, 0x2a#8, 0x00#8, 0x07#8]⟩] (fun _ => [0x00#8, 0x2a#8, 0x00#8, 0x07#8]) none
    ((List.replicate 3 0x2a#8 ++ List.replicate 3 0x07#8).map fun b => some (.u8 b)) 3
    (BytePlace c .none 16 [⟨.data, 0, [0x00#8, 0x2a#8, 0x00#8, 0x07#8]⟩] (fun _ => [0x00#8, 0x2a#8, 0x00#8, 0x07#8]) .data
      (List.replicate 3 0x2a#8 ++ List.replicate 3 0x07#8)) [[0, 0], [2, 0]] := by
  have hrun : ∀ v : Byte, ByteStream [0x00#8, v] (List.replicate 3 v) := fun v => ⟨[.repeated 3 v], by simp [ByteRun.WF], by simp [ByteRun.bytes], by simp [ByteRun.values]⟩
  intro g entry he
  match g, he with
  | 0, he =>
    cases he
    refine ⟨by simp, [], [0, 0], rfl, rfl, [], _, [], _, 0, [0], rfl, rfl, ⟨[], by simp, rfl, rfl⟩, ?_, by simp, by rfl, ⟨_, List.mem_singleton_self _, rfl, rfl, by simp, rfl⟩, rfl⟩
    exact ⟨[.repeated 3 0x2a#8, .repeated 3 0x07#8], by simp [ByteRun.WF], by simp [ByteRun.bytes], by simp [ByteRun.values]⟩
  | 1, he =>
    cases he
    exact ⟨by simp, [], [2, 0], rfl, rfl, [0x00#8, 0x2a#8], [0x00#8, 0x07#8], List.replicate 3 0x2a#8, List.replicate 3 0x07#8, 0, [2], rfl, rfl, hrun _, hrun _, by simp,
      by rfl, ⟨_, List.mem_singleton_self _, rfl, rfl, by simp, rfl⟩, rfl⟩
  | g + 2, he => simp at he

theorem groups_seek (c : Codec) : SeeksOneEarly byteRead c .none 16 false [0x00#8, 0x2a#8, 0x00#8, 0x07#8] [⟨.data, 0, [0x00#8, 0x2a#8, 0x00#8, 0x07#8]⟩] 3 [[0, 0], [2, 0]]
    true ((List.replicate 3 0x2a#8 ++ List.replicate 3 0x07#8).map fun b => some (.u8 b)) :=
  foreign_tinyint_seek_exact (single_laid c _) (.inr ⟨rfl, by simp⟩) (by simp) (List.replicate 3 0x2a#8 ++ List.replicate 3 0x07#8)
    ⟨[.repeated 3 0x2a#8, .repeated 3 0x07#8], by simp [ByteRun.WF], by decide +kernel, by decide +kernel⟩ _ (by simp [Flagged]) (by rfl) (groups_index c)

/-- Four rows, the third null, in two compressed streams with one chunk each, in row groups of two rows: the index says where bit 2 and value 2 are. -/
example (c : Codec) : ∃ file ps, SeeksOneEarly byteRead c .zlib 16 true file ps 2 [[0, 0, 0, 0, 0, 0, 0], [0, 0, 0, 2, 0, 0, 2]] true
    [some (.u8 5#8), some (.u8 5#8), none, some (.u8 5#8)] := by
  have g1 : (⟨true, [0xff#8, 0xd0#8], [0xff#8, 0xd0#8]⟩ : ChunkSpec).Good c 16 := by simp [ChunkSpec.Good]
  have g2 : (⟨true, [0x00#8, 0x05#8], [0x00#8, 0x05#8]⟩ : ChunkSpec).Good c 16 := by simp [ChunkSpec.Good]
  have hb1 : ByteStream [0xff#8, 0xd0#8] [0xd0#8] := ⟨[.literal [0xd0#8]], by simp [ByteRun.WF], by decide +kernel, by decide +kernel⟩
  have hb2 : ByteStream [0x00#8, 0x05#8] [5#8, 5#8, 5#8] := ⟨[.repeated 3 5#8], by simp [ByteRun.WF], by decide +kernel, by decide +kernel⟩
  have he : ByteStream [] [] := ⟨[], by simp, rfl, rfl⟩
  have hbits : bytesBits [0xd0#8] = [true, true, false, true] ++ [false, false, false, false] := by decide +kernel
  refine ⟨_, _, foreign_tinyint_seek_exact (chunked_laid c 16 _ _ g1 g2 [true, true, false, true] ⟨[0xd0#8], _, hb1, hbits⟩) (.inl ⟨rfl, ?_⟩) (by simp) [5#8, 5#8, 5#8] hb2 _
    (by simp [Flagged]) (by rfl) ?_⟩
  · intro p hp
    simp only [List.mem_cons, List.not_mem_nil, or_false] at hp
    rcases hp with hp | hp <;> subst hp <;> simp [chunkBytes, ChunkSpec.bytes, threeBytes]
  · intro g entry hg
    match g, hg with
    | 0, hg =>
      cases hg
      exact ⟨by simp, [0, 0, 0, 0], [0, 0, 0], rfl,
        ⟨_, _, 0, [0, 0, 0], 0, hbits, ⟨[], _, [], _, 0, [0, 0], rfl, rfl, he, hb1, by simp, rfl,
          ⟨_, List.mem_cons_self, rfl, [], _, [], 0, by simpa using g1, rfl, rfl, by simp, rfl, rfl⟩, rfl⟩, rfl, rfl⟩,
        ⟨[], _, [], _, 0, [0, 0], rfl, rfl, he, hb2, by simp, rfl, ⟨_, List.mem_cons_of_mem _ (List.mem_singleton_self _), rfl, [], _, [], 0, by simpa using g2, rfl, rfl, by simp, rfl, rfl⟩, rfl⟩⟩
    | 1, hg =>
      cases hg
      exact ⟨by simp, [0, 0, 0, 2], [0, 0, 2], rfl,
        ⟨_, _, 0, [0, 0, 0], 2, hbits, ⟨[], _, [], _, 0, [0, 0], rfl, rfl, he, hb1, by simp, rfl,
          ⟨_, List.mem_cons_self, rfl, [], _, [], 0, by simpa using g1, rfl, rfl, by simp, rfl, rfl⟩, rfl⟩, rfl, rfl⟩,
        ⟨[], _, [], _, 2, [0, 0], rfl, rfl, he, hb2, by simp, by decide, ⟨_, List.mem_cons_of_mem _ (List.mem_singleton_self _), rfl, [], _, [], 0, by simpa using g2, rfl, rfl, by simp, rfl, rfl⟩, rfl⟩⟩
    | g + 2, hg => simp at hg

/-- Two decimals, each a row group of its own: their digits are one byte each, their scales 7 and 8. -/
example (c : Codec) (ops : List SeekOp) : roamStreams decimalRead c .none 16 false [0x02#8, 0x04#8, 0xc0#8, 0x01#8, 0x0e#8, 0x02#8]
    [⟨.data, 0, [0x02#8, 0x04#8]⟩, ⟨.secondary, 2, [0xc0#8, 0x01#8, 0x0e#8, 0x02#8]⟩] [[0, 0, 0], [1, 0, 1]] (.seek 2 :: ops) = .panic := by
  have hs : IntStream true [0xc0#8, 0x01#8, 0x0e#8, 0x02#8] [.fixedDelta 2 7 1] := ⟨by simp [RleBlock.WF, InRange], by decide +kernel⟩
  have he : IntStream true [] [] := ⟨by simp, rfl⟩
  refine foreign_decimal_seek_panics (contents := fun k => if k = .data then [0x02#8, 0x04#8] else [0xc0#8, 0x01#8, 0x0e#8, 0x02#8]) (present := none) (stride := 1)
    ⟨by simp, by simp, ?_, by simp⟩ (by simp) (fun m => m) [.fixedDelta 2 7 1] [some (.dec 1 7), some (.dec 2 8)] ?_ 2 (by omega) (by simp) ops
  · intro p hp
    simp only [List.mem_cons, List.not_mem_nil, or_false] at hp
    rcases hp with hp | hp <;> subst hp
    · exact ⟨⟨[], _, rfl, rfl⟩, by decide, rfl⟩
    · exact ⟨⟨[0x02#8, 0x04#8], [], rfl, rfl⟩, by decide, rfl⟩
  · intro g entry hg
    match g, hg with
    | 0, hg =>
      cases hg
      exact ⟨by simp, [], [0, 0, 0], rfl, rfl, [0], [0, 0], ⟨_, List.mem_cons_self, rfl, rfl, by simp [valuesBefore], rfl⟩,
        ⟨[], _, [], _, 0, [0], rfl, rfl, he, hs, by simp, rfl, ⟨_, List.mem_cons_of_mem _ (List.mem_singleton_self _), rfl, rfl, by simp, rfl⟩, rfl⟩, rfl⟩
    | 1, hg =>
      cases hg
      exact ⟨by simp, [], [1, 0, 1], rfl, rfl, [1], [0, 1], ⟨_, List.mem_cons_self, rfl, rfl, by simp [valuesBefore], rfl⟩,
        ⟨[], _, [], _, 1, [0], rfl, rfl, he, hs, by decide +kernel, by rfl, ⟨_, List.mem_cons_of_mem _ (List.mem_singleton_self _), rfl, rfl, by simp, rfl⟩, rfl⟩, rfl⟩
    | g + 2, hg => simp at hg

/-- **C82** is false: asked for row group 1 of that column, where all values are 7, the reader delivers those of row group 0. -/
theorem foreign_seek_false (c : Codec) : ¬ SeeksToRow byteRead c .none 16 false [0x00#8, 0x2a#8, 0x00#8, 0x07#8] [⟨.data, 0, [0x00#8, 0x2a#8, 0x00#8, 0x07#8]⟩]
    [[0, 0], [2, 0]] ((List.replicate 3 0x2a#8 ++ List.replicate 3 0x07#8).map fun b => some (.u8 b)) (fun k => k * 3) (fun k => k < 2) := by
  intro h
  have h1 := h [.seek 1, .batch [⟨false, .nil⟩]] ⟨by decide, by decide, trivial⟩ (fun _ => by simp [Unmarked, roamVectors])
  have h2 := groups_seek c [.seek 1, .batch [⟨false, .nil⟩]] ⟨⟨by decide, by simp⟩, by decide, trivial⟩ (fun _ => by simp [Unmarked, roamVectors])
  rw [h1] at h2
  simp only [roamedBy, Res.ok.injEq] at h2
  revert h2
  decide +kernel

end

/-- Integers in two blocks, in row groups of four rows: where the blocks start. -/
theorem ints_index (c : Codec) {rows : List (Option GoVal)} (h4 : 4 ≤ rows.length) (hr : ∀ r ∈ rows, r.isSome = true) :
    IndexOf c .none 16 [⟨.data, 0, [0x01#8, 0x03#8, 0xc0#8, 0x01#8, 0x0e#8, 0x02#8]⟩] (fun _ => [0x01#8, 0x03#8, 0xc0#8, 0x01#8, 0x0e#8, 0x02#8]) none rows 4
      (IntPlace c .none 16 [⟨.data, 0, [0x01#8, 0x03#8, 0xc0#8, 0x01#8, 0x0e#8, 0x02#8]⟩] (fun _ => [0x01#8, 0x03#8, 0xc0#8, 0x01#8, 0x0e#8, 0x02#8]) true .data
        [.shortRepeat 1 4 3, .fixedDelta 2 7 1]) [[0, 0], [2, 0]] := by
  have h0 : IntStream true [] [] := ⟨by simp, rfl⟩
  have h1 : IntStream true [0x01#8, 0x03#8] [.shortRepeat 1 4 3] := ⟨by simp [RleBlock.WF, InRange], by decide +kernel⟩
  have h2 : IntStream true [0xc0#8, 0x01#8, 0x0e#8, 0x02#8] [.fixedDelta 2 7 1] := ⟨by simp [RleBlock.WF, InRange], by decide +kernel⟩
  have h3 : IntStream true [0x01#8, 0x03#8, 0xc0#8, 0x01#8, 0x0e#8, 0x02#8] [.shortRepeat 1 4 3, .fixedDelta 2 7 1] := ⟨by simp [RleBlock.WF, InRange], by decide +kernel⟩
  intro g entry hg
  match g, hg with
  | 0, hg =>
    cases hg
    exact ⟨by simp, [], [0, 0], rfl, rfl, [], _, [], _, 0, [0], rfl, rfl, h0, h3, by simp, by simp [valuesBefore], ⟨_, List.mem_singleton_self _, rfl, rfl, by simp, rfl⟩, rfl⟩
  | 1, hg =>
    cases hg
    refine ⟨by simpa using h4, [], [2, 0], rfl, rfl, _, _, _, _, 0, [2], rfl, rfl, h1, h2, by simp, ?_, ⟨_, List.mem_singleton_self _, rfl, rfl, by simp, rfl⟩, rfl⟩
    match rows, h4, hr with
    | a :: b :: d :: e :: rest, _, hr =>
      simp only [List.mem_cons, forall_eq_or_imp, Option.isSome_iff_exists] at hr
      obtain ⟨⟨a, rfl⟩, ⟨b, rfl⟩, ⟨d, rfl⟩, ⟨e, rfl⟩, -⟩ := hr
      rfl
  | g + 2, hg => simp at hg

example (c : Codec) : SeeksOneEarly (intRead .big) c .none 16 false [0x01#8, 0x03#8, 0xc0#8, 0x01#8, 0x0e#8, 0x02#8]
    [⟨.data, 0, [0x01#8, 0x03#8, 0xc0#8, 0x01#8, 0x0e#8, 0x02#8]⟩] 4 [[0, 0], [2, 0]] true ([-2, -2, -2, -2, 7, 8].map fun x => some (.i64 (BitVec.ofInt 64 x))) :=
  foreign_ints_seek_exact .big (single_laid c _) (.inr ⟨rfl, by simp⟩) (by simp) [.shortRepeat 1 4 3, .fixedDelta 2 7 1]
    ⟨by simp [RleBlock.WF, InRange], by decide +kernel⟩ (by simp [RleBlock.Handled]) _ (by simp [Flagged]) (by decide +kernel) (ints_index c (by simp) (by simp))

example (c : Codec) : SeeksOneEarly dateRead c .none 16 false [0x01#8, 0x03#8, 0xc0#8, 0x01#8, 0x0e#8, 0x02#8]
    [⟨.data, 0, [0x01#8, 0x03#8, 0xc0#8, 0x01#8, 0x0e#8, 0x02#8]⟩] 4 [[0, 0], [2, 0]] false ([-2, -2, -2, -2, 7, 8].map fun x => some (midnight x)) :=
  foreign_date_seek_exact (single_laid c _) (.inr ⟨rfl, by simp⟩) rfl [.shortRepeat 1 4 3, .fixedDelta 2 7 1]
    ⟨by simp [RleBlock.WF, InRange], by decide +kernel⟩ (by simp [RleBlock.Handled]) (by decide +kernel) _ (by simp [Flagged]) (by decide +kernel)
    (ints_index c (by simp) (by simp))

/-- Ten booleans in row groups of five rows: bit 5 of the first byte. -/
example (c : Codec) : SeeksOneEarly boolRead c .none 16 false [0xfe#8, 0xa5#8, 0x40#8] [⟨.data, 0, [0xfe#8, 0xa5#8, 0x40#8]⟩] 5 [[0, 0, 0], [0, 0, 5]] true
    ([true, false, true, false, false, true, false, true, false, true].map fun b => some (.bool b)) := by
  have hb : ByteStream [0xfe#8, 0xa5#8, 0x40#8] [0xa5#8, 0x40#8] := ⟨[.literal [0xa5#8, 0x40#8]], by simp [ByteRun.WF], by decide +kernel, by decide +kernel⟩
  have he : ByteStream [] [] := ⟨[], by simp, rfl, rfl⟩
  have hbits : bytesBits [0xa5#8, 0x40#8] = [true, false, true, false, false, true, false, true, false, true] ++ List.replicate 6 false := by decide +kernel
  refine foreign_boolean_seek_exact (single_laid c _) (.inr ⟨rfl, by simp⟩) (by simp) [true, false, true, false, false, true, false, true, false, true]
    ⟨_, _, hb, hbits⟩ _ (by simp [Flagged]) (by rfl) ?_
  intro g entry hg
  match g, hg with
  | 0, hg =>
    cases hg
    exact ⟨by simp, [], [0, 0, 0], rfl, rfl, _, _, 0, [0, 0], 0, hbits, ⟨[], _, [], _, 0, [0], rfl, rfl, he, hb, by simp, rfl,
      ⟨_, List.mem_singleton_self _, rfl, rfl, by simp, rfl⟩, rfl⟩, rfl, rfl⟩
  | 1, hg =>
    cases hg
    exact ⟨by simp, [], [0, 0, 5], rfl, rfl, _, _, 0, [0, 0], 5, hbits, ⟨[], _, [], _, 0, [0], rfl, rfl, he, hb, by simp, rfl,
      ⟨_, List.mem_singleton_self _, rfl, rfl, by simp, rfl⟩, rfl⟩, rfl, rfl⟩
  | g + 2, hg => simp at hg

/-- Two doubles, each a row group of its own. -/
example (c : Codec) : SeeksOneEarly (floatRead true) c .none 16 false [0#8, 0#8, 0#8, 0#8, 0#8, 0#8, 0xf0#8, 0x3f#8, 0#8, 0#8, 0#8, 0#8, 0#8, 0#8, 0x00#8, 0x40#8]
    [⟨.data, 0, [0#8, 0#8, 0#8, 0#8, 0#8, 0#8, 0xf0#8, 0x3f#8, 0#8, 0#8, 0#8, 0#8, 0#8, 0#8, 0x00#8, 0x40#8]⟩] 1 [[0], [8]] true
    [some (.f64 0x3ff0000000000000#64), some (.f64 0x4000000000000000#64)] := by
  refine foreign_double_seek_exact (single_laid c _) (.inr ⟨rfl, by simp⟩) (by simp) [0x3ff0000000000000, 0x4000000000000000]
    ⟨[[0#8, 0#8, 0#8, 0#8, 0#8, 0#8, 0xf0#8, 0x3f#8], [0#8, 0#8, 0#8, 0#8, 0#8, 0#8, 0x00#8, 0x40#8]], by simp, by decide +kernel, by decide +kernel⟩
    _ (by simp [Flagged]) (by decide +kernel) ?_
  intro g entry hg
  match g, hg with
  | 0, hg => cases hg; exact ⟨by simp, [], [0], rfl, rfl, _, List.mem_singleton_self _, rfl, rfl, by simp [valuesBefore], rfl⟩
  | 1, hg => cases hg; exact ⟨by simp, [], [8], rfl, rfl, _, List.mem_singleton_self _, rfl, rfl, by simp [valuesBefore], rfl⟩
  | g + 2, hg => simp at hg

example (c : Codec) : SeeksOneEarly (floatRead false) c .none 16 false [0#8, 0#8, 0x80#8, 0x3f#8, 0#8, 0#8, 0x00#8, 0x40#8]
    [⟨.data, 0, [0#8, 0#8, 0x80#8, 0x3f#8, 0#8, 0#8, 0x00#8, 0x40#8]⟩] 1 [[0], [4]] true [some (.f32 0x0000803f#32), some (.f32 0x00000040#32)] := by
  refine foreign_float_seek_exact (single_laid c _) (.inr ⟨rfl, by simp⟩) (by simp) [[0#8, 0#8, 0x80#8, 0x3f#8], [0#8, 0#8, 0x00#8, 0x40#8]] (by simp) (by decide +kernel)
    _ (by simp [Flagged]) (by decide +kernel) ?_
  intro g entry hg
  match g, hg with
  | 0, hg => cases hg; exact ⟨by simp, [], [0], rfl, rfl, _, List.mem_singleton_self _, rfl, rfl, by simp [valuesBefore], rfl⟩
  | 1, hg => cases hg; exact ⟨by simp, [], [4], rfl, rfl, _, List.mem_singleton_self _, rfl, rfl, by simp [valuesBefore], rfl⟩
  | g + 2, hg => simp at hg

/-- Three texts, each a row group of its own: the bytes they start at, and how many lengths to skip. -/
theorem texts_index (c : Codec) {rows : List (Option GoVal)} (h3 : rows.length = 3) (hr : ∀ r ∈ rows, r.isSome = true) :
    IndexOf c .none 16 [⟨.data, 0, [0x68#8, 0x69#8, 0x79#8, 0x6f#8, 0x6f#8, 0x6b#8]⟩, ⟨.length, 6, [0x00#8, 0x02#8]⟩]
      (fun k => if k = .data then [0x68#8, 0x69#8, 0x79#8, 0x6f#8, 0x6f#8, 0x6b#8] else [0x00#8, 0x02#8]) none rows 1
      (TextPlace c .none 16 [⟨.data, 0, [0x68#8, 0x69#8, 0x79#8, 0x6f#8, 0x6f#8, 0x6b#8]⟩, ⟨.length, 6, [0x00#8, 0x02#8]⟩]
        (fun k => if k = .data then [0x68#8, 0x69#8, 0x79#8, 0x6f#8, 0x6f#8, 0x6b#8] else [0x00#8, 0x02#8])
        [[0x68#8, 0x69#8], [0x79#8, 0x6f#8], [0x6f#8, 0x6b#8]] [.shortRepeat 1 3 2]) [[0, 0, 0], [2, 0, 1], [4, 0, 2]] := by
  match rows, h3, hr with
  | [a, b, d], _, hr =>
    simp only [List.mem_cons, List.not_mem_nil, or_false, forall_eq_or_imp, forall_eq, Option.isSome_iff_exists] at hr
    obtain ⟨⟨a, rfl⟩, ⟨b, rfl⟩, ⟨d, rfl⟩⟩ := hr
    have h0 : IntStream false [] [] := ⟨by simp, rfl⟩
    have h1 : IntStream false [0x00#8, 0x02#8] [.shortRepeat 1 3 2] := ⟨by simp [RleBlock.WF, InRange], by decide +kernel⟩
    have hi : ([RleBlock.shortRepeat 1 3 2].flatMap (·.ints false)).length = 3 := by decide +kernel
    intro g entry hg
    match g, hg with
    | 0, hg =>
      cases hg
      exact ⟨by simp, [], [0, 0, 0], rfl, rfl, [0], [0, 0], ⟨_, List.mem_cons_self, rfl, rfl, by simp [valuesBefore], rfl⟩,
        ⟨[], _, [], _, 0, [0], rfl, rfl, h0, h1, by simp, rfl, ⟨_, List.mem_cons_of_mem _ (List.mem_singleton_self _), rfl, rfl, by simp, rfl⟩, rfl⟩, rfl⟩
    | 1, hg =>
      cases hg
      exact ⟨by simp, [], [2, 0, 1], rfl, rfl, [2], [0, 1], ⟨_, List.mem_cons_self, rfl, rfl, by simp [valuesBefore], rfl⟩,
        ⟨[], _, [], _, 1, [0], rfl, rfl, h0, h1, by rw [hi]; decide, rfl, ⟨_, List.mem_cons_of_mem _ (List.mem_singleton_self _), rfl, rfl, by simp, rfl⟩, rfl⟩, rfl⟩
    | 2, hg =>
      cases hg
      exact ⟨by simp, [], [4, 0, 2], rfl, rfl, [4], [0, 2], ⟨_, List.mem_cons_self, rfl, rfl, by simp [valuesBefore], rfl⟩,
        ⟨[], _, [], _, 2, [0], rfl, rfl, h0, h1, by rw [hi]; decide, rfl, ⟨_, List.mem_cons_of_mem _ (List.mem_singleton_self _), rfl, rfl, by simp, rfl⟩, rfl⟩, rfl⟩
    | g + 3, hg => simp at hg

example (c : Codec) : SeeksOneEarly stringRead c .none 16 false [0x68#8, 0x69#8, 0x79#8, 0x6f#8, 0x6f#8, 0x6b#8, 0x00#8, 0x02#8]
    [⟨.data, 0, [0x68#8, 0x69#8, 0x79#8, 0x6f#8, 0x6f#8, 0x6b#8]⟩, ⟨.length, 6, [0x00#8, 0x02#8]⟩] 1 [[0, 0, 0], [2, 0, 1], [4, 0, 2]] true
    ([[0x68#8, 0x69#8], [0x79#8, 0x6f#8], [0x6f#8, 0x6b#8]].map fun x => some (.str x)) :=
  foreign_string_seek_exact (texts_laid c) (.inr ⟨rfl, by simp⟩) (by simp) [[0x68#8, 0x69#8], [0x79#8, 0x6f#8], [0x6f#8, 0x6b#8]] (by simp) rfl [.shortRepeat 1 3 2]
    ⟨by simp [RleBlock.WF, InRange], by decide +kernel⟩ (by simp [RleBlock.Handled]) (by decide +kernel) _ (by simp [Flagged]) (by rfl) (texts_index c rfl (by simp))

example (c : Codec) : SeeksOneEarly binaryRead c .none 16 false [0x68#8, 0x69#8, 0x79#8, 0x6f#8, 0x6f#8, 0x6b#8, 0x00#8, 0x02#8]
    [⟨.data, 0, [0x68#8, 0x69#8, 0x79#8, 0x6f#8, 0x6f#8, 0x6b#8]⟩, ⟨.length, 6, [0x00#8, 0x02#8]⟩] 1 [[0, 0, 0], [2, 0, 1], [4, 0, 2]] true
    ([[0x68#8, 0x69#8], [0x79#8, 0x6f#8], [0x6f#8, 0x6b#8]].map fun x => some (.bytes x)) :=
  foreign_binary_seek_exact (texts_laid c) (.inr ⟨rfl, by simp⟩) (by simp) [[0x68#8, 0x69#8], [0x79#8, 0x6f#8], [0x6f#8, 0x6b#8]] (by simp) rfl [.shortRepeat 1 3 2]
    ⟨by simp [RleBlock.WF, InRange], by decide +kernel⟩ (by simp [RleBlock.Handled]) (by decide +kernel) _ (by simp [Flagged]) (by rfl) (texts_index c rfl (by simp))

end Goorc
