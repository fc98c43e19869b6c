import Verif.Proofs.Chunk
/-
C28-C30: chunk headers and chunk framing.
-/
namespace Goorc

/-- The three header bytes decoded. -/
def decHeader : Bytes → Option (Nat × Bool)
  | [a, b, c] => some (decChunkHeader a b c)
  | _ => none

/-- **C28** A chunk header decodes to the length and flag it was made from exactly for lengths below `2^23`. -/
theorem chunk_header_roundtrip_iff (l : Nat) (orig : Bool) :
    decHeader (encChunkHeader l orig) = some (l, orig) ↔ l < 2 ^ 23 := by
  have h : decHeader (encChunkHeader l orig) = some (l % 2 ^ 23, orig) := by
    rw [encChunkHeader_eq]
    simp only [threeBytes, decHeader, decChunkHeader_eq]
    congr 2
    · cases orig
      · simp only [Bool.toNat_false, Nat.add_zero]; omega
      · simp only [Bool.toNat_true]; omega
    · cases orig
      · simp
      · rw [Bool.toNat_true, show (2 * l + 1) % 2 = 1 by omega]; rfl
  rw [h]
  simp only [Option.some.injEq, Prod.mk.injEq, and_true]
  constructor <;> intro h' <;> omega

/-- **C28** The header is the 3-byte little-endian number `2*length + original` of the ORC format. -/
theorem chunk_header_format (l : Nat) (orig : Bool) :
    encChunkHeader l orig = threeBytes (2 * l + (if orig then 1 else 0)) := by
  rw [encChunkHeader_eq]; cases orig <;> rfl

/-- The ORC specification's example: 100000 bytes compressed. -/
example : encChunkHeader 100000 false = [0x40#8, 0x0d#8, 0x03#8] ∧ encChunkHeader 5 true = [0x0b#8, 0x00#8, 0x00#8] := by
  decide +kernel

/-- **C29** For every lossless compressor and chunk size from 1 to `2^23-1`, compressing any byte string in
chunks succeeds and decompressing the chunks gives it back. -/
theorem chunks_roundtrip (c : Codec) (hc : c.Lossless) (size : Nat) (h1 : 1 ≤ size) (h2 : size < 2 ^ 23) (src : Bytes) :
    ∃ dst, compressingAllInChunks c .zlib size src = .ok dst ∧ decompressChunks c .zlib dst = .ok src := by
  obtain ⟨cs, g1, g2, g3, g4, g5, -⟩ := compressAll_spec c size h1 src
  refine ⟨_, g1, ?_⟩
  simp only [decompressChunks]
  rw [decompressChunks_spec c cs ?_ _ (Nat.le_refl _), g2]
  intro ch hch
  obtain ⟨hl, k, hst, ho⟩ := g3 ch hch
  cases hor : ch.original
  · rw [hor] at hst ho
    simp only [Bool.false_eq_true, if_false, false_iff, Nat.not_lt, gt_iff_lt] at hst ho ⊢
    rw [hst]
    exact ⟨by omega, hc k _⟩
  · rw [hor] at hst
    simp only [if_true] at hst ⊢
    rw [hst]
    exact ⟨by omega, rfl⟩

/-- Concatenated outputs decompress to the concatenation: a stream may be written in several calls. -/
theorem chunks_concat (c : Codec) (hc : c.Lossless) (size : Nat) (h1 : 1 ≤ size) (h2 : size < 2 ^ 23) (srcs : List Bytes) :
    ∃ dsts, srcs.mapM (compressingAllInChunks c .zlib size) = .ok dsts ∧
      decompressChunks c .zlib dsts.flatten = .ok srcs.flatten := by
  have key : ∃ css : List (List ChunkSpec), srcs.mapM (compressingAllInChunks c .zlib size) = .ok (css.map chunkBytes) ∧
      chunkPlain css.flatten = srcs.flatten ∧ ∀ ch ∈ css.flatten, ch.stored.length < 2 ^ 23 ∧
        (if ch.original then ch.stored = ch.plain else c.decomp ch.stored = some ch.plain) := by
    induction srcs with
    | nil => exact ⟨[], rfl, rfl, by simp⟩
    | cons src srcs ih =>
      obtain ⟨css, i1, i2, i3⟩ := ih
      obtain ⟨cs, g1, g2, g3, g4, g5, -⟩ := compressAll_spec c size h1 src
      refine ⟨cs :: css, ?_, ?_, ?_⟩
      · rw [List.mapM_cons, g1, Res.ok_bind, i1]; rfl
      · simp only [chunkPlain, List.flatten_cons, List.flatMap_append] at i2 ⊢
        rw [i2]
        simp only [chunkPlain] at g2
        rw [g2]
      · intro ch hch
        rw [List.flatten_cons] at hch
        rcases List.mem_append.mp hch with hch | hch
        · obtain ⟨hl, k, hst, ho⟩ := g3 ch hch
          cases hor : ch.original
          · rw [hor] at hst ho
            simp only [Bool.false_eq_true, if_false, false_iff, Nat.not_lt, gt_iff_lt] at hst ho ⊢
            rw [hst]
            exact ⟨by omega, hc k _⟩
          · rw [hor] at hst
            simp only [if_true] at hst ⊢
            rw [hst]
            exact ⟨by omega, rfl⟩
        · exact i3 ch hch
  obtain ⟨css, k1, k2, k3⟩ := key
  refine ⟨_, k1, ?_⟩
  have hb : (css.map chunkBytes).flatten = chunkBytes css.flatten := by
    clear k1 k2 k3
    induction css with
    | nil => rfl
    | cons cs css ih => simp only [List.map_cons, List.flatten_cons, ih, chunkBytes, List.flatMap_append]
  rw [hb, decompressChunks]
  rw [decompressChunks_spec c _ k3 _ (Nat.le_refl _), k2]

/-- A compressor that never helps and one that does, to run the model on. -/
def growCodec : Codec := ⟨fun _ x => 0#8 :: x, fun s => match s with | _ :: x => some x | [] => none⟩
/-- Runs of one byte shorter than 256 become two bytes; everything else grows by one. -/
def runCodec : Codec where
  comp _ x := match x with
    | [] => [0#8]
    | b :: r => if r.all (· == b) ∧ r.length < 255 then [b, BitVec.ofNat 8 (r.length + 1)] else 0#8 :: 0#8 :: 0#8 :: b :: r
  decomp s := match s with
    | [b, n] => some (List.replicate n.toNat b)
    | [_] => some []
    | _ :: _ :: _ :: x => some x
    | _ => none

theorem growCodec_lossless : growCodec.Lossless := fun _ _ => rfl

theorem runCodec_lossless : runCodec.Lossless := by
  intro k x
  cases x with
  | nil => rfl
  | cons b r =>
    simp only [runCodec]
    by_cases h : (r.all (· == b) = true ∧ r.length < 255)
    · rw [if_pos h]
      simp only [BitVec.toNat_ofNat]
      rw [Nat.mod_eq_of_lt (by omega), List.replicate_succ]
      congr 2
      refine (List.eq_replicate_iff.mpr ⟨rfl, fun y hy => ?_⟩).symm
      have := List.all_eq_true.mp h.1 y hy
      simpa using this
    · rw [if_neg h]

/-- Both kinds of chunks occur. -/
example : compressingAllInChunks runCodec .zlib 3 [7#8, 7#8, 7#8, 1#8, 2#8, 3#8, 4#8] =
    .ok ([4#8, 0#8, 0#8, 7#8, 3#8] ++ [7#8, 0#8, 0#8, 1#8, 2#8, 3#8] ++ [3#8, 0#8, 0#8, 4#8]) := by decide +kernel

/-- **C30** Every chunk written holds at most chunk-size bytes, stored and plain; it is not empty unless nothing at all
was to be written; and it is stored uncompressed exactly when the compressor's output would be longer. -/
theorem chunks_fit (c : Codec) (hc : c.Lossless) (size : Nat) (h1 : 1 ≤ size) (h2 : size < 2 ^ 23) (src : Bytes) (hs : src ≠ []) :
    ∃ cs, compressingAllInChunks c .zlib size src = .ok (chunkBytes cs) ∧ chunkPlain cs = src ∧
      ∀ ch ∈ cs, ch.Good c size ∧ ch.Minimal c := by
  obtain ⟨cs, g1, g2, g3, g4, g5, -⟩ := compressAll_spec c size h1 src
  exact ⟨cs, g1, g2, fun ch hch => ⟨g4 hc h2 hs ch hch, (g3 ch hch).2⟩⟩

/-- With nothing to write there is one chunk, with nothing in it. -/
theorem chunks_empty (c : Codec) (size : Nat) (h1 : 1 ≤ size) :
    ∃ ch : ChunkSpec, compressingAllInChunks c .zlib size [] = .ok ch.bytes ∧ ch.plain = [] := by
  obtain ⟨cs, g1, g2, g3, g4, g5, -⟩ := compressAll_spec c size h1 []
  match cs, g5 rfl with
  | [ch], _ => exact ⟨ch, by rw [g1]; simp [chunkBytes], by simpa [chunkPlain] using g2⟩

/-- A chunk size of 0 makes compression loop for ever on any data. -/
theorem chunks_zero_size (c : Codec) (src : Bytes) (hs : src ≠ []) : compressingAllInChunks c .zlib 0 src = .hang := by
  have : ∀ fuel k, zlibCompressingToChunks c 0 fuel k src = .hang := by
    intro fuel
    have hpos : src.length > 0 := List.length_pos_iff.mpr hs
    induction fuel with
    | zero => intro k; rw [zlibCompressingToChunks]; simp only [if_pos hpos]
    | succ fuel ih =>
      intro k
      rw [zlibCompressingToChunks]
      simp only [if_pos hpos, List.drop_zero, ih]
      rfl
  simp only [compressingAllInChunks, compressingChunks, this]
  rfl

/-- Compressing without compression, or with another kind than ZLIB, fails (see C36). -/
theorem chunks_kind (c : Codec) (size : Nat) (src : Bytes) :
    compressingAllInChunks c .none size src = .err .other ∧ compressingAllInChunks c .other size src = .err .other ∧
    decompressChunks c .none src = .err .other ∧ decompressChunks c .other src = .err .other :=
  ⟨rfl, rfl, rfl, rfl⟩

/-! Two texts in chunks of three bytes. -/
example : ∃ dsts, [[7#8, 7#8, 7#8, 1#8], []].mapM (compressingAllInChunks runCodec .zlib 3) = .ok dsts ∧
    decompressChunks runCodec .zlib dsts.flatten = .ok [7#8, 7#8, 7#8, 1#8] :=
  chunks_concat runCodec runCodec_lossless 3 (by decide) (by decide) [[7#8, 7#8, 7#8, 1#8], []]
example : ∃ cs, compressingAllInChunks runCodec .zlib 3 [7#8, 7#8, 7#8, 1#8] = .ok (chunkBytes cs) ∧ chunkPlain cs = [7#8, 7#8, 7#8, 1#8] ∧
    ∀ ch ∈ cs, ch.Good runCodec 3 ∧ ch.Minimal runCodec :=
  chunks_fit runCodec runCodec_lossless 3 (by decide) (by decide) _ (by simp)
example : ∃ dst, compressingAllInChunks growCodec .zlib 262144 [7#8, 1#8] = .ok dst ∧ decompressChunks growCodec .zlib dst = .ok [7#8, 1#8] :=
  chunks_roundtrip growCodec growCodec_lossless 262144 (by decide) (by decide) _
example : compressingAllInChunks runCodec .zlib 0 [1#8] = .hang := chunks_zero_size runCodec _ (by simp)

end Goorc
