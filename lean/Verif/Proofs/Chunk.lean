import Verif.Spec.Chunks
namespace Goorc

theorem encChunkHeader_eq (l : Nat) (orig : Bool) : encChunkHeader l orig = threeBytes (2 * l + orig.toNat) := by
  have hor : ∀ b : Byte, b.toNat % 2 = 0 → 0x01#8 ||| b = b + 1#8 := by decide +kernel
  have h1 : BitVec.ofNat 8 (l >>> 7) = BitVec.ofNat 8 ((2 * l + orig.toNat) / 256) := by
    apply BitVec.eq_of_toNat_eq
    simp only [BitVec.toNat_ofNat, Nat.shiftRight_eq_div_pow]
    cases orig <;> simp <;> omega
  have h2 : BitVec.ofNat 8 (l >>> 15) = BitVec.ofNat 8 ((2 * l + orig.toNat) / 65536) := by
    apply BitVec.eq_of_toNat_eq
    simp only [BitVec.toNat_ofNat, Nat.shiftRight_eq_div_pow]
    cases orig <;> simp <;> omega
  simp only [encChunkHeader, threeBytes, h1, h2]
  congr 1
  cases orig
  · simp [Nat.shiftLeft_eq, Nat.mul_comm]
  · simp only [if_true]
    rw [hor _ (by simp only [BitVec.toNat_ofNat, Nat.shiftLeft_eq]; omega)]
    apply BitVec.eq_of_toNat_eq
    simp only [BitVec.toNat_add, BitVec.toNat_ofNat, Nat.shiftLeft_eq, Bool.toNat_true]
    omega

theorem decChunkHeader_eq (n : Nat) :
    decChunkHeader (BitVec.ofNat 8 n) (BitVec.ofNat 8 (n / 256)) (BitVec.ofNat 8 (n / 65536)) = (n % 2 ^ 24 / 2, n % 2 == 1) := by
  have hlow : ∀ b : Byte, (b &&& 0x01#8 == 0x01#8) = (b.toNat % 2 == 1) := by decide +kernel
  simp only [decChunkHeader, hlow, BitVec.toNat_ofNat]
  congr 1
  · have h1 : n / 256 % 2 ^ 8 * 2 ^ 7 < 2 ^ 15 := by omega
    have h0 : n % 2 ^ 8 / 2 < 2 ^ 7 := by omega
    have e1 : (n / 65536 % 2 ^ 8) <<< 15 ||| (n / 256 % 2 ^ 8) <<< 7 = (n / 65536 % 2 ^ 8) <<< 15 + (n / 256 % 2 ^ 8) <<< 7 :=
      (Nat.shiftLeft_add_eq_or_of_lt (by rw [Nat.shiftLeft_eq]; exact h1) _).symm
    have e2 : (n / 65536 % 2 ^ 8) <<< 15 + (n / 256 % 2 ^ 8) <<< 7 = ((n / 65536 % 2 ^ 8) * 256 + n / 256 % 2 ^ 8) <<< 7 := by
      simp only [Nat.shiftLeft_eq]; omega
    rw [e1, e2, Nat.shiftRight_eq_div_pow, ← Nat.shiftLeft_add_eq_or_of_lt (by simpa using h0), Nat.shiftLeft_eq]
    omega
  · congr 1; omega

theorem decChunkHeader_spec (l : Nat) (orig : Bool) (hl : l < 2 ^ 23) :
    decChunkHeader (BitVec.ofNat 8 (2 * l + orig.toNat)) (BitVec.ofNat 8 ((2 * l + orig.toNat) / 256))
      (BitVec.ofNat 8 ((2 * l + orig.toNat) / 65536)) = (l, orig) := by
  rw [decChunkHeader_eq]
  cases orig
  · simp; omega
  · simp only [Bool.toNat_true, Prod.mk.injEq]
    refine ⟨by omega, ?_⟩
    rw [show (2 * l + 1) % 2 = 1 by omega]; rfl

/-- What `encChunk` writes, as a chunk. -/
def chunkOf (c : Codec) (k limit : Nat) (data : Bytes) : ChunkSpec :=
  if (c.comp k data).length > limit then ⟨true, data, data⟩ else ⟨false, c.comp k data, data⟩

theorem encChunk_eq (c : Codec) (k limit : Nat) (data : Bytes) : encChunk c k limit data = (chunkOf c k limit data).bytes := by
  simp only [encChunk, chunkOf, ChunkSpec.bytes]
  split <;> simp [encChunkHeader_eq]

theorem chunkOf_minimal (c : Codec) (k : Nat) (data : Bytes) : (chunkOf c k data.length data).Minimal c ∧
    (chunkOf c k data.length data).plain = data := by
  simp only [chunkOf]
  split
  · rename_i h
    exact ⟨⟨k, rfl, fun _ => h, fun _ => rfl⟩, rfl⟩
  · rename_i h
    exact ⟨⟨k, rfl, fun h' => by simp at h', fun h' => absurd h' h⟩, rfl⟩

theorem chunkOf_good (c : Codec) (hc : c.Lossless) (size : Nat) (hs : size < 2 ^ 23) (k : Nat) (data : Bytes) (hd : data.length ≤ size)
    (hne : data ≠ []) : (chunkOf c k data.length data).Good c size := by
  simp only [chunkOf]
  split
  · exact ⟨hd, by simp only; omega, hd, hne, rfl⟩
  · rename_i h
    simp only [Nat.not_lt, gt_iff_lt] at h
    exact ⟨by simp only; omega, by simp only; omega, hd, hne, hc k data⟩

/-- The loop of `CompressingChunks`: whole chunks, at most a chunk remains. -/
theorem zlibToChunks_spec (c : Codec) (size : Nat) (h1 : 1 ≤ size) (fuel k : Nat) (src : Bytes) (hf : src.length ≤ fuel) :
    ∃ cs rest, zlibCompressingToChunks c size fuel k src = .ok (chunkBytes cs, rest) ∧ chunkPlain cs ++ rest = src ∧
      rest.length ≤ size ∧ (src ≠ [] → rest ≠ []) ∧ (∀ ch ∈ cs, ch.plain.length = size ∧ ch.Minimal c) ∧
      (c.Lossless → size < 2 ^ 23 → ∀ ch ∈ cs, ch.Good c size) := by
  induction fuel generalizing k src with
  | zero =>
    have : src = [] := List.length_eq_zero_iff.mp (by omega)
    subst this
    refine ⟨[], [], ?_, rfl, by simp, fun h => h, by simp, by simp⟩
    simp [zlibCompressingToChunks, chunkBytes]
  | succ fuel ih =>
    by_cases h : src.length > size
    · obtain ⟨cs, rest, g1, g2, g3, g4, g5, g6⟩ := ih (k + 1) (src.drop size) (by rw [List.length_drop]; omega)
      have hlen : (src.take size).length = size := by rw [List.length_take]; omega
      have hm := chunkOf_minimal c k (src.take size)
      refine ⟨chunkOf c k size (src.take size) :: cs, rest, ?_, ?_, g3, ?_, ?_, ?_⟩
      · rw [zlibCompressingToChunks]
        simp only [if_pos h, g1, Res.ok_bind, Res.pure_eq, encChunk_eq]
        rfl
      · rw [hlen] at hm
        simp only [chunkPlain, List.flatMap_cons, List.append_assoc, hm.2] at g2 ⊢
        rw [g2, List.take_append_drop]
      · intro _
        apply g4
        intro hnil
        have := congrArg List.length hnil
        rw [List.length_drop] at this
        simp at this; omega
      · intro ch hch
        rcases List.mem_cons.mp hch with rfl | hch
        · rw [hlen] at hm
          exact ⟨by rw [hm.2, hlen], hm.1⟩
        · exact g5 ch hch
      · intro hl hs ch hch
        rcases List.mem_cons.mp hch with rfl | hch
        · have := chunkOf_good c hl size hs k (src.take size) (by omega) (by
            intro hnil; rw [hnil] at hlen; simp at hlen; omega)
          rwa [hlen] at this
        · exact g6 hl hs ch hch
    · refine ⟨[], src, ?_, rfl, by omega, fun h => h, by simp, by simp⟩
      rw [zlibCompressingToChunks]
      simp only [if_neg h]
      rfl

/-- The first chunk is as large as it can be. -/
def HeadBig (size : Nat) (cs : List ChunkSpec) : Prop := min size (chunkPlain cs).length ≤ (chunkPlain (cs.take 1)).length

theorem HeadBig.append {size : Nat} {a b : List ChunkSpec} (ha : ∀ ch ∈ a, ch.plain.length = size) (hb : HeadBig size b) :
    HeadBig size (a ++ b) := by
  cases a with
  | nil => exact hb
  | cons ch a =>
    have := ha ch (by simp)
    simp only [HeadBig, List.cons_append, List.take_succ_cons, List.take_zero]
    simp only [chunkPlain, List.flatMap_cons, List.flatMap_nil, List.append_nil]
    omega

theorem HeadBig.single (size : Nat) (ch : ChunkSpec) : HeadBig size [ch] := by
  simp only [HeadBig, List.take_succ_cons, List.take_zero]; omega

/-- `CompressingAllInChunks` of anything writes good chunks (the last may be empty if there is nothing to write). -/
theorem compressAll_spec (c : Codec) (size : Nat) (h1 : 1 ≤ size) (src : Bytes) :
    ∃ cs, compressingAllInChunks c .zlib size src = .ok (chunkBytes cs) ∧ chunkPlain cs = src ∧
      (∀ ch ∈ cs, ch.plain.length ≤ size ∧ ch.Minimal c) ∧
      (c.Lossless → size < 2 ^ 23 → src ≠ [] → ∀ ch ∈ cs, ch.Good c size) ∧ (src = [] → cs.length = 1) ∧
      HeadBig size cs := by
  obtain ⟨cs, rest, g1, g2, g3, g4, g5, g6⟩ := zlibToChunks_spec c size h1 src.length 0 src (by omega)
  have hm := chunkOf_minimal c 0 rest
  refine ⟨cs ++ [chunkOf c 0 rest.length rest], ?_, ?_, ?_, ?_, ?_, HeadBig.append (fun ch hch => (g5 ch hch).1) (HeadBig.single _ _)⟩
  · simp only [compressingAllInChunks, compressingChunks, g1, Res.ok_bind, compressingLeft, zlibCompressingLeft,
      if_neg (show ¬ rest.length > size by omega), Res.pure_eq, encChunk_eq]
    simp [chunkBytes]
  · simp only [chunkPlain, List.flatMap_append, List.flatMap_cons, List.flatMap_nil, List.append_nil, hm.2]
    exact g2
  · intro ch hch
    rcases List.mem_append.mp hch with hch | hch
    · exact ⟨by rw [(g5 ch hch).1]; omega, (g5 ch hch).2⟩
    · rw [List.mem_singleton] at hch; subst hch
      exact ⟨by rw [hm.2]; omega, hm.1⟩
  · intro hl hs hne ch hch
    rcases List.mem_append.mp hch with hch | hch
    · exact g6 hl hs ch hch
    · rw [List.mem_singleton] at hch; subst hch
      exact chunkOf_good c hl size hs 0 rest g3 (g4 hne)
  · rintro rfl
    have hcs : cs = [] := by
      have hnil : ∀ ch ∈ cs, False := by
        intro ch hch
        have hle : ch.plain.length ≤ (chunkPlain cs).length := by
          have := List.append_of_mem hch
          obtain ⟨a, b, rfl⟩ := this
          simp [chunkPlain]; omega
        rw [(g5 ch hch).1] at hle
        have := congrArg List.length g2
        rw [List.length_append, List.length_nil] at this
        omega
      exact List.eq_nil_iff_forall_not_mem.mpr fun ch hch => hnil ch hch
    simp [hcs]

/-- One chunk is read back. -/
theorem decompressChunks_cons (c : Codec) (fuel : Nat) (ch : ChunkSpec) (hl : ch.stored.length < 2 ^ 23)
    (hd : if ch.original then ch.stored = ch.plain else c.decomp ch.stored = some ch.plain) (s : Bytes) :
    decompressChunksLoop c (fuel + 1) (ch.bytes ++ s) = (do
      let rest ← decompressChunksLoop c fuel s
      pure (ch.plain ++ rest)) := by
  simp only [ChunkSpec.bytes, threeBytes, List.cons_append, List.nil_append, decompressChunksLoop, List.take_succ_cons, List.take_zero,
    List.drop_succ_cons, List.drop_zero, List.getD_cons_zero, List.getD_cons_succ, decChunkHeader_spec _ _ hl]
  rw [if_neg (by simp), List.take_left, List.drop_left]
  cases ho : ch.original
  · rw [ho] at hd
    simp only [Bool.false_eq_true, if_false] at hd ⊢
    simp only [decompress, hd, Res.ok_bind]
  · rw [ho] at hd
    simp only [if_true] at hd ⊢
    rw [hd]
    simp only [Res.pure_eq, Res.ok_bind]

theorem decompressChunks_spec (c : Codec) (cs : List ChunkSpec) (h : ∀ ch ∈ cs, ch.stored.length < 2 ^ 23 ∧
      (if ch.original then ch.stored = ch.plain else c.decomp ch.stored = some ch.plain)) (fuel : Nat)
    (hf : (chunkBytes cs).length ≤ fuel) : decompressChunksLoop c fuel (chunkBytes cs) = .ok (chunkPlain cs) := by
  induction cs generalizing fuel with
  | nil => cases fuel <;> rfl
  | cons ch cs ih =>
    have hb : chunkBytes (ch :: cs) = ch.bytes ++ chunkBytes cs := rfl
    have hl : 3 ≤ ch.bytes.length := by simp [ChunkSpec.bytes, threeBytes]
    rw [hb, List.length_append] at hf
    cases fuel with
    | zero => omega
    | succ fuel =>
      rw [hb, decompressChunks_cons c fuel ch (h ch (by simp)).1 (h ch (by simp)).2,
        ih (fun ch hch => h ch (by simp [hch])) fuel (by omega)]
      rfl

end Goorc
