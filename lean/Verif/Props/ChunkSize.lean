import Verif.Props.Chunk
/-
C115: how much larger compression in chunks can make its input.
-/
namespace Goorc

theorem chunkPlain_length {size : Nat} {cs : List ChunkSpec} (h : ∀ ch ∈ cs, ch.plain.length = size) :
    (chunkPlain cs).length = cs.length * size := by
  induction cs with
  | nil => simp [chunkPlain]
  | cons ch cs ih =>
    have h1 := h ch (by simp)
    have h2 := ih fun c hc => h c (by simp [hc])
    simp only [chunkPlain, List.flatMap_cons, List.length_append, List.length_cons, Nat.add_mul, Nat.one_mul] at h2 ⊢
    omega

theorem chunkBytes_le {cs : List ChunkSpec} (h : ∀ ch ∈ cs, ch.stored.length ≤ ch.plain.length) :
    (chunkBytes cs).length ≤ (chunkPlain cs).length + 3 * cs.length := by
  induction cs with
  | nil => simp [chunkBytes, chunkPlain]
  | cons ch cs ih =>
    have h1 := h ch (by simp)
    have h2 := ih fun c hc => h c (by simp [hc])
    simp only [chunkPlain, chunkBytes, List.flatMap_cons, List.length_append, List.length_cons, ChunkSpec.bytes, threeBytes, List.length_nil] at h2 ⊢
    omega

theorem chunkBytes_eq {cs : List ChunkSpec} (h : ∀ ch ∈ cs, ch.stored.length = ch.plain.length) :
    (chunkBytes cs).length = (chunkPlain cs).length + 3 * cs.length := by
  induction cs with
  | nil => simp [chunkBytes, chunkPlain]
  | cons ch cs ih =>
    have h1 := h ch (by simp)
    have h2 := ih fun c hc => h c (by simp [hc])
    simp only [chunkPlain, chunkBytes, List.flatMap_cons, List.length_append, List.length_cons, ChunkSpec.bytes, threeBytes, List.length_nil] at h2 ⊢
    omega

theorem Minimal_le {c : Codec} {ch : ChunkSpec} (h : ch.Minimal c) : ch.stored.length ≤ ch.plain.length := by
  obtain ⟨k, h1, h2⟩ := h
  cases ho : ch.original
  · rw [ho] at h1 h2
    simp only [Bool.false_eq_true, if_false, false_iff] at h1 h2
    rw [h1]; omega
  · rw [ho] at h1
    simp only [if_true] at h1
    rw [h1]; exact Nat.le_refl _

/-- **C115** Bytes are written in as few chunks as the chunk size allows (one if there are none), whatever the compressor
does. -/
theorem chunks_count (c : Codec) (size : Nat) (h1 : 1 ≤ size) (src : Bytes) :
    ∃ cs, compressingAllInChunks c .zlib size src = .ok (chunkBytes cs) ∧ chunkPlain cs = src ∧ (∀ ch ∈ cs, ch.Minimal c) ∧
      cs.length = (src.length - 1) / size + 1 := by
  obtain ⟨cs, rest, g1, g2, g3, g4, g5, g6⟩ := zlibToChunks_spec c size h1 src.length 0 src (by omega)
  have hm := chunkOf_minimal c 0 rest
  refine ⟨cs ++ [chunkOf c 0 rest.length rest], ?_, ?_, ?_, ?_⟩
  · simp only [compressingAllInChunks, compressingChunks, g1, Res.ok_bind, compressingLeft, zlibCompressingLeft,
      if_neg (show ¬ rest.length > size by omega), Res.pure_eq, encChunk_eq]
    simp [chunkBytes]
  · simp only [chunkPlain, List.flatMap_append, List.flatMap_cons, List.flatMap_nil, List.append_nil, hm.2]
    exact g2
  · intro ch hch
    rcases List.mem_append.mp hch with hch | hch
    · exact (g5 ch hch).2
    · rw [List.mem_singleton] at hch; subst hch
      exact hm.1
  · have hl := chunkPlain_length fun ch hch => (g5 ch hch).1
    have hs : src.length = cs.length * size + rest.length := by rw [← g2, List.length_append, hl]
    simp only [List.length_append, List.length_cons, List.length_nil, Nat.zero_add, Nat.add_right_cancel_iff]
    by_cases hne : src = []
    · subst hne
      simp only [List.length_nil] at hs ⊢
      have : cs.length * size = 0 := by omega
      rcases Nat.mul_eq_zero.mp this with h | h
      · rw [h]; simp
      · omega
    · have hr := List.length_pos_iff.mpr (g4 hne)
      rw [hs, show cs.length * size + rest.length - 1 = (rest.length - 1) + size * cs.length by rw [Nat.mul_comm]; omega,
        Nat.add_mul_div_left _ _ (by omega), Nat.div_eq_of_lt (by omega), Nat.zero_add]

/-- **C115** For every compressor, however badly it does, compression in chunks adds at most three bytes for every chunk
size of the input (begun or full). -/
theorem chunks_overhead (c : Codec) (size : Nat) (h1 : 1 ≤ size) (src : Bytes) :
    ∃ dst, compressingAllInChunks c .zlib size src = .ok dst ∧ dst.length ≤ src.length + 3 * ((src.length - 1) / size + 1) := by
  obtain ⟨cs, g1, g2, g3, g4⟩ := chunks_count c size h1 src
  refine ⟨_, g1, ?_⟩
  have := chunkBytes_le fun ch hch => Minimal_le (g3 ch hch)
  rw [g2, g4] at this
  exact this

/-- **C115** No smaller bound holds: a compressor whose output is always longer than its input gets exactly these. -/
theorem chunks_overhead_sharp (c : Codec) (hg : ∀ k x, x.length < (c.comp k x).length) (size : Nat) (h1 : 1 ≤ size) (src : Bytes) :
    ∃ dst, compressingAllInChunks c .zlib size src = .ok dst ∧ dst.length = src.length + 3 * ((src.length - 1) / size + 1) := by
  obtain ⟨cs, g1, g2, g3, g4⟩ := chunks_count c size h1 src
  refine ⟨_, g1, ?_⟩
  have := chunkBytes_eq (cs := cs) fun ch hch => by
    obtain ⟨k, h2, h3⟩ := g3 ch hch
    rw [h3.mpr (hg k _)] at h2
    simp only [if_true] at h2
    rw [h2]
  rw [g2, g4] at this
  exact this

/-- Seven bytes in chunks of three by a compressor that never helps. -/
example : ∃ dst, compressingAllInChunks growCodec .zlib 3 [1#8, 2#8, 3#8, 4#8, 5#8, 6#8, 7#8] = .ok dst ∧ dst.length = 7 + 3 * 3 :=
  chunks_overhead_sharp growCodec (fun _ x => by simp [growCodec]) 3 (by decide) _

example : ∃ dst, compressingAllInChunks runCodec .zlib 3 [7#8, 7#8, 7#8, 1#8] = .ok dst ∧ dst.length ≤ 4 + 3 * 2 :=
  chunks_overhead runCodec 3 (by decide) _

end Goorc
