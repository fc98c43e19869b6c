import Verif.Proofs.ReadChunks
import Verif.Props.Chunk
/-
C111: `ReadChunks` on chunks held in memory.
-/
namespace Goorc

/-- A decompressor whose `Read` delivers at most `w` bytes at a time (that of `flate` delivers at most its window,
32 KiB). -/
def readsOf (c : Codec) (w : Nat) : FirstRead := fun stored n => (c.decomp stored).map (·.take (min n w))

/-- A decompressor whose `Read` fills the buffer. -/
def fillsOf (c : Codec) : FirstRead := fun stored n => (c.decomp stored).map (·.take n)

theorem readsOf_legal (c : Codec) (w : Nat) : (readsOf c w).Legal c ∧ (readsOf c w).AtMost w := by
  constructor
  · intro stored plain n h
    refine ⟨plain.take (min n w), by simp [readsOf, h], List.take_prefix _ _, ?_⟩
    simp only [List.length_take]; omega
  · intro stored n b h
    simp only [readsOf, Option.map_eq_some_iff] at h
    obtain ⟨x, _, rfl⟩ := h
    simp only [List.length_take]; omega

theorem fillsOf_full (c : Codec) : (fillsOf c).Legal c ∧ (fillsOf c).Full c := by
  constructor
  · intro stored plain n h
    refine ⟨plain.take n, by simp [fillsOf, h], List.take_prefix _ _, ?_⟩
    simp only [List.length_take]; omega
  · intro stored plain n h hn
    simp [fillsOf, h, List.take_of_length_le hn]

/-- **C111** `ReadChunks` returns for every input. -/
theorem readChunks_returns (i : FirstRead) (kind : CompKind) (size : Nat) (buf spare : Bytes) : readChunks i kind size buf spare ≠ .hang :=
  readChunksLoop_returns i kind size spare _ buf (Nat.le_refl _)

/-- **C111** Exactly what `ReadChunks` returns, for every slice: it succeeds with `out` iff the slice is a sequence of
chunks that fit the buffer (the contents of the last may lie behind the end of the slice, where its array goes on),
and `out` is what is stored in those that are not compressed and what one `Read` delivers of the others. -/
theorem readChunks_exact (i : FirstRead) (kind : CompKind) (size : Nat) (buf spare out : Bytes) :
    readChunks i kind size buf spare = .ok out ↔
      ∃ cs, LieIn cs buf spare ∧ (∀ ch ∈ cs, ch.Takes i kind size) ∧ chunkPlain cs = out := by
  constructor
  · exact readChunksLoop_ok i kind size spare _ buf out
  · rintro ⟨cs, hc, ht, rfl⟩
    exact readChunksLoop_lie i kind size spare cs ht buf hc _ (Nat.le_refl _)

/-- **C111** The same for a slice that ends where its array ends: it has to be the chunks, byte for byte. -/
theorem readChunks_exact_full (i : FirstRead) (kind : CompKind) (size : Nat) (buf out : Bytes) :
    readChunks i kind size buf [] = .ok out ↔
      ∃ cs, buf = chunkBytes cs ∧ (∀ ch ∈ cs, ch.Takes i kind size) ∧ chunkPlain cs = out := by
  rw [readChunks_exact]
  constructor
  · rintro ⟨cs, ⟨h1, h2, _⟩, ht, hp⟩
    rw [List.append_nil] at h1
    exact ⟨cs, (h1.eq_of_length (Nat.le_antisymm h1.length_le h2)).symm, ht, hp⟩
  · rintro ⟨cs, rfl, ht, hp⟩
    refine ⟨cs, ⟨by simp, Nat.le_refl _, ?_⟩, ht, hp⟩
    rintro front ch back rfl
    have := ch.bytes_length
    simp only [chunkBytes, List.flatMap_append, List.flatMap_cons, List.length_append]
    omega

/-- What is taken from a sequence of chunks that a legal decompressor can read. -/
private theorem takes_of_good {c : Codec} {i : FirstRead} (hi : i.Legal c) {size : Nat} {ch : ChunkSpec} (hg : ch.Good c size) :
    ∃ b, b <+: ch.plain ∧ (ch.original = true → b = ch.plain) ∧ (ch.original = false → i ch.stored size = some b) ∧
      (b ≠ [] → ({ch with plain := b} : ChunkSpec).Takes i .zlib size) := by
  obtain ⟨h1, h2, h3, h4, h5⟩ := hg
  cases ho : ch.original
  · rw [ho] at h5
    simp only [Bool.false_eq_true, if_false] at h5
    obtain ⟨b, hb, hp, _⟩ := hi ch.stored ch.plain size h5
    refine ⟨b, hp, by simp, fun _ => hb, fun hne => ⟨h2, h1, ?_⟩⟩
    simp only [Bool.false_eq_true, if_false]
    exact ⟨trivial, hb, hne⟩
  · rw [ho] at h5
    simp only [if_true] at h5
    refine ⟨ch.plain, List.prefix_refl _, fun _ => rfl, by simp, fun _ => ⟨h2, h1, ?_⟩⟩
    simp only [if_true]
    exact h5.symm

/-- **C111** `ReadChunks` gives back what chunks stand for iff one `Read` delivers everything of each compressed chunk:
for every decompressor that keeps the promises of `io.Reader` and every sequence of chunks that fit the buffer. -/
theorem readChunks_complete_iff (c : Codec) (i : FirstRead) (hi : i.Legal c) (size : Nat) (cs : List ChunkSpec)
    (hg : ∀ ch ∈ cs, ch.Good c size) (spare : Bytes) :
    readChunks i .zlib size (chunkBytes cs) spare = .ok (chunkPlain cs) ↔
      ∀ ch ∈ cs, ch.original = false → i ch.stored size = some ch.plain := by
  constructor
  · intro h
    suffices H : ∀ (cs : List ChunkSpec) (fuel : Nat) (out : Bytes), (∀ ch ∈ cs, ch.Good c size) → (chunkBytes cs).length ≤ fuel →
        readChunksLoop i .zlib size spare fuel (chunkBytes cs) = .ok out →
          out.length ≤ (chunkPlain cs).length ∧ ((chunkPlain cs).length ≤ out.length →
            ∀ ch ∈ cs, ch.original = false → i ch.stored size = some ch.plain) from
      (H cs _ _ hg (Nat.le_refl _) h).2 (Nat.le_refl _)
    intro cs
    induction cs with
    | nil =>
      intro fuel out _ _ h
      cases fuel <;> simp [chunkBytes, readChunksLoop] at h <;> subst h <;> simp [chunkPlain]
    | cons ch cs ih =>
      intro fuel out hg hf h
      obtain ⟨b, hp, ho, hn, ht⟩ := takes_of_good hi (hg ch (by simp))
      have hbl := ch.bytes_length
      rw [chunkBytes_cons] at h hf
      rw [List.length_append] at hf
      cases fuel with
      | zero => omega
      | succ fuel =>
        by_cases hb : b = []
        · exfalso
          have hof : ch.original = false := by
            cases hof : ch.original
            · rfl
            · exact absurd ((ho hof).symm.trans hb) (hg ch (by simp)).2.2.2.1
          have hin := hn hof
          subst hb
          have hg1 := hg ch (by simp)
          simp only [ChunkSpec.bytes, threeBytes, List.cons_append, List.nil_append, readChunksLoop, decChunkHeader_spec _ _ hg1.2.1,
            readPiece, hof, Bool.false_eq_true, if_false, readCompressed, sliceUpTo_left, Res.ok_bind, hin] at h
          split at h <;> simp [bind, Res.bind] at h
        · have hst := readChunks_step i .zlib size spare fuel {ch with plain := b} (ht hb) (ch.stored ++ chunkBytes cs)
            ⟨chunkBytes cs ++ spare, by simp⟩
          rw [ChunkSpec.bytes, List.append_assoc] at h
          simp only [List.drop_left] at hst
          rw [hst] at h
          obtain ⟨more, hm, h⟩ := Res.bind_eq_ok.mp h
          simp only [Res.pure_eq, Res.ok.injEq] at h
          obtain ⟨k1, k2⟩ := ih fuel more (fun c hc => hg c (by simp [hc])) (by omega) hm
          have hpl := hp.length_le
          have hcp : (chunkPlain (ch :: cs)).length = ch.plain.length + (chunkPlain cs).length := by
            simp [chunkPlain]
          have hol : out.length = b.length + more.length := by rw [← h]; simp
          refine ⟨by omega, fun hle x hx hxo => ?_⟩
          rcases List.mem_cons.mp hx with rfl | hx
          · rw [hn hxo, hp.eq_of_length (by omega)]
          · exact k2 (by omega) x hx hxo
  · intro h
    have ht : ∀ ch ∈ cs, ch.Takes i .zlib size := by
      intro ch hch
      obtain ⟨h1, h2, h3, h4, h5⟩ := hg ch hch
      refine ⟨h2, h1, ?_⟩
      cases ho : ch.original
      · simp only [Bool.false_eq_true, if_false]
        exact ⟨trivial, h ch hch ho, h4⟩
      · rw [ho] at h5
        simp only [if_true] at h5 ⊢
        exact h5.symm
    obtain ⟨f, _, he⟩ := readChunks_append i .zlib size spare cs ht [] _ (Nat.le_refl _)
    rw [List.append_nil] at he
    rw [readChunks, he]
    cases f <;> simp [readChunksLoop, Res.ok_bind]

/-- **C111** With a decompressor that fills the buffer, `ReadChunks` undoes the compression in chunks of everything that
is not empty. -/
theorem readChunks_roundtrip (c : Codec) (hc : c.Lossless) (i : FirstRead) (hi : i.Legal c) (hf : i.Full c) (size : Nat) (h1 : 1 ≤ size)
    (h2 : size < 2 ^ 23) (src : Bytes) (hne : src ≠ []) (spare : Bytes) :
    ∃ w, compressingAllInChunks c .zlib size src = .ok w ∧ readChunks i .zlib size w spare = .ok src := by
  obtain ⟨cs, g1, g2, _, g4, _⟩ := compressAll_spec c size h1 src
  have hg := g4 hc h2 hne
  refine ⟨_, g1, ?_⟩
  rw [← g2]
  refine (readChunks_complete_iff c i hi size cs hg spare).mpr fun ch hch ho => ?_
  obtain ⟨_, _, k3, _, k5⟩ := hg ch hch
  rw [ho] at k5
  simp only [Bool.false_eq_true, if_false] at k5
  exact hf _ _ _ k5 k3

/-- A run of nine bytes in chunks of four, and behind the slice a byte that is not part of it. -/
example : ∃ w, compressingAllInChunks runCodec .zlib 4 (List.replicate 9 7#8) = .ok w ∧
    readChunks (fillsOf runCodec) .zlib 4 w [0xff#8] = .ok (List.replicate 9 7#8) :=
  readChunks_roundtrip runCodec runCodec_lossless _ (fillsOf_full _).1 (fillsOf_full _).2 4 (by decide) (by decide) _ (by decide) _

/-- **C111** With a decompressor that delivers at most `w` bytes at a time, every compressed chunk that stands for more
is cut, and `ReadChunks` does not give back what was compressed. -/
theorem readChunks_cuts (c : Codec) (i : FirstRead) (hi : i.Legal c) (w : Nat) (hw : i.AtMost w) (size : Nat) (cs : List ChunkSpec)
    (hg : ∀ ch ∈ cs, ch.Good c size) (ch : ChunkSpec) (hch : ch ∈ cs) (ho : ch.original = false) (hl : w < ch.plain.length) (spare : Bytes) :
    readChunks i .zlib size (chunkBytes cs) spare ≠ .ok (chunkPlain cs) := by
  intro h
  have := hw _ _ _ ((readChunks_complete_iff c i hi size cs hg spare).mp h ch hch ho)
  omega

/-- **C111 refuted** A lossless compressor and a decompressor that keeps the promises of `io.Reader`, for which
`ReadChunks` reports no error and returns two of the four bytes that were compressed. -/
theorem readChunks_loses : ∃ (c : Codec) (i : FirstRead) (size : Nat) (src out w : Bytes), c.Lossless ∧ i.Legal c ∧
    compressingAllInChunks c .zlib size src = .ok w ∧ readChunks i .zlib size w [] = .ok out ∧ out ≠ src :=
  ⟨runCodec, readsOf runCodec 2, 8, List.replicate 4 7#8, List.replicate 2 7#8, [4#8, 0#8, 0#8, 7#8, 4#8], runCodec_lossless,
    (readsOf_legal _ _).1, by decide +kernel, by decide +kernel, by decide⟩

/-- The hypotheses of `readChunks_cuts` are met by these chunks. -/
example : readChunks (readsOf runCodec 2) .zlib 8 (chunkBytes [⟨true, [1#8], [1#8]⟩, ⟨false, [7#8, 4#8], List.replicate 4 7#8⟩]) [] ≠
    .ok [1#8, 7#8, 7#8, 7#8, 7#8] :=
  readChunks_cuts runCodec _ (readsOf_legal _ 2).1 2 (readsOf_legal _ 2).2 8 _
    (by intro ch hch
        simp only [List.mem_cons, List.not_mem_nil, or_false] at hch
        rcases hch with rfl | rfl <;> (refine ⟨?_, ?_, ?_, ?_, ?_⟩ <;> decide +kernel))
    ⟨false, [7#8, 4#8], List.replicate 4 7#8⟩ (by simp) rfl (by decide) []

/-- **C111** A slice that is cut inside a chunk makes `ReadChunks` panic, if the array ends there as well. -/
theorem readChunks_cut (i : FirstRead) (kind : CompKind) (size : Nat) (cs : List ChunkSpec) (ht : ∀ ch ∈ cs, ch.Takes i kind size)
    (ch : ChunkSpec) (hc : ch.Takes i kind size) (tail : Bytes) (hp : tail <+: ch.bytes) (hne : tail ≠ []) (hs : tail ≠ ch.bytes) :
    readChunks i kind size (chunkBytes cs ++ tail) [] = .panic := by
  obtain ⟨f, hf, he⟩ := readChunks_append i kind size [] cs ht tail _ (Nat.le_refl _)
  rw [readChunks, he]
  suffices H : readChunksLoop i kind size [] f tail = .panic by rw [H]; rfl
  have hlt : tail.length < ch.bytes.length := by
    have := hp.length_le
    rcases Nat.lt_or_eq_of_le this with h | h
    · exact h
    · exact absurd (hp.eq_of_length h) hs
  rw [ch.bytes_length] at hlt
  obtain ⟨h1, h2, h3⟩ := hc
  cases f with
  | zero =>
    cases tail with
    | nil => exact absurd rfl hne
    | cons => simp at hf
  | succ f =>
    match tail, hne, hlt, hp with
    | [_], _, _, _ => rfl
    | [_, _], _, _, _ => rfl
    | a :: b :: c :: rest, _, hlt, hp =>
      simp only [ChunkSpec.bytes, threeBytes, List.cons_append, List.nil_append, List.cons_prefix_cons] at hp
      obtain ⟨rfl, rfl, rfl, hp⟩ := hp
      simp only [List.length_cons] at hlt
      have hsl : sliceUpTo rest [] ch.stored.length = .panic := by
        simp only [sliceUpTo, List.append_nil]; rw [if_pos (by omega)]
      simp only [readChunksLoop, decChunkHeader_spec _ _ h1, if_neg (show ¬ ch.stored.length > size by omega), readPiece, hsl]
      cases ho : ch.original
      · rw [ho] at h3
        simp only [Bool.false_eq_true, if_false] at h3 ⊢
        rw [h3.1]
        simp only [readCompressed, hsl]
        rfl
      · rfl

example : readChunks (fillsOf runCodec) .zlib 8 (chunkBytes [⟨true, [1#8], [1#8]⟩] ++ [4#8, 0#8, 0#8, 7#8]) [] = .panic :=
  readChunks_cut _ _ _ _ (by intro ch hch; rw [List.mem_singleton] at hch; subst hch; refine ⟨?_, ?_, ?_⟩ <;> decide +kernel)
    ⟨false, [7#8, 4#8], List.replicate 4 7#8⟩ (by refine ⟨?_, ?_, ?_⟩ <;> decide +kernel) _ ⟨[4#8], by decide +kernel⟩ (by decide) (by decide +kernel)

/-- **C111 refuted** If the array goes on behind the slice, a slice that is cut inside a chunk is completed with bytes
that are not part of it: no error, and bytes the caller did not pass are returned. -/
theorem readChunks_beyond : readChunks (fillsOf runCodec) .zlib 8 [0x05#8, 0#8, 0#8, 1#8] [9#8, 8#8] = .ok [1#8, 9#8] := by
  decide +kernel

/-- **C111** What `ReadChunks` reports as an error: a chunk longer than the buffer, a compressed chunk of another
compression, one the decompressor rejects, and one of which the first `Read` delivers nothing. -/
theorem readChunks_refuses (i : FirstRead) (kind : CompKind) (size : Nat) (cs : List ChunkSpec) (ht : ∀ ch ∈ cs, ch.Takes i kind size)
    (ch : ChunkSpec) (hl : ch.stored.length < 2 ^ 23)
    (hr : size < ch.stored.length ∨ (ch.original = false ∧ (kind ≠ .zlib ∨ i ch.stored size = none ∨ i ch.stored size = some [])))
    (more spare : Bytes) : readChunks i kind size (chunkBytes cs ++ (ch.bytes ++ more)) spare = .err .other := by
  obtain ⟨f, hf, he⟩ := readChunks_append i kind size spare cs ht (ch.bytes ++ more) _ (Nat.le_refl _)
  rw [readChunks, he]
  suffices H : readChunksLoop i kind size spare f (ch.bytes ++ more) = .err .other by rw [H]; rfl
  have hbl := ch.bytes_length
  rw [List.length_append] at hf
  cases f with
  | zero => omega
  | succ f =>
    simp only [ChunkSpec.bytes, threeBytes, List.cons_append, List.nil_append, readChunksLoop, decChunkHeader_spec _ _ hl]
    by_cases hsz : ch.stored.length > size
    · rw [if_pos hsz]
    · rw [if_neg hsz]
      rcases hr with h | ⟨ho, h⟩
      · omega
      · simp only [readPiece, ho, Bool.false_eq_true, if_false]
        cases kind
        · rfl
        · simp only [readCompressed, sliceUpTo_left, Res.ok_bind]
          rcases h with h | h | h
          · exact absurd rfl h
          · rw [h]; rfl
          · rw [h]; rfl
        · rfl

/-- An empty byte string is stored by this compressor as an empty compressed chunk, which `DecompressChunks` reads and
`ReadChunks` refuses. -/
example : decompressChunks ⟨fun _ x => x, some⟩ .zlib (chunkBytes [⟨false, [], []⟩]) = .ok [] ∧
    readChunks (fillsOf ⟨fun _ x => x, some⟩) .zlib 8 (chunkBytes [] ++ ((⟨false, [], []⟩ : ChunkSpec).bytes ++ [])) [] = .err .other :=
  ⟨by decide +kernel, readChunks_refuses _ _ _ _ (by simp) _ (by decide) (Or.inr ⟨rfl, Or.inr (Or.inr rfl)⟩) _ _⟩

/-- A chunk of three bytes and a buffer of two. -/
example : readChunks (fillsOf runCodec) .zlib 2 (chunkBytes [⟨true, [1#8], [1#8]⟩] ++ ((⟨true, [1#8, 2#8, 3#8], []⟩ : ChunkSpec).bytes ++ [5#8])) [] =
    .err .other :=
  readChunks_refuses _ _ _ _ (by intro ch hch; rw [List.mem_singleton] at hch; subst hch; refine ⟨?_, ?_, ?_⟩ <;> decide +kernel) _
    (by decide) (Or.inl (by decide)) _ _

/-- The exact statement on a slice whose last chunk reaches behind its end. -/
example : ∃ cs, LieIn cs [0x05#8, 0#8, 0#8, 1#8] [9#8, 8#8] ∧ (∀ ch ∈ cs, ch.Takes (fillsOf runCodec) .zlib 8) ∧ chunkPlain cs = [1#8, 9#8] :=
  (readChunks_exact _ _ _ _ _ _).mp readChunks_beyond

/-- Where both return, `ReadChunks` with a decompressor that fills the buffer and `DecompressChunks` agree on chunks
that fit the buffer. -/
theorem readChunks_agrees (c : Codec) (i : FirstRead) (hi : i.Legal c) (hf : i.Full c) (size : Nat) (cs : List ChunkSpec)
    (hg : ∀ ch ∈ cs, ch.Good c size) (spare : Bytes) :
    readChunks i .zlib size (chunkBytes cs) spare = decompressChunks c .zlib (chunkBytes cs) := by
  rw [decompressChunks, decompressChunks_spec c cs (fun ch hch => ⟨(hg ch hch).2.1, (hg ch hch).2.2.2.2⟩) _ (Nat.le_refl _)]
  refine (readChunks_complete_iff c i hi size cs hg spare).mpr fun ch hch ho => ?_
  obtain ⟨_, _, k3, _, k5⟩ := hg ch hch
  rw [ho] at k5
  simp only [Bool.false_eq_true, if_false] at k5
  exact hf _ _ _ k5 k3

end Goorc
