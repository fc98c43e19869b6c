import Verif.Spec.ReadChunks
import Verif.Proofs.Chunk
namespace Goorc

theorem threeBytes_of (h0 h1 h2 : Byte) :
    threeBytes (2 * (decChunkHeader h0 h1 h2).1 + (decChunkHeader h0 h1 h2).2.toNat) = [h0, h1, h2] ∧
      (decChunkHeader h0 h1 h2).1 < 2 ^ 23 := by
  have b0 := h0.isLt
  have b1 := h1.isLt
  have b2 := h2.isLt
  obtain ⟨n, hn⟩ : ∃ n, n = h0.toNat + 256 * h1.toNat + 65536 * h2.toNat := ⟨_, rfl⟩
  have e0 : h0 = BitVec.ofNat 8 n := by apply BitVec.eq_of_toNat_eq; simp only [BitVec.toNat_ofNat]; omega
  have e1 : h1 = BitVec.ofNat 8 (n / 256) := by apply BitVec.eq_of_toNat_eq; simp only [BitVec.toNat_ofNat]; omega
  have e2 : h2 = BitVec.ofNat 8 (n / 65536) := by apply BitVec.eq_of_toNat_eq; simp only [BitVec.toNat_ofNat]; omega
  have hd : decChunkHeader h0 h1 h2 = (n % 2 ^ 24 / 2, n % 2 == 1) := by
    conv => lhs; rw [e0, e1, e2]
    exact decChunkHeader_eq n
  rw [hd]
  have hb : (n % 2 == 1).toNat = n % 2 := by
    rcases Nat.mod_two_eq_zero_or_one n with h | h <;> rw [h] <;> rfl
  refine ⟨?_, by simp only; omega⟩
  simp only [hb]
  rw [show 2 * (n % 2 ^ 24 / 2) + n % 2 = n by omega]
  simp only [threeBytes]
  rw [← e0, ← e1, ← e2]

theorem chunkBytes_cons (ch : ChunkSpec) (cs : List ChunkSpec) : chunkBytes (ch :: cs) = ch.bytes ++ chunkBytes cs := rfl

theorem ChunkSpec.bytes_length (ch : ChunkSpec) : ch.bytes.length = 3 + ch.stored.length := by
  simp [ChunkSpec.bytes, threeBytes]; omega

theorem sliceUpTo_left (a s spare : Bytes) : sliceUpTo (a ++ s) spare a.length = .ok a := by
  simp only [sliceUpTo]
  rw [if_neg (by simp), List.append_assoc, List.take_left]

theorem sliceUpTo_ok {rest spare : Bytes} {l : Nat} {x : Bytes} : sliceUpTo rest spare l = .ok x ↔ l ≤ (rest ++ spare).length ∧
    x = (rest ++ spare).take l := by
  simp only [sliceUpTo]
  split
  · rename_i h
    exact ⟨fun h' => by simp at h', fun h' => by omega⟩
  · rename_i h
    exact ⟨fun h' => ⟨by omega, (Res.ok.inj h').symm⟩, fun h' => by rw [h'.2]⟩

/-- The step of the loop at a chunk whose contents may reach into `spare`. -/
theorem readChunks_step (i : FirstRead) (kind : CompKind) (size : Nat) (spare : Bytes) (fuel : Nat) (ch : ChunkSpec)
    (ht : ch.Takes i kind size) (rest : Bytes) (hp : ch.stored <+: rest ++ spare) :
    readChunksLoop i kind size spare (fuel + 1) (threeBytes (2 * ch.stored.length + ch.original.toNat) ++ rest) = (do
      let more ← readChunksLoop i kind size spare fuel (rest.drop ch.stored.length)
      pure (ch.plain ++ more)) := by
  obtain ⟨h1, h2, h3⟩ := ht
  have hs : sliceUpTo rest spare ch.stored.length = .ok ch.stored :=
    sliceUpTo_ok.mpr ⟨hp.length_le, List.prefix_iff_eq_take.mp hp⟩
  simp only [threeBytes, List.cons_append, List.nil_append, readChunksLoop, readPiece, decChunkHeader_spec _ _ h1]
  rw [if_neg (by omega)]
  cases ho : ch.original
  · rw [ho] at h3
    simp only [Bool.false_eq_true, if_false] at h3 ⊢
    obtain ⟨rfl, h4, h5⟩ := h3
    obtain ⟨b, bs, hb⟩ := List.exists_cons_of_ne_nil h5
    simp only [readCompressed, hs, Res.ok_bind, h4]
    rw [hb]
    rfl
  · rw [ho] at h3
    simp only [if_true] at h3 ⊢
    rw [hs, h3]
    rfl

theorem readChunks_append (i : FirstRead) (kind : CompKind) (size : Nat) (spare : Bytes) (cs : List ChunkSpec)
    (ht : ∀ ch ∈ cs, ch.Takes i kind size) (tail : Bytes) (fuel : Nat) (hf : (chunkBytes cs ++ tail).length ≤ fuel) :
    ∃ fuel', tail.length ≤ fuel' ∧ readChunksLoop i kind size spare fuel (chunkBytes cs ++ tail) = (do
      let more ← readChunksLoop i kind size spare fuel' tail
      pure (chunkPlain cs ++ more)) := by
  induction cs generalizing fuel with
  | nil =>
    refine ⟨fuel, by simpa [chunkBytes] using hf, ?_⟩
    simp only [chunkBytes, chunkPlain, List.flatMap_nil, List.nil_append]
    cases readChunksLoop i kind size spare fuel tail <;> rfl
  | cons ch cs ih =>
    have hl := ch.bytes_length
    rw [chunkBytes_cons, List.append_assoc, List.length_append] at hf
    cases fuel with
    | zero => omega
    | succ fuel =>
      obtain ⟨f', hf', he⟩ := ih (fun c hc => ht c (by simp [hc])) fuel (by omega)
      refine ⟨f', hf', ?_⟩
      rw [chunkBytes_cons, ChunkSpec.bytes, List.append_assoc, List.append_assoc, readChunks_step i kind size spare fuel ch (ht ch (by simp)) _
        ⟨chunkBytes cs ++ tail ++ spare, by simp⟩, List.drop_left, he]
      cases readChunksLoop i kind size spare f' tail <;> simp [chunkPlain, List.append_assoc] <;> rfl

theorem readChunksLoop_returns (i : FirstRead) (kind : CompKind) (size : Nat) (spare : Bytes) (fuel : Nat) (buf : Bytes)
    (hf : buf.length ≤ fuel) : readChunksLoop i kind size spare fuel buf ≠ .hang := by
  induction fuel generalizing buf with
  | zero => cases buf <;> simp [readChunksLoop] at hf ⊢
  | succ fuel ih =>
    match buf, hf with
    | [], _ => simp [readChunksLoop]
    | [_], _ => simp [readChunksLoop]
    | [_, _], _ => simp [readChunksLoop]
    | h0 :: h1 :: h2 :: rest, hf =>
      simp only [readChunksLoop]
      split
      · simp
      · have hr := ih (rest.drop (decChunkHeader h0 h1 h2).1) (by simp at hf ⊢; omega)
        have hsl : sliceUpTo rest spare (decChunkHeader h0 h1 h2).1 ≠ .hang := by
          simp only [sliceUpTo]; split <;> simp
        have hp : readPiece i kind size spare rest (decChunkHeader h0 h1 h2).1 (decChunkHeader h0 h1 h2).2 ≠ .hang := by
          simp only [readPiece]
          split
          · exact hsl
          · simp only [readCompressed]
            split
            · cases hx : sliceUpTo rest spare (decChunkHeader h0 h1 h2).1 with
              | ok x => simp only [Res.ok_bind]; split <;> simp
              | err e => simp [bind, Res.bind]
              | panic => simp [bind, Res.bind]
              | hang => exact absurd hx hsl
            · simp
        generalize readPiece i kind size spare rest (decChunkHeader h0 h1 h2).1 (decChunkHeader h0 h1 h2).2 = p at hp ⊢
        generalize readChunksLoop i kind size spare fuel (rest.drop (decChunkHeader h0 h1 h2).1) = q at hr ⊢
        cases p <;> cases q <;> simp_all [bind, Res.bind, pure]

theorem readChunksLoop_ok (i : FirstRead) (kind : CompKind) (size : Nat) (spare : Bytes) (fuel : Nat) (buf out : Bytes)
    (h : readChunksLoop i kind size spare fuel buf = .ok out) :
    ∃ cs, LieIn cs buf spare ∧ (∀ ch ∈ cs, ch.Takes i kind size) ∧ chunkPlain cs = out := by
  induction fuel generalizing buf out with
  | zero =>
    cases buf with
    | nil =>
      simp only [readChunksLoop, Res.ok.injEq] at h
      exact ⟨[], ⟨by simp [chunkBytes], by simp, by simp⟩, by simp, h⟩
    | cons => simp [readChunksLoop] at h
  | succ fuel ih =>
    match buf, h with
    | [], h =>
      simp only [readChunksLoop, Res.ok.injEq] at h
      exact ⟨[], ⟨by simp [chunkBytes], by simp, by simp⟩, by simp, h⟩
    | [_], h => simp [readChunksLoop] at h
    | [_, _], h => simp [readChunksLoop] at h
    | h0 :: h1 :: h2 :: rest, h =>
      obtain ⟨hb, hlt⟩ := threeBytes_of h0 h1 h2
      simp only [readChunksLoop] at h
      generalize decChunkHeader h0 h1 h2 = d at h hb hlt
      obtain ⟨l, orig⟩ := d
      simp only at h hb hlt
      split at h
      · simp at h
      · rename_i hsz
        obtain ⟨piece, hp, h⟩ := Res.bind_eq_ok.mp h
        obtain ⟨more, hm, h⟩ := Res.bind_eq_ok.mp h
        simp only [Res.pure_eq, Res.ok.injEq] at h
        obtain ⟨cs, ⟨c1, c2, c3⟩, ht, hpl⟩ := ih _ _ hm
        have hpc : ∃ stored, sliceUpTo rest spare l = .ok stored ∧
            (if orig then piece = stored else kind = .zlib ∧ i stored size = some piece ∧ piece ≠ []) := by
          simp only [readPiece] at hp
          cases orig
          · simp only [Bool.false_eq_true, if_false] at hp ⊢
            cases kind <;> simp only [readCompressed] at hp <;> try (exact absurd hp (by simp))
            obtain ⟨stored, hs, hp⟩ := Res.bind_eq_ok.mp hp
            refine ⟨stored, hs, rfl, ?_⟩
            split at hp
            · simp at hp
            · simp at hp
            · rename_i b bs hi
              simp only [Res.ok.injEq] at hp
              subst hp
              exact ⟨hi, by simp⟩
          · exact ⟨piece, hp, rfl⟩
        obtain ⟨stored, hs, hpc⟩ := hpc
        obtain ⟨hl, rfl⟩ := sliceUpTo_ok.mp hs
        have hsl : ((rest ++ spare).take l).length = l := by simp only [List.length_take]; omega
        have hbs : (⟨orig, (rest ++ spare).take l, piece⟩ : ChunkSpec).bytes = h0 :: h1 :: h2 :: (rest ++ spare).take l := by
          simp only [ChunkSpec.bytes, hsl, hb]; rfl
        refine ⟨⟨orig, (rest ++ spare).take l, piece⟩ :: cs, ⟨?_, ?_, ?_⟩, ?_, ?_⟩
        · rw [chunkBytes_cons, hbs]
          simp only [List.cons_append, List.prefix_cons_inj]
          by_cases hr : l ≤ rest.length
          · rw [List.take_append_of_le_length hr]
            conv => rhs; rw [← List.take_append_drop l rest, List.append_assoc]
            exact (List.prefix_append_right_inj _).mpr c1
          · have hcs : cs = [] := by
              cases cs with
              | nil => rfl
              | cons ch cs =>
                have := c3 [] ch cs rfl
                simp [chunkBytes] at this
                omega
            subst hcs
            simp only [chunkBytes, List.flatMap_nil, List.append_nil]
            exact List.take_prefix _ _
        · rw [chunkBytes_cons, hbs]
          simp only [List.length_append, List.length_cons, hsl, List.length_drop] at c2 ⊢
          omega
        · intro front ch back he
          cases front with
          | nil => simp [chunkBytes]
          | cons f front =>
            simp only [List.cons_append, List.cons.injEq] at he
            obtain ⟨rfl, he⟩ := he
            have := c3 front ch back he
            rw [chunkBytes_cons, hbs]
            simp only [List.length_append, List.length_cons, hsl, List.length_drop] at this ⊢
            omega
        · intro ch hch
          rcases List.mem_cons.mp hch with rfl | hch
          · exact ⟨by simp only [hsl]; exact hlt, by simp only [hsl]; omega, hpc⟩
          · exact ht ch hch
        · rw [← h, ← hpl]; rfl

theorem readChunksLoop_lie (i : FirstRead) (kind : CompKind) (size : Nat) (spare : Bytes) (cs : List ChunkSpec)
    (ht : ∀ ch ∈ cs, ch.Takes i kind size) (buf : Bytes) (hc : LieIn cs buf spare) (fuel : Nat) (hf : buf.length ≤ fuel) :
    readChunksLoop i kind size spare fuel buf = .ok (chunkPlain cs) := by
  induction cs generalizing fuel buf with
  | nil =>
    have : buf = [] := by
      have := hc.2.1
      simp [chunkBytes] at this
      exact this
    subst this
    cases fuel <;> rfl
  | cons ch cs ih =>
    obtain ⟨c1, c2, c3⟩ := hc
    have h3 := c3 [] ch cs rfl
    simp only [chunkBytes, List.flatMap_nil, List.length_nil, Nat.zero_add] at h3
    match buf, h3, hf, c1, c2, c3 with
    | a :: b :: c :: rest, _, hf, c1, c2, c3 =>
      cases fuel with
      | zero => simp at hf
      | succ fuel =>
        rw [chunkBytes_cons, ChunkSpec.bytes, List.append_assoc] at c1
        have hth : threeBytes (2 * ch.stored.length + ch.original.toNat) = [a, b, c] := by
          have := c1
          simp only [threeBytes, List.cons_append, List.nil_append, List.prefix_cons_inj, List.cons_prefix_cons] at this ⊢
          obtain ⟨e1, e2, e3, _⟩ := this
          rw [e1, e2, e3]
        rw [hth] at c1
        simp only [List.cons_append, List.nil_append, List.prefix_cons_inj] at c1
        have hst : ch.stored <+: rest ++ spare := (List.prefix_append _ _).trans c1
        have := readChunks_step i kind size spare fuel ch (ht ch (by simp)) rest hst
        rw [hth] at this
        simp only [List.cons_append, List.nil_append] at this
        rw [this, ih (fun c hc => ht c (by simp [hc])) _ ?_ fuel ?_]
        · rfl
        · have hbl := ch.bytes_length
          refine ⟨?_, ?_, ?_⟩
          · by_cases hr : ch.stored.length ≤ rest.length
            · obtain ⟨t, h⟩ := c1
              have hd : (rest ++ spare).drop ch.stored.length = rest.drop ch.stored.length ++ spare :=
                List.drop_append_of_le_length hr
              rw [← hd, ← h, List.append_assoc, List.drop_left]
              exact List.prefix_append _ _
            · cases cs with
              | nil => simp [chunkBytes]
              | cons c' cs =>
                have := c3 [ch] c' cs rfl
                simp [chunkBytes] at this
                omega
          · rw [chunkBytes_cons] at c2
            simp only [List.length_append, List.length_cons, List.length_drop] at c2 ⊢
            omega
          · intro front c' back he
            have := c3 (ch :: front) c' back (by rw [he]; rfl)
            rw [chunkBytes_cons] at this
            simp only [List.length_append, List.length_cons, List.length_drop] at this ⊢
            omega
        · simp only [List.length_cons, List.length_drop] at hf ⊢
          omega

end Goorc
