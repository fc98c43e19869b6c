import Verif.Proofs.IntFormat
/-
C26, C27: the integer decoder on blocks of other writers and on arbitrary bytes.
-/
namespace Goorc

/-! ### C26 -/

/-- **C26** (partial: blocks that are `Handled`) For every well-formed block of the format, in every encoding, the
decoder returns exactly the integers the format assigns to it (as 64-bit numbers) and leaves what follows. -/
theorem rle_format_partial (signed : Bool) (b : RleBlock) (hw : b.WF signed) (hh : b.Handled signed) (s tail : Bytes)
    (hs : bytesBits s = b.bits signed) :
    (if signed then decodeInt true else decodeUInt false).runBuf (s ++ tail) =
      .ok ((b.ints signed).map (BitVec.ofInt 64), tail) := by
  show (decodeTyped signed).runBuf (s ++ tail) = _
  have hraw : ∀ l : List Int, (l.map (rawOf signed)).map (typed signed) = l.map (BitVec.ofInt 64) := by
    intro l
    rw [List.map_map]
    apply List.map_congr_left
    intro x _
    exact typed_rawOf signed x
  cases b with
  | shortRepeat bytes count value =>
    obtain ⟨h1, h2⟩ := shortRepeat_format signed bytes count value hw s tail hs
    rw [decodeTyped_of_raw _ _ _ _ h1, List.map_replicate, typed_stored signed value h2]
    simp [RleBlock.ints]
  | direct code values =>
    rw [decodeTyped_of_raw _ _ _ _ (direct_format signed code values hw s tail hs)]
    simp only [RleBlock.ints, List.map_map]
    congr 2
    apply List.map_congr_left
    intro v hv
    obtain ⟨h1, _, _, h4⟩ := hw
    exact typed_stored signed v (Nat.lt_of_lt_of_le (h4 v hv) (Nat.pow_le_pow_right (by omega) (codeWidth_le code h1)))
  | patched code bw pcode pgw base values patches =>
    obtain ⟨rfl, h2, h3⟩ := hh
    rw [decodeTyped_of_raw _ _ _ _ (patched_format code bw pcode pgw base values patches hw h2
      (fun i hi => by rw [Nat.zero_add]; exact h3 i hi) s tail hs), hraw]
  | delta code base deltaBase deltas =>
    rw [decodeTyped_of_raw _ _ _ _ (delta_format signed code base deltaBase deltas hw s tail hs), hraw]
  | fixedDelta length base deltaBase =>
    rw [decodeTyped_of_raw _ _ _ _ (fixedDelta_format signed length base deltaBase hw s tail hs)]
    obtain ⟨h1, _⟩ := hw
    simp only [RleBlock.ints, List.map_cons, List.map_replicate, typed_rawOf]
    congr 2
    apply List.ext_getElem
    · simp; omega
    · intro i g1 g2
      simp only [List.getElem_map, List.getElem_range]
      cases i with
      | zero => simp
      | succ i =>
        simp only [List.getElem_cons_succ, List.getElem_replicate]
        rcases hh with hh | hh
        · have : i = 0 := by simp at g1; omega
          subst this; simp
        · subst hh; simp

/-- The same for any sequence of blocks: reading a whole stream. -/
theorem rle_stream_format_partial (signed : Bool) (bs : List RleBlock) (hw : ∀ b ∈ bs, b.WF signed ∧ b.Handled signed) (s : Bytes)
    (hs : bytesBits s = bs.flatMap (·.bits signed)) :
    decodeAll (if signed then decodeInt true else decodeUInt false) s =
      .ok ((bs.flatMap (·.ints signed)).map (BitVec.ofInt 64)) := by
  apply decodeAll_of_decodes
  have hdiv : ∀ b : RleBlock, b.WF signed → (b.bits signed).length % 8 = 0 ∧ 0 < (b.bits signed).length := by
    have hp : ∀ l, (padded l).length % 8 = 0 := by intro l; simp only [padded, List.length_append, List.length_replicate]; omega
    have hvb : ∀ n, (varintBits n).length % 8 = 0 := by
      intro n
      rw [varintBits]
      generalize leb128 9 n = l
      induction l with
      | nil => rfl
      | cons x l ih => simp only [List.flatMap_cons, List.length_append, natBits_length]; omega
    intro b hb
    cases b with
    | shortRepeat bytes count value =>
      simp only [RleBlock.bits, List.length_append, natBits_length]; omega
    | direct code values =>
      have := hp (values.flatMap (natBits (codeWidth code)))
      simp only [RleBlock.bits, List.length_append, natBits_length]; omega
    | patched code bw pcode pgw base values patches =>
      have h1 := hp (values.flatMap (natBits (codeWidth code)))
      have h2 := hp (patches.flatMap fun p => natBits pgw p.1 ++ natBits (codeWidth pcode) p.2)
      have h3 : 1 ≤ bw := hb.2.2.2.2.1
      simp only [RleBlock.bits, List.length_append, List.length_cons, natBits_length]
      generalize (padded (values.flatMap (natBits (codeWidth code)))).length = x at *
      generalize (padded (patches.flatMap fun p => natBits pgw p.1 ++ natBits (codeWidth pcode) p.2)).length = y at *
      omega
    | delta code base deltaBase deltas =>
      have h1 := hp (deltas.flatMap (natBits (codeWidth code)))
      have h2 := hvb (if signed then zz base else base.toNat)
      have h3 := hvb (zz deltaBase)
      simp only [RleBlock.bits, List.length_append, natBits_length]; omega
    | fixedDelta length base deltaBase =>
      have h2 := hvb (if signed then zz base else base.toNat)
      have h3 := hvb (zz deltaBase)
      simp only [RleBlock.bits, List.length_append, natBits_length]; omega
  induction bs generalizing s with
  | nil =>
    have := bytesBits_length s
    rw [hs] at this
    have : s = [] := List.length_eq_zero_iff.mp (by simp at this; omega)
    subst this
    exact Decodes.nil
  | cons b bs ih =>
    obtain ⟨h1, h2⟩ := hdiv b (hw b (by simp)).1
    simp only [List.flatMap_cons] at hs
    have htot := bytesBits_length s
    rw [hs, List.length_append] at htot
    have hsplit := bytesBits_append (s.take ((b.bits signed).length / 8)) (s.drop ((b.bits signed).length / 8))
    rw [List.take_append_drop, hs] at hsplit
    obtain ⟨e1, e2⟩ := List.append_inj hsplit (by rw [bytesBits_length, List.length_take]; omega)
    have hb := rle_format_partial signed b (hw b (by simp)).1 (hw b (by simp)).2 _ (s.drop ((b.bits signed).length / 8)) e1.symm
    rw [List.take_append_drop] at hb
    rw [List.flatMap_cons, List.map_append]
    exact Decodes.cons hb (by rw [List.length_drop]; omega) (ih (fun b hb => hw b (by simp [hb])) _ e2.symm)

/-- The examples of the ORC specification satisfy the hypotheses: short repeat, direct, patched base, delta. -/
example : bytesBits [0x0a#8, 0x27#8, 0x10#8] = (RleBlock.shortRepeat 2 5 10000).bits false := by decide +kernel
example : bytesBits [0x5e#8, 0x03#8, 0x5c#8, 0xa1#8, 0xab#8, 0x1e#8, 0xde#8, 0xad#8, 0xbe#8, 0xef#8] =
    (RleBlock.direct 15 [23713, 43806, 57005, 48879]).bits false := by decide +kernel
example : bytesBits [0x8e#8, 0x09#8, 0x2b#8, 0x21#8, 0x07#8, 0xd0#8, 0x1e#8, 0x00#8, 0x14#8, 0x70#8, 0x28#8, 0x32#8, 0x3c#8,
      0x46#8, 0x50#8, 0x5a#8, 0xfc#8, 0xe8#8] =
    (RleBlock.patched 7 2 11 2 2000 [30, 0, 20, 112, 40, 50, 60, 70, 80, 90] [(3, 3898)]).bits true := by decide +kernel
example : (RleBlock.patched 7 2 11 2 2000 [30, 0, 20, 112, 40, 50, 60, 70, 80, 90] [(3, 3898)]).ints true =
    [2030, 2000, 2020, 1000000, 2040, 2050, 2060, 2070, 2080, 2090] := by decide +kernel
example : (RleBlock.patched 7 2 11 2 2000 [30, 0, 20, 112, 40, 50, 60, 70, 80, 90] [(3, 3898)]).WF true ∧
    (RleBlock.patched 7 2 11 2 2000 [30, 0, 20, 112, 40, 50, 60, 70, 80, 90] [(3, 3898)]).Handled true := by
  simp [RleBlock.WF, RleBlock.Handled, PatchesFit, codeWidth, orcWidths]
example : bytesBits [0xc6#8, 0x09#8, 0x02#8, 0x02#8, 0x22#8, 0x42#8, 0x42#8, 0x46#8] =
    (RleBlock.delta 3 2 1 [2, 2, 4, 2, 4, 2, 4, 6]).bits false ∧
    (RleBlock.delta 3 2 1 [2, 2, 4, 2, 4, 2, 4, 6]).ints false = [2, 3, 5, 7, 11, 13, 17, 19, 23, 29] := by decide +kernel

/-- **C26** is false for arithmetic progressions: the decoder repeats the second value. Exactly, for every
well-formed progression. -/
theorem rle_progression_exact (signed : Bool) (length : Nat) (base deltaBase : Int)
    (hw : (RleBlock.fixedDelta length base deltaBase).WF signed) (s tail : Bytes)
    (hs : bytesBits s = (RleBlock.fixedDelta length base deltaBase).bits signed) :
    (if signed then decodeInt true else decodeUInt false).runBuf (s ++ tail) =
      .ok (BitVec.ofInt 64 base :: List.replicate (length - 1) (BitVec.ofInt 64 (base + deltaBase)), tail) := by
  show (decodeTyped signed).runBuf (s ++ tail) = _
  rw [decodeTyped_of_raw _ _ _ _ (fixedDelta_format signed length base deltaBase hw s tail hs)]
  simp [typed_rawOf]

/-- **C26** is false in general. The progression 5, 6, 7, 8 reads as 5, 6, 6, 6; -/
theorem rle_format_false_progression :
    (RleBlock.fixedDelta 4 5 1).WF false ∧ bytesBits [0xc0#8, 0x03#8, 0x05#8, 0x02#8] = (RleBlock.fixedDelta 4 5 1).bits false ∧
    (RleBlock.fixedDelta 4 5 1).ints false = [5, 6, 7, 8] ∧
    (decodeUInt false).runBuf [0xc0#8, 0x03#8, 0x05#8, 0x02#8] = .ok ([5, 6, 6, 6], []) := by
  refine ⟨by simp [RleBlock.WF, InRange], by decide +kernel, by decide +kernel, by decide +kernel⟩

/-- every patched block in an unsigned stream is refused, whatever its contents; -/
theorem rle_unsigned_patched_refused (code bw pcode pgw : Nat) (base : Int) (values : List Nat) (patches : List (Nat × Nat))
    (s tail : Bytes) (hs : bytesBits s = (RleBlock.patched code bw pcode pgw base values patches).bits false) :
    (decodeUInt false).runBuf (s ++ tail) = .err .other := by
  have hb : s ≠ [] := by
    rintro rfl
    have := congrArg List.length hs
    simp [RleBlock.bits] at this
  cases s with
  | nil => exact absurd rfl hb
  | cons b s =>
    have h2 : (b >>> 6).toNat = 2 := by
      have h3 := congrArg (List.take 2) hs
      have key : ∀ b : Byte, (natBits 8 b.toNat).take 2 = natBits 2 2 → (b >>> 6).toNat = 2 := by decide +kernel
      apply key
      rw [bytesBits_cons, List.take_append_of_le_length (by simp)] at h3
      rw [h3]
      simp only [RleBlock.bits, List.append_assoc]
      rw [List.take_append_of_le_length (by simp), List.take_of_length_le (by simp)]
    simp only [decodeUInt, decodeRaw, Bool.false_eq_true, if_false, List.cons_append, Dec.runBuf_bind, Dec.runBuf_byte_cons,
      Res.ok_bind, h2]
    rfl

/-- and a patched block whose patch entries need 64 bits or more is refused (here 8 bits of gap, 56 of patch). -/
theorem rle_format_false_entry :
    (RleBlock.patched 0 1 30 8 0 [1, 0] [(1, 1)]).WF true ∧
    bytesBits [0x80#8, 0x01#8, 0x1e#8, 0xe1#8, 0x00#8, 0x80#8, 0x01#8, 0, 0, 0, 0, 0, 0, 1] =
      (RleBlock.patched 0 1 30 8 0 [1, 0] [(1, 1)]).bits true ∧
    (decodeInt true).runBuf [0x80#8, 0x01#8, 0x1e#8, 0xe1#8, 0x00#8, 0x80#8, 0x01#8, 0, 0, 0, 0, 0, 0, 1] = .err .other := by
  refine ⟨by simp [RleBlock.WF, PatchesFit, codeWidth, orcWidths], by decide +kernel, by decide +kernel⟩

/-! ### C27 -/

/-- `d` never panics or hangs, and what it returns satisfies `P`. -/
def Safe {α : Type} (d : Dec α) (P : α → Prop) : Prop :=
  ∀ s, (∃ e, d.runBuf s = .err e) ∨ ∃ v rest, d.runBuf s = .ok (v, rest) ∧ P v

theorem Safe.bind {α β : Type} {d : Dec α} {f : α → Dec β} {P : α → Prop} {Q : β → Prop} (h : Safe d P)
    (hf : ∀ a, P a → Safe (f a) Q) : Safe (d >>= f) Q := by
  intro s
  rw [Dec.runBuf_bind]
  rcases h s with ⟨e, he⟩ | ⟨v, r, hv, hp⟩
  · exact .inl ⟨e, by rw [he]; rfl⟩
  · rw [hv, Res.ok_bind]; exact hf v hp r

theorem Safe.ret {α : Type} {P : α → Prop} (a : α) (h : P a) : Safe (Dec.ret a) P := fun s => .inr ⟨a, s, rfl, h⟩
theorem Safe.fail {α : Type} {P : α → Prop} (e : Err) : Safe (Dec.fail e : Dec α) P := fun _ => .inl ⟨e, rfl⟩
theorem Safe.byte : Safe Dec.byte fun _ => True := by
  intro s
  cases s with
  | nil => exact .inl ⟨.eof, rfl⟩
  | cons b s => exact .inr ⟨b, s, rfl, trivial⟩
theorem Safe.full (n : Nat) : Safe (Dec.full n) fun _ => True := by
  intro s
  rw [Dec.runBuf_full]
  split
  · exact .inr ⟨_, _, rfl, trivial⟩
  · exact .inl ⟨.eof, rfl⟩

theorem safe_width (c : Byte) (f : Bool) : Safe (Dec.ofRes (widthDecoding (c &&& 0x1f#8) f)) fun _ => True := by
  have : ∀ (c : Byte) (f : Bool), (widthDecoding (c &&& 0x1f#8) f).isOk = true := by decide +kernel
  have := this c f
  cases h : widthDecoding (c &&& 0x1f#8) f with
  | ok w => exact Safe.ret w trivial
  | err e => exact Safe.fail e
  | panic => rw [h] at this; cases this
  | hang => rw [h] at this; cases this

theorem safe_readBitsLoop (bits fuel has : Nat) (data : U64) : Safe (readBitsLoop bits fuel has data) fun _ => True := by
  induction fuel generalizing has data with
  | zero => exact Safe.ret _ trivial
  | succ fuel ih =>
    simp only [readBitsLoop]
    split
    · exact Safe.byte.bind fun _ _ => ih _ _
    · exact Safe.ret _ trivial

theorem safe_readBits (st : BitState) (bits : Nat) : Safe (readBits st bits) fun _ => True :=
  (safe_readBitsLoop _ _ _ _).bind fun _ _ => Safe.ret _ trivial

theorem safe_readBitsN (st : BitState) (bits n : Nat) : Safe (readBitsN st bits n) fun l => l.length = n := by
  induction n generalizing st with
  | zero => exact Safe.ret _ rfl
  | succ n ih =>
    exact (safe_readBits st bits).bind fun p _ => (ih p.2).bind fun l hl => Safe.ret _ (by simp [hl])

theorem safe_readBE (n : Nat) (acc : U64) : Safe (readBE n acc) fun _ => True := by
  induction n generalizing acc with
  | zero => exact Safe.ret _ trivial
  | succ n ih => exact Safe.byte.bind fun _ _ => ih _

theorem safe_readUvarint : Safe readUvarint fun _ => True := by
  have : ∀ n i x, Safe (readUvarintLoop n i x) fun _ => True := by
    intro n
    induction n with
    | zero => intro i x; exact Safe.fail _
    | succ n ih =>
      intro i x
      simp only [readUvarintLoop]
      refine Safe.byte.bind fun b _ => ?_
      split
      · split
        · exact Safe.fail _
        · exact Safe.ret _ trivial
      · exact ih _ _
  exact this _ _ _

theorem safe_readVarint : Safe readVarint fun _ => True :=
  safe_readUvarint.bind fun _ _ => Safe.ret _ trivial

theorem safe_readDeltas (signed : Bool) (width : Nat) (ub db : U64) (n : Nat) (st : BitState) (prev : U64) :
    Safe (readDeltas signed width ub db n st prev) fun l => l.length = n := by
  induction n generalizing st prev with
  | zero => exact Safe.ret _ rfl
  | succ n ih =>
    simp only [readDeltas]
    split
    · exact (ih _ _).bind fun l hl => Safe.ret _ (by simp [hl])
    · exact (safe_readBits st width).bind fun p _ => (ih p.2 _).bind fun l hl => Safe.ret _ (by simp [hl])

/-- Between one and 512 values. -/
def RunLength (l : List U64) : Prop := 1 ≤ l.length ∧ l.length ≤ 512

theorem header_length (h0 h1 : Byte) : (h0.toNat % 2) * 256 + h1.toNat + 1 ≤ 512 := by
  have := h1.isLt; omega

theorem safe_decodeRaw (signed : Bool) (h0 : Byte) (h : signed = true → (h0 >>> 6).toNat ≠ 2) :
    Safe (do
      let sub := (h0 >>> 6).toNat
      if sub = 0 then decodeShortRepeat h0
      else if sub = 1 then decodeDirect h0
      else if sub = 2 then (if signed then decodePatched h0 else Dec.fail .other)
      else decodeDelta signed h0) RunLength := by
  show Safe (if (h0 >>> 6).toNat = 0 then _ else _) _
  split
  · have : ∀ h0 : Byte, 1 ≤ 3 + (h0 &&& 0x07#8).toNat ∧ 3 + (h0 &&& 0x07#8).toNat ≤ 512 := by decide +kernel
    exact (safe_readBE _ _).bind fun v _ => Safe.ret _ (by simpa [RunLength] using this h0)
  · split
    · refine Safe.byte.bind fun h1 _ => (safe_width _ _).bind fun w _ => ?_
      intro s
      have hl := header_length h0 h1
      rcases safe_readBitsN forgetBits w ((h0.toNat % 2) * 256 + h1.toNat + 1) s with h | ⟨v, r, h1, h2⟩
      · exact .inl h
      · exact .inr ⟨v, r, h1, by simp only [RunLength]; omega⟩
    · split
      · cases signed
        · exact Safe.fail _
        · exact absurd (by assumption) (h rfl)
      · refine Safe.byte.bind fun h1 _ => (safe_width _ _).bind fun w _ => ?_
        have hl := header_length h0 h1
        have hub : Safe (if signed then do let b ← readVarint; pure (zigzag b) else readUvarint) fun _ => True := by
          cases signed
          · exact safe_readUvarint
          · exact safe_readVarint.bind fun _ _ => Safe.ret _ trivial
        have hrest : ∀ ub : U64, Safe (do
            let deltaBase ← readVarint
            let vs ← readDeltas signed w ub deltaBase ((h0.toNat % 2) * 256 + h1.toNat + 1 - 2) forgetBits (addDeltaBase signed ub deltaBase)
            pure (ub :: addDeltaBase signed ub deltaBase :: vs)) RunLength := by
          intro ub
          refine safe_readVarint.bind fun db _ => (safe_readDeltas _ _ _ _ _ _ _).bind fun l hl => Safe.ret _ ?_
          simp only [RunLength, List.length_cons, hl]; omega
        cases signed
        · exact safe_readUvarint.bind fun ub _ => hrest ub
        · exact safe_readVarint.bind fun b _ => hrest (zigzag b)

/-- **C27** (partial: not for patched blocks in signed streams, see below) On arbitrary bytes one decode call reports an
error or returns 1 to 512 values, having consumed at least one byte: it neither panics nor runs on. The hypothesis
excludes signed streams whose first byte announces a patched block. -/
theorem int_decode_total_partial (signed : Bool) (s : Bytes) (h : signed = true → ∀ b ∈ s.head?, ¬ (128 ≤ b.toNat ∧ b.toNat < 192)) :
    (∃ e, (if signed then decodeInt true else decodeUInt false).runBuf s = .err e) ∨
    ∃ vs used rest, (if signed then decodeInt true else decodeUInt false).runBuf s = .ok (vs, rest) ∧ s = used ++ rest ∧
      1 ≤ used.length ∧ 1 ≤ vs.length ∧ vs.length ≤ 512 := by
  show (∃ e, (decodeTyped signed).runBuf s = .err e) ∨ ∃ vs used rest, (decodeTyped signed).runBuf s = .ok (vs, rest) ∧ _
  cases s with
  | nil => left; cases signed <;> exact ⟨.eof, rfl⟩
  | cons b s =>
    have hb : signed = true → (b >>> 6).toNat ≠ 2 := by
      intro hs h2
      apply h hs b rfl
      rw [BitVec.toNat_ushiftRight, Nat.shiftRight_eq_div_pow] at h2
      omega
    rcases safe_decodeRaw signed b hb s with ⟨e, he⟩ | ⟨v, r, hv, hp⟩
    · left
      refine ⟨e, ?_⟩
      have he' : (decodeRaw signed).runBuf (b :: s) = .err e := he
      cases signed
      · simpa [decodeTyped, decodeUInt] using he'
      · simp [decodeTyped, decodeInt, he']
    · right
      obtain ⟨p, hpp⟩ := Dec.runBuf_suffix _ _ _ _ hv
      have hv' : (decodeRaw signed).runBuf (b :: s) = .ok (v, r) := hv
      exact ⟨v.map (typed signed), b :: p, r, decodeTyped_of_raw signed _ _ _ hv', by rw [hpp]; rfl, by simp, by simpa [RunLength] using hp⟩

/-- Unsigned streams satisfy the hypothesis always, signed ones with for instance a delta block. -/
example : (decodeInt true).runBuf [0xc0#8, 0x03#8, 0x05#8, 0x02#8, 0x77#8] = .ok ([-3, -2, -2, -2], [0x77#8]) := by decide +kernel

/-- What remains true for patched blocks: no endless loop, and 1 to 512 values when the call returns. -/
theorem int_decode_patched_partial (s : Bytes) :
    (decodeInt true).runBuf s ≠ .hang ∧
    ∀ vs rest, (decodeInt true).runBuf s = .ok (vs, rest) → 1 ≤ vs.length ∧ vs.length ≤ 512 ∧ rest.length < s.length := by
  constructor
  · have hnh : ∀ {α : Type} (d : Dec α) (s : Bytes), d.runBuf s ≠ .hang := by
      intro α d
      induction d with
      | ret a => intro s h; cases h
      | fail e => intro s h; cases h
      | crash => intro s h; cases h
      | readByte k ih => intro s h; cases s with
        | nil => cases h
        | cons b s => exact ih b s h
      | readFull n k ih =>
        intro s h
        simp only [Dec.runBuf] at h
        split at h
        · exact ih _ _ h
        · cases h
    exact hnh _ s
  · intro vs rest h
    cases s with
    | nil => simp [decodeInt, decodeRaw] at h
    | cons b s =>
      by_cases h2 : (b >>> 6).toNat = 2
      · -- a patched block
        have hpl : ∀ w pw pgw base n st mark uvs s v r, (readPatches w pw pgw base n st mark uvs).runBuf s = .ok (v, r) →
            v.length = uvs.length := by
          intro w pw pgw base n
          induction n with
          | zero => intro st mark uvs s v r h; simp [readPatches] at h; rw [h.1]
          | succ n ih =>
            intro st mark uvs s v r h
            simp only [readPatches, Dec.runBuf_bind] at h
            obtain ⟨⟨⟨pp, st'⟩, s1⟩, h1, h⟩ := Res.bind_ok_inv h
            simp only at h
            split at h
            · cases h
            · rw [ih _ _ _ _ _ _ h, List.length_set]
        simp only [decodeInt, if_true, decodeRaw, Dec.runBuf_bind, Dec.runBuf_byte_cons, Res.ok_bind, h2] at h
        obtain ⟨⟨raws, r1⟩, h1, h⟩ := Res.bind_ok_inv h
        simp only [Dec.pure_eq, Dec.runBuf_ret, Res.ok.injEq, Prod.mk.injEq] at h
        obtain ⟨rfl, rfl⟩ := h
        have hsuf := Dec.runBuf_suffix _ _ _ _ h1
        rw [if_neg (by omega), if_neg (by omega)] at h1
        simp only [decodePatched, Dec.runBuf_bind] at h1
        obtain ⟨⟨hd, s1⟩, h2, h1⟩ := Res.bind_ok_inv h1
        obtain ⟨⟨w, s2⟩, h3, h1⟩ := Res.bind_ok_inv h1
        obtain ⟨⟨pw, s3⟩, h4, h1⟩ := Res.bind_ok_inv h1
        simp only at h1
        split at h1
        · cases h1
        · simp only [Dec.runBuf_bind] at h1
          obtain ⟨⟨bb, s4⟩, h5, h1⟩ := Res.bind_ok_inv h1
          obtain ⟨⟨ds, s5⟩, h6, h1⟩ := Res.bind_ok_inv h1
          have hl := header_length b (hd.getD 0 0)
          rcases safe_readBitsN forgetBits w ((b.toNat % 2) * 256 + (hd.getD 0 0).toNat + 1) s4 with ⟨e, he⟩ | ⟨v, r, hv, hvl⟩
          · simp only at h6; rw [he] at h6; cases h6
          · simp only at h6; rw [hv] at h6
            simp only [Res.ok.injEq, Prod.mk.injEq] at h6
            have := hpl _ _ _ _ _ _ _ _ _ _ _ h1
            obtain ⟨p, hp⟩ := hsuf
            have hr := congrArg List.length hp
            rw [List.length_append] at hr
            simp only [List.length_map] at this ⊢
            rw [this, ← h6.1, hvl]
            simp only [List.length_cons]
            omega
      · rcases int_decode_total_partial true (b :: s) (by
          intro _ b' hb'
          simp only [List.head?_cons, Option.mem_def, Option.some.injEq] at hb'
          subst hb'
          rintro ⟨g1, g2⟩
          apply h2
          rw [BitVec.toNat_ushiftRight, Nat.shiftRight_eq_div_pow]
          omega) with ⟨e, he⟩ | ⟨vs', used, r, h3, h4, h5, h6, h7⟩
        · simp only [if_true] at he; rw [he] at h; cases h
        · simp only [if_true] at h3; rw [h3] at h
          simp only [Res.ok.injEq, Prod.mk.injEq] at h
          obtain ⟨rfl, rfl⟩ := h
          rw [h4]
          simp only [List.length_append]
          omega

/-- **C27** is false: a patched block of one value with a patch for the fourth panics. -/
theorem int_decode_total_false : (decodeInt true).runBuf [0x80#8, 0x00#8, 0x00#8, 0x21#8, 0x00#8, 0x00#8, 0xe0#8] = .panic := by
  decide +kernel

end Goorc
