import Verif.Props.EncIntBlocks
import Verif.Spec.Rlev2
namespace Goorc

/-- Split off whole bytes. -/
theorem bytesBits_cut {a s : Bytes} {r : List Bool} (h : bytesBits s = bytesBits a ++ r) :
    ∃ s', s = a ++ s' ∧ bytesBits s' = r := by
  induction a generalizing s with
  | nil => exact ⟨s, rfl, by simpa [bytesBits] using h⟩
  | cons b a ih =>
    cases s with
    | nil =>
      have := congrArg List.length h
      rw [List.length_append, bytesBits_length, bytesBits_length] at this
      simp at this
      omega
    | cons c s =>
      simp only [bytesBits, List.flatMap_cons, List.append_assoc] at h
      obtain ⟨h1, h2⟩ := List.append_inj h (by simp [natBits_length])
      have := natBits_inj c.isLt b.isLt h1
      have hcb := BitVec.eq_of_toNat_eq this
      obtain ⟨s', h3, h4⟩ := ih h2
      exact ⟨s', by rw [h3, hcb]; rfl, h4⟩

theorem padded_spec (l : List Bool) : ∃ pad, padded l = l ++ pad ∧ pad.length < 8 :=
  ⟨_, rfl, by simp; omega⟩

theorem header2_bits (enc code l : Nat) (he : enc < 4) (hc : code < 32) :
    bytesBits (header2 enc (BitVec.ofNat 8 code) l) = natBits 2 enc ++ natBits 5 code ++ natBits 9 l := by
  have key : ∀ (enc : Fin 4) (code : Fin 32) (b : Fin 2),
      natBits 8 ((BitVec.ofNat 8 enc.val <<< 6) ||| ((BitVec.ofNat 8 code.val &&& 0x1f#8) <<< 1) |||
        BitVec.ofNat 8 b.val).toNat = natBits 2 enc.val ++ natBits 5 code.val ++ natBits 1 b.val := by decide +kernel
  have h9 : natBits 9 l = natBits 1 (l / 256 % 2) ++ natBits 8 l := by
    rw [show (9 : Nat) = 1 + 8 from rfl, natBits_append]
    congr 1
    exact natBits_congr 1 (by omega)
  rw [h9]
  simp only [header2, bytesBits, List.flatMap_cons, List.flatMap_nil, List.append_nil]
  have := key ⟨enc, he⟩ ⟨code, hc⟩ ⟨(l >>> 8) % 2, by omega⟩
  rw [this]
  simp only [List.append_assoc, BitVec.toNat_ofNat]
  rw [show l % 2 ^ 8 = l % 2 ^ 8 from rfl, natBits_mod 8 l, Nat.shiftRight_eq_div_pow]

theorem codeWidth_dec (code : Nat) (hc : code < 32) :
    widthDecoding (BitVec.ofNat 8 code) false = .ok (codeWidth code) ∧
    (1 ≤ code → widthDecoding (BitVec.ofNat 8 code) true = .ok (codeWidth code)) ∧
    widthDecoding (BitVec.ofNat 8 0) true = .ok 0 ∧ 1 ≤ codeWidth code ∧
    (codeWidth code + 7 ≤ 64 ∨ (codeWidth code % 8 = 0 ∧ codeWidth code ≤ 64)) := by
  have : ∀ c : Fin 32, widthDecoding (BitVec.ofNat 8 c.val) false = .ok (codeWidth c.val) ∧
    (1 ≤ c.val → widthDecoding (BitVec.ofNat 8 c.val) true = .ok (codeWidth c.val)) ∧
    widthDecoding (BitVec.ofNat 8 0) true = .ok 0 ∧ 1 ≤ codeWidth c.val ∧
    (codeWidth c.val + 7 ≤ 64 ∨ (codeWidth c.val % 8 = 0 ∧ codeWidth c.val ≤ 64)) := by decide +kernel
  exact this ⟨code, hc⟩

theorem codeWidth_fits (code : Nat) (hc : code < 32) (n : Nat) : Fits 0 (codeWidth code) n := by
  rcases (codeWidth_dec code hc).2.2.2.2 with h | ⟨h1, h2⟩
  · exact fits_of_small h
  · exact fits_of_bytes h1 h2

theorem codeWidth_le (code : Nat) (hc : code < 32) : codeWidth code ≤ 64 := by
  rcases (codeWidth_dec code hc).2.2.2.2 with h | ⟨_, h2⟩ <;> omega

/-- Read a padded section. -/
theorem read_section (bits : Nat) (vs : List Nat) (hb : bits ≤ 64) (hv : ∀ v ∈ vs, v < 2 ^ bits) (hf : Fits 0 bits vs.length)
    (s : Bytes) (hs : bytesBits s = padded (vs.flatMap (natBits bits))) (tail : Bytes) :
    (readBitsN forgetBits bits vs.length).runBuf (s ++ tail) = .ok (vs.map (BitVec.ofNat 64), tail) := by
  obtain ⟨pad, h1, h2⟩ := padded_spec (vs.flatMap (natBits bits))
  have hto : ∀ v ∈ vs, (BitVec.ofNat 64 v).toNat = v := by
    intro v h
    rw [BitVec.toNat_ofNat]
    apply Nat.mod_eq_of_lt
    exact Nat.lt_of_lt_of_le (hv v h) (Nat.pow_le_pow_right (by omega) hb)
  have hmap : (vs.map (BitVec.ofNat 64)).flatMap (fun v => natBits bits v.toNat) = vs.flatMap (natBits bits) := by
    clear hs h1 hf hv
    induction vs with
    | nil => rfl
    | cons v vs ih =>
      simp only [List.map_cons, List.flatMap_cons, hto v (by simp)]
      rw [ih fun v h => hto v (by simp [h])]
  obtain ⟨st', s', g1, g2, g3⟩ := readBitsN_spec bits (vs.map (BitVec.ofNat 64)) forgetBits forgetBits_wf 0 ⟨by omega, rfl⟩
    (by simpa using hf) (s ++ tail)
    (by
      intro v h
      obtain ⟨x, hx, rfl⟩ := List.mem_map.mp h
      rw [hto x hx]; exact hv x hx) (pad ++ bytesBits tail) (by
      rw [hmap, bytesBits_append, hs, h1, forgetBits_bits, List.nil_append, List.append_assoc])
  rw [List.length_map] at g1
  rw [g1, byte_boundary g2 h2 g3]

/-! ### Numbers -/

theorem unZigzag_stored (n : Nat) (h : n < 2 ^ 64) : unZigzag (BitVec.ofNat 64 n) = BitVec.ofInt 64 (stored true n) := by
  apply BitVec.eq_of_toInt_eq
  rw [unZigzag_toInt, BitVec.toInt_ofInt, BitVec.toNat_ofNat, Nat.mod_eq_of_lt h]
  simp only [stored, if_true]
  rw [bmod_small]
  · split <;> omega
  · split <;> omega

theorem ofNat_stored (n : Nat) : BitVec.ofNat 64 n = BitVec.ofInt 64 (stored false n) := by
  simp [stored]

/-- Raw values of a block as the typed decoder delivers them. -/
def typed (signed : Bool) (raw : U64) : U64 := if signed then unZigzag raw else raw

theorem typed_stored (signed : Bool) (n : Nat) (h : n < 2 ^ 64) :
    typed signed (BitVec.ofNat 64 n) = BitVec.ofInt 64 (stored signed n) := by
  cases signed
  · exact ofNat_stored n
  · exact unZigzag_stored n h

/-- The typed decoder of a stream. -/
def decodeTyped (signed : Bool) : Dec (List U64) := if signed then decodeInt true else decodeUInt false

theorem decodeTyped_of_raw (signed : Bool) (s : Bytes) (raws : List U64) (t : Bytes)
    (h : (decodeRaw signed).runBuf s = .ok (raws, t)) :
    (decodeTyped signed).runBuf s = .ok (raws.map (typed signed), t) := by
  cases signed
  · simp only [decodeTyped, decodeUInt, Bool.false_eq_true, if_false, h]
    congr 2
    have : typed false = id := by funext x; simp [typed]
    rw [this, List.map_id]
  · simp only [decodeTyped, decodeInt, if_true, Dec.runBuf_bind, h, Res.ok_bind]
    have : typed true = unZigzag := by funext x; simp [typed]
    rw [this]; rfl

theorem ofInt_add (a b : Int) : BitVec.ofInt 64 (a + b) = BitVec.ofInt 64 a + BitVec.ofInt 64 b := BitVec.ofInt_add a b

/-- The raw value of an integer of the stream. -/
def rawOf (signed : Bool) (x : Int) : U64 := if signed then zigzag (BitVec.ofInt 64 x) else BitVec.ofInt 64 x

theorem typed_rawOf (signed : Bool) (x : Int) : typed signed (rawOf signed x) = BitVec.ofInt 64 x := by
  cases signed <;> simp [typed, rawOf, unZigzag_zigzag]

theorem rawOf_toNat (signed : Bool) (x : Int) (h : InRange signed x) :
    (rawOf signed x).toNat = if signed then zz x else x.toNat := by
  cases signed
  · simp only [rawOf, InRange, Bool.false_eq_true, if_false] at h ⊢
    rw [BitVec.toNat_ofInt]
    simp
    omega
  · simp only [rawOf, InRange, if_true] at h ⊢
    have := zigzag_toNat (BitVec.ofInt 64 x)
    rw [BitVec.toInt_ofInt, bmod_small x h.1 h.2] at this
    simp only [zz, zigzagSpec]
    omega

theorem leb128_uvarint (k : Nat) (x : U64) : leb128 k x.toNat = (uvarintBytes k x).map BitVec.toNat := by
  induction k generalizing x with
  | zero => simp [leb128, uvarintBytes]
  | succ k ih =>
    simp only [leb128, uvarintBytes]
    by_cases h : x.toNat < 128
    · rw [if_pos h, if_neg (by omega)]
      simp; omega
    · rw [if_neg h, if_pos (by omega)]
      simp only [List.map_cons]
      congr 1
      · have : ∀ b : Byte, (b ||| 0x80#8).toNat = b.toNat % 128 + 128 := by decide +kernel
        rw [this, setWidth8_toNat]; omega
      · rw [← shr7_toNat, ih]

theorem varintBits_eq (x : U64) : varintBits x.toNat = bytesBits (uvarintBytes 9 x) := by
  rw [varintBits, leb128_uvarint, bytesBits, List.flatMap_map]

/-- Adding differences to raw values is adding them to the integers. -/
theorem addDeltaBase_rawOf (signed : Bool) (x d : Int) :
    addDeltaBase signed (rawOf signed x) (BitVec.ofInt 64 d) = rawOf signed (x + d) := by
  cases signed
  · simp only [addDeltaBase, rawOf, Bool.false_eq_true, if_false]
    rw [ofInt_add]
    split
    · rfl
    · grind
  · simp only [addDeltaBase, rawOf, if_true, unZigzag_zigzag, ofInt_add]

theorem addDelta_rawOf (signed : Bool) (x d : Int) (hd : InRange true d) (n : Nat) :
    addDelta signed (BitVec.ofInt 64 d) (rawOf signed x) (BitVec.ofNat 64 n) =
      rawOf signed (x + if 0 ≤ d then (n : Int) else -(n : Int)) := by
  simp only [InRange, if_true] at hd
  have hs : (BitVec.ofInt 64 d).toInt = d := by rw [BitVec.toInt_ofInt, bmod_small d hd.1 hd.2]
  have hneg : BitVec.ofInt 64 (-(n : Int)) = -(BitVec.ofNat 64 n) := by
    rw [BitVec.ofInt_neg]; simp
  have hpos : BitVec.ofInt 64 (n : Int) = BitVec.ofNat 64 n := by simp
  simp only [addDelta, rawOf, hs]
  by_cases h : 0 ≤ d
  · simp only [if_pos h, ofInt_add, hpos]
    cases signed <;> simp [unZigzag_zigzag]
  · simp only [if_neg h, ofInt_add, hneg]
    cases signed
    · simp only [Bool.false_eq_true, if_false]; grind
    · simp only [if_true, unZigzag_zigzag]
      congr 1
      exact BitVec.sub_eq_add_neg _ _

theorem scanDelta_rawOf (signed : Bool) (d : Int) (hd : InRange true d) (x : Int) (ns : List Nat) :
    scanDelta signed (BitVec.ofInt 64 d) (rawOf signed x) (ns.map (BitVec.ofNat 64)) =
      (sums x (ns.map fun n : Nat => if 0 ≤ d then (n : Int) else -(n : Int))).map (rawOf signed) := by
  induction ns generalizing x with
  | nil => rfl
  | cons n ns ih =>
    simp only [List.map_cons, scanDelta, sums, addDelta_rawOf signed x d hd n]
    rw [ih]

/-! ### Blocks -/

theorem shortRepeat_format (signed : Bool) (bytes count value : Nat) (hw : (RleBlock.shortRepeat bytes count value).WF signed)
    (s tail : Bytes) (hs : bytesBits s = (RleBlock.shortRepeat bytes count value).bits signed) :
    (decodeRaw signed).runBuf (s ++ tail) = .ok (List.replicate count (BitVec.ofNat 64 value), tail) ∧ value < 2 ^ 64 := by
  obtain ⟨h1, h2, h3, h4, h5⟩ := hw
  have hv : value < 2 ^ 64 := by
    have : (256 : Nat) ^ bytes ≤ 256 ^ 8 := Nat.pow_le_pow_right (by omega) h2
    exact Nat.lt_of_lt_of_le h5 this
  refine ⟨?_, hv⟩
  have key : ∀ (w c : Fin 8), natBits 8 (BitVec.ofNat 8 (c.val % 8) ||| (BitVec.ofNat 8 w.val <<< 3)).toNat =
      natBits 2 0 ++ natBits 3 w.val ++ natBits 3 c.val := by decide +kernel
  have hk := key ⟨bytes - 1, by omega⟩ ⟨count - 3, by omega⟩
  simp only at hk
  have hto : (BitVec.ofNat 64 value).toNat = value := by rw [BitVec.toNat_ofNat, Nat.mod_eq_of_lt hv]
  have hs' : s = (BitVec.ofNat 8 ((count - 3) % 8) ||| (BitVec.ofNat 8 (bytes - 1) <<< 3)) :: beBytes (BitVec.ofNat 64 value) bytes := by
    apply bytesBits_inj
    rw [hs]
    simp only [RleBlock.bits]
    rw [← hk]
    have := bytesBits_beBytes (BitVec.ofNat 64 value) bytes
    rw [hto] at this
    rw [← this]
    simp [bytesBits]
  rw [hs', List.cons_append, decodeRaw_shortRepeat signed (count - 3) (bytes - 1) (by omega) (by omega)]
  rw [show bytes - 1 + 1 = bytes by omega, beBytes_readBE _ bytes h2 (by rw [hto]; exact h5), show count - 3 + 3 = count by omega]
  rfl

theorem direct_format (signed : Bool) (code : Nat) (values : List Nat) (hw : (RleBlock.direct code values).WF signed)
    (s tail : Bytes) (hs : bytesBits s = (RleBlock.direct code values).bits signed) :
    (decodeRaw signed).runBuf (s ++ tail) = .ok (values.map (BitVec.ofNat 64), tail) := by
  obtain ⟨h1, h2, h3, h4⟩ := hw
  simp only [RleBlock.bits] at hs
  rw [← header2_bits 1 code _ (by omega) h1] at hs
  obtain ⟨s', rfl, hs'⟩ := bytesBits_cut hs
  have hc : (BitVec.ofNat 8 code).toNat < 32 := by rw [BitVec.toNat_ofNat]; omega
  rw [List.append_assoc, decodeRaw_direct signed _ hc _ _ _ (codeWidth_dec code h1).1,
    show (values.length - 1) % 512 + 1 = values.length by omega]
  exact read_section _ values (codeWidth_le code h1) h4 (codeWidth_fits code h1 _) s' hs' tail

theorem delta_header (signed : Bool) (code : Nat) (hc : code < 32) (l : Nat) (base deltaBase : Int)
    (hb : InRange signed base) (hd : InRange true deltaBase) (s : Bytes) (body : List Bool)
    (hs : bytesBits s = natBits 2 3 ++ natBits 5 code ++ natBits 9 l ++
      varintBits (if signed then zz base else base.toNat) ++ varintBits (zz deltaBase) ++ body) :
    ∃ s', s = header2 3 (BitVec.ofNat 8 code) l ++ uvarintBytes 9 (rawOf signed base) ++
        uvarintBytes 9 (zigzag (BitVec.ofInt 64 deltaBase)) ++ s' ∧ bytesBits s' = body := by
  have e1 := rawOf_toNat signed base hb
  have e2 := rawOf_toNat true deltaBase hd
  simp only [if_true] at e2
  rw [← e1, ← e2, varintBits_eq, varintBits_eq, ← header2_bits 3 code l (by omega) hc] at hs
  simp only [← bytesBits_append] at hs
  obtain ⟨s', h1, h2⟩ := bytesBits_cut hs
  exact ⟨s', h1, h2⟩

theorem delta_format (signed : Bool) (code : Nat) (base deltaBase : Int) (deltas : List Nat)
    (hw : (RleBlock.delta code base deltaBase deltas).WF signed)
    (s tail : Bytes) (hs : bytesBits s = (RleBlock.delta code base deltaBase deltas).bits signed) :
    (decodeRaw signed).runBuf (s ++ tail) =
      .ok (((RleBlock.delta code base deltaBase deltas).ints signed).map (rawOf signed), tail) := by
  obtain ⟨h1, h2, h3, h4, h5, h6⟩ := hw
  obtain ⟨s', rfl, hs'⟩ := delta_header signed code h2 (deltas.length + 1) base deltaBase h5 h6 s _ hs
  have hc : (BitVec.ofNat 8 code).toNat < 32 := by rw [BitVec.toNat_ofNat]; omega
  rw [List.append_assoc _ s' tail, decodeRaw_delta signed _ hc _ _ _ _ _ ((codeWidth_dec code h2).2.1 h1),
    show (deltas.length + 1) % 512 + 1 - 2 = deltas.length by omega,
    readDeltas_eq signed _ (by have := (codeWidth_dec code h2).2.2.2.1; omega),
    read_section _ deltas (codeWidth_le code h2) h4 (codeWidth_fits code h2 _) s' hs' tail]
  simp only [Res.ok_bind, addDeltaBase_rawOf signed base deltaBase, scanDelta_rawOf signed deltaBase h6]
  rfl

theorem fixedDelta_format (signed : Bool) (length : Nat) (base deltaBase : Int)
    (hw : (RleBlock.fixedDelta length base deltaBase).WF signed)
    (s tail : Bytes) (hs : bytesBits s = (RleBlock.fixedDelta length base deltaBase).bits signed) :
    (decodeRaw signed).runBuf (s ++ tail) =
      .ok (rawOf signed base :: List.replicate (length - 1) (rawOf signed (base + deltaBase)), tail) := by
  obtain ⟨h1, h2, h3, h4⟩ := hw
  obtain ⟨s', rfl, hs'⟩ := delta_header signed 0 (by omega) (length - 1) base deltaBase h3 h4 s [] (by
    rw [List.append_nil]; exact hs)
  have hnil : s' = [] := by
    have := bytesBits_length s'
    rw [hs'] at this
    exact List.length_eq_zero_iff.mp (by simp at this; omega)
  subst hnil
  rw [List.append_assoc _ [] tail, List.nil_append, decodeRaw_delta signed _ (by decide) _ _ _ _ _ (codeWidth_dec 0 (by omega)).2.2.1,
    show (length - 1) % 512 + 1 - 2 = length - 2 by omega, readDeltas_fixed]
  simp only [Res.ok_bind, addDeltaBase_rawOf signed base deltaBase]
  rw [show length - 1 = (length - 2) + 1 by omega, List.replicate_succ]

/-! ### Patched base -/

theorem or_shl_ofNat (d p w : Nat) (hd : d < 2 ^ w) :
    BitVec.ofNat 64 d ||| (BitVec.ofNat 64 p <<< w) = BitVec.ofNat 64 (d + p * 2 ^ w) := by
  have h1 : d + p * 2 ^ w = p <<< w ||| d := by
    rw [← Nat.shiftLeft_add_eq_or_of_lt hd, Nat.shiftLeft_eq]; omega
  rw [h1]
  apply BitVec.eq_of_getLsbD_eq
  intro i hi
  simp only [BitVec.getLsbD_or, BitVec.getLsbD_ofNat, BitVec.getLsbD_shiftLeft, Nat.testBit_or, Nat.testBit_shiftLeft, hi,
    decide_true, Bool.true_and]
  by_cases hw : i < w
  · have : ¬ i ≥ w := by omega
    simp [hw, this]
  · have h2 : i ≥ w := by omega
    have h3 : i - w < 64 := by omega
    simp [hw, h2, h3, Bool.or_comm]

theorem applyPatches_add (w pw pgw : Nat) (hpw : pw < 64) (hk : pgw + pw ≤ 64) (base : U64) (ps : List (Nat × Nat))
    (hp : ∀ p ∈ ps, p.1 < 2 ^ pgw ∧ p.2 < 2 ^ pw) (pos lo : Nat) (vs : List Nat)
    (hfit : PatchesFit vs.length lo pos ps) (hlo : ∀ i, lo ≤ i → ∀ h : i < vs.length, vs[i] < 2 ^ w) :
    applyPatches w pw base (ps.map fun p => entryOf pw p.1 (BitVec.ofNat 64 p.2)) pos
        (vs.map fun d => zigzag (base + BitVec.ofNat 64 d)) =
      some ((addPatches w pos ps vs).map fun d => zigzag (base + BitVec.ofNat 64 d)) := by
  induction ps generalizing pos lo vs with
  | nil => rfl
  | cons gp ps ih =>
    obtain ⟨g, p⟩ := gp
    obtain ⟨f1, f2, f3⟩ := hfit
    obtain ⟨hg, hpp⟩ := hp (g, p) (by simp)
    simp only at hg hpp
    have hpto : (BitVec.ofNat 64 p).toNat = p := by
      rw [BitVec.toNat_ofNat]
      apply Nat.mod_eq_of_lt
      exact Nat.lt_of_lt_of_le hpp (Nat.pow_le_pow_right (by omega) (by omega))
    have e1 := entry_gap pw g (BitVec.ofNat 64 p) (by rw [hpto]; exact hpp) pgw hg hk
    have e2 := entry_patch pw g (BitVec.ofNat 64 p) (by rw [hpto]; exact hpp) pgw hg hk hpw
    simp only [List.map_cons, applyPatches, e1, e2, List.getElem?_map, List.getElem?_eq_getElem f2, Option.map_some]
    have hsub : unZigzag (zigzag (base + BitVec.ofNat 64 vs[pos + g])) - base = BitVec.ofNat 64 vs[pos + g] := by
      rw [unZigzag_zigzag]; grind
    rw [hsub, or_shl_ofNat _ _ _ (hlo (pos + g) f1 f2)]
    have hset : (vs.map fun d => zigzag (base + BitVec.ofNat 64 d)).set (pos + g)
        (zigzag (BitVec.ofNat 64 (vs[pos + g] + p * 2 ^ w) + base)) =
        (vs.modify (pos + g) (· + p * 2 ^ w)).map fun d => zigzag (base + BitVec.ofNat 64 d) := by
      apply List.ext_getElem
      · simp
      · intro i h1 h2
        simp only [List.getElem_map, List.getElem_set, List.getElem_modify]
        by_cases h : pos + g = i
        · subst h
          simp only [if_true]
          congr 1
          exact BitVec.add_comm _ _
        · simp only [if_neg h]
    rw [hset]
    simp only [addPatches]
    refine ih (fun p hp' => hp p (by simp [hp'])) (pos + g) (pos + g + 1) _ (by simpa using f3) ?_
    intro i hi hlen
    simp only [List.length_modify] at hlen
    rw [List.getElem_modify, if_neg (by omega)]
    exact hlo i (by omega) hlen

theorem patch_header_bits (code pcode : Nat) (hc : code < 32) (hpc : pcode < 32) (bw pgw pll l : Nat)
    (hbw : 1 ≤ bw ∧ bw ≤ 8) (hpgw : 1 ≤ pgw ∧ pgw ≤ 8) (hpll : pll < 32) :
    bytesBits [0x80#8 ||| (BitVec.ofNat 8 code <<< 1) ||| BitVec.ofNat 8 ((l >>> 8) % 2), BitVec.ofNat 8 l,
      (BitVec.ofNat 8 (bw - 1) <<< 5) ||| (BitVec.ofNat 8 pcode &&& 0x1f#8),
      (((BitVec.ofNat 8 pgw - 1#8) &&& 7#8) <<< 5) ||| (BitVec.ofNat 8 pll &&& 0x1f#8)] =
    natBits 2 2 ++ natBits 5 code ++ natBits 9 l ++ natBits 3 (bw - 1) ++ natBits 5 pcode ++ natBits 3 (pgw - 1) ++
      natBits 5 pll := by
  have h01 := header2_bits 2 code l (by omega) hc
  have key2 : ∀ (b : Fin 8) (p : Fin 32), natBits 8 ((BitVec.ofNat 8 b.val <<< 5) ||| (BitVec.ofNat 8 p.val &&& 0x1f#8)).toNat =
      natBits 3 b.val ++ natBits 5 p.val := by decide +kernel
  have key3 : ∀ (b : Fin 8) (p : Fin 32),
      natBits 8 ((((BitVec.ofNat 8 (b.val + 1) - 1#8) &&& 7#8) <<< 5) ||| (BitVec.ofNat 8 p.val &&& 0x1f#8)).toNat =
      natBits 3 b.val ++ natBits 5 p.val := by decide +kernel
  have hh0 : ∀ c : Fin 32, ∀ b : Byte, (0x80#8 ||| (BitVec.ofNat 8 c.val <<< 1) ||| b) =
      ((BitVec.ofNat 8 2 <<< 6) ||| ((BitVec.ofNat 8 c.val &&& 0x1f#8) <<< 1) ||| b) := by decide +kernel
  have k2 := key2 ⟨bw - 1, by omega⟩ ⟨pcode, hpc⟩
  have k3 := key3 ⟨pgw - 1, by omega⟩ ⟨pll, hpll⟩
  simp only [Nat.sub_add_cancel hpgw.1] at k2 k3
  rw [hh0 ⟨code, hc⟩]
  have : ∀ a b c d : Byte, bytesBits [a, b, c, d] = bytesBits [a, b] ++ natBits 8 c.toNat ++ natBits 8 d.toNat := by
    intros; simp [bytesBits]
  rw [this, k2, k3]
  simp only [header2] at h01
  rw [h01]
  simp only [List.append_assoc]

theorem base_bits (m : U64) (neg : Bool) (bw : Nat) (hbw : 1 ≤ bw ∧ bw ≤ 8) (hm : m.toNat < 2 ^ (8 * bw - 1)) :
    bytesBits (beBytes (if neg then m ||| (1#64 <<< ((bw - 1) * 8 + 7)) else m) bw) = neg :: natBits (8 * bw - 1) m.toNat := by
  rw [bytesBits_beBytes]
  have e : (bw - 1) * 8 + 7 = 8 * bw - 1 := by omega
  have hX : (if neg then m ||| (1#64 <<< ((bw - 1) * 8 + 7)) else m).toNat = neg.toNat * 2 ^ (8 * bw - 1) + m.toNat := by
    cases neg
    · simp
    · simp only [if_true, e, Bool.toNat_true]
      rw [or_shl_toNat m 1#64 (8 * bw - 1) hm (by
        have : (2 : Nat) ^ (8 * bw - 1) < 2 ^ 64 := Nat.pow_lt_pow_right (by omega) (by omega)
        simpa using this)]
      simp; omega
  rw [hX]
  have := natBits_mul_add 1 (8 * bw - 1) neg.toNat m.toNat hm
  rw [show 1 + (8 * bw - 1) = 8 * bw by omega] at this
  rw [this]
  cases neg <;> rfl

theorem patched_format (code bw pcode pgw : Nat) (base : Int) (values : List Nat) (patches : List (Nat × Nat))
    (hw : (RleBlock.patched code bw pcode pgw base values patches).WF true)
    (hlt : pgw + codeWidth pcode < 64) (hfit : Fits 0 (pgw + codeWidth pcode) patches.length)
    (s tail : Bytes) (hs : bytesBits s = (RleBlock.patched code bw pcode pgw base values patches).bits true) :
    (decodeRaw true).runBuf (s ++ tail) =
      .ok (((RleBlock.patched code bw pcode pgw base values patches).ints true).map (rawOf true), tail) := by
  obtain ⟨c1, l1, l2, hv, b1, b2, hb, c2, p1, p2, hpll, hp, hpf⟩ := hw
  simp only [RleBlock.bits] at hs
  obtain ⟨m, hm⟩ : ∃ m : U64, m = BitVec.ofNat 64 base.natAbs := ⟨_, rfl⟩
  have hmn : m.toNat = base.natAbs := by
    rw [hm, BitVec.toNat_ofNat]
    apply Nat.mod_eq_of_lt
    exact Nat.lt_of_lt_of_le hb (Nat.pow_le_pow_right (by omega) (by omega))
  rw [← patch_header_bits code pcode c1 c2 bw pgw patches.length _ ⟨b1, b2⟩ ⟨p1, p2⟩ hpll, ← hmn,
    ← base_bits m (decide (base < 0)) bw ⟨b1, b2⟩ (by rw [hmn]; exact hb)] at hs
  simp only [List.append_assoc] at hs
  obtain ⟨s1, rfl, hs1⟩ := bytesBits_cut hs
  clear hs
  obtain ⟨s2, rfl, hs⟩ := bytesBits_cut hs1
  clear hs1
  -- the two sections
  have hsec : ∃ a b, s2 = a ++ b ∧ bytesBits a = padded (values.flatMap (natBits (codeWidth code))) ∧
      bytesBits b = padded (patches.flatMap fun p => natBits pgw p.1 ++ natBits (codeWidth pcode) p.2) := by
    have hlen : (padded (values.flatMap (natBits (codeWidth code)))).length % 8 = 0 := by
      simp only [padded, List.length_append, List.length_replicate]; omega
    generalize padded (values.flatMap (natBits (codeWidth code))) = X at *
    have htot := bytesBits_length s2
    rw [hs, List.length_append] at htot
    refine ⟨s2.take (X.length / 8), s2.drop (X.length / 8), (List.take_append_drop _ _).symm, ?_⟩
    have hsplit := bytesBits_append (s2.take (X.length / 8)) (s2.drop (X.length / 8))
    rw [List.take_append_drop, hs] at hsplit
    have := List.append_inj hsplit (by rw [bytesBits_length, List.length_take]; omega)
    exact ⟨this.1.symm, this.2.symm⟩
  obtain ⟨a, b, rfl, ha, hbb⟩ := hsec
  have r1 := read_section (codeWidth code) values (codeWidth_le code c1) hv (codeWidth_fits code c1 _) a ha (b ++ tail)
  obtain ⟨entries, hen⟩ : ∃ entries, entries = patches.map fun p => p.1 * 2 ^ codeWidth pcode + p.2 := ⟨_, rfl⟩
  have hbe : bytesBits b = padded (entries.flatMap (natBits (pgw + codeWidth pcode))) := by
    rw [hbb, hen, List.flatMap_map]
    congr 1
    clear hpf hen hbb hs hfit hpll r1
    induction patches with
    | nil => rfl
    | cons p ps ih =>
      simp only [List.flatMap_cons]
      rw [ih fun p hp' => hp p (by simp [hp']), natBits_mul_add _ _ _ _ (hp p (by simp)).2]
  have hel : entries.length = patches.length := by rw [hen, List.length_map]
  have r2 := read_section (pgw + codeWidth pcode) entries (by omega) (by
      intro e he
      rw [hen] at he
      obtain ⟨p, hp', rfl⟩ := List.mem_map.mp he
      obtain ⟨q1, q2⟩ := hp p hp'
      rw [Nat.pow_add]
      calc _ < p.1 * 2 ^ codeWidth pcode + 2 ^ codeWidth pcode := by omega
        _ = (p.1 + 1) * 2 ^ codeWidth pcode := by rw [Nat.add_mul, Nat.one_mul]
        _ ≤ 2 ^ pgw * 2 ^ codeWidth pcode := Nat.mul_le_mul_right _ q1) (by rw [hel]; exact hfit) b hbe tail
  rw [hel] at r2
  have hent : entries.map (BitVec.ofNat 64) = patches.map fun p => entryOf (codeWidth pcode) p.1 (BitVec.ofNat 64 p.2) := by
    rw [hen, List.map_map]
    apply List.map_congr_left
    intro p hp'
    obtain ⟨q1, q2⟩ := hp p hp'
    apply BitVec.eq_of_toNat_eq
    have hpto : (BitVec.ofNat 64 p.2).toNat = p.2 := by
      rw [BitVec.toNat_ofNat]
      apply Nat.mod_eq_of_lt
      exact Nat.lt_of_lt_of_le q2 (Nat.pow_le_pow_right (by omega) (by omega))
    have hb : p.1 * 2 ^ codeWidth pcode + p.2 < 2 ^ 64 := by
      have h1 : p.1 * 2 ^ codeWidth pcode + p.2 < 2 ^ (pgw + codeWidth pcode) := by
        rw [Nat.pow_add]
        calc _ < p.1 * 2 ^ codeWidth pcode + 2 ^ codeWidth pcode := by omega
          _ = (p.1 + 1) * 2 ^ codeWidth pcode := by rw [Nat.add_mul, Nat.one_mul]
          _ ≤ 2 ^ pgw * 2 ^ codeWidth pcode := Nat.mul_le_mul_right _ q1
      exact Nat.lt_of_lt_of_le h1 (Nat.pow_le_pow_right (by omega) (by omega))
    rw [entry_toNat _ _ _ (by rw [hpto]; exact q2) pgw q1 (by omega), hpto]
    simp only [Function.comp, BitVec.toNat_ofNat]
    exact Nat.mod_eq_of_lt hb
  have hbase : patchBase (beBytes (if decide (base < 0) then m ||| (1#64 <<< ((bw - 1) * 8 + 7)) else m) bw) = BitVec.ofInt 64 base := by
    have := patchBase_spec m (decide (base < 0)) (bw - 1) (by omega) (by
      rw [hmn, show 8 * (bw - 1) + 7 = 8 * bw - 1 by omega]; exact hb)
    rw [Nat.sub_add_cancel b1] at this
    rw [this, hm]
    by_cases hneg : base < 0
    · simp only [hneg, decide_true, if_true]
      rw [show base = -(base.natAbs : Int) by omega, BitVec.ofInt_neg]
      simp
    · simp only [hneg, decide_false, Bool.false_eq_true, if_false]
      rw [show base = (base.natAbs : Int) by omega]
      simp
  have happ := applyPatches_add (codeWidth code) (codeWidth pcode) pgw (by omega) (by omega) (BitVec.ofInt 64 base) patches hp 0 0 values hpf
    (fun i _ h => hv _ (List.getElem_mem h))
  rw [hent] at r2
  have r3 := readPatches_eq (codeWidth code) (codeWidth pcode) pgw (BitVec.ofInt 64 base) patches.length forgetBits 0
    (values.map fun d => zigzag (BitVec.ofInt 64 base + BitVec.ofNat 64 d)) _ _ tail r2 _ happ
  have hcn : (BitVec.ofNat 8 code).toNat < 32 := by rw [BitVec.toNat_ofNat]; omega
  have hpn : (BitVec.ofNat 8 pcode).toNat < 32 := by rw [BitVec.toNat_ofNat]; omega
  have hh := patch_header (BitVec.ofNat 8 code) (BitVec.ofNat 8 pcode) hcn hpn bw pgw patches.length (values.length - 1) ⟨b1, b2⟩ ⟨p1, p2⟩ hpll
  simp only at hh
  obtain ⟨g1, g2, g3, g4, g5, g6, g7⟩ := hh
  have hbl : (beBytes (if decide (base < 0) then m ||| (1#64 <<< ((bw - 1) * 8 + 7)) else m) bw).length = bw := beBytes_length _ _
  generalize (beBytes (if decide (base < 0) then m ||| (1#64 <<< ((bw - 1) * 8 + 7)) else m) bw) = BB at *
  generalize (0x80#8 ||| BitVec.ofNat 8 code <<< 1 ||| BitVec.ofNat 8 ((values.length - 1) >>> 8 % 2)) = h0 at *
  generalize (BitVec.ofNat 8 (bw - 1) <<< 5 ||| BitVec.ofNat 8 pcode &&& 0x1f#8) = h2 at *
  generalize ((BitVec.ofNat 8 pgw - 1#8 &&& 7#8) <<< 5 ||| BitVec.ofNat 8 patches.length &&& 0x1f#8) = h3 at *
  generalize BitVec.ofNat 8 (values.length - 1) = h1 at *
  have e0 : ¬ (2 = 0) := by omega
  have e1 : ¬ (2 = 1) := by omega
  have e3 : ¬ (codeWidth pcode + pgw ≥ 64) := by omega
  have hfull : ∀ t, (Dec.full 3).runBuf (h1 :: h2 :: h3 :: t) = .ok ([h1, h2, h3], t) := by
    intro t
    have := Dec.runBuf_full_append 3 [h1, h2, h3] t rfl
    simpa using this
  have hvl' : (values.length - 1) % 512 + 1 = values.length := by omega
  have hmap : (values.map (BitVec.ofNat 64)).map (fun d => zigzag (BitVec.ofInt 64 base + d)) =
      values.map fun d => zigzag (BitVec.ofInt 64 base + BitVec.ofNat 64 d) := by rw [List.map_map]; rfl
  simp only [List.cons_append, List.nil_append, List.append_assoc, decodeRaw, Dec.runBuf_bind, Dec.runBuf_byte_cons,
    Res.ok_bind, g1, if_neg e0, if_neg e1, if_true, decodePatched, hfull, List.getD_cons_zero, List.getD_cons_succ, g2,
    (codeWidth_dec code c1).1, Dec.ofRes, Dec.runBuf_ret, g5, (codeWidth_dec pcode c2).1, g6, if_neg e3, g4,
    Dec.runBuf_full_append _ BB _ hbl, g3, hvl', r1, hbase, g7, hmap, r3]
  congr 2
  simp only [RleBlock.ints, List.map_map]
  apply List.map_congr_left
  intro d _
  simp only [Function.comp, rawOf, if_true, ofInt_add]
  simp

end Goorc
