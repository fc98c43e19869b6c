import Verif.Proofs.IntMono
/-
C21-C25: whole integer columns.
-/
namespace Goorc

/-- Encoding unsigned integers with a fresh encoder, flushing, and decoding until the bytes run out gives
them back. -/
def ReadsBackU (xs : List U64) : Prop :=
  ∀ p, ∃ out, intEnc.encodeFlush (newIntRLV2 false p) (xs.map .u64) = .ok out ∧ decodeAll (decodeUInt false) out = .ok xs

/-- The same for signed integers. -/
def ReadsBackI (xs : List U64) : Prop :=
  ∀ p, ∃ out, intEnc.encodeFlush (newIntRLV2 true p) (xs.map .i64) = .ok out ∧ decodeAll (decodeInt true) out = .ok xs

/-- Stored form of what both have in common. -/
def ReadsBack (signed : Bool) (vs : List U64) : Prop :=
  ∀ p, ∃ out, intEnc.encodeFlush (newIntRLV2 signed p) (vs.map (toVal signed)) = .ok out ∧
    Decodes (decodeRaw signed) out vs

theorem ReadsBack.unsigned {vs : List U64} (h : ReadsBack false vs) : ReadsBackU vs := by
  intro p
  obtain ⟨out, h1, h2⟩ := h p
  exact ⟨out, h1, decodeAll_of_decodes (decodes_typed false out vs h2)⟩

theorem ReadsBack.signed {xs : List U64} (h : ReadsBack true (xs.map zigzag)) : ReadsBackI xs := by
  intro p
  obtain ⟨out, h1, h2⟩ := h p
  rw [toVal_signed] at h1
  have := decodeAll_of_decodes (decodes_typed true out _ h2)
  refine ⟨out, h1, ?_⟩
  simp only [if_true, List.map_map] at this
  rw [this]
  congr 1
  conv => rhs; rw [← List.map_id xs]
  apply List.map_congr_left
  intro x _
  simp [unZigzag_zigzag]

/-! ### C21, C22: round trips -/

/-- The integers passed to `Encode` in a history, in order. -/
def intArgs : List EncOp → List U64
  | [] => []
  | .encode (.i64 v) :: ops => v :: intArgs ops
  | .encode (.u64 v) :: ops => v :: intArgs ops
  | _ :: ops => intArgs ops

theorem rawInts_eq (signed : Bool) (ops : List EncOp) (e e' : IntEnc) (hs : e.signed = signed) (out : Bytes)
    (h : intEnc.run e ops = .ok (e', out)) :
    rawInts signed ops = (intArgs ops).map (fun v => if signed then zigzag v else v) := by
  induction ops generalizing e out with
  | nil => rfl
  | cons op ops ih =>
    simp only [Enc.run] at h
    obtain ⟨⟨e1, o1⟩, h1, h⟩ := Res.bind_ok_inv h
    obtain ⟨⟨e2, o2⟩, h2, h⟩ := Res.bind_ok_inv h
    have hs1 : e1.signed = signed := by
      cases op with
      | encode v =>
        simp only [Enc.step, intEnc, IntEnc.encode] at h1
        obtain ⟨raw, g1, h1⟩ := Res.bind_ok_inv h1
        obtain ⟨⟨o, r⟩, g2, h1⟩ := Res.bind_ok_inv h1
        simp only [Res.pure_eq, Res.ok.injEq, Prod.mk.injEq] at h1
        rw [← h1.1]; exact hs
      | flush =>
        simp only [Enc.step, intEnc, IntEnc.flush] at h1
        by_cases hv : e.values = []
        · rw [if_pos hv] at h1
          simp only [Res.ok.injEq, Prod.mk.injEq] at h1
          rw [← h1.1]; exact hs
        · rw [if_neg hv] at h1
          obtain ⟨⟨o, r⟩, g2, h1⟩ := Res.bind_ok_inv h1
          simp only [Res.pure_eq, Res.ok.injEq, Prod.mk.injEq] at h1
          rw [← h1.1]; exact hs
    simp only [Res.pure_eq, Res.ok.injEq, Prod.mk.injEq] at h
    obtain ⟨rfl, -⟩ := h
    have hi := ih e1 hs1 o2 h2
    cases op with
    | flush => simpa [rawInts, intArgs] using hi
    | encode v =>
      cases v with
      | i64 v => simp only [rawInts, intArgs, List.map_cons, hi]
      | u64 v =>
        cases signed with
        | false => simp only [rawInts, intArgs, List.map_cons, hi]; rfl
        | true =>
          simp only [Enc.step, intEnc, IntEnc.encode, hs, IntEnc.rawValue, if_true, Res.err_bind] at h1
          cases h1
      | _ => simpa [rawInts, intArgs] using hi

/-- **C22** (partial) For any interleaving of `Encode` and `Flush` calls that ends in a `Flush`, if no call
reports an error and the side conditions of `RunSafe` hold along the history (the conditions under which
C17-C20 are true), the concatenated output decodes to all the values, in order. Missing: histories that
violate a side condition, for which the statement is false (`int_history_false`). -/
theorem int_history_partial (signed p : Bool) (ops : List EncOp) (e : IntEnc) (out : Bytes)
    (h : intEnc.run (newIntRLV2 signed p) (ops ++ [.flush]) = .ok (e, out))
    (hs : RunSafe (newIntRLV2 signed p) (ops ++ [.flush])) :
    decodeAll (if signed then decodeInt true else decodeUInt false) out = .ok (intArgs ops) := by
  have hraw := rawInts_eq signed _ _ _ rfl _ h
  obtain ⟨-, used, h2, h3⟩ := intRun_decodes _ _ _ _ h hs
  have hval : e.values = [] := by
    rw [Enc.run_append] at h
    obtain ⟨⟨e1, o1⟩, h1, h⟩ := Res.bind_ok_inv h
    obtain ⟨⟨e2, o2⟩, h4, h⟩ := Res.bind_ok_inv h
    simp only [Enc.run] at h4
    obtain ⟨⟨e3, o3⟩, h5, h4⟩ := Res.bind_ok_inv h4
    simp only [Res.ok_bind, Res.pure_eq, Res.ok.injEq, Prod.mk.injEq] at h h4
    rw [← h.1, ← h4.1]
    exact flush_values _ _ _ h5
  have hargs : intArgs (ops ++ [.flush]) = intArgs ops := by
    clear h hs hraw h2
    induction ops with
    | nil => rfl
    | cons op ops ih =>
      cases op with
      | flush => simpa [intArgs] using ih
      | encode v => cases v <;> simp [intArgs, ih]
  rw [hargs] at hraw
  have hu : used = (intArgs ops).map (fun v => if signed then zigzag v else v) := by
    rw [hval, List.append_nil] at h2
    rw [← h2, ← hraw]
    simp [newIntRLV2]
  have hd := decodeAll_of_decodes (decodes_typed signed out used h3)
  have hsgn : (newIntRLV2 signed p).signed = signed := rfl
  rw [hd, hu]
  congr 1
  cases signed with
  | false => simp
  | true =>
    simp only [if_true, List.map_map]
    conv => rhs; rw [← List.map_id (intArgs ops)]
    apply List.map_congr_left
    intro x _
    simp [unZigzag_zigzag]

/-- **C22** is false: flushing after a single 0 already loses the value, and the following values with it. -/
theorem int_history_false : ∃ e out,
    intEnc.run (newIntRLV2 false false) [.encode (.u64 0), .flush, .encode (.u64 5), .flush] = .ok (e, out) ∧
      decodeAll (decodeUInt false) out ≠ .ok [0, 5] :=
  ⟨_, _, rfl, by decide +kernel⟩

/-- A history with two flushes meets the conditions of `int_history_partial`. -/
example : ∃ e out, intEnc.run (newIntRLV2 true true)
      [.encode (.i64 7), .flush, .encode (.i64 1), .encode (.i64 2), .encode (.i64 4), .encode (.i64 9), .flush] = .ok (e, out) ∧
    decodeAll (decodeInt true) out = .ok [7, 1, 2, 4, 9] := ⟨_, _, rfl, by decide +kernel⟩

example : RunSafe (newIntRLV2 false false) [.encode (.u64 7), .flush, .encode (.u64 1), .flush] := by
  refine ⟨fun _ _ h => absurd h (by decide), ?_⟩
  intro e1 o1 h1
  cases h1
  refine ⟨fun _ => Or.inr ⟨by decide, 7, by decide, by decide⟩, ?_⟩
  intro e2 o2 h2
  cases h2
  refine ⟨fun _ _ h => absurd h (by decide), ?_⟩
  intro e3 o3 h3
  cases h3
  refine ⟨fun _ => Or.inr ⟨by decide, 1, by decide, by decide⟩, ?_⟩
  intro e4 o4 _
  trivial

theorem const_readsBack (signed : Bool) (n : Nat) (x : U64) (hx : x.toNat < 2 ^ 56)
    (h : n % 512 = 0 ∨ 11 ≤ n % 512 ∨ NoZeroByte x) : ReadsBack signed (List.replicate n x) := by
  intro p
  refine encodeFlush_blocks signed p _ (const_full signed x hx n) ?_
  intro hne
  have hd : (List.replicate n x).drop ((List.replicate n x).length / 512 * 512) = List.replicate (n % 512) x := by
    rw [List.drop_replicate, List.length_replicate]; congr 1; omega
  rw [hd] at hne ⊢
  generalize hm : n % 512 = m at *
  have hm0 : m ≠ 0 := by rintro rfl; simp at hne
  by_cases h11 : 11 ≤ m
  · obtain ⟨o, h1, h2⟩ := writeStep_const_long signed true x hx m h11 (by omega)
    exact ⟨o, intWrite_one signed true _ (by rw [List.length_replicate]; omega) o h1, h2⟩
  · have hz : NoZeroByte x := by rcases h with h | h | h <;> first | omega | exact h
    by_cases h3 : m ≤ 3
    · refine short_rest signed _ hne (by simpa using h3) ⟨x, List.mem_replicate.mpr ⟨hm0, rfl⟩, ?_⟩
      rintro rfl
      obtain ⟨n, h1, -, -, h4⟩ := hz
      exact h4 0 h1 (by simp)
    · have h1 := writeStep_const_short signed true x m (by omega) (by omega)
      refine ⟨_, intWrite_one signed true _ (by rw [List.length_replicate]; omega) _ h1, decodes_raw_single fun tail => ?_⟩
      have := noZeroByte_block signed x hz (m - 3) (by omega) tail
      rwa [show m - 3 + 3 = m by omega] at this

/-- **C21** (partial: constant columns) A column of any number of equal unsigned values below 2^56 without a
zero byte in the middle reads back. -/
theorem uint_const_roundtrip_partial (n : Nat) (x : U64) (hx : x.toNat < 2 ^ 56) (hz : NoZeroByte x) :
    ReadsBackU (List.replicate n x) := (const_readsBack false n x hx (.inr (.inr hz))).unsigned

/-- The same for signed values: the conditions apply to the zigzag value. -/
theorem int_const_roundtrip_partial (n : Nat) (x : U64) (hx : (zigzag x).toNat < 2 ^ 56) (hz : NoZeroByte (zigzag x)) :
    ReadsBackI (List.replicate n x) := by
  apply ReadsBack.signed
  rw [List.map_replicate]
  exact const_readsBack true n _ hx (.inr (.inr hz))

theorem zeros_fail (signed : Bool) (n : Nat) (h1 : 1 ≤ n % 512) (h2 : n % 512 ≤ 10) (p : Bool) :
    ∃ out, intEnc.encodeFlush (newIntRLV2 signed p) ((List.replicate n 0).map (toVal signed)) = .ok out ∧
      decodeAll (decodeRaw signed) out = .err .eof := by
  obtain ⟨e', out, g1, g2, g3, g4⟩ := encode_blocks signed (List.replicate n 0) (const_full signed 0 (by decide) n)
    (newIntRLV2 signed p) rfl rfl
  have hd : (List.replicate n (0 : U64)).drop ((List.replicate n (0 : U64)).length / 512 * 512) = List.replicate (n % 512) 0 := by
    rw [List.drop_replicate, List.length_replicate]; congr 1; omega
  rw [hd] at g3
  generalize n % 512 = m at *
  obtain ⟨o, k1, k2, k3⟩ : ∃ o, intWrite signed true (List.replicate m 0) = .ok (o, []) ∧ o ≠ [] ∧
      (decodeRaw signed).runBuf o = .err .eof := by
    by_cases hm : m ≤ 3
    · obtain ⟨o, d1, d2, d3⟩ := direct_zeros signed m h1 (by omega) []
      refine ⟨o, ?_, fun h => by rw [h] at d2; simp at d2, ?_⟩
      · simp only [intWrite]
        rw [if_pos (by simpa using hm), d1]; rfl
      · rw [List.append_nil] at d3
        rw [d3, readBitsN_eof 1 _ h1 forgetBits [] (by simp [forgetBits])]
    · have s1 := writeStep_const_short signed true 0 m (by omega) h2
      refine ⟨_, intWrite_one signed true _ (by rw [List.length_replicate]; omega) _ s1, by simp [writeShortRepeat], ?_⟩
      apply shortRepeat_short signed (m - 3) (by omega)
      intro t _ _
      exact ⟨0, by omega, by decide⟩
  have hf : intEnc.step e' .flush = .ok ({ e' with values := [] }, o) := by
    have hne : List.replicate m (0 : U64) ≠ [] := by simp; omega
    simp only [Enc.step, intEnc, IntEnc.flush, g3, if_neg hne, g2, k1, Res.ok_bind, Res.pure_eq]
  refine ⟨out ++ o, ?_, decodeAll_bad_tail g4 _ k2 k3⟩
  simp only [Enc.encodeFlush, Enc.run_append, g1, Res.ok_bind, Enc.run, hf, Res.pure_eq, List.append_nil]

/-- A column of zeros reads back exactly when the values left over after the blocks of 512 are none or at
least 11: shorter rests are written in a form that cannot be read. -/
theorem uint_zeros_roundtrip_iff (n : Nat) : ReadsBackU (List.replicate n 0) ↔ n % 512 = 0 ∨ 11 ≤ n % 512 := by
  constructor
  · intro h
    apply Classical.byContradiction
    intro hn
    obtain ⟨out, h1, h2⟩ := zeros_fail false n (by omega) (by omega) false
    obtain ⟨out', g1, g2⟩ := h false
    rw [show (List.replicate n (0 : U64)).map (toVal false) = (List.replicate n 0).map .u64 from rfl] at h1
    rw [h1] at g1
    cases g1
    rw [show decodeUInt false = decodeRaw false from rfl, h2] at g2
    cases g2
  · rintro h
    exact (const_readsBack false n 0 (by decide) (by omega)).unsigned

theorem climb_readsBack (signed up : Bool) (vs : List U64) (h : Steps (Climb signed up) vs)
    (hx : ∀ v ∈ vs, v.toNat < 2 ^ 56) (hl : vs.length % 512 = 1 → vs.getLast? ≠ some 0) : ReadsBack signed vs := by
  intro p
  refine encodeFlush_blocks signed p vs ?_ ?_
  · intro c hc hlen
    have hne : c ≠ [] := by rintro rfl; simp at hlen
    obtain ⟨o, h1, h2⟩ := climb_step signed up false c (by omega) (by omega) (h.infix hc) (by
      obtain ⟨x, l, rfl⟩ := List.exists_cons_of_ne_nil hne
      exact hx x (hc.subset (by simp)))
    exact ⟨o, intWrite_one signed false _ (by omega) o h1, h2⟩
  · intro hne
    have hst := h.drop (vs.length / 512 * 512)
    have hsub : ∀ v ∈ vs.drop (vs.length / 512 * 512), v.toNat < 2 ^ 56 := fun v hv => hx v (List.mem_of_mem_drop hv)
    have hlen : (vs.drop (vs.length / 512 * 512)).length = vs.length % 512 := by rw [List.length_drop]; omega
    have hlast : vs.length % 512 = 1 → (vs.drop (vs.length / 512 * 512)).getLast? ≠ some 0 := by
      intro h1
      rw [List.getLast?_drop, if_neg (by omega)]
      exact hl h1
    generalize vs.drop (vs.length / 512 * 512) = r at *
    by_cases h3 : r.length ≤ 3
    · refine short_rest signed r hne h3 ?_
      match r, hne with
      | [v], _ => exact ⟨v, by simp, by simpa using hlast (by simpa using hlen.symm)⟩
      | v :: w :: l, _ =>
        have hvw := leadRun_climb signed up v w hst.1
        by_cases hv : v = 0
        · exact ⟨w, by simp, by rw [← hv]; exact hvw⟩
        · exact ⟨v, by simp, hv⟩
    · obtain ⟨o, h1, h2⟩ := climb_step signed up true r (by omega) (by omega) hst (by
        obtain ⟨x, l, rfl⟩ := List.exists_cons_of_ne_nil hne
        exact hsub x (by simp))
      exact ⟨o, intWrite_one signed true _ (by omega) o h1, h2⟩

/-- **C21** (partial: sequences such as keys and counters) Unsigned values below 2^56 that rise by 1 to 2047
from each to the next, in any number, read back; when one value is left over after the blocks of 512 it must
not be 0. -/
theorem uint_rising_roundtrip_partial (xs : List U64)
    (h : Steps (fun a b => a.toNat < b.toNat ∧ b.toNat - a.toNat < 2048) xs)
    (hx : ∀ x ∈ xs, x.toNat < 2 ^ 56) (hl : xs.length % 512 = 1 → xs.getLast? ≠ some 0) : ReadsBackU xs :=
  (climb_readsBack false true xs (h.mono fun a b hab => by simp [Climb, intOf]; omega) hx hl).unsigned

/-- Falling sequences. -/
theorem uint_falling_roundtrip_partial (xs : List U64)
    (h : Steps (fun a b => b.toNat < a.toNat ∧ a.toNat - b.toNat < 2048) xs)
    (hx : ∀ x ∈ xs, x.toNat < 2 ^ 56) (hl : xs.length % 512 = 1 → xs.getLast? ≠ some 0) : ReadsBackU xs :=
  (climb_readsBack false false xs (h.mono fun a b hab => by simp [Climb, intOf]; omega) hx hl).unsigned

theorem zigzag_eq_zero {x : U64} (h : zigzag x = 0) : x = 0 := by
  have := congrArg unZigzag h
  rw [unZigzag_zigzag] at this
  rw [this]; decide

theorem steps_zigzag {R : U64 → U64 → Prop} {xs : List U64} (h : Steps R xs) :
    Steps (fun a b => R (unZigzag a) (unZigzag b)) (xs.map zigzag) := by
  apply Steps.map zigzag
  exact h.mono fun a b hab => by simpa [unZigzag_zigzag] using hab

/-- Signed rising sequences. -/
theorem int_rising_roundtrip_partial (xs : List U64)
    (h : Steps (fun a b => a.toInt < b.toInt ∧ b.toInt - a.toInt < 2048) xs)
    (hx : ∀ x ∈ xs, (zigzag x).toNat < 2 ^ 56) (hl : xs.length % 512 = 1 → xs.getLast? ≠ some 0) : ReadsBackI xs := by
  apply ReadsBack.signed
  refine climb_readsBack true true _ ((steps_zigzag h).mono fun a b hab => by simpa [Climb, intOf] using hab) ?_ ?_
  · intro v hv
    obtain ⟨x, hx', rfl⟩ := List.mem_map.mp hv
    exact hx x hx'
  · intro h1 h0
    rw [List.getLast?_map] at h0
    cases hg : xs.getLast? with
    | none => simp [hg] at h0
    | some y =>
      rw [hg] at h0
      simp only [Option.map_some, Option.some.injEq] at h0
      exact hl (by simpa using h1) (by rw [hg, zigzag_eq_zero h0])

/-- Signed falling sequences. -/
theorem int_falling_roundtrip_partial (xs : List U64)
    (h : Steps (fun a b => b.toInt < a.toInt ∧ a.toInt - b.toInt < 2048) xs)
    (hx : ∀ x ∈ xs, (zigzag x).toNat < 2 ^ 56) (hl : xs.length % 512 = 1 → xs.getLast? ≠ some 0) : ReadsBackI xs := by
  apply ReadsBack.signed
  refine climb_readsBack true false _ ((steps_zigzag h).mono fun a b hab => by simpa [Climb, intOf] using hab) ?_ ?_
  · intro v hv
    obtain ⟨x, hx', rfl⟩ := List.mem_map.mp hv
    exact hx x hx'
  · intro h1 h0
    rw [List.getLast?_map] at h0
    cases hg : xs.getLast? with
    | none => simp [hg] at h0
    | some y =>
      rw [hg] at h0
      simp only [Option.map_some, Option.some.injEq] at h0
      exact hl (by simpa using h1) (by rw [hg, zigzag_eq_zero h0])

/-- The hypotheses hold for instance for the row numbers 0, 1, ..., n-1. -/
example (n : Nat) (hn : n < 2 ^ 56) (h1 : n ≠ 1) : ReadsBackU ((List.range n).map (BitVec.ofNat 64)) := by
  have key : ∀ s m, s + m ≤ 2 ^ 56 →
      Steps (fun a b : U64 => a.toNat < b.toNat ∧ b.toNat - a.toNat < 2048) ((List.range' s m).map (BitVec.ofNat 64)) := by
    intro s m
    induction m generalizing s with
    | zero => intro _; trivial
    | succ m ih =>
      intro hb
      cases m with
      | zero => trivial
      | succ m =>
        refine ⟨?_, ih (s + 1) (by omega)⟩
        simp only [BitVec.toNat_ofNat]
        omega
  apply uint_rising_roundtrip_partial
  · rw [List.range_eq_range']; exact key 0 n (by omega)
  · intro x hx
    obtain ⟨i, hi, rfl⟩ := List.mem_map.mp hx
    rw [BitVec.toNat_ofNat]
    have := List.mem_range.mp hi
    omega
  · intro _ h0
    rw [List.getLast?_map, List.getLast?_range] at h0
    by_cases hz : n = 0
    · subst hz; simp at h0
    · rw [if_neg hz] at h0
      simp only [Option.map_some, Option.some.injEq] at h0
      have := congrArg BitVec.toNat h0
      simp at this
      omega

/-- **C21** is false: a single 0 is lost. -/
theorem int_roundtrip_false : ¬ ReadsBackU [0] ∧ ¬ ReadsBackI [0] := by
  constructor
  · intro h
    have := (uint_zeros_roundtrip_iff 1).mp h
    omega
  · intro h
    obtain ⟨out, h1, h2⟩ := h false
    cases h1
    revert h2
    decide +kernel

/-! ### C23 -/

/-- **C23** With positions enabled, after any history that ends in an `Encode` and satisfies the side
conditions of C22, `GetPosition` is a single number `n` such that the bytes emitted so far decode to all values
but the last `n`. (The number is exact even without the side conditions; they are needed for decoding only.) -/
theorem int_position_partial (signed : Bool) (ops : List EncOp) (v : GoVal) (e : IntEnc) (out : Bytes)
    (h : intEnc.run (newIntRLV2 signed true) (ops ++ [.encode v]) = .ok (e, out))
    (hs : RunSafe (newIntRLV2 signed true) (ops ++ [.encode v])) (hlen : ops.length < 2 ^ 64 - 1) :
    ∃ n before pending, intEnc.getPosition e = [n] ∧ intArgs (ops ++ [.encode v]) = before ++ pending ∧
      pending.length = n ∧
      decodeAll (if signed then decodeInt true else decodeUInt false) out = .ok before := by
  have hraw := rawInts_eq signed _ _ _ rfl _ h
  obtain ⟨-, used, h2, h3⟩ := intRun_decodes _ _ _ _ h hs
  have hpos : ∀ (ops : List EncOp) (e e' : IntEnc) (out : Bytes), e.position ≠ -1 → intEnc.run e ops = .ok (e', out) →
      e'.position ≠ -1 := by
    intro ops
    induction ops with
    | nil => intro e e' out hp h; cases h; exact hp
    | cons op ops ih =>
      intro e e' out hp h
      simp only [Enc.run] at h
      obtain ⟨⟨e1, o1⟩, h1, h⟩ := Res.bind_ok_inv h
      obtain ⟨⟨e2, o2⟩, h2, h⟩ := Res.bind_ok_inv h
      simp only [Res.pure_eq, Res.ok.injEq, Prod.mk.injEq] at h
      rw [← h.1]
      refine ih e1 e2 o2 ?_ h2
      cases op with
      | encode v =>
        simp only [Enc.step, intEnc, IntEnc.encode] at h1
        obtain ⟨raw, g1, h1⟩ := Res.bind_ok_inv h1
        obtain ⟨⟨o, r⟩, g2, h1⟩ := Res.bind_ok_inv h1
        simp only [Res.pure_eq, Res.ok.injEq, Prod.mk.injEq] at h1
        rw [← h1.1]
        simp only
        rw [if_pos hp]
        omega
      | flush =>
        simp only [Enc.step, intEnc, IntEnc.flush] at h1
        by_cases hv : e.values = []
        · rw [if_pos hv] at h1
          simp only [Res.ok.injEq, Prod.mk.injEq] at h1
          rw [← h1.1]; exact hp
        · rw [if_neg hv] at h1
          obtain ⟨⟨o, r⟩, g2, h1⟩ := Res.bind_ok_inv h1
          simp only [Res.pure_eq, Res.ok.injEq, Prod.mk.injEq] at h1
          rw [← h1.1]; exact hp
  have hp : e.position = (e.values.length : Int) := by
    rw [Enc.run_append] at h
    obtain ⟨⟨e1, o1⟩, h1, h⟩ := Res.bind_ok_inv h
    obtain ⟨⟨e2, o2⟩, h4, h⟩ := Res.bind_ok_inv h
    have hp1 := hpos _ _ _ _ (by simp [newIntRLV2]) h1
    simp only [Enc.run] at h4
    obtain ⟨⟨e3, o3⟩, h5, h4⟩ := Res.bind_ok_inv h4
    simp only [Res.ok_bind, Res.pure_eq, Res.ok.injEq, Prod.mk.injEq] at h h4
    rw [← h.1, ← h4.1]
    simp only [Enc.step, intEnc, IntEnc.encode] at h5
    obtain ⟨raw, g1, h5⟩ := Res.bind_ok_inv h5
    obtain ⟨⟨o, r⟩, g2, h5⟩ := Res.bind_ok_inv h5
    simp only [Res.pure_eq, Res.ok.injEq, Prod.mk.injEq] at h5
    rw [← h5.1]
    simp only
    rw [if_pos hp1]
  have hargs : ∀ ops, (intArgs ops).length ≤ ops.length := by
    intro ops
    induction ops with
    | nil => simp [intArgs]
    | cons op ops ih =>
      unfold intArgs
      split <;> simp_all <;> omega
  have h2' : (intArgs (ops ++ [.encode v])).map (fun v => if signed then zigzag v else v) = used ++ e.values := by
    rw [← hraw, ← h2]; simp [newIntRLV2]
  have hle : e.values.length ≤ ops.length + 1 := by
    have h4 := congrArg List.length h2'
    have h5 := hargs (ops ++ [.encode v])
    simp only [List.length_map, List.length_append, List.length_cons, List.length_nil] at h4 h5
    omega
  refine ⟨e.values.length, (intArgs (ops ++ [.encode v])).take used.length, (intArgs (ops ++ [.encode v])).drop used.length,
    ?_, (List.take_append_drop _ _).symm, ?_, ?_⟩
  · simp only [intEnc, IntEnc.getPosition, hp, intToU64]
    congr 1
    omega
  · have := congrArg List.length h2'
    simp only [List.length_map, List.length_append] at this
    rw [List.length_drop]; omega
  · have hd := decodeAll_of_decodes (decodes_typed signed out used h3)
    rw [hd]
    congr 1
    have hu : ((intArgs (ops ++ [.encode v])).take used.length).map (fun v => if signed then zigzag v else v) = used := by
      rw [List.map_take, h2', List.take_left]
    generalize (intArgs (ops ++ [.encode v])).take used.length = b at *
    cases signed with
    | false => simpa using hu.symm
    | true =>
      simp only [if_true] at hu ⊢
      rw [← hu, List.map_map]
      conv => rhs; rw [← List.map_id b]
      apply List.map_congr_left
      intro x _
      simp [unZigzag_zigzag]

/-- After a `Flush` the position is stale: nothing is pending, but `GetPosition` still says 1. -/
theorem int_position_false : ∃ e out,
    intEnc.run (newIntRLV2 false true) [.encode (.u64 5), .flush] = .ok (e, out) ∧
      decodeAll (decodeUInt false) out = .ok [5] ∧ intEnc.getPosition e = [1] :=
  ⟨_, _, rfl, by decide +kernel, by decide +kernel⟩

/-! ### C24 -/

/-- What one round of the block choice of the unsigned encoder needs. -/
def RoundOk (vs : List U64) : Prop :=
  if 3 ≤ leadRun vs then (leadRun vs ≤ 10 ∨ (vs.headD 0).toNat < 2 ^ 56)
  else ∀ dv, tryDelta false vs = some dv →
    (vs.headD 0).toNat < 2 ^ 56 ∧ (zigzag dv.base).toNat < 2 ^ 56 ∧ (∃ d ∈ dv.deltas, d ≠ 0) ∧
      maxWidth getAlignedWidth dv.deltas ≠ 12

/-- **C24** (partial, exact for one round of the unsigned encoder) Writing pending unsigned values fails in a
round exactly when `RoundOk` fails: a long run, or the start of an accepted delta run, of a value of 2^56 or
more; a first difference beyond 2^55; a delta run whose other differences are all zero or need 12 bits. -/
theorem uint_round_ok_iff_partial (toEnd : Bool) (vs : List U64) (hne : vs ≠ []) (hl : vs.length ≤ 512) :
    (∃ r, writeStep false toEnd vs = .ok r) ↔ RoundOk vs := by
  obtain ⟨v0, rest, rfl⟩ := List.exists_cons_of_ne_nil hne
  have hr : getRepeats (v0 :: rest) = .ok (leadRun (v0 :: rest)) := by
    simp only [getRepeats, leadRun, countEq_eq]
  have hlr : leadRun (v0 :: rest) ≤ (v0 :: rest).length := by
    simp only [leadRun, List.length_cons]
    have := (List.takeWhile_prefix (fun x => decide (x = v0)) (l := rest)).length_le
    omega
  simp only [writeStep, hr, Res.ok_bind, RoundOk, List.headD_cons]
  by_cases h3 : 3 ≤ leadRun (v0 :: rest)
  · rw [if_pos h3, if_pos h3]
    by_cases h10 : leadRun (v0 :: rest) ≤ 10
    · rw [if_pos h10]
      exact ⟨fun _ => .inl h10, fun _ => ⟨_, rfl⟩⟩
    · rw [if_neg h10]
      constructor
      · rintro ⟨r, h⟩
        obtain ⟨first, h1, -⟩ := Res.bind_ok_inv h
        exact .inr (firstBytes_ok _ _ _ h1)
      · rintro (h | h)
        · omega
        · obtain ⟨first, out, g1, g2, -⟩ := fixedDelta_block false v0 (leadRun (v0 :: rest)) (by omega) (by omega) h []
          exact ⟨_, by simp only [g1, g2, Res.ok_bind]; rfl⟩
  · rw [if_neg h3, if_neg h3]
    have hdirect : ∀ (o : Bytes) (r : List U64), ∃ res, (if toEnd = true ∧ r ≠ [] then do
        let out' ← writeDirect r
        pure (o ++ out', [])
        else pure (o, r) : Res (Bytes × List U64)) = .ok res := by
      intro o r
      by_cases h : toEnd = true ∧ r ≠ []
      · rw [if_pos h]
        obtain ⟨w, hw⟩ := writeDirect_ok r
        exact ⟨_, by rw [hw]; rfl⟩
      · rw [if_neg h]; exact ⟨_, rfl⟩
    cases ht : tryDelta false (v0 :: rest) with
    | none =>
      simp only [Bool.false_eq_true, if_false, Res.pure_eq, Res.ok_bind]
      exact ⟨fun _ dv h => (by simp at h), fun _ => hdirect _ _⟩
    | some dv =>
      obtain ⟨x0, x1, tl, he, hd, hlen, hle, -⟩ := tryDelta_spec false _ dv ht
      have hl' : dv.deltas.length + 2 ≤ 512 := by
        have := congrArg List.length he
        simp at this hl
        omega
      have key := (delta_roundtrip false _ dv ht hl').1
      simp only [List.headD_cons] at key
      constructor
      · rintro ⟨r, h⟩ dv' hdv'
        cases hdv'
        apply key.mp
        obtain ⟨⟨o, r⟩, h1, h⟩ := Res.bind_ok_inv h
        obtain ⟨first, h2, h1⟩ := Res.bind_ok_inv h1
        obtain ⟨out, h4, h1⟩ := Res.bind_ok_inv h1
        exact ⟨out, by simp only [deltaBlock, List.headD_cons, h2, Res.ok_bind, h4]⟩
      · intro h
        obtain ⟨out, ho⟩ := key.mpr (h dv rfl)
        obtain ⟨first, f1, f2⟩ := Res.bind_ok_inv ho
        simp only [List.headD_cons] at f1
        simp only [f1, f2, Res.ok_bind, Res.pure_eq]
        exact hdirect _ _

/-- Up to three values never fail, signed or unsigned. -/
theorem int_short_ok (signed p : Bool) (vs : List U64) (h : vs.length ≤ 3) :
    ∃ out, intEnc.encodeFlush (newIntRLV2 signed p) (vs.map (toVal signed)) = .ok out := by
  obtain ⟨e', h1, h2, h3⟩ := encode_store (newIntRLV2 signed p) vs (by simp [newIntRLV2]; omega)
  simp only [newIntRLV2, List.nil_append] at h2
  rw [show (newIntRLV2 signed p).signed = signed from rfl] at h1
  obtain ⟨o, ho⟩ := writeDirect_ok vs
  have hf : ∃ e2 o, intEnc.step e' .flush = .ok (e2, o) := by
    simp only [Enc.step, intEnc, IntEnc.flush, h2, intWrite, if_pos h, ho, Res.ok_bind, Res.pure_eq]
    by_cases hv : vs = []
    · rw [if_pos hv]; exact ⟨_, _, rfl⟩
    · rw [if_neg hv]; exact ⟨_, _, rfl⟩
  obtain ⟨e2, o2, hf⟩ := hf
  exact ⟨o2, by simp only [Enc.encodeFlush, Enc.run_append, h1, Res.ok_bind, Enc.run, hf, Res.pure_eq, List.append_nil, List.nil_append]⟩

/-- **C24** is false: legal values for which `Flush` returns an error or panics, unsigned and signed. -/
theorem int_never_fails_false :
    intEnc.encodeFlush (newIntRLV2 false false) [.u64 1, .u64 2, .u64 2, .u64 2] = .err .other ∧
    intEnc.encodeFlush (newIntRLV2 false false) (List.replicate 11 (.u64 0x100000000000000)) = .panic ∧
    intEnc.encodeFlush (newIntRLV2 true false) [.i64 1, .i64 2, .i64 2, .i64 2] = .err .other ∧
    intEnc.encodeFlush (newIntRLV2 true false) (List.replicate 11 (.i64 0x80000000000000)) = .panic := by
  refine ⟨?_, ?_, ?_, ?_⟩ <;> decide +kernel

example : RoundOk [5, 1, 7, 7, 2] := by
  refine (uint_round_ok_iff_partial true _ (by simp) (by simp)).mp ?_
  exact ⟨_, rfl⟩

/-! ### C25 -/

theorem stuck_step (a b : U64) (hab : a ≠ b) (rest : List U64) :
    writeStep false false (a :: a :: b :: rest) = .ok ([], a :: a :: b :: rest) := by
  have hr : getRepeats (a :: a :: b :: rest) = .ok 2 := by
    have : ¬ b = a := fun h => hab h.symm
    simp [getRepeats, countEq, this]
  have ht : tryDelta false (a :: a :: b :: rest) = none := by simp [tryDelta]
  simp only [writeStep, hr, Res.ok_bind, ht]
  rw [if_neg (by omega)]
  simp

theorem stuck_run (a b : U64) (hab : a ≠ b) (rest : List U64) (e : IntEnc) (pre : List U64)
    (he : e.values = a :: a :: b :: pre) (hs : e.signed = false) :
    ∃ e', intEnc.run e ((rest.map .u64).map .encode) = .ok (e', []) ∧ e'.values = e.values ++ rest ∧ e'.signed = false := by
  induction rest generalizing e pre with
  | nil => exact ⟨e, rfl, by simp, hs⟩
  | cons v rest ih =>
    have hstep : ∃ e1, intEnc.step e (.encode (.u64 v)) = .ok (e1, []) ∧ e1.values = e.values ++ [v] ∧ e1.signed = false := by
      by_cases hl : (e.values ++ [v]).length ≥ maxIntRunLength
      · have hw : intWrite false false (e.values ++ [v]) = .ok ([], e.values ++ [v]) := by
          simp only [intWrite]
          rw [if_neg (by simp only [maxIntRunLength] at hl; omega)]
          simp only [Bool.false_eq_true, if_false]
          rw [he]
          exact stuck_step a b hab (pre ++ [v])
        refine ⟨{ e with values := e.values ++ [v], position := if e.position ≠ -1 then ((e.values ++ [v]).length : Int) else e.position }, ?_, rfl, hs⟩
        simp only [Enc.step, intEnc, IntEnc.encode, hs, IntEnc.rawValue, Bool.false_eq_true, if_false, Res.ok_bind,
          if_pos hl, hw, Res.pure_eq]
      · refine ⟨{ e with values := e.values ++ [v], position := if e.position ≠ -1 then ((e.values ++ [v]).length : Int) else e.position }, ?_, rfl, hs⟩
        simp only [Enc.step, intEnc, IntEnc.encode, hs, IntEnc.rawValue, Bool.false_eq_true, if_false, Res.ok_bind,
          if_neg hl, Res.pure_eq]
    obtain ⟨e1, g1, g2, g3⟩ := hstep
    obtain ⟨e', k1, k2, k3⟩ := ih e1 (pre ++ [v]) (by rw [g2, he]; simp) g3
    refine ⟨e', ?_, by rw [k2, g2]; simp, k3⟩
    simp only [List.map_cons, Enc.run, g1, Res.ok_bind, k1]
    rfl

/-- **C25** is false: an unsigned column that starts with two equal values and then a different one is never
emitted before `Flush`; all its values stay pending, however many. -/
theorem int_pending_false (a b : U64) (hab : a ≠ b) (rest : List U64) :
    ∃ e, intEnc.run (newIntRLV2 false true) (((a :: a :: b :: rest).map .u64).map .encode) = .ok (e, []) ∧
      e.values = a :: a :: b :: rest := by
  obtain ⟨e1, h1, h2, h3⟩ := encode_store (newIntRLV2 false true) [a, a, b] (by simp [newIntRLV2])
  obtain ⟨e2, g1, g2, g3⟩ := stuck_run a b hab rest e1 [] (by rw [h2]; rfl) (by rw [h3]; rfl)
  refine ⟨e2, ?_, by rw [g2, h2]; rfl⟩
  rw [show (a :: a :: b :: rest).map GoVal.u64 = ([a, a, b].map (toVal false)) ++ rest.map .u64 from rfl, List.map_append,
    Enc.run_append]
  rw [show (newIntRLV2 false true).signed = false from rfl] at h1
  simp only [h1, Res.ok_bind, g1, Res.pure_eq, List.append_nil]

/-- A direct block of too many values: the header says `(n-1) % 512 + 1`. -/
theorem direct_overflow (signed : Bool) (vs : List U64) (hl : 1 ≤ vs.length)
    (hz : ∃ v ∈ vs, v ≠ 0) (out : Bytes) (h : writeDirect vs = .ok out) :
    ∃ s, (decodeRaw signed).runBuf out = .ok (vs.take ((vs.length - 1) % 512 + 1), s) := by
  obtain ⟨code, hc⟩ := maxAligned_code vs
  obtain ⟨⟨st, body⟩, hr⟩ := write_of_fits _ vs forgetBits forgetBits_wf (maxAligned_lt vs) (maxAligned_fits vs vs.length)
  simp only [writeDirect, hc, Res.ok_bind, hr, Res.pure_eq, Res.ok.injEq] at h
  subst h
  have hne : maxWidth getAlignedWidth vs ≠ 0 := by
    intro h0
    obtain ⟨v, hv, hv0⟩ := hz
    exact hv0 ((maxAligned_cases vs).2.mp h0 v hv)
  have hrt := width_roundtrip_iff _ code false hc
  have hw := hrt.1.mpr (by simpa using hne)
  rw [List.append_assoc, decodeRaw_direct signed code hrt.2 _ _ _ hw]
  obtain ⟨b1, b2⟩ := writeBitsAll_spec _ vs forgetBits forgetBits_wf (maxAligned_lt vs) st body hr
  obtain ⟨pad, h3, h4⟩ := writeLeftBits_spec st b1
  have hlen : (vs.take ((vs.length - 1) % 512 + 1)).length = (vs.length - 1) % 512 + 1 := by
    rw [List.length_take]
    have := Nat.mod_le (vs.length - 1) 512
    omega
  obtain ⟨st', s', h5, -, -⟩ := readBitsN_spec (maxWidth getAlignedWidth vs) (vs.take ((vs.length - 1) % 512 + 1)) forgetBits
    forgetBits_wf 0 ⟨by omega, rfl⟩ (maxAligned_fits vs _) (body ++ writeLeftBits st)
    (fun v hv => maxAligned_lt vs v (List.mem_of_mem_take hv))
    ((vs.drop ((vs.length - 1) % 512 + 1)).flatMap (fun v => natBits (maxWidth getAlignedWidth vs) v.toNat) ++ pad) (by
      simp only [bytesBits_append, h3, forgetBits_bits, List.nil_append] at b2 ⊢
      rw [← List.append_assoc, ← List.append_assoc, ← List.flatMap_append, List.take_append_drop, b2])
  rw [hlen] at h5
  exact ⟨s', h5⟩

/-- Consequence: `Flush` then writes all `n` values in a block whose header says `(n-1) % 512 + 1`, so with more
than 512 values the first decode call returns too few and what follows is read as a new block. -/
theorem int_pending_lost (a b : U64) (hab : a ≠ b) (rest : List U64) (hr : 2 ≤ rest.length) :
    ∃ out s, intEnc.encodeFlush (newIntRLV2 false true) ((a :: a :: b :: rest).map .u64) = .ok out ∧
      (decodeUInt false).runBuf out =
        .ok ((a :: a :: b :: rest).take (((a :: a :: b :: rest).length - 1) % 512 + 1), s) := by
  obtain ⟨e, h1, h2⟩ := int_pending_false a b hab rest
  obtain ⟨out, ho⟩ := writeDirect_ok (a :: a :: b :: rest)
  obtain ⟨s, hs⟩ := direct_overflow false (a :: a :: b :: rest) (by simp) (by
    by_cases h0 : a = 0
    · exact ⟨b, by simp, fun hb => hab (h0.trans hb.symm)⟩
    · exact ⟨a, by simp, h0⟩) out ho
  have hsig : e.signed = false := by
    have : ∀ (ops : List EncOp) (e e' : IntEnc) (out : Bytes), (∀ op ∈ ops, op ≠ .flush) →
        intEnc.run e ops = .ok (e', out) → e'.signed = e.signed := by
      intro ops
      induction ops with
      | nil => intro e e' out _ h; cases h; rfl
      | cons op ops ih =>
        intro e e' out hnf h
        simp only [Enc.run] at h
        obtain ⟨⟨e1, o1⟩, g1, h⟩ := Res.bind_ok_inv h
        obtain ⟨⟨e2, o2⟩, g2, h⟩ := Res.bind_ok_inv h
        simp only [Res.pure_eq, Res.ok.injEq, Prod.mk.injEq] at h
        rw [← h.1, ih e1 e2 o2 (fun op hop => hnf op (by simp [hop])) g2]
        cases op with
        | flush => exact absurd rfl (hnf .flush (by simp))
        | encode v =>
          simp only [Enc.step, intEnc, IntEnc.encode] at g1
          obtain ⟨raw, k1, g1⟩ := Res.bind_ok_inv g1
          obtain ⟨⟨o, r⟩, k2, g1⟩ := Res.bind_ok_inv g1
          simp only [Res.pure_eq, Res.ok.injEq, Prod.mk.injEq] at g1
          rw [← g1.1]
    refine this _ _ _ _ ?_ h1
    intro op hop
    obtain ⟨v, -, rfl⟩ := List.mem_map.mp hop
    simp
  have hstep : writeStep false true (a :: a :: b :: rest) = .ok (out, []) := by
    have hrp : getRepeats (a :: a :: b :: rest) = .ok 2 := by
      have : ¬ b = a := fun h => hab h.symm
      simp [getRepeats, countEq, this]
    have ht : tryDelta false (a :: a :: b :: rest) = none := by simp [tryDelta]
    simp only [writeStep, hrp, Res.ok_bind, ht]
    rw [if_neg (by omega)]
    simp [ho]
  have hw := intWrite_one false true _ (by simp; omega) _ hstep
  have hf : intEnc.step e .flush = .ok ({ e with values := [] }, out) := by
    simp only [Enc.step, intEnc, IntEnc.flush, h2, hsig, hw, Res.ok_bind, Res.pure_eq]
    simp
  refine ⟨out, s, ?_, hs⟩
  simp only [Enc.encodeFlush, Enc.run_append, h1, Res.ok_bind, Enc.run, hf, Res.pure_eq, List.append_nil, List.nil_append]

theorem writeStep_progress (signed toEnd : Bool) (vs : List U64) (hl : vs.length ≤ 512) (o : Bytes) (rest : List U64)
    (h : writeStep signed toEnd vs = .ok (o, rest)) : rest.length < vs.length ∨ (o = [] ∧ rest = vs) := by
  cases vs with
  | nil => simp [writeStep, getRepeats] at h
  | cons v0 vs =>
    simp only [writeStep, getRepeats, Res.ok_bind, List.headD_cons] at h
    by_cases h3 : countEq v0 vs + 1 ≥ 3
    · rw [if_pos h3] at h
      have hdrop : ((v0 :: vs).drop (countEq v0 vs + 1)).length < (v0 :: vs).length := by
        rw [List.length_drop]; simp; omega
      by_cases h10 : countEq v0 vs + 1 ≤ 10
      · rw [if_pos h10] at h
        simp only [Res.pure_eq, Res.ok.injEq, Prod.mk.injEq] at h
        rw [← h.2]; exact .inl hdrop
      · rw [if_neg h10] at h
        obtain ⟨first, -, h⟩ := Res.bind_ok_inv h
        obtain ⟨out, -, h⟩ := Res.bind_ok_inv h
        simp only [Res.pure_eq, Res.ok.injEq, Prod.mk.injEq] at h
        rw [← h.2]; exact .inl hdrop
    · rw [if_neg h3] at h
      obtain ⟨⟨o1, r1⟩, h1, h⟩ := Res.bind_ok_inv h
      have hmid : r1.length < (v0 :: vs).length ∨ (o1 = [] ∧ r1 = v0 :: vs) := by
        cases ht : tryDelta signed (v0 :: vs) with
        | some dv =>
          rw [ht] at h1
          obtain ⟨first, -, h1⟩ := Res.bind_ok_inv h1
          obtain ⟨out, -, h1⟩ := Res.bind_ok_inv h1
          simp only [Res.pure_eq, Res.ok.injEq, Prod.mk.injEq] at h1
          obtain ⟨x0, x1, tl, he, hd, hlen, hle, -⟩ := tryDelta_spec signed _ dv ht
          refine .inl ?_
          rw [← h1.2, List.length_drop, hlen, BitVec.toNat_ofNat]
          have := congrArg List.length he
          simp at this hl ⊢
          omega
        | none =>
          rw [ht] at h1
          simp only at h1
          by_cases hs : signed = true
          · rw [if_pos hs] at h1
            obtain ⟨r, hr, h1⟩ := Res.bind_ok_inv h1
            cases r with
            | none =>
              simp only [Res.pure_eq, Res.ok.injEq, Prod.mk.injEq] at h1
              exact .inr ⟨h1.1.symm, h1.2.symm⟩
            | some pvs =>
              obtain ⟨out, -, h1⟩ := Res.bind_ok_inv h1
              simp only [Res.pure_eq, Res.ok.injEq, Prod.mk.injEq] at h1
              refine .inl ?_
              obtain ⟨v1, l, rfl⟩ : ∃ v1 l, vs = v1 :: l := by
                cases vs with
                | nil => simp [tryPatch] at hr
                | cons v1 l => exact ⟨v1, l, rfl⟩
              have hc : pvs.count = (v0 :: v1 :: l).length := by
                simp only [tryPatch] at hr
                split at hr
                · generalize collectPatches _ 0 0 _ = q at hr
                  obtain ⟨a, b, c⟩ := q
                  simp only at hr
                  split at hr
                  · cases hr
                  · simp only [Res.ok.injEq, Option.some.injEq] at hr
                    rw [← hr]
                · simp at hr
              rw [← h1.2, hc]
              simp
          · rw [if_neg hs] at h1
            simp only [Res.pure_eq, Res.ok.injEq, Prod.mk.injEq] at h1
            exact .inr ⟨h1.1.symm, h1.2.symm⟩
      by_cases hte : toEnd = true ∧ r1 ≠ []
      · rw [if_pos hte] at h
        obtain ⟨out', -, h⟩ := Res.bind_ok_inv h
        simp only [Res.pure_eq, Res.ok.injEq, Prod.mk.injEq] at h
        rw [← h.2]; exact .inl (by simp)
      · rw [if_neg hte] at h
        simp only [Res.pure_eq, Res.ok.injEq, Prod.mk.injEq] at h
        rw [← h.1, ← h.2]; exact hmid

/-- **C25** (partial) As long as at most 511 values are pending, an `Encode` either leaves at most 511 pending
or emits nothing at all. So the bound holds exactly until a full block is neither a run, nor monotone at its
start, nor (signed) patched. -/
theorem int_pending_partial (e e' : IntEnc) (v : GoVal) (out : Bytes) (hp : e.values.length ≤ 511)
    (h : e.encode v = .ok (e', out)) : e'.values.length ≤ 511 ∨ (e'.values.length = 512 ∧ out = []) := by
  simp only [IntEnc.encode] at h
  obtain ⟨raw, h1, h⟩ := Res.bind_ok_inv h
  obtain ⟨⟨o, r⟩, h2, h⟩ := Res.bind_ok_inv h
  simp only [Res.pure_eq, Res.ok.injEq, Prod.mk.injEq] at h
  rw [← h.1, ← h.2]
  simp only
  by_cases hl : (e.values ++ [raw]).length ≥ maxIntRunLength
  · rw [if_pos hl] at h2
    simp only [maxIntRunLength, List.length_append, List.length_cons, List.length_nil] at hl
    have hlen : (e.values ++ [raw]).length = 512 := by
      simp only [List.length_append, List.length_cons, List.length_nil]; omega
    simp only [intWrite] at h2
    rw [if_neg (by omega)] at h2
    simp only [Bool.false_eq_true, if_false] at h2
    rcases writeStep_progress e.signed false _ (by omega) o r h2 with h | ⟨h, h'⟩
    · exact .inl (by omega)
    · exact .inr ⟨by rw [h', hlen], h⟩
  · rw [if_neg hl] at h2
    simp only [Res.pure_eq, Res.ok.injEq, Prod.mk.injEq] at h2
    rw [← h2.2]
    simp only [maxIntRunLength, List.length_append, List.length_cons, List.length_nil] at hl ⊢
    exact .inl (by omega)

example : (newIntRLV2 true true).values.length ≤ 511 := by decide

end Goorc
