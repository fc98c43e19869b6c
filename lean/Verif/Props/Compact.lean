import Verif.Props.EncByte
import Verif.Proofs.IntHistory
/-
C72: byte run-length encoding does not grow, and runs are found.
-/
namespace Goorc

/-- Three equal values at the front. -/
def startsRun : Bytes → Bool
  | a :: b :: c :: _ => a = b && b = c
  | _ => false

theorem startsRun_iff (vs : Bytes) : startsRun vs = true ↔ ∃ v t, vs = v :: v :: v :: t := by
  match vs with
  | [] => simp [startsRun]
  | [_] => simp [startsRun]
  | [_, _] => simp [startsRun]
  | a :: b :: c :: t =>
    simp only [startsRun, Bool.and_eq_true, decide_eq_true_eq, List.cons.injEq]
    constructor
    · rintro ⟨rfl, rfl⟩; exact ⟨a, t, rfl, rfl, rfl, rfl⟩
    · rintro ⟨v, t', rfl, rfl, rfl, rfl⟩; exact ⟨rfl, rfl⟩

theorem startsRun_append {vs : Bytes} (h : startsRun vs = true) (ws : Bytes) : startsRun (vs ++ ws) = true := by
  obtain ⟨v, t, rfl⟩ := (startsRun_iff vs).1 h
  simp [startsRun]

theorem findRepeats_zero {v : Byte} {t : Bytes} : findRepeats 3 (v :: t) = 0 ↔ startsRun (v :: t) = true := by
  match t with
  | [] => simp [findRepeats, hasRun, startsRun]
  | [_] => simp [findRepeats, hasRun, startsRun]
  | x :: y :: t =>
    simp only [findRepeats, hasRun, startsRun, Bool.and_eq_true, decide_eq_true_eq]
    by_cases hx : x = v
    · subst hx
      by_cases hy : y = x
      · subst hy; simp
      · have : ¬ x = y := fun h => hy h.symm
        simp [hy, this]
    · have : ¬ v = x := fun h => hx h.symm
      simp [hx, this]

theorem findRepeats_rest (vs : Bytes) : vs.drop (findRepeats 3 vs) = [] ∨ startsRun (vs.drop (findRepeats 3 vs)) = true := by
  induction vs with
  | nil => simp [findRepeats]
  | cons v t ih =>
    by_cases h : findRepeats 3 (v :: t) = 0
    · rw [h]; exact .inr (findRepeats_zero.1 h)
    · have e : findRepeats 3 (v :: t) = findRepeats 3 t + 1 := by
        simp only [findRepeats] at h ⊢
        split at h
        · simp at h
        · rename_i hn; rw [if_neg hn]
      rw [e]; exact ih

/-- What one step of the encoder costs. -/
theorem encodeBytesStep_cost (vs : Bytes) (hne : vs ≠ []) :
    ∃ out rest k, encodeBytesStep vs = .ok (out, rest) ∧ vs.length = k + rest.length ∧ 0 < k ∧
      ((startsRun vs = true ∧ out.length = 2 ∧ 3 ≤ k) ∨ (startsRun vs = false ∧ out.length = k + 1 ∧ (rest = [] ∨ startsRun rest = true))) := by
  match vs, hne with
  | v :: t, _ =>
  by_cases h : findRepeats 3 (v :: t) = 0
  · have hs := findRepeats_zero.1 h
    obtain ⟨w, t', e⟩ := (startsRun_iff _).1 hs
    rw [e] at h hs ⊢
    obtain ⟨k, t'', h1, h2, h3, -⟩ := extendRun_spec w t' 3
    refine ⟨[BitVec.ofNat 8 k, w], t'', 3 + k, ?_, ?_, by omega, .inl ⟨hs, rfl, by omega⟩⟩
    · simp only [encodeBytesStep, minRepeats, h, if_true, List.drop_succ_cons, List.drop_zero, h2]
      simp only [Res.ok.injEq, Prod.mk.injEq]
      refine ⟨by congr 2; omega, ?_⟩
      rw [Nat.add_comm]
      simp [h1]
    · rw [h1]; simp; omega
  · have hs : startsRun (v :: t) = false := by
      cases hb : startsRun (v :: t) with
      | true => exact absurd (findRepeats_zero.2 hb) h
      | false => rfl
    have hle := findRepeats_le (v :: t)
    refine ⟨_, (v :: t).drop (findRepeats 3 (v :: t)), findRepeats 3 (v :: t), by simp only [encodeBytesStep, minRepeats, h, if_false]; rfl, ?_, by omega, .inr ⟨hs, ?_, findRepeats_rest _⟩⟩
    · rw [List.length_drop]; omega
    · simp only [List.length_cons, List.length_take]; simp at hle; omega

/-- One if a run is pending. -/
def owed (vs : Bytes) : Nat := if startsRun vs then 1 else 0

theorem encodeBytesToEnd_cost (fuel : Nat) : ∀ vs : Bytes, vs.length ≤ fuel → ∃ out, encodeBytesToEnd fuel vs = .ok out ∧ out.length + owed vs ≤ vs.length + 1 := by
  induction fuel with
  | zero =>
    intro vs h
    cases vs with
    | nil => exact ⟨[], rfl, by simp [owed, startsRun]⟩
    | cons => simp at h
  | succ fuel ih =>
    intro vs h
    cases vs with
    | nil => exact ⟨[], rfl, by simp [owed, startsRun]⟩
    | cons v t =>
      obtain ⟨out, rest, k, e1, e2, e3, e4⟩ := encodeBytesStep_cost (v :: t) (by simp)
      obtain ⟨out', g1, g2⟩ := ih rest (by omega)
      refine ⟨out ++ out', by simp [encodeBytesToEnd, e1, g1], ?_⟩
      rw [List.length_append]
      rcases e4 with ⟨a, b, c⟩ | ⟨a, b, c⟩
      · simp only [owed, a, if_true]; omega
      · simp only [owed, a]
        rcases c with rfl | c
        · have : out'.length = 0 := by
            cases fuel <;> simp only [encodeBytesToEnd, Res.ok.injEq] at g1 <;> subst g1 <;> rfl
          simp at e2 ⊢; omega
        · simp only [owed, c, if_true] at g2
          simp at e2 ⊢; omega

/-- The number of calls of `Flush` in a history. -/
def flushes (ops : List (Option Byte)) : Nat := (ops.filter (·.isNone)).length

theorem run_cost (ops : List (Option Byte)) : ∀ (e : ByteEnc), e.WF → ∀ (sent n c f : Nat), sent ≤ n + c + f + owed e.values → 128 * c ≤ n →
    ∃ e' out n' c', byteEnc.run e (ops.map byteOp) = .ok (e', out) ∧ e'.WF ∧ n' + e'.values.length = n + e.values.length + (ops.filterMap id).length ∧
      sent + out.length ≤ n' + c' + (f + flushes ops) + owed e'.values ∧ 128 * c' ≤ n' := by
  induction ops with
  | nil => intro e hw sent n c f h hc; exact ⟨e, [], n, c, rfl, hw, by simp, by simpa [flushes] using h, hc⟩
  | cons op ops ih =>
    intro e hw sent n c f h hc
    cases op with
    | none =>
      obtain ⟨out, h1, h2⟩ := encodeBytesToEnd_cost e.values.length e.values (Nat.le_refl _)
      have hf : e.flush = .ok ({ e with values := [] }, out) := by simp [ByteEnc.flush, h1]
      obtain ⟨e', out', n', c', g1, g2, g3, g4, g5⟩ := ih { e with values := [] } (by simp [ByteEnc.WF]) (sent + out.length) (n + e.values.length) c (f + 1)
        (by have h0 : owed [] = 0 := rfl
            simp only [h0]; omega) (by omega)
      refine ⟨e', out ++ out', n', c', ?_, g2, ?_, ?_, g5⟩
      · simp only [List.map_cons, byteOp, Enc.run, Enc.step, byteEnc, hf, Res.ok_bind]
        simp only [byteEnc] at g1
        simp [g1]
      · rw [g3]; simp
      · simp only [flushes, List.filter_cons, Option.isNone_none, if_true, List.length_cons, List.length_append] at g4 ⊢; omega
    | some b =>
      unfold ByteEnc.WF at hw
      by_cases hl : (e.values ++ [b]).length ≥ maxByteRunLength
      · obtain ⟨out, rest, k, e1, e2, e3, e4⟩ := encodeBytesStep_cost (e.values ++ [b]) (by simp)
        have hen : e.encode (.u8 b) = .ok ({ values := rest, position := if e.position ≠ -1 then (rest.length : Int) else e.position }, out) := by
          simp only [ByteEnc.encode, hl, if_true, e1, Res.ok_bind, Res.pure_eq]
        have hkey : ∃ c2, sent + out.length ≤ (n + k) + c2 + f + owed rest ∧ 128 * c2 ≤ n + k := by
          have hmono : owed e.values ≤ owed (e.values ++ [b]) := by
            simp only [owed]
            cases hb : startsRun e.values with
            | false => simp
            | true => simp [startsRun_append hb]
          rcases e4 with ⟨p, q, r⟩ | ⟨p, q, r⟩
          · exact ⟨c, by simp only [owed, p, if_true] at hmono; simp only [owed] at h ⊢; split at h <;> split <;> omega, by omega⟩
          · have h0 : owed e.values = 0 := by simp only [owed, p] at hmono ⊢; simpa using hmono
            rcases r with rfl | r
            · refine ⟨c + 1, by omega, ?_⟩
              simp only [maxByteRunLength] at hl; simp at e2 hl; omega
            · exact ⟨c, by simp only [owed, r, if_true]; omega, by omega⟩
        obtain ⟨c2, k1, k2⟩ := hkey
        obtain ⟨e', out', n', c', g1, g2, g3, g4, g5⟩ := ih { values := rest, position := if e.position ≠ -1 then (rest.length : Int) else e.position }
          (by simp only [ByteEnc.WF]; simp at e2; omega) (sent + out.length) (n + k) c2 f k1 k2
        refine ⟨e', out ++ out', n', c', ?_, g2, ?_, ?_, g5⟩
        · simp only [List.map_cons, byteOp, Enc.run, Enc.step, byteEnc, hen, Res.ok_bind]
          simp only [byteEnc] at g1
          simp only [g1, Res.ok_bind, Res.pure_eq, List.nil_append]
        · rw [g3]; simp at e2 ⊢; omega
        · simp only [flushes, List.filter_cons, Option.isNone_some, List.length_append] at g4 ⊢; simp; omega
      · have hen : e.encode (.u8 b) = .ok ({ values := e.values ++ [b], position := if e.position ≠ -1 then ((e.values ++ [b]).length : Int) else e.position }, []) := by
          simp only [ByteEnc.encode, hl, if_false, Res.ok_bind, Res.pure_eq]
        have hmono : owed e.values ≤ owed (e.values ++ [b]) := by
          simp only [owed]
          cases hb : startsRun e.values with
          | false => simp
          | true => simp [startsRun_append hb]
        obtain ⟨e', out', n', c', g1, g2, g3, g4, g5⟩ := ih { values := e.values ++ [b], position := if e.position ≠ -1 then ((e.values ++ [b]).length : Int) else e.position }
          (by simp only [maxByteRunLength] at hl; simp only [ByteEnc.WF]; omega) sent n c f (by simp only; omega) hc
        refine ⟨e', out', n', c', ?_, g2, ?_, ?_, g5⟩
        · simp only [List.map_cons, byteOp, Enc.run, Enc.step, byteEnc, hen, Res.ok_bind]
          simp only [byteEnc] at g1
          simp only [g1, Res.ok_bind, Res.pure_eq, List.nil_append]
        · rw [g3]; simp; omega
        · simp only [flushes, List.filter_cons, Option.isNone_some] at g4 ⊢; simpa using g4

/-- **C72** Encoded bytes are at most one byte in 128 longer than the values, plus one byte for each `Flush`, over any history that ends
in a `Flush`. -/
theorem byte_growth (p : Bool) (ops : List (Option Byte)) :
    ∃ e out, byteEnc.run (newByteEncoder p) (ops.map byteOp ++ [.flush]) = .ok (e, out) ∧
      out.length ≤ (ops.filterMap id).length + (ops.filterMap id).length / 128 + (flushes ops + 1) := by
  obtain ⟨e', out, n', c', g1, g2, g3, g4, g5⟩ := run_cost (ops ++ [none]) (newByteEncoder p) (newByteEncoder_wf p) 0 0 0 0 (by simp) (by simp)
  rw [List.map_append] at g1
  refine ⟨e', out, g1, ?_⟩
  have hf : flushes (ops ++ [none]) = flushes ops + 1 := by simp [flushes]
  have hv : e'.values = [] := by
    rw [Enc.run_append] at g1
    obtain ⟨⟨e1, o1⟩, h1, g1⟩ := Res.bind_ok_inv g1
    obtain ⟨⟨e2, o2⟩, h2, g1⟩ := Res.bind_ok_inv g1
    simp only [List.map_cons, List.map_nil, byteOp, Enc.run, Enc.step, byteEnc, ByteEnc.flush] at h2
    obtain ⟨⟨e3, o3⟩, h3, h2⟩ := Res.bind_ok_inv h2
    obtain ⟨o4, -, h3⟩ := Res.bind_ok_inv h3
    obtain ⟨rfl, rfl⟩ := Prod.mk.inj (Res.ok.inj h3)
    simp at h2 g1
    rw [← g1.1, ← h2.1]
  have hn : (newByteEncoder p).values = [] := rfl
  rw [hv] at g3 g4
  rw [hn] at g3
  simp [owed, startsRun] at g3 g4
  have : c' ≤ n' / 128 := by omega
  rw [hf] at g4
  have h0 : (List.filterMap id [(none : Option Byte)]).length = 0 := rfl
  omega

/-- 255 different values in a row, then nothing: the bound is reached. -/
example : ∃ out, byteEnc.encodeFlush (newByteEncoder false) ((List.range 255).map fun i => .u8 (BitVec.ofNat 8 i)) = .ok out ∧ out.length = 255 + 255 / 128 + 1 := by
  have : (match byteEnc.encodeFlush (newByteEncoder false) ((List.range 255).map fun i => .u8 (BitVec.ofNat 8 i)) with | .ok out => decide (out.length = 257) | _ => false) = true := by decide +kernel
  generalize byteEnc.encodeFlush (newByteEncoder false) ((List.range 255).map fun i => .u8 (BitVec.ofNat 8 i)) = x at this
  cases x with
  | ok out => exact ⟨out, rfl, by simpa using this⟩
  | err => simp at this
  | panic => simp at this
  | hang => simp at this

theorem extendRun_replicate (b : Byte) (n j : Nat) : extendRun b j (List.replicate n b) = j + n := by
  induction n generalizing j with
  | zero => rfl
  | succ n ih => simp [List.replicate_succ, extendRun, ih]; omega

theorem encodeBytesStep_replicate (b : Byte) (n : Nat) (h : 3 ≤ n) : encodeBytesStep (List.replicate n b) = .ok ([BitVec.ofNat 8 (n - 3), b], []) := by
  obtain ⟨m, rfl⟩ : ∃ m, n = m + 3 := ⟨n - 3, by omega⟩
  have h0 : findRepeats 3 (List.replicate (m + 3) b) = 0 := by simp [List.replicate_succ, findRepeats, hasRun]
  simp only [encodeBytesStep, minRepeats, h0, if_true]
  simp only [List.replicate_succ, List.drop_succ_cons, List.drop_zero, extendRun_replicate]
  simp only [← List.replicate_succ, List.drop_replicate]
  simp
  omega

/-- What is written for `n` equal bytes. -/
def runBytes (b : Byte) (n : Nat) : Bytes :=
  (List.replicate (n / 128) [125, b]).flatten ++
    (if n % 128 = 0 then [] else if n % 128 < 3 then BitVec.ofInt 8 (-((n % 128 : Nat) : Int)) :: List.replicate (n % 128) b else [BitVec.ofNat 8 (n % 128 - 3), b])

theorem run_replicate (b : Byte) (p : Bool) (n : Nat) : ∃ e, byteEnc.run (newByteEncoder p) ((List.replicate n b).map fun x => .encode (.u8 x)) =
    .ok (e, (List.replicate (n / 128) [125, b]).flatten) ∧ e.values = List.replicate (n % 128) b := by
  induction n with
  | zero => exact ⟨newByteEncoder p, rfl, rfl⟩
  | succ n ih =>
    obtain ⟨e, h1, h2⟩ := ih
    rw [List.replicate_succ', List.map_append, Enc.run_append, h1]
    have hv : e.values ++ [b] = List.replicate (n % 128 + 1) b := by rw [h2, List.replicate_succ']
    by_cases hl : n % 128 + 1 = 128
    · have hen : e.encode (.u8 b) = .ok ({ values := [], position := if e.position ≠ -1 then 0 else e.position }, [125, b]) := by
        simp only [ByteEnc.encode, hv]
        rw [hl, encodeBytesStep_replicate b 128 (by omega)]
        simp only [List.length_replicate, maxByteRunLength, ge_iff_le, Nat.le_refl, if_true, Res.ok_bind, Res.pure_eq]
        rfl
      refine ⟨{ values := [], position := if e.position ≠ -1 then 0 else e.position }, ?_, ?_⟩
      · simp only [Res.ok_bind, List.map_cons, List.map_nil, Enc.run, Enc.step, byteEnc, hen, Res.pure_eq, List.append_nil]
        have : (n + 1) / 128 = n / 128 + 1 := by omega
        rw [this, List.replicate_succ', List.flatten_append]
        rfl
      · have : (n + 1) % 128 = 0 := by omega
        rw [this]; rfl
    · have hen : e.encode (.u8 b) = .ok ({ values := List.replicate (n % 128 + 1) b, position := if e.position ≠ -1 then ((n % 128 + 1 : Nat) : Int) else e.position }, []) := by
        simp only [ByteEnc.encode, hv]
        have : ¬ (n % 128 + 1 ≥ 128) := by omega
        simp only [List.length_replicate, maxByteRunLength, this, if_false, Res.ok_bind, Res.pure_eq]
      refine ⟨{ values := List.replicate (n % 128 + 1) b, position := if e.position ≠ -1 then ((n % 128 + 1 : Nat) : Int) else e.position }, ?_, ?_⟩
      · simp only [Res.ok_bind, List.map_cons, List.map_nil, Enc.run, Enc.step, byteEnc, hen, Res.pure_eq, List.append_nil]
        have : (n + 1) / 128 = n / 128 := by omega
        rw [this]
      · have : (n + 1) % 128 = n % 128 + 1 := by omega
        rw [this]

/-- **C72** Equal bytes are written as runs: two bytes for each 128 of them, and two bytes for the rest if there are at least three. -/
theorem byte_run_exact (p : Bool) (b : Byte) (n : Nat) : byteEnc.encodeFlush (newByteEncoder p) ((List.replicate n b).map .u8) = .ok (runBytes b n) := by
  obtain ⟨e, h1, h2⟩ := run_replicate b p n
  have hm : ((List.replicate n b).map GoVal.u8).map EncOp.encode = (List.replicate n b).map fun x => .encode (.u8 x) := by simp
  have hend : ∀ m < 128, encodeBytesToEnd (List.replicate m b).length (List.replicate m b) =
      .ok (if m = 0 then [] else if m < 3 then BitVec.ofInt 8 (-(m : Int)) :: List.replicate m b else [BitVec.ofNat 8 (m - 3), b]) := by
    intro m hm
    by_cases h0 : m = 0
    · subst h0; rfl
    rw [if_neg h0]
    by_cases h3 : m < 3
    · rw [if_pos h3]
      have : m = 1 ∨ m = 2 := by omega
      rcases this with rfl | rfl <;> simp [List.replicate_succ, encodeBytesToEnd, encodeBytesStep, findRepeats, hasRun, minRepeats]
    · rw [if_neg h3]
      obtain ⟨k, rfl⟩ : ∃ k, m = k + 1 := ⟨m - 1, by omega⟩
      have hs := encodeBytesStep_replicate b (k + 1) (by omega)
      rw [List.length_replicate]
      simp only [List.replicate_succ] at hs ⊢
      simp only [encodeBytesToEnd, hs, Res.ok_bind]
      cases k with
      | zero => omega
      | succ k => simp [encodeBytesToEnd]
  have hfl : e.flush = .ok ({ e with values := [] }, if n % 128 = 0 then [] else if n % 128 < 3 then BitVec.ofInt 8 (-((n % 128 : Nat) : Int)) :: List.replicate (n % 128) b else [BitVec.ofNat 8 (n % 128 - 3), b]) := by
    simp only [ByteEnc.flush, h2, hend (n % 128) (by omega), Res.ok_bind, Res.pure_eq]
  have h3 : byteEnc.run e [.flush] = .ok ({ e with values := [] }, if n % 128 = 0 then [] else if n % 128 < 3 then BitVec.ofInt 8 (-((n % 128 : Nat) : Int)) :: List.replicate (n % 128) b else [BitVec.ofNat 8 (n % 128 - 3), b]) := by
    simp only [Enc.run, Enc.step, byteEnc, hfl, Res.ok_bind, Res.pure_eq, List.append_nil]
  simp only [Enc.encodeFlush]
  rw [hm, Enc.run_append, h1]
  simp only [Res.ok_bind, h3, Res.pure_eq]
  rfl

/-- Three equal bytes, and 300. -/
example : runBytes 7 3 = [0, 7] ∧ runBytes 7 300 = [125, 7, 125, 7, 41, 7] := by decide

end Goorc
