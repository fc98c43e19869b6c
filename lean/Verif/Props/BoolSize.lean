import Verif.Props.Compact
/-
C117: how long encoded booleans can get.
-/
namespace Goorc
namespace BoolSize

/-- A call on an encoder of booleans: a value, or `Flush`. -/
def call : Option Bool → EncOp
  | some b => .encode (.bool b)
  | none => .flush

/-- The number of values in a history. -/
def given (ops : List (Option Bool)) : Nat := (ops.filter (·.isSome)).length

/-- The number of calls of `Flush` in a history. -/
def flushed (ops : List (Option Bool)) : Nat := (ops.filter (·.isNone)).length

theorem byte_encodes {e : ByteEnc} (hw : e.WF) (x : Byte) : ∃ e' out, byteEnc.encode e (.u8 x) = .ok (e', out) ∧ e'.WF := by
  obtain ⟨e', out, _, _, h, h2, -⟩ := run_cost [some x] e hw 0 0 0 0 (by simp) (by simp)
  simp only [List.map_cons, List.map_nil, byteOp, Enc.run, Enc.step] at h
  obtain ⟨⟨e1, o1⟩, h1, h⟩ := Res.bind_eq_ok.mp h
  obtain ⟨rfl, -⟩ := Prod.mk.inj (Res.ok.inj h)
  exact ⟨e1, o1, h1, h2⟩

theorem byte_flushes {e : ByteEnc} (hw : e.WF) : ∃ e' out, byteEnc.flush e = .ok (e', out) ∧ e'.WF := by
  obtain ⟨e', out, _, _, h, h2, -⟩ := run_cost [none] e hw 0 0 0 0 (by simp) (by simp)
  simp only [List.map_cons, List.map_nil, byteOp, Enc.run, Enc.step] at h
  obtain ⟨⟨e1, o1⟩, h1, h⟩ := Res.bind_eq_ok.mp h
  obtain ⟨rfl, -⟩ := Prod.mk.inj (Res.ok.inj h)
  exact ⟨e1, o1, h1, h2⟩

/-- An encoder of booleans with `k` bits pending does what its encoder of bytes does on a history with as many flushes, and a byte for
every eight of the bits, of which `Flush` adds at most seven. -/
theorem as_bytes (ops : List (Option Bool)) : ∀ (e : BoolEnc) (k : Nat), k < 8 → e.index = (k : Int) - 1 → e.brl.WF →
    ∃ bops : List (Option Byte), flushes bops = flushed ops ∧ 8 * (bops.filterMap id).length ≤ k + given ops + 7 * flushed ops ∧
      ∀ b' out, byteEnc.run e.brl (bops.map byteOp) = .ok (b', out) → ∃ e', boolEnc.run e (ops.map call) = .ok (e', out) := by
  induction ops with
  | nil =>
    intro e k hk hi hw
    refine ⟨[], rfl, by simp, ?_⟩
    intro b' out h
    simp only [List.map_nil, Enc.run] at h
    obtain ⟨rfl, rfl⟩ := Prod.mk.inj (Res.ok.inj h)
    exact ⟨e, rfl⟩
  | cons op ops ih =>
    intro e k hk hi hw
    cases op with
    | some b =>
      have hg : given (some b :: ops) = given ops + 1 := by simp [given]
      have hf : flushed (some b :: ops) = flushed ops := by simp [flushed]
      by_cases h7 : e.index + 1 ≥ (maxBoolRunLength : Int) - 1
      · have hk7 : k = 7 := by simp only [maxBoolRunLength] at h7; omega
        obtain ⟨x, hx⟩ : ∃ x : Byte, x = if b then e.value ||| (1#8 <<< (7 - (e.index + 1)).toNat) else e.value := ⟨_, rfl⟩
        obtain ⟨brl, o1, hs, hw1⟩ := byte_encodes hw x
        obtain ⟨bops, g1, g2, g3⟩ := ih { brl := brl, index := -1, value := 0, position := if e.position ≠ -1 then (-1 : Int) + 1 else e.position } 0 (by omega) rfl hw1
        refine ⟨some x :: bops, by rw [hf, ← g1]; simp [flushes], ?_, ?_⟩
        · rw [hg, hf]; simp only [List.filterMap_cons, id, List.length_cons]; omega
        · intro b' out h
          simp only [List.map_cons, byteOp, Enc.run, Enc.step] at h
          rw [show byteEnc.encode e.brl (.u8 x) = .ok (brl, o1) from hs, Res.ok_bind] at h
          obtain ⟨⟨b2, o2⟩, h2, h⟩ := Res.bind_eq_ok.mp h
          obtain ⟨rfl, rfl⟩ := Prod.mk.inj (Res.ok.inj h)
          obtain ⟨e', he'⟩ := g3 b2 o2 h2
          refine ⟨e', ?_⟩
          have hen : boolEnc.encode e (.bool b) = .ok ({ brl := brl, index := -1, value := 0, position := if e.position ≠ -1 then (-1 : Int) + 1 else e.position }, o1) := by
            simp only [boolEnc, BoolEnc.encode]
            rw [if_pos h7, ← hx, show e.brl.encode (.u8 x) = .ok (brl, o1) from hs]
            rfl
          simp only [List.map_cons, call, Enc.run, Enc.step, hen, Res.ok_bind, he']
          rfl
      · obtain ⟨e1, he1, hb1, hi1⟩ : ∃ e1, boolEnc.encode e (.bool b) = .ok (e1, []) ∧ e1.brl = e.brl ∧ e1.index = e.index + 1 := by
          simp only [boolEnc, BoolEnc.encode]
          rw [if_neg h7]
          exact ⟨_, rfl, rfl, rfl⟩
        simp only [maxBoolRunLength] at h7
        obtain ⟨bops, g1, g2, g3⟩ := ih e1 (k + 1) (by omega) (by omega) (by rw [hb1]; exact hw)
        refine ⟨bops, by rw [hf, g1], by rw [hg, hf]; omega, ?_⟩
        intro b' out h
        rw [hb1] at g3
        obtain ⟨e', he'⟩ := g3 b' out h
        refine ⟨e', ?_⟩
        simp only [List.map_cons, call, Enc.run, Enc.step, he1, Res.ok_bind, he']
        rfl
    | none =>
      have hg : given (none :: ops) = given ops := by simp [given]
      have hf : flushed (none :: ops) = flushed ops + 1 := by simp [flushed]
      by_cases h0 : e.index = -1
      · obtain ⟨brl, o1, hs, hw1⟩ := byte_flushes hw
        obtain ⟨bops, g1, g2, g3⟩ := ih { e with brl := brl, index := -1 } 0 (by omega) rfl hw1
        refine ⟨none :: bops, by rw [hf, ← g1]; simp [flushes], ?_, ?_⟩
        · rw [hg, hf]; simp only [List.filterMap_cons, id]; omega
        · intro b' out h
          simp only [List.map_cons, byteOp, Enc.run, Enc.step, hs, Res.ok_bind] at h
          obtain ⟨⟨b2, o2⟩, h2, h⟩ := Res.bind_eq_ok.mp h
          obtain ⟨rfl, rfl⟩ := Prod.mk.inj (Res.ok.inj h)
          obtain ⟨e', he'⟩ := g3 b2 o2 h2
          refine ⟨e', ?_⟩
          have hfl : boolEnc.flush e = .ok ({ e with brl := brl, index := -1 }, o1) := by
            simp only [boolEnc, BoolEnc.flush]
            rw [if_neg (by simpa using h0)]
            simp only [Res.pure_eq, Res.ok_bind]
            rw [show e.brl.flush = .ok (brl, o1) from hs]
            rfl
          simp only [List.map_cons, call, Enc.run, Enc.step, hfl, Res.ok_bind, he']
          rfl
      · obtain ⟨brl0, o0, hs0, hw0⟩ := byte_encodes hw e.value
        obtain ⟨brl, o1, hs, hw1⟩ := byte_flushes hw0
        obtain ⟨bops, g1, g2, g3⟩ := ih { e with brl := brl, index := -1 } 0 (by omega) rfl hw1
        refine ⟨some e.value :: none :: bops, by rw [hf, ← g1]; simp [flushes], ?_, ?_⟩
        · rw [hg, hf]; simp only [List.filterMap_cons, id, List.length_cons]; omega
        · intro b' out h
          simp only [List.map_cons, byteOp, Enc.run, Enc.step, hs0, hs, Res.ok_bind] at h
          obtain ⟨⟨b1, o3⟩, h3, h⟩ := Res.bind_eq_ok.mp h
          obtain ⟨⟨b2, o2⟩, h2, h3⟩ := Res.bind_eq_ok.mp h3
          obtain ⟨rfl, rfl⟩ := Prod.mk.inj (Res.ok.inj h3)
          obtain ⟨rfl, rfl⟩ := Prod.mk.inj (Res.ok.inj h)
          obtain ⟨e', he'⟩ := g3 b2 o2 h2
          refine ⟨e', ?_⟩
          have hfl : boolEnc.flush e = .ok ({ e with brl := brl, index := -1 }, o0 ++ o1) := by
            simp only [boolEnc, BoolEnc.flush]
            rw [if_pos (by simpa using h0), show e.brl.encode (.u8 e.value) = .ok (brl0, o0) from hs0]
            simp only [Res.ok_bind]
            rw [show brl0.flush = .ok (brl, o1) from hs]
            rfl
          simp only [List.map_cons, call, Enc.run, Enc.step, hfl, Res.ok_bind, he', List.append_assoc]
          rfl

/-- The bytes that hold `n` booleans when each of `f` flushes may leave a byte unfinished. -/
def bytesFor (n f : Nat) : Nat := (n + 7 * f) / 8

/-- **C117** Every history of booleans and flushes is accepted. What is written for it takes a byte for every eight values, of which
each `Flush` may leave one unfinished, and on top one byte in 128 and one byte for each `Flush`. -/
theorem bool_growth (p : Bool) (ops : List (Option Bool)) :
    ∃ e out, boolEnc.run (newBoolEncoder p) (ops.map call) = .ok (e, out) ∧
      out.length ≤ bytesFor (given ops) (flushed ops) + bytesFor (given ops) (flushed ops) / 128 + flushed ops := by
  have hwf : (newBoolEncoder p).brl.WF := newByteEncoder_wf p
  obtain ⟨bops, g1, g2, g3⟩ := as_bytes ops (newBoolEncoder p) 0 (by omega) rfl hwf
  obtain ⟨b', out, n', c', k1, k2, k3, k4, k5⟩ := run_cost bops (newBoolEncoder p).brl hwf 0 0 0 0 (by simp) (by simp)
  obtain ⟨e', he'⟩ := g3 b' out k1
  refine ⟨e', out, he', ?_⟩
  have hv : (newBoolEncoder p).brl.values = [] := rfl
  have ho : owed b'.values ≤ b'.values.length := by
    simp only [owed]
    split
    · rename_i hs
      obtain ⟨v, t, ht⟩ := (startsRun_iff _).1 hs
      rw [ht]; simp
    · omega
  rw [hv, List.length_nil] at k3
  rw [g1] at k4
  have hb : (bops.filterMap id).length ≤ bytesFor (given ops) (flushed ops) := by
    simp only [bytesFor]; omega
  omega

/-- Sixteen values, flushed after the first nine: three bytes of values and two for the flushes, which is the bound. -/
example : ∃ e out, boolEnc.run (newBoolEncoder true)
    (((List.replicate 9 (some true)) ++ [none] ++ List.replicate 7 (some false) ++ [none]).map call) = .ok (e, out) ∧ out.length = 5 := by
  refine ⟨_, _, rfl, ?_⟩
  decide +kernel

/-- A `Flush` after every value. -/
def oneByOne (b : Bool) : Nat → List (Option Bool)
  | 0 => []
  | n + 1 => some b :: none :: oneByOne b n

/-- **C117** The bound without the 128th is reached for any number of values: a `Flush` after each makes them two bytes long. -/
theorem bool_growth_reached (p : Bool) (n : Nat) : given (oneByOne true n) = n ∧ flushed (oneByOne true n) = n ∧
    bytesFor n n = n ∧ ∃ e out, boolEnc.run (newBoolEncoder p) ((oneByOne true n).map call) = .ok (e, out) ∧ out.length = n + n := by
  refine ⟨?_, ?_, by simp only [bytesFor]; omega, ?_⟩
  · induction n with
    | zero => rfl
    | succ n ih => simp only [given] at ih; simp [given, oneByOne, ih]
  · induction n with
    | zero => rfl
    | succ n ih => simp only [flushed] at ih; simp [flushed, oneByOne, ih]
  · suffices h : ∀ e : BoolEnc, e.index = -1 → e.brl.values = [] →
        ∃ e' out, boolEnc.run e ((oneByOne true n).map call) = .ok (e', out) ∧ out.length = n + n from h _ rfl rfl
    induction n with
    | zero => intro e _ _; exact ⟨e, [], rfl, rfl⟩
    | succ n ih =>
      intro e hi hv
      obtain ⟨⟨bpos, vals⟩, idx, val, pos⟩ := e
      simp only at hi hv
      subst hi hv
      have hstep : ∃ e1 e2 o, boolEnc.encode ⟨⟨bpos, []⟩, -1, val, pos⟩ (.bool true) = .ok (e1, []) ∧ boolEnc.flush e1 = .ok (e2, o) ∧
          o.length = 2 ∧ e2.index = -1 ∧ e2.brl.values = [] :=
        ⟨_, _, _, rfl, rfl, rfl, rfl, rfl⟩
      obtain ⟨e1, e2, o, h1, h2, h3, h4, h5⟩ := hstep
      obtain ⟨e', out, h6, h7⟩ := ih e2 h4 h5
      refine ⟨e', o ++ out, ?_, by rw [List.length_append, h3, h7]; omega⟩
      simp only [oneByOne, List.map_cons, call, Enc.run, Enc.step, h1, h2, h6, Res.ok_bind]
      rfl

end BoolSize
end Goorc
