import Verif.Proofs.IntAccept
import Verif.Proofs.EncByte
namespace Goorc

/-- The argument of `Encode` that is stored as `v`. -/
def toVal (signed : Bool) (v : U64) : GoVal := if signed then .i64 (unZigzag v) else .u64 v

theorem rawValue_toVal (signed : Bool) (v : U64) : IntEnc.rawValue signed (toVal signed v) = .ok v := by
  cases signed
  · rfl
  · simp only [toVal, IntEnc.rawValue, if_true, zigzag_unZigzag]

theorem toVal_signed (xs : List U64) : (xs.map zigzag).map (toVal true) = xs.map .i64 := by
  rw [List.map_map]
  congr 1
  funext x
  simp [toVal, unZigzag_zigzag]

theorem toVal_unsigned (xs : List U64) : xs.map (toVal false) = xs.map .u64 := rfl

/-- Below 512 pending values `Encode` only stores. -/
theorem encode_store (e : IntEnc) (vs : List U64) (h : e.values.length + vs.length < 512) :
    ∃ e', intEnc.run e ((vs.map (toVal e.signed)).map .encode) = .ok (e', []) ∧ e'.values = e.values ++ vs ∧
      e'.signed = e.signed := by
  induction vs generalizing e with
  | nil => exact ⟨e, rfl, by simp, rfl⟩
  | cons v vs ih =>
    simp only [List.length_cons] at h
    have hlt : ¬ ((e.values ++ [v]).length ≥ maxIntRunLength) := by simp [maxIntRunLength]; omega
    obtain ⟨e1, he1⟩ : ∃ e1, intEnc.step e (.encode (toVal e.signed v)) = .ok (e1, []) ∧
        e1.values = e.values ++ [v] ∧ e1.signed = e.signed := by
      refine ⟨{ e with values := e.values ++ [v], position := if e.position ≠ -1 then ((e.values ++ [v]).length : Int) else e.position }, ?_, rfl, rfl⟩
      simp only [Enc.step, intEnc, IntEnc.encode, rawValue_toVal, Res.ok_bind, if_neg hlt, Res.pure_eq]
    obtain ⟨h1, h2, h3⟩ := he1
    obtain ⟨e', g1, g2, g3⟩ := ih e1 (by rw [h2]; simp; omega)
    rw [h3] at g1
    refine ⟨e', ?_, by rw [g2, h2]; simp, by rw [g3, h3]⟩
    simp only [List.map_cons, Enc.run, h1, Res.ok_bind, g1]
    rfl

/-- The value that fills the block. -/
theorem encode_fill (e : IntEnc) (v : U64) (o : Bytes) (h : e.values.length + 1 = 512)
    (hw : intWrite e.signed false (e.values ++ [v]) = .ok (o, [])) :
    ∃ e', intEnc.step e (.encode (toVal e.signed v)) = .ok (e', o) ∧ e'.values = [] ∧ e'.signed = e.signed := by
  have hge : (e.values ++ [v]).length ≥ maxIntRunLength := by simp [maxIntRunLength]; omega
  refine ⟨{ e with values := [], position := if e.position ≠ -1 then (([] : List U64).length : Int) else e.position }, ?_, rfl, rfl⟩
  simp only [Enc.step, intEnc, IntEnc.encode, rawValue_toVal, Res.ok_bind, if_pos hge, hw, Res.pure_eq]

/-- If every block of 512 consecutive values is written completely and decodes, then all values are written in
blocks and only the rest is pending. -/
theorem encode_blocks (signed : Bool) (vs : List U64)
    (hfull : ∀ c, c <:+: vs → c.length = 512 → ∃ o, intWrite signed false c = .ok (o, []) ∧ Decodes (decodeRaw signed) o c)
    (e : IntEnc) (hs : e.signed = signed) (he : e.values = []) :
    ∃ e' out, intEnc.run e ((vs.map (toVal signed)).map .encode) = .ok (e', out) ∧ e'.signed = signed ∧
      e'.values = vs.drop (vs.length / 512 * 512) ∧ Decodes (decodeRaw signed) out (vs.take (vs.length / 512 * 512)) := by
  induction hn : vs.length / 512 generalizing vs e with
  | zero =>
    have hlt : vs.length < 512 := by omega
    obtain ⟨e', h1, h2, h3⟩ := encode_store e vs (by rw [he]; simpa using hlt)
    rw [hs] at h1
    exact ⟨e', [], h1, by rw [h3, hs], by rw [h2, he]; simp, by simpa using Decodes.nil⟩
  | succ n ih =>
    have hge : 512 ≤ vs.length := by omega
    obtain ⟨o, hw, hd⟩ := hfull (vs.take 512) (List.take_prefix 512 vs).isInfix (by simp; omega)
    have hsplit : vs = vs.take 511 ++ vs[511] :: vs.drop 512 := by
      rw [List.getElem_cons_drop, List.take_append_drop]
    have h512 : vs.take 512 = vs.take 511 ++ [vs[511]] := by
      rw [show 512 = 511 + 1 from rfl, List.take_succ_eq_append_getElem]
    obtain ⟨e1, h1, h2, h3⟩ := encode_store e (vs.take 511) (by rw [he]; simp; omega)
    rw [he, List.nil_append] at h2
    rw [hs] at h1 h3
    obtain ⟨e2, g1, g2, g3⟩ := encode_fill e1 vs[511] o (by rw [h2]; simp; omega) (by rw [h2, h3, ← h512]; exact hw)
    rw [h3] at g1 g3
    have hlen : (vs.drop 512).length / 512 = n := by simp; omega
    obtain ⟨e', out, i1, i2, i3, i4⟩ := ih (vs.drop 512)
      (fun c hc => hfull c (hc.trans (List.drop_suffix 512 vs).isInfix)) e2 g3 g2 hlen
    refine ⟨e', o ++ out, ?_, i2, ?_, ?_⟩
    · have : vs.map (toVal signed) = (vs.take 511).map (toVal signed) ++ toVal signed vs[511] :: (vs.drop 512).map (toVal signed) := by
        conv => lhs; rw [hsplit]
        rw [List.map_append, List.map_cons]
      rw [this, List.map_append, Enc.run_append, h1]
      simp only [Res.ok_bind, List.map_cons, Enc.run, g1, i1, Res.pure_eq, List.nil_append]
    · rw [i3, List.drop_drop]; congr 1; omega
    · have : vs.take ((n + 1) * 512) = vs.take 512 ++ (vs.drop 512).take (n * 512) := by
        rw [show (n + 1) * 512 = 512 + n * 512 by omega, List.take_add]
      rw [this]
      exact hd.append i4

/-- And if the rest is written and decodes too, everything comes back. -/
theorem encodeFlush_blocks (signed p : Bool) (vs : List U64)
    (hfull : ∀ c, c <:+: vs → c.length = 512 → ∃ o, intWrite signed false c = .ok (o, []) ∧ Decodes (decodeRaw signed) o c)
    (hrest : vs.drop (vs.length / 512 * 512) ≠ [] →
      ∃ o, intWrite signed true (vs.drop (vs.length / 512 * 512)) = .ok (o, []) ∧
        Decodes (decodeRaw signed) o (vs.drop (vs.length / 512 * 512))) :
    ∃ out, intEnc.encodeFlush (newIntRLV2 signed p) (vs.map (toVal signed)) = .ok out ∧
      Decodes (decodeRaw signed) out vs := by
  obtain ⟨e', out, h1, h2, h3, h4⟩ := encode_blocks signed vs hfull (newIntRLV2 signed p) rfl rfl
  by_cases he : vs.drop (vs.length / 512 * 512) = []
  · refine ⟨out, ?_, ?_⟩
    · have hf : intEnc.step e' .flush = .ok (e', []) := by
        simp only [Enc.step, intEnc, IntEnc.flush, h3, he, if_true, Res.pure_eq]
      simp only [Enc.encodeFlush, Enc.run_append, h1, Res.ok_bind, Enc.run, hf, Res.pure_eq, List.append_nil]
    · have : vs.take (vs.length / 512 * 512) = vs := List.take_of_length_le (by simpa using he)
      rwa [this] at h4
  · obtain ⟨o, g1, g2⟩ := hrest he
    refine ⟨out ++ o, ?_, ?_⟩
    · have hf : intEnc.step e' .flush = .ok ({ e' with values := [] }, o) := by
        simp only [Enc.step, intEnc, IntEnc.flush, h3, he, if_false, Res.pure_eq, Res.ok_bind, h2, g1]
      simp only [Enc.encodeFlush, Enc.run_append, h1, Res.ok_bind, Enc.run, hf, Res.pure_eq, List.append_nil]
    · have := h4.append g2
      rwa [List.take_append_drop] at this

/-- A decodable prefix followed by something whose first block is an error. -/
theorem decodeAll_bad_tail {α : Type} {d : Dec (List α)} {s t : Bytes} {vs : List α} (h : Decodes d s vs) (err : Err)
    (ht : t ≠ []) (hb : d.runBuf t = .err err) : decodeAll d (s ++ t) = .err err := by
  suffices hf : ∀ fuel, (s ++ t).length ≤ fuel → decodeAllFuel d fuel (s ++ t) = .err err from hf _ (Nat.le_refl _)
  induction h with
  | nil =>
    intro fuel hf
    cases t with
    | nil => exact absurd rfl ht
    | cons b t =>
      cases fuel with
      | zero => simp at hf
      | succ fuel => simp only [List.nil_append, decodeAllFuel, hb]; rfl
  | @cons s r vs ws h hl _ ih =>
    intro fuel hf
    cases s with
    | nil => simp at hl
    | cons b s =>
      cases fuel with
      | zero => simp at hf
      | succ fuel =>
        have hr : (r ++ t).length ≤ fuel := by simp at hl hf ⊢; omega
        have := Dec.runBuf_append d _ t _ _ h
        simp only [List.cons_append] at this ⊢
        simp only [decodeAllFuel, this, Res.ok_bind, ih fuel hr]
        rfl

/-! ### Equal values -/

theorem countEq_replicate (x : U64) (n : Nat) : countEq x (List.replicate n x) = n := by
  induction n with
  | zero => rfl
  | succ n ih => simp [List.replicate_succ, countEq, ih]

theorem writeStep_const_long (signed toEnd : Bool) (x : U64) (hx : x.toNat < 2 ^ 56) (n : Nat) (h : 11 ≤ n) (h' : n ≤ 512) :
    ∃ o, writeStep signed toEnd (List.replicate n x) = .ok (o, []) ∧
      Decodes (decodeRaw signed) o (List.replicate n x) := by
  obtain ⟨first, out, g1, g2, -⟩ := fixedDelta_block signed x n (by omega) h' hx []
  refine ⟨out, ?_, decodes_raw_single fun tail => ?_⟩
  · have : List.replicate n x = x :: List.replicate (n - 1) x := by
      rw [← List.replicate_succ]; congr 1; omega
    have hr : getRepeats (List.replicate n x) = .ok n := by
      rw [this]; simp only [getRepeats, countEq_replicate]; congr 1; omega
    have hh : (List.replicate n x).headD 0 = x := by rw [this]; rfl
    simp only [writeStep, hr, Res.ok_bind, hh]
    rw [if_pos (by omega), if_neg (by omega), g1]
    simp only [Res.ok_bind, g2, Res.pure_eq]
    simp
  · obtain ⟨f', o', k1, k2, k3⟩ := fixedDelta_block signed x n (by omega) h' hx tail
    rw [g1] at k1; cases k1
    rw [g2] at k2; cases k2
    exact k3

theorem writeStep_const_short (signed toEnd : Bool) (x : U64) (n : Nat) (h : 3 ≤ n) (h' : n ≤ 10) :
    writeStep signed toEnd (List.replicate n x) = .ok (writeShortRepeat (n - 3) x, []) := by
  have : List.replicate n x = x :: List.replicate (n - 1) x := by
    rw [← List.replicate_succ]; congr 1; omega
  have hr : getRepeats (List.replicate n x) = .ok n := by
    rw [this]; simp only [getRepeats, countEq_replicate]; congr 1; omega
  have hh : (List.replicate n x).headD 0 = x := by rw [this]; rfl
  simp only [writeStep, hr, Res.ok_bind, hh]
  rw [if_pos (by omega), if_pos h']
  simp

/-- One iteration that consumes everything is all `write` does. -/
theorem intWrite_one (signed toEnd : Bool) (vs : List U64) (hl : 3 < vs.length) (o : Bytes)
    (h : writeStep signed toEnd vs = .ok (o, [])) : intWrite signed toEnd vs = .ok (o, []) := by
  simp only [intWrite]
  rw [if_neg (by omega)]
  cases toEnd with
  | false => simpa using h
  | true =>
    simp only [if_true]
    cases vs with
    | nil => simp at hl
    | cons v vs =>
      simp only [List.length_cons, writeLoop, h, Res.ok_bind]
      cases vs.length <;> simp

theorem infix_replicate {x : U64} {n : Nat} {c : List U64} (h : c <:+: List.replicate n x) :
    c = List.replicate c.length x := by
  rw [List.eq_replicate_iff]
  exact ⟨rfl, fun b hb => (List.mem_replicate.mp (h.subset hb)).2⟩

theorem const_full (signed : Bool) (x : U64) (hx : x.toNat < 2 ^ 56) (n : Nat) :
    ∀ c, c <:+: List.replicate n x → c.length = 512 →
      ∃ o, intWrite signed false c = .ok (o, []) ∧ Decodes (decodeRaw signed) o c := by
  intro c hc hl
  have := infix_replicate hc
  rw [hl] at this
  obtain ⟨o, h1, h2⟩ := writeStep_const_long signed false x hx 512 (by omega) (by omega)
  rw [this]
  exact ⟨o, intWrite_one signed false _ (by rw [List.length_replicate]; decide) o h1, h2⟩

end Goorc
