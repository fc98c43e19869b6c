import Verif.Spec.StructCol
import Verif.Proofs.ColWrite
/- One stripe of a struct column: lemmas for Proofs/Trips.lean and Props/StructColumn.lean. -/
namespace Goorc

theorem packFrom_false (bs : List Bool) (h : ∀ b ∈ bs, b = false) (i : Nat) : packFrom i bs = 0 := by
  induction bs generalizing i with
  | nil => rfl
  | cons b bs ih =>
    have hb := h b (by simp)
    subst hb
    simp [packFrom, ih (fun b hb => h b (by simp [hb]))]

theorem NoStale.pack {flags : List Bool} (h : NoStale flags) : packByte (trailing flags) = 0 := packFrom_false _ h 0

/-- A writer of a nullable struct that can go on: its present stream is empty, and its statistics are there. -/
def StructWriter.Ready (c : Codec) (o : COpts) (w : StructWriter) : Prop :=
  w.hasNulls = true ∧ (∃ q, w.present = some q ∧ q.Clean c o.toWOpts CleanBool) ∧ w.stats.typed.isSome = true ∧
    (o.writeIndex = true → ∃ is, w.indexStats = some is ∧ is.typed.isSome = true)

theorem StructWriter.count_some (null : Bool) {s : ColStats Nat} (h : s.typed.isSome = true) : ∃ s', StructWriter.count null s = .ok s' ∧ s'.typed.isSome = true := by
  cases ht : s.typed with
  | none => simp [ht] at h
  | some n => cases null <;> simp [StructWriter.count, ht]

theorem StructWriter.writes_spec (c : Codec) (o : COpts) (rows : List Value) : ∀ (w : StructWriter) (q q1 : StreamWriter BoolEnc), w.hasNulls = true → w.present = some q →
    w.stats.typed.isSome = true → (o.writeIndex = true → ∃ is, w.indexStats = some is ∧ is.typed.isSome = true) →
    q.writes boolEnc c o.toWOpts ((flagsOf rows).map .bool) = .ok q1 →
    ∃ w1, StructWriter.writes c o w rows = .ok w1 ∧ w1.hasNulls = true ∧ w1.present = some q1 ∧ w1.stats.typed.isSome = true ∧
      (o.writeIndex = true → ∃ is, w1.indexStats = some is ∧ is.typed.isSome = true) := by
  induction rows with
  | nil =>
    intro w q q1 hn hp ht hi hq
    injection hq with hq; subst hq
    exact ⟨w, rfl, hn, hp, ht, hi⟩
  | cons v rows ih =>
    intro w q q1 hn hp ht hi hq
    simp only [flagsOf, List.map_cons, StreamWriter.writes] at hq
    obtain ⟨q2, h1, hq⟩ := Res.bind_ok_inv hq
    obtain ⟨st, h2, h3⟩ := StructWriter.count_some v.null ht
    have hone : ∃ w1, w.write c o v = .ok w1 ∧ w1.hasNulls = true ∧ w1.present = some q2 ∧ w1.stats.typed.isSome = true ∧
        (o.writeIndex = true → ∃ is, w1.indexStats = some is ∧ is.typed.isSome = true) := by
      simp only [StructWriter.write, hn, if_true, writeFlag, hp, h1, h2, Res.ok_bind, Res.pure_eq]
      by_cases hwi : o.writeIndex = true
      · obtain ⟨is, e1, e2⟩ := hi hwi
        simp only [hwi, if_true, StructWriter.indexRow, e1]
        by_cases hs : w.indexInRows + 1 ≥ o.stride
        · obtain ⟨is', f1, f2⟩ := StructWriter.count_some v.null (s := ⟨some 0, w.hasNulls, 0, 0⟩) rfl
          rw [hn] at f1
          simp only [hs, if_true, f1, Res.ok_bind, Res.pure_eq]
          exact ⟨_, rfl, rfl, rfl, h3, fun _ => ⟨_, rfl, f2⟩⟩
        · obtain ⟨is', f1, f2⟩ := StructWriter.count_some v.null e2
          simp only [hs, if_false, f1, Res.ok_bind, Res.pure_eq]
          exact ⟨_, rfl, rfl, rfl, h3, fun _ => ⟨_, rfl, f2⟩⟩
      · simp only [hwi, Bool.false_eq_true, if_false]
        exact ⟨_, rfl, rfl, rfl, h3, fun h => h.elim⟩
    obtain ⟨w1, g1, g2, g3, g4, g5⟩ := hone
    obtain ⟨w2, k1, k2⟩ := ih w1 q2 q1 g2 g3 g4 g5 hq
    exact ⟨w2, by simp only [StructWriter.writes, g1, Res.ok_bind, k1], k2⟩

/-- One stripe of a nullable struct. -/
theorem StructWriter.stripe_spec (c : Codec) (hc : c.Lossless) {o : COpts} (ho : o.toWOpts.Sound) (w : StructWriter) (hw : w.Ready c o) (rows : List Value) :
    ∃ w1 w2 w3 body, StructWriter.writes c o w rows = .ok w1 ∧ w1.flush c o = .ok w2 ∧ w2.writeOut o = .ok (w3, body) ∧
      w2.streamInfos = [(.present, body.length)] ∧ w3.streamInfos = [(.present, body.length)] ∧ FlagsIn c o.toWOpts body (flagsOf rows) ∧
      (o.kind = .zlib → o.writeIndex = false → NoStale (flagsOf rows) → ∃ w4, w3.reset o = .ok w4 ∧ w4.Ready c o) := by
  obtain ⟨hn, ⟨q, hp, hq⟩, ht, hi⟩ := hw
  obtain ⟨q1, q2, a1, a2, a3, a4, a5⟩ := present_trip c hc o.toWOpts ho q hq (flagsOf rows)
  obtain ⟨w1, b1, b2, b3, b4, b5⟩ := StructWriter.writes_spec c o rows w q q1 hn hp ht hi a1
  refine ⟨w1, _, _, (q2.writeOut o.toWOpts).2, b1, by simp only [StructWriter.flush, flushFlags, b2, if_true, b3, a2, Res.ok_bind, Res.pure_eq]; rfl,
    by simp only [StructWriter.writeOut, Bool.true_eq_false, if_false, writeOutFlags, if_true, Res.ok_bind, Res.pure_eq]; rfl, ?_, ?_, ?_, ?_⟩
  · simp [StructWriter.streamInfos, a3]
  · simp [StructWriter.streamInfos, writeOut_length, a3]
  · intro pre post
    obtain ⟨r', h1, -⟩ := a4 pre post
    exact ⟨r', h1⟩
  · intro hz hwi hs
    obtain ⟨q3, c1, c2⟩ := a5 hz
    simp only [StructWriter.reset, resetFlags, if_true, c1, hwi, Bool.false_eq_true, if_false, Res.ok_bind, Res.pure_eq]
    refine ⟨_, rfl, rfl, ⟨q3, rfl, ?_⟩, b4, fun h => by rw [hwi] at h; exact absurd h (by simp)⟩
    obtain ⟨d1, d2, d3, d4, d5, d6⟩ := c2
    exact ⟨d1, d2, d3, d4, d5, by rw [d6, hs.pack]⟩

theorem StructWriter.new_ready (c : Codec) {o : COpts} (ho : o.toWOpts.Sound) : (StructWriter.new o true).Ready c o := by
  refine ⟨rfl, ⟨newStreamWriter o.toWOpts (newBoolEncoder o.writeIndex), by simp only [StructWriter.new, if_true], newStreamWriter_clean c o.toWOpts ho _ _ ⟨rfl, newByteEncoder_wf _, rfl, rfl⟩⟩, rfl, fun h => ?_⟩
  exact ⟨⟨some 0, true, 0, 0⟩, by simp only [StructWriter.new, h, if_true], rfl⟩

end Goorc
