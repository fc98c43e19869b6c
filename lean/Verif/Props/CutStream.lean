import Verif.Proofs.Dec
import Verif.Model.EncInt
import Verif.Model.EncBool
import Verif.Props.EncByte
import Verif.Props.EncBool
/-
C122: a stream that is cut short gives the first values of the whole stream, and then reports its end.
-/
namespace Goorc
namespace CutStream

/-- Specification: call a decoder again and again until the bytes are used up or a call does not succeed. What the calls delivered, and how
it ended. -/
def reads {α : Type} (d : Dec (List α)) : Nat → Bytes → List α × Res Unit
  | _, [] => ([], .ok ())
  | 0, _ :: _ => ([], .hang)
  | fuel + 1, b :: s =>
    match d.runBuf (b :: s) with
    | .ok (vs, rest) => (vs ++ (reads d fuel rest).1, (reads d fuel rest).2)
    | .err e => ([], .err e)
    | .panic => ([], .panic)
    | .hang => ([], .hang)

/-- Specification: however a stream that can be read is cut, reading what is left ends, without a panic or an error other than the end of
the stream; it delivers first values of the whole stream, and at least those of the blocks that are there. -/
def CutSafe {α : Type} (d : Dec (List α)) : Prop :=
  ∀ (s t : Bytes) (vs : List α), decodeAll d (s ++ t) = .ok vs →
    (reads d s.length s).1 <+: vs ∧ ((reads d s.length s).2 = .ok () ∨ (reads d s.length s).2 = .err .eof) ∧
    ∀ (s1 s2 : Bytes) (us : List α), s = s1 ++ s2 → decodeAll d s1 = .ok us → us <+: (reads d s.length s).1

/-- One call on the bytes before the cut. -/
theorem run_cut {α : Type} (d : Dec α) (s t r : Bytes) (a : α) (h : d.runBuf (s ++ t) = .ok (a, r)) :
    (∃ r', d.runBuf s = .ok (a, r') ∧ r = r' ++ t) ∨ d.runBuf s = .err .eof := by
  induction d generalizing s with
  | ret b =>
    simp only [Dec.runBuf] at h ⊢
    obtain ⟨rfl, rfl⟩ := Prod.mk.inj (Res.ok.inj h)
    exact Or.inl ⟨s, rfl, rfl⟩
  | fail e => simp [Dec.runBuf] at h
  | crash => simp [Dec.runBuf] at h
  | readByte k ih =>
    cases s with
    | nil => exact Or.inr rfl
    | cons b s => simp only [Dec.runBuf, List.cons_append] at h ⊢; exact ih b s h
  | readFull n k ih =>
    simp only [Dec.runBuf] at h ⊢
    by_cases hn : n ≤ s.length
    · rw [if_pos hn]
      rw [if_pos (by rw [List.length_append]; omega), List.take_append_of_le_length hn, List.drop_append_of_le_length hn] at h
      exact ih _ _ h
    · rw [if_neg hn]; exact Or.inr rfl

theorem reads_cut {α : Type} {d : Dec (List α)} (hd : ∀ s vs r, d.runBuf s = .ok (vs, r) → r.length < s.length) (t : Bytes) (f : Nat) :
    ∀ (m : Nat) (s : Bytes) (vs : List α), s.length ≤ m → decodeAllFuel d f (s ++ t) = .ok vs →
      (reads d m s).1 <+: vs ∧ ((reads d m s).2 = .ok () ∨ (reads d m s).2 = .err .eof) := by
  induction f with
  | zero =>
    intro m s vs hm h
    cases s with
    | nil => cases m <;> exact ⟨List.nil_prefix, Or.inl rfl⟩
    | cons b s => simp [decodeAllFuel] at h
  | succ f ih =>
    intro m s vs hm h
    cases s with
    | nil => cases m <;> exact ⟨List.nil_prefix, Or.inl rfl⟩
    | cons b s =>
      cases m with
      | zero => simp at hm
      | succ m =>
        simp only [List.cons_append, decodeAllFuel] at h
        obtain ⟨⟨v1, r⟩, h1, h⟩ := Res.bind_eq_ok.mp h
        obtain ⟨v2, h2, h⟩ := Res.bind_eq_ok.mp h
        obtain rfl := Res.ok.inj h
        rcases run_cut d (b :: s) t r v1 h1 with ⟨r', e, rfl⟩ | e
        · have hl := hd _ _ _ e
          obtain ⟨g1, g2⟩ := ih m r' v2 (by simp only [List.length_cons] at hl hm; omega) h2
          simp only [reads, e]
          exact ⟨(List.prefix_append_right_inj v1).mpr g1, g2⟩
        · simp only [reads, e]
          exact ⟨List.nil_prefix, Or.inr trivial⟩

theorem reads_whole {α : Type} {d : Dec (List α)} (hd : ∀ s vs r, d.runBuf s = .ok (vs, r) → r.length < s.length) (s2 : Bytes) (f : Nat) :
    ∀ (m : Nat) (s1 : Bytes) (us : List α), (s1 ++ s2).length ≤ m → decodeAllFuel d f s1 = .ok us → us <+: (reads d m (s1 ++ s2)).1 := by
  induction f with
  | zero =>
    intro m s us hm h
    cases s with
    | nil => simp only [decodeAllFuel] at h; obtain rfl := Res.ok.inj h; exact List.nil_prefix
    | cons b s => simp [decodeAllFuel] at h
  | succ f ih =>
    intro m s us hm h
    cases s with
    | nil => simp only [decodeAllFuel] at h; obtain rfl := Res.ok.inj h; exact List.nil_prefix
    | cons b s =>
      cases m with
      | zero => simp at hm
      | succ m =>
        simp only [decodeAllFuel] at h
        obtain ⟨⟨v1, r⟩, h1, h⟩ := Res.bind_eq_ok.mp h
        obtain ⟨v2, h2, h⟩ := Res.bind_eq_ok.mp h
        obtain rfl := Res.ok.inj h
        have hl := hd _ _ _ h1
        have e := Dec.runBuf_append d _ s2 _ _ h1
        have g := ih m r v2 (by simp only [List.length_cons, List.length_append] at hl hm ⊢; omega) h2
        rw [List.cons_append] at e ⊢
        simp only [reads, e]
        exact (List.prefix_append_right_inj v1).mpr g

theorem cutSafe {α : Type} {d : Dec (List α)} (hd : ∀ s vs r, d.runBuf s = .ok (vs, r) → r.length < s.length) : CutSafe d := by
  intro s t vs h
  obtain ⟨h1, h2⟩ := reads_cut hd t _ s.length s vs (Nat.le_refl _) h
  refine ⟨h1, h2, ?_⟩
  rintro s1 s2 us rfl h3
  exact reads_whole hd s2 _ _ s1 us (Nat.le_refl _) h3

/-- A decoder that begins by reading a byte uses up at least one. -/
theorem byte_first {α : Type} {f : Byte → Dec α} {s r : Bytes} {v : α} (h : (Dec.byte >>= f).runBuf s = .ok (v, r)) : r.length < s.length := by
  cases s with
  | nil => simp at h
  | cons b s =>
    rw [Dec.runBuf_bind, Dec.runBuf_byte_cons, Res.ok_bind] at h
    obtain ⟨p, hp⟩ := Dec.runBuf_suffix _ _ _ _ h
    simp only at hp
    rw [hp, List.length_cons, List.length_append]
    omega

theorem map_first {α β : Type} {d : Dec α} {g : α → β} {s r : Bytes} {v : β} (hd : ∀ s v r, d.runBuf s = .ok (v, r) → r.length < s.length)
    (h : (d >>= fun x => pure (g x)).runBuf s = .ok (v, r)) : r.length < s.length := by
  rw [Dec.runBuf_bind] at h
  obtain ⟨⟨x, r'⟩, h1, h2⟩ := Res.bind_eq_ok.mp h
  simp only [Dec.pure_eq, Dec.runBuf_ret] at h2
  obtain ⟨-, rfl⟩ := Prod.mk.inj (Res.ok.inj h2)
  exact hd _ _ _ h1

/-- **C122** Streams of bytes, booleans, unsigned and signed integers can be cut anywhere. -/
theorem cut_streams : CutSafe decodeByteRL ∧ CutSafe decodeBools ∧ CutSafe (decodeUInt false) ∧ CutSafe (decodeInt true) := by
  refine ⟨cutSafe fun s vs r h => byte_first h, cutSafe fun s vs r h => map_first (fun s v r h => byte_first h) h,
    cutSafe fun s vs r h => ?_, cutSafe fun s vs r h => ?_⟩
  · simp only [decodeUInt, Bool.false_eq_true, if_false] at h
    exact byte_first h
  · simp only [decodeInt, if_true] at h
    exact map_first (fun s v r h => byte_first h) h

/-- **C122** What the encoders of bytes and of booleans write can be cut after any number of bytes: reading delivers first ones of the values
that were written (for booleans, with the padding of the last byte). -/
theorem cut_written (p : Bool) (vs : List Byte) (bs : List Bool) :
    (∃ out, byteEnc.encodeFlush (newByteEncoder p) (vs.map .u8) = .ok out ∧
      ∀ n, (reads decodeByteRL (out.take n).length (out.take n)).1 <+: vs) ∧
    (∃ out, boolEnc.encodeFlush (newBoolEncoder p) (bs.map .bool) = .ok out ∧
      ∀ n, (reads decodeBools (out.take n).length (out.take n)).1 <+: bs ++ padding bs.length) := by
  obtain ⟨o1, h1, h2⟩ := byte_roundtrip p vs
  obtain ⟨o2, h3, h4⟩ := bool_roundtrip p bs
  exact ⟨⟨o1, h1, fun n => (cut_streams.1 _ (o1.drop n) vs (by rw [List.take_append_drop]; exact h2)).1⟩,
    ⟨o2, h3, fun n => (cut_streams.2.1 _ (o2.drop n) _ (by rw [List.take_append_drop]; exact h4)).1⟩⟩

/-- Five times 7, then a run of unequal values that is cut: the first five are delivered and the end is reported. -/
example : decodeAll (decodeUInt false) ([2, 7, 0x4e, 2, 1] ++ [9, 8]) = .ok [7, 7, 7, 7, 7, 1, 9, 8] ∧
    reads (decodeUInt false) 5 [2, 7, 0x4e, 2, 1] = ([7, 7, 7, 7, 7], .err .eof) := by
  decide +kernel

end CutStream
end Goorc
