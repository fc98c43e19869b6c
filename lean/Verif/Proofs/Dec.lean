import Verif.Go.Dec
/-
Lemmas about decoders run on buffers: locality (what follows does not matter) and the
relation `Decodes` (the bytes are a sequence of blocks holding these values).
-/
namespace Goorc

/-- A successful decode does not depend on the bytes after those it consumed. -/
theorem Dec.runBuf_append {α : Type} (d : Dec α) (s t r : Bytes) (a : α)
    (h : d.runBuf s = .ok (a, r)) : d.runBuf (s ++ t) = .ok (a, r ++ t) := by
  induction d generalizing s with
  | ret b => simp [Dec.runBuf] at h ⊢; simp [h]
  | fail e => simp [Dec.runBuf] at h
  | crash => simp [Dec.runBuf] at h
  | readByte k ih =>
    cases s with
    | nil => simp [Dec.runBuf] at h
    | cons b s => simp only [Dec.runBuf, List.cons_append] at h ⊢; exact ih b s h
  | readFull n k ih =>
    simp only [Dec.runBuf] at h ⊢
    split at h
    · rename_i hn
      have h1 : n ≤ (s ++ t).length := by simp; omega
      rw [if_pos h1, List.take_append_of_le_length hn, List.drop_append_of_le_length hn]
      exact ih _ _ h
    · simp at h

/-- A successful decode leaves a suffix of its input. -/
theorem Dec.runBuf_suffix {α : Type} (d : Dec α) (s r : Bytes) (a : α)
    (h : d.runBuf s = .ok (a, r)) : ∃ p, s = p ++ r := by
  induction d generalizing s with
  | ret b => simp [Dec.runBuf] at h; exact ⟨[], by simp [h]⟩
  | fail e => simp [Dec.runBuf] at h
  | crash => simp [Dec.runBuf] at h
  | readByte k ih =>
    cases s with
    | nil => simp [Dec.runBuf] at h
    | cons b s =>
      simp only [Dec.runBuf] at h
      obtain ⟨p, hp⟩ := ih b s h
      exact ⟨b :: p, by simp [hp]⟩
  | readFull n k ih =>
    simp only [Dec.runBuf] at h
    split at h
    · obtain ⟨p, hp⟩ := ih _ _ h
      refine ⟨s.take n ++ p, ?_⟩
      rw [List.append_assoc, ← hp, List.take_append_drop]
    · simp at h

/-- `s` is a sequence of nonempty blocks that decode to `vs` in total. -/
inductive Decodes {α : Type} (d : Dec (List α)) : Bytes → List α → Prop where
  | nil : Decodes d [] []
  | cons {s r : Bytes} {vs ws : List α} (h : d.runBuf s = .ok (vs, r)) (hl : r.length < s.length)
      (t : Decodes d r ws) : Decodes d s (vs ++ ws)

theorem Decodes.append {α : Type} {d : Dec (List α)} {s t : Bytes} {vs ws : List α}
    (h : Decodes d s vs) (h' : Decodes d t ws) : Decodes d (s ++ t) (vs ++ ws) := by
  induction h with
  | nil => simpa using h'
  | cons h hl _ ih =>
    rw [List.append_assoc]
    exact Decodes.cons (Dec.runBuf_append _ _ _ _ _ h) (by simp; omega) ih

theorem Decodes.single {α : Type} {d : Dec (List α)} {s : Bytes} {vs : List α}
    (h : d.runBuf s = .ok (vs, [])) (hl : 0 < s.length) : Decodes d s vs := by
  have := Decodes.cons h (by simpa using hl) (Decodes.nil (d := d))
  simpa using this

theorem decodeAllFuel_of_decodes {α : Type} {d : Dec (List α)} {s : Bytes} {vs : List α}
    (h : Decodes d s vs) : ∀ fuel, s.length ≤ fuel → decodeAllFuel d fuel s = .ok vs := by
  induction h with
  | nil => intro fuel _; cases fuel <;> rfl
  | @cons s r vs ws h hl _ ih =>
    intro fuel hf
    cases s with
    | nil => simp at hl
    | cons b s =>
      cases fuel with
      | zero => simp at hf
      | succ fuel =>
        have hr : r.length ≤ fuel := by simp at hl hf; omega
        simp [decodeAllFuel, h, ih fuel hr]

theorem decodeAll_of_decodes {α : Type} {d : Dec (List α)} {s : Bytes} {vs : List α}
    (h : Decodes d s vs) : decodeAll d s = .ok vs :=
  decodeAllFuel_of_decodes h _ (Nat.le_refl _)

/-- Concatenated encodings decode to concatenated values. -/
theorem decodeAll_append_of_decodes {α : Type} {d : Dec (List α)} {s t : Bytes} {vs ws : List α}
    (h : Decodes d s vs) (h' : Decodes d t ws) : decodeAll d (s ++ t) = .ok (vs ++ ws) :=
  decodeAll_of_decodes (h.append h')

end Goorc
