import Verif.Props.Stream
/-
C76: reading everything that is left of a stream of strings at once (`getAllString`); integers are in Verif/Props/SliceMem.lean. C77: the encoder of dates.
-/
namespace Goorc

theorem nextStrings_spec {c : Codec} (vs : List Bytes) (rest : Bytes) (r : StreamReader) (hfit : ∀ v ∈ vs, v.length < 2 ^ 63)
    (h : r.Represents c (vs.flatten ++ rest)) :
    ∃ r', nextStrings c (vs.map List.length) r = .ok (vs, r') ∧ r'.Represents c rest := by
  induction vs generalizing r with
  | nil => exact ⟨r, rfl, h⟩
  | cons v vs ih =>
    rw [List.flatten_cons, List.append_assoc] at h
    obtain ⟨r1, k1, k2, -⟩ := runStream_ok c (decodeBytes v.length) r _ h v (vs.flatten ++ rest) (Dec.runBuf_full_append _ _ _ rfl)
    obtain ⟨r2, k3, k4⟩ := ih r1 (fun x hx => hfit x (List.mem_cons_of_mem _ hx)) k2
    refine ⟨r2, ?_, k4⟩
    have hn : nextBytes c r v.length = .ok (v, r1) := by rw [nextBytes, if_pos (hfit v List.mem_cons_self)]; exact k1
    simp only [List.map_cons, nextStrings, hn, Res.ok_bind, k3, Res.pure_eq]

/-- **C76** Strings at once: when the lengths handed in fit the stream — any number of rounds of strings of these lengths, at
least one of them not zero — all strings come, in order. (Once is the intended case; the loop goes round until the stream
ends.) -/
theorem strings_at_once (c : Codec) (hc : c.Lossless) (o : WOpts) (ho : o.Sound) (lens : List Nat) (hl : ∃ n ∈ lens, n ≠ 0)
    (hsmall : ∀ n ∈ lens, n < 2 ^ 63)
    (rounds : List (List Bytes)) (hr : ∀ vs ∈ rounds, vs.map List.length = lens) :
    ∃ body, writeStream stringEnc c o () (rounds.flatten.map .bytes) = .ok body ∧ ∀ pre post fuel, rounds.length ≤ fuel →
      ∃ r, getAllString c lens fuel (streamAt o pre body post) = .ok (rounds.flatten, r) ∧ r.finished = true := by
  have henc := stateless_encodeFlush stringEnc stringEncode (fun _ _ => rfl) (fun _ => rfl) GoVal.bytes id (fun _ => rfl) rounds.flatten
  obtain ⟨body, g1, g2⟩ := writeStream_spec stringEnc c hc o ho _ _ _ henc
  refine ⟨body, g1, fun pre post fuel hf => ?_⟩
  have key : ∀ (rounds : List (List Bytes)), (∀ vs ∈ rounds, vs.map List.length = lens) → ∀ (r : StreamReader) fuel, rounds.length ≤ fuel →
      r.Represents c rounds.flatten.flatten → ∃ r', getAllString c lens fuel r = .ok (rounds.flatten, r') ∧ r'.finished = true := by
    intro rounds
    induction rounds with
    | nil =>
      intro _ r fuel _ h
      have : r.finished = true := (finished_iff c r _ h).mpr rfl
      refine ⟨r, ?_, this⟩
      cases fuel <;> simp [getAllString, this]
    | cons vs rounds ih =>
      intro hr r fuel hf h
      have hv := hr vs List.mem_cons_self
      have hne : ¬ r.finished = true := by
        rw [finished_iff c r _ h]
        obtain ⟨n, hn1, hn2⟩ := hl
        rw [← hv] at hn1
        obtain ⟨v, hv1, hv2⟩ := List.mem_map.mp hn1
        intro h0
        simp only [List.flatten_cons, List.flatten_append, List.append_eq_nil_iff] at h0
        have := List.flatten_eq_nil_iff.mp h0.1 v hv1
        rw [this] at hv2
        exact hn2 hv2.symm
      cases fuel with
      | zero => simp at hf
      | succ fuel =>
        rw [List.flatten_cons, List.flatten_append] at h
        obtain ⟨r1, k1, k2⟩ := nextStrings_spec vs _ r (fun v hvm => hsmall _ (by rw [← hv]; exact List.mem_map_of_mem hvm)) h
        obtain ⟨r2, k3, k4⟩ := ih (fun ws hw => hr ws (List.mem_cons_of_mem _ hw)) r1 fuel (by simpa using hf) k2
        refine ⟨r2, ?_, k4⟩
        rw [hv] at k1
        rw [getAllString, if_neg hne]
        simp only [k1, Res.ok_bind, k3, Res.pure_eq, List.flatten_cons]
  exact key rounds hr _ fuel hf (by have := g2 pre post; rwa [List.flatMap_id] at this)

/-- With lengths that are all zero it goes on for ever on a stream that is not empty. -/
theorem strings_at_once_hang (c : Codec) (n : Nat) (r : StreamReader) (b : Byte) (flat : Bytes) (h : r.Represents c (b :: flat)) (fuel : Nat) :
    getAllString c (List.replicate n 0) fuel r = .hang := by
  have hne : ∀ r : StreamReader, r.Represents c (b :: flat) → ¬ r.finished = true := fun r h hh => by
    rw [finished_iff c r _ h] at hh; cases hh
  induction fuel generalizing r with
  | zero => rw [getAllString, if_neg (hne r h)]
  | succ fuel ih =>
    obtain ⟨r1, k1, k2⟩ := nextStrings_spec (List.replicate n []) (b :: flat) r (by intro v hv; rw [(List.mem_replicate.mp hv).2]; simp) (by
      rw [show (List.replicate n ([] : Bytes)).flatten = [] by simp]; exact h)
    rw [List.map_replicate] at k1
    have k1 : nextStrings c (List.replicate n 0) r = _ := k1
    rw [getAllString, if_neg (hne r h)]
    simp only [k1, Res.ok_bind, ih r1 k2, Res.hang_bind]

/-- Two rounds. -/
example : ∃ rounds : List (List Bytes), (∀ vs ∈ rounds, vs.map List.length = [2, 0, 1]) ∧ rounds.length = 2 :=
  ⟨[[[1, 2], [], [3]], [[4, 5], [], [6]]], by decide, rfl⟩

/-- **C77** (false, exact) The date encoder refuses every date, whatever it was given before: it hands the days on as an
`int32`, and the integer encoder takes only `int64`. (The column writer of dates does without it.) Anything else is a failed
type assertion. -/
theorem date_encoder_refuses (e : IntEnc) : (∀ ns, dateV2Encode e (.date ns) = .err .other) ∧
    (∀ v, (∀ ns, v ≠ .date ns) → dateV2Encode e v = .panic) := by
  refine ⟨fun _ => rfl, fun v hv => ?_⟩
  cases v with
  | date ns => exact absurd rfl (hv ns)
  | _ => rfl

end Goorc
