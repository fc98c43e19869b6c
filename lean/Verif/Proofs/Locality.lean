import Verif.Spec.Locality
/-
Two readers of the same columns of two files that agree on the streams of these columns.
-/
namespace Goorc

/-- Both calls end alike, and if they succeed the results are related. -/
def Res.Alike {α β : Type} (R : α → β → Prop) : Res α → Res β → Prop
  | .ok a, .ok b => R a b
  | .err e, .err e' => e = e'
  | .panic, .panic => True
  | .hang, .hang => True
  | _, _ => False

theorem Res.Alike.bind {α β γ δ : Type} {R : α → β → Prop} {S : γ → δ → Prop} {x : Res α} {y : Res β} {f : α → Res γ} {g : β → Res δ}
    (h : Res.Alike R x y) (hf : ∀ a b, R a b → Res.Alike S (f a) (g b)) : Res.Alike S (x >>= f) (y >>= g) := by
  cases x <;> cases y <;> first | exact h.elim | exact hf _ _ h | exact h

theorem Res.Alike.eq {α : Type} {x y : Res α} (h : Res.Alike (· = ·) x y) : x = y := by
  cases x <;> cases y <;> first | exact h.elim | exact congrArg Res.ok h | exact congrArg Res.err h | rfl

theorem Res.Alike.refl {α : Type} {R : α → α → Prop} (hR : ∀ a, R a a) (x : Res α) : Res.Alike R x x := by
  cases x <;> first | exact hR _ | rfl | trivial

theorem Res.Alike.imp {α β : Type} {R S : α → β → Prop} {x : Res α} {y : Res β} (h : Res.Alike R x y) (hf : ∀ a b, R a b → S a b) :
    Res.Alike S x y := by
  cases x <;> cases y <;> first | exact h.elim | exact hf _ _ h | exact h

/-- The same value, and related readers. -/
def Like {α β γ : Type} (R : β → γ → Prop) (x : α × β) (y : α × γ) : Prop := x.1 = y.1 ∧ R x.2 y.2

/-- Two streams with the same bytes, at the same place; `sk`: they may be moved to their start. -/
structure Near (sk : Prop) (r r' : StreamReader) : Prop where
  same : r' = { r with file := r'.file }
  pos : r.pos = r.start + r.readLength
  span_eq : span r'.file r.start r.length = span r.file r.start r.length
  plain : r.kind = .none → r.readLength ≤ r.length
  packed : r.kind ≠ .none → Chunked (span r.file r.start r.length) ∧ Chunked ((span r.file r.start r.length).drop r.readLength)
  seeks : sk → r.kind = .none ∨ 0 < r.length

/-- What follows in the file is told by the span. -/
theorem span_peek {F F' : Bytes} {L k n : Nat} (h : F'.take L = F.take L) (hn : k + n ≤ L ∨ (F.take L).length < L) :
    (F'.drop k).take n = (F.drop k).take n := by
  rcases hn with hn | hn
  · have e : ∀ G : Bytes, (G.drop k).take n = ((G.take L).drop k).take n := by
      intro G
      rw [List.drop_take, List.take_take, Nat.min_eq_left (by omega)]
    rw [e F', e F, h]
  · have hF : F.take L = F := by
      apply List.take_of_length_le
      rw [List.length_take] at hn
      omega
    have hF' : F'.take L = F' := by
      have : (F'.take L).length < L := by rw [h]; exact hn
      apply List.take_of_length_le
      rw [List.length_take] at this
      omega
    rw [hF, hF'] at h
    rw [h]

theorem take_eq (r : StreamReader) (n : Nat) : r.take n =
    if ((r.file.drop r.pos).take n).length < n then .err .eof else .ok ((r.file.drop r.pos).take n, { r with pos := r.pos + n }) := by
  unfold StreamReader.take
  have : (r.file.drop r.pos).length < n ↔ ((r.file.drop r.pos).take n).length < n := by
    rw [List.length_take]
    omega
  by_cases h : (r.file.drop r.pos).length < n
  · rw [if_pos h, if_pos (this.mp h)]
  · rw [if_neg h, if_neg (fun q => h (this.mpr q))]

theorem drop_start {r : StreamReader} (hp : r.pos = r.start + r.readLength) : r.file.drop r.pos = (r.file.drop r.start).drop r.readLength := by
  rw [List.drop_drop, hp]

/-- A chunk of both streams. -/
theorem near_chunk {sk : Prop} (c : Codec) {r r' : StreamReader} (h : Near sk r r') (hl : r.kind = .none ∨ r.readLength < r.length) :
    Res.Alike (Near sk) (r.readAChunk c) (r'.readAChunk c) := by
  obtain ⟨h1, h2, h3, h4, h5, h6⟩ := h
  obtain ⟨file', rfl⟩ : ∃ f, r' = { r with file := f } := ⟨r'.file, h1⟩
  clear h1
  dsimp only at h3
  have q : ∀ n, (r.readLength + n ≤ r.length ∨ (span r.file r.start r.length).length < r.length) →
      (file'.drop r.pos).take n = (r.file.drop r.pos).take n := by
    intro n hn
    have := span_peek (F := r.file.drop r.start) (F' := file'.drop r.start) (L := r.length) (k := r.readLength) (n := n) h3 hn
    rw [List.drop_drop, List.drop_drop, ← h2] at this
    exact this
  unfold StreamReader.readAChunk
  by_cases hk : r.kind = .none
  · rw [if_pos hk, if_pos hk, if_pos (h4 hk)]
    dsimp only
    have hl := h4 hk
    generalize hx : (if r.length - r.readLength < r.chunkSize then r.length - r.readLength else r.chunkSize) = n
    have hn : r.readLength + n ≤ r.length := by
      rw [← hx]; split <;> omega
    rw [take_eq, take_eq]
    dsimp only
    rw [q n (Or.inl hn)]
    by_cases hlt : ((r.file.drop r.pos).take n).length < n
    · rw [if_pos hlt, if_pos hlt]; exact rfl
    · rw [if_neg hlt, if_neg hlt]
      refine ⟨rfl, ?_, h3, fun _ => hn, fun hh => absurd hk hh, h6⟩
      dsimp only
      omega
  · rw [if_neg hk, if_neg hk]
    have hlt : r.readLength < r.length := hl.resolve_left hk
    obtain ⟨g1, g2⟩ := h5 hk
    generalize hW : (span r.file r.start r.length).drop r.readLength = W at g2
    have hdl : (span r.file r.start r.length).length - r.readLength = W.length := by rw [← hW, List.length_drop]
    have hsl : (span r.file r.start r.length).length ≤ r.length := by
      unfold span; rw [List.length_take]; omega
    rw [take_eq, take_eq]
    dsimp only
    cases g2 with
    | nil =>
      have hs : (span r.file r.start r.length).length < r.length := by
        simp only [List.length_nil] at hdl
        omega
      rw [q 3 (Or.inr hs)]
      have he : ((r.file.drop r.pos).take 3).length < 3 := by
        have hF : (r.file.drop r.start).length < r.length := by
          unfold span at hs
          rw [List.length_take] at hs
          omega
        have hs' : (span r.file r.start r.length).length = (r.file.drop r.start).length := by
          unfold span
          rw [List.length_take]
          omega
        simp only [List.length_nil] at hdl
        rw [List.length_take, drop_start h2, List.length_drop]
        omega
      rw [if_pos he, if_pos he]
      exact rfl
    | cons b0 b1 b2 body rest hb hr =>
      simp only [List.length_cons, List.length_append] at hdl
      have hw : ∀ n, r.readLength + n ≤ r.length → (r.file.drop r.pos).take n = (b0 :: b1 :: b2 :: (body ++ rest)).take n := by
        intro n hn
        rw [← hW]
        unfold span
        rw [List.drop_take, List.take_take, Nat.min_eq_left (by omega), ← drop_start h2]
      rw [q 3 (Or.inl (by omega)), hw 3 (by omega)]
      have e3 : (b0 :: b1 :: b2 :: (body ++ rest)).take 3 = [b0, b1, b2] := rfl
      rw [e3]
      rw [if_neg (by simp), if_neg (by simp)]
      simp only [Res.ok_bind, List.getD_cons_zero, List.getD_cons_succ, hb]
      by_cases hc : body.length > r.chunkSize
      · rw [if_pos hc, if_pos hc]; exact rfl
      · rw [if_neg hc, if_neg hc, take_eq, take_eq]
        dsimp only
        have e : ∀ f : Bytes, (f.drop r.pos).take (3 + body.length) = (b0 :: b1 :: b2 :: (body ++ rest)).take (3 + body.length) →
            (f.drop (r.pos + 3)).take body.length = body := by
          intro f hf
          have := congrArg (List.drop 3) hf
          rw [List.drop_take, List.drop_drop, List.drop_take] at this
          have e4 : 3 + body.length - 3 = body.length := by omega
          rw [e4] at this
          rw [this]
          simp
        have e1 := e r.file (hw _ (by omega))
        have e2 := e file' ((q _ (Or.inl (by omega))).trans (hw _ (by omega)))
        rw [e1, e2]
        rw [if_neg (by omega), if_neg (by omega)]
        simp only [Res.ok_bind]
        have key : ∀ p : Res Bytes, Res.Alike (Near sk)
            (p >>= fun piece => pure { r with pos := r.pos + 3 + body.length, readLength := r.readLength + 3 + body.length, buf := r.buf ++ piece })
            (p >>= fun piece => pure { r with file := file', pos := r.pos + 3 + body.length, readLength := r.readLength + 3 + body.length, buf := r.buf ++ piece }) := by
          intro p
          refine Res.Alike.bind (Res.Alike.refl (R := (· = ·)) (fun _ => rfl) p) ?_
          rintro p _ rfl
          refine ⟨rfl, ?_, h3, fun hh => absurd hh hk, fun _ => ⟨g1, ?_⟩, h6⟩
          · dsimp only; omega
          dsimp only
          have e5 : r.readLength + 3 + body.length = r.readLength + (3 + body.length) := by omega
          rw [e5, ← List.drop_drop, hW, Nat.add_comm 3]
          simpa using hr
        split
        · exact key _
        · exact key _

theorem near_buf {sk : Prop} {r r' : StreamReader} (h : Near sk r r') : r'.buf = r.buf ∧ r'.readLength = r.readLength ∧ r'.length = r.length ∧
    r'.kind = r.kind ∧ r'.start = r.start := by
  rw [h.same]
  exact ⟨rfl, rfl, rfl, rfl, rfl⟩

theorem near_set {sk : Prop} {r r' : StreamReader} (h : Near sk r r') (b : Bytes) : Near sk { r with buf := b } { r' with buf := b } := by
  refine ⟨?_, h.pos, h.span_eq, h.plain, h.packed, h.seeks⟩
  have := h.same
  rw [this]

theorem near_byte {sk : Prop} (c : Codec) {r r' : StreamReader} (h : Near sk r r') :
    Res.Alike (Like (Near sk)) (r.readByte c) (r'.readByte c) := by
  obtain ⟨f, rfl⟩ : ∃ f, r' = { r with file := f } := ⟨r'.file, h.same⟩
  unfold StreamReader.readByte
  dsimp only
  cases hb : r.buf with
  | cons b bs => exact ⟨rfl, near_set h bs⟩
  | nil =>
    dsimp only
    by_cases hl : r.readLength ≥ r.length
    · rw [if_pos hl, if_pos hl]; exact rfl
    · rw [if_neg hl, if_neg hl]
      rw [hb] at h
      refine (near_chunk c h (Or.inr (by omega))).bind ?_
      intro s s' hs
      rw [(near_buf hs).1]
      cases hb : s.buf with
      | cons b bs => exact ⟨rfl, near_set hs bs⟩
      | nil => exact rfl

theorem near_fill {sk : Prop} (c : Codec) (n : Nat) : ∀ (fuel : Nat) {r r' : StreamReader}, Near sk r r' →
    Res.Alike (Near sk) (r.fill c n fuel) (r'.fill c n fuel)
  | fuel, r, r', h => by
    obtain ⟨g1, g2, g3, -, -⟩ := near_buf h
    rw [StreamReader.fill.eq_def, StreamReader.fill.eq_def c n fuel r']
    dsimp only
    rw [g1, g2, g3]
    by_cases hl : r.buf.length < n ∧ r.readLength < r.length
    · rw [if_pos hl, if_pos hl]
      cases fuel with
      | zero => trivial
      | succ fuel =>
        refine (near_chunk c h (Or.inr hl.2)).bind ?_
        intro s s' hs
        exact near_fill c n fuel hs
    · rw [if_neg hl, if_neg hl]; exact h

theorem near_full {sk : Prop} (c : Codec) (n : Nat) {r r' : StreamReader} (h : Near sk r r') :
    Res.Alike (Like (Near sk)) (r.readFull c n) (r'.readFull c n) := by
  obtain ⟨f, rfl⟩ : ∃ f, r' = { r with file := f } := ⟨r'.file, h.same⟩
  unfold StreamReader.readFull
  dsimp only
  by_cases h0 : n = 0
  · rw [if_pos h0, if_pos h0]; exact ⟨rfl, h⟩
  · rw [if_neg h0, if_neg h0]
    by_cases h1 : r.buf.length ≥ n
    · rw [if_pos h1, if_pos h1]; exact ⟨rfl, near_set h _⟩
    · rw [if_neg h1, if_neg h1]
      by_cases h2 : r.readLength ≥ r.length
      · rw [if_pos h2, if_pos h2]; exact rfl
      · rw [if_neg h2, if_neg h2]
        refine (near_fill c n _ h).bind ?_
        intro s s' hs
        rw [(near_buf hs).1]
        by_cases h3 : s.buf.length ≥ n
        · rw [if_pos h3, if_pos h3]; exact ⟨rfl, near_set hs _⟩
        · rw [if_neg h3, if_neg h3]
          split
          · exact rfl
          · exact rfl

theorem near_run {sk : Prop} {α : Type} (c : Codec) : ∀ (d : Dec α) {r r' : StreamReader}, Near sk r r' →
    Res.Alike (Like (Near sk)) (d.runStream c r) (d.runStream c r')
  | .ret a, r, r', h => ⟨rfl, h⟩
  | .fail e, _, _, _ => rfl
  | .crash, _, _, _ => trivial
  | .readByte k, r, r', h => by
    refine (near_byte c h).bind ?_
    rintro ⟨b, s⟩ ⟨b', s'⟩ ⟨hb, hs⟩
    cases hb
    exact near_run c (k b) hs
  | .readFull n k, r, r', h => by
    refine (near_full c n h).bind ?_
    rintro ⟨b, s⟩ ⟨b', s'⟩ ⟨hb, hs⟩
    cases hb
    exact near_run c (k b) hs

theorem near_seek {sk : Prop} (hsk : sk) (c : Codec) (off : Nat) {r r' : StreamReader} (h : Near sk r r') :
    Res.Alike (Near sk) (r.seek c 0 off) (r'.seek c 0 off) := by
  unfold StreamReader.seek
  have hn : Near sk { r with buf := [], pos := r.start + 0, readLength := 0 } { r' with buf := [], pos := r'.start + 0, readLength := 0 } := by
    refine ⟨?_, rfl, h.span_eq, fun _ => Nat.zero_le _, fun hk => ⟨(h.packed hk).1, by simpa using (h.packed hk).1⟩, h.seeks⟩
    have := h.same
    rw [this]
  refine (near_chunk c hn (h.seeks hsk)).bind ?_
  intro s s' hs
  rw [(near_buf hs).1]
  exact near_set hs _

theorem near_finished {sk : Prop} {r r' : StreamReader} (h : Near sk r r') : r'.finished = r.finished := by
  obtain ⟨g1, g2, g3, -, -⟩ := near_buf h
  unfold StreamReader.finished
  rw [g1, g2, g3]

end Goorc
