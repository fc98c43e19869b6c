import Verif.Proofs.ColMore
import Verif.Props.RowIndex
import Verif.Spec.SeekCol
namespace Goorc

/-! ### Reading never leaves the stream -/

theorem StreamReader.Same.symm {r r' : StreamReader} (h : r.Same r') : r'.Same r := by
  obtain ⟨h1, h2, h3, h4, h5⟩ := h
  exact ⟨h1.symm, h2.symm, h3.symm, h4.symm, h5.symm⟩

theorem StreamReader.take_same {r r' : StreamReader} {n : Nat} {bs : Bytes} (h : r.take n = .ok (bs, r')) : r.Same r' := by
  simp only [StreamReader.take] at h
  split at h
  · cases h
  · simp only [Res.ok.injEq, Prod.mk.injEq] at h
    rw [← h.2]
    exact ⟨rfl, rfl, rfl, rfl, rfl⟩

theorem StreamReader.readAChunk_same {c : Codec} {r r' : StreamReader} (h : r.readAChunk c = .ok r') : r.Same r' := by
  simp only [StreamReader.readAChunk] at h
  split at h
  · obtain ⟨⟨bs, r1⟩, h1, h⟩ := Res.bind_ok_inv h
    simp only [Res.pure_eq, Res.ok.injEq] at h
    obtain ⟨a1, a2, a3, a4, a5⟩ := StreamReader.take_same h1
    rw [← h]
    exact ⟨a1, a2, a3, a4, a5⟩
  · obtain ⟨⟨bs, r1⟩, h1, h⟩ := Res.bind_ok_inv h
    simp only at h
    split at h
    · cases h
    · obtain ⟨⟨bs2, r2⟩, h2, h⟩ := Res.bind_ok_inv h
      obtain ⟨a1, a2, a3, a4, a5⟩ := StreamReader.take_same h1
      obtain ⟨b1, b2, b3, b4, b5⟩ := StreamReader.take_same h2
      split at h
      all_goals
        obtain ⟨piece, -, h⟩ := Res.bind_ok_inv h
        simp only [Res.pure_eq, Res.ok.injEq] at h
        rw [← h]
        exact ⟨b1.trans a1, b2.trans a2, b3.trans a3, b4.trans a4, b5.trans a5⟩

theorem StreamReader.readByte_same {c : Codec} {r r' : StreamReader} {b : Byte} (h : r.readByte c = .ok (b, r')) : r.Same r' := by
  simp only [StreamReader.readByte] at h
  split at h
  · simp only [Res.ok.injEq, Prod.mk.injEq] at h
    rw [← h.2]
    exact ⟨rfl, rfl, rfl, rfl, rfl⟩
  · split at h
    · cases h
    · obtain ⟨r1, h1, h⟩ := Res.bind_ok_inv h
      split at h
      · simp only [Res.ok.injEq, Prod.mk.injEq] at h
        obtain ⟨a1, a2, a3, a4, a5⟩ := StreamReader.readAChunk_same h1
        rw [← h.2]
        exact ⟨a1, a2, a3, a4, a5⟩
      · cases h

theorem StreamReader.fill_same {c : Codec} {n : Nat} (fuel : Nat) {r r' : StreamReader} (h : r.fill c n fuel = .ok r') : r.Same r' := by
  induction fuel generalizing r with
  | zero =>
    unfold StreamReader.fill at h
    split at h
    · cases h
    · simp only [Res.ok.injEq] at h
      rw [← h]; exact StreamReader.Same.refl r
  | succ fuel ih =>
    unfold StreamReader.fill at h
    split at h
    · obtain ⟨r1, h1, h⟩ := Res.bind_ok_inv h
      exact (StreamReader.readAChunk_same h1).trans (ih h)
    · simp only [Res.ok.injEq] at h
      rw [← h]; exact StreamReader.Same.refl r

theorem StreamReader.readFull_same {c : Codec} {n : Nat} {r r' : StreamReader} {bs : Bytes} (h : r.readFull c n = .ok (bs, r')) : r.Same r' := by
  simp only [StreamReader.readFull] at h
  split at h
  · simp only [Res.ok.injEq, Prod.mk.injEq] at h
    rw [← h.2]; exact StreamReader.Same.refl r
  · split at h
    · simp only [Res.ok.injEq, Prod.mk.injEq] at h
      rw [← h.2]; exact ⟨rfl, rfl, rfl, rfl, rfl⟩
    · split at h
      · cases h
      · obtain ⟨r1, h1, h⟩ := Res.bind_ok_inv h
        obtain ⟨a1, a2, a3, a4, a5⟩ := StreamReader.fill_same _ h1
        split at h
        · simp only [Res.ok.injEq, Prod.mk.injEq] at h
          rw [← h.2]
          exact ⟨a1, a2, a3, a4, a5⟩
        · split at h <;> cases h

theorem runStream_same {α : Type} {c : Codec} (d : Dec α) {r r' : StreamReader} {a : α} (h : d.runStream c r = .ok (a, r')) : r.Same r' := by
  induction d generalizing r with
  | ret x =>
    simp only [Dec.runStream, Res.ok.injEq, Prod.mk.injEq] at h
    rw [← h.2]; exact StreamReader.Same.refl r
  | fail e => cases h
  | crash => cases h
  | readByte k ih =>
    simp only [Dec.runStream] at h
    obtain ⟨⟨b, r1⟩, h1, h⟩ := Res.bind_ok_inv h
    exact (StreamReader.readByte_same h1).trans (ih _ h)
  | readFull n k ih =>
    simp only [Dec.runStream] at h
    obtain ⟨⟨b, r1⟩, h1, h⟩ := Res.bind_ok_inv h
    exact (StreamReader.readFull_same h1).trans (ih _ h)

theorem BlockReader.next_same {α : Type} {d : Dec (List α)} {c : Codec} {r r' : BlockReader α} {v : α} (h : r.next d c = .ok (v, r')) :
    r.stream.Same r'.stream := by
  simp only [BlockReader.next] at h
  split at h
  · simp only [Res.ok.injEq, Prod.mk.injEq] at h
    rw [← h.2]; exact StreamReader.Same.refl _
  · obtain ⟨⟨vs, s⟩, h1, h⟩ := Res.bind_ok_inv h
    split at h
    · simp only [Res.ok.injEq, Prod.mk.injEq] at h
      rw [← h.2]; exact runStream_same d h1
    · cases h

theorem BoolReader.next_same {c : Codec} {r r' : BoolReader} {v : Bool} (h : r.next c = .ok (v, r')) : r.reader.stream.Same r'.reader.stream := by
  simp only [BoolReader.next] at h
  split at h
  · simp only [Res.ok.injEq, Prod.mk.injEq] at h
    rw [← h.2]; exact StreamReader.Same.refl _
  · obtain ⟨⟨b, br⟩, h1, h⟩ := Res.bind_ok_inv h
    split at h
    · simp only [Res.ok.injEq, Prod.mk.injEq] at h
      rw [← h.2]; exact BlockReader.next_same h1
    · cases h

theorem IntReader.nextInt64_same {c : Codec} {r r' : IntReader} {v : U64} (h : r.nextInt64 c = .ok (v, r')) :
    r.block.stream.Same r'.block.stream ∧ r'.signed = r.signed := by
  simp only [IntReader.nextInt64] at h
  split at h
  · cases h
  · obtain ⟨⟨x, b⟩, h1, h⟩ := Res.bind_ok_inv h
    simp only [Res.pure_eq, Res.ok.injEq, Prod.mk.injEq] at h
    rw [← h.2]; exact ⟨BlockReader.next_same h1, rfl⟩

theorem IntReader.nextUInt64_same {c : Codec} {r r' : IntReader} {v : U64} (h : r.nextUInt64 c = .ok (v, r')) :
    r.block.stream.Same r'.block.stream ∧ r'.signed = r.signed := by
  simp only [IntReader.nextUInt64] at h
  split at h
  · cases h
  · split at h
    · simp only [Res.ok.injEq, Prod.mk.injEq] at h
      rw [← h.2]; exact ⟨StreamReader.Same.refl _, rfl⟩
    · obtain ⟨⟨vs, s⟩, h1, h⟩ := Res.bind_ok_inv h
      split at h
      · simp only [Res.ok.injEq, Prod.mk.injEq] at h
        rw [← h.2]; exact ⟨runStream_same _ h1, rfl⟩
      · cases h

theorem Yields.keeps {ρ α : Type} {next : ρ → Res (α × ρ)} {Q : ρ → Prop} (hQ : ∀ r v r', next r = .ok (v, r') → (Q r ↔ Q r')) {r r' : ρ}
    {vs : List α} (h : Yields next r vs r') : Q r ↔ Q r' := by
  induction vs generalizing r with
  | nil => cases h; exact Iff.rfl
  | cons v vs ih =>
    obtain ⟨r1, h1, h2⟩ := h
    exact (hQ _ _ _ h1).trans (ih h2)

/-! ### Positions -/

theorem posFrom_mid (front rest back : List Nat) : posFrom (front ++ rest ++ back) front.length rest.length = .ok rest := by
  induction rest generalizing front with
  | nil => rfl
  | cons x rest ih =>
    have h1 : posAt (front ++ (x :: rest) ++ back) front.length = .ok x := by
      simp [posAt]
    have h2 := ih (front ++ [x])
    simp only [List.length_append, List.length_cons, List.length_nil, Nat.zero_add, List.append_assoc, List.cons_append, List.nil_append] at h2
    simp only [List.length_cons, posFrom, h1, Res.ok_bind]
    simp only [List.append_assoc, List.cons_append] at h2 ⊢
    rw [h2]; rfl

/-- A position of a stream writer, wherever it stands in an index entry. -/
theorem streamPos_mid {σ : Type} {E : Enc σ} {o : WOpts} (hi : o.writeIndex = true) (w : StreamWriter σ) {chunk off : Nat} {rest : List Nat}
    (h : splitPosition o.kind (w.getPosition E o) = (chunk, off, rest)) (front back : List Nat) :
    streamPos o.kind (front ++ w.getPosition E o ++ back) front.length rest.length =
      .ok ((chunk, off, rest), (front ++ w.getPosition E o).length) := by
  simp only [StreamWriter.getPosition, hi, Bool.not_true, Bool.false_eq_true, if_false] at h ⊢
  by_cases hk : o.kind = .none
  · simp only [hk, ne_eq, not_true_eq_false, if_false, List.nil_append, splitPosition, if_true, List.cons_append, List.getD_cons_zero, List.drop_succ_cons,
      List.drop_zero, Prod.mk.injEq] at h
    obtain ⟨rfl, rfl, rfl⟩ := h
    have h1 : posAt (front ++ ([w.buf.length] ++ E.getPosition w.enc) ++ back) front.length = .ok w.buf.length := by
      simp [posAt]
    have h2 := posFrom_mid (front ++ [w.buf.length]) (E.getPosition w.enc) back
    simp only [List.length_append, List.length_cons, List.length_nil, Nat.zero_add, List.append_assoc, List.cons_append, List.nil_append] at h2
    simp only [streamPos, hk, ne_eq, not_true_eq_false, if_false, List.nil_append, if_true, h1, Res.ok_bind]
    simp only [List.append_assoc, List.cons_append, List.nil_append] at h2 ⊢
    rw [h2]
    simp; omega
  · simp only [hk, ne_eq, not_false_eq_true, if_true, splitPosition, if_false, List.cons_append, List.nil_append, List.getD_cons_zero,
      List.getD_cons_succ, List.drop_succ_cons, List.drop_zero, Prod.mk.injEq] at h
    obtain ⟨rfl, rfl, rfl⟩ := h
    generalize (w.cbuf.getD []).length = cl
    have h1 : posAt (front ++ ([cl] ++ [w.buf.length] ++ E.getPosition w.enc) ++ back) front.length = .ok cl := by
      simp [posAt]
    have h1' : posAt (front ++ ([cl] ++ [w.buf.length] ++ E.getPosition w.enc) ++ back) (front.length + 1) = .ok w.buf.length := by
      simp [posAt]
    have h2 := posFrom_mid (front ++ [cl, w.buf.length]) (E.getPosition w.enc) back
    simp only [List.length_append, List.length_cons, List.length_nil, Nat.zero_add, List.append_assoc, List.cons_append, List.nil_append] at h2
    simp only [streamPos, hk, ne_eq, not_false_eq_true, if_false, if_true, h1, h1', Res.ok_bind]
    simp only [List.append_assoc, List.cons_append, List.nil_append] at h2 ⊢
    rw [show front.length + 2 = front.length + (1 + 1) from rfl, h2]
    simp; omega

/-! ### A stream, its positions and what follows them -/

theorem StreamBody.nil_body {c : Codec} {o : WOpts} {cs : List ChunkSpec} {body : Bytes} (hk : o.kind = .zlib) (h : StreamBody c o cs body []) : body = [] := by
  simp only [StreamBody, hk] at h
  obtain ⟨i1, i2, i3⟩ := h
  cases cs with
  | nil => rw [i1]; rfl
  | cons ch cs =>
    have hne := List.length_pos_iff.mpr (i3 ch (by simp)).2.2.2.1
    have := congrArg List.length i2
    simp only [chunkPlain, List.flatMap_cons, List.length_append, List.length_nil] at this
    omega

/-- Everything about seeking in one stream: from any state of the reader, the position taken after `a` leads to what the
encoder emitted from then on. -/
theorem stream_seeks {σ : Type} (E : Enc σ) (c : Codec) (hc : c.Lossless) (o : WOpts) (ho : o.Sound) (hi : o.writeIndex = true)
    (w : StreamWriter σ) (h : w.Inv c o []) (hb : w.buf = []) (vs : List GoVal) (e' : σ) (out : Bytes)
    (he : E.run w.enc (vs.map .encode ++ [.flush]) = .ok (e', out)) :
    ∃ w1 w2, w.writes E c o vs = .ok w1 ∧ w1.flush E c o = .ok w2 ∧ w2.length = (w2.writeOut o).2.length ∧
      (∀ pre post, (streamAt o pre (w2.writeOut o).2 post).Represents c out) ∧
      ∀ a b, vs = a ++ b → ∃ e1 out1 out2 wn, E.run w.enc (a.map .encode) = .ok (e1, out1) ∧ E.run e1 (b.map .encode ++ [.flush]) = .ok (e', out2) ∧
        out = out1 ++ out2 ∧
        w.writes E c o a = .ok wn ∧ wn.enc = e1 ∧ ∃ chunk off, splitPosition o.kind (wn.getPosition E o) = (chunk, off, E.getPosition e1) ∧
        (a = [] → chunk = 0 ∧ off = 0) ∧
        ∀ pre post r, (streamAt o pre (w2.writeOut o).2 post).Same r → SeekableLength o (w2.writeOut o).2.length →
          ∃ r', r.seek c chunk off = .ok r' ∧ r'.Represents c out2 ∧ r.Same r' := by
  obtain ⟨w1, w2, cs, g1, g2, g3, g4, g5, g6⟩ := stream_spec E c hc o ho w h hb vs e' out he
  refine ⟨w1, w2, g1, g2, g5, fun pre post => newStreamReader_represents c o.kind o.chunkSize pre _ post out (g4.feed ho post), ?_⟩
  rintro a b rfl
  obtain ⟨e1, out1, out2, k1, k2, rfl⟩ := run_encode_only he
  obtain ⟨wa, wb, wc, h1, h2, h3, h4, h5, -, chunk, off, h7, h8⟩ := position_spec E c hc o ho hi w h hb a b e1 e' out1 out2 k1 k2
  have hw : wc = w2 := by
    rw [StreamWriter.writes_append, h1, Res.ok_bind, h2] at g1
    cases g1
    rw [h3] at g2
    cases g2
    rfl
  subst hw
  refine ⟨e1, out1, out2, wa, k1, k2, rfl, h1, h4, chunk, off, h7, ?_, fun pre post r hr hsk => ?_⟩
  · rintro rfl
    simp only [StreamWriter.writes, Res.ok.injEq] at h1
    subst h1
    rcases ho.1 with hk | hk
    · simp only [splitPosition, hk, if_true, StreamWriter.getPosition, hi, Bool.not_true, Bool.false_eq_true, if_false, ne_eq, not_true_eq_false,
        List.nil_append, hb, List.length_nil, List.cons_append, List.getD_cons_zero, Prod.mk.injEq] at h7
      exact ⟨h7.1.symm, h7.2.1.symm⟩
    · simp only [StreamWriter.Inv, hk] at h
      simp only [splitPosition, hk, if_false, StreamWriter.getPosition, hi, Bool.not_true, Bool.false_eq_true, ne_eq, not_false_eq_true, if_true,
        reduceCtorEq, h.1, chunkBytes, List.flatMap_nil, Option.getD_some,
        hb, List.length_nil, List.cons_append, List.nil_append, List.getD_cons_zero, List.getD_cons_succ, Prod.mk.injEq] at h7
      exact ⟨h7.1.symm, h7.2.1.symm⟩
  · refine h8 pre post r hr ?_
    rcases hsk with ⟨hk, hl⟩ | ⟨hk, hl⟩
    · refine .inl ⟨hk, ?_⟩
      simp only [StreamBody, hk] at g4
      rw [g4.1, List.length_append] at hl
      omega
    · refine .inr ⟨hk, fun hz => hl ?_⟩
      rw [hz] at g4
      rw [g4.nil_body hk]; rfl

theorem ReadKind.skipRows_keeps {ρ : Type} (R : ReadKind ρ) (c : Codec) (n : Nat) {r r' : ColReader ρ} (h : R.skipRows c n r = .ok r') :
    r'.kind = r.kind ∧ r'.index = r.index ∧ r'.hasNulls = r.hasNulls := by
  induction n generalizing r with
  | zero =>
    simp only [skipRows, Res.ok.injEq] at h
    rw [← h]; exact ⟨rfl, rfl, rfl⟩
  | succ n ih =>
    simp only [skipRows] at h
    obtain ⟨⟨b, r1⟩, h1, h⟩ := Res.bind_ok_inv h
    have hr1 : r1.kind = r.kind ∧ r1.index = r.index ∧ r1.hasNulls = r.hasNulls := by
      cases hp : r.present with
      | none =>
        simp only [hp, Res.pure_eq, Res.ok.injEq, Prod.mk.injEq] at h1
        rw [← h1.2]; exact ⟨rfl, rfl, rfl⟩
      | some p =>
        simp only [hp] at h1
        obtain ⟨⟨x, p1⟩, -, h1⟩ := Res.bind_ok_inv h1
        simp only [Res.pure_eq, Res.ok.injEq, Prod.mk.injEq] at h1
        rw [← h1.2]; exact ⟨rfl, rfl, rfl⟩
    simp only at h
    split at h
    · split at h
      · simp only [Res.pure_eq, Res.ok.injEq] at h
        rw [← h]; exact hr1
      · obtain ⟨d, -, h⟩ := Res.bind_ok_inv h
        obtain ⟨g1, g2, g3⟩ := ih h
        exact ⟨g1.trans hr1.1, g2.trans hr1.2.1, g3.trans hr1.2.2⟩
    · obtain ⟨g1, g2, g3⟩ := ih h
      exact ⟨g1.trans hr1.1, g2.trans hr1.2.1, g3.trans hr1.2.2⟩

/-- `SeekStride` does not touch the schema. -/
theorem ReadKind.seekStride_nulls {ρ : Type} {R : ReadKind ρ} {c : Codec} {r r' : ColReader ρ} {k : Nat} (h : R.seekStride c r k = .ok r') : r'.hasNulls = r.hasNulls := by
  simp only [ReadKind.seekStride] at h
  split at h
  · obtain ⟨p, -, h⟩ := Res.bind_ok_inv h
    obtain ⟨d, -, h⟩ := Res.bind_ok_inv h
    simp only [Res.pure_eq, Res.ok.injEq] at h
    rw [← h]
  · obtain ⟨pos, -, h⟩ := Res.bind_ok_inv h
    split at h
    · obtain ⟨⟨pp, i⟩, -, h⟩ := Res.bind_ok_inv h
      obtain ⟨⟨p, ds⟩, -, h⟩ := Res.bind_ok_inv h
      obtain ⟨d, -, h⟩ := Res.bind_ok_inv h
      simp only [Res.pure_eq, Res.ok.injEq] at h
      rw [← h]
    · obtain ⟨ds, -, h⟩ := Res.bind_ok_inv h
      obtain ⟨d, -, h⟩ := Res.bind_ok_inv h
      simp only [Res.pure_eq, Res.ok.injEq] at h
      rw [← h]

/-- A date column without a present stream has no nulls. -/
def ReadKind.Agrees {ρ : Type} (R : ReadKind ρ) (r : ColReader ρ) : Prop := R.byNulls = true → r.present = none → r.hasNulls = false

theorem ReadKind.Agrees.of {ρ : Type} {R : ReadKind ρ} {r r' : ColReader ρ} (h : R.Agrees r) (hp : r'.present = none ↔ r.present = none) (hn : r'.hasNulls = r.hasNulls) : R.Agrees r' :=
  fun hb hq => hn.trans (h hb (hp.mp hq))

theorem ReadKind.Agrees.skips {ρ : Type} {R : ReadKind ρ} {r : ColReader ρ} (h : R.Agrees r) (hp : r.present = none) (a b : Nat) : (if R.byNulls = true ∧ r.hasNulls = true then a else b) = b := by
  rw [if_neg]
  rintro ⟨h1, h2⟩
  rw [h h1 hp] at h2
  cases h2

/-! ### Columns -/

/-- What is known of seeking in the data streams of a column type. `over s` says of a reader that its streams are those of
the source `s`, however far it has read. -/
def DataSeeks {δ κ ρ : Type} (K : LeafKind δ κ) (R : ReadKind ρ) (c : Codec) (o : WOpts) (over : (StreamKind → Option StreamReader) → ρ → Prop) (d : δ)
    (vals outs : List GoVal) : Prop :=
  (∀ s r x r', R.next c r = .ok (x, r') → (over s r ↔ over s r')) ∧
  ∃ d1 d2 bs, K.dataWrites c o d vals = .ok d1 ∧ K.streams.flush c o d1 = .ok d2 ∧ (K.streams.writeOut o d2).2 = Bodies.bytes bs ∧
    K.streams.infos (K.streams.writeOut o d2).1 = bs.infos ∧
    (bs.map (·.1)).Nodup ∧ (∀ b ∈ bs, b.1 ≠ .present ∧ b.1 ∈ R.kinds) ∧
    (∀ n, n ≤ vals.length → ∃ dn ps, K.dataWrites c o d (vals.take n) = .ok dn ∧
      (∀ front, streamsPos o.kind (front ++ K.streams.position o dn) front.length R.layout = .ok ps) ∧
      (n = 0 → ps = R.layout.map fun m => (0, 0, List.replicate m 0)) ∧
      ∀ s, Located o bs s → (∀ b ∈ bs, SeekableLength o b.2.length) → ∀ r, over s r →
        ∃ r' r'', R.seek c r ps = .ok r' ∧ over s r' ∧ Yields (R.next c) r' (outs.drop n) r'') ∧
    ∀ s, Located o bs s → ∃ r r', R.init s = some r ∧ over s r ∧ Yields (R.next c) r outs r'

theorem oneStream_seeks {σ κ ρ : Type} {K : LeafKind (StreamWriter σ) κ} {R : ReadKind ρ} {E : Enc σ} {k : StreamKind} {c : Codec}
    (hc : c.Lossless) {o : WOpts} (ho : o.Sound) (hi : o.writeIndex = true) (hs : K.streams = oneStream E k) (hk : k ≠ .present ∧ k ∈ R.kinds)
    (m : Nat) (hlay : R.layout = [m]) (st : ρ → StreamReader) (inv : ρ → Prop)
    (hnext : ∀ r x r', R.next c r = .ok (x, r') → (st r).Same (st r') ∧ (inv r ↔ inv r'))
    (d : StreamWriter σ) (P : σ → Prop) (hd : d.Clean c o P) (g : GoVal → GoVal) (vals outs : List GoVal)
    (hw : ∀ v ∈ vals, ∀ d : StreamWriter σ, K.writeValue c o d v = d.write E c o (g v)) (e' : σ) (out : Bytes)
    (he : E.run d.enc ((vals.map g).map .encode ++ [.flush]) = .ok (e', out))
    (hinit : ∀ src s, src k = some s → ∃ r, R.init src = some r ∧ st r = s ∧ inv r ∧ (s.Represents c out → ∃ r', Yields (R.next c) r outs r'))
    (hseek : ∀ n, n ≤ vals.length → ∀ e1 out1 out2, E.run d.enc (((vals.take n).map g).map .encode) = .ok (e1, out1) →
      E.run e1 (((vals.drop n).map g).map .encode ++ [.flush]) = .ok (e', out2) → out = out1 ++ out2 →
      (E.getPosition e1).length = m ∧ (n = 0 → E.getPosition e1 = List.replicate m 0) ∧
      ∀ r s chunk off, inv r → (st r).seek c chunk off = .ok s → s.Represents c out2 →
        ∃ r' r'', R.seek c r [(chunk, off, E.getPosition e1)] = .ok r' ∧ s.Same (st r') ∧ inv r' ∧ Yields (R.next c) r' (outs.drop n) r'') :
    DataSeeks K R c o (fun src r => inv r ∧ ∃ t, src k = some t ∧ t.Same (st r)) d vals outs := by
  obtain ⟨w1, w2, g1, g2, g3, g4, g5⟩ := stream_seeks E c hc o ho hi d hd.1 hd.2.1 _ e' out he
  refine ⟨fun s r x r' hn => ?_, w1, w2, [(k, (w2.writeOut o).2)], by rw [dataWrites_one g vals hw, g1], by rw [hs]; exact g2,
    by rw [hs]; simp [oneStream, Bodies.bytes], by rw [hs]; simp [oneStream, Bodies.infos, writeOut_length, g3], by simp,
    by simpa using hk, fun n hn => ?_, fun s hl => ?_⟩
  · obtain ⟨h1, h2⟩ := hnext r x r' hn
    constructor
    · rintro ⟨hi, t, h3, h4⟩
      exact ⟨h2.mp hi, t, h3, h4.trans h1⟩
    · rintro ⟨hi, t, h3, h4⟩
      exact ⟨h2.mpr hi, t, h3, h4.trans h1.symm⟩
  · obtain ⟨e1, out1, out2, wn, k1, k2, k3, k4, k5, chunk, off, k6, k7, k8⟩ := g5 ((vals.take n).map g) ((vals.drop n).map g) (by
      rw [← List.map_append, List.take_append_drop])
    obtain ⟨p1, p2, p3⟩ := hseek n hn e1 out1 out2 k1 k2 k3
    refine ⟨wn, [(chunk, off, E.getPosition e1)], ?_, fun front => ?_, fun h0 => ?_, fun s hl hsk r hr => ?_⟩
    · rw [dataWrites_one g _ (fun v hv => hw v (List.mem_of_mem_take hv)), k4]
    · rw [hs, hlay]
      have := streamPos_mid hi wn k6 front []
      rw [List.append_nil, p1] at this
      simp only [streamsPos, oneStream, this, Res.ok_bind, Res.pure_eq]
    · subst h0
      obtain ⟨rfl, rfl⟩ := k7 (by simp)
      rw [hlay, p2 rfl]; rfl
    · obtain ⟨hr1, t, hr2, hr3⟩ := hr
      obtain ⟨pre, post, hsrc⟩ := hl (k, (w2.writeOut o).2) (by simp)
      simp only at hsrc
      rw [hsrc] at hr2
      cases hr2
      obtain ⟨s', q1, q2, q3⟩ := k8 pre post (st r) hr3 (hsk (k, (w2.writeOut o).2) (by simp))
      obtain ⟨r', r'', j1, j2, j3, j4⟩ := p3 r s' chunk off hr1 q1 q2
      exact ⟨r', r'', j1, ⟨j3, _, hsrc, (hr3.trans q3).trans j2⟩, j4⟩
  · obtain ⟨pre, post, hsrc⟩ := hl (k, (w2.writeOut o).2) (by simp)
    obtain ⟨r, h1, h2, h3, h4⟩ := hinit s _ hsrc
    obtain ⟨r', h5⟩ := h4 (g4 pre post)
    exact ⟨r, r', h1, ⟨h3, _, hsrc, by rw [h2]; exact StreamReader.Same.refl _⟩, h5⟩

theorem twoStreams_seeks {σ τ κ ρ : Type} {K : LeafKind (StreamWriter σ × StreamWriter τ) κ} {R : ReadKind ρ} {E : Enc σ} {F : Enc τ}
    {k l : StreamKind} {c : Codec} (hc : c.Lossless) {o : WOpts} (ho : o.Sound) (hi : o.writeIndex = true) (hs : K.streams = twoStreams E F k l)
    (hk : k ≠ .present ∧ k ∈ R.kinds) (hl : l ≠ .present ∧ l ∈ R.kinds) (hkl : k ≠ l)
    (m m' : Nat) (hlay : R.layout = [m, m']) (st st' : ρ → StreamReader) (inv : ρ → Prop)
    (hnext : ∀ r x r', R.next c r = .ok (x, r') → (st r).Same (st r') ∧ (st' r).Same (st' r') ∧ (inv r ↔ inv r'))
    (d : StreamWriter σ × StreamWriter τ) (P : σ → Prop) (Q : τ → Prop) (hd1 : d.1.Clean c o P) (hd2 : d.2.Clean c o Q)
    (g h : GoVal → GoVal) (vals outs : List GoVal)
    (hw : ∀ v ∈ vals, ∀ d a b, d.1.writes E c o [g v] = .ok a → d.2.writes F c o [h v] = .ok b → K.writeValue c o d v = .ok (a, b))
    (e' : σ) (out : Bytes) (he : E.run d.1.enc ((vals.map g).map .encode ++ [.flush]) = .ok (e', out))
    (f' : τ) (out' : Bytes) (hf : F.run d.2.enc ((vals.map h).map .encode ++ [.flush]) = .ok (f', out'))
    (hinit : ∀ src s t, src k = some s → src l = some t → ∃ r, R.init src = some r ∧ st r = s ∧ st' r = t ∧ inv r ∧
      (s.Represents c out → t.Represents c out' → ∃ r', Yields (R.next c) r outs r'))
    (hseek : ∀ n, n ≤ vals.length → ∀ e1 out1 out2, E.run d.1.enc (((vals.take n).map g).map .encode) = .ok (e1, out1) →
      E.run e1 (((vals.drop n).map g).map .encode ++ [.flush]) = .ok (e', out2) → out = out1 ++ out2 →
      ∀ f1 out1' out2', F.run d.2.enc (((vals.take n).map h).map .encode) = .ok (f1, out1') →
      F.run f1 (((vals.drop n).map h).map .encode ++ [.flush]) = .ok (f', out2') → out' = out1' ++ out2' →
      (E.getPosition e1).length = m ∧ (n = 0 → E.getPosition e1 = List.replicate m 0) ∧
      (F.getPosition f1).length = m' ∧ (n = 0 → F.getPosition f1 = List.replicate m' 0) ∧
      ∀ r s t chunk off chunk' off', inv r → (st r).seek c chunk off = .ok s → s.Represents c out2 →
        (st' r).seek c chunk' off' = .ok t → t.Represents c out2' →
        ∃ r' r'', R.seek c r [(chunk, off, E.getPosition e1), (chunk', off', F.getPosition f1)] = .ok r' ∧ s.Same (st r') ∧ t.Same (st' r') ∧
          inv r' ∧ Yields (R.next c) r' (outs.drop n) r'') :
    DataSeeks K R c o (fun src r => inv r ∧ (∃ t, src k = some t ∧ t.Same (st r)) ∧ ∃ t, src l = some t ∧ t.Same (st' r)) d vals outs := by
  have hflat : ∀ (f : GoVal → GoVal) (vals : List GoVal), vals.flatMap (fun v => [f v]) = vals.map f := by
    intro f vals
    induction vals with
    | nil => rfl
    | cons v vals ih => rw [List.flatMap_cons, ih]; rfl
  obtain ⟨a1, a2, g1, g2, g3, g4, g5⟩ := stream_seeks E c hc o ho hi d.1 hd1.1 hd1.2.1 _ e' out he
  obtain ⟨b1, b2, h1, h2, h3, h4, h5⟩ := stream_seeks F c hc o ho hi d.2 hd2.1 hd2.2.1 _ f' out' hf
  refine ⟨fun s r x r' hn => ?_, (a1, b1), (a2, b2), [(k, (a2.writeOut o).2), (l, (b2.writeOut o).2)],
    dataWrites_two (fun v => [g v]) (fun v => [h v]) vals hw d a1 b1 (by rw [hflat]; exact g1) (by rw [hflat]; exact h1),
    by rw [hs]; simp [twoStreams, g2, h2], by rw [hs]; simp [twoStreams, Bodies.bytes],
    by rw [hs]; simp [twoStreams, Bodies.infos, writeOut_length, g3, h3],
    by simpa using hkl, by
      intro b hb
      simp only [List.mem_cons, List.not_mem_nil, or_false] at hb
      rcases hb with rfl | rfl
      · exact hk
      · exact hl, fun n hn => ?_, fun s hloc => ?_⟩
  · obtain ⟨h1, h1', h2⟩ := hnext r x r' hn
    constructor
    · rintro ⟨hi, ⟨t, h3, h4⟩, ⟨t', h5, h6⟩⟩
      exact ⟨h2.mp hi, ⟨t, h3, h4.trans h1⟩, t', h5, h6.trans h1'⟩
    · rintro ⟨hi, ⟨t, h3, h4⟩, ⟨t', h5, h6⟩⟩
      exact ⟨h2.mpr hi, ⟨t, h3, h4.trans h1.symm⟩, t', h5, h6.trans h1'.symm⟩
  · obtain ⟨e1, out1, out2, wn, k1, k2, k3, k4, k5, chunk, off, k6, k7, k8⟩ := g5 ((vals.take n).map g) ((vals.drop n).map g) (by
      rw [← List.map_append, List.take_append_drop])
    obtain ⟨f1, out1', out2', wn', l1, l2, l3, l4, l5, chunk', off', l6, l7, l8⟩ := h5 ((vals.take n).map h) ((vals.drop n).map h) (by
      rw [← List.map_append, List.take_append_drop])
    obtain ⟨p1, p2, p1', p2', p3⟩ := hseek n hn e1 out1 out2 k1 k2 k3 f1 out1' out2' l1 l2 l3
    refine ⟨(wn, wn'), [(chunk, off, E.getPosition e1), (chunk', off', F.getPosition f1)], ?_, fun front => ?_, fun h0 => ?_, fun s hloc hsk r hr => ?_⟩
    · exact dataWrites_two (fun v => [g v]) (fun v => [h v]) _ (fun v hv => hw v (List.mem_of_mem_take hv)) d wn wn' (by rw [hflat]; exact k4)
        (by rw [hflat]; exact l4)
    · rw [hs, hlay]
      have e1 := streamPos_mid hi wn k6 front (wn'.getPosition F o)
      have e2 := streamPos_mid hi wn' l6 (front ++ wn.getPosition E o) []
      rw [List.append_nil, p1'] at e2
      rw [p1] at e1
      simp only [streamsPos, twoStreams]
      rw [← List.append_assoc, e1, Res.ok_bind]
      simp only [e2, Res.ok_bind, Res.pure_eq]
    · subst h0
      obtain ⟨rfl, rfl⟩ := k7 (by simp)
      obtain ⟨rfl, rfl⟩ := l7 (by simp)
      rw [hlay, p2 rfl, p2' rfl]; rfl
    · obtain ⟨hr1, ⟨t, hr2, hr3⟩, ⟨t', hr4, hr5⟩⟩ := hr
      obtain ⟨pre, post, hsrc⟩ := hloc (k, (a2.writeOut o).2) (by simp)
      obtain ⟨pre', post', hsrc'⟩ := hloc (l, (b2.writeOut o).2) (by simp)
      simp only at hsrc hsrc'
      rw [hsrc] at hr2
      cases hr2
      rw [hsrc'] at hr4
      cases hr4
      obtain ⟨s', q1, q2, q3⟩ := k8 pre post (st r) hr3 (hsk (k, (a2.writeOut o).2) (by simp))
      obtain ⟨t', q4, q5, q6⟩ := l8 pre' post' (st' r) hr5 (hsk (l, (b2.writeOut o).2) (by simp))
      obtain ⟨r', r'', j1, j2, j2', j3, j4⟩ := p3 r s' t' chunk off chunk' off' hr1 q1 q2 q4 q5
      exact ⟨r', r'', j1, ⟨j3, ⟨_, hsrc, (hr3.trans q3).trans j2⟩, _, hsrc', (hr5.trans q6).trans j2'⟩, j4⟩
  · obtain ⟨pre, post, hsrc⟩ := hloc (k, (a2.writeOut o).2) (by simp)
    obtain ⟨pre', post', hsrc'⟩ := hloc (l, (b2.writeOut o).2) (by simp)
    obtain ⟨r, h1, h2, h2', h3, h4'⟩ := hinit s _ _ hsrc hsrc'
    obtain ⟨r', h5⟩ := h4' (g4 pre post) (h4 pre' post')
    exact ⟨r, r', h1, ⟨h3, ⟨_, hsrc, by rw [h2]; exact StreamReader.Same.refl _⟩, _, hsrc', by rw [h2']; exact StreamReader.Same.refl _⟩, h5⟩

/-! ### The encoders in the middle of their values -/

theorem byte_split {vs1 vs2 : List Byte} {e1 e2 : ByteEnc} {out1 out2 : Bytes}
    (h1 : byteEnc.run (newByteEncoder true) ((vs1.map GoVal.u8).map .encode) = .ok (e1, out1))
    (h2 : byteEnc.run e1 ((vs2.map GoVal.u8).map .encode ++ [.flush]) = .ok (e2, out2)) :
    byteEnc.getPosition e1 = [e1.values.length] ∧ (vs1 = [] → e1.values = []) ∧ Decodes decodeByteRL out2 (e1.values ++ vs2) := by
  have hm : ∀ vs : List Byte, (vs.map GoVal.u8).map EncOp.encode = (vs.map some).map byteOp := by
    intro vs; simp [byteOp, Function.comp_def]
  rw [hm] at h1 h2
  obtain ⟨e1', out1', pre1, g1, g2, g3, g4, g5, g6⟩ := (newByteEncoder true).run_spec (newByteEncoder_wf true) (vs1.map some)
  have g1' := g1
  rw [h1] at g1
  cases g1
  obtain ⟨e2', out2', pre2, k1, k2, k3, k4, -⟩ := e1.run_spec g2 (vs2.map some)
  obtain ⟨out3, f1, f2⟩ := e2'.flush_spec k2
  rw [Enc.run_append, k1] at h2
  simp only [Enc.run, Enc.step, byteEnc, f1, Res.ok_bind, Res.pure_eq, List.append_nil, Res.ok.injEq, Prod.mk.injEq] at h2
  obtain ⟨-, rfl⟩ := h2
  have hpos : e1.position = (e1.values.length : Int) := by
    rcases List.eq_nil_or_concat vs1 with rfl | ⟨init, last, rfl⟩
    · simp only [List.map_nil, Enc.run, Res.ok.injEq, Prod.mk.injEq] at h1
      rw [← h1.1]; rfl
    · rw [List.concat_eq_append, List.map_append, List.map_append, Enc.run_append] at h1
      obtain ⟨⟨ea, oa⟩, h1, h⟩ := Res.bind_ok_inv h1
      obtain ⟨⟨eb, ob⟩, h2, h⟩ := Res.bind_ok_inv h
      simp only [Res.pure_eq, Res.ok.injEq, Prod.mk.injEq] at h
      obtain ⟨ea', oa', prea, i1, i2, -, -, -, i6⟩ := (newByteEncoder true).run_spec (newByteEncoder_wf true) (init.map some)
      rw [h1] at i1
      cases i1
      obtain ⟨eb', ob', preb, j1, j2, -, -, j5⟩ := ea.encode_spec i2 last
      have : eb = eb' := by
        simp only [List.map_cons, List.map_nil, byteOp, Enc.run, Enc.step, byteEnc, j1, Res.ok_bind, Res.pure_eq, Res.ok.injEq,
          Prod.mk.injEq] at h2
        exact h2.1.symm
      have hp := i6 (by simp [newByteEncoder])
      rw [← h.1, this, j5, if_pos (by omega)]
  have hwf := g2
  simp only [ByteEnc.WF] at hwf
  refine ⟨?_, ?_, ?_⟩
  · simp only [byteEnc, ByteEnc.getPosition, hpos, intToU64]
    have : ((e1.values.length : Int) % 2 ^ 64).toNat = e1.values.length := by omega
    rw [this]
  · rintro rfl
    simp only [List.map_nil, Enc.run, Res.ok.injEq, Prod.mk.injEq] at h1
    rw [← h1.1]; rfl
  · have : e1.values ++ vs2 = pre2 ++ e2'.values := by rw [← k3]; simp [List.filterMap_map]
    rw [this]; exact k4.append f2

theorem bool_split {vs1 vs2 : List Bool} {e1 e2 : BoolEnc} {out1 out2 : Bytes}
    (h1 : boolEnc.run (newBoolEncoder true) ((vs1.map GoVal.bool).map .encode) = .ok (e1, out1))
    (h2 : boolEnc.run e1 ((vs2.map GoVal.bool).map .encode ++ [.flush]) = .ok (e2, out2)) :
    ∃ (p : Bytes) (q : List Bool) (bytes : Bytes), boolEnc.getPosition e1 = [p.length, q.length] ∧ (vs1 = [] → p = [] ∧ q = []) ∧
      Decodes decodeByteRL out2 (p ++ bytes) ∧ bytes.flatMap boolsOfByte = q ++ (vs2 ++ padding (vs1 ++ vs2).length) := by
  obtain ⟨e1', out1', pre1, h1', w2, h3, h4, h5, h6, h7, h8, h9, -⟩ :=
    boolEnc_run_encode (newBoolEncoder true) 0 (by omega) rfl (newByteEncoder_wf true) vs1
  have hrun : boolEnc.run (newBoolEncoder true) ((vs1.map GoVal.bool).map EncOp.encode) = .ok (e1', out1') := by
    rw [← h1']; simp [Function.comp_def]
  rw [h1] at hrun
  cases hrun
  obtain ⟨pb, c1, c2, c3⟩ := feed_clean [] vs1 (by simp)
  have hv0 : (newBoolEncoder true).value = packByte [] := rfl
  rw [hv0] at h3 h5 h6 h7 h8
  simp only [List.length_nil, List.nil_append] at c1 c3
  simp only [c1] at h5 h6 h7 h8
  obtain ⟨e2', out2', g1, -, -, -, g5⟩ := boolEnc_group e1 pb.length c2 h5 w2 vs2
  rw [g1] at h2
  cases h2
  rw [h6] at g5
  have hcl := fedBytes_clean pb vs2 c2
  have hbl : ∀ l : Bytes, (List.flatMap boolsOfByte l).length = 8 * l.length := by
    intro l
    induction l with
    | nil => simp
    | cons a l ih => rw [List.flatMap_cons, List.length_append, ih, boolsOfByte_length]; simp; omega
  have h8' : vs1.length = 8 * (feed 0 (packByte []) vs1).1.length + pb.length := by
    have := congrArg List.length c3
    simpa [hbl] using this
  refine ⟨e1.brl.values, pb, _, ?_, ?_, g5, ?_⟩
  · have hb : e1.brl.position = e1.brl.values.length := h9 rfl
    have hp : e1.position = pb.length := h8 rfl
    have := w2
    simp only [ByteEnc.WF] at this
    simp only [boolEnc, BoolEnc.getPosition, hb, hp, intToU64]
    have e1 : ((e1.brl.values.length : Int) % 2 ^ 64).toNat = e1.brl.values.length := by omega
    have e2 : ((pb.length : Int) % 2 ^ 64).toNat = pb.length := by omega
    rw [e1, e2]
  · rintro rfl
    simp only [List.map_nil, Enc.run, Res.ok.injEq, Prod.mk.injEq] at h1
    rw [← h1.1]
    refine ⟨rfl, ?_⟩
    simp only [List.length_nil] at h8'
    exact List.length_eq_zero_iff.mp (by omega)
  · have hpad : padding (pb ++ vs2).length = padding (vs1 ++ vs2).length := by
      simp only [padding, List.length_append]
      congr 2
      omega
    have hbytes := hcl.1
    rw [hpad, List.append_assoc] at hbytes
    exact hbytes

theorem bool_seeks {c : Codec} {vs1 vs2 : List Bool} {e1 e2 : BoolEnc} {out1 out2 : Bytes}
    (h1 : boolEnc.run (newBoolEncoder true) ((vs1.map GoVal.bool).map .encode) = .ok (e1, out1))
    (h2 : boolEnc.run e1 ((vs2.map GoVal.bool).map .encode ++ [.flush]) = .ok (e2, out2)) :
    ∃ n m, boolEnc.getPosition e1 = [n, m] ∧ (vs1 = [] → n = 0 ∧ m = 0) ∧
      ∀ (r : BoolReader) s chunk off, r.reader.stream.seek c chunk off = .ok s → s.Represents c out2 →
        ∃ r' r'', r.seek c chunk off n m = .ok r' ∧ s.Same r'.reader.stream ∧ Yields (BoolReader.next c) r' vs2 r'' := by
  obtain ⟨p, q, bytes, k1, k2, k3, k4⟩ := bool_split h1 h2
  refine ⟨p.length, q.length, k1, fun h => by rw [(k2 h).1, (k2 h).2]; exact ⟨rfl, rfl⟩, fun r s chunk off hs hr => ?_⟩
  obtain ⟨r', j1, j2, j3⟩ := BoolReader.seek_spec hs hr p bytes k3 q _ k4
  obtain ⟨r'', i1, -⟩ := BoolReader.yields_spec vs2 _ j2
  exact ⟨r', r'', j1, j3, i1⟩

/-- Seeking in the present stream. -/
theorem present_seeks (c : Codec) (hc : c.Lossless) (o : WOpts) (ho : o.Sound) (hi : o.writeIndex = true) (flags : List Bool) :
    ∃ q1 q2, (newStreamWriter o (newBoolEncoder o.writeIndex)).writes boolEnc c o (flags.map .bool) = .ok q1 ∧ q1.flush boolEnc c o = .ok q2 ∧
      q2.length = (q2.writeOut o).2.length ∧
      (∀ pre post, ∃ r', Yields (BoolReader.next c) (newBoolReader (streamAt o pre (q2.writeOut o).2 post)) flags r') ∧
      ∀ n, n ≤ flags.length → ∃ qn p, (newStreamWriter o (newBoolEncoder o.writeIndex)).writes boolEnc c o ((flags.take n).map .bool) = .ok qn ∧
        (∀ back, streamPos o.kind (qn.getPosition boolEnc o ++ back) 0 2 = .ok (p, (qn.getPosition boolEnc o).length)) ∧
        (n = 0 → p = (0, 0, [0, 0])) ∧
        ∀ pre post (r : BoolReader), (streamAt o pre (q2.writeOut o).2 post).Same r.reader.stream → SeekableLength o (q2.writeOut o).2.length →
          ∃ r' r'', seekBool c r p = .ok r' ∧ (streamAt o pre (q2.writeOut o).2 post).Same r'.reader.stream ∧
            Yields (BoolReader.next c) r' (flags.drop n) r'' := by
  rw [hi]
  have hq : (newStreamWriter o (newBoolEncoder true)).Clean c o CleanBool := newStreamWriter_clean c o ho _ _ ⟨rfl, newByteEncoder_wf _, rfl, rfl⟩
  obtain ⟨e', out, bytes, h1, h2, h3, h4⟩ := bool_run_clean _ hq.2.2 flags
  obtain ⟨q1, q2, g1, g2, g3, g4, g5⟩ := stream_seeks boolEnc c hc o ho hi _ hq.1 hq.2.1 _ e' out h1
  refine ⟨q1, q2, g1, g2, g3, fun pre post => ?_, fun n hn => ?_⟩
  · have hr := BoolReader.fresh (g4 pre post) h2
    rw [h3] at hr
    obtain ⟨r', k1, -⟩ := BoolReader.yields_spec flags _ hr
    exact ⟨r', k1⟩
  · obtain ⟨e1, out1, out2, wn, k1, k2, k3, k4, k5, chunk, off, k6, k7, k8⟩ := g5 ((flags.take n).map .bool) ((flags.drop n).map .bool) (by
      rw [← List.map_append, List.take_append_drop])
    obtain ⟨a, b, p1, p2, p3⟩ := bool_seeks (c := c) k1 k2
    refine ⟨wn, (chunk, off, [a, b]), k4, fun back => ?_, fun h0 => ?_, fun pre post r hr hsk => ?_⟩
    · have := streamPos_mid hi wn k6 [] back
      rw [p1] at this
      simpa using this
    · subst h0
      obtain ⟨rfl, rfl⟩ := k7 (by simp)
      obtain ⟨rfl, rfl⟩ := p2 (by simp)
      rfl
    · obtain ⟨s', q1, q2, q3⟩ := k8 pre post _ hr hsk
      obtain ⟨r', r'', j1, j2, j3⟩ := p3 r s' chunk off q1 q2
      exact ⟨r', r'', j1, (hr.trans q3).trans j2, j3⟩

/-! ### The column -/

theorem nonNulls_take (written : List Value) (m : Nat) :
    nonNulls (written.take m) = (nonNulls written).take (nonNulls (written.take m)).length := by
  have h : nonNulls written = nonNulls (written.take m) ++ nonNulls (written.drop m) := by
    simp only [nonNulls]
    rw [← List.filterMap_append, List.take_append_drop]
  conv => rhs; rw [h]
  rw [List.take_left]

theorem rows_drop {rows : List (Option GoVal)} {written : List Value} (hflags : rows.map (·.isSome) = written.map fun v => !v.null) (m : Nat) :
    (rows.drop m).filterMap id = (rows.filterMap id).drop (nonNulls (written.take m)).length := by
  have hlen : ((rows.take m).filterMap id).length = (nonNulls (written.take m)).length := by
    have h : (rows.take m).map (·.isSome) = (written.take m).map fun v => !v.null := by
      rw [List.map_take, hflags, List.map_take]
    generalize rows.take m = a at h
    generalize written.take m = b at h
    induction a generalizing b with
    | nil => cases b with
      | nil => rfl
      | cons x b => simp at h
    | cons x a ih =>
      cases b with
      | nil => simp at h
      | cons y b =>
        simp only [List.map_cons, List.cons.injEq] at h
        have := ih b h.2
        simp only [nonNulls] at this
        cases x with
        | none =>
          have hy : y.null = true := by simpa using h.1
          simp only [nonNulls, List.filterMap_cons, hy, if_true, id]
          exact this
        | some x =>
          have hy : y.null = false := by simpa using h.1
          simp only [nonNulls, List.filterMap_cons, hy, Bool.false_eq_true, if_false, id, List.length_cons]
          exact congrArg (· + 1) this
  have h : rows.filterMap id = (rows.take m).filterMap id ++ (rows.drop m).filterMap id := by
    rw [← List.filterMap_append, List.take_append_drop]
  rw [h, ← hlen, List.drop_left]

/-- The state of a reader before row `p`. -/
structure ReadKind.Before {ρ : Type} (R : ReadKind ρ) (c : Codec) (kind : CompKind) (hasNulls : Bool) (index : List (List Nat))
    (F : BoolReader → Prop) (E : ρ → Prop) (rows : List (Option GoVal)) (p : Nat) (r : ColReader ρ) : Prop where
  kind : r.kind = kind
  index : r.index = some index
  present : r.present = none ↔ hasNulls = false
  agrees : R.Agrees r
  holds : R.Holds c F E r (rows.drop p)

theorem ReadKind.Before.roams {ρ : Type} {R : ReadKind ρ} {c : Codec} {kind : CompKind} {hasNulls : Bool} {index : List (List Nat)}
    {F : BoolReader → Prop} {E : ρ → Prop} {rows : List (Option GoVal)} {stride : Nat} (hprep : ∀ d : ρ, R.prepare c d = .ok d)
    (hst : R.store = replaceValue) (hskip : R.SkipsLikeNext c)
    (hseek : ∀ p r, R.Before c kind hasNulls index F E rows p r → ∀ k, k * stride ≤ rows.length → R.seeksZero = true ∨ 1 ≤ k →
      ∃ r', R.seekStride c r k = .ok r' ∧ R.Before c kind hasNulls index F E rows (k * stride) r')
    (ops : List SeekOp) {p : Nat} {r : ColReader ρ} (h : R.Before c kind hasNulls index F E rows p r)
    (hw : Within R.seeksZero stride rows.length p ops) (hu : hasNulls = false → Unmarked (roamVectors ops)) :
    R.roam c r ops = .ok (roamed stride rows p ops) := by
  induction ops generalizing p r with
  | nil => rfl
  | cons op ops ih =>
    cases op with
    | batch vec =>
      obtain ⟨h1, h2⟩ := hw
      have hh := h.holds
      rw [← List.take_append_drop vec.length (rows.drop p)] at hh
      obtain ⟨r1, g1, g2, g3, g4, g5, g6⟩ := hh.batch hprep (fun _ x => x) vec (by rw [List.length_take, List.length_drop]; omega)
        (fun hn v hv => hu (h.present.mp hn) v (by simp [roamVectors, hv])) (fun old _ x => by rw [hst]; rfl)
      rw [List.drop_drop] at g2
      have := ih (p := p + vec.length) (r := r1) ⟨g5.trans h.kind, g6.trans h.index, g3.trans h.present, h.agrees.of g3 g4, g2⟩ h2
        (fun hn v hv => hu hn v (by simp [roamVectors, hv]))
      simp only [ReadKind.roam, g1, Res.ok_bind, this, Res.pure_eq, roamed]
      congr 2
      simp only [fill]
      congr 1
      funext old row
      exact storeRow_replace old row
    | skip n =>
      obtain ⟨h1, h2⟩ := hw
      obtain ⟨r1, g1, g2, g3⟩ := h.holds.skip hskip n (by rw [List.length_drop]; omega)
      obtain ⟨g4, g5, g6⟩ := R.skipRows_keeps c n g1
      rw [List.drop_drop] at g2
      have := ih (p := p + n) (r := r1) ⟨g4.trans h.kind, g5.trans h.index, g3.trans h.present, h.agrees.of g3 g6, g2⟩ h2 hu
      simp only [ReadKind.roam, g1, Res.ok_bind, this, roamed]
    | seek k =>
      obtain ⟨h1, h2, h3⟩ := hw
      obtain ⟨r1, g1, g2⟩ := hseek p r h k h1 h2
      have := ih (p := k * stride) (r := r1) g2 h3 hu
      simp only [ReadKind.roam, g1, Res.ok_bind, this, roamed]

/-- Seeking in a column, given that it can be done in its data streams. -/
theorem column_seeks {δ κ ρ : Type} (K : LeafKind δ κ) (R : ReadKind ρ) (c : Codec) (hc : c.Lossless) (o : COpts) (ho : o.toWOpts.Sound)
    (hi : o.writeIndex = true) (hS : 1 ≤ o.stride) (hK : K.Known) (ha : K.indexAllRows = true) (hasNulls : Bool) (written : List Value)
    (rows : List (Option GoVal)) (I : κ → Prop) (J : Option κ → Prop) (hI : I K.fresh) (hJ : J K.firstIndex)
    (hh : K.Healthy o.writeIndex I J (nonNulls written)) (over : (StreamKind → Option StreamReader) → ρ → Prop)
    (hd : DataSeeks K R c o.toWOpts over (K.newData o.toWOpts) (nonNulls written) (rows.filterMap id))
    (hflags : rows.map (·.isSome) = written.map fun v => !v.null) (hnull : hasNulls = false → ∀ v ∈ written, v.null = false)
    (hprep : ∀ d : ρ, R.prepare c d = .ok d) (hst : R.store = replaceValue) (hskip : R.SkipsLikeNext c) :
    ColumnSeeks K R c o hasNulls R.seeksZero written rows := by
  obtain ⟨hov, d1, d2, bs, a1, a2, a3, a4, a5, a6, a7, a8⟩ := hd
  have hlen : rows.length = written.length := by simpa using congrArg List.length hflags
  obtain ⟨q1, q2, b1, b2, b3, b4, b5⟩ := present_seeks c hc o.toWOpts ho hi (written.map fun v => !v.null)
  -- the writer after the first `m` rows
  have hpre : ∀ m qm dm, (newStreamWriter o.toWOpts (newBoolEncoder o.writeIndex)).writes boolEnc c o.toWOpts
      (((written.take m).map fun v => !v.null).map .bool) = .ok qm → K.dataWrites c o.toWOpts (K.newData o.toWOpts) (nonNulls (written.take m)) = .ok dm →
      ∃ w, K.writes c o (K.newWriter o hasNulls) (written.take m) = .ok w ∧ w.present = (if hasNulls then some qm else none) ∧ w.data = dm ∧
        w.hasNulls = hasNulls := by
    intro m qm dm h1 h2
    obtain ⟨w, c1, c2, c3, c4, c5, -⟩ := K.writes_spec c o (written.take m) (K.newWriter o hasNulls) (K.newWriter_inv o hasNulls hI hJ)
      (nonNulls written) hh (fun v hv => by
        rw [nonNulls_take] at hv
        exact List.mem_of_mem_take hv) (if hasNulls then some qm else none) (by
        simp only [PresentWrites, LeafKind.newWriter]
        cases hasNulls with
        | true =>
          simp only [if_true]
          refine ⟨_, _, rfl, rfl, ?_⟩
          rw [← h1]; simp [Function.comp_def]
        | false => simp) dm h2
    exact ⟨w, c1, c3, c4, c5⟩
  obtain ⟨w1, c1, c3, c4, c5⟩ := hpre written.length q1 d1 (by rw [List.take_length]; exact b1) (by rw [List.take_length]; exact a1)
  rw [List.take_length] at c1
  have hall : ∃ w2 w3, K.flush c o w1 = .ok w2 ∧
      K.writeOut o w2 = .ok (w3, Bodies.bytes (if hasNulls then (.present, (q2.writeOut o.toWOpts).2) :: bs else bs)) ∧
      w3.index = w1.index ∧ K.streamInfos w3 = Bodies.infos (if hasNulls then (.present, (q2.writeOut o.toWOpts).2) :: bs else bs) := by
    cases hasNulls with
    | true =>
      simp only [if_true] at c3
      simp only [LeafKind.flush, c5, if_true, c3, b2, c4, a2, Res.ok_bind, Res.pure_eq]
      refine ⟨_, ?w3, rfl, ?a, ?b, ?d⟩
      case a => simp only [LeafKind.writeOut, Bool.true_eq_false, and_false, if_false, if_true, a3, Bodies.bytes, List.flatMap_cons]; rfl
      case b => rfl
      simp only [LeafKind.streamInfos, if_true, Option.map_some, Option.getD_some, a4, writeOut_length, b3, Bodies.infos, List.map_cons,
        List.cons_append, List.nil_append]
    | false =>
      simp only [Bool.false_eq_true, if_false] at c3
      simp only [LeafKind.flush, c5, Bool.false_eq_true, if_false, c3, c4, a2, Res.ok_bind, Res.pure_eq]
      refine ⟨_, ?w4, rfl, ?a4, ?b4, ?d4⟩
      case a4 => simp only [LeafKind.writeOut, Bool.true_eq_false, and_false, if_false, Bool.false_eq_true, a3]; rfl
      case b4 => rfl
      simp only [LeafKind.streamInfos, Bool.false_eq_true, if_false, List.nil_append, a4]
  obtain ⟨w2, w3, f1, f2, f3, f4⟩ := hall
  obtain ⟨x1, x2⟩ := row_index_positions hK ha hi hS c1
  refine ⟨w1.index.map (·.positions), Bodies.infos (if hasNulls then (.present, (q2.writeOut o.toWOpts).2) :: bs else bs),
    Bodies.bytes (if hasNulls then (.present, (q2.writeOut o.toWOpts).2) :: bs else bs),
    by simp only [writeIndexed, c1, f1, f2, f3, f4, Res.ok_bind, Res.pure_eq], by rw [List.length_map, x1], ?_⟩
  intro hsk pre post ops hw hu
  obtain ⟨s, l1, l2⟩ := openCol_spec (R := R) (o := o.toWOpts) hasNulls (q2.writeOut o.toWOpts).2 bs a5 a6 _ (placeStreams_placed o.toWOpts _ pre post)
  obtain ⟨r, rE, i1, i2, i3⟩ := a8 s l1
  obtain ⟨p, j1, j2, j3⟩ := l2 r i1
  simp only [roamColumn, j1]
  -- the invariants of the readers
  have hF : ∃ F : BoolReader → Prop, (∀ p x p', BoolReader.next c p = .ok (x, p') → (F p ↔ F p')) ∧
      (hasNulls = true → ∃ pp, p = some pp ∧ F pp ∧ ∃ p', Yields (BoolReader.next c) pp (written.map fun v => !v.null) p') ∧
      (hasNulls = true → ∀ n, n ≤ written.length → ∃ qn pos, (newStreamWriter o.toWOpts (newBoolEncoder o.writeIndex)).writes boolEnc c o.toWOpts
          (((written.take n).map fun v => !v.null).map .bool) = .ok qn ∧
        (∀ back, streamPos o.kind (qn.getPosition boolEnc o.toWOpts ++ back) 0 2 = .ok (pos, (qn.getPosition boolEnc o.toWOpts).length)) ∧
        (n = 0 → pos = (0, 0, [0, 0])) ∧
        ∀ r : BoolReader, F r → ∃ r' r'', seekBool c r pos = .ok r' ∧ F r' ∧ Yields (BoolReader.next c) r' ((written.drop n).map fun v => !v.null) r'') := by
    cases hasNulls with
    | false => exact ⟨fun _ => True, fun _ _ _ _ => Iff.rfl, (by simp), (by simp)⟩
    | true =>
      obtain ⟨pre', post', rfl⟩ := j3 rfl
      refine ⟨fun p => (streamAt o.toWOpts pre' (q2.writeOut o.toWOpts).2 post').Same p.reader.stream, fun p x p' hn => ?_, fun _ => ?_, fun _ n hn => ?_⟩
      · have := BoolReader.next_same hn
        exact ⟨fun h => h.trans this, fun h => h.trans this.symm⟩
      · obtain ⟨p', hp'⟩ := b4 pre' post'
        exact ⟨_, rfl, StreamReader.Same.refl _, p', hp'⟩
      · obtain ⟨qn, pos, e1, e2, e3, e4⟩ := b5 n (by simpa using hn)
        refine ⟨qn, pos, by rw [List.map_take]; exact e1, e2, e3, fun r hr => ?_⟩
        have := e4 pre' post' r hr (hsk (.present, (q2.writeOut o.toWOpts).2.length) (by simp [Bodies.infos]))
        rw [List.map_drop]
        exact this
  obtain ⟨F, hF1, hF2, hF3⟩ := hF
  have hskd : ∀ b ∈ bs, SeekableLength o.toWOpts b.2.length := by
    intro b hb
    refine hsk (b.1, b.2.length) ?_
    simp only [Bodies.infos, List.mem_map]
    exact ⟨b, by cases hasNulls <;> simp [hb], rfl⟩
  refine ReadKind.Before.roams (kind := o.kind) (hasNulls := hasNulls) (index := w1.index.map (·.positions)) (F := F) (E := over s) hprep hst hskip ?_ ops (p := 0) ?_ hw hu
  · -- a seek
    intro p0 r0 hr0 k hk hz
    obtain ⟨m1, m2, m3, m5, m4⟩ := hr0
    have hmw : k * o.stride ≤ written.length := by omega
    have hE : over s r0.data := by
      simp only [ReadKind.Holds, ReadKind.Has] at m4
      cases hp : r0.present with
      | none =>
        simp only [hp] at m4
        obtain ⟨d', -, y1, y2⟩ := m4
        exact (Yields.keeps (fun r v r' h => hov s r v r' h) y1).mpr y2
      | some p =>
        simp only [hp] at m4
        obtain ⟨p', d', -, -, y1, y2⟩ := m4
        exact (Yields.keeps (fun r v r' h => hov s r v r' h) y1).mpr y2
    have hn : (nonNulls (written.take (k * o.stride))).length ≤ (nonNulls written).length := by
      rw [nonNulls_take]; exact List.length_take_le' _ _
    obtain ⟨dn, ps, n1, n2, n3, n4⟩ := a7 _ hn
    rw [← nonNulls_take] at n1
    obtain ⟨dr, drE, o1, o2, o3⟩ := n4 s l1 hskd r0.data hE
    rw [← rows_drop hflags] at o3
    cases hnl : hasNulls with
    | false =>
      have hp0 : r0.present = none := m3.mpr hnl
      have hfl : (rows.drop (k * o.stride)).all (·.isSome) = true := by
        have : (rows.map (·.isSome)).all id = true := by
          rw [hflags, List.all_map, List.all_eq_true]
          intro v hv; simp [hnull hnl v hv]
        rw [List.all_map, List.all_eq_true] at this
        rw [List.all_eq_true]
        exact fun x hx => this x (List.mem_of_mem_drop hx)
      have hB : R.Before c o.kind false (w1.index.map (·.positions)) F (over s) rows (k * o.stride) { r0 with data := dr } := by
        refine ⟨m1, m2, by simp [hp0], m5, ?_⟩
        simp only [ReadKind.Holds, ReadKind.Has, hp0, List.all_map]
        exact ⟨drE, hfl, o3, (Yields.keeps (fun r v r' h => hov s r v r' h) o3).mp o2⟩
      by_cases h0 : R.seeksZero = true ∧ k = 0
      · refine ⟨{ r0 with data := dr }, ?_, hB⟩
        rw [n3 (by simp [h0.2, nonNulls])] at o1
        simp only [ReadKind.seekStride, if_pos h0, hp0, Res.pure_eq, Res.ok_bind, o1]
      · have hk1 : 1 ≤ k := by
          rcases hz with hz | hz
          · apply Nat.pos_of_ne_zero
            intro hk0; exact h0 ⟨hz, hk0⟩
          · exact hz
        obtain ⟨e, he⟩ : ∃ e, w1.index[k - 1]? = some e := by
          have : k - 1 < w1.index.length := by
            rw [x1]
            have : k ≤ written.length / o.stride := (Nat.le_div_iff_mul_le (by omega)).mpr hmw
            omega
          exact ⟨_, List.getElem?_eq_getElem this⟩
        obtain ⟨wk, y1, y2⟩ := x2 _ _ he
        have hkk : (k - 1 + 1) * o.stride = k * o.stride := by congr 1; omega
        rw [hkk] at y1
        obtain ⟨qq, -, e1, -⟩ := b5 (k * o.stride) (by simpa using hmw)
        obtain ⟨wk', z1, z2, z3, z4⟩ := hpre (k * o.stride) qq dn (by rw [List.map_take]; exact e1) n1
        rw [z1] at y1
        cases y1
        have hpos : e.positions = K.streams.position o.toWOpts dn := by
          rw [y2, LeafKind.positions, z2, hnl, z3]; simp
        have hgp : getStridePositions r0.index k = .ok (K.streams.position o.toWOpts dn) := by
          simp only [getStridePositions, m2]
          rw [if_neg (by omega), List.getElem?_map, he, Option.map_some, hpos]
        have hsp := n2 []
        rw [List.nil_append, List.length_nil, ← m1] at hsp
        refine ⟨{ r0 with data := dr }, ?_, hB⟩
        simp only [ReadKind.seekStride, if_neg h0, hgp, Res.ok_bind, hp0, m5.skips hp0, hsp, o1, Res.pure_eq]
    | true =>
      have hp0 : ∃ pp, r0.present = some pp := by
        cases hp : r0.present with
        | none => rw [m3.mp hp] at hnl; cases hnl
        | some pp => exact ⟨pp, rfl⟩
      obtain ⟨pp, hp0⟩ := hp0
      obtain ⟨qn, pos, t1, t2, t3, t4⟩ := hF3 hnl _ hmw
      have hFp : F pp := by
        simp only [ReadKind.Holds, ReadKind.Has, hp0] at m4
        obtain ⟨p', d', y1, y2, -⟩ := m4
        exact (Yields.keeps (fun r v r' h => hF1 r v r' h) y1).mpr y2
      obtain ⟨pr, prE, u1, u2, u3⟩ := t4 pp hFp
      have hB : R.Before c o.kind true (w1.index.map (·.positions)) F (over s) rows (k * o.stride) { r0 with present := some pr, data := dr } := by
        refine ⟨m1, m2, by simp, fun _ h => (by cases h), ?_⟩
        simp only [ReadKind.Holds, ReadKind.Has]
        rw [List.map_drop, hflags, ← List.map_drop]
        exact ⟨prE, drE, u3, (Yields.keeps (fun r v r' h => hF1 r v r' h) u3).mp u2, o3, (Yields.keeps (fun r v r' h => hov s r v r' h) o3).mp o2⟩
      by_cases h0 : R.seeksZero = true ∧ k = 0
      · refine ⟨_, ?_, hB⟩
        rw [n3 (by simp [h0.2, nonNulls])] at o1
        rw [t3 (by simp [h0.2])] at u1
        have u1' : pp.seek c 0 0 0 0 = .ok pr := u1
        simp only [ReadKind.seekStride, if_pos h0, hp0, u1', Res.pure_eq, Res.ok_bind, o1]
      · have hk1 : 1 ≤ k := by
          rcases hz with hz | hz
          · apply Nat.pos_of_ne_zero
            intro hk0; exact h0 ⟨hz, hk0⟩
          · exact hz
        obtain ⟨e, he⟩ : ∃ e, w1.index[k - 1]? = some e := by
          have : k - 1 < w1.index.length := by
            rw [x1]
            have : k ≤ written.length / o.stride := (Nat.le_div_iff_mul_le (by omega)).mpr hmw
            omega
          exact ⟨_, List.getElem?_eq_getElem this⟩
        obtain ⟨wk, y1, y2⟩ := x2 _ _ he
        have hkk : (k - 1 + 1) * o.stride = k * o.stride := by congr 1; omega
        rw [hkk] at y1
        obtain ⟨wk', z1, z2, z3, z4⟩ := hpre (k * o.stride) qn dn t1 n1
        rw [z1] at y1
        cases y1
        have hpos : e.positions = qn.getPosition boolEnc o.toWOpts ++ K.streams.position o.toWOpts dn := by
          rw [y2, LeafKind.positions, z2, hnl, z3]; simp [z4, hnl]
        have hgp : getStridePositions r0.index k = .ok (qn.getPosition boolEnc o.toWOpts ++ K.streams.position o.toWOpts dn) := by
          simp only [getStridePositions, m2]
          rw [if_neg (by omega), List.getElem?_map, he, Option.map_some, hpos]
        have hsp := n2 (qn.getPosition boolEnc o.toWOpts)
        have ht2 := t2 (K.streams.position o.toWOpts dn)
        rw [← m1] at hsp ht2
        refine ⟨_, ?_, hB⟩
        simp only [ReadKind.seekStride, if_neg h0, hgp, Res.ok_bind, hp0, ht2, hsp, u1, o1, Res.pure_eq, ite_self]
  · -- the column just opened
    refine ⟨rfl, rfl, ?_, ?_, ?_⟩
    · cases hnl : hasNulls with
      | false => simp [j2 hnl]
      | true =>
        obtain ⟨pp, hpp, -⟩ := hF2 hnl
        simp [hpp]
    · intro _ hpn
      cases hnl : hasNulls with
      | false => rfl
      | true =>
        obtain ⟨pp, hpp, -⟩ := hF2 hnl
        rw [show p = none from hpn] at hpp
        cases hpp
    · rw [List.drop_zero]
      cases hnl : hasNulls with
      | false =>
        simp only [ReadKind.Holds, ReadKind.Has, j2 hnl]
        refine ⟨rE, ?_, i3, (Yields.keeps (fun r v r' h => hov s r v r' h) i3).mp i2⟩
        rw [hflags, List.all_map, List.all_eq_true]
        intro v hv; simp [hnull hnl v hv]
      | true =>
        obtain ⟨pp, rfl, hFp, p', hy⟩ := hF2 hnl
        simp only [ReadKind.Holds, ReadKind.Has]
        rw [hflags]
        exact ⟨p', rE, hy, (Yields.keeps (fun r v r' h => hF1 r v r' h) hy).mp hFp, i3, (Yields.keeps (fun r v r' h => hov s r v r' h) i3).mp i2⟩

end Goorc
