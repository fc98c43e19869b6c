import Verif.Spec.Files
import Verif.Proofs.ColWrite
import Verif.Proofs.Schemas
import Verif.Proofs.StructNulls
import Verif.Proofs.ColStats
/- What flushing a stripe leaves behind: lemmas for Props/FileLayout.lean. -/
namespace Goorc

/-- A stream whose length is that of the bytes it will write out. -/
def StreamWriter.Settled {σ : Type} (o : WOpts) (w : StreamWriter σ) : Prop := (w.writeOut o).2.length = w.length

theorem StreamWriter.flush_settled {σ : Type} {E : Enc σ} {c : Codec} {o : WOpts} {w w' : StreamWriter σ} (h : w.flush E c o = .ok w') :
    w'.Settled o := by
  simp only [StreamWriter.flush] at h
  obtain ⟨⟨e, out⟩, h1, h⟩ := Res.bind_ok_inv h
  by_cases hk : o.kind = .none
  · simp only [hk, if_true] at h
    injection h with h
    subst h
    simp [StreamWriter.Settled, StreamWriter.writeOut, hk]
  · simp only [hk, if_false] at h
    cases hc : w.cbuf with
    | none => simp [hc] at h
    | some cb =>
      simp only [hc] at h
      by_cases hl : (w.buf ++ out).length > 0
      · rw [if_pos hl] at h
        obtain ⟨dst, h2, h⟩ := Res.bind_ok_inv h
        injection h with h
        subst h
        simp [StreamWriter.Settled, StreamWriter.writeOut, hk]
      · rw [if_neg hl] at h
        injection h with h
        subst h
        simp [StreamWriter.Settled, StreamWriter.writeOut, hk]

theorem StreamWriter.writeOut_length {σ : Type} (o : WOpts) (w : StreamWriter σ) : (w.writeOut o).1.length = w.length := by
  simp only [StreamWriter.writeOut]; split <;> rfl

/-- The data streams of a leaf column after a flush. -/
def DataStreams.Settles {δ : Type} (S : DataStreams δ) : Prop :=
  ∀ c o d d', S.flush c o d = .ok d' → ∃ bs : Bodies, (S.writeOut o d').2 = bs.bytes ∧ S.infos (S.writeOut o d').1 = bs.infos ∧
    ∀ b ∈ bs, b.1 ≠ .rowIndex

theorem oneStream_settles {σ : Type} (E : Enc σ) (k : StreamKind) (hk : k ≠ .rowIndex) : (oneStream E k).Settles := by
  intro c o d d' h
  have hs := StreamWriter.flush_settled h
  refine ⟨[(k, (d'.writeOut o).2)], ?_, ?_, ?_⟩
  · simp [oneStream, Bodies.bytes]
  · simp only [oneStream, Bodies.infos, List.map_cons, List.map_nil, StreamWriter.writeOut_length]
    rw [hs]
  · simp [hk]

theorem twoStreams_settles {σ τ : Type} (E : Enc σ) (F : Enc τ) (k l : StreamKind) (hk : k ≠ .rowIndex) (hl : l ≠ .rowIndex) :
    (twoStreams E F k l).Settles := by
  intro c o d d' h
  simp only [twoStreams] at h
  obtain ⟨a, h1, h⟩ := Res.bind_ok_inv h
  obtain ⟨b, h2, h⟩ := Res.bind_ok_inv h
  injection h with h
  subst h
  have hs := StreamWriter.flush_settled h1
  have ht := StreamWriter.flush_settled h2
  refine ⟨[(k, (a.writeOut o).2), (l, (b.writeOut o).2)], ?_, ?_, ?_⟩
  · simp [twoStreams, Bodies.bytes]
  · simp only [twoStreams, Bodies.infos, List.map_cons, List.map_nil, StreamWriter.writeOut_length]
    rw [hs, ht]
  · simp [hk, hl]

theorem leaf_settles (A : Arith) (t : LeafTag) : (t.kind A).streams.Settles := by
  cases t with
  | byte => exact oneStream_settles _ _ (by decide)
  | bool => exact oneStream_settles _ _ (by decide)
  | int b => exact oneStream_settles _ _ (by decide)
  | float d => exact oneStream_settles _ _ (by decide)
  | string => exact twoStreams_settles _ _ _ _ (by decide) (by decide)
  | binary => exact twoStreams_settles _ _ _ _ (by decide) (by decide)
  | date => exact oneStream_settles _ _ (by decide)
  | timestamp => exact twoStreams_settles _ _ _ _ (by decide) (by decide)
  | decimal => exact twoStreams_settles _ _ _ _ (by decide) (by decide)

theorem Bodies.bytes_append (a b : Bodies) : Bodies.bytes (a ++ b) = a.bytes ++ b.bytes := by simp [Bodies.bytes]

theorem Bodies.infos_append (a b : Bodies) : Bodies.infos (a ++ b) = a.infos ++ b.infos := by simp [Bodies.infos]

/-- What a column writes out after a flush, stream by stream, is what it lists. -/
theorem AnyWriter.flush_writeOut {A : Arith} {c : Codec} {o : COpts} {w w1 w2 : AnyWriter} {b : Bytes} (h1 : w.flush A c o = .ok w1)
    (h2 : w1.writeOut A o = .ok (w2, b)) :
    ∃ bs : Bodies, b = bs.bytes ∧ w2.streamInfos A = bs.infos ∧ ∀ x ∈ bs, x.1 ≠ .rowIndex := by
  cases w with
  | leaf t w =>
    simp only [AnyWriter.flush] at h1
    obtain ⟨x, g1, hx⟩ := Res.bind_ok_inv h1
    clear h1
    injection hx with hx; subst hx
    simp only [LeafKind.flush] at g1
    obtain ⟨p, hp, g1⟩ := Res.bind_ok_inv g1
    obtain ⟨d, hd, g1⟩ := Res.bind_ok_inv g1
    injection g1 with g1; subst g1
    simp only [AnyWriter.writeOut] at h2
    obtain ⟨⟨y, b'⟩, g2, hy⟩ := Res.bind_ok_inv h2
    clear h2
    have h2 := g2
    clear g2
    injection hy with hy; injection hy with hy hb; subst hb; subst hy
    obtain ⟨bs, e1, e2, e3⟩ := leaf_settles A t c o.toWOpts _ _ hd
    simp only [LeafKind.writeOut, Bool.true_eq_false, and_false, if_false] at h2
    cases hn : w.hasNulls with
    | false =>
      simp only [hn, Bool.false_eq_true, if_false] at h2
      obtain ⟨rfl, rfl⟩ := Prod.mk.inj (Res.ok.inj h2)
      exact ⟨bs, e1, by simp only [AnyWriter.streamInfos, LeafKind.streamInfos, Bool.false_eq_true, if_false, List.nil_append, e2], e3⟩
    | true =>
      simp only [hn, if_true] at h2 hp
      cases hq : w.present with
      | none => simp [hq] at hp
      | some q =>
        simp only [hq] at hp
        obtain ⟨q', hq', hp⟩ := Res.bind_ok_inv hp
        injection hp with hp; subst hp
        simp only at h2
        obtain ⟨rfl, rfl⟩ := Prod.mk.inj (Res.ok.inj h2)
        refine ⟨(.present, (q'.writeOut o.toWOpts).2) :: bs, by rw [e1]; simp [Bodies.bytes], ?_, ?_⟩
        · simp only [AnyWriter.streamInfos, LeafKind.streamInfos, if_true, Option.map_some, Option.getD_some,
            StreamWriter.writeOut_length, e2]
          rw [← StreamWriter.flush_settled hq']
          rfl
        · intro x hx
          rcases List.mem_cons.1 hx with rfl | hx
          · simp
          · exact e3 x hx
  | dict w =>
    simp only [AnyWriter.flush] at h1
    obtain ⟨x, g1, hx⟩ := Res.bind_ok_inv h1
    clear h1
    injection hx with hx; subst hx
    simp only [DictWriter.flush] at g1
    obtain ⟨pd, _, g1⟩ := Res.bind_ok_inv g1
    obtain ⟨d0, _, g1⟩ := Res.bind_ok_inv g1
    obtain ⟨t0, _, g1⟩ := Res.bind_ok_inv g1
    obtain ⟨l0, _, g1⟩ := Res.bind_ok_inv g1
    obtain ⟨p, hp, g1⟩ := Res.bind_ok_inv g1
    obtain ⟨d, hd, g1⟩ := Res.bind_ok_inv g1
    obtain ⟨t, ht, g1⟩ := Res.bind_ok_inv g1
    obtain ⟨l, hl, g1⟩ := Res.bind_ok_inv g1
    injection g1 with g1; subst g1
    simp only [AnyWriter.writeOut] at h2
    obtain ⟨⟨y, b'⟩, g2, hy⟩ := Res.bind_ok_inv h2
    clear h2
    have h2 := g2
    clear g2
    injection hy with hy; injection hy with hy hb; subst hb; subst hy
    simp only [DictWriter.writeOut] at h2
    obtain ⟨⟨p', x⟩, h3, h2⟩ := Res.bind_ok_inv h2
    obtain ⟨rfl, rfl⟩ := Prod.mk.inj (Res.ok.inj h2)
    have sd := StreamWriter.flush_settled hd
    have st := StreamWriter.flush_settled ht
    have sl := StreamWriter.flush_settled hl
    have rest : ∀ pb : Bodies, x = pb.bytes → (if w.hasNulls then [(StreamKind.present, (p'.map (·.length)).getD 0)] else []) = pb.infos →
        (∀ y ∈ pb, y.1 ≠ .rowIndex) → ∃ bs : Bodies, x ++ (d.writeOut o.toWOpts).2 ++ (t.writeOut o.toWOpts).2 ++ (l.writeOut o.toWOpts).2 = bs.bytes ∧
          ((if w.hasNulls then [(StreamKind.present, (p'.map (·.length)).getD 0)] else []) ++
            [(.data, (d.writeOut o.toWOpts).1.length), (.dictionaryData, (t.writeOut o.toWOpts).1.length), (.length, (l.writeOut o.toWOpts).1.length)]) = bs.infos ∧
          ∀ y ∈ bs, y.1 ≠ .rowIndex := by
      intro pb e1 e2 e3
      refine ⟨pb ++ [(.data, (d.writeOut o.toWOpts).2), (.dictionaryData, (t.writeOut o.toWOpts).2), (.length, (l.writeOut o.toWOpts).2)], ?_, ?_, ?_⟩
      · rw [Bodies.bytes_append, e1]; simp [Bodies.bytes]
      · rw [Bodies.infos_append, e2]
        simp only [StreamWriter.writeOut_length]
        rw [← sd, ← st, ← sl]
        rfl
      · intro y hy
        rcases List.mem_append.1 hy with hy | hy
        · exact e3 y hy
        · simp only [List.mem_cons, List.not_mem_nil, or_false] at hy
          rcases hy with rfl | rfl | rfl <;> simp
    simp only [writeOutFlags] at h3
    cases hn : w.hasNulls with
    | false =>
      simp only [hn, Bool.false_eq_true, if_false] at h3
      obtain ⟨rfl, rfl⟩ := Prod.mk.inj (Res.ok.inj h3)
      obtain ⟨bs, f1, f2, f3⟩ := rest [] rfl (by simp [hn, Bodies.infos]) (by simp)
      exact ⟨bs, f1, by simp only [hn] at f2; simpa [AnyWriter.streamInfos, DictWriter.streamInfos] using f2, f3⟩
    | true =>
      simp only [hn, if_true, flushFlags] at h3 hp
      cases hq : w.present with
      | none => simp [hq] at hp
      | some q =>
        simp only [hq] at hp
        obtain ⟨q', hq', hp⟩ := Res.bind_ok_inv hp
        injection hp with hp; subst hp
        simp only at h3
        obtain ⟨rfl, rfl⟩ := Prod.mk.inj (Res.ok.inj h3)
        obtain ⟨bs, f1, f2, f3⟩ := rest [(.present, (q'.writeOut o.toWOpts).2)] (by simp [Bodies.bytes])
          (by simp only [hn, if_true, Option.map_some, Option.getD_some, StreamWriter.writeOut_length]
              rw [← StreamWriter.flush_settled hq']; rfl) (by simp)
        exact ⟨bs, f1, by simp only [hn] at f2; simpa [AnyWriter.streamInfos, DictWriter.streamInfos] using f2, f3⟩
  | struct w =>
    simp only [AnyWriter.flush] at h1
    obtain ⟨x, g1, hx⟩ := Res.bind_ok_inv h1
    clear h1
    injection hx with hx; subst hx
    simp only [StructWriter.flush] at g1
    obtain ⟨p, hp, g1⟩ := Res.bind_ok_inv g1
    injection g1 with g1; subst g1
    simp only [AnyWriter.writeOut] at h2
    obtain ⟨⟨y, b'⟩, g2, hy⟩ := Res.bind_ok_inv h2
    clear h2
    have h2 := g2
    clear g2
    injection hy with hy; injection hy with hy hb; subst hb; subst hy
    simp only [StructWriter.writeOut, Bool.true_eq_false, if_false] at h2
    obtain ⟨⟨p', x⟩, h3, h2⟩ := Res.bind_ok_inv h2
    obtain ⟨rfl, rfl⟩ := Prod.mk.inj (Res.ok.inj h2)
    simp only [writeOutFlags] at h3
    cases hn : w.hasNulls with
    | false =>
      simp only [hn, Bool.false_eq_true, if_false] at h3
      obtain ⟨rfl, rfl⟩ := Prod.mk.inj (Res.ok.inj h3)
      exact ⟨[], rfl, by simp [AnyWriter.streamInfos, StructWriter.streamInfos, Bodies.infos], by simp⟩
    | true =>
      simp only [hn, if_true, flushFlags] at h3 hp
      cases hq : w.present with
      | none => simp [hq] at hp
      | some q =>
        simp only [hq] at hp
        obtain ⟨q', hq', hp⟩ := Res.bind_ok_inv hp
        injection hp with hp; subst hp
        simp only at h3
        obtain ⟨rfl, rfl⟩ := Prod.mk.inj (Res.ok.inj h3)
        refine ⟨[(.present, (q'.writeOut o.toWOpts).2)], by simp [Bodies.bytes], ?_, by simp⟩
        simp only [AnyWriter.streamInfos, StructWriter.streamInfos, if_true, Option.map_some, Option.getD_some, StreamWriter.writeOut_length]
        rw [← StreamWriter.flush_settled hq']; rfl

/-- `HasNull` of the statistics. -/
def AnyWriter.hasNull (w : AnyWriter) : Bool := w.stats.hasNull

theorem AnyWriter.new_hasNull {A : Arith} {o : COpts} {n : SchemaNode} {w : AnyWriter} (h : AnyWriter.new A o n = .ok w) :
    w.hasNull = n.hasNulls := by
  simp only [AnyWriter.new] at h
  obtain ⟨t, _, h⟩ := Res.bind_ok_inv h
  cases t <;> (simp only at h; injection h with h; subst h; rfl)

theorem AnyWriter.write_hasNull {A : Arith} {c : Codec} {o : COpts} {w w' : AnyWriter} {v : Value} (h : w.write A c o v = .ok w') :
    w'.hasNull = w.hasNull := by
  cases w with
  | leaf t w =>
    simp only [AnyWriter.write] at h
    obtain ⟨x, h1, h⟩ := Res.bind_ok_inv h
    injection h with h; subst h
    exact (LeafKind.write_counts (t.kind A) c o h1).2.2.1
  | dict w =>
    simp only [AnyWriter.write] at h
    obtain ⟨x, h1, h⟩ := Res.bind_ok_inv h
    injection h with h; subst h
    simp only [DictWriter.write] at h1
    obtain ⟨p, _, h1⟩ := Res.bind_ok_inv h1
    by_cases hv : v.null = true
    · rw [if_pos hv] at h1; injection h1 with h1; subst h1; rfl
    · rw [if_neg hv] at h1
      split at h1
      · injection h1 with h1; subst h1; rfl
      · simp at h1
  | struct w =>
    simp only [AnyWriter.write] at h
    obtain ⟨x, h1, h⟩ := Res.bind_ok_inv h
    injection h with h; subst h
    simp only [StructWriter.write] at h1
    have hcount : ∀ (s s' : ColStats Nat), StructWriter.count v.null s = .ok s' → s'.hasNull = s.hasNull := by
      intro s s' h
      simp only [StructWriter.count] at h
      split at h
      · injection h with h; subst h; rfl
      · split at h
        · simp at h
        · injection h with h; subst h; rfl
    by_cases hn : w.hasNulls = true
    · rw [if_pos hn] at h1
      obtain ⟨p, _, h1⟩ := Res.bind_ok_inv h1
      obtain ⟨st, h2, h1⟩ := Res.bind_ok_inv h1
      by_cases hw : o.writeIndex = true
      · rw [if_pos hw] at h1
        simp only [StructWriter.indexRow] at h1
        split at h1
        · simp at h1
        · obtain ⟨is, _, h1⟩ := Res.bind_ok_inv h1
          injection h1 with h1; subst h1
          split <;> exact hcount _ _ h2
      · rw [if_neg hw] at h1
        injection h1 with h1; subst h1
        exact hcount _ _ h2
    · rw [if_neg hn] at h1
      injection h1 with h1; subst h1; rfl

theorem AnyWriter.flush_hasNull {A : Arith} {c : Codec} {o : COpts} {w w' : AnyWriter} (h : w.flush A c o = .ok w') :
    w'.hasNull = w.hasNull := by
  cases w with
  | leaf t w =>
    simp only [AnyWriter.flush, LeafKind.flush] at h
    obtain ⟨x, h1, h⟩ := Res.bind_ok_inv h
    injection h with h; subst h
    obtain ⟨p, _, h1⟩ := Res.bind_ok_inv h1
    obtain ⟨d, _, h1⟩ := Res.bind_ok_inv h1
    injection h1 with h1; subst h1; rfl
  | dict w =>
    simp only [AnyWriter.flush, DictWriter.flush] at h
    obtain ⟨x, h1, h⟩ := Res.bind_ok_inv h
    injection h with h; subst h
    iterate 8 obtain ⟨_, _, h1⟩ := Res.bind_ok_inv h1
    injection h1 with h1; subst h1; rfl
  | struct w =>
    simp only [AnyWriter.flush, StructWriter.flush] at h
    obtain ⟨x, h1, h⟩ := Res.bind_ok_inv h
    injection h with h; subst h
    obtain ⟨_, _, h1⟩ := Res.bind_ok_inv h1
    injection h1 with h1; subst h1; rfl

theorem AnyWriter.writeOut_hasNull {A : Arith} {o : COpts} {w w' : AnyWriter} {b : Bytes} (h : w.writeOut A o = .ok (w', b)) :
    w'.hasNull = w.hasNull := by
  cases w with
  | leaf t w =>
    simp only [AnyWriter.writeOut] at h
    obtain ⟨⟨x, b'⟩, h1, h⟩ := Res.bind_ok_inv h
    obtain ⟨rfl, rfl⟩ := Prod.mk.inj (Res.ok.inj h)
    exact congrArg ColStats.hasNull (LeafKind.writeOut_frame (t.kind A) o h1).2
  | dict w =>
    simp only [AnyWriter.writeOut, DictWriter.writeOut] at h
    obtain ⟨⟨x, b'⟩, h1, h⟩ := Res.bind_ok_inv h
    obtain ⟨rfl, rfl⟩ := Prod.mk.inj (Res.ok.inj h)
    obtain ⟨_, _, h1⟩ := Res.bind_ok_inv h1
    obtain ⟨rfl, rfl⟩ := Prod.mk.inj (Res.ok.inj h1)
    rfl
  | struct w =>
    simp only [AnyWriter.writeOut, StructWriter.writeOut] at h
    obtain ⟨⟨x, b'⟩, h1, h⟩ := Res.bind_ok_inv h
    obtain ⟨rfl, rfl⟩ := Prod.mk.inj (Res.ok.inj h)
    split at h1
    · simp at h1
    · obtain ⟨_, _, h1⟩ := Res.bind_ok_inv h1
      obtain ⟨rfl, rfl⟩ := Prod.mk.inj (Res.ok.inj h1)
      rfl

theorem AnyWriter.reset_hasNull {A : Arith} {o : COpts} {w w' : AnyWriter} (h : w.reset A o = .ok w') : w'.hasNull = w.hasNull := by
  cases w with
  | leaf t w =>
    simp only [AnyWriter.reset] at h
    obtain ⟨x, h1, h⟩ := Res.bind_ok_inv h
    injection h with h; subst h
    exact congrArg ColStats.hasNull (LeafKind.reset_frame (t.kind A) o h1).2
  | dict w =>
    simp only [AnyWriter.reset, DictWriter.reset] at h
    obtain ⟨x, h1, h⟩ := Res.bind_ok_inv h
    injection h with h; subst h
    iterate 4 obtain ⟨_, _, h1⟩ := Res.bind_ok_inv h1
    injection h1 with h1; subst h1; rfl
  | struct w =>
    simp only [AnyWriter.reset, StructWriter.reset] at h
    obtain ⟨x, h1, h⟩ := Res.bind_ok_inv h
    injection h with h; subst h
    obtain ⟨_, _, h1⟩ := Res.bind_ok_inv h1
    split at h1
    · split at h1
      · simp at h1
      · injection h1 with h1; subst h1; rfl
    · injection h1 with h1; subst h1; rfl

theorem onWriters_map {β : Type} (g : AnyWriter → β) {f : AnyWriter → Res AnyWriter} (hf : ∀ w w', f w = .ok w' → g w' = g w)
    {ws ws' : List AnyWriter} (h : onWriters f ws = .ok ws') : ws'.map g = ws.map g := by
  induction ws generalizing ws' with
  | nil => simp only [onWriters] at h; injection h with h; subst h; rfl
  | cons w ws ih =>
    simp only [onWriters] at h
    obtain ⟨w1, h1, h⟩ := Res.bind_ok_inv h
    obtain ⟨ws1, h2, h⟩ := Res.bind_ok_inv h
    injection h with h; subst h
    simp [ih h2, hf _ _ h1]

theorem writeOuts_map {β : Type} (g : AnyWriter → β) {A : Arith} {o : COpts} (hf : ∀ w w' b, AnyWriter.writeOut A o w = .ok (w', b) → g w' = g w)
    {ws ws' : List AnyWriter} {b : Bytes} (h : StripeWriter.writeOuts A o ws = .ok (ws', b)) : ws'.map g = ws.map g := by
  induction ws generalizing ws' b with
  | nil => simp only [StripeWriter.writeOuts] at h; injection h with h; injection h with h; subst h; rfl
  | cons w ws ih =>
    simp only [StripeWriter.writeOuts] at h
    obtain ⟨⟨w1, x⟩, h1, h⟩ := Res.bind_ok_inv h
    obtain ⟨⟨ws1, y⟩, h2, h⟩ := Res.bind_ok_inv h
    injection h with h; injection h with h; subst h
    simp [ih h2, hf _ _ _ h1]

/-- All columns of a stripe: the bytes are those of the streams listed. -/
theorem flush_writeOuts {A : Arith} {c : Codec} {o : COpts} (ns : List SchemaNode) {ws ws1 ws2 : List AnyWriter} {b : Bytes}
    (hlen : ws.length = ns.length)
    (h1 : onWriters (fun w => w.flush A c o) ws = .ok ws1) (h2 : StripeWriter.writeOuts A o ws1 = .ok (ws2, b)) :
    ∃ ss : List (StreamInfo × Bytes), b = ss.flatMap (·.2) ∧
      ((ns.zip ws2).flatMap fun x => (x.2.streamInfos A).map fun i => (⟨i.1, x.1.id, i.2⟩ : StreamInfo)) = ss.map (·.1) ∧
      (∀ s ∈ ss, s.1.length = s.2.length) ∧ (∀ s ∈ ss, ∃ n ∈ ns, s.1.column = n.id) ∧ (∀ s ∈ ss, s.1.kind ≠ .rowIndex) := by
  induction ws generalizing ns ws1 ws2 b with
  | nil =>
    simp only [onWriters] at h1; injection h1 with h1; subst h1
    simp only [StripeWriter.writeOuts] at h2; injection h2 with h2; injection h2 with h2 hb; subst h2; subst hb
    exact ⟨[], by simp⟩
  | cons w ws ih =>
    cases ns with
    | nil => simp at hlen
    | cons n ns =>
      simp only [onWriters] at h1
      obtain ⟨v1, g1, h1⟩ := Res.bind_ok_inv h1
      obtain ⟨vs1, g2, h1⟩ := Res.bind_ok_inv h1
      injection h1 with h1; subst h1
      simp only [StripeWriter.writeOuts] at h2
      obtain ⟨⟨v2, x⟩, k1, h2⟩ := Res.bind_ok_inv h2
      obtain ⟨⟨vs2, y⟩, k2, h2⟩ := Res.bind_ok_inv h2
      injection h2 with h2; injection h2 with h2 hb; subst h2; subst hb
      obtain ⟨bs, e1, e2, e3⟩ := AnyWriter.flush_writeOut g1 k1
      obtain ⟨ss, f1, f2, f3, f4, f5⟩ := ih ns (by simpa using hlen) g2 k2
      refine ⟨(bs.map fun b => (⟨b.1, n.id, b.2.length⟩, b.2)) ++ ss, ?_, ?_, ?_, ?_, ?_⟩
      · simp only [List.flatMap_append, ← f1]
        rw [e1]
        simp [Bodies.bytes, List.flatMap_map]
      · simp only [List.zip_cons_cons, List.flatMap_cons, f2, List.map_append, e2]
        simp [Bodies.infos]
      · intro s hs
        rcases List.mem_append.1 hs with hs | hs
        · obtain ⟨b, _, rfl⟩ := List.mem_map.1 hs; rfl
        · exact f3 s hs
      · intro s hs
        rcases List.mem_append.1 hs with hs | hs
        · obtain ⟨b, _, rfl⟩ := List.mem_map.1 hs; exact ⟨n, by simp, rfl⟩
        · obtain ⟨m, hm, e⟩ := f4 s hs; exact ⟨m, by simp [hm], e⟩
      · intro s hs
        rcases List.mem_append.1 hs with hs | hs
        · obtain ⟨b, hb, rfl⟩ := List.mem_map.1 hs; exact e3 b hb
        · exact f5 s hs

/-- Stripes one more. -/
theorem stripeTable_append (start : Nat) (ps : List StripeParts) (p : StripeParts) :
    stripeTable start (ps ++ [p]) = stripeTable start ps ++
      [⟨start + (ps.flatMap (·.bytes)).length, p.indexes.length, p.data.length, p.footerBytes.length, p.rows⟩] := by
  induction ps generalizing start with
  | nil => simp [stripeTable]
  | cons q ps ih => simp only [List.cons_append, stripeTable, ih, List.flatMap_cons, List.length_append, Nat.add_assoc]

/-- What holds of a stripe writer between two rows, when `parts` are the stripes so far and the current one has `r` rows. -/
structure StripeWriter.Inv (E : Env) (o : FOpts) (ns : List SchemaNode) (s : StripeWriter) (parts : List StripeParts) (r : Nat) : Prop where
  schemas : s.schemas = ns
  nulls : s.writers.map (·.hasNull) = ns.map (·.hasNulls)
  out : s.out = magic ++ parts.flatMap (·.bytes)
  infos : s.infos = stripeTable 3 parts
  info : s.info = ⟨3 + (parts.flatMap (·.bytes)).length, 0, 0, 0, r⟩
  sound : ∀ p ∈ parts, p.Sound E o ns ∧ 1 ≤ p.rows

theorem StripeWriter.flushOut_spec {E : Env} {o : FOpts} {ns : List SchemaNode} {s s' : StripeWriter} {parts : List StripeParts} {r : Nat}
    (hi : s.Inv E o ns parts r) (h : s.flushOut E o = .ok s') :
    ∃ p : StripeParts, p.Sound E o ns ∧ p.rows = r ∧ s'.schemas = ns ∧ s'.writers.map (·.hasNull) = ns.map (·.hasNulls) ∧ s'.infos = s.infos ∧
      s'.out = magic ++ (parts ++ [p]).flatMap (·.bytes) ∧ s'.infos ++ [s'.info] = stripeTable 3 (parts ++ [p]) ∧
      ∃ ws, onWriters (fun w => w.flush E.A E.c o.toCOpts) s.writers = .ok ws ∧ StripeWriter.writeOuts E.A o.toCOpts ws = .ok (s'.writers, p.data) ∧
        p.streams.map (·.1) = ((ns.zip s'.writers).flatMap fun x => (x.2.streamInfos E.A).map fun i => (⟨i.1, x.1.id, i.2⟩ : StreamInfo)) ∧
        p.indexes = if o.writeIndex = true then ws.flatMap (fun w => E.P.index w.index) else [] := by
  simp only [StripeWriter.flushOut] at h
  obtain ⟨ws1, h1, h⟩ := Res.bind_ok_inv h
  obtain ⟨⟨ws2, body⟩, h2, h⟩ := Res.bind_ok_inv h
  simp only [StripeWriter.writeFooter] at h
  obtain ⟨fb, h3, h⟩ := Res.bind_ok_inv h
  injection h with h
  obtain ⟨ss, e1, e2, e3, e4, e5⟩ := flush_writeOuts ns (by simpa using congrArg List.length hi.nulls) h1 h2
  have hw2 : ws2.map (·.hasNull) = ns.map (·.hasNulls) := by
    rw [writeOuts_map (·.hasNull) (fun _ _ _ => AnyWriter.writeOut_hasNull) h2,
      onWriters_map (·.hasNull) (fun _ _ => AnyWriter.flush_hasNull) h1, hi.nulls]
  generalize hidx : (if o.writeIndex = true then StripeWriter.indexes E.P ws1 else []) = idx at h
  refine ⟨⟨idx, ss, ⟨ss.map (·.1), ns.map (·.encoding)⟩, fb, r⟩, ⟨rfl, e3, e4, e5, rfl, ?_, ?_⟩, rfl, ?_, ?_, ?_, ?_, ?_, ws1, h1, ?_, ?_, hidx.symm⟩
  · rw [← h3]
    simp only [StripeWriter.footer, hi.schemas, e2]
  · intro hf
    rw [← hidx, hf]; rfl
  · rw [← h]; exact hi.schemas
  · rw [← h]; exact hw2
  · rw [← h]
  · rw [← h]
    simp only [hi.out, List.flatMap_append, List.flatMap_cons, List.flatMap_nil, List.append_nil, StripeParts.bytes, StripeParts.data, ← e1, List.append_assoc]
  · rw [← h, stripeTable_append, ← hi.infos]
    simp only [hi.info, Nat.zero_add, StripeParts.data, ← e1]
  · rw [← h, h2, StripeParts.data, e1]
  · rw [← h, ← e2]

theorem StripeWriter.forward_spec {A : Arith} {o : FOpts} {s s' : StripeWriter} (h : s.forward A o = .ok s') :
    s'.schemas = s.schemas ∧ s'.writers.map (·.hasNull) = s.writers.map (·.hasNull) ∧ s'.out = s.out ∧ s'.infos = s.infos ++ [s.info] ∧
      s'.info = ⟨s.info.offset + s.info.indexLength + s.info.dataLength + s.info.footerLength, 0, 0, 0, 0⟩ := by
  simp only [StripeWriter.forward] at h
  obtain ⟨ws, h1, h⟩ := Res.bind_ok_inv h
  injection h with h
  subst h
  exact ⟨rfl, onWriters_map (·.hasNull) (fun _ _ => AnyWriter.reset_hasNull) h1, rfl, rfl, rfl⟩

theorem writeRow_map {β : Type} (g : AnyWriter → β) {A : Arith} {c : Codec} {o : COpts} (hf : ∀ w w' v, AnyWriter.write A c o w v = .ok w' → g w' = g w)
    {i id : Nat} {s : Option Slice} {ws ws' : List AnyWriter} (h : writeRow A c o i id s ws = .ok ws') : ws'.map g = ws.map g := by
  simp only [writeRow] at h
  cases s with
  | none => injection h with h; subst h; rfl
  | some s =>
    simp only at h
    split at h
    · rename_i w v hw hv
      obtain ⟨w1, h1, h⟩ := Res.bind_ok_inv h
      injection h with h; subst h
      rw [List.map_set, hf _ _ _ h1]
      apply List.ext_getElem?
      intro k
      rw [List.getElem?_set]
      split
      · subst_vars
        rw [List.getElem?_map, hw]
        have := (List.getElem?_eq_some_iff.1 hw).1
        simp [this]
      · rfl
    · simp at h

theorem writeValues_map {β : Type} (g : AnyWriter → β) {A : Arith} {c : Codec} {o : COpts} {i : Nat} (vs : List Vec)
    (ih : ∀ v ∈ vs, ∀ ws ws', writeValue A c o i ws v = .ok ws' → ws'.map g = ws.map g) :
    ∀ ws ws', writeValues A c o i ws vs = .ok ws' → ws'.map g = ws.map g := by
  induction vs with
  | nil => intro ws ws' h; simp only [writeValues] at h; injection h with h; subst h; rfl
  | cons v vs ihv =>
    intro ws ws' h
    simp only [writeValues] at h
    obtain ⟨ws1, h1, h⟩ := Res.bind_ok_inv h
    rw [ihv (fun v hv => ih v (by simp [hv])) _ _ h, ih v (by simp) _ _ h1]

theorem writeValue_map {β : Type} (g : AnyWriter → β) {A : Arith} {c : Codec} {o : COpts} (hf : ∀ w w' v, AnyWriter.write A c o w v = .ok w' → g w' = g w)
    {i : Nat} (v : Vec) : ∀ ws ws', writeValue A c o i ws v = .ok ws' → ws'.map g = ws.map g := by
  refine Vec.ind (P := fun v => ∀ ws ws', writeValue A c o i ws v = .ok ws' → ws'.map g = ws.map g) ?_ ?_ v
  · intro ws ws' h; simp [writeValue] at h
  · intro id k s cs ih ws ws' h
    simp only [writeValue] at h
    obtain ⟨ws1, h1, h⟩ := Res.bind_ok_inv h
    rw [writeValues_map g cs ih _ _ h, writeRow_map g hf h1]

/-- A batch that is written is not nil where its length is looked for. -/
theorem StripeWriter.write_ok_inv {E : Env} {o : FOpts} {s s' : StripeWriter} {v : Vec} (h : s.write E o v = .ok s') :
    v.lenPanics = false ∧ StripeWriter.writeLoop E o v v.len 0 0 s = .ok s' := by
  simp only [StripeWriter.write] at h
  cases hv : v.lenPanics with
  | true => rw [hv] at h; cases h
  | false => rw [hv] at h; exact ⟨rfl, h⟩

theorem StripeWriter.write_of {E : Env} {o : FOpts} {s : StripeWriter} {v : Vec} (h : v.lenPanics = false) : s.write E o v = StripeWriter.writeLoop E o v v.len 0 0 s := by
  simp only [StripeWriter.write, h, Bool.false_eq_true, if_false]

/-- The loop over the rows of a batch. -/
theorem StripeWriter.writeLoop_spec {E : Env} {o : FOpts} {ns : List SchemaNode} (vec : Vec) (n : Nat) :
    ∀ (i count : Nat) (s s' : StripeWriter) (parts : List StripeParts) (r : Nat), s.Inv E o ns parts r →
      StripeWriter.writeLoop E o vec n i count s = .ok s' →
      ∃ parts' r', s'.Inv E o ns parts' r' ∧ (parts'.map (·.rows)).sum + r' = (parts.map (·.rows)).sum + r + count + n := by
  induction n with
  | zero =>
    intro i count s s' parts r hi h
    simp only [writeLoop] at h
    injection h with h; subst h
    refine ⟨parts, r + count, ⟨hi.schemas, hi.nulls, hi.out, hi.infos, ?_, hi.sound⟩, by omega⟩
    simp only [addRows, hi.info]
  | succ n ih =>
    intro i count s s' parts r hi h
    simp only [writeLoop] at h
    obtain ⟨ws, h1, h⟩ := Res.bind_ok_inv h
    have hw : ws.map (·.hasNull) = ns.map (·.hasNulls) := by
      rw [writeValue_map (·.hasNull) (fun _ _ _ => AnyWriter.write_hasNull) vec _ _ h1, hi.nulls]
    by_cases hsz : ({ s with writers := ws } : StripeWriter).size E.A o ≥ o.stripeSize
    · rw [if_pos hsz] at h
      obtain ⟨s1, h2, h⟩ := Res.bind_ok_inv h
      obtain ⟨s2, h3, h⟩ := Res.bind_ok_inv h
      have hi1 : (({ s with writers := ws } : StripeWriter).addRows (count + 1)).Inv E o ns parts (r + (count + 1)) :=
        ⟨hi.schemas, hw, hi.out, hi.infos, by simp only [addRows, hi.info], hi.sound⟩
      obtain ⟨p, e1, e2, e3, e4, e5, e6, e7, -⟩ := flushOut_spec hi1 h2
      obtain ⟨f1, f2, f3, f4, f5⟩ := forward_spec h3
      have hinfo : s1.info = ⟨3 + (parts.flatMap (·.bytes)).length, p.indexes.length, p.data.length, p.footerBytes.length, p.rows⟩ := by
        rw [stripeTable_append, e5] at e7
        have : (({ s with writers := ws } : StripeWriter).addRows (count + 1)).infos = s.infos := rfl
        rw [this, hi.infos] at e7
        simpa using List.append_cancel_left e7
      have hi2 : s2.Inv E o ns (parts ++ [p]) 0 := by
        refine ⟨by rw [f1, e3], by rw [f2, e4], by rw [f3, e6], by rw [f4, e7], ?_, ?_⟩
        · rw [f5, hinfo]
          simp [StripeParts.bytes]; omega
        · intro q hq
          rcases List.mem_append.1 hq with hq | hq
          · exact hi.sound q hq
          · simp only [List.mem_cons, List.not_mem_nil, or_false] at hq
            subst hq
            exact ⟨e1, by rw [e2]; omega⟩
      obtain ⟨parts', r', g1, g2⟩ := ih _ _ _ _ _ _ hi2 h
      refine ⟨parts', r', g1, ?_⟩
      rw [g2]
      simp [e2]; omega
    · rw [if_neg hsz] at h
      obtain ⟨parts', r', g1, g2⟩ := ih (i + 1) (count + 1) { s with writers := ws } s' parts r ⟨hi.schemas, hw, hi.out, hi.infos, hi.info, hi.sound⟩ h
      exact ⟨parts', r', g1, by omega⟩

theorem FileWriter.writes_spec {E : Env} {o : FOpts} {ns : List SchemaNode} (batches : List Vec) :
    ∀ (w w' : FileWriter) (parts : List StripeParts) (r : Nat), w.stripe.Inv E o ns parts r → w.writes E o batches = .ok w' →
      ∃ parts' r', w'.stripe.Inv E o ns parts' r' ∧ w'.schemas = w.schemas ∧
        (parts'.map (·.rows)).sum + r' = (parts.map (·.rows)).sum + r + (batches.map Vec.len).sum := by
  induction batches with
  | nil =>
    intro w w' parts r hi h
    simp only [writes] at h
    injection h with h; subst h
    exact ⟨parts, r, hi, rfl, by simp⟩
  | cons v vs ih =>
    intro w w' parts r hi h
    simp only [writes] at h
    obtain ⟨w1, h1, h⟩ := Res.bind_ok_inv h
    simp only [write] at h1
    obtain ⟨s, h2, h1⟩ := Res.bind_ok_inv h1
    injection h1 with h1; subst h1
    obtain ⟨p1, r1, e1, e2⟩ := StripeWriter.writeLoop_spec v v.len 0 0 _ _ _ _ hi (StripeWriter.write_ok_inv h2).2
    obtain ⟨p2, r2, f1, f2, f3⟩ := ih _ _ p1 r1 e1 h
    exact ⟨p2, r2, f1, f2, by rw [f3, e2]; simp; omega⟩

theorem newWriters_hasNull {A : Arith} {o : COpts} {ns : List SchemaNode} {ws : List AnyWriter} (h : newWriters A o ns = .ok ws) :
    ws.map (·.hasNull) = ns.map (·.hasNulls) := by
  induction ns generalizing ws with
  | nil => simp only [newWriters] at h; injection h with h; subst h; rfl
  | cons n ns ih =>
    simp only [newWriters] at h
    obtain ⟨w1, h1, h⟩ := Res.bind_ok_inv h
    obtain ⟨ws1, h2, h⟩ := Res.bind_ok_inv h
    injection h with h; subst h
    simp [ih h2, AnyWriter.new_hasNull h1]

theorem newWriter_inv {E : Env} {o : FOpts} {schema : Schema} {w : FileWriter} (h : newWriter E o schema = .ok w) :
    flat schema = .ok w.schemas ∧ w.stripe.Inv E o (w.schemas.map (·.node)) [] 0 := by
  simp only [newWriter] at h
  obtain ⟨ss, h1, h⟩ := Res.bind_ok_inv h
  obtain ⟨s, h2, h⟩ := Res.bind_ok_inv h
  injection h with h; subst h
  simp only [newStripeWriter] at h2
  obtain ⟨ws, h3, h2⟩ := Res.bind_ok_inv h2
  injection h2 with h2; subst h2
  exact ⟨h1, ⟨rfl, newWriters_hasNull h3, by simp, rfl, by simp [magic], by simp⟩⟩

end Goorc
