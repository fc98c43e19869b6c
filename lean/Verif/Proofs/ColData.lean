import Verif.Proofs.ColWrite
import Verif.Props.StreamSeek
namespace Goorc

/-! ### One and two data streams -/

theorem StreamWriter.writes_append {σ : Type} (E : Enc σ) (c : Codec) (o : WOpts) (a b : List GoVal) (w : StreamWriter σ) :
    w.writes E c o (a ++ b) = (w.writes E c o a >>= fun w => w.writes E c o b) := by
  induction a generalizing w with
  | nil => rfl
  | cons x a ih => simp only [List.cons_append, StreamWriter.writes, Res.bind_assoc, ih]

theorem dataWrites_one {σ κ : Type} {K : LeafKind (StreamWriter σ) κ} {E : Enc σ} {c : Codec} {o : WOpts} (g : GoVal → GoVal)
    (vals : List GoVal) (hw : ∀ v ∈ vals, ∀ d : StreamWriter σ, K.writeValue c o d v = d.write E c o (g v)) (d : StreamWriter σ) :
    K.dataWrites c o d vals = d.writes E c o (vals.map g) := by
  induction vals generalizing d with
  | nil => rfl
  | cons v vals ih =>
    simp only [LeafKind.dataWrites, List.map_cons, StreamWriter.writes, hw v List.mem_cons_self]
    congr 1
    funext d'
    exact ih (fun x hx => hw x (List.mem_cons_of_mem _ hx)) d'

theorem dataWrites_two {σ τ κ : Type} {K : LeafKind (StreamWriter σ × StreamWriter τ) κ} {E : Enc σ} {F : Enc τ} {c : Codec} {o : WOpts}
    (g h : GoVal → List GoVal) (vals : List GoVal)
    (hw : ∀ v ∈ vals, ∀ d a b, d.1.writes E c o (g v) = .ok a → d.2.writes F c o (h v) = .ok b → K.writeValue c o d v = .ok (a, b))
    (d : StreamWriter σ × StreamWriter τ) (a : StreamWriter σ) (b : StreamWriter τ)
    (ha : d.1.writes E c o (vals.flatMap g) = .ok a) (hb : d.2.writes F c o (vals.flatMap h) = .ok b) :
    K.dataWrites c o d vals = .ok (a, b) := by
  induction vals generalizing d with
  | nil =>
    simp only [List.flatMap_nil, StreamWriter.writes, Res.ok.injEq] at ha hb
    simp only [LeafKind.dataWrites, ← ha, ← hb]
  | cons v vals ih =>
    rw [List.flatMap_cons, StreamWriter.writes_append] at ha hb
    obtain ⟨a1, ha1, ha2⟩ := Res.bind_ok_inv ha
    obtain ⟨b1, hb1, hb2⟩ := Res.bind_ok_inv hb
    simp only [LeafKind.dataWrites, hw v List.mem_cons_self d a1 b1 ha1 hb1, Res.ok_bind]
    exact ih (fun x hx => hw x (List.mem_cons_of_mem _ hx)) (a1, b1) ha2 hb2

theorem oneStream_trip {σ κ ρ : Type} {K : LeafKind (StreamWriter σ) κ} {R : ReadKind ρ} {E : Enc σ} {k : StreamKind} {c : Codec}
    (hc : c.Lossless) {o : WOpts} (ho : o.Sound) (hs : K.streams = oneStream E k) (hk : k ≠ .present ∧ k ∈ R.kinds) (P : σ → Prop) (Z : ρ → Prop)
    (d : StreamWriter σ) (hd : d.Clean c o P) (g : GoVal → GoVal) (vals outs : List GoVal)
    (hw : ∀ v ∈ vals, ∀ d : StreamWriter σ, K.writeValue c o d v = d.write E c o (g v)) (e' : σ) (out : Bytes)
    (he : E.run d.enc ((vals.map g).map .encode ++ [.flush]) = .ok (e', out)) (hP : P e')
    (hr : ∀ s src, src k = some s → s.Represents c out → ∃ r r', R.init src = some r ∧ Yields (R.next c) r outs r' ∧ Z r') :
    DataRoundTrip K R c o (StreamWriter.Clean c o P) Z d vals outs := by
  obtain ⟨w1, w2, cs, g1, g2, g3, g4, g5, g6⟩ := stream_spec E c hc o ho d hd.1 hd.2.1 _ e' out he
  refine ⟨w1, w2, [(k, (w2.writeOut o).2)], by rw [dataWrites_one g vals hw, g1], by rw [hs]; exact g2, by rw [hs]; simp [oneStream, Bodies.bytes],
    by rw [hs]; simp [oneStream, Bodies.infos, g5], by rw [hs]; simp [oneStream, Bodies.infos, writeOut_length, g5], by simp,
    by simpa using hk, fun s hl => ?_, fun hz => ?_⟩
  · obtain ⟨pre, post, hsrc⟩ := hl (k, (w2.writeOut o).2) (by simp)
    exact hr _ s hsrc (newStreamReader_represents c o.kind o.chunkSize pre _ post out (g4.feed ho post))
  · rw [hs]
    exact StreamWriter.reset_clean w2 P (by rw [g3]; exact hP) g6 hz

theorem twoStreams_trip {σ τ κ ρ : Type} {K : LeafKind (StreamWriter σ × StreamWriter τ) κ} {R : ReadKind ρ} {E : Enc σ} {F : Enc τ}
    {k l : StreamKind} {c : Codec} (hc : c.Lossless) {o : WOpts} (ho : o.Sound) (hs : K.streams = twoStreams E F k l)
    (hk : k ≠ .present ∧ k ∈ R.kinds) (hl : l ≠ .present ∧ l ∈ R.kinds) (hkl : k ≠ l) (P : σ → Prop) (Q : τ → Prop) (Z : ρ → Prop)
    (d : StreamWriter σ × StreamWriter τ) (hd1 : d.1.Clean c o P) (hd2 : d.2.Clean c o Q) (g h : GoVal → List GoVal) (vals outs : List GoVal)
    (hw : ∀ v ∈ vals, ∀ d a b, d.1.writes E c o (g v) = .ok a → d.2.writes F c o (h v) = .ok b → K.writeValue c o d v = .ok (a, b))
    (e' : σ) (out : Bytes) (he : E.run d.1.enc ((vals.flatMap g).map .encode ++ [.flush]) = .ok (e', out)) (hP : P e')
    (f' : τ) (out2 : Bytes) (hf : F.run d.2.enc ((vals.flatMap h).map .encode ++ [.flush]) = .ok (f', out2)) (hQ : Q f')
    (hr : ∀ s t src, src k = some s → src l = some t → s.Represents c out → t.Represents c out2 →
      ∃ r r', R.init src = some r ∧ Yields (R.next c) r outs r' ∧ Z r') :
    DataRoundTrip K R c o (fun d => d.1.Clean c o P ∧ d.2.Clean c o Q) Z d vals outs := by
  obtain ⟨a1, a2, cs, g1, g2, g3, g4, g5, g6⟩ := stream_spec E c hc o ho d.1 hd1.1 hd1.2.1 _ e' out he
  obtain ⟨b1, b2, ds, h1, h2, h3, h4, h5, h6⟩ := stream_spec F c hc o ho d.2 hd2.1 hd2.2.1 _ f' out2 hf
  refine ⟨(a1, b1), (a2, b2), [(k, (a2.writeOut o).2), (l, (b2.writeOut o).2)], dataWrites_two g h vals hw d a1 b1 g1 h1,
    by rw [hs]; simp [twoStreams, g2, h2], by rw [hs]; simp [twoStreams, Bodies.bytes],
    by rw [hs]; simp [twoStreams, Bodies.infos, g5, h5], by rw [hs]; simp [twoStreams, Bodies.infos, writeOut_length, g5, h5],
    by simpa using hkl, by
      intro b hb
      simp only [List.mem_cons, List.not_mem_nil, or_false] at hb
      rcases hb with rfl | rfl
      · exact hk
      · exact hl, fun s hloc => ?_, fun hz => ?_⟩
  · obtain ⟨pre, post, hsrc⟩ := hloc (k, (a2.writeOut o).2) (by simp)
    obtain ⟨pre', post', hsrc'⟩ := hloc (l, (b2.writeOut o).2) (by simp)
    exact hr _ _ s hsrc hsrc' (newStreamReader_represents c o.kind o.chunkSize pre _ post out (g4.feed ho post))
      (newStreamReader_represents c o.kind o.chunkSize pre' _ post' out2 (h4.feed ho post'))
  · rw [hs]
    obtain ⟨a3, i1, i2⟩ := StreamWriter.reset_clean (c := c) (o := o) a2 P (by rw [g3]; exact hP) g6 hz
    obtain ⟨b3, j1, j2⟩ := StreamWriter.reset_clean (c := c) (o := o) b2 Q (by rw [h3]; exact hQ) h6 hz
    exact ⟨(a3, b3), by simp [twoStreams, i1, j1], i2, j2⟩

/-! ### Encoders from a clean state -/

theorem Yields.map {ρ α β : Type} {next : ρ → Res (α × ρ)} {next' : ρ → Res (β × ρ)} (f : α → β)
    (hn : ∀ r v r', next r = .ok (v, r') → next' r = .ok (f v, r')) {r r' : ρ} {vs : List α} (h : Yields next r vs r') :
    Yields next' r (vs.map f) r' := by
  induction vs generalizing r with
  | nil => exact h
  | cons v vs ih =>
    obtain ⟨r1, h1, h2⟩ := h
    exact ⟨r1, hn _ _ _ h1, ih h2⟩

/-- A byte encoder holding nothing. -/
def CleanByte (e : ByteEnc) : Prop := e.WF ∧ e.values = []

theorem byte_run_clean (e : ByteEnc) (he : CleanByte e) (vs : List Byte) :
    ∃ e' out, byteEnc.run e ((vs.map GoVal.u8).map .encode ++ [.flush]) = .ok (e', out) ∧ Decodes decodeByteRL out vs ∧ CleanByte e' := by
  obtain ⟨e1, out', pre', g1, g2, g3, g4, -⟩ := e.run_spec he.1 (vs.map some)
  obtain ⟨out2, k1, k2⟩ := e1.flush_spec g2
  have hm : (vs.map some).map byteOp = (vs.map GoVal.u8).map EncOp.encode := by
    simp [byteOp, Function.comp_def]
  refine ⟨{ e1 with values := [] }, out' ++ out2, ?_, ?_, ?_⟩
  · simp only [Enc.run_append, ← hm, g1, Res.ok_bind]
    simp [Enc.run, Enc.step, byteEnc, k1]
  · have hv : vs = pre' ++ e1.values := by
      rw [← g3, he.2]; simp [List.filterMap_map]
    rw [hv]
    exact g4.append k2
  · exact ⟨by simp [ByteEnc.WF], rfl⟩

/-- An integer encoder holding nothing. -/
def CleanInt (signed : Bool) (e : IntEnc) : Prop := e.signed = signed ∧ e.values = []

theorem intEnc_step_sim (e1 e2 : IntEnc) (hs : e2.signed = e1.signed) (hv : e2.values = e1.values) (op : EncOp) (e1' : IntEnc) (out : Bytes)
    (h : intEnc.step e1 op = .ok (e1', out)) :
    e1'.signed = e1.signed ∧ ∃ e2', intEnc.step e2 op = .ok (e2', out) ∧ e2'.signed = e1'.signed ∧ e2'.values = e1'.values := by
  cases op with
  | encode v =>
    simp only [Enc.step, intEnc, IntEnc.encode] at h ⊢
    obtain ⟨x, h1, h⟩ := Res.bind_ok_inv h
    obtain ⟨⟨o1, rest⟩, h2, h⟩ := Res.bind_ok_inv h
    simp only [Res.pure_eq, Res.ok.injEq, Prod.mk.injEq] at h
    obtain ⟨rfl, rfl⟩ := h
    refine ⟨rfl, ?_⟩
    rw [hs, hv, h1]
    simp only [Res.ok_bind]
    rw [h2]
    exact ⟨_, rfl, rfl, rfl⟩
  | flush =>
    simp only [Enc.step, intEnc, IntEnc.flush] at h ⊢
    rw [hs, hv]
    by_cases hz : e1.values = []
    · rw [if_pos hz] at h ⊢
      simp only [Res.ok.injEq, Prod.mk.injEq] at h
      obtain ⟨rfl, rfl⟩ := h
      exact ⟨rfl, e2, rfl, hs, hv⟩
    · rw [if_neg hz] at h ⊢
      obtain ⟨⟨o1, rest⟩, h2, h⟩ := Res.bind_ok_inv h
      simp only [Res.pure_eq, Res.ok.injEq, Prod.mk.injEq] at h
      obtain ⟨rfl, rfl⟩ := h
      refine ⟨rfl, ?_⟩
      simp only [h2, Res.ok_bind, Res.pure_eq]
      exact ⟨_, rfl, rfl, rfl⟩

theorem intEnc_run_sim (ops : List EncOp) (e1 e2 : IntEnc) (hs : e2.signed = e1.signed) (hv : e2.values = e1.values) (e1' : IntEnc)
    (out : Bytes) (h : intEnc.run e1 ops = .ok (e1', out)) :
    e1'.signed = e1.signed ∧ ∃ e2', intEnc.run e2 ops = .ok (e2', out) ∧ e2'.signed = e1'.signed ∧ e2'.values = e1'.values := by
  induction ops generalizing e1 e2 out with
  | nil =>
    simp only [Enc.run, Res.ok.injEq, Prod.mk.injEq] at h
    obtain ⟨rfl, rfl⟩ := h
    exact ⟨rfl, e2, rfl, hs, hv⟩
  | cons op ops ih =>
    simp only [Enc.run] at h ⊢
    obtain ⟨⟨a, o1⟩, h1, h⟩ := Res.bind_ok_inv h
    obtain ⟨⟨b, o2⟩, h2, h⟩ := Res.bind_ok_inv h
    simp only [Res.pure_eq, Res.ok.injEq, Prod.mk.injEq] at h
    obtain ⟨rfl, rfl⟩ := h
    obtain ⟨k0, a2, k1, k2, k3⟩ := intEnc_step_sim e1 e2 hs hv op a o1 h1
    obtain ⟨j0, b2, j1, j2, j3⟩ := ih a a2 k2 k3 o2 h2
    exact ⟨j0.trans k0, b2, by simp only [k1, Res.ok_bind, j1, Res.pure_eq], j2, j3⟩

/-- What reads back from a new encoder reads back from any clean one. -/
theorem int_run_clean (signed : Bool) (e : IntEnc) (he : CleanInt signed e) (vs : List U64) (inj : U64 → GoVal)
    (h : ∃ out, intEnc.encodeFlush (newIntRLV2 signed false) (vs.map inj) = .ok out ∧ decodeAll (IntReader.dec signed) out = .ok vs) :
    ∃ e' out, intEnc.run e ((vs.map inj).map .encode ++ [.flush]) = .ok (e', out) ∧ Decodes (IntReader.dec signed) out vs ∧ CleanInt signed e' := by
  obtain ⟨out, h1, h2⟩ := h
  simp only [Enc.encodeFlush] at h1
  obtain ⟨⟨e1, out'⟩, h3, h1⟩ := Res.bind_ok_inv h1
  simp only [Res.pure_eq, Res.ok.injEq] at h1
  subst h1
  obtain ⟨hsg, e2, k1, k2, k3⟩ := intEnc_run_sim _ (newIntRLV2 signed false) e he.1 he.2 e1 out' h3
  refine ⟨e2, out', k1, decodes_of_decodeAll (intDec_progress signed) h2, by rw [k2, hsg]; rfl, ?_⟩
  rw [k3]
  rw [Enc.run_append] at h3
  obtain ⟨⟨a, o1⟩, -, h3⟩ := Res.bind_ok_inv h3
  obtain ⟨⟨b, o2⟩, h4, h3⟩ := Res.bind_ok_inv h3
  simp only [Res.pure_eq, Res.ok.injEq, Prod.mk.injEq] at h3
  obtain ⟨rfl, rfl⟩ := h3
  simp only [Enc.run, Enc.step] at h4
  obtain ⟨⟨b', o2'⟩, h5, h4⟩ := Res.bind_ok_inv h4
  simp only [Res.ok_bind, Res.pure_eq, Res.ok.injEq, Prod.mk.injEq] at h4
  rw [← h4.1]
  exact flush_values a b' o2' h5

theorem stateless_run_flush {α : Type} (E : Enc Unit) (f : GoVal → Res Bytes)
    (he : ∀ s v, E.encode s v = (f v >>= fun bs => pure ((), bs)))
    (hf : ∀ s, E.flush s = .ok ((), [])) (inj : α → GoVal) (g : α → Bytes) (hg : ∀ a, f (inj a) = .ok (g a)) (vs : List α) :
    E.run () ((vs.map inj).map EncOp.encode ++ [EncOp.flush]) = .ok ((), vs.flatMap g) := by
  refine Eq.trans ?_ ((stateless_run E f he hf inj g hg (vs.map some ++ [none])).trans ?_)
  · congr 1
    simp [List.map_map, Function.comp_def]
  · simp

theorem intReader_yields {c : Codec} {s : StreamReader} {out : Bytes} {vs : List U64} (hs : s.Represents c out)
    (h : Decodes (IntReader.dec true) out vs) : ∃ r', Yields (IntReader.nextInt64 c) (newIntReader true s) vs r' ∧ Ends (IntReader.nextInt64 c) r' := by
  obtain ⟨r', k, k2, -⟩ := IntReader.yields_spec vs [] (by rw [List.append_nil]; exact IntReader.fresh hs h)
  obtain ⟨e, he⟩ := IntReader.end_spec k2
  have hsg := yields_signed k
  exact ⟨r', (yields_int rfl).mp k, e, by rw [← he]; simp only [IntReader.next, hsg, newIntReader, if_true]⟩

theorem uintReader_yields {c : Codec} {s : StreamReader} {out : Bytes} {vs : List U64} (hs : s.Represents c out)
    (h : Decodes (IntReader.dec false) out vs) : ∃ r', Yields (IntReader.nextUInt64 c) (newIntReader false s) vs r' ∧ Ends (IntReader.nextUInt64 c) r' := by
  obtain ⟨r', k, k2, -⟩ := IntReader.yields_spec vs [] (by rw [List.append_nil]; exact IntReader.fresh hs h)
  obtain ⟨e, he⟩ := IntReader.end_spec k2
  have hsg := yields_signed k
  exact ⟨r', (yields_uint rfl).mp k, e, by rw [← he]; simp only [IntReader.next, hsg, newIntReader, Bool.false_eq_true, if_false]⟩

/-! ### The column types -/

theorem byte_trip {c : Codec} (hc : c.Lossless) {o : WOpts} (ho : o.Sound) (d : StreamWriter ByteEnc) (hd : d.Clean c o CleanByte) (vs : List Byte) :
    DataRoundTrip byteKind byteRead c o (StreamWriter.Clean c o CleanByte) (Ends (byteRead.next c)) d (vs.map .u8) (vs.map .u8) := by
  obtain ⟨e', out, h1, h2, h3⟩ := byte_run_clean d.enc hd.2.2 vs
  refine oneStream_trip hc ho rfl (by decide) CleanByte _ d hd id _ _ (fun _ _ _ => rfl) e' out (by rw [List.map_id]; exact h1) h3 (fun s src hs hr => ?_)
  obtain ⟨r', k, k2, -⟩ := BlockReader.yields_spec goodBlocks_byte vs [] (r := ⟨s, []⟩) (c := c) (by rw [List.append_nil]; exact .fresh hr h2)
  refine ⟨⟨s, []⟩, r', by simp [byteRead, hs], ?_, by
    obtain ⟨e, he⟩ := BlockReader.end_spec goodBlocks_byte k2
    exact ⟨e, by simp only [byteRead, ByteReader.nextByte, he]; rfl⟩⟩
  refine Yields.map (next := ByteReader.nextByte c) GoVal.u8 (fun r v r' hn => ?_) k
  simp only [byteRead, hn, Res.ok_bind, Res.pure_eq]

theorem bool_trip {c : Codec} (hc : c.Lossless) {o : WOpts} (ho : o.Sound) (d : StreamWriter BoolEnc) (hd : d.Clean c o CleanBool) (vs : List Bool) :
    DataRoundTrip boolKind boolRead c o
      (StreamWriter.Clean c o fun e => e.index = -1 ∧ e.brl.WF ∧ e.brl.values = [] ∧ e.value = packByte (trailing vs))
      (fun r => ∃ r', Yields (boolRead.next c) r ((padding vs.length).map .bool) r' ∧ Ends (boolRead.next c) r') d (vs.map .bool) (vs.map .bool) := by
  have hmap : ∀ (r r' : BoolReader) bs, Yields (BoolReader.next c) r bs r' → Yields (boolRead.next c) r (bs.map .bool) r' := by
    intro r r' bs k
    refine Yields.map (next := BoolReader.next c) GoVal.bool (fun r v r' hn => ?_) k
    simp only [boolRead, hn, Res.ok_bind, Res.pure_eq]
  obtain ⟨e', out, bytes, h1, h2, h3, h4⟩ := bool_run_clean d.enc hd.2.2 vs
  have hr0 : ∀ s src, src .data = some s → s.Represents c out →
      ∃ r r', boolRead.init src = some r ∧ Yields (boolRead.next c) r (vs.map .bool) r' ∧
        ∃ r'', Yields (boolRead.next c) r' ((padding vs.length).map .bool) r'' ∧ Ends (boolRead.next c) r'' := by
    intro s src hs hr
    have hr := BoolReader.fresh hr h2
    rw [h3] at hr
    obtain ⟨r', k, k2, -⟩ := BoolReader.yields_spec vs (padding vs.length) hr
    obtain ⟨r2, k3, k4, -⟩ := BoolReader.yields_spec (padding vs.length) [] (by simpa using k2)
    obtain ⟨e, he⟩ := BoolReader.end_spec k4
    exact ⟨newBoolReader s, r', by simp [boolRead, hs], hmap _ _ _ k, r2, hmap _ _ _ k3, e, by simp only [boolRead, he]; rfl⟩
  obtain ⟨w1, w2, cs, g1, g2, g3, g4, g5, g6⟩ := stream_spec boolEnc c hc o ho d hd.1 hd.2.1 _ e' out h1
  refine ⟨w1, w2, [(.data, (w2.writeOut o).2)], by
      rw [dataWrites_one (E := boolEnc) id _ (fun _ _ _ => rfl), List.map_id, g1], g2, by simp [boolKind, oneStream, Bodies.bytes],
    by simp [boolKind, oneStream, Bodies.infos, g5], by simp [boolKind, oneStream, Bodies.infos, writeOut_length, g5], by simp,
    by simp [boolRead], fun s hl => ?_, fun hz => ?_⟩
  · obtain ⟨pre, post, hsrc⟩ := hl (.data, (w2.writeOut o).2) (by simp)
    exact hr0 _ s hsrc (newStreamReader_represents c o.kind o.chunkSize pre _ post out (g4.feed ho post))
  · exact StreamWriter.reset_clean w2 _ (by rw [g3]; exact h4) g6 hz

/-- Injection of a wide integer into the column type. -/
def IntBits.inj : IntBits → U64 → GoVal := IntBits.read

/-- The integers a column type can hold. -/
def IntBits.fits (bits : IntBits) (v : U64) : Prop :=
  match bits with
  | .small => (v.setWidth 16).signExtend 64 = v
  | .int => (v.setWidth 32).signExtend 64 = v
  | .big => True

theorem IntBits.value_inj (bits : IntBits) (v : U64) (h : bits.fits v) : bits.value (bits.read v) = .ok v := by
  cases bits
  · exact congrArg Res.ok h
  · exact congrArg Res.ok h
  · rfl

theorem int_trip {c : Codec} (hc : c.Lossless) {o : WOpts} (ho : o.Sound) (bits : IntBits) (d : StreamWriter IntEnc)
    (hd : d.Clean c o (CleanInt true)) (vs : List U64) (hf : ∀ v ∈ vs, bits.fits v) (hb : ReadsBackI vs) :
    DataRoundTrip (intKind bits) (intRead bits) c o (StreamWriter.Clean c o (CleanInt true)) (Ends ((intRead bits).next c)) d (vs.map bits.read) (vs.map bits.read) := by
  obtain ⟨e', out, h1, h2, h3⟩ := int_run_clean true d.enc hd.2.2 vs .i64 (hb false)
  have hg : (vs.map bits.read).map (fun v => match bits.value v with | .ok x => GoVal.i64 x | _ => .i64 0) = vs.map .i64 := by
    rw [List.map_map]
    refine List.map_congr_left fun v hv => ?_
    simp only [Function.comp_apply, bits.value_inj v (hf v hv)]
  refine oneStream_trip hc ho rfl (by simp [intRead]) (CleanInt true) _ d hd
    (fun v => match bits.value v with | .ok x => GoVal.i64 x | _ => .i64 0) _ _ (fun v hv d => ?_) e' out (by rw [hg]; exact h1) h3
    (fun s src hs hr => ?_)
  · obtain ⟨x, hx, rfl⟩ := List.mem_map.mp hv
    simp only [intKind, bits.value_inj x (hf x hx), Res.ok_bind]
  · obtain ⟨r', k, e, he⟩ := intReader_yields hr h2
    refine ⟨newIntReader true s, r', by simp [intRead, hs], ?_, e, by simp only [intRead, he]; rfl⟩
    refine Yields.map (next := IntReader.nextInt64 c) bits.read (fun r v r' hn => ?_) k
    simp only [intRead, hn, Res.ok_bind, Res.pure_eq]

theorem Yields.float {α : Type} {c : Codec} {dc : Dec α} {is64 : Bool} {s s' : StreamReader} {vs : List α} (next : FloatReader → Res (GoVal × FloatReader))
    (f : α → GoVal) (hn : ∀ s v s', dc.runStream c s = .ok (v, s') → next ⟨is64, s⟩ = .ok (f v, ⟨is64, s'⟩))
    (h : Yields (Dec.runStream c dc) s vs s') : Yields next ⟨is64, s⟩ (vs.map f) ⟨is64, s'⟩ := by
  induction vs generalizing s with
  | nil => cases h; exact rfl
  | cons v vs ih =>
    obtain ⟨s1, h1, h2⟩ := h
    exact ⟨⟨is64, s1⟩, hn _ _ _ h1, ih h2⟩

theorem float_trip {c : Codec} (hc : c.Lossless) {o : WOpts} (ho : o.Sound) (A : Arith) (d : StreamWriter Unit) (hd : d.Clean c o fun _ => True)
    (vs : List (BitVec 32)) :
    DataRoundTrip (floatKind A false) (floatRead false) c o (StreamWriter.Clean c o fun _ => True) (Ends ((floatRead false).next c)) d (vs.map .f32) (vs.map .f32) := by
  have h1 := stateless_run_flush floatEnc floatEncode (fun _ _ => rfl) (fun _ => rfl) GoVal.f32 putBE32 (fun _ => rfl) vs
  refine oneStream_trip (E := floatEnc) hc ho rfl (by simp [floatRead]) _ _ d hd id _ _ (fun v hv d => rfl) () _ (by rw [List.map_id]; exact h1) trivial
    (fun s src hs hr => ?_)
  obtain ⟨s', k, k2, -⟩ := scalar_yields decodeFloat putBE32 (fun v rest => decodeFloat_put v rest) vs [] (r := s) (c := c) (by rw [List.append_nil]; exact hr)
  obtain ⟨e, he⟩ := scalar_end decodeFloat _ rfl k2
  refine ⟨⟨false, s⟩, ⟨false, s'⟩, by simp [floatRead, hs], Yields.float _ .f32 (fun s v s' hn => ?_) k, e, by simp [floatRead, FloatReader.nextFloat, he]⟩
  simp only [floatRead, Bool.false_eq_true, if_false, FloatReader.nextFloat, hn, Res.ok_bind, Res.pure_eq]

theorem double_trip {c : Codec} (hc : c.Lossless) {o : WOpts} (ho : o.Sound) (A : Arith) (d : StreamWriter Unit) (hd : d.Clean c o fun _ => True)
    (vs : List (BitVec 64)) :
    DataRoundTrip (floatKind A true) (floatRead true) c o (StreamWriter.Clean c o fun _ => True) (Ends ((floatRead true).next c)) d (vs.map .f64) (vs.map .f64) := by
  have h1 := stateless_run_flush doubleEnc doubleEncode (fun _ _ => rfl) (fun _ => rfl) GoVal.f64 putLE64 (fun _ => rfl) vs
  refine oneStream_trip (E := doubleEnc) hc ho rfl (by simp [floatRead]) _ _ d hd id _ _ (fun v hv d => rfl) () _ (by rw [List.map_id]; exact h1) trivial
    (fun s src hs hr => ?_)
  obtain ⟨s', k, k2, -⟩ := scalar_yields decodeDouble putLE64 (fun v rest => decodeDouble_put v rest) vs [] (r := s) (c := c) (by rw [List.append_nil]; exact hr)
  obtain ⟨e, he⟩ := scalar_end decodeDouble _ rfl k2
  refine ⟨⟨true, s⟩, ⟨true, s'⟩, by simp [floatRead, hs], Yields.float _ .f64 (fun s v s' hn => ?_) k, e, by simp [floatRead, FloatReader.nextDouble, he]⟩
  simp only [floatRead, if_true, FloatReader.nextDouble, Bool.not_true, Bool.false_eq_true, if_false, hn, Res.ok_bind, Res.pure_eq]

theorem Decodes.map {α β : Type} {d : Dec (List α)} {d' : Dec (List β)} (f : α → β)
    (hd : ∀ s vs r, d.runBuf s = .ok (vs, r) → d'.runBuf s = .ok (vs.map f, r)) {s : Bytes} {vs : List α} (h : Decodes d s vs) :
    Decodes d' s (vs.map f) := by
  induction h with
  | nil => exact .nil
  | cons h hl t ih => rw [List.map_append]; exact .cons (hd _ _ _ h) hl ih

/-- Day counts `FromDays` and `ToDays` are inverse on (C14). -/
def DayFits (d : BitVec 32) : Prop := -106751 ≤ d.toInt ∧ d.toInt ≤ 106751

theorem date_trip {c : Codec} (hc : c.Lossless) {o : WOpts} (ho : o.Sound) (d : StreamWriter IntEnc) (hd : d.Clean c o (CleanInt true))
    (ts : List Int) (hb : ReadsBackI (ts.map fun t => (toDays t).signExtend 64)) :
    DataRoundTrip dateKind dateRead c o (StreamWriter.Clean c o (CleanInt true)) (Ends (dateRead.next c)) d (ts.map .date) (ts.map fun t => .date (fromDays (toDays t))) := by
  obtain ⟨e', out, h1, h2, h3⟩ := int_run_clean true d.enc hd.2.2 _ .i64 (hb false)
  have h4 : Decodes decodeDates out (ts.map fun t => fromDays (toDays t)) := by
    have := Decodes.map (d' := decodeDates) (fun v : U64 => fromDays (v.setWidth 32)) (fun s vs r h => by
      have h : (decodeInt true).runBuf s = .ok (vs, r) := h
      simp only [decodeDates, Dec.runBuf_bind, h, Res.ok_bind, Dec.pure_eq, Dec.runBuf_ret]) h2
    simp only [List.map_map] at this
    have e : ∀ x : BitVec 32, (x.signExtend 64).setWidth 32 = x := fun x => by
      ext i hi
      rw [BitVec.getElem_setWidth, BitVec.getLsbD_signExtend]
      simp [hi, show i < 64 by omega]
    simpa [Function.comp_def, e] using this
  refine oneStream_trip hc ho rfl (by decide) (CleanInt true) _ d hd
    (fun v => match v with | .date t => GoVal.i64 ((toDays t).signExtend 64) | _ => .i64 0) _ _ (fun v hv d => ?_) e' out
    (by simp only [List.map_map, Function.comp_def] at h1 ⊢; exact h1) h3 (fun s src hs hr => ?_)
  · obtain ⟨x, hx, rfl⟩ := List.mem_map.mp hv
    rfl
  · obtain ⟨r', k, k2, -⟩ := BlockReader.yields_spec goodBlocks_dates _ [] (r := ⟨s, []⟩) (c := c) (by rw [List.append_nil]; exact .fresh hr h4)
    obtain ⟨e, he⟩ := BlockReader.end_spec goodBlocks_dates k2
    refine ⟨⟨s, []⟩, r', by simp [dateRead, hs], ?_, e, by simp only [dateRead, DateReader.nextDate, he]; rfl⟩
    have := Yields.map (next := DateReader.nextDate c) (next' := dateRead.next c) GoVal.date (fun r v r' hn => by
      simp only [dateRead, hn, Res.ok_bind, Res.pure_eq]) k
    rw [List.map_map] at this
    exact this

theorem flatMap_one {α : Type} (inj f : α → GoVal) (g : GoVal → List GoVal) (h : ∀ a, g (inj a) = [f a]) (vs : List α) :
    (vs.map inj).flatMap g = vs.map f := by
  induction vs with
  | nil => rfl
  | cons v vs ih => rw [List.map_cons, List.flatMap_cons, h, ih]; rfl

/-- The two streams of text columns. -/
theorem text_yields {c : Codec} {s : StreamReader} {len len' : IntReader} (vs : List Bytes) (hs : s.Represents c (vs.flatMap id))
    (hl : Yields (IntReader.nextUInt64 c) len (vs.map fun v => BitVec.ofNat 64 v.length) len') (hfit : ∀ v ∈ vs, v.length < 2 ^ 63) :
    ∃ s', Yields (TextReader.next c) ⟨s, len⟩ vs ⟨s', len'⟩ := by
  induction vs generalizing s len with
  | nil => cases hl; exact ⟨s, rfl⟩
  | cons v vs ih =>
    obtain ⟨len1, g1, g2⟩ := hl
    obtain ⟨s1, k1, k2, -⟩ := runStream_ok c (decodeBytes v.length) s _ hs v (vs.flatMap id) (by
      rw [List.flatMap_cons]
      exact Dec.runBuf_full_append _ _ _ rfl)
    obtain ⟨s', j⟩ := ih k2 g2 (fun x hx => hfit x (List.mem_cons_of_mem _ hx))
    refine ⟨s', ⟨s1, len1⟩, ?_, j⟩
    have hm : (BitVec.ofNat 64 v.length).toNat = v.length := by
      rw [BitVec.toNat_ofNat]; exact Nat.mod_eq_of_lt (by have := hfit v List.mem_cons_self; omega)
    have hn : nextBytes c s v.length = .ok (v, s1) := by rw [nextBytes, if_pos (hfit v List.mem_cons_self)]; exact k1
    simp only [TextReader.next, g1, Res.ok_bind, hm, hn, Res.pure_eq]

theorem string_trip {c : Codec} (hc : c.Lossless) {o : WOpts} (ho : o.Sound) (d : StreamWriter Unit × StreamWriter IntEnc)
    (hd1 : d.1.Clean c o fun _ => True) (hd2 : d.2.Clean c o (CleanInt false)) (vs : List Bytes) (hfit : ∀ v ∈ vs, v.length < 2 ^ 63)
    (hb : ReadsBackU (vs.map fun v => BitVec.ofNat 64 v.length)) :
    DataRoundTrip stringKind stringRead c o (fun d => d.1.Clean c o (fun _ => True) ∧ d.2.Clean c o (CleanInt false)) (Ends (stringRead.next c)) d (vs.map .str) (vs.map .str) := by
  have h1 := stateless_run_flush stringEnc stringEncode (fun _ _ => rfl) (fun _ => rfl) GoVal.bytes id (fun _ => rfl) vs
  obtain ⟨f', out2, h2, h3, h4⟩ := int_run_clean false d.2.enc hd2.2.2 _ .u64 (hb false)
  refine twoStreams_trip hc ho rfl (by decide) (by decide) (by decide) (fun _ => True) (CleanInt false) _ d hd1 hd2
    (fun v => match v with | .str s => [GoVal.bytes s] | _ => []) (fun v => match v with | .str s => [GoVal.u64 (BitVec.ofNat 64 s.length)] | _ => [])
    _ _ (fun v hv d a b ha hb' => ?_) () (vs.flatMap id) ?_ trivial f' out2 ?_ h4 (fun s t src hs ht hr hr' => ?_)
  · obtain ⟨x, hx, rfl⟩ := List.mem_map.mp hv
    simp only [StreamWriter.writes] at ha hb'
    obtain ⟨a', ha1, ha2⟩ := Res.bind_ok_inv ha
    obtain ⟨b', hb1, hb2⟩ := Res.bind_ok_inv hb'
    simp only [Res.ok.injEq] at ha2 hb2
    subst ha2 hb2
    simp only [stringKind, ha1, hb1, Res.ok_bind, Res.pure_eq]
  · rw [← h1, flatMap_one GoVal.str GoVal.bytes _ (fun _ => rfl)]
  · rw [← h2, flatMap_one GoVal.str (fun s => GoVal.u64 (BitVec.ofNat 64 s.length)) _ (fun _ => rfl)]
    simp only [List.map_map, Function.comp_def]
  · obtain ⟨len', k, e, he⟩ := uintReader_yields hr' h3
    obtain ⟨s', j⟩ := text_yields vs hr k hfit
    refine ⟨⟨s, newIntReader false t⟩, _, by simp [stringRead, hs, ht], Yields.map (next := TextReader.next c) GoVal.str (fun r v r' hn => ?_) j,
      e, by simp only [stringRead, TextReader.next, he]; rfl⟩
    simp only [stringRead, hn, Res.ok_bind, Res.pure_eq]

theorem zip_yields {ρ₁ ρ₂ ρ α β γ : Type} {n1 : ρ₁ → Res (α × ρ₁)} {n2 : ρ₂ → Res (β × ρ₂)} {next : ρ → Res (γ × ρ)} (mk : ρ₁ → ρ₂ → ρ)
    (f : α → β → γ) (hn : ∀ a b x y a' b', n1 a = .ok (x, a') → n2 b = .ok (y, b') → next (mk a b) = .ok (f x y, mk a' b'))
    {τ : Type} (g : τ → α) (h : τ → β) (vs : List τ) {a a' : ρ₁} {b b' : ρ₂} (ha : Yields n1 a (vs.map g) a') (hb : Yields n2 b (vs.map h) b') :
    Yields next (mk a b) (vs.map fun v => f (g v) (h v)) (mk a' b') := by
  induction vs generalizing a b with
  | nil => cases ha; cases hb; exact rfl
  | cons v vs ih =>
    obtain ⟨a1, h1, h2⟩ := ha
    obtain ⟨b1, k1, k2⟩ := hb
    exact ⟨mk a1 b1, hn _ _ _ _ _ _ h1 k1, ih h2 k2⟩

/-- A timestamp as the writer takes it. -/
def tsVal (t : Option Int × U64 × U64) : GoVal := .ts t.1 t.2.1 t.2.2

theorem ts_trip {c : Codec} (hc : c.Lossless) {o : WOpts} (ho : o.Sound) (d : StreamWriter IntEnc × StreamWriter IntEnc)
    (hd1 : d.1.Clean c o (CleanInt true)) (hd2 : d.2.Clean c o (CleanInt false)) (vs : List (Option Int × U64 × U64))
    (hb1 : ReadsBackI (vs.map (·.2.1))) (hb2 : ReadsBackU (vs.map fun v => encodingNano v.2.2)) :
    DataRoundTrip timestampKind timestampRead c o (fun d => d.1.Clean c o (CleanInt true) ∧ d.2.Clean c o (CleanInt false)) (Ends (timestampRead.next c)) d (vs.map tsVal)
      (vs.map fun v => .ts none v.2.1 (decodingNano (encodingNano v.2.2))) := by
  obtain ⟨e', out, h1, h2, h3⟩ := int_run_clean true d.1.enc hd1.2.2 _ .i64 (hb1 false)
  obtain ⟨f', out2, g1, g2, g3⟩ := int_run_clean false d.2.enc hd2.2.2 _ .u64 (hb2 false)
  refine twoStreams_trip hc ho rfl (by decide) (by decide) (by decide) (CleanInt true) (CleanInt false) _ d hd1 hd2
    (fun v => match v with | .ts _ s _ => [GoVal.i64 s] | _ => []) (fun v => match v with | .ts _ _ n => [GoVal.u64 (encodingNano n)] | _ => [])
    _ _ (fun v hv d a b ha hb' => ?_) e' out ?_ h3 f' out2 ?_ g3 (fun s t src hs ht hr hr' => ?_)
  · obtain ⟨x, hx, rfl⟩ := List.mem_map.mp hv
    simp only [StreamWriter.writes, tsVal] at ha hb'
    obtain ⟨a', ha1, ha2⟩ := Res.bind_ok_inv ha
    obtain ⟨b', hb1, hb2⟩ := Res.bind_ok_inv hb'
    simp only [Res.ok.injEq] at ha2 hb2
    subst ha2 hb2
    simp only [timestampKind, tsVal, ha1, hb1, Res.ok_bind, Res.pure_eq]
  · rw [← h1, flatMap_one tsVal (fun t => GoVal.i64 t.2.1) _ (fun _ => rfl)]
    simp only [List.map_map, Function.comp_def]
  · rw [← g1, flatMap_one tsVal (fun t => GoVal.u64 (encodingNano t.2.2)) _ (fun _ => rfl)]
    simp only [List.map_map, Function.comp_def]
  · obtain ⟨a', k1, e, he⟩ := intReader_yields hr h2
    obtain ⟨b', k2, -⟩ := uintReader_yields hr' g2
    refine ⟨⟨newIntReader true s, newIntReader false t⟩, ⟨a', b'⟩, by simp [timestampRead, hs, ht], ?_, e, by simp only [timestampRead, he]; rfl⟩
    exact zip_yields TsReader.mk (fun x y => GoVal.ts none x (decodingNano y)) (fun a b x y a' b' h1 h2 => by
      show timestampRead.next c (TsReader.mk a b) = _
      simp only [timestampRead, h1, h2, Res.ok_bind, Res.pure_eq]) (·.2.1) (fun v => encodingNano v.2.2) vs k1 k2

/-- A decimal as the writer takes it; the scale is an `int`. -/
def decVal (v : U64 × U64) : GoVal := .dec v.1 v.2.toInt

theorem dec_trip {c : Codec} (hc : c.Lossless) {o : WOpts} (ho : o.Sound) (A : Arith) (d : StreamWriter Unit × StreamWriter IntEnc)
    (hd1 : d.1.Clean c o fun _ => True) (hd2 : d.2.Clean c o (CleanInt true)) (vs : List (U64 × U64)) (hb : ReadsBackI (vs.map (·.2))) :
    DataRoundTrip (decimalKind A) decimalRead c o (fun d => d.1.Clean c o (fun _ => True) ∧ d.2.Clean c o (CleanInt true)) (Ends (decimalRead.next c)) d (vs.map decVal) (vs.map decVal) := by
  have h1 := stateless_run_flush varintEnc varintEncode (fun _ _ => rfl) (fun _ => rfl) GoVal.i64 (fun v => uvarintBytes 9 (zigzag v)) varintEncode_i64
    (vs.map (·.1))
  obtain ⟨f', out2, g1, g2, g3⟩ := int_run_clean true d.2.enc hd2.2.2 _ .i64 (hb false)
  refine twoStreams_trip hc ho rfl (by simp [decimalRead]) (by simp [decimalRead]) (by decide) (fun _ => True) (CleanInt true) _ d hd1 hd2
    (fun v => match v with | .dec p _ => [GoVal.i64 p] | _ => []) (fun v => match v with | .dec _ s => [GoVal.i64 (BitVec.ofInt 64 s)] | _ => [])
    _ _ (fun v hv d a b ha hb' => ?_) () ((vs.map (·.1)).flatMap fun v => uvarintBytes 9 (zigzag v)) ?_ trivial f' out2 ?_ g3 (fun s t src hs ht hr hr' => ?_)
  · obtain ⟨x, hx, rfl⟩ := List.mem_map.mp hv
    simp only [StreamWriter.writes, decVal] at ha hb'
    obtain ⟨a', ha1, ha2⟩ := Res.bind_ok_inv ha
    obtain ⟨b', hb1, hb2⟩ := Res.bind_ok_inv hb'
    simp only [Res.ok.injEq] at ha2 hb2
    subst ha2 hb2
    simp only [decimalKind, decVal, ha1, hb1, Res.ok_bind, Res.pure_eq]
  · rw [← h1, flatMap_one decVal (fun t => GoVal.i64 t.1) _ (fun _ => rfl)]
    simp only [List.map_map, Function.comp_def]
  · rw [← g1, flatMap_one decVal (fun t => GoVal.i64 t.2) _ (fun t => by simp [decVal])]
    simp only [List.map_map, Function.comp_def]
  · obtain ⟨a', k1, k0, -⟩ := scalar_yields decodeVarInt64 (fun v => uvarintBytes 9 (zigzag v)) (fun v rest => readVarint_zigzag v rest)
      (vs.map (·.1)) [] (r := s) (c := c) (by rw [List.append_nil]; exact hr)
    obtain ⟨e, he⟩ := scalar_end decodeVarInt64 _ rfl k0
    obtain ⟨b', k2, -⟩ := intReader_yields hr' g2
    refine ⟨⟨s, newIntReader true t⟩, ⟨a', b'⟩, by simp [decimalRead, hs, ht], ?_, e, by simp only [decimalRead, nextVarint, he]; rfl⟩
    exact zip_yields DecReader.mk (fun x y => GoVal.dec x y.toInt) (fun a b x y a' b' h1 h2 => by
      have h1 : nextVarint c a = .ok (x, a') := h1
      show decimalRead.next c (DecReader.mk a b) = _
      simp only [decimalRead, h1, h2, Res.ok_bind, Res.pure_eq]) (·.1) (·.2) vs k1 k2

/-- Binary columns: whatever is written, the reader finds no length. -/
theorem binary_trip {c : Codec} (hc : c.Lossless) {o : WOpts} (ho : o.Sound) (d : StreamWriter Unit × StreamWriter IntEnc)
    (hd1 : d.1.Clean c o fun _ => True) (hd2 : d.2.Clean c o (CleanInt false)) (vs : List Bytes) :
    DataRoundTrip binaryKind binaryRead c o (fun d => d.1.Clean c o (fun _ => True) ∧ d.2.Clean c o (CleanInt false)) (Ends (binaryRead.next c)) d
      (vs.map .bytes) [] := by
  have h1 := stateless_run_flush stringEnc stringEncode (fun _ _ => rfl) (fun _ => rfl) GoVal.bytes id (fun _ => rfl) vs
  have h2 : intEnc.run d.2.enc [.flush] = .ok (d.2.enc, []) := by
    simp [Enc.run, Enc.step, intEnc, IntEnc.flush, hd2.2.2.2]
  refine twoStreams_trip hc ho rfl (by decide) (by decide) (by decide) (fun _ => True) (CleanInt false) _ d hd1 hd2
    (fun v => [v]) (fun _ => []) _ _ (fun v hv d a b ha hb' => ?_) () (vs.flatMap id) ?_ trivial d.2.enc [] ?_ hd2.2.2 (fun s t src hs ht hr hr' => ?_)
  · simp only [StreamWriter.writes] at ha hb'
    obtain ⟨a', ha1, ha2⟩ := Res.bind_ok_inv ha
    simp only [Res.ok.injEq] at ha2 hb'
    subst ha2 hb'
    simp only [binaryKind, ha1, Res.ok_bind, Res.pure_eq]
  · rw [← h1, flatMap_one GoVal.bytes GoVal.bytes _ (fun _ => rfl)]
  · have : (vs.map GoVal.bytes).flatMap (fun _ => ([] : List GoVal)) = [] := by simp
    rw [this]
    exact h2
  · obtain ⟨len', k, e, he⟩ := uintReader_yields hr' (vs := []) .nil
    cases k
    exact ⟨⟨s, newIntReader false t⟩, _, by simp [binaryRead, hs, ht], rfl, e, by simp only [binaryRead, TextReader.next, he]; rfl⟩

end Goorc
