import Verif.Props.Stream
/-
C33: positions of streams.
-/
namespace Goorc

theorem run_encode_only {σ : Type} {E : Enc σ} {e e2 : σ} {a b : List GoVal} {out : Bytes}
    (h : E.run e ((a ++ b).map EncOp.encode ++ [EncOp.flush]) = .ok (e2, out)) :
    ∃ e1 out1 out2, E.run e (a.map EncOp.encode) = .ok (e1, out1) ∧
      E.run e1 (b.map EncOp.encode ++ [EncOp.flush]) = .ok (e2, out2) ∧ out = out1 ++ out2 := by
  rw [List.map_append, List.append_assoc, Enc.run_append] at h
  obtain ⟨⟨e1, o1⟩, h1, h⟩ := Res.bind_ok_inv h
  obtain ⟨⟨e3, o2⟩, h2, h⟩ := Res.bind_ok_inv h
  simp only [Res.pure_eq, Res.ok.injEq, Prod.mk.injEq] at h
  obtain ⟨rfl, rfl⟩ := h
  exact ⟨e1, o1, o2, h1, h2, rfl⟩

/-- **C33** (partial) Any encoder: the first numbers of the position taken after `vs1` lead the reader to exactly the bytes
the encoder emitted from then on; the other numbers are the encoder's own position. Missing: streams that are not
`Seekable` (`seek_none_false`, `seek_empty_false`). -/
theorem stream_position_partial {σ : Type} (E : Enc σ) (c : Codec) (hc : c.Lossless) (o : WOpts) (ho : o.Sound) (hi : o.writeIndex = true)
    (e : σ) (vs1 vs2 : List GoVal) (e1 e2 : σ) (out1 out2 : Bytes) (he1 : E.run e (vs1.map .encode) = .ok (e1, out1))
    (he2 : E.run e1 (vs2.map .encode ++ [.flush]) = .ok (e2, out2)) :
    ∃ pos size body chunk off, writeStreamAt E c o e vs1 vs2 = .ok (pos, size, body) ∧
      splitPosition o.kind pos = (chunk, off, E.getPosition e1) ∧
      ∀ pre post p l b, Seekable o size body →
        ∃ r, ((streamAt o pre body post).used p l b).seek c chunk off = .ok r ∧ r.Represents c out2 := by
  obtain ⟨w1, w2, w3, g1, g2, g3, g4, g5, ⟨cs, g6⟩, chunk, off, g7, g8⟩ :=
    position_spec E c hc o ho hi (newStreamWriter o e) (newStreamWriter_inv c o ho e) rfl vs1 vs2 e1 e2 out1 out2 he1 he2
  refine ⟨w1.getPosition E o, w1.size o, (w3.writeOut o).2, chunk, off, ?_, g7, fun pre post p l b hsk => ?_⟩
  · simp only [writeStreamAt, g1, g2, g3, Res.ok_bind, Res.pure_eq]
  · obtain ⟨w1', k1, k2, -, -⟩ := stream_size_partial E c hc o ho e e1 vs1 out1 (by simpa [Enc.encodeMany] using he1)
    rw [g1] at k1
    cases k1
    obtain ⟨r', f1, f2, -⟩ := g8 pre post ((streamAt o pre (w3.writeOut o).2 post).used p l b) ⟨rfl, rfl, rfl, rfl, rfl⟩ (by
      rcases hsk with ⟨hk, hs⟩ | ⟨hk, hs⟩
      · exact .inl ⟨hk, by rw [← k2 hk]; exact hs⟩
      · refine .inr ⟨hk, fun hnil => hs ?_⟩
        simp only [StreamBody, hk] at g6
        obtain ⟨i1, i2, i3⟩ := g6
        cases cs with
        | nil => rw [i1]; rfl
        | cons ch cs =>
          have hne := List.length_pos_iff.mpr (i3 ch (by simp)).2.2.2.1
          rw [hnil] at i2
          have := congrArg List.length i2
          simp only [chunkPlain, List.flatMap_cons, List.length_append, List.length_nil] at this
          omega)
    exact ⟨r', f1, f2⟩

/-- Without `WriteIndex` there are no positions. -/
theorem stream_position_off {σ : Type} (E : Enc σ) (o : WOpts) (w : StreamWriter σ) (hi : o.writeIndex = false) :
    w.getPosition E o = [] := by simp [StreamWriter.getPosition, hi]

/-- **C33** (partial) Byte streams. -/
theorem byte_stream_seek_partial (c : Codec) (hc : c.Lossless) (o : WOpts) (ho : o.Sound) (hi : o.writeIndex = true) (vs1 vs2 : List Byte) :
    ∃ pos size body chunk off n, writeStreamAt byteEnc c o (newByteEncoder true) (vs1.map .u8) (vs2.map .u8) = .ok (pos, size, body) ∧
      splitPosition o.kind pos = (chunk, off, [n]) ∧
      ∀ pre post p l b old, Seekable o size body →
        ∃ r, ByteReader.seekByte c ⟨(streamAt o pre body post).used p l b, old⟩ chunk off n = .ok r ∧
          ReadsAll (ByteReader.nextByte c) BlockReader.finished r vs2 := by
  have hm : ∀ vs : List Byte, (vs.map GoVal.u8).map EncOp.encode = (vs.map some).map byteOp := by
    intro vs; simp [byteOp, Function.comp_def]
  obtain ⟨e1, out1, pre1, g1, g2, g3, g4, g5, g6⟩ := (newByteEncoder true).run_spec (newByteEncoder_wf true) (vs1.map some)
  obtain ⟨e2, out2, pre2, k1, k2, k3, k4, -⟩ := e1.run_spec g2 (vs2.map some)
  obtain ⟨out3, f1, f2⟩ := e2.flush_spec k2
  have hpos : e1.position = (e1.values.length : Int) := by
    rcases List.eq_nil_or_concat vs1 with rfl | ⟨init, last, rfl⟩
    · simp only [List.map_nil, Enc.run, Res.ok.injEq, Prod.mk.injEq] at g1
      rw [← g1.1]; rfl
    · rw [List.concat_eq_append, List.map_append, List.map_append, Enc.run_append] at g1
      obtain ⟨⟨ea, oa⟩, h1, h⟩ := Res.bind_ok_inv g1
      obtain ⟨⟨eb, ob⟩, h2, h⟩ := Res.bind_ok_inv h
      simp only [Res.pure_eq, Res.ok.injEq, Prod.mk.injEq] at h
      obtain ⟨ea', oa', prea, i1, i2, -, -, -, i6⟩ := (newByteEncoder true).run_spec (newByteEncoder_wf true) (init.map some)
      rw [h1] at i1
      cases i1
      obtain ⟨eb', ob', preb, j1, j2, -, -, j5⟩ := ea.encode_spec i2 last
      have : eb = eb' := by
        simp only [List.map_cons, List.map_nil, byteOp, Enc.run, Enc.step, byteEnc, j1, Res.ok_bind, Res.pure_eq, Res.ok.injEq,
          Prod.mk.injEq] at h2
        exact h2.1.symm
      have hp := i6 (by simp [newByteEncoder])
      rw [← h.1, this, j5, if_pos (by omega)]
  have hfl : byteEnc.run e1 ((vs2.map GoVal.u8).map EncOp.encode ++ [EncOp.flush]) = .ok ({ e2 with values := [] }, out2 ++ out3) := by
    rw [hm, Enc.run_append, k1]
    simp [Enc.run, Enc.step, byteEnc, f1]
  rw [← hm] at g1
  obtain ⟨pos, size, body, chunk, off, h1, h2, h3⟩ :=
    stream_position_partial byteEnc c hc o ho hi (newByteEncoder true) (vs1.map .u8) (vs2.map .u8) _ _ _ _ g1 hfl
  have hwf := g2
  simp only [ByteEnc.WF] at hwf
  refine ⟨pos, size, body, chunk, off, e1.values.length, h1, ?_, fun pre post p l b old hsk => ?_⟩
  · rw [h2]
    simp only [byteEnc, ByteEnc.getPosition, hpos, intToU64]
    have : ((e1.values.length : Int) % 2 ^ 64).toNat = e1.values.length := by omega
    rw [this]
  · obtain ⟨s, i1, i2⟩ := h3 pre post p l b hsk
    have hd : Decodes decodeByteRL (out2 ++ out3) (e1.values ++ vs2) := by
      have : e1.values ++ vs2 = pre2 ++ e2.values := by rw [← k3]; simp [List.filterMap_map]
      rw [this]; exact k4.append f2
    obtain ⟨r, j1, j2, -⟩ := BlockReader.seek_spec goodBlocks_byte (r := ⟨(streamAt o pre body post).used p l b, old⟩) i1 i2 e1.values vs2 hd
    refine ⟨r, j1, ?_, ?_⟩
    · obtain ⟨r', k1, k2, -⟩ := BlockReader.yields_spec goodBlocks_byte vs2 [] (r := r) (c := c) (by rw [List.append_nil]; exact j2)
      exact ⟨r', k1, BlockReader.end_spec goodBlocks_byte k2⟩
    · rintro a b rfl
      obtain ⟨r', k1, k2, -⟩ := BlockReader.yields_spec goodBlocks_byte a b j2
      exact ⟨r', k1, BlockReader.finished_spec goodBlocks_byte k2⟩

/-- **C33** (partial) Boolean streams: the reader continues with the next value (and after the last one with the padding). -/
theorem bool_stream_seek_partial (c : Codec) (hc : c.Lossless) (o : WOpts) (ho : o.Sound) (hi : o.writeIndex = true) (vs1 vs2 : List Bool) :
    ∃ pos size body chunk off n m, writeStreamAt boolEnc c o (newBoolEncoder true) (vs1.map .bool) (vs2.map .bool) = .ok (pos, size, body) ∧
      splitPosition o.kind pos = (chunk, off, [n, m]) ∧
      ∀ pre post p l b old old', Seekable o size body →
        ∃ r, BoolReader.seek c ⟨⟨(streamAt o pre body post).used p l b, old⟩, old'⟩ chunk off n m = .ok r ∧
          ReadsAll (BoolReader.next c) BoolReader.finished r (vs2 ++ padding (vs1 ++ vs2).length) := by
  obtain ⟨e1, out1, pre1, h1, h2, h3, h4, h5, h6, h7, h8, h9, -⟩ :=
    boolEnc_run_encode (newBoolEncoder true) 0 (by omega) rfl (newByteEncoder_wf true) vs1
  obtain ⟨pb, c1, c2, c3⟩ := feed_clean [] vs1 (by simp)
  have hv0 : (newBoolEncoder true).value = packByte [] := rfl
  rw [hv0] at h3 h5 h6 h7 h8
  simp only [List.length_nil, List.nil_append] at c1 c3
  simp only [c1] at h5 h6 h7 h8
  obtain ⟨e2, out2, g1, -, -, -, g5⟩ := boolEnc_group e1 pb.length c2 h5 h2 vs2
  rw [h6] at g5
  have hcl := fedBytes_clean pb vs2 c2
  have hbl : ∀ l : Bytes, (List.flatMap boolsOfByte l).length = 8 * l.length := by
    intro l
    induction l with
    | nil => simp
    | cons a l ih => rw [List.flatMap_cons, List.length_append, ih, boolsOfByte_length]; simp; omega
  have hrun : boolEnc.run (newBoolEncoder true) ((vs1.map GoVal.bool).map EncOp.encode) = .ok (e1, out1) := by
    rw [← h1]; simp [Function.comp_def]
  obtain ⟨pos, size, body, chunk, off, k1, k2, k3⟩ :=
    stream_position_partial boolEnc c hc o ho hi (newBoolEncoder true) (vs1.map .bool) (vs2.map .bool) _ _ _ _ hrun g1
  refine ⟨pos, size, body, chunk, off, e1.brl.values.length, pb.length, k1, ?_, fun pre post p l b old old' hsk => ?_⟩
  · rw [k2]
    have hb : e1.brl.position = e1.brl.values.length := h9 rfl
    have hp : e1.position = pb.length := h8 rfl
    have := h2
    simp only [ByteEnc.WF] at this
    simp only [boolEnc, BoolEnc.getPosition, hb, hp, intToU64]
    have e1 : ((e1.brl.values.length : Int) % 2 ^ 64).toNat = e1.brl.values.length := by omega
    have e2 : ((pb.length : Int) % 2 ^ 64).toNat = pb.length := by omega
    rw [e1, e2]
  · obtain ⟨s, i1, i2⟩ := k3 pre post p l b hsk
    have hpad : padding (pb ++ vs2).length = padding (vs1 ++ vs2).length := by
      have h8' : vs1.length = 8 * (feed 0 (packByte []) vs1).1.length + pb.length := by
        have := congrArg List.length c3
        simpa [hbl] using this
      simp only [padding, List.length_append]
      congr 2
      omega
    have hbytes := hcl.1
    rw [hpad, List.append_assoc] at hbytes
    obtain ⟨r, j1, j2, -⟩ := BoolReader.seek_spec (r := ⟨⟨(streamAt o pre body post).used p l b, old⟩, old'⟩) i1 i2 _ _ g5 _ _ hbytes
    refine ⟨r, j1, ?_, ?_⟩
    · obtain ⟨r', k1, k2, -⟩ := BoolReader.yields_spec (vs2 ++ padding (vs1 ++ vs2).length) [] (by rw [List.append_nil]; exact j2)
      exact ⟨r', k1, BoolReader.end_spec k2⟩
    · rintro a b hab
      rw [hab] at j2
      obtain ⟨r', k1, k2, -⟩ := BoolReader.yields_spec a b j2
      exact ⟨r', k1, BoolReader.finished_spec k2⟩

/-! ### Integers -/

theorem RunSafe.append {e e1 : IntEnc} {a b : List EncOp} {out : Bytes} (h : RunSafe e (a ++ b)) (hr : intEnc.run e a = .ok (e1, out)) :
    RunSafe e a ∧ RunSafe e1 b := by
  induction a generalizing e out with
  | nil =>
    simp only [Enc.run, Res.ok.injEq, Prod.mk.injEq] at hr
    rw [← hr.1]
    exact ⟨trivial, h⟩
  | cons op a ih =>
    simp only [Enc.run] at hr
    obtain ⟨⟨e2, o2⟩, h1, hr⟩ := Res.bind_ok_inv hr
    obtain ⟨⟨e3, o3⟩, h2, hr⟩ := Res.bind_ok_inv hr
    simp only [Res.pure_eq, Res.ok.injEq, Prod.mk.injEq] at hr
    obtain ⟨rfl, -⟩ := hr
    cases op with
    | encode v =>
      have hs : RunSafe e2 (a ++ b) := h.2 e2 o2 h1
      have := ih hs h2
      refine ⟨⟨h.1, fun e' out' he' => ?_⟩, this.2⟩
      have h1' : e.encode v = .ok (e2, o2) := h1
      rw [h1'] at he'
      cases he'
      exact this.1
    | flush =>
      have hs : RunSafe e2 (a ++ b) := h.2 e2 o2 h1
      have := ih hs h2
      refine ⟨⟨h.1, fun e' out' he' => ?_⟩, this.2⟩
      have h1' : e.flush = .ok (e2, o2) := h1
      rw [h1'] at he'
      cases he'
      exact this.1

theorem intRun_position {e e' : IntEnc} {vs : List GoVal} {out : Bytes} (hp : e.position = (e.values.length : Int))
    (h : intEnc.run e (vs.map EncOp.encode) = .ok (e', out)) : e'.position = (e'.values.length : Int) := by
  induction vs generalizing e out with
  | nil =>
    simp only [List.map_nil, Enc.run, Res.ok.injEq, Prod.mk.injEq] at h
    rw [← h.1]; exact hp
  | cons v vs ih =>
    simp only [List.map_cons, Enc.run] at h
    obtain ⟨⟨e2, o2⟩, h1, h⟩ := Res.bind_ok_inv h
    obtain ⟨⟨e3, o3⟩, h2, h⟩ := Res.bind_ok_inv h
    simp only [Res.pure_eq, Res.ok.injEq, Prod.mk.injEq] at h
    rw [h.1] at h2
    refine ih ?_ h2
    simp only [Enc.step, intEnc, IntEnc.encode] at h1
    obtain ⟨raw, g1, h1⟩ := Res.bind_ok_inv h1
    obtain ⟨⟨o, r⟩, g2, h1⟩ := Res.bind_ok_inv h1
    simp only [Res.pure_eq, Res.ok.injEq, Prod.mk.injEq] at h1
    rw [← h1.1]
    simp only
    rw [if_pos (by omega)]

/-- An `int64` or `uint64` argument. -/
def intVal (signed : Bool) (v : U64) : GoVal := if signed then .i64 v else .u64 v

theorem rawInts_intVal (signed : Bool) (vs : List U64) (tail : List EncOp) : rawInts signed ((vs.map (intVal signed)).map EncOp.encode ++ tail) =
    vs.map (fun v => if signed then zigzag v else v) ++ rawInts signed tail := by
  induction vs with
  | nil => rfl
  | cons v vs ih => cases signed <;> simp_all [intVal, rawInts]

theorem map_unraw (signed : Bool) (vs : List U64) :
    (if signed then (vs.map (fun v => if signed then zigzag v else v)).map unZigzag else vs.map (fun v => if signed then zigzag v else v)) = vs := by
  cases signed with
  | false => simp
  | true =>
    simp only [if_true, List.map_map]
    conv => rhs; rw [← List.map_id vs]
    apply List.map_congr_left
    intro x _
    simp [unZigzag_zigzag]

/-- Encoding `vs1`, then `vs2` and flushing: what the encoder holds in between and what its later output says. -/
theorem intEnc_split (signed p : Bool) (vs1 vs2 : List U64) (e2 : IntEnc) (out : Bytes)
    (h : intEnc.run (newIntRLV2 signed p) (((vs1 ++ vs2).map (intVal signed)).map EncOp.encode ++ [EncOp.flush]) = .ok (e2, out))
    (hs : RunSafe (newIntRLV2 signed p) (((vs1 ++ vs2).map (intVal signed)).map EncOp.encode ++ [EncOp.flush])) :
    ∃ e1 out1 out2 before pending, intEnc.run (newIntRLV2 signed p) ((vs1.map (intVal signed)).map EncOp.encode) = .ok (e1, out1) ∧
      intEnc.run e1 ((vs2.map (intVal signed)).map EncOp.encode ++ [EncOp.flush]) = .ok (e2, out2) ∧ out = out1 ++ out2 ∧
      vs1 = before ++ pending ∧ e1.values.length = pending.length ∧ Decodes (IntReader.dec signed) out1 before ∧
      Decodes (IntReader.dec signed) out2 (pending ++ vs2) ∧ e2.values = [] := by
  rw [List.map_append] at h hs
  obtain ⟨e1, out1, out2, h1, h2, rfl⟩ := run_encode_only h
  rw [List.map_append, List.append_assoc] at hs
  obtain ⟨hs1, hs2⟩ := hs.append h1
  obtain ⟨k1, used1, k2, k3⟩ := intRun_decodes _ _ _ _ h1 hs1
  obtain ⟨k4, used2, k5, k6⟩ := intRun_decodes _ _ _ _ h2 hs2
  have hsg : (newIntRLV2 signed p).signed = signed := rfl
  rw [hsg] at k1 k2 k3
  rw [k1] at k4 k5 k6
  have hv : e2.values = [] := by
    rw [Enc.run_append] at h2
    obtain ⟨⟨ea, oa⟩, i1, h2⟩ := Res.bind_ok_inv h2
    obtain ⟨⟨eb, ob⟩, i2, h2⟩ := Res.bind_ok_inv h2
    simp only [Enc.run] at i2
    obtain ⟨⟨ec, oc⟩, i3, i2⟩ := Res.bind_ok_inv i2
    simp only [Res.ok_bind, Res.pure_eq, Res.ok.injEq, Prod.mk.injEq] at h2 i2
    rw [← h2.1, ← i2.1]
    exact flush_values _ _ _ i3
  have r1 := rawInts_intVal signed vs1 []
  have r2 := rawInts_intVal signed vs2 [.flush]
  simp only [rawInts, List.append_nil] at r1 r2
  rw [r1] at k2
  rw [r2, hv, List.append_nil] at k5
  simp only [newIntRLV2, List.nil_append] at k2
  have hb := decodes_typed signed out1 used1 k3
  have hp := decodes_typed signed out2 used2 k6
  have hlen := congrArg List.length k2
  simp only [List.length_map, List.length_append] at hlen
  have hu1 : used1 = (vs1.take used1.length).map (fun v => if signed then zigzag v else v) := by
    rw [List.map_take, k2, List.take_left]
  have hu2 : e1.values = (vs1.drop used1.length).map (fun v => if signed then zigzag v else v) := by
    rw [List.map_drop, k2, List.drop_left]
  refine ⟨e1, out1, out2, vs1.take used1.length, vs1.drop used1.length, h1, h2, rfl, (List.take_append_drop _ _).symm, ?_, ?_, ?_, hv⟩
  · rw [List.length_drop]; omega
  · have hm := map_unraw signed (vs1.take used1.length)
    rw [← hu1] at hm
    rw [← hm]; exact hb
  · have hm := map_unraw signed (vs1.drop used1.length ++ vs2)
    rw [List.map_append, ← hu2, k5] at hm
    rw [← hm]; exact hp

/-- **C33** (partial) Integer streams: if the values are encoded without an error under the side conditions of C22
(`RunSafe`), seeking to the position taken after `vs1` makes the reader continue with `vs2`. -/
theorem int_stream_seek_partial (signed : Bool) (c : Codec) (hc : c.Lossless) (o : WOpts) (ho : o.Sound) (hi : o.writeIndex = true)
    (vs1 vs2 : List U64) (hlen : vs1.length < 2 ^ 64) (e2 : IntEnc) (out : Bytes)
    (h : intEnc.run (newIntRLV2 signed true) (((vs1 ++ vs2).map (intVal signed)).map EncOp.encode ++ [EncOp.flush]) = .ok (e2, out))
    (hs : RunSafe (newIntRLV2 signed true) (((vs1 ++ vs2).map (intVal signed)).map EncOp.encode ++ [EncOp.flush])) :
    ∃ pos size body chunk off n,
      writeStreamAt intEnc c o (newIntRLV2 signed true) (vs1.map (intVal signed)) (vs2.map (intVal signed)) = .ok (pos, size, body) ∧
      splitPosition o.kind pos = (chunk, off, [n]) ∧
      ∀ pre post p l b old, Seekable o size body →
        ∃ r, IntReader.seek c ⟨signed, ⟨(streamAt o pre body post).used p l b, old⟩⟩ chunk off n = .ok r ∧
          ReadsAll (if signed then IntReader.nextInt64 c else IntReader.nextUInt64 c) IntReader.finished r vs2 := by
  obtain ⟨e1, out1, out2, before, pending, h1, h2, rfl, h4, h5, h6, h7, h8⟩ := intEnc_split signed true vs1 vs2 e2 out h hs
  obtain ⟨pos, size, body, chunk, off, g1, g2, g3⟩ :=
    stream_position_partial intEnc c hc o ho hi (newIntRLV2 signed true) _ _ _ _ _ _ h1 h2
  have hpos := intRun_position (e := newIntRLV2 signed true) rfl h1
  have hle : pending.length ≤ vs1.length := by rw [h4]; simp
  refine ⟨pos, size, body, chunk, off, pending.length, g1, ?_, fun pre post p l b old hsk => ?_⟩
  · rw [g2]
    simp only [intEnc, IntEnc.getPosition, hpos, intToU64]
    have : ((e1.values.length : Int) % 2 ^ 64).toNat = pending.length := by omega
    rw [this]
  · obtain ⟨s, i1, i2⟩ := g3 pre post p l b hsk
    obtain ⟨r, j1, j2, -, j4⟩ := IntReader.seek_spec (r := ⟨signed, ⟨(streamAt o pre body post).used p l b, old⟩⟩) i1 i2 pending vs2 h7
    refine ⟨r, j1, ?_⟩
    have hall : ReadsAll (IntReader.next c) IntReader.finished r vs2 := by
      refine ⟨?_, ?_⟩
      · obtain ⟨r', k1, k2, -⟩ := IntReader.yields_spec vs2 [] (by rw [List.append_nil]; exact j2)
        exact ⟨r', k1, IntReader.end_spec k2⟩
      · rintro a b rfl
        obtain ⟨r', k1, k2, -⟩ := IntReader.yields_spec a b j2
        exact ⟨r', k1, IntReader.finished_spec k2⟩
    simp only at j4
    cases signed with
    | true =>
      simp only [if_true]
      refine hall.mono (fun ws r' hy => (yields_int j4).mp hy) (fun ws r' hy he => ?_)
      obtain ⟨x, he⟩ := he
      exact ⟨x, by rw [← he]; simp only [IntReader.next, yields_signed hy, j4, if_true]⟩
    | false =>
      simp only [Bool.false_eq_true, if_false]
      refine hall.mono (fun ws r' hy => (yields_uint j4).mp hy) (fun ws r' hy he => ?_)
      obtain ⟨x, he⟩ := he
      exact ⟨x, by rw [← he]; simp only [IntReader.next, yields_signed hy, j4, Bool.false_eq_true, if_false]⟩

/-! ### Encodings without state -/

theorem stateless_runs {α : Type} (E : Enc Unit) (f : GoVal → Res Bytes)
    (he : ∀ s v, E.encode s v = (f v >>= fun bs => pure ((), bs)))
    (hf : ∀ s, E.flush s = .ok ((), [])) (inj : α → GoVal) (g : α → Bytes) (hg : ∀ a, f (inj a) = .ok (g a)) (vs : List α) :
    E.run () ((vs.map inj).map EncOp.encode) = .ok ((), vs.flatMap g) ∧
    E.run () ((vs.map inj).map EncOp.encode ++ [EncOp.flush]) = .ok ((), vs.flatMap g) := by
  constructor
  · refine Eq.trans ?_ ((stateless_run E f he hf inj g hg (vs.map some)).trans ?_)
    · congr 1
      simp [List.map_map, Function.comp_def]
    · simp
  · refine Eq.trans ?_ ((stateless_run E f he hf inj g hg (vs.map some ++ [none])).trans ?_)
    · congr 1
      simp [List.map_map, Function.comp_def]
    · simp

theorem scalar_seek_core {α : Type} (E : Enc Unit) (f : GoVal → Res Bytes) (he : ∀ s v, E.encode s v = (f v >>= fun bs => pure ((), bs)))
    (hf : ∀ s, E.flush s = .ok ((), [])) (inj : α → GoVal) (put : α → Bytes) (hg : ∀ a, f (inj a) = .ok (put a)) (d : Dec α)
    (hd : ∀ v rest, d.runBuf (put v ++ rest) = .ok (v, rest)) (hend : d.runBuf [] = .err .eof) (c : Codec) (hc : c.Lossless) (o : WOpts)
    (ho : o.Sound) (hi : o.writeIndex = true) (vs1 vs2 : List α) :
    ∃ pos size body chunk off, writeStreamAt E c o () (vs1.map inj) (vs2.map inj) = .ok (pos, size, body) ∧
      splitPosition o.kind pos = (chunk, off, E.getPosition ()) ∧
      ∀ pre post p l b, Seekable o size body →
        ∃ r, ((streamAt o pre body post).used p l b).seek c chunk off = .ok r ∧
          ReadsAll (Dec.runStream c d) StreamReader.finished r vs2 := by
  have hput : ∀ v, put v ≠ [] := by
    intro v hv
    have := hd v []
    rw [hv, List.append_nil, hend] at this
    cases this
  obtain ⟨pos, size, body, chunk, off, g1, g2, g3⟩ :=
    stream_position_partial E c hc o ho hi () (vs1.map inj) (vs2.map inj) _ _ _ _ (stateless_runs E f he hf inj put hg vs1).1
      (stateless_runs E f he hf inj put hg vs2).2
  refine ⟨pos, size, body, chunk, off, g1, g2, fun pre post p l b hsk => ?_⟩
  obtain ⟨r, i1, i2⟩ := g3 pre post p l b hsk
  refine ⟨r, i1, ?_, ?_⟩
  · obtain ⟨r', k1, k2, -⟩ := scalar_yields d put hd vs2 [] (r := r) (c := c) (by rw [List.append_nil]; exact i2)
    exact ⟨r', k1, scalar_end d put hend k2⟩
  · rintro a b rfl
    obtain ⟨r', k1, k2, -⟩ := scalar_yields d put hd a b (r := r) (c := c) i2
    exact ⟨r', k1, scalar_finished put hput k2⟩

/-- **C33** (partial) Varint streams; the position has a superfluous last number, which the reader ignores. -/
theorem varint_stream_seek_partial (c : Codec) (hc : c.Lossless) (o : WOpts) (ho : o.Sound) (hi : o.writeIndex = true) (vs1 vs2 : List U64) :
    ∃ pos size body chunk off, writeStreamAt varintEnc c o () (vs1.map .i64) (vs2.map .i64) = .ok (pos, size, body) ∧
      splitPosition o.kind pos = (chunk, off, [1]) ∧
      ∀ pre post p l b n, Seekable o size body →
        ∃ r, seekVarint c ((streamAt o pre body post).used p l b) chunk off n = .ok r ∧
          ReadsAll (nextVarint c) StreamReader.finished r vs2 := by
  obtain ⟨pos, size, body, chunk, off, g1, g2, g3⟩ :=
    scalar_seek_core varintEnc varintEncode (fun _ _ => rfl) (fun _ => rfl) GoVal.i64 (fun v => uvarintBytes 9 (zigzag v)) varintEncode_i64
      decodeVarInt64 (fun v rest => readVarint_zigzag v rest) rfl c hc o ho hi vs1 vs2
  exact ⟨pos, size, body, chunk, off, g1, g2, fun pre post p l b n => g3 pre post p l b⟩

/-- **C33** (partial) Float streams. -/
theorem float_stream_seek_partial (c : Codec) (hc : c.Lossless) (o : WOpts) (ho : o.Sound) (hi : o.writeIndex = true)
    (vs1 vs2 : List (BitVec 32)) :
    ∃ pos size body chunk off, writeStreamAt floatEnc c o () (vs1.map .f32) (vs2.map .f32) = .ok (pos, size, body) ∧
      splitPosition o.kind pos = (chunk, off, []) ∧
      ∀ pre post p l b, Seekable o size body →
        ∃ r, FloatReader.seek c ⟨false, (streamAt o pre body post).used p l b⟩ chunk off = .ok r ∧
          ReadsAll (FloatReader.nextFloat c) (fun r => r.stream.finished) r vs2 := by
  obtain ⟨pos, size, body, chunk, off, g1, g2, g3⟩ :=
    scalar_seek_core floatEnc floatEncode (fun _ _ => rfl) (fun _ => rfl) GoVal.f32 putBE32 (fun _ => rfl)
      decodeFloat (fun v rest => decodeFloat_put v rest) rfl c hc o ho hi vs1 vs2
  refine ⟨pos, size, body, chunk, off, g1, g2, fun pre post p l b hsk => ?_⟩
  obtain ⟨r, i1, i2⟩ := g3 pre post p l b hsk
  refine ⟨⟨false, r⟩, by simp only [FloatReader.seek, i1]; rfl, readsAll_float _ (fun r hr => ?_) i2⟩
  simp only [FloatReader.nextFloat, hr, Bool.false_eq_true, if_false]

/-- **C33** (partial) Double streams. -/
theorem double_stream_seek_partial (c : Codec) (hc : c.Lossless) (o : WOpts) (ho : o.Sound) (hi : o.writeIndex = true)
    (vs1 vs2 : List (BitVec 64)) :
    ∃ pos size body chunk off, writeStreamAt doubleEnc c o () (vs1.map .f64) (vs2.map .f64) = .ok (pos, size, body) ∧
      splitPosition o.kind pos = (chunk, off, []) ∧
      ∀ pre post p l b, Seekable o size body →
        ∃ r, FloatReader.seek c ⟨true, (streamAt o pre body post).used p l b⟩ chunk off = .ok r ∧
          ReadsAll (FloatReader.nextDouble c) (fun r => r.stream.finished) r vs2 := by
  obtain ⟨pos, size, body, chunk, off, g1, g2, g3⟩ :=
    scalar_seek_core doubleEnc doubleEncode (fun _ _ => rfl) (fun _ => rfl) GoVal.f64 putLE64 (fun _ => rfl)
      decodeDouble (fun v rest => decodeDouble_put v rest) rfl c hc o ho hi vs1 vs2
  refine ⟨pos, size, body, chunk, off, g1, g2, fun pre post p l b hsk => ?_⟩
  obtain ⟨r, i1, i2⟩ := g3 pre post p l b hsk
  refine ⟨⟨true, r⟩, by simp only [FloatReader.seek, i1]; rfl, readsAll_float _ (fun r hr => ?_) i2⟩
  simp only [FloatReader.nextDouble, hr, Bool.not_true, Bool.false_eq_true, if_false]

/-- **C33** (partial) String contents. -/
theorem string_stream_seek_partial (c : Codec) (hc : c.Lossless) (o : WOpts) (ho : o.Sound) (hi : o.writeIndex = true)
    (vs1 vs2 : List Bytes) (hfit : ∀ v ∈ vs2, v.length < 2 ^ 63) :
    ∃ pos size body chunk off, writeStreamAt stringEnc c o () (vs1.map .bytes) (vs2.map .bytes) = .ok (pos, size, body) ∧
      splitPosition o.kind pos = (chunk, off, []) ∧
      ∀ pre post p l b, Seekable o size body →
        ∃ r r', ((streamAt o pre body post).used p l b).seek c chunk off = .ok r ∧ YieldsStrings c r vs2 r' ∧ r'.finished = true := by
  have hr := fun vs => stateless_runs stringEnc stringEncode (fun _ _ => rfl) (fun _ => rfl) GoVal.bytes id (fun _ => rfl) vs
  obtain ⟨pos, size, body, chunk, off, g1, g2, g3⟩ :=
    stream_position_partial stringEnc c hc o ho hi () (vs1.map .bytes) (vs2.map .bytes) _ _ _ _ (hr vs1).1 (hr vs2).2
  refine ⟨pos, size, body, chunk, off, g1, g2, fun pre post p l b hsk => ?_⟩
  obtain ⟨r, i1, i2⟩ := g3 pre post p l b hsk
  obtain ⟨r', k1, k2, -⟩ := strings_yields vs2 [] (r := r) (c := c) hfit (by rw [List.append_nil]; exact i2)
  exact ⟨r, r', i1, k1, (finished_iff c r' _ k2).mpr rfl⟩

/-! ### Where seeking fails -/

/-- **C33** is false without compression: with chunk size 3, after writing "abcde" the position is 5; seeking there and
reading one byte gives "d", not the "f" written next. -/
theorem seek_none_false :
    writeStreamAt stringEnc growCodec ⟨.none, 3, true⟩ () [.bytes [97, 98, 99, 100, 101]] [.bytes [102]] =
      .ok ([5], 5, [97, 98, 99, 100, 101, 102]) ∧
    ((streamAt ⟨.none, 3, true⟩ [] [97, 98, 99, 100, 101, 102] []).seek growCodec 0 5 >>= fun r =>
      nextBytes growCodec r 1 >>= fun p => pure p.1) = .ok [100] := ⟨by decide +kernel, by decide +kernel⟩

/-- **C33** is false for an empty compressed stream: its only position cannot be sought to at the end of the file, and
anywhere else seeking reads the bytes behind the stream. -/
theorem seek_empty_false : writeStreamAt stringEnc runCodec ⟨.zlib, 3, true⟩ () [] [] = .ok ([0, 0], 0, []) ∧
    (streamAt ⟨.zlib, 3, true⟩ [1, 2, 3] [] []).seek runCodec 0 0 = .err .eof ∧
    ((streamAt ⟨.zlib, 3, true⟩ [1, 2, 3] [] [3, 0, 0, 55]).seek runCodec 0 0 >>= fun r =>
      nextBytes runCodec r 1 >>= fun p => pure (r.finished, p.1)) = .ok (false, [55]) :=
  ⟨by decide +kernel, by decide +kernel, by decide +kernel⟩

/-- Three strings in three chunks, sought to in the middle of the second. -/
example : ∃ pos size body, writeStreamAt stringEnc runCodec ⟨.zlib, 3, true⟩ () [.bytes [7, 7, 7, 7], .bytes [1]] [.bytes [2, 3, 3]] =
    .ok (pos, size, body) ∧ pos = [5, 2] ∧ Seekable ⟨.zlib, 3, true⟩ size body :=
  ⟨_, _, _, rfl, rfl, .inr ⟨rfl, by decide⟩⟩

/-- An integer history to which `int_stream_seek_partial` applies. -/
example : RunSafe (newIntRLV2 false true) ((([7] ++ [1] : List U64).map (intVal false)).map EncOp.encode ++ [EncOp.flush]) := by
  refine ⟨fun _ _ h => absurd h (by decide), ?_⟩
  intro e1 o1 h1
  cases h1
  refine ⟨fun _ _ h => absurd h (by decide), ?_⟩
  intro e2 o2 h2
  cases h2
  refine ⟨fun _ => Or.inr ⟨by decide, 7, by decide, by decide⟩, ?_⟩
  intro e3 o3 _
  trivial

/-! The theorems of this file on a compressed stream in chunks of three bytes. -/
theorem exSeekOpts_sound : WOpts.Sound ⟨.zlib, 3, true⟩ := by simp [WOpts.Sound]
example := bool_stream_seek_partial runCodec runCodec_lossless ⟨.zlib, 3, true⟩ exSeekOpts_sound rfl [true, false, true] [false]
example := byte_stream_seek_partial runCodec runCodec_lossless ⟨.zlib, 3, true⟩ exSeekOpts_sound rfl [7, 7, 7, 7, 1] [2, 3]
example := double_stream_seek_partial runCodec runCodec_lossless ⟨.zlib, 3, true⟩ exSeekOpts_sound rfl [0x400921fb54442d18] [0]
example := float_stream_seek_partial runCodec runCodec_lossless ⟨.zlib, 3, true⟩ exSeekOpts_sound rfl [0x40490fdb] [0]
example := string_stream_seek_partial runCodec runCodec_lossless ⟨.zlib, 3, true⟩ exSeekOpts_sound rfl [[7, 7, 7, 7], [1]] [[2, 3, 3]] (by simp)
example := varint_stream_seek_partial runCodec runCodec_lossless ⟨.zlib, 3, true⟩ exSeekOpts_sound rfl [300, 0] [-1]
example := stream_position_partial stringEnc runCodec runCodec_lossless ⟨.zlib, 3, true⟩ exSeekOpts_sound rfl ()
  [.bytes [7, 7, 7, 7], .bytes [1]] [.bytes [2, 3, 3]] () () _ _ rfl rfl

end Goorc
