import Verif.Proofs.ColSeek
namespace Goorc

/-! ### Integers in the middle -/

theorem int_split {signed : Bool} {vs1 vs2 : List U64} {e1 e2 : IntEnc} {out1 out2 : Bytes} (h : EncodesSafely (intVal signed) signed (vs1 ++ vs2))
    (h1 : intEnc.run (newIntRLV2 signed true) ((vs1.map (intVal signed)).map .encode) = .ok (e1, out1))
    (h2 : intEnc.run e1 ((vs2.map (intVal signed)).map .encode ++ [.flush]) = .ok (e2, out2)) :
    ∃ pending, intEnc.getPosition e1 = [pending.length] ∧ (vs1 = [] → pending = []) ∧ Decodes (IntReader.dec signed) out2 (pending ++ vs2) := by
  obtain ⟨hlen, hs, e, out, hrun⟩ := h
  obtain ⟨e1', out1', out2', before, pending, g1, g2, g3, g4, g5, g6, g7, g8⟩ := intEnc_split signed true vs1 vs2 e out hrun hs
  rw [h1] at g1
  cases g1
  rw [h2] at g2
  cases g2
  have hpos := intRun_position (e := newIntRLV2 signed true) rfl h1
  have hle : pending.length ≤ vs1.length := by rw [g4]; simp
  simp only [List.length_append] at hlen
  refine ⟨pending, ?_, ?_, g7⟩
  · simp only [intEnc, IntEnc.getPosition, hpos, intToU64]
    have : ((e1.values.length : Int) % 2 ^ 64).toNat = pending.length := by omega
    rw [this]
  · rintro rfl
    exact List.length_eq_zero_iff.mp (by simpa using hle)

theorem int_whole {signed : Bool} {vs : List U64} {e : IntEnc} {out : Bytes} (h : EncodesSafely (intVal signed) signed vs)
    (h1 : intEnc.run (newIntRLV2 signed true) ((vs.map (intVal signed)).map .encode ++ [.flush]) = .ok (e, out)) :
    Decodes (IntReader.dec signed) out vs := by
  obtain ⟨pending, -, h2, h3⟩ := int_split (vs1 := []) (vs2 := vs) (e1 := newIntRLV2 signed true) (out1 := []) (by simpa using h) rfl h1
  rw [h2 rfl] at h3
  exact h3

section
variable {c : Codec} (hc : c.Lossless) {o : WOpts} (ho : o.Sound) (hi : o.writeIndex = true)
include hc ho hi

theorem byte_data_seeks (vs : List Byte) :
    DataSeeks byteKind byteRead c o (fun src r => True ∧ ∃ t, src .data = some t ∧ t.Same r.stream) (byteKind.newData o) (vs.map .u8) (vs.map .u8) := by
  have hd : (newStreamWriter o (newByteEncoder o.writeIndex)).Clean c o CleanByte := newStreamWriter_clean c o ho _ _ ⟨newByteEncoder_wf _, rfl⟩
  obtain ⟨e', out, h1, h2, h3⟩ := byte_run_clean _ hd.2.2 vs
  have hm : ∀ (r r' : ByteReader) ws, Yields (ByteReader.nextByte c) r ws r' → Yields (byteRead.next c) r (ws.map .u8) r' := by
    intro r r' ws k
    refine Yields.map (next := ByteReader.nextByte c) GoVal.u8 (fun r v r' hn => ?_) k
    simp only [byteRead, hn, Res.ok_bind, Res.pure_eq]
  refine oneStream_seeks (K := byteKind) (R := byteRead) (E := byteEnc) (k := .data) hc ho hi rfl (by decide) 1 rfl (fun r => r.stream) (fun _ => True) (fun r x r' h => ?_) _ CleanByte hd id _ _
    (fun _ _ _ => rfl) e' out (by rw [List.map_id]; exact h1) (fun src s hs => ⟨⟨s, []⟩, by simp [byteRead, hs], rfl, trivial, fun hr => ?_⟩)
    (fun n hn e1 out1 out2 k1 k2 _ => ?_)
  · simp only [byteRead] at h
    obtain ⟨⟨b, r1⟩, h1, h⟩ := Res.bind_ok_inv h
    simp only [Res.pure_eq, Res.ok.injEq, Prod.mk.injEq] at h
    rw [← h.2]; exact ⟨BlockReader.next_same h1, Iff.rfl⟩
  · obtain ⟨r', k, -⟩ := BlockReader.yields_spec goodBlocks_byte vs [] (r := ⟨s, []⟩) (c := c) (by rw [List.append_nil]; exact .fresh hr h2)
    exact ⟨r', hm _ _ _ k⟩
  · simp only [List.map_id, newStreamWriter, hi] at k1 k2
    rw [← List.map_take] at k1
    rw [← List.map_drop] at k2
    obtain ⟨p1, p2, p3⟩ := byte_split k1 k2
    refine ⟨by rw [p1]; rfl, fun h0 => by rw [p1, p2 (by simp [h0])]; rfl, fun r s chunk off _ hs hr => ?_⟩
    obtain ⟨r', j1, j2, j3⟩ := BlockReader.seek_spec goodBlocks_byte hs hr _ _ p3
    obtain ⟨r'', j4, -⟩ := BlockReader.yields_spec goodBlocks_byte (vs.drop n) [] (by rw [List.append_nil]; exact j2)
    refine ⟨r', r'', by rw [p1]; exact j1, j3, trivial, ?_⟩
    rw [← List.map_drop]
    exact hm _ _ _ j4

theorem bool_data_seeks (vs : List Bool) :
    DataSeeks boolKind boolRead c o (fun src r => True ∧ ∃ t, src .data = some t ∧ t.Same r.reader.stream) (boolKind.newData o) (vs.map .bool)
      (vs.map .bool) := by
  have hd : (newStreamWriter o (newBoolEncoder o.writeIndex)).Clean c o CleanBool :=
    newStreamWriter_clean c o ho _ _ ⟨rfl, newByteEncoder_wf _, rfl, rfl⟩
  obtain ⟨e', out, bytes, h1, h2, h3, h4⟩ := bool_run_clean _ hd.2.2 vs
  have hm : ∀ (r r' : BoolReader) ws, Yields (BoolReader.next c) r ws r' → Yields (boolRead.next c) r (ws.map .bool) r' := by
    intro r r' ws k
    refine Yields.map (next := BoolReader.next c) GoVal.bool (fun r v r' hn => ?_) k
    simp only [boolRead, hn, Res.ok_bind, Res.pure_eq]
  refine oneStream_seeks (K := boolKind) (R := boolRead) (E := boolEnc) (k := .data) hc ho hi rfl (by decide) 2 rfl (fun r => r.reader.stream) (fun _ => True) (fun r x r' h => ?_) _ CleanBool hd id _ _
    (fun _ _ _ => rfl) e' out (by rw [List.map_id]; exact h1) (fun src s hs => ⟨newBoolReader s, by simp [boolRead, hs], rfl, trivial, fun hr => ?_⟩)
    (fun n hn e1 out1 out2 k1 k2 _ => ?_)
  · simp only [boolRead] at h
    obtain ⟨⟨b, r1⟩, h1, h⟩ := Res.bind_ok_inv h
    simp only [Res.pure_eq, Res.ok.injEq, Prod.mk.injEq] at h
    rw [← h.2]; exact ⟨BoolReader.next_same h1, Iff.rfl⟩
  · have hr := BoolReader.fresh hr h2
    rw [h3] at hr
    obtain ⟨r', k, -⟩ := BoolReader.yields_spec vs _ hr
    exact ⟨r', hm _ _ _ k⟩
  · simp only [List.map_id, newStreamWriter, hi] at k1 k2
    rw [← List.map_take] at k1
    rw [← List.map_drop] at k2
    obtain ⟨a, b, p1, p2, p3⟩ := bool_seeks (c := c) k1 k2
    refine ⟨by rw [p1]; rfl, fun h0 => ?_, fun r s chunk off _ hs hr => ?_⟩
    · obtain ⟨rfl, rfl⟩ := p2 (by simp [h0])
      exact p1
    · obtain ⟨r', r'', j1, j2, j3⟩ := p3 r s chunk off hs hr
      refine ⟨r', r'', by rw [p1]; exact j1, j2, trivial, ?_⟩
      rw [← List.map_drop]
      exact hm _ _ _ j3

theorem int_data_seeks (bits : IntBits) (vs : List U64) (hf : ∀ v ∈ vs, bits.fits v) (hb : EncodesSafely .i64 true vs) :
    DataSeeks (intKind bits) (intRead bits) c o (fun src r => r.signed = true ∧ ∃ t, src .data = some t ∧ t.Same r.block.stream)
      ((intKind bits).newData o) (vs.map bits.read) (vs.map bits.read) := by
  have hinj : (intVal true) = GoVal.i64 := rfl
  rw [← hinj] at hb
  obtain ⟨e', out, h1⟩ := hb.2.2
  have h2 := int_whole hb h1
  rw [hinj] at h1
  have hg : ∀ ws : List U64, (∀ v ∈ ws, bits.fits v) →
      (ws.map bits.read).map (fun v => match bits.value v with | .ok x => GoVal.i64 x | _ => .i64 0) = ws.map .i64 := by
    intro ws hf
    rw [List.map_map]
    refine List.map_congr_left fun v hv => ?_
    simp only [Function.comp_apply, bits.value_inj v (hf v hv)]
  have hm : ∀ (r r' : IntReader) ws, Yields (IntReader.nextInt64 c) r ws r' → Yields ((intRead bits).next c) r (ws.map bits.read) r' := by
    intro r r' ws k
    refine Yields.map (next := IntReader.nextInt64 c) bits.read (fun r v r' hn => ?_) k
    simp only [intRead, hn, Res.ok_bind, Res.pure_eq]
  have hd : (newStreamWriter o (newIntRLV2 true o.writeIndex)).Clean c o (CleanInt true) := newStreamWriter_clean c o ho _ _ ⟨rfl, rfl⟩
  refine oneStream_seeks (K := intKind bits) (R := intRead bits) (E := intEnc) (k := .data) hc ho hi rfl (by simp [intRead]) 1 rfl (fun r => r.block.stream) (fun r => r.signed = true) (fun r x r' h => ?_) _
    (CleanInt true) hd (fun v => match bits.value v with | .ok x => GoVal.i64 x | _ => .i64 0) _ _ (fun v hv d => ?_) e' out
    (by rw [hg vs hf]; simp only [newStreamWriter, hi]; exact h1)
    (fun src s hs => ⟨newIntReader true s, by simp [intRead, hs], rfl, rfl, fun hr => ?_⟩) (fun n hn e1 out1 out2 k1 k2 _ => ?_)
  · simp only [intRead] at h
    obtain ⟨⟨b, r1⟩, h1, h⟩ := Res.bind_ok_inv h
    simp only [Res.pure_eq, Res.ok.injEq, Prod.mk.injEq] at h
    obtain ⟨g1, g2⟩ := IntReader.nextInt64_same h1
    rw [← h.2]; exact ⟨g1, by rw [g2]⟩
  · obtain ⟨x, hx, rfl⟩ := List.mem_map.mp hv
    simp only [intKind, bits.value_inj x (hf x hx), Res.ok_bind]
  · obtain ⟨r', k, -⟩ := intReader_yields hr h2
    exact ⟨r', hm _ _ _ k⟩
  · simp only [newStreamWriter, hi] at k1 k2
    rw [← List.map_take, hg _ (fun v hv => hf v (List.mem_of_mem_take hv))] at k1
    rw [← List.map_drop, hg _ (fun v hv => hf v (List.mem_of_mem_drop hv))] at k2
    obtain ⟨pending, p1, p2, p3⟩ := int_split (signed := true) (vs1 := vs.take n) (vs2 := vs.drop n) (by rw [List.take_append_drop]; exact hb) k1 k2
    refine ⟨by rw [p1]; rfl, fun h0 => by rw [p1, p2 (by simp [h0])]; rfl, fun r s chunk off hsg hs hr => ?_⟩
    obtain ⟨r', j1, j2, j3, j4⟩ := IntReader.seek_spec hs hr _ _ (by rw [hsg]; exact p3)
    obtain ⟨r'', j5, -⟩ := IntReader.yields_spec (vs.drop n) [] (by rw [List.append_nil]; exact j2)
    refine ⟨r', r'', by rw [p1]; exact j1, j3, by rw [j4, hsg], ?_⟩
    rw [← List.map_drop]
    exact hm _ _ _ ((yields_int (by rw [j4, hsg])).mp j5)

theorem double_data_seeks (A : Arith) (vs : List (BitVec 64)) :
    DataSeeks (floatKind A true) (floatRead true) c o (fun src r => r.is64 = true ∧ ∃ t, src .data = some t ∧ t.Same r.stream)
      ((floatKind A true).newData o) (vs.map .f64) (vs.map .f64) := by
  have h1 := stateless_runs doubleEnc doubleEncode (fun _ _ => rfl) (fun _ => rfl) GoVal.f64 putLE64 (fun _ => rfl)
  have hd : (newStreamWriter o ()).Clean c o (fun _ => True) := newStreamWriter_clean c o ho _ _ trivial
  have hm : ∀ (s : StreamReader) (ws : List (BitVec 64)), s.Represents c (ws.flatMap putLE64) → ∃ r', Yields ((floatRead true).next c) ⟨true, s⟩ (ws.map .f64) r' := by
    intro s ws hr
    obtain ⟨s', k, -⟩ := scalar_yields decodeDouble putLE64 (fun v rest => decodeDouble_put v rest) ws [] (r := s) (c := c) (by rw [List.append_nil]; exact hr)
    refine ⟨⟨true, s'⟩, Yields.float _ .f64 (fun s v s' hn => ?_) k⟩
    simp only [floatRead, if_true, FloatReader.nextDouble, Bool.not_true, Bool.false_eq_true, if_false, hn, Res.ok_bind, Res.pure_eq]
  refine oneStream_seeks (K := floatKind A true) (R := floatRead true) (E := doubleEnc) (k := .data) hc ho hi rfl (by simp [floatRead]) 0 rfl (fun r => r.stream) (fun r => r.is64 = true) (fun r x r' h => ?_) _
    (fun _ => True) hd id _ _ (fun _ _ _ => rfl) () (vs.flatMap putLE64) (by rw [List.map_id]; exact (h1 vs).2)
    (fun src s hs => ⟨⟨true, s⟩, by simp [floatRead, hs], rfl, rfl, fun hr => ?_⟩) (fun n hn e1 out1 out2 k1 k2 _ => ?_)
  · simp only [floatRead, if_true] at h
    obtain ⟨⟨b, r1⟩, h1, h⟩ := Res.bind_ok_inv h
    simp only [Res.pure_eq, Res.ok.injEq, Prod.mk.injEq] at h
    simp only [FloatReader.nextDouble] at h1
    split at h1
    · cases h1
    · obtain ⟨⟨x1, s1⟩, h2, h1⟩ := Res.bind_ok_inv h1
      simp only [Res.pure_eq, Res.ok.injEq, Prod.mk.injEq] at h1
      rw [← h.2, ← h1.2]; exact ⟨runStream_same _ h2, Iff.rfl⟩
  · exact hm s vs hr
  · simp only [List.map_id] at k1 k2
    rw [← List.map_drop, (h1 _).2] at k2
    cases k2
    refine ⟨rfl, fun _ => rfl, fun r s chunk off h64 hs hr => ?_⟩
    obtain ⟨r'', j⟩ := hm s _ hr
    refine ⟨⟨true, s⟩, r'', ?_, StreamReader.Same.refl _, rfl, by rw [← List.map_drop]; exact j⟩
    have : (floatRead true).seek c r [(chunk, off, doubleEnc.getPosition ())] = r.seek c chunk off := rfl
    rw [this]
    simp only [FloatReader.seek, hs, Res.ok_bind, Res.pure_eq]
    rw [h64]

theorem string_data_seeks (vs : List Bytes) (hfit : ∀ v ∈ vs, v.length < 2 ^ 63)
    (hb : EncodesSafely .u64 false (vs.map fun v => BitVec.ofNat 64 v.length)) :
    DataSeeks stringKind stringRead c o (fun src r => r.length.signed = false ∧ (∃ t, src .data = some t ∧ t.Same r.data) ∧
      ∃ t, src .length = some t ∧ t.Same r.length.block.stream) (stringKind.newData o) (vs.map .str) (vs.map .str) := by
  have hinj : (intVal false) = GoVal.u64 := rfl
  rw [← hinj] at hb
  obtain ⟨f', out', h1⟩ := hb.2.2
  have h2 := int_whole hb h1
  rw [hinj] at h1
  have hst := stateless_runs stringEnc stringEncode (fun _ _ => rfl) (fun _ => rfl) GoVal.bytes id (fun _ => rfl)
  have hd1 : (newStreamWriter o ()).Clean c o (fun _ => True) := newStreamWriter_clean c o ho _ _ trivial
  have hd2 : (newStreamWriter o (newIntRLV2 false o.writeIndex)).Clean c o (CleanInt false) := newStreamWriter_clean c o ho _ _ ⟨rfl, rfl⟩
  have hm : ∀ (r r' : TextReader) ws, Yields (TextReader.next c) r ws r' → Yields (stringRead.next c) r (ws.map .str) r' := by
    intro r r' ws k
    refine Yields.map (next := TextReader.next c) GoVal.str (fun r v r' hn => ?_) k
    simp only [stringRead, hn, Res.ok_bind, Res.pure_eq]
  have hg1 : ∀ ws : List Bytes, (ws.map GoVal.str).map (fun v => match v with | .str s => GoVal.bytes s | _ => .bytes []) = ws.map .bytes := by
    intro ws; simp [Function.comp_def]
  have hg2 : ∀ ws : List Bytes, (ws.map GoVal.str).map (fun v => match v with | .str s => GoVal.u64 (BitVec.ofNat 64 s.length) | _ => .u64 0) =
      (ws.map fun v => BitVec.ofNat 64 v.length).map .u64 := by
    intro ws; simp [Function.comp_def]
  refine twoStreams_seeks (K := stringKind) (R := stringRead) (E := stringEnc) (F := intEnc) (k := .data) (l := .length) hc ho hi rfl (by decide) (by decide) (by decide) 0 1 rfl (fun r => r.data)
    (fun r => r.length.block.stream) (fun r => r.length.signed = false) (fun r x r' h => ?_)
    (newStreamWriter o (), newStreamWriter o (newIntRLV2 false o.writeIndex)) (fun _ => True) (CleanInt false) hd1 hd2
    (fun v => match v with | .str s => GoVal.bytes s | _ => .bytes []) (fun v => match v with | .str s => GoVal.u64 (BitVec.ofNat 64 s.length) | _ => .u64 0)
    _ _ (fun v hv d a b ha hb' => ?_) () (vs.flatMap id) (by rw [hg1]; exact (hst vs).2) f' out'
    (by rw [hg2]; simp only [newStreamWriter, hi]; exact h1)
    (fun src s t hs ht => ⟨⟨s, newIntReader false t⟩, by simp [stringRead, hs, ht], rfl, rfl, rfl, fun hr hr' => ?_⟩)
    (fun n hn e1 out1 out2 k1 k2 _ f1 out1' out2' k3 k4 _ => ?_)
  · simp only [stringRead] at h
    obtain ⟨⟨b, r1⟩, h1, h⟩ := Res.bind_ok_inv h
    simp only [Res.pure_eq, Res.ok.injEq, Prod.mk.injEq] at h
    simp only [TextReader.next] at h1
    obtain ⟨⟨l, len⟩, h2, h1⟩ := Res.bind_ok_inv h1
    obtain ⟨⟨b', dd⟩, h3, h1⟩ := Res.bind_ok_inv h1
    simp only [Res.pure_eq, Res.ok.injEq, Prod.mk.injEq] at h1
    obtain ⟨g1, g2⟩ := IntReader.nextUInt64_same h2
    rw [← h.2, ← h1.2]
    refine ⟨?_, g1, by rw [g2]⟩
    simp only [nextBytes] at h3
    split at h3
    · exact runStream_same _ h3
    · cases h3
  · obtain ⟨x, hx, rfl⟩ := List.mem_map.mp hv
    simp only [StreamWriter.writes] at ha hb'
    obtain ⟨a', ha1, ha2⟩ := Res.bind_ok_inv ha
    obtain ⟨b', hb1, hb2⟩ := Res.bind_ok_inv hb'
    simp only [Res.ok.injEq] at ha2 hb2
    subst ha2 hb2
    simp only [stringKind, ha1, hb1, Res.ok_bind, Res.pure_eq]
  · obtain ⟨len', k, -⟩ := uintReader_yields hr' h2
    obtain ⟨s', j⟩ := text_yields vs hr k hfit
    exact ⟨_, hm _ _ _ j⟩
  · simp only [newStreamWriter, hi] at k3 k4
    rw [← List.map_drop, hg1, (hst _).2] at k2
    cases k2
    rw [← List.map_take, hg2] at k3
    rw [← List.map_drop, hg2] at k4
    obtain ⟨pending, p1, p2, p3⟩ := int_split (signed := false) (vs1 := (vs.take n).map fun v : Bytes => BitVec.ofNat 64 v.length)
      (vs2 := (vs.drop n).map fun v : Bytes => BitVec.ofNat 64 v.length) (by rw [← List.map_append, List.take_append_drop]; exact hb) k3 k4
    refine ⟨rfl, fun _ => rfl, by rw [p1]; rfl, fun h0 => by rw [p1, p2 (by simp [h0])]; rfl, fun r s t chunk off chunk' off' hsg hs hr ht hr' => ?_⟩
    obtain ⟨r', j1, j2, j3, j4⟩ := IntReader.seek_spec ht hr' _ _ (by rw [hsg]; exact p3)
    obtain ⟨r'', j5, -⟩ := IntReader.yields_spec _ [] (by rw [List.append_nil]; exact j2)
    have hyu := (yields_uint (by rw [j4, hsg])).mp j5
    obtain ⟨s', j6⟩ := text_yields (vs.drop n) hr hyu (fun v hv => hfit v (List.mem_of_mem_drop hv))
    refine ⟨⟨s, r'⟩, _, ?_, StreamReader.Same.refl _, j3, by rw [j4, hsg], by rw [← List.map_drop]; exact hm _ _ _ j6⟩
    rw [p1]
    have : stringRead.seek c r [(chunk, off, stringEnc.getPosition ()), (chunk', off', [pending.length])] = TextReader.seek c r [(chunk, off, []), (chunk', off', [pending.length])] := rfl
    rw [this]
    simp only [TextReader.seek, hs, j1, Res.ok_bind, Res.pure_eq]

theorem date_data_seeks (ts : List Int) (hb : EncodesSafely .i64 true (ts.map fun t => (toDays t).signExtend 64)) :
    DataSeeks dateKind dateRead c o (fun src r => True ∧ ∃ t, src .data = some t ∧ t.Same r.stream) (dateKind.newData o) (ts.map .date)
      (ts.map fun t => .date (fromDays (toDays t))) := by
  have hinj : (intVal true) = GoVal.i64 := rfl
  rw [← hinj] at hb
  obtain ⟨e', out, h1⟩ := hb.2.2
  have h2 := int_whole hb h1
  rw [hinj] at h1
  have hdec : ∀ out (ws : List U64), Decodes (IntReader.dec true) out ws → Decodes decodeDates out (ws.map fun v => fromDays (v.setWidth 32)) := by
    intro out ws h
    exact Decodes.map (d' := decodeDates) (fun v : U64 => fromDays (v.setWidth 32)) (fun s vs r h => by
      have h : (decodeInt true).runBuf s = .ok (vs, r) := h
      simp only [decodeDates, Dec.runBuf_bind, h, Res.ok_bind, Dec.pure_eq, Dec.runBuf_ret]) h
  have e : ∀ x : BitVec 32, (x.signExtend 64).setWidth 32 = x := fun x => by
    ext i hi
    rw [BitVec.getElem_setWidth, BitVec.getLsbD_signExtend]
    simp [hi, show i < 64 by omega]
  have hback : ∀ us : List Int, (us.map fun t => (toDays t).signExtend 64).map (fun v : U64 => fromDays (v.setWidth 32)) = us.map fun t => fromDays (toDays t) := by
    intro us; simp [Function.comp_def, e]
  have hm : ∀ (r r' : DateReader) (us : List Int), Yields (DateReader.nextDate c) r (us.map fun t => fromDays (toDays t)) r' →
      Yields (dateRead.next c) r (us.map fun t => .date (fromDays (toDays t))) r' := by
    intro r r' us k
    have := Yields.map (next := DateReader.nextDate c) (next' := dateRead.next c) GoVal.date (fun r v r' hn => by
      simp only [dateRead, hn, Res.ok_bind, Res.pure_eq]) k
    rw [List.map_map] at this
    exact this
  have hg : ∀ us : List Int, (us.map GoVal.date).map (fun v => match v with | .date t => GoVal.i64 ((toDays t).signExtend 64) | _ => .i64 0) =
      (us.map fun t => (toDays t).signExtend 64).map .i64 := by
    intro us; simp [Function.comp_def]
  have hd : (newStreamWriter o (newIntRLV2 true o.writeIndex)).Clean c o (CleanInt true) := newStreamWriter_clean c o ho _ _ ⟨rfl, rfl⟩
  refine oneStream_seeks (K := dateKind) (R := dateRead) (E := intEnc) (k := .data) hc ho hi rfl (by decide) 1 rfl (fun r => r.stream) (fun _ => True) (fun r x r' h => ?_) _
    (CleanInt true) hd (fun v => match v with | .date t => GoVal.i64 ((toDays t).signExtend 64) | _ => .i64 0) _ _ (fun v hv d => ?_) e' out
    (by rw [hg]; simp only [newStreamWriter, hi]; exact h1)
    (fun src s hs => ⟨⟨s, []⟩, by simp [dateRead, hs], rfl, trivial, fun hr => ?_⟩) (fun n hn e1 out1 out2 k1 k2 _ => ?_)
  · simp only [dateRead] at h
    obtain ⟨⟨b, r1⟩, h1, h⟩ := Res.bind_ok_inv h
    simp only [Res.pure_eq, Res.ok.injEq, Prod.mk.injEq] at h
    rw [← h.2]; exact ⟨BlockReader.next_same h1, Iff.rfl⟩
  · obtain ⟨x, hx, rfl⟩ := List.mem_map.mp hv
    rfl
  · have h4 := hdec _ _ h2
    rw [hback] at h4
    obtain ⟨r', k, -⟩ := BlockReader.yields_spec goodBlocks_dates _ [] (r := ⟨s, []⟩) (c := c) (by rw [List.append_nil]; exact .fresh hr h4)
    exact ⟨r', hm _ _ _ k⟩
  · simp only [newStreamWriter, hi] at k1 k2
    rw [← List.map_take, hg] at k1
    rw [← List.map_drop, hg] at k2
    obtain ⟨pending, p1, p2, p3⟩ := int_split (signed := true) (vs1 := (ts.take n).map fun t => (toDays t).signExtend 64)
      (vs2 := (ts.drop n).map fun t => (toDays t).signExtend 64) (by rw [← List.map_append, List.take_append_drop]; exact hb) k1 k2
    have p4 := hdec _ _ p3
    rw [List.map_append, hback] at p4
    refine ⟨by rw [p1]; rfl, fun h0 => by rw [p1, p2 (by simp [h0])]; rfl, fun r s chunk off _ hs hr => ?_⟩
    obtain ⟨r', j1, j2, j3⟩ := BlockReader.seek_spec goodBlocks_dates hs hr _ _ p4
    rw [List.length_map] at j1
    obtain ⟨r'', j4, -⟩ := BlockReader.yields_spec goodBlocks_dates _ [] (by rw [List.append_nil]; exact j2)
    refine ⟨r', r'', by rw [p1]; exact j1, j3, trivial, ?_⟩
    rw [← List.map_drop]
    exact hm _ _ _ j4

end

end Goorc
