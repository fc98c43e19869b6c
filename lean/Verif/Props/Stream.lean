import Verif.Proofs.StreamTyped
import Verif.Props.EncBool
import Verif.Props.EncScalar
import Verif.Props.EncInt
import Verif.Props.Chunk
/-
C31-C35: streams.
-/
namespace Goorc

/-- Whatever the encoder produces, the stream stands for. -/
theorem writeStream_spec {σ : Type} (E : Enc σ) (c : Codec) (hc : c.Lossless) (o : WOpts) (ho : o.Sound) (e : σ) (vs : List GoVal)
    (out : Bytes) (h : E.encodeFlush e vs = .ok out) :
    ∃ body, writeStream E c o e vs = .ok body ∧ ∀ pre post, (streamAt o pre body post).Represents c out := by
  simp only [Enc.encodeFlush] at h
  obtain ⟨⟨e', out'⟩, h1, h2⟩ := Res.bind_ok_inv h
  simp only [Res.pure_eq, Res.ok.injEq] at h2
  subst h2
  obtain ⟨w1, w2, cs, g1, g2, g3, g4, g5, -⟩ :=
    stream_spec E c hc o ho (newStreamWriter o e) (newStreamWriter_inv c o ho e) rfl vs e' out' h1
  refine ⟨(w2.writeOut o).2, ?_, fun pre post => ?_⟩
  · simp only [writeStream, g1, g2, Res.ok_bind, Res.pure_eq]
  · exact newStreamReader_represents c o.kind o.chunkSize pre _ post out' (g4.feed ho post)

/-- **C31** Whatever encoder is behind a stream and however its output was cut into chunks: every program of `ReadByte`
and `Read` calls run on the stream (anywhere in a file) does what it does on the encoder's plain output, succeeding or
failing alike; and the end is reported exactly when nothing is left. -/
theorem stream_bytes {σ : Type} (E : Enc σ) (c : Codec) (hc : c.Lossless) (o : WOpts) (ho : o.Sound) (e : σ) (vs : List GoVal)
    (out : Bytes) (h : E.encodeFlush e vs = .ok out) :
    ∃ body, writeStream E c o e vs = .ok body ∧ ∀ (pre post : Bytes) (α : Type) (d : Dec α),
      (∀ a rest, d.runBuf out = .ok (a, rest) →
        ∃ r, d.runStream c (streamAt o pre body post) = .ok (a, r) ∧ (r.finished = true ↔ rest = [])) ∧
      (∀ x, d.runBuf out = .err x → ∃ y, d.runStream c (streamAt o pre body post) = .err y) ∧
      (d.runBuf out = .panic → d.runStream c (streamAt o pre body post) = .panic) := by
  obtain ⟨body, h1, h2⟩ := writeStream_spec E c hc o ho e vs out h
  refine ⟨body, h1, fun pre post α d => ⟨fun a rest hr => ?_, fun x hr => ?_, fun hr => ?_⟩⟩
  · obtain ⟨r, g1, g2, -⟩ := runStream_ok c d _ _ (h2 pre post) a rest hr
    exact ⟨r, g1, finished_iff c r rest g2⟩
  · have := runStream_sim c d _ _ (h2 pre post)
    rw [hr] at this; exact this
  · have := runStream_sim c d _ _ (h2 pre post)
    rw [hr] at this; exact this

/-- A stream of nine strings in chunks of three bytes, read as one string of nine bytes. -/
example : ∃ body, writeStream stringEnc runCodec ⟨.zlib, 3, true⟩ () [.bytes [7, 7, 7, 7], .bytes [1, 2], .bytes [3, 3, 3]] = .ok body ∧
    body = [4, 0, 0, 7, 3] ++ [7, 0, 0, 7, 1, 2] ++ [4, 0, 0, 3, 3] ∧
    ((Dec.full 9).runStream runCodec (streamAt ⟨.zlib, 3, true⟩ [9] body [8, 8])).isOk = true := ⟨_, rfl, by decide +kernel, by decide +kernel⟩

/-! ### C32 -/

/-- **C32** The length in the stream's info after `Flush` is the number of bytes `WriteOut` emits (`w.length` is the
info's length field). -/
theorem stream_length {σ : Type} (E : Enc σ) (c : Codec) (hc : c.Lossless) (o : WOpts) (ho : o.Sound) (e : σ) (vs : List GoVal)
    (out : Bytes) (h : E.encodeFlush e vs = .ok out) :
    ∃ w w', (newStreamWriter o e).writes E c o vs = .ok w ∧ w.flush E c o = .ok w' ∧ w'.length = (w'.writeOut o).2.length := by
  simp only [Enc.encodeFlush] at h
  obtain ⟨⟨e', out'⟩, h1, h2⟩ := Res.bind_ok_inv h
  obtain ⟨w1, w2, cs, g1, g2, g3, g4, g5, -⟩ :=
    stream_spec E c hc o ho (newStreamWriter o e) (newStreamWriter_inv c o ho e) rfl vs e' out' h1
  exact ⟨w1, w2, g1, g2, g5⟩

/-- **C32** (partial) `Size` counts what the encoder has emitted so far: without compression exactly the number of
bytes, with compression it is zero exactly if nothing was emitted. Missing: values the encoder still holds, which it does
not count (`stream_size_false`). -/
theorem stream_size_partial {σ : Type} (E : Enc σ) (c : Codec) (hc : c.Lossless) (o : WOpts) (ho : o.Sound) (e e' : σ) (vs : List GoVal)
    (out : Bytes) (h : E.encodeMany e vs = .ok (e', out)) :
    ∃ w, (newStreamWriter o e).writes E c o vs = .ok w ∧
      (o.kind = .none → w.size o = out.length) ∧ (w.size o = 0 ↔ out = []) ∧
      (out.length ≤ o.chunkSize → w.size o = out.length) := by
  obtain ⟨w, cs, g1, g2, g3, g4, -, g6⟩ := writes_spec E c hc o ho vs (newStreamWriter o e) [] (newStreamWriter_inv c o ho e) e' out h
  simp only [newStreamWriter, List.nil_append] at g2 g4
  refine ⟨w, g1, ?_⟩
  obtain ⟨hk | hk, h1, h2⟩ := ho
  · simp only [StreamWriter.Inv, hk] at g2
    obtain ⟨-, rfl⟩ := g2
    simp only [chunkPlain, List.flatMap_nil, List.nil_append] at g4
    simp only [StreamWriter.size, hk, if_true, g4, List.length_eq_zero_iff, implies_true, and_true]
  · simp only [StreamWriter.Inv, hk] at g2
    obtain ⟨i1, i2, i3, i4⟩ := g2
    simp only [StreamWriter.size, hk, i1, Option.getD_some]
    rw [if_neg (by decide)]
    refine ⟨by simp, ?_, ?_⟩
    · cases cs with
      | nil =>
        simp only [chunkPlain, List.flatMap_nil, List.nil_append] at g4
        simp [chunkBytes, g4]
      | cons ch cs =>
        have hch := g6 ch (by simp)
        constructor
        · intro hz
          simp [chunkBytes, ChunkSpec.bytes, threeBytes] at hz
        · rintro rfl
          have := congrArg List.length g4
          simp only [chunkPlain, List.flatMap_cons, List.length_append, List.length_nil] at this
          omega
    · intro hl
      cases cs with
      | nil =>
        simp only [chunkPlain, List.flatMap_nil, List.nil_append] at g4
        simp [chunkBytes, g4]
      | cons ch cs =>
        have hch := g6 ch (by simp)
        have hne := i4 (by simp)
        have hlen := List.length_pos_iff.mpr hne
        have := congrArg List.length g4
        simp only [chunkPlain, List.flatMap_cons, List.length_append] at this
        omega

/-- **C32** is false for `Size`: after writing a byte the size is 0, although three bytes will be written out. -/
theorem stream_size_false : ∃ w w', (newStreamWriter ⟨.none, 100, false⟩ (newByteEncoder false)).writes byteEnc growCodec ⟨.none, 100, false⟩
    [.u8 5] = .ok w ∧ w.size ⟨.none, 100, false⟩ = 0 ∧ w.flush byteEnc growCodec ⟨.none, 100, false⟩ = .ok w' ∧
    w'.size ⟨.none, 100, false⟩ = 2 := ⟨_, _, rfl, rfl, rfl, rfl⟩

/-! ### C34, C35 -/

theorem byte_encodeFlush (p : Bool) (vs : List Byte) :
    ∃ out, byteEnc.encodeFlush (newByteEncoder p) (vs.map .u8) = .ok out ∧ Decodes decodeByteRL out vs := by
  obtain ⟨e', out', pre', g1, g2, g3, g4, -⟩ := (newByteEncoder p).run_spec (newByteEncoder_wf p) (vs.map some)
  obtain ⟨out2, k1, k2⟩ := e'.flush_spec g2
  have hm : (vs.map some).map byteOp = (vs.map GoVal.u8).map EncOp.encode := by
    simp [byteOp, Function.comp_def]
  refine ⟨out' ++ out2, ?_, ?_⟩
  · simp only [Enc.encodeFlush, Enc.run_append, ← hm, g1, Res.ok_bind]
    simp [Enc.run, Enc.step, byteEnc, k1]
  · have hv : vs = pre' ++ e'.values := by
      rw [← g3]; simp [newByteEncoder, List.filterMap_map]
    rw [hv]
    exact g4.append k2

/-- **C34, C35** Byte streams. -/
theorem byte_stream_roundtrip (c : Codec) (hc : c.Lossless) (o : WOpts) (ho : o.Sound) (vs : List Byte) :
    ∃ body, writeStream byteEnc c o (newByteEncoder o.writeIndex) (vs.map .u8) = .ok body ∧ ∀ pre post,
      ReadsAll (ByteReader.nextByte c) BlockReader.finished ⟨streamAt o pre body post, []⟩ vs := by
  obtain ⟨out, h1, h2⟩ := byte_encodeFlush o.writeIndex vs
  obtain ⟨body, g1, g2⟩ := writeStream_spec byteEnc c hc o ho _ _ out h1
  refine ⟨body, g1, fun pre post => ⟨?_, ?_⟩⟩
  · obtain ⟨r', k1, k2, -⟩ := BlockReader.yields_spec goodBlocks_byte vs [] (r := ⟨streamAt o pre body post, []⟩) (c := c)
      (by rw [List.append_nil]; exact .fresh (g2 pre post) h2)
    exact ⟨r', k1, BlockReader.end_spec goodBlocks_byte k2⟩
  · rintro a b rfl
    obtain ⟨r', k1, k2, -⟩ := BlockReader.yields_spec goodBlocks_byte a b (r := ⟨streamAt o pre body post, []⟩) (c := c)
      (.fresh (g2 pre post) h2)
    exact ⟨r', k1, BlockReader.finished_spec goodBlocks_byte k2⟩

theorem bool_encodeFlush (p : Bool) (bs : List Bool) :
    ∃ out bytes, boolEnc.encodeFlush (newBoolEncoder p) (bs.map .bool) = .ok out ∧ Decodes decodeByteRL out bytes ∧
      bytes.flatMap boolsOfByte = bs ++ padding bs.length := by
  obtain ⟨e, out, h1, -, -, -, h5⟩ := boolEnc_group (newBoolEncoder p) 0 (by omega) rfl (newByteEncoder_wf p) bs
  refine ⟨out, _, by simp only [Enc.encodeFlush, h1, Res.ok_bind, Res.pure_eq], h5, ?_⟩
  have := (fedBytes_clean [] bs (by simp)).1
  simp only [List.nil_append] at this
  rw [← this]; rfl

/-- **C34, C35** (partial) Boolean streams: the reader delivers the values and then the up to seven `false` that complete
the last byte; `Finished` becomes true only after those. So it is true at the end of the values exactly if their number is
a multiple of eight. -/
theorem bool_stream_roundtrip_partial (c : Codec) (hc : c.Lossless) (o : WOpts) (ho : o.Sound) (bs : List Bool) :
    ∃ body, writeStream boolEnc c o (newBoolEncoder o.writeIndex) (bs.map .bool) = .ok body ∧ ∀ pre post,
      ReadsAll (BoolReader.next c) BoolReader.finished (newBoolReader (streamAt o pre body post)) (bs ++ padding bs.length) := by
  obtain ⟨out, bytes, h1, h2, h3⟩ := bool_encodeFlush o.writeIndex bs
  obtain ⟨body, g1, g2⟩ := writeStream_spec boolEnc c hc o ho _ _ out h1
  refine ⟨body, g1, fun pre post => ?_⟩
  have hr := BoolReader.fresh (g2 pre post) h2
  rw [h3] at hr
  refine ⟨?_, ?_⟩
  · obtain ⟨r', k1, k2, -⟩ := BoolReader.yields_spec (bs ++ padding bs.length) [] (by rw [List.append_nil]; exact hr)
    exact ⟨r', k1, BoolReader.end_spec k2⟩
  · rintro a b hab
    rw [hab] at hr
    obtain ⟨r', k1, k2, -⟩ := BoolReader.yields_spec a b hr
    exact ⟨r', k1, BoolReader.finished_spec k2⟩

/-- **C35** is false for booleans: one value written and read, and the stream is not finished. -/
theorem bool_stream_finished_false : ∃ body r, writeStream boolEnc growCodec ⟨.none, 100, false⟩ (newBoolEncoder false) [.bool true] = .ok body ∧
    (newBoolReader (streamAt ⟨.none, 100, false⟩ [] body [])).next growCodec = .ok (true, r) ∧ r.finished = false :=
  ⟨_, _, rfl, rfl, rfl⟩

theorem int_stream_core (signed : Bool) (c : Codec) (hc : c.Lossless) (o : WOpts) (ho : o.Sound) (inj : U64 → GoVal) (vs : List U64)
    (out : Bytes) (h1 : intEnc.encodeFlush (newIntRLV2 signed o.writeIndex) (vs.map inj) = .ok out)
    (h2 : Decodes (IntReader.dec signed) out vs) :
    ∃ body, writeStream intEnc c o (newIntRLV2 signed o.writeIndex) (vs.map inj) = .ok body ∧ ∀ pre post,
      ReadsAll (IntReader.next c) IntReader.finished (newIntReader signed (streamAt o pre body post)) vs := by
  obtain ⟨body, g1, g2⟩ := writeStream_spec intEnc c hc o ho _ _ out h1
  refine ⟨body, g1, fun pre post => ?_⟩
  have hr := IntReader.fresh (g2 pre post) h2
  refine ⟨?_, ?_⟩
  · obtain ⟨r', k1, k2, -⟩ := IntReader.yields_spec vs [] (by rw [List.append_nil]; exact hr)
    exact ⟨r', k1, IntReader.end_spec k2⟩
  · rintro a b rfl
    obtain ⟨r', k1, k2, -⟩ := IntReader.yields_spec a b hr
    exact ⟨r', k1, IntReader.finished_spec k2⟩

theorem yields_int {c : Codec} {r r' : IntReader} {vs : List U64} (hs : r.signed = true) :
    Yields (IntReader.next c) r vs r' ↔ Yields (IntReader.nextInt64 c) r vs r' := by
  have hstep : ∀ (r r1 : IntReader) v, r.nextInt64 c = .ok (v, r1) → r1.signed = r.signed := by
    intro r r1 v h
    simp only [IntReader.nextInt64] at h
    by_cases hh : (!r.signed) = true
    · rw [if_pos hh] at h; cases h
    · rw [if_neg hh] at h
      obtain ⟨p, -, h⟩ := Res.bind_ok_inv h
      simp only [Res.pure_eq, Res.ok.injEq, Prod.mk.injEq] at h
      rw [← h.2]
  induction vs generalizing r with
  | nil => exact Iff.rfl
  | cons v vs ih =>
    simp only [Yields]
    have : IntReader.next c r = IntReader.nextInt64 c r := by simp only [IntReader.next, hs, if_true]
    rw [this]
    constructor
    · rintro ⟨r1, h1, h2⟩; exact ⟨r1, h1, (ih (by rw [hstep _ _ _ h1, hs])).mp h2⟩
    · rintro ⟨r1, h1, h2⟩; exact ⟨r1, h1, (ih (by rw [hstep _ _ _ h1, hs])).mpr h2⟩

theorem yields_uint {c : Codec} {r r' : IntReader} {vs : List U64} (hs : r.signed = false) :
    Yields (IntReader.next c) r vs r' ↔ Yields (IntReader.nextUInt64 c) r vs r' := by
  have hstep : ∀ (r r1 : IntReader) v, r.nextUInt64 c = .ok (v, r1) → r1.signed = r.signed := by
    intro r r1 v h
    simp only [IntReader.nextUInt64] at h
    by_cases hh : r.signed = true
    · rw [if_pos hh] at h; cases h
    · rw [if_neg hh] at h
      cases hv : r.block.values with
      | cons x xs =>
        simp only [hv, Res.ok.injEq, Prod.mk.injEq] at h
        rw [← h.2]
      | nil =>
        simp only [hv] at h
        obtain ⟨⟨l, s⟩, -, h⟩ := Res.bind_ok_inv h
        cases l with
        | nil => cases h
        | cons x xs =>
          simp only [Res.ok.injEq, Prod.mk.injEq] at h
          rw [← h.2]
  induction vs generalizing r with
  | nil => exact Iff.rfl
  | cons v vs ih =>
    simp only [Yields]
    have : IntReader.next c r = IntReader.nextUInt64 c r := by simp only [IntReader.next, hs, Bool.false_eq_true, if_false]
    rw [this]
    constructor
    · rintro ⟨r1, h1, h2⟩; exact ⟨r1, h1, (ih (by rw [hstep _ _ _ h1, hs])).mp h2⟩
    · rintro ⟨r1, h1, h2⟩; exact ⟨r1, h1, (ih (by rw [hstep _ _ _ h1, hs])).mpr h2⟩

theorem ReadsAll.mono {ρ α : Type} {next next' : ρ → Res (α × ρ)} {fin : ρ → Bool} {r : ρ} {vs : List α} (h : ReadsAll next fin r vs)
    (hy : ∀ ws r', Yields next r ws r' → Yields next' r ws r')
    (he : ∀ ws r', Yields next r ws r' → Ends next r' → Ends next' r') : ReadsAll next' fin r vs := by
  obtain ⟨⟨r', h1, h2⟩, h3⟩ := h
  refine ⟨⟨r', hy _ _ h1, he _ _ h1 h2⟩, fun a b hab => ?_⟩
  obtain ⟨r'', h4, h5⟩ := h3 a b hab
  exact ⟨r'', hy _ _ h4, h5⟩

theorem yields_signed {c : Codec} {r r' : IntReader} {vs : List U64} (h : Yields (IntReader.next c) r vs r') : r'.signed = r.signed := by
  have hstep : ∀ (r r1 : IntReader) v, r.next c = .ok (v, r1) → r1.signed = r.signed := by
    intro r r1 v h
    by_cases hs : r.signed = true
    · have : Yields (IntReader.next c) r [v] r1 := ⟨r1, h, rfl⟩
      rw [yields_int hs] at this
      obtain ⟨r2, h1, h2⟩ := this
      cases h2
      simp only [IntReader.nextInt64] at h1
      rw [if_neg (by simp [hs])] at h1
      obtain ⟨p, -, h1⟩ := Res.bind_ok_inv h1
      simp only [Res.pure_eq, Res.ok.injEq, Prod.mk.injEq] at h1
      rw [← h1.2]
    · simp only [IntReader.next, if_neg hs, IntReader.nextUInt64] at h
      cases hv : r.block.values with
      | cons x xs =>
        simp only [hv, Res.ok.injEq, Prod.mk.injEq] at h
        rw [← h.2]
      | nil =>
        simp only [hv] at h
        obtain ⟨⟨l, s⟩, -, h⟩ := Res.bind_ok_inv h
        cases l with
        | nil => cases h
        | cons x xs =>
          simp only [Res.ok.injEq, Prod.mk.injEq] at h
          rw [← h.2]
  induction vs generalizing r with
  | nil => cases h; rfl
  | cons v vs ih =>
    obtain ⟨r1, h1, h2⟩ := h
    rw [ih h2, hstep _ _ _ h1]

/-- **C34, C35** (partial) Signed integer streams: whenever the encoding itself reads back (C21, C22 say when), so does the
stream, whatever the chunk size. Missing: sequences the encoding does not round trip. -/
theorem int_stream_roundtrip_partial (c : Codec) (hc : c.Lossless) (o : WOpts) (ho : o.Sound) (vs : List U64) (h : ReadsBackI vs) :
    ∃ body, writeStream intEnc c o (newIntRLV2 true o.writeIndex) (vs.map .i64) = .ok body ∧ ∀ pre post,
      ReadsAll (IntReader.nextInt64 c) IntReader.finished (newIntReader true (streamAt o pre body post)) vs := by
  obtain ⟨out, h1, h2⟩ := h o.writeIndex
  obtain ⟨body, g1, g2⟩ := int_stream_core true c hc o ho .i64 vs out h1 (decodes_of_decodeAll (intDec_progress true) h2)
  refine ⟨body, g1, fun pre post => (g2 pre post).mono (fun ws r' hy => (yields_int rfl).mp hy) (fun ws r' hy he => ?_)⟩
  obtain ⟨e, he⟩ := he
  have hsg := yields_signed hy
  exact ⟨e, by rw [← he]; simp only [IntReader.next, hsg, newIntReader, if_true]⟩

/-- **C34, C35** (partial) Unsigned integer streams. -/
theorem uint_stream_roundtrip_partial (c : Codec) (hc : c.Lossless) (o : WOpts) (ho : o.Sound) (vs : List U64) (h : ReadsBackU vs) :
    ∃ body, writeStream intEnc c o (newIntRLV2 false o.writeIndex) (vs.map .u64) = .ok body ∧ ∀ pre post,
      ReadsAll (IntReader.nextUInt64 c) IntReader.finished (newIntReader false (streamAt o pre body post)) vs := by
  obtain ⟨out, h1, h2⟩ := h o.writeIndex
  obtain ⟨body, g1, g2⟩ := int_stream_core false c hc o ho .u64 vs out h1 (decodes_of_decodeAll (intDec_progress false) h2)
  refine ⟨body, g1, fun pre post => (g2 pre post).mono (fun ws r' hy => (yields_uint rfl).mp hy) (fun ws r' hy he => ?_)⟩
  obtain ⟨e, he⟩ := he
  have hsg := yields_signed hy
  exact ⟨e, by rw [← he]; simp only [IntReader.next, hsg, newIntReader, Bool.false_eq_true, if_false]⟩

/-- Asking a signed stream for unsigned values, or the other way round, is an error at once. -/
theorem int_stream_kind (c : Codec) (s : StreamReader) :
    (newIntReader true s).nextUInt64 c = .err .other ∧ (newIntReader false s).nextInt64 c = .err .other := ⟨rfl, rfl⟩

/-- Sequences to which both apply: C21's constant and rising columns, for instance a thousand rows. -/
example : ReadsBackI (List.replicate 1000 3) :=
  int_const_roundtrip_partial 1000 3 (by decide) ⟨1, by decide, by decide, by decide, by decide⟩

theorem stateless_encodeFlush {α : Type} (E : Enc Unit) (f : GoVal → Res Bytes)
    (he : ∀ s v, E.encode s v = (f v >>= fun bs => pure ((), bs)))
    (hf : ∀ s, E.flush s = .ok ((), [])) (inj : α → GoVal) (g : α → Bytes) (hg : ∀ a, f (inj a) = .ok (g a)) (vs : List α) :
    E.encodeFlush () (vs.map inj) = .ok (vs.flatMap g) := by
  have hrun : E.run () ((vs.map inj).map EncOp.encode ++ [EncOp.flush]) = .ok ((), vs.flatMap g) := by
    refine Eq.trans ?_ ((stateless_run E f he hf inj g hg (vs.map some ++ [none])).trans ?_)
    · congr 1
      simp [List.map_map, Function.comp_def]
    · simp
  simp only [Enc.encodeFlush, hrun, Res.ok_bind, Res.pure_eq]

theorem scalar_stream_core {α : Type} (E : Enc Unit) (f : GoVal → Res Bytes) (he : ∀ s v, E.encode s v = (f v >>= fun bs => pure ((), bs)))
    (hf : ∀ s, E.flush s = .ok ((), [])) (inj : α → GoVal) (put : α → Bytes) (hg : ∀ a, f (inj a) = .ok (put a)) (d : Dec α)
    (hd : ∀ v rest, d.runBuf (put v ++ rest) = .ok (v, rest)) (hend : d.runBuf [] = .err .eof) (c : Codec) (hc : c.Lossless) (o : WOpts)
    (ho : o.Sound) (vs : List α) :
    ∃ body, writeStream E c o () (vs.map inj) = .ok body ∧ ∀ pre post,
      ReadsAll (Dec.runStream c d) StreamReader.finished (streamAt o pre body post) vs := by
  have hput : ∀ v, put v ≠ [] := by
    intro v hv
    have := hd v []
    rw [hv, List.append_nil, hend] at this
    cases this
  have henc := stateless_encodeFlush E f he hf inj put hg vs
  obtain ⟨body, g1, g2⟩ := writeStream_spec E c hc o ho _ _ _ henc
  refine ⟨body, g1, fun pre post => ⟨?_, ?_⟩⟩
  · obtain ⟨r', k1, k2, -⟩ := scalar_yields d put hd vs [] (r := streamAt o pre body post) (c := c)
      (by rw [List.append_nil]; exact g2 pre post)
    exact ⟨r', k1, scalar_end d put hend k2⟩
  · rintro a b rfl
    obtain ⟨r', k1, k2, -⟩ := scalar_yields d put hd a b (r := streamAt o pre body post) (c := c) (g2 pre post)
    exact ⟨r', k1, scalar_finished put hput k2⟩

/-- **C34, C35** Varint streams. -/
theorem varint_stream_roundtrip (c : Codec) (hc : c.Lossless) (o : WOpts) (ho : o.Sound) (vs : List U64) :
    ∃ body, writeStream varintEnc c o () (vs.map .i64) = .ok body ∧ ∀ pre post,
      ReadsAll (nextVarint c) StreamReader.finished (streamAt o pre body post) vs :=
  scalar_stream_core varintEnc varintEncode (fun _ _ => rfl) (fun _ => rfl) GoVal.i64 (fun v => uvarintBytes 9 (zigzag v)) varintEncode_i64
    decodeVarInt64 (fun v rest => readVarint_zigzag v rest) rfl c hc o ho vs

theorem readsAll_float {α : Type} {c : Codec} {d : Dec α} {is64 : Bool} {s : StreamReader} {vs : List α} (next : FloatReader → Res (α × FloatReader))
    (hn : ∀ r : FloatReader, r.is64 = is64 → next r = (d.runStream c r.stream >>= fun p => pure (p.1, { r with stream := p.2 })))
    (h : ReadsAll (Dec.runStream c d) StreamReader.finished s vs) :
    ReadsAll next (fun r => r.stream.finished) ⟨is64, s⟩ vs := by
  have hy : ∀ ws (s s' : StreamReader), Yields (Dec.runStream c d) s ws s' → Yields next ⟨is64, s⟩ ws ⟨is64, s'⟩ := by
    intro ws
    induction ws with
    | nil => intro s s' h; cases h; exact rfl
    | cons v ws ih =>
      intro s s' h
      obtain ⟨s1, h1, h2⟩ := h
      refine ⟨⟨is64, s1⟩, ?_, ih _ _ h2⟩
      rw [hn _ rfl, h1]; rfl
  obtain ⟨⟨s', h1, e, h2⟩, h3⟩ := h
  refine ⟨⟨⟨is64, s'⟩, hy _ _ _ h1, e, by rw [hn _ rfl, h2]; rfl⟩, fun a b hab => ?_⟩
  obtain ⟨s'', h4, h5⟩ := h3 a b hab
  exact ⟨⟨is64, s''⟩, hy _ _ _ h4, h5⟩

/-- **C34, C35** Float streams. -/
theorem float_stream_roundtrip (c : Codec) (hc : c.Lossless) (o : WOpts) (ho : o.Sound) (vs : List (BitVec 32)) :
    ∃ body, writeStream floatEnc c o () (vs.map .f32) = .ok body ∧ ∀ pre post,
      ReadsAll (FloatReader.nextFloat c) (fun r => r.stream.finished) ⟨false, streamAt o pre body post⟩ vs := by
  obtain ⟨body, g1, g2⟩ := scalar_stream_core floatEnc floatEncode (fun _ _ => rfl) (fun _ => rfl) GoVal.f32 putBE32 (fun _ => rfl)
    decodeFloat (fun v rest => decodeFloat_put v rest) rfl c hc o ho vs
  refine ⟨body, g1, fun pre post => readsAll_float _ (fun r hr => ?_) (g2 pre post)⟩
  simp only [FloatReader.nextFloat, hr, Bool.false_eq_true, if_false]

/-- **C34, C35** Double streams. -/
theorem double_stream_roundtrip (c : Codec) (hc : c.Lossless) (o : WOpts) (ho : o.Sound) (vs : List (BitVec 64)) :
    ∃ body, writeStream doubleEnc c o () (vs.map .f64) = .ok body ∧ ∀ pre post,
      ReadsAll (FloatReader.nextDouble c) (fun r => r.stream.finished) ⟨true, streamAt o pre body post⟩ vs := by
  obtain ⟨body, g1, g2⟩ := scalar_stream_core doubleEnc doubleEncode (fun _ _ => rfl) (fun _ => rfl) GoVal.f64 putLE64 (fun _ => rfl)
    decodeDouble (fun v rest => decodeDouble_put v rest) rfl c hc o ho vs
  refine ⟨body, g1, fun pre post => readsAll_float _ (fun r hr => ?_) (g2 pre post)⟩
  simp only [FloatReader.nextDouble, hr, Bool.not_true, Bool.false_eq_true, if_false]

/-- A float reader refuses doubles and a double reader floats. -/
theorem float_stream_kind (c : Codec) (s : StreamReader) :
    FloatReader.nextFloat c ⟨true, s⟩ = .err .other ∧ FloatReader.nextDouble c ⟨false, s⟩ = .err .other := ⟨rfl, rfl⟩

/-- **C34, C35** String contents, read by their lengths. Every string comes back; the stream is finished exactly when only
empty strings are left. -/
theorem string_stream_roundtrip (c : Codec) (hc : c.Lossless) (o : WOpts) (ho : o.Sound) (vs : List Bytes)
    (hfit : ∀ v ∈ vs, v.length < 2 ^ 63) :
    ∃ body, writeStream stringEnc c o () (vs.map .bytes) = .ok body ∧ ∀ pre post a b, vs = a ++ b →
      ∃ r, YieldsStrings c (streamAt o pre body post) a r ∧ (r.finished = true ↔ ∀ v ∈ b, v = []) ∧
        ∀ n, b.flatten.length < n → n < 2 ^ 63 → ∃ e, nextBytes c r n = .err e := by
  have henc := stateless_encodeFlush stringEnc stringEncode (fun _ _ => rfl) (fun _ => rfl) GoVal.bytes id (fun _ => rfl) vs
  obtain ⟨body, g1, g2⟩ := writeStream_spec stringEnc c hc o ho _ _ _ henc
  refine ⟨body, g1, fun pre post a b hab => ?_⟩
  subst hab
  obtain ⟨r', k1, k2, -⟩ := strings_yields a b (r := streamAt o pre body post) (c := c) (fun v hv => hfit v (List.mem_append_left _ hv)) (g2 pre post)
  have hflat : b.flatMap id = b.flatten := by simp
  refine ⟨r', k1, ?_, fun n hn hn63 => ?_⟩
  · rw [finished_iff c r' _ k2, hflat]
    simp
  · have := runStream_sim c (decodeBytes n) r' _ k2
    rw [hflat, (string_read_exact n b.flatten).1 hn] at this
    rw [nextBytes, if_pos hn63]
    exact this

example : WOpts.Sound ⟨.zlib, 262144, true⟩ ∧ WOpts.Sound ⟨.none, 1, false⟩ := by
  constructor <;> simp [WOpts.Sound]

/-- **C31, refuted for empty chunks** This library writes none, but other writers may: a compressed stream that starts with an empty chunk is over
before it begins, whatever chunks follow. -/
theorem empty_chunk_ends (c : Codec) (size : Nat) (rest after : Bytes) :
    (newStreamReader .zlib size 0 (3 + rest.length) ([0x01#8, 0x00#8, 0x00#8] ++ rest ++ after)).readByte c = .err .eof := by
  rw [StreamReader.readByte]
  simp [newStreamReader, StreamReader.readAChunk, StreamReader.take, decChunkHeader, show ¬ (rest.length + after.length + 1 + 1 + 1 < 3) by omega]

/-- With the same bytes but for the empty chunk, the reader finds a 7. -/
example (c : Codec) : ∃ r, (newStreamReader .zlib 10 0 4 [0x03#8, 0x00#8, 0x00#8, 0x07#8]).readByte c = .ok (7#8, r) := by
  rw [StreamReader.readByte]
  simp [newStreamReader, StreamReader.readAChunk, StreamReader.take, decChunkHeader]

/-! The theorems of this file on a compressed stream in chunks of three bytes. -/
theorem exStreamOpts_sound : WOpts.Sound ⟨.zlib, 3, true⟩ := by simp [WOpts.Sound]
example := bool_stream_roundtrip_partial runCodec runCodec_lossless ⟨.zlib, 3, true⟩ exStreamOpts_sound [true, false, true]
example := byte_stream_roundtrip runCodec runCodec_lossless ⟨.zlib, 3, true⟩ exStreamOpts_sound [7, 7, 7, 7, 1]
example := double_stream_roundtrip runCodec runCodec_lossless ⟨.zlib, 3, true⟩ exStreamOpts_sound [0x400921fb54442d18, 0]
example := float_stream_roundtrip runCodec runCodec_lossless ⟨.zlib, 3, true⟩ exStreamOpts_sound [0x40490fdb, 0]
example := int_stream_roundtrip_partial runCodec runCodec_lossless ⟨.zlib, 3, true⟩ exStreamOpts_sound (List.replicate 1000 3)
  (int_const_roundtrip_partial 1000 3 (by decide) ⟨1, by decide, by decide, by decide, by decide⟩)
example := varint_stream_roundtrip runCodec runCodec_lossless ⟨.zlib, 3, true⟩ exStreamOpts_sound [300, 0, -1]
example := stream_length stringEnc runCodec runCodec_lossless ⟨.zlib, 3, true⟩ exStreamOpts_sound () [.bytes [7, 7, 7, 7], .bytes [1]] _ rfl
example := stream_size_partial stringEnc runCodec runCodec_lossless ⟨.zlib, 3, true⟩ exStreamOpts_sound () () [.bytes [7, 7, 7, 7], .bytes [1]] _ rfl

end Goorc
