import Verif.Spec.Crash
import Verif.Props.OpenAny
import Verif.Props.Magic
/-
C95: what is on the disk if a program stops while it writes a file.
-/
namespace Goorc

/-! ### The file only grows -/

/-- What a step of the writer does to the file and to the list of its stripes. -/
def StripeWriter.Grows (s s' : StripeWriter) : Prop := s.out <+: s'.out ∧ s.infos <+: s'.infos

theorem StripeWriter.Grows.refl (s : StripeWriter) : s.Grows s := ⟨List.prefix_refl _, List.prefix_refl _⟩

theorem StripeWriter.Grows.trans {s s' s'' : StripeWriter} (h : s.Grows s') (h' : s'.Grows s'') : s.Grows s'' := ⟨h.1.trans h'.1, h.2.trans h'.2⟩

theorem StripeWriter.flushOut_grows {E : Env} {o : FOpts} {s s' : StripeWriter} (h : s.flushOut E o = .ok s') : s.out <+: s'.out ∧ s'.infos = s.infos := by
  simp only [flushOut] at h
  obtain ⟨ws, -, h⟩ := Res.bind_ok_inv h
  obtain ⟨⟨ws2, body⟩, -, h⟩ := Res.bind_ok_inv h
  simp only [writeFooter] at h
  obtain ⟨fb, -, h⟩ := Res.bind_ok_inv h
  injection h with h; subst h
  exact ⟨by simp only [List.append_assoc]; exact List.prefix_append _ _, rfl⟩

theorem StripeWriter.writeLoop_grows {E : Env} {o : FOpts} (vec : Vec) (n : Nat) : ∀ (i count : Nat) (s s' : StripeWriter),
    writeLoop E o vec n i count s = .ok s' → s.Grows s' := by
  induction n with
  | zero =>
    intro i count s s' h
    simp only [writeLoop] at h
    injection h with h; subst h
    exact ⟨List.prefix_refl _, List.prefix_refl _⟩
  | succ n ih =>
    intro i count s s' h
    simp only [writeLoop] at h
    obtain ⟨ws, -, h⟩ := Res.bind_ok_inv h
    split at h
    · obtain ⟨s1, h2, h⟩ := Res.bind_ok_inv h
      obtain ⟨s2, h3, h⟩ := Res.bind_ok_inv h
      obtain ⟨e1, e2⟩ := flushOut_grows h2
      obtain ⟨-, -, f3, f4, -⟩ := forward_spec h3
      obtain ⟨g1, g2⟩ := ih _ _ _ _ h
      refine ⟨e1.trans (f3 ▸ g1), List.IsPrefix.trans ?_ g2⟩
      rw [f4, e2]
      exact List.prefix_append _ _
    · obtain ⟨g1, g2⟩ := ih _ _ _ _ h
      exact ⟨g1, g2⟩

theorem FileWriter.write_grows {E : Env} {o : FOpts} {w w' : FileWriter} {v : Vec} (h : w.write E o v = .ok w') : w.stripe.Grows w'.stripe := by
  simp only [write] at h
  obtain ⟨s, h1, h⟩ := Res.bind_ok_inv h
  injection h with h; subst h
  exact StripeWriter.writeLoop_grows _ _ _ _ _ _ (StripeWriter.write_ok_inv h1).2

theorem FileWriter.writes_grows {E : Env} {o : FOpts} (batches : List Vec) : ∀ {w w' : FileWriter}, w.writes E o batches = .ok w' → w.stripe.Grows w'.stripe := by
  induction batches with
  | nil => intro w w' h; simp only [writes] at h; injection h with h; subst h; exact .refl _
  | cons v vs ih =>
    intro w w' h
    simp only [writes] at h
    obtain ⟨w1, h1, h⟩ := Res.bind_ok_inv h
    exact (write_grows h1).trans (ih h)

theorem FileWriter.close_grows {E : Env} {o : FOpts} {w : FileWriter} {file : Bytes} (h : w.close E o = .ok file) : w.stripe.out <+: file := by
  simp only [close, finish] at h
  obtain ⟨w1, h1, h⟩ := Res.bind_ok_inv h
  obtain ⟨s1, h2, h1⟩ := Res.bind_ok_inv h1
  injection h1 with h1; subst h1
  obtain ⟨t, -, h⟩ := Res.bind_ok_inv h
  injection h with h; subst h
  exact (StripeWriter.flushOut_grows h2).1.trans (List.prefix_append _ _)

theorem FileWriter.writes_append {E : Env} {o : FOpts} (a b : List Vec) : ∀ (w : FileWriter), w.writes E o (a ++ b) = (w.writes E o a).bind fun w => w.writes E o b := by
  induction a with
  | nil => intro w; rfl
  | cons v vs ih =>
    intro w
    simp only [List.cons_append, writes]
    cases h : w.write E o v with
    | ok w1 => exact ih w1
    | err e => rfl
    | panic => rfl
    | hang => rfl

theorem writeBatches_append {E : Env} {o : FOpts} {schema : Schema} {a b : List Vec} {w : FileWriter} (h : writeBatches E o schema (a ++ b) = .ok w) :
    ∃ w1, writeBatches E o schema a = .ok w1 ∧ w1.writes E o b = .ok w := by
  obtain ⟨w0, h0, h⟩ := Res.bind_ok_inv (x := newWriter E o schema) h
  rw [FileWriter.writes_append] at h
  obtain ⟨w1, h1, h⟩ := Res.bind_ok_inv (x := w0.writes E o a) h
  exact ⟨w1, by simp only [writeBatches, h0]; exact h1, h⟩

theorem writeFile_eq (E : Env) (o : FOpts) (schema : Schema) (batches : List Vec) :
    writeFile E o schema batches = (writeBatches E o schema batches).bind fun w => w.close E o := by
  simp only [writeFile, writeBatches]
  cases newWriter E o schema <;> rfl

/-- Where the writer stands between two calls. -/
theorem writeBatches_spec {E : Env} {o : FOpts} {schema : Schema} {done : List Vec} {w : FileWriter} (h : writeBatches E o schema done = .ok w) :
    ∃ ws0 runs rows, newWriters E.A o.toCOpts (schema.columns.map (·.node)) = .ok ws0 ∧
      w.stripe.Traced E o (schema.columns.map (·.node)) ws0 runs rows 0 ∧ rowsOf runs rows = done.flatMap Vec.rawRows := by
  obtain ⟨w0, h1, h2⟩ := Res.bind_ok_inv (x := newWriter E o schema) h
  obtain ⟨e1, e2⟩ := newWriter_inv h1
  have hc : w0.schemas = schema.columns := ((flat_iff _ _).1 e1).2.2
  have hw0 : newWriters E.A o.toCOpts (w0.schemas.map (·.node)) = .ok w0.stripe.writers := by
    simp only [newWriter] at h1
    obtain ⟨ss, h3, h1⟩ := Res.bind_ok_inv h1
    obtain ⟨s, h4, h1⟩ := Res.bind_ok_inv h1
    injection h1 with h1; subst h1
    simp only [newStripeWriter] at h4
    obtain ⟨ws, h5, h4⟩ := Res.bind_ok_inv h4
    injection h4 with h4; subst h4
    exact h5
  rw [hc] at e2 hw0
  obtain ⟨runs, rows, f1, -, f3⟩ := FileWriter.writes_traced (ws0 := w0.stripe.writers) done w0 w [] []
    ⟨⟨0, e2, rfl⟩, ⟨_, .nil, rfl, by intro rs _ hne hp; exact absurd (List.prefix_nil.1 hp) hne⟩⟩ h2
  exact ⟨_, runs, rows, hw0, f1, by rw [f3]; simp [rowsOf]⟩

theorem rawRows_length (batches : List Vec) : (batches.flatMap Vec.rawRows).length = (batches.map Vec.len).sum := by
  induction batches with
  | nil => rfl
  | cons v vs ih => simp [Vec.rawRows, ih]

/-! ### The theorems -/

/-- **C95** What a program leaves on the disk when it stops is the beginning of the file it would have made: whatever is written afterwards, and however
the rows fall into stripes, the closed file starts with what was on the disk between the calls; and its footer starts with the stripes listed so far. -/
theorem interrupted_prefix (E : Env) (o : FOpts) (schema : Schema) (done more : List Vec) (file : Bytes) (h : writeFile E o schema (done ++ more) = .ok file) :
    ∃ w parts ft ps, writeBatches E o schema done = .ok w ∧ FileLayout E o schema.columns file parts ft ps ∧
      w.stripe.out <+: file ∧ w.stripe.infos <+: ft.stripes := by
  rw [writeFile_eq] at h
  obtain ⟨w2, h2, h⟩ := Res.bind_ok_inv (x := writeBatches E o schema (done ++ more)) h
  obtain ⟨w1, h1, h3⟩ := writeBatches_append h2
  obtain ⟨g1, g2⟩ := FileWriter.writes_grows more h3
  obtain ⟨w0, k1, k2⟩ := Res.bind_ok_inv (x := newWriter E o schema) h2
  obtain ⟨e1, e2⟩ := newWriter_inv k1
  obtain ⟨parts, r, f1, f2, -⟩ := FileWriter.writes_spec _ _ _ _ _ e2 k2
  rw [← f2] at f1
  obtain ⟨p, ft, ps, hl, -⟩ := FileWriter.close_spec f1 h
  have hc : w2.schemas = schema.columns := by rw [f2]; exact ((flat_iff _ _).1 e1).2.2
  rw [hc] at hl
  refine ⟨w1, _, ft, ps, h1, hl, g1.trans (FileWriter.close_grows h), g2.trans ?_⟩
  rw [f1.infos, hl.stripes, stripeTable_append]
  exact List.prefix_append _ _

/-- What is on the disk includes all that was there when the call began. -/
theorem CutShort.began {E : Env} {o : FOpts} {schema : Schema} {done : List Vec} {disk : Bytes} (h : CutShort E o schema done disk) :
    ∃ w, writeBatches E o schema done = .ok w ∧ w.stripe.out <+: disk := by
  cases h with
  | inWrite w w' next hw hn h1 h2 => exact ⟨w, hw, h1⟩
  | inClose w file hw hc h1 h2 => exact ⟨w, hw, h1⟩

/-- **C95** Whenever the program stops, the disk has the letters ORC and all the stripes that were finished before the call, each whole and where the writer
has it in its list; rows of the batches written are missing only if they belong to the stripe that was not finished. -/
theorem interrupted_keeps_stripes (E : Env) (o : FOpts) (schema : Schema) (done : List Vec) (disk : Bytes) (h : CutShort E o schema done disk) :
    ∃ w parts lost, writeBatches E o schema done = .ok w ∧ magic ++ parts.flatMap (·.bytes) <+: disk ∧ w.stripe.infos = stripeTable 3 parts ∧
      (∀ p ∈ parts, p.Sound E o (schema.columns.map (·.node)) ∧ 1 ≤ p.rows) ∧ (parts.map (·.rows)).sum + lost = (done.map Vec.len).sum ∧
      w.stripe.info.numberOfRows = lost ∧
      ∀ (k : Nat) (i : StripeInfo), w.stripe.infos[k]? = some i → ∃ p, parts[k]? = some p ∧ i.cut disk = p.bytes ∧ i.numberOfRows = p.rows := by
  obtain ⟨w, hw, hd⟩ := h.began
  obtain ⟨ws0, runs, rows, -, ht, hr⟩ := writeBatches_spec hw
  obtain ⟨r, hi, -⟩ := ht.ex
  obtain ⟨w0, k1, k2⟩ := Res.bind_ok_inv (x := newWriter E o schema) hw
  obtain ⟨e1, e2⟩ := newWriter_inv k1
  obtain ⟨parts, r', f1, f2, f3⟩ := FileWriter.writes_spec _ _ _ _ _ e2 k2
  have hc : w0.schemas = schema.columns := ((flat_iff _ _).1 e1).2.2
  rw [hc] at f1
  have hd' : magic ++ parts.flatMap (·.bytes) <+: disk := f1.out ▸ hd
  refine ⟨w, parts, r', hw, hd', f1.infos, f1.sound, by simpa using f3, by rw [f1.info], fun k i hk => ?_⟩
  rw [f1.infos] at hk
  obtain ⟨post, hpost⟩ := hd'
  obtain ⟨p, hp, hb, -, -, -, hrow, -⟩ := stripeTable_get magic parts post k i hk
  exact ⟨p, hp, by rw [StripeInfo.cut, ← hpost, hb], hrow⟩

/-- **C95** As long as no row has filled a stripe, nothing of the rows is on the disk between two calls: it has the letters ORC, and opening that file reports an error. -/
theorem interrupted_first_stripe (E : Env) (o : FOpts) (schema : Schema) (done : List Vec) (hfit : FitsOneStripe E o schema done) (w : FileWriter)
    (hw : writeBatches E o schema done = .ok w) :
    w.stripe.out = [0x4f#8, 0x52#8, 0x43#8] ∧ w.stripe.info.numberOfRows = (done.map Vec.len).sum ∧ newReader E w.stripe.out = .err .other := by
  obtain ⟨ws0, runs, rows, h0, ht, hr⟩ := writeBatches_spec hw
  obtain ⟨r, hi, hlen⟩ := ht.ex
  obtain ⟨ws, hruns, -, -⟩ := ht.runs
  obtain ⟨rfl, -⟩ := runs_none hruns (hfit ws0 h0) (by rw [← hr]; exact List.prefix_append _ _)
  have ho : w.stripe.out = [0x4f#8, 0x52#8, 0x43#8] := by rw [hi.out]; rfl
  refine ⟨ho, ?_, by rw [ho]; exact open_short_file_partial E _ (by simp) (by simp)⟩
  rw [hi.info, ← rawRows_length, ← hr]
  simp [rowsOf] at hlen ⊢
  omega

/-- Bytes in front of a file do not change how it opens. -/
theorem opens_behind (E : Env) (before file : Bytes) (r : FileReader) (h : newReader E file = .ok r) : newReader E (before ++ file) = .ok (r.on (before ++ file)) := by
  obtain ⟨ps, ft, footer, psB, flat, ht, hn, hs, hl, rfl⟩ := (open_ok_iff E file r).1 h
  refine (open_ok_iff E _ _).2 ⟨ps, ft, footer, psB, flat, ⟨?_, ?_, ht.postScript, ht.footerLength, ht.within, ?_, ht.inflates, ht.footer⟩, hn, hs, hl, rfl⟩
  · have := ht.long; simp; omega
  · obtain ⟨h1, b, hb⟩ := ht.ends
    exact ⟨h1, before ++ b, by rw [hb]; simp⟩
  · have := ht.whole; simp; omega

/-! ### An interrupted file that opens -/

/-- A table of one column of byte strings. -/
def exBlobs : Schema := .mk ⟨0, .binary, .directV2, false, []⟩ []
/-- A batch of one row. -/
def blobBatch (content : Bytes) : Vec := .mk 0 .binary (some ⟨[⟨false, .bytes content⟩], 1⟩) []

/-- A piece that does not get shorter by compression is stored as it is. -/
theorem chunk_kept {c : Codec} {cs : Nat} {F : Bytes} (hl : F.length ≤ cs) (hc : F.length < (c.comp 0 F).length) :
    compressingAllInChunks c .zlib cs F = .ok (encChunkHeader F.length true ++ F) := by
  have h1 : zlibCompressingToChunks c cs F.length 0 F = .ok ([], F) := by
    rw [zlibCompressingToChunks.eq_def]; simp [Nat.not_lt.2 hl]
  simp only [compressingAllInChunks, compressingChunks, compressingLeft, zlibCompressingLeft, h1, Res.ok_bind, if_neg (Nat.not_lt.2 hl), encChunk, if_pos hc, List.nil_append]
  rfl


section
variable (E : Env) (cs stride ss : Nat) (F : Bytes)

/-- The column with one value. -/
def blobWriter : ColWriter (StreamWriter Unit × StreamWriter IntEnc) Nat :=
  ⟨false, none, (⟨(), F, some [], 0⟩, ⟨newIntRLV2 false false, [], some [], 0⟩), ⟨some 1, false, 1, 0⟩, 0, none, [], false⟩

/-- The same, flushed. -/
def blobFlushed : ColWriter (StreamWriter Unit × StreamWriter IntEnc) Nat :=
  ⟨false, none, (⟨(), [], some (encChunkHeader F.length true ++ F), (encChunkHeader F.length true ++ F).length⟩, ⟨newIntRLV2 false false, [], some [], 0⟩),
    ⟨some 1, false, 1, (encChunkHeader F.length true ++ F).length⟩, 0, none, [], true⟩

theorem blob_write (hl : F.length ≤ cs) : binaryKind.write E.c ⟨⟨.zlib, cs, false⟩, stride⟩ (binaryKind.newWriter ⟨⟨.zlib, cs, false⟩, stride⟩ false) ⟨false, .bytes F⟩ = .ok (blobWriter F) := by
  have : (StreamWriter.write stringEnc E.c ⟨.zlib, cs, false⟩ ⟨(), [], some [], 0⟩ (.bytes F)) = .ok ⟨(), F, some [], 0⟩ := by
    simp [StreamWriter.write, stringEnc, stringEncode, Nat.not_lt.2 hl]
  simp [LeafKind.write, LeafKind.writePresent, LeafKind.newWriter, LeafKind.writeNonNull, binaryKind, blobWriter, newStreamWriter, this]

theorem blob_flush (h0 : F ≠ []) (hl : F.length ≤ cs) (hc : F.length < (E.c.comp 0 F).length) :
    binaryKind.flush E.c ⟨⟨.zlib, cs, false⟩, stride⟩ (blobWriter F) = .ok (blobFlushed F) := by
  have h1 : (StreamWriter.flush stringEnc E.c ⟨.zlib, cs, false⟩ ⟨(), F, some [], 0⟩) = .ok ⟨(), [], some (encChunkHeader F.length true ++ F), (encChunkHeader F.length true ++ F).length⟩ := by
    simp [StreamWriter.flush, stringEnc, chunk_kept hl hc, List.length_pos_iff.2 h0]
  have h2 : (StreamWriter.flush intEnc E.c ⟨.zlib, cs, false⟩ ⟨newIntRLV2 false false, [], some [], 0⟩) = .ok ⟨newIntRLV2 false false, [], some [], 0⟩ := rfl
  simp [LeafKind.flush, binaryKind, twoStreams, blobWriter, h1, h2, blobFlushed]

theorem blob_stripe (hlc : E.c.Lossless) (h0 : F ≠ []) (hl : F.length ≤ cs) (h1 : 1 ≤ cs) (h2 : cs < 2 ^ 23) (hc : F.length < (E.c.comp 0 F).length) (hs : ss ≤ F.length) :
   ∃ w0 w rest, newWriter E ⟨⟨⟨.zlib, cs, false⟩, stride⟩, ss⟩ exBlobs = .ok w0 ∧ w0.write E ⟨⟨⟨.zlib, cs, false⟩, stride⟩, ss⟩ (blobBatch F) = .ok w ∧
     w0.stripe.out = magic ∧ w.stripe.out = magic ++ encChunkHeader F.length true ++ F ++ rest := by
  have hn : newWriter E ⟨⟨⟨.zlib, cs, false⟩, stride⟩, ss⟩ exBlobs = .ok ⟨[exBlobs], ⟨[exBlobs.node],
    [.leaf .binary (binaryKind.newWriter ⟨⟨.zlib, cs, false⟩, stride⟩ false)], ⟨3, 0, 0, 0, 0⟩, [], magic⟩⟩ := rfl
  have hv : writeValue E.A E.c ⟨⟨.zlib, cs, false⟩, stride⟩ 0 [.leaf .binary (binaryKind.newWriter ⟨⟨.zlib, cs, false⟩, stride⟩ false)] (blobBatch F) = .ok [.leaf .binary (blobWriter F)] := by
    have := blob_write E cs stride F hl
    simp [blobBatch, writeValue, writeValues, writeRow, Slice.visible, AnyWriter.write, LeafTag.kind, this]
  have hsz : ss ≤ StripeWriter.size E.A ⟨⟨⟨.zlib, cs, false⟩, stride⟩, ss⟩ ⟨[exBlobs.node], [.leaf .binary (blobWriter F)], ⟨3, 0, 0, 0, 0⟩, [], magic⟩ := by
    simp [StripeWriter.size, AnyWriter.size, LeafTag.kind, LeafKind.size, binaryKind, twoStreams, StreamWriter.size, blobWriter, hs]
  have hf : onWriters (fun w => w.flush E.A E.c ⟨⟨.zlib, cs, false⟩, stride⟩) [.leaf .binary (blobWriter F)] = .ok [.leaf .binary (blobFlushed F)] := by
    have := blob_flush E cs stride F h0 hl hc
    simp [onWriters, AnyWriter.flush, LeafTag.kind, this]
  have ho : ∃ w', StripeWriter.writeOuts E.A ⟨⟨.zlib, cs, false⟩, stride⟩ [.leaf .binary (blobFlushed F)] = .ok ([.leaf .binary w'], encChunkHeader F.length true ++ F) ∧
      ∃ w'', binaryKind.reset ⟨⟨.zlib, cs, false⟩, stride⟩ w' = .ok w'' := by
    refine ⟨⟨false, none, (⟨(), [], some [], (encChunkHeader F.length true ++ F).length⟩, ⟨newIntRLV2 false false, [], some [], 0⟩),
    ⟨some 1, false, 1, (encChunkHeader F.length true ++ F).length⟩, 0, none, [], true⟩, ?_, ?_⟩
    · simp [StripeWriter.writeOuts, AnyWriter.writeOut, LeafTag.kind, LeafKind.writeOut, binaryKind, twoStreams, blobFlushed, StreamWriter.writeOut]
    · exact ⟨_, rfl⟩
  obtain ⟨w', ho, w'', hr⟩ := ho
  have hcomp : ∀ b, ∃ d, compressingAllInChunks E.c .zlib cs b = .ok d := fun b => by
    obtain ⟨d, hd, -⟩ := chunks_roundtrip E.c hlc cs h1 h2 b
    exact ⟨d, hd⟩
  have hlen : (blobBatch F).len = 1 := rfl
  obtain ⟨d, hd⟩ := hcomp (E.P.stripeFooter (StripeWriter.footer E.A ⟨[exBlobs.node], [.leaf .binary w'], ⟨3, 0, 0 + (encChunkHeader F.length true ++ F).length, 0, 0 + (0 + 1)⟩, [], magic ++ [] ++ (encChunkHeader F.length true ++ F)⟩))
  have hfo : StripeWriter.flushOut E ⟨⟨⟨.zlib, cs, false⟩, stride⟩, ss⟩ (StripeWriter.addRows (0 + 1) ⟨[exBlobs.node], [.leaf .binary (blobWriter F)], ⟨3, 0, 0, 0, 0⟩, [], magic⟩) =
      .ok ⟨[exBlobs.node], [.leaf .binary w'], ⟨3, 0, 0 + (encChunkHeader F.length true ++ F).length, d.length, 0 + (0 + 1)⟩, [], magic ++ [] ++ (encChunkHeader F.length true ++ F) ++ d⟩ := by
    simp only [StripeWriter.flushOut, StripeWriter.addRows]
    rw [hf]
    simp only [Res.ok_bind, Bool.false_eq_true, if_false]
    rw [ho]
    simp only [Res.ok_bind, StripeWriter.writeFooter]
    simp only [List.length_nil, Nat.add_zero]
    rw [hd]
    rfl
  have hfw : ∃ s2, StripeWriter.forward E.A ⟨⟨⟨.zlib, cs, false⟩, stride⟩, ss⟩ ⟨[exBlobs.node], [.leaf .binary w'], ⟨3, 0, 0 + (encChunkHeader F.length true ++ F).length, d.length, 0 + (0 + 1)⟩, [], magic ++ [] ++ (encChunkHeader F.length true ++ F) ++ d⟩ = .ok s2 ∧
      s2.out = magic ++ [] ++ (encChunkHeader F.length true ++ F) ++ d := by
    simp only [StripeWriter.forward, onWriters, AnyWriter.reset, LeafTag.kind]
    rw [hr]
    exact ⟨_, rfl, rfl⟩
  obtain ⟨s2, hfw, hout⟩ := hfw
  refine ⟨_, ⟨[exBlobs], StripeWriter.addRows 0 s2⟩, d, hn, ?_, rfl, ?_⟩
  · simp only [FileWriter.write, StripeWriter.write, hlen, StripeWriter.writeLoop]
    rw [hv]
    simp only [Res.ok_bind]
    rw [if_pos hsz, hfo]
    simp only [Res.ok_bind]
    rw [hfw]
    rfl
  · simp [StripeWriter.addRows, hout]
end

/-- **C95, refuted** That an interrupted file is not taken for a whole one is false, whatever the compressor and the protocol buffers are: if `content` is a file that opens
and that the compressor does not shorten, then a program that writes one row with `content` in a column of byte strings, and is stopped in this `Write`, may leave a file that
opens as `content` does: with its columns, and with its number of rows. -/
theorem interrupted_opens (E : Env) (hlc : E.c.Lossless) (cs stride ss : Nat) (content : Bytes) (r : FileReader) (hr : newReader E content = .ok r) (hl : content.length ≤ cs)
    (h2 : cs < 2 ^ 23) (hc : content.length < (E.c.comp 0 content).length) (hs : ss ≤ content.length) :
    ∃ disk w, CutShort E ⟨⟨⟨.zlib, cs, false⟩, stride⟩, ss⟩ exBlobs [] disk ∧ writeBatches E ⟨⟨⟨.zlib, cs, false⟩, stride⟩, ss⟩ exBlobs [blobBatch content] = .ok w ∧
      disk <+: w.stripe.out ∧ (blobBatch content).len = 1 ∧ newReader E disk = .ok (r.on disk) := by
  have h0 : content ≠ [] := by
    rintro rfl
    rw [open_empty_file] at hr; cases hr
  have h1 : 1 ≤ cs := Nat.le_trans (List.length_pos_iff.2 h0) hl
  obtain ⟨w0, w, rest, e1, e2, e3, e4⟩ := blob_stripe E cs stride ss content hlc h0 hl h1 h2 hc hs
  have e1' : writeBatches E ⟨⟨⟨.zlib, cs, false⟩, stride⟩, ss⟩ exBlobs [] = .ok w0 := by simp only [writeBatches, e1]; rfl
  refine ⟨magic ++ encChunkHeader content.length true ++ content, w, .inWrite w0 w _ e1' e2 ?_ ?_, ?_, ?_, rfl, opens_behind E _ _ r hr⟩
  · rw [e3, List.append_assoc]; exact List.prefix_append _ _
  · rw [e4]; exact List.prefix_append _ _
  · simp only [writeBatches, e1]
    show w0.writes E _ [blobBatch content] = _
    simp only [FileWriter.writes, e2, Res.ok_bind]
  · rw [e4]; exact List.prefix_append _ _

/-- A file of three rows of doubles. -/
noncomputable def exWithin : Bytes := match writeFile exEnv ⟨⟨⟨.zlib, 4000, false⟩, 2⟩, 100000⟩ exDoubles [exDoubleBatch] with | .ok f => f | _ => []

theorem exWithin_opens : ∃ r, newReader exEnv exWithin = .ok r ∧ r.numberOfRows = 3 ∧ TypesOf exDoubles r.schemas ∧ exWithin.length ≤ 4000 ∧
    exWithin.length < (exEnv.c.comp 0 exWithin).length := by
  have hk : (match writeFile exEnv ⟨⟨⟨.zlib, 4000, false⟩, 2⟩, 100000⟩ exDoubles [exDoubleBatch] with
    | .ok f => decide (f.length ≤ 4000 ∧ f.length < (exEnv.c.comp 0 f).length) | _ => false) = true := by decide +kernel
  split at hk
  · rename_i f hf
    obtain ⟨k1, k2⟩ := of_decide_eq_true hk
    have hw : exWithin = f := by unfold exWithin; rw [hf]
    rw [hw]
    obtain ⟨parts, ft, ps, -, h⟩ := closed_file_opens_partial exEnv runCodec_lossless plainProto_lossless ⟨⟨⟨.zlib, 4000, false⟩, 2⟩, 100000⟩ (by decide) (by decide) exDoubles rfl exDoubles_named
      [exDoubleBatch] (by decide) f hf
    obtain ⟨r, h1, h2, h3⟩ := h (by simp only [SmallTail]; omega)
    exact ⟨r, h1, h2, h3, k1, k2⟩
  · simp at hk

/-- **C95, refuted** The same for one file: one row of one byte string was being written, and the disk has three rows of doubles. -/
theorem interrupted_opens_false : ∃ disk r, CutShort exEnv ⟨⟨⟨.zlib, 4000, false⟩, 2⟩, 1⟩ exBlobs [] disk ∧ newReader exEnv disk = .ok r ∧ r.numberOfRows = 3 ∧
    TypesOf exDoubles r.schemas := by
  obtain ⟨r, h1, h2, h3, h4, h5⟩ := exWithin_opens
  have hne : 1 ≤ exWithin.length := List.length_pos_iff.2 (by intro h; rw [h, open_empty_file] at h1; cases h1)
  obtain ⟨disk, w, e1, -, -, -, e2⟩ := interrupted_opens exEnv runCodec_lossless 4000 2 1 exWithin r h1 h4 (by decide) h5 hne
  exact ⟨disk, _, e1, e2, h2, h3⟩

theorem exBatch_closed : ∃ w file, writeBatches exEnv exFOpts exTable [exBatch] = .ok w ∧ w.close exEnv exFOpts = .ok file := by
  obtain ⟨file, _, _, _, h1, -⟩ := table_round_trip_partial exEnv runCodec_lossless plainProto_lossless exFOpts rfl (by decide) (by decide) exTable exTable_numbered exTable_named
    exTable_tabular [exBatch] (by simpa using ⟨4, exBatch_shape⟩) (exBatch_readable _) exBatch_fits
  rw [writeFile_eq] at h1
  obtain ⟨w, h2, h3⟩ := Res.bind_ok_inv (x := writeBatches exEnv exFOpts exTable [exBatch]) h1
  exact ⟨w, file, h2, h3⟩

/-- The hypotheses of the theorems are met: four rows are in memory and three bytes on the disk; and a program may be stopped at any byte of what `Close` adds. -/
example : ∃ w file, writeBatches exEnv exFOpts exTable [exBatch] = .ok w ∧ w.close exEnv exFOpts = .ok file ∧ w.stripe.out = [0x4f#8, 0x52#8, 0x43#8] ∧
    w.stripe.info.numberOfRows = 4 ∧ ∀ n, CutShort exEnv exFOpts exTable [exBatch] (file.take (3 + n)) := by
  obtain ⟨w, file, hw, hf⟩ := exBatch_closed
  obtain ⟨h1, h2, -⟩ := interrupted_first_stripe exEnv exFOpts exTable [exBatch] exBatch_fits w hw
  refine ⟨w, file, hw, hf, h1, h2, fun n => .inClose w file hw hf ?_ (List.take_prefix _ _)⟩
  obtain ⟨t, ht⟩ := FileWriter.close_grows hf
  rw [← ht, h1, List.take_add]
  exact List.prefix_append _ _

end Goorc
