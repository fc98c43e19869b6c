import Verif.Props.FileLayout
import Verif.Props.Chunk
/-
C36, C59, C64: writing without compression, and finding the footer again.
-/
namespace Goorc

/-- **C59** A file that ends with a tail: the footer and the postscript are found, exactly as they were, if the tail has at
most 16384 bytes. A longer tail makes opening the file panic. -/
theorem file_tail_found (E : Env) (hc : E.c.Lossless) (o : FOpts) (h1 : 1 ≤ o.chunkSize) (h2 : o.chunkSize < 2 ^ 23)
    (ft : FileFooter) (ps : PostScript) (pre tail : Bytes) (ht : IsTail E o ft ps tail) (hpre : 3 ≤ pre.length)
    (hf : E.P.readFileFooter (E.P.fileFooter ft) = some ft) (hp : E.P.readPostScript (E.P.postScript ps) = some ps)
    (hs : (E.P.postScript ps).length < 256) :
    extractFileTail E (pre ++ tail) = if tail.length ≤ 16384 then .ok (some ⟨ps, ft⟩) else .panic := by
  obtain ⟨fb, htail, hfb, hps⟩ := ht
  generalize hpb : E.P.postScript ps = pb at *
  have htl : tail.length = fb.length + pb.length + 1 := by rw [htail]; simp; omega
  have hlen : (pre ++ tail).length = pre.length + tail.length := by simp
  have hdec : (if ps.compression ≠ .none then decompressChunks E.c ps.compression fb else pure fb : Res Bytes) = .ok (E.P.fileFooter ft) := by
    rw [hps]
    show (if o.kind ≠ .none then decompressChunks E.c o.kind fb else pure fb : Res Bytes) = _
    cases hk : o.kind with
    | none => simp [hk] at hfb; simp [hfb]
    | zlib =>
      rw [hk] at hfb
      simp only [reduceCtorEq, if_false] at hfb
      obtain ⟨dst, e1, e2⟩ := chunks_roundtrip E.c hc o.chunkSize h1 h2 (E.P.fileFooter ft)
      rw [e1] at hfb
      injection hfb with hfb
      simp only [ne_eq, reduceCtorEq, not_false_eq_true, if_true]
      rw [← hfb]; exact e2
    | other =>
      rw [hk] at hfb
      simp only [reduceCtorEq, if_false] at hfb
      rw [(chunks_kind E.c o.chunkSize _).2.1] at hfb
      simp at hfb
  have hfl : ps.footerLength = fb.length := by rw [hps]
  have hml : ps.metadataLength = 0 := by rw [hps]
  simp only [extractFileTail]
  rw [if_neg (by omega), if_neg (by omega)]
  have hg : directorySizeGuess = 16384 := rfl
  -- the bytes read first
  generalize hrs : min (pre ++ tail).length directorySizeGuess = rs
  have hrs0 : rs ≤ pre.length + tail.length := by omega
  have hread : readAt (pre ++ tail) (((pre ++ tail).length : Int) - rs) rs = .ok ((pre ++ tail).drop ((pre ++ tail).length - rs)) := by
    simp only [readAt]
    rw [if_neg (by omega)]
    have : (((pre ++ tail).length : Int) - rs).toNat = (pre ++ tail).length - rs := by omega
    rw [this, if_pos (by omega), List.take_of_length_le (by simp; omega)]
  rw [hread]
  simp only [Res.ok_bind]
  generalize hbuf : (pre ++ tail).drop ((pre ++ tail).length - rs) = buf
  have hbl : buf.length = rs := by rw [← hbuf]; simp; omega
  by_cases hle : tail.length ≤ 16384
  · rw [if_pos hle]
    have hb : buf = pre.drop ((pre ++ tail).length - rs) ++ (fb ++ pb ++ [BitVec.ofNat 8 pb.length]) := by
      rw [← hbuf, List.drop_append, htail]
      have : (pre ++ (fb ++ pb ++ [BitVec.ofNat 8 pb.length])).length - rs - pre.length = 0 := by
        rw [htail] at hlen htl
        rw [hlen]; rw [← htail] at *; omega
      rw [this, List.drop_zero]
    generalize hq : pre.drop ((pre ++ tail).length - rs) = q at hb
    have hql : q.length = rs - tail.length := by rw [← hq]; simp; omega
    have hlast : buf.getD (rs - 1) 0 = BitVec.ofNat 8 pb.length := by
      rw [hb]
      rw [List.getD_eq_getElem?_getD]
      rw [← List.append_assoc, List.getElem?_append_right (by simp; omega)]
      have : rs - 1 - (q ++ (fb ++ pb)).length = 0 := by simp; omega
      rw [this]; rfl
    rw [hlast]
    have hbv : (BitVec.ofNat 8 pb.length).toNat = pb.length := by simp; omega
    rw [hbv]
    have hs1 : sliceAt buf ((rs : Int) - 1 - pb.length) pb.length = .ok pb := by
      simp only [sliceAt]
      have : ((rs : Int) - 1 - pb.length).toNat = (q ++ fb).length := by simp; omega
      rw [this, if_pos (by rw [hbl]; simp; omega)]
      rw [hb]
      have : q ++ (fb ++ pb ++ [BitVec.ofNat 8 pb.length]) = (q ++ fb) ++ (pb ++ [BitVec.ofNat 8 pb.length]) := by simp
      rw [this, List.drop_left, List.take_left]
    rw [hs1]
    simp only [Res.ok_bind, unmarshal, hp, hfl, hml]
    have hex : pb.length + 1 + fb.length + 0 - rs = 0 := by omega
    rw [hex]
    simp only [Nat.lt_irrefl, if_false, pure_bind]
    have hs2 : sliceAt buf ((rs : Int) - 1 - pb.length - fb.length) fb.length = .ok fb := by
      simp only [sliceAt]
      have : ((rs : Int) - 1 - pb.length - fb.length).toNat = q.length := by omega
      rw [this, if_pos (by omega)]
      rw [hb, List.append_assoc, List.drop_left, List.take_left]
    rw [hs2]
    simp only [Res.ok_bind]
    rw [hdec]
    simp only [Res.ok_bind, hf]
    rfl
  · rw [if_neg hle]
    have hrs1 : rs = 16384 := by omega
    have hlast : buf.getD (rs - 1) 0 = BitVec.ofNat 8 pb.length := by
      rw [← hbuf, List.getD_eq_getElem?_getD, List.getElem?_drop]
      have : (pre ++ tail).length - rs + (rs - 1) = (pre ++ (fb ++ pb)).length := by simp; omega
      rw [this, htail]
      have : pre ++ (fb ++ pb ++ [BitVec.ofNat 8 pb.length]) = (pre ++ (fb ++ pb)) ++ [BitVec.ofNat 8 pb.length] := by simp
      rw [this, List.getElem?_append_right (Nat.le_refl _)]
      simp
    rw [hlast]
    have hbv : (BitVec.ofNat 8 pb.length).toNat = pb.length := by simp; omega
    rw [hbv]
    have hs1 : sliceAt buf ((rs : Int) - 1 - pb.length) pb.length = .ok pb := by
      simp only [sliceAt]
      have : ((rs : Int) - 1 - pb.length).toNat = rs - 1 - pb.length := by omega
      rw [this, if_pos (by rw [hbl]; omega)]
      rw [← hbuf, List.drop_drop]
      have : (pre ++ tail).length - rs + (rs - 1 - pb.length) = (pre ++ fb).length := by simp; omega
      rw [this, htail]
      have : pre ++ (fb ++ pb ++ [BitVec.ofNat 8 pb.length]) = (pre ++ fb) ++ (pb ++ [BitVec.ofNat 8 pb.length]) := by simp
      rw [this, List.drop_left, List.take_left]
    rw [hs1]
    simp only [Res.ok_bind, unmarshal, hp, hfl, hml]
    rw [if_pos (by omega)]
    have hr2 : ∃ e, readAt (pre ++ tail) (((pre ++ tail).length : Int) - rs - ↑(pb.length + 1 + fb.length + 0 - rs)) (pb.length + 1 + fb.length + 0 - rs) = .ok e := by
      simp only [readAt]
      rw [if_neg (by omega), if_pos (by omega)]
      exact ⟨_, rfl⟩
    obtain ⟨e, hr2⟩ := hr2
    rw [hr2]
    simp only [Res.ok_bind, pure_bind]
    simp only [sliceAt]
    rw [if_neg (by omega)]
    rfl

/-- A file of the empty list is a nil tail, files of up to three bytes are refused. -/
theorem file_tail_short (E : Env) (file : Bytes) (h : file.length ≤ 3) :
    extractFileTail E file = if file = [] then .ok none else .err .other := by
  simp only [extractFileTail]
  by_cases hf : file = []
  · subst hf; rfl
  · rw [if_neg (by simpa using hf), if_pos h, if_neg hf]

/-- **C64, refuted** Opening an empty file is not reported as an error: it panics. -/
theorem open_empty_file (E : Env) : newReader E [] = .panic := rfl

/-- **C64** Files of one to three bytes are reported. -/
theorem open_short_file_partial (E : Env) (file : Bytes) (h1 : file ≠ []) (h2 : file.length ≤ 3) : newReader E file = .err .other := by
  simp only [newReader, file_tail_short E file h2, if_neg h1]; rfl

example (E : Env) : newReader E [0x4f#8, 0x52#8, 0x43#8] = .err .other := open_short_file_partial E _ (by simp) (by simp)

/-- A stripe cannot be finished without compression, whatever was written. -/
theorem flushOut_kind (E : Env) (o : FOpts) (hk : o.kind ≠ .zlib) (s s' : StripeWriter) : s.flushOut E o ≠ .ok s' := by
  intro h
  simp only [StripeWriter.flushOut] at h
  obtain ⟨ws1, -, h⟩ := Res.bind_ok_inv h
  obtain ⟨⟨ws2, body⟩, -, h⟩ := Res.bind_ok_inv h
  simp only [StripeWriter.writeFooter] at h
  obtain ⟨fb, h3, -⟩ := Res.bind_ok_inv h
  revert h3
  cases hkk : o.kind with
  | none => rw [(chunks_kind E.c o.chunkSize _).1]; simp
  | zlib => exact absurd hkk hk
  | other => rw [(chunks_kind E.c o.chunkSize _).2.1]; simp

/-- **C36, refuted** With compression NONE (or any other than ZLIB) no file can be closed, whatever the schema and the rows. -/
theorem uncompressed_never_closes (E : Env) (o : FOpts) (hk : o.kind ≠ .zlib) (schema : Schema) (batches : List Vec) (file : Bytes) :
    writeFile E o schema batches ≠ .ok file := by
  intro h
  simp only [writeFile, FileWriter.close, FileWriter.finish] at h
  obtain ⟨w, -, h⟩ := Res.bind_ok_inv h
  obtain ⟨w1, -, h⟩ := Res.bind_ok_inv h
  obtain ⟨w2, h1, -⟩ := Res.bind_ok_inv h
  obtain ⟨s, h2, -⟩ := Res.bind_ok_inv h1
  exact flushOut_kind E o hk _ _ h2

/-- **C36** It is an error that is reported (nothing panics, nothing is an endless loop) if the columns themselves can be
written out. -/
theorem uncompressed_reports_partial (E : Env) (o : FOpts) (hk : o.kind ≠ .zlib) (w : FileWriter) (ws ws' : List AnyWriter) (body : Bytes)
    (h1 : onWriters (fun w => w.flush E.A E.c o.toCOpts) w.stripe.writers = .ok ws)
    (h2 : StripeWriter.writeOuts E.A o.toCOpts ws = .ok (ws', body)) : w.close E o = .err .other := by
  simp only [FileWriter.close, FileWriter.finish, StripeWriter.flushOut, h1, Res.ok_bind, h2, StripeWriter.writeFooter]
  cases hkk : o.kind with
  | none => rw [(chunks_kind E.c o.chunkSize _).1]; rfl
  | zlib => exact absurd hkk hk
  | other => rw [(chunks_kind E.c o.chunkSize _).2.1]; rfl

/-- What opening a file that was closed gives. -/
theorem newReader_layout {E : Env} (hc : E.c.Lossless) {o : FOpts} (h1 : 1 ≤ o.chunkSize) (h2 : o.chunkSize < 2 ^ 23)
    {columns : List Schema} {file : Bytes} {parts : List StripeParts} {ft : FileFooter} {ps : PostScript}
    (hl : FileLayout E o columns file parts ft ps) (hr : E.P.Reads parts ft ps) :
    ∃ tail, IsTail E o ft ps tail ∧ file = [0x4f#8, 0x52#8, 0x43#8] ++ parts.flatMap (·.bytes) ++ tail ∧
      extractFileTail E file = if tail.length ≤ 16384 then .ok (some ⟨ps, ft⟩) else .panic := by
  obtain ⟨tail, e1, e2⟩ := hl.bytes
  refine ⟨tail, e2, e1, ?_⟩
  rw [e1]
  exact file_tail_found E hc o h1 h2 ft ps _ tail e2 (by simp) hr.footer hr.postScript hr.short

/-- **C60, refuted** A file without rows can be closed, but not opened: that is reported as an error. -/
theorem no_rows_not_opened (E : Env) (hc : E.c.Lossless) (o : FOpts) (h1 : 1 ≤ o.chunkSize) (h2 : o.chunkSize < 2 ^ 23)
    (schema : Schema) (batches : List Vec) (hb : (batches.map Vec.len).sum = 0) (file : Bytes)
    (h : writeFile E o schema batches = .ok file) :
    ∃ parts ft ps, FileLayout E o schema.columns file parts ft ps ∧
      (E.P.Reads parts ft ps → newReader E file = .err .other ∨ newReader E file = .panic) := by
  obtain ⟨parts, ft, ps, hl, hn⟩ := file_layout E o schema batches file h
  refine ⟨parts, ft, ps, hl, fun hr => ?_⟩
  obtain ⟨tail, -, -, e⟩ := newReader_layout hc h1 h2 hl hr
  simp only [newReader, e]
  split
  · left
    simp only [Res.ok_bind]
    rw [if_pos (by rw [hl.rows, hn, hb])]
  · right; rfl

end Goorc
