import Verif.Props.FileStats
/-
C60, C74: which files can be opened.
-/
namespace Goorc

/-- **C60** A file that was closed, with at least one row, can be opened, if its tail has at most 16384 bytes (C59). The reader has the
number of rows that were written. -/
theorem closed_file_opens_partial (E : Env) (hc : E.c.Lossless) (hp : E.P.Lossless) (o : FOpts) (h1 : 1 ≤ o.chunkSize) (h2 : o.chunkSize < 2 ^ 23) (schema : Schema)
    (num : schema.Numbered) (named : schema.Named) (batches : List Vec) (hrows : (batches.map Vec.len).sum ≠ 0) (file : Bytes)
    (h : writeFile E o schema batches = .ok file) :
    ∃ parts ft ps, FileLayout E o schema.columns file parts ft ps ∧
      (SmallTail file ft → ∃ r, newReader E file = .ok r ∧ r.numberOfRows = (batches.map Vec.len).sum ∧ TypesOf schema r.schemas) := by
  obtain ⟨parts, ft, ps, hl, hn⟩ := file_layout E o schema batches file h
  refine ⟨parts, ft, ps, hl, fun htail => ?_⟩
  have hr := reads_of_lossless hp h2 hl htail
  obtain ⟨tail, ht1, ht2, ht3⟩ := newReader_layout hc h1 h2 hl hr
  have hlen : tail.length ≤ 16384 := by
    have : file.length = 3 + ft.contentLength + tail.length := by rw [ht2, hl.content]; simp; omega
    simp only [SmallTail] at htail
    omega
  rw [if_pos hlen] at ht3
  obtain ⟨heap, types, k1, k2, k3⟩ := types_found num named hl.nulls
  have hn0 : ft.numberOfRows ≠ 0 := by rw [hl.rows, hn]; exact hrows
  exact ⟨_, by simp only [newReader, ht3, Res.ok_bind, if_neg hn0, hl.types, k1, k2]; rfl, by rw [hl.rows, hn], k3⟩

/-- The file a reader has open is another one. -/
def FileReader.on (file : Bytes) (r : FileReader) : FileReader := { r with file := file }

/-- **C74, refuted** The three bytes at the beginning of a file are not looked at: with any others the file opens in the same way. -/
theorem magic_not_checked (E : Env) (hc : E.c.Lossless) (o : FOpts) (h1 : 1 ≤ o.chunkSize) (h2 : o.chunkSize < 2 ^ 23) (columns : List Schema)
    (file : Bytes) (parts : List StripeParts) (ft : FileFooter) (ps : PostScript) (hl : FileLayout E o columns file parts ft ps) (hr : E.P.Reads parts ft ps)
    (a b c : Byte) (r : FileReader) :
    newReader E file = .ok r ↔ newReader E ([a, b, c] ++ file.drop 3) = .ok (r.on ([a, b, c] ++ file.drop 3)) ∧ r.file = file := by
  obtain ⟨tail, hf, ht⟩ := hl.bytes
  have e1 := file_tail_found E hc o h1 h2 ft ps ([0x4f#8, 0x52#8, 0x43#8] ++ parts.flatMap (·.bytes)) tail ht (by simp) hr.footer hr.postScript hr.short
  have e2 := file_tail_found E hc o h1 h2 ft ps ([a, b, c] ++ parts.flatMap (·.bytes)) tail ht (by simp) hr.footer hr.postScript hr.short
  have hd : [a, b, c] ++ file.drop 3 = [a, b, c] ++ parts.flatMap (·.bytes) ++ tail := by rw [hf]; simp
  rw [← hf] at e1
  rw [← hd] at e2
  generalize [a, b, c] ++ file.drop 3 = file' at *
  simp only [newReader, e1, e2]
  by_cases hs : tail.length ≤ 16384
  · simp only [if_pos hs, Res.ok_bind]
    split
    · simp
    · cases unmarshallSchema ft.types with
      | ok ts =>
        simp only [Res.ok_bind]
        cases setHasNulls ts ft.statistics with
        | ok ss =>
          simp only [Res.ok_bind, Res.pure_eq, Res.ok.injEq, FileReader.on]
          constructor
          · intro h; subst h; exact ⟨rfl, rfl⟩
          · rintro ⟨h, hfile⟩
            cases r
            simp only [FileReader.mk.injEq] at h ⊢
            exact ⟨hfile.symm, h.2⟩
        | err e => simp [Bind.bind, Res.bind]
        | panic => simp [Bind.bind, Res.bind]
        | hang => simp [Bind.bind, Res.bind]
      | err e => simp [Bind.bind, Res.bind]
      | panic => simp [Bind.bind, Res.bind]
      | hang => simp [Bind.bind, Res.bind]
  · simp [if_neg hs, Bind.bind, Res.bind]

/-- **C74, refuted** A file whose first three bytes are zero is opened. -/
theorem magic_false : ∃ file r, writeFile exEnv ⟨⟨⟨.zlib, 10, false⟩, 2⟩, 0⟩ exDoubles [exDoubleBatch] = .ok file ∧
    newReader exEnv ([0, 0, 0] ++ file.drop 3) = .ok r := by
  have hw : ∃ file, writeFile exEnv ⟨⟨⟨.zlib, 10, false⟩, 2⟩, 0⟩ exDoubles [exDoubleBatch] = .ok file ∧ file.length ≤ 16384 := by
    have : (match writeFile exEnv ⟨⟨⟨.zlib, 10, false⟩, 2⟩, 0⟩ exDoubles [exDoubleBatch] with | .ok f => decide (f.length ≤ 16384) | _ => false) = true := by decide +kernel
    split at this
    · rename_i f h; exact ⟨f, h, by simpa using this⟩
    · simp at this
  obtain ⟨file, h1, hlen⟩ := hw
  obtain ⟨parts, ft, ps, hl, h3⟩ := small_stripes_unreadable exEnv runCodec_lossless plainProto_lossless ⟨⟨⟨.zlib, 10, false⟩, 2⟩, 0⟩ rfl (by decide) (by decide) exDoubles rfl exDoubles_named [exDoubleBatch] file h1
    (by decide +kernel)
  have htail : SmallTail file ft := by simp only [SmallTail]; omega
  obtain ⟨r, hr, -⟩ := h3 htail
  exact ⟨file, _, h1, ((magic_not_checked exEnv runCodec_lossless _ (by decide) (by decide) _ file parts ft ps hl
    (reads_of_lossless plainProto_lossless (by decide) hl htail) 0 0 0 r).1 hr).1⟩

end Goorc
