import Verif.Proofs.Total
import Verif.Props.Proto
import Verif.Props.ColumnStats
/-
C67, C69, C70: writing a table does not fail, and what was written can be read.
-/
namespace Goorc

section
variable (E : Env) (hc : E.c.Lossless) (o : FOpts) (hz : o.kind = .zlib) (h1 : 1 ≤ o.chunkSize) (h2 : o.chunkSize < 2 ^ 23)
  (schema : Schema) (num : schema.Numbered) (tab : schema.Tabular) (batches : List Vec) (hb : ∀ v ∈ batches, ∃ len, schema.Batch len v)

include E o hb in
theorem batches_ids : ∀ v ∈ batches, ∀ r ∈ v.tableRows, r.map (·.1) = schema.leafIds := by
  intro v hv r hr
  obtain ⟨len, hl⟩ := hb v hv
  obtain ⟨e1, e2⟩ := Schema.Batch.spec (A := E.A) (c := E.c) (o := o.toCOpts) schema v hl
  simp only [Vec.tableRows, List.mem_map, List.mem_range] at hr
  obtain ⟨i, hi, rfl⟩ := hr
  exact (e2 i (by omega)).1

include hb in
theorem batches_values : ∀ v ∈ batches, ∀ j < v.len, ∀ ws, writeValue E.A E.c o.toCOpts j ws v = writeCells E.A E.c o.toCOpts ws (v.raw j) := by
  intro v hv j hj
  obtain ⟨len, hl⟩ := hb v hv
  obtain ⟨e1, e2⟩ := Schema.Batch.spec (A := E.A) (c := E.c) (o := o.toCOpts) schema v hl
  exact (e2 j (by omega)).2

theorem raws_table : (batches.flatMap Vec.rawRows).map rowOf = batches.flatMap Vec.tableRows := by
  rw [List.map_flatMap]
  congr 1
  funext v
  exact v.rawRows_table

include E o hb in
theorem rows_readable {wi : Bool} {seg : Raws} (hseg : seg <:+: batches.flatMap Vec.rawRows) (h : TableReadable wi schema (seg.map rowOf)) :
    RowsReadable wi (schema.columns.map (·.node)) (seg.map rowOf) := by
  refine ⟨fun r hr => ?_, fun n hn hk => ?_⟩
  · obtain ⟨x, hx, rfl⟩ := List.mem_map.1 hr
    obtain ⟨v, hv, hx⟩ := List.mem_flatMap.1 (hseg.subset hx)
    have := batches_ids E o schema batches hb v hv (rowOf x) (by rw [← v.rawRows_table]; exact List.mem_map_of_mem hx)
    rw [this, List.filter_map, List.map_map]; rfl
  · obtain ⟨c, hc, rfl⟩ := List.mem_map.1 hn
    exact h.values c hc hk

include hc hz h1 h2 num tab hb in
/-- **C67** Writing a table does not fail, whatever the stripe size: if row indexes are not written, and every segment of the
rows can be read back and leaves nothing behind, then neither `Write` nor `Close` reports an error. -/
theorem write_succeeds_partial (hwi : o.writeIndex = false)
    (hseg : ∀ seg, seg <:+: batches.flatMap Vec.tableRows → TableReadable false schema seg ∧ TableClean schema seg) :
    ∃ file, writeFile E o schema batches = .ok file := by
  have ho : o.toWOpts.Sound := ⟨.inr hz, h1, h2⟩
  have hids : (schema.columns.map (·.node)).map (·.id) = List.range (schema.columns.map (·.node)).length := by
    rw [List.map_map, List.length_map]; exact num
  obtain ⟨w, e1, e2, e3⟩ := newWriter_ok (E := E) ho num tab
  have hgood : ∀ seg, seg <:+: batches.flatMap Vec.rawRows → RowsReadable false (schema.columns.map (·.node)) (seg.map rowOf) ∧ RowsClean (schema.columns.map (·.node)) (seg.map rowOf) := by
    intro seg hs
    have := hseg (seg.map rowOf) (by rw [← raws_table]; exact List.IsInfix.map _ hs)
    refine ⟨rows_readable E o schema batches hb hs this.1, fun n hn hk => ?_⟩
    obtain ⟨c, hc, rfl⟩ := List.mem_map.1 hn
    exact this.2 c hc hk
  obtain ⟨w', d, r, f1, f2, ws, f3, f4⟩ := writes_any hc hz h1 h2 hwi hids hgood batches w [] [] (by simp) ⟨_, e3, rfl⟩
    (fun v hv => (hb v hv).elim fun _ h => Schema.Batch.lenPanics _ _ h) (batches_values E o schema batches hb)
  obtain ⟨ws1, ws2, ws3, body, g1, g2, g3, -⟩ := stripe_ok (A := E.A) hc ho hids f3 (rows := r) (by
    rw [hwi]; exact (hgood r ⟨d, [], by rw [f2]; simp⟩).1)
  rw [f4] at g1; injection g1 with g1; subst g1
  obtain ⟨file, k⟩ := close_ok hz h1 h2 hc w' g2 g3
  exact ⟨file, by simp only [writeFile, e1, f1, Res.ok_bind, k]⟩

theorem newWriter_writers {w : FileWriter} (e : newWriter E o schema = .ok w) : newWriters E.A o.toCOpts (schema.columns.map (·.node)) = .ok w.stripe.writers := by
  simp only [newWriter] at e
  obtain ⟨ss, h3, h4⟩ := Res.bind_ok_inv e
  obtain ⟨s, h5, h6⟩ := Res.bind_ok_inv h4
  injection h6 with h6; subst h6
  simp only [newStripeWriter] at h5
  obtain ⟨ws, h7, h8⟩ := Res.bind_ok_inv h5
  injection h8 with h8; subst h8
  rwa [((flat_iff _ _).1 h3).2.2] at h7

include hc hz h1 h2 num tab hb in
/-- **C67** Writing a table that can be read back does not fail if the rows fit into one stripe; with or without row indexes. -/
theorem write_one_stripe_partial (hr : TableReadable o.writeIndex schema (batches.flatMap Vec.tableRows)) (hfit : FitsOneStripe E o schema batches) :
    ∃ file, writeFile E o schema batches = .ok file := by
  have ho : o.toWOpts.Sound := ⟨.inr hz, h1, h2⟩
  have hids : (schema.columns.map (·.node)).map (·.id) = List.range (schema.columns.map (·.node)).length := by
    rw [List.map_map, List.length_map]; exact num
  obtain ⟨w, e1, e2, e3⟩ := newWriter_ok (E := E) (o := o) ho num tab
  obtain ⟨ws1, ws2, ws3, body, g1, g2, g3, -⟩ := stripe_ok (A := E.A) hc ho hids e3 (rows := batches.flatMap Vec.rawRows)
    (rows_readable E o schema batches hb (List.infix_refl _) (by rw [raws_table]; exact hr))
  obtain ⟨w', f1, f2⟩ := writes_ok (E := E) (o := o) batches w ws1 (fun v hv => (hb v hv).elim fun _ h => Schema.Batch.lenPanics _ _ h) (batches_values E _ schema batches hb) g1
    (fun rs ws hne hp h => hfit _ (newWriter_writers E o schema e1) rs ws hne hp h)
  obtain ⟨file, k⟩ := close_ok (o := o) hz h1 h2 hc w' (by rw [f2]; exact g2) g3
  exact ⟨file, by simp only [writeFile, e1, f1, Res.ok_bind, k]⟩

/-- The rows fit into one stripe if the stripe size is large enough. -/
theorem fits_large : ∃ S, ∀ stripeSize ≥ S, FitsOneStripe E { o with stripeSize := stripeSize } schema batches := by
  cases hws : newWriters E.A o.toCOpts (schema.columns.map (·.node)) with
  | ok ws0 =>
    obtain ⟨S, hS⟩ := size_bound (A := E.A) (c := E.c) (o := o.toCOpts) (batches.flatMap Vec.rawRows) ws0
    refine ⟨S, fun stripeSize hsize ws hw rs ws' _ hp h => ?_⟩
    rw [hws] at hw; injection hw with hw; subst hw
    exact Nat.lt_of_lt_of_le (hS rs ws' hp h) hsize
  | _ => exact ⟨0, fun _ _ ws hw => by rw [hws] at hw; simp at hw⟩

end

/-- The messages of a file can be read back, if protocol buffers are lossless and the tail is small. -/
theorem reads_of_lossless {E : Env} (hp : E.P.Lossless) {o : FOpts} (h2 : o.chunkSize < 2 ^ 23) {columns : List Schema} {file : Bytes} {parts : List StripeParts}
    {ft : FileFooter} {ps : PostScript} (hl : FileLayout E o columns file parts ft ps) (hlen : file.length ≤ 3 + ft.contentLength + 16384) : E.P.Reads parts ft ps := by
  refine ⟨fun p _ => hp.stripeFooter _, hp.fileFooter _, hp.postScript _, ?_⟩
  obtain ⟨tail, e1, fb, e2, -, e3⟩ := hl.bytes
  have : fb.length < 2 ^ 63 := by
    rw [e1, e2, hl.content] at hlen
    simp only [List.length_append, List.length_cons, List.length_nil] at hlen
    omega
  rw [e3]
  exact hp.short _ _ _ this (by omega)

/-- The tail of a file, from the end of the last stripe on, is not larger than the 16 KiB a reader looks at. -/
def SmallTail (file : Bytes) (ft : FileFooter) : Prop := file.length ≤ 3 + ft.contentLength + 16384

section
variable (E : Env) (hc : E.c.Lossless) (hp : E.P.Lossless) (o : FOpts) (hz : o.kind = .zlib) (h1 : 1 ≤ o.chunkSize) (h2 : o.chunkSize < 2 ^ 23)
  (schema : Schema) (num : schema.Numbered) (named : schema.Named) (tab : schema.Tabular) (batches : List Vec) (hb : ∀ v ∈ batches, ∃ len, schema.Batch len v)
include hc hp hz h1 h2 num named tab hb

/-- **C67** A table of two rows or more that fits into one stripe is written, and read back: all rows, in order, the chosen columns of
them. Partial: the column types and values are restricted (`Tabular`, `TableReadable`), all rows must fit into one stripe, and the number
of rows must not be one more than a multiple of the batch size. -/
theorem table_round_trip_partial (hr : TableReadable o.writeIndex schema (batches.flatMap Vec.tableRows)) (hfit : FitsOneStripe E o schema batches) :
    ∃ file part ft ps, writeFile E o schema batches = .ok file ∧ FileLayout E o schema.columns file [part] ft ps ∧
      part.rows = (batches.flatMap Vec.tableRows).length ∧
      (SmallTail file ft → 2 ≤ (batches.flatMap Vec.tableRows).length → ∀ bo : BatchOption, bo.Selects schema → 2 ≤ bo.rowSize →
        (batches.flatMap Vec.tableRows).length % bo.rowSize ≠ 1 → bo.notCreateVector = false →
        ∀ fuel, ∃ k, readFile E fuel schema bo k file = .ok ((batches.flatMap Vec.tableRows).map (Row.only (schema.leaves bo)), true)) := by
  obtain ⟨file, hfile⟩ := write_one_stripe_partial E hc o hz h1 h2 schema num tab batches hb hr hfit
  obtain ⟨parts, ft, ps, init, last, hl, hrows, hflat, -, hone, hread⟩ := file_round_trip_partial E hc o h1 h2 schema num named tab batches
    (batches_ids E o schema batches hb) file hfile
  have := hone hfit
  subst this
  simp only [List.nil_append, List.flatten_cons, List.flatten_nil, List.append_nil] at hflat
  subst hflat
  obtain ⟨part, rfl⟩ : ∃ p, parts = [p] := by
    have := congrArg List.length hrows
    simpa [List.length_eq_one_iff] using this
  refine ⟨file, part, ft, ps, hfile, hl, by simpa using hrows, fun htail h2' bo hsel hB hmod hmake fuel => ?_⟩
  have hst : StripesReadable o.writeIndex schema [batches.flatMap Vec.tableRows] := by
    refine ⟨.inr rfl, fun rows h => ?_, fun rows h => ?_, by simp⟩
    · simp only [List.mem_cons, List.not_mem_nil, or_false] at h
      subst h
      rintro h; rw [h] at h2'; simp at h2'
    · simp only [List.mem_cons, List.not_mem_nil, or_false] at h
      subst h
      exact hr
  obtain ⟨g1, g2, g3⟩ := hread (reads_of_lossless hp h2 hl htail) htail hst bo hsel (by omega) hmake fuel
  obtain ⟨k, rows, hk⟩ := g2.2 (by simp [lostRows])
  refine ⟨k, ?_⟩
  have := g3 k rows hk
  rw [hk, this]
  have hl' : losesLast bo.rowSize (batches.flatMap Vec.tableRows).length = false := by
    simp only [losesLast, Bool.and_eq_false_iff, Bool.or_eq_false_iff, beq_eq_false_iff_ne]
    exact .inr ⟨by omega, hmod⟩
  simp only [delivered, lostRows, List.filter_nil, List.length_nil, if_true, List.flatten_nil, List.nil_append, hl', Bool.false_eq_true, or_false]
  rw [if_neg (by omega)]

/-- **C67** A table that can be read back whatever the stripe size is: writing it succeeds, and if the last stripe has rows then
no call of a reader fails; the loop of `Next` ends exactly if at most one stripe before the last loses its last row, and then
has delivered all rows but those. -/
theorem table_stripes_partial (hwi : o.writeIndex = false)
    (hseg : ∀ seg, seg <:+: batches.flatMap Vec.tableRows → TableReadable false schema seg ∧ TableClean schema seg) :
    ∃ file parts ft ps init last, writeFile E o schema batches = .ok file ∧ FileLayout E o schema.columns file parts ft ps ∧
      parts.map (·.rows) = (init ++ [last]).map (·.length) ∧ (init ++ [last]).flatten = batches.flatMap Vec.tableRows ∧ (∀ rows ∈ init, rows ≠ []) ∧
      (SmallTail file ft → last ≠ [] → ∀ bo : BatchOption, bo.Selects schema → bo.rowSize ≠ 0 → bo.notCreateVector = false → ∀ fuel,
          (∀ k, ∃ rows stop, readFile E fuel schema bo k file = .ok (rows, stop)) ∧
          ((∃ k rows, readFile E fuel schema bo k file = .ok (rows, true)) ↔ lostRows bo.rowSize init ≤ 1) ∧
          ∀ k rows, readFile E fuel schema bo k file = .ok (rows, true) → rows = (delivered bo.rowSize init last).map (Row.only (schema.leaves bo))) := by
  obtain ⟨file, hfile⟩ := write_succeeds_partial E hc o hz h1 h2 schema num tab batches hb hwi hseg
  obtain ⟨parts, ft, ps, init, last, hl, hrows, hflat, hfill, -, hread⟩ := file_round_trip_partial E hc o h1 h2 schema num named tab batches
    (batches_ids E o schema batches hb) file hfile
  have hinf : ∀ rows ∈ init ++ [last], rows <:+: batches.flatMap Vec.tableRows := by
    intro rows h
    rw [← hflat]
    obtain ⟨a, b, e⟩ := List.append_of_mem h
    rw [e]
    exact ⟨a.flatten, b.flatten, by simp⟩
  refine ⟨file, parts, ft, ps, init, last, hfile, hl, hrows, hflat, hfill, fun htail hlast bo hsel hB hmake fuel =>
    hread (reads_of_lossless hp h2 hl htail) htail ⟨.inl hwi, fun rows h => ?_, fun rows h => ?_, fun rows h => ?_⟩ bo hsel hB hmake fuel⟩
  · rcases List.mem_append.1 h with h | h
    · exact hfill rows h
    · simp only [List.mem_cons, List.not_mem_nil, or_false] at h
      subst h; exact hlast
  · rw [hwi]; exact (hseg rows (hinf rows h)).1
  · exact (hseg rows (hinf rows ((List.dropLast_sublist _).subset h))).2

end

/-! ### Bytes, booleans and doubles -/

theorem forall_map {α β : Type} {f : α → β} {l : List β} (h : ∀ v ∈ l, ∃ x, v = f x) : ∃ xs : List α, l = xs.map f := by
  induction l with
  | nil => exact ⟨[], rfl⟩
  | cons v l ih =>
    obtain ⟨x, rfl⟩ := h v (by simp)
    obtain ⟨xs, rfl⟩ := ih fun v hv => h v (by simp [hv])
    exact ⟨x :: xs, rfl⟩

/-- Any bytes, booleans and doubles can be read back, in any number. -/
theorem typed_readable {s : Schema} {rows : List Row} (h : TableTyped s rows) (wi : Bool) : TableReadable wi s rows := by
  refine ⟨h.nulls, fun c hc hk => ?_⟩
  obtain ⟨t, h1, h2, h3⟩ := h.values c hc hk
  intro t' ht
  obtain rfl : t = t' := by rw [h1] at ht; simpa using ht
  have key : ∀ v ∈ (rows.map (Row.cell c.node.id)).filterMap fun x => x, t.Holds v := by
    intro v hv
    obtain ⟨x, hx, hxv⟩ := List.mem_filterMap.1 hv
    obtain ⟨r, hr, rfl⟩ := List.mem_map.1 hx
    exact h3 r hr v hxv
  rcases h2 with rfl | rfl | rfl
  · exact forall_map fun v hv => by have := key v hv; cases v <;> simp [LeafTag.Holds] at this ⊢
  · exact forall_map fun v hv => by have := key v hv; cases v <;> simp [LeafTag.Holds] at this ⊢
  · exact forall_map fun v hv => by have := key v hv; cases v <;> simp [LeafTag.Holds] at this ⊢

theorem NullsFit.subset {s : Schema} {rows rows' : List Row} (h : NullsFit s rows) (hs : rows' ⊆ rows) : NullsFit s rows' :=
  ⟨fun hk hn r hr => h.root hk hn r (hs hr), fun c hc hk hn r hr => h.blank c hc hk hn r (hs hr), fun c hc d hd hk hn r hr => h.below c hc d hd hk hn r (hs hr)⟩

/-- The rows of one stripe without booleans and nulls leave nothing behind. -/
theorem typed_clean {s : Schema} {rows : List Row} (hn : ∀ c ∈ s.columns, c.node.hasNulls = false ∧ newWriterTag c.node.kind c.node.encoding ≠ .ok (.leaf .bool)) :
    TableClean s rows := by
  intro c hc _
  obtain ⟨h1, h2⟩ := hn c hc
  refine ⟨fun h => by rw [h1] at h; simp at h, fun t ht => ?_⟩
  cases t <;> simp only [LeafTag.NothingStale]
  exact absurd ht h2

section
variable (E : Env) (hc : E.c.Lossless) (hp : E.P.Lossless) (o : FOpts) (hz : o.kind = .zlib) (h1 : 1 ≤ o.chunkSize) (h2 : o.chunkSize < 2 ^ 23)
  (schema : Schema) (num : schema.Numbered) (named : schema.Named) (tab : schema.Tabular) (batches : List Vec) (hb : ∀ v ∈ batches, ∃ len, schema.Batch len v)
include hc hp hz h1 h2 num named tab hb

/-- **C67** Tables of bytes, booleans and doubles, nested in structs, with or without nulls: whatever the values, and however many rows
there are, if the stripe size is large enough the table is written, and read back by any client whose batch size does not
leave a single row. -/
theorem typed_round_trip_partial (ht : TableTyped schema (batches.flatMap Vec.tableRows)) :
    ∃ S, ∀ stripeSize ≥ S, ∃ file part ft ps, writeFile E { o with stripeSize := stripeSize } schema batches = .ok file ∧
      FileLayout E { o with stripeSize := stripeSize } schema.columns file [part] ft ps ∧ part.rows = (batches.flatMap Vec.tableRows).length ∧
      (SmallTail file ft → 2 ≤ (batches.flatMap Vec.tableRows).length → ∀ bo : BatchOption, bo.Selects schema → 2 ≤ bo.rowSize →
        (batches.flatMap Vec.tableRows).length % bo.rowSize ≠ 1 → bo.notCreateVector = false →
        ∀ fuel, ∃ k, readFile E fuel schema bo k file = .ok ((batches.flatMap Vec.tableRows).map (Row.only (schema.leaves bo)), true)) := by
  obtain ⟨S, hS⟩ := fits_large E o schema batches
  exact ⟨S, fun stripeSize hs => table_round_trip_partial E hc hp { o with stripeSize := stripeSize } hz h1 h2 schema num named tab batches hb (typed_readable ht _) (hS stripeSize hs)⟩

/-- **C67** Tables of bytes and doubles without nulls, whatever the stripe size: if the last stripe has rows, no call of a client
that writes and then reads fails, and the loop of `Next` ends exactly if at most one stripe loses a row. -/
theorem typed_stripes_partial (ht : TableTyped schema (batches.flatMap Vec.tableRows)) (hwi : o.writeIndex = false)
    (hn : ∀ c ∈ schema.columns, c.node.hasNulls = false ∧ newWriterTag c.node.kind c.node.encoding ≠ .ok (.leaf .bool)) :
    ∃ file parts ft ps init last, writeFile E o schema batches = .ok file ∧ FileLayout E o schema.columns file parts ft ps ∧
      parts.map (·.rows) = (init ++ [last]).map (·.length) ∧ (init ++ [last]).flatten = batches.flatMap Vec.tableRows ∧ (∀ rows ∈ init, rows ≠ []) ∧
      (SmallTail file ft → last ≠ [] → ∀ bo : BatchOption, bo.Selects schema → bo.rowSize ≠ 0 → bo.notCreateVector = false → ∀ fuel,
          (∀ k, ∃ rows stop, readFile E fuel schema bo k file = .ok (rows, stop)) ∧
          ((∃ k rows, readFile E fuel schema bo k file = .ok (rows, true)) ↔ lostRows bo.rowSize init ≤ 1) ∧
          ∀ k rows, readFile E fuel schema bo k file = .ok (rows, true) → rows = (delivered bo.rowSize init last).map (Row.only (schema.leaves bo))) :=
  table_stripes_partial E hc hp o hz h1 h2 schema num named tab batches hb hwi fun seg hseg =>
    ⟨typed_readable ⟨ht.nulls.subset hseg.subset, fun c hc hk => by
      obtain ⟨t, a, b, d⟩ := ht.values c hc hk
      exact ⟨t, a, b, fun r hr => d r (hseg.subset hr)⟩⟩ _, typed_clean hn⟩

end

/-! ### A last stripe without rows -/

/-- **C70, refuted** A file whose last stripe has no rows (the stripe size was reached with the last row that was written) cannot be
read: whatever the columns chosen, `CreateBatchReader` fails. -/
theorem empty_last_stripe (E : Env) (hc : E.c.Lossless) (hp : E.P.Lossless) (o : FOpts) (h1 : 1 ≤ o.chunkSize) (h2 : o.chunkSize < 2 ^ 23)
    (columns : List Schema) (file : Bytes) (parts : List StripeParts) (ft : FileFooter) (ps : PostScript) (hl : FileLayout E o columns file parts ft ps)
    (hempty : ∃ p ∈ parts, p.rows = 0) (r : FileReader) (hr : newReader E file = .ok r) (htail : SmallTail file ft) (bo : BatchOption) :
    ∀ br, r.createBatchReader E bo ≠ .ok br := by
  intro br hbr
  obtain ⟨tail, ht1, ht2, ht3⟩ := newReader_layout hc h1 h2 hl (reads_of_lossless hp h2 hl htail)
  have hlen : tail.length ≤ 16384 := by
    have : file.length = 3 + ft.contentLength + tail.length := by rw [ht2, hl.content]; simp; omega
    simp only [SmallTail] at htail
    omega
  rw [if_pos hlen] at ht3
  simp only [newReader, ht3, Res.ok_bind] at hr
  split at hr
  · simp at hr
  obtain ⟨ts, -, hr⟩ := Res.bind_ok_inv hr
  obtain ⟨schemas, -, hr⟩ := Res.bind_ok_inv hr
  injection hr with hr; subst hr
  simp only [FileReader.createBatchReader] at hbr
  split at hbr
  · simp at hbr
  obtain ⟨ss, hss, -⟩ := Res.bind_ok_inv hbr
  have key : ∀ (is : List StripeInfo), (∃ i ∈ is, i.numberOfRows = 0) → ∀ ss, initStripes E ⟨ps.compression, (if ps.compression ≠ .none then ps.blockSize else defaultChunkSize), ft.rowIndexStride⟩ bo file schemas is ≠ .ok ss := by
    intro is
    induction is with
    | nil => simp
    | cons i is ih =>
      rintro ⟨j, hj, h0⟩ ss h
      simp only [initStripes] at h
      split at h
      · simp at h
      · rename_i hi
        obtain ⟨s, -, h⟩ := Res.bind_ok_inv h
        obtain ⟨ss', h, -⟩ := Res.bind_ok_inv h
        rcases List.mem_cons.1 hj with rfl | hj
        · exact hi h0
        · exact ih ⟨j, hj, h0⟩ ss' h
  refine key ft.stripes ?_ ss hss
  obtain ⟨p, hpm, h0⟩ := hempty
  have hrows := stripeTable_rows 3 parts
  rw [← hl.stripes] at hrows
  have : (0 : Nat) ∈ ft.stripes.map (·.numberOfRows) := by
    rw [hrows]; exact List.mem_map.2 ⟨p, hpm, h0⟩
  obtain ⟨i, hi, hi0⟩ := List.mem_map.1 this
  exact ⟨i, hi, hi0⟩

/-- **C70** It is an error, and no panic, if the stripes before the one without rows can be opened. -/
theorem empty_stripe_errs (E : Env) (r : FileReader) (bo : BatchOption) (is1 is2 : List StripeInfo) (i : StripeInfo) (hs : r.stripes = is1 ++ i :: is2)
    (hi : i.numberOfRows = 0) (hok : ∀ j ∈ is1, j.numberOfRows = 0 ∨ ∃ s, newStripeReader E r.opts bo r.file r.schemas j = .ok s) :
    r.createBatchReader E bo = .err .other := by
  have key : ∀ is1 : List StripeInfo, (∀ j ∈ is1, j.numberOfRows = 0 ∨ ∃ s, newStripeReader E r.opts bo r.file r.schemas j = .ok s) →
      initStripes E r.opts bo r.file r.schemas (is1 ++ i :: is2) = .err .other := by
    intro is1 h
    induction is1 with
    | nil => rw [List.nil_append, initStripes, if_pos hi]
    | cons j is ih =>
      rw [List.cons_append, initStripes]
      split
      · rfl
      · rename_i hj
        obtain ⟨s, hs⟩ := (h j (by simp)).resolve_left hj
        rw [hs, Res.ok_bind, ih fun k hk => h k (by simp [hk])]
        rfl
  simp only [FileReader.createBatchReader, hs]
  split
  · rfl
  · rw [key is1 hok]; rfl

/-- A file with rows can be opened. -/
theorem newReader_ok {E : Env} (hc : E.c.Lossless) (hp : E.P.Lossless) {o : FOpts} (h1 : 1 ≤ o.chunkSize) (h2 : o.chunkSize < 2 ^ 23) {schema : Schema} (num : schema.Numbered)
    (named : schema.Named) {file : Bytes} {parts : List StripeParts} {ft : FileFooter} {ps : PostScript} (hl : FileLayout E o schema.columns file parts ft ps)
    (htail : SmallTail file ft) (hrows : ∃ p ∈ parts, p.rows ≠ 0) : ∃ r, newReader E file = .ok r := by
  obtain ⟨tail, ht1, ht2, ht3⟩ := newReader_layout hc h1 h2 hl (reads_of_lossless hp h2 hl htail)
  have hlen : tail.length ≤ 16384 := by
    have : file.length = 3 + ft.contentLength + tail.length := by rw [ht2, hl.content]; simp; omega
    simp only [SmallTail] at htail
    omega
  rw [if_pos hlen] at ht3
  obtain ⟨heap, types, k1, k2, k3⟩ := types_found num named hl.nulls
  have hn0 : ft.numberOfRows ≠ 0 := by
    rw [hl.rows]
    obtain ⟨p, hpm, h0⟩ := hrows
    intro h
    rw [List.sum_eq_zero_iff_forall_eq_nat] at h
    exact h0 (h _ (List.mem_map_of_mem hpm))
  exact ⟨_, by simp only [newReader, ht3, Res.ok_bind, if_neg hn0, hl.types, k1, k2]; rfl⟩

/-- **C70, refuted** With a stripe size that every row reaches, every table is lost: whatever is written, the file can be closed and
opened, but no batch reader can be created for it. -/
theorem small_stripes_unreadable (E : Env) (hc : E.c.Lossless) (hp : E.P.Lossless) (o : FOpts) (hs : o.stripeSize = 0) (h1 : 1 ≤ o.chunkSize) (h2 : o.chunkSize < 2 ^ 23)
    (schema : Schema) (num : schema.Numbered) (named : schema.Named) (batches : List Vec) (file : Bytes) (h : writeFile E o schema batches = .ok file)
    (hrows : batches.flatMap Vec.tableRows ≠ []) :
    ∃ parts ft ps, FileLayout E o schema.columns file parts ft ps ∧ (SmallTail file ft →
      ∃ r, newReader E file = .ok r ∧ ∀ bo br, r.createBatchReader E bo ≠ .ok br) := by
  obtain ⟨ws0, done, ws, rows, p, ws3, ft, ps, hw0, hruns, hrun, hsmall, hl, hall, -⟩ := file_traced h
  have hr : rows = [] := by
    cases rows with
    | nil => rfl
    | cons r rows =>
      obtain ⟨ws1, -, k, -⟩ := hrun
      rw [List.flatten_cons, writeCells_append] at k
      obtain ⟨ws', k, -⟩ := Res.bind_ok_inv k
      have := hsmall [r] ws' (by simp) (by simp) (by simpa using k)
      omega
  subst hr
  have hp0 : p.rows = 0 := by obtain ⟨_, _, _, _, _, _, e, -⟩ := hrun; exact e
  have hdr : ∃ q ∈ done.map (·.2) ++ [p], q.rows ≠ 0 := by
    cases done with
    | nil =>
      simp only [rowsOf, List.flatMap_nil, List.nil_append] at hall
      have := congrArg (List.map rowOf) hall
      rw [raws_table] at this
      exact absurd this.symm hrows
    | cons d done =>
      refine ⟨d.2, by simp, ?_⟩
      have := hl.filled d.2 (by rw [List.dropLast_concat]; simp)
      omega
  refine ⟨_, ft, ps, hl, fun htail => ?_⟩
  obtain ⟨r, hr⟩ := newReader_ok hc hp h1 h2 num named hl htail hdr
  exact ⟨r, hr, fun bo br => empty_last_stripe E hc hp o h1 h2 schema.columns file _ ft ps hl ⟨p, by simp, hp0⟩ r hr htail bo br⟩

/-! ### Schemas without nullable structs -/

theorem LeftSpine.mem {s c : Schema} (h : LeftSpine s c) : c ∈ s.columns := by
  induction h with
  | here s => exact self_mem_columns s
  | down n c cs d nested below ih => exact columns_trans (child_mem_columns (s := .mk n (c :: cs)) (by simp [Schema.children])) ih

theorem Schema.Tabular.of_plain {s : Schema} (plain : ∀ c ∈ s.columns, c.node.Plain) (leaf : ∀ c ∈ s.columns, c.node.kind = .struct ∨ c.children = [])
    (nulls : ∀ c ∈ s.columns, c.node.kind = .struct → c.node.hasNulls = false) : s.Tabular := by
  refine ⟨plain, leaf, fun c hc hn d hd => ?_, fun c hc hn d hd => ?_⟩
  · rcases leaf c hc with h | h
    · rw [nulls c hc h] at hn; simp at hn
    · rw [h] at hd; simp at hd
  · rcases leaf c hc.mem with h | h
    · rw [nulls c hc.mem h] at hn; simp at hn
    · rw [h] at hd; simp at hd

/-- Without nullable structs: a row of a column that is not nullable is not null. -/
theorem NullsFit.of_plain {s : Schema} {rows : List Row} (leaf : ∀ c ∈ s.columns, c.node.kind = .struct ∨ c.children = [])
    (nulls : ∀ c ∈ s.columns, c.node.kind = .struct → c.node.hasNulls = false)
    (h : ∀ c ∈ s.columns, c.node.kind ≠ .struct → c.node.hasNulls = false → ∀ r ∈ rows, (r.cell c.node.id).isSome = true) : NullsFit s rows := by
  refine ⟨fun hk hn r hr => ?_, fun c hc hk hn => ?_, fun c hc d hd hk hn r hr => ?_⟩
  · have := h s (self_mem_columns s) hk hn r hr
    cases hx : r.cell s.node.id <;> simp_all
  · rw [nulls c hc hk] at hn; simp at hn
  · have := h d (columns_child hc hd) hk hn r hr
    rcases leaf c hc with h' | h'
    · rw [nulls c hc h']
      cases hx : r.cell d.node.id <;> simp_all
    · rw [h'] at hd; simp at hd

/-! ### A table -/

/-- `struct<n:int, s:string>`; the numbers may be null. -/
def exTable : Schema := .mk ⟨0, .struct, .direct, false, ["n", "s"]⟩ [.mk ⟨1, .int, .directV2, true, []⟩ [], .mk ⟨2, .string, .directV2, false, []⟩ []]

/-- Four rows, with room for six. -/
def exBatch : Vec := .mk 0 .struct none [
  .mk 1 .int (some ⟨[⟨false, .i32 70000⟩, ⟨true, .nil⟩, ⟨false, .i32 70000⟩, ⟨false, .i32 70000⟩, ⟨false, .nil⟩, ⟨false, .nil⟩], 4⟩) [],
  .mk 2 .string (some ⟨[⟨false, .str [104, 105]⟩, ⟨false, .str [106, 111]⟩, ⟨false, .str [97, 98]⟩, ⟨false, .str [99, 100]⟩, ⟨false, .nil⟩, ⟨false, .nil⟩], 4⟩) []]

theorem exTable_numbered : exTable.Numbered := rfl

theorem exTable_named : exTable.Named := by
  intro c hc
  simp only [exTable, Schema.columns, columnsAll, List.append_nil, List.cons_append, List.nil_append, List.mem_cons, List.not_mem_nil, or_false] at hc
  rcases hc with rfl | rfl | rfl <;> simp [node_mk, Schema.children]

theorem exTable_columns {P : Schema → Prop} (h0 : P exTable) (h1 : P (.mk ⟨1, .int, .directV2, true, []⟩ [])) (h2 : P (.mk ⟨2, .string, .directV2, false, []⟩ [])) :
    ∀ c ∈ exTable.columns, P c := by
  intro c hc
  simp only [exTable, Schema.columns, columnsAll, List.append_nil, List.cons_append, List.nil_append, List.mem_cons, List.not_mem_nil, or_false] at hc
  rcases hc with rfl | rfl | rfl
  · exact h0
  · exact h1
  · exact h2

theorem exTable_tabular : exTable.Tabular :=
  .of_plain (exTable_columns (.inl ⟨rfl, rfl⟩) (.inr ⟨.int .int, rfl, rfl, trivial⟩) (.inr ⟨.string, rfl, rfl, trivial⟩))
    (exTable_columns (.inl rfl) (.inr rfl) (.inr rfl)) (exTable_columns (fun _ => rfl) (by simp [node_mk]) (by simp [node_mk]))

theorem exBatch_shape : exTable.Batch 4 exBatch := by
  refine .struct _ _ _ rfl rfl (by simp) (.cons (.leaf _ _ (by decide) rfl (by decide)) (.cons (.leaf _ _ (by decide) rfl (by decide)) .nil))

theorem exBatch_rows : [exBatch].flatMap Vec.tableRows =
    [[(1, some (.i32 70000)), (2, some (.str [104, 105]))], [(1, none), (2, some (.str [106, 111]))],
     [(1, some (.i32 70000)), (2, some (.str [97, 98]))], [(1, some (.i32 70000)), (2, some (.str [99, 100]))]] := by decide +kernel

theorem exBatch_readable (wi : Bool) : TableReadable wi exTable ([exBatch].flatMap Vec.tableRows) := by
  rw [exBatch_rows]
  refine ⟨.of_plain (exTable_columns (.inl rfl) (.inr rfl) (.inr rfl)) (exTable_columns (fun _ => rfl) (by simp [node_mk]) (by simp [node_mk]))
    (exTable_columns (fun h => absurd rfl h) (by simp [node_mk]) (by simp [node_mk, Row.cell, List.lookup])), exTable_columns (fun h => absurd rfl h) (fun _ t ht => ?_) (fun _ t ht => ?_)⟩
  · obtain rfl : LeafTag.int .int = t := by simpa [node_mk, newWriterTag] using ht
    exact ⟨[70000, 70000, 70000], by decide, by simp [IntBits.fits], int_const_roundtrip_partial 3 70000 (by decide) ⟨3, by decide, by decide, by decide, by decide⟩⟩
  · obtain rfl : LeafTag.string = t := by simpa [node_mk, newWriterTag] using ht
    exact ⟨[[104, 105], [106, 111], [97, 98], [99, 100]], by decide, by decide,
      uint_const_roundtrip_partial 4 2 (by decide) ⟨1, by decide, by decide, by decide, by decide⟩⟩

noncomputable def exEnv : Env := ⟨exArith, runCodec, plainProto⟩

/-- Row indexes are written, every two rows. -/
def exFOpts : FOpts := ⟨⟨⟨.zlib, 10, true⟩, 2⟩, 1000⟩

/-- No prefix of the rows has more bytes than that. -/
theorem fits_of_sizes {E : Env} {o : FOpts} {schema : Schema} {batches : List Vec} {ws0 : List AnyWriter} (h0 : newWriters E.A o.toCOpts (schema.columns.map (·.node)) = .ok ws0)
    (h : ∀ k < (batches.flatMap Vec.rawRows).length + 1, (match writeCells E.A E.c o.toCOpts ws0 ((batches.flatMap Vec.rawRows).take k).flatten with
      | .ok ws => stripeBytes E.A o.toCOpts ws | _ => 0) < o.stripeSize) : FitsOneStripe E o schema batches := by
  intro ws hw rs ws' _ hp h1
  rw [h0] at hw; injection hw with hw; subst hw
  have := h rs.length (Nat.lt_succ_of_le hp.length_le)
  rw [← List.prefix_iff_eq_take.1 hp, h1] at this
  exact this

theorem exBatch_fits : FitsOneStripe exEnv exFOpts exTable [exBatch] := by
  have h : ∃ ws0, newWriters exEnv.A exFOpts.toCOpts (exTable.columns.map (·.node)) = .ok ws0 := ⟨_, rfl⟩
  obtain ⟨ws0, h0⟩ := h
  refine fits_of_sizes h0 ?_
  obtain rfl : _ = ws0 := Res.ok.inj ((show newWriters exEnv.A exFOpts.toCOpts (exTable.columns.map (·.node)) = .ok _ from rfl).symm.trans h0)
  decide +kernel

/-- All of **C67** for this table: it is written, 863 bytes, and a client that reads the column of strings by batches of six gets all of them. -/
example : ∃ file, writeFile exEnv exFOpts exTable [exBatch] = .ok file ∧ file.length = 863 ∧
    ∀ fuel, ∃ k, readFile exEnv fuel exTable ⟨[0, 2], 6, false⟩ k file =
      .ok ([[(2, some (.str [104, 105]))], [(2, some (.str [106, 111]))], [(2, some (.str [97, 98]))], [(2, some (.str [99, 100]))]], true) := by
  obtain ⟨file, part, ft, ps, h1, h2, h3, h4⟩ := table_round_trip_partial exEnv runCodec_lossless plainProto_lossless exFOpts rfl (by decide) (by decide) exTable exTable_numbered exTable_named
    exTable_tabular [exBatch] (by simpa using ⟨4, exBatch_shape⟩) (exBatch_readable _) exBatch_fits
  have hlen : file.length = 863 := by
    have : (match writeFile exEnv exFOpts exTable [exBatch] with | .ok f => f.length | _ => 0) = 863 := by decide +kernel
    rw [h1] at this
    exact this
  refine ⟨file, h1, hlen, fun fuel => ?_⟩
  have := h4 (by simp only [SmallTail]; omega) (by rw [exBatch_rows]; decide) ⟨[0, 2], 6, false⟩ ⟨rfl, by
    intro c hc
    simp only [exTable, Schema.columns, columnsAll, List.append_nil, List.cons_append, List.nil_append, List.mem_cons, List.not_mem_nil, or_false] at hc
    rcases hc with rfl | rfl | rfl <;> decide⟩ (by decide) (by rw [exBatch_rows]; decide) rfl fuel
  rw [exBatch_rows] at this
  exact this

/-- Doubles, not null: any segment of rows of such a column can be read back, and nothing is left behind. -/
def exDoubles : Schema := .mk ⟨0, .struct, .direct, false, ["x"]⟩ [.mk ⟨1, .double, .direct, false, []⟩ []]

def exDoubleBatch : Vec := .mk 0 .struct none [.mk 1 .double (some ⟨[⟨false, .f64 1⟩, ⟨false, .f64 2⟩, ⟨false, .f64 3⟩], 3⟩) []]

theorem exDoubles_columns {P : Schema → Prop} (h0 : P exDoubles) (h1 : P (.mk ⟨1, .double, .direct, false, []⟩ [])) : ∀ c ∈ exDoubles.columns, P c := by
  intro c hc
  simp only [exDoubles, Schema.columns, columnsAll, List.append_nil, List.mem_cons, List.not_mem_nil, or_false] at hc
  rcases hc with rfl | rfl
  · exact h0
  · exact h1

theorem exDoubles_tabular : exDoubles.Tabular :=
  .of_plain (exDoubles_columns (.inl ⟨rfl, rfl⟩) (.inr ⟨.float true, rfl, rfl, trivial⟩)) (exDoubles_columns (.inl rfl) (.inr rfl))
    (exDoubles_columns (fun _ => rfl) (by simp [node_mk]))

theorem exDoubles_named : exDoubles.Named := by
  intro c hc
  simp only [exDoubles, Schema.columns, columnsAll, List.append_nil, List.cons_append, List.nil_append, List.mem_cons, List.not_mem_nil, or_false] at hc
  rcases hc with rfl | rfl <;> simp [node_mk, Schema.children]

/-- A table of doubles is lost if the stripe size is 0. -/
example : ∃ file, writeFile exEnv ⟨⟨⟨.zlib, 10, false⟩, 2⟩, 0⟩ exDoubles [exDoubleBatch] = .ok file ∧
    ∃ r, newReader exEnv file = .ok r ∧ ∀ bo br, r.createBatchReader exEnv bo ≠ .ok br := by
  have hw : ∃ file, writeFile exEnv ⟨⟨⟨.zlib, 10, false⟩, 2⟩, 0⟩ exDoubles [exDoubleBatch] = .ok file ∧ file.length ≤ 16384 := by
    have : (match writeFile exEnv ⟨⟨⟨.zlib, 10, false⟩, 2⟩, 0⟩ exDoubles [exDoubleBatch] with | .ok f => decide (f.length ≤ 16384) | _ => false) = true := by decide +kernel
    split at this
    · rename_i f h; exact ⟨f, h, by simpa using this⟩
    · simp at this
  obtain ⟨file, h1, hlen⟩ := hw
  obtain ⟨parts, ft, ps, -, h3⟩ := small_stripes_unreadable exEnv runCodec_lossless plainProto_lossless ⟨⟨⟨.zlib, 10, false⟩, 2⟩, 0⟩ rfl (by decide) (by decide) exDoubles rfl exDoubles_named [exDoubleBatch] file h1
    (by decide +kernel)
  exact ⟨file, h1, h3 (by simp only [SmallTail]; omega)⟩

/-! ### A table with a nullable struct -/

/-- `struct<id:double, p:struct<x:double, y:tinyint>>`; `p` and `y` may be null. -/
def exPoints : Schema := .mk ⟨0, .struct, .direct, false, ["id", "p"]⟩ [.mk ⟨1, .double, .direct, false, []⟩ [],
  .mk ⟨2, .struct, .direct, true, ["x", "y"]⟩ [.mk ⟨3, .double, .direct, false, []⟩ [], .mk ⟨4, .byte, .direct, true, []⟩ []]]

/-- Four rows; `p` is null in the second, `y` in the third. -/
def exPointBatch : Vec := .mk 0 .struct none [
  .mk 1 .double (some ⟨[⟨false, .f64 1⟩, ⟨false, .f64 2⟩, ⟨false, .f64 3⟩, ⟨false, .f64 4⟩], 4⟩) [],
  .mk 2 .struct (some ⟨[⟨false, .nil⟩, ⟨true, .nil⟩, ⟨false, .nil⟩, ⟨false, .nil⟩], 4⟩) [
    .mk 3 .double (some ⟨[⟨false, .f64 10⟩, ⟨true, .nil⟩, ⟨false, .f64 30⟩, ⟨false, .f64 40⟩], 4⟩) [],
    .mk 4 .byte (some ⟨[⟨false, .u8 7⟩, ⟨true, .nil⟩, ⟨true, .nil⟩, ⟨false, .u8 9⟩], 4⟩) []]]

theorem exPoints_columns {P : Schema → Prop} (h0 : P exPoints) (h1 : P (.mk ⟨1, .double, .direct, false, []⟩ []))
    (h2 : P (.mk ⟨2, .struct, .direct, true, ["x", "y"]⟩ [.mk ⟨3, .double, .direct, false, []⟩ [], .mk ⟨4, .byte, .direct, true, []⟩ []]))
    (h3 : P (.mk ⟨3, .double, .direct, false, []⟩ [])) (h4 : P (.mk ⟨4, .byte, .direct, true, []⟩ [])) : ∀ c ∈ exPoints.columns, P c := by
  intro c hc
  simp only [exPoints, Schema.columns, columnsAll, List.append_nil, List.cons_append, List.nil_append, List.mem_cons, List.not_mem_nil, or_false] at hc
  rcases hc with rfl | rfl | rfl | rfl | rfl
  · exact h0
  · exact h1
  · exact h2
  · exact h3
  · exact h4

theorem exPoints_named : exPoints.Named := exPoints_columns (by simp [exPoints, node_mk, Schema.children]) (by simp [node_mk, Schema.children])
  (by simp [node_mk, Schema.children]) (by simp [node_mk, Schema.children]) (by simp [node_mk, Schema.children])

theorem exPoints_tabular : exPoints.Tabular where
  plain := exPoints_columns (.inl ⟨rfl, rfl⟩) (.inr ⟨.float true, rfl, rfl, trivial⟩) (.inl ⟨rfl, rfl⟩) (.inr ⟨.float true, rfl, rfl, trivial⟩) (.inr ⟨.byte, rfl, rfl, trivial⟩)
  leaf := exPoints_columns (.inl rfl) (.inr rfl) (.inl rfl) (.inr rfl) (.inr rfl)
  structs := exPoints_columns (by simp [exPoints, node_mk]) (by simp [node_mk]) (by simp [node_mk, Schema.children]) (by simp [node_mk]) (by simp [node_mk, Schema.children])
  supported := by
    intro c hc
    cases hc with
    | here => simp [exPoints, node_mk]
    | down _ _ _ _ _ below =>
      cases below with
      | here => simp [node_mk]

theorem exPointBatch_shape : exPoints.Batch 4 exPointBatch :=
  .struct _ _ _ rfl rfl (by simp) (.cons (.leaf _ _ (by decide) rfl (by decide)) (.cons
    (.optional _ _ _ _ rfl rfl rfl (by decide) (by simp) (.cons (.leaf _ _ (by decide) rfl (by decide)) (.cons (.leaf _ _ (by decide) rfl (by decide)) .nil))) .nil))

theorem exPointBatch_rows : [exPointBatch].flatMap Vec.tableRows =
    [[(1, some (.f64 1)), (2, some .nil), (3, some (.f64 10)), (4, some (.u8 7))], [(1, some (.f64 2)), (2, none), (3, none), (4, none)],
     [(1, some (.f64 3)), (2, some .nil), (3, some (.f64 30)), (4, none)], [(1, some (.f64 4)), (2, some .nil), (3, some (.f64 40)), (4, some (.u8 9))]] := by decide +kernel

theorem exPointBatch_typed : TableTyped exPoints ([exPointBatch].flatMap Vec.tableRows) := by
  rw [exPointBatch_rows]
  refine ⟨⟨by simp [exPoints, node_mk], exPoints_columns ?_ ?_ ?_ ?_ ?_, exPoints_columns ?_ ?_ ?_ ?_ ?_⟩,
    exPoints_columns (fun h => absurd rfl h) (fun _ => ⟨.float true, rfl, by simp, ?_⟩) (fun h => absurd rfl h) (fun _ => ⟨.float true, rfl, by simp, ?_⟩) (fun _ => ⟨.byte, rfl, by simp, ?_⟩)⟩
  all_goals simp [exPoints, node_mk, Schema.children, Row.cell, List.lookup, LeafTag.Holds]

/-- **C67** for a table with a nullable struct: if the stripe size is large enough it is written and read back, the null struct and
what is in it too. -/
example : ∃ S, ∀ stripeSize ≥ S, ∃ file part ft ps, writeFile exEnv ⟨⟨⟨.zlib, 10, false⟩, 2⟩, stripeSize⟩ exPoints [exPointBatch] = .ok file ∧
    FileLayout exEnv ⟨⟨⟨.zlib, 10, false⟩, 2⟩, stripeSize⟩ exPoints.columns file [part] ft ps ∧
    (SmallTail file ft → ∀ fuel, ∃ k, readFile exEnv fuel exPoints ⟨[], 6, false⟩ k file =
      .ok ([[(1, some (.f64 1)), (2, some .nil), (3, some (.f64 10)), (4, some (.u8 7))], [(1, some (.f64 2)), (2, none), (3, none), (4, none)],
        [(1, some (.f64 3)), (2, some .nil), (3, some (.f64 30)), (4, none)], [(1, some (.f64 4)), (2, some .nil), (3, some (.f64 40)), (4, some (.u8 9))]], true)) := by
  obtain ⟨S, hS⟩ := typed_round_trip_partial exEnv runCodec_lossless plainProto_lossless ⟨⟨⟨.zlib, 10, false⟩, 2⟩, 0⟩ rfl (by decide) (by decide) exPoints rfl exPoints_named
    exPoints_tabular [exPointBatch] (by simpa using ⟨4, exPointBatch_shape⟩) exPointBatch_typed
  refine ⟨S, fun stripeSize hs => ?_⟩
  obtain ⟨file, part, ft, ps, h1, h2, -, h3⟩ := hS stripeSize hs
  refine ⟨file, part, ft, ps, h1, h2, fun ht fuel => ?_⟩
  have := h3 ht (by rw [exPointBatch_rows]; decide) ⟨[], 6, false⟩ ⟨rfl, exPoints_columns ?_ ?_ ?_ ?_ ?_⟩ (by decide) (by rw [exPointBatch_rows]; decide) rfl fuel
  · rw [exPointBatch_rows] at this
    exact this
  all_goals simp [exPoints, node_mk, Schema.children, BatchOption.isInclude]

end Goorc
