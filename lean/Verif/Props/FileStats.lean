import Verif.Props.Total
/-
C73: the statistics in the footer of a file.
-/
namespace Goorc

/-! ### What happens to one column of a file -/

/-- Calls on a column writer of any type, one after the other; the bytes written out are dropped. -/
def AnyWriter.run (A : Arith) (c : Codec) (o : COpts) : AnyWriter → List ColOp → Res AnyWriter
  | w, [] => .ok w
  | w, .write v :: ops => do
    let w ← w.write A c o v
    run A c o w ops
  | w, .flush :: ops => do
    let w ← w.flush A c o
    run A c o w ops
  | w, .writeOut :: ops => do
    let (w, _) ← w.writeOut A o
    run A c o w ops
  | w, .reset :: ops => do
    let w ← w.reset A o
    run A c o w ops

section
variable {A : Arith} {c : Codec} {o : COpts}

theorem AnyWriter.run_append (ops ops' : List ColOp) : ∀ w : AnyWriter, w.run A c o (ops ++ ops') = (w.run A c o ops >>= fun w => w.run A c o ops') := by
  induction ops with
  | nil => intro w; rfl
  | cons op ops ih =>
    intro w
    cases op <;> simp only [List.cons_append, AnyWriter.run, Res.bind_assoc, ih]

theorem rowsWritten_append (ops ops' : List ColOp) : rowsWritten (ops ++ ops') = rowsWritten ops ++ rowsWritten ops' := by
  induction ops with
  | nil => rfl
  | cons op ops ih => cases op <;> simp [rowsWritten, ih]

theorem AnyWriter.run_writes (vs : List Value) : ∀ w : AnyWriter, w.run A c o (vs.map .write) = w.writes A c o vs := by
  induction vs with
  | nil => intro w; rfl
  | cons v vs ih => intro w; simp only [List.map_cons, AnyWriter.run, AnyWriter.writes, ih]

theorem rowsWritten_writes (vs : List Value) : rowsWritten (vs.map .write) = vs := by
  induction vs with
  | nil => rfl
  | cons v vs ih => simp [rowsWritten, ih]

theorem AnyWriter.run_leaf {t : LeafTag} (ops : List ColOp) : ∀ {w : ColWriter t.δ t.κ} {w' : AnyWriter}, (AnyWriter.leaf t w).run A c o ops = .ok w' →
    ∃ w2, w' = .leaf t w2 ∧ (t.kind A).runOps c o w ops = .ok w2 := by
  induction ops with
  | nil => intro w w' h; injection h with h; exact ⟨w, h.symm, rfl⟩
  | cons op ops ih =>
    intro w w' h
    cases op <;> simp only [AnyWriter.run, AnyWriter.write, AnyWriter.flush, AnyWriter.writeOut, AnyWriter.reset, Res.bind_assoc] at h <;>
      obtain ⟨w1, h1, h⟩ := Res.bind_ok_inv h <;> simp only [Res.pure_eq, Res.ok_bind] at h <;> obtain ⟨w2, e1, e2⟩ := ih h <;>
      exact ⟨w2, e1, by simp only [LeafKind.runOps, h1, Res.ok_bind, e2]⟩

theorem onWriters_get {f : AnyWriter → Res AnyWriter} : ∀ {ws ws' : List AnyWriter}, onWriters f ws = .ok ws' → ∀ (j : Nat) (w : AnyWriter), ws[j]? = some w →
    ∃ w', ws'[j]? = some w' ∧ f w = .ok w'
  | [], _, _, j, w, hj => by simp at hj
  | x :: ws, ws', h, j, w, hj => by
    simp only [onWriters] at h
    obtain ⟨x1, h1, h⟩ := Res.bind_ok_inv h
    obtain ⟨ws1, h2, h⟩ := Res.bind_ok_inv h
    injection h with h; subst h
    cases j with
    | zero => simp at hj; subst hj; exact ⟨x1, by simp, h1⟩
    | succ j => simpa using onWriters_get h2 j w (by simpa using hj)

theorem writeOuts_get : ∀ {ws ws' : List AnyWriter} {b : Bytes}, StripeWriter.writeOuts A o ws = .ok (ws', b) → ∀ (j : Nat) (w : AnyWriter), ws[j]? = some w →
    ∃ w' x, ws'[j]? = some w' ∧ w.writeOut A o = .ok (w', x)
  | [], _, _, _, j, w, hj => by simp at hj
  | x :: ws, ws', b, h, j, w, hj => by
    simp only [StripeWriter.writeOuts] at h
    obtain ⟨⟨x1, b1⟩, h1, h⟩ := Res.bind_ok_inv h
    obtain ⟨⟨ws1, b2⟩, h2, h⟩ := Res.bind_ok_inv h
    injection h with h; injection h with h; subst h
    cases j with
    | zero => simp at hj; subst hj; exact ⟨x1, b1, by simp, h1⟩
    | succ j => simpa using writeOuts_get h2 j w (by simpa using hj)

end

section
variable {E : Env} {o : FOpts} {ns : List SchemaNode}

theorem StripeRun.history {ws ws3 : List AnyWriter} {rows : Raws} {p : StripeParts} (h : StripeRun E o ns ws rows p ws3) (j : Nat) (w : AnyWriter) (hj : ws[j]? = some w) :
    ∃ w', ws3[j]? = some w' ∧ w.run E.A E.c o.toCOpts ((columnOf j rows.flatten).map .write ++ [.flush, .writeOut]) = .ok w' := by
  obtain ⟨ws1, ws2, h1, h2, h3, -, -⟩ := h
  obtain ⟨w1, e1, f1⟩ := (writeCells_column _ _ _ h1).2 j w hj
  obtain ⟨w2, e2, f2⟩ := onWriters_get h2 j w1 e1
  obtain ⟨w3, x, e3, f3⟩ := writeOuts_get h3 j w2 e2
  refine ⟨w3, e3, ?_⟩
  simp only [AnyWriter.run_append, AnyWriter.run_writes, f1, Res.ok_bind, AnyWriter.run, f2, f3]

theorem StripeRuns.history {ws0 ws : List AnyWriter} {done : List (Raws × StripeParts)} (h : StripeRuns E o ns ws0 done ws) (j : Nat) (w0 : AnyWriter) (hj : ws0[j]? = some w0) :
    ∃ w ops, ws[j]? = some w ∧ w0.run E.A E.c o.toCOpts ops = .ok w ∧ rowsWritten ops = columnOf j (done.flatMap (·.1)).flatten := by
  induction h with
  | nil => exact ⟨w0, [], hj, rfl, rfl⟩
  | @snoc done ws ws3 ws4 rows p h run full reset ih =>
    obtain ⟨w, ops, e1, e2, e3⟩ := ih
    obtain ⟨w3, e4, e5⟩ := run.history j w e1
    obtain ⟨w4, e6, e7⟩ := onWriters_get reset j w3 e4
    refine ⟨w4, ops ++ (((columnOf j rows.flatten).map .write ++ [.flush, .writeOut]) ++ [.reset]), e6, ?_, ?_⟩
    · rw [AnyWriter.run_append, e2, Res.ok_bind, AnyWriter.run_append, e5]
      simp only [Res.ok_bind, AnyWriter.run, e7]
    · simp only [rowsWritten_append, rowsWritten_writes, e3, rowsWritten, List.append_nil, List.flatMap_append, List.flatMap_cons, List.flatMap_nil,
        List.flatten_append, columnOf_append]

end

theorem newWriters_get {A : Arith} {o : COpts} : ∀ {ns : List SchemaNode} {ws : List AnyWriter}, newWriters A o ns = .ok ws → ∀ (j : Nat) (n : SchemaNode), ns[j]? = some n →
    ∃ w, ws[j]? = some w ∧ AnyWriter.new A o n = .ok w
  | [], _, _, j, n, hj => by simp at hj
  | x :: ns, ws, h, j, n, hj => by
    simp only [newWriters] at h
    obtain ⟨x1, h1, h⟩ := Res.bind_ok_inv h
    obtain ⟨ws1, h2, h⟩ := Res.bind_ok_inv h
    injection h with h; subst h
    cases j with
    | zero => simp at hj; subst hj; exact ⟨x1, by simp, h1⟩
    | succ j => simpa using newWriters_get h2 j n (by simpa using hj)

/-- The statistics of a column in the footer are those of its writer after writing the column's values, with a flush, the output and a
reset between stripes. -/
theorem file_column_history (E : Env) (o : FOpts) (schema : Schema) (num : schema.Numbered) (batches : List Vec)
    (hb : ∀ v ∈ batches, ∃ len, schema.Batch len v) (file : Bytes) (h : writeFile E o schema batches = .ok file) :
    ∃ parts ft ps, FileLayout E o schema.columns file parts ft ps ∧ ft.statistics.length = schema.columns.length ∧
      ∀ c ∈ schema.columns, c.node.hasVector = true → ∃ w0 w ops, AnyWriter.new E.A o.toCOpts c.node = .ok w0 ∧ w0.run E.A E.c o.toCOpts ops = .ok w ∧
        (rowsWritten ops).map Value.row = (batches.flatMap Vec.tableRows).map (Row.cell c.node.id) ∧ ft.statistics[c.node.id]? = some w.stats := by
  obtain ⟨ws0, done, ws, rows, p, ws3, ft, ps, h1, h2, h3, -, h5, h6, h7⟩ := file_traced h
  refine ⟨_, ft, ps, h5, ?_, fun c hcol hk => ?_⟩
  · have := congrArg List.length h5.nulls
    simpa using this
  have hraw : (batches.flatMap Vec.rawRows).map rowOf = batches.flatMap Vec.tableRows := raws_table batches
  have hids : ∀ r ∈ batches.flatMap Vec.rawRows, (rowOf r).map (·.1) = schema.leafIds := by
    intro r hr
    obtain ⟨v, hv, hr⟩ := List.mem_flatMap.1 hr
    exact batches_ids E o schema batches hb v hv (rowOf r) (by rw [← v.rawRows_table]; exact List.mem_map_of_mem hr)
  have hget : (schema.columns.map (·.node))[c.node.id]? = some c.node := by
    obtain ⟨i, hi, he⟩ := List.getElem_of_mem hcol
    have : (schema.columns.map fun c => c.node.id)[i]? = some c.node.id := by simp [hi, he]
    rw [num, List.getElem?_range hi] at this
    injection this with this
    rw [← this]; simp [hi, he]
  obtain ⟨w0, e1, e2⟩ := newWriters_get h1 _ _ hget
  obtain ⟨w, ops, e3, e4, e5⟩ := h2.history _ _ e1
  obtain ⟨w', e6, e7⟩ := h3.history _ _ e3
  refine ⟨w0, w', ops ++ ((columnOf c.node.id rows.flatten).map .write ++ [.flush, .writeOut]), e2, ?_, ?_, ?_⟩
  · rw [AnyWriter.run_append, e4, Res.ok_bind, e7]
  · simp only [rowsWritten_append, rowsWritten_writes, e5, rowsWritten, List.append_nil, ← columnOf_append, ← List.flatten_append]
    rw [show done.flatMap (·.1) ++ rows = batches.flatMap Vec.rawRows from h6,
      columnOf_rows num.leafIds (List.mem_map.2 ⟨c, by simp [hcol, hk], rfl⟩) _ hids, hraw]
  · rw [h7]; simp [e6]

/-! ### The numbers -/

/-- `pb.ColumnStatistics.GetNumberOfValues`. -/
def AnyStats.numberOfValues : AnyStats → Nat
  | .leaf _ s => s.numberOfValues
  | .dict s => s.numberOfValues
  | .struct s => s.numberOfValues

theorem DictWriter.run_count {A : Arith} {c : Codec} {o : COpts} (ops : List ColOp) : ∀ {w : DictWriter} {w' : AnyWriter}, (AnyWriter.dict w).run A c o ops = .ok w' →
    w'.stats.numberOfValues = w.stats.numberOfValues + (valuesOf (rowsWritten ops)).length := by
  induction ops with
  | nil => intro w w' h; injection h with h; subst h; rfl
  | cons op ops ih =>
    intro w w' h
    cases op with
    | write v =>
      simp only [AnyWriter.run, AnyWriter.write, AnyWriter.flush, AnyWriter.writeOut, AnyWriter.reset, Res.bind_assoc] at h
      obtain ⟨w1, h1, h⟩ := Res.bind_ok_inv h
      simp only [Res.pure_eq, Res.ok_bind] at h
      rw [ih h]
      simp only [DictWriter.write] at h1
      obtain ⟨p, -, h1⟩ := Res.bind_ok_inv h1
      cases hn : v.null with
      | true =>
        simp only [hn, if_true] at h1
        injection h1 with h1; subst h1
        simp [rowsWritten, valuesOf, hn]
      | false =>
        simp only [hn, Bool.false_eq_true, if_false] at h1
        split at h1
        · injection h1 with h1; subst h1
          simp [rowsWritten, valuesOf, hn]; omega
        · simp at h1
    | flush =>
      simp only [AnyWriter.run, AnyWriter.write, AnyWriter.flush, AnyWriter.writeOut, AnyWriter.reset, Res.bind_assoc] at h
      obtain ⟨w1, h1, h⟩ := Res.bind_ok_inv h
      simp only [Res.pure_eq, Res.ok_bind] at h
      rw [ih h]
      simp only [DictWriter.flush] at h1
      iterate 8 obtain ⟨_, -, h1⟩ := Res.bind_ok_inv h1
      injection h1 with h1; subst h1; rfl
    | writeOut =>
      simp only [AnyWriter.run, AnyWriter.write, AnyWriter.flush, AnyWriter.writeOut, AnyWriter.reset, Res.bind_assoc] at h
      obtain ⟨w1, h1, h⟩ := Res.bind_ok_inv h
      simp only [Res.pure_eq, Res.ok_bind] at h
      rw [ih h]
      simp only [DictWriter.writeOut] at h1
      obtain ⟨_, -, h1⟩ := Res.bind_ok_inv h1
      injection h1 with h1; subst h1; rfl
    | reset =>
      simp only [AnyWriter.run, AnyWriter.write, AnyWriter.flush, AnyWriter.writeOut, AnyWriter.reset, Res.bind_assoc] at h
      obtain ⟨w1, h1, h⟩ := Res.bind_ok_inv h
      simp only [Res.pure_eq, Res.ok_bind] at h
      rw [ih h]
      simp only [DictWriter.reset] at h1
      iterate 4 obtain ⟨_, -, h1⟩ := Res.bind_ok_inv h1
      injection h1 with h1; subst h1; rfl

theorem valuesOf_rows (vs : List Value) : valuesOf vs = (vs.map Value.row).filterMap fun x => x := by
  simp only [valuesOf, List.filterMap_map]
  congr 1

theorem AnyWriter.run_count {A : Arith} {c : Codec} {o : COpts} {n : SchemaNode} {w0 w : AnyWriter} {ops : List ColOp} (hk : n.kind ≠ .struct)
    (h0 : AnyWriter.new A o n = .ok w0) (h : w0.run A c o ops = .ok w) : w.stats.numberOfValues = (valuesOf (rowsWritten ops)).length := by
  simp only [AnyWriter.new] at h0
  obtain ⟨t, h1, h0⟩ := Res.bind_ok_inv h0
  cases t with
  | leaf t =>
    injection h0 with h0; subst h0
    obtain ⟨w2, rfl, h2⟩ := AnyWriter.run_leaf ops h
    have := ((t.kind A).runOps_counts c o ops _ _ h2).2.2
    simpa [AnyWriter.stats, AnyStats.numberOfValues, LeafKind.newWriter] using this
  | dict =>
    injection h0 with h0; subst h0
    have := DictWriter.run_count ops h
    simpa [DictWriter.new] using this
  | struct =>
    exfalso
    revert h1 hk
    cases n.kind <;> cases n.encoding <;> simp [newWriterTag]

/-- **C73** In every file that was closed, the footer has statistics for every column, and the number of values it gives for a column with
values is the number of rows, in all batches, in which the column is not null. -/
theorem file_statistics (E : Env) (o : FOpts) (schema : Schema) (num : schema.Numbered) (batches : List Vec)
    (hb : ∀ v ∈ batches, ∃ len, schema.Batch len v) (file : Bytes) (h : writeFile E o schema batches = .ok file) :
    ∃ parts ft ps, FileLayout E o schema.columns file parts ft ps ∧ ft.statistics.length = schema.columns.length ∧
      ∀ c ∈ schema.columns, c.node.kind ≠ .struct → ∃ st, ft.statistics[c.node.id]? = some st ∧ st.hasNull = c.node.hasNulls ∧
        st.numberOfValues = ((batches.flatMap Vec.tableRows).filter fun r => (r.cell c.node.id).isSome).length := by
  obtain ⟨parts, ft, ps, h1, h2, h3⟩ := file_column_history E o schema num batches hb file h
  refine ⟨parts, ft, ps, h1, h2, fun c hc hk => ?_⟩
  obtain ⟨w0, w, ops, e1, e2, e3, e4⟩ := h3 c hc (SchemaNode.leaf_hasVector hk)
  refine ⟨_, e4, ?_, ?_⟩
  · have hget : (schema.columns.map fun c => c.node.hasNulls)[c.node.id]? = some c.node.hasNulls := by
      obtain ⟨i, hi, he⟩ := List.getElem_of_mem hc
      have : (schema.columns.map fun c => c.node.id)[i]? = some c.node.id := by simp [hi, he]
      rw [num, List.getElem?_range hi] at this
      injection this with this
      rw [← this]; simp [hi, he]
    rw [← h1.nulls] at hget
    simpa [e4] using hget
  · rw [AnyWriter.run_count hk e1 e2, valuesOf_rows, e3, List.filterMap_map]
    have : ∀ (rows : List Row) (f : Row → Option GoVal), (rows.filterMap ((fun x => x) ∘ f)).length = (rows.filter fun r => (f r).isSome).length := by
      intro rows f
      show (rows.filterMap fun x => f x).length = _
      induction rows with
      | nil => rfl
      | cons r rows ih =>
        rw [List.filterMap_cons, List.filter_cons]
        cases hf : f r <;> simp [hf, ih]
    exact this _ _

/-- The numbers in a column of integers. -/
def columnNumbers (j : Nat) (rows : List Row) : List Int := (rows.filterMap (Row.cell j)).map GoVal.number

/-- **C73** Columns of integers: the sum in the footer is the sum of the column (in 64 bits), the minimum and the maximum are those of the column
and of the number 0, that does not have to be in it (C44). -/
theorem file_int_statistics (E : Env) (o : FOpts) (schema : Schema) (num : schema.Numbered) (batches : List Vec)
    (hb : ∀ v ∈ batches, ∃ len, schema.Batch len v) (file : Bytes) (h : writeFile E o schema batches = .ok file) :
    ∃ parts ft ps, FileLayout E o schema.columns file parts ft ps ∧
      ∀ c ∈ schema.columns, ∀ bits, newWriterTag c.node.kind c.node.encoding = .ok (.leaf (.int bits)) →
        ∃ (st : ColStats IntStats) (s : IntStats), ft.statistics[c.node.id]? = some (.leaf (.int bits) st) ∧ st.typed = some s ∧
          Least (0 :: columnNumbers c.node.id (batches.flatMap Vec.tableRows)) s.min.toInt ∧
          Greatest (0 :: columnNumbers c.node.id (batches.flatMap Vec.tableRows)) s.max.toInt ∧
          s.sum = BitVec.ofInt 64 (columnNumbers c.node.id (batches.flatMap Vec.tableRows)).sum := by
  obtain ⟨parts, ft, ps, h1, h2, h3⟩ := file_column_history E o schema num batches hb file h
  refine ⟨parts, ft, ps, h1, fun c hc bits ht => ?_⟩
  have hk : c.node.kind ≠ .struct := by
    intro hk; rw [hk] at ht; cases he : c.node.encoding <;> simp [he, newWriterTag] at ht
  obtain ⟨w0, w, ops, e1, e2, e3, e4⟩ := h3 c hc (SchemaNode.leaf_hasVector hk)
  simp only [AnyWriter.new, ht, Res.ok_bind] at e1
  injection e1 with e1; subst e1
  obtain ⟨w2, rfl, f1⟩ := AnyWriter.run_leaf ops e2
  obtain ⟨s, g1, g2⟩ := int_column_stats bits E.c o.toCOpts c.node.hasNulls ops w2 f1
  rw [valuesOf_rows, e3, List.filterMap_map] at g2
  exact ⟨w2.stats, s, e4, g1, g2⟩

/-- **C73** Columns of booleans: the footer counts the rows that are true. -/
theorem file_bool_statistics (E : Env) (o : FOpts) (schema : Schema) (num : schema.Numbered) (batches : List Vec)
    (hb : ∀ v ∈ batches, ∃ len, schema.Batch len v) (file : Bytes) (h : writeFile E o schema batches = .ok file) :
    ∃ parts ft ps, FileLayout E o schema.columns file parts ft ps ∧
      ∀ c ∈ schema.columns, newWriterTag c.node.kind c.node.encoding = .ok (.leaf .bool) →
        ∃ st : ColStats Nat, ft.statistics[c.node.id]? = some (.leaf .bool st) ∧
          st.typed = some (((batches.flatMap Vec.tableRows).map (Row.cell c.node.id)).count (some (.bool true))) := by
  obtain ⟨parts, ft, ps, h1, h2, h3⟩ := file_column_history E o schema num batches hb file h
  refine ⟨parts, ft, ps, h1, fun c hc ht => ?_⟩
  have hk : c.node.kind ≠ .struct := by
    intro hk; rw [hk] at ht; cases he : c.node.encoding <;> simp [he, newWriterTag] at ht
  obtain ⟨w0, w, ops, e1, e2, e3, e4⟩ := h3 c hc (SchemaNode.leaf_hasVector hk)
  simp only [AnyWriter.new, ht, Res.ok_bind] at e1
  injection e1 with e1; subst e1
  obtain ⟨w2, rfl, f1⟩ := AnyWriter.run_leaf ops e2
  refine ⟨w2.stats, e4, ?_⟩
  rw [bool_column_stats E.c o.toCOpts c.node.hasNulls ops w2 f1, valuesOf_rows, e3]
  congr 1
  generalize (batches.flatMap Vec.tableRows).map (Row.cell c.node.id) = l
  induction l with
  | nil => rfl
  | cons x l ih => cases x <;> simp [List.filterMap_cons, List.count_cons, ih]

/-- **C73** What the footer says is what `GetStatistics` and `NumberOfRows` of a reader return. -/
theorem reader_statistics (E : Env) (hc : E.c.Lossless) (o : FOpts) (h1 : 1 ≤ o.chunkSize) (h2 : o.chunkSize < 2 ^ 23) (columns : List Schema)
    (file : Bytes) (parts : List StripeParts) (ft : FileFooter) (ps : PostScript) (hl : FileLayout E o columns file parts ft ps) (hr : E.P.Reads parts ft ps)
    (hs : file.length ≤ 3 + ft.contentLength + 16384) (r : FileReader) (h : newReader E file = .ok r) :
    r.stats = ft.statistics ∧ r.numberOfRows = ft.numberOfRows ∧ r.stripes = ft.stripes := by
  obtain ⟨tail, hf, ht⟩ := hl.bytes
  have hlen : tail.length ≤ 16384 := by
    have := hl.content
    rw [hf] at hs
    simp only [List.length_append, List.length_cons, List.length_nil] at hs
    omega
  have he := file_tail_found E hc o h1 h2 ft ps ([0x4f#8, 0x52#8, 0x43#8] ++ parts.flatMap (·.bytes)) tail ht (by simp) hr.footer hr.postScript hr.short
  rw [if_pos hlen, ← hf] at he
  simp only [newReader, he, Res.ok_bind] at h
  split at h
  · simp at h
  · obtain ⟨ts, -, h⟩ := Res.bind_ok_inv h
    obtain ⟨ss, -, h⟩ := Res.bind_ok_inv h
    injection h with h; subst h
    exact ⟨rfl, rfl, rfl⟩

/-- Three doubles in two stripes: the file can be written. -/
example : ∃ file, writeFile exEnv ⟨⟨⟨.zlib, 100, false⟩, 2⟩, 10⟩ exDoubles [exDoubleBatch] = .ok file ∧ exDoubles.Numbered ∧
    ∀ v ∈ [exDoubleBatch], ∃ len, exDoubles.Batch len v := by
  have : (match writeFile exEnv ⟨⟨⟨.zlib, 100, false⟩, 2⟩, 10⟩ exDoubles [exDoubleBatch] with | .ok _ => true | _ => false) = true := by decide +kernel
  refine (?_ : ∃ file, _ ∧ _)
  split at this
  · rename_i f h
    refine ⟨f, h, by unfold Schema.Numbered; decide, fun v hv => ?_⟩
    simp only [List.mem_cons, List.not_mem_nil, or_false] at hv
    subst hv
    exact ⟨3, .struct _ _ _ rfl rfl (by simp) (.cons (.leaf _ _ (by decide) rfl (by simp)) .nil)⟩
  · simp at this

end Goorc
