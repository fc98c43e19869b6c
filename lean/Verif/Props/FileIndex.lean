import Verif.Props.FileStats
/-
C89: the row indexes of a file.
-/
namespace Goorc

section
variable {E : Env} {o : FOpts} {ns : List SchemaNode}

theorem onWriters_length {f : AnyWriter → Res AnyWriter} : ∀ {ws ws' : List AnyWriter}, onWriters f ws = .ok ws' → ws'.length = ws.length
  | [], _, h => by injection h with h; subst h; rfl
  | x :: ws, ws', h => by
    simp only [onWriters] at h
    obtain ⟨x1, h1, h⟩ := Res.bind_ok_inv h
    obtain ⟨ws1, h2, h⟩ := Res.bind_ok_inv h
    injection h with h; subst h
    simp [onWriters_length h2]

/-- The indexes of one stripe. -/
theorem StripeRun.indexes {ws ws3 : List AnyWriter} {rows : Raws} {p : StripeParts} (h : StripeRun E o ns ws rows p ws3) :
    ∃ ixs : List AnyIndex, ixs.length = ws.length ∧ p.indexes = (if o.writeIndex then ixs.flatMap E.P.index else []) ∧
      ∀ (j : Nat) (w : AnyWriter), ws[j]? = some w →
        ∃ w', ixs[j]? = some w'.index ∧ w.run E.A E.c o.toCOpts ((columnOf j rows.flatten).map .write ++ [.flush]) = .ok w' := by
  obtain ⟨ws1, ws2, h1, h2, -, -, -, h3⟩ := h
  refine ⟨ws2.map (·.index), ?_, ?_, fun j w hj => ?_⟩
  · rw [List.length_map, onWriters_length h2, (writeCells_column _ _ _ h1).1]
  · rw [h3, List.flatMap_map]
  · obtain ⟨w1, e1, f1⟩ := (writeCells_column _ _ _ h1).2 j w hj
    obtain ⟨w2, e2, f2⟩ := onWriters_get h2 j w1 e1
    refine ⟨w2, by simp [e2], ?_⟩
    simp only [AnyWriter.run_append, AnyWriter.run_writes, f1, Res.ok_bind, AnyWriter.run, f2]

/-- The stripes that were finished: each began where the one before it had been reset. -/
theorem StripeRuns.split {ws0 ws : List AnyWriter} {done : List (Raws × StripeParts)} (h : StripeRuns E o ns ws0 done ws) :
    ∀ (k : Nat) (d : Raws × StripeParts), done[k]? = some d → ∃ wsk ws3, StripeRuns E o ns ws0 (done.take k) wsk ∧ StripeRun E o ns wsk d.1 d.2 ws3 := by
  induction h with
  | nil => intro k d hk; simp at hk
  | @snoc done ws ws3 ws4 rows p h run full reset ih =>
    intro k d hk
    rcases Nat.lt_or_ge k done.length with hlt | hge
    · rw [List.getElem?_append_left hlt] at hk
      rw [List.take_append_of_le_length (by omega)]
      exact ih k d hk
    · rw [List.getElem?_append_right hge] at hk
      obtain ⟨hk0, rfl⟩ : k - done.length = 0 ∧ (rows, p) = d := by
        cases hd : k - done.length with
        | zero => rw [hd] at hk; exact ⟨rfl, by simpa using hk⟩
        | succ m => rw [hd] at hk; simp at hk
      have : k = done.length := by omega
      subst this
      exact ⟨ws, ws3, by simpa using h, run⟩

theorem StripeRuns.length {ws0 ws : List AnyWriter} {done : List (Raws × StripeParts)} (h : StripeRuns E o ns ws0 done ws) : ws.length = ws0.length := by
  induction h with
  | nil => rfl
  | snoc h run full reset ih =>
    obtain ⟨ws1, ws2, h1, h2, h3, -⟩ := run
    have h4 : ∀ {ws ws' : List AnyWriter} {b : Bytes}, StripeWriter.writeOuts E.A o.toCOpts ws = .ok (ws', b) → ws'.length = ws.length := by
      intro ws
      induction ws with
      | nil => intro ws' b h; injection h with h; injection h with h; subst h; rfl
      | cons x ws ih =>
        intro ws' b h
        simp only [StripeWriter.writeOuts] at h
        obtain ⟨⟨x1, b1⟩, h1, h⟩ := Res.bind_ok_inv h
        obtain ⟨⟨ws1, b2⟩, h2, h⟩ := Res.bind_ok_inv h
        injection h with h; injection h with h; subst h
        simp [ih h2]
    rw [onWriters_length reset, h4 h3, onWriters_length h2, (writeCells_column _ _ _ h1).1, ih]

theorem newWriters_length {A : Arith} {o : COpts} : ∀ {ns : List SchemaNode} {ws : List AnyWriter}, newWriters A o ns = .ok ws → ws.length = ns.length
  | [], _, h => by injection h with h; subst h; rfl
  | x :: ns, ws, h => by
    simp only [newWriters] at h
    obtain ⟨x1, h1, h⟩ := Res.bind_ok_inv h
    obtain ⟨ws1, h2, h⟩ := Res.bind_ok_inv h
    injection h with h; subst h
    simp [newWriters_length h2]

end

/-- **C89** In every file that was closed, the index area of stripe `k` has, if `WriteIndex` is set, the row indexes of all columns in the order of
the columns, as protobuf messages and not compressed, and is empty otherwise. The row index of a column is the one its writer has after writing the
column's values in the rows of the stripe, and `Flush`; the writer is new in the first stripe and has written the rows before in a later one. The footer
of the stripe does not list any of them. -/
theorem file_row_indexes (E : Env) (o : FOpts) (schema : Schema) (num : schema.Numbered) (batches : List Vec)
    (hb : ∀ v ∈ batches, ∃ len, schema.Batch len v) (file : Bytes) (h : writeFile E o schema batches = .ok file) :
    ∃ (parts : List StripeParts) (ft : FileFooter) (ps : PostScript) (stripes : List (List Row)), FileLayout E o schema.columns file parts ft ps ∧
      stripes.flatten = batches.flatMap Vec.tableRows ∧ parts.map (·.rows) = stripes.map List.length ∧
      ∀ k p rows, parts[k]? = some p → stripes[k]? = some rows →
        (∀ s ∈ p.footer.streams, s.kind ≠ .rowIndex) ∧
        ∃ ixs : List AnyIndex, ixs.length = schema.columns.length ∧ p.indexes = (if o.writeIndex then ixs.flatMap E.P.index else []) ∧
          ∀ c ∈ schema.columns, c.node.hasVector = true → ∃ (w0 w : AnyWriter) (before : List ColOp) (vals : List Value), AnyWriter.new E.A o.toCOpts c.node = .ok w0 ∧
            w0.run E.A E.c o.toCOpts (before ++ vals.map .write ++ [.flush]) = .ok w ∧ (k = 0 → before = []) ∧
            (rowsWritten before).map Value.row = (stripes.take k).flatten.map (Row.cell c.node.id) ∧ vals.map Value.row = rows.map (Row.cell c.node.id) ∧
            ixs[c.node.id]? = some w.index := by
  obtain ⟨ws0, done, ws, rows, p, ws3, ft, ps, h1, h2, h3, -, h5, h6, -⟩ := file_traced h
  have hraw : (batches.flatMap Vec.rawRows).map rowOf = batches.flatMap Vec.tableRows := raws_table batches
  have hids : ∀ r ∈ batches.flatMap Vec.rawRows, (rowOf r).map (·.1) = schema.leafIds := by
    intro r hr
    obtain ⟨v, hv, hr⟩ := List.mem_flatMap.1 hr
    exact batches_ids E o schema batches hb v hv (rowOf r) (by rw [← v.rawRows_table]; exact List.mem_map_of_mem hr)
  let all := done ++ [(rows, p)]
  have hall : (all.map (·.1)).flatten = batches.flatMap Vec.rawRows := by
    rw [← h6, rowsOf]
    simp [all, List.flatMap_def]
  have hrows : ∀ d ∈ all, d.2.rows = d.1.length := by
    intro d hd
    rcases List.mem_append.1 hd with hd | hd
    · obtain ⟨k, hk⟩ := List.mem_iff_getElem?.1 hd
      obtain ⟨_, _, -, _, _, -, -, -, -, e, -⟩ := h2.split k d hk
      exact e
    · simp only [List.mem_cons, List.not_mem_nil, or_false] at hd
      subst hd
      obtain ⟨_, _, -, -, -, -, e, -⟩ := h3
      exact e
  have hrun : ∀ k d, all[k]? = some d → ∃ wsk ws3, StripeRuns E o (schema.columns.map (·.node)) ws0 (all.take k) wsk ∧
      StripeRun E o (schema.columns.map (·.node)) wsk d.1 d.2 ws3 := by
    intro k d hk
    rcases Nat.lt_or_ge k done.length with hlt | hge
    · simp only [all] at hk ⊢
      rw [List.getElem?_append_left hlt] at hk
      rw [List.take_append_of_le_length (by omega)]
      exact h2.split k d hk
    · simp only [all] at hk ⊢
      rw [List.getElem?_append_right hge] at hk
      obtain ⟨hk0, rfl⟩ : k - done.length = 0 ∧ (rows, p) = d := by
        cases hd : k - done.length with
        | zero => rw [hd] at hk; exact ⟨rfl, by simpa using hk⟩
        | succ m => rw [hd] at hk; simp at hk
      have : k = done.length := by omega
      subst this
      exact ⟨ws, ws3, by simpa using h2, h3⟩
  refine ⟨all.map (·.2), ft, ps, all.map fun d => d.1.map rowOf, by simpa [all] using h5, ?_, ?_, fun k q rs hq hrs => ?_⟩
  · rw [← hraw, ← hall, List.map_flatten, List.map_map]; rfl
  · rw [List.map_map, List.map_map]
    exact List.map_congr_left fun d hd => by simpa using hrows d hd
  obtain ⟨d, hd, rfl⟩ : ∃ d, all[k]? = some d ∧ d.2 = q := by simpa using hq
  have hrs : d.1.map rowOf = rs := by simpa [hd] using hrs
  subst hrs
  have hpart : d.2 ∈ done.map (·.2) ++ [p] := by
    have := List.mem_map_of_mem (f := fun d : Raws × StripeParts => d.2) (List.mem_of_getElem? hd)
    simpa [all] using this
  obtain ⟨wsk, ws3k, r1, r2⟩ := hrun k d hd
  obtain ⟨ixs, e1, e2, e3⟩ := r2.indexes
  refine ⟨?_, ixs, ?_, e2, fun c hcol hk => ?_⟩
  · have := h5.sound _ hpart
    intro s hs
    rw [this.listed] at hs
    obtain ⟨x, hx, rfl⟩ := List.mem_map.1 hs
    exact this.noIndex x hx
  · rw [e1, r1.length, newWriters_length h1, List.length_map]
  have hget : (schema.columns.map (·.node))[c.node.id]? = some c.node := by
    obtain ⟨i, hi, he⟩ := List.getElem_of_mem hcol
    have : (schema.columns.map fun c => c.node.id)[i]? = some c.node.id := by simp [hi, he]
    rw [num, List.getElem?_range hi] at this
    injection this with this
    rw [← this]; simp [hi, he]
  have hcell : ∀ rs : Raws, (∀ r ∈ rs, r ∈ batches.flatMap Vec.rawRows) → (columnOf c.node.id rs.flatten).map Value.row = (rs.map rowOf).map (Row.cell c.node.id) :=
    fun rs hsub => columnOf_rows num.leafIds (List.mem_map.2 ⟨c, by simp [hcol, hk], rfl⟩) _ fun r hr => hids r (hsub r hr)
  have hsub : ∀ d ∈ all, ∀ r ∈ d.1, r ∈ batches.flatMap Vec.rawRows := by
    intro d hd r hr
    rw [← hall]
    exact List.mem_flatten.2 ⟨d.1, List.mem_map_of_mem hd, hr⟩
  obtain ⟨w0, g1, g2⟩ := newWriters_get h1 _ _ hget
  obtain ⟨w, ops, g3, g4, g5, g6⟩ : ∃ w ops, wsk[c.node.id]? = some w ∧ w0.run E.A E.c o.toCOpts ops = .ok w ∧
      rowsWritten ops = columnOf c.node.id ((all.take k).flatMap (·.1)).flatten ∧ (k = 0 → ops = []) := by
    by_cases hk0 : k = 0
    · subst hk0
      rw [List.take_zero] at r1
      generalize hnil : ([] : List (Raws × StripeParts)) = nil' at r1
      cases r1 with
      | nil => exact ⟨w0, [], g1, rfl, by simp [rowsWritten, columnOf], fun _ => rfl⟩
      | snoc => simp at hnil
    · obtain ⟨w, ops, k1, k2, k3⟩ := r1.history _ _ g1
      exact ⟨w, ops, k1, k2, k3, fun h => absurd h hk0⟩
  obtain ⟨w', g7, g8⟩ := e3 _ _ g3
  refine ⟨w0, w', ops, columnOf c.node.id d.1.flatten, g2, ?_, g6, ?_, hcell _ (hsub d (List.mem_of_getElem? hd)), g7⟩
  · rw [List.append_assoc, AnyWriter.run_append, g4, Res.ok_bind, g8]
  · rw [g5, hcell]
    · rw [← List.map_take, List.flatMap_def, List.map_flatten (f := rowOf), List.map_map]; rfl
    · intro r hr
      obtain ⟨d, hd, hr⟩ := List.mem_flatMap.1 hr
      exact hsub d (List.mem_of_mem_take hd) r hr

/-- A table of four rows with row groups of two: the row indexes of its columns are there, and the hypotheses are met. -/
example : ∃ file, writeFile exEnv exFOpts exTable [exBatch] = .ok file ∧ exFOpts.writeIndex = true ∧ exTable.Numbered ∧ (∀ v ∈ [exBatch], ∃ len, exTable.Batch len v) := by
  have : (writeFile exEnv exFOpts exTable [exBatch]).isOk = true := by decide +kernel
  cases h : writeFile exEnv exFOpts exTable [exBatch] with
  | ok file => exact ⟨file, rfl, rfl, exTable_numbered, by simpa using ⟨4, exBatch_shape⟩⟩
  | err e => rw [h] at this; simp [Res.isOk] at this
  | panic => rw [h] at this; simp [Res.isOk] at this
  | hang => rw [h] at this; simp [Res.isOk] at this

end Goorc
