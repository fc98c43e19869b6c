import Verif.Spec.StructCol
import Verif.Proofs.StructStripe
import Verif.Props.FileStats
import Verif.Props.RowIndex
/-
C81: the columns of structs and of dictionary strings: their statistics, row indexes and present streams.
-/
namespace Goorc

/-! ### Statistics of struct columns -/

theorem StructWriter.count_spec {null : Bool} {s s' : ColStats Nat} (h : StructWriter.count null s = .ok s') :
    s'.hasNull = s.hasNull ∧ s'.numberOfValues = s.numberOfValues + 1 ∧ s'.bytesOnDisk = s.bytesOnDisk ∧
      s'.typed = s.typed.map (· + (if null then 0 else 1)) := by
  simp only [StructWriter.count] at h
  cases null with
  | true =>
    simp only [if_true] at h
    injection h with h; subst h
    exact ⟨rfl, rfl, rfl, by cases s.typed <;> rfl⟩
  | false =>
    simp only [Bool.false_eq_true, if_false] at h
    split at h
    · simp at h
    · rename_i n hn
      injection h with h; subst h
      exact ⟨rfl, rfl, rfl, by simp [hn]⟩

theorem StructWriter.write_spec {c : Codec} {o : COpts} {w w' : StructWriter} {v : Value} (h : w.write c o v = .ok w') (hn : w.hasNulls = true) :
    ∃ p st, writeFlag c o true w.present v = .ok p ∧ StructWriter.count v.null w.stats = .ok st ∧ w'.present = p ∧ w'.stats = st ∧ w'.hasNulls = true ∧ w'.flushed = w.flushed := by
  simp only [StructWriter.write, hn, if_true] at h
  obtain ⟨p, h1, h⟩ := Res.bind_ok_inv h
  obtain ⟨st, h2, h⟩ := Res.bind_ok_inv h
  refine ⟨p, st, h1, h2, ?_⟩
  by_cases hi : o.writeIndex = true
  · simp only [hi, if_true, StructWriter.indexRow] at h
    split at h
    · simp at h
    · obtain ⟨is, h3, h⟩ := Res.bind_ok_inv h
      injection h with h; subst h
      split <;> simp_all
  · simp only [hi, Bool.false_eq_true, if_false] at h
    injection h with h; subst h; simp_all

/-- The rows of a struct column that are not null. -/
def presentRows (rows : List Value) : List Value := rows.filter fun v => !v.null

theorem StructWriter.run_stats {A : Arith} {c : Codec} {o : COpts} (ops : List ColOp) : ∀ {w : StructWriter} {w' : AnyWriter}, (AnyWriter.struct w).run A c o ops = .ok w' →
    ∃ u : StructWriter, w' = .struct u ∧ u.hasNulls = w.hasNulls ∧ u.stats.hasNull = w.stats.hasNull ∧
      u.stats.numberOfValues = w.stats.numberOfValues + (if w.hasNulls then (rowsWritten ops).length else 0) ∧
      u.stats.typed = w.stats.typed.map (· + (if w.hasNulls then (presentRows (rowsWritten ops)).length else 0)) := by
  induction ops with
  | nil => intro w w' h; injection h with h; subst h; exact ⟨w, rfl, rfl, rfl, by simp [rowsWritten], by cases w.stats.typed <;> simp [rowsWritten, presentRows]⟩
  | cons op ops ih =>
    intro w w' h
    cases op with
    | write v =>
      simp only [AnyWriter.run, AnyWriter.write, Res.bind_assoc] at h
      obtain ⟨w1, h1, h⟩ := Res.bind_ok_inv h
      simp only [Res.pure_eq, Res.ok_bind] at h
      obtain ⟨u, rfl, i1, i2, i3, i4⟩ := ih h
      refine ⟨u, rfl, ?_⟩
      cases hn : w.hasNulls with
      | false =>
        simp only [StructWriter.write, hn, Bool.false_eq_true, if_false] at h1
        injection h1 with h1; subst h1
        simp only [hn, Bool.false_eq_true, if_false] at i1 i3 i4
        exact ⟨i1, i2, by simp [i3], by simp [i4]⟩
      | true =>
        obtain ⟨p, st, -, e2, -, e4, e5, -⟩ := StructWriter.write_spec h1 hn
        obtain ⟨f1, f2, f3, f4⟩ := StructWriter.count_spec e2
        simp only [e5, if_true, e4] at i1 i2 i3 i4
        refine ⟨i1, by rw [i2, f1], ?_, ?_⟩
        · rw [i3, f2]; simp [rowsWritten]; omega
        · rw [i4, f4]
          cases hv : v.null <;> cases w.stats.typed <;> simp [rowsWritten, presentRows, hv]
          omega
    | flush =>
      simp only [AnyWriter.run, AnyWriter.flush, Res.bind_assoc] at h
      obtain ⟨w1, h1, h⟩ := Res.bind_ok_inv h
      simp only [Res.pure_eq, Res.ok_bind] at h
      simp only [StructWriter.flush] at h1
      obtain ⟨p, -, h1⟩ := Res.bind_ok_inv h1
      injection h1 with h1; subst h1
      have := ih h; exact this
    | writeOut =>
      simp only [AnyWriter.run, AnyWriter.writeOut, Res.bind_assoc] at h
      obtain ⟨⟨w1, b⟩, h1, h⟩ := Res.bind_ok_inv h
      simp only [Res.pure_eq, Res.ok_bind] at h
      simp only [StructWriter.writeOut] at h1
      split at h1
      · simp at h1
      obtain ⟨p, -, h1⟩ := Res.bind_ok_inv h1
      injection h1 with h1; injection h1 with h1; subst h1
      have := ih h; exact this
    | reset =>
      simp only [AnyWriter.run, AnyWriter.reset, Res.bind_assoc] at h
      obtain ⟨w1, h1, h⟩ := Res.bind_ok_inv h
      simp only [Res.pure_eq, Res.ok_bind] at h
      simp only [StructWriter.reset] at h1
      obtain ⟨p, -, h1⟩ := Res.bind_ok_inv h1
      split at h1
      · split at h1
        · simp at h1
        · injection h1 with h1; subst h1; have := ih h; exact this
      · injection h1 with h1; subst h1; have := ih h; exact this

/-- **C81** The statistics of a struct column after any calls on its writer: those of a nullable struct give the number of all its rows,
null ones included, as the number of values, and count the rows that are not null; those of a struct that is not nullable count nothing. -/
theorem struct_column_stats (A : Arith) (c : Codec) (o : COpts) (n : SchemaNode) (hk : n.kind = .struct) (w0 w : AnyWriter) (ops : List ColOp)
    (h0 : AnyWriter.new A o n = .ok w0) (h : w0.run A c o ops = .ok w) :
    ∃ st, w.stats = .struct st ∧ st.hasNull = n.hasNulls ∧ st.numberOfValues = (if n.hasNulls then (rowsWritten ops).length else 0) ∧
      st.typed = some (if n.hasNulls then ((rowsWritten ops).filter fun v => !v.null).length else 0) := by
  simp only [AnyWriter.new, hk] at h0
  have hw : w0 = .struct (StructWriter.new o n.hasNulls) := by
    cases he : n.encoding <;> simp [he, newWriterTag] at h0; all_goals exact h0.symm
  subst hw
  obtain ⟨u, rfl, h1, h2, h3, h4⟩ := StructWriter.run_stats ops h
  exact ⟨u.stats, rfl, by simpa [StructWriter.new] using h2, by rw [h3]; simp only [StructWriter.new]; cases n.hasNulls <;> simp,
    by rw [h4]; simp only [StructWriter.new, presentRows]; cases n.hasNulls <;> simp⟩

/-- **C81** The same in the footer of every file that was closed: the number of values of a nullable struct column is the number of all rows of the
file, and the count of its statistics is the number of rows in which the struct is not null. -/
theorem file_struct_statistics (E : Env) (o : FOpts) (schema : Schema) (num : schema.Numbered) (batches : List Vec)
    (hb : ∀ v ∈ batches, ∃ len, schema.Batch len v) (file : Bytes) (h : writeFile E o schema batches = .ok file) :
    ∃ parts ft ps, FileLayout E o schema.columns file parts ft ps ∧
      ∀ c ∈ schema.columns, c.node.kind = .struct → c.node.hasNulls = true → ∃ st, ft.statistics[c.node.id]? = some (.struct st) ∧ st.hasNull = true ∧
        st.numberOfValues = (batches.flatMap Vec.tableRows).length ∧
        st.typed = some ((batches.flatMap Vec.tableRows).filter fun r => (r.cell c.node.id).isSome).length := by
  obtain ⟨parts, ft, ps, h1, -, h3⟩ := file_column_history E o schema num batches hb file h
  refine ⟨parts, ft, ps, h1, fun c hc hk hn => ?_⟩
  obtain ⟨w0, w, ops, e1, e2, e3, e4⟩ := h3 c hc (by simp [SchemaNode.hasVector, hn])
  obtain ⟨st, f1, f2, f3, f4⟩ := struct_column_stats E.A E.c o.toCOpts c.node hk w0 w ops e1 e2
  refine ⟨st, by rw [e4, f1], by rw [f2, hn], ?_, ?_⟩
  · rw [f3, hn, if_pos rfl]
    simpa using congrArg List.length e3
  · rw [f4, hn, if_pos rfl]
    have key := congrArg (fun l => (l.filter Option.isSome).length) e3
    simp only [List.filter_map, List.length_map] at key
    have hf : (rowsWritten ops).filter (Option.isSome ∘ Value.row) = (rowsWritten ops).filter fun v => !v.null := by
      apply List.filter_congr
      intro v _
      cases hv : v.null <;> simp [Value.row, hv]
    rw [hf] at key
    rw [key]
    rfl

/-- What statistics of a column should say: the number of values is the number of rows that are not null. -/
def CountsValues (st : AnyStats) (rows : List Value) : Prop := st.numberOfValues = (rows.filter fun v => !v.null).length

/-- **C81** is false of the number of values of a struct: it is right exactly if the struct is nullable and no row was null, or no row was
written that is not null. -/
theorem struct_counts_iff (A : Arith) (c : Codec) (o : COpts) (n : SchemaNode) (hk : n.kind = .struct) (w0 w : AnyWriter) (ops : List ColOp)
    (h0 : AnyWriter.new A o n = .ok w0) (h : w0.run A c o ops = .ok w) :
    CountsValues w.stats (rowsWritten ops) ↔
      if n.hasNulls then ∀ v ∈ rowsWritten ops, v.null = false else ∀ v ∈ rowsWritten ops, v.null = true := by
  obtain ⟨st, h1, -, h3, -⟩ := struct_column_stats A c o n hk w0 w ops h0 h
  rw [CountsValues, h1]
  simp only [AnyStats.numberOfValues, h3]
  cases n.hasNulls with
  | true =>
    simp only [if_true]
    rw [eq_comm, List.length_filter_eq_length_iff]
    simp
  | false =>
    simp only [Bool.false_eq_true, if_false]
    rw [eq_comm, List.length_eq_zero_iff, List.filter_eq_nil_iff]
    simp

/-- **C81** The bytes on disk in the statistics of a flushed nullable struct or dictionary column are the lengths of its streams. -/
theorem struct_bytes_on_disk (c : Codec) (o : COpts) (w w' : StructWriter) (h : w.flush c o = .ok w') :
    w'.stats.bytesOnDisk = if w.hasNulls then totalLength w'.streamInfos else w.stats.bytesOnDisk := by
  simp only [StructWriter.flush] at h
  obtain ⟨p, -, h⟩ := Res.bind_ok_inv h
  injection h with h; subst h
  cases hn : w.hasNulls <;> simp [totalLength, StructWriter.streamInfos]

theorem dict_bytes_on_disk (c : Codec) (o : COpts) (w w' : DictWriter) (h : w.flush c o = .ok w') :
    w'.stats.bytesOnDisk = (if w.hasNulls then 0 else w.stats.bytesOnDisk) + totalLength w'.streamInfos := by
  simp only [DictWriter.flush] at h
  iterate 8 obtain ⟨_, -, h⟩ := Res.bind_ok_inv h
  injection h with h; subst h
  cases hn : w.hasNulls <;> simp [totalLength, DictWriter.streamInfos] <;> omega

/-! ### Statistics of dictionary columns -/

theorem dict_add (m u x : Bytes) (n : Nat) :
    DictWriter.addStats ⟨some [], some m, some [], some u, n⟩ x =
      if 1024 ≤ x.length then ⟨some [], some m, some [], some (if bytesLt u x then x else u), n + x.length⟩
      else ⟨some [], some (if bytesLt m x then x else m), some [], some u, n + x.length⟩ := by
  simp only [DictWriter.addStats, maxByteLength, Option.getD_some, bytesLt_nil, Bool.false_eq_true, if_false, ge_iff_le]
  split <;> split <;> simp_all

theorem dict_fold (xs : List Bytes) : ∀ (ys zs : List Bytes) (m u : Bytes) (n : Nat), GreatestBytes ([] :: ys) m → GreatestBytes ([] :: zs) u →
    ∃ m' u', xs.foldl DictWriter.addStats ⟨some [], some m, some [], some u, n⟩ = ⟨some [], some m', some [], some u', n + (xs.map (·.length)).sum⟩ ∧
      GreatestBytes ([] :: (ys ++ xs.filter fun x => decide (x.length < 1024))) m' ∧
      GreatestBytes ([] :: (zs ++ xs.filter fun x => decide (1024 ≤ x.length))) u' := by
  induction xs with
  | nil => intro ys zs m u n hm hu; exact ⟨m, u, rfl, by simpa using hm, by simpa using hu⟩
  | cons x xs ih =>
    intro ys zs m u n hm hu
    simp only [List.foldl_cons, dict_add]
    by_cases hx : 1024 ≤ x.length
    · rw [if_pos hx]
      have hu' : GreatestBytes ([] :: (zs ++ [x])) (if bytesLt u x then x else u) := by simpa using greatestBytes_step (x := x) hu
      obtain ⟨m', u', e1, e2, e3⟩ := ih ys (zs ++ [x]) m _ (n + x.length) hm hu'
      have h2 : ¬ x.length < 1024 := by omega
      refine ⟨m', u', ?_, ?_, ?_⟩
      · rw [e1]; simp [Nat.add_assoc]
      · simpa [List.filter_cons, h2] using e2
      · simpa [List.filter_cons, hx] using e3
    · rw [if_neg hx]
      have hm' : GreatestBytes ([] :: (ys ++ [x])) (if bytesLt m x then x else m) := by simpa using greatestBytes_step (x := x) hm
      obtain ⟨m', u', e1, e2, e3⟩ := ih (ys ++ [x]) zs _ u (n + x.length) hm' hu
      have h2 : x.length < 1024 := by omega
      refine ⟨m', u', ?_, ?_, ?_⟩
      · rw [e1]; simp [Nat.add_assoc]
      · simpa [List.filter_cons, h2] using e2
      · simpa [List.filter_cons, hx] using e3

/-- The strings among some values. -/
def stringsOf (vals : List GoVal) : List Bytes := vals.filterMap fun v => match v with | .str s => some s | _ => none

theorem DictWriter.run_stats {A : Arith} {c : Codec} {o : COpts} (ops : List ColOp) : ∀ {w : DictWriter} {w' : AnyWriter}, (AnyWriter.dict w).run A c o ops = .ok w' →
    ∃ u : DictWriter, w' = .dict u ∧ u.stats.hasNull = w.stats.hasNull ∧
      u.stats.typed = w.stats.typed.map fun t => (stringsOf (valuesOf (rowsWritten ops))).foldl DictWriter.addStats t := by
  induction ops with
  | nil => intro w w' h; injection h with h; subst h; exact ⟨w, rfl, rfl, by cases w.stats.typed <;> rfl⟩
  | cons op ops ih =>
    intro w w' h
    cases op with
    | write v =>
      simp only [AnyWriter.run, AnyWriter.write, Res.bind_assoc] at h
      obtain ⟨w1, h1, h⟩ := Res.bind_ok_inv h
      simp only [Res.pure_eq, Res.ok_bind] at h
      obtain ⟨u, rfl, i1, i2⟩ := ih h
      simp only [DictWriter.write] at h1
      obtain ⟨p, -, h1⟩ := Res.bind_ok_inv h1
      refine ⟨u, rfl, ?_⟩
      cases hn : v.null with
      | true =>
        simp only [hn, if_true] at h1
        injection h1 with h1; subst h1
        exact ⟨i1, by simpa [rowsWritten, valuesOf, hn] using i2⟩
      | false =>
        simp only [hn, Bool.false_eq_true, if_false] at h1
        split at h1
        · rename_i s hs
          injection h1 with h1; subst h1
          refine ⟨i1, ?_⟩
          rw [i2]
          cases w.stats.typed <;> simp [rowsWritten, valuesOf, hn, stringsOf, hs]
        · simp at h1
    | flush =>
      simp only [AnyWriter.run, AnyWriter.flush, Res.bind_assoc] at h
      obtain ⟨w1, h1, h⟩ := Res.bind_ok_inv h
      simp only [Res.pure_eq, Res.ok_bind] at h
      simp only [DictWriter.flush] at h1
      iterate 8 obtain ⟨_, -, h1⟩ := Res.bind_ok_inv h1
      injection h1 with h1; subst h1
      have := ih h; exact this
    | writeOut =>
      simp only [AnyWriter.run, AnyWriter.writeOut, Res.bind_assoc] at h
      obtain ⟨⟨w1, b⟩, h1, h⟩ := Res.bind_ok_inv h
      simp only [Res.pure_eq, Res.ok_bind] at h
      simp only [DictWriter.writeOut] at h1
      obtain ⟨_, -, h1⟩ := Res.bind_ok_inv h1
      injection h1 with h1; injection h1 with h1; subst h1
      have := ih h; exact this
    | reset =>
      simp only [AnyWriter.run, AnyWriter.reset, Res.bind_assoc] at h
      obtain ⟨w1, h1, h⟩ := Res.bind_ok_inv h
      simp only [Res.pure_eq, Res.ok_bind] at h
      simp only [DictWriter.reset] at h1
      iterate 4 obtain ⟨_, -, h1⟩ := Res.bind_ok_inv h1
      injection h1 with h1; subst h1
      have := ih h; exact this

/-- **C81** The statistics of a dictionary column after any calls on its writer: the sum of the lengths of all strings; the least string and the
lower bound are the empty string, whatever was written; the maximum is the greatest string of less than 1024 bytes and the upper bound the greatest
of the others, both starting from the empty string. -/
theorem dict_column_stats (A : Arith) (c : Codec) (o : COpts) (hasNulls : Bool) (ops : List ColOp) (w : AnyWriter)
    (h : (AnyWriter.dict (DictWriter.new o hasNulls)).run A c o ops = .ok w) :
    ∃ st m u, w.stats = .dict st ∧ st.hasNull = hasNulls ∧ st.numberOfValues = (valuesOf (rowsWritten ops)).length ∧
      st.typed = some ⟨some [], some m, some [], some u, ((stringsOf (valuesOf (rowsWritten ops))).map (·.length)).sum⟩ ∧
      GreatestBytes ([] :: (stringsOf (valuesOf (rowsWritten ops))).filter fun x => decide (x.length < 1024)) m ∧
      GreatestBytes ([] :: (stringsOf (valuesOf (rowsWritten ops))).filter fun x => decide (1024 ≤ x.length)) u := by
  have hc := DictWriter.run_count ops h
  obtain ⟨u, rfl, h1, h2⟩ := DictWriter.run_stats ops h
  have hg : GreatestBytes ([] :: []) [] := ⟨by simp, by simp⟩
  obtain ⟨m', u', e1, e2, e3⟩ := dict_fold (stringsOf (valuesOf (rowsWritten ops))) [] [] [] [] 0 hg hg
  refine ⟨u.stats, m', u', rfl, h1, by simpa [DictWriter.new, AnyWriter.stats, AnyStats.numberOfValues] using hc, ?_, by simpa using e2, by simpa using e3⟩
  rw [h2]
  simp only [DictWriter.new, Option.map_some]
  rw [e1]; simp

/-! ### The present stream of a struct column -/

/-- **C81** The rows of a nullable struct column of one stripe can always be written, and its only stream, the present stream, gives back
which of them are null, wherever it is put in a file. -/
theorem struct_column_roundtrip (c : Codec) (hc : c.Lossless) {o : COpts} (ho : o.toWOpts.Sound) (rows : List Value) :
    ∃ w1 w2 w3 body, StructWriter.writes c o (StructWriter.new o true) rows = .ok w1 ∧ w1.flush c o = .ok w2 ∧ w2.writeOut o = .ok (w3, body) ∧
      w2.streamInfos = [(.present, body.length)] ∧ FlagsIn c o.toWOpts body (flagsOf rows) := by
  obtain ⟨w1, w2, w3, body, h1, h2, h3, h4, -, h5, -⟩ := StructWriter.stripe_spec c hc ho _ (StructWriter.new_ready c ho) rows
  exact ⟨w1, w2, w3, body, h1, h2, h3, h4, h5⟩

theorem struct_stripes_spec (c : Codec) (hc : c.Lossless) {o : COpts} (ho : o.toWOpts.Sound) (hz : o.kind = .zlib) (hi : o.writeIndex = false) (stripes : List (List Value)) :
    ∀ w : StructWriter, w.Ready c o → (∀ rows ∈ stripes.dropLast, NoStale (flagsOf rows)) →
    ∃ bodies, StructWriter.stripes c o w stripes = .ok bodies ∧ List.Forall₂ (fun body rows => FlagsIn c o.toWOpts body (flagsOf rows)) bodies stripes := by
  induction stripes with
  | nil => intro w _ _; exact ⟨[], rfl, .nil⟩
  | cons rows rest ih =>
    intro w hw hs
    obtain ⟨w1, w2, w3, body, h1, h2, h3, -, -, h5, h6⟩ := StructWriter.stripe_spec c hc ho w hw rows
    cases rest with
    | nil => exact ⟨[body], by simp only [StructWriter.stripes, h1, h2, h3, Res.ok_bind, Res.pure_eq], .cons h5 .nil⟩
    | cons r rest =>
      obtain ⟨w4, e1, e2⟩ := h6 hz hi (hs rows (by simp))
      obtain ⟨bodies, f1, f2⟩ := ih w4 e2 (fun x hx => hs x (by simp only [List.dropLast_cons_cons]; exact List.mem_cons_of_mem _ hx))
      refine ⟨body :: bodies, ?_, .cons h5 f2⟩
      rw [StructWriter.stripes]
      simp only [h1, h2, h3, e1, f1, Res.ok_bind, Res.pure_eq]

/-- **C81** (partial) The same for several stripes, without row indexes. Missing: stripes after one whose flags leave something behind, a true
flag among the last ones that do not make up a byte (`struct_stripes_false`), and row indexes (`struct_reset_fails`). -/
theorem struct_stripes_roundtrip_partial (c : Codec) (hc : c.Lossless) {o : COpts} (ho : o.toWOpts.Sound) (hz : o.kind = .zlib) (hi : o.writeIndex = false)
    (stripes : List (List Value)) (hs : ∀ rows ∈ stripes.dropLast, NoStale (flagsOf rows)) :
    ∃ bodies, StructWriter.stripes c o (StructWriter.new o true) stripes = .ok bodies ∧
      List.Forall₂ (fun body rows => FlagsIn c o.toWOpts body (flagsOf rows)) bodies stripes :=
  struct_stripes_spec c hc ho hz hi stripes _ (StructWriter.new_ready c ho) hs

/-- **C81** is false with row indexes: after a reset the first row that is not null cannot be written, unless groups have one row. -/
theorem struct_reset_fails (c : Codec) (o : COpts) (hi : o.writeIndex = true) (hS : 2 ≤ o.stride) (w w1 : StructWriter) (hn : w.hasNulls = true)
    (h : w.reset o = .ok w1) (v : Value) (hv : v.null = false) : ∀ w2, w1.write c o v ≠ .ok w2 := by
  intro w2 h2
  simp only [StructWriter.reset] at h
  obtain ⟨p, -, h⟩ := Res.bind_ok_inv h
  simp only [hi, if_true] at h
  split at h
  · simp at h
  injection h with h; subst h
  simp only [StructWriter.write, hn, if_true, hi] at h2
  obtain ⟨_, -, h2⟩ := Res.bind_ok_inv h2
  obtain ⟨_, -, h2⟩ := Res.bind_ok_inv h2
  have : ¬ (1 ≥ o.stride) := by omega
  simp [StructWriter.indexRow, StructWriter.count, hv, this] at h2

/-! ### The row index of a struct column -/

theorem StructWriter.writes_append (c : Codec) (o : COpts) (a b : List Value) : ∀ w, StructWriter.writes c o w (a ++ b) = (StructWriter.writes c o w a >>= fun w => StructWriter.writes c o w b) := by
  induction a with
  | nil => intro w; rfl
  | cons v a ih => intro w; simp only [List.cons_append, StructWriter.writes, Res.bind_assoc, ih]

/-- The statistics of some rows of a nullable struct. -/
def structStats (rows : List Value) : ColStats Nat := ⟨some (rows.filter fun v => !v.null).length, true, rows.length, 0⟩

theorem structStats_snoc (rows : List Value) (v : Value) : StructWriter.count v.null (structStats rows) = .ok (structStats (rows ++ [v])) := by
  cases hv : v.null <;> simp [StructWriter.count, structStats, hv, List.filter_append]

/-- The rows since the last entry of the index, one early. -/
def openGroup (S : Nat) (rows : List Value) : List Value := if rows.length < S then rows else rows.drop (rows.length / S * S - 1)

theorem earlyGroup_snoc (S k : Nat) (hS : 1 ≤ S) (rows : List Value) (v : Value) (hk : (k + 1) * S ≤ rows.length) : earlyGroup S k (rows ++ [v]) = earlyGroup S k rows := by
  have e : (k + 1) * S = k * S + S := by rw [Nat.add_mul, Nat.one_mul]
  simp only [earlyGroup]
  split
  · rw [List.take_append_of_le_length (by omega)]
  · rw [List.drop_append_of_le_length (by omega), List.take_append_of_le_length (by simp; omega)]

theorem struct_index_spec (c : Codec) (o : COpts) (hi : o.writeIndex = true) (hS : 1 ≤ o.stride) (rows : List Value) :
    ∀ w, StructWriter.writes c o (StructWriter.new o true) rows = .ok w →
    w.hasNulls = true ∧ w.index.length = rows.length / o.stride ∧ w.indexInRows = rows.length % o.stride ∧
    w.indexStats = some (structStats (openGroup o.stride rows)) ∧
    ∀ k e, w.index[k]? = some e → e.stats = structStats (earlyGroup o.stride k rows) ∧
      ∃ wk q, StructWriter.writes c o (StructWriter.new o true) (rows.take ((k + 1) * o.stride)) = .ok wk ∧ wk.present = some q ∧
        e.positions = q.getPosition boolEnc o.toWOpts := by
  induction rows using List.reverseRecOn with
  | nil =>
    intro w h
    injection h with h; subst h
    refine ⟨rfl, by simp [StructWriter.new], by simp [StructWriter.new], ?_, by simp [StructWriter.new]⟩
    simp [StructWriter.new, hi, openGroup, structStats]
  | append_singleton done v ih =>
    intro w' h
    rw [StructWriter.writes_append] at h
    obtain ⟨w, h1, h⟩ := Res.bind_ok_inv h
    obtain ⟨i0, i1, i2, i3, i4⟩ := ih w h1
    simp only [StructWriter.writes] at h
    obtain ⟨w1, h2, h⟩ := Res.bind_ok_inv h
    injection h with h; subst h
    have hfull : StructWriter.writes c o (StructWriter.new o true) (done ++ [v]) = .ok w1 := by
      rw [StructWriter.writes_append, h1]; simp only [Res.ok_bind, StructWriter.writes, h2]
    simp only [StructWriter.write, i0, if_true, hi] at h2
    obtain ⟨p, g1, h2⟩ := Res.bind_ok_inv h2
    obtain ⟨st, g2, h2⟩ := Res.bind_ok_inv h2
    simp only [StructWriter.indexRow, i3] at h2
    have hdm := Nat.div_add_mod done.length o.stride
    have hlt := Nat.mod_lt done.length (by omega : o.stride > 0)
    rw [Nat.mul_comm] at hdm
    have hold : ∀ k e, w.index[k]? = some e → e.stats = structStats (earlyGroup o.stride k (done ++ [v])) ∧
        ∃ wk q, StructWriter.writes c o (StructWriter.new o true) ((done ++ [v]).take ((k + 1) * o.stride)) = .ok wk ∧ wk.present = some q ∧
          e.positions = q.getPosition boolEnc o.toWOpts := by
      intro k e he
      have hk : k < w.index.length := (List.getElem?_eq_some_iff.1 he).1
      have hle : (k + 1) * o.stride ≤ done.length := by
        rw [i1] at hk
        calc (k + 1) * o.stride ≤ done.length / o.stride * o.stride := Nat.mul_le_mul_right _ hk
        _ ≤ done.length := Nat.div_mul_le_self _ _
      obtain ⟨j1, j2⟩ := i4 k e he
      exact ⟨by rw [earlyGroup_snoc _ _ hS _ _ hle]; exact j1, by rw [List.take_append_of_le_length hle]; exact j2⟩
    by_cases hs : w.indexInRows + 1 ≥ o.stride
    · have hs' : done.length % o.stride + 1 = o.stride := by omega
      generalize hq : done.length / o.stride = q at *
      have hlen : done.length + 1 = (q + 1) * o.stride := by rw [Nat.add_mul, Nat.one_mul]; omega
      have hdiv : (done ++ [v]).length / o.stride = q + 1 := by
        rw [List.length_append, List.length_singleton, hlen, Nat.mul_div_cancel _ (by omega)]
      have hmod : (done ++ [v]).length % o.stride = 0 := by
        rw [List.length_append, List.length_singleton, hlen, Nat.mul_mod_left]
      simp only [hs, if_true] at h2
      have hc : StructWriter.count v.null ⟨some 0, true, 0, 0⟩ = .ok (structStats [v]) := structStats_snoc [] v
      simp only [hc, Res.ok_bind, Res.pure_eq] at h2
      injection h2 with h2; subst h2
      have hopen : openGroup o.stride (done ++ [v]) = [v] := by
        simp only [openGroup]
        have hle : 1 * o.stride ≤ (q + 1) * o.stride := Nat.mul_le_mul_right _ (by omega)
        rw [if_neg (by simp; omega), hdiv, ← hlen]
        simp
      refine ⟨rfl, by simp [i1, hlen, Nat.mul_div_cancel _ (by omega : 0 < o.stride)], by simp [hlen, Nat.mul_mod_left], by rw [hopen], fun k e he => ?_⟩
      simp only at he
      rw [List.getElem?_append] at he
      split at he
      · exact hold k e he
      · have hk : k = q := by
          rw [i1] at *
          have := (List.getElem?_eq_some_iff.1 he).1
          simp at this; omega
        subst hk
        rw [i1, Nat.sub_self] at he
        simp only [List.getElem?_cons_zero, Option.some.injEq] at he
        subst he
        refine ⟨?_, ?_⟩
        · simp only [openGroup, earlyGroup]
          by_cases hk0 : k = 0
          · subst hk0
            rw [if_pos (by rw [Nat.zero_add, Nat.one_mul] at hlen; omega), if_pos rfl, List.take_append_of_le_length (by rw [Nat.zero_add, Nat.one_mul] at hlen; omega), List.take_of_length_le (by rw [Nat.zero_add, Nat.one_mul] at hlen; omega)]
          · have hge : 1 * o.stride ≤ k * o.stride := Nat.mul_le_mul_right _ (by omega)
            rw [Nat.one_mul] at hge
            rw [Nat.add_mul, Nat.one_mul] at hlen
            rw [if_neg (by omega), if_neg hk0, hq, List.drop_append_of_le_length (by omega), List.take_append_of_le_length (by simp; omega),
              List.take_of_length_le (by simp; omega)]
        · simp only [writeFlag, if_true] at g1
          split at g1
          · simp at g1
          obtain ⟨q1, -, g1⟩ := Res.bind_ok_inv g1
          injection g1 with g1; subst g1
          refine ⟨_, q1, by rw [List.take_of_length_le (by simp; omega)]; exact hfull, rfl, by simp⟩
    · have hs' : done.length % o.stride + 1 < o.stride := by omega
      have hdiv : (done ++ [v]).length / o.stride = done.length / o.stride := by
        rw [List.length_append, List.length_singleton, ← hdm, Nat.add_assoc, Nat.mul_comm, Nat.mul_add_div (by omega), Nat.div_eq_of_lt hs', Nat.add_zero]
        rw [Nat.mul_comm, hdm]
      have hmod : (done ++ [v]).length % o.stride = done.length % o.stride + 1 := by
        rw [List.length_append, List.length_singleton]
        conv_lhs => rw [← hdm, Nat.add_assoc, Nat.mul_comm, Nat.mul_add_mod, Nat.mod_eq_of_lt hs']
      simp only [hs, if_false, structStats_snoc, Res.ok_bind, Res.pure_eq] at h2
      injection h2 with h2; subst h2
      have hopen : openGroup o.stride (done ++ [v]) = openGroup o.stride done ++ [v] := by
        simp only [openGroup, hdiv]
        by_cases hsm : done.length < o.stride
        · have : done.length % o.stride = done.length := Nat.mod_eq_of_lt hsm
          rw [if_pos hsm, if_pos (by simp; omega)]
        · rw [if_neg hsm, if_neg (by simp; omega), List.drop_append_of_le_length (by omega)]
      exact ⟨rfl, by rw [hdiv, ← i1], by rw [hmod, ← i2], by rw [hopen], hold⟩

/-- **C81** The row index of a nullable struct column: one entry for every `stride` rows. Entry `k` has the positions of the present stream after
`(k + 1) * stride` rows. Its statistics count all rows, and those that are not null, of the group that starts and ends one row early. -/
theorem struct_row_index (c : Codec) (o : COpts) (hi : o.writeIndex = true) (hS : 1 ≤ o.stride) (rows : List Value) (w : StructWriter)
    (hw : StructWriter.writes c o (StructWriter.new o true) rows = .ok w) :
    w.index.length = rows.length / o.stride ∧
    ∀ k e, w.index[k]? = some e →
      e.stats = ⟨some ((earlyGroup o.stride k rows).filter fun v => !v.null).length, true, (earlyGroup o.stride k rows).length, 0⟩ ∧
      ∃ wk q, StructWriter.writes c o (StructWriter.new o true) (rows.take ((k + 1) * o.stride)) = .ok wk ∧ wk.present = some q ∧
        e.positions = q.getPosition boolEnc o.toWOpts := by
  obtain ⟨-, h1, -, -, h2⟩ := struct_index_spec c o hi hS rows w hw
  exact ⟨h1, h2⟩

/-! ### The row index of the second stripe -/

/-- **C81** After `Reset` a nullable struct writer with row indexes has no entries, and its statistics count from zero without the marks
that the writer had at the beginning: null rows are counted, without a count of the rows that are not null. -/
theorem struct_index_after_reset (c : Codec) (o : COpts) (hi : o.writeIndex = true) (w w1 w2 : StructWriter) (hn : w.hasNulls = true)
    (h1 : w.reset o = .ok w1) (rows : List Value) (hr : ∀ v ∈ rows, v.null = true) (hs : rows.length < o.stride) (h2 : StructWriter.writes c o w1 rows = .ok w2) :
    w2.index = [] ∧ w2.indexInRows = rows.length ∧ ∃ st, w2.indexStats = some st ∧ st.typed = none ∧ st.hasNull = false ∧ st.numberOfValues = rows.length ∧ st.bytesOnDisk = 0 := by
  have key : ∀ (rows : List Value) (w w' : StructWriter) (k : Nat), w.hasNulls = true → (∀ v ∈ rows, v.null = true) → k + rows.length < o.stride →
      w.index = [] → w.indexInRows = k → w.indexStats = some ⟨none, false, k, 0⟩ → StructWriter.writes c o w rows = .ok w' →
      w'.index = [] ∧ w'.indexInRows = k + rows.length ∧ w'.indexStats = some ⟨none, false, k + rows.length, 0⟩ := by
    intro rows
    induction rows with
    | nil =>
      intro w w' k _ _ _ a1 a2 a3 h
      injection h with h; subst h
      exact ⟨a1, a2, a3⟩
    | cons v rows ih =>
      intro w w' k hn hr hs a1 a2 a3 h
      obtain ⟨u, b1, b2⟩ := Res.bind_ok_inv h
      have hv := hr v (by simp)
      simp only [List.length_cons] at hs
      simp only [StructWriter.write, hn, if_true] at b1
      obtain ⟨p, -, b1⟩ := Res.bind_ok_inv b1
      obtain ⟨st, -, b1⟩ := Res.bind_ok_inv b1
      have hlt : ¬ k + 1 ≥ o.stride := by omega
      simp only [hi, if_true, StructWriter.indexRow, a2, a3, hlt, if_false, StructWriter.count, hv, Res.ok_bind, Res.pure_eq] at b1
      injection b1 with b1; subst b1
      have := (fun x1 x2 x3 x4 x5 x6 => ih _ w' (k + 1) x1 x2 x3 x4 x5 x6 b2) rfl (fun v hv => hr v (by simp [hv])) (by omega) a1 rfl rfl
      simp only [List.length_cons]
      rw [show k + (rows.length + 1) = k + 1 + rows.length by omega]
      exact this
  simp only [StructWriter.reset, hi, if_true] at h1
  obtain ⟨p, -, h1⟩ := Res.bind_ok_inv h1
  cases hst : w.indexStats with
  | none => simp only [hst] at h1; cases h1
  | some s =>
    simp only [hst, Res.pure_eq] at h1
    injection h1 with h1; subst h1
    obtain ⟨g1, g2, g3⟩ := (fun x1 x2 x3 x4 x5 x6 => key rows _ w2 0 x1 x2 x3 x4 x5 x6 h2) hn hr (by omega) rfl rfl rfl
    rw [Nat.zero_add] at g2 g3
    exact ⟨g1, g2, _, g3, rfl, rfl, rfl, rfl⟩

/-- **C81** The first row of the second stripe that is not null cannot be written by the writer of a nullable struct with row indexes, if it comes before
the first entry. -/
theorem struct_index_second_stripe_fails (c : Codec) (o : COpts) (hi : o.writeIndex = true) (w w1 w2 : StructWriter) (hn : w.hasNulls = true)
    (h1 : w.reset o = .ok w1) (rows : List Value) (hr : ∀ v ∈ rows, v.null = true) (hs : rows.length + 1 < o.stride) (h2 : StructWriter.writes c o w1 rows = .ok w2)
    (v : Value) (hv : v.null = false) (w3 : StructWriter) : w2.write c o v ≠ .ok w3 := by
  obtain ⟨-, g2, st, g3, g4, -⟩ := struct_index_after_reset c o hi w w1 w2 hn h1 rows hr (by omega) h2
  intro h
  have hn2 : w2.hasNulls = true := by
    have : ∀ (rows : List Value) (u u' : StructWriter), u.hasNulls = true → StructWriter.writes c o u rows = .ok u' → u'.hasNulls = true := by
      intro rows
      induction rows with
      | nil => intro u u' hu h; injection h with h; subst h; exact hu
      | cons v rows ih =>
        intro u u' hu h
        obtain ⟨x, b1, b2⟩ := Res.bind_ok_inv h
        obtain ⟨_, _, _, _, _, _, b3, _⟩ := StructWriter.write_spec b1 hu
        exact ih x u' b3 b2
    refine this rows w1 w2 ?_ h2
    simp only [StructWriter.reset, hi, if_true] at h1
    obtain ⟨p, -, h1⟩ := Res.bind_ok_inv h1
    cases hst : w.indexStats with
    | none => simp only [hst] at h1; cases h1
    | some s => simp only [hst, Res.pure_eq] at h1; injection h1 with h1; subst h1; exact hn
  simp only [StructWriter.write, hn2, if_true] at h
  obtain ⟨p, -, h⟩ := Res.bind_ok_inv h
  obtain ⟨st', -, h⟩ := Res.bind_ok_inv h
  have hlt : ¬ rows.length + 1 ≥ o.stride := by omega
  simp only [hi, if_true, StructWriter.indexRow, g2, g3, hlt, if_false, StructWriter.count, hv, g4, Bool.false_eq_true] at h
  cases h

/-! ### Examples -/

/-- Two null rows after `Reset`, with an entry every five rows; a row that is not null panics. -/
example : ∃ w1 w2, (StructWriter.new ⟨⟨.zlib, 3, true⟩, 5⟩ true).reset ⟨⟨.zlib, 3, true⟩, 5⟩ = .ok w1 ∧
    StructWriter.writes runCodec ⟨⟨.zlib, 3, true⟩, 5⟩ w1 [⟨true, .nil⟩, ⟨true, .nil⟩] = .ok w2 ∧
    w2.indexStats = some ⟨none, false, 2, 0⟩ ∧ w2.write runCodec ⟨⟨.zlib, 3, true⟩, 5⟩ ⟨false, .nil⟩ = .panic := ⟨_, _, rfl, rfl, rfl, rfl⟩

/-- Without row indexes. -/
def plainOpts : COpts := ⟨⟨.zlib, 3, false⟩, 2⟩

theorem plainOpts_sound : plainOpts.toWOpts.Sound := by simp [plainOpts, WOpts.Sound]

/-- **C81** is false for several stripes: the flag of the only row of the first stripe, not null, comes back in the second stripe, whose only
row is null. -/
theorem struct_stripes_false : ∃ body body', StructWriter.stripes runCodec plainOpts (StructWriter.new plainOpts true) [[⟨false, .nil⟩], [⟨true, .nil⟩]] = .ok [body, body'] ∧
    ¬ FlagsIn runCodec plainOpts.toWOpts body' (flagsOf [⟨true, .nil⟩]) := by
  refine ⟨[5, 0, 0, 0xff, 0x80], [5, 0, 0, 0xff, 0x80], by decide +kernel, fun h => ?_⟩
  obtain ⟨r', r1, h1, -⟩ := h [] []
  have : (BoolReader.next runCodec (newBoolReader (streamAt plainOpts.toWOpts [] [5, 0, 0, 0xff, 0x80] [])) >>= fun x => .ok x.1) = .ok true := by decide +kernel
  rw [h1] at this
  cases this

example : ∃ w, StructWriter.writes runCodec exOpts (StructWriter.new exOpts true) [⟨false, .nil⟩, ⟨true, .nil⟩, ⟨false, .nil⟩, ⟨false, .nil⟩, ⟨true, .nil⟩] = .ok w ∧
    w.index = [⟨[0, 0, 0, 2], ⟨some 1, true, 1, 0⟩⟩, ⟨[0, 0, 0, 4], ⟨some 1, true, 2, 0⟩⟩] := ⟨_, rfl, by decide +kernel⟩

example : ∃ bodies, StructWriter.stripes runCodec plainOpts (StructWriter.new plainOpts true)
      [[⟨false, .nil⟩, ⟨true, .nil⟩, ⟨false, .nil⟩, ⟨false, .nil⟩, ⟨false, .nil⟩, ⟨false, .nil⟩, ⟨false, .nil⟩, ⟨false, .nil⟩, ⟨true, .nil⟩], [⟨true, .nil⟩, ⟨false, .nil⟩]] = .ok bodies ∧ bodies.length = 2 := by
  obtain ⟨bodies, h1, h2⟩ := struct_stripes_roundtrip_partial runCodec runCodec_lossless plainOpts_sound rfl rfl
    [[⟨false, .nil⟩, ⟨true, .nil⟩, ⟨false, .nil⟩, ⟨false, .nil⟩, ⟨false, .nil⟩, ⟨false, .nil⟩, ⟨false, .nil⟩, ⟨false, .nil⟩, ⟨true, .nil⟩], [⟨true, .nil⟩, ⟨false, .nil⟩]]
    (by simp [NoStale, flagsOf, trailing])
  exact ⟨bodies, h1, h2.length_eq⟩

/-- A history of a nullable struct: two rows, one of them null, in the first stripe and one in the second. -/
example : ∃ w, (AnyWriter.struct (StructWriter.new plainOpts true)).run exArith runCodec plainOpts
      [.write ⟨false, .nil⟩, .write ⟨true, .nil⟩, .flush, .writeOut, .reset, .write ⟨false, .nil⟩] = .ok w ∧
    w.stats.numberOfValues = 3 := ⟨_, rfl, rfl⟩

/-- A history of a dictionary column. -/
example : ∃ w, (AnyWriter.dict (DictWriter.new plainOpts true)).run exArith runCodec plainOpts
      [.write ⟨true, .nil⟩, .flush, .writeOut, .reset, .write ⟨false, .str [98]⟩, .write ⟨false, .str [99]⟩, .write ⟨false, .str [97]⟩] = .ok (.dict w) ∧
    w.stats.typed = some ⟨some [], some [99], some [], some [], 3⟩ := ⟨_, rfl, by decide +kernel⟩

end Goorc
