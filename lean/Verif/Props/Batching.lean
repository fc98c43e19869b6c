import Verif.Props.Total
import Mathlib.Data.List.Chain
/-
C69, C71: when a stripe ends, and that batches do not matter.
-/
namespace Goorc

/-! ### What a null carries is not written -/

theorem AnyWriter.write_row (A : Arith) (c : Codec) (o : COpts) (w : AnyWriter) {v v' : Value} (h : v.row = v'.row) : w.write A c o v = w.write A c o v' := by
  obtain ⟨null, x⟩ := v
  obtain ⟨null', x'⟩ := v'
  cases null <;> cases null' <;> simp [Value.row] at h
  · subst h; rfl
  · cases w with
    | leaf t w => simp [AnyWriter.write, LeafKind.write, LeafKind.writePresent, LeafKind.indexRow]
    | dict w => simp [AnyWriter.write, DictWriter.write, writeFlag]
    | struct w => simp [AnyWriter.write, StructWriter.write, writeFlag, StructWriter.indexRow]

theorem writeCells_rows (A : Arith) (c : Codec) (o : COpts) : ∀ (xs ys : List (Nat × Value)) (ws : List AnyWriter), rowOf xs = rowOf ys →
    writeCells A c o ws xs = writeCells A c o ws ys
  | [], [], _, _ => rfl
  | [], _ :: _, _, h => by simp [rowOf] at h
  | _ :: _, [], _, h => by simp [rowOf] at h
  | (i, v) :: xs, (j, v') :: ys, ws, h => by
    simp only [rowOf, List.map_cons, List.cons.injEq, Prod.mk.injEq] at h
    obtain ⟨⟨rfl, h1⟩, h2⟩ := h
    simp only [writeCells]
    cases ws[i]? with
    | none => rfl
    | some w =>
      simp only
      rw [AnyWriter.write_row A c o w h1]
      congr 1
      funext w'
      exact writeCells_rows A c o xs ys _ h2

/-! ### Row by row -/

/-- What happens to a stripe writer with one row of a table. -/
def StripeWriter.step (E : Env) (o : FOpts) (s : StripeWriter) (r : List (Nat × Value)) : Res StripeWriter := do
  let ws ← writeCells E.A E.c o.toCOpts s.writers r
  if stripeBytes E.A o.toCOpts ws ≥ o.stripeSize then do
    let s ← ({ s with writers := ws }.addRows 1).flushOut E o
    s.forward E.A o
  else .ok ({ s with writers := ws }.addRows 1)

def StripeWriter.steps (E : Env) (o : FOpts) (s : StripeWriter) : Raws → Res StripeWriter
  | [] => .ok s
  | r :: rs => do
    let s ← s.step E o r
    s.steps E o rs

theorem StripeWriter.steps_append (E : Env) (o : FOpts) (xs ys : Raws) : ∀ s : StripeWriter, s.steps E o (xs ++ ys) = (s.steps E o xs >>= fun s => s.steps E o ys) := by
  induction xs with
  | nil => intro s; rfl
  | cons x xs ih => intro s; simp only [List.cons_append, StripeWriter.steps, Res.bind_assoc, ih]

theorem StripeWriter.steps_rows (E : Env) (o : FOpts) : ∀ (xs ys : Raws) (s : StripeWriter), xs.map rowOf = ys.map rowOf → s.steps E o xs = s.steps E o ys
  | [], [], _, _ => rfl
  | [], _ :: _, _, h => by simp at h
  | _ :: _, [], _, h => by simp at h
  | x :: xs, y :: ys, s, h => by
    simp only [List.map_cons, List.cons.injEq] at h
    simp only [StripeWriter.steps, StripeWriter.step]
    rw [writeCells_rows E.A E.c o.toCOpts x y s.writers h.1]
    congr 1
    funext s'
    exact StripeWriter.steps_rows E o xs ys s' h.2

theorem StripeWriter.writeLoop_steps {E : Env} {o : FOpts} {v : Vec} {len : Nat}
    (hv : ∀ i < len, ∀ ws, writeValue E.A E.c o.toCOpts i ws v = writeCells E.A E.c o.toCOpts ws (v.raw i)) (n : Nat) :
    ∀ (i count : Nat) (s : StripeWriter), i + n ≤ len → StripeWriter.writeLoop E o v n i count s = (s.addRows count).steps E o ((List.range' i n).map fun i => v.raw i) := by
  induction n with
  | zero => intro i count s _; rfl
  | succ n ih =>
    intro i count s hi
    simp only [StripeWriter.writeLoop, List.range'_succ, List.map_cons, StripeWriter.steps, StripeWriter.step, hv i (by omega), Res.bind_assoc]
    have e : ∀ ws : List AnyWriter, ({ s.addRows count with writers := ws } : StripeWriter).addRows 1 = ({ s with writers := ws } : StripeWriter).addRows (count + 1) := by
      intro ws; simp [StripeWriter.addRows, Nat.add_assoc]
    have e2 : (s.addRows count).writers = s.writers := rfl
    have e3 : ∀ ws : List AnyWriter, StripeWriter.size E.A o ({ s with writers := ws }) = stripeBytes E.A o.toCOpts ws := fun ws => rfl
    simp only [e, e2, e3]
    congr 1
    funext ws
    split
    · simp only [Res.bind_assoc]
      congr 1
      funext s'
      congr 1
      funext s''
      rw [ih _ _ _ (by omega)]
      rfl
    · simp only [Res.ok_bind]
      rw [ih _ _ _ (by omega)]

theorem FileWriter.writes_steps {E : Env} {o : FOpts} (schema : Schema) (batches : List Vec) : (∀ v ∈ batches, ∃ len, schema.Batch len v) → ∀ w : FileWriter,
    w.writes E o batches = (do let s ← w.stripe.steps E o (batches.flatMap Vec.rawRows); pure { w with stripe := s }) := by
  induction batches with
  | nil => intro _ w; rfl
  | cons v vs ih =>
    intro hb w
    obtain ⟨len, hl⟩ := hb v (by simp)
    obtain ⟨e1, e2⟩ := Schema.Batch.spec (A := E.A) (c := E.c) (o := o.toCOpts) schema v hl
    simp only [FileWriter.writes, FileWriter.write, StripeWriter.write_of (Schema.Batch.lenPanics _ _ hl), List.flatMap_cons, StripeWriter.steps_append, Res.bind_assoc]
    rw [StripeWriter.writeLoop_steps (len := len) (fun i hi => (e2 i hi).2) v.len 0 0 w.stripe (by omega)]
    have : (w.stripe.addRows 0) = w.stripe := rfl
    rw [this, Vec.rawRows, List.range_eq_range']
    congr 1
    funext s
    simp only [Res.pure_eq, Res.ok_bind]
    rw [ih (fun v hv => hb v (by simp [hv]))]
    rfl

/-- **C71** How the rows of a table are distributed over calls of `Write` does not matter, and neither do the rest of the vectors'
arrays or what is stored in a null: two clients that write the same rows get the same file, byte for byte, or the
same failure. -/
theorem batching_irrelevant (E : Env) (o : FOpts) (schema : Schema) (batches batches' : List Vec)
    (hb : ∀ v ∈ batches, ∃ len, schema.Batch len v) (hb' : ∀ v ∈ batches', ∃ len, schema.Batch len v)
    (same : batches.flatMap Vec.tableRows = batches'.flatMap Vec.tableRows) :
    writeFile E o schema batches = writeFile E o schema batches' := by
  have raws : ∀ bs : List Vec, (bs.flatMap Vec.rawRows).map rowOf = bs.flatMap Vec.tableRows := by
    intro bs; induction bs with
    | nil => rfl
    | cons v vs ih => simp only [List.flatMap_cons, List.map_append, ih, Vec.rawRows_table]
  simp only [writeFile]
  congr 1
  funext w
  rw [FileWriter.writes_steps schema batches hb, FileWriter.writes_steps schema batches' hb',
    StripeWriter.steps_rows E o _ (batches'.flatMap Vec.rawRows) w.stripe (by rw [raws, raws, same])]

def doubles (xs rest : List (BitVec 64)) : Vec :=
  .mk 0 .struct none [.mk 1 .double (some ⟨(xs ++ rest).map fun x => ⟨false, .f64 x⟩, xs.length⟩) []]

theorem doubles_batch (xs rest : List (BitVec 64)) : exDoubles.Batch xs.length (doubles xs rest) :=
  .struct _ _ _ rfl rfl (by simp) (.cons (.leaf _ _ (by decide) rfl (by simp)) .nil)

/-- Two batches of three and two rows, with arrays that are longer than that, and one batch of the same five rows. -/
example (E : Env) (o : FOpts) : writeFile E o exDoubles [doubles [1, 2, 3] [7], doubles [4, 5] [8, 9]] = writeFile E o exDoubles [doubles [1, 2, 3, 4, 5] []] :=
  batching_irrelevant E o exDoubles _ _
    (by simp only [List.mem_cons, List.not_mem_nil, or_false]; rintro v (rfl | rfl) <;> exact ⟨_, doubles_batch _ _⟩)
    (by simp only [List.mem_cons, List.not_mem_nil, or_false]; rintro v rfl; exact ⟨_, doubles_batch _ _⟩) (by decide)

/-- Any doubles meet the conditions of `typed_round_trip_partial` and `typed_stripes_partial`. -/
example (xs rest : List (BitVec 64)) : TableTyped exDoubles ([doubles xs rest].flatMap Vec.tableRows) := by
  have key : ∀ r ∈ [doubles xs rest].flatMap Vec.tableRows, ∃ x, Row.cell 1 r = some (.f64 x) := by
    intro r hr
    simp only [List.flatMap_cons, List.flatMap_nil, List.append_nil, Vec.tableRows, List.mem_map, List.mem_range] at hr
    obtain ⟨i, hi, rfl⟩ := hr
    have hlen : (doubles xs rest).len = xs.length := (Schema.Batch.spec (A := exArith) (c := runCodec) (o := exOpts) _ _ (doubles_batch xs rest)).1
    rw [hlen] at hi
    exact ⟨xs[i], by simp [doubles, Vec.cells, cellsAll, visibleRows, Row.cell, Slice.visible, hi, Value.row]⟩
  refine ⟨.of_plain (exDoubles_columns (.inl rfl) (.inr rfl)) (exDoubles_columns (fun _ => rfl) (by simp [node_mk]))
    (exDoubles_columns (fun h => absurd rfl h) fun _ _ r hr => ?_), exDoubles_columns (fun h => absurd rfl h) fun _ => ⟨.float true, rfl, .inr (.inr rfl), fun r hr v hv => ?_⟩⟩
  · obtain ⟨x, hx⟩ := key r hr
    simp [node_mk, hx]
  · obtain ⟨x, hx⟩ := key r hr
    simp only [node_mk, hx, Option.some.injEq] at hv
    subst hv
    trivial

/-! ### When a stripe ends -/

/-- A stripe that was written: the column writers at its first row, its rows, and the pieces in the file. -/
structure WrittenStripe where
  start : List AnyWriter
  rows : Raws
  part : StripeParts

/-- A stripe is written, and the column writers are reset for the next one. -/
def WrittenStripe.Next (E : Env) (o : FOpts) (ns : List SchemaNode) (x y : WrittenStripe) : Prop :=
  ∃ ws, StripeRun E o ns x.start x.rows x.part ws ∧ onWriters (fun w => w.reset E.A o.toCOpts) ws = .ok y.start

theorem StripeRuns.written {E : Env} {o : FOpts} {ns : List SchemaNode} {ws0 ws : List AnyWriter} {done : List (Raws × StripeParts)} (h : StripeRuns E o ns ws0 done ws) :
    ∃ runs : List WrittenStripe, done = runs.map (fun x => (x.rows, x.part)) ∧ (∀ x ∈ runs, FullStripe E o x.start x.rows ∧ x.part.rows = x.rows.length) ∧
      ∀ last : WrittenStripe, last.start = ws → (runs ++ [last]).IsChain (WrittenStripe.Next E o ns) ∧ (runs ++ [last]).head?.map (·.start) = some ws0 := by
  induction h with
  | nil => exact ⟨[], rfl, by simp, fun last h => ⟨.singleton _, by simp [h]⟩⟩
  | @snoc done ws ws3 ws4 rows p h run full reset ih =>
    obtain ⟨runs, e1, e2, e3⟩ := ih
    refine ⟨runs ++ [⟨ws, rows, p⟩], by simp [e1], ?_, fun last hlast => ?_⟩
    · intro x hx
      rcases List.mem_append.1 hx with hx | hx
      · exact e2 x hx
      · simp only [List.mem_cons, List.not_mem_nil, or_false] at hx
        subst hx
        obtain ⟨ws1, ws2, -, -, -, -, hr, -⟩ := run
        exact ⟨full, hr⟩
    · obtain ⟨f1, f2⟩ := e3 ⟨ws, rows, p⟩ rfl
      refine ⟨?_, ?_⟩
      · refine List.isChain_append.2 ⟨f1, .singleton _, ?_⟩
        intro x hx y hy
        simp only [List.getLast?_append, List.getLast?_singleton, Option.some_or, Option.mem_def, Option.some.injEq, List.head?_cons] at hx hy
        subst hx; subst hy
        exact ⟨ws3, run, by rw [reset, hlast]⟩
      · cases runs with
        | nil => simpa using f2
        | cons x xs => simpa using f2

/-- **C69** In every file that was closed, a stripe ends with the first row after which the bytes its columns have produced reach the
stripe size: with the last row of each stripe but the last the size is reached, with none of the rows before it, and with
no row of the last stripe. The stripes hold the rows in the order in which they were written, and the footer
counts them. -/
theorem stripes_roll_over (E : Env) (o : FOpts) (schema : Schema) (batches : List Vec) (file : Bytes) (h : writeFile E o schema batches = .ok file) :
    ∃ (runs : List WrittenStripe) (last : WrittenStripe) (ft : FileFooter) (ps : PostScript) (ws0 : List AnyWriter),
      FileLayout E o schema.columns file ((runs ++ [last]).map (·.part)) ft ps ∧
      (runs ++ [last]).flatMap (fun x => x.rows.map rowOf) = batches.flatMap Vec.tableRows ∧
      (∀ x ∈ runs ++ [last], x.part.rows = x.rows.length) ∧
      newWriters E.A o.toCOpts (schema.columns.map (·.node)) = .ok ws0 ∧ (runs ++ [last]).head?.map (·.start) = some ws0 ∧
      (runs ++ [last]).IsChain (WrittenStripe.Next E o (schema.columns.map (·.node))) ∧
      (∀ x ∈ runs, FullStripe E o x.start x.rows) ∧ Small E o last.start last.rows := by
  obtain ⟨ws0, done, ws, rows, p, ws3, ft, ps, h1, h2, h3, h4, h5, h6, -⟩ := file_traced h
  obtain ⟨runs, e1, e2, e3⟩ := h2.written
  have raws : ∀ bs : List Vec, (bs.flatMap Vec.rawRows).map rowOf = bs.flatMap Vec.tableRows := by
    intro bs; induction bs with
    | nil => rfl
    | cons v vs ih => simp only [List.flatMap_cons, List.map_append, ih, Vec.rawRows_table]
  obtain ⟨g1, g2⟩ := e3 ⟨ws, rows, p⟩ rfl
  refine ⟨runs, ⟨ws, rows, p⟩, ft, ps, ws0, ?_, ?_, ?_, h1, g2, g1, fun x hx => (e2 x hx).1, h4⟩
  · rw [e1] at h5; simpa [Function.comp_def] using h5
  · rw [← raws, ← h6, rowsOf, e1]
    simp [List.map_flatMap, List.flatMap_map]
  · intro x hx
    rcases List.mem_append.1 hx with hx | hx
    · exact (e2 x hx).2
    · simp only [List.mem_cons, List.not_mem_nil, or_false] at hx
      subst hx
      obtain ⟨ws1, ws2, -, -, -, -, hr, -⟩ := h3
      exact hr

/-- Three doubles with a stripe size of 10: two of them fill a stripe. -/
example : ∃ file, writeFile exEnv ⟨⟨⟨.zlib, 100, false⟩, 2⟩, 10⟩ exDoubles [exDoubleBatch] = .ok file := by
  have : (match writeFile exEnv ⟨⟨⟨.zlib, 100, false⟩, 2⟩, 10⟩ exDoubles [exDoubleBatch] with | .ok _ => true | _ => false) = true := by decide +kernel
  split at this
  · rename_i f h; exact ⟨f, h⟩
  · simp at this

end Goorc
