import Verif.Props.RoundTrip
/- Writing a table never fails, if its values can be read back: lemmas for Props/Total.lean. -/
namespace Goorc

section
variable {A : Arith} {c : Codec} {o : COpts}

theorem Schema.Batch.lenPanics {len : Nat} (s : Schema) : ∀ v, s.Batch len v → v.lenPanics = false := by
  induction s using Schema.ind with
  | h n cs ih =>
    intro v hv
    cases hv with
    | leaf _ s kind size fits => simp [Vec.lenPanics]
    | struct _ _ vs kind nulls some_child below =>
      cases below with
      | nil => exact absurd rfl some_child
      | cons hv hvs => simp only [Vec.lenPanics, Option.map_none, Option.getD_none, ne_eq, not_true_eq_false, if_false]; exact ih _ (by simp) _ hv
    | optional _ _ s vs kind nulls size fits some_child below =>
      cases below with
      | nil => exact absurd rfl some_child
      | cons hv hvs =>
        rw [Vec.lenPanics]
        split
        · rfl
        · exact ih _ (by simp) _ hv

theorem Schema.Batch.spec {len : Nat} (s : Schema) : ∀ v, s.Batch len v → v.len = len ∧ ∀ i < len,
    (v.cells i).map (·.1) = s.leafIds ∧ ∀ ws, writeValue A c o i ws v = writeCells A c o ws (v.raw i) := by
  induction s using Schema.ind with
  | h n cs ih =>
    intro v hv
    have hall : ∀ (ds : List Schema) (vs : List Vec), (∀ d ∈ ds, d ∈ cs) → List.Forall₂ (Schema.Batch len) ds vs → ∀ i < len,
        (cellsAll i vs).map (·.1) = ((columnsAll ds).filter fun c => c.node.hasVector).map (fun c => c.node.id) ∧
        ∀ ws, writeValues A c o i ws vs = writeCells A c o ws (rawAll i vs) := by
      intro ds
      induction ds with
      | nil => intro vs _ h i _; cases h; exact ⟨rfl, fun ws => rfl⟩
      | cons d ds ih2 =>
        intro vs hmem h1 i hi
        cases h1 with
        | cons hv hvs =>
          obtain ⟨e1, e2⟩ := (ih d (hmem d (by simp)) _ hv).2 i hi
          obtain ⟨f1, f2⟩ := ih2 _ (fun d hd => hmem d (by simp [hd])) hvs i hi
          simp only [Schema.leafIds] at e1
          refine ⟨by simp only [cellsAll, columnsAll, List.filter_append, List.map_append, e1, f1], fun ws => ?_⟩
          simp only [writeValues, rawAll, writeCells_append, e2]
          congr 1
          funext ws
          exact f2 ws
    cases hv with
    | leaf _ s kind size fits =>
      refine ⟨by simp only [Vec.len, Option.map_some, Option.getD_some, size]; split <;> omega, fun i hi => ?_⟩
      have hlt : i < s.visible.length := by simp [Slice.visible]; omega
      refine ⟨by simp [Vec.cells, visibleRows, List.getElem?_eq_getElem hlt, cellsAll, Schema.leafIds, Schema.columns, columnsAll, List.filter_cons, node_mk, SchemaNode.leaf_hasVector kind], fun ws => ?_⟩
      simp only [writeValue, writeRow, List.getElem?_eq_getElem hlt, Vec.raw, visibleRows, Option.map_some, Option.toList_some, rawAll, List.append_nil, writeCells]
      cases ws[n.id]? with
      | none => rfl
      | some w =>
        simp only [Res.bind_assoc, writeValues, Res.pure_eq, Res.ok_bind]
    | struct _ _ vs kind nulls ne below =>
      refine ⟨?_, fun i hi => ?_⟩
      · cases below with
        | nil => exact absurd rfl ne
        | cons hv _ => simpa [Vec.len] using (ih _ (by simp) _ hv).1
      obtain ⟨e1, e2⟩ := hall cs vs (fun _ h => h) below i hi
      refine ⟨by simp [Vec.cells, visibleRows, e1, Schema.leafIds, Schema.columns, List.filter_cons, node_mk, SchemaNode.hasVector, kind, nulls], fun ws => ?_⟩
      simp only [writeValue, writeRow, Vec.raw, visibleRows, List.getElem?_nil, Option.map_none, Option.toList_none, List.nil_append, Res.ok_bind, e2]
    | optional _ _ s vs kind nulls size fits ne below =>
      refine ⟨?_, fun i hi => ?_⟩
      · cases below with
        | nil => exact absurd rfl ne
        | cons hv _ =>
          have := (ih _ (by simp) _ hv).1
          simp only [Vec.len, Option.map_some, Option.getD_some, size, this]
          split <;> omega
      have hlt : i < s.visible.length := by simp [Slice.visible]; omega
      obtain ⟨e1, e2⟩ := hall cs vs (fun _ h => h) below i hi
      refine ⟨by simp [Vec.cells, visibleRows, List.getElem?_eq_getElem hlt, e1, Schema.leafIds, Schema.columns, List.filter_cons, node_mk, SchemaNode.hasVector, nulls], fun ws => ?_⟩
      simp only [writeValue, writeRow, List.getElem?_eq_getElem hlt, Vec.raw, visibleRows, Option.map_some, Option.toList_some, List.cons_append, List.nil_append, writeCells]
      cases ws[n.id]? with
      | none => rfl
      | some w => simp only [Res.bind_assoc, Res.pure_eq, Res.ok_bind, e2]

theorem writes_prefix {a b : List Value} : ∀ {w w' : AnyWriter}, w.writes A c o (a ++ b) = .ok w' → ∃ w1, w.writes A c o a = .ok w1 := by
  induction a with
  | nil => intro w w' _; exact ⟨w, rfl⟩
  | cons v a ih =>
    intro w w' h
    simp only [List.cons_append, AnyWriter.writes] at h ⊢
    obtain ⟨w1, h1, h⟩ := Res.bind_ok_inv h
    obtain ⟨w2, h2⟩ := ih h
    exact ⟨w2, by rw [h1]; exact h2⟩

theorem writeCells_ok (xs : List (Nat × Value)) : ∀ ws : List AnyWriter, (∀ x ∈ xs, x.1 < ws.length) →
    (∀ (j : Nat) w, ws[j]? = some w → ∃ w', w.writes A c o (columnOf j xs) = .ok w') → ∃ ws', writeCells A c o ws xs = .ok ws' := by
  induction xs with
  | nil => intro ws _ _; exact ⟨ws, rfl⟩
  | cons x xs ih =>
    obtain ⟨id, v⟩ := x
    intro ws hlt h
    have hid : id < ws.length := hlt (id, v) (by simp)
    have hget := List.getElem?_eq_getElem hid
    obtain ⟨w', hw⟩ := h id ws[id] hget
    simp only [columnOf, List.filter_cons, decide_true, if_true, List.map_cons, AnyWriter.writes] at hw
    obtain ⟨w1, h1, h2⟩ := Res.bind_ok_inv hw
    obtain ⟨ws', h3⟩ := ih (ws.set id w1) (fun x hx => by simpa using hlt x (by simp [hx])) (fun j w hj => by
      rw [List.getElem?_set] at hj
      by_cases he : id = j
      · subst he
        simp [hid] at hj
        subst hj
        exact ⟨w', h2⟩
      · rw [if_neg he] at hj
        obtain ⟨w2, h4⟩ := h j w hj
        refine ⟨w2, ?_⟩
        simpa [columnOf, List.filter_cons, he] using h4)
    exact ⟨ws', by simp only [writeCells, hget, h1, Res.ok_bind, h3]⟩

/-- All columns of one stripe can be flushed. -/
theorem columns_flush (hc : c.Lossless) (ho : o.toWOpts.Sound) (col : Nat → List Value) {ns : List SchemaNode} {ws1 : List AnyWriter}
    (h : List.Forall₂ (fun n w1 => ∃ w, AnyWriter.Ready c o n w ∧ w.writes A c o (col n.id) = .ok w1) ns ws1)
    (hs : ∀ n ∈ ns, n.hasVector = false → col n.id = []) (hr : ∀ n ∈ ns, n.kind ≠ .struct → n.Readable o.writeIndex ((col n.id).map Value.row)) :
    ∃ ws2 ws3 body, onWriters (fun w => w.flush A c o) ws1 = .ok ws2 ∧ StripeWriter.writeOuts A o ws2 = .ok (ws3, body) ∧
      (o.kind = .zlib → o.writeIndex = false → (∀ n ∈ ns, n.hasVector = true → n.NothingStale ((col n.id).map Value.row)) →
        ∃ ws4, onWriters (fun w => w.reset A o) ws3 = .ok ws4 ∧ List.Forall₂ (AnyWriter.Ready c o) ns ws4) := by
  induction h with
  | nil => exact ⟨[], [], [], rfl, rfl, fun _ _ _ => ⟨[], rfl, .nil⟩⟩
  | cons hx _ ih =>
    rename_i n w1 ns ws1 _
    obtain ⟨ws2, ws3, body, g1, g2, g3⟩ := ih (fun n hn => hs n (by simp [hn])) (fun n hn => hr n (by simp [hn]))
    obtain ⟨w, f1, f2⟩ := hx
    obtain ⟨u1, u2, u3, bs, l1, l2, l3, -, -, l4⟩ := AnyWriter.stripe_spec (A := A) hc ho f1 (col n.id) (hs n (by simp)) (hr n (by simp))
    rw [f2] at l1; injection l1 with l1; subst l1
    refine ⟨u2 :: ws2, u3 :: ws3, Bodies.bytes bs ++ body, by simp [onWriters, l2, g1], by simp only [StripeWriter.writeOuts, l3, g2, Res.ok_bind, Res.pure_eq], fun hz hwi hcl => ?_⟩
    obtain ⟨ws4, k1, k2⟩ := g3 hz hwi fun n hn => hcl n (by simp [hn])
    obtain ⟨w4, k3, k4⟩ := l4 hz hwi (hcl n (by simp))
    exact ⟨w4 :: ws4, by simp [onWriters, k1, k3], .cons k4 k2⟩

/-- One stripe can be written, whatever comes before. -/
theorem stripe_ok (hc : c.Lossless) (ho : o.toWOpts.Sound) {ns : List SchemaNode} (hids : ns.map (·.id) = List.range ns.length) {ws : List AnyWriter} {rows : Raws}
    (hr : List.Forall₂ (AnyWriter.Ready c o) ns ws) (hrows : RowsReadable o.writeIndex ns (rows.map rowOf)) :
    ∃ ws1 ws2 ws3 body, writeCells A c o ws rows.flatten = .ok ws1 ∧ onWriters (fun w => w.flush A c o) ws1 = .ok ws2 ∧
      StripeWriter.writeOuts A o ws2 = .ok (ws3, body) ∧
      (o.kind = .zlib → o.writeIndex = false → RowsClean ns (rows.map rowOf) →
        ∃ ws4, onWriters (fun w => w.reset A o) ws3 = .ok ws4 ∧ List.Forall₂ (AnyWriter.Ready c o) ns ws4) := by
  have hnd : (ns.map (·.id)).Nodup := by rw [hids]; exact List.nodup_range
  have hnd' : ((ns.filter fun n => n.hasVector).map (·.id)).Nodup := hnd.sublist (List.filter_sublist.map _)
  have hrows' : ∀ r ∈ rows, (rowOf r).map (·.1) = (ns.filter fun n => n.hasVector).map (·.id) :=
    fun r hr => hrows.ids _ (List.mem_map_of_mem hr)
  have hleaf : ∀ n ∈ ns, n.hasVector = true → (columnOf n.id rows.flatten).map Value.row = (rows.map rowOf).map (Row.cell n.id) := fun n hn hk =>
    columnOf_rows hnd' (List.mem_map_of_mem (List.mem_filter.2 ⟨hn, by simpa using hk⟩)) rows hrows'
  have hstruct : ∀ n ∈ ns, n.hasVector = false → columnOf n.id rows.flatten = [] := fun n hn hk => by
    refine columnOf_rows_absent ?_ rows hrows'
    intro hm
    obtain ⟨m, hm', he⟩ := List.mem_map.1 hm
    have := eq_of_nodup_map hnd (List.mem_filter.1 hm').1 hn he
    subst this
    simpa [hk] using (List.mem_filter.1 hm').2
  have hid : ∀ (i : Nat) (hi : i < ns.length), (ns[i]).id = i := fun i hi => by
    have := congrArg (fun l => l[i]?) hids
    simp only [List.getElem?_map, List.getElem?_eq_getElem hi, Option.map_some, List.getElem?_range hi, Option.some.injEq] at this
    exact this
  have hlen := hr.length_eq
  obtain ⟨ws1, h1⟩ := writeCells_ok (A := A) (c := c) (o := o) rows.flatten ws (fun x hx => by
      obtain ⟨r, hr, hx⟩ := List.mem_flatten.1 hx
      have hm : x.1 ∈ (rowOf r).map (·.1) := by
        rw [rowOf, List.map_map]
        exact List.mem_map_of_mem (f := fun x : Nat × Value => x.1) hx
      rw [hrows' r hr] at hm
      obtain ⟨n, hn, he⟩ := List.mem_map.1 hm
      have : x.1 ∈ ns.map (·.id) := List.mem_map.2 ⟨n, (List.mem_filter.1 hn).1, he⟩
      rw [hids, List.mem_range] at this
      omega) (fun j w hj => by
      obtain ⟨hj', rfl⟩ := List.getElem?_eq_some_iff.1 hj
      have hjn : j < ns.length := by omega
      have hready := (List.forall₂_iff_get.1 hr).2 j hjn hj'
      simp only [List.get_eq_getElem] at hready
      obtain ⟨w1, w2, w3, bs, l1, -⟩ := AnyWriter.stripe_spec (A := A) hc ho hready (columnOf j rows.flatten)
        (fun hk => by have := hstruct ns[j] (List.getElem_mem hjn) hk; rwa [hid j hjn] at this)
        (fun hk => by
          have := hleaf ns[j] (List.getElem_mem hjn) (SchemaNode.leaf_hasVector hk)
          rw [hid j hjn] at this
          rw [this]
          have := hrows.values ns[j] (List.getElem_mem hjn) hk
          rwa [hid j hjn] at this)
      exact ⟨w1, l1⟩)
  obtain ⟨g1, g2⟩ := writeCells_column _ _ _ h1
  have hall : List.Forall₂ (fun n w1 => ∃ w, AnyWriter.Ready c o n w ∧ w.writes A c o (columnOf n.id rows.flatten) = .ok w1) ns ws1 := by
    rw [List.forall₂_iff_get] at hr ⊢
    refine ⟨by rw [g1]; exact hlen, fun i hi hi' => ?_⟩
    have hiw : i < ws.length := by omega
    obtain ⟨w', k1, k2⟩ := g2 i ws[i] (List.getElem?_eq_getElem hiw)
    refine ⟨ws[i], hr.2 i hi hiw, ?_⟩
    simp only [List.get_eq_getElem, hid i hi]
    rw [k2]
    rw [List.getElem?_eq_getElem hi'] at k1
    simpa using k1.symm
  obtain ⟨ws2, ws3, body, e1, e2, e3⟩ := columns_flush hc ho (fun j => columnOf j rows.flatten) hall hstruct
    (fun n hn hk => by rw [hleaf n hn (SchemaNode.leaf_hasVector hk)]; exact hrows.values n hn hk)
  exact ⟨ws1, ws2, ws3, body, h1, e1, e2, fun hz hwi hcl => e3 hz hwi fun n hn hk => by rw [hleaf n hn hk]; exact hcl n hn hk⟩

end

/-- As long as no prefix of the rows reaches the stripe size, all rows end up in the current stripe. -/
theorem writeLoop_ok {E : Env} {o : FOpts} (vec : Vec) (n : Nat) : ∀ (i count : Nat) (s : StripeWriter) (ws' : List AnyWriter),
    (∀ j < i + n, ∀ ws, writeValue E.A E.c o.toCOpts j ws vec = writeCells E.A E.c o.toCOpts ws (vec.raw j)) →
    writeCells E.A E.c o.toCOpts s.writers ((List.range' i n).map fun j => vec.raw j).flatten = .ok ws' →
    (∀ m ws, 1 ≤ m → m ≤ n → writeCells E.A E.c o.toCOpts s.writers ((List.range' i m).map fun j => vec.raw j).flatten = .ok ws → stripeBytes E.A o.toCOpts ws < o.stripeSize) →
    ∃ s', StripeWriter.writeLoop E o vec n i count s = .ok s' ∧ s'.writers = ws' := by
  induction n with
  | zero =>
    intro i count s ws' _ h _
    simp only [List.range'_zero, List.map_nil, List.flatten_nil, writeCells] at h
    injection h with h
    exact ⟨_, rfl, h⟩
  | succ n ih =>
    intro i count s ws' heq h hsz
    rw [List.range'_succ, List.map_cons, List.flatten_cons, writeCells_append] at h
    obtain ⟨ws, h1, h⟩ := Res.bind_ok_inv h
    have hsmall := hsz 1 ws (by omega) (by omega) (by simpa using h1)
    obtain ⟨s', g1, g2⟩ := ih (i + 1) (count + 1) { s with writers := ws } ws' (fun j hj => heq j (by omega)) h (fun m ws2 _ hm hw => by
      refine hsz (m + 1) ws2 (by omega) (by omega) ?_
      rw [List.range'_succ, List.map_cons, List.flatten_cons, writeCells_append, h1]
      exact hw)
    refine ⟨s', ?_, g2⟩
    simp only [StripeWriter.writeLoop, heq i (by omega), h1, Res.ok_bind]
    rw [if_neg (by simp only [StripeWriter.size]; simp only [stripeBytes] at hsmall; omega)]
    exact g1

theorem writes_ok {E : Env} {o : FOpts} (batches : List Vec) : ∀ (w : FileWriter) (ws' : List AnyWriter),
    (∀ v ∈ batches, v.lenPanics = false) →
    (∀ v ∈ batches, ∀ j < v.len, ∀ ws, writeValue E.A E.c o.toCOpts j ws v = writeCells E.A E.c o.toCOpts ws (v.raw j)) →
    writeCells E.A E.c o.toCOpts w.stripe.writers (batches.flatMap Vec.rawRows).flatten = .ok ws' →
    (∀ rows ws, rows ≠ [] → rows <+: batches.flatMap Vec.rawRows → writeCells E.A E.c o.toCOpts w.stripe.writers rows.flatten = .ok ws → stripeBytes E.A o.toCOpts ws < o.stripeSize) →
    ∃ w', w.writes E o batches = .ok w' ∧ w'.stripe.writers = ws' := by
  induction batches with
  | nil =>
    intro w ws' _ _ h _
    simp only [List.flatMap_nil, List.flatten_nil, writeCells] at h
    injection h with h
    exact ⟨w, rfl, h⟩
  | cons v vs ih =>
    intro w ws' hln heq h hsz
    rw [List.flatMap_cons, List.flatten_append, writeCells_append] at h
    obtain ⟨ws, h1, h⟩ := Res.bind_ok_inv h
    obtain ⟨s, g1, g2⟩ := writeLoop_ok v v.len 0 0 w.stripe ws (fun j hj => heq v (by simp) j (by omega))
      (by rw [← List.range_eq_range']; exact h1) (fun m ws2 hm1 hm hw => by
        refine hsz _ ws2 (by intro he; have := congrArg List.length he; simp at this; omega) ?_ hw
        refine List.IsPrefix.trans ?_ (by rw [List.flatMap_cons]; exact List.prefix_append _ _)
        rw [Vec.rawRows, List.range_eq_range']
        exact List.IsPrefix.map _ (by
          obtain ⟨k, hk⟩ : ∃ k, v.len = m + k := ⟨v.len - m, by omega⟩
          rw [hk, ← List.range'_append_1]
          exact List.prefix_append _ _))
    obtain ⟨w', f1, f2⟩ := ih { w with stripe := s } ws' (fun v hv => hln v (by simp [hv])) (fun v hv => heq v (by simp [hv])) (by simpa only [g2] using h) (fun rows ws2 hne hp hw => by
      refine hsz (v.rawRows ++ rows) ws2 (by simp [hne]) (by rw [List.flatMap_cons]; exact (List.prefix_append_right_inj _).2 hp) ?_
      rw [List.flatten_append, writeCells_append, h1, Res.ok_bind]
      simpa only [g2] using hw)
    exact ⟨w', by simp only [FileWriter.writes, FileWriter.write, StripeWriter.write_of (hln v (by simp)), g1, Res.ok_bind, Res.pure_eq]; exact f1, f2⟩

/-- There is a bound for the sizes of all prefixes. -/
theorem size_bound {A : Arith} {c : Codec} {o : COpts} (rows : Raws) : ∀ ws0 : List AnyWriter,
    ∃ S, ∀ rs ws, rs <+: rows → writeCells A c o ws0 rs.flatten = .ok ws → stripeBytes A o ws < S := by
  induction rows with
  | nil =>
    intro ws0
    refine ⟨stripeBytes A o ws0 + 1, fun rs ws hp h => ?_⟩
    have := List.prefix_nil.1 hp
    subst this
    simp only [List.flatten_nil, writeCells] at h
    injection h with h; subst h
    omega
  | cons r rows ih =>
    intro ws0
    have key : ∃ S, ∀ rs ws, rs <+: rows → writeCells A c o ws0 (r :: rs).flatten = .ok ws → stripeBytes A o ws < S := by
      cases hw : writeCells A c o ws0 r with
      | ok ws1 =>
        obtain ⟨S, hS⟩ := ih ws1
        refine ⟨S, fun rs ws hp h => hS rs ws hp ?_⟩
        rwa [List.flatten_cons, writeCells_append, hw, Res.ok_bind] at h
      | _ =>
        refine ⟨0, fun rs ws hp h => ?_⟩
        rw [List.flatten_cons, writeCells_append, hw] at h
        cases h
    obtain ⟨S, hS⟩ := key
    refine ⟨max S (stripeBytes A o ws0 + 1), fun rs ws hp h => ?_⟩
    cases rs with
    | nil =>
      simp only [List.flatten_nil, writeCells] at h
      injection h with h; subst h
      omega
    | cons r' rs =>
      obtain ⟨rfl, hp'⟩ := List.cons_prefix_cons.1 hp
      have := hS rs ws hp' h
      omega

/-- The last stripe is written if its columns can be flushed. -/
theorem flushOut_ok {E : Env} {o : FOpts} (hcomp : ∀ b, ∃ d, compressingAllInChunks E.c o.kind o.chunkSize b = .ok d) (s : StripeWriter) {ws2 ws3 : List AnyWriter} {body : Bytes}
    (e1 : onWriters (fun w => w.flush E.A E.c o.toCOpts) s.writers = .ok ws2) (e2 : StripeWriter.writeOuts E.A o.toCOpts ws2 = .ok (ws3, body)) :
    ∃ s', s.flushOut E o = .ok s' := by
  simp only [StripeWriter.flushOut, e1, e2, Res.ok_bind]
  have key : ∀ s : StripeWriter, ∃ s', s.writeFooter E o = .ok s' := fun s => by
    obtain ⟨d, hd⟩ := hcomp (E.P.stripeFooter (s.footer E.A))
    exact ⟨_, by simp only [StripeWriter.writeFooter, hd, Res.ok_bind, Res.pure_eq]; rfl⟩
  exact key _

/-- The columns are ready for the rows of the current stripe, and have got some of them. -/
def Standing (E : Env) (o : FOpts) (ns : List SchemaNode) (rows : Raws) (ws' : List AnyWriter) : Prop :=
  ∃ ws, List.Forall₂ (AnyWriter.Ready E.c o.toCOpts) ns ws ∧ writeCells E.A E.c o.toCOpts ws rows.flatten = .ok ws'

section
variable {E : Env} {o : FOpts} {ns : List SchemaNode} (hc : E.c.Lossless) (hz : o.kind = .zlib) (h1 : 1 ≤ o.chunkSize) (h2 : o.chunkSize < 2 ^ 23)
  (hwi : o.writeIndex = false) (hids : ns.map (·.id) = List.range ns.length)
include hc hz h1 h2 hwi hids

/-- Rows are written however the stripe size divides them, if every segment can be read back and leaves nothing behind. -/
theorem writeLoop_any {all : Raws} (hgood : ∀ seg, seg <:+: all → RowsReadable false ns (seg.map rowOf) ∧ RowsClean ns (seg.map rowOf)) (vec : Vec) (n : Nat) :
    ∀ (i count : Nat) (s : StripeWriter) (done rows rest : Raws), all = done ++ rows ++ ((List.range' i n).map (fun j => vec.raw j) ++ rest) →
      Standing E o ns rows s.writers →
      (∀ j < i + n, ∀ ws, writeValue E.A E.c o.toCOpts j ws vec = writeCells E.A E.c o.toCOpts ws (vec.raw j)) →
      ∃ s' done' rows', StripeWriter.writeLoop E o vec n i count s = .ok s' ∧ all = done' ++ rows' ++ rest ∧ Standing E o ns rows' s'.writers := by
  have ho : o.toWOpts.Sound := ⟨.inr hz, h1, h2⟩
  have hcomp : ∀ b, ∃ d, compressingAllInChunks E.c o.kind o.chunkSize b = .ok d := fun b => by
    obtain ⟨d, h, -⟩ := chunks_roundtrip E.c hc o.chunkSize h1 h2 b
    exact ⟨d, by rw [hz]; exact h⟩
  induction n with
  | zero =>
    intro i count s done rows rest hall hst _
    exact ⟨_, done, rows, rfl, by simpa using hall, hst⟩
  | succ n ih =>
    intro i count s done rows rest hall hst heq
    obtain ⟨ws, hready, hw⟩ := hst
    have hall' : all = done ++ (rows ++ [vec.raw i]) ++ ((List.range' (i + 1) n).map (fun j => vec.raw j) ++ rest) := by
      rw [hall, List.range'_succ]; simp
    have hseg : (rows ++ [vec.raw i]) <:+: all := ⟨done, _, hall'.symm⟩
    obtain ⟨g1, g2⟩ := hgood _ hseg
    obtain ⟨ws1, ws2, ws3, body, e1, e2, e3, e4⟩ := stripe_ok (A := E.A) hc ho hids hready (rows := rows ++ [vec.raw i]) (by rw [hwi]; exact g1)
    have hv : writeValue E.A E.c o.toCOpts i s.writers vec = .ok ws1 := by
      rw [heq i (by omega)]
      rw [List.flatten_append, writeCells_append, hw, Res.ok_bind] at e1
      simpa using e1
    simp only [StripeWriter.writeLoop, hv, Res.ok_bind]
    by_cases hsz : ({ s with writers := ws1 } : StripeWriter).size E.A o ≥ o.stripeSize
    · rw [if_pos hsz]
      obtain ⟨s1, hs1⟩ := flushOut_ok hcomp (({ s with writers := ws1 } : StripeWriter).addRows (count + 1)) e2 e3
      obtain ⟨ws4, k1, k2⟩ := e4 hz hwi g2
      have hs1w : s1.writers = ws3 := by
        simp only [StripeWriter.flushOut, StripeWriter.addRows, e2, e3, Res.ok_bind, StripeWriter.writeFooter] at hs1
        obtain ⟨d, -, hs1⟩ := Res.bind_ok_inv hs1
        injection hs1 with hs1; subst hs1; rfl
      have hf : ∃ s2, s1.forward E.A o = .ok s2 ∧ s2.writers = ws4 := by
        simp only [StripeWriter.forward, hs1w, k1, Res.ok_bind, Res.pure_eq]
        exact ⟨_, rfl, rfl⟩
      obtain ⟨s2, hs2, hs2w⟩ := hf
      obtain ⟨s', done', rows', f1, f2, f3⟩ := ih (i + 1) 0 s2 (done ++ (rows ++ [vec.raw i])) [] rest (by simpa using hall')
        ⟨ws4, k2, by rw [hs2w]; rfl⟩ (fun j hj => heq j (by omega))
      exact ⟨s', done', rows', by rw [hs1, Res.ok_bind, hs2, Res.ok_bind, f1], f2, f3⟩
    · rw [if_neg hsz]
      exact ih (i + 1) (count + 1) _ done (rows ++ [vec.raw i]) rest hall' ⟨ws, hready, e1⟩ (fun j hj => heq j (by omega))

theorem writes_any {all : Raws} (hgood : ∀ seg, seg <:+: all → RowsReadable false ns (seg.map rowOf) ∧ RowsClean ns (seg.map rowOf)) (batches : List Vec) :
    ∀ (w : FileWriter) (done rows : Raws), all = done ++ rows ++ batches.flatMap Vec.rawRows → Standing E o ns rows w.stripe.writers →
      (∀ v ∈ batches, v.lenPanics = false) →
      (∀ v ∈ batches, ∀ j < v.len, ∀ ws, writeValue E.A E.c o.toCOpts j ws v = writeCells E.A E.c o.toCOpts ws (v.raw j)) →
      ∃ w' done' rows', w.writes E o batches = .ok w' ∧ all = done' ++ rows' ∧ Standing E o ns rows' w'.stripe.writers := by
  induction batches with
  | nil =>
    intro w done rows hall hst _ _
    exact ⟨w, done, rows, rfl, by simpa using hall, hst⟩
  | cons v vs ih =>
    intro w done rows hall hst hln heq
    obtain ⟨s, d, r, f1, f2, f3⟩ := writeLoop_any hc hz h1 h2 hwi hids hgood v v.len 0 0 w.stripe done rows (vs.flatMap Vec.rawRows)
      (by rw [hall, List.flatMap_cons, Vec.rawRows, List.range_eq_range']) hst (fun j hj => heq v (by simp) j (by omega))
    obtain ⟨w', d', r', k1, k2, k3⟩ := ih { w with stripe := s } d r f2 f3 (fun v hv => hln v (by simp [hv])) (fun v hv => heq v (by simp [hv]))
    exact ⟨w', d', r', by simp only [FileWriter.writes, FileWriter.write, StripeWriter.write_of (hln v (by simp)), f1, Res.ok_bind, Res.pure_eq]; exact k1, k2, k3⟩

end

/-- `Close` does not fail if the columns can be flushed. -/
theorem close_ok {E : Env} {o : FOpts} (hz : o.kind = .zlib) (h1 : 1 ≤ o.chunkSize) (h2 : o.chunkSize < 2 ^ 23) (hc : E.c.Lossless) (w : FileWriter) {ws2 ws3 : List AnyWriter} {body : Bytes}
    (e1 : onWriters (fun w => w.flush E.A E.c o.toCOpts) w.stripe.writers = .ok ws2) (e2 : StripeWriter.writeOuts E.A o.toCOpts ws2 = .ok (ws3, body)) :
    ∃ file, w.close E o = .ok file := by
  have hcomp : ∀ b, ∃ d, compressingAllInChunks E.c o.kind o.chunkSize b = .ok d := fun b => by
    obtain ⟨d, h, -⟩ := chunks_roundtrip E.c hc o.chunkSize h1 h2 b
    exact ⟨d, by rw [hz]; exact h⟩
  obtain ⟨s, hs⟩ := flushOut_ok hcomp w.stripe e1 e2
  have key : ∀ w : FileWriter, ∃ t, w.tail E o = .ok t := fun w => by
    obtain ⟨d, hd⟩ := hcomp (E.P.fileFooter w.footer)
    refine ⟨d ++ E.P.postScript (FileWriter.postScript o d.length) ++ [BitVec.ofNat 8 (E.P.postScript (FileWriter.postScript o d.length)).length], ?_⟩
    simp only [FileWriter.tail]
    rw [if_neg (by rw [hz]; simp), hd]
    rfl
  obtain ⟨t, ht⟩ := key { w with stripe := { s with infos := s.infos ++ [s.info] } }
  exact ⟨_, by simp only [FileWriter.close, FileWriter.finish, hs, Res.ok_bind, Res.pure_eq, ht]; rfl⟩

/-- A writer can be created for a schema whose columns are plain. -/
theorem newWriter_ok {E : Env} {o : FOpts} (ho : o.toWOpts.Sound) {schema : Schema} (num : schema.Numbered) (tab : schema.Tabular) :
    ∃ w, newWriter E o schema = .ok w ∧ w.schemas = schema.columns ∧ List.Forall₂ (AnyWriter.Ready E.c o.toCOpts) (schema.columns.map (·.node)) w.stripe.writers := by
  have hflat : flat schema = .ok schema.columns := by
    rw [flat_iff]
    refine ⟨?_, ?_, rfl⟩
    · intro c hc h
      exact (tabular_kinds tab.plain c hc).2.2 h
    · intro c hc d hd h0
      have hnd := num.nodup
      have h00 : schema.node.id = 0 := by
        have h : (schema.columns.map fun c => c.node.id) = List.range schema.columns.length := num
        cases schema with
        | mk n cs =>
          have := congrArg List.head? h
          simp only [Schema.columns, List.map_cons, List.head?_cons, List.length_cons, List.range_succ_eq_map, node_mk] at this
          simpa [node_mk] using this
      cases schema with
      | mk n cs =>
        simp only [Schema.columns, List.map_cons, List.nodup_cons, node_mk] at hnd
        simp only [node_mk] at h00
        refine hnd.1 (List.mem_map.2 ⟨d, ?_, by rw [h0, h00]⟩)
        have : ∀ cs : List Schema, c ∈ cs → d ∈ columnsAll cs := by
          intro cs
          induction cs with
          | nil => simp
          | cons x xs ih =>
            intro h
            simp only [columnsAll, List.mem_append]
            rcases List.mem_cons.1 h with rfl | h
            · exact .inl hd
            · exact .inr (ih h)
        exact this cs hc
  have hws : ∀ (ns : List SchemaNode), (∀ n ∈ ns, n.Plain) → ∃ ws, newWriters E.A o.toCOpts ns = .ok ws ∧ List.Forall₂ (AnyWriter.Ready E.c o.toCOpts) ns ws := by
    intro ns
    induction ns with
    | nil => intro _; exact ⟨[], rfl, .nil⟩
    | cons n ns ih =>
      intro hp
      obtain ⟨w, k1, k2⟩ := AnyWriter.new_ready (A := E.A) (c := E.c) ho (hp n (by simp))
      obtain ⟨ws, k3, k4⟩ := ih fun n hn => hp n (by simp [hn])
      exact ⟨w :: ws, by simp [newWriters, k1, k3], .cons k2 k4⟩
  obtain ⟨ws, k1, k2⟩ := hws (schema.columns.map (·.node)) (by intro n hn; obtain ⟨c, hc, rfl⟩ := List.mem_map.1 hn; exact tab.plain c hc)
  refine ⟨⟨schema.columns, ⟨schema.columns.map (·.node), ws, ⟨magic.length, 0, 0, 0, 0⟩, [], magic⟩⟩, ?_, rfl, k2⟩
  simp only [newWriter, hflat, Res.ok_bind, newStripeWriter, k1, Res.pure_eq]

end Goorc
