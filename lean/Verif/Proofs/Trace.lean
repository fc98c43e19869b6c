import Verif.Proofs.Trips
import Verif.Props.FileLayout
/- What a file writer did, stripe by stripe: lemmas for Props/RoundTrip.lean. -/
namespace Goorc

/-! ### Rows as they are written -/

mutual
/-- The values a row of a batch gives to the column writers, in order. -/
def Vec.raw (i : Nat) : Vec → List (Nat × Value)
  | .nil => []
  | .mk id _ s cs => (((visibleRows s)[i]?).map fun v => (id, v)).toList ++ rawAll i cs

def rawAll (i : Nat) : List Vec → List (Nat × Value)
  | [] => []
  | v :: vs => v.raw i ++ rawAll i vs
end

/-- The row of a table for what was written. -/
def rowOf (xs : List (Nat × Value)) : Row := xs.map fun x => (x.1, x.2.row)

theorem rawAll_cells (i : Nat) (vs : List Vec) (ih : ∀ v ∈ vs, rowOf (v.raw i) = v.cells i) : rowOf (rawAll i vs) = cellsAll i vs := by
  induction vs with
  | nil => rfl
  | cons v vs ihv =>
    simp only [rawAll, cellsAll, rowOf, List.map_append] at ihv ⊢
    rw [ihv fun v hv => ih v (by simp [hv]), ← ih v (by simp)]
    rfl

theorem Vec.raw_cells (i : Nat) (v : Vec) : rowOf (v.raw i) = v.cells i := by
  refine Vec.ind (P := fun v => rowOf (v.raw i) = v.cells i) rfl ?_ v
  intro id k s cs ih
  simp only [Vec.raw, Vec.cells, ← rawAll_cells i cs ih, rowOf, List.map_append]
  congr 1
  cases (visibleRows s)[i]? <;> rfl

/-- Values handed to column writers. -/
def writeCells (A : Arith) (c : Codec) (o : COpts) : List AnyWriter → List (Nat × Value) → Res (List AnyWriter)
  | ws, [] => .ok ws
  | ws, (id, v) :: xs =>
    match ws[id]? with
    | none => .panic
    | some w => do
      let w ← w.write A c o v
      writeCells A c o (ws.set id w) xs

section
variable {A : Arith} {c : Codec} {o : COpts}

theorem writeCells_append (xs ys : List (Nat × Value)) : ∀ ws,
    writeCells A c o ws (xs ++ ys) = (writeCells A c o ws xs >>= fun ws => writeCells A c o ws ys) := by
  induction xs with
  | nil => intro ws; rfl
  | cons x xs ih =>
    intro ws
    obtain ⟨id, v⟩ := x
    simp only [List.cons_append, writeCells]
    cases ws[id]? with
    | none => rfl
    | some w => simp only [Res.bind_assoc, ih]

theorem writeValues_cells {i : Nat} (vs : List Vec) (ih : ∀ v ∈ vs, ∀ ws ws', writeValue A c o i ws v = .ok ws' → writeCells A c o ws (v.raw i) = .ok ws') :
    ∀ ws ws', writeValues A c o i ws vs = .ok ws' → writeCells A c o ws (rawAll i vs) = .ok ws' := by
  induction vs with
  | nil => intro ws ws' h; exact h
  | cons v vs ihv =>
    intro ws ws' h
    simp only [writeValues] at h
    obtain ⟨ws1, h1, h⟩ := Res.bind_ok_inv h
    rw [rawAll, writeCells_append, ih v (by simp) _ _ h1, Res.ok_bind]
    exact ihv (fun v hv => ih v (by simp [hv])) _ _ h

theorem writeValue_cells {i : Nat} (v : Vec) : ∀ ws ws', writeValue A c o i ws v = .ok ws' → writeCells A c o ws (v.raw i) = .ok ws' := by
  refine Vec.ind (P := fun v => ∀ ws ws', writeValue A c o i ws v = .ok ws' → writeCells A c o ws (v.raw i) = .ok ws') ?_ ?_ v
  · intro ws ws' h; simp [writeValue] at h
  · intro id k s cs ih ws ws' h
    simp only [writeValue] at h
    obtain ⟨ws1, h1, h⟩ := Res.bind_ok_inv h
    rw [Vec.raw, writeCells_append]
    have : writeCells A c o ws (((visibleRows s)[i]?).map fun v => (id, v)).toList = .ok ws1 := by
      cases s with
      | none => exact h1
      | some s =>
        simp only [writeRow] at h1
        split at h1
        · rename_i w v hw hv
          simp only [visibleRows, hv, Option.map_some, Option.toList_some, writeCells, hw]
          exact h1
        · simp at h1
    rw [this, Res.ok_bind]
    exact writeValues_cells cs ih _ _ h

/-- What a column gets of the values. -/
def columnOf (j : Nat) (xs : List (Nat × Value)) : List Value := (xs.filter fun x => x.1 = j).map (·.2)

theorem writeCells_column (xs : List (Nat × Value)) : ∀ ws ws', writeCells A c o ws xs = .ok ws' → ws'.length = ws.length ∧
    ∀ (j : Nat) (w : AnyWriter), ws[j]? = some w → ∃ w', ws'[j]? = some w' ∧ w.writes A c o (columnOf j xs) = .ok w' := by
  induction xs with
  | nil =>
    intro ws ws' h
    simp only [writeCells] at h
    injection h with h; subst h
    exact ⟨rfl, fun j w h => ⟨w, h, rfl⟩⟩
  | cons x xs ih =>
    obtain ⟨id, v⟩ := x
    intro ws ws' h
    simp only [writeCells] at h
    cases hw : ws[id]? with
    | none => simp [hw] at h
    | some w0 =>
      simp only [hw] at h
      obtain ⟨w1, h1, h⟩ := Res.bind_ok_inv h
      obtain ⟨g1, g2⟩ := ih _ _ h
      refine ⟨by rw [g1]; simp, fun j w hj => ?_⟩
      by_cases hij : id = j
      · subst hij
        rw [hw] at hj
        injection hj with hj; subst hj
        have hlt := (List.getElem?_eq_some_iff.1 hw).1
        obtain ⟨w', k1, k2⟩ := g2 id w1 (by simp [hlt])
        refine ⟨w', k1, ?_⟩
        simp only [columnOf, List.filter_cons, decide_true, if_true, List.map_cons, AnyWriter.writes, h1, Res.ok_bind] at k2 ⊢
        exact k2
      · obtain ⟨w', k1, k2⟩ := g2 j w (by rw [List.getElem?_set_ne hij]; exact hj)
        refine ⟨w', k1, ?_⟩
        simp only [columnOf, List.filter_cons, hij, decide_false] at k2 ⊢
        exact k2

end

/-- A row in which every column is at most once. -/
theorem columnOf_row {j : Nat} (xs : List (Nat × Value)) (hn : ((rowOf xs).map (·.1)).Nodup) (hj : j ∈ (rowOf xs).map (·.1)) :
    (columnOf j xs).map Value.row = [(rowOf xs).cell j] := by
  induction xs with
  | nil => simp [rowOf] at hj
  | cons x xs ih =>
    obtain ⟨id, v⟩ := x
    simp only [rowOf, List.map_cons, List.nodup_cons] at hn hj ih
    simp only [columnOf, List.filter_cons] at ih ⊢
    by_cases h : id = j
    · subst h
      have : xs.filter (fun x => decide (x.1 = id)) = [] := by
        rw [List.filter_eq_nil_iff]
        intro y hy he
        apply hn.1
        simp only [List.map_map, List.mem_map, Function.comp_apply]
        exact ⟨y, hy, by simpa using he⟩
      simp [this, Row.cell, rowOf]
    · have hj' : j ∈ (xs.map fun x => (x.1, x.2.row)).map (·.1) := by
        rcases List.mem_cons.1 hj with rfl | hj
        · exact absurd rfl h
        · exact hj
      have hb : (j == id) = false := by simpa using fun he : j = id => h he.symm
      simp only [h, decide_false]
      have := ih hn.2 hj'
      simp only [Bool.false_eq_true, if_false]
      rw [this]
      simp [Row.cell, rowOf, List.lookup, hb]

theorem columnOf_absent {j : Nat} (xs : List (Nat × Value)) (hj : j ∉ (rowOf xs).map (·.1)) : columnOf j xs = [] := by
  simp only [columnOf, List.map_eq_nil_iff, List.filter_eq_nil_iff, decide_eq_true_eq]
  rintro y hy rfl
  exact hj (List.mem_map.2 ⟨_, List.mem_map.2 ⟨y, hy, rfl⟩, rfl⟩)

theorem columnOf_append (j : Nat) (xs ys : List (Nat × Value)) : columnOf j (xs ++ ys) = columnOf j xs ++ columnOf j ys := by
  simp [columnOf]

theorem columnOf_rows {j : Nat} {ids : List Nat} (hn : ids.Nodup) (hj : j ∈ ids) (rows : List (List (Nat × Value)))
    (h : ∀ r ∈ rows, (rowOf r).map (·.1) = ids) : (columnOf j rows.flatten).map Value.row = (rows.map rowOf).map (Row.cell j) := by
  induction rows with
  | nil => rfl
  | cons r rows ih =>
    have hr := h r (by simp)
    rw [List.flatten_cons, columnOf_append, List.map_append, ih fun r hr => h r (by simp [hr]),
      columnOf_row r (by rw [hr]; exact hn) (by rw [hr]; exact hj)]
    rfl

theorem columnOf_rows_absent {j : Nat} {ids : List Nat} (hj : j ∉ ids) (rows : List (List (Nat × Value)))
    (h : ∀ r ∈ rows, (rowOf r).map (·.1) = ids) : columnOf j rows.flatten = [] := by
  induction rows with
  | nil => rfl
  | cons r rows ih =>
    have hr := h r (by simp)
    rw [List.flatten_cons, columnOf_append, ih fun r hr => h r (by simp [hr]), columnOf_absent r (by rw [hr]; exact hj)]
    rfl

/-! ### The columns of one stripe -/

/-- The streams of columns, listed with their columns. -/
def tagged (n : SchemaNode) (bs : Bodies) : List (StreamInfo × Bytes) := bs.map fun b => (⟨b.1, n.id, b.2.length⟩, b.2)

theorem streams_ext : ∀ {a b : List (StreamInfo × Bytes)}, a.map (·.1) = b.map (·.1) → a.flatMap (·.2) = b.flatMap (·.2) →
    (∀ s ∈ a, s.1.length = s.2.length) → (∀ s ∈ b, s.1.length = s.2.length) → a = b := by
  intro a
  induction a with
  | nil => intro b h _ _ _; cases b with | nil => rfl | cons _ _ => simp at h
  | cons x a ih =>
    intro b h1 h2 h3 h4
    cases b with
    | nil => simp at h1
    | cons y b =>
      simp only [List.map_cons, List.cons.injEq] at h1
      simp only [List.flatMap_cons] at h2
      have hl : x.2.length = y.2.length := by rw [← h3 x (by simp), ← h4 y (by simp), h1.1]
      obtain ⟨e1, e2⟩ := List.append_inj h2 hl
      rw [ih h1.2 e2 (fun s hs => h3 s (by simp [hs])) (fun s hs => h4 s (by simp [hs])), Prod.ext h1.1 e1]

theorem Bodies.ext {a b : Bodies} (h1 : a.infos = b.infos) (h2 : a.bytes = b.bytes) : a = b := by
  induction a generalizing b with
  | nil => cases b with | nil => rfl | cons _ _ => simp [Bodies.infos] at h1
  | cons x a ih =>
    cases b with
    | nil => simp [Bodies.infos] at h1
    | cons y b =>
      simp only [Bodies.infos, List.map_cons, List.cons.injEq, Prod.mk.injEq] at h1
      simp only [Bodies.bytes, List.flatMap_cons] at h2
      obtain ⟨e1, e2⟩ := List.append_inj h2 h1.1.2
      rw [ih h1.2 e2, Prod.ext h1.1.1 e1]

section
variable {A : Arith} {c : Codec} {o : COpts}

/-- All columns of one stripe, from the writers before `Flush`. -/
theorem columns_flushed (hc : c.Lossless) (ho : o.toWOpts.Sound) (col : Nat → List Value) {ns : List SchemaNode} {ws1 : List AnyWriter}
    (h : List.Forall₂ (fun n w1 => ∃ w, AnyWriter.Ready c o n w ∧ w.writes A c o (col n.id) = .ok w1) ns ws1)
    (hs : ∀ n ∈ ns, n.hasVector = false → col n.id = []) (hr : ∀ n ∈ ns, n.kind ≠ .struct → n.Readable o.writeIndex ((col n.id).map Value.row)) :
    ∀ {ws2 ws3 : List AnyWriter} {body : Bytes}, onWriters (fun w => w.flush A c o) ws1 = .ok ws2 → StripeWriter.writeOuts A o ws2 = .ok (ws3, body) →
    ∃ bss : List Bodies, List.Forall₂ (fun n bs => ColHolds c o.toWOpts n bs ((col n.id).map Value.row)) ns bss ∧
      body = ((ns.zip bss).flatMap fun x => tagged x.1 x.2).flatMap (·.2) ∧
      ((ns.zip ws3).flatMap fun x => (x.2.streamInfos A).map fun i => (⟨i.1, x.1.id, i.2⟩ : StreamInfo)) =
        ((ns.zip bss).flatMap fun x => tagged x.1 x.2).map (·.1) ∧
      (o.kind = .zlib → o.writeIndex = false → (∀ n ∈ ns, n.hasVector = true → n.NothingStale ((col n.id).map Value.row)) →
        ∀ ws4, onWriters (fun w => w.reset A o) ws3 = .ok ws4 → List.Forall₂ (AnyWriter.Ready c o) ns ws4) := by
  induction h with
  | nil =>
    intro ws2 ws3 body h1 h2
    simp only [onWriters] at h1; injection h1 with h1; subst h1
    simp only [StripeWriter.writeOuts] at h2; injection h2 with h2; injection h2 with h2 hb; subst h2; subst hb
    refine ⟨[], .nil, rfl, rfl, fun _ _ _ ws4 h => ?_⟩
    simp only [onWriters] at h; injection h with h; subst h
    exact .nil
  | cons hx hxs ih =>
    rename_i n w1 ns ws1
    intro ws2 ws3 body h1 h2
    simp only [onWriters] at h1
    obtain ⟨v2, g1, h1⟩ := Res.bind_ok_inv h1
    obtain ⟨vs2, g2, h1⟩ := Res.bind_ok_inv h1
    injection h1 with h1; subst h1
    simp only [StripeWriter.writeOuts] at h2
    obtain ⟨⟨v3, x⟩, k1, h2⟩ := Res.bind_ok_inv h2
    obtain ⟨⟨vs3, y⟩, k2, h2⟩ := Res.bind_ok_inv h2
    injection h2 with h2; injection h2 with h2 hb; subst h2; subst hb
    obtain ⟨bss, e1, e2, e3, e4⟩ := ih (fun n hn => hs n (by simp [hn])) (fun n hn => hr n (by simp [hn])) g2 k2
    obtain ⟨w, f1, f2⟩ := hx
    obtain ⟨u1, u2, u3, bs, l1, l2, l3, l4, l5, l6⟩ := AnyWriter.stripe_spec (A := A) hc ho f1 (col n.id) (hs n (by simp)) (hr n (by simp))
    rw [f2] at l1; injection l1 with l1; subst l1
    rw [g1] at l2; injection l2 with l2; subst l2
    rw [k1] at l3; obtain ⟨rfl, rfl⟩ := Prod.mk.inj (Res.ok.inj l3)
    refine ⟨bs :: bss, .cons l5 e1, ?_, ?_, fun hz hwi hst ws4 h4 => ?_⟩
    · rw [e2]; simp [tagged, Bodies.bytes, List.flatMap_map]
    · simp only [List.zip_cons_cons, List.flatMap_cons, List.map_append, e3, l4]
      simp [tagged, Bodies.infos]
    · simp only [onWriters] at h4
      obtain ⟨v4, m1, h4⟩ := Res.bind_ok_inv h4
      obtain ⟨vs4, m2, h4⟩ := Res.bind_ok_inv h4
      injection h4 with h4; subst h4
      obtain ⟨u4, m3, m4⟩ := l6 hz hwi (hst n (by simp))
      rw [m1] at m3; injection m3 with m3; subst m3
      exact .cons m4 (e4 hz hwi (fun n hn => hst n (by simp [hn])) _ m2)

end

theorem tagged_filter {c : Codec} {o : WOpts} {col : Nat → List (Option GoVal)} {ns : List SchemaNode} {bss : List Bodies}
    (h : List.Forall₂ (fun n bs => ColHolds c o n bs (col n.id)) ns bss) (hn : (ns.map (·.id)).Nodup) :
    ∀ n ∈ ns, ColHolds c o n ((((ns.zip bss).flatMap fun x => tagged x.1 x.2).filter fun s => s.1.column = n.id).map fun s => (s.1.kind, s.2)) (col n.id) := by
  have hother : ∀ (m : SchemaNode) (bs : Bodies) (j : Nat), m.id ≠ j → (tagged m bs).filter (fun s => decide (s.1.column = j)) = [] := by
    intro m bs j hne
    rw [List.filter_eq_nil_iff]
    intro s hs
    obtain ⟨b, -, rfl⟩ := List.mem_map.1 hs
    simpa using hne
  induction h with
  | nil => intro n hn; simp at hn
  | cons hx hxs ih =>
    rename_i m bs ns bss
    simp only [List.map_cons, List.nodup_cons] at hn
    intro n hmem
    simp only [List.zip_cons_cons, List.flatMap_cons, List.filter_append]
    rcases List.mem_cons.1 hmem with rfl | hmem
    · have h1 : (tagged n bs).filter (fun s => decide (s.1.column = n.id)) = tagged n bs := by
        rw [List.filter_eq_self]
        intro s hs
        obtain ⟨b, -, rfl⟩ := List.mem_map.1 hs
        simp
      have h2 : ((ns.zip bss).flatMap fun x => tagged x.1 x.2).filter (fun s => decide (s.1.column = n.id)) = [] := by
        rw [List.filter_flatMap, List.flatMap_eq_nil_iff]
        intro x hx
        apply hother
        intro he
        exact hn.1 (he ▸ List.mem_map_of_mem (List.of_mem_zip hx).1)
      rw [h1, h2, List.append_nil]
      have : (tagged n bs).map (fun s => (s.1.kind, s.2)) = bs := by simp [tagged, Function.comp_def]
      rw [this]; exact hx
    · rw [hother m bs n.id (fun he => hn.1 (he ▸ List.mem_map_of_mem hmem)), List.nil_append]
      exact ih hn.2 n hmem

/-! ### The stripes of a file -/

/-- Rows, as they are written. -/
abbrev Raws := List (List (Nat × Value))

/-- One stripe: from the writers `ws0`, the rows `rows` are written and flushed, which gives the parts `p` and the writers
`ws3`. -/
def StripeRun (E : Env) (o : FOpts) (ns : List SchemaNode) (ws0 : List AnyWriter) (rows : Raws) (p : StripeParts) (ws3 : List AnyWriter) : Prop :=
  ∃ ws1 ws2, writeCells E.A E.c o.toCOpts ws0 rows.flatten = .ok ws1 ∧ onWriters (fun w => w.flush E.A E.c o.toCOpts) ws1 = .ok ws2 ∧
    StripeWriter.writeOuts E.A o.toCOpts ws2 = .ok (ws3, p.data) ∧
    p.streams.map (·.1) = ((ns.zip ws3).flatMap fun x => (x.2.streamInfos E.A).map fun i => (⟨i.1, x.1.id, i.2⟩ : StreamInfo)) ∧
    p.rows = rows.length ∧ p.indexes = if o.writeIndex = true then ws2.flatMap (fun w => E.P.index w.index) else []

/-- The size of the current stripe. -/
def stripeBytes (A : Arith) (o : COpts) (ws : List AnyWriter) : Nat := (ws.map fun w => w.size A o).sum

/-- None of the rows fills the stripe. -/
def Small (E : Env) (o : FOpts) (ws : List AnyWriter) (rows : Raws) : Prop :=
  ∀ rs ws', rs ≠ [] → rs <+: rows → writeCells E.A E.c o.toCOpts ws rs.flatten = .ok ws' → stripeBytes E.A o.toCOpts ws' < o.stripeSize

/-- The last of the rows, and none before it, fills the stripe. -/
def FullStripe (E : Env) (o : FOpts) (ws : List AnyWriter) (rows : Raws) : Prop :=
  ∃ rs r ws', rows = rs ++ [r] ∧ Small E o ws rs ∧ writeCells E.A E.c o.toCOpts ws rows.flatten = .ok ws' ∧ o.stripeSize ≤ stripeBytes E.A o.toCOpts ws'

theorem Small.snoc {E : Env} {o : FOpts} {ws ws' : List AnyWriter} {rows : Raws} {r : List (Nat × Value)} (h : Small E o ws rows)
    (hw : writeCells E.A E.c o.toCOpts ws (rows ++ [r]).flatten = .ok ws') (hs : stripeBytes E.A o.toCOpts ws' < o.stripeSize) : Small E o ws (rows ++ [r]) := by
  intro rs ws2 hne hp h2
  rcases List.prefix_concat_iff.1 hp with rfl | hp'
  · rw [hw] at h2; injection h2 with h2; subst h2; exact hs
  · exact h rs ws2 hne hp' h2

/-- Several stripes, each followed by a reset. -/
inductive StripeRuns (E : Env) (o : FOpts) (ns : List SchemaNode) (ws0 : List AnyWriter) : List (Raws × StripeParts) → List AnyWriter → Prop
  | nil : StripeRuns E o ns ws0 [] ws0
  | snoc {done : List (Raws × StripeParts)} {ws ws3 ws4 : List AnyWriter} {rows : Raws} {p : StripeParts} (h : StripeRuns E o ns ws0 done ws)
      (run : StripeRun E o ns ws rows p ws3) (full : FullStripe E o ws rows) (reset : onWriters (fun w => w.reset E.A o.toCOpts) ws3 = .ok ws4) :
      StripeRuns E o ns ws0 (done ++ [(rows, p)]) ws4

/-- Where a stripe writer stands: the stripes it has finished, and the rows of the current one; `count` of these are not yet
counted. -/
structure StripeWriter.Traced (E : Env) (o : FOpts) (ns : List SchemaNode) (ws0 : List AnyWriter) (s : StripeWriter) (done : List (Raws × StripeParts))
    (rows : Raws) (count : Nat) : Prop where
  ex : ∃ r, s.Inv E o ns (done.map (·.2)) r ∧ rows.length = r + count
  runs : ∃ ws, StripeRuns E o ns ws0 done ws ∧ writeCells E.A E.c o.toCOpts ws rows.flatten = .ok s.writers ∧ Small E o ws rows

/-- All rows written so far. -/
def rowsOf (done : List (Raws × StripeParts)) (rows : Raws) : Raws := done.flatMap (·.1) ++ rows

theorem StripeWriter.writeLoop_traced {E : Env} {o : FOpts} {ns : List SchemaNode} {ws0 : List AnyWriter} (vec : Vec) (n : Nat) :
    ∀ (i count : Nat) (s s' : StripeWriter) (done : List (Raws × StripeParts)) (rows : Raws), s.Traced E o ns ws0 done rows count →
      StripeWriter.writeLoop E o vec n i count s = .ok s' →
      ∃ done' rows', s'.Traced E o ns ws0 done' rows' 0 ∧ rowsOf done' rows' = rowsOf done rows ++ (List.range' i n).map fun i => vec.raw i := by
  induction n with
  | zero =>
    intro i count s s' done rows hi h
    simp only [writeLoop] at h
    injection h with h; subst h
    obtain ⟨r, hi1, hr⟩ := hi.ex
    exact ⟨done, rows, ⟨⟨r + count, ⟨hi1.schemas, hi1.nulls, hi1.out, hi1.infos, by simp only [addRows, hi1.info], hi1.sound⟩, hr⟩, hi.runs⟩, by simp⟩
  | succ n ih =>
    intro i count s s' done rows hi h
    simp only [writeLoop] at h
    obtain ⟨ws, h1, h⟩ := Res.bind_ok_inv h
    obtain ⟨r, hi1, hr⟩ := hi.ex
    obtain ⟨wsS, hrun, hcells, hsmall⟩ := hi.runs
    have hw : ws.map (·.hasNull) = ns.map (·.hasNulls) := by
      rw [writeValue_map (·.hasNull) (fun _ _ _ => AnyWriter.write_hasNull) vec _ _ h1, hi1.nulls]
    have hcells' : writeCells E.A E.c o.toCOpts wsS (rows ++ [vec.raw i]).flatten = .ok ws := by
      rw [List.flatten_append, writeCells_append, hcells, Res.ok_bind]
      simpa using writeValue_cells vec _ _ h1
    have hrange : (List.range' i (n + 1)).map (fun i => vec.raw i) = vec.raw i :: (List.range' (i + 1) n).map fun i => vec.raw i := by
      simp [List.range'_succ]
    by_cases hsz : ({ s with writers := ws } : StripeWriter).size E.A o ≥ o.stripeSize
    · rw [if_pos hsz] at h
      obtain ⟨s1, h2, h⟩ := Res.bind_ok_inv h
      obtain ⟨s2, h3, h⟩ := Res.bind_ok_inv h
      have hi2 : (({ s with writers := ws } : StripeWriter).addRows (count + 1)).Inv E o ns (done.map (·.2)) (r + (count + 1)) :=
        ⟨hi1.schemas, hw, hi1.out, hi1.infos, by simp only [addRows, hi1.info], hi1.sound⟩
      obtain ⟨p, e1, e2, e3, e4, e5, e6, e7, ws2, e8, e9, e10, e11⟩ := flushOut_spec hi2 h2
      obtain ⟨f1, f2, f3, f4, f5⟩ := forward_spec h3
      have hinfo : s1.info = ⟨3 + ((done.map (·.2)).flatMap (·.bytes)).length, p.indexes.length, p.data.length, p.footerBytes.length, p.rows⟩ := by
        rw [stripeTable_append, e5] at e7
        have : (({ s with writers := ws } : StripeWriter).addRows (count + 1)).infos = s.infos := rfl
        rw [this, hi1.infos] at e7
        simpa using List.append_cancel_left e7
      have hi3 : s2.Inv E o ns ((done ++ [(rows ++ [vec.raw i], p)]).map (·.2)) 0 := by
        rw [List.map_append]
        refine ⟨by rw [f1, e3], by rw [f2, e4], by rw [f3, e6]; rfl, by rw [f4, e7]; rfl, ?_, ?_⟩
        · rw [f5, hinfo]
          simp [StripeParts.bytes]; omega
        · intro q hq
          rcases List.mem_append.1 hq with hq | hq
          · exact hi1.sound q hq
          · simp only [List.map_cons, List.map_nil, List.mem_cons, List.not_mem_nil, or_false] at hq
            subst hq
            exact ⟨e1, by rw [e2]; omega⟩
      simp only [forward] at h3
      obtain ⟨ws4, h4, h3⟩ := Res.bind_ok_inv h3
      injection h3 with h3
      have ht : s2.Traced E o ns ws0 (done ++ [(rows ++ [vec.raw i], p)]) [] 0 :=
        ⟨⟨0, hi3, rfl⟩, ⟨ws4, .snoc hrun ⟨ws, ws2, hcells', e8, e9, e10, by rw [e2]; simp [hr]; omega, e11⟩ ⟨rows, _, ws, rfl, hsmall, hcells', hsz⟩ h4, by rw [← h3]; rfl, by intro rs _ hne hp; exact absurd (List.prefix_nil.1 hp) hne⟩⟩
      obtain ⟨done', rows', g1, g2⟩ := ih _ _ _ _ _ _ ht h
      refine ⟨done', rows', g1, ?_⟩
      rw [g2, hrange]
      simp [rowsOf]
    · rw [if_neg hsz] at h
      have ht : ({ s with writers := ws } : StripeWriter).Traced E o ns ws0 done (rows ++ [vec.raw i]) (count + 1) :=
        ⟨⟨r, ⟨hi1.schemas, hw, hi1.out, hi1.infos, hi1.info, hi1.sound⟩, by simp [hr]; omega⟩, ⟨wsS, hrun, hcells', hsmall.snoc hcells' (Nat.lt_of_not_le hsz)⟩⟩
      obtain ⟨done', rows', g1, g2⟩ := ih _ _ _ _ _ _ ht h
      refine ⟨done', rows', g1, ?_⟩
      rw [g2, hrange]
      simp [rowsOf]

/-- The rows of a batch as they are written. -/
def Vec.rawRows (v : Vec) : Raws := (List.range v.len).map fun i => v.raw i

theorem Vec.rawRows_table (v : Vec) : v.rawRows.map rowOf = v.tableRows := by
  simp [Vec.rawRows, Vec.tableRows, Vec.raw_cells, Function.comp_def]

theorem FileWriter.writes_traced {E : Env} {o : FOpts} {ns : List SchemaNode} {ws0 : List AnyWriter} (batches : List Vec) :
    ∀ (w w' : FileWriter) (done : List (Raws × StripeParts)) (rows : Raws), w.stripe.Traced E o ns ws0 done rows 0 → w.writes E o batches = .ok w' →
      ∃ done' rows', w'.stripe.Traced E o ns ws0 done' rows' 0 ∧ w'.schemas = w.schemas ∧
        rowsOf done' rows' = rowsOf done rows ++ batches.flatMap Vec.rawRows := by
  induction batches with
  | nil =>
    intro w w' done rows hi h
    simp only [writes] at h
    injection h with h; subst h
    exact ⟨done, rows, hi, rfl, by simp⟩
  | cons v vs ih =>
    intro w w' done rows hi h
    simp only [writes] at h
    obtain ⟨w1, h1, h⟩ := Res.bind_ok_inv h
    simp only [write] at h1
    obtain ⟨s, h2, h1⟩ := Res.bind_ok_inv h1
    injection h1 with h1; subst h1
    obtain ⟨d1, r1, e1, e2⟩ := StripeWriter.writeLoop_traced v v.len 0 0 _ _ _ _ hi (StripeWriter.write_ok_inv h2).2
    obtain ⟨d2, r2, f1, f2, f3⟩ := ih _ _ d1 r1 e1 h
    exact ⟨d2, r2, f1, f2, by rw [f3, e2]; simp [Vec.rawRows, List.range_eq_range']⟩

/-- All that happened until a file was closed. -/
theorem file_traced {E : Env} {o : FOpts} {schema : Schema} {batches : List Vec} {file : Bytes} (h : writeFile E o schema batches = .ok file) :
    ∃ (ws0 : List AnyWriter) (done : List (Raws × StripeParts)) (ws : List AnyWriter) (rows : Raws) (p : StripeParts) (ws3 : List AnyWriter) (ft : FileFooter) (ps : PostScript),
      newWriters E.A o.toCOpts (schema.columns.map (·.node)) = .ok ws0 ∧
      StripeRuns E o (schema.columns.map (·.node)) ws0 done ws ∧ StripeRun E o (schema.columns.map (·.node)) ws rows p ws3 ∧ Small E o ws rows ∧
      FileLayout E o schema.columns file (done.map (·.2) ++ [p]) ft ps ∧ rowsOf done rows = batches.flatMap Vec.rawRows ∧
      ft.statistics = ws3.map (·.stats) := by
  simp only [writeFile] at h
  obtain ⟨w, h1, h⟩ := Res.bind_ok_inv h
  obtain ⟨w1, h2, h⟩ := Res.bind_ok_inv h
  obtain ⟨e1, e2⟩ := newWriter_inv h1
  have hc : w.schemas = schema.columns := ((flat_iff _ _).1 e1).2.2
  have hw0 : newWriters E.A o.toCOpts (w.schemas.map (·.node)) = .ok w.stripe.writers := by
    simp only [newWriter] at h1
    obtain ⟨ss, h3, h1⟩ := Res.bind_ok_inv h1
    obtain ⟨s, h4, h1⟩ := Res.bind_ok_inv h1
    injection h1 with h1; subst h1
    simp only [newStripeWriter] at h4
    obtain ⟨ws, h5, h4⟩ := Res.bind_ok_inv h4
    injection h4 with h4; subst h4
    exact h5
  obtain ⟨done, rows, f1, f2, f3⟩ := FileWriter.writes_traced (ws0 := w.stripe.writers) batches w w1 [] []
    ⟨⟨0, e2, rfl⟩, ⟨_, .nil, rfl, by intro rs _ hne hp; exact absurd (List.prefix_nil.1 hp) hne⟩⟩ h2
  obtain ⟨r, hi, hr⟩ := f1.ex
  rw [← f2] at hi
  obtain ⟨p, ft, ps, g1, g2, ws1, ws2, g3, g4, g5, g6, g7⟩ := FileWriter.close_spec hi h
  obtain ⟨ws, k1, k2, k3⟩ := f1.runs
  rw [f2, hc] at g1 g5
  rw [hc] at k1 hw0
  exact ⟨_, done, ws, rows, p, ws2, ft, ps, hw0, k1, ⟨_, ws1, k2, g3, g4, g5, by rw [g2]; omega, g7⟩, k3, g1, by rw [f3]; simp [rowsOf], g6⟩

theorem eq_of_nodup_map {α β : Type} {f : α → β} {l : List α} (h : (l.map f).Nodup) {x y : α} (hx : x ∈ l) (hy : y ∈ l) (he : f x = f y) : x = y := by
  induction l with
  | nil => simp at hx
  | cons a l ih =>
    simp only [List.map_cons, List.nodup_cons] at h
    rcases List.mem_cons.1 hx with rfl | hx' <;> rcases List.mem_cons.1 hy with rfl | hy'
    · rfl
    · exact absurd (he ▸ List.mem_map_of_mem hy') h.1
    · exact absurd (he ▸ List.mem_map_of_mem hx') h.1
    · exact ih h.2 hx' hy'

/-- The streams of a stripe can be read back as `cells`. -/
def StripeParts.Holds (c : Codec) (o : WOpts) (ns : List SchemaNode) (p : StripeParts) (cells : Nat → List (Option GoVal)) : Prop :=
  ∀ n ∈ ns, ColHolds c o n ((p.streams.filter fun s => s.1.column = n.id).map fun s => (s.1.kind, s.2)) (cells n.id)

/-- The rows of one stripe: every row has a value for each of the columns that have values of their own, and they can be read back. -/
structure RowsReadable (wi : Bool) (ns : List SchemaNode) (rows : List Row) : Prop where
  ids : ∀ r ∈ rows, r.map (·.1) = (ns.filter fun n => n.hasVector).map (·.id)
  values : ∀ n ∈ ns, n.kind ≠ .struct → n.Readable wi (rows.map (Row.cell n.id))

/-- The rows of one stripe leave nothing behind for the next. -/
def RowsClean (ns : List SchemaNode) (rows : List Row) : Prop := ∀ n ∈ ns, n.hasVector = true → n.NothingStale (rows.map (Row.cell n.id))

theorem SchemaNode.leaf_hasVector {n : SchemaNode} (h : n.kind ≠ .struct) : n.hasVector = true := by simp [SchemaNode.hasVector, h]

section
variable {E : Env} {o : FOpts} {ns : List SchemaNode}

theorem run_holds (hc : E.c.Lossless) (ho : o.toWOpts.Sound) (hids : ns.map (·.id) = List.range ns.length) {ws ws3 : List AnyWriter}
    {rows : Raws} {p : StripeParts} (hp : ∀ s ∈ p.streams, s.1.length = s.2.length)
    (hr : List.Forall₂ (AnyWriter.Ready E.c o.toCOpts) ns ws) (hrun : StripeRun E o ns ws rows p ws3)
    (hrows : RowsReadable o.writeIndex ns (rows.map rowOf)) :
    p.Holds E.c o.toWOpts ns (fun j => (rows.map rowOf).map (Row.cell j)) ∧
    (o.kind = .zlib → o.writeIndex = false → RowsClean ns (rows.map rowOf) →
      ∀ ws4, onWriters (fun w => w.reset E.A o.toCOpts) ws3 = .ok ws4 → List.Forall₂ (AnyWriter.Ready E.c o.toCOpts) ns ws4) := by
  obtain ⟨ws1, ws2, h1, h2, h3, h4, h5⟩ := hrun
  obtain ⟨g1, g2⟩ := writeCells_column _ _ _ h1
  have hnd : (ns.map (·.id)).Nodup := by rw [hids]; exact List.nodup_range
  have hnd' : ((ns.filter fun n => n.hasVector).map (·.id)).Nodup := hnd.sublist (List.filter_sublist.map _)
  have hrows' : ∀ r ∈ rows, (rowOf r).map (·.1) = (ns.filter fun n => n.hasVector).map (·.id) :=
    fun r hr => hrows.ids _ (List.mem_map_of_mem hr)
  have hleaf : ∀ n ∈ ns, n.hasVector = true → (columnOf n.id rows.flatten).map Value.row = (rows.map rowOf).map (Row.cell n.id) := fun n hn hk =>
    columnOf_rows hnd' (List.mem_map_of_mem (List.mem_filter.2 ⟨hn, by simpa using hk⟩)) rows hrows'
  have hstruct : ∀ n ∈ ns, n.hasVector = false → columnOf n.id rows.flatten = [] := fun n hn hk => by
    refine columnOf_rows_absent ?_ rows hrows'
    intro hm
    obtain ⟨m, hm', he⟩ := List.mem_map.1 hm
    have := eq_of_nodup_map hnd (List.mem_filter.1 hm').1 hn he
    subst this
    simpa [hk] using (List.mem_filter.1 hm').2
  have hall : List.Forall₂ (fun n w1 => ∃ w, AnyWriter.Ready E.c o.toCOpts n w ∧ w.writes E.A E.c o.toCOpts (columnOf n.id rows.flatten) = .ok w1) ns ws1 := by
    have hlen := hr.length_eq
    rw [List.forall₂_iff_get] at hr ⊢
    refine ⟨by rw [g1]; exact hlen, fun i hi hi' => ?_⟩
    have hid : (ns[i]).id = i := by
      have := congrArg (fun l => l[i]?) hids
      simp only [List.getElem?_map, List.getElem?_eq_getElem hi, Option.map_some, List.getElem?_range hi, Option.some.injEq] at this
      exact this
    have hiw : i < ws.length := by omega
    obtain ⟨w', k1, k2⟩ := g2 i ws[i] (List.getElem?_eq_getElem hiw)
    refine ⟨ws[i], hr.2 i hi hiw, ?_⟩
    simp only [List.get_eq_getElem, hid]
    rw [k2]
    rw [List.getElem?_eq_getElem hi'] at k1
    simpa using k1.symm
  obtain ⟨bss, e1, e2, e3, e4⟩ := columns_flushed hc ho (fun j => columnOf j rows.flatten) hall hstruct
    (fun n hn hk => by rw [hleaf n hn (SchemaNode.leaf_hasVector hk)]; exact hrows.values n hn hk) h2 h3
  have hstreams : p.streams = (ns.zip bss).flatMap fun x => tagged x.1 x.2 := by
    refine streams_ext (by rw [h4, e3]) (by rw [← e2]; rfl) hp ?_
    intro s hs
    obtain ⟨x, -, hs⟩ := List.mem_flatMap.1 hs
    obtain ⟨b, -, rfl⟩ := List.mem_map.1 hs
    rfl
  refine ⟨fun n hn => ?_, fun hz hwi hcl ws4 h => e4 hz hwi (fun n hn hk => by rw [hleaf n hn hk]; exact hcl n hn hk) ws4 h⟩
  have := tagged_filter (col := fun j => (columnOf j rows.flatten).map Value.row) e1 hnd n hn
  rw [← hstreams] at this
  cases hk : n.hasVector with
  | false =>
    have hkk : n.kind = .struct ∧ n.hasNulls = false := by
      simp only [SchemaNode.hasVector, Bool.or_eq_false_iff, decide_eq_false_iff_not, Decidable.not_not] at hk
      simpa using hk
    simp only [hstruct n hn hk, List.map_nil] at this
    rcases this with ⟨-, h1, h2⟩ | h
    · exact .inl ⟨hkk.1, h1, by simpa [hkk.2] using h2⟩
    · obtain ⟨t, ht, -⟩ := h
      rw [hkk.1] at ht
      cases he : n.encoding <;> simp [he, newReaderTag] at ht
  | true =>
    rw [hleaf n hn hk] at this
    exact this

theorem runs_hold (hc : E.c.Lossless) (ho : o.toWOpts.Sound) (hids : ns.map (·.id) = List.range ns.length) (hz : o.kind = .zlib) {ws0 ws : List AnyWriter}
    {done : List (Raws × StripeParts)} (hwi : o.writeIndex = false ∨ done = []) (hr : List.Forall₂ (AnyWriter.Ready E.c o.toCOpts) ns ws0) (hruns : StripeRuns E o ns ws0 done ws)
    (hd : ∀ d ∈ done, (∀ s ∈ d.2.streams, s.1.length = s.2.length) ∧ RowsReadable o.writeIndex ns (d.1.map rowOf) ∧ RowsClean ns (d.1.map rowOf)) :
    List.Forall₂ (AnyWriter.Ready E.c o.toCOpts) ns ws ∧ ∀ d ∈ done, d.2.Holds E.c o.toWOpts ns (fun j => (d.1.map rowOf).map (Row.cell j)) := by
  induction hruns with
  | nil => exact ⟨hr, by simp⟩
  | snoc h run _ reset ih =>
    have hwi' : o.writeIndex = false := by simpa using hwi
    obtain ⟨a, b⟩ := ih (.inl hwi') fun d hd' => hd d (by simp [hd'])
    obtain ⟨x, y, z⟩ := hd (_, _) (List.mem_append_right _ (List.mem_singleton.2 rfl))
    obtain ⟨e1, e2⟩ := run_holds hc ho hids x a run y
    refine ⟨e2 hz hwi' z _ reset, fun d hd' => ?_⟩
    rcases List.mem_append.1 hd' with hd' | hd'
    · exact b d hd'
    · simp only [List.mem_cons, List.not_mem_nil, or_false] at hd'
      subst hd'; exact e1

end

end Goorc
