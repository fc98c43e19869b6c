import Verif.Proofs.Open
import Verif.Props.Batches
/-
C67: a table that was written can be read back.
-/
namespace Goorc

/-! ### Leaves -/

mutual
theorem leaves_sublist (bo : BatchOption) : ∀ s : Schema, (s.leaves bo).Sublist ((s.columns.filter fun c => c.node.hasVector).map fun c => c.node.id)
  | .mk n cs => by
    simp only [Schema.leaves, Schema.columns, List.filter_cons, node_mk]
    by_cases h : bo.isInclude n.id = true
    · rw [if_pos h]
      by_cases hk : n.hasVector = true
      · simpa [hk, node_mk] using leavesAll_sublist bo cs
      · simpa [hk] using leavesAll_sublist bo cs
    · rw [if_neg h]; exact List.nil_sublist _

theorem leavesAll_sublist (bo : BatchOption) : ∀ cs : List Schema, (leavesAll bo cs).Sublist (((columnsAll cs).filter fun c => c.node.hasVector).map fun c => c.node.id)
  | [] => .slnil
  | c :: cs => by
    simp only [leavesAll, columnsAll, List.filter_append, List.map_append]
    exact (leaves_sublist bo c).append (leavesAll_sublist bo cs)
end

mutual
theorem leaves_all {bo : BatchOption} (h : ∀ i, bo.isInclude i = true) : ∀ s : Schema, s.leaves bo = s.leafIds
  | .mk n cs => by
    have := leavesAll_all h cs
    simp only [Schema.leaves, Schema.leafIds, Schema.columns, List.filter_cons, node_mk, h, if_true]
    by_cases hk : n.hasVector = true <;> simp [hk, this, node_mk]

theorem leavesAll_all {bo : BatchOption} (h : ∀ i, bo.isInclude i = true) : ∀ cs : List Schema,
    leavesAll bo cs = ((columnsAll cs).filter fun c => c.node.hasVector).map fun c => c.node.id
  | [] => rfl
  | c :: cs => by
    have h1 := leaves_all h c
    have h2 := leavesAll_all h cs
    simp only [Schema.leafIds] at h1
    simp [leavesAll, columnsAll, h1, h2]
end

theorem Schema.Numbered.nodup {s : Schema} (num : s.Numbered) : (s.columns.map fun c => c.node.id).Nodup := by
  rw [num]; exact List.nodup_range

theorem Schema.Numbered.leafIds {s : Schema} (num : s.Numbered) : s.leafIds.Nodup := num.nodup.sublist (List.filter_sublist.map _)

theorem Row.cell_only {ids : List Nat} {j : Nat} (hj : j ∈ ids) (r : Row) : (Row.only ids r).cell j = r.cell j := by
  induction ids with
  | nil => simp at hj
  | cons i ids ih =>
    by_cases h : j = i
    · subst h; simp [Row.only, Row.cell, List.lookup]
    · have hb : (j == i) = false := by simpa using h
      rcases List.mem_cons.1 hj with rfl | hj
      · exact absurd rfl h
      · have := ih hj
        simp only [Row.only, Row.cell, List.map_cons, List.lookup, hb] at this ⊢
        exact this

/-! ### Vectors -/

theorem columnar_verify {s : Schema} (h : s.Columnar) : verifySchema s = .ok () := by
  refine (verify_iff s).2 fun d hd c cs hcs _ hn => ?_
  have := h.supported d hd hn.1 c (by rw [hcs]; rfl)
  rw [hn.2] at this
  simp at this

theorem tabular_kinds {s : Schema} (h : ∀ c ∈ s.columns, c.node.Plain) : ∀ c ∈ s.columns, c.node.kind ≠ .list ∧ c.node.kind ≠ .map ∧ c.node.kind ≠ .union := by
  intro c hc
  rcases h c hc with ⟨h, -⟩ | ⟨t, h, -⟩
  · simp [h]
  · revert h
    cases c.node.kind <;> cases c.node.encoding <;> simp [newWriterTag]

theorem mirrors_shape {bo : BatchOption} (s : Schema) : (∀ c ∈ s.columns, c.node.kind = .struct ∨ (c.node.kind.nested = false ∧ c.children = [])) →
    (∀ c ∈ s.columns, c.node.hasNulls = true → ∀ d ∈ c.children, d.node.kind = .struct → d.node.hasNulls = true) →
    (∀ c ∈ s.columns, c.node.kind = .struct → (bo.isInclude c.node.id = true ↔ ∃ d ∈ c.children, bo.isInclude d.node.id = true)) → bo.isInclude s.node.id = true →
    bo.notCreateVector = false → ∀ under, (under = true → s.node.kind = .struct → s.node.hasNulls = true) → ∀ v, Mirrors bo s v → ShapeIn bo bo.rowSize bo.rowSize under s v := by
  induction s using Schema.ind with
  | h n cs ih =>
    intro hkinds hstructs hsel hinc hmake under hunder v hv
    have hself := self_mem_columns (.mk n cs)
    cases hv with
    | mk _ _ vec vs room none below leaf =>
      by_cases hk : n.kind = .struct
      · have hne : (cs.filter fun c => bo.isInclude c.node.id) ≠ [] := by
          obtain ⟨d, hd, hd'⟩ := (hsel _ (self_mem_columns _) hk).1 hinc
          intro he
          have : d ∈ cs.filter fun c => bo.isInclude c.node.id := List.mem_filter.2 ⟨hd, hd'⟩
          rw [he] at this; simp at this
        have hbelow : ∀ under', (under' = true → n.hasNulls = true) →
            List.Forall₂ (ShapeIn bo bo.rowSize bo.rowSize under') (cs.filter fun c => bo.isInclude c.node.id) vs := fun under' hu =>
          forall₂_imp_mem (below (by rw [hk]; rfl)) fun c hc v hv => by
            obtain ⟨h1, h2⟩ := List.mem_filter.1 hc
            have hm : c ∈ (Schema.mk n cs).columns := child_mem_columns h1
            exact ih c h1 (fun d hd => hkinds d (columns_trans hm hd)) (fun d hd => hstructs d (columns_trans hm hd))
              (fun d hd => hsel d (columns_trans hm hd)) h2 hmake under' (fun hu' => hstructs _ hself (hu hu') c h1) v hv
        cases hn : n.hasNulls with
        | false =>
          have hv := none (by simp [BatchOption.makes, SchemaNode.hasVector, hk, hn])
          subst hv
          have hu : under = false := by
            cases under with
            | false => rfl
            | true =>
              have := hunder rfl hk
              simp only [Schema.node, hn] at this
              exact absurd this (by simp)
          subst hu
          rw [hk]
          exact .struct n cs vs hk hn hne (hbelow false (by simp))
        | true =>
          obtain ⟨s, rfl, h1, h2, h3⟩ := room (by simp [BatchOption.makes, SchemaNode.hasVector, hn, hmake])
          rw [hk]
          exact .optional under n cs s vs hk hn h2 h1 (Nat.le_refl _) (fun v hv => by rw [h3 v hv, hk]; rfl) hne (hbelow true fun _ => hn)
      · obtain ⟨hnest, hcs⟩ := (hkinds _ hself).resolve_left hk
        simp only [Schema.node, Schema.children] at hnest hcs
        have := leaf hnest
        subst this
        obtain ⟨s, rfl, h1, h2, h3⟩ := room (by simp [BatchOption.makes, SchemaNode.hasVector, hk, hmake])
        subst hcs
        exact .leaf under n s hnest h2 h1 (Nat.le_refl _) fun _ _ v hv => by rw [h3 v hv]

/-- The vector a client creates has the shape of a batch. -/
theorem createVector_shape {s : Schema} {bo : BatchOption} (htab : s.Columnar) (hsel : bo.Selects s) (hrow : bo.rowSize ≠ 0) (hmake : bo.notCreateVector = false) :
    ∃ v, createVector s bo = .ok v ∧ BatchShape bo bo.rowSize bo.rowSize s v := by
  have hkinds : ∀ c ∈ s.columns, c.node.kind ≠ .list ∧ c.node.kind ≠ .map ∧ c.node.kind ≠ .union := by
    intro c hc
    rcases htab.kinds c hc with h | ⟨h, -⟩
    · simp [h]
    · revert h
      cases c.node.kind <;> simp [TypeKind.nested]
  obtain ⟨v, h1, h2⟩ := vector_mirrors_partial s bo (fun c hc => ⟨fun h => absurd h (hkinds c hc).1, fun h => absurd h (hkinds c hc).2.1, (hkinds c hc).2.2⟩)
    (fun c hc h => by rcases h with h | h; exact absurd h (hkinds c hc).1; exact absurd h (hkinds c hc).2.1) hrow (columnar_verify htab) hsel.1
  exact ⟨v, h1, mirrors_shape s htab.kinds htab.structs hsel.2 hsel.1 hmake false (by simp) v h2⟩

/-! ### Whole files -/

/-- All the rows fit into one stripe: no row fills it. -/
def FitsOneStripe (E : Env) (o : FOpts) (schema : Schema) (batches : List Vec) : Prop :=
  ∀ ws0, newWriters E.A o.toCOpts (schema.columns.map (·.node)) = .ok ws0 → Small E o ws0 (batches.flatMap Vec.rawRows)

theorem runs_none {E : Env} {o : FOpts} {ns : List SchemaNode} {ws0 ws : List AnyWriter} {done : List (Raws × StripeParts)} (h : StripeRuns E o ns ws0 done ws)
    {all : Raws} (hs : Small E o ws0 all) : done.flatMap (·.1) <+: all → done = [] ∧ ws = ws0 := by
  induction h with
  | nil => intro _; exact ⟨rfl, rfl⟩
  | @snoc done _ _ _ rows _ _ run full _ ih =>
    intro hp
    rw [List.flatMap_append] at hp
    obtain ⟨rfl, rfl⟩ := ih ((List.prefix_append _ _).trans hp)
    obtain ⟨rs, r, ws', rfl, -, h1, h2⟩ := full
    have := hs (rs ++ [r]) ws' (by simp) (by simpa using hp) h1
    omega

theorem runs_filled {E : Env} {o : FOpts} {ns : List SchemaNode} {ws0 ws : List AnyWriter} {done : List (Raws × StripeParts)} (h : StripeRuns E o ns ws0 done ws) :
    ∀ d ∈ done, d.1 ≠ [] := by
  induction h with
  | nil => simp
  | snoc _ run full _ ih =>
    intro d hd
    rcases List.mem_append.1 hd with hd | hd
    · exact ih d hd
    · simp only [List.mem_cons, List.not_mem_nil, or_false] at hd
      subst hd
      obtain ⟨rs, r, ws', rfl, -⟩ := full
      simp

/-- **C67** What is in a file that was closed can be opened again: the batch reader stands at the beginning, and has the rows of
the table, stripe by stripe, restricted to the columns that were chosen. -/
theorem file_opens (E : Env) (hc : E.c.Lossless) (o : FOpts) (h1 : 1 ≤ o.chunkSize) (h2 : o.chunkSize < 2 ^ 23)
    (schema : Schema) (num : schema.Numbered) (named : schema.Named) (tab : schema.Tabular) (batches : List Vec)
    (hids : ∀ v ∈ batches, ∀ r ∈ v.tableRows, r.map (·.1) = schema.leafIds) (file : Bytes) (h : writeFile E o schema batches = .ok file) :
    ∃ parts ft ps stripes, FileLayout E o schema.columns file parts ft ps ∧ parts.map (·.rows) = stripes.map (·.length) ∧
      stripes.flatten = batches.flatMap Vec.tableRows ∧ (∀ rows ∈ stripes.dropLast, rows ≠ []) ∧ (FitsOneStripe E o schema batches → stripes.length = 1) ∧
      (E.P.Reads parts ft ps → file.length ≤ 3 + ft.contentLength + 16384 → StripesReadable o.writeIndex schema stripes →
        ∃ r, newReader E file = .ok r ∧ TypesOf schema r.schemas ∧ ∀ bo : BatchOption, bo.Selects schema → bo.rowSize ≠ 0 →
          ∃ br, r.createBatchReader E bo = .ok br ∧
            br.Fresh (r.schemas.map (·.hasNulls)) (RowsLeft .any E.c bo schema r.schemas.length) (stripes.map fun rows => rows.map (Row.only (schema.leaves bo)))) := by
  have hz : o.kind = .zlib := by
    by_cases hz : o.kind = .zlib
    · exact hz
    · exact absurd h (uncompressed_never_closes E o hz schema batches file)
  have ho : o.toWOpts.Sound := ⟨.inr hz, h1, h2⟩
  obtain ⟨ws0, done, ws, rows, p, ws3, ft, ps, hw0, hruns, hrun, hsmall, hl, hrows, -⟩ := file_traced h
  have hpr : p.rows = rows.length := by obtain ⟨_, _, _, _, _, _, e, -⟩ := hrun; exact e
  have hdr : ∀ d ∈ done, d.2.rows = d.1.length := by
    have : ∀ {done : List (Raws × StripeParts)} {ws : List AnyWriter}, StripeRuns E o (schema.columns.map (·.node)) ws0 done ws → ∀ d ∈ done, d.2.rows = d.1.length := by
      intro done ws hr
      induction hr with
      | nil => simp
      | snoc _ run _ _ ih =>
        intro d hd
        rcases List.mem_append.1 hd with hd | hd
        · exact ih d hd
        · simp only [List.mem_cons, List.not_mem_nil, or_false] at hd
          subst hd
          obtain ⟨_, _, _, _, _, _, e, -⟩ := run; exact e
    exact this hruns
  let raws : List Raws := done.map (·.1) ++ [rows]
  let stripes : List (List Row) := raws.map fun r => r.map rowOf
  have hflat : stripes.flatten = batches.flatMap Vec.tableRows := by
    have : (rowsOf done rows).map rowOf = batches.flatMap Vec.tableRows := by
      rw [hrows, List.map_flatMap]
      congr 1
      funext v
      exact v.rawRows_table
    rw [← this]
    simp only [stripes, raws, rowsOf, List.flatMap_def, List.map_append, List.flatten_append, List.map_flatten]
    simp
  have hrowids : ∀ rs ∈ stripes, ∀ r ∈ rs, r.map (·.1) = schema.leafIds := by
    intro rs hrs r hr
    have : r ∈ stripes.flatten := List.mem_flatten.2 ⟨rs, hrs, hr⟩
    rw [hflat] at this
    obtain ⟨v, hv, hr⟩ := List.mem_flatMap.1 this
    exact hids v hv r hr
  refine ⟨_, ft, ps, stripes, hl, ?_, hflat, ?_, fun hfits => ?_, fun hreads htail hst => ?_⟩
  · simp only [stripes, raws, List.map_append, List.map_map, List.map_cons, List.map_nil, List.length_map, hpr]
    congr 1
    apply List.map_congr_left
    intro d hd
    simpa using hdr d hd
  · intro rs hrs
    simp only [stripes, raws, List.map_append, List.map_cons, List.map_nil, List.dropLast_concat, List.map_map] at hrs
    obtain ⟨d, hd, rfl⟩ := List.mem_map.1 hrs
    simpa using runs_filled hruns d hd
  · have := (runs_none hruns (hfits ws0 hw0) (by rw [← hrows]; exact List.prefix_append _ _)).1
    simp [stripes, raws, this]
  -- every stripe holds its rows
  have hnodes : (schema.columns.map (·.node)).map (·.id) = List.range (schema.columns.map (·.node)).length := by
    rw [List.map_map, List.length_map]; exact num
  have hready : List.Forall₂ (AnyWriter.Ready E.c o.toCOpts) (schema.columns.map (·.node)) ws0 := by
    have : ∀ (ns : List SchemaNode), (∀ n ∈ ns, n.Plain) → ∀ ws, newWriters E.A o.toCOpts ns = .ok ws → List.Forall₂ (AnyWriter.Ready E.c o.toCOpts) ns ws := by
      intro ns
      induction ns with
      | nil => intro _ ws h; simp only [newWriters] at h; injection h with h; subst h; exact .nil
      | cons n ns ih =>
        intro hp ws h
        simp only [newWriters] at h
        obtain ⟨w1, k1, h⟩ := Res.bind_ok_inv h
        obtain ⟨ws1, k2, h⟩ := Res.bind_ok_inv h
        injection h with h; subst h
        obtain ⟨w, k3, k4⟩ := AnyWriter.new_ready (A := E.A) (c := E.c) ho (hp n (by simp))
        rw [k1] at k3; injection k3 with k3; subst k3
        exact .cons k4 (ih (fun n hn => hp n (by simp [hn])) _ k2)
    exact this _ (by intro n hn; obtain ⟨c, hc, rfl⟩ := List.mem_map.1 hn; exact tab.plain c hc) _ hw0
  have hleafids : (((schema.columns.map (·.node)).filter fun n => n.hasVector).map (·.id)) = schema.leafIds := by
    rw [List.filter_map, List.map_map]; rfl
  have hreadable : ∀ rs ∈ raws, RowsReadable o.writeIndex (schema.columns.map (·.node)) (rs.map rowOf) := by
    intro rs hrs
    have hm : rs.map rowOf ∈ stripes := List.mem_map_of_mem hrs
    refine ⟨fun r hr => by rw [hleafids]; exact hrowids _ hm r hr, fun n hn hk => ?_⟩
    obtain ⟨c, hc, rfl⟩ := List.mem_map.1 hn
    exact (hst.values _ hm).values c hc hk
  have hclean : ∀ d ∈ done, RowsClean (schema.columns.map (·.node)) (d.1.map rowOf) := by
    intro d hd n hn hk
    obtain ⟨c, hc, rfl⟩ := List.mem_map.1 hn
    refine hst.clean _ ?_ c hc hk
    simp only [stripes, raws, List.map_append, List.map_cons, List.map_nil, List.dropLast_concat]
    exact List.mem_map_of_mem (List.mem_map_of_mem hd)
  have hwi : o.writeIndex = false ∨ done = [] := by
    rcases hst.indexed with h | h
    · exact .inl h
    · right
      simpa [stripes, raws] using h
  obtain ⟨g1, g2⟩ := runs_hold hc ho hnodes hz hwi hready hruns fun d hd =>
    ⟨(hl.sound d.2 (List.mem_append_left _ (List.mem_map_of_mem hd))).lengths, hreadable _ (List.mem_append_left _ (List.mem_map_of_mem hd)), hclean d hd⟩
  obtain ⟨g3, -⟩ := run_holds hc ho hnodes (hl.sound p (by simp)).lengths g1 hrun (hreadable _ (by simp [raws]))
  have hall : List.Forall₂ (fun p rs => StripeParts.Holds E.c o.toWOpts (schema.columns.map (·.node)) p (fun j => rs.map (Row.cell j)) ∧ p.rows = rs.length)
      (done.map (·.2) ++ [p]) stripes := by
    have hd : ∀ {done : List (Raws × StripeParts)}, (∀ d ∈ done, d.2.Holds E.c o.toWOpts (schema.columns.map (·.node)) (fun j => (d.1.map rowOf).map (Row.cell j))) →
        (∀ d ∈ done, d.2.rows = d.1.length) → List.Forall₂ (fun p rs => StripeParts.Holds E.c o.toWOpts (schema.columns.map (·.node)) p (fun j => rs.map (Row.cell j)) ∧ p.rows = rs.length)
          (done.map (·.2) ++ [p]) ((done.map (·.1) ++ [rows]).map fun r => r.map rowOf) := by
      intro done
      induction done with
      | nil => intro _ _; exact .cons ⟨g3, by simpa using hpr⟩ .nil
      | cons d done ih =>
        intro h1 h2
        exact .cons ⟨h1 d (by simp), by simpa using h2 d (by simp)⟩ (ih (fun d hd => h1 d (by simp [hd])) (fun d hd => h2 d (by simp [hd])))
    exact hd g2 hdr
  -- the reader
  obtain ⟨tail, ht1, ht2, ht3⟩ := newReader_layout hc h1 h2 hl hreads
  have hlen : tail.length ≤ 16384 := by
    have : file.length = 3 + ft.contentLength + tail.length := by rw [ht2, hl.content]; simp; omega
    omega
  rw [if_pos hlen] at ht3
  obtain ⟨heap, types, k1, k2, k3⟩ := types_found num named hl.nulls
  have hps : ps.compression = .zlib ∧ ps.blockSize = o.chunkSize := by
    obtain ⟨fb, -, -, e⟩ := ht1
    rw [e]; exact ⟨hz, rfl⟩
  have hn0 : ft.numberOfRows ≠ 0 := by
    rw [hl.rows]
    have hm : p ∈ done.map (·.2) ++ [p] := by simp
    have hle : p.rows ≤ ((done.map (·.2) ++ [p]).map (·.rows)).sum := by simp
    have : 1 ≤ p.rows := by
      rw [hpr]
      have := hst.filled (rows.map rowOf) (by simp [stripes, raws])
      rcases rows with _ | ⟨r, rs⟩
      · simp at this
      · simp
    omega
  refine ⟨⟨file, ⟨.zlib, o.chunkSize, ft.rowIndexStride⟩, types, ft.numberOfRows, ft.statistics, ft.stripes⟩, ?_, k3, fun bo hsel hrow => ?_⟩
  · simp only [newReader, ht3, Res.ok_bind, if_neg hn0, hl.types, k1, k2, hps.1, hps.2]
    rfl
  -- its stripes
  have hlens : ft.stripes.length = (done.map (·.2) ++ [p]).length := by
    have := congrArg List.length (stripeTable_rows 3 (done.map (·.2) ++ [p]))
    rw [hl.stripes]; simpa using this
  have hlens2 := hall.length_eq
  obtain ⟨rs, m1, m2⟩ := initStripes_spec (E := E) (ro := ⟨.zlib, o.chunkSize, ft.rowIndexStride⟩) (bo := bo) (file := file) (types := types)
    (P := StripeReader.Fresh (types.map (·.hasNulls)) (RowsLeft .any E.c bo schema types.length)) (is := ft.stripes)
    (bs := stripes.map fun rows => rows.map (Row.only (schema.leaves bo))) (by
      rw [List.forall₂_iff_get] at hall ⊢
      refine ⟨by rw [List.length_map, hlens, hlens2], fun k hk hk' => ?_⟩
      rw [List.length_map] at hk'
      have hkp : k < (done.map (·.2) ++ [p]).length := by rw [← hlens]; exact hk
      obtain ⟨a1, a2⟩ := hall.2 k hkp hk'
      obtain ⟨x, b1, b2⟩ := stripe_opens hc hz h1 h2 hl hreads num tab hsel k3 (ro := ⟨.zlib, o.chunkSize, ft.rowIndexStride⟩) hz.symm rfl
        (List.getElem?_eq_getElem hk) (List.getElem?_eq_getElem hkp) a1 (hst.values _ (List.getElem_mem hk')).nulls.cols
      have hnum := (footer_found hc hz h1 h2 hl hreads (List.getElem?_eq_getElem hk) (List.getElem?_eq_getElem hkp) ⟨.zlib, o.chunkSize, ft.rowIndexStride⟩ hz.symm).2
      simp only [List.get_eq_getElem] at a2 hnum b1 b2 ⊢
      have hmem : stripes[k] ∈ stripes := List.getElem_mem hk'
      refine ⟨?_, _, b1, rfl, rfl, ?_, x, rfl, ?_, ?_⟩
      · rw [hnum, a2]
        exact fun hz => hst.filled _ hmem (List.length_eq_zero_iff.1 hz)
      · simpa using a2
      · intro r hr
        simp only [List.getElem_map] at hr
        obtain ⟨r', -, rfl⟩ := List.mem_map.1 hr
        simp [Row.only, Function.comp_def]
      · refine RdHas.congr schema _ none x hsel.1 (fun j hj => ?_) (fun p hp => by simp at hp) b2
        simp only [List.getElem_map, List.map_map]
        apply List.map_congr_left
        intro r _
        simp [Row.cell_only hj])
  refine ⟨⟨ft.rowIndexStride, 0, rs, ft.numberOfRows, 0⟩, ?_, rfl, rfl, ?_, m2⟩
  · simp only [FileReader.createBatchReader, if_neg hrow, m1, Res.ok_bind, Res.pure_eq]
  · simp only [hl.rows, List.length_flatten, List.map_map, Function.comp_def, List.length_map]
    congr 1
    apply List.ext_getElem (by simpa using hlens2)
    intro k hk hk'
    rw [List.forall₂_iff_get] at hall
    rw [List.getElem_map, List.getElem_map]
    exact (hall.2 k (by simpa using hk) (by simpa using hk')).2

/-- A client that reads a file whose stripes have been opened: see `file_round_trip_partial`. -/
theorem opened_reads {E : Env} {schema : Schema} (num : schema.Numbered) (tab : schema.Columnar) {file : Bytes} {r : FileReader}
    (e1 : newReader E file = .ok r) (e2 : TypesOf schema r.schemas) {bo : BatchOption} (hsel : bo.Selects schema) (hrow : bo.rowSize ≠ 0)
    (hmake : bo.notCreateVector = false) {br : BatchReader (Rd r.schemas.length)} (e4 : r.createBatchReader E bo = .ok br) (init : List (List Row)) (last : List Row)
    (e5 : br.Fresh (r.schemas.map (·.hasNulls)) (RowsLeft .any E.c bo schema r.schemas.length) ((init ++ [last]).map fun rows => rows.map (Row.only (schema.leaves bo))))
    (hfill : ∀ rows ∈ init ++ [last], rows ≠ []) (fuel : Nat) :
    (∀ k, ∃ rows stop, readFile E fuel schema bo k file = .ok (rows, stop)) ∧
    ((∃ k rows, readFile E fuel schema bo k file = .ok (rows, true)) ↔ lostRows bo.rowSize init ≤ 1) ∧
    ∀ k rows, readFile E fuel schema bo k file = .ok (rows, true) → rows = (delivered bo.rowSize init last).map (Row.only (schema.leaves bo)) := by
  obtain ⟨v, e6, e7⟩ := createVector_shape tab hsel hrow hmake
  have D := rd_delivers .any E.c fuel bo schema r.schemas.length hsel.1 (r.schemas.map (·.hasNulls)) (fun c hc _ => e2.hasNulls c hc)
    (num.leafIds.sublist (leaves_sublist bo schema)) bo.rowSize
  have hread : ∀ k, readFile E fuel schema bo k file = (readBatches (rdOps E.c fuel r.schemas.length) (fuel + 1) k br v >>= fun x => pure (x.1.flatMap Vec.tableRows, x.2)) := by
    intro k
    simp only [readFile, e1, e4, e6, Res.ok_bind]
  have hB : 1 ≤ bo.rowSize := Nat.one_le_iff_ne_zero.2 hrow
  have hmap : (init ++ [last]).map (fun rows => rows.map (Row.only (schema.leaves bo))) =
      (init.map fun rows => rows.map (Row.only (schema.leaves bo))) ++ [last.map (Row.only (schema.leaves bo))] := by simp
  rw [hmap] at e5
  have hne' : ∀ s ∈ (init.map fun rows => rows.map (Row.only (schema.leaves bo))) ++ [last.map (Row.only (schema.leaves bo))], s ≠ [] := by
    rw [← hmap]
    intro s hs
    obtain ⟨rows, hr, rfl⟩ := List.mem_map.1 hs
    simpa using hfill rows hr
  obtain ⟨f1, f2⟩ := batch_loop_ends_iff D hB fuel br _ _ e5 hne' v ⟨_, e7⟩
  have hlost : ∀ l : List (List Row), lostRows bo.rowSize (l.map fun rows => rows.map (Row.only (schema.leaves bo))) = lostRows bo.rowSize l := by
    intro l
    simp only [lostRows, List.filter_map, List.length_map, Function.comp_def]
  refine ⟨fun k => ?_, ?_, fun k rows hk => ?_⟩
  · obtain ⟨bs, stop, g⟩ := f1 k
    exact ⟨_, stop, by rw [hread, g]; rfl⟩
  · rw [← hlost, ← f2]
    constructor
    · rintro ⟨k, rows, hk⟩
      rw [hread] at hk
      obtain ⟨⟨bs, stop⟩, g, hk⟩ := Res.bind_ok_inv hk
      obtain ⟨-, rfl⟩ := Prod.mk.inj (Res.ok.inj hk)
      exact ⟨k, bs, g⟩
    · rintro ⟨k, bs, g⟩
      exact ⟨k, _, by rw [hread, g]; rfl⟩
  · rw [hread] at hk
    obtain ⟨⟨bs, stop⟩, g, hk⟩ := Res.bind_ok_inv hk
    obtain ⟨rfl, rfl⟩ := Prod.mk.inj (Res.ok.inj hk)
    rw [batch_loop_delivers D hB fuel br _ _ e5 hne' v ⟨_, e7⟩ k bs g]
    simp only [delivered, hlost, List.length_map]
    have hkept : ∀ l : List (List Row), (l.map fun rows => rows.map (Row.only (schema.leaves bo))).flatMap (kept bo.rowSize) =
        (l.flatMap (kept bo.rowSize)).map (Row.only (schema.leaves bo)) := by
      intro l
      rw [List.flatMap_map, List.map_flatMap]
      congr 1
      funext rows
      simp only [kept, List.length_map]
      split <;> simp
    split
    · rw [List.map_append, List.map_flatten]
      congr 1
      split <;> simp
    · rw [hkept, List.map_append]

/-- **C67** A client that wrote a table and closed the file, and then reads some of its columns with batches of `bo.rowSize` rows:
no call fails, the loop ends exactly if at most one stripe before the last loses its last row, and what it has then are the
rows of the table, restricted to the columns, but for the lost rows. Whatever the schema, the rows, the stripe size. -/
theorem file_round_trip_partial (E : Env) (hc : E.c.Lossless) (o : FOpts) (h1 : 1 ≤ o.chunkSize) (h2 : o.chunkSize < 2 ^ 23)
    (schema : Schema) (num : schema.Numbered) (named : schema.Named) (tab : schema.Tabular) (batches : List Vec)
    (hids : ∀ v ∈ batches, ∀ r ∈ v.tableRows, r.map (·.1) = schema.leafIds) (file : Bytes) (h : writeFile E o schema batches = .ok file) :
    ∃ parts ft ps init last, FileLayout E o schema.columns file parts ft ps ∧ parts.map (·.rows) = (init ++ [last]).map (·.length) ∧
      (init ++ [last]).flatten = batches.flatMap Vec.tableRows ∧ (∀ rows ∈ init, rows ≠ []) ∧ (FitsOneStripe E o schema batches → init = []) ∧
      (E.P.Reads parts ft ps → file.length ≤ 3 + ft.contentLength + 16384 → StripesReadable o.writeIndex schema (init ++ [last]) →
        ∀ bo : BatchOption, bo.Selects schema → bo.rowSize ≠ 0 → bo.notCreateVector = false → ∀ fuel,
          (∀ k, ∃ rows stop, readFile E fuel schema bo k file = .ok (rows, stop)) ∧
          ((∃ k rows, readFile E fuel schema bo k file = .ok (rows, true)) ↔ lostRows bo.rowSize init ≤ 1) ∧
          ∀ k rows, readFile E fuel schema bo k file = .ok (rows, true) → rows = (delivered bo.rowSize init last).map (Row.only (schema.leaves bo))) := by
  obtain ⟨parts, ft, ps, stripes, hl, hrows, hflat, hfill, hone, hopen⟩ := file_opens E hc o h1 h2 schema num named tab batches hids file h
  have hne : stripes ≠ [] := by
    intro he
    have := congrArg List.length hrows
    rw [he] at this
    exact hl.nonempty (List.length_eq_zero_iff.1 (by simpa using this))
  obtain ⟨init, last, rfl⟩ : ∃ init last, stripes = init ++ [last] := ⟨_, _, (List.dropLast_append_getLast hne).symm⟩
  refine ⟨parts, ft, ps, init, last, hl, hrows, hflat, by simpa using hfill, fun h => by simpa using hone h, fun hreads hlen hst bo hsel hrow hmake fuel => ?_⟩
  obtain ⟨r, e1, e2, e3⟩ := hopen hreads hlen hst
  obtain ⟨br, e4, e5⟩ := e3 bo hsel hrow
  exact opened_reads num tab.columnar e1 e2 hsel hrow hmake e4 init last e5 hst.filled fuel

end Goorc
