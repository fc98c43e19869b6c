import Verif.Proofs.Copy
/-
C108: two tables do not have the same file. C109: a file that is read and written again.
-/
namespace Goorc

section
variable (E : Env) (hc : E.c.Lossless) (hp : E.P.Lossless) (o : FOpts) (h1 : 1 ≤ o.chunkSize) (h2 : o.chunkSize < 2 ^ 23)
  (schema : Schema) (num : schema.Numbered) (named : schema.Named) (tab : schema.Tabular) (file : Bytes) (parts : List StripeParts) (ft : FileFooter) (ps : PostScript)
  (hl : FileLayout E o schema.columns file parts ft ps) (hlen : file.length < 2 ^ 63) (htail : SmallTail file ft)
include hc hp h1 h2 num named tab hl hlen htail

/-- How a file is opened, for the one layout it has. -/
theorem opened_cut (batches : List Vec) (hids : ∀ v ∈ batches, ∀ r ∈ v.tableRows, r.map (·.1) = schema.leafIds) (h : writeFile E o schema batches = .ok file)
    (hst : StripesReadable o.writeIndex schema (cutRows ft.cuts (batches.flatMap Vec.tableRows))) :
    ft.cuts.sum = (batches.flatMap Vec.tableRows).length ∧ (cutRows ft.cuts (batches.flatMap Vec.tableRows)).map List.length = ft.cuts ∧
    ∃ r, newReader E file = .ok r ∧ TypesOf schema r.schemas ∧ ∀ bo : BatchOption, bo.Selects schema → bo.rowSize ≠ 0 →
      ∃ br, r.createBatchReader E bo = .ok br ∧ br.Fresh (r.schemas.map (·.hasNulls)) (RowsLeft .any E.c bo schema r.schemas.length)
        ((cutRows ft.cuts (batches.flatMap Vec.tableRows)).map fun rows => rows.map (Row.only (schema.leaves bo))) := by
  obtain ⟨parts', ft', ps', stripes, l, e1, e2, e3, e4, e5⟩ := file_opens E hc o h1 h2 schema num named tab batches hids file h
  obtain ⟨rfl, rfl, rfl⟩ := layout_unique hc hp h1 h2 hlen hl l
  have hcuts : ft.cuts = stripes.map List.length := by
    rw [FileFooter.cuts, hl.stripes, stripeTable_rows]; exact e1
  have hcut : cutRows ft.cuts (batches.flatMap Vec.tableRows) = stripes := by rw [hcuts, ← e2, cutRows_flatten]
  rw [hcut] at hst ⊢
  exact ⟨by rw [hcuts, ← e2, List.length_flatten], hcuts.symm, e5 (reads_of_lossless hp h2 hl htail) htail hst⟩

/-- **C108** No two tables have the same file: if what two programs have written with the same schema and options gives the same bytes, they have written the
same rows. For tables that can be read back (`StripesReadable`), however the rows were put into batches. -/
theorem tables_differ (filled : ∀ c ∈ schema.columns, c.node.kind = .struct → c.children ≠ []) (b1 b2 : List Vec)
    (i1 : ∀ v ∈ b1, ∀ r ∈ v.tableRows, r.map (·.1) = schema.leafIds) (i2 : ∀ v ∈ b2, ∀ r ∈ v.tableRows, r.map (·.1) = schema.leafIds)
    (w1 : writeFile E o schema b1 = .ok file) (w2 : writeFile E o schema b2 = .ok file)
    (r1 : StripesReadable o.writeIndex schema (cutRows ft.cuts (b1.flatMap Vec.tableRows))) (r2 : StripesReadable o.writeIndex schema (cutRows ft.cuts (b2.flatMap Vec.tableRows))) :
    b1.flatMap Vec.tableRows = b2.flatMap Vec.tableRows := by
  obtain ⟨s1, t1, x, x1, x2, x3⟩ := opened_cut E hc hp o h1 h2 schema num named tab file parts ft ps hl hlen htail b1 i1 w1 r1
  obtain ⟨s2, t2, y, y1, y2, y3⟩ := opened_cut E hc hp o h1 h2 schema num named tab file parts ft ps hl hlen htail b2 i2 w2 r2
  rw [x1] at y1; injection y1 with y1; subst y1
  let B := (b1.flatMap Vec.tableRows).length + 1
  let bo : BatchOption := ⟨[], B, false⟩
  have hall : ∀ i, bo.isInclude i = true := fun i => rfl
  have hsel : bo.Selects schema := by
    refine ⟨rfl, fun c hc hk => ⟨fun _ => ?_, fun _ => rfl⟩⟩
    obtain ⟨d, hd⟩ := List.exists_mem_of_ne_nil _ (filled c hc hk)
    exact ⟨d, hd, rfl⟩
  obtain ⟨br, z1, z2⟩ := x3 bo hsel (by simp [bo, B])
  obtain ⟨br', z3, z4⟩ := y3 bo hsel (by simp [bo, B])
  rw [z1] at z3; injection z3 with z3; subst z3
  obtain ⟨v, v1, v2⟩ := createVector_shape tab.columnar hsel (by simp [bo, B]) rfl
  have D := rd_delivers .any E.c 0 bo schema x.schemas.length hsel.1 (x.schemas.map (·.hasNulls)) (fun c hc _ => x2.hasNulls c hc)
    (num.leafIds.sublist (leaves_sublist bo schema)) bo.rowSize
  obtain ⟨u, u1, u2, -, u3, u4⟩ := D.cleared v ⟨_, v2⟩
  have only : ∀ (b : List Vec), (∀ v ∈ b, ∀ r ∈ v.tableRows, r.map (·.1) = schema.leafIds) → ft.cuts.sum = (b.flatMap Vec.tableRows).length →
      (cutRows ft.cuts (b.flatMap Vec.tableRows)).map (fun rows => rows.map (Row.only (schema.leaves bo))) = cutRows ft.cuts (b.flatMap Vec.tableRows) := by
    intro b hb hs
    refine Eq.trans (List.map_congr_left (g := id) fun rows hr => ?_) (List.map_id _)
    refine Eq.trans (List.map_congr_left (g := id) fun r hr' => ?_) (List.map_id _)
    have : r ∈ b.flatMap Vec.tableRows := by
      rw [← flatten_cutRows ft.cuts (b.flatMap Vec.tableRows) (by omega)]
      exact List.mem_flatten.2 ⟨rows, hr, hr'⟩
    obtain ⟨v, hv, hr''⟩ := List.mem_flatMap.1 this
    rw [leaves_all hall]
    exact Row.only_self num.leafIds r (hb v hv r hr'')
  rw [only b1 i1 s1] at z2
  rw [only b2 i2 s2] at z4
  have hsame : cutRows ft.cuts (b1.flatMap Vec.tableRows) = cutRows ft.cuts (b2.flatMap Vec.tableRows) := by
    have e1 := z2.each
    have e2 := z4.each
    have hs1 : ∀ rows ∈ cutRows ft.cuts (b1.flatMap Vec.tableRows), rows.length ≤ B := by
      intro rows hr
      have := (List.sublist_flatten_of_mem hr).length_le
      rw [flatten_cutRows ft.cuts (b1.flatMap Vec.tableRows) (by omega)] at this
      omega
    generalize cutRows ft.cuts (b1.flatMap Vec.tableRows) = c1 at *
    generalize cutRows ft.cuts (b2.flatMap Vec.tableRows) = c2 at *
    clear z2 z4 r1 r2 x3 y3
    rw [← t1] at t2
    clear t1
    generalize br.stripes = ss at e1 e2
    induction e1 generalizing c2 with
    | nil => cases e2; rfl
    | @cons s rows ss c1 g1 _ ih =>
      cases e2 with
      | @cons _ rows' _ c2 g2 gs =>
        simp only [List.map_cons, List.cons.injEq] at t2
        rw [ih (fun rows hr => hs1 rows (by simp [hr])) c2 t2.2 gs]
        obtain ⟨-, -, -, q, q1, q2⟩ := g1
        obtain ⟨-, -, -, q', q1', q2'⟩ := g2
        rw [q1] at q1'; injection q1' with q1'; subst q1'
        obtain ⟨sz, vv, _, m1, m2, -, -, m3, -, -⟩ := D.next u u2 u3 q rows [] (hs1 rows (by simp)) (by simpa using q2)
        obtain ⟨sz', vv', _, m1', m2', -, -, m3', -, -⟩ := D.next u u2 u3 q rows' [] (by rw [t2.1]; exact hs1 rows (by simp)) (by simpa using q2')
        rw [t2.1, m1] at m1'; injection m1' with m1'; subst m1'
        rw [m2] at m2'; injection m2' with m2'; injection m2' with m2' _; subst m2'
        rw [← m3, ← m3']
  rw [← flatten_cutRows ft.cuts (b1.flatMap Vec.tableRows) (by omega), hsame, flatten_cutRows ft.cuts (b2.flatMap Vec.tableRows) (by omega)]

/-- What a program does that reads all columns of a table and writes what it has read: it writes the rows that are delivered, in batches of its own. -/
theorem copy_reads (batches : List Vec) (hb : ∀ v ∈ batches, ∃ len, schema.Batch len v) (h : writeFile E o schema batches = .ok file)
    (hst : StripesReadable o.writeIndex schema (cutRows ft.cuts (batches.flatMap Vec.tableRows))) (bo : BatchOption) (hall : ∀ i, bo.isInclude i = true)
    (hsel : bo.Selects schema) (hrow : bo.rowSize ≠ 0) (hmake : bo.notCreateVector = false) (fuel : Nat) :
    ∃ (init : List (List Row)) (last : List Row), (init ++ [last]).map List.length = ft.cuts ∧ (init ++ [last]).flatten = batches.flatMap Vec.tableRows ∧ last ≠ [] ∧
      (∀ k, ∃ bs stop, (∀ v ∈ bs, ∃ len, schema.Batch len v) ∧ (stop = true → bs.flatMap Vec.tableRows = delivered bo.rowSize init last) ∧
        ∀ o' : FOpts, copyFile E fuel schema bo o' k file = (writeFile E o' schema bs >>= fun f => .ok (f, stop))) ∧
      (lostRows bo.rowSize init ≤ 1 → ∃ k bs, (∀ v ∈ bs, ∃ len, schema.Batch len v) ∧ bs.flatMap Vec.tableRows = delivered bo.rowSize init last ∧
        ∀ o' : FOpts, copyFile E fuel schema bo o' k file = (writeFile E o' schema bs >>= fun f => .ok (f, true))) := by
  obtain ⟨s1, t1, x, x1, x2, x3⟩ := opened_cut E hc hp o h1 h2 schema num named tab file parts ft ps hl hlen htail batches (batches_ids E o schema batches hb) h hst
  obtain ⟨br, z1, z2⟩ := x3 bo hsel hrow
  obtain ⟨v, v1, v2⟩ := createVector_shape tab.columnar hsel hrow hmake
  have D := rd_delivers .any E.c fuel bo schema x.schemas.length hsel.1 (x.schemas.map (·.hasNulls)) (fun c hc _ => x2.hasNulls c hc)
    (num.leafIds.sublist (leaves_sublist bo schema)) bo.rowSize
  have honly : (cutRows ft.cuts (batches.flatMap Vec.tableRows)).map (fun rows => rows.map (Row.only (schema.leaves bo))) = cutRows ft.cuts (batches.flatMap Vec.tableRows) := by
    refine Eq.trans (List.map_congr_left (g := id) fun rows hr => ?_) (List.map_id _)
    refine Eq.trans (List.map_congr_left (g := id) fun r hr' => ?_) (List.map_id _)
    have : r ∈ batches.flatMap Vec.tableRows := by
      rw [← flatten_cutRows ft.cuts (batches.flatMap Vec.tableRows) (by omega)]
      exact List.mem_flatten.2 ⟨rows, hr, hr'⟩
    obtain ⟨v, hv, hr''⟩ := List.mem_flatMap.1 this
    rw [leaves_all hall]
    exact Row.only_self num.leafIds r (batches_ids E o schema batches hb v hv r hr'')
  rw [honly] at z2
  have hflat : (cutRows ft.cuts (batches.flatMap Vec.tableRows)).flatten = batches.flatMap Vec.tableRows := flatten_cutRows _ _ (by omega)
  generalize cutRows ft.cuts (batches.flatMap Vec.tableRows) = stripes at *
  have hne : stripes ≠ [] := by
    rintro rfl
    have h0 : ft.cuts.length = 0 := by rw [← t1]; rfl
    rw [FileFooter.cuts, hl.stripes, stripeTable_rows, List.length_map] at h0
    exact hl.nonempty (List.length_eq_zero_iff.1 h0)
  obtain ⟨init, last, rfl⟩ : ∃ init last, stripes = init ++ [last] := ⟨_, _, (List.dropLast_append_getLast hne).symm⟩
  have hB : 1 ≤ bo.rowSize := by omega
  have hends := batch_loop_ends_iff D hB fuel br init last z2 hst.filled v ⟨_, v2⟩
  obtain ⟨cur, later, hcl⟩ : ∃ cur later, init ++ [last] = cur :: later := by
    cases init with
    | nil => exact ⟨_, _, rfl⟩
    | cons i is => exact ⟨_, _, rfl⟩
  have hcopy : ∀ k bs stop, readBatches (rdOps E.c fuel x.schemas.length) (fuel + 1) k br v = .ok (bs, stop) →
      (∀ v ∈ bs, ∃ len, schema.Batch len v) ∧ ∀ o' : FOpts, copyFile E fuel schema bo o' k file = (writeFile E o' schema bs >>= fun f => .ok (f, stop)) := by
    intro k bs stop hk
    refine ⟨fun b hbm => ?_, fun o' => ?_⟩
    · have := readBatches_shape D fuel k br ⟨cur, later, 0⟩ (fresh_at (by rw [← hcl]; exact z2)) v ⟨_, v2⟩ bs stop hk b hbm
      obtain ⟨len, hlb⟩ := this
      exact ⟨len, ShapeIn.batch hall schema _ b hlb⟩
    · simp only [copyFile, x1, Res.ok_bind, z1, v1, copyBatches_eq k br v bs stop hk, writeFile, Res.bind_assoc, Res.pure_eq]
  refine ⟨init, last, t1, hflat, hst.filled last (by simp), fun k => ?_, fun hlost => ?_⟩
  · obtain ⟨bs, stop, hk⟩ := hends.1 k
    refine ⟨bs, stop, (hcopy k bs stop hk).1, fun hs => ?_, (hcopy k bs stop hk).2⟩
    subst hs
    exact batch_loop_delivers D hB fuel br init last z2 hst.filled v ⟨_, v2⟩ k bs hk
  · obtain ⟨k, bs, hk⟩ := hends.2.2 hlost
    exact ⟨k, bs, (hcopy k bs true hk).1, batch_loop_delivers D hB fuel br init last z2 hst.filled v ⟨_, v2⟩ k bs hk, (hcopy k bs true hk).2⟩

/-- **C109** A program that reads a file with all its columns, hands what `Next` delivers to `Write` with options of its own, and closes the new file when the end is
reported, makes the file that would have been written from the original table with these options, byte by byte: whatever the size of the batches it reads and of the
batches that were written, and with the failure of the writer if that fails. As long as no stripe loses its last row. -/
theorem copy_converts_partial (batches : List Vec) (hb : ∀ v ∈ batches, ∃ len, schema.Batch len v) (h : writeFile E o schema batches = .ok file)
    (hst : StripesReadable o.writeIndex schema (cutRows ft.cuts (batches.flatMap Vec.tableRows))) (bo : BatchOption) (hall : ∀ i, bo.isInclude i = true)
    (hsel : bo.Selects schema) (hrow : bo.rowSize ≠ 0) (hmake : bo.notCreateVector = false) (fuel : Nat)
    (hkeep : ∀ n ∈ ft.cuts, losesLast bo.rowSize n = false) (hlast : ft.cuts.getLast? ≠ some 1) :
    ∃ k, ∀ o' : FOpts, copyFile E fuel schema bo o' k file = (writeFile E o' schema batches >>= fun f => .ok (f, true)) := by
  obtain ⟨init, last, e1, e2, e0, -, e4⟩ := copy_reads E hc hp o h1 h2 schema num named tab file parts ft ps hl hlen htail batches hb h hst bo hall hsel hrow hmake fuel
  rw [← e1] at hkeep hlast
  have hpos := List.length_pos_iff.2 e0
  have h0 : lostRows bo.rowSize init = 0 := by
    rw [lostRows, List.length_eq_zero_iff, List.filter_eq_nil_iff]
    intro s hs
    rw [hkeep s.length (by simp only [List.map_append, List.mem_append]; exact .inl (List.mem_map_of_mem hs))]
    decide
  obtain ⟨k, bs, f1, f2, f3⟩ := e4 (by omega)
  have hall' : delivered bo.rowSize init last = (init ++ [last]).flatten := by
    have hl2 : last.length ≠ 1 := fun he => hlast (by simp [he])
    rw [delivered, if_pos h0, if_neg, List.flatten_append]
    · simp
    · rw [hkeep last.length (by simp)]
      simp
      omega
  refine ⟨k, fun o' => ?_⟩
  rw [f3 o', batching_irrelevant E o' schema bs batches f1 hb (by rw [f2, hall', e2])]

/-- **C109** When the copy is the file itself: exactly when no stripe has its last row alone in a batch, and the last stripe has more than one row. Else rows are
missing, or the end is never reported. -/
theorem copy_exact (batches : List Vec) (hb : ∀ v ∈ batches, ∃ len, schema.Batch len v) (h : writeFile E o schema batches = .ok file)
    (hst : StripesReadable o.writeIndex schema (cutRows ft.cuts (batches.flatMap Vec.tableRows))) (bo : BatchOption) (hall : ∀ i, bo.isInclude i = true)
    (hsel : bo.Selects schema) (hrow : bo.rowSize ≠ 0) (hmake : bo.notCreateVector = false) (fuel : Nat) :
    (∃ k, copyFile E fuel schema bo o k file = .ok (file, true)) ↔ (∀ n ∈ ft.cuts, losesLast bo.rowSize n = false) ∧ ft.cuts.getLast? ≠ some 1 := by
  constructor
  · rintro ⟨k, hk⟩
    obtain ⟨init, last, e1, e2, e0, e3, -⟩ := copy_reads E hc hp o h1 h2 schema num named tab file parts ft ps hl hlen htail batches hb h hst bo hall hsel hrow hmake fuel
    obtain ⟨bs, stop, f1, f2, f3⟩ := e3 k
    rw [f3 o] at hk
    obtain ⟨file', g1, g2⟩ := Res.bind_ok_inv hk
    injection g2 with g2; injection g2 with g2 g3
    subst g2; subst g3
    obtain ⟨parts', ft', ps', stripes, l, q1, q2, -⟩ := file_opens E hc o h1 h2 schema num named tab bs (batches_ids E o schema bs f1) file' g1
    obtain ⟨rfl, rfl, rfl⟩ := layout_unique hc hp h1 h2 hlen hl l
    have hcuts : ft.cuts = stripes.map List.length := by
      rw [FileFooter.cuts, hl.stripes, stripeTable_rows]; exact q1
    have hlens : (delivered bo.rowSize init last).length = (init ++ [last]).flatten.length := by
      rw [← f2 rfl, ← q2, List.length_flatten, List.length_flatten, e1, ← hcuts]
    obtain ⟨p1, p2, p3⟩ := delivered_length e0 hlens
    rw [← e1]
    refine ⟨fun n hn => ?_, fun he => ?_⟩
    · obtain ⟨s, hs, rfl⟩ := List.mem_map.1 hn
      rcases List.mem_append.1 hs with hs | hs
      · exact p1 s hs
      · simp only [List.mem_singleton] at hs
        subst hs; exact p3
    · simp at he
      omega
  · rintro ⟨hkeep, hlast⟩
    obtain ⟨k, hk⟩ := copy_converts_partial E hc hp o h1 h2 schema num named tab file parts ft ps hl hlen htail batches hb h hst bo hall hsel hrow hmake fuel hkeep hlast
    exact ⟨k, by rw [hk o, h]; rfl⟩

end

/-- The file of a table with nulls, integers and strings, and how it is cut. -/
theorem exCopied : ∃ file part ft ps, writeFile exEnv exFOpts exTable [exBatch] = .ok file ∧ file.length = 863 ∧ FileLayout exEnv exFOpts exTable.columns file [part] ft ps ∧ ft.cuts = [4] ∧
    StripesReadable exFOpts.writeIndex exTable (cutRows ft.cuts ([exBatch].flatMap Vec.tableRows)) := by
  obtain ⟨file, part, ft, ps, h1, h2, h3, -⟩ := table_round_trip_partial exEnv runCodec_lossless plainProto_lossless exFOpts rfl (by decide) (by decide) exTable exTable_numbered exTable_named
    exTable_tabular [exBatch] (by simpa using ⟨4, exBatch_shape⟩) (exBatch_readable _) exBatch_fits
  have hlen : file.length = 863 := by
    have : (match writeFile exEnv exFOpts exTable [exBatch] with | .ok f => f.length | _ => 0) = 863 := by decide +kernel
    rw [h1] at this
    exact this
  have h4 : part.rows = 4 := by rw [h3, exBatch_rows]; rfl
  have hcuts : ft.cuts = [4] := by rw [FileFooter.cuts, h2.stripes, stripeTable_rows]; simp [h4]
  refine ⟨file, part, ft, ps, h1, hlen, h2, hcuts, ?_⟩
  have hone : cutRows ft.cuts ([exBatch].flatMap Vec.tableRows) = [[exBatch].flatMap Vec.tableRows] := by rw [hcuts, exBatch_rows]; rfl
  rw [hone]
  refine ⟨.inr rfl, fun rows h => ?_, fun rows h => ?_, by simp⟩
  · simp only [List.mem_cons, List.not_mem_nil, or_false] at h
    subst h
    rw [exBatch_rows]; simp
  · simp only [List.mem_cons, List.not_mem_nil, or_false] at h
    subst h
    exact exBatch_readable _

theorem exAll_selects (n : Nat) : (⟨[], n, false⟩ : BatchOption).Selects exTable := by
  refine ⟨rfl, exTable_columns (fun _ => ⟨fun _ => ⟨_, List.mem_cons_self, rfl⟩, fun _ => rfl⟩) ?_ ?_⟩ <;> intro h <;> cases h

/-- A table with other rows has another file, however it is batched. -/
example : ∃ file, writeFile exEnv exFOpts exTable [exBatch] = .ok file ∧
    ∀ bs : List Vec, (∀ v ∈ bs, ∃ len, exTable.Batch len v) → StripesReadable true exTable (cutRows [4] (bs.flatMap Vec.tableRows)) →
      bs.flatMap Vec.tableRows ≠ [exBatch].flatMap Vec.tableRows → writeFile exEnv exFOpts exTable bs ≠ .ok file := by
  obtain ⟨file, part, ft, ps, h1, hlen, h2, h3, h4⟩ := exCopied
  refine ⟨file, h1, fun bs hb hst hne hw => hne ?_⟩
  exact tables_differ exEnv runCodec_lossless plainProto_lossless exFOpts (by decide) (by decide) exTable exTable_numbered exTable_named exTable_tabular file [part] ft ps h2 (by omega)
    (by simp only [SmallTail]; omega) (exTable_columns (fun _ => by simp [exTable, Schema.children]) (fun h => by cases h) (fun h => by cases h)) bs [exBatch] (batches_ids exEnv exFOpts exTable bs hb)
    (batches_ids exEnv exFOpts exTable [exBatch] (by simpa using ⟨4, exBatch_shape⟩)) hw h1 (by rw [h3]; exact hst) h4

/-- Four rows, copied by two: the same file. By three the fourth is alone, and lost. By one, nothing comes out right. -/
example : ∃ file, writeFile exEnv exFOpts exTable [exBatch] = .ok file ∧ ∀ fuel,
    (∃ k, copyFile exEnv fuel exTable ⟨[], 2, false⟩ exFOpts k file = .ok (file, true)) ∧
    (∃ k, ∀ o', copyFile exEnv fuel exTable ⟨[], 6, false⟩ o' k file = (writeFile exEnv o' exTable [exBatch] >>= fun f => .ok (f, true))) ∧
    ¬ (∃ k, copyFile exEnv fuel exTable ⟨[], 3, false⟩ exFOpts k file = .ok (file, true)) ∧
    ¬ (∃ k, copyFile exEnv fuel exTable ⟨[], 1, false⟩ exFOpts k file = .ok (file, true)) := by
  obtain ⟨file, part, ft, ps, h1, hlen, h2, h3, h4⟩ := exCopied
  refine ⟨file, h1, fun fuel => ?_⟩
  have key := fun n hn => copy_exact exEnv runCodec_lossless plainProto_lossless exFOpts (by decide) (by decide) exTable exTable_numbered exTable_named exTable_tabular file [part] ft ps h2 (by omega)
    (by simp only [SmallTail]; omega) [exBatch] (by simpa using ⟨4, exBatch_shape⟩) h1 h4 ⟨[], n, false⟩ (fun _ => rfl) (exAll_selects n) hn rfl fuel
  have conv := copy_converts_partial exEnv runCodec_lossless plainProto_lossless exFOpts (by decide) (by decide) exTable exTable_numbered exTable_named exTable_tabular file [part] ft ps h2 (by omega)
    (by simp only [SmallTail]; omega) [exBatch] (by simpa using ⟨4, exBatch_shape⟩) h1 h4 ⟨[], 6, false⟩ (fun _ => rfl) (exAll_selects 6) (by decide) rfl fuel
  rw [h3] at key conv
  refine ⟨(key 2 (by decide)).2 (by decide), conv (by decide) (by decide), fun h => ?_, fun h => ?_⟩
  · exact absurd ((key 3 (by decide)).1 h) (by decide)
  · exact absurd ((key 1 (by decide)).1 h) (by decide)

end Goorc
