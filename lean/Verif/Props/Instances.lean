import Verif.Props.Total
import Verif.Props.Crash
import Verif.Props.FileStats
import Verif.Props.StructColumn
import Verif.Props.Magic

/-! The theorems about whole files on two files of this library: four rows of nullable integers and strings with row indexes (`exTable`), and
three rows of doubles (`exDoubles`). -/

namespace Goorc

theorem exTable_file : ∃ file, writeFile exEnv exFOpts exTable [exBatch] = .ok file ∧ file.length = 863 := by
  have h : (match writeFile exEnv exFOpts exTable [exBatch] with | .ok f => f.length | _ => 0) = 863 := by decide +kernel
  split at h
  · rename_i f hf; exact ⟨f, hf, h⟩
  · cases h

theorem exTable_batches : ∀ v ∈ [exBatch], ∃ len, exTable.Batch len v := by simpa using ⟨4, exBatch_shape⟩

theorem exTable_ids : ∀ v ∈ [exBatch], ∀ r ∈ v.tableRows, r.map (·.1) = exTable.leafIds := by
  have h : exBatch.tableRows.all (fun r => decide (r.map (·.1) = exTable.leafIds)) = true := by decide +kernel
  intro v hv r hr
  obtain rfl : v = exBatch := by simpa using hv
  exact of_decide_eq_true (List.all_eq_true.mp h r hr)

/-- C53, C54: the layout of this file, its stripes one behind the other, and the four rows in the footer and in the stripe table. -/
example : ∃ file parts ft ps, writeFile exEnv exFOpts exTable [exBatch] = .ok file ∧ FileLayout exEnv exFOpts exTable.columns file parts ft ps ∧
    (parts.map (·.rows)).sum = 4 := by
  obtain ⟨file, h, -⟩ := exTable_file
  obtain ⟨parts, ft, ps, h1, h2⟩ := file_layout exEnv exFOpts exTable [exBatch] file h
  exact ⟨file, parts, ft, ps, h, h1, h2⟩

example : ∃ file parts ft ps, writeFile exEnv exFOpts exTable [exBatch] = .ok file ∧ FileLayout exEnv exFOpts exTable.columns file parts ft ps ∧
    ft.numberOfRows = 4 ∧ (ft.stripes.map (·.numberOfRows)).sum = 4 := by
  obtain ⟨file, h, -⟩ := exTable_file
  obtain ⟨parts, ft, ps, h1, h2, h3⟩ := row_counts exEnv exFOpts exTable [exBatch] file h
  exact ⟨file, parts, ft, ps, h, h1, h2, h3⟩

example : ∃ file parts ft ps, writeFile exEnv exFOpts exTable [exBatch] = .ok file ∧ FileLayout exEnv exFOpts exTable.columns file parts ft ps ∧ Tiles 3 ft.stripes := by
  obtain ⟨file, h, -⟩ := exTable_file
  obtain ⟨parts, ft, ps, h1, h2, -⟩ := stripes_tile exEnv exFOpts exTable [exBatch] file h
  exact ⟨file, parts, ft, ps, h, h1, h2⟩

/-- C73: the statistics in the footer. Three of the numbers are there, all of them 70000. -/
example : ∃ file parts ft ps, writeFile exEnv exFOpts exTable [exBatch] = .ok file ∧ FileLayout exEnv exFOpts exTable.columns file parts ft ps ∧
    ∃ st, ft.statistics[1]? = some st ∧ st.hasNull = true ∧ st.numberOfValues = 3 := by
  obtain ⟨file, h, -⟩ := exTable_file
  obtain ⟨parts, ft, ps, h1, -, h2⟩ := file_statistics exEnv exFOpts exTable exTable_numbered [exBatch] exTable_batches file h
  obtain ⟨st, k1, k2, k3⟩ := h2 (.mk ⟨1, .int, .directV2, true, []⟩ []) (by simp [exTable, Schema.columns, columnsAll]) (by simp [node_mk])
  refine ⟨file, parts, ft, ps, h, h1, st, k1, k2, ?_⟩
  rw [k3, exBatch_rows]
  decide +kernel

example : ∃ file parts ft ps, writeFile exEnv exFOpts exTable [exBatch] = .ok file ∧ FileLayout exEnv exFOpts exTable.columns file parts ft ps ∧
    ∃ (st : ColStats IntStats) (s : IntStats), ft.statistics[1]? = some (.leaf (.int .int) st) ∧ st.typed = some s ∧ Greatest [0, 70000, 70000, 70000] s.max.toInt ∧ s.sum = 210000 := by
  obtain ⟨file, h, -⟩ := exTable_file
  obtain ⟨parts, ft, ps, h1, h2⟩ := file_int_statistics exEnv exFOpts exTable exTable_numbered [exBatch] exTable_batches file h
  obtain ⟨st, s, k1, k2, -, k4, k5⟩ := h2 (.mk ⟨1, .int, .directV2, true, []⟩ []) (by simp [exTable, Schema.columns, columnsAll]) .int rfl
  have hn : columnNumbers (Schema.mk ⟨1, .int, .directV2, true, []⟩ []).node.id ([exBatch].flatMap Vec.tableRows) = [70000, 70000, 70000] := by
    rw [exBatch_rows]; decide +kernel
  rw [hn] at k4 k5
  exact ⟨file, parts, ft, ps, h, h1, st, s, k1, k2, k4, k5⟩

example : ∃ file parts ft ps, writeFile exEnv exFOpts exTable [exBatch] = .ok file ∧ FileLayout exEnv exFOpts exTable.columns file parts ft ps ∧
    ft.statistics.length = 3 := by
  obtain ⟨file, h, -⟩ := exTable_file
  obtain ⟨parts, ft, ps, h1, h2, -⟩ := file_column_history exEnv exFOpts exTable exTable_numbered [exBatch] exTable_batches file h
  exact ⟨file, parts, ft, ps, h, h1, h2⟩

/-- C95: a program that is stopped while it writes a second batch of the same rows. -/
example : ∃ w, writeBatches exEnv exFOpts exTable [exBatch] = .ok w ∧ ∃ (parts : List StripeParts) (lost : Nat), magic ++ parts.flatMap (·.bytes) <+: w.stripe.out ∧
    (parts.map (·.rows)).sum + lost = 4 := by
  obtain ⟨w, file, hw, hf⟩ := exBatch_closed
  obtain ⟨w', parts, lost, h1, h2, -, -, h3, -⟩ := interrupted_keeps_stripes exEnv exFOpts exTable [exBatch] w.stripe.out
    (.inClose w file hw hf (List.prefix_refl _) (by
      have h : writeFile exEnv exFOpts exTable ([exBatch] ++ []) = .ok file := by
        rw [writeFile_eq]; show (writeBatches exEnv exFOpts exTable [exBatch] >>= _) = _; rw [hw]; exact hf
      obtain ⟨w2, -, -, -, h1, -, h2, -⟩ := interrupted_prefix exEnv exFOpts exTable [exBatch] [] file h
      rw [hw] at h1; injection h1 with h1; subst h1; exact h2))
  exact ⟨w, hw, parts, lost, h2, h3⟩

/-- C67 before anything is assumed about the reader: the four rows are in one stripe. -/
example : ∃ file parts ft ps, ∃ (init : List (List Row)) (last : List Row), writeFile exEnv exFOpts exTable [exBatch] = .ok file ∧ FileLayout exEnv exFOpts exTable.columns file parts ft ps ∧
    parts.map (·.rows) = (init ++ [last]).map (·.length) ∧ init = [] ∧ last.length = 4 := by
  obtain ⟨file, h, -⟩ := exTable_file
  obtain ⟨parts, ft, ps, init, last, h1, h2, h3, -, h4, -⟩ := file_round_trip_partial exEnv runCodec_lossless exFOpts (by decide) (by decide) exTable exTable_numbered exTable_named exTable_tabular
    [exBatch] exTable_ids file h
  obtain rfl := h4 exBatch_fits
  refine ⟨file, parts, ft, ps, [], last, h, h1, h2, rfl, ?_⟩
  simp only [List.nil_append, List.flatten_cons, List.flatten_nil, List.append_nil] at h3
  rw [h3, exBatch_rows]
  rfl

example : ∃ file parts ft ps, ∃ stripes : List (List Row), writeFile exEnv exFOpts exTable [exBatch] = .ok file ∧ FileLayout exEnv exFOpts exTable.columns file parts ft ps ∧
    parts.map (·.rows) = stripes.map (·.length) ∧ stripes.length = 1 := by
  obtain ⟨file, h, -⟩ := exTable_file
  obtain ⟨parts, ft, ps, stripes, h1, h2, -, -, h3, -⟩ := file_opens exEnv runCodec_lossless exFOpts (by decide) (by decide) exTable exTable_numbered exTable_named exTable_tabular
    [exBatch] exTable_ids file h
  exact ⟨file, parts, ft, ps, stripes, h, h1, h2, h3 exBatch_fits⟩

/-- C60, C95: it opens, with four rows; and again with any bytes in front of it. -/
example : ∃ file r, writeFile exEnv exFOpts exTable [exBatch] = .ok file ∧ newReader exEnv file = .ok r ∧ r.numberOfRows = 4 ∧
    newReader exEnv ([1, 2, 3] ++ file) = .ok (r.on ([1, 2, 3] ++ file)) := by
  obtain ⟨file, h, hlen⟩ := exTable_file
  obtain ⟨parts, ft, ps, -, h1⟩ := closed_file_opens_partial exEnv runCodec_lossless plainProto_lossless exFOpts (by decide) (by decide) exTable exTable_numbered exTable_named
    [exBatch] (by decide) file h
  obtain ⟨r, h2, h3, -⟩ := h1 (by simp only [SmallTail]; omega)
  exact ⟨file, r, h, h2, h3, opens_behind exEnv _ file r h2⟩

/-- C36: the same table cannot be closed without compression. -/
example (file : Bytes) : writeFile exEnv ⟨⟨⟨.none, 10, false⟩, 2⟩, 1000⟩ exTable [exBatch] ≠ .ok file :=
  uncompressed_never_closes exEnv _ (by simp) exTable [exBatch] file

/-- C64: two bytes are no file. -/
example : extractFileTail exEnv [1, 2] = .err .other := by
  have := file_tail_short exEnv [1, 2] (by decide)
  simpa using this

/-- C81: the statistics of a nullable struct count the rows in which it is null. -/
example : ∃ file parts ft ps, writeFile exEnv ⟨⟨⟨.zlib, 100, false⟩, 2⟩, 1000⟩ exPoints [exPointBatch] = .ok file ∧
    FileLayout exEnv ⟨⟨⟨.zlib, 100, false⟩, 2⟩, 1000⟩ exPoints.columns file parts ft ps ∧
    ∃ st, ft.statistics[2]? = some (.struct st) ∧ st.numberOfValues = 4 ∧ exPoints.Numbered := by
  have h : (writeFile exEnv ⟨⟨⟨.zlib, 100, false⟩, 2⟩, 1000⟩ exPoints [exPointBatch]).isOk = true := by decide +kernel
  obtain ⟨file, h⟩ := Res.isOk_inv h
  obtain ⟨parts, ft, ps, h1, h2⟩ := file_struct_statistics exEnv _ exPoints rfl [exPointBatch] (by simpa using ⟨4, exPointBatch_shape⟩) file h
  obtain ⟨st, k1, -, k3, -⟩ := h2 _ (show (Schema.mk ⟨2, .struct, .direct, true, ["x", "y"]⟩ [.mk ⟨3, .double, .direct, false, []⟩ [], .mk ⟨4, .byte, .direct, true, []⟩ []]) ∈ exPoints.columns by
    simp [exPoints, Schema.columns, columnsAll]) rfl rfl
  refine ⟨file, parts, ft, ps, h, h1, st, k1, ?_, rfl⟩
  rw [k3]
  decide +kernel

end Goorc
