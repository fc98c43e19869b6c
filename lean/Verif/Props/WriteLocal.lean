import Verif.Proofs.WriteLocal
/-
C106: the bytes of a column depend on the values of this column, and on where the stripes are cut.
-/
namespace Goorc

/-- **C106** Two files are written with the same options; column `j` has the same schema in both, and the other columns are of any types and hold
anything. If the first `k + 1` stripes are cut at the same rows, and column `j` has the same in these rows, then it has the same streams, with
the same bytes, in stripe `k` of both files, whatever was written to the other columns, however the rows were put into batches, and
whatever came after. If all stripes are cut at the same rows and column `j` is the same throughout, it has the same statistics in the footers. -/
theorem column_bytes_local (E : Env) (o : FOpts) (s1 s2 : Schema) (b1 b2 : List Vec) (f1 f2 : Bytes) (j : Nat) (n : SchemaNode)
    (hs1 : s1.Numbered) (hs2 : s2.Numbered) (hn1 : (s1.columns.map (·.node))[j]? = some n) (hn2 : (s2.columns.map (·.node))[j]? = some n)
    (h1 : writeFile E o s1 b1 = .ok f1) (h2 : writeFile E o s2 b2 = .ok f2) :
    ∃ parts1 ft1 ps1 parts2 ft2 ps2, FileLayout E o s1.columns f1 parts1 ft1 ps1 ∧ FileLayout E o s2.columns f2 parts2 ft2 ps2 ∧
      (∀ (k : Nat) (p1 p2 : StripeParts), parts1[k]? = some p1 → parts2[k]? = some p2 →
        ft1.cuts.take (k + 1) = ft2.cuts.take (k + 1) →
        (columnWritten j b1).take (ft1.cuts.take (k + 1)).sum = (columnWritten j b2).take (ft1.cuts.take (k + 1)).sum →
        p1.streamsOf j = p2.streamsOf j) ∧
      (ft1.cuts = ft2.cuts → columnWritten j b1 = columnWritten j b2 → ft1.statistics[j]? = ft2.statistics[j]?) ∧
      ft1.cuts.sum = (columnWritten j b1).length ∧ ft2.cuts.sum = (columnWritten j b2).length := by
  obtain ⟨a0, c1, runs1, last1, ft1, ps1, x1, x2, x3, x4, x5, x6, x7⟩ := file_runs h1
  obtain ⟨d0, c2, runs2, last2, ft2, ps2, y1, y2, y3, y4, y5, y6, y7⟩ := file_runs h2
  refine ⟨_, ft1, ps1, _, ft2, ps2, x4, y4, ?_, ?_, ?_, ?_⟩
  all_goals
    have ids : ∀ s : Schema, s.Numbered → (s.columns.map (·.node)).map (·.id) = List.range (s.columns.map (·.node)).length := by
      intro s hs
      rw [List.map_map, List.length_map]; exact hs
    have lens : ∀ {s : Schema} {f : Bytes} {L : List WrittenStripe} {ft : FileFooter} {ps : PostScript}, FileLayout E o s.columns f (L.map (·.part)) ft ps →
        ∀ x ∈ L, ∀ s ∈ x.part.streams, s.1.length = s.2.length := fun h x hx => (h.sound _ (List.mem_map_of_mem hx)).lengths
    have cuts : ∀ {s : Schema} {f : Bytes} {L : List WrittenStripe} {ft : FileFooter} {ps : PostScript}, FileLayout E o s.columns f (L.map (·.part)) ft ps →
        (∀ x ∈ L, x.part.rows = x.rows.length) → ft.cuts = (L.map fun x => x.rows.map (onlyAt j)).map List.length := by
      intro s f L ft ps h hx
      rw [FileFooter.cuts, h.stripes, stripeTable_rows, List.map_map, List.map_map]
      exact List.map_congr_left fun x m => by simp [hx x m]
    have vals : ∀ {L : List WrittenStripe} {b : List Vec}, L.flatMap (·.rows) = b.flatMap Vec.rawRows → columnWritten j b = (L.map fun x => x.rows.map (onlyAt j)).flatten := by
      intro L b h
      rw [columnWritten_raw, ← h, List.map_flatMap, List.flatten_eq_flatMap, List.flatMap_map]
      simp [List.flatMap]
    have h0 : a0[j]? = d0[j]? := by
      obtain ⟨u, m1, m2⟩ := (newWriters_at x1).2 j n hn1
      obtain ⟨v, m3, m4⟩ := (newWriters_at y1).2 j n hn2
      rw [m2] at m4; injection m4 with m4; subst m4
      rw [m1, m3]
    have main := fun k z1 z2 => x2.streams y2 (newWriters_at x1).1 (newWriters_at y1).1 (ids s1 hs1) (ids s2 hs2) (lens x4) (lens y4) hn1 hn2 h0 (k := k) (x1 := z1) (x2 := z2)
    try rw [cuts x4 x6]
    try rw [cuts y4 y6]
    try rw [vals x5]
    try rw [vals y5]
  · intro k p1 p2 g1 g2 hc hv
    rw [List.getElem?_map] at g1 g2
    obtain ⟨z1, m1, rfl⟩ := Option.map_eq_some_iff.1 g1
    obtain ⟨z2, m2, rfl⟩ := Option.map_eq_some_iff.1 g2
    refine (main k z1 z2 m1 m2 fun i hi u v hu hv' => ?_).1
    have := same_pieces k _ _ hc hv i hi
    rw [List.getElem?_map, List.getElem?_map, hu, hv'] at this
    simpa using this
  · intro hc hv
    have hlen : (runs1 ++ [last1]).length = (runs2 ++ [last2]).length := by simpa using congrArg List.length hc
    have hl : runs1.length = runs2.length := by simpa using hlen
    have hall : ∀ i, i ≤ runs1.length → ∀ u v : WrittenStripe, (runs1 ++ [last1])[i]? = some u → (runs2 ++ [last2])[i]? = some v → u.rows.map (onlyAt j) = v.rows.map (onlyAt j) := by
      intro i hi u v hu hv'
      have := same_pieces runs1.length _ _ (congrArg (List.take (runs1.length + 1)) hc) (congrArg (List.take _) hv) i hi
      rw [List.getElem?_map, List.getElem?_map, hu, hv'] at this
      simpa using this
    have := (main runs1.length last1 last2 (by simp) (by rw [hl]; simp) hall).2 c1 c2 x3 y3
    rw [x7, y7, List.getElem?_map, List.getElem?_map, this]
  · rw [List.length_flatten]
  · rw [List.length_flatten]

/-- When nothing but other columns differs and all rows are in one stripe, the bytes of the column are the same. -/
theorem column_bytes_one_stripe (E : Env) (o : FOpts) (s1 s2 : Schema) (b1 b2 : List Vec) (f1 f2 : Bytes) (j : Nat) (n : SchemaNode)
    (hs1 : s1.Numbered) (hs2 : s2.Numbered) (hn1 : (s1.columns.map (·.node))[j]? = some n) (hn2 : (s2.columns.map (·.node))[j]? = some n)
    (h1 : writeFile E o s1 b1 = .ok f1) (h2 : writeFile E o s2 b2 = .ok f2) (hv : columnWritten j b1 = columnWritten j b2) :
    ∃ parts1 ft1 ps1 parts2 ft2 ps2, FileLayout E o s1.columns f1 parts1 ft1 ps1 ∧ FileLayout E o s2.columns f2 parts2 ft2 ps2 ∧
      (parts1.length = 1 → parts2.length = 1 → parts1.map (·.streamsOf j) = parts2.map (·.streamsOf j) ∧ ft1.statistics[j]? = ft2.statistics[j]?) := by
  obtain ⟨parts1, ft1, ps1, parts2, ft2, ps2, l1, l2, m1, m2, m3, m4⟩ := column_bytes_local E o s1 s2 b1 b2 f1 f2 j n hs1 hs2 hn1 hn2 h1 h2
  refine ⟨parts1, ft1, ps1, parts2, ft2, ps2, l1, l2, fun e1 e2 => ?_⟩
  obtain ⟨p1, rfl⟩ := List.length_eq_one_iff.1 e1
  obtain ⟨p2, rfl⟩ := List.length_eq_one_iff.1 e2
  have c1 : ft1.cuts = [(columnWritten j b1).length] := by
    rw [← m3, FileFooter.cuts, l1.stripes]; simp [stripeTable]
  have c2 : ft2.cuts = [(columnWritten j b2).length] := by
    rw [← m4, FileFooter.cuts, l2.stripes]; simp [stripeTable]
  have hc : ft1.cuts = ft2.cuts := by rw [c1, c2, hv]
  exact ⟨by simp [m1 0 p1 p2 rfl rfl (by rw [hc]) (by rw [hv])], m2 hc hv⟩

/-! ### Three doubles, beside other columns -/

def exLocalDoubles : Vec := .mk 1 .double (some ⟨[⟨false, .f64 1⟩, ⟨false, .f64 2⟩, ⟨false, .f64 3⟩], 3⟩) []

/-- Beside doubles. -/
def exLocalA : Schema := .mk ⟨0, .struct, .direct, false, ["x", "y"]⟩ [.mk ⟨1, .double, .direct, false, []⟩ [], .mk ⟨2, .double, .direct, false, []⟩ []]

def exLocalBatchA : Vec := .mk 0 .struct none [exLocalDoubles, .mk 2 .double (some ⟨[⟨false, .f64 7⟩, ⟨false, .f64 8⟩, ⟨false, .f64 9⟩], 3⟩) []]

/-- Beside strings, one of them null. -/
def exLocalB : Schema := .mk ⟨0, .struct, .direct, false, ["x", "s"]⟩ [.mk ⟨1, .double, .direct, false, []⟩ [], .mk ⟨2, .string, .directV2, true, []⟩ []]

def exLocalBatchB : Vec := .mk 0 .struct none [exLocalDoubles,
  .mk 2 .string (some ⟨[⟨false, .str [1, 2, 3, 4, 5, 6, 7, 8]⟩, ⟨true, .nil⟩, ⟨false, .str [9]⟩], 3⟩) []]

/-- Both files are written, with stripes of two rows and of one row; the doubles are the same, and so are their streams in both stripes. -/
example : ∃ f1 f2, writeFile exEnv ⟨⟨⟨.zlib, 100, false⟩, 2⟩, 20⟩ exLocalA [exLocalBatchA] = .ok f1 ∧ writeFile exEnv ⟨⟨⟨.zlib, 100, false⟩, 2⟩, 20⟩ exLocalB [exLocalBatchB] = .ok f2 ∧
    ∃ parts1 ft1 ps1 parts2 ft2 ps2, FileLayout exEnv ⟨⟨⟨.zlib, 100, false⟩, 2⟩, 20⟩ exLocalA.columns f1 parts1 ft1 ps1 ∧ FileLayout exEnv ⟨⟨⟨.zlib, 100, false⟩, 2⟩, 20⟩ exLocalB.columns f2 parts2 ft2 ps2 ∧
      (ft1.cuts = [2, 1] → ft2.cuts = [2, 1] → ∀ (p1 p2 : StripeParts) (k : Nat), parts1[k]? = some p1 → parts2[k]? = some p2 → p1.streamsOf 1 = p2.streamsOf 1) := by
  have key : (match writeFile exEnv ⟨⟨⟨.zlib, 100, false⟩, 2⟩, 20⟩ exLocalA [exLocalBatchA], writeFile exEnv ⟨⟨⟨.zlib, 100, false⟩, 2⟩, 20⟩ exLocalB [exLocalBatchB] with
    | .ok _, .ok _ => true | _, _ => false) = true := by decide +kernel
  split at key
  · rename_i f1 f2 h1 h2
    obtain ⟨parts1, ft1, ps1, parts2, ft2, ps2, l1, l2, m, -⟩ := column_bytes_local exEnv _ exLocalA exLocalB _ _ f1 f2 1 ⟨1, .double, .direct, false, []⟩ rfl rfl rfl rfl h1 h2
    refine ⟨f1, f2, h1, h2, parts1, ft1, ps1, parts2, ft2, ps2, l1, l2, fun c1 c2 p1 p2 k g1 g2 => m k p1 p2 g1 g2 (by rw [c1, c2]) ?_⟩
    have : columnWritten 1 [exLocalBatchA] = columnWritten 1 [exLocalBatchB] := by decide
    rw [this]
  · simp at key

/-- How the stripes of the two files are cut, and those of a file with the doubles alone. -/
example : (match newWriter exEnv ⟨⟨⟨.zlib, 100, false⟩, 2⟩, 20⟩ exLocalA >>= fun w => w.writes exEnv ⟨⟨⟨.zlib, 100, false⟩, 2⟩, 20⟩ [exLocalBatchA] >>= fun w => w.finish exEnv ⟨⟨⟨.zlib, 100, false⟩, 2⟩, 20⟩ with
      | .ok w => w.footer.cuts | _ => []) = [2, 1] ∧
    (match newWriter exEnv ⟨⟨⟨.zlib, 100, false⟩, 2⟩, 20⟩ exLocalB >>= fun w => w.writes exEnv ⟨⟨⟨.zlib, 100, false⟩, 2⟩, 20⟩ [exLocalBatchB] >>= fun w => w.finish exEnv ⟨⟨⟨.zlib, 100, false⟩, 2⟩, 20⟩ with
      | .ok w => w.footer.cuts | _ => []) = [2, 1] ∧
    (match newWriter exEnv ⟨⟨⟨.zlib, 100, false⟩, 2⟩, 20⟩ exDoubles >>= fun w => w.writes exEnv ⟨⟨⟨.zlib, 100, false⟩, 2⟩, 20⟩ [exDoubleBatch] >>= fun w => w.finish exEnv ⟨⟨⟨.zlib, 100, false⟩, 2⟩, 20⟩ with
      | .ok w => w.footer.cuts | _ => []) = [3, 0] := by decide +kernel

/-- Where the stripes are cut does matter. The doubles are the first streams of all these files, behind the letters ORC: beside other columns the stripe is
full after two rows, and without them after three, so that other bytes are there, although the column was written the same. -/
theorem column_bytes_cuts : ∃ (E : Env) (o : FOpts) (s1 s2 : Schema) (b1 b2 : List Vec) (f1 f2 : Bytes), s1.Numbered ∧ s2.Numbered ∧
    (s1.columns.map (·.node))[1]? = (s2.columns.map (·.node))[1]? ∧ writeFile E o s1 b1 = .ok f1 ∧ writeFile E o s2 b2 = .ok f2 ∧ columnWritten 1 b1 = columnWritten 1 b2 ∧
    f1[3]? ≠ f2[3]? := by
  have key : (match writeFile exEnv ⟨⟨⟨.zlib, 100, false⟩, 2⟩, 20⟩ exLocalA [exLocalBatchA], writeFile exEnv ⟨⟨⟨.zlib, 100, false⟩, 2⟩, 20⟩ exDoubles [exDoubleBatch] with
    | .ok f1, .ok f2 => decide (f1[3]? ≠ f2[3]?) | _, _ => false) = true := by decide +kernel
  split at key
  · rename_i f1 f2 h1 h2
    exact ⟨exEnv, _, exLocalA, exDoubles, _, _, f1, f2, rfl, rfl, rfl, h1, h2, by decide, of_decide_eq_true key⟩
  · simp at key

end Goorc
