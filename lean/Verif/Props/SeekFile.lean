import Verif.Proofs.SeekFile
import Verif.Props.ForeignFile
/-
C86: seeking in files of other writers: the column readers of a stripe, and the reader of batches.
-/
namespace Goorc

section
variable {ρ χ : Type}

/-- **C58, exact** With an index stride, from a reader that has not been used: `Seek` of row `r` of a stripe succeeds, and the next batch has rows of the
FIRST stripe, whatever stripe the row is in. If it is in the first, they begin with row `r` modulo the stride. -/
theorem seek_next_exact {X : RdOps χ} {hasNulls : List Bool} {B : Nat} {Shape : Vec → Prop} {P : χ → List ρ → Prop}
    {rowsOf : Vec → List ρ} (D : Delivers X hasNulls B Shape P rowsOf) (fuel : Nat) (br : BatchReader χ) (before : List (List ρ)) (all : List ρ)
    (after : List (List ρ)) (first : List ρ) (hf : br.Fresh hasNulls P (before ++ all :: after))
    (hs : List.Forall₂ (StripeReader.Seekable X P) br.stripes (before ++ all :: after)) (vec : Vec) (hv : Shape vec) (hB : 1 ≤ B)
    (hfirst : (before ++ all :: after).head? = some first) (h3 : 2 ≤ (before ++ all :: after).flatten.length) (r : Nat) (hr : r < all.length) (hS : br.indexStride ≠ 0)
    (q : Nat) (hq : q = if before = [] then r % br.indexStride else 0) (hfit : q + min B first.length ≤ first.length) :
    ∃ br' br'' stop vec', br.seek X (before.flatten.length + r) = .ok br' ∧ br'.next X (fuel + 1) vec = .ok (stop, vec', br'') ∧
      rowsOf vec' = (first.drop q).take (min B first.length) := by
  obtain ⟨s, x, g1, g2, g3⟩ := ((seek_exact br _ hs hf.total (before.flatten.length + r)).2 before all after r rfl rfl hr).2 hS
  -- the first stripe, after the call
  have hs0 : ∃ s0 ss x0, br.stripes.set before.length { s with reader := some x } = s0 :: ss ∧ s0.hasNulls = hasNulls ∧ s0.cursor = 0 ∧ s0.numberOfRows = first.length ∧
      s0.reader = some x0 ∧ P x0 (first.drop q) := by
    have he := hf.each
    cases before with
    | nil =>
      simp only [List.nil_append, List.head?_cons, Option.some.injEq] at hfirst he
      subst hfirst
      simp only [List.length_nil] at g1 ⊢
      generalize br.stripes = ss at he g1
      cases he with
      | cons h _ =>
        simp only [List.getElem?_cons_zero, Option.some.injEq] at g1
        rw [if_pos rfl] at hq
        subst g1 hq
        exact ⟨_, _, x, rfl, h.1, h.2.1, h.2.2.1, rfl, g3⟩
    | cons b before =>
      simp only [List.cons_append, List.head?_cons, Option.some.injEq] at hfirst he
      subst hfirst
      generalize br.stripes = ss at he g1
      cases he with
      | cons h _ =>
        rw [if_neg (by simp)] at hq
        subst hq
        obtain ⟨x0, h1, h2⟩ := h.2.2.2
        exact ⟨_, _, x0, rfl, h.1, h.2.1, h.2.2.1, h1, by simpa using h2⟩
  obtain ⟨s0, ss, x0, i1, i2, i3, i4, i5, i6⟩ := hs0
  obtain ⟨cl, c1, c2, c3, c4, c5⟩ := D.cleared vec hv
  generalize hm : min B first.length = m at *
  have hl : ((first.drop q).take m).length = m := by simp; omega
  obtain ⟨sized, vec', x', d1, d2, d3, d4, d5, d6, d7⟩ :=
    D.next cl c2 c4 x0 ((first.drop q).take m) ((first.drop q).drop m) (by omega) (by rw [List.take_append_drop]; exact i6)
  rw [hl] at d1 d6
  have hprep : s0.prepareVector cl = .ok sized := by
    simp only [StripeReader.prepareVector, c4, c5, i2, i3, i4]
    rw [← d1]
    congr 1
    split <;> omega
  have hn : s0.next X cl = .ok (decide (m + 1 ≥ first.length), vec', { s0 with reader := some x', cursor := m }) := by
    simp only [StripeReader.next, hprep, Res.ok_bind, i5, d2]
    simp only [d6, i3, i4, Nat.zero_add]
    rfl
  have hnext : ∃ br'' stop, ({ br with stripes := br.stripes.set before.length { s with reader := some x } } : BatchReader χ).next X (fuel + 1) vec = .ok (stop, vec', br'') := by
    have hcur : ¬ (br.cursor ≥ br.numberOfRows - 1) := by rw [hf.cursor, hf.total]; omega
    simp only [BatchReader.next, c1, Res.ok_bind]
    rw [if_neg hcur]
    have hloop : ∃ br3, ({ br with stripes := br.stripes.set before.length { s with reader := some x } } : BatchReader χ).nextLoop X (fuel + 1) cl = .ok (vec', br3) := by
      unfold BatchReader.nextLoop
      simp only [hf.index, i1, show ¬ ((0 : Int) < 0) by decide, if_false, Int.toNat_zero, List.getElem?_cons_zero, hn, Res.ok_bind]
      by_cases hend : m + 1 ≥ first.length
      · simp only [decide_eq_true hend, if_true]
        exact ⟨_, rfl⟩
      · simp only [decide_eq_false hend, Bool.false_eq_true, if_false]
        rw [if_pos (by omega)]; exact ⟨_, rfl⟩
    obtain ⟨br3, e⟩ := hloop
    rw [e]
    exact ⟨_, _, rfl⟩
  obtain ⟨br'', stop, e⟩ := hnext
  exact ⟨_, br'', stop, vec', g2, e, d5⟩

end

/-- Three rows and four: after `Seek(4)` the first batch has rows 0 and 1; after `Seek(2)`, with a stride of two, the same; after `Seek(1)`, rows 1 and 2. -/
example : (∃ br' br'' stop vec', (listReader 2 [numbered 0 3, numbered 3 4]).seek listOps 4 = .ok br' ∧
      br'.next listOps 1 (listVec 2) = .ok (stop, vec', br'') ∧ listRowsOf vec' = numbered 0 2) ∧
    ∃ br' br'' stop vec', (listReader 2 [numbered 0 3, numbered 3 4]).seek listOps 1 = .ok br' ∧
      br'.next listOps 1 (listVec 2) = .ok (stop, vec', br'') ∧ listRowsOf vec' = numbered 1 2 :=
  ⟨seek_next_exact (list_delivers 2) 0 (listReader 2 [numbered 0 3, numbered 3 4]) [numbered 0 3] (numbered 3 4) [] (numbered 0 3) (listReader_fresh 2 _)
    (listReader_seekable 2 _) (listVec 2) (listVec_shape 2) (by decide) rfl (by decide) 1 (by decide) (by decide) 0 rfl (by decide),
   seek_next_exact (list_delivers 2) 0 (listReader 2 [numbered 0 3, numbered 3 4]) [] (numbered 0 3) [numbered 3 4] (numbered 0 3) (listReader_fresh 2 _)
    (listReader_seekable 2 _) (listVec 2) (listVec_shape 2) (by decide) rfl (by decide) 1 (by decide) (by decide) 1 rfl (by decide)⟩

variable {E : Env} {s : Schema} {file : Bytes} {parts : List (List Row × StripeFooter)} {ps : PostScript} {ft : FileFooter} {content metadata fb pb : Bytes}

/-- The batch reader of a file of any writer can seek, if there are no dates among the chosen columns. -/
theorem foreign_file_seekable (h : FileLaid E s file parts ps ft content metadata fb pb) (num : s.Numbered) (named : s.Named) (tab : s.Columnar)
    (once : s.NullsOnce) (hfit : ∀ p ∈ parts, NullsFit s p.1 ∧ p.2.Flags s) (hlen : fb.length + pb.length + 1 ≤ 16384)
    (hreach : List.Forall₂ (fun info p => ∃ index data, StripeLaid E ps.compression ps.chunkSize s file info p.1 p.2 index data ∧
      info.Reachable ps.compression ps.chunkSize s file data) ft.stripes parts)
    (bo : BatchOption) (hsel : bo.Selects s) (hrow : bo.rowSize ≠ 0) (hdate : ∀ c ∈ s.columns, bo.isInclude c.node.id = true → c.node.kind ≠ .date) (fuel : Nat) :
    ∃ r br, newReader E file = .ok r ∧ TypesOf s r.schemas ∧ r.createBatchReader E bo = .ok br ∧ br.indexStride = ft.rowIndexStride ∧
      br.Fresh (r.schemas.map (·.hasNulls)) (RowsLeft .any E.c bo s r.schemas.length) (parts.map fun p => p.1.map (Row.only (s.leaves bo))) ∧
      List.Forall₂ (StripeReader.Seekable (rdOps E.c fuel r.schemas.length) (RowsLeft .any E.c bo s r.schemas.length)) br.stripes
        (parts.map fun p => p.1.map (Row.only (s.leaves bo))) := by
  obtain ⟨types, k1, k3, k4⟩ := fileLaid_created h num named hlen
  obtain ⟨rs, m1, m2⟩ := k4 bo hrow (fun x rows => StripeReader.Fresh (types.map (·.hasNulls)) (RowsLeft .any E.c bo s types.length) x rows ∧
      StripeReader.Seekable (rdOps E.c fuel types.length) (RowsLeft .any E.c bo s types.length) x rows) (by
    rw [List.forall₂_iff_get] at hreach ⊢
    refine ⟨hreach.1, fun k hk hk' => ?_⟩
    obtain ⟨index, data, a, a'⟩ := hreach.2 k hk hk'
    simp only [List.get_eq_getElem] at a a' ⊢
    have hmem : parts[k] ∈ parts := List.getElem_mem hk'
    obtain ⟨x, b1, b2⟩ := stripeLaid_rewinds (ro := ⟨ps.compression, ps.chunkSize, ft.rowIndexStride⟩) a num tab once (hfit _ hmem).2 hsel k3 (hfit _ hmem).1 a' hdate
    refine ⟨_, b1, ⟨rfl, rfl, by simp, x, rfl, ?_⟩, by simp, x, ?_⟩
    · exact RdHas.rowsLeft hsel.1 0 (RdHas.weaken s _ none x b2)
    · obtain ⟨x0, g1, g2⟩ := RdHas.seek (fuel := fuel) (k := 0) (row := 0) ⟨rfl, rfl⟩ s _ none x x _ k3.typeNulls b2 b2
      refine ⟨x0, rfl, g1, fun n hn => ?_⟩
      obtain ⟨x1, g3, g4⟩ := RdHas.skip (fuel := fuel) s _ x0 _ parts[k].1.length n once (fun j => by simp) (by simpa using hn) g2
      exact ⟨x1, g3, RdHas.rowsLeft hsel.1 n (RdHas.weaken s _ none x1 (by simpa using g4))⟩)
  refine ⟨_, _, k1, k3, m1, rfl, ⟨rfl, rfl, rfl, m2.imp fun _ _ h => h.1⟩, m2.imp fun _ _ h => h.2⟩

/-- **C86, exact** Seeking in a file of any writer, with column readers that can be sent back (no dates; streams that can be sought in, C33): a row that does not
exist is an error; a file without an index stride makes `Seek` panic; otherwise the batch read next has rows of the FIRST stripe: from row
`r` modulo the stride if the row is row `r` of the first stripe, and from row 0 if it is in another stripe. -/
theorem foreign_seek_exact (h : FileLaid E s file parts ps ft content metadata fb pb) (num : s.Numbered) (named : s.Named) (tab : s.Columnar)
    (once : s.NullsOnce) (hfit : ∀ p ∈ parts, NullsFit s p.1 ∧ p.2.Flags s) (hlen : fb.length + pb.length + 1 ≤ 16384)
    (hreach : List.Forall₂ (fun info p => ∃ index data, StripeLaid E ps.compression ps.chunkSize s file info p.1 p.2 index data ∧
      info.Reachable ps.compression ps.chunkSize s file data) ft.stripes parts)
    (bo : BatchOption) (hsel : bo.Selects s) (hrow : bo.rowSize ≠ 0) (hmake : bo.notCreateVector = false)
    (hdate : ∀ c ∈ s.columns, bo.isInclude c.node.id = true → c.node.kind ≠ .date) (fuel row : Nat) :
    ((parts.flatMap (·.1)).length ≤ row → seekFile E fuel s bo row file = .err .other) ∧
    (row < (parts.flatMap (·.1)).length → ft.rowIndexStride = 0 → seekFile E fuel s bo row file = .panic) ∧
    (∀ first rest, parts.map (·.1) = first :: rest → row < (first :: rest).flatten.length → 2 ≤ (first :: rest).flatten.length → ft.rowIndexStride ≠ 0 →
      ∀ q, q = (if row < first.length then row % ft.rowIndexStride else 0) → q + min bo.rowSize first.length ≤ first.length →
      seekFile E fuel s bo row file = .ok (((first.drop q).take (min bo.rowSize first.length)).map (Row.only (s.leaves bo)))) := by
  obtain ⟨r, br, e1, e2, e3, e4, e5, e6⟩ := foreign_file_seekable h num named tab once hfit hlen hreach bo hsel hrow hdate fuel
  obtain ⟨v, f1, f2⟩ := createVector_shape tab hsel hrow hmake
  have D := rd_delivers .any E.c fuel bo s r.schemas.length hsel.1 (r.schemas.map (·.hasNulls)) (fun c hc _ => e2.hasNulls c hc)
    (num.leafIds.sublist (leaves_sublist bo s)) bo.rowSize
  have hlength : ∀ l : List (List Row × StripeFooter), (l.map fun p => p.1.map (Row.only (s.leaves bo))).flatten.length = (l.flatMap (·.1)).length := by
    intro l
    simp [List.length_flatten, List.length_flatMap, Function.comp_def]
  have hsplit : row < (parts.flatMap (·.1)).length → ∃ before p after t, parts = before ++ p :: after ∧ row = (before.flatMap (·.1)).length + t ∧ t < p.1.length := by
    have : ∀ (l : List (List Row × StripeFooter)) row, row < (l.flatMap (·.1)).length →
        ∃ before p after t, l = before ++ p :: after ∧ row = (before.flatMap (·.1)).length + t ∧ t < p.1.length := by
      intro l
      induction l with
      | nil => intro row h; simp at h
      | cons a l ih =>
        intro row h
        by_cases hlt : row < a.1.length
        · exact ⟨[], a, l, row, rfl, by simp, hlt⟩
        · obtain ⟨before, p, after, t, rfl, h2, h3⟩ := ih (row - a.1.length) (by simp at h ⊢; omega)
          refine ⟨a :: before, p, after, t, rfl, ?_, h3⟩
          simp only [List.flatMap_cons, List.length_append]; omega
    exact this parts row
  have hx := seek_exact br _ e6 e5.total row
  refine ⟨fun hle => ?_, fun hlt h0 => ?_, ?_⟩
  · have := hx.1 (by rw [hlength]; exact hle)
    simp only [seekFile, e1, e3, f1, this, Res.ok_bind]
    rfl
  · obtain ⟨before, p, after, t, rfl, ht1, ht2⟩ := hsplit hlt
    have := (hx.2 (before.map fun p => p.1.map (Row.only (s.leaves bo))) (p.1.map (Row.only (s.leaves bo))) (after.map fun p => p.1.map (Row.only (s.leaves bo))) t
      (by simp) (by rw [hlength]; exact ht1) (by simpa using ht2)).1 (by rw [e4]; exact h0)
    simp only [seekFile, e1, e3, f1, this, Res.ok_bind]
    rfl
  · intro first rest hparts hlt h2 hS q hq hqfit
    have htot : (first :: rest).flatten.length = (parts.flatMap (·.1)).length := by
      rw [← hparts, List.flatMap_def]
    obtain ⟨before, p, after, t, rfl, ht1, ht2⟩ := hsplit (by rw [← htot]; exact hlt)
    have hmap : (before ++ p :: after).map (fun p => p.1.map (Row.only (s.leaves bo))) = (before.map fun p => p.1.map (Row.only (s.leaves bo))) ++
      p.1.map (Row.only (s.leaves bo)) :: (after.map fun p => p.1.map (Row.only (s.leaves bo))) := by simp
    rw [hmap] at e5 e6
    obtain ⟨br', br'', stop, vec', g1, g2, g3⟩ := seek_next_exact D fuel br _ _ _ (first.map (Row.only (s.leaves bo))) e5 e6 v ⟨_, f2⟩ (Nat.one_le_iff_ne_zero.2 hrow)
      (by
        cases before with
        | nil => simp only [List.nil_append, List.map_cons, List.cons.injEq] at hparts; simp [hparts.1]
        | cons b before => simp only [List.cons_append, List.map_cons, List.cons.injEq] at hparts; simp [hparts.1])
      (by rw [← hmap, hlength, ← htot]; exact h2) t (by simpa using ht2) (by rw [e4]; exact hS) q
      (by
        rw [hq, e4]
        cases before with
        | nil =>
          simp only [List.nil_append, List.map_cons, List.cons.injEq] at hparts
          simp only [List.flatMap_nil, List.length_nil, Nat.zero_add] at ht1
          simp only [List.map_nil, if_true]
          rw [if_pos (by rw [← hparts.1, ht1]; exact ht2), ht1]
        | cons b before =>
          simp only [List.cons_append, List.map_cons, List.cons.injEq] at hparts
          rw [if_neg (by rw [← hparts.1, ht1]; simp only [List.flatMap_cons, List.length_append]; omega), if_neg (by simp)])
      (by simpa using hqfit)
    rw [hlength, ← ht1] at g1
    simp only [seekFile, e1, e3, f1, g1, g2, Res.ok_bind, Res.pure_eq, g3, List.length_map]
    rw [← List.map_drop, ← List.map_take]

theorem seekLoop_fails {χ : Type} {X : RdOps χ} (br : BatchReader χ) (row : Nat) (hx : ∀ s ∈ br.stripes, ∀ x, s.reader = some x → ∀ x', X.seekStride x 0 ≠ .ok x') :
    ∀ br', br.seek X row ≠ .ok br' := by
  have hloop : ∀ (ss : List (StripeReader χ)) (i rows : Nat), (∀ s ∈ ss, ∀ x, s.reader = some x → ∀ x', X.seekStride x 0 ≠ .ok x') → ∀ br', br.seekLoop X row i rows ss ≠ .ok br' := by
    intro ss
    induction ss with
    | nil => intro i rows _ br' h; simp [BatchReader.seekLoop] at h
    | cons s ss ih =>
      intro i rows hs br' h
      simp only [BatchReader.seekLoop] at h
      split at h
      · obtain ⟨s', h1, -⟩ := Res.bind_ok_inv h
        simp only [StripeReader.seek] at h1
        obtain ⟨off, -, h1⟩ := Res.bind_ok_inv h1
        split at h1
        · cases h1
        · rename_i x hx
          obtain ⟨x', h2, -⟩ := Res.bind_ok_inv h1
          exact hs s (by simp) x hx x' h2
      · exact ih _ _ (fun s hm => hs s (by simp [hm])) br' h
  intro br' h
  simp only [BatchReader.seek] at h
  split at h
  · cases h
  · exact hloop _ _ _ hx br' h

/-- **C86, refuted for dates** In a file of any writer of which a date column is read, `Seek` of no row succeeds. -/
theorem foreign_seek_dates_fails (h : FileLaid E s file parts ps ft content metadata fb pb) (num : s.Numbered) (named : s.Named) (tab : s.Columnar)
    (once : s.NullsOnce) (hfit : ∀ p ∈ parts, NullsFit s p.1 ∧ p.2.Flags s) (hlen : fb.length + pb.length + 1 ≤ 16384)
    (bo : BatchOption) (hsel : bo.Selects s) (hrow : bo.rowSize ≠ 0) (d : Schema) (hd : d ∈ s.columns) (hdate : d.node.kind = .date) (hread : d.node.id ∈ s.leaves bo)
    (fuel row : Nat) (rows : List Row) : seekFile E fuel s bo row file ≠ .ok rows := by
  have hone : ∀ d' ∈ s.columns, d'.node.id = d.node.id → d' = d := by
    intro d' hd' e
    obtain ⟨i, hi, rfl⟩ := List.mem_iff_getElem.1 hd'
    obtain ⟨k, hk, rfl⟩ := List.mem_iff_getElem.1 hd
    rw [numbered_at num, numbered_at num] at e
    subst e; rfl
  obtain ⟨types, k1, k3, k4⟩ := fileLaid_created h num named hlen
  obtain ⟨rs, m1, m2⟩ := k4 bo hrow (fun x _ => ∀ y, x.reader = some y → ∀ y', (rdOps E.c fuel types.length).seekStride y 0 ≠ .ok y') (by
    have hall := h.stripes
    rw [List.forall₂_iff_get] at hall ⊢
    refine ⟨hall.1, fun k hk hk' => ?_⟩
    obtain ⟨index, data, a⟩ := hall.2 k hk hk'
    simp only [List.get_eq_getElem] at a ⊢
    have hmem : parts[k] ∈ parts := List.getElem_mem hk'
    obtain ⟨x, b1, b2⟩ := stripeLaid_opensAs (K := dateKeep d.node.id) (ro := ⟨ps.compression, ps.chunkSize, ft.rowIndexStride⟩) a num tab once (hfit _ hmem).2 hsel k3 (hfit _ hmem).1
      (fun d' hd' enc t hn kind ix hs e => by
        rw [hone d' hd' e, hdate] at hs
        cases hs; rfl) (fun _ _ _ => trivial)
    refine ⟨_, b1, fun y hy => ?_⟩
    cases hy
    exact RdHas.dates s _ none x hread (fun d' hd' e => by rw [hone d' hd' e, hdate]; decide) b2)
  intro hok
  simp only [seekFile, k1, Res.ok_bind, m1] at hok
  obtain ⟨v, -, hok⟩ := Res.bind_ok_inv hok
  obtain ⟨br', h2, -⟩ := Res.bind_ok_inv hok
  refine seekLoop_fails _ row ?_ br' h2
  intro x hx
  obtain ⟨i, hi, rfl⟩ := List.mem_iff_getElem.1 hx
  rw [List.forall₂_iff_get] at m2
  exact m2.2 i hi (by rw [← m2.1]; exact hi)

/-- **C86** The column readers of a stripe of any writer, with row indexes for every column, asked for anything: rows, rows to pass over, row groups. As long as
they stay within the stripe, `SeekStride(k)` goes to the first row of row group `k - 1`, in all columns together; `SeekStride(0)` goes to the first
row, if none of the columns has dates. What is delivered are the rows from there on, restricted to the chosen columns. -/
theorem foreign_stripe_roams {ro : ROpts} {info : StripeInfo} {rows : List Row} {f : StripeFooter} {index data : List StreamInfo} {bo : BatchOption}
    {types : List RdType} {stride groups : Nat} (h : StripeLaid E ro.kind ro.chunkSize s file info rows f index data)
    (hi : StripeIndexed E ro.kind ro.chunkSize s file info rows f index data stride groups) (num : s.Numbered) (tab : s.Columnar)
    (once : s.NullsOnce) (hflags : f.Flags s) (hsel : bo.Selects s) (ht : TypesOf s types) (hfit : NullsFit s rows)
    (hreach : info.Reachable ro.kind ro.chunkSize s file data) (ops : List StripeOp) (fuel : Nat)
    (hops : StaysIn bo s (fun k => (k - 1) * stride)
      (fun k => k ≤ groups ∧ (k = 0 → ∀ c ∈ s.columns, bo.isInclude c.node.id = true → c.node.kind ≠ .date)) rows.length 0 ops) :
    ∃ vs, roamStripe E fuel ro bo file types info ops = .ok vs ∧
      vs.map Vec.tableRows = visited (fun k => (k - 1) * stride) (rows.map (Row.only (s.leaves bo))) 0 ops := by
  obtain ⟨x, b1, b2⟩ := stripeIndexed_roams (goes := fun k row => (k ≤ groups ∧ (k = 0 → ∀ c ∈ s.columns, bo.isInclude c.node.id = true → c.node.kind ≠ .date)) ∧
    row = (k - 1) * stride) h hi num tab once hflags hsel ht hfit hreach (fun k row hg => ⟨hg.1.1, hg.2, hg.1.2⟩)
  obtain ⟨vs, g1, g2⟩ := RdHas.roams (fuel := fuel) (row := fun k => (k - 1) * stride) hsel.1 once ht.typeNulls (fun k hk => ⟨hk, rfl⟩) x b2 ops 0 x hops (by simpa using b2)
  exact ⟨vs, by simp only [roamStripe, b1, Res.ok_bind, g1], g2⟩

local instance : DecidableEq Row := inferInstanceAs (DecidableEq (List _))
deriving instance DecidableEq for LaidStream

theorem exNamed_reachable : List.Forall₂ (fun info p => ∃ index data, StripeLaid (exNamedEnv true) tinyScript.compression tinyScript.chunkSize exNamed (exNamedFile true) info p.1 p.2 index data ∧
    info.Reachable tinyScript.compression tinyScript.chunkSize exNamed (exNamedFile true) data) (exInfos true) (exNamedParts true) := by
  refine .cons ⟨_, _, exNamed_first true, ?_⟩ (.cons ⟨_, _, exNamed_second true, ?_⟩ .nil)
  all_goals
    intro c hc
    refine .inr ⟨rfl, ?_⟩
    revert c
    decide +kernel

/-- **C86, refuted** A file of another writer with two stripes, of three rows and two, and an index stride. After `Seek(3)`, the first row of the second stripe, what
is read is row 0; `Seek(1)` works. -/
theorem foreign_file_seek_false :
    FileLaid (exNamedEnv true) exNamed (exNamedFile true) (exNamedParts true) tinyScript (tinyFooter exNamed (exInfos true))
      ([0x4f#8, 0x52#8, 0x43#8] ++ exNamedBody true) [] [0xf0#8] [0xf1#8] ∧
    seekFile (exNamedEnv true) 10 exNamed ⟨[], 1, false⟩ 3 (exNamedFile true) = .ok (exNamedRows.flatten.take 1) ∧
    seekFile (exNamedEnv true) 10 exNamed ⟨[], 1, false⟩ 1 (exNamedFile true) = .ok ((exNamedRows.flatten.drop 1).take 1) ∧
    (exNamedRows.flatten.drop 3).take 1 ≠ exNamedRows.flatten.take 1 := by
  have h := foreign_seek_exact (exNamed_laid true)
    (by unfold Schema.Numbered; decide +kernel) (by unfold Schema.Named; decide +kernel) exNamed_columnar (by unfold Schema.NullsOnce; decide +kernel)
    (fun p hp => ⟨exNamed_fits true p hp, by revert p; unfold StripeFooter.Flags; decide +kernel⟩) (by decide) exNamed_reachable ⟨[], 1, false⟩
    (by unfold BatchOption.Selects; decide +kernel) (by decide) rfl (by decide +kernel) 10
  refine ⟨exNamed_laid true, ?_, ?_, by decide +kernel⟩
  · rw [(h 3).2.2 _ _ rfl (by decide +kernel) (by decide +kernel) (by decide) 0 (by decide +kernel) (by decide +kernel)]
    rfl
  · rw [(h 1).2.2 _ _ rfl (by decide +kernel) (by decide +kernel) (by decide) 1 (by decide +kernel) (by decide +kernel)]
    rfl

/-! ### A file with dates -/

/-- One column of dates. -/
def exDays : Schema := .mk ⟨0, .struct, .direct, false, ["d"]⟩ [.mk ⟨1, .date, .directV2, false, []⟩ []]

/-- Its only stripe. -/
def exDaysFooter : StripeFooter := ⟨[⟨.data, 1, 4⟩], [.direct, .directV2]⟩

/-- The days 7 and 8. -/
def exDaysFile : Bytes := tinyFile [0xc0#8, 0x01#8, 0x0e#8, 0x02#8, 0x00#8]

/-- The environment of the file. -/
def exDaysEnv : Env := tinyEnv [exDaysFooter] (tinyFooter exDays [⟨3, 0, 4, 1, 2⟩]) tinyScript

/-- Its rows. -/
def exDaysRows : List Row := [[(1, some (midnight 7))], [(1, some (midnight 8))]]

theorem exDays_stripe : StripeLaid exDaysEnv .none (256 * 1024) exDays exDaysFile ⟨3, 0, 4, 1, 2⟩ exDaysRows exDaysFooter [] exDaysFooter.streams where
  count := rfl
  inFile := by decide +kernel
  footerAt := ⟨[0#8], ⟨by decide, by decide +kernel⟩, rfl⟩
  listed := rfl
  existing := by decide
  indexes := by simp
  indexLength := rfl
  indexAt := by simp [startsFrom]
  noIndex := by decide +kernel
  dataLength := rfl
  columns := by
    have hfits : ∀ p ∈ startsFrom (3 + 0) exDaysFooter.streams, p.2 + p.1.length ≤ exDaysFile.length := by decide +kernel
    intro c hc
    simp only [exDays, Schema.columns, columnsAll, List.append_nil, List.mem_cons, List.not_mem_nil, or_false] at hc
    rcases hc with rfl | rfl
    · refine ⟨.direct, rfl, _, none, by simp, .inl ⟨rfl, rfl, plain_laid _ _ (by decide) _ _ _ [] none hfits (by decide +kernel) ?_ (by simp),
        by simp [exDays, node_mk]⟩⟩
      intro k; cases k <;> decide +kernel
    · refine ⟨.directV2, rfl, _, none, by simp [node_mk], .inr ⟨.date, .date,
        plain_laid _ _ (by decide) _ _ _ [.data] none hfits (by decide +kernel) ?_ (by simp), by unfold Flagged; decide +kernel, ?_⟩⟩
      · intro k; cases k <;> decide +kernel
      · exact ⟨[.fixedDelta 2 7 1], ⟨by simp [RleBlock.WF, InRange], by decide +kernel⟩, by simp [RleBlock.Handled, InRange], by decide +kernel, by decide +kernel⟩

/-- No row of this file can be sought. -/
example (fuel row : Nat) (rows : List Row) : seekFile exDaysEnv fuel exDays ⟨[], 10, false⟩ row exDaysFile ≠ .ok rows := by
  refine foreign_seek_dates_fails (parts := [(exDaysRows, exDaysFooter)])
    (tiny_laid exDays _ _ _ _ rfl (by simp) (by simp [exDaysRows]) (.cons ⟨_, _, exDays_stripe⟩ .nil)) (by unfold Schema.Numbered; decide +kernel)
    (by unfold Schema.Named; decide +kernel) ⟨by decide +kernel, by decide +kernel, ?_⟩ (by unfold Schema.NullsOnce; decide +kernel) ?_ (by decide) ⟨[], 10, false⟩
    (by unfold BatchOption.Selects; decide +kernel) (by decide) (.mk ⟨1, .date, .directV2, false, []⟩ []) (by simp [exDays, Schema.columns, columnsAll]) rfl (by decide +kernel) fuel row rows
  · intro c hc hn d hd
    cases hc with
    | here => cases hn
    | down _ _ _ _ _ below => cases below; cases hn
  · intro p hp
    simp only [List.mem_singleton] at hp
    subst hp
    exact ⟨⟨by decide +kernel, by decide +kernel, by decide +kernel⟩, by unfold StripeFooter.Flags; decide +kernel⟩

/-! ### A stripe with row indexes -/

/-- Two tinyint columns, one with nulls. -/
def exGroups : Schema := .mk ⟨0, .struct, .direct, false, ["x", "y"]⟩ [.mk ⟨1, .byte, .direct, true, []⟩ [], .mk ⟨2, .byte, .direct, false, []⟩ []]

/-- Row groups of two rows, and an index for every column. -/
def exGroupsFooter : StripeFooter :=
  ⟨[⟨.rowIndex, 0, 1⟩, ⟨.rowIndex, 1, 1⟩, ⟨.rowIndex, 2, 1⟩, ⟨.present, 1, 2⟩, ⟨.data, 1, 4⟩, ⟨.data, 2, 5⟩], [.direct, .direct, .direct]⟩

/-- The stripe. -/
def exGroupsFile : Bytes :=
  tinyFile [0xe0#8, 0xe1#8, 0xe2#8, 0xff#8, 0xd0#8, 0xfd#8, 0x05#8, 0x06#8, 0x07#8, 0xfc#8, 0x01#8, 0x02#8, 0x03#8, 0x04#8, 0x00#8]

/-- An environment with indexes. -/
def exGroupsEnv : Env :=
  { tinyEnv [exGroupsFooter] (tinyFooter exGroups [⟨3, 3, 11, 1, 4⟩]) tinyScript with
    P := { (tinyEnv [exGroupsFooter] (tinyFooter exGroups [⟨3, 3, 11, 1, 4⟩]) tinyScript).P with
      readIndex := fun b => if b = [0xe0#8] then some [[], []] else if b = [0xe1#8] then some [[0, 0, 0, 0, 0], [0, 0, 2, 0, 2]] else
        if b = [0xe2#8] then some [[0, 0], [0, 2]] else none } }

/-- Its rows. -/
def exGroupsRows : List Row :=
  [[(1, some (.u8 5#8)), (2, some (.u8 1#8))], [(1, some (.u8 6#8)), (2, some (.u8 2#8))], [(1, none), (2, some (.u8 3#8))], [(1, some (.u8 7#8)), (2, some (.u8 4#8))]]

theorem exGroups_columns {P : Schema → Prop} (h0 : P exGroups) (h1 : P (.mk ⟨1, .byte, .direct, true, []⟩ [])) (h2 : P (.mk ⟨2, .byte, .direct, false, []⟩ [])) :
    ∀ c ∈ exGroups.columns, P c := by
  intro c hc
  simp only [exGroups, Schema.columns, columnsAll, List.append_nil, List.mem_cons, List.cons_append, List.nil_append, List.not_mem_nil, or_false] at hc
  rcases hc with rfl | rfl | rfl
  exacts [h0, h1, h2]

theorem exGroups_indexed : StripeIndexed exGroupsEnv .none (256 * 1024) exGroups exGroupsFile ⟨3, 3, 11, 1, 4⟩ exGroupsRows exGroupsFooter
    [⟨.rowIndex, 0, 1⟩, ⟨.rowIndex, 1, 1⟩, ⟨.rowIndex, 2, 1⟩] [⟨.present, 1, 2⟩, ⟨.data, 1, 4⟩, ⟨.data, 2, 5⟩] 2 2 where
  once := by decide
  each := by
    have hfits : ∀ p ∈ startsFrom (3 + 3) [(⟨.present, 1, 2⟩ : StreamInfo), ⟨.data, 1, 4⟩, ⟨.data, 2, 5⟩], p.2 + p.1.length ≤ exGroupsFile.length := by decide +kernel
    have he : ByteStream [] [] := ⟨[], by simp, rfl, rfl⟩
    have hp : ByteStream [0xff#8, 0xd0#8] [0xd0#8] := ⟨[.literal [0xd0#8]], by simp [ByteRun.WF], by decide +kernel, by decide +kernel⟩
    have hx : ByteStream [0xfd#8, 0x05#8, 0x06#8, 0x07#8] [5#8, 6#8, 7#8] := ⟨[.literal [5#8, 6#8, 7#8]], by simp [ByteRun.WF], by decide +kernel, by decide +kernel⟩
    have hy : ByteStream [0xfc#8, 0x01#8, 0x02#8, 0x03#8, 0x04#8] [1#8, 2#8, 3#8, 4#8] := ⟨[.literal [1#8, 2#8, 3#8, 4#8]], by simp [ByteRun.WF], by decide +kernel, by decide +kernel⟩
    have hbits : bytesBits [0xd0#8] = [true, true, false, true] ++ [false, false, false, false] := by decide +kernel
    refine exGroups_columns ⟨.direct, (⟨.rowIndex, 0, 1⟩, 3), [0xe0#8], _, rfl, by decide, rfl, ⟨by decide, by decide +kernel⟩, rfl, rfl, _, none, by simp, .inl ⟨rfl, rfl,
        plain_laid _ _ (by decide) _ _ _ [] none hfits (by decide +kernel) ?_ (by simp), by simp [exGroups, node_mk], ?_⟩⟩
      ⟨.direct, (⟨.rowIndex, 1, 1⟩, 4), [0xe1#8], _, rfl, by decide, rfl, ⟨by decide, by decide +kernel⟩, rfl, rfl, _, some [true, true, false, true], by simp [node_mk], .inr ⟨.byte, _, .tinyint,
        plain_laid _ _ (by decide) _ _ _ [.data] _ hfits (by decide +kernel) ?_ ?_, by unfold Flagged; decide +kernel, ⟨[5#8, 6#8, 7#8], ?_, ?_, rfl⟩, ?_⟩⟩
      ⟨.direct, (⟨.rowIndex, 2, 1⟩, 5), [0xe2#8], _, rfl, by decide, rfl, ⟨by decide, by decide +kernel⟩, rfl, rfl, _, none, by simp, .inr ⟨.byte, _, .tinyint,
        plain_laid _ _ (by decide) _ _ _ [.data] _ hfits (by decide +kernel) ?_ (by simp), by unfold Flagged; decide +kernel, ⟨[1#8, 2#8, 3#8, 4#8], ?_, ?_, rfl⟩, ?_⟩⟩
    · intro k; cases k <;> decide +kernel
    · intro g entry hg
      match g, hg with
      | 0, hg => cases hg; exact ⟨by decide, [], [], rfl, rfl, rfl⟩
      | 1, hg => cases hg; exact ⟨by decide, [], [], rfl, rfl, rfl⟩
      | g + 2, hg => simp at hg
    · intro k; cases k <;> decide +kernel
    · intro bs hb; cases hb
      exact ⟨[0xd0#8], _, hp, hbits⟩
    · exact hx
    · decide +kernel
    · intro g entry hg
      match g, hg with
      | 0, hg =>
        cases hg
        exact ⟨by decide, [0, 0, 0], [0, 0], rfl,
          ⟨_, _, 0, [0, 0], 0, hbits, ⟨[], _, [], _, 0, [0], rfl, rfl, he, hp, by decide, rfl, ⟨⟨.present, 6, [0xff#8, 0xd0#8]⟩, by decide +kernel, rfl, by decide +kernel⟩, rfl⟩, rfl, rfl⟩,
          ⟨[], _, [], _, 0, [0], rfl, rfl, he, hx, by decide, rfl, ⟨⟨.data, 8, [0xfd#8, 0x05#8, 0x06#8, 0x07#8]⟩, by decide +kernel, rfl, by decide +kernel⟩, rfl⟩⟩
      | 1, hg =>
        cases hg
        exact ⟨by decide, [0, 0, 2], [0, 2], rfl,
          ⟨_, _, 0, [0, 0], 2, hbits, ⟨[], _, [], _, 0, [0], rfl, rfl, he, hp, by decide, rfl, ⟨⟨.present, 6, [0xff#8, 0xd0#8]⟩, by decide +kernel, rfl, by decide +kernel⟩, rfl⟩, rfl, rfl⟩,
          ⟨[], _, [], _, 2, [0], rfl, rfl, he, hx, by decide, by decide +kernel, ⟨⟨.data, 8, [0xfd#8, 0x05#8, 0x06#8, 0x07#8]⟩, by decide +kernel, rfl, by decide +kernel⟩, rfl⟩⟩
      | g + 2, hg => simp at hg
    · intro k; cases k <;> decide +kernel
    · exact hy
    · decide +kernel
    · intro g entry hg
      match g, hg with
      | 0, hg =>
        cases hg
        exact ⟨by decide, [], [0, 0], rfl, rfl,
          ⟨[], _, [], _, 0, [0], rfl, rfl, he, hy, by decide, rfl, ⟨⟨.data, 12, [0xfc#8, 0x01#8, 0x02#8, 0x03#8, 0x04#8]⟩, by decide +kernel, rfl, by decide +kernel⟩, rfl⟩⟩
      | 1, hg =>
        cases hg
        exact ⟨by decide, [], [0, 2], rfl, rfl,
          ⟨[], _, [], _, 2, [0], rfl, rfl, he, hy, by decide, by decide +kernel, ⟨⟨.data, 12, [0xfc#8, 0x01#8, 0x02#8, 0x03#8, 0x04#8]⟩, by decide +kernel, rfl, by decide +kernel⟩, rfl⟩⟩
      | g + 2, hg => simp at hg

/-- A column with an index is a column. -/
theorem ColumnIndexed.stored {c : Codec} {kind : CompKind} {size : Nat} {file : Bytes} {n : SchemaNode} {enc : Encoding} {ps : List LaidStream}
    {seen rows : List (Option GoVal)} {stride : Nat} {index : List (List Nat)} (h : ColumnIndexed c kind size file n enc ps seen rows stride index) :
    ColumnStored c kind size file n enc ps seen := by
  obtain ⟨contents, present, h1, ⟨a1, a2, a3, a4, -⟩ | ⟨t, place, a1, a2, a3, a4, -⟩⟩ := h
  · exact ⟨contents, present, h1, .inl ⟨a1, a2, a3, a4⟩⟩
  · exact ⟨contents, present, h1, .inr ⟨t, a1, a2, a3, a4.encodes⟩⟩

theorem exGroups_laid : StripeLaid exGroupsEnv .none (256 * 1024) exGroups exGroupsFile ⟨3, 3, 11, 1, 4⟩ exGroupsRows exGroupsFooter
    [⟨.rowIndex, 0, 1⟩, ⟨.rowIndex, 1, 1⟩, ⟨.rowIndex, 2, 1⟩] [⟨.present, 1, 2⟩, ⟨.data, 1, 4⟩, ⟨.data, 2, 5⟩] where
  count := rfl
  inFile := by decide +kernel
  footerAt := ⟨[0#8], ⟨by decide, by decide +kernel⟩, rfl⟩
  listed := rfl
  existing := by decide
  indexes := by decide
  indexLength := rfl
  indexAt := by
    intro p hp
    simp only [startsFrom, List.mem_cons, List.not_mem_nil, or_false] at hp
    rcases hp with rfl | rfl | rfl
    · exact ⟨by decide +kernel, [0xe0#8], _, ⟨by decide, by decide +kernel⟩, rfl⟩
    · exact ⟨by decide +kernel, [0xe1#8], _, ⟨by decide, by decide +kernel⟩, rfl⟩
    · exact ⟨by decide +kernel, [0xe2#8], _, ⟨by decide, by decide +kernel⟩, rfl⟩
  noIndex := by decide
  dataLength := rfl
  columns := by
    intro c hc
    obtain ⟨enc, p, flat, entries, h1, -, -, -, -, -, h2⟩ := exGroups_indexed.each c hc
    exact ⟨enc, h1, h2.stored⟩

/-- A vector for two rows of the table. -/
def exGroupsVec : Vec := .mk 0 .struct none [.mk 1 .byte (some ⟨List.replicate 2 ⟨false, .nil⟩, 2⟩) [], .mk 2 .byte (some ⟨List.replicate 2 ⟨false, .nil⟩, 2⟩) []]

/-- The second row group, then row 1 and the row after it: row group 1 has to be asked for as row group 2. -/
example : ∃ types, TypesOf exGroups types ∧ ∃ vs, roamStripe exGroupsEnv 10 ⟨.none, 256 * 1024, 2⟩ ⟨[], 2, false⟩ exGroupsFile types ⟨3, 3, 11, 1, 4⟩
      [.seek 2, .batch exGroupsVec, .seek 1, .skip 1, .batch exGroupsVec] = .ok vs ∧
    vs.map Vec.tableRows = [exGroupsRows.drop 2, (exGroupsRows.drop 1).take 2] := by
  have num : exGroups.Numbered := by unfold Schema.Numbered; decide +kernel
  have tab : exGroups.Columnar := ⟨by decide +kernel, by decide +kernel, by
    intro c hc hn d hd
    cases hc with
    | here => cases hn
    | down _ _ _ _ _ below => cases below; cases hd⟩
  obtain ⟨heap, types, -, -, ht⟩ := types_found (stats := exGroups.columns.map fun c => tinyStats c.node.hasNulls) num (by unfold Schema.Named; decide +kernel) (by simp only [List.map_map]; rfl)
  have hshape : BatchShape ⟨[], 2, false⟩ 2 2 exGroups exGroupsVec :=
    .struct _ _ _ rfl rfl (by decide +kernel) (.cons (.leaf _ _ _ rfl rfl rfl (Nat.le_refl 2) (fun h => by cases h))
      (.cons (.leaf _ _ _ rfl rfl rfl (Nat.le_refl 2) (by unfold Unmarked; decide +kernel)) .nil))
  obtain ⟨vs, g1, g2⟩ := foreign_stripe_roams (ro := ⟨.none, 256 * 1024, 2⟩) (bo := ⟨[], 2, false⟩) exGroups_laid exGroups_indexed num tab (by unfold Schema.NullsOnce; decide +kernel)
    (by unfold StripeFooter.Flags; decide +kernel) (by unfold BatchOption.Selects; decide +kernel) ht ⟨by decide +kernel, by decide +kernel, by decide +kernel⟩
    (fun c hc => .inr ⟨rfl, by revert c; decide +kernel⟩) [.seek 2, .batch exGroupsVec, .seek 1, .skip 1, .batch exGroupsVec] 10
    ⟨⟨by decide, by simp⟩, ⟨2, 2, hshape⟩, by decide, ⟨by decide, by simp⟩, by decide, ⟨2, 2, hshape⟩, by decide, trivial⟩
  exact ⟨types, ht, vs, g1, by rw [g2]; rfl⟩

end Goorc
