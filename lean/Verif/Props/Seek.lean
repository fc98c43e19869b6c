import Verif.Props.Batches
import Verif.Props.FileTail
/-
C58: seeking.
-/
namespace Goorc

variable {ρ χ : Type}

/-- A stripe whose column readers can be sent back to the beginning and then skip: its rows are `all`. -/
def StripeReader.Seekable (X : RdOps χ) (P : χ → List ρ → Prop) (s : StripeReader χ) (all : List ρ) : Prop :=
  s.numberOfRows = all.length ∧ ∃ x x0, s.reader = some x ∧ X.seekStride x 0 = .ok x0 ∧
    ∀ n ≤ all.length, ∃ x1, X.skip x0 n = .ok x1 ∧ P x1 (all.drop n)

/-- The remainder that is computed is that modulo the stride. -/
theorem mod_floor (r S : Nat) (h : S ≤ r) (hS : S ≠ 0) : r % (r / S * S) = r % S := by
  have h1 : 1 ≤ r / S := (Nat.one_le_div_iff (by omega)).2 h
  have h2 := Nat.div_add_mod r S
  have h3 := Nat.mod_lt r (Nat.pos_of_ne_zero hS)
  have h4 : S ≤ r / S * S := Nat.le_mul_of_pos_left S h1
  have h5 : r = r / S * S + r % S := by rw [Nat.mul_comm]; omega
  conv_lhs => lhs; rw [h5]
  rw [Nat.add_mod_left, Nat.mod_eq_of_lt (by omega)]

theorem StripeReader.seek_spec {X : RdOps χ} {P : χ → List ρ → Prop} {s : StripeReader χ} {all : List ρ} (hs : s.Seekable X P all)
    (S r : Nat) (hr : r < all.length) :
    (S = 0 → s.seek X S r = .panic) ∧
    (S ≠ 0 → ∃ x, s.seek X S r = .ok { s with reader := some x } ∧ P x (all.drop (r % S))) := by
  obtain ⟨-, x, x0, h1, h2, h3⟩ := hs
  constructor
  · rintro rfl
    simp only [seek, Nat.not_lt_zero, if_false, if_true]
    rfl
  · intro hS
    have hoff : (if r < S then pure r else if S = 0 then Res.panic else pure (r % (r / S * S)) : Res Nat) = .ok (r % S) := by
      by_cases h : r < S
      · rw [if_pos h, Nat.mod_eq_of_lt h]; rfl
      · rw [if_neg h, if_neg hS, mod_floor r S (by omega) hS]; rfl
    obtain ⟨x1, g1, g2⟩ := h3 (r % S) (Nat.le_trans (Nat.mod_le _ _) (by omega))
    refine ⟨x1, ?_, g2⟩
    simp only [seek, hoff, Res.ok_bind, h1, h2, g1]
    rfl

theorem seekLoop_spec {X : RdOps χ} {P : χ → List ρ → Prop} (br : BatchReader χ) (row : Nat) :
    ∀ (ss : List (StripeReader χ)) (stripes : List (List ρ)) (i rows : Nat), List.Forall₂ (StripeReader.Seekable X P) ss stripes →
    rows ≤ row →
    (rows + stripes.flatten.length ≤ row → br.seekLoop X row i rows ss = .err .other) ∧
    (∀ before all after r, stripes = before ++ all :: after → row = rows + before.flatten.length + r → r < all.length →
      ∃ s, ss[before.length]? = some s ∧ br.seekLoop X row i rows ss =
        (do let s ← s.seek X br.indexStride r; pure { br with stripes := br.stripes.set (i + before.length) s })) := by
  intro ss
  induction ss with
  | nil =>
    intro stripes i rows h hle
    cases h
    refine ⟨fun _ => rfl, ?_⟩
    intro before all after r h
    simp at h
  | cons s ss ih =>
    intro stripes i rows h hle
    cases h with
    | cons hs hss =>
      rename_i all0 rest
      obtain ⟨hn, hs'⟩ := id hs
      constructor
      · intro hr
        simp only [List.flatten_cons, List.length_append] at hr
        simp only [BatchReader.seekLoop]
        rw [if_neg (by omega)]
        exact (ih rest (i + 1) (rows + s.numberOfRows) hss (by omega)).1 (by omega)
      · intro before all after r hsplit hrow hr
        cases before with
        | nil =>
          simp only [List.nil_append, List.cons.injEq] at hsplit
          obtain ⟨rfl, rfl⟩ := hsplit
          simp only [List.flatten_nil, List.length_nil] at hrow
          refine ⟨s, rfl, ?_⟩
          simp only [BatchReader.seekLoop]
          rw [if_pos (by omega)]
          have : row - rows = r := by omega
          rw [this]
          rfl
        | cons b before =>
          simp only [List.cons_append, List.cons.injEq] at hsplit
          obtain ⟨rfl, rfl⟩ := hsplit
          simp only [List.flatten_cons, List.length_append] at hrow
          obtain ⟨s', g1, g2⟩ := (ih _ (i + 1) (rows + s.numberOfRows) hss (by omega)).2 before all after r rfl (by omega) hr
          refine ⟨s', by simpa using g1, ?_⟩
          simp only [BatchReader.seekLoop]
          rw [if_neg (by omega), g2]
          simp only [List.length_cons]
          have : i + 1 + before.length = i + (before.length + 1) := by omega
          rw [this]

/-- **C58, exact** `Seek` of a row that does not exist is an error. For a row that exists, row `r` of some stripe: without an
index stride `Seek` panics. With a stride `S` the column readers of that stripe go to row `r mod S` of the stripe, and nothing
else changes: neither the stripe that `Next` reads from, nor how many rows `Next` thinks it has delivered. -/
theorem seek_exact {X : RdOps χ} {P : χ → List ρ → Prop} (br : BatchReader χ) (stripes : List (List ρ))
    (hs : List.Forall₂ (StripeReader.Seekable X P) br.stripes stripes) (hN : br.numberOfRows = stripes.flatten.length) (row : Nat) :
    (stripes.flatten.length ≤ row → br.seek X row = .err .other) ∧
    (∀ before all after r, stripes = before ++ all :: after → row = before.flatten.length + r → r < all.length →
      (br.indexStride = 0 → br.seek X row = .panic) ∧
      (br.indexStride ≠ 0 → ∃ s x, br.stripes[before.length]? = some s ∧
        br.seek X row = .ok { br with stripes := br.stripes.set before.length { s with reader := some x } } ∧
        P x (all.drop (r % br.indexStride)))) := by
  have h := seekLoop_spec (X := X) (P := P) br row br.stripes stripes 0 0 hs (Nat.zero_le _)
  constructor
  · intro hr
    simp only [BatchReader.seek]
    split
    · rfl
    · exact h.1 (by omega)
  · intro before all after r hsplit hrow hr
    obtain ⟨s, g1, g2⟩ := h.2 before all after r hsplit (by omega) hr
    have hlt : ¬ row > br.numberOfRows := by
      rw [hN, hsplit]; simp only [List.flatten_append, List.flatten_cons, List.length_append]; omega
    rw [Nat.zero_add] at g2
    simp only [BatchReader.seek, if_neg hlt, g2]
    have hseek : s.Seekable X P all := by
      obtain ⟨hlt', e⟩ := List.getElem?_eq_some_iff.1 g1
      have h2 : before.length < stripes.length := by rw [hsplit]; simp
      have := hs.get hlt' h2
      simp only [List.get_eq_getElem, e] at this
      have e2 : stripes[before.length] = all := by simp [hsplit]
      rw [e2] at this
      exact this
    have hsp := StripeReader.seek_spec hseek br.indexStride r hr
    constructor
    · intro h0
      rw [hsp.1 h0]; rfl
    · intro h0
      obtain ⟨x, e1, e2⟩ := hsp.2 h0
      exact ⟨s, x, g1, by rw [e1]; rfl, e2⟩

/-- **C58** What is left: with a stride, from a reader that has not been used, and for a row of the first stripe before the
first stride, if a whole batch follows in that stripe: the next batch begins with this row. -/
theorem seek_next_partial {X : RdOps χ} {hasNulls : List Bool} {B : Nat} {Shape : Vec → Prop} {P : χ → List ρ → Prop}
    {rowsOf : Vec → List ρ} (D : Delivers X hasNulls B Shape P rowsOf) (fuel : Nat) (br : BatchReader χ) (all : List ρ)
    (rest : List (List ρ)) (hf : br.Fresh hasNulls P (all :: rest)) (hs : List.Forall₂ (StripeReader.Seekable X P) br.stripes (all :: rest))
    (vec : Vec) (hv : Shape vec) (row : Nat) (h1 : row < br.indexStride) (h2 : row + B ≤ all.length) (hB : 1 ≤ B)
    (h3 : 2 ≤ (all :: rest).flatten.length) :
    ∃ br' br'' stop vec', br.seek X row = .ok br' ∧ br'.next X (fuel + 1) vec = .ok (stop, vec', br'') ∧ rowsOf vec' = (all.drop row).take B := by
  obtain ⟨s, x, g1, g2, g3⟩ := ((seek_exact br _ hs hf.total row).2 [] all rest row rfl (by simp) (by omega)).2 (by omega)
  rw [Nat.mod_eq_of_lt h1] at g3
  obtain ⟨cl, c1, c2, c3, c4, c5⟩ := D.cleared vec hv
  have hl : ((all.drop row).take B).length = B := by simp; omega
  obtain ⟨sized, vec', x', d1, d2, d3, d4, d5, d6, d7⟩ :=
    D.next cl c2 c4 x ((all.drop row).take B) ((all.drop row).drop B) (by omega) (by rw [List.take_append_drop]; exact g3)
  rw [hl] at d1 d6
  simp only [List.length_nil] at g1 g2
  have hfr : s.hasNulls = hasNulls ∧ s.cursor = 0 ∧ s.numberOfRows = all.length := by
    have he := hf.each
    generalize br.stripes = ss at he g1
    cases he with
    | cons h _ =>
      simp only [List.getElem?_cons_zero, Option.some.injEq] at g1
      rw [← g1]; exact ⟨h.1, h.2.1, h.2.2.1⟩
  generalize hs2 : ({ s with reader := some x', cursor := B } : StripeReader χ) = s2
  have hprep : ({ s with reader := some x } : StripeReader χ).prepareVector cl = .ok sized := by
    simp only [StripeReader.prepareVector, c4, c5, hfr.1, hfr.2.1, hfr.2.2]
    rw [← d1]
    congr 1
    split <;> omega
  have hn : ({ s with reader := some x } : StripeReader χ).next X cl = .ok (decide (B + 1 ≥ all.length), vec', s2) := by
    simp only [StripeReader.next, hprep, Res.ok_bind, d2]
    simp only [d6, hfr.2.1, hfr.2.2, ← hs2, Nat.zero_add]
    rfl
  have hstripes : ∃ ss, br.stripes = s :: ss := by
    cases h : br.stripes with
    | nil => rw [h] at g1; simp at g1
    | cons a as => rw [h] at g1; simp at g1; exact ⟨as, by rw [g1]⟩
  obtain ⟨ss, hss⟩ := hstripes
  have hnext : ∃ br'' stop, ({ br with stripes := br.stripes.set 0 { s with reader := some x } } : BatchReader χ).next X (fuel + 1) vec = .ok (stop, vec', br'') := by
    have hcur : ¬ (br.cursor ≥ br.numberOfRows - 1) := by rw [hf.cursor, hf.total]; omega
    simp only [BatchReader.next, c1, Res.ok_bind]
    rw [if_neg hcur]
    have hloop : ∃ br3, ({ br with stripes := br.stripes.set 0 { s with reader := some x } } : BatchReader χ).nextLoop X (fuel + 1) cl = .ok (vec', br3) := by
      unfold BatchReader.nextLoop
      simp only [hf.index, hss, show ¬ ((0 : Int) < 0) by decide, if_false, Int.toNat_zero, List.set_cons_zero, List.getElem?_cons_zero, hn, Res.ok_bind]
      split
      · exact ⟨_, rfl⟩
      · rw [if_pos (by omega)]; exact ⟨_, rfl⟩
    obtain ⟨br3, e⟩ := hloop
    rw [e]
    exact ⟨_, _, rfl⟩
  obtain ⟨br'', stop, e⟩ := hnext
  exact ⟨_, br'', stop, vec', g2, e, d5⟩

/-- Batch readers of files know the number of rows of every stripe, and the stride of the footer. -/
theorem createBatchReader_shape {E : Env} {r : FileReader} {bo : BatchOption} {br : BatchReader (Rd r.schemas.length)}
    (h : r.createBatchReader E bo = .ok br) : br.indexStride = r.opts.indexStride ∧ br.numberOfRows = r.numberOfRows ∧
      br.stripeIndex = 0 ∧ br.cursor = 0 ∧ br.stripes.map (·.numberOfRows) = r.stripes.map (·.numberOfRows) := by
  simp only [FileReader.createBatchReader] at h
  split at h
  · simp at h
  · obtain ⟨ss, h1, h2⟩ := Res.bind_ok_inv h
    have := Res.ok.inj h2
    subst this
    refine ⟨rfl, rfl, rfl, rfl, ?_⟩
    clear h h2
    generalize r.stripes = infos at h1
    induction infos generalizing ss with
    | nil => simp only [initStripes, Res.ok.injEq] at h1; subst h1; rfl
    | cons i is ih =>
      simp only [initStripes] at h1
      split at h1
      · simp at h1
      · obtain ⟨s, k1, k2⟩ := Res.bind_ok_inv h1
        obtain ⟨ss', k3, k4⟩ := Res.bind_ok_inv k2
        have := Res.ok.inj k4
        subst this
        simp only [List.map_cons, ih ss' k3]
        congr 1
        simp only [newStripeReader] at k1
        obtain ⟨f, -, k1⟩ := Res.bind_ok_inv k1
        obtain ⟨t, -, k1⟩ := Res.bind_ok_inv k1
        have := Res.ok.inj k1
        subst this
        rfl

theorem seekLoop_no_stride {X : RdOps χ} (br : BatchReader χ) (hS : br.indexStride = 0) (row : Nat) : ∀ (ss : List (StripeReader χ)) (i rows : Nat),
    rows ≤ row → row < rows + (ss.map (·.numberOfRows)).sum → br.seekLoop X row i rows ss = .panic := by
  intro ss
  induction ss with
  | nil => intro i rows h1 h2; simp at h2; omega
  | cons s ss ih =>
    intro i rows h1 h2
    simp only [List.map_cons, List.sum_cons] at h2
    simp only [BatchReader.seekLoop, hS]
    by_cases h : rows + s.numberOfRows > row
    · rw [if_pos h]; simp only [StripeReader.seek, Nat.not_lt_zero, if_false, if_true]; rfl
    · rw [if_neg h]; exact ih _ _ (by omega) (by omega)

theorem stripeTable_numbers (start : Nat) (parts : List StripeParts) : (stripeTable start parts).map (·.numberOfRows) = parts.map (·.rows) := by
  induction parts generalizing start with
  | nil => rfl
  | cons p parts ih => simp only [stripeTable, List.map_cons, ih]

/-- **C58, refuted** In any file made by this library, `Seek` of any row that exists panics: the writer records no index stride,
and the reader divides by it. -/
theorem seek_panics {E : Env} (hc : E.c.Lossless) {o : FOpts} (h1 : 1 ≤ o.chunkSize) (h2 : o.chunkSize < 2 ^ 23)
    {columns : List Schema} {file : Bytes} {parts : List StripeParts} {ft : FileFooter} {ps : PostScript}
    (hl : FileLayout E o columns file parts ft ps) (hr : E.P.Reads parts ft ps)
    {r : FileReader} (hn : newReader E file = .ok r) {bo : BatchOption} {br : BatchReader (Rd r.schemas.length)}
    (hb : r.createBatchReader E bo = .ok br) (fuel row : Nat) (hrow : row < (parts.map (·.rows)).sum) :
    br.seek (rdOps E.c fuel _) row = .panic := by
  obtain ⟨s1, s2, -, -, s5⟩ := createBatchReader_shape hb
  obtain ⟨tail, -, -, e⟩ := newReader_layout hc h1 h2 hl hr
  have hr : r.opts.indexStride = 0 ∧ r.numberOfRows = (parts.map (·.rows)).sum ∧ r.stripes = stripeTable 3 parts := by
    simp only [newReader, e] at hn
    split at hn
    · simp only [Res.ok_bind] at hn
      split at hn
      · simp at hn
      · obtain ⟨hs, -, hn⟩ := Res.bind_ok_inv hn
        obtain ⟨hs', -, hn⟩ := Res.bind_ok_inv hn
        have := Res.ok.inj hn
        subst this
        exact ⟨hl.stride, hl.rows, hl.stripes⟩
    · simp at hn
  simp only [BatchReader.seek]
  rw [if_neg (by rw [s2, hr.2.1]; omega)]
  refine seekLoop_no_stride br (by rw [s1, hr.1]) row br.stripes 0 0 (Nat.zero_le _) ?_
  rw [s5, hr.2.2, stripeTable_numbers]; omega

/-! ### A small reader to show the theorems at work -/

/-- A reader of one column that holds its rows as a list: all of them, and those not yet read. -/
def listOps : RdOps (List Value × List Value) where
  nextBatch := fun x v => match v with
    | .mk id k (some s) cs => if s.len ≤ x.2.length then .ok (.mk id k (some (s.update (x.2.take s.len))) cs, (x.1, x.2.drop s.len)) else .err .other
    | _ => .panic
  skip := fun x n => .ok (x.1, x.2.drop n)
  seekStride := fun x _ => .ok (x.1, x.1)

/-- Vectors for it. -/
def ListShape (B : Nat) (v : Vec) : Prop := ∃ s : Slice, v = .mk 0 .int (some s) [] ∧ s.arr.length = B ∧ s.len ≤ B

/-- The rows in such a vector. -/
def listRowsOf : Vec → List Value
  | .mk _ _ s _ => visibleRows s
  | .nil => []

theorem list_delivers (B : Nat) : Delivers listOps [false] B (ListShape B) (fun x rows => x.2 = rows) listRowsOf where
  cleared := by
    rintro vec ⟨s, rfl, h1, h2⟩
    refine ⟨_, rfl, ⟨_, rfl, h1, Nat.zero_le _⟩, ?_, rfl, h1⟩
    simp [listRowsOf, visibleRows, Slice.visible]
  next := by
    rintro vec ⟨s, rfl, h1, h2⟩ - x rows rest hr hx
    refine ⟨.mk 0 .int (some { s with len := rows.length }) [], .mk 0 .int (some (Slice.update { s with len := rows.length } rows)) [], (x.1, rest), ?_, ?_, rfl,
      ⟨_, rfl, ?_, hr⟩, ?_, ?_, ?_⟩
    · simp only [setVectorSize, resize]
      rw [if_pos ⟨by omega, by simp; omega⟩]
      rfl
    · simp [listOps, hx]
    · simp [Slice.update]; omega
    · simp [listRowsOf, visibleRows, Slice.visible, Slice.update]
    · simp only [Vec.len, Option.map_some, Option.getD_some, Slice.update]
      by_cases h : rows.length = 0 <;> simp [h]
    · simp only [Vec.cap, Slice.update]
      simp; omega

/-- A batch reader of stripes that hold these rows. -/
def listReader (S : Nat) (stripes : List (List Value)) : BatchReader (List Value × List Value) :=
  ⟨S, 0, stripes.map fun rows => ⟨[false], some (rows, rows), rows.length, 0⟩, stripes.flatten.length, 0⟩

theorem listReader_fresh (S : Nat) (stripes : List (List Value)) :
    (listReader S stripes).Fresh [false] (fun x rows => x.2 = rows) stripes := by
  refine ⟨rfl, rfl, rfl, ?_⟩
  simp only [listReader]
  induction stripes with
  | nil => exact .nil
  | cons r rs ih => exact .cons ⟨rfl, rfl, rfl, _, rfl, rfl⟩ ih

theorem listReader_seekable (S : Nat) (stripes : List (List Value)) :
    List.Forall₂ (StripeReader.Seekable listOps fun x rows => x.2 = rows) (listReader S stripes).stripes stripes := by
  simp only [listReader]
  induction stripes with
  | nil => exact .nil
  | cons r rs ih => exact .cons ⟨rfl, _, _, rfl, rfl, fun n _ => ⟨_, rfl, rfl⟩⟩ ih

/-- The vector of a client. -/
def listVec (B : Nat) : Vec := .mk 0 .int (some (makeSlice B .nil)) []

theorem listVec_shape (B : Nat) : ListShape B (listVec B) := ⟨_, rfl, by simp [makeSlice], by simp [makeSlice]⟩

/-- Rows to tell apart. -/
def numbered (from_ n : Nat) : List Value := (List.range' from_ n).map fun i => ⟨false, .i64 (BitVec.ofNat 64 i)⟩

/-- **C56, refuted** Three rows in one stripe, read in batches of two: the loop ends, and the third row is never delivered. -/
theorem every_row_false : ∃ k bs, readBatches listOps 1 k (listReader 0 [numbered 0 3]) (listVec 2) = .ok (bs, true) ∧
    bs.flatMap listRowsOf = numbered 0 2 := by
  have h := (batch_loop_ends_iff (list_delivers 2) (by omega) 0 (listReader 0 [numbered 0 3]) [] (numbered 0 3)
    (listReader_fresh 0 _) (by decide) (listVec 2) (listVec_shape 2)).2.2 (by decide)
  obtain ⟨k, bs, h⟩ := h
  refine ⟨k, bs, h, ?_⟩
  rw [batch_loop_delivers (list_delivers 2) (by omega) 0 (listReader 0 [numbered 0 3]) [] (numbered 0 3)
    (listReader_fresh 0 _) (by decide) (listVec 2) (listVec_shape 2) k bs h]
  decide

/-- Ten rows in two stripes in batches of two are delivered. -/
example : ∃ k bs, readBatches listOps 1 k (listReader 0 [numbered 0 4, numbered 4 6]) (listVec 2) = .ok (bs, true) ∧
    bs.flatMap listRowsOf = numbered 0 10 :=
  (every_row_iff (list_delivers 2) (by omega) 0 (listReader 0 [numbered 0 4, numbered 4 6]) [numbered 0 4] (numbered 4 6)
    (listReader_fresh 0 _) (by decide) (listVec 2) (listVec_shape 2)).2 (by decide)

/-- **C57, refuted** Three stripes of two rows, read row by row: the loop never ends. -/
theorem loop_ends_false (k : Nat) : ∃ bs, readBatches listOps 1 k (listReader 0 [numbered 0 2, numbered 2 2, numbered 4 2]) (listVec 1) = .ok (bs, false) := by
  obtain ⟨bs, h, -⟩ := batch_loop_endless (list_delivers 1) (by omega) 0 (listReader 0 [numbered 0 2, numbered 2 2, numbered 4 2])
    [numbered 0 2, numbered 2 2] (numbered 4 2) (listReader_fresh 0 _) (by decide) (listVec 1) (listVec_shape 1) (by decide) k
  exact ⟨bs, h⟩

/-- **C58, refuted** Two stripes of four rows, with a stride of two: after `Seek(5)`, that is row 1 of the second stripe, the next batch
of two begins with row 0 of the file. -/
theorem seek_false : ∃ br' br'' vec', (listReader 2 [numbered 0 4, numbered 4 4]).seek listOps 5 = .ok br' ∧
    br'.next listOps 1 (listVec 2) = .ok (false, vec', br'') ∧ listRowsOf vec' = numbered 0 2 := by
  refine ⟨_, _, _, rfl, rfl, ?_⟩
  decide

/-- `Seek(1)` in the same file works. -/
example : ∃ br' br'' stop vec', (listReader 2 [numbered 0 4, numbered 4 4]).seek listOps 1 = .ok br' ∧
    br'.next listOps 1 (listVec 2) = .ok (stop, vec', br'') ∧ listRowsOf vec' = numbered 1 2 := by
  have h := seek_next_partial (list_delivers 2) 0 (listReader 2 [numbered 0 4, numbered 4 4]) (numbered 0 4) [numbered 4 4] (listReader_fresh 2 _)
    (listReader_seekable 2 _) (listVec 2) (listVec_shape 2) 1 (by decide) (by decide) (by decide) (by decide)
  exact h

end Goorc
