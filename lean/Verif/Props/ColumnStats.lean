import Verif.Proofs.ColStats
/-
C44 and C48: the statistics of columns, after any history of writes, flushes and resets.
-/
namespace Goorc

/-- **C44** The number of values is the number of non-null rows, over any number of stripes, for every column type. -/
theorem column_count {δ κ : Type} (K : LeafKind δ κ) (c : Codec) (o : COpts) (hasNulls : Bool) (ops : List ColOp) (w : ColWriter δ κ)
    (h : K.runOps c o (K.newWriter o hasNulls) ops = .ok w) :
    w.stats.numberOfValues = ((rowsWritten ops).filter fun v => !v.null).length ∧ w.stats.hasNull = hasNulls := by
  obtain ⟨-, h1, h2⟩ := K.runOps_counts c o ops _ w h
  refine ⟨?_, h1⟩
  rw [h2]
  have : ∀ rows : List Value, (valuesOf rows).length = (rows.filter fun v => !v.null).length := by
    intro rows
    induction rows with
    | nil => rfl
    | cons v rows ih =>
      rw [valuesOf_cons v rows, List.length_append, ih]
      cases hn : v.null with
      | true => simp [valuesOf, hn]
      | false => simp [valuesOf, hn]; omega
  rw [this]
  simp [LeafKind.newWriter]

/-- A number among the values of smallint, int and bigint columns. -/
def GoVal.number : GoVal → Int
  | .i16 v => v.toInt
  | .i32 v => v.toInt
  | .i64 v => v.toInt
  | _ => 0

theorem toInt_signExtend64 {n : Nat} (hn : n ≤ 64) (v : BitVec n) : (v.signExtend 64).toInt = v.toInt :=
  BitVec.toInt_signExtend_of_le hn

theorem IntBits.value_number {bits : IntBits} {v : GoVal} {x : U64} (h : bits.value v = .ok x) : x.toInt = v.number := by
  cases bits <;> cases v <;> simp_all [IntBits.value, GoVal.number]
  · subst h; exact toInt_signExtend64 (by omega) _
  · subst h; exact toInt_signExtend64 (by omega) _

theorem least_step {xs : List Int} {m x m' : Int} (h : Least xs m) (hm : m' = if x < m then x else m) : Least (xs ++ [x]) m' := by
  obtain ⟨h1, h2⟩ := h
  by_cases hx : x < m
  · rw [if_pos hx] at hm; subst hm
    refine ⟨by simp, fun y hy => ?_⟩
    rcases List.mem_append.mp hy with hy | hy
    · have := h2 y hy; omega
    · simp at hy; omega
  · rw [if_neg hx] at hm; subst hm
    refine ⟨List.mem_append_left _ h1, fun y hy => ?_⟩
    rcases List.mem_append.mp hy with hy | hy
    · exact h2 y hy
    · simp at hy; omega

theorem greatest_step {xs : List Int} {m x m' : Int} (h : Greatest xs m) (hm : m' = if m < x then x else m) : Greatest (xs ++ [x]) m' := by
  obtain ⟨h1, h2⟩ := h
  by_cases hx : m < x
  · rw [if_pos hx] at hm; subst hm
    refine ⟨by simp, fun y hy => ?_⟩
    rcases List.mem_append.mp hy with hy | hy
    · have := h2 y hy; omega
    · simp at hy; omega
  · rw [if_neg hx] at hm; subst hm
    refine ⟨List.mem_append_left _ h1, fun y hy => ?_⟩
    rcases List.mem_append.mp hy with hy | hy
    · exact h2 y hy
    · simp at hy; omega

theorem int_fold {bits : IntBits} (vals : List GoVal) (xs : List Int) (s s' : IntStats) (h1 : Least (0 :: xs) s.min.toInt)
    (h2 : Greatest (0 :: xs) s.max.toInt) (h3 : s.sum = BitVec.ofInt 64 xs.sum) (h : foldRes (intKind bits).addStats s vals = .ok s') :
    Least (0 :: (xs ++ vals.map GoVal.number)) s'.min.toInt ∧ Greatest (0 :: (xs ++ vals.map GoVal.number)) s'.max.toInt ∧
      s'.sum = BitVec.ofInt 64 (xs ++ vals.map GoVal.number).sum := by
  induction vals generalizing xs s with
  | nil =>
    simp only [foldRes, Res.ok.injEq] at h
    subst h
    simpa using ⟨h1, h2, h3⟩
  | cons v vals ih =>
    simp only [foldRes] at h
    obtain ⟨s1, e1, h⟩ := Res.bind_eq_ok.mp h
    simp only [intKind] at e1
    obtain ⟨x, e2, e1⟩ := Res.bind_eq_ok.mp e1
    simp only [Res.pure_eq, Res.ok.injEq] at e1
    subst e1
    have hx := IntBits.value_number e2
    have := ih (xs ++ [v.number]) (s.add x) ?_ ?_ ?_ h
    · simpa using this
    · refine least_step (x := v.number) h1 ?_
      simp only [IntStats.add, BitVec.slt, hx]
      by_cases hl : v.number < s.min.toInt <;> simp [hl, hx]
    · refine greatest_step (x := v.number) h2 ?_
      simp only [IntStats.add, BitVec.slt, hx]
      by_cases hl : s.max.toInt < v.number <;> simp [hl, hx]
    · simp only [IntStats.add, List.sum_append, List.sum_cons, List.sum_nil, BitVec.ofInt_add, h3, ← hx, BitVec.ofInt_toInt]
      simp

/-- **C44** Integer columns, exactly: minimum and maximum are taken over the values and 0; the sum wraps around. -/
theorem int_column_stats (bits : IntBits) (c : Codec) (o : COpts) (hasNulls : Bool) (ops : List ColOp) (w : ColWriter (StreamWriter IntEnc) IntStats)
    (h : (intKind bits).runOps c o ((intKind bits).newWriter o hasNulls) ops = .ok w) :
    ∃ s, w.stats.typed = some s ∧ Least (0 :: (valuesOf (rowsWritten ops)).map GoVal.number) s.min.toInt ∧
      Greatest (0 :: (valuesOf (rowsWritten ops)).map GoVal.number) s.max.toInt ∧
      s.sum = BitVec.ofInt 64 ((valuesOf (rowsWritten ops)).map GoVal.number).sum := by
  obtain ⟨s, h1, h2⟩ := (intKind bits).runOps_stats c o (by
    intro t v t1 _ u t2 u' hu
    cases u with
    | none => simp [intKind] at hu
    | some s =>
      simp only [intKind] at hu
      obtain ⟨x, -, hu⟩ := Res.bind_eq_ok.mp hu
      simp only [Res.pure_eq, Res.ok.injEq, Prod.mk.injEq] at hu
      exact hu.1.symm) ops _ w h ⟨0, 0, 0⟩ rfl
  have := int_fold (valuesOf (rowsWritten ops)) [] ⟨0, 0, 0⟩ s (by simp [Least]) (by simp [Greatest]) rfl h2
  exact ⟨s, h1, by simpa using this⟩

/-- **C44** (partial) The minimum is the least value exactly if some value is not positive, and the maximum the greatest
exactly if some value is not negative; the sum is right if it fits in 64 bits. -/
theorem int_column_stats_partial (bits : IntBits) (c : Codec) (o : COpts) (hasNulls : Bool) (ops : List ColOp)
    (w : ColWriter (StreamWriter IntEnc) IntStats) (h : (intKind bits).runOps c o ((intKind bits).newWriter o hasNulls) ops = .ok w) :
    let xs := (valuesOf (rowsWritten ops)).map GoVal.number
    ∃ s, w.stats.typed = some s ∧ (Least xs s.min.toInt ↔ ∃ x ∈ xs, x ≤ 0) ∧ (Greatest xs s.max.toInt ↔ ∃ x ∈ xs, 0 ≤ x) ∧
      (s.sum.toInt = xs.sum ↔ -2 ^ 63 ≤ xs.sum ∧ xs.sum < 2 ^ 63) := by
  intro xs
  obtain ⟨s, h1, h2, h3, h4⟩ := int_column_stats bits c o hasNulls ops w h
  refine ⟨s, h1, ⟨fun hl => ⟨_, hl.1, h2.2 0 (by simp)⟩, fun ⟨x, hx, h0⟩ => ⟨?_, fun y hy => h2.2 y (List.mem_cons_of_mem _ hy)⟩⟩,
    ⟨fun hl => ⟨_, hl.1, h3.2 0 (by simp)⟩, fun ⟨x, hx, h0⟩ => ⟨?_, fun y hy => h3.2 y (List.mem_cons_of_mem _ hy)⟩⟩, ?_⟩
  · rcases List.mem_cons.mp h2.1 with hz | hz
    · have := h2.2 x (List.mem_cons_of_mem _ hx)
      have : x = s.min.toInt := by omega
      exact this ▸ hx
    · exact hz
  · rcases List.mem_cons.mp h3.1 with hz | hz
    · have := h3.2 x (List.mem_cons_of_mem _ hx)
      have : x = s.max.toInt := by omega
      exact this ▸ hx
    · exact hz
  · rw [h4, BitVec.toInt_ofInt]
    change Int.bmod xs.sum (2 ^ 64) = xs.sum ↔ _
    generalize xs.sum = n
    constructor
    · intro he
      have h5 := Int.bmod_lt (x := n) (m := 2 ^ 64) (by omega)
      have h6 := Int.le_bmod (x := n) (m := 2 ^ 64) (by omega)
      rw [he] at h5 h6
      omega
    · intro he
      exact Int.bmod_eq_of_le (by omega) (by omega)

/-- Boolean columns count the `true` values. -/
theorem bool_column_stats (c : Codec) (o : COpts) (hasNulls : Bool) (ops : List ColOp) (w : ColWriter (StreamWriter BoolEnc) Nat)
    (h : boolKind.runOps c o (boolKind.newWriter o hasNulls) ops = .ok w) :
    w.stats.typed = some ((valuesOf (rowsWritten ops)).count (.bool true)) := by
  obtain ⟨n, h1, h2⟩ := boolKind.runOps_stats c o (by
    intro t v t1 _ u t2 u' hu
    cases u with
    | none => simp [boolKind] at hu
    | some s =>
      simp only [boolKind, Res.ok.injEq, Prod.mk.injEq] at hu
      exact hu.1.symm) ops _ w h 0 rfl
  rw [h1]
  have : ∀ (vals : List GoVal) (m n : Nat), foldRes boolKind.addStats m vals = .ok n → n = m + vals.count (.bool true) := by
    intro vals
    induction vals with
    | nil => intro m n hf; simp only [foldRes, Res.ok.injEq] at hf; simp [hf]
    | cons v vals ih =>
      intro m n hf
      simp only [foldRes] at hf
      obtain ⟨m1, e1, hf⟩ := Res.bind_eq_ok.mp hf
      have := ih m1 n hf
      cases v with
      | bool b =>
        simp only [boolKind, Res.ok.injEq] at e1
        cases b with
        | true => simp only [if_true] at e1; rw [this, ← e1, List.count_cons_self]; omega
        | false => simp only [Bool.false_eq_true, if_false] at e1; rw [this, ← e1, List.count_cons_of_ne (by simp)]
      | _ => simp [boolKind] at e1
  rw [this _ 0 n h2]
  simp

/-- Tinyint and binary columns: the "sum" only counts. -/
theorem count_fold {f : Nat → GoVal → Res Nat} (hf : ∀ n v, f n v = .ok (n + 1)) (vals : List GoVal) (m : Nat) :
    foldRes f m vals = .ok (m + vals.length) := by
  induction vals generalizing m with
  | nil => rfl
  | cons v vals ih => simp only [foldRes, hf, Res.ok_bind, ih, List.length_cons]; congr 1; omega

/-- **C44** Tinyint columns, exactly: the sum is the number of values. -/
theorem byte_column_stats (c : Codec) (o : COpts) (hasNulls : Bool) (ops : List ColOp) (w : ColWriter (StreamWriter ByteEnc) Nat)
    (h : byteKind.runOps c o (byteKind.newWriter o hasNulls) ops = .ok w) :
    w.stats.typed = some (valuesOf (rowsWritten ops)).length := by
  obtain ⟨n, h1, h2⟩ := byteKind.runOps_stats c o (by
    intro t v t1 _ u t2 u' hu
    cases u with
    | none => simp [byteKind] at hu
    | some s =>
      simp only [byteKind, Res.ok.injEq, Prod.mk.injEq] at hu
      exact hu.1.symm) ops _ w h 0 rfl
  have h2 := (count_fold (fun _ _ => rfl) _ 0).symm.trans h2
  simp only [Res.ok.injEq] at h2
  rw [h1, ← h2]; simp

/-- **C44** Binary columns, exactly: the sum is the number of values, not of bytes. -/
theorem binary_column_stats (c : Codec) (o : COpts) (hasNulls : Bool) (ops : List ColOp)
    (w : ColWriter (StreamWriter Unit × StreamWriter IntEnc) Nat)
    (h : binaryKind.runOps c o (binaryKind.newWriter o hasNulls) ops = .ok w) :
    w.stats.typed = some (valuesOf (rowsWritten ops)).length := by
  obtain ⟨n, h1, h2⟩ := binaryKind.runOps_stats c o (by
    intro t v t1 _ u t2 u' hu
    cases u with
    | none => simp [binaryKind] at hu
    | some s =>
      simp only [binaryKind, Res.ok.injEq, Prod.mk.injEq] at hu
      exact hu.1.symm) ops _ w h 0 rfl
  have h2 := (count_fold (fun _ _ => rfl) _ 0).symm.trans h2
  simp only [Res.ok.injEq] at h2
  rw [h1, ← h2]; simp

/-- A date as its day number. -/
def GoVal.day : GoVal → Int
  | .date ns => (toDays ns).toInt
  | _ => 0

/-- **C44** Date columns, exactly: minimum and maximum over the values and 1970-01-01. -/
theorem date_column_stats (c : Codec) (o : COpts) (hasNulls : Bool) (ops : List ColOp) (w : ColWriter (StreamWriter IntEnc) DateStats)
    (h : dateKind.runOps c o (dateKind.newWriter o hasNulls) ops = .ok w) :
    ∃ s, w.stats.typed = some s ∧ Least (0 :: (valuesOf (rowsWritten ops)).map GoVal.day) s.min.toInt ∧
      Greatest (0 :: (valuesOf (rowsWritten ops)).map GoVal.day) s.max.toInt := by
  obtain ⟨s, h1, h2⟩ := dateKind.runOps_stats c o (by
    intro t v t1 ht u t2 u' hu
    cases v with
    | date ns =>
      simp only [dateKind, Res.ok.injEq, Prod.mk.injEq] at hu ht
      rw [← hu.1, ← ht]
      simp only [DateStats.add, BitVec.slt]
      by_cases hl : (toDays ns).toInt < t.min.toInt <;> by_cases hg : t.max.toInt < (toDays ns).toInt <;> simp [hl, hg]
    | _ => simp [dateKind] at hu) ops _ w h ⟨0, 0⟩ rfl
  refine ⟨s, h1, ?_⟩
  have : ∀ (vals : List GoVal) (xs : List Int) (s s' : DateStats), Least (0 :: xs) s.min.toInt → Greatest (0 :: xs) s.max.toInt →
      foldRes dateKind.addStats s vals = .ok s' →
      Least (0 :: (xs ++ vals.map GoVal.day)) s'.min.toInt ∧ Greatest (0 :: (xs ++ vals.map GoVal.day)) s'.max.toInt := by
    intro vals
    induction vals with
    | nil =>
      intro xs s s' g1 g2 hf
      simp only [foldRes, Res.ok.injEq] at hf
      subst hf
      simpa using ⟨g1, g2⟩
    | cons v vals ih =>
      intro xs s s' g1 g2 hf
      simp only [foldRes] at hf
      obtain ⟨s1, e1, hf⟩ := Res.bind_eq_ok.mp hf
      cases v with
      | date ns =>
        simp only [dateKind, Res.ok.injEq] at e1
        subst e1
        have := ih (xs ++ [(toDays ns).toInt]) (s.add (toDays ns)) s' ?_ ?_ hf
        · simpa [GoVal.day] using this
        · refine least_step (x := (toDays ns).toInt) g1 ?_
          simp only [DateStats.add, BitVec.slt]
          by_cases hl : (toDays ns).toInt < s.min.toInt <;> simp [hl]
        · refine greatest_step (x := (toDays ns).toInt) g2 ?_
          simp only [DateStats.add, BitVec.slt]
          by_cases hl : s.max.toInt < (toDays ns).toInt <;> simp [hl]
      | _ => simp [dateKind] at e1
  have := this (valuesOf (rowsWritten ops)) [] ⟨0, 0⟩ s (by simp [Least]) (by simp [Greatest]) h2
  simpa using this

/-- Go's order of strings is the lexicographic order of their bytes. -/
theorem bytesLt_iff (a b : Bytes) : bytesLt a b = true ↔ a.map (·.toNat) < b.map (·.toNat) := by
  induction a generalizing b with
  | nil => cases b <;> simp [bytesLt]
  | cons x a ih =>
    cases b with
    | nil => simp [bytesLt]
    | cons y b =>
      simp only [bytesLt, List.map_cons, List.cons_lt_cons_iff]
      by_cases h1 : x.toNat < y.toNat
      · simp [h1]
      · by_cases h2 : y.toNat < x.toNat
        · simp [h1, h2]; omega
        · have : x.toNat = y.toNat := by omega
          simp [this, ih]

/-- The greatest of some byte strings in lexicographic order. -/
def GreatestBytes (xs : List Bytes) (m : Bytes) : Prop := m ∈ xs ∧ ∀ x ∈ xs, ¬ m.map (·.toNat) < x.map (·.toNat)

theorem greatestBytes_step {xs : List Bytes} {m x : Bytes} (h : GreatestBytes xs m) :
    GreatestBytes (xs ++ [x]) (if bytesLt m x then x else m) := by
  obtain ⟨h1, h2⟩ := h
  by_cases hx : bytesLt m x = true
  · rw [if_pos hx]
    rw [bytesLt_iff] at hx
    refine ⟨by simp, fun y hy hl => ?_⟩
    rcases List.mem_append.mp hy with hy | hy
    · exact h2 y hy (List.lt_trans hx hl)
    · simp at hy; subst hy; exact List.lt_irrefl _ hl
  · rw [if_neg hx]
    rw [bytesLt_iff] at hx
    refine ⟨List.mem_append_left _ h1, fun y hy => ?_⟩
    rcases List.mem_append.mp hy with hy | hy
    · exact h2 y hy
    · simp at hy; subst hy; exact hx

theorem bytesLt_nil (a : Bytes) : bytesLt a [] = false := by cases a <;> rfl

theorem nil_bytesLt {a : Bytes} (h : a ≠ []) : bytesLt [] a = true := by cases a with
  | nil => exact absurd rfl h
  | cons _ _ => rfl

/-- Statistics after strings without a long one. -/
theorem string_add_short (m : Bytes) (n : Nat) (x : Bytes) (hx : x.length < 1024) :
    StringStats.add ⟨some [], some m, none, none, n⟩ x = ⟨some [], some (if bytesLt m x then x else m), none, none, n + x.length⟩ := by
  have hl : ¬ x.length ≥ maxByteLength := by simp only [maxByteLength]; omega
  simp only [StringStats.add, bytesLt_nil, Bool.false_eq_true, if_false, if_neg hl]
  cases h : bytesLt m x <;> simp [hl]

/-- The first long string. -/
theorem string_add_long (m : Bytes) (n : Nat) (x : Bytes) (hx : 1024 ≤ x.length) :
    StringStats.add ⟨some [], some m, none, none, n⟩ x = ⟨none, none, some [], some x, n + x.length⟩ := by
  have hl : x.length ≥ maxByteLength := hx
  have hne : x ≠ [] := by intro h; simp [h] at hx
  simp only [StringStats.add, bytesLt_nil, Bool.false_eq_true, if_false]
  cases h : bytesLt m x <;> simp [hl, nil_bytesLt hne, bytesLt_nil]

/-- A string after one long string. -/
theorem string_add_after (u : Bytes) (n : Nat) (x : Bytes) :
    StringStats.add ⟨none, none, some [], some u, n⟩ x =
      if 1024 ≤ x.length then ⟨none, none, none, none, n + x.length⟩
      else ⟨none, none, some [], some (if x = [] then u else x), n + x.length⟩ := by
  by_cases hl : x.length ≥ maxByteLength
  · rw [if_pos (show 1024 ≤ x.length from hl)]
    simp only [StringStats.add, if_pos hl]
  · rw [if_neg (show ¬ 1024 ≤ x.length from hl)]
    simp only [StringStats.add, if_neg hl, Option.getD_none, bytesLt_nil, Bool.false_eq_true, if_false]
    by_cases hx : x = []
    · subst hx; simp [bytesLt_nil]
    · simp [nil_bytesLt hx, hx]

theorem string_add_lost (n : Nat) (x : Bytes) : StringStats.add ⟨none, none, none, none, n⟩ x = ⟨none, none, none, none, n + x.length⟩ := by
  by_cases hl : x.length ≥ maxByteLength <;> simp [StringStats.add, hl]

theorem string_add_sum (s : StringStats) (x : Bytes) : (s.add x).sum = s.sum + x.length := by
  let fA : StringStats → StringStats := fun s => { s with sum := s.sum + x.length }
  let fB : StringStats → StringStats := fun s => match s.min with
    | some m => if bytesLt x m then { s with min := some x } else s
    | none => s
  let fC : StringStats → StringStats := fun s => match s.max with
    | some m => if bytesLt m x then { s with max := some x } else s
    | none => s
  let fD : StringStats → StringStats := fun s =>
    if x.length ≥ maxByteLength then { s with lower := s.min, min := none, upper := s.max, max := none } else s
  let fE : StringStats → StringStats := fun s => match s.lower with
    | some _ => if bytesLt x (s.max.getD []) then { s with lower := some x } else s
    | none => s
  let fF : StringStats → StringStats := fun s => match s.upper with
    | some _ => if bytesLt (s.max.getD []) x then { s with upper := some x } else s
    | none => s
  have eB : ∀ s, (fB s).sum = s.sum := by intro s; simp only [fB]; split <;> (try split) <;> rfl
  have eC : ∀ s, (fC s).sum = s.sum := by intro s; simp only [fC]; split <;> (try split) <;> rfl
  have eD : ∀ s, (fD s).sum = s.sum := by intro s; simp only [fD]; split <;> rfl
  have eE : ∀ s, (fE s).sum = s.sum := by intro s; simp only [fE]; split <;> (try split) <;> rfl
  have eF : ∀ s, (fF s).sum = s.sum := by intro s; simp only [fF]; split <;> (try split) <;> rfl
  have : s.add x = fF (fE (fD (fC (fB (fA s))))) := rfl
  rw [this, eF, eE, eD, eC, eB]

theorem string_fold (f : StringStats → GoVal → Res StringStats) (hf : ∀ s x, f s (.str x) = .ok (s.add x)) (xs : List Bytes) (s : StringStats) :
    foldRes f s (xs.map .str) = .ok (xs.foldl StringStats.add s) := by
  induction xs generalizing s with
  | nil => rfl
  | cons x xs ih => simp only [List.map_cons, foldRes, hf, Res.ok_bind, ih, List.foldl_cons]

theorem string_fold_short (xs : List Bytes) (ys : List Bytes) (m : Bytes) (n : Nat) (hm : GreatestBytes ([] :: ys) m)
    (hs : ∀ x ∈ xs, x.length < 1024) :
    ∃ m', xs.foldl StringStats.add ⟨some [], some m, none, none, n⟩ = ⟨some [], some m', none, none, n + (xs.map List.length).sum⟩ ∧
      GreatestBytes ([] :: (ys ++ xs)) m' := by
  induction xs generalizing ys m n with
  | nil => exact ⟨m, by simp, by simpa using hm⟩
  | cons x xs ih =>
    simp only [List.foldl_cons, string_add_short m n x (hs x List.mem_cons_self)]
    obtain ⟨m', h1, h2⟩ := ih (ys ++ [x]) _ (n + x.length) (greatestBytes_step (x := x) hm) (fun y hy => hs y (List.mem_cons_of_mem _ hy))
    exact ⟨m', by rw [h1]; simp [Nat.add_assoc], by simpa using h2⟩

theorem string_fold_after (xs : List Bytes) (u : Bytes) (n : Nat) (hs : ∀ x ∈ xs, x.length < 1024) :
    xs.foldl StringStats.add ⟨none, none, some [], some u, n⟩ =
      ⟨none, none, some [], some (((u :: xs.filter (· ≠ [])).getLast?).getD []), n + (xs.map List.length).sum⟩ := by
  induction xs generalizing u n with
  | nil => simp
  | cons x xs ih =>
    have := hs x List.mem_cons_self
    simp only [List.foldl_cons, string_add_after, if_neg (show ¬ 1024 ≤ x.length by omega)]
    rw [ih _ _ (fun y hy => hs y (List.mem_cons_of_mem _ hy))]
    by_cases hx : x = []
    · subst hx; simp
    · simp [hx, Nat.add_assoc]

theorem string_fold_lost (xs : List Bytes) (n : Nat) :
    xs.foldl StringStats.add ⟨none, none, none, none, n⟩ = ⟨none, none, none, none, n + (xs.map List.length).sum⟩ := by
  induction xs generalizing n with
  | nil => simp
  | cons x xs ih => simp only [List.foldl_cons, string_add_lost, ih, List.map_cons, List.sum_cons, Nat.add_assoc]

/-- **C44** String columns, exactly. The sum is the total length. The minimum is always the empty string and the maximum
is right, as long as no string has 1024 bytes or more; after the first such string there are only bounds, the lower one
empty and the upper one the last non-empty string since; after the second there is nothing at all. -/
theorem string_column_stats (c : Codec) (o : COpts) (hasNulls : Bool) (ops : List ColOp)
    (w : ColWriter (StreamWriter Unit × StreamWriter IntEnc) StringStats)
    (h : stringKind.runOps c o (stringKind.newWriter o hasNulls) ops = .ok w) (xs : List Bytes)
    (hx : valuesOf (rowsWritten ops) = xs.map .str) :
    ∃ s, w.stats.typed = some s ∧ s.sum = (xs.map List.length).sum ∧
      ((∀ x ∈ xs, x.length < 1024) → s.min = some [] ∧ (∃ m, s.max = some m ∧ GreatestBytes ([] :: xs) m) ∧ s.lower = none ∧ s.upper = none) ∧
      (∀ a l b, xs = a ++ l :: b → (∀ x ∈ a ++ b, x.length < 1024) → 1024 ≤ l.length →
        s.min = none ∧ s.max = none ∧ s.lower = some [] ∧ s.upper = (l :: b.filter (· ≠ [])).getLast?) ∧
      (∀ a l b l' d, xs = a ++ l :: b ++ l' :: d → (∀ x ∈ a ++ b, x.length < 1024) → 1024 ≤ l.length → 1024 ≤ l'.length →
        s.min = none ∧ s.max = none ∧ s.lower = none ∧ s.upper = none) := by
  obtain ⟨s, h1, h2⟩ := stringKind.runOps_stats c o (by
    intro t v t1 _ u t2 u' hu
    simp only [stringKind] at hu
    cases u with
    | none => simp at hu
    | some s =>
      cases v with
      | str x =>
        simp only [Res.ok.injEq, Prod.mk.injEq] at hu
        exact hu.1.symm
      | _ => simp at hu) ops _ w h ⟨some [], some [], none, none, 0⟩ rfl
  rw [hx] at h2
  have h2 := (string_fold _ (fun _ _ => rfl) xs _).symm.trans h2
  simp only [Res.ok.injEq] at h2
  have hm : GreatestBytes ([] :: []) [] := ⟨by simp, by simp⟩
  have hlong : ∀ a l b, (∀ x ∈ a ++ b, x.length < 1024) → 1024 ≤ l.length →
      (a ++ l :: b).foldl StringStats.add ⟨some [], some [], none, none, 0⟩ =
        ⟨none, none, some [], some (((l :: b.filter (· ≠ [])).getLast?).getD []), (a.map List.length).sum + l.length + (b.map List.length).sum⟩ := by
    intro a l b hs hl
    obtain ⟨m, e1, -⟩ := string_fold_short a [] [] 0 hm (fun x hx => hs x (List.mem_append_left _ hx))
    rw [List.foldl_append, e1, List.foldl_cons, string_add_long _ _ _ hl, string_fold_after _ _ _ (fun x hx => hs x (List.mem_append_right _ hx))]
    simp
  refine ⟨s, h1, ?_, fun hs => ?_, fun a l b he hs hl => ?_, fun a l b l' d he hs hl hl' => ?_⟩
  · rw [← h2]
    have : ∀ (xs : List Bytes) (s : StringStats), (xs.foldl StringStats.add s).sum = s.sum + (xs.map List.length).sum := by
      intro xs
      induction xs with
      | nil => intro s; simp
      | cons x xs ih =>
        intro s
        have : (s.add x).sum = s.sum + x.length := string_add_sum s x
        simp only [List.foldl_cons, ih, this, List.map_cons, List.sum_cons, Nat.add_assoc]
    rw [this]; simp
  · obtain ⟨m', e1, e2⟩ := string_fold_short xs [] [] 0 hm hs
    rw [e1] at h2
    subst h2
    exact ⟨rfl, ⟨m', rfl, by simpa using e2⟩, rfl, rfl⟩
  · rw [he, hlong a l b hs hl] at h2
    subst h2
    refine ⟨rfl, rfl, rfl, ?_⟩
    cases hg : (l :: b.filter (· ≠ [])).getLast? with
    | none => simp at hg
    | some _ => simp
  · rw [he, List.foldl_append, hlong a l b hs hl, List.foldl_cons, string_add_after, if_pos hl', string_fold_lost] at h2
    subst h2
    exact ⟨rfl, rfl, rfl, rfl⟩

/-- Comparison of numbers without NaN: never both ways, and "not less" is transitive. -/
def OrderedBy {α : Type} (lt : α → α → Bool) (xs : List α) : Prop :=
  (∀ x ∈ xs, ∀ y ∈ xs, lt x y = true → lt y x = false) ∧
  ∀ x ∈ xs, ∀ y ∈ xs, ∀ z ∈ xs, lt x y = false → lt y z = false → lt x z = false

theorem fold_least {α : Type} (lt : α → α → Bool) (xs ys : List α) (m : α) (hm : m ∈ ys)
    (hl : OrderedBy lt (ys ++ xs) → ∀ y ∈ ys, lt y m = false) :
    (xs.foldl (fun m x => if lt x m then x else m) m) ∈ ys ++ xs ∧
      (OrderedBy lt (ys ++ xs) → ∀ y ∈ ys ++ xs, lt y (xs.foldl (fun m x => if lt x m then x else m) m) = false) := by
  induction xs generalizing ys m with
  | nil => simpa using ⟨hm, by simpa using hl⟩
  | cons x xs ih =>
    have e : ys ++ x :: xs = (ys ++ [x]) ++ xs := by simp
    rw [e] at hl ⊢
    rw [List.foldl_cons]
    refine ih (ys ++ [x]) _ ?_ (fun ho => ?_)
    · cases lt x m <;> simp [hm]
    · have hmem : ∀ z ∈ ys ++ [x], z ∈ (ys ++ [x]) ++ xs := fun z hz => List.mem_append_left _ hz
      have hx : x ∈ ys ++ [x] := by simp
      have hm' : m ∈ ys ++ [x] := List.mem_append_left _ hm
      intro y hy
      cases hc : lt x m with
      | false =>
        simp only [Bool.false_eq_true, if_false]
        rcases List.mem_append.mp hy with hy | hy
        · exact hl ho y hy
        · simp at hy; subst hy; exact hc
      | true =>
        simp only [if_true]
        rcases List.mem_append.mp hy with hy | hy
        · exact ho.2 y (hmem y (List.mem_append_left _ hy)) m (hmem m hm') x (hmem x hx) (hl ho y hy) (ho.1 x (hmem x hx) m (hmem m hm') hc)
        · simp at hy; subst hy
          cases hyy : lt y y with
          | false => rfl
          | true => rw [ho.1 y (hmem y hx) y (hmem y hx) hyy] at hyy; cases hyy

theorem OrderedBy.flip {α : Type} {lt : α → α → Bool} {xs : List α} (h : OrderedBy lt xs) : OrderedBy (fun x y => lt y x) xs :=
  ⟨fun x hx y hy hxy => h.1 y hy x hx hxy, fun x hx y hy z hz h1 h2 => h.2 z hz y hy x hx h2 h1⟩

theorem double_fold (A : Arith) (xs : List (BitVec 64)) (s : DoubleStats) : xs.foldl (DoubleStats.add A) s =
    ⟨xs.foldl (fun m x => if A.lt x m then x else m) s.min, xs.foldl (fun m x => if A.lt m x then x else m) s.max, xs.foldl A.add s.sum⟩ := by
  induction xs generalizing s with
  | nil => rfl
  | cons x xs ih => simp only [List.foldl_cons, ih, DoubleStats.add]

/-- **C44** Float and double columns, exactly: over the values and 0, in the order of the comparison; the sum is the
floating point sum in the order of the rows. -/
theorem float_column_stats (A : Arith) (is64 : Bool) (c : Codec) (o : COpts) (hasNulls : Bool) (ops : List ColOp)
    (w : ColWriter (StreamWriter Unit) DoubleStats)
    (h : (floatKind A is64).runOps c o ((floatKind A is64).newWriter o hasNulls) ops = .ok w) (xs : List (BitVec 64))
    (hx : (valuesOf (rowsWritten ops)).map (floatValue A is64) = xs.map .ok) :
    ∃ s, w.stats.typed = some s ∧ s.sum = xs.foldl A.add 0 ∧ s.min ∈ 0 :: xs ∧ s.max ∈ 0 :: xs ∧
      (OrderedBy A.lt (0 :: xs) → ∀ x ∈ 0 :: xs, A.lt x s.min = false ∧ A.lt s.max x = false) := by
  obtain ⟨s, h1, h2⟩ := (floatKind A is64).runOps_stats c o (by
    intro t v t1 _ u t2 u' hu
    simp only [floatKind] at hu
    cases v with
    | f64 x =>
      cases u with
      | none => simp at hu
      | some s =>
        simp only [Res.ok.injEq, Prod.mk.injEq] at hu
        exact hu.1.symm
    | _ => simp at hu) ops _ w h ⟨0, 0, 0⟩ rfl
  have hfold : ∀ (vals : List GoVal) (xs : List (BitVec 64)) (s s' : DoubleStats), vals.map (floatValue A is64) = xs.map .ok →
      foldRes (floatKind A is64).addStats s vals = .ok s' → s' = xs.foldl (DoubleStats.add A) s := by
    intro vals
    induction vals with
    | nil =>
      intro xs s s' hm hf
      cases xs with
      | nil => simp only [foldRes, Res.ok.injEq] at hf; simp [hf]
      | cons _ _ => simp at hm
    | cons v vals ih =>
      intro xs s s' hm hf
      cases xs with
      | nil => simp at hm
      | cons x xs =>
        simp only [List.map_cons, List.cons.injEq] at hm
        simp only [foldRes, floatKind, hm.1, Res.ok_bind, Res.pure_eq] at hf
        exact ih xs _ _ hm.2 hf
  have hs := hfold _ xs _ _ hx h2
  rw [double_fold] at hs
  obtain ⟨a1, a2⟩ := fold_least A.lt xs [0] 0 (by simp) (fun ho y hy => by
    simp only [List.mem_singleton] at hy; subst hy
    cases hyy : A.lt 0 0 with
    | false => rfl
    | true => rw [ho.1 0 (by simp) 0 (by simp) hyy] at hyy; cases hyy)
  obtain ⟨b1, b2⟩ := fold_least (fun x y => A.lt y x) xs [0] 0 (by simp) (fun ho y hy => by
    simp only [List.mem_singleton] at hy; subst hy
    cases hyy : A.lt 0 0 with
    | false => rfl
    | true => have := ho.1 0 (by simp) 0 (by simp) hyy; simp only [hyy] at this; cases this)
  subst hs
  exact ⟨_, h1, rfl, a1, b1, fun ho x hx => ⟨a2 ho x hx, b2 ho.flip x hx⟩⟩

/-- Milliseconds of a timestamp as the writer computes them (C13), and those relative to UTC. -/
def GoVal.millis : GoVal → Int × Int
  | .ts l x n => ((Timestamp.getMilliSeconds ⟨l, x, n⟩).toInt, (Timestamp.getMilliSecondsUtc ⟨l, x, n⟩).toInt)
  | _ => (0, 0)

/-- **C44** Timestamp columns, exactly: the maximum is over the values and 0; the UTC minimum and maximum stay 0 whatever is
written; the minimum is replaced by the UTC milliseconds of every value before the epoch used. -/
theorem timestamp_column_stats (c : Codec) (o : COpts) (hasNulls : Bool) (ops : List ColOp)
    (w : ColWriter (StreamWriter IntEnc × StreamWriter IntEnc) TsStats)
    (h : timestampKind.runOps c o (timestampKind.newWriter o hasNulls) ops = .ok w) :
    ∃ s, w.stats.typed = some s ∧ s.minUtc = 0 ∧ s.maxUtc = 0 ∧
      Greatest (0 :: (valuesOf (rowsWritten ops)).map (fun v => v.millis.1)) s.max.toInt ∧
      s.min.toInt = (valuesOf (rowsWritten ops)).foldl
        (fun m v => if v.millis.1 < 0 then v.millis.2 else if v.millis.1 < m then v.millis.1 else m) 0 := by
  obtain ⟨s, h1, h2⟩ := timestampKind.runOps_stats c o (by
    intro t v t1 _ u t2 u' hu
    cases v with
    | ts l x n =>
      simp only [timestampKind, Res.ok.injEq, Prod.mk.injEq] at hu
      exact hu.1.symm
    | _ => simp [timestampKind] at hu) ops _ w h ⟨0, 0, 0, 0⟩ rfl
  refine ⟨s, h1, ?_⟩
  have hadd : ∀ (s : TsStats) (ms utc : U64), s.minUtc = 0 → s.maxUtc = 0 →
      (s.add ms utc).minUtc = 0 ∧ (s.add ms utc).maxUtc = 0 ∧
      (s.add ms utc).max.toInt = (if s.max.toInt < ms.toInt then ms.toInt else s.max.toInt) ∧
      (s.add ms utc).min.toInt = (if ms.toInt < 0 then utc.toInt else if ms.toInt < s.min.toInt then ms.toInt else s.min.toInt) := by
    intro s ms utc e1 e2
    obtain ⟨a, b, c', d⟩ := s
    simp only at e1 e2
    subst e1 e2
    simp only [TsStats.add, BitVec.slt]
    have z : (0 : U64).toInt = 0 := rfl
    by_cases ha : ms.toInt < a.toInt <;> by_cases hb : b.toInt < ms.toInt <;> by_cases hz : ms.toInt < 0 <;> simp [ha, hb, hz]
  have : ∀ (vals : List GoVal) (xs : List Int) (s s' : TsStats), s.minUtc = 0 → s.maxUtc = 0 → Greatest (0 :: xs) s.max.toInt →
      foldRes timestampKind.addStats s vals = .ok s' →
      s'.minUtc = 0 ∧ s'.maxUtc = 0 ∧ Greatest (0 :: (xs ++ vals.map (fun v => v.millis.1))) s'.max.toInt ∧
      s'.min.toInt = vals.foldl (fun m v => if v.millis.1 < 0 then v.millis.2 else if v.millis.1 < m then v.millis.1 else m) s.min.toInt := by
    intro vals
    induction vals with
    | nil =>
      intro xs s s' g1 g2 g3 hf
      simp only [foldRes, Res.ok.injEq] at hf
      subst hf
      simpa using ⟨g1, g2, g3⟩
    | cons v vals ih =>
      intro xs s s' g1 g2 g3 hf
      simp only [foldRes] at hf
      obtain ⟨s1, e1, hf⟩ := Res.bind_eq_ok.mp hf
      cases v with
      | ts l x n =>
        simp only [timestampKind, Res.ok.injEq] at e1
        subst e1
        obtain ⟨k1, k2, k3, k4⟩ := hadd s (Timestamp.getMilliSeconds ⟨l, x, n⟩) (Timestamp.getMilliSecondsUtc ⟨l, x, n⟩) g1 g2
        have := ih (xs ++ [(Timestamp.getMilliSeconds ⟨l, x, n⟩).toInt]) _ s' k1 k2 (greatest_step g3 k3) hf
        rw [k4] at this
        have hm : GoVal.millis (.ts l x n) = ((Timestamp.getMilliSeconds ⟨l, x, n⟩).toInt, (Timestamp.getMilliSecondsUtc ⟨l, x, n⟩).toInt) := rfl
        simp only [List.append_assoc, List.cons_append, List.nil_append] at this
        simp only [List.map_cons, List.foldl_cons, hm]
        exact this
      | _ => simp [timestampKind] at e1
  simpa using this (valuesOf (rowsWritten ops)) [] ⟨0, 0, 0, 0⟩ s rfl rfl (by simp [Greatest]) h2

/-- The sum of decimals as the writer keeps it: a formatted number that is parsed again for every value. -/
def decimalSum (A : Arith) (vals : List (U64 × Int)) : Option (BitVec 64) :=
  vals.foldl (fun acc v => some (A.add ((acc.map fun y => (A.parse (A.format y)).getD 0).getD 0) (A.decFloat v.1 v.2))) none

/-- **C44** Decimal columns (without row index, C47), exactly: the minimum is always the empty string, the maximum the
greatest text. -/
theorem decimal_column_stats (A : Arith) (hA : ∀ y, A.format y ≠ []) (c : Codec) (o : COpts) (hwi : o.writeIndex = false) (hasNulls : Bool)
    (ops : List ColOp) (w : ColWriter (StreamWriter Unit × StreamWriter IntEnc) DecStats)
    (h : (decimalKind A).runOps c o ((decimalKind A).newWriter o hasNulls) ops = .ok w) (xs : List (U64 × Int))
    (hx : valuesOf (rowsWritten ops) = xs.map fun v => .dec v.1 v.2) :
    ∃ s, w.stats.typed = some s ∧ s.min = [] ∧ GreatestBytes ([] :: xs.map fun v => A.decString v.1 v.2) s.max ∧
      s.sum = ((decimalSum A xs).map A.format).getD [] := by
  have hst : ∀ (ops : List ColOp) (w w' : ColWriter (StreamWriter Unit × StreamWriter IntEnc) DecStats),
      (decimalKind A).runOps c o w ops = .ok w' → ∀ t, w.stats.typed = some t →
      ∃ t', w'.stats.typed = some t' ∧ foldRes (decimalKind A).addStats t (valuesOf (rowsWritten ops)) = .ok t' := by
    intro ops w w' hr t ht
    have hk : ∀ (K : LeafKind (StreamWriter Unit × StreamWriter IntEnc) DecStats), K = { decimalKind A with addIndex := fun t u _ => .ok (t, u) } →
        ∀ ops w, (decimalKind A).runOps c o w ops = K.runOps c o w ops := by
      intro K hK ops
      induction ops with
      | nil => intro w; rfl
      | cons op ops ih =>
        intro w
        subst hK
        cases op with
        | write v =>
          simp only [LeafKind.runOps]
          have : (decimalKind A).write c o w v = LeafKind.write { decimalKind A with addIndex := fun t u _ => .ok (t, u) } c o w v := by
            simp [LeafKind.write, hwi, LeafKind.writeNonNull]
          rw [this]
          congr 1
          funext w1
          exact ih w1
        | flush => simp only [LeafKind.runOps]; congr 1; funext w1; exact ih w1
        | writeOut => simp only [LeafKind.runOps]; congr 1; funext w1; exact ih w1.1
        | reset => simp only [LeafKind.runOps]; congr 1; funext w1; exact ih w1
    rw [hk _ rfl] at hr
    obtain ⟨t', e1, e2⟩ := LeafKind.runOps_stats _ c o (by
      intro t v t1 _ u t2 u' hu
      simp only [Res.ok.injEq, Prod.mk.injEq] at hu
      exact hu.1.symm) ops w w' hr t ht
    exact ⟨t', e1, e2⟩
  obtain ⟨s, h1, h2⟩ := hst ops _ w h ⟨[], [], []⟩ rfl
  refine ⟨s, h1, ?_⟩
  rw [hx] at h2
  have : ∀ (xs ys : List (U64 × Int)) (s s' : DecStats) (acc : Option (BitVec 64)), s.min = [] →
      GreatestBytes ([] :: ys.map fun v => A.decString v.1 v.2) s.max → s.sum = (acc.map A.format).getD [] →
      foldRes (decimalKind A).addStats s (xs.map fun v => .dec v.1 v.2) = .ok s' →
      s'.min = [] ∧ GreatestBytes ([] :: (ys ++ xs).map fun v => A.decString v.1 v.2) s'.max ∧
      s'.sum = ((xs.foldl (fun acc v => some (A.add ((acc.map fun y => (A.parse (A.format y)).getD 0).getD 0) (A.decFloat v.1 v.2))) acc).map A.format).getD [] := by
    intro xs
    induction xs with
    | nil =>
      intro ys s s' acc g1 g2 g3 hf
      simp only [List.map_nil, foldRes, Res.ok.injEq] at hf
      subst hf
      simpa using ⟨g1, g2, g3⟩
    | cons x xs ih =>
      intro ys s s' acc g1 g2 g3 hf
      simp only [List.map_cons, foldRes] at hf
      obtain ⟨s1, e1, hf⟩ := Res.bind_eq_ok.mp hf
      obtain ⟨mn, mx, sm⟩ := s
      simp only at g1 g2 g3
      subst g1
      have k : s1 = ⟨[], if bytesLt mx (A.decString x.1 x.2) then A.decString x.1 x.2 else mx,
          A.format (A.add ((acc.map fun y => (A.parse (A.format y)).getD 0).getD 0) (A.decFloat x.1 x.2))⟩ := by
        simp only [decimalKind, DecStats.add, bytesLt_nil, Bool.false_eq_true, if_false] at e1
        have hs : ∀ mx', (⟨[], mx', sm⟩ : DecStats).sum = sm := fun _ => rfl
        cases acc with
        | none =>
          simp only [Option.map_none, Option.getD_none] at g3
          subst g3
          cases hb : bytesLt mx (A.decString x.1 x.2) <;> simp_all
        | some y =>
          simp only [Option.map_some, Option.getD_some] at g3
          subst g3
          cases hp : A.parse (A.format y) with
          | none =>
            cases hb : bytesLt mx (A.decString x.1 x.2) <;> simp [hb, parseFloat, hA y, hp] at e1
          | some z =>
            cases hb : bytesLt mx (A.decString x.1 x.2) <;> simp [hb, parseFloat, hA y, hp] at e1 <;> simp [← e1, hp]
      subst k
      have := ih (ys ++ [x]) _ s' (some _) rfl (by
        have := greatestBytes_step (x := A.decString x.1 x.2) g2
        simpa using this) rfl hf
      simpa using this
  have := this xs [] ⟨[], [], []⟩ s none rfl ⟨by simp, by simp⟩ rfl h2
  simpa [decimalSum] using this

/-- **C44** is false: the minimum of a column holding only 5 is 0, its maximum is 0 if it holds only -5. -/
theorem column_stats_false : ∃ (c : Codec) (o : COpts),
    ((intKind .big).runOps c o ((intKind .big).newWriter o false) [.write ⟨false, .i64 5⟩] >>= fun w => pure w.stats.typed) =
      .ok (some ⟨0, 5, 5⟩) ∧
    ((intKind .big).runOps c o ((intKind .big).newWriter o false) [.write ⟨false, .i64 (-5)⟩] >>= fun w => pure w.stats.typed) =
      .ok (some ⟨-5, 0, -5⟩) ∧
    (byteKind.runOps c o (byteKind.newWriter o false) [.write ⟨false, .u8 9⟩] >>= fun w => pure w.stats.typed) = .ok (some 1) :=
  ⟨runCodec, ⟨⟨.zlib, 100, false⟩, 10⟩, by decide +kernel, by decide +kernel, by decide +kernel⟩

/-! ### C48 -/

theorem LeafKind.writes_counts {δ κ : Type} (K : LeafKind δ κ) (c : Codec) (o : COpts) (rows : List Value) (w w' : ColWriter δ κ)
    (h : K.writes c o w rows = .ok w') : w'.hasNulls = w.hasNulls ∧ w'.stats.bytesOnDisk = w.stats.bytesOnDisk := by
  induction rows generalizing w with
  | nil =>
    simp only [writes, Res.ok.injEq] at h
    subst h
    exact ⟨rfl, rfl⟩
  | cons v rows ih =>
    simp only [writes] at h
    obtain ⟨w1, h1, h⟩ := Res.bind_eq_ok.mp h
    obtain ⟨g1, g2, -⟩ := K.write_counts c o h1
    obtain ⟨k1, k2⟩ := ih w1 h
    exact ⟨by rw [k1, g1], by rw [k2, g2]⟩

/-- The length of all streams of a stripe. -/
def totalLength (infos : List (StreamKind × Nat)) : Nat := (infos.map (·.2)).sum

/-- **C48** exactly: after any stripes `BytesOnDisk` of a column without nulls is the total of all stripes, but that of a
nullable column only counts the last stripe. -/
theorem bytes_on_disk_exact {δ κ : Type} (K : LeafKind δ κ) (c : Codec) (o : COpts) (hasNulls : Bool) (stripes : List (List Value))
    (infos : List (List (StreamKind × Nat))) (w : ColWriter δ κ)
    (h : K.writeStripes c o (K.newWriter o hasNulls) stripes = .ok (infos, w)) :
    w.stats.bytesOnDisk = if hasNulls then (infos.getLast?.map totalLength).getD 0 else (infos.map totalLength).sum := by
  have : ∀ (stripes : List (List Value)) (infos : List (List (StreamKind × Nat))) (w0 w : ColWriter δ κ),
      K.writeStripes c o w0 stripes = .ok (infos, w) →
      w.stats.bytesOnDisk = if w0.hasNulls then (infos.getLast?.map totalLength).getD w0.stats.bytesOnDisk
        else w0.stats.bytesOnDisk + (infos.map totalLength).sum := by
    intro stripes
    induction stripes with
    | nil =>
      intro infos w0 w h
      simp only [LeafKind.writeStripes, Res.ok.injEq, Prod.mk.injEq] at h
      obtain ⟨rfl, rfl⟩ := h
      simp
    | cons rows stripes ih =>
      intro infos w0 w h
      simp only [LeafKind.writeStripes] at h
      obtain ⟨w1, h1, h⟩ := Res.bind_eq_ok.mp h
      obtain ⟨w2, h2, h⟩ := Res.bind_eq_ok.mp h
      obtain ⟨⟨w3, b⟩, h3, h⟩ := Res.bind_eq_ok.mp h
      obtain ⟨w4, h4, h⟩ := Res.bind_eq_ok.mp h
      obtain ⟨⟨is, w5⟩, h5, h⟩ := Res.bind_eq_ok.mp h
      simp only [Res.pure_eq, Res.ok.injEq, Prod.mk.injEq] at h
      obtain ⟨rfl, rfl⟩ := h
      obtain ⟨a1, a2⟩ := K.writes_counts c o rows w0 w1 h1
      obtain ⟨b1, -, -, -, b2⟩ := K.flush_frame c o h2
      obtain ⟨c1, c2⟩ := K.writeOut_frame o h3
      obtain ⟨d1, d2⟩ := K.reset_frame o h4
      simp only at c1 c2
      have hb : w4.stats.bytesOnDisk = (if w0.hasNulls then 0 else w0.stats.bytesOnDisk) + totalLength (K.streamInfos w2) := by
        rw [d2, c2, b2, a1, a2]; rfl
      rw [ih is w4 w5 h5, d1, c1, b1, a1, hb]
      by_cases hn : w0.hasNulls = true
      · simp only [hn, if_true, List.getLast?_cons]
        cases is.getLast? <;> simp
      · simp only [hn, Bool.false_eq_true, if_false, List.map_cons, List.sum_cons]; omega
  have := this stripes infos _ w h
  simpa [LeafKind.newWriter] using this

/-- **C48** (partial) One stripe, or no nulls: the statistics are right. -/
theorem bytes_on_disk_partial {δ κ : Type} (K : LeafKind δ κ) (c : Codec) (o : COpts) (hasNulls : Bool) (stripes : List (List Value))
    (infos : List (List (StreamKind × Nat))) (w : ColWriter δ κ)
    (h : K.writeStripes c o (K.newWriter o hasNulls) stripes = .ok (infos, w)) (hn : hasNulls = false ∨ infos.length ≤ 1) :
    w.stats.bytesOnDisk = (infos.map totalLength).sum := by
  rw [bytes_on_disk_exact K c o hasNulls stripes infos w h]
  rcases hn with rfl | hl
  · simp
  · cases infos with
    | nil => simp
    | cons a infos =>
      have : infos = [] := by
        cases infos with
        | nil => rfl
        | cons _ _ => simp at hl
      subst this
      simp

/-- **C48** is false for nullable columns: two stripes of 10 bytes each, and 10 bytes on disk. -/
theorem bytes_on_disk_false : ∃ (c : Codec) (o : COpts) (infos : List (List (StreamKind × Nat))) (n : Nat),
    (byteKind.writeStripes c o (byteKind.newWriter o true) [[⟨false, .u8 1⟩], [⟨false, .u8 2⟩]] >>= fun r =>
      pure (r.1, r.2.stats.bytesOnDisk)) = .ok (infos, n) ∧ n = 10 ∧ (infos.map totalLength).sum = 20 :=
  ⟨runCodec, ⟨⟨.zlib, 100, false⟩, 10⟩, [[(.present, 5), (.data, 5)], [(.present, 5), (.data, 5)]], 10, by decide +kernel, by decide, by decide⟩

/-! ### Histories that meet the hypotheses -/

/-- Two stripes. -/
def exHistory (a b d : GoVal) : List ColOp :=
  [.write ⟨false, a⟩, .write ⟨true, .nil⟩, .write ⟨false, b⟩, .flush, .writeOut, .reset, .write ⟨false, d⟩, .flush, .writeOut]

example : ((intKind .small).runOps runCodec ⟨⟨.zlib, 100, false⟩, 10⟩ ((intKind .small).newWriter ⟨⟨.zlib, 100, false⟩, 10⟩ true)
    (exHistory (.i16 3) (.i16 (-7)) (.i16 500))).isOk = true := by decide +kernel
example : (byteKind.runOps runCodec ⟨⟨.zlib, 100, false⟩, 10⟩ (byteKind.newWriter ⟨⟨.zlib, 100, false⟩, 10⟩ true)
    (exHistory (.u8 3) (.u8 4) (.u8 5))).isOk = true := by decide +kernel
example : (boolKind.runOps runCodec ⟨⟨.zlib, 100, false⟩, 10⟩ (boolKind.newWriter ⟨⟨.zlib, 100, false⟩, 10⟩ true)
    (exHistory (.bool true) (.bool false) (.bool true))).isOk = true := by decide +kernel
example : (stringKind.runOps runCodec ⟨⟨.zlib, 100, false⟩, 10⟩ (stringKind.newWriter ⟨⟨.zlib, 100, false⟩, 10⟩ true)
    (exHistory (.str [97]) (.str []) (.str [98, 99]))).isOk = true := by decide +kernel
example : (binaryKind.runOps runCodec ⟨⟨.zlib, 100, false⟩, 10⟩ (binaryKind.newWriter ⟨⟨.zlib, 100, false⟩, 10⟩ true)
    (exHistory (.bytes [97]) (.bytes []) (.bytes [98, 99]))).isOk = true := by decide +kernel
example : (dateKind.runOps runCodec ⟨⟨.zlib, 100, true⟩, 2⟩ (dateKind.newWriter ⟨⟨.zlib, 100, true⟩, 2⟩ true)
    (exHistory (.date 0) (.date 86400000000000) (.date (-86400000000000)))).isOk = true := by decide +kernel
example : (timestampKind.runOps runCodec ⟨⟨.zlib, 100, true⟩, 2⟩ (timestampKind.newWriter ⟨⟨.zlib, 100, true⟩, 2⟩ true)
    (exHistory (.ts none 5 0) (.ts none 6 0) (.ts none 7 1000))).isOk = true := by decide +kernel

/-- Arithmetic on bit patterns as integers, with a formatter that never fails. -/
def exArith : Arith := ⟨fun a b => a.slt b, (· + ·), (·.signExtend 64), fun p _ => [p.setWidth 8], fun p _ => p, fun s => some (s.foldl (fun n b => n * 256 + b.setWidth 64) 0),
  fun x => [x.setWidth 8]⟩

example : ((floatKind exArith true).runOps runCodec ⟨⟨.zlib, 100, false⟩, 10⟩ ((floatKind exArith true).newWriter ⟨⟨.zlib, 100, false⟩, 10⟩ true)
    (exHistory (.f64 3) (.f64 (-7)) (.f64 500))).isOk = true := by decide +kernel
example : ((decimalKind exArith).runOps runCodec ⟨⟨.zlib, 100, false⟩, 10⟩ ((decimalKind exArith).newWriter ⟨⟨.zlib, 100, false⟩, 10⟩ true)
    (exHistory (.dec 3 0) (.dec 4 2) (.dec 5 1))).isOk = true := by decide +kernel
example : ∀ y, exArith.format y ≠ [] := by simp [exArith]
example : OrderedBy exArith.lt [0, 3, -7] := by
  refine ⟨fun x _ y _ h => ?_, fun x _ y _ z _ h h' => ?_⟩
  · simp only [exArith, BitVec.slt, decide_eq_true_eq, decide_eq_false_iff_not] at h ⊢; omega
  · simp only [exArith, BitVec.slt, decide_eq_false_iff_not] at h h' ⊢; omega
example : (valuesOf (rowsWritten (exHistory (.f64 3) (.f64 (-7)) (.f64 500)))).map (floatValue exArith true) = [3, -7, 500].map .ok := rfl
example : (byteKind.writeStripes runCodec ⟨⟨.zlib, 100, false⟩, 10⟩ (byteKind.newWriter ⟨⟨.zlib, 100, false⟩, 10⟩ false)
    [[⟨false, .u8 1⟩], [⟨false, .u8 2⟩, ⟨false, .u8 2⟩]]).isOk = true := by decide +kernel

/-- From a run that succeeds to its result. -/
theorem Res.isOk_inv {α : Type} {r : Res α} (h : r.isOk = true) : ∃ a, r = .ok a := by
  cases r with
  | ok a => exact ⟨a, rfl⟩
  | _ => cases h

/-- Two stripes of a nullable column of bytes: the statistics count three values, "typed" included. -/
example : ∃ w, byteKind.runOps runCodec ⟨⟨.zlib, 100, false⟩, 10⟩ (byteKind.newWriter ⟨⟨.zlib, 100, false⟩, 10⟩ true)
    (exHistory (.u8 3) (.u8 4) (.u8 5)) = .ok w ∧ w.stats.numberOfValues = 3 ∧ w.stats.hasNull = true ∧ w.stats.typed = some 3 := by
  obtain ⟨w, hw⟩ := Res.isOk_inv (r := byteKind.runOps runCodec ⟨⟨.zlib, 100, false⟩, 10⟩ (byteKind.newWriter ⟨⟨.zlib, 100, false⟩, 10⟩ true)
    (exHistory (.u8 3) (.u8 4) (.u8 5))) (by decide +kernel)
  exact ⟨w, hw, (column_count _ _ _ _ _ w hw).1, (column_count _ _ _ _ _ w hw).2, byte_column_stats _ _ _ _ w hw⟩
/-- Two of three values are true. -/
example : ∃ w, boolKind.runOps runCodec ⟨⟨.zlib, 100, false⟩, 10⟩ (boolKind.newWriter ⟨⟨.zlib, 100, false⟩, 10⟩ true)
    (exHistory (.bool true) (.bool false) (.bool true)) = .ok w ∧ w.stats.typed = some 2 := by
  obtain ⟨w, hw⟩ := Res.isOk_inv (r := boolKind.runOps runCodec ⟨⟨.zlib, 100, false⟩, 10⟩ (boolKind.newWriter ⟨⟨.zlib, 100, false⟩, 10⟩ true)
    (exHistory (.bool true) (.bool false) (.bool true))) (by decide +kernel)
  exact ⟨w, hw, bool_column_stats _ _ _ _ w hw⟩
/-- The numbers 3, -7 and 500, with a null among them. -/
example : ∃ w s, (intKind .small).runOps runCodec ⟨⟨.zlib, 100, false⟩, 10⟩ ((intKind .small).newWriter ⟨⟨.zlib, 100, false⟩, 10⟩ true)
    (exHistory (.i16 3) (.i16 (-7)) (.i16 500)) = .ok w ∧ w.stats.typed = some s ∧ Least [0, 3, -7, 500] s.min.toInt ∧ Greatest [0, 3, -7, 500] s.max.toInt ∧
    s.sum = 496 := by
  obtain ⟨w, hw⟩ := Res.isOk_inv (r := (intKind .small).runOps runCodec ⟨⟨.zlib, 100, false⟩, 10⟩ ((intKind .small).newWriter ⟨⟨.zlib, 100, false⟩, 10⟩ true)
    (exHistory (.i16 3) (.i16 (-7)) (.i16 500))) (by decide +kernel)
  obtain ⟨s, h1, h2, h3, h4⟩ := int_column_stats _ _ _ _ _ w hw
  exact ⟨w, s, hw, h1, h2, h3, h4⟩
/-- Strings: their lengths add up to three, and the largest is the last. -/
example : ∃ w s, stringKind.runOps runCodec ⟨⟨.zlib, 100, false⟩, 10⟩ (stringKind.newWriter ⟨⟨.zlib, 100, false⟩, 10⟩ true)
    (exHistory (.str [97]) (.str []) (.str [98, 99])) = .ok w ∧ w.stats.typed = some s ∧ s.sum = 3 ∧ s.min = some [] := by
  obtain ⟨w, hw⟩ := Res.isOk_inv (r := stringKind.runOps runCodec ⟨⟨.zlib, 100, false⟩, 10⟩ (stringKind.newWriter ⟨⟨.zlib, 100, false⟩, 10⟩ true)
    (exHistory (.str [97]) (.str []) (.str [98, 99]))) (by decide +kernel)
  obtain ⟨s, h1, h2, h3, -⟩ := string_column_stats _ _ _ _ w hw [[97], [], [98, 99]] rfl
  exact ⟨w, s, hw, h1, h2, (h3 (by simp)).1⟩
/-- Dates: the 1st, the 2nd of January 1970 and the day before them. -/
example : ∃ w s, dateKind.runOps runCodec ⟨⟨.zlib, 100, true⟩, 2⟩ (dateKind.newWriter ⟨⟨.zlib, 100, true⟩, 2⟩ true)
    (exHistory (.date 0) (.date 86400000000000) (.date (-86400000000000))) = .ok w ∧ w.stats.typed = some s ∧
    Least (0 :: [GoVal.date 0, .date 86400000000000, .date (-86400000000000)].map GoVal.day) s.min.toInt := by
  obtain ⟨w, hw⟩ := Res.isOk_inv (r := dateKind.runOps runCodec ⟨⟨.zlib, 100, true⟩, 2⟩ (dateKind.newWriter ⟨⟨.zlib, 100, true⟩, 2⟩ true)
    (exHistory (.date 0) (.date 86400000000000) (.date (-86400000000000)))) (by decide +kernel)
  obtain ⟨s, h1, h2, -⟩ := date_column_stats _ _ _ _ w hw
  exact ⟨w, s, hw, h1, h2⟩
/-- Decimals. -/
example : ∃ w s, (decimalKind exArith).runOps runCodec ⟨⟨.zlib, 100, false⟩, 10⟩ ((decimalKind exArith).newWriter ⟨⟨.zlib, 100, false⟩, 10⟩ true)
    (exHistory (.dec 3 0) (.dec 4 2) (.dec 5 1)) = .ok w ∧ w.stats.typed = some s ∧ s.min = [] := by
  obtain ⟨w, hw⟩ := Res.isOk_inv (r := (decimalKind exArith).runOps runCodec ⟨⟨.zlib, 100, false⟩, 10⟩ ((decimalKind exArith).newWriter ⟨⟨.zlib, 100, false⟩, 10⟩ true)
    (exHistory (.dec 3 0) (.dec 4 2) (.dec 5 1))) (by decide +kernel)
  obtain ⟨s, h1, h2, -⟩ := decimal_column_stats exArith (by simp [exArith]) _ _ rfl _ _ w hw [(3, 0), (4, 2), (5, 1)] rfl
  exact ⟨w, s, hw, h1, h2⟩
/-- Doubles. -/
example : ∃ w s, (floatKind exArith true).runOps runCodec ⟨⟨.zlib, 100, false⟩, 10⟩ ((floatKind exArith true).newWriter ⟨⟨.zlib, 100, false⟩, 10⟩ true)
    (exHistory (.f64 3) (.f64 (-7)) (.f64 500)) = .ok w ∧ w.stats.typed = some s ∧ s.min ∈ [0, 3, -7, 500] := by
  obtain ⟨w, hw⟩ := Res.isOk_inv (r := (floatKind exArith true).runOps runCodec ⟨⟨.zlib, 100, false⟩, 10⟩ ((floatKind exArith true).newWriter ⟨⟨.zlib, 100, false⟩, 10⟩ true)
    (exHistory (.f64 3) (.f64 (-7)) (.f64 500))) (by decide +kernel)
  obtain ⟨s, h1, -, h2, -⟩ := float_column_stats exArith true _ _ _ _ w hw [3, -7, 500] rfl
  exact ⟨w, s, hw, h1, h2⟩
/-- Two stripes of a column without nulls: the bytes on disk are those of both. -/
example : ∃ r, byteKind.writeStripes runCodec ⟨⟨.zlib, 100, false⟩, 10⟩ (byteKind.newWriter ⟨⟨.zlib, 100, false⟩, 10⟩ false)
    [[⟨false, .u8 1⟩], [⟨false, .u8 2⟩, ⟨false, .u8 2⟩]] = .ok r ∧ r.2.stats.bytesOnDisk = (r.1.map totalLength).sum := by
  obtain ⟨⟨infos, w⟩, hw⟩ := Res.isOk_inv (r := byteKind.writeStripes runCodec ⟨⟨.zlib, 100, false⟩, 10⟩ (byteKind.newWriter ⟨⟨.zlib, 100, false⟩, 10⟩ false)
    [[⟨false, .u8 1⟩], [⟨false, .u8 2⟩, ⟨false, .u8 2⟩]]) (by decide +kernel)
  exact ⟨_, hw, bytes_on_disk_partial _ _ _ _ _ _ _ hw (.inl rfl)⟩

end Goorc
