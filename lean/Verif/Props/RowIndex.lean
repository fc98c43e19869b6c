import Verif.Proofs.ColIndex
import Verif.Props.ColumnStats
/-
C45 and the writing half of C46: the row index of a stripe.
-/
namespace Goorc

theorem LeafKind.counted_eq {δ κ : Type} (K : LeafKind δ κ) (rows : List Value) : K.counted rows = K.indexed rows := by
  simp only [counted, indexed]
  cases K.indexAllRows <;> simp

theorem LeafKind.Known.indep {δ κ : Type} {K : LeafKind δ κ} (h : K.Known) : K.IndexIndep := by
  intro t t1 u v t' u' e
  cases h with
  | byte => cases u <;> simp_all [byteKind]
  | bool => cases u <;> simp_all [boolKind]
  | int bits =>
    cases u with
    | none => simp [intKind] at e
    | some s =>
      simp only [intKind] at e ⊢
      obtain ⟨x, h1, e⟩ := Res.bind_eq_ok.mp e
      simp only [Res.pure_eq, Res.ok.injEq, Prod.mk.injEq] at e
      exact ⟨t1, by simp [h1, e.2]⟩
  | float A is64 => cases v <;> cases u <;> simp_all [floatKind]
  | string => cases v <;> cases u <;> simp_all [stringKind]
  | binary => cases u <;> simp_all [binaryKind]
  | date => cases v <;> simp_all [dateKind]
  | timestamp => cases v <;> simp_all [timestampKind]
  | decimal A =>
    cases v with
    | dec p sc =>
      simp only [decimalKind, DecStats.addIndex] at e ⊢
      obtain ⟨u1, h1, e⟩ := Res.bind_eq_ok.mp e
      obtain ⟨x, h2, e⟩ := Res.bind_eq_ok.mp e
      simp only [Res.pure_eq, Res.ok.injEq, Prod.mk.injEq] at e
      refine ⟨?_, ?_⟩
      rotate_left
      · rw [h1, Res.ok_bind, h2, Res.ok_bind, ← e.2]; rfl
    | _ => simp [decimalKind] at e

section
variable {δ κ : Type} {K : LeafKind δ κ} {c : Codec} {o : COpts} {hasNulls : Bool} {rows : List Value} {w : ColWriter δ κ}

/-- **C46** (writing) The index has one entry for every full group of rows, and the positions in entry `k` are those of the
streams after exactly `(k + 1) * stride` rows; for all types but timestamp and decimal. -/
theorem row_index_positions (hK : K.Known) (ha : K.indexAllRows = true) (hi : o.writeIndex = true) (hS : 1 ≤ o.stride)
    (hw : K.writes c o (K.newWriter o hasNulls) rows = .ok w) :
    w.index.length = rows.length / o.stride ∧
    ∀ k e, w.index[k]? = some e → ∃ wk, K.writes c o (K.newWriter o hasNulls) (rows.take ((k + 1) * o.stride)) = .ok wk ∧ e.positions = K.positions o wk := by
  obtain ⟨h1, h2⟩ := K.index_spec c o hi hS hK.indep (K.newWriter o hasNulls) K.firstIndex (hasNulls && K.firstIndexHasNull) rfl rfl (by simp [LeafKind.newWriter, hi]) rows w hw
  have hc : ∀ l, K.counted l = l := by intro l; rw [K.counted_eq, LeafKind.indexed, if_pos ha]
  simp only [hc] at h1 h2
  refine ⟨h1, fun k e he => ?_⟩
  obtain ⟨-, m, g1, g2, g3, wk, g4, g5⟩ := h2 k e he
  have : m + 1 = (k + 1) * o.stride := by
    rw [List.length_take] at g2; omega
  exact ⟨wk, by rw [← this]; exact g4, g5⟩

/-- **C46** (writing, partial) For every type the positions in entry `k` are those after the row that brings the number of
indexed rows to `(k + 1) * stride`; timestamp and decimal columns do not count nulls. -/
theorem row_index_positions_partial (hK : K.Known) (hi : o.writeIndex = true) (hS : 1 ≤ o.stride)
    (hw : K.writes c o (K.newWriter o hasNulls) rows = .ok w) :
    w.index.length = (K.indexed rows).length / o.stride ∧
    ∀ k e, w.index[k]? = some e → ∃ m, m < rows.length ∧ (K.indexed (rows.take (m + 1))).length = (k + 1) * o.stride ∧
      (K.indexed (rows.take m)).length + 1 = (k + 1) * o.stride ∧
      ∃ wk, K.writes c o (K.newWriter o hasNulls) (rows.take (m + 1)) = .ok wk ∧ e.positions = K.positions o wk := by
  obtain ⟨h1, h2⟩ := K.index_spec c o hi hS hK.indep (K.newWriter o hasNulls) K.firstIndex (hasNulls && K.firstIndexHasNull) rfl rfl (by simp [LeafKind.newWriter, hi]) rows w hw
  simp only [K.counted_eq] at h1 h2
  exact ⟨h1, fun k e he => (h2 k e he).2⟩

/-- **C45** exactly, counts: entry `k` counts the non-null rows of the group that starts and ends one row early. -/
theorem row_group_count (hK : K.Known) (hi : o.writeIndex = true) (hS : 1 ≤ o.stride)
    (hw : K.writes c o (K.newWriter o hasNulls) rows = .ok w) (k : Nat) (e : IndexEntry κ) (he : w.index[k]? = some e) :
    e.stats.numberOfValues = (valuesOf (earlyGroup o.stride k (K.indexed rows))).length ∧
      e.stats.hasNull = (if k = 0 then hasNulls && K.firstIndexHasNull else hasNulls) ∧ e.stats.bytesOnDisk = 0 := by
  obtain ⟨-, h2⟩ := K.index_spec c o hi hS hK.indep (K.newWriter o hasNulls) K.firstIndex (hasNulls && K.firstIndexHasNull) rfl rfl (by simp [LeafKind.newWriter, hi]) rows w hw
  simp only [K.counted_eq] at h2
  obtain ⟨⟨g1, g2, g3, -⟩, -⟩ := h2 k e he
  exact ⟨g3, g1, g2⟩

/-- Do the first entries of the row indexes of columns with nulls say so? -/
def FirstEntryNulls {δ κ : Type} (K : LeafKind δ κ) (flag : Bool) : Prop :=
  ∀ (c : Codec) (o : COpts) (hasNulls : Bool) (rows : List Value) (w : ColWriter δ κ) (e : IndexEntry κ), o.writeIndex = true → 1 ≤ o.stride →
    K.writes c o (K.newWriter o hasNulls) rows = .ok w → w.index[0]? = some e → e.stats.hasNull = (hasNulls && flag)

/-- **C45** exactly, nulls: the first entry of a row index says that there are nulls for boolean columns only, whatever the rows. -/
theorem first_entry_nulls (A : Arith) : FirstEntryNulls boolKind true ∧ FirstEntryNulls byteKind false ∧ (∀ b, FirstEntryNulls (intKind b) false) ∧
    (∀ b, FirstEntryNulls (floatKind A b) false) ∧ FirstEntryNulls stringKind false ∧ FirstEntryNulls binaryKind false ∧ FirstEntryNulls dateKind false ∧
    FirstEntryNulls timestampKind false ∧ FirstEntryNulls (decimalKind A) false := by
  refine ⟨?_, ?_, fun b => ?_, fun b => ?_, ?_, ?_, ?_, ?_, ?_⟩ <;> intro c o hasNulls rows w e h1 h2 h3 h4
  · exact (row_group_count .bool h1 h2 h3 0 e h4).2.1
  · exact (row_group_count .byte h1 h2 h3 0 e h4).2.1
  · exact (row_group_count (.int b) h1 h2 h3 0 e h4).2.1
  · exact (row_group_count (.float A b) h1 h2 h3 0 e h4).2.1
  · exact (row_group_count .string h1 h2 h3 0 e h4).2.1
  · exact (row_group_count .binary h1 h2 h3 0 e h4).2.1
  · exact (row_group_count .date h1 h2 h3 0 e h4).2.1
  · exact (row_group_count .timestamp h1 h2 h3 0 e h4).2.1
  · exact (row_group_count (.decimal A) h1 h2 h3 0 e h4).2.1

theorem row_group_typed (hK : K.Known) (hi : o.writeIndex = true) (hS : 1 ≤ o.stride)
    (hw : K.writes c o (K.newWriter o hasNulls) rows = .ok w) (k : Nat) (e : IndexEntry κ) (he : w.index[k]? = some e) :
    foldRes K.indexStep (K.groupStart K.firstIndex k) (valuesOf (earlyGroup o.stride k (K.indexed rows))) = .ok e.stats.typed := by
  obtain ⟨-, h2⟩ := K.index_spec c o hi hS hK.indep (K.newWriter o hasNulls) K.firstIndex (hasNulls && K.firstIndexHasNull) rfl rfl (by simp [LeafKind.newWriter, hi]) rows w hw
  simp only [K.counted_eq] at h2
  exact (h2 k e he).1.2.2.2

/-- **C45** (partial) The count is right exactly if the last row of the group and the last row of the group before it are
both null or both not; for the first group, if its last row is null. -/
theorem row_group_count_partial (hK : K.Known) (ha : K.indexAllRows = true) (hi : o.writeIndex = true) (hS : 1 ≤ o.stride)
    (hw : K.writes c o (K.newWriter o hasNulls) rows = .ok w) (k : Nat) (e : IndexEntry κ) (he : w.index[k]? = some e) :
    e.stats.numberOfValues = (valuesOf (rowGroup o.stride k rows)).length ↔
      (rows[(k + 1) * o.stride - 1]?.map (·.null)) = if k = 0 then some true else rows[k * o.stride - 1]?.map (·.null) := by
  have hlt := (List.getElem?_eq_some_iff.mp he).1
  obtain ⟨hlen, -⟩ := row_index_positions hK ha hi hS hw
  rw [(row_group_count hK hi hS hw k e he).1, LeafKind.indexed, if_pos ha]
  rw [hlen] at hlt
  have hle : (k + 1) * o.stride ≤ rows.length := by
    calc (k + 1) * o.stride ≤ rows.length / o.stride * o.stride := Nat.mul_le_mul_right _ hlt
    _ ≤ rows.length := Nat.div_mul_le_self _ _
  have hval : ∀ v : Value, (valuesOf [v]).length = if v.null then 0 else 1 := by
    intro v; cases hn : v.null <;> simp [valuesOf, hn]
  by_cases h0 : k = 0
  · subst h0
    simp only [rowGroup, earlyGroup, if_true, Nat.zero_mul, List.drop_zero]
    simp only [Nat.zero_add, Nat.one_mul] at hle ⊢
    have hlt' : o.stride - 1 < rows.length := by omega
    have : rows.take o.stride = rows.take (o.stride - 1) ++ [rows[o.stride - 1]] := by
      rw [List.take_append_getElem]; congr 1; omega
    rw [this, valuesOf_append, List.length_append, hval, List.getElem?_eq_getElem hlt']
    cases hb : rows[o.stride - 1].null <;> simp [hb]
  · have hk1 : 1 ≤ k * o.stride := Nat.mul_pos (by omega) (by omega)
    have hkS : (k + 1) * o.stride = k * o.stride + o.stride := by rw [Nat.add_mul]; omega
    generalize hn : k * o.stride = n at *
    have h1 : n - 1 < rows.length := by omega
    have h2 : (k + 1) * o.stride - 1 < rows.length := by omega
    have e1 : earlyGroup o.stride k rows = rows[n - 1] :: (rows.drop n).take (o.stride - 1) := by
      rw [earlyGroup, if_neg h0, hn, List.drop_eq_getElem_cons h1]
      obtain ⟨S, hS'⟩ : ∃ S, o.stride = S + 1 := ⟨o.stride - 1, by omega⟩
      rw [hS', List.take_succ_cons]
      congr 2
      · congr 1; omega
    have e2 : rowGroup o.stride k rows = (rows.drop n).take (o.stride - 1) ++ [rows[(k + 1) * o.stride - 1]] := by
      rw [rowGroup, hn]
      have h3 : o.stride - 1 < (rows.drop n).length := by rw [List.length_drop]; omega
      have : (rows.drop n).take o.stride = (rows.drop n).take (o.stride - 1) ++ [(rows.drop n)[o.stride - 1]] := by
        rw [List.take_append_getElem]; congr 1; omega
      rw [this]
      congr 2
      rw [List.getElem_drop]
      congr 1; omega
    rw [e1, e2, valuesOf_cons, valuesOf_append, List.length_append, List.length_append, hval, hval, List.getElem?_eq_getElem h1, List.getElem?_eq_getElem h2,
      if_neg h0]
    simp only [Option.map_some, Option.some.injEq]
    cases hb : rows[n - 1].null <;> cases hb' : rows[(k + 1) * o.stride - 1].null <;> simp [hb, hb'] <;> omega

end

theorem foldRes_lift {κ : Type} (f : κ → GoVal → Res κ) (g : Option κ → GoVal → Res (Option κ))
    (h : ∀ s v u, g (some s) v = .ok u → ∃ s', u = some s' ∧ f s v = .ok s') (vals : List GoVal) (s : κ) (u : Option κ)
    (e : foldRes g (some s) vals = .ok u) : ∃ s', u = some s' ∧ foldRes f s vals = .ok s' := by
  induction vals generalizing s with
  | nil =>
    simp only [foldRes, Res.ok.injEq] at e
    exact ⟨s, e.symm, rfl⟩
  | cons v vals ih =>
    simp only [foldRes] at e
    obtain ⟨u1, e1, e⟩ := Res.bind_eq_ok.mp e
    obtain ⟨s1, rfl, e2⟩ := h s v u1 e1
    obtain ⟨s', g1, g2⟩ := ih s1 e
    exact ⟨s', g1, by simp only [foldRes, e2, Res.ok_bind, g2]⟩

/-- **C45** exactly, integer columns. -/
theorem int_row_group_stats (bits : IntBits) (c : Codec) (o : COpts) (hasNulls : Bool) (hi : o.writeIndex = true) (hS : 1 ≤ o.stride) (rows : List Value)
    (w : ColWriter (StreamWriter IntEnc) IntStats) (hw : (intKind bits).writes c o ((intKind bits).newWriter o hasNulls) rows = .ok w) (k : Nat)
    (e : IndexEntry IntStats) (he : w.index[k]? = some e) :
    let xs := (valuesOf (earlyGroup o.stride k rows)).map GoVal.number
    ∃ s, e.stats.typed = some s ∧ Least (0 :: xs) s.min.toInt ∧ Greatest (0 :: xs) s.max.toInt ∧ s.sum = BitVec.ofInt 64 xs.sum := by
  intro xs
  have h := row_group_typed (.int bits) hi hS hw k e he
  have hind : (intKind bits).indexed rows = rows := rfl
  rw [hind] at h
  have hst : (intKind bits).groupStart (intKind bits).firstIndex k = some ⟨0, 0, 0⟩ := by
    simp [LeafKind.groupStart, intKind]
  rw [hst] at h
  obtain ⟨s, h1, h2⟩ := foldRes_lift (intKind bits).addStats _ (by
    intro s v u hu
    simp only [LeafKind.indexStep, intKind] at hu ⊢
    obtain ⟨⟨t, u1⟩, h1, hu⟩ := Res.bind_eq_ok.mp hu
    obtain ⟨x, h2, h1⟩ := Res.bind_eq_ok.mp h1
    simp only [Res.pure_eq, Res.ok.injEq, Prod.mk.injEq] at h1 hu
    exact ⟨s.add x, by rw [← hu, ← h1.2], by simp [h2]⟩) _ _ _ h
  have := int_fold _ [] ⟨0, 0, 0⟩ s (by simp [Least]) (by simp [Greatest]) rfl h2
  exact ⟨s, h1, by simpa [xs] using this⟩

theorem sameStep_group {δ κ : Type} {K : LeafKind δ κ} (hK : K.Known) (ha : K.indexAllRows = true) (hf : K.firstIndex = some K.fresh)
    (hstep : ∀ s v u, K.indexStep (some s) v = .ok u → ∃ s', u = some s' ∧ K.addStats s v = .ok s')
    (settled : ∀ t v t1, K.addStats t v = .ok t1 → ∀ u t2 u', K.addIndex t1 u v = .ok (t2, u') → t2 = t1)
    {c : Codec} {o : COpts} {hasNulls : Bool} (hi : o.writeIndex = true) (hS : 1 ≤ o.stride) {rows : List Value}
    {w : ColWriter δ κ} (hw : K.writes c o (K.newWriter o hasNulls) rows = .ok w) (k : Nat) (e : IndexEntry κ) (he : w.index[k]? = some e)
    (c' : Codec) (o' : COpts) (hasNulls' : Bool) (w' : ColWriter δ κ)
    (hw' : K.writes c' o' (K.newWriter o' hasNulls') (earlyGroup o.stride k rows) = .ok w') : e.stats.typed = w'.stats.typed := by
  have h := row_group_typed hK hi hS hw k e he
  rw [LeafKind.indexed, if_pos ha] at h
  have hst : K.groupStart K.firstIndex k = some K.fresh := by simp [LeafKind.groupStart, hf]
  rw [hst] at h
  obtain ⟨s, h1, h2⟩ := foldRes_lift K.addStats _ hstep _ _ _ h
  have hr : ∀ rows w, K.runOps c' o' w (rows.map .write) = K.writes c' o' w rows := by
    intro rows
    induction rows with
    | nil => intro w; rfl
    | cons v rows ih => intro w; simp only [List.map_cons, LeafKind.runOps, LeafKind.writes, ih]
  have hrw : ∀ rows, rowsWritten (List.map ColOp.write rows) = rows := by
    intro rows
    induction rows with
    | nil => rfl
    | cons v rows ih => simp only [List.map_cons, rowsWritten, ih]
  obtain ⟨t', g1, g2⟩ := K.runOps_stats c' o' settled _ _ w' ((hr _ _).trans hw') K.fresh rfl
  rw [hrw, h2] at g2
  cases g2
  rw [h1, g1]

/-- **C45** exactly, tinyint, smallint, int, bigint, double, string and binary columns: the statistics of an entry are the
column statistics (described in C44) of a column that has exactly the rows of the group that starts and ends one row early. -/
theorem row_group_stats (c : Codec) (o : COpts) (hasNulls : Bool) (hi : o.writeIndex = true) (hS : 1 ≤ o.stride) (rows : List Value) (k : Nat)
    (c' : Codec) (o' : COpts) (hasNulls' : Bool) :
    (∀ w e w', byteKind.writes c o (byteKind.newWriter o hasNulls) rows = .ok w → w.index[k]? = some e →
      byteKind.writes c' o' (byteKind.newWriter o' hasNulls') (earlyGroup o.stride k rows) = .ok w' → e.stats.typed = w'.stats.typed) ∧
    (∀ bits w e w', (intKind bits).writes c o ((intKind bits).newWriter o hasNulls) rows = .ok w → w.index[k]? = some e →
      (intKind bits).writes c' o' ((intKind bits).newWriter o' hasNulls') (earlyGroup o.stride k rows) = .ok w' → e.stats.typed = w'.stats.typed) ∧
    (∀ A w e w', (floatKind A true).writes c o ((floatKind A true).newWriter o hasNulls) rows = .ok w → w.index[k]? = some e →
      (floatKind A true).writes c' o' ((floatKind A true).newWriter o' hasNulls') (earlyGroup o.stride k rows) = .ok w' → e.stats.typed = w'.stats.typed) ∧
    (∀ w e w', stringKind.writes c o (stringKind.newWriter o hasNulls) rows = .ok w → w.index[k]? = some e →
      stringKind.writes c' o' (stringKind.newWriter o' hasNulls') (earlyGroup o.stride k rows) = .ok w' → e.stats.typed = w'.stats.typed) ∧
    (∀ w e w', binaryKind.writes c o (binaryKind.newWriter o hasNulls) rows = .ok w → w.index[k]? = some e →
      binaryKind.writes c' o' (binaryKind.newWriter o' hasNulls') (earlyGroup o.stride k rows) = .ok w' → e.stats.typed = w'.stats.typed) := by
  refine ⟨fun w e w' h1 h2 h3 => ?_, fun bits w e w' h1 h2 h3 => ?_, fun A w e w' h1 h2 h3 => ?_, fun w e w' h1 h2 h3 => ?_, fun w e w' h1 h2 h3 => ?_⟩
  · refine sameStep_group .byte rfl rfl (fun s v u hu => ?_) (fun t v t1 _ u t2 u' hu => ?_) hi hS h1 k e h2 c' o' hasNulls' w' h3
    · simp only [LeafKind.indexStep, byteKind, Res.ok_bind, Res.pure_eq, Res.ok.injEq] at hu
      exact ⟨_, hu.symm, rfl⟩
    · cases u with
      | none => simp [byteKind] at hu
      | some s => simp only [byteKind, Res.ok.injEq, Prod.mk.injEq] at hu; exact hu.1.symm
  · refine sameStep_group (.int bits) rfl rfl (fun s v u hu => ?_) (fun t v t1 _ u t2 u' hu => ?_) hi hS h1 k e h2 c' o' hasNulls' w' h3
    · simp only [LeafKind.indexStep, intKind] at hu ⊢
      obtain ⟨⟨t, u1⟩, h1, hu⟩ := Res.bind_eq_ok.mp hu
      obtain ⟨x, h2, h1⟩ := Res.bind_eq_ok.mp h1
      simp only [Res.pure_eq, Res.ok.injEq, Prod.mk.injEq] at h1 hu
      exact ⟨s.add x, by rw [← hu, ← h1.2], by simp [h2]⟩
    · cases u with
      | none => simp [intKind] at hu
      | some s =>
        simp only [intKind] at hu
        obtain ⟨x, -, hu⟩ := Res.bind_eq_ok.mp hu
        simp only [Res.pure_eq, Res.ok.injEq, Prod.mk.injEq] at hu
        exact hu.1.symm
  · refine sameStep_group (.float A true) rfl rfl (fun s v u hu => ?_) (fun t v t1 _ u t2 u' hu => ?_) hi hS h1 k e h2 c' o' hasNulls' w' h3
    · cases v with
      | f64 x =>
        simp only [LeafKind.indexStep, floatKind, Res.ok_bind, Res.pure_eq, Res.ok.injEq] at hu
        exact ⟨_, hu.symm, rfl⟩
      | _ => simp [LeafKind.indexStep, floatKind] at hu
    · cases v <;> cases u <;> simp_all [floatKind]
  · refine sameStep_group .string rfl rfl (fun s v u hu => ?_) (fun t v t1 _ u t2 u' hu => ?_) hi hS h1 k e h2 c' o' hasNulls' w' h3
    · cases v with
      | str x =>
        simp only [LeafKind.indexStep, stringKind, Res.ok_bind, Res.pure_eq, Res.ok.injEq] at hu
        exact ⟨_, hu.symm, rfl⟩
      | _ => simp [LeafKind.indexStep, stringKind] at hu
    · cases v <;> cases u <;> simp_all [stringKind]
  · refine sameStep_group .binary rfl rfl (fun s v u hu => ?_) (fun t v t1 _ u t2 u' hu => ?_) hi hS h1 k e h2 c' o' hasNulls' w' h3
    · simp only [LeafKind.indexStep, binaryKind, Res.ok_bind, Res.pure_eq, Res.ok.injEq] at hu
      exact ⟨_, hu.symm, rfl⟩
    · cases u with
      | none => simp [binaryKind] at hu
      | some s => simp only [binaryKind, Res.ok.injEq, Prod.mk.injEq] at hu; exact hu.1.symm

/-- **C45** exactly, boolean columns: the entries count the values, not those that are true. -/
theorem bool_row_group_stats (c : Codec) (o : COpts) (hasNulls : Bool) (hi : o.writeIndex = true) (hS : 1 ≤ o.stride) (rows : List Value)
    (w : ColWriter (StreamWriter BoolEnc) Nat) (hw : boolKind.writes c o (boolKind.newWriter o hasNulls) rows = .ok w) (k : Nat)
    (e : IndexEntry Nat) (he : w.index[k]? = some e) :
    e.stats.typed = some (valuesOf (earlyGroup o.stride k rows)).length := by
  have h := row_group_typed .bool hi hS hw k e he
  have hst : boolKind.groupStart boolKind.firstIndex k = some 0 := by simp [LeafKind.groupStart, boolKind]
  rw [hst] at h
  obtain ⟨s, h1, h2⟩ := foldRes_lift (fun n _ => .ok (n + 1)) _ (by
    intro s v u hu
    simp only [LeafKind.indexStep, boolKind, Res.ok_bind, Res.pure_eq, Res.ok.injEq] at hu
    exact ⟨_, hu.symm, rfl⟩) _ _ _ h
  rw [count_fold (fun _ _ => rfl)] at h2
  cases h2
  rw [h1]; simp [LeafKind.indexed, boolKind]

/-- **C45** exactly, date columns: the entries say nothing about the dates. -/
theorem date_row_group_stats (c : Codec) (o : COpts) (hasNulls : Bool) (hi : o.writeIndex = true) (hS : 1 ≤ o.stride) (rows : List Value)
    (w : ColWriter (StreamWriter IntEnc) DateStats) (hw : dateKind.writes c o (dateKind.newWriter o hasNulls) rows = .ok w) (k : Nat)
    (e : IndexEntry DateStats) (he : w.index[k]? = some e) : e.stats.typed = some ⟨0, 0⟩ := by
  have h := row_group_typed .date hi hS hw k e he
  have hst : dateKind.groupStart dateKind.firstIndex k = some ⟨0, 0⟩ := by simp [LeafKind.groupStart, dateKind]
  rw [hst] at h
  obtain ⟨s, h1, h2⟩ := foldRes_lift (fun s _ => .ok s) _ (by
    intro s v u hu
    cases v with
    | date ns =>
      simp only [LeafKind.indexStep, dateKind, Res.ok_bind, Res.pure_eq, Res.ok.injEq] at hu
      exact ⟨_, hu.symm, rfl⟩
    | _ => simp [LeafKind.indexStep, dateKind] at hu) _ _ _ h
  have : ∀ (vals : List GoVal) (s : DateStats), foldRes (fun s _ => .ok s) s vals = .ok s := by
    intro vals
    induction vals with
    | nil => intro s; rfl
    | cons v vals ih => intro s; simp only [foldRes, Res.ok_bind, ih]
  rw [this] at h2
  cases h2
  exact h1

/-- The update of timestamp index statistics with one value. -/
def GoVal.toIndex (s : TsStats) : GoVal → TsStats
  | .ts l x n => s.addIndex (Timestamp.getMilliSeconds ⟨l, x, n⟩) (Timestamp.getMilliSecondsUtc ⟨l, x, n⟩)
  | _ => s

theorem timestamp_row_group_fold (c : Codec) (o : COpts) (hasNulls : Bool) (hi : o.writeIndex = true) (hS : 1 ≤ o.stride) (rows : List Value)
    (w : ColWriter (StreamWriter IntEnc × StreamWriter IntEnc) TsStats)
    (hw : timestampKind.writes c o (timestampKind.newWriter o hasNulls) rows = .ok w) (k : Nat) (e : IndexEntry TsStats) (he : w.index[k]? = some e) :
    let vals := valuesOf (earlyGroup o.stride k (rows.filter fun v => !v.null))
    (e.stats.typed = if k = 0 ∧ vals = [] then none else some (vals.foldl GoVal.toIndex ⟨0, 0, 0, 0⟩)) ∧ ∀ v ∈ vals, ∃ l x n, v = .ts l x n := by
  intro vals
  have h := row_group_typed .timestamp hi hS hw k e he
  have hind : timestampKind.indexed rows = rows.filter fun v => !v.null := rfl
  rw [hind] at h
  change foldRes timestampKind.indexStep (timestampKind.groupStart timestampKind.firstIndex k) vals = _ at h
  have hsome : ∀ (vals : List GoVal) (s : TsStats) u, foldRes timestampKind.indexStep (some s) vals = .ok u → u = some (vals.foldl GoVal.toIndex s) := by
    intro vals
    induction vals with
    | nil => intro s u hu; simp only [foldRes, Res.ok.injEq] at hu; exact hu.symm
    | cons v vals ih =>
      intro s u hu
      simp only [foldRes] at hu
      obtain ⟨u1, e1, hu⟩ := Res.bind_eq_ok.mp hu
      cases v with
      | ts l x n =>
        simp only [LeafKind.indexStep, timestampKind, Res.ok_bind, Res.pure_eq, Res.ok.injEq, Option.getD_some] at e1
        subst e1
        exact ih _ u hu
      | _ => simp [LeafKind.indexStep, timestampKind] at e1
  have hall : ∀ (vals : List GoVal) u u', foldRes timestampKind.indexStep u vals = .ok u' → ∀ v ∈ vals, ∃ l x n, v = .ts l x n := by
    intro vals
    induction vals with
    | nil => intro _ _ _ v hv; simp at hv
    | cons v vals ih =>
      intro u u' hu y hy
      simp only [foldRes] at hu
      obtain ⟨u1, e1, hu⟩ := Res.bind_eq_ok.mp hu
      rcases List.mem_cons.1 hy with rfl | hy
      · cases y with
        | ts l x n => exact ⟨l, x, n, rfl⟩
        | _ => simp [LeafKind.indexStep, timestampKind] at e1
      · exact ih _ _ hu y hy
  refine ⟨?_, hall _ _ _ h⟩
  by_cases h0 : k = 0
  · subst h0
    have hst : timestampKind.groupStart timestampKind.firstIndex 0 = none := rfl
    rw [hst] at h
    cases hv : vals with
    | nil =>
      rw [hv] at h
      simp only [foldRes, Res.ok.injEq] at h
      simp [← h]
    | cons v vs =>
      rw [hv] at h
      simp only [foldRes] at h
      obtain ⟨u1, e1, h⟩ := Res.bind_eq_ok.mp h
      cases v with
      | ts l x n =>
        simp only [LeafKind.indexStep, timestampKind, Res.ok_bind, Res.pure_eq, Res.ok.injEq, Option.getD_none] at e1
        subst e1
        rw [hsome _ _ _ h]
        simp [GoVal.toIndex]
      | _ => simp [LeafKind.indexStep, timestampKind] at e1
  · rw [if_neg (by simp [h0])]
    have hst : timestampKind.groupStart timestampKind.firstIndex k = some ⟨0, 0, 0, 0⟩ := by simp [LeafKind.groupStart, h0, timestampKind]
    rw [hst] at h
    exact hsome _ _ _ h

theorem timestamp_index_fold (vals : List GoVal) : ∀ (xs ys : List Int) (s : TsStats), (∀ v ∈ vals, ∃ l x n, v = .ts l x n) → s.minUtc = 0 →
    Greatest (0 :: xs) s.max.toInt → Greatest (0 :: ys) s.maxUtc.toInt →
    (vals.foldl GoVal.toIndex s).minUtc = 0 ∧ Greatest (0 :: (xs ++ vals.map fun v => v.millis.1)) (vals.foldl GoVal.toIndex s).max.toInt ∧
      Greatest (0 :: (ys ++ vals.map fun v => v.millis.2)) (vals.foldl GoVal.toIndex s).maxUtc.toInt ∧
      (vals.foldl GoVal.toIndex s).min.toInt = vals.foldl (fun m v => if v.millis.2 < 0 then v.millis.2 else if v.millis.1 < m then v.millis.1 else m) s.min.toInt := by
  induction vals with
  | nil => intro xs ys s _ h1 h2 h3; simpa using ⟨h1, h2, h3⟩
  | cons v vals ih =>
    intro xs ys s hv h1 h2 h3
    obtain ⟨l, x, n, rfl⟩ := hv v (by simp)
    have hm : GoVal.millis (.ts l x n) = ((Timestamp.getMilliSeconds ⟨l, x, n⟩).toInt, (Timestamp.getMilliSecondsUtc ⟨l, x, n⟩).toInt) := rfl
    have hadd : ∀ (s : TsStats) (ms utc : U64), s.minUtc = 0 →
        (s.addIndex ms utc).minUtc = 0 ∧ (s.addIndex ms utc).max.toInt = (if s.max.toInt < ms.toInt then ms.toInt else s.max.toInt) ∧
        (s.addIndex ms utc).maxUtc.toInt = (if s.maxUtc.toInt < utc.toInt then utc.toInt else s.maxUtc.toInt) ∧
        (s.addIndex ms utc).min.toInt = (if utc.toInt < 0 then utc.toInt else if ms.toInt < s.min.toInt then ms.toInt else s.min.toInt) := by
      intro s ms utc e1
      obtain ⟨a, b, c', d⟩ := s
      simp only at e1
      subst e1
      simp only [TsStats.addIndex, BitVec.slt]
      have z : (0 : U64).toInt = 0 := rfl
      by_cases ha : ms.toInt < a.toInt <;> by_cases hb : b.toInt < ms.toInt <;> by_cases hd : d.toInt < utc.toInt <;> by_cases hz : utc.toInt < 0 <;> simp [ha, hb, hd, hz]
    obtain ⟨k1, k2, k3, k4⟩ := hadd s (Timestamp.getMilliSeconds ⟨l, x, n⟩) (Timestamp.getMilliSecondsUtc ⟨l, x, n⟩) h1
    have := ih (xs ++ [(Timestamp.getMilliSeconds ⟨l, x, n⟩).toInt]) (ys ++ [(Timestamp.getMilliSecondsUtc ⟨l, x, n⟩).toInt]) _ (fun v hv' => hv v (by simp [hv'])) k1
      (greatest_step h2 k2) (greatest_step h3 k3)
    rw [k4] at this
    simp only [List.append_assoc, List.cons_append, List.nil_append] at this
    simp only [List.map_cons, List.foldl_cons, hm]
    exact this

/-- **C45** exactly, timestamp columns: the group is counted in non-null rows; a first entry without values has no statistics. Otherwise the
maxima, in local and in UTC milliseconds, are over the values and 0; the UTC minimum is always 0; the minimum is replaced by the UTC milliseconds
of every value before the epoch. -/
theorem timestamp_row_group_stats (c : Codec) (o : COpts) (hasNulls : Bool) (hi : o.writeIndex = true) (hS : 1 ≤ o.stride) (rows : List Value)
    (w : ColWriter (StreamWriter IntEnc × StreamWriter IntEnc) TsStats)
    (hw : timestampKind.writes c o (timestampKind.newWriter o hasNulls) rows = .ok w) (k : Nat) (e : IndexEntry TsStats) (he : w.index[k]? = some e) :
    let vals := valuesOf (earlyGroup o.stride k (rows.filter fun v => !v.null))
    (k = 0 → vals = [] → e.stats.typed = none) ∧
    (¬ (k = 0 ∧ vals = []) → ∃ s, e.stats.typed = some s ∧ s.minUtc = 0 ∧ Greatest (0 :: vals.map fun v => v.millis.1) s.max.toInt ∧
      Greatest (0 :: vals.map fun v => v.millis.2) s.maxUtc.toInt ∧
      s.min.toInt = vals.foldl (fun m v => if v.millis.2 < 0 then v.millis.2 else if v.millis.1 < m then v.millis.1 else m) 0) := by
  intro vals
  obtain ⟨h, hts⟩ := timestamp_row_group_fold c o hasNulls hi hS rows w hw k e he
  refine ⟨fun h0 hv => by rw [h, if_pos ⟨h0, hv⟩], fun hne => ⟨_, by rw [h, if_neg hne], ?_⟩⟩
  have := timestamp_index_fold vals [] [] ⟨0, 0, 0, 0⟩ hts rfl (by simp [Greatest]) (by simp [Greatest])
  simpa using this

/-- **C45** is false: two rows with stride 2 give an entry whose statistics lack the second row. -/
theorem row_group_stats_false :
    ((intKind .big).writes runCodec ⟨⟨.zlib, 100, true⟩, 2⟩ ((intKind .big).newWriter ⟨⟨.zlib, 100, true⟩, 2⟩ false)
      [⟨false, .i64 5⟩, ⟨false, .i64 7⟩] >>= fun w => .ok (w.index.map (·.stats))) = .ok [⟨some ⟨0, 5, 5⟩, false, 1, 0⟩] := by decide +kernel

/-- **C46** is false for timestamps: with a null in between, the entry for stride 2 is made after the third row. -/
theorem row_index_positions_false :
    (timestampKind.writes runCodec ⟨⟨.zlib, 100, true⟩, 2⟩ (timestampKind.newWriter ⟨⟨.zlib, 100, true⟩, 2⟩ true)
      [⟨false, .ts none 5 0⟩, ⟨true, .nil⟩, ⟨false, .ts none 7 0⟩] >>= fun w => .ok (w.index.map (·.positions))) =
      .ok [[0, 0, 0, 3, 0, 0, 2, 0, 0, 2]] ∧
    (timestampKind.writes runCodec ⟨⟨.zlib, 100, true⟩, 2⟩ (timestampKind.newWriter ⟨⟨.zlib, 100, true⟩, 2⟩ true)
      [⟨false, .ts none 5 0⟩, ⟨true, .nil⟩] >>= fun w => .ok (timestampKind.positions ⟨⟨.zlib, 100, true⟩, 2⟩ w)) =
      .ok [0, 0, 0, 2, 0, 0, 1, 0, 0, 1] := by decide +kernel

/-! ### The hypotheses can be met -/

example : ((intKind .int).writes runCodec ⟨⟨.zlib, 100, true⟩, 2⟩ ((intKind .int).newWriter ⟨⟨.zlib, 100, true⟩, 2⟩ true)
    [⟨false, .i32 5⟩, ⟨true, .nil⟩, ⟨false, .i32 7⟩, ⟨false, .i32 8⟩, ⟨false, .i32 9⟩] >>= fun w => .ok (w.index.map (·.stats.numberOfValues))) = .ok [1, 1] := by
  decide +kernel

/-- Five rows of a nullable column of 32-bit integers, an index entry every two rows. -/
def exIndexRows : List Value := [⟨false, .i32 5⟩, ⟨true, .nil⟩, ⟨false, .i32 7⟩, ⟨false, .i32 8⟩, ⟨false, .i32 9⟩]
theorem exIndex_writes : ∃ w e, (intKind .int).writes runCodec ⟨⟨.zlib, 100, true⟩, 2⟩ ((intKind .int).newWriter ⟨⟨.zlib, 100, true⟩, 2⟩ true) exIndexRows = .ok w ∧
    w.index[1]? = some e := by
  have h : (match (intKind .int).writes runCodec ⟨⟨.zlib, 100, true⟩, 2⟩ ((intKind .int).newWriter ⟨⟨.zlib, 100, true⟩, 2⟩ true) exIndexRows with
    | .ok w => w.index[1]?.isSome | _ => false) = true := by decide +kernel
  revert h
  cases (intKind .int).writes runCodec ⟨⟨.zlib, 100, true⟩, 2⟩ ((intKind .int).newWriter ⟨⟨.zlib, 100, true⟩, 2⟩ true) exIndexRows with
  | ok w => intro h; obtain ⟨e, he⟩ := Option.isSome_iff_exists.mp h; exact ⟨w, e, rfl, he⟩
  | _ => intro h; cases h

/-- Its second entry counts one value: it tells of the rows 1 and 2, not of the rows 2 and 3. -/
example : ∃ w e, (intKind .int).writes runCodec ⟨⟨.zlib, 100, true⟩, 2⟩ ((intKind .int).newWriter ⟨⟨.zlib, 100, true⟩, 2⟩ true) exIndexRows = .ok w ∧
    w.index[1]? = some e ∧ e.stats.numberOfValues = 1 ∧ w.index.length = 2 := by
  obtain ⟨w, e, hw, he⟩ := exIndex_writes
  exact ⟨w, e, hw, he, (row_group_count (.int .int) rfl (by decide) hw 1 e he).1, (row_index_positions (.int .int) rfl rfl (by decide) hw).1⟩
/-- So it does not count the values of its row group. -/
example : ∃ w e, (intKind .int).writes runCodec ⟨⟨.zlib, 100, true⟩, 2⟩ ((intKind .int).newWriter ⟨⟨.zlib, 100, true⟩, 2⟩ true) exIndexRows = .ok w ∧
    w.index[1]? = some e ∧ e.stats.numberOfValues ≠ (valuesOf (rowGroup 2 1 exIndexRows)).length := by
  obtain ⟨w, e, hw, he⟩ := exIndex_writes
  exact ⟨w, e, hw, he, fun h => absurd ((row_group_count_partial (.int .int) rfl rfl (by decide) hw 1 e he).mp h) (by decide)⟩

end Goorc
