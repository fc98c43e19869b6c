import Verif.Proofs.ColOdd
/-
C38, C39, C61 and the negative side of C43 and C66: leaf columns that do not come back.
-/
namespace Goorc

theorem storeAll_mark (vecs : List (List Value)) (rows : List (Option GoVal)) : storeAll (fun old _ => old) vecs rows = markAll vecs rows := by
  induction vecs generalizing rows with
  | nil => rfl
  | cons vec vecs ih =>
    simp only [storeAll, markAll, ih]
    congr 2
    funext old row
    cases row <;> rfl

/-- The rows read from a nullable column, or one without nulls, whatever is done with the values. -/
theorem LeafTrip.kept {δ κ ρ : Type} {K : LeafKind δ κ} {R : ReadKind ρ} {c : Codec} {o : COpts} {E : ρ → Prop} (hc : c.Lossless)
    (ho : o.toWOpts.Sound) (hasNulls : Bool) (written : List Value) (hn : hasNulls = true ∨ ∀ v ∈ written, v.null = false)
    (outs : List GoVal) (h : LeafTrip K R c o E (written.filterMap Value.row) outs) (rows : List (Option GoVal))
    (hflags : rows.map (·.isSome) = written.map fun v => !v.null) (houts : rows.filterMap id = outs)
    (hprep : ∀ d : ρ, R.prepare c d = .ok d) (ok : GoVal → Prop) (hst : ∀ v, ok v → ∀ x, R.store v x = .ok v)
    (hbad : ∀ v, ¬ ok v → ∀ x, R.store v x = .panic) :
    ∃ infos body, writeColumn K c o hasNulls written = .ok (infos, body) ∧
      ∀ (pre post : Bytes) (vecs : List (List Value)), (hasNulls = false → Unmarked vecs.flatten) →
        (vecs.flatten.length ≤ rows.length → (∀ v ∈ vecs.flatten, ok v.v) →
          readColumn R c o hasNulls (pre ++ body ++ post) pre.length infos vecs = .ok (markAll vecs rows)) ∧
        (∀ (k : Nat) (old : Value) (x : GoVal), (∀ i < k, rows[i]? = some none) → rows[k]? = some (some x) → vecs.flatten[k]? = some old → ¬ ok old.v →
          readColumn R c o hasNulls (pre ++ body ++ post) pre.length infos vecs = .panic) := by
  obtain ⟨infos, body, h1, h2, h3⟩ := LeafTrip.holds hc ho hasNulls written rows hflags (fun hf => hn.resolve_left (by simp [hf])) (by rw [houts]; exact h)
  refine ⟨infos, body, h1, fun pre post vecs hu => ⟨fun hl hok => ?_, fun k old x hk hx hold hno => ?_⟩⟩
  · obtain ⟨r, g1, g2, g3⟩ := h3 pre post
    obtain ⟨r', k1, -⟩ := g2.batches hprep (fun old _ => old) vecs hl (fun hn => hu (g3.mp hn)) (fun old ho x => hst _ (hok old ho) x)
    simp only [readColumn, g1, k1, Res.ok_bind, Res.pure_eq, storeAll_mark]
  · obtain ⟨r, g1, g2, g3⟩ := h3 pre post
    have hlt : k < rows.length := (List.getElem?_eq_some_iff.mp hx).1
    have hsplit : rows = List.replicate k none ++ some x :: rows.drop (k + 1) := by
      conv => lhs; rw [← List.take_append_drop k rows, List.drop_eq_getElem_cons hlt]
      congr 1
      · apply List.ext_getElem?
        intro i
        by_cases hi : i < k
        · rw [List.getElem?_take_of_lt hi, hk i hi, List.getElem?_replicate, if_pos hi]
        · rw [List.getElem?_eq_none (by rw [List.length_take]; omega), List.getElem?_eq_none (by simp; omega)]
      · congr 1
        exact (List.getElem?_eq_some_iff.mp hx).2
    rw [hsplit] at g2
    simp only [ReadKind.Holds, List.map_append, List.map_replicate, List.map_cons, List.filterMap_append, List.filterMap_replicate,
      List.filterMap_cons, id, Option.isSome_none, Option.isSome_some] at g2
    have := ReadKind.Has.panics g2 vecs.flatten old hold (hbad _ hno x) (fun hn => hu (g3.mp hn))
    simp only [readColumn, g1, ReadKind.nextBatches_panic hprep _ _ this, Res.panic_bind]

/-! ### C38 -/

/-- A timestamp. -/
def GoVal.IsTs (v : GoVal) : Prop := ∃ l s n, v = .ts l s n

/-- A decimal. -/
def GoVal.IsDec (v : GoVal) : Prop := ∃ p s, v = .dec p s

/-- **C38** (false, exact) A timestamp column that was written can be opened, and reading marks the nulls; but what is read
is not stored: where the vector held a timestamp that one stays, and where it held anything else (`CreateVector` leaves
nil) the first non-null row is a panic. -/
theorem timestamp_column_exact {c : Codec} (hc : c.Lossless) {o : COpts} (ho : o.toWOpts.Sound) (hasNulls : Bool) (written : List Value)
    (hn : hasNulls = true ∨ ∀ v ∈ written, v.null = false) (vals : List (Option Int × U64 × U64))
    (hv : written.filterMap Value.row = vals.map fun t => .ts t.1 t.2.1 t.2.2) (hb1 : ReadsBackI (vals.map (·.2.1)))
    (hb2 : ReadsBackU (vals.map fun v => encodingNano v.2.2)) :
    ∃ infos body, writeColumn timestampKind c o hasNulls written = .ok (infos, body) ∧
      ∀ (pre post : Bytes) (vecs : List (List Value)), (hasNulls = false → Unmarked vecs.flatten) →
        (vecs.flatten.length ≤ written.length → (∀ v ∈ vecs.flatten, v.v.IsTs) →
          readColumn timestampRead c o hasNulls (pre ++ body ++ post) pre.length infos vecs = .ok (markAll vecs (written.map Value.row))) ∧
        (∀ (k : Nat) (w old : Value), (∀ i < k, ∃ v : Value, written[i]? = some v ∧ v.null = true) → written[k]? = some w → w.null = false →
          vecs.flatten[k]? = some old → ¬ old.v.IsTs →
          readColumn timestampRead c o hasNulls (pre ++ body ++ post) pre.length infos vecs = .panic) := by
  let norm : GoVal → GoVal := fun v => match v with
    | .ts _ s n => .ts none s (decodingNano (encodingNano n))
    | v => v
  have houts : ((written.map Value.row).map (Option.map norm)).filterMap id =
      vals.map fun v => .ts none v.2.1 (decodingNano (encodingNano v.2.2)) := by
    have e : ∀ l : List (Option GoVal), (l.map (Option.map norm)).filterMap id = (l.filterMap id).map norm := by
      intro l
      induction l with
      | nil => rfl
      | cons x l ih =>
        cases x with
        | none => exact ih
        | some y => exact congrArg (norm y :: ·) ih
    rw [e, rows_values, hv, List.map_map]
    rfl
  obtain ⟨infos, body, h1, h2⟩ := LeafTrip.kept (K := timestampKind) (R := timestampRead) hc ho hasNulls written hn _
    (by rw [hv]; exact ts_leaf hc ho vals hb1 hb2)
    ((written.map Value.row).map (Option.map norm)) (by
      rw [← rows_flags, List.map_map]
      apply List.map_congr_left
      intro x _
      cases x <;> rfl) houts (fun _ => rfl) GoVal.IsTs (by
      rintro v ⟨l, s, n, rfl⟩ x; rfl) (by
      intro v hv x
      cases v with
      | ts l s n => exact absurd ⟨l, s, n, rfl⟩ hv
      | _ => rfl)
  refine ⟨infos, body, h1, fun pre post vecs hu => ⟨fun hl hok => ?_, fun k w old hk hw hwn hold hno => ?_⟩⟩
  · rw [(h2 pre post vecs hu).1 (by simpa using hl) hok]
    congr 1
    have e : ∀ (vecs : List (List Value)) (rows : List (Option GoVal)), markAll vecs (rows.map (Option.map norm)) = markAll vecs rows := by
      intro vecs
      induction vecs with
      | nil => intro _; rfl
      | cons vec vecs ih =>
        intro rows
        simp only [markAll, ← List.map_take, ← List.map_drop, ih, List.zipWith_map_right]
        congr 2
        funext old row
        cases row <;> rfl
    exact e _ _
  · refine (h2 pre post vecs hu).2 k old (norm w.v) (fun i hi => ?_) ?_ hold hno
    · obtain ⟨v, g1, g2⟩ := hk i hi
      simp [List.getElem?_map, g1, Value.row, g2]
    · simp [List.getElem?_map, hw, Value.row, hwn]

/-- **C38** (false, exact) The same for decimals, written without a row index (with one, writing fails:
`decimal_index_fails`). Formatted numbers are assumed to be parseable. -/
theorem decimal_column_exact {c : Codec} (hc : c.Lossless) {o : COpts} (ho : o.toWOpts.Sound) (A : Arith) (hA : A.Parses)
    (hwi : o.writeIndex = false) (hasNulls : Bool) (written : List Value)
    (hn : hasNulls = true ∨ ∀ v ∈ written, v.null = false) (vals : List (U64 × U64))
    (hv : written.filterMap Value.row = vals.map fun t => .dec t.1 t.2.toInt) (hb : ReadsBackI (vals.map (·.2))) :
    ∃ infos body, writeColumn (decimalKind A) c o hasNulls written = .ok (infos, body) ∧
      ∀ (pre post : Bytes) (vecs : List (List Value)), (hasNulls = false → Unmarked vecs.flatten) →
        (vecs.flatten.length ≤ written.length → (∀ v ∈ vecs.flatten, v.v.IsDec) →
          readColumn decimalRead c o hasNulls (pre ++ body ++ post) pre.length infos vecs = .ok (markAll vecs (written.map Value.row))) ∧
        (∀ (k : Nat) (w old : Value), (∀ i < k, ∃ v : Value, written[i]? = some v ∧ v.null = true) → written[k]? = some w → w.null = false →
          vecs.flatten[k]? = some old → ¬ old.v.IsDec →
          readColumn decimalRead c o hasNulls (pre ++ body ++ post) pre.length infos vecs = .panic) := by
  obtain ⟨infos, body, h1, h2⟩ := LeafTrip.kept (K := decimalKind A) (R := decimalRead) hc ho hasNulls written hn _
    (by rw [hv]; exact dec_leaf hc ho A hA hwi vals hb)
    (written.map Value.row) (rows_flags written) (by rw [rows_values, hv]; rfl) (fun _ => rfl) GoVal.IsDec (by
      rintro v ⟨p, s, rfl⟩ x; rfl) (by
      intro v hv x
      cases v with
      | dec p s => exact absurd ⟨p, s, rfl⟩ hv
      | _ => rfl)
  refine ⟨infos, body, h1, fun pre post vecs hu => ⟨fun hl hok => ?_, fun k w old hk hw hwn hold hno => ?_⟩⟩
  · exact (h2 pre post vecs hu).1 (by simpa using hl) hok
  · refine (h2 pre post vecs hu).2 k old w.v (fun i hi => ?_) ?_ hold hno
    · obtain ⟨v, g1, g2⟩ := hk i hi
      simp [List.getElem?_map, g1, Value.row, g2]
    · simp [List.getElem?_map, hw, Value.row, hwn]

/-! ### C39 -/

/-- **C39** (false, exact) Whatever was written to a binary column, every read that reaches the first non-null row fails;
the null rows before it are read. -/
theorem binary_column_exact {c : Codec} (hc : c.Lossless) {o : COpts} (ho : o.toWOpts.Sound) (hasNulls : Bool) (written : List Value)
    (vals : List Bytes) (hv : written.filterMap Value.row = vals.map .bytes) :
    ∃ infos body, writeColumn binaryKind c o hasNulls written = .ok (infos, body) ∧
      ∀ (pre post : Bytes) (vecs : List (List Value)), (hasNulls = false → Unmarked vecs.flatten) →
        ∀ k : Nat, (hasNulls = true → (∀ i < k, ∃ v : Value, written[i]? = some v ∧ v.null = true) ∧ ∃ w : Value, written[k]? = some w ∧ w.null = false) →
          (hasNulls = false → k = 0) →
          (k < vecs.flatten.length → ∃ e, readColumn binaryRead c o hasNulls (pre ++ body ++ post) pre.length infos vecs = .err e) ∧
          (vecs.flatten.length ≤ k → readColumn binaryRead c o hasNulls (pre ++ body ++ post) pre.length infos vecs =
            .ok (vecs.map fun vec => vec.map fun v => ⟨true, v.v⟩)) := by
  have hflat : ∀ (vecs : List (List Value)) (vs : List (List Value)), vs.flatten = (vecs.flatten.map fun v => (⟨true, v.v⟩ : Value)) →
      vs.map List.length = vecs.map List.length → vs = vecs.map fun vec => vec.map fun v => ⟨true, v.v⟩ := by
    intro vecs
    induction vecs with
    | nil => intro vs _ h2; cases vs <;> simp_all
    | cons vec vecs ih =>
      intro vs h1 h2
      cases vs with
      | nil => simp at h2
      | cons a vs =>
        simp only [List.map_cons, List.cons.injEq] at h2
        simp only [List.flatten_cons, List.map_append] at h1
        obtain ⟨e1, e2⟩ := List.append_inj h1 (by rw [h2.1, List.length_map])
        rw [e1, ih vs e2 h2.2]; rfl
  obtain ⟨infos, body, h1, h2, h3⟩ := LeafTrip.opened hc ho hasNulls written [] (by rw [hv]; exact binary_leaf hc ho vals)
  refine ⟨infos, body, h1, fun pre post vecs hu k hk hk0 => ?_⟩
  obtain ⟨r, g1, g2, g3⟩ := h3 pre post
  cases hasNulls with
  | true =>
    obtain ⟨hpre, w, hw, hwn⟩ := hk rfl
    have hlt : k < written.length := (List.getElem?_eq_some_iff.mp hw).1
    have hsplit : (written.map fun v => !v.null) = List.replicate k false ++ true :: (written.drop (k + 1)).map fun v => !v.null := by
      conv => lhs; rw [← List.take_append_drop k written, List.drop_eq_getElem_cons hlt, List.map_append, List.map_cons]
      congr 1
      · apply List.ext_getElem?
        intro i
        by_cases hi : i < k
        · obtain ⟨v, e1, e2⟩ := hpre i hi
          rw [List.getElem?_map, List.getElem?_take_of_lt hi, e1, List.getElem?_replicate, if_pos hi]
          simp [e2]
        · rw [List.getElem?_eq_none (by rw [List.length_map, List.length_take]; omega), List.getElem?_eq_none (by simp; omega)]
      · congr 1
        rw [(List.getElem?_eq_some_iff.mp hw).2, hwn]; rfl
    simp only [if_true] at g2
    rw [hsplit] at g2
    refine ⟨fun hl => ?_, fun hl => ?_⟩
    · obtain ⟨e, he⟩ := g2.stuck (fun _ h => h) vecs.flatten hl (fun hn => by have := g3.mp hn; cases this)
      exact ⟨e, by simp only [readColumn, g1, ReadKind.nextBatches_err (fun _ => rfl) _ _ _ he, Res.err_bind]⟩
    · have hrep : List.replicate k false = List.replicate vecs.flatten.length false ++ List.replicate (k - vecs.flatten.length) false := by
        rw [List.replicate_append_replicate]; congr 1; omega
      rw [hrep, List.append_assoc] at g2
      obtain ⟨r', k1, -⟩ := g2.nulls vecs.flatten rfl
      rw [ReadKind.nextBatches_flatten (fun _ => rfl)] at k1
      obtain ⟨⟨vs, r2⟩, e1, e2⟩ := Res.bind_ok_inv k1
      simp only [Res.pure_eq, Res.ok.injEq, Prod.mk.injEq] at e2
      have hlen : ∀ (vecs : List (List Value)) (r : ColReader TextReader) vs r2, binaryRead.nextBatches c r vecs = .ok (vs, r2) →
          vs.map List.length = vecs.map List.length := by
        have hrow : ∀ (vec : List Value) (r : ColReader TextReader) v r2, binaryRead.nextRows c r vec = .ok (v, r2) → v.length = vec.length := by
          intro vec
          induction vec with
          | nil => intro r v r2 h; cases h; rfl
          | cons old vec ih =>
            intro r v r2 h
            simp only [ReadKind.nextRows] at h
            obtain ⟨x1, -, h⟩ := Res.bind_ok_inv h
            obtain ⟨x2, -, h⟩ := Res.bind_ok_inv h
            obtain ⟨⟨x3, r3⟩, e3, h⟩ := Res.bind_ok_inv h
            simp only [Res.pure_eq, Res.ok.injEq, Prod.mk.injEq] at h
            rw [← h.1, List.length_cons, List.length_cons, ih _ _ _ e3]
        intro vecs
        induction vecs with
        | nil => intro r vs r2 h; cases h; rfl
        | cons vec vecs ih =>
          intro r vs r2 h
          simp only [ReadKind.nextBatches] at h
          obtain ⟨⟨x1, r1⟩, e1, h⟩ := Res.bind_ok_inv h
          obtain ⟨⟨x2, r3⟩, e2, h⟩ := Res.bind_ok_inv h
          simp only [Res.pure_eq, Res.ok.injEq, Prod.mk.injEq] at h
          rw [← h.1, List.map_cons, List.map_cons, ih _ _ _ e2]
          congr 1
          exact hrow vec r x1 r1 e1
      simp only [readColumn, g1, e1, Res.ok_bind, Res.pure_eq]
      congr 1
      exact hflat vecs vs e2.1 (hlen _ _ _ _ e1)
  | false =>
    have hkz := hk0 rfl
    subst hkz
    have hpn := g3.mpr rfl
    refine ⟨fun hl => ?_, fun hl => ?_⟩
    · have g2' : binaryRead.Has c (PresentEnd c written.length) (Ends (binaryRead.next c)) r (List.replicate 0 false ++ true :: []) [] := by
        simp only [ReadKind.Has, hpn, Bool.false_eq_true, if_false] at g2 ⊢
        obtain ⟨d', -, h⟩ := g2
        exact ⟨d', rfl, h⟩
      obtain ⟨e, he⟩ := g2'.stuck (fun _ h => h) vecs.flatten hl (fun _ => hu rfl)
      exact ⟨e, by simp only [readColumn, g1, ReadKind.nextBatches_err (fun _ => rfl) _ _ _ he, Res.err_bind]⟩
    · have hnil : vecs.flatten = [] := List.eq_nil_of_length_eq_zero (by omega)
      have : ∀ (vecs : List (List Value)) (r : ColReader TextReader), vecs.flatten = [] →
          binaryRead.nextBatches c r vecs = .ok (vecs.map (fun vec => vec.map fun v => ⟨true, v.v⟩), r) := by
        intro vecs
        induction vecs with
        | nil => intro _ _; rfl
        | cons vec vecs ih =>
          intro r h
          simp only [List.flatten_cons, List.append_eq_nil_iff] at h
          rw [h.1]
          have := ih r h.2
          simp only [ReadKind.nextBatches, ReadKind.nextBatch, binaryRead, Res.ok_bind, ReadKind.nextRows] at this ⊢
          rw [this]; rfl
      simp only [readColumn, g1, this vecs r hnil, Res.ok_bind, Res.pure_eq]

/-! ### C61 -/

/-- **C61** (false, exact) A tinyint column without nulls read into one vector: rows the vector has marked null from an
earlier use are passed over, so they stay null and the values behind them move. (Nullable columns overwrite the marks:
`byte_column_roundtrip` holds for every vector.) -/
theorem byte_column_reuse_exact {c : Codec} (hc : c.Lossless) {o : COpts} (ho : o.toWOpts.Sound) (vals : List Byte) :
    ∃ infos body, writeColumn byteKind c o false (vals.map fun b => ⟨false, .u8 b⟩) = .ok (infos, body) ∧
      ∀ (pre post : Bytes) (vec : List Value), (vec.filter fun v => !v.null).length ≤ vals.length →
        readColumn byteRead c o false (pre ++ body ++ post) pre.length infos [vec] = .ok [pour vec (vals.map .u8)] := by
  have hv : (vals.map fun b => (⟨false, .u8 b⟩ : Value)).filterMap Value.row = vals.map .u8 := by
    rw [List.filterMap_map]
    simp only [Function.comp_def, Value.row, Bool.false_eq_true, if_false]
    induction vals with
    | nil => rfl
    | cons _ _ ih => simp [ih]
  obtain ⟨infos, body, h1, h2, h3⟩ := LeafTrip.opened (K := byteKind) (R := byteRead) hc ho false (vals.map fun b => ⟨false, .u8 b⟩) (vals.map .u8)
    (by rw [hv]; exact byte_leaf hc ho vals)
  refine ⟨infos, body, h1, fun pre post vec hl => ?_⟩
  obtain ⟨r, g1, g2, g3⟩ := h3 pre post
  have hpn := g3.mpr rfl
  simp only [ReadKind.Has, hpn] at g2
  obtain ⟨d', -, hy, -⟩ := g2
  obtain ⟨r', k⟩ := ReadKind.nextRows_pour (R := byteRead) (c := c) (vals.map .u8) vec (by simpa using hl) r d' hpn hy rfl
  have hb : byteRead.nextBatch c r vec = .ok (pour vec (vals.map .u8), r') := k
  simp only [readColumn, g1, ReadKind.nextBatches, hb, Res.ok_bind, Res.pure_eq]

/-- Two values into a vector whose first row was null before: the first value ends up in the second row. -/
theorem column_reuse_false : pour [⟨true, .nil⟩, ⟨false, .nil⟩] [.u8 1, .u8 2] = [⟨true, .nil⟩, ⟨false, .u8 1⟩] ∧
    pour [⟨false, .nil⟩, ⟨false, .nil⟩] [.u8 1, .u8 2] = [⟨false, .u8 1⟩, ⟨false, .u8 2⟩] := ⟨rfl, rfl⟩

/-! ### C43 -/

/-- **C43** is false: a null handed to a tinyint column without nulls is not an error, and the row after it takes its
place. -/
theorem null_dropped_false {c : Codec} (hc : c.Lossless) {o : COpts} (ho : o.toWOpts.Sound) :
    ∃ infos body, writeColumn byteKind c o false [⟨true, .nil⟩, ⟨false, .u8 7⟩] = .ok (infos, body) ∧
      ∀ pre post, readColumn byteRead c o false (pre ++ body ++ post) pre.length infos [[⟨false, .nil⟩]] = .ok [[⟨false, .u8 7⟩]] := by
  obtain ⟨infos, body, h1, h2⟩ := byte_column_drops_nulls hc ho [⟨true, .nil⟩, ⟨false, .u8 7⟩] [7] rfl
  exact ⟨infos, body, h1, fun pre post => h2 pre post [[⟨false, .nil⟩]] (by simp) (fun _ => by simp [Unmarked])⟩

/-! ### C66 -/

/-- **C66** (false, exact) Boolean columns without nulls end with up to seven `false` rows that were never written. -/
theorem bool_column_end {c : Codec} (hc : c.Lossless) {o : COpts} (ho : o.toWOpts.Sound) (vals : List Bool) :
    ColumnEnds boolKind boolRead c o false (vals.map fun b => ⟨false, .bool b⟩)
      ((vals ++ padding vals.length).map fun b => some (.bool b)) := by
  have hv : (vals.map fun b => (⟨false, .bool b⟩ : Value)).filterMap Value.row = vals.map .bool := by
    rw [List.filterMap_map]
    simp only [Function.comp_def, Value.row, Bool.false_eq_true, if_false]
    induction vals with
    | nil => rfl
    | cons _ _ ih => simp [ih]
  obtain ⟨infos, body, h1, h2, h3⟩ := LeafTrip.opened (K := boolKind) (R := boolRead) hc ho false (vals.map fun b => ⟨false, .bool b⟩) (vals.map .bool)
    (by rw [hv]; exact bool_leaf hc ho vals)
  refine ⟨infos, body, h1, fun pre post vecs hu => ?_⟩
  obtain ⟨r, g1, g2, g3⟩ := h3 pre post
  have hpn := g3.mpr rfl
  have hh : boolRead.Holds c (Ends (BoolReader.next c)) (Ends (boolRead.next c)) r ((vals ++ padding vals.length).map fun b => some (.bool b)) := by
    simp only [ReadKind.Holds, ReadKind.Has, hpn] at g2 ⊢
    obtain ⟨d', -, hy, d2, hy2, he⟩ := g2
    refine ⟨d2, by simp, ?_, he⟩
    have e : ((vals ++ padding vals.length).map fun b => some (GoVal.bool b)).filterMap id = vals.map .bool ++ (padding vals.length).map .bool := by
      rw [← List.map_append, List.filterMap_map]
      generalize vals ++ padding vals.length = l
      induction l with
      | nil => rfl
      | cons x l ih => simp
    rw [e]
    exact hy.append hy2
  refine ⟨fun hl => ?_, fun hl => ?_⟩
  · obtain ⟨r', k1, -⟩ := hh.batches (fun _ => rfl) (fun _ x => x) vecs hl (fun _ => hu rfl) (by intro old _ x; rfl)
    simp only [readColumn, g1, k1, Res.ok_bind, Res.pure_eq, storeAll_replace]
  · obtain ⟨e, he⟩ := hh.past (fun _ hp => hp) (fun _ _ h => h) rfl _ hl (fun _ => hu rfl)
    exact ⟨e, by simp only [readColumn, g1, ReadKind.nextBatches_err (fun _ => rfl) _ _ _ he, Res.err_bind]⟩

/-! ### Instances -/

/-- A timestamp column of two equal timestamps and a null, read into the vectors `CreateVector` makes. -/
example : ∃ infos body, writeColumn timestampKind runCodec exOpts true
      [⟨true, .nil⟩, ⟨false, .ts none 1000 1⟩, ⟨false, .ts none 1000 1⟩] = .ok (infos, body) ∧
    ∀ pre post, readColumn timestampRead runCodec exOpts true (pre ++ body ++ post) pre.length infos [[⟨false, .nil⟩, ⟨false, .nil⟩]] = .panic := by
  obtain ⟨infos, body, h1, h2⟩ := timestamp_column_exact runCodec_lossless exOpts_sound true
    [⟨true, .nil⟩, ⟨false, .ts none 1000 1⟩, ⟨false, .ts none 1000 1⟩] (Or.inl rfl) [(none, 1000, 1), (none, 1000, 1)] rfl
    (int_const_roundtrip_partial 2 1000 (by decide) ⟨2, by decide, by decide, by decide, by decide⟩)
    (uint_const_roundtrip_partial 2 (encodingNano 1) (by decide) ⟨1, by decide, by decide, by decide, by decide⟩)
  refine ⟨infos, body, h1, fun pre post => (h2 pre post _ (fun h => by cases h)).2 1 ⟨false, .ts none 1000 1⟩ ⟨false, .nil⟩ ?_ rfl rfl rfl ?_⟩
  · intro i hi
    have : i = 0 := by omega
    subst this
    exact ⟨_, rfl, rfl⟩
  · rintro ⟨l, s, n, h⟩; cases h

/-- A binary column of one value. -/
example : ∃ infos body, writeColumn binaryKind runCodec exOpts false [⟨false, .bytes [1, 2]⟩] = .ok (infos, body) ∧
    ∀ pre post, ∃ e, readColumn binaryRead runCodec exOpts false (pre ++ body ++ post) pre.length infos [[⟨false, .nil⟩]] = .err e := by
  obtain ⟨infos, body, h1, h2⟩ := binary_column_exact runCodec_lossless exOpts_sound false [⟨false, .bytes [1, 2]⟩] [[1, 2]] rfl
  exact ⟨infos, body, h1, fun pre post => (h2 pre post [[⟨false, .nil⟩]] (fun _ => by simp [Unmarked]) 0 (fun h => by cases h) (fun _ => rfl)).1
    (by decide)⟩

end Goorc
