import Verif.Model.FailedWrite
import Verif.Props.Crash
import Verif.Props.ColumnTypes
import Verif.Props.ForeignFile
import Verif.Spec.Trees
/-
C96: what a `Write` that reports an error leaves behind.
-/
namespace Goorc

/-! ### The two models of `Write` agree -/

/-- The outcome alone: the state after an error is forgotten. -/
def outcome {α : Type} (x : Res (α × Bool)) : Res α := x.bind fun r => if r.2 then .ok r.1 else .err .other

theorem outcome_bind {α β : Type} (x : Res (α × Bool)) (f : α → Res (β × Bool)) (g : α → β) :
    outcome (x.bind fun r => if r.2 then f r.1 else .ok (g r.1, false)) = (outcome x).bind fun a => outcome (f a) := by
  cases x with
  | ok r =>
    obtain ⟨a, b⟩ := r
    cases b <;> rfl
  | err e => rfl
  | panic => rfl
  | hang => rfl

theorem AnyWriter.tryWrite_outcome (A : Arith) (c : Codec) (o : COpts) (w : AnyWriter) (v : Value) : outcome (w.tryWrite A c o v) = w.write A c o v := by
  unfold tryWrite
  by_cases h : w.refuses v = true
  · rw [if_pos h]
    cases w with
    | leaf t w =>
      simp only [refuses, Bool.and_eq_true, Bool.not_eq_true'] at h
      simp only [flagged, AnyWriter.write, LeafKind.write]
      cases LeafKind.writePresent c o w v with
      | ok w1 =>
        have hv : (t.kind A).writeValue c o.toWOpts w1.data v.v = .err .other := by
          have h2 := h.2
          cases t with
          | float d =>
            cases d <;> (cases hv : v.v <;> simp only [hv, LeafTag.reports, reduceCtorEq] at h2 <;> rfl)
          | string => cases hv : v.v <;> simp only [hv, LeafTag.reports, reduceCtorEq] at h2 <;> rfl
          | binary => cases hv : v.v <;> simp only [hv, LeafTag.reports, reduceCtorEq] at h2 <;> rfl
          | _ => simp only [LeafTag.reports, reduceCtorEq] at h2
        simp only [Res.ok_bind, Res.pure_eq, h.1, Bool.false_eq_true, if_false, LeafKind.writeNonNull, hv]
        rfl
      | err e => rfl
      | panic => rfl
      | hang => rfl
    | dict w =>
      simp only [refuses, Bool.and_eq_true, Bool.not_eq_true'] at h
      simp only [flagged, AnyWriter.write, DictWriter.write]
      cases writeFlag c o w.hasNulls w.present v with
      | ok p =>
        obtain ⟨h1, h2⟩ := h
        simp only [Res.ok_bind, Res.pure_eq, h1, Bool.false_eq_true, if_false]
        cases hv : v.v <;> simp only [hv, Bool.false_eq_true] at h2 <;> rfl
      | err e => rfl
      | panic => rfl
      | hang => rfl
    | struct w => simp [refuses] at h
  · rw [if_neg h]
    cases w.write A c o v <;> rfl

theorem tryRow_outcome (A : Arith) (c : Codec) (o : COpts) (i id : Nat) (s : Option Slice) (ws : List AnyWriter) :
    outcome (tryRow A c o i id s ws) = writeRow A c o i id s ws := by
  cases s with
  | none => rfl
  | some s =>
    simp only [tryRow, writeRow]
    cases hw : ws[id]? with
    | none => rfl
    | some w =>
      cases hv : s.visible[i]? with
      | none => rfl
      | some v =>
        simp only
        rw [← AnyWriter.tryWrite_outcome]
        cases w.tryWrite A c o v with
        | ok r => obtain ⟨x, b⟩ := r; cases b <;> rfl
        | err e => rfl
        | panic => rfl
        | hang => rfl

theorem tryValues_outcome (A : Arith) (c : Codec) (o : COpts) (i : Nat) (vs : List Vec) (ih : ∀ v ∈ vs, ∀ ws, outcome (tryValue A c o i ws v) = writeValue A c o i ws v) :
    ∀ ws, outcome (tryValues A c o i ws vs) = writeValues A c o i ws vs := by
  induction vs with
  | nil => intro ws; rfl
  | cons v vs ihv =>
    intro ws
    simp only [tryValues, writeValues]
    rw [← ih v (by simp)]
    have := outcome_bind (tryValue A c o i ws v) (fun ws => tryValues A c o i ws vs) id
    simp only [ihv fun v hv => ih v (by simp [hv])] at this
    exact this

theorem tryValue_outcome (A : Arith) (c : Codec) (o : COpts) (i : Nat) (v : Vec) : ∀ ws, outcome (tryValue A c o i ws v) = writeValue A c o i ws v := by
  refine Vec.ind (P := fun v => ∀ ws, outcome (tryValue A c o i ws v) = writeValue A c o i ws v) ?_ ?_ v
  · intro ws; rfl
  · intro id k s cs ih ws
    simp only [tryValue, writeValue]
    rw [← tryRow_outcome]
    have := outcome_bind (tryRow A c o i id s ws) (fun ws => tryValues A c o i ws cs) (fun x => x)
    simp only [tryValues_outcome A c o i cs ih] at this
    exact this

theorem StripeWriter.tryLoop_outcome (E : Env) (o : FOpts) (vec : Vec) (n : Nat) : ∀ (i count : Nat) (s : StripeWriter),
    outcome (tryLoop E o vec n i count s) = writeLoop E o vec n i count s := by
  induction n with
  | zero => intro i count s; rfl
  | succ n ih =>
    intro i count s
    simp only [tryLoop, writeLoop]
    rw [← tryValue_outcome]
    cases tryValue E.A E.c o.toCOpts i s.writers vec with
    | ok r =>
      obtain ⟨ws, b⟩ := r
      cases b with
      | false => rfl
      | true =>
        have e1 : outcome (.ok (ws, true)) = .ok ws := rfl
        rw [e1]
        simp only [Res.ok_bind, if_true]
        by_cases hs : size E.A o { s with writers := ws } ≥ o.stripeSize
        · rw [if_pos hs, if_pos hs]
          cases flushOut E o (addRows (count + 1) { s with writers := ws }) with
          | ok s1 =>
            simp only [Res.ok_bind]
            cases forward E.A o s1 with
            | ok s2 => exact ih _ _ _
            | err e => rfl
            | panic => rfl
            | hang => rfl
          | err e => rfl
          | panic => rfl
          | hang => rfl
        · rw [if_neg hs, if_neg hs]
          exact ih _ _ _
    | err e => rfl
    | panic => rfl
    | hang => rfl

theorem FileWriter.tryWrite_inv {E : Env} {o : FOpts} {w : FileWriter} {vec : Vec} {r : FileWriter × Bool} (h : w.tryWrite E o vec = .ok r) :
    (do let (s, fine) ← StripeWriter.tryLoop E o vec vec.len 0 0 w.stripe; pure ({ w with stripe := s }, fine) : Res (FileWriter × Bool)) = .ok r := by
  simp only [FileWriter.tryWrite] at h
  cases hv : vec.lenPanics with
  | true => rw [hv] at h; cases h
  | false => rw [hv] at h; exact h

/-- **C96** The model that keeps the state after an error has the same outcomes as the one all other theorems are about. -/
theorem tryWrite_outcome (E : Env) (o : FOpts) (w : FileWriter) (vec : Vec) : outcome (w.tryWrite E o vec) = w.write E o vec := by
  simp only [FileWriter.tryWrite, FileWriter.write, StripeWriter.write]
  cases vec.lenPanics with
  | true => rfl
  | false =>
  simp only [Bool.false_eq_true, if_false]
  rw [← StripeWriter.tryLoop_outcome]
  cases StripeWriter.tryLoop E o vec vec.len 0 0 w.stripe with
  | ok r => obtain ⟨s, b⟩ := r; cases b <;> rfl
  | err e => rfl
  | panic => rfl
  | hang => rfl

theorem tryWrite_fine (E : Env) (o : FOpts) (w w' : FileWriter) (vec : Vec) : w.tryWrite E o vec = .ok (w', true) ↔ w.write E o vec = .ok w' := by
  rw [← tryWrite_outcome]
  cases h : w.tryWrite E o vec with
  | ok r =>
    obtain ⟨x, b⟩ := r
    cases b <;> simp [outcome, Res.bind]
  | err e => simp [outcome, Res.bind]
  | panic => simp [outcome, Res.bind]
  | hang => simp [outcome, Res.bind]

theorem tryWrite_failed (E : Env) (o : FOpts) (w w' : FileWriter) (vec : Vec) (h : w.tryWrite E o vec = .ok (w', false)) : w.write E o vec = .err .other := by
  rw [← tryWrite_outcome, h]; rfl

/-! ### What an error leaves behind -/

/-- A column refuses what does not have its Go type, if it is one of those that check it. -/
theorem refuses_iff (w : AnyWriter) (v : Value) : w.refuses v = true ↔ v.null = false ∧ ¬ w.tag.Takes v.v ∧ (w.tag.refusal : Res Unit) = .err .other := by
  cases w with
  | leaf t w =>
    simp only [AnyWriter.refuses, Bool.and_eq_true, Bool.not_eq_true', AnyWriter.tag]
    cases hv : v.v <;> cases t <;> (try rename_i b; cases b) <;> simp [LeafTag.reports, WriterTag.Takes, LeafTag.Takes, WriterTag.refusal]
  | dict w =>
    simp only [AnyWriter.refuses, Bool.and_eq_true, Bool.not_eq_true', AnyWriter.tag]
    cases hv : v.v <;> simp [WriterTag.Takes, WriterTag.refusal]
  | struct w => simp [AnyWriter.refuses, AnyWriter.tag, WriterTag.Takes]

/-- The values `cells` were handed to the columns one after the other, up to the value `v` that column `id` refused: the columns have those before it, and
column `id` has the flag of `v`, if it has flags. -/
def StoppedAt (A : Arith) (c : Codec) (o : COpts) (ws : List AnyWriter) (cells pre : List (Nat × Value)) (id : Nat) (v : Value) (ws' : List AnyWriter) : Prop :=
  ∃ post ws1 x x', cells = pre ++ (id, v) :: post ∧ writeCells A c o ws pre = .ok ws1 ∧ ws1[id]? = some x ∧ v.null = false ∧ ¬ x.tag.Takes v.v ∧
    x.flagged c o v = .ok x' ∧ ws' = ws1.set id x'

theorem StoppedAt.before {A : Arith} {c : Codec} {o : COpts} {ws ws1 ws' : List AnyWriter} {cells pre : List (Nat × Value)} {id : Nat} {v : Value}
    (first more : List (Nat × Value)) (h1 : writeCells A c o ws first = .ok ws1) (h : StoppedAt A c o ws1 cells pre id v ws') :
    StoppedAt A c o ws (first ++ (cells ++ more)) (first ++ pre) id v ws' := by
  obtain ⟨post, ws2, x, x', rfl, h2, h3, h4, h5, h6, rfl⟩ := h
  exact ⟨post ++ more, ws2, x, x', by simp, by rw [writeCells_append, h1]; exact h2, h3, h4, h5, h6, rfl⟩

section
variable {A : Arith} {c : Codec} {o : COpts}

theorem tryRow_stopped {i id : Nat} {s : Option Slice} {ws ws' : List AnyWriter} (h : tryRow A c o i id s ws = .ok (ws', false)) :
    ∃ v, StoppedAt A c o ws (((visibleRows s)[i]?).map fun v => (id, v)).toList [] id v ws' := by
  cases s with
  | none => simp [tryRow] at h
  | some s =>
    simp only [tryRow] at h
    split at h
    · rename_i w v hw hv
      obtain ⟨⟨x, b⟩, h1, h⟩ := Res.bind_ok_inv h
      injection h with h
      injection h with h2 h3
      subst h2; subst h3
      simp only [AnyWriter.tryWrite] at h1
      split at h1
      · rename_i hr
        obtain ⟨y, h4, h1⟩ := Res.bind_ok_inv h1
        injection h1 with h1
        injection h1 with h1
        subst h1
        obtain ⟨r1, r2, -⟩ := (refuses_iff w v).1 hr
        exact ⟨v, [], ws, w, y, by simp [visibleRows, hv], rfl, hw, r1, r2, h4, rfl⟩
      · obtain ⟨y, -, h1⟩ := Res.bind_ok_inv h1
        injection h1 with h1
        injection h1 with _ h1
        cases h1
    · simp at h

theorem tryRow_cells {i id : Nat} {s : Option Slice} {ws ws' : List AnyWriter} (h : tryRow A c o i id s ws = .ok (ws', true)) :
    writeCells A c o ws (((visibleRows s)[i]?).map fun v => (id, v)).toList = .ok ws' := by
  have h1 : writeRow A c o i id s ws = .ok ws' := by rw [← tryRow_outcome, h]; rfl
  cases s with
  | none => exact h1
  | some s =>
    simp only [writeRow] at h1
    split at h1
    · rename_i w v hw hv
      simp only [visibleRows, hv, Option.map_some, Option.toList_some, writeCells, hw]
      exact h1
    · simp at h1

theorem tryValues_stopped {i : Nat} (vs : List Vec)
    (ih : ∀ v ∈ vs, ∀ ws ws', tryValue A c o i ws v = .ok (ws', false) → ∃ pre id x, StoppedAt A c o ws (v.raw i) pre id x ws') :
    ∀ ws ws', tryValues A c o i ws vs = .ok (ws', false) → ∃ pre id x, StoppedAt A c o ws (rawAll i vs) pre id x ws' := by
  induction vs with
  | nil => intro ws ws' h; simp [tryValues] at h
  | cons v vs ihv =>
    intro ws ws' h
    simp only [tryValues] at h
    obtain ⟨⟨ws1, b⟩, h1, h⟩ := Res.bind_ok_inv h
    cases b with
    | false =>
      injection h with h; injection h with h; subst h
      obtain ⟨pre, id, x, hs⟩ := ih v (by simp) _ _ h1
      exact ⟨pre, id, x, by simpa [rawAll] using hs.before [] (rawAll i vs) rfl⟩
    | true =>
      simp only [if_true] at h
      obtain ⟨pre, id, x, hs⟩ := ihv (fun v hv => ih v (by simp [hv])) _ _ h
      have h2 : writeValue A c o i ws v = .ok ws1 := by rw [← tryValue_outcome, h1]; rfl
      exact ⟨_, id, x, by simpa [rawAll] using hs.before (v.raw i) [] (writeValue_cells v _ _ h2)⟩

theorem tryValue_stopped {i : Nat} (v : Vec) : ∀ ws ws', tryValue A c o i ws v = .ok (ws', false) → ∃ pre id x, StoppedAt A c o ws (v.raw i) pre id x ws' := by
  refine Vec.ind (P := fun v => ∀ ws ws', tryValue A c o i ws v = .ok (ws', false) → ∃ pre id x, StoppedAt A c o ws (v.raw i) pre id x ws') ?_ ?_ v
  · intro ws ws' h; simp [tryValue] at h
  · intro id k s cs ih ws ws' h
    simp only [tryValue] at h
    obtain ⟨⟨ws1, b⟩, h1, h⟩ := Res.bind_ok_inv h
    cases b with
    | false =>
      injection h with h; injection h with h; subst h
      obtain ⟨x, hs⟩ := tryRow_stopped h1
      exact ⟨[], id, x, by simpa [Vec.raw] using hs.before [] (rawAll i cs) rfl⟩
    | true =>
      simp only [if_true] at h
      obtain ⟨pre, id', x, hs⟩ := tryValues_stopped cs ih _ _ h
      exact ⟨_, id', x, by simpa [Vec.raw] using hs.before _ [] (tryRow_cells h1)⟩

end

/-- The loop over the rows, up to row `j`: the stripes that were finished, and the rows of the current one that are not counted. -/
theorem StripeWriter.tryLoop_stopped {E : Env} {o : FOpts} {ns : List SchemaNode} {ws0 : List AnyWriter} (vec : Vec) (n : Nat) :
    ∀ (i count : Nat) (s s' : StripeWriter) (runs : List (Raws × StripeParts)) (rows : Raws), s.Traced E o ns ws0 runs rows count →
      StripeWriter.tryLoop E o vec n i count s = .ok (s', false) →
      ∃ (j : Nat) (runs' : List (Raws × StripeParts)) (rows' : Raws) (count' : Nat) (s1 : StripeWriter) (pre : List (Nat × Value)) (id : Nat) (v : Value), i ≤ j ∧ j < i + n ∧ s1.Traced E o ns ws0 runs' rows' count' ∧
        rowsOf runs' rows' = rowsOf runs rows ++ (List.range' i (j - i)).map (fun k => vec.raw k) ∧
        StoppedAt E.A E.c o.toCOpts s1.writers (vec.raw j) pre id v s'.writers ∧ s' = { s1 with writers := s'.writers } ∧
        ((s1.infos = s.infos ∧ s1.info = s.info ∧ s1.out = s.out ∧ count' = count + (j - i)) ∨
          s.infos.length < s1.infos.length ∧ s1.info.numberOfRows = 0) := by
  induction n with
  | zero => intro i count s s' runs rows _ h; simp [tryLoop] at h
  | succ n ih =>
    intro i count s s' runs rows hi h
    simp only [tryLoop] at h
    obtain ⟨⟨ws, b⟩, h1, h⟩ := Res.bind_ok_inv h
    cases b with
    | false =>
      injection h with h; injection h with h; subst h
      obtain ⟨pre, id, v, hs⟩ := tryValue_stopped vec _ _ h1
      exact ⟨i, runs, rows, count, s, pre, id, v, Nat.le_refl _, by omega, hi, by simp, hs, rfl, .inl ⟨rfl, rfl, rfl, by omega⟩⟩
    | true =>
      simp only [if_true] at h
      have hv : writeValue E.A E.c o.toCOpts i s.writers vec = .ok ws := by rw [← tryValue_outcome, h1]; rfl
      by_cases hsz : ({ s with writers := ws } : StripeWriter).size E.A o ≥ o.stripeSize
      · rw [if_pos hsz] at h
        obtain ⟨s1, h2, h⟩ := Res.bind_ok_inv h
        obtain ⟨s2, h3, h⟩ := Res.bind_ok_inv h
        have hone : writeLoop E o vec 1 i count s = .ok (s2.addRows 0) := by
          simp only [writeLoop, hv, Res.ok_bind]
          rw [if_pos hsz, h2]
          simp only [Res.ok_bind]
          rw [h3]
          rfl
        have hadd : s2.addRows 0 = s2 := by simp [addRows]
        rw [hadd] at hone
        obtain ⟨runs1, rows1, ht, hr⟩ := writeLoop_traced vec 1 i count s s2 runs rows hi hone
        obtain ⟨j, runs', rows', count', s3, pre, id, v, k1, k2, k3, k4, k5, k6, k7⟩ := ih _ _ _ _ _ _ ht h
        refine ⟨j, runs', rows', count', s3, pre, id, v, by omega, by omega, k3, ?_, k5, k6, ?_⟩
        · rw [k4, hr, List.append_assoc, ← List.map_append, show j - i = 1 + (j - (i + 1)) by omega]
          rw [show i + 1 = i + 1 * 1 by omega, List.range'_append]
        · right
          have hgrow : s.infos.length < s2.infos.length := by
            rw [(forward_spec h3).2.2.2.1, (flushOut_grows h2).2]
            simp [addRows]
          rcases k7 with ⟨e', e, -, -⟩ | ⟨e', e⟩
          · rw [e, (forward_spec h3).2.2.2.2, e']
            exact ⟨hgrow, rfl⟩
          · exact ⟨Nat.lt_trans hgrow e', e⟩
      · rw [if_neg hsz] at h
        obtain ⟨r, hi1, hr⟩ := hi.ex
        obtain ⟨wsS, hrun, hcells, hsmall⟩ := hi.runs
        have hw : ws.map (·.hasNull) = ns.map (·.hasNulls) := by
          rw [writeValue_map (·.hasNull) (fun _ _ _ => AnyWriter.write_hasNull) vec _ _ hv, hi1.nulls]
        have hcells' : writeCells E.A E.c o.toCOpts wsS (rows ++ [vec.raw i]).flatten = .ok ws := by
          rw [List.flatten_append, writeCells_append, hcells, Res.ok_bind]
          simpa using writeValue_cells vec _ _ hv
        have ht : ({ s with writers := ws } : StripeWriter).Traced E o ns ws0 runs (rows ++ [vec.raw i]) (count + 1) :=
          ⟨⟨r, ⟨hi1.schemas, hw, hi1.out, hi1.infos, hi1.info, hi1.sound⟩, by simp [hr]; omega⟩, ⟨wsS, hrun, hcells', hsmall.snoc hcells' (Nat.lt_of_not_le hsz)⟩⟩
        obtain ⟨j, runs', rows', count', s3, pre, id, v, k1, k2, k3, k4, k5, k6, k7⟩ := ih _ _ _ _ _ _ ht h
        refine ⟨j, runs', rows', count', s3, pre, id, v, by omega, by omega, k3, ?_, k5, k6, ?_⟩
        · rw [k4, show j - i = (j - (i + 1)) + 1 by omega, List.range'_succ]
          simp [rowsOf]
        · rcases k7 with ⟨e1, e2, e3, e4⟩ | e
          · exact .inl ⟨e1, e2, e3, by omega⟩
          · exact .inr e


/-! ### C96 -/

/-- What a `Write` that reports an error has done. There is a row `j` of the batch, and a value of it that is not null and not of its column's Go type. All rows before row `j` are
written as if they were fine, and so are the values of row `j` up to that one: the columns of the current stripe have them (`Traced` and `StoppedAt`). But rows are counted
only when a stripe is full or the batch is done: either no stripe was finished by this call, and the count is what it was, or the current stripe counts no row at all. -/
theorem failed_write_exact {E : Env} {o : FOpts} {schema : Schema} {before : List Vec} {w w' : FileWriter} {vec : Vec}
    (hw : writeBatches E o schema before = .ok w) (h : w.tryWrite E o vec = .ok (w', false)) :
    ∃ (j : Nat) (ws0 : List AnyWriter) (runs : List (Raws × StripeParts)) (rows : Raws) (count : Nat) (s1 : StripeWriter) (pre : List (Nat × Value)) (id : Nat) (v : Value),
      newWriters E.A o.toCOpts (schema.columns.map (·.node)) = .ok ws0 ∧ j < vec.len ∧
      s1.Traced E o (schema.columns.map (·.node)) ws0 runs rows count ∧
      rowsOf runs rows = before.flatMap Vec.rawRows ++ (List.range j).map (fun k => vec.raw k) ∧
      StoppedAt E.A E.c o.toCOpts s1.writers (vec.raw j) pre id v w'.stripe.writers ∧
      w'.stripe = { s1 with writers := w'.stripe.writers } ∧ w'.schemas = w.schemas ∧
      ((w'.stripe.infos = w.stripe.infos ∧ w'.stripe.info = w.stripe.info ∧ w'.stripe.out = w.stripe.out ∧ count = j) ∨
        w.stripe.infos.length < w'.stripe.infos.length ∧ w'.stripe.info.numberOfRows = 0) := by
  obtain ⟨ws0, runs, rows, h1, h2, h3⟩ := writeBatches_spec hw
  obtain ⟨⟨s, b⟩, h4, h⟩ := Res.bind_ok_inv (x := StripeWriter.tryLoop E o vec vec.len 0 0 w.stripe) (FileWriter.tryWrite_inv h)
  injection h with h
  injection h with h5 h6
  subst h5; subst h6
  obtain ⟨j, runs', rows', count', s1, pre, id, v, -, k2, k3, k4, k5, k6, k7⟩ := StripeWriter.tryLoop_stopped vec _ _ _ _ _ _ _ h2 h4
  have e1 : s.infos = s1.infos := by rw [k6]
  have e2 : s.info = s1.info := by rw [k6]
  have e3 : s.out = s1.out := by rw [k6]
  refine ⟨j, ws0, runs', rows', count', s1, pre, id, v, h1, by omega, k3, ?_, k5, k6, rfl, ?_⟩
  · rw [k4, h3, Nat.sub_zero, ← List.range_eq_range']
  · change (s.infos = _ ∧ s.info = _ ∧ s.out = _ ∧ _) ∨ _ < s.infos.length ∧ s.info.numberOfRows = 0
    rw [e1, e2, e3]
    simpa using k7

/-- Whether a column has nulls. -/
def AnyWriter.flags : AnyWriter → Bool
  | .leaf _ w => w.hasNulls
  | .dict w => w.hasNulls
  | .struct w => w.hasNulls

/-- Nothing has happened if the very first value of the batch is refused, by a column that has no nulls. -/
theorem failed_write_harmless {E : Env} {o : FOpts} {w w' : FileWriter} {vec : Vec} {id : Nat} {v : Value} {x : AnyWriter} {post : List (Nat × Value)} {b : Bool}
    (hlen : 0 < vec.len) (hraw : vec.raw 0 = (id, v) :: post) (hx : w.stripe.writers[id]? = some x) (hbad : x.refuses v = true) (hn : x.flags = false)
    (h : w.tryWrite E o vec = .ok (w', b)) : w' = w ∧ b = false := by
  have hno : ∀ cells ws', writeCells E.A E.c o.toCOpts w.stripe.writers ((id, v) :: cells) ≠ .ok ws' := by
    intro cells ws' hc
    simp only [writeCells, hx] at hc
    obtain ⟨y, hy, -⟩ := Res.bind_ok_inv hc
    rw [← AnyWriter.tryWrite_outcome] at hy
    simp only [AnyWriter.tryWrite, if_pos hbad] at hy
    cases hf : x.flagged E.c o.toCOpts v <;> simp [outcome, hf, bind, Res.bind, pure] at hy
  obtain ⟨⟨s, b'⟩, h4, h⟩ := Res.bind_ok_inv (x := StripeWriter.tryLoop E o vec vec.len 0 0 w.stripe) (FileWriter.tryWrite_inv h)
  injection h with h
  injection h with h5 h6
  subst h5; subst h6
  obtain ⟨n, hn'⟩ : ∃ n, vec.len = n + 1 := ⟨vec.len - 1, by omega⟩
  rw [hn'] at h4
  simp only [StripeWriter.tryLoop] at h4
  obtain ⟨⟨ws, fine⟩, h1, h4⟩ := Res.bind_ok_inv h4
  cases fine with
  | true =>
    have hv : writeValue E.A E.c o.toCOpts 0 w.stripe.writers vec = .ok ws := by rw [← tryValue_outcome, h1]; rfl
    have := writeValue_cells vec _ _ hv
    rw [hraw] at this
    exact absurd this (hno _ _)
  | false =>
    injection h4 with h4
    injection h4 with h5 h6
    subst h5; subst h6
    obtain ⟨pre, id', v', post', ws1, y, y', e1, e2, e3, e4, e5, e6, rfl⟩ := tryValue_stopped vec _ _ h1
    cases pre with
    | cons p pre =>
      rw [hraw] at e1
      injection e1 with e1 _
      subst e1
      exact absurd e2 (hno _ _)
    | nil =>
      rw [hraw] at e1
      injection e1 with e1 _
      injection e1 with e1 e1'
      subst e1; subst e1'
      injection e2 with e2
      subst e2
      rw [hx] at e3
      injection e3 with e3
      subst e3
      have : y' = x := by
        cases x with
        | leaf t w => simp only [AnyWriter.flags] at hn; simp [AnyWriter.flagged, LeafKind.writePresent, hn, bind, Res.bind, pure] at e6; exact e6.symm
        | dict w => simp only [AnyWriter.flags] at hn; simp [AnyWriter.flagged, writeFlag, hn, bind, Res.bind, pure] at e6; rw [← e6, ← hn]
        | struct w => simp [AnyWriter.flagged] at e6; exact e6.symm
      subst this
      have hset : w.stripe.writers.set id y' = w.stripe.writers := by
        apply List.ext_getElem?
        intro k
        rw [List.getElem?_set]
        split
        · subst_vars
          rw [if_pos (by exact (List.getElem?_eq_some_iff.1 hx).1), hx]
        · rfl
      exact ⟨by rw [hset], rfl⟩

/-- What a call of `Write` hands to the columns: all rows of the batch, or those before a row `j`, and of row `j` the values before one that is refused. -/
def Handed (A : Arith) (c : Codec) (o : COpts) (ws : List AnyWriter) (vec : Vec) (fine : Bool) (ws' : List AnyWriter) : Prop :=
  if fine then writeCells A c o ws vec.rawRows.flatten = .ok ws'
  else ∃ j ws1 pre id v, j < vec.len ∧ writeCells A c o ws (vec.rawRows.take j).flatten = .ok ws1 ∧ StoppedAt A c o ws1 (vec.raw j) pre id v ws'

/-- The columns after several calls. -/
def HandedAll (A : Arith) (c : Codec) (o : COpts) : List AnyWriter → List (Vec × Bool) → List AnyWriter → Prop
  | ws, [], ws' => ws' = ws
  | ws, (vec, fine) :: rest, ws' => ∃ ws1, Handed A c o ws vec fine ws1 ∧ HandedAll A c o ws1 rest ws'

theorem StripeWriter.tryLoop_grows {E : Env} {o : FOpts} (vec : Vec) (n : Nat) : ∀ (i count : Nat) (s s' : StripeWriter) (fine : Bool),
    StripeWriter.tryLoop E o vec n i count s = .ok (s', fine) → s.infos.length ≤ s'.infos.length := by
  induction n with
  | zero => intro i count s s' fine h; simp only [tryLoop] at h; injection h with h; injection h with h; subst h; exact Nat.le_refl _
  | succ n ih =>
    intro i count s s' fine h
    simp only [tryLoop] at h
    obtain ⟨⟨ws, b⟩, h1, h⟩ := Res.bind_ok_inv h
    cases b with
    | false => injection h with h; injection h with h; subst h; exact Nat.le_refl _
    | true =>
      simp only [if_true] at h
      by_cases hsz : ({ s with writers := ws } : StripeWriter).size E.A o ≥ o.stripeSize
      · rw [if_pos hsz] at h
        obtain ⟨s1, h2, h⟩ := Res.bind_ok_inv h
        obtain ⟨s2, h3, h⟩ := Res.bind_ok_inv h
        have := ih _ _ _ _ _ h
        rw [(forward_spec h3).2.2.2.1, (flushOut_grows h2).2] at this
        simp only [addRows, List.length_append] at this
        omega
      · rw [if_neg hsz] at h
        exact ih (i + 1) (count + 1) { s with writers := ws } _ _ h

/-- The loop, if no stripe is finished. -/
theorem StripeWriter.tryLoop_plain {E : Env} {o : FOpts} (vec : Vec) (n : Nat) : ∀ (i count : Nat) (s s' : StripeWriter) (fine : Bool),
    StripeWriter.tryLoop E o vec n i count s = .ok (s', fine) → s'.infos.length = s.infos.length →
      s' = { s with writers := s'.writers, info := { s.info with numberOfRows := s.info.numberOfRows + if fine then count + n else 0 } } ∧
      if fine then writeCells E.A E.c o.toCOpts s.writers ((List.range' i n).map fun k => vec.raw k).flatten = .ok s'.writers
      else ∃ j ws1 pre id v, i ≤ j ∧ j < i + n ∧ writeCells E.A E.c o.toCOpts s.writers ((List.range' i (j - i)).map fun k => vec.raw k).flatten = .ok ws1 ∧
        StoppedAt E.A E.c o.toCOpts ws1 (vec.raw j) pre id v s'.writers := by
  induction n with
  | zero =>
    intro i count s s' fine h _
    simp only [tryLoop] at h; injection h with h; injection h with h h'; subst h; subst h'
    exact ⟨rfl, by simp [writeCells, addRows]⟩
  | succ n ih =>
    intro i count s s' fine h hlen
    simp only [tryLoop] at h
    obtain ⟨⟨ws, b⟩, h1, h⟩ := Res.bind_ok_inv h
    cases b with
    | false =>
      injection h with h; injection h with h h'; subst h; subst h'
      obtain ⟨pre, id, v, hs⟩ := tryValue_stopped vec _ _ h1
      refine ⟨rfl, ?_⟩
      simp only [Bool.false_eq_true, if_false]
      exact ⟨i, s.writers, pre, id, v, Nat.le_refl _, by omega, by simp [writeCells], hs⟩
    | true =>
      simp only [if_true] at h
      have hv : writeValue E.A E.c o.toCOpts i s.writers vec = .ok ws := by rw [← tryValue_outcome, h1]; rfl
      have hc := writeValue_cells vec _ _ hv
      by_cases hsz : ({ s with writers := ws } : StripeWriter).size E.A o ≥ o.stripeSize
      · rw [if_pos hsz] at h
        obtain ⟨s1, h2, h⟩ := Res.bind_ok_inv h
        obtain ⟨s2, h3, h⟩ := Res.bind_ok_inv h
        have := tryLoop_grows _ _ _ _ _ _ _ h
        rw [(forward_spec h3).2.2.2.1, (flushOut_grows h2).2] at this
        simp only [addRows, List.length_append, List.length_singleton] at this
        omega
      · rw [if_neg hsz] at h
        obtain ⟨e1, e2⟩ := ih _ _ _ _ _ h hlen
        refine ⟨?_, ?_⟩
        · rw [e1]
          cases fine <;> simp
          omega
        · cases fine with
          | true =>
            simp only [if_true] at e2 ⊢
            rw [List.range'_succ, List.map_cons, List.flatten_cons, writeCells_append, hc]
            exact e2
          | false =>
            simp only [Bool.false_eq_true, if_false] at e2 ⊢
            obtain ⟨j, ws1, pre, id, v, k1, k2, k3, k4⟩ := e2
            refine ⟨j, ws1, pre, id, v, by omega, by omega, ?_, k4⟩
            rw [show j - i = (j - (i + 1)) + 1 by omega, List.range'_succ, List.map_cons, List.flatten_cons, writeCells_append, hc]
            exact k3

theorem FileWriter.tryWrite_plain {E : Env} {o : FOpts} {w w' : FileWriter} {vec : Vec} {fine : Bool} (h : w.tryWrite E o vec = .ok (w', fine))
    (hlen : w'.stripe.infos.length = w.stripe.infos.length) :
    w' = { w with stripe := { w.stripe with writers := w'.stripe.writers, info := { w.stripe.info with numberOfRows := w.stripe.info.numberOfRows + if fine then vec.len else 0 } } } ∧
      Handed E.A E.c o.toCOpts w.stripe.writers vec fine w'.stripe.writers := by
  obtain ⟨⟨s, b⟩, h4, h⟩ := Res.bind_ok_inv (x := StripeWriter.tryLoop E o vec vec.len 0 0 w.stripe) (FileWriter.tryWrite_inv h)
  injection h with h
  injection h with h5 h6
  subst h5; subst h6
  obtain ⟨e1, e2⟩ := StripeWriter.tryLoop_plain _ _ _ _ _ _ _ h4 hlen
  refine ⟨?_, ?_⟩
  · rw [e1]
    simp
  · cases b with
    | true =>
      simp only [if_true] at e2
      simp only [Handed, if_true, Vec.rawRows]
      rw [List.range_eq_range']
      exact e2
    | false =>
      simp only [Bool.false_eq_true, if_false] at e2
      simp only [Handed, Bool.false_eq_true, if_false, Vec.rawRows]
      obtain ⟨j, ws1, pre, id, v, k1, k2, k3, k4⟩ := e2
      refine ⟨j, ws1, pre, id, v, by omega, ?_, k4⟩
      rw [← List.map_take, List.take_range, Nat.min_eq_left (by omega), List.range_eq_range']
      exact k3

theorem FileWriter.tryWrite_grows {E : Env} {o : FOpts} {w w' : FileWriter} {vec : Vec} {fine : Bool} (h : w.tryWrite E o vec = .ok (w', fine)) :
    w.stripe.infos.length ≤ w'.stripe.infos.length := by
  obtain ⟨⟨s, b⟩, h4, h⟩ := Res.bind_ok_inv (x := StripeWriter.tryLoop E o vec vec.len 0 0 w.stripe) (FileWriter.tryWrite_inv h)
  injection h with h
  injection h with h5 h6
  subst h5
  exact StripeWriter.tryLoop_grows _ _ _ _ _ _ _ h4

theorem FileWriter.calls_grows {E : Env} {o : FOpts} (vecs : List Vec) : ∀ {w w' : FileWriter} {flags : List Bool}, w.calls E o vecs = .ok (w', flags) →
    w.stripe.infos.length ≤ w'.stripe.infos.length := by
  induction vecs with
  | nil => intro w w' flags h; simp only [calls] at h; injection h with h; injection h with h; subst h; exact Nat.le_refl _
  | cons v vs ih =>
    intro w w' flags h
    simp only [calls] at h
    obtain ⟨⟨w1, b⟩, h1, h⟩ := Res.bind_ok_inv h
    obtain ⟨⟨w2, rest⟩, h2, h⟩ := Res.bind_ok_inv h
    injection h with h; injection h with h; subst h
    exact Nat.le_trans (tryWrite_grows h1) (ih h2)

/-- A client that goes on after errors, as long as no stripe is finished. The rows that count are those of the calls that went well. But the columns have in addition what the other
calls handed to them. -/
theorem calls_one_stripe {E : Env} {o : FOpts} (vecs : List Vec) : ∀ {w w' : FileWriter} {flags : List Bool}, w.calls E o vecs = .ok (w', flags) →
    w'.stripe.infos.length = w.stripe.infos.length →
    flags.length = vecs.length ∧
      w'.stripe.info.numberOfRows = w.stripe.info.numberOfRows + ((vecs.zip flags).map fun x => if x.2 then x.1.len else 0).sum ∧
      w'.stripe.out = w.stripe.out ∧ w'.stripe.infos = w.stripe.infos ∧
      HandedAll E.A E.c o.toCOpts w.stripe.writers (vecs.zip flags) w'.stripe.writers := by
  induction vecs with
  | nil =>
    intro w w' flags h hlen
    simp only [FileWriter.calls] at h; injection h with h; injection h with h h'; subst h; subst h'
    exact ⟨rfl, rfl, rfl, rfl, rfl⟩
  | cons v vs ih =>
    intro w w' flags h hlen
    simp only [FileWriter.calls] at h
    obtain ⟨⟨w1, b⟩, h1, h⟩ := Res.bind_ok_inv h
    obtain ⟨⟨w2, rest⟩, h2, h⟩ := Res.bind_ok_inv h
    injection h with h; injection h with h h'; subst h; subst h'
    have g1 := FileWriter.tryWrite_grows h1
    simp only at h2
    change w2.stripe.infos.length = w.stripe.infos.length at hlen
    have g2 := FileWriter.calls_grows vs h2
    obtain ⟨e1, e2⟩ := FileWriter.tryWrite_plain h1 (by omega)
    obtain ⟨k1, k2, k3, k4, k5⟩ := ih h2 (by omega)
    have f1 : w1.stripe.info.numberOfRows = w.stripe.info.numberOfRows + if b then v.len else 0 := by rw [e1]
    have f2 : w1.stripe.out = w.stripe.out := by rw [e1]
    have f3 : w1.stripe.infos = w.stripe.infos := by rw [e1]
    refine ⟨by simp [k1], ?_, by rw [k3, f2], by rw [k4, f3], w1.stripe.writers, e2, k5⟩
    rw [k2, f1]
    simp only [List.zip_cons_cons, List.map_cons, List.sum_cons]
    omega

/-! ### Rows that are mixed up -/

/-- Two columns of doubles. -/
def mixSchema : Schema := .mk ⟨0, .struct, .direct, false, ["a", "b"]⟩ [.mk ⟨1, .double, .direct, false, []⟩ [], .mk ⟨2, .double, .direct, false, []⟩ []]

/-- A batch of such rows. -/
def mixBatch (rows : List (Value × Value)) : Vec :=
  .mk 0 .struct none [.mk 1 .double (some ⟨rows.map (·.1), rows.length⟩) [], .mk 2 .double (some ⟨rows.map (·.2), rows.length⟩) []]

/-- One row `(1.0, "")`, as bits: a string in a column of doubles. -/
def mixBad : Vec := mixBatch [(⟨false, .f64 1⟩, ⟨false, .str []⟩)]

/-- Two rows. -/
def mixGood : Vec := mixBatch [(⟨false, .f64 2⟩, ⟨false, .f64 20⟩), (⟨false, .f64 3⟩, ⟨false, .f64 30⟩)]

def mixOpts : FOpts := ⟨⟨⟨.zlib, 1000, false⟩, 0⟩, 1000000⟩

/-- Messages of one byte each, of which those given are read back. -/
def mixEnv (f : Option StripeFooter) (ft : Option FileFooter) (ps : Option PostScript) : Env where
  A := exArith
  c := runCodec
  P := ⟨fun _ => [], fun _ => [0], fun _ => [1], fun _ => [2], fun _ => none, fun b => if b = [0] then f else none, fun b => if b = [1] then ft else none,
    fun b => if b = [2] then ps else none⟩

/-- The writer, at the end: a client that calls `Write` twice, the first call fails. -/
def mixWriter (E : Env) : Res FileWriter :=
  (newWriter E mixOpts mixSchema).bind fun w => (w.calls E mixOpts [mixBad, mixGood]).bind fun r => if r.2 = [false, true] then .ok r.1 else .err .other

/-- What it writes at the end. -/
def mixEnd : Option FileWriter :=
  match (mixWriter (mixEnv none none none)).bind fun w => w.finish (mixEnv none none none) mixOpts with
  | .ok w => some w
  | _ => none

/-- The messages of that file are read back. -/
def mixE : Env := mixEnv (mixEnd.map fun w => w.stripe.footer exArith) (mixEnd.map FileWriter.footer) (some (FileWriter.postScript mixOpts 4))

/-- The file. -/
def mixFile : Res Bytes := (mixWriter mixE).bind fun w => w.close mixE mixOpts

/-- The first call fails, the second one and `Close` go well. The file has two rows, but they are not the rows of the second call: the first column has the value of the row that
failed as well, and the values of different rows are side by side. -/
theorem failed_write_mixes_rows : (mixFile.bind fun file => readRecords mixE 10 mixSchema ⟨[], 10, false⟩ true 3 file) =
    .ok ([[(1, .value (.f64 1)), (2, .value (.f64 20))], [(1, .value (.f64 2)), (2, .value (.f64 30))]], true) := by
  decide +kernel

/-- The hypotheses of `failed_write_exact`: a batch that fails after one that went well. -/
example : ∃ w w', writeBatches mixE mixOpts mixSchema [mixGood] = .ok w ∧ w.tryWrite mixE mixOpts mixBad = .ok (w', false) := by
  have h : ((writeBatches mixE mixOpts mixSchema [mixGood]).bind fun w => (w.tryWrite mixE mixOpts mixBad).bind fun r => .ok r.2) = .ok false := by decide +kernel
  obtain ⟨w, h1, h⟩ := Res.bind_ok_inv (x := writeBatches mixE mixOpts mixSchema [mixGood]) h
  obtain ⟨⟨w', b⟩, h2, h⟩ := Res.bind_ok_inv (x := w.tryWrite mixE mixOpts mixBad) h
  injection h with h
  change b = false at h
  subst h
  exact ⟨w, w', h1, h2⟩

/-- The hypotheses of `calls_one_stripe`, and of `failed_write_harmless`: here the first column refuses its value, and the rows are those of the call that went well. -/
example : ((newWriter mixE mixOpts mixSchema).bind fun w =>
      (w.calls mixE mixOpts [mixBatch [(⟨false, .str []⟩, ⟨false, .f64 1⟩)], mixGood, mixBad]).bind fun r => .ok (r.2, r.1.stripe.infos.length, r.1.stripe.info.numberOfRows)) =
    .ok ([false, true, false], 0, 2) := by decide +kernel

end Goorc
