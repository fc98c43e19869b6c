import Verif.Spec.BatchShape
import Verif.Props.FailedWrite
/-
What `Write` does with batches that do not fit the table.
-/
namespace Goorc

/-! ### Rows that are written exist -/

theorem writeRow_length {A : Arith} {c : Codec} {o : COpts} {i id : Nat} {a : Option Slice} {ws ws' : List AnyWriter} (h : writeRow A c o i id a ws = .ok ws') : ws'.length = ws.length := by
  rw [writeRow.eq_def] at h
  cases a with
  | none => cases h; rfl
  | some a =>
    simp only at h
    split at h
    · obtain ⟨w, -, h⟩ := Res.bind_ok_inv h
      cases h
      simp
    · cases h

mutual
theorem writeValue_has (A : Arith) (c : Codec) (o : COpts) (i : Nat) : ∀ (v : Vec) (ws ws' : List AnyWriter), writeValue A c o i ws v = .ok ws' →
    v.Has ws.length (i + 1) ∧ ws'.length = ws.length
  | .nil, ws, ws', h => by rw [writeValue] at h; cases h
  | .mk id k a cs, ws, ws', h => by
    rw [writeValue] at h
    obtain ⟨ws1, e1, h⟩ := Res.bind_ok_inv h
    have hl := writeRow_length e1
    obtain ⟨k1, k2⟩ := writeValues_have A c o i cs ws1 ws' h
    rw [hl] at k1 k2
    rw [Vec.Has]
    refine ⟨⟨?_, k1⟩, k2⟩
    intro b hb
    subst hb
    rw [writeRow.eq_def] at e1
    simp only at e1
    split at e1
    · rename_i h1 h2
      exact ⟨(List.getElem?_eq_some_iff.1 h1).1, (List.getElem?_eq_some_iff.1 h2).1⟩
    · cases e1

theorem writeValues_have (A : Arith) (c : Codec) (o : COpts) (i : Nat) : ∀ (vs : List Vec) (ws ws' : List AnyWriter), writeValues A c o i ws vs = .ok ws' →
    allHave ws.length (i + 1) vs ∧ ws'.length = ws.length
  | [], ws, ws', h => by rw [writeValues] at h; cases h; exact ⟨by rw [allHave]; trivial, rfl⟩
  | v :: vs, ws, ws', h => by
    rw [writeValues] at h
    obtain ⟨ws1, e1, h⟩ := Res.bind_ok_inv h
    obtain ⟨k1, k2⟩ := writeValue_has A c o i v ws ws1 e1
    obtain ⟨k3, k4⟩ := writeValues_have A c o i vs ws1 ws' h
    rw [k2] at k3 k4
    exact ⟨by rw [allHave]; exact ⟨k1, k3⟩, k4⟩
end

theorem onWriters_length {f : AnyWriter → Res AnyWriter} : ∀ {ws ws' : List AnyWriter}, onWriters f ws = .ok ws' → ws'.length = ws.length := by
  intro ws
  induction ws with
  | nil => intro ws' h; rw [onWriters] at h; cases h; rfl
  | cons w ws ih =>
    intro ws' h
    rw [onWriters] at h
    obtain ⟨w1, -, h⟩ := Res.bind_ok_inv h
    obtain ⟨ws1, e2, h⟩ := Res.bind_ok_inv h
    cases h
    simp [ih e2]

theorem writeOuts_length {A : Arith} {o : COpts} : ∀ {ws ws' : List AnyWriter} {b : Bytes}, StripeWriter.writeOuts A o ws = .ok (ws', b) → ws'.length = ws.length := by
  intro ws
  induction ws with
  | nil => intro ws' b h; rw [StripeWriter.writeOuts] at h; cases h; rfl
  | cons w ws ih =>
    intro ws' b h
    rw [StripeWriter.writeOuts] at h
    obtain ⟨⟨w1, x⟩, -, h⟩ := Res.bind_ok_inv h
    obtain ⟨⟨ws1, y⟩, e2, h⟩ := Res.bind_ok_inv h
    cases h
    simp [ih e2]

theorem flushOut_length {E : Env} {o : FOpts} {s s' : StripeWriter} (h : s.flushOut E o = .ok s') : s'.writers.length = s.writers.length := by
  rw [StripeWriter.flushOut] at h
  obtain ⟨ws, e1, h⟩ := Res.bind_ok_inv h
  obtain ⟨⟨ws1, b⟩, e2, h⟩ := Res.bind_ok_inv h
  simp only [StripeWriter.writeFooter] at h
  obtain ⟨b1, -, h⟩ := Res.bind_ok_inv h
  cases h
  exact (writeOuts_length e2).trans (onWriters_length e1)

theorem forward_length {A : Arith} {o : FOpts} {s s' : StripeWriter} (h : s.forward A o = .ok s') : s'.writers.length = s.writers.length := by
  rw [StripeWriter.forward] at h
  obtain ⟨ws, e1, h⟩ := Res.bind_ok_inv h
  cases h
  exact onWriters_length e1

theorem writeLoop_has {E : Env} {o : FOpts} {v : Vec} : ∀ (n i count : Nat) (s s' : StripeWriter), StripeWriter.writeLoop E o v n i count s = .ok s' → n = 0 ∨ v.Has s.writers.length (i + n) := by
  intro n
  induction n with
  | zero => intro i count s s' _; exact .inl rfl
  | succ n ih =>
    intro i count s s' h
    right
    rw [StripeWriter.writeLoop] at h
    obtain ⟨ws, e1, h⟩ := Res.bind_ok_inv h
    obtain ⟨k1, k2⟩ := writeValue_has E.A E.c o.toCOpts i v s.writers ws e1
    simp only at h
    split at h
    · obtain ⟨s1, e2, h⟩ := Res.bind_ok_inv h
      obtain ⟨s2, e3, h⟩ := Res.bind_ok_inv h
      have hl : s2.writers.length = s.writers.length := by rw [forward_length e3, flushOut_length e2]; exact k2
      rcases ih _ _ _ _ h with h0 | h0
      · subst h0; exact k1
      · rw [hl] at h0; rwa [show i + (n + 1) = i + 1 + n by omega]
    · rcases ih _ _ _ _ h with h0 | h0
      · subst h0; exact k1
      · simp only [k2] at h0; rwa [show i + (n + 1) = i + 1 + n by omega]

theorem len_not_nil : ∀ {v : Vec}, 0 < v.len → v.lenPanics = false
  | .nil, h => by rw [Vec.len] at h; omega
  | .mk _ _ a [], h => by rw [Vec.lenPanics]; split <;> rfl
  | .mk _ _ a (c :: cs), h => by
    rw [Vec.lenPanics]
    split
    · rfl
    · rename_i h0
      rw [Vec.len, if_neg h0] at h
      exact len_not_nil h

theorem lenPanics_iff (v : Vec) : v.lenPanics = true ↔ v.Headless := by
  refine ⟨fun h => ?_, fun h => ?_⟩
  · refine Vec.ind (P := fun v => v.lenPanics = true → v.Headless) (fun _ => .missing) ?_ v h
    intro id k a cs ih h
    cases cs with
    | nil => rw [Vec.lenPanics] at h; split at h <;> cases h
    | cons c cs =>
      rw [Vec.lenPanics] at h
      split at h
      · cases h
      · rename_i h0
        exact .first _ _ _ _ _ (fun s hs => by subst hs; simpa using h0) (ih c (by simp) h)
  · induction h with
    | missing => rfl
    | first id k a c cs ha _ ih =>
      rw [Vec.lenPanics, if_neg, ih]
      cases a with
      | none => simp
      | some s => simp [ha s rfl]

/-- **C100** `Write` of a batch without vector panics, and so does `Write` of a struct that has no rows of its own if the vector of its first child is nil, or headless in turn: `Len` looks there. -/
theorem write_headless_panics {E : Env} {o : FOpts} {w : FileWriter} {v : Vec} (h : v.Headless) : w.write E o v = .panic := by
  simp only [FileWriter.write, StripeWriter.write, (lenPanics_iff v).2 h, if_true]
  rfl

/-- **C100** If `Write` succeeds, then every vector of the batch is there, belongs to a column and has at least as many rows as the batch is said to have (`Len`). In other words: a batch with a
column that is too short is never written without an error or panic. -/
theorem written_batch_has {E : Env} {o : FOpts} {w w' : FileWriter} {v : Vec} (h : w.write E o v = .ok w') : v.len = 0 ∨ v.Has w.stripe.writers.length v.len := by
  rw [FileWriter.write] at h
  obtain ⟨s, e, -⟩ := Res.bind_ok_inv h
  replace e := (StripeWriter.write_ok_inv e).2
  simpa using writeLoop_has v.len 0 0 _ _ e

/-- **C100** It panics, at the row that is missing, if the columns before it take their values. -/
theorem short_column_panics {E : Env} {o : FOpts} {s : StripeWriter} {id : Nat} {k : TypeKind} {a : Option Slice} {before after : List Vec} {j : Nat} {l : TypeKind} {b : Slice} {ds : List Vec} {i n count : Nat}
    {ws : List AnyWriter} (h : writeValue E.A E.c o.toCOpts i s.writers (.mk id k a before) = .ok ws) (short : b.visible.length ≤ i) :
    StripeWriter.writeLoop E o (.mk id k a (before ++ .mk j l (some b) ds :: after)) (n + 1) i count s = .panic := by
  have key : ∀ (before : List Vec) (ws1 ws : List AnyWriter), writeValues E.A E.c o.toCOpts i ws1 before = .ok ws →
      writeValues E.A E.c o.toCOpts i ws1 (before ++ .mk j l (some b) ds :: after) = .panic := by
    intro before
    induction before with
    | nil =>
      intro ws1 ws _
      rw [List.nil_append, writeValues, writeValue, writeRow.eq_def]
      have : b.visible[i]? = none := List.getElem?_eq_none_iff.2 short
      simp only [this]
      cases ws1[j]? <;> rfl
    | cons v vs ih =>
      intro ws1 ws h
      rw [writeValues] at h
      obtain ⟨ws2, e1, h⟩ := Res.bind_ok_inv h
      rw [List.cons_append, writeValues, e1, Res.ok_bind, ih ws2 ws h]
  rw [writeValue] at h
  obtain ⟨ws1, e1, h⟩ := Res.bind_ok_inv h
  rw [StripeWriter.writeLoop, writeValue, e1, Res.ok_bind, key before ws1 ws h]
  rfl

/-- **C100** A vector that is missing (a nil pointer) is a panic as well. -/
theorem nil_vector_panics {E : Env} {o : FOpts} {s : StripeWriter} {id : Nat} {k : TypeKind} {a : Option Slice} {before after : List Vec} {i n count : Nat}
    {ws : List AnyWriter} (h : writeValue E.A E.c o.toCOpts i s.writers (.mk id k a before) = .ok ws) :
    StripeWriter.writeLoop E o (.mk id k a (before ++ .nil :: after)) (n + 1) i count s = .panic := by
  have key : ∀ (before : List Vec) (ws1 ws : List AnyWriter), writeValues E.A E.c o.toCOpts i ws1 before = .ok ws →
      writeValues E.A E.c o.toCOpts i ws1 (before ++ .nil :: after) = .panic := by
    intro before
    induction before with
    | nil => intro ws1 ws _; rw [List.nil_append, writeValues, writeValue]; rfl
    | cons v vs ih =>
      intro ws1 ws h
      rw [writeValues] at h
      obtain ⟨ws2, e1, h⟩ := Res.bind_ok_inv h
      rw [List.cons_append, writeValues, e1, Res.ok_bind, ih ws2 ws h]
  rw [writeValue] at h
  obtain ⟨ws1, e1, h⟩ := Res.bind_ok_inv h
  rw [StripeWriter.writeLoop, writeValue, e1, Res.ok_bind, key before ws1 ws h]
  rfl

/-- **C100** So does `Write`, at the first row, if a vector is missing among those of a batch that has rows. -/
theorem write_nil_vector_panics {E : Env} {o : FOpts} {w : FileWriter} {id : Nat} {k : TypeKind} {a : Option Slice} {before after : List Vec} {ws : List AnyWriter}
    (rows : 0 < (Vec.mk id k a (before ++ .nil :: after)).len) (h : writeValue E.A E.c o.toCOpts 0 w.stripe.writers (.mk id k a before) = .ok ws) :
    w.write E o (.mk id k a (before ++ .nil :: after)) = .panic := by
  rw [FileWriter.write, StripeWriter.write_of (len_not_nil rows)]
  obtain ⟨n, hn⟩ := Nat.exists_eq_succ_of_ne_zero (Nat.pos_iff_ne_zero.1 rows)
  rw [hn, nil_vector_panics h]
  rfl

/-- A table in a table, the vector of whose first column is missing. -/
example {E : Env} {o : FOpts} {w : FileWriter} (cs : List Vec) : w.write E o (.mk 0 .struct none [.mk 1 .struct none (.nil :: cs)]) = .panic :=
  write_headless_panics (.first _ _ _ _ _ nofun (.first _ _ _ _ _ nofun .missing))

/-! ### Rows that are ignored -/

theorem cut_get (b : Slice) {i rows : Nat} (h : i < rows) : ({ b with len := min b.len rows } : Slice).visible[i]? = b.visible[i]? := by
  simp only [Slice.visible, List.getElem?_take]
  split <;> split <;> first | rfl | omega

mutual
theorem writeValue_cut (A : Arith) (c : Codec) (o : COpts) {i rows : Nat} (h : i < rows) : ∀ (v : Vec) (ws : List AnyWriter), writeValue A c o i ws (v.cut rows) = writeValue A c o i ws v
  | .nil, ws => by rw [Vec.cut]
  | .mk id k a cs, ws => by
    rw [Vec.cut, writeValue, writeValue]
    have : writeRow A c o i id (a.map fun b => { b with len := min b.len rows }) ws = writeRow A c o i id a ws := by
      cases a with
      | none => rfl
      | some b => simp only [Option.map_some, writeRow, cut_get b h]
    rw [this]
    congr 1
    funext ws1
    exact writeValues_cut A c o h cs ws1

theorem writeValues_cut (A : Arith) (c : Codec) (o : COpts) {i rows : Nat} (h : i < rows) : ∀ (vs : List Vec) (ws : List AnyWriter), writeValues A c o i ws (cutAll rows vs) = writeValues A c o i ws vs
  | [], ws => by rw [cutAll]
  | v :: vs, ws => by
    rw [cutAll, writeValues, writeValues, writeValue_cut A c o h v ws]
    congr 1
    funext ws1
    exact writeValues_cut A c o h vs ws1
end

theorem writeLoop_cut {E : Env} {o : FOpts} {v : Vec} {rows : Nat} : ∀ (n i count : Nat) (s : StripeWriter), i + n ≤ rows →
    StripeWriter.writeLoop E o (v.cut rows) n i count s = StripeWriter.writeLoop E o v n i count s := by
  intro n
  induction n with
  | zero => intro i count s _; rw [StripeWriter.writeLoop, StripeWriter.writeLoop]
  | succ n ih =>
    intro i count s h
    rw [StripeWriter.writeLoop, StripeWriter.writeLoop, writeValue_cut E.A E.c o.toCOpts (by omega) v]
    have hih : ∀ count s, StripeWriter.writeLoop E o (v.cut rows) n (i + 1) count s = StripeWriter.writeLoop E o v n (i + 1) count s := fun count s => ih (i + 1) count s (by omega)
    simp only [hih]

theorem len_mk (id : Nat) (k : TypeKind) (a : Option Slice) (cs : List Vec) :
    (Vec.mk id k a cs).len = if (a.map (·.len)).getD 0 ≠ 0 then (a.map (·.len)).getD 0 else (cs.head?.map Vec.len).getD 0 := by
  rw [Vec.len.eq_def]
  cases cs <;> rfl

theorem cut_len : ∀ (v : Vec) (rows : Nat), v.len ≤ rows → (v.cut rows).len = v.len
  | .nil, _, _ => by rw [Vec.cut]
  | .mk id k a cs, rows, h => by
    rw [Vec.cut, len_mk, len_mk]
    rw [len_mk] at h
    have hc : (a.map (·.len)).getD 0 = 0 → ((cutAll rows cs).head?.map Vec.len).getD 0 = (cs.head?.map Vec.len).getD 0 := by
      intro ha
      rw [if_neg (by simpa using ha)] at h
      cases cs with
      | nil => rw [cutAll]
      | cons c cs =>
        rw [cutAll]
        exact cut_len c rows h
    cases a with
    | none => simpa using hc rfl
    | some b =>
      simp only [Option.map_some, Option.getD_some] at h hc ⊢
      by_cases hb : b.len = 0
      · rw [if_neg (by simp [hb]), if_neg (by simp [hb])]
        exact hc hb
      · rw [if_pos hb] at h ⊢
        have : min b.len rows = b.len := by omega
        rw [this, if_pos hb]

theorem cut_lenPanics : ∀ (v : Vec) (rows : Nat), v.len ≤ rows → (v.cut rows).lenPanics = v.lenPanics
  | .nil, _, _ => by rw [Vec.cut]
  | .mk id k a cs, rows, h => by
    rw [len_mk] at h
    have e : ((a.map fun b => { b with len := min b.len rows }).map (·.len)).getD 0 = (a.map (·.len)).getD 0 := by
      cases a with
      | none => rfl
      | some b =>
        simp only [Option.map_some, Option.getD_some] at h ⊢
        by_cases hb : b.len = 0
        · omega
        · rw [if_pos hb] at h; omega
    cases cs with
    | nil => rw [Vec.cut, cutAll, Vec.lenPanics, Vec.lenPanics, e]
    | cons c cs =>
      rw [Vec.cut, cutAll, Vec.lenPanics, Vec.lenPanics, e]
      split
      · rfl
      · rename_i h0
        rw [if_neg h0] at h
        exact cut_lenPanics c rows h

/-- **C100, refuted** Rows beyond the first `Len` ones are ignored without an error: `Write` does with a batch what it does with the batch in which every column is cut to that many rows. -/
theorem longer_columns_ignored {E : Env} {o : FOpts} {w : FileWriter} {v : Vec} : w.write E o v = w.write E o (v.cut v.len) := by
  rw [FileWriter.write, FileWriter.write, StripeWriter.write, StripeWriter.write, cut_lenPanics v v.len (Nat.le_refl _), cut_len v v.len (Nat.le_refl _), writeLoop_cut v.len 0 0 _ (by omega)]

/-- **C100, refuted** In particular, a batch of a table whose first column is empty is not written at all, and there is no error, whatever is in the other columns. -/
theorem empty_first_column_ignored {E : Env} {o : FOpts} {w : FileWriter} {id : Nat} {k : TypeKind} {c : Vec} {cs : List Vec} (hn : ¬ c.Headless) (h : c.len = 0) : w.write E o (.mk id k none (c :: cs)) = .ok w := by
  have : (Vec.mk id k none (c :: cs)).len = 0 := by rw [Vec.len]; simpa using h
  have hp : (Vec.mk id k none (c :: cs)).lenPanics = false := by 
    have := mt (lenPanics_iff c).1 hn
    rw [Vec.lenPanics]
    simpa using this
  rw [FileWriter.write, StripeWriter.write_of hp, this, StripeWriter.writeLoop]
  rfl

/-! ### Columns that are left out -/

mutual
theorem writeValue_absent (A : Arith) (c : Codec) (o : COpts) (i id : Nat) : ∀ (v : Vec) (ws ws' : List AnyWriter), v.covers id = false → writeValue A c o i ws v = .ok ws' → ws'[id]? = ws[id]?
  | .nil, ws, ws', _, h => by rw [writeValue] at h; cases h
  | .mk j k a cs, ws, ws', hc, h => by
    rw [Vec.covers, Bool.or_eq_false_iff] at hc
    rw [writeValue] at h
    obtain ⟨ws1, e1, h⟩ := Res.bind_ok_inv h
    rw [writeValues_absent A c o i id cs ws1 ws' hc.2 h]
    rw [writeRow.eq_def] at e1
    cases a with
    | none => cases e1; rfl
    | some a =>
      simp only [Option.isSome_some, Bool.true_and, beq_eq_false_iff_ne] at hc
      simp only at e1
      split at e1
      · obtain ⟨w, -, e1⟩ := Res.bind_ok_inv e1
        cases e1
        rw [List.getElem?_set_ne hc.1]
      · cases e1

theorem writeValues_absent (A : Arith) (c : Codec) (o : COpts) (i id : Nat) : ∀ (vs : List Vec) (ws ws' : List AnyWriter), coversAny id vs = false → writeValues A c o i ws vs = .ok ws' → ws'[id]? = ws[id]?
  | [], ws, ws', _, h => by rw [writeValues] at h; cases h; rfl
  | v :: vs, ws, ws', hc, h => by
    rw [coversAny, Bool.or_eq_false_iff] at hc
    rw [writeValues] at h
    obtain ⟨ws1, e1, h⟩ := Res.bind_ok_inv h
    rw [writeValues_absent A c o i id vs ws1 ws' hc.2 h, writeValue_absent A c o i id v ws ws1 hc.1 e1]
end

/-- **C100, refuted** A column for which the batch has no vector gets no rows, and there is no error: as long as no stripe is finished, its writer is as it was, while the number of rows of the stripe
grows. -/
theorem absent_column_ignored {E : Env} {o : FOpts} {w w' : FileWriter} {v : Vec} {id : Nat} (habs : v.covers id = false) (h : w.write E o v = .ok w') (one : w'.stripe.infos.length = w.stripe.infos.length) :
    w'.stripe.writers[id]? = w.stripe.writers[id]? ∧ w'.stripe.info.numberOfRows = w.stripe.info.numberOfRows + v.len := by
  have key : ∀ (n i count : Nat) (s s' : StripeWriter), StripeWriter.writeLoop E o v n i count s = .ok s' → s'.infos.length = s.infos.length →
      s'.writers[id]? = s.writers[id]? ∧ s'.info.numberOfRows = s.info.numberOfRows + count + n := by
    intro n
    induction n with
    | zero => intro i count s s' h _; rw [StripeWriter.writeLoop] at h; cases h; exact ⟨rfl, rfl⟩
    | succ n ih =>
      intro i count s s' h hone
      rw [StripeWriter.writeLoop] at h
      obtain ⟨ws, e1, h⟩ := Res.bind_ok_inv h
      have hab := writeValue_absent E.A E.c o.toCOpts i id v s.writers ws habs e1
      simp only at h
      split at h
      · exfalso
        obtain ⟨s1, e2, h⟩ := Res.bind_ok_inv h
        obtain ⟨s2, e3, h⟩ := Res.bind_ok_inv h
        obtain ⟨-, g1⟩ := StripeWriter.writeLoop_grows v n _ _ _ _ h
        obtain ⟨-, f1⟩ := StripeWriter.flushOut_grows e2
        obtain ⟨-, -, -, f4, -⟩ := StripeWriter.forward_spec e3
        have := g1.length_le
        rw [f4, f1] at this
        simp only [StripeWriter.addRows, List.length_append, List.length_cons, List.length_nil] at this
        omega
      · obtain ⟨k1, k2⟩ := ih _ _ _ _ h hone
        exact ⟨k1.trans hab, by rw [k2]; simp only; omega⟩
  rw [FileWriter.write] at h
  obtain ⟨s, e, h⟩ := Res.bind_ok_inv h
  cases h
  replace e := (StripeWriter.write_ok_inv e).2
  simpa using key v.len 0 0 _ _ e one

/-! ### Examples -/

/-- A batch for a table of two columns `a` and `b` of doubles: three rows for `a`, and some rows for `b`. -/
def gapBatch (b : Option (List Value)) : Vec :=
  .mk 0 .struct none ([.mk 1 .double (some ⟨[⟨false, .f64 1⟩, ⟨false, .f64 2⟩, ⟨false, .f64 3⟩], 3⟩) []] ++
    (b.map fun rows => Vec.mk 2 .double (some ⟨rows, rows.length⟩) []).toList)

/-- The writer after one `Write` of the batch. -/
def gapWriter (E : Env) (b : Option (List Value)) : Res FileWriter :=
  (newWriter E mixOpts mixSchema).bind fun w => w.write E mixOpts (gapBatch b)

/-- The writer at the end, to find out what the messages in the file are. -/
def gapEnd (b : Option (List Value)) : Option FileWriter :=
  match (gapWriter (mixEnv none none none) b).bind fun w => w.finish (mixEnv none none none) mixOpts with
  | .ok w => some w
  | _ => none

/-- An environment in which the three messages of that file are encoded as `mixEnv` does. -/
def gapE (b : Option (List Value)) : Env := mixEnv ((gapEnd b).map fun w => w.stripe.footer exArith) ((gapEnd b).map FileWriter.footer) (some (FileWriter.postScript mixOpts 4))

/-- What `Write` and then `Close` make of the batch. -/
def gapFile (b : Option (List Value)) : Res Bytes := (gapWriter (gapE b) b).bind fun w => w.close (gapE b) mixOpts

/-- **C100, refuted** A batch without the second column: `Write` and `Close` succeed, the file can be opened, and says that it has three rows; reading the rows fails. -/
theorem absent_column_unreadable : ((gapFile none).bind fun file => (newReader (gapE none) file).bind fun r =>
      ((r.createBatchReader (gapE none) ⟨[], 10, false⟩).bind fun _ => .ok r.numberOfRows)) = .ok 3 ∧
    ((gapFile none).bind fun file => readRecords (gapE none) 10 mixSchema ⟨[], 10, false⟩ true 3 file) = .err .other := by
  constructor <;> decide +kernel

/-- **C100, refuted** A batch with four rows for the second column, and three for the first one: the fourth row is gone. -/
theorem longer_column_lost : ((gapFile (some [⟨false, .f64 10⟩, ⟨false, .f64 20⟩, ⟨false, .f64 30⟩, ⟨false, .f64 40⟩])).bind fun file =>
      readRecords (gapE (some [⟨false, .f64 10⟩, ⟨false, .f64 20⟩, ⟨false, .f64 30⟩, ⟨false, .f64 40⟩])) 10 mixSchema ⟨[], 10, false⟩ true 3 file) =
    .ok ([[(1, .value (.f64 1)), (2, .value (.f64 10))], [(1, .value (.f64 2)), (2, .value (.f64 20))], [(1, .value (.f64 3)), (2, .value (.f64 30))]], true) := by
  decide +kernel

/-- A batch with one row for the second column: `Write` panics. -/
example : gapFile (some [⟨false, .f64 10⟩]) = .panic := by decide +kernel

/-- The hypotheses of `absent_column_ignored`, and of `written_batch_has`: the batch without the second column. -/
example : ∃ w w', newWriter (gapE none) mixOpts mixSchema = .ok w ∧ w.write (gapE none) mixOpts (gapBatch none) = .ok w' ∧ (gapBatch none).covers 2 = false ∧ (gapBatch none).len = 3 ∧
    w'.stripe.infos.length = w.stripe.infos.length := by
  have h : ((newWriter (gapE none) mixOpts mixSchema).bind fun w => (w.write (gapE none) mixOpts (gapBatch none)).bind fun w' => .ok (decide (w'.stripe.infos.length = w.stripe.infos.length))) = .ok true := by
    decide +kernel
  obtain ⟨w, h1, h⟩ := Res.bind_ok_inv (x := newWriter (gapE none) mixOpts mixSchema) h
  obtain ⟨w', h2, h⟩ := Res.bind_ok_inv (x := w.write (gapE none) mixOpts (gapBatch none)) h
  injection h with h
  exact ⟨w, w', h1, h2, by decide +kernel, by decide +kernel, of_decide_eq_true h⟩

/-- The hypothesis of `nil_vector_panics` and `short_column_panics`: a row of the first column. -/
example : ((newWriter (gapE none) mixOpts mixSchema).bind fun w => (writeValue exArith runCodec mixOpts.toCOpts 1 w.stripe.writers (gapBatch none)).bind fun ws => .ok ws.length) = .ok 3 := by
  decide +kernel

end Goorc
