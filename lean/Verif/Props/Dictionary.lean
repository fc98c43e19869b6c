import Verif.Props.Foreign
/-
C68: string columns with a dictionary, as other writers lay them out (the writer of this library fails, C40). And C38, for
files of any origin.
-/
namespace Goorc

/-! ### Loading the dictionary -/

theorem DictReader.load_data {c : Codec} {fuel : Nat} {r r1 : DictReader} (x : IntReader) (h : r.load c fuel = .ok r1) :
    DictReader.load c fuel { r with data := x } = .ok { r1 with data := x } ∧ r1.data = r.data ∧ r1.loaded = r.loaded := by
  induction fuel generalizing r with
  | zero =>
    simp only [DictReader.load] at h ⊢
    split at h
    · rename_i hf
      cases h
      exact ⟨if_pos hf, rfl, rfl⟩
    · cases h
  | succ fuel ih =>
    rw [DictReader.load] at h
    rw [DictReader.load]
    split at h
    · rename_i hf
      cases h
      exact ⟨if_pos hf, rfl, rfl⟩
    · rename_i hf
      rw [if_neg hf]
      obtain ⟨⟨l, len⟩, g1, h⟩ := Res.bind_ok_inv h
      obtain ⟨⟨s, dict⟩, g2, h⟩ := Res.bind_ok_inv h
      obtain ⟨k1, k2, k3⟩ := ih h
      simp only [g1, Res.ok_bind, g2]
      exact ⟨k1, k2, k3⟩

theorem DictReader.load_spec {c : Codec} (dict : List Bytes) (hs : ∀ v ∈ dict, v.length < 2 ^ 63) {fuel : Nat} (hf : dict.length ≤ fuel) {r : DictReader}
    (hu : r.length.signed = false) (hl : r.length.Rep c (dict.map fun v => BitVec.ofNat 64 v.length)) (hd : r.dict.Represents c (dict.flatMap id)) :
    ∃ r1, r.load c fuel = .ok r1 ∧ r1.strings = r.strings ++ dict := by
  induction dict generalizing r fuel with
  | nil =>
    have := (IntReader.finished_spec hl).mpr rfl
    exact ⟨r, by cases fuel <;> rw [DictReader.load, if_pos this], by simp⟩
  | cons v dict ih =>
    cases fuel with
    | zero => simp at hf
    | succ fuel =>
      have hnf : ¬ r.length.finished = true := fun hh => by cases (IntReader.finished_spec hl).mp hh
      obtain ⟨len', g1, g2, -, g4⟩ := IntReader.next_spec hl
      simp only [IntReader.next, hu, Bool.false_eq_true, if_false] at g1
      obtain ⟨s1, k1, k2, -⟩ := runStream_ok c (decodeBytes v.length) r.dict _ hd v (dict.flatMap id) (by
        rw [List.flatMap_cons]
        exact Dec.runBuf_full_append _ _ _ rfl)
      have hn : nextBytes c r.dict v.length = .ok (v, s1) := by rw [nextBytes, if_pos (hs v List.mem_cons_self)]; exact k1
      have hm : (BitVec.ofNat 64 v.length).toNat = v.length := by
        rw [BitVec.toNat_ofNat]; exact Nat.mod_eq_of_lt (by have := hs v List.mem_cons_self; omega)
      obtain ⟨r1, j1, j2⟩ := ih (fun x hx => hs x (List.mem_cons_of_mem _ hx)) (fuel := fuel) (by simpa using hf)
        (r := { r with length := len', dict := s1, strings := r.strings ++ [v] }) (g4.trans hu) g2 k2
      refine ⟨r1, ?_, by rw [j2]; simp⟩
      rw [DictReader.load, if_neg hnf]
      simp only [g1, Res.ok_bind, hm, hn]
      exact j1

/-! ### Calls on a reader that has or has not loaded its dictionary -/

section
variable {ρ : Type} {R : ReadKind ρ} {c : Codec}

theorem ReadKind.nextRows_keeps (Q : ρ → Prop) (hQ : ∀ d x d', R.next c d = .ok (x, d') → Q d → Q d') (vec : List Value) {r r' : ColReader ρ} {out : List Value}
    (h : R.nextRows c r vec = .ok (out, r')) (hr : Q r.data) : Q r'.data := by
  induction vec generalizing r r' out with
  | nil => simp only [ReadKind.nextRows, Res.ok.injEq, Prod.mk.injEq] at h; rw [← h.2]; exact hr
  | cons old vec ih =>
    simp only [ReadKind.nextRows] at h
    obtain ⟨⟨null, r1⟩, h1, h⟩ := Res.bind_ok_inv h
    obtain ⟨⟨v, r2⟩, h2, h⟩ := Res.bind_ok_inv h
    obtain ⟨⟨vs, r3⟩, h3, h⟩ := Res.bind_ok_inv h
    have e1 : r1.data = r.data := by
      cases hp : r.present with
      | none =>
        rw [hp] at h1
        simp only [Res.pure_eq, Res.ok.injEq, Prod.mk.injEq] at h1
        rw [← h1.2]
      | some p =>
        rw [hp] at h1
        obtain ⟨⟨b, p'⟩, g1, g2⟩ := Res.bind_ok_inv h1
        simp only [Res.pure_eq, Res.ok.injEq, Prod.mk.injEq] at g2
        rw [← g2.2]
    have e2 : Q r2.data := by
      cases null with
      | true =>
        simp only [if_true, Res.pure_eq, Res.ok.injEq, Prod.mk.injEq] at h2
        rw [← h2.2, e1]; exact hr
      | false =>
        simp only [Bool.false_eq_true, if_false] at h2
        obtain ⟨⟨x, d⟩, g1, h2⟩ := Res.bind_ok_inv h2
        obtain ⟨y, g2, h2⟩ := Res.bind_ok_inv h2
        simp only [Res.pure_eq, Res.ok.injEq, Prod.mk.injEq] at h2
        rw [← h2.2]
        exact hQ _ _ _ g1 (e1 ▸ hr)
    simp only [Res.pure_eq, Res.ok.injEq, Prod.mk.injEq] at h
    rw [← h.2]
    exact ih (r := r2) h3 e2

/-- Skipping does not notice a change that `skip` does not notice. -/
theorem ReadKind.skipRows_under (f : ρ → ρ) (hskip : ∀ d, R.skip c (f d) = (R.skip c d >>= fun d' => .ok (f d')))
    (hsw : ∀ d, R.skipSwallows c (f d) = R.skipSwallows c d) (n : Nat) (r : ColReader ρ) :
    R.skipRows c n { r with data := f r.data } = (R.skipRows c n r >>= fun r' => .ok { r' with data := f r'.data }) := by
  induction n generalizing r with
  | zero => rfl
  | succ n ih =>
    obtain ⟨hn, k, p, d, i⟩ := r
    simp only [ReadKind.skipRows]
    have main : ∀ (b : Bool) (p : Option BoolReader),
        (if b = true then
          if R.skipSwallows c (f d) = true then (pure ⟨hn, k, p, f d, i⟩ : Res (ColReader ρ))
          else R.skip c (f d) >>= fun d' => R.skipRows c n ⟨hn, k, p, d', i⟩
        else R.skipRows c n ⟨hn, k, p, f d, i⟩) =
        ((if b = true then
          if R.skipSwallows c d = true then (pure ⟨hn, k, p, d, i⟩ : Res (ColReader ρ))
          else R.skip c d >>= fun d' => R.skipRows c n ⟨hn, k, p, d', i⟩
        else R.skipRows c n ⟨hn, k, p, d, i⟩) >>= fun r' => .ok { r' with data := f r'.data }) := by
      intro b p
      cases b with
      | false => exact ih ⟨hn, k, p, d, i⟩
      | true =>
        simp only [if_true, hsw]
        cases R.skipSwallows c d with
        | true => rfl
        | false =>
          simp only [Bool.false_eq_true, if_false, hskip, Res.bind_assoc]
          cases R.skip c d with
          | ok d' => exact ih ⟨hn, k, p, d', i⟩
          | err e => rfl
          | panic => rfl
          | hang => rfl
    cases p with
    | none => exact main true none
    | some p =>
      simp only [Res.bind_assoc]
      cases hb : p.next c with
      | ok x => exact main x.1 (some x.2)
      | err e => rfl
      | panic => rfl
      | hang => rfl

end

theorem dict_skips {c : Codec} (fuel : Nat) : (dictRead fuel).SkipsLikeNext c := by
  intro d x d' h
  refine ⟨?_, rfl⟩
  simp only [dictRead] at h ⊢
  obtain ⟨⟨i, data⟩, h1, h2⟩ := Res.bind_ok_inv h
  simp only [h1, Res.ok_bind, Res.pure_eq]
  split at h2
  · simp only [Res.pure_eq, Res.ok.injEq, Prod.mk.injEq] at h2
    rw [h2.2]
  · cases h2

/-- The reader with its dictionary loaded. -/
def DictReader.with (l d : DictReader) : DictReader := { l with data := d.data, loaded := true }

/-- All calls, from a reader whose dictionary is loaded by the first of them that reads. -/
theorem dict_serve {c : Codec} (fuel : Nat) (l : DictReader) {F : BoolReader → Prop} {E : DictReader → Prop} (ops : List ReadOp)
    {r : ColReader DictReader} {rows : List (Option GoVal)} (hp : ∀ x, (dictRead fuel).prepare c { r.data with data := x } = .ok (l.with { r.data with data := x }))
    (h : (dictRead fuel).Holds c F E { r with data := l.with r.data } rows) (hl : consumed ops ≤ rows.length)
    (hu : r.present = none → Unmarked (vectors ops)) :
    ∃ r', (dictRead fuel).serve c r ops = .ok (deliverBy (fun _ x => x) ops rows, r') := by
  induction ops generalizing r rows with
  | nil => exact ⟨r, rfl⟩
  | cons op ops ih =>
    cases op with
    | batch vec =>
      simp only [consumed] at hl
      have hsplit : rows.take vec.length ++ rows.drop vec.length = rows := List.take_append_drop _ _
      rw [← hsplit] at h
      obtain ⟨r1, g1, g2, g3, -⟩ := h.rows (fun _ x => x) vec (by rw [List.length_take]; omega)
        (fun hn v hv => hu hn v (by simp [vectors, hv])) (fun _ _ _ => rfl)
      have hq : r1.data = l.with r1.data := by
        refine ReadKind.nextRows_keeps (fun d => d = l.with d) (fun d x d' hd hq => ?_) vec g1 rfl
        simp only [dictRead] at hd
        obtain ⟨⟨i, data⟩, h1, h2⟩ := Res.bind_ok_inv hd
        split at h2
        · simp only [Res.pure_eq, Res.ok.injEq, Prod.mk.injEq] at h2
          rw [← h2.2]
          conv => lhs; rw [hq]
          rfl
        · cases h2
      obtain ⟨r2, k1⟩ := ih (r := r1) (rows := rows.drop vec.length) (fun x => by
          rw [hq]
          simp only [dictRead, DictReader.with, if_true])
        (by rw [← hq]; exact g2) (by rw [List.length_drop]; omega)
        (fun hn v hv => hu (g3.mp hn) v (by simp [vectors, hv]))
      refine ⟨r2, ?_⟩
      have hb : (dictRead fuel).nextBatch c r vec = .ok (List.zipWith (storeRow fun _ x => x) vec (rows.take vec.length), r1) := by
        have := hp r.data.data
        simp only [ReadKind.nextBatch]
        rw [show r.data = { r.data with data := r.data.data } from rfl, this, Res.ok_bind]
        exact g1
      simp only [ReadKind.serve, hb, Res.ok_bind, k1, Res.pure_eq, deliverBy]
    | skip n =>
      simp only [consumed] at hl
      obtain ⟨r1, g1, g2, g3⟩ := h.skip (dict_skips fuel) n (by omega)
      rw [ReadKind.skipRows_under l.with (fun d => by
        simp only [dictRead, DictReader.with]
        cases d.data.nextUInt64 c <;> rfl) (fun _ => rfl)] at g1
      obtain ⟨r0, j1, j2⟩ := Res.bind_ok_inv g1
      simp only [Res.ok.injEq] at j2
      subst j2
      have hkeep : ∃ x, r0.data = { r.data with data := x } := by
        have : ∀ n (r r' : ColReader DictReader), (dictRead fuel).skipRows c n r = .ok r' → ∃ x, r'.data = { r.data with data := x } := by
          intro n
          induction n with
          | zero => intro r r' h; simp only [ReadKind.skipRows, Res.ok.injEq] at h; exact ⟨r.data.data, by rw [← h]⟩
          | succ n ih =>
            intro r r' h
            simp only [ReadKind.skipRows] at h
            obtain ⟨⟨b, r1⟩, h1, h⟩ := Res.bind_ok_inv h
            have e1 : r1.data = r.data := by
              cases hp : r.present with
              | none =>
                rw [hp] at h1
                simp only [Res.pure_eq, Res.ok.injEq, Prod.mk.injEq] at h1
                rw [← h1.2]
              | some p =>
                rw [hp] at h1
                obtain ⟨⟨b, p'⟩, g1, g2⟩ := Res.bind_ok_inv h1
                simp only [Res.pure_eq, Res.ok.injEq, Prod.mk.injEq] at g2
                rw [← g2.2]
            cases b with
            | false =>
              obtain ⟨x, hx⟩ := ih _ _ h
              exact ⟨x, by rw [hx, e1]⟩
            | true =>
              simp only [if_true] at h
              have : (dictRead fuel).skipSwallows c r1.data = false := rfl
              rw [this] at h
              simp only [Bool.false_eq_true, if_false] at h
              obtain ⟨d, h2, h⟩ := Res.bind_ok_inv h
              obtain ⟨x, hx⟩ := ih _ _ h
              simp only [dictRead] at h2
              obtain ⟨⟨i, data⟩, -, h3⟩ := Res.bind_ok_inv h2
              simp only [Res.pure_eq, Res.ok.injEq] at h3
              exact ⟨x, by rw [hx, ← h3, e1]⟩
        exact this _ _ _ j1
      obtain ⟨x, hx⟩ := hkeep
      obtain ⟨r2, k1⟩ := ih (r := r0) (rows := rows.drop n) (fun y => by rw [hx]; exact hp y) g2
        (by rw [List.length_drop]; omega)
        (fun hn v hv => hu (g3.mp hn) v (by simpa [vectors] using hv))
      exact ⟨r2, by simp only [ReadKind.serve, j1, Res.ok_bind, k1, deliverBy]⟩

theorem natInts_map (idx : List Nat) : (idx.map Int.ofNat).map (BitVec.ofInt 64) = idx.map (BitVec.ofNat 64) := by
  rw [List.map_map]
  apply List.map_congr_left
  intro v _
  exact BitVec.ofInt_natCast 64 v

theorem DictionaryLaid.opens {c : Codec} {kind : CompKind} {size : Nat} {file : Bytes} {ps : List LaidStream} {contents : StreamKind → Bytes}
    {present : Option (List Bool)} {dict : List Bytes} {idx : List Nat} (h : DictionaryLaid c kind size file ps contents present dict idx)
    {hasNulls : Bool} (hn : present.isSome = true → hasNulls = true) {fuel : Nat} (hfuel : dict.length ≤ fuel) :
    ∃ (r : ColReader DictReader) (l : DictReader) (data' : IntReader), (dictRead fuel).openCol kind hasNulls (ps.map fun p => (p.kind, newStreamReader kind size p.start p.body.length file)) = some r ∧
      (∀ x, (dictRead fuel).prepare c { r.data with data := x } = .ok (l.with { r.data with data := x })) ∧ l.strings = dict ∧
      Yields (IntReader.nextUInt64 c) r.data.data (idx.map (BitVec.ofNat 64)) data' ∧
      (present = none → r.present = none) ∧ (∀ bs, present = some bs → ∃ p p', r.present = some p ∧ Yields (BoolReader.next c) p bs p') := by
  obtain ⟨h, ⟨hs, hsz⟩, hdict, ⟨lengths, hl, hlh, hlen⟩, ⟨blocks, hd, hdh, hidx⟩⟩ := h
  obtain ⟨s, h1, h2⟩ := (h.lookup .data).1 (.inl (by simp))
  obtain ⟨t, h3, h4⟩ := (h.lookup .dictionaryData).1 (.inl (by simp))
  obtain ⟨u, h5, h6⟩ := (h.lookup .length).1 (.inl (by simp))
  have hdec := intStream_decodes hl hlh
  rw [hlen, lengths_map] at hdec
  have hddec := intStream_decodes hd hdh
  rw [hidx, natInts_map] at hddec
  obtain ⟨data', kd, -⟩ := uintReader_yields h2 hddec
  rw [hdict, ← List.flatMap_id] at h4
  obtain ⟨l, kl, kl2⟩ := DictReader.load_spec dict hs hfuel (r := ⟨newIntReader false s, t, newIntReader false u, [], false⟩) (c := c) rfl
    (IntReader.fresh h6 hdec) h4
  obtain ⟨r, g1, g2, g3, g4⟩ := ColumnLaid.opens (R := dictRead fuel) (hasNulls := hasNulls) h (by simp [dictRead]) hn
    ⟨newIntReader false s, t, newIntReader false u, [], false⟩ (by simp [dictRead, h1, h3, h5])
  refine ⟨r, l, data', g1, fun x => ?_, by simpa using kl2, by rw [g2]; exact kd, g3, g4⟩
  rw [g2]
  obtain ⟨m1, m2, m3⟩ := DictReader.load_data x kl
  simp only [dictRead, Bool.false_eq_true, if_false, m1, Res.ok_bind, Res.pure_eq, DictReader.with]

theorem dict_yields {c : Codec} {fuel : Nat} {l : DictReader} {dict : List Bytes} (hl : l.strings = dict) (hsz : dict.length < 2 ^ 64) (d : DictReader) (idx : List Nat) (a a' : IntReader)
    (hin : ∀ i ∈ idx, i < dict.length) (h : Yields (IntReader.nextUInt64 c) a (idx.map (BitVec.ofNat 64)) a') :
    Yields ((dictRead fuel).next c) (l.with { d with data := a }) (idx.map fun i => .str (dict.getD i [])) (l.with { d with data := a' }) := by
  induction idx generalizing a with
  | nil => cases h; exact rfl
  | cons i idx ih =>
    obtain ⟨a1, k1, k2⟩ := h
    refine ⟨_, ?_, ih a1 (fun j hj => hin j (List.mem_cons_of_mem _ hj)) k2⟩
    have hi := hin i List.mem_cons_self
    have hm : (BitVec.ofNat 64 i).toNat = i := by rw [BitVec.toNat_ofNat]; exact Nat.mod_eq_of_lt (by omega)
    simp only [dictRead, DictReader.with, k1, Res.ok_bind, hm, hl, List.getElem?_eq_getElem hi, Res.pure_eq, List.getD_eq_getElem?_getD,
      Option.getD_some]

section
variable {c : Codec} {kind : CompKind} {size : Nat} {file : Bytes} {ps : List LaidStream} {contents : StreamKind → Bytes}
  {present : Option (List Bool)} {dict : List Bytes} {idx : List Nat} {hasNulls : Bool}

/-- **C68** (partial: blocks of integers that are `Handled`, as in C26) A string column with a dictionary — the strings one
after the other, their lengths, and for every non-null row the index of its string — delivers for every row the string its
index stands for, whatever mix of batches and skips is asked for. `fuel` is the bound of the loop that loads the
dictionary. -/
theorem foreign_dictionary_partial (h : DictionaryLaid c kind size file ps contents present dict idx)
    (hn : present.isSome = true → hasNulls = true) (hin : ∀ i ∈ idx, i < dict.length)
    (rows : List (Option GoVal)) (hf : Flagged present rows) (hr : rows.filterMap id = idx.map fun i => .str (dict.getD i []))
    (fuel : Nat) (hfuel : dict.length ≤ fuel) : ColumnDelivers (dictRead fuel) c kind size hasNulls file ps rows := by
  obtain ⟨r, l, data', g1, hp, hl, hy, g3, g4⟩ := h.opens hn hfuel
  have hyr := dict_yields (fuel := fuel) hl h.small.2 r.data idx _ _ hin hy
  intro ops hlen' hu
  have hholds : (dictRead fuel).Holds c (fun _ => True) (fun _ => True) { r with data := l.with r.data } rows ∧ (r.present = none → Unmarked (vectors ops)) := by
    rw [← hr] at hyr
    simp only [ReadKind.Holds, ReadKind.Has]
    cases hp : present with
    | none =>
      have hnm : StreamKind.present ∉ ps.map (·.kind) := by
        rw [h.laid.kinds]; rintro (g | ⟨-, g⟩)
        · simp at g
        · simp [hp] at g
      rw [g3 hp]
      refine ⟨⟨_, ?_, hyr, trivial⟩, fun _ => hu hnm⟩
      rw [Flagged, hp, Option.getD_none] at hf
      rw [hf, List.all_map, List.all_eq_true]; exact fun _ _ => rfl
    | some bs =>
      obtain ⟨p, p', q1, q2⟩ := g4 bs hp
      rw [q1]
      rw [Flagged, hp, Option.getD_some] at hf
      exact ⟨⟨p', _, by rw [hf]; exact q2, trivial, hyr, trivial⟩, by simp⟩
  obtain ⟨r', k1⟩ := dict_serve fuel l ops hp hholds.1 hlen' hholds.2
  simp only [serveStreams]
  rw [g1]
  simp only [k1, Res.ok_bind, Res.pure_eq, deliverBy_replace]

/-- **C68**, the other way round: an index that stands for no string makes the batch that reaches it panic. Nothing checks
it. -/
theorem foreign_dictionary_bad_index (h : DictionaryLaid c kind size file ps contents none dict idx)
    (good : List Nat) (hgood : ∀ i ∈ good, i < dict.length) (bad : Nat) (hbad : dict.length ≤ bad) (hb : bad < 2 ^ 64) (rest : List Nat)
    (hidx : idx = good ++ bad :: rest) (vec : List Value) (hvec : good.length < vec.length) (hu : Unmarked vec)
    (fuel : Nat) (hfuel : dict.length ≤ fuel) : serveStreams (dictRead fuel) c kind size hasNulls file ps [.batch vec] = .panic := by
  obtain ⟨r, l, data', g1, hp, hl, hy, g3, -⟩ := h.opens (hasNulls := hasNulls) (by simp) hfuel
  rw [hidx, List.map_append] at hy
  obtain ⟨a1, hy1, hy2⟩ := hy.split
  have hyr := dict_yields (fuel := fuel) hl h.small.2 r.data good _ _ hgood hy1
  have hrp := g3 rfl
  have hholds : (dictRead fuel).Holds c (fun _ => True) (fun d => d = l.with { r.data with data := a1 }) { r with data := l.with r.data } ((good.map fun i => some (GoVal.str (dict.getD i []))) ++ []) := by
    simp only [ReadKind.Holds, ReadKind.Has]
    rw [hrp]
    refine ⟨_, ?_, ?_, rfl⟩
    · simp
    · simpa [List.filterMap_map, Function.comp_def] using hyr
  obtain ⟨r1, j1, j2, j3, -⟩ := hholds.rows (fun _ x => x) (vec.take good.length) (by simp; omega)
    (fun _ v hv => hu v (List.mem_of_mem_take hv)) (fun _ _ _ => rfl)
  simp only [ReadKind.Holds, ReadKind.Has] at j2
  have hr1 : r1.present = none := j3.mpr hrp
  rw [hr1] at j2
  obtain ⟨d, -, j4, j5⟩ := j2
  obtain ⟨v, vs, hv⟩ : ∃ v vs, vec.drop good.length = v :: vs := by
    cases hd : vec.drop good.length with
    | nil => have := congrArg List.length hd; simp at this; omega
    | cons v vs => exact ⟨v, vs, rfl⟩
  obtain ⟨a2, k1, -⟩ := hy2
  have hm : (BitVec.ofNat 64 bad).toNat = bad := by rw [BitVec.toNat_ofNat]; exact Nat.mod_eq_of_lt hb
  have hnx : (dictRead fuel).next c r1.data = .panic := by
    have : d = r1.data := j4
    rw [← this, j5]
    have hnone : dict[bad]? = none := List.getElem?_eq_none hbad
    simp only [dictRead, DictReader.with, k1, Res.ok_bind, hm, hl, hnone]
  have hvn : v.null = false := hu v (List.mem_of_mem_drop (by rw [hv]; exact List.mem_cons_self))
  have hrows : (dictRead fuel).nextRows c { r with data := l.with r.data } vec = .panic := by
    rw [← List.take_append_drop good.length vec, hv, ReadKind.nextRows_append, j1, Res.ok_bind]
    simp only [ReadKind.nextRows, hr1, Res.pure_eq, Res.ok_bind, hvn, hnx, Bool.false_eq_true, if_false, Res.panic_bind]
  simp only [serveStreams]
  rw [g1]
  have hbt : (dictRead fuel).nextBatch c r vec = .panic := by
    have := hp r.data.data
    simp only [ReadKind.nextBatch]
    rw [show r.data = { r.data with data := r.data.data } from rfl, this, Res.ok_bind]
    exact hrows
  simp only [ReadKind.serve, hbt, Res.panic_bind]

/-- A column of seven rows, the fourth null, in a file without compression: flags, indices, strings, lengths. -/
def exDictFile : Bytes := [0xff#8, 0xee#8] ++ [0x00#8, 0x02#8, 0x00#8, 0x00#8] ++ [0x66#8, 0x6f#8, 0x6f#8, 0x62#8, 0x61#8, 0x72#8, 0x62#8, 0x61#8, 0x7a#8] ++ [0x00#8, 0x03#8]

def exDictStreams : List LaidStream :=
  [⟨.present, 0, [0xff#8, 0xee#8]⟩, ⟨.data, 2, [0x00#8, 0x02#8, 0x00#8, 0x00#8]⟩,
    ⟨.dictionaryData, 6, [0x66#8, 0x6f#8, 0x6f#8, 0x62#8, 0x61#8, 0x72#8, 0x62#8, 0x61#8, 0x7a#8]⟩, ⟨.length, 15, [0x00#8, 0x03#8]⟩]

def exDictContents : StreamKind → Bytes
  | .present => [0xff#8, 0xee#8]
  | .data => [0x00#8, 0x02#8, 0x00#8, 0x00#8]
  | .dictionaryData => [0x66#8, 0x6f#8, 0x6f#8, 0x62#8, 0x61#8, 0x72#8, 0x62#8, 0x61#8, 0x7a#8]
  | .length => [0x00#8, 0x03#8]
  | _ => []

def exDict : List Bytes := [[0x66#8, 0x6f#8, 0x6f#8], [0x62#8, 0x61#8, 0x72#8], [0x62#8, 0x61#8, 0x7a#8]]

theorem exDict_laid (c : Codec) : DictionaryLaid c .none 16 exDictFile exDictStreams exDictContents (some [true, true, true, false, true, true, true])
    exDict [2, 2, 2, 0, 0, 0] where
  laid :=
    { nodup := by decide +kernel
      kinds := by intro k; cases k <;> decide +kernel
      inFile := by
        intro p hp
        simp only [exDictStreams, List.mem_cons, List.not_mem_nil, or_false] at hp
        rcases hp with hp | hp | hp | hp <;> subst hp
        · exact ⟨⟨[], exDictFile.drop 2, by decide +kernel, rfl⟩, by decide, rfl⟩
        · exact ⟨⟨exDictFile.take 2, exDictFile.drop 6, by decide +kernel, rfl⟩, by decide, rfl⟩
        · exact ⟨⟨exDictFile.take 6, exDictFile.drop 15, by decide +kernel, rfl⟩, by decide, rfl⟩
        · exact ⟨⟨exDictFile.take 15, [], by decide +kernel, rfl⟩, by decide, rfl⟩
      flags := by
        intro bs hbs
        cases hbs
        exact ⟨[0xee#8], [false], ⟨[.literal [0xee#8]], by simp [ByteRun.WF], by decide +kernel, by decide +kernel⟩, by decide +kernel⟩ }
  small := by decide +kernel
  strings := by decide +kernel
  lengths := ⟨[.shortRepeat 1 3 3], ⟨by simp [RleBlock.WF], by decide +kernel⟩, by simp [RleBlock.Handled], by decide +kernel⟩
  indices := ⟨[.shortRepeat 1 3 2, .shortRepeat 1 3 0], ⟨by simp [RleBlock.WF], by decide +kernel⟩, by simp [RleBlock.Handled], by decide +kernel⟩

/-- `foreign_dictionary_partial` on this column. -/
example (c : Codec) : ColumnDelivers (dictRead 3) c .none 16 true exDictFile exDictStreams
    ([2, 2, 2].map (fun i => some (.str (exDict.getD i []))) ++ none :: [0, 0, 0].map fun i => some (.str (exDict.getD i []))) :=
  foreign_dictionary_partial (exDict_laid c) (fun _ => rfl) (by decide +kernel) _ (by simp [Flagged]) rfl 3 (by decide +kernel)

/-- The same strings, and three rows with index 5, which stands for nothing. -/
theorem exDict_bad (c : Codec) : DictionaryLaid c .none 16 ([0x00#8, 0x05#8] ++ exDictFile.drop 6)
    [⟨.data, 0, [0x00#8, 0x05#8]⟩, ⟨.dictionaryData, 2, exDictContents .dictionaryData⟩, ⟨.length, 11, [0x00#8, 0x03#8]⟩]
    (fun k => if k = .data then [0x00#8, 0x05#8] else exDictContents k) none exDict [5, 5, 5] where
  laid :=
    { nodup := by decide +kernel
      kinds := by intro k; cases k <;> decide +kernel
      inFile := by
        intro p hp
        simp only [List.mem_cons, List.not_mem_nil, or_false] at hp
        rcases hp with hp | hp | hp <;> subst hp
        · exact ⟨⟨[], exDictFile.drop 6, by decide +kernel, rfl⟩, by decide, rfl⟩
        · exact ⟨⟨[0x00#8, 0x05#8], exDictFile.drop 15, by decide +kernel, rfl⟩, by decide, rfl⟩
        · exact ⟨⟨([0x00#8, 0x05#8] ++ exDictFile.drop 6).take 11, [], by decide +kernel, rfl⟩, by decide, rfl⟩
      flags := by intro bs hbs; cases hbs }
  small := by decide +kernel
  strings := by decide +kernel
  lengths := ⟨[.shortRepeat 1 3 3], ⟨by simp [RleBlock.WF], by decide +kernel⟩, by simp [RleBlock.Handled], by decide +kernel⟩
  indices := ⟨[.shortRepeat 1 3 5], ⟨by simp [RleBlock.WF], by decide +kernel⟩, by simp [RleBlock.Handled], by decide +kernel⟩

/-- `foreign_dictionary_bad_index` on this column. -/
example (c : Codec) (hasNulls : Bool) :
    serveStreams (dictRead 3) c .none 16 hasNulls ([0x00#8, 0x05#8] ++ exDictFile.drop 6)
      [⟨.data, 0, [0x00#8, 0x05#8]⟩, ⟨.dictionaryData, 2, exDictContents .dictionaryData⟩, ⟨.length, 11, [0x00#8, 0x03#8]⟩]
      [.batch [⟨false, .nil⟩]] = .panic :=
  foreign_dictionary_bad_index (exDict_bad c) [] (by simp) 5 (by decide +kernel) (by decide) [5, 5] rfl _ (by decide) (by simp [Unmarked]) 3
    (by decide +kernel)

end

/-! ### Timestamps and decimals -/

theorem ReadKind.nextRows_leaves {ρ : Type} {R : ReadKind ρ} {c : Codec} (hst : ∀ old x y, R.store old x = .ok y → y = old) (vec : List Value)
    {r r' : ColReader ρ} {out : List Value} (h : R.nextRows c r vec = .ok (out, r')) : out.map (·.v) = vec.map (·.v) := by
  induction vec generalizing r r' out with
  | nil => simp only [ReadKind.nextRows, Res.ok.injEq, Prod.mk.injEq] at h; rw [← h.1]
  | cons old vec ih =>
    simp only [ReadKind.nextRows] at h
    obtain ⟨⟨null, r1⟩, -, h⟩ := Res.bind_ok_inv h
    obtain ⟨⟨v, r2⟩, h2, h⟩ := Res.bind_ok_inv h
    obtain ⟨⟨vs, r3⟩, h3, h⟩ := Res.bind_ok_inv h
    simp only [Res.pure_eq, Res.ok.injEq, Prod.mk.injEq] at h
    rw [← h.1, List.map_cons, List.map_cons, ih h3]
    congr 1
    cases null with
    | true =>
      simp only [if_true, Res.pure_eq, Res.ok.injEq, Prod.mk.injEq] at h2
      rw [← h2.1]
    | false =>
      simp only [Bool.false_eq_true, if_false] at h2
      obtain ⟨⟨x, d⟩, -, h2⟩ := Res.bind_ok_inv h2
      obtain ⟨y, g2, h2⟩ := Res.bind_ok_inv h2
      simp only [Res.pure_eq, Res.ok.injEq, Prod.mk.injEq] at h2
      rw [← h2.1]
      exact hst _ _ _ g2

/-- **C38** (false, for files of any origin) Whatever the file and the state of the reader, a batch of a timestamp column
that is read without failing leaves every `V` of the vector as it was. -/
theorem timestamp_never_stored {c : Codec} {r r' : ColReader TsReader} {vec out : List Value} (h : timestampRead.nextBatch c r vec = .ok (out, r')) :
    out.map (·.v) = vec.map (·.v) := by
  refine ReadKind.nextRows_leaves (R := timestampRead) (r := r) (fun old x y hy => ?_) vec h
  simp only [timestampRead] at hy
  split at hy <;> cases hy
  rfl

/-- **C38** (false, for files of any origin) The same for decimals. -/
theorem decimal_never_stored {c : Codec} {r r' : ColReader DecReader} {vec out : List Value} (h : decimalRead.nextBatch c r vec = .ok (out, r')) :
    out.map (·.v) = vec.map (·.v) := by
  refine ReadKind.nextRows_leaves (R := decimalRead) (r := r) (fun old x y hy => ?_) vec h
  simp only [decimalRead] at hy
  split at hy <;> cases hy
  rfl

end Goorc
