import Verif.Props.Nested
/-
C42, C93: what `Skip` of a map column does, for all rows.
-/
namespace Goorc

variable {χ : Type} {X : RdOps χ} {c : Codec} {P Q : χ → List Value → Prop}

/-- The numbers of entries of some rows (none is a null row), each multiplied with itself, added up. -/
def squares (counts : List (Option Nat)) : Nat := ((counts.filterMap id).map fun m => m * m).sum

/-- The numbers of entries of some rows, added up. -/
def entries (counts : List (Option Nat)) : Nat := (counts.filterMap id).sum

/-- **C42, C93, exact** Skipping any rows of a map column: the flags and the lengths of these rows are passed, and as many keys and values as the squares of the
lengths say, if so many are left. -/
theorem map_skip_exact (hX : Feeds X P) (hY : Feeds X Q) (fuel : Nat) (kind : CompKind) (i : Option (List (List Nat)))
    (skipped rest : List (Option Nat)) {p : Option BoolReader} {l : Option IntReader} (hF : FlagsLeft c p ((skipped ++ rest).map (·.isSome)))
    (hL : LengthsLeft c l ((skipped ++ rest).filterMap id)) (keys keys' values values' : List Value)
    (hk : keys.length = squares skipped) (hv : values.length = squares skipped) {x y : χ} (hx : P x (keys ++ keys')) (hy : Q y (values ++ values')) :
    ∃ p' l' x' y', (RdNode.map kind p l i (some x) (some y)).skip X c fuel skipped.length = .ok (.map kind p' l' i (some x') (some y')) ∧
      FlagsLeft c p' (rest.map (·.isSome)) ∧ LengthsLeft c l' (rest.filterMap id) ∧ P x' keys' ∧ Q y' values' ∧ (p' = none ↔ p = none) := by
  have key : ∃ p' l' x' y', mapSkip X c skipped.length p l (some x) (some y) = .ok (p', l', some x', some y') ∧
      FlagsLeft c p' (rest.map (·.isSome)) ∧ LengthsLeft c l' (rest.filterMap id) ∧ P x' keys' ∧ Q y' values' ∧ (p' = none ↔ p = none) := by
    induction skipped generalizing p l x y keys values with
    | nil =>
      simp only [squares, List.filterMap_nil, List.map_nil, List.sum_nil, List.length_eq_zero_iff] at hk hv
      subst hk hv
      exact ⟨p, l, x, y, rfl, by simpa using hF, by simpa using hL, hx, hy, Iff.rfl⟩
    | cons row rows ih =>
      obtain ⟨p1, f1, f2, f3⟩ := nextPresent_left (by simpa using hF)
      simp only [List.length_cons, mapSkip, f1, Res.ok_bind]
      cases row with
      | none =>
        obtain ⟨p2, l2, x2, y2, g1, g2, g3, g4, g5, g6⟩ := ih (by simpa using f2) (by simpa using hL) keys values (by simpa [squares] using hk) (by simpa [squares] using hv) hx hy
        exact ⟨p2, l2, x2, y2, by simpa using g1, g2, g3, g4, g5, g6.trans f3⟩
      | some m =>
        simp only [List.cons_append, List.filterMap_cons, id_eq] at hL
        obtain ⟨l1, n1, n2, n3⟩ := nextLength_left hL
        have hk' : keys.length = m * m + squares rows := by simpa [squares] using hk
        have hv' : values.length = m * m + squares rows := by simpa [squares] using hv
        rw [← List.take_append_drop (m * m) keys, List.append_assoc] at hx
        rw [← List.take_append_drop (m * m) values, List.append_assoc] at hy
        obtain ⟨x1, y1, k1, k2, k3⟩ := entrySkip_spec hX hY m m _ _ _ _ (by rw [List.length_take]; omega) (by rw [List.length_take]; omega) hx hy
        obtain ⟨p2, l2, x2, y2, g1, g2, g3, g4, g5, g6⟩ := ih (by simpa using f2) n2 _ _ (by rw [List.length_drop]; omega) (by rw [List.length_drop]; omega) k2 k3
        refine ⟨p2, l2, x2, y2, ?_, g2, g3, g4, g5, g6.trans f3⟩
        simp [n1, loopBound_ofNat _ n3, k1, g1]
  obtain ⟨p', l', x', y', g1, g2⟩ := key
  exact ⟨p', l', x', y', by simp [RdNode.skip, g1], g2⟩

/-- A reader that has at least these rows left. -/
def AtLeast (P : χ → List Value → Prop) (x : χ) (es : List Value) : Prop := ∃ more, P x (es ++ more)

theorem atLeast_feeds (hX : Feeds X P) : Feeds X (AtLeast P) where
  next := by
    rintro x es rest id k cap cs ⟨more, h⟩
    rw [List.append_assoc] at h
    obtain ⟨x', h1, h2⟩ := hX.next x es _ id k cap cs h
    exact ⟨x', ⟨more, h1⟩, h2⟩
  skip := by
    rintro x es rest ⟨more, h⟩
    rw [List.append_assoc] at h
    obtain ⟨x', h1, h2⟩ := hX.skip x es _ h
    exact ⟨x', ⟨more, h1⟩, h2⟩

/-- **C42, C93, exact** After `Skip` of some rows of a map column the next row, with `n` entries, is delivered with its own number of entries, and with keys and values that begin
after as many as the squares of the skipped lengths say, while its own begin after the sum of the skipped lengths. -/
theorem map_skip_then_next (hX : Feeds X P) (hY : Feeds X Q) (fuel : Nat) (kind : CompKind) (i : Option (List (List Nat)))
    (skipped : List (Option Nat)) (n : Nat) {p : Option BoolReader} {l : Option IntReader} (hF : FlagsLeft c p ((skipped ++ [some n]).map (·.isSome)))
    (hL : LengthsLeft c l ((skipped ++ [some n]).filterMap id)) (keys values : List Value)
    (hk : squares skipped + n ≤ keys.length) (hv : squares skipped + n ≤ values.length) {x y : χ} (hx : P x keys) (hy : Q y values)
    (id id1 id2 : Nat) (k k1 k2 : TypeKind) (t1 t2 : Slice) (c1 c2 cs : List Vec) (cap : List Value) :
    ∃ s' t1' t2' r r', (RdNode.map kind p l i (some x) (some y)).skip X c fuel skipped.length = .ok r ∧
      r.nextBatch X c fuel (.mk id k (some ⟨⟨false, .nil⟩ :: cap, 1⟩) (.mk id1 k1 (some t1) c1 :: .mk id2 k2 (some t2) c2 :: cs)) =
        .ok (.mk id k (some s') (.mk id1 k1 (some t1') c1 :: .mk id2 k2 (some t2') c2 :: cs), r') ∧
      s'.visible = [⟨false, .int n⟩] ∧ t1'.visible = (keys.drop (squares skipped)).take n ∧ t2'.visible = (values.drop (squares skipped)).take n := by
  obtain ⟨p', l', x', y', e1, e2, e3, e4, e5, -⟩ := map_skip_exact hX hY fuel kind i skipped [some n] hF hL (keys.take (squares skipped)) (keys.drop (squares skipped))
    (values.take (squares skipped)) (values.drop (squares skipped)) (by rw [List.length_take]; omega) (by rw [List.length_take]; omega)
    (by rwa [List.take_append_drop]) (by rwa [List.take_append_drop])
  have lk : ((keys.drop (squares skipped)).take n).length = n := by rw [List.length_take, List.length_drop]; omega
  have lv : ((values.drop (squares skipped)).take n).length = n := by rw [List.length_take, List.length_drop]; omega
  have lz : (((keys.drop (squares skipped)).take n).zip ((values.drop (squares skipped)).take n)).length = n := by rw [List.length_zip, lk, lv]; exact Nat.min_self n
  obtain ⟨s', t1', t2', p2, l2, x2, y2, g1, g2, g3, -⟩ := map_batch_partial (atLeast_feeds hX) (atLeast_feeds hY) fuel kind i
    [some (((keys.drop (squares skipped)).take n).zip ((values.drop (squares skipped)).take n))] [] (by simp)
    (p := p') (l := l') (x := some x') (y := some y')
    ⟨by simpa using e2, by simpa [lz] using e3, ⟨x', rfl, keys.drop (squares skipped + n), by
        simp only [List.filterMap_cons, List.append_nil, id_eq, List.filterMap_nil, List.flatten_cons, List.flatten_nil]
        rw [List.map_fst_zip (by omega), ← List.drop_drop, List.take_append_drop]; exact e4⟩,
      ⟨y', rfl, values.drop (squares skipped + n), by
        simp only [List.filterMap_cons, List.append_nil, id_eq, List.filterMap_nil, List.flatten_cons, List.flatten_nil]
        rw [List.map_snd_zip (by omega), ← List.drop_drop, List.take_append_drop]; exact e5⟩⟩
    ⟨⟨false, .nil⟩ :: cap, 1⟩ t1 t2 (by simp [Slice.visible]) (by simp [Unmarked, Slice.visible]) id id1 id2 k k1 k2 c1 c2 cs
  obtain ⟨h1, h2⟩ := g3 _ rfl
  refine ⟨s', t1', t2', _, _, e1, g1, ?_, ?_, ?_⟩
  · rw [g2]; simp [Slice.visible, listRow, lk, lv]
  · rw [h1]; simp only [List.getLast_singleton, rowElements]; exact List.map_fst_zip (by omega)
  · rw [h2]; simp only [List.getLast_singleton, rowElements]; exact List.map_snd_zip (by omega)

/-- The entries are the right ones, wherever the skip goes, only if the squares of the skipped lengths add up to the same as the lengths: if no skipped row has more than one entry. -/
theorem squares_entries (counts : List (Option Nat)) : squares counts = entries counts ↔ ∀ m, some m ∈ counts → m ≤ 1 := by
  have hle : ∀ cs : List (Option Nat), entries cs ≤ squares cs := by
    intro cs
    induction cs with
    | nil => exact Nat.le_refl _
    | cons a cs ih =>
      cases a with
      | none => simpa [entries, squares] using ih
      | some m =>
        have : m ≤ m * m := Nat.le_mul_self m
        simp only [entries, squares, List.filterMap_cons, id_eq, List.sum_cons, List.map_cons] at ih ⊢
        omega
  induction counts with
  | nil => simp [squares, entries]
  | cons a cs ih =>
    cases a with
    | none => simpa [entries, squares] using ih
    | some m =>
      have h1 := hle cs
      have e1 : squares (some m :: cs) = m * m + squares cs := by simp [squares]
      have e2 : entries (some m :: cs) = m + entries cs := by simp [entries]
      rw [e1, e2]
      constructor
      · intro h
        have h2 : m ≤ m * m := Nat.le_mul_self m
        have hm : m * m = m := by omega
        have hs : squares cs = entries cs := by omega
        intro m' hm'
        rcases List.mem_cons.1 hm' with h3 | h3
        · injection h3 with h3; subst h3
          by_cases h0 : m' ≤ 1
          · exact h0
          · have : m' * 2 ≤ m' * m' := Nat.mul_le_mul_left m' (by omega)
            omega
        · exact ih.1 hs m' h3
      · intro h
        have hm : m ≤ 1 := h m (by simp)
        have hs := ih.2 fun m' hm' => h m' (by simp [hm'])
        have : m * m = m := by rcases Nat.le_one_iff_eq_zero_or_eq_one.mp hm with h | h <;> rw [h]
        omega

/-! ### Example: lengths 2, 2, 2 and the bytes 1 to 6 -/

/-- Skipping the first map passes four keys and four values: the next map is given the entries of the third one. -/
example : squares [some 2] = 4 ∧ entries [some 2] = 2 ∧ squares [some 1, none, some 0, some 3] = 10 := by decide

example : LengthsLeft growCodec (some nestedLengths) (([some 2] ++ [some 2]).filterMap id) := by
  refine ⟨by simp, ?_⟩
  cases h1 : nestedLengths.nextUInt64 growCodec with
  | ok y =>
    obtain ⟨a, l1⟩ := y
    cases h2 : l1.nextUInt64 growCodec with
    | ok z =>
      obtain ⟨b, l2⟩ := z
      have key : (match nestedLengths.nextUInt64 growCodec with | .ok (a, l1) => (match l1.nextUInt64 growCodec with | .ok (b, _) => decide (a = 2 ∧ b = 2) | _ => false) | _ => false) = true := by
        decide +kernel
      rw [h1] at key; simp only [h2] at key
      obtain ⟨rfl, rfl⟩ := of_decide_eq_true key
      exact ⟨l2, l1, h1, l2, h2, rfl⟩
    | _ => exfalso; have key : (match nestedLengths.nextUInt64 growCodec with | .ok (a, l1) => (match l1.nextUInt64 growCodec with | .ok (b, _) => decide (a = 2 ∧ b = 2) | _ => false) | _ => false) = true := by decide +kernel
           rw [h1] at key; simp only [h2] at key; cases key
  | _ => exfalso; have key : (match nestedLengths.nextUInt64 growCodec with | .ok _ => true | _ => false) = true := by decide +kernel
         rw [h1] at key; cases key

end Goorc
