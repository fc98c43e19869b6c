import Verif.Spec.Nested
import Verif.Proofs.ColMore
namespace Goorc

variable {χ : Type} {X : RdOps χ} {c : Codec} {P Q : χ → List Value → Prop}

theorem loopBound_ofNat (n : Nat) (h : n < 2 ^ 63) : loopBound (BitVec.ofNat 64 n) = n := by
  have h1 : (BitVec.ofNat 64 n).toNat = n := by
    rw [BitVec.toNat_ofNat]; exact Nat.mod_eq_of_lt (by omega)
  simp only [loopBound, BitVec.toInt_eq_toNat_cond, h1]
  rw [if_pos (by omega)]
  simp

theorem nextFlag_left {p : Option BoolReader} {b : Bool} {flags : List Bool} (h : FlagsLeft c p (b :: flags)) (old : Bool)
    (hu : p = none → old = false) :
    ∃ p', nextFlag c p old = .ok (!b, p') ∧ FlagsLeft c p' flags ∧ (p' = none ↔ p = none) := by
  cases p with
  | none =>
    have hb : b = true := h b (by simp)
    subst hb
    exact ⟨none, by simp [nextFlag, hu rfl], fun b hb => h b (by simp [hb]), by simp⟩
  | some p =>
    obtain ⟨p', p1, h1, h2⟩ := h
    exact ⟨some p1, by simp [nextFlag, h1], ⟨p', h2⟩, by simp⟩

theorem nextPresent_left {p : Option BoolReader} {b : Bool} {flags : List Bool} (h : FlagsLeft c p (b :: flags)) :
    ∃ p', nextPresent c p = .ok (b, p') ∧ FlagsLeft c p' flags ∧ (p' = none ↔ p = none) := by
  cases p with
  | none =>
    have hb : b = true := h b (by simp)
    subst hb
    exact ⟨none, by simp [nextPresent], fun b hb => h b (by simp [hb]), by simp⟩
  | some p =>
    obtain ⟨p', p1, h1, h2⟩ := h
    exact ⟨some p1, by simp [nextPresent, h1], ⟨p', h2⟩, by simp⟩

theorem nextLength_left {l : Option IntReader} {n : Nat} {ns : List Nat} (h : LengthsLeft c l (n :: ns)) :
    ∃ l', nextLength c l = .ok (BitVec.ofNat 64 n, l') ∧ LengthsLeft c l' ns ∧ n < 2 ^ 63 := by
  cases l with
  | none => exact h.elim
  | some l =>
    obtain ⟨h1, l', l1, h2, h3⟩ := h
    exact ⟨some l1, by simp [nextLength, h2], ⟨fun n hn => h1 n (by simp [hn]), l', h3⟩, h1 n (by simp)⟩

/-- The child vector of one row, after the call of `NextBatch`. -/
theorem child_next (hX : Feeds X P) {α : Type} (f : α → Value) (row : Option (List α)) (hnull : row = none → PassesNulls X P)
    {x : Option χ} {rest : List Value} (hx : ∃ y, x = some y ∧ P y ((row.getD []).map f ++ rest)) (id : Nat) (k : TypeKind) (s : Slice) (cs : List Vec) :
    ∃ e, prepareChild row.isNone (row.getD []).length (.mk id k (some s) cs) = .ok e ∧
      ∃ s' x', nextOn X x e = .ok (.mk id k (some s') cs, x') ∧ s'.visible = rowElements f row ∧ ∃ y, x' = some y ∧ P y rest := by
  obtain ⟨y, rfl, hy⟩ := hx
  refine ⟨_, rfl, ?_⟩
  cases row with
  | none =>
    obtain ⟨x', h1, h2⟩ := hnull rfl y rest id k (s.arr.drop 1) cs (by simpa using hy)
    refine ⟨⟨⟨true, .nil⟩ :: s.arr.drop 1, 1⟩, some x', ?_, by simp [Slice.visible, rowElements], x', rfl, h1⟩
    rw [List.drop_one] at h2
    simp [nextOn, h2]
  | some es =>
    simp only [Option.getD_some] at hy
    obtain ⟨x', h1, h2⟩ := hX.next y (es.map f) rest id k (s.arr.drop es.length) cs hy
    refine ⟨⟨es.map f ++ s.arr.drop es.length, es.length⟩, some x', ?_, by simp [Slice.visible, rowElements], x', rfl, h1⟩
    simp only [List.length_map] at h2
    simp [nextOn, h2]

/-- `s'` shows the elements of the last of the rows. -/
def ShowsLast {α : Type} (f : α → Value) (s' : Slice) (rows : List (Option (List α))) : Prop :=
  ∀ row, rows.getLast? = some row → s'.visible = rowElements f row

theorem ShowsLast.cons {α : Type} {f : α → Value} {s1 s' : Slice} {row : Option (List α)} {rows : List (Option (List α))}
    (h : rows = [] → s' = s1) (h1 : s1.visible = rowElements f row) (h2 : ShowsLast f s' rows) : ShowsLast f s' (row :: rows) := by
  intro r hr
  cases rows with
  | nil =>
    simp only [List.getLast?_singleton, Option.some.injEq] at hr
    subst hr
    rw [h rfl, h1]
  | cons a as =>
    rw [List.getLast?_cons_cons] at hr
    exact h2 r hr

theorem listRows_spec (hX : Feeds X P) (rows rest : List (Option (List Value))) (hnull : none ∈ rows → PassesNulls X P) (vec : List Value) (hl : vec.length = rows.length)
    {p : Option BoolReader} {l : Option IntReader} {x : Option χ} (h : ListLeft c P p l x (rows ++ rest)) (hu : p = none → Unmarked vec)
    (id : Nat) (k : TypeKind) (s : Slice) (ccs cs : List Vec) :
    ∃ s' p' l' x', listRows X c p l x vec (.mk id k (some s) ccs :: cs) =
        .ok (List.zipWith (fun old row => listRow (fun n => .u64 (BitVec.ofNat 64 n)) old row) vec rows, .mk id k (some s') ccs :: cs, p', l', x') ∧
      ListLeft c P p' l' x' rest ∧ (p' = none ↔ p = none) ∧ (rows = [] → s' = s) ∧ ShowsLast _root_.id s' rows := by
  induction rows generalizing vec p l x s with
  | nil =>
    cases vec with
    | nil => exact ⟨s, p, l, x, rfl, by simpa using h, Iff.rfl, fun _ => rfl, fun r hr => by simp at hr⟩
    | cons => simp at hl
  | cons row rows ih =>
    cases vec with
    | nil => simp at hl
    | cons old vec =>
      obtain ⟨hF, hL, y, hy, hP⟩ := h
      obtain ⟨p1, f1, f2, f3⟩ := nextFlag_left (by simpa using hF) old.null (fun hp => hu hp old (by simp))
      have hv : p1 = none → Unmarked vec := fun hn v hv => hu (f3.mp hn) v (by simp [hv])
      simp only [listRows, f1, Res.ok_bind]
      cases row with
      | none =>
        obtain ⟨e, e1, s1, x1, e2, e3, e4⟩ := child_next hX (_root_.id : Value → Value) none (fun _ => hnull (by simp))
          (rest := ((rows ++ rest).filterMap _root_.id).flatten) ⟨y, hy, by simpa using hP⟩ id k s ccs
        simp only [Option.isNone_none, Option.getD_none, List.length_nil] at e1
        obtain ⟨s2, p2, l2, x2, g1, g2, g3, g4, g5⟩ := ih (fun hm => hnull (by simp [hm])) vec (by simpa using hl) (p := p1) (l := l) (x := x1)
          ⟨by simpa using f2, by simpa using hL, e4⟩ hv s1
        refine ⟨s2, p2, l2, x2, ?_, g2, g3.trans f3, by simp, ShowsLast.cons g4 e3 g5⟩
        simp [e1, e2, g1, listRow]
      | some es =>
        simp only [List.cons_append, List.filterMap_cons, id_eq, List.map_cons, List.flatten_cons] at hL hP
        obtain ⟨l1, n1, n2, n3⟩ := nextLength_left hL
        obtain ⟨e, e1, s1, x1, e2, e3, e4⟩ := child_next hX (_root_.id : Value → Value) (some es) (by simp)
          (rest := ((rows ++ rest).filterMap _root_.id).flatten) ⟨y, hy, by simpa using hP⟩ id k s ccs
        simp only [Option.isNone_some, Option.getD_some] at e1
        obtain ⟨s2, p2, l2, x2, g1, g2, g3, g4, g5⟩ := ih (fun hm => hnull (by simp [hm])) vec (by simpa using hl) (p := p1) (l := l1) (x := x1)
          ⟨by simpa using f2, n2, e4⟩ hv s1
        refine ⟨s2, p2, l2, x2, ?_, g2, g3.trans f3, by simp, ShowsLast.cons g4 e3 g5⟩
        simp [n1, loopBound_ofNat _ n3, e1, e2, g1, listRow]

theorem listSkip_spec (hX : Feeds X P) (rows rest : List (Option (List Value)))
    {p : Option BoolReader} {l : Option IntReader} {x : Option χ} (h : ListLeft c P p l x (rows ++ rest)) :
    ∃ p' l' x', listSkip X c rows.length p l x = .ok (p', l', x') ∧ ListLeft c P p' l' x' rest ∧ (p' = none ↔ p = none) := by
  induction rows generalizing p l x with
  | nil => exact ⟨p, l, x, rfl, by simpa using h, Iff.rfl⟩
  | cons row rows ih =>
    obtain ⟨hF, hL, y, hy, hP⟩ := h
    obtain ⟨p1, f1, f2, f3⟩ := nextPresent_left (by simpa using hF)
    simp only [List.length_cons, listSkip, f1, Res.ok_bind]
    cases row with
    | none =>
      obtain ⟨p2, l2, x2, g1, g2, g3⟩ := ih (p := p1) (l := l) (x := x) ⟨by simpa using f2, by simpa using hL, y, hy, by simpa using hP⟩
      exact ⟨p2, l2, x2, by simpa using g1, g2, g3.trans f3⟩
    | some es =>
      simp only [List.cons_append, List.filterMap_cons, id_eq, List.map_cons, List.flatten_cons] at hL hP
      obtain ⟨l1, n1, n2, n3⟩ := nextLength_left hL
      obtain ⟨y1, k1, k2⟩ := hX.skip y es _ hP
      obtain ⟨p2, l2, x2, g1, g2, g3⟩ := ih (p := p1) (l := l1) (x := some y1) ⟨by simpa using f2, n2, y1, rfl, k1⟩
      refine ⟨p2, l2, x2, ?_, g2, g3.trans f3⟩
      subst hy
      simp [n1, loopBound_ofNat _ n3, skipOn, k2, g1]

theorem mapRows_spec (hX : Feeds X P) (hY : Feeds X Q) (rows rest : List (Option (List (Value × Value))))
    (hnull : none ∈ rows → PassesNulls X P ∧ PassesNulls X Q) (vec : List Value) (hl : vec.length = rows.length)
    {p : Option BoolReader} {l : Option IntReader} {x y : Option χ} (h : MapLeft c P Q p l x y (rows ++ rest)) (hu : p = none → Unmarked vec)
    (id1 id2 : Nat) (k1 k2 : TypeKind) (s1 s2 : Slice) (c1 c2 cs : List Vec) :
    ∃ s1' s2' p' l' x' y', mapRows X c p l x y vec (.mk id1 k1 (some s1) c1 :: .mk id2 k2 (some s2) c2 :: cs) =
        .ok (List.zipWith (fun old row => listRow (fun n => .int n) old row) vec rows,
          .mk id1 k1 (some s1') c1 :: .mk id2 k2 (some s2') c2 :: cs, p', l', x', y') ∧
      MapLeft c P Q p' l' x' y' rest ∧ (p' = none ↔ p = none) ∧ (rows = [] → s1' = s1 ∧ s2' = s2) ∧
      ShowsLast Prod.fst s1' rows ∧ ShowsLast Prod.snd s2' rows := by
  induction rows generalizing vec p l x y s1 s2 with
  | nil =>
    cases vec with
    | nil => exact ⟨s1, s2, p, l, x, y, rfl, by simpa using h, Iff.rfl, fun _ => ⟨rfl, rfl⟩, fun r hr => by simp at hr, fun r hr => by simp at hr⟩
    | cons => simp at hl
  | cons row rows ih =>
    cases vec with
    | nil => simp at hl
    | cons old vec =>
      obtain ⟨hF, hL, ⟨z1, hz1, hP⟩, ⟨z2, hz2, hQ⟩⟩ := h
      obtain ⟨p1, f1, f2, f3⟩ := nextFlag_left (by simpa using hF) old.null (fun hp => hu hp old (by simp))
      have hv : p1 = none → Unmarked vec := fun hn v hv => hu (f3.mp hn) v (by simp [hv])
      simp only [mapRows, f1, Res.ok_bind]
      cases row with
      | none =>
        obtain ⟨e, e1, t1, x1, e2, e3, e4⟩ := child_next hX (Prod.fst : Value × Value → Value) none (fun _ => (hnull (by simp)).1)
          (rest := ((rows ++ rest).filterMap _root_.id).flatten.map (·.1)) ⟨z1, hz1, by simpa using hP⟩ id1 k1 s1 c1
        obtain ⟨f, m1, t2, y1, m2, m3, m4⟩ := child_next hY (Prod.snd : Value × Value → Value) none (fun _ => (hnull (by simp)).2)
          (rest := ((rows ++ rest).filterMap _root_.id).flatten.map (·.2)) ⟨z2, hz2, by simpa using hQ⟩ id2 k2 s2 c2
        simp only [Option.isNone_none, Option.getD_none, List.length_nil] at e1 m1
        obtain ⟨s3, s4, p2, l2, x2, y2, g1, g2, g3, g4, g5, g6⟩ := ih (fun hm => hnull (by simp [hm])) vec (by simpa using hl) (p := p1) (l := l)
          (x := x1) (y := y1) ⟨by simpa using f2, by simpa using hL, e4, m4⟩ hv t1 t2
        refine ⟨s3, s4, p2, l2, x2, y2, ?_, g2, g3.trans f3, by simp, ShowsLast.cons (fun hr => (g4 hr).1) e3 g5, ShowsLast.cons (fun hr => (g4 hr).2) m3 g6⟩
        simp [e1, e2, m1, m2, g1, listRow]
      | some es =>
        simp only [List.cons_append, List.filterMap_cons, id_eq, List.map_cons, List.flatten_cons, List.map_append] at hL hP hQ
        obtain ⟨l1, n1, n2, n3⟩ := nextLength_left hL
        obtain ⟨e, e1, t1, x1, e2, e3, e4⟩ := child_next hX (Prod.fst : Value × Value → Value) (some es) (by simp)
          (rest := ((rows ++ rest).filterMap _root_.id).flatten.map (·.1)) ⟨z1, hz1, by simpa using hP⟩ id1 k1 s1 c1
        obtain ⟨f, m1, t2, y1, m2, m3, m4⟩ := child_next hY (Prod.snd : Value × Value → Value) (some es) (by simp)
          (rest := ((rows ++ rest).filterMap _root_.id).flatten.map (·.2)) ⟨z2, hz2, by simpa using hQ⟩ id2 k2 s2 c2
        simp only [Option.isNone_some, Option.getD_some] at e1 m1
        obtain ⟨s3, s4, p2, l2, x2, y2, g1, g2, g3, g4, g5, g6⟩ := ih (fun hm => hnull (by simp [hm])) vec (by simpa using hl) (p := p1) (l := l1)
          (x := x1) (y := y1) ⟨by simpa using f2, n2, e4, m4⟩ hv t1 t2
        refine ⟨s3, s4, p2, l2, x2, y2, ?_, g2, g3.trans f3, by simp, ShowsLast.cons (fun hr => (g4 hr).1) e3 g5, ShowsLast.cons (fun hr => (g4 hr).2) m3 g6⟩
        have hi : (BitVec.ofNat 64 es.length).toInt = es.length := by
          have h1 : (BitVec.ofNat 64 es.length).toNat = es.length := by
            rw [BitVec.toNat_ofNat]; exact Nat.mod_eq_of_lt (by omega)
          rw [BitVec.toInt_eq_toNat_cond, h1, if_pos (by omega)]
        simp [n1, loopBound_ofNat _ n3, e1, e2, m1, m2, g1, listRow, hi]

end Goorc
