import Verif.Spec.Trees
import Verif.Proofs.Collections
import Verif.Props.Dictionary
/- Tables of any nesting: lemmas for Props/Trees.lean. -/
namespace Goorc

/-! ### Values -/

section
variable {ρ : Type} {R : ReadKind ρ} {c : Codec}

/-- What a reader does before its batches has an effect at most once; values replace what was in the vector. -/
structure ReadKind.Steady (R : ReadKind ρ) (c : Codec) : Prop where
  again : ∀ d d', R.prepare c d = .ok d' → R.prepare c d' = .ok d'
  kept : ∀ d x d', R.prepare c d = .ok d → R.next c d = .ok (x, d') → R.prepare c d' = .ok d'
  store : ∀ old x, R.store old x = .ok x

/-- A reader from which the rows can be read, after what it does before a batch. -/
def ReadKind.Ready (R : ReadKind ρ) (c : Codec) (r : ColReader ρ) (rows : List (Option GoVal)) : Prop :=
  ∃ d, R.prepare c r.data = .ok d ∧ R.Holds c (fun _ => True) (fun _ => True) { r with data := d } rows

theorem leaf_steady {t : LeafTag} (ht : t.Replaces) : t.read.Steady c :=
  ⟨fun _ _ _ => ht.prepare c _, fun _ _ _ _ _ => ht.prepare c _, ht.store⟩

theorem dict_steady (fuel : Nat) : (dictRead fuel).Steady c where
  again d d' h := by
    simp only [dictRead] at h ⊢
    split at h
    · rename_i hl
      cases h
      rw [if_pos hl]
    · obtain ⟨d1, -, h⟩ := Res.bind_ok_inv h
      cases h
      rfl
  kept d x d' h1 h2 := by
    have hl : d.loaded = true := by
      simp only [dictRead] at h1
      split at h1
      · assumption
      · obtain ⟨d1, -, h⟩ := Res.bind_ok_inv h1
        cases h
        rfl
    simp only [dictRead] at h2 ⊢
    obtain ⟨⟨i, data⟩, -, h3⟩ := Res.bind_ok_inv h2
    split at h3
    · simp only [Res.pure_eq, Res.ok.injEq, Prod.mk.injEq] at h3
      rw [← h3.2]
      exact if_pos hl
    · cases h3
  store _ _ := rfl

theorem ReadKind.Ready.batch (hR : R.Steady c) {r : ColReader ρ} {a b : List (Option GoVal)} (h : R.Ready c r (a ++ b)) (vec : List Value) (hl : vec.length = a.length)
    (hu : r.present = none → Unmarked vec) :
    ∃ r', R.nextBatch c r vec = .ok (List.zipWith (fun old x => rowValue old.v x) vec a, r') ∧ R.Ready c r' b ∧ (r'.present = none ↔ r.present = none) := by
  obtain ⟨d, h1, h2⟩ := h
  obtain ⟨r', g1, g2, g3, -⟩ := h2.rows (fun _ x => x) vec hl hu (fun old _ x => hR.store old.v x)
  have hzip : List.zipWith (storeRow fun _ x => x) vec a = List.zipWith (fun old x => rowValue old.v x) vec a := by
    congr 1; funext old x; exact storeRow_replace old x
  rw [hzip] at g1
  refine ⟨r', by simp only [ReadKind.nextBatch, h1, Res.ok_bind, g1], ⟨r'.data, ?_, g2⟩, g3⟩
  exact ReadKind.nextRows_keeps (fun d => R.prepare c d = .ok d) (fun d x d' hd hq => hR.kept d x d' hq hd) vec g1 (hR.again _ _ h1)

theorem ReadKind.Ready.null (hR : R.Steady c) {r : ColReader ρ} {rows : List (Option GoVal)} (h : R.Ready c r rows) (hp : r.present = none) (v : GoVal) :
    ∃ r', R.nextBatch c r [⟨true, v⟩] = .ok ([⟨true, v⟩], r') ∧ R.Ready c r' rows ∧ r'.present = none := by
  obtain ⟨d, h1, h2⟩ := h
  refine ⟨{ r with data := d }, ?_, ⟨d, hR.again _ _ h1, h2⟩, hp⟩
  simp only [ReadKind.nextBatch, h1, Res.ok_bind, ReadKind.nextRows, hp, Res.pure_eq, if_true]

end

/-! ### Lists and maps -/

/-- The vector of a column. -/
inductive DeepShape : Schema → Vec → Prop
  | value (n : SchemaNode) (s : Slice) : n.kind.nested = false → DeepShape (.mk n []) (.mk n.id n.kind (some s) [])
  | list (n : SchemaNode) (e : Schema) (s : Slice) (v : Vec) : n.kind = .list → DeepShape e v → DeepShape (.mk n [e]) (.mk n.id .list (some s) [v])
  | map (n : SchemaNode) (k w : Schema) (s : Slice) (u v : Vec) : n.kind = .map → DeepShape k u → DeepShape w v →
      DeepShape (.mk n [k, w]) (.mk n.id .map (some s) [u, v])

theorem DeepShape.slice {d : Schema} {v : Vec} (h : DeepShape d v) : ∃ id k s cs, v = .mk id k (some s) cs := by
  cases h <;> exact ⟨_, _, _, _, rfl⟩

theorem DeepShape.with {d : Schema} {id : Nat} {k : TypeKind} {s : Slice} {cs : List Vec} (h : DeepShape d (.mk id k (some s) cs)) (s' : Slice) :
    DeepShape d (.mk id k (some s') cs) := by
  cases h with
  | value n _ hk => exact .value n s' hk
  | list n e _ v hk hv => exact .list n e s' v hk hv
  | map n k w _ u v hk hu hv => exact .map n k w s' u v hk hu hv

/-- The reader of a column: the items `items` are left. -/
def DeepHas (c : Codec) (fuel : Nat) : (n : Nat) → Schema → Rd n → List Deep → Prop
  | 0, _, _, _ => False
  | n + 1, .mk nd cs, x, items =>
    match (x : RdNode (Rd n)) with
    | .leaf t r => cs = [] ∧ nd.kind.nested = false ∧ t.Replaces ∧ (nd.hasNulls = false → r.present = none) ∧
        ∃ rows, items = rows.map Deep.ofValue ∧ t.read.Ready c r rows
    | .dict r => cs = [] ∧ nd.kind.nested = false ∧ (nd.hasNulls = false → r.present = none) ∧ ∃ rows, items = rows.map Deep.ofValue ∧ (dictRead fuel).Ready c r rows
    | .list _ p l _ y => nd.kind = .list ∧ (nd.hasNulls = false → p = none) ∧ ∃ e, cs = [e] ∧ ∃ rows : List (Option (List Deep)), items = rows.map Deep.ofList ∧
        FlagsLeft c p (rows.map (·.isSome)) ∧ LengthsLeft c l ((rows.filterMap id).map (·.length)) ∧ ∃ z, y = some z ∧ DeepHas c fuel n e z (rows.filterMap id).flatten
    | .map _ p l _ y z => nd.kind = .map ∧ (nd.hasNulls = false → p = none) ∧ ∃ e e', cs = [e, e'] ∧ ∃ rows : List (Option (List (Deep × Deep))), items = rows.map Deep.ofMap ∧
        FlagsLeft c p (rows.map (·.isSome)) ∧ LengthsLeft c l ((rows.filterMap id).map (·.length)) ∧
        (∃ u, y = some u ∧ DeepHas c fuel n e u ((rows.filterMap id).flatten.map (·.1))) ∧ ∃ u, z = some u ∧ DeepHas c fuel n e' u ((rows.filterMap id).flatten.map (·.2))
    | .struct _ _ _ _ => False
    | .bare _ _ => False

/-- A reader with flags. -/
def Rd.flagged : (n : Nat) → Rd n → Prop
  | 0, _ => False
  | n + 1, x => match (x : RdNode (Rd n)) with
    | .leaf _ r => r.present ≠ none
    | .dict r => r.present ≠ none
    | .struct _ p _ _ => p ≠ none
    | .list _ p _ _ _ => p ≠ none
    | .map _ p _ _ _ _ => p ≠ none
    | .bare _ r => r.present ≠ none

/-- What the reader of a list expects of the reader of the elements. -/
structure KidOk {χ : Type} (X : RdOps χ) (P : χ → List Deep → Prop) (S : Vec → Prop) (solid : Prop) : Prop where
  slice : ∀ v, S v → ∃ id k s cs, v = .mk id k (some s) cs
  with' : ∀ id k s cs, S (.mk id k (some s) cs) → ∀ s', S (.mk id k (some s') cs)
  next : ∀ x a b id k s cs, P x (a ++ b) → S (.mk id k (some s) cs) → s.visible.length = a.length → Unmarked s.visible →
    ∃ s' cs' x', X.nextBatch x (.mk id k (some s) cs) = .ok (.mk id k (some s') cs', x') ∧ P x' b ∧ S (.mk id k (some s') cs') ∧
      s'.visible.map Value.row = a.map Deep.cell
  null : solid → ∀ x items id k s cs, P x items → S (.mk id k (some s) cs) → s.visible = [⟨true, .nil⟩] →
    ∃ s' cs' x', X.nextBatch x (.mk id k (some s) cs) = .ok (.mk id k (some s') cs', x') ∧ P x' items ∧ S (.mk id k (some s') cs')

section
variable {χ : Type} {X : RdOps χ} {P Q : χ → List Deep → Prop} {S T : Vec → Prop} {solid solid' : Prop} {c : Codec}

/-- The elements of one row. -/
theorem KidOk.child (hX : KidOk X P S solid) (row : Option (List Deep)) (hnull : row = none → solid) {x : χ} {rest : List Deep}
    (hx : P x (row.getD [] ++ rest)) (v : Vec) (hv : S v) :
    ∃ w v' x', prepareChild row.isNone (row.getD []).length v = .ok w ∧ nextOn X (some x) w = .ok (v', some x') ∧ P x' rest ∧ S v' ∧
      (∀ es, row = some es → v'.rows.map Value.row = es.map Deep.cell) := by
  obtain ⟨id, k, s, cs, rfl⟩ := hX.slice v hv
  cases row with
  | none =>
    obtain ⟨s', cs', x', h1, h2, h3⟩ := hX.null (hnull rfl) x rest id k ⟨⟨true, .nil⟩ :: s.arr.drop 1, 1⟩ cs (by simpa using hx) (hX.with' _ _ _ _ hv _) (by simp [Slice.visible])
    refine ⟨_, _, x', rfl, ?_, h2, h3, by simp⟩
    rw [List.drop_one] at h1
    simp [nextOn, h1]
  | some es =>
    simp only [Option.getD_some] at hx
    obtain ⟨s', cs', x', h1, h2, h3, h4⟩ := hX.next x es rest id k ⟨List.replicate es.length ⟨false, .nil⟩ ++ s.arr.drop es.length, es.length⟩ cs hx
      (hX.with' _ _ _ _ hv _) (by simp [Slice.visible]) (by
        intro w hw
        simp only [Slice.visible, List.take_left' (List.length_replicate ..)] at hw
        rw [List.eq_of_mem_replicate hw])
    refine ⟨_, _, x', rfl, ?_, h2, h3, ?_⟩
    · simp [nextOn, h1]
    · rintro _ ⟨⟩
      exact h4

theorem deep_listRows (hX : KidOk X P S solid) (rows rest : List (Option (List Deep))) (hnull : none ∈ rows → solid) (vec : List Value)
    (hl : vec.length = rows.length) {p : Option BoolReader} {l : Option IntReader} {x : χ} (hF : FlagsLeft c p ((rows ++ rest).map (·.isSome)))
    (hL : LengthsLeft c l (((rows ++ rest).filterMap id).map (·.length))) (hP : P x ((rows ++ rest).filterMap id).flatten) (hu : p = none → Unmarked vec)
    (v : Vec) (hv : S v) :
    ∃ v' p' l' x', listRows X c p l (some x) vec [v] =
        .ok (List.zipWith (fun old row => listRow (fun n => .u64 (BitVec.ofNat 64 n)) old row) vec rows, [v'], p', l', some x') ∧
      FlagsLeft c p' (rest.map (·.isSome)) ∧ LengthsLeft c l' ((rest.filterMap id).map (·.length)) ∧ P x' (rest.filterMap id).flatten ∧
      (p' = none ↔ p = none) ∧ S v' ∧ (rows = [] → v' = v) ∧ (∀ es, rows.getLast? = some (some es) → v'.rows.map Value.row = es.map Deep.cell) := by
  induction rows generalizing vec p l x v with
  | nil =>
    cases vec with
    | nil => exact ⟨v, p, l, x, rfl, hF, hL, hP, Iff.rfl, hv, fun _ => rfl, by simp⟩
    | cons => simp at hl
  | cons row rows ih =>
    cases vec with
    | nil => simp at hl
    | cons old vec =>
      obtain ⟨p1, f1, f2, f3⟩ := nextFlag_left (by simpa using hF) old.null (fun hp => hu hp old (by simp))
      have hu1 : p1 = none → Unmarked vec := fun hn v hv => hu (f3.mp hn) v (by simp [hv])
      have hlast : ∀ (v1 v' : Vec), (rows = [] → v' = v1) → (∀ es, row = some es → v1.rows.map Value.row = es.map Deep.cell) →
          (∀ es, rows.getLast? = some (some es) → v'.rows.map Value.row = es.map Deep.cell) →
          ∀ es, (row :: rows).getLast? = some (some es) → v'.rows.map Value.row = es.map Deep.cell := by
        intro v1 v' h1 h2 h3 es he
        cases hr : rows with
        | nil =>
          rw [hr] at he
          simp only [List.getLast?_singleton, Option.some.injEq] at he
          rw [h1 hr]
          exact h2 es he
        | cons a as =>
          rw [hr, List.getLast?_cons_cons] at he
          exact h3 es (by rw [hr]; exact he)
      simp only [listRows, f1, Res.ok_bind]
      cases row with
      | none =>
        obtain ⟨w, v1, x1, e1, e2, e3, e4, e5⟩ := hX.child none (fun _ => hnull (by simp)) (rest := ((rows ++ rest).filterMap _root_.id).flatten) (by simpa using hP) v hv
        simp only [Option.isNone_none, Option.getD_none, List.length_nil] at e1
        obtain ⟨v2, p2, l2, x2, g1, g2, g3, g4, g5, g6, g7, g8⟩ := ih (fun hm => hnull (by simp [hm])) vec (by simpa using hl) (p := p1) (l := l) (x := x1)
          (by simpa using f2) (by simpa using hL) e3 hu1 v1 e4
        refine ⟨v2, p2, l2, x2, ?_, g2, g3, g4, g5.trans f3, g6, by simp, hlast v1 v2 g7 e5 g8⟩
        simp [e1, e2, g1, listRow]
      | some es =>
        simp only [List.cons_append, List.filterMap_cons, id_eq, List.map_cons, List.flatten_cons] at hL hP
        obtain ⟨l1, n1, n2, n3⟩ := nextLength_left hL
        obtain ⟨w, v1, x1, e1, e2, e3, e4, e5⟩ := hX.child (some es) (by simp) (rest := ((rows ++ rest).filterMap _root_.id).flatten) (by simpa using hP) v hv
        simp only [Option.isNone_some, Option.getD_some] at e1
        obtain ⟨v2, p2, l2, x2, g1, g2, g3, g4, g5, g6, g7, g8⟩ := ih (fun hm => hnull (by simp [hm])) vec (by simpa using hl) (p := p1) (l := l1) (x := x1)
          (by simpa using f2) n2 e3 hu1 v1 e4
        refine ⟨v2, p2, l2, x2, ?_, g2, g3, g4, g5.trans f3, g6, by simp, hlast v1 v2 g7 e5 g8⟩
        simp [n1, loopBound_ofNat _ n3, e1, e2, g1, listRow]

theorem deep_mapRows (hX : KidOk X P S solid) (hY : KidOk X Q T solid') (rows rest : List (Option (List (Deep × Deep)))) (hnull : none ∈ rows → solid ∧ solid') (vec : List Value)
    (hl : vec.length = rows.length) {p : Option BoolReader} {l : Option IntReader} {x y : χ} (hF : FlagsLeft c p ((rows ++ rest).map (·.isSome)))
    (hL : LengthsLeft c l (((rows ++ rest).filterMap id).map (·.length))) (hP : P x (((rows ++ rest).filterMap id).flatten.map (·.1)))
    (hQ : Q y (((rows ++ rest).filterMap id).flatten.map (·.2))) (hu : p = none → Unmarked vec)
    (v w : Vec) (hv : S v) (hw : T w) :
    ∃ v' w' p' l' x' y', mapRows X c p l (some x) (some y) vec [v, w] =
        .ok (List.zipWith (fun old row => listRow (fun n => .int n) old row) vec rows, [v', w'], p', l', some x', some y') ∧
      FlagsLeft c p' (rest.map (·.isSome)) ∧ LengthsLeft c l' ((rest.filterMap id).map (·.length)) ∧ P x' ((rest.filterMap id).flatten.map (·.1)) ∧
      Q y' ((rest.filterMap id).flatten.map (·.2)) ∧
      (p' = none ↔ p = none) ∧ S v' ∧ T w' ∧ (rows = [] → v' = v ∧ w' = w) ∧
      (∀ es, rows.getLast? = some (some es) → v'.rows.map Value.row = es.map (fun e => e.1.cell) ∧ w'.rows.map Value.row = es.map (fun e => e.2.cell)) := by
  induction rows generalizing vec p l x y v w with
  | nil =>
    cases vec with
    | nil => exact ⟨v, w, p, l, x, y, rfl, hF, hL, hP, hQ, Iff.rfl, hv, hw, fun _ => ⟨rfl, rfl⟩, by simp⟩
    | cons => simp at hl
  | cons row rows ih =>
    cases vec with
    | nil => simp at hl
    | cons old vec =>
      obtain ⟨p1, f1, f2, f3⟩ := nextFlag_left (by simpa using hF) old.null (fun hp => hu hp old (by simp))
      have hu1 : p1 = none → Unmarked vec := fun hn v hv => hu (f3.mp hn) v (by simp [hv])
      have hlast : ∀ (v1 v' w1 w' : Vec), (rows = [] → v' = v1 ∧ w' = w1) →
          (∀ es, row = some es → v1.rows.map Value.row = es.map (fun e => e.1.cell) ∧ w1.rows.map Value.row = es.map (fun e => e.2.cell)) →
          (∀ es, rows.getLast? = some (some es) → v'.rows.map Value.row = es.map (fun e => e.1.cell) ∧ w'.rows.map Value.row = es.map (fun e => e.2.cell)) →
          ∀ es, (row :: rows).getLast? = some (some es) → v'.rows.map Value.row = es.map (fun e => e.1.cell) ∧ w'.rows.map Value.row = es.map (fun e => e.2.cell) := by
        intro v1 v' w1 w' h1 h2 h3 es he
        cases hr : rows with
        | nil =>
          rw [hr] at he
          simp only [List.getLast?_singleton, Option.some.injEq] at he
          rw [(h1 hr).1, (h1 hr).2]
          exact h2 es he
        | cons a as =>
          rw [hr, List.getLast?_cons_cons] at he
          exact h3 es (by rw [hr]; exact he)
      simp only [mapRows, f1, Res.ok_bind]
      cases row with
      | none =>
        obtain ⟨u, v1, x1, e1, e2, e3, e4, e5⟩ := hX.child none (fun _ => (hnull (by simp)).1) (rest := ((rows ++ rest).filterMap _root_.id).flatten.map (·.1)) (by simpa using hP) v hv
        obtain ⟨u', w1, y1, m1, m2, m3, m4, m5⟩ := hY.child none (fun _ => (hnull (by simp)).2) (rest := ((rows ++ rest).filterMap _root_.id).flatten.map (·.2)) (by simpa using hQ) w hw
        simp only [Option.isNone_none, Option.getD_none, List.length_nil] at e1 m1
        obtain ⟨v2, w2, p2, l2, x2, y2, g1, g2, g3, g4, g4', g5, g6, g6', g7, g8⟩ := ih (fun hm => hnull (by simp [hm])) vec (by simpa using hl) (p := p1) (l := l) (x := x1) (y := y1)
          (by simpa using f2) (by simpa using hL) e3 m3 hu1 v1 w1 e4 m4
        refine ⟨v2, w2, p2, l2, x2, y2, ?_, g2, g3, g4, g4', g5.trans f3, g6, g6', by simp, hlast v1 v2 w1 w2 g7 (by simp) g8⟩
        simp [e1, e2, m1, m2, g1, listRow]
      | some es =>
        simp only [List.cons_append, List.filterMap_cons, id_eq, List.map_cons, List.flatten_cons, List.map_append] at hL hP hQ
        obtain ⟨l1, n1, n2, n3⟩ := nextLength_left hL
        obtain ⟨u, v1, x1, e1, e2, e3, e4, e5⟩ := hX.child (some (es.map (·.1))) (by simp) (rest := ((rows ++ rest).filterMap _root_.id).flatten.map (·.1)) (by simpa using hP) v hv
        obtain ⟨u', w1, y1, m1, m2, m3, m4, m5⟩ := hY.child (some (es.map (·.2))) (by simp) (rest := ((rows ++ rest).filterMap _root_.id).flatten.map (·.2)) (by simpa using hQ) w hw
        simp only [Option.isNone_some, Option.getD_some, List.length_map] at e1 m1
        obtain ⟨v2, w2, p2, l2, x2, y2, g1, g2, g3, g4, g4', g5, g6, g6', g7, g8⟩ := ih (fun hm => hnull (by simp [hm])) vec (by simpa using hl) (p := p1) (l := l1) (x := x1) (y := y1)
          (by simpa using f2) n2 e3 m3 hu1 v1 w1 e4 m4
        refine ⟨v2, w2, p2, l2, x2, y2, ?_, g2, g3, g4, g4', g5.trans f3, g6, g6', by simp, hlast v1 v2 w1 w2 g7 ?_ g8⟩
        · have hi : (BitVec.ofNat 64 es.length).toInt = es.length := by
            have h1 : (BitVec.ofNat 64 es.length).toNat = es.length := by
              rw [BitVec.toNat_ofNat]; exact Nat.mod_eq_of_lt (by omega)
            rw [BitVec.toInt_eq_toNat_cond, h1, if_pos (by omega)]
          simp [n1, loopBound_ofNat _ n3, e1, e2, m1, m2, g1, listRow, hi]
        · rintro _ ⟨⟩
          rw [e5 _ rfl, m5 _ rfl, List.map_map, List.map_map]
          exact ⟨rfl, rfl⟩

end

/-- What the reader of a column does. -/
structure DeepOk (c : Codec) (fuel : Nat) (d : Schema) : Prop where
  next : ∀ n x a b id k s cs, DeepHas c fuel n d x (a ++ b) → DeepShape d (.mk id k (some s) cs) → s.visible.length = a.length →
    (¬ Rd.flagged n x → Unmarked s.visible) →
    ∃ z cs' x', (rdOps c fuel n).nextBatch x (.mk id k (some s) cs) = .ok (.mk id k (some (s.update z)) cs', x') ∧ DeepHas c fuel n d x' b ∧
      DeepShape d (.mk id k (some (s.update z)) cs') ∧ z.length = a.length ∧ z.map Value.row = a.map Deep.cell ∧ (Rd.flagged n x' ↔ Rd.flagged n x) ∧
      (a = [] → cs' = cs) ∧ (∀ i, a = [i] → (Vec.mk id k (some (s.update z)) cs').items true = [i.item true])
  null : d.Solid → ∀ n x items id k s cs, DeepHas c fuel n d x items → DeepShape d (.mk id k (some s) cs) → s.visible = [⟨true, .nil⟩] →
    ∃ s' cs' x', (rdOps c fuel n).nextBatch x (.mk id k (some s) cs) = .ok (.mk id k (some s') cs', x') ∧ DeepHas c fuel n d x' items ∧
      DeepShape d (.mk id k (some s') cs')

theorem DeepOk.kid {c : Codec} {fuel : Nat} {d : Schema} (h : DeepOk c fuel d) (n : Nat) : KidOk (rdOps c fuel n) (DeepHas c fuel n d) (DeepShape d) d.Solid where
  slice _ hv := hv.slice
  with' _ _ _ _ hv s' := hv.with s'
  next x a b id k s cs hx hs hl hu := by
    obtain ⟨z, cs', x', h1, h2, h3, h4, h5, -⟩ := h.next n x a b id k s cs hx hs hl fun _ => hu
    refine ⟨_, cs', x', h1, h2, h3, ?_⟩
    rw [s.visible_update z (by omega), h5]
  null hsol x items id k s cs hx hs hv := h.null hsol n x items id k s cs hx hs hv

theorem zip_rows (vec : List Value) (rows : List (Option GoVal)) (h : vec.length = rows.length) :
    (List.zipWith (fun old x => rowValue old.v x) vec rows).map Value.row = rows := by
  induction rows generalizing vec with
  | nil => cases vec <;> rfl
  | cons r rows ih =>
    cases vec with
    | nil => simp at h
    | cons v vec =>
      rw [List.zipWith_cons_cons, List.map_cons, ih vec (by simpa using h), rowValue_row]

theorem cell_ofValue (rows : List (Option GoVal)) : (rows.map Deep.ofValue).map Deep.cell = rows := by
  rw [List.map_map]
  conv_rhs => rw [← List.map_id rows]
  exact List.map_congr_left fun x _ => by cases x <;> rfl

theorem item_ofValue (full : Bool) (x : Option GoVal) : (Deep.ofValue x).item full = Item.ofValue x := by cases x <;> rfl

theorem Schema.Solid.child {n : SchemaNode} {cs : List Schema} (h : (Schema.mk n cs).Solid) {e : Schema} (he : e ∈ cs) : e.Solid := fun x hx => by
  refine h x ?_
  simp only [Schema.columns, columnsAll_eq, List.mem_cons, List.mem_flatMap]
  exact .inr ⟨e, he, hx⟩

theorem Schema.Solid.self {n : SchemaNode} {cs : List Schema} (h : (Schema.mk n cs).Solid) : n.hasNulls = false := h _ (self_mem_columns _)

/-- **The reader of a column**: lists and maps to any depth. -/
theorem deep_ok (c : Codec) (fuel : Nat) {d : Schema} (hd : d.Nest) : DeepOk c fuel d := by
  induction hd with
  | value nd hk =>
    constructor
    · intro n x a b id k s cs h hv hl hu
      match n, x with
      | 0, _ => exact h.elim
      | n + 1, x =>
      change RdNode (Rd n) at x
      cases hv
      cases x with
      | leaf t r =>
        obtain ⟨-, -, ht, hp, rows, hi, hh⟩ := h
        obtain ⟨ra, rb, rfl, rfl, rfl⟩ := List.append_eq_map_iff.mp hi
        rw [List.length_map] at hl
        obtain ⟨r', g1, g2, g3⟩ := hh.batch (leaf_steady ht) s.visible hl fun hn => hu fun hf => hf hn
        refine ⟨List.zipWith (fun old x => rowValue old.v x) s.visible ra, [], (RdNode.leaf t r' : RdNode (Rd n)), ?_, ⟨rfl, hk, ht, fun hn => g3.2 (hp hn), rb, rfl, g2⟩, .value nd _ hk, by simp [hl], ?_, not_congr g3, fun _ => rfl, ?_⟩
        · have e : (RdNode.leaf t r).nextBatch (rdOps c fuel n) c fuel (.mk nd.id nd.kind (some s) []) = .ok (.mk nd.id nd.kind (some (s.update (List.zipWith (fun old x => rowValue old.v x) s.visible ra))) [], .leaf t r') := by
            simp only [RdNode.nextBatch, leafBatch, visibleRows, g1, Res.ok_bind, Res.pure_eq, updateRows, Option.map_some]
          exact e
        · rw [zip_rows _ _ hl, cell_ofValue]
        · intro i hi
          rw [items_value, visibleRows, s.visible_update _ (by simp [hl]), zip_rows _ _ hl, ← cell_ofValue ra, hi]
          obtain ⟨x, rfl⟩ : ∃ x, i = Deep.ofValue x := by
            have : i ∈ ra.map Deep.ofValue := by rw [hi]; simp
            obtain ⟨x, -, rfl⟩ := List.mem_map.1 this
            exact ⟨x, rfl⟩
          rw [item_ofValue]
          cases x <;> rfl
      | dict r =>
        obtain ⟨-, -, hp, rows, hi, hh⟩ := h
        obtain ⟨ra, rb, rfl, rfl, rfl⟩ := List.append_eq_map_iff.mp hi
        rw [List.length_map] at hl
        obtain ⟨r', g1, g2, g3⟩ := hh.batch (dict_steady fuel) s.visible hl fun hn => hu fun hf => hf hn
        refine ⟨List.zipWith (fun old x => rowValue old.v x) s.visible ra, [], (RdNode.dict r' : RdNode (Rd n)), ?_, ⟨rfl, hk, fun hn => g3.2 (hp hn), rb, rfl, g2⟩, .value nd _ hk, by simp [hl], ?_, not_congr g3, fun _ => rfl, ?_⟩
        · have e : (RdNode.dict r).nextBatch (rdOps c fuel n) c fuel (.mk nd.id nd.kind (some s) []) = .ok (.mk nd.id nd.kind (some (s.update (List.zipWith (fun old x => rowValue old.v x) s.visible ra))) [], .dict r') := by
            simp only [RdNode.nextBatch, leafBatch, visibleRows, g1, Res.ok_bind, Res.pure_eq, updateRows, Option.map_some]
          exact e
        · rw [zip_rows _ _ hl, cell_ofValue]
        · intro i hi
          rw [items_value, visibleRows, s.visible_update _ (by simp [hl]), zip_rows _ _ hl, ← cell_ofValue ra, hi]
          obtain ⟨x, rfl⟩ : ∃ x, i = Deep.ofValue x := by
            have : i ∈ ra.map Deep.ofValue := by rw [hi]; simp
            obtain ⟨x, -, rfl⟩ := List.mem_map.1 this
            exact ⟨x, rfl⟩
          rw [item_ofValue]
          cases x <;> rfl
      | struct _ _ _ _ => exact h.elim
      | bare _ _ => exact h.elim
      | list _ _ _ _ _ => obtain ⟨-, -, e, h, -⟩ := h; cases h
      | map _ _ _ _ _ _ => obtain ⟨-, -, e, e', h, -⟩ := h; cases h
    · intro hsol n x items id k s cs h hv hnull
      match n, x with
      | 0, _ => exact h.elim
      | n + 1, x =>
      change RdNode (Rd n) at x
      cases hv
      cases x with
      | leaf t r =>
        obtain ⟨-, -, ht, hp, rows, hi, hh⟩ := h
        obtain ⟨r', g1, g2, g3⟩ := hh.null (leaf_steady ht) (hp hsol.self) .nil
        refine ⟨s.update [⟨true, .nil⟩], [], (RdNode.leaf t r' : RdNode (Rd n)), ?_, ⟨rfl, hk, ht, fun _ => g3, rows, hi, g2⟩, .value nd _ hk⟩
        have e : (RdNode.leaf t r).nextBatch (rdOps c fuel n) c fuel (.mk nd.id nd.kind (some s) []) = .ok (.mk nd.id nd.kind (some (s.update [⟨true, .nil⟩])) [], .leaf t r') := by
          simp only [RdNode.nextBatch, leafBatch, visibleRows, hnull, g1, Res.ok_bind, Res.pure_eq, updateRows, Option.map_some]
        exact e
      | dict r =>
        obtain ⟨-, -, hp, rows, hi, hh⟩ := h
        obtain ⟨r', g1, g2, g3⟩ := hh.null (dict_steady fuel) (hp hsol.self) .nil
        refine ⟨s.update [⟨true, .nil⟩], [], (RdNode.dict r' : RdNode (Rd n)), ?_, ⟨rfl, hk, fun _ => g3, rows, hi, g2⟩, .value nd _ hk⟩
        have e : (RdNode.dict r).nextBatch (rdOps c fuel n) c fuel (.mk nd.id nd.kind (some s) []) = .ok (.mk nd.id nd.kind (some (s.update [⟨true, .nil⟩])) [], .dict r') := by
          simp only [RdNode.nextBatch, leafBatch, visibleRows, hnull, g1, Res.ok_bind, Res.pure_eq, updateRows, Option.map_some]
        exact e
      | struct _ _ _ _ => exact h.elim
      | bare _ _ => exact h.elim
      | list _ _ _ _ _ => obtain ⟨-, -, e, h, -⟩ := h; cases h
      | map _ _ _ _ _ _ => obtain ⟨-, -, e, e', h, -⟩ := h; cases h
  | list nd e hk he hsol ih =>
    constructor
    · intro n x a b id k s cs h hv hl hu
      match n, x with
      | 0, _ => exact h.elim
      | n + 1, x =>
      change RdNode (Rd n) at x
      cases hv with
      | list _ _ _ v hk' hv =>
      cases x with
      | list kind p l ix y =>
        obtain ⟨-, hp, e1, he1, rows, hi, hF, hL, y, rfl, hy⟩ := h
        cases he1
        obtain ⟨ra, rb, rfl, rfl, rfl⟩ := List.append_eq_map_iff.mp hi
        rw [List.length_map] at hl
        obtain ⟨v', p', l', y', g1, g2, g3, g4, g5, g6, g7, g8⟩ := deep_listRows (ih.kid n) ra rb (fun hm => hsol (by
            cases hn : nd.hasNulls with
            | true => rfl
            | false =>
              rw [hp hn] at hF
              have := hF false (List.mem_map.2 ⟨none, by simp [hm], rfl⟩)
              cases this)) s.visible hl hF hL hy (fun hn => hu fun hf => hf hn) v hv
        have hzl : (List.zipWith (fun old row => listRow (fun n => .u64 (BitVec.ofNat 64 n)) old row) s.visible ra).length = ra.length := by simp [hl]
        refine ⟨List.zipWith (fun old row => listRow (fun n => .u64 (BitVec.ofNat 64 n)) old row) s.visible ra, [v'], (RdNode.list kind p' l' ix (some y') : RdNode (Rd n)), ?_, ⟨hk, fun hn => g5.2 (hp hn), e, rfl, rb, rfl, g2, g3, y', rfl, g4⟩, .list nd e _ v' hk g6, by simp [hl], ?_, not_congr g5, ?_, ?_⟩
        · have e : (RdNode.list kind p l ix (some y)).nextBatch (rdOps c fuel n) c fuel (.mk nd.id .list (some s) [v]) =
              .ok (.mk nd.id .list (some (s.update (List.zipWith (fun old row => listRow (fun n => .u64 (BitVec.ofNat 64 n)) old row) s.visible ra))) [v'], .list kind p' l' ix (some y')) := by
            simp only [RdNode.nextBatch, visibleRows, g1, Res.ok_bind, Res.pure_eq, updateRows, Option.map_some]
          exact e
        · have e := listRow_shown (fun n => .u64 (BitVec.ofNat 64 n)) id s.visible ra hl
          simp only [id_eq] at e
          rw [e, List.map_map]
          exact List.map_congr_left fun r _ => by cases r <;> rfl
        · intro h0
          rw [g7 (by simpa using h0)]
        · intro i h1
          obtain ⟨row, rfl, rfl⟩ : ∃ row, ra = [row] ∧ i = Deep.ofList row := by
            rcases ra with _ | ⟨row, _ | ⟨_, _⟩⟩
            · simp at h1
            · simp only [List.map_cons, List.map_nil, List.cons.injEq, and_true] at h1
              exact ⟨row, rfl, h1.symm⟩
            · simp at h1
          obtain ⟨old, hold⟩ : ∃ old, s.visible = [old] := List.length_eq_one_iff.1 hl
          simp only [Vec.items, visibleRows]
          rw [s.visible_update _ (by simp [hl]), hold]
          cases row with
          | none => rfl
          | some es =>
            have h5 := g8 es rfl
            have hlen : v'.rows.length = es.length := by
              have := congrArg List.length h5
              simpa using this
            simp only [List.zipWith_cons_cons, List.zipWith_nil_left, listRow, List.map_cons, List.map_nil, Bool.false_eq_true, if_false, hlen, and_self, if_true, h5,
              Deep.ofList, Deep.item]
      | leaf _ _ => obtain ⟨h, -⟩ := h; cases h
      | dict _ => obtain ⟨h, -⟩ := h; cases h
      | struct _ _ _ _ => exact h.elim
      | bare _ _ => exact h.elim
      | map _ _ _ _ _ _ => obtain ⟨-, -, e, e', h, -⟩ := h; cases h
    · intro hs n x items id k s cs h hv hnull
      match n, x with
      | 0, _ => exact h.elim
      | n + 1, x =>
      change RdNode (Rd n) at x
      cases hv with
      | list _ _ _ v hk' hv =>
      cases x with
      | list kind p l ix y =>
        obtain ⟨-, hp, e1, he1, rows, hi, hF, hL, y, rfl, hy⟩ := h
        cases he1
        obtain ⟨w, v1, y1, e1, e2, e3, e4, -⟩ := (ih.kid n).child none (fun _ => hs.child (by simp)) (rest := (rows.filterMap _root_.id).flatten) (by simpa using hy) v hv
        simp only [Option.isNone_none, Option.getD_none, List.length_nil] at e1
        have hpn := hp hs.self
        subst hpn
        refine ⟨s.update [⟨true, .nil⟩], [v1], (RdNode.list kind none l ix (some y1) : RdNode (Rd n)), ?_, ⟨hk, fun hn => rfl, e, rfl, rows, hi, hF, hL, y1, rfl, e3⟩, .list nd e _ v1 hk e4⟩
        have e : (RdNode.list kind none l ix (some y)).nextBatch (rdOps c fuel n) c fuel (.mk nd.id .list (some s) [v]) =
            .ok (.mk nd.id .list (some (s.update [⟨true, .nil⟩])) [v1], .list kind none l ix (some y1)) := by
          simp only [RdNode.nextBatch, visibleRows, hnull, listRows, nextFlag, if_true, e1, e2, Res.ok_bind, Res.pure_eq, updateRows, Option.map_some]
        exact e
      | leaf _ _ => obtain ⟨h, -⟩ := h; cases h
      | dict _ => obtain ⟨h, -⟩ := h; cases h
      | struct _ _ _ _ => exact h.elim
      | bare _ _ => exact h.elim
      | map _ _ _ _ _ _ => obtain ⟨-, -, e, e', h, -⟩ := h; cases h
  | map nd e e' hk he he' hsol ih ih' =>
    constructor
    · intro n x a b id k s cs h hv hl hu
      match n, x with
      | 0, _ => exact h.elim
      | n + 1, x =>
      change RdNode (Rd n) at x
      cases hv with
      | map _ _ _ _ v w hk' hv hw =>
      cases x with
      | map kind p l ix y z =>
        obtain ⟨-, hp, e1, e1', he1, rows, hi, hF, hL, ⟨y, rfl, hy⟩, z, rfl, hz⟩ := h
        cases he1
        obtain ⟨ra, rb, rfl, rfl, rfl⟩ := List.append_eq_map_iff.mp hi
        rw [List.length_map] at hl
        obtain ⟨v', w', p', l', y', z', g1, g2, g3, g4, g4', g5, g6, g6', g7, g8⟩ := deep_mapRows (ih.kid n) (ih'.kid n) ra rb (fun hm => hsol (by
            cases hn : nd.hasNulls with
            | true => rfl
            | false =>
              rw [hp hn] at hF
              have := hF false (List.mem_map.2 ⟨none, by simp [hm], rfl⟩)
              cases this)) s.visible hl hF hL hy hz (fun hn => hu fun hf => hf hn) v w hv hw
        have hzl : (List.zipWith (fun old row => listRow (fun n => .int n) old row) s.visible ra).length = ra.length := by simp [hl]
        refine ⟨List.zipWith (fun old row => listRow (fun n => .int n) old row) s.visible ra, [v', w'], (RdNode.map kind p' l' ix (some y') (some z') : RdNode (Rd n)), ?_, ⟨hk, fun hn => g5.2 (hp hn), e, e', rfl, rb, rfl, g2, g3, ⟨y', rfl, g4⟩, z', rfl, g4'⟩,
          .map nd e e' _ v' w' hk g6 g6', by simp [hl], ?_, not_congr g5, ?_, ?_⟩
        · have e : (RdNode.map kind p l ix (some y) (some z)).nextBatch (rdOps c fuel n) c fuel (.mk nd.id .map (some s) [v, w]) =
              .ok (.mk nd.id .map (some (s.update (List.zipWith (fun old row => listRow (fun n => .int n) old row) s.visible ra))) [v', w'], .map kind p' l' ix (some y') (some z')) := by
            simp only [RdNode.nextBatch, visibleRows, g1, Res.ok_bind, Res.pure_eq, updateRows, Option.map_some]
          exact e
        · have e := listRow_shown (fun n => .int n) id s.visible ra hl
          simp only [id_eq] at e
          rw [e, List.map_map]
          exact List.map_congr_left fun r _ => by cases r <;> rfl
        · intro h0
          rw [(g7 (by simpa using h0)).1, (g7 (by simpa using h0)).2]
        · intro i h1
          obtain ⟨row, rfl, rfl⟩ : ∃ row, ra = [row] ∧ i = Deep.ofMap row := by
            rcases ra with _ | ⟨row, _ | ⟨_, _⟩⟩
            · simp at h1
            · simp only [List.map_cons, List.map_nil, List.cons.injEq, and_true] at h1
              exact ⟨row, rfl, h1.symm⟩
            · simp at h1
          obtain ⟨old, hold⟩ : ∃ old, s.visible = [old] := List.length_eq_one_iff.1 hl
          simp only [Vec.items, visibleRows]
          rw [s.visible_update _ (by simp [hl]), hold]
          cases row with
          | none => rfl
          | some es =>
            obtain ⟨h5, h6⟩ := g8 es rfl
            have hlen : v'.rows.length = es.length := by
              have := congrArg List.length h5
              simpa using this
            have hlen' : w'.rows.length = es.length := by
              have := congrArg List.length h6
              simpa using this
            simp only [List.zipWith_cons_cons, List.zipWith_nil_left, listRow, List.map_cons, List.map_nil, Bool.false_eq_true, if_false, hlen, hlen', and_self, if_true, h5, h6,
              Deep.ofMap, Deep.item, List.zip_map']
      | leaf _ _ => obtain ⟨h, -⟩ := h; cases h
      | dict _ => obtain ⟨h, -⟩ := h; cases h
      | struct _ _ _ _ => exact h.elim
      | bare _ _ => exact h.elim
      | list _ _ _ _ _ => obtain ⟨-, -, e, h, -⟩ := h; cases h
    · intro hs n x items id k s cs h hv hnull
      match n, x with
      | 0, _ => exact h.elim
      | n + 1, x =>
      change RdNode (Rd n) at x
      cases hv with
      | map _ _ _ _ v w hk' hv hw =>
      cases x with
      | map kind p l ix y z =>
        obtain ⟨-, hp, e1, e1', he1, rows, hi, hF, hL, ⟨y, rfl, hy⟩, z, rfl, hz⟩ := h
        cases he1
        obtain ⟨u, v1, y1, e1, e2, e3, e4, -⟩ := (ih.kid n).child none (fun _ => hs.child (by simp)) (rest := (rows.filterMap _root_.id).flatten.map (·.1)) (by simpa using hy) v hv
        obtain ⟨u', w1, z1, m1, m2, m3, m4, -⟩ := (ih'.kid n).child none (fun _ => hs.child (by simp)) (rest := (rows.filterMap _root_.id).flatten.map (·.2)) (by simpa using hz) w hw
        simp only [Option.isNone_none, Option.getD_none, List.length_nil] at e1 m1
        have hpn := hp hs.self
        subst hpn
        refine ⟨s.update [⟨true, .nil⟩], [v1, w1], (RdNode.map kind none l ix (some y1) (some z1) : RdNode (Rd n)), ?_, ⟨hk, fun hn => rfl, e, e', rfl, rows, hi, hF, hL, ⟨y1, rfl, e3⟩, z1, rfl, m3⟩, .map nd e e' _ v1 w1 hk e4 m4⟩
        have e : (RdNode.map kind none l ix (some y) (some z)).nextBatch (rdOps c fuel n) c fuel (.mk nd.id .map (some s) [v, w]) =
            .ok (.mk nd.id .map (some (s.update [⟨true, .nil⟩])) [v1, w1], .map kind none l ix (some y1) (some z1)) := by
          simp only [RdNode.nextBatch, visibleRows, hnull, mapRows, nextFlag, if_true, e1, e2, m1, m2, Res.ok_bind, Res.pure_eq, updateRows, Option.map_some]
        exact e
      | leaf _ _ => obtain ⟨h, -⟩ := h; cases h
      | dict _ => obtain ⟨h, -⟩ := h; cases h
      | struct _ _ _ _ => exact h.elim
      | bare _ _ => exact h.elim
      | list _ _ _ _ _ => obtain ⟨-, -, e, h, -⟩ := h; cases h

/-! ### Columns -/

theorem item_counted (i : Deep) : i.item false = Item.ofValue i.cell := by cases i <;> rfl

/-- Columns without nulls have none. -/
theorem DeepHas.filled {c : Codec} {fuel n : Nat} {d : Schema} {x : Rd n} {items : List Deep} (h : DeepHas c fuel n d x items) (hn : d.node.hasNulls = false) :
    ∀ i ∈ items, i.cell ≠ none := by
  match n, x with
  | 0, _ => exact h.elim
  | n + 1, x =>
  obtain ⟨nd, cs⟩ := d
  change RdNode (Rd n) at x
  simp only [Schema.node] at hn
  have hv : ∀ {ρ : Type} {R : ReadKind ρ} {r : ColReader ρ} {rows : List (Option GoVal)}, R.Ready c r rows → r.present = none → ∀ x ∈ rows, x.isSome = true := by
    rintro ρ R r rows ⟨d, -, h2⟩ hp
    simp only [ReadKind.Holds, ReadKind.Has, hp] at h2
    obtain ⟨_, h3, -⟩ := h2
    simpa using h3
  have hf : ∀ {α : Type} {p : Option BoolReader} {rows : List (Option α)}, FlagsLeft c p (rows.map (·.isSome)) → p = none → ∀ x ∈ rows, x.isSome = true := by
    rintro α p rows h rfl x hx
    exact h _ (List.mem_map_of_mem hx)
  cases x with
  | leaf t r =>
    obtain ⟨-, -, ht, hp, rows, rfl, hh⟩ := h
    intro i hi
    obtain ⟨x, hx, rfl⟩ := List.mem_map.1 hi
    have := hv hh (hp hn) x hx
    cases x with
    | none => cases this
    | some _ => simp [Deep.ofValue, Deep.cell]
  | dict r =>
    obtain ⟨-, -, hp, rows, rfl, hh⟩ := h
    intro i hi
    obtain ⟨x, hx, rfl⟩ := List.mem_map.1 hi
    have := hv hh (hp hn) x hx
    cases x with
    | none => cases this
    | some _ => simp [Deep.ofValue, Deep.cell]
  | struct _ _ _ _ => exact h.elim
  | bare _ _ => exact h.elim
  | list kind p l ix y =>
    obtain ⟨-, hp, e1, he1, rows, rfl, hF, -⟩ := h
    intro i hi
    obtain ⟨x, hx, rfl⟩ := List.mem_map.1 hi
    have := hf hF (hp hn) x hx
    cases x with
    | none => cases this
    | some _ => simp [Deep.ofList, Deep.cell]
  | map kind p l ix y z =>
    obtain ⟨-, hp, e1, e1', he1, rows, rfl, hF, -⟩ := h
    intro i hi
    obtain ⟨x, hx, rfl⟩ := List.mem_map.1 hi
    have := hf hF (hp hn) x hx
    cases x with
    | none => cases this
    | some _ => simp [Deep.ofMap, Deep.cell]

/-- The vector of a column of a record, with capacity `B` and `len` rows. -/
structure FieldShape (B len : Nat) (d : Schema) (v : Vec) : Prop where
  shape : DeepShape d v
  sized : ∃ id k s cs, v = .mk id k (some s) cs ∧ s.arr.length = B ∧ s.len = len ∧ (d.node.hasNulls = false → Unmarked s.arr)
  fits : len ≤ B
  none : len = 0 → v.len = 0

theorem FieldShape.len_cap {B len : Nat} {d : Schema} {v : Vec} (h : FieldShape B len d v) : v.len = len ∧ v.cap = B := by
  obtain ⟨id, k, s, cs, rfl, h1, h2, -⟩ := h.sized
  refine ⟨?_, h1⟩
  by_cases h0 : len = 0
  · rw [h.none h0, h0]
  · cases cs <;> simp [Vec.len, h2, h0]

theorem DeepShape.ids {d : Schema} {v : Vec} (h : DeepShape d v) : v.id = d.node.id ∧ ((∀ cs id s, v ≠ .mk id .struct s cs) ∧ v ≠ .nil) := by
  cases h with
  | value n s hk => exact ⟨rfl, fun cs id s h => (by rw [Vec.mk.injEq] at h; rw [h.2.1] at hk; cases hk), by simp⟩
  | list => exact ⟨rfl, by simp, by simp⟩
  | map => exact ⟨rfl, by simp, by simp⟩

theorem DeepShape.fields {d : Schema} {v : Vec} (h : DeepShape d v) : v.fields = [v] := by
  cases h with
  | value n s hk =>
    rw [Vec.fields, if_neg]
    intro hc; rw [hc] at hk; cases hk
  | list => simp [Vec.fields]
  | map => simp [Vec.fields]

mutual
theorem clear_len : ∀ (v v' : Vec), v.clear = .ok v' → v'.len = 0
  | .nil, v', h => by cases h
  | .mk id k s cs, v', h => by
    simp only [Vec.clear] at h
    obtain ⟨cs', h1, h2⟩ := Res.bind_ok_inv h
    have h2 := Res.ok.inj h2
    subst h2
    have := clearAll_len cs cs' h1
    have hs : ((s.map fun s => ({ s with len := 0 } : Slice)).map (·.len)).getD 0 = 0 := by cases s <;> rfl
    cases cs' with
    | nil => rw [Vec.len, if_neg (by rw [hs]; simp)]
    | cons c cs' => rw [Vec.len, if_neg (by rw [hs]; simp)]; exact this c cs' rfl

theorem clearAll_len : ∀ (vs vs' : List Vec), clearAll vs = .ok vs' → ∀ c cs, vs' = c :: cs → c.len = 0
  | [], vs', h, c, cs, e => by cases h; cases e
  | v :: vs, vs', h, c, cs, e => by
    simp only [clearAll] at h
    obtain ⟨v', h1, h2⟩ := Res.bind_ok_inv h
    obtain ⟨ws, h3, h4⟩ := Res.bind_ok_inv h2
    have h4 := Res.ok.inj h4
    subst h4
    cases e
    exact clear_len v _ h1
end

theorem DeepShape.clear {d : Schema} {v : Vec} (h : DeepShape d v) : ∃ v', v.clear = .ok v' ∧ DeepShape d v' := by
  induction h with
  | value n s hk => exact ⟨_, rfl, .value n _ hk⟩
  | list n e s v hk hv ih =>
    obtain ⟨v', h1, h2⟩ := ih
    exact ⟨_, by simp only [Vec.clear, clearAll, h1, Res.ok_bind, Res.pure_eq, Option.map_some], .list n e { s with len := 0 } v' hk h2⟩
  | map n k w s u v hk hu hv ih ih' =>
    obtain ⟨u', h1, h2⟩ := ih
    obtain ⟨v', h3, h4⟩ := ih'
    exact ⟨_, by simp only [Vec.clear, clearAll, h1, h3, Res.ok_bind, Res.pure_eq, Option.map_some], .map n k w { s with len := 0 } u' v' hk h2 h4⟩

theorem FieldShape.clear {B len : Nat} {d : Schema} {v : Vec} (h : FieldShape B len d v) : ∃ v', v.clear = .ok v' ∧ FieldShape B 0 d v' := by
  obtain ⟨v', h1, h2⟩ := h.shape.clear
  refine ⟨v', h1, h2, ?_, Nat.zero_le _, fun _ => clear_len v v' h1⟩
  obtain ⟨id, k, s, cs, rfl, g1, g2, g3⟩ := h.sized
  simp only [Vec.clear] at h1
  obtain ⟨cs', h3, h4⟩ := Res.bind_ok_inv h1
  have h4 := Res.ok.inj h4
  exact ⟨id, k, { s with len := 0 }, cs', h4.symm, g1, rfl, g3⟩

theorem len_emptied {id : Nat} {k : TypeKind} {s : Slice} {cs : List Vec} (h : (Vec.mk id k (some s) cs).len = 0) : (Vec.mk id k (some { s with len := 0 }) cs).len = 0 := by
  cases cs with
  | nil => simp [Vec.len]
  | cons c cs =>
    simp only [Vec.len, Option.map_some, Option.getD_some] at h ⊢
    split at h
    · rename_i h1; exact absurd h h1
    · simpa using h

theorem FieldShape.setSize {B : Nat} {d : Schema} {v : Vec} (h : FieldShape B 0 d v) (hasNulls : List Bool) (m : Nat) (hm : m ≤ B) :
    ∃ v', setVectorSize hasNulls m v = .ok v' ∧ FieldShape B m d v' := by
  obtain ⟨shape, ⟨id, k, s, cs, rfl, g1, g2, g3⟩, fits, none⟩ := h
  cases shape with
  | value n _ plain =>
    refine ⟨.mk n.id n.kind (some { s with len := m }) [], ?_, .value n _ plain, ⟨_, _, _, _, rfl, g1, rfl, g3⟩, hm, fun h0 => by simp [Vec.len, h0]⟩
    have hr := resize_some (s := s) (m := m) (by omega)
    cases hk : n.kind <;> simp only [hk, TypeKind.nested, Bool.true_eq_false] at plain <;>
      simp only [setVectorSize, hr, Res.ok_bind, Res.pure_eq]
  | list n e _ v hk hv =>
    obtain ⟨id, k, t, cs, rfl⟩ := hv.slice
    refine ⟨.mk n.id .list (some { s with len := m }) [.mk id k (some { t with len := 0 }) cs], ?_, .list n e _ _ hk (hv.with _), ⟨_, _, _, _, rfl, g1, rfl, g3⟩, hm, fun h0 => ?_⟩
    · simp only [setVectorSize, resize_some (s := s) (m := m) (by omega), Res.ok_bind, Res.pure_eq, emptyChild, List.getElem?_cons_zero, Option.map_some,
        List.set_cons_zero]
    · have h1 := none rfl
      have h2 : (Vec.mk id k (some t) cs).len = 0 := by
        rw [Vec.len] at h1
        simpa [g2] using h1
      rw [Vec.len]
      simp [h0, len_emptied h2]
  | map n e e' _ u v hk hu hv =>
    obtain ⟨id, k, t, cs, rfl⟩ := hu.slice
    obtain ⟨id', k', t', cs', rfl⟩ := hv.slice
    refine ⟨.mk n.id .map (some { s with len := m }) [.mk id k (some { t with len := 0 }) cs, .mk id' k' (some { t' with len := 0 }) cs'], ?_,
      .map n e e' _ _ _ hk (hu.with _) (hv.with _), ⟨_, _, _, _, rfl, g1, rfl, g3⟩, hm, fun h0 => ?_⟩
    · simp only [setVectorSize, resize_some (s := s) (m := m) (by omega), Res.ok_bind, Res.pure_eq, emptyChild, List.getElem?_cons_zero, Option.map_some,
        List.set_cons_zero, List.getElem?_cons_succ, List.set_cons_succ]
    · have h1 := none rfl
      have h2 : (Vec.mk id k (some t) cs).len = 0 := by
        rw [Vec.len] at h1
        simpa [g2] using h1
      rw [Vec.len]
      simp [h0, len_emptied h2]

/-- A batch of a column. -/
theorem field_next {c : Codec} {fuel B n : Nat} {d : Schema} (hd : d.Nest) {x : Rd n} {a b : List Deep} (h : DeepHas c fuel n d x (a ++ b))
    (hf : d.node.hasNulls = true → Rd.flagged n x) {v : Vec} (hv : FieldShape B a.length d v) :
    ∃ v' x', (rdOps c fuel n).nextBatch x v = .ok (v', x') ∧ DeepHas c fuel n d x' b ∧ (d.node.hasNulls = true → Rd.flagged n x') ∧ FieldShape B a.length d v' ∧
      v'.items false = a.map (Deep.item false) ∧ (a.length ≤ 1 → v'.items true = a.map (Deep.item true)) := by
  obtain ⟨shape, ⟨id, k, s, cs, rfl, g1, g2, g3⟩, fits, none⟩ := hv
  have hl : s.visible.length = a.length := by simp only [Slice.visible, List.length_take]; omega
  obtain ⟨z, cs', x', h1, h2, h3, h4, h5, h6, h7, h8⟩ := (deep_ok c fuel hd).next n x a b id k s cs h shape hl (by
    intro hnf
    cases hn : d.node.hasNulls with
    | true => exact absurd (hf hn) hnf
    | false => exact fun v hv => g3 hn v (List.mem_of_mem_take hv))
  obtain ⟨k1, k2, k3, k4⟩ := updated (z := z) g1 (by omega) (by omega)
  refine ⟨_, x', h1, h2, fun hn => h6.2 (hf hn), ⟨h3, ⟨_, _, _, _, rfl, k1, by omega, fun hn => k4 (fun w hw => ?_) (g3 hn)⟩, fits, fun h0 => ?_⟩, ?_, fun hle => ?_⟩
  · have hm : w.row ∈ a.map Deep.cell := by rw [← h5]; exact List.mem_map_of_mem hw
    obtain ⟨i, hi, he⟩ := List.mem_map.1 hm
    have := h.filled hn i (by simp [hi])
    rw [he] at this
    cases hw : w.null with
    | false => rfl
    | true => simp [Value.row, hw] at this
  · have ha := List.eq_nil_of_length_eq_zero h0
    have h1 := none h0
    rw [h7 ha]
    have e : (s.update z).len = 0 := by omega
    have e' : s.len = 0 := by omega
    cases cs with
    | nil => simp [Vec.len, e]
    | cons c cs =>
      simp only [Vec.len, Option.map_some, Option.getD_some, e, e'] at h1 ⊢
      exact h1
  · rw [items_list_counts, visibleRows, k3]
    have e : (z.map fun v => Item.ofValue v.row) = (z.map Value.row).map Item.ofValue := by rw [List.map_map]; rfl
    rw [e, h5, List.map_map]
    exact List.map_congr_left fun i _ => (item_counted i).symm
  · rcases a with _ | ⟨i, _ | ⟨j, a⟩⟩
    · have hz := List.eq_nil_of_length_eq_zero h4
      rw [hz] at k3 ⊢
      simp [Vec.items, visibleRows, k3]
    · exact h8 i rfl
    · simp at hle

/-! ### Records -/

/-- The vector of some columns of a record. -/
def RecShape (bo : BatchOption) (B len : Nat) : Nat → Schema → Vec → Prop
  | 0, _, _ => False
  | n + 1, .mk nd cs, v =>
    if nd.kind = .struct then ∃ vs, v = .mk nd.id .struct none vs ∧ vs ≠ [] ∧ List.Forall₂ (RecShape bo B len n) (cs.filter fun c => bo.isInclude c.node.id) vs
    else FieldShape B len (.mk nd cs) v

/-- The reader of some columns of a record: the rows `rows` are left. -/
def RecHas (c : Codec) (fuel : Nat) (bo : BatchOption) : (n : Nat) → Schema → Rd n → List DeepRow → Prop
  | 0, _, _, _ => False
  | n + 1, .mk nd cs, x, rows =>
    if nd.kind = .struct then
      match (x : RdNode (Rd n)) with
      | .struct _ none _ xs => List.Forall₂ (fun d y => RecHas c fuel bo n d y rows) (cs.filter fun c => bo.isInclude c.node.id) xs
      | _ => False
    else DeepHas c fuel (n + 1) (.mk nd cs) x (rows.map (DeepRow.get nd.id)) ∧ (nd.hasNulls = true → Rd.flagged (n + 1) x)

theorem recShape_len {bo : BatchOption} {B len : Nat} : ∀ (n : Nat) (d : Schema) (v : Vec), RecShape bo B len n d v → v.len = len ∧ v.cap = B
  | n + 1, .mk nd cs, v, h => by
    simp only [RecShape] at h
    split at h
    · obtain ⟨vs, rfl, hne, h⟩ := h
      obtain ⟨v, vs, rfl⟩ := List.exists_cons_of_ne_nil hne
      obtain ⟨d, l, h, -, -⟩ := List.forall₂_cons_right_iff.1 h
      obtain ⟨h1, h2⟩ := recShape_len n _ _ h
      exact ⟨by simp [Vec.len, h1], by simp [Vec.cap, h2]⟩
    · exact h.len_cap

theorem forall₂_ne {α β : Type} {R S : α → β → Prop} {l : List α} {a b : List β} (h : List.Forall₂ R l a) (h' : List.Forall₂ S l b) (hne : a ≠ []) : b ≠ [] := by
  rintro rfl
  have e := h'.length_eq
  rw [h.length_eq] at e
  exact hne (List.length_eq_zero_iff.1 e)

theorem recShape_clear {bo : BatchOption} {B len : Nat} : ∀ (n : Nat) (d : Schema) (v : Vec), RecShape bo B len n d v → ∃ v', v.clear = .ok v' ∧ RecShape bo B 0 n d v'
  | n + 1, .mk nd cs, v, h => by
    simp only [RecShape] at h ⊢
    by_cases hk : nd.kind = .struct
    · simp only [if_pos hk] at h ⊢
      obtain ⟨vs, rfl, hne, h⟩ := h
      have key : ∀ (fs : List Schema) (vs : List Vec), List.Forall₂ (RecShape bo B len n) fs vs → ∃ vs', clearAll vs = .ok vs' ∧ List.Forall₂ (RecShape bo B 0 n) fs vs' := by
        intro fs vs h
        induction h with
        | nil => exact ⟨[], rfl, .nil⟩
        | cons h hs ih =>
          obtain ⟨v', e1, e2⟩ := recShape_clear n _ _ h
          obtain ⟨vs', e3, e4⟩ := ih
          exact ⟨v' :: vs', by simp only [clearAll, e1, e3, Res.ok_bind, Res.pure_eq], .cons e2 e4⟩
      obtain ⟨vs', h1, h2⟩ := key _ _ h
      refine ⟨.mk nd.id .struct none vs', by simp only [Vec.clear, h1, Res.ok_bind, Res.pure_eq, Option.map_none], ?_⟩
      exact ⟨vs', rfl, forall₂_ne h h2 hne, h2⟩
    · simp only [if_neg hk] at h ⊢
      exact h.clear

/-- The structs of a schema have no nulls. -/
def Schema.StructsSolid (hasNulls : List Bool) (s : Schema) : Prop := ∀ c ∈ s.columns, c.node.kind = .struct → hasNulls[c.node.id]? = some false

theorem Schema.StructsSolid.child {hasNulls : List Bool} {n : SchemaNode} {cs : List Schema} (h : (Schema.mk n cs).StructsSolid hasNulls) {e : Schema} (he : e ∈ cs) : e.StructsSolid hasNulls :=
  fun c hc => h c (by simp only [Schema.columns, columnsAll_eq, List.mem_cons, List.mem_flatMap]; exact .inr ⟨e, he, hc⟩)

theorem recShape_setSize {bo : BatchOption} {B : Nat} (hasNulls : List Bool) (m : Nat) (hm : m ≤ B) : ∀ (n : Nat) (d : Schema) (v : Vec), d.StructsSolid hasNulls → RecShape bo B 0 n d v →
    ∃ v', setVectorSize hasNulls m v = .ok v' ∧ RecShape bo B m n d v'
  | n + 1, .mk nd cs, v, hsol, h => by
    simp only [RecShape] at h ⊢
    by_cases hk : nd.kind = .struct
    · simp only [if_pos hk] at h ⊢
      obtain ⟨vs, rfl, hne, h⟩ := h
      have key : ∀ (fs : List Schema) (vs : List Vec), (∀ d ∈ fs, d.StructsSolid hasNulls) → List.Forall₂ (RecShape bo B 0 n) fs vs →
          ∃ vs', setVectorSizes hasNulls m vs = .ok vs' ∧ List.Forall₂ (RecShape bo B m n) fs vs' := by
        intro fs vs hfs h
        induction h with
        | nil => exact ⟨[], rfl, .nil⟩
        | cons h hs ih =>
          obtain ⟨v', e1, e2⟩ := recShape_setSize hasNulls m hm n _ _ (hfs _ (by simp)) h
          obtain ⟨vs', e3, e4⟩ := ih fun d hd => hfs d (by simp [hd])
          exact ⟨v' :: vs', by simp only [setVectorSizes, e1, e3, Res.ok_bind, Res.pure_eq], .cons e2 e4⟩
      obtain ⟨vs', h1, h2⟩ := key _ _ (fun d hd => hsol.child (List.mem_filter.1 hd).1) h
      refine ⟨.mk nd.id .struct none vs', ?_, ?_⟩
      · have := hsol _ (self_mem_columns _) hk
        simp only [Schema.node] at this
        simp only [setVectorSize, this, Bool.false_eq_true, if_false, h1, Res.ok_bind, Res.pure_eq]
      · exact ⟨vs', rfl, forall₂_ne h h2 hne, h2⟩
    · simp only [if_neg hk] at h ⊢
      exact h.setSize hasNulls m hm

theorem fieldsAll_eq (cs : List Schema) : fieldsAll cs = cs.flatMap Schema.fields := by
  induction cs with
  | nil => rfl
  | cons c cs ih => simp [fieldsAll, ih]

theorem vecFields_eq (cs : List Vec) : vecFields cs = cs.flatMap Vec.fields := by
  induction cs with
  | nil => rfl
  | cons c cs ih => simp [vecFields, ih]

/-- What is seen in the vector of a column. -/
def SeesField (a : List DeepRow) (d : Schema) (v : Vec) : Prop :=
  v.id = d.node.id ∧ v.items false = a.map (fun r => (r.get d.node.id).item false) ∧ (a.length ≤ 1 → v.items true = a.map (fun r => (r.get d.node.id).item true))

/-- Of a struct that is not chosen nothing is chosen. -/
def BatchOption.Closed (bo : BatchOption) (s : Schema) : Prop := ∀ d ∈ s.columns, bo.isInclude d.node.id = false → ∀ e ∈ d.children, bo.isInclude e.node.id = false

theorem BatchOption.Closed.child {bo : BatchOption} {n : SchemaNode} {cs : List Schema} (h : bo.Closed (.mk n cs)) {e : Schema} (he : e ∈ cs) : bo.Closed e :=
  fun c hc => h c (by simp only [Schema.columns, columnsAll_eq, List.mem_cons, List.mem_flatMap]; exact .inr ⟨e, he, hc⟩)

mutual
theorem fields_none (bo : BatchOption) : ∀ (d : Schema), bo.Closed d → bo.isInclude d.node.id = false → (d.fields.filter fun c => bo.isInclude c.node.id) = []
  | .mk nd cs, hc, hi => by
    rw [Schema.fields]
    split
    · exact fieldsAll_none bo cs (fun c h => hc.child h) fun c h => hc _ (self_mem_columns _) hi c h
    · have hi' : bo.isInclude (Schema.mk nd cs).node.id = false := hi
      rw [List.filter_cons, hi']
      rfl

theorem fieldsAll_none (bo : BatchOption) : ∀ (cs : List Schema), (∀ c ∈ cs, bo.Closed c) → (∀ c ∈ cs, bo.isInclude c.node.id = false) →
    ((fieldsAll cs).filter fun c => bo.isInclude c.node.id) = []
  | [], _, _ => rfl
  | c :: cs, hc, hi => by
    rw [fieldsAll, List.filter_append, fields_none bo c (hc c (by simp)) (hi c (by simp)), fieldsAll_none bo cs (fun c h => hc c (by simp [h])) (fun c h => hi c (by simp [h]))]
    rfl
end

theorem fields_included (bo : BatchOption) (cs : List Schema) (hc : ∀ c ∈ cs, bo.Closed c) :
    ((fieldsAll cs).filter fun c => bo.isInclude c.node.id) = (cs.filter fun c => bo.isInclude c.node.id).flatMap fun d => d.fields.filter fun c => bo.isInclude c.node.id := by
  induction cs with
  | nil => rfl
  | cons c cs ih =>
    rw [fieldsAll, List.filter_append, ih fun c h => hc c (by simp [h])]
    cases hi : bo.isInclude c.node.id with
    | true => rw [List.filter_cons_of_pos (by simpa using hi), List.flatMap_cons]
    | false => rw [List.filter_cons_of_neg (by simpa using hi), fields_none bo c (hc c (by simp)) hi]; rfl

theorem Schema.Nest.plain {n : SchemaNode} {cs : List Schema} (h : (Schema.mk n cs).Nest) : n.kind ≠ .struct := by
  cases h with
  | value _ h => intro hc; rw [hc] at h; cases h
  | list _ _ h => rw [h]; simp
  | map _ _ _ h => rw [h]; simp

theorem Schema.Record.struct_inv {n : SchemaNode} {cs : List Schema} (h : (Schema.mk n cs).Record) (hk : n.kind = .struct) : n.hasNulls = false ∧ ∀ c ∈ cs, c.Record := by
  cases h with
  | field _ h => exact absurd hk h.plain
  | struct _ _ h1 h2 h3 => exact ⟨h2, h3⟩

theorem Schema.Record.nest {n : SchemaNode} {cs : List Schema} (h : (Schema.mk n cs).Record) (hk : n.kind ≠ .struct) : (Schema.mk n cs).Nest := by
  cases h with
  | field _ h => exact h
  | struct _ _ h1 h2 h3 => exact absurd h1 hk

/-- A batch of a record. -/
theorem rec_next {c : Codec} {fuel : Nat} {bo : BatchOption} {B : Nat} (a b : List DeepRow) : ∀ (n : Nat) (d : Schema), d.Record → bo.Closed d → bo.isInclude d.node.id = true → ∀ (x : Rd n) (v : Vec),
    RecHas c fuel bo n d x (a ++ b) → RecShape bo B a.length n d v →
    ∃ v' x', (rdOps c fuel n).nextBatch x v = .ok (v', x') ∧ RecHas c fuel bo n d x' b ∧ RecShape bo B a.length n d v' ∧
      List.Forall₂ (SeesField a) (d.fields.filter fun c => bo.isInclude c.node.id) v'.fields
  | n + 1, .mk nd cs, hd, hc, hi, x, v, hx, hv => by
    change RdNode (Rd n) at x
    simp only [RecShape, RecHas] at hx hv ⊢
    by_cases hk : nd.kind = .struct
    · simp only [if_pos hk] at hx hv ⊢
      obtain ⟨-, hr⟩ := hd.struct_inv hk
      cases x with
      | struct kind p ix xs =>
        cases p with
        | some _ => exact hx.elim
        | none =>
        simp only at hx
        obtain ⟨vs, rfl, hne, hv⟩ := hv
        have key : ∀ (fs : List Schema) (xs : List (Rd n)) (vs : List Vec), (∀ d ∈ fs, d.Record ∧ bo.Closed d ∧ bo.isInclude d.node.id = true) →
            List.Forall₂ (fun d y => RecHas c fuel bo n d y (a ++ b)) fs xs → List.Forall₂ (RecShape bo B a.length n) fs vs →
            ∃ vs' xs', childBatches (rdOps c fuel n) xs vs = .ok (vs', xs') ∧ List.Forall₂ (fun d y => RecHas c fuel bo n d y b) fs xs' ∧
              List.Forall₂ (RecShape bo B a.length n) fs vs' ∧
              List.Forall₂ (SeesField a) (fs.flatMap fun d => d.fields.filter fun c => bo.isInclude c.node.id) (vecFields vs') := by
          intro fs
          induction fs with
          | nil => intro xs vs _ hx hv; cases hx; cases hv; exact ⟨[], [], rfl, .nil, .nil, .nil⟩
          | cons d fs ih =>
            intro xs vs hfs hx hv
            cases hx with
            | cons hx hxs =>
            cases hv with
            | cons hv hvs =>
            obtain ⟨f1, f2, f3⟩ := hfs d (by simp)
            obtain ⟨v', x', k1, k2, k3, k4⟩ := rec_next a b n d f1 f2 f3 _ _ hx hv
            obtain ⟨vs', xs', g1, g2, g3, g4⟩ := ih _ _ (fun d hd => hfs d (by simp [hd])) hxs hvs
            refine ⟨v' :: vs', x' :: xs', by simp only [childBatches, k1, g1, Res.ok_bind, Res.pure_eq], .cons k2 g2, .cons k3 g3, ?_⟩
            rw [List.flatMap_cons, vecFields]
            exact List.rel_append k4 g4
        obtain ⟨vs', xs', g1, g2, g3, g4⟩ := key _ xs vs (fun d hd => by
          obtain ⟨h1, h2⟩ := List.mem_filter.1 hd
          exact ⟨hr d h1, hc.child h1, by simpa using h2⟩) hx hv
        refine ⟨.mk nd.id .struct none vs', (RdNode.struct kind none ix xs' : RdNode (Rd n)), ?_, g2, ⟨vs', rfl, forall₂_ne hv g3 hne, g3⟩, ?_⟩
        · have e : (RdNode.struct kind none ix xs).nextBatch (rdOps c fuel n) c fuel (.mk nd.id .struct none vs) =
              .ok (.mk nd.id .struct none vs', .struct kind none ix xs') := by
            simp only [RdNode.nextBatch, structBatch, g1, Res.ok_bind, Res.pure_eq]
          exact e
        · rw [Schema.fields, if_pos hk, Vec.fields, if_pos rfl, fields_included bo cs fun c h => hc.child h]
          exact g4
      | leaf _ _ => exact hx.elim
      | dict _ => exact hx.elim
      | bare _ _ => exact hx.elim
      | list _ _ _ _ _ => exact hx.elim
      | map _ _ _ _ _ _ => exact hx.elim
    · simp only [if_neg hk] at hx hv ⊢
      obtain ⟨hx, hf⟩ := hx
      rw [List.map_append] at hx
      obtain ⟨v', x', h1, h2, h3, h4, h5, h6⟩ := field_next (B := B) (hd.nest hk) hx hf (v := v) (by rw [List.length_map]; exact hv)
      rw [List.length_map] at h4 h6
      refine ⟨v', x', h1, ⟨h2, h3⟩, h4, ?_⟩
      have hi' : bo.isInclude (Schema.mk nd cs).node.id = true := hi
      rw [Schema.fields, if_neg hk, List.filter_cons, hi', h4.shape.fields]
      refine .cons ⟨h4.shape.ids.1, ?_, fun hle => ?_⟩ .nil
      · rw [h5, List.map_map]; rfl
      · rw [h6 hle, List.map_map]; rfl

/-- The reader of some columns of a table: the rows `rows` are left to be shown. -/
def RecLeft (c : Codec) (fuel : Nat) (bo : BatchOption) (s : Schema) (full : Bool) (n : Nat) (x : Rd n) (rows : List ItemRow) : Prop :=
  ∃ items : List DeepRow, rows = items.map (DeepRow.shown full (s.chosen bo)) ∧ RecHas c fuel bo n s x items

theorem sees_shown {full : Bool} {a : List DeepRow} (hfull : full = true → a.length ≤ 1) (fs : List Schema) (vs : List Vec) (h : List.Forall₂ (SeesField a) fs vs)
    (i : Nat) (hi : i < a.length) :
    vs.map (fun c => (c.id, ((c.items full)[i]?).getD .null)) = a[i].shown full (fs.map fun c => c.node.id) := by
  induction h with
  | nil => rfl
  | cons h hs ih =>
    rw [List.map_cons, ih, List.map_cons, h.1]
    cases full with
    | false => rw [h.2.1]; simp [DeepRow.shown, hi]
    | true => rw [h.2.2 (hfull rfl)]; simp [DeepRow.shown, hi]

/-- **The reader of a record**: batches of any size without the elements of lists and maps, batches of one row with them. -/
theorem rec_delivers (c : Codec) (fuel : Nat) (bo : BatchOption) (s : Schema) (hs : s.Record) (hc : bo.Closed s) (hi : bo.isInclude s.node.id = true) (n : Nat)
    (hasNulls : List Bool) (hn : s.StructsSolid hasNulls) (B : Nat) (full : Bool) (hfull : full = true → B = 1) :
    Delivers (rdOps c fuel n) hasNulls B (fun v => ∃ len, RecShape bo B len n s v) (RecLeft c fuel bo s full n) (Vec.fieldRows full) where
  cleared := by
    rintro vec ⟨len, h⟩
    obtain ⟨v', h1, h2⟩ := recShape_clear n s vec h
    obtain ⟨h3, h4⟩ := recShape_len n s v' h2
    exact ⟨v', h1, ⟨0, h2⟩, by simp [Vec.fieldRows, h3], h3, h4⟩
  next := by
    rintro vec ⟨len, h⟩ h0 x rows rest hle ⟨items, hit, hx⟩
    obtain ⟨ia, ib, rfl, rfl, rfl⟩ := List.append_eq_map_iff.mp hit
    rw [List.length_map] at hle ⊢
    obtain ⟨h1, h2⟩ := recShape_len n s vec h
    obtain rfl : len = 0 := by omega
    obtain ⟨sized, g1, g2⟩ := recShape_setSize hasNulls ia.length hle n s vec hn h
    obtain ⟨v', x', k1, k2, k3, k4⟩ := rec_next ia ib n s hs hc hi x sized hx g2
    obtain ⟨h3, h4⟩ := recShape_len n s v' k3
    refine ⟨sized, v', x', g1, k1, ⟨ib, rfl, k2⟩, ⟨_, k3⟩, ?_, h3, h4⟩
    apply List.ext_getElem
    · simp [Vec.fieldRows, h3]
    · intro i hi hi'
      rw [List.length_map] at hi'
      simp only [Vec.fieldRows, List.getElem_map, List.getElem_range]
      rw [sees_shown (fun hf => by have := hfull hf; omega) _ _ k4 i hi']
      rfl

/-! ### Opening -/

section
variable {c : Codec} {kind : CompKind} {size : Nat} {file : Bytes} {ps : List LaidStream}

/-- A column of strings with a dictionary as a stripe stores it can be opened. -/
theorem dict_of_stored {contents : StreamKind → Bytes} {present : Option (List Bool)} {dict : List Bytes} {idx : List Nat}
    (h : DictionaryLaid c kind size file ps contents present dict idx) {hasNulls : Bool} (hpn : present.isSome = true → hasNulls = true)
    (hin : ∀ i ∈ idx, i < dict.length) {rows : List (Option GoVal)} (hfl : Flagged present rows) (hr : rows.filterMap id = idx.map fun i => .str (dict.getD i []))
    {fuel : Nat} (hfuel : dict.length ≤ fuel) :
    ∃ r, (dictRead 0).openCol kind hasNulls (laid kind size file ps) = some r ∧ (dictRead fuel).Ready c r rows ∧ (hasNulls = false → r.present = none) ∧
      ((∃ p ∈ ps, p.kind = .present) → r.present ≠ none) := by
  obtain ⟨r, l, data', g1, hp, hl, hy, g3, g4⟩ := h.opens hpn hfuel
  have hyr := dict_yields (fuel := fuel) hl h.small.2 r.data idx _ _ hin hy
  refine ⟨r, g1, ⟨_, hp r.data.data, ?_⟩, fun hn => g3 ?_, fun hpp => ?_⟩
  · rw [← hr] at hyr
    cases present with
    | none =>
      simp only [Flagged, Option.getD_none] at hfl
      simp only [ReadKind.Holds, ReadKind.Has, g3 rfl]
      exact ⟨_, by rw [hfl]; simp, hyr, trivial⟩
    | some bs =>
      obtain ⟨p, p', g1, g2⟩ := g4 _ rfl
      simp only [Flagged, Option.getD_some] at hfl
      simp only [ReadKind.Holds, ReadKind.Has, g1]
      exact ⟨p', _, by rw [hfl]; exact g2, trivial, hyr, trivial⟩
  · cases present with
    | none => rfl
    | some bs => have := hpn rfl; rw [hn] at this; cases this
  · obtain ⟨p, hp1, hp2⟩ := hpp
    have := (h.laid.kinds .present).1 (List.mem_map.2 ⟨p, hp1, hp2⟩)
    cases present with
    | none => simp at this
    | some bs => obtain ⟨p, p', g1, g2⟩ := g4 _ rfl; simp [g1]

theorem values_accepts {most : Nat} {n : SchemaNode} {enc : Encoding} {rows : List (Option GoVal)} (h : ValuesStored c kind size file most n enc ps rows) :
    ∃ tag, newReaderTag n.kind enc = .ok tag ∧ ∀ p ∈ ps, tag.accepts n.hasNulls p.kind = true := by
  rcases h with h | ⟨hk, rfl, contents, present, dict, idx, hpn, hl, -⟩
  · exact columnStored_accepts h
  · refine ⟨.dict, by rw [hk]; rfl, fun p hp => ?_⟩
    rcases (hl.laid.kinds p.kind).1 (List.mem_map_of_mem hp) with h | ⟨h1, h2⟩
    · simp only [List.mem_cons, List.not_mem_nil, or_false] at h
      rcases h with h | h | h <;> simp [h, ReaderTag.accepts, ReadKind.accepts, dictRead]
    · simp [h1, ReaderTag.accepts, ReadKind.accepts, dictRead, hpn h2]

end

theorem deep_accepts {c : Codec} {kind : CompKind} {size : Nat} {file : Bytes} {most : Nat} {f : StripeFooter} {places : List (StreamInfo × Nat)} {d : Schema} {items : List Deep}
    (h : DeepStored c kind size file most f places d items) (hd : d.Nest) : ∀ e ∈ d.columns, ∃ enc tag, f.columns[e.node.id]? = some enc ∧ newReaderTag e.node.kind enc = .ok tag ∧
      ∀ p ∈ columnStreams file e.node.id places, tag.accepts e.node.hasNulls p.kind = true := by
  induction h with
  | value n enc rows items henc hst hi =>
    intro e he
    simp only [Schema.columns, columnsAll, List.mem_singleton] at he
    subst he
    obtain ⟨tag, h1, h2⟩ := values_accepts hst
    exact ⟨enc, tag, henc, h1, h2⟩
  | list n e rows items henc hst hch hi ih =>
    intro x hx
    simp only [Schema.columns, columnsAll, List.append_nil, List.mem_cons] at hx
    cases hd with
    | list _ _ hk he hsol =>
    rcases hx with rfl | hx
    · exact ⟨.directV2, .list, henc, by simp only [Schema.node, hk]; rfl, fun p hp => ((lengths_of_stored hst).1 p hp).1⟩
    · exact ih he x hx
  | map n k v rows items henc hst hch hch' hi ih ih' =>
    intro x hx
    simp only [Schema.columns, columnsAll, List.append_nil, List.mem_cons, List.mem_append] at hx
    cases hd with
    | map _ _ _ hk he he' hsol =>
    rcases hx with rfl | hx | hx
    · exact ⟨.directV2, .map, henc, by simp only [Schema.node, hk]; rfl, fun p hp => ((lengths_of_stored hst).1 p hp).2⟩
    · exact ih he x hx
    · exact ih' he' x hx

theorem Schema.node_mk (n : SchemaNode) (cs : List Schema) : (Schema.mk n cs).node = n := rfl

theorem Schema.children_mk (n : SchemaNode) (cs : List Schema) : (Schema.mk n cs).children = cs := rfl

section
variable {c : Codec} {bo : BatchOption} {ro : ROpts} {s : Schema} {file : Bytes} {f : StripeFooter} {places : List (StreamInfo × Nat)}
  {types : List RdType} {rs : List (Option FlatRd)}

/-- A column of a stripe can be opened. -/
theorem deep_opens (ht : TypesOf s types) (hrs : StripeReaders ro bo s file f places rs) {most fuel : Nat} (hfuel : most ≤ fuel) {d : Schema} {items : List Deep}
    (h : DeepStored c ro.kind ro.chunkSize file most f places d items) (hd : d.Nest) (hmem : d ∈ s.columns) (hinc : ∀ e ∈ d.columns, bo.isInclude e.node.id = true)
    (n : Nat) (hn : d.columns.length ≤ n) :
    ∃ x, treeOf bo ro types rs n d.node.id = .ok x ∧ DeepHas c fuel n d x items ∧ ((∃ p ∈ columnStreams file d.node.id places, p.kind = .present) → Rd.flagged n x) := by
  induction h generalizing n with
  | value nd enc rows items henc hst hi =>
    match n, hn with
    | n + 1, _ =>
    cases hd with
    | value _ hk =>
    have hinc0 := hinc _ (self_mem_columns _)
    rcases hst with hst | ⟨hks, rfl, contents, present, dict, idx, hpn, hl, hle, hin, hfl, hr⟩
    · obtain ⟨t, r, g1, g2, g3, g4, g5, g6⟩ := leaf_opens ht hrs hmem hinc0 hk henc hst
      refine ⟨_, g1 n, ⟨rfl, hk, g2, g5, rows, hi, r.data, g2.prepare c _, g4⟩, g6⟩
    · obtain ⟨r, h1, h2, h3, h4⟩ := dict_of_stored hl hpn hin hfl hr (Nat.le_trans hle hfuel)
      obtain ⟨names, hty⟩ := ht.2 _ hmem
      obtain ⟨enc', tag, ix, j1, j2, j3⟩ := hrs _ hmem hinc0
      simp only [Schema.node_mk, Schema.children_mk] at hty j1 j2 j3
      rw [henc] at j1; cases j1
      rw [hks] at j2; cases j2
      refine ⟨(RdNode.dict { r with index := ix } : RdNode (Rd n)), ?_, ⟨rfl, hk, h3, rows, hi, ?_⟩, h4⟩
      · simp only [Schema.node, treeOf, hty, j3, openLeaf, h1]
        rfl
      · obtain ⟨d, k1, k2⟩ := h2
        exact ⟨d, k1, k2⟩
  | list nd e rows items henc hst hch hi ih =>
    cases hd with
    | list _ _ hk he hsol =>
    have hinc0 := hinc _ (self_mem_columns _)
    have hsub : ∀ x ∈ e.columns, x ∈ (Schema.mk nd [e]).columns := fun x hx => by simp [Schema.columns, columnsAll, hx]
    have hemem : e ∈ s.columns := columns_child hmem (by simp [Schema.children])
    have heinc := hinc e (hsub e (self_mem_columns e))
    obtain ⟨-, k1, k2, k3, k4⟩ := lengths_of_stored hst
    obtain ⟨names, hty⟩ := ht.2 _ hmem
    obtain ⟨enc', tag, ix, j1, j2, j3⟩ := hrs _ hmem hinc0
    simp only [Schema.node_mk, Schema.children_mk] at hty j1 j2 j3 hinc0 ⊢
    rw [henc] at j1; cases j1
    rw [hk] at j2; cases j2
    match n, hn with
    | n + 1, hn =>
    obtain ⟨x, g1, g2, -⟩ := ih he hemem (fun x hx => hinc x (hsub x hx)) n (by
      simp only [Schema.columns, columnsAll, List.append_nil, List.length_cons] at hn; omega)
    refine ⟨(RdNode.list ro.kind ((Goorc.lookup (laid ro.kind ro.chunkSize file (columnStreams file nd.id places)) .present).map newBoolReader)
      ((Goorc.lookup (laid ro.kind ro.chunkSize file (columnStreams file nd.id places)) .length).map (newIntReader false)) ix (some x) : RdNode (Rd n)), ?_,
      ⟨hk, fun hnn => by rw [k3 hnn]; rfl, e, rfl, rows, hi, ?_, ?_, x, rfl, g2⟩, fun hp => ?_⟩
    · rw [treeOf]
      simp only [hty, j3, List.map_cons, List.map_nil, List.filter_cons, heinc, if_true, List.filter_nil, List.getLast?_singleton, treeOn]
      rw [g1]
      rfl
    · simpa only [List.map_map, Function.comp_def, Option.isSome_map] using k1
    · rw [map_filterMap_id] at k2
      exact k2
    · have := k4 hp
      simpa [Rd.flagged] using this
  | map nd e e' rows items henc hst hch hch' hi ih ih' =>
    cases hd with
    | map _ _ _ hk he he' hsol =>
    have hinc0 := hinc _ (self_mem_columns _)
    have hsub : ∀ x ∈ e.columns, x ∈ (Schema.mk nd [e, e']).columns := fun x hx => by simp [Schema.columns, columnsAll, hx]
    have hsub' : ∀ x ∈ e'.columns, x ∈ (Schema.mk nd [e, e']).columns := fun x hx => by simp [Schema.columns, columnsAll, hx]
    have hemem : e ∈ s.columns := columns_child hmem (by simp [Schema.children])
    have hemem' : e' ∈ s.columns := columns_child hmem (by simp [Schema.children])
    have heinc := hinc e (hsub e (self_mem_columns e))
    have heinc' := hinc e' (hsub' e' (self_mem_columns e'))
    obtain ⟨-, k1, k2, k3, k4⟩ := lengths_of_stored hst
    obtain ⟨names, hty⟩ := ht.2 _ hmem
    obtain ⟨enc', tag, ix, j1, j2, j3⟩ := hrs _ hmem hinc0
    simp only [Schema.node_mk, Schema.children_mk] at hty j1 j2 j3 hinc0 ⊢
    rw [henc] at j1; cases j1
    rw [hk] at j2; cases j2
    match n, hn with
    | n + 1, hn =>
    simp only [Schema.columns, columnsAll, List.append_nil, List.length_cons, List.length_append] at hn
    obtain ⟨x, g1, g2, -⟩ := ih he hemem (fun x hx => hinc x (hsub x hx)) n (by omega)
    obtain ⟨y, g1', g2', -⟩ := ih' he' hemem' (fun x hx => hinc x (hsub' x hx)) n (by omega)
    refine ⟨(RdNode.map ro.kind ((Goorc.lookup (laid ro.kind ro.chunkSize file (columnStreams file nd.id places)) .present).map newBoolReader)
      ((Goorc.lookup (laid ro.kind ro.chunkSize file (columnStreams file nd.id places)) .length).map (newIntReader false)) ix (some x) (some y) : RdNode (Rd n)), ?_,
      ⟨hk, fun hnn => by rw [k3 hnn]; rfl, e, e', rfl, rows, hi, ?_, ?_, ⟨x, rfl, g2⟩, y, rfl, g2'⟩, fun hp => ?_⟩
    · rw [treeOf]
      simp only [hty, j3, List.map_cons, List.map_nil, includedChild, List.getElem?_cons_zero, List.getElem?_cons_succ, heinc, heinc', if_true, treeOn]
      rw [g1, g1']
      rfl
    · simpa only [List.map_map, Function.comp_def, Option.isSome_map] using k1
    · rw [map_filterMap_id] at k2
      exact k2
    · have := k4 hp
      simpa [Rd.flagged] using this

/-- Lists and maps are chosen with all that is in them. -/
theorem nest_included {bo : BatchOption} {s : Schema} (hall : ∀ c ∈ s.columns, c.node.kind ≠ .struct → ∀ d ∈ c.children, bo.isInclude d.node.id = bo.isInclude c.node.id)
    {d : Schema} (hd : d.Nest) : d ∈ s.columns → bo.isInclude d.node.id = true → ∀ e ∈ d.columns, bo.isInclude e.node.id = true := by
  induction hd with
  | value nd hk =>
    intro _ hi e he
    simp only [Schema.columns, columnsAll, List.mem_singleton] at he
    subst he; exact hi
  | list nd e hk he hsol ih =>
    intro hm hi x hx
    simp only [Schema.columns, columnsAll, List.append_nil, List.mem_cons] at hx
    rcases hx with rfl | hx
    · exact hi
    · exact ih (columns_child hm (by simp [Schema.children])) (by rw [hall _ hm (by simp [Schema.node, hk]) e (by simp [Schema.children])]; exact hi) x hx
  | map nd e e' hk he he' hsol ih ih' =>
    intro hm hi x hx
    simp only [Schema.columns, columnsAll, List.append_nil, List.mem_cons, List.mem_append] at hx
    rcases hx with rfl | hx | hx
    · exact hi
    · exact ih (columns_child hm (by simp [Schema.children])) (by rw [hall _ hm (by simp [Schema.node, hk]) e (by simp [Schema.children])]; exact hi) x hx
    · exact ih' (columns_child hm (by simp [Schema.children])) (by rw [hall _ hm (by simp [Schema.node, hk]) e' (by simp [Schema.children])]; exact hi) x hx

/-- What is chosen of a record. -/
theorem rec_opens (ht : TypesOf s types) (hrs : StripeReaders ro bo s file f places rs) {most fuel : Nat} (hfuel : most ≤ fuel) {rows : List DeepRow}
    (hstruct : ∀ c ∈ s.columns, c.node.kind = .struct → f.columns[c.node.id]? = some .direct ∧ columnStreams file c.node.id places = [])
    (hall : ∀ c ∈ s.columns, c.node.kind ≠ .struct → ∀ d ∈ c.children, bo.isInclude d.node.id = bo.isInclude c.node.id) :
    ∀ (n : Nat) (d : Schema), d.Record → d ∈ s.columns → bo.isInclude d.node.id = true → d.columns.length ≤ n →
      (∀ e ∈ d.fields, DeepStored c ro.kind ro.chunkSize file most f places e (rows.map (DeepRow.get e.node.id))) →
      (∀ e ∈ d.fields, bo.isInclude e.node.id = true → e.node.hasNulls = true → ∃ p ∈ columnStreams file e.node.id places, p.kind = .present) →
      ∃ x, treeOf bo ro types rs n d.node.id = .ok x ∧ RecHas c fuel bo n d x rows
  | 0, .mk nd cs, _, _, _, hn, _, _ => by simp [Schema.columns] at hn
  | n + 1, .mk nd cs, hd, hmem, hinc, hn, hst, hfl => by
    simp only [RecHas]
    by_cases hk : nd.kind = .struct
    · simp only [if_pos hk]
      rw [Schema.fields, if_pos hk, fieldsAll_eq] at hst hfl
      obtain ⟨names, hty⟩ := ht.2 _ hmem
      obtain ⟨enc, tag, ix, k1, k2, k3⟩ := hrs _ hmem hinc
      obtain ⟨s1, s2⟩ := hstruct _ hmem hk
      simp only [Schema.node_mk, Schema.children_mk] at hty k1 k2 k3 s1 s2
      have : tag = .struct := by
        rw [hk, ← Option.some.inj (k1.symm.trans s1).symm] at k2
        simpa [newReaderTag] using k2.symm
      subst this
      obtain ⟨xs, h1, h2⟩ := treesOf_spec (f := treeOf bo ro types rs n) (g := fun d : Schema => d.node.id)
        (P := fun d y => RecHas c fuel bo n d y rows) (l := cs.filter fun c => bo.isInclude c.node.id) (by
          intro d hd'
          obtain ⟨hd1, hd2⟩ := List.mem_filter.1 hd'
          exact rec_opens ht hrs hfuel hstruct hall n d ((hd.struct_inv hk).2 d hd1) (columns_child hmem hd1) (by simpa using hd2)
            (by have := child_columns_length (n := nd) hd1; omega) (fun e he => hst e (List.mem_flatMap.2 ⟨d, hd1, he⟩))
            (fun e he => hfl e (List.mem_flatMap.2 ⟨d, hd1, he⟩)))
      refine ⟨(RdNode.struct ro.kind none ix xs : RdNode (Rd n)), ?_, h2⟩
      rw [treeOf]
      simp only [Schema.node_mk, hty, k3]
      have hfm : (cs.map fun d => d.node.id).filter bo.isInclude = (cs.filter fun c => bo.isInclude c.node.id).map fun d => d.node.id := by
        rw [List.filter_map]; rfl
      rw [hfm, h1, s2]
      rfl
    · simp only [if_neg hk]
      rw [Schema.fields, if_neg hk] at hst hfl
      have hnest := hd.nest hk
      obtain ⟨x, h1, h2, h3⟩ := deep_opens ht hrs hfuel (hst _ (by simp)) hnest hmem (nest_included hall hnest hmem hinc) (n + 1) hn
      exact ⟨x, h1, h2, fun hnn => h3 (hfl _ (by simp) hinc hnn)⟩

end

mutual
theorem fields_columns : ∀ (d e : Schema), e ∈ d.fields → e ∈ d.columns
  | .mk nd cs, e, h => by
    rw [Schema.fields] at h
    rw [Schema.columns]
    split at h
    · exact List.mem_cons_of_mem _ (fieldsAll_columns cs e h)
    · simp only [List.mem_singleton] at h
      subst h; simp

theorem fieldsAll_columns : ∀ (cs : List Schema) (e : Schema), e ∈ fieldsAll cs → e ∈ columnsAll cs
  | [], e, h => by cases h
  | c :: cs, e, h => by
    rw [fieldsAll, List.mem_append] at h
    rw [columnsAll, List.mem_append]
    exact h.imp (fields_columns c e) (fieldsAll_columns cs e)
end

/-- The columns of a record: structs, and what is in its fields. -/
theorem record_columns : ∀ {d : Schema}, d.Record → ∀ e ∈ d.columns, e.node.kind = .struct ∨ ∃ g ∈ d.fields, g.Nest ∧ e ∈ g.columns := by
  intro d hd
  induction hd with
  | field d h =>
    intro e he
    obtain ⟨n, cs⟩ := d
    exact .inr ⟨.mk n cs, by rw [Schema.fields, if_neg h.plain]; simp, h, he⟩
  | struct n cs hk hn hcs ih =>
    intro e he
    simp only [Schema.columns, columnsAll_eq, List.mem_cons, List.mem_flatMap] at he
    rcases he with rfl | ⟨d, hd, he⟩
    · exact .inl hk
    · rcases ih d hd e he with h | ⟨g, h1, h2, h3⟩
      · exact .inl h
      · exact .inr ⟨g, by rw [Schema.fields, if_pos hk, fieldsAll_eq]; exact List.mem_flatMap.2 ⟨d, hd, h1⟩, h2, h3⟩

theorem nest_columns {d : Schema} (hd : d.Nest) : ∀ e ∈ d.columns, e.Nest := by
  induction hd with
  | value nd hk =>
    intro e he
    simp only [Schema.columns, columnsAll, List.mem_singleton] at he
    subst he; exact .value nd hk
  | list nd e hk he hsol ih =>
    intro x hx
    simp only [Schema.columns, columnsAll, List.append_nil, List.mem_cons] at hx
    rcases hx with rfl | hx
    · exact .list nd e hk he hsol
    · exact ih x hx
  | map nd e e' hk he he' hsol ih ih' =>
    intro x hx
    simp only [Schema.columns, columnsAll, List.append_nil, List.mem_cons, List.mem_append] at hx
    rcases hx with rfl | hx | hx
    · exact .map nd e e' hk he he' hsol
    · exact ih x hx
    · exact ih' x hx

theorem chooses_closed {bo : BatchOption} {s : Schema} (h : bo.Chooses s) : bo.Closed s := by
  intro d hd hi e he
  by_cases hk : d.node.kind = .struct
  · cases hb : bo.isInclude e.node.id with
    | false => rfl
    | true => rw [((h.2 d hd).1 hk).2 ⟨e, he, hb⟩] at hi; cases hi
  · rw [(h.2 d hd).2 hk e he, hi]

/-- What is found in the footer of a stripe of a table. -/
theorem stripeDeep_tree {E : Env} {ro : ROpts} {most : Nat} {s : Schema} {file : Bytes} {info : StripeInfo} {rows : List DeepRow} {f : StripeFooter}
    {index data : List StreamInfo} (h : StripeDeep E ro.kind ro.chunkSize most s file info rows f index data) (num : s.Numbered) (hs : s.Record)
    {bo : BatchOption} (hsel : bo.Chooses s) {types : List RdType} (ht : TypesOf s types) :
    ∃ rs, StripeReaders ro bo s file f (startsFrom (info.offset + info.indexLength) data) rs ∧
      (∀ e ∈ s.fields, bo.isInclude e.node.id = true → e.node.hasNulls = true →
        ∃ p ∈ columnStreams file e.node.id (startsFrom (info.offset + info.indexLength) data), p.kind = .present) ∧
      (∀ d ∈ s.columns, bo.isInclude d.node.id = true → (index.map (·.column)).Nodup → ∀ p ∈ startsFrom info.offset index, p.1.column = d.node.id →
        ∀ flat entries, Stands E.c ro.kind ro.chunkSize ((file.drop p.2).take p.1.length) flat → E.P.readIndex flat = some entries →
        ∀ fr, rs[d.node.id]? = some (some fr) → fr.index = some entries) ∧
      ∀ x, treeOf bo ro types rs types.length s.node.id = .ok x →
        newStripeReader E ro bo file types info = .ok ⟨types.map (·.hasNulls), some x, rows.length, 0⟩ := by
  obtain ⟨rs, rs', e1, f1, hcols⟩ := stripeFrame_readers (bo := bo) h.toStripeFrame num (by
    intro c hc
    rcases record_columns hs c hc with hk | ⟨g, hg, hg2, hg3⟩
    · obtain ⟨s1, s2⟩ := h.structs c hc hk
      refine ⟨.direct, .struct, s1, by rw [hk]; rfl, fun p hp => ?_⟩
      rw [s2] at hp
      simp at hp
    · exact deep_accepts (h.fields g hg) hg2 c hg3) ht
  have hrs : StripeReaders ro bo s file f (startsFrom (info.offset + info.indexLength) data) rs' := by
    intro d hd hinc
    obtain ⟨enc, tag, ix, k1, k2, k3, -⟩ := hcols d hd hinc
    exact ⟨enc, tag, ix, k1, k2, k3⟩
  have hlink : linkAll bo types rs' = .ok () := by
    refine linkAll_each bo types rs' fun j t r hj hr' => ?_
    obtain ⟨c, hc, rfl, names, rfl⟩ := ht.at num hj
    cases hinc : bo.isInclude c.node.id with
    | false =>
      refine linkChildren_none bo _ r _ (fun j hj => ?_) 0
      obtain ⟨e, he, rfl⟩ := List.mem_map.1 hj
      exact chooses_closed hsel c hc hinc e he
    | true =>
      obtain ⟨q, rfl⟩ : ∃ q, r = some q := by
        obtain ⟨enc, tag, ix, -, -, k3⟩ := hrs c hc hinc
        rw [k3] at hr'
        exact ⟨_, (Option.some.inj hr').symm⟩
      rcases record_columns hs c hc with hk | ⟨g, hg, hg2, hg3⟩
      · exact linkChildren_ok bo _ q _ (.inl hk) 0 (by rw [hk]; simp)
      · have hcell := nest_columns hg2 c hg3
        cases hcell with
        | value nd hk => rfl
        | list nd e hk he hn => exact linkChildren_ok bo _ q _ (.inr (.inl hk)) 0 (by simp [Schema.children])
        | map nd e e' hk he he' hn => exact linkChildren_ok bo _ q _ (.inr (.inr hk)) 0 (by simp [Schema.children])
  have hroot : s.node.id = 0 := by
    have h0 : 0 < s.columns.length := by cases s; simp [Schema.columns]
    have := numbered_at num 0 h0
    cases s
    simpa [Schema.columns] using this
  have hfirst : (types.find? fun t => bo.isInclude t.id).map (·.id) = some s.node.id := by
    obtain ⟨names, hn⟩ := ht.2 s (self_mem_columns s)
    rw [hroot] at hn
    cases types with
    | nil => simp at hn
    | cons t ts =>
      simp only [List.getElem?_cons_zero, Option.some.injEq] at hn
      have : bo.isInclude t.id = true := by rw [hn, ← hroot]; exact hsel.1
      rw [List.find?_cons_of_pos (by simpa using this)]
      simp [hn, hroot]
  refine ⟨rs', hrs, fun e he hi hn => ?_, fun d hd hinc hnd p hp hpc flat entries h1 h2 fr hfr => ?_, fun x hx => ?_⟩
  · obtain ⟨-, -, -, -, -, -, hpr, -⟩ := hcols e (fields_columns s e he) hi
    exact hpr hn (h.flags e he hn)
  · obtain ⟨enc, tag, ix, -, -, k3, -, k5⟩ := hcols d hd hinc
    rw [k3] at hfr
    cases hfr
    exact k5 hnd p hp hpc flat entries h1 h2
  · rw [← h.count]
    simp only [newStripeReader, stripeFrame_footer h.toStripeFrame, Res.ok_bind, initStripe, e1, f1, hlink, hfirst, treeOn, hx, Res.pure_eq]

/-- A stripe of a table can be opened. -/
theorem stripeDeep_opens {E : Env} {ro : ROpts} {most : Nat} {s : Schema} {file : Bytes} {info : StripeInfo} {rows : List DeepRow} {f : StripeFooter}
    {index data : List StreamInfo} (h : StripeDeep E ro.kind ro.chunkSize most s file info rows f index data) (num : s.Numbered) (hs : s.Record)
    {bo : BatchOption} (hsel : bo.Chooses s) {types : List RdType} (ht : TypesOf s types) {fuel : Nat} (hfuel : most ≤ fuel) :
    ∃ x, newStripeReader E ro bo file types info = .ok ⟨types.map (·.hasNulls), some x, rows.length, 0⟩ ∧
      RecHas E.c fuel bo types.length s x rows := by
  obtain ⟨rs, hrs, hfl, -, hx⟩ := stripeDeep_tree h num hs hsel ht
  obtain ⟨x, h1, h2⟩ := rec_opens ht hrs hfuel (c := E.c) h.structs (fun c hc hk => (hsel.2 c hc).2 hk) types.length s hs (self_mem_columns s) hsel.1
    (Nat.le_of_eq ht.1.symm) h.fields hfl
  exact ⟨x, hx x h1, h2⟩

/-! ### The vector -/

theorem nest_verify {d : Schema} (hd : d.Nest) : verifySchema d = .ok () := by
  induction hd with
  | value nd hk => simp [verifySchema, hk]
  | list nd e hk he hsol ih =>
    simp only [verifySchema, hk, TypeKind.nested, if_true, verifyFirst]
    rw [if_neg, ih]
    intro h
    simp only [Bool.and_eq_true] at h
    have := hsol h.1 e (self_mem_columns e)
    rw [this] at h
    simp at h
  | map nd e e' hk he he' hsol ih ih' =>
    simp only [verifySchema, hk, TypeKind.nested, if_true, verifyFirst]
    rw [if_neg, ih]
    intro h
    simp only [Bool.and_eq_true] at h
    have := (hsol h.1).1 e (self_mem_columns e)
    rw [this] at h
    simp at h

theorem record_verify {d : Schema} (hd : d.Record) : verifySchema d = .ok () := by
  induction hd with
  | field d h => exact nest_verify h
  | struct n cs hk hn hcs ih =>
    cases cs with
    | nil => simp [verifySchema, verifyFirst]
    | cons c cs => simp [verifySchema, verifyFirst, hn, ih c (by simp)]

theorem nest_vector {bo : BatchOption} (hmake : bo.notCreateVector = false) {d : Schema} (hd : d.Nest) (hinc : ∀ e ∈ d.columns, bo.isInclude e.node.id = true) :
    ∃ k v cs, createVec bo d = .ok (.mk d.node.id k (some (makeSlice bo.rowSize v)) cs) ∧ DeepShape d (.mk d.node.id k (some (makeSlice bo.rowSize v)) cs) := by
  induction hd with
  | value n hk =>
    have hi := hinc _ (self_mem_columns _)
    simp only [Schema.node] at hi
    refine ⟨n.kind, n.kind.zero, [], ?_, .value n _ hk⟩
    simp only [createVec, hi, if_true, hmake, Bool.false_eq_true, if_false]
    cases hkk : n.kind <;> simp [hkk, TypeKind.nested] at hk ⊢ <;> rfl
  | list n e hk he hsol ih =>
    have hi := hinc _ (self_mem_columns _)
    simp only [Schema.node] at hi
    obtain ⟨k, v, cs, h1, h2⟩ := ih fun x hx => hinc x (by simp [Schema.columns, columnsAll, hx])
    refine ⟨.list, .nil, [_], ?_, .list n e _ _ hk h2⟩
    rw [createVec]
    simp only [hi, if_true, hk, createNth, h1, Res.ok_bind, Res.pure_eq, hmake, Bool.false_eq_true, if_false]
    rfl
  | map n e e' hk he he' hsol ih ih' =>
    have hi := hinc _ (self_mem_columns _)
    simp only [Schema.node] at hi
    obtain ⟨k, v, cs, h1, h2⟩ := ih fun x hx => hinc x (by simp [Schema.columns, columnsAll, hx])
    obtain ⟨k', v', cs', h1', h2'⟩ := ih' fun x hx => hinc x (by simp [Schema.columns, columnsAll, hx])
    refine ⟨.map, .nil, [_, _], ?_, .map n e e' _ _ _ hk h2 h2'⟩
    rw [createVec]
    simp only [hi, if_true, hk, createNth, h1, h1', Res.ok_bind, Res.pure_eq]
    rfl

theorem nest_field {bo : BatchOption} (hmake : bo.notCreateVector = false) (hrow : bo.rowSize ≠ 0) {d : Schema} (hd : d.Nest) (hinc : ∀ e ∈ d.columns, bo.isInclude e.node.id = true) :
    ∃ v, createVec bo d = .ok v ∧ FieldShape bo.rowSize bo.rowSize d v := by
  obtain ⟨k, v, cs, h1, h2⟩ := nest_vector hmake hd hinc
  obtain ⟨g1, g2, g3⟩ := makeSlice_facts bo.rowSize v
  exact ⟨_, h1, h2, ⟨_, _, _, _, rfl, g1, g2, fun _ => g3⟩, Nat.le_refl _, fun h => absurd h hrow⟩

theorem rec_vector {bo : BatchOption} {s : Schema} (hsel : bo.Chooses s) (hmake : bo.notCreateVector = false) (hrow : bo.rowSize ≠ 0) :
    ∀ (n : Nat) (d : Schema), d.Record → d ∈ s.columns → bo.isInclude d.node.id = true → d.columns.length ≤ n →
      ∃ v, createVec bo d = .ok v ∧ v ≠ .nil ∧ RecShape bo bo.rowSize bo.rowSize n d v
  | 0, .mk nd cs, _, _, _, hn => by simp [Schema.columns] at hn
  | n + 1, .mk nd cs, hd, hmem, hinc, hn => by
    simp only [RecShape]
    by_cases hk : nd.kind = .struct
    · simp only [if_pos hk]
      have all : ∀ ds : List Schema, (∀ d ∈ ds, d ∈ cs) →
          ∃ vs, createVecs bo ds = .ok vs ∧ List.Forall₂ (RecShape bo bo.rowSize bo.rowSize n) (ds.filter fun c => bo.isInclude c.node.id) vs := by
        intro ds
        induction ds with
        | nil => intro _; exact ⟨[], rfl, .nil⟩
        | cons d ds ih =>
          intro hm
          obtain ⟨vs, h1, h2⟩ := ih fun d hd => hm d (by simp [hd])
          have hd1 : d ∈ cs := hm d (by simp)
          by_cases hi : bo.isInclude d.node.id = true
          · obtain ⟨v, g1, g2, g3⟩ := rec_vector hsel hmake hrow n d ((hd.struct_inv hk).2 d hd1) (columns_child hmem hd1) hi (by
              have := child_columns_length (n := nd) hd1; omega)
            refine ⟨v :: vs, ?_, by rw [List.filter_cons_of_pos (by simpa using hi)]; exact .cons g3 h2⟩
            simp only [createVecs, g1, h1, Res.ok_bind]
            cases v with
            | nil => exact absurd rfl g2
            | mk => rfl
          · refine ⟨vs, ?_, by rw [List.filter_cons_of_neg (by simpa using hi)]; exact h2⟩
            have : createVec bo d = .ok .nil := by
              obtain ⟨n', cs'⟩ := d
              simp only [Schema.node_mk] at hi
              simp [createVec, hi]
            simp only [createVecs, this, h1, Res.ok_bind, Res.pure_eq]
      obtain ⟨vs, h1, h2⟩ := all cs fun _ h => h
      have hnn := (hd.struct_inv hk).1
      simp only [Schema.node_mk] at hinc
      refine ⟨.mk nd.id .struct none vs, ?_, by simp, vs, rfl, ?_, h2⟩
      · rw [createVec]
        simp only [hinc, if_true, hk, h1, Res.ok_bind, Res.pure_eq, hnn, Bool.false_and, Bool.false_eq_true, if_false]
      · rintro rfl
        obtain ⟨d, hd1, hd2⟩ := ((hsel.2 _ hmem).1 hk).1 hinc
        have e := h2.length_eq
        rw [List.length_nil] at e
        have : d ∈ cs.filter fun c => bo.isInclude c.node.id := List.mem_filter.2 ⟨hd1, by simpa using hd2⟩
        rw [List.length_eq_zero_iff.1 e] at this
        cases this
    · simp only [if_neg hk]
      have hnest := hd.nest hk
      obtain ⟨v, h1, h2⟩ := nest_field hmake hrow hnest (nest_included (fun c hc hk => (hsel.2 c hc).2 hk) hnest hmem hinc)
      exact ⟨v, h1, h2.shape.ids.2.2, h2⟩

/-- The structs of a record have no nulls. -/
theorem record_columns_kinds {d : Schema} (hd : d.Record) : ∀ e ∈ d.columns, e.node.kind ≠ .struct ∨ (e.node.kind = .struct ∧ e.node.hasNulls = false) := by
  induction hd with
  | field d h =>
    intro e he
    have := nest_columns h e he
    obtain ⟨n, cs⟩ := e
    exact .inl this.plain
  | struct n cs hk hn hcs ih =>
    intro e he
    simp only [Schema.columns, columnsAll_eq, List.mem_cons, List.mem_flatMap] at he
    rcases he with rfl | ⟨d, hd, he⟩
    · exact .inr ⟨hk, hn⟩
    · exact ih d hd e he

end Goorc
