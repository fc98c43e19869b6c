import Verif.Spec.Nested
import Verif.Proofs.ColMore
import Verif.Proofs.Nested
namespace Goorc

theorem Vec.ind {P : Vec → Prop} (hn : P .nil) (h : ∀ id k s cs, (∀ c ∈ cs, P c) → P (.mk id k s cs)) (v : Vec) : P v :=
  Vec.rec (motive_1 := P) (motive_2 := fun cs => ∀ c ∈ cs, P c) hn
    (fun id k s cs ih => h id k s cs ih) (fun c hc => by simp at hc)
    (fun c cs ihc ihs d hd => by
      rcases List.mem_cons.mp hd with h | h
      · exact h ▸ ihc
      · exact ihs d h) v

theorem Slice.visible_update (s : Slice) (rows : List Value) (h : rows.length = s.visible.length) : (s.update rows).visible = rows := by
  simp only [Slice.visible, List.length_take] at h
  simp only [Slice.update, Slice.visible]
  rcases Nat.le_total s.len s.arr.length with hle | hle
  · rw [Nat.min_eq_left hle] at h
    rw [List.take_left' h]
  · rw [Nat.min_eq_right hle] at h
    rw [List.drop_eq_nil_of_le (by omega), List.append_nil, List.take_of_length_le (by omega)]

theorem visibleRows_update (s : Option Slice) (rows : List Value) (h : rows.length = (visibleRows s).length) : visibleRows (updateRows s rows) = rows := by
  cases s with
  | none => exact (List.eq_nil_of_length_eq_zero h).symm
  | some s => exact s.visible_update rows h

/-- Updating the first rows only. -/
theorem Slice.visible_update_prefix (s : Slice) (rows : List Value) (h : rows.length ≤ s.visible.length) :
    (s.update rows).visible = rows ++ s.visible.drop rows.length := by
  simp only [Slice.visible, List.length_take] at h
  simp only [Slice.update, Slice.visible]
  rw [List.take_append, List.take_of_length_le (by omega), List.drop_take]

theorem setNulls_ok {flags : List Bool} {s s' : Option Slice} (h : setNulls flags s = .ok s') :
    flags.length ≤ (visibleRows s).length ∧ (visibleRows s').length = (visibleRows s).length ∧
    ((visibleRows s').map (·.null)).take flags.length = flags ∧ (visibleRows s').map (·.v) = (visibleRows s).map (·.v) := by
  simp only [setNulls] at h
  by_cases hl : flags.length ≤ (visibleRows s).length
  · rw [if_pos hl] at h
    simp only [Res.ok.injEq] at h
    subst h
    have hz : (List.zipWith (fun b (v : Value) => { v with null := b }) flags (visibleRows s)).length = flags.length := by
      rw [List.length_zipWith, Nat.min_eq_left hl]
    have hvis : visibleRows (updateRows s (List.zipWith (fun b (v : Value) => { v with null := b }) flags (visibleRows s))) =
        List.zipWith (fun b (v : Value) => { v with null := b }) flags (visibleRows s) ++ (visibleRows s).drop flags.length := by
      cases s with
      | none =>
        simp only [visibleRows, List.length_nil, Nat.le_zero_eq, List.length_eq_zero_iff] at hl
        simp [visibleRows, updateRows]
      | some s =>
        have := s.visible_update_prefix _ (by rw [hz]; exact hl)
        rw [hz] at this
        exact this
    rw [hvis]
    have hn : ∀ (fl : List Bool) (vs : List Value), fl.length ≤ vs.length →
        (List.zipWith (fun b (v : Value) => { v with null := b }) fl vs).map (·.null) = fl ∧
        (List.zipWith (fun b (v : Value) => { v with null := b }) fl vs).map (·.v) = (vs.map (·.v)).take fl.length := by
      intro fl
      induction fl with
      | nil => intro vs _; simp
      | cons b fl ih =>
        intro vs hvs
        cases vs with
        | nil => simp at hvs
        | cons v vs =>
          obtain ⟨h1, h2⟩ := ih vs (by simpa using hvs)
          simp [h1, h2]
    obtain ⟨n1, n2⟩ := hn flags (visibleRows s) hl
    refine ⟨hl, ?_, ?_, ?_⟩
    · rw [List.length_append, hz, List.length_drop]; omega
    · rw [List.map_append, n1, List.take_left' rfl]
    · rw [List.map_append, n2, List.map_drop, List.take_append_drop]
  · rw [if_neg hl] at h
    simp at h

theorem setNulls_iff (flags : List Bool) (s : Option Slice) : (∃ s', setNulls flags s = .ok s') ↔ flags.length ≤ (visibleRows s).length := by
  simp only [setNulls]
  by_cases hl : flags.length ≤ (visibleRows s).length
  · simp [hl]
  · simp [hl]

/-- The children one by one. -/
theorem fillDownAll_iff (flags : List Bool) (cs cs' : List Vec) :
    fillDownAll flags cs = .ok cs' ↔ cs'.length = cs.length ∧ ∀ (i : Nat) (c : Vec), cs[i]? = some c → ∃ c', cs'[i]? = some c' ∧ fillDown flags c = .ok c' := by
  induction cs generalizing cs' with
  | nil =>
    simp only [fillDownAll, Res.ok.injEq, List.length_nil, List.length_eq_zero_iff, List.getElem?_nil, reduceCtorEq, false_implies, implies_true, and_true]
    exact eq_comm
  | cons c cs ih =>
    constructor
    · intro h
      obtain ⟨c1, h1, h2⟩ := Res.bind_ok_inv h
      obtain ⟨cs1, h3, h4⟩ := Res.bind_ok_inv h2
      simp only [Res.pure_eq, Res.ok.injEq] at h4
      subst h4
      obtain ⟨k1, k2⟩ := (ih cs1).mp h3
      refine ⟨by simp [k1], fun i d hd => ?_⟩
      cases i with
      | zero => simp only [List.getElem?_cons_zero, Option.some.injEq] at hd; subst hd; exact ⟨c1, rfl, h1⟩
      | succ i => simpa using k2 i d (by simpa using hd)
    · rintro ⟨h1, h2⟩
      cases cs' with
      | nil => simp at h1
      | cons c1 cs1 =>
        obtain ⟨d, hd, hf⟩ := h2 0 c rfl
        simp only [List.getElem?_cons_zero, Option.some.injEq] at hd
        subst hd
        have := (ih cs1).mpr ⟨by simpa using h1, fun i d hd => by simpa using h2 (i + 1) d (by simpa using hd)⟩
        simp [fillDownAll, hf, this]

/-- What `fillNulls` did to a vector below. -/
def Filled (flags : List Bool) (d d' : Vec) : Prop :=
  d'.rows.length = d.rows.length ∧ (d'.nulls).take flags.length = flags ∧ d'.rows.map (·.v) = d.rows.map (·.v)

theorem fillDown_spec (v : Vec) : ∀ (flags : List Bool) (v' : Vec), fillDown flags v = .ok v' →
    ∀ path d', v'.at path = some d' → ∃ d, v.at path = some d ∧ Filled flags d d' := by
  induction v using Vec.ind with
  | hn => intro flags v' h; simp [fillDown] at h
  | h id k s cs ih =>
    intro flags v' h path d' hd
    obtain ⟨s', h1, h2⟩ := Res.bind_ok_inv h
    obtain ⟨cs', h3, h4⟩ := Res.bind_ok_inv h2
    simp only [Res.pure_eq, Res.ok.injEq] at h4
    subst h4
    obtain ⟨k0, k1, k2, k3⟩ := setNulls_ok h1
    cases path with
    | nil =>
      simp only [Vec.at, Option.some.injEq] at hd
      subst hd
      exact ⟨_, rfl, k1, k2, k3⟩
    | cons i path =>
      obtain ⟨j1, j2⟩ := (fillDownAll_iff _ _ _).mp h3
      simp only [Vec.at] at hd ⊢
      cases hc' : cs'[i]? with
      | none => simp [hc'] at hd
      | some c' =>
        have hi : i < cs.length := by rw [← j1]; exact (List.getElem?_eq_some_iff.mp hc').1
        obtain ⟨c'', m1, m2⟩ := j2 i cs[i] (List.getElem?_eq_getElem hi)
        rw [hc'] at m1
        cases m1
        simp only [hc'] at hd
        obtain ⟨d, n1, n2, n3, n4⟩ := ih cs[i] (List.getElem_mem hi) _ _ m2 path d' hd
        refine ⟨d, by simp [n1, List.getElem?_eq_getElem hi], n2, ?_, n4⟩
        have hle : flags.length ≤ ((visibleRows s').map (·.null)).length := by rw [List.length_map, k1]; exact k0
        have := congrArg (List.take flags.length) n3
        rw [List.take_take, k2, Nat.min_eq_left hle] at this
        exact this

theorem Vec.at_append (v : Vec) (p q : List Nat) : v.at (p ++ q) = (v.at p).bind fun d => d.at q := by
  induction p generalizing v with
  | nil => rfl
  | cons i p ih =>
    cases v with
    | nil => rfl
    | mk id k s cs =>
      simp only [List.cons_append, Vec.at]
      cases cs[i]? with
      | none => rfl
      | some c => exact ih c

theorem FillsDown.child {id : Nat} {k : TypeKind} {s : Option Slice} {cs : List Vec} (h : FillsDown (.mk id k s cs)) {i : Nat} {c : Vec}
    (hc : cs[i]? = some c) : FillsDown c ∧ c ≠ .nil ∧ (visibleRows s).length ≤ c.rows.length := by
  refine ⟨fun path d j e hd he => h (i :: path) d j e ?_ ?_, h [] (.mk id k s cs) i c rfl ?_⟩
  · simpa [Vec.at, hc] using hd
  · simpa [Vec.at, hc] using he
  · simp [Vec.at, hc]

theorem fillDown_iff (v : Vec) : ∀ (flags : List Bool), (∃ v', fillDown flags v = .ok v') ↔ v ≠ .nil ∧ flags.length ≤ v.rows.length ∧ FillsDown v := by
  induction v using Vec.ind with
  | hn => intro flags; simp [fillDown]
  | h id k s cs ih =>
    intro flags
    constructor
    · rintro ⟨v', h⟩
      obtain ⟨s', h1, h2⟩ := Res.bind_ok_inv h
      obtain ⟨cs', h3, h4⟩ := Res.bind_ok_inv h2
      obtain ⟨k0, k1, k2, k3⟩ := setNulls_ok h1
      obtain ⟨j1, j2⟩ := (fillDownAll_iff _ _ _).mp h3
      refine ⟨by simp, k0, fun path d i c hd hc => ?_⟩
      cases path with
      | nil =>
        simp only [Vec.at, Option.some.injEq] at hd
        subst hd
        simp only [List.nil_append, Vec.at] at hc
        cases hci : cs[i]? with
        | none => simp [hci] at hc
        | some c0 =>
          simp only [hci, Option.some.injEq] at hc
          subst hc
          obtain ⟨c', -, m2⟩ := j2 i c0 hci
          obtain ⟨n1, n2, n3⟩ := (ih c0 (List.mem_of_getElem? hci) _).mp ⟨c', m2⟩
          exact ⟨n1, by rw [List.length_map, k1] at n2; exact n2⟩
      | cons j path =>
        simp only [List.cons_append, Vec.at] at hd hc
        cases hcj : cs[j]? with
        | none => simp [hcj] at hd
        | some c0 =>
          simp only [hcj] at hd hc
          obtain ⟨c', -, m2⟩ := j2 j c0 hcj
          exact ((ih c0 (List.mem_of_getElem? hcj) _).mp ⟨c', m2⟩).2.2 path d i c hd hc
    · rintro ⟨-, h1, h2⟩
      obtain ⟨s', hs⟩ := (setNulls_iff flags s).mpr h1
      obtain ⟨-, k1, -, -⟩ := setNulls_ok hs
      have hall : ∀ c ∈ cs, ∃ c', fillDown ((visibleRows s').map (·.null)) c = .ok c' := by
        intro c hc
        obtain ⟨i, hi⟩ := List.getElem?_of_mem hc
        obtain ⟨m1, m2, m3⟩ := h2.child hi
        exact (ih c hc _).mpr ⟨m2, by rw [List.length_map, k1]; exact m3, m1⟩
      have : ∃ cs', fillDownAll ((visibleRows s').map (·.null)) cs = .ok cs' := by
        clear ih h2 h1
        induction cs with
        | nil => exact ⟨[], rfl⟩
        | cons c cs ih2 =>
          obtain ⟨c', e1⟩ := hall c (by simp)
          obtain ⟨cs', e2⟩ := ih2 (fun c hc => hall c (by simp [hc]))
          exact ⟨c' :: cs', by simp [fillDownAll, e1, e2]⟩
      obtain ⟨cs', e⟩ := this
      exact ⟨.mk id k s' cs', by simp [fillDown, hs, e]⟩

theorem fillNulls_mk (id : Nat) (k : TypeKind) (s : Option Slice) (cs : List Vec) (v' : Vec) :
    fillNulls (.mk id k s cs) = .ok v' ↔ ∃ cs', fillDownAll ((visibleRows s).map (·.null)) cs = .ok cs' ∧ v' = .mk id k s cs' := by
  constructor
  · intro h
    obtain ⟨cs', h1, h2⟩ := Res.bind_ok_inv h
    simp only [Res.pure_eq, Res.ok.injEq] at h2
    exact ⟨cs', h1, h2.symm⟩
  · rintro ⟨cs', h1, rfl⟩
    simp [fillNulls, h1]

/-- `fillNulls` is `fillDown` with the flags the vector already has. -/
theorem setNulls_self (s : Option Slice) : setNulls ((visibleRows s).map (·.null)) s = .ok s := by
  have hz : ∀ vs : List Value, List.zipWith (fun b (v : Value) => { v with null := b }) (vs.map (·.null)) vs = vs := by
    intro vs
    induction vs with
    | nil => rfl
    | cons v vs ih => simp [ih]
  simp only [setNulls, List.length_map, Nat.le_refl, if_true, hz, Res.ok.injEq]
  cases s with
  | none => rfl
  | some s =>
    simp only [updateRows, Option.map_some, visibleRows, Slice.update, Slice.visible, Option.some.injEq, List.length_take]
    congr 1
    rcases Nat.le_total s.len s.arr.length with hle | hle
    · rw [Nat.min_eq_left hle, List.take_append_drop]
    · rw [Nat.min_eq_right hle, List.take_of_length_le hle]; simp

theorem fillNulls_eq (v : Vec) : fillNulls v = fillDown v.nulls v := by
  cases v with
  | nil => rfl
  | mk id k s cs => simp only [fillNulls, fillDown, Vec.nulls, Vec.rows, setNulls_self, Res.ok_bind]

/-! ### Readers without present streams leave the flags alone -/

/-- Same shape, same flags. -/
def SameNulls (v v' : Vec) : Prop := ∀ path, (v'.at path).map Vec.nulls = (v.at path).map Vec.nulls

theorem SameNulls.refl (v : Vec) : SameNulls v v := fun _ => rfl

theorem SameNulls.of_rows {id : Nat} {k : TypeKind} {s s' : Option Slice} {cs cs' : List Vec} (hs : (visibleRows s').map (·.null) = (visibleRows s).map (·.null))
    (hl : cs'.length = cs.length) (hc : ∀ (i : Nat) (c c' : Vec), cs[i]? = some c → cs'[i]? = some c' → SameNulls c c') : SameNulls (.mk id k s cs) (.mk id k s' cs') := by
  intro path
  cases path with
  | nil => simp only [Vec.at, Option.map_some, Vec.nulls, Vec.rows, hs]
  | cons i path =>
    simp only [Vec.at]
    cases h1 : cs[i]? with
    | none =>
      have : cs'[i]? = none := by rw [List.getElem?_eq_none_iff] at h1 ⊢; omega
      simp [this]
    | some c =>
      have hi : i < cs'.length := by rw [hl]; exact (List.getElem?_eq_some_iff.mp h1).1
      rw [List.getElem?_eq_getElem hi]
      exact hc i c _ h1 (List.getElem?_eq_getElem hi) path

theorem nextRows_nulls {ρ : Type} (R : ReadKind ρ) (c : Codec) (vec rows : List Value) (r r' : ColReader ρ) (hp : r.present = none)
    (h : R.nextRows c r vec = .ok (rows, r')) : rows.map (·.null) = vec.map (·.null) ∧ r'.present = none := by
  induction vec generalizing r rows with
  | nil => simp only [ReadKind.nextRows, Res.ok.injEq, Prod.mk.injEq] at h; obtain ⟨rfl, rfl⟩ := h; exact ⟨rfl, hp⟩
  | cons old vec ih =>
    simp only [ReadKind.nextRows, hp, Res.pure_eq, Res.ok_bind] at h
    obtain ⟨⟨v, r1⟩, h1, h2⟩ := Res.bind_ok_inv h
    obtain ⟨⟨vs, r2⟩, h3, h4⟩ := Res.bind_ok_inv h2
    simp only [Res.ok.injEq, Prod.mk.injEq] at h4
    obtain ⟨rfl, rfl⟩ := h4
    have hr1 : r1.present = none := by
      by_cases hn : old.null = true
      · rw [if_pos hn] at h1
        simp only [Res.ok.injEq, Prod.mk.injEq] at h1
        rw [← h1.2]; exact hp
      · rw [if_neg hn] at h1
        obtain ⟨⟨x, d⟩, g1, g2⟩ := Res.bind_ok_inv h1
        obtain ⟨y, g3, g4⟩ := Res.bind_ok_inv g2
        simp only [Res.ok.injEq, Prod.mk.injEq] at g4
        rw [← g4.2]
    obtain ⟨k1, k2⟩ := ih vs r1 hr1 h3
    exact ⟨by simp [k1], k2⟩

theorem leafBatch_nulls {ρ : Type} (R : ReadKind ρ) (c : Codec) (r r' : ColReader ρ) (v v' : Vec) (hp : r.present = none)
    (h : leafBatch R c r v = .ok (v', r')) : SameNulls v v' ∧ r'.present = none := by
  cases v with
  | nil => simp [leafBatch] at h
  | mk id k s cs =>
    obtain ⟨⟨rows, r1⟩, h1, h2⟩ := Res.bind_ok_inv h
    simp only [Res.pure_eq, Res.ok.injEq, Prod.mk.injEq] at h2
    obtain ⟨rfl, rfl⟩ := h2
    obtain ⟨d, g1, g2⟩ := Res.bind_ok_inv h1
    obtain ⟨k1, k2⟩ := nextRows_nulls R c _ _ { r with data := d } _ hp g2
    refine ⟨SameNulls.of_rows ?_ rfl ?_, k2⟩
    · have := congrArg List.length k1
      simp only [List.length_map] at this
      rw [visibleRows_update s rows this, k1]
    · intro i c c' hc hc'
      rw [hc] at hc'
      cases hc'
      exact SameNulls.refl c

theorem childBatches_nulls {χ : Type} (X : RdOps χ) (ok : χ → Prop) (hX : ∀ x v v' x', ok x → X.nextBatch x v = .ok (v', x') → SameNulls v v' ∧ ok x')
    (xs xs' : List χ) (vs vs' : List Vec) (hok : ∀ x ∈ xs, ok x) (h : childBatches X xs vs = .ok (vs', xs')) :
    vs'.length = vs.length ∧ (∀ (i : Nat) (v v' : Vec), vs[i]? = some v → vs'[i]? = some v' → SameNulls v v') ∧ ∀ x ∈ xs', ok x := by
  induction xs generalizing vs vs' xs' with
  | nil =>
    simp only [childBatches, Res.ok.injEq, Prod.mk.injEq] at h
    obtain ⟨rfl, rfl⟩ := h
    refine ⟨rfl, fun i v v' hv hv' => ?_, by simp⟩
    rw [hv] at hv'
    cases hv'
    exact SameNulls.refl v
  | cons x xs ih =>
    cases vs with
    | nil => simp [childBatches] at h
    | cons v vs =>
      obtain ⟨⟨v1, x1⟩, h1, h2⟩ := Res.bind_ok_inv h
      obtain ⟨⟨vs1, xs1⟩, h3, h4⟩ := Res.bind_ok_inv h2
      simp only [Res.pure_eq, Res.ok.injEq, Prod.mk.injEq] at h4
      obtain ⟨rfl, rfl⟩ := h4
      obtain ⟨k1, k2⟩ := hX x v v1 x1 (hok x (by simp)) h1
      obtain ⟨j1, j2, j3⟩ := ih xs1 vs vs1 (fun x hx => hok x (by simp [hx])) h3
      refine ⟨by simp [j1], fun i w w' hw hw' => ?_, fun y hy => ?_⟩
      · cases i with
        | zero =>
          simp only [List.getElem?_cons_zero, Option.some.injEq] at hw hw'
          subst hw hw'
          exact k1
        | succ i => exact j2 i w w' (by simpa using hw) (by simpa using hw')
      · rcases List.mem_cons.mp hy with rfl | hy
        · exact k2
        · exact j3 y hy

theorem plainTree_nulls (c : Codec) (fuel n : Nat) : ∀ (x x' : Rd n) (v v' : Vec), PlainTree n x → (rdOps c fuel n).nextBatch x v = .ok (v', x') →
    SameNulls v v' ∧ PlainTree n x' := by
  induction n with
  | zero => intro x; exact x.elim
  | succ n ih =>
    intro x x' v v' hp h
    change RdNode (Rd n) at x x'
    change RdNode.nextBatch (rdOps c fuel n) c fuel x v = .ok (v', x') at h
    cases x with
    | leaf t r =>
      simp only [RdNode.nextBatch] at h
      obtain ⟨⟨v1, r1⟩, h1, h2⟩ := Res.bind_ok_inv h
      simp only [Res.pure_eq, Res.ok.injEq, Prod.mk.injEq] at h2
      obtain ⟨rfl, rfl⟩ := h2
      exact leafBatch_nulls _ c r r1 v v1 hp h1
    | dict r =>
      simp only [RdNode.nextBatch] at h
      obtain ⟨⟨v1, r1⟩, h1, h2⟩ := Res.bind_ok_inv h
      simp only [Res.pure_eq, Res.ok.injEq, Prod.mk.injEq] at h2
      obtain ⟨rfl, rfl⟩ := h2
      exact leafBatch_nulls _ c r r1 v v1 hp h1
    | struct kind p i cs =>
      simp only [RdNode.nextBatch] at h
      obtain ⟨rfl, hcs⟩ := hp
      obtain ⟨⟨v1, p1, cs1⟩, h1, h2⟩ := Res.bind_ok_inv h
      simp only [Res.pure_eq, Res.ok.injEq, Prod.mk.injEq] at h2
      obtain ⟨rfl, rfl⟩ := h2
      cases v with
      | nil => simp [structBatch] at h1
      | mk id k s vs =>
        simp only [structBatch, Res.pure_eq, Res.ok_bind] at h1
        obtain ⟨⟨vs1, cs2⟩, g1, g2⟩ := Res.bind_ok_inv h1
        simp only [Res.ok.injEq, Prod.mk.injEq] at g2
        obtain ⟨rfl, rfl, rfl⟩ := g2
        obtain ⟨j1, j2, j3⟩ := childBatches_nulls (rdOps c fuel n) (PlainTree n) (fun x v v' x' => ih x x' v v') cs cs2 vs vs1 hcs g1
        exact ⟨SameNulls.of_rows rfl j1 j2, rfl, j3⟩
    | list => exact hp.elim
    | map => exact hp.elim
    | bare t r =>
      simp only [RdNode.nextBatch] at h
      obtain ⟨⟨v1, r1⟩, h1, h2⟩ := Res.bind_ok_inv h
      simp only [Res.pure_eq, Res.ok.injEq, Prod.mk.injEq] at h2
      obtain ⟨rfl, rfl⟩ := h2
      exact leafBatch_nulls _ c r r1 v v1 hp h1

theorem readFlags_spec (c : Codec) (p p' : BoolReader) (vec rows : List Value) (h : readFlags c p vec = .ok (rows, p')) :
    ∃ flags, Yields (BoolReader.next c) p flags p' ∧ rows = List.zipWith (fun v b => ({ v with null := !b } : Value)) vec flags ∧ flags.length = vec.length := by
  induction vec generalizing p rows with
  | nil => simp only [readFlags, Res.ok.injEq, Prod.mk.injEq] at h; obtain ⟨rfl, rfl⟩ := h; exact ⟨[], rfl, rfl, rfl⟩
  | cons v vec ih =>
    obtain ⟨⟨b, p1⟩, h1, h2⟩ := Res.bind_ok_inv h
    obtain ⟨⟨vs, p2⟩, h3, h4⟩ := Res.bind_ok_inv h2
    simp only [Res.pure_eq, Res.ok.injEq, Prod.mk.injEq] at h4
    obtain ⟨rfl, rfl⟩ := h4
    obtain ⟨flags, k1, k2, k3⟩ := ih p1 vs h3
    exact ⟨b :: flags, ⟨p1, h1, k1⟩, by simp [k2], by simp [k3]⟩

end Goorc
