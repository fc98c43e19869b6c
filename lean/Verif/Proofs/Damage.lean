import Verif.Spec.Damage
import Verif.Props.ReadAny
/-
Lemmas about reading flat tables from files that may be anything, without panics.
-/
namespace Goorc

/-- Outcomes: what is returned satisfies `P`, and there is no panic. -/
def Res.Quiet {α : Type} (r : Res α) (P : α → Prop) : Prop :=
  match r with
  | .ok a => P a
  | .panic => False
  | _ => True

namespace Res.Quiet

variable {α β : Type} {P : α → Prop} {Q : β → Prop}

theorem bind {x : Res α} {f : α → Res β} (h : x.Quiet P) (hf : ∀ a, P a → (f a).Quiet Q) : (x >>= f).Quiet Q := by
  cases x with
  | ok a => exact hf a h
  | err e => trivial
  | panic => exact h
  | hang => trivial

theorem not_panic {x : Res α} (h : x.Quiet P) : x ≠ .panic := fun e => by rw [e] at h; exact h

theorem mono {x : Res α} {P' : α → Prop} (h : x.Quiet P) (hp : ∀ a, P a → P' a) : x.Quiet P' := by
  cases x with
  | ok a => exact hp a h
  | err e => trivial
  | panic => exact h
  | hang => trivial

end Res.Quiet

theorem Res.Sat.quiet {α : Type} {x : Res α} {P : α → Prop} (h : x.Sat false P) : x.Quiet P := by
  cases x with
  | ok a => exact h
  | err e => trivial
  | panic => cases h
  | hang => trivial

/-- Every sequence of calls on a column reader, of which seeks go to the start only, is orderly. -/
def ReadKind.Calm {ρ : Type} (R : ReadKind ρ) (c : Codec) (r : ColReader ρ) : Prop :=
  ∀ ops, (∀ k, SeekOp.seek k ∈ ops → k = 0) → R.roam c r ops ≠ .panic

theorem Res.quiet_of {α : Type} {x : Res α} {P : α → Prop} (h : x ≠ .panic) (hp : ∀ a, x = .ok a → P a) : x.Quiet P := by
  cases x with
  | ok a => exact hp a rfl
  | err e => trivial
  | panic => exact h rfl
  | hang => trivial

theorem ReadKind.Robust.calm {ρ : Type} {R : ReadKind ρ} (h : R.Robust) {c : Codec} {kind : CompKind} {hasNulls : Bool} {streams : List (StreamKind × StreamReader)}
    {r : ColReader ρ} (index : Option (List (List Nat))) (hs : ∀ s ∈ streams, s.2.Sane) (ho : R.openCol kind hasNulls streams = some r) :
    R.Calm c { r with index := index } :=
  fun ops hops => (h c kind hasNulls streams r index ops hs ho fun k hk => .inl (hops k hk)).1

namespace ReadKind.Calm

variable {ρ : Type} {R : ReadKind ρ} {c : Codec} {r : ColReader ρ}

theorem next (h : R.Calm c r) (vec : List Value) : (R.nextBatch c r vec).Quiet fun q => q.1.length = vec.length ∧ R.Calm c q.2 := by
  refine Res.quiet_of (fun hh => h [.batch vec] (by simp) ?_) fun q hq => ⟨?_, fun ops ho hh => h (.batch vec :: ops) (by simpa using ho) ?_⟩
  · rw [ReadKind.roam, hh]; rfl
  · rw [ReadKind.nextBatch] at hq
    obtain ⟨d, -, hq⟩ := Res.bind_ok_inv hq
    exact R.nextRows_length c vec _ q.2 q.1 hq
  · rw [ReadKind.roam, hq]
    simp only [Res.ok_bind, hh, Res.panic_bind]

theorem skip (h : R.Calm c r) (n : Nat) : (R.skipRows c n r).Quiet fun r' => R.Calm c r' := by
  refine Res.quiet_of (fun hh => h [.skip n] (by simp) ?_) fun q hq ops ho hh => h (.skip n :: ops) (by simpa using ho) ?_
  · rw [ReadKind.roam, hh]; rfl
  · rw [ReadKind.roam, hq]
    simp only [Res.ok_bind, hh]

theorem seek (h : R.Calm c r) : (R.seekStride c r 0).Quiet fun r' => R.Calm c r' := by
  refine Res.quiet_of (fun hh => h [.seek 0] (by simp) ?_) fun q hq ops ho hh => h (.seek 0 :: ops) ?_ ?_
  · rw [ReadKind.roam, hh]; rfl
  · intro k hk
    rcases List.mem_cons.1 hk with hk | hk
    · cases hk; rfl
    · exact ho k hk
  · rw [ReadKind.roam, hq]
    simp only [Res.ok_bind, hh]

end ReadKind.Calm

/-! ### Vectors -/

/-- A field all of whose rows are `n`. -/
def Vec.FieldAt (rows n : Nat) (v : Vec) : Prop := ∃ id k s, v = .mk id k (some s) [] ∧ k.nested = false ∧ s.arr.length = rows ∧ s.len = n ∧ n ≤ rows

theorem Vec.FieldAt.field {rows n : Nat} {v : Vec} (h : v.FieldAt rows n) : v.Field rows := by
  obtain ⟨id, k, s, h1, h2, h3, -, -⟩ := h
  exact ⟨id, k, s, h1, h2, h3⟩

/-- The vector of a table all of whose parts have `n` rows. -/
def Vec.TabularAt (flags : Bool) (fields rows n : Nat) (v : Vec) : Prop :=
  ∃ s cs, v = .mk 0 .struct s cs ∧ (if flags then ∃ a, s = some a ∧ a.arr.length = rows ∧ a.len = n ∧ n ≤ rows else s = none) ∧ fields ≤ cs.length ∧ ∀ c ∈ cs, c.FieldAt rows n

theorem Vec.TabularAt.tabular {flags : Bool} {fields rows n : Nat} {v : Vec} (h : v.TabularAt flags fields rows n) : v.Tabular flags fields rows := by
  obtain ⟨s, cs, h1, h2, h3, h4⟩ := h
  refine ⟨s, cs, h1, ?_, h3, fun c hc => (h4 c hc).field⟩
  cases flags with
  | true => obtain ⟨a, g1, g2, -, -⟩ := h2; exact ⟨a, g1, g2⟩
  | false => exact h2

/-- The number of rows is `n`, or nothing has rows. -/
theorem Vec.TabularAt.len {flags : Bool} {fields rows n : Nat} {v : Vec} (h : v.TabularAt flags fields rows n) : v.len ≤ n := by
  obtain ⟨s, cs, rfl, h2, -, h4⟩ := h
  cases flags with
  | true =>
    obtain ⟨a, rfl, g2, g3, g4⟩ := h2
    rw [Vec.len.eq_def]
    simp only [Option.map_some, Option.getD_some, g3]
    split
    · exact Nat.le_refl _
    · cases cs with
      | nil => exact Nat.zero_le _
      | cons c cs =>
        obtain ⟨id, k, b, rfl, -, -, h, -⟩ := h4 c (by simp)
        simp only [Vec.len.eq_def (.mk id k (some b) []), Option.map_some, Option.getD_some, h]
        split <;> omega
  | false =>
    simp only [Bool.false_eq_true, if_false] at h2
    subst h2
    rw [Vec.len.eq_def]
    cases cs with
    | nil => simp
    | cons c cs =>
      obtain ⟨id, k, b, rfl, -, -, h, -⟩ := h4 c (by simp)
      simp only [Option.map_none, Option.getD_none, ne_eq, not_true_eq_false, if_false]
      simp only [Vec.len.eq_def (.mk id k (some b) []), Option.map_some, Option.getD_some, h]
      split <;> omega

/-- The vector's capacity is the room of its parts, unless it has none. -/
theorem Vec.Tabular.cap {flags : Bool} {fields rows : Nat} {v : Vec} (h : v.Tabular flags fields rows) : v.cap ≤ rows := by
  obtain ⟨s, cs, rfl, h2, -, h4⟩ := h
  cases flags with
  | true =>
    obtain ⟨a, rfl, g2⟩ := h2
    rw [Vec.cap, g2]
    exact Nat.le_refl _
  | false =>
    simp only [Bool.false_eq_true, if_false] at h2
    subst h2
    rw [Vec.cap.eq_def]
    cases cs with
    | nil => simp
    | cons c cs =>
      obtain ⟨id, k, b, rfl, -, h⟩ := h4 c (by simp)
      simp [Vec.cap, h]

theorem resize_quiet {n : Nat} {s : Slice} (h : n ≤ s.arr.length) : resize n (some s) = .ok (some { s with len := n }) := by
  rw [resize, if_pos ⟨by omega, by omega⟩]
  rfl

theorem setVectorSizes_fields (hasNulls : List Bool) (rows n : Nat) (hn : n ≤ rows) : ∀ cs : List Vec, (∀ c ∈ cs, c.Field rows) →
    (setVectorSizes hasNulls n cs).Quiet fun cs' => cs'.length = cs.length ∧ ∀ c ∈ cs', c.FieldAt rows n := by
  intro cs
  induction cs with
  | nil => intro _; exact ⟨rfl, fun _ h => nomatch h⟩
  | cons c cs ih =>
    intro h
    rw [setVectorSizes]
    refine Res.Quiet.bind (P := fun v => v.FieldAt rows n) ?_ fun v hv => (ih fun d hd => h d (by simp [hd])).bind fun vs hvs => ?_
    · obtain ⟨id, k, s, rfl, g1, g2⟩ := h c (by simp)
      have hr : resize n (some s) = .ok (some { s with len := n }) := resize_quiet (by omega)
      cases k <;> first | (cases g1; done) | skip
      all_goals
        rw [setVectorSize.eq_def]
        simp only [hr, Res.ok_bind]
        exact ⟨_, _, _, rfl, rfl, g2, rfl, hn⟩
    · refine ⟨by simp [hvs.1], fun d hd => ?_⟩
      rcases List.mem_cons.1 hd with rfl | hd
      · exact hv
      · exact hvs.2 d hd

theorem setVectorSize_table {hasNulls : List Bool} {flags : Bool} {fields rows n : Nat} {v : Vec} (h0 : hasNulls[0]? = some flags) (hn : n ≤ rows)
    (h : v.Tabular flags fields rows) : (setVectorSize hasNulls n v).Quiet fun v' => v'.TabularAt flags fields rows n := by
  obtain ⟨s, cs, rfl, h2, h3, h4⟩ := h
  rw [setVectorSize.eq_def]
  simp only [h0]
  refine Res.Quiet.bind (P := fun s' => if flags then ∃ a, s' = some a ∧ a.arr.length = rows ∧ a.len = n ∧ n ≤ rows else s' = none) ?_ fun s' hs' =>
    (setVectorSizes_fields hasNulls rows n hn cs h4).bind fun cs' hcs' => ⟨s', cs', rfl, hs', by omega, hcs'.2⟩
  cases flags with
  | true =>
    obtain ⟨a, rfl, g2⟩ := h2
    simp only [if_true]
    rw [resize_quiet (by omega)]
    exact ⟨_, rfl, g2, rfl, hn⟩
  | false =>
    simp only [Bool.false_eq_true, if_false] at h2 ⊢
    exact h2

theorem clear_table {flags : Bool} {fields rows : Nat} {v : Vec} (h : v.Tabular flags fields rows) : v.clear.Quiet fun v' => v'.TabularAt flags fields rows 0 := by
  obtain ⟨s, cs, rfl, h2, h3, h4⟩ := h
  rw [Vec.clear]
  have hall : ∀ cs : List Vec, (∀ c ∈ cs, c.Field rows) → (clearAll cs).Quiet fun cs' => cs'.length = cs.length ∧ ∀ c ∈ cs', c.FieldAt rows 0 := by
    intro cs
    induction cs with
    | nil => intro _; exact ⟨rfl, fun _ h => nomatch h⟩
    | cons c cs ih =>
      intro h
      rw [clearAll]
      refine Res.Quiet.bind (P := fun v => v.FieldAt rows 0) ?_ fun v hv => (ih fun d hd => h d (by simp [hd])).bind fun vs hvs => ?_
      · obtain ⟨id, k, s, rfl, g1, g2⟩ := h c (by simp)
        exact ⟨id, k, { s with len := 0 }, rfl, g1, g2, rfl, Nat.zero_le _⟩
      · refine ⟨by simp [hvs.1], fun d hd => ?_⟩
        rcases List.mem_cons.1 hd with rfl | hd
        · exact hv
        · exact hvs.2 d hd
  refine (hall cs h4).bind fun cs' hcs' => ⟨_, cs', rfl, ?_, by omega, hcs'.2⟩
  cases flags with
  | true =>
    obtain ⟨a, rfl, g2⟩ := h2
    exact ⟨_, rfl, g2, rfl, Nat.zero_le _⟩
  | false =>
    simp only [Bool.false_eq_true, if_false] at h2 ⊢
    rw [h2]
    rfl

/-! ### Readers -/

/-- A reader of a field. -/
def LeafCalm (c : Codec) : (n : Nat) → Rd n → Prop
  | 0, _ => False
  | n + 1, x => ∃ (t : LeafTag) (r : ColReader t.ρ), x = (RdNode.leaf t r : RdNode (Rd n)) ∧ t.read.Calm c r

/-- A reader of a table. -/
def TableCalm (c : Codec) (fields : Nat) : (n : Nat) → Rd n → Prop
  | 0, _ => False
  | n + 1, x => ∃ kind p i cs, x = (RdNode.struct kind p i cs : RdNode (Rd n)) ∧ FlagsSane p ∧ cs.length ≤ fields ∧ ∀ y ∈ cs, LeafCalm c n y

section
variable {c : Codec} {fuel : Nat}

theorem leaf_next_quiet {n : Nat} {x : Rd n} (h : LeafCalm c n x) {v : Vec} {rows m : Nat} (hv : v.FieldAt rows m) :
    ((rdOps c fuel n).nextBatch x v).Quiet fun q => q.1.FieldAt rows m ∧ LeafCalm c n q.2 := by
  cases n with
  | zero => exact h.elim
  | succ n =>
    obtain ⟨t, r, rfl, hr⟩ := h
    obtain ⟨id, k, s, rfl, g1, g2, g3, g4⟩ := hv
    show (RdNode.nextBatch (rdOps c fuel n) c fuel (.leaf t r) _).Quiet _
    rw [RdNode.nextBatch]
    refine Res.Quiet.bind (P := fun q : Vec × ColReader t.ρ => q.1.FieldAt rows m ∧ t.read.Calm c q.2) ?_ fun q hq => ⟨hq.1, t, q.2, rfl, hq.2⟩
    rw [leafBatch]
    refine (hr.next _).bind fun q hq => ⟨⟨id, k, s.update q.1, rfl, g1, ?_, g3, g4⟩, hq.2⟩
    have : q.1.length = m := by
      rw [hq.1]
      simp [visibleRows, Slice.visible, g2, g3, g4]
    simp only [Slice.update, List.length_append, List.length_drop]
    omega

theorem leaf_skip_quiet {n : Nat} {x : Rd n} (h : LeafCalm c n x) (m : Nat) : ((rdOps c fuel n).skip x m).Quiet fun q => LeafCalm c n q := by
  cases n with
  | zero => exact h.elim
  | succ n =>
    obtain ⟨t, r, rfl, hr⟩ := h
    show (RdNode.skip (rdOps c fuel n) c fuel (.leaf t r) _).Quiet _
    rw [RdNode.skip]
    exact (hr.skip m).bind fun q hq => ⟨t, q, rfl, hq⟩

theorem leaf_seek_quiet {n : Nat} {x : Rd n} (h : LeafCalm c n x) : ((rdOps c fuel n).seekStride x 0).Quiet fun q => LeafCalm c n q := by
  cases n with
  | zero => exact h.elim
  | succ n =>
    obtain ⟨t, r, rfl, hr⟩ := h
    show (RdNode.seekStride (rdOps c fuel n) c fuel (.leaf t r) _).Quiet _
    rw [RdNode.seekStride]
    exact hr.seek.bind fun q hq => ⟨t, q, rfl, hq⟩

theorem childBatches_quiet {n rows m : Nat} : ∀ (xs : List (Rd n)) (vs : List Vec), (∀ x ∈ xs, LeafCalm c n x) → (∀ v ∈ vs, v.FieldAt rows m) → xs.length ≤ vs.length →
    (childBatches (rdOps c fuel n) xs vs).Quiet fun q => q.1.length = vs.length ∧ q.2.length = xs.length ∧ (∀ v ∈ q.1, v.FieldAt rows m) ∧ ∀ x ∈ q.2, LeafCalm c n x := by
  intro xs
  induction xs with
  | nil => intro vs _ hv _; exact ⟨rfl, rfl, hv, fun _ h => nomatch h⟩
  | cons x xs ih =>
    intro vs hx hv hl
    cases vs with
    | nil => simp at hl
    | cons v vs =>
      rw [childBatches]
      refine (leaf_next_quiet (hx x (by simp)) (hv v (by simp))).bind fun q hq =>
        (ih vs (fun y hy => hx y (by simp [hy])) (fun y hy => hv y (by simp [hy])) (by simpa using hl)).bind fun r hr => ?_
      refine ⟨by simp [hr.1], by simp [hr.2.1], ?_, ?_⟩
      · intro y hy
        rcases List.mem_cons.1 hy with rfl | hy
        · exact hq.1
        · exact hr.2.2.1 y hy
      · intro y hy
        rcases List.mem_cons.1 hy with rfl | hy
        · exact hq.2
        · exact hr.2.2.2 y hy

theorem readFlags_quiet : ∀ (vs : List Value) (p : BoolReader), p.reader.stream.Sane →
    (readFlags c p vs).Quiet fun q => q.1.length = vs.length ∧ q.2.reader.stream.Sane := by
  intro vs
  induction vs with
  | nil => intro p h; exact ⟨rfl, h⟩
  | cons v vs ih =>
    intro p h
    rw [readFlags]
    exact (bool_next_sat p h).quiet.bind fun q hq => (ih q.2 hq).bind fun r hr => ⟨by simp [hr.1], hr.2⟩

theorem fillDownAll_quiet {rows m : Nat} (flags : List Bool) (hf : flags.length ≤ m) : ∀ cs : List Vec, (∀ v ∈ cs, v.FieldAt rows m) →
    (fillDownAll flags cs).Quiet fun cs' => cs'.length = cs.length ∧ ∀ v ∈ cs', v.FieldAt rows m := by
  intro cs
  induction cs with
  | nil => intro _; exact ⟨rfl, fun _ h => nomatch h⟩
  | cons c cs ih =>
    intro h
    rw [fillDownAll]
    refine Res.Quiet.bind (P := fun v => v.FieldAt rows m) ?_ fun v hv => (ih fun d hd => h d (by simp [hd])).bind fun vs hvs => ?_
    · obtain ⟨id, k, s, rfl, g1, g2, g3, g4⟩ := h c (by simp)
      have hvis : (visibleRows (some s)).length = m := by simp [visibleRows, Slice.visible, g2, g3, g4]
      rw [fillDown, setNulls, if_pos (by omega)]
      refine ⟨id, k, s.update _, rfl, g1, ?_, g3, g4⟩
      simp only [Slice.update, List.length_append, List.length_drop, List.length_zipWith, hvis]
      omega
    · refine ⟨by simp [hvs.1], fun d hd => ?_⟩
      rcases List.mem_cons.1 hd with rfl | hd
      · exact hv
      · exact hvs.2 d hd

theorem table_next_quiet {n fields : Nat} {x : Rd n} (h : TableCalm c fields n x) {flags : Bool} {v : Vec} {rows m : Nat} (hv : v.TabularAt flags fields rows m) :
    ((rdOps c fuel n).nextBatch x v).Quiet fun q => q.1.TabularAt flags fields rows m ∧ TableCalm c fields n q.2 := by
  cases n with
  | zero => exact h.elim
  | succ n =>
    obtain ⟨kind, p, i, xs, rfl, hp, hl, hx⟩ := h
    show (RdNode.nextBatch (rdOps c fuel n) c fuel (.struct kind p i xs) _).Quiet _
    rw [RdNode.nextBatch]
    refine Res.Quiet.bind (P := fun q : Vec × Option BoolReader × List (Rd n) => q.1.TabularAt flags fields rows m ∧ FlagsSane q.2.1 ∧ q.2.2.length = xs.length ∧ ∀ y ∈ q.2.2, LeafCalm c n y) ?_
      fun q hq => ⟨hq.1, kind, q.2.1, i, q.2.2, rfl, hq.2.1, by omega, hq.2.2.2⟩
    obtain ⟨s, cs, rfl, h2, h3, h4⟩ := hv
    rw [structBatch.eq_def]
    refine Res.Quiet.bind (P := fun q : Vec × Option BoolReader => q.1.TabularAt flags fields rows m ∧ FlagsSane q.2) ?_ fun q hq => ?_
    · cases p with
      | none => exact ⟨⟨s, cs, rfl, h2, h3, h4⟩, nofun⟩
      | some p =>
        refine (readFlags_quiet (visibleRows s) p (hp p rfl)).bind fun r hr => ?_
        simp only
        have hrows : (visibleRows (updateRows s r.1)).length ≤ m ∧ (if flags then ∃ a, updateRows s r.1 = some a ∧ a.arr.length = rows ∧ a.len = m ∧ m ≤ rows else updateRows s r.1 = none) := by
          cases flags with
          | true =>
            obtain ⟨a, rfl, g2, g3, g4⟩ := h2
            have : r.1.length = m := by rw [hr.1]; simp [visibleRows, Slice.visible, g2, g3, g4]
            have harr : (a.update r.1).arr.length = rows := by
              simp only [Slice.update, List.length_append, List.length_drop]
              omega
            refine ⟨?_, a.update r.1, rfl, harr, g3, g4⟩
            simp only [updateRows, Option.map_some, visibleRows, Slice.visible, List.length_take]
            have : (a.update r.1).len = m := g3
            omega
          | false =>
            simp only [Bool.false_eq_true, if_false] at h2
            subst h2
            exact ⟨Nat.zero_le _, rfl⟩
        refine Res.Quiet.bind (P := fun v => v.TabularAt flags fields rows m) ?_ fun v hv => ⟨hv, fun b hb => by cases hb; exact hr.2⟩
        rw [fillNulls]
        exact (fillDownAll_quiet _ (by simpa using hrows.1) cs h4).bind fun cs' hcs' => ⟨_, cs', rfl, hrows.2, by omega, hcs'.2⟩
    · obtain ⟨v', p'⟩ := q
      obtain ⟨⟨s', cs', rfl, g2, g3, g4⟩, hp'⟩ := hq
      exact (childBatches_quiet xs cs' hx g4 (by omega)).bind fun r hr => ⟨⟨s', r.1, rfl, g2, by omega, hr.2.2.1⟩, hp', hr.2.1, hr.2.2.2⟩

theorem skipAll_quiet {n : Nat} (m : Nat) : ∀ xs : List (Rd n), (∀ x ∈ xs, LeafCalm c n x) →
    (skipAll (rdOps c fuel n) m xs).Quiet fun ys => ys.length = xs.length ∧ ∀ y ∈ ys, LeafCalm c n y := by
  intro xs
  induction xs with
  | nil => intro _; exact ⟨rfl, fun _ h => nomatch h⟩
  | cons x xs ih =>
    intro h
    rw [skipAll]
    refine (leaf_skip_quiet (h x (by simp)) m).bind fun y hy => (ih fun z hz => h z (by simp [hz])).bind fun ys hys => ⟨by simp [hys.1], ?_⟩
    intro z hz
    rcases List.mem_cons.1 hz with rfl | hz
    · exact hy
    · exact hys.2 z hz

theorem seekAll_quiet {n : Nat} : ∀ xs : List (Rd n), (∀ x ∈ xs, LeafCalm c n x) →
    (seekAll (rdOps c fuel n) 0 xs).Quiet fun ys => ys.length = xs.length ∧ ∀ y ∈ ys, LeafCalm c n y := by
  intro xs
  induction xs with
  | nil => intro _; exact ⟨rfl, fun _ h => nomatch h⟩
  | cons x xs ih =>
    intro h
    rw [seekAll]
    refine (leaf_seek_quiet (h x (by simp))).bind fun y hy => (ih fun z hz => h z (by simp [hz])).bind fun ys hys => ⟨by simp [hys.1], ?_⟩
    intro z hz
    rcases List.mem_cons.1 hz with rfl | hz
    · exact hy
    · exact hys.2 z hz

theorem structSkip_quiet {n : Nat} : ∀ (m : Nat) (p : Option BoolReader) (xs : List (Rd n)), FlagsSane p → (∀ x ∈ xs, LeafCalm c n x) →
    (structSkip (rdOps c fuel n) c m p xs).Quiet fun q => FlagsSane q.1 ∧ q.2.length = xs.length ∧ ∀ x ∈ q.2, LeafCalm c n x := by
  intro m
  induction m with
  | zero => intro p xs h1 h2; exact ⟨h1, rfl, h2⟩
  | succ m ih =>
    intro p xs h1 h2
    rw [structSkip]
    refine Res.Quiet.bind (P := fun q : Bool × Option BoolReader => FlagsSane q.2) ?_ fun q hq => ?_
    · cases p with
      | none => exact nofun
      | some p => exact (bool_next_sat p (h1 p rfl)).quiet.bind fun q hq => fun b hb => by cases hb; exact hq
    · obtain ⟨b, p'⟩ := q
      cases b with
      | false => exact ih p' xs hq h2
      | true =>
        exact (skipAll_quiet 1 xs h2).bind fun ys hys => (ih p' ys hq hys.2).mono fun r hr => ⟨hr.1, by omega, hr.2.2⟩

theorem table_skip_quiet {n fields : Nat} {x : Rd n} (h : TableCalm c fields n x) (m : Nat) : ((rdOps c fuel n).skip x m).Quiet fun q => TableCalm c fields n q := by
  cases n with
  | zero => exact h.elim
  | succ n =>
    obtain ⟨kind, p, i, xs, rfl, hp, hl, hx⟩ := h
    show (RdNode.skip (rdOps c fuel n) c fuel (.struct kind p i xs) _).Quiet _
    rw [RdNode.skip]
    exact (structSkip_quiet m p xs hp hx).bind fun q hq => ⟨kind, q.1, i, q.2, rfl, hq.1, by omega, hq.2.2⟩

theorem table_seek_quiet {n fields : Nat} {x : Rd n} (h : TableCalm c fields n x) : ((rdOps c fuel n).seekStride x 0).Quiet fun q => TableCalm c fields n q := by
  cases n with
  | zero => exact h.elim
  | succ n =>
    obtain ⟨kind, p, i, xs, rfl, hp, hl, hx⟩ := h
    show (RdNode.seekStride (rdOps c fuel n) c fuel (.struct kind p i xs) _).Quiet _
    rw [RdNode.seekStride]
    refine Res.Quiet.bind (P := FlagsSane) ?_ fun p' hp' => (seekAll_quiet xs hx).bind fun ys hys => ⟨kind, p', i, ys, rfl, hp', by omega, hys.2⟩
    rw [if_pos rfl]
    cases p with
    | none => exact nofun
    | some p =>
      rw [seekFlags]
      refine Res.Quiet.bind (P := fun b : BoolReader => b.reader.stream.Sane) ?_ fun q hq => fun b hb => by cases hb; exact hq
      exact (bool_seek_sat 0 0 0 0 p (hp p rfl)).quiet

end

/-! ### Batch readers -/

/-- What holds of a batch reader of a table between calls. -/
def BatchCalm (c : Codec) (n fields : Nat) (hasNulls : List Bool) (stride : Nat) (br : BatchReader (Rd n)) : Prop :=
  br.indexStride = stride ∧ ∀ s ∈ br.stripes, s.hasNulls = hasNulls ∧ s.cursor ≤ s.numberOfRows ∧ ∃ x, s.reader = some x ∧ TableCalm c fields n x

/-- A batch reader that has a stripe to read from, or that has reached its end from the start. -/
def Seated {χ : Type} (br : BatchReader χ) : Prop := 0 ≤ br.stripeIndex ∧ (br.stripes ≠ [] ∨ br.numberOfRows ≤ 1)

section
variable {c : Codec} {n fields stride : Nat} {hasNulls : List Bool} {flags : Bool} {rows : Nat}

theorem stripe_next_quiet (X : Nat) (h0 : hasNulls[0]? = some flags) (s : StripeReader (Rd n)) (v : Vec) (h1 : s.hasNulls = hasNulls) (h2 : s.cursor ≤ s.numberOfRows)
    (h3 : ∃ x, s.reader = some x ∧ TableCalm c fields n x) (hv : v.Tabular flags fields rows) (hlen : v.len ≤ v.cap) :
    (s.next (rdOps c X n) v).Quiet fun q => q.2.1.Tabular flags fields rows ∧
      q.2.2.hasNulls = hasNulls ∧ q.2.2.cursor ≤ q.2.2.numberOfRows ∧ ∃ x, q.2.2.reader = some x ∧ TableCalm c fields n x := by
  obtain ⟨x, hx, hc⟩ := h3
  rw [StripeReader.next, StripeReader.prepareVector]
  have hcap := hv.cap
  have hm : ∃ m : Nat, (if (s.numberOfRows : Int) - s.cursor < (v.cap : Int) - v.len then (s.numberOfRows : Int) - s.cursor else (v.cap : Int) - v.len) = m ∧
      m ≤ rows ∧ s.cursor + m ≤ s.numberOfRows := by
    split
    · exact ⟨s.numberOfRows - s.cursor, by omega, by omega, by omega⟩
    · exact ⟨v.cap - v.len, by omega, by omega, by omega⟩
  obtain ⟨m, e, hm1, hm2⟩ := hm
  simp only [e, h1]
  refine (setVectorSize_table h0 hm1 hv).bind fun v1 hv1 => ?_
  simp only [hx]
  refine (table_next_quiet hc hv1).bind fun q hq => ⟨hq.1.tabular, rfl, ?_, q.2, rfl, hq.2⟩
  have := hq.1.len
  simp only
  omega

theorem nextLoop_quiet (X : Nat) (h0 : hasNulls[0]? = some flags) : ∀ (fuel : Nat) (br : BatchReader (Rd n)) (v : Vec), BatchCalm c n fields hasNulls stride br → (0 ≤ br.stripeIndex ∧ br.stripes ≠ []) →
    v.Tabular flags fields rows → v.len ≤ v.cap →
    (br.nextLoop (rdOps c X n) fuel v).Quiet fun q => BatchCalm c n fields hasNulls stride q.2 ∧ 0 ≤ q.2.stripeIndex ∧ q.2.stripes ≠ [] := by
  intro fuel
  induction fuel with
  | zero =>
    intro br v h hb hv hlen
    rw [BatchReader.nextLoop.eq_def]
    simp only
    rw [if_neg (by have := hb.1; omega)]
    split
    · exact ⟨h, hb⟩
    · trivial
  | succ fuel ih =>
    intro br v h hb hv hlen
    rw [BatchReader.nextLoop.eq_def]
    simp only
    rw [if_neg (by have := hb.1; omega)]
    split
    · exact ⟨h, hb⟩
    · rename_i s hs
      obtain ⟨h1, h2, h3⟩ := h.2 s (List.mem_of_getElem? hs)
      refine (stripe_next_quiet X h0 s v h1 h2 h3 hv hlen).bind fun q hq => ?_
      obtain ⟨stripeEnd, v', s'⟩ := q
      obtain ⟨g1, g2, g3, g4⟩ := hq
      simp only at g1 g2 g3 g4 ⊢
      have hbr : BatchCalm c n fields hasNulls stride { br with stripes := br.stripes.set br.stripeIndex.toNat s' } := by
        refine ⟨h.1, fun t ht => ?_⟩
        rcases List.mem_or_eq_of_mem_set ht with ht | rfl
        · exact h.2 t ht
        · exact ⟨g2, g3, g4⟩
      have hset : br.stripes.set br.stripeIndex.toNat s' ≠ [] := fun e => hb.2 ((List.set_eq_nil_iff _ _).1 e)
      split
      · exact ⟨hbr, by have := hb.1; simp only; omega, hset⟩
      · split
        · exact ⟨hbr, hb.1, hset⟩
        · exact ih _ v' hbr ⟨hb.1, hset⟩ g1 (by omega)

theorem next_quiet (X : Nat) (h0 : hasNulls[0]? = some flags) (fuel : Nat) (br : BatchReader (Rd n)) (v : Vec) (h : BatchCalm c n fields hasNulls stride br)
    (hb : Seated br) (hv : v.Tabular flags fields rows) :
    (br.next (rdOps c X n) fuel v).Quiet fun q => BatchCalm c n fields hasNulls stride q.2.2 ∧ Seated q.2.2 := by
  rw [BatchReader.next]
  refine (clear_table hv).bind fun v' hv' => ?_
  split
  · exact ⟨h, hb⟩
  · rename_i hmore
    refine (nextLoop_quiet X h0 fuel br v' h ⟨hb.1, hb.2.resolve_right (by omega)⟩ hv'.tabular (by have := hv'.len; omega)).bind fun q hq => ?_
    obtain ⟨b, br'⟩ := q
    obtain ⟨h1, h2, h3⟩ := hq
    simp only at h1 h2 h3 ⊢
    split
    · rename_i hend
      refine ⟨h1, ?_, .inl h3⟩
      have := List.length_pos_iff.2 h3
      simp only
      omega
    · exact ⟨h1, h2, .inl h3⟩

theorem seek_quiet (X : Nat) (hstride : stride ≠ 0) (br : BatchReader (Rd n)) (row : Nat) (h : BatchCalm c n fields hasNulls stride br) :
    (br.seek (rdOps c X n) row).Quiet fun br' => BatchCalm c n fields hasNulls stride br' ∧ (Seated br → Seated br') := by
  rw [BatchReader.seek]
  split
  · trivial
  · have loop : ∀ (ss : List (StripeReader (Rd n))) (i k : Nat), (∀ s ∈ ss, s.hasNulls = hasNulls ∧ s.cursor ≤ s.numberOfRows ∧ ∃ x, s.reader = some x ∧ TableCalm c fields n x) →
        (br.seekLoop (rdOps c X n) row i k ss).Quiet fun br' => BatchCalm c n fields hasNulls stride br' ∧ (Seated br → Seated br') := by
      intro ss
      induction ss with
      | nil => intro i k _; trivial
      | cons s ss ih =>
        intro i k hs
        rw [BatchReader.seekLoop]
        split
        · obtain ⟨h1, h2, x, hx, hc⟩ := hs s (by simp)
          refine Res.Quiet.bind (P := fun s' : StripeReader (Rd n) => s'.hasNulls = hasNulls ∧ s'.cursor ≤ s'.numberOfRows ∧ ∃ x, s'.reader = some x ∧ TableCalm c fields n x) ?_ fun s' hs' => ?_
          · rw [StripeReader.seek]
            refine Res.Quiet.bind (P := fun _ => True) ?_ fun off _ => ?_
            · split
              · trivial
              · rw [if_neg (by rw [h.1]; exact hstride)]
                trivial
            · simp only [hx]
              exact (table_seek_quiet hc).bind fun y hy => (table_skip_quiet hy off).bind fun z hz => ⟨h1, h2, z, rfl, hz⟩
          · refine ⟨⟨h.1, fun t ht => ?_⟩, fun hb => ⟨hb.1, hb.2.imp (fun h e => h ((List.set_eq_nil_iff _ _).1 e)) id⟩⟩
            rcases List.mem_or_eq_of_mem_set ht with ht | rfl
            · exact h.2 t ht
            · exact hs'
        · exact ih _ _ fun t ht => hs t (by simp [ht])
    exact loop br.stripes 0 0 h.2

theorem run_quiet (X : Nat) (h0 : hasNulls[0]? = some flags) (fuel : Nat) : ∀ (ops : List FileOp) (br : BatchReader (Rd n)), BatchCalm c n fields hasNulls stride br → Seated br →
    (∀ v, FileOp.next v ∈ ops → ∃ rows, v.Tabular flags fields rows) → (∀ row, FileOp.seek row ∈ ops → stride ≠ 0) →
    (br.run (rdOps c X n) fuel ops).Quiet fun _ => True := by
  intro ops
  induction ops with
  | nil => intro br _ _ _ _; trivial
  | cons op ops ih =>
    intro br h hb hv hs
    have hv' : ∀ v, FileOp.next v ∈ ops → ∃ rows, v.Tabular flags fields rows := fun v hm => hv v (List.mem_cons_of_mem _ hm)
    have hs' : ∀ row, FileOp.seek row ∈ ops → stride ≠ 0 := fun row hm => hs row (List.mem_cons_of_mem _ hm)
    cases op with
    | next v =>
      rw [BatchReader.run]
      obtain ⟨rows, ht⟩ := hv v List.mem_cons_self
      exact (next_quiet X h0 fuel br v h hb ht).bind fun q hq => ih q.2.2 hq.1 hq.2 hv' hs'
    | seek row =>
      rw [BatchReader.run]
      exact (seek_quiet X (hs row List.mem_cons_self) br row h).bind fun br' hbr => ih br' hbr.1 (hbr.2 hb) hv' hs'

end

end Goorc
