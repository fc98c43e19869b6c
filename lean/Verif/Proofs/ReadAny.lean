import Verif.Spec.ReadAny
import Verif.Props.Robust
import Verif.Props.OpenAny
/-
Reading arbitrary files comes to an end: the proofs.
-/
namespace Goorc

/-! ### Vectors -/

/-- Two vectors of the same make as far as `Len` and `Cap` look at them; `R` relates the lengths. -/
inductive Vec.Like (R : Nat → Nat → Prop) : Vec → Vec → Prop
  | nil : Like R .nil .nil
  | some {id k s s' cs cs'} : R s.len s'.len → s'.arr.length = s.arr.length → Like R (.mk id k (.some s) cs) (.mk id k (.some s') cs')
  | leaf {id k} : Like R (.mk id k .none []) (.mk id k .none [])
  | first {id k c c' cs cs'} : Like R c c' → Like R (.mk id k .none (c :: cs)) (.mk id k .none (c' :: cs'))

/-- The same of the first of several vectors. -/
inductive Vec.LikeHead (R : Nat → Nat → Prop) : List Vec → List Vec → Prop
  | nil : LikeHead R [] []
  | cons {c c' cs cs'} : Like R c c' → LikeHead R (c :: cs) (c' :: cs')

namespace Vec.Like

variable {R : Nat → Nat → Prop}

theorem refl (hR : ∀ n, R n n) : ∀ v, Like R v v
  | .nil => .nil
  | .mk _ _ (.some _) _ => .some (hR _) rfl
  | .mk _ _ .none [] => .leaf
  | .mk _ _ .none (c :: _) => .first (refl hR c)

theorem trans (hR : ∀ a b c, R a b → R b c → R a c) {u v w : Vec} (h : Like R u v) : Like R v w → Like R u w := by
  induction h generalizing w with
  | nil => exact id
  | some h1 h2 => intro h; cases h with | some h3 h4 => exact .some (hR _ _ _ h1 h3) (h4.trans h2)
  | leaf => exact id
  | first _ ih => intro h; cases h with | first h => exact .first (ih h)

theorem mono {R' : Nat → Nat → Prop} (hR : ∀ a b, R a b → R' a b) {u v : Vec} (h : Like R u v) : Like R' u v := by
  induction h with
  | nil => exact .nil
  | some h1 h2 => exact .some (hR _ _ h1) h2
  | leaf => exact .leaf
  | first _ ih => exact .first ih

theorem cap {u v : Vec} (h : Like R u v) : v.cap = u.cap := by
  induction h with
  | nil => rfl
  | some _ h => exact h
  | leaf => rfl
  | first _ ih => exact ih

theorem agrees {hasNulls : List Bool} {u v : Vec} (h : Like R u v) (hu : u.Agrees hasNulls) : v.Agrees hasNulls := by
  induction h with
  | nil => trivial
  | some _ _ => exact hu
  | leaf => trivial
  | first _ ih => exact ih hu

end Vec.Like

theorem Vec.LikeHead.refl {R : Nat → Nat → Prop} (hR : ∀ n, R n n) (cs : List Vec) : LikeHead R cs cs := by
  cases cs with
  | nil => exact .nil
  | cons c cs => exact .cons (Like.refl hR c)

theorem Vec.LikeHead.trans {a b c : List Vec} (h : LikeHead Eq a b) (h' : LikeHead Eq b c) : LikeHead Eq a c := by
  cases h with
  | nil => exact h'
  | cons h => cases h' with | cons h' => exact .cons (h.trans (fun _ _ _ h1 h2 => h1.trans h2) h')

/-- Two slices of the same make. -/
def SliceLike (s s' : Option Slice) : Prop :=
  (s = none ∧ s' = none) ∨ ∃ a b, s = some a ∧ s' = some b ∧ b.len = a.len ∧ b.arr.length = a.arr.length

theorem Vec.Like.node {id : Nat} {k : TypeKind} {s s' : Option Slice} {cs cs' : List Vec} (h : SliceLike s s') (hc : s = none → LikeHead Eq cs cs') :
    Like Eq (.mk id k s cs) (.mk id k s' cs') := by
  rcases h with ⟨rfl, rfl⟩ | ⟨a, b, rfl, rfl, h1, h2⟩
  · cases hc rfl with
    | nil => exact .leaf
    | cons h => exact .first h
  · exact .some h1.symm h2

theorem SliceLike.update (s : Option Slice) (rows : List Value) (h : rows.length ≤ (visibleRows s).length) : SliceLike s (updateRows s rows) := by
  cases s with
  | none => exact .inl ⟨rfl, rfl⟩
  | some s =>
    refine .inr ⟨s, _, rfl, rfl, rfl, ?_⟩
    simp only [visibleRows, Slice.visible, List.length_take] at h
    simp only [Slice.update, List.length_append, List.length_drop]
    omega

/-- A vector with rows. -/
inductive Vec.Grown : Vec → Prop
  | some {id k s cs} : 1 ≤ s.len → Grown (.mk id k (.some s) cs)
  | first {id k c cs} : Grown c → Grown (.mk id k .none (c :: cs))

theorem Vec.Grown.len {v : Vec} (h : v.Grown) : 1 ≤ v.len := by
  induction h with
  | @some id k s cs h =>
    rw [Vec.len.eq_def]
    simp only [Option.map_some, Option.getD_some]
    rw [if_pos (by omega)]
    exact h
  | @first id k c cs _ ih =>
    rw [Vec.len.eq_def]
    simpa using ih

theorem Vec.Grown.like {u v : Vec} (h : u.Grown) (hl : Like Eq u v) : v.Grown := by
  induction hl with
  | nil => cases h
  | some h1 _ => cases h with | some h => exact .some (by omega)
  | leaf => cases h
  | first _ ih => cases h with | first h => exact .first (ih h)

/-- Any lengths. -/
def anyLen : Nat → Nat → Prop := fun _ _ => True

theorem resize_sat (n : Int) (s : Option Slice) : (resize n s).Sat true fun s' =>
    (s = none ∧ s' = none ∧ n = 0) ∨ ∃ a b, s = some a ∧ s' = some b ∧ b.arr = a.arr ∧ b.len = n.toNat := by
  cases s with
  | none =>
    rw [resize]
    split
    · exact .inl ⟨rfl, rfl, by assumption⟩
    · rfl
  | some s =>
    rw [resize]
    split
    · exact .inr ⟨s, _, rfl, rfl, rfl, rfl⟩
    · rfl

theorem emptyChild_sat (cs : List Vec) (i : Nat) : (emptyChild cs i).Sat true fun cs' => Vec.LikeHead anyLen cs cs' := by
  rw [emptyChild]
  split
  · rename_i id k s ds h
    show Vec.LikeHead anyLen cs _
    cases cs with
    | nil => simp at h
    | cons c cs =>
      cases i with
      | succ i => exact .cons (Vec.Like.refl (fun _ => trivial) c)
      | zero =>
        simp only [List.getElem?_cons_zero, Option.some.injEq] at h
        subst h
        refine .cons ?_
        cases s with
        | some s => exact .some trivial rfl
        | none => cases ds with
          | nil => exact .leaf
          | cons d ds => exact .first (Vec.Like.refl (fun _ => trivial) d)
  · rfl

mutual
/-- What `setVectorSize` does to a vector: it has rows afterwards, or no room for any. -/
theorem setVectorSize_sat (hasNulls : List Bool) (size : Int) : ∀ v, (setVectorSize hasNulls size v).Sat true fun v' =>
    Vec.Like anyLen v v' ∧ (v.Agrees hasNulls → 1 ≤ size → v'.Grown ∨ v'.cap = 0)
  | .nil => rfl
  | .mk id kind s cs => by
    -- columns that are not structs
    have other : ∀ {s' : Option Slice} {cs' : List Vec}, ((s = none ∧ s' = none ∧ size = 0) ∨ ∃ a b, s = some a ∧ s' = some b ∧ b.arr = a.arr ∧ b.len = size.toNat) →
        Vec.LikeHead anyLen cs cs' → Vec.Like anyLen (.mk id kind s cs) (.mk id kind s' cs') ∧
          (Vec.Agrees hasNulls (.mk id kind s cs) → 1 ≤ size → (Vec.mk id kind s' cs').Grown ∨ (Vec.mk id kind s' cs').cap = 0) := by
      rintro s' cs' (⟨rfl, rfl, h⟩ | ⟨a, b, rfl, rfl, h1, h2⟩) hc
      · refine ⟨?_, fun _ h' => by omega⟩
        cases hc with
        | nil => exact .leaf
        | cons h => exact .first h
      · exact ⟨.some trivial (by rw [h1]), fun _ h' => .inl (.some (by omega))⟩
    have hr := resize_sat size s
    have leaf : (resize size s >>= fun s => pure (Vec.mk id kind s cs)).Sat true fun v' =>
        Vec.Like anyLen (.mk id kind s cs) v' ∧ (Vec.Agrees hasNulls (.mk id kind s cs) → 1 ≤ size → v'.Grown ∨ v'.cap = 0) :=
      hr.bind fun s' _ h => other h (Vec.LikeHead.refl (fun _ => trivial) cs)
    rw [setVectorSize.eq_def]
    cases kind with
    | struct =>
      simp only
      split
      · rfl
      · rename_i h hh
        have kids := setVectorSizes_sat hasNulls size cs
        cases h with
        | true =>
          simp only [if_true]
          refine hr.bind fun s' _ hs => kids.bind fun cs' _ hc => other hs hc.1
        | false =>
          simp only [Bool.false_eq_true, if_false, Res.pure_eq, Res.ok_bind]
          refine kids.bind fun cs' _ hc => ?_
          cases s with
          | some s => exact ⟨.some trivial rfl, fun ha => by have := ha rfl; rw [hh] at this; cases this⟩
          | none =>
            cases cs with
            | nil =>
              cases hc.1 with
              | nil => exact ⟨.leaf, fun _ _ => .inr rfl⟩
            | cons c rest =>
              obtain ⟨hl, hg⟩ := hc
              cases hl with
              | cons hl =>
                refine ⟨.first hl, fun ha h1 => ?_⟩
                obtain ⟨c', rest', e, h2⟩ := hg c rest rfl ha h1
                cases e
                rcases h2 with h2 | h2
                · exact .inl (.first h2)
                · exact .inr h2
    | list => exact hr.bind fun s' _ hs => (emptyChild_sat cs 0).bind fun cs' _ hc => other hs hc
    | map =>
      refine hr.bind fun s' _ hs => (emptyChild_sat cs 0).bind fun cs' _ hc => (emptyChild_sat cs' 1).bind fun cs'' _ hc' => other hs ?_
      cases hc with
      | nil => exact hc'
      | cons h => cases hc' with | cons h' => exact .cons (h.trans (fun _ _ _ _ _ => trivial) h')
    | union => rfl
    | _ => exact leaf

theorem setVectorSizes_sat (hasNulls : List Bool) (size : Int) : ∀ cs, (setVectorSizes hasNulls size cs).Sat true fun cs' => Vec.LikeHead anyLen cs cs' ∧
    ∀ c rest, cs = c :: rest → c.Agrees hasNulls → 1 ≤ size → ∃ c' rest', cs' = c' :: rest' ∧ (c'.Grown ∨ c'.cap = 0)
  | [] => ⟨.nil, nofun⟩
  | c :: rest => by
    rw [setVectorSizes]
    refine (setVectorSize_sat hasNulls size c).bind fun c' _ hc => ?_
    refine (setVectorSizes_sat hasNulls size rest).bind fun rest' _ _ => ?_
    refine ⟨.cons hc.1, fun d r e ha h1 => ?_⟩
    cases e
    exact ⟨c', rest', rfl, hc.2 ha h1⟩
end

mutual
theorem clear_sat : ∀ v : Vec, v.clear.Sat true fun v' => Vec.Like anyLen v v' ∧ v'.len = 0
  | .nil => rfl
  | .mk id k s cs => by
    rw [Vec.clear]
    refine (clearAll_sat cs).bind fun cs' _ hc => ⟨?_, ?_⟩
    · cases s with
      | some s => exact .some trivial rfl
      | none => cases hc.1 with
        | nil => exact .leaf
        | cons h => exact .first h
    · have : ((s.map fun s => ({ s with len := 0 } : Slice)).map (·.len)).getD 0 = 0 := by cases s <;> rfl
      rw [Vec.len.eq_def]
      simp only
      rw [if_neg (by rw [this]; simp)]
      cases cs' with
      | nil => rfl
      | cons c rest => exact hc.2 c rest rfl

theorem clearAll_sat : ∀ cs : List Vec, (clearAll cs).Sat true fun cs' => Vec.LikeHead anyLen cs cs' ∧ ∀ c rest, cs' = c :: rest → c.len = 0
  | [] => ⟨.nil, nofun⟩
  | c :: rest => by
    rw [clearAll]
    refine (clear_sat c).bind fun c' _ hc => (clearAll_sat rest).bind fun rest' _ _ => ⟨.cons hc.1, fun d r e => ?_⟩
    cases e
    exact hc.2
end

theorem setNulls_sat (flags : List Bool) (s : Option Slice) : (setNulls flags s).Sat true fun s' => SliceLike s s' := by
  rw [setNulls]
  split
  · exact SliceLike.update s _ (by rw [List.length_zipWith]; omega)
  · rfl

mutual
theorem fillDown_sat (flags : List Bool) : ∀ v, (fillDown flags v).Sat true fun v' => Vec.Like Eq v v'
  | .nil => rfl
  | .mk id k s cs => by
    rw [fillDown]
    exact (setNulls_sat flags s).bind fun s' _ hs => (fillDownAll_sat _ cs).bind fun cs' _ hc => Vec.Like.node hs fun _ => hc

theorem fillDownAll_sat (flags : List Bool) : ∀ cs, (fillDownAll flags cs).Sat true fun cs' => Vec.LikeHead Eq cs cs'
  | [] => .nil
  | c :: cs => by
    rw [fillDownAll]
    exact (fillDown_sat flags c).bind fun c' _ hc => (fillDownAll_sat flags cs).bind fun cs' _ _ => .cons hc
end

theorem fillNulls_sat (id : Nat) (k : TypeKind) (s : Option Slice) (cs : List Vec) :
    (fillNulls (.mk id k s cs)).Sat true fun v' => ∃ cs', v' = .mk id k s cs' ∧ Vec.LikeHead Eq cs cs' := by
  rw [fillNulls]
  exact (fillDownAll_sat _ cs).bind fun cs' _ hc => ⟨cs', rfl, hc⟩

/-! ### Readers -/

theorem ReadKind.nextRows_length {ρ : Type} (K : ReadKind ρ) (c : Codec) : ∀ (vec : List Value) (r r' : ColReader ρ) (vs : List Value),
    K.nextRows c r vec = .ok (vs, r') → vs.length = vec.length := by
  intro vec
  induction vec with
  | nil => intro r r' vs h; cases h; rfl
  | cons old vec ih =>
    intro r r' vs h
    rw [ReadKind.nextRows] at h
    obtain ⟨p, -, h⟩ := Res.bind_ok_inv h
    obtain ⟨q, -, h⟩ := Res.bind_ok_inv h
    obtain ⟨x, hx, h⟩ := Res.bind_ok_inv h
    cases h
    rw [List.length_cons, List.length_cons, ih _ _ x.1 hx]

/-- Every sequence of calls on a column reader comes to an end. -/
def ReadKind.Lasts {ρ : Type} (R : ReadKind ρ) (c : Codec) (r : ColReader ρ) : Prop := ∀ ops, R.roam c r ops ≠ .hang

theorem Res.sat_of {α : Type} {x : Res α} {P : α → Prop} (h : x ≠ .hang) (hp : ∀ a, x = .ok a → P a) : x.Sat true P := by
  cases x with
  | ok a => exact hp a rfl
  | err e => trivial
  | panic => rfl
  | hang => exact h rfl

namespace ReadKind.Lasts

variable {ρ : Type} {R : ReadKind ρ} {c : Codec} {r : ColReader ρ}

theorem next (h : R.Lasts c r) (vec : List Value) : (R.nextBatch c r vec).Sat true fun q => q.1.length = vec.length ∧ R.Lasts c q.2 := by
  refine Res.sat_of (fun hh => h [.batch vec] ?_) fun q hq => ⟨?_, fun ops hh => h (.batch vec :: ops) ?_⟩
  · rw [ReadKind.roam, hh]; rfl
  · rw [ReadKind.nextBatch] at hq
    obtain ⟨d, -, hq⟩ := Res.bind_ok_inv hq
    exact R.nextRows_length c vec _ q.2 q.1 hq
  · rw [ReadKind.roam, hq]
    simp only [Res.ok_bind, hh, Res.hang_bind]

theorem skip (h : R.Lasts c r) (n : Nat) : (R.skipRows c n r).Sat true fun r' => R.Lasts c r' := by
  refine Res.sat_of (fun hh => h [.skip n] ?_) fun q hq ops hh => h (.skip n :: ops) ?_
  · rw [ReadKind.roam, hh]; rfl
  · rw [ReadKind.roam, hq]
    simp only [Res.ok_bind, hh]

theorem seek (h : R.Lasts c r) (k : Nat) : (R.seekStride c r k).Sat true fun r' => R.Lasts c r' := by
  refine Res.sat_of (fun hh => h [.seek k] ?_) fun q hq ops hh => h (.seek k :: ops) ?_
  · rw [ReadKind.roam, hh]; rfl
  · rw [ReadKind.roam, hq]
    simp only [Res.ok_bind, hh]

theorem batch (h : R.Lasts c r) (v : Vec) : (leafBatch R c r v).Sat true fun q => Vec.Like Eq v q.1 ∧ R.Lasts c q.2 := by
  cases v with
  | nil => rfl
  | mk id k s cs =>
    rw [leafBatch]
    exact (h.next _).bind fun q _ hq => ⟨Vec.Like.node (SliceLike.update s q.1 (by rw [hq.1]; exact Nat.le_refl _)) fun _ => .refl (fun _ => rfl) cs, hq.2⟩

end ReadKind.Lasts

/-- Readers whose calls come to an end. -/
structure RdOps.Ends {χ : Type} (X : RdOps χ) (P : χ → Prop) : Prop where
  next : ∀ x v, P x → (X.nextBatch x v).Sat true fun q => Vec.Like Eq v q.1 ∧ P q.2
  skip : ∀ x n, P x → (X.skip x n).Sat true P
  seek : ∀ x n, P x → (X.seekStride x n).Sat true P

/-- A stream of flags that may be read. -/
def FlagsSane (p : Option BoolReader) : Prop := ∀ b, p = some b → b.reader.stream.Sane

/-- A stream of lengths that may be read. -/
def LengthSane (l : Option IntReader) : Prop := ∀ b, l = some b → b.block.stream.Sane

/-- One reader whose calls come to an end. -/
def RdNode.Fine {χ : Type} (c : Codec) (fuel : Nat) (P : χ → Prop) : RdNode χ → Prop
  | .leaf t r => t.read.Lasts c r
  | .dict r => (dictRead fuel).Lasts c r
  | .struct _ p _ cs => FlagsSane p ∧ ∀ x ∈ cs, P x
  | .list _ p l _ x => FlagsSane p ∧ LengthSane l ∧ ∀ y, x = some y → P y
  | .map _ p l _ x y => FlagsSane p ∧ LengthSane l ∧ (∀ z, x = some z → P z) ∧ ∀ z, y = some z → P z
  | .bare t r => (bareRead t).Lasts c r

section
variable {χ : Type} {X : RdOps χ} {P : χ → Prop} {c : Codec} {fuel : Nat}

theorem readFlags_sat : ∀ (vs : List Value) (p : BoolReader), p.reader.stream.Sane →
    (readFlags c p vs).Sat true fun q => q.1.length = vs.length ∧ q.2.reader.stream.Sane := by
  intro vs
  induction vs with
  | nil => intro p h; exact ⟨rfl, h⟩
  | cons v vs ih =>
    intro p h
    rw [readFlags]
    exact (bool_next_sat p h).weaken.bind fun q _ hq => (ih q.2 hq).bind fun r _ hr => ⟨by simp [hr.1], hr.2⟩

theorem childBatches_sat (hX : X.Ends P) : ∀ (xs : List χ) (vs : List Vec), (∀ x ∈ xs, P x) →
    (childBatches X xs vs).Sat true fun q => Vec.LikeHead Eq vs q.1 ∧ ∀ x ∈ q.2, P x := by
  intro xs
  induction xs with
  | nil => intro vs _; exact ⟨.refl (fun _ => rfl) vs, by simp⟩
  | cons x xs ih =>
    intro vs h
    cases vs with
    | nil => rfl
    | cons v vs =>
      rw [childBatches]
      refine (hX.next x v (h x (by simp))).bind fun q _ hq => (ih vs fun y hy => h y (by simp [hy])).bind fun r _ hr => ⟨.cons hq.1, ?_⟩
      intro y hy
      rcases List.mem_cons.1 hy with rfl | hy
      · exact hq.2
      · exact hr.2 y hy

theorem structBatch_sat (hX : X.Ends P) (p : Option BoolReader) (xs : List χ) (v : Vec) (hp : FlagsSane p) (hx : ∀ x ∈ xs, P x) :
    (structBatch X c p xs v).Sat true fun q => Vec.Like Eq v q.1 ∧ FlagsSane q.2.1 ∧ ∀ x ∈ q.2.2, P x := by
  cases v with
  | nil => rfl
  | mk id k s cs =>
    rw [structBatch.eq_def]
    refine Res.Sat.bind (P := fun q : Vec × Option BoolReader => (∃ s' cs', q.1 = .mk id k s' cs' ∧ SliceLike s s' ∧ Vec.LikeHead Eq cs cs') ∧ FlagsSane q.2) ?_ fun q _ hq => ?_
    · cases p with
      | none =>
        refine ⟨⟨s, cs, rfl, ?_, .refl (fun _ => rfl) cs⟩, nofun⟩
        cases s with
        | none => exact .inl ⟨rfl, rfl⟩
        | some s => exact .inr ⟨s, s, rfl, rfl, rfl, rfl⟩
      | some p =>
        refine (readFlags_sat (visibleRows s) p (hp p rfl)).bind fun r _ hr => (fillNulls_sat id k (updateRows s r.1) cs).bind fun v' _ hv => ?_
        obtain ⟨cs', rfl, hc⟩ := hv
        exact ⟨⟨_, cs', rfl, SliceLike.update s r.1 (by rw [hr.1]; exact Nat.le_refl _), hc⟩, fun b hb => by cases hb; exact hr.2⟩
    · obtain ⟨⟨s', cs', h1, h2, h3⟩, h4⟩ := hq
      obtain ⟨v', p'⟩ := q
      subst h1
      exact (childBatches_sat hX xs cs' hx).bind fun r _ hr => ⟨Vec.Like.node h2 fun _ => h3.trans hr.1, h4, hr.2⟩

theorem nextLength_sat (l : Option IntReader) (h : LengthSane l) : (nextLength c l).Sat true fun q => LengthSane q.2 := by
  cases l with
  | none => rfl
  | some l => exact (uint_next_sat l (h l rfl)).weaken.bind fun q _ hq => fun b hb => by cases hb; exact hq

theorem nextFlag_sat (p : Option BoolReader) (old : Bool) (h : FlagsSane p) : (nextFlag c p old).Sat true fun q => FlagsSane q.2 := by
  cases p with
  | none => exact nofun
  | some p => exact (bool_next_sat p (h p rfl)).weaken.bind fun q _ hq => fun b hb => by cases hb; exact hq

theorem nextPresent_sat (p : Option BoolReader) (h : FlagsSane p) : (nextPresent c p).Sat true fun q => FlagsSane q.2 := by
  cases p with
  | none => exact nofun
  | some p => exact (bool_next_sat p (h p rfl)).weaken.bind fun q _ hq => fun b hb => by cases hb; exact hq

theorem prepareChild_sat (null : Bool) (n : Nat) (v : Vec) : (prepareChild null n v).Sat true fun _ => True := by
  cases v with
  | nil => rfl
  | mk => trivial

theorem nextOn_sat (hX : X.Ends P) (x : Option χ) (v : Vec) (h : ∀ y, x = some y → P y) : (nextOn X x v).Sat true fun q => ∀ y, q.2 = some y → P y := by
  cases x with
  | none => rfl
  | some x => exact (hX.next x v (h x rfl)).bind fun q _ hq => fun y hy => by cases hy; exact hq.2

theorem listRows_sat (hX : X.Ends P) : ∀ (vs : List Value) (p : Option BoolReader) (l : Option IntReader) (x : Option χ) (cs : List Vec),
    FlagsSane p → LengthSane l → (∀ y, x = some y → P y) →
    (listRows X c p l x vs cs).Sat true fun q => q.1.length = vs.length ∧ (vs = [] → q.2.1 = cs) ∧ FlagsSane q.2.2.1 ∧ LengthSane q.2.2.2.1 ∧ ∀ y, q.2.2.2.2 = some y → P y := by
  intro vs
  induction vs with
  | nil => intro p l x cs h1 h2 h3; exact ⟨rfl, fun _ => rfl, h1, h2, h3⟩
  | cons old vs ih =>
    intro p l x cs h1 h2 h3
    rw [listRows]
    refine (nextFlag_sat p old.null h1).bind fun f _ hf => ?_
    refine Res.Sat.bind (P := fun q : GoVal × Nat × Option IntReader => LengthSane q.2.2) ?_ fun q _ hq => ?_
    · split
      · exact h2
      · exact (nextLength_sat l h2).bind fun n _ hn => hn
    · cases cs with
      | nil => rfl
      | cons e cs =>
        exact (prepareChild_sat _ _ _).bind fun e' _ _ => (nextOn_sat hX x e' h3).bind fun y _ hy => (ih _ _ _ _ hf hq hy).bind fun z _ hz =>
          ⟨by simp [hz.1], nofun, hz.2.2⟩

theorem mapRows_sat (hX : X.Ends P) : ∀ (vs : List Value) (p : Option BoolReader) (l : Option IntReader) (x y : Option χ) (cs : List Vec),
    FlagsSane p → LengthSane l → (∀ z, x = some z → P z) → (∀ z, y = some z → P z) →
    (mapRows X c p l x y vs cs).Sat true fun q => q.1.length = vs.length ∧ (vs = [] → q.2.1 = cs) ∧ FlagsSane q.2.2.1 ∧ LengthSane q.2.2.2.1 ∧
      (∀ z, q.2.2.2.2.1 = some z → P z) ∧ ∀ z, q.2.2.2.2.2 = some z → P z := by
  intro vs
  induction vs with
  | nil => intro p l x y cs h1 h2 h3 h4; exact ⟨rfl, fun _ => rfl, h1, h2, h3, h4⟩
  | cons old vs ih =>
    intro p l x y cs h1 h2 h3 h4
    rw [mapRows]
    refine (nextFlag_sat p old.null h1).bind fun f _ hf => ?_
    refine Res.Sat.bind (P := fun q : GoVal × Nat × Option IntReader => LengthSane q.2.2) ?_ fun q _ hq => ?_
    · split
      · exact h2
      · exact (nextLength_sat l h2).bind fun n _ hn => hn
    · match cs with
      | [] => rfl
      | [_] => rfl
      | e :: f' :: cs =>
        exact (prepareChild_sat _ _ _).bind fun e' _ _ => (prepareChild_sat _ _ _).bind fun e'' _ _ => (nextOn_sat hX x e' h3).bind fun u _ hu =>
          (nextOn_sat hX y e'' h4).bind fun w _ hw => (ih _ _ _ _ _ hf hq hu hw).bind fun z _ hz => ⟨by simp [hz.1], nofun, hz.2.2⟩

theorem node_next_sat (hX : X.Ends P) (x : RdNode χ) (v : Vec) (h : x.Fine c fuel P) :
    (x.nextBatch X c fuel v).Sat true fun q => Vec.Like Eq v q.1 ∧ q.2.Fine c fuel P := by
  cases x with
  | leaf t r => exact (ReadKind.Lasts.batch h v).bind fun q _ hq => hq
  | dict r => exact (ReadKind.Lasts.batch h v).bind fun q _ hq => hq
  | bare t r => exact (ReadKind.Lasts.batch h v).bind fun q _ hq => hq
  | struct kind p i cs => exact (structBatch_sat hX p cs v h.1 h.2).bind fun q _ hq => hq
  | list kind p l i x =>
    cases v with
    | nil => rfl
    | mk id k s cs =>
      refine (listRows_sat hX (visibleRows s) p l x cs h.1 h.2.1 h.2.2).bind fun q _ hq => ⟨?_, hq.2.2⟩
      refine Vec.Like.node (SliceLike.update s q.1 (by rw [hq.1]; exact Nat.le_refl _)) fun hs => ?_
      rw [hq.2.1 (by rw [hs]; rfl)]
      exact .refl (fun _ => rfl) cs
  | map kind p l i x y =>
    cases v with
    | nil => rfl
    | mk id k s cs =>
      refine (mapRows_sat hX (visibleRows s) p l x y cs h.1 h.2.1 h.2.2.1 h.2.2.2).bind fun q _ hq => ⟨?_, hq.2.2⟩
      refine Vec.Like.node (SliceLike.update s q.1 (by rw [hq.1]; exact Nat.le_refl _)) fun hs => ?_
      rw [hq.2.1 (by rw [hs]; rfl)]
      exact .refl (fun _ => rfl) cs

theorem skipAll_sat (hX : X.Ends P) (n : Nat) : ∀ xs : List χ, (∀ x ∈ xs, P x) → (skipAll X n xs).Sat true fun ys => ∀ y ∈ ys, P y := by
  intro xs
  induction xs with
  | nil => intro _; exact fun _ h => nomatch h
  | cons x xs ih =>
    intro h
    rw [skipAll]
    refine (hX.skip x n (h x (by simp))).bind fun y _ hy => (ih fun z hz => h z (by simp [hz])).bind fun ys _ hys => ?_
    intro z hz
    rcases List.mem_cons.1 hz with rfl | hz
    · exact hy
    · exact hys z hz

theorem skipOn_sat (hX : X.Ends P) (n : Nat) (x : Option χ) (h : ∀ y, x = some y → P y) : (skipOn X n x).Sat true fun x' => ∀ y, x' = some y → P y := by
  cases x with
  | none => rfl
  | some x => exact (hX.skip x n (h x rfl)).bind fun q _ hq => fun y hy => by cases hy; exact hq

theorem structSkip_sat (hX : X.Ends P) : ∀ (n : Nat) (p : Option BoolReader) (xs : List χ), FlagsSane p → (∀ x ∈ xs, P x) →
    (structSkip X c n p xs).Sat true fun q => FlagsSane q.1 ∧ ∀ x ∈ q.2, P x := by
  intro n
  induction n with
  | zero => intro p xs h1 h2; exact ⟨h1, h2⟩
  | succ n ih =>
    intro p xs h1 h2
    rw [structSkip]
    refine (nextPresent_sat p h1).bind fun q _ hq => ?_
    obtain ⟨b, p'⟩ := q
    cases b with
    | false => exact ih p' xs hq h2
    | true => exact (skipAll_sat hX 1 xs h2).bind fun ys _ hys => ih p' ys hq hys

theorem listSkip_sat (hX : X.Ends P) : ∀ (n : Nat) (p : Option BoolReader) (l : Option IntReader) (x : Option χ), FlagsSane p → LengthSane l → (∀ y, x = some y → P y) →
    (listSkip X c n p l x).Sat true fun q => FlagsSane q.1 ∧ LengthSane q.2.1 ∧ ∀ y, q.2.2 = some y → P y := by
  intro n
  induction n with
  | zero => intro p l x h1 h2 h3; exact ⟨h1, h2, h3⟩
  | succ n ih =>
    intro p l x h1 h2 h3
    rw [listSkip]
    refine (nextPresent_sat p h1).bind fun q _ hq => ?_
    obtain ⟨b, p'⟩ := q
    cases b with
    | false => exact ih p' l x hq h2 h3
    | true => exact (nextLength_sat l h2).bind fun m _ hm => (skipOn_sat hX _ x h3).bind fun x' _ hx => ih p' m.2 x' hq hm hx

theorem entrySkip_sat (hX : X.Ends P) (m : Nat) : ∀ (n : Nat) (x y : Option χ), (∀ z, x = some z → P z) → (∀ z, y = some z → P z) →
    (entrySkip X m n x y).Sat true fun q => (∀ z, q.1 = some z → P z) ∧ ∀ z, q.2 = some z → P z := by
  intro n
  induction n with
  | zero => intro x y h1 h2; exact ⟨h1, h2⟩
  | succ n ih =>
    intro x y h1 h2
    rw [entrySkip]
    exact (skipOn_sat hX m x h1).bind fun x' _ hx => (skipOn_sat hX m y h2).bind fun y' _ hy => ih x' y' hx hy

theorem mapSkip_sat (hX : X.Ends P) : ∀ (n : Nat) (p : Option BoolReader) (l : Option IntReader) (x y : Option χ), FlagsSane p → LengthSane l → (∀ z, x = some z → P z) →
    (∀ z, y = some z → P z) → (mapSkip X c n p l x y).Sat true fun q => FlagsSane q.1 ∧ LengthSane q.2.1 ∧ (∀ z, q.2.2.1 = some z → P z) ∧ ∀ z, q.2.2.2 = some z → P z := by
  intro n
  induction n with
  | zero => intro p l x y h1 h2 h3 h4; exact ⟨h1, h2, h3, h4⟩
  | succ n ih =>
    intro p l x y h1 h2 h3 h4
    rw [mapSkip]
    refine (nextPresent_sat p h1).bind fun q _ hq => ?_
    obtain ⟨b, p'⟩ := q
    cases b with
    | false => exact ih p' l x y hq h2 h3 h4
    | true => exact (nextLength_sat l h2).bind fun m _ hm => (entrySkip_sat hX _ _ x y h3 h4).bind fun z _ hz => ih p' m.2 z.1 z.2 hq hm hz.1 hz.2

theorem node_skip_sat (hX : X.Ends P) (x : RdNode χ) (n : Nat) (h : x.Fine c fuel P) : (x.skip X c fuel n).Sat true fun q => q.Fine c fuel P := by
  cases x with
  | leaf t r => exact (ReadKind.Lasts.skip h n).bind fun q _ hq => hq
  | dict r => exact (ReadKind.Lasts.skip h n).bind fun q _ hq => hq
  | bare t r => exact (ReadKind.Lasts.skip h n).bind fun q _ hq => hq
  | struct kind p i cs => exact (structSkip_sat hX n p cs h.1 h.2).bind fun q _ hq => hq
  | list kind p l i x => exact (listSkip_sat hX n p l x h.1 h.2.1 h.2.2).bind fun q _ hq => hq
  | map kind p l i x y => exact (mapSkip_sat hX n p l x y h.1 h.2.1 h.2.2.1 h.2.2.2).bind fun q _ hq => hq

theorem seekAll_sat (hX : X.Ends P) (n : Nat) : ∀ xs : List χ, (∀ x ∈ xs, P x) → (seekAll X n xs).Sat true fun ys => ∀ y ∈ ys, P y := by
  intro xs
  induction xs with
  | nil => intro _; exact fun _ h => nomatch h
  | cons x xs ih =>
    intro h
    rw [seekAll]
    refine (hX.seek x n (h x (by simp))).bind fun y _ hy => (ih fun z hz => h z (by simp [hz])).bind fun ys _ hys => ?_
    intro z hz
    rcases List.mem_cons.1 hz with rfl | hz
    · exact hy
    · exact hys z hz

theorem seekOn_sat (hX : X.Ends P) (n : Nat) (x : Option χ) (h : ∀ y, x = some y → P y) : (seekOn X n x).Sat true fun x' => ∀ y, x' = some y → P y := by
  cases x with
  | none => rfl
  | some x => exact (hX.seek x n (h x rfl)).bind fun q _ hq => fun y hy => by cases hy; exact hq

theorem seekFlags_sat (p : Option BoolReader) (pos : Nat × Nat × List Nat) (h : FlagsSane p) : (seekFlags c p pos).Sat true FlagsSane := by
  cases p with
  | none => exact nofun
  | some p => exact (bool_seek_sat _ _ _ _ p (h p rfl)).weaken.bind fun q _ hq => fun b hb => by cases hb; exact hq

theorem seekLength_sat (l : Option IntReader) (pos : Nat × Nat × List Nat) (h : LengthSane l) : (seekLength c l pos).Sat true LengthSane := by
  cases l with
  | none => rfl
  | some l => exact (int_seek_crash _ _ _ l (h l rfl)).bind fun q _ hq => fun b hb => by cases hb; exact hq

theorem getStridePositions_sat (index : Option (List (List Nat))) (k : Nat) : (getStridePositions index k).Sat true fun _ => True := by
  rw [getStridePositions.eq_def]
  split
  · trivial
  · split
    · trivial
    · split
      · trivial
      · rfl

theorem seekOwn_sat (kind : CompKind) (p : Option BoolReader) (l : Option IntReader) (index : Option (List (List Nat))) (k : Nat) (hp : FlagsSane p) (hl : LengthSane l) :
    (seekOwn c kind p l index k).Sat true fun q => FlagsSane q.1 ∧ LengthSane q.2 := by
  rw [seekOwn]
  split
  · exact (seekFlags_sat p _ hp).bind fun p' _ h1 => (seekLength_sat l _ hl).bind fun l' _ h2 => ⟨h1, h2⟩
  · refine (getStridePositions_sat index k).bind fun pos _ _ => ?_
    cases p with
    | none =>
      exact (ReadKind.Sound.streamPos_sat (crash := true) kind pos 0 1 nofun).bind fun ll _ _ => (seekLength_sat l _ hl).bind fun l' _ h2 => ⟨nofun, h2⟩
    | some p =>
      exact (ReadKind.Sound.streamPos_sat (crash := true) kind pos 0 2 nofun).bind fun pp _ _ => (ReadKind.Sound.streamPos_sat (crash := true) kind pos _ 1 nofun).bind fun ll _ _ =>
        (seekFlags_sat (some p) _ hp).bind fun p' _ h1 => (seekLength_sat l _ hl).bind fun l' _ h2 => ⟨h1, h2⟩

theorem node_seek_sat (hX : X.Ends P) (x : RdNode χ) (n : Nat) (h : x.Fine c fuel P) : (x.seekStride X c fuel n).Sat true fun q => q.Fine c fuel P := by
  cases x with
  | leaf t r => exact (ReadKind.Lasts.seek h n).bind fun q _ hq => hq
  | dict r => exact (ReadKind.Lasts.seek h n).bind fun q _ hq => hq
  | bare t r => exact (ReadKind.Lasts.seek h n).bind fun q _ hq => hq
  | struct kind p i cs =>
    rw [RdNode.seekStride]
    refine Res.Sat.bind (P := FlagsSane) ?_ fun p' _ hp => (seekAll_sat hX n cs h.2).bind fun cs' _ hc => ⟨hp, hc⟩
    split
    · exact seekFlags_sat p _ h.1
    · split
      · exact (getStridePositions_sat i n).bind fun pos _ _ => (ReadKind.Sound.streamPos_sat (crash := true) kind pos 0 2 nofun).bind fun pp _ _ => seekFlags_sat p _ h.1
      · exact h.1
  | list kind p l i x => exact (seekOwn_sat kind p l i n h.1 h.2.1).bind fun q _ hq => (seekOn_sat hX n x h.2.2).bind fun x' _ hx => ⟨hq.1, hq.2, hx⟩
  | map kind p l i x y =>
    exact (seekOwn_sat kind p l i n h.1 h.2.1).bind fun q _ hq => (seekOn_sat hX n x h.2.2.1).bind fun x' _ hx => (seekOn_sat hX n y h.2.2.2).bind fun y' _ hy => ⟨hq.1, hq.2, hx, hy⟩

end

/-- Reader trees whose calls come to an end. -/
def RdFine (c : Codec) (fuel : Nat) : (n : Nat) → Rd n → Prop
  | 0 => fun _ => True
  | n + 1 => RdNode.Fine c fuel (RdFine c fuel n)

theorem rdOps_ends (c : Codec) (fuel : Nat) : ∀ n, (rdOps c fuel n).Ends (RdFine c fuel n)
  | 0 => ⟨fun x => (nomatch x), fun x => (nomatch x), fun x => (nomatch x)⟩
  | n + 1 => ⟨fun x v h => node_next_sat (rdOps_ends c fuel n) x v h, fun x m h => node_skip_sat (rdOps_ends c fuel n) x m h,
      fun x m h => node_seek_sat (rdOps_ends c fuel n) x m h⟩

end Goorc
