import Verif.Spec.Rows
import Verif.Proofs.Schemas
import Verif.Proofs.StructNulls
import Verif.Proofs.ColLeaf
/- Reading batches of rows from trees of column readers: lemmas for Props/RoundTrip.lean. -/
namespace Goorc

/-- Where the rows of a column without a present stream are null: nowhere, or where the struct it is in, column `par`, is. -/
def NullsFrom (col : Nat → List (Option GoVal)) (par : Option Nat) (j : Nat) : Prop :=
  (col j).map (·.isSome) = match par with
    | none => (col j).map fun _ => true
    | some p => (col p).map (·.isSome)

/-- What else is known of the states of the readers of the columns of a schema: of the present stream and the data streams of leaves, and
of the present streams of structs, given the column, the type, the compression and the row index. -/
structure Keep where
  leaf : Nat → (t : LeafTag) → Bool → CompKind → Option (List (List Nat)) → (BoolReader → Prop) → (t.ρ → Prop) → Prop
  flags : Nat → CompKind → Option (List (List Nat)) → (BoolReader → Prop) → Prop
  /-- may data streams be missing? -/
  bare : Prop

/-- Nothing else. -/
def Keep.any : Keep := ⟨fun _ _ _ _ _ _ _ => True, fun _ _ _ _ => True, True⟩

/-- The flags of a struct: it has none, or those of its column can be read. -/
def FlagsHave (K : (BoolReader → Prop) → Prop) (c : Codec) (hasNulls : Bool) (rows : List (Option GoVal)) : Option BoolReader → Prop
  | none => hasNulls = false
  | some q => hasNulls = true ∧ (∀ x ∈ rows, x = none ∨ x = some .nil) ∧ ∃ F q', K F ∧ Yields (BoolReader.next c) q (rows.map (·.isSome)) q' ∧ F q'

/-- The column readers of a schema of structs and of leaves, which is in the struct with nulls `par`, if it is in one: from each leaf the
values `col` of its column can be read, and from each struct with nulls its flags. -/
def RdHas (K : Keep) (c : Codec) (bo : BatchOption) (col : Nat → List (Option GoVal)) : (n : Nat) → Option Nat → Schema → Rd n → Prop
  | 0, _, _, _ => False
  | n + 1, par, .mk nd cs, x =>
    match (x : RdNode (Rd n)) with
    | .leaf t r => nd.kind.nested = false ∧ cs = [] ∧ t.Replaces ∧ (r.present = none ↔ nd.hasNulls = false) ∧
        (nd.hasNulls = false → NullsFrom col par nd.id) ∧
        ∃ F E, K.leaf nd.id t r.hasNulls r.kind r.index F E ∧ t.read.Holds c F E r (if nd.hasNulls then col nd.id else (col nd.id).filter (·.isSome))
    | .struct kind p ix rs => nd.kind = .struct ∧ (nd.hasNulls = false → par = none) ∧ FlagsHave (K.flags nd.id kind ix) c nd.hasNulls (col nd.id) p ∧
        List.Forall₂ (RdHas K c bo col n (if nd.hasNulls then some nd.id else none)) (cs.filter fun c => bo.isInclude c.node.id) rs
    | .bare t r => nd.kind.nested = false ∧ cs = [] ∧ t.isSome = true ∧ nd.hasNulls = true ∧ r.present ≠ none ∧ K.bare ∧
        (bareRead t).Holds c (fun _ => True) (fun _ => True) r (col nd.id)
    | _ => False

theorem LeafTag.Replaces.prepare {t : LeafTag} (h : t.Replaces) (c : Codec) (d : t.ρ) : t.read.prepare c d = .ok d := by
  cases t <;> first | exact h.elim | rfl

theorem LeafTag.Replaces.store {t : LeafTag} (h : t.Replaces) (old x : GoVal) : t.read.store old x = .ok x := by
  cases t <;> first | rfl | exact h.elim

theorem rowValue_row (v : GoVal) (x : Option GoVal) : (rowValue v x).row = x := by
  cases x <;> rfl

theorem forall₂_imp_mem {α β : Type} {R S : α → β → Prop} : ∀ {l : List α} {m : List β}, List.Forall₂ R l m → (∀ a ∈ l, ∀ b, R a b → S a b) → List.Forall₂ S l m := by
  intro l m h
  induction h with
  | nil => intro _; exact .nil
  | cons h hs ih => intro f; exact .cons (f _ (by simp) _ h) (ih fun a ha => f a (by simp [ha]))

theorem filter_some_vals {α : Type} (l : List (Option α)) : (l.filter (·.isSome)).filterMap id = l.filterMap id := by
  induction l with
  | nil => rfl
  | cons x l ih =>
    cases x with
    | none => exact ih
    | some x => exact congrArg (x :: ·) ih

/-- Without a present stream the rows that are marked null are left alone. -/
theorem ReadKind.nextRows_marked {ρ : Type} (R : ReadKind ρ) (c : Codec) (st : GoVal → GoVal → GoVal) (rows : List (Option GoVal))
    (vec : List Value) (hl : vec.map (·.null) = rows.map (·.isNone)) (r : ColReader ρ) (d' : ρ) (hp : r.present = none)
    (hd : Yields (R.next c) r.data (rows.filterMap id) d') (hst : ∀ old ∈ vec, ∀ x, R.store old.v x = .ok (st old.v x)) :
    R.nextRows c r vec = .ok (List.zipWith (storeRow st) vec rows, { r with data := d' }) := by
  induction rows generalizing vec r with
  | nil =>
    cases vec with
    | cons _ _ => simp at hl
    | nil =>
      simp only [List.filterMap_nil, Yields] at hd
      subst hd
      rfl
  | cons row rows ih =>
    cases vec with
    | nil => simp at hl
    | cons old vec =>
      simp only [List.map_cons, List.cons.injEq] at hl
      have hst' : ∀ o ∈ vec, ∀ x, R.store o.v x = .ok (st o.v x) := fun o ho => hst o (List.mem_cons_of_mem _ ho)
      cases row with
      | none =>
        have hd2 : Yields (R.next c) r.data (rows.filterMap id) d' := hd
        have := ih vec hl.2 r hp hd2 hst'
        simp only [ReadKind.nextRows, hp, hl.1, Res.ok_bind, Res.pure_eq, Option.isNone_none, if_true]
        rw [this]
        simp only [Res.ok_bind, hp]
        rfl
      | some x =>
        obtain ⟨d1, k1, k2⟩ := hd
        have := ih vec hl.2 { r with data := d1 } hp k2 hst'
        simp only [hp] at this
        simp only [ReadKind.nextRows, hp, hl.1, Res.ok_bind, Res.pure_eq, Option.isNone_some, Bool.false_eq_true, if_false, k1,
          hst old List.mem_cons_self]
        rw [this]
        rfl

theorem readFlags_yields (c : Codec) (vec : List Value) : ∀ (p p' : BoolReader) (flags : List Bool), flags.length = vec.length →
    Yields (BoolReader.next c) p flags p' →
    readFlags c p vec = .ok (List.zipWith (fun v b => ({ v with null := !b } : Value)) vec flags, p') := by
  induction vec with
  | nil =>
    intro p p' flags hl h
    cases flags with
    | nil => simp only [Yields] at h; subst h; rfl
    | cons _ _ => simp at hl
  | cons v vec ih =>
    intro p p' flags hl h
    cases flags with
    | nil => simp at hl
    | cons b flags =>
      obtain ⟨p1, h1, h2⟩ := h
      simp only [readFlags, h1, ih p1 p' flags (by simpa using hl) h2, Res.ok_bind, Res.pure_eq, List.zipWith_cons_cons]

section
variable {bo : BatchOption} {B : Nat}

theorem ShapeIn.len_cap {len : Nat} {under : Bool} (s : Schema) : ∀ v, ShapeIn bo B len under s v → v.len = len ∧ v.cap = B := by
  induction s using Schema.ind generalizing under with
  | h n cs ih =>
    intro v hv
    cases hv with
    | leaf _ _ s plain cap size fits unmarked =>
      refine ⟨?_, cap⟩
      simp only [Vec.len, Option.map_some, Option.getD_some, size]
      by_cases h : len = 0 <;> simp [h]
    | struct _ _ vs kind nulls ne below =>
      generalize hf : cs.filter (fun c => bo.isInclude c.node.id) = fs at below ne
      cases below with
      | nil => exact absurd rfl ne
      | cons h hs =>
        rename_i a v as vs
        have hm : a ∈ cs := (List.mem_filter.1 (hf ▸ List.mem_cons_self : a ∈ cs.filter _)).1
        obtain ⟨h1, h2⟩ := ih a hm _ h
        exact ⟨by simp [Vec.len, h1], by simp [Vec.cap, h2]⟩
    | optional _ _ _ s vs kind nulls cap size fits blank ne below =>
      generalize hf : cs.filter (fun c => bo.isInclude c.node.id) = fs at below ne
      cases below with
      | nil => exact absurd rfl ne
      | cons h hs =>
        rename_i a v as vs
        have hm : a ∈ cs := (List.mem_filter.1 (hf ▸ List.mem_cons_self : a ∈ cs.filter _)).1
        obtain ⟨h1, h2⟩ := ih a hm _ h
        refine ⟨?_, ?_⟩
        · simp only [Vec.len, Option.map_some, Option.getD_some, size, h1]
          by_cases h : len = 0 <;> simp [h]
        · simp only [Vec.cap, cap]

theorem ShapeIn.clear {len : Nat} {under : Bool} (s : Schema) : ∀ v, ShapeIn bo B len under s v → ∃ v', v.clear = .ok v' ∧ ShapeIn bo B 0 under s v' := by
  induction s using Schema.ind generalizing under with
  | h n cs ih =>
    intro v hv
    have all : ∀ (u : Bool) (fs : List Schema) (vs : List Vec), (∀ c ∈ fs, c ∈ cs) → List.Forall₂ (ShapeIn bo B len u) fs vs →
        ∃ vs', clearAll vs = .ok vs' ∧ List.Forall₂ (ShapeIn bo B 0 u) fs vs' := by
      intro u fs vs hm h
      induction h with
      | nil => exact ⟨[], rfl, .nil⟩
      | cons h hs ih2 =>
        obtain ⟨v', e1, e2⟩ := ih _ (hm _ (by simp)) _ h
        obtain ⟨vs', e3, e4⟩ := ih2 fun c hc => hm c (by simp [hc])
        exact ⟨v' :: vs', by simp only [clearAll, e1, e3, Res.ok_bind, Res.pure_eq], .cons e2 e4⟩
    cases hv with
    | leaf _ _ s plain cap size fits unmarked =>
      exact ⟨_, rfl, .leaf _ n { s with len := 0 } plain cap rfl (Nat.zero_le _) unmarked⟩
    | struct _ _ vs kind nulls ne below =>
      obtain ⟨vs', e1, e2⟩ := all _ _ _ (fun c hc => (List.mem_filter.1 hc).1) below
      exact ⟨_, by simp only [Vec.clear, e1, Res.ok_bind, Res.pure_eq, Option.map_none], .struct n cs vs' kind nulls ne e2⟩
    | optional _ _ _ s vs kind nulls cap size fits blank ne below =>
      obtain ⟨vs', e1, e2⟩ := all _ _ _ (fun c hc => (List.mem_filter.1 hc).1) below
      exact ⟨_, by simp only [Vec.clear, e1, Res.ok_bind, Res.pure_eq, Option.map_some],
        .optional _ n cs { s with len := 0 } vs' kind nulls cap rfl (Nat.zero_le _) blank ne e2⟩

theorem resize_some {s : Slice} {m : Nat} (h : m ≤ s.arr.length) : resize (m : Int) (some s) = .ok (some { s with len := m }) := by
  simp only [resize]
  rw [if_pos ⟨by omega, by simp; omega⟩]
  simp

theorem ShapeIn.setSize {len : Nat} (hasNulls : List Bool) (m : Nat) (hm : m ≤ B) (s : Schema) : ∀ (under : Bool),
    (∀ c ∈ s.columns, c.node.kind = .struct → hasNulls[c.node.id]? = some c.node.hasNulls) → ∀ v, ShapeIn bo B len under s v →
    ∃ v', setVectorSize hasNulls m v = .ok v' ∧ ShapeIn bo B m under s v' := by
  induction s using Schema.ind with
  | h n cs ih =>
    intro under hn v hv
    have all : ∀ (u : Bool) (fs : List Schema) (vs : List Vec), (∀ c ∈ fs, c ∈ cs) → List.Forall₂ (ShapeIn bo B len u) fs vs →
        ∃ vs', setVectorSizes hasNulls m vs = .ok vs' ∧ List.Forall₂ (ShapeIn bo B m u) fs vs' := by
      intro u fs vs hmem h
      induction h with
      | nil => exact ⟨[], rfl, .nil⟩
      | cons h hs ih2 =>
        obtain ⟨v', e1, e2⟩ := ih _ (hmem _ (by simp)) u (fun c hc => hn c (by
          simp only [Schema.columns, columnsAll_eq]
          exact List.mem_cons_of_mem _ (List.mem_flatMap.2 ⟨_, hmem _ (by simp), hc⟩))) _ h
        obtain ⟨vs', e3, e4⟩ := ih2 fun c hc => hmem c (by simp [hc])
        exact ⟨v' :: vs', by simp only [setVectorSizes, e1, e3, Res.ok_bind, Res.pure_eq], .cons e2 e4⟩
    have h0 := hn _ (self_mem_columns _)
    simp only [Schema.node] at h0
    cases hv with
    | leaf _ _ s plain cap size fits unmarked =>
      refine ⟨.mk n.id n.kind (some { s with len := m }) [], ?_, .leaf _ n { s with len := m } plain cap rfl hm unmarked⟩
      have hr := resize_some (s := s) (m := m) (by omega)
      cases hk : n.kind <;> simp only [hk, TypeKind.nested, Bool.true_eq_false] at plain <;>
        simp only [setVectorSize, hr, Res.ok_bind, Res.pure_eq]
    | struct _ _ vs kind nulls ne below =>
      obtain ⟨vs', e1, e2⟩ := all _ _ _ (fun c hc => (List.mem_filter.1 hc).1) below
      refine ⟨_, ?_, .struct n cs vs' kind nulls ne e2⟩
      simp only [setVectorSize, h0 kind, nulls, Bool.false_eq_true, if_false, e1, Res.ok_bind, Res.pure_eq]
    | optional _ _ _ s vs kind nulls cap size fits blank ne below =>
      obtain ⟨vs', e1, e2⟩ := all _ _ _ (fun c hc => (List.mem_filter.1 hc).1) below
      refine ⟨_, ?_, .optional _ n cs { s with len := m } vs' kind nulls cap rfl hm blank ne e2⟩
      simp only [setVectorSize, h0 kind, nulls, if_true, resize_some (s := s) (m := m) (by omega), e1, Res.ok_bind, Res.pure_eq]

/-- Setting all the null flags of a slice. -/
theorem setNulls_all {flags : List Bool} {s : Slice} {len : Nat} (hc : s.arr.length = B) (hs : s.len = len) (hle : len ≤ B) (hf : flags.length = len) :
    ∃ s', setNulls flags (some s) = .ok (some s') ∧ s'.arr.length = B ∧ s'.len = len ∧ s'.visible.map (·.null) = flags ∧
      ((∀ v ∈ s.arr, v.v = .nil) → ∀ v ∈ s'.arr, v.v = .nil) := by
  have hvl : s.visible.length = len := by simp [Slice.visible]; omega
  obtain ⟨s', h⟩ := (setNulls_iff flags (some s)).2 (by simp only [visibleRows]; omega)
  obtain ⟨k0, k1, k2, k3⟩ := setNulls_ok h
  have h' := h
  simp only [setNulls] at h'
  rw [if_pos (by simp only [visibleRows]; omega)] at h'
  simp only [updateRows, Option.map_some, Res.ok.injEq, visibleRows] at h'
  subst h'
  refine ⟨_, h, ?_, hs, ?_, ?_⟩
  · simp only [Slice.update, List.length_append, List.length_zipWith, List.length_drop]; omega
  · simp only [visibleRows, hvl] at k1
    simp only [visibleRows] at k2
    rwa [List.take_of_length_le (by rw [List.length_map, k1, hf]; exact Nat.le_refl _)] at k2
  · intro hb v hv
    simp only [Slice.update, List.mem_append] at hv
    rcases hv with hv | hv
    · obtain ⟨i, hi, rfl⟩ := List.getElem_of_mem hv
      simp only [List.getElem_zipWith]
      exact hb _ (List.mem_of_mem_take (List.getElem_mem _))
    · exact hb v (List.mem_of_mem_drop hv)

/-- The vectors of a struct with nulls take its null flags. -/
theorem ShapeIn.fill {len : Nat} (s : Schema) : ∀ (flags : List Bool) v, flags.length = len → ShapeIn bo B len true s v →
    ∃ v', fillDown flags v = .ok v' ∧ ShapeIn bo B len true s v' ∧ v'.nulls = flags := by
  induction s using Schema.ind with
  | h n cs ih =>
    intro flags v hf hv
    cases hv with
    | leaf _ _ s plain cap size fits unmarked =>
      obtain ⟨s', h1, h2, h3, h4, -⟩ := setNulls_all cap size fits hf
      exact ⟨_, by simp only [fillDown, h1, fillDownAll, Res.ok_bind, Res.pure_eq],
        .leaf _ n s' plain h2 h3 fits (fun _ h => absurd h (by simp)), h4⟩
    | optional _ _ _ s vs kind nulls cap size fits blank ne below =>
      obtain ⟨s', h1, h2, h3, h4, h5⟩ := setNulls_all cap size fits hf
      have all : ∀ (fs : List Schema) (vs : List Vec), (∀ c ∈ fs, c ∈ cs) → List.Forall₂ (ShapeIn bo B len true) fs vs →
          ∃ vs', fillDownAll flags vs = .ok vs' ∧ List.Forall₂ (ShapeIn bo B len true) fs vs' := by
        intro fs vs hm h
        induction h with
        | nil => exact ⟨[], rfl, .nil⟩
        | cons h hs ih2 =>
          obtain ⟨v', e1, e2, -⟩ := ih _ (hm _ (by simp)) flags _ hf h
          obtain ⟨vs', e3, e4⟩ := ih2 fun c hc => hm c (by simp [hc])
          exact ⟨v' :: vs', by simp only [fillDownAll, e1, e3, Res.ok_bind, Res.pure_eq], .cons e2 e4⟩
      obtain ⟨vs', e1, e2⟩ := all _ _ (fun c hc => (List.mem_filter.1 hc).1) below
      exact ⟨_, by simp only [fillDown, h1, visibleRows, h4, e1, Res.ok_bind, Res.pure_eq],
        .optional _ n cs s' vs' kind nulls h2 h3 fits (h5 blank) ne e2, h4⟩

theorem ShapeIn.fillAll {len : Nat} {flags : List Bool} (hf : flags.length = len) {fs : List Schema} {vs : List Vec}
    (h : List.Forall₂ (ShapeIn bo B len true) fs vs) :
    ∃ vs', fillDownAll flags vs = .ok vs' ∧ List.Forall₂ (fun s v => ShapeIn bo B len true s v ∧ v.nulls = flags) fs vs' := by
  induction h with
  | nil => exact ⟨[], rfl, .nil⟩
  | cons h hs ih =>
    obtain ⟨v', e1, e2, e3⟩ := ShapeIn.fill _ flags _ hf h
    obtain ⟨vs', e4, e5⟩ := ih
    exact ⟨v' :: vs', by simp only [fillDownAll, e1, e4, Res.ok_bind, Res.pure_eq], .cons ⟨e2, e3⟩ e5⟩

/-- What a row of a batch must be. -/
def rowAt (ids : List Nat) (a : Nat → List (Option GoVal)) (i : Nat) : Row := ids.map fun j => (j, ((a j)[i]?).join)

theorem kindBatch_spec {c : Codec} {ρ : Type} {R : ReadKind ρ} (hprep : ∀ d, R.prepare c d = .ok d) (hstore : ∀ old x, R.store old x = .ok x) {F : BoolReader → Prop} {E : ρ → Prop} {r : ColReader ρ} {a b : List (Option GoVal)}
    (n : SchemaNode) (h : R.Holds c F E r (if n.hasNulls then a ++ b else (a ++ b).filter (·.isSome)))
    (hp : r.present = none ↔ n.hasNulls = false) (s : Slice) (hc : s.arr.length = B)
    (hs : s.len = a.length) (hle : a.length ≤ B) (hm : n.hasNulls = false → s.visible.map (·.null) = a.map (·.isNone)) :
    ∃ s' r', leafBatch R c r (.mk n.id n.kind (some s) []) = .ok (.mk n.id n.kind (some s') [], r') ∧
      R.Holds c F E r' (if n.hasNulls then b else b.filter (·.isSome)) ∧ (r'.present = none ↔ n.hasNulls = false) ∧ s'.arr.length = B ∧ s'.len = a.length ∧
      ((∀ x ∈ a, x.isSome = true) → Unmarked s.arr → Unmarked s'.arr) ∧ s'.visible.map Value.row = a ∧ r'.hasNulls = r.hasNulls ∧ r'.kind = r.kind ∧ r'.index = r.index := by
  have hvl : s.visible.length = a.length := by simp [Slice.visible]; omega
  have hrd : ∃ r', R.nextBatch c r s.visible = .ok (List.zipWith (storeRow fun _ x => x) s.visible a, r') ∧
      R.Holds c F E r' (if n.hasNulls then b else b.filter (·.isSome)) ∧ (r'.present = none ↔ r.present = none) ∧ r'.hasNulls = r.hasNulls ∧ r'.kind = r.kind ∧ r'.index = r.index := by
    cases hn : n.hasNulls with
    | true =>
      rw [hn] at h hp
      obtain ⟨r', g1, g2, g3, g4⟩ := h.batch hprep (fun _ x => x) s.visible hvl
        (fun hn => absurd (hp.1 hn) (by simp)) (fun old _ x => hstore old.v x)
      exact ⟨r', g1, g2, g3, g4⟩
    | false =>
      have hpn := hp.2 hn
      rw [hn] at h
      simp only [Bool.false_eq_true, if_false] at h ⊢
      simp only [ReadKind.Holds, ReadKind.Has, hpn] at h
      obtain ⟨d', h1, h2, hE⟩ := h
      rw [filter_some_vals, List.filterMap_append] at h2
      obtain ⟨d1, k1, k2⟩ := h2.split
      refine ⟨{ r with data := d1 }, ?_, ?_, by simp [hpn], rfl, rfl, rfl⟩
      · simp only [ReadKind.nextBatch, hprep, Res.ok_bind]
        exact R.nextRows_marked c _ a s.visible (hm hn) r d1 hpn k1 (fun old _ x => hstore old.v x)
      · simp only [ReadKind.Holds, ReadKind.Has, filter_some_vals]
        rw [hpn]
        refine ⟨d', ?_, k2, hE⟩
        simp only [List.all_eq_true, List.mem_map, List.mem_filter]
        rintro _ ⟨x, ⟨-, hx⟩, rfl⟩
        exact hx
  obtain ⟨r', g1, g2, g3, g4⟩ := hrd
  have hzip : List.zipWith (storeRow fun _ x => x) s.visible a = List.zipWith (fun old x => rowValue old.v x) s.visible a := by
    congr 1; funext old x; exact storeRow_replace old x
  rw [hzip] at g1
  generalize hz : List.zipWith (fun old x => rowValue old.v x) s.visible a = z at g1
  have hzl : z.length = a.length := by rw [← hz]; simp; omega
  have hzr : z.map Value.row = a := by
    rw [← hz, List.map_zipWith]
    apply List.ext_getElem?
    intro i
    rw [List.getElem?_zipWith]
    by_cases hi : i < a.length
    · rw [List.getElem?_eq_getElem (by omega : i < s.visible.length), List.getElem?_eq_getElem hi]
      simp [rowValue_row]
    · rw [List.getElem?_eq_none (by omega : a.length ≤ i)]
      cases s.visible[i]? <;> rfl
  refine ⟨s.update z, r', ?_, g2, by rw [g3, hp], ?_, by simp [Slice.update, hs], ?_, ?_, g4⟩
  · simp only [leafBatch, visibleRows, g1, Res.ok_bind, Res.pure_eq, updateRows, Option.map_some]
  · simp only [Slice.update, List.length_append, List.length_drop]; omega
  · intro hall hu v hv
    simp only [Slice.update, List.mem_append] at hv
    rcases hv with hv | hv
    · have hm : v.row ∈ a := by rw [← hzr]; exact List.mem_map_of_mem hv
      have := hall _ hm
      cases hvn : v.null with
      | false => rfl
      | true => simp [Value.row, hvn] at this
    · exact hu v (List.mem_of_mem_drop hv)
  · rw [Slice.visible_update s z (by rw [hzl, hvl]), hzr]

theorem leafBatch_spec {c : Codec} {t : LeafTag} (ht : t.Replaces) {F : BoolReader → Prop} {E : t.ρ → Prop} {r : ColReader t.ρ} {a b : List (Option GoVal)}
    (n : SchemaNode) (h : t.read.Holds c F E r (if n.hasNulls then a ++ b else (a ++ b).filter (·.isSome)))
    (hp : r.present = none ↔ n.hasNulls = false) (s : Slice) (hc : s.arr.length = B)
    (hs : s.len = a.length) (hle : a.length ≤ B) (hm : n.hasNulls = false → s.visible.map (·.null) = a.map (·.isNone)) :
    ∃ s' r', leafBatch t.read c r (.mk n.id n.kind (some s) []) = .ok (.mk n.id n.kind (some s') [], r') ∧
      t.read.Holds c F E r' (if n.hasNulls then b else b.filter (·.isSome)) ∧ (r'.present = none ↔ n.hasNulls = false) ∧ s'.arr.length = B ∧ s'.len = a.length ∧
      ((∀ x ∈ a, x.isSome = true) → Unmarked s.arr → Unmarked s'.arr) ∧ s'.visible.map Value.row = a ∧ r'.hasNulls = r.hasNulls ∧ r'.kind = r.kind ∧ r'.index = r.index :=
  kindBatch_spec (ht.prepare c) ht.store n h hp s hc hs hle hm

theorem bare_prepare {t : Option LeafTag} (ht : t.isSome = true) (c : Codec) (d : Unit) : (bareRead t).prepare c d = .ok d := by
  cases t with
  | none => cases ht
  | some t => rfl

theorem bare_store (t : Option LeafTag) (old x : GoVal) : (bareRead t).store old x = .ok x := by cases t <;> rfl

theorem isNone_of_isSome {l k : List (Option GoVal)} (h : l.map (·.isSome) = k.map (·.isSome)) : l.map (·.isNone) = k.map (·.isNone) := by
  have := congrArg (List.map (!·)) h
  simpa [Function.comp_def] using this

theorem NullsFrom.split {a b : Nat → List (Option GoVal)} {m : Nat} (ha : ∀ j, (a j).length = m) {par : Option Nat} {j : Nat}
    (h : NullsFrom (fun j => a j ++ b j) par j) : NullsFrom a par j ∧ NullsFrom b par j := by
  cases par with
  | none =>
    simp only [NullsFrom, List.map_append] at h ⊢
    exact List.append_inj h (by simp)
  | some p =>
    simp only [NullsFrom, List.map_append] at h ⊢
    exact List.append_inj h (by simp [ha])

/-- The rows of a batch of a column without a present stream are marked null where the column is. -/
theorem marked_rows {a : Nat → List (Option GoVal)} {m : Nat} (ha : ∀ j, (a j).length = m) {par : Option Nat} {j : Nat} (h : NullsFrom a par j)
    {s : Slice} (hc : m ≤ s.arr.length) (hs : s.len = m) (hu : par = none → Unmarked s.arr)
    (hn : ∀ p, par = some p → s.visible.map (·.null) = (a p).map (·.isNone)) : s.visible.map (·.null) = (a j).map (·.isNone) := by
  cases par with
  | none =>
    simp only [NullsFrom] at h
    have hvl : s.visible.length = m := by simp [Slice.visible]; omega
    apply List.ext_getElem
    · simp [ha, hvl]
    · intro i hi hi'
      simp only [List.getElem_map, List.length_map] at hi hi' ⊢
      have h1 : s.visible[i].null = false := hu rfl _ (List.mem_of_mem_take (List.getElem_mem _))
      have h2 : ((a j)[i]).isSome = true := by
        exact (List.map_inj_left.1 h) _ (List.getElem_mem _)
      rw [h1]
      cases hx : (a j)[i] with
      | none => simp [hx] at h2
      | some _ => rfl
  | some p =>
    simp only [NullsFrom] at h
    rw [hn p rfl, isNone_of_isSome h]

theorem RdHas.next {K : Keep} {c : Codec} {fuel : Nat} (a b : Nat → List (Option GoVal)) (m : Nat) (ha : ∀ j, (a j).length = m) (hm : m ≤ B) (s : Schema) :
    ∀ n par (x : Rd n) v, RdHas K c bo (fun j => a j ++ b j) n par s x → ShapeIn bo B m par.isSome s v → bo.isInclude s.node.id = true →
    (∀ p, par = some p → v.nulls = (a p).map (·.isNone)) →
    ∃ v' x', (rdOps c fuel n).nextBatch x v = .ok (v', x') ∧ RdHas K c bo b n par s x' ∧ ShapeIn bo B m par.isSome s v' ∧
      ∀ i < m, v'.cells i = rowAt (s.leaves bo) a i := by
  induction s using Schema.ind with
  | h nd cs ih =>
    intro n par x v hx hv hinc hnul
    match n, x with
    | n + 1, x =>
      change RdNode (Rd n) at x
      cases x with
      | dict r => simp [RdHas] at hx
      | list k p l i y => simp [RdHas] at hx
      | map k p l i y z => simp [RdHas] at hx
      | bare t r =>
        simp only [RdHas] at hx
        obtain ⟨hk, hcs, ht, hn, hp, hK, hh⟩ := hx
        generalize hun : par.isSome = under at hv ⊢
        cases hv with
        | struct _ _ vs kind nulls ne below => rw [kind] at hk; cases hk
        | optional _ _ _ s vs kind nulls cap size fits blank ne below => rw [kind] at hk; cases hk
        | leaf _ _ s plain cap size fits unmarked =>
          obtain ⟨s', r', g1, g2, g3, g4, g5, g6, g7, -, -, -⟩ := kindBatch_spec (R := bareRead t) (bare_prepare ht c) (bare_store t) (b := b nd.id) nd (by rw [if_pos hn]; exact hh)
            ⟨fun h => absurd h hp, fun h => by rw [hn] at h; cases h⟩ s cap (by rw [ha, size]) (by rw [ha]; exact hm) (fun h => by rw [hn] at h; cases h)
          rw [ha] at g5
          rw [if_pos hn] at g2
          refine ⟨_, (RdNode.bare t r' : RdNode (Rd n)), ?_, ?_, .leaf _ nd s' plain g4 g5 hm (fun h => by rw [hn] at h; cases h), ?_⟩
          · show RdNode.nextBatch (rdOps c fuel n) c fuel (.bare t r) _ = _
            simp only [RdNode.nextBatch, g1, Res.ok_bind, Res.pure_eq]; rfl
          · simp only [RdHas]; exact ⟨hk, trivial, ht, hn, (fun h => absurd (g3.1 h) (by rw [hn]; exact Bool.noConfusion)), hK, g2⟩
          · intro i hi
            have hlt : i < s'.visible.length := by
              have := congrArg List.length g7
              rw [List.length_map, ha] at this; omega
            have hcell : s'.visible[i].row = ((a nd.id)[i]'(by rw [ha]; exact hi)) := by
              simp only [← g7, List.getElem_map]
            have hns : nd.hasVector = true := by
              have : nd.kind ≠ .struct := by rintro h; rw [h] at plain; cases plain
              simp [SchemaNode.hasVector, this]
            simp only [Vec.cells, visibleRows, List.getElem?_eq_getElem hlt, Option.map_some, Option.toList_some, cellsAll, List.append_nil,
              rowAt, Schema.leaves, Schema.node] at hinc ⊢
            rw [if_pos hinc, if_pos hns]
            simp only [leavesAll, List.append_nil, List.map_cons, List.map_nil, hcell, List.getElem?_eq_getElem (by rw [ha]; exact hi : i < (a nd.id).length),
              Option.join_some]
      | leaf t r =>
        simp only [RdHas] at hx
        obtain ⟨hk, hcs, ht, hp, hfrom, F, E, hK, hh⟩ := hx
        generalize hun : par.isSome = under at hv ⊢
        cases hv with
        | struct _ _ vs kind nulls ne below => rw [kind] at hk; cases hk
        | optional _ _ _ s vs kind nulls cap size fits blank ne below => rw [kind] at hk; cases hk
        | leaf _ _ s plain cap size fits unmarked =>
          have hmarks : nd.hasNulls = false → s.visible.map (·.null) = (a nd.id).map (·.isNone) := fun hn =>
            marked_rows ha ((hfrom hn).split ha).1 (by omega) size (fun h => unmarked hn (by rw [← hun, h]; rfl)) hnul
          obtain ⟨s', r', g1, g2, g3, g4, g5, g6, g7, g0, g8, g9⟩ := leafBatch_spec ht nd hh hp s cap (by rw [ha, size]) (by rw [ha]; exact hm) hmarks
          rw [ha] at g5
          have hmk : nd.hasNulls = false → under = false → Unmarked s'.arr := by
            intro hn hpar
            refine g6 (fun x hx => ?_) (unmarked hn hpar)
            have h1 := ((hfrom hn).split ha).1
            have : par = none := by cases par <;> simp_all
            subst this
            simp only [NullsFrom] at h1
            have := (List.map_inj_left.1 h1) x hx
            simpa using this
          refine ⟨_, (RdNode.leaf t r' : RdNode (Rd n)), ?_, ?_, .leaf _ nd s' plain g4 g5 hm hmk, ?_⟩
          · show RdNode.nextBatch (rdOps c fuel n) c fuel (.leaf t r) _ = _
            simp only [RdNode.nextBatch, g1, Res.ok_bind, Res.pure_eq]; rfl
          · simp only [RdHas]; exact ⟨hk, trivial, ht, g3, fun hn => ((hfrom hn).split ha).2, F, E, by rw [g0, g8, g9]; exact hK, g2⟩
          · intro i hi
            have hlt : i < s'.visible.length := by
              have := congrArg List.length g7
              rw [List.length_map, ha] at this; omega
            have hcell : s'.visible[i].row = ((a nd.id)[i]'(by rw [ha]; exact hi)) := by
              simp only [← g7, List.getElem_map]
            have hns : nd.hasVector = true := by
              have : nd.kind ≠ .struct := by rintro h; rw [h] at plain; cases plain
              simp [SchemaNode.hasVector, this]
            simp only [Vec.cells, visibleRows, List.getElem?_eq_getElem hlt, Option.map_some, Option.toList_some, cellsAll, List.append_nil,
              rowAt, Schema.leaves, Schema.node] at hinc ⊢
            rw [if_pos hinc, if_pos hns]
            simp only [leavesAll, List.append_nil, List.map_cons, List.map_nil, hcell, List.getElem?_eq_getElem (by rw [ha]; exact hi : i < (a nd.id).length),
              Option.join_some]
      | struct k p idx rs =>
        simp only [RdHas] at hx
        obtain ⟨hk, hpar, hflags, hrs⟩ := hx
        have hall : ∀ (par : Option Nat) (ds : List Schema) (vs : List Vec) (rs : List (Rd n)), (∀ d ∈ ds, d ∈ cs) →
            List.Forall₂ (fun s v => ShapeIn bo B m par.isSome s v ∧ ∀ p, par = some p → v.nulls = (a p).map (·.isNone))
              (ds.filter fun c => bo.isInclude c.node.id) vs →
            List.Forall₂ (RdHas K c bo (fun j => a j ++ b j) n par) (ds.filter fun c => bo.isInclude c.node.id) rs →
            ∃ vs' rs', childBatches (rdOps c fuel n) rs vs = .ok (vs', rs') ∧
              List.Forall₂ (RdHas K c bo b n par) (ds.filter fun c => bo.isInclude c.node.id) rs' ∧
              List.Forall₂ (ShapeIn bo B m par.isSome) (ds.filter fun c => bo.isInclude c.node.id) vs' ∧
              ∀ i < m, cellsAll i vs' = rowAt (leavesAll bo ds) a i := by
          intro par ds
          induction ds with
          | nil =>
            intro vs rs _ h1 h2
            cases h1; cases h2
            exact ⟨[], [], rfl, .nil, .nil, fun i _ => rfl⟩
          | cons d ds ih2 =>
            intro vs rs hmem h1 h2
            rw [List.filter_cons] at h1 h2 ⊢
            by_cases hd : bo.isInclude d.node.id = true
            · rw [if_pos hd] at h1 h2 ⊢
              cases h1 with
              | cons hv hvs =>
                cases h2 with
                | cons hr hrs =>
                  obtain ⟨v', x', e1, e2, e3, e4⟩ := ih d (hmem d (by simp)) n par _ _ hr hv.1 hd hv.2
                  obtain ⟨vs', rs', f1, f2, f3, f4⟩ := ih2 _ _ (fun d hd => hmem d (by simp [hd])) hvs hrs
                  refine ⟨v' :: vs', x' :: rs', ?_, .cons e2 f2, .cons e3 f3, fun i hi => ?_⟩
                  · simp only [childBatches, e1, f1, Res.ok_bind, Res.pure_eq]
                  · simp only [cellsAll, e4 i hi, f4 i hi, leavesAll, rowAt, List.map_append]
            · rw [if_neg hd] at h1 h2 ⊢
              obtain ⟨vs', rs', f1, f2, f3, f4⟩ := ih2 _ _ (fun d hd => hmem d (by simp [hd])) h1 h2
              refine ⟨vs', rs', f1, f2, f3, fun i hi => ?_⟩
              rw [f4 i hi]
              cases d with
              | mk dn dcs =>
                simp only [Schema.node] at hd
                simp only [leavesAll, Schema.leaves, if_neg hd, List.nil_append]
        simp only [Schema.node] at hinc
        generalize hun : par.isSome = under at hv ⊢
        cases hv with
        | leaf _ _ s plain cap size fits unmarked => rw [hk] at plain; cases plain
        | struct _ _ vs kind nulls ne below =>
          simp only [nulls] at hflags hrs
          cases p with
          | some q => simp [FlagsHave] at hflags
          | none =>
            simp only [Bool.false_eq_true, if_false] at hrs
            obtain ⟨vs', rs', e1, e2, e3, e4⟩ := hall none cs vs rs (fun _ h => h)
              (forall₂_imp_mem below fun _ _ _ h => ⟨h, fun p hp => by simp at hp⟩) hrs
            refine ⟨_, (RdNode.struct k none idx rs' : RdNode (Rd n)), ?_, ?_, .struct nd cs vs' kind nulls ne e3, fun i hi => ?_⟩
            · show RdNode.nextBatch (rdOps c fuel n) c fuel (.struct k none idx rs) _ = _
              simp only [RdNode.nextBatch, structBatch, e1, Res.ok_bind, Res.pure_eq]; rfl
            · simp only [RdHas, nulls, Bool.false_eq_true, if_false]; exact ⟨hk, fun _ => hpar nulls, rfl, e2⟩
            · have hnv : nd.hasVector = false := by simp [SchemaNode.hasVector, hk, nulls]
              simp only [Vec.cells, visibleRows, List.getElem?_nil, Option.map_none, Option.toList_none, List.nil_append, e4 i hi, Schema.leaves,
                if_pos hinc, hnv, Bool.false_eq_true, if_false]
        | optional _ _ _ s vs kind nulls cap size fits blank ne below =>
          simp only [nulls] at hflags hrs
          cases p with
          | none => simp [FlagsHave] at hflags
          | some q =>
            simp only [if_true] at hrs
            obtain ⟨-, hblank, F, q', hK, hy, hF⟩ := hflags
            rw [List.map_append] at hy
            obtain ⟨q1, y1, y2⟩ := hy.split
            have hvl : s.visible.length = m := by simp [Slice.visible]; omega
            have hrf := readFlags_yields c s.visible q q1 _ (by rw [List.length_map, ha, hvl]) y1
            generalize hz : List.zipWith (fun v b => ({ v with null := !b } : Value)) s.visible ((a nd.id).map (·.isSome)) = z at hrf
            have hzl : z.length = m := by rw [← hz]; simp [hvl, ha]
            have hvis : (s.update z).visible = z := Slice.visible_update s z (by rw [hzl, hvl])
            have hznull : z.map (·.null) = (a nd.id).map (·.isNone) := by
              rw [← hz]
              apply List.ext_getElem
              · simp [hvl, ha]
              · intro i hi hi'
                simp only [List.getElem_map, List.getElem_zipWith, Option.not_isSome]
            have hzrow : z.map Value.row = a nd.id := by
              rw [← hz]
              apply List.ext_getElem
              · simp [hvl, ha]
              · intro i hi hi'
                simp only [List.getElem_map, List.getElem_zipWith, Value.row, Option.not_isSome]
                have hb := blank (s.visible[i]'(by rw [hvl, ← ha nd.id]; exact hi')) (List.mem_of_mem_take (List.getElem_mem _))
                rcases hblank ((a nd.id)[i]) (by simp) with h | h
                · simp [h]
                · simp [h, hb]
            obtain ⟨vs1, f1, f2⟩ := ShapeIn.fillAll (flags := (a nd.id).map (·.isNone)) (by rw [List.length_map, ha]) below
            obtain ⟨vs', rs', e1, e2, e3, e4⟩ := hall (some nd.id) cs vs1 rs (fun _ h => h)
              (forall₂_imp_mem f2 fun _ _ _ h => ⟨h.1, fun p hp => by cases hp; exact h.2⟩) hrs
            have hblank' : ∀ v ∈ (s.update z).arr, v.v = .nil := by
              intro v hv
              simp only [Slice.update, List.mem_append] at hv
              rcases hv with hv | hv
              · rw [← hz] at hv
                obtain ⟨i, hi, rfl⟩ := List.getElem_of_mem hv
                simp only [List.getElem_zipWith]
                exact blank _ (List.mem_of_mem_take (List.getElem_mem _))
              · exact blank v (List.mem_of_mem_drop hv)
            refine ⟨_, (RdNode.struct k (some q1) idx rs' : RdNode (Rd n)), ?_, ?_,
              .optional _ nd cs (s.update z) vs' kind nulls ?_ ?_ fits hblank' ne e3, fun i hi => ?_⟩
            · show RdNode.nextBatch (rdOps c fuel n) c fuel (.struct k (some q) idx rs) _ = _
              simp only [RdNode.nextBatch, structBatch, visibleRows, hrf, fillNulls, updateRows, Option.map_some, hvis, hznull, f1, e1, Res.ok_bind,
                Res.pure_eq]; rfl
            · simp only [RdHas, nulls, if_true]
              exact ⟨hk, fun h => by simp at h, ⟨rfl, fun x hx => hblank x (by simp [hx]), F, q', hK, y2, hF⟩, e2⟩
            · simp only [Slice.update, List.length_append, List.length_drop]; omega
            · simp [Slice.update, size]
            · have hnv : nd.hasVector = true := by simp [SchemaNode.hasVector, nulls]
              have hlt : i < z.length := by omega
              have hcell : z[i].row = ((a nd.id)[i]'(by rw [ha]; exact hi)) := by
                simp only [← hzrow, List.getElem_map]
              simp only [Vec.cells, visibleRows, hvis, List.getElem?_eq_getElem hlt, Option.map_some, Option.toList_some, e4 i hi, Schema.leaves,
                if_pos hinc, hnv, if_true, rowAt, List.map_append, List.map_cons, List.map_nil, hcell,
                List.getElem?_eq_getElem (by rw [ha]; exact hi : i < (a nd.id).length), Option.join_some]

end

/-- A row with known columns is determined by its cells. -/
theorem Row.eq_cells (ids : List Nat) (hn : ids.Nodup) : ∀ (r : Row), r.map (·.1) = ids → ids.map (fun j => (j, r.cell j)) = r := by
  intro r
  induction r generalizing ids with
  | nil => intro h; subst h; rfl
  | cons x r ih =>
    intro h
    subst h
    simp only [List.map_cons, List.nodup_cons] at hn ⊢
    refine List.cons_eq_cons.2 ⟨?_, ?_⟩
    · obtain ⟨k, v⟩ := x
      simp [Row.cell, List.lookup]
    · conv_rhs => rw [← ih _ hn.2 rfl]
      apply List.map_congr_left
      intro j hj
      have : j ≠ x.1 := fun h => hn.1 (h ▸ hj)
      obtain ⟨k, v⟩ := x
      have hb : (j == k) = false := by simpa using this
      simp [Row.cell, List.lookup, hb]

/-- Column readers that hold the rows `rows` of the included columns. -/
def RowsLeft (K : Keep) (c : Codec) (bo : BatchOption) (s : Schema) (n : Nat) (x : Rd n) (rows : List Row) : Prop :=
  (∀ r ∈ rows, r.map (·.1) = s.leaves bo) ∧ RdHas K c bo (fun j => rows.map (Row.cell j)) n none s x

/-- Trees of column readers deliver rows. -/
theorem rd_delivers (K : Keep) (c : Codec) (fuel : Nat) (bo : BatchOption) (s : Schema) (n : Nat) (hinc : bo.isInclude s.node.id = true)
    (hasNulls : List Bool) (hn : ∀ c ∈ s.columns, c.node.kind = .struct → hasNulls[c.node.id]? = some c.node.hasNulls) (hnd : (s.leaves bo).Nodup) (B : Nat) :
    Delivers (rdOps c fuel n) hasNulls B (fun v => ∃ len, BatchShape bo B len s v) (RowsLeft K c bo s n) Vec.tableRows where
  cleared := by
    rintro vec ⟨len, hv⟩
    obtain ⟨v', h1, h2⟩ := ShapeIn.clear s vec hv
    obtain ⟨h3, h4⟩ := ShapeIn.len_cap s v' h2
    exact ⟨v', h1, ⟨0, h2⟩, by simp [Vec.tableRows, h3], h3, h4⟩
  next := by
    rintro vec ⟨len, hv⟩ - x rows rest hle ⟨hk, hx⟩
    obtain ⟨sized, h1, h2⟩ := ShapeIn.setSize hasNulls rows.length hle s false hn vec hv
    have hx' : RdHas K c bo (fun j => rows.map (Row.cell j) ++ rest.map (Row.cell j)) n none s x := by
      simpa only [List.map_append] using hx
    obtain ⟨v', x', g1, g2, g3, g4⟩ := RdHas.next (fuel := fuel) (fun j => rows.map (Row.cell j)) (fun j => rest.map (Row.cell j)) rows.length
      (fun j => by simp) hle s n none x sized hx' h2 hinc (fun p hp => by simp at hp)
    obtain ⟨h3, h4⟩ := ShapeIn.len_cap s v' g3
    refine ⟨sized, v', x', h1, g1, ⟨fun r hr => hk r (by simp [hr]), g2⟩, ⟨_, g3⟩, ?_, h3, h4⟩
    apply List.ext_getElem
    · simp [Vec.tableRows, h3]
    · intro i hi hi'
      simp only [Vec.tableRows, List.getElem_map, List.getElem_range, g4 i hi', rowAt]
      have := Row.eq_cells _ hnd rows[i] (hk _ (by simp))
      conv_rhs => rw [← this]
      apply List.map_congr_left
      intro j hj
      simp [hi']

end Goorc
