import Verif.Spec.Projection
import Verif.Proofs.ReadAny
import Verif.Proofs.Open
import Verif.Proofs.StructNulls
/-
Vectors and readers for some of the columns.
-/
namespace Goorc

/-! ### Vectors -/

/-- A slice with room for `B` rows, and `len` rows. -/
def Slice.Sized (B len : Nat) (a : Slice) : Prop := a.arr.length = B ∧ a.len = len ∧ len ≤ B

/-- A vector for the columns `q` of a schema, with room for `B` rows, and with `len` rows. -/
inductive Suits (q : Nat → Bool) (B len : Nat) : Schema → Vec → Prop
  | leaf (n : SchemaNode) (a : Slice) (plain : n.kind.nested = false) (size : a.Sized B len) : Suits q B len (.mk n []) (.mk n.id n.kind (some a) [])
  | struct (n : SchemaNode) (cs : List Schema) (a : Option Slice) (vs : List Vec) (kind : n.kind = .struct)
      (flags : if n.hasNulls then ∃ b, a = some b ∧ b.Sized B len else a = none)
      (one : (cs.filter fun c => q c.node.id) ≠ [])
      (below : List.Forall₂ (Suits q B len) (cs.filter fun c => q c.node.id) vs) : Suits q B len (.mk n cs) (.mk n.id .struct a vs)

variable {q q₁ q₂ : Nat → Bool} {B len : Nat}

theorem Suits.kept {s : Schema} {v : Vec} (h : Suits q B len s v) (p : Nat → Bool) : v.kept p = p s.node.id := by
  cases h <;> rfl

theorem Suits.not_nil {s : Schema} {v : Vec} (h : Suits q B len s v) : v ≠ .nil := by
  cases h <;> simp

theorem suits_len (s : Schema) : ∀ v, Suits q B len s v → v.len = len ∧ v.cap = B := by
  induction s using Schema.ind with
  | h n cs ih =>
    intro v h
    cases h with
    | leaf _ a plain size =>
      rw [Vec.len, Vec.cap]
      simp only [Option.map_some, Option.getD_some, size.2.1, size.1, and_true]
      split
      · rfl
      · omega
    | struct _ _ a vs kind flags one below =>
      generalize hf : (cs.filter fun c => q c.node.id) = fs at one below
      cases below with
      | nil => exact absurd rfl one
      | cons hc hcs =>
        rename_i c v fs vs
        obtain ⟨i1, i2⟩ := ih c (List.mem_of_mem_filter (hf ▸ List.mem_cons_self)) v hc
        rw [Vec.len]
        split at flags
        · obtain ⟨b, rfl, g1, g2, g3⟩ := flags
          simp only [Option.map_some, Option.getD_some, g2, i1, Vec.cap, g1, and_true]
          split <;> rfl
        · subst flags
          simp [i1, i2, Vec.cap]

theorem keepAll_filter {s : List Schema} {vs : List Vec} {R R' : Schema → Vec → Prop} (hR : ∀ c v, R c v → v.kept q₂ = q₂ c.node.id) (hk : ∀ c v, c ∈ s → R c v → q₂ c.node.id = true → R' c (v.keep q₂))
    (h : List.Forall₂ R s vs) : List.Forall₂ R' (s.filter fun c => q₂ c.node.id) (keepAll q₂ vs) := by
  induction h with
  | nil => exact .nil
  | cons hc hcs ih =>
    have ih := ih fun c v h => hk c v (List.mem_cons_of_mem _ h)
    rw [keepAll, hR _ _ hc]
    split
    · rename_i h
      rw [List.filter_cons, if_pos h]
      exact .cons (hk _ _ List.mem_cons_self hc h) ih
    · rename_i h
      rw [List.filter_cons, if_neg h]
      exact ih

/-- A choice with all structs on the way to a column, and in every struct at least one column. -/
def Sound (q : Nat → Bool) (s : Schema) : Prop :=
  ∀ c ∈ s.columns, c.node.kind = .struct → (q c.node.id = true ↔ ∃ d ∈ c.children, q d.node.id = true)

theorem filter_within (hsub : ∀ i, q₂ i = true → q₁ i = true) (cs : List Schema) :
    ((cs.filter fun c => q₁ c.node.id).filter fun c => q₂ c.node.id) = cs.filter fun c => q₂ c.node.id := by
  rw [List.filter_filter]
  apply List.filter_congr
  intro c _
  cases h : q₂ c.node.id with
  | false => rfl
  | true => simp [hsub _ h]

theorem suits_keep (hsub : ∀ i, q₂ i = true → q₁ i = true) (s : Schema) : Sound q₂ s → q₂ s.node.id = true → ∀ v, Suits q₁ B len s v → Suits q₂ B len s (v.keep q₂) := by
  induction s using Schema.ind with
  | h n cs ih =>
    intro hs hq v h
    cases h with
    | leaf _ a plain size => exact .leaf n a plain size
    | struct _ _ a vs kind flags one below =>
      have := keepAll_filter (q₂ := q₂) (R' := Suits q₂ B len) (fun c v h => h.kept q₂) (fun c v hc hv hq => ih c (List.mem_of_mem_filter hc)
        (fun d hd => hs d (columns_trans (columns_child (self_mem_columns _) (List.mem_of_mem_filter hc)) hd)) hq v hv) below
      rw [filter_within hsub] at this
      obtain ⟨d, hd, hdq⟩ := (hs _ (self_mem_columns _) kind).1 hq
      exact .struct n cs a _ kind flags (List.ne_nil_of_mem (List.mem_filter.2 ⟨hd, by exact hdq⟩)) this

theorem keep_self (s : Schema) : ∀ v, Suits q B len s v → v.keep q = v := by
  induction s using Schema.ind with
  | h n cs ih =>
    intro v h
    cases h with
    | leaf _ a plain size => rfl
    | struct _ _ a vs kind flags one below =>
      rw [Vec.keep]
      congr 1
      have : ∀ fs vs, (∀ c ∈ fs, c ∈ cs ∧ q c.node.id = true) → List.Forall₂ (Suits q B len) fs vs → keepAll q vs = vs := by
        intro fs vs hfs h
        induction h with
        | nil => rfl
        | cons hc hcs ihh =>
          obtain ⟨h1, h2⟩ := hfs _ List.mem_cons_self
          rw [keepAll, hc.kept, if_pos h2, ih _ h1 _ hc, ihh fun c hc => hfs c (List.mem_cons_of_mem _ hc)]
      exact this _ _ (fun c hc => List.mem_filter.1 hc) below

/-- What a function does to all vectors of a list, it does to those that are kept. -/
theorem all_keep {f : Vec → Res Vec} {fs : List Vec → Res (List Vec)} (hnil : fs [] = .ok [])
    (hcons : ∀ v vs, fs (v :: vs) = (do let v ← f v; let vs ← fs vs; pure (v :: vs))) {P P' : Schema → Vec → Prop}
    (hP : ∀ c v, P c v → v.kept q₂ = q₂ c.node.id) (hP' : ∀ c v, P' c v → v.kept q₂ = q₂ c.node.id) : ∀ (cs : List Schema) (vs vs' : List Vec),
    (∀ c ∈ cs, ∀ v v', P c v → f v = .ok v' → P' c v' ∧ (q₂ c.node.id = true → f (v.keep q₂) = .ok (v'.keep q₂))) →
    List.Forall₂ P cs vs → fs vs = .ok vs' → List.Forall₂ P' cs vs' ∧ fs (keepAll q₂ vs) = .ok (keepAll q₂ vs') := by
  intro cs
  induction cs with
  | nil =>
    intro vs vs' _ h hf
    cases h
    rw [hnil] at hf
    cases hf
    exact ⟨.nil, hnil⟩
  | cons c cs ih =>
    intro vs vs' each h hf
    cases h with
    | cons hc hcs =>
      rename_i v vs
      rw [hcons] at hf
      obtain ⟨v', e1, hf⟩ := Res.bind_ok_inv hf
      obtain ⟨vs1, e2, hf⟩ := Res.bind_ok_inv hf
      cases hf
      obtain ⟨k1, k2⟩ := each c List.mem_cons_self v v' hc e1
      obtain ⟨i1, i2⟩ := ih vs vs1 (fun c hc => each c (List.mem_cons_of_mem _ hc)) hcs e2
      refine ⟨.cons k1 i1, ?_⟩
      rw [keepAll, keepAll, hP _ _ hc, hP' _ _ k1]
      split
      · rename_i hq
        rw [hcons, k2 hq, i2]
        rfl
      · exact i2

theorem clear_keep (s : Schema) : ∀ v v', Suits q₁ B len s v → v.clear = .ok v' → Suits q₁ B 0 s v' ∧ (v.keep q₂).clear = .ok (v'.keep q₂) := by
  induction s using Schema.ind with
  | h n cs ih =>
    intro v v' h hv
    cases h with
    | leaf _ a plain size =>
      rw [Vec.clear, clearAll] at hv
      cases hv
      exact ⟨.leaf n _ plain ⟨size.1, rfl, Nat.zero_le _⟩, rfl⟩
    | struct _ _ a vs kind flags one below =>
      rw [Vec.clear] at hv
      obtain ⟨vs', e1, hv⟩ := Res.bind_ok_inv hv
      cases hv
      obtain ⟨k1, k2⟩ := all_keep (f := Vec.clear) (fs := clearAll) (by rw [clearAll]) (fun v vs => by rw [clearAll]) (fun c v h => h.kept q₂) (fun c v h => h.kept q₂) _ _ _
        (fun c hc v v' h1 h2 => ⟨(ih c (List.mem_of_mem_filter hc) v v' h1 h2).1, fun _ => (ih c (List.mem_of_mem_filter hc) v v' h1 h2).2⟩) below e1
      refine ⟨.struct n cs _ _ kind ?_ one k1, ?_⟩
      · split at flags
        · obtain ⟨b, rfl, g⟩ := flags
          rename_i hn
          rw [if_pos hn]
          exact ⟨_, rfl, g.1, rfl, Nat.zero_le _⟩
        · subst flags
          rename_i hn
          rw [if_neg hn]
          rfl
      · rw [Vec.keep, Vec.clear, k2]
        rfl

theorem resize_sized {size : Int} {a : Slice} {a' : Option Slice} (h : a.Sized B len) (hr : resize size (some a) = .ok a') :
    ∃ b, a' = some b ∧ b.Sized B size.toNat := by
  rw [resize] at hr
  split at hr
  · rename_i hc
    cases hr
    exact ⟨_, rfl, h.1, rfl, by rw [← h.1]; exact hc.2⟩
  · cases hr

theorem size_keep {hasNulls : List Bool} {size : Int} (s : Schema) : (∀ c ∈ s.columns, hasNulls[c.node.id]? = some c.node.hasNulls) → ∀ v v', Suits q₁ B len s v →
    setVectorSize hasNulls size v = .ok v' → Suits q₁ B size.toNat s v' ∧ setVectorSize hasNulls size (v.keep q₂) = .ok (v'.keep q₂) := by
  induction s using Schema.ind with
  | h n cs ih =>
    intro hn v v' h hv
    cases h with
    | leaf _ a plain size' =>
      have key : setVectorSize hasNulls size (.mk n.id n.kind (some a) []) = (do let s ← resize size (some a); pure (.mk n.id n.kind s [])) := by
        cases n with
        | mk i k e hn => cases k <;> first | (exfalso; simp [TypeKind.nested] at plain; done) | (rw [setVectorSize] <;> simp)
      rw [Vec.keep, keepAll]
      refine ⟨?_, ?_⟩
      · rw [key] at hv
        obtain ⟨a', e1, hv⟩ := Res.bind_ok_inv hv
        cases hv
        obtain ⟨b, rfl, hb⟩ := resize_sized size' e1
        exact .leaf n b plain hb
      · rw [hv]
        rw [key] at hv
        obtain ⟨a', e1, hv⟩ := Res.bind_ok_inv hv
        cases hv
        rfl
    | struct _ _ a vs kind flags one below =>
      have h0 := hn _ (self_mem_columns _)
      simp only [node_mk] at h0
      rw [setVectorSize] at hv
      simp only [h0] at hv
      obtain ⟨a', e1, hv⟩ := Res.bind_ok_inv hv
      obtain ⟨vs', e2, hv⟩ := Res.bind_ok_inv hv
      cases hv
      have hch : ∀ c ∈ cs, ∀ v v', Suits q₁ B len c v → setVectorSize hasNulls size v = .ok v' →
          Suits q₁ B size.toNat c v' ∧ setVectorSize hasNulls size (v.keep q₂) = .ok (v'.keep q₂) := fun c hc =>
        ih c hc fun d hd => hn d (columns_trans (columns_child (self_mem_columns _) hc) hd)
      obtain ⟨k1, k2⟩ := all_keep (f := setVectorSize hasNulls size) (fs := setVectorSizes hasNulls size) (by rw [setVectorSizes]) (fun v vs => by rw [setVectorSizes])
        (fun c v h => h.kept q₂) (fun c v h => h.kept q₂) _ _ _
        (fun c hc v v' h1 h2 => ⟨(hch c (List.mem_of_mem_filter hc) v v' h1 h2).1, fun _ => (hch c (List.mem_of_mem_filter hc) v v' h1 h2).2⟩) below e2
      refine ⟨.struct n cs _ _ kind ?_ one k1, ?_⟩
      · split at flags
        · obtain ⟨b, rfl, g⟩ := flags
          rename_i hnn
          rw [if_pos hnn] at e1 ⊢
          exact resize_sized g e1
        · subst flags
          rename_i hnn
          rw [if_neg hnn] at e1 ⊢
          cases e1
          rfl
      · rw [Vec.keep, setVectorSize]
        simp only [h0, e1, k2, Res.ok_bind]
        rfl

theorem setNulls_sized {flags : List Bool} {a : Slice} {a' : Option Slice} (h : a.Sized B len) (hr : setNulls flags (some a) = .ok a') : ∃ b, a' = some b ∧ b.Sized B len := by
  rw [setNulls] at hr
  split at hr
  · rename_i hc
    cases hr
    refine ⟨_, rfl, ?_, h.2.1, h.2.2⟩
    simp only [visibleRows, Slice.visible, List.length_take] at hc
    simp only [Slice.update, visibleRows, Slice.visible, List.length_append, List.length_zipWith, List.length_take, List.length_drop]
    have := h.1
    omega
  · cases hr

theorem fill_keep (s : Schema) : ∀ flags v v', Suits q₁ B len s v → fillDown flags v = .ok v' → Suits q₁ B len s v' ∧ fillDown flags (v.keep q₂) = .ok (v'.keep q₂) := by
  induction s using Schema.ind with
  | h n cs ih =>
    intro flags v v' h hv
    cases h with
    | leaf _ a plain size =>
      have hv' := hv
      rw [fillDown] at hv
      obtain ⟨a', e1, hv⟩ := Res.bind_ok_inv hv
      rw [fillDownAll] at hv
      cases hv
      obtain ⟨b, rfl, hb⟩ := setNulls_sized size e1
      exact ⟨.leaf n b plain hb, hv'⟩
    | struct _ _ a vs kind flg one below =>
      rw [fillDown] at hv
      obtain ⟨a', e1, hv⟩ := Res.bind_ok_inv hv
      obtain ⟨vs', e2, hv⟩ := Res.bind_ok_inv hv
      cases hv
      obtain ⟨k1, k2⟩ := all_keep (f := fillDown ((visibleRows a').map (·.null))) (fs := fillDownAll ((visibleRows a').map (·.null))) (by rw [fillDownAll]) (fun v vs => by rw [fillDownAll])
        (fun c v h => h.kept q₂) (fun c v h => h.kept q₂) _ _ _
        (fun c hc v v' h1 h2 => ⟨(ih c (List.mem_of_mem_filter hc) _ v v' h1 h2).1, fun _ => (ih c (List.mem_of_mem_filter hc) _ v v' h1 h2).2⟩) below e2
      refine ⟨.struct n cs _ _ kind ?_ one k1, ?_⟩
      · split at flg
        · obtain ⟨b, rfl, g⟩ := flg
          rename_i hnn
          rw [if_pos hnn]
          exact setNulls_sized g e1
        · subst flg
          rename_i hnn
          rw [if_neg hnn]
          rw [setNulls] at e1
          split at e1
          · cases e1; rfl
          · cases e1
      · rw [Vec.keep, fillDown, e1]
        simp only [Res.ok_bind, k2]
        rfl

/-! ### Creating vectors -/

theorem create_keep {o₁ o₂ : BatchOption} (hB : o₁.rowSize = o₂.rowSize) (h1 : o₁.notCreateVector = false) (h2 : o₂.notCreateVector = false)
    (hsub : ∀ i, o₂.isInclude i = true → o₁.isInclude i = true) (s : Schema) : s.Structs → Sound o₁.isInclude s → o₁.isInclude s.node.id = true →
    ∀ v, createVec o₁ s = .ok v → Suits o₁.isInclude o₁.rowSize o₁.rowSize s v ∧ (o₂.isInclude s.node.id = true → createVec o₂ s = .ok (v.keep o₂.isInclude)) := by
  induction s using Schema.ind with
  | h n cs ih =>
    intro hs hso hin v hv
    have hsized : ∀ g, (makeSlice o₁.rowSize g).Sized o₁.rowSize o₁.rowSize := fun g => ⟨by simp [makeSlice], rfl, Nat.le_refl _⟩
    simp only [node_mk] at hin
    rcases hs _ (self_mem_columns _) with hk | ⟨hk, hc⟩
    · simp only [node_mk] at hk
      rw [createVec, if_pos hin] at hv
      simp only [hk] at hv
      obtain ⟨vs, e, hv⟩ := Res.bind_ok_inv hv
      cases hv
      have key : ∀ (ds : List Schema) vs, (∀ c ∈ ds, c ∈ cs) → createVecs o₁ ds = .ok vs →
          List.Forall₂ (Suits o₁.isInclude o₁.rowSize o₁.rowSize) (ds.filter fun c => o₁.isInclude c.node.id) vs ∧ createVecs o₂ ds = .ok (keepAll o₂.isInclude vs) := by
        intro ds
        induction ds with
        | nil => intro vs _ h; rw [createVecs] at h; cases h; exact ⟨.nil, by rw [createVecs, keepAll]⟩
        | cons c ds ihd =>
          intro vs hd h
          rw [createVecs] at h
          obtain ⟨v, e1, h⟩ := Res.bind_ok_inv h
          obtain ⟨vs1, e2, h⟩ := Res.bind_ok_inv h
          obtain ⟨i1, i2⟩ := ihd vs1 (fun c hc => hd c (List.mem_cons_of_mem _ hc)) e2
          have hcs := hd c List.mem_cons_self
          rw [createVecs]
          by_cases hi : o₁.isInclude c.node.id = true
          · obtain ⟨k1, k2⟩ := ih c hcs (fun d hd => hs d (columns_trans (columns_child (self_mem_columns _) hcs) hd))
              (fun d hd => hso d (columns_trans (columns_child (self_mem_columns _) hcs) hd)) hi v e1
            rw [List.filter_cons, if_pos hi]
            cases v with
            | nil => exact absurd rfl k1.not_nil
            | mk i k a us =>
              cases h
              refine ⟨.cons k1 i1, ?_⟩
              rw [keepAll, k1.kept]
              by_cases hi2 : o₂.isInclude c.node.id = true
              · rw [if_pos hi2, k2 hi2, i2]
                rfl
              · rw [if_neg hi2]
                cases c with
                | mk m es =>
                  simp only [node_mk] at hi2
                  rw [createVec, if_neg hi2, i2]
                  rfl
          · have hi2 : ¬ o₂.isInclude c.node.id = true := fun h => hi (hsub _ h)
            rw [List.filter_cons, if_neg hi]
            cases c with
            | mk m es =>
              simp only [node_mk] at hi hi2
              rw [createVec, if_neg hi] at e1
              cases e1
              cases h
              refine ⟨i1, ?_⟩
              rw [createVec, if_neg hi2, i2]
              rfl
      obtain ⟨k1, k2⟩ := key cs vs (fun _ h => h) e
      obtain ⟨d, hd, hdq⟩ := (hso _ (self_mem_columns _) hk).1 hin
      refine ⟨?_, fun hin2 => ?_⟩
      · refine .struct n cs _ _ hk ?_ (List.ne_nil_of_mem (List.mem_filter.2 ⟨hd, hdq⟩)) k1
        rw [h1]
        cases n.hasNulls with
        | true => exact ⟨_, rfl, hsized _⟩
        | false => rfl
      · simp only [node_mk] at hin2
        rw [createVec, if_pos hin2]
        simp only [hk, k2, Res.ok_bind, Vec.keep, h1, h2, hB]
        rfl
    · simp only [node_mk] at hk
      simp only [Schema.children] at hc
      subst hc
      have cr : ∀ o : BatchOption, o.notCreateVector = false → o.isInclude n.id = true → createVec o (.mk n []) = .ok (.mk n.id n.kind (some (makeSlice o.rowSize n.kind.zero)) []) := by
        intro o ho hi
        rw [createVec, if_pos hi]
        cases hkk : n.kind <;> rw [hkk] at hk <;> first | exact absurd hk (by decide) | (simp only [ho]; rfl)
      rw [cr o₁ h1 hin] at hv
      cases hv
      refine ⟨.leaf n _ hk (hsized _), fun hin2 => ?_⟩
      rw [cr o₂ h2 hin2, hB]
      rfl

/-! ### Readers -/

/-- The readers of the children of a struct, for the choices `q₁` and `q₂`. -/
inductive Kids {χ : Type} (q₁ q₂ : Nat → Bool) (R : Schema → χ → χ → Prop) (S : Schema → χ → Prop) : List Schema → List χ → List χ → Prop
  | nil : Kids q₁ q₂ R S [] [] []
  | both {c cs x y xs ys} : q₁ c.node.id = true → q₂ c.node.id = true → R c x y → Kids q₁ q₂ R S cs xs ys → Kids q₁ q₂ R S (c :: cs) (x :: xs) (y :: ys)
  | one {c cs x xs ys} : q₁ c.node.id = true → q₂ c.node.id = false → S c x → Kids q₁ q₂ R S cs xs ys → Kids q₁ q₂ R S (c :: cs) (x :: xs) ys
  | neither {c cs xs ys} : q₁ c.node.id = false → q₂ c.node.id = false → Kids q₁ q₂ R S cs xs ys → Kids q₁ q₂ R S (c :: cs) xs ys

/-- `y` is the reader of the columns `q₂` where `x` is that of the columns `q₁`. -/
def Narrow (q₁ : Nat → Bool) : (n : Nat) → (Nat → Bool) → Schema → Rd n → Rd n → Prop
  | 0, _, _, _, _ => False
  | n + 1, q₂, s, x, y =>
    ((s.node.kind.nested = false ∧ s.children = []) ∧ x = y ∧ ((∃ t r, x = (RdNode.leaf t r : RdNode (Rd n))) ∨ (∃ r, x = (RdNode.dict r : RdNode (Rd n))) ∨ ∃ t r, x = (RdNode.bare t r : RdNode (Rd n)))) ∨
    (s.node.kind = .struct ∧ ∃ kind p i xs ys, x = (RdNode.struct kind p i xs : RdNode (Rd n)) ∧ y = (RdNode.struct kind p i ys : RdNode (Rd n)) ∧
      Kids q₁ q₂ (Narrow q₁ n q₂) (fun c x => Narrow q₁ n q₁ c x x) s.children xs ys)

section
variable {χ : Type} {X : RdOps χ} {R : Schema → χ → χ → Prop} {S : Schema → χ → Prop}

theorem kids_batches (hR : ∀ c x y v v' x', R c x y → Suits q₁ B len c v → q₂ c.node.id = true → X.nextBatch x v = .ok (v', x') →
      ∃ y', X.nextBatch y (v.keep q₂) = .ok (v'.keep q₂, y') ∧ R c x' y' ∧ Suits q₁ B len c v')
    (hS : ∀ c x v v' x', S c x → Suits q₁ B len c v → q₁ c.node.id = true → X.nextBatch x v = .ok (v', x') → S c x' ∧ Suits q₁ B len c v')
    {cs : List Schema} {xs ys : List χ} (h : Kids q₁ q₂ R S cs xs ys) : ∀ (vs vs' : List Vec) (xs' : List χ), List.Forall₂ (Suits q₁ B len) (cs.filter fun c => q₁ c.node.id) vs →
    childBatches X xs vs = .ok (vs', xs') → ∃ ys', childBatches X ys (keepAll q₂ vs) = .ok (keepAll q₂ vs', ys') ∧ Kids q₁ q₂ R S cs xs' ys' ∧
      List.Forall₂ (Suits q₁ B len) (cs.filter fun c => q₁ c.node.id) vs' := by
  induction h with
  | nil =>
    intro vs vs' xs' hv h
    rw [childBatches] at h
    cases h
    exact ⟨[], by rw [childBatches], .nil, hv⟩
  | both h1 h2 hr hk ih =>
    intro vs vs' xs' hv h
    rw [List.filter_cons, if_pos h1] at hv ⊢
    cases hv with
    | cons hc hcs =>
      rw [childBatches] at h
      obtain ⟨⟨v', x'⟩, e1, h⟩ := Res.bind_ok_inv h
      obtain ⟨⟨vs1, xs1⟩, e2, h⟩ := Res.bind_ok_inv h
      cases h
      obtain ⟨y', k1, k2, k3⟩ := hR _ _ _ _ _ _ hr hc h2 e1
      obtain ⟨ys', i1, i2, i3⟩ := ih _ _ _ hcs e2
      refine ⟨y' :: ys', ?_, .both h1 h2 k2 i2, .cons k3 i3⟩
      rw [keepAll, hc.kept, if_pos h2, keepAll, k3.kept, if_pos h2, childBatches, k1]
      simp only [Res.ok_bind, i1]
      rfl
  | one h1 h2 hs hk ih =>
    intro vs vs' xs' hv h
    rw [List.filter_cons, if_pos h1] at hv ⊢
    cases hv with
    | cons hc hcs =>
      rw [childBatches] at h
      obtain ⟨⟨v', x'⟩, e1, h⟩ := Res.bind_ok_inv h
      obtain ⟨⟨vs1, xs1⟩, e2, h⟩ := Res.bind_ok_inv h
      cases h
      obtain ⟨k1, k2⟩ := hS _ _ _ _ _ hs hc h1 e1
      obtain ⟨ys', i1, i2, i3⟩ := ih _ _ _ hcs e2
      refine ⟨ys', ?_, .one h1 h2 k1 i2, .cons k2 i3⟩
      rw [keepAll, hc.kept, if_neg (by simp [h2]), keepAll, k2.kept, if_neg (by simp [h2]), i1]
  | neither h1 h2 hk ih =>
    intro vs vs' xs' hv h
    rw [List.filter_cons, if_neg (by simp [h1])] at hv ⊢
    obtain ⟨ys', i1, i2, i3⟩ := ih _ _ _ hv h
    exact ⟨ys', i1, .neither h1 h2 i2, i3⟩

/-- What is done to all readers, is done to those of some columns. -/
theorem kids_all {f : χ → Res χ} {fs : List χ → Res (List χ)} (hnil : fs [] = .ok []) (hcons : ∀ x xs, fs (x :: xs) = (do let x ← f x; let xs ← fs xs; pure (x :: xs)))
    (hR : ∀ c x y x', R c x y → f x = .ok x' → ∃ y', f y = .ok y' ∧ R c x' y') (hS : ∀ c x x', S c x → f x = .ok x' → S c x')
    {cs : List Schema} {xs ys : List χ} (h : Kids q₁ q₂ R S cs xs ys) : ∀ xs', fs xs = .ok xs' → ∃ ys', fs ys = .ok ys' ∧ Kids q₁ q₂ R S cs xs' ys' := by
  induction h with
  | nil => intro xs' h; rw [hnil] at h; cases h; exact ⟨[], hnil, .nil⟩
  | both h1 h2 hr hk ih =>
    intro xs' h
    rw [hcons] at h
    obtain ⟨x', e1, h⟩ := Res.bind_ok_inv h
    obtain ⟨xs1, e2, h⟩ := Res.bind_ok_inv h
    cases h
    obtain ⟨y', k1, k2⟩ := hR _ _ _ _ hr e1
    obtain ⟨ys', i1, i2⟩ := ih _ e2
    exact ⟨y' :: ys', by rw [hcons, k1, i1]; rfl, .both h1 h2 k2 i2⟩
  | one h1 h2 hs hk ih =>
    intro xs' h
    rw [hcons] at h
    obtain ⟨x', e1, h⟩ := Res.bind_ok_inv h
    obtain ⟨xs1, e2, h⟩ := Res.bind_ok_inv h
    cases h
    obtain ⟨ys', i1, i2⟩ := ih _ e2
    exact ⟨ys', i1, .one h1 h2 (hS _ _ _ hs e1) i2⟩
  | neither h1 h2 hk ih =>
    intro xs' h
    obtain ⟨ys', i1, i2⟩ := ih _ h
    exact ⟨ys', i1, .neither h1 h2 i2⟩

end

theorem leafBatch_suits {ρ : Type} (K : ReadKind ρ) (c : Codec) {r r' : ColReader ρ} {s : Schema} {v v' : Vec} (hs : s.node.kind.nested = false ∧ s.children = []) (h : Suits q B len s v)
    (hb : leafBatch K c r v = .ok (v', r')) : Suits q B len s v' := by
  cases h with
  | leaf n a plain size =>
    rw [leafBatch] at hb
    obtain ⟨⟨rows, r1⟩, e1, hb⟩ := Res.bind_ok_inv hb
    cases hb
    rw [ReadKind.nextBatch] at e1
    obtain ⟨d, -, e1⟩ := Res.bind_ok_inv e1
    have hl := K.nextRows_length c _ _ _ _ e1
    refine .leaf n _ plain ⟨?_, size.2.1, size.2.2⟩
    simp only [visibleRows, Slice.visible, List.length_take] at hl
    simp only [Slice.update, List.length_append, List.length_drop]
    have := size.1
    omega
  | struct n cs a vs kind flags one below =>
    simp only [node_mk] at hs
    rw [kind] at hs
    exact absurd hs.1 (by decide)

theorem readFlags_length (c : Codec) : ∀ (vs : List Value) (p p' : BoolReader) (rows : List Value), readFlags c p vs = .ok (rows, p') → rows.length = vs.length := by
  intro vs
  induction vs with
  | nil => intro p p' rows h; rw [readFlags] at h; cases h; rfl
  | cons v vs ih =>
    intro p p' rows h
    rw [readFlags] at h
    obtain ⟨⟨b, p1⟩, -, h⟩ := Res.bind_ok_inv h
    obtain ⟨⟨rs, p2⟩, e, h⟩ := Res.bind_ok_inv h
    cases h
    simp [ih _ _ _ e]

theorem structBatch_keep {χ : Type} {X : RdOps χ} {c : Codec} {p p' : Option BoolReader} {xs xs' : List χ} {m : SchemaNode} {fs : List Schema} {a : Option Slice} {vs : List Vec} {v' : Vec}
    (flags : if m.hasNulls then ∃ b, a = some b ∧ b.Sized B len else a = none) (below : List.Forall₂ (Suits q₁ B len) fs vs)
    (h : structBatch X c p xs (.mk m.id .struct a vs) = .ok (v', p', xs')) :
    ∃ a' vs1 vs2, v' = .mk m.id .struct a' vs2 ∧ (if m.hasNulls then ∃ b, a' = some b ∧ b.Sized B len else a' = none) ∧ List.Forall₂ (Suits q₁ B len) fs vs1 ∧
      childBatches X xs vs1 = .ok (vs2, xs') ∧ ∀ ys ys', childBatches X ys (keepAll q₂ vs1) = .ok (keepAll q₂ vs2, ys') →
        structBatch X c p ys (.mk m.id .struct a (keepAll q₂ vs)) = .ok (.mk m.id .struct a' (keepAll q₂ vs2), p', ys') := by
  rw [structBatch.eq_def] at h
  cases p with
  | none =>
    simp only [Res.pure_eq, Res.ok_bind] at h
    obtain ⟨⟨vs2, xs2⟩, e1, h⟩ := Res.bind_ok_inv h
    injection h with h
    simp only [Prod.mk.injEq] at h
    obtain ⟨rfl, rfl, rfl⟩ := h
    refine ⟨a, vs, vs2, rfl, flags, below, e1, fun ys ys' h => ?_⟩
    rw [structBatch.eq_def]
    simp only [Res.pure_eq, Res.ok_bind, h]
  | some p =>
    simp only at h
    obtain ⟨⟨w, p2⟩, e2, h⟩ := Res.bind_ok_inv h
    obtain ⟨⟨rows, p3⟩, f1, e2⟩ := Res.bind_ok_inv e2
    obtain ⟨w', f2, e2⟩ := Res.bind_ok_inv e2
    rw [fillNulls] at f2
    obtain ⟨vs', f3, f2⟩ := Res.bind_ok_inv f2
    cases f2
    cases e2
    simp only at h
    obtain ⟨⟨vs2, xs2⟩, e1, h⟩ := Res.bind_ok_inv h
    injection h with h
    simp only [Prod.mk.injEq] at h
    obtain ⟨rfl, rfl, rfl⟩ := h
    have hl := readFlags_length c _ _ _ _ f1
    obtain ⟨k1, k2⟩ := all_keep (q₂ := q₂) (f := fillDown ((visibleRows (updateRows a rows)).map (·.null))) (fs := fillDownAll ((visibleRows (updateRows a rows)).map (·.null)))
      (by rw [fillDownAll]) (fun v vs => by rw [fillDownAll])
      (fun c v h => h.kept q₂) (fun c v h => h.kept q₂) _ _ _
      (fun c _ v v' h1 h2 => ⟨(fill_keep (q₂ := q₂) c _ v v' h1 h2).1, fun _ => (fill_keep (q₂ := q₂) c _ v v' h1 h2).2⟩) below f3
    refine ⟨_, vs', vs2, rfl, ?_, k1, e1, fun ys ys' h => ?_⟩
    · by_cases hnn : m.hasNulls = true
      · rw [if_pos hnn] at flags ⊢
        obtain ⟨b, rfl, g⟩ := flags
        refine ⟨_, rfl, ?_, g.2.1, g.2.2⟩
        simp only [visibleRows, Slice.visible, List.length_take] at hl
        simp only [Slice.update, List.length_append, List.length_drop]
        have := g.1
        omega
      · rw [if_neg hnn] at flags ⊢
        subst flags
        rfl
    · rw [structBatch.eq_def]
      simp only [f1, Res.ok_bind, fillNulls, k2, Res.pure_eq, h]

theorem narrow_next (c : Codec) (fuel : Nat) : ∀ (n : Nat) (q₂ : Nat → Bool) (s : Schema) (x y : Rd n) (v v' : Vec) (x' : Rd n), (∀ i, q₂ i = true → q₁ i = true) →
    Narrow q₁ n q₂ s x y → Suits q₁ B len s v → (rdOps c fuel n).nextBatch x v = .ok (v', x') →
    ∃ y', (rdOps c fuel n).nextBatch y (v.keep q₂) = .ok (v'.keep q₂, y') ∧ Narrow q₁ n q₂ s x' y' ∧ Suits q₁ B len s v' := by
  intro n
  induction n with
  | zero => intro q₂ s x y v v' x' _ h; exact h.elim
  | succ n ih =>
    intro q₂ s x y v v' x' hsub h hv hb
    have hself : ∀ c' x v v' x', Narrow q₁ n q₁ c' x x → Suits q₁ B len c' v → (rdOps c fuel n).nextBatch x v = .ok (v', x') →
        Narrow q₁ n q₁ c' x' x' ∧ Suits q₁ B len c' v' := by
      intro c' x v v' x' h1 h2 h3
      obtain ⟨y', k1, k2, k3⟩ := ih q₁ c' x x v v' x' (fun _ h => h) h1 h2 h3
      rw [keep_self c' v h2, h3] at k1
      injection k1 with k1
      rw [(Prod.mk.inj k1).2]
      exact ⟨(Prod.mk.inj k1).2 ▸ k2, k3⟩
    rcases h with ⟨hleaf, rfl, hx⟩ | ⟨hk, kind, p, i, xs, ys, rfl, rfl, hkids⟩
    · have hsame : v.keep q₂ = v := by
        cases hv with
        | leaf => rfl
        | struct m cs a vs kind => simp only [node_mk] at hleaf; rw [kind] at hleaf; exact absurd hleaf.1 (by decide)
      have hfin : ∀ v'', Suits q₁ B len s v'' → v''.keep q₂ = v'' := by
        intro v'' h
        cases h with
        | leaf => rfl
        | struct m cs a vs kind => simp only [node_mk] at hleaf; rw [kind] at hleaf; exact absurd hleaf.1 (by decide)
      rw [hsame]
      rcases hx with ⟨t, r, rfl⟩ | ⟨r, rfl⟩ | ⟨t, r, rfl⟩
      · have hb' := hb
        simp only [rdOps, RdNode.nextBatch] at hb
        obtain ⟨⟨v1, r1⟩, e1, hb⟩ := Res.bind_ok_inv hb
        cases hb
        have := leafBatch_suits _ c hleaf hv e1
        exact ⟨_, by rw [hfin _ this]; exact hb', .inl ⟨hleaf, rfl, .inl ⟨_, _, rfl⟩⟩, this⟩
      · have hb' := hb
        simp only [rdOps, RdNode.nextBatch] at hb
        obtain ⟨⟨v1, r1⟩, e1, hb⟩ := Res.bind_ok_inv hb
        cases hb
        have := leafBatch_suits _ c hleaf hv e1
        exact ⟨_, by rw [hfin _ this]; exact hb', .inl ⟨hleaf, rfl, .inr (.inl ⟨_, rfl⟩)⟩, this⟩
      · have hb' := hb
        simp only [rdOps, RdNode.nextBatch] at hb
        obtain ⟨⟨v1, r1⟩, e1, hb⟩ := Res.bind_ok_inv hb
        cases hb
        have := leafBatch_suits _ c hleaf hv e1
        exact ⟨_, by rw [hfin _ this]; exact hb', .inl ⟨hleaf, rfl, .inr (.inr ⟨_, _, rfl⟩)⟩, this⟩
    · cases hv with
      | leaf m a plain => simp only [node_mk] at hk; rw [hk] at plain; exact absurd plain (by decide)
      | struct m cs a vs kind' flags one below =>
        simp only [rdOps, RdNode.nextBatch] at hb
        obtain ⟨⟨v1, p1, xs1⟩, e1, hb⟩ := Res.bind_ok_inv hb
        cases hb
        obtain ⟨a', vs1, vs2, rfl, g1, g2, e3, g4⟩ := structBatch_keep (q₁ := q₁) (q₂ := q₂) flags below e1
        obtain ⟨ys', b1, b2, b3⟩ := kids_batches (q₁ := q₁) (q₂ := q₂) (fun c' x y v v' x' h1 h2 _ h3 => ih q₂ c' x y v v' x' hsub h1 h2 h3)
          (fun c' x v v' x' h1 h2 _ h3 => hself c' x v v' x' h1 h2 h3) hkids vs1 vs2 xs1 g2 e3
        refine ⟨(RdNode.struct kind p1 i ys' : RdNode (Rd n)), ?_, .inr ⟨hk, kind, p1, i, xs1, ys', rfl, rfl, b2⟩, .struct m cs a' vs2 kind' g1 one b3⟩
        simp only [rdOps, RdNode.nextBatch, Vec.keep]
        rw [g4 ys ys' b1]
        rfl

theorem narrow_skip (c : Codec) (fuel : Nat) : ∀ (n : Nat) (q₂ : Nat → Bool) (s : Schema) (x y : Rd n) (m : Nat) (x' : Rd n),
    Narrow q₁ n q₂ s x y → (rdOps c fuel n).skip x m = .ok x' → ∃ y', (rdOps c fuel n).skip y m = .ok y' ∧ Narrow q₁ n q₂ s x' y' := by
  intro n
  induction n with
  | zero => intro q₂ s x y m x' h; exact h.elim
  | succ n ih =>
    intro q₂ s x y m x' h hb
    have hself : ∀ c' x x', Narrow q₁ n q₁ c' x x → (rdOps c fuel n).skip x 1 = .ok x' → Narrow q₁ n q₁ c' x' x' := by
      intro c' x x' h1 h3
      obtain ⟨y', k1, k2⟩ := ih q₁ c' x x 1 x' h1 h3
      rw [h3] at k1
      injection k1 with k1
      rw [← k1] at k2
      exact k2
    rcases h with ⟨hleaf, rfl, hx⟩ | ⟨hk, kind, p, i, xs, ys, rfl, rfl, hkids⟩
    · refine ⟨x', hb, .inl ⟨hleaf, rfl, ?_⟩⟩
      rcases hx with ⟨t, r, rfl⟩ | ⟨r, rfl⟩ | ⟨t, r, rfl⟩ <;> simp only [rdOps, RdNode.skip] at hb <;> obtain ⟨r1, -, hb⟩ := Res.bind_ok_inv hb <;> cases hb
      · exact .inl ⟨_, _, rfl⟩
      · exact .inr (.inl ⟨_, rfl⟩)
      · exact .inr (.inr ⟨_, _, rfl⟩)
    · simp only [rdOps, RdNode.skip] at hb
      obtain ⟨⟨p1, xs1⟩, e1, hb⟩ := Res.bind_ok_inv hb
      cases hb
      have key : ∀ m p p1 xs xs1 ys, Kids q₁ q₂ (Narrow q₁ n q₂) (fun c x => Narrow q₁ n q₁ c x x) s.children xs ys → structSkip (rdOps c fuel n) c m p xs = .ok (p1, xs1) →
          ∃ ys1, structSkip (rdOps c fuel n) c m p ys = .ok (p1, ys1) ∧ Kids q₁ q₂ (Narrow q₁ n q₂) (fun c x => Narrow q₁ n q₁ c x x) s.children xs1 ys1 := by
        intro m
        induction m with
        | zero => intro p p1 xs xs1 ys hk h; rw [structSkip] at h; cases h; exact ⟨ys, by rw [structSkip], hk⟩
        | succ m ihm =>
          intro p p1 xs xs1 ys hk h
          rw [structSkip] at h
          obtain ⟨⟨b, p2⟩, f1, h⟩ := Res.bind_ok_inv h
          rw [structSkip, f1]
          simp only [Res.ok_bind]
          cases b with
          | false =>
            simp only [Bool.false_eq_true, if_false] at h ⊢
            exact ihm _ _ _ _ _ hk h
          | true =>
            simp only [if_true] at h ⊢
            obtain ⟨xs2, f2, h⟩ := Res.bind_ok_inv h
            obtain ⟨ys2, k1, k2⟩ := kids_all (f := fun x => (rdOps c fuel n).skip x 1) (fs := skipAll (rdOps c fuel n) 1) (by rw [skipAll]) (fun x xs => by rw [skipAll])
              (fun c' x y x' h1 h2 => ih q₂ c' x y 1 x' h1 h2) (fun c' x x' h1 h2 => hself c' x x' h1 h2) hk xs2 f2
            rw [k1]
            exact ihm _ _ _ _ _ k2 h
      obtain ⟨ys1, k1, k2⟩ := key m p p1 xs xs1 ys hkids e1
      refine ⟨(RdNode.struct kind p1 i ys1 : RdNode (Rd n)), ?_, .inr ⟨hk, kind, p1, i, xs1, ys1, rfl, rfl, k2⟩⟩
      simp only [rdOps, RdNode.skip, k1]
      rfl

theorem narrow_seek (c : Codec) (fuel : Nat) : ∀ (n : Nat) (q₂ : Nat → Bool) (s : Schema) (x y : Rd n) (m : Nat) (x' : Rd n),
    Narrow q₁ n q₂ s x y → (rdOps c fuel n).seekStride x m = .ok x' → ∃ y', (rdOps c fuel n).seekStride y m = .ok y' ∧ Narrow q₁ n q₂ s x' y' := by
  intro n
  induction n with
  | zero => intro q₂ s x y m x' h; exact h.elim
  | succ n ih =>
    intro q₂ s x y m x' h hb
    have hself : ∀ c' x x', Narrow q₁ n q₁ c' x x → (rdOps c fuel n).seekStride x m = .ok x' → Narrow q₁ n q₁ c' x' x' := by
      intro c' x x' h1 h3
      obtain ⟨y', k1, k2⟩ := ih q₁ c' x x m x' h1 h3
      rw [h3] at k1
      injection k1 with k1
      rw [← k1] at k2
      exact k2
    rcases h with ⟨hleaf, rfl, hx⟩ | ⟨hk, kind, p, i, xs, ys, rfl, rfl, hkids⟩
    · refine ⟨x', hb, .inl ⟨hleaf, rfl, ?_⟩⟩
      rcases hx with ⟨t, r, rfl⟩ | ⟨r, rfl⟩ | ⟨t, r, rfl⟩ <;> simp only [rdOps, RdNode.seekStride] at hb <;> obtain ⟨r1, -, hb⟩ := Res.bind_ok_inv hb <;> cases hb
      · exact .inl ⟨_, _, rfl⟩
      · exact .inr (.inl ⟨_, rfl⟩)
      · exact .inr (.inr ⟨_, _, rfl⟩)
    · simp only [rdOps, RdNode.seekStride] at hb ⊢
      obtain ⟨p1, e1, hb⟩ := Res.bind_ok_inv hb
      obtain ⟨xs1, e2, hb⟩ := Res.bind_ok_inv hb
      cases hb
      obtain ⟨ys1, k1, k2⟩ := kids_all (f := fun x => (rdOps c fuel n).seekStride x m) (fs := seekAll (rdOps c fuel n) m) (by rw [seekAll]) (fun x xs => by rw [seekAll])
        (fun c' x y x' h1 h2 => ih q₂ c' x y m x' h1 h2) (fun c' x x' h1 h2 => hself c' x x' h1 h2) hkids xs1 e2
      refine ⟨(RdNode.struct kind p1 i ys1 : RdNode (Rd n)), ?_, .inr ⟨hk, kind, p1, i, xs1, ys1, rfl, rfl, k2⟩⟩
      rw [e1]
      simp only [Res.ok_bind, k1]
      rfl

/-! ### Opening -/

/-- The flat readers of the columns `q`, where `rs` are those of more columns. -/
def RdsKeep (q : Nat → Bool) (rs rs' : List (Option FlatRd)) : Prop :=
  rs'.length = rs.length ∧ ∀ (i : Nat) r, rs[i]? = some r → rs'[i]? = some (if q i then r else none)

theorem initColumns_keep {o₁ o₂ : BatchOption} (hsub : ∀ i, o₂.isInclude i = true → o₁.isInclude i = true) (columns : List Encoding) : ∀ (types : List RdType) (rs : List (Option FlatRd)),
    initColumns o₁ columns types = .ok rs → ∃ rs', initColumns o₂ columns types = .ok rs' ∧ rs'.length = rs.length ∧ rs.length = types.length ∧
      ∀ (i : Nat) t r, types[i]? = some t → rs[i]? = some r → rs'[i]? = some (if o₂.isInclude t.id then r else none) := by
  intro types
  induction types with
  | nil => intro rs h; rw [initColumns] at h; cases h; exact ⟨[], by rw [initColumns], rfl, rfl, by simp⟩
  | cons t ts ih =>
    intro rs h
    rw [initColumns] at h
    obtain ⟨r, e1, h⟩ := Res.bind_ok_inv h
    obtain ⟨rs1, e2, h⟩ := Res.bind_ok_inv h
    cases h
    obtain ⟨rs', i1, i2, i3, i4⟩ := ih rs1 e2
    refine ⟨(if o₂.isInclude t.id then r else none) :: rs', ?_, by simp [i2], by simp [i3], ?_⟩
    · rw [initColumns, i1]
      by_cases h2 : o₂.isInclude t.id = true
      · rw [if_pos (hsub _ h2)] at e1
        rw [if_pos h2, if_pos h2, e1]
        rfl
      · rw [if_neg h2, if_neg h2]
        rfl
    · intro i t' r' h1 h2
      cases i with
      | zero => simp only [List.getElem?_cons_zero, Option.some.injEq] at h1 h2; subst h1 h2; rfl
      | succ i => simpa using i4 i t' r' (by simpa using h1) (by simpa using h2)

theorem initStreams_keep (E : Env) (ro : ROpts) (file : Bytes) : ∀ (ss : List StreamInfo) (i d : Nat) (rs rs₁ rs' : List (Option FlatRd)), RdsKeep q₂ rs rs₁ →
    initStreams E ro file i d ss rs = .ok rs' → ∃ rs₁', initStreams E ro file i d ss rs₁ = .ok rs₁' ∧ RdsKeep q₂ rs' rs₁' := by
  intro ss
  induction ss with
  | nil => intro i d rs rs₁ rs' hk h; rw [initStreams] at h; cases h; exact ⟨rs₁, by rw [initStreams], hk⟩
  | cons s ss ih =>
    intro i d rs rs₁ rs' hk h
    have hset : ∀ (r : Option FlatRd), RdsKeep q₂ (rs.set s.column r) (if q₂ s.column then rs₁.set s.column r else rs₁) ∨ rs[s.column]? = none ∨ rs[s.column]? = some none := by
      intro r
      cases hr : rs[s.column]? with
      | none => exact .inr (.inl rfl)
      | some r0 =>
        left
        have hlt : s.column < rs.length := (List.getElem?_eq_some_iff.1 hr).1
        have h1 := hk.2 s.column r0 hr
        constructor
        · split <;> simp [hk.1]
        · intro j r' hj
          rw [List.getElem?_set] at hj
          split at hj
          · rename_i hjj
            subst hjj
            simp only [hlt, Option.some.injEq] at hj
            subst hj
            split
            · simp [hk.1, hlt]
            · rename_i hq
              rw [h1, if_neg hq]
          · rename_i hjj
            split
            · rw [List.getElem?_set_ne hjj]; exact hk.2 j r' hj
            · exact hk.2 j r' hj
    rw [initStreams] at h ⊢
    cases hr : rs[s.column]? with
    | none => rw [hr] at h; cases h
    | some r =>
      rw [hr] at h
      rw [hk.2 _ _ hr]
      cases r with
      | none =>
        simp only [ite_self] at h ⊢
        by_cases hrow : s.kind = .rowIndex
        · simp only [if_pos hrow] at h ⊢
          exact ih _ _ _ _ _ hk h
        · simp only [if_neg hrow] at h ⊢
          exact ih _ _ _ _ _ hk h
      | some r =>
        simp only at h
        cases hq : q₂ s.column with
        | true =>
          simp only [hq, if_true] at hset ⊢
          by_cases hrow : s.kind = .rowIndex
          · simp only [if_pos hrow] at h ⊢
            obtain ⟨r1, e1, h⟩ := Res.bind_ok_inv h
            rw [e1, Res.ok_bind]
            exact ih _ _ _ _ _ ((hset (some r1)).resolve_right (by simp [hr])) h
          · simp only [if_neg hrow] at h ⊢
            obtain ⟨r1, e1, h⟩ := Res.bind_ok_inv h
            rw [e1, Res.ok_bind]
            exact ih _ _ _ _ _ ((hset (some r1)).resolve_right (by simp [hr])) h
        | false =>
          simp only [hq, Bool.false_eq_true, if_false] at hset ⊢
          by_cases hrow : s.kind = .rowIndex
          · simp only [if_pos hrow] at h ⊢
            obtain ⟨r1, e1, h⟩ := Res.bind_ok_inv h
            exact ih _ _ _ _ _ ((hset (some r1)).resolve_right (by simp [hr])) h
          · simp only [if_neg hrow] at h ⊢
            obtain ⟨r1, e1, h⟩ := Res.bind_ok_inv h
            exact ih _ _ _ _ _ ((hset (some r1)).resolve_right (by simp [hr])) h

/-- The streams do not change which readers there are. -/
theorem initStreams_kinds (E : Env) (ro : ROpts) (file : Bytes) (T : Nat → ReaderTag → Prop) : ∀ (ss : List StreamInfo) (i d : Nat) (rs rs' : List (Option FlatRd)),
    initStreams E ro file i d ss rs = .ok rs' → ∀ j r, rs[j]? = some (some r) → T j r.tag → ∃ r', rs'[j]? = some (some r') ∧ T j r'.tag := by
  intro ss
  induction ss with
  | nil => intro i d rs rs' h j r hj hT; rw [initStreams] at h; cases h; exact ⟨r, hj, hT⟩
  | cons s ss ih =>
    intro i d rs rs' h j r hj hT
    rw [initStreams] at h
    cases hr : rs[s.column]? with
    | none => rw [hr] at h; cases h
    | some r0 =>
      rw [hr] at h
      cases r0 with
      | none =>
        by_cases hrow : s.kind = .rowIndex
        · simp only [if_pos hrow] at h
          exact ih _ _ _ _ h j r hj hT
        · simp only [if_neg hrow] at h
          exact ih _ _ _ _ h j r hj hT
      | some r0 =>
        have hstep : ∀ r1 : FlatRd, r1.tag = r0.tag → ∃ r', (rs.set s.column (some r1))[j]? = some (some r') ∧ T j r'.tag := by
          intro r1 ht
          by_cases hjc : s.column = j
          · subst hjc
            rw [hr] at hj
            injection hj with hj
            injection hj with hj
            subst hj
            have hlt : s.column < rs.length := (List.getElem?_eq_some_iff.1 hr).1
            exact ⟨r1, by simp [hlt], by rw [ht]; exact hT⟩
          · exact ⟨r, by rw [List.getElem?_set_ne hjc]; exact hj, hT⟩
        by_cases hrow : s.kind = .rowIndex
        · simp only [if_pos hrow] at h
          obtain ⟨r1, e1, h⟩ := Res.bind_ok_inv h
          rw [initIndex] at e1
          obtain ⟨b, -, e1⟩ := Res.bind_ok_inv e1
          obtain ⟨b, -, e1⟩ := Res.bind_ok_inv e1
          obtain ⟨b, -, e1⟩ := Res.bind_ok_inv e1
          injection e1 with e1
          obtain ⟨r', k1, k2⟩ := hstep r1 (by rw [← e1])
          exact ih _ _ _ _ h j r' k1 k2
        · simp only [if_neg hrow] at h
          obtain ⟨r1, e1, h⟩ := Res.bind_ok_inv h
          rw [initStream] at e1
          split at e1
          · injection e1 with e1
            obtain ⟨r', k1, k2⟩ := hstep r1 (by rw [← e1])
            exact ih _ _ _ _ h j r' k1 k2
          · cases e1

/-- Structs have struct readers, and leaves those of leaves. -/
def TagFits (s : Schema) (tag : ReaderTag) : Prop :=
  (s.node.kind = .struct ∧ tag = .struct) ∨ ((s.node.kind.nested = false ∧ s.children = []) ∧ ((∃ t, tag = .leaf t) ∨ tag = .dict))

theorem tag_fits {s : Schema} {enc : Encoding} {tag : ReaderTag} (hs : s.node.kind = .struct ∨ (s.node.kind.nested = false ∧ s.children = []))
    (h : newReaderTag s.node.kind enc = .ok tag) : TagFits s tag := by
  rcases hs with hk | hk
  · left
    refine ⟨hk, ?_⟩
    rw [hk, newReaderTag] at h
    split at h
    · cases h
    · cases h; rfl
  · right
    refine ⟨hk, ?_⟩
    have hn := hk.1
    revert h
    cases hkk : s.node.kind <;> rw [hkk] at hn <;> simp only [newReaderTag] <;> intro h <;>
      first
      | (exfalso; simp [TypeKind.nested] at hn; done)
      | (split at h <;> first | (cases h; exact .inl ⟨_, rfl⟩) | cases h | (split at h <;> first | (cases h; exact .inr rfl) | cases h))
      | cases h

theorem treesOf_kids {o₁ o₂ : BatchOption} (hsub : ∀ i, o₂.isInclude i = true → o₁.isInclude i = true) {χ : Type} {f₁ f₂ : Nat → Res χ} {R : Schema → χ → χ → Prop} {S : Schema → χ → Prop} :
    ∀ (cs : List Schema) (xs : List χ), (∀ c ∈ cs, ∀ x, o₁.isInclude c.node.id = true → f₁ c.node.id = .ok x → (o₂.isInclude c.node.id = true → ∃ y, f₂ c.node.id = .ok y ∧ R c x y) ∧ S c x) →
    treesOf f₁ ((cs.map fun d => d.node.id).filter o₁.isInclude) = .ok xs →
    ∃ ys, treesOf f₂ ((cs.map fun d => d.node.id).filter o₂.isInclude) = .ok ys ∧ Kids o₁.isInclude o₂.isInclude R S cs xs ys := by
  intro cs
  induction cs with
  | nil => intro xs _ h; simp only [List.map_nil, List.filter_nil, treesOf] at h ⊢; cases h; exact ⟨[], rfl, .nil⟩
  | cons c cs ih =>
    intro xs each h
    simp only [List.map_cons] at h ⊢
    by_cases h1 : o₁.isInclude c.node.id = true
    · rw [List.filter_cons, if_pos h1, treesOf] at h
      obtain ⟨x, e1, h⟩ := Res.bind_ok_inv h
      obtain ⟨xs1, e2, h⟩ := Res.bind_ok_inv h
      cases h
      obtain ⟨ys, i1, i2⟩ := ih xs1 (fun c hc => each c (List.mem_cons_of_mem _ hc)) e2
      obtain ⟨k1, k2⟩ := each c List.mem_cons_self x h1 e1
      by_cases h2 : o₂.isInclude c.node.id = true
      · obtain ⟨y, k3, k4⟩ := k1 h2
        refine ⟨y :: ys, ?_, .both h1 h2 k4 i2⟩
        rw [List.filter_cons, if_pos h2, treesOf, k3, i1]
        rfl
      · refine ⟨ys, ?_, .one h1 (by simpa using h2) k2 i2⟩
        rw [List.filter_cons, if_neg h2, i1]
    · have h2 : ¬ o₂.isInclude c.node.id = true := fun h => h1 (hsub _ h)
      rw [List.filter_cons, if_neg h1] at h
      obtain ⟨ys, i1, i2⟩ := ih xs (fun c hc => each c (List.mem_cons_of_mem _ hc)) h
      refine ⟨ys, ?_, .neither (by simpa using h1) (by simpa using h2) i2⟩
      rw [List.filter_cons, if_neg h2, i1]

theorem treeOf_narrow {o₁ : BatchOption} {ro : ROpts} {types : List RdType} {rs₁ : List (Option FlatRd)} {s : Schema} (ht : TypesOf s types)
    (htags : ∀ c ∈ s.columns, o₁.isInclude c.node.id = true → ∃ r, rs₁[c.node.id]? = some (some r) ∧ TagFits c r.tag) : ∀ (n : Nat) (o₂ : BatchOption) (rs₂ : List (Option FlatRd)) (d : Schema) (x : Rd n),
    (∀ i, o₂.isInclude i = true → o₁.isInclude i = true) → (∀ i, o₂.isInclude i = true → rs₂[i]? = rs₁[i]?) → d ∈ s.columns → o₂.isInclude d.node.id = true →
    treeOf o₁ ro types rs₁ n d.node.id = .ok x → ∃ y, treeOf o₂ ro types rs₂ n d.node.id = .ok y ∧ Narrow o₁.isInclude n o₂.isInclude d x y := by
  intro n
  induction n with
  | zero => intro o₂ rs₂ d x _ _ _ _ h; rw [treeOf] at h; cases h
  | succ n ih =>
    intro o₂ rs₂ d x hsub hk hd h2 h
    obtain ⟨r, hr, hT⟩ := htags d hd (hsub _ h2)
    obtain ⟨names, hty⟩ := ht.2 d hd
    have hr2 := hk _ h2
    rw [hr] at hr2
    rw [treeOf] at h ⊢
    simp only [hty, hr, hr2] at h ⊢
    rcases hT with ⟨hstr, htag⟩ | ⟨hleaf, ⟨t, htag⟩ | htag⟩ <;> simp only [htag] at h ⊢
    · obtain ⟨xs, e1, h⟩ := Res.bind_ok_inv h
      cases h
      obtain ⟨ys, k1, k2⟩ := treesOf_kids hsub (f₂ := treeOf o₂ ro types rs₂ n) (R := Narrow o₁.isInclude n o₂.isInclude) (S := fun c x => Narrow o₁.isInclude n o₁.isInclude c x x) d.children xs
        (fun c hc x h1 hx => ⟨fun h2 => ih o₂ rs₂ c x hsub hk (columns_child hd hc) h2 hx, by
          obtain ⟨y, f1, f2⟩ := ih o₁ rs₁ c x (fun _ h => h) (fun _ _ => rfl) (columns_child hd hc) h1 hx
          rw [hx] at f1
          injection f1 with f1
          rw [← f1] at f2
          exact f2⟩) e1
      rw [k1]
      exact ⟨_, rfl, .inr ⟨hstr, _, _, _, xs, ys, rfl, rfl, k2⟩⟩
    · cases h
      refine ⟨_, rfl, .inl ⟨hleaf, rfl, ?_⟩⟩
      rw [openLeaf]
      split
      · exact .inr (.inr ⟨_, _, rfl⟩)
      · exact .inl ⟨_, _, rfl⟩
    · cases h
      refine ⟨_, rfl, .inl ⟨hleaf, rfl, ?_⟩⟩
      rw [openLeaf]
      split
      · exact .inr (.inr ⟨_, _, rfl⟩)
      · exact .inr (.inl ⟨_, rfl⟩)

end Goorc
