import Verif.Spec.Delivered
import Verif.Proofs.Projection
/-
The values in the vectors, through all the functions that change them.
-/
namespace Goorc

/-! ### Rows -/

/-- A value that may stand in a vector of this type. -/
def TypeKind.Holds (k : TypeKind) (v : GoVal) : Prop := v = .nil ∨ k.Gives v

/-- Rows that have just been read. -/
def TypeKind.Told (k : TypeKind) (rows : List Value) : Prop := ∀ r ∈ rows, (r.null = false → k.Gives r.v) ∧ k.Holds r.v

/-- The array of a vector, whether its rows are visible or not. -/
def TypeKind.Mild (k : TypeKind) (a : Option Slice) : Prop := ∀ b, a = some b → ∀ r ∈ b.arr, k.Holds r.v

variable {k : TypeKind}

theorem TypeKind.Told.nil : k.Told [] := fun r h => absurd h (by simp)

theorem TypeKind.Mild.none : k.Mild none := fun b h => by cases h

theorem TypeKind.Mild.rows {a : Option Slice} (h : k.Mild a) : ∀ r ∈ visibleRows a, k.Holds r.v := by
  intro r hr
  cases a with
  | none => simp [visibleRows] at hr
  | some b => exact h b rfl r (List.mem_of_mem_take hr)

theorem TypeKind.Mild.arr {a b : Slice} (h : k.Mild (some a)) (hb : b.arr = a.arr) : k.Mild (some b) := by
  intro b' e r hr
  cases e
  exact h a rfl r (hb ▸ hr)

/-- Overwriting the first rows. -/
theorem mild_update {a : Option Slice} {rows : List Value} (h : k.Mild a) (hr : ∀ r ∈ rows, k.Holds r.v) : k.Mild (updateRows a rows) := by
  intro b e r hr'
  cases a with
  | none => cases e
  | some a =>
    cases e
    simp only [Slice.update, List.mem_append] at hr'
    rcases hr' with hr' | hr'
    · exact hr r hr'
    · exact h a rfl r (List.mem_of_mem_drop hr')

theorem visible_update {a : Option Slice} {rows : List Value} (hl : rows.length = (visibleRows a).length) : visibleRows (updateRows a rows) = rows := by
  cases a with
  | none => simp only [visibleRows, List.length_nil] at hl; rw [List.eq_nil_of_length_eq_zero hl]; rfl
  | some a =>
    simp only [visibleRows, Slice.visible, List.length_take] at hl
    simp only [updateRows, Option.map_some, visibleRows, Slice.visible, Slice.update]
    by_cases h : a.len ≤ a.arr.length
    · rw [List.take_append_of_le_length (by omega), List.take_of_length_le (by omega)]
    · rw [List.drop_eq_nil_of_le (by omega), List.append_nil, List.take_of_length_le (by omega)]

theorem visible_update_length {a : Option Slice} {rows : List Value} (hl : rows.length ≤ (visibleRows a).length) : (visibleRows (updateRows a rows)).length = (visibleRows a).length := by
  cases a with
  | none => rfl
  | some a =>
    simp only [visibleRows, Slice.visible, List.length_take] at hl
    simp only [updateRows, Option.map_some, visibleRows, Slice.visible, Slice.update, List.length_take, List.length_append, List.length_drop]
    omega

theorem updateRows_nil (a : Option Slice) : updateRows a [] = a := by
  cases a <;> rfl

theorem told_update {a : Option Slice} {rows : List Value} (h : k.Mild a) (hl : rows.length = (visibleRows a).length) (hr : k.Told rows) :
    k.Mild (updateRows a rows) ∧ k.Told (visibleRows (updateRows a rows)) :=
  ⟨mild_update h fun r m => (hr r m).2, by rw [visible_update hl]; exact hr⟩

theorem setNulls_mild {flags : List Bool} {a a' : Option Slice} (h : k.Mild a) (hs : setNulls flags a = .ok a') :
    k.Mild a' ∧ (visibleRows a').length = (visibleRows a).length ∧ flags.length ≤ (visibleRows a).length := by
  rw [setNulls] at hs
  split at hs
  · rename_i hl
    cases hs
    refine ⟨mild_update h fun r hr => ?_, visible_update_length (by simp; omega), hl⟩
    obtain ⟨i, hi, rfl⟩ := List.mem_iff_getElem.1 hr
    rw [List.getElem_zipWith]
    have hi' : i < (visibleRows a).length := by rw [List.length_zipWith] at hi; omega
    exact h.rows (visibleRows a)[i] (List.getElem_mem hi')
  · cases hs

theorem resize_mild {n : Int} {a a' : Option Slice} (h : k.Mild a) (hs : resize n a = .ok a') :
    k.Mild a' ∧ (0 < n → visibleRows a' ≠ []) ∧ (n ≤ 0 → visibleRows a' = []) := by
  cases a with
  | none =>
    rw [resize] at hs
    split at hs
    · rename_i hn; cases hs; exact ⟨h, fun h => absurd h (by omega), fun _ => rfl⟩
    · cases hs
  | some a =>
    rw [resize] at hs
    split at hs
    · rename_i hn
      cases hs
      refine ⟨h.arr rfl, fun hp he => ?_, fun hz => ?_⟩
      · simp only [visibleRows, Slice.visible, List.take_eq_nil_iff] at he
        rcases he with he | he
        · omega
        · rw [he] at hn; simp only [List.length_nil] at hn; omega
      · have : n.toNat = 0 := by omega
        simp [visibleRows, Slice.visible, this]
    · cases hs

/-! ### Vectors -/

/-- A column of a leaf type has nothing below it. -/
def PlainNode (n : SchemaNode) (cs : List Schema) : Prop := n.kind.nested = false → cs = []

/-- Nothing is visible. -/
def Vec.Blank : Vec → Prop
  | .nil => False
  | .mk _ _ a _ => visibleRows a = []

/-- A vector of a client, at any time. -/
inductive Loose : Schema → Vec → Prop
  | nil (s : Schema) : Loose s .nil
  | mk (n : SchemaNode) (cs : List Schema) (a : Option Slice) (vs : List Vec) (plain : PlainNode n cs) (own : n.kind.Mild a)
      (below : List.Forall₂ Loose cs vs) : Loose (.mk n cs) (.mk n.id n.kind a vs)

/-- A vector nothing of which is visible. -/
inductive Void : Schema → Vec → Prop
  | mk (n : SchemaNode) (cs : List Schema) (a : Option Slice) (vs : List Vec) (plain : PlainNode n cs) (own : n.kind.Mild a) (blank : visibleRows a = [])
      (below : List.Forall₂ Void cs vs) : Void (.mk n cs) (.mk n.id n.kind a vs)

/-- The elements of a list that have been read; nothing is ever visible of the fields of a struct there. -/
inductive Elem : Schema → Vec → Prop
  | struct (n : SchemaNode) (cs : List Schema) (a : Option Slice) (vs : List Vec) (kind : n.kind = .struct) (own : n.kind.Mild a)
      (below : List.Forall₂ Void cs vs) : Elem (.mk n cs) (.mk n.id n.kind a vs)
  | other (n : SchemaNode) (cs : List Schema) (a : Option Slice) (vs : List Vec) (kind : n.kind ≠ .struct) (plain : PlainNode n cs) (own : n.kind.Mild a)
      (told : n.kind.Told (visibleRows a)) (below : List.Forall₂ Elem cs vs) : Elem (.mk n cs) (.mk n.id n.kind a vs)

/-- The elements of a list before they are read. -/
inductive ElemIn : Schema → Vec → Prop
  | struct (n : SchemaNode) (cs : List Schema) (a : Option Slice) (vs : List Vec) (kind : n.kind = .struct) (own : n.kind.Mild a)
      (below : List.Forall₂ Void cs vs) : ElemIn (.mk n cs) (.mk n.id n.kind a vs)
  | other (n : SchemaNode) (cs : List Schema) (a : Option Slice) (vs : List Vec) (kind : n.kind ≠ .struct) (plain : PlainNode n cs) (own : n.kind.Mild a)
      (below : List.Forall₂ Elem cs vs) : ElemIn (.mk n cs) (.mk n.id n.kind a vs)

/-- A vector with room for some rows, before they are read. -/
inductive Ready : Schema → Vec → Prop
  | struct (n : SchemaNode) (cs : List Schema) (a : Option Slice) (vs : List Vec) (kind : n.kind = .struct) (own : n.kind.Mild a)
      (below : List.Forall₂ Ready cs vs) : Ready (.mk n cs) (.mk n.id n.kind a vs)
  | other (n : SchemaNode) (cs : List Schema) (a : Option Slice) (vs : List Vec) (kind : n.kind ≠ .struct) (plain : PlainNode n cs) (own : n.kind.Mild a)
      (some : visibleRows a ≠ []) (first : n.kind.nested = true → ∃ e es, vs = e :: es ∧ e.Blank)
      (below : List.Forall₂ Elem cs vs) : Ready (.mk n cs) (.mk n.id n.kind a vs)

/-- A vector after rows have been read. -/
inductive Done : Schema → Vec → Prop
  | struct (n : SchemaNode) (cs : List Schema) (a : Option Slice) (vs : List Vec) (kind : n.kind = .struct) (own : n.kind.Mild a)
      (below : List.Forall₂ Done cs vs) : Done (.mk n cs) (.mk n.id n.kind a vs)
  | other (n : SchemaNode) (cs : List Schema) (a : Option Slice) (vs : List Vec) (kind : n.kind ≠ .struct) (plain : PlainNode n cs) (own : n.kind.Mild a)
      (told : n.kind.Told (visibleRows a)) (below : List.Forall₂ Elem cs vs) : Done (.mk n cs) (.mk n.id n.kind a vs)

theorem told_blank {a : Option Slice} (h : visibleRows a = []) : k.Told (visibleRows a) := by rw [h]; exact .nil

theorem plain_struct {n : SchemaNode} {cs : List Schema} (h : n.kind = .struct) : PlainNode n cs := fun hp => by rw [h] at hp; cases hp

theorem void_elem (s : Schema) : ∀ v, Void s v → Elem s v := by
  induction s using Schema.ind with
  | h n cs ih =>
    intro v h
    cases h with
    | mk _ _ a vs plain own blank below =>
      by_cases hk : n.kind = .struct
      · exact .struct n cs a vs hk own below
      · exact .other n cs a vs hk plain own (told_blank blank) (forall₂_imp_mem below ih)

theorem void_done (s : Schema) : ∀ v, Void s v → Done s v := by
  induction s using Schema.ind with
  | h n cs ih =>
    intro v h
    cases h with
    | mk _ _ a vs plain own blank below =>
      by_cases hk : n.kind = .struct
      · exact .struct n cs a vs hk own (forall₂_imp_mem below ih)
      · exact .other n cs a vs hk plain own (told_blank blank) (forall₂_imp_mem below fun c _ v h => void_elem c v h)

theorem void_loose (s : Schema) : ∀ v, Void s v → Loose s v := by
  induction s using Schema.ind with
  | h n cs ih =>
    intro v h
    cases h with
    | mk _ _ a vs plain own blank below => exact .mk n cs a vs plain own (forall₂_imp_mem below ih)

theorem elem_loose (s : Schema) : ∀ v, Elem s v → Loose s v := by
  induction s using Schema.ind with
  | h n cs ih =>
    intro v h
    cases h with
    | struct _ _ a vs kind own below => exact .mk n cs a vs (plain_struct kind) own (forall₂_imp_mem below fun c _ v h => void_loose c v h)
    | other _ _ a vs kind plain own told below => exact .mk n cs a vs plain own (forall₂_imp_mem below ih)

theorem done_loose (s : Schema) : ∀ v, Done s v → Loose s v := by
  induction s using Schema.ind with
  | h n cs ih =>
    intro v h
    cases h with
    | struct _ _ a vs kind own below => exact .mk n cs a vs (plain_struct kind) own (forall₂_imp_mem below ih)
    | other _ _ a vs kind plain own told below => exact .mk n cs a vs plain own (forall₂_imp_mem below fun c _ v h => elem_loose c v h)

theorem struct_told {n : SchemaNode} {a : Option Slice} (hk : n.kind = .struct) (own : n.kind.Mild a) : n.kind.Told (visibleRows a) := by
  intro r hr
  have := own.rows r hr
  refine ⟨fun _ => ?_, this⟩
  rw [hk] at this ⊢
  rcases this with h | h
  · exact h
  · exact h

theorem void_delivered (s : Schema) : ∀ v, Void s v → Delivered s v := by
  induction s using Schema.ind with
  | h n cs ih =>
    intro v h
    cases h with
    | mk _ _ a vs plain own blank below => exact .mk n cs a vs (told_blank blank) (forall₂_imp_mem below ih)

theorem elem_delivered (s : Schema) : ∀ v, Elem s v → Delivered s v := by
  induction s using Schema.ind with
  | h n cs ih =>
    intro v h
    cases h with
    | struct _ _ a vs kind own below => exact .mk n cs a vs (struct_told kind own) (forall₂_imp_mem below fun c _ v h => void_delivered c v h)
    | other _ _ a vs kind plain own told below => exact .mk n cs a vs told (forall₂_imp_mem below ih)

theorem done_delivered (s : Schema) : ∀ v, Done s v → Delivered s v := by
  induction s using Schema.ind with
  | h n cs ih =>
    intro v h
    cases h with
    | struct _ _ a vs kind own below => exact .mk n cs a vs (struct_told kind own) (forall₂_imp_mem below ih)
    | other _ _ a vs kind plain own told below => exact .mk n cs a vs told (forall₂_imp_mem below fun c _ v h => elem_delivered c v h)

/-- A function that goes through the children. -/
theorem forall₂_res {P Q : Schema → Vec → Prop} {f : Vec → Res Vec} {fs : List Vec → Res (List Vec)} (h0 : fs [] = .ok [])
    (h1 : ∀ v vs, fs (v :: vs) = (f v).bind fun v => (fs vs).bind fun vs => .ok (v :: vs)) :
    ∀ {cs : List Schema} {vs ws : List Vec}, List.Forall₂ P cs vs → (∀ c ∈ cs, ∀ v w, P c v → f v = .ok w → Q c w) → fs vs = .ok ws → List.Forall₂ Q cs ws := by
  intro cs vs ws h
  induction h generalizing ws with
  | nil => intro _ e; rw [h0] at e; cases e; exact .nil
  | cons hc hcs ih =>
    intro each e
    rw [h1] at e
    obtain ⟨w, e1, e⟩ := Res.bind_ok_inv e
    obtain ⟨ws1, e2, e⟩ := Res.bind_ok_inv e
    cases e
    exact .cons (each _ List.mem_cons_self _ _ hc e1) (ih (fun c hc => each c (List.mem_cons_of_mem _ hc)) e2)

theorem clear_void (s : Schema) : ∀ v w, Loose s v → v.clear = .ok w → Void s w := by
  induction s using Schema.ind with
  | h n cs ih =>
    intro v w h e
    cases h with
    | nil => rw [Vec.clear] at e; cases e
    | mk _ _ a vs plain own below =>
      rw [Vec.clear] at e
      obtain ⟨ws, e1, e⟩ := Res.bind_ok_inv e
      cases e
      refine .mk n cs _ ws plain ?_ ?_ (forall₂_res (f := Vec.clear) (fs := clearAll) (by rw [clearAll]) (fun v vs => by rw [clearAll]; rfl) below ih e1)
      · cases a with
        | none => exact .none
        | some a => exact own.arr rfl
      · cases a <;> simp [visibleRows, Slice.visible]

theorem emptyChild_elem {cs : List Schema} {vs ws : List Vec} {i : Nat} (h : List.Forall₂ Elem cs vs) (e : emptyChild vs i = .ok ws) :
    List.Forall₂ Elem cs ws ∧ (∀ w, ws[i]? = some w → w.Blank) ∧ (∀ j, j ≠ i → ws[j]? = vs[j]?) ∧ i < ws.length := by
  rw [emptyChild] at e
  split at e
  · rename_i id kk a ds hi
    cases e
    have hlt := (List.getElem?_eq_some_iff.1 hi).1
    refine ⟨?_, ?_, fun j hj => List.getElem?_set_ne (fun h => hj h.symm), by simpa using hlt⟩
    · induction h generalizing i with
      | nil => simp at hi
      | cons hc hcs ih =>
        cases i with
        | zero =>
          simp only [List.getElem?_cons_zero, Option.some.injEq] at hi
          subst hi
          refine .cons ?_ hcs
          cases hc with
          | struct n ds' _ _ kind own below =>
            exact .struct n ds' _ _ kind (by cases a with | none => exact .none | some a => exact own.arr rfl) below
          | other n ds' _ _ kind plain own told below =>
            refine .other n ds' _ _ kind plain (by cases a with | none => exact .none | some a => exact own.arr rfl) (told_blank ?_) below
            cases a <;> simp [visibleRows, Slice.visible]
        | succ i =>
          simp only [List.getElem?_cons_succ] at hi
          exact .cons hc (ih hi (by simpa using hlt))
    · intro w hw
      rw [List.getElem?_set_self hlt] at hw
      cases hw
      cases a <;> simp [Vec.Blank, visibleRows, Slice.visible]
  · cases e

theorem emptyChild_void {cs : List Schema} {vs ws : List Vec} {i : Nat} (h : List.Forall₂ Void cs vs) (e : emptyChild vs i = .ok ws) : List.Forall₂ Void cs ws := by
  rw [emptyChild] at e
  split at e
  · rename_i id kk a ds hi
    cases e
    induction h generalizing i with
    | nil => simp at hi
    | cons hc hcs ih =>
      cases i with
      | zero =>
        simp only [List.getElem?_cons_zero, Option.some.injEq] at hi
        subst hi
        refine .cons ?_ hcs
        cases hc with
        | mk n ds' _ _ plain own blank below =>
          refine .mk n ds' _ _ plain (by cases a with | none => exact .none | some a => exact own.arr rfl) ?_ below
          cases a <;> simp [visibleRows, Slice.visible]
      | succ i =>
        simp only [List.getElem?_cons_succ] at hi
        exact .cons hc (ih hi)
  · cases e

theorem first_blank {ws : List Vec} (h : ∀ w, ws[0]? = some w → w.Blank) (hl : 0 < ws.length) : ∃ e es, ws = e :: es ∧ e.Blank := by
  cases ws with
  | nil => simp at hl
  | cons e es => exact ⟨e, es, rfl, h e rfl⟩

theorem size_ready {hasNulls : List Bool} {size : Int} (hpos : 0 < size) (s : Schema) : ∀ v w, Done s v → setVectorSize hasNulls size v = .ok w → Ready s w := by
  induction s using Schema.ind with
  | h n cs ih =>
    intro v w h e
    cases h with
    | struct _ _ a vs kind own below =>
      rw [setVectorSize.eq_def] at e
      simp only [kind] at e
      cases hh : hasNulls[n.id]? with
      | none => rw [hh] at e; cases e
      | some hn =>
        rw [hh] at e
        simp only at e
        obtain ⟨a', e1, e⟩ := Res.bind_ok_inv e
        obtain ⟨ws, e2, e⟩ := Res.bind_ok_inv e
        cases e
        have hown : n.kind.Mild a' := by
          cases hn with
          | true => simp only [if_true] at e1; exact (resize_mild own e1).1
          | false => simp only [Bool.false_eq_true, if_false] at e1; cases e1; exact own
        have := forall₂_res (Q := Ready) (f := setVectorSize hasNulls size) (fs := setVectorSizes hasNulls size) (by rw [setVectorSizes]) (fun v vs => by rw [setVectorSizes]; rfl) below ih e2
        have hr := Ready.struct n cs a' ws kind hown this
        rw [kind] at hr
        exact hr
    | other _ _ a vs kind plain own told below =>
      rw [setVectorSize.eq_def] at e
      cases hk : n.kind
      all_goals simp only [hk] at e
      case struct => exact absurd hk kind
      case union => cases e
      case list =>
        obtain ⟨a', e1, e⟩ := Res.bind_ok_inv e
        obtain ⟨ws, e2, e⟩ := Res.bind_ok_inv e
        cases e
        obtain ⟨m1, m2, -⟩ := resize_mild own e1
        obtain ⟨b1, b2, -, b4⟩ := emptyChild_elem below e2
        have hr := Ready.other n cs a' ws kind plain m1 (m2 hpos) (fun _ => first_blank b2 b4) b1
        rw [hk] at hr
        exact hr
      case map =>
        obtain ⟨a', e1, e⟩ := Res.bind_ok_inv e
        obtain ⟨ws, e2, e⟩ := Res.bind_ok_inv e
        obtain ⟨ws', e3, e⟩ := Res.bind_ok_inv e
        cases e
        obtain ⟨m1, m2, -⟩ := resize_mild own e1
        obtain ⟨b1, b2, -, b4⟩ := emptyChild_elem below e2
        obtain ⟨d1, -, d3, d4⟩ := emptyChild_elem b1 e3
        have hr := Ready.other n cs a' ws' kind plain m1 (m2 hpos) (fun _ => first_blank (fun w hw => b2 w (by rw [← d3 0 (by decide)]; exact hw)) (by omega)) d1
        rw [hk] at hr
        exact hr
      all_goals
        obtain ⟨a', e1, e⟩ := Res.bind_ok_inv e
        cases e
        obtain ⟨m1, m2, -⟩ := resize_mild own e1
        have hr := Ready.other n cs a' vs kind plain m1 (m2 hpos) (fun h => by rw [hk] at h; cases h) below
        rw [hk] at hr
        exact hr

theorem size_void {hasNulls : List Bool} {size : Int} (hpos : size ≤ 0) (s : Schema) : ∀ v w, Void s v → setVectorSize hasNulls size v = .ok w → Void s w := by
  induction s using Schema.ind with
  | h n cs ih =>
    intro v w h e
    cases h with
    | mk _ _ a vs plain own blank below =>
      rw [setVectorSize.eq_def] at e
      cases hk : n.kind
      all_goals simp only [hk] at e
      case union => cases e
      case struct =>
        cases hh : hasNulls[n.id]? with
        | none => rw [hh] at e; cases e
        | some hn =>
          rw [hh] at e
          simp only at e
          obtain ⟨a', e1, e⟩ := Res.bind_ok_inv e
          obtain ⟨ws, e2, e⟩ := Res.bind_ok_inv e
          cases e
          have hown : n.kind.Mild a' ∧ visibleRows a' = [] := by
            cases hn with
            | true => simp only [if_true] at e1; exact ⟨(resize_mild own e1).1, (resize_mild own e1).2.2 hpos⟩
            | false => simp only [Bool.false_eq_true, if_false] at e1; cases e1; exact ⟨own, blank⟩
          have := forall₂_res (Q := Void) (f := setVectorSize hasNulls size) (fs := setVectorSizes hasNulls size) (by rw [setVectorSizes]) (fun v vs => by rw [setVectorSizes]; rfl) below ih e2
          have hr := Void.mk n cs a' ws plain hown.1 hown.2 this
          rw [hk] at hr
          exact hr
      case list =>
        obtain ⟨a', e1, e⟩ := Res.bind_ok_inv e
        obtain ⟨ws, e2, e⟩ := Res.bind_ok_inv e
        cases e
        obtain ⟨m1, -, m2⟩ := resize_mild own e1
        have hr := Void.mk n cs a' ws plain m1 (m2 hpos) (emptyChild_void below e2)
        rw [hk] at hr
        exact hr
      case map =>
        obtain ⟨a', e1, e⟩ := Res.bind_ok_inv e
        obtain ⟨ws, e2, e⟩ := Res.bind_ok_inv e
        obtain ⟨ws', e3, e⟩ := Res.bind_ok_inv e
        cases e
        obtain ⟨m1, -, m2⟩ := resize_mild own e1
        have hr := Void.mk n cs a' ws' plain m1 (m2 hpos) (emptyChild_void (emptyChild_void below e2) e3)
        rw [hk] at hr
        exact hr
      all_goals
        obtain ⟨a', e1, e⟩ := Res.bind_ok_inv e
        cases e
        obtain ⟨m1, -, m2⟩ := resize_mild own e1
        have hr := Void.mk n cs a' vs plain m1 (m2 hpos) below
        rw [hk] at hr
        exact hr

theorem fill_void (s : Schema) : ∀ flags v w, Void s v → fillDown flags v = .ok w → Void s w := by
  induction s using Schema.ind with
  | h n cs ih =>
    intro flags v w h e
    cases h with
    | mk _ _ a vs plain own blank below =>
      rw [fillDown] at e
      obtain ⟨a', e1, e⟩ := Res.bind_ok_inv e
      obtain ⟨ws, e2, e⟩ := Res.bind_ok_inv e
      cases e
      obtain ⟨m1, m2, -⟩ := setNulls_mild own e1
      rw [blank] at m2
      refine .mk n cs a' ws plain m1 (List.eq_nil_of_length_eq_zero m2) ?_
      exact forall₂_res (f := fillDown _) (fs := fillDownAll _) (by rw [fillDownAll]) (fun v vs => by rw [fillDownAll]; rfl) below (fun c hc v w => ih c hc _ v w) e2

theorem fill_ready (s : Schema) : ∀ flags v w, Ready s v → fillDown flags v = .ok w → Ready s w := by
  induction s using Schema.ind with
  | h n cs ih =>
    intro flags v w h e
    cases h with
    | struct _ _ a vs kind own below =>
      rw [fillDown] at e
      obtain ⟨a', e1, e⟩ := Res.bind_ok_inv e
      obtain ⟨ws, e2, e⟩ := Res.bind_ok_inv e
      cases e
      obtain ⟨m1, -, -⟩ := setNulls_mild own e1
      refine .struct n cs a' ws kind m1 ?_
      exact forall₂_res (f := fillDown _) (fs := fillDownAll _) (by rw [fillDownAll]) (fun v vs => by rw [fillDownAll]; rfl) below (fun c hc v w => ih c hc _ v w) e2
    | other _ _ a vs kind plain own some first below =>
      rw [fillDown] at e
      obtain ⟨a', e1, e⟩ := Res.bind_ok_inv e
      obtain ⟨ws, e2, e⟩ := Res.bind_ok_inv e
      cases e
      obtain ⟨m1, m2, -⟩ := setNulls_mild own e1
      have hlen : 0 < (visibleRows a').length := by rw [m2]; exact List.length_pos_of_ne_nil some
      cases hn : n.kind.nested with
      | false =>
        have hcs := plain hn
        subst hcs
        cases below
        rw [fillDownAll] at e2
        cases e2
        exact .other n [] a' [] kind plain m1 (List.ne_nil_of_length_pos hlen) (fun h => by rw [hn] at h; cases h) .nil
      | true =>
        exfalso
        obtain ⟨x, xs, rfl, hb⟩ := first hn
        rw [fillDownAll] at e2
        obtain ⟨x', e3, -⟩ := Res.bind_ok_inv e2
        cases x with
        | nil => exact hb
        | mk id kk b ds =>
          rw [fillDown] at e3
          obtain ⟨b', e4, -⟩ := Res.bind_ok_inv e3
          rw [setNulls, hb] at e4
          simp only [List.length_map, List.length_nil] at e4
          rw [if_neg (by omega)] at e4
          cases e4

/-! ### Leaves -/

/-- What the reader of a leaf stores is of the type of the column. -/
def ReadKind.Typed {ρ : Type} (K : ReadKind ρ) (k : TypeKind) : Prop :=
  ∀ c d x d' old v, K.next c d = .ok (x, d') → k.Holds old → K.store old x = .ok v → k.Gives v

theorem nextRows_told {ρ : Type} {K : ReadKind ρ} (hK : K.Typed k) (c : Codec) : ∀ (vec : List Value) (r r' : ColReader ρ) (rows : List Value), (∀ o ∈ vec, k.Holds o.v) →
    K.nextRows c r vec = .ok (rows, r') → rows.length = vec.length ∧ k.Told rows := by
  intro vec
  induction vec with
  | nil => intro r r' rows _ h; rw [ReadKind.nextRows] at h; cases h; exact ⟨rfl, .nil⟩
  | cons old vec ih =>
    intro r r' rows hv h
    rw [ReadKind.nextRows] at h
    obtain ⟨⟨null, r1⟩, e1, h⟩ := Res.bind_ok_inv h
    obtain ⟨⟨v, r2⟩, e2, h⟩ := Res.bind_ok_inv h
    obtain ⟨⟨vs, r3⟩, e3, h⟩ := Res.bind_ok_inv h
    cases h
    obtain ⟨i1, i2⟩ := ih _ _ _ (fun o ho => hv o (List.mem_cons_of_mem _ ho)) e3
    have hold := hv old List.mem_cons_self
    refine ⟨by simp [i1], fun o ho => ?_⟩
    rcases List.mem_cons.1 ho with rfl | ho
    · cases null with
      | true =>
        simp only [if_true] at e2
        cases e2
        exact ⟨by simp, hold⟩
      | false =>
        simp only [Bool.false_eq_true, if_false] at e2
        obtain ⟨⟨x, d⟩, f1, e2⟩ := Res.bind_ok_inv e2
        obtain ⟨x', f2, e2⟩ := Res.bind_ok_inv e2
        cases e2
        have := hK _ _ _ _ _ _ f1 hold f2
        exact ⟨fun _ => this, .inr this⟩
    · exact i2 o ho

theorem leafBatch_told {ρ : Type} {K : ReadKind ρ} {c : Codec} {r r' : ColReader ρ} {id : Nat} {kk : TypeKind} {a : Option Slice} {vs : List Vec} {w : Vec} (hK : K.Typed k) (own : k.Mild a)
    (h : leafBatch K c r (.mk id kk a vs) = .ok (w, r')) : ∃ a', w = .mk id kk a' vs ∧ k.Mild a' ∧ k.Told (visibleRows a') ∧ (visibleRows a').length = (visibleRows a).length := by
  rw [leafBatch] at h
  obtain ⟨⟨rows, r1⟩, e1, h⟩ := Res.bind_ok_inv h
  cases h
  rw [ReadKind.nextBatch] at e1
  obtain ⟨d, -, e1⟩ := Res.bind_ok_inv e1
  obtain ⟨k1, k2⟩ := nextRows_told hK c _ _ _ _ own.rows e1
  obtain ⟨k3, k4⟩ := told_update own k1 k2
  exact ⟨_, rfl, k3, k4, by rw [visible_update k1, k1]⟩

/-- The readers of the leaves of a type. -/
def LeafTag.For (t : LeafTag) : TypeKind → Prop
  | .byte => t = .byte
  | .boolean => t = .bool
  | .short => t = .int .small
  | .int => t = .int .int
  | .long => t = .int .big
  | .float => t = .float false
  | .double => t = .float true
  | .string => t = .string
  | .binary => t = .binary
  | .date => t = .date
  | .timestamp => t = .timestamp
  | .decimal => t = .decimal
  | _ => False

theorem leaf_typed {t : LeafTag} (h : t.For k) : t.read.Typed k := by
  intro c d x d' old v hn ho hs
  cases k <;> simp only [LeafTag.For] at h <;> subst h <;> simp only [LeafTag.read] at hn hs
  case byte =>
    simp only [byteRead, replaceValue] at hn hs
    obtain ⟨⟨b, r⟩, -, hn⟩ := Res.bind_ok_inv hn
    cases hn; cases hs; exact ⟨_, rfl⟩
  case boolean =>
    simp only [boolRead, replaceValue] at hn hs
    obtain ⟨⟨b, r⟩, -, hn⟩ := Res.bind_ok_inv hn
    cases hn; cases hs; exact ⟨_, rfl⟩
  case short =>
    simp only [intRead, replaceValue] at hn hs
    obtain ⟨⟨b, r⟩, -, hn⟩ := Res.bind_ok_inv hn
    cases hn; cases hs; exact ⟨_, rfl⟩
  case int =>
    simp only [intRead, replaceValue] at hn hs
    obtain ⟨⟨b, r⟩, -, hn⟩ := Res.bind_ok_inv hn
    cases hn; cases hs; exact ⟨_, rfl⟩
  case long =>
    simp only [intRead, replaceValue] at hn hs
    obtain ⟨⟨b, r⟩, -, hn⟩ := Res.bind_ok_inv hn
    cases hn; cases hs; exact ⟨_, rfl⟩
  case float =>
    simp only [floatRead, replaceValue, Bool.false_eq_true, if_false] at hn hs
    obtain ⟨⟨b, r⟩, -, hn⟩ := Res.bind_ok_inv hn
    cases hn; cases hs; exact ⟨_, rfl⟩
  case double =>
    simp only [floatRead, replaceValue, if_true] at hn hs
    obtain ⟨⟨b, r⟩, -, hn⟩ := Res.bind_ok_inv hn
    cases hn; cases hs; exact ⟨_, rfl⟩
  case string =>
    simp only [stringRead, replaceValue] at hn hs
    obtain ⟨⟨b, r⟩, -, hn⟩ := Res.bind_ok_inv hn
    cases hn; cases hs; exact ⟨_, rfl⟩
  case binary =>
    simp only [binaryRead, replaceValue] at hn hs
    obtain ⟨⟨b, r⟩, -, hn⟩ := Res.bind_ok_inv hn
    cases hn; cases hs; exact ⟨_, rfl⟩
  case date =>
    simp only [dateRead, replaceValue] at hn hs
    obtain ⟨⟨b, r⟩, -, hn⟩ := Res.bind_ok_inv hn
    cases hn; cases hs; exact ⟨_, rfl⟩
  case timestamp =>
    simp only [timestampRead] at hs
    rcases ho with rfl | ho
    · cases hs
    · simp only [TypeKind.Gives] at ho; subst ho; cases hs; rfl
  case decimal =>
    simp only [decimalRead] at hs
    rcases ho with rfl | ho
    · cases hs
    · simp only [TypeKind.Gives] at ho; subst ho; cases hs; rfl

theorem dict_typed (fuel : Nat) : (dictRead fuel).Typed .string := by
  intro c d x d' old v hn ho hs
  simp only [dictRead, replaceValue] at hn hs
  obtain ⟨⟨i, r⟩, -, hn⟩ := Res.bind_ok_inv hn
  simp only at hn
  split at hn
  · cases hn; cases hs; exact ⟨_, rfl⟩
  · cases hn

theorem bare_typed (t : Option LeafTag) : (bareRead t).Typed k := by
  intro c d x d' old v hn ho hs
  cases t <;> simp only [bareRead, ReadKind.bare] at hn <;> cases hn

/-! ### Readers -/

/-- The reader of a column is one of its type, and so are those below it. -/
def Reads : (n : Nat) → Schema → Rd n → Prop
  | 0, _, _ => False
  | n + 1, s, x => match (x : RdNode (Rd n)) with
    | .leaf t _ => t.For s.node.kind ∧ s.children = []
    | .dict _ => s.node.kind = .string ∧ s.children = []
    | .bare _ _ => s.node.kind.nested = false ∧ s.children = []
    | .struct _ _ _ xs => s.node.kind = .struct ∧ List.Forall₂ (Reads n) s.children xs
    | .list _ _ _ _ y => s.node.kind = .list ∧ ∀ y', y = some y' → ∃ d, s.children = [d] ∧ Reads n d y'
    | .map _ _ _ _ y z => s.node.kind = .map ∧ ∀ y', y = some y' → ∀ z', z = some z' → ∃ d e, s.children = [d, e] ∧ Reads n d y' ∧ Reads n e z'

section
variable {χ : Type} {X : RdOps χ} {R : Schema → χ → Prop} {c : Codec}

theorem childBatches_types {P Q : Schema → Vec → Prop} (hnext : ∀ d x v v' x', R d x → P d v → X.nextBatch x v = .ok (v', x') → Q d v' ∧ R d x') :
    ∀ {cs : List Schema} {xs : List χ} (_ : List.Forall₂ R cs xs) {vs ws : List Vec} {ys : List χ}, List.Forall₂ P cs vs → childBatches X xs vs = .ok (ws, ys) →
      List.Forall₂ Q cs ws ∧ List.Forall₂ R cs ys := by
  intro cs xs h
  induction h with
  | nil =>
    intro vs ws ys hv e
    cases hv
    rw [childBatches] at e
    cases e
    exact ⟨.nil, .nil⟩
  | cons hc hcs ih =>
    intro vs ws ys hv e
    cases hv with
    | cons h1 h2 =>
      rw [childBatches] at e
      obtain ⟨⟨v', x'⟩, e1, e⟩ := Res.bind_ok_inv e
      obtain ⟨⟨vs', xs'⟩, e2, e⟩ := Res.bind_ok_inv e
      cases e
      obtain ⟨k1, k2⟩ := hnext _ _ _ _ _ hc h1 e1
      obtain ⟨k3, k4⟩ := ih h2 e2
      exact ⟨.cons k1 k3, .cons k2 k4⟩

theorem readFlags_mild : ∀ (vs rows : List Value) (p p' : BoolReader), (∀ r ∈ vs, k.Holds r.v) → readFlags c p vs = .ok (rows, p') → ∀ r ∈ rows, k.Holds r.v := by
  intro vs
  induction vs with
  | nil => intro rows p p' _ h r hr; rw [readFlags] at h; cases h; cases hr
  | cons v vs ih =>
    intro rows p p' hv h
    rw [readFlags] at h
    obtain ⟨⟨b, p1⟩, -, h⟩ := Res.bind_ok_inv h
    obtain ⟨⟨rs, p2⟩, e, h⟩ := Res.bind_ok_inv h
    cases h
    intro r hr
    rcases List.mem_cons.1 hr with rfl | hr
    · exact hv v List.mem_cons_self
    · exact ih _ _ _ (fun r h => hv r (List.mem_cons_of_mem _ h)) e r hr

theorem structBatch_types {P Q : Schema → Vec → Prop} (hfill : ∀ d flags v w, P d v → fillDown flags v = .ok w → P d w)
    (hnext : ∀ d x v v' x', R d x → P d v → X.nextBatch x v = .ok (v', x') → Q d v' ∧ R d x') {cs : List Schema} {xs ys : List χ} {p p' : Option BoolReader} {id : Nat} {kk : TypeKind}
    {a : Option Slice} {vs : List Vec} {w : Vec} (hx : List.Forall₂ R cs xs) (own : k.Mild a) (below : List.Forall₂ P cs vs) (h : structBatch X c p xs (.mk id kk a vs) = .ok (w, p', ys)) :
    ∃ a' ws, w = .mk id kk a' ws ∧ k.Mild a' ∧ (visibleRows a').length = (visibleRows a).length ∧ List.Forall₂ Q cs ws ∧ List.Forall₂ R cs ys := by
  rw [structBatch.eq_def] at h
  cases p with
  | none =>
    simp only [Res.pure_eq, Res.ok_bind] at h
    obtain ⟨⟨vs2, xs2⟩, e1, h⟩ := Res.bind_ok_inv h
    injection h with h
    simp only [Prod.mk.injEq] at h
    obtain ⟨rfl, rfl, rfl⟩ := h
    obtain ⟨k1, k2⟩ := childBatches_types hnext hx below e1
    exact ⟨a, _, rfl, own, rfl, k1, k2⟩
  | some p =>
    simp only at h
    obtain ⟨⟨w1, p2⟩, e2, h⟩ := Res.bind_ok_inv h
    obtain ⟨⟨rows, p3⟩, f1, e2⟩ := Res.bind_ok_inv e2
    obtain ⟨w2, f2, e2⟩ := Res.bind_ok_inv e2
    rw [fillNulls] at f2
    obtain ⟨vs', f3, f2⟩ := Res.bind_ok_inv f2
    cases f2
    cases e2
    simp only at h
    obtain ⟨⟨vs2, xs2⟩, e1, h⟩ := Res.bind_ok_inv h
    injection h with h
    simp only [Prod.mk.injEq] at h
    obtain ⟨rfl, rfl, rfl⟩ := h
    have hl := readFlags_length c _ _ _ _ f1
    have hb := forall₂_res (P := P) (Q := P) (f := fillDown _) (fs := fillDownAll _) (by rw [fillDownAll]) (fun v vs => by rw [fillDownAll]; rfl) below (fun d _ v w => hfill d _ v w) f3
    obtain ⟨k1, k2⟩ := childBatches_types hnext hx hb e1
    exact ⟨_, _, rfl, mild_update own (readFlags_mild _ _ _ _ own.rows f1), visible_update_length (by omega), k1, k2⟩

theorem prepareChild_elem {d : Schema} {null : Bool} {l : Nat} {e e' : Vec} (h : Elem d e) (hp : prepareChild null l e = .ok e') : ElemIn d e' := by
  have key : ∀ (kk : TypeKind) (a : Option Slice) (rows : List Value) (hr : rows = if null then [⟨true, .nil⟩] else List.replicate l ⟨false, .nil⟩), kk.Mild a →
      kk.Mild (if a.isNone ∧ rows = [] then none else some ⟨rows ++ (match a with | some s => s.arr | none => []).drop rows.length, rows.length⟩) := by
    intro kk a rows hr own
    split
    · exact .none
    · intro b hb r hr'
      cases hb
      simp only [List.mem_append] at hr'
      rcases hr' with hr' | hr'
      · left
        rw [hr] at hr'
        split at hr'
        · simp only [List.mem_singleton] at hr'; rw [hr']
        · rw [(List.mem_replicate.1 hr').2]
      · cases a with
        | none => simp at hr'
        | some a => exact own a rfl r (List.mem_of_mem_drop hr')
  cases h with
  | struct n cs a vs kind own below =>
    rw [prepareChild.eq_def] at hp
    dsimp only at hp
    injection hp with hp
    subst hp
    exact .struct n cs _ vs kind (key _ a _ rfl own) below
  | other n cs a vs kind plain own told below =>
    rw [prepareChild.eq_def] at hp
    dsimp only at hp
    injection hp with hp
    subst hp
    exact .other n cs _ vs kind plain (key _ a _ rfl own) below

theorem nextOn_types {d : Schema} {y : χ} {e e' : Vec} {x' : Option χ} (hnext : ∀ d x v v' x', R d x → ElemIn d v → X.nextBatch x v = .ok (v', x') → Elem d v' ∧ R d x') (hy : R d y)
    (he : ElemIn d e) (h : nextOn X (some y) e = .ok (e', x')) : Elem d e' ∧ ∃ y', x' = some y' ∧ R d y' := by
  rw [nextOn] at h
  obtain ⟨⟨v, x⟩, e1, h⟩ := Res.bind_ok_inv h
  cases h
  obtain ⟨k1, k2⟩ := hnext _ _ _ _ _ hy he e1
  exact ⟨k1, _, rfl, k2⟩

theorem listRows_types (hnext : ∀ d x v v' x', R d x → ElemIn d v → X.nextBatch x v = .ok (v', x') → Elem d v' ∧ R d x') {d : Schema} : ∀ (vs : List Value) (p p' : Option BoolReader)
    (l l' : Option IntReader) (y : χ) (x' : Option χ) (e : Vec) (es ws : List Vec) (rows : List Value), (∀ r ∈ vs, TypeKind.list.Holds r.v) → R d y → Elem d e →
    listRows X c p l (some y) vs (e :: es) = .ok (rows, ws, p', l', x') →
    ∃ e' y', ws = e' :: es ∧ Elem d e' ∧ x' = some y' ∧ R d y' ∧ rows.length = vs.length ∧ TypeKind.list.Told rows := by
  intro vs
  induction vs with
  | nil =>
    intro p p' l l' y x' e es ws rows _ hy he h
    rw [listRows] at h
    cases h
    exact ⟨e, y, rfl, he, rfl, hy, rfl, .nil⟩
  | cons old vs ih =>
    intro p p' l l' y x' e es ws rows hv hy he h
    rw [listRows] at h
    obtain ⟨⟨null, p1⟩, -, h⟩ := Res.bind_ok_inv h
    obtain ⟨⟨v, n, l1⟩, e2, h⟩ := Res.bind_ok_inv h
    simp only at h
    obtain ⟨e1, e3, h⟩ := Res.bind_ok_inv h
    obtain ⟨⟨e2', x1⟩, e4, h⟩ := Res.bind_ok_inv h
    obtain ⟨⟨rows1, ws1, p2, l2, x2⟩, e5, h⟩ := Res.bind_ok_inv h
    cases h
    obtain ⟨m1, y1, rfl, m2⟩ := nextOn_types hnext hy (prepareChild_elem he e3) e4
    obtain ⟨e', y', i1, i2, i3, i4, i5, i6⟩ := ih _ _ _ _ _ _ _ _ _ _ (fun r h => hv r (List.mem_cons_of_mem _ h)) m2 m1 e5
    refine ⟨e', y', i1, i2, i3, i4, by simp [i5], fun r hr => ?_⟩
    rcases List.mem_cons.1 hr with rfl | hr
    · cases null with
      | true =>
        simp only [if_true] at e2
        cases e2
        exact ⟨by simp, hv old List.mem_cons_self⟩
      | false =>
        simp only [Bool.false_eq_true, if_false] at e2
        obtain ⟨⟨m, l3⟩, -, e2⟩ := Res.bind_ok_inv e2
        cases e2
        exact ⟨fun _ => ⟨_, rfl⟩, .inr ⟨_, rfl⟩⟩
    · exact i6 r hr

theorem mapRows_types (hnext : ∀ d x v v' x', R d x → ElemIn d v → X.nextBatch x v = .ok (v', x') → Elem d v' ∧ R d x') {d d' : Schema} : ∀ (vs : List Value) (p p' : Option BoolReader)
    (l l' : Option IntReader) (y z : χ) (x' x'' : Option χ) (e f : Vec) (es ws : List Vec) (rows : List Value), (∀ r ∈ vs, TypeKind.map.Holds r.v) → R d y → R d' z → Elem d e → Elem d' f →
    mapRows X c p l (some y) (some z) vs (e :: f :: es) = .ok (rows, ws, p', l', x', x'') →
    ∃ e' f' y' z', ws = e' :: f' :: es ∧ Elem d e' ∧ Elem d' f' ∧ x' = some y' ∧ x'' = some z' ∧ R d y' ∧ R d' z' ∧ rows.length = vs.length ∧ TypeKind.map.Told rows := by
  intro vs
  induction vs with
  | nil =>
    intro p p' l l' y z x' x'' e f es ws rows _ hy hz he hf h
    rw [mapRows] at h
    cases h
    exact ⟨e, f, y, z, rfl, he, hf, rfl, rfl, hy, hz, rfl, .nil⟩
  | cons old vs ih =>
    intro p p' l l' y z x' x'' e f es ws rows hv hy hz he hf h
    rw [mapRows] at h
    obtain ⟨⟨null, p1⟩, -, h⟩ := Res.bind_ok_inv h
    obtain ⟨⟨v, n, l1⟩, e2, h⟩ := Res.bind_ok_inv h
    simp only at h
    obtain ⟨e1, e3, h⟩ := Res.bind_ok_inv h
    obtain ⟨f1, f3, h⟩ := Res.bind_ok_inv h
    obtain ⟨⟨e2', x1⟩, e4, h⟩ := Res.bind_ok_inv h
    obtain ⟨⟨f2', x2⟩, f4, h⟩ := Res.bind_ok_inv h
    obtain ⟨⟨rows1, ws1, p2, l2, x3, x4⟩, e5, h⟩ := Res.bind_ok_inv h
    cases h
    obtain ⟨m1, y1, rfl, m2⟩ := nextOn_types hnext hy (prepareChild_elem he e3) e4
    obtain ⟨m3, z1, rfl, m4⟩ := nextOn_types hnext hz (prepareChild_elem hf f3) f4
    obtain ⟨e', f', y', z', i1, i2, i3, i4, i5, i6, i7, i8, i9⟩ := ih _ _ _ _ _ _ _ _ _ _ _ _ _ (fun r h => hv r (List.mem_cons_of_mem _ h)) m2 m4 m1 m3 e5
    refine ⟨e', f', y', z', i1, i2, i3, i4, i5, i6, i7, by simp [i8], fun r hr => ?_⟩
    rcases List.mem_cons.1 hr with rfl | hr
    · cases null with
      | true =>
        simp only [if_true] at e2
        cases e2
        exact ⟨by simp, hv old List.mem_cons_self⟩
      | false =>
        simp only [Bool.false_eq_true, if_false] at e2
        obtain ⟨⟨m, l3⟩, -, e2⟩ := Res.bind_ok_inv e2
        cases e2
        exact ⟨fun _ => ⟨_, rfl⟩, .inr ⟨_, rfl⟩⟩
    · exact i9 r hr

theorem listRows_none {p : Option BoolReader} {l : Option IntReader} {old : Value} {vs : List Value} {cs : List Vec}
    {out : List Value × List Vec × Option BoolReader × Option IntReader × Option χ} (h : listRows X c p l none (old :: vs) cs = .ok out) : False := by
  rw [listRows] at h
  obtain ⟨⟨null, p1⟩, -, h⟩ := Res.bind_ok_inv h
  obtain ⟨⟨v, n, l1⟩, -, h⟩ := Res.bind_ok_inv h
  cases cs with
  | nil => cases h
  | cons e cs =>
    simp only at h
    obtain ⟨e1, -, h⟩ := Res.bind_ok_inv h
    obtain ⟨e1, h1, -⟩ := Res.bind_ok_inv h
    rw [nextOn] at h1
    cases h1

theorem mapRows_none {p : Option BoolReader} {l : Option IntReader} {y z : Option χ} {old : Value} {vs : List Value} {cs : List Vec}
    {out : List Value × List Vec × Option BoolReader × Option IntReader × Option χ × Option χ} (h : mapRows X c p l y z (old :: vs) cs = .ok out) : ∃ y' z', y = some y' ∧ z = some z' := by
  rw [mapRows] at h
  obtain ⟨⟨null, p1⟩, -, h⟩ := Res.bind_ok_inv h
  obtain ⟨⟨v, n, l1⟩, -, h⟩ := Res.bind_ok_inv h
  simp only at h
  split at h
  · obtain ⟨e1, -, h⟩ := Res.bind_ok_inv h
    obtain ⟨f1, -, h⟩ := Res.bind_ok_inv h
    obtain ⟨⟨e2, y2⟩, h1, h⟩ := Res.bind_ok_inv h
    obtain ⟨⟨f2, z2⟩, h2, h⟩ := Res.bind_ok_inv h
    cases y with
    | none => rw [nextOn] at h1; cases h1
    | some y =>
      cases z with
      | none => rw [nextOn] at h2; cases h2
      | some z => exact ⟨y, z, rfl, rfl⟩
  · cases h

end

/-- `NextBatch` on a vector with nothing to see, on the elements of a list, and on the vectors of a table. -/
theorem reads_next (c : Codec) (fuel : Nat) : ∀ (n : Nat) (s : Schema) (x : Rd n) (v v' : Vec) (x' : Rd n), Reads n s x → (rdOps c fuel n).nextBatch x v = .ok (v', x') →
    (Void s v → Void s v' ∧ Reads n s x') ∧ (ElemIn s v → Elem s v' ∧ Reads n s x') ∧ (Ready s v → Done s v' ∧ Reads n s x') := by
  intro n
  induction n with
  | zero => intro s x v v' x' h; exact h.elim
  | succ n ih =>
    intro s x v v' x' hx hb
    have hleaf : ∀ {ρ : Type} (K : ReadKind ρ) (r r' : ColReader ρ), K.Typed s.node.kind → s.node.kind.nested = false → s.children = [] → leafBatch K c r v = .ok (v', r') →
        (Void s v → Void s v') ∧ (ElemIn s v → Elem s v') ∧ (Ready s v → Done s v') := by
      intro ρ K r r' hK hn hc hl
      have hns : s.node.kind ≠ .struct := fun h => by rw [h] at hn; cases hn
      refine ⟨fun h => ?_, fun h => ?_, fun h => ?_⟩
      · cases h with
        | mk m cs a vs plain own blank below =>
          obtain ⟨a', rfl, k1, k2, k3⟩ := leafBatch_told (k := m.kind) hK own hl
          exact .mk m cs a' vs plain k1 (List.eq_nil_of_length_eq_zero (by rw [k3, blank]; rfl)) below
      · cases h with
        | struct m cs a vs kind => exact absurd kind hns
        | other m cs a vs kind plain own below =>
          obtain ⟨a', rfl, k1, k2, k3⟩ := leafBatch_told (k := m.kind) hK own hl
          exact .other m cs a' vs kind plain k1 k2 below
      · cases h with
        | struct m cs a vs kind => exact absurd kind hns
        | other m cs a vs kind plain own some first below =>
          obtain ⟨a', rfl, k1, k2, k3⟩ := leafBatch_told (k := m.kind) hK own hl
          exact .other m cs a' vs kind plain k1 k2 below
    have hvoid : ∀ d x v v' x', Reads n d x → Void d v → (rdOps c fuel n).nextBatch x v = .ok (v', x') → Void d v' ∧ Reads n d x' := fun d x v v' x' h1 h2 h3 => (ih d x v v' x' h1 h3).1 h2
    have helem : ∀ d x v v' x', Reads n d x → ElemIn d v → (rdOps c fuel n).nextBatch x v = .ok (v', x') → Elem d v' ∧ Reads n d x' := fun d x v v' x' h1 h2 h3 => (ih d x v v' x' h1 h3).2.1 h2
    have hready : ∀ d x v v' x', Reads n d x → Ready d v → (rdOps c fuel n).nextBatch x v = .ok (v', x') → Done d v' ∧ Reads n d x' := fun d x v v' x' h1 h2 h3 => (ih d x v v' x' h1 h3).2.2 h2
    cases x with
    | leaf t r =>
      simp only [rdOps, RdNode.nextBatch] at hb
      obtain ⟨⟨v1, r1⟩, e1, hb⟩ := Res.bind_ok_inv hb
      cases hb
      obtain ⟨h1, h2⟩ := hx
      obtain ⟨k1, k2, k3⟩ := hleaf _ _ _ (leaf_typed h1) (by cases hk : s.node.kind <;> rw [hk] at h1 <;> first | rfl | exact h1.elim) h2 e1
      exact ⟨fun h => ⟨k1 h, h1, h2⟩, fun h => ⟨k2 h, h1, h2⟩, fun h => ⟨k3 h, h1, h2⟩⟩
    | dict r =>
      simp only [rdOps, RdNode.nextBatch] at hb
      obtain ⟨⟨v1, r1⟩, e1, hb⟩ := Res.bind_ok_inv hb
      cases hb
      obtain ⟨h1, h2⟩ := hx
      obtain ⟨k1, k2, k3⟩ := hleaf _ _ _ (by rw [h1]; exact dict_typed fuel) (by rw [h1]; rfl) h2 e1
      exact ⟨fun h => ⟨k1 h, h1, h2⟩, fun h => ⟨k2 h, h1, h2⟩, fun h => ⟨k3 h, h1, h2⟩⟩
    | bare t r =>
      simp only [rdOps, RdNode.nextBatch] at hb
      obtain ⟨⟨v1, r1⟩, e1, hb⟩ := Res.bind_ok_inv hb
      cases hb
      obtain ⟨h1, h2⟩ := hx
      obtain ⟨k1, k2, k3⟩ := hleaf _ _ _ (bare_typed t) h1 h2 e1
      exact ⟨fun h => ⟨k1 h, h1, h2⟩, fun h => ⟨k2 h, h1, h2⟩, fun h => ⟨k3 h, h1, h2⟩⟩
    | struct kind p i xs =>
      simp only [rdOps, RdNode.nextBatch] at hb
      obtain ⟨⟨v1, p1, xs1⟩, e1, hb⟩ := Res.bind_ok_inv hb
      cases hb
      obtain ⟨h1, h2⟩ := hx
      refine ⟨fun h => ?_, fun h => ?_, fun h => ?_⟩
      · cases h with
        | mk m cs a vs plain own blank below =>
          obtain ⟨a', ws, rfl, k1, k2, k3, k4⟩ := structBatch_types (k := m.kind) (fun d => fill_void d) hvoid h2 own below e1
          exact ⟨.mk m cs a' ws plain k1 (List.eq_nil_of_length_eq_zero (by rw [k2, blank]; rfl)) k3, h1, k4⟩
      · cases h with
        | struct m cs a vs kind own below =>
          obtain ⟨a', ws, rfl, k1, k2, k3, k4⟩ := structBatch_types (k := m.kind) (fun d => fill_void d) hvoid h2 own below e1
          exact ⟨.struct m cs a' ws kind k1 k3, h1, k4⟩
        | other m cs a vs kind => exact absurd h1 kind
      · cases h with
        | struct m cs a vs kind own below =>
          obtain ⟨a', ws, rfl, k1, k2, k3, k4⟩ := structBatch_types (k := m.kind) (fun d => fill_ready d) hready h2 own below e1
          exact ⟨.struct m cs a' ws kind k1 k3, h1, k4⟩
        | other m cs a vs kind => exact absurd h1 kind
    | list kind p l i y =>
      obtain ⟨h1, h2⟩ := hx
      cases v with
      | nil => simp only [rdOps, RdNode.nextBatch] at hb; cases hb
      | mk id kk a vs =>
        simp only [rdOps, RdNode.nextBatch] at hb
        obtain ⟨⟨rows, ws, p1, l1, y1⟩, e1, hb⟩ := Res.bind_ok_inv hb
        cases hb
        have key : s.node.kind.Mild a → List.Forall₂ Elem s.children vs → List.Forall₂ Elem s.children ws ∧ s.node.kind.Mild (updateRows a rows) ∧ s.node.kind.Told (visibleRows (updateRows a rows)) ∧
            (Reads (n + 1) s (RdNode.list kind p1 l1 i y1 : RdNode (Rd n))) := by
          intro own below
          rw [h1] at own ⊢
          cases hvis : visibleRows a with
          | nil =>
            rw [hvis, listRows] at e1
            cases e1
            rw [updateRows_nil, hvis]
            exact ⟨below, own, .nil, h1, h2⟩
          | cons old rest =>
            cases y with
            | none => rw [hvis] at e1; exact (listRows_none e1).elim
            | some y =>
              obtain ⟨d, hd, hy⟩ := h2 y rfl
              rw [hd] at below ⊢
              cases below with
              | cons b1 b2 =>
                cases b2
                obtain ⟨e', y', k1, k2, k3, k4, k5, k6⟩ := listRows_types (R := Reads n) helem _ _ _ _ _ _ _ _ _ _ _ own.rows hy b1 e1
                obtain ⟨m1, m2⟩ := told_update own k5 k6
                subst k1
                exact ⟨.cons k2 .nil, m1, m2, h1, fun y'' hy'' => ⟨d, hd, by rw [k3] at hy''; cases hy''; exact k4⟩⟩
        refine ⟨fun h => ?_, fun h => ?_, fun h => ?_⟩
        · cases h with
          | mk m cs _ _ plain own blank below =>
            rw [blank, listRows] at e1
            cases e1
            rw [updateRows_nil]
            exact ⟨.mk m cs a vs plain own blank below, h1, h2⟩
        · cases h with
          | struct m cs _ _ kind own below => simp only [node_mk] at h1; rw [kind] at h1; cases h1
          | other m cs _ _ kind plain own below =>
            obtain ⟨k1, k2, k3, k4⟩ := key own below
            exact ⟨.other m cs _ ws kind plain k2 k3 k1, k4⟩
        · cases h with
          | struct m cs _ _ kind own below => simp only [node_mk] at h1; rw [kind] at h1; cases h1
          | other m cs _ _ kind plain own some first below =>
            obtain ⟨k1, k2, k3, k4⟩ := key own below
            exact ⟨.other m cs _ ws kind plain k2 k3 k1, k4⟩
    | map kind p l i y z =>
      obtain ⟨h1, h2⟩ := hx
      cases v with
      | nil => simp only [rdOps, RdNode.nextBatch] at hb; cases hb
      | mk id kk a vs =>
        simp only [rdOps, RdNode.nextBatch] at hb
        obtain ⟨⟨rows, ws, p1, l1, y1, z1⟩, e1, hb⟩ := Res.bind_ok_inv hb
        cases hb
        have key : s.node.kind.Mild a → List.Forall₂ Elem s.children vs → List.Forall₂ Elem s.children ws ∧ s.node.kind.Mild (updateRows a rows) ∧ s.node.kind.Told (visibleRows (updateRows a rows)) ∧
            (Reads (n + 1) s (RdNode.map kind p1 l1 i y1 z1 : RdNode (Rd n))) := by
          intro own below
          rw [h1] at own ⊢
          cases hvis : visibleRows a with
          | nil =>
            rw [hvis, mapRows] at e1
            cases e1
            rw [updateRows_nil, hvis]
            exact ⟨below, own, .nil, h1, h2⟩
          | cons old rest =>
            rw [hvis] at e1
            obtain ⟨y', z', rfl, rfl⟩ := mapRows_none e1
            obtain ⟨d, e, hd, hy, hz⟩ := h2 y' rfl z' rfl
            rw [hd] at below ⊢
            cases below with
            | cons b1 b2 =>
              cases b2 with
              | cons b2 b3 =>
                cases b3
                rw [← hvis] at e1
                obtain ⟨e', f', y', z', k1, k2, k3, k4, k5, k6, k7, k8, k9⟩ := mapRows_types (R := Reads n) helem _ _ _ _ _ _ _ _ _ _ _ _ _ _ own.rows hy hz b1 b2 e1
                obtain ⟨m1, m2⟩ := told_update own k8 k9
                subst k1
                exact ⟨.cons k2 (.cons k3 .nil), m1, m2, h1, fun y'' hy'' z'' hz'' => ⟨d, e, hd, by rw [k4] at hy''; cases hy''; exact k6, by rw [k5] at hz''; cases hz''; exact k7⟩⟩
        refine ⟨fun h => ?_, fun h => ?_, fun h => ?_⟩
        · cases h with
          | mk m cs _ _ plain own blank below =>
            rw [blank, mapRows] at e1
            cases e1
            rw [updateRows_nil]
            exact ⟨.mk m cs a vs plain own blank below, h1, h2⟩
        · cases h with
          | struct m cs _ _ kind own below => simp only [node_mk] at h1; rw [kind] at h1; cases h1
          | other m cs _ _ kind plain own below =>
            obtain ⟨k1, k2, k3, k4⟩ := key own below
            exact ⟨.other m cs _ ws kind plain k2 k3 k1, k4⟩
        · cases h with
          | struct m cs _ _ kind own below => simp only [node_mk] at h1; rw [kind] at h1; cases h1
          | other m cs _ _ kind plain own some first below =>
            obtain ⟨k1, k2, k3, k4⟩ := key own below
            exact ⟨.other m cs _ ws kind plain k2 k3 k1, k4⟩

end Goorc
