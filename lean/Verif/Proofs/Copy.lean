import Verif.Props.LayoutUnique
import Verif.Spec.Copy
/- Lemmas for Props/Copy.lean. -/
namespace Goorc

theorem Row.only_self {ids : List Nat} (hn : ids.Nodup) : ∀ (r : Row), r.map (·.1) = ids → Row.only ids r = r := by
  intro r hr
  subst hr
  simp only [Row.only, List.map_map]
  refine Eq.trans (List.map_congr_left (g := id) fun x hx => ?_) (List.map_id _)
  have key : ∀ (r : Row), (r.map (·.1)).Nodup → ∀ x ∈ r, r.lookup x.1 = some x.2 := by
    intro r
    induction r with
    | nil => intro _ x hx; simp at hx
    | cons y r ih =>
      obtain ⟨y1, y2⟩ := y
      intro hn x hx
      simp only [List.map_cons, List.nodup_cons] at hn
      rcases List.mem_cons.1 hx with rfl | hx
      · simp
      · have : x.1 ≠ y1 := fun he => hn.1 (he ▸ List.mem_map_of_mem hx)
        rw [List.lookup_cons, beq_eq_false_iff_ne.2 this]
        exact ih hn.2 x hx
  simp only [Function.comp_apply, Row.cell, key r hn x hx, Option.join_some, id]

theorem cutRows_flatten {α : Type} : ∀ (rss : List (List α)), cutRows (rss.map List.length) rss.flatten = rss
  | [] => rfl
  | rs :: rss => by
    simp only [List.map_cons, List.flatten_cons, cutRows, List.take_left, List.drop_left]
    rw [cutRows_flatten rss]

theorem flatten_cutRows {α : Type} : ∀ (ns : List Nat) (rows : List α), rows.length ≤ ns.sum → (cutRows ns rows).flatten = rows
  | [], rows, h => by simp at h; simp [cutRows, h]
  | n :: ns, rows, h => by
    simp only [List.sum_cons] at h
    rw [cutRows, List.flatten_cons, flatten_cutRows ns _ (by simp; omega), List.take_append_drop]

/-! ### Batches that were read can be written -/

theorem readBatches_shape {χ ρ : Type} {X : RdOps χ} {hasNulls : List Bool} {B : Nat} {Shape : Vec → Prop} {P : χ → List ρ → Prop}
    {rowsOf : Vec → List ρ} (D : Delivers X hasNulls B Shape P rowsOf) (fuel k : Nat) : ∀ (br : BatchReader χ) (s : Stand ρ),
    br.At hasNulls P s → ∀ vec, Shape vec → ∀ bs stop, readBatches X (fuel + 1) k br vec = .ok (bs, stop) → ∀ b ∈ bs, Shape b := by
  induction k with
  | zero =>
    intro br s _ vec _ bs stop h
    simp only [readBatches] at h
    injection h with h; injection h with h; subst h; simp
  | succ k ih =>
    intro br s ha vec hv bs stop h
    have hn := BatchReader.next_spec D fuel br s ha vec hv
    by_cases he : s.done ≥ br.numberOfRows - 1
    · rw [if_pos he] at hn
      obtain ⟨vec', h1, h2, h3⟩ := hn
      simp only [readBatches, h1, Res.ok_bind] at h
      rw [if_pos trivial] at h
      injection h with h; injection h with h; subst h
      simpa using h2
    · rw [if_neg he] at hn
      obtain ⟨vec', br', h1, h2, h3, h4, h5⟩ := hn
      simp only [readBatches, h1, Res.ok_bind] at h
      split at h
      · injection h with h; injection h with h; subst h
        simpa using h2
      · obtain ⟨⟨vs, st⟩, g1, h⟩ := Res.bind_ok_inv h
        injection h with h; injection h with h; subst h
        intro b hb
        rcases List.mem_cons.1 hb with rfl | hb
        · exact h2
        · exact ih br' _ h4 vec' h2 vs st g1 b hb

theorem ShapeIn.batch {bo : BatchOption} {B len : Nat} (hall : ∀ i, bo.isInclude i = true) (s : Schema) : ∀ under v, ShapeIn bo B len under s v → s.Batch len v := by
  have hf : ∀ cs : List Schema, cs.filter (fun c => bo.isInclude c.node.id) = cs := fun cs => List.filter_eq_self.2 fun c _ => hall _
  induction s using Schema.ind with
  | h nd cs ih =>
    have below : ∀ {under : Bool} {vs : List Vec}, List.Forall₂ (ShapeIn bo B len under) cs vs → List.Forall₂ (Schema.Batch len) cs vs := by
      intro under vs h
      exact forall₂_imp_mem h fun c hc v hv => ih c hc under v hv
    intro under v h
    cases h with
    | leaf _ _ s plain cap size fits unmarked =>
      refine .leaf _ _ (fun he => ?_) size (by rw [cap]; exact fits)
      rw [he] at plain
      cases plain
    | struct _ _ vs kind nulls some_child hb =>
      rw [hf] at some_child hb
      exact .struct _ _ _ kind nulls some_child (below hb)
    | optional _ _ _ s vs kind nulls cap size fits blank some_child hb =>
      rw [hf] at some_child hb
      exact .optional _ _ _ _ kind nulls size (by rw [cap]; exact fits) some_child (below hb)

theorem copyBatches_eq {χ : Type} {X : RdOps χ} {fuel : Nat} {E : Env} {o : FOpts} : ∀ (k : Nat) (br : BatchReader χ) (v : Vec) (bs : List Vec) (stop : Bool),
    readBatches X fuel k br v = .ok (bs, stop) → ∀ w : FileWriter, copyBatches X fuel E o k br v w = (w.writes E o bs >>= fun w' => .ok (w', stop))
  | 0, br, v, bs, stop, h, w => by
    simp only [readBatches] at h
    injection h with h; injection h with h h'; subst h; subst h'
    rfl
  | k + 1, br, v, bs, stop, h, w => by
    simp only [readBatches] at h
    obtain ⟨⟨st, v1, br1⟩, h1, h⟩ := Res.bind_ok_inv h
    simp only [copyBatches, h1, Res.ok_bind]
    cases st with
    | true =>
      simp only [if_true] at h
      injection h with h; injection h with h h'; subst h; subst h'
      simp only [FileWriter.writes, Res.bind_assoc, Res.ok_bind, if_true]
      rfl
    | false =>
      simp only [Bool.false_eq_true, if_false] at h
      obtain ⟨⟨vs, st⟩, g1, h⟩ := Res.bind_ok_inv h
      injection h with h; injection h with h h'; subst h; subst h'
      simp only [FileWriter.writes, Res.bind_assoc, Bool.false_eq_true, if_false]
      congr 1
      funext w1
      exact copyBatches_eq k br1 v1 vs st g1 w1

/-- If nothing is missing, no stripe lost a row. -/
theorem delivered_length {ρ : Type} {B : Nat} {init : List (List ρ)} {last : List ρ} (hl : last ≠ []) (h : (delivered B init last).length = (init ++ [last]).flatten.length) :
    (∀ s ∈ init, losesLast B s.length = false) ∧ 2 ≤ last.length ∧ losesLast B last.length = false := by
  have hzero : lostRows B init = 0 ↔ ∀ s ∈ init, losesLast B s.length = false := by
    simp [lostRows, List.filter_eq_nil_iff]
  have hpos := List.length_pos_iff.2 hl
  rw [delivered] at h
  by_cases h0 : lostRows B init = 0
  · rw [if_pos h0, List.flatten_append, List.length_append, List.length_append] at h
    by_cases hl' : last.length ≤ 1 ∨ losesLast B last.length = true
    · rw [if_pos hl'] at h
      simp at h
      omega
    · simp only [not_or] at hl'
      exact ⟨hzero.1 h0, by omega, by simpa using hl'.2⟩
  · rw [if_neg h0] at h
    exfalso
    have hlen : ∀ (init : List (List ρ)), (init.flatMap (kept B)).length + lostRows B init = init.flatten.length := by
      intro init
      induction init with
      | nil => rfl
      | cons i init ih =>
        simp only [List.flatMap_cons, List.length_append, List.flatten_cons, lostRows, List.filter_cons, kept] at ih ⊢
        by_cases hl : losesLast B i.length = true
        · simp only [hl, if_true, List.length_dropLast, List.length_cons]
          have : 2 ≤ i.length := by simp only [losesLast, Bool.and_eq_true, decide_eq_true_eq] at hl; exact hl.1
          omega
        · simp only [hl]
          simp only [Bool.false_eq_true, if_false]
          omega
    have := hlen init
    simp only [List.flatten_append, List.length_append, List.flatten_cons, List.flatten_nil, List.append_nil] at *
    omega

end Goorc
