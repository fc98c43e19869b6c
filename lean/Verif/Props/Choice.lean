import Verif.Proofs.ChoiceRead
import Verif.Props.Projection
import Verif.Props.Delivered
/-
Which other columns are read does not matter, in tables with lists and maps too.
-/
namespace Goorc

/-- The stripe of a reader for fewer columns. -/
def StripeReader.Thins (q₁ q₂ : Nat → Bool) (s : Schema) {n : Nat} (a b : StripeReader (Rd n)) : Prop :=
  (∀ c ∈ s.columns, a.hasNulls[c.node.id]? = some c.node.hasNulls) ∧ b.hasNulls = a.hasNulls ∧ b.numberOfRows = a.numberOfRows ∧ b.cursor = a.cursor ∧
    ∃ x y, a.reader = some x ∧ b.reader = some y ∧ Narrowed q₁ n q₂ s x y

/-- A reader for fewer columns. -/
def BatchReader.Thins (q₁ q₂ : Nat → Bool) (s : Schema) {n : Nat} (a b : BatchReader (Rd n)) : Prop :=
  b.indexStride = a.indexStride ∧ b.stripeIndex = a.stripeIndex ∧ b.numberOfRows = a.numberOfRows ∧ b.cursor = a.cursor ∧
    List.Forall₂ (StripeReader.Thins q₁ q₂ s) a.stripes b.stripes

section
variable {q₁ q₂ : Nat → Bool} {s : Schema} {B len : Nat} (hsub : ∀ i, q₂ i = true → q₁ i = true) (hsound : Chosen q₂ s) (hroot : q₂ s.node.id = true) (c : Codec) (fuel : Nat) {n : Nat}

include hsub hsound hroot in
theorem fit_same_len {v : Vec} (h : Fitted (some (B, len)) q₁ s v) : v.len = len ∧ v.cap = B ∧ (v.keep q₂).len = len ∧ (v.keep q₂).cap = B := by
  have hs := h.2 B len rfl
  obtain ⟨h1, h2⟩ := suited_len s v hs
  obtain ⟨h3, h4⟩ := suited_len s _ (suited_keep hsub s hsound hroot v hs)
  exact ⟨h1, h2, h3, h4⟩

include hsub hsound hroot in
theorem thins_stripe_next {a b : StripeReader (Rd n)} {v v' : Vec} {stop : Bool} {a' : StripeReader (Rd n)} (h : a.Thins q₁ q₂ s b) (hv : Fitted (some (B, len)) q₁ s v)
    (hroom : len = 0 ∨ (len < B ∧ a.cursor + 1 < a.numberOfRows)) (hn : a.next (rdOps c fuel n) v = .ok (stop, v', a')) :
    ∃ len' b', b.next (rdOps c fuel n) (v.keep q₂) = .ok (stop, v'.keep q₂, b') ∧ a'.Thins q₁ q₂ s b' ∧ Fitted (some (B, len')) q₁ s v' ∧ (stop = false → a'.cursor + 1 < a'.numberOfRows) := by
  obtain ⟨h0, h1, h2, h3, x, y, hx, hy, hxy⟩ := h
  obtain ⟨l1, l2, l3, l4⟩ := fit_same_len hsub hsound hroot hv
  rw [StripeReader.next] at hn
  obtain ⟨w, e1, hn⟩ := Res.bind_ok_inv hn
  rw [hx] at hn
  simp only at hn
  obtain ⟨⟨w', x'⟩, e2, hn⟩ := Res.bind_ok_inv hn
  injection hn with hn
  simp only [Prod.mk.injEq] at hn
  obtain ⟨rfl, rfl, rfl⟩ := hn
  rw [StripeReader.prepareVector, l1, l2] at e1
  obtain ⟨k1, k2⟩ := size_shaped (q₂ := q₂) s hsound v w hv.1 e1
  have k3 := size_suited (by
    rcases hroom with h | ⟨h, h'⟩
    · exact .inl h
    · right
      split <;> omega) s h0 v w (hv.2 B len rfl) e1
  obtain ⟨y', m1, m2, m3⟩ := narrowed_next c fuel n q₂ (some (B, _)) s x y w w' x' hsub hxy ⟨k1, fun _ _ h => by cases h; exact k3⟩ e2
  obtain ⟨l5, l6, l7, l8⟩ := fit_same_len hsub hsound hroot m3
  refine ⟨_, { b with reader := some y', cursor := b.cursor + w'.len }, ?_, ⟨h0, h1, h2, by simp only [h3], x', y', rfl, rfl, m2⟩, m3, fun hs => ?_⟩
  · rw [StripeReader.next, StripeReader.prepareVector, l3, l4, h1, h2, h3]
    simp only
    rw [k2 hroot]
    simp only [Res.ok_bind, hy, m1, l7, l5, h2, h3, Res.pure_eq]
  · simp only [decide_eq_false_iff_not] at hs
    simp only
    omega

include hsub hsound hroot in
theorem thins_loop : ∀ (f : Nat) (len : Nat) (a b a' : BatchReader (Rd n)) (v v' : Vec), a.Thins q₁ q₂ s b → Fitted (some (B, len)) q₁ s v →
    (len = 0 ∨ (len < B ∧ ∀ x, a.stripes[a.stripeIndex.toNat]? = some x → x.cursor + 1 < x.numberOfRows)) → a.nextLoop (rdOps c fuel n) f v = .ok (v', a') →
    ∃ len' b', b.nextLoop (rdOps c fuel n) f (v.keep q₂) = .ok (v'.keep q₂, b') ∧ a'.Thins q₁ q₂ s b' ∧ Fitted (some (B, len')) q₁ s v' := by
  intro f
  induction f with
  | zero =>
    intro len a b a' v v' h hv _ hn
    obtain ⟨h1, h2, h3, h4, h5⟩ := h
    rw [BatchReader.nextLoop.eq_def] at hn ⊢
    simp only at hn ⊢
    rw [h2]
    by_cases hneg : a.stripeIndex < 0
    · rw [if_pos hneg] at hn; cases hn
    · rw [if_neg hneg] at hn ⊢
      rcases narrows_get h5 a.stripeIndex.toNat with ⟨g1, g2⟩ | ⟨x, y, g1, g2, -⟩
      · rw [g1] at hn
        rw [g2]
        simp only at hn ⊢
        injection hn with hn
        simp only [Prod.mk.injEq] at hn
        obtain ⟨rfl, rfl⟩ := hn
        exact ⟨len, b, rfl, ⟨h1, h2, h3, h4, h5⟩, hv⟩
      · rw [g1] at hn; cases hn
  | succ f ih =>
    intro len a b a' v v' h hv hroom hn
    obtain ⟨h1, h2, h3, h4, h5⟩ := h
    rw [BatchReader.nextLoop.eq_def] at hn ⊢
    simp only at hn ⊢
    rw [h2]
    by_cases hneg : a.stripeIndex < 0
    · rw [if_pos hneg] at hn; cases hn
    · rw [if_neg hneg] at hn ⊢
      rcases narrows_get h5 a.stripeIndex.toNat with ⟨g1, g2⟩ | ⟨x, y, g1, g2, g3⟩
      · rw [g1] at hn
        rw [g2]
        simp only at hn ⊢
        injection hn with hn
        simp only [Prod.mk.injEq] at hn
        obtain ⟨rfl, rfl⟩ := hn
        exact ⟨len, b, rfl, ⟨h1, h2, h3, h4, h5⟩, hv⟩
      · rw [g1] at hn
        rw [g2]
        simp only at hn ⊢
        obtain ⟨⟨stop, w, x'⟩, e1, hn⟩ := Res.bind_ok_inv hn
        obtain ⟨len1, y', k1, k2, k3, k4⟩ := thins_stripe_next hsub hsound hroot c fuel g3 hv (hroom.imp id fun h => ⟨h.1, h.2 x g1⟩) e1
        obtain ⟨l1, l2, l3, l4⟩ := fit_same_len hsub hsound hroot k3
        rw [k1]
        simp only [Res.ok_bind] at hn ⊢
        have hnew := narrows_set h5 a.stripeIndex.toNat x' y' k2
        cases stop with
        | true =>
          simp only [if_true] at hn ⊢
          injection hn with hn
          simp only [Prod.mk.injEq] at hn
          obtain ⟨rfl, rfl⟩ := hn
          exact ⟨len1, _, rfl, ⟨h1, rfl, h3, h4, hnew⟩, k3⟩
        | false =>
          simp only [Bool.false_eq_true, if_false] at hn ⊢
          rw [l3, l4]
          rw [l1, l2] at hn
          by_cases hfull : len1 ≥ B
          · rw [if_pos hfull] at hn ⊢
            injection hn with hn
            simp only [Prod.mk.injEq] at hn
            obtain ⟨rfl, rfl⟩ := hn
            exact ⟨len1, _, rfl, ⟨h1, rfl, h3, h4, hnew⟩, k3⟩
          · rw [if_neg hfull] at hn ⊢
            refine ih len1 { a with stripes := a.stripes.set a.stripeIndex.toNat x' } _ _ w v' ⟨h1, rfl, h3, h4, hnew⟩ k3 (.inr ⟨by omega, fun z hz => ?_⟩) hn
            rw [List.getElem?_set_self (List.getElem?_eq_some_iff.1 g1).1] at hz
            cases hz
            exact k4 rfl

include hsub hsound hroot in
theorem thins_next (f : Nat) {a b a' : BatchReader (Rd n)} {v v' : Vec} {stop : Bool} (h : a.Thins q₁ q₂ s b) (hv : Fitted (some (B, len)) q₁ s v)
    (hn : a.next (rdOps c fuel n) f v = .ok (stop, v', a')) :
    ∃ len' b', b.next (rdOps c fuel n) f (v.keep q₂) = .ok (stop, v'.keep q₂, b') ∧ a'.Thins q₁ q₂ s b' ∧ Fitted (some (B, len')) q₁ s v' := by
  rw [BatchReader.next] at hn ⊢
  obtain ⟨w, e1, hn⟩ := Res.bind_ok_inv hn
  obtain ⟨k1, k2⟩ := clear_shaped (q₂ := q₂) s v w hv.1 e1
  have kf : Fitted (some (B, 0)) q₁ s w := ⟨k1, fun _ _ h => by cases h; exact clear_suited s v w (hv.2 B len rfl) e1⟩
  rw [k2]
  simp only [Res.ok_bind]
  rw [h.2.2.1, h.2.2.2.1]
  by_cases hend : a.cursor ≥ a.numberOfRows - 1
  · rw [if_pos hend] at hn ⊢
    injection hn with hn
    simp only [Prod.mk.injEq] at hn
    obtain ⟨rfl, rfl, rfl⟩ := hn
    exact ⟨0, b, rfl, h, kf⟩
  · rw [if_neg hend] at hn ⊢
    obtain ⟨⟨w', a1⟩, e2, hn⟩ := Res.bind_ok_inv hn
    obtain ⟨len1, b1, m1, m2, m3⟩ := thins_loop hsub hsound hroot c fuel f 0 a b a1 w w' h kf (.inl rfl) e2
    obtain ⟨l1, l2, l3, l4⟩ := fit_same_len hsub hsound hroot m3
    obtain ⟨h1, h2, h3, h4, h5⟩ := m2
    have hl := h5.length_eq
    rw [m1]
    simp only [Res.ok_bind, Res.pure_eq] at hn ⊢
    injection hn with hn
    simp only [Prod.mk.injEq] at hn
    obtain ⟨rfl, rfl, rfl⟩ := hn
    rw [h2, ← hl]
    by_cases hlast : a1.stripeIndex = a1.stripes.length
    · simp only [if_pos hlast, h3, h4, l1, l3]
      exact ⟨len1, _, rfl, ⟨h1, rfl, rfl, rfl, h5⟩, m3⟩
    · simp only [if_neg hlast, h3, h4, l1, l3]
      exact ⟨len1, _, rfl, ⟨h1, h2, rfl, rfl, h5⟩, m3⟩

theorem thins_stripe_seek {a b a' : StripeReader (Rd n)} {stride row : Nat} (h : a.Thins q₁ q₂ s b) (hn : a.seek (rdOps c fuel n) stride row = .ok a') :
    ∃ b', b.seek (rdOps c fuel n) stride row = .ok b' ∧ a'.Thins q₁ q₂ s b' := by
  obtain ⟨h0, h1, h2, h3, x, y, hx, hy, hxy⟩ := h
  rw [StripeReader.seek] at hn ⊢
  obtain ⟨o, e1, hn⟩ := Res.bind_ok_inv hn
  rw [e1, Res.ok_bind]
  rw [hx] at hn
  rw [hy]
  simp only at hn ⊢
  obtain ⟨x1, e2, hn⟩ := Res.bind_ok_inv hn
  obtain ⟨x2, e3, hn⟩ := Res.bind_ok_inv hn
  injection hn with hn
  subst hn
  obtain ⟨y1, k1, k2⟩ := narrowed_seek c fuel n q₂ s 0 x y x1 hxy e2
  obtain ⟨y2, k3, k4⟩ := narrowed_skip c fuel n q₂ s o x1 y1 x2 k2 e3
  rw [k1, Res.ok_bind, k3, Res.ok_bind]
  exact ⟨_, rfl, h0, h1, h2, h3, x2, y2, rfl, rfl, k4⟩

theorem thins_seek {a b a' : BatchReader (Rd n)} {row : Nat} (h : a.Thins q₁ q₂ s b) (hn : a.seek (rdOps c fuel n) row = .ok a') :
    ∃ b', b.seek (rdOps c fuel n) row = .ok b' ∧ a'.Thins q₁ q₂ s b' := by
  obtain ⟨h1, h2, h3, h4, h5⟩ := h
  have loop : ∀ (xs ys : List (StripeReader (Rd n))), List.Forall₂ (StripeReader.Thins q₁ q₂ s) xs ys → ∀ i rows, a.seekLoop (rdOps c fuel n) row i rows xs = .ok a' →
      ∃ b', b.seekLoop (rdOps c fuel n) row i rows ys = .ok b' ∧ a'.Thins q₁ q₂ s b' := by
    intro xs ys h
    induction h with
    | nil => intro i rows h; rw [BatchReader.seekLoop] at h; cases h
    | cons hx hxs ih =>
      intro i rows h
      rw [BatchReader.seekLoop] at h ⊢
      rw [hx.2.2.1]
      split at h
      · rename_i hlt
        rw [if_pos hlt, h1]
        obtain ⟨x', e1, h⟩ := Res.bind_ok_inv h
        injection h with h
        subst h
        obtain ⟨y', k1, k2⟩ := thins_stripe_seek c fuel hx e1
        rw [k1, Res.ok_bind]
        exact ⟨_, rfl, rfl, h2, h3, h4, narrows_set h5 i x' y' k2⟩
      · rename_i hlt
        rw [if_neg hlt]
        exact ih _ _ h
  rw [BatchReader.seek] at hn ⊢
  rw [h3]
  split at hn
  · cases hn
  · rename_i hle
    rw [if_neg hle]
    exact loop _ _ h5 _ _ hn

include hsub hsound hroot in
theorem thins_tour (f : Nat) (ops : List RowOp) : ∀ (len : Nat) (a b : BatchReader (Rd n)) (v : Vec) (out : List (Bool × Vec)), a.Thins q₁ q₂ s b → Fitted (some (B, len)) q₁ s v →
    a.tour (rdOps c fuel n) f id v ops = .ok out → b.tour (rdOps c fuel n) f id (v.keep q₂) ops = .ok (out.map fun p => (p.1, p.2.keep q₂)) := by
  induction ops with
  | nil => intro len a b v out _ _ h; rw [BatchReader.tour] at h ⊢; cases h; rfl
  | cons op ops ih =>
    intro len a b v out h hv hn
    cases op with
    | next =>
      rw [BatchReader.tour] at hn ⊢
      obtain ⟨⟨stop, w, a1⟩, e1, hn⟩ := Res.bind_ok_inv hn
      obtain ⟨rest, e2, hn⟩ := Res.bind_ok_inv hn
      cases hn
      obtain ⟨len1, b1, k1, k2, k3⟩ := thins_next hsub hsound hroot c fuel f h hv e1
      rw [k1]
      simp only [Res.ok_bind]
      rw [ih len1 a1 b1 w rest k2 k3 e2]
      rfl
    | seek row =>
      rw [BatchReader.tour] at hn ⊢
      obtain ⟨a1, e1, hn⟩ := Res.bind_ok_inv hn
      obtain ⟨b1, k1, k2⟩ := thins_seek c fuel h e1
      rw [k1, Res.ok_bind]
      exact ih len a1 b1 v out k2 hv hn

end

theorem linkChildren_inv {bo : BatchOption} {kind : TypeKind} {parent : Option FlatRd} : ∀ (cs : List Nat) (i : Nat), linkChildren bo kind parent i cs = .ok () →
    ∀ c ∈ cs, bo.isInclude c = true → ∃ j, linkChild kind parent j = .ok () := by
  intro cs
  induction cs with
  | nil => intro i _ c hc; cases hc
  | cons d cs ih =>
    intro i h c hc hi
    rw [linkChildren] at h
    obtain ⟨u, e1, h⟩ := Res.bind_ok_inv h
    rcases List.mem_cons.1 hc with rfl | hc
    · rw [if_pos hi] at e1
      exact ⟨i, e1⟩
    · exact ih _ h c hc hi

theorem linkAll_inv {bo : BatchOption} : ∀ (types : List RdType) (rs : List (Option FlatRd)), linkAll bo types rs = .ok () →
    ∀ (i : Nat) t r, types[i]? = some t → rs[i]? = some r → linkChildren bo t.kind r 0 t.children = .ok () := by
  intro types
  induction types with
  | nil => intro rs _ i t r h; simp at h
  | cons t ts ih =>
    intro rs h i t' r h1 h2
    cases rs with
    | nil => simp at h2
    | cons r' rs =>
      rw [linkAll] at h
      obtain ⟨u, e1, h⟩ := Res.bind_ok_inv h
      cases i with
      | zero => simp only [List.getElem?_cons_zero, Option.some.injEq] at h1 h2; subst h1; subst h2; exact e1
      | succ i => exact ih rs h i t' r (by simpa using h1) (by simpa using h2)

theorem chooses_chosen {o : BatchOption} {s : Schema} (h : o.Chooses s) : Chosen o.isInclude s :=
  fun c hc => ⟨(h.2 c hc).1, fun hk d hd => (h.2 c hc).2 (by rcases hk with hk | hk <;> rw [hk] <;> decide) d hd⟩

theorem thin_stripe {E : Env} {ro : ROpts} {o₁ o₂ : BatchOption} {file : Bytes} {types : List RdType} {info : StripeInfo} {s : Schema} (num : s.Numbered) (ht : TypesOf s types) (hs : s.WellFormed)
    (hsub : ∀ i, o₂.isInclude i = true → o₁.isInclude i = true) (sel₁ : o₁.Chooses s) (sel : o₂.Chooses s) {a : StripeReader (Rd types.length)} (h : newStripeReader E ro o₁ file types info = .ok a) :
    ∃ b, newStripeReader E ro o₂ file types info = .ok b ∧ a.Thins o₁.isInclude o₂.isInclude s b := by
  rw [newStripeReader] at h ⊢
  obtain ⟨footer, e1, h⟩ := Res.bind_ok_inv h
  obtain ⟨r, e2, h⟩ := Res.bind_ok_inv h
  injection h with h
  subst h
  rw [initStripe] at e2
  obtain ⟨rs, f1, e2⟩ := Res.bind_ok_inv e2
  obtain ⟨rs', f2, e2⟩ := Res.bind_ok_inv e2
  obtain ⟨u, f3, e2⟩ := Res.bind_ok_inv e2
  obtain ⟨qs, g1, g2, g3, g4⟩ := initColumns_keep hsub footer.columns types rs f1
  have hkeep : RdsKeep o₂.isInclude rs qs := by
    refine ⟨g2, fun i r hr => ?_⟩
    have hi : i < types.length := by rw [← g3]; exact (List.getElem?_eq_some_iff.1 hr).1
    have := g4 i types[i] r (List.getElem?_eq_getElem hi) hr
    obtain ⟨c, -, e, names, he⟩ := ht.at num (List.getElem?_eq_getElem hi)
    rw [he] at this
    rw [this, e]
  obtain ⟨qs', g5, hkeep'⟩ := initStreams_keep E ro file footer.streams _ _ rs qs rs' hkeep f2
  have htags : ∀ c ∈ s.columns, o₁.isInclude c.node.id = true → ∃ r, rs'[c.node.id]? = some (some r) ∧ TagFor c r.tag := by
    intro c hc hi
    obtain ⟨names, hn⟩ := ht.2 c hc
    have hlt := (List.getElem?_eq_some_iff.1 hn).1
    obtain ⟨k1, k2⟩ := initColumns_get types rs f1
    obtain ⟨enc, tag, m1, m2, m3⟩ := k2 _ _ hn hi
    exact initStreams_kinds E ro file (fun _ tag => TagFor c tag) footer.streams _ _ rs rs' f2 _ _ m3 ⟨enc, m2⟩
  have hroot : s.node.id = 0 := by
    have h0 : 0 < s.columns.length := by cases s; simp [Schema.columns]
    have := numbered_at num 0 h0
    cases s
    simpa [Schema.columns] using this
  have hfirst : ∀ o : BatchOption, o.isInclude s.node.id = true → (types.find? fun t => o.isInclude t.id).map (·.id) = some s.node.id := by
    intro o ho
    obtain ⟨names, hn⟩ := ht.2 s (self_mem_columns s)
    rw [hroot] at hn
    cases types with
    | nil => simp at hn
    | cons t ts =>
      simp only [List.getElem?_cons_zero, Option.some.injEq] at hn
      have : o.isInclude t.id = true := by rw [hn, ← hroot]; exact ho
      rw [List.find?_cons_of_pos (by simpa using this)]
      simp [hn, hroot]
  have hlink : linkAll o₂ types qs' = .ok () := by
    refine linkAll_each o₂ types qs' fun j t r hj hr' => ?_
    obtain ⟨c, hc, rfl, names, rfl⟩ := ht.at num hj
    by_cases hnone : ∀ d ∈ c.children.map (fun d => d.node.id), o₂.isInclude d = false
    · exact linkChildren_none _ _ _ _ hnone 0
    · obtain ⟨d, hd, hdi⟩ : ∃ d ∈ c.children, o₂.isInclude d.node.id = true := by
        refine Classical.byContradiction fun hno => hnone fun d hd => ?_
        obtain ⟨d', hd', rfl⟩ := List.mem_map.1 hd
        cases hb : o₂.isInclude d'.node.id with
        | false => rfl
        | true => exact absurd ⟨d', hd', hb⟩ hno
      have hci : o₂.isInclude c.node.id = true := by
        by_cases hks : c.node.kind = .struct
        · exact ((sel.2 c hc).1 hks).2 ⟨d, hd, hdi⟩
        · rw [← (sel.2 c hc).2 hks d hd]; exact hdi
      obtain ⟨r0, m1, m2⟩ := htags c hc (hsub _ hci)
      have hq := hkeep'.2 _ _ m1
      rw [if_pos hci] at hq
      rw [hq] at hr'
      cases hr'
      obtain ⟨i, hi⟩ := linkChildren_inv _ _ (linkAll_inv types rs' f3 _ _ _ hj m1) d.node.id (List.mem_map_of_mem hd) (hsub _ hdi)
      refine linkChildren_ok _ _ _ _ ?_ 0 fun hk => by
        have := (hs c hc).2.1 hk
        simp only [List.length_map]
        omega
      revert hi
      dsimp only
      cases c.node.kind <;> simp [linkChild]
  rw [hfirst o₁ (hsub _ sel.1), treeOn] at e2
  obtain ⟨x, e3, e2⟩ := Res.bind_ok_inv e2
  injection e2 with e2
  subst e2
  obtain ⟨y, k1, k2⟩ := treeOf_narrowed ht hs (chooses_chosen sel₁) htags types.length o₂ qs' s x hsub (chooses_chosen sel) (fun i hi => by
    cases hr : rs'[i]? with
    | none =>
      have : rs'.length ≤ i := List.getElem?_eq_none_iff.1 hr
      exact List.getElem?_eq_none_iff.2 (by rw [hkeep'.1]; exact this)
    | some r => rw [hkeep'.2 i r hr, if_pos hi]) (self_mem_columns s) sel.1 e3
  refine ⟨⟨types.map (·.hasNulls), some y, info.numberOfRows, 0⟩, ?_, ht.hasNulls, rfl, rfl, rfl, x, y, rfl, rfl, k2⟩
  rw [e1]
  simp only [Res.ok_bind, initStripe, g1, g5, hlink, hfirst o₂ sel.1, treeOn, k1, Res.pure_eq]

/-- **C99 Which other columns are read does not matter.** Whatever the bytes of the file, and whatever the table: if a program that reads the columns `o₁` succeeds, then the same calls with
fewer columns `o₂` succeed too, every `Next` reports the same, and leaves in the vectors of the columns of `o₂` what it left there before. Lists and maps are read with what is in them; of
the structs in them some fields may be left out. -/
theorem projection {E : Env} {fuel : Nat} {s : Schema} {o₁ o₂ : BatchOption} {ops : List RowOp} {file : Bytes} {r : FileReader} (num : s.Numbered) (hs : s.WellFormed)
    (hr : newReader E file = .ok r) (ht : TypesOf s r.schemas) (size : o₁.rowSize = o₂.rowSize) (v₁ : o₁.notCreateVector = false) (v₂ : o₂.notCreateVector = false)
    (sel₁ : o₁.Chooses s) (sel₂ : o₂.Chooses s) (sub : ∀ i, o₂.isInclude i = true → o₁.isInclude i = true) {out : List (Bool × Vec)}
    (h : tourVectors E fuel s o₁ ops file = .ok out) : tourVectors E fuel s o₂ ops file = .ok (out.map fun p => (p.1, p.2.keep o₂.isInclude)) := by
  rw [tourVectors, hr] at h ⊢
  rw [Res.ok_bind] at h ⊢
  obtain ⟨a, e1, h⟩ := Res.bind_ok_inv h
  obtain ⟨v, e2, h⟩ := Res.bind_ok_inv h
  have hstripes : ∀ (infos : List StripeInfo) (xs : List (StripeReader (Rd r.schemas.length))), initStripes E r.opts o₁ r.file r.schemas infos = .ok xs →
      ∃ ys, initStripes E r.opts o₂ r.file r.schemas infos = .ok ys ∧ List.Forall₂ (StripeReader.Thins o₁.isInclude o₂.isInclude s) xs ys := by
    intro infos
    induction infos with
    | nil => intro xs h; rw [initStripes] at h; cases h; exact ⟨[], by rw [initStripes], .nil⟩
    | cons i is ih =>
      intro xs h
      rw [initStripes] at h ⊢
      split at h
      · cases h
      · rename_i hz
        rw [if_neg hz]
        obtain ⟨x, f1, h⟩ := Res.bind_ok_inv h
        obtain ⟨xs1, f2, h⟩ := Res.bind_ok_inv h
        cases h
        obtain ⟨y, k1, k2⟩ := thin_stripe num ht hs sub sel₁ sel₂ f1
        obtain ⟨ys, k3, k4⟩ := ih xs1 f2
        rw [k1, k3]
        exact ⟨_, rfl, .cons k2 k4⟩
  have hopen : ∃ b, r.createBatchReader E o₂ = .ok b ∧ a.Thins o₁.isInclude o₂.isInclude s b := by
    rw [FileReader.createBatchReader] at e1 ⊢
    rw [← size]
    split at e1
    · cases e1
    · rename_i hz
      rw [if_neg hz]
      obtain ⟨xs, f1, e1⟩ := Res.bind_ok_inv e1
      injection e1 with e1
      subst e1
      obtain ⟨ys, k1, k2⟩ := hstripes _ _ f1
      rw [k1]
      exact ⟨_, rfl, rfl, rfl, rfl, rfl, k2⟩
  obtain ⟨b, k1, k2⟩ := hopen
  rw [k1, Res.ok_bind]
  have hvec : Fitted (some (o₁.rowSize, o₁.rowSize)) o₁.isInclude s v ∧ createVector s o₂ = .ok (v.keep o₂.isInclude) := by
    rw [createVector] at e2 ⊢
    rw [← size]
    split at e2
    · cases e2
    · rename_i hz
      rw [if_neg hz]
      obtain ⟨u, f1, e2⟩ := Res.bind_ok_inv e2
      obtain ⟨m1, m2⟩ := create_shaped size v₁ v₂ sub s hs (chooses_chosen sel₁) (chooses_chosen sel₂) sel₁.1 v e2
      exact ⟨⟨m1, fun _ _ h => by cases h; exact create_suited v₁ (by simpa using hz) s hs (chooses_chosen sel₁) sel₁.1 v e2⟩, by rw [f1, Res.ok_bind]; exact m2 sel₂.1⟩
  rw [hvec.2, Res.ok_bind]
  exact thins_tour sub (chooses_chosen sel₂) sel₂.1 E.c fuel (fuel + 1) ops o₁.rowSize a b v out k2 hvec.1 h

/-- **C99** Two programs that read different columns of a table, and make the same calls, find the same in the columns both read, and are told the same. -/
theorem choices_agree {E : Env} {fuel : Nat} {s : Schema} {o₁ o₂ o : BatchOption} {ops : List RowOp} {file : Bytes} {r : FileReader} (num : s.Numbered) (hs : s.WellFormed)
    (hr : newReader E file = .ok r) (ht : TypesOf s r.schemas) (size₁ : o₁.rowSize = o.rowSize) (size₂ : o₂.rowSize = o.rowSize) (v₁ : o₁.notCreateVector = false) (v₂ : o₂.notCreateVector = false)
    (v : o.notCreateVector = false) (sel₁ : o₁.Chooses s) (sel₂ : o₂.Chooses s) (sel : o.Chooses s) (sub₁ : ∀ i, o.isInclude i = true → o₁.isInclude i = true)
    (sub₂ : ∀ i, o.isInclude i = true → o₂.isInclude i = true) {out₁ out₂ : List (Bool × Vec)} (h₁ : tourVectors E fuel s o₁ ops file = .ok out₁) (h₂ : tourVectors E fuel s o₂ ops file = .ok out₂) :
    (out₁.map fun p => (p.1, p.2.keep o.isInclude)) = out₂.map fun p => (p.1, p.2.keep o.isInclude) := by
  have k₁ := projection num hs hr ht size₁ v₁ v sel₁ sel sub₁ h₁
  have k₂ := projection num hs hr ht size₂ v₂ v sel₂ sel sub₂ h₂
  rw [k₁] at k₂
  injection k₂

/-! ### Examples -/

/-- A tinyint, a list of structs of two tinyints, and a map from tinyints to tinyints. -/
def exMany : Schema := .mk ⟨0, .struct, .direct, false, ["t", "l", "m"]⟩ [.mk ⟨1, .byte, .direct, false, []⟩ [],
  .mk ⟨2, .list, .directV2, false, ["_elem"]⟩ [.mk ⟨3, .struct, .direct, false, ["a", "b"]⟩ [.mk ⟨4, .byte, .direct, false, []⟩ [], .mk ⟨5, .byte, .direct, false, []⟩ []]],
  .mk ⟨6, .map, .directV2, false, ["k", "v"]⟩ [.mk ⟨7, .byte, .direct, false, []⟩ [], .mk ⟨8, .byte, .direct, false, []⟩ []]]

def exManyEnv : Env := tinyEnv [⟨[⟨.data, 1, 2⟩, ⟨.length, 2, 2⟩, ⟨.data, 4, 2⟩, ⟨.data, 5, 2⟩, ⟨.length, 6, 2⟩, ⟨.data, 7, 2⟩, ⟨.data, 8, 2⟩],
  [.direct, .direct, .directV2, .direct, .direct, .direct, .directV2, .direct, .direct]⟩] (tinyFooter exMany [⟨3, 0, 14, 1, 5⟩]) tinyScript

/-- Five rows. -/
def exManyFile : Bytes := tinyFile [0x02#8, 0x07#8, 0x02#8, 0x01#8, 0x02#8, 0x08#8, 0x02#8, 0x09#8, 0x02#8, 0x01#8, 0x02#8, 0x0a#8, 0x02#8, 0x0b#8, 0x00#8]

theorem exMany_columns {c : Schema} (hc : c ∈ exMany.columns) : c = exMany ∨ c = .mk ⟨1, .byte, .direct, false, []⟩ [] ∨
    c = .mk ⟨2, .list, .directV2, false, ["_elem"]⟩ [.mk ⟨3, .struct, .direct, false, ["a", "b"]⟩ [.mk ⟨4, .byte, .direct, false, []⟩ [], .mk ⟨5, .byte, .direct, false, []⟩ []]] ∨
    c = .mk ⟨3, .struct, .direct, false, ["a", "b"]⟩ [.mk ⟨4, .byte, .direct, false, []⟩ [], .mk ⟨5, .byte, .direct, false, []⟩ []] ∨
    c = .mk ⟨4, .byte, .direct, false, []⟩ [] ∨ c = .mk ⟨5, .byte, .direct, false, []⟩ [] ∨
    c = .mk ⟨6, .map, .directV2, false, ["k", "v"]⟩ [.mk ⟨7, .byte, .direct, false, []⟩ [], .mk ⟨8, .byte, .direct, false, []⟩ []] ∨
    c = .mk ⟨7, .byte, .direct, false, []⟩ [] ∨ c = .mk ⟨8, .byte, .direct, false, []⟩ [] := by
  simp only [exMany, Schema.columns, columnsAll, List.append_nil, List.mem_cons, List.cons_append, List.nil_append, List.not_mem_nil, or_false] at hc
  exact hc

theorem exMany_fine : exMany.Numbered ∧ exMany.WellFormed := by
  refine ⟨rfl, fun c hc => ?_⟩
  rcases exMany_columns hc with rfl | rfl | rfl | rfl | rfl | rfl | rfl | rfl | rfl <;> simp [exMany, node_mk, Schema.children]

theorem exMany_chooses (o : BatchOption) (h0 : o.isInclude 0 = true) (h2 : o.isInclude 2 = true) (h3 : o.isInclude 3 = true) (h5 : o.isInclude 5 = true) (h7 : o.isInclude 7 = o.isInclude 6)
    (h8 : o.isInclude 8 = o.isInclude 6) : o.Chooses exMany := by
  refine ⟨h0, fun c hc => ?_⟩
  rcases exMany_columns hc with rfl | rfl | rfl | rfl | rfl | rfl | rfl | rfl | rfl <;> simp [exMany, node_mk, Schema.children, h0, h2, h3, h5, h7, h8]

/-- The conditions of C99 are met: all columns, and only the list and one field of the structs in it, with a `Seek` between two `Next`. -/
example : ∃ r out, newReader exManyEnv exManyFile = .ok r ∧ TypesOf exMany r.schemas ∧ exMany.Numbered ∧ exMany.WellFormed ∧
    (⟨[], 2, false⟩ : BatchOption).Chooses exMany ∧ (⟨[0, 2, 3, 5], 2, false⟩ : BatchOption).Chooses exMany ∧
    tourVectors exManyEnv 10 exMany ⟨[], 2, false⟩ [.next, .seek 1, .next] exManyFile = .ok out ∧
    out.map (fun p => (p.1, p.2.seen)) = [false, true].map fun b => (b, [(.struct, []), (.byte, [⟨false, .u8 7⟩, ⟨false, .u8 7⟩]), (.list, [⟨false, .u64 1⟩, ⟨false, .u64 1⟩]),
      (.struct, [⟨false, .nil⟩]), (.byte, []), (.byte, []), (.map, [⟨false, .int 1⟩, ⟨false, .int 1⟩]), (.byte, [⟨false, .u8 10⟩]), (.byte, [⟨false, .u8 11⟩])]) := by
  have h : ((tourVectors exManyEnv 10 exMany ⟨[], 2, false⟩ [.next, .seek 1, .next] exManyFile).bind fun out => .ok (out.map fun p => (p.1, p.2.seen))) =
      .ok ([false, true].map fun b => (b, [(.struct, []), (.byte, [⟨false, .u8 7⟩, ⟨false, .u8 7⟩]), (.list, [⟨false, .u64 1⟩, ⟨false, .u64 1⟩]),
      (.struct, [⟨false, .nil⟩]), (.byte, []), (.byte, []), (.map, [⟨false, .int 1⟩, ⟨false, .int 1⟩]), (.byte, [⟨false, .u8 10⟩]), (.byte, [⟨false, .u8 11⟩])])) := by decide +kernel
  obtain ⟨out, h1, h2⟩ := Res.bind_ok_inv (x := tourVectors exManyEnv 10 exMany ⟨[], 2, false⟩ [.next, .seek 1, .next] exManyFile) h
  injection h2 with h2
  refine ⟨⟨exManyFile, ⟨.none, 256 * 1024, 10000⟩, [⟨⟨0, .struct, ["t", "l", "m"], [1, 2, 6]⟩, false⟩, ⟨⟨1, .byte, [], []⟩, false⟩, ⟨⟨2, .list, [""], [3]⟩, false⟩,
      ⟨⟨3, .struct, ["a", "b"], [4, 5]⟩, false⟩, ⟨⟨4, .byte, [], []⟩, false⟩, ⟨⟨5, .byte, [], []⟩, false⟩, ⟨⟨6, .map, ["", ""], [7, 8]⟩, false⟩, ⟨⟨7, .byte, [], []⟩, false⟩, ⟨⟨8, .byte, [], []⟩, false⟩], 5,
      List.replicate 9 (tinyStats false), [⟨3, 0, 14, 1, 5⟩]⟩, out, rfl, ⟨rfl, ?_⟩, exMany_fine.1, exMany_fine.2, exMany_chooses _ rfl rfl rfl rfl rfl rfl, exMany_chooses _ rfl rfl rfl rfl rfl rfl, h1, h2⟩
  intro c hc
  rcases exMany_columns hc with rfl | rfl | rfl | rfl | rfl | rfl | rfl | rfl | rfl <;> exact ⟨_, rfl⟩

/-- What the theorem says of the example. -/
example : ((tourVectors exManyEnv 10 exMany ⟨[0, 2, 3, 5], 2, false⟩ [.next, .seek 1, .next] exManyFile).bind fun out => .ok (out.map fun p => (p.1, p.2.seen))) =
    .ok ([false, true].map fun b => (b, [(.struct, []), (.list, [⟨false, .u64 1⟩, ⟨false, .u64 1⟩]), (.struct, [⟨false, .nil⟩]), (.byte, [])])) := by decide +kernel

end Goorc
