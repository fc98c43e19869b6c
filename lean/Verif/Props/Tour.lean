import Verif.Spec.Tour
import Verif.Props.DeepSeek
/-
C98: `Next` and `Seek` in any order.
-/
namespace Goorc

section
variable {ρ χ : Type} {X : RdOps χ} {hasNulls : List Bool} {B : Nat} {Shape : Vec → Prop} {P : χ → List ρ → Prop} {rowsOf : Vec → List ρ}

/-- A stripe reader is at a place: its columns can be sent back to the first row, and pass over rows. -/
def StripeReader.Stands (X : RdOps χ) (hasNulls : List Bool) (P : χ → List ρ → Prop) (s : StripeReader χ) (p : Place ρ) : Prop :=
  s.hasNulls = hasNulls ∧ s.cursor = p.counted ∧ s.numberOfRows = p.rows.length ∧ p.counted ≤ p.rows.length ∧
    ∃ x, s.reader = some x ∧ P x (p.rows.drop p.pos) ∧ Rover X P p.rows (fun k m => k = 0 ∧ m = 0) True x

/-- A batch reader is where the machine is. -/
structure BatchReader.Stands (X : RdOps χ) (hasNulls : List Bool) (P : χ → List ρ → Prop) (br : BatchReader χ) (t : Tour ρ) : Prop where
  index : br.stripeIndex = t.current
  valid : t.current < t.stripes.length
  cursor : br.cursor = t.counted
  total : br.numberOfRows = t.total
  each : List.Forall₂ (StripeReader.Stands X hasNulls P) br.stripes t.stripes

theorem forall₂_set {α β : Type} {R : α → β → Prop} {as : List α} {bs : List β} (h : List.Forall₂ R as bs) (i : Nat) {a : α} {b : β} (hab : R a b) :
    List.Forall₂ R (as.set i a) (bs.set i b) := by
  induction h generalizing i with
  | nil => exact .nil
  | cons h hs ih =>
    cases i with
    | zero => exact .cons hab hs
    | succ i => exact .cons h (ih i)

theorem forall₂_getElem? {α β : Type} {R : α → β → Prop} {as : List α} {bs : List β} (h : List.Forall₂ R as bs) {i : Nat} {b : β} (hb : bs[i]? = some b) :
    ∃ a, as[i]? = some a ∧ R a b := by
  induction h generalizing i with
  | nil => simp at hb
  | cons h hs ih =>
    cases i with
    | zero => simp only [List.getElem?_cons_zero, Option.some.injEq] at hb; subst hb; exact ⟨_, rfl, h⟩
    | succ i => exact ih hb

theorem sum_set_rows (ps : List (Place ρ)) (i : Nat) {p q : Place ρ} (h : ps[i]? = some p) (hq : q.rows = p.rows) :
    ((ps.set i q).map (·.rows.length)).sum = (ps.map (·.rows.length)).sum := by
  induction ps generalizing i with
  | nil => rfl
  | cons a ps ih =>
    cases i with
    | zero => simp only [List.getElem?_cons_zero, Option.some.injEq] at h; subst h; simp [hq]
    | succ i => simp only [List.set_cons_succ, List.map_cons, List.sum_cons, ih i h]

theorem tour_next (D : Delivers X hasNulls B Shape P rowsOf) (fuel : Nat) (br : BatchReader χ) (t : Tour ρ) (h : br.Stands X hasNulls P t) (vec : Vec) (hv : Shape vec)
    (hfit : t.counted + 1 < t.total → ∀ p, t.stripes[t.current]? = some p → p.pos + min B (p.rows.length - p.counted) ≤ p.rows.length) :
    ∃ vec' br', br.next X (fuel + 1) vec = .ok ((t.next B).1, vec', br') ∧ Shape vec' ∧ rowsOf vec' = (t.next B).2.1 ∧ br'.Stands X hasNulls P (t.next B).2.2 ∧
      br'.indexStride = br.indexStride := by
  obtain ⟨cl, c1, c2, c3, c4, c5⟩ := D.cleared vec hv
  by_cases he : t.total ≤ t.counted + 1
  · rw [Tour.next, if_pos he]
    refine ⟨cl, br, ?_, c2, c3, h, rfl⟩
    simp only [BatchReader.next, c1, Res.ok_bind]
    rw [if_pos (by rw [h.cursor, h.total]; omega)]
    rfl
  · have hp : ∃ p, t.stripes[t.current]? = some p := ⟨_, List.getElem?_eq_getElem h.valid⟩
    obtain ⟨p, hp⟩ := hp
    have hfit := hfit (by omega) p hp
    obtain ⟨s, hs, s1, s2, s3, s3', x, s4, s5, s6⟩ := forall₂_getElem? h.each hp
    rw [Tour.next, if_neg he]
    simp only [hp]
    generalize hm : min B (p.rows.length - p.counted) = m at hfit ⊢
    have hl : ((p.rows.drop p.pos).take m).length = m := by simp; omega
    obtain ⟨sized, vec', x', d1, d2, d3, d4, d5, d6, d7⟩ :=
      D.next cl c2 c4 x ((p.rows.drop p.pos).take m) ((p.rows.drop p.pos).drop m) (by omega) (by rw [List.take_append_drop]; exact s5)
    rw [hl] at d1 d6
    have hneg : ¬ br.stripeIndex < 0 := by rw [h.index]; omega
    have hget : br.stripes[br.stripeIndex.toNat]? = some s := by rw [h.index]; exact hs
    have hprep : s.prepareVector cl = .ok sized := by
      simp only [StripeReader.prepareVector, c4, c5, s1, s2, s3]
      rw [← d1]
      congr 1
      split <;> omega
    generalize hhere : ({ s with reader := some x', cursor := p.counted + m } : StripeReader χ) = s'
    have hnext : s.next X cl = .ok (decide (p.rows.length ≤ p.counted + m + 1), vec', s') := by
      simp only [StripeReader.next, hprep, Res.ok_bind, s4, d2, ← hhere, s2, d6, s3]
      rfl
    have hstand : s'.Stands X hasNulls P ⟨p.rows, p.counted + m, p.pos + m⟩ := by
      rw [← hhere]
      refine ⟨s1, rfl, s3, show p.counted + m ≤ p.rows.length by omega, x', rfl, ?_, rover_roves.next x _ _ x' s6 d2⟩
      rw [List.drop_drop] at d3
      exact d3
    have htotal : ∀ c n, (⟨t.stripes.set t.current ⟨p.rows, p.counted + m, p.pos + m⟩, c, n⟩ : Tour ρ).total = t.total := fun c n => sum_set_rows _ _ hp rfl
    have heach := forall₂_set h.each t.current hstand
    have hlen : br.stripes.length = t.stripes.length := h.each.length_eq
    have hstop : decide (br.cursor + vec'.len ≥ br.numberOfRows - 1) = decide (t.total ≤ t.counted + m + 1) := by
      rw [h.cursor, h.total, d6]
      exact decide_eq_decide.2 (by omega)
    simp only [BatchReader.next, c1, Res.ok_bind]
    rw [if_neg (by rw [h.cursor, h.total]; omega)]
    by_cases hend : p.rows.length ≤ p.counted + m + 1
    · have hloop : br.nextLoop X (fuel + 1) cl = .ok (vec', { br with stripes := br.stripes.set t.current s', stripeIndex := br.stripeIndex + 1 }) := by
        unfold BatchReader.nextLoop
        rw [if_neg hneg, hget]
        simp only [hnext, Res.ok_bind]
        rw [if_pos (by simpa using hend), h.index]
        rfl
      rw [hloop]
      simp only [Res.ok_bind]
      by_cases hlast : t.current + 1 < t.stripes.length
      · rw [if_neg (by rw [h.index]; simp only [List.length_set, hlen]; omega), if_pos ⟨hend, hlast⟩]
        refine ⟨vec', { br with stripes := br.stripes.set t.current s', stripeIndex := br.stripeIndex + 1, cursor := br.cursor + vec'.len }, by rw [← hstop]; rfl, d4, d5, ⟨?_, ?_, ?_, ?_, heach⟩, rfl⟩
        · simp only [h.index]; omega
        · simpa using hlast
        · simp only [h.cursor, d6]
        · simp only [htotal, h.total]
      · rw [if_pos (by rw [h.index]; simp only [List.length_set, hlen]; have := h.valid; omega), if_neg (fun h => hlast h.2)]
        refine ⟨vec', { br with stripes := br.stripes.set t.current s', stripeIndex := br.stripeIndex + 1 - 1, cursor := br.cursor + vec'.len }, by rw [← hstop]; rfl, d4, d5, ⟨?_, ?_, ?_, ?_, heach⟩, rfl⟩
        · simp only [h.index]; omega
        · simpa using h.valid
        · simp only [h.cursor, d6]
        · simp only [htotal, h.total]
    · have hfull : vec'.len = B := by omega
      have hloop : br.nextLoop X (fuel + 1) cl = .ok (vec', { br with stripes := br.stripes.set t.current s' }) := by
        unfold BatchReader.nextLoop
        rw [if_neg hneg, hget]
        simp only [hnext, Res.ok_bind]
        rw [if_neg (by simpa using hend), if_pos (by rw [hfull, d7]; exact Nat.le_refl _), h.index]
        rfl
      rw [hloop]
      simp only [Res.ok_bind]
      rw [if_neg (by rw [h.index]; simp only [List.length_set, hlen]; have := h.valid; omega), if_neg (fun h => hend h.1)]
      refine ⟨vec', { br with stripes := br.stripes.set t.current s', cursor := br.cursor + vec'.len }, by rw [← hstop]; rfl, d4, d5, ⟨?_, ?_, ?_, ?_, heach⟩, rfl⟩
      · exact h.index
      · simpa using h.valid
      · simp only [h.cursor, d6]
      · simp only [htotal, h.total]

theorem stripe_seek {s : StripeReader χ} {p : Place ρ} (h : s.Stands X hasNulls P p) (S r : Nat) (hr : r < p.rows.length) :
    (S = 0 → s.seek X S r = .panic) ∧ (S ≠ 0 → ∃ s', s.seek X S r = .ok s' ∧ s'.Stands X hasNulls P ⟨p.rows, p.counted, r % S⟩) := by
  obtain ⟨h1, h2, h3, h3', x, h4, -, h6⟩ := h
  constructor
  · rintro rfl
    simp only [StripeReader.seek, Nat.not_lt_zero, if_false, if_true]
    rfl
  · intro hS
    have hoff : (if r < S then pure r else if S = 0 then Res.panic else pure (r % (r / S * S)) : Res Nat) = .ok (r % S) := by
      by_cases h : r < S
      · rw [if_pos h, Nat.mod_eq_of_lt h]; rfl
      · rw [if_neg h, if_neg hS, mod_floor r S (by omega) hS]; rfl
    obtain ⟨x0, g1, g2, g3⟩ := rover_roves.seek x 0 0 h6 ⟨rfl, rfl⟩
    rw [List.drop_zero] at g3
    obtain ⟨x1, g4, g5, g6⟩ := rover_roves.skip trivial x0 (p.rows.take (r % S)) (p.rows.drop (r % S)) g2 (by rw [List.take_append_drop]; exact g3)
    have hle : r % S ≤ p.rows.length := Nat.le_trans (Nat.mod_le _ _) (by omega)
    rw [List.length_take, Nat.min_eq_left hle] at g4
    refine ⟨{ s with reader := some x1 }, ?_, h1, h2, h3, h3', x1, rfl, g6, g5⟩
    simp only [StripeReader.seek, hoff, Res.ok_bind, h4, g1, g4]
    rfl

theorem tour_seekLoop (br : BatchReader χ) (row : Nat) : ∀ (ss : List (StripeReader χ)) (ps : List (Place ρ)) (before : List (StripeReader χ)) (rows : Nat),
    br.stripes = before ++ ss → List.Forall₂ (StripeReader.Stands X hasNulls P) ss ps → rows ≤ row →
    (rows + (ps.map (·.rows.length)).sum ≤ row → br.seekLoop X row before.length rows ss = .err .other) ∧
    (row < rows + (ps.map (·.rows.length)).sum → (br.indexStride = 0 → br.seekLoop X row before.length rows ss = .panic) ∧
      (br.indexStride ≠ 0 → ∃ ss', br.seekLoop X row before.length rows ss = .ok { br with stripes := before ++ ss' } ∧
        List.Forall₂ (StripeReader.Stands X hasNulls P) ss' (Tour.send br.indexStride (row - rows) ps))) := by
  intro ss
  induction ss with
  | nil =>
    intro ps before rows _ h hle
    cases h
    exact ⟨fun _ => rfl, fun h => by simp at h; omega⟩
  | cons s ss ih =>
    intro ps before rows hb h hle
    cases h with
    | cons hs hss =>
      rename_i p ps
      have hn : s.numberOfRows = p.rows.length := hs.2.2.1
      simp only [List.map_cons, List.sum_cons, BatchReader.seekLoop, hn, Tour.send]
      by_cases hr : rows + p.rows.length > row
      · rw [if_pos hr, if_pos (by omega)]
        refine ⟨fun h => by omega, fun _ => ?_⟩
        have k := stripe_seek hs br.indexStride (row - rows) (by omega)
        refine ⟨fun h0 => by rw [k.1 h0]; rfl, fun h0 => ?_⟩
        obtain ⟨s', k1, k2⟩ := k.2 h0
        refine ⟨s' :: ss, ?_, .cons k2 hss⟩
        rw [k1, hb]
        simp
      · rw [if_neg hr, if_neg (by omega)]
        have k := ih ps (before ++ [s]) (rows + p.rows.length) (by rw [hb]; simp) hss (by omega)
        simp only [List.length_append, List.length_singleton] at k
        refine ⟨fun h => k.1 (by omega), fun h => ?_⟩
        have k2 := k.2 (by omega)
        refine ⟨k2.1, fun h0 => ?_⟩
        obtain ⟨ss', e1, e2⟩ := k2.2 h0
        refine ⟨s :: ss', by rw [e1]; simp, .cons hs ?_⟩
        rw [Nat.sub_sub]
        exact e2

theorem send_total (S : Nat) : ∀ (row : Nat) (ps : List (Place ρ)), ((Tour.send S row ps).map (·.rows.length)).sum = (ps.map (·.rows.length)).sum ∧
    (Tour.send S row ps).length = ps.length := by
  intro row ps
  induction ps generalizing row with
  | nil => exact ⟨rfl, rfl⟩
  | cons p ps ih =>
    rw [Tour.send]
    split
    · exact ⟨rfl, rfl⟩
    · exact ⟨by simp [(ih _).1], by simp [(ih _).2]⟩

theorem tour_seek (br : BatchReader χ) (t : Tour ρ) (h : br.Stands X hasNulls P t) (row : Nat) :
    match t.seek br.indexStride row with
    | .ok t' => ∃ br', br.seek X row = .ok br' ∧ br'.Stands X hasNulls P t' ∧ br'.indexStride = br.indexStride
    | .err e => br.seek X row = .err e
    | .panic => br.seek X row = .panic
    | .hang => False := by
  have k := tour_seekLoop br row br.stripes t.stripes [] 0 rfl h.each (Nat.zero_le _)
  simp only [List.length_nil, Nat.zero_add, List.nil_append, Nat.sub_zero] at k
  have htot : (t.stripes.map (·.rows.length)).sum = t.total := rfl
  rw [htot] at k
  rw [Tour.seek]
  by_cases h1 : t.total ≤ row
  · rw [if_pos h1]
    simp only [BatchReader.seek]
    split
    · rfl
    · exact k.1 h1
  · rw [if_neg h1]
    have hn : ¬ row > br.numberOfRows := by rw [h.total]; omega
    by_cases h2 : br.indexStride = 0
    · rw [if_pos h2]
      simp only [BatchReader.seek, if_neg hn]
      exact (k.2 (by omega)).1 h2
    · rw [if_neg h2]
      obtain ⟨ss', e1, e2⟩ := (k.2 (by omega)).2 h2
      refine ⟨{ br with stripes := ss' }, by simp only [BatchReader.seek, if_neg hn]; exact e1, ⟨h.index, ?_, h.cursor, ?_, e2⟩, rfl⟩
      · rw [(send_total _ _ _).2]; exact h.valid
      · rw [Tour.total, (send_total _ _ _).1]; exact h.total

theorem tour_run (D : Delivers X hasNulls B Shape P rowsOf) (fuel : Nat) (ops : List RowOp) : ∀ (br : BatchReader χ) (t : Tour ρ), br.Stands X hasNulls P t → ∀ vec, Shape vec →
    t.Fits B br.indexStride ops → br.tour X (fuel + 1) rowsOf vec ops = t.run B br.indexStride ops := by
  induction ops with
  | nil => intro br t _ vec _ _; rfl
  | cons op ops ih =>
    intro br t h vec hv hf
    cases op with
    | next =>
      obtain ⟨vec', br', e1, e2, e3, e4, e5⟩ := tour_next D fuel br t h vec hv hf.1
      simp only [BatchReader.tour, Tour.run, e1, Res.ok_bind]
      rw [ih br' _ e4 vec' e2 (by rw [e5]; exact hf.2), e5, e3]
    | seek row =>
      have k := tour_seek br t h row
      simp only [BatchReader.tour, Tour.run]
      have hf : ∀ t', t.seek br.indexStride row = .ok t' → t'.Fits B br.indexStride ops := hf
      cases ht : t.seek br.indexStride row with
      | ok t' =>
        rw [ht] at k
        obtain ⟨br', e1, e2, e3⟩ := k
        rw [e1]
        simp only [Res.ok_bind]
        rw [ih br' t' e2 vec hv (by rw [e3]; exact hf t' ht), e3]
      | err e => rw [ht] at k; rw [k]; rfl
      | panic => rw [ht] at k; rw [k]; rfl
      | hang => rw [ht] at k; exact k.elim

theorem Rover.weaken {items : List ρ} {goes goes' : Nat → Nat → Prop} {skips skips' : Prop} {x : χ} (h : Rover X P items goes skips x) (hg : ∀ k m, goes' k m → goes k m)
    (hs : skips' → skips) : Rover X P items goes' skips' x := by
  obtain ⟨I, hx, hI⟩ := h
  exact ⟨I, hx, ⟨hI.next, fun x k m h1 h2 => hI.seek x k m h1 (hg k m h2), fun h => hI.skip (hs h)⟩⟩

/-- What the calls return depends on the counts, and on nothing a `Seek` changes: only the rows differ. -/
theorem tour_sizes (B S : Nat) (ops : List RowOp) : ∀ (t t' : Tour ρ), t.current = t'.current → t.counted = t'.counted →
    t.stripes.map (fun p => (p.rows.length, p.counted)) = t'.stripes.map (fun p => (p.rows.length, p.counted)) → t.Fits B S ops → t'.Fits B S (ops.filter RowOp.isNext) →
    ∀ out out', t.run B S ops = .ok out → t'.run B S (ops.filter RowOp.isNext) = .ok out' →
    out.map (fun b => (b.1, b.2.length)) = out'.map (fun b => (b.1, b.2.length)) := by
  have htot : ∀ t t' : Tour ρ, t.stripes.map (fun p => (p.rows.length, p.counted)) = t'.stripes.map (fun p => (p.rows.length, p.counted)) → t.total = t'.total := by
    intro t t' h
    have := congrArg (List.map Prod.fst) h
    simp only [List.map_map] at this
    exact congrArg List.sum this
  have hsend : ∀ (row : Nat) (ps : List (Place ρ)), (Tour.send S row ps).map (fun p => (p.rows.length, p.counted)) = ps.map (fun p => (p.rows.length, p.counted)) := by
    intro row ps
    induction ps generalizing row with
    | nil => rfl
    | cons p ps ih => rw [Tour.send]; split <;> simp [ih]
  induction ops with
  | nil =>
    intro t t' _ _ _ _ _ out out' h h'
    cases h; cases h'; rfl
  | cons op ops ih =>
    intro t t' h1 h2 h3 hf hf' out out' h h'
    cases op with
    | seek row =>
      simp only [List.filter_cons, RowOp.isNext, Bool.false_eq_true, if_false] at hf' h'
      simp only [Tour.run] at h
      obtain ⟨u, hu, h⟩ := Res.bind_ok_inv h
      refine ih u t' ?_ ?_ ?_ (hf u hu) hf' out out' h h' <;> (
        rw [Tour.seek] at hu
        split at hu
        · cases hu
        · split at hu
          · cases hu
          · cases hu; first | exact h1 | exact h2 | exact (hsend _ _).trans h3)
    | next =>
      simp only [List.filter_cons, RowOp.isNext, if_true] at hf' h'
      simp only [Tour.run] at h h'
      obtain ⟨rest, hr, h⟩ := Res.bind_ok_inv h
      obtain ⟨rest', hr', h'⟩ := Res.bind_ok_inv h'
      cases h; cases h'
      have ht := htot t t' h3
      have key : (t.next B).1 = (t'.next B).1 ∧ (t.next B).2.1.length = (t'.next B).2.1.length ∧ (t.next B).2.2.current = (t'.next B).2.2.current ∧
          (t.next B).2.2.counted = (t'.next B).2.2.counted ∧
          (t.next B).2.2.stripes.map (fun p => (p.rows.length, p.counted)) = (t'.next B).2.2.stripes.map (fun p => (p.rows.length, p.counted)) := by
        by_cases he : t.total ≤ t.counted + 1
        · rw [Tour.next, if_pos he, Tour.next, if_pos (by rw [← ht, ← h2]; exact he)]
          exact ⟨rfl, rfl, h1, h2, h3⟩
        · have f1 := hf.1 (by omega)
          have f2 := hf'.1 (by rw [← ht, ← h2]; omega)
          rw [Tour.next, if_neg he, Tour.next, if_neg (by rw [← ht, ← h2]; exact he), ← h1]
          rw [← h1] at f2
          have hget := congrArg (·[t.current]?) h3
          have hlen := congrArg List.length h3
          simp only [List.getElem?_map, List.length_map] at hget hlen
          cases hp : t.stripes[t.current]? with
          | none =>
            rw [hp] at hget
            cases hp' : t'.stripes[t.current]? with
            | none => exact ⟨rfl, rfl, h1, h2, h3⟩
            | some q => rw [hp'] at hget; simp at hget
          | some p =>
            rw [hp] at hget
            cases hp' : t'.stripes[t.current]? with
            | none => rw [hp'] at hget; simp at hget
            | some q =>
              rw [hp'] at hget
              simp only [Option.map_some, Option.some.injEq, Prod.mk.injEq] at hget
              have f1 := f1 p hp
              have f2 := f2 q hp'
              simp only [hget.1, hget.2, hlen, ht, h2, List.map_set, h3, List.length_take, List.length_drop, true_and, and_true]
              rw [hget.1, hget.2] at f1
              omega
      simp only [List.map_cons, key.1, key.2.1, ih _ _ key.2.2.1 key.2.2.2.1 key.2.2.2.2 hf.2 hf'.2 rest rest' hr hr']

/-- Without a `Seek` the columns are where the counts say. -/
theorem next_fits (B S : Nat) (ops : List RowOp) (hops : ∀ op ∈ ops, op.isNext = true) : ∀ (t : Tour ρ), (∀ p ∈ t.stripes, p.pos = p.counted ∧ p.counted ≤ p.rows.length) → t.Fits B S ops := by
  induction ops with
  | nil => intro _ _; trivial
  | cons op ops ih =>
    intro t h
    cases op with
    | seek row => exact absurd (hops _ List.mem_cons_self) (by simp [RowOp.isNext])
    | next =>
      refine ⟨fun _ p hp => ?_, ih (fun op ho => hops op (List.mem_cons_of_mem _ ho)) _ ?_⟩
      · obtain ⟨h1, h2⟩ := h p (List.mem_of_getElem? hp)
        omega
      · intro q hq
        rw [Tour.next] at hq
        split at hq
        · exact h q hq
        · split at hq
          · exact h q hq
          · rename_i p hp
            obtain ⟨h1, h2⟩ := h p (List.mem_of_getElem? hp)
            rcases List.mem_or_eq_of_mem_set hq with hq | rfl
            · exact h q hq
            · simp only [h1, true_and]; omega

theorem next_runs (B S : Nat) (ops : List RowOp) (hops : ∀ op ∈ ops, op.isNext = true) : ∀ (t : Tour ρ), ∃ out, t.run B S ops = .ok out := by
  induction ops with
  | nil => intro _; exact ⟨[], rfl⟩
  | cons op ops ih =>
    intro t
    cases op with
    | seek row => exact absurd (hops _ List.mem_cons_self) (by simp [RowOp.isNext])
    | next =>
      obtain ⟨out, h⟩ := ih (fun op ho => hops op (List.mem_cons_of_mem _ ho)) (t.next B).2.2
      exact ⟨_, by rw [Tour.run, h]; rfl⟩

end

section
variable {E : Env} {most : Nat} {s : Schema} {file : Bytes} {parts : List (List DeepRow × StripeFooter)} {ps : PostScript} {ft : FileFooter} {content metadata fb pb : Bytes}

/-- **C98, exact** Calls of `Next` and `Seek` in any order return what the machine returns, as long as no `Next` asks for more rows than there are after the
row its columns are at, and neither dates nor maps are read (and the streams can be sought in, C33). -/
theorem deep_tour_exact (full : Bool) (h : FileDeep E most s file parts ps ft content metadata fb pb) (num : s.Numbered) (named : s.Named) (hs : s.Record)
    (hlen : fb.length + pb.length + 1 ≤ 16384)
    (hreach : List.Forall₂ (fun info p => ∃ index data, StripeDeep E ps.compression ps.chunkSize most s file info p.1 p.2 index data ∧
      info.Reachable ps.compression ps.chunkSize s file data) ft.stripes parts)
    (bo : BatchOption) (hsel : bo.Chooses s) (hrow : bo.rowSize ≠ 0) (hmake : bo.notCreateVector = false) (hfull : full = true → bo.rowSize = 1)
    (hkinds : ∀ c ∈ s.columns, bo.isInclude c.node.id = true → c.node.kind ≠ .date ∧ c.node.kind ≠ .map) (fuel : Nat) (hfuel : most ≤ fuel) (ops : List RowOp)
    (hfit : (Tour.start (parts.map fun p => p.1.map (DeepRow.shown full (s.chosen bo)))).Fits bo.rowSize ft.rowIndexStride ops) :
    tourRecords E fuel s bo full ops file =
      (Tour.start (parts.map fun p => p.1.map (DeepRow.shown full (s.chosen bo)))).run bo.rowSize ft.rowIndexStride ops := by
  obtain ⟨types, k1, k3, k4⟩ := fileFrame_created h.toFileFrame num named hlen
  obtain ⟨rs, m1, m2⟩ := k4 bo hrow (fun x rows => StripeReader.Stands (rdOps E.c fuel types.length) (types.map (·.hasNulls)) (RecLeft E.c fuel bo s full types.length) x ⟨rows, 0, 0⟩)
      (parts.map fun p => p.1.map (DeepRow.shown full (s.chosen bo))) (by
    rw [List.forall₂_iff_get] at hreach ⊢
    refine ⟨by rw [List.length_map, hreach.1], fun k hk hk' => ?_⟩
    rw [List.length_map] at hk'
    obtain ⟨index, data, a, a'⟩ := hreach.2 k hk hk'
    simp only [List.get_eq_getElem] at a a' ⊢
    rw [List.getElem_map]
    obtain ⟨x, b1, b2, b3⟩ := stripeDeep_rewinds (ro := ⟨ps.compression, ps.chunkSize, ft.rowIndexStride⟩) a num hs hsel k3 hfuel a'
    refine ⟨?_, _, b1, ⟨rfl, rfl, by simp, Nat.zero_le _, x, rfl, ⟨_, rfl, b2⟩, (b3.shown (full := full)).weaken ?_ ?_⟩⟩
    · rw [a.count]
      exact h.filled _ (List.mem_map_of_mem (List.getElem_mem hk'))
    · rintro k m ⟨rfl, rfl⟩
      exact ⟨rfl, rfl, fun c hc hi => (hkinds c hc hi).1⟩
    · exact fun _ c hc hi => (hkinds c hc hi).2)
  obtain ⟨v, f0, -, f2⟩ := rec_vector hsel hmake hrow types.length s hs (self_mem_columns s) hsel.1 (Nat.le_of_eq k3.1.symm)
  have f1 : createVector s bo = .ok v := by simp only [createVector, hrow, if_false, record_verify hs, f0, Res.ok_bind]
  have D := rec_delivers E.c fuel bo s hs (chooses_closed hsel) hsel.1 types.length (types.map (·.hasNulls)) (record_solid hs k3) bo.rowSize full hfull
  simp only [tourRecords, k1, m1, f1, Res.ok_bind]
  refine tour_run D fuel ops _ _ ⟨rfl, ?_, rfl, ?_, ?_⟩ v ⟨_, f2⟩ hfit
  · simp only [Tour.start, List.length_map]; exact List.length_pos_iff.2 fun h0 => h.nonempty (by rw [h0]; rfl)
  · simp [Tour.total, Tour.start, Function.comp_def]
  · simp only [Tour.start]
    rw [List.forall₂_map_right_iff]
    exact m2

/-- **C98, exact** A `Seek` is not seen in the sizes of the batches, nor in when the end is reported: they are those of a client that makes the same calls of
`Next`, and no `Seek`. -/
theorem seek_keeps_sizes (full : Bool) (h : FileDeep E most s file parts ps ft content metadata fb pb) (num : s.Numbered) (named : s.Named) (hs : s.Record)
    (hlen : fb.length + pb.length + 1 ≤ 16384)
    (hreach : List.Forall₂ (fun info p => ∃ index data, StripeDeep E ps.compression ps.chunkSize most s file info p.1 p.2 index data ∧
      info.Reachable ps.compression ps.chunkSize s file data) ft.stripes parts)
    (bo : BatchOption) (hsel : bo.Chooses s) (hrow : bo.rowSize ≠ 0) (hmake : bo.notCreateVector = false) (hfull : full = true → bo.rowSize = 1)
    (hkinds : ∀ c ∈ s.columns, bo.isInclude c.node.id = true → c.node.kind ≠ .date ∧ c.node.kind ≠ .map) (fuel : Nat) (hfuel : most ≤ fuel) (ops : List RowOp)
    (hfit : (Tour.start (parts.map fun p => p.1.map (DeepRow.shown full (s.chosen bo)))).Fits bo.rowSize ft.rowIndexStride ops)
    (out : List (Bool × List ItemRow)) (hout : tourRecords E fuel s bo full ops file = .ok out) :
    ∃ out', tourRecords E fuel s bo full (ops.filter RowOp.isNext) file = .ok out' ∧
      out.map (fun b => (b.1, b.2.length)) = out'.map (fun b => (b.1, b.2.length)) := by
  have hfit' : (Tour.start (parts.map fun p => p.1.map (DeepRow.shown full (s.chosen bo)))).Fits bo.rowSize ft.rowIndexStride (ops.filter RowOp.isNext) :=
    next_fits _ _ _ (by simp [RowOp.isNext]) _ (by
      intro p hp
      simp only [Tour.start, List.mem_map] at hp
      obtain ⟨q, -, rfl⟩ := hp
      exact ⟨rfl, Nat.zero_le _⟩)
  rw [deep_tour_exact full h num named hs hlen hreach bo hsel hrow hmake hfull hkinds fuel hfuel ops hfit] at hout
  rw [deep_tour_exact full h num named hs hlen hreach bo hsel hrow hmake hfull hkinds fuel hfuel _ hfit']
  obtain ⟨out', hout'⟩ := next_runs bo.rowSize ft.rowIndexStride (ops.filter RowOp.isNext) (by simp [RowOp.isNext]) (Tour.start (parts.map fun p => p.1.map (DeepRow.shown full (s.chosen bo))))
  exact ⟨out', hout', tour_sizes _ _ ops _ _ rfl rfl rfl hfit hfit' out out' hout hout'⟩

end

/-! ### A file -/

/-- Forward, and back: the rows of a file of four rows with lists, in batches of one row. -/
example : tourRecords exListsEnv 10 exLists ⟨[], 1, false⟩ true [.next, .seek 2, .next, .seek 0, .next] exListsFile =
    .ok [(false, [[(1, .list [some (.u8 1#8), some (.u8 2#8)])]]), (false, [[(1, .list [some (.u8 3#8)])]]), (true, [[(1, .list [some (.u8 1#8), some (.u8 2#8)])]])] := by
  have hdate : ∀ c ∈ exLists.columns, c.node.kind ≠ .date ∧ c.node.kind ≠ .map := by decide +kernel
  rw [deep_tour_exact true exLists_file (by unfold Schema.Numbered; decide +kernel) (by unfold Schema.Named; decide +kernel) exLists_record (by decide)
    (.cons ⟨_, _, exLists_stripe, exLists_reach⟩ .nil) ⟨[], 1, false⟩ (by unfold BatchOption.Chooses; decide +kernel) (by decide) rfl (fun _ => rfl)
    (fun c hc _ => hdate c hc) 10 (by decide)]
  · rfl
  · refine ⟨fun _ p hp => ?_, fun t' ht => ?_⟩
    · cases hp; decide
    · cases ht
      refine ⟨fun _ p hp => ?_, fun t' ht => ?_⟩
      · cases hp; decide
      · cases ht
        refine ⟨fun _ p hp => ?_, trivial⟩
        cases hp; decide

/-- **C98, refuted** After a `Seek` to the last of the four rows of a file, the calls of `Next` hand over this row, and then two rows that the file does not
have; the end is reported with the third. -/
theorem seek_phantom_rows : tourRecords exListsEnv 10 exLists ⟨[], 1, false⟩ true [.seek 3, .next, .next, .next] exListsFile =
      .ok [(false, [[(1, .list [some (.u8 4#8), some (.u8 5#8)])]]), (false, [[(1, .null)]]), (true, [[(1, .null)]])] ∧
    (exListsRows.drop 3).map (DeepRow.shown true (exLists.chosen ⟨[], 1, false⟩)) = [[(1, .list [some (.u8 4#8), some (.u8 5#8)])]] := by
  constructor <;> decide +kernel

/-- **C98, refuted** After a `Seek` back to the first row, the end is reported before the last two of the four rows have been handed over. -/
theorem seek_back_ends_early : tourRecords exListsEnv 10 exLists ⟨[], 1, false⟩ true [.next, .seek 0, .next, .next, .next] exListsFile =
      .ok [(false, [[(1, .list [some (.u8 1#8), some (.u8 2#8)])]]), (false, [[(1, .list [some (.u8 1#8), some (.u8 2#8)])]]), (true, [[(1, .null)]]), (true, [])] ∧
    exListsRows.map (DeepRow.shown true (exLists.chosen ⟨[], 1, false⟩)) =
      [[(1, .list [some (.u8 1#8), some (.u8 2#8)])], [(1, .null)], [(1, .list [some (.u8 3#8)])], [(1, .list [some (.u8 4#8), some (.u8 5#8)])]] := by
  constructor <;> decide +kernel

end Goorc
