import Verif.Spec.ColHistory
import Verif.Model.ColKinds
import Verif.Proofs.ColWrite
namespace Goorc

theorem foldRes_append {κ : Type} (f : κ → GoVal → Res κ) (t : κ) (a b : List GoVal) :
    foldRes f t (a ++ b) = (foldRes f t a >>= fun t => foldRes f t b) := by
  induction a generalizing t with
  | nil => rfl
  | cons x a ih => simp only [List.cons_append, foldRes, Res.bind_assoc, ih]

section
variable {δ κ : Type} (K : LeafKind δ κ) (c : Codec) (o : COpts)

/-- What a call of `indexRow` leaves alone. -/
theorem LeafKind.indexRow_frame {w w' : ColWriter δ κ} {v : Value} (h : K.indexRow o w v = .ok w') :
    w'.present = w.present ∧ w'.data = w.data ∧ w'.hasNulls = w.hasNulls ∧ w'.flushed = w.flushed ∧
      w'.stats.bytesOnDisk = w.stats.bytesOnDisk ∧ w'.stats.hasNull = w.stats.hasNull ∧ w'.stats.numberOfValues = w.stats.numberOfValues ∧
      (v.null = true → w'.stats.typed = w.stats.typed) ∧
      (v.null = false → ∃ t u t' u', w.stats.typed = some t ∧ w'.stats.typed = some t' ∧ K.addIndex t u v.v = .ok (t', u')) := by
  simp only [indexRow] at h
  cases his : w.indexStats with
  | none => simp [his] at h
  | some is =>
    simp only [his] at h
    by_cases hs : w.indexInRows + 1 ≥ o.stride
    · simp only [if_pos hs] at h
      cases hn : v.null with
      | true =>
        simp only [hn, if_true, Res.pure_eq, Res.ok.injEq] at h
        subst h
        simp
      | false =>
        simp only [hn, Bool.false_eq_true, if_false] at h
        cases ht : w.stats.typed with
        | none => simp [ht] at h
        | some t =>
          simp only [ht] at h
          obtain ⟨⟨t', u'⟩, h1, h⟩ := Res.bind_eq_ok.mp h
          simp only [Res.pure_eq, Res.ok.injEq] at h
          subst h
          exact ⟨rfl, rfl, rfl, rfl, rfl, rfl, rfl, by simp, fun _ => ⟨t, _, t', u', rfl, rfl, h1⟩⟩
    · simp only [if_neg hs] at h
      cases hn : v.null with
      | true =>
        simp only [hn, if_true, Res.pure_eq, Res.ok.injEq] at h
        subst h
        simp
      | false =>
        simp only [hn, Bool.false_eq_true, if_false] at h
        cases ht : w.stats.typed with
        | none => simp [ht] at h
        | some t =>
          simp only [ht] at h
          obtain ⟨⟨t', u'⟩, h1, h⟩ := Res.bind_eq_ok.mp h
          simp only [Res.pure_eq, Res.ok.injEq] at h
          subst h
          exact ⟨rfl, rfl, rfl, rfl, rfl, rfl, rfl, by simp, fun _ => ⟨t, _, t', u', rfl, rfl, h1⟩⟩

theorem LeafKind.writePresent_frame {w w' : ColWriter δ κ} {v : Value} (h : writePresent c o w v = .ok w') :
    ∃ p, w' = { w with present := p } := by
  simp only [writePresent] at h
  by_cases hn : w.hasNulls = true
  · simp only [hn, if_true] at h
    cases hp : w.present with
    | none => simp [hp] at h
    | some p =>
      simp only [hp] at h
      obtain ⟨p', h1, h⟩ := Res.bind_eq_ok.mp h
      simp only [Res.pure_eq, Res.ok.injEq] at h
      exact ⟨some p', by rw [← h, ← hn]⟩
  · rw [if_neg hn] at h
    simp only [Res.pure_eq, Res.ok.injEq] at h
    exact ⟨w.present, by rw [← h]⟩

/-- The column statistics after one `Write`. `settled` says that the index code does not change them any more. -/
theorem LeafKind.write_stats (settled : ∀ t v t1, K.addStats t v = .ok t1 → ∀ u t2 u', K.addIndex t1 u v = .ok (t2, u') → t2 = t1)
    {w w' : ColWriter δ κ} {v : Value} (h : K.write c o w v = .ok w') :
    w'.hasNulls = w.hasNulls ∧ w'.stats.bytesOnDisk = w.stats.bytesOnDisk ∧ w'.stats.hasNull = w.stats.hasNull ∧
      w'.stats.numberOfValues = w.stats.numberOfValues + (valuesOf [v]).length ∧
      ∀ t, w.stats.typed = some t → ∃ t', w'.stats.typed = some t' ∧ foldRes K.addStats t (valuesOf [v]) = .ok t' := by
  simp only [write] at h
  obtain ⟨w1, h1, h⟩ := Res.bind_eq_ok.mp h
  obtain ⟨p, rfl⟩ := writePresent_frame c o h1
  obtain ⟨w2, h2, h⟩ := Res.bind_eq_ok.mp h
  cases hn : v.null with
  | true =>
    simp only [hn, if_true, Res.pure_eq, Res.ok.injEq] at h2
    subst h2
    have hv : valuesOf [v] = [] := by simp [valuesOf, hn]
    by_cases hi : o.writeIndex = true ∧ (K.indexAllRows = true ∨ v.null = false)
    · rw [if_pos hi] at h
      obtain ⟨-, -, g1, -, g2, g3, g4, g5, -⟩ := K.indexRow_frame o h
      refine ⟨g1, g2, g3, by rw [g4, hv]; rfl, fun t ht => ⟨t, by rw [g5 hn]; exact ht, by rw [hv]; rfl⟩⟩
    · rw [if_neg hi] at h
      simp only [Res.pure_eq, Res.ok.injEq] at h
      subst h
      exact ⟨rfl, rfl, rfl, by rw [hv]; rfl, fun t ht => ⟨t, ht, by rw [hv]; rfl⟩⟩
  | false =>
    have hv : valuesOf [v] = [v.v] := by simp [valuesOf, hn]
    simp only [hn, Bool.false_eq_true, if_false, writeNonNull] at h2
    obtain ⟨d, h3, h2⟩ := Res.bind_eq_ok.mp h2
    cases ht : w.stats.typed with
    | none => simp [ht] at h2
    | some t =>
      simp only [ht] at h2
      obtain ⟨t1, h4, h2⟩ := Res.bind_eq_ok.mp h2
      simp only [Res.pure_eq, Res.ok.injEq] at h2
      subst h2
      by_cases hi : o.writeIndex = true ∧ (K.indexAllRows = true ∨ v.null = false)
      · rw [if_pos hi] at h
        obtain ⟨-, -, g1, -, g2, g3, g4, -, g5⟩ := K.indexRow_frame o h
        refine ⟨g1, g2, g3, by rw [g4, hv]; rfl, fun t0 ht0 => ?_⟩
        obtain ⟨t2, u, t3, u', e1, e2, e3⟩ := g5 hn
        simp only [Option.some.injEq] at e1
        subst e1
        have := settled t v.v t1 h4 u t3 u' e3
        subst this
        simp only [Option.some.injEq] at ht0
        subst ht0
        exact ⟨t3, e2, by rw [hv]; simp [foldRes, h4]⟩
      · rw [if_neg hi] at h
        simp only [Res.pure_eq, Res.ok.injEq] at h
        subst h
        refine ⟨rfl, rfl, rfl, by rw [hv]; rfl, fun t0 ht0 => ⟨t1, rfl, ?_⟩⟩
        simp only [Option.some.injEq] at ht0
        subst ht0
        rw [hv]; simp [foldRes, h4]

/-- Without a settled index still everything but the type-specific statistics. -/
theorem LeafKind.write_counts {w w' : ColWriter δ κ} {v : Value} (h : K.write c o w v = .ok w') :
    w'.hasNulls = w.hasNulls ∧ w'.stats.bytesOnDisk = w.stats.bytesOnDisk ∧ w'.stats.hasNull = w.stats.hasNull ∧
      w'.stats.numberOfValues = w.stats.numberOfValues + (valuesOf [v]).length := by
  simp only [write] at h
  obtain ⟨w1, h1, h⟩ := Res.bind_eq_ok.mp h
  obtain ⟨p, rfl⟩ := writePresent_frame c o h1
  obtain ⟨w2, h2, h⟩ := Res.bind_eq_ok.mp h
  have e2 : w2.hasNulls = w.hasNulls ∧ w2.stats.bytesOnDisk = w.stats.bytesOnDisk ∧ w2.stats.hasNull = w.stats.hasNull ∧
      w2.stats.numberOfValues = w.stats.numberOfValues + (valuesOf [v]).length := by
    cases hn : v.null with
    | true =>
      simp only [hn, if_true, Res.pure_eq, Res.ok.injEq] at h2
      subst h2
      simp [valuesOf, hn]
    | false =>
      simp only [hn, Bool.false_eq_true, if_false, writeNonNull] at h2
      obtain ⟨d, h3, h2⟩ := Res.bind_eq_ok.mp h2
      cases ht : w.stats.typed with
      | none => simp [ht] at h2
      | some t =>
        simp only [ht] at h2
        obtain ⟨t1, h4, h2⟩ := Res.bind_eq_ok.mp h2
        simp only [Res.pure_eq, Res.ok.injEq] at h2
        subst h2
        simp [valuesOf, hn]
  by_cases hi : o.writeIndex = true ∧ (K.indexAllRows = true ∨ v.null = false)
  · rw [if_pos hi] at h
    obtain ⟨-, -, g1, -, g2, g3, g4, -, -⟩ := K.indexRow_frame o h
    rw [g1, g2, g3, g4]; exact e2
  · rw [if_neg hi] at h
    simp only [Res.pure_eq, Res.ok.injEq] at h
    subst h
    exact e2

theorem LeafKind.flush_frame {w w' : ColWriter δ κ} (h : K.flush c o w = .ok w') :
    w'.hasNulls = w.hasNulls ∧ w'.stats.typed = w.stats.typed ∧ w'.stats.hasNull = w.stats.hasNull ∧
      w'.stats.numberOfValues = w.stats.numberOfValues ∧
      w'.stats.bytesOnDisk = (if w.hasNulls then 0 else w.stats.bytesOnDisk) + ((K.streamInfos w').map (·.2)).sum := by
  simp only [flush] at h
  obtain ⟨p, h1, h⟩ := Res.bind_eq_ok.mp h
  obtain ⟨d, h2, h⟩ := Res.bind_eq_ok.mp h
  simp only [Res.pure_eq, Res.ok.injEq] at h
  subst h
  refine ⟨rfl, rfl, rfl, rfl, ?_⟩
  have hfold : ∀ (l : List (StreamKind × Nat)) (n : Nat), l.foldl (fun n i => n + i.2) n = n + (l.map (·.2)).sum := by
    intro l
    induction l with
    | nil => intro n; simp
    | cons x l ih => intro n; simp only [List.foldl_cons, ih, List.map_cons, List.sum_cons]; omega
  simp only [hfold, streamInfos]
  by_cases hn : w.hasNulls = true
  · simp [hn]
  · rw [Bool.not_eq_true] at hn
    simp [hn]

theorem LeafKind.writeOut_frame {w : ColWriter δ κ} {r : ColWriter δ κ × Bytes} (h : K.writeOut o w = .ok r) :
    r.1.hasNulls = w.hasNulls ∧ r.1.stats = w.stats := by
  simp only [writeOut] at h
  by_cases hf : K.mustFlush = true ∧ w.flushed = false
  · rw [if_pos hf] at h; cases h
  · rw [if_neg hf] at h
    by_cases hn : w.hasNulls = true
    · simp only [hn, if_true] at h
      cases hp : w.present with
      | none => simp [hp] at h
      | some p =>
        simp only [hp, Res.ok.injEq] at h
        subst h
        exact ⟨hn.symm, rfl⟩
    · rw [if_neg hn] at h
      simp only [Res.ok.injEq] at h
      subst h
      exact ⟨rfl, rfl⟩

theorem LeafKind.reset_frame {w w' : ColWriter δ κ} (h : K.reset o w = .ok w') : w'.hasNulls = w.hasNulls ∧ w'.stats = w.stats := by
  simp only [reset] at h
  obtain ⟨p, h1, h⟩ := Res.bind_eq_ok.mp h
  obtain ⟨w1, h2, h⟩ := Res.bind_eq_ok.mp h
  obtain ⟨d, h3, h⟩ := Res.bind_eq_ok.mp h
  simp only [Res.pure_eq, Res.ok.injEq] at h
  subst h
  by_cases hi : o.writeIndex = true
  · rw [if_pos hi] at h2
    cases his : w.indexStats with
    | none => simp [his] at h2
    | some is =>
      simp only [his, Res.pure_eq, Res.ok.injEq] at h2
      subst h2
      exact ⟨rfl, rfl⟩
  · rw [if_neg hi] at h2
    simp only [Res.pure_eq, Res.ok.injEq] at h2
    subst h2
    exact ⟨rfl, rfl⟩

theorem valuesOf_cons (v : Value) (rows : List Value) : valuesOf (v :: rows) = valuesOf [v] ++ valuesOf rows := by
  simp only [valuesOf]; rw [← List.filterMap_append]; rfl

theorem valuesOf_append (a b : List Value) : valuesOf (a ++ b) = valuesOf a ++ valuesOf b := by
  simp only [valuesOf, List.filterMap_append]

theorem LeafKind.runOps_counts (ops : List ColOp) (w w' : ColWriter δ κ) (h : K.runOps c o w ops = .ok w') :
    w'.hasNulls = w.hasNulls ∧ w'.stats.hasNull = w.stats.hasNull ∧
      w'.stats.numberOfValues = w.stats.numberOfValues + (valuesOf (rowsWritten ops)).length := by
  induction ops generalizing w with
  | nil =>
    simp only [runOps, Res.ok.injEq] at h
    subst h
    simp [rowsWritten, valuesOf]
  | cons op ops ih =>
    cases op with
    | write v =>
      simp only [runOps] at h
      obtain ⟨w1, h1, h⟩ := Res.bind_eq_ok.mp h
      obtain ⟨g1, -, g2, g3⟩ := K.write_counts c o h1
      obtain ⟨k1, k2, k3⟩ := ih w1 h
      refine ⟨by rw [k1, g1], by rw [k2, g2], ?_⟩
      rw [k3, g3, rowsWritten, valuesOf_cons v (rowsWritten ops), List.length_append]; omega
    | flush =>
      simp only [runOps] at h
      obtain ⟨w1, h1, h⟩ := Res.bind_eq_ok.mp h
      obtain ⟨g1, -, g2, g3, -⟩ := K.flush_frame c o h1
      obtain ⟨k1, k2, k3⟩ := ih w1 h
      exact ⟨by rw [k1, g1], by rw [k2, g2], by rw [k3, g3]; rfl⟩
    | writeOut =>
      simp only [runOps] at h
      obtain ⟨⟨w1, b⟩, h1, h⟩ := Res.bind_eq_ok.mp h
      obtain ⟨g1, g2⟩ := K.writeOut_frame o h1
      obtain ⟨k1, k2, k3⟩ := ih w1 h
      exact ⟨by rw [k1, g1], by rw [k2, g2], by rw [k3, g2]; rfl⟩
    | reset =>
      simp only [runOps] at h
      obtain ⟨w1, h1, h⟩ := Res.bind_eq_ok.mp h
      obtain ⟨g1, g2⟩ := K.reset_frame o h1
      obtain ⟨k1, k2, k3⟩ := ih w1 h
      exact ⟨by rw [k1, g1], by rw [k2, g2], by rw [k3, g2]; rfl⟩

/-- The type-specific statistics after any history are the fold over the non-null values. -/
theorem LeafKind.runOps_stats (settled : ∀ t v t1, K.addStats t v = .ok t1 → ∀ u t2 u', K.addIndex t1 u v = .ok (t2, u') → t2 = t1)
    (ops : List ColOp) (w w' : ColWriter δ κ) (h : K.runOps c o w ops = .ok w') (t : κ) (ht : w.stats.typed = some t) :
    ∃ t', w'.stats.typed = some t' ∧ foldRes K.addStats t (valuesOf (rowsWritten ops)) = .ok t' := by
  induction ops generalizing w t with
  | nil =>
    simp only [runOps, Res.ok.injEq] at h
    subst h
    exact ⟨t, ht, rfl⟩
  | cons op ops ih =>
    cases op with
    | write v =>
      simp only [runOps] at h
      obtain ⟨w1, h1, h⟩ := Res.bind_eq_ok.mp h
      obtain ⟨-, -, -, -, g⟩ := K.write_stats c o settled h1
      obtain ⟨t1, g1, g2⟩ := g t ht
      obtain ⟨t', k1, k2⟩ := ih w1 h t1 g1
      refine ⟨t', k1, ?_⟩
      rw [rowsWritten, valuesOf_cons, foldRes_append, g2]
      exact k2
    | flush =>
      simp only [runOps] at h
      obtain ⟨w1, h1, h⟩ := Res.bind_eq_ok.mp h
      obtain ⟨-, g1, -⟩ := K.flush_frame c o h1
      exact ih w1 h t (by rw [g1]; exact ht)
    | writeOut =>
      simp only [runOps] at h
      obtain ⟨⟨w1, b⟩, h1, h⟩ := Res.bind_eq_ok.mp h
      obtain ⟨-, g1⟩ := K.writeOut_frame o h1
      exact ih w1 h t (by rw [g1]; exact ht)
    | reset =>
      simp only [runOps] at h
      obtain ⟨w1, h1, h⟩ := Res.bind_eq_ok.mp h
      obtain ⟨-, g1⟩ := K.reset_frame o h1
      exact ih w1 h t (by rw [g1]; exact ht)

end

end Goorc
