import Verif.Spec.RowGroups
import Verif.Proofs.ColStats
import Mathlib.Data.List.Induction
namespace Goorc

section
variable {δ κ : Type} (K : LeafKind δ κ) (c : Codec) (o : COpts)

/-- The rows the index code of a column type sees. -/
def LeafKind.counted (rows : List Value) : List Value := rows.filter fun v => K.indexAllRows || !v.null

theorem LeafKind.counted_append (a b : List Value) : K.counted (a ++ b) = K.counted a ++ K.counted b := by
  simp [counted]

/-- The effect of a value on type-specific index statistics. -/
def LeafKind.indexStep (u : Option κ) (v : GoVal) : Res (Option κ) := do
  let (_, u) ← K.addIndex K.fresh u v
  pure u

/-- The index statistics do not depend on the column statistics. -/
def LeafKind.IndexIndep : Prop := ∀ t t1 u v t' u', K.addIndex t u v = .ok (t', u') → ∃ t2, K.addIndex t1 u v = .ok (t2, u')

theorem LeafKind.IndexIndep.step {K : LeafKind δ κ} (h : K.IndexIndep) {t u v t' u'} (e : K.addIndex t u v = .ok (t', u')) :
    K.indexStep u v = .ok u' := by
  obtain ⟨t2, h2⟩ := h t K.fresh u v t' u' e
  simp [indexStep, h2]

/-- Index statistics over some rows, starting from `u`. -/
def LeafKind.Covers (u : Option κ) (hn : Bool) (is : ColStats κ) (rows : List Value) : Prop :=
  is.hasNull = hn ∧ is.bytesOnDisk = 0 ∧ is.numberOfValues = (valuesOf rows).length ∧ foldRes K.indexStep u (valuesOf rows) = .ok is.typed

theorem LeafKind.Covers.snoc {K : LeafKind δ κ} (hK : K.IndexIndep) {u : Option κ} {hn : Bool} {is : ColStats κ} {rows : List Value}
    (h : K.Covers u hn is rows) (v : Value) {t t' u'} (e : v.null = false → K.addIndex t is.typed v.v = .ok (t', u')) :
    K.Covers u hn (if v.null then is else { is with typed := u', numberOfValues := is.numberOfValues + 1 }) (rows ++ [v]) := by
  obtain ⟨h1, h2, h3, h4⟩ := h
  simp only [Covers, valuesOf_append, foldRes_append, h4, Res.ok_bind, List.length_append]
  cases hv : v.null with
  | true => simp [valuesOf, hv, foldRes, h1, h2, h3]
  | false =>
    have : valuesOf [v] = [v.v] := by simp [valuesOf, hv]
    simp [this, foldRes, hK.step (e hv), h1, h2, h3]

theorem LeafKind.covers_nil (u : Option κ) (hn : Bool) : K.Covers u hn ⟨u, hn, 0, 0⟩ [] := ⟨rfl, rfl, rfl, rfl⟩

/-- What `Write` does to the index. -/
theorem LeafKind.write_index (hi : o.writeIndex = true) {w w' : ColWriter δ κ} {v : Value} (h : K.write c o w v = .ok w') :
    w'.hasNulls = w.hasNulls ∧
    if K.indexAllRows || !v.null then
      ∃ is, w.indexStats = some is ∧ ∃ t t' u',
        (if w.indexInRows + 1 ≥ o.stride then
          (v.null = false → K.addIndex t (some K.fresh) v.v = .ok (t', u')) ∧
          w'.index = w.index ++ [⟨K.positions o w', is⟩] ∧ w'.indexInRows = 0 ∧
          w'.indexStats = some (if v.null then ⟨some K.fresh, w.hasNulls, 0, 0⟩ else ⟨u', w.hasNulls, 1, 0⟩)
        else
          (v.null = false → K.addIndex t is.typed v.v = .ok (t', u')) ∧
          w'.index = w.index ∧ w'.indexInRows = w.indexInRows + 1 ∧
          w'.indexStats = some (if v.null then is else { is with typed := u', numberOfValues := is.numberOfValues + 1 }))
    else w'.index = w.index ∧ w'.indexInRows = w.indexInRows ∧ w'.indexStats = w.indexStats := by
  simp only [write] at h
  obtain ⟨w1, h1, h⟩ := Res.bind_eq_ok.mp h
  obtain ⟨p, rfl⟩ := writePresent_frame c o h1
  obtain ⟨w2, h2, h⟩ := Res.bind_eq_ok.mp h
  have e2 : w2.hasNulls = w.hasNulls ∧ w2.index = w.index ∧ w2.indexInRows = w.indexInRows ∧ w2.indexStats = w.indexStats := by
    cases hn : v.null with
    | true =>
      simp only [hn, if_true, Res.pure_eq, Res.ok.injEq] at h2
      subst h2
      exact ⟨rfl, rfl, rfl, rfl⟩
    | false =>
      simp only [hn, Bool.false_eq_true, if_false, writeNonNull] at h2
      obtain ⟨d, h3, h2⟩ := Res.bind_eq_ok.mp h2
      cases ht : w.stats.typed with
      | none => simp [ht] at h2
      | some t =>
        simp only [ht] at h2
        obtain ⟨t1, h4, h2⟩ := Res.bind_eq_ok.mp h2
        simp only [Res.pure_eq, Res.ok.injEq] at h2
        subst h2
        exact ⟨rfl, rfl, rfl, rfl⟩
  obtain ⟨a1, a2, a3, a4⟩ := e2
  by_cases hc : K.indexAllRows = true ∨ v.null = false
  · rw [if_pos ⟨hi, hc⟩] at h
    have hf := (K.indexRow_frame o h)
    refine ⟨by rw [hf.2.2.1, a1], ?_⟩
    rw [if_pos (by simpa using hc)]
    simp only [indexRow, a4] at h
    cases his : w.indexStats with
    | none => simp [his] at h
    | some is =>
      refine ⟨is, rfl, ?_⟩
      simp only [his, a3] at h
      by_cases hs : w.indexInRows + 1 ≥ o.stride
      · simp only [if_pos hs] at h ⊢
        cases hn : v.null with
        | true =>
          simp only [hn, if_true, Res.pure_eq, Res.ok.injEq] at h
          subst h
          exact ⟨K.fresh, K.fresh, none, by simp, by simp [positions, a2], rfl, by simp [a1]⟩
        | false =>
          simp only [hn, Bool.false_eq_true, if_false] at h
          cases ht : w2.stats.typed with
          | none => simp [ht] at h
          | some t =>
            simp only [ht] at h
            obtain ⟨⟨t', u'⟩, h3, h⟩ := Res.bind_eq_ok.mp h
            simp only [Res.pure_eq, Res.ok.injEq] at h
            subst h
            exact ⟨t, t', u', fun _ => h3, by simp [positions, a2], rfl, by simp [a1]⟩
      · simp only [if_neg hs] at h ⊢
        cases hn : v.null with
        | true =>
          simp only [hn, if_true, Res.pure_eq, Res.ok.injEq] at h
          subst h
          exact ⟨K.fresh, K.fresh, none, by simp, a2, rfl, by simp⟩
        | false =>
          simp only [hn, Bool.false_eq_true, if_false] at h
          cases ht : w2.stats.typed with
          | none => simp [ht] at h
          | some t =>
            simp only [ht] at h
            obtain ⟨⟨t', u'⟩, h3, h⟩ := Res.bind_eq_ok.mp h
            simp only [Res.pure_eq, Res.ok.injEq] at h
            subst h
            exact ⟨t, t', u', fun _ => h3, a2, rfl, by simp⟩
  · rw [if_neg (fun hh => hc hh.2)] at h
    simp only [Res.pure_eq, Res.ok.injEq] at h
    subst h
    refine ⟨a1, ?_⟩
    rw [if_neg (by simpa using hc)]
    exact ⟨a2, a3, a4⟩

theorem LeafKind.writes_append (a b : List Value) (w : ColWriter δ κ) :
    K.writes c o w (a ++ b) = (K.writes c o w a >>= fun w => K.writes c o w b) := by
  induction a generalizing w with
  | nil => rfl
  | cons v a ih => simp only [List.cons_append, writes, Res.bind_assoc, ih]

/-- The start of group `k` statistics. -/
def LeafKind.groupStart (u0 : Option κ) (k : Nat) : Option κ := if k = 0 then u0 else some K.fresh

/-- The index of a writer that started with an empty one at `w0` and has since written `rows`. -/
structure LeafKind.IndexInv (w0 : ColWriter δ κ) (u0 : Option κ) (hn0 : Bool) (rows : List Value) (w : ColWriter δ κ) (groups : List (List Value))
    (cur : List Value) : Prop where
  hasNulls : w.hasNulls = w0.hasNulls
  split : K.counted rows = groups.flatten ++ cur
  count : w.index.length = groups.length
  inRows : w.indexInRows < o.stride
  size : cur.length = if groups = [] then w.indexInRows else w.indexInRows + 1
  sizes : ∀ k g, groups[k]? = some g → g.length = if k = 0 then o.stride - 1 else o.stride
  current : ∃ is, w.indexStats = some is ∧ K.Covers (K.groupStart u0 groups.length) (if groups = [] then hn0 else w0.hasNulls) is cur
  entries : ∀ k g, groups[k]? = some g → ∃ e, w.index[k]? = some e ∧
    K.Covers (K.groupStart u0 k) (if k = 0 then hn0 else w0.hasNulls) e.stats g ∧
    ∃ m, m < rows.length ∧ (K.counted (rows.take (m + 1))).length = (k + 1) * o.stride ∧ (K.counted (rows.take m)).length + 1 = (k + 1) * o.stride ∧
      ∃ wk, K.writes c o w0 (rows.take (m + 1)) = .ok wk ∧ e.positions = K.positions o wk

theorem flatten_sizes (S : Nat) (hS : 1 ≤ S) (groups : List (List Value)) (h : ∀ k g, groups[k]? = some g → g.length = if k = 0 then S - 1 else S) :
    groups ≠ [] → groups.flatten.length + 1 = groups.length * S := by
  induction groups using List.reverseRecOn with
  | nil => intro h; exact absurd rfl h
  | append_singleton gs g ih =>
    intro _
    have h1 := h gs.length g (by simp)
    have h2 := ih (fun k g' hk => h k g' (by
      rw [List.getElem?_append_left]; exact hk
      exact (List.getElem?_eq_some_iff.mp hk).1))
    by_cases hg : gs = []
    · subst hg
      simp at h1 ⊢
      omega
    · have h2 := h2 hg
      rw [if_neg (by simp [hg])] at h1
      simp only [List.flatten_append, List.length_append, List.flatten_cons, List.flatten_nil, List.append_nil, List.length_cons, List.length_nil,
        Nat.add_mul, h1]
      omega

theorem LeafKind.indexInv_step (hi : o.writeIndex = true) (hS : 1 ≤ o.stride) (hK : K.IndexIndep) {w0 w w' : ColWriter δ κ} {u0 : Option κ} {hn0 : Bool} {rows : List Value} {groups : List (List Value)}
    {cur : List Value} (h : K.IndexInv c o w0 u0 hn0 rows w groups cur) (hw : K.writes c o w0 rows = .ok w) (v : Value) (e : K.write c o w v = .ok w') :
    ∃ groups' cur', K.IndexInv c o w0 u0 hn0 (rows ++ [v]) w' groups' cur' := by
  obtain ⟨h0, h1, h2, h3, h4, h5, ⟨is, h6, h7⟩, h8⟩ := h
  have hw' : K.writes c o w0 (rows ++ [v]) = .ok w' := by
    simp only [writes_append, hw, Res.ok_bind, writes, e]
  have hold : ∀ k g, groups[k]? = some g → ∃ e, w.index[k]? = some e ∧
      K.Covers (K.groupStart u0 k) (if k = 0 then hn0 else w0.hasNulls) e.stats g ∧
      ∃ m, m < (rows ++ [v]).length ∧ (K.counted ((rows ++ [v]).take (m + 1))).length = (k + 1) * o.stride ∧
        (K.counted ((rows ++ [v]).take m)).length + 1 = (k + 1) * o.stride ∧
        ∃ wk, K.writes c o w0 ((rows ++ [v]).take (m + 1)) = .ok wk ∧ e.positions = K.positions o wk := by
    intro k g hk
    obtain ⟨e, g1, g2, m, g3, g4, g5, g6⟩ := h8 k g hk
    refine ⟨e, g1, g2, m, by simp; omega, ?_, ?_, ?_⟩
    · rw [List.take_append_of_le_length (by omega)]; exact g4
    · rw [List.take_append_of_le_length (by omega)]; exact g5
    · rw [List.take_append_of_le_length (by omega)]; exact g6
  obtain ⟨e0, e1⟩ := K.write_index c o hi e
  by_cases hc : (K.indexAllRows || !v.null) = true
  · rw [if_pos hc] at e1
    have hcv : K.counted [v] = [v] := by
      simp only [counted, List.filter_cons, hc, List.filter_nil]; rfl
    obtain ⟨is', i1, t, t', u', e1⟩ := e1
    rw [h6] at i1
    cases i1
    by_cases hs : w.indexInRows + 1 ≥ o.stride
    · rw [if_pos hs] at e1
      obtain ⟨f1, f2, f3, f4⟩ := e1
      have hrs : w.indexInRows + 1 = o.stride := by omega
      have hlen : cur.length = if groups.length = 0 then o.stride - 1 else o.stride := by
        rw [h4]
        by_cases hg : groups = []
        · simp only [hg, if_true, List.length_nil]; omega
        · rw [if_neg hg, if_neg (by simpa using hg)]; exact hrs
      have hsizes : ∀ k g, (groups ++ [cur])[k]? = some g → g.length = if k = 0 then o.stride - 1 else o.stride := by
        intro k g hk
        by_cases hlt : k < groups.length
        · rw [List.getElem?_append_left hlt] at hk; exact h5 k g hk
        · rw [List.getElem?_append_right (by omega)] at hk
          have : k = groups.length := by
            have := (List.getElem?_eq_some_iff.mp hk).1
            simp at this; omega
          subst this
          simp at hk
          subst hk
          exact hlen
      refine ⟨groups ++ [cur], [v], ⟨by rw [e0, h0], ?_, ?_, by rw [f3]; omega, ?_, hsizes, ⟨_, f4, ?_⟩, ?_⟩⟩
      · rw [K.counted_append, h1, hcv]; simp
      · simp [f2, h2]
      · rw [if_neg (by simp), f3]; rfl
      · rw [if_neg (by simp)]
        have : K.groupStart u0 (groups ++ [cur]).length = some K.fresh := by simp [groupStart]
        rw [this]
        have hcov := (K.covers_nil (some K.fresh) w0.hasNulls).snoc hK v (t := t) (t' := t') (u' := u') f1
        rw [h0]
        simpa using hcov
      · intro k g hk
        by_cases hlt : k < groups.length
        · rw [List.getElem?_append_left hlt] at hk
          obtain ⟨e, g1, g2⟩ := hold k g hk
          refine ⟨e, ?_, g2⟩
          rw [f2, List.getElem?_append_left (by omega)]; exact g1
        · have hk2 := hk
          rw [List.getElem?_append_right (by omega)] at hk
          have hkk : k = groups.length := by
            have := (List.getElem?_eq_some_iff.mp hk).1
            simp at this; omega
          subst hkk
          simp at hk
          subst hk
          refine ⟨⟨K.positions o w', is⟩, by rw [f2, List.getElem?_append_right (by omega), ← h2]; simp, ?_, rows.length, by simp, ?_, ?_, w', ?_, rfl⟩
          · simp only
            have : (if groups = [] then hn0 else w0.hasNulls) = if groups.length = 0 then hn0 else w0.hasNulls := by
              by_cases hg : groups = [] <;> simp [hg]
            rw [← this]; exact h7
          · have hfl := flatten_sizes o.stride hS (groups ++ [cur]) hsizes (by simp)
            rw [List.take_of_length_le (by simp), K.counted_append, h1, hcv]
            simp only [List.flatten_append, List.flatten_cons, List.flatten_nil, List.append_nil, List.length_append, List.length_cons, List.length_nil] at hfl ⊢
            omega
          · have hfl := flatten_sizes o.stride hS (groups ++ [cur]) hsizes (by simp)
            rw [List.take_append_of_le_length (by omega), List.take_length, h1]
            simp only [List.flatten_append, List.flatten_cons, List.flatten_nil, List.append_nil, List.length_append, List.length_cons, List.length_nil] at hfl ⊢
            omega
          · rw [List.take_of_length_le (by simp)]; exact hw'
    · rw [if_neg hs] at e1
      obtain ⟨f1, f2, f3, f4⟩ := e1
      refine ⟨groups, cur ++ [v], ⟨by rw [e0, h0], ?_, by rw [f2]; exact h2, by rw [f3]; omega, ?_, h5, ⟨_, f4, h7.snoc hK v f1⟩, ?_⟩⟩
      · rw [K.counted_append, h1, hcv]; simp
      · rw [List.length_append, h4, f3]
        by_cases hg : groups = [] <;> simp [hg]
      · rw [f2]; exact hold
  · rw [if_neg hc] at e1
    obtain ⟨f1, f2, f3⟩ := e1
    have hcv : K.counted [v] = [] := by
      simp only [counted, List.filter_cons, if_neg hc, List.filter_nil]
    refine ⟨groups, cur, ⟨by rw [e0, h0], by rw [K.counted_append, h1, hcv]; simp, by rw [f1]; exact h2, by rw [f2]; exact h3, by rw [f2]; exact h4, h5,
      ⟨is, by rw [f3]; exact h6, h7⟩, by rw [f1]; exact hold⟩⟩

theorem LeafKind.indexInv (hi : o.writeIndex = true) (hS : 1 ≤ o.stride) (hK : K.IndexIndep) (w0 : ColWriter δ κ) (u0 : Option κ) (hn0 : Bool)
    (h0 : w0.index = []) (h1 : w0.indexInRows = 0) (h2 : w0.indexStats = some ⟨u0, hn0, 0, 0⟩) (rows : List Value) (w : ColWriter δ κ)
    (hw : K.writes c o w0 rows = .ok w) : ∃ groups cur, K.IndexInv c o w0 u0 hn0 rows w groups cur := by
  induction rows using List.reverseRecOn generalizing w with
  | nil =>
    simp only [writes, Res.ok.injEq] at hw
    subst hw
    refine ⟨[], [], ⟨rfl, rfl, by simp [h0], by omega, by simp [h1], by simp, ⟨_, h2, ?_⟩, by simp⟩⟩
    simp [groupStart, Covers, valuesOf, foldRes]
  | append_singleton rows v ih =>
    rw [writes_append] at hw
    obtain ⟨w1, e1, hw⟩ := Res.bind_eq_ok.mp hw
    simp only [writes] at hw
    obtain ⟨w2, e2, hw⟩ := Res.bind_eq_ok.mp hw
    simp only [Res.ok.injEq] at hw
    subst hw
    obtain ⟨groups, cur, hinv⟩ := ih w1 e1
    exact K.indexInv_step c o hi hS hK hinv e1 v e2

theorem groups_early (S : Nat) (hS : 1 ≤ S) (groups : List (List Value)) (cur : List Value)
    (h : ∀ k g, groups[k]? = some g → g.length = if k = 0 then S - 1 else S) (k : Nat) (g : List Value) (hk : groups[k]? = some g) :
    g = earlyGroup S k (groups.flatten ++ cur) := by
  have hlt := (List.getElem?_eq_some_iff.mp hk).1
  have hg := (List.getElem?_eq_some_iff.mp hk).2
  have hsplit : groups = groups.take k ++ g :: groups.drop (k + 1) := by
    rw [← hg, ← List.drop_eq_getElem_cons hlt, List.take_append_drop]
  have hpre : (groups.take k).flatten.length = k * S - 1 := by
    by_cases h0 : k = 0
    · simp [h0]
    · have := flatten_sizes S hS (groups.take k) (fun j x hj => h j x (by
        rw [List.getElem?_take] at hj
        split at hj
        · exact hj
        · cases hj)) (by simp; exact ⟨h0, by intro hh; simp [hh] at hlt⟩)
      rw [List.length_take_of_le (by omega)] at this
      omega
  have hlen := h k g hk
  have hfl : groups.flatten = (groups.take k).flatten ++ (g ++ (groups.drop (k + 1)).flatten) := by
    conv => lhs; rw [hsplit]
    simp
  rw [earlyGroup, hfl]
  by_cases h0 : k = 0
  · subst h0
    rw [if_pos rfl] at hlen ⊢
    simp only [List.take_zero, List.flatten_nil, List.nil_append, List.append_assoc]
    rw [List.take_append_of_le_length (by omega), ← hlen, List.take_length]
  · rw [if_neg h0] at hlen ⊢
    rw [← hpre]
    simp only [List.append_assoc, List.drop_left]
    rw [List.take_append_of_le_length (by omega), ← hlen, List.take_length]

/-- **The index of a stripe**, from a writer with an empty index. -/
theorem LeafKind.index_spec (hi : o.writeIndex = true) (hS : 1 ≤ o.stride) (hK : K.IndexIndep) (w0 : ColWriter δ κ) (u0 : Option κ) (hn0 : Bool)
    (h0 : w0.index = []) (h1 : w0.indexInRows = 0) (h2 : w0.indexStats = some ⟨u0, hn0, 0, 0⟩) (rows : List Value) (w : ColWriter δ κ)
    (hw : K.writes c o w0 rows = .ok w) :
    w.index.length = (K.counted rows).length / o.stride ∧
    ∀ k e, w.index[k]? = some e →
      K.Covers (K.groupStart u0 k) (if k = 0 then hn0 else w0.hasNulls) e.stats (earlyGroup o.stride k (K.counted rows)) ∧
      ∃ m, m < rows.length ∧ (K.counted (rows.take (m + 1))).length = (k + 1) * o.stride ∧ (K.counted (rows.take m)).length + 1 = (k + 1) * o.stride ∧
        ∃ wk, K.writes c o w0 (rows.take (m + 1)) = .ok wk ∧ e.positions = K.positions o wk := by
  obtain ⟨groups, cur, hinv⟩ := K.indexInv c o hi hS hK w0 u0 hn0 h0 h1 h2 rows w hw
  refine ⟨?_, fun k e he => ?_⟩
  · rw [hinv.count, hinv.split, List.length_append, hinv.size]
    have h3 := hinv.inRows
    by_cases hg : groups = []
    · simp [hg, Nat.div_eq_of_lt h3]
    · have := flatten_sizes o.stride hS groups hinv.sizes hg
      rw [if_neg hg]
      have : groups.flatten.length + (w.indexInRows + 1) = w.indexInRows + groups.length * o.stride := by omega
      rw [this, Nat.add_mul_div_right _ _ (by omega), Nat.div_eq_of_lt h3]; omega
  · have hk : k < groups.length := by
      rw [← hinv.count]; exact (List.getElem?_eq_some_iff.mp he).1
    obtain ⟨e', g1, g2, g3⟩ := hinv.entries k groups[k] (List.getElem?_eq_getElem hk)
    rw [he] at g1
    cases g1
    refine ⟨?_, g3⟩
    rw [hinv.split, ← groups_early o.stride hS groups cur hinv.sizes k groups[k] (List.getElem?_eq_getElem hk)]
    exact g2

end
end Goorc
