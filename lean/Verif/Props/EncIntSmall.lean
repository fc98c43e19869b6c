import Verif.Props.Column
/-
C21: short columns of small numbers, such as the lengths of strings.
-/
namespace Goorc

theorem collectDeltas_lt (up : Bool) (n : Nat) : ∀ (vs : List U64) (prev : U64), prev.toNat < n → (∀ v ∈ vs, v.toNat < n) →
    ∀ d ∈ collectDeltas false up prev vs, d.toNat < n
  | [], _, _, _ => by simp [collectDeltas]
  | v :: vs, prev, hp, hv => by
    have hv0 := hv v (by simp)
    have ih := collectDeltas_lt up n vs v hv0 fun x hx => hv x (by simp [hx])
    intro d hd
    simp only [collectDeltas, Bool.false_eq_true, if_false] at hd
    cases up with
    | true =>
      simp only [if_true] at hd
      split at hd
      · rcases List.mem_cons.mp hd with rfl | hd
        · rw [BitVec.toNat_sub]; omega
        · exact ih d hd
      · simp at hd
    | false =>
      simp only [Bool.false_eq_true, if_false] at hd
      split at hd
      · rcases List.mem_cons.mp hd with rfl | hd
        · rw [BitVec.toNat_sub]; omega
        · exact ih d hd
      · simp at hd

/-- A delta run found among small values whose neighbours differ. -/
theorem tryDelta_small (vs : List U64) (dv : DeltaValues) (h : tryDelta false vs = some dv) (hv : ∀ v ∈ vs, v.toNat < 2 ^ 11)
    (hst : Steps (fun a b => a ≠ b) vs) : -2048 < dv.base.toInt ∧ dv.base.toInt < 2048 ∧
      (∀ d ∈ dv.deltas, d.toNat < 2 ^ 11) ∧ ∃ d ∈ dv.deltas, d ≠ 0 := by
  match vs, h with
  | v0 :: v1 :: v2 :: vs, h =>
    have h0 := hv v0 (by simp)
    have h1 := hv v1 (by simp)
    have h2 := hv v2 (by simp)
    have h12 : v1 ≠ v2 := hst.2.1
    have hne : v1.toNat ≠ v2.toNat := fun e => h12 (BitVec.eq_of_toNat_eq e)
    have hrest := fun up => collectDeltas_lt up (2 ^ 11) vs v2 h2 fun v hx => hv v (by simp [hx])
    simp only [tryDelta, Bool.false_eq_true, if_false] at h
    split at h
    · cases h
    rename_i h01
    have h01' : v0.toNat ≠ v1.toNat := fun e => h01 (BitVec.eq_of_toNat_eq e)
    obtain ⟨base, hbase⟩ : ∃ base : U64, base = (if v0.toNat < v1.toNat then v1 - v0 else -(v0 - v1)) := ⟨_, rfl⟩
    rw [← hbase] at h
    have hb : -2048 < base.toInt ∧ base.toInt < 2048 := by
      rw [hbase]
      split
      · have : (v1 - v0).toNat = v1.toNat - v0.toNat := by rw [BitVec.toNat_sub]; omega
        rw [BitVec.toInt_eq_toNat_of_lt (by omega)]; omega
      · have : (v0 - v1).toNat = v0.toNat - v1.toNat := by rw [BitVec.toNat_sub]; omega
        have hn : (-(v0 - v1)).toNat = 2 ^ 64 - (v0.toNat - v1.toNat) := by
          rw [BitVec.toNat_neg, this]; omega
        rw [BitVec.toInt_eq_toNat_cond, hn]
        split <;> omega
    split at h
    · cases h
    · rename_i d hd
      simp only [Option.some.injEq] at h
      subst h
      have hdd : d.toNat < 2 ^ 11 ∧ d ≠ 0 := by
        have hlt : ∀ a b : U64, a.toNat < 2 ^ 11 → b.toNat < a.toNat → (a - b).toNat < 2 ^ 11 ∧ a - b ≠ 0 := by
          intro a b ha hab
          have : (a - b).toNat = a.toNat - b.toNat := by rw [BitVec.toNat_sub]; omega
          refine ⟨by omega, fun e => ?_⟩
          rw [e] at this
          simp at this; omega
        split at hd
        · split at hd
          · cases hd; exact hlt v2 v1 h2 (by omega)
          · cases hd
        · split at hd
          · cases hd; exact hlt v1 v2 h1 (by omega)
          · cases hd
      refine ⟨hb.1, hb.2, ?_, d, by simp, hdd.2⟩
      intro x hx
      rcases List.mem_cons.mp hx with rfl | hx
      · exact hdd.1
      · exact hrest _ x hx

theorem Steps.ne_run {v : U64} {vs : List U64} (h : Steps (fun a b => a ≠ b) (v :: vs)) : leadRun (v :: vs) = 1 := by
  cases vs with
  | nil => rfl
  | cons w ws =>
    have : w ≠ v := fun e => h.1 e.symm
    simp [leadRun, this]

theorem directSafe_last {vs : List U64} (hl : vs.length ≤ 512) (h0 : vs.getLast? ≠ some 0) : DirectSafe vs := by
  by_cases he : vs = []
  · exact .inl he
  · refine .inr ⟨hl, vs.getLast he, List.getLast_mem he, ?_⟩
    rintro h
    exact h0 (by rw [List.getLast?_eq_some_getLast he, h])

/-- **C21** (partial: short columns of small unsigned numbers in any order) At most 511 unsigned values below
2048 read back, whatever their order, if no two neighbours are equal and the last is not 0. -/
theorem uint_changing_roundtrip_partial (xs : List U64) (hl : xs.length < 512) (hx : ∀ x ∈ xs, x.toNat < 2048)
    (hne : Steps (fun a b => a ≠ b) xs) (h0 : xs.getLast? ≠ some 0) : ReadsBackU xs := by
  apply ReadsBack.unsigned
  intro p
  refine encodeFlush_blocks false p xs ?_ ?_
  · intro c hc hlen
    have := hc.length_le
    omega
  · intro hn
    have hz : xs.length / 512 * 512 = 0 := by omega
    rw [hz, List.drop_zero] at hn ⊢
    by_cases h3 : xs.length ≤ 3
    · refine short_rest false xs hn h3 ⟨xs.getLast hn, List.getLast_mem hn, fun h => h0 ?_⟩
      rw [List.getLast?_eq_some_getLast hn, h]
    · obtain ⟨v, vs, rfl⟩ := List.exists_cons_of_ne_nil hn
      have hr := hne.ne_run
      have hok : RoundOk (v :: vs) := by
        simp only [RoundOk, hr, List.headD_cons]
        rw [if_neg (by omega)]
        intro dv hdv
        obtain ⟨b1, b2, b3, b4⟩ := tryDelta_small _ dv hdv hx hne
        have := hx v (by simp)
        exact ⟨by omega, zigzag_small _ b1 b2, b4, maxAligned_small _ b3⟩
      obtain ⟨⟨out, rest⟩, ho⟩ := (uint_round_ok_iff_partial true (v :: vs) hn (by omega)).mpr hok
      have hrest : rest = [] := by
        have g := ho
        simp only [writeStep, getRepeats, countEq_eq, Res.ok_bind] at g
        simp only [leadRun] at hr
        rw [if_neg (by omega)] at g
        obtain ⟨⟨o1, r1⟩, -, g⟩ := Res.bind_ok_inv g
        by_cases hr1 : r1 = []
        · subst hr1
          simp only [ne_eq, not_true, and_false, if_false, Res.pure_eq, Res.ok.injEq, Prod.mk.injEq] at g
          exact g.2.symm
        · simp only [ne_eq, hr1, not_false_iff, and_self, if_true] at g
          obtain ⟨o2, -, g⟩ := Res.bind_ok_inv g
          simp only [Res.pure_eq, Res.ok.injEq, Prod.mk.injEq] at g
          exact g.2.symm
      subst hrest
      refine ⟨out, intWrite_one false true _ (by omega) out ho, ?_⟩
      have hsafe : StepSafe false true (v :: vs) := by
        simp only [StepSafe, hr]
        rw [if_neg (by omega)]
        split
        · rename_i dv hdv
          obtain ⟨x0, x1, tl, he, hd, hlen, hle, -⟩ := tryDelta_spec false _ dv hdv
          refine ⟨?_, fun _ => directSafe_last (by rw [List.length_drop]; omega) ?_⟩
          · have := congrArg List.length he
            simp at this hl
            omega
          · rw [List.getLast?_drop]
            split
            · simp
            · exact h0
        · exact fun _ => directSafe_last (by omega) h0
      obtain ⟨used, hu, hd⟩ := writeStep_decodes false true _ out [] ho hsafe
      rw [List.append_nil] at hu
      rwa [← hu] at hd

/-- The hypotheses hold for instance for the lengths of these words, in this order. -/
example : ReadsBackU [5, 3, 11, 4, 9, 2, 0, 7, 1] :=
  uint_changing_roundtrip_partial _ (by decide) (by simp) (by simp [Steps]) (by decide)

/-- Equal neighbours are what the encoder cannot take: three of these four values differ from the first by
the same amount and the whole write fails. -/
theorem uint_repeated_false : ¬ ReadsBackU [1, 2, 2, 2] := by
  intro h
  obtain ⟨out, h1, -⟩ := h false
  have h2 : intEnc.encodeFlush (newIntRLV2 false false) ([1, 2, 2, 2].map .u64) = .err .other := int_never_fails_false.1
  rw [h2] at h1
  cases h1

/-- **C37** (partial: short columns of strings) At most 511 strings shorter than 2048 bytes, of which no two neighbours
(leaving out nulls) have the same length and the last is not empty, read back from a string column. -/
theorem short_strings_roundtrip_partial {c : Codec} (hc : c.Lossless) {o : COpts} (ho : o.toWOpts.Sound) (hasNulls : Bool) (written : List Value)
    (hn : hasNulls = true ∨ ∀ v ∈ written, v.null = false) (vals : List Bytes) (hv : written.filterMap Value.row = vals.map .str)
    (hl : vals.length < 512) (hx : ∀ v ∈ vals, v.length < 2048) (hne : Steps (fun a b => a.length ≠ b.length) vals)
    (h0 : vals.getLast? ≠ some []) : ColumnReadsBack stringKind stringRead c o hasNulls written (written.map Value.row) := by
  have hto : ∀ n, n < 2048 → (BitVec.ofNat 64 n).toNat = n := fun n hn => by rw [BitVec.toNat_ofNat]; omega
  refine string_column_roundtrip_partial hc ho hasNulls written hn vals hv (fun v hv => by have := hx v hv; omega) ?_
  refine uint_changing_roundtrip_partial _ (by simpa using hl) ?_ ?_ ?_
  · intro x hx'
    obtain ⟨v, hv, rfl⟩ := List.mem_map.mp hx'
    rw [hto _ (hx v hv)]; exact hx v hv
  · clear hv hl h0
    induction vals with
    | nil => simp [Steps]
    | cons a l ih =>
      cases l with
      | nil => simp [Steps]
      | cons b l =>
        refine ⟨fun e => hne.1 ?_, ih (fun v hv => hx v (by simp only [List.mem_cons] at hv ⊢; exact .inr hv)) hne.2⟩
        have := congrArg BitVec.toNat e
        rwa [hto _ (hx a (by simp)), hto _ (hx b (by simp))] at this
  · rw [List.getLast?_map]
    cases hg : vals.getLast? with
    | none => simp
    | some v =>
      have hm : v ∈ vals := List.mem_of_getLast? hg
      simp only [Option.map_some, ne_eq, Option.some.injEq]
      intro e
      have := congrArg BitVec.toNat e
      rw [hto _ (hx v hm)] at this
      exact h0 (by rw [hg, List.length_eq_zero_iff.1 this])

/-- Words and a null that meet the hypotheses. -/
example : ColumnReadsBack stringKind stringRead runCodec exOpts true [⟨false, .str [104, 105]⟩, ⟨true, .nil⟩, ⟨false, .str []⟩, ⟨false, .str [33]⟩]
    [some (.str [104, 105]), none, some (.str []), some (.str [33])] :=
  short_strings_roundtrip_partial runCodec_lossless exOpts_sound true _ (.inl rfl) [[104, 105], [], [33]] rfl (by decide) (by simp) (by simp [Steps]) (by decide)

end Goorc
