import Verif.Proofs.IntDelta
namespace Goorc

theorem addDelta_up (signed : Bool) (base prev v : U64) (h : 0 ≤ base.toInt) :
    addDelta signed base prev (if signed then unZigzag v - unZigzag prev else v - prev) = v := by
  cases signed
  · simp only [addDelta, Bool.false_eq_true, if_false, if_pos h]; grind
  · simp only [addDelta, if_true, if_pos h]
    rw [show unZigzag prev + (unZigzag v - unZigzag prev) = unZigzag v by grind, zigzag_unZigzag]

theorem addDelta_down (signed : Bool) (base prev v : U64) (h : ¬ 0 ≤ base.toInt) :
    addDelta signed base prev (if signed then unZigzag prev - unZigzag v else prev - v) = v := by
  cases signed
  · simp only [addDelta, Bool.false_eq_true, if_false, if_neg h]; grind
  · simp only [addDelta, if_true, if_neg h]
    rw [show unZigzag prev - (unZigzag prev - unZigzag v) = unZigzag v by grind, zigzag_unZigzag]

theorem collectDeltas_cons (signed up : Bool) (prev v : U64) (vs : List U64) :
    collectDeltas signed up prev (v :: vs) = [] ∨
    collectDeltas signed up prev (v :: vs) =
      (if up then (if signed then unZigzag v - unZigzag prev else v - prev)
        else (if signed then unZigzag prev - unZigzag v else prev - v)) :: collectDeltas signed up v vs := by
  cases signed <;> cases up <;> simp only [collectDeltas, if_true, if_false, Bool.false_eq_true] <;>
    split <;> simp

theorem collectDeltas_scan (signed : Bool) (base prev : U64) (vs : List U64) :
    scanDelta signed base prev (collectDeltas signed (decide (base.toInt ≥ 0)) prev vs) =
      vs.take (collectDeltas signed (decide (base.toInt ≥ 0)) prev vs).length ∧
    (collectDeltas signed (decide (base.toInt ≥ 0)) prev vs).length ≤ vs.length := by
  induction vs generalizing prev with
  | nil => simp [collectDeltas, scanDelta]
  | cons v vs ih =>
    rcases collectDeltas_cons signed (decide (base.toInt ≥ 0)) prev v vs with h | h
    · simp [h, scanDelta]
    · rw [h]
      have hv : addDelta signed base prev
          (if decide (base.toInt ≥ 0) then (if signed then unZigzag v - unZigzag prev else v - prev)
            else (if signed then unZigzag prev - unZigzag v else prev - v)) = v := by
        by_cases hb : base.toInt ≥ 0
        · simp only [hb, decide_true, if_true]; exact addDelta_up signed base prev v hb
        · simp only [hb, decide_false, if_false, Bool.false_eq_true]; exact addDelta_down signed base prev v hb
      obtain ⟨h1, h2⟩ := ih v
      refine ⟨?_, by simp only [List.length_cons]; omega⟩
      simp only [scanDelta, hv, List.length_cons, List.take_succ_cons, h1]

/-- What `tryDelta` finds: a prefix of the values that a delta block describes. -/
theorem tryDelta_spec (signed : Bool) (vals : List U64) (dv : DeltaValues) (h : tryDelta signed vals = some dv) :
    ∃ v0 v1 rest, vals = v0 :: v1 :: rest ∧ dv.deltas ≠ [] ∧
      dv.length = BitVec.ofNat 16 (dv.deltas.length + 2) ∧ dv.deltas.length ≤ rest.length ∧
      addDeltaBase signed v0 dv.base = v1 ∧
      scanDelta signed dv.base v1 dv.deltas = rest.take dv.deltas.length ∧ v0 ≠ v1 := by
  match vals, h with
  | v0 :: v1 :: v2 :: vs, h =>
    simp only [tryDelta] at h
    by_cases h01 : v0 = v1
    · rw [if_pos h01] at h; simp at h
    rw [if_neg h01] at h
    obtain ⟨base, hbase⟩ : ∃ base : U64, base = (if signed then unZigzag v1 - unZigzag v0
        else if v0.toNat < v1.toNat then v1 - v0 else -(v0 - v1)) := ⟨_, rfl⟩
    rw [← hbase] at h
    have hsum : addDeltaBase signed v0 base = v1 := by
      cases signed
      · have hb : base = v1 - v0 := by
          rw [hbase]; simp only [Bool.false_eq_true, if_false]; split
          · rfl
          · grind
        simp only [addDeltaBase, Bool.false_eq_true, if_false, hb]
        split <;> grind
      · simp only [if_true] at hbase
        simp only [addDeltaBase, if_true, hbase]
        rw [show unZigzag v0 + (unZigzag v1 - unZigzag v0) = unZigzag v1 by grind, zigzag_unZigzag]
    have hb0 : base.toInt ≠ 0 := by
      intro h0
      have hz : base = 0 := BitVec.eq_of_toInt_eq (by simpa using h0)
      rw [hz] at hsum
      apply h01
      cases signed
      · simpa [addDeltaBase] using hsum
      · simp only [addDeltaBase, if_true] at hsum
        rw [show unZigzag v0 + 0 = unZigzag v0 by grind, zigzag_unZigzag] at hsum
        exact hsum
    have step : ∀ d, addDelta signed base v1 d = v2 →
        ∀ ds, ds = collectDeltas signed (decide (base.toInt ≥ 0)) v2 vs →
        dv = ⟨base, BitVec.ofNat 16 (3 + ds.length), d :: ds⟩ →
        ∃ v0' v1' rest, v0 :: v1 :: v2 :: vs = v0' :: v1' :: rest ∧ dv.deltas ≠ [] ∧
          dv.length = BitVec.ofNat 16 (dv.deltas.length + 2) ∧ dv.deltas.length ≤ rest.length ∧
          addDeltaBase signed v0' dv.base = v1' ∧
          scanDelta signed dv.base v1' dv.deltas = rest.take dv.deltas.length ∧ v0' ≠ v1' := by
      intro d hd ds hds hdv
      subst hdv
      obtain ⟨g1, g2⟩ := collectDeltas_scan signed base v2 vs
      rw [← hds] at g1 g2
      refine ⟨v0, v1, v2 :: vs, rfl, by simp, ?_, ?_, hsum, ?_, h01⟩
      · simp only [List.length_cons]; congr 1; omega
      · simp only [List.length_cons]; omega
      · simp only [scanDelta, hd, List.length_cons, List.take_succ_cons, g1]
    cases signed
    · simp only [Bool.false_eq_true, if_false] at h
      by_cases hp : base.toInt > 0
      · simp only [if_pos hp] at h
        by_cases hc : v2.toNat ≥ v1.toNat
        · simp only [if_pos hc, Option.some.injEq] at h
          exact step _ (by simpa using addDelta_up false base v1 v2 (by omega)) _ rfl h.symm
        · simp [if_neg hc] at h
      · simp only [if_neg hp] at h
        by_cases hc : v2.toNat < v1.toNat
        · simp only [if_pos hc, Option.some.injEq] at h
          exact step _ (by simpa using addDelta_down false base v1 v2 (by omega)) _ rfl h.symm
        · simp [if_neg hc] at h
    · simp only [if_true] at h
      by_cases hp : base.toInt > 0
      · simp only [if_pos hp] at h
        by_cases hc : (unZigzag v2).toInt ≥ (unZigzag v1).toInt
        · simp only [if_pos hc, Option.some.injEq] at h
          exact step _ (by simpa using addDelta_up true base v1 v2 (by omega)) _ rfl h.symm
        · simp [if_neg hc] at h
      · simp only [if_neg hp] at h
        by_cases hc : (unZigzag v2).toInt ≥ (unZigzag v1).toInt
        · simp [if_pos hc] at h
        · simp only [if_neg hc, Option.some.injEq] at h
          exact step _ (by simpa using addDelta_down true base v1 v2 (by omega)) _ rfl h.symm

/-! ### Patched blocks -/

/-- Apply patch list entries to values (the decoder's loop, without the reading). -/
def applyPatches (width pw : Nat) (base : U64) : List U64 → Nat → List U64 → Option (List U64)
  | [], _, uvs => some uvs
  | pp :: pps, mark, uvs =>
    let mark := mark + (pp >>> pw).toNat
    match uvs[mark]? with
    | none => none
    | some u => applyPatches width pw base pps mark
        (uvs.set mark (zigzag (((unZigzag u - base) ||| ((pp &&& ((1#64 <<< pw) - 1#64)) <<< width)) + base)))

theorem readPatches_eq (width pw pgw : Nat) (base : U64) (n : Nat) (st : BitState) (mark : Nat) (uvs : List U64)
    (s : Bytes) (entries : List U64) (s' : Bytes)
    (h : (readBitsN st (pgw + pw) n).runBuf s = .ok (entries, s')) (r : List U64)
    (hr : applyPatches width pw base entries mark uvs = some r) :
    (readPatches width pw pgw base n st mark uvs).runBuf s = .ok (r, s') := by
  induction n generalizing st mark uvs s entries with
  | zero =>
    simp [readBitsN] at h
    obtain ⟨h1, h2⟩ := h
    subst h1; subst h2
    simp [applyPatches] at hr
    subst hr
    rfl
  | succ n ih =>
    simp only [readBitsN, Dec.runBuf_bind] at h
    simp only [readPatches, Dec.runBuf_bind]
    cases hb : (readBits st (pgw + pw)).runBuf s with
    | err e => simp [hb] at h
    | panic => simp [hb] at h
    | hang => simp [hb] at h
    | ok p =>
      obtain ⟨⟨pp, st'⟩, s1⟩ := p
      simp only [hb, Res.ok_bind] at h ⊢
      cases hn : (readBitsN st' (pgw + pw) n).runBuf s1 with
      | err e => simp [hn] at h
      | panic => simp [hn] at h
      | hang => simp [hn] at h
      | ok q =>
        obtain ⟨es, s2⟩ := q
        simp [hn] at h
        obtain ⟨h1, h2⟩ := h
        subst h1; subst h2
        simp only [applyPatches] at hr
        cases hu : uvs[mark + (pp >>> pw).toNat]? with
        | none => rw [hu] at hr; simp at hr
        | some u =>
          simp only [hu] at hr ⊢
          exact ih _ _ _ _ _ hn hr

theorem splitGap_spec (fuel g : Nat) (h : g ≤ fuel * 255 + 255) :
    ∃ k r, splitGap fuel g = List.replicate k 255 ++ [r] ∧ g = 255 * k + r ∧ r ≤ 255 := by
  induction fuel generalizing g with
  | zero => exact ⟨0, g, rfl, by omega, by omega⟩
  | succ fuel ih =>
    by_cases hg : g > 255
    · obtain ⟨k, r, h1, h2, h3⟩ := ih (g - 255) (by omega)
      exact ⟨k + 1, r, by simp [splitGap, hg, h1, List.replicate_succ], by omega, h3⟩
    · exact ⟨0, g, by simp [splitGap, hg], by omega, by omega⟩

/-- Entry of the patch list. -/
def entryOf (pw : Nat) (g : Nat) (p : U64) : U64 := (BitVec.ofNat 64 g <<< pw) ||| p

theorem entry_toNat (pw g : Nat) (p : U64) (hp : p.toNat < 2 ^ pw) (k : Nat) (hg : g < 2 ^ k) (hk : k + pw ≤ 64) :
    (entryOf pw g p).toNat = g * 2 ^ pw + p.toNat := by
  have h1 : g * 2 ^ pw < 2 ^ (k + pw) := by
    rw [Nat.pow_add]; exact Nat.mul_lt_mul_of_pos_right hg (Nat.pow_pos (by omega))
  have h2 : 2 ^ (k + pw) ≤ 2 ^ 64 := Nat.pow_le_pow_right (by omega) hk
  have h3 : g % 2 ^ 64 = g := by
    apply Nat.mod_eq_of_lt
    calc g < 2 ^ k := hg
      _ ≤ 2 ^ 64 := Nat.pow_le_pow_right (by omega) (by omega)
  rw [entryOf, BitVec.toNat_or, BitVec.toNat_shiftLeft, BitVec.toNat_ofNat, h3, Nat.shiftLeft_eq,
    Nat.mod_eq_of_lt (by omega), ← Nat.shiftLeft_eq, ← Nat.shiftLeft_add_eq_or_of_lt hp]

theorem entry_gap (pw g : Nat) (p : U64) (hp : p.toNat < 2 ^ pw) (k : Nat) (hg : g < 2 ^ k) (hk : k + pw ≤ 64) :
    (entryOf pw g p >>> pw).toNat = g := by
  rw [BitVec.toNat_ushiftRight, entry_toNat pw g p hp k hg hk, Nat.shiftRight_eq_div_pow, Nat.mul_comm,
    Nat.mul_add_div (Nat.pow_pos (by omega)), Nat.div_eq_of_lt hp, Nat.add_zero]

theorem entry_patch (pw g : Nat) (p : U64) (hp : p.toNat < 2 ^ pw) (k : Nat) (hg : g < 2 ^ k) (hk : k + pw ≤ 64)
    (h64 : pw < 64) : entryOf pw g p &&& ((1#64 <<< pw) - 1#64) = p := by
  apply BitVec.eq_of_toNat_eq
  rw [mask64_toNat _ _ h64, entry_toNat pw g p hp k hg hk, Nat.mul_comm, Nat.mul_add_mod, Nat.mod_eq_of_lt hp]

theorem join_patch (v : U64) (w : Nat) (hw : w < 64) :
    (v &&& ((1#64 <<< w) - 1#64)) ||| ((v >>> w) <<< w) = v := by
  apply BitVec.eq_of_toNat_eq
  rw [BitVec.toNat_or, mask64_toNat v w hw, BitVec.toNat_shiftLeft, BitVec.toNat_ushiftRight,
    Nat.shiftRight_eq_div_pow, Nat.shiftLeft_eq]
  have hle : v.toNat / 2 ^ w * 2 ^ w ≤ v.toNat := Nat.div_mul_le_self _ _
  have := v.isLt
  rw [Nat.mod_eq_of_lt (a := v.toNat / 2 ^ w * 2 ^ w) (b := 2 ^ 64) (Nat.lt_of_le_of_lt hle this), Nat.or_comm, ← Nat.shiftLeft_eq,
    ← Nat.shiftLeft_add_eq_or_of_lt (Nat.mod_lt _ (Nat.pow_pos (by omega))), Nat.shiftLeft_eq, Nat.mul_comm,
    Nat.div_add_mod]

/-- One step of `applyPatches` for an entry made by the encoder. -/
theorem applyPatches_entry (w pw k : Nat) (hk : k + pw ≤ 64) (h64 : pw < 64) (base : U64) (g : Nat) (hg : g < 2 ^ k)
    (p : U64) (hp : p.toNat < 2 ^ pw) (es : List U64) (mark : Nat) (pre post : List U64) (u : U64)
    (hm : mark + g = pre.length) :
    applyPatches w pw base (entryOf pw g p :: es) mark (pre ++ u :: post) =
      applyPatches w pw base es (mark + g)
        (pre ++ zigzag (((unZigzag u - base) ||| (p <<< w)) + base) :: post) := by
  simp only [applyPatches]
  rw [entry_gap pw g p hp k hg hk, entry_patch pw g p hp k hg hk h64, hm]
  simp

/-- Empty patches do nothing but advance the mark. -/
theorem applyPatches_fill (w pw k : Nat) (hk : k + pw ≤ 64) (h64 : pw < 64) (h8 : 8 ≤ k) (base : U64) (n : Nat)
    (es : List U64) (mark : Nat) (uvs : List U64) (hm : mark + 255 * n < uvs.length) :
    applyPatches w pw base (List.zipWith (entryOf pw) (List.replicate n 255) (List.replicate n 0#64) ++ es) mark uvs =
      applyPatches w pw base es (mark + 255 * n) uvs := by
  induction n generalizing mark with
  | zero => simp
  | succ n ih =>
    have hlt : mark + 255 < uvs.length := by
      rw [Nat.mul_succ] at hm; exact Nat.lt_of_le_of_lt (by rw [Nat.add_comm (255 * n), ← Nat.add_assoc]; exact Nat.le_add_right _ _) hm
    obtain ⟨pre, u, post, hu, hpre⟩ : ∃ pre u post, uvs = pre ++ u :: post ∧ mark + 255 = pre.length :=
      ⟨uvs.take (mark + 255), uvs[mark + 255], uvs.drop (mark + 255 + 1),
        (by rw [List.getElem_cons_drop, List.take_append_drop]), by rw [List.length_take]; omega⟩
    have hk' : 255 < 2 ^ k := by
      have h256 : 2 ^ 8 ≤ 2 ^ k := Nat.pow_le_pow_right (by omega) h8
      exact Nat.lt_of_lt_of_le (by decide) h256
    have hih := ih (mark + 255) (by omega)
    simp only [List.replicate_succ, List.zipWith_cons_cons, List.cons_append]
    rw [hu] at hih ⊢
    rw [applyPatches_entry w pw k hk h64 base 255 hk' 0#64 (Nat.pow_pos (by omega)) _ mark pre post u hpre]
    have he : zigzag ((unZigzag u - base ||| 0#64 <<< w) + base) = u := by
      rw [show (0#64) <<< w = 0#64 by simp]
      rw [show (unZigzag u - base ||| 0#64) = unZigzag u - base by simp]
      rw [show unZigzag u - base + base = unZigzag u by grind, zigzag_unZigzag]
    rw [he, hih, Nat.mul_succ]
    congr 1; omega

theorem collectPatches_lengths (w i prev : Nat) (ds : List U64) :
    (collectPatches w i prev ds).1.length = ds.length ∧
    (collectPatches w i prev ds).2.1.length = (collectPatches w i prev ds).2.2.length := by
  induction ds generalizing i prev with
  | nil => simp [collectPatches]
  | cons v vs ih =>
    by_cases hw : getBitsWidth v > w
    · obtain ⟨h1, h2⟩ := ih (i + 1) i
      obtain ⟨k, r, hs, _, _⟩ := splitGap_spec (i - prev) (i - prev) (by omega)
      simp only [collectPatches, if_pos hw, List.length_cons, h1, List.length_append, hs, List.length_replicate,
        List.length_nil, true_and]
      generalize collectPatches w (i + 1) i vs = q at *
      obtain ⟨a, b, c⟩ := q
      simp only at h2 ⊢
      omega
    · obtain ⟨h1, h2⟩ := ih (i + 1) prev
      simp only [collectPatches, if_neg hw, List.length_cons, h1, h2, and_self]

theorem collectPatches_gaps_le (w i prev : Nat) (ds : List U64) :
    ∀ g ∈ (collectPatches w i prev ds).2.1, g ≤ 255 := by
  induction ds generalizing i prev with
  | nil => simp [collectPatches]
  | cons v vs ih =>
    by_cases hw : getBitsWidth v > w
    · obtain ⟨k, r, hs, _, hr⟩ := splitGap_spec (i - prev) (i - prev) (by omega)
      simp only [collectPatches, if_pos hw, hs]
      intro g hg
      simp only [List.mem_append, List.mem_replicate, List.mem_singleton] at hg
      rcases hg with (⟨_, rfl⟩ | rfl) | hg
      · omega
      · exact hr
      · exact ih _ _ g hg
    · simp only [collectPatches, if_neg hw]; exact ih _ _

theorem collectPatches_vals_lt (w i prev : Nat) (hw : w < 64) (ds : List U64) :
    ∀ v ∈ (collectPatches w i prev ds).1, v.toNat < 2 ^ w := by
  induction ds generalizing i prev with
  | nil => simp [collectPatches]
  | cons v vs ih =>
    by_cases hv : getBitsWidth v > w
    · simp only [collectPatches, if_pos hv, List.mem_cons]
      rintro x (rfl | hx)
      · rw [mask64_toNat _ _ hw]; exact Nat.mod_lt _ (Nat.pow_pos (by omega))
      · exact ih _ _ x hx
    · simp only [collectPatches, if_neg hv, List.mem_cons]
      rintro x (rfl | hx)
      · exact (getBitsWidth_le_iff _ _).mp (by omega)
      · exact ih _ _ x hx

/-- Applying the collected patches to the masked values gives the values. -/
theorem collectPatches_apply (w pw k : Nat) (hw : w < 64) (hk : k + pw ≤ 64) (h64 : pw < 64) (base : U64)
    (ds : List U64) (i prev : Nat) (hprev : prev ≤ i) (pre : List U64) (hpre : pre.length = i)
    (hp : ∀ p ∈ (collectPatches w i prev ds).2.2, p.toNat < 2 ^ pw)
    (hg : ∀ g ∈ (collectPatches w i prev ds).2.1, g < 2 ^ k) :
    applyPatches w pw base
      (List.zipWith (entryOf pw) (collectPatches w i prev ds).2.1 (collectPatches w i prev ds).2.2) prev
      (pre ++ (collectPatches w i prev ds).1.map fun d => zigzag (base + d)) =
    some (pre ++ ds.map fun d => zigzag (base + d)) := by
  induction ds generalizing i prev pre with
  | nil => simp [collectPatches, applyPatches]
  | cons v vs ih =>
    by_cases hv : getBitsWidth v > w
    · obtain ⟨n, r, hs, hn, hr⟩ := splitGap_spec (i - prev) (i - prev) (by omega)
      obtain ⟨l1, l2⟩ := collectPatches_lengths w (i + 1) i vs
      simp only [collectPatches, if_pos hv, hs] at hp hg ⊢
      have hlen : (List.replicate n 255 ++ [r]).length - 1 = n := by simp
      rw [hlen] at hp ⊢
      have hrk : r < 2 ^ k := hg r (by simp)
      have hvp : (v >>> w).toNat < 2 ^ pw := hp _ (by simp)
      rw [List.append_assoc, List.zipWith_append (by simp)]
      have hfill : ∀ es mark uvs, mark + 255 * n < uvs.length →
          applyPatches w pw base (List.zipWith (entryOf pw) (List.replicate n 255) (List.replicate n 0#64) ++ es) mark uvs =
            applyPatches w pw base es (mark + 255 * n) uvs := by
        intro es mark uvs hm
        by_cases h0 : n = 0
        · subst h0; simp
        · have h255 : 255 < 2 ^ k := hg 255 (by
            simp only [List.append_assoc, List.mem_append, List.mem_replicate]; exact Or.inl ⟨h0, trivial⟩)
          have h8 : 8 ≤ k := by
            rcases Nat.lt_or_ge k 8 with h | h
            · have : 2 ^ k ≤ 2 ^ 7 := Nat.pow_le_pow_right (by omega) (by omega)
              omega
            · exact h
          exact applyPatches_fill w pw k hk h64 h8 base n es mark uvs hm
      rw [hfill _ _ _ (by simp; omega)]
      simp only [List.cons_append, List.nil_append, List.zipWith_cons_cons, List.map_cons]
      rw [applyPatches_entry w pw k hk h64 base r hrk _ hvp _ _ _ _ _ (by omega)]
      have hval : zigzag (((unZigzag (zigzag (base + (v &&& ((1#64 <<< w) - 1#64)))) - base) ||| ((v >>> w) <<< w)) + base) =
          zigzag (base + v) := by
        rw [unZigzag_zigzag, show base + (v &&& ((1#64 <<< w) - 1#64)) - base = (v &&& ((1#64 <<< w) - 1#64)) by grind,
          join_patch v w hw, show v + base = base + v by grind]
      rw [hval, show prev + 255 * n + r = i by omega]
      have := ih (i + 1) i (by omega) (pre ++ [zigzag (base + v)]) (by simp [hpre])
        (fun p hp' => hp p (by simp [hp'])) (fun g hg' => hg g (by simp [hg']))
      simp only [List.append_assoc, List.cons_append, List.nil_append] at this
      exact this
    · simp only [collectPatches, if_neg hv] at hp hg ⊢
      have := ih (i + 1) prev (by omega) (pre ++ [zigzag (base + v)]) (by simp [hpre]) hp hg
      simp only [List.append_assoc, List.cons_append, List.nil_append, List.map_cons] at this ⊢
      exact this

end Goorc
