import Verif.Proofs.IntTry
import Verif.Proofs.IntBlocks
import Verif.Proofs.EncPackage
/-
Lengths of the blocks of integer run-length encoding, version 2.
-/
namespace Goorc
namespace IntSize

theorem writeBits_size {st st' : BitState} {v : U64} {bits : Nat} {out : Bytes} (h : writeBits st v bits = .ok (st', out)) :
    st'.bitsLeft + 8 * out.length = st.bitsLeft + bits := by
  simp only [writeBits] at h
  split at h
  · cases h
  · obtain ⟨rfl, rfl⟩ := Prod.mk.inj (Res.ok.inj h)
    simp only [writeBytesLoop_length]
    omega

theorem writeBitsAll_size (bits : Nat) (vs : List U64) : ∀ (st st' : BitState) (out : Bytes),
    writeBitsAll st vs bits = .ok (st', out) → st'.bitsLeft + 8 * out.length = st.bitsLeft + vs.length * bits := by
  induction vs with
  | nil =>
    intro st st' out h
    simp only [writeBitsAll] at h
    obtain ⟨rfl, rfl⟩ := Prod.mk.inj (Res.ok.inj h)
    simp
  | cons v vs ih =>
    intro st st' out h
    simp only [writeBitsAll] at h
    obtain ⟨⟨s1, o1⟩, h1, h⟩ := Res.bind_eq_ok.mp h
    obtain ⟨⟨s2, o2⟩, h2, h⟩ := Res.bind_eq_ok.mp h
    obtain ⟨rfl, rfl⟩ := Prod.mk.inj (Res.ok.inj h)
    have e1 := writeBits_size h1
    have e2 := ih _ _ _ h2
    simp only [List.length_append, List.length_cons, Nat.succ_mul] at e2 ⊢
    omega

theorem writeLeft_size (st : BitState) : 8 * (writeLeftBits st).length ≤ 8 * st.bitsLeft ∧ (writeLeftBits st).length ≤ 1 := by
  simp only [writeLeftBits]
  split
  · constructor <;> simp <;> omega
  · simp

/-- Values written at one width from a fresh state, with the last bits, take no more than eight bytes each. -/
theorem packed_size {bits : Nat} (hb : bits ≤ 64) {vs : List U64} {st : BitState} {out : Bytes}
    (h : writeBitsAll forgetBits vs bits = .ok (st, out)) : out.length + (writeLeftBits st).length ≤ 8 * vs.length := by
  have e := writeBitsAll_size bits vs _ _ _ h
  have l := writeLeft_size st
  have hf : forgetBits.bitsLeft = 0 := rfl
  have hm : vs.length * bits ≤ vs.length * 64 := Nat.mul_le_mul_left _ hb
  rw [hf] at e
  omega

theorem maxWidth_le (w : U64 → Nat) (b : Nat) (hw : ∀ x, w x ≤ b) (vs : List U64) : maxWidth w vs ≤ b := by
  induction vs with
  | nil => simp [maxWidth]
  | cons v vs ih => simp only [maxWidth]; have := hw v; omega

theorem header2_size (e : Nat) (c : Byte) (l : Nat) : (header2 e c l).length = 2 := rfl

theorem direct_size {vs : List U64} {out : Bytes} (h : writeDirect vs = .ok out) : out.length ≤ 2 + 8 * vs.length := by
  simp only [writeDirect] at h
  obtain ⟨c, hc, h⟩ := Res.bind_eq_ok.mp h
  obtain ⟨⟨st, body⟩, hb, h⟩ := Res.bind_eq_ok.mp h
  obtain rfl := Res.ok.inj h
  have := packed_size (maxWidth_le _ 64 (fun x => (getAlignedWidth_cases x).2.1) vs) hb
  simp only [List.length_append, header2_size]
  omega

theorem packDeltas2_size : ∀ (n : Nat) (ds : List U64), ds.length ≤ n → (packDeltas2 ds).length ≤ ds.length := by
  intro n
  induction n with
  | zero => intro ds h; cases ds <;> simp_all [packDeltas2]
  | succ n ih =>
    intro ds h
    match ds with
    | [] => simp [packDeltas2]
    | [a] => simp [packDeltas2]
    | [a, b] => simp [packDeltas2]
    | [a, b, c] => simp [packDeltas2]
    | a :: b :: c :: d :: ds =>
      have := ih ds (by simp at h; omega)
      simp only [packDeltas2, List.length_cons]
      omega

theorem packDeltas4_size : ∀ (n : Nat) (ds : List U64), ds.length ≤ n → (packDeltas4 ds).length ≤ ds.length := by
  intro n
  induction n with
  | zero => intro ds h; cases ds <;> simp_all [packDeltas4]
  | succ n ih =>
    intro ds h
    match ds with
    | [] => simp [packDeltas4]
    | [a] => simp [packDeltas4]
    | a :: b :: ds =>
      have := ih ds (by simp at h; omega)
      simp only [packDeltas4, List.length_cons]
      omega

theorem flatMap_size (k : Nat) (ds : List U64) : (ds.flatMap fun d => beBytes d k).length = k * ds.length := by
  induction ds with
  | nil => simp
  | cons d ds ih => rw [List.flatMap_cons, List.length_append, ih, beBytes_length, List.length_cons, Nat.mul_succ]; omega

theorem packDeltas_size {w : Nat} {ds : List U64} {out : Bytes} (h : packDeltas w ds = .ok out) : out.length ≤ 8 * ds.length := by
  simp only [packDeltas] at h
  split at h
  · obtain rfl := Res.ok.inj h; simp
  · split at h
    · obtain rfl := Res.ok.inj h
      have := packDeltas2_size _ ds (Nat.le_refl _); omega
    · split at h
      · obtain rfl := Res.ok.inj h
        have := packDeltas4_size _ ds (Nat.le_refl _); omega
      · split at h
        · rename_i hw
          obtain rfl := Res.ok.inj h
          rw [flatMap_size]
          refine Nat.mul_le_mul_right _ ?_
          simp at hw
          omega
        · cases h

theorem putUvarint_size {x : U64} {out : Bytes} (h : putUvarint 8 x = .ok out) : out.length ≤ 8 := by
  simp only [putUvarint] at h
  split at h
  · obtain rfl := Res.ok.inj h; assumption
  · cases h

theorem putVarint_size {x : U64} {out : Bytes} (h : putVarint 8 x = .ok out) : out.length ≤ 8 := by
  simp only [putVarint] at h
  exact putUvarint_size h

theorem firstBytes_size {s : Bool} {x : U64} {out : Bytes} (h : firstBytes s x = .ok out) : out.length ≤ 8 := by
  simp only [firstBytes] at h
  split at h
  · exact putVarint_size h
  · exact putUvarint_size h

theorem delta_size {first out : Bytes} {b : U64} {l : BitVec 16} {ds : List U64} (hf : first.length ≤ 8)
    (h : writeDelta first b l ds = .ok out) : out.length ≤ 18 + 8 * ds.length := by
  simp only [writeDelta] at h
  obtain ⟨c, -, h⟩ := Res.bind_eq_ok.mp h
  obtain ⟨db, hdb, h⟩ := Res.bind_eq_ok.mp h
  obtain ⟨body, hb, h⟩ := Res.bind_eq_ok.mp h
  obtain rfl := Res.ok.inj h
  have := putVarint_size hdb
  have := packDeltas_size hb
  simp only [List.length_append, header2_size]
  omega

theorem shortRepeatBytes_size (x : U64) (n : Nat) : (shortRepeatBytes x n).2.length ≤ n := by
  induction n with
  | zero => simp [shortRepeatBytes]
  | succ n ih =>
    simp only [shortRepeatBytes]
    split
    · simp; omega
    · simp; omega

theorem short_size (c : Nat) (x : U64) : (writeShortRepeat c x).length ≤ 9 := by
  have := shortRepeatBytes_size x 8
  simp only [writeShortRepeat, List.length_cons]
  omega

/-! ### Patched blocks -/

theorem collectPatches_values (w : Nat) (vs : List U64) : ∀ i prev, (collectPatches w i prev vs).1.length = vs.length := by
  induction vs with
  | nil => intro i prev; rfl
  | cons v vs ih =>
    intro i prev
    simp only [collectPatches]
    split
    · simp [ih]
    · simp [ih]

theorem collectPatches_few (w : Nat) (vs : List U64) : ∀ i prev, i + vs.length ≤ 256 →
    (collectPatches w i prev vs).2.2.length ≤ vs.length := by
  induction vs with
  | nil => intro i prev _; simp [collectPatches]
  | cons v vs ih =>
    intro i prev h
    simp only [List.length_cons] at h
    simp only [collectPatches]
    split
    · have h1 : splitGap (i - prev) (i - prev) = [i - prev] := by
        cases hg : i - prev with
        | zero => rfl
        | succ n => simp only [splitGap]; rw [if_neg (by omega)]
      have := ih (i + 1) i (by omega)
      simp [h1]; omega
    · have := ih (i + 1) prev (by omega)
      simp only [List.length_cons]
      exact Nat.le_succ_of_le this

theorem splitGap_small (fuel : Nat) : ∀ g, g ≤ fuel → ∀ x ∈ splitGap fuel g, x ≤ 255 := by
  induction fuel with
  | zero => intro g hg x hx; simp [splitGap] at hx; omega
  | succ n ih =>
    intro g hg x hx
    simp only [splitGap] at hx
    split at hx
    · rcases List.mem_cons.mp hx with rfl | hx
      · omega
      · exact ih (g - 255) (by omega) x hx
    · simp at hx; omega

theorem collectPatches_gaps (w : Nat) (vs : List U64) : ∀ i prev, ∀ x ∈ (collectPatches w i prev vs).2.1, x ≤ 255 := by
  induction vs with
  | nil => intro i prev x hx; simp [collectPatches] at hx
  | cons v vs ih =>
    intro i prev x hx
    simp only [collectPatches] at hx
    split at hx
    · rcases List.mem_append.mp hx with hx | hx
      · exact splitGap_small _ _ (Nat.le_refl _) x hx
      · exact ih _ _ x hx
    · exact ih _ _ x hx

theorem collectPatches_width (w : Nat) (vs : List U64) : ∀ i prev, ∀ x ∈ (collectPatches w i prev vs).2.2, getBitsWidth x ≤ 64 - w := by
  induction vs with
  | nil => intro i prev x hx; simp [collectPatches] at hx
  | cons v vs ih =>
    intro i prev x hx
    simp only [collectPatches] at hx
    split at hx
    · rename_i hw
      rcases List.mem_append.mp hx with hx | hx
      · obtain ⟨-, rfl⟩ := List.mem_replicate.mp hx
        have : getBitsWidth 0#64 = 0 := (getBitsWidth_eq_zero _).mpr rfl
        omega
      · rcases List.mem_cons.mp hx with rfl | hx
        · have h64 := getBitsWidth_le v
          rw [getBitsWidth_le_iff, BitVec.toNat_ushiftRight, Nat.shiftRight_eq_div_pow]
          rw [Nat.div_lt_iff_lt_mul (Nat.two_pow_pos _), ← Nat.pow_add, Nat.sub_add_cancel (by omega)]
          exact v.isLt
        · exact ih _ _ x hx
    · exact ih _ _ x hx

theorem maxWidth_le_of (w : U64 → Nat) (b : Nat) (vs : List U64) (hw : ∀ x ∈ vs, w x ≤ b) : maxWidth w vs ≤ b := by
  induction vs with
  | nil => simp [maxWidth]
  | cons v vs ih =>
    simp only [maxWidth]
    have := hw v (by simp)
    have := ih fun x hx => hw x (by simp [hx])
    omega

/-- How many widths are at most `w`. -/
def within (ws : List Nat) (w : Nat) : Nat := (ws.filter (· ≤ w)).length

theorem within_succ (ws : List Nat) (i : Nat) : (ws.filter (· < i)).length + (ws.filter (· = i)).length = within ws i := by
  simp only [within]
  induction ws with
  | nil => rfl
  | cons x xs ih =>
    simp only [List.filter_cons, decide_eq_true_eq]
    rcases Nat.lt_trichotomy x i with h | h | h
    · rw [if_pos h, if_neg (by omega), if_pos (by omega)]; simp only [List.length_cons]; omega
    · rw [if_neg (by omega), if_pos h, if_pos (by omega)]; simp only [List.length_cons]; omega
    · rw [if_neg (by omega), if_neg (by omega), if_neg (by omega)]; exact ih

/-- The width found covers nine values in ten, while no count overflows a byte. -/
theorem findP90_covers (ws : List Nat) (q : Nat) (hn : ws.length < 256) (hw : ∀ x ∈ ws, x ≤ 64) (hq : q ≤ ws.length) :
    ∀ fuel i l, fuel + i = 65 → l = (ws.filter (· < i)).length → l < q → q ≤ within ws (findP90 ws q fuel i l) := by
  intro fuel
  induction fuel with
  | zero =>
    intro i l hi hl hlt
    have : ws.filter (· < i) = ws := List.filter_eq_self.mpr fun x hx => by have := hw x hx; simp; omega
    rw [this] at hl
    omega
  | succ n ih =>
    intro i l hi hl hlt
    have hh : widthHist ws i = (ws.filter (· = i)).length := by
      have := List.length_filter_le (fun x => decide (x = i)) ws
      simp only [widthHist]; omega
    have hs := within_succ ws i
    simp only [findP90]
    split
    · omega
    · rename_i hc
      refine ih (i + 1) _ (by omega) ?_ ?_
      · have : (ws.filter (· < i + 1)).length = within ws i := by
          simp only [within]; congr 1; apply List.filter_congr; intro x _; simp; omega
        omega
      · by_cases h0 : widthHist ws i = 0
        · omega
        · have : ¬ (l + widthHist ws i ≥ q) := fun h => hc ⟨h, h0⟩
          omega

theorem collectPatches_count (w : Nat) (vs : List U64) : ∀ i prev, i + vs.length ≤ 256 →
    (collectPatches w i prev vs).2.2.length + within (vs.map getBitsWidth) w = vs.length := by
  induction vs with
  | nil => intro i prev _; simp [collectPatches, within]
  | cons v vs ih =>
    intro i prev h
    simp only [List.length_cons] at h
    simp only [collectPatches, within, List.map_cons, List.filter_cons, decide_eq_true_eq]
    split
    · rename_i hv
      have h1 : splitGap (i - prev) (i - prev) = [i - prev] := by
        cases hg : i - prev with
        | zero => rfl
        | succ n => simp only [splitGap]; rw [if_neg (by omega)]
      have := ih (i + 1) i (by omega)
      simp only [within] at this
      rw [if_neg (by omega)]
      rcases hcp : collectPatches w (i + 1) i vs with ⟨x, y, z⟩
      rw [hcp] at this
      simp only at this
      simp only [h1, List.length_append, List.length_replicate, List.length_cons, List.length_nil]
      omega
    · have := ih (i + 1) prev (by omega)
      simp only [within] at this
      rw [if_pos (by omega)]
      rcases hcp : collectPatches w (i + 1) prev vs with ⟨x, y, z⟩
      rw [hcp] at this
      simp only at this ⊢
      simp only [List.length_cons]
      omega

theorem minSigned_mem (vs : List U64) : ∀ m, minSigned m vs = m ∨ minSigned m vs ∈ vs := by
  induction vs with
  | nil => intro m; exact Or.inl rfl
  | cons v vs ih =>
    intro m
    simp only [minSigned]
    rcases ih (if v.toInt < m.toInt then v else m) with h | h
    · rw [h]
      split
      · exact Or.inr (by simp)
      · exact Or.inl rfl
    · exact Or.inr (by simp [h])

/-- What `tryPatch` hands on: as many values as it was given, no more patches than values, gaps of at most eight bits and patches of
the bits the values do not have. -/
theorem tryPatch_sizes {vs : List U64} {pvs : PatchedValues} (h : tryPatch vs = .ok (some pvs)) :
    2 ≤ vs.length ∧ pvs.count = vs.length ∧ pvs.values.length = vs.length ∧ pvs.patches.length ≤ vs.length ∧
      maxWidth getBitsWidth (pvs.gaps.map (BitVec.ofNat 64)) ≤ 8 ∧ maxWidth getBitsWidth pvs.patches ≤ 64 - pvs.width ∧
      pvs.width < 64 ∧ (vs.length ≤ 4 → pvs.patches.length ≤ 1) ∧ (vs.length = 2 → pvs.width = 0) := by
  match vs with
  | [] => simp [tryPatch] at h
  | [a] => simp [tryPatch] at h
  | a :: b :: vs =>
    simp only [tryPatch] at h
    split at h
    · rename_i hmax
      split at h
      · cases h
      · rename_i hp
        have h := Option.some.inj (Res.ok.inj h)
        subst h
        refine ⟨by simp, rfl, ?_, ?_, ?_, ?_, ?_, ?_, ?_⟩
        · simp [collectPatches_values]
        · simp only at hp ⊢
          by_cases hl : (a :: b :: vs).length ≤ 256
          · refine Nat.le_trans (collectPatches_few _ _ _ _ ?_) ?_
            · simpa using hl
            · simp
          · omega
        · refine maxWidth_le_of _ _ _ fun x hx => ?_
          obtain ⟨g, hg, rfl⟩ := List.mem_map.mp hx
          have := collectPatches_gaps _ _ _ _ g hg
          rw [getBitsWidth_le_iff, BitVec.toNat_ofNat]
          omega
        · exact maxWidth_le_of _ _ _ fun x hx => collectPatches_width _ _ _ _ x hx
        · exact Nat.lt_of_lt_of_le hmax (maxWidth_le _ 64 getBitsWidth_le _)
        · intro h4
          generalize hd : List.map (fun v => unZigzag v - minSigned (unZigzag a) (List.map unZigzag (b :: vs))) (a :: b :: vs) = ds
          have hl : ds.length = (a :: b :: vs).length := by rw [← hd, List.length_map]
          have h2 : 2 ≤ (a :: b :: vs).length := by simp
          generalize (a :: b :: vs).length = n at *
          have g1 := collectPatches_count (findP90 (ds.map getBitsWidth) (n * 9 / 10) 65 0 0) ds 0 0 (by omega)
          have g2 := findP90_covers (ds.map getBitsWidth) (n * 9 / 10) (by rw [List.length_map]; omega)
            (fun x hx => by obtain ⟨u, -, rfl⟩ := List.mem_map.mp hx; exact getBitsWidth_le u)
            (by rw [List.length_map]; omega) 65 0 0 rfl (by symm; rw [List.length_eq_zero_iff]; apply List.filter_eq_nil_iff.mpr; intro x _; simp) (by omega)
          rcases hcp : collectPatches (findP90 (ds.map getBitsWidth) (n * 9 / 10) 65 0 0) 0 0 ds with ⟨x, y, z⟩
          rw [hcp] at g1
          simp only at g1 ⊢
          omega
        · intro h2
          rw [h2]
          simp only [Nat.reduceMul, Nat.reduceDiv]
          generalize hd : List.map (fun v => unZigzag v - minSigned (unZigzag a) (List.map unZigzag (b :: vs))) (a :: b :: vs) = ds
          have hz : (0 : U64) ∈ ds := by
            rw [← hd]
            rcases minSigned_mem (List.map unZigzag (b :: vs)) (unZigzag a) with h | h
            · exact List.mem_map.mpr ⟨a, by simp, by rw [h]; simp⟩
            · obtain ⟨u, hu, he⟩ := List.mem_map.mp h
              exact List.mem_map.mpr ⟨u, List.mem_cons_of_mem _ hu, by rw [he]; simp⟩
          have hl : ds.length = 2 := by rw [← hd, List.length_map, h2]
          have h0 : 0 ∈ (ds.map getBitsWidth).filter (· = 0) := by
            refine List.mem_filter.mpr ⟨List.mem_map.mpr ⟨0, hz, (getBitsWidth_eq_zero _).mpr rfl⟩, by simp⟩
          have hpos := List.length_pos_of_mem h0
          have hle := List.length_filter_le (fun x => decide (x = 0)) (ds.map getBitsWidth)
          rw [List.length_map, hl] at hle
          have hh : widthHist (ds.map getBitsWidth) 0 = ((ds.map getBitsWidth).filter (· = 0)).length := by
            simp only [widthHist]; omega
          rw [findP90, if_pos (by omega)]
    · cases h

theorem packed_size_bits {bits : Nat} {vs : List U64} {st : BitState} {out : Bytes}
    (h : writeBitsAll forgetBits vs bits = .ok (st, out)) : 8 * (out.length + (writeLeftBits st).length) ≤ vs.length * bits + 7 := by
  have e := writeBitsAll_size bits vs _ _ _ h
  have l := writeLeft_size st
  have hf : forgetBits.bitsLeft = 0 := rfl
  rw [hf] at e
  omega

/-- A patched block takes at most twelve bytes for each value. -/
theorem patch_size {pvs : PatchedValues} {n : Nat} {out : Bytes} (hv : pvs.values.length = n) (hp : pvs.patches.length ≤ n)
    (hg : maxWidth getBitsWidth (pvs.gaps.map (BitVec.ofNat 64)) ≤ 8) (hw : maxWidth getBitsWidth pvs.patches ≤ 64 - pvs.width)
    (h2 : 2 ≤ n) (hw64 : pvs.width < 64) (hp1 : n ≤ 4 → pvs.patches.length ≤ 1) (hw0 : n = 2 → pvs.width = 0)
    (h : writePatch pvs = .ok out) : out.length ≤ 12 * n := by
  simp only [writePatch] at h
  obtain ⟨c, hc, h⟩ := Res.bind_eq_ok.mp h
  obtain ⟨pw, hpw, h⟩ := Res.bind_eq_ok.mp h
  obtain ⟨⟨st, body⟩, hb, h⟩ := Res.bind_eq_ok.mp h
  simp only at h
  split at h
  · cases h
  · obtain ⟨⟨st2, body2⟩, hb2, h⟩ := Res.bind_eq_ok.mp h
    obtain rfl := Res.ok.inj h
    have h64 : pvs.width ≤ 30 ∨ pvs.width = 32 ∨ pvs.width = 40 ∨ pvs.width = 48 ∨ pvs.width = 56 := by
      have := (widthEncoding_ok_iff _).mp ⟨c, hc⟩
      simp at this
      omega
    have e1 := packed_size_bits hb
    have e2 := packed_size_bits hb2
    have e3 := getBitsWidth_le (if pvs.base.msb = true then -pvs.base else pvs.base)
    simp only [List.length_zipWith] at e2
    rw [hv] at e1
    have e4 : min pvs.gaps.length pvs.patches.length * (maxWidth getBitsWidth (pvs.gaps.map (BitVec.ofNat 64)) + maxWidth getBitsWidth pvs.patches)
        ≤ n * (72 - pvs.width) := Nat.mul_le_mul (by omega) (by omega)
    have e5 : n * (72 - pvs.width) + n * pvs.width = n * 72 := by rw [← Nat.mul_add]; congr 1; omega
    have e6 : n ≤ 4 → min pvs.gaps.length pvs.patches.length * (maxWidth getBitsWidth (pvs.gaps.map (BitVec.ofNat 64)) + maxWidth getBitsWidth pvs.patches)
        ≤ 1 * (72 - pvs.width) := fun h4 => Nat.mul_le_mul (by have := hp1 h4; omega) (by omega)
    simp only [List.length_append, baseBytes, beBytes_length, List.length_cons, List.length_nil]
    by_cases h4 : n ≤ 4
    · have e6 := e6 h4
      have : n = 2 ∨ n = 3 ∨ n = 4 := by omega
      rcases this with rfl | rfl | rfl
      · have := hw0 rfl; omega
      · omega
      · omega
    · omega

/-! ### One write -/

/-- Bytes a value may cost. -/
def cost (signed : Bool) : Nat := if signed then 12 else 10

theorem cost_ge (signed : Bool) : 10 ≤ cost signed := by cases signed <;> decide

/-- The first three values start neither a repeat nor a delta run: then nothing is written before a flush except a patched block. -/
def Stuck (signed : Bool) (vs : List U64) : Prop :=
  ∃ a b c t, vs = a :: b :: c :: t ∧ ¬ (b = a ∧ c = a) ∧ tryDelta signed [a, b, c] = none

/-- No more values than one block holds, or stuck. -/
def Fine (signed : Bool) (vs : List U64) : Prop := vs.length ≤ 512 ∨ Stuck signed vs

theorem tryDelta_none_iff (signed : Bool) (a b c : U64) (t : List U64) :
    tryDelta signed (a :: b :: c :: t) = none ↔ tryDelta signed [a, b, c] = none := by
  simp only [tryDelta]
  split
  · simp
  · split <;> simp

theorem stuck_append {signed : Bool} {vs : List U64} (h : Stuck signed vs) (us : List U64) : Stuck signed (vs ++ us) := by
  obtain ⟨a, b, c, t, rfl, h1, h2⟩ := h
  exact ⟨a, b, c, t ++ us, rfl, h1, h2⟩

theorem repeats_le {vs : List U64} {n : Nat} (h : getRepeats vs = .ok n) : n ≤ vs.length := by
  cases vs with
  | nil => cases h
  | cons x vs =>
    simp only [getRepeats] at h
    obtain rfl := Res.ok.inj h
    have : ∀ us : List U64, countEq x us ≤ us.length := by
      intro us
      induction us with
      | nil => simp [countEq]
      | cons u us ih => simp only [countEq, List.length_cons]; split <;> omega
    have := this vs
    simp only [List.length_cons]; omega

theorem repeats_few {a b c : U64} {t : List U64} {n : Nat} (h : getRepeats (a :: b :: c :: t) = .ok n) :
    n < 3 ↔ ¬ (b = a ∧ c = a) := by
  simp only [getRepeats] at h
  obtain rfl := Res.ok.inj h
  simp only [countEq]
  by_cases h1 : b = a
  · by_cases h2 : c = a <;> simp [h1, h2]
  · simp [h1]

theorem stuck_delta {signed : Bool} {vs : List U64} (h : Stuck signed vs) : tryDelta signed vs = none := by
  obtain ⟨a, b, c, t, rfl, -, h2⟩ := h
  exact (tryDelta_none_iff ..).mpr h2

/-- One step of `write` on the values `vs`: what it writes costs no more than the values it takes away. -/
theorem step_size {signed toEnd : Bool} {vs rest : List U64} {out : Bytes} (hf : Fine signed vs)
    (h : writeStep signed toEnd vs = .ok (out, rest)) :
    out.length + cost signed * rest.length ≤ cost signed * vs.length ∧
      (rest.length < vs.length ∨ (toEnd = false ∧ rest = vs ∧ (3 ≤ vs.length → Stuck signed vs))) ∧
      (toEnd = true → Stuck signed vs → rest = []) ∧
      (toEnd = false → Stuck signed vs → rest = [] ∨ rest = vs) := by
  simp only [writeStep] at h
  obtain ⟨n, hn, h⟩ := Res.bind_eq_ok.mp h
  have hnl := repeats_le hn
  have hc := cost_ge signed
  have hvs : vs ≠ [] := by rintro rfl; simp [getRepeats] at hn
  have hpos : 0 < vs.length := List.length_pos_iff.mpr hvs
  have hnostuck : 3 ≤ n → ¬ Stuck signed vs := by
    rintro h3 ⟨a, b, c, t, rfl, hx, -⟩
    exact absurd ((repeats_few hn).mpr hx) (by omega)
  -- taking away `k` values for `o` bytes
  have key : ∀ (o k : Nat), k ≤ vs.length → o ≤ cost signed * k →
      o + cost signed * (vs.length - k) ≤ cost signed * vs.length := by
    intro o k hk ho
    have : cost signed * vs.length = cost signed * k + cost signed * (vs.length - k) := by
      rw [← Nat.mul_add]; congr 1; omega
    omega
  have ten : ∀ k, 10 * k ≤ cost signed * k := fun k => Nat.mul_le_mul_right _ hc
  split at h
  · rename_i h3
    split at h
    · obtain ⟨rfl, rfl⟩ := Prod.mk.inj (Res.ok.inj h)
      have := short_size (n - 3) (vs.headD 0)
      have := ten n
      refine ⟨?_, Or.inl ?_, fun _ hs => absurd hs (hnostuck h3), fun _ hs => absurd hs (hnostuck h3)⟩
      · rw [List.length_drop]; exact key _ n hnl (by omega)
      · rw [List.length_drop]; omega
    · obtain ⟨first, hfi, h⟩ := Res.bind_eq_ok.mp h
      obtain ⟨o, ho, h⟩ := Res.bind_eq_ok.mp h
      obtain ⟨rfl, rfl⟩ := Prod.mk.inj (Res.ok.inj h)
      have := delta_size (firstBytes_size hfi) ho
      simp only [List.length_nil] at this
      have := ten n
      refine ⟨?_, Or.inl ?_, fun _ hs => absurd hs (hnostuck h3), fun _ hs => absurd hs (hnostuck h3)⟩
      · rw [List.length_drop]; exact key _ n hnl (by omega)
      · rw [List.length_drop]; omega
  · rename_i h3
    obtain ⟨⟨o, r⟩, ho, h⟩ := Res.bind_eq_ok.mp h
    -- the middle part
    have mid : o.length + cost signed * r.length ≤ cost signed * vs.length ∧
        (r.length < vs.length ∨ (r = vs ∧ o = [] ∧ tryDelta signed vs = none)) ∧
        (Stuck signed vs → r = [] ∨ r = vs) := by
      split at ho
      · rename_i dv hdv
        have hns : ¬ Stuck signed vs := by
          intro hs; rw [stuck_delta hs] at hdv; cases hdv
        have hlen : vs.length ≤ 512 := hf.resolve_right hns
        obtain ⟨first, hfi, ho⟩ := Res.bind_eq_ok.mp ho
        obtain ⟨o1, ho1, ho⟩ := Res.bind_eq_ok.mp ho
        obtain ⟨rfl, rfl⟩ := Prod.mk.inj (Res.ok.inj ho)
        obtain ⟨v0, v1, t, rfl, hne, hl, hle, -⟩ := tryDelta_spec signed vs dv hdv
        have := delta_size (firstBytes_size hfi) ho1
        have hd : 0 < dv.deltas.length := List.length_pos_iff.mpr hne
        simp only [List.length_cons] at hlen
        have hk : dv.length.toNat = dv.deltas.length + 2 := by
          rw [hl, BitVec.toNat_ofNat]; omega
        have := ten (dv.deltas.length + 2)
        refine ⟨?_, Or.inl ?_, fun hs => absurd hs hns⟩
        · rw [List.length_drop, hk]
          exact key _ _ (by simp only [List.length_cons]; omega) (by omega)
        · rw [List.length_drop, hk]; simp only [List.length_cons]; omega
      · rename_i hdv
        split at ho
        · rename_i hsg
          obtain ⟨r1, hr1, ho⟩ := Res.bind_eq_ok.mp ho
          cases r1 with
          | none =>
            obtain ⟨rfl, rfl⟩ := Prod.mk.inj (Res.ok.inj ho)
            exact ⟨by simp, Or.inr ⟨rfl, rfl, hdv⟩, fun _ => Or.inr rfl⟩
          | some pvs =>
            obtain ⟨o1, ho1, ho⟩ := Res.bind_eq_ok.mp ho
            obtain ⟨rfl, rfl⟩ := Prod.mk.inj (Res.ok.inj ho)
            obtain ⟨g1, g2, g3, g4, g6, g7, g8, g9, g10⟩ := tryPatch_sizes hr1
            have g5 := patch_size g3 g4 g6 g7 g1 g8 g9 g10 ho1
            have hc12 : cost signed = 12 := by rw [hsg]; rfl
            refine ⟨?_, Or.inl ?_, fun _ => Or.inl ?_⟩
            · rw [List.length_drop, g2, hc12]; omega
            · rw [List.length_drop, g2]; omega
            · rw [g2]; exact List.drop_length
        · obtain ⟨rfl, rfl⟩ := Prod.mk.inj (Res.ok.inj ho)
          exact ⟨by simp, Or.inr ⟨rfl, rfl, hdv⟩, fun _ => Or.inr rfl⟩
    obtain ⟨m1, m2, m3⟩ := mid
    simp only at h
    split at h
    · rename_i hte
      obtain ⟨o', ho', h⟩ := Res.bind_eq_ok.mp h
      obtain ⟨rfl, rfl⟩ := Prod.mk.inj (Res.ok.inj h)
      have := direct_size ho'
      have hr : 0 < r.length := List.length_pos_iff.mpr hte.2
      have := ten r.length
      refine ⟨?_, Or.inl hpos, fun _ _ => rfl, fun _ _ => Or.inl rfl⟩
      simp only [List.length_append, List.length_nil]
      omega
    · rename_i hte
      obtain ⟨rfl, rfl⟩ := Prod.mk.inj (Res.ok.inj h)
      refine ⟨m1, ?_, ?_, fun _ => m3⟩
      · rcases m2 with m2 | ⟨rfl, -, m2⟩
        · exact Or.inl m2
        · refine Or.inr ⟨?_, rfl, ?_⟩
          · cases toEnd with
            | false => rfl
            | true => exact absurd ⟨rfl, hvs⟩ hte
          · intro hl
            match r, hl with
            | a :: b :: c :: t, _ =>
              exact ⟨a, b, c, t, rfl, (repeats_few hn).mp (by omega), (tryDelta_none_iff ..).mp m2⟩
      · intro ht hs
        rcases m3 hs with m3 | m3
        · exact m3
        · exact absurd ⟨ht, m3 ▸ hvs⟩ hte

theorem loop_size {signed : Bool} : ∀ (fuel : Nat) (vs rest : List U64) (out : Bytes), Fine signed vs →
    writeLoop signed fuel vs = .ok (out, rest) → out.length ≤ cost signed * vs.length ∧ rest = [] := by
  intro fuel
  induction fuel with
  | zero =>
    intro vs rest out hf h
    cases vs with
    | nil => simp only [writeLoop] at h; obtain ⟨rfl, rfl⟩ := Prod.mk.inj (Res.ok.inj h); simp
    | cons v vs => simp [writeLoop] at h
  | succ n ih =>
    intro vs rest out hf h
    cases vs with
    | nil => simp only [writeLoop] at h; obtain ⟨rfl, rfl⟩ := Prod.mk.inj (Res.ok.inj h); simp
    | cons v vs =>
      simp only [writeLoop] at h
      obtain ⟨⟨o1, r1⟩, h1, h⟩ := Res.bind_eq_ok.mp h
      obtain ⟨⟨o2, r2⟩, h2, h⟩ := Res.bind_eq_ok.mp h
      obtain ⟨rfl, rfl⟩ := Prod.mk.inj (Res.ok.inj h)
      obtain ⟨g1, g2, g3, -⟩ := step_size hf h1
      have hlt : r1.length < (v :: vs).length := by
        rcases g2 with g2 | ⟨g2, -⟩
        · exact g2
        · cases g2
      have hf1 : Fine signed r1 := by
        rcases hf with hf | hf
        · exact Or.inl (by omega)
        · rw [g3 rfl hf]; exact Or.inl (by simp)
      obtain ⟨k1, k2⟩ := ih r1 r2 o2 hf1 h2
      refine ⟨?_, k2⟩
      simp only [List.length_append]
      omega

/-- The states an encoder reaches: fewer values pending than fill a block, or stuck. -/
def Pending (signed : Bool) (vs : List U64) : Prop := vs.length < 512 ∨ Stuck signed vs

theorem encode_size {e e' : IntEnc} {v : GoVal} {out : Bytes} (hp : Pending e.signed e.values)
    (h : e.encode v = .ok (e', out)) :
    out.length + cost e.signed * e'.values.length ≤ cost e.signed * (e.values.length + 1) ∧ e'.signed = e.signed ∧
      Pending e.signed e'.values := by
  simp only [IntEnc.encode] at h
  obtain ⟨x, -, h⟩ := Res.bind_eq_ok.mp h
  obtain ⟨⟨o, r⟩, ho, h⟩ := Res.bind_eq_ok.mp h
  obtain ⟨rfl, rfl⟩ := Prod.mk.inj (Res.ok.inj h)
  simp only
  have hlen : (e.values ++ [x]).length = e.values.length + 1 := by simp
  split at ho
  · rename_i h512
    simp only [maxIntRunLength] at h512
    simp only [intWrite] at ho
    rw [if_neg (by omega), if_neg (by simp)] at ho
    have hf : Fine e.signed (e.values ++ [x]) := by
      rcases hp with hp | hp
      · exact Or.inl (by omega)
      · exact Or.inr (stuck_append hp _)
    obtain ⟨g1, g2, -, g4⟩ := step_size hf ho
    rw [hlen] at g1
    refine ⟨g1, trivial, ?_⟩
    rcases g2 with g2 | ⟨-, rfl, g2⟩
    · rcases hf with hf | hf
      · exact Or.inl (by omega)
      · rcases g4 rfl hf with rfl | rfl
        · exact Or.inl (by simp)
        · exact Or.inr hf
    · exact Or.inr (g2 (by omega))
  · rename_i h512
    obtain ⟨rfl, rfl⟩ := Prod.mk.inj (Res.ok.inj ho)
    simp only [maxIntRunLength] at h512
    refine ⟨by rw [hlen]; simp, trivial, Or.inl (by omega)⟩

theorem flush_size {e e' : IntEnc} {out : Bytes} (hp : Pending e.signed e.values) (h : e.flush = .ok (e', out)) :
    out.length ≤ cost e.signed * e.values.length ∧ e'.signed = e.signed ∧ e'.values = [] := by
  simp only [IntEnc.flush] at h
  split at h
  · obtain ⟨rfl, rfl⟩ := Prod.mk.inj (Res.ok.inj h)
    exact ⟨by simp, rfl, by assumption⟩
  · rename_i hne
    obtain ⟨⟨o, r⟩, ho, h⟩ := Res.bind_eq_ok.mp h
    obtain ⟨rfl, rfl⟩ := Prod.mk.inj (Res.ok.inj h)
    simp only [intWrite] at ho
    split at ho
    · obtain ⟨o1, ho1, ho⟩ := Res.bind_eq_ok.mp ho
      obtain ⟨rfl, rfl⟩ := Prod.mk.inj (Res.ok.inj ho)
      have := direct_size ho1
      have hpos : 0 < e.values.length := List.length_pos_iff.mpr hne
      have : 10 * e.values.length ≤ cost e.signed * e.values.length := Nat.mul_le_mul_right _ (cost_ge _)
      exact ⟨by simp only; omega, rfl, rfl⟩
    · rw [if_pos trivial] at ho
      have hf : Fine e.signed e.values := by
        rcases hp with hp | hp
        · exact Or.inl (by omega)
        · exact Or.inr hp
      obtain ⟨g1, g2⟩ := loop_size _ _ _ _ hf ho
      exact ⟨g1, rfl, g2⟩

end IntSize
end Goorc
