import Verif.Props.ColumnStats
import Verif.Props.Column
/-
C47: writing with the row index enabled.
-/
namespace Goorc

section
variable {δ κ : Type} (K : LeafKind δ κ) (c : Codec) (o : COpts)

theorem LeafKind.runOps_append (a b : List ColOp) (w : ColWriter δ κ) :
    K.runOps c o w (a ++ b) = (K.runOps c o w a >>= fun w => K.runOps c o w b) := by
  induction a generalizing w with
  | nil => rfl
  | cons op a ih =>
    cases op <;> simp only [List.cons_append, runOps, Res.bind_assoc, ih]

theorem LeafKind.reset_index (hi : o.writeIndex = true) {w w' : ColWriter δ κ} (h : K.reset o w = .ok w') :
    w'.indexStats = some ⟨none, false, 0, 0⟩ ∧ w'.indexInRows = 0 ∧ w'.index = [] := by
  simp only [reset] at h
  obtain ⟨p, h1, h⟩ := Res.bind_eq_ok.mp h
  obtain ⟨w1, h2, h⟩ := Res.bind_eq_ok.mp h
  obtain ⟨d, h3, h⟩ := Res.bind_eq_ok.mp h
  simp only [Res.pure_eq, Res.ok.injEq] at h
  subst h
  rw [if_pos hi] at h2
  cases his : w.indexStats with
  | none => simp [his] at h2
  | some is =>
    simp only [his, Res.pure_eq, Res.ok.injEq] at h2
    subst h2
    exact ⟨rfl, rfl, rfl⟩

/-- Nulls after a reset leave the index statistics without their type-specific part until the row group is full. -/
theorem LeafKind.nulls_index (hi : o.writeIndex = true) (ha : K.indexAllRows = true) (nulls : List Value) (hn : ∀ v ∈ nulls, v.null = true)
    (w w' : ColWriter δ κ) (n : Nat) (h1 : ∃ is, w.indexStats = some is ∧ is.typed = none) (h2 : w.indexInRows = n)
    (h3 : n + nulls.length < o.stride) (h : K.runOps c o w (nulls.map .write) = .ok w') :
    (∃ is, w'.indexStats = some is ∧ is.typed = none) ∧ w'.indexInRows = n + nulls.length := by
  induction nulls generalizing w n with
  | nil =>
    simp only [List.map_nil, runOps, Res.ok.injEq] at h
    subst h
    exact ⟨h1, by simp [h2]⟩
  | cons v nulls ih =>
    simp only [List.map_cons, runOps] at h
    obtain ⟨w1, e1, h⟩ := Res.bind_eq_ok.mp h
    have hv := hn v List.mem_cons_self
    simp only [List.length_cons] at h3
    have : (∃ is, w1.indexStats = some is ∧ is.typed = none) ∧ w1.indexInRows = n + 1 := by
      simp only [write] at e1
      obtain ⟨w2, e2, e1⟩ := Res.bind_eq_ok.mp e1
      obtain ⟨p, rfl⟩ := writePresent_frame c o e2
      simp only [hv, if_true, Res.pure_eq, Res.ok_bind] at e1
      rw [if_pos ⟨hi, Or.inl ha⟩] at e1
      obtain ⟨is, i1, i2⟩ := h1
      have hlt : ¬ (w.indexInRows + 1 ≥ o.stride) := by omega
      simp only [indexRow, i1, if_neg hlt, hv, if_true, Res.pure_eq, Res.ok.injEq] at e1
      subst e1
      exact ⟨⟨is, rfl, i2⟩, by simp [h2]⟩
    obtain ⟨k1, k2⟩ := ih (fun x hx => hn x (List.mem_cons_of_mem _ hx)) w1 (n + 1) this.1 this.2 (by omega) h
    exact ⟨k1, by rw [k2, List.length_cons]; omega⟩

/-- A type whose index code cannot do without its statistics: after any history that ends with a reset, and any number of
nulls that do not fill the first row group, writing a value does not succeed. -/
theorem LeafKind.second_stripe (hK : ∀ t v, K.addIndex t none v = .panic) (ha : K.indexAllRows = true) (hi : o.writeIndex = true)
    (hasNulls : Bool) (ops : List ColOp) (nulls : List Value) (hn : ∀ v ∈ nulls, v.null = true) (hl : nulls.length + 1 < o.stride)
    (w : ColWriter δ κ) (h : K.runOps c o (K.newWriter o hasNulls) (ops ++ .reset :: nulls.map .write) = .ok w) (v : GoVal) :
    (K.write c o w ⟨false, v⟩).isOk = false := by
  rw [K.runOps_append] at h
  obtain ⟨w0, -, h⟩ := Res.bind_eq_ok.mp h
  simp only [runOps] at h
  obtain ⟨w1, h1, h⟩ := Res.bind_eq_ok.mp h
  obtain ⟨g1, g2, -⟩ := K.reset_index o hi h1
  obtain ⟨⟨is, k1, k2⟩, k3⟩ := K.nulls_index c o hi ha nulls hn w1 w 0 ⟨_, g1, rfl⟩ g2 (by omega) h
  cases hw : K.write c o w ⟨false, v⟩ with
  | ok w' =>
    simp only [write] at hw
    obtain ⟨w2, e2, hw⟩ := Res.bind_eq_ok.mp hw
    obtain ⟨p, rfl⟩ := writePresent_frame c o e2
    obtain ⟨w3, e3, hw⟩ := Res.bind_eq_ok.mp hw
    simp only [Bool.false_eq_true, if_false, writeNonNull] at e3
    obtain ⟨d, e4, e3⟩ := Res.bind_eq_ok.mp e3
    cases ht : w.stats.typed with
    | none => simp [ht] at e3
    | some t =>
      simp only [ht] at e3
      obtain ⟨t1, e5, e3⟩ := Res.bind_eq_ok.mp e3
      simp only [Res.pure_eq, Res.ok.injEq] at e3
      subst e3
      rw [if_pos ⟨hi, Or.inl ha⟩] at hw
      have hlt : ¬ (w.indexInRows + 1 ≥ o.stride) := by omega
      simp only [indexRow, k1, if_neg hlt, Bool.false_eq_true, if_false, k2, hK, Res.panic_bind] at hw
      cases hw
  | err _ => rfl
  | panic => rfl
  | hang => rfl

end

/-- **C47** is false in the second stripe: whatever was written before the reset, the first value of a tinyint, boolean,
integer, double, string or binary column among the first rows of the stripe cannot be written (`index_panics` shows that
this is a panic). -/
theorem index_second_stripe (c : Codec) (o : COpts) (hi : o.writeIndex = true) (hasNulls : Bool) (ops : List ColOp) (nulls : List Value)
    (hn : ∀ v ∈ nulls, v.null = true) (hl : nulls.length + 1 < o.stride) (v : GoVal) :
    (∀ w, byteKind.runOps c o (byteKind.newWriter o hasNulls) (ops ++ .reset :: nulls.map .write) = .ok w →
      (byteKind.write c o w ⟨false, v⟩).isOk = false) ∧
    (∀ w, boolKind.runOps c o (boolKind.newWriter o hasNulls) (ops ++ .reset :: nulls.map .write) = .ok w →
      (boolKind.write c o w ⟨false, v⟩).isOk = false) ∧
    (∀ bits w, (intKind bits).runOps c o ((intKind bits).newWriter o hasNulls) (ops ++ .reset :: nulls.map .write) = .ok w →
      ((intKind bits).write c o w ⟨false, v⟩).isOk = false) ∧
    (∀ A is64 w, (floatKind A is64).runOps c o ((floatKind A is64).newWriter o hasNulls) (ops ++ .reset :: nulls.map .write) = .ok w →
      ((floatKind A is64).write c o w ⟨false, v⟩).isOk = false) ∧
    (∀ w, stringKind.runOps c o (stringKind.newWriter o hasNulls) (ops ++ .reset :: nulls.map .write) = .ok w →
      (stringKind.write c o w ⟨false, v⟩).isOk = false) ∧
    (∀ w, binaryKind.runOps c o (binaryKind.newWriter o hasNulls) (ops ++ .reset :: nulls.map .write) = .ok w →
      (binaryKind.write c o w ⟨false, v⟩).isOk = false) := by
  refine ⟨fun w h => ?_, fun w h => ?_, fun bits w h => ?_, fun A is64 w h => ?_, fun w h => ?_, fun w h => ?_⟩
  · exact byteKind.second_stripe c o (fun _ _ => rfl) rfl hi hasNulls ops nulls hn hl w h v
  · exact boolKind.second_stripe c o (fun _ _ => rfl) rfl hi hasNulls ops nulls hn hl w h v
  · exact (intKind bits).second_stripe c o (fun _ _ => rfl) rfl hi hasNulls ops nulls hn hl w h v
  · exact (floatKind A is64).second_stripe c o (fun _ v => by cases v <;> rfl) rfl hi hasNulls ops nulls hn hl w h v
  · exact stringKind.second_stripe c o (fun _ v => by cases v <;> rfl) rfl hi hasNulls ops nulls hn hl w h v
  · exact binaryKind.second_stripe c o (fun _ _ => rfl) rfl hi hasNulls ops nulls hn hl w h v

/-- **C47** is false for float columns in any stripe: no value can be written. -/
theorem float_index_fails (A : Arith) (c : Codec) (o : COpts) (hi : o.writeIndex = true) (w : ColWriter (StreamWriter Unit) DoubleStats) (v : BitVec 32) :
    ((floatKind A false).write c o w ⟨false, .f32 v⟩).isOk = false := by
  cases hw : (floatKind A false).write c o w ⟨false, .f32 v⟩ with
  | ok w' =>
    simp only [LeafKind.write] at hw
    obtain ⟨w2, e2, hw⟩ := Res.bind_eq_ok.mp hw
    obtain ⟨w3, e3, hw⟩ := Res.bind_eq_ok.mp hw
    rw [if_pos ⟨hi, Or.inr trivial⟩] at hw
    obtain ⟨-, -, -, -, -, -, -, -, g⟩ := (floatKind A false).indexRow_frame o hw
    obtain ⟨t, u, t', u', -, -, e⟩ := g rfl
    simp [floatKind] at e
  | err _ => rfl
  | panic => rfl
  | hang => rfl

/-- **C47** is false for decimal columns: the first value of a new writer cannot be written, whatever it is and however many
nulls come before it. -/
theorem decimal_index_fails (A : Arith) (c : Codec) (o : COpts) (hi : o.writeIndex = true) (hasNulls : Bool) (nulls : List Value)
    (hn : ∀ v ∈ nulls, v.null = true) (w : ColWriter (StreamWriter Unit × StreamWriter IntEnc) DecStats)
    (h : (decimalKind A).runOps c o ((decimalKind A).newWriter o hasNulls) (nulls.map .write) = .ok w) (v : GoVal) :
    ((decimalKind A).write c o w ⟨false, v⟩).isOk = false := by
  have hinv : ∀ (nulls : List Value) (w0 w : ColWriter (StreamWriter Unit × StreamWriter IntEnc) DecStats), (∀ v ∈ nulls, v.null = true) →
      (decimalKind A).runOps c o w0 (nulls.map .write) = .ok w → w.indexStats = w0.indexStats := by
    intro nulls
    induction nulls with
    | nil =>
      intro w0 w _ h
      simp only [List.map_nil, LeafKind.runOps, Res.ok.injEq] at h
      rw [h]
    | cons x nulls ih =>
      intro w0 w hn h
      simp only [List.map_cons, LeafKind.runOps] at h
      obtain ⟨w1, e1, h⟩ := Res.bind_eq_ok.mp h
      rw [ih w1 w (fun y hy => hn y (List.mem_cons_of_mem _ hy)) h]
      simp only [LeafKind.write] at e1
      obtain ⟨w2, e2, e1⟩ := Res.bind_eq_ok.mp e1
      obtain ⟨p, rfl⟩ := LeafKind.writePresent_frame c o e2
      simp only [hn x List.mem_cons_self, if_true, Res.pure_eq, Res.ok_bind] at e1
      rw [if_neg (by simp [decimalKind])] at e1
      simp only [Res.ok.injEq] at e1
      rw [← e1]
  have his := hinv nulls _ w hn h
  have his : w.indexStats = some ⟨some ⟨[], [], []⟩, false, 0, 0⟩ := by
    rw [his]; simp [LeafKind.newWriter, hi, decimalKind]
  cases hw : (decimalKind A).write c o w ⟨false, v⟩ with
  | ok w' =>
    simp only [LeafKind.write] at hw
    obtain ⟨w2, e2, hw⟩ := Res.bind_eq_ok.mp hw
    obtain ⟨p, rfl⟩ := LeafKind.writePresent_frame c o e2
    obtain ⟨w3, e3, hw⟩ := Res.bind_eq_ok.mp hw
    rw [if_pos ⟨hi, Or.inr trivial⟩] at hw
    have h3 : w3.indexStats = w.indexStats := by
      simp only [Bool.false_eq_true, if_false, LeafKind.writeNonNull] at e3
      obtain ⟨d, e4, e3⟩ := Res.bind_eq_ok.mp e3
      cases ht : w.stats.typed with
      | none => simp [ht] at e3
      | some t =>
        simp only [ht] at e3
        obtain ⟨t1, e5, e3⟩ := Res.bind_eq_ok.mp e3
        simp only [Res.pure_eq, Res.ok.injEq] at e3
        subst e3
        rfl
    have hfail : ∀ t r, (decimalKind A).addIndex t (some ⟨[], [], []⟩) v ≠ .ok r := by
      intro t r
      cases v with
      | dec p sc =>
        simp [decimalKind, DecStats.addIndex, bytesLt_nil, parseFloat]
      | _ => simp [decimalKind]
    simp only [LeafKind.indexRow, h3, his] at hw
    by_cases hs : w3.indexInRows + 1 ≥ o.stride
    · simp only [if_pos hs, Bool.false_eq_true, if_false] at hw
      cases ht : w3.stats.typed with
      | none => simp [ht] at hw
      | some t =>
        simp only [ht] at hw
        obtain ⟨r, e, -⟩ := Res.bind_eq_ok.mp hw
        exact absurd e (hfail t r)
    · simp only [if_neg hs, Bool.false_eq_true, if_false] at hw
      cases ht : w3.stats.typed with
      | none => simp [ht] at hw
      | some t =>
        simp only [ht] at hw
        obtain ⟨r, e, -⟩ := Res.bind_eq_ok.mp hw
        exact absurd e (hfail t r)
  | err _ => rfl
  | panic => rfl
  | hang => rfl

/-- The failures are panics, and for decimals an error. -/
theorem index_panics : ∃ (c : Codec) (o : COpts),
    o.writeIndex = true ∧
    (byteKind.runOps c o (byteKind.newWriter o false) [.write ⟨false, .u8 1⟩, .flush, .writeOut, .reset]).isOk = true ∧
    byteKind.runOps c o (byteKind.newWriter o false) [.write ⟨false, .u8 1⟩, .flush, .writeOut, .reset, .write ⟨false, .u8 1⟩] = .panic ∧
    boolKind.runOps c o (boolKind.newWriter o false) [.flush, .writeOut, .reset, .write ⟨false, .bool true⟩] = .panic ∧
    (intKind .big).runOps c o ((intKind .big).newWriter o false) [.flush, .writeOut, .reset, .write ⟨false, .i64 1⟩] = .panic ∧
    (floatKind exArith true).runOps c o ((floatKind exArith true).newWriter o false) [.flush, .writeOut, .reset, .write ⟨false, .f64 1⟩] = .panic ∧
    stringKind.runOps c o (stringKind.newWriter o false) [.flush, .writeOut, .reset, .write ⟨false, .str []⟩] = .panic ∧
    binaryKind.runOps c o (binaryKind.newWriter o false) [.flush, .writeOut, .reset, .write ⟨false, .bytes []⟩] = .panic ∧
    (floatKind exArith false).runOps c o ((floatKind exArith false).newWriter o false) [.write ⟨false, .f32 1⟩] = .panic ∧
    (decimalKind exArith).runOps c o ((decimalKind exArith).newWriter o false) [.write ⟨false, .dec 1 0⟩] = .err .other :=
  ⟨runCodec, ⟨⟨.zlib, 100, true⟩, 10⟩, rfl, by decide +kernel, by decide +kernel, by decide +kernel, by decide +kernel, by decide +kernel,
    by decide +kernel, by decide +kernel, by decide +kernel, by decide +kernel⟩

/-- A nullable column of bytes with a row index: after the first stripe a null can be written, a value cannot. -/
example : ∃ w, byteKind.runOps runCodec ⟨⟨.zlib, 100, true⟩, 10⟩ (byteKind.newWriter ⟨⟨.zlib, 100, true⟩, 10⟩ true)
    ([.write ⟨false, .u8 1⟩, .flush, .writeOut] ++ .reset :: [⟨true, .nil⟩].map .write) = .ok w ∧ (byteKind.write runCodec ⟨⟨.zlib, 100, true⟩, 10⟩ w ⟨false, .u8 2⟩).isOk = false := by
  have h : (byteKind.runOps runCodec ⟨⟨.zlib, 100, true⟩, 10⟩ (byteKind.newWriter ⟨⟨.zlib, 100, true⟩, 10⟩ true)
    ([.write ⟨false, .u8 1⟩, .flush, .writeOut] ++ .reset :: [⟨true, .nil⟩].map .write)).isOk = true := by decide +kernel
  revert h
  cases hw : byteKind.runOps runCodec ⟨⟨.zlib, 100, true⟩, 10⟩ (byteKind.newWriter ⟨⟨.zlib, 100, true⟩, 10⟩ true)
    ([.write ⟨false, .u8 1⟩, .flush, .writeOut] ++ .reset :: [⟨true, .nil⟩].map .write) with
  | ok w => exact fun _ => ⟨w, rfl, (index_second_stripe _ _ rfl _ _ _ (by simp) (by decide) _).1 w hw⟩
  | _ => intro h; cases h

/-- A nullable column of decimals with a row index: nulls can be written, the first value cannot. -/
example : ∃ w, (decimalKind exArith).runOps runCodec ⟨⟨.zlib, 100, true⟩, 10⟩ ((decimalKind exArith).newWriter ⟨⟨.zlib, 100, true⟩, 10⟩ true)
    ([⟨true, .nil⟩, ⟨true, .nil⟩].map .write) = .ok w ∧ ((decimalKind exArith).write runCodec ⟨⟨.zlib, 100, true⟩, 10⟩ w ⟨false, .dec 5 1⟩).isOk = false := by
  have h : ((decimalKind exArith).runOps runCodec ⟨⟨.zlib, 100, true⟩, 10⟩ ((decimalKind exArith).newWriter ⟨⟨.zlib, 100, true⟩, 10⟩ true)
    ([⟨true, .nil⟩, ⟨true, .nil⟩].map .write)).isOk = true := by decide +kernel
  revert h
  cases hw : (decimalKind exArith).runOps runCodec ⟨⟨.zlib, 100, true⟩, 10⟩ ((decimalKind exArith).newWriter ⟨⟨.zlib, 100, true⟩, 10⟩ true)
    ([⟨true, .nil⟩, ⟨true, .nil⟩].map .write) with
  | ok w => exact fun _ => ⟨w, rfl, decimal_index_fails exArith _ _ rfl true [⟨true, .nil⟩, ⟨true, .nil⟩] (by simp) w hw _⟩
  | _ => intro h; cases h

example : ((floatKind exArith false).write runCodec ⟨⟨.zlib, 100, true⟩, 10⟩ ((floatKind exArith false).newWriter ⟨⟨.zlib, 100, true⟩, 10⟩ false) ⟨false, .f32 0x3f800000#32⟩).isOk = false :=
  float_index_fails exArith _ _ rfl _ _

end Goorc
