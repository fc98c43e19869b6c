import Verif.Proofs.WriteLocal
import Verif.Props.ColTable
/- Stripes in which a column gets no rows: lemmas for Props/AbsentColumn.lean. -/
namespace Goorc

/-! ### Encoders and streams -/

/-- The encoder has nothing left after `Flush`, and gives nothing if it has nothing. -/
structure Settles {σ : Type} (E : Enc σ) (R : σ → Prop) : Prop where
  after : ∀ {e e' : σ} {out : Bytes}, E.flush e = .ok (e', out) → R e'
  quiet : ∀ {e e' : σ} {out : Bytes}, R e → E.flush e = .ok (e', out) → out = []

def restByte (e : ByteEnc) : Prop := e.values = []
def restBool (e : BoolEnc) : Prop := e.index = -1 ∧ e.brl.values = []
def restInt (e : IntEnc) : Prop := e.values = []

theorem byte_settles : Settles byteEnc restByte := by
  constructor
  · intro e e' out h
    simp only [byteEnc, ByteEnc.flush] at h
    obtain ⟨x, -, h⟩ := Res.bind_ok_inv h
    injection h with h; injection h with h _; subst h; rfl
  · intro e e' out hr h
    simp only [byteEnc, ByteEnc.flush, show e.values = [] from hr] at h
    simp [encodeBytesToEnd] at h
    exact h.2

theorem bool_settles : Settles boolEnc restBool := by
  constructor
  · intro e e' out h
    simp only [boolEnc, BoolEnc.flush] at h
    obtain ⟨⟨b1, x⟩, -, h⟩ := Res.bind_ok_inv h
    obtain ⟨⟨b2, y⟩, h2, h⟩ := Res.bind_ok_inv h
    injection h with h; injection h with h _; subst h
    exact ⟨rfl, byte_settles.after h2⟩
  · intro e e' out hr h
    simp only [boolEnc, BoolEnc.flush, hr.1, ne_eq, not_true_eq_false, if_false] at h
    obtain ⟨⟨b1, x⟩, h1, h⟩ := Res.bind_ok_inv h
    injection h1 with h1; injection h1 with h1 h3; subst h1; subst h3
    obtain ⟨⟨b2, y⟩, h2, h⟩ := Res.bind_ok_inv h
    injection h with h; injection h with _ h; subst h
    exact byte_settles.quiet hr.2 h2

theorem int_settles : Settles intEnc restInt := by
  constructor
  · intro e e' out h
    simp only [intEnc, IntEnc.flush] at h
    split at h
    · rename_i h0
      injection h with h; injection h with h _; subst h; exact h0
    · obtain ⟨⟨x, rest⟩, h1, h⟩ := Res.bind_ok_inv h
      injection h with h; injection h with h _; subst h
      show rest = []
      simp only [intWrite, if_true] at h1
      split at h1
      · obtain ⟨y, -, h1⟩ := Res.bind_ok_inv h1
        injection h1 with h1; injection h1 with _ h1; exact h1.symm
      · exact writeLoop_rest _ _ _ _ _ h1
  · intro e e' out hr h
    simp only [intEnc, IntEnc.flush, show e.values = [] from hr, if_true] at h
    injection h with h; injection h with _ h; exact h.symm

theorem string_settles : Settles stringEnc fun _ => True :=
  ⟨fun _ => trivial, fun _ h => by simp only [stringEnc] at h; injection h with h; injection h with _ h; exact h.symm⟩
theorem varint_settles : Settles varintEnc fun _ => True :=
  ⟨fun _ => trivial, fun _ h => by simp only [varintEnc] at h; injection h with h; injection h with _ h; exact h.symm⟩
theorem float_settles (b : Bool) : Settles (floatEncoder b) fun _ => True :=
  ⟨fun _ => trivial, fun _ h => by cases b <;> (injection h with h; injection h with _ h; exact h.symm)⟩

/-- A stream with nothing in it. -/
def StreamWriter.Rested {σ : Type} (R : σ → Prop) (w : StreamWriter σ) : Prop := R w.enc ∧ w.buf = [] ∧ w.cbuf.getD [] = []

section
variable {σ : Type} {E : Enc σ} {R : σ → Prop} {c : Codec} {o : WOpts}

theorem newStreamWriter_rested {e : σ} (h : R e) : (newStreamWriter o e).Rested R := by
  refine ⟨h, rfl, ?_⟩
  simp only [newStreamWriter]; split <;> rfl

theorem StreamWriter.flush_quiet (hE : Settles E R) {w w' : StreamWriter σ} (hw : w.Rested R) (h : w.flush E c o = .ok w') : (w'.writeOut o).2 = [] := by
  simp only [StreamWriter.flush] at h
  obtain ⟨⟨e, out⟩, h1, h⟩ := Res.bind_ok_inv h
  have := hE.quiet hw.1 h1
  subst this
  simp only [hw.2.1, List.append_nil, List.length_nil] at h
  split at h
  · rename_i hk
    injection h with h; subst h
    simp [StreamWriter.writeOut, hk]
  · rename_i hk
    split at h
    · cases h
    · rename_i cb hcb
      simp at h; subst h
      have := hw.2.2
      rw [hcb] at this
      simpa [StreamWriter.writeOut, hk] using this

theorem StreamWriter.flush_enc (hE : Settles E R) {w w' : StreamWriter σ} (h : w.flush E c o = .ok w') : R w'.enc := by
  simp only [StreamWriter.flush] at h
  obtain ⟨⟨e, out⟩, h1, h⟩ := Res.bind_ok_inv h
  have := hE.after h1
  simp only at h
  split at h
  · injection h with h; subst h; exact this
  · split at h
    · cases h
    · split at h
      · obtain ⟨d, -, h⟩ := Res.bind_ok_inv h
        injection h with h; subst h; exact this
      · injection h with h; subst h; exact this

theorem StreamWriter.cycle_rested (hE : Settles E R) {w w1 w2 : StreamWriter σ} (h : w.flush E c o = .ok w1) (h2 : (w1.writeOut o).1.reset = .ok w2) : w2.Rested R := by
  have he := StreamWriter.flush_enc hE h
  have henc : (w1.writeOut o).1.enc = w1.enc := by simp only [StreamWriter.writeOut]; split <;> rfl
  simp only [StreamWriter.reset] at h2
  split at h2
  · cases h2
  · injection h2 with h2; subst h2
    exact ⟨by rw [← henc] at he; exact he, rfl, rfl⟩
end

/-! ### The data streams of a column -/

/-- The same for several streams. -/
structure DataSettles {δ : Type} (S : DataStreams δ) (P : δ → Prop) : Prop where
  quiet : ∀ {c : Codec} {o : WOpts} {d d' : δ}, P d → S.flush c o d = .ok d' → (S.writeOut o d').2 = []
  cycle : ∀ {c : Codec} {o : WOpts} {d d1 d2 : δ}, S.flush c o d = .ok d1 → S.reset (S.writeOut o d1).1 = .ok d2 → P d2

theorem oneStream_rests {σ : Type} {E : Enc σ} {R : σ → Prop} (hE : Settles E R) (k : StreamKind) : DataSettles (oneStream E k) (StreamWriter.Rested R) :=
  ⟨fun hp h => StreamWriter.flush_quiet hE hp h, fun h h2 => StreamWriter.cycle_rested hE h h2⟩

theorem twoStreams_rests {σ τ : Type} {E : Enc σ} {F : Enc τ} {R : σ → Prop} {Q : τ → Prop} (hE : Settles E R) (hF : Settles F Q) (k l : StreamKind) :
    DataSettles (twoStreams E F k l) fun d => d.1.Rested R ∧ d.2.Rested Q := by
  constructor
  · intro c o d d' hp h
    simp only [twoStreams] at h ⊢
    obtain ⟨a, h1, h⟩ := Res.bind_ok_inv h
    obtain ⟨b, h2, h⟩ := Res.bind_ok_inv h
    injection h with h; subst h
    simp [StreamWriter.flush_quiet hE hp.1 h1, StreamWriter.flush_quiet hF hp.2 h2]
  · intro c o d d1 d2 h h2
    simp only [twoStreams] at h h2
    obtain ⟨a, g1, h⟩ := Res.bind_ok_inv h
    obtain ⟨b, g2, h⟩ := Res.bind_ok_inv h
    injection h with h; subst h
    obtain ⟨a', k1, h2⟩ := Res.bind_ok_inv h2
    obtain ⟨b', k2, h2⟩ := Res.bind_ok_inv h2
    injection h2 with h2; subst h2
    exact ⟨StreamWriter.cycle_rested hE g1 k1, StreamWriter.cycle_rested hF g2 k2⟩

/-- Nothing in the data streams. -/
def LeafTag.Rested : (t : LeafTag) → t.δ → Prop
  | .byte => StreamWriter.Rested restByte
  | .bool => StreamWriter.Rested restBool
  | .int _ => StreamWriter.Rested restInt
  | .float _ => StreamWriter.Rested fun _ => True
  | .string => fun d => d.1.Rested (fun _ => True) ∧ d.2.Rested restInt
  | .binary => fun d => d.1.Rested (fun _ => True) ∧ d.2.Rested restInt
  | .date => StreamWriter.Rested restInt
  | .timestamp => fun d => d.1.Rested restInt ∧ d.2.Rested restInt
  | .decimal => fun d => d.1.Rested (fun _ => True) ∧ d.2.Rested restInt

theorem LeafTag.settles (A : Arith) (t : LeafTag) : DataSettles (t.kind A).streams t.Rested := by
  cases t with
  | byte => exact oneStream_rests byte_settles _
  | bool => exact oneStream_rests bool_settles _
  | int b => exact oneStream_rests int_settles _
  | float b => exact oneStream_rests (float_settles b) _
  | string => exact twoStreams_rests string_settles int_settles _ _
  | binary => exact twoStreams_rests string_settles int_settles _ _
  | date => exact oneStream_rests int_settles _
  | timestamp => exact twoStreams_rests int_settles int_settles _ _
  | decimal => exact twoStreams_rests varint_settles int_settles _ _

theorem newByte_rest (b : Bool) : restByte (newByteEncoder b) := rfl
theorem newBool_rest (b : Bool) : restBool (newBoolEncoder b) := ⟨rfl, rfl⟩
theorem newInt_rest (s b : Bool) : restInt (newIntRLV2 s b) := rfl

theorem LeafTag.new_rested (A : Arith) (t : LeafTag) (o : WOpts) : t.Rested ((t.kind A).newData o) := by
  cases t with
  | byte => exact newStreamWriter_rested (newByte_rest _)
  | bool => exact newStreamWriter_rested (newBool_rest _)
  | int b => exact newStreamWriter_rested (newInt_rest _ _)
  | float b => exact newStreamWriter_rested (R := fun _ => True) trivial
  | string => exact ⟨newStreamWriter_rested (R := fun _ => True) trivial, newStreamWriter_rested (newInt_rest _ _)⟩
  | binary => exact ⟨newStreamWriter_rested (R := fun _ => True) trivial, newStreamWriter_rested (newInt_rest _ _)⟩
  | date => exact newStreamWriter_rested (newInt_rest _ _)
  | timestamp => exact ⟨newStreamWriter_rested (newInt_rest _ _), newStreamWriter_rested (newInt_rest _ _)⟩
  | decimal => exact ⟨newStreamWriter_rested (R := fun _ => True) trivial, newStreamWriter_rested (newInt_rest _ _)⟩

/-! ### The present stream -/

/-- Nothing in the present stream, if there is one. -/
def FlagsRested (b : Bool) (p : Option (StreamWriter BoolEnc)) : Prop := b = true → ∀ q, p = some q → q.Rested restBool

theorem newFlags_rested (o : COpts) (b : Bool) : FlagsRested b (if b then some (newStreamWriter o.toWOpts (newBoolEncoder o.writeIndex)) else none) := by
  intro hb q hq
  subst hb
  simp at hq; subst hq; exact newStreamWriter_rested (newBool_rest _)

section
variable {c : Codec} {o : COpts} {b : Bool}

theorem flags_quiet {p p1 p2 : Option (StreamWriter BoolEnc)} {x : Bytes} (hp : FlagsRested b p) (h : flushFlags c o b p = .ok p1) (h2 : writeOutFlags o b p1 = .ok (p2, x)) : x = [] := by
  simp only [flushFlags] at h
  simp only [writeOutFlags] at h2
  cases b with
  | false => simp at h2; exact h2.2
  | true =>
    simp only [if_true] at h h2
    split at h
    · cases h
    · rename_i q
      obtain ⟨q1, g, h⟩ := Res.bind_ok_inv h
      injection h with h; subst h
      simp only at h2
      injection h2 with h2; injection h2 with _ h2; subst h2
      exact StreamWriter.flush_quiet bool_settles (hp rfl q rfl) g

theorem flags_cycle {p p1 p2 p3 : Option (StreamWriter BoolEnc)} {x : Bytes} (h : flushFlags c o b p = .ok p1)
    (h2 : writeOutFlags o b p1 = .ok (p2, x)) (h3 : resetFlags b p2 = .ok p3) : FlagsRested b p3 := by
  intro hb
  subst hb
  simp only [flushFlags] at h
  simp only [writeOutFlags] at h2
  simp only [resetFlags] at h3
  simp only [if_true] at h h2 h3
  split at h
  · cases h
  · rename_i q
    obtain ⟨q1, g, h⟩ := Res.bind_ok_inv h
    injection h with h; subst h
    simp only at h2
    injection h2 with h2; injection h2 with h2 _; subst h2
    simp only at h3
    obtain ⟨q3, g3, h3⟩ := Res.bind_ok_inv h3
    injection h3 with h3; subst h3
    intro q hq
    injection hq with hq; subst hq
    exact StreamWriter.cycle_rested bool_settles g g3
end

/-! ### The writer of a column -/

/-- Nothing in the streams of a column. -/
def AnyWriter.Rested : AnyWriter → Prop
  | .leaf t w => t.Rested w.data ∧ FlagsRested w.hasNulls w.present
  | .dict w => w.count = 0 ∧ w.data = [] ∧ FlagsRested w.hasNulls w.present ∧ w.dataStream.Rested restInt ∧ w.dictStream.Rested (fun _ => True) ∧ w.lengthStream.Rested restInt
  | .struct w => FlagsRested w.hasNulls w.present

theorem AnyWriter.new_rested {A : Arith} {o : COpts} {n : SchemaNode} {w : AnyWriter} (h : AnyWriter.new A o n = .ok w) : w.Rested := by
  simp only [AnyWriter.new] at h
  obtain ⟨t, -, h⟩ := Res.bind_ok_inv h
  cases t with
  | leaf t => injection h with h; subst h; exact ⟨t.new_rested A _, newFlags_rested o _⟩
  | dict =>
    injection h with h; subst h
    exact ⟨rfl, rfl, newFlags_rested o _, newStreamWriter_rested (newInt_rest _ _), newStreamWriter_rested trivial, newStreamWriter_rested (newInt_rest _ _)⟩
  | struct => injection h with h; subst h; exact newFlags_rested o _

theorem leaf_flush_inv {δ κ : Type} {K : LeafKind δ κ} {c : Codec} {o : COpts} {w w1 : ColWriter δ κ} (h : K.flush c o w = .ok w1) :
    w1.hasNulls = w.hasNulls ∧ flushFlags c o w.hasNulls w.present = .ok w1.present ∧ K.streams.flush c o.toWOpts w.data = .ok w1.data := by
  simp only [LeafKind.flush] at h
  obtain ⟨p, h1, h⟩ := Res.bind_ok_inv h
  obtain ⟨d, h2, h⟩ := Res.bind_ok_inv h
  injection h with h; subst h
  exact ⟨rfl, h1, h2⟩

theorem leaf_writeOut_inv {δ κ : Type} {K : LeafKind δ κ} {o : COpts} {w w1 : ColWriter δ κ} {b : Bytes} (h : K.writeOut o w = .ok (w1, b)) :
    w1.hasNulls = w.hasNulls ∧ ∃ x, writeOutFlags o w.hasNulls w.present = .ok (w1.present, x) ∧ w1.data = (K.streams.writeOut o.toWOpts w.data).1 ∧
      b = x ++ (K.streams.writeOut o.toWOpts w.data).2 := by
  simp only [LeafKind.writeOut] at h
  split at h
  · cases h
  · cases hn : w.hasNulls with
    | false =>
      simp only [hn, Bool.false_eq_true, if_false] at h
      injection h with h; injection h with h hb; subst h; subst hb
      exact ⟨rfl, [], by simp [writeOutFlags], rfl, rfl⟩
    | true =>
      simp only [hn, if_true] at h
      cases hp : w.present with
      | none => rw [hp] at h; cases h
      | some p =>
        rw [hp] at h
        injection h with h; injection h with h hb; subst h; subst hb
        exact ⟨rfl, _, by simp only [writeOutFlags, if_true], rfl, rfl⟩

theorem leaf_reset_inv {δ κ : Type} {K : LeafKind δ κ} {o : COpts} {w w1 : ColWriter δ κ} (h : K.reset o w = .ok w1) :
    w1.hasNulls = w.hasNulls ∧ resetFlags w.hasNulls w.present = .ok w1.present ∧ K.streams.reset w.data = .ok w1.data := by
  simp only [LeafKind.reset] at h
  obtain ⟨p, h1, h⟩ := Res.bind_ok_inv h
  obtain ⟨w2, h2, h⟩ := Res.bind_ok_inv h
  obtain ⟨d, h3, h⟩ := Res.bind_ok_inv h
  injection h with h; subst h
  have : w2.hasNulls = w.hasNulls ∧ w2.present = p ∧ w2.data = w.data := by
    split at h2
    · split at h2
      · cases h2
      · injection h2 with h2; subst h2; exact ⟨rfl, rfl, rfl⟩
    · injection h2 with h2; subst h2; exact ⟨rfl, rfl, rfl⟩
  obtain ⟨e1, e2, e3⟩ := this
  exact ⟨e1, by rw [e2]; exact h1, by rw [← e3]; exact h3⟩

/-- A column that got nothing gives no bytes. -/
theorem AnyWriter.quiet {A : Arith} {c : Codec} {o : COpts} {w w1 w2 : AnyWriter} {b : Bytes} (hw : w.Rested) (h : w.flush A c o = .ok w1) (h2 : w1.writeOut A o = .ok (w2, b)) :
    b = [] := by
  cases w with
  | leaf t w =>
    simp only [AnyWriter.flush] at h
    obtain ⟨w1, g, h⟩ := Res.bind_ok_inv h
    injection h with h; subst h
    simp only [AnyWriter.writeOut] at h2
    obtain ⟨⟨w2, b'⟩, g2, h2⟩ := Res.bind_ok_inv h2
    injection h2 with h2; injection h2 with _ h2; subst h2
    obtain ⟨a1, a2, a3⟩ := leaf_flush_inv g
    obtain ⟨b1, x, b2, b3, rfl⟩ := leaf_writeOut_inv g2
    rw [a1] at b2
    rw [flags_quiet hw.2 a2 b2, (t.settles A).quiet hw.1 a3, List.append_nil]
  | struct w =>
    simp only [AnyWriter.flush] at h
    obtain ⟨w1, g, h⟩ := Res.bind_ok_inv h
    injection h with h; subst h
    simp only [AnyWriter.writeOut] at h2
    obtain ⟨⟨w2, b'⟩, g2, h2⟩ := Res.bind_ok_inv h2
    injection h2 with h2; injection h2 with _ h2; subst h2
    simp only [StructWriter.flush] at g
    obtain ⟨p, k, g⟩ := Res.bind_ok_inv g
    injection g with g; subst g
    simp only [StructWriter.writeOut, Bool.true_eq_false, if_false] at g2
    obtain ⟨⟨p2, x⟩, k2, g2⟩ := Res.bind_ok_inv g2
    injection g2 with g2; injection g2 with _ g2; subst g2
    exact flags_quiet hw k k2
  | dict w =>
    simp only [AnyWriter.flush] at h
    obtain ⟨w1, g, h⟩ := Res.bind_ok_inv h
    injection h with h; subst h
    simp only [AnyWriter.writeOut] at h2
    obtain ⟨⟨w2, b'⟩, g2, h2⟩ := Res.bind_ok_inv h2
    injection h2 with h2; injection h2 with _ h2; subst h2
    obtain ⟨e1, e2, e3, e4, e5, e6⟩ := hw
    simp only [DictWriter.flush, e1, e2] at g
    obtain ⟨data, k0, g⟩ := Res.bind_ok_inv g
    simp only [DictWriter.sorted, List.foldr_nil, DictWriter.placeAll, List.replicate_zero] at k0
    injection k0 with k0; subst k0
    simp only [DictWriter.sorted, List.foldr_nil, List.map_nil, StreamWriter.writes, Res.ok_bind] at g
    obtain ⟨p, k1, g⟩ := Res.bind_ok_inv g
    obtain ⟨d, k2, g⟩ := Res.bind_ok_inv g
    obtain ⟨t, k3, g⟩ := Res.bind_ok_inv g
    obtain ⟨l, k4, g⟩ := Res.bind_ok_inv g
    injection g with g; subst g
    simp only [DictWriter.writeOut] at g2
    obtain ⟨⟨p2, x⟩, k5, g2⟩ := Res.bind_ok_inv g2
    injection g2 with g2; injection g2 with _ g2; subst g2
    rw [flags_quiet e3 k1 k5, StreamWriter.flush_quiet int_settles e4 k2, StreamWriter.flush_quiet string_settles e5 k3, StreamWriter.flush_quiet int_settles e6 k4]
    rfl

theorem dict_writes_any {A : Arith} {c : Codec} {o : COpts} : ∀ (vals : List Value) (w : DictWriter) (w1 : AnyWriter), (AnyWriter.dict w).writes A c o vals = .ok w1 →
    ∃ w', w1 = .dict w' ∧ w.writes c o vals = .ok w'
  | [], w, w1, h => by simp only [AnyWriter.writes] at h; injection h with h; exact ⟨w, h.symm, rfl⟩
  | v :: vs, w, w1, h => by
    simp only [AnyWriter.writes] at h
    obtain ⟨u, h1, h⟩ := Res.bind_ok_inv h
    simp only [AnyWriter.write] at h1
    obtain ⟨w2, h2, h1⟩ := Res.bind_ok_inv h1
    injection h1 with h1; subst h1
    obtain ⟨w', e1, e2⟩ := dict_writes_any vs w2 w1 h
    exact ⟨w', e1, by simp only [DictWriter.writes, h2, Res.ok_bind, e2]⟩

/-- At the beginning of a stripe there is nothing in the streams of a column, whatever was written to it before. -/
theorem AnyWriter.cycle {A : Arith} {c : Codec} {o : COpts} {w w1 w2 w3 w4 : AnyWriter} {vals : List Value} {b : Bytes} (hw : w.Rested) (h0 : w.writes A c o vals = .ok w1)
    (h : w1.flush A c o = .ok w2) (h2 : w2.writeOut A o = .ok (w3, b)) (h3 : w3.reset A o = .ok w4) : w4.Rested := by
  cases w1 with
  | leaf t w1 =>
    simp only [AnyWriter.flush] at h
    obtain ⟨w2, g, h⟩ := Res.bind_ok_inv h
    injection h with h; subst h
    simp only [AnyWriter.writeOut] at h2
    obtain ⟨⟨w3, b'⟩, g2, h2⟩ := Res.bind_ok_inv h2
    injection h2 with h2; injection h2 with h2 _; subst h2
    simp only [AnyWriter.reset] at h3
    obtain ⟨w4, g3, h3⟩ := Res.bind_ok_inv h3
    injection h3 with h3; subst h3
    obtain ⟨a1, a2, a3⟩ := leaf_flush_inv g
    obtain ⟨b1, x, b2, b3, -⟩ := leaf_writeOut_inv g2
    obtain ⟨c1, c2, c3⟩ := leaf_reset_inv g3
    rw [a1] at b1 b2
    rw [b1] at c1 c2
    rw [b3] at c3
    refine ⟨(t.settles A).cycle a3 c3, ?_⟩
    rw [c1]
    exact flags_cycle a2 b2 c2
  | struct w1 =>
    simp only [AnyWriter.flush] at h
    obtain ⟨w2, g, h⟩ := Res.bind_ok_inv h
    injection h with h; subst h
    simp only [AnyWriter.writeOut] at h2
    obtain ⟨⟨w3, b'⟩, g2, h2⟩ := Res.bind_ok_inv h2
    injection h2 with h2; injection h2 with h2 _; subst h2
    simp only [AnyWriter.reset] at h3
    obtain ⟨w4, g3, h3⟩ := Res.bind_ok_inv h3
    injection h3 with h3; subst h3
    simp only [StructWriter.flush] at g
    obtain ⟨p, k, g⟩ := Res.bind_ok_inv g
    injection g with g; subst g
    simp only [StructWriter.writeOut, Bool.true_eq_false, if_false] at g2
    obtain ⟨⟨p2, x⟩, k2, g2⟩ := Res.bind_ok_inv g2
    injection g2 with g2; injection g2 with g2 _; subst g2
    simp only [StructWriter.reset] at g3
    obtain ⟨p3, k3, g3⟩ := Res.bind_ok_inv g3
    have := flags_cycle k k2 k3
    split at g3
    · split at g3
      · cases g3
      · injection g3 with g3; subst g3; exact this
    · injection g3 with g3; subst g3; exact this
  | dict w1 =>
    have hd : ∃ w0, w = .dict w0 := by
      have key : ∀ (vals : List Value) (w : AnyWriter), w.writes A c o vals = .ok (.dict w1) → ∃ w0, w = .dict w0 := by
        intro vals
        induction vals with
        | nil => intro w h; simp only [AnyWriter.writes] at h; injection h with h; exact ⟨w1, h⟩
        | cons v vs ih =>
          intro w h
          simp only [AnyWriter.writes] at h
          obtain ⟨u, h1, h⟩ := Res.bind_ok_inv h
          obtain ⟨u0, rfl⟩ := ih u h
          cases w with
          | dict w0 => exact ⟨w0, rfl⟩
          | leaf t w0 => simp only [AnyWriter.write] at h1; obtain ⟨_, -, h1⟩ := Res.bind_ok_inv h1; cases h1
          | struct w0 => simp only [AnyWriter.write] at h1; obtain ⟨_, -, h1⟩ := Res.bind_ok_inv h1; cases h1
      exact key vals w h0
    obtain ⟨w0, rfl⟩ := hd
    obtain ⟨_, e, hws⟩ := dict_writes_any vals w0 _ h0
    injection e with e; subst e
    have haft : DictWriter.After vals w1 := by
      have := DictWriter.writes_after vals [] w0 w1 ⟨by rw [hw.1]; rfl, fun h => absurd hw.1 h, fun _ => hw.2.1⟩ hws
      simpa using this
    simp only [AnyWriter.flush] at h
    obtain ⟨w2, g, h⟩ := Res.bind_ok_inv h
    injection h with h; subst h
    have hc : w1.count = 0 := by
      by_cases hc : w1.count = 0
      · exact hc
      · obtain ⟨e, he, hi⟩ := haft.last hc
        have : DictWriter.placeAll 0 (List.replicate w1.count 0) (DictWriter.sorted w1.data) = .panic :=
          DictWriter.placeAll_beyond 0 _ _ e ((DictWriter.sorted_mem _ _).mpr he) w1.count hi (by simp)
        rw [DictWriter.flush, this] at g; cases g
    simp only [AnyWriter.writeOut] at h2
    obtain ⟨⟨w3, b'⟩, g2, h2⟩ := Res.bind_ok_inv h2
    injection h2 with h2; injection h2 with h2 _; subst h2
    simp only [AnyWriter.reset] at h3
    obtain ⟨w4, g3, h3⟩ := Res.bind_ok_inv h3
    injection h3 with h3; subst h3
    simp only [DictWriter.flush] at g
    obtain ⟨data, -, g⟩ := Res.bind_ok_inv g
    obtain ⟨d0, -, g⟩ := Res.bind_ok_inv g
    obtain ⟨t0, -, g⟩ := Res.bind_ok_inv g
    obtain ⟨l0, -, g⟩ := Res.bind_ok_inv g
    obtain ⟨p, k1, g⟩ := Res.bind_ok_inv g
    obtain ⟨d, k2, g⟩ := Res.bind_ok_inv g
    obtain ⟨t, k3, g⟩ := Res.bind_ok_inv g
    obtain ⟨l, k4, g⟩ := Res.bind_ok_inv g
    injection g with g; subst g
    simp only [DictWriter.writeOut] at g2
    obtain ⟨⟨p2, x⟩, k5, g2⟩ := Res.bind_ok_inv g2
    injection g2 with g2; injection g2 with g2 _; subst g2
    simp only [DictWriter.reset] at g3
    obtain ⟨p3, r1, g3⟩ := Res.bind_ok_inv g3
    obtain ⟨d3, r2, g3⟩ := Res.bind_ok_inv g3
    obtain ⟨t3, r3, g3⟩ := Res.bind_ok_inv g3
    obtain ⟨l3, r4, g3⟩ := Res.bind_ok_inv g3
    injection g3 with g3; subst g3
    exact ⟨hc, haft.empty hc, flags_cycle k1 k5 r1, StreamWriter.cycle_rested int_settles k2 r2, StreamWriter.cycle_rested string_settles k3 r3,
      StreamWriter.cycle_rested int_settles k4 r4⟩

/-! ### The stripes of a file -/

theorem StripesRun.rested {E : Env} {o : FOpts} {ns : List SchemaNode} {ws0 : List AnyWriter} {L : List WrittenStripe} (h : StripesRun E o ns ws0 L) (hl : ws0.length = ns.length)
    (hids : ns.map (·.id) = List.range ns.length) (hp : ∀ x ∈ L, ∀ s ∈ x.part.streams, s.1.length = s.2.length) {j : Nat} {n : SchemaNode} (hn : ns[j]? = some n)
    (h0 : ∀ w, ws0[j]? = some w → w.Rested) : ∀ (k : Nat) (x : WrittenStripe), L[k]? = some x → ∀ w, x.start[j]? = some w → w.Rested := by
  intro k
  induction k with
  | zero => intro x hx; rw [h.head x hx]; exact h0
  | succ k ih =>
    intro x hx w hw
    have hk : k < L.length := by have := (List.getElem?_eq_some_iff.1 hx).1; omega
    have g := List.getElem?_eq_getElem hk
    obtain ⟨ws3, a, b⟩ := h.run k L[k] g
    have w1 := h.lengths hl hids hp k _ g
    have hj : j < ns.length := (List.getElem?_eq_some_iff.1 hn).1
    have v1 : (L[k].start)[j]? = some (L[k].start)[j] := List.getElem?_eq_getElem (by omega)
    obtain ⟨u3, x3, u1, u2, bs, y1, y2, y3, -⟩ := (a.column w1 hids (hp _ (List.getElem_mem hk))).2 j n _ hn v1
    obtain ⟨u4, z1, z2⟩ := (onWriters_at (b x hx)).2 j u3 x3
    rw [z1] at hw
    injection hw with hw; subst hw
    exact AnyWriter.cycle (ih _ g _ v1) y1 y2 y3 z2

/-- In a stripe in which a column gets no rows, none of its streams has a byte. -/
theorem StripesRun.empty {E : Env} {o : FOpts} {ns : List SchemaNode} {ws0 : List AnyWriter} {L : List WrittenStripe} (h : StripesRun E o ns ws0 L) (hl : ws0.length = ns.length)
    (hids : ns.map (·.id) = List.range ns.length) (hp : ∀ x ∈ L, ∀ s ∈ x.part.streams, s.1.length = s.2.length) {j : Nat} {n : SchemaNode} (hn : ns[j]? = some n)
    (h0 : ∀ w, ws0[j]? = some w → w.Rested) {k : Nat} {x : WrittenStripe} (hx : L[k]? = some x) (hv : columnOf j x.rows.flatten = []) :
    ∀ s ∈ x.part.streamsOf j, s.2 = [] ∧ s.1.length = 0 := by
  obtain ⟨ws3, a, -⟩ := h.run k x hx
  have w1 := h.lengths hl hids hp k _ hx
  have hj : j < ns.length := (List.getElem?_eq_some_iff.1 hn).1
  have v1 : x.start[j]? = some x.start[j] := List.getElem?_eq_getElem (by omega)
  obtain ⟨u3, x3, u1, u2, bs, y1, y2, y3, y4, y5⟩ := (a.column w1 hids (hp _ (List.mem_of_getElem? hx))).2 j n _ hn v1
  rw [hv] at y1
  simp only [AnyWriter.writes] at y1
  injection y1 with y1; subst y1
  have hb := AnyWriter.quiet (h.rested hl hids hp hn h0 k x hx _ v1) y2 y3
  intro s hs
  rw [y5] at hs
  obtain ⟨b, hb1, rfl⟩ := List.mem_map.1 hs
  have : b.2 = [] := by
    simp only [Bodies.bytes, List.flatMap_eq_nil_iff] at hb
    exact hb b hb1
  simp [this]

end Goorc
