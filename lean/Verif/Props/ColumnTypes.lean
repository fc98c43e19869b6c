import Verif.Spec.GoTypes
import Verif.Props.FileStats
/-
C78: the size a column writer reports. C79: the Go types of the values a column takes.
-/
namespace Goorc

/-! ### C78 -/

theorem StreamWriter.flush_size {σ : Type} {E : Enc σ} {c : Codec} {o : WOpts} {w w1 : StreamWriter σ} (h : w.flush E c o = .ok w1) :
    w1.size o = w1.length ∧ (w1.writeOut o).2.length = w1.length := by
  simp only [StreamWriter.flush] at h
  obtain ⟨⟨e, out⟩, -, h⟩ := Res.bind_ok_inv h
  by_cases hk : o.kind = .none
  · rw [if_pos hk] at h
    simp only [Res.pure_eq, Res.ok.injEq] at h
    subst h
    simp [StreamWriter.size, StreamWriter.writeOut, hk]
  · rw [if_neg hk] at h
    cases hc : w.cbuf with
    | none => rw [hc] at h; cases h
    | some cb =>
      rw [hc] at h
      simp only at h
      split at h
      · obtain ⟨dst, -, h⟩ := Res.bind_ok_inv h
        simp only [Res.pure_eq, Res.ok.injEq] at h
        subst h
        simp [StreamWriter.size, StreamWriter.writeOut, hk]
      · rename_i hb
        simp only [Res.pure_eq, Res.ok.injEq] at h
        subst h
        have : w.buf ++ out = [] := List.length_eq_zero_iff.mp (by omega)
        simp [StreamWriter.size, StreamWriter.writeOut, hk, this]

/-- What flushing does to the data streams of a column. -/
def DataStreams.Sized {δ : Type} (S : DataStreams δ) : Prop :=
  ∀ c o d d1, S.flush c o d = .ok d1 → S.size o d1 = ((S.infos d1).map (·.2)).sum ∧ (S.writeOut o d1).2.length = ((S.infos d1).map (·.2)).sum

theorem oneStream_sized {σ : Type} (E : Enc σ) (k : StreamKind) : (oneStream E k).Sized := by
  intro c o d d1 h
  have := StreamWriter.flush_size (E := E) h
  simpa [oneStream] using this

theorem twoStreams_sized {σ τ : Type} (E : Enc σ) (F : Enc τ) (k l : StreamKind) : (twoStreams E F k l).Sized := by
  intro c o d d1 h
  simp only [twoStreams] at h
  obtain ⟨a, h1, h⟩ := Res.bind_ok_inv h
  obtain ⟨b, h2, h⟩ := Res.bind_ok_inv h
  simp only [Res.pure_eq, Res.ok.injEq] at h
  subst h
  have g1 := StreamWriter.flush_size h1
  have g2 := StreamWriter.flush_size h2
  simp [twoStreams, g1.1, g1.2, g2.1, g2.2]

theorem LeafTag.sized (A : Arith) (t : LeafTag) : (t.kind A).streams.Sized := by
  cases t <;> first | exact oneStream_sized _ _ | exact twoStreams_sized _ _ _ _

theorem flushFlags_size {c : Codec} {o : COpts} {hasNulls : Bool} {p p1 : Option (StreamWriter BoolEnc)} (h : flushFlags c o hasNulls p = .ok p1) :
    (if hasNulls then (p1.map (·.size o.toWOpts)).getD 0 else 0) = (if hasNulls then (p1.map (·.length)).getD 0 else 0) ∧
    ∃ p2 x, writeOutFlags o hasNulls p1 = .ok (p2, x) ∧ x.length = (if hasNulls then (p1.map (·.length)).getD 0 else 0) := by
  cases hasNulls with
  | false => exact ⟨rfl, p1, [], rfl, rfl⟩
  | true =>
    simp only [flushFlags, if_true] at h
    cases p with
    | none => cases h
    | some p =>
      obtain ⟨q, h1, h⟩ := Res.bind_ok_inv h
      simp only [Res.pure_eq, Res.ok.injEq] at h
      subst h
      have g := StreamWriter.flush_size h1
      exact ⟨by simpa using g.1, _, _, rfl, by simpa using g.2⟩

/-- **C78** Once a column writer has been flushed — in whatever state it was before — its size is exactly the number of bytes
it then writes out, and the lengths of its streams add up to it. -/
theorem size_after_flush (A : Arith) (c : Codec) (o : COpts) (w w1 : AnyWriter) (h : w.flush A c o = .ok w1) :
    ∃ w2 out, w1.writeOut A o = .ok (w2, out) ∧ out.length = w1.size A o ∧ ((w1.streamInfos A).map (·.2)).sum = w1.size A o := by
  cases w with
  | leaf t w =>
    simp only [AnyWriter.flush] at h
    obtain ⟨x, h1, h⟩ := Res.bind_ok_inv h
    simp only [Res.pure_eq, Res.ok.injEq] at h
    subst h
    simp only [LeafKind.flush] at h1
    obtain ⟨p, h2, h1⟩ := Res.bind_ok_inv h1
    obtain ⟨d, h3, h1⟩ := Res.bind_ok_inv h1
    simp only [Res.pure_eq, Res.ok.injEq] at h1
    subst h1
    obtain ⟨g1, g2⟩ := LeafTag.sized A t _ _ _ _ h3
    obtain ⟨k1, p2, x, k2, k3⟩ := flushFlags_size (c := c) (o := o) (hasNulls := w.hasNulls) (p := w.present) (p1 := p) h2
    cases hn : w.hasNulls with
    | false =>
      refine ⟨.leaf t _, _, by simp only [AnyWriter.writeOut, LeafKind.writeOut, Bool.true_eq_false, and_false, if_false, Bool.false_eq_true,
        Res.ok_bind, Res.pure_eq]; rfl, ?_, ?_⟩
      · simp only [AnyWriter.size, LeafKind.size, Bool.false_eq_true, if_false, g1, g2, Nat.zero_add]
      · simp only [AnyWriter.streamInfos, LeafKind.streamInfos, AnyWriter.size, LeafKind.size, Bool.false_eq_true, if_false, g1, List.nil_append,
          Nat.zero_add]
    | true =>
      rw [hn] at k1 k2 k3
      cases p with
      | none => cases k2
      | some p =>
        simp only [writeOutFlags, if_true, Res.ok.injEq, Prod.mk.injEq] at k2
        simp only [Option.map_some, Option.getD_some, if_true] at k1 k3
        refine ⟨.leaf t _, _, by simp only [AnyWriter.writeOut, LeafKind.writeOut, Bool.true_eq_false, and_false, if_false, if_true,
          Res.ok_bind, Res.pure_eq]; rfl, ?_, ?_⟩
        · simp only [AnyWriter.size, LeafKind.size, if_true, g1, Option.map_some, Option.getD_some, List.length_append, g2, k2.2, k3, k1]
        · simp only [AnyWriter.streamInfos, LeafKind.streamInfos, AnyWriter.size, LeafKind.size, if_true, g1, Option.map_some, Option.getD_some,
            List.map_append, List.sum_append, List.map_cons, List.map_nil, List.sum_cons, List.sum_nil, k1, Nat.add_zero]
  | dict w =>
    simp only [AnyWriter.flush] at h
    obtain ⟨x, h1, h⟩ := Res.bind_ok_inv h
    simp only [Res.pure_eq, Res.ok.injEq] at h
    subst h
    simp only [DictWriter.flush] at h1
    obtain ⟨_, -, h1⟩ := Res.bind_ok_inv h1
    obtain ⟨_, -, h1⟩ := Res.bind_ok_inv h1
    obtain ⟨_, -, h1⟩ := Res.bind_ok_inv h1
    obtain ⟨_, -, h1⟩ := Res.bind_ok_inv h1
    obtain ⟨p, j1, h1⟩ := Res.bind_ok_inv h1
    obtain ⟨d, j2, h1⟩ := Res.bind_ok_inv h1
    obtain ⟨t, j3, h1⟩ := Res.bind_ok_inv h1
    obtain ⟨l, j4, h1⟩ := Res.bind_ok_inv h1
    simp only [Res.pure_eq, Res.ok.injEq] at h1
    subst h1
    obtain ⟨k1, p2, x, k2, k3⟩ := flushFlags_size j1
    have a2 := StreamWriter.flush_size j2
    have a3 := StreamWriter.flush_size j3
    have a4 := StreamWriter.flush_size j4
    refine ⟨_, _, by simp only [AnyWriter.writeOut, DictWriter.writeOut, k2, Res.ok_bind, Res.pure_eq]; rfl, ?_, ?_⟩
    · simp only [AnyWriter.size, DictWriter.size, List.length_append, k3, k1, a2.1, a2.2, a3.1, a3.2, a4.1, a4.2]
    · simp only [AnyWriter.streamInfos, DictWriter.streamInfos, AnyWriter.size, DictWriter.size, k1, a2.1, a3.1, a4.1]
      cases w.hasNulls <;> simp <;> omega
  | struct w =>
    simp only [AnyWriter.flush] at h
    obtain ⟨x, h1, h⟩ := Res.bind_ok_inv h
    simp only [Res.pure_eq, Res.ok.injEq] at h
    subst h
    simp only [StructWriter.flush] at h1
    obtain ⟨p, j1, h1⟩ := Res.bind_ok_inv h1
    simp only [Res.pure_eq, Res.ok.injEq] at h1
    subst h1
    obtain ⟨k1, p2, x, k2, k3⟩ := flushFlags_size j1
    refine ⟨_, _, by simp only [AnyWriter.writeOut, StructWriter.writeOut, Bool.true_eq_false, if_false, k2, Res.ok_bind, Res.pure_eq]; rfl, ?_, ?_⟩
    · simp only [AnyWriter.size, StructWriter.size, k1, k3]
    · simp only [AnyWriter.streamInfos, StructWriter.streamInfos, AnyWriter.size, StructWriter.size, k1]
      cases w.hasNulls <;> simp

/-! ### C79 -/

theorem StreamWriter.write_encodes {σ : Type} {E : Enc σ} {c : Codec} {o : WOpts} {w w1 : StreamWriter σ} {v : GoVal} (h : w.write E c o v = .ok w1) :
    ∃ e, E.encode w.enc v = .ok e := by
  simp only [StreamWriter.write] at h
  obtain ⟨e, h, -⟩ := Res.bind_ok_inv h
  exact ⟨e, h⟩

theorem leaf_takes (A : Arith) (c : Codec) (o : WOpts) (t : LeafTag) (d d1 : t.δ) (v : GoVal) (h : (t.kind A).writeValue c o d v = .ok d1) : t.Takes v := by
  cases t with
  | byte =>
    obtain ⟨e, he⟩ := StreamWriter.write_encodes (E := byteEnc) h
    cases v <;> first | exact ⟨_, rfl⟩ | (exfalso; cases he)
  | bool =>
    obtain ⟨e, he⟩ := StreamWriter.write_encodes (E := boolEnc) h
    cases v <;> first | exact ⟨_, rfl⟩ | (exfalso; cases he)
  | int b =>
    obtain ⟨x, hx, -⟩ := Res.bind_ok_inv h
    cases b <;> cases v <;> first | exact ⟨_, rfl⟩ | (exfalso; cases hx)
  | float is64 =>
    cases is64 with
    | false =>
      obtain ⟨e, he⟩ := StreamWriter.write_encodes (E := floatEnc) h
      cases v <;> first | exact ⟨_, rfl⟩ | (exfalso; cases he)
    | true =>
      obtain ⟨e, he⟩ := StreamWriter.write_encodes (E := doubleEnc) h
      cases v <;> first | exact ⟨_, rfl⟩ | (exfalso; cases he)
  | string => cases v <;> first | exact ⟨_, rfl⟩ | (exfalso; cases h)
  | binary =>
    obtain ⟨x, hx, -⟩ := Res.bind_ok_inv h
    obtain ⟨e, he⟩ := StreamWriter.write_encodes (E := stringEnc) hx
    cases v <;> first | exact ⟨_, rfl⟩ | (exfalso; cases he)
  | date => cases v <;> first | exact ⟨_, rfl⟩ | (exfalso; cases h)
  | timestamp => cases v <;> first | exact ⟨_, _, _, rfl⟩ | (exfalso; cases h)
  | decimal => cases v <;> first | exact ⟨_, _, rfl⟩ | (exfalso; cases h)

/-- **C79** The statistics of a column take no value of another type either; those of bytes and binaries count whatever they get. -/
theorem stats_take (A : Arith) (t : LeafTag) (ht : t ≠ .byte ∧ t ≠ .binary) (s s1 : t.κ) (v : GoVal) (h : (t.kind A).addStats s v = .ok s1) : t.Takes v := by
  cases t with
  | byte => exact absurd rfl ht.1
  | binary => exact absurd rfl ht.2
  | int b =>
    obtain ⟨x, hx, -⟩ := Res.bind_ok_inv h
    cases b <;> cases v <;> first | exact ⟨_, rfl⟩ | (exfalso; cases hx)
  | float is64 =>
    obtain ⟨x, hx, -⟩ := Res.bind_ok_inv h
    cases is64 <;> cases v <;> first | exact ⟨_, rfl⟩ | (exfalso; cases hx)
  | timestamp => cases v <;> first | exact ⟨_, _, _, rfl⟩ | (exfalso; cases h)
  | decimal => cases v <;> first | exact ⟨_, _, rfl⟩ | (exfalso; cases h)
  | _ => cases v <;> first | exact ⟨_, rfl⟩ | (exfalso; cases h)

/-- The tag of a writer. -/
def AnyWriter.tag : AnyWriter → WriterTag
  | .leaf t _ => .leaf t
  | .dict _ => .dict
  | .struct _ => .struct

/-- **C79** A column writer, in whatever state, takes a value that is not null only if it has the Go type of the column:
with any other type `Write` fails or panics. -/
theorem write_takes (A : Arith) (c : Codec) (o : COpts) (w w1 : AnyWriter) (v : GoVal) (h : w.write A c o ⟨false, v⟩ = .ok w1) : w.tag.Takes v := by
  cases w with
  | leaf t w =>
    obtain ⟨x, h1, -⟩ := Res.bind_ok_inv h
    simp only [LeafKind.write] at h1
    obtain ⟨y, -, h1⟩ := Res.bind_ok_inv h1
    obtain ⟨z, h2, -⟩ := Res.bind_ok_inv h1
    simp only [Bool.false_eq_true, if_false, LeafKind.writeNonNull] at h2
    obtain ⟨d, h3, -⟩ := Res.bind_ok_inv h2
    exact leaf_takes A c _ t _ _ v h3
  | dict w =>
    obtain ⟨x, h1, -⟩ := Res.bind_ok_inv h
    simp only [DictWriter.write] at h1
    obtain ⟨y, -, h1⟩ := Res.bind_ok_inv h1
    simp only [Bool.false_eq_true, if_false] at h1
    cases v <;> first | exact ⟨_, rfl⟩ | (exfalso; cases h1)
  | struct w => trivial

theorem leaf_refuses (A : Arith) (c : Codec) (o : WOpts) (t : LeafTag) (d : t.δ) (v : GoVal) (h : ¬ t.Takes v) :
    (t.kind A).writeValue c o d v = (WriterTag.leaf t).refusal := by
  cases t with
  | int b => cases b <;> cases v <;> first | exact absurd ⟨_, rfl⟩ h | rfl
  | float is64 => cases is64 <;> cases v <;> first | exact absurd ⟨_, rfl⟩ h | rfl
  | timestamp => cases v <;> first | exact absurd ⟨_, _, _, rfl⟩ h | rfl
  | decimal => cases v <;> first | exact absurd ⟨_, _, rfl⟩ h | rfl
  | _ => cases v <;> first | exact absurd ⟨_, rfl⟩ h | rfl

/-- **C79, exact** A value of another type, in a column without nulls: for floats, strings and binaries `Write` fails, for the others it panics. -/
theorem write_refuses (A : Arith) (c : Codec) (o : COpts) (w : AnyWriter) (v : GoVal) (h : ¬ w.tag.Takes v)
    (hn : match w with | .leaf _ w => w.hasNulls = false | .dict w => w.hasNulls = false | .struct w => w.hasNulls = false) :
    w.write A c o ⟨false, v⟩ = w.tag.refusal := by
  cases w with
  | leaf t w =>
    have := leaf_refuses A c o.toWOpts t w.data v h
    simp only [AnyWriter.write, LeafKind.write, LeafKind.writePresent, hn, Bool.false_eq_true, if_false, LeafKind.writeNonNull, this, Res.pure_eq, Res.ok_bind, AnyWriter.tag]
    cases t <;> rfl
  | dict w =>
    simp only [AnyWriter.write, DictWriter.write, writeFlag, hn, Bool.false_eq_true, if_false, Res.pure_eq, Res.ok_bind, AnyWriter.tag]
    cases v <;> first | exact absurd ⟨_, rfl⟩ h | rfl
  | struct w => exact absurd trivial h

/-- An `int64` in a column of `int` panics, in a column of strings it is an error. -/
example (A : Arith) (c : Codec) (o : COpts) :
    (AnyWriter.leaf (.int .int) (((LeafTag.int .int).kind A).newWriter o false)).write A c o ⟨false, .i64 5#64⟩ = .panic ∧
    (AnyWriter.leaf .string ((LeafTag.string.kind A).newWriter o false)).write A c o ⟨false, .i64 5#64⟩ = .err .other :=
  ⟨write_refuses A c o _ _ (fun ⟨_, h⟩ => by cases h) rfl, write_refuses A c o _ _ (fun ⟨_, h⟩ => by cases h) rfl⟩

theorem AnyWriter.write_tag {A : Arith} {c : Codec} {o : COpts} {w w1 : AnyWriter} {v : Value} (h : w.write A c o v = .ok w1) : w1.tag = w.tag := by
  cases w <;> (simp only [AnyWriter.write] at h; obtain ⟨x, -, h⟩ := Res.bind_ok_inv h; simp only [Res.pure_eq, Res.ok.injEq] at h; subst h; rfl)

theorem AnyWriter.flush_tag {A : Arith} {c : Codec} {o : COpts} {w w1 : AnyWriter} (h : w.flush A c o = .ok w1) : w1.tag = w.tag := by
  cases w <;> (simp only [AnyWriter.flush] at h; obtain ⟨x, -, h⟩ := Res.bind_ok_inv h; simp only [Res.pure_eq, Res.ok.injEq] at h; subst h; rfl)

theorem AnyWriter.writeOut_tag {A : Arith} {o : COpts} {w : AnyWriter} {x : AnyWriter × Bytes} (h : w.writeOut A o = .ok x) : x.1.tag = w.tag := by
  cases w <;> (simp only [AnyWriter.writeOut] at h; obtain ⟨y, -, h⟩ := Res.bind_ok_inv h; simp only [Res.pure_eq, Res.ok.injEq] at h; subst h; rfl)

theorem AnyWriter.reset_tag {A : Arith} {o : COpts} {w w1 : AnyWriter} (h : w.reset A o = .ok w1) : w1.tag = w.tag := by
  cases w <;> (simp only [AnyWriter.reset] at h; obtain ⟨x, -, h⟩ := Res.bind_ok_inv h; simp only [Res.pure_eq, Res.ok.injEq] at h; subst h; rfl)

theorem AnyWriter.run_takes {A : Arith} {c : Codec} {o : COpts} (ops : List ColOp) {w w1 : AnyWriter} (h : w.run A c o ops = .ok w1) :
    w1.tag = w.tag ∧ ∀ v ∈ rowsWritten ops, ∀ x, v.row = some x → w.tag.Takes x := by
  induction ops generalizing w with
  | nil => cases h; exact ⟨rfl, by simp [rowsWritten]⟩
  | cons op ops ih =>
    cases op with
    | write v =>
      obtain ⟨w2, h1, h2⟩ := Res.bind_ok_inv h
      obtain ⟨g1, g2⟩ := ih h2
      rw [AnyWriter.write_tag h1] at g1 g2
      refine ⟨g1, fun u hu x hx => ?_⟩
      rcases List.mem_cons.mp hu with rfl | hu
      · obtain ⟨n, y⟩ := u
        cases n with
        | true => cases hx
        | false => cases hx; exact write_takes A c o w w2 _ h1
      · exact g2 u hu x hx
    | flush =>
      obtain ⟨w2, h1, h2⟩ := Res.bind_ok_inv h
      rw [← AnyWriter.flush_tag h1]; exact ih h2
    | writeOut =>
      obtain ⟨w2, h1, h2⟩ := Res.bind_ok_inv h
      rw [← AnyWriter.writeOut_tag h1]; exact ih h2
    | reset =>
      obtain ⟨w2, h1, h2⟩ := Res.bind_ok_inv h
      rw [← AnyWriter.reset_tag h1]; exact ih h2

/-- **C79** for files: if writing a table and closing it succeeds, every value that is not null had the Go type of its
column. -/
theorem file_takes (E : Env) (o : FOpts) (schema : Schema) (num : schema.Numbered) (batches : List Vec)
    (hb : ∀ v ∈ batches, ∃ len, schema.Batch len v) (file : Bytes) (h : writeFile E o schema batches = .ok file) :
    ∀ c ∈ schema.columns, c.node.kind ≠ .struct → ∃ t, newWriterTag c.node.kind c.node.encoding = .ok t ∧
      ∀ r ∈ batches.flatMap Vec.tableRows, ∀ x, r.cell c.node.id = some x → t.Takes x := by
  obtain ⟨parts, ft, ps, -, -, hall⟩ := file_column_history E o schema num batches hb file h
  intro c hc hk
  obtain ⟨w0, w, ops, h1, h2, h3, -⟩ := hall c hc (SchemaNode.leaf_hasVector hk)
  simp only [AnyWriter.new] at h1
  obtain ⟨t, g1, h1⟩ := Res.bind_ok_inv h1
  have ht : w0.tag = t := by cases t <;> (simp only [Res.pure_eq, Res.ok.injEq] at h1; subst h1; rfl)
  refine ⟨t, g1, fun r hr x hx => ?_⟩
  have hm : some x ∈ (batches.flatMap Vec.tableRows).map (Row.cell c.node.id) := List.mem_map.2 ⟨r, hr, hx⟩
  rw [← h3] at hm
  obtain ⟨v, hv, hvx⟩ := List.mem_map.1 hm
  rw [← ht]
  exact (AnyWriter.run_takes ops h2).2 v hv x hvx

/-- A `float32` handed to a double column: an error, in any state of the writer without nulls. -/
example (A : Arith) (c : Codec) (o : COpts) (w : ColWriter (LeafTag.float true).δ (LeafTag.float true).κ) (hn : w.hasNulls = false) (x : BitVec 32) :
    (AnyWriter.leaf (.float true) w).write A c o ⟨false, .f32 x⟩ = .err .other := by
  simp [AnyWriter.write, LeafKind.write, LeafKind.writePresent, hn, LeafKind.writeNonNull, LeafTag.kind, floatKind, floatEncoder, StreamWriter.write,
    doubleEnc, doubleEncode]

end Goorc
