import Verif.Proofs.AbsentColumn
import Verif.Proofs.Close
/-
Which streams a column has in a file of this library.
-/
namespace Goorc

/-- What kind of writer, and whether the column has nulls. -/
def AnyWriter.shape : AnyWriter → WriterTag × Bool
  | .leaf t w => (.leaf t, w.hasNulls)
  | .dict w => (.dict, w.hasNulls)
  | .struct w => (.struct, w.hasNulls)

/-- The data streams of a column. -/
def WriterTag.dataKinds : WriterTag → List StreamKind
  | .leaf .byte | .leaf .bool | .leaf (.int _) | .leaf (.float _) | .leaf .date => [.data]
  | .leaf .string | .leaf .binary => [.data, .length]
  | .leaf .timestamp | .leaf .decimal => [.data, .secondary]
  | .dict => [.data, .dictionaryData, .length]
  | .struct => []

theorem AnyWriter.infos_kinds (A : Arith) (w : AnyWriter) :
    (w.streamInfos A).map (·.1) = (if w.shape.2 then [StreamKind.present] else []) ++ w.shape.1.dataKinds := by
  cases w with
  | leaf t w =>
    simp only [AnyWriter.streamInfos, LeafKind.streamInfos, AnyWriter.shape, List.map_append]
    congr 1
    · by_cases h : w.hasNulls = true <;> simp [h]
    · cases t <;> rfl
  | dict w =>
    simp only [AnyWriter.streamInfos, DictWriter.streamInfos, AnyWriter.shape, List.map_append]
    congr 1
    by_cases h : w.hasNulls = true <;> simp [h]
  | struct w =>
    simp only [AnyWriter.streamInfos, StructWriter.streamInfos, AnyWriter.shape]
    by_cases h : w.hasNulls = true <;> simp [h, WriterTag.dataKinds]

theorem AnyWriter.new_shape {A : Arith} {o : COpts} {n : SchemaNode} {w : AnyWriter} (h : AnyWriter.new A o n = .ok w) :
    newWriterTag n.kind n.encoding = .ok w.shape.1 ∧ w.shape.2 = n.hasNulls := by
  simp only [AnyWriter.new] at h
  obtain ⟨t, ht, h⟩ := Res.bind_ok_inv h
  cases t <;> (simp only at h; injection h with h; subst h; exact ⟨ht, rfl⟩)

theorem AnyWriter.write_shape {A : Arith} {c : Codec} {o : COpts} {w w' : AnyWriter} {v : Value} (h : w.write A c o v = .ok w') : w'.shape = w.shape := by
  cases w with
  | leaf t w =>
    simp only [AnyWriter.write] at h
    obtain ⟨x, h1, h⟩ := Res.bind_ok_inv h
    injection h with h; subst h
    simp only [AnyWriter.shape, (LeafKind.write_counts (t.kind A) c o h1).1]
  | dict w =>
    simp only [AnyWriter.write] at h
    obtain ⟨x, h1, h⟩ := Res.bind_ok_inv h
    injection h with h; subst h
    simp only [DictWriter.write] at h1
    obtain ⟨p, _, h1⟩ := Res.bind_ok_inv h1
    by_cases hv : v.null = true
    · rw [if_pos hv] at h1; injection h1 with h1; subst h1; rfl
    · rw [if_neg hv] at h1
      split at h1
      · injection h1 with h1; subst h1; rfl
      · simp at h1
  | struct w =>
    simp only [AnyWriter.write] at h
    obtain ⟨x, h1, h⟩ := Res.bind_ok_inv h
    injection h with h; subst h
    simp only [StructWriter.write] at h1
    by_cases hn : w.hasNulls = true
    · rw [if_pos hn] at h1
      obtain ⟨p, _, h1⟩ := Res.bind_ok_inv h1
      obtain ⟨st, h2, h1⟩ := Res.bind_ok_inv h1
      by_cases hw : o.writeIndex = true
      · rw [if_pos hw] at h1
        simp only [StructWriter.indexRow] at h1
        split at h1
        · simp at h1
        · obtain ⟨is, _, h1⟩ := Res.bind_ok_inv h1
          injection h1 with h1; subst h1
          split <;> rfl
      · rw [if_neg hw] at h1
        injection h1 with h1; subst h1
        rfl
    · rw [if_neg hn] at h1
      injection h1 with h1; subst h1; rfl

theorem AnyWriter.writes_shape {A : Arith} {c : Codec} {o : COpts} : ∀ (vs : List Value) {w w' : AnyWriter}, w.writes A c o vs = .ok w' → w'.shape = w.shape := by
  intro vs
  induction vs with
  | nil => intro w w' h; simp only [AnyWriter.writes] at h; injection h with h; subst h; rfl
  | cons v vs ih =>
    intro w w' h
    simp only [AnyWriter.writes] at h
    obtain ⟨x, h1, h⟩ := Res.bind_ok_inv h
    rw [ih h, AnyWriter.write_shape h1]

theorem AnyWriter.flush_shape {A : Arith} {c : Codec} {o : COpts} {w w' : AnyWriter} (h : w.flush A c o = .ok w') : w'.shape = w.shape := by
  cases w with
  | leaf t w =>
    simp only [AnyWriter.flush] at h
    obtain ⟨x, h1, h⟩ := Res.bind_ok_inv h
    injection h with h; subst h
    simp only [AnyWriter.shape, (leaf_flush_inv h1).1]
  | dict w =>
    simp only [AnyWriter.flush, DictWriter.flush] at h
    obtain ⟨x, h1, h⟩ := Res.bind_ok_inv h
    injection h with h; subst h
    iterate 8 obtain ⟨_, _, h1⟩ := Res.bind_ok_inv h1
    injection h1 with h1; subst h1; rfl
  | struct w =>
    simp only [AnyWriter.flush, StructWriter.flush] at h
    obtain ⟨x, h1, h⟩ := Res.bind_ok_inv h
    injection h with h; subst h
    obtain ⟨_, _, h1⟩ := Res.bind_ok_inv h1
    injection h1 with h1; subst h1; rfl

theorem AnyWriter.writeOut_shape {A : Arith} {o : COpts} {w w' : AnyWriter} {b : Bytes} (h : w.writeOut A o = .ok (w', b)) : w'.shape = w.shape := by
  cases w with
  | leaf t w =>
    simp only [AnyWriter.writeOut] at h
    obtain ⟨⟨x, b'⟩, h1, h⟩ := Res.bind_ok_inv h
    obtain ⟨rfl, rfl⟩ := Prod.mk.inj (Res.ok.inj h)
    simp only [AnyWriter.shape, (leaf_writeOut_inv h1).1]
  | dict w =>
    simp only [AnyWriter.writeOut, DictWriter.writeOut] at h
    obtain ⟨⟨x, b'⟩, h1, h⟩ := Res.bind_ok_inv h
    obtain ⟨rfl, rfl⟩ := Prod.mk.inj (Res.ok.inj h)
    obtain ⟨_, _, h1⟩ := Res.bind_ok_inv h1
    obtain ⟨rfl, rfl⟩ := Prod.mk.inj (Res.ok.inj h1)
    rfl
  | struct w =>
    simp only [AnyWriter.writeOut, StructWriter.writeOut] at h
    obtain ⟨⟨x, b'⟩, h1, h⟩ := Res.bind_ok_inv h
    obtain ⟨rfl, rfl⟩ := Prod.mk.inj (Res.ok.inj h)
    split at h1
    · simp at h1
    · obtain ⟨_, _, h1⟩ := Res.bind_ok_inv h1
      obtain ⟨rfl, rfl⟩ := Prod.mk.inj (Res.ok.inj h1)
      rfl

theorem AnyWriter.reset_shape {A : Arith} {o : COpts} {w w' : AnyWriter} (h : w.reset A o = .ok w') : w'.shape = w.shape := by
  cases w with
  | leaf t w =>
    simp only [AnyWriter.reset] at h
    obtain ⟨x, h1, h⟩ := Res.bind_ok_inv h
    injection h with h; subst h
    simp only [AnyWriter.shape, (leaf_reset_inv h1).1]
  | dict w =>
    simp only [AnyWriter.reset, DictWriter.reset] at h
    obtain ⟨x, h1, h⟩ := Res.bind_ok_inv h
    injection h with h; subst h
    iterate 4 obtain ⟨_, _, h1⟩ := Res.bind_ok_inv h1
    injection h1 with h1; subst h1; rfl
  | struct w =>
    simp only [AnyWriter.reset, StructWriter.reset] at h
    obtain ⟨x, h1, h⟩ := Res.bind_ok_inv h
    injection h with h; subst h
    obtain ⟨_, _, h1⟩ := Res.bind_ok_inv h1
    split at h1
    · split at h1
      · simp at h1
      · injection h1 with h1; subst h1; rfl
    · injection h1 with h1; subst h1; rfl

/-- At the start of every stripe a column has a writer of the shape it had at the start. -/
theorem StripesRun.shaped {E : Env} {o : FOpts} {ns : List SchemaNode} {ws0 : List AnyWriter} {L : List WrittenStripe} (h : StripesRun E o ns ws0 L) (hl : ws0.length = ns.length)
    (hids : ns.map (·.id) = List.range ns.length) (hp : ∀ x ∈ L, ∀ s ∈ x.part.streams, s.1.length = s.2.length) {j : Nat} {n : SchemaNode} (hn : ns[j]? = some n)
    {w0 : AnyWriter} (h0 : ws0[j]? = some w0) : ∀ (k : Nat) (x : WrittenStripe), L[k]? = some x → ∃ w, x.start[j]? = some w ∧ w.shape = w0.shape := by
  intro k
  induction k with
  | zero => intro x hx; exact ⟨w0, by rw [h.head x hx]; exact h0, rfl⟩
  | succ k ih =>
    intro x hx
    have hk : k < L.length := by have := (List.getElem?_eq_some_iff.1 hx).1; omega
    have g := List.getElem?_eq_getElem hk
    obtain ⟨ws3, a, b⟩ := h.run k L[k] g
    have w1 := h.lengths hl hids hp k _ g
    obtain ⟨v, v1, v2⟩ := ih _ g
    obtain ⟨u3, x3, u1, u2, bs, y1, y2, y3, -⟩ := (a.column w1 hids (hp _ (List.getElem_mem hk))).2 j n _ hn v1
    obtain ⟨u4, z1, z2⟩ := (onWriters_at (b x hx)).2 j u3 x3
    exact ⟨u4, z1, by rw [AnyWriter.reset_shape z2, AnyWriter.writeOut_shape y3, AnyWriter.flush_shape y2, AnyWriter.writes_shape _ y1, v2]⟩

/-- The streams of a column in every stripe: the flags if the column has nulls, then the data. -/
theorem StripesRun.kinds {E : Env} {o : FOpts} {ns : List SchemaNode} {ws0 : List AnyWriter} {L : List WrittenStripe} (h : StripesRun E o ns ws0 L) (hl : ws0.length = ns.length)
    (hids : ns.map (·.id) = List.range ns.length) (hp : ∀ x ∈ L, ∀ s ∈ x.part.streams, s.1.length = s.2.length) {j : Nat} {n : SchemaNode} (hn : ns[j]? = some n)
    {w0 : AnyWriter} (h0 : ws0[j]? = some w0) {x : WrittenStripe} (hx : x ∈ L) :
    (x.part.streamsOf j).map (·.1.kind) = (if w0.shape.2 then [StreamKind.present] else []) ++ w0.shape.1.dataKinds := by
  obtain ⟨k, hk⟩ := List.getElem?_of_mem hx
  obtain ⟨ws3, a, -⟩ := h.run k x hk
  have w1 := h.lengths hl hids hp k _ hk
  obtain ⟨v, v1, v2⟩ := h.shaped hl hids hp hn h0 k x hk
  obtain ⟨u3, x3, u1, u2, bs, y1, y2, y3, y4, y5⟩ := (a.column w1 hids (hp _ hx)).2 j n _ hn v1
  have : (x.part.streamsOf j).map (·.1.kind) = (u3.streamInfos E.A).map (·.1) := by
    rw [y5, y4]
    simp [tagged, Bodies.infos]
  rw [this, AnyWriter.infos_kinds, AnyWriter.writeOut_shape y3, AnyWriter.flush_shape y2, AnyWriter.writes_shape _ y1, v2]

end Goorc
