import Verif.Spec.Streams
import Verif.Proofs.StreamWriter
import Verif.Proofs.EncBool
import Verif.Proofs.EncScalar
import Verif.Props.EncByte
import Verif.Props.EncIntDec
namespace Goorc

theorem Yields.append {ρ α : Type} {next : ρ → Res (α × ρ)} {r r1 r2 : ρ} {a b : List α} (h1 : Yields next r a r1)
    (h2 : Yields next r1 b r2) : Yields next r (a ++ b) r2 := by
  induction a generalizing r with
  | nil => simp only [Yields] at h1; subst h1; exact h2
  | cons v a ih =>
    obtain ⟨r', g1, g2⟩ := h1
    exact ⟨r', g1, ih g2⟩

theorem Yields.unique {ρ α : Type} {next : ρ → Res (α × ρ)} {r r1 r2 : ρ} {a : List α} (h1 : Yields next r a r1)
    (h2 : Yields next r a r2) : r1 = r2 := by
  induction a generalizing r with
  | nil => simp only [Yields] at h1 h2; rw [h1, h2]
  | cons v a ih =>
    obtain ⟨r', g1, g2⟩ := h1
    obtain ⟨r'', k1, k2⟩ := h2
    rw [g1] at k1
    simp only [Res.ok.injEq, Prod.mk.injEq, true_and] at k1
    subst k1
    exact ih g2 k2

theorem Yields.split {ρ α : Type} {next : ρ → Res (α × ρ)} {r r2 : ρ} {a b : List α} (h : Yields next r (a ++ b) r2) :
    ∃ r1, Yields next r a r1 ∧ Yields next r1 b r2 := by
  induction a generalizing r with
  | nil => exact ⟨r, rfl, h⟩
  | cons v a ih =>
    obtain ⟨r', g1, g2⟩ := h
    obtain ⟨r1, k1, k2⟩ := ih g2
    exact ⟨r1, ⟨r', g1, k1⟩, k2⟩

/-- A block decoder that never returns an empty block and fails at the end of its input. -/
def GoodBlocks {α : Type} (d : Dec (List α)) : Prop :=
  (∀ s vs r, d.runBuf s = .ok (vs, r) → vs ≠ []) ∧ d.runBuf [] = .err .eof

theorem goodBlocks_byte : GoodBlocks decodeByteRL := by
  refine ⟨fun s vs r h => ?_, rfl⟩
  rcases decodeByteRL_total s with h' | ⟨vs', used, rest, h', -, -, h1, -⟩
  · rw [h'] at h; cases h
  · rw [h'] at h
    simp only [Res.ok.injEq, Prod.mk.injEq] at h
    rintro rfl
    rw [h.1] at h1; simp at h1

theorem goodBlocks_int : GoodBlocks (decodeInt true) := by
  refine ⟨fun s vs r h => ?_, rfl⟩
  have := ((int_decode_patched_partial s).2 vs r h).1
  rintro rfl
  simp at this

theorem goodBlocks_uint : GoodBlocks (decodeUInt false) := by
  refine ⟨fun s vs r h => ?_, rfl⟩
  rcases int_decode_total_partial false s (by simp) with ⟨e, h'⟩ | ⟨vs', used, rest, h', -, -, h1, -⟩
  · simp only [Bool.false_eq_true, if_false] at h'
    rw [h'] at h; cases h
  · simp only [Bool.false_eq_true, if_false] at h'
    rw [h'] at h
    simp only [Res.ok.injEq, Prod.mk.injEq] at h
    rintro rfl
    rw [h.1] at h1; simp at h1

theorem goodBlocks_dates : GoodBlocks decodeDates := by
  refine ⟨fun s vs r h => ?_, rfl⟩
  simp only [decodeDates, Dec.runBuf_bind] at h
  obtain ⟨⟨days, rest⟩, h1, h2⟩ := Res.bind_ok_inv h
  simp only [Dec.pure_eq, Dec.runBuf_ret, Res.ok.injEq, Prod.mk.injEq] at h2
  have := goodBlocks_int.1 _ _ _ h1
  rw [← h2.1]
  simpa using this

/-- The block reader still has to deliver exactly `vs`. -/
def BlockReader.Rep {α : Type} (d : Dec (List α)) (c : Codec) (r : BlockReader α) (vs : List α) : Prop :=
  ∃ flat ws, r.stream.Represents c flat ∧ Decodes d flat ws ∧ vs = r.values ++ ws

theorem BlockReader.Rep.fresh {α : Type} {d : Dec (List α)} {c : Codec} {s : StreamReader} {flat : Bytes} {vs : List α}
    (h : s.Represents c flat) (hd : Decodes d flat vs) : BlockReader.Rep d c ⟨s, []⟩ vs := ⟨flat, vs, h, hd, rfl⟩

theorem BlockReader.next_spec {α : Type} {d : Dec (List α)} (hd : GoodBlocks d) {c : Codec} {r : BlockReader α} {v : α} {vs : List α}
    (h : r.Rep d c (v :: vs)) : ∃ r', r.next d c = .ok (v, r') ∧ r'.Rep d c vs ∧ r.stream.Same r'.stream := by
  obtain ⟨flat, ws, h1, h2, h3⟩ := h
  cases hv : r.values with
  | cons x xs =>
    rw [hv] at h3
    simp only [List.cons_append, List.cons.injEq] at h3
    obtain ⟨rfl, h3⟩ := h3
    refine ⟨{ r with values := xs }, ?_, ⟨flat, ws, h1, h2, h3⟩, StreamReader.Same.refl _⟩
    simp only [BlockReader.next, hv]
  | nil =>
    rw [hv, List.nil_append] at h3
    subst h3
    generalize hw : v :: vs = l at h2
    cases h2 with
    | nil => cases hw
    | @cons s rest blk ws' hrun hl ht =>
      have hne := hd.1 _ _ _ hrun
      cases blk with
      | nil => exact absurd rfl hne
      | cons x xs =>
        simp only [List.cons_append, List.cons.injEq] at hw
        obtain ⟨rfl, rfl⟩ := hw
        obtain ⟨s', k1, k2, k3⟩ := runStream_ok c d r.stream _ h1 _ _ hrun
        refine ⟨⟨s', xs⟩, ?_, ⟨_, _, k2, ht, rfl⟩, k3⟩
        simp only [BlockReader.next, hv, k1, Res.ok_bind]

theorem BlockReader.end_spec {α : Type} {d : Dec (List α)} (hd : GoodBlocks d) {c : Codec} {r : BlockReader α}
    (h : r.Rep d c []) : ∃ e, r.next d c = .err e := by
  obtain ⟨flat, ws, h1, h2, h3⟩ := h
  have h4 := List.append_eq_nil_iff.mp h3.symm
  obtain ⟨h4, rfl⟩ := h4
  have hflat : flat = [] := by
    generalize hw : ([] : List α) = l at h2
    cases h2 with
    | nil => rfl
    | @cons s rest blk ws' hrun hl ht =>
      have := List.append_eq_nil_iff.mp hw.symm
      exact absurd this.1 (hd.1 _ _ _ hrun)
  subst hflat
  have := runStream_sim c d r.stream [] h1
  rw [hd.2] at this
  obtain ⟨e, he⟩ := this
  exact ⟨e, by simp only [BlockReader.next, h4, he]; rfl⟩

theorem BlockReader.finished_spec {α : Type} {d : Dec (List α)} (hd : GoodBlocks d) {c : Codec} {r : BlockReader α} {vs : List α}
    (h : r.Rep d c vs) : r.finished = true ↔ vs = [] := by
  obtain ⟨flat, ws, h1, h2, rfl⟩ := h
  simp only [BlockReader.finished, Bool.and_eq_true, finished_iff c _ _ h1, List.isEmpty_iff, List.append_eq_nil_iff]
  constructor
  · rintro ⟨rfl, h4⟩
    refine ⟨h4, ?_⟩
    generalize hs : ([] : Bytes) = s at h2
    cases h2 with
    | nil => rfl
    | cons hrun hl ht => subst hs; simp at hl
  · rintro ⟨h4, rfl⟩
    refine ⟨?_, h4⟩
    generalize hw : ([] : List α) = l at h2
    cases h2 with
    | nil => rfl
    | @cons s rest blk ws' hrun hl ht =>
      have := List.append_eq_nil_iff.mp hw.symm
      exact absurd this.1 (hd.1 _ _ _ hrun)

theorem BlockReader.yields_spec {α : Type} {d : Dec (List α)} (hd : GoodBlocks d) {c : Codec} (a b : List α) {r : BlockReader α}
    (h : r.Rep d c (a ++ b)) : ∃ r', Yields (BlockReader.next d c) r a r' ∧ r'.Rep d c b ∧ r.stream.Same r'.stream := by
  induction a generalizing r with
  | nil => exact ⟨r, rfl, h, StreamReader.Same.refl _⟩
  | cons v a ih =>
    obtain ⟨r1, g1, g2, g3⟩ := BlockReader.next_spec hd h
    obtain ⟨r2, k1, k2, k3⟩ := ih g2
    exact ⟨r2, ⟨r1, g1, k1⟩, k2, g3.trans k3⟩

theorem BlockReader.skip_spec {α : Type} {d : Dec (List α)} (hd : GoodBlocks d) {c : Codec} (a b : List α) {r : BlockReader α}
    (h : r.Rep d c (a ++ b)) : ∃ r', BlockReader.skip d c a.length r = .ok r' ∧ r'.Rep d c b ∧ r.stream.Same r'.stream := by
  induction a generalizing r with
  | nil => exact ⟨r, rfl, h, StreamReader.Same.refl _⟩
  | cons v a ih =>
    obtain ⟨r1, g1, g2, g3⟩ := BlockReader.next_spec hd h
    obtain ⟨r2, k1, k2, k3⟩ := ih g2
    exact ⟨r2, by simp only [List.length_cons, BlockReader.skip, g1, Res.ok_bind, k1], k2, g3.trans k3⟩

theorem BlockReader.seek_spec {α : Type} {d : Dec (List α)} (hd : GoodBlocks d) {c : Codec} {r : BlockReader α} {chunk off : Nat}
    {flat : Bytes} {s : StreamReader} (hs : r.stream.seek c chunk off = .ok s) (hr : s.Represents c flat) (a b : List α)
    (h : Decodes d flat (a ++ b)) : ∃ r', r.seek d c chunk off a.length = .ok r' ∧ r'.Rep d c b ∧ s.Same r'.stream := by
  obtain ⟨r', k1, k2, k3⟩ := BlockReader.skip_spec hd (r := ⟨s, []⟩) a b (.fresh hr h)
  exact ⟨r', by simp only [BlockReader.seek, hs, Res.ok_bind, k1], k2, k3⟩

/-! ### Booleans -/

def BoolReader.Rep (c : Codec) (r : BoolReader) (bs : List Bool) : Prop :=
  ∃ bytes : Bytes, r.reader.Rep decodeByteRL c bytes ∧ bs = r.values ++ bytes.flatMap boolsOfByte

theorem boolsOfByte_cons (b : Byte) : ∃ v vs, boolsOfByte b = v :: vs := by
  cases h : boolsOfByte b with
  | nil => have := boolsOfByte_length b; rw [h] at this; simp at this
  | cons v vs => exact ⟨v, vs, rfl⟩

theorem BoolReader.next_spec {c : Codec} {r : BoolReader} {v : Bool} {vs : List Bool} (h : r.Rep c (v :: vs)) :
    ∃ r', r.next c = .ok (v, r') ∧ r'.Rep c vs ∧ r.reader.stream.Same r'.reader.stream := by
  obtain ⟨bytes, h1, h3⟩ := h
  cases hv : r.values with
  | cons x xs =>
    rw [hv] at h3
    simp only [List.cons_append, List.cons.injEq] at h3
    obtain ⟨rfl, h3⟩ := h3
    refine ⟨{ r with values := xs }, ?_, ⟨bytes, h1, h3⟩, StreamReader.Same.refl _⟩
    simp only [BoolReader.next, hv]
  | nil =>
    rw [hv, List.nil_append] at h3
    cases bytes with
    | nil => simp at h3
    | cons b bytes =>
      obtain ⟨br, g1, g2, g3⟩ := BlockReader.next_spec goodBlocks_byte h1
      obtain ⟨x, xs, hx⟩ := boolsOfByte_cons b
      rw [List.flatMap_cons, hx] at h3
      simp only [List.cons_append, List.cons.injEq] at h3
      obtain ⟨rfl, h3⟩ := h3
      refine ⟨⟨br, xs⟩, ?_, ⟨bytes, g2, h3⟩, g3⟩
      simp only [BoolReader.next, hv, ByteReader.nextByte, g1, Res.ok_bind, hx]

theorem BoolReader.end_spec {c : Codec} {r : BoolReader} (h : r.Rep c []) : ∃ e, r.next c = .err e := by
  obtain ⟨bytes, h1, h3⟩ := h
  have h4 := List.append_eq_nil_iff.mp h3.symm
  have hb : bytes = [] := by
    cases bytes with
    | nil => rfl
    | cons b bytes =>
      obtain ⟨x, xs, hx⟩ := boolsOfByte_cons b
      have := h4.2
      rw [List.flatMap_cons, hx] at this
      simp at this
  subst hb
  obtain ⟨e, he⟩ := BlockReader.end_spec goodBlocks_byte h1
  exact ⟨e, by simp only [BoolReader.next, h4.1, ByteReader.nextByte, he]; rfl⟩

theorem BoolReader.finished_spec {c : Codec} {r : BoolReader} {bs : List Bool} (h : r.Rep c bs) : r.finished = true ↔ bs = [] := by
  obtain ⟨bytes, h1, rfl⟩ := h
  simp only [BoolReader.finished, Bool.and_eq_true, BlockReader.finished_spec goodBlocks_byte h1, List.isEmpty_iff,
    List.append_eq_nil_iff]
  constructor
  · rintro ⟨rfl, h⟩; exact ⟨h, rfl⟩
  · rintro ⟨h, h'⟩
    refine ⟨?_, h⟩
    cases bytes with
    | nil => rfl
    | cons b bytes =>
      obtain ⟨x, xs, hx⟩ := boolsOfByte_cons b
      rw [List.flatMap_cons, hx] at h'
      simp at h'

theorem BoolReader.yields_spec {c : Codec} (a b : List Bool) {r : BoolReader} (h : r.Rep c (a ++ b)) :
    ∃ r', Yields (BoolReader.next c) r a r' ∧ r'.Rep c b ∧ r.reader.stream.Same r'.reader.stream := by
  induction a generalizing r with
  | nil => exact ⟨r, rfl, h, StreamReader.Same.refl _⟩
  | cons v a ih =>
    obtain ⟨r1, g1, g2, g3⟩ := BoolReader.next_spec h
    obtain ⟨r2, k1, k2, k3⟩ := ih g2
    exact ⟨r2, ⟨r1, g1, k1⟩, k2, g3.trans k3⟩

theorem BoolReader.skip_spec {c : Codec} (a b : List Bool) {r : BoolReader} (h : r.Rep c (a ++ b)) :
    ∃ r', BoolReader.skip c a.length r = .ok r' ∧ r'.Rep c b ∧ r.reader.stream.Same r'.reader.stream := by
  induction a generalizing r with
  | nil => exact ⟨r, rfl, h, StreamReader.Same.refl _⟩
  | cons v a ih =>
    obtain ⟨r1, g1, g2, g3⟩ := BoolReader.next_spec h
    obtain ⟨r2, k1, k2, k3⟩ := ih g2
    exact ⟨r2, by simp only [List.length_cons, BoolReader.skip, g1, Res.ok_bind, k1], k2, g3.trans k3⟩

theorem BoolReader.fresh {c : Codec} {s : StreamReader} {flat bytes : Bytes} (h : s.Represents c flat)
    (hd : Decodes decodeByteRL flat bytes) : (newBoolReader s).Rep c (bytes.flatMap boolsOfByte) :=
  ⟨bytes, .fresh h hd, rfl⟩

theorem BoolReader.seek_spec {c : Codec} {r : BoolReader} {chunk off : Nat} {flat : Bytes} {s : StreamReader}
    (hs : r.reader.stream.seek c chunk off = .ok s) (hr : s.Represents c flat) (p : Bytes) (bytes : Bytes)
    (h : Decodes decodeByteRL flat (p ++ bytes)) (a b : List Bool) (hab : bytes.flatMap boolsOfByte = a ++ b) :
    ∃ r', r.seek c chunk off p.length a.length = .ok r' ∧ r'.Rep c b ∧ s.Same r'.reader.stream := by
  obtain ⟨br, g1, g2, g3⟩ := BlockReader.seek_spec goodBlocks_byte hs hr p bytes h
  obtain ⟨r', k1, k2, k3⟩ := BoolReader.skip_spec (r := ⟨br, []⟩) a b (c := c) ⟨bytes, g2, by rw [hab]; rfl⟩
  refine ⟨r', ?_, k2, g3.trans k3⟩
  simp only [BoolReader.seek, ByteReader.seekByte, g1, Res.ok_bind, k1]

/-! ### Integers -/

/-- The decoder an integer reader uses. -/
def IntReader.dec (signed : Bool) : Dec (List U64) := if signed then decodeInt true else decodeUInt false

/-- `NextInt64` or `NextUInt64`, whichever fits the reader. -/
def IntReader.next (c : Codec) (r : IntReader) : Res (U64 × IntReader) := if r.signed then r.nextInt64 c else r.nextUInt64 c

theorem goodBlocks_intReader (signed : Bool) : GoodBlocks (IntReader.dec signed) := by
  cases signed
  · exact goodBlocks_uint
  · exact goodBlocks_int

def IntReader.Rep (c : Codec) (r : IntReader) (vs : List U64) : Prop := r.block.Rep (IntReader.dec r.signed) c vs

theorem IntReader.next_spec {c : Codec} {r : IntReader} {v : U64} {vs : List U64} (h : r.Rep c (v :: vs)) :
    ∃ r', r.next c = .ok (v, r') ∧ r'.Rep c vs ∧ r.block.stream.Same r'.block.stream ∧ r'.signed = r.signed := by
  obtain ⟨b, g1, g2, g3⟩ := BlockReader.next_spec (goodBlocks_intReader r.signed) h
  refine ⟨{ r with block := b }, ?_, g2, g3, rfl⟩
  obtain ⟨sg, blk⟩ := r
  cases sg
  · simp only [IntReader.next, IntReader.nextUInt64, Bool.false_eq_true, if_false]
    simp only [BlockReader.next, IntReader.dec, Bool.false_eq_true, if_false] at g1
    cases hv : blk.values with
    | cons x xs =>
      simp only [hv, Res.ok.injEq, Prod.mk.injEq] at g1 ⊢
      obtain ⟨rfl, rfl⟩ := g1
      exact ⟨rfl, rfl⟩
    | nil =>
      simp only [hv] at g1 ⊢
      obtain ⟨⟨vs', s'⟩, h1, h2⟩ := Res.bind_ok_inv g1
      rw [h1, Res.ok_bind]
      cases vs' with
      | nil => cases h2
      | cons x xs =>
        simp only [Res.ok.injEq, Prod.mk.injEq] at h2 ⊢
        obtain ⟨rfl, rfl⟩ := h2
        exact ⟨rfl, rfl⟩
  · simp only [IntReader.next, IntReader.nextInt64, if_true, Bool.not_true, Bool.false_eq_true, if_false]
    simp only [IntReader.dec, if_true] at g1
    rw [g1]; rfl

theorem IntReader.end_spec {c : Codec} {r : IntReader} (h : r.Rep c []) : ∃ e, r.next c = .err e := by
  obtain ⟨e, g1⟩ := BlockReader.end_spec (goodBlocks_intReader r.signed) h
  refine ⟨e, ?_⟩
  obtain ⟨sg, blk⟩ := r
  cases sg
  · simp only [IntReader.next, IntReader.nextUInt64, Bool.false_eq_true, if_false]
    simp only [BlockReader.next, IntReader.dec, Bool.false_eq_true, if_false] at g1
    cases hv : blk.values with
    | cons x xs => simp only [hv] at g1; cases g1
    | nil =>
      simp only [hv] at g1 ⊢
      cases hrun : Dec.runStream c (decodeUInt false) blk.stream with
      | ok p =>
        rw [hrun] at g1
        simp only [Res.ok_bind] at g1
        obtain ⟨vs', s'⟩ := p
        cases vs' <;> simp at g1
      | err e' => rw [hrun] at g1; simpa using g1
      | panic => rw [hrun] at g1; simp at g1
      | hang => rw [hrun] at g1; simp at g1
  · simp only [IntReader.next, IntReader.nextInt64, if_true, Bool.not_true, Bool.false_eq_true, if_false]
    simp only [IntReader.dec, if_true] at g1
    rw [g1]; rfl

theorem IntReader.finished_spec {c : Codec} {r : IntReader} {vs : List U64} (h : r.Rep c vs) : r.finished = true ↔ vs = [] :=
  BlockReader.finished_spec (goodBlocks_intReader r.signed) h

theorem IntReader.yields_spec {c : Codec} (a b : List U64) {r : IntReader} (h : r.Rep c (a ++ b)) :
    ∃ r', Yields (IntReader.next c) r a r' ∧ r'.Rep c b ∧ r.block.stream.Same r'.block.stream ∧ r'.signed = r.signed := by
  induction a generalizing r with
  | nil => exact ⟨r, rfl, h, StreamReader.Same.refl _, rfl⟩
  | cons v a ih =>
    obtain ⟨r1, g1, g2, g3, g4⟩ := IntReader.next_spec h
    obtain ⟨r2, k1, k2, k3, k4⟩ := ih g2
    exact ⟨r2, ⟨r1, g1, k1⟩, k2, g3.trans k3, k4.trans g4⟩

theorem IntReader.skip_spec {c : Codec} (a b : List U64) {r : IntReader} (h : r.Rep c (a ++ b)) :
    ∃ r', IntReader.skip c a.length r = .ok r' ∧ r'.Rep c b ∧ r.block.stream.Same r'.block.stream ∧ r'.signed = r.signed := by
  induction a generalizing r with
  | nil => exact ⟨r, rfl, h, StreamReader.Same.refl _, rfl⟩
  | cons v a ih =>
    obtain ⟨r1, g1, g2, g3, g4⟩ := IntReader.next_spec h
    obtain ⟨r2, k1, k2, k3, k4⟩ := ih g2
    refine ⟨r2, ?_, k2, g3.trans k3, k4.trans g4⟩
    simp only [IntReader.next] at g1
    simp only [List.length_cons, IntReader.skip]
    by_cases hsg : r.signed = true
    · rw [if_pos hsg] at g1 ⊢
      rw [g1, Res.ok_bind]
      exact k1
    · rw [if_neg hsg] at g1 ⊢
      rw [g1, Res.ok_bind]
      exact k1

theorem IntReader.fresh {c : Codec} {signed : Bool} {s : StreamReader} {flat : Bytes} {vs : List U64} (h : s.Represents c flat)
    (hd : Decodes (IntReader.dec signed) flat vs) : (newIntReader signed s).Rep c vs := ⟨flat, vs, h, hd, rfl⟩

theorem IntReader.seek_spec {c : Codec} {r : IntReader} {chunk off : Nat} {flat : Bytes} {s : StreamReader}
    (hs : r.block.stream.seek c chunk off = .ok s) (hr : s.Represents c flat) (a b : List U64)
    (h : Decodes (IntReader.dec r.signed) flat (a ++ b)) :
    ∃ r', r.seek c chunk off a.length = .ok r' ∧ r'.Rep c b ∧ s.Same r'.block.stream ∧ r'.signed = r.signed := by
  obtain ⟨r', k1, k2, k3, k4⟩ := IntReader.skip_spec (r := { r with block := ⟨s, []⟩ }) a b (c := c) (IntReader.fresh hr h)
  exact ⟨r', by simp only [IntReader.seek, hs, Res.ok_bind, k1], k2, k3, k4⟩

/-- If decoding until the end succeeds, the bytes are a sequence of blocks. -/
theorem decodes_of_decodeAll {α : Type} {d : Dec (List α)} (hp : ∀ s vs r, d.runBuf s = .ok (vs, r) → r.length < s.length)
    {s : Bytes} {vs : List α} (h : decodeAll d s = .ok vs) : Decodes d s vs := by
  have : ∀ fuel (s : Bytes) vs, decodeAllFuel d fuel s = .ok vs → Decodes d s vs := by
    intro fuel
    induction fuel with
    | zero =>
      intro s vs h
      cases s with
      | nil => simp only [decodeAllFuel, Res.ok.injEq] at h; subst h; exact .nil
      | cons b s => cases h
    | succ fuel ih =>
      intro s vs h
      cases s with
      | nil => simp only [decodeAllFuel, Res.ok.injEq] at h; subst h; exact .nil
      | cons b s =>
        simp only [decodeAllFuel] at h
        obtain ⟨⟨blk, rest⟩, h1, h⟩ := Res.bind_ok_inv h
        obtain ⟨tail, h2, h⟩ := Res.bind_ok_inv h
        simp only [Res.pure_eq, Res.ok.injEq] at h
        subst h
        exact .cons h1 (hp _ _ _ h1) (ih _ _ h2)
  exact this _ _ _ h

theorem intDec_progress (signed : Bool) (s : Bytes) (vs : List U64) (r : Bytes)
    (h : (IntReader.dec signed).runBuf s = .ok (vs, r)) : r.length < s.length := by
  cases signed
  · rcases int_decode_total_partial false s (by simp) with ⟨e, h'⟩ | ⟨vs', used, rest, h', hs, h0, -⟩
    · simp only [IntReader.dec, Bool.false_eq_true, if_false] at h' h
      rw [h'] at h; cases h
    · simp only [IntReader.dec, Bool.false_eq_true, if_false] at h' h
      rw [h'] at h
      simp only [Res.ok.injEq, Prod.mk.injEq] at h
      rw [hs, List.length_append, h.2]; omega
  · exact ((int_decode_patched_partial s).2 vs r h).2.2

/-! ### Values of known size -/

/-- The stream holds exactly the values `vs`, each as `put v`. -/
def ScalarRep {α : Type} (put : α → Bytes) (c : Codec) (r : StreamReader) (vs : List α) : Prop := r.Represents c (vs.flatMap put)

theorem scalar_next {α : Type} (d : Dec α) (put : α → Bytes) (hd : ∀ v rest, d.runBuf (put v ++ rest) = .ok (v, rest)) {c : Codec}
    {r : StreamReader} {v : α} {vs : List α} (h : ScalarRep put c r (v :: vs)) :
    ∃ r', d.runStream c r = .ok (v, r') ∧ ScalarRep put c r' vs ∧ r.Same r' := by
  refine runStream_ok c d r _ h v _ ?_
  rw [List.flatMap_cons]
  exact hd v _

theorem scalar_end {α : Type} (d : Dec α) (put : α → Bytes) (hd : d.runBuf [] = .err .eof) {c : Codec} {r : StreamReader}
    (h : ScalarRep put c r []) : ∃ e, d.runStream c r = .err e := by
  have := runStream_sim c d r _ h
  rw [List.flatMap_nil, hd] at this
  exact this

theorem scalar_finished {α : Type} (put : α → Bytes) (hp : ∀ v, put v ≠ []) {c : Codec} {r : StreamReader} {vs : List α}
    (h : ScalarRep put c r vs) : r.finished = true ↔ vs = [] := by
  rw [finished_iff c r _ h]
  cases vs with
  | nil => simp
  | cons v vs =>
    rw [List.flatMap_cons, List.append_eq_nil_iff]
    exact ⟨fun hh => absurd hh.1 (hp v), fun hh => by cases hh⟩

theorem scalar_yields {α : Type} (d : Dec α) (put : α → Bytes) (hd : ∀ v rest, d.runBuf (put v ++ rest) = .ok (v, rest)) {c : Codec}
    (a b : List α) {r : StreamReader} (h : ScalarRep put c r (a ++ b)) :
    ∃ r', Yields (Dec.runStream c d) r a r' ∧ ScalarRep put c r' b ∧ r.Same r' := by
  induction a generalizing r with
  | nil => exact ⟨r, rfl, h, StreamReader.Same.refl _⟩
  | cons v a ih =>
    obtain ⟨r1, g1, g2, g3⟩ := scalar_next d put hd h
    obtain ⟨r2, k1, k2, k3⟩ := ih g2
    exact ⟨r2, ⟨r1, g1, k1⟩, k2, g3.trans k3⟩

theorem strings_yields {c : Codec} (a b : List Bytes) {r : StreamReader} (hfit : ∀ v ∈ a, v.length < 2 ^ 63) (h : ScalarRep id c r (a ++ b)) :
    ∃ r', YieldsStrings c r a r' ∧ ScalarRep id c r' b ∧ r.Same r' := by
  induction a generalizing r with
  | nil => exact ⟨r, rfl, h, StreamReader.Same.refl _⟩
  | cons v a ih =>
    obtain ⟨r1, g1, g2, g3⟩ := runStream_ok c (decodeBytes v.length) r _ h v ((a ++ b).flatMap id) (by
      rw [List.cons_append, List.flatMap_cons]
      exact Dec.runBuf_full_append _ _ _ rfl)
    obtain ⟨r2, k1, k2, k3⟩ := ih (fun x hx => hfit x (List.mem_cons_of_mem _ hx)) g2
    exact ⟨r2, ⟨r1, by rw [nextBytes, if_pos (hfit v List.mem_cons_self)]; exact g1, k1⟩, k2, g3.trans k3⟩

end Goorc
