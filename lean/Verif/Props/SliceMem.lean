import Verif.Model.SliceMem
import Verif.Props.Stream
/-
C76, first half: `GetAllUInts`. The reader and its decoder share memory.
-/
namespace Goorc

variable {grow : Nat → Nat → Nat}

/-! ### Slices -/

/-- A slice of an array that exists, within it. -/
def Heap.Has (h : Heap) (s : Sl) : Prop := s.arr < h.length ∧ s.len ≤ (h.array s).length

theorem Heap.array_set_ne {h : Heap} {i : Nat} {a : List U64} {s : Sl} (hne : i ≠ s.arr) : Heap.array (h.set i a) s = h.array s := by
  rw [Heap.array, Heap.array, List.getElem?_set_ne hne]

theorem Heap.array_set_eq {h : Heap} {a : List U64} {s : Sl} (hs : s.arr < h.length) : Heap.array (h.set s.arr a) s = a := by
  rw [Heap.array, List.getElem?_set_self hs]; rfl

theorem Heap.array_append_lt {h h' : Heap} {s : Sl} (hs : s.arr < h.length) : Heap.array (h ++ h') s = h.array s := by
  rw [Heap.array, Heap.array, List.getElem?_append_left hs]

theorem Heap.array_append_new {h : Heap} {a : List U64} {n : Nat} : Heap.array (h ++ [a]) ⟨h.length, n⟩ = a := by
  rw [Heap.array, List.getElem?_append_right (Nat.le_refl _), Nat.sub_self]; rfl

/-- What `append` does: to its slice, to the array of its slice, and to the other arrays. -/
theorem Heap.append_spec {h : Heap} {s : Sl} (hs : h.Has s) (vs : List U64) :
    let m := h.append grow s vs
    m.1.read m.2 = h.read s ++ vs ∧ m.1.Has m.2 ∧ m.2.len = s.len + vs.length ∧ h.length ≤ m.1.length ∧
      (∀ t : Sl, t.arr < h.length → t.arr ≠ s.arr → m.1.array t = h.array t) ∧
      ((s.len + vs.length ≤ (h.array s).length ∧ m.2.arr = s.arr ∧ m.1.array s = (h.array s).take s.len ++ vs ++ (h.array s).drop (s.len + vs.length)) ∨
        ((h.array s).length < s.len + vs.length ∧ m.2.arr = h.length ∧ m.1.array s = h.array s)) := by
  obtain ⟨h1, h2⟩ := hs
  simp only [Heap.append]
  split
  · rename_i hle
    have hl : ((h.array s).take s.len ++ vs ++ (h.array s).drop (s.len + vs.length)).length = (h.array s).length := by
      simp only [List.length_append, List.length_take, List.length_drop]; omega
    have he : Heap.array (h.set s.arr ((h.array s).take s.len ++ vs ++ (h.array s).drop (s.len + vs.length))) ⟨s.arr, s.len + vs.length⟩ = (h.array s).take s.len ++ vs ++ (h.array s).drop (s.len + vs.length) :=
      Heap.array_set_eq (s := ⟨s.arr, s.len + vs.length⟩) h1
    refine ⟨?_, ⟨by simpa using h1, ?_⟩, rfl, by simp, fun t ht hne => Heap.array_set_ne (Ne.symm hne), .inl ⟨hle, rfl, Heap.array_set_eq h1⟩⟩
    · rw [Heap.read, he]
      simp only
      rw [List.take_left' (by simp only [List.length_append, List.length_take]; omega)]
      rfl
    · rw [he, hl]; exact hle
  · rename_i hle
    refine ⟨?_, ⟨by simp, ?_⟩, rfl, by simp, fun t ht hne => Heap.array_append_lt ht, .inr ⟨by omega, rfl, Heap.array_append_lt h1⟩⟩
    · rw [Heap.read, Heap.array_append_new]
      simp only
      rw [List.take_left' (by simp only [List.length_append, List.length_take]; omega)]
      rfl
    · rw [Heap.array_append_new]
      simp only [List.length_append, List.length_take]; omega

/-- One by one. -/
theorem Heap.appendEach_spec (vs : List U64) : ∀ {h : Heap} {s : Sl}, h.Has s →
    let m := h.appendEach grow s vs
    m.1.read m.2 = h.read s ++ vs ∧ m.1.Has m.2 ∧ m.2.len = s.len + vs.length ∧ h.length ≤ m.1.length ∧
      (∀ t : Sl, t.arr < h.length → t.arr ≠ s.arr → m.1.array t = h.array t) ∧
      (m.2.arr = s.arr ∨ h.length ≤ m.2.arr) ∧
      m.1.array s = (h.array s).take s.len ++ vs.take ((h.array s).length - s.len) ++ (h.array s).drop (s.len + vs.length) := by
  induction vs with
  | nil =>
    intro h s hs
    refine ⟨by simp [Heap.appendEach], hs, rfl, Nat.le_refl _, fun _ _ _ => rfl, .inl rfl, ?_⟩
    simp [Heap.appendEach]
  | cons v vs ih =>
    intro h s hs
    obtain ⟨a1, a2, a3, a4, a5, a6⟩ := Heap.append_spec (grow := grow) hs [v]
    obtain ⟨b1, b2, b3, b4, b5, b6, b7⟩ := ih a2
    simp only [List.length_singleton] at a3 a6
    rw [show h.appendEach grow s (v :: vs) = (h.append grow s [v]).1.appendEach grow (h.append grow s [v]).2 vs from rfl]
    simp only
    refine ⟨?_, b2, ?_, Nat.le_trans a4 b4, ?_, ?_, ?_⟩
    · rw [b1, a1, List.append_assoc]; rfl
    · rw [b3, a3, List.length_cons]; omega
    · intro t ht hne
      rw [b5 t (Nat.lt_of_lt_of_le ht a4) ?_, a5 t ht hne]
      rcases a6 with ⟨-, k, -⟩ | ⟨-, k, -⟩
      · rw [k]; exact hne
      · rw [k]; omega
    · rcases a6 with ⟨-, k, -⟩ | ⟨-, k, -⟩
      · rcases b6 with l | l
        · left; rw [l, k]
        · right; omega
      · rcases b6 with l | l
        · right; rw [l, k]; exact Nat.le_refl _
        · right; omega
    · rcases a6 with ⟨k0, k, k2⟩ | ⟨k0, k, k2⟩
      · -- in place
        have e1 : ∀ hh : Heap, hh.array (h.append grow s [v]).2 = hh.array s := fun hh => by rw [Heap.array, Heap.array, k]
        rw [e1, e1, k2, a3] at b7
        rw [b7]
        have l1 : ((h.array s).take s.len ++ [v] ++ (h.array s).drop (s.len + 1)).length = (h.array s).length := by
          simp only [List.length_append, List.length_take, List.length_drop, List.length_singleton]; omega
        rw [l1]
        have l2 : ((h.array s).take s.len ++ [v]).length = s.len + 1 := by
          simp only [List.length_append, List.length_take, List.length_singleton]; omega
        rw [List.take_left' l2]
        have l3 : ((h.array s).take s.len ++ [v] ++ (h.array s).drop (s.len + 1)).drop (s.len + 1 + vs.length) = (h.array s).drop (s.len + (v :: vs).length) := by
          rw [← List.drop_drop, List.drop_left' l2, List.drop_drop, List.length_cons]
          congr 1; omega
        rw [l3]
        obtain ⟨q, hq⟩ := Nat.exists_eq_add_of_le k0
        rw [show (h.array s).length - s.len = (h.array s).length - (s.len + 1) + 1 by omega, List.take_succ_cons]
        simp
      · -- in a new array
        have hs1 : s.arr < h.length := hs.1
        rw [b5 s (Nat.lt_of_lt_of_le hs1 a4) (by rw [k]; omega), k2]
        have := hs.2
        have e0 : (h.array s).length = s.len := by omega
        rw [← e0, Nat.sub_self, List.take_zero, List.take_length, List.drop_eq_nil_of_le (by omega)]
        simp

/-! ### `NextUInt64` does not see the memory -/

namespace UIntReader

/-- Both slices are within arrays that exist. -/
def Own (r : UIntReader) : Prop := r.heap.Has r.uvs ∧ r.heap.Has r.uvalues ∧ r.pos ≤ r.uvalues.len

/-- The reader without memory: the stream, and the values not delivered yet. -/
def plain (r : UIntReader) : IntReader := ⟨false, ⟨r.stream, (r.heap.read r.uvalues).drop r.pos⟩⟩

theorem new_own (s : StreamReader) : (newUIntReader s).Own := by
  refine ⟨⟨by simp [newUIntReader], ?_⟩, ⟨by simp [newUIntReader], ?_⟩, Nat.le_refl _⟩ <;> exact Nat.zero_le _

theorem read_length {h : Heap} {s : Sl} (hs : h.Has s) : (h.read s).length = s.len := by
  rw [Heap.read, List.length_take, Nat.min_eq_left hs.2]

theorem zero_has {h : Heap} {s : Sl} (hs : h.Has s) : h.Has { s with len := 0 } := ⟨hs.1, Nat.zero_le _⟩

/-- What decoding a block does to the memory. -/
theorem decode_spec {c : Codec} {r r' : UIntReader} (own : r.Own) (h : r.decode grow c = .ok r') :
    ∃ vs, (decodeUInt false).runStream c r.stream = .ok (vs, r'.stream) ∧ r'.uvalues = r.uvalues ∧ r'.pos = r.pos ∧ r'.heap.read r'.uvs = vs ∧ r'.heap.Has r'.uvs ∧ r'.uvs.len = vs.length ∧
      r.heap.length ≤ r'.heap.length ∧ (∀ t : Sl, t.arr < r.heap.length → t.arr ≠ r.uvs.arr → r'.heap.array t = r.heap.array t) ∧
      (r'.uvs.arr = r.uvs.arr ∨ r.heap.length ≤ r'.uvs.arr) ∧ r'.heap.array r.uvs = vs.take (r.heap.array r.uvs).length ++ (r.heap.array r.uvs).drop vs.length := by
  rw [decode] at h
  obtain ⟨⟨vs, s⟩, e1, h⟩ := Res.bind_ok_inv h
  cases h
  obtain ⟨b1, b2, b3, b4, b5, b6, b7⟩ := Heap.appendEach_spec (grow := grow) vs (zero_has own.1)
  refine ⟨vs, e1, rfl, rfl, ?_, b2, by simpa using b3, b4, b5, b6, ?_⟩
  · simpa [Heap.read] using b1
  · have : ∀ hh : Heap, hh.array { r.uvs with len := 0 } = hh.array r.uvs := fun _ => rfl
    simpa [this] using b7

/-- The other slice, if it is in another array. -/
theorem decode_keeps {c : Codec} {r r' : UIntReader} (own : r.Own) (h : r.decode grow c = .ok r') : r'.Own ∧ (r.uvalues.arr ≠ r.uvs.arr → r'.heap.read r.uvalues = r.heap.read r.uvalues) := by
  obtain ⟨vs, -, e2, e3, -, e5, -, e7, e8, -, e10⟩ := decode_spec own h
  have hl : (r'.heap.array r.uvalues).length = (r.heap.array r.uvalues).length := by
    by_cases hne : r.uvalues.arr = r.uvs.arr
    · have : ∀ hh : Heap, hh.array r.uvalues = hh.array r.uvs := fun hh => by rw [Heap.array, Heap.array, hne]
      rw [this, this, e10]
      simp only [List.length_append, List.length_take, List.length_drop]
      omega
    · rw [e8 _ own.2.1.1 hne]
  refine ⟨⟨e5, ?_, ?_⟩, fun hne => ?_⟩
  · rw [e2]; exact ⟨Nat.lt_of_lt_of_le own.2.1.1 e7, by rw [hl]; exact own.2.1.2⟩
  · rw [e2, e3]; exact own.2.2
  · rw [Heap.read, Heap.read, e8 _ own.2.1.1 hne]

/-- **C76** `NextUInt64` delivers what it would deliver if slices were values. -/
theorem next_plain {c : Codec} {r : UIntReader} (own : r.Own) : r.plain.nextUInt64 c = (r.next grow c).bind fun x => .ok (x.1, x.2.plain) := by
  have hlen := read_length own.2.1
  by_cases hp : r.pos ≥ r.uvalues.len
  · have hnil : (r.heap.read r.uvalues).drop r.pos = [] := List.drop_eq_nil_of_le (by omega)
    rw [next, if_pos hp]
    simp only [IntReader.nextUInt64, plain, Bool.false_eq_true, if_false, hnil]
    cases hd : r.decode grow c with
    | ok r1 =>
      obtain ⟨vs, e1, -, -, e4, e5, e6, -⟩ := decode_spec own hd
      rw [e1]
      simp only [Res.ok_bind]
      cases vs with
      | nil =>
        rw [if_pos (by simpa using e6)]
        rfl
      | cons v vs =>
        rw [if_neg (by simp [e6])]
        simp only [Res.pure_eq, Res.ok_bind, e4, List.getElem?_cons_zero]
        simp [Res.bind, e4]
    | err e =>
      rw [decode] at hd
      cases hx : (decodeUInt false).runStream c r.stream with
      | ok x => rw [hx] at hd; cases hd
      | err e' => rw [hx] at hd; cases hd; rfl
      | panic => rw [hx] at hd; cases hd
      | hang => rw [hx] at hd; cases hd
    | panic =>
      rw [decode] at hd
      cases hx : (decodeUInt false).runStream c r.stream with
      | ok x => rw [hx] at hd; cases hd
      | err e' => rw [hx] at hd; cases hd
      | panic => rfl
      | hang => rw [hx] at hd; cases hd
    | hang =>
      rw [decode] at hd
      cases hx : (decodeUInt false).runStream c r.stream with
      | ok x => rw [hx] at hd; cases hd
      | err e' => rw [hx] at hd; cases hd
      | panic => rw [hx] at hd; cases hd
      | hang => rfl
  · have hlt : r.pos < (r.heap.read r.uvalues).length := by omega
    rw [next, if_neg hp]
    simp only [IntReader.nextUInt64, plain, Bool.false_eq_true, if_false, Res.pure_eq, Res.ok_bind, List.getElem?_eq_getElem hlt]
    rw [List.drop_eq_getElem_cons hlt]
    rfl

theorem next_own {c : Codec} {r r' : UIntReader} {v : U64} (own : r.Own) (h : r.next grow c = .ok (v, r')) : r'.Own ∧ (r.uvalues = r.uvs → r'.uvalues = r'.uvs) := by
  rw [next] at h
  by_cases hp : r.pos ≥ r.uvalues.len
  · rw [if_pos hp] at h
    obtain ⟨r1, e2, h⟩ := Res.bind_ok_inv h
    obtain ⟨vs, -, -, -, -, f5, -, -⟩ := decode_spec own e2
    by_cases hz : r1.uvs.len = 0
    · rw [if_pos hz] at h; cases h
    · rw [if_neg hz] at h
      simp only [Res.pure_eq, Res.ok_bind] at h
      split at h
      · rename_i hg
        cases h
        have hlt := (List.getElem?_eq_some_iff.1 hg).1
        rw [read_length f5] at hlt
        exact ⟨⟨f5, f5, by simp only at hlt ⊢; omega⟩, fun _ => rfl⟩
      · cases h
  · rw [if_neg hp] at h
    simp only [Res.pure_eq, Res.ok_bind] at h
    split at h
    · cases h
      exact ⟨⟨own.1, own.2.1, by simp only; omega⟩, fun e => e⟩
    · cases h

/-- The values one by one. -/
theorem yields_plain {c : Codec} (vs : List U64) : ∀ {r : UIntReader} {q : IntReader}, r.Own → Yields (IntReader.nextUInt64 c) r.plain vs q →
    ∃ r', Yields (next grow c) r vs r' ∧ r'.Own ∧ r'.plain = q ∧ (r.uvalues = r.uvs → r'.uvalues = r'.uvs) := by
  induction vs with
  | nil => intro r q own h; exact ⟨r, rfl, own, h.symm, fun e => e⟩
  | cons v vs ih =>
    intro r q own h
    obtain ⟨r1, h1, h2⟩ := h
    rw [next_plain (grow := grow) own] at h1
    obtain ⟨⟨v', r2⟩, h3, h4⟩ := Res.bind_ok_inv (x := r.next grow c) h1
    injection h4 with h4
    injection h4 with h5 h6
    subst h5
    subst h6
    obtain ⟨o1, o2⟩ := next_own own h3
    obtain ⟨r3, k1, k2, k3, k4⟩ := ih o1 h2
    exact ⟨r3, ⟨r2, h3, k1⟩, k2, k3, fun e => k4 (o2 e)⟩

/-! ### `GetAllUInts` -/

/-- The slices share no memory that matters. -/
def Apart (r : UIntReader) : Prop := r.uvalues.arr ≠ r.uvs.arr ∨ r.heap.array r.uvs = []

theorem getAll_apart {c : Codec} {flat : Bytes} {ws : List U64} (hd : Decodes (decodeUInt false) flat ws) : ∀ {r : UIntReader} {fuel : Nat}, r.Own → r.Apart → r.stream.Represents c flat → ws.length ≤ fuel →
    ∃ r', r.getAll grow c fuel = .ok (r.heap.read r.uvalues ++ ws, r') ∧ r'.heap.read r'.uvalues = r.heap.read r.uvalues ++ ws ∧ r'.pos = r.pos ∧ r'.stream.Represents c [] ∧ r'.Own := by
  induction hd with
  | nil =>
    intro r fuel own _ hs _
    have : r.stream.finished = true := (finished_iff c r.stream _ hs).mpr rfl
    refine ⟨r, ?_, by simp, rfl, hs, own⟩
    cases fuel <;> simp [getAll, this]
  | @cons t u xs ys h hl _ ih =>
    intro r fuel own apart hs hf
    have hne : t ≠ [] := by rintro rfl; simp at hl
    have hfin : ¬ r.stream.finished = true := fun hh => hne ((finished_iff c r.stream _ hs).mp hh)
    have hx : xs ≠ [] := (goodBlocks_intReader false).1 _ _ _ h
    cases fuel with
    | zero => cases xs <;> simp_all
    | succ fuel =>
      obtain ⟨s1, k1, k2, -⟩ := runStream_ok c (decodeUInt false) r.stream _ hs _ _ h
      have hdec : ∃ r1, r.decode grow c = .ok r1 := by rw [decode, k1]; exact ⟨_, rfl⟩
      obtain ⟨r1, hdec⟩ := hdec
      obtain ⟨vs, e1, e2, e3, e4, e5, e6, e7, e8, e9, e10⟩ := decode_spec own hdec
      rw [k1] at e1
      injection e1 with e1
      injection e1 with e1 e1'
      subst e1
      obtain ⟨own1, keep⟩ := decode_keeps own hdec
      -- after decoding, the slices are apart
      have hread : r1.heap.read r.uvalues = r.heap.read r.uvalues := by
        by_cases hd : r.uvalues.arr = r.uvs.arr
        · have hnil : r.heap.array r.uvs = [] := apart.resolve_left (fun hh => hh hd)
          have ha : ∀ hh : Heap, hh.array r.uvalues = hh.array r.uvs := fun hh => by rw [Heap.array, Heap.array, hd]
          rw [Heap.read, Heap.read, ha, ha, e10, hnil]
          simp
        · exact keep hd
      have hap : r1.uvalues.arr ≠ r1.uvs.arr := by
        rw [e2]
        rcases e9 with e9 | e9
        · rw [e9]
          rcases apart with hd | hnil
          · exact hd
          · exfalso
            have hh := e5.2
            have : r1.heap.array r1.uvs = r1.heap.array r.uvs := by rw [Heap.array, Heap.array, e9]
            rw [this, e10, hnil, e6] at hh
            simp only [List.length_nil, List.take_zero, List.drop_nil, List.append_nil] at hh
            exact hx (List.length_eq_zero_iff.1 (by omega))
        · have := own.2.1.1; omega
      obtain ⟨a1, a2, a3, a4, a5, a6⟩ := Heap.append_spec (grow := grow) own1.2.1 (r1.heap.read r1.uvs)
      have hlt : r1.uvs.arr < r1.heap.length := e5.1
      have e11 := a5 r1.uvs hlt (Ne.symm hap)
      obtain ⟨r', m1, m2, m3, m4, m5⟩ := ih (r := { r1 with heap := (r1.heap.append grow r1.uvalues (r1.heap.read r1.uvs)).1, uvalues := (r1.heap.append grow r1.uvalues (r1.heap.read r1.uvs)).2 }) (fuel := fuel)
        ⟨⟨Nat.lt_of_lt_of_le hlt a4, by rw [e11]; exact e5.2⟩, a2, by simp only; rw [a3, e3, e2]; have := own.2.2; omega⟩
        (by
          left
          simp only
          rcases a6 with ⟨-, k, -⟩ | ⟨-, k, -⟩
          · rw [k]; exact hap
          · rw [k]; omega)
        (by rw [← e1']; exact k2)
        (by cases xs with
          | nil => exact absurd rfl hx
          | cons => simp at hf; omega)
      have e12 : (r1.heap.append grow r1.uvalues (r1.heap.read r1.uvs)).1.read (r1.heap.append grow r1.uvalues (r1.heap.read r1.uvs)).2 ++ ys = r.heap.read r.uvalues ++ (xs ++ ys) := by
        rw [a1, e2, hread, e4, List.append_assoc]
      simp only at m1 m2 m3
      rw [e12] at m1 m2
      refine ⟨r', ?_, m2, by rw [m3, e3], m4, m5⟩
      rw [getAll, if_neg hfin]
      simp only [hdec, Res.ok_bind]
      exact m1

end UIntReader

/-- **C76** Of a stream none of whose values has been read, `GetAllUInts` returns all values; then they can still be read one by one. `fuel` bounds its loop. -/
theorem uints_at_once (c : Codec) (hc : c.Lossless) (o : WOpts) (ho : o.Sound) (vs : List U64) (h : ReadsBackU vs) :
    ∃ body, writeStream intEnc c o (newIntRLV2 false o.writeIndex) (vs.map .u64) = .ok body ∧ ∀ grow pre post fuel, vs.length ≤ fuel →
      ∃ r r', (newUIntReader (streamAt o pre body post)).getAll grow c fuel = .ok (vs, r) ∧ Yields (UIntReader.next grow c) r vs r' ∧ r'.finished = true := by
  obtain ⟨out, h1, h2⟩ := h o.writeIndex
  obtain ⟨body, g1, g2⟩ := writeStream_spec intEnc c hc o ho _ _ out h1
  refine ⟨body, g1, fun grow pre post fuel hf => ?_⟩
  obtain ⟨r, k1, k2, k3, k4, k5⟩ := UIntReader.getAll_apart (grow := grow) (decodes_of_decodeAll (intDec_progress false) h2) (UIntReader.new_own (streamAt o pre body post)) (.inr rfl) (g2 pre post) hf
  have e0 : (newUIntReader (streamAt o pre body post)).heap.read (newUIntReader (streamAt o pre body post)).uvalues = [] := rfl
  rw [e0, List.nil_append] at k1 k2
  have e1 : (newUIntReader (streamAt o pre body post)).pos = 0 := rfl
  rw [e1] at k3
  have hrep : r.plain.Rep c (vs ++ []) := ⟨[], [], k4, .nil, by simp [UIntReader.plain, k2, k3]⟩
  obtain ⟨q, n1, n2, -, -⟩ := IntReader.yields_spec vs [] hrep
  obtain ⟨r', p1, p2, p3, -⟩ := UIntReader.yields_plain (grow := grow) vs k5 ((yields_uint (r := r.plain) rfl).mp n1)
  refine ⟨r, r', k1, p1, ?_⟩
  have hfin := (IntReader.finished_spec n2).mpr rfl
  rw [← p3] at hfin
  simp only [IntReader.finished, BlockReader.finished, UIntReader.plain, Bool.and_eq_true, List.isEmpty_iff, List.drop_eq_nil_iff, UIntReader.read_length p2.2.1] at hfin
  simp only [UIntReader.finished, hfin.1, Bool.true_and, decide_eq_true_eq]
  exact Nat.le_antisymm p2.2.2 hfin.2

/-- **C76, refuted** If values of the current block have been read, `GetAllUInts` does not return what is left, nor the block and what is left: the next block is decoded into the memory of the current one. Here is what it
returns if one block is left: `n` values of the current block have been decoded, of which the first ones are overwritten by those of the next block. -/
theorem uints_at_once_overwritten {c : Codec} {grow : Nat → Nat → Nat} {r : UIntReader} (own : r.Own) (shared : r.uvalues = r.uvs) {next : List U64} {s : StreamReader} (more : r.stream.finished = false)
    (hd : (decodeUInt false).runStream c r.stream = .ok (next, s)) (last : s.finished = true) (fuel : Nat) :
    ∃ r', r.getAll grow c (fuel + 1) = .ok (next.take r.uvalues.len ++ (r.heap.read r.uvalues).drop next.length ++ next, r') := by
  have hdec : ∃ r1, r.decode grow c = .ok r1 := by rw [UIntReader.decode, hd]; exact ⟨_, rfl⟩
  obtain ⟨r1, hdec⟩ := hdec
  obtain ⟨vs, e1, e2, e3, e4, e5, e6, e7, e8, e9, e10⟩ := UIntReader.decode_spec own hdec
  rw [hd] at e1
  injection e1 with e1
  injection e1 with e1 e1'
  subst e1
  obtain ⟨own1, -⟩ := UIntReader.decode_keeps own hdec
  obtain ⟨a1, -⟩ := Heap.append_spec (grow := grow) own1.2.1 (r1.heap.read r1.uvs)
  have hread : r1.heap.read r1.uvalues = next.take r.uvalues.len ++ (r.heap.read r.uvalues).drop next.length := by
    have hle := own.2.1.2
    rw [e2, Heap.read, shared, e10, Heap.read]
    rw [shared] at hle
    rw [List.take_append, List.take_take, Nat.min_eq_left hle, List.drop_take]
    congr 2
    rw [List.length_take]
    omega
  have e12 : (r1.heap.append grow r1.uvalues (r1.heap.read r1.uvs)).1.read (r1.heap.append grow r1.uvalues (r1.heap.read r1.uvs)).2 = next.take r.uvalues.len ++ (r.heap.read r.uvalues).drop next.length ++ next := by
    rw [a1, hread, e4]
  refine ⟨{ r1 with heap := (r1.heap.append grow r1.uvalues (r1.heap.read r1.uvs)).1, uvalues := (r1.heap.append grow r1.uvalues (r1.heap.read r1.uvs)).2 }, ?_⟩
  rw [UIntReader.getAll, if_neg (by simp [more])]
  simp only [hdec, Res.ok_bind]
  rw [UIntReader.getAll.eq_def]
  simp only
  rw [if_pos (by rw [← e1']; exact last), e12]

/-- The hypothesis that the memory is shared: so it is whenever values are being read one by one. -/
theorem reading_shares {c : Codec} {grow : Nat → Nat → Nat} (s : StreamReader) (vs : List U64) (r : UIntReader) (h : Yields (UIntReader.next grow c) (newUIntReader s) vs r) : r.Own ∧ r.uvalues = r.uvs := by
  have key : ∀ (vs : List U64) (q : UIntReader), q.Own → q.uvalues = q.uvs → Yields (UIntReader.next grow c) q vs r → r.Own ∧ r.uvalues = r.uvs := by
    intro vs
    induction vs with
    | nil => intro q o e h; cases h; exact ⟨o, e⟩
    | cons v vs ih =>
      intro q o e h
      obtain ⟨q1, h1, h2⟩ := h
      obtain ⟨o1, e1⟩ := UIntReader.next_own o h1
      exact ih q1 o1 (e1 e) h2
  exact key vs _ (UIntReader.new_own s) rfl h

/-- **C76** One by one, the memory does not matter: a reader delivers the same values with it and without. -/
theorem uints_one_by_one {c : Codec} {grow : Nat → Nat → Nat} (s : StreamReader) (vs : List U64) : (∃ r, Yields (UIntReader.next grow c) (newUIntReader s) vs r) ↔ ∃ q, Yields (IntReader.nextUInt64 c) (newIntReader false s) vs q := by
  have key : ∀ (vs : List U64) (r r' : UIntReader), r.Own → Yields (UIntReader.next grow c) r vs r' → ∃ q, Yields (IntReader.nextUInt64 c) r.plain vs q := by
    intro vs
    induction vs with
    | nil => intro r r' _ _; exact ⟨_, rfl⟩
    | cons v vs ih =>
      intro r r' own h
      obtain ⟨r1, h1, h2⟩ := h
      obtain ⟨q, k⟩ := ih r1 r' (UIntReader.next_own own h1).1 h2
      exact ⟨q, r1.plain, by rw [UIntReader.next_plain (grow := grow) own, h1]; rfl, k⟩
  constructor
  · rintro ⟨r, h⟩
    exact key vs _ _ (UIntReader.new_own s) h
  · rintro ⟨q, h⟩
    obtain ⟨r, h1, -⟩ := UIntReader.yields_plain (grow := grow) (r := newUIntReader s) vs (UIntReader.new_own s) h
    exact ⟨r, h1⟩

/-- Two runs, of three 5 and of three 7, in a stream that is not compressed. -/
def twoRuns : StreamReader := newStreamReader .none 64 0 4 [0x00, 5, 0x00, 7]

/-- **C76, refuted** After 5 has been read once, 5 5 7 7 7 are left; at once come 7 7 7 7 7 7. Whatever arrays Go makes. -/
theorem uints_at_once_wrong (c : Codec) (grow : Nat → Nat → Nat) (fuel : Nat) : ∃ r r', Yields (UIntReader.next grow c) (newUIntReader twoRuns) [5] r ∧ (∃ q, Yields (UIntReader.next grow c) r [5, 5, 7, 7, 7] q) ∧
    r.getAll grow c (fuel + 1) = .ok ([7, 7, 7, 7, 7, 7], r') := by
  have hall : ∃ q, Yields (IntReader.nextUInt64 c) (newIntReader false twoRuns) [5, 5, 5, 7, 7, 7] q := by
    refine ⟨_, _, rfl, _, rfl, _, rfl, _, rfl, _, rfl, _, rfl, rfl⟩
  obtain ⟨q, r, h1, h2⟩ := (uints_one_by_one (grow := grow) twoRuns _).2 hall
  have hr : Yields (UIntReader.next grow c) (newUIntReader twoRuns) [5] r := ⟨r, h1, rfl⟩
  obtain ⟨own, shared⟩ := reading_shares _ _ _ hr
  have hd1 : (decodeUInt false).runStream c twoRuns = .ok ([5, 5, 5], { twoRuns with pos := 4, readLength := 4, buf := [0x00, 7] }) := rfl
  have hd2 : (decodeUInt false).runStream c { twoRuns with pos := 4, readLength := 4, buf := [0x00, 7] } = .ok ([7, 7, 7], { twoRuns with pos := 4, readLength := 4, buf := [] }) := rfl
  have hf1 : StreamReader.finished { twoRuns with pos := 4, readLength := 4, buf := [0x00, 7] } = false := rfl
  have hf2 : StreamReader.finished { twoRuns with pos := 4, readLength := 4, buf := [] } = true := rfl
  have h3 := h1
  rw [UIntReader.next, if_pos (show (newUIntReader twoRuns).pos ≥ (newUIntReader twoRuns).uvalues.len from Nat.le_refl _)] at h3
  obtain ⟨r1, e2, h3⟩ := Res.bind_ok_inv h3
  obtain ⟨vs, f1, -, -, f4, -, f6, -⟩ := UIntReader.decode_spec (UIntReader.new_own twoRuns) e2
  have f1 : (decodeUInt false).runStream c twoRuns = .ok (vs, r1.stream) := f1
  rw [hd1] at f1
  injection f1 with f1
  injection f1 with f1 f2
  subst f1
  rw [if_neg (by simp [f6])] at h3
  simp only [Res.pure_eq, Res.ok_bind, f4, List.getElem?_cons_zero] at h3
  cases h3
  obtain ⟨r', g⟩ := uints_at_once_overwritten (c := c) (grow := grow) (r := { r1 with uvalues := r1.uvs, pos := 1 }) (next := [7, 7, 7]) (s := { twoRuns with pos := 4, readLength := 4, buf := [] }) own shared
    (f2 ▸ hf1) (f2 ▸ hd2) hf2 fuel
  refine ⟨_, r', hr, ⟨q, h2⟩, ?_⟩
  simp only [f4, f6] at g
  exact g

/-- A sequence `uints_at_once` applies to. -/
example : ReadsBackU (List.replicate 1000 3) :=
  uint_const_roundtrip_partial 1000 3 (by decide) ⟨1, by decide, by decide, by decide, by decide⟩

end Goorc
