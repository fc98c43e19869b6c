import Verif.Spec.Files
/-
What is taken for granted of protocol buffers can be had: an encoding of the messages of a file.
-/
namespace Goorc

/-- Values that can be told from the beginning of a byte string. -/
class Coded (α : Type) where
  enc : α → Bytes
  inj : ∀ (a b : α) (x y : Bytes), enc a ++ x = enc b ++ y → a = b ∧ x = y

namespace Coded

/-- By way of another type. -/
def of {α β : Type} [Coded β] (f : α → β) (h : ∀ a b, f a = f b → a = b) : Coded α where
  enc a := enc (f a)
  inj a b x y e := by
    obtain ⟨e1, e2⟩ := inj _ _ _ _ e
    exact ⟨h a b e1, e2⟩

instance : Coded Nat where
  enc n := List.replicate n 1#8 ++ [0#8]
  inj := by
    intro a
    induction a with
    | zero =>
      intro b x y h
      cases b with
      | zero => simpa using h
      | succ b => simp [List.replicate_succ] at h
    | succ a ih =>
      intro b x y h
      cases b with
      | zero => simp [List.replicate_succ] at h
      | succ b =>
        simp only [List.replicate_succ, List.cons_append, List.cons.injEq, true_and] at h
        obtain ⟨e1, e2⟩ := ih b x y h
        exact ⟨by rw [e1], e2⟩

instance {α β : Type} [Coded α] [Coded β] : Coded (α × β) where
  enc a := enc a.1 ++ enc a.2
  inj a b x y h := by
    rw [List.append_assoc, List.append_assoc] at h
    obtain ⟨e1, h⟩ := inj _ _ _ _ h
    obtain ⟨e2, h⟩ := inj _ _ _ _ h
    exact ⟨Prod.ext e1 e2, h⟩

instance : Coded Bool := of (fun b => if b then 1 else 0) (by decide)

instance (n : Nat) : Coded (BitVec n) where
  enc v := (List.range n).map fun i => if v.getLsbD i then 1#8 else 0#8
  inj a b x y h := by
    obtain ⟨e1, e2⟩ := List.append_inj h (by simp)
    refine ⟨?_, e2⟩
    ext i hi
    have := congrArg (fun l => l[i]?) e1
    simp only [List.getElem?_map, List.getElem?_range hi, Option.map_some, Option.some.injEq] at this
    rw [← BitVec.getLsbD_eq_getElem, ← BitVec.getLsbD_eq_getElem]
    revert this
    cases a.getLsbD i <;> cases b.getLsbD i <;> simp

instance {α : Type} [Coded α] : Coded (Option α) where
  enc
    | none => [0#8]
    | some a => 1#8 :: enc a
  inj a b x y h := by
    cases a <;> cases b <;> simp at h
    · exact ⟨rfl, h⟩
    · obtain ⟨e1, e2⟩ := inj _ _ _ _ h
      exact ⟨by rw [e1], e2⟩

/-- A list, each element announced by a one. -/
def encList {α : Type} [Coded α] : List α → Bytes
  | [] => [0#8]
  | a :: as => 1#8 :: (enc a ++ encList as)

instance {α : Type} [Coded α] : Coded (List α) where
  enc := encList
  inj a := by
    induction a with
    | nil =>
      intro b x y h
      cases b with
      | nil => simpa [encList] using h
      | cons b bs => simp [encList] at h
    | cons a as ih =>
      intro b x y h
      cases b with
      | nil => simp [encList] at h
      | cons b bs =>
        simp only [encList, List.cons_append, List.cons.injEq, true_and, List.append_assoc] at h
        obtain ⟨e1, h⟩ := inj _ _ _ _ h
        obtain ⟨e2, h⟩ := ih bs x y h
        exact ⟨by rw [e1, e2], h⟩

instance : Coded String := of (fun s => s.toList.map fun c => c.toNat) (fun a b h =>
  String.toList_inj.1 ((List.map_inj_right (fun _ _ h => Char.ext (UInt32.toNat_inj.1 h))).1 h))

instance : Coded StreamKind := of (fun s => s.ctorIdx) (by intro a b; cases a <;> cases b <;> decide)
instance : Coded Encoding := of (fun s => s.ctorIdx) (by intro a b; cases a <;> cases b <;> decide)
instance : Coded CompKind := of (fun s => s.ctorIdx) (by intro a b; cases a <;> cases b <;> decide)
instance : Coded TypeKind := of (fun s => s.ctorIdx) (by intro a b; cases a <;> cases b <;> decide)
instance : Coded IntBits := of (fun s => s.ctorIdx) (by intro a b; cases a <;> cases b <;> decide)
instance : Coded StripeInfo := of (fun s => (s.offset, s.indexLength, s.dataLength, s.footerLength, s.numberOfRows)) (by rintro ⟨⟩ ⟨⟩ h; simpa using h)
instance : Coded StreamInfo := of (fun s => (s.kind, s.column, s.length)) (by rintro ⟨⟩ ⟨⟩ h; simpa using h)
instance : Coded StripeFooter := of (fun s => (s.streams, s.columns)) (by rintro ⟨⟩ ⟨⟩ h; simpa using h)
instance : Coded PbType := of (fun s => (s.kind, s.subtypes, s.names)) (by rintro ⟨⟩ ⟨⟩ h; simpa using h)
instance : Coded PostScript := of (fun s => (s.footerLength, s.compression, s.blockSize, s.metadataLength, s.version, s.magic)) (by rintro ⟨⟩ ⟨⟩ h; simpa using h)
instance : Coded IntStats := of (fun s => (s.min, s.max, s.sum)) (by rintro ⟨⟩ ⟨⟩ h; simpa using h)
instance : Coded DoubleStats := of (fun s => (s.min, s.max, s.sum)) (by rintro ⟨⟩ ⟨⟩ h; simpa using h)
instance : Coded DateStats := of (fun s => (s.min, s.max)) (by rintro ⟨⟩ ⟨⟩ h; simpa using h)
instance : Coded TsStats := of (fun s => (s.min, s.max, s.minUtc, s.maxUtc)) (by rintro ⟨⟩ ⟨⟩ h; simpa using h)
instance : Coded DecStats := of (fun s => (s.min, s.max, s.sum)) (by rintro ⟨⟩ ⟨⟩ h; simpa using h)
instance : Coded StringStats := of (fun s => (s.min, s.max, s.lower, s.upper, s.sum)) (by rintro ⟨⟩ ⟨⟩ h; simpa using h)
instance {κ : Type} [Coded κ] : Coded (ColStats κ) := of (fun s => (s.typed, s.hasNull, s.numberOfValues, s.bytesOnDisk)) (by rintro ⟨⟩ ⟨⟩ h; simpa using h)

instance : Coded LeafTag := of (fun t => match t with
  | .byte => (0, (none : Option IntBits), false) | .bool => (1, none, false) | .int b => (2, some b, false) | .float b => (3, none, b) | .string => (4, none, false)
  | .binary => (5, none, false) | .date => (6, none, false) | .timestamp => (7, none, false) | .decimal => (8, none, false)) (by
  intro a b; cases a <;> cases b <;> simp)

instance (t : LeafTag) : Coded t.κ := by cases t <;> dsimp only [LeafTag.κ] <;> infer_instance

instance : Coded AnyStats where
  enc
    | .leaf t s => 0#8 :: (enc t ++ enc s)
    | .dict s => 1#8 :: enc s
    | .struct s => 2#8 :: enc s
  inj a b x y h := by
    cases a <;> cases b <;> simp at h
    · obtain ⟨e1, h⟩ := inj _ _ _ _ h
      subst e1
      obtain ⟨e2, h⟩ := inj _ _ _ _ h
      exact ⟨by rw [e2], h⟩
    · obtain ⟨e2, h⟩ := inj _ _ _ _ h
      exact ⟨by rw [e2], h⟩
    · obtain ⟨e2, h⟩ := inj _ _ _ _ h
      exact ⟨by rw [e2], h⟩

instance : Coded FileFooter := of (fun s => (s.headerLength, s.contentLength, s.numberOfRows, s.stripes, s.types, s.statistics, s.rowIndexStride))
  (by rintro ⟨⟩ ⟨⟩ h; simpa using h)

theorem injective {α : Type} [Coded α] {a b : α} (h : enc a = enc b) : a = b := (inj a b [] [] (by simpa using h)).1

end Coded

open Classical in
/-- What was encoded. -/
noncomputable def decodeOf {α : Type} (f : α → Bytes) (b : Bytes) : Option α := if h : ∃ a, f a = b then some h.choose else none

theorem decodeOf_left {α : Type} {f : α → Bytes} (hf : ∀ a b, f a = f b → a = b) (a : α) : decodeOf f (f a) = some a := by
  have h : ∃ b, f b = f a := ⟨a, rfl⟩
  simp only [decodeOf, dif_pos h, Option.some.injEq]
  exact hf _ _ h.choose_spec

/-- The usual postscripts are short. -/
def encPost (p : PostScript) : Bytes :=
  if p.footerLength < 2 ^ 63 ∧ p.blockSize < 2 ^ 63 ∧ p.metadataLength = 0 ∧ p.version = [0, 12] ∧ p.magic = "ORC"
  then 0#8 :: (Coded.enc p.compression ++ Coded.enc (BitVec.ofNat 63 p.footerLength) ++ Coded.enc (BitVec.ofNat 63 p.blockSize))
  else 1#8 :: Coded.enc p

theorem encPost_inj (a b : PostScript) (h : encPost a = encPost b) : a = b := by
  simp only [encPost] at h
  split at h <;> split at h
  · rename_i ha hb
    simp only [List.cons.injEq, true_and, List.append_assoc] at h
    obtain ⟨e1, h⟩ := Coded.inj _ _ _ _ h
    obtain ⟨e2, h⟩ := Coded.inj _ _ _ _ h
    have e3 := Coded.injective h
    have e2 := congrArg BitVec.toNat e2
    have e3 := congrArg BitVec.toNat e3
    simp only [BitVec.toNat_ofNat, Nat.mod_eq_of_lt ha.1, Nat.mod_eq_of_lt ha.2.1, Nat.mod_eq_of_lt hb.1, Nat.mod_eq_of_lt hb.2.1] at e2 e3
    obtain ⟨-, -, a3, a4, a5⟩ := ha
    obtain ⟨-, -, b3, b4, b5⟩ := hb
    cases a; cases b
    simp_all
  · simp at h
  · simp at h
  · exact Coded.injective (by simpa using h)

/-- An encoding of the messages. The row indexes are left out. -/
noncomputable def plainProto : Proto where
  index _ := []
  stripeFooter := Coded.enc
  fileFooter := Coded.enc
  postScript := encPost
  readIndex _ := none
  readStripeFooter := decodeOf Coded.enc
  readFileFooter := decodeOf Coded.enc
  readPostScript := decodeOf encPost

/-- What is taken for granted of protocol buffers can be had. -/
theorem plainProto_lossless : plainProto.Lossless where
  stripeFooter := decodeOf_left fun _ _ => Coded.injective
  fileFooter := decodeOf_left fun _ _ => Coded.injective
  postScript := decodeOf_left encPost_inj
  short l k b hl hb := by
    have : ∀ k : CompKind, (Coded.enc k).length ≤ 3 := by intro k; cases k <;> decide
    have := this k
    simp only [plainProto, encPost, hl, hb, and_self, if_true, List.length_cons, List.length_append]
    simp only [Coded.enc, List.length_map, List.length_range] at this ⊢
    omega

end Goorc
