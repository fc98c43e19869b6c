import Verif.Proofs.Locality
/-
The readers of columns, on two files that agree on the streams of these columns.
-/
namespace Goorc

/-- Both are there and related, or none is. -/
def OptLike {α β : Type} (R : α → β → Prop) : Option α → Option β → Prop
  | none, none => True
  | some a, some b => R a b
  | _, _ => False

theorem OptLike.map {α β γ δ : Type} {R : α → β → Prop} {S : γ → δ → Prop} {x : Option α} {y : Option β} {f : α → γ} {g : β → δ}
    (h : OptLike R x y) (hf : ∀ a b, R a b → S (f a) (g b)) : OptLike S (x.map f) (y.map g) := by
  cases x <;> cases y <;> first | exact h.elim | exact hf _ _ h | exact h

def BlockNear (sk : Prop) {α : Type} (b b' : BlockReader α) : Prop := b.values = b'.values ∧ Near sk b.stream b'.stream
def BoolNear (sk : Prop) (b b' : BoolReader) : Prop := b.values = b'.values ∧ BlockNear sk b.reader b'.reader
def IntNear (sk : Prop) (b b' : IntReader) : Prop := b.signed = b'.signed ∧ BlockNear sk b.block b'.block
def FloatNear (sk : Prop) (b b' : FloatReader) : Prop := b.is64 = b'.is64 ∧ Near sk b.stream b'.stream
def TextNear (sk : Prop) (b b' : TextReader) : Prop := Near sk b.data b'.data ∧ IntNear sk b.length b'.length
def TsNear (sk : Prop) (b b' : TsReader) : Prop := IntNear sk b.data b'.data ∧ IntNear sk b.secondary b'.secondary
def DecNear (sk : Prop) (b b' : DecReader) : Prop := Near sk b.data b'.data ∧ IntNear sk b.secondary b'.secondary
def DictNear (sk : Prop) (b b' : DictReader) : Prop :=
  b.strings = b'.strings ∧ b.loaded = b'.loaded ∧ IntNear sk b.data b'.data ∧ Near sk b.dict b'.dict ∧ IntNear sk b.length b'.length

variable {sk : Prop}

theorem block_next {α : Type} (d : Dec (List α)) (c : Codec) {b b' : BlockReader α} (h : BlockNear sk b b') :
    Res.Alike (Like (BlockNear sk)) (b.next d c) (b'.next d c) := by
  obtain ⟨s, v⟩ := b
  obtain ⟨s', v'⟩ := b'
  obtain ⟨h1, h2⟩ := h
  cases h1
  unfold BlockReader.next
  dsimp only at h2 ⊢
  cases v with
  | cons x v => exact ⟨rfl, rfl, h2⟩
  | nil =>
    refine (near_run c d h2).bind ?_
    rintro ⟨v, s⟩ ⟨v', s'⟩ ⟨hv, hs⟩
    cases hv
    cases v with
    | cons x v => exact ⟨rfl, rfl, hs⟩
    | nil => trivial

theorem block_skip {α : Type} (d : Dec (List α)) (c : Codec) : ∀ (n : Nat) {b b' : BlockReader α}, BlockNear sk b b' →
    Res.Alike (BlockNear sk) (BlockReader.skip d c n b) (BlockReader.skip d c n b')
  | 0, b, b', h => h
  | n + 1, b, b', h => by
    refine (block_next d c h).bind ?_
    rintro ⟨v, s⟩ ⟨v', s'⟩ ⟨-, hs⟩
    exact block_skip d c n hs

theorem block_seek (hsk : sk) {α : Type} (d : Dec (List α)) (c : Codec) (off n : Nat) {b b' : BlockReader α} (h : BlockNear sk b b') :
    Res.Alike (BlockNear sk) (b.seek d c 0 off n) (b'.seek d c 0 off n) := by
  refine (near_seek hsk c off h.2).bind ?_
  intro s s' hs
  exact block_skip d c n ⟨rfl, hs⟩

theorem block_finished {α : Type} {b b' : BlockReader α} (h : BlockNear sk b b') : b'.finished = b.finished := by
  unfold BlockReader.finished
  rw [near_finished h.2, h.1]

theorem bool_next (c : Codec) {b b' : BoolReader} (h : BoolNear sk b b') : Res.Alike (Like (BoolNear sk)) (b.next c) (b'.next c) := by
  obtain ⟨s, v⟩ := b
  obtain ⟨s', v'⟩ := b'
  obtain ⟨h1, h2⟩ := h
  cases h1
  unfold BoolReader.next
  dsimp only at h2 ⊢
  cases v with
  | cons x v => exact ⟨rfl, rfl, h2⟩
  | nil =>
    refine (block_next decodeByteRL c h2).bind ?_
    rintro ⟨v, s⟩ ⟨v', s'⟩ ⟨hv, hs⟩
    cases hv
    dsimp only
    cases boolsOfByte v with
    | cons x v => exact ⟨rfl, rfl, hs⟩
    | nil => trivial

theorem bool_skip (c : Codec) : ∀ (n : Nat) {b b' : BoolReader}, BoolNear sk b b' →
    Res.Alike (BoolNear sk) (BoolReader.skip c n b) (BoolReader.skip c n b')
  | 0, b, b', h => h
  | n + 1, b, b', h => by
    refine (bool_next c h).bind ?_
    rintro ⟨v, s⟩ ⟨v', s'⟩ ⟨-, hs⟩
    exact bool_skip c n hs

theorem bool_seek (hsk : sk) (c : Codec) (off n m : Nat) {b b' : BoolReader} (h : BoolNear sk b b') :
    Res.Alike (BoolNear sk) (b.seek c 0 off n m) (b'.seek c 0 off n m) := by
  refine (block_seek hsk decodeByteRL c off n h.2).bind ?_
  intro s s' hs
  exact bool_skip c m ⟨rfl, hs⟩

theorem bool_new {s s' : StreamReader} (h : Near sk s s') : BoolNear sk (newBoolReader s) (newBoolReader s') := ⟨rfl, rfl, h⟩

theorem int_new (b : Bool) {s s' : StreamReader} (h : Near sk s s') : IntNear sk (newIntReader b s) (newIntReader b s') := ⟨rfl, rfl, h⟩

theorem int_signed (c : Codec) {b b' : IntReader} (h : IntNear sk b b') : Res.Alike (Like (IntNear sk)) (b.nextInt64 c) (b'.nextInt64 c) := by
  obtain ⟨g, s⟩ := b
  obtain ⟨g', s'⟩ := b'
  obtain ⟨h1, h2⟩ := h
  cases h1
  unfold IntReader.nextInt64
  dsimp only at h2 ⊢
  split
  · exact rfl
  · refine (block_next _ c h2).bind ?_
    rintro ⟨v, s⟩ ⟨v', s'⟩ ⟨hv, hs⟩
    cases hv
    exact ⟨rfl, rfl, hs⟩

theorem int_unsigned (c : Codec) {b b' : IntReader} (h : IntNear sk b b') : Res.Alike (Like (IntNear sk)) (b.nextUInt64 c) (b'.nextUInt64 c) := by
  obtain ⟨g, s, v⟩ := b
  obtain ⟨g', s', v'⟩ := b'
  obtain ⟨h1, h2, h3⟩ := h
  cases h1
  cases h2
  unfold IntReader.nextUInt64
  dsimp only at h3 ⊢
  split
  · exact rfl
  · cases v with
    | cons x v => exact ⟨rfl, rfl, rfl, h3⟩
    | nil =>
      refine (near_run c _ h3).bind ?_
      rintro ⟨v, s⟩ ⟨v', s'⟩ ⟨hv, hs⟩
      cases hv
      cases v with
      | cons x v => exact ⟨rfl, rfl, rfl, hs⟩
      | nil => exact rfl

theorem int_skip (c : Codec) : ∀ (n : Nat) {b b' : IntReader}, IntNear sk b b' →
    Res.Alike (IntNear sk) (IntReader.skip c n b) (IntReader.skip c n b')
  | 0, b, b', h => h
  | n + 1, b, b', h => by
    rw [IntReader.skip, IntReader.skip, h.1]
    by_cases hb : b'.signed = true
    · rw [if_pos hb, if_pos hb]
      refine (int_signed c h).bind ?_
      rintro ⟨v, s⟩ ⟨v', s'⟩ ⟨-, hs⟩
      exact int_skip c n hs
    · rw [if_neg hb, if_neg hb]
      refine (int_unsigned c h).bind ?_
      rintro ⟨v, s⟩ ⟨v', s'⟩ ⟨-, hs⟩
      exact int_skip c n hs

theorem int_seek (hsk : sk) (c : Codec) (off n : Nat) {b b' : IntReader} (h : IntNear sk b b') :
    Res.Alike (IntNear sk) (b.seek c 0 off n) (b'.seek c 0 off n) := by
  refine (near_seek hsk c off h.2.2).bind ?_
  intro s s' hs
  exact int_skip c n ⟨h.1, rfl, hs⟩

theorem bytes_next (c : Codec) (n : Nat) {s s' : StreamReader} (h : Near sk s s') :
    Res.Alike (Like (Near sk)) (nextBytes c s n) (nextBytes c s' n) := by
  unfold nextBytes
  split
  · exact near_run c _ h
  · trivial

theorem text_next (c : Codec) {b b' : TextReader} (h : TextNear sk b b') : Res.Alike (Like (TextNear sk)) (b.next c) (b'.next c) := by
  refine (int_unsigned c h.2).bind ?_
  rintro ⟨v, s⟩ ⟨v', s'⟩ ⟨hv, hs⟩
  cases hv
  refine (bytes_next c _ h.1).bind ?_
  rintro ⟨w, t⟩ ⟨w', t'⟩ ⟨hw, ht⟩
  cases hw
  exact ⟨rfl, ht, hs⟩

theorem text_seek (hsk : sk) (c : Codec) {b b' : TextReader} (h : TextNear sk b b') (o o' n : Nat) :
    Res.Alike (TextNear sk) (b.seek c [(0, o, []), (0, o', [n])]) (b'.seek c [(0, o, []), (0, o', [n])]) := by
  refine (near_seek hsk c o h.1).bind ?_
  intro s s' hs
  refine (int_seek hsk c o' n h.2).bind ?_
  intro t t' ht
  exact ⟨hs, ht⟩

/-- A reader of values that does the same on streams with the same bytes. -/
structure ReadKind.Local {ρ : Type} (sk : Prop) (K : ReadKind ρ) (R : ρ → ρ → Prop) : Prop where
  init : ∀ s s' : StreamKind → Option StreamReader, (∀ k, OptLike (Near sk) (s k) (s' k)) → OptLike R (K.init s) (K.init s')
  prepare : ∀ c {d d'}, R d d' → Res.Alike R (K.prepare c d) (K.prepare c d')
  next : ∀ c {d d'}, R d d' → Res.Alike (Like R) (K.next c d) (K.next c d')
  skip : ∀ c {d d'}, R d d' → Res.Alike R (K.skip c d) (K.skip c d')
  swallows : ∀ c {d d'}, R d d' → K.skipSwallows c d = K.skipSwallows c d'
  seek : sk → K.seeksZero = true → ∀ c {d d'}, R d d' → Res.Alike R (K.seek c d (K.layout.map fun n => (0, 0, List.replicate n 0)))
    (K.seek c d' (K.layout.map fun n => (0, 0, List.replicate n 0)))

theorem alike_map {α β γ δ : Type} {R : α → β → Prop} {S : γ → δ → Prop} {x : Res α} {y : Res β} {f : α → γ} {g : β → δ}
    (h : Res.Alike R x y) (hf : ∀ a b, R a b → S (f a) (g b)) : Res.Alike S (x >>= fun a => pure (f a)) (y >>= fun b => pure (g b)) :=
  h.bind fun a b hab => hf a b hab

theorem byte_local : byteRead.Local sk (BlockNear sk) where
  init s s' h := (h .data).map fun _ _ h => ⟨rfl, h⟩
  prepare c d d' h := h
  next c d d' h := alike_map (block_next _ c h) fun _ _ h => ⟨by simp only [h.1], h.2⟩
  skip c d d' h := alike_map (block_next _ c h) fun _ _ h => h.2
  swallows _ _ _ _ := rfl
  seek hsk _ c d d' h := block_seek hsk _ c 0 0 h

theorem bool_local : boolRead.Local sk (BoolNear sk) where
  init s s' h := (h .data).map fun _ _ h => bool_new h
  prepare c d d' h := h
  next c d d' h := alike_map (bool_next c h) fun _ _ h => ⟨by simp only [h.1], h.2⟩
  skip c d d' h := alike_map (bool_next c h) fun _ _ h => h.2
  swallows _ _ _ _ := rfl
  seek hsk _ c d d' h := bool_seek hsk c 0 0 0 h

theorem int_local (b : IntBits) : (intRead b).Local sk (IntNear sk) where
  init s s' h := (h .data).map fun _ _ h => int_new true h
  prepare c d d' h := h
  next c d d' h := alike_map (int_signed c h) fun _ _ h => ⟨by simp only [h.1], h.2⟩
  skip c d d' h := alike_map (int_signed c h) fun _ _ h => h.2
  swallows _ _ _ _ := rfl
  seek hsk _ c d d' h := int_seek hsk c 0 0 h

theorem float_next (c : Codec) {b b' : FloatReader} (h : FloatNear sk b b') : Res.Alike (Like (FloatNear sk)) (b.nextFloat c) (b'.nextFloat c) := by
  obtain ⟨g, s⟩ := b
  obtain ⟨g', s'⟩ := b'
  obtain ⟨h1, h2⟩ := h
  cases h1
  unfold FloatReader.nextFloat
  dsimp only at h2 ⊢
  split
  · exact rfl
  · exact alike_map (near_run c _ h2) fun _ _ h => ⟨h.1, rfl, h.2⟩

theorem double_next (c : Codec) {b b' : FloatReader} (h : FloatNear sk b b') :
    Res.Alike (Like (FloatNear sk)) (b.nextDouble c) (b'.nextDouble c) := by
  obtain ⟨g, s⟩ := b
  obtain ⟨g', s'⟩ := b'
  obtain ⟨h1, h2⟩ := h
  cases h1
  unfold FloatReader.nextDouble
  dsimp only at h2 ⊢
  split
  · exact rfl
  · exact alike_map (near_run c _ h2) fun _ _ h => ⟨h.1, rfl, h.2⟩

theorem float_local (b : Bool) : (floatRead b).Local sk (FloatNear sk) where
  init s s' h := (h .data).map fun _ _ h => ⟨rfl, h⟩
  prepare c d d' h := h
  next c d d' h := by
    cases b
    · exact alike_map (float_next c h) fun _ _ h => ⟨by simp only [h.1], h.2⟩
    · exact alike_map (double_next c h) fun _ _ h => ⟨by simp only [h.1], h.2⟩
  skip c d d' h := by
    cases b
    · exact alike_map (float_next c h) fun _ _ h => h.2
    · exact alike_map (double_next c h) fun _ _ h => h.2
  swallows _ _ _ _ := rfl
  seek hsk _ c d d' h := alike_map (near_seek hsk c 0 h.2) fun _ _ g => ⟨h.1, g⟩

theorem string_local : stringRead.Local sk (TextNear sk) where
  init s s' h := by
    have h1 := h .data
    have h2 := h .length
    revert h1 h2
    dsimp only [stringRead]
    generalize s .data = a
    generalize s' .data = a'
    generalize s .length = b
    generalize s' .length = b'
    intro h1 h2
    cases a <;> cases a' <;> first | exact h1.elim | skip
    all_goals cases b <;> cases b' <;> first | exact h2.elim | trivial | skip
  prepare c d d' h := h
  next c d d' h := alike_map (text_next c h) fun _ _ h => ⟨by simp only [h.1], h.2⟩
  skip c d d' h := alike_map (text_next c h) fun _ _ h => h.2
  swallows _ _ _ _ := rfl
  seek hsk _ c d d' h := text_seek hsk c h 0 0 0

theorem binary_local : binaryRead.Local sk (TextNear sk) where
  init s s' h := by
    have h1 := h .data
    have h2 := h .length
    revert h1 h2
    dsimp only [binaryRead]
    generalize s .data = a
    generalize s' .data = a'
    generalize s .length = b
    generalize s' .length = b'
    intro h1 h2
    cases a <;> cases a' <;> first | exact h1.elim | skip
    all_goals cases b <;> cases b' <;> first | exact h2.elim | trivial | skip
  prepare c d d' h := h
  next c d d' h := alike_map (text_next c h) fun _ _ h => ⟨by simp only [h.1], h.2⟩
  skip c d d' h := alike_map (text_next c h) fun _ _ h => h.2
  swallows c d d' h := by
    have h1 := int_unsigned c h.2
    show (match d.length.nextUInt64 c with
      | .ok (l, _) => match nextBytes c d.data l.toNat with
        | .err _ => true
        | _ => false
      | _ => false) = (match d'.length.nextUInt64 c with
      | .ok (l, _) => match nextBytes c d'.data l.toNat with
        | .err _ => true
        | _ => false
      | _ => false)
    cases e : d.length.nextUInt64 c <;> cases e' : d'.length.nextUInt64 c <;> rw [e, e'] at h1 <;> first | exact h1.elim | rfl | skip
    rename_i a a'
    obtain ⟨l, x⟩ := a
    obtain ⟨l', x'⟩ := a'
    obtain ⟨hl, -⟩ := h1
    cases hl
    have h2 := bytes_next c l.toNat h.1
    dsimp only
    cases e : nextBytes c d.data l.toNat <;> cases e' : nextBytes c d'.data l.toNat <;> rw [e, e'] at h2 <;> first | exact h2.elim | rfl
  seek hsk _ c d d' h := text_seek hsk c h 0 0 0

theorem date_local : dateRead.Local sk (BlockNear sk) where
  init s s' h := (h .data).map fun _ _ h => ⟨rfl, h⟩
  prepare c d d' h := h
  next c d d' h := alike_map (block_next _ c h) fun _ _ h => ⟨by simp only [h.1], h.2⟩
  skip c d d' h := alike_map (block_next _ c h) fun _ _ h => h.2
  swallows _ _ _ _ := rfl
  seek hsk h0 := by cases h0

theorem ts_local : timestampRead.Local sk (TsNear sk) where
  init s s' h := by
    have h1 := h .data
    have h2 := h .secondary
    revert h1 h2
    dsimp only [timestampRead]
    generalize s .data = a
    generalize s' .data = a'
    generalize s .secondary = b
    generalize s' .secondary = b'
    intro h1 h2
    cases a <;> cases a' <;> first | exact h1.elim | skip
    all_goals cases b <;> cases b' <;> first | exact h2.elim | trivial | skip
  prepare c d d' h := h
  next c d d' h := by
    refine (int_signed c h.1).bind ?_
    rintro ⟨v, s⟩ ⟨v', s'⟩ ⟨hv, hs⟩
    cases hv
    exact alike_map (int_unsigned c h.2) fun _ _ g => ⟨by rw [g.1], hs, g.2⟩
  skip c d d' h := by
    refine (int_signed c h.1).bind ?_
    rintro ⟨v, s⟩ ⟨v', s'⟩ ⟨hv, hs⟩
    exact alike_map (int_unsigned c h.2) fun _ _ g => ⟨hs, g.2⟩
  swallows _ _ _ _ := rfl
  seek hsk _ c d d' h := by
    refine (int_seek hsk c 0 0 h.1).bind ?_
    intro s s' hs
    exact alike_map (int_seek hsk c 0 0 h.2) fun _ _ g => ⟨hs, g⟩

theorem dec_local : decimalRead.Local sk (DecNear sk) where
  init s s' h := by
    have h1 := h .data
    have h2 := h .secondary
    revert h1 h2
    dsimp only [decimalRead]
    generalize s .data = a
    generalize s' .data = a'
    generalize s .secondary = b
    generalize s' .secondary = b'
    intro h1 h2
    cases a <;> cases a' <;> first | exact h1.elim | skip
    all_goals cases b <;> cases b' <;> first | exact h2.elim | trivial | skip
  prepare c d d' h := h
  next c d d' h := by
    refine (near_run c _ h.1).bind ?_
    rintro ⟨v, s⟩ ⟨v', s'⟩ ⟨hv, hs⟩
    cases hv
    exact alike_map (int_signed c h.2) fun _ _ g => ⟨by rw [g.1], hs, g.2⟩
  skip c d d' h := by
    refine (near_run c _ h.1).bind ?_
    rintro ⟨v, s⟩ ⟨v', s'⟩ ⟨hv, hs⟩
    exact alike_map (int_signed c h.2) fun _ _ g => ⟨hs, g.2⟩
  swallows _ _ _ _ := rfl
  seek hsk _ c d d' h := by
    refine (near_seek hsk c 0 h.1).bind ?_
    intro s s' hs
    exact alike_map (int_seek hsk c 0 0 h.2) fun _ _ g => ⟨hs, g⟩

theorem dict_load (c : Codec) : ∀ (fuel : Nat) {b b' : DictReader}, DictNear sk b b' →
    Res.Alike (DictNear sk) (b.load c fuel) (b'.load c fuel)
  | fuel, b, b', h => by
    rw [DictReader.load.eq_def, DictReader.load.eq_def c fuel b']
    dsimp only
    have hf : b'.length.finished = b.length.finished := block_finished h.2.2.2.2.2
    rw [hf]
    by_cases hl : b.length.finished = true
    · rw [if_pos hl, if_pos hl]; exact h
    · rw [if_neg hl, if_neg hl]
      cases fuel with
      | zero => trivial
      | succ fuel =>
        refine (int_unsigned c h.2.2.2.2).bind ?_
        rintro ⟨v, s⟩ ⟨v', s'⟩ ⟨hv, hs⟩
        cases hv
        refine (bytes_next c _ h.2.2.2.1).bind ?_
        rintro ⟨w, t⟩ ⟨w', t'⟩ ⟨hw, ht⟩
        cases hw
        exact dict_load c fuel ⟨by simp only [h.1], h.2.1, h.2.2.1, ht, hs⟩

theorem dict_local (fuel : Nat) : (dictRead fuel).Local sk (DictNear sk) where
  init s s' h := by
    have h1 := h .data
    have h2 := h .dictionaryData
    have h3 := h .length
    show OptLike _ (match s .data, s .dictionaryData, s .length with
      | some d, some t, some l => some (⟨newIntReader false d, t, newIntReader false l, [], false⟩ : DictReader)
      | _, _, _ => none) (match s' .data, s' .dictionaryData, s' .length with
      | some d, some t, some l => some (⟨newIntReader false d, t, newIntReader false l, [], false⟩ : DictReader)
      | _, _, _ => none)
    generalize s .data = a at *
    generalize s' .data = a' at *
    generalize s .dictionaryData = b at *
    generalize s' .dictionaryData = b' at *
    generalize s .length = d at *
    generalize s' .length = d' at *
    cases a <;> cases a' <;> first | exact h1.elim | skip
    all_goals cases b <;> cases b' <;> first | exact h2.elim | skip
    all_goals cases d <;> cases d' <;> first | exact h3.elim | trivial | skip
  prepare c d d' h := by
    show Res.Alike _ (if d.loaded then .ok d else do let r ← d.load c fuel; pure { r with loaded := true })
      (if d'.loaded then .ok d' else do let r ← d'.load c fuel; pure { r with loaded := true })
    rw [h.2.1]
    split
    · exact h
    · exact alike_map (dict_load c fuel h) fun _ _ g => ⟨g.1, rfl, g.2.2⟩
  next c d d' h := by
    refine (int_unsigned c h.2.2.1).bind ?_
    rintro ⟨v, s⟩ ⟨v', s'⟩ ⟨hv, hs⟩
    cases hv
    dsimp only
    rw [h.1]
    cases d'.strings[v.toNat]? with
    | none => trivial
    | some x => exact ⟨rfl, rfl, h.2.1, hs, h.2.2.2⟩
  skip c d d' h := alike_map (int_unsigned c h.2.2.1) fun _ _ g => ⟨h.1, h.2.1, g.2, h.2.2.2⟩
  swallows _ _ _ _ := rfl
  seek hsk _ c d d' h := alike_map (int_seek hsk c 0 0 h.2.2.1) fun _ _ g => ⟨h.1, h.2.1, g, h.2.2.2⟩

theorem bare_local (t : Option LeafTag) : (bareRead t).Local sk (fun _ _ => True) where
  init s s' h := by cases t <;> trivial
  prepare c d d' h := by cases t <;> trivial
  next c d d' h := by cases t <;> trivial
  skip c d d' h := by cases t <;> trivial
  swallows c d d' h := rfl
  seek hsk _ c d d' h := by cases t <;> trivial

/-- The related data streams of the leaves. -/
def LeafTag.Near (sk : Prop) : (t : LeafTag) → t.ρ → t.ρ → Prop
  | byte => BlockNear sk
  | bool => BoolNear sk
  | int _ => IntNear sk
  | float _ => FloatNear sk
  | string => TextNear sk
  | binary => TextNear sk
  | date => BlockNear sk
  | timestamp => TsNear sk
  | decimal => DecNear sk

theorem leaf_local : ∀ t : LeafTag, t.read.Local sk (t.Near sk)
  | .byte => byte_local
  | .bool => bool_local
  | .int b => int_local b
  | .float b => float_local b
  | .string => string_local
  | .binary => binary_local
  | .date => date_local
  | .timestamp => ts_local
  | .decimal => dec_local

/-- Column readers with related streams; the row index is the same. -/
structure ColNear {ρ : Type} (sk : Prop) (R : ρ → ρ → Prop) (r r' : ColReader ρ) : Prop where
  hasNulls : r.hasNulls = r'.hasNulls
  kind : r.kind = r'.kind
  index : r.index = r'.index
  present : OptLike (BoolNear sk) r.present r'.present
  data : R r.data r'.data

section Col

variable {ρ : Type} {K : ReadKind ρ} {R : ρ → ρ → Prop}

theorem col_rows (hK : K.Local sk R) (c : Codec) : ∀ (vec : List Value) {r r' : ColReader ρ}, ColNear sk R r r' →
    Res.Alike (Like (ColNear sk R)) (K.nextRows c r vec) (K.nextRows c r' vec)
  | [], r, r', h => ⟨rfl, h⟩
  | old :: vec, r, r', h => by
    rw [ReadKind.nextRows, ReadKind.nextRows]
    have h1 : Res.Alike (Like (ColNear sk R))
        (match r.present with
          | some p => do
            let (b, p) ← p.next c
            pure (!b, { r with present := some p })
          | none => pure (old.null, r) : Res (Bool × ColReader ρ))
        (match r'.present with
          | some p => do
            let (b, p) ← p.next c
            pure (!b, { r' with present := some p })
          | none => pure (old.null, r') : Res (Bool × ColReader ρ)) := by
      have hp := h.present
      cases e : r.present <;> cases e' : r'.present <;> rw [e, e'] at hp <;> first | exact hp.elim | skip
      · exact ⟨rfl, h⟩
      · exact alike_map (bool_next c hp) fun _ _ g => ⟨by rw [g.1], h.hasNulls, h.kind, h.index, g.2, h.data⟩
    refine h1.bind ?_
    rintro ⟨b, s⟩ ⟨b', s'⟩ ⟨hb, hs⟩
    cases hb
    have h2 : Res.Alike (Like (ColNear sk R))
        (if b then pure (old.v, s)
          else do
            let (x, d) ← K.next c s.data
            let x ← K.store old.v x
            pure (x, { s with data := d }) : Res (GoVal × ColReader ρ))
        (if b then pure (old.v, s')
          else do
            let (x, d) ← K.next c s'.data
            let x ← K.store old.v x
            pure (x, { s' with data := d }) : Res (GoVal × ColReader ρ)) := by
      cases b
      · refine (hK.next c hs.data).bind ?_
        rintro ⟨v, t⟩ ⟨v', t'⟩ ⟨hv, ht⟩
        cases hv
        refine (Res.Alike.refl (R := (· = ·)) (fun _ => rfl) _).bind ?_
        rintro x _ rfl
        exact ⟨rfl, hs.hasNulls, hs.kind, hs.index, hs.present, ht⟩
      · exact ⟨rfl, hs⟩
    refine h2.bind ?_
    rintro ⟨v, t⟩ ⟨v', t'⟩ ⟨hv, ht⟩
    cases hv
    exact alike_map (col_rows hK c vec ht) fun _ _ g => ⟨by rw [g.1], g.2⟩

theorem col_batch (hK : K.Local sk R) (c : Codec) (vec : List Value) {r r' : ColReader ρ} (h : ColNear sk R r r') :
    Res.Alike (Like (ColNear sk R)) (K.nextBatch c r vec) (K.nextBatch c r' vec) := by
  refine (hK.prepare c h.data).bind ?_
  intro d d' hd
  exact col_rows hK c vec ⟨h.hasNulls, h.kind, h.index, h.present, hd⟩

theorem col_skip (hK : K.Local sk R) (c : Codec) : ∀ (n : Nat) {r r' : ColReader ρ}, ColNear sk R r r' →
    Res.Alike (ColNear sk R) (K.skipRows c n r) (K.skipRows c n r')
  | 0, r, r', h => h
  | n + 1, r, r', h => by
    rw [ReadKind.skipRows, ReadKind.skipRows]
    have h1 : Res.Alike (Like (ColNear sk R))
        (match r.present with
          | some p => do
            let (b, p) ← p.next c
            pure (b, { r with present := some p })
          | none => pure (true, r) : Res (Bool × ColReader ρ))
        (match r'.present with
          | some p => do
            let (b, p) ← p.next c
            pure (b, { r' with present := some p })
          | none => pure (true, r') : Res (Bool × ColReader ρ)) := by
      have hp := h.present
      cases e : r.present <;> cases e' : r'.present <;> rw [e, e'] at hp <;> first | exact hp.elim | skip
      · exact ⟨rfl, h⟩
      · exact alike_map (bool_next c hp) fun _ _ g => ⟨g.1, h.hasNulls, h.kind, h.index, g.2, h.data⟩
    refine h1.bind ?_
    rintro ⟨b, s⟩ ⟨b', s'⟩ ⟨hb, hs⟩
    cases hb
    dsimp only
    cases b
    · exact col_skip hK c n hs
    · rw [if_pos rfl, if_pos rfl, hK.swallows c hs.data]
      split
      · exact hs
      · refine (hK.skip c hs.data).bind ?_
        intro d d' hd
        exact col_skip hK c n ⟨hs.hasNulls, hs.kind, hs.index, hs.present, hd⟩

theorem col_seek (hsk : sk) (hK : K.Local sk R) (c : Codec) {r r' : ColReader ρ} (h : ColNear sk R r r') :
    Res.Alike (ColNear sk R) (K.seekStride c r 0) (K.seekStride c r' 0) := by
  unfold ReadKind.seekStride
  by_cases hz : K.seeksZero = true ∧ 0 = 0
  · rw [if_pos hz, if_pos hz]
    have h1 : Res.Alike (OptLike (BoolNear sk))
        (match r.present with
          | some p => do let p ← p.seek c 0 0 0 0; pure (some p)
          | none => pure none : Res (Option BoolReader))
        (match r'.present with
          | some p => do let p ← p.seek c 0 0 0 0; pure (some p)
          | none => pure none : Res (Option BoolReader)) := by
      have hp := h.present
      cases e : r.present <;> cases e' : r'.present <;> rw [e, e'] at hp <;> first | exact hp.elim | skip
      · trivial
      · exact alike_map (bool_seek hsk c 0 0 0 hp) fun _ _ g => g
    refine h1.bind ?_
    intro p p' hp
    exact alike_map (hK.seek hsk hz.1 c h.data) fun _ _ g => ⟨h.hasNulls, h.kind, h.index, hp, g⟩
  · rw [if_neg hz, if_neg hz, ← h.index]
    cases r.index with
    | none => exact rfl
    | some es => exact rfl

end Col

end Goorc
