import Verif.Model.ColTable
import Verif.Proofs.ColWrite
/-
Which column types can be written and read (C62), and dictionary columns (C40).
-/
namespace Goorc

/-! ### C62 -/

/-- The reader that goes with a writer: the same implementation type. -/
def WriterTag.reader : WriterTag → ReaderTag
  | .leaf t => .leaf t
  | .dict => .dict
  | .struct => .struct

/-- **C62**, what holds of it: except for char and varchar, and float and double with an encoding other than DIRECT, what
can be written can be read, by the reader of the same type. Missing: `writable_readable_false`. -/
theorem writable_readable_partial (k : TypeKind) (e : Encoding) (t : WriterTag) (h : newWriterTag k e = .ok t)
    (hchar : k ≠ .char ∧ k ≠ .varchar) (hfloat : k = .float ∨ k = .double → e = .direct) :
    newReaderTag k e = .ok t.reader := by
  revert h hchar hfloat
  cases k <;> cases e <;> cases t <;> simp [newWriterTag, newReaderTag, WriterTag.reader]

example : newWriterTag .string .dictionaryV2 = .ok .dict ∧ newWriterTag .decimal .directV2 = .ok (.leaf .decimal) := by decide

/-- **C62**, exactly when what can be written cannot be read. -/
theorem writable_readable_iff (k : TypeKind) (e : Encoding) (t : WriterTag) (h : newWriterTag k e = .ok t) :
    (∃ r, newReaderTag k e = .ok r) ↔ (k ≠ .char ∧ k ≠ .varchar) ∧ (k = .float ∨ k = .double → e = .direct) := by
  revert h
  cases k <;> cases e <;> simp [newWriterTag, newReaderTag]

/-- **C62** is false: char and varchar columns can be written but not read, and so can float and double columns of any
encoding but DIRECT. -/
theorem writable_readable_false :
    (newWriterTag .char .directV2 = .ok (.leaf .string) ∧ newReaderTag .char .directV2 = .err .other) ∧
    (newWriterTag .varchar .directV2 = .ok (.leaf .string) ∧ newReaderTag .varchar .directV2 = .err .other) ∧
    (newWriterTag .double .directV2 = .ok (.leaf (.float true)) ∧ newReaderTag .double .directV2 = .err .other) := by
  decide

/-- The kind of column a leaf implementation is for. -/
def LeafTag.typeKind : LeafTag → TypeKind
  | .byte => .byte
  | .bool => .boolean
  | .int .small => .short
  | .int .int => .int
  | .int .big => .long
  | .float false => .float
  | .float true => .double
  | .string => .string
  | .binary => .binary
  | .date => .date
  | .timestamp => .timestamp
  | .decimal => .decimal

/-- The encoding under which a leaf implementation is used. -/
def LeafTag.encoding : LeafTag → Encoding
  | .byte => .direct
  | .bool => .direct
  | .float _ => .direct
  | _ => .directV2

/-- **C62** every leaf implementation can be created, for writing and for reading, under its kind and encoding; so can
structs and dictionaries. -/
theorem leaf_supported (t : LeafTag) :
    newWriterTag t.typeKind t.encoding = .ok (.leaf t) ∧ newReaderTag t.typeKind t.encoding = .ok (.leaf t) := by
  cases t with
  | int b => cases b <;> decide
  | float d => cases d <;> decide
  | _ => decide

/-- **C62** readers exist for exactly these, and everything else is refused with an error. -/
theorem readable_iff (k : TypeKind) (e : Encoding) (r : ReaderTag) :
    newReaderTag k e = .ok r ↔
      (∃ t : LeafTag, r = .leaf t ∧ k = t.typeKind ∧ e = t.encoding) ∨ (r = .dict ∧ k = .string ∧ e = .dictionaryV2) ∨
      (r = .struct ∧ k = .struct ∧ e = .direct) ∨ (r = .list ∧ k = .list ∧ e = .directV2) ∨ (r = .map ∧ k = .map ∧ e = .directV2) := by
  constructor
  · intro h
    cases r with
    | leaf t =>
      refine .inl ⟨t, rfl, ?_⟩
      revert h
      cases k <;> cases e <;> simp [newReaderTag] <;> rintro rfl <;> simp [LeafTag.typeKind, LeafTag.encoding]
    | dict => revert h; cases k <;> cases e <;> simp [newReaderTag]
    | struct => revert h; cases k <;> cases e <;> simp [newReaderTag]
    | list => revert h; cases k <;> cases e <;> simp [newReaderTag]
    | map => revert h; cases k <;> cases e <;> simp [newReaderTag]
  · rintro (⟨t, rfl, rfl, rfl⟩ | ⟨rfl, rfl, rfl⟩ | ⟨rfl, rfl, rfl⟩ | ⟨rfl, rfl, rfl⟩ | ⟨rfl, rfl, rfl⟩)
    · exact (leaf_supported t).2
    all_goals decide

/-- **C62** unsupported kinds are refused with an error, by writer and reader: lists, maps and unions are not written, and
nothing ever panics. -/
theorem unsupported_refused (k : TypeKind) (e : Encoding) :
    ((∃ t, newWriterTag k e = .ok t) ∨ newWriterTag k e = .err .other) ∧
    ((∃ t, newReaderTag k e = .ok t) ∨ newReaderTag k e = .err .other) ∧
    (k = .list ∨ k = .map ∨ k = .union → newWriterTag k e = .err .other) ∧
    (k = .union ∨ k = .char ∨ k = .varchar → newReaderTag k e = .err .other) := by
  cases k <;> cases e <;> simp [newWriterTag, newReaderTag]

/-! ### C40 -/

namespace DictWriter

theorem insert_mem (s : Bytes) (i : Nat) (m : List (Bytes × List Nat)) : ∃ e ∈ insert s i m, i ∈ e.2 := by
  induction m with
  | nil => exact ⟨(s, [i]), by simp [insert], by simp⟩
  | cons e m ih =>
    obtain ⟨k, ps⟩ := e
    by_cases h : k = s
    · exact ⟨(k, ps ++ [i]), by simp [insert, h], by simp⟩
    · obtain ⟨e, he, hi⟩ := ih
      exact ⟨e, by simp [insert, h, he], hi⟩

theorem place_length (i : Nat) (ps data data' : List Nat) (h : place i data ps = .ok data') : data'.length = data.length := by
  induction ps generalizing data with
  | nil => simp only [place, Res.ok.injEq] at h; rw [← h]
  | cons p ps ih =>
    by_cases hp : p < data.length
    · rw [place, if_pos hp] at h; rw [ih _ h]; simp
    · rw [place, if_neg hp] at h; simp at h

theorem place_cases (i : Nat) (ps data : List Nat) : (∃ data', place i data ps = .ok data') ∨ place i data ps = .panic := by
  induction ps generalizing data with
  | nil => exact .inl ⟨_, rfl⟩
  | cons p ps ih =>
    by_cases hp : p < data.length
    · rw [place, if_pos hp]; exact ih _
    · rw [place, if_neg hp]; exact .inr rfl

theorem place_beyond (i : Nat) (ps data : List Nat) (p : Nat) (hp : p ∈ ps) (hl : data.length ≤ p) : place i data ps = .panic := by
  induction ps generalizing data with
  | nil => simp at hp
  | cons q ps ih =>
    by_cases hq : q < data.length
    · rw [place, if_pos hq]
      refine ih _ ?_ (by simpa using hl)
      rcases List.mem_cons.mp hp with h | h
      · omega
      · exact h
    · rw [place, if_neg hq]

theorem placeAll_beyond (i : Nat) (m : List (Bytes × List Nat)) (data : List Nat) (e : Bytes × List Nat) (he : e ∈ m) (p : Nat)
    (hp : p ∈ e.2) (hl : data.length ≤ p) : placeAll i data m = .panic := by
  induction m generalizing data i with
  | nil => simp at he
  | cons f m ih =>
    obtain ⟨k, ps⟩ := f
    rcases List.mem_cons.mp he with h | h
    · subst h
      rw [placeAll, place_beyond i ps data p hp hl]; rfl
    · rcases place_cases i ps data with ⟨d, hd⟩ | hd
      · rw [placeAll, hd]
        exact ih (i + 1) d h (by rw [place_length _ _ _ _ hd]; exact hl)
      · rw [placeAll, hd]; rfl

theorem insertKey_mem (e f : Bytes × List Nat) (m : List (Bytes × List Nat)) : f ∈ insertKey e m ↔ f = e ∨ f ∈ m := by
  induction m with
  | nil => simp [insertKey]
  | cons g m ih =>
    by_cases h : bytesLt g.1 e.1 = true
    · rw [insertKey, if_pos h, List.mem_cons, ih, List.mem_cons]
      constructor
      · rintro (h | h | h)
        · exact .inr (.inl h)
        · exact .inl h
        · exact .inr (.inr h)
      · rintro (h | h | h)
        · exact .inr (.inl h)
        · exact .inl h
        · exact .inr (.inr h)
    · rw [insertKey, if_neg h, List.mem_cons]

theorem sorted_mem (f : Bytes × List Nat) (m : List (Bytes × List Nat)) : f ∈ sorted m ↔ f ∈ m := by
  induction m with
  | nil => simp [sorted]
  | cons g m ih =>
    have : sorted (g :: m) = insertKey g (sorted m) := rfl
    rw [this, insertKey_mem, ih, List.mem_cons]

/-- What holds of a writer after some rows. -/
structure After (rows : List Value) (w : DictWriter) : Prop where
  count : w.count = (nonNulls rows).length
  last : w.count ≠ 0 → ∃ e ∈ w.data, w.count ∈ e.2
  empty : w.count = 0 → w.data = []

theorem write_after {c : Codec} {o : COpts} {rows : List Value} {w w' : DictWriter} {v : Value} (h : w.After rows)
    (hw : w.write c o v = .ok w') : w'.After (rows ++ [v]) := by
  obtain ⟨p, -, h2⟩ := Res.bind_ok_inv hw
  have hsplit : nonNulls (rows ++ [v]) = nonNulls rows ++ nonNulls [v] := by simp [nonNulls]
  cases hv : v.null with
  | true =>
    have h0 : nonNulls [v] = [] := by simp [nonNulls, hv]
    simp only [hv, if_true, Res.pure_eq, Res.ok.injEq] at h2
    subst h2
    exact ⟨by rw [hsplit, h0, List.append_nil]; exact h.count, h.last, h.empty⟩
  | false =>
    have h0 : nonNulls [v] = [v.v] := by simp [nonNulls, hv]
    simp only [hv, Bool.false_eq_true, if_false] at h2
    split at h2
    · simp only [Res.pure_eq, Res.ok.injEq] at h2
      subst h2
      refine ⟨by rw [hsplit, h0, List.length_append]; simp [h.count], fun _ => insert_mem _ _ _, fun h0 => by simp at h0⟩
    · simp at h2

theorem writes_after {c : Codec} {o : COpts} (vs rows : List Value) (w w' : DictWriter) (h : w.After rows)
    (hw : w.writes c o vs = .ok w') : w'.After (rows ++ vs) := by
  induction vs generalizing w rows with
  | nil => simp only [writes, Res.ok.injEq] at hw; subst hw; simpa using h
  | cons v vs ih =>
    obtain ⟨w1, h1, h2⟩ := Res.bind_ok_inv hw
    have := ih (rows ++ [v]) w1 (write_after h h1) h2
    simpa using this

end DictWriter

/-- **C40** is false, for every input: once a dictionary column has been given a single non-null string, `Flush` panics. -/
theorem dict_flush_panics (c : Codec) (o : COpts) (hasNulls : Bool) (rows : List Value) (w : DictWriter)
    (hw : (DictWriter.new o hasNulls).writes c o rows = .ok w) (hv : ∃ v ∈ rows, v.null = false) : w.flush c o = .panic := by
  have h : DictWriter.After rows w := by
    have := DictWriter.writes_after rows [] _ w ⟨rfl, fun h => absurd rfl h, fun _ => rfl⟩ hw
    simpa using this
  obtain ⟨v, hm, hn⟩ := hv
  have hne : nonNulls rows ≠ [] := by
    intro h0
    have : v.v ∈ nonNulls rows := by simp only [nonNulls, List.mem_filterMap]; exact ⟨v, hm, by simp [hn]⟩
    rw [h0] at this; simp at this
  have hc : w.count ≠ 0 := by rw [h.count]; simpa using hne
  obtain ⟨e, he, hi⟩ := h.last hc
  have : DictWriter.placeAll 0 (List.replicate w.count 0) (DictWriter.sorted w.data) = .panic :=
    DictWriter.placeAll_beyond 0 _ _ e ((DictWriter.sorted_mem _ _).mpr he) w.count hi (by simp)
  rw [DictWriter.flush, this]; rfl

theorem DictWriter.writes_spec (c : Codec) (o : COpts) (rows : List Value) (hr : ∀ v ∈ rows, v.null = true ∨ ∃ s, v.v = .str s)
    (w : DictWriter) (p' : Option (StreamWriter BoolEnc)) (hp : PresentWrites c o w.hasNulls w.present p' rows) :
    ∃ w', w.writes c o rows = .ok w' ∧ w'.present = p' ∧ w'.hasNulls = w.hasNulls ∧ w'.dataStream = w.dataStream ∧
      w'.dictStream = w.dictStream ∧ w'.lengthStream = w.lengthStream := by
  induction rows generalizing w with
  | nil =>
    refine ⟨w, rfl, ?_, rfl, rfl, rfl, rfl⟩
    simp only [PresentWrites] at hp
    split at hp
    · obtain ⟨q, q', e1, e2, e3⟩ := hp
      simp only [List.map_nil, StreamWriter.writes, Res.ok.injEq] at e3
      rw [e1, e2, e3]
    · exact hp.symm
  | cons v rows ih =>
    have hr' := fun x hx => hr x (List.mem_cons_of_mem _ hx)
    have hone : ∃ p1, writeFlag c o w.hasNulls w.present v = .ok p1 ∧ PresentWrites c o w.hasNulls p1 p' rows := by
      cases hn : w.hasNulls with
      | false =>
        simp only [PresentWrites, hn, Bool.false_eq_true, if_false] at hp ⊢
        exact ⟨w.present, by simp [writeFlag], hp⟩
      | true =>
        simp only [PresentWrites, hn, if_true, writeFlag, List.map_cons, StreamWriter.writes] at hp ⊢
        obtain ⟨q, q', e1, e2, e3⟩ := hp
        obtain ⟨q1, e4, e5⟩ := Res.bind_ok_inv e3
        exact ⟨some q1, by simp [e1, e4], q1, q', rfl, e2, e5⟩
    obtain ⟨p1, e1, e2⟩ := hone
    simp only [DictWriter.writes, DictWriter.write, e1, Res.ok_bind]
    cases hv : v.null with
    | true =>
      simp only [if_true, Res.pure_eq, Res.ok_bind]
      exact ih hr' { w with present := p1 } e2
    | false =>
      obtain ⟨s, hs⟩ := (hr v List.mem_cons_self).resolve_left (by simp [hv])
      simp only [Bool.false_eq_true, if_false, hs, Res.pure_eq, Res.ok_bind]
      exact ih hr' { w with present := p1, count := w.count + 1, data := DictWriter.insert s (w.count + 1) w.data,
                            stats := { w.stats with typed := w.stats.typed.map fun t => DictWriter.addStats t s,
                                                    numberOfValues := w.stats.numberOfValues + 1 } } e2

/-- The present stream of a new writer, with the flags of the rows, and flushed. -/
theorem dict_present (c : Codec) (hc : c.Lossless) (o : COpts) (ho : o.toWOpts.Sound) (hasNulls : Bool) (rows : List Value) :
    ∃ p p', PresentWrites c o hasNulls (DictWriter.new o hasNulls).present p rows ∧ flushFlags c o hasNulls p = .ok p' := by
  cases hasNulls with
  | false => exact ⟨none, none, by simp [PresentWrites, DictWriter.new], rfl⟩
  | true =>
    obtain ⟨q1, q2, h1, h2, -⟩ := present_trip c hc o.toWOpts ho (newStreamWriter o.toWOpts (newBoolEncoder o.writeIndex))
      (newStreamWriter_clean c o.toWOpts ho _ _ (by simp [CleanBool, newBoolEncoder, newByteEncoder, ByteEnc.WF])) (rows.map fun v => !v.null)
    refine ⟨some q1, some q2, ?_, by simp [flushFlags, h2]⟩
    simp only [PresentWrites, DictWriter.new, if_true]
    exact ⟨_, q1, rfl, rfl, by simpa [List.map_map, Function.comp_def] using h1⟩

/-- Writing strings to a dictionary column succeeds, so `dict_flush_panics` speaks of every column with a string. -/
theorem dict_writes_ok (c : Codec) (hc : c.Lossless) (o : COpts) (ho : o.toWOpts.Sound) (hasNulls : Bool) (rows : List Value)
    (hrows : ∀ v ∈ rows, v.null = true ∨ ∃ s, v.v = .str s) : ∃ w, (DictWriter.new o hasNulls).writes c o rows = .ok w := by
  obtain ⟨p, -, h, -⟩ := dict_present c hc o ho hasNulls rows
  obtain ⟨w, h1, -⟩ := DictWriter.writes_spec c o rows hrows (DictWriter.new o hasNulls) p h
  exact ⟨w, h1⟩

theorem flush_new {σ : Type} (E : Enc σ) (c : Codec) (o : WOpts) (e e' : σ) (h : E.flush e = .ok (e', [])) :
    ∃ w, (newStreamWriter o e).flush E c o = .ok w := by
  by_cases hk : o.kind = .none <;> simp [StreamWriter.flush, newStreamWriter, h, hk]

/-- **C40**, what is left of it: a column of nulls only can be flushed, and nothing else can. -/
theorem dict_flush_partial (c : Codec) (hc : c.Lossless) (o : COpts) (ho : o.toWOpts.Sound) (hasNulls : Bool) (rows : List Value)
    (hrows : ∀ v ∈ rows, v.null = true ∨ ∃ s, v.v = .str s) :
    (∃ w w', (DictWriter.new o hasNulls).writes c o rows = .ok w ∧ w.flush c o = .ok w') ↔ ∀ v ∈ rows, v.null = true := by
  constructor
  · rintro ⟨w, w', h1, h2⟩ v hv
    cases hn : v.null with
    | true => rfl
    | false =>
      rw [dict_flush_panics c o hasNulls rows w h1 ⟨v, hv, hn⟩] at h2
      simp at h2
  · intro hall
    obtain ⟨p, p', h, hf⟩ := dict_present c hc o ho hasNulls rows
    obtain ⟨w, h1, h2, h3, h4, h5, h6⟩ := DictWriter.writes_spec c o rows hrows (DictWriter.new o hasNulls) p h
    have ha : DictWriter.After rows w := by
      have := DictWriter.writes_after rows [] _ w ⟨rfl, fun h => absurd rfl h, fun _ => rfl⟩ h1
      simpa using this
    have hc0 : w.count = 0 := by
      rw [ha.count, List.length_eq_zero_iff]
      simp only [nonNulls, List.filterMap_eq_nil_iff]
      intro v hv; simp [hall v hv]
    obtain ⟨d, hd⟩ := flush_new intEnc c o.toWOpts (newIntRLV2 false o.writeIndex) _ rfl
    obtain ⟨t, ht⟩ := flush_new stringEnc c o.toWOpts () _ rfl
    refine ⟨w, ?_, h1, ?_⟩
    rotate_left
    · simp only [DictWriter.flush, hc0, ha.empty hc0, DictWriter.sorted, List.foldr_nil, List.replicate_zero, DictWriter.placeAll,
        List.map_nil, StreamWriter.writes, Res.ok_bind, h2, h3, h4, h5, h6]
      simp only [DictWriter.new, hf, hd, ht, Res.ok_bind]
      rfl

/-- A dictionary column with the strings "b", "a", "b". -/
example : ∃ w, (DictWriter.new ⟨⟨.none, 1, false⟩, 1⟩ false).writes ⟨fun _ x => x, some⟩ ⟨⟨.none, 1, false⟩, 1⟩
    [⟨false, .str [98#8]⟩, ⟨false, .str [97#8]⟩, ⟨false, .str [98#8]⟩] = .ok w ∧ w.count = 3 ∧
    w.data = [([98#8], [1, 3]), ([97#8], [2])] ∧ DictWriter.sorted w.data = [([97#8], [2]), ([98#8], [1, 3])] :=
  ⟨_, rfl, rfl, rfl, by decide +kernel⟩

/-- Both theorems about dictionaries on the rows of the last example. -/
example : ∃ w, (DictWriter.new ⟨⟨.none, 1, false⟩, 1⟩ true).writes ⟨fun _ x => x, some⟩ ⟨⟨.none, 1, false⟩, 1⟩
    [⟨false, .str [98#8]⟩, ⟨true, .nil⟩, ⟨false, .str [98#8]⟩] = .ok w ∧ w.flush ⟨fun _ x => x, some⟩ ⟨⟨.none, 1, false⟩, 1⟩ = .panic := by
  obtain ⟨w, hw⟩ := dict_writes_ok ⟨fun _ x => x, some⟩ (fun _ _ => rfl) ⟨⟨.none, 1, false⟩, 1⟩ (by simp [WOpts.Sound]) true
    [⟨false, .str [98#8]⟩, ⟨true, .nil⟩, ⟨false, .str [98#8]⟩] (by simp)
  exact ⟨w, hw, dict_flush_panics _ _ _ _ w hw ⟨⟨false, .str [98#8]⟩, by simp, rfl⟩⟩
/-- `char` can be written and not be read, `float` can be both. -/
example : ¬ (∃ r, newReaderTag .char .directV2 = .ok r) ∧ ∃ r, newReaderTag .float .direct = .ok r :=
  ⟨fun h => absurd ((writable_readable_iff .char .directV2 _ rfl).mp h) (by decide), (writable_readable_iff .float .direct _ rfl).mpr (by decide)⟩

end Goorc
