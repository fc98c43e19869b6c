import Verif.Model.File
import Verif.Model.FileReader
/-
C92: what the library reads from a file does not depend on how the operating system serves the reads; and the file in memory
is a file.
-/
namespace Goorc

/-- The `n` bytes of a file from an offset, if there are so many: what reading is to give. No bytes are there always. -/
def bytesAt (file : Bytes) (start n : Nat) : Option Bytes := if n ≤ file.length - start then some ((file.drop start).take n) else none

theorem bytesAt_split (file : Bytes) (start n k : Nat) (hk : k ≤ n) :
    bytesAt file start n = (bytesAt file start k).bind fun a => (bytesAt file (start + k) (n - k)).map fun b => a ++ b := by
  simp only [bytesAt]
  by_cases h : n ≤ file.length - start
  · rw [if_pos h, if_pos (by omega), if_pos (by omega)]
    simp only [Option.bind_some, Option.map_some, Option.some.injEq]
    rw [show n = k + (n - k) by omega, List.take_add, List.drop_drop]
    congr 3
    omega
  · rw [if_neg h]
    by_cases h1 : k ≤ file.length - start
    · rw [if_pos h1, if_neg (by omega)]; rfl
    · rw [if_neg h1]; rfl

theorem portion_bounds (q : List Nat) (n : Nat) (hn : n ≠ 0) : 0 < portion q n ∧ portion q n ≤ n := by
  rw [portion.eq_def]
  split <;> omega

/-- A call of `Read` of a file of the operating system that does not find the end gives between one and `n` of the next bytes. -/
theorem OsFile.read_spec (f : OsFile) (n : Nat) (hn : n ≠ 0) :
    (f.contents.length ≤ f.offset ∧ f.read n = .ok ⟨[], some .other, f⟩) ∨
    (∃ k quotas, 0 < k ∧ k ≤ n ∧ f.offset + k ≤ f.contents.length ∧ f.read n = .ok ⟨(f.contents.drop f.offset).take k, none, ⟨f.contents, f.offset + k, quotas⟩⟩) := by
  simp only [OsFile.read, if_neg hn]
  have h1 := portion_bounds f.quotas n hn
  generalize portion f.quotas n = m at h1 ⊢
  by_cases he : f.contents.length ≤ f.offset
  · left
    rw [List.drop_eq_nil_of_le he]
    simp [he]
  · right
    have hne : (f.contents.drop f.offset).take m ≠ [] := by
      intro h
      have := congrArg List.length h
      simp only [List.length_take, List.length_drop, List.length_nil] at this
      omega
    rw [if_neg hne]
    refine ⟨min m (f.contents.length - f.offset), f.quotas.tail, by omega, by omega, by omega, ?_⟩
    have hl : ((f.contents.drop f.offset).take m).length = min m (f.contents.length - f.offset) := by
      rw [List.length_take, List.length_drop]
    have ht : (f.contents.drop f.offset).take m = (f.contents.drop f.offset).take (min m (f.contents.length - f.offset)) := by
      rw [← List.length_drop, List.take_eq_take_min]
    rw [hl, ← ht]

/-- **C92** `io.ReadFull` on a file of the operating system, however it splits the reads: the bytes asked for, if they are there, and an error otherwise. -/
theorem os_readFull (n : Nat) : ∀ (f : OsFile) (fuel : Nat), n < fuel →
    match bytesAt f.contents f.offset n with
    | some b => ∃ quotas, readFull OsFile.read fuel f n = .ok (b, ⟨f.contents, f.offset + n, quotas⟩)
    | none => ∃ e, readFull OsFile.read fuel f n = .err e := by
  induction n using Nat.strongRecOn with
  | _ n ih =>
    intro f fuel hfuel
    obtain ⟨fuel, rfl⟩ : ∃ m, fuel = m + 1 := ⟨fuel - 1, by omega⟩
    rw [readFull]
    by_cases hn : n = 0
    · subst hn
      simp only [bytesAt, Nat.zero_le, if_true, List.take_zero, Nat.add_zero]
      exact ⟨_, rfl⟩
    · rw [if_neg hn]
      rcases f.read_spec n hn with ⟨h1, h2⟩ | ⟨k, quotas, hk, hkn, hin, h2⟩
      · rw [bytesAt, if_neg (by omega)]
        simp only [h2, Res.ok_bind, List.length_nil]
        rw [if_neg (by omega)]
        exact ⟨_, rfl⟩
      · have hlen : ((f.contents.drop f.offset).take k).length = k := by
          rw [List.length_take, List.length_drop]; omega
        simp only [h2, Res.ok_bind, hlen]
        by_cases hd : k = n
        · subst hd
          rw [if_pos (Nat.le_refl k), bytesAt, if_pos (by omega)]
          exact ⟨_, rfl⟩
        · rw [if_neg (by omega), bytesAt_split _ _ _ k hkn]
          have := ih (n - k) (by omega) ⟨f.contents, f.offset + k, quotas⟩ fuel (by omega)
          have hb : bytesAt f.contents f.offset k = some ((f.contents.drop f.offset).take k) := by rw [bytesAt, if_pos (by omega)]
          rw [hb]
          cases hr : bytesAt f.contents (f.offset + k) (n - k) with
          | none =>
            rw [hr] at this
            obtain ⟨e, he⟩ := this
            exact ⟨e, by simp only [he]; rfl⟩
          | some b =>
            rw [hr] at this
            obtain ⟨q, hq⟩ := this
            refine ⟨q, ?_⟩
            simp only [hq, Res.ok_bind]
            congr 3
            omega

/-- **C92** `io.CopyN` likewise, whatever room the buffer has at each call. -/
theorem os_copyN (n : Nat) (f : OsFile) (fuel : Nat) (rooms : List Nat) (hfuel : n < fuel) :
    match bytesAt f.contents f.offset n with
    | some b => ∃ quotas, copyN OsFile.read fuel rooms f n = .ok (b, ⟨f.contents, f.offset + n, quotas⟩)
    | none => ∃ e, copyN OsFile.read fuel rooms f n = .err e := by
  have key : ∀ (n : Nat) (f : OsFile) (fuel : Nat) (rooms : List Nat), n < fuel →
      match bytesAt f.contents f.offset n with
      | some b => ∃ quotas, readFrom OsFile.read fuel rooms f n = .ok (b, ⟨f.contents, f.offset + n, quotas⟩)
      | none => ∃ e, readFrom OsFile.read fuel rooms f n = .err e := by
    intro n
    induction n using Nat.strongRecOn with
    | _ n ih =>
      intro f fuel rooms hfuel
      obtain ⟨fuel, rfl⟩ : ∃ m, fuel = m + 1 := ⟨fuel - 1, by omega⟩
      rw [readFrom.eq_def]
      dsimp only
      by_cases hn : n = 0
      · subst hn
        simp only [bytesAt, Nat.zero_le, if_true, List.take_zero, Nat.add_zero]
        exact ⟨_, rfl⟩
      · rw [if_neg hn]
        have h1 := portion_bounds rooms n hn
        generalize portion rooms n = m at h1 ⊢
        rcases f.read_spec m (by omega) with ⟨h1, h2⟩ | ⟨k, quotas, hk, hkn, hin, h2⟩
        · rw [bytesAt, if_neg (by omega)]
          simp only [h2, Res.ok_bind]
          exact ⟨_, rfl⟩
        · have hlen : ((f.contents.drop f.offset).take k).length = k := by
            rw [List.length_take, List.length_drop]; omega
          simp only [h2, Res.ok_bind, hlen]
          rw [bytesAt_split _ _ _ k (by omega)]
          have := ih (n - k) (by omega) ⟨f.contents, f.offset + k, quotas⟩ fuel rooms.tail (by omega)
          have hb : bytesAt f.contents f.offset k = some ((f.contents.drop f.offset).take k) := by rw [bytesAt, if_pos (by omega)]
          rw [hb]
          cases hr : bytesAt f.contents (f.offset + k) (n - k) with
          | none =>
            rw [hr] at this
            obtain ⟨e, he⟩ := this
            exact ⟨e, by simp only [he]; rfl⟩
          | some b =>
            rw [hr] at this
            obtain ⟨q, hq⟩ := this
            refine ⟨q, ?_⟩
            simp only [hq, Res.ok_bind]
            congr 3
            omega
  have := key n f fuel rooms hfuel
  rw [copyN]
  cases hr : bytesAt f.contents f.offset n with
  | none =>
    rw [hr] at this
    obtain ⟨e, he⟩ := this
    exact ⟨e, by simp only [he, Res.err_bind]⟩
  | some b =>
    rw [hr] at this
    obtain ⟨q, hq⟩ := this
    refine ⟨q, ?_⟩
    have hl : b.length = n := by
      rw [bytesAt] at hr
      split at hr
      · cases hr
        rw [List.length_take, List.length_drop]; omega
      · cases hr
    simp only [hq, Res.ok_bind]
    rw [if_neg (by omega)]

/-- **C92** What the model of the reader does with a file, `readAt` and `pull`, is what a clone of a file of the operating system gives. -/
theorem os_readAt (f : OsFile) (start : Int) (n fuel : Nat) (hfuel : n < fuel) (b : Bytes) :
    readAt f.contents start n = .ok b ↔ ∃ g f', f.clone.seek start = .ok g ∧ readFull OsFile.read fuel g n = .ok (b, f') := by
  rw [readAt, OsFile.seek]
  by_cases h : start < 0
  · simp [h]
  · rw [if_neg h, if_neg h]
    have := os_readFull n ⟨f.contents, start.toNat, f.quotas⟩ fuel hfuel
    simp only [bytesAt] at this
    by_cases hin : n ≤ f.contents.length - start.toNat
    · rw [if_pos hin]
      simp only [if_pos hin] at this
      obtain ⟨q, hq⟩ := this
      constructor
      · rintro ⟨⟩; exact ⟨_, _, rfl, hq⟩
      · rintro ⟨g, f', ⟨⟩, h2⟩
        have h2 : readFull OsFile.read fuel ⟨f.contents, start.toNat, f.quotas⟩ n = .ok (b, f') := h2
        rw [hq] at h2
        cases h2; rfl
    · rw [if_neg hin]
      simp only [if_neg hin] at this
      obtain ⟨e, he⟩ := this
      constructor
      · intro h; cases h
      · rintro ⟨g, f', ⟨⟩, h2⟩
        have h2 : readFull OsFile.read fuel ⟨f.contents, start.toNat, f.quotas⟩ n = .ok (b, f') := h2
        rw [he] at h2
        cases h2

/-- **C92** and what a stream reader takes from its file is what `io.CopyN` or `io.ReadFull` give; both stand at the same offset then. -/
theorem os_take (r : StreamReader) (quotas : List Nat) (n fuel : Nat) (hfuel : n < fuel) (rooms : List Nat) (b : Bytes) (pos : Nat) :
    (r.take n = .ok (b, { r with pos := pos }) ↔ ∃ q, copyN OsFile.read fuel rooms ⟨r.file, r.pos, quotas⟩ n = .ok (b, ⟨r.file, pos, q⟩)) ∧
    (r.take n = .ok (b, { r with pos := pos }) ↔ ∃ q, readFull OsFile.read fuel ⟨r.file, r.pos, quotas⟩ n = .ok (b, ⟨r.file, pos, q⟩)) := by
  have h1 := os_copyN n ⟨r.file, r.pos, quotas⟩ fuel rooms hfuel
  have h2 := os_readFull n ⟨r.file, r.pos, quotas⟩ fuel hfuel
  simp only [bytesAt] at h1 h2
  rw [StreamReader.take, List.length_drop]
  by_cases hin : n ≤ r.file.length - r.pos
  · simp only [if_pos hin] at h1 h2
    rw [if_neg (by omega)]
    obtain ⟨q1, h1⟩ := h1
    obtain ⟨q2, h2⟩ := h2
    simp only [h1, h2, Res.ok.injEq, Prod.mk.injEq, OsFile.mk.injEq, StreamReader.mk.injEq, true_and, and_true]
    exact ⟨⟨fun ⟨a, b⟩ => ⟨_, a, b, rfl⟩, fun ⟨_, a, b, _⟩ => ⟨a, b⟩⟩, ⟨fun ⟨a, b⟩ => ⟨_, a, b, rfl⟩, fun ⟨_, a, b, _⟩ => ⟨a, b⟩⟩⟩
  · simp only [if_neg hin] at h1 h2
    rw [if_pos (by omega)]
    obtain ⟨e1, h1⟩ := h1
    obtain ⟨e2, h2⟩ := h2
    simp only [h1, h2, reduceCtorEq, exists_false, and_self]

/-- Reads that are split: eight bytes in pieces of one, three and the rest. -/
example : readFull OsFile.read 10 ⟨[1#8, 2#8, 3#8, 4#8, 5#8, 6#8, 7#8, 8#8, 9#8], 1, [1, 3]⟩ 7 =
    .ok ([2#8, 3#8, 4#8, 5#8, 6#8, 7#8, 8#8], ⟨[1#8, 2#8, 3#8, 4#8, 5#8, 6#8, 7#8, 8#8, 9#8], 8, []⟩) := by decide +kernel

/-! ### The file in memory -/

namespace MockFile

/-- What a file in memory has. -/
def contents (m : MockFile) : Bytes := m.buf.take m.waterMark

/-- The files in memory that come about: what was written is in the buffer. -/
def Valid (m : MockFile) : Prop := m.waterMark ≤ m.buf.length

theorem contents_length {m : MockFile} (h : m.Valid) : m.contents.length = m.size := by
  rw [contents, List.length_take, size]
  unfold Valid at h
  omega

theorem new_valid (bb : Bytes) : (new bb).Valid ∧ (new bb).contents = [] := by simp [new, Valid, contents]

/-- **C92** A `Write` appends what fits, says how much that was, and reports an error exactly if that was not all. -/
theorem write_spec {m : MockFile} (h : m.Valid) (p : Bytes) :
    ∃ m', m.write p = (min p.length (m.buf.length - m.size), decide (m.buf.length < m.size + p.length), m') ∧ m'.Valid ∧
      m'.contents = m.contents ++ p.take (m.buf.length - m.size) ∧ m'.buf.length = m.buf.length ∧ m'.offset = m.offset := by
  unfold Valid at h
  have hl : (p.take (m.buf.length - m.waterMark)).length = min p.length (m.buf.length - m.waterMark) := by
    rw [List.length_take]; omega
  refine ⟨(m.write p).2.2, ?_, ?_, ?_, ?_, rfl⟩
  · simp only [write, size, hl, Prod.mk.injEq, true_and, and_true]
    exact decide_eq_decide.mpr (by omega)
  · simp only [write, Valid, List.length_append, List.length_take, List.length_drop]
    omega
  · simp only [write, contents, size]
    rw [List.take_append_of_le_length (by simp only [List.length_append, List.length_take]; omega), List.take_of_length_le (by simp only [List.length_append, List.length_take]; omega)]
  · simp only [write, List.length_append, List.length_take, List.length_drop]
    omega

/-- Several writes, as far as they succeed. -/
def writes : MockFile → List Bytes → Option MockFile
  | m, [] => some m
  | m, p :: ps =>
    let (_, failed, m) := m.write p
    if failed then none else writes m ps

/-- **C92** What was written in several pieces, if it fits, is there, in order; if it does not fit, one of the writes fails. -/
theorem writes_spec (ps : List Bytes) : ∀ (m : MockFile), m.Valid →
    if m.size + ps.flatten.length ≤ m.buf.length then
      ∃ m', m.writes ps = some m' ∧ m'.Valid ∧ m'.contents = m.contents ++ ps.flatten ∧ m'.buf.length = m.buf.length ∧ m'.offset = m.offset
    else m.writes ps = none := by
  induction ps with
  | nil =>
    intro m h
    rw [if_pos (by unfold Valid at h; simp only [List.flatten_nil, List.length_nil, size]; omega)]
    exact ⟨m, rfl, h, by simp, rfl, rfl⟩
  | cons p ps ih =>
    intro m h
    obtain ⟨m1, e, hv, hc, hb, ho⟩ := write_spec h p
    rw [writes.eq_def]
    simp only [e, decide_eq_true_eq]
    have hs := contents_length hv
    have hs0 := contents_length h
    rw [hc] at hs
    simp only [List.length_append, List.length_take] at hs
    simp only [List.flatten_cons, List.length_append]
    by_cases hf : m.buf.length < m.size + p.length
    · rw [if_neg (by omega), if_pos hf]
    · have := ih m1 hv
      rw [if_neg hf]
      by_cases hr : m1.size + ps.flatten.length ≤ m1.buf.length
      · rw [if_pos hr] at this
        rw [if_pos (by omega)]
        obtain ⟨m', e', hv', hc', hb', ho'⟩ := this
        refine ⟨m', e', hv', ?_, by omega, by rw [ho', ho]⟩
        rw [hc', hc, List.take_of_length_le (by omega), List.append_assoc]
      · rw [if_neg hr] at this
        rw [if_neg (by omega), this]

/-- `Seek` goes to any place in the buffer, and to no other. -/
theorem seek_spec (m : MockFile) (offset : Int) (whence : Nat) :
    (∃ m', m.seek offset whence = .ok m') ↔ whence = 0 ∧ offset < m.buf.length := by
  rw [seek]
  split
  · simp_all
  · split <;> simp_all <;> omega

/-- A `Read` at an offset in the file: the next bytes, and `io.EOF` if there are none, or if it stops before the last byte of the buffer. -/
theorem read_spec {m : MockFile} (o : Nat) (ho : m.offset = o) (h : o ≤ m.size) (hv : m.Valid) (n : Nat) :
    m.read n = .ok ⟨(m.contents.drop o).take n,
      if o + min n (m.size - o) + 1 = m.buf.length ∨ min n (m.size - o) = 0 then some .eof else none,
      { m with offset := ((o + min n (m.size - o) : Nat) : Int) }⟩ := by
  have hl : (((m.buf.take m.waterMark).drop o).take n).length = min n (m.size - o) := by
    have := contents_length hv
    rw [List.length_take, List.length_drop, ← this]; rfl
  rw [read, ho, if_neg (by unfold size at h; omega)]
  simp only [Int.toNat_natCast, hl]
  simp only [Res.ok.injEq, ReadResult.mk.injEq, MockFile.mk.injEq, true_and, contents]
  refine ⟨?_, by push_cast; simp⟩
  by_cases hc : o + min n (m.size - o) + 1 = m.buf.length ∨ min n (m.size - o) = 0
  · rw [if_pos hc, if_pos (by omega)]
  · rw [if_neg hc, if_neg (by omega)]

/-- **C92** `io.ReadFull` on a file in memory gives what it gives on a file of the operating system. -/
theorem readFull_spec {m : MockFile} (o : Nat) (ho : m.offset = o) (h : o ≤ m.size) (hv : m.Valid) (n fuel : Nat) (hfuel : 1 < fuel) :
    match bytesAt m.contents o n with
    | some b => readFull read fuel m n = .ok (b, { m with offset := ((o + n : Nat) : Int) })
    | none => ∃ e, readFull read fuel m n = .err e := by
  have hl := contents_length hv
  obtain ⟨fuel, rfl⟩ : ∃ k, fuel = k + 2 := ⟨fuel - 2, by omega⟩
  rw [readFull, bytesAt]
  by_cases hn : n = 0
  · subst hn
    simp only [Nat.zero_le, if_true, List.take_zero, Nat.add_zero, ← ho]
  · rw [if_neg hn]
    have hl' : ((m.contents.drop o).take n).length = min n (m.size - o) := by rw [List.length_take, List.length_drop, hl]
    simp only [read_spec o ho h hv n, Res.ok_bind, hl']
    by_cases hin : n ≤ m.contents.length - o
    · rw [if_pos hin, if_pos (by omega)]
      simp only [show min n (m.size - o) = n by omega]
    · rw [if_neg hin, if_neg (by omega)]
      by_cases hc : o + min n (m.size - o) + 1 = m.buf.length ∨ min n (m.size - o) = 0
      · rw [if_pos hc]
        exact ⟨_, rfl⟩
      · rw [if_neg hc]
        have hz : min (n - min n (m.size - o)) (m.size - (o + min n (m.size - o))) = 0 := by omega
        have := read_spec (m := { m with offset := ((o + min n (m.size - o) : Nat) : Int) }) (o + min n (m.size - o)) rfl
          (by simp only [size] at *; omega) hv (n - min n (m.size - o))
        simp only [size] at this hz ⊢
        rw [readFull, if_neg (by unfold size at hl; omega), this]
        refine ⟨.eof, ?_⟩
        simp only [Res.ok_bind, hz]
        rw [if_neg (by simp only [List.length_take, List.length_drop, contents] at *; unfold Valid at hv; omega)]
        simp

/-- **C92** `io.CopyN` likewise, unless the bytes go up to the last byte of the buffer. -/
theorem copyN_spec {m : MockFile} (o : Nat) (ho : m.offset = o) (h : o ≤ m.size) (hv : m.Valid) (n fuel : Nat) (hfuel : n < fuel) (rooms : List Nat)
    (hfree : o + n < m.buf.length) :
    match bytesAt m.contents o n with
    | some b => copyN read fuel rooms m n = .ok (b, { m with offset := ((o + n : Nat) : Int) })
    | none => ∃ e, copyN read fuel rooms m n = .err e := by
  have key : ∀ (n o : Nat) (m : MockFile) (fuel : Nat) (rooms : List Nat), m.offset = o → o ≤ m.size → m.Valid → n < fuel → o + n < m.buf.length →
      readFrom read fuel rooms m n = .ok ((m.contents.drop o).take n, { m with offset := ((o + min n (m.size - o) : Nat) : Int) }) := by
    intro n
    induction n using Nat.strongRecOn with
    | _ n ih =>
      intro o m fuel rooms ho h hv hfuel hfree
      have hl := contents_length hv
      obtain ⟨fuel, rfl⟩ : ∃ k, fuel = k + 1 := ⟨fuel - 1, by omega⟩
      rw [readFrom.eq_def]
      dsimp only
      by_cases hn : n = 0
      · subst hn
        simp [← ho]
      · rw [if_neg hn]
        have h1 := portion_bounds rooms n hn
        generalize portion rooms n = k at h1 ⊢
        simp only [read_spec o ho h hv k, Res.ok_bind]
        by_cases hz : min k (m.size - o) = 0
        · rw [if_pos (.inr hz)]
          have hd : m.contents.drop o = [] := List.drop_eq_nil_of_le (by omega)
          simp only [hd, List.take_nil]
          rw [show min k (m.size - o) = min n (m.size - o) by omega]
        · by_cases hd : o + min k (m.size - o) + 1 = m.buf.length
          · rw [if_pos (.inl hd)]
            simp only [show k = n by omega]
          rw [if_neg (by omega)]
          have hl' : ((m.contents.drop o).take k).length = min k (m.size - o) := by rw [List.length_take, List.length_drop, hl]
          have := ih (n - min k (m.size - o)) (by omega) (o + min k (m.size - o)) { m with offset := ((o + min k (m.size - o) : Nat) : Int) } fuel rooms.tail rfl
            (by simp only [size] at *; omega) hv (by omega) (by simp only [size] at *; omega)
          simp only [hl', this, Res.ok_bind, Res.ok.injEq, Prod.mk.injEq, MockFile.mk.injEq, true_and, and_true]
          refine ⟨?_, ?_⟩
          · have e : ({ m with offset := ((o + min k (m.size - o) : Nat) : Int) } : MockFile).contents = m.contents := rfl
            rw [e, ← List.drop_drop]
            have ht : (m.contents.drop o).take k = (m.contents.drop o).take (min k (m.size - o)) := by
              rw [← hl, ← List.length_drop, List.take_eq_take_min]
            rw [ht, ← List.take_add]
            congr 1
            omega
          · simp only [size] at *
            congr 1
            omega
  have hl := contents_length hv
  rw [copyN, key n o m fuel rooms ho h hv hfuel hfree, bytesAt]
  simp only [Res.ok_bind, List.length_take, List.length_drop]
  by_cases hin : n ≤ m.contents.length - o
  · rw [if_pos hin, if_neg (by omega)]
    simp only [show min n (m.size - o) = n by omega]
  · rw [if_neg hin, if_pos (by omega)]
    exact ⟨_, rfl⟩

/-- What is read from a file in memory of what was written to it, in whatever pieces, is what the model of the reader takes from the bytes of the file. -/
theorem reads_back (bb file : Bytes) (ps : List Bytes) (hps : ps.flatten = file) (hroom : file.length ≤ bb.length) :
    ∃ m, (new bb).writes ps = some m ∧ m.size = file.length ∧
      ∀ (start : Int) (n fuel : Nat) (b : Bytes), 1 < fuel → start ≤ file.length → start < bb.length → (0 ≤ start ∨ 0 < n) →
        ((readAt file start n = .ok b) ↔ ∃ g g', m.clone.seek start 0 = .ok g ∧ readFull read fuel g n = .ok (b, g')) := by
  obtain ⟨hv0, hc0⟩ := new_valid bb
  have h := writes_spec ps (new bb) hv0
  rw [if_pos (by rw [hps]; simpa [new, size] using hroom)] at h
  obtain ⟨m, e, hv, hc, hb, ho⟩ := h
  rw [hc0, List.nil_append, hps] at hc
  have hl := contents_length hv
  rw [hc] at hl
  refine ⟨m, e, hl.symm, ?_⟩
  intro start n fuel b hfuel h1 h2 h3
  have hb' : m.clone.buf.length = bb.length := hb
  have hs : m.clone.seek start 0 = .ok { m.clone with offset := start } := by
    rw [seek, if_neg (by simp), if_neg (by omega)]
  rw [readAt, hs]
  by_cases hneg : start < 0
  · rw [if_pos hneg]
    constructor
    · intro h; cases h
    · rintro ⟨g, g', ⟨⟩, h⟩
      obtain ⟨k, rfl⟩ : ∃ k, fuel = k + 1 := ⟨fuel - 1, by omega⟩
      rw [readFull, if_neg (by omega), read, if_pos (.inl hneg)] at h
      cases h
  · rw [if_neg hneg]
    have := readFull_spec (m := { m.clone with offset := start }) start.toNat (by simp only [Int.toNat_of_nonneg (Int.not_lt.mp hneg)])
      (by simp only [size, clone] at *; omega) hv n fuel hfuel
    simp only [show ({ m.clone with offset := start } : MockFile).contents = file from hc, bytesAt] at this
    by_cases hin : n ≤ file.length - start.toNat
    · rw [if_pos hin]
      simp only [if_pos hin] at this
      constructor
      · rintro ⟨⟩; exact ⟨_, _, rfl, this⟩
      · rintro ⟨g, g', ⟨⟩, h⟩
        rw [this] at h; cases h; rfl
    · rw [if_neg hin]
      simp only [if_neg hin] at this
      obtain ⟨e, he⟩ := this
      constructor
      · intro h; cases h
      · rintro ⟨g, g', ⟨⟩, h⟩
        rw [he] at h; cases h

/-- **C92, refuted** A file in memory is not quite a file: where a file reports the end, between what was written and the end of the buffer, `Read` panics; at
the end of a full buffer `Seek` fails; and `io.CopyN` can fail for the last bytes of a full buffer, depending on how much room there is at each call. -/
theorem not_quite_a_file :
    let m : MockFile := ⟨[1#8, 2#8, 3#8, 0#8, 0#8], 0, 3⟩
    let full : MockFile := ⟨[1#8, 2#8, 3#8], 0, 3⟩
    (∃ g, m.seek 4 0 = .ok g ∧ readFull read 10 g 1 = .panic) ∧
    full.seek 3 0 = .err .other ∧
    copyN read 10 [2] full 3 = .err .eof ∧ copyN read 10 [1, 1] full 3 = .err .eof ∧ copyN read 10 [] full 3 = .ok ([1#8, 2#8, 3#8], ⟨[1#8, 2#8, 3#8], 3, 3⟩) ∧
    copyN OsFile.read 10 [2] ⟨[1#8, 2#8, 3#8], 0, []⟩ 3 = .ok ([1#8, 2#8, 3#8], ⟨[1#8, 2#8, 3#8], 3, []⟩) :=
  ⟨⟨_, rfl, by decide +kernel⟩, by decide +kernel, by decide +kernel, by decide +kernel, by decide +kernel, by decide +kernel⟩

/-- Writing in pieces. -/
example : (new (List.replicate 6 0#8)).writes [[1#8, 2#8], [], [3#8]] = some ⟨[1#8, 2#8, 3#8, 0#8, 0#8, 0#8], 0, 3⟩ ∧
    (new (List.replicate 2 0#8)).writes [[1#8, 2#8], [], [3#8]] = none := by decide +kernel

end MockFile

end Goorc
