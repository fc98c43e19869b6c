import Verif.Props.ForeignSeek
import Verif.Props.Dictionary
/-
C82 for string columns with a dictionary: as for the other columns, `SeekStride(k)` goes to the first row of row group `k - 1`. The
dictionary is loaded by the first batch, whether seeks came before it or not, and is not loaded again.
-/
namespace Goorc

section
variable {c : Codec} {kind : CompKind} {size : Nat} {file : Bytes} {ps : List LaidStream} {contents : StreamKind → Bytes}
  {present : Option (List Bool)} {dict : List Bytes} {idx : List Nat} {hasNulls : Bool} {stride : Nat} {index : List (List Nat)}

/-- The reader of a dictionary column that has its dictionary from the start. -/
def dictLoaded (fuel : Nat) (l : DictReader) : ReadKind DictReader :=
  { dictRead fuel with
    init := fun s => ((dictRead fuel).init s).map l.with
    prepare := fun _ d => .ok d }

theorem dictLoaded_nextRows (fuel : Nat) (l : DictReader) (c : Codec) (vec : List Value) (r : ColReader DictReader) :
    (dictLoaded fuel l).nextRows c r vec = (dictRead fuel).nextRows c r vec := by
  induction vec generalizing r with
  | nil => rfl
  | cons v vec ih =>
    simp only [ReadKind.nextRows, ih]
    rfl

theorem dictLoaded_skipRows (fuel : Nat) (l : DictReader) (c : Codec) (n : Nat) (r : ColReader DictReader) :
    (dictLoaded fuel l).skipRows c n r = (dictRead fuel).skipRows c n r := by
  induction n generalizing r with
  | zero => rfl
  | succ n ih =>
    simp only [ReadKind.skipRows, ih]
    rfl

/-- Seeking does not notice whether the dictionary is loaded. -/
theorem dict_seek_under (fuel : Nat) (l : DictReader) (d : DictReader) (pos : List (Nat × Nat × List Nat)) :
    (dictRead fuel).seek c (l.with d) pos = ((dictRead fuel).seek c d pos >>= fun d' => .ok (l.with d')) := by
  simp only [dictRead]
  split
  · simp only [DictReader.with]
    cases d.data.seek c _ _ _ <;> rfl
  · rfl

theorem dict_seekStride_under (fuel : Nat) (l : DictReader) (k : Nat) (r : ColReader DictReader) :
    (dictRead fuel).seekStride c { r with data := l.with r.data } k = ((dictRead fuel).seekStride c r k >>= fun r' => .ok { r' with data := l.with r'.data }) := by
  simp only [ReadKind.seekStride, dict_seek_under]
  split
  · cases r.present with
    | none => 
      simp only [Res.pure_eq, Res.ok_bind, Res.bind_assoc]
    | some p => 
      simp only [Res.pure_eq, Res.ok_bind, Res.bind_assoc]
  · simp only [Res.bind_assoc]
    congr 1; funext pos
    cases r.present with
    | none => simp only [Res.pure_eq, Res.ok_bind, Res.bind_assoc]
    | some p => simp only [Res.pure_eq, Res.ok_bind, Res.bind_assoc]

theorem dict_seekStride_data {fuel : Nat} {k : Nat} {r r' : ColReader DictReader} (h : (dictRead fuel).seekStride c r k = .ok r') :
    ∃ x, r'.data = { r.data with data := x } := by
  have hs : ∀ d d' pos, (dictRead fuel).seek c d pos = .ok d' → ∃ x, d' = { d with data := x } := by
    intro d d' pos h
    simp only [dictRead] at h
    split at h
    · obtain ⟨x, -, h⟩ := Res.bind_ok_inv h
      simp only [Res.pure_eq, Res.ok.injEq] at h
      exact ⟨x, h.symm⟩
    · cases h
  simp only [ReadKind.seekStride] at h
  split at h
  · obtain ⟨p, -, h⟩ := Res.bind_ok_inv h
    obtain ⟨d, h1, h⟩ := Res.bind_ok_inv h
    simp only [Res.pure_eq, Res.ok.injEq] at h
    rw [← h]; exact hs _ _ _ h1
  · obtain ⟨pos, -, h⟩ := Res.bind_ok_inv h
    split at h
    · obtain ⟨⟨pp, i⟩, -, h⟩ := Res.bind_ok_inv h
      obtain ⟨⟨p, ds⟩, -, h⟩ := Res.bind_ok_inv h
      obtain ⟨d, h1, h⟩ := Res.bind_ok_inv h
      simp only [Res.pure_eq, Res.ok.injEq] at h
      rw [← h]; exact hs _ _ _ h1
    · obtain ⟨ds, -, h⟩ := Res.bind_ok_inv h
      obtain ⟨d, h1, h⟩ := Res.bind_ok_inv h
      simp only [Res.pure_eq, Res.ok.injEq] at h
      rw [← h]; exact hs _ _ _ h1

theorem dict_skipRows_data {fuel : Nat} (n : Nat) {r r' : ColReader DictReader} (h : (dictRead fuel).skipRows c n r = .ok r') :
    ∃ x, r'.data = { r.data with data := x } := by
  induction n generalizing r with
  | zero => simp only [ReadKind.skipRows, Res.ok.injEq] at h; exact ⟨r.data.data, by rw [← h]⟩
  | succ n ih =>
    simp only [ReadKind.skipRows] at h
    obtain ⟨⟨b, r1⟩, h1, h⟩ := Res.bind_ok_inv h
    have e1 : r1.data = r.data := by
      cases hp : r.present with
      | none =>
        rw [hp] at h1
        simp only [Res.pure_eq, Res.ok.injEq, Prod.mk.injEq] at h1
        rw [← h1.2]
      | some p =>
        rw [hp] at h1
        obtain ⟨⟨b, p'⟩, g1, g2⟩ := Res.bind_ok_inv h1
        simp only [Res.pure_eq, Res.ok.injEq, Prod.mk.injEq] at g2
        rw [← g2.2]
    cases b with
    | false =>
      obtain ⟨x, hx⟩ := ih h
      exact ⟨x, by rw [hx, e1]⟩
    | true =>
      simp only [if_true] at h
      have : (dictRead fuel).skipSwallows c r1.data = false := rfl
      rw [this] at h
      simp only [Bool.false_eq_true, if_false] at h
      obtain ⟨d, h2, h⟩ := Res.bind_ok_inv h
      obtain ⟨x, hx⟩ := ih h
      simp only [dictRead] at h2
      obtain ⟨⟨i, data⟩, -, h3⟩ := Res.bind_ok_inv h2
      simp only [Res.pure_eq, Res.ok.injEq] at h3
      exact ⟨x, by rw [hx, ← h3, e1]⟩

/-- Calls on a reader whose dictionary is loaded by the first batch do what they do on a reader that has it from the start. -/
theorem dict_roam (fuel : Nat) (l : DictReader) (ops : List SeekOp) {r : ColReader DictReader} {out : List (List Value)}
    (hp : ∀ x, (dictRead fuel).prepare c { r.data with data := x } = .ok (l.with { r.data with data := x }))
    (h : (dictLoaded fuel l).roam c { r with data := l.with r.data } ops = .ok out) : (dictRead fuel).roam c r ops = .ok out := by
  induction ops generalizing r out with
  | nil => exact h
  | cons op ops ih =>
    cases op with
    | batch vec =>
      simp only [ReadKind.roam] at h ⊢
      obtain ⟨⟨v, r1⟩, h1, h⟩ := Res.bind_ok_inv h
      obtain ⟨vs, h2, h⟩ := Res.bind_ok_inv h
      have g1 : (dictRead fuel).nextRows c { r with data := l.with r.data } vec = .ok (v, r1) := by
        rw [← dictLoaded_nextRows fuel l]; exact h1
      have hq : r1.data = l.with r1.data := by
        refine ReadKind.nextRows_keeps (fun d => d = l.with d) (fun d x d' hd hq => ?_) vec g1 rfl
        simp only [dictRead] at hd
        obtain ⟨⟨i, data⟩, h1, h2⟩ := Res.bind_ok_inv hd
        split at h2
        · simp only [Res.pure_eq, Res.ok.injEq, Prod.mk.injEq] at h2
          rw [← h2.2]
          conv => lhs; rw [hq]
          rfl
        · cases h2
      have hb : (dictRead fuel).nextBatch c r vec = .ok (v, r1) := by
        have := hp r.data.data
        simp only [ReadKind.nextBatch]
        rw [show r.data = { r.data with data := r.data.data } from rfl, this, Res.ok_bind]
        exact g1
      have := ih (r := r1) (out := vs) (fun x => by
          rw [hq]
          simp only [dictRead, DictReader.with, if_true]) (by rw [← hq]; exact h2)
      simp only [hb, Res.ok_bind, this]
      exact h
    | skip n =>
      simp only [ReadKind.roam] at h ⊢
      obtain ⟨r1, h1, h⟩ := Res.bind_ok_inv h
      rw [dictLoaded_skipRows, ReadKind.skipRows_under l.with (fun d => by
        simp only [dictRead, DictReader.with]
        cases d.data.nextUInt64 c <;> rfl) (fun _ => rfl)] at h1
      obtain ⟨r0, j1, j2⟩ := Res.bind_ok_inv h1
      simp only [Res.ok.injEq] at j2
      subst j2
      obtain ⟨x, hx⟩ := dict_skipRows_data n j1
      rw [j1, Res.ok_bind]
      exact ih (fun y => by rw [hx]; exact hp y) h
    | seek k =>
      simp only [ReadKind.roam] at h ⊢
      obtain ⟨r1, h1, h⟩ := Res.bind_ok_inv h
      have h1 : (dictRead fuel).seekStride c { r with data := l.with r.data } k = .ok r1 := h1
      rw [dict_seekStride_under] at h1
      obtain ⟨r0, j1, j2⟩ := Res.bind_ok_inv h1
      simp only [Res.ok.injEq] at j2
      subst j2
      obtain ⟨x, hx⟩ := dict_seekStride_data j1
      rw [j1, Res.ok_bind]
      exact ih (fun y => by rw [hx]; exact hp y) h

theorem dictLoaded_skips (fuel : Nat) (l : DictReader) : (dictLoaded fuel l).SkipsLikeNext c := dict_skips fuel

theorem dict_placed (h : DictionaryLaid c kind size file ps contents present dict idx) (hreach : Reachable kind size ps)
    (hin : ∀ i ∈ idx, i < dict.length) (fuel : Nat) (l : DictReader) (hl : l.strings = dict)
    (blocks : List RleBlock) (hd : IntStream false (contents .data) blocks)
    (hh : ∀ b ∈ blocks, b.Handled false) (hidx : blocks.flatMap (·.ints false) = idx.map Int.ofNat) :
    ∃ over, DataPlaced (dictLoaded fuel l) c kind size file ps (idx.map fun i => .str (dict.getD i []))
      (IntPlace c kind size ps contents false .data blocks) over := by
  have hsz := h.small.2
  have h := h.laid
  have hm : ∀ (d : DictReader) (a a' : IntReader) (is : List Nat), (∀ i ∈ is, i < dict.length) → Yields (IntReader.nextUInt64 c) a (is.map (BitVec.ofNat 64)) a' →
      Yields ((dictLoaded fuel l).next c) (l.with { d with data := a }) (is.map fun i => .str (dict.getD i [])) (l.with { d with data := a' }) :=
    fun d a a' is hi hy => dict_yields (fuel := fuel) hl hsz d is a a' hi hy
  have hmem : StreamKind.data ∈ ps.map (·.kind) := (h.kinds _).mpr (.inl (by simp))
  obtain ⟨t, h1, h2⟩ := h.start hreach hmem
  refine ⟨fun r => r = l.with r ∧ r.data.signed = false ∧ t.Same r.data.block.stream, fun r x r' hx => ?_, ?_, fun n nums hle hp => ?_, fun _ r hr' => ?_⟩
  · have hx : (dictRead fuel).next c r = .ok (x, r') := hx
    simp only [dictRead] at hx
    obtain ⟨⟨i, a⟩, h1, hx⟩ := Res.bind_ok_inv hx
    obtain ⟨g1, g2⟩ := IntReader.nextUInt64_same h1
    split at hx
    · simp only [Res.pure_eq, Res.ok.injEq, Prod.mk.injEq] at hx
      rw [← hx.2]
      have e : r = l.with r ↔ { r with data := a } = l.with { r with data := a } := by
        obtain ⟨a1, a2, a3, a4, a5⟩ := r
        simp [DictReader.with]
      show _ ↔ _ ∧ a.signed = false ∧ t.Same a.block.stream
      rw [← e, g2]
      exact ⟨fun g => ⟨g.1, g.2.1, g.2.2.trans g1⟩, fun g => ⟨g.1, g.2.1, g.2.2.trans g1.symm⟩⟩
    · cases hx
  · obtain ⟨s, g1, g2⟩ := (h.lookup .data).1 (.inl (by simp))
    rw [h1] at g1
    cases g1
    obtain ⟨s2, g3, -⟩ := (h.lookup .dictionaryData).1 (.inl (by simp))
    obtain ⟨s3, g4, -⟩ := (h.lookup .length).1 (.inl (by simp))
    have hdec := intStream_decodes hd hh
    rw [hidx, natInts_map] at hdec
    obtain ⟨r', k, -⟩ := uintReader_yields g2 hdec
    refine ⟨l.with ⟨newIntReader false t, s2, newIntReader false s3, [], false⟩, _, ?_, ⟨rfl, rfl, StreamReader.Same.refl _⟩, hm l _ _ _ hin k⟩
    simp only [dictLoaded, dictRead, h1, g3, g4, Option.map_some]
  · obtain ⟨t', chunk, b, x, g1, g2, g3⟩ := h.intPlace hreach hh hp
    rw [h1] at g1
    cases g1
    refine ⟨[(chunk, b, [x])], fun front => ?_, fun r ⟨hw, hs, hsm⟩ => ?_⟩
    · have := g2 front []
      rw [List.append_nil] at this
      simp only [dictLoaded, dictRead, streamsPos, this, Res.ok_bind, Res.pure_eq]
    · obtain ⟨s, flat, a, z, k1, k2, k3, k4, k5, k6⟩ := g3 _ hsm
      obtain ⟨r', j1, j2, j3, j4⟩ := IntReader.seek_spec k1 k3 a z (by rw [hs]; exact k4)
      obtain ⟨r'', j5, -⟩ := IntReader.yields_spec z [] (by rw [List.append_nil]; exact j2)
      rw [k5] at j1
      refine ⟨l.with { r with data := r' }, l.with { r with data := r'' }, ?_, ⟨rfl, by simp only [DictReader.with, j4, hs], (hsm.trans k2).trans j3⟩, ?_⟩
      · conv => lhs; rw [hw]
        simp only [dictLoaded, dictRead, DictReader.with, j1, Res.ok_bind, Res.pure_eq]
      · rw [← List.map_drop]
        refine hm r _ _ _ (fun i hi => hin i (List.mem_of_mem_drop hi)) ?_
        rw [List.map_drop, ← natInts_map, ← hidx, ← k6]
        exact (yields_uint (by rw [j4, hs])).mp j5
  · obtain ⟨hw, hs, hsm⟩ := hr'
    obtain ⟨s, k1, k2, k3⟩ := h2 _ hsm
    obtain ⟨r', j1, j2, j3, j4⟩ := IntReader.seek_spec k1 k2 [] _ (by rw [hs]; exact intStream_decodes hd hh)
    obtain ⟨r'', j5, -⟩ := IntReader.yields_spec _ [] (by rw [List.append_nil]; exact j2)
    refine ⟨l.with { r with data := r' }, l.with { r with data := r'' }, ?_, ⟨rfl, by simp only [DictReader.with, j4, hs], (hsm.trans k3).trans j3⟩, ?_⟩
    · conv => lhs; rw [hw]
      have j1 : r.data.seek c 0 0 0 = .ok r' := j1
      simp only [dictLoaded, dictRead, DictReader.with, List.map_cons, List.map_nil, List.replicate, j1, Res.ok_bind, Res.pure_eq]
    · refine hm r _ _ _ hin ?_
      rw [← natInts_map, ← hidx]
      exact (yields_uint (by rw [j4, hs])).mp j5

/-- **C82** (false, exact for blocks that are `Handled`, C26) string columns with a dictionary. -/
theorem foreign_dictionary_seek_exact (h : DictionaryLaid c kind size file ps contents present dict idx) (hreach : Reachable kind size ps)
    (hn : present.isSome = true → hasNulls = true) (hin : ∀ i ∈ idx, i < dict.length)
    (blocks : List RleBlock) (hd : IntStream false (contents .data) blocks)
    (hh : ∀ b ∈ blocks, b.Handled false) (hidx : blocks.flatMap (·.ints false) = idx.map Int.ofNat)
    (rows : List (Option GoVal)) (hf : Flagged present rows) (hr : rows.filterMap id = idx.map fun i => .str (dict.getD i []))
    (hi : IndexOf c kind size ps contents present rows stride (IntPlace c kind size ps contents false .data blocks) index)
    (fuel : Nat) (hfuel : dict.length ≤ fuel) :
    SeeksOneEarly (dictRead fuel) c kind size hasNulls file ps stride index true rows := by
  obtain ⟨r, l, data', g1, hp, hl, -, -, -⟩ := h.opens hn hfuel
  obtain ⟨over, hE⟩ := dict_placed h hreach hin fuel l hl blocks hd hh hidx
  have := ColumnLaid.roams (R := dictLoaded fuel l) h.laid hreach (by simp [dictLoaded, dictRead]) hn nofun rows hf (by rw [hr]; exact hE) (fun _ => rfl) rfl
    (dictLoaded_skips fuel l) stride index hi
  intro ops hw hu
  have hk := this ops hw hu
  simp only [roamStreams] at hk ⊢
  have ho : (dictLoaded fuel l).openCol kind hasNulls (ps.map fun p => (p.kind, newStreamReader kind size p.start p.body.length file)) =
      some { r with data := l.with r.data } := by
    have e : ∀ st, (dictLoaded fuel l).openCol kind hasNulls st = ((dictRead fuel).openCol kind hasNulls st).map fun r => { r with data := l.with r.data } := by
      intro st
      simp only [ReadKind.openCol]
      have ha : (st.all fun s => (dictLoaded fuel l).accepts hasNulls s.1) = (st.all fun s => (dictRead fuel).accepts hasNulls s.1) := rfl
      rw [ha]
      split
      · simp only [dictLoaded, Option.map_map]; rfl
      · rfl
    rw [e, g1]; rfl
  rw [ho] at hk
  rw [g1]
  exact dict_roam fuel l ops (r := { r with index := some index }) hp hk

/-- Seven rows in row groups of four rows: row 4 is bit 4 of the flags and value 3, where the second block of indices starts. -/
example (c : Codec) : SeeksOneEarly (dictRead 3) c .none 16 true exDictFile exDictStreams 4 [[0, 0, 0, 0, 0], [0, 0, 4, 2, 0]] true
    ([2, 2, 2].map (fun i => some (.str (exDict.getD i []))) ++ none :: [0, 0, 0].map fun i => some (.str (exDict.getD i []))) := by
  have hb : ByteStream [0xff#8, 0xee#8] [0xee#8] := ⟨[.literal [0xee#8]], by simp [ByteRun.WF], by decide +kernel, by decide +kernel⟩
  have he : ByteStream [] [] := ⟨[], by simp, rfl, rfl⟩
  have hbits : bytesBits [0xee#8] = [true, true, true, false, true, true, true] ++ [false] := by decide +kernel
  have h1 : IntStream false [0x00#8, 0x02#8] [.shortRepeat 1 3 2] := ⟨by simp [RleBlock.WF], by decide +kernel⟩
  have h2 : IntStream false [0x00#8, 0x00#8] [.shortRepeat 1 3 0] := ⟨by simp [RleBlock.WF], by decide +kernel⟩
  have h12 : IntStream false [0x00#8, 0x02#8, 0x00#8, 0x00#8] [.shortRepeat 1 3 2, .shortRepeat 1 3 0] := ⟨by simp [RleBlock.WF], by decide +kernel⟩
  have h0 : IntStream false [] [] := ⟨by simp, rfl⟩
  have hpl : ∀ k, k = StreamKind.present ∨ k = StreamKind.data → ∀ off, off ≤ (exDictContents k).length → PlaceOf c .none 16 exDictStreams exDictContents k off [off] := by
    rintro k (rfl | rfl) off ho
    · exact ⟨_, List.mem_cons_self, rfl, rfl, ho, rfl⟩
    · exact ⟨_, List.mem_cons_of_mem _ List.mem_cons_self, rfl, rfl, ho, rfl⟩
  refine foreign_dictionary_seek_exact (exDict_laid c) (.inr ⟨rfl, by decide +kernel⟩) (fun _ => rfl) (by decide +kernel) _ h12 (by simp [RleBlock.Handled])
    (by decide +kernel) _ (by simp [Flagged]) rfl ?_ 3 (by decide +kernel)
  intro g entry hg
  match g, hg with
  | 0, hg =>
    cases hg
    exact ⟨by simp, [0, 0, 0], [0, 0], rfl, ⟨_, _, 0, [0, 0], 0, hbits, ⟨[], _, [], _, 0, [0], rfl, rfl, he, hb, by simp, rfl, hpl _ (.inl rfl) 0 (by simp), rfl⟩, rfl, rfl⟩,
      ⟨[], _, [], _, 0, [0], rfl, rfl, h0, h12, by simp, rfl, hpl _ (.inr rfl) 0 (by simp), rfl⟩⟩
  | 1, hg =>
    cases hg
    exact ⟨by simp, [0, 0, 4], [2, 0], rfl, ⟨_, _, 0, [0, 0], 4, hbits, ⟨[], _, [], _, 0, [0], rfl, rfl, he, hb, by simp, rfl, hpl _ (.inl rfl) 0 (by simp), rfl⟩, rfl, rfl⟩,
      ⟨_, _, _, _, 0, [2], rfl, rfl, h1, h2, by simp, by decide +kernel, hpl _ (.inr rfl) 2 (by decide +kernel), rfl⟩⟩
  | g + 2, hg => simp at hg

end

end Goorc
