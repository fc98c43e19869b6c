import Verif.Spec.OpenAny
import Verif.Props.ForeignFile
import Verif.Props.Total
import Verif.Proofs.Robust
import Verif.Proofs.Open
/-
C87: opening anything.
-/
namespace Goorc

theorem decompressChunksLoop_sat (c : Codec) : ∀ (fuel : Nat) (bs : Bytes), bs.length ≤ fuel → (decompressChunksLoop c fuel bs).Sat false fun _ => True := by
  intro fuel
  induction fuel with
  | zero => intro bs h; cases bs with | nil => trivial | cons b s => simp at h
  | succ fuel ih =>
    intro bs h
    cases bs with
    | nil => trivial
    | cons b s =>
      simp only [decompressChunksLoop]
      split
      · trivial
      · split
        all_goals
          refine Res.Sat.bind (P := fun _ => True) ?_ fun piece _ _ => ?_
          · first | trivial | exact decompress_sat _ _ _
          · refine Res.Sat.bind (ih _ ?_) fun _ _ _ => ?_
            · simp only [List.length_drop, List.length_cons] at h ⊢; omega
            · trivial

theorem decompressChunks_sat (c : Codec) (kind : CompKind) (bs : Bytes) : (decompressChunks c kind bs).Sat false fun _ => True := by
  cases kind with
  | zlib => exact decompressChunksLoop_sat c _ bs (Nat.le_refl _)
  | none => trivial
  | other => trivial

/-- How a file ends is determined by its bytes. -/
theorem EndsIn.unique {file f1 f2 p1 p2 : Bytes} (h1 : EndsIn file f1 p1) (h2 : EndsIn file f2 p2) : p1 = p2 := by
  obtain ⟨l1, b1, e1⟩ := h1
  obtain ⟨l2, b2, e2⟩ := h2
  rw [e1] at e2
  obtain ⟨h, h'⟩ := List.append_inj' e2 rfl
  simp only [List.cons.injEq, and_true] at h'
  have hlen : p1.length = p2.length := by
    have := congrArg BitVec.toNat h'
    simp only [BitVec.toNat_ofNat] at this
    omega
  exact (List.append_inj' h hlen).2

theorem EndsIn.footer_unique {file f1 f2 p1 p2 : Bytes} (h1 : EndsIn file f1 p1) (h2 : EndsIn file f2 p2) (hl : f1.length = f2.length) : f1 = f2 := by
  have hp := h1.unique h2
  subst hp
  obtain ⟨l1, b1, e1⟩ := h1
  obtain ⟨l2, b2, e2⟩ := h2
  rw [e1] at e2
  obtain ⟨h, -⟩ := List.append_inj' e2 rfl
  obtain ⟨h, -⟩ := List.append_inj' h rfl
  exact (List.append_inj' h hl).2

/-! ### The types -/

theorem unmarshallChildren_exact (total : Nat) (t : PbType) : ∀ (subs : List Nat) (j : Nat),
    unmarshallChildren total t j subs = if (∀ i ∈ subs, i < total) ∧ (t.kind = .struct → subs = [] ∨ j + subs.length ≤ t.names.length)
      then .ok (subs, if t.kind = .struct then (t.names.drop j).take subs.length else List.replicate subs.length "") else .panic := by
  intro subs
  induction subs with
  | nil => intro j; simp [unmarshallChildren]
  | cons i subs ih =>
    intro j
    rw [unmarshallChildren, ih (j + 1)]
    by_cases hs : t.kind = .struct
    · by_cases hj : j < t.names.length
      · simp only [hs, if_true, List.getElem?_eq_getElem hj, Res.ok_bind, true_implies]
        by_cases hi : i < total
        · rw [if_pos hi]
          by_cases hr : (∀ i ∈ subs, i < total) ∧ (subs = [] ∨ j + 1 + subs.length ≤ t.names.length)
          · rw [if_pos hr, if_pos ⟨by simpa using ⟨hi, hr.1⟩, Or.inr (by rcases hr.2 with h | h <;> simp [h] <;> omega)⟩]
            simp only [Res.ok_bind, Res.pure_eq, List.length_cons]
            rw [List.drop_eq_getElem_cons hj, List.take_succ_cons]
          · rw [if_neg hr, if_neg]
            · rfl
            · rintro ⟨h1, h2⟩
              simp only [List.mem_cons, forall_eq_or_imp, reduceCtorEq, false_or, List.length_cons] at h1 h2
              exact hr ⟨h1.2, Or.inr (by omega)⟩
        · rw [if_neg hi, if_neg]
          rintro ⟨h1, -⟩
          exact hi (h1 i (by simp))
      · simp only [hs, if_true, List.getElem?_eq_none (Nat.le_of_not_lt hj), Res.panic_bind, true_implies]
        rw [if_neg]
        rintro ⟨-, h2⟩
        simp only [reduceCtorEq, false_or, List.length_cons] at h2
        omega
    · simp only [hs, if_false, Res.ok_bind, false_implies, and_true]
      by_cases hi : i < total
      · rw [if_pos hi]
        by_cases hr : ∀ i ∈ subs, i < total
        · rw [if_pos hr, if_pos (by simpa using ⟨hi, hr⟩)]
          simp [List.replicate_succ]
        · rw [if_neg hr, if_neg (by simpa [hi] using hr)]; rfl
      · rw [if_neg hi, if_neg (by simp [hi])]

theorem unmarshallFrom_exact (total : Nat) : ∀ (types : List PbType) (i : Nat),
    unmarshallFrom total i types = if ∀ t ∈ types, (∀ i ∈ t.subtypes, i < total) ∧ (t.kind = .struct → t.subtypes.length ≤ t.names.length)
      then .ok (types.mapIdx fun k t =>
        ⟨i + k, t.kind, if t.kind = .struct then t.names.take t.subtypes.length else List.replicate t.subtypes.length "", t.subtypes⟩) else .panic := by
  intro types
  induction types with
  | nil => intro i; simp [unmarshallFrom]
  | cons t ts ih =>
    intro i
    rw [unmarshallFrom, unmarshallChildren_exact, ih (i + 1)]
    have hq : (t.kind = .struct → t.subtypes = [] ∨ 0 + t.subtypes.length ≤ t.names.length) ↔ (t.kind = .struct → t.subtypes.length ≤ t.names.length) := by
      refine imp_congr_right fun _ => ?_
      constructor
      · rintro (h | h)
        · simp [h]
        · omega
      · intro h; right; omega
    simp only [hq]
    by_cases h1 : (∀ i ∈ t.subtypes, i < total) ∧ (t.kind = .struct → t.subtypes.length ≤ t.names.length)
    · rw [if_pos h1]
      by_cases h2 : ∀ t ∈ ts, (∀ i ∈ t.subtypes, i < total) ∧ (t.kind = .struct → t.subtypes.length ≤ t.names.length)
      · have h3 : ∀ u ∈ t :: ts, (∀ i ∈ u.subtypes, i < total) ∧ (u.kind = .struct → u.subtypes.length ≤ u.names.length) := by
          intro u hu
          rcases List.mem_cons.1 hu with rfl | hu
          · exact h1
          · exact h2 u hu
        rw [if_pos h2, if_pos h3]
        simp only [Res.ok_bind, Res.pure_eq, List.mapIdx_cons, Nat.add_zero, List.drop_zero]
        congr 2
        apply List.ext_getElem (by simp)
        intro k hk hk'
        simp only [List.getElem_mapIdx]
        congr 1
        omega
      · have h3 : ¬ ∀ u ∈ t :: ts, (∀ i ∈ u.subtypes, i < total) ∧ (u.kind = .struct → u.subtypes.length ≤ u.names.length) :=
          fun h => h2 fun t ht => h t (by simp [ht])
        rw [if_neg h2, if_neg h3]; rfl
    · have h3 : ¬ ∀ u ∈ t :: ts, (∀ i ∈ u.subtypes, i < total) ∧ (u.kind = .struct → u.subtypes.length ≤ u.names.length) :=
        fun h => h1 (h t (by simp))
      rw [if_neg h1, if_neg h3]; rfl

theorem setHasNulls_exact : ∀ (ts : List HeapType) (ss : List AnyStats),
    setHasNulls ts ss = if ss.length ≤ ts.length then .ok (ts.mapIdx fun i t => ⟨t, ((ss[i]?).map (·.hasNull)).getD false⟩) else .panic := by
  intro ts
  induction ts with
  | nil => intro ss; cases ss <;> simp [setHasNulls]
  | cons t ts ih =>
    intro ss
    cases ss with
    | nil =>
      simp only [setHasNulls, List.length_nil, Nat.zero_le, if_true]
      congr 1
      apply List.ext_getElem (by simp)
      intro k hk hk'
      simp only [List.getElem_map, List.getElem_mapIdx, List.getElem?_nil, Option.map_none, Option.getD_none]
    | cons s ss =>
      simp only [setHasNulls, ih ss, List.length_cons, Nat.add_le_add_iff_right]
      split
      · simp [List.mapIdx_cons]
      · rfl

/-! ### The tail -/

/-- The tail of any bytes: what `extractFileTail` makes of a file of at least four bytes with postscript `psBytes`. -/
theorem tail_of_ends (E : Env) (file psBytes : Bytes) (h4 : 4 ≤ file.length) (he : EndsIn file [] psBytes) :
    extractFileTail E file = (match E.P.readPostScript psBytes with
      | none => .err .other
      | some ps =>
        if file.length < ps.metadataLength + ps.footerLength + psBytes.length + 1 then .err .other
        else if 16384 < ps.footerLength + psBytes.length + 1 then .panic
        else do
          let flat ← (if ps.compression ≠ .none then
              decompressChunks E.c ps.compression ((file.drop (file.length - 1 - psBytes.length - ps.footerLength)).take ps.footerLength)
            else pure ((file.drop (file.length - 1 - psBytes.length - ps.footerLength)).take ps.footerLength) : Res Bytes)
          let ft ← unmarshal E.P.readFileFooter flat
          pure (some ⟨ps, ft⟩)) := by
  obtain ⟨hs, pre, hfile⟩ := he
  rw [List.append_nil] at hfile
  have hlen : file.length = pre.length + psBytes.length + 1 := by rw [hfile]; simp; omega
  have hbv : (BitVec.ofNat 8 psBytes.length).toNat = psBytes.length := by simp; omega
  have hg : directorySizeGuess = 16384 := rfl
  simp only [extractFileTail]
  rw [if_neg (by omega), if_neg (by omega)]
  generalize hrs : min file.length directorySizeGuess = rs
  have hread : readAt file ((file.length : Int) - rs) rs = .ok (file.drop (file.length - rs)) := by
    simp only [readAt]
    rw [if_neg (by omega)]
    have : ((file.length : Int) - rs).toNat = file.length - rs := by omega
    rw [this, if_pos (by omega), List.take_of_length_le (by simp; omega)]
  rw [hread]
  simp only [Res.ok_bind]
  generalize hbuf : file.drop (file.length - rs) = buf
  have hbl : buf.length = rs := by rw [← hbuf]; simp; omega
  have hlast : buf.getD (rs - 1) 0 = BitVec.ofNat 8 psBytes.length := by
    rw [← hbuf, List.getD_eq_getElem?_getD, List.getElem?_drop]
    have : file.length - rs + (rs - 1) = (pre ++ psBytes).length := by simp; omega
    rw [this, hfile, List.getElem?_append_right (Nat.le_refl _)]
    simp
  rw [hlast, hbv]
  have hs1 : sliceAt buf ((rs : Int) - 1 - psBytes.length) psBytes.length = .ok psBytes := by
    simp only [sliceAt]
    have : ((rs : Int) - 1 - psBytes.length).toNat = rs - 1 - psBytes.length := by omega
    rw [this, if_pos (by rw [hbl]; omega)]
    rw [← hbuf, List.drop_drop]
    have : file.length - rs + (rs - 1 - psBytes.length) = pre.length := by omega
    rw [this, hfile, List.append_assoc, List.drop_left, List.take_left]
  rw [hs1]
  simp only [Res.ok_bind, unmarshal]
  cases E.P.readPostScript psBytes with
  | none => rfl
  | some ps =>
    simp only [Res.ok_bind]
    by_cases hw : file.length < ps.metadataLength + ps.footerLength + psBytes.length + 1
    · rw [if_pos hw, if_pos (by omega), readAt, if_pos (by omega)]
      rfl
    · rw [if_neg hw]
      obtain ⟨ebuf, hext⟩ : ∃ ebuf, (if 0 < psBytes.length + 1 + ps.footerLength + ps.metadataLength - rs then do
            let ebuf ← readAt file ((file.length : Int) - rs - ↑(psBytes.length + 1 + ps.footerLength + ps.metadataLength - rs)) (psBytes.length + 1 + ps.footerLength + ps.metadataLength - rs)
            pure (buf ++ ebuf)
          else pure buf : Res Bytes) = .ok (buf ++ ebuf) := by
        split
        · have hr2 : ∃ e, readAt file ((file.length : Int) - rs - ↑(psBytes.length + 1 + ps.footerLength + ps.metadataLength - rs)) (psBytes.length + 1 + ps.footerLength + ps.metadataLength - rs) = .ok e := by
            simp only [readAt]
            rw [if_neg (by omega), if_pos (by omega)]
            exact ⟨_, rfl⟩
          obtain ⟨e, hr2⟩ := hr2
          exact ⟨e, by rw [hr2]; rfl⟩
        · exact ⟨[], by rw [List.append_nil]; rfl⟩
      rw [hext]
      simp only [Res.ok_bind, sliceAt]
      by_cases hf : 16384 < ps.footerLength + psBytes.length + 1
      · rw [if_pos hf, if_neg (by omega)]
        rfl
      · rw [if_neg hf, if_pos (by rw [List.length_append, hbl]; omega)]
        have e1 : ((rs : Int) - 1 - psBytes.length - ps.footerLength).toNat = rs - 1 - psBytes.length - ps.footerLength := by omega
        rw [e1, Res.ok_bind, List.drop_append, List.take_append_of_le_length (by rw [List.length_drop, hbl]; omega), ← hbuf, List.drop_drop]
        have e2 : file.length - rs + (rs - 1 - psBytes.length - ps.footerLength) = file.length - 1 - psBytes.length - ps.footerLength := by omega
        rw [e2]

/-- A file whose last byte reaches back further than its first byte. -/
theorem tail_no_postScript (E : Env) (file : Bytes) (h4 : 4 ≤ file.length) (last : Byte) (hl : file.getLast? = some last) (hp : file.length ≤ last.toNat) :
    extractFileTail E file = .panic := by
  have hb : last.toNat < 256 := last.isLt
  have hg : directorySizeGuess = 16384 := rfl
  simp only [extractFileTail]
  rw [if_neg (by omega), if_neg (by omega)]
  rw [show min file.length directorySizeGuess = file.length by omega]
  have hread : readAt file ((file.length : Int) - file.length) file.length = .ok file := by
    simp only [readAt]
    rw [if_neg (by omega), if_pos (by omega), show ((file.length : Int) - file.length).toNat = 0 by omega]
    simp
  rw [hread, Res.ok_bind]
  have hlast : file.getD (file.length - 1) 0 = last := by
    rw [List.getD_eq_getElem?_getD, ← List.getLast?_eq_getElem?, hl]; rfl
  simp only [hlast, sliceAt]
  rw [if_neg (by omega)]
  rfl

/-- Every other file has a postscript. -/
theorem endsIn_exists (file : Bytes) (last : Byte) (hl : file.getLast? = some last) (hp : last.toNat < file.length) : ∃ ps, EndsIn file [] ps := by
  obtain ⟨init, rfl⟩ : ∃ init, file = init ++ [last] := ⟨file.dropLast, by
    have := List.dropLast_append_getLast? last (by simpa using hl)
    exact this.symm⟩
  simp only [List.length_append, List.length_singleton] at hp
  refine ⟨init.drop (init.length - last.toNat), ?_, init.take (init.length - last.toNat), ?_⟩
  · have := last.isLt
    simp only [List.length_drop]; omega
  · rw [List.append_nil, List.take_append_drop]
    congr 2
    simp only [List.length_drop]
    have : init.length - (init.length - last.toNat) = last.toNat := by omega
    rw [this, BitVec.ofNat_toNat]
    simp

/-! ### The theorems -/

theorem EndsIn.prefix {file footer ps : Bytes} (h : EndsIn file footer ps) : EndsIn file [] ps := by
  obtain ⟨h1, b, h2⟩ := h
  exact ⟨h1, b ++ footer, by simpa using h2⟩

theorem EndsIn.taken {file ps : Bytes} (h : EndsIn file [] ps) (n : Nat) (hn : n + ps.length + 1 ≤ file.length) :
    EndsIn file ((file.drop (file.length - 1 - ps.length - n)).take n) ps := by
  obtain ⟨h1, b, h2⟩ := h
  rw [List.append_nil] at h2
  refine ⟨h1, b.take (b.length - n), ?_⟩
  have hl : file.length = b.length + ps.length + 1 := by rw [h2]; simp; omega
  have e : file.length - 1 - ps.length - n = b.length - n := by omega
  rw [e]
  have : (file.drop (b.length - n)).take n = b.drop (b.length - n) := by
    rw [h2, List.append_assoc, List.drop_append_of_le_length (by omega), List.take_append_of_le_length (by rw [List.length_drop]; omega),
      List.take_of_length_le (by rw [List.length_drop]; omega)]
  rw [this, List.take_append_drop]
  exact h2

theorem EndsIn.footer_eq {file footer ps : Bytes} (h : EndsIn file footer ps) :
    (file.drop (file.length - 1 - ps.length - footer.length)).take footer.length = footer := by
  have hl : footer.length + ps.length + 1 ≤ file.length := by
    obtain ⟨-, b, h2⟩ := h
    rw [h2]; simp; omega
  exact EndsIn.footer_unique (h.prefix.taken _ hl) h (by rw [List.length_take, List.length_drop]; omega)

theorem inflates_iff (c : Codec) (kind : CompKind) (stored flat : Bytes) :
    Inflates c kind stored flat ↔ (if kind ≠ .none then decompressChunks c kind stored else pure stored : Res Bytes) = .ok flat := by
  cases kind with
  | none => simp [Inflates, eq_comm]
  | zlib => simp [Inflates]
  | other => simp [Inflates, decompressChunks]

/-- What `newReader` does with a tail. -/
def openTail (file : Bytes) (ps : PostScript) (ft : FileFooter) : Res FileReader :=
  if ft.numberOfRows = 0 then .err .other
  else if TypesSound ft.types ∧ ft.statistics.length ≤ ft.types.length then
    .ok ⟨file, ⟨ps.compression, if ps.compression = .none then 256 * 1024 else ps.blockSize, ft.rowIndexStride⟩, ft.types.mapIdx (typeAt ft),
      ft.numberOfRows, ft.statistics, ft.stripes⟩
  else .panic

theorem newReader_of_tail {E : Env} {file : Bytes} {ps : PostScript} {ft : FileFooter} (h : extractFileTail E file = .ok (some ⟨ps, ft⟩)) :
    newReader E file = openTail file ps ft := by
  simp only [newReader, h, Res.ok_bind, openTail]
  split
  · rfl
  · rw [unmarshallSchema, unmarshallFrom_exact]
    have hck : (if ps.compression ≠ .none then ps.blockSize else defaultChunkSize) = if ps.compression = .none then 256 * 1024 else ps.blockSize := by
      by_cases hk : ps.compression = .none <;> simp [hk, defaultChunkSize]
    rw [hck]
    have hts : (∀ t ∈ ft.types, (∀ i ∈ t.subtypes, i < ft.types.length) ∧ (t.kind = .struct → t.subtypes.length ≤ t.names.length)) ↔ TypesSound ft.types := Iff.rfl
    by_cases ht : TypesSound ft.types
    · rw [if_pos (hts.2 ht), Res.ok_bind, setHasNulls_exact]
      simp only [List.length_mapIdx]
      by_cases hs : ft.statistics.length ≤ ft.types.length
      · have h2 : TypesSound ft.types ∧ ft.statistics.length ≤ ft.types.length := ⟨ht, hs⟩
        rw [if_pos hs, if_pos h2]
        simp only [Res.ok_bind, Res.pure_eq]
        congr 2
        apply List.ext_getElem (by simp)
        intro k hk hk'
        simp [typeAt]
      · have h2 : ¬ (TypesSound ft.types ∧ ft.statistics.length ≤ ft.types.length) := fun h => hs h.2
        rw [if_neg hs, if_neg h2]; rfl
    · have h2 : ¬ (TypesSound ft.types ∧ ft.statistics.length ≤ ft.types.length) := fun h => ht h.1
      rw [if_neg (fun h => ht (hts.1 h)), if_neg h2]; rfl

/-- A tail that can be read is read. -/
theorem TailReads.tail {E : Env} {file : Bytes} {ps : PostScript} {ft : FileFooter} {footer psBytes flat : Bytes}
    (h : TailReads E file ps ft footer psBytes flat) : extractFileTail E file = .ok (some ⟨ps, ft⟩) := by
  rw [tail_of_ends E file psBytes h.long h.ends.prefix, h.postScript]
  have h1 := h.footerLength
  have h2 := h.within
  have h3 := h.whole
  simp only
  rw [if_neg (by omega), if_neg (by omega), ← h1, h.ends.footer_eq, (inflates_iff _ _ _ _).1 h.inflates, Res.ok_bind, unmarshal, h.footer]
  rfl

/-- Every file falls into one of these cases. -/
theorem open_cases (E : Env) (file : Bytes) :
    (OpenPanics E file ∧ newReader E file = .panic) ∨ ((∃ e, newReader E file = .err e) ∧ ¬ OpenPanics E file ∧
        ∀ ps ft footer psBytes flat, TailReads E file ps ft footer psBytes flat → ft.numberOfRows = 0) ∨
      ∃ ps ft footer psBytes flat, TailReads E file ps ft footer psBytes flat ∧ newReader E file = openTail file ps ft := by
  rcases Nat.lt_or_ge file.length 4 with hshort | h4
  · by_cases hf : file = []
    · left; exact ⟨.empty hf, by subst hf; rfl⟩
    · right; left
      refine ⟨⟨.other, ?_⟩, ?_, fun ps ft footer psB flat h => ?_⟩
      · simp only [newReader, extractFileTail]
        rw [if_neg (by simpa using hf), if_pos (by omega)]; rfl
      · rintro (h | h | h | ⟨ps, ft, footer, psB, flat, h⟩)
        · exact hf h
        · omega
        · omega
        · have := h.long; omega
      · have := h.long; omega
  obtain ⟨last, hlast⟩ : ∃ last, file.getLast? = some last := by
    cases hl : file.getLast? with
    | some b => exact ⟨b, rfl⟩
    | none => rw [List.getLast?_eq_none_iff] at hl; subst hl; simp at h4
  by_cases hp : file.length ≤ last.toNat
  · left
    exact ⟨.postScript h4 last hlast hp, by simp only [newReader, tail_no_postScript E file h4 last hlast hp]; rfl⟩
  obtain ⟨psB, hends⟩ := endsIn_exists file last hlast (by omega)
  have htail := tail_of_ends E file psB h4 hends
  -- what a tail that can be read says
  have same : ∀ {ps ft footer psB' flat}, TailReads E file ps ft footer psB' flat → psB' = psB := fun h => h.ends.unique hends
  have nolast : ∀ last', file.getLast? = some last' → ¬ file.length ≤ last'.toNat := by
    intro last' h; rw [hlast] at h; cases h; omega
  cases hps : E.P.readPostScript psB with
  | none =>
    right; left
    rw [hps] at htail
    refine ⟨⟨.other, by simp only [newReader, htail]; rfl⟩, ?_, fun ps ft footer psB' flat h => ?_⟩
    · rintro (h | ⟨-, l, h1, h2⟩ | ⟨-, b, ps, h1, h2, -⟩ | ⟨ps, ft, footer, psB', flat, h⟩)
      · subst h; simp at h4
      · exact nolast l h1 h2
      · cases h1.unique hends; rw [hps] at h2; cases h2
      · cases same h; have := h.postScript; rw [hps] at this; cases this
    · cases same h; have := h.postScript; rw [hps] at this; cases this
  | some ps =>
    rw [hps] at htail
    simp only at htail
    have sameps : ∀ {ps' ft footer psB' flat}, TailReads E file ps' ft footer psB' flat → ps' = ps := fun h => by
      cases same h; have := h.postScript; rw [hps] at this; cases this; rfl
    by_cases hw : file.length < ps.metadataLength + ps.footerLength + psB.length + 1
    · right; left
      rw [if_pos hw] at htail
      have none : ∀ {ps' ft footer psB' flat}, ¬ TailReads E file ps' ft footer psB' flat := fun h => by
        cases same h; cases sameps h
        have := h.whole; have := h.footerLength; omega
      refine ⟨⟨.other, by simp only [newReader, htail]; rfl⟩, ?_, fun ps ft footer psB' flat h => absurd h none⟩
      rintro (h | ⟨-, l, h1, h2⟩ | ⟨-, b, ps', h1, h2, h3, -⟩ | ⟨ps', ft, footer, psB', flat, h⟩)
      · subst h; simp at h4
      · exact nolast l h1 h2
      · cases h1.unique hends; rw [hps] at h2; cases h2; omega
      · exact none h
    rw [if_neg hw] at htail
    by_cases hf : 16384 < ps.footerLength + psB.length + 1
    · left
      rw [if_pos hf] at htail
      exact ⟨.footer h4 psB ps hends hps (by omega) hf, by simp only [newReader, htail]; rfl⟩
    rw [if_neg hf] at htail
    have hlen : ((file.drop (file.length - 1 - psB.length - ps.footerLength)).take ps.footerLength).length = ps.footerLength := by
      rw [List.length_take, List.length_drop]; omega
    have hends' := hends.taken ps.footerLength (by omega)
    generalize hfoot : (file.drop (file.length - 1 - psB.length - ps.footerLength)).take ps.footerLength = foot at htail hlen hends'
    have samefoot : ∀ {ps' ft footer psB' flat}, TailReads E file ps' ft footer psB' flat → footer = foot := fun h => by
      cases same h; cases sameps h
      exact EndsIn.footer_unique h.ends hends' (by rw [h.footerLength, hlen])
    have sat : (if ps.compression ≠ .none then decompressChunks E.c ps.compression foot else pure foot : Res Bytes).Sat false fun _ => True := by
      split
      · exact decompressChunks_sat _ _ _
      · trivial
    have refuse : (∀ {ps' ft footer psB' flat}, ¬ TailReads E file ps' ft footer psB' flat) → (∃ e, newReader E file = .err e) →
        (∃ e, newReader E file = .err e) ∧ ¬ OpenPanics E file ∧ ∀ ps ft footer psBytes flat, TailReads E file ps ft footer psBytes flat → ft.numberOfRows = 0 := by
      intro none he
      refine ⟨he, ?_, fun ps ft footer psB' flat h => absurd h none⟩
      rintro (h | ⟨-, l, h1, h2⟩ | ⟨-, b, ps', h1, h2, -, h3⟩ | ⟨ps', ft, footer, psB', flat, h⟩)
      · subst h; simp at h4
      · exact nolast l h1 h2
      · cases h1.unique hends; rw [hps] at h2; cases h2; omega
      · exact none h
    cases hflat : (if ps.compression ≠ .none then decompressChunks E.c ps.compression foot else pure foot : Res Bytes) with
    | panic => rw [hflat] at sat; cases sat
    | hang => rw [hflat] at sat; cases sat
    | err e =>
      right; left
      rw [hflat] at htail
      refine refuse (fun h => ?_) ⟨e, by simp only [newReader, htail]; rfl⟩
      cases same h; cases sameps h; cases samefoot h
      have := (inflates_iff _ _ _ _).1 h.inflates
      rw [hflat] at this; cases this
    | ok flat =>
      rw [hflat, Res.ok_bind, unmarshal] at htail
      have hinf := (inflates_iff _ _ _ _).2 hflat
      cases hft : E.P.readFileFooter flat with
      | none =>
        right; left
        rw [hft] at htail
        refine refuse (fun h => ?_) ⟨.other, by simp only [newReader, htail]; rfl⟩
        cases same h; cases sameps h; cases samefoot h
        have := (inflates_iff _ _ _ _).1 h.inflates
        rw [hflat] at this; cases this
        have := h.footer
        rw [hft] at this; cases this
      | some ft =>
        right; right
        rw [hft] at htail
        exact ⟨ps, ft, foot, psB, flat, ⟨h4, hends', hps, hlen, by omega, by omega, hinf, hft⟩, newReader_of_tail htail⟩

theorem openTail_orderly (E : Env) (file : Bytes) (ps : PostScript) (ft : FileFooter) : openTail file ps ft ≠ .hang := by
  unfold openTail
  split
  · simp
  · split <;> simp

/-- **C87** Whatever the bytes are, opening them comes to an end. -/
theorem open_terminates (E : Env) (file : Bytes) : newReader E file ≠ .hang := by
  rcases open_cases E file with ⟨-, h⟩ | ⟨⟨e, h⟩, -⟩ | ⟨ps, ft, footer, psB, flat, -, h⟩
  · rw [h]; simp
  · rw [h]; simp
  · rw [h]; exact openTail_orderly E file ps ft

/-- **C87** Opening panics exactly for these causes. -/
theorem open_panics_iff (E : Env) (file : Bytes) : newReader E file = .panic ↔ OpenPanics E file := by
  rcases open_cases E file with ⟨h1, h⟩ | ⟨⟨e, h⟩, h1, -⟩ | ⟨ps, ft, footer, psB, flat, ht, h⟩
  · exact ⟨fun _ => h1, fun _ => h⟩
  · exact ⟨fun h2 => (by rw [h] at h2; cases h2), fun h2 => absurd h2 h1⟩
  · rw [h]
    constructor
    · intro hp
      unfold openTail at hp
      split at hp
      · cases hp
      · split at hp
        · cases hp
        · rename_i h1 h2
          refine .types ps ft footer psB flat ht h1 ?_
          by_cases h3 : TypesSound ft.types
          · right; exact Nat.lt_of_not_le fun h4 => h2 ⟨h3, h4⟩
          · exact .inl h3
    · rintro (h1 | ⟨-, l, h1, h2⟩ | ⟨-, b, ps', h1, h2, -, h3⟩ | ⟨ps', ft', footer', psB', flat', h1, h2, h3⟩)
      · have := ht.long; subst h1; simp at this
      · exfalso
        obtain ⟨h5, pre, h6⟩ := ht.ends
        rw [h6, List.getLast?_concat] at h1
        cases h1
        have : file.length = pre.length + footer.length + psB.length + 1 := by rw [h6]; simp; omega
        simp only [BitVec.toNat_ofNat] at h2
        omega
      · exfalso
        cases h1.unique ht.ends
        rw [ht.postScript] at h2
        cases h2
        have := ht.within; have := ht.footerLength
        omega
      · have e := h1.tail
        rw [ht.tail] at e
        cases e
        unfold openTail
        rw [if_neg h2, if_neg]
        rintro ⟨h4, h5⟩
        rcases h3 with h3 | h3
        · exact h3 h4
        · omega

/-- **C87** A file can be opened exactly if it has a tail that can be read, has rows, and its types are sound; and this is what is made of it. -/
theorem open_ok_iff (E : Env) (file : Bytes) (r : FileReader) : newReader E file = .ok r ↔
    ∃ ps ft footer psBytes flat, TailReads E file ps ft footer psBytes flat ∧ ft.numberOfRows ≠ 0 ∧ TypesSound ft.types ∧ ft.statistics.length ≤ ft.types.length ∧
      r = ⟨file, ⟨ps.compression, if ps.compression = .none then 256 * 1024 else ps.blockSize, ft.rowIndexStride⟩, ft.types.mapIdx (typeAt ft),
        ft.numberOfRows, ft.statistics, ft.stripes⟩ := by
  constructor
  · intro hr
    rcases open_cases E file with ⟨h1, h⟩ | ⟨⟨e, h⟩, h1, -⟩ | ⟨ps, ft, footer, psB, flat, ht, h⟩
    · rw [h] at hr; cases hr
    · rw [h] at hr; cases hr
    · rw [h] at hr
      unfold openTail at hr
      split at hr
      · cases hr
      · split at hr
        · rename_i h1 h2
          cases hr
          exact ⟨ps, ft, footer, psB, flat, ht, h1, h2.1, h2.2, rfl⟩
        · cases hr
  · rintro ⟨ps, ft, footer, psB, flat, ht, h1, h2, h3, rfl⟩
    rw [newReader_of_tail ht.tail, openTail, if_neg h1, if_pos ⟨h2, h3⟩]

/-! ### Examples -/

/-- The tail of a small file, whatever it is said to hold. -/
theorem tiny_tail (footers : List StripeFooter) (ft : FileFooter) (body : Bytes) :
    TailReads (tinyEnv footers ft tinyScript) (tinyFile body) tinyScript ft [0xf0#8] [0xf1#8] [0xf0#8] where
  long := by simp [tinyFile]
  ends := ⟨by decide, [0x4f#8, 0x52#8, 0x43#8] ++ body, by simp [tinyFile]⟩
  postScript := rfl
  footerLength := rfl
  within := by decide
  whole := by simp [tinyFile, tinyScript]
  inflates := .inl ⟨rfl, rfl⟩
  footer := rfl

/-- The file of C85 opens. -/
example : ∃ r, newReader (exNamedEnv true) (exNamedFile true) = .ok r ∧ r.schemas.map (·.hasNulls) = [false, true, false] := by
  refine ⟨_, (open_ok_iff _ _ _).2 ⟨_, _, _, _, _, tiny_tail _ _ _, by decide, by decide +kernel, by decide +kernel, rfl⟩, by decide +kernel⟩

/-- Nothing at all. -/
example (E : Env) : newReader E [] = .panic := (open_panics_iff _ _).2 (.empty rfl)

/-- Four bytes, the last of which says that the postscript has 255. -/
example (E : Env) : newReader E [0x4f#8, 0x52#8, 0x43#8, 0xff#8] = .panic :=
  (open_panics_iff _ _).2 (.postScript (by decide) 0xff#8 rfl (by decide))

/-- A footer of 20000 bytes. -/
example (footers : List StripeFooter) (ft : FileFooter) (body : Bytes) (h : 20000 ≤ body.length) :
    newReader (tinyEnv footers ft ⟨20000, .none, 0, 0, [0, 12], "ORC"⟩) (tinyFile body) = .panic :=
  (open_panics_iff _ _).2 (.footer (by simp [tinyFile]) [0xf1#8] _ ⟨by decide, [0x4f#8, 0x52#8, 0x43#8] ++ body ++ [0xf0#8], by simp [tinyFile]⟩ rfl
    (by simp only [tinyFile, List.length_append, List.length_cons, List.length_nil]; omega) (by simp))

/-- A list of a type that is not there. -/
example : newReader (tinyEnv [] ⟨3, 0, 5, [], [⟨.list, [1], []⟩], [], 0⟩ tinyScript) (tinyFile []) = .panic :=
  (open_panics_iff _ _).2 (.types _ _ _ _ _ (tiny_tail _ _ _) (by decide) (.inl (by decide)))

/-- Statistics of two columns, of which there is one. -/
example : newReader (tinyEnv [] ⟨3, 0, 5, [], [⟨.long, [], []⟩], [tinyStats true, tinyStats true], 0⟩ tinyScript) (tinyFile []) = .panic :=
  (open_panics_iff _ _).2 (.types _ _ _ _ _ (tiny_tail _ _ _) (by decide) (.inr (by decide)))

/-- Three bytes are too few, and only that: an error, no panic. -/
example (E : Env) : newReader E [0x4f#8, 0x52#8, 0x43#8] = .err .other := rfl

/-- A second stripe without rows: the file opens, but there is no batch reader for it. -/
example : ∃ r, newReader (tinyEnv [⟨[], [.direct]⟩] ⟨3, 0, 5, [⟨3, 0, 0, 1, 5⟩, ⟨4, 0, 0, 0, 0⟩], [⟨.struct, [], []⟩], [tinyStats false], 0⟩ tinyScript) (tinyFile [0#8]) = .ok r ∧
    r.createBatchReader (tinyEnv [⟨[], [.direct]⟩] ⟨3, 0, 5, [⟨3, 0, 0, 1, 5⟩, ⟨4, 0, 0, 0, 0⟩], [⟨.struct, [], []⟩], [tinyStats false], 0⟩ tinyScript) ⟨[], 10, false⟩ = .err .other := by
  refine ⟨_, rfl, empty_stripe_errs _ _ _ [⟨3, 0, 0, 1, 5⟩] [] ⟨4, 0, 0, 0, 0⟩ rfl rfl fun j hj => ?_⟩
  rw [List.mem_singleton] at hj
  subst hj
  exact .inr ⟨_, rfl⟩

end Goorc
