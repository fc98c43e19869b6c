import Verif.Spec.ForeignFile
import Verif.Props.Foreign
import Verif.Props.Accept
import Verif.Props.RoundTrip
/- Files of other writers: lemmas for Props/ForeignFile.lean. -/
namespace Goorc

/-! ### Messages -/

theorem Stands.plain {c : Codec} {kind : CompKind} {size : Nat} {body flat : Bytes} (h : Stands c kind size body flat) :
    (if kind ≠ .none then decompressChunks c kind body else pure body : Res Bytes) = .ok flat := by
  cases kind with
  | none => simp [h.2]
  | zlib =>
    obtain ⟨cs, h1, rfl, rfl⟩ := h
    simp only [ne_eq, reduceCtorEq, not_false_eq_true, if_true, decompressChunks]
    exact decompressChunks_spec c cs (fun ch hch => ⟨(h1 ch hch).2.1, (h1 ch hch).2.2.2.2⟩) _ (Nat.le_refl _)
  | other => exact h.elim

theorem initIndex_ok {E : Env} {ro : ROpts} {file : Bytes} {start length : Nat} (h : IndexAt E ro.kind ro.chunkSize file start length) :
    ∃ ix, ∀ r, initIndex E ro file start length r = .ok { r with index := some ix } := by
  obtain ⟨h1, flat, ix, h2, h3⟩ := h
  refine ⟨ix, fun r => ?_⟩
  have hr : readAt file (start : Int) length = .ok ((file.drop start).take length) := by
    simp only [readAt, Int.toNat_natCast]
    rw [if_neg (by omega), if_pos (by omega)]
  have hp := h2.plain
  have hp' : (if ro.kind = .none then pure ((file.drop start).take length) else decompressChunks E.c ro.kind ((file.drop start).take length) : Res Bytes) = .ok flat := by
    by_cases hk : ro.kind = .none <;> simpa [hk] using hp
  simp only [initIndex, hr, Res.ok_bind]
  rw [hp']
  simp only [Res.ok_bind, unmarshal, h3, Res.pure_eq]

theorem initStreams_ok {E : Env} {ro : ROpts} {file : Bytes} : ∀ (ss : List StreamInfo) (a b : Nat) (rs : List (Option FlatRd)),
    (∀ s ∈ ss, s.column < rs.length) →
    (∀ p ∈ startsFrom a (ss.filter fun s => s.kind = .rowIndex), IndexAt E ro.kind ro.chunkSize file p.2 p.1.length) →
    (∀ s ∈ ss, s.kind ≠ .rowIndex → ∀ r, rs[s.column]? = some (some r) → r.tag.accepts r.hasNulls s.kind = true) →
    ∃ rs', initStreams E ro file a b ss rs = .ok rs' := by
  intro ss
  induction ss with
  | nil => intro a b rs _ _ _; exact ⟨rs, rfl⟩
  | cons t ss ih =>
    intro a b rs h1 h2 h3
    have hlt := h1 t (by simp)
    simp only [initStreams]
    rw [List.getElem?_eq_getElem hlt]
    have hkeep : ∀ (q q' : FlatRd), rs[t.column] = some q → q'.tag = q.tag → q'.hasNulls = q.hasNulls →
        ∀ s ∈ ss, s.kind ≠ .rowIndex → ∀ r, (rs.set t.column (some q'))[s.column]? = some (some r) → r.tag.accepts r.hasNulls s.kind = true := by
      intro q q' hq e1 e2 s hs hk r hr
      rw [List.getElem?_set] at hr
      split at hr
      · rename_i e
        simp only [Option.some.injEq] at hr
        subst hr
        rw [e1, e2]
        exact h3 s (by simp [hs]) hk q (by rw [← e, List.getElem?_eq_getElem hlt, hq])
      · exact h3 s (by simp [hs]) hk r hr
    by_cases hk : t.kind = .rowIndex
    · have h2' : ∀ p ∈ startsFrom (a + t.length) (ss.filter fun s => s.kind = .rowIndex), IndexAt E ro.kind ro.chunkSize file p.2 p.1.length := by
        intro p hp
        refine h2 p ?_
        simp [hk, startsFrom, hp]
      cases hx : rs[t.column] with
      | none =>
        simp only [if_pos hk]
        exact ih _ _ _ (fun s hs => h1 s (by simp [hs])) h2' fun s hs => h3 s (by simp [hs])
      | some q =>
        simp only [if_pos hk]
        obtain ⟨ix, hix⟩ := initIndex_ok (h2 (t, a) (by simp [hk, startsFrom]))
        simp only at hix
        rw [hix, Res.ok_bind]
        exact ih _ _ _ (fun s hs => by rw [List.length_set]; exact h1 s (by simp [hs])) h2' (hkeep q _ hx rfl rfl)
    · have h2' : ∀ p ∈ startsFrom a (ss.filter fun s => s.kind = .rowIndex), IndexAt E ro.kind ro.chunkSize file p.2 p.1.length := by
        intro p hp
        refine h2 p ?_
        simpa [hk] using hp
      cases hx : rs[t.column] with
      | none =>
        simp only [if_neg hk]
        exact ih _ _ _ (fun s hs => h1 s (by simp [hs])) h2' fun s hs => h3 s (by simp [hs])
      | some q =>
        simp only [if_neg hk]
        have := h3 t (by simp) hk q (by rw [List.getElem?_eq_getElem hlt, hx])
        simp only [initStream, if_pos this, Res.ok_bind]
        exact ih _ _ _ (fun s hs => by rw [List.length_set]; exact h1 s (by simp [hs])) h2' (hkeep q _ hx rfl rfl)

/-- Which row index a reader is given: if there is just one for its column, that. -/
theorem initStreams_index {E : Env} {ro : ROpts} {file : Bytes} : ∀ (ss : List StreamInfo) (a b : Nat) (rs rs' : List (Option FlatRd)),
    initStreams E ro file a b ss rs = .ok rs' → ((ss.filter fun s => s.kind = .rowIndex).map (·.column)).Nodup →
    ∀ (id : Nat) (r : FlatRd), rs[id]? = some (some r) → ∀ p ∈ startsFrom a (ss.filter fun s => s.kind = .rowIndex), p.1.column = id →
      ∃ r', rs'[id]? = some (some r') ∧ ∃ q q', initIndex E ro file p.2 p.1.length q = .ok q' ∧ q'.index = r'.index := by
  have hkeep : ∀ (ss : List StreamInfo) (a b : Nat) (rs rs' : List (Option FlatRd)), initStreams E ro file a b ss rs = .ok rs' →
      ∀ (id : Nat) (r : FlatRd), rs[id]? = some (some r) → (∀ s ∈ ss, s.kind = .rowIndex → s.column ≠ id) →
      ∃ r', rs'[id]? = some (some r') ∧ r'.index = r.index := by
    intro ss
    induction ss with
    | nil =>
      intro a b rs rs' h id r hr _
      simp only [initStreams, Res.ok.injEq] at h
      subst h
      exact ⟨r, hr, rfl⟩
    | cons t ss ih =>
      intro a b rs rs' h id r hr hno
      have hno' : ∀ s ∈ ss, s.kind = .rowIndex → s.column ≠ id := fun s hs => hno s (by simp [hs])
      simp only [initStreams] at h
      cases hx : rs[t.column]? with
      | none => simp [hx] at h
      | some x =>
        have hlt : t.column < rs.length := (List.getElem?_eq_some_iff.mp hx).1
        simp only [hx] at h
        cases x with
        | none =>
          simp only at h
          split at h
          · exact ih _ _ _ _ h id r hr hno'
          · exact ih _ _ _ _ h id r hr hno'
        | some q =>
          simp only at h
          split at h
          · rename_i hk
            obtain ⟨q2, h1, h2⟩ := Res.bind_ok_inv h
            exact ih _ _ _ _ h2 id r (by rw [List.getElem?_set, if_neg (hno t (by simp) hk)]; exact hr) hno'
          · obtain ⟨q2, h1, h2⟩ := Res.bind_ok_inv h
            simp only [initStream] at h1
            split at h1
            · simp only [Res.ok.injEq] at h1
              by_cases he : t.column = id
              · subst he
                rw [hx] at hr
                simp only [Option.some.injEq] at hr
                subst hr
                obtain ⟨r', g1, g2⟩ := ih _ _ _ _ h2 t.column q2 (by rw [List.getElem?_set, if_pos rfl, if_pos hlt]) hno'
                exact ⟨r', g1, by rw [g2, ← h1]⟩
              · exact ih _ _ _ _ h2 id r (by rw [List.getElem?_set, if_neg he]; exact hr) hno'
            · cases h1
  intro ss
  induction ss with
  | nil => intro a b rs rs' _ _ id r _ p hp; simp [startsFrom] at hp
  | cons t ss ih =>
    intro a b rs rs' h hnd id r hr p hp hid
    simp only [initStreams] at h
    cases hx : rs[t.column]? with
    | none => simp [hx] at h
    | some x =>
      have hlt : t.column < rs.length := (List.getElem?_eq_some_iff.mp hx).1
      simp only [hx] at h
      by_cases hk : t.kind = .rowIndex
      · rw [List.filter_cons_of_pos (by simpa using hk)] at hnd hp
        simp only [List.map_cons, List.nodup_cons] at hnd
        simp only [startsFrom, List.mem_cons] at hp
        have hno : ∀ s ∈ ss, s.kind = .rowIndex → s.column ≠ t.column := by
          intro s hs hsk he
          exact hnd.1 (List.mem_map.2 ⟨s, List.mem_filter.2 ⟨hs, by simpa using hsk⟩, he⟩)
        cases x with
        | none =>
          simp only [hk, if_true] at h
          rcases hp with rfl | hp
          · rw [← hid] at hr; rw [hx] at hr; simp at hr
          · exact ih _ _ _ _ h hnd.2 id r hr p hp hid
        | some q =>
          simp only [hk, if_true] at h
          obtain ⟨q2, h1, h2⟩ := Res.bind_ok_inv h
          rcases hp with rfl | hp
          · simp only at hid
            subst hid
            obtain ⟨r', g1, g2⟩ := hkeep _ _ _ _ _ h2 t.column q2 (by rw [List.getElem?_set, if_pos rfl, if_pos hlt]) hno
            exact ⟨r', g1, q, q2, h1, g2.symm⟩
          · have hne : t.column ≠ id := by
              rintro rfl
              obtain ⟨p1, p2⟩ := p
              have := startsFrom_mem hp
              obtain ⟨hs, hsk⟩ := List.mem_filter.1 this
              exact hno _ hs (by simpa using hsk) hid
            exact ih _ _ _ _ h2 hnd.2 id r (by rw [List.getElem?_set, if_neg hne]; exact hr) p hp hid
      · rw [List.filter_cons_of_neg (by simpa using hk)] at hnd hp
        cases x with
        | none =>
          simp only [hk, if_false] at h
          exact ih _ _ _ _ h hnd id r hr p hp hid
        | some q =>
          simp only [hk, if_false] at h
          obtain ⟨q2, h1, h2⟩ := Res.bind_ok_inv h
          by_cases he : t.column = id
          · subst he
            exact ih _ _ _ _ h2 hnd t.column q2 (by rw [List.getElem?_set, if_pos rfl, if_pos hlt]) p hp hid
          · exact ih _ _ _ _ h2 hnd id r (by rw [List.getElem?_set, if_neg he]; exact hr) p hp hid

/-! ### Columns -/

theorem startsFrom_fits {b : Nat} {xs : List StreamInfo} {p : StreamInfo × Nat} (h : p ∈ startsFrom b xs) : p.2 + p.1.length ≤ b + (xs.map (·.length)).sum := by
  induction xs generalizing b with
  | nil => simp [startsFrom] at h
  | cons x xs ih =>
    rcases List.mem_cons.mp h with rfl | h
    · simp
    · have := ih h
      simp only [List.map_cons, List.sum_cons]; omega

theorem columnStreams_laid {kind : CompKind} {size : Nat} {file : Bytes} {id : Nat} {places : List (StreamInfo × Nat)}
    (h : ∀ p ∈ places, p.2 + p.1.length ≤ file.length) :
    laid kind size file (columnStreams file id places) = (places.filter fun s => s.1.column = id).map fun s =>
      (s.1.kind, newStreamReader kind size s.2 s.1.length file) := by
  simp only [laid, columnStreams, List.map_map]
  apply List.map_congr_left
  intro p hp
  have := h p (List.mem_filter.1 hp).1
  have e : ((file.drop p.2).take p.1.length).length = p.1.length := by rw [List.length_take, List.length_drop]; omega
  simp only [Function.comp_apply, e]

theorem StoredAs.reader {k : TypeKind} {enc : Encoding} {t : LeafTag} (h : StoredAs k enc t) :
    newReaderTag k enc = .ok (.leaf t) ∧ k ≠ .struct ∧ t.Replaces ∧ t.read.kinds = (ReaderTag.leaf t).streams ∧ StreamKind.present ∉ t.read.kinds := by
  cases h <;> exact ⟨rfl, by simp, trivial, rfl, by decide⟩

section
variable {c : Codec} {kind : CompKind} {size : Nat} {file : Bytes} {ps : List LaidStream} {contents : StreamKind → Bytes}
  {present : Option (List Bool)} {hasNulls : Bool}

theorem intValue_read (b : IntBits) (x : Int) : b.read (BitVec.ofInt 64 x) = intValue b x := by
  cases b
  · exact congrArg GoVal.i16 (setWidth_ofInt' 16 48 x)
  · exact congrArg GoVal.i32 (setWidth_ofInt' 32 32 x)
  · rfl

/-- The data of a column can be read. -/
theorem encodes_data {t : LeafTag} (h : ColumnLaid c kind size file (ReaderTag.leaf t).streams ps contents present) {vals : List GoVal}
    (he : t.Encodes contents vals) :
    ∃ d d', t.read.init (Goorc.lookup (laid kind size file ps)) = some d ∧ Yields (t.read.next c) d vals d' := by
  cases t with
  | byte => obtain ⟨xs, h1, rfl⟩ := he; exact tinyint_data h xs h1
  | bool => obtain ⟨xs, h1, rfl⟩ := he; exact boolean_data h xs h1
  | int b =>
    obtain ⟨blocks, h1, h2, rfl⟩ := he
    have := ints_data b h blocks h1 h2
    simp only [intValue_read] at this
    exact this
  | float d =>
    cases d with
    | false => exact he.elim
    | true => obtain ⟨xs, h1, rfl⟩ := he; exact double_data h xs h1
  | string => obtain ⟨xs, ⟨h1, h2, blocks, h3, h4, h5⟩, rfl⟩ := he; exact string_data h xs h1 h2 blocks h3 h4 h5
  | binary => obtain ⟨xs, ⟨h1, h2, blocks, h3, h4, h5⟩, rfl⟩ := he; exact binary_data h xs h1 h2 blocks h3 h4 h5
  | date => obtain ⟨blocks, h1, h2, h3, rfl⟩ := he; exact date_data h blocks h1 h2 h3
  | timestamp => exact he.elim
  | decimal => exact he.elim

end

theorem filter_isSome_filterMap {α : Type} (l : List (Option α)) : (l.filter (·.isSome)).filterMap id = l.filterMap id := by
  induction l with
  | nil => rfl
  | cons x l ih => cases x <;> simpa using ih

/-- A column as a stripe stores it can be opened. -/
theorem columnStored_accepts {c : Codec} {kind : CompKind} {size : Nat} {file : Bytes} {n : SchemaNode} {enc : Encoding} {ps : List LaidStream}
    {rows : List (Option GoVal)} (h : ColumnStored c kind size file n enc ps rows) :
    ∃ tag, newReaderTag n.kind enc = .ok tag ∧ (∀ p ∈ ps, tag.accepts n.hasNulls p.kind = true) := by
  obtain ⟨contents, present, hpn, ⟨hk, rfl, hl, -⟩ | ⟨t, hs, hl, -⟩⟩ := h
  · refine ⟨.struct, by rw [hk]; rfl, fun p hp => own_streams_accepted_partial _ _ _ ?_⟩
    rcases (hl.kinds p.kind).1 (List.mem_map_of_mem hp) with h | ⟨h1, h2⟩
    · simp at h
    · exact .inr ⟨h1, hpn h2⟩
  · obtain ⟨h1, h2, h3, h4, h5⟩ := hs.reader
    refine ⟨_, h1, fun p hp => own_streams_accepted_partial _ _ _ ?_⟩
    rcases (hl.kinds p.kind).1 (List.mem_map_of_mem hp) with h | ⟨g1, g2⟩
    · exact .inl h
    · exact .inr ⟨g1, hpn g2⟩

/-- The flags of a column are those of its rows, if it has nulls and a stream of flags. -/
theorem columnStored_flags {c : Codec} {kind : CompKind} {size : Nat} {file : Bytes} {kinds : List StreamKind} {ps : List LaidStream}
    {contents : StreamKind → Bytes} {present : Option (List Bool)} {hasNulls : Bool} {rows : List (Option GoVal)}
    (hl : ColumnLaid c kind size file kinds ps contents present) (hk : StreamKind.present ∉ kinds) (hpn : present.isSome = true → hasNulls = true)
    (hf : hasNulls = true → Flagged present rows) (hp : hasNulls = true → ∃ p ∈ ps, p.kind = .present) :
    present = if hasNulls then some (rows.map (·.isSome)) else none := by
  cases hn : hasNulls with
  | false =>
    cases present with
    | none => rfl
    | some bs => have := hpn rfl; rw [hn] at this; simp at this
  | true =>
    obtain ⟨p, hp1, hp2⟩ := hp hn
    have := (hl.kinds .present).1 (List.mem_map.2 ⟨p, hp1, hp2⟩)
    cases present with
    | none => simp [hk] at this
    | some bs => have := hf hn; simpa [Flagged] using this.symm

theorem columnStored_opened {K : Keep} {E : Env} {ro : ROpts} {file : Bytes} {s d : Schema} {enc : Encoding} {ps : List LaidStream}
    {col : Nat → List (Option GoVal)} (hfit : ColsFit s col) (hd : d ∈ s.columns)
    (h : ∃ contents present, (present.isSome = true → d.node.hasNulls = true) ∧
      ((d.node.kind = .struct ∧ enc = .direct ∧ ColumnLaid E.c ro.kind ro.chunkSize file [] ps contents present ∧ (d.node.hasNulls = true → Flagged present (col d.node.id))) ∨
      ∃ t, StoredAs d.node.kind enc t ∧ ColumnLaid E.c ro.kind ro.chunkSize file (ReaderTag.leaf t).streams ps contents present ∧
        (d.node.hasNulls = true → Flagged present (col d.node.id)) ∧ t.Encodes contents ((col d.node.id).filterMap id)))
    (hK : ∀ t hn kind ix, StoredAs d.node.kind enc t → K.leaf d.node.id t hn kind ix (fun _ => True) (fun _ => True)) (hK' : ∀ kind ix, K.flags d.node.id kind ix fun _ => True)
    (hpr : d.node.hasNulls = true → ∃ p ∈ ps, p.kind = .present) {tag : ReaderTag} (htag : newReaderTag d.node.kind enc = .ok tag)
    {rs : List (Option FlatRd)} {ix : Option (List (List Nat))}
    (hrs : rs[d.node.id]? = some (some ⟨tag, d.node.hasNulls, laid ro.kind ro.chunkSize file ps, ix⟩)) :
    (d.node.kind = .struct ∧ ∃ ss ix, rs[d.node.id]? = some (some ⟨.struct, d.node.hasNulls, ss, ix⟩) ∧
      FlagsHave (K.flags d.node.id ro.kind ix) E.c d.node.hasNulls (col d.node.id) (((⟨.struct, d.node.hasNulls, ss, ix⟩ : FlatRd).stream .present).map newBoolReader)) ∨
    ∃ (t : LeafTag) (ss : List (StreamKind × StreamReader)) (ix : Option (List (List Nat))) (r : ColReader t.ρ), d.node.kind ≠ .struct ∧
      rs[d.node.id]? = some (some ⟨.leaf t, d.node.hasNulls, ss, ix⟩) ∧ t.Replaces ∧
      t.read.openCol ro.kind d.node.hasNulls ss = some r ∧
      (∃ F E', K.leaf d.node.id t r.hasNulls r.kind ix F E' ∧ t.read.Holds E.c F E' r (if d.node.hasNulls then col d.node.id else (col d.node.id).filter (·.isSome))) ∧
      (r.present = none ↔ d.node.hasNulls = false) := by
  obtain ⟨contents, present, hpn, ⟨hk, rfl, hl, hfl⟩ | ⟨t, hs, hl, hfl, he⟩⟩ := h
  · have epr := columnStored_flags hl (by simp) hpn hfl hpr
    subst epr
    rw [hk] at htag
    have : tag = .struct := by simpa [newReaderTag] using htag.symm
    subst this
    refine .inl ⟨hk, _, ix, hrs, ?_⟩
    change FlagsHave _ _ _ _ ((Goorc.lookup (laid ro.kind ro.chunkSize file ps) .present).map newBoolReader)
    cases hn : d.node.hasNulls with
    | false =>
      rw [hn] at hl
      rw [(hl.lookup .present).2 (by simp)]
      rfl
    | true =>
      rw [hn] at hl
      obtain ⟨q, g1, g2⟩ := (hl.lookup .present).1 (by simp)
      obtain ⟨bytes, pad, k1, k2⟩ := hl.flags _ rfl
      have hr := BoolReader.fresh g2 (byteStream_decodes k1)
      have e : bytes.flatMap boolsOfByte = bytesBits bytes := by
        simp only [bytesBits]; congr 1; funext b; exact boolsOfByte_bits b
      rw [e, k2] at hr
      obtain ⟨r', m, -⟩ := BoolReader.yields_spec _ pad hr
      rw [g1]
      exact ⟨rfl, hfit.blank d hd hk hn, fun _ => True, r', hK' _ _, m, trivial⟩
  · obtain ⟨h1, h2, h3, h4, h5⟩ := hs.reader
    have epr := columnStored_flags hl (by rw [← h4]; exact h5) hpn hfl hpr
    subst epr
    rw [h1] at htag
    injection htag with htag
    subst htag
    right
    obtain ⟨x, x', m1, m2⟩ := encodes_data hl he
    rw [← h4] at hl
    obtain ⟨r, o1, o2, o3, o4⟩ := ColumnLaid.opens (R := t.read) (hasNulls := d.node.hasNulls) hl h5 (by
      intro hp
      cases hn : d.node.hasNulls <;> simp [hn] at hp ⊢) x m1
    refine ⟨t, _, ix, r, h2, hrs, h3, o1, ⟨fun _ => True, fun _ => True, hK _ _ _ _ hs, ?_⟩, ?_⟩
    · cases hn : d.node.hasNulls with
      | false =>
        rw [hn] at o3
        have o3' : r.present = none := o3 (by simp)
        simp only [ReadKind.Holds, ReadKind.Has, o3', Bool.false_eq_true, if_false, filter_isSome_filterMap]
        refine ⟨x', ?_, by rw [o2]; exact m2, trivial⟩
        simp only [List.all_map, List.all_eq_true]
        intro y hy
        simpa using (List.mem_filter.1 hy).2
      | true =>
        rw [hn] at o4
        obtain ⟨p, p', g1, g2⟩ := o4 _ rfl
        simp only [ReadKind.Holds, ReadKind.Has, g1, if_true]
        exact ⟨p', x', g2, trivial, by rw [o2]; exact m2, trivial⟩
    · cases hn : d.node.hasNulls with
      | false => rw [hn] at o3; simp [o3 rfl]
      | true =>
        rw [hn] at o4
        obtain ⟨p, p', g1, g2⟩ := o4 _ rfl
        simp [g1]

/-! ### The rows of a column -/

theorem mem_above {s : Schema} (num : s.Numbered) (htab : s.Columnar) (once : s.NullsOnce) {c : Schema} (hc : c ∈ s.columns) {id : Nat}
    (h : id ∈ s.above c.node.id) : ∃ a ∈ s.columns, a.node.id = id ∧ a.node.hasNulls = true ∧ c ∈ a.children := by
  simp only [Schema.above, List.mem_map, List.mem_filter, Bool.and_eq_true, List.any_eq_true, decide_eq_true_eq, columnsAll_eq, List.mem_flatMap] at h
  obtain ⟨a, ⟨ha, hn, d, ⟨e, he, hd⟩, hid⟩, rfl⟩ := h
  refine ⟨a, ha, rfl, hn, ?_⟩
  have hes := columns_child ha he
  obtain ⟨h1, h2⟩ := once a ha hn e he
  have hleaf := ((htab.kinds e hes).resolve_left h1).2
  have : d = e := by
    cases e with
    | mk n cs =>
      simp only [Schema.children] at hleaf
      subst hleaf
      simpa [Schema.columns, columnsAll] using hd
  subst this
  have : c = d := by
    obtain ⟨i, hi, rfl⟩ := List.mem_iff_getElem.1 hc
    obtain ⟨j, hj, rfl⟩ := List.mem_iff_getElem.1 hes
    rw [numbered_at num i hi, numbered_at num j hj] at hid
    subst hid
    rfl
  rw [this]; exact he

theorem seenRows_nullable {s : Schema} (num : s.Numbered) (htab : s.Columnar) (once : s.NullsOnce) {c : Schema} (hc : c ∈ s.columns)
    (hn : c.node.hasNulls = true) (rows : List Row) : seenRows s c.node.id rows = rows := by
  have : s.above c.node.id = [] := by
    rw [List.eq_nil_iff_forall_not_mem]
    intro id hid
    obtain ⟨a, h1, -, h2, h3⟩ := mem_above num htab once hc hid
    have := (once a h1 h2 c h3).2
    rw [hn] at this
    simp at this
  simp [seenRows, this]

theorem seenRows_values {s : Schema} (num : s.Numbered) (htab : s.Columnar) (once : s.NullsOnce) {c : Schema} (hc : c ∈ s.columns)
    (hk : c.node.kind ≠ .struct) (hn : c.node.hasNulls = false) {rows : List Row} (hfit : NullsFit s rows) :
    ((seenRows s c.node.id rows).map (Row.cell c.node.id)).filterMap id = (rows.map (Row.cell c.node.id)).filterMap id := by
  simp only [seenRows, List.filterMap_map, Function.id_comp]
  have hall : ∀ r ∈ rows, ((s.above c.node.id).all fun a => (r.cell a).isSome) = false → r.cell c.node.id = none := by
    intro r hr hf
    simp only [List.all_eq_false, Bool.not_eq_true] at hf
    obtain ⟨id, h1, h2⟩ := hf
    obtain ⟨a, g1, rfl, g2, g3⟩ := mem_above num htab once hc h1
    have := hfit.below a g1 c g3 hk hn r hr
    rw [g2] at this
    cases hx : r.cell c.node.id with
    | none => rfl
    | some x => cases hy : r.cell a.node.id <;> simp [hx, hy] at this h2
  clear hfit
  induction rows with
  | nil => rfl
  | cons r rows ih =>
    have ih := ih fun r hr => hall r (List.mem_cons_of_mem _ hr)
    cases hf : (s.above c.node.id).all fun a => (r.cell a).isSome with
    | false =>
      rw [List.filter_cons_of_neg (by simp [hf]), ih, List.filterMap_cons_none (hall r List.mem_cons_self hf)]
    | true =>
      rw [List.filter_cons_of_pos (by simpa using hf), List.filterMap_cons, List.filterMap_cons, ih]

theorem columnStored_seen {c : Codec} {kind : CompKind} {size : Nat} {file : Bytes} {s d : Schema} {enc : Encoding} {ps : List LaidStream} {rows : List Row}
    (num : s.Numbered) (htab : s.Columnar) (once : s.NullsOnce) (hd : d ∈ s.columns) (hfit : NullsFit s rows)
    (h : ColumnStored c kind size file d.node enc ps ((seenRows s d.node.id rows).map (Row.cell d.node.id))) :
    ∃ contents present, (present.isSome = true → d.node.hasNulls = true) ∧
    ((d.node.kind = .struct ∧ enc = .direct ∧ ColumnLaid c kind size file [] ps contents present ∧ (d.node.hasNulls = true → Flagged present (rows.map (Row.cell d.node.id)))) ∨
    ∃ t, StoredAs d.node.kind enc t ∧ ColumnLaid c kind size file (ReaderTag.leaf t).streams ps contents present ∧
      (d.node.hasNulls = true → Flagged present (rows.map (Row.cell d.node.id))) ∧
      t.Encodes contents ((rows.map (Row.cell d.node.id)).filterMap id)) := by
  obtain ⟨contents, present, h1, h2⟩ := h
  refine ⟨contents, present, h1, ?_⟩
  rcases h2 with ⟨e1, e2, e3, e4⟩ | ⟨t, e1, e2, e3, e4⟩
  · refine .inl ⟨e1, e2, e3, fun hn => ?_⟩
    have := e4 hn
    rwa [seenRows_nullable num htab once hd hn] at this
  · refine .inr ⟨t, e1, e2, fun hn => ?_, ?_⟩
    · rwa [seenRows_nullable num htab once hd hn] at e3
    · cases hn : d.node.hasNulls with
      | true => rwa [seenRows_nullable num htab once hd hn] at e4
      | false => rwa [seenRows_values num htab once hd e1.reader.2.1 hn hfit] at e4

/-! ### Stripes -/

theorem stripeFrame_footer {E : Env} {ro : ROpts} {columns : Nat} {file : Bytes} {info : StripeInfo} {rows : Nat} {f : StripeFooter}
    {index data : List StreamInfo} (h : StripeFrame E ro.kind ro.chunkSize columns file info rows f index data) :
    readStripeFooter E ro file info = .ok f := by
  obtain ⟨flat, h1, h2⟩ := h.footerAt
  have hin := h.inFile
  have hr : readAt file ((info.offset + info.indexLength + info.dataLength : Nat) : Int) info.footerLength =
      .ok ((file.drop (info.offset + info.indexLength + info.dataLength)).take info.footerLength) := by
    simp only [readAt, Int.toNat_natCast]
    rw [if_neg (by omega), if_pos (by omega)]
  simp only [readStripeFooter, hr, Res.ok_bind]
  rw [h1.plain]
  simp only [Res.ok_bind, unmarshal, h2]

/-- The readers of the columns of a stripe of any writer. -/
theorem stripeFrame_readers {E : Env} {ro : ROpts} {s : Schema} {file : Bytes} {info : StripeInfo} {rows : Nat} {f : StripeFooter}
    {index data : List StreamInfo} (h : StripeFrame E ro.kind ro.chunkSize s.columns.length file info rows f index data) (num : s.Numbered)
    (hcols : ∀ c ∈ s.columns, ∃ enc tag, f.columns[c.node.id]? = some enc ∧ newReaderTag c.node.kind enc = .ok tag ∧
      ∀ p ∈ columnStreams file c.node.id (startsFrom (info.offset + info.indexLength) data), tag.accepts c.node.hasNulls p.kind = true)
    {bo : BatchOption} {types : List RdType} (ht : TypesOf s types) :
    ∃ rs rs', initColumns bo f.columns types = .ok rs ∧ initStreams E ro file info.offset (info.offset + info.indexLength) f.streams rs = .ok rs' ∧
      ∀ d ∈ s.columns, bo.isInclude d.node.id = true → ∃ enc tag ix, f.columns[d.node.id]? = some enc ∧ newReaderTag d.node.kind enc = .ok tag ∧
        rs'[d.node.id]? = some (some ⟨tag, d.node.hasNulls,
          laid ro.kind ro.chunkSize file (columnStreams file d.node.id (startsFrom (info.offset + info.indexLength) data)), ix⟩) ∧
        (d.node.hasNulls = true → (∃ p ∈ f.streams, p.column = d.node.id ∧ p.kind = .present) →
          ∃ p ∈ columnStreams file d.node.id (startsFrom (info.offset + info.indexLength) data), p.kind = .present) ∧
        ((index.map (·.column)).Nodup → ∀ p ∈ startsFrom info.offset index, p.1.column = d.node.id →
          ∀ flat entries, Stands E.c ro.kind ro.chunkSize ((file.drop p.2).take p.1.length) flat → E.P.readIndex flat = some entries → ix = some entries) := by
  have hplaces : ∀ p ∈ startsFrom (info.offset + info.indexLength) data, p.2 + p.1.length ≤ file.length := by
    intro p hp
    have h1 := startsFrom_fits hp
    have h2 := h.inFile
    rw [h.dataLength] at h1
    omega
  obtain ⟨rs, e1, e2, e3⟩ := initColumns_spec bo f.columns types (by
    intro t ht' hinc
    obtain ⟨j, hj, rfl⟩ := List.mem_iff_getElem.1 ht'
    obtain ⟨c, hc, e, names, he⟩ := ht.at num (List.getElem?_eq_getElem hj)
    rw [he]
    obtain ⟨enc, tag, g1, g3, -⟩ := hcols c hc
    exact ⟨enc, tag, g1, g3⟩)
  have hidx : f.streams.filter (fun s => decide (s.kind = .rowIndex)) = index := by
    rw [h.listed, List.filter_append]
    have a : index.filter (fun s => decide (s.kind = .rowIndex)) = index := by
      rw [List.filter_eq_self]; intro p hp; simpa using h.indexes p hp
    have b : data.filter (fun s => decide (s.kind = .rowIndex)) = [] := by
      rw [List.filter_eq_nil_iff]; intro p hp; simpa using h.noIndex p hp
    rw [a, b, List.append_nil]
  have hdat : f.streams.filter (fun s => decide (s.kind ≠ .rowIndex)) = data := by
    rw [h.listed, List.filter_append]
    have a : index.filter (fun s => decide (s.kind ≠ .rowIndex)) = [] := by
      rw [List.filter_eq_nil_iff]; intro p hp; simpa using h.indexes p hp
    have b : data.filter (fun s => decide (s.kind ≠ .rowIndex)) = data := by
      rw [List.filter_eq_self]; intro p hp; simpa using h.noIndex p hp
    rw [a, b, List.nil_append]
  have hcolrd : ∀ c ∈ s.columns, ∃ enc tag, f.columns[c.node.id]? = some enc ∧ newReaderTag c.node.kind enc = .ok tag ∧ (bo.isInclude c.node.id = false → rs[c.node.id]? = some none) ∧
      (bo.isInclude c.node.id = true → rs[c.node.id]? = some (some ⟨tag, c.node.hasNulls, [], none⟩)) ∧
      (∀ p ∈ columnStreams file c.node.id (startsFrom (info.offset + info.indexLength) data), tag.accepts c.node.hasNulls p.kind = true) := by
    intro c hc
    obtain ⟨names, hn⟩ := ht.2 c hc
    obtain ⟨a, b⟩ := e3 _ _ hn
    obtain ⟨enc, tag, g1, g3, g4⟩ := hcols c hc
    exact ⟨enc, tag, g1, g3, a, fun hinc => b enc tag hinc g1 g3, g4⟩
  have hmemStart : ∀ {b : Nat} {xs : List StreamInfo} {x : StreamInfo}, x ∈ xs → ∃ n, (x, n) ∈ startsFrom b xs := by
    intro b xs
    induction xs generalizing b with
    | nil => intro x hx; simp at hx
    | cons y ys ih =>
      intro x hx
      rcases List.mem_cons.1 hx with rfl | hx
      · exact ⟨b, by simp [startsFrom]⟩
      · obtain ⟨n, hn⟩ := ih (b := b + y.length) hx
        exact ⟨n, by simp [startsFrom, hn]⟩
  obtain ⟨rs', f1⟩ := initStreams_ok (E := E) (ro := ro) (file := file) f.streams info.offset (info.offset + info.indexLength) rs
    (fun p hp => by rw [e2, ht.1]; exact h.existing p hp) (by rw [hidx]; exact h.indexAt) (by
      intro p hp hk r hr
      have hlt := h.existing p hp
      have hc := List.getElem_mem hlt
      have hid := numbered_at num p.column hlt
      obtain ⟨enc, tag, -, -, g2, g3, g4⟩ := hcolrd _ hc
      rw [hid] at g2 g3 g4
      cases hinc : bo.isInclude p.column with
      | false => rw [g2 hinc] at hr; simp at hr
      | true =>
        rw [g3 hinc] at hr
        simp only [Option.some.injEq] at hr
        subst hr
        have hpd : p ∈ data := by
          rw [← hdat]; exact List.mem_filter.2 ⟨hp, by simpa using hk⟩
        obtain ⟨n, hn⟩ := hmemStart (b := info.offset + info.indexLength) hpd
        refine g4 ⟨p.kind, n, (file.drop n).take p.length⟩ ?_
        exact List.mem_map.2 ⟨(p, n), List.mem_filter.2 ⟨hn, by simp⟩, rfl⟩)
  refine ⟨rs, rs', e1, f1, fun d hd hinc => ?_⟩
  obtain ⟨enc, tag, henc, htag, -, g3, -⟩ := hcolrd d hd
  obtain ⟨⟨t', n', ss', ix'⟩, k1, k2, k3, k4⟩ := initStreams_places _ _ _ _ _ f1 _ _ (g3 hinc)
  simp only at k2 k3 k4
  subst k2; subst k3
  rw [hdat, List.nil_append, ← columnStreams_laid hplaces] at k4
  subst k4
  refine ⟨enc, t', ix', henc, htag, k1, fun hn hp => ?_, fun hnd p hp hpc flat entries hst hrd => ?_⟩
  · obtain ⟨p, hp, hp1, hp2⟩ := hp
    have hpd : p ∈ data := by
      rw [← hdat]; exact List.mem_filter.2 ⟨hp, by simp [hp2]⟩
    obtain ⟨n, hn⟩ := hmemStart (b := info.offset + info.indexLength) hpd
    exact ⟨⟨p.kind, n, (file.drop n).take p.length⟩, List.mem_map.2 ⟨(p, n), List.mem_filter.2 ⟨hn, by simpa using hp1⟩, rfl⟩, hp2⟩
  · obtain ⟨r', j1, j2⟩ := initStreams_index _ _ _ _ _ f1 (by rw [hidx]; exact hnd) _ _ (g3 hinc) p (by rw [hidx]; exact hp) hpc
    rw [k1] at j1
    simp only [Option.some.injEq] at j1
    subst j1
    have hin : p.2 + p.1.length ≤ file.length := (h.indexAt p hp).1
    obtain ⟨q, q', j2⟩ := j2
    have hr : readAt file (p.2 : Int) p.1.length = .ok ((file.drop p.2).take p.1.length) := by
      simp only [readAt, Int.toNat_natCast]
      rw [if_neg (by omega), if_pos (by omega)]
    have hp' : (if ro.kind = .none then pure ((file.drop p.2).take p.1.length) else decompressChunks E.c ro.kind ((file.drop p.2).take p.1.length) : Res Bytes) = .ok flat := by
      have := hst.plain
      by_cases hk : ro.kind = .none <;> simpa [hk] using this
    simp only [initIndex, hr, Res.ok_bind] at j2
    rw [hp'] at j2
    simp only [Res.ok_bind, unmarshal, hrd, Res.pure_eq, Res.ok.injEq] at j2
    rw [← j2.2, ← j2.1]

theorem stripeLaid_readers {E : Env} {ro : ROpts} {s : Schema} {file : Bytes} {info : StripeInfo} {rows : List Row} {f : StripeFooter}
    {index data : List StreamInfo} (h : StripeLaid E ro.kind ro.chunkSize s file info rows f index data) (num : s.Numbered)
    {bo : BatchOption} {types : List RdType} (ht : TypesOf s types) :
    ∃ rs rs', initColumns bo f.columns types = .ok rs ∧ initStreams E ro file info.offset (info.offset + info.indexLength) f.streams rs = .ok rs' ∧
      ∀ d ∈ s.columns, bo.isInclude d.node.id = true → ∃ enc tag ix, f.columns[d.node.id]? = some enc ∧ newReaderTag d.node.kind enc = .ok tag ∧
        rs'[d.node.id]? = some (some ⟨tag, d.node.hasNulls,
          laid ro.kind ro.chunkSize file (columnStreams file d.node.id (startsFrom (info.offset + info.indexLength) data)), ix⟩) ∧
        ColumnStored E.c ro.kind ro.chunkSize file d.node enc (columnStreams file d.node.id (startsFrom (info.offset + info.indexLength) data))
          ((seenRows s d.node.id rows).map (Row.cell d.node.id)) ∧
        (d.node.hasNulls = true → (∃ p ∈ f.streams, p.column = d.node.id ∧ p.kind = .present) →
          ∃ p ∈ columnStreams file d.node.id (startsFrom (info.offset + info.indexLength) data), p.kind = .present) ∧
        ((index.map (·.column)).Nodup → ∀ p ∈ startsFrom info.offset index, p.1.column = d.node.id →
          ∀ flat entries, Stands E.c ro.kind ro.chunkSize ((file.drop p.2).take p.1.length) flat → E.P.readIndex flat = some entries → ix = some entries) := by
  obtain ⟨rs, rs', h1, h2, h3⟩ := stripeFrame_readers (bo := bo) h.toStripeFrame num (by
    intro c hc
    obtain ⟨enc, g1, g2⟩ := h.columns c hc
    obtain ⟨tag, g3, g4⟩ := columnStored_accepts g2
    exact ⟨enc, tag, g1, g3, g4⟩) ht
  refine ⟨rs, rs', h1, h2, fun d hd hinc => ?_⟩
  obtain ⟨enc, tag, ix, k1, k2, k3, k4, k5⟩ := h3 d hd hinc
  obtain ⟨enc', g1, g2⟩ := h.columns d hd
  rw [k1] at g1
  simp only [Option.some.injEq] at g1
  subst g1
  exact ⟨enc, tag, ix, k1, k2, k3, g2, k4, k5⟩

/-- A stripe of any writer can be opened. -/
theorem stripeLaid_opensAs {K : Keep} {E : Env} {ro : ROpts} {s : Schema} {file : Bytes} {info : StripeInfo} {rows : List Row} {f : StripeFooter}
    {index data : List StreamInfo} (h : StripeLaid E ro.kind ro.chunkSize s file info rows f index data) (num : s.Numbered) (htab : s.Columnar)
    (once : s.NullsOnce) (hflags : f.Flags s) {bo : BatchOption} (hsel : bo.Selects s) {types : List RdType} (ht : TypesOf s types) (hfit : NullsFit s rows)
    (hK : ∀ d ∈ s.columns, ∀ enc t hn kind ix, StoredAs d.node.kind enc t → K.leaf d.node.id t hn kind ix (fun _ => True) (fun _ => True))
    (hK' : ∀ id kind ix, K.flags id kind ix fun _ => True) :
    ∃ x, newStripeReader E ro bo file types info = .ok ⟨types.map (·.hasNulls), some x, rows.length, 0⟩ ∧
      RdHas K E.c bo (fun j => rows.map (Row.cell j)) types.length none s x := by
  obtain ⟨rs, rs', e1, f1, hcols⟩ := stripeLaid_readers (bo := bo) h num ht
  have hop : Opened K E.c bo ro.kind (fun j => rows.map (Row.cell j)) s rs' := by
    intro d hd hinc
    obtain ⟨enc, tag, ix, -, htag, k1, g5, hpr, -⟩ := hcols d hd hinc
    exact (columnStored_opened hfit.cols hd (columnStored_seen num htab once hd hfit g5) (hK d hd enc) (hK' _) (fun hn => hpr hn (hflags d hd hn)) htag k1).imp_right .inl
  have := stripe_of_opened num htab hsel ht (stripeFrame_footer h.toStripeFrame) e1 f1 hop hfit.cols
  rwa [h.count] at this

theorem stripeLaid_opens {E : Env} {ro : ROpts} {s : Schema} {file : Bytes} {info : StripeInfo} {rows : List Row} {f : StripeFooter}
    {index data : List StreamInfo} (h : StripeLaid E ro.kind ro.chunkSize s file info rows f index data) (num : s.Numbered) (htab : s.Columnar)
    (once : s.NullsOnce) (hflags : f.Flags s) {bo : BatchOption} (hsel : bo.Selects s) {types : List RdType} (ht : TypesOf s types) (hfit : NullsFit s rows) :
    ∃ x, newStripeReader E ro bo file types info = .ok ⟨types.map (·.hasNulls), some x, rows.length, 0⟩ ∧
      RdHas .any E.c bo (fun j => rows.map (Row.cell j)) types.length none s x :=
  stripeLaid_opensAs h num htab once hflags hsel ht hfit (fun _ _ _ _ _ _ _ _ => trivial) (fun _ _ _ => trivial)

/-! ### The tail -/

/-- **C85** The tail of a file of any writer: it is found if the footer and the postscript have together at most 16383 bytes; more than that
makes opening the file panic. -/
theorem fileFrame_tail {E : Env} {s : Schema} {file : Bytes} {counts : List Nat} {ps : PostScript} {ft : FileFooter}
    {content metadata fb pb : Bytes} (h : FileFrame E s file counts ps ft content metadata fb pb) :
    extractFileTail E file = if fb.length + pb.length + 1 ≤ 16384 then .ok (some ⟨ps, ft⟩) else .panic := by
  obtain ⟨flat, hf1, hf2⟩ := h.footer
  have hfile := h.bytes
  have h3 : 3 ≤ content.length := by simpa using h.magic.length_le
  have hs := h.short
  generalize hpre : content ++ metadata = pre at hfile
  have hpl : pre.length = content.length + metadata.length := by rw [← hpre]; simp
  have hlen : file.length = pre.length + fb.length + pb.length + 1 := by rw [hfile]; simp; omega
  have hbv : (BitVec.ofNat 8 pb.length).toNat = pb.length := by simp; omega
  have hg : directorySizeGuess = 16384 := rfl
  simp only [extractFileTail]
  rw [if_neg (by omega), if_neg (by omega)]
  generalize hrs : min file.length directorySizeGuess = rs
  have hread : readAt file ((file.length : Int) - rs) rs = .ok (file.drop (file.length - rs)) := by
    simp only [readAt]
    rw [if_neg (by omega)]
    have : ((file.length : Int) - rs).toNat = file.length - rs := by omega
    rw [this, if_pos (by omega), List.take_of_length_le (by simp; omega)]
  rw [hread]
  simp only [Res.ok_bind]
  generalize hbuf : file.drop (file.length - rs) = buf
  have hbl : buf.length = rs := by rw [← hbuf]; simp; omega
  have hlast : buf.getD (rs - 1) 0 = BitVec.ofNat 8 pb.length := by
    rw [← hbuf, List.getD_eq_getElem?_getD, List.getElem?_drop]
    have : file.length - rs + (rs - 1) = (pre ++ fb ++ pb).length := by simp; omega
    rw [this, hfile, List.getElem?_append_right (Nat.le_refl _)]
    simp
  rw [hlast, hbv]
  have hs1 : sliceAt buf ((rs : Int) - 1 - pb.length) pb.length = .ok pb := by
    simp only [sliceAt]
    have : ((rs : Int) - 1 - pb.length).toNat = rs - 1 - pb.length := by omega
    rw [this, if_pos (by rw [hbl]; omega)]
    rw [← hbuf, List.drop_drop]
    have : file.length - rs + (rs - 1 - pb.length) = (pre ++ fb).length := by simp; omega
    rw [this, hfile]
    have : pre ++ fb ++ pb ++ [BitVec.ofNat 8 pb.length] = (pre ++ fb) ++ (pb ++ [BitVec.ofNat 8 pb.length]) := by simp
    rw [this, List.drop_left, List.take_left]
  rw [hs1]
  simp only [Res.ok_bind, unmarshal, h.postScript, h.footerLength, h.metadataLength]
  -- the bytes read then do not matter
  obtain ⟨ebuf, hext⟩ : ∃ ebuf, (if 0 < pb.length + 1 + fb.length + metadata.length - rs then do
        let ebuf ← readAt file ((file.length : Int) - rs - ↑(pb.length + 1 + fb.length + metadata.length - rs)) (pb.length + 1 + fb.length + metadata.length - rs)
        pure (buf ++ ebuf)
      else pure buf : Res Bytes) = .ok (buf ++ ebuf) := by
    split
    · have hr2 : ∃ e, readAt file ((file.length : Int) - rs - ↑(pb.length + 1 + fb.length + metadata.length - rs)) (pb.length + 1 + fb.length + metadata.length - rs) = .ok e := by
        simp only [readAt]
        rw [if_neg (by omega), if_pos (by omega)]
        exact ⟨_, rfl⟩
      obtain ⟨e, hr2⟩ := hr2
      exact ⟨e, by rw [hr2]; rfl⟩
    · exact ⟨[], by rw [List.append_nil]; rfl⟩
  rw [hext]
  simp only [Res.ok_bind]
  by_cases hle : fb.length + pb.length + 1 ≤ 16384
  · rw [if_pos hle]
    have hs2 : sliceAt (buf ++ ebuf) ((rs : Int) - 1 - pb.length - fb.length) fb.length = .ok fb := by
      simp only [sliceAt]
      have : ((rs : Int) - 1 - pb.length - fb.length).toNat = rs - 1 - pb.length - fb.length := by omega
      rw [this, if_pos (by rw [List.length_append, hbl]; omega)]
      rw [List.drop_append_of_le_length (by omega), List.take_append_of_le_length (by rw [List.length_drop]; omega), ← hbuf, List.drop_drop]
      have : file.length - rs + (rs - 1 - pb.length - fb.length) = pre.length := by omega
      rw [this, hfile]
      have : pre ++ fb ++ pb ++ [BitVec.ofNat 8 pb.length] = pre ++ (fb ++ (pb ++ [BitVec.ofNat 8 pb.length])) := by simp
      rw [this, List.drop_left, List.take_left]
    rw [hs2]
    simp only [Res.ok_bind]
    rw [hf1.plain]
    simp only [Res.ok_bind, hf2]
    rfl
  · rw [if_neg hle]
    simp only [sliceAt]
    rw [if_neg (by omega)]
    rfl

end Goorc
