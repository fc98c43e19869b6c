import Verif.Spec.Accept
import Verif.Props.StripeStreams
/-
C83: which streams a column reader takes, and which stripes are opened.
-/
namespace Goorc

/-- **C83** (exact) A column reader takes a stream exactly if its type has such a stream, with two exceptions: the readers of
integers, of direct strings and of lists take flags although the column has no nulls, and the reader of bytes takes
anything but flags (and drops it). -/
theorem accepts_exact (t : ReaderTag) (hasNulls : Bool) (k : StreamKind) :
    t.accepts hasNulls k = true ↔
      t.Has hasNulls k ∨ (k = .present ∧ t.TakesFlags) ∨ (k ≠ .present ∧ t = .leaf .byte) := by
  rcases t with (_ | _ | _ | _ | _ | _ | _ | _ | _) | _ | _ | _ | _ <;> cases hasNulls <;> cases k <;>
    simp [ReaderTag.accepts, ReadKind.accepts, LeafTag.read, ReaderTag.Has, ReaderTag.streams, ReaderTag.TakesFlags, byteRead, boolRead, intRead,
      floatRead, stringRead, binaryRead, dateRead, timestampRead, decimalRead, dictRead]

/-- **C83** (partial) The streams of a type are all taken. -/
theorem own_streams_accepted_partial (t : ReaderTag) (hasNulls : Bool) (k : StreamKind) (h : t.Has hasNulls k) :
    t.accepts hasNulls k = true := (accepts_exact t hasNulls k).mpr (.inl h)

/-- **C83** is false as stated: flags of a bigint column without nulls are taken. -/
theorem only_own_streams_false : ¬ ∀ (t : ReaderTag) (hasNulls : Bool) (k : StreamKind), t.accepts hasNulls k = true → t.Has hasNulls k := by
  intro h
  have := h (.leaf (.int .big)) false .present ((accepts_exact _ _ _).mpr (.inr (.inl ⟨rfl, trivial⟩)))
  simp [ReaderTag.Has, ReaderTag.streams] at this

theorem find_given (streams : List (StreamKind × StreamReader)) (k : StreamKind) :
    ((streams.reverse.find? fun s => s.1 = k).map (·.2)).isSome = true ↔ Given streams k := by
  simp [Given, List.find?_isSome]

/-- **C83** (exact) A leaf column can be read exactly if every stream it is given is taken, and none of those of its type is
missing. -/
theorem opens_exact (t : LeafTag) (kind : CompKind) (hasNulls : Bool) (streams : List (StreamKind × StreamReader)) :
    (t.read.openCol kind hasNulls streams).isSome = true ↔
      (∀ s ∈ streams, (ReaderTag.leaf t).accepts hasNulls s.1 = true) ∧ ∀ k ∈ (ReaderTag.leaf t).streams, Given streams k := by
  have hinit : (t.read.init fun k => (streams.reverse.find? fun s => s.1 = k).map (·.2)).isSome = true ↔
      ∀ k ∈ (ReaderTag.leaf t).streams, Given streams k := by
    have aux : ∀ f : StreamKind → Option StreamReader, (t.read.init f).isSome = true ↔ ∀ k ∈ (ReaderTag.leaf t).streams, (f k).isSome = true := by
      intro f
      rcases t with _ | _ | _ | _ | _ | _ | _ | _ | _ <;>
        simp only [LeafTag.read, byteRead, boolRead, intRead, floatRead, stringRead, binaryRead, dateRead, timestampRead, decimalRead,
          ReaderTag.streams, List.mem_cons, List.not_mem_nil, or_false, forall_eq_or_imp, forall_eq, Option.isSome_map] <;>
        first
          | (cases f .data <;> cases f .length <;> simp; done)
          | (cases f .data <;> cases f .secondary <;> simp; done)
    rw [aux]
    simp only [find_given]
  simp only [ReadKind.openCol]
  split
  · rename_i h
    rw [Option.isSome_map, hinit]
    simp only [List.all_eq_true] at h
    exact ⟨fun g => ⟨h, g⟩, fun g => g.2⟩
  · rename_i h
    simp only [List.all_eq_true] at h
    simp only [Option.isSome_none, Bool.false_eq_true, false_iff]
    exact fun g => h g.1

/-- A tinyint column without nulls given its data and a stream nobody knows can be read; a smallint column cannot. -/
example (d x : StreamReader) :
    ((LeafTag.byte).read.openCol .zlib false [(.data, d), (.other, x)]).isSome = true ∧
      ((LeafTag.int .small).read.openCol .zlib false [(.data, d), (.other, x)]).isSome = false ∧
      ((LeafTag.int .small).read.openCol .zlib false [(.data, d), (.present, x)]).isSome = true ∧
      ((LeafTag.date).read.openCol .zlib false [(.data, d), (.present, x)]).isSome = false ∧
      ((LeafTag.string).read.openCol .zlib true [(.data, d), (.present, x)]).isSome = false := ⟨rfl, rfl, rfl, rfl, rfl⟩

/-! ### Stripes -/

theorem initStreams_takes {E : Env} {ro : ROpts} {file : Bytes} : ∀ (ss : List StreamInfo) (a b : Nat) (rs rs' : List (Option FlatRd)),
    initStreams E ro file a b ss rs = .ok rs' → ∀ s ∈ ss,
      s.column < rs.length ∧
        ∀ r, rs[s.column]? = some (some r) → s.kind = .rowIndex ∨ r.tag.accepts r.hasNulls s.kind = true := by
  intro ss
  induction ss with
  | nil => intro _ _ _ _ _ s hs; simp at hs
  | cons t ss ih =>
    intro a b rs rs' h s hs
    simp only [initStreams] at h
    cases hx : rs[t.column]? with
    | none => simp [hx] at h
    | some x =>
      have hlt : t.column < rs.length := by
        have := List.getElem?_eq_some_iff.mp hx
        exact this.1
      have step : ∀ r r2 : FlatRd, rs[t.column]? = some (some r) → r2.tag = r.tag → r2.hasNulls = r.hasNulls →
          (∀ s ∈ ss, s.column < (rs.set t.column (some r2)).length ∧
            ∀ r, (rs.set t.column (some r2))[s.column]? = some (some r) → s.kind = .rowIndex ∨ r.tag.accepts r.hasNulls s.kind = true) →
          ∀ s ∈ ss, s.column < rs.length ∧ ∀ r, rs[s.column]? = some (some r) → s.kind = .rowIndex ∨ r.tag.accepts r.hasNulls s.kind = true := by
        intro r r2 hr e1 e2 g s hs
        obtain ⟨g1, g2⟩ := g s hs
        refine ⟨by simpa using g1, fun q hq => ?_⟩
        by_cases he : t.column = s.column
        · rw [he] at hr
          rw [hr] at hq
          simp only [Option.some.injEq] at hq
          subst hq
          have := g2 r2 (by rw [List.getElem?_set, if_pos he, if_pos (by omega)])
          rwa [e1, e2] at this
        · exact g2 q (by rw [List.getElem?_set, if_neg he]; exact hq)
      simp only [hx] at h
      cases x with
      | none =>
        rcases List.mem_cons.mp hs with rfl | hs'
        · exact ⟨hlt, fun r hr => by rw [hx] at hr; simp at hr⟩
        · simp only at h
          split at h <;> exact ih _ _ _ _ h s hs'
      | some r =>
        simp only at h
        split at h
        · rename_i hk
          obtain ⟨r2, h1, h2⟩ := Res.bind_ok_inv h
          rcases List.mem_cons.mp hs with rfl | hs'
          · exact ⟨hlt, fun _ _ => .inl hk⟩
          · obtain ⟨e1, e2⟩ : r2.tag = r.tag ∧ r2.hasNulls = r.hasNulls := by
              simp only [initIndex] at h1
              obtain ⟨_, -, h1⟩ := Res.bind_ok_inv h1
              obtain ⟨_, -, h1⟩ := Res.bind_ok_inv h1
              obtain ⟨_, -, h1⟩ := Res.bind_ok_inv h1
              injection h1 with h1
              subst h1
              exact ⟨rfl, rfl⟩
            exact step r r2 hx e1 e2 (fun u hu => ih _ _ _ _ h2 u hu) s hs'
        · obtain ⟨r2, h1, h2⟩ := Res.bind_ok_inv h
          simp only [initStream] at h1
          split at h1
          · rename_i hacc
            injection h1 with h1
            rcases List.mem_cons.mp hs with rfl | hs'
            · exact ⟨hlt, fun q hq => by
                rw [hx] at hq
                simp only [Option.some.injEq] at hq
                subst hq
                exact .inr hacc⟩
            · exact step r r2 hx (by rw [← h1]) (by rw [← h1]) (fun u hu => ih _ _ _ _ h2 u hu) s hs'
          · simp at h1

theorem initColumns_get {bo : BatchOption} {columns : List Encoding} : ∀ (types : List RdType) (rs : List (Option FlatRd)),
    initColumns bo columns types = .ok rs → rs.length = types.length ∧ ∀ (i : Nat) (t : RdType), types[i]? = some t → bo.isInclude t.id = true →
      ∃ enc tag, columns[t.id]? = some enc ∧ newReaderTag t.kind enc = .ok tag ∧ rs[i]? = some (some ⟨tag, t.hasNulls, [], none⟩) := by
  intro types
  induction types with
  | nil => intro rs h; simp only [initColumns] at h; injection h with h; subst h; simp
  | cons t ts ih =>
    intro rs h
    simp only [initColumns] at h
    obtain ⟨r, h1, h⟩ := Res.bind_ok_inv h
    obtain ⟨rs2, h2, h⟩ := Res.bind_ok_inv h
    injection h with h
    subst h
    obtain ⟨g1, g2⟩ := ih rs2 h2
    refine ⟨by simp [g1], fun i u hu hinc => ?_⟩
    cases i with
    | zero =>
      simp only [List.getElem?_cons_zero, Option.some.injEq] at hu
      subst hu
      rw [if_pos hinc] at h1
      cases hc : columns[t.id]? with
      | none => simp [hc] at h1
      | some enc =>
        simp only [hc] at h1
        obtain ⟨tag, h3, h4⟩ := Res.bind_ok_inv h1
        injection h4 with h4
        exact ⟨enc, tag, rfl, h3, by simp [h4]⟩
    | succ i =>
      obtain ⟨enc, tag, k1, k2, k3⟩ := g2 i u (by simpa using hu) hinc
      exact ⟨enc, tag, k1, k2, by simpa using k3⟩

/-- **C83** (file) If a stripe is opened, then every stream its footer lists belongs to a column the file has, and a stream of
a column that is read is a row index, one that its type has, or one of the exceptions of `accepts_exact`. A footer that
lists a Bloom filter for a column that is read, say, is refused, unless the column has type tinyint. -/
theorem opened_stripe_streams {E : Env} {ro : ROpts} {bo : BatchOption} {file : Bytes} {types : List RdType} {info : StripeInfo}
    {sr : StripeReader (Rd types.length)} (h : newStripeReader E ro bo file types info = .ok sr) :
    ∃ footer, readStripeFooter E ro file info = .ok footer ∧ ∀ s ∈ footer.streams, s.column < types.length ∧
      ∀ t, types[s.column]? = some t → bo.isInclude t.id = true →
        ∃ enc tag, footer.columns[t.id]? = some enc ∧ newReaderTag t.kind enc = .ok tag ∧
          (s.kind = .rowIndex ∨ tag.Has t.hasNulls s.kind ∨ (s.kind = .present ∧ tag.TakesFlags) ∨ (s.kind ≠ .present ∧ tag = .leaf .byte)) := by
  simp only [newStripeReader] at h
  obtain ⟨footer, h1, h⟩ := Res.bind_ok_inv h
  obtain ⟨rd, h2, -⟩ := Res.bind_ok_inv h
  simp only [initStripe] at h2
  obtain ⟨rs, h3, h2⟩ := Res.bind_ok_inv h2
  obtain ⟨rs', h4, -⟩ := Res.bind_ok_inv h2
  obtain ⟨g1, g2⟩ := initColumns_get types rs h3
  refine ⟨footer, h1, fun s hs => ?_⟩
  obtain ⟨k1, k2⟩ := initStreams_takes _ _ _ _ _ h4 s hs
  refine ⟨by omega, fun t ht hinc => ?_⟩
  obtain ⟨enc, tag, m1, m2, m3⟩ := g2 _ t ht hinc
  refine ⟨enc, tag, m1, m2, ?_⟩
  rcases k2 _ m3 with h | h
  · exact .inl h
  · exact .inr ((accepts_exact _ _ _).mp h)

/-! ### C84: where the streams are looked for -/

theorem startsFrom_append (b : Nat) (xs ys : List StreamInfo) :
    startsFrom b (xs ++ ys) = startsFrom b xs ++ startsFrom (b + (xs.map (·.length)).sum) ys := by
  induction xs generalizing b with
  | nil => simp [startsFrom]
  | cons x xs ih => simp [startsFrom, ih, Nat.add_assoc]

theorem startsFrom_mem {b : Nat} {xs : List StreamInfo} {p : StreamInfo × Nat} (h : p ∈ startsFrom b xs) : p.1 ∈ xs := by
  induction xs generalizing b with
  | nil => simp [startsFrom] at h
  | cons x xs ih =>
    rcases List.mem_cons.mp h with rfl | h
    · exact List.mem_cons_self
    · exact List.mem_cons_of_mem _ (ih h)

theorem initStreams_places {E : Env} {ro : ROpts} {file : Bytes} : ∀ (ss : List StreamInfo) (a b : Nat) (rs rs' : List (Option FlatRd)),
    initStreams E ro file a b ss rs = .ok rs' → ∀ (id : Nat) (r : FlatRd), rs[id]? = some (some r) →
      ∃ r', rs'[id]? = some (some r') ∧ r'.tag = r.tag ∧ r'.hasNulls = r.hasNulls ∧
        r'.streams = r.streams ++ ((startsFrom b (ss.filter fun s => s.kind ≠ .rowIndex)).filter fun s => s.1.column = id).map fun s =>
          (s.1.kind, newStreamReader ro.kind ro.chunkSize s.2 s.1.length file) := by
  intro ss
  induction ss with
  | nil =>
    intro a b rs rs' h id r hr
    simp only [initStreams] at h
    injection h with h
    subst h
    exact ⟨r, hr, rfl, rfl, by simp [startsFrom]⟩
  | cons t ss ih =>
    intro a b rs rs' h id r hr
    simp only [initStreams] at h
    cases hx : rs[t.column]? with
    | none => simp [hx] at h
    | some x =>
      have hlt : t.column < rs.length := (List.getElem?_eq_some_iff.mp hx).1
      simp only [hx] at h
      cases x with
      | none =>
        have hne : t.column ≠ id := by
          rintro rfl
          rw [hx] at hr
          simp at hr
        simp only at h
        split at h
        · rename_i hk
          obtain ⟨r', g1, g2, g3, g4⟩ := ih _ _ _ _ h id r hr
          exact ⟨r', g1, g2, g3, by rw [g4]; simp [hk]⟩
        · rename_i hk
          obtain ⟨r', g1, g2, g3, g4⟩ := ih _ _ _ _ h id r hr
          exact ⟨r', g1, g2, g3, by rw [g4]; simp [hk, startsFrom, hne]⟩
      | some q =>
        simp only at h
        split at h
        · rename_i hk
          obtain ⟨q2, h1, h2⟩ := Res.bind_ok_inv h
          obtain ⟨e1, e2, e3⟩ : q2.tag = q.tag ∧ q2.hasNulls = q.hasNulls ∧ q2.streams = q.streams := by
            simp only [initIndex] at h1
            obtain ⟨_, -, h1⟩ := Res.bind_ok_inv h1
            obtain ⟨_, -, h1⟩ := Res.bind_ok_inv h1
            obtain ⟨_, -, h1⟩ := Res.bind_ok_inv h1
            injection h1 with h1
            subst h1
            exact ⟨rfl, rfl, rfl⟩
          by_cases he : t.column = id
          · subst he
            rw [hx] at hr
            simp only [Option.some.injEq] at hr
            subst hr
            obtain ⟨r', g1, g2, g3, g4⟩ := ih _ _ _ _ h2 t.column q2 (by rw [List.getElem?_set, if_pos rfl, if_pos hlt])
            exact ⟨r', g1, g2.trans e1, g3.trans e2, by rw [g4, e3]; simp [hk]⟩
          · obtain ⟨r', g1, g2, g3, g4⟩ := ih _ _ _ _ h2 id r (by rw [List.getElem?_set, if_neg he]; exact hr)
            exact ⟨r', g1, g2, g3, by rw [g4]; simp [hk]⟩
        · rename_i hk
          obtain ⟨q2, h1, h2⟩ := Res.bind_ok_inv h
          simp only [initStream] at h1
          split at h1
          · injection h1 with h1
            by_cases he : t.column = id
            · subst he
              rw [hx] at hr
              simp only [Option.some.injEq] at hr
              subst hr
              obtain ⟨r', g1, g2, g3, g4⟩ := ih _ _ _ _ h2 t.column q2 (by rw [List.getElem?_set, if_pos rfl, if_pos hlt])
              refine ⟨r', g1, by rw [g2, ← h1], by rw [g3, ← h1], ?_⟩
              rw [g4, ← h1]
              simp [hk, startsFrom]
            · obtain ⟨r', g1, g2, g3, g4⟩ := ih _ _ _ _ h2 id r (by rw [List.getElem?_set, if_neg he]; exact hr)
              exact ⟨r', g1, g2, g3, by rw [g4]; simp [hk, startsFrom, he]⟩
          · simp at h1

/-- **C84** (exact) The streams of a stripe that is opened are looked for one after the other from the end of the index area
on, and every stream that is not a row index takes part in that, also one that is in the index area: the streams of the
data area are looked for as many bytes too far as the index area has Bloom filters. -/
theorem streams_looked_for {E : Env} {ro : ROpts} {file : Bytes} {rs rs' : List (Option FlatRd)}
    {info : StripeInfo} (index data : List StreamInfo) (hd : ∀ s ∈ data, s.kind ≠ .rowIndex)
    (h : initStreams E ro file info.offset (info.offset + info.indexLength) (index ++ data) rs = .ok rs') (id : Nat) (r : FlatRd)
    (hr : rs[id]? = some (some r)) (hs : r.streams = []) (hi : ∀ s ∈ index, s.column = id → s.kind = .rowIndex) :
    ∃ r', rs'[id]? = some (some r') ∧ r'.tag = r.tag ∧ r'.hasNulls = r.hasNulls ∧
      r'.streams = ((startsFrom (info.offset + info.indexLength + filterBytes index) data).filter fun s => s.1.column = id).map fun s =>
        (s.1.kind, newStreamReader ro.kind ro.chunkSize s.2 s.1.length file) := by
  obtain ⟨r', g1, g2, g3, g4⟩ := initStreams_places _ _ _ _ _ h id r hr
  refine ⟨r', g1, g2, g3, ?_⟩
  have e : data.filter (fun s => decide (s.kind ≠ .rowIndex)) = data := by
    rw [List.filter_eq_self]
    intro s hs
    simpa using hd s hs
  rw [g4, hs, List.filter_append, e, startsFrom_append, List.filter_append]
  have : (startsFrom (info.offset + info.indexLength) (index.filter fun s => decide (s.kind ≠ .rowIndex))).filter (fun s => decide (s.1.column = id)) = [] := by
    rw [List.filter_eq_nil_iff]
    intro s hs hc
    have := startsFrom_mem hs
    rw [List.mem_filter] at this
    have hne : ¬ s.1.kind = .rowIndex := by simpa using this.2
    exact hne (hi s.1 this.1 (by simpa using hc))
  rw [this]
  rfl

theorem startsFrom_inj {a b : Nat} {ss : List StreamInfo} {id : Nat} (hs : ∃ s ∈ ss, s.column = id) {kind : CompKind} {size : Nat} {file : Bytes}
    (h : ((startsFrom a ss).filter fun s => s.1.column = id).map (fun s => (s.1.kind, newStreamReader kind size s.2 s.1.length file)) =
      ((startsFrom b ss).filter fun s => s.1.column = id).map (fun s => (s.1.kind, newStreamReader kind size s.2 s.1.length file))) : a = b := by
  induction ss generalizing a b with
  | nil => simp at hs
  | cons s ss ih =>
    by_cases hc : s.column = id
    · simp only [startsFrom, List.filter_cons, hc, decide_true, if_true, List.map_cons, List.cons.injEq, Prod.mk.injEq] at h
      have := h.1.2
      simp only [newStreamReader, StreamReader.mk.injEq] at this
      omega
    · obtain ⟨t, ht, htc⟩ := hs
      rcases List.mem_cons.mp ht with rfl | ht
      · exact absurd htc hc
      · simp only [startsFrom, List.filter_cons, hc, decide_false, Bool.false_eq_true, if_false] at h
        have := ih ⟨t, ht, htc⟩ h
        omega

/-- **C84** (exact) A column with streams of its own has them looked for at their places (the data area begins where the index
area ends) exactly if the index area has row indexes only. -/
theorem streams_at_their_places_exact {E : Env} {ro : ROpts} {file : Bytes} {rs rs' : List (Option FlatRd)}
    {info : StripeInfo} (index data : List StreamInfo) (hd : ∀ s ∈ data, s.kind ≠ .rowIndex)
    (h : initStreams E ro file info.offset (info.offset + info.indexLength) (index ++ data) rs = .ok rs') (id : Nat) (r : FlatRd)
    (hr : rs[id]? = some (some r)) (hs : r.streams = []) (hi : ∀ s ∈ index, s.column = id → s.kind = .rowIndex)
    (hown : ∃ s ∈ data, s.column = id) :
    (∃ r', rs'[id]? = some (some r') ∧
      r'.streams = ((startsFrom (info.offset + info.indexLength) data).filter fun s => s.1.column = id).map fun s =>
        (s.1.kind, newStreamReader ro.kind ro.chunkSize s.2 s.1.length file)) ↔ filterBytes index = 0 := by
  obtain ⟨r', g1, -, -, g4⟩ := streams_looked_for index data hd h id r hr hs hi
  constructor
  · rintro ⟨q, k1, k2⟩
    rw [g1] at k1
    simp only [Option.some.injEq] at k1
    subst k1
    rw [k2] at g4
    have := startsFrom_inj hown g4
    omega
  · intro h0
    exact ⟨r', g1, by rw [g4, h0, Nat.add_zero]⟩

/-- Two columns, of which the first is read; the second has a Bloom filter of five bytes. The data of the first is looked for
at byte 15 instead of byte 10. -/
example (E : Env) (file : Bytes) : ∃ r',
    initStreams E ⟨.zlib, 100, 10⟩ file 3 10 ([⟨.other, 1, 5⟩] ++ [⟨.data, 0, 8⟩, ⟨.data, 1, 7⟩]) [some ⟨.leaf (.int .big), false, [], none⟩, none] =
      .ok [some r', none] ∧ r'.streams = [(.data, newStreamReader .zlib 100 15 8 file)] := ⟨_, rfl, rfl⟩

end Goorc
