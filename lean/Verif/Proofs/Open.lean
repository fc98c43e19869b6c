import Verif.Proofs.Trace
import Verif.Props.StripeStreams
import Verif.Props.FileTail
import Verif.Proofs.Rows
/- Opening the stripes of a file: lemmas for Props/RoundTrip.lean. -/
namespace Goorc

/-! ### The types of the reader -/

/-- The types a reader found are those of the schema `s`. -/
def TypesOf (s : Schema) (types : List RdType) : Prop :=
  types.length = s.columns.length ∧ ∀ c ∈ s.columns, ∃ names, types[c.node.id]? = some ⟨⟨c.node.id, c.node.kind, names, c.children.map fun d => d.node.id⟩, c.node.hasNulls⟩

theorem node_mk (n : SchemaNode) (cs : List Schema) : (Schema.mk n cs).node = n := rfl

theorem represents_child {heap : List HeapType} {i : Nat} {s : Schema} (h : Represents heap i s) : i = s.node.id := by
  cases h; rfl

theorem represents_columns {heap : List HeapType} (s : Schema) : ∀ i, Represents heap i s →
    ∀ c ∈ s.columns, ∃ names, heap[c.node.id]? = some ⟨c.node.id, c.node.kind, names, c.children.map fun d => d.node.id⟩ := by
  induction s using Schema.ind with
  | h n cs ih =>
    intro i h c hc
    cases h with
    | mk _ _ is here below =>
    have his : ∀ {is : List Nat} {cs : List Schema}, List.Forall₂ (Represents heap) is cs → is = cs.map fun d => d.node.id := by
      intro is cs h
      induction h with
      | nil => rfl
      | cons h _ ih => rw [List.map_cons, ← ih, represents_child h]
    simp only [Schema.columns, columnsAll_eq, List.mem_cons, List.mem_flatMap] at hc
    rcases hc with rfl | ⟨d, hd, hc⟩
    · refine ⟨n.readNames cs.length, ?_⟩
      have e := his below
      subst e
      exact here
    · obtain ⟨j, hj⟩ : ∃ j, Represents heap j d := by
        obtain ⟨k, hk, rfl⟩ := List.mem_iff_getElem.1 hd
        rw [List.forall₂_iff_get] at below
        exact ⟨_, below.2 k (by rw [below.1]; exact hk) hk⟩
      exact ih d hd j hj c hc

theorem setHasNulls_spec : ∀ (ts : List HeapType) (ss : List AnyStats), ss.length ≤ ts.length → ∃ rs, setHasNulls ts ss = .ok rs ∧ rs.length = ts.length ∧
    ∀ (i : Nat) t, ts[i]? = some t → rs[i]? = some ⟨t, ((ss.map (·.hasNull))[i]?).getD false⟩ := by
  intro ts
  induction ts with
  | nil => intro ss h; cases ss with | nil => exact ⟨[], rfl, rfl, by simp⟩ | cons _ _ => simp at h
  | cons t ts ih =>
    intro ss h
    cases ss with
    | nil =>
      refine ⟨_, rfl, by simp, fun i u hu => ?_⟩
      rw [List.getElem?_map, hu]; simp
    | cons s ss =>
      obtain ⟨rs, h1, h2, h3⟩ := ih ss (by simpa using h)
      refine ⟨⟨t, s.hasNull⟩ :: rs, by simp [setHasNulls, h1], by simp [h2], fun i u hu => ?_⟩
      cases i with
      | zero => simp at hu; subst hu; simp
      | succ i => simp at hu; simpa using h3 i u hu

theorem types_found {s : Schema} (num : s.Numbered) (named : s.Named) {stats : List AnyStats} (hn : stats.map (·.hasNull) = s.columns.map (·.node.hasNulls)) :
    ∃ heap types, unmarshallSchema (schemasToTypes s.columns) = .ok heap ∧ setHasNulls heap stats = .ok types ∧ TypesOf s types := by
  obtain ⟨heap, h1, h2, h3⟩ := schema_round_trip s num named
  have hlen : stats.length = s.columns.length := by simpa using congrArg List.length hn
  obtain ⟨rs, g1, g2, g3⟩ := setHasNulls_spec heap stats (by omega)
  refine ⟨heap, rs, h1, g1, by omega, fun c hc => ?_⟩
  obtain ⟨names, hnm⟩ := represents_columns s 0 h3 c hc
  refine ⟨names, ?_⟩
  rw [g3 _ _ hnm, hn]
  obtain ⟨i, hi, rfl⟩ := List.mem_iff_getElem.1 hc
  rw [numbered_at num i hi]
  simp [hi]

theorem TypesOf.hasNulls {s : Schema} {types : List RdType} (h : TypesOf s types) : ∀ c ∈ s.columns, (types.map (·.hasNulls))[c.node.id]? = some c.node.hasNulls := by
  intro c hc
  obtain ⟨names, hn⟩ := h.2 c hc
  rw [List.getElem?_map, hn]; rfl

theorem TypesOf.at {s : Schema} (num : s.Numbered) {types : List RdType} (h : TypesOf s types) {i : Nat} {t : RdType} (ht : types[i]? = some t) :
    ∃ c ∈ s.columns, c.node.id = i ∧ ∃ names, t = ⟨⟨c.node.id, c.node.kind, names, c.children.map fun d => d.node.id⟩, c.node.hasNulls⟩ := by
  have hi : i < s.columns.length := by rw [← h.1]; exact (List.getElem?_eq_some_iff.1 ht).1
  refine ⟨s.columns[i], List.getElem_mem hi, numbered_at num i hi, ?_⟩
  obtain ⟨names, hn⟩ := h.2 s.columns[i] (List.getElem_mem hi)
  have := numbered_at num i hi
  rw [this, ht] at hn
  exact ⟨names, by rw [this]; simpa using hn⟩

/-! ### The readers of the columns -/

theorem initColumns_spec (bo : BatchOption) (encs : List Encoding) : ∀ (types : List RdType),
    (∀ t ∈ types, bo.isInclude t.id = true → ∃ enc tag, encs[t.id]? = some enc ∧ newReaderTag t.kind enc = .ok tag) →
    ∃ rs, initColumns bo encs types = .ok rs ∧ rs.length = types.length ∧ ∀ (i : Nat) t, types[i]? = some t →
      (bo.isInclude t.id = false → rs[i]? = some none) ∧
      (∀ enc tag, bo.isInclude t.id = true → encs[t.id]? = some enc → newReaderTag t.kind enc = .ok tag → rs[i]? = some (some ⟨tag, t.hasNulls, [], none⟩)) := by
  intro types
  induction types with
  | nil => intro _; exact ⟨[], rfl, rfl, by simp⟩
  | cons t ts ih =>
    intro h
    obtain ⟨rs, h1, h2, h3⟩ := ih fun t ht => h t (by simp [ht])
    by_cases hinc : bo.isInclude t.id = true
    · obtain ⟨enc, tag, g1, g2⟩ := h t (by simp) hinc
      refine ⟨some ⟨tag, t.hasNulls, [], none⟩ :: rs, ?_, by simp [h2], fun i u hu => ?_⟩
      · simp only [initColumns, hinc, if_true, g1, g2, h1, Res.ok_bind, Res.pure_eq]
      · cases i with
        | zero =>
          simp at hu; subst hu
          refine ⟨fun hf => by simp [hinc] at hf, fun enc' tag' _ e1 e2 => ?_⟩
          rw [g1] at e1; injection e1 with e1; subst e1
          rw [g2] at e2; injection e2 with e2; subst e2
          rfl
        | succ i => simp at hu; simpa using h3 i u hu
    · simp only [Bool.not_eq_true] at hinc
      refine ⟨none :: rs, ?_, by simp [h2], fun i u hu => ?_⟩
      · simp [initColumns, hinc, h1]
      · cases i with
        | zero => simp at hu; subst hu; exact ⟨fun _ => rfl, fun _ _ hf => by simp [hinc] at hf⟩
        | succ i => simp at hu; simpa using h3 i u hu

theorem linkChildren_struct (bo : BatchOption) (parent : Option FlatRd) (cs : List Nat) (h : ∀ c ∈ cs, bo.isInclude c = true → parent.isSome = true) :
    ∀ i, linkChildren bo .struct parent i cs = .ok () := by
  induction cs with
  | nil => intro i; rfl
  | cons c cs ih =>
    intro i
    simp only [linkChildren]
    by_cases hc : bo.isInclude c = true
    · have := h c (by simp) hc
      have hn : parent.isNone = false := by cases parent <;> simp_all
      simp only [hc, if_true, linkChild, hn, Bool.false_eq_true, if_false, Res.ok_bind]
      exact ih (fun c hc => h c (by simp [hc])) _
    · simp only [hc, if_false, Res.pure_eq, Res.ok_bind]
      exact ih (fun c hc => h c (by simp [hc])) _

theorem linkAll_spec (bo : BatchOption) : ∀ (types : List RdType) (rs : List (Option FlatRd)),
    (∀ (i : Nat) t r, types[i]? = some t → rs[i]? = some r → t.children = [] ∨ t.kind = .struct ∧ ∀ c ∈ t.children, bo.isInclude c = true → r.isSome = true) →
    linkAll bo types rs = .ok () := by
  intro types
  induction types with
  | nil => intro rs _; rfl
  | cons t ts ih =>
    intro rs h
    cases rs with
    | nil => rfl
    | cons r rs =>
      simp only [linkAll]
      have h0 := h 0 t r rfl rfl
      have : linkChildren bo t.kind r 0 t.children = .ok () := by
        rcases h0 with h0 | ⟨h0, h1⟩
        · rw [h0]; rfl
        · rw [h0]; exact linkChildren_struct bo r _ h1 0
      rw [this, Res.ok_bind]
      exact ih rs fun i t r h1 h2 => h (i + 1) t r (by simpa using h1) (by simpa using h2)

theorem openCol_index {ρ : Type} {R : ReadKind ρ} {kind : CompKind} {hasNulls : Bool} {ss : List (StreamKind × StreamReader)} {r : ColReader ρ}
    (h : R.openCol kind hasNulls ss = some r) : ({ r with index := none } : ColReader ρ) = r := by
  simp only [ReadKind.openCol] at h
  split at h
  · obtain ⟨d, -, rfl⟩ := Option.map_eq_some_iff.1 h
    rfl
  · simp at h

theorem treesOf_spec {α β : Type} {f : Nat → Res α} {g : β → Nat} {P : β → α → Prop} {l : List β} (h : ∀ b ∈ l, ∃ x, f (g b) = .ok x ∧ P b x) :
    ∃ xs, treesOf f (l.map g) = .ok xs ∧ List.Forall₂ P l xs := by
  induction l with
  | nil => exact ⟨[], rfl, .nil⟩
  | cons b l ih =>
    obtain ⟨xs, h1, h2⟩ := ih fun b hb => h b (by simp [hb])
    obtain ⟨x, h3, h4⟩ := h b (by simp)
    exact ⟨x :: xs, by simp [treesOf, h1, h3], .cons h4 h2⟩

theorem child_columns_length {n : SchemaNode} {cs : List Schema} {c : Schema} (h : c ∈ cs) : c.columns.length + 1 ≤ (Schema.mk n cs).columns.length := by
  simp only [Schema.columns, columnsAll_eq, List.length_cons]
  have : c.columns.length ≤ (cs.flatMap Schema.columns).length := by
    obtain ⟨a, b, rfl⟩ := List.append_of_mem h
    simp; omega
  omega

/-- The nulls of the columns are where they can be: see `NullsFit`. -/
structure ColsFit (s : Schema) (col : Nat → List (Option GoVal)) : Prop where
  root : s.node.kind ≠ .struct → s.node.hasNulls = false → NullsFrom col none s.node.id
  blank : ∀ c ∈ s.columns, c.node.kind = .struct → c.node.hasNulls = true → ∀ x ∈ col c.node.id, x = none ∨ x = some .nil
  below : ∀ c ∈ s.columns, ∀ d ∈ c.children, d.node.kind ≠ .struct → d.node.hasNulls = false →
    NullsFrom col (if c.node.hasNulls then some c.node.id else none) d.node.id

theorem NullsFit.cols {s : Schema} {rows : List Row} (h : NullsFit s rows) : ColsFit s (fun j => rows.map (Row.cell j)) where
  root hk hn := by
    simp only [NullsFrom, List.map_map]
    apply List.map_congr_left
    intro r hr
    have := h.root hk hn r hr
    simp only [Function.comp_apply]
    cases hx : r.cell s.node.id <;> simp_all
  blank c hc hk hn x hx := by
    obtain ⟨r, hr, rfl⟩ := List.mem_map.1 hx
    exact h.blank c hc hk hn r hr
  below c hc d hd hk hn := by
    have hb := h.below c hc d hd hk hn
    cases hcn : c.node.hasNulls with
    | false =>
      simp only [Bool.false_eq_true, if_false, NullsFrom, List.map_map]
      apply List.map_congr_left
      intro r hr
      have := hb r hr
      simp only [hcn, Bool.false_and] at this
      simp only [Function.comp_apply]
      cases hx : r.cell d.node.id <;> simp_all
    | true =>
      simp only [if_true, NullsFrom, List.map_map]
      apply List.map_congr_left
      intro r hr
      have := hb r hr
      simp only [hcn, Bool.true_and] at this
      simp only [Function.comp_apply]
      cases hx : r.cell d.node.id <;> cases hy : r.cell c.node.id <;> simp_all

/-- What is known of the readers of the columns when their streams have been opened. -/
def Opened (K : Keep) (c : Codec) (bo : BatchOption) (kind : CompKind) (col : Nat → List (Option GoVal)) (s : Schema) (rs : List (Option FlatRd)) : Prop :=
  ∀ d ∈ s.columns, bo.isInclude d.node.id = true →
    (d.node.kind = .struct ∧ ∃ ss ix, rs[d.node.id]? = some (some ⟨.struct, d.node.hasNulls, ss, ix⟩) ∧
      FlagsHave (K.flags d.node.id kind ix) c d.node.hasNulls (col d.node.id) (((⟨.struct, d.node.hasNulls, ss, ix⟩ : FlatRd).stream .present).map newBoolReader)) ∨
    (∃ (t : LeafTag) (ss : List (StreamKind × StreamReader)) (ix : Option (List (List Nat))) (r : ColReader t.ρ), d.node.kind ≠ .struct ∧
      rs[d.node.id]? = some (some ⟨.leaf t, d.node.hasNulls, ss, ix⟩) ∧ t.Replaces ∧
      t.read.openCol kind d.node.hasNulls ss = some r ∧ (∃ F E, K.leaf d.node.id t r.hasNulls r.kind ix F E ∧ t.read.Holds c F E r (if d.node.hasNulls then col d.node.id else (col d.node.id).filter (·.isSome))) ∧ (r.present = none ↔ d.node.hasNulls = false)) ∨
    ∃ (t : LeafTag) (ss : List (StreamKind × StreamReader)) (ix : Option (List (List Nat))) (p : StreamReader) (q : BoolReader), d.node.kind ≠ .struct ∧
      rs[d.node.id]? = some (some ⟨.leaf t, d.node.hasNulls, ss, ix⟩) ∧ t.read.openCol kind d.node.hasNulls ss = none ∧ K.bare ∧ d.node.hasNulls = true ∧
      (⟨.leaf t, d.node.hasNulls, ss, ix⟩ : FlatRd).stream .present = some p ∧ Yields (BoolReader.next c) (newBoolReader p) ((col d.node.id).map (·.isSome)) q ∧
      ∀ x ∈ col d.node.id, x = none

theorem leaf_not_nested {n : SchemaNode} (h : n.Plain) (hk : n.kind ≠ .struct) : n.kind.nested = false := by
  rcases h with ⟨h, -⟩ | ⟨t, h1, h2, -⟩
  · exact absurd h hk
  · revert h1 hk
    cases n.kind <;> cases n.encoding <;> simp [newWriterTag, TypeKind.nested]

theorem Schema.Tabular.columnar {s : Schema} (h : s.Tabular) : s.Columnar where
  kinds c hc := by
    by_cases hk : c.node.kind = .struct
    · exact .inl hk
    · exact .inr ⟨leaf_not_nested (h.plain c hc) hk, (h.leaf c hc).resolve_left hk⟩
  structs := h.structs
  supported := h.supported

theorem treeOf_spec {K : Keep} {c : Codec} {bo : BatchOption} {ro : ROpts} {types : List RdType} {rs : List (Option FlatRd)} {col : Nat → List (Option GoVal)} {s : Schema}
    (ht : TypesOf s types) (htab : s.Columnar) (hfit : ColsFit s col) (hop : Opened K c bo ro.kind col s rs) (d : Schema) :
    ∀ n par, d ∈ s.columns → bo.isInclude d.node.id = true → d.columns.length ≤ n → (d.node.kind = .struct → d.node.hasNulls = false → par = none) →
      (d.node.kind ≠ .struct → d.node.hasNulls = false → NullsFrom col par d.node.id) →
      ∃ x, treeOf bo ro types rs n d.node.id = .ok x ∧ RdHas K c bo col n par d x := by
  induction d using Schema.ind with
  | h nd cs ih =>
    intro n par hd hinc hn hpar hfrom
    match n, hn with
    | 0, hn => simp [Schema.columns] at hn
    | n + 1, hn =>
      obtain ⟨names, hty⟩ := ht.2 _ hd
      rcases hop _ hd hinc with ⟨hk, ss, ix, hrs, hfl⟩ | ⟨t, ss, ix, r, hk, hrs, hf, ho, hh, hp⟩ | ⟨t, ss, ix, p, q, hk, hrs, ho, hb, hnn, hst, hy, hnone⟩
      · obtain ⟨xs, h1, h2⟩ := treesOf_spec (f := treeOf bo ro types rs n) (g := fun d : Schema => d.node.id)
          (P := RdHas K c bo col n (if nd.hasNulls then some nd.id else none))
          (l := cs.filter fun c => bo.isInclude c.node.id) (by
            intro d hd'
            obtain ⟨hd1, hd2⟩ := List.mem_filter.1 hd'
            refine ih d hd1 n _ (columns_child hd hd1) hd2 (by have := child_columns_length (n := nd) hd1; omega) ?_ ?_
            · intro hks hdn
              cases hnn : nd.hasNulls with
              | false => simp
              | true =>
                have := htab.structs _ hd hnn d hd1 hks
                rw [hdn] at this
                simp at this
            · exact fun hks hdn => hfit.below _ hd d hd1 hks hdn)
        refine ⟨(RdNode.struct ro.kind _ ix xs : RdNode (Rd n)), ?_, hk, hpar hk, hfl, h2⟩
        simp only [treeOf, hty, hrs, Schema.children]
        have hfm : (cs.map fun d => d.node.id).filter bo.isInclude = (cs.filter fun c => bo.isInclude c.node.id).map fun d => d.node.id := by
          rw [List.filter_map]; rfl
        rw [hfm, h1]
        rfl
      · obtain ⟨hnest, hcs⟩ := (htab.kinds _ hd).resolve_left hk
        refine ⟨(RdNode.leaf t { r with index := ix } : RdNode (Rd n)), ?_, hnest, hcs, hf, hp, hfrom hk, hh⟩
        simp only [treeOf, hty, hrs, openLeaf, ho]
        rfl
      · obtain ⟨hnest, hcs⟩ := (htab.kinds _ hd).resolve_left hk
        refine ⟨(RdNode.bare (some t) ⟨nd.hasNulls, ro.kind, some (newBoolReader p), (), ix⟩ : RdNode (Rd n)), ?_, hnest, hcs, rfl, hnn, by simp, hb, ?_⟩
        · simp only [treeOf, hty, hrs, openLeaf, ho]
          simp only [FlatRd.stream] at hst ⊢
          rw [hst]
          rfl
        · simp only [ReadKind.Holds, ReadKind.Has]
          have : (col nd.id).filterMap id = [] := by
            rw [List.filterMap_eq_nil_iff]
            exact hnone
          rw [this]
          exact ⟨q, (), hy, trivial, rfl, trivial⟩

/-! ### Opening a stripe -/

theorem footer_found {E : Env} (hc : E.c.Lossless) {o : FOpts} (hz : o.kind = .zlib) (h1 : 1 ≤ o.chunkSize) (h2 : o.chunkSize < 2 ^ 23)
    {columns : List Schema} {file : Bytes} {parts : List StripeParts} {ft : FileFooter}
    {ps : PostScript} (hl : FileLayout E o columns file parts ft ps) (hr : E.P.Reads parts ft ps) {k : Nat} {i : StripeInfo} (hk : ft.stripes[k]? = some i)
    {p : StripeParts} (hp : parts[k]? = some p) (ro : ROpts) (hro : ro.kind = o.kind) :
    readStripeFooter E ro file i = .ok p.footer ∧ i.numberOfRows = p.rows := by
  obtain ⟨tail, hb, -⟩ := hl.bytes
  rw [hl.stripes] at hk
  obtain ⟨q, g1, g2, g3, g4, g5, g6, -, post', g8⟩ := stripeTable_get [0x4f#8, 0x52#8, 0x43#8] parts tail k i hk
  rw [hp] at g1; injection g1 with g1; subst g1
  have hs := hl.sound p (List.mem_of_getElem? hp)
  have hoff := stripeTable_offset 3 parts k i hk
  rw [← hb] at g8
  refine ⟨?_, g6⟩
  have hlen : file.length = 3 + (parts.flatMap (·.bytes)).length + tail.length := by rw [hb]; simp; omega
  have hread : readAt file ((i.offset + i.indexLength + i.dataLength : Nat) : Int) i.footerLength = .ok p.footerBytes := by
    simp only [readAt, Int.toNat_natCast]
    rw [if_neg (by omega), if_pos (by omega)]
    congr 1
    rw [Nat.add_assoc, ← List.drop_drop, g8, g3, g4, g5]
    simp [StripeParts.bytes, List.append_assoc, ← List.drop_drop]
  simp only [readStripeFooter, hread, Res.ok_bind, hro, hz]
  obtain ⟨dst, e1, e2⟩ := chunks_roundtrip E.c hc o.chunkSize h1 h2 (E.P.stripeFooter p.footer)
  have hf := hs.footer
  rw [hz, e1] at hf
  injection hf with hf; subst hf
  simp only [ne_eq, reduceCtorEq, not_false_eq_true, if_true, e2, Res.ok_bind, unmarshal, hr.stripes p (List.mem_of_getElem? hp)]

theorem found_placed {o : FOpts} {ro : ROpts} (hro : ro.kind = o.kind) (hrc : ro.chunkSize = o.chunkSize) {file : Bytes} {bs : List (StreamInfo × Bytes)}
    {ss : List (StreamKind × StreamReader)} (h : List.Forall₂ (FoundAt ro.kind ro.chunkSize file) bs ss) :
    List.Forall₂ (Placed o.toWOpts) (bs.map fun s => (s.1.kind, s.2)) ss := by
  induction h with
  | nil => exact .nil
  | cons h _ ih =>
    obtain ⟨e1, a, b, e2, e3⟩ := h
    refine .cons ⟨e1, a, b, ?_⟩ ih
    rw [e3, e2, streamAt, hro, hrc]

/-- A stripe whose streams have been opened can be read. -/
theorem stripe_of_opened {K : Keep} {E : Env} {s : Schema} {file : Bytes} (num : s.Numbered) (htab : s.Columnar)
    {bo : BatchOption} (hsel : bo.Selects s) {types : List RdType} (ht : TypesOf s types) {ro : ROpts} {i : StripeInfo} {footer : StripeFooter}
    (hfoot : readStripeFooter E ro file i = .ok footer) {rs rs' : List (Option FlatRd)} (e1 : initColumns bo footer.columns types = .ok rs)
    (f1 : initStreams E ro file i.offset (i.offset + i.indexLength) footer.streams rs = .ok rs') {col : Nat → List (Option GoVal)}
    (hop : Opened K E.c bo ro.kind col s rs') (hfit : ColsFit s col) :
    ∃ x, newStripeReader E ro bo file types i = .ok ⟨types.map (·.hasNulls), some x, i.numberOfRows, 0⟩ ∧ RdHas K E.c bo col types.length none s x := by
  have hlink : linkAll bo types rs' = .ok () := by
    refine linkAll_spec bo types rs' fun j t r hj hr' => ?_
    obtain ⟨c, hc, rfl, names, rfl⟩ := ht.at num hj
    rcases htab.kinds c hc with hks | ⟨-, hkl⟩
    · right
      refine ⟨hks, fun d hd hinc => ?_⟩
      obtain ⟨d', hd', rfl⟩ := List.mem_map.1 hd
      have hci := (hsel.2 c hc hks).2 ⟨d', hd', hinc⟩
      rcases hop c hc hci with ⟨-, ss, ix, h, -⟩ | ⟨t, ss, ix, r', -, h, -⟩ | ⟨t, ss, ix, p, q, -, h, -⟩
      · rw [h] at hr'; simp at hr'; subst hr'; rfl
      · rw [h] at hr'; simp at hr'; subst hr'; rfl
      · rw [h] at hr'; simp at hr'; subst hr'; rfl
    · left; simp [hkl]
  have hroot : s.node.id = 0 := by
    have h0 : 0 < s.columns.length := by cases s; simp [Schema.columns]
    have := numbered_at num 0 h0
    cases s
    simpa [Schema.columns] using this
  have hfirst : (types.find? fun t => bo.isInclude t.id).map (·.id) = some s.node.id := by
    obtain ⟨names, hn⟩ := ht.2 s (self_mem_columns s)
    rw [hroot] at hn
    cases types with
    | nil => simp at hn
    | cons t ts =>
      simp only [List.getElem?_cons_zero, Option.some.injEq] at hn
      have : bo.isInclude t.id = true := by rw [hn, ← hroot]; exact hsel.1
      rw [List.find?_cons_of_pos (by simpa using this)]
      simp [hn, hroot]
  obtain ⟨x, hx, hx'⟩ := treeOf_spec ht htab hfit hop s types.length none (self_mem_columns s) hsel.1 (by rw [ht.1]; exact Nat.le_refl _)
    (fun _ _ => rfl) hfit.root
  refine ⟨x, ?_, hx'⟩
  simp only [newStripeReader, hfoot, Res.ok_bind, initStripe, e1, f1, hlink, hfirst, treeOn, hx, Res.pure_eq]

theorem stripe_opens {E : Env} (hc : E.c.Lossless) {o : FOpts} (hz : o.kind = .zlib) (h1 : 1 ≤ o.chunkSize) (h2 : o.chunkSize < 2 ^ 23)
    {s : Schema} {file : Bytes} {parts : List StripeParts} {ft : FileFooter}
    {ps : PostScript} (hl : FileLayout E o s.columns file parts ft ps) (hr : E.P.Reads parts ft ps) (num : s.Numbered) (htab : s.Tabular)
    {bo : BatchOption} (hsel : bo.Selects s) {types : List RdType} (ht : TypesOf s types) {ro : ROpts} (hro : ro.kind = o.kind) (hrc : ro.chunkSize = o.chunkSize)
    {k : Nat} {i : StripeInfo} (hk : ft.stripes[k]? = some i) {p : StripeParts} (hp : parts[k]? = some p) {col : Nat → List (Option GoVal)}
    (hcol : p.Holds E.c o.toWOpts (s.columns.map (·.node)) col) (hfit : ColsFit s col) :
    ∃ x, newStripeReader E ro bo file types i = .ok ⟨types.map (·.hasNulls), some x, p.rows, 0⟩ ∧ RdHas .any E.c bo col types.length none s x := by
  obtain ⟨hfoot, hrows⟩ := footer_found hc hz h1 h2 hl hr hk hp ro hro
  have hs := hl.sound p (List.mem_of_getElem? hp)
  have htag : ∀ c ∈ s.columns, ∃ tag, newReaderTag c.node.kind c.node.encoding = .ok tag ∧ (c.node.kind = .struct ∧ tag = .struct ∨ c.node.kind ≠ .struct ∧ ∃ t, tag = .leaf t) := by
    intro c hc
    rcases htab.plain c hc with ⟨e1, e2⟩ | ⟨t, -, e2, -⟩
    · exact ⟨.struct, by rw [e1, e2]; rfl, .inl ⟨e1, rfl⟩⟩
    · refine ⟨_, e2, .inr ⟨fun hk => ?_, t, rfl⟩⟩
      rw [hk] at e2
      cases he : c.node.encoding <;> simp [he, newReaderTag] at e2
  have henc : ∀ c ∈ s.columns, p.footer.columns[c.node.id]? = some c.node.encoding := by
    intro c hc
    obtain ⟨j, hj, rfl⟩ := List.mem_iff_getElem.1 hc
    rw [hs.encodings, numbered_at num j hj]
    simp [hj]
  obtain ⟨rs, e1, e2, e3⟩ := initColumns_spec bo p.footer.columns types (by
    intro t ht' hinc
    obtain ⟨j, hj, rfl⟩ := List.mem_iff_getElem.1 ht'
    obtain ⟨c, hc, e, names, he⟩ := ht.at num (List.getElem?_eq_getElem hj)
    rw [he]
    obtain ⟨tag, htg, -⟩ := htag c hc
    exact ⟨_, tag, henc c hc, htg⟩)
  have hcolrd : ∀ c ∈ s.columns, (bo.isInclude c.node.id = false → rs[c.node.id]? = some none) ∧
      ∀ tag, newReaderTag c.node.kind c.node.encoding = .ok tag → bo.isInclude c.node.id = true → rs[c.node.id]? = some (some ⟨tag, c.node.hasNulls, [], none⟩) := by
    intro c hc
    obtain ⟨names, hn⟩ := ht.2 c hc
    obtain ⟨a, b⟩ := e3 _ _ hn
    exact ⟨a, fun tag htg hinc => b _ tag hinc (henc c hc) htg⟩
  have hlt : ∀ c ∈ s.columns, c.node.id < types.length := by
    intro c hc
    obtain ⟨names, hn⟩ := ht.2 c hc
    exact (List.getElem?_eq_some_iff.1 hn).1
  obtain ⟨q, hq, hopen⟩ := streams_found hl k i hk ro rs (fun c hc => by rw [e2]; exact hlt c hc) (by
    intro id r hr'
    obtain ⟨t, ht'⟩ : ∃ t, types[id]? = some t := ⟨_, List.getElem?_eq_getElem (by rw [← e2]; exact (List.getElem?_eq_some_iff.1 hr').1)⟩
    obtain ⟨c, hc, rfl, -⟩ := ht.at num ht'
    obtain ⟨a, b⟩ := hcolrd c hc
    obtain ⟨tag, htg, -⟩ := htag c hc
    cases hinc : bo.isInclude c.node.id with
    | false => rw [a hinc] at hr'; simp at hr'
    | true => rw [b tag htg hinc] at hr'; simp at hr'; rw [← hr'])
  rw [hp] at hq; injection hq with hq; subst hq
  obtain ⟨rs', f1, f2, f3, f4⟩ := hopen (by
    intro st hst r hr'
    obtain ⟨n, hn, hcn⟩ := hs.existing st hst
    obtain ⟨c, hc, rfl⟩ := List.mem_map.1 hn
    rw [hcn] at hr'
    obtain ⟨a, b⟩ := hcolrd c hc
    obtain ⟨tag, htg, -⟩ := htag c hc
    cases hinc : bo.isInclude c.node.id with
    | false => rw [a hinc] at hr'; simp at hr'
    | true =>
      rw [b tag htg hinc] at hr'
      simp at hr'
      subst hr'
      have hmem : (st.1.kind, st.2) ∈ (p.streams.filter fun s => s.1.column = c.node.id).map fun s => (s.1.kind, s.2) :=
        List.mem_map.2 ⟨st, List.mem_filter.2 ⟨hst, by simpa using hcn⟩, rfl⟩
      rcases hcol _ hn with ⟨hk', he', h⟩ | ⟨t, h, -, h', -⟩
      · cases hnn : c.node.hasNulls with
        | false =>
          simp only [hnn, Bool.false_eq_true, if_false] at h
          rw [h] at hmem; simp at hmem
        | true =>
          simp only [hnn, if_true] at h
          obtain ⟨body, h, -⟩ := h
          rw [h] at hmem
          simp only [List.mem_cons, Prod.mk.injEq, List.not_mem_nil, or_false] at hmem
          rw [hk', he'] at htg
          have : tag = .struct := by simpa [newReaderTag] using htg.symm
          subst this
          simp [ReaderTag.accepts, hmem.1]
      · rw [htg] at h; injection h with h; subst h
        exact h' _ hmem)
  have hop : Opened .any E.c bo ro.kind col s rs' := by
    intro d hd hinc
    obtain ⟨a, b⟩ := hcolrd d hd
    obtain ⟨tag, htg, hcase⟩ := htag d hd
    obtain ⟨ss, k1, k2⟩ := f4 _ _ (b tag htg hinc)
    have k3 := found_placed hro hrc k2
    rcases hcase with ⟨hk', rfl⟩ | ⟨hk', t, rfl⟩
    · left
      refine ⟨hk', ss, none, k1, ?_⟩
      rcases hcol _ (List.mem_map_of_mem hd) with ⟨-, -, h⟩ | ⟨t, h, -⟩
      · cases hnn : d.node.hasNulls with
        | false =>
          simp only [hnn, Bool.false_eq_true, if_false] at h
          rw [h] at k3
          cases k3
          rfl
        | true =>
          simp only [hnn, if_true] at h
          obtain ⟨body, h, hfl⟩ := h
          rw [h] at k3
          cases k3 with
          | cons hx hxs =>
            cases hxs
            rename_i x
            obtain ⟨x1, x2⟩ := x
            obtain ⟨e1, a, b', e2⟩ := hx
            simp only at e1 e2
            subst e1; subst e2
            obtain ⟨q', hq'⟩ := hfl a b'
            exact ⟨rfl, hfit.blank d hd hk' hnn, fun _ => True, q', trivial, hq', trivial⟩
      · rw [htg] at h; simp at h
    · right
      rcases hcol _ (List.mem_map_of_mem hd) with ⟨h, -⟩ | ⟨t', h, g1, -, g3⟩
      · exact absurd h hk'
      · rw [htg] at h
        simp only [Res.ok.injEq, ReaderTag.leaf.injEq] at h
        subst h
        obtain ⟨r, F, E', m1, m2, m3⟩ := g3 ss k3
        exact .inl ⟨t, ss, none, r, hk', k1, g1.replaces, by rw [hro]; exact m1, ⟨F, E', trivial, m2⟩, m3⟩
  have := stripe_of_opened num htab.columnar hsel ht hfoot e1 f1 hop hfit
  rwa [hrows] at this

/-! ### Opening all stripes -/

theorem initStripes_spec {E : Env} {ro : ROpts} {bo : BatchOption} {file : Bytes} {types : List RdType} {β : Type} {P : StripeReader (Rd types.length) → β → Prop}
    {is : List StripeInfo} {bs : List β} (h : List.Forall₂ (fun i b => i.numberOfRows ≠ 0 ∧ ∃ r, newStripeReader E ro bo file types i = .ok r ∧ P r b) is bs) :
    ∃ rs, initStripes E ro bo file types is = .ok rs ∧ List.Forall₂ P rs bs := by
  induction h with
  | nil => exact ⟨[], rfl, .nil⟩
  | cons h _ ih =>
    obtain ⟨rs, h1, h2⟩ := ih
    obtain ⟨h3, r, h4, h5⟩ := h
    exact ⟨r :: rs, by simp [initStripes, h3, h4, h1], .cons h5 h2⟩

theorem RdHas.congr {K : Keep} {c : Codec} {bo : BatchOption} {col col' : Nat → List (Option GoVal)} (s : Schema) : ∀ n par (x : Rd n), bo.isInclude s.node.id = true →
    (∀ j ∈ s.leaves bo, col j = col' j) → (∀ p, par = some p → col p = col' p) → RdHas K c bo col n par s x → RdHas K c bo col' n par s x := by
  induction s using Schema.ind with
  | h nd cs ih =>
    intro n par x hinc hcol hpc hx
    match n, x with
    | 0, _ => exact hx.elim
    | n + 1, x =>
      change RdNode (Rd n) at x
      simp only [Schema.node] at hinc
      have hle : ∀ (cs : List Schema) (d : Schema), d ∈ cs → ∀ j ∈ d.leaves bo, j ∈ leavesAll bo cs := by
        intro cs
        induction cs with
        | nil => intro d hd; simp at hd
        | cons c cs ih =>
          intro d hd j hj
          simp only [leavesAll, List.mem_append]
          rcases List.mem_cons.1 hd with rfl | hd
          · exact .inl hj
          · exact .inr (ih d hd j hj)
      cases x with
      | leaf t r =>
        obtain ⟨h1, h2, h3, h4, h5, F, E, hK, h6⟩ := hx
        have hid : col nd.id = col' nd.id := hcol nd.id (by
          have : nd.kind ≠ .struct := by intro hk; rw [hk] at h1; simp [TypeKind.nested] at h1
          simp [Schema.leaves, hinc, SchemaNode.leaf_hasVector this])
        refine ⟨h1, h2, h3, h4, fun hn => ?_, F, E, hK, by rw [← hid]; exact h6⟩
        have := h5 hn
        cases par with
        | none => simpa only [NullsFrom, hid] using this
        | some p => simpa only [NullsFrom, hid, hpc p rfl] using this
      | bare t r =>
        obtain ⟨h1, h2, h3, h4, h5, h6, h7⟩ := hx
        have hid : col nd.id = col' nd.id := hcol nd.id (by
          have : nd.kind ≠ .struct := by intro hk; rw [hk] at h1; simp [TypeKind.nested] at h1
          simp [Schema.leaves, hinc, SchemaNode.leaf_hasVector this])
        exact ⟨h1, h2, h3, h4, h5, h6, by rw [← hid]; exact h7⟩
      | struct _ p _ rs =>
        obtain ⟨h1, h2, h3, h4⟩ := hx
        have hid : nd.hasNulls = true → col nd.id = col' nd.id := fun hn => hcol nd.id (by simp [Schema.leaves, hinc, SchemaNode.hasVector, hn])
        refine ⟨h1, h2, ?_, forall₂_imp_mem h4 fun d hd y hy => ?_⟩
        · cases p with
          | none => exact h3
          | some q => rw [← hid h3.1]; exact h3
        · obtain ⟨hd1, hd2⟩ := List.mem_filter.1 hd
          refine ih d hd1 n _ y hd2 (fun j hj => hcol j ?_) ?_ hy
          · simp only [Schema.leaves, hinc, if_true, List.mem_append]
            exact .inr (hle cs d hd1 j hj)
          · intro p hp
            cases hn : nd.hasNulls with
            | false => simp [hn] at hp
            | true =>
              simp only [hn, if_true, Option.some.injEq] at hp
              subst hp
              exact hid hn
      | _ => exact hx.elim

theorem RdHas.weaken {K : Keep} {c : Codec} {bo : BatchOption} {col : Nat → List (Option GoVal)} (s : Schema) : ∀ n par (x : Rd n),
    RdHas K c bo col n par s x → RdHas .any c bo col n par s x := by
  induction s using Schema.ind with
  | h nd cs ih =>
    intro n par x hx
    match n, x with
    | 0, _ => exact hx.elim
    | n + 1, x =>
      change RdNode (Rd n) at x
      cases x with
      | leaf t r =>
        obtain ⟨h1, h2, h3, h4, h5, F, E, hK, h6⟩ := hx
        exact ⟨h1, h2, h3, h4, h5, F, E, trivial, h6⟩
      | bare t r =>
        obtain ⟨h1, h2, h3, h4, h5, -, h7⟩ := hx
        exact ⟨h1, h2, h3, h4, h5, trivial, h7⟩
      | struct _ p _ rs =>
        obtain ⟨h1, h2, h3, h4⟩ := hx
        refine ⟨h1, h2, ?_, forall₂_imp_mem h4 fun d hd y hy => ih d (List.mem_filter.1 hd).1 n _ y hy⟩
        cases p with
        | none => exact h3
        | some q =>
          obtain ⟨g1, g2, F, q', -, g3, g4⟩ := h3
          exact ⟨g1, g2, F, q', trivial, g3, g4⟩
      | _ => exact hx.elim

end Goorc
