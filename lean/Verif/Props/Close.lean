import Verif.Proofs.StreamKinds
import Verif.Proofs.CloseReturns
import Verif.Props.Accept
import Verif.Props.DeepSeek
import Mathlib.Data.List.Forall2
/-
C110: `Close` of a batch reader and the file handles that `CreateBatchReader` has opened.
-/
namespace Goorc

/-! ### What was opened -/

/-- The reader of a stripe is made from these columns. -/
theorem initStripe_columns (E : Env) (ro : ROpts) (bo : BatchOption) (file : Bytes) (types : List RdType) (info : StripeInfo) (footer : StripeFooter) :
    initStripe E ro bo file types info footer = (do
      let rs ← stripeColumns E ro bo file types info footer
      treeOn (treeOf bo ro types rs types.length) (firstIncluded bo types)) := by
  simp only [initStripe, stripeColumns, firstIncluded, Res.bind_assoc, Res.pure_eq, Res.ok_bind]

theorem initStripes_columns {E : Env} {ro : ROpts} {bo : BatchOption} {file : Bytes} {types : List RdType} : ∀ (is : List StripeInfo) (ss : List (StripeReader (Rd types.length))),
    initStripes E ro bo file types is = .ok ss → ∃ rss, batchColumns E ro bo file types is = .ok rss ∧ rss.length = ss.length := by
  intro is
  induction is with
  | nil => intro ss h; simp only [initStripes, Res.ok.injEq] at h; subst h; exact ⟨[], rfl, rfl⟩
  | cons i is ih =>
    intro ss h
    simp only [initStripes] at h
    split at h
    · simp at h
    · rename_i hrows
      simp only [newStripeReader, initStripe_columns, Res.bind_eq_ok, Res.pure_eq, Res.ok.injEq] at h
      obtain ⟨s, ⟨footer, h1, x, ⟨rs, h2, h3⟩, rfl⟩, ss', h4, rfl⟩ := h
      obtain ⟨rss, g1, g2⟩ := ih ss' h4
      exact ⟨rs :: rss, by simp [batchColumns, hrows, h1, h2, g1], by simp [g2]⟩

/-- **C110** A batch reader that was created has the columns of every stripe. -/
theorem created_columns {E : Env} {r : FileReader} {bo : BatchOption} {br : BatchReader (Rd r.schemas.length)} (h : r.createBatchReader E bo = .ok br) :
    ∃ rss, batchColumns E r.opts bo r.file r.schemas r.stripes = .ok rss ∧ rss.length = br.stripes.length := by
  simp only [FileReader.createBatchReader] at h
  split at h
  · simp at h
  · simp only [Res.bind_eq_ok, Res.pure_eq, Res.ok.injEq] at h
    obtain ⟨ss, h1, rfl⟩ := h
    exact initStripes_columns _ _ h1

/-- The kinds of the streams, row indexes aside, that a footer lists for a column. -/
def listedKinds (footer : StripeFooter) (id : Nat) : List StreamKind :=
  ((footer.streams.filter fun s => s.kind ≠ .rowIndex).filter fun s => s.column = id).map (·.kind)

theorem startsFrom_kinds (id : Nat) : ∀ (ss : List StreamInfo) (b : Nat),
    ((startsFrom b ss).filter fun s => s.1.column = id).map (·.1.kind) = (ss.filter fun s => s.column = id).map (·.kind) := by
  intro ss
  induction ss with
  | nil => intro b; rfl
  | cons s ss ih =>
    intro b
    simp only [startsFrom, List.filter_cons]
    by_cases h : s.column = id <;> simp [h, ih]

theorem initStreams_left_out {E : Env} {ro : ROpts} {file : Bytes} : ∀ (ss : List StreamInfo) (a b : Nat) (rs rs' : List (Option FlatRd)),
    initStreams E ro file a b ss rs = .ok rs' → rs'.length = rs.length ∧ ∀ id : Nat, rs[id]? = some none → rs'[id]? = some none := by
  intro ss
  induction ss with
  | nil => intro a b rs rs' h; simp only [initStreams, Res.ok.injEq] at h; subst h; exact ⟨rfl, fun _ h => h⟩
  | cons s ss ih =>
    intro a b rs rs' h
    simp only [initStreams] at h
    have set : ∀ (r r1 : FlatRd), rs[s.column]? = some (some r) → ∀ a b, initStreams E ro file a b ss (rs.set s.column (some r1)) = .ok rs' →
        rs'.length = rs.length ∧ ∀ id : Nat, rs[id]? = some none → rs'[id]? = some none := by
      intro r r1 hr a b h
      obtain ⟨h1, h2⟩ := ih _ _ _ _ h
      refine ⟨by simpa using h1, fun id hid => h2 id ?_⟩
      have : s.column ≠ id := by rintro rfl; rw [hr] at hid; simp at hid
      rw [List.getElem?_set, if_neg this, hid]
    split at h
    · simp at h
    · split at h <;> exact ih _ _ _ _ h
    · rename_i r hr
      split at h
      · obtain ⟨r1, -, h⟩ := Res.bind_eq_ok.1 h
        exact set r r1 hr _ _ h
      · obtain ⟨r1, -, h⟩ := Res.bind_eq_ok.1 h
        exact set r r1 hr _ _ h

theorem initColumns_left_out {bo : BatchOption} {columns : List Encoding} : ∀ (types : List RdType) (rs : List (Option FlatRd)),
    initColumns bo columns types = .ok rs → ∀ (i : Nat) (t : RdType), types[i]? = some t → bo.isInclude t.id = false → rs[i]? = some none := by
  intro types
  induction types with
  | nil => intro rs h i t hi; simp at hi
  | cons t ts ih =>
    intro rs h i u hi hinc
    simp only [initColumns, Res.bind_eq_ok, Res.pure_eq, Res.ok.injEq] at h
    obtain ⟨r, h1, rs', h2, rfl⟩ := h
    cases i with
    | zero =>
      simp only [List.getElem?_cons_zero, Option.some.injEq] at hi
      subst hi
      simp only [hinc, Bool.false_eq_true, if_false, Res.ok.injEq] at h1
      subst h1
      rfl
    | succ i =>
      simp only [List.getElem?_cons_succ] at hi ⊢
      exact ih rs' h2 i u hi hinc

/-- **C110** `CreateBatchReader` opens the file once for every stream, row indexes aside, that a stripe lists for a column that is
read, and for nothing else. -/
theorem opened_exact {E : Env} {ro : ROpts} {bo : BatchOption} {file : Bytes} {types : List RdType} {info : StripeInfo} {footer : StripeFooter}
    {rs : List (Option FlatRd)} (h : stripeColumns E ro bo file types info footer = .ok rs) (hid : ∀ (i : Nat) t, types[i]? = some t → t.id = i) (x : Nat × Nat) :
    WasOpened rs x ↔ (∃ t, types[x.1]? = some t) ∧ bo.isInclude x.1 = true ∧ x.2 < (listedKinds footer x.1).length := by
  simp only [stripeColumns, Res.bind_eq_ok, Res.pure_eq, Res.ok.injEq] at h
  obtain ⟨rs0, h1, rs1, h2, -, -, rfl⟩ := h
  obtain ⟨hlen, hget⟩ := initColumns_get types rs0 h1
  obtain ⟨hlen', hout⟩ := initStreams_left_out _ _ _ _ _ h2
  have key : ∀ t, types[x.1]? = some t → bo.isInclude x.1 = true → ∃ r, rs1[x.1]? = some (some r) ∧ r.streams.map (·.1) = listedKinds footer x.1 := by
    intro t ht hinc
    obtain ⟨enc, tag, -, -, hr⟩ := hget x.1 t ht (by rw [hid _ _ ht]; exact hinc)
    obtain ⟨r', hr', -, -, hs⟩ := initStreams_places _ _ _ _ _ h2 x.1 _ hr
    refine ⟨r', hr', ?_⟩
    rw [hs]
    simp only [List.nil_append, List.map_map, listedKinds, ← startsFrom_kinds x.1 _ (info.offset + info.indexLength)]
    rfl
  constructor
  · rintro ⟨r, hr, hlt⟩
    obtain ⟨t, ht⟩ : ∃ t, types[x.1]? = some t := ⟨_, List.getElem?_eq_getElem (by rw [← hlen, ← hlen']; exact (List.getElem?_eq_some_iff.1 hr).1)⟩
    cases hinc : bo.isInclude x.1 with
    | false =>
      rw [hout x.1 (initColumns_left_out types rs0 h1 x.1 t ht (by rw [hid _ _ ht]; exact hinc))] at hr
      simp at hr
    | true =>
      obtain ⟨r', hr', hs⟩ := key t ht hinc
      rw [hr] at hr'
      simp only [Option.some.injEq] at hr'
      subst hr'
      exact ⟨⟨t, ht⟩, rfl, by rw [← hs, List.length_map]; exact hlt⟩
  · rintro ⟨⟨t, ht⟩, hinc, hlt⟩
    obtain ⟨r', hr', hs⟩ := key t ht hinc
    exact ⟨r', hr', by rw [← hs, List.length_map] at hlt; exact hlt⟩

/-! ### What is closed -/

section
variable {bo : BatchOption} {types : List RdType} {rs : List (Option FlatRd)} {hs : List (Nat × Nat)}

/-- **C110, what `Close` closes.** If `Close` returns, the file handles it closes are those of the columns that are inside of the first
column that is read, with only structs and maps in between, and of their streams those that are the last of their kind, but not
the lengths of maps, nor the flags of a string column that says it has no nulls. -/
theorem close_exact (h : closeStripe bo types rs = .ok hs) (x : Nat × Nat) :
    x ∈ hs ↔ ∃ a, firstIncluded bo types = some a ∧ Inside bo types rs a x.1 ∧
      ∃ r k, rs[x.1]? = some (some r) ∧ GivesBack r k ∧ LastOfKind (r.streams.map (·.1)) x.2 k := by
  simp only [closeStripe] at h
  split at h
  · simp at h
  · rename_i a ha
    rw [closeCol_exact _ _ _ h x]
    constructor
    · exact fun hx => ⟨a, ha, hx⟩
    · rintro ⟨b, hb, hx⟩
      rw [ha] at hb
      simp only [Option.some.injEq] at hb
      subst hb
      exact hx

/-- **C110** Only handles that were opened are closed. -/
theorem close_only_opened (h : closeStripe bo types rs = .ok hs) : ∀ x ∈ hs, WasOpened rs x := by
  intro x hx
  obtain ⟨-, -, -, r, k, hr, -, hl⟩ := (close_exact h x).1 hx
  refine ⟨r, hr, ?_⟩
  have := (List.getElem?_eq_some_iff.1 hl.1).1
  simpa using this

/-- **C110** No handle is closed twice. -/
theorem close_once (tree : TypesTree types) (h : closeStripe bo types rs = .ok hs) : hs.Nodup := by
  simp only [closeStripe] at h
  split at h
  · simp at h
  · exact closeCol_once tree _ _ _ h

/-- **C110, when nothing stays open.** Exactly if every column that has streams is inside of the first one with only structs and maps in
between, and has no stream twice and none that its reader does not give back. -/
theorem close_all_iff (h : closeStripe bo types rs = .ok hs) :
    (∀ x, WasOpened rs x → x ∈ hs) ↔
      ∀ (id : Nat) r, rs[id]? = some (some r) → r.streams ≠ [] →
        (∃ a, firstIncluded bo types = some a ∧ Inside bo types rs a id) ∧ (r.streams.map (·.1)).Nodup ∧ ∀ k ∈ r.streams.map (·.1), GivesBack r k := by
  constructor
  · intro hall id r hr hne
    have each : ∀ i, i < r.streams.length → ∃ a, firstIncluded bo types = some a ∧ Inside bo types rs a id ∧ ∃ k, GivesBack r k ∧ LastOfKind (r.streams.map (·.1)) i k := by
      intro i hi
      obtain ⟨a, ha, hin, r', k, hr', hk, hl⟩ := (close_exact h (id, i)).1 (hall (id, i) ⟨r, hr, hi⟩)
      simp only at hr' hin hl
      rw [hr] at hr'
      simp only [Option.some.injEq] at hr'
      subst hr'
      exact ⟨a, ha, hin, k, hk, hl⟩
    refine ⟨?_, ?_, fun k hk => ?_⟩
    · obtain ⟨a, ha, hin, -⟩ := each 0 (List.length_pos_iff.2 hne)
      exact ⟨a, ha, hin⟩
    · refine List.pairwise_iff_getElem.2 fun i j hi hj hij heq => ?_
      obtain ⟨-, -, -, k, -, hl⟩ := each i (by simpa using hi)
      refine hl.2 j hij ?_
      rw [List.getElem?_eq_getElem hj, ← heq, ← List.getElem?_eq_getElem hi]
      exact hl.1
    · obtain ⟨i, hi, hki⟩ := List.mem_iff_getElem.1 hk
      obtain ⟨-, -, -, l, hl1, hl2⟩ := each i (by simpa using hi)
      have : l = k := by
        have := hl2.1
        rw [List.getElem?_eq_getElem hi, hki] at this
        simpa using this.symm
      exact this ▸ hl1
  · rintro hcols ⟨id, i⟩ ⟨r, hr, hi⟩
    simp only at hr hi
    obtain ⟨⟨a, ha, hin⟩, hnd, hgb⟩ := hcols id r hr (by rintro h; simp [h] at hi)
    rw [close_exact h]
    have hi' : i < (r.streams.map (·.1)).length := by simpa using hi
    refine ⟨a, ha, hin, r, (r.streams.map (·.1))[i], hr, hgb _ (List.getElem_mem _), List.getElem?_eq_getElem hi', fun j hij hj => ?_⟩
    have hlt := (List.getElem?_eq_some_iff.1 hj).1
    rw [List.getElem?_eq_getElem hlt, Option.some.injEq] at hj
    exact List.pairwise_iff_getElem.1 hnd i j hi' hlt hij hj.symm

/-- **C110, lists.** The handles of the elements of a list stay open. -/
theorem list_elements_stay_open (tree : TypesTree types) {l c : Nat} {t : RdType} {r : FlatRd} (ht : types[l]? = some t) (hc : c ∈ t.children)
    (hr : rs[l]? = some (some r)) (hl : r.tag = .list) (hfirst : firstIncluded bo types ≠ some c) (h : closeStripe bo types rs = .ok hs) : ∀ i, (c, i) ∉ hs := by
  intro i hx
  obtain ⟨a, ha, hin, -⟩ := (close_exact h _).1 hx
  simp only at hin
  cases hin with
  | self => exact hfirst ha
  | @entry p _ _ e =>
    obtain ⟨u, hu, hcu⟩ := e.child
    have := tree.parent p l u t hu ht c hcu hc
    subst this
    obtain ⟨t', r', -, hr', -, ⟨e, -⟩ | ⟨e, -⟩⟩ := e
    · rw [hr] at hr'; simp at hr'; subst hr'; rw [hl] at e; simp at e
    · rw [hr] at hr'; simp at hr'; subst hr'; rw [hl] at e; simp at e

/-- **C110, maps.** The handle of the lengths of a map stays open. -/
theorem map_lengths_stay_open {m i : Nat} {r : FlatRd} (hr : rs[m]? = some (some r)) (hm : r.tag = .map) (hi : (r.streams.map (·.1))[i]? = some .length)
    (h : closeStripe bo types rs = .ok hs) : (m, i) ∉ hs := by
  intro hx
  obtain ⟨-, -, -, r', k, hr', hk, hl⟩ := (close_exact h _).1 hx
  simp only at hr' hl
  rw [hr] at hr'
  simp only [Option.some.injEq] at hr'
  subst hr'
  rw [GivesBack, hm] at hk
  simp only at hk
  subst hk
  have := hl.1
  rw [hi] at this
  simp at this

end

theorem linkChildren_links {bo : BatchOption} {kind : TypeKind} {parent : Option FlatRd} : ∀ (cs : List Nat) (i : Nat),
    linkChildren bo kind parent i cs = .ok () → ∀ c ∈ cs, bo.isInclude c = true → ∃ j, linkChild kind parent j = .ok () := by
  intro cs
  induction cs with
  | nil => intro i _ c hc; simp at hc
  | cons d cs ih =>
    intro i h c hc hinc
    simp only [linkChildren, Res.bind_eq_ok] at h
    obtain ⟨_, h1, h2⟩ := h
    rcases List.mem_cons.mp hc with rfl | hc
    · rw [if_pos hinc] at h1
      exact ⟨i, h1⟩
    · exact ih (i + 1) h2 c hc hinc

theorem linkAll_links {bo : BatchOption} : ∀ (types : List RdType) (rs : List (Option FlatRd)), linkAll bo types rs = .ok () →
    ∀ (i : Nat) t r, types[i]? = some t → rs[i]? = some r → linkChildren bo t.kind r 0 t.children = .ok () := by
  intro types
  induction types with
  | nil => intro rs _ i t r ht; simp at ht
  | cons u us ih =>
    intro rs h i t r ht hr
    cases rs with
    | nil => simp at hr
    | cons s ss =>
      simp only [linkAll, Res.bind_eq_ok] at h
      obtain ⟨_, h1, h2⟩ := h
      cases i with
      | zero => simp at ht hr; subst ht; subst hr; exact h1
      | succ i => exact ih ss h2 i t r (by simpa using ht) (by simpa using hr)

/-- The kinds of streams a column may have in a table without lists and maps so that all of its handles are given back: flags if it has
nulls, and the values. -/
def KindsKnown (t : RdType) (ks : List StreamKind) : Prop :=
  ks.Nodup ∧ (t.kind = .byte → ∀ k ∈ ks, k = .present ∨ k = .data) ∧ (t.kind = .string → .present ∈ ks → t.hasNulls = true)

/-- **C110, tables without lists and maps.** Let the types be the nodes of a tree, and with every column let its parent be read too. If no list or map
is read, and no column has a stream twice, then `Close` of the batch reader, if it returns, closes each handle that was opened exactly
once. -/
theorem tables_give_back {E : Env} {ro : ROpts} {bo : BatchOption} {file : Bytes} {types : List RdType} {info : StripeInfo} {footer : StripeFooter}
    {rs : List (Option FlatRd)} (h : stripeColumns E ro bo file types info footer = .ok rs) (hid : ∀ (i : Nat) t, types[i]? = some t → t.id = i)
    (tree : TypesTree types)
    (hroot : ∀ (c : Nat) u, types[c]? = some u → bo.isInclude c = true → firstIncluded bo types = some c ∨ ∃ (p : Nat) (t : RdType), types[p]? = some t ∧ bo.isInclude p = true ∧ c ∈ t.children)
    (hflat : ∀ (c : Nat) u, types[c]? = some u → bo.isInclude c = true → u.kind ≠ .list ∧ u.kind ≠ .map ∧ KindsKnown u (listedKinds footer c))
    {hs : List (Nat × Nat)} (hc : closeStripe bo types rs = .ok hs) :
    hs.Nodup ∧ ∀ x, x ∈ hs ↔ (∃ t, types[x.1]? = some t) ∧ bo.isInclude x.1 = true ∧ x.2 < (listedKinds footer x.1).length := by
  refine ⟨close_once tree hc, fun x => ?_⟩
  rw [← opened_exact h hid x]
  refine ⟨close_only_opened hc x, ?_⟩
  refine fun hx => (close_all_iff hc).2 ?_ x hx
  clear hx x
  simp only [stripeColumns, Res.bind_eq_ok, Res.pure_eq, Res.ok.injEq] at h
  obtain ⟨rs0, h1, rs1, h2, _, hlink, rfl⟩ := h
  obtain ⟨hlen, hget⟩ := initColumns_get types rs0 h1
  obtain ⟨hlen', hout⟩ := initStreams_left_out _ _ _ _ _ h2
  have key : ∀ (c : Nat) t, types[c]? = some t → bo.isInclude c = true → ∃ r enc, rs1[c]? = some (some r) ∧ newReaderTag t.kind enc = .ok r.tag ∧
      r.hasNulls = t.hasNulls ∧ r.streams.map (·.1) = listedKinds footer c ∧ ∀ k ∈ listedKinds footer c, r.tag.accepts r.hasNulls k = true := by
    intro c t ht hinc
    obtain ⟨enc, tag, -, htag, hr⟩ := hget c t ht (by rw [hid _ _ ht]; exact hinc)
    obtain ⟨r', hr', e1, e2, hs⟩ := initStreams_places _ _ _ _ _ h2 c _ hr
    refine ⟨r', enc, hr', by rw [e1]; exact htag, e2, ?_, fun k hk => ?_⟩
    · rw [hs]
      simp only [List.nil_append, List.map_map, listedKinds, ← startsFrom_kinds c _ (info.offset + info.indexLength)]
      rfl
    · simp only [listedKinds, List.mem_map, List.mem_filter, decide_eq_true_eq] at hk
      obtain ⟨s, ⟨⟨hs1, hs2⟩, hs3⟩, rfl⟩ := hk
      rcases (initStreams_takes _ _ _ _ _ h2 s hs1).2 _ (by rw [hs3]; exact hr) with h | h
      · exact absurd h hs2
      · rw [e1, e2]; exact h
  have hin : ∀ (n c : Nat), c ≤ n → ∀ u, types[c]? = some u → bo.isInclude c = true → ∃ a, firstIncluded bo types = some a ∧ Inside bo types rs1 a c := by
    intro n
    induction n with
    | zero =>
      intro c hcn u hu hinc
      rcases hroot c u hu hinc with h | ⟨p, t, ht, -, hct⟩
      · exact ⟨c, h, .self⟩
      · have := tree.grows p t ht c hct; omega
    | succ n ih =>
      intro c hcn u hu hinc
      rcases hroot c u hu hinc with h | ⟨p, t, ht, hpi, hct⟩
      · exact ⟨c, h, .self⟩
      · have := tree.grows p t ht c hct
        obtain ⟨a, ha, hi⟩ := ih p (by omega) t ht hpi
        refine ⟨a, ha, .entry hi ?_⟩
        obtain ⟨r, enc, hr, htag, -⟩ := key p t ht hpi
        obtain ⟨j, hj⟩ := linkChildren_links _ _ (linkAll_links _ _ hlink p t _ ht hr) c hct hinc
        obtain ⟨f1, f2, -⟩ := hflat p t ht hpi
        refine ⟨t, r, ht, hr, hinc, .inl ⟨?_, hct⟩⟩
        cases hk : t.kind <;> simp [hk, linkChild] at hj f1 f2
        rw [hk] at htag
        simp only [newReaderTag] at htag
        split at htag
        · simp at htag
        · simpa using htag.symm
  intro id r hr hne
  obtain ⟨t, ht⟩ : ∃ t, types[id]? = some t := ⟨_, List.getElem?_eq_getElem (by rw [← hlen, ← hlen']; exact (List.getElem?_eq_some_iff.1 hr).1)⟩
  have hinc : bo.isInclude id = true := by
    cases hinc : bo.isInclude id with
    | true => rfl
    | false =>
      rw [hout id (initColumns_left_out types rs0 h1 id t ht (by rw [hid _ _ ht]; exact hinc))] at hr
      simp at hr
  obtain ⟨r', enc, hr', htag, hn, hks, hacc⟩ := key id t ht hinc
  rw [hr] at hr'
  simp only [Option.some.injEq] at hr'
  subst hr'
  obtain ⟨f1, f2, f3, f4, f5⟩ := hflat id t ht hinc
  refine ⟨hin id id (Nat.le_refl _) t ht hinc, by rw [hks]; exact f3, fun k hk => ?_⟩
  rw [hks] at hk
  have ha := hacc k hk
  rw [givesBack_iff]
  by_cases hp : k = .present
  · subst hp
    refine .inr ⟨rfl, fun hs => ?_⟩
    rw [hn]
    refine f5 ?_ hk
    rw [hs] at htag
    cases hkind : t.kind <;> rw [hkind] at htag <;> simp only [newReaderTag] at htag <;> (try split at htag) <;> (try split at htag) <;> simp at htag ⊢
  · left
    cases hrt : r.tag with
    | leaf l =>
      rw [hrt] at ha htag
      cases l with
      | byte =>
        have : t.kind = .byte := by
          cases hkind : t.kind <;> rw [hkind] at htag <;> simp only [newReaderTag] at htag <;> (try split at htag) <;> (try split at htag) <;> simp at htag ⊢
        rcases f4 this k hk with h | h
        · exact absurd h hp
        · subst h; simp [ReaderTag.closes]
      | bool => cases k <;> simp [ReaderTag.accepts, ReadKind.accepts, LeafTag.read, boolRead, ReaderTag.closes] at ha hp ⊢
      | int b => cases k <;> simp [ReaderTag.accepts, ReadKind.accepts, LeafTag.read, intRead, ReaderTag.closes] at ha hp ⊢
      | float b => cases k <;> simp [ReaderTag.accepts, ReadKind.accepts, LeafTag.read, floatRead, ReaderTag.closes] at ha hp ⊢
      | string => cases k <;> simp [ReaderTag.accepts, ReadKind.accepts, LeafTag.read, stringRead, ReaderTag.closes] at ha hp ⊢
      | binary => cases k <;> simp [ReaderTag.accepts, ReadKind.accepts, LeafTag.read, binaryRead, ReaderTag.closes] at ha hp ⊢
      | date => cases k <;> simp [ReaderTag.accepts, ReadKind.accepts, LeafTag.read, dateRead, ReaderTag.closes] at ha hp ⊢
      | timestamp => cases k <;> simp [ReaderTag.accepts, ReadKind.accepts, LeafTag.read, timestampRead, ReaderTag.closes] at ha hp ⊢
      | decimal => cases k <;> simp [ReaderTag.accepts, ReadKind.accepts, LeafTag.read, decimalRead, ReaderTag.closes] at ha hp ⊢
    | dict =>
      rw [hrt] at ha
      cases k <;> simp [ReaderTag.accepts, ReadKind.accepts, dictRead, ReaderTag.closes] at ha hp ⊢
    | struct =>
      rw [hrt] at ha
      cases k <;> simp [ReaderTag.accepts] at ha hp
    | list =>
      rw [hrt] at htag
      cases hkind : t.kind <;> rw [hkind] at htag f1 <;> simp only [newReaderTag] at htag <;> (try split at htag) <;> (try split at htag) <;> simp at htag f1
    | map =>
      rw [hrt] at htag
      cases hkind : t.kind <;> rw [hkind] at htag f2 <;> simp only [newReaderTag] at htag <;> (try split at htag) <;> (try split at htag) <;> simp at htag f2

/-- **C110** `Close` of the batch reader closes those of one stripe after the other. -/
theorem closeBatch_stripes {bo : BatchOption} {types : List RdType} : ∀ (rss : List (List (Option FlatRd))) (hss : List (List (Nat × Nat))),
    closeBatch bo types rss = .ok hss ↔ List.Forall₂ (fun rs hs => closeStripe bo types rs = .ok hs) rss hss := by
  intro rss
  induction rss with
  | nil => intro hss; cases hss <;> simp [closeBatch]
  | cons rs rss ih =>
    intro hss
    simp only [closeBatch, Res.bind_eq_ok, Res.pure_eq, Res.ok.injEq]
    cases hss with
    | nil => simp
    | cons hs hss =>
      simp only [List.cons.injEq, List.forall₂_cons]
      constructor
      · rintro ⟨x, hx, xs, hxs, rfl, rfl⟩
        exact ⟨hx, (ih _).1 hxs⟩
      · rintro ⟨hx, hxs⟩
        exact ⟨hs, hx, hss, (ih _).2 hxs, rfl, rfl⟩

/-- **C110, when `Close` returns.** If something is read, every column that is read has the streams its reader closes, and of a map both keys and values
are read, then `Close` returns. -/
theorem close_returns {bo : BatchOption} {types : List RdType} {rs : List (Option FlatRd)} (hid : ∀ (i : Nat) t, types[i]? = some t → t.id = i) (tree : TypesTree types)
    (hrd : ∀ (id : Nat) r, rs[id]? = some (some r) → (∀ k ∈ r.tag.closes, k ∈ r.streams.map (·.1)) ∧
      (r.tag = .leaf .string → r.hasNulls = true → .present ∈ r.streams.map (·.1)) ∧
      (r.tag = .map → ∀ t, types[id]? = some t → (∃ c, t.children[0]? = some c ∧ bo.isInclude c = true) ∧ (∃ c, t.children[1]? = some c ∧ bo.isInclude c = true)))
    (hall : ∀ (id : Nat) t, types[id]? = some t → bo.isInclude id = true → ∃ r, rs[id]? = some (some r))
    (hkids : ∀ (id : Nat) t, types[id]? = some t → ∀ c ∈ t.children, ∃ u, types[c]? = some u)
    (hsome : ∃ t ∈ types, bo.isInclude t.id = true) : ∃ hs, closeStripe bo types rs = .ok hs := by
  obtain ⟨t, ht, hinc⟩ := hsome
  cases hf : types.find? fun t => bo.isInclude t.id with
  | none => exact absurd hinc (List.find?_eq_none.1 hf t ht)
  | some u =>
    obtain ⟨i, hi⟩ := List.getElem?_of_mem (List.mem_of_find?_eq_some hf)
    have hui := hid i u hi
    have hu : bo.isInclude u.id = true := by simpa using List.find?_some hf
    obtain ⟨hs, h⟩ := closeCol_succeeds tree hrd hall hkids types.length u.id (by omega) hu ⟨u, by rw [hui]; exact hi⟩
    exact ⟨hs, by simp only [closeStripe, firstIncluded, hf, Option.map_some]; exact h⟩

/-- **C110, exactly when `Close` returns.** Something is read, and of no column that `Close` comes to is anything missing that it uses. Otherwise it panics. -/
theorem close_returns_iff {bo : BatchOption} {types : List RdType} {rs : List (Option FlatRd)} (tree : TypesTree types) :
    (∃ hs, closeStripe bo types rs = .ok hs) ↔ ∃ a, firstIncluded bo types = some a ∧ ∀ c, Inside bo types rs a c → ∃ t r, types[c]? = some t ∧ rs[c]? = some (some r) ∧ CanClose bo t r := by
  constructor
  · rintro ⟨hs, h⟩
    simp only [closeStripe] at h
    split at h
    · simp at h
    · rename_i a ha
      exact ⟨a, ha, closeCol_needs _ _ _ h⟩
  · rintro ⟨a, ha, h⟩
    simp only [closeStripe, ha]
    exact closeCol_returns tree _ _ (by omega) h

/-- **C110** `Close` does not report errors and does not run forever: it returns, or panics. -/
theorem close_outcome {bo : BatchOption} {types : List RdType} {rs : List (Option FlatRd)} (hid : ∀ (i : Nat) t, types[i]? = some t → t.id = i) (tree : TypesTree types)
    (hkids : ∀ (id : Nat) t, types[id]? = some t → ∀ c ∈ t.children, ∃ u, types[c]? = some u) :
    closeStripe bo types rs = .panic ↔ ¬ ∃ hs, closeStripe bo types rs = .ok hs := by
  constructor
  · rintro h ⟨hs, g⟩
    rw [h] at g; simp at g
  · intro h
    have : OkOrPanic (closeStripe bo types rs) := by
      simp only [closeStripe]
      split
      · exact .inr rfl
      · rename_i a ha
        simp only [firstIncluded, Option.map_eq_some_iff] at ha
        obtain ⟨u, hu, rfl⟩ := ha
        obtain ⟨i, hi⟩ := List.getElem?_of_mem (List.mem_of_find?_eq_some hu)
        exact closeCol_outcome tree hkids _ _ (by omega) ⟨u, by rw [hid i u hi]; exact hi⟩
    exact this.resolve_left h

/-- **C110, a stream is missing.** If a stripe does not list one of the streams that the reader of its first column closes, `Close` does not return: nil is dereferenced. -/
theorem close_without_data {bo : BatchOption} {types : List RdType} {rs : List (Option FlatRd)} {a : Nat} {t : RdType} {r : FlatRd} {k : StreamKind}
    (ha : firstIncluded bo types = some a) (ht : types[a]? = some t) (hr : rs[a]? = some (some r)) (hk : k ∈ r.tag.closes) (hno : k ∉ r.streams.map (·.1)) :
    ∀ hs, closeStripe bo types rs ≠ .ok hs := by
  intro hs h
  simp only [closeStripe, ha] at h
  have hlen := (List.getElem?_eq_some_iff.1 ht).1
  obtain ⟨n, hn⟩ : ∃ n, types.length = n + 1 := ⟨types.length - 1, by omega⟩
  simp only [hn, closeCol, ht, hr, Res.bind_eq_ok] at h
  obtain ⟨p, -, d, hd, -⟩ := h
  have : ∀ (ks : List StreamKind) d, closeStreams a r ks = .ok d → k ∉ ks := by
    intro ks
    induction ks with
    | nil => intro d _; simp
    | cons x xs ih =>
      intro d hd
      simp only [closeStreams, Res.bind_eq_ok] at hd
      obtain ⟨y, hy, ys, hys, -⟩ := hd
      intro hm
      rcases List.mem_cons.1 hm with rfl | hm
      · simp only [closeStream] at hy
        split at hy
        · simp at hy
        · rename_i i hi
          exact hno (List.mem_of_getElem? ((lastPos_iff _ _ _).1 hi).1)
      · exact ih ys hys hm
  exact this _ _ hd hk

/-! ### Files of this library -/

theorem dataKinds_table {n : SchemaNode} {t : WriterTag} (h : newWriterTag n.kind n.encoding = .ok t) : t.dataKinds = n.dataStreams := by
  obtain ⟨id, kind, enc, nulls, names⟩ := n
  cases kind <;> cases enc <;> simp [newWriterTag] at h <;> subst h <;> simp [WriterTag.dataKinds, SchemaNode.dataStreams]

theorem written_columns (E : Env) (o : FOpts) (s : Schema) (batches : List Vec) (file : Bytes) (hs : s.Numbered) (h : writeFile E o s batches = .ok file) :
    ∃ parts ft ps, FileLayout E o s.columns file parts ft ps ∧ ∀ p ∈ parts, ∀ (j : Nat) (n : SchemaNode), (s.columns.map (·.node))[j]? = some n →
      listedKinds p.footer j = (if n.hasNulls then [StreamKind.present] else []) ++ n.dataStreams ∧ ∃ w, newWriterTag n.kind n.encoding = .ok w := by
  obtain ⟨a0, c1, runs, last, ft, ps, x1, x2, x3, x4, x5, x6, x7⟩ := file_runs h
  have ids : (s.columns.map (·.node)).map (·.id) = List.range (s.columns.map (·.node)).length := by
    rw [List.map_map, List.length_map]; exact hs
  have lens : ∀ x ∈ runs ++ [last], ∀ s ∈ x.part.streams, s.1.length = s.2.length := fun x hx => (x4.sound _ (List.mem_map_of_mem hx)).lengths
  refine ⟨_, ft, ps, x4, fun p hp j n hn => ?_⟩
  obtain ⟨x, hx, rfl⟩ := List.mem_map.1 hp
  obtain ⟨u, m1, m2⟩ := (newWriters_at x1).2 j n hn
  obtain ⟨t1, t2⟩ := AnyWriter.new_shape m2
  refine ⟨?_, _, t1⟩
  rw [← t2, ← dataKinds_table t1, ← x2.kinds (newWriters_at x1).1 ids lens hn m1 hx]
  have sound := x4.sound _ (List.mem_map_of_mem hx)
  have : x.part.footer.streams.filter (fun s => s.kind ≠ .rowIndex) = x.part.footer.streams := by
    rw [List.filter_eq_self]
    intro a ha
    rw [sound.listed] at ha
    obtain ⟨b, hb, rfl⟩ := List.mem_map.1 ha
    simpa using sound.noIndex b hb
  rw [listedKinds, this, sound.listed, StripeParts.streamsOf, List.filter_map, List.map_map]
  rfl

/-- **C110, the streams of a file of this library.** Every stripe lists for every column the stream of flags, exactly if the column has nulls, and
then the streams of its values, each once. -/
theorem written_streams (E : Env) (o : FOpts) (s : Schema) (batches : List Vec) (file : Bytes) (hs : s.Numbered) (h : writeFile E o s batches = .ok file) :
    ∃ parts ft ps, FileLayout E o s.columns file parts ft ps ∧ ∀ p ∈ parts, ∀ (j : Nat) (n : SchemaNode), (s.columns.map (·.node))[j]? = some n →
      listedKinds p.footer j = (if n.hasNulls then [StreamKind.present] else []) ++ n.dataStreams := by
  obtain ⟨parts, ft, ps, hl, h⟩ := written_columns E o s batches file hs h
  exact ⟨parts, ft, ps, hl, fun p hp j n hn => (h p hp j n hn).1⟩

/-! ### Files -/

/-- Open a file, create a batch reader, close it: of every stripe, the handles that were opened and those that were closed. -/
def openAndClose (E : Env) (bo : BatchOption) (file : Bytes) : Res (List (List (Nat × Nat) × List (Nat × Nat))) := do
  let r ← newReader E file
  let rss ← batchColumns E r.opts bo file r.schemas r.stripes
  let hss ← closeBatch bo r.schemas rss
  pure ((rss.map fun rs => (rs.mapIdx fun id r => (r.elim [] fun r => List.range r.streams.length).map fun i => (id, i)).flatten).zip hss)

/-- Columns of numbers and texts: every handle that was opened is closed. In the second stripe the streams come in another order. -/
example : openAndClose (exNamedEnv true) ⟨[], 10, false⟩ (exNamedFile true) = .ok
    [([(1, 0), (1, 1), (2, 0), (2, 1)], [(1, 0), (1, 1), (2, 0), (2, 1)]),
     ([(1, 0), (1, 1), (2, 0), (2, 1)], [(1, 1), (1, 0), (2, 1), (2, 0)])] := by decide +kernel

/-- **C110, refuted.** After `Close` of a batch reader that was created and of which nothing failed, the handle of the elements of a list is
still open; and so is that of the lengths of a map. -/
theorem close_leaves_open :
    openAndClose exListsEnv ⟨[], 10, false⟩ exListsFile = .ok [([(1, 0), (1, 1), (2, 0)], [(1, 0), (1, 1)])] ∧
    openAndClose exMapsEnv ⟨[], 10, false⟩ exMapsFile = .ok [([(1, 0), (2, 0), (3, 0)], [(2, 0), (3, 0)])] := by
  constructor <;> decide +kernel

/-- **C110, refuted for `Close` returning.** Of a map only the values are chosen: the batch reader is created, and its `Close` panics. -/
theorem close_panics :
    (newReader exMapsEnv exMapsFile >>= fun r => r.createBatchReader exMapsEnv ⟨[0, 1, 3], 10, false⟩ >>= fun br => (.ok br.stripes.length : Res Nat)) = .ok 1 ∧
    openAndClose exMapsEnv ⟨[0, 1, 3], 10, false⟩ exMapsFile = .panic := by
  constructor <;> decide +kernel

/-- With a choice of columns, only their handles are opened, and closed. -/
example : openAndClose (exNamedEnv true) ⟨[0, 2], 10, false⟩ (exNamedFile true) = .ok
    [([(2, 0), (2, 1)], [(2, 0), (2, 1)]), ([(2, 0), (2, 1)], [(2, 1), (2, 0)])] := by decide +kernel

end Goorc
