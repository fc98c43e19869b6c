import Verif.Proofs.Damage
import Verif.Spec.Trees
/-
C94: damaged files. A flat table of tinyint, boolean, float and double columns is read from any bytes without a panic, if the footers of the stripes
name what is read.
-/
namespace Goorc

/-- Outcomes: what is returned satisfies `P`, a panic is possible only if `A`. -/
def Res.Unless {α : Type} (A : Prop) (r : Res α) (P : α → Prop) : Prop :=
  match r with
  | .ok a => P a
  | .panic => A
  | _ => True

namespace Res.Unless

variable {α β : Type} {A : Prop} {P : α → Prop} {Q : β → Prop}

theorem bind {x : Res α} {f : α → Res β} (h : x.Unless A P) (hf : ∀ a, x = .ok a → P a → (f a).Unless A Q) : (x >>= f).Unless A Q := by
  cases x with
  | ok a => exact hf a rfl h
  | err e => trivial
  | panic => exact h
  | hang => trivial

theorem ok {x : Res α} (h : x.Unless A P) {a : α} (e : x = .ok a) : P a := by rw [e] at h; exact h

theorem panic {x : Res α} (h : x.Unless A P) (e : x = .panic) : A := by rw [e] at h; exact h

theorem mono {x : Res α} {A' : Prop} {P' : α → Prop} (h : x.Unless A P) (ha : A → A') (hp : ∀ a, P a → P' a) : x.Unless A' P' := by
  cases x with
  | ok a => exact hp a h
  | err e => trivial
  | panic => exact ha h
  | hang => trivial

end Res.Unless

theorem Res.Sat.unless {α : Type} {x : Res α} {P : α → Prop} {A : Prop} (h : x.Sat false P) : x.Unless A P := by
  cases x with
  | ok a => exact h
  | err e => trivial
  | panic => cases h
  | hang => trivial

/-! ### Opening a stripe -/

/-- A column reader that was made for a type, with streams it accepts. -/
def Fit (t : RdType) (f : FlatRd) : Prop :=
  (∃ enc, newReaderTag t.kind enc = .ok f.tag) ∧ ∀ s ∈ f.streams, s.2.Sane ∧ f.tag.accepts f.hasNulls s.1 = true

/-- The column readers made for the types. -/
def Made (bo : BatchOption) (types : List RdType) (rs : List (Option FlatRd)) : Prop :=
  rs.length = types.length ∧ ∀ (i : Nat) (t : RdType), types[i]? = some t →
    (bo.isInclude t.id = true → ∃ f, rs[i]? = some (some f) ∧ Fit t f) ∧ (bo.isInclude t.id = false → rs[i]? = some none)

theorem initColumns_made (bo : BatchOption) (columns : List Encoding) {A : Prop} : ∀ types : List RdType, (∀ t ∈ types, columns.length ≤ t.id → A) →
    (initColumns bo columns types).Unless A (Made bo types) := by
  intro types
  induction types with
  | nil => intro _; exact ⟨rfl, fun i t h => by simp at h⟩
  | cons t ts ih =>
    intro h
    rw [initColumns]
    refine Res.Unless.bind (P := fun r : Option FlatRd => (bo.isInclude t.id = true → ∃ f, r = some f ∧ Fit t f) ∧ (bo.isInclude t.id = false → r = none)) ?_ fun r _ hr =>
      (ih fun u hu => h u (by simp [hu])).bind fun rs _ hrs => ?_
    · split
      · rename_i hi
        split
        · rename_i hc
          exact h t (by simp) (List.getElem?_eq_none_iff.mp hc)
        · rename_i enc _
          refine (newReaderTag_sat _ _).unless.bind fun tag htag _ => ⟨fun _ => ⟨_, rfl, ⟨enc, htag⟩, fun s hs => nomatch hs⟩, fun hf => ?_⟩
          rw [hi] at hf; cases hf
      · rename_i hi
        exact ⟨fun hf => absurd hf hi, fun _ => rfl⟩
    · refine ⟨by simp [hrs.1], fun i u hu => ?_⟩
      cases i with
      | zero =>
        simp only [List.getElem?_cons_zero, Option.some.injEq] at hu
        subst hu
        simp only [List.getElem?_cons_zero]
        refine ⟨fun hi => ?_, fun hi => ?_⟩
        · obtain ⟨f, e, hf⟩ := hr.1 hi
          exact ⟨f, by rw [e], hf⟩
        · rw [hr.2 hi]
      | succ i =>
        simp only [List.getElem?_cons_succ] at hu ⊢
        exact hrs.2 i u hu

theorem Made.set {bo : BatchOption} {types : List RdType} {rs : List (Option FlatRd)} (h : Made bo types rs) {i : Nat} {r r' : FlatRd} (hr : rs[i]? = some (some r))
    (hf : ∀ t, Fit t r → Fit t r') : Made bo types (rs.set i (some r')) := by
  refine ⟨by rw [List.length_set]; exact h.1, fun j t ht => ?_⟩
  have hl := (List.getElem?_eq_some_iff.1 hr).1
  by_cases hij : i = j
  · subst hij
    rw [List.getElem?_set_self hl]
    refine ⟨fun hi => ?_, fun hi => ?_⟩
    · obtain ⟨f, e, hff⟩ := (h.2 i t ht).1 hi
      rw [hr] at e
      cases e
      exact ⟨r', rfl, hf t hff⟩
    · have := (h.2 i t ht).2 hi
      rw [hr] at this
      cases this
  · rw [List.getElem?_set_ne hij]
    exact h.2 j t ht

/-- A reader has a stream of a kind. -/
def Holds (rs : List (Option FlatRd)) (i : Nat) (k : StreamKind) : Prop := ∃ f, rs[i]? = some (some f) ∧ ∃ x ∈ f.streams, x.1 = k

theorem Holds.set {rs : List (Option FlatRd)} {i j : Nat} {k : StreamKind} (h : Holds rs j k) {r r' : FlatRd} (hr : rs[i]? = some (some r))
    (hs : ∀ x ∈ r.streams, x ∈ r'.streams) : Holds (rs.set i (some r')) j k := by
  obtain ⟨f, h1, x, h2, h3⟩ := h
  by_cases hij : i = j
  · subst hij
    rw [hr] at h1
    cases h1
    exact ⟨r', by rw [List.getElem?_set_self (List.getElem?_eq_some_iff.1 hr).1], x, hs x h2, h3⟩
  · exact ⟨f, by rw [List.getElem?_set_ne hij]; exact h1, x, h2, h3⟩

/-- Whether column `i` is read. -/
def Live (rs : List (Option FlatRd)) (i : Nat) : Prop := ∃ f, rs[i]? = some (some f)

theorem initStreams_made (E : Env) (ro : ROpts) (file : Bytes) (bo : BatchOption) (types : List RdType) {A : Prop}
    (hro : ∀ start length, (newStreamReader ro.kind ro.chunkSize start length file).Sane) :
    ∀ (ss : List StreamInfo) (a b : Nat) (rs : List (Option FlatRd)), Made bo types rs → (∀ s ∈ ss, types.length ≤ s.column → A) →
      (initStreams E ro file a b ss rs).Unless A fun rs' => Made bo types rs' ∧ (∀ i k, Holds rs i k → Holds rs' i k) ∧
        ∀ s ∈ ss, s.kind ≠ .rowIndex → Live rs s.column → Holds rs' s.column s.kind := by
  intro ss
  induction ss with
  | nil => intro a b rs h _; exact ⟨h, fun _ _ h => h, fun _ h => nomatch h⟩
  | cons s ss ih =>
    intro a b rs h hA
    have hA' : ∀ s ∈ ss, types.length ≤ s.column → A := fun t ht => hA t (by simp [ht])
    rw [initStreams]
    split
    · rename_i hn
      exact hA s (by simp) (by rw [← h.1]; exact List.getElem?_eq_none_iff.mp hn)
    · rename_i hn
      have dead : ¬ Live rs s.column := fun ⟨f, hf⟩ => by rw [hn] at hf; cases hf
      have step : ∀ a b, (initStreams E ro file a b ss rs).Unless A fun rs' => Made bo types rs' ∧ (∀ i k, Holds rs i k → Holds rs' i k) ∧
          ∀ t ∈ s :: ss, t.kind ≠ .rowIndex → Live rs t.column → Holds rs' t.column t.kind := fun a b =>
        (ih a b rs h hA').mono id fun rs' hrs' => ⟨hrs'.1, hrs'.2.1, fun t ht hk hl => by
          rcases List.mem_cons.1 ht with rfl | ht
          · exact absurd hl dead
          · exact hrs'.2.2 t ht hk hl⟩
      split
      · exact step _ _
      · exact step _ _
    · rename_i r hr
      have hlen := (List.getElem?_eq_some_iff.1 hr).1
      have live : ∀ r' : FlatRd, ∀ i, Live rs i → Live (rs.set s.column (some r')) i := fun r' i ⟨f, hf⟩ => by
        by_cases hij : s.column = i
        · subst hij; exact ⟨r', by rw [List.getElem?_set_self hlen]⟩
        · exact ⟨f, by rw [List.getElem?_set_ne hij]; exact hf⟩
      split
      · rename_i hk
        refine Res.Unless.bind (P := fun r' : FlatRd => r'.tag = r.tag ∧ r'.hasNulls = r.hasNulls ∧ r'.streams = r.streams) ?_ fun r' _ hr' => ?_
        · rw [initIndex]
          exact (readAt_sat _ _ _).unless.bind fun b _ _ => (inflate_sat _ _ _).unless.bind fun b' _ _ => (unmarshal_sat _ _).unless.bind fun x _ _ => ⟨rfl, rfl, rfl⟩
        · obtain ⟨e1, e2, e3⟩ := hr'
          refine (ih _ _ _ (h.set (r' := r') hr fun t ht => ?_) hA').mono id fun rs' hrs' => ⟨hrs'.1, fun i k hh => ?_, fun t ht hk' hl => ?_⟩
          · rw [Fit, e1, e2, e3]; exact ht
          · exact hrs'.2.1 i k (hh.set hr fun x hx => by rw [e3]; exact hx)
          · rcases List.mem_cons.1 ht with rfl | ht
            · exact absurd hk hk'
            · exact hrs'.2.2 t ht hk' (live r' _ hl)
      · refine Res.Unless.bind (P := fun r' : FlatRd => r'.tag = r.tag ∧ r'.hasNulls = r.hasNulls ∧ (∃ x : StreamReader, x.Sane ∧ r'.streams = r.streams ++ [(s.kind, x)]) ∧
            r.tag.accepts r.hasNulls s.kind = true) ?_ fun r' _ hr' => ?_
        · rw [initStream]
          split
          · rename_i hacc
            exact ⟨rfl, rfl, ⟨_, hro _ _, rfl⟩, hacc⟩
          · trivial
        · obtain ⟨e1, e2, ⟨x, hx, e3⟩, hacc⟩ := hr'
          refine (ih _ _ _ (h.set (r' := r') hr fun t ht => ?_) hA').mono id fun rs' hrs' => ⟨hrs'.1, fun i k hh => ?_, fun t ht hk' hl => ?_⟩
          · rw [Fit, e1, e2, e3]
            refine ⟨ht.1, fun y hy => ?_⟩
            simp only [List.mem_append, List.mem_singleton] at hy
            rcases hy with hy | rfl
            · exact ht.2 y hy
            · exact ⟨hx, hacc⟩
          · exact hrs'.2.1 i k (hh.set hr fun y hy => by rw [e3]; simp [hy])
          · rcases List.mem_cons.1 ht with rfl | ht
            · exact hrs'.2.1 _ _ ⟨r', by rw [List.getElem?_set_self hlen], (t.kind, x), by rw [e3]; simp, rfl⟩
            · exact hrs'.2.2 t ht hk' (live r' _ hl)

theorem linkChildren_quiet (bo : BatchOption) (kind : TypeKind) (parent : Option FlatRd) (h : kind.sturdy = true ∨ (kind = .struct ∧ parent.isSome = true)) {A : Prop} :
    ∀ (cs : List Nat) (i : Nat), (linkChildren bo kind parent i cs).Unless A fun _ => True := by
  intro cs
  induction cs with
  | nil => intro i; trivial
  | cons c cs ih =>
    intro i
    rw [linkChildren]
    refine Res.Unless.bind (P := fun _ => True) ?_ fun _ _ _ => ih _
    split
    · rcases h with h | ⟨rfl, h⟩
      · cases kind <;> first | (cases h; done) | trivial
      · cases parent with
        | none => cases h
        | some p => trivial
    · trivial

theorem linkAll_quiet (bo : BatchOption) {A : Prop} : ∀ (types : List RdType) (rs : List (Option FlatRd)), (∀ t ∈ types, t.kind.sturdy = true) →
    (linkAll bo types rs).Unless A fun _ => True := by
  intro types
  induction types with
  | nil => intro rs _; cases rs <;> trivial
  | cons t ts ih =>
    intro rs h
    cases rs with
    | nil => trivial
    | cons r rs =>
      rw [linkAll]
      exact (linkChildren_quiet bo t.kind r (.inl (h t (by simp))) t.children 0).bind fun _ _ _ => ih rs fun u hu => h u (by simp [hu])

/-- A field of a sturdy kind: reader tags, and that it opens if there is a data stream. -/
theorem sturdy_opens {χ : Type} {t : RdType} {f : FlatRd} (ht : t.kind.sturdy = true) (hf : Fit t f) (c : Codec) (ck : CompKind) :
    ∃ l, f.tag = .leaf l ∧ ((∃ x ∈ f.streams, x.1 = .data) → ∃ r, (openLeaf (.leaf l) (some l) l.read ck f : RdNode χ) = .leaf l r ∧ l.read.Calm c r) := by
  obtain ⟨⟨enc, he⟩, hs⟩ := hf
  have hsane : ∀ s ∈ f.streams, s.2.Sane := fun s h => (hs s h).1
  -- the stream of data
  have hfind : (f.streams.reverse.find? fun s => decide (s.1 = StreamKind.data)) = none → ¬ ∃ x ∈ f.streams, x.1 = .data := fun h ⟨x, hx, hk⟩ => by
    have := List.find?_eq_none.1 h x (List.mem_reverse.2 hx)
    simp [hk] at this
  have key : ∀ l : LeafTag, f.tag = .leaf l → l.read.Robust → (∀ s, l.read.init s = none → s .data = none) →
      ∃ l, f.tag = .leaf l ∧ ((∃ x ∈ f.streams, x.1 = .data) → ∃ r, (openLeaf (.leaf l) (some l) l.read ck f : RdNode χ) = .leaf l r ∧ l.read.Calm c r) := fun l hl hrob hinit => by
    refine ⟨l, hl, fun hd => ?_⟩
    rw [openLeaf]
    split
    · rename_i hn
      rw [ReadKind.openCol, if_pos (by
        rw [List.all_eq_true]
        intro s h
        have := (hs s h).2
        rw [hl] at this
        exact this)] at hn
      have := hinit _ (Option.map_eq_none_iff.mp hn)
      exact absurd hd (hfind (Option.map_eq_none_iff.mp this))
    · rename_i x hx
      exact ⟨_, rfl, hrob.calm f.index hsane hx⟩
  have hmap : ∀ {α β : Type} (g : α → β) (x : Option α), x.map g = none → x = none := fun g x h => Option.map_eq_none_iff.mp h
  cases hk : t.kind <;> rw [hk] at ht he <;> first | (cases ht; done) | skip
  all_goals
    simp only [newReaderTag] at he
    split at he
    · cases he
    · simp only [Res.ok.injEq] at he
      first
        | exact key .bool he.symm bool_column_robust fun s h => hmap _ _ h
        | exact key .byte he.symm byte_column_robust fun s h => hmap _ _ h
        | exact key (.float false) he.symm (float_column_robust false) fun s h => hmap _ _ h
        | exact key (.float true) he.symm (float_column_robust true) fun s h => hmap _ _ h

theorem treesOf_unless {α : Type} {A : Prop} (f : Nat → Res α) (P : α → Prop) : ∀ is : List Nat, (∀ i ∈ is, (f i).Unless A P) →
    (treesOf f is).Unless A fun xs => xs.length = is.length ∧ ∀ x ∈ xs, P x := by
  intro is
  induction is with
  | nil => intro _; exact ⟨rfl, fun _ h => nomatch h⟩
  | cons i is ih =>
    intro h
    rw [treesOf]
    refine (h i (by simp)).bind fun x _ hx => (ih fun j hj => h j (by simp [hj])).bind fun xs _ hxs => ⟨by simp [hxs.1], ?_⟩
    intro y hy
    rcases List.mem_cons.1 hy with rfl | hy
    · exact hx
    · exact hxs.2 y hy

/-- The reader of a table. -/
theorem treeOf_table (c : Codec) (bo : BatchOption) (ro : ROpts) (types : List RdType) (rs : List (Option FlatRd)) (hm : Made bo types rs) (ht : SturdyTable types)
    (h0 : bo.isInclude 0 = true) (hids : ∀ (i : Nat) (t : RdType), types[i]? = some t → t.id = i ∧ ∀ j ∈ t.children, i < j ∧ j < types.length) {A W : Prop}
    (hd : W → ∀ i ∈ fieldsRead bo types, Holds rs i .data) :
    (treeOf bo ro types rs types.length 0).Unless A fun x => W → TableCalm c (fieldsRead bo types).length types.length x := by
  obtain ⟨root, fields, rfl, hroot, hfields⟩ := ht
  have hr0 := hids 0 root rfl
  obtain ⟨f, hf, ⟨⟨enc, henc⟩, hsane⟩⟩ := (hm.2 0 root rfl).1 (by rw [hr0.1]; exact h0)
  have htag : f.tag = .struct := by
    rw [hroot, newReaderTag] at henc
    split at henc
    · cases henc
    · simpa using henc.symm
  have hkids : fieldsRead bo (root :: fields) = root.children.filter bo.isInclude := by simp [fieldsRead]
  show (treeOf bo ro (root :: fields) rs (fields.length + 1) 0).Unless A fun x => W → TableCalm c _ (fields.length + 1) x
  rw [treeOf]
  simp only [List.getElem?_cons_zero, hf, htag]
  refine (treesOf_unless (A := A) (treeOf bo ro (root :: fields) rs fields.length) (fun x => W → LeafCalm c fields.length x) (root.children.filter bo.isInclude) fun j hj => ?_).bind fun cs _ hcs => ?_
  · obtain ⟨hj1, hj2⟩ := List.mem_filter.1 hj
    have hb := hr0.2 j hj1
    simp only [List.length_cons] at hb
    obtain ⟨t, ht⟩ : ∃ t, (root :: fields)[j]? = some t := ⟨_, List.getElem?_eq_getElem (by simp only [List.length_cons]; omega)⟩
    have htm : t ∈ fields := by
      cases j with
      | zero => omega
      | succ j => exact List.mem_of_getElem? (by simpa using ht)
    obtain ⟨g, hg, hfit⟩ := (hm.2 j t ht).1 (by rw [(hids j t ht).1]; exact hj2)
    obtain ⟨m, hmm⟩ : ∃ m, fields.length = m + 1 := ⟨fields.length - 1, by omega⟩
    rw [hmm]
    rw [treeOf]
    obtain ⟨l, hl, hopen⟩ := sturdy_opens (χ := Rd m) (hfields t htm) hfit c ro.kind
    simp only [ht, hg, hl]
    show W → LeafCalm c (m + 1) _
    intro w
    obtain ⟨g', h1, h2⟩ := hd w j (by rw [hkids]; exact hj)
    rw [hg] at h1
    cases h1
    obtain ⟨x, h3, h4⟩ := hopen h2
    exact ⟨l, x, h3, h4⟩
  · refine fun w => ⟨ro.kind, _, f.index, cs, rfl, fun b hb => ?_, by rw [hkids]; omega, fun y hy => hcs.2 y hy w⟩
    obtain ⟨s, g1, g2⟩ := Option.map_eq_some_iff.mp hb
    rw [← g2]
    exact FlatRd.stream_sane (fun s h => (hsane s h).1) _ s g1

/-- Opening a stripe of a table. -/
theorem initStripe_table (E : Env) (ro : ROpts) (bo : BatchOption) (file : Bytes) (types : List RdType) (info : StripeInfo) (footer : StripeFooter)
    (hro : ∀ start length, (newStreamReader ro.kind ro.chunkSize start length file).Sane) (ht : SturdyTable types) (h0 : bo.isInclude 0 = true)
    (hids : ∀ (i : Nat) (t : RdType), types[i]? = some t → t.id = i ∧ ∀ j ∈ t.children, i < j ∧ j < types.length) :
    (initStripe E ro bo file types info footer).Unless (¬ footer.Named types) fun x => ∃ y, x = some y ∧ (footer.HasData bo types → TableCalm E.c (fieldsRead bo types).length types.length y) := by
  rw [initStripe]
  refine (initColumns_made bo footer.columns types fun t htm hc hw => ?_).bind fun rs _ hrs =>
    (initStreams_made E ro file bo types hro footer.streams _ _ rs hrs fun s hs hc hw => ?_).bind fun rs' _ hrs' => ?_
  · obtain ⟨i, hi, rfl⟩ := List.mem_iff_getElem.1 htm
    have := (hids i _ (List.getElem?_eq_getElem hi)).1
    have := hw.encodings
    omega
  · have := hw.columns s hs
    omega
  · have ht' := ht
    obtain ⟨root, fields, rfl, hroot, hfields⟩ := ht'
    have hr0 := (hids 0 root rfl).1
    have hinc : bo.isInclude root.id = true := by rw [hr0]; exact h0
    refine Res.Unless.bind (P := fun _ => True) ?_ fun _ _ _ => ?_
    · obtain ⟨f, hf, -⟩ := (hrs'.1.2 0 root rfl).1 hinc
      cases rs' with
      | nil => simp at hf
      | cons r rs' =>
        simp only [List.getElem?_cons_zero, Option.some.injEq] at hf
        subst hf
        rw [linkAll]
        exact (linkChildren_quiet bo root.kind (some f) (.inr ⟨hroot, rfl⟩) root.children 0).bind fun _ _ _ => linkAll_quiet bo fields rs' hfields
    · have hfind : ((root :: fields).find? fun t => bo.isInclude t.id).map (·.id) = some 0 := by
        rw [List.find?_cons_of_pos (by simpa using hinc)]
        simp [hr0]
      rw [hfind, treeOn]
      refine Res.Unless.bind (treeOf_table E.c bo ro (root :: fields) rs' hrs'.1 ht h0 hids fun hw i hi => ?_) fun x _ hx => ⟨x, rfl, hx⟩
      obtain ⟨s, h1, h2, h3⟩ := hw i hi
      have hlive : Live rs i := by
        have hmem := List.mem_filter.1 hi
        simp only [List.getElem?_cons_zero, Option.map_some, Option.getD_some] at hmem
        have hb := (hids 0 root rfl).2 i hmem.1
        have htt := List.getElem?_eq_getElem hb.2
        obtain ⟨f, hf, -⟩ := (hrs.2 i _ htt).1 (by rw [(hids i _ htt).1]; exact hmem.2)
        exact ⟨f, hf⟩
      have := hrs'.2.2 s h1 (by rw [h3]; decide) (by rw [h2]; exact hlive)
      rw [h2, h3] at this
      exact this

/-- The types of a file that was opened, if they are ordered. -/
theorem opened_ids {E : Env} {file : Bytes} {r : FileReader} (h : newReader E file = .ok r) (ht : TypesOrdered r.schemas) :
    ∀ (i : Nat) (t : RdType), r.schemas[i]? = some t → t.id = i ∧ ∀ j ∈ t.children, i < j ∧ j < r.schemas.length := fun i t hi => by
  have h1 := opened_types h i t hi
  refine ⟨h1.1, fun j hj => ?_⟩
  have h2 := ht t (List.mem_of_getElem? hi) j hj
  rw [h1.1] at h2
  exact ⟨h2, h1.2 j hj⟩

theorem initStripes_table {E : Env} {file : Bytes} {r : FileReader} (h : newReader E file = .ok r) (ht : TypesOrdered r.schemas) (hs : SturdyTable r.schemas) (bo : BatchOption)
    (h0 : bo.isInclude 0 = true) : ∀ infos : List StripeInfo,
    (initStripes E r.opts bo file r.schemas infos).Unless (∃ info ∈ infos, ∃ f, readStripeFooter E r.opts file info = .ok f ∧ ¬ f.Named r.schemas) fun ss =>
      (∀ info ∈ infos, ∀ f, readStripeFooter E r.opts file info = .ok f → f.HasData bo r.schemas) → ∀ s ∈ ss, s.hasNulls = r.schemas.map (·.hasNulls) ∧ s.cursor ≤ s.numberOfRows ∧ ∃ x, s.reader = some x ∧ TableCalm E.c (fieldsRead bo r.schemas).length r.schemas.length x := by
  have hro := opened_streams_sane E file r h
  intro infos
  induction infos with
  | nil => exact fun _ _ h => nomatch h
  | cons info infos ih =>
    rw [initStripes]
    split
    · trivial
    · refine Res.Unless.bind (P := fun s : StripeReader (Rd r.schemas.length) => (∀ f, readStripeFooter E r.opts file info = .ok f → f.HasData bo r.schemas) → s.hasNulls = r.schemas.map (·.hasNulls) ∧ s.cursor ≤ s.numberOfRows ∧ ∃ x, s.reader = some x ∧
        TableCalm E.c (fieldsRead bo r.schemas).length r.schemas.length x) ?_ fun s _ hs' => Res.Unless.bind (ih.mono ?_ fun _ h => h) fun ss _ hss => ?_
      · rw [newStripeReader]
        refine Res.Unless.bind (P := fun _ => True) ?_ fun footer hfoot _ => ?_
        · rw [readStripeFooter]
          refine (readAt_sat _ _ _).unless.bind fun b _ _ => ?_
          refine Res.Unless.bind (P := fun _ => True) ?_ fun b' _ _ => (unmarshal_sat _ _).unless
          split
          · exact (decompressChunks_sat _ _ _).unless
          · trivial
        · refine Res.Unless.bind ((initStripe_table E r.opts bo file r.schemas info footer hro hs h0 (opened_ids h ht)).mono (fun hn => ⟨info, by simp, footer, hfoot, hn⟩) fun _ h => h) fun x _ hx => ?_
          obtain ⟨y, rfl, hy⟩ := hx
          exact fun hd => ⟨rfl, Nat.zero_le _, y, rfl, hy (hd footer hfoot)⟩
      · rintro ⟨i, hi, hf⟩
        exact ⟨i, by simp [hi], hf⟩
      · intro hd x hx
        rcases List.mem_cons.1 hx with rfl | hx
        · exact hs' fun f hf => hd info (by simp) f hf
        · exact hss (fun i hi => hd i (by simp [hi])) x hx

theorem createBatchReader_table {E : Env} {file : Bytes} {r : FileReader} (h : newReader E file = .ok r) (ht : TypesOrdered r.schemas) (hs : SturdyTable r.schemas) (bo : BatchOption)
    (h0 : bo.isInclude 0 = true) :
    (FileReader.createBatchReader E r bo).Unless (∃ info ∈ r.stripes, ∃ f, readStripeFooter E r.opts file info = .ok f ∧ ¬ f.Named r.schemas) fun br =>
      (∀ info ∈ r.stripes, ∀ f, readStripeFooter E r.opts file info = .ok f → f.HasData bo r.schemas) → BatchCalm E.c r.schemas.length (fieldsRead bo r.schemas).length (r.schemas.map (·.hasNulls)) r.opts.indexStride br := by
  have hfile : r.file = file := by
    obtain ⟨ps, ft, footer, psB, flat, -, -, -, -, rfl⟩ := (open_ok_iff E file r).1 h
    rfl
  rw [FileReader.createBatchReader]
  split
  · trivial
  · rw [hfile]
    exact (initStripes_table h ht hs bo h0 r.stripes).bind fun ss _ hss => fun hd => ⟨rfl, hss hd⟩

theorem initStripes_length {E : Env} {ro : ROpts} {bo : BatchOption} {file : Bytes} {types : List RdType} : ∀ (is : List StripeInfo) (ss : List (StripeReader (Rd types.length))),
    initStripes E ro bo file types is = .ok ss → ss.length = is.length := by
  intro is
  induction is with
  | nil => intro ss h; cases h; rfl
  | cons i is ih =>
    intro ss h
    rw [initStripes] at h
    split at h
    · cases h
    · obtain ⟨s, -, h⟩ := Res.bind_ok_inv h
      obtain ⟨ss', h1, h⟩ := Res.bind_ok_inv h
      cases h
      simp [ih ss' h1]

theorem createBatchReader_seated {E : Env} {r : FileReader} {bo : BatchOption} {br : BatchReader (Rd r.schemas.length)} (h : FileReader.createBatchReader E r bo = .ok br)
    (hs : r.stripes ≠ [] ∨ r.numberOfRows ≤ 1) : Seated br := by
  rw [FileReader.createBatchReader] at h
  split at h
  · cases h
  · obtain ⟨ss, h1, h⟩ := Res.bind_ok_inv h
    cases h
    refine ⟨Int.le_refl _, hs.imp (fun hs e => hs (List.length_eq_zero_iff.1 ?_)) id⟩
    rw [← initStripes_length _ _ h1]
    exact List.length_eq_zero_iff.2 e

theorem Vec.Tabular.agrees {hasNulls : List Bool} {flags : Bool} (h0 : hasNulls[0]? = some flags) {fields rows : Nat} {v : Vec} (h : v.Tabular flags fields rows) : v.Agrees hasNulls := by
  obtain ⟨s, cs, rfl, h2, -, h4⟩ := h
  cases flags with
  | true =>
    obtain ⟨a, rfl, -⟩ := h2
    exact fun _ => h0
  | false =>
    simp only [Bool.false_eq_true, if_false] at h2
    subst h2
    cases cs with
    | nil => trivial
    | cons c cs =>
      obtain ⟨id, k, s, rfl, hk, -⟩ := h4 c (by simp)
      intro hh
      rw [hh] at hk
      cases hk

/-- **C94** Whatever the bytes are: a flat table of tinyint, boolean, float and double columns is read without a panic and without a call that does not return. Making the
batch reader panics only if the footer of some stripe can be read and lacks an encoding or has a stream of a column that does not exist; and every sequence of calls of `Next`,
with vectors for the table, and of `Seek`, if the file has a stride, is orderly: every call returns or reports an error, if the footers of the stripes name the data of the columns that
are read, and the file has a stripe or at most one row. (`N`: see C88.) -/
theorem damaged_table_orderly (E : Env) (file : Bytes) (r : FileReader) (h : newReader E file = .ok r) (ht : TypesOrdered r.schemas) (hs : SturdyTable r.schemas)
    (bo : BatchOption) (h0 : bo.isInclude 0 = true) (flags : Bool) (hflags : (r.schemas.map (·.hasNulls))[0]? = some flags) :
    ((∀ info ∈ r.stripes, ∀ f, readStripeFooter E r.opts file info = .ok f → f.Named r.schemas) → (FileReader.createBatchReader E r bo).Orderly) ∧
      ∀ br, FileReader.createBatchReader E r bo = .ok br → (∀ info ∈ r.stripes, ∀ f, readStripeFooter E r.opts file info = .ok f → f.HasData bo r.schemas) → (r.stripes ≠ [] ∨ r.numberOfRows ≤ 1) → ∃ N, ∀ fuel, N ≤ fuel → ∀ ops : List FileOp,
        (∀ v, FileOp.next v ∈ ops → ∃ rows, v.Tabular flags (fieldsRead bo r.schemas).length rows) → (∀ row, FileOp.seek row ∈ ops → r.opts.indexStride ≠ 0) →
        (br.run (rdOps E.c fuel r.schemas.length) fuel ops).Orderly := by
  have key := createBatchReader_table h ht hs bo h0
  have hang := reading_terminates E file r h ht bo
  refine ⟨fun hw => ⟨fun hp => ?_, hang.1⟩, fun br hbr hdata hrows => ?_⟩
  · obtain ⟨info, h1, f, h2, h3⟩ := key.panic hp
    exact h3 (hw info h1 f h2)
  · obtain ⟨N, hN⟩ := hang.2 br hbr
    refine ⟨N, fun fuel hf ops hv hseek => ⟨?_, hN fuel hf ops fun v hm => ?_⟩⟩
    · exact (run_quiet fuel hflags fuel ops br (key.ok hbr hdata) (createBatchReader_seated hbr hrows) hv hseek).not_panic
    · obtain ⟨rows, hr⟩ := hv v hm
      exact hr.agrees hflags

/-! ### Vectors of `CreateVector` -/

theorem createVecs_fields (o : BatchOption) (hn : o.notCreateVector = false) : ∀ (cs : List Schema), (∀ c ∈ cs, c.node.kind.nested = false) → ∀ vs, createVecs o cs = .ok vs →
    vs.length = (cs.filter fun c => o.isInclude c.node.id).length ∧ ∀ v ∈ vs, v.Field o.rowSize := by
  intro cs
  induction cs with
  | nil => intro _ vs h; cases h; exact ⟨rfl, fun _ h => nomatch h⟩
  | cons c cs ih =>
    intro hk vs h
    rw [createVecs] at h
    obtain ⟨v, h1, h⟩ := Res.bind_ok_inv h
    obtain ⟨ws, h2, h⟩ := Res.bind_ok_inv h
    obtain ⟨i1, i2⟩ := ih (fun d hd => hk d (by simp [hd])) ws h2
    have hc := hk c (by simp)
    obtain ⟨n, ds⟩ := c
    have hc : n.kind.nested = false := hc
    rw [createVec] at h1
    split at h1
    · rename_i hi
      have hv : ∃ s : Slice, v = .mk n.id n.kind (some s) [] ∧ s.arr.length = o.rowSize := by
        cases hkind : n.kind <;> rw [hkind] at hc h1 <;> first | (cases hc; done) | skip
        all_goals
          cases h1
          simp only [hn, Bool.false_eq_true, if_false]
          exact ⟨_, rfl, by simp [makeSlice]⟩
      obtain ⟨a, rfl, ha⟩ := hv
      cases h
      rw [List.filter_cons_of_pos (by exact hi)]
      refine ⟨by simp [i1], fun w hw => ?_⟩
      rcases List.mem_cons.1 hw with rfl | hw
      · exact ⟨_, _, _, rfl, hc, ha⟩
      · exact i2 w hw
    · rename_i hi
      cases h1
      cases h
      rw [List.filter_cons_of_neg (by exact hi)]
      exact ⟨i1, i2⟩

/-- **C94** The vectors that `CreateVector` makes for a flat table are such vectors, with the columns that are read. -/
theorem created_tabular (flags : Bool) (enc : Encoding) (names : List String) (cs : List Schema) (hk : ∀ c ∈ cs, c.node.kind.nested = false) (o : BatchOption)
    (h0 : o.isInclude 0 = true) (hn : o.notCreateVector = false) (v : Vec) (h : createVector (.mk ⟨0, .struct, enc, flags, names⟩ cs) o = .ok v) :
    v.Tabular flags (cs.filter fun c => o.isInclude c.node.id).length o.rowSize := by
  rw [createVector] at h
  split at h
  · cases h
  · obtain ⟨_, -, h⟩ := Res.bind_ok_inv h
    rw [createVec] at h
    simp only [h0, if_true] at h
    obtain ⟨vs, h1, h⟩ := Res.bind_ok_inv h
    cases h
    obtain ⟨i1, i2⟩ := createVecs_fields o hn cs hk vs h1
    refine ⟨_, vs, rfl, ?_, by omega, i2⟩
    cases flags with
    | true => simp only [hn, Bool.not_false, Bool.and_self, if_true]; exact ⟨_, rfl, by simp [makeSlice]⟩
    | false => rfl

/-! ### Examples -/

/-- A table with a tinyint column and a boolean column that has nulls. -/
def exFrail : Schema := .mk ⟨0, .struct, .direct, false, ["t", "b"]⟩ [.mk ⟨1, .byte, .direct, false, []⟩ [], .mk ⟨2, .boolean, .direct, true, []⟩ []]

/-- A file of 5 rows with a stripe footer. -/
def exFrailEnv (streams : List StreamInfo) (columns : List Encoding) : Env := tinyEnv [⟨streams, columns⟩] (tinyFooter exFrail [⟨3, 0, 3, 1, 5⟩]) tinyScript

/-- Its bytes: three bytes of data that are cut off, and the footer of the stripe. -/
def exFrailFile : Bytes := tinyFile [0x02#8, 0x07#8, 0xff#8, 0x00#8]

/-- The conditions of C94 are met by a damaged file: the streams of the boolean column are said to be at places where the file has ended. -/
example : ∃ r br v, newReader (exFrailEnv [⟨.data, 1, 2⟩, ⟨.present, 2, 9⟩, ⟨.data, 2, 70⟩] [.direct, .direct, .direct]) exFrailFile = .ok r ∧ TypesOrdered r.schemas ∧
    SturdyTable r.schemas ∧ (r.schemas.map (·.hasNulls))[0]? = some false ∧ r.opts.indexStride ≠ 0 ∧
    (∀ info ∈ r.stripes, ∀ f, readStripeFooter (exFrailEnv [⟨.data, 1, 2⟩, ⟨.present, 2, 9⟩, ⟨.data, 2, 70⟩] [.direct, .direct, .direct]) r.opts exFrailFile info = .ok f → f.Named r.schemas ∧ f.HasData ⟨[], 10, false⟩ r.schemas) ∧
    FileReader.createBatchReader (exFrailEnv [⟨.data, 1, 2⟩, ⟨.present, 2, 9⟩, ⟨.data, 2, 70⟩] [.direct, .direct, .direct]) r ⟨[], 10, false⟩ = .ok br ∧
    createVector exFrail ⟨[], 10, false⟩ = .ok v ∧ v.Tabular false (fieldsRead ⟨[], 10, false⟩ r.schemas).length 10 := by
  refine ⟨⟨exFrailFile, ⟨.none, 256 * 1024, 10000⟩, [⟨⟨0, .struct, ["t", "b"], [1, 2]⟩, false⟩, ⟨⟨1, .byte, [], []⟩, false⟩, ⟨⟨2, .boolean, [], []⟩, true⟩], 5,
      [tinyStats false, tinyStats false, tinyStats true], [⟨3, 0, 3, 1, 5⟩]⟩, _, _, rfl, ?_, ⟨_, _, rfl, rfl, ?_⟩, rfl, by decide, ?_, rfl, rfl, ?_⟩
  · intro t ht
    simp at ht
    rcases ht with rfl | rfl | rfl <;> simp
  · intro t ht
    simp at ht
    rcases ht with rfl | rfl <;> rfl
  · intro info hi f hf
    simp only [List.mem_singleton] at hi
    subst hi
    cases hf
    refine ⟨⟨by decide, ?_⟩, ?_⟩
    · intro s hs
      simp at hs
      rcases hs with rfl | rfl | rfl <;> decide
    · intro i hi
      simp [fieldsRead, BatchOption.isInclude] at hi
      rcases hi with rfl | rfl
      · exact ⟨⟨.data, 1, 2⟩, by simp, rfl, rfl⟩
      · exact ⟨⟨.data, 2, 70⟩, by simp, rfl, rfl⟩
  · exact ⟨_, _, rfl, rfl, by decide, by
      intro c hc
      simp only [List.mem_cons, List.not_mem_nil, or_false] at hc
      rcases hc with rfl | rfl <;> exact ⟨_, _, _, rfl, rfl, rfl⟩⟩

/-- Reading this file reports an error. -/
example : readRecords (exFrailEnv [⟨.data, 1, 2⟩, ⟨.present, 2, 9⟩, ⟨.data, 2, 70⟩] [.direct, .direct, .direct]) 10 exFrail ⟨[], 10, false⟩ true 5 exFrailFile = .err .eof := by decide +kernel

/-- **C94** The conditions on the footers of stripes are needed: making the batch reader panics if there is no encoding for a column, if there is a stream of a column that does not
exist; and `Next` panics if the data of a column with values are not named. -/
theorem footer_panics : readRecords (exFrailEnv [] []) 10 exFrail ⟨[], 10, false⟩ true 5 exFrailFile = .panic ∧
    readRecords (exFrailEnv [⟨.data, 3, 2⟩] [.direct, .direct, .direct]) 10 exFrail ⟨[], 10, false⟩ true 5 exFrailFile = .panic ∧
    readRecords (exFrailEnv [⟨.data, 2, 2⟩] [.direct, .direct, .direct]) 10 exFrail ⟨[], 10, false⟩ true 5 exFrailFile = .panic :=
  ⟨by decide +kernel, by decide +kernel, by decide +kernel⟩

/-- **C94** The condition on stripes and rows is needed, of every file: if a file is said to have at least two rows, but has no stripes, a batch reader is made, the first `Next`
returns no rows and says there are more, and the second panics, with whatever vectors and columns. -/
theorem stripeless_panics (E : Env) (r : FileReader) (bo : BatchOption) (hb : bo.rowSize ≠ 0) (hs : r.stripes = []) (hr : 2 ≤ r.numberOfRows) :
    ∃ br, FileReader.createBatchReader E r bo = .ok br ∧ ∀ (fuel : Nat) (X : RdOps (Rd r.schemas.length)) (v w v' w' : Vec), v.clear = .ok v' → v'.len = 0 → w.clear = .ok w' →
      ∃ br', br.next X fuel v = .ok (false, v', br') ∧ br'.next X fuel w = .panic := by
  refine ⟨⟨r.opts.indexStride, 0, [], r.numberOfRows, 0⟩, by rw [FileReader.createBatchReader, if_neg hb, hs]; rfl, fun fuel X v w v' w' h1 h2 h3 => ?_⟩
  refine ⟨⟨r.opts.indexStride, -1, [], r.numberOfRows, 0⟩, ?_, ?_⟩
  · rw [BatchReader.next, h1]
    simp only [Res.ok_bind]
    rw [if_neg (by omega), BatchReader.nextLoop.eq_def]
    simp [h2]
    omega
  · rw [BatchReader.next, h3]
    simp only [Res.ok_bind]
    rw [if_neg (by omega), BatchReader.nextLoop.eq_def]
    rfl

/-- Such a file, and such vectors: -/
example : ∃ r, newReader (tinyEnv [] { tinyFooter exFrail [] with numberOfRows := 5 } tinyScript) (tinyFile []) = .ok r ∧ r.stripes = [] ∧ 2 ≤ r.numberOfRows ∧
    ∃ v v', createVector exFrail ⟨[], 10, false⟩ = .ok v ∧ v.clear = .ok v' ∧ v'.len = 0 :=
  ⟨⟨tinyFile [], ⟨.none, 256 * 1024, 10000⟩, [⟨⟨0, .struct, ["t", "b"], [1, 2]⟩, false⟩, ⟨⟨1, .byte, [], []⟩, false⟩, ⟨⟨2, .boolean, [], []⟩, true⟩], 5,
      [tinyStats false, tinyStats false, tinyStats true], []⟩, rfl, rfl, by decide, _, _, rfl, rfl, rfl⟩

/-- A table with a bigint column. -/
def exBrittle : Schema := .mk ⟨0, .struct, .direct, false, ["n"]⟩ [.mk ⟨1, .long, .directV2, false, []⟩ []]

/-- **C94** The condition on the kinds is needed: the seven bytes of C80 make `Next` panic if they are the data of a bigint column. -/
theorem brittle_panics : readRecords (tinyEnv [⟨[⟨.data, 1, 7⟩], [.direct, .directV2]⟩] (tinyFooter exBrittle [⟨3, 0, 7, 1, 5⟩]) tinyScript) 10 exBrittle ⟨[], 10, false⟩ true 5
    (tinyFile [0x80#8, 0x00#8, 0x00#8, 0x21#8, 0x00#8, 0x00#8, 0xe0#8, 0x00#8]) = .panic := by decide +kernel

/-- A table that itself has nulls. -/
def exVeiled : Schema := .mk ⟨0, .struct, .direct, true, ["t"]⟩ [.mk ⟨1, .byte, .direct, false, []⟩ []]

/-- **C94** The condition on the vectors is needed: `Next` panics with a vector that has no flags for the rows of a table that has nulls. -/
theorem flagless_panics : readRecords (tinyEnv [⟨[⟨.present, 0, 2⟩, ⟨.data, 1, 2⟩], [.direct, .direct]⟩] (tinyFooter exVeiled [⟨3, 0, 4, 1, 5⟩]) tinyScript) 10
    (.mk ⟨0, .struct, .direct, false, ["t"]⟩ [.mk ⟨1, .byte, .direct, false, []⟩ []]) ⟨[], 10, false⟩ true 5
    (tinyFile [0xff#8, 0xff#8, 0x02#8, 0x07#8, 0x00#8]) = .panic := by decide +kernel

end Goorc
