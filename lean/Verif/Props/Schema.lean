import Verif.Proofs.Schemas
/-
Schemas: C49 (ids), C50 (footer types), C51 (unsupported nullability), C52 (batch vectors).
-/
namespace Goorc

/-! ### C49: ids -/

/-- **C49** Normalising a schema without unions numbers its columns 0, 1, 2, … in pre-order and changes nothing else;
flattening then lists every column once, the one with id `i` at place `i`. -/
theorem normalize_preorder (s : Schema) (h : s.NoUnion) : ∃ s', normalizeSchema s = .ok s' ∧ s'.plain = s.plain ∧ s'.Numbered ∧
    flat s' = .ok s'.columns ∧ ∀ i (hi : i < s'.columns.length), (s'.columns[i]).node.id = i := by
  obtain ⟨s', h1, h2, h3, h4⟩ := traverse_addId s h 0
  have num : s'.Numbered := by
    unfold Schema.Numbered
    rw [h2, h3, List.range_eq_range']
  have at_id := numbered_at num
  have nu : s'.NoUnion := by
    -- `plain` keeps the kinds
    have kinds : ∀ t u : Schema, t.plain = u.plain → t.columns.map (fun c => c.node.kind) = u.columns.map fun c => c.node.kind := by
      intro t
      induction t using Schema.ind with
      | h n cs ih =>
        intro u
        cases u with
        | mk m ds =>
          intro hp
          simp only [Schema.plain, Schema.mk.injEq, plainAll_eq] at hp
          obtain ⟨hn, hcs⟩ := hp
          have hk : n.kind = m.kind := by
            have := congrArg SchemaNode.kind hn
            exact this
          have all : ∀ (as bs : List Schema), (∀ a ∈ as, a ∈ cs) → as.map Schema.plain = bs.map Schema.plain →
              (columnsAll as).map (fun c => c.node.kind) = (columnsAll bs).map fun c => c.node.kind := by
            intro as
            induction as with
            | nil =>
              intro bs _ hb
              cases bs with
              | nil => rfl
              | cons b bs => simp at hb
            | cons a as iha =>
              intro bs hsub hb
              cases bs with
              | nil => simp at hb
              | cons b bs =>
                simp only [List.map_cons, List.cons.injEq] at hb
                simp only [columnsAll, List.map_append]
                rw [ih a (hsub a (by simp)) b hb.1, iha bs (fun x hx => hsub x (by simp [hx])) hb.2]
          simp only [Schema.columns, List.map_cons, Schema.node, hk]
          have := all cs ds (fun _ h => h) hcs
          simp only [Schema.node] at this
          rw [this]
    have hk := kinds s' s h4
    intro c hc hun
    have : TypeKind.union ∈ s'.columns.map (fun c => c.node.kind) := List.mem_map.mpr ⟨c, hc, hun⟩
    rw [hk] at this
    obtain ⟨d, hd, hdk⟩ := List.mem_map.mp this
    exact h d hd hdk
  refine ⟨s', by simp [normalizeSchema, setId, h1], h4, num, ?_, at_id⟩
  -- the check of the ids
  have chk : traverseAll checkIdAction () s'.children = .ok (s'.children, ()) := by
    rw [traverseAll_check (fun c => decide (c.node.id = 0)) checkIdAction (fun s c => by simp [checkIdAction])]
    rw [if_pos]
    cases s' with
    | mk n cs =>
      constructor
      · intro d hd c hc
        have hm : c ∈ columnsAll cs := by
          rw [columnsAll_eq]; exact List.mem_flatMap.mpr ⟨d, hd, hc⟩
        obtain ⟨i, hi, rfl⟩ := List.mem_iff_getElem.mp hm
        have := at_id (i + 1) (by simp only [Schema.columns, List.length_cons]; omega)
        simp only [Schema.columns, List.getElem_cons_succ] at this
        simp [this]
      · exact noUnion_child nu
  simp [flat, checkId, chk, traverse_addSchema s' nu]

/-- Flattening succeeds exactly for schemas without unions in which every column but the root has an id, and lists the
columns in pre-order. -/
theorem flat_iff (s : Schema) (l : List Schema) : flat s = .ok l ↔
    s.NoUnion ∧ (∀ c ∈ s.children, ∀ d ∈ c.columns, d.node.id ≠ 0) ∧ l = s.columns := by
  have hchk := traverseAll_check (fun c => decide (c.node.id = 0)) checkIdAction (fun s c => by simp [checkIdAction]) s.children
  have hadd := traverse_total addSchema (fun s c => ⟨_, _, rfl⟩) s []
  simp only [flat, checkId, hchk]
  by_cases h : (∀ d ∈ s.children, ∀ c ∈ d.columns, decide (c.node.id = 0) = false) ∧ ∀ d ∈ s.children, d.NoUnion
  · rw [if_pos h]
    simp only [Res.ok_bind, Res.pure_eq]
    by_cases hu : s.NoUnion
    · rw [traverse_addSchema s hu]
      simp only [Res.ok_bind, List.nil_append, Res.ok.injEq]
      constructor
      · intro hl; exact ⟨hu, by simpa using h.1, hl.symm⟩
      · rintro ⟨_, _, rfl⟩; rfl
    · rw [hadd.2 hu]
      simp [hu]
  · rw [if_neg h]
    simp only [Res.err_bind, reduceCtorEq, false_iff]
    rintro ⟨hu, hid, _⟩
    refine h ⟨by simpa using hid, ?_⟩
    cases s with
    | mk n cs => exact noUnion_child hu

/-- A schema with a union anywhere cannot be normalised. -/
theorem normalize_union (s : Schema) (h : ¬ s.NoUnion) : normalizeSchema s = .err .other := by
  have := (traverse_total addId (fun s c => ⟨_, _, rfl⟩) s 0).2 h
  simp [normalizeSchema, setId, this]

/-- `CheckNulls` accepts a schema exactly if its root is not nullable, or nothing below the root is nullable (or a union). -/
theorem check_nulls_iff (s : Schema) : checkNulls s = .ok () ↔
    (s.node.hasNulls = true → ∀ c ∈ s.children, c.NoUnion ∧ ∀ d ∈ c.columns, d.node.hasNulls = false) := by
  unfold checkNulls
  cases hn : s.node.hasNulls
  · simp
  · have hchk := traverseAll_check (fun c => c.node.hasNulls) checkNoNull (fun s c => rfl) s.children
    simp only [if_true, hchk, true_implies]
    by_cases h : (∀ d ∈ s.children, ∀ c ∈ d.columns, c.node.hasNulls = false) ∧ ∀ d ∈ s.children, d.NoUnion
    · rw [if_pos h]
      simp only [Res.ok_bind, Res.pure_eq, true_iff]
      exact fun c hc => ⟨h.2 c hc, h.1 c hc⟩
    · rw [if_neg h]
      simp only [Res.err_bind, reduceCtorEq, false_iff]
      exact fun h' => h ⟨fun c hc => (h' c hc).2, fun c hc => (h' c hc).1⟩

/-- A leaf column as a client makes it. -/
def leafSchema (k : TypeKind) (nulls : Bool := false) : Schema := .mk ⟨0, k, .direct, nulls, []⟩ []

/-- `struct<a:int, b:struct<c:string>, d:list<date>>`. -/
def sampleSchema : Schema :=
  .mk ⟨0, .struct, .direct, false, ["a", "b", "d"]⟩
    [leafSchema .int, .mk ⟨0, .struct, .direct, true, ["c"]⟩ [leafSchema .string], .mk ⟨0, .list, .directV2, false, []⟩ [leafSchema .date]]

example : sampleSchema.NoUnion ∧ (normalizeSchema sampleSchema >>= fun s => .ok (s.columns.map fun c => (c.node.id, c.node.kind))) =
    .ok [(0, .struct), (1, .int), (2, .struct), (3, .string), (4, .list), (5, .date)] := by
  refine ⟨?_, by decide +kernel⟩
  simp [Schema.NoUnion, sampleSchema, leafSchema, Schema.columns, columnsAll, Schema.node]

/-! ### C50: the footer -/

theorem addChild_named (s c : Schema) (name : String) (hs : s.Named) (hc : c.Named) : (s.addChild name c).Named := by
  cases s with
  | mk n cs =>
    intro d hd hk
    simp only [Schema.addChild, Schema.columns, Schema.children, columnsAll_eq, List.flatMap_append, List.mem_cons, List.mem_append,
      List.flatMap_cons, List.flatMap_nil, List.append_nil] at hd
    rcases hd with rfl | hd | hd
    · have := hs _ (self_mem_columns _) hk
      simp only [Schema.node, Schema.children, List.length_append] at this ⊢
      rw [this]; rfl
    · exact hs d (by simp only [Schema.columns, columnsAll_eq, List.mem_cons]; exact Or.inr hd) hk
    · exact hc d hd hk

private theorem children_ok (total : Nat) (t : PbType) (hn : t.kind = .struct → t.names.length = t.subtypes.length) :
    ∀ (done subs : List Nat), t.subtypes = done ++ subs → (∀ i ∈ subs, i < total) →
      unmarshallChildren total t done.length subs =
        .ok (subs, if t.kind = .struct then t.names.drop done.length else List.replicate subs.length "") := by
  intro done subs
  induction subs generalizing done with
  | nil =>
    intro ht _
    by_cases hk : t.kind = .struct
    · have := hn hk
      rw [ht, List.append_nil] at this
      simp [unmarshallChildren, hk, ← this]
    · simp [unmarshallChildren, hk]
  | cons i subs ih =>
    intro ht hlt
    have h2 := ih (done ++ [i]) (by simp [ht]) (fun j hj => hlt j (by simp [hj]))
    simp only [List.length_append, List.length_singleton] at h2
    have hi := hlt i (by simp)
    by_cases hk : t.kind = .struct
    · have hlen : done.length < t.names.length := by
        rw [hn hk, ht]; simp
      simp only [unmarshallChildren, hk, if_true, List.getElem?_eq_getElem hlen, Res.ok_bind, hi]
      simp only [hk, if_true] at h2
      rw [h2]
      simp only [Res.ok_bind, Res.pure_eq]
      rw [← List.drop_eq_getElem_cons hlen]
    · simp only [unmarshallChildren, hk, if_false, Res.ok_bind, hi, if_true]
      simp only [hk, if_false] at h2
      rw [h2]
      simp [List.replicate_succ]

private theorem from_ok (total : Nat) (types : List PbType) : ∀ i,
    (∀ t ∈ types, (t.kind = .struct → t.names.length = t.subtypes.length) ∧ ∀ j ∈ t.subtypes, j < total) →
    unmarshallFrom total i types = .ok (types.mapIdx fun k t =>
      ⟨i + k, t.kind, if t.kind = .struct then t.names else List.replicate t.subtypes.length "", t.subtypes⟩) := by
  induction types with
  | nil => intro i _; simp [unmarshallFrom]
  | cons t ts ih =>
    intro i h
    have h1 := children_ok total t (h t (by simp)).1 [] t.subtypes rfl (h t (by simp)).2
    simp only [List.length_nil, List.drop_zero] at h1
    simp only [unmarshallFrom, h1, Res.ok_bind, ih (i + 1) (fun u hu => h u (by simp [hu])), Res.pure_eq, List.mapIdx_cons,
      Nat.add_zero]
    congr 2
    apply List.ext_getElem (by simp)
    intro k hk hk'
    simp only [List.getElem_mapIdx]
    congr 1
    omega

/-- **C50** What the reader makes of the footer types of a numbered schema is the same tree: from element 0 on the same
ids, kinds, children and struct field names. Encodings and nullability are not part of the types. -/
theorem schema_round_trip (s : Schema) (num : s.Numbered) (named : s.Named) : ∃ heap,
    unmarshallSchema (schemasToTypes s.columns) = .ok heap ∧ heap.length = s.columns.length ∧ Represents heap 0 s := by
  have at_id := numbered_at num
  have id_lt : ∀ c ∈ s.columns, ∃ h : c.node.id < s.columns.length, s.columns[c.node.id] = c := by
    intro c hc
    obtain ⟨i, hi, rfl⟩ := List.mem_iff_getElem.mp hc
    rw [at_id i hi]
    exact ⟨hi, rfl⟩
  have hok : ∀ t ∈ schemasToTypes s.columns, (t.kind = .struct → t.names.length = t.subtypes.length) ∧
      ∀ j ∈ t.subtypes, j < (schemasToTypes s.columns).length := by
    intro t ht
    simp only [schemasToTypes, List.mem_map] at ht
    obtain ⟨c, hc, rfl⟩ := ht
    constructor
    · intro hk
      simpa using named c hc hk
    · intro j hj
      simp only [List.mem_map] at hj
      obtain ⟨d, hd, rfl⟩ := hj
      simpa [schemasToTypes] using (id_lt d (columns_child hc hd)).1
  have hun := from_ok (schemasToTypes s.columns).length (schemasToTypes s.columns) 0 hok
  refine ⟨_, hun, by simp [schemasToTypes], ?_⟩
  have main : ∀ c : Schema, c ∈ s.columns → Represents ((schemasToTypes s.columns).mapIdx fun k t =>
      ⟨0 + k, t.kind, if t.kind = .struct then t.names else List.replicate t.subtypes.length "", t.subtypes⟩) c.node.id c := by
    intro c
    induction c using Schema.ind with
    | h n cs ih =>
      intro hc
      refine .mk n cs (cs.map fun d => d.node.id) ?_ ?_
      · obtain ⟨hlt, heq⟩ := id_lt _ hc
        simp only [Schema.node] at hlt heq
        simp only [List.getElem?_mapIdx, schemasToTypes, List.getElem?_map, List.getElem?_eq_getElem hlt, heq, Option.map_some,
          Schema.node, Schema.children, List.length_map, Nat.zero_add, SchemaNode.readNames]
      · rw [List.forall₂_map_left_iff, List.forall₂_same]
        exact fun d hd => ih d hd (columns_child hc hd)
  have h0 : s.node.id = 0 := by
    have := at_id 0 (by cases s; simp [Schema.columns])
    cases s
    simpa [Schema.columns] using this
  have := main s (self_mem_columns s)
  rwa [h0] at this

/-- Names are needed: if some struct has fewer names than children, the file this schema was written to cannot be opened. -/
theorem schema_names_missing (s : Schema) (num : s.Numbered)
    (c : Schema) (hc : c ∈ s.columns) (hk : c.node.kind = .struct) (hlt : c.node.names.length < c.children.length) :
    unmarshallSchema (schemasToTypes s.columns) = .panic := by
  have at_id := numbered_at num
  have id_lt : ∀ c ∈ s.columns, c.node.id < s.columns.length := by
    intro c hc
    obtain ⟨i, hi, rfl⟩ := List.mem_iff_getElem.mp hc
    rw [at_id i hi]; exact hi
  -- no call reports an error
  have nob : ∀ (total : Nat) (t : PbType) (subs : List Nat) (j : Nat), unmarshallChildren total t j subs = .panic ∨
      (∃ r, unmarshallChildren total t j subs = .ok r) ∧ (t.kind = .struct → subs = [] ∨ j + subs.length ≤ t.names.length) := by
    intro total t subs
    induction subs with
    | nil => intro j; right; exact ⟨⟨_, rfl⟩, fun _ => Or.inl rfl⟩
    | cons i subs ih =>
      intro j
      simp only [unmarshallChildren]
      by_cases hs : t.kind = .struct
      · by_cases hj : j < t.names.length
        · simp only [hs, if_true, List.getElem?_eq_getElem hj, Res.ok_bind]
          by_cases hi : i < total
          · rw [if_pos hi]
            rcases ih (j + 1) with h | ⟨⟨r, h⟩, h2⟩
            · left; rw [h]; rfl
            · right
              refine ⟨⟨_, by rw [h]; rfl⟩, fun _ => Or.inr ?_⟩
              rcases h2 hs with h3 | h3
              · subst h3; simp; omega
              · simp only [List.length_cons]; omega
          · left; rw [if_neg hi]
        · left
          simp [hs, List.getElem?_eq_none (Nat.le_of_not_lt hj)]
      · simp only [hs, if_false, Res.ok_bind]
        by_cases hi : i < total
        · rw [if_pos hi]
          rcases ih (j + 1) with h | ⟨⟨r, h⟩, h2⟩
          · left; rw [h]; rfl
          · right; exact ⟨⟨_, by rw [h]; rfl⟩, fun h => absurd h (by simp)⟩
        · left; rw [if_neg hi]
  have run : ∀ (total : Nat) (types : List PbType) (i : Nat),
      (∃ t ∈ types, t.kind = .struct ∧ t.names.length < t.subtypes.length) → unmarshallFrom total i types = .panic := by
    intro total types
    induction types with
    | nil => rintro i ⟨t, ht, _⟩; simp at ht
    | cons u us ih =>
      rintro i ⟨t, ht, h1, h2⟩
      simp only [unmarshallFrom]
      rcases nob total u u.subtypes 0 with h | ⟨⟨r, h⟩, h3⟩
      · rw [h]; rfl
      · rcases List.mem_cons.mp ht with rfl | ht
        · exfalso
          rcases h3 h1 with h4 | h4
          · rw [h4] at h2; simp at h2
          · omega
        · rw [h, Res.ok_bind, ih (i + 1) ⟨t, ht, h1, h2⟩]; rfl
  refine run _ _ 0 ⟨_, List.mem_map.mpr ⟨c, hc, rfl⟩, hk, ?_⟩
  simpa using hlt

example : (normalizeSchema sampleSchema >>= fun s => .ok (schemasToTypes s.columns)) =
    .ok [⟨.struct, [1, 2, 4], ["a", "b", "d"]⟩, ⟨.int, [], []⟩, ⟨.struct, [3], ["c"]⟩, ⟨.string, [], []⟩, ⟨.list, [5], []⟩,
      ⟨.date, [], []⟩] := by decide +kernel

/-- The other way to the footer types (`marshallSchema`, which nothing calls) gives the same types, if every child has a
name. -/
theorem marshall_same (s : Schema) (h : ∀ c ∈ s.columns, c.node.names.length = c.children.length) :
    marshallSchema s = .ok (schemasToTypes s.columns) := by
  induction s using Schema.ind with
  | h n cs ih =>
    have hroot := h _ (self_mem_columns _)
    simp only [Schema.node, Schema.children] at hroot
    have all : ∀ (ds : List Schema), (∀ d ∈ ds, d ∈ cs) → marshallAll ds = .ok (schemasToTypes (columnsAll ds)) := by
      intro ds
      induction ds with
      | nil => intro _; rfl
      | cons d ds ihd =>
        intro hsub
        have hm := hsub d (by simp)
        rw [marshallAll, ih d hm (fun c hc => h c (columns_trans (columns_child (self_mem_columns _) (by exact hm)) hc)), Res.ok_bind,
          ihd (fun e he => hsub e (by simp [he]))]
        simp [columnsAll, schemasToTypes]
    simp only [marshallSchema, hroot, Nat.le_refl, if_true, List.take_length, all cs (fun _ h => h), Res.ok_bind, Res.pure_eq]
    simp [Schema.columns, schemasToTypes, Schema.node, Schema.children]

/-! ### C51: unsupported nullability -/

/-- What `CreateVector` really checks: along the path of first children, no nullable column has a nullable first child. -/
theorem verify_iff (s : Schema) : verifySchema s = .ok () ↔
    ∀ d, LeftSpine s d → ∀ c cs, d.children = c :: cs → d.node.kind.nested = true → ¬ (d.node.hasNulls = true ∧ c.node.hasNulls = true) := by
  induction s using Schema.ind with
  | h n cs ih =>
    cases hk : n.kind.nested with
    | false =>
      simp only [verifySchema, hk, Bool.false_eq_true, if_false, true_iff]
      intro d hd
      cases hd with
      | here => intro c cs' _ hn; simp [Schema.node, hk] at hn
      | down _ _ _ _ hn => simp [hk] at hn
    | true =>
      cases cs with
      | nil =>
        simp only [verifySchema, hk, if_true, verifyFirst, true_iff]
        intro d hd
        cases hd with
        | here => intro c cs' h; simp [Schema.children] at h
      | cons c cs =>
        simp only [verifySchema, hk, if_true, verifyFirst]
        by_cases hb : n.hasNulls = true ∧ c.node.hasNulls = true
        · rw [if_pos (by simp [hb])]
          simp only [reduceCtorEq, false_iff]
          intro h
          exact h _ (.here _) c cs rfl hk hb
        · rw [if_neg (by simpa using hb), ih c (by simp)]
          constructor
          · intro h d hd
            cases hd with
            | here =>
              intro c' cs' hc _
              simp only [Schema.children, List.cons.injEq] at hc
              rw [← hc.1]; exact hb
            | down _ _ _ _ _ below => exact h d below
          · intro h d hd
            exact h d (.down n c cs d hk hd)

private theorem verify_cases (s : Schema) : verifySchema s = .ok () ∨ verifySchema s = .err .other := by
  induction s using Schema.ind with
  | h n cs ih =>
    simp only [verifySchema]
    cases n.kind.nested with
    | false => simp
    | true =>
      cases cs with
      | nil => simp [verifyFirst]
      | cons c cs =>
        simp only [if_true, verifyFirst]
        split
        · simp
        · exact ih c (by simp)

/-- **C51, the part that holds**: a nullable struct whose *first* child is nullable is rejected if it is the root, or reached
from it by first children only. -/
theorem unsupported_rejected_partial (s d c : Schema) (cs : List Schema) (o : BatchOption) (hd : LeftSpine s d)
    (hk : d.node.kind = .struct) (hn : d.node.hasNulls = true) (hc : d.children = c :: cs) (hcn : c.node.hasNulls = true) :
    createVector s o = .err .other := by
  have hnot : verifySchema s ≠ .ok () := by
    rw [Ne, verify_iff]
    exact fun h => h d hd c cs hc (by rw [hk]; rfl) ⟨hn, hcn⟩
  unfold createVector
  split
  · rfl
  · rcases verify_cases s with h | h
    · exact absurd h hnot
    · simp [h]

/-- `struct<a:int, b:int>`, nullable, with `b` nullable. -/
def unsupportedSchema : Schema :=
  .mk ⟨0, .struct, .direct, true, ["a", "b"]⟩ [.mk ⟨1, .int, .directV2, false, []⟩ [], .mk ⟨2, .int, .directV2, true, []⟩ []]

/-- **C51 is false**: a vector is created for a nullable struct with a nullable child, if it is not the first child. -/
theorem unsupported_rejected_false : ¬ ∀ (s d : Schema) (o : BatchOption), d ∈ s.columns → d.Unsupported →
    ∃ e, createVector s o = .err e := by
  intro h
  obtain ⟨e, he⟩ := h unsupportedSchema unsupportedSchema ⟨[], 10, false⟩ (self_mem_columns _)
    ⟨rfl, rfl, .mk ⟨2, .int, .directV2, true, []⟩ [], by simp [unsupportedSchema, Schema.children], rfl⟩
  have : (createVector unsupportedSchema ⟨[], 10, false⟩).isOk = true := by decide +kernel
  rw [he] at this
  simp [Res.isOk] at this

/-- And a list or map is treated like a struct: a nullable list of nullable elements is rejected, although it is not
among the unsupported schemas. -/
theorem nullable_list_rejected : ∃ s : Schema, (∀ d ∈ s.columns, ¬ d.Unsupported) ∧ ∀ o, createVector s o = .err .other := by
  refine ⟨.mk ⟨0, .list, .directV2, true, []⟩ [.mk ⟨1, .int, .directV2, true, []⟩ []], ?_, ?_⟩
  · simp [Schema.columns, columnsAll, Schema.Unsupported, Schema.node]
  · intro o
    unfold createVector
    split
    · rfl
    · rfl

example : LeftSpine (.mk ⟨0, .struct, .direct, false, ["x"]⟩ [.mk ⟨1, .struct, .direct, true, ["a"]⟩ [.mk ⟨2, .int, .directV2, true, []⟩ []]])
    (.mk ⟨1, .struct, .direct, true, ["a"]⟩ [.mk ⟨2, .int, .directV2, true, []⟩ []]) :=
  .down _ _ _ _ rfl (.here _)

/-! ### C52: batch vectors -/

private theorem zero_fresh (k : TypeKind) : k.zero = k.fresh := by cases k <;> rfl

private theorem createVec_mirrors (o : BatchOption) (s : Schema) :
    s.WellFormed → o.Complete s → (o.isInclude s.node.id = true → ∃ v, createVec o s = .ok v ∧ Mirrors o s v) ∧
      (o.isInclude s.node.id = false → createVec o s = .ok .nil) := by
  induction s using Schema.ind with
  | h n cs ih =>
    intro wf comp
    have wfc : ∀ c ∈ cs, c.WellFormed := fun c hc d hd => wf d (columns_trans (columns_child (self_mem_columns _) (by exact hc)) hd)
    have compc : ∀ c ∈ cs, o.Complete c := fun c hc d hd => comp d (columns_trans (columns_child (self_mem_columns _) (by exact hc)) hd)
    constructor
    swap
    · intro hi
      simp only [Schema.node] at hi
      simp [createVec, hi]
    · intro hi
      have hroot := wf _ (self_mem_columns _)
      have croot := comp _ (self_mem_columns _)
      simp only [Schema.node, Schema.children] at hi hroot croot
      have mkroom : ∀ k : TypeKind, ∃ sl, some (makeSlice o.rowSize k.zero) = some sl ∧ sl.len = o.rowSize ∧ sl.arr.length = o.rowSize ∧
          ∀ v ∈ sl.arr, v = ⟨false, k.fresh⟩ :=
        fun k => ⟨_, rfl, rfl, by simp [makeSlice], fun v hv => by rw [(List.mem_replicate.mp hv).2, zero_fresh]⟩
      have leafCase : ∀ k : TypeKind, n.kind = k → k.nested = false →
          createVec o (.mk n cs) = .ok (.mk n.id n.kind (if o.notCreateVector then none else some (makeSlice o.rowSize n.kind.zero)) []) →
          ∃ v, createVec o (.mk n cs) = .ok v ∧ Mirrors o (.mk n cs) v := by
        intro k hk hnest he
        have hmk : o.makes n = !o.notCreateVector := by
          rw [TypeKind.nested.eq_def] at hnest
          cases k <;> simp_all [BatchOption.makes, SchemaNode.hasVector]
        refine ⟨_, he, .mk n cs _ _ (fun h => ?_) (fun h => ?_) ?_ (fun _ => rfl)⟩
        · rw [hmk, Bool.not_eq_true'] at h
          rw [h]; exact mkroom n.kind
        · rw [hmk, Bool.not_eq_false'] at h
          rw [h]; rfl
        · intro h; rw [hk, hnest] at h; simp at h
      cases hk : n.kind with
      | struct =>
        have all : ∀ (ds : List Schema), (∀ d ∈ ds, d ∈ cs) → ∃ vs, createVecs o ds = .ok vs ∧
            List.Forall₂ (Mirrors o) (ds.filter fun c => o.isInclude c.node.id) vs := by
          intro ds
          induction ds with
          | nil => intro _; exact ⟨[], rfl, .nil⟩
          | cons d ds ihd =>
            intro hsub
            obtain ⟨vs, hvs, hm⟩ := ihd (fun e he => hsub e (by simp [he]))
            have hd := ih d (hsub d (by simp)) (wfc d (hsub d (by simp))) (compc d (hsub d (by simp)))
            cases hinc : o.isInclude d.node.id with
            | false =>
              refine ⟨vs, ?_, by simpa [List.filter_cons, hinc] using hm⟩
              simp [createVecs, hd.2 hinc, hvs]
            | true =>
              obtain ⟨v, hv1, hv2⟩ := hd.1 hinc
              refine ⟨v :: vs, ?_, by simpa [List.filter_cons, hinc] using List.Forall₂.cons hv2 hm⟩
              cases hv2
              simp [createVecs, hv1, hvs]
        obtain ⟨vs, hvs, hm⟩ := all cs (fun _ h => h)
        refine ⟨_, by simp only [createVec, hi, if_true, hk, hvs, Res.ok_bind, Res.pure_eq]; rfl, ?_⟩
        rw [← hk]
        refine .mk n cs _ _ ?_ ?_ (fun _ => hm) (fun h => by rw [hk] at h; simp [TypeKind.nested] at h)
        · intro h
          rw [if_pos (by simpa [BatchOption.makes, SchemaNode.hasVector, hk] using h), hk]
          exact mkroom .struct
        · intro h
          rw [if_neg (by simpa [BatchOption.makes, SchemaNode.hasVector, hk] using h)]
      | list =>
        have hl := hroot.1 hk
        match cs, hl with
        | [c], _ =>
          have hc : o.isInclude c.node.id = true := croot (Or.inl hk) hi c (by simp)
          obtain ⟨v, hv1, hv2⟩ := (ih c (by simp) (wfc c (by simp)) (compc c (by simp))).1 hc
          refine ⟨_, by simp only [createVec, hi, if_true, hk, createNth, hv1, Res.ok_bind, Res.pure_eq]; rfl, ?_⟩
          rw [← hk]
          refine .mk n [c] _ _ (fun h => ?_) (fun h => ?_) (fun _ => ?_) (fun h => by rw [hk] at h; simp [TypeKind.nested] at h)
          · simp only [BatchOption.makes, SchemaNode.hasVector, hk, ne_eq, reduceCtorEq, not_false_eq_true, decide_true, Bool.true_or, Bool.true_and, decide_false, Bool.or_false,
              Bool.not_eq_true'] at h
            rw [h, hk]; exact mkroom .list
          · simp only [BatchOption.makes, SchemaNode.hasVector, hk, ne_eq, reduceCtorEq, not_false_eq_true, decide_true, Bool.true_or, Bool.true_and, decide_false, Bool.or_false,
              Bool.not_eq_false'] at h
            rw [h]; rfl
          · simpa [List.filter_cons, hc] using hv2
      | map =>
        have hl := hroot.2.1 hk
        match cs, hl with
        | [c, d], _ =>
          have hc : o.isInclude c.node.id = true := croot (Or.inr hk) hi c (by simp)
          have hd : o.isInclude d.node.id = true := croot (Or.inr hk) hi d (by simp)
          obtain ⟨v, hv1, hv2⟩ := (ih c (by simp) (wfc c (by simp)) (compc c (by simp))).1 hc
          obtain ⟨w, hw1, hw2⟩ := (ih d (by simp) (wfc d (by simp)) (compc d (by simp))).1 hd
          refine ⟨_, by simp only [createVec, hi, if_true, hk, createNth, hv1, hw1, Res.ok_bind, Res.pure_eq]; rfl, ?_⟩
          rw [← hk]
          refine .mk n [c, d] _ _ (fun _ => ?_) ?_ (fun _ => ?_) (fun h => by rw [hk] at h; simp [TypeKind.nested] at h)
          · rw [hk]; exact mkroom .map
          · intro h; simp [BatchOption.makes, SchemaNode.hasVector, hk] at h
          · simpa [List.filter_cons, hc, hd] using ⟨hv2, hw2⟩
      | union => exact absurd hk hroot.2.2
      | _ => exact leafCase _ hk rfl (by simp only [createVec, hi, if_true, hk]; rfl)

/-- **C52, the part that holds** For every well-formed schema that passes the check, and every list of included columns that includes the
root and, with a list or map, its elements: `CreateVector` gives a tree of vectors that mirrors the schema. -/
theorem vector_mirrors_partial (s : Schema) (o : BatchOption) (wf : s.WellFormed) (comp : o.Complete s) (rows : o.rowSize ≠ 0)
    (sup : verifySchema s = .ok ()) (root : o.isInclude s.node.id = true) :
    ∃ v, createVector s o = .ok v ∧ Mirrors o s v := by
  obtain ⟨v, h1, h2⟩ := (createVec_mirrors o s wf comp).1 root
  exact ⟨v, by simp [createVector, rows, sup, h1], h2⟩

/-- The two other outcomes: a row size of 0 is an error, and a root that is not included gives a nil vector without an
error. -/
theorem vector_not_created (s : Schema) (o : BatchOption) : (o.rowSize = 0 → createVector s o = .err .other) ∧
    (o.rowSize ≠ 0 → verifySchema s = .ok () → o.isInclude s.node.id = false → createVector s o = .ok .nil) := by
  constructor
  · intro h; simp [createVector, h]
  · intro h1 h2 h3
    cases s with
    | mk n cs =>
      simp only [Schema.node] at h3
      simp [createVector, h1, h2, createVec, h3]

private theorem createVec_cases (o : BatchOption) (s : Schema) : (createVec o s = .panic ∧ s.NoVector o) ∨ (∃ v, createVec o s = .ok v) ∧ ¬ s.NoVector o := by
  induction s using Schema.ind with
  | h n cs ih =>
    rw [createVec.eq_def]; dsimp only
    by_cases hi : o.isInclude n.id = true
    case neg =>
      rw [if_neg hi]
      exact .inr ⟨⟨_, rfl⟩, fun h => by cases h <;> exact hi (by assumption)⟩
    rw [if_pos hi]
    have hother : ∀ v : Vec, n.kind ≠ .union → n.kind ≠ .struct → n.kind ≠ .list → n.kind ≠ .map → (∃ w : Vec, (Res.ok v) = .ok w) ∧ ¬ (Schema.mk n cs).NoVector o := by
      intro v h1 h2 h3 h4
      exact ⟨⟨_, rfl⟩, fun h => by cases h <;> contradiction⟩
    cases hk : n.kind with
    | union => exact .inl ⟨rfl, .union _ _ hi hk⟩
    | struct =>
      have : (createVecs o cs = .panic ∧ ∃ c ∈ cs, c.NoVector o) ∨ (∃ vs, createVecs o cs = .ok vs) ∧ ∀ c ∈ cs, ¬ c.NoVector o := by
        clear hother
        induction cs with
        | nil => exact .inr ⟨⟨_, rfl⟩, by simp⟩
        | cons c cs ih' =>
          rcases ih c (by simp) with ⟨a1, a2⟩ | ⟨⟨v, a1⟩, a2⟩
          · exact .inl ⟨by simp [createVecs, a1], c, by simp, a2⟩
          · rcases ih' (fun d hd => ih d (by simp [hd])) with ⟨b1, d, hd, b2⟩ | ⟨⟨vs, b1⟩, b2⟩
            · exact .inl ⟨by simp [createVecs, a1, b1], d, by simp [hd], b2⟩
            · refine .inr ⟨?_, fun d hd => ?_⟩
              · cases v <;> simp [createVecs, a1, b1]
              · rcases List.mem_cons.mp hd with rfl | hd
                exacts [a2, b2 d hd]
      rcases this with ⟨a1, c, hc, a2⟩ | ⟨⟨vs, a1⟩, a2⟩
      · exact .inl ⟨by simp [a1], .field _ _ c hi hk hc a2⟩
      · refine .inr ⟨by simp [a1], fun h => ?_⟩
        cases h <;> simp_all
    | list =>
      cases cs with
      | nil => exact .inl ⟨rfl, .noElement _ hi hk⟩
      | cons e cs =>
        rcases ih e (by simp) with ⟨a1, a2⟩ | ⟨⟨v, a1⟩, a2⟩
        · exact .inl ⟨by simp [createNth, a1], .element _ _ _ hi hk a2⟩
        · refine .inr ⟨by simp [createNth, a1], fun h => ?_⟩
          cases h <;> simp_all
    | map =>
      match cs, ih with
      | [], _ => exact .inl ⟨rfl, .fewTypes _ _ hi hk (by simp)⟩
      | [k], ih =>
        refine .inl ⟨?_, .fewTypes _ _ hi hk (by simp)⟩
        rcases ih k (by simp) with ⟨a1, a2⟩ | ⟨⟨v, a1⟩, a2⟩ <;> simp [createNth, a1]
      | k :: v :: cs, ih =>
        rcases ih k (by simp) with ⟨a1, a2⟩ | ⟨⟨x, a1⟩, a2⟩
        · exact .inl ⟨by simp [createNth, a1], .key _ _ _ _ hi hk a2⟩
        · rcases ih v (by simp) with ⟨b1, b2⟩ | ⟨⟨y, b1⟩, b2⟩
          · exact .inl ⟨by simp [createNth, a1, b1], .value _ _ _ _ hi hk b2⟩
          · refine .inr ⟨by simp [createNth, a1, b1], fun h => ?_⟩
            (cases h <;> simp_all); omega
    | _ => exact .inr (hother _ (by simp [hk]) (by simp [hk]) (by simp [hk]) (by simp [hk]))
/-- **C52, exact** What `CreateVector` does with any schema: an error if the row size is 0 or the schema is rejected (C51); a panic if it gets to a type
without the children it needs, or to a union; a vector in all other cases. -/
theorem vector_outcomes (s : Schema) (o : BatchOption) (ok : Prop)
    (hok : ok ↔ ∀ d, LeftSpine s d → ∀ c cs, d.children = c :: cs → d.node.kind.nested = true → ¬ (d.node.hasNulls = true ∧ c.node.hasNulls = true)) :
    (createVector s o = .err .other ↔ o.rowSize = 0 ∨ ¬ ok) ∧ (createVector s o = .panic ↔ o.rowSize ≠ 0 ∧ ok ∧ s.NoVector o) ∧
    ((∃ v, createVector s o = .ok v) ↔ o.rowSize ≠ 0 ∧ ok ∧ ¬ s.NoVector o) := by
  rw [hok, ← verify_iff]
  by_cases hr : o.rowSize = 0
  · simp [createVector, hr]
  · rcases verify_cases s with h | h
    · rcases createVec_cases o s with ⟨h1, h2⟩ | ⟨⟨v, h1⟩, h2⟩ <;> simp [createVector, hr, h, h1, h2]
    · simp [createVector, hr, h]

/-- A list without an element type, in a struct: it panics, unless the list is left out. -/
example : createVector (.mk ⟨0, .struct, .direct, false, ["l"]⟩ [.mk ⟨1, .list, .directV2, false, []⟩ []]) ⟨[], 5, false⟩ = .panic ∧
    ∃ v, createVector (.mk ⟨0, .struct, .direct, false, ["l"]⟩ [.mk ⟨1, .list, .directV2, false, []⟩ []]) ⟨[0], 5, false⟩ = .ok v := by
  have hok : ∀ d, LeftSpine (.mk ⟨0, .struct, .direct, false, ["l"]⟩ [.mk ⟨1, .list, .directV2, false, []⟩ []]) d → ∀ c cs, d.children = c :: cs →
      d.node.kind.nested = true → ¬ (d.node.hasNulls = true ∧ c.node.hasNulls = true) := (verify_iff _).mp rfl
  refine ⟨(vector_outcomes _ _ _ Iff.rfl).2.1.mpr ⟨by decide, hok, .field _ _ _ rfl rfl (List.mem_singleton.mpr rfl) (.noElement _ rfl rfl)⟩,
    (vector_outcomes _ _ _ Iff.rfl).2.2.mpr ⟨by decide, hok, fun h => ?_⟩⟩
  cases h with
  | field _ _ c _ _ hc h =>
    rw [List.mem_singleton] at hc
    subst hc
    cases h <;> contradiction
  | _ => contradiction

/-- With `NotCreateVector` the tree is the same but the slices are left to the client, except those of maps, which are
made all the same. -/
theorem vector_without_slices : ∃ (s : Schema) (o : BatchOption), o.notCreateVector = true ∧
    (createVector s o >>= fun v => .ok v.cap) = .ok 7 :=
  ⟨.mk ⟨0, .map, .directV2, false, []⟩ [.mk ⟨1, .int, .directV2, false, []⟩ [], .mk ⟨2, .int, .directV2, false, []⟩ []],
    ⟨[], 7, true⟩, rfl, by decide +kernel⟩

/-- `struct<a:int, l:list<int>>` -/
def listSchema : Schema :=
  .mk ⟨0, .struct, .direct, false, ["a", "l"]⟩ [.mk ⟨1, .int, .directV2, false, []⟩ [],
    .mk ⟨2, .list, .directV2, false, []⟩ [.mk ⟨3, .int, .directV2, false, []⟩ []]]

/-- **C52 needs `Complete`**: if a list is included without its elements, its child vector is a nil pointer, and the first
use of the batch (`Clear`, in `Next`) panics. -/
theorem vector_mirrors_false : ∃ v, createVector listSchema ⟨[0, 1, 2], 5, false⟩ = .ok v ∧ v.clear = .panic ∧
    ¬ Mirrors ⟨[0, 1, 2], 5, false⟩ listSchema v := by
  refine ⟨.mk 0 .struct none [.mk 1 .int (some (makeSlice 5 .nil)) [], .mk 2 .list (some (makeSlice 5 .nil)) [.nil]], rfl, rfl, ?_⟩
  intro h
  cases h with
  | mk _ _ _ _ _ _ below _ =>
    have := below rfl
    simp only [BatchOption.isInclude] at this
    cases this with
    | cons _ h2 =>
      cases h2 with
      | cons h3 _ =>
        cases h3 with
        | mk _ _ _ _ _ _ below _ =>
          have := below rfl
          cases this

/-- Batches created for a mirrored schema are as large as asked for, if the first leaf is not hidden below an empty
struct. -/
theorem vector_cap (o : BatchOption) (s d : Schema) (v : Vec) (all : o.includes = []) (h : Mirrors o s v) (sp : LeftSpine s d)
    (hd : o.makes d.node = true) : v.cap = o.rowSize := by
  have inc : ∀ i, o.isInclude i = true := fun i => by simp [BatchOption.isInclude, all]
  induction sp generalizing v with
  | here s =>
    cases h with
    | mk n cs vec vs room none below leaf =>
      obtain ⟨sl, rfl, _, h2, _⟩ := room hd
      simp [Vec.cap, h2]
  | down n c cs d nested _ ih =>
    cases h with
    | mk _ _ vec vs room none below leaf =>
      cases hv : o.makes n with
      | true =>
        obtain ⟨sl, rfl, _, h2, _⟩ := room hv
        simp [Vec.cap, h2]
      | false =>
        rw [none hv]
        have hb := below nested
        rw [List.filter_cons, if_pos (inc _)] at hb
        cases hb with
        | cons hm _ => simpa [Vec.cap] using ih _ hm hd

example : listSchema.WellFormed ∧ (⟨[], 5, false⟩ : BatchOption).Complete listSchema ∧ verifySchema listSchema = .ok () := by
  refine ⟨?_, ?_, rfl⟩
  · simp [Schema.WellFormed, listSchema, Schema.columns, columnsAll, Schema.node, Schema.children]
  · intro c _ _ _ d _; rfl

end Goorc
