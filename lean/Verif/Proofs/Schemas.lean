import Verif.Spec.Schemas
/-
Lemmas about schemas.
-/
namespace Goorc

/-- Induction over schemas. -/
theorem Schema.ind {P : Schema → Prop} (h : ∀ n cs, (∀ c ∈ cs, P c) → P (.mk n cs)) (s : Schema) : P s :=
  Schema.rec (motive_1 := P) (motive_2 := fun cs => ∀ c ∈ cs, P c)
    (fun n cs ih => h n cs ih) (fun c hc => by simp at hc)
    (fun c cs ihc ihs d hd => by
      rcases List.mem_cons.mp hd with h | h
      · exact h ▸ ihc
      · exact ihs d h) s

theorem columnsAll_eq (cs : List Schema) : columnsAll cs = cs.flatMap Schema.columns := by
  induction cs with
  | nil => rfl
  | cons c cs ih => simp [columnsAll, ih]

theorem plainAll_eq (cs : List Schema) : plainAll cs = cs.map Schema.plain := by
  induction cs with
  | nil => rfl
  | cons c cs ih => simp [plainAll, ih]

theorem self_mem_columns (s : Schema) : s ∈ s.columns := by
  cases s with | mk n cs => simp [Schema.columns]

theorem child_mem_columns {s c : Schema} (h : c ∈ s.children) : c ∈ s.columns := by
  cases s with
  | mk n cs =>
    simp only [Schema.columns, columnsAll_eq, List.mem_cons, List.mem_flatMap]
    exact Or.inr ⟨c, h, self_mem_columns c⟩

theorem columns_trans {s : Schema} : ∀ {c d : Schema}, c ∈ s.columns → d ∈ c.columns → d ∈ s.columns := by
  induction s using Schema.ind with
  | h n cs ih =>
    intro c d hc hd
    simp only [Schema.columns, columnsAll_eq, List.mem_cons, List.mem_flatMap] at hc ⊢
    rcases hc with rfl | ⟨e, he, hc⟩
    · simpa only [Schema.columns, columnsAll_eq, List.mem_cons, List.mem_flatMap] using hd
    · exact Or.inr ⟨e, he, ih e he hc hd⟩

theorem columns_child {s c d : Schema} (hc : c ∈ s.columns) (hd : d ∈ c.children) : d ∈ s.columns :=
  columns_trans hc (child_mem_columns hd)

theorem numbered_at {s : Schema} (num : s.Numbered) : ∀ i (hi : i < s.columns.length), (s.columns[i]).node.id = i := by
  intro i hi
  have h5 : (s.columns.map fun c => c.node.id)[i]'(by simpa using hi) = (List.range s.columns.length)[i]'(by simpa using hi) :=
    getElem_congr_coll num
  simpa using h5

/-! ### Traversals -/

/-- An action that never fails, and gives the state `f s n`. -/
theorem traverse_total {σ : Type} (act : Action σ) (ok : ∀ s c, ∃ n' s', act s c = .ok (n', s')) (t : Schema) :
    ∀ s, (t.NoUnion → ∃ r, traverse act s t = .ok r) ∧ (¬ t.NoUnion → traverse act s t = .err .other) := by
  induction t using Schema.ind with
  | h n cs ih =>
    intro s
    obtain ⟨n', s', hact⟩ := ok s (.mk n cs)
    have all : ∀ (ds : List Schema), (∀ d ∈ ds, d ∈ cs) → ∀ s, ((∀ d ∈ ds, d.NoUnion) → ∃ r, traverseAll act s ds = .ok r) ∧
        (¬ (∀ d ∈ ds, d.NoUnion) → traverseAll act s ds = .err .other) := by
      intro ds
      induction ds with
      | nil => intro _ s; simp [traverseAll]
      | cons d ds ihd =>
        intro hsub s
        have hd := ih d (hsub d (by simp)) s
        by_cases hu : d.NoUnion
        · obtain ⟨r, hr⟩ := hd.1 hu
          have h2 := ihd (fun e he => hsub e (by simp [he])) r.2
          simp only [traverseAll, hr, Res.ok_bind]
          constructor
          · intro h
            obtain ⟨r2, hr2⟩ := h2.1 (fun e he => h e (by simp [he]))
            exact ⟨(r.1 :: r2.1, r2.2), by rw [hr2]; rfl⟩
          · intro h
            have : ¬ ∀ e ∈ ds, e.NoUnion := fun h' => h (fun e he => by
              rcases List.mem_cons.mp he with rfl | he
              · exact hu
              · exact h' e he)
            rw [h2.2 this]; rfl
        · constructor
          · intro h; exact absurd (h d (by simp)) hu
          · intro _; simp [traverseAll, hd.2 hu]
    have noU : (Schema.mk n cs).NoUnion ↔ n.kind ≠ .union ∧ ∀ d ∈ cs, d.NoUnion := by
      simp only [Schema.NoUnion, Schema.columns, columnsAll_eq, List.mem_cons, List.mem_flatMap, forall_eq_or_imp]
      constructor
      · rintro ⟨h1, h2⟩
        exact ⟨h1, fun d hd c hc => h2 c ⟨d, hd, hc⟩⟩
      · rintro ⟨h1, h2⟩
        exact ⟨h1, fun c ⟨d, hd, hc⟩ => h2 d hd c hc⟩
    have hall := all cs (fun _ h => h) s'
    simp only [traverse, hact, Res.ok_bind]
    rw [noU]
    by_cases hu : ∀ d ∈ cs, d.NoUnion
    · obtain ⟨r, hr⟩ := hall.1 hu
      simp only [hr, Res.ok_bind]
      by_cases hk : n.kind = .union
      · simp [hk]
      · simp only [hk, if_false, ne_eq, not_false_eq_true, true_and]
        exact ⟨fun _ => ⟨_, rfl⟩, fun h => absurd hu h⟩
    · rw [hall.2 hu]
      simp [hu]

theorem noUnion_child {n : SchemaNode} {cs : List Schema} (h : (Schema.mk n cs).NoUnion) : ∀ c ∈ cs, c.NoUnion :=
  fun c hc d hd => h d (columns_child (self_mem_columns _) (by exact hc) |> fun hm => columns_trans hm hd)

theorem noUnion_root {n : SchemaNode} {cs : List Schema} (h : (Schema.mk n cs).NoUnion) : n.kind ≠ .union :=
  h _ (self_mem_columns _)

/-- `SetId` numbers the columns in pre-order and changes nothing else. -/
theorem traverse_addId (t : Schema) : t.NoUnion → ∀ i, ∃ t', traverse addId i t = .ok (t', i + t.columns.length) ∧
    t'.columns.map (fun c => c.node.id) = List.range' i t.columns.length ∧ t'.columns.length = t.columns.length ∧
    t'.plain = t.plain := by
  induction t using Schema.ind with
  | h n cs ih =>
    intro hu i
    have all : ∀ (ds : List Schema), (∀ d ∈ ds, d ∈ cs) → ∀ i, ∃ ds', traverseAll addId i ds = .ok (ds', i + (columnsAll ds).length) ∧
        (columnsAll ds').map (fun c => c.node.id) = List.range' i (columnsAll ds).length ∧
        (columnsAll ds').length = (columnsAll ds).length ∧ plainAll ds' = plainAll ds := by
      intro ds
      induction ds with
      | nil => intro _ i; exact ⟨[], by simp [traverseAll, columnsAll]⟩
      | cons d ds ihd =>
        intro hsub i
        obtain ⟨d', h1, h2, h3, h4⟩ := ih d (hsub d (by simp)) (noUnion_child hu d (hsub d (by simp))) i
        obtain ⟨ds', k1, k2, k3, k4⟩ := ihd (fun e he => hsub e (by simp [he])) (i + d.columns.length)
        refine ⟨d' :: ds', ?_, ?_, ?_, ?_⟩
        · simp [traverseAll, h1, k1, columnsAll, Nat.add_assoc]
        · simp only [columnsAll, List.map_append, h2, k2, List.length_append]
          rw [← List.range'_append_1]
        · simp [columnsAll, h3, k3]
        · simp [plainAll, h4, k4]
    obtain ⟨cs', h1, h2, h3, h4⟩ := all cs (fun _ h => h) (i + 1)
    refine ⟨.mk { n with id := i } cs', ?_, ?_, ?_, ?_⟩
    · simp [traverse, addId, Schema.node, h1, noUnion_root hu, Schema.columns]
      omega
    · simp only [Schema.columns, List.map_cons, h2, List.length_cons]
      rw [List.range'_succ]; rfl
    · simp [Schema.columns, h3]
    · simp [Schema.plain, h4]

/-- `Flat` collects the columns in pre-order. -/
theorem traverse_addSchema (t : Schema) : t.NoUnion → ∀ l, traverse addSchema l t = .ok (t, l ++ t.columns) := by
  induction t using Schema.ind with
  | h n cs ih =>
    intro hu l
    have all : ∀ (ds : List Schema), (∀ d ∈ ds, d ∈ cs) → ∀ l, traverseAll addSchema l ds = .ok (ds, l ++ columnsAll ds) := by
      intro ds
      induction ds with
      | nil => intro _ l; simp [traverseAll, columnsAll]
      | cons d ds ihd =>
        intro hsub l
        simp [traverseAll, ih d (hsub d (by simp)) (noUnion_child hu d (hsub d (by simp))),
          ihd (fun e he => hsub e (by simp [he])), columnsAll, List.append_assoc]
    simp [traverse, addSchema, Schema.node, all cs (fun _ h => h), noUnion_root hu, Schema.columns]

open Classical in
/-- The check of a predicate on all columns. -/
theorem traverse_check (bad : Schema → Bool) (act : Action Unit)
    (hact : ∀ s c, act s c = if bad c then .err .other else .ok (c.node, s)) (t : Schema) :
    traverse act () t = if (∀ c ∈ t.columns, bad c = false) ∧ t.NoUnion then .ok (t, ()) else .err .other := by
  induction t using Schema.ind with
  | h n cs ih =>
    have all : ∀ (ds : List Schema), (∀ d ∈ ds, d ∈ cs) →
        traverseAll act () ds = if (∀ d ∈ ds, ∀ c ∈ d.columns, bad c = false) ∧ (∀ d ∈ ds, d.NoUnion) then .ok (ds, ()) else .err .other := by
      intro ds
      induction ds with
      | nil => intro _; simp [traverseAll]
      | cons d ds ihd =>
        intro hsub
        simp only [traverseAll, ih d (hsub d (by simp))]
        by_cases h : (∀ c ∈ d.columns, bad c = false) ∧ d.NoUnion
        · rw [if_pos h, Res.ok_bind, ihd (fun e he => hsub e (by simp [he]))]
          by_cases h2 : (∀ e ∈ ds, ∀ c ∈ e.columns, bad c = false) ∧ (∀ e ∈ ds, e.NoUnion)
          · rw [if_pos h2, if_pos ⟨by simpa using ⟨h.1, h2.1⟩, by simpa using ⟨h.2, h2.2⟩⟩]; rfl
          · rw [if_neg h2, if_neg (fun h3 => h2 ⟨fun e he => h3.1 e (by simp [he]), fun e he => h3.2 e (by simp [he])⟩)]; rfl
        · rw [if_neg h, if_neg (fun h3 => h ⟨h3.1 d (by simp), h3.2 d (by simp)⟩)]; rfl
    have hcols : ∀ c, c ∈ (Schema.mk n cs).columns ↔ c = .mk n cs ∨ ∃ d ∈ cs, c ∈ d.columns := by
      intro c
      simp [Schema.columns, columnsAll_eq, List.mem_cons, List.mem_flatMap]
    have noU : (Schema.mk n cs).NoUnion ↔ n.kind ≠ .union ∧ ∀ d ∈ cs, d.NoUnion := by
      constructor
      · intro h; exact ⟨noUnion_root h, noUnion_child h⟩
      · rintro ⟨h1, h2⟩ c hc
        rcases (hcols c).mp hc with rfl | ⟨d, hd, hc⟩
        · exact h1
        · exact h2 d hd c hc
    simp only [traverse, hact]
    by_cases hb : bad (.mk n cs) = true
    · rw [if_pos hb, if_neg (fun h => by have := h.1 _ (self_mem_columns _); simp [hb] at this)]; rfl
    · rw [if_neg hb, Res.ok_bind, all cs (fun _ h => h)]
      have hb' : bad (.mk n cs) = false := by simpa using hb
      by_cases h2 : (∀ e ∈ cs, ∀ c ∈ e.columns, bad c = false) ∧ (∀ e ∈ cs, e.NoUnion)
      · rw [if_pos h2, Res.ok_bind]
        by_cases hk : n.kind = .union
        · rw [if_pos hk, if_neg (fun h => (noU.mp h.2).1 hk)]
        · rw [if_neg hk, if_pos ⟨fun c hc => by
            rcases (hcols c).mp hc with rfl | ⟨d, hd, hc⟩
            · exact hb'
            · exact h2.1 d hd c hc, noU.mpr ⟨hk, h2.2⟩⟩]; rfl
      · rw [if_neg h2, if_neg (fun h => h2 ⟨fun e he c hc => h.1 c ((hcols c).mpr (Or.inr ⟨e, he, hc⟩)), (noU.mp h.2).2⟩)]; rfl

open Classical in
theorem traverseAll_check (bad : Schema → Bool) (act : Action Unit)
    (hact : ∀ s c, act s c = if bad c then .err .other else .ok (c.node, s)) (ds : List Schema) :
    traverseAll act () ds = if (∀ d ∈ ds, ∀ c ∈ d.columns, bad c = false) ∧ (∀ d ∈ ds, d.NoUnion) then .ok (ds, ()) else .err .other := by
  induction ds with
  | nil => simp [traverseAll]
  | cons d ds ihd =>
    simp only [traverseAll, traverse_check bad act hact]
    by_cases h : (∀ c ∈ d.columns, bad c = false) ∧ d.NoUnion
    · rw [if_pos h, Res.ok_bind, ihd]
      by_cases h2 : (∀ e ∈ ds, ∀ c ∈ e.columns, bad c = false) ∧ (∀ e ∈ ds, e.NoUnion)
      · rw [if_pos h2, if_pos ⟨by simpa using ⟨h.1, h2.1⟩, by simpa using ⟨h.2, h2.2⟩⟩]; rfl
      · rw [if_neg h2, if_neg (fun h3 => h2 ⟨fun e he => h3.1 e (by simp [he]), fun e he => h3.2 e (by simp [he])⟩)]; rfl
    · rw [if_neg h, if_neg (fun h3 => h ⟨h3.1 d (by simp), h3.2 d (by simp)⟩)]; rfl

end Goorc
