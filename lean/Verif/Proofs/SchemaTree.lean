import Verif.Proofs.Open
import Verif.Proofs.Trees
import Verif.Spec.Close
import Mathlib.Data.List.Nodup
/-
The types of a schema are the nodes of a tree.
-/
namespace Goorc

theorem children_perm (s : Schema) : (s.columns.flatMap Schema.children).Perm (columnsAll s.children) := by
  refine Schema.ind (P := fun s => (s.columns.flatMap Schema.children).Perm (columnsAll s.children)) (fun n cs ih => ?_) s
  simp only [Schema.columns, List.flatMap_cons, Schema.children_mk]
  induction cs with
  | nil => simp [columnsAll]
  | cons c cs ihs =>
    have h1 := ih c (by simp)
    have h2 := ihs fun d hd => ih d (by simp [hd])
    obtain ⟨m, es⟩ := c
    simp only [columnsAll, List.flatMap_append, Schema.columns, Schema.children_mk, List.flatMap_cons] at h1 h2 ⊢
    simp only [List.cons_append, List.perm_cons]
    refine (List.perm_append_comm_assoc _ _ _).trans ?_
    exact h1.append h2

theorem columns_sublist {s : Schema} : ∀ {c : Schema}, c ∈ s.columns → c.columns.Sublist s.columns := by
  refine Schema.ind (P := fun s => ∀ {c : Schema}, c ∈ s.columns → c.columns.Sublist s.columns) (fun n cs ih => ?_) s
  intro c hc
  rw [Schema.columns] at hc
  rcases List.mem_cons.1 hc with rfl | hc
  · exact List.Sublist.refl _
  · rw [Schema.columns.eq_def (.mk n cs)]
    refine List.Sublist.cons _ ?_
    clear * - ih hc
    induction cs with
    | nil => simp [columnsAll] at hc
    | cons d cs ihs =>
      simp only [columnsAll] at hc ⊢
      rcases List.mem_append.1 hc with hc | hc
      · exact (ih d (by simp) hc).trans (List.sublist_append_left _ _)
      · exact (ihs (fun e he => ih e (by simp [he])) hc).trans (List.sublist_append_right _ _)

/-- The types of a schema are the nodes of a tree. -/
theorem types_tree {s : Schema} {types : List RdType} (num : s.Numbered) (ht : TypesOf s types) : TypesTree types := by
  have inc : (s.columns.map fun c => c.node.id).Pairwise (· < ·) := by rw [num]; exact List.pairwise_lt_range
  have nod : (s.columns.flatMap fun c => c.children.map fun d => d.node.id).Nodup := by
    have h1 := (children_perm s).map (fun d => d.node.id)
    rw [List.map_flatMap] at h1
    refine h1.nodup_iff.2 ?_
    obtain ⟨n, cs⟩ := s
    simp only [Schema.columns, List.map_cons] at inc
    exact ((List.pairwise_cons.1 inc).2).imp (fun h => by omega)
  obtain ⟨n1, n2⟩ := List.nodup_flatMap.1 nod
  refine ⟨fun p t hp c hc => ?_, fun p t hp => ?_, fun p q t u hp hq c hc hd => ?_⟩
  · obtain ⟨P, hP, rfl, names, rfl⟩ := ht.at num hp
    simp only [List.mem_map] at hc
    obtain ⟨d, hd, rfl⟩ := hc
    have := (inc.sublist ((columns_sublist hP).map _))
    obtain ⟨n, cs⟩ := P
    simp only [Schema.columns, List.map_cons] at this
    refine (List.pairwise_cons.1 this).1 _ (List.mem_map.2 ⟨d, ?_, rfl⟩)
    have : d ∈ (Schema.mk n cs).columns := columns_child (self_mem_columns _) hd
    clear * - hd
    simp only [Schema.children_mk] at hd
    induction cs with
    | nil => simp at hd
    | cons e es ih =>
      simp only [columnsAll, List.mem_append]
      rcases List.mem_cons.1 hd with rfl | hd
      · exact .inl (self_mem_columns _)
      · exact .inr (ih hd)
  · obtain ⟨P, hP, rfl, names, rfl⟩ := ht.at num hp
    exact n1 P hP
  · have hpl : p < s.columns.length := by rw [← ht.1]; exact (List.getElem?_eq_some_iff.1 hp).1
    have hql : q < s.columns.length := by rw [← ht.1]; exact (List.getElem?_eq_some_iff.1 hq).1
    have kids : ∀ (i : Nat) (hi : i < s.columns.length) (v : RdType), types[i]? = some v → ∀ x ∈ v.children, x ∈ (s.columns[i]).children.map fun d => d.node.id := by
      intro i hi v hv x hx
      obtain ⟨names, hn⟩ := ht.2 s.columns[i] (List.getElem_mem hi)
      rw [numbered_at num i hi, hv, Option.some.injEq] at hn
      subst hn
      exact hx
    have hc' := kids p hpl t hp c hc
    have hd' := kids q hql u hq c hd
    rcases Nat.lt_trichotomy p q with h | h | h
    · exact absurd hd' (List.pairwise_iff_getElem.1 n2 p q hpl hql h hc')
    · exact h
    · exact absurd hc' (List.pairwise_iff_getElem.1 n2 q p hql hpl h hd')

end Goorc
