import Verif.Proofs.DeliveredFile
import Verif.Props.Projection
/-
What `Next` leaves in the vectors, whatever the bytes of the file.
-/
namespace Goorc

theorem tour_done {E : Env} {fuel : Nat} {s : Schema} {o : BatchOption} {ops : List RowOp} {file : Bytes} {r : FileReader} (num : s.Numbered) (wf : s.WellFormed)
    (hr : newReader E file = .ok r) (ht : TypesOf s r.schemas) {out : List (Bool × Vec)} (h : tourVectors E fuel s o ops file = .ok out) :
    ∀ p ∈ out, Done (s.prune o.isInclude) p.2 := by
  rw [tourVectors, hr, Res.ok_bind] at h
  obtain ⟨a, e1, h⟩ := Res.bind_ok_inv h
  obtain ⟨v, e2, h⟩ := Res.bind_ok_inv h
  rw [createVector] at e2
  split at e2
  · cases e2
  obtain ⟨-, -, e2⟩ := Res.bind_ok_inv e2
  obtain ⟨k1, k2, -⟩ := create_loose s wf v e2
  by_cases hin : o.isInclude s.node.id = true
  · have hstripes : ∀ (infos : List StripeInfo) (xs : List (StripeReader (Rd r.schemas.length))), initStripes E r.opts o r.file r.schemas infos = .ok xs →
        ∀ x ∈ xs, StripeReader.Types (s.prune o.isInclude) x := by
      intro infos
      induction infos with
      | nil => intro xs h; rw [initStripes] at h; cases h; intro x hx; cases hx
      | cons i is ih =>
        intro xs h
        rw [initStripes] at h
        split at h
        · cases h
        · obtain ⟨x, f1, h⟩ := Res.bind_ok_inv h
          obtain ⟨xs1, f2, h⟩ := Res.bind_ok_inv h
          cases h
          intro y hy
          rcases List.mem_cons.1 hy with rfl | hy
          · exact stripe_types num ht wf hin f1
          · exact ih xs1 f2 y hy
    have hopen : a.Types (s.prune o.isInclude) := by
      rw [FileReader.createBatchReader] at e1
      split at e1
      · cases e1
      · obtain ⟨xs, f1, e1⟩ := Res.bind_ok_inv e1
        injection e1 with e1
        subst e1
        exact hstripes _ _ f1
    exact tour_types E.c fuel (fuel + 1) ops a v out hopen k1 h
  · have hv := k2 (by simpa using hin)
    subst hv
    rw [tour_nil _ _ ops a out h]
    intro p hp
    cases hp

/-- **C103** Whatever the bytes of the file, and whatever the calls of `Next` and `Seek`: if none of them fails, then after every `Next` the vectors are those of the columns that were asked
for, every row that is not null holds a value of the Go type of its column, and a null row holds nothing or such a value. -/
theorem delivered_types {E : Env} {fuel : Nat} {s : Schema} {o : BatchOption} {ops : List RowOp} {file : Bytes} {r : FileReader} (num : s.Numbered) (wf : s.WellFormed)
    (hr : newReader E file = .ok r) (ht : TypesOf s r.schemas) {out : List (Bool × Vec)} (h : tourVectors E fuel s o ops file = .ok out) :
    ∀ p ∈ out, Delivered (s.prune o.isInclude) p.2 :=
  fun p hp => done_delivered _ _ (tour_done num wf hr ht h p hp)

theorem seenAll_mem {vs : List Vec} {q : TypeKind × List Value} (h : q ∈ seenAll vs) : ∃ v ∈ vs, q ∈ v.seen := by
  induction vs with
  | nil => rw [seenAll] at h; cases h
  | cons v vs ih =>
    rw [seenAll] at h
    rcases List.mem_append.1 h with h | h
    · exact ⟨v, List.mem_cons_self, h⟩
    · obtain ⟨w, h1, h2⟩ := ih h
      exact ⟨w, List.mem_cons_of_mem _ h1, h2⟩

theorem forall₂_right {α β : Type} {R : α → β → Prop} {xs : List α} {ys : List β} (h : List.Forall₂ R xs ys) {y : β} (hy : y ∈ ys) : ∃ x ∈ xs, R x y := by
  induction h with
  | nil => cases hy
  | cons hx hxs ih =>
    rcases List.mem_cons.1 hy with rfl | hy
    · exact ⟨_, List.mem_cons_self, hx⟩
    · obtain ⟨x, h1, h2⟩ := ih hy
      exact ⟨x, List.mem_cons_of_mem _ h1, h2⟩

theorem delivered_seen (s : Schema) : ∀ v, Delivered s v → ∀ q ∈ v.seen, ∀ r ∈ q.2, (r.null = false → q.1.Gives r.v) ∧ (r.v = .nil ∨ q.1.Gives r.v) := by
  induction s using Schema.ind with
  | h n cs ih =>
    intro v h q hq r hr
    cases h with
    | mk _ _ a vs rows below =>
      rw [Vec.seen] at hq
      rcases List.mem_cons.1 hq with rfl | hq
      · exact rows r hr
      · obtain ⟨w, h1, h2⟩ := seenAll_mem hq
        obtain ⟨c, h3, h4⟩ := forall₂_right below h1
        exact ih c h3 w h4 q h2 r hr

/-- **C103** For every vector, also those of fields, elements, keys and values: what can be seen is of the type of the vector. -/
theorem seen_types {E : Env} {fuel : Nat} {s : Schema} {o : BatchOption} {ops : List RowOp} {file : Bytes} {r : FileReader} (num : s.Numbered) (wf : s.WellFormed)
    (hr : newReader E file = .ok r) (ht : TypesOf s r.schemas) {out : List (Bool × Vec)} (h : tourVectors E fuel s o ops file = .ok out) {p : Bool × Vec} (hp : p ∈ out)
    {q : TypeKind × List Value} (hq : q ∈ p.2.seen) {x : Value} (hx : x ∈ q.2) : (x.null = false → q.1.Gives x.v) ∧ (x.v = .nil ∨ q.1.Gives x.v) :=
  delivered_seen _ _ (delivered_types num wf hr ht h p hp) q hq x hx

/-- **C103** **Timestamps and decimals cannot be read.** Whatever the file and the calls, each timestamp and each decimal that `Next` delivers is the zero value. -/
theorem times_are_zero {E : Env} {fuel : Nat} {s : Schema} {o : BatchOption} {ops : List RowOp} {file : Bytes} {r : FileReader} (num : s.Numbered) (wf : s.WellFormed)
    (hr : newReader E file = .ok r) (ht : TypesOf s r.schemas) {out : List (Bool × Vec)} (h : tourVectors E fuel s o ops file = .ok out) {p : Bool × Vec} (hp : p ∈ out)
    {q : TypeKind × List Value} (hq : q ∈ p.2.seen) {x : Value} (hx : x ∈ q.2) (hn : x.null = false) :
    (q.1 = .timestamp → x.v = .ts none 0 0) ∧ (q.1 = .decimal → x.v = .dec 0 0) ∧ q.1 ≠ .char ∧ q.1 ≠ .varchar := by
  obtain ⟨k, rows⟩ := q
  have hg := (seen_types num wf hr ht h hp hq hx).1 hn
  refine ⟨?_, ?_, ?_, ?_⟩
  · intro e; cases e; exact hg
  · intro e; cases e; exact hg
  · intro e; cases e; exact hg
  · intro e; cases e; exact hg

/-! ### Fields of struct elements -/

theorem fieldsInsideAll_mem {b : Bool} {vs : List Vec} {q : List Value} (h : q ∈ fieldsInsideAll b vs) : ∃ v ∈ vs, q ∈ v.fieldsInside b := by
  induction vs with
  | nil => rw [fieldsInsideAll] at h; cases h
  | cons v vs ih =>
    rw [fieldsInsideAll] at h
    rcases List.mem_append.1 h with h | h
    · exact ⟨v, List.mem_cons_self, h⟩
    · obtain ⟨w, h1, h2⟩ := ih h
      exact ⟨w, List.mem_cons_of_mem _ h1, h2⟩

theorem void_seen (s : Schema) : ∀ v, Void s v → ∀ q ∈ v.seen, q.2 = [] := by
  induction s using Schema.ind with
  | h n cs ih =>
    intro v h q hq
    cases h with
    | mk _ _ a vs plain own blank below =>
      rw [Vec.seen] at hq
      rcases List.mem_cons.1 hq with rfl | hq
      · exact blank
      · obtain ⟨w, h1, h2⟩ := seenAll_mem hq
        obtain ⟨c, h3, h4⟩ := forall₂_right below h1
        exact ih c h3 w h4 q h2

theorem elem_inside (s : Schema) : ∀ (b : Bool) v, Elem s v → ∀ q ∈ v.fieldsInside b, q = [] := by
  induction s using Schema.ind with
  | h n cs ih =>
    intro b v h q hq
    have hvoid : ∀ {cs : List Schema} {vs : List Vec}, List.Forall₂ Void cs vs → q ∈ (seenAll vs).map (·.2) → q = [] := by
      intro cs vs below hq
      obtain ⟨y, hy, rfl⟩ := List.mem_map.1 hq
      obtain ⟨w, h1, h2⟩ := seenAll_mem hy
      obtain ⟨c, h3, h4⟩ := forall₂_right below h1
      exact void_seen c w h4 y h2
    have helem : ∀ {b : Bool} {vs : List Vec}, List.Forall₂ Elem cs vs → q ∈ fieldsInsideAll b vs → q = [] := by
      intro b vs below hq
      obtain ⟨w, h1, h2⟩ := fieldsInsideAll_mem hq
      obtain ⟨c, h3, h4⟩ := forall₂_right below h1
      exact ih c h3 b w h4 q h2
    cases h with
    | struct _ _ a vs kind own below =>
      rw [Vec.fieldsInside] at hq
      rcases List.mem_append.1 hq with hq | hq
      · split at hq
        · exact hvoid below hq
        · cases hq
      · exact helem (forall₂_imp_mem below fun c _ w h => void_elem c w h) hq
    | other _ _ a vs kind plain own told below =>
      rw [Vec.fieldsInside, if_neg (by simp [kind])] at hq
      exact helem below (by simpa only [List.nil_append] using hq)

theorem done_inside (s : Schema) : ∀ v, Done s v → ∀ q ∈ v.fieldsInside false, q = [] := by
  induction s using Schema.ind with
  | h n cs ih =>
    intro v h q hq
    cases h with
    | struct _ _ a vs kind own below =>
      rw [Vec.fieldsInside] at hq
      simp only [Bool.false_and, Bool.false_eq_true, if_false, List.nil_append, kind] at hq
      obtain ⟨w, h1, h2⟩ := fieldsInsideAll_mem hq
      obtain ⟨c, h3, h4⟩ := forall₂_right below h1
      exact ih c h3 w h4 q (by simpa using h2)
    | other _ _ a vs kind plain own told below =>
      rw [Vec.fieldsInside] at hq
      simp only [Bool.false_and, Bool.false_eq_true, if_false, List.nil_append, Bool.false_or] at hq
      obtain ⟨w, h1, h2⟩ := fieldsInsideAll_mem hq
      obtain ⟨c, h3, h4⟩ := forall₂_right below h1
      exact elem_inside c _ w h4 q h2

/-- **C104** **Structs inside lists and maps cannot be read.** Whatever the file and the calls: no row is ever delivered of a field of a struct that is an element of a list, or a key or value of
a map. -/
theorem struct_elements_lost {E : Env} {fuel : Nat} {s : Schema} {o : BatchOption} {ops : List RowOp} {file : Bytes} {r : FileReader} (num : s.Numbered) (wf : s.WellFormed)
    (hr : newReader E file = .ok r) (ht : TypesOf s r.schemas) {out : List (Bool × Vec)} (h : tourVectors E fuel s o ops file = .ok out) :
    ∀ p ∈ out, ∀ q ∈ p.2.fieldsInside false, q = [] :=
  fun p hp => done_inside _ _ (tour_done num wf hr ht h p hp)

/-! ### Examples -/

theorem exFrail_wellFormed : exFrail.WellFormed := by
  intro c hc
  simp only [exFrail, Schema.columns, columnsAll, List.append_nil, List.mem_cons, List.cons_append, List.nil_append, List.not_mem_nil, or_false] at hc
  rcases hc with rfl | rfl | rfl <;> simp [node_mk]

/-- The conditions of C103 are met: both columns of a small file, with a `Seek` between two `Next`. -/
example : ∃ r out, exFrail.Numbered ∧ exFrail.WellFormed ∧ newReader exBothEnv exBothFile = .ok r ∧ TypesOf exFrail r.schemas ∧
    tourVectors exBothEnv 10 exFrail ⟨[], 2, false⟩ [.next, .seek 1, .next] exBothFile = .ok out ∧
    out.map (fun p => p.2.seen) = [[(.struct, []), (.byte, [⟨false, .u8 7⟩, ⟨false, .u8 7⟩]), (.boolean, [⟨false, .bool true⟩, ⟨false, .bool false⟩])],
      [(.struct, []), (.byte, [⟨false, .u8 7⟩, ⟨false, .u8 7⟩]), (.boolean, [⟨false, .bool false⟩, ⟨true, .bool false⟩])]] := by
  have h : ((tourVectors exBothEnv 10 exFrail ⟨[], 2, false⟩ [.next, .seek 1, .next] exBothFile).bind fun out => .ok (out.map fun p => p.2.seen)) =
      .ok [[(.struct, []), (.byte, [⟨false, .u8 7⟩, ⟨false, .u8 7⟩]), (.boolean, [⟨false, .bool true⟩, ⟨false, .bool false⟩])],
      [(.struct, []), (.byte, [⟨false, .u8 7⟩, ⟨false, .u8 7⟩]), (.boolean, [⟨false, .bool false⟩, ⟨true, .bool false⟩])]] := by decide +kernel
  obtain ⟨out, h1, h2⟩ := Res.bind_ok_inv (x := tourVectors exBothEnv 10 exFrail ⟨[], 2, false⟩ [.next, .seek 1, .next] exBothFile) h
  injection h2 with h2
  refine ⟨⟨exBothFile, ⟨.none, 256 * 1024, 10000⟩, [⟨⟨0, .struct, ["t", "b"], [1, 2]⟩, false⟩, ⟨⟨1, .byte, [], []⟩, false⟩, ⟨⟨2, .boolean, [], []⟩, true⟩], 5,
      [tinyStats false, tinyStats false, tinyStats true], [⟨3, 0, 6, 1, 5⟩]⟩, out, exFrail_structs.1, exFrail_wellFormed, rfl, ⟨rfl, ?_⟩, h1, h2⟩
  intro c hc
  simp only [exFrail, Schema.columns, columnsAll, List.append_nil, List.mem_cons, List.cons_append, List.nil_append, List.not_mem_nil, or_false] at hc
  rcases hc with rfl | rfl | rfl <;> exact ⟨_, rfl⟩

/-- A table with a list of structs of one tinyint. -/
def exInside : Schema := .mk ⟨0, .struct, .direct, false, ["l"]⟩ [.mk ⟨1, .list, .directV2, false, ["_elem"]⟩ [.mk ⟨2, .struct, .direct, false, ["t"]⟩ [.mk ⟨3, .byte, .direct, false, []⟩ []]]]

def exInsideEnv : Env := tinyEnv [⟨[⟨.length, 1, 2⟩, ⟨.data, 3, 2⟩], [.direct, .directV2, .direct, .direct]⟩] (tinyFooter exInside [⟨3, 0, 4, 1, 5⟩]) tinyScript

/-- Five lists of one element each, the field of which is 7. -/
def exInsideFile : Bytes := tinyFile [0x02#8, 0x01#8, 0x02#8, 0x07#8, 0x00#8]

theorem exInside_fine : exInside.Numbered ∧ exInside.WellFormed := by
  refine ⟨rfl, fun c hc => ?_⟩
  simp only [exInside, Schema.columns, columnsAll, List.append_nil, List.mem_cons, List.cons_append, List.nil_append, List.not_mem_nil, or_false] at hc
  rcases hc with rfl | rfl | rfl | rfl <;> simp [node_mk, Schema.children]

/-- The conditions of C104 are met: the lists have elements, the file has the values of the field, and the vector of the field is empty. -/
example : ∃ r out, exInside.Numbered ∧ exInside.WellFormed ∧ newReader exInsideEnv exInsideFile = .ok r ∧ TypesOf exInside r.schemas ∧
    tourVectors exInsideEnv 10 exInside ⟨[], 2, false⟩ [.next, .next] exInsideFile = .ok out ∧
    out.map (fun p => p.2.seen) = List.replicate 2 [(.struct, []), (.list, [⟨false, .u64 1⟩, ⟨false, .u64 1⟩]), (.struct, [⟨false, .nil⟩]), (.byte, [])] ∧
    out.map (fun p => p.2.fieldsInside false) = [[[]], [[]]] := by
  have h : ((tourVectors exInsideEnv 10 exInside ⟨[], 2, false⟩ [.next, .next] exInsideFile).bind fun out => .ok (out.map fun p => p.2.seen, out.map fun p => p.2.fieldsInside false)) =
      .ok (List.replicate 2 [(.struct, []), (.list, [⟨false, .u64 1⟩, ⟨false, .u64 1⟩]), (.struct, [⟨false, .nil⟩]), (.byte, [])], [[[]], [[]]]) := by decide +kernel
  obtain ⟨out, h1, h2⟩ := Res.bind_ok_inv (x := tourVectors exInsideEnv 10 exInside ⟨[], 2, false⟩ [.next, .next] exInsideFile) h
  injection h2 with h2
  simp only [Prod.mk.injEq] at h2
  refine ⟨⟨exInsideFile, ⟨.none, 256 * 1024, 10000⟩, [⟨⟨0, .struct, ["l"], [1]⟩, false⟩, ⟨⟨1, .list, [""], [2]⟩, false⟩, ⟨⟨2, .struct, ["t"], [3]⟩, false⟩, ⟨⟨3, .byte, [], []⟩, false⟩], 5,
      [tinyStats false, tinyStats false, tinyStats false, tinyStats false], [⟨3, 0, 4, 1, 5⟩]⟩, out, exInside_fine.1, exInside_fine.2, rfl, ⟨rfl, ?_⟩, h1, h2.1, h2.2⟩
  intro c hc
  simp only [exInside, Schema.columns, columnsAll, List.append_nil, List.mem_cons, List.cons_append, List.nil_append, List.not_mem_nil, or_false] at hc
  rcases hc with rfl | rfl | rfl | rfl <;> exact ⟨_, rfl⟩

end Goorc
