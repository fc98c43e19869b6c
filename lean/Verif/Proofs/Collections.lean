import Verif.Spec.Collections
import Verif.Proofs.ForeignFile
import Verif.Props.Nested
import Verif.Props.Skip
/- Tables with list and map columns: lemmas for Props/Collections.lean. -/
namespace Goorc

/-! ### Columns -/

/-- The vector of a column, with capacity `B` and `len` rows. -/
inductive CellShape (B len : Nat) : Schema → Vec → Prop
  | value (n : SchemaNode) (s : Slice) (plain : n.kind.nested = false) (cap : s.arr.length = B) (size : s.len = len) (fits : len ≤ B)
      (unmarked : n.hasNulls = false → Unmarked s.arr) : CellShape B len (.mk n []) (.mk n.id n.kind (some s) [])
  | list (n e : SchemaNode) (s t : Slice) (kind : n.kind = .list) (plain : e.kind.nested = false) (cap : s.arr.length = B) (size : s.len = len) (fits : len ≤ B)
      (unmarked : n.hasNulls = false → Unmarked s.arr) (none : len = 0 → t.len = 0) :
      CellShape B len (.mk n [.mk e []]) (.mk n.id .list (some s) [.mk e.id e.kind (some t) []])
  | map (n k v : SchemaNode) (s t u : Slice) (kind : n.kind = .map) (plain : k.kind.nested = false) (plain' : v.kind.nested = false)
      (cap : s.arr.length = B) (size : s.len = len) (fits : len ≤ B) (unmarked : n.hasNulls = false → Unmarked s.arr) (none : len = 0 → t.len = 0) :
      CellShape B len (.mk n [.mk k [], .mk v []]) (.mk n.id .map (some s) [.mk k.id k.kind (some t) [], .mk v.id v.kind (some u) []])

/-- The reader of a column: the items `items` are left. -/
def CellHas (c : Codec) (fuel : Nat) : (n : Nat) → Schema → Rd n → List Item → Prop
  | 0, _, _, _ => False
  | n + 1, .mk nd cs, x, items =>
    match (x : RdNode (Rd n)) with
    | .leaf t r => cs = [] ∧ nd.kind.nested = false ∧ t.Replaces ∧ (r.present = none ↔ nd.hasNulls = false) ∧
        ∃ rows, items = rows.map Item.ofValue ∧ (nd.hasNulls = false → ∀ x ∈ rows, x.isSome = true) ∧
          t.read.Holds c (fun _ => True) (fun _ => True) r (if nd.hasNulls then rows else rows.filter (·.isSome))
    | .list _ p l _ y => nd.kind = .list ∧ (∃ e, cs = [.mk e []]) ∧ (p = none ↔ nd.hasNulls = false) ∧
        ∃ (rows : List (Option (List (Option GoVal)))) (P : Rd n → List Value → Prop), items = rows.map Item.ofList ∧ Feeds (rdOps c fuel n) P ∧
          (nd.hasNulls = true → PassesNulls (rdOps c fuel n) P) ∧ ListLeft c P p l y (rows.map (Option.map (List.map (rowValue .nil))))
    | .map _ p l _ y z => nd.kind = .map ∧ (∃ e e', cs = [.mk e [], .mk e' []]) ∧ (p = none ↔ nd.hasNulls = false) ∧
        ∃ (rows : List (Option (List (Option GoVal × Option GoVal)))) (P Q : Rd n → List Value → Prop), items = rows.map Item.ofMap ∧
          Feeds (rdOps c fuel n) P ∧ Feeds (rdOps c fuel n) Q ∧ (nd.hasNulls = true → PassesNulls (rdOps c fuel n) P ∧ PassesNulls (rdOps c fuel n) Q) ∧
          MapLeft c P Q p l y z (rows.map (Option.map (List.map fun e => (rowValue .nil e.1, rowValue .nil e.2))))
    | _ => False

theorem CellShape.id {B len : Nat} {s : Schema} {v : Vec} (h : CellShape B len s v) : v.id = s.node.id := by cases h <;> rfl

theorem CellShape.len_cap {B len : Nat} {s : Schema} {v : Vec} (h : CellShape B len s v) : v.len = len ∧ v.cap = B := by
  cases h with
  | value n s plain cap size fits unmarked =>
    refine ⟨?_, cap⟩
    simp only [Vec.len, Option.map_some, Option.getD_some, size]
    by_cases h : len = 0 <;> simp [h]
  | list n e s t kind plain cap size fits unmarked none =>
    refine ⟨?_, cap⟩
    simp only [Vec.len, Option.map_some, Option.getD_some, size]
    by_cases h : len = 0 <;> simp [h, none]
  | map n k v s t u kind plain plain' cap size fits unmarked none =>
    refine ⟨?_, cap⟩
    simp only [Vec.len, Option.map_some, Option.getD_some, size]
    by_cases h : len = 0 <;> simp [h, none]

theorem CellShape.clear {B len : Nat} {s : Schema} {v : Vec} (h : CellShape B len s v) : ∃ v', v.clear = .ok v' ∧ CellShape B 0 s v' := by
  cases h with
  | value n s plain cap size fits unmarked => exact ⟨_, rfl, .value n { s with len := 0 } plain cap rfl (Nat.zero_le _) unmarked⟩
  | list n e s t kind plain cap size fits unmarked none =>
    exact ⟨_, rfl, .list n e { s with len := 0 } { t with len := 0 } kind plain cap rfl (Nat.zero_le _) unmarked fun _ => rfl⟩
  | map n k v s t u kind plain plain' cap size fits unmarked none =>
    exact ⟨_, rfl, .map n k v { s with len := 0 } { t with len := 0 } { u with len := 0 } kind plain plain' cap rfl (Nat.zero_le _) unmarked fun _ => rfl⟩

theorem CellShape.setSize {B len : Nat} {s : Schema} {v : Vec} (h : CellShape B len s v) (hasNulls : List Bool) (m : Nat) (hm : m ≤ B) :
    ∃ v', setVectorSize hasNulls m v = .ok v' ∧ CellShape B m s v' := by
  cases h with
  | value n s plain cap size fits unmarked =>
    refine ⟨.mk n.id n.kind (some { s with len := m }) [], ?_, .value n { s with len := m } plain cap rfl hm unmarked⟩
    have hr := resize_some (s := s) (m := m) (by omega)
    cases hk : n.kind <;> simp only [hk, TypeKind.nested, Bool.true_eq_false] at plain <;>
      simp only [setVectorSize, hr, Res.ok_bind, Res.pure_eq]
  | list n e s t kind plain cap size fits unmarked none =>
    refine ⟨_, ?_, .list n e { s with len := m } { t with len := 0 } kind plain cap rfl hm unmarked fun _ => rfl⟩
    simp only [setVectorSize, resize_some (s := s) (m := m) (by omega), Res.ok_bind, Res.pure_eq, emptyChild, List.getElem?_cons_zero, Option.map_some,
      List.set_cons_zero]
  | map n k v s t u kind plain plain' cap size fits unmarked none =>
    refine ⟨_, ?_, .map n k v { s with len := m } { t with len := 0 } { u with len := 0 } kind plain plain' cap rfl hm unmarked fun _ => rfl⟩
    simp only [setVectorSize, resize_some (s := s) (m := m) (by omega), Res.ok_bind, Res.pure_eq, emptyChild, List.getElem?_cons_zero, Option.map_some,
      List.set_cons_zero, List.getElem?_cons_succ, List.set_cons_succ]

theorem items_value (full : Bool) (id : Nat) (k : TypeKind) (s : Option Slice) :
    (Vec.mk id k s []).items full = ((visibleRows s).map Value.row).map Item.ofValue := by
  simp only [Vec.items, List.map_map]
  apply List.map_congr_left
  intro v _
  simp only [Function.comp_apply, Value.row]
  cases v.null with
  | true => rfl
  | false => cases k <;> rfl

/-- The rows of a slice after some of them were overwritten. -/
theorem updated {B : Nat} {s : Slice} {z : List Value} (hc : s.arr.length = B) (hs : s.len = z.length) (hle : z.length ≤ B) :
    (s.update z).arr.length = B ∧ (s.update z).len = z.length ∧ (s.update z).visible = z ∧ ((∀ v ∈ z, v.null = false) → Unmarked s.arr → Unmarked (s.update z).arr) := by
  refine ⟨?_, hs, s.visible_update z (by simp [Slice.visible]; omega), fun h1 h2 v hv => ?_⟩
  · simp only [Slice.update, List.length_append, List.length_drop]; omega
  · simp only [Slice.update, List.mem_append] at hv
    rcases hv with hv | hv
    · exact h1 v hv
    · exact h2 v (List.mem_of_mem_drop hv)

theorem listRow_shown {α β : Type} (num : Nat → GoVal) (f : Option GoVal → β) : ∀ (vec : List Value) (rows : List (Option (List α))), vec.length = rows.length →
    (List.zipWith (fun old row => listRow num old row) vec rows).map (fun v => f v.row) = rows.map fun r => f (r.map fun es => num es.length) := by
  intro vec rows h
  induction rows generalizing vec with
  | nil => simp
  | cons r rows ih =>
    cases vec with
    | nil => simp at h
    | cons v vec =>
      simp only [List.zipWith_cons_cons, List.map_cons, ih vec (by simpa using h)]
      cases r <;> rfl

theorem items_list_counts (id : Nat) (s : Option Slice) (cs : List Vec) (kind : TypeKind) :
    (Vec.mk id kind s cs).items false = (visibleRows s).map fun v => Item.ofValue v.row := by
  simp only [Vec.items]
  apply List.map_congr_left
  intro v _
  cases hv : v.null with
  | true => simp [Value.row, hv, Item.ofValue]
  | false =>
    simp only [Bool.false_eq_true, if_false, Value.row, hv, Item.ofValue, false_and]
    split <;> rfl

theorem listRow_unmarked {α : Type} (num : Nat → GoVal) (vec : List Value) (rows : List (Option (List α))) (h : ∀ r ∈ rows, r.isSome = true) :
    ∀ v ∈ List.zipWith (fun old row => listRow num old row) vec rows, v.null = false := by
  intro v hv
  obtain ⟨i, hi, rfl⟩ := List.getElem_of_mem hv
  simp only [List.getElem_zipWith]
  have hi' : i < rows.length := by simp at hi; omega
  have := h rows[i] (List.getElem_mem hi')
  cases hr : rows[i] with
  | none => simp [hr] at this
  | some es => rfl

theorem flagsLeft_none {c : Codec} {flags : List Bool} (h : FlagsLeft c none flags) : ∀ b ∈ flags, b = true := h

theorem rowValue_rows (es : List (Option GoVal)) : (es.map (rowValue .nil)).map Value.row = es := by
  rw [List.map_map]
  conv_rhs => rw [← List.map_id es]
  exact List.map_congr_left fun x _ => rowValue_row _ x

/-- A batch of a column: the next rows, without the elements of lists and maps; if it is one row, with them. -/
theorem CellHas.next {c : Codec} {fuel B : Nat} (d : Schema) (hd : d.Cell) (n : Nat) (x : Rd n) (a b : List Item) (h : CellHas c fuel n d x (a ++ b)) (v : Vec)
    (hv : CellShape B a.length d v) :
    ∃ v' x', (rdOps c fuel n).nextBatch x v = .ok (v', x') ∧ CellHas c fuel n d x' b ∧ CellShape B a.length d v' ∧
      v'.items false = a.map Item.counted ∧ (a.length ≤ 1 → v'.items true = a) := by
  match n, x with
  | 0, _ => exact h.elim
  | n + 1, x =>
    obtain ⟨nd, cs⟩ := d
    change RdNode (Rd n) at x
    cases x with
    | leaf t r =>
      obtain ⟨rfl, hk, ht, hp, rows, hi, hall, hh⟩ := h
      obtain ⟨ra, rb, rfl, rfl, rfl⟩ := List.append_eq_map_iff.mp hi
      cases hv with
      | value _ s plain cap size fits unmarked =>
      rw [List.length_map] at size fits ⊢
      have hm : nd.hasNulls = false → s.visible.map (·.null) = ra.map (·.isNone) := by
        intro hn
        have h1 : ∀ v ∈ s.visible, v.null = false := fun v hv => unmarked hn v (List.mem_of_mem_take hv)
        have h2 : ∀ x ∈ ra, x.isNone = false := by
          intro x hx
          have := hall hn x (by simp [hx])
          cases x with
          | none => simp at this
          | some _ => rfl
        rw [List.map_congr_left h1, List.map_congr_left h2]
        simp only [List.map_const', Slice.visible, List.length_take]
        congr 1; omega
      obtain ⟨s', r', g1, g2, g3, g4, g5, g6, g7, -⟩ := leafBatch_spec ht nd hh hp s cap size fits hm
      refine ⟨_, .leaf t r', ?_, ⟨rfl, hk, ht, g3, rb, rfl, fun hn x hx => hall hn x (by simp [hx]), g2⟩,
        .value nd s' plain g4 g5 fits (fun hn => g6 (fun x hx => hall hn x (by simp [hx])) (unmarked hn)), ?_, fun _ => ?_⟩
      · have e : (RdNode.leaf t r).nextBatch (rdOps c fuel n) c fuel (.mk nd.id nd.kind (some s) []) = .ok (.mk nd.id nd.kind (some s') [], .leaf t r') := by
          simp only [RdNode.nextBatch, g1, Res.ok_bind, Res.pure_eq]
        exact e
      · rw [items_value, visibleRows, g7, List.map_map]
        exact List.map_congr_left fun x _ => by cases x <;> rfl
      · rw [items_value, visibleRows, g7]
    | dict _ => exact h.elim
    | bare _ _ => exact h.elim
    | struct _ _ _ _ => exact h.elim
    | list kind p l ix y =>
      obtain ⟨hk, ⟨e, rfl⟩, hp, rows, P, hi, hF, hN, hL⟩ := h
      obtain ⟨ra, rb, rfl, rfl, rfl⟩ := List.append_eq_map_iff.mp hi
      cases hv with
      | list _ _ s t kind' plain cap size fits unmarked hz =>
      rw [List.length_map] at size fits ⊢
      rw [List.map_append] at hL
      have hvl : s.visible.length = (ra.map (Option.map (List.map (rowValue .nil)))).length := by simp [Slice.visible]; omega
      have hall : nd.hasNulls = false → ∀ r ∈ ra.map (Option.map (List.map (rowValue .nil))), r.isSome = true := by
        intro hn r hr
        have hfl := hL.1
        rw [hp.2 hn] at hfl
        exact flagsLeft_none hfl _ (List.mem_map.2 ⟨r, by simp only [List.mem_append]; exact .inl hr, rfl⟩)
      obtain ⟨t', p', l', y', g1, g2, g3, g4, g5⟩ := listRows_spec hF (ra.map (Option.map (List.map (rowValue .nil)))) _ (by
          intro hm
          cases hn : nd.hasNulls with
          | true => exact hN hn
          | false => simpa using hall hn _ hm) s.visible hvl hL
        (fun hpn v hv => unmarked (hp.1 hpn) v (List.mem_of_mem_take hv)) e.id e.kind t [] []
      generalize hzz : List.zipWith (fun old row => listRow (fun n => .u64 (BitVec.ofNat 64 n)) old row) s.visible
        (ra.map (Option.map (List.map (rowValue .nil)))) = z at g1
      have hzl : z.length = ra.length := by rw [← hzz, List.length_zipWith, hvl]; simp
      obtain ⟨k1, k2, k3, k4⟩ := updated (z := z) cap (by omega) (by omega)
      refine ⟨_, .list kind p' l' ix y', ?_, ⟨hk, ⟨e, rfl⟩, g3.trans hp, rb, P, rfl, hF, hN, g2⟩,
        .list nd e (s.update z) t' kind' plain k1 (by omega) fits (fun hn => k4 (by rw [← hzz]; exact listRow_unmarked _ _ _ (hall hn)) (unmarked hn)) ?_, ?_, ?_⟩
      · have e : (RdNode.list kind p l ix y).nextBatch (rdOps c fuel n) c fuel (.mk nd.id .list (some s) [.mk e.id e.kind (some t) []]) =
            .ok (.mk nd.id .list (some (s.update z)) [.mk e.id e.kind (some t') []], .list kind p' l' ix y') := by
          simp only [RdNode.nextBatch, visibleRows, g1, Res.ok_bind, Res.pure_eq, updateRows, Option.map_some]
        exact e
      · intro h0
        rw [g4 (by rw [List.eq_nil_of_length_eq_zero h0]; rfl)]
        exact hz (by simpa using h0)
      · rw [items_list_counts, visibleRows, k3, ← hzz, listRow_shown _ Item.ofValue _ _ hvl, List.map_map, List.map_map]
        apply List.map_congr_left
        intro r _
        cases r <;> simp [Item.ofValue, Item.ofList, Item.counted]
      · intro h1
        simp only [Vec.items, visibleRows, k3]
        rcases ra with _ | ⟨row, _ | ⟨row', ra⟩⟩
        · rw [← hzz]; simp
        · obtain ⟨old, hold⟩ : ∃ old, s.visible = [old] := List.length_eq_one_iff.1 hvl
          rw [hold] at hzz
          subst hzz
          cases row with
          | none => rfl
          | some es =>
            have h5 : t'.visible = es.map (rowValue GoVal.nil) := by
              have := g5 _ rfl
              simpa [rowElements, Function.comp_def] using this
            have hlen : t'.visible.length = es.length := by rw [h5]; simp
            simp only [List.map_cons, List.map_nil, List.zipWith_cons_cons, List.zipWith_nil_left, listRow, Option.map_some, Bool.false_eq_true, if_false, Vec.rows,
              visibleRows, hlen, List.length_map, and_self, if_true, Item.ofList]
            rw [h5]
            simp only [rowValue_rows]
        · simp at h1
    | map kind p l ix y z =>
      obtain ⟨hk, ⟨e, e', rfl⟩, hp, rows, P, Q, hi, hF, hG, hN, hL⟩ := h
      obtain ⟨ra, rb, rfl, rfl, rfl⟩ := List.append_eq_map_iff.mp hi
      cases hv with
      | map _ _ _ s t u kind' plain plain' cap size fits unmarked hz =>
      rw [List.length_map] at size fits ⊢
      rw [List.map_append] at hL
      have hvl : s.visible.length = (ra.map (Option.map (List.map fun e => (rowValue .nil e.1, rowValue .nil e.2)))).length := by simp [Slice.visible]; omega
      have hall : nd.hasNulls = false → ∀ r ∈ ra.map (Option.map (List.map fun e => (rowValue .nil e.1, rowValue .nil e.2))), r.isSome = true := by
        intro hn r hr
        have hfl := hL.1
        rw [hp.2 hn] at hfl
        exact flagsLeft_none hfl _ (List.mem_map.2 ⟨r, by simp only [List.mem_append]; exact .inl hr, rfl⟩)
      obtain ⟨t', u', p', l', y', z', g1, g2, g3, g4, g5, g6⟩ := mapRows_spec hF hG (ra.map (Option.map (List.map fun e => (rowValue .nil e.1, rowValue .nil e.2)))) _ (by
          intro hm
          cases hn : nd.hasNulls with
          | true => exact hN hn
          | false => simpa using hall hn _ hm) s.visible hvl hL
        (fun hpn v hv => unmarked (hp.1 hpn) v (List.mem_of_mem_take hv)) e.id e'.id e.kind e'.kind t u [] [] []
      generalize hzz : List.zipWith (fun old row => listRow (fun n => .int n) old row) s.visible
        (ra.map (Option.map (List.map fun e => (rowValue .nil e.1, rowValue .nil e.2)))) = zz at g1
      have hzl : zz.length = ra.length := by rw [← hzz, List.length_zipWith, hvl]; simp
      obtain ⟨k1, k2, k3, k4⟩ := updated (z := zz) cap (by omega) (by omega)
      refine ⟨_, .map kind p' l' ix y' z', ?_, ⟨hk, ⟨e, e', rfl⟩, g3.trans hp, rb, P, Q, rfl, hF, hG, hN, g2⟩,
        .map nd e e' (s.update zz) t' u' kind' plain plain' k1 (by omega) fits (fun hn => k4 (by rw [← hzz]; exact listRow_unmarked _ _ _ (hall hn)) (unmarked hn)) ?_, ?_, ?_⟩
      · have e : (RdNode.map kind p l ix y z).nextBatch (rdOps c fuel n) c fuel (.mk nd.id .map (some s) [.mk e.id e.kind (some t) [], .mk e'.id e'.kind (some u) []]) =
            .ok (.mk nd.id .map (some (s.update zz)) [.mk e.id e.kind (some t') [], .mk e'.id e'.kind (some u') []], .map kind p' l' ix y' z') := by
          simp only [RdNode.nextBatch, visibleRows, g1, Res.ok_bind, Res.pure_eq, updateRows, Option.map_some]
        exact e
      · intro h0
        rw [(g4 (by rw [List.eq_nil_of_length_eq_zero h0]; rfl)).1]
        exact hz (by simpa using h0)
      · rw [items_list_counts, visibleRows, k3, ← hzz, listRow_shown _ Item.ofValue _ _ hvl, List.map_map, List.map_map]
        apply List.map_congr_left
        intro r _
        cases r <;> simp [Item.ofValue, Item.ofMap, Item.counted]
      · intro h1
        simp only [Vec.items, visibleRows, k3]
        rcases ra with _ | ⟨row, _ | ⟨row', ra⟩⟩
        · rw [← hzz]; simp
        · obtain ⟨old, hold⟩ : ∃ old, s.visible = [old] := List.length_eq_one_iff.1 hvl
          rw [hold] at hzz
          subst hzz
          cases row with
          | none => rfl
          | some es =>
            have h5 : t'.visible = es.map fun e => rowValue GoVal.nil e.1 := by
              have := g5 _ rfl
              simpa [rowElements, Function.comp_def] using this
            have h6 : u'.visible = es.map fun e => rowValue GoVal.nil e.2 := by
              have := g6 _ rfl
              simpa [rowElements, Function.comp_def] using this
            have hlen : t'.visible.length = es.length := by rw [h5]; simp
            have hlen' : u'.visible.length = es.length := by rw [h6]; simp
            simp only [List.map_cons, List.map_nil, List.zipWith_cons_cons, List.zipWith_nil_left, listRow, Option.map_some, Bool.false_eq_true, if_false, Vec.rows,
              visibleRows, hlen, hlen', List.length_map, and_self, if_true, Item.ofMap]
            rw [h5, h6]
            simp only [List.map_map, Function.comp_def, rowValue_row]
            rw [← List.unzip_fst, ← List.unzip_snd, List.zip_unzip]
        · simp at h1

/-! ### Tables -/

/-- The vector of a batch of some columns of a table. -/
def TableShape (bo : BatchOption) (B len : Nat) (s : Schema) (v : Vec) : Prop :=
  ∃ vs, v = .mk s.node.id .struct none vs ∧ vs ≠ [] ∧ List.Forall₂ (CellShape B len) (s.children.filter fun c => bo.isInclude c.node.id) vs

/-- The reader of some columns of a table: the rows `items` are left. -/
def TableHas (c : Codec) (fuel : Nat) (bo : BatchOption) (s : Schema) : (n : Nat) → Rd n → List ItemRow → Prop
  | 0, _, _ => False
  | n + 1, x, items =>
    match (x : RdNode (Rd n)) with
    | .struct _ none _ xs => List.Forall₂ (fun d y => CellHas c fuel n d y (items.map (ItemRow.item d.node.id))) (s.children.filter fun c => bo.isInclude c.node.id) xs
    | _ => False

/-- What is seen of a row. -/
def ItemRow.shown (full : Bool) (ids : List Nat) (r : ItemRow) : ItemRow := if full then r.only ids else (r.only ids).counted

theorem ItemRow.shown_eq (full : Bool) (ids : List Nat) (r : ItemRow) :
    r.shown full ids = ids.map fun j => (j, if full then r.item j else (r.item j).counted) := by
  cases full <;> simp [ItemRow.shown, ItemRow.only, ItemRow.counted, Function.comp_def]

/-- The reader of some columns of a table: the rows `rows` are left to be shown. -/
def TableLeft (c : Codec) (fuel : Nat) (bo : BatchOption) (s : Schema) (full : Bool) (n : Nat) (x : Rd n) (rows : List ItemRow) : Prop :=
  ∃ items : List ItemRow, rows = items.map (ItemRow.shown full (s.picked bo)) ∧ TableHas c fuel bo s n x items

theorem tableShape_len {bo : BatchOption} {B len : Nat} {s : Schema} {v : Vec} (h : TableShape bo B len s v) : v.len = len ∧ v.cap = B := by
  obtain ⟨vs, rfl, hne, h⟩ := h
  generalize s.children.filter (fun c => bo.isInclude c.node.id) = fs at h
  cases h with
  | nil => exact absurd rfl hne
  | cons h hs =>
    obtain ⟨h1, h2⟩ := h.len_cap
    exact ⟨by simp [Vec.len, h1], by simp [Vec.cap, h2]⟩

theorem cells_clear {B len : Nat} {fs : List Schema} {vs : List Vec} (h : List.Forall₂ (CellShape B len) fs vs) :
    ∃ vs', clearAll vs = .ok vs' ∧ List.Forall₂ (CellShape B 0) fs vs' := by
  induction h with
  | nil => exact ⟨[], rfl, .nil⟩
  | cons h hs ih =>
    obtain ⟨v', e1, e2⟩ := h.clear
    obtain ⟨vs', e3, e4⟩ := ih
    exact ⟨v' :: vs', by simp only [clearAll, e1, e3, Res.ok_bind, Res.pure_eq], .cons e2 e4⟩

theorem cells_setSize {B len : Nat} {fs : List Schema} {vs : List Vec} (h : List.Forall₂ (CellShape B len) fs vs) (hasNulls : List Bool) (m : Nat) (hm : m ≤ B) :
    ∃ vs', setVectorSizes hasNulls m vs = .ok vs' ∧ List.Forall₂ (CellShape B m) fs vs' := by
  induction h with
  | nil => exact ⟨[], rfl, .nil⟩
  | cons h hs ih =>
    obtain ⟨v', e1, e2⟩ := h.setSize hasNulls m hm
    obtain ⟨vs', e3, e4⟩ := ih
    exact ⟨v' :: vs', by simp only [setVectorSizes, e1, e3, Res.ok_bind, Res.pure_eq], .cons e2 e4⟩

theorem cells_next {c : Codec} {fuel B n : Nat} (a b : List ItemRow) (fs : List Schema) (hfs : ∀ d ∈ fs, d.Cell) (vs : List Vec) (xs : List (Rd n))
    (hv : List.Forall₂ (CellShape B a.length) fs vs) (hx : List.Forall₂ (fun d y => CellHas c fuel n d y ((a ++ b).map (ItemRow.item d.node.id))) fs xs) :
    ∃ vs' xs', childBatches (rdOps c fuel n) xs vs = .ok (vs', xs') ∧
      List.Forall₂ (fun d y => CellHas c fuel n d y (b.map (ItemRow.item d.node.id))) fs xs' ∧ List.Forall₂ (CellShape B a.length) fs vs' ∧
      List.Forall₂ (fun d v => v.items false = a.map (fun r => (r.item d.node.id).counted) ∧ (a.length ≤ 1 → v.items true = a.map (ItemRow.item d.node.id))) fs vs' := by
  induction fs generalizing vs xs with
  | nil => cases hv; cases hx; exact ⟨[], [], rfl, .nil, .nil, .nil⟩
  | cons d fs ih =>
    cases hv with
    | cons hv hvs =>
    cases hx with
    | cons hx hxs =>
    rename_i v vs x xs
    obtain ⟨vs', xs', g1, g2, g3, g4⟩ := ih (fun d hd => hfs d (by simp [hd])) vs xs hvs hxs
    rw [List.map_append] at hx
    obtain ⟨v', x', k1, k2, k3, k4, k5⟩ := CellHas.next (B := B) d (hfs d (by simp)) n x _ _ hx v (by rw [List.length_map]; exact hv)
    rw [List.length_map] at k3 k5
    refine ⟨v' :: vs', x' :: xs', by simp only [childBatches, k1, g1, Res.ok_bind, Res.pure_eq], .cons k2 g2, .cons k3 g3, .cons ⟨?_, k5⟩ g4⟩
    rw [k4, List.map_map]; rfl

theorem rows_shown {full : Bool} {B len : Nat} {a : List ItemRow} (hlen : len = a.length) (fs : List Schema) (vs : List Vec)
    (hv : List.Forall₂ (CellShape B len) fs vs) (h : List.Forall₂ (fun d v => v.items full = a.map fun r => if full then r.item d.node.id else (r.item d.node.id).counted) fs vs)
    (i : Nat) (hi : i < a.length) :
    vs.map (fun c => (c.id, ((c.items full)[i]?).getD .null)) = a[i].shown full (fs.map fun c => c.node.id) := by
  rw [ItemRow.shown_eq]
  induction fs generalizing vs with
  | nil => cases hv; rfl
  | cons d fs ih =>
    cases hv with
    | cons hv hvs =>
    cases h with
    | cons h hs =>
    rw [List.map_cons, ih _ hvs hs, List.map_cons, List.map_cons, hv.id, h]
    simp [hi]

/-- **The reader of a table**: batches of any size without the elements of lists and maps, batches of one row with them. -/
theorem table_delivers (c : Codec) (fuel : Nat) (bo : BatchOption) (s : Schema) (hs : s.Flat) (n : Nat) (hasNulls : List Bool)
    (hn : hasNulls[s.node.id]? = some false) (B : Nat) (full : Bool) (hfull : full = true → B = 1) :
    Delivers (rdOps c fuel n) hasNulls B (fun v => ∃ len, TableShape bo B len s v) (TableLeft c fuel bo s full n) (Vec.itemRows full) where
  cleared := by
    rintro vec ⟨len, vs, rfl, hne, h⟩
    obtain ⟨vs', h1, h2⟩ := cells_clear h
    have h3 : TableShape bo B 0 s (.mk s.node.id .struct none vs') := ⟨vs', rfl, by
      rintro rfl
      have e := h.length_eq
      rw [h2.length_eq] at e
      exact hne (List.length_eq_zero_iff.1 e.symm), h2⟩
    obtain ⟨h4, h5⟩ := tableShape_len h3
    exact ⟨_, by simp only [Vec.clear, h1, Res.ok_bind, Res.pure_eq, Option.map_none], ⟨0, h3⟩, by simp [Vec.itemRows, h4], h4, h5⟩
  next := by
    rintro vec ⟨len, vs, rfl, hne, h⟩ - x rows rest hle ⟨items, hi, hx⟩
    obtain ⟨ia, ib, rfl, rfl, rfl⟩ := List.append_eq_map_iff.mp hi
    rw [List.length_map] at hle ⊢
    match n, x with
    | 0, _ => exact hx.elim
    | n + 1, x =>
    change RdNode (Rd n) at x
    cases x with
    | struct kind p ix xs =>
      cases p with
      | some _ => exact hx.elim
      | none =>
        change List.Forall₂ _ _ xs at hx
        obtain ⟨ws, h1, h2⟩ := cells_setSize h hasNulls ia.length hle
        obtain ⟨vs', xs', g1, g2, g3, g4⟩ := cells_next ia ib _ (fun d hd => hs.2.2 d (List.mem_filter.1 hd).1) ws xs h2 hx
        have hne' : vs' ≠ [] := by
          rintro rfl
          have e1 := g3.length_eq
          have e2 := h.length_eq
          rw [e1] at e2
          exact hne (List.length_eq_zero_iff.1 e2.symm)
        have hsh : TableShape bo B ia.length s (.mk s.node.id .struct none vs') := ⟨vs', rfl, hne', g3⟩
        obtain ⟨h4, h5⟩ := tableShape_len hsh
        refine ⟨.mk s.node.id .struct none ws, .mk s.node.id .struct none vs', (RdNode.struct kind none ix xs' : RdNode (Rd n)), ?_, ?_, ⟨ib, rfl, g2⟩, ⟨_, hsh⟩, ?_, h4, h5⟩
        · simp only [setVectorSize, hn, Bool.false_eq_true, if_false, h1, Res.ok_bind, Res.pure_eq]
        · have e : (RdNode.struct kind none ix xs).nextBatch (rdOps c fuel n) c fuel (.mk s.node.id .struct none ws) =
              .ok (.mk s.node.id .struct none vs', .struct kind none ix xs') := by
            simp only [RdNode.nextBatch, structBatch, g1, Res.ok_bind, Res.pure_eq]
          exact e
        · apply List.ext_getElem
          · simp [Vec.itemRows, h4]
          · intro i hi hi'
            rw [List.length_map] at hi'
            simp only [Vec.itemRows, List.getElem_map, List.getElem_range, Vec.children]
            rw [rows_shown (a := ia) rfl _ _ g3 ?_ i hi']
            · rfl
            · refine g4.imp fun d v hv => ?_
              cases full with
              | false => exact hv.1
              | true => exact hv.2 (by have := hfull rfl; omega)
    | _ => exact hx.elim

/-! ### Opening -/

section
variable {c : Codec} {kind : CompKind} {size : Nat} {file : Bytes} {ps : List LaidStream}

/-- A column of values as a stripe stores it can be opened. -/
theorem leaf_of_stored {n : SchemaNode} {enc : Encoding} {rows : List (Option GoVal)} (h : ColumnStored c kind size file n enc ps rows) (hk : n.kind.nested = false) :
    ∃ t r, newReaderTag n.kind enc = .ok (.leaf t) ∧ t.Replaces ∧ t.read.SkipsLikeNext c ∧ t.read.openCol kind n.hasNulls (laid kind size file ps) = some r ∧
      t.read.Holds c (fun _ => True) (fun _ => True) r rows ∧ (n.hasNulls = false → r.present = none) ∧ ((∃ p ∈ ps, p.kind = .present) → r.present ≠ none) := by
  obtain ⟨contents, present, hpn, ⟨hs, -⟩ | ⟨t, hs, hl, hfl, he⟩⟩ := h
  · rw [hs] at hk; cases hk
  · obtain ⟨h1, h2, h3, h4, h5⟩ := hs.reader
    obtain ⟨x, x', m1, m2⟩ := encodes_data hl he
    rw [← h4] at hl
    obtain ⟨r, o1, o2, o3, o4⟩ := ColumnLaid.opens (R := t.read) (hasNulls := n.hasNulls) hl h5 hpn x m1
    refine ⟨t, r, h1, h3, LeafTag.skips t c, o1, ?_, fun hn => o3 ?_, fun hp => ?_⟩
    · cases present with
      | none =>
        simp only [ReadKind.Holds, ReadKind.Has, o3 rfl]
        refine ⟨x', ?_, by rw [o2]; exact m2, trivial⟩
        simp only [Flagged, Option.getD_none] at hfl
        rw [hfl]; simp
      | some bs =>
        obtain ⟨p, p', g1, g2⟩ := o4 _ rfl
        simp only [Flagged, Option.getD_some] at hfl
        simp only [ReadKind.Holds, ReadKind.Has, g1]
        exact ⟨p', x', by rw [hfl]; exact g2, trivial, by rw [o2]; exact m2, trivial⟩
    · cases present with
      | none => rfl
      | some bs => have := hpn rfl; rw [hn] at this; cases this
    · obtain ⟨p, hp1, hp2⟩ := hp
      have := (hl.kinds .present).1 (List.mem_map.2 ⟨p, hp1, hp2⟩)
      cases present with
      | none => simp [h5] at this
      | some bs => obtain ⟨p, p', g1, g2⟩ := o4 _ rfl; simp [g1]

/-- The own streams of a list or map column as a stripe stores it. -/
theorem lengths_of_stored {n : SchemaNode} {counts : List (Option Nat)} (h : LengthsStored c kind size file n ps counts) :
    (∀ p ∈ ps, ReaderTag.list.accepts n.hasNulls p.kind = true ∧ ReaderTag.map.accepts n.hasNulls p.kind = true) ∧
    FlagsLeft c ((Goorc.lookup (laid kind size file ps) .present).map newBoolReader) (counts.map (·.isSome)) ∧
    LengthsLeft c ((Goorc.lookup (laid kind size file ps) .length).map (newIntReader false)) (counts.filterMap id) ∧
    (n.hasNulls = false → Goorc.lookup (laid kind size file ps) .present = none) ∧
    ((∃ p ∈ ps, p.kind = .present) → Goorc.lookup (laid kind size file ps) .present ≠ none) := by
  obtain ⟨contents, present, blocks, hpn, hl, hfl, hsm, hbs, hh, hlen⟩ := h
  have hno : present = none → Goorc.lookup (laid kind size file ps) .present = none := by
    rintro rfl
    exact (hl.lookup .present).2 (by simp)
  have hyes : ∀ bs, present = some bs → ∃ q, Goorc.lookup (laid kind size file ps) .present = some q ∧ ∃ r', Yields (BoolReader.next c) (newBoolReader q) bs r' := by
    rintro bs rfl
    obtain ⟨q, g1, g2⟩ := (hl.lookup .present).1 (by simp)
    obtain ⟨bytes, pad, k1, k2⟩ := hl.flags _ rfl
    have hr := BoolReader.fresh g2 (byteStream_decodes k1)
    have e : bytes.flatMap boolsOfByte = bytesBits bytes := by
      simp only [bytesBits]; congr 1; funext b; exact boolsOfByte_bits b
    rw [e, k2] at hr
    obtain ⟨r', m, -⟩ := BoolReader.yields_spec _ pad hr
    exact ⟨q, g1, r', m⟩
  refine ⟨fun p hp => ?_, ?_, ?_, fun hn => hno ?_, fun hp => ?_⟩
  · rcases (hl.kinds p.kind).1 (List.mem_map_of_mem hp) with h | ⟨h1, h2⟩
    · simp only [List.mem_singleton] at h
      simp [h, ReaderTag.accepts]
    · simp [h1, ReaderTag.accepts, hpn h2]
  · cases hp : present with
    | none =>
      rw [hno hp]
      rw [hp, Option.getD_none] at hfl
      rw [hfl]
      intro b hb
      obtain ⟨_, _, rfl⟩ := List.mem_map.1 hb
      rfl
    | some bs =>
      obtain ⟨q, g1, g2⟩ := hyes bs hp
      rw [hp, Option.getD_some] at hfl
      rw [g1, hfl]
      exact g2
  · obtain ⟨t, h3, h4⟩ := (hl.lookup .length).1 (.inl (by simp))
    have hdec := intStream_decodes hbs hh
    rw [hlen, List.map_map] at hdec
    obtain ⟨len', k, -⟩ := uintReader_yields h4 hdec
    rw [h3]
    refine ⟨hsm, len', ?_⟩
    have e : ((BitVec.ofInt 64) ∘ fun m : Nat => (m : Int)) = BitVec.ofNat 64 := by
      funext m; exact BitVec.ofInt_natCast ..
    rw [e] at k
    exact k
  · cases present with
    | none => rfl
    | some bs => have := hpn rfl; rw [hn] at this; cases this
  · obtain ⟨p, hp1, hp2⟩ := hp
    have := (hl.kinds .present).1 (List.mem_map.2 ⟨p, hp1, hp2⟩)
    cases hpr : present with
    | none => simp [hpr] at this
    | some bs => obtain ⟨q, g1, g2⟩ := hyes bs hpr; simp [g1]

end

theorem map_filterMap_id {α β : Type} (f : α → β) (rows : List (Option α)) : (rows.map (Option.map f)).filterMap id = (rows.filterMap id).map f := by
  induction rows with
  | nil => rfl
  | cons r rows ih => cases r <;> simp_all

/-- What is known of the readers of a stripe after their streams have been opened. -/
def StripeReaders (ro : ROpts) (bo : BatchOption) (s : Schema) (file : Bytes) (f : StripeFooter) (places : List (StreamInfo × Nat)) (rs : List (Option FlatRd)) : Prop :=
  ∀ d ∈ s.columns, bo.isInclude d.node.id = true → ∃ enc tag ix, f.columns[d.node.id]? = some enc ∧ newReaderTag d.node.kind enc = .ok tag ∧
    rs[d.node.id]? = some (some ⟨tag, d.node.hasNulls, laid ro.kind ro.chunkSize file (columnStreams file d.node.id places), ix⟩)

section
variable {c : Codec} {bo : BatchOption} {ro : ROpts} {s : Schema} {file : Bytes} {f : StripeFooter} {places : List (StreamInfo × Nat)}
  {types : List RdType} {rs : List (Option FlatRd)}

theorem leaf_opens (ht : TypesOf s types) (hrs : StripeReaders ro bo s file f places rs) {e : SchemaNode} {cs : List Schema} (he : Schema.mk e cs ∈ s.columns) (hinc : bo.isInclude e.id = true)
    (hk : e.kind.nested = false) {enc : Encoding} (henc : f.columns[e.id]? = some enc) {rows : List (Option GoVal)}
    (h : ColumnStored c ro.kind ro.chunkSize file e enc (columnStreams file e.id places) rows) :
    ∃ (t : LeafTag) (r : ColReader t.ρ), (∀ m, treeOf bo ro types rs (m + 1) e.id = .ok (RdNode.leaf t r : RdNode (Rd m))) ∧ t.Replaces ∧ t.read.SkipsLikeNext c ∧
      t.read.Holds c (fun _ => True) (fun _ => True) r rows ∧ (e.hasNulls = false → r.present = none) ∧
      ((∃ p ∈ columnStreams file e.id places, p.kind = .present) → r.present ≠ none) := by
  obtain ⟨t, r, h1, h2, h3, h4, h5, h6, h7⟩ := leaf_of_stored h hk
  obtain ⟨names, hty⟩ := ht.2 _ he
  obtain ⟨enc', tag, ix, g1, g2, g3⟩ := hrs _ he hinc
  simp only [Schema.node] at hty g1 g2 g3
  rw [henc] at g1; cases g1
  rw [h1] at g2; cases g2
  refine ⟨t, { r with index := ix }, fun m => ?_, h2, h3, h5, h6, h7⟩
  simp only [treeOf, hty, g3, openLeaf, h4]
  rfl

/-- The elements of lists and maps: their reader feeds the reader of the lists. -/
theorem leaf_left {t : LeafTag} {r : ColReader t.ρ} (ht : t.Replaces) (hs : t.read.SkipsLikeNext c) {rows : List (Option GoVal)}
    (hr : t.read.Holds c (fun _ => True) (fun _ => True) r rows) (fuel m : Nat) (plain : Bool) (hp : plain = true → r.present = none) :
    ∃ P : Rd (m + 1) → List Value → Prop, Feeds (rdOps c fuel (m + 1)) P ∧ (plain = true → PassesNulls (rdOps c fuel (m + 1)) P) ∧
      P (RdNode.leaf t r : RdNode (Rd m)) (rows.map (rowValue .nil)) := by
  cases plain with
  | true =>
    obtain ⟨h1, h2⟩ := plain_feeds (c := c) (rdOps c fuel m) fuel t (fun _ => True) (fun _ => True) (ht.prepare c) (by funext a b; exact ht.store a b) hs
    exact ⟨PlainLeft (Rd m) t c (fun _ => True) (fun _ => True), h1, fun _ => h2, r, rows, rfl, hr, hp rfl, rfl⟩
  | false =>
    have h1 := leaf_feeds (c := c) (rdOps c fuel m) fuel t (fun _ => True) (fun _ => True) (ht.prepare c) (by funext a b; exact ht.store a b) hs
    exact ⟨LeafLeft (Rd m) t c (fun _ => True) (fun _ => True), h1, by simp, r, rows, rfl, hr, rfl⟩

theorem cell_opens (ht : TypesOf s types) (hrs : StripeReaders ro bo s file f places rs) {d : Schema} (hd : d.Cell) (hmem : d ∈ s.columns) (hinc : bo.isInclude d.node.id = true)
    (hsub : ∀ e ∈ d.children, bo.isInclude e.node.id = true) {items : List Item} (h : CellStored c ro.kind ro.chunkSize file f places d items)
    (hfl : d.node.hasNulls = true → ∃ p ∈ columnStreams file d.node.id places, p.kind = .present) (fuel n : Nat) (hn : d.columns.length ≤ n) :
    ∃ x, treeOf bo ro types rs n d.node.id = .ok x ∧ CellHas c fuel n d x items := by
  cases hd with
  | value nd hk =>
    obtain ⟨enc, rows, h1, rfl, h2⟩ := h
    obtain ⟨t, r, g1, g2, g3, g4, g5, g6⟩ := leaf_opens ht hrs hmem hinc hk h1 h2
    match n, hn with
    | n + 1, _ =>
    refine ⟨_, g1 n, rfl, hk, g2, ⟨fun hp => ?_, g5⟩, rows, rfl, fun hnn => ?_, ?_⟩
    · cases hnn : nd.hasNulls with
      | false => rfl
      | true => exact absurd hp (g6 (hfl hnn))
    · have hp := g5 hnn
      simp only [ReadKind.Holds, ReadKind.Has, hp] at g4
      obtain ⟨_, h3, -⟩ := g4
      simpa using h3
    · cases hnn : nd.hasNulls with
      | true => exact g4
      | false =>
        have hp := g5 hnn
        have hall : rows.filter (·.isSome) = rows := by
          simp only [ReadKind.Holds, ReadKind.Has, hp] at g4
          obtain ⟨_, h3, -⟩ := g4
          rw [List.filter_eq_self]
          simpa using h3
        simp only [Bool.false_eq_true, if_false, hall]
        exact g4
  | list nd e hk hek hnulls =>
    obtain ⟨enc, rows, h0, h1, rfl, h2, h3⟩ := h
    have hemem : Schema.mk e [] ∈ s.columns := columns_child hmem (by simp [Schema.children])
    have heinc := hsub (.mk e []) (by simp [Schema.children])
    obtain ⟨t, r, g1, g2, g3, g4, g5, g6⟩ := leaf_opens ht hrs hemem heinc hek h1 h3
    obtain ⟨-, k1, k2, k3, k4⟩ := lengths_of_stored h2
    obtain ⟨names, hty⟩ := ht.2 _ hmem
    obtain ⟨enc', tag, ix, j1, j2, j3⟩ := hrs _ hmem hinc
    simp only [Schema.node] at hty j1 j2 j3 heinc hinc ⊢
    rw [h0] at j1; cases j1
    rw [hk] at j2; cases j2
    match n, hn with
    | n + 2, _ =>
    obtain ⟨P, p1, p2, p3⟩ := leaf_left g2 g3 g4 fuel n nd.hasNulls fun hnn => g5 (hnulls hnn)
    refine ⟨(RdNode.list ro.kind ((Goorc.lookup (laid ro.kind ro.chunkSize file (columnStreams file nd.id places)) .present).map newBoolReader)
      ((Goorc.lookup (laid ro.kind ro.chunkSize file (columnStreams file nd.id places)) .length).map (newIntReader false)) ix
      (some (RdNode.leaf t r : RdNode (Rd n))) : RdNode (Rd (n + 1))), ?_, hk, ⟨e, rfl⟩, ⟨fun hp => ?_, fun hnn => by rw [k3 hnn]; rfl⟩, rows, P, rfl, p1, p2, ?_, ?_, _, rfl, ?_⟩
    · rw [treeOf]
      simp only [hty, j3, Schema.children, List.map_cons, List.map_nil, Schema.node, List.filter_cons, heinc, if_true, List.filter_nil, List.getLast?_singleton, treeOn]
      rw [g1 n]
      rfl
    · cases hnn : nd.hasNulls with
      | false => rfl
      | true =>
        rw [Option.map_eq_none_iff] at hp
        exact absurd hp (k4 (hfl hnn))
    · simpa only [List.map_map, Function.comp_def, Option.isSome_map] using k1
    · rw [map_filterMap_id] at k2 ⊢
      simpa only [List.map_map, Function.comp_def, List.length_map] using k2
    · rw [map_filterMap_id, ← List.map_flatten]
      exact p3
  | map nd e e' hk hek hek' hnulls =>
    obtain ⟨enc, enc', rows, h0, h1, h1', rfl, h2, h3, h3'⟩ := h
    have hemem : Schema.mk e [] ∈ s.columns := columns_child hmem (by simp [Schema.children])
    have hemem' : Schema.mk e' [] ∈ s.columns := columns_child hmem (by simp [Schema.children])
    have heinc := hsub (.mk e []) (by simp [Schema.children])
    have heinc' := hsub (.mk e' []) (by simp [Schema.children])
    obtain ⟨t, r, g1, g2, g3, g4, g5, g6⟩ := leaf_opens ht hrs hemem heinc hek h1 h3
    obtain ⟨t', r', g1', g2', g3', g4', g5', g6'⟩ := leaf_opens ht hrs hemem' heinc' hek' h1' h3'
    obtain ⟨-, k1, k2, k3, k4⟩ := lengths_of_stored h2
    obtain ⟨names, hty⟩ := ht.2 _ hmem
    obtain ⟨enc', tag, ix, j1, j2, j3⟩ := hrs _ hmem hinc
    simp only [Schema.node] at hty j1 j2 j3 heinc heinc' hinc ⊢
    rw [h0] at j1; cases j1
    rw [hk] at j2; cases j2
    match n, hn with
    | n + 2, _ =>
    obtain ⟨P, p1, p2, p3⟩ := leaf_left g2 g3 g4 fuel n nd.hasNulls fun hnn => g5 (hnulls hnn).1
    obtain ⟨Q, q1, q2, q3⟩ := leaf_left g2' g3' g4' fuel n nd.hasNulls fun hnn => g5' (hnulls hnn).2
    refine ⟨(RdNode.map ro.kind ((Goorc.lookup (laid ro.kind ro.chunkSize file (columnStreams file nd.id places)) .present).map newBoolReader)
      ((Goorc.lookup (laid ro.kind ro.chunkSize file (columnStreams file nd.id places)) .length).map (newIntReader false)) ix
      (some (RdNode.leaf t r : RdNode (Rd n))) (some (RdNode.leaf t' r' : RdNode (Rd n))) : RdNode (Rd (n + 1))), ?_, hk, ⟨e, e', rfl⟩, ⟨fun hp => ?_, fun hnn => by rw [k3 hnn]; rfl⟩, rows, P, Q, rfl, p1, q1,
      fun hnn => ⟨p2 hnn, q2 hnn⟩, ?_, ?_, ⟨_, rfl, ?_⟩, _, rfl, ?_⟩
    · rw [treeOf]
      simp only [hty, j3, Schema.children, List.map_cons, List.map_nil, Schema.node, includedChild, List.getElem?_cons_zero, List.getElem?_cons_succ, heinc, heinc', if_true, treeOn]
      rw [g1 n, g1' n]
      rfl
    · cases hnn : nd.hasNulls with
      | false => rfl
      | true =>
        rw [Option.map_eq_none_iff] at hp
        exact absurd hp (k4 (hfl hnn))
    · simpa only [List.map_map, Function.comp_def, Option.isSome_map] using k1
    · rw [map_filterMap_id] at k2 ⊢
      simpa only [List.map_map, Function.comp_def, List.length_map] using k2
    · rw [map_filterMap_id, ← List.map_flatten, List.map_map]
      rw [List.map_map] at p3
      exact p3
    · rw [map_filterMap_id, ← List.map_flatten, List.map_map]
      rw [List.map_map] at q3
      exact q3

end

/-! ### Stripes -/

theorem linkChildren_ok (bo : BatchOption) (kind : TypeKind) (parent : FlatRd) (cs : List Nat) (h : kind = .struct ∨ kind = .list ∨ kind = .map) :
    ∀ i, (kind = .map → i + cs.length ≤ 2) → linkChildren bo kind (some parent) i cs = .ok () := by
  induction cs with
  | nil => intro i _; rfl
  | cons c cs ih =>
    intro i hi
    have h1 : linkChild kind (some parent) i = .ok () := by
      rcases h with rfl | rfl | rfl
      · rfl
      · rfl
      · have := hi rfl
        simp only [List.length_cons] at this
        simp only [linkChild]
        rw [if_pos (by omega)]
        rfl
    have h2 := ih (i + 1) fun hk => by have := hi hk; simp only [List.length_cons] at this; omega
    simp only [linkChildren, h1, h2]
    by_cases hc : bo.isInclude c = true <;> simp [hc]

theorem linkChildren_none (bo : BatchOption) (kind : TypeKind) (parent : Option FlatRd) (cs : List Nat) (h : ∀ c ∈ cs, bo.isInclude c = false) :
    ∀ i, linkChildren bo kind parent i cs = .ok () := by
  induction cs with
  | nil => intro i; rfl
  | cons c cs ih =>
    intro i
    simp only [linkChildren, h c (by simp), Bool.false_eq_true, if_false, Res.pure_eq, Res.ok_bind]
    exact ih (fun c hc => h c (by simp [hc])) _

theorem linkAll_each (bo : BatchOption) : ∀ (types : List RdType) (rs : List (Option FlatRd)),
    (∀ (i : Nat) t r, types[i]? = some t → rs[i]? = some r → linkChildren bo t.kind r 0 t.children = .ok ()) → linkAll bo types rs = .ok () := by
  intro types
  induction types with
  | nil => intro rs _; rfl
  | cons t ts ih =>
    intro rs h
    cases rs with
    | nil => rfl
    | cons r rs =>
      simp only [linkAll, h 0 t r rfl rfl, Res.ok_bind]
      exact ih rs fun i t r h1 h2 => h (i + 1) t r (by simpa using h1) (by simpa using h2)

theorem Schema.Flat.columns {s : Schema} (h : s.Flat) {c : Schema} (hc : c ∈ s.columns) : c = s ∨ c ∈ s.children ∨ ∃ d ∈ s.children, c ∈ d.children ∧ c.children = [] ∧ c.node.kind.nested = false := by
  obtain ⟨n, cs⟩ := s
  simp only [Schema.columns, columnsAll_eq, List.mem_cons, List.mem_flatMap] at hc
  rcases hc with rfl | ⟨d, hd, hc⟩
  · exact .inl rfl
  · right
    have hcell := h.2.2 d hd
    cases hcell with
    | value nd hk =>
      simp only [Schema.columns, columnsAll, List.mem_singleton] at hc
      subst hc
      exact .inl hd
    | list nd e hk hek hn =>
      simp only [Schema.columns, columnsAll, List.append_nil, List.mem_cons, List.not_mem_nil, or_false] at hc
      rcases hc with rfl | rfl
      · exact .inl hd
      · exact .inr ⟨_, hd, by simp [Schema.children], rfl, hek⟩
    | map nd e e' hk hek hek' hn =>
      simp only [Schema.columns, columnsAll, List.append_nil, List.mem_cons, List.mem_append, List.not_mem_nil, or_false] at hc
      rcases hc with rfl | rfl | rfl
      · exact .inl hd
      · exact .inr ⟨_, hd, by simp [Schema.children], rfl, hek⟩
      · exact .inr ⟨_, hd, by simp [Schema.children], rfl, hek'⟩

/-- A stripe of a table can be opened. -/
theorem stripeItems_opens {E : Env} {ro : ROpts} {s : Schema} {file : Bytes} {info : StripeInfo} {rows : List ItemRow} {f : StripeFooter}
    {index data : List StreamInfo} (h : StripeItems E ro.kind ro.chunkSize s file info rows f index data) (num : s.Numbered) (hs : s.Flat)
    {bo : BatchOption} (hsel : bo.Picks s) {types : List RdType} (ht : TypesOf s types) (fuel : Nat) :
    ∃ x, newStripeReader E ro bo file types info = .ok ⟨types.map (·.hasNulls), some x, rows.length, 0⟩ ∧
      TableHas E.c fuel bo s types.length x rows := by
  have hchild : ∀ d ∈ s.children, d ∈ s.columns := fun d hd => columns_child (self_mem_columns s) hd
  obtain ⟨rs, rs', e1, f1, hcols⟩ := stripeFrame_readers (bo := bo) h.toStripeFrame num (by
    intro c hc
    rcases hs.columns hc with rfl | hc | ⟨d, hd, hcd, hcc, hck⟩
    · refine ⟨.direct, .struct, h.root.1, by rw [hs.1]; rfl, fun p hp => ?_⟩
      rw [h.root.2] at hp
      simp at hp
    · have hst := h.cells c hc
      have hcell := hs.2.2 c hc
      cases hcell with
      | value nd hk =>
        obtain ⟨enc, rows, h1, -, h2⟩ := hst
        obtain ⟨tag, g3, g4⟩ := columnStored_accepts h2
        exact ⟨enc, tag, h1, g3, g4⟩
      | list nd e hk hek hn =>
        obtain ⟨enc, rows, h0, h1, -, h2, h3⟩ := hst
        exact ⟨.directV2, .list, h0, by simp only [Schema.node, hk]; rfl, fun p hp => ((lengths_of_stored h2).1 p hp).1⟩
      | map nd e e' hk hek hek' hn =>
        obtain ⟨enc, enc', rows, h0, h1, h1', -, h2, h3, h3'⟩ := hst
        exact ⟨.directV2, .map, h0, by simp only [Schema.node, hk]; rfl, fun p hp => ((lengths_of_stored h2).1 p hp).2⟩
    · have hst := h.cells d hd
      have hcell := hs.2.2 d hd
      cases hcell with
      | value nd hk => simp [Schema.children] at hcd
      | list nd e hk hek hn =>
        obtain ⟨enc, rows, h0, h1, -, h2, h3⟩ := hst
        simp only [Schema.children, List.mem_singleton] at hcd
        subst hcd
        obtain ⟨tag, g3, g4⟩ := columnStored_accepts h3
        exact ⟨enc, tag, h1, g3, g4⟩
      | map nd e e' hk hek hek' hn =>
        obtain ⟨enc, enc', rows, h0, h1, h1', -, h2, h3, h3'⟩ := hst
        simp only [Schema.children, List.mem_cons, List.not_mem_nil, or_false] at hcd
        rcases hcd with rfl | rfl
        · obtain ⟨tag, g3, g4⟩ := columnStored_accepts h3
          exact ⟨enc, tag, h1, g3, g4⟩
        · obtain ⟨tag, g3, g4⟩ := columnStored_accepts h3'
          exact ⟨enc', tag, h1', g3, g4⟩) ht
  have hrs : StripeReaders ro bo s file f (startsFrom (info.offset + info.indexLength) data) rs' := by
    intro d hd hinc
    obtain ⟨enc, tag, ix, k1, k2, k3, -⟩ := hcols d hd hinc
    exact ⟨enc, tag, ix, k1, k2, k3⟩
  have hlink : linkAll bo types rs' = .ok () := by
    refine linkAll_each bo types rs' fun j t r hj hr' => ?_
    obtain ⟨c, hc, rfl, names, rfl⟩ := ht.at num hj
    have hsome : bo.isInclude c.node.id = true → ∃ q, r = some q := by
      intro hinc
      obtain ⟨enc, tag, ix, -, -, k3⟩ := hrs c hc hinc
      rw [k3] at hr'
      exact ⟨_, (Option.some.inj hr').symm⟩
    rcases hs.columns hc with rfl | hc' | ⟨d, hd, hcd, hcc, hck⟩
    · obtain ⟨q, rfl⟩ := hsome hsel.1
      exact linkChildren_ok bo _ q _ (.inl hs.1) 0 (by rw [hs.1]; simp)
    · cases hinc : bo.isInclude c.node.id with
      | false =>
        refine linkChildren_none bo _ r _ (fun j hj => ?_) 0
        obtain ⟨e, he, rfl⟩ := List.mem_map.1 hj
        rw [hsel.2.2 c hc' e he, hinc]
      | true =>
        obtain ⟨q, rfl⟩ := hsome hinc
        have hcell := hs.2.2 c hc'
        cases hcell with
        | value nd hk => rfl
        | list nd e hk hek hn => exact linkChildren_ok bo _ q _ (.inr (.inl hk)) 0 (by simp [Schema.children])
        | map nd e e' hk hek hek' hn => exact linkChildren_ok bo _ q _ (.inr (.inr hk)) 0 (by simp [Schema.children])
    · simp only [hcc, List.map_nil]
      rfl
  have hroot : s.node.id = 0 := by
    have h0 : 0 < s.columns.length := by cases s; simp [Schema.columns]
    have := numbered_at num 0 h0
    cases s
    simpa [Schema.columns] using this
  have hfirst : (types.find? fun t => bo.isInclude t.id).map (·.id) = some s.node.id := by
    obtain ⟨names, hn⟩ := ht.2 s (self_mem_columns s)
    rw [hroot] at hn
    cases types with
    | nil => simp at hn
    | cons t ts =>
      simp only [List.getElem?_cons_zero, Option.some.injEq] at hn
      have : bo.isInclude t.id = true := by rw [hn, ← hroot]; exact hsel.1
      rw [List.find?_cons_of_pos (by simpa using this)]
      simp [hn, hroot]
  obtain ⟨x, hx, hx'⟩ : ∃ x, treeOf bo ro types rs' types.length s.node.id = .ok x ∧ TableHas E.c fuel bo s types.length x rows := by
    have hlen : s.columns.length = types.length := ht.1.symm
    generalize types.length = n at hlen
    obtain ⟨names, hty⟩ := ht.2 s (self_mem_columns s)
    obtain ⟨enc, tag, ix, k1, k2, k3⟩ := hrs s (self_mem_columns s) hsel.1
    rw [hs.1] at k2
    have : tag = .struct := by
      rw [h.root.1] at k1
      cases k1
      simpa [newReaderTag] using k2.symm
    subst this
    obtain ⟨nd, cs⟩ := s
    match n, hlen with
    | 0, hlen => simp [Schema.columns] at hlen
    | n + 1, hlen =>
    obtain ⟨xs, h1, h2⟩ := treesOf_spec (f := treeOf bo ro types rs' n) (g := fun d : Schema => d.node.id)
      (P := fun d y => CellHas E.c fuel n d y (rows.map (ItemRow.item d.node.id))) (l := cs.filter fun c => bo.isInclude c.node.id) (by
        intro d hd'
        obtain ⟨hd1, hd2⟩ := List.mem_filter.1 hd'
        obtain ⟨-, -, -, -, -, -, hpr, -⟩ := hcols d (hchild d hd1) hd2
        exact cell_opens ht hrs (hs.2.2 d hd1) (hchild d hd1) hd2 (fun e he => by rw [hsel.2.2 d hd1 e he]; exact hd2) (h.cells d hd1)
          (fun hn => hpr hn (h.flags d hd1 hn)) fuel n (by have := child_columns_length (n := nd) hd1; omega))
    refine ⟨(RdNode.struct ro.kind none ix xs : RdNode (Rd n)), ?_, h2⟩
    rw [treeOf]
    simp only [hty, k3, Schema.children]
    have hfm : (cs.map fun d => d.node.id).filter bo.isInclude = (cs.filter fun c => bo.isInclude c.node.id).map fun d => d.node.id := by
      rw [List.filter_map]; rfl
    rw [hfm, h1, h.root.2]
    rfl
  refine ⟨x, ?_, hx'⟩
  rw [← h.count]
  simp only [newStripeReader, stripeFrame_footer h.toStripeFrame, Res.ok_bind, initStripe, e1, f1, hlink, hfirst, treeOn, hx, Res.pure_eq]

/-! ### The vector -/

theorem makeSlice_facts (n : Nat) (v : GoVal) : (makeSlice n v).arr.length = n ∧ (makeSlice n v).len = n ∧ Unmarked (makeSlice n v).arr := by
  refine ⟨by simp [makeSlice], rfl, fun w hw => ?_⟩
  simp only [makeSlice, List.mem_replicate] at hw
  rw [hw.2]

theorem cell_vector {d : Schema} (hd : d.Cell) {bo : BatchOption} (hinc : bo.isInclude d.node.id = true) (hsub : ∀ e ∈ d.children, bo.isInclude e.node.id = true)
    (hrow : bo.rowSize ≠ 0) (hmake : bo.notCreateVector = false) : ∃ v, createVec bo d = .ok v ∧ CellShape bo.rowSize bo.rowSize d v := by
  have leaf : ∀ n : SchemaNode, n.kind.nested = false → bo.isInclude n.id = true → createVec bo (.mk n []) = .ok (.mk n.id n.kind (some (makeSlice bo.rowSize n.kind.zero)) []) := by
    intro n hk hi
    simp only [createVec, hi, if_true, hmake, Bool.false_eq_true, if_false]
    cases hkk : n.kind <;> simp [hkk, TypeKind.nested] at hk ⊢
  have hz : bo.rowSize = 0 → ∀ t : Slice, t.len = 0 := fun h => absurd h hrow
  cases hd with
  | value n hk =>
    obtain ⟨h1, h2, h3⟩ := makeSlice_facts bo.rowSize n.kind.zero
    exact ⟨_, leaf n hk hinc, .value n _ hk h1 h2 (Nat.le_refl _) fun _ => h3⟩
  | list n e hk hek hn =>
    obtain ⟨h1, h2, h3⟩ := makeSlice_facts bo.rowSize .nil
    refine ⟨_, ?_, .list n e (makeSlice bo.rowSize .nil) (makeSlice bo.rowSize e.kind.zero) hk hek h1 h2 (Nat.le_refl _) (fun _ => h3) fun h => hz h _⟩
    simp only [Schema.node] at hinc
    rw [createVec]
    simp only [hinc, if_true, hk, createNth, leaf e hek (hsub (.mk e []) (by simp [Schema.children])), Res.ok_bind, Res.pure_eq, hmake, Bool.false_eq_true, if_false]
  | map n e e' hk hek hek' hn =>
    obtain ⟨h1, h2, h3⟩ := makeSlice_facts bo.rowSize .nil
    refine ⟨_, ?_, .map n e e' (makeSlice bo.rowSize .nil) (makeSlice bo.rowSize e.kind.zero) (makeSlice bo.rowSize e'.kind.zero) hk hek hek' h1 h2 (Nat.le_refl _) (fun _ => h3) fun h => hz h _⟩
    simp only [Schema.node] at hinc
    rw [createVec]
    simp only [hinc, if_true, hk, createNth, leaf e hek (hsub (.mk e []) (by simp [Schema.children])), leaf e' hek' (hsub (.mk e' []) (by simp [Schema.children])), Res.ok_bind, Res.pure_eq]

theorem flat_verify {s : Schema} (hs : s.Flat) : verifySchema s = .ok () := by
  obtain ⟨n, cs⟩ := s
  have hk := hs.1
  have hn := hs.2.1
  simp only [Schema.node] at hk hn
  simp only [verifySchema, hk, TypeKind.nested, if_true, hn]
  cases cs with
  | nil => rfl
  | cons d cs =>
    simp only [verifyFirst, Bool.false_and, Bool.false_eq_true, if_false]
    have hd := hs.2.2 d (by simp [Schema.children])
    have leaf : ∀ e : SchemaNode, e.kind.nested = false → verifySchema (.mk e []) = .ok () := by
      intro e he
      simp [verifySchema, he]
    cases hd with
    | value n hk => exact leaf n hk
    | list n e hk hek hn =>
      rw [verifySchema]
      simp only [hk, show TypeKind.list.nested = true from rfl, if_true, verifyFirst, leaf e hek, Schema.node]
      cases hnn : n.hasNulls with
      | false => rfl
      | true => simp [hn hnn]
    | map n e e' hk hek hek' hn =>
      rw [verifySchema]
      simp only [hk, show TypeKind.map.nested = true from rfl, if_true, verifyFirst, leaf e hek, Schema.node]
      cases hnn : n.hasNulls with
      | false => rfl
      | true => simp [(hn hnn).1]

theorem table_vector {s : Schema} (hs : s.Flat) {bo : BatchOption} (hsel : bo.Picks s) (hrow : bo.rowSize ≠ 0) (hmake : bo.notCreateVector = false) :
    ∃ v, createVector s bo = .ok v ∧ TableShape bo bo.rowSize bo.rowSize s v := by
  have hv := flat_verify hs
  obtain ⟨n, cs⟩ := s
  have all : ∀ ds : List Schema, (∀ d ∈ ds, d ∈ cs) →
      ∃ vs, createVecs bo ds = .ok vs ∧ List.Forall₂ (CellShape bo.rowSize bo.rowSize) (ds.filter fun c => bo.isInclude c.node.id) vs := by
    intro ds
    induction ds with
    | nil => intro _; exact ⟨[], rfl, .nil⟩
    | cons d ds ih =>
      intro hm
      obtain ⟨vs, h1, h2⟩ := ih fun d hd => hm d (by simp [hd])
      have hd : d ∈ cs := hm d (by simp)
      by_cases hinc : bo.isInclude d.node.id = true
      · obtain ⟨v, g1, g2⟩ := cell_vector (hs.2.2 d hd) hinc (fun e he => by rw [hsel.2.2 d hd e he]; exact hinc) hrow hmake
        refine ⟨v :: vs, ?_, by rw [List.filter_cons_of_pos (by simpa using hinc)]; exact .cons g2 h2⟩
        simp only [createVecs, g1, h1, Res.ok_bind]
        cases g2 <;> rfl
      · refine ⟨vs, ?_, by rw [List.filter_cons_of_neg (by simpa using hinc)]; exact h2⟩
        have : createVec bo d = .ok .nil := by
          obtain ⟨n', cs'⟩ := d
          simp only [Schema.node] at hinc
          simp [createVec, hinc]
        simp only [createVecs, this, h1, Res.ok_bind, Res.pure_eq]
  obtain ⟨vs, h1, h2⟩ := all cs fun _ h => h
  have hk := hs.1
  have hn := hs.2.1
  have hi := hsel.1
  simp only [Schema.node] at hk hn hi
  refine ⟨.mk n.id .struct none vs, ?_, vs, rfl, ?_, h2⟩
  · simp only [createVector, hrow, if_false, hv, Res.ok_bind]
    rw [createVec]
    simp only [hi, if_true, hk, h1, hn, Bool.false_and, Bool.false_eq_true, if_false, Res.ok_bind, Res.pure_eq]
  · obtain ⟨d, hd, hd'⟩ := hsel.2.1
    rintro rfl
    have e := h2.length_eq
    have : d ∈ cs.filter fun c => bo.isInclude c.node.id := List.mem_filter.2 ⟨hd, hd'⟩
    rw [List.length_eq_zero_iff.1 e] at this
    simp at this

end Goorc
