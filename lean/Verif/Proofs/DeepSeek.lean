import Verif.Spec.DeepSeek
import Verif.Proofs.Trees
import Verif.Proofs.SeekFile
import Verif.Props.DictSeek
/- Seeking in tables of any nesting: lemmas for Props/DeepSeek.lean. -/
namespace Goorc

/-- Readers in the states `I` can be sent about: `SeekStride(k)` to row `m` of `items`, for all `k` and `m` with `goes k m`. Batches and
`Skip` do not leave these states. -/
structure Roves {χ α : Type} (X : RdOps χ) (P : χ → List α → Prop) (items : List α) (goes : Nat → Nat → Prop) (skips : Prop) (I : χ → Prop) : Prop where
  next : ∀ x v v' x', I x → X.nextBatch x v = .ok (v', x') → I x'
  seek : ∀ x k m, I x → goes k m → ∃ x', X.seekStride x k = .ok x' ∧ I x' ∧ P x' (items.drop m)
  skip : skips → ∀ x a b, I x → P x (a ++ b) → ∃ x', X.skip x a.length = .ok x' ∧ I x' ∧ P x' b

/-! ### Values -/

section
variable {ρ : Type} {R : ReadKind ρ} {c : Codec}

/-- What reading does not change, apart from the data. -/
theorem ReadKind.nextRows_flags (F : BoolReader → Prop) (hF : ∀ p x p', BoolReader.next c p = .ok (x, p') → F p → F p') (vec : List Value) {r r' : ColReader ρ} {out : List Value}
    (h : R.nextRows c r vec = .ok (out, r')) :
    r'.kind = r.kind ∧ r'.index = r.index ∧ (r'.present = none ↔ r.present = none) ∧ ((∀ p, r.present = some p → F p) → ∀ p, r'.present = some p → F p) := by
  induction vec generalizing r r' out with
  | nil => simp only [ReadKind.nextRows, Res.ok.injEq, Prod.mk.injEq] at h; rw [← h.2]; exact ⟨rfl, rfl, Iff.rfl, fun h => h⟩
  | cons old vec ih =>
    simp only [ReadKind.nextRows] at h
    obtain ⟨⟨null, r1⟩, h1, h⟩ := Res.bind_ok_inv h
    obtain ⟨⟨v, r2⟩, h2, h⟩ := Res.bind_ok_inv h
    obtain ⟨⟨vs, r3⟩, h3, h⟩ := Res.bind_ok_inv h
    have e1 : r1.kind = r.kind ∧ r1.index = r.index ∧ (r1.present = none ↔ r.present = none) ∧ ((∀ p, r.present = some p → F p) → ∀ p, r1.present = some p → F p) := by
      cases hp : r.present with
      | none =>
        rw [hp] at h1
        simp only [Res.pure_eq, Res.ok.injEq, Prod.mk.injEq] at h1
        rw [← h1.2]; exact ⟨rfl, rfl, by rw [hp], fun _ p h => by rw [hp] at h; cases h⟩
      | some p =>
        rw [hp] at h1
        obtain ⟨⟨b, p'⟩, g1, g2⟩ := Res.bind_ok_inv h1
        simp only [Res.pure_eq, Res.ok.injEq, Prod.mk.injEq] at g2
        rw [← g2.2]
        refine ⟨rfl, rfl, by simp, fun hf q hq => ?_⟩
        cases hq
        exact hF _ _ _ g1 (hf p rfl)
    have e2 : r2.kind = r1.kind ∧ r2.index = r1.index ∧ r2.present = r1.present := by
      cases null with
      | true =>
        simp only [if_true, Res.pure_eq, Res.ok.injEq, Prod.mk.injEq] at h2
        rw [← h2.2]; exact ⟨rfl, rfl, rfl⟩
      | false =>
        simp only [Bool.false_eq_true, if_false] at h2
        obtain ⟨⟨x, d⟩, g1, h2⟩ := Res.bind_ok_inv h2
        obtain ⟨y, g2, h2⟩ := Res.bind_ok_inv h2
        simp only [Res.pure_eq, Res.ok.injEq, Prod.mk.injEq] at h2
        rw [← h2.2]; exact ⟨rfl, rfl, rfl⟩
    simp only [Res.pure_eq, Res.ok.injEq, Prod.mk.injEq] at h
    rw [← h.2]
    obtain ⟨a1, a2, a3, a4⟩ := ih (r := r2) h3
    rw [e2.1, e1.1] at a1
    rw [e2.2.1, e1.2.1] at a2
    rw [e2.2.2] at a3 a4
    exact ⟨a1, a2, a3.trans e1.2.2.1, fun h => a4 (e1.2.2.2 h)⟩

theorem ReadKind.nextRows_nulls (vec : List Value) {r r' : ColReader ρ} {out : List Value} (h : R.nextRows c r vec = .ok (out, r')) : r'.hasNulls = r.hasNulls := by
  induction vec generalizing r r' out with
  | nil => simp only [ReadKind.nextRows, Res.ok.injEq, Prod.mk.injEq] at h; rw [← h.2]
  | cons old vec ih =>
    simp only [ReadKind.nextRows] at h
    obtain ⟨⟨null, r1⟩, h1, h⟩ := Res.bind_ok_inv h
    obtain ⟨⟨v, r2⟩, h2, h⟩ := Res.bind_ok_inv h
    obtain ⟨⟨vs, r3⟩, h3, h⟩ := Res.bind_ok_inv h
    have e1 : r1.hasNulls = r.hasNulls := by
      cases hp : r.present with
      | none =>
        rw [hp] at h1
        simp only [Res.pure_eq, Res.ok.injEq, Prod.mk.injEq] at h1
        rw [← h1.2]
      | some p =>
        rw [hp] at h1
        obtain ⟨⟨b, p'⟩, g1, g2⟩ := Res.bind_ok_inv h1
        simp only [Res.pure_eq, Res.ok.injEq, Prod.mk.injEq] at g2
        rw [← g2.2]
    have e2 : r2.hasNulls = r1.hasNulls := by
      cases null with
      | true =>
        simp only [if_true, Res.pure_eq, Res.ok.injEq, Prod.mk.injEq] at h2
        rw [← h2.2]
      | false =>
        simp only [Bool.false_eq_true, if_false] at h2
        obtain ⟨⟨x, d⟩, g1, h2⟩ := Res.bind_ok_inv h2
        obtain ⟨y, g2, h2⟩ := Res.bind_ok_inv h2
        simp only [Res.pure_eq, Res.ok.injEq, Prod.mk.injEq] at h2
        rw [← h2.2]
    simp only [Res.pure_eq, Res.ok.injEq, Prod.mk.injEq] at h
    rw [← h.2, ih (r := r2) h3, e2, e1]

theorem ReadKind.Holds.gain {F : BoolReader → Prop} {over : ρ → Prop} {r : ColReader ρ} {rows : List (Option GoVal)} (h : R.Holds c (fun _ => True) (fun _ => True) r rows)
    (hF : r.present ≠ none → ∀ p x p', BoolReader.next c p = .ok (x, p') → (F p ↔ F p')) (hE : ∀ r x r', R.next c r = .ok (x, r') → (over r ↔ over r'))
    (h1 : over r.data) (h2 : ∀ p, r.present = some p → F p) : R.Holds c F over r rows := by
  simp only [ReadKind.Holds, ReadKind.Has] at h ⊢
  cases hp : r.present with
  | none =>
    simp only [hp] at h
    obtain ⟨d, g1, g2, -⟩ := h
    exact ⟨d, g1, g2, (Yields.keeps (fun r v r' h => hE r v r' h) g2).mp h1⟩
  | some p =>
    simp only [hp] at h
    obtain ⟨p', d, g1, -, g2, -⟩ := h
    exact ⟨p', d, g1, (Yields.keeps (fun r v r' h => hF (by simp [hp]) r v r' h) g1).mp (h2 p hp), g2, (Yields.keeps (fun r v r' h => hE r v r' h) g2).mp h1⟩

theorem ReadKind.Holds.lose {F : BoolReader → Prop} {over : ρ → Prop} {r : ColReader ρ} {rows : List (Option GoVal)} (h : R.Holds c F over r rows) :
    R.Holds c (fun _ => True) (fun _ => True) r rows := by
  simp only [ReadKind.Holds, ReadKind.Has] at h ⊢
  cases hp : r.present with
  | none =>
    simp only [hp] at h
    obtain ⟨d, g1, g2, -⟩ := h
    exact ⟨d, g1, g2, trivial⟩
  | some p =>
    simp only [hp] at h
    obtain ⟨p', d, g1, -, g2, -⟩ := h
    exact ⟨p', d, g1, trivial, g2, trivial⟩

end

section
variable {c : Codec} {kind : CompKind} {size : Nat} {file : Bytes} {ps : List LaidStream} {contents : StreamKind → Bytes}
  {present : Option (List Bool)} {rows : List (Option GoVal)} {ix : Option (List (List Nat))} {goes : Nat → Nat → Prop} {skips : Prop}

theorem flagged_flags {rows : List (Option GoVal)} (h : Flagged present rows) : ∀ bs, present = some bs → bs = rows.map (·.isSome) := by
  rintro bs rfl
  simpa [Flagged] using h.symm

/-- The states of the reader of a column of values. -/
structure LeafState {ρ : Type} (b : Bool) (kind : CompKind) (ix : Option (List (List Nat))) (present : Option (List Bool)) (F : BoolReader → Prop) (over : ρ → Prop) (r : ColReader ρ) : Prop where
  kind : r.kind = kind
  index : r.index = ix
  present : r.present = none ↔ present.isSome = false
  data : over r.data
  flags : ∀ p, r.present = some p → F p
  agrees : b = true → r.present = none → r.hasNulls = false

/-- Columns of values. -/
theorem leaf_roves {t : LeafTag} (hrep : t.Replaces) (hsk : t.read.SkipsLikeNext c) {nd : SchemaNode} (hk : nd.kind.nested = false)
    (hpn : present.isSome = true → nd.hasNulls = true) (hf : Flagged present rows) {F : BoolReader → Prop} {over : t.ρ → Prop} {data : Nat → List Nat → Prop}
    (hF : ∀ bs, present = some bs → FlagSeeks c kind size file ps contents bs F) (hE : DataPlaced t.read c kind size file ps (rows.filterMap id) data over)
    (hgo : ∀ k m, goes k m → k = 0 ∧ m = 0 ∧ t.read.seeksZero = true ∨
      ∃ index entry, 1 ≤ k ∧ ix = some index ∧ index[k - 1]? = some entry ∧ EntryAt c kind size ps contents present rows data m entry)
    {b : Bool} (hb : ∀ k m, goes k m → 1 ≤ k → t.read.byNulls = true → b = true) (fuel n : Nat) :
    Roves (rdOps c fuel (n + 1)) (DeepHas c fuel (n + 1) (.mk nd [])) (rows.map Deep.ofValue) goes skips
      (fun x => ∃ r, x = (RdNode.leaf t r : RdNode (Rd n)) ∧ LeafState b kind ix present F over r) := by
  have hflag := flagged_flags hf
  have hFk : ∀ r : ColReader t.ρ, LeafState b kind ix present F over r → r.present ≠ none → ∀ p x p', BoolReader.next c p = .ok (x, p') → (F p ↔ F p') := by
    intro r hr hne
    obtain ⟨bs, hbs⟩ : ∃ bs, present = some bs := by
      cases hp : present with
      | none => exact absurd (hr.present.2 (by simp [hp])) hne
      | some bs => exact ⟨bs, rfl⟩
    exact (hF bs hbs).keeps
  constructor
  · rintro x v v' x' ⟨r, rfl, hr⟩ h
    have h : (RdNode.leaf t r : RdNode (Rd n)).nextBatch (rdOps c fuel n) c fuel v = .ok (v', x') := h
    simp only [RdNode.nextBatch] at h
    obtain ⟨⟨w, r'⟩, h1, h2⟩ := Res.bind_ok_inv h
    cases h2
    refine ⟨r', rfl, ?_⟩
    cases v with
    | nil => cases h1
    | mk id k s cs =>
      simp only [leafBatch] at h1
      obtain ⟨⟨z, r1⟩, h3, h2⟩ := Res.bind_ok_inv h1
      cases h2
      clear h1
      simp only [ReadKind.nextBatch, hrep.prepare c r.data, Res.ok_bind] at h3
      have h1 := h3
      by_cases hp : r.present = none
      · obtain ⟨a1, a2, a3, -⟩ := ReadKind.nextRows_flags (fun _ => True) (fun _ _ _ _ _ => trivial) _ h1
        exact ⟨a1.trans hr.kind, a2.trans hr.index, a3.trans hr.present, ReadKind.nextRows_keeps over (fun d x d' h => (hE.keeps d x d' h).1) _ h1 hr.data,
          fun p hp' => (by rw [a3.2 hp] at hp'; cases hp'), fun q hq => (ReadKind.nextRows_nulls _ h1).trans (hr.agrees q (a3.mp hq))⟩
      · obtain ⟨a1, a2, a3, a4⟩ := ReadKind.nextRows_flags F (fun p x p' h => (hFk r hr hp p x p' h).1) _ h1
        exact ⟨a1.trans hr.kind, a2.trans hr.index, a3.trans hr.present, ReadKind.nextRows_keeps over (fun d x d' h => (hE.keeps d x d' h).1) _ h1 hr.data,
          a4 hr.flags, fun q hq => (ReadKind.nextRows_nulls _ h1).trans (hr.agrees q (a3.mp hq))⟩
  · rintro x k m ⟨r, rfl, hr⟩ hg
    obtain ⟨r', g1, g2, g3, g4, g6, g5⟩ := ReadKind.seekStride_to rows hflag hF hE r hr.kind hr.present hr.data hr.flags m k (by rw [hr.index]; exact hgo k m hg) (fun h1 h2 => hr.agrees (hb k m hg h1 h2))
    rw [storedRows_flagged hf] at g5
    have hst : LeafState b kind ix present F over r' := by
      have hp : r'.present.isSome = true → ∀ p x p', BoolReader.next c p = .ok (x, p') → (F p ↔ F p') := by
        intro hs
        exact hFk r hr (by rw [Ne, hr.present, ← g4]; intro h; rw [h] at hs; cases hs)
      obtain ⟨b1, b2⟩ := g5.states hp hE.keeps
      exact ⟨g2.trans hr.kind, g3.trans hr.index, g4, b1, b2, fun q hq => g6.trans (hr.agrees q ((g4.trans hr.present.symm).mp hq))⟩
    refine ⟨(RdNode.leaf t r' : RdNode (Rd n)), ?_, ⟨r', rfl, hst⟩, ⟨rfl, hk, hrep, fun hn => ?_, rows.drop m, by rw [List.map_drop], r'.data, hrep.prepare c _, g5.lose⟩⟩
    · have e : (RdNode.leaf t r : RdNode (Rd n)).seekStride (rdOps c fuel n) c fuel k = .ok (.leaf t r') := by simp only [RdNode.seekStride, g1, Res.ok_bind, Res.pure_eq]
      exact e
    · rw [g4]
      cases hp : present with
      | none => rfl
      | some bs => rw [hp, hn] at hpn; cases hpn rfl
  · rintro - x a b ⟨r, rfl, hr⟩ h
    obtain ⟨-, -, -, hp, rs, hi, d, hd, hh⟩ := h
    obtain rfl : r.data = d := by
      have := hrep.prepare c r.data
      rw [this] at hd
      exact Res.ok.inj hd
    obtain ⟨ra, rb, rfl, rfl, rfl⟩ := List.append_eq_map_iff.mp hi
    have hh' := ReadKind.Holds.gain (F := F) (over := over) (r := r) hh (hFk r hr) hE.keeps hr.data hr.flags
    obtain ⟨r', g1, g2, g3⟩ := hh'.skip hsk ra.length (by simp)
    obtain ⟨g4, g5, g6⟩ := t.read.skipRows_keeps c _ g1
    rw [List.drop_left] at g2
    have hst : LeafState b kind ix present F over r' := by
      have hp : r'.present.isSome = true → ∀ p x p', BoolReader.next c p = .ok (x, p') → (F p ↔ F p') := by
        intro hs
        exact hFk r hr (by rw [Ne, ← g3]; intro h; rw [h] at hs; cases hs)
      obtain ⟨b1, b2⟩ := g2.states hp hE.keeps
      exact ⟨g4.trans hr.kind, g5.trans hr.index, g3.trans hr.present, b1, b2, fun q hq => g6.trans (hr.agrees q (g3.mp hq))⟩
    refine ⟨(RdNode.leaf t r' : RdNode (Rd n)), ?_, ⟨r', rfl, hst⟩, ⟨rfl, hk, hrep, fun hn => g3.2 (hp hn), rb, rfl, r'.data, hrep.prepare c _, g2.lose⟩⟩
    have e : (RdNode.leaf t r : RdNode (Rd n)).skip (rdOps c fuel n) c fuel (ra.map Deep.ofValue).length = .ok (.leaf t r') := by
      simp only [RdNode.skip, List.length_map, g1, Res.ok_bind, Res.pure_eq]
    exact e

/-- String columns with a dictionary. -/
theorem dict_roves {fuel : Nat} {l : DictReader} {nd : SchemaNode} (hk : nd.kind.nested = false)
    (hpn : present.isSome = true → nd.hasNulls = true) (hf : Flagged present rows) {F : BoolReader → Prop} {over : DictReader → Prop} {data : Nat → List Nat → Prop}
    (hF : ∀ bs, present = some bs → FlagSeeks c kind size file ps contents bs F) (hE : DataPlaced (dictLoaded fuel l) c kind size file ps (rows.filterMap id) data over)
    (hgo : ∀ k m, goes k m → k = 0 ∧ m = 0 ∨
      ∃ index entry, 1 ≤ k ∧ ix = some index ∧ index[k - 1]? = some entry ∧ EntryAt c kind size ps contents present rows data m entry) (n : Nat) :
    Roves (rdOps c fuel (n + 1)) (DeepHas c fuel (n + 1) (.mk nd [])) (rows.map Deep.ofValue) goes skips
      (fun x => ∃ r, x = (RdNode.dict r : RdNode (Rd n)) ∧ LeafState false kind ix present F
        (fun d => (∀ y, (dictRead fuel).prepare c { d with data := y } = .ok (l.with { d with data := y })) ∧ over (l.with d)) r) := by
  have hflag := flagged_flags hf
  have hsome : ∀ p : Option BoolReader, (p = none ↔ present.isSome = false) → p ≠ none → ∀ p x p', BoolReader.next c p = .ok (x, p') → (F p ↔ F p') := by
    intro p hr hne
    obtain ⟨bs, hbs⟩ : ∃ bs, present = some bs := by
      cases hp : present with
      | none => exact absurd (hr.2 (by simp [hp])) hne
      | some bs => exact ⟨bs, rfl⟩
    exact (hF bs hbs).keeps
  constructor
  · rintro x v v' x' ⟨r, rfl, hr⟩ h
    have h : (RdNode.dict r : RdNode (Rd n)).nextBatch (rdOps c fuel n) c fuel v = .ok (v', x') := h
    simp only [RdNode.nextBatch] at h
    obtain ⟨⟨w, r'⟩, h1, h2⟩ := Res.bind_ok_inv h
    cases h2
    refine ⟨r', rfl, ?_⟩
    cases v with
    | nil => cases h1
    | mk id k s cs =>
      simp only [leafBatch] at h1
      obtain ⟨⟨z, r1⟩, h3, h2⟩ := Res.bind_ok_inv h1
      cases h2
      clear h1
      have hp := hr.data.1 r.data.data
      simp only [ReadKind.nextBatch] at h3
      rw [show r.data = { r.data with data := r.data.data } from rfl, hp, Res.ok_bind] at h3
      obtain ⟨hov, hq⟩ := ReadKind.nextRows_keeps (fun d => over d ∧ d = l.with d) (fun d x d' hd hq => by
        refine ⟨(hE.keeps d x d' hd).1 hq.1, ?_⟩
        simp only [dictRead] at hd
        obtain ⟨⟨i, data⟩, h1, h2⟩ := Res.bind_ok_inv hd
        split at h2
        · simp only [Res.pure_eq, Res.ok.injEq, Prod.mk.injEq] at h2
          rw [← h2.2]
          conv => lhs; rw [hq.2]
          rfl
        · cases h2) _ h3 ⟨hr.data.2, rfl⟩
      have hdat : (∀ y, (dictRead fuel).prepare c { r1.data with data := y } = .ok (l.with { r1.data with data := y })) ∧ over (l.with r1.data) := by
        refine ⟨fun y => ?_, by rw [← hq]; exact hov⟩
        rw [hq]
        simp only [dictRead, DictReader.with, if_true]
      by_cases hp : r.present = none
      · obtain ⟨a1, a2, a3, -⟩ := ReadKind.nextRows_flags (fun _ => True) (fun _ _ _ _ _ => trivial) _ h3
        exact ⟨a1.trans hr.kind, a2.trans hr.index, a3.trans hr.present, hdat, fun p hp' => (by rw [a3.2 hp] at hp'; cases hp'), nofun⟩
      · obtain ⟨a1, a2, a3, a4⟩ := ReadKind.nextRows_flags F (fun p x p' h => (hsome _ hr.present hp p x p' h).1) _ h3
        exact ⟨a1.trans hr.kind, a2.trans hr.index, a3.trans hr.present, hdat, a4 hr.flags, nofun⟩
  · rintro x k m ⟨r, rfl, hr⟩ hg
    obtain ⟨r', g1, g2, g3, g4, -, g5⟩ := ReadKind.seekStride_to rows hflag hF hE { r with data := l.with r.data } hr.kind hr.present hr.data.2 hr.flags m k (by
      show _ ∨ ∃ index entry, 1 ≤ k ∧ r.index = some index ∧ _
      rw [hr.index]
      exact (hgo k m hg).imp (fun h => ⟨h.1, h.2, rfl⟩) id) nofun
    rw [storedRows_flagged hf] at g5
    have g1 : (dictRead fuel).seekStride c { r with data := l.with r.data } k = .ok r' := g1
    rw [dict_seekStride_under] at g1
    obtain ⟨r0, j1, j2⟩ := Res.bind_ok_inv g1
    simp only [Res.ok.injEq] at j2
    subst j2
    obtain ⟨y, hy⟩ := dict_seekStride_data j1
    have hst : LeafState false kind ix present F (fun d => (∀ y, (dictRead fuel).prepare c { d with data := y } = .ok (l.with { d with data := y })) ∧ over (l.with d)) r0 := by
      obtain ⟨b1, b2⟩ := g5.states (fun hs => hsome r0.present g4 (by rintro h; rw [h] at hs; cases hs)) hE.keeps
      exact ⟨g2.trans hr.kind, g3.trans hr.index, g4, ⟨fun z => by rw [hy]; exact hr.data.1 z, b1⟩, b2, nofun⟩
    refine ⟨(RdNode.dict r0 : RdNode (Rd n)), ?_, ⟨r0, rfl, hst⟩, ⟨rfl, hk, fun hn => ?_, rows.drop m, by rw [List.map_drop], l.with r0.data, hst.data.1 r0.data.data, g5.lose⟩⟩
    · have e : (RdNode.dict r : RdNode (Rd n)).seekStride (rdOps c fuel n) c fuel k = .ok (.dict r0) := by simp only [RdNode.seekStride, j1, Res.ok_bind, Res.pure_eq]
      exact e
    · refine g4.2 ?_
      cases hp : present with
      | none => rfl
      | some bs => rw [hp, hn] at hpn; cases hpn rfl
  · rintro - x a b ⟨r, rfl, hr⟩ h
    obtain ⟨-, -, hp, rs, hi, d, hd, hh⟩ := h
    obtain rfl : l.with r.data = d := by
      have := hr.data.1 r.data.data
      exact Res.ok.inj (this.symm.trans hd)
    obtain ⟨ra, rb, rfl, rfl, rfl⟩ := List.append_eq_map_iff.mp hi
    have hh' := ReadKind.Holds.gain (R := dictLoaded fuel l) (F := F) (over := over) (r := { r with data := l.with r.data }) hh (hsome r.present hr.present) hE.keeps hr.data.2 hr.flags
    obtain ⟨r', g1, g2, g3⟩ := hh'.skip (dictLoaded_skips fuel l) ra.length (by simp)
    obtain ⟨g4, g5, -⟩ := (dictLoaded fuel l).skipRows_keeps c _ g1
    rw [List.drop_left] at g2
    rw [dictLoaded_skipRows, ReadKind.skipRows_under l.with (fun d => by
        simp only [dictRead, DictReader.with]
        cases d.data.nextUInt64 c <;> rfl) (fun _ => rfl)] at g1
    obtain ⟨r0, j1, j2⟩ := Res.bind_ok_inv g1
    simp only [Res.ok.injEq] at j2
    subst j2
    obtain ⟨y, hy⟩ := dict_skipRows_data _ j1
    have g4 : r0.kind = r.kind := g4
    have g5 : r0.index = r.index := g5
    have g3 : r0.present = none ↔ r.present = none := g3
    have hst : LeafState false kind ix present F (fun d => (∀ y, (dictRead fuel).prepare c { d with data := y } = .ok (l.with { d with data := y })) ∧ over (l.with d)) r0 := by
      obtain ⟨b1, b2⟩ := g2.states (fun hs => hsome r0.present (g3.trans hr.present) (by rintro h; rw [h] at hs; cases hs)) hE.keeps
      exact ⟨g4.trans hr.kind, g5.trans hr.index, g3.trans hr.present, ⟨fun z => by rw [hy]; exact hr.data.1 z, b1⟩, b2, nofun⟩
    refine ⟨(RdNode.dict r0 : RdNode (Rd n)), ?_, ⟨r0, rfl, hst⟩, ⟨rfl, hk, fun hn => g3.2 (hp hn), rb, rfl, l.with r0.data, hst.data.1 r0.data.data, g2.lose⟩⟩
    have e : (RdNode.dict r : RdNode (Rd n)).skip (rdOps c fuel n) c fuel (ra.map Deep.ofValue).length = .ok (.dict r0) := by
      simp only [RdNode.skip, List.length_map, j1, Res.ok_bind, Res.pure_eq]
    exact e

end

/-! ### Lengths -/

/-- What is known of the states `G` of the reader of a length stream: they can be sent to every place the format describes. -/
structure LengthSeeks (c : Codec) (kind : CompKind) (size : Nat) (ps : List LaidStream) (contents : StreamKind → Bytes) (blocks : List RleBlock)
    (ns : List Nat) (G : IntReader → Prop) : Prop where
  keeps : ∀ l x l', IntReader.nextUInt64 c l = .ok (x, l') → G l → G l'
  zero : ∀ l, G l → ∃ l' l'', l.seek c 0 0 0 = .ok l' ∧ G l' ∧ Yields (IntReader.nextUInt64 c) l' (ns.map (BitVec.ofNat 64)) l''
  place : ∀ m nums, IntPlace c kind size ps contents false .length blocks m nums →
    ∃ chunk b y, (∀ front, streamPos kind (front ++ nums) front.length 1 = .ok ((chunk, b, [y]), front.length + nums.length)) ∧
      ∀ l, G l → ∃ l' l'', l.seek c chunk b y = .ok l' ∧ G l' ∧ Yields (IntReader.nextUInt64 c) l' ((ns.drop m).map (BitVec.ofNat 64)) l''

section
variable {c : Codec} {kind : CompKind} {size : Nat} {file : Bytes} {ps : List LaidStream} {contents : StreamKind → Bytes} {present : Option (List Bool)}
  {blocks : List RleBlock} {ns : List Nat} {kinds : List StreamKind}

theorem ColumnLaid.lengthSeeks (h : ColumnLaid c kind size file kinds ps contents present) (hk : StreamKind.length ∈ kinds) (hreach : Reachable kind size ps)
    (hd : IntStream false (contents .length) blocks) (hh : ∀ b ∈ blocks, b.Handled false) (hns : blocks.flatMap (·.ints false) = ns.map Int.ofNat) :
    ∃ t, Goorc.lookup (laid kind size file ps) .length = some t ∧
      LengthSeeks c kind size ps contents blocks ns (fun l => l.signed = false ∧ t.Same l.block.stream) := by
  have hmem : StreamKind.length ∈ ps.map (·.kind) := (h.kinds _).mpr (.inl hk)
  obtain ⟨t, h1, h2⟩ := h.start hreach hmem
  refine ⟨t, h1, fun l x l' hx hl => ?_, fun l ⟨hs, hsm⟩ => ?_, fun m nums hp => ?_⟩
  · obtain ⟨g1, g2⟩ := IntReader.nextUInt64_same hx
    exact ⟨g2.trans hl.1, hl.2.trans g1⟩
  · obtain ⟨s, k1, k2, k3⟩ := h2 _ hsm
    obtain ⟨r', j1, j2, j3, j4⟩ := IntReader.seek_spec k1 k2 [] _ (by rw [hs]; exact intStream_decodes hd hh)
    obtain ⟨r'', j5, -⟩ := IntReader.yields_spec _ [] (by rw [List.append_nil]; exact j2)
    refine ⟨r', r'', j1, ⟨by rw [j4, hs], (hsm.trans k3).trans j3⟩, ?_⟩
    rw [← natInts_map, ← hns]
    exact (yields_uint (by rw [j4, hs])).mp j5
  · obtain ⟨t', chunk, b, x, g1, g2, g3⟩ := h.intPlace hreach hh hp
    rw [h1] at g1
    cases g1
    refine ⟨chunk, b, x, fun front => ?_, fun r ⟨hs, hsm⟩ => ?_⟩
    · have := g2 front []
      rwa [List.append_nil] at this
    · obtain ⟨s, flat, a, z, k1, k2, k3, k4, k5, k6⟩ := g3 _ hsm
      obtain ⟨r', j1, j2, j3, j4⟩ := IntReader.seek_spec k1 k3 a z (by rw [hs]; exact k4)
      obtain ⟨r'', j5, -⟩ := IntReader.yields_spec z [] (by rw [List.append_nil]; exact j2)
      rw [k5] at j1
      refine ⟨r', r'', j1, ⟨by rw [j4, hs], (hsm.trans k2).trans j3⟩, ?_⟩
      rw [List.map_drop, ← natInts_map, ← hns, ← k6]
      exact (yields_uint (by rw [j4, hs])).mp j5

/-- The states of the own streams of the reader of a list or map column. -/
structure OwnState (present : Option (List Bool)) (F : BoolReader → Prop) (G : IntReader → Prop) (p : Option BoolReader) (l : Option IntReader) : Prop where
  present : p = none ↔ present.isSome = false
  flags : ∀ q, p = some q → F q
  lengths : ∃ q, l = some q ∧ G q

variable {F : BoolReader → Prop} {G : IntReader → Prop} {p : Option BoolReader} {l : Option IntReader}

theorem OwnState.keeps (h : OwnState present F G p l) (hF : ∀ bs, present = some bs → FlagSeeks c kind size file ps contents bs F) {q : BoolReader} (hq : p = some q) :
    ∀ x q', BoolReader.next c q = .ok (x, q') → F q' := by
  intro x q' hx
  cases hp : present with
  | none =>
    have := h.present.2 (by simp [hp])
    rw [hq] at this; cases this
  | some bs => exact ((hF bs hp).keeps _ _ _ hx).1 (h.flags q hq)

theorem OwnState.flag (h : OwnState present F G p l) (hF : ∀ bs, present = some bs → FlagSeeks c kind size file ps contents bs F) {old b : Bool} {p' : Option BoolReader}
    (he : nextFlag c p old = .ok (b, p')) : OwnState present F G p' l := by
  cases hp : p with
  | none => rw [hp] at he; cases he; rw [← hp]; exact h
  | some q =>
    rw [hp] at he
    simp only [nextFlag] at he
    obtain ⟨⟨b', q'⟩, h1, h2⟩ := Res.bind_ok_inv he
    cases h2
    refine ⟨?_, fun z hz => ?_, h.lengths⟩
    · rw [← h.present, hp]; simp
    · cases hz; exact h.keeps hF hp _ _ h1

theorem OwnState.there (h : OwnState present F G p l) (hF : ∀ bs, present = some bs → FlagSeeks c kind size file ps contents bs F) {b : Bool} {p' : Option BoolReader}
    (he : nextPresent c p = .ok (b, p')) : OwnState present F G p' l := by
  cases hp : p with
  | none => rw [hp] at he; cases he; rw [← hp]; exact h
  | some q =>
    rw [hp] at he
    simp only [nextPresent] at he
    obtain ⟨⟨b', q'⟩, h1, h2⟩ := Res.bind_ok_inv he
    cases h2
    refine ⟨?_, fun z hz => ?_, h.lengths⟩
    · rw [← h.present, hp]; simp
    · cases hz; exact h.keeps hF hp _ _ h1

theorem OwnState.length (h : OwnState present F G p l) (hG : LengthSeeks c kind size ps contents blocks ns G) {x : U64} {l' : Option IntReader}
    (he : nextLength c l = .ok (x, l')) : OwnState present F G p l' := by
  obtain ⟨q, rfl, hq⟩ := h.lengths
  simp only [nextLength] at he
  obtain ⟨⟨y, q'⟩, h1, h2⟩ := Res.bind_ok_inv he
  cases h2
  exact ⟨h.present, h.flags, q', rfl, hG.keeps _ _ _ h1 hq⟩

theorem counts_drop {counts : List (Option Nat)} (hc : counts.map (·.isSome) = present.getD (counts.map fun _ => true)) (hp : present = none) (m : Nat) :
    ∀ b ∈ (counts.drop m).map (·.isSome), b = true := by
  rw [hp, Option.getD_none] at hc
  intro b hb
  rw [List.map_drop, hc] at hb
  obtain ⟨_, _, rfl⟩ := List.mem_map.1 (List.mem_of_mem_drop hb)
  rfl

/-- `SeekStride` of the own streams. -/
theorem OwnState.seek {counts : List (Option Nat)} {ix : Option (List (List Nat))} (h : OwnState present F G p l)
    (hc : counts.map (·.isSome) = present.getD (counts.map fun _ => true)) (hsmall : ∀ m ∈ counts.filterMap id, m < 2 ^ 63)
    (hF : ∀ bs, present = some bs → FlagSeeks c kind size file ps contents bs F) (hG : LengthSeeks c kind size ps contents blocks (counts.filterMap id) G)
    {k m : Nat} (hgo : k = 0 ∧ m = 0 ∨ ∃ index entry, 1 ≤ k ∧ ix = some index ∧ index[k - 1]? = some entry ∧
      EntryAt c kind size ps contents present counts (IntPlace c kind size ps contents false .length blocks) m entry) :
    ∃ p' l', seekOwn c kind p l ix k = .ok (p', l') ∧ OwnState present F G p' l' ∧ FlagsLeft c p' ((counts.drop m).map (·.isSome)) ∧
      LengthsLeft c l' ((counts.drop m).filterMap id) := by
  obtain ⟨q, rfl, hq⟩ := h.lengths
  have hsm : ∀ x ∈ (counts.drop m).filterMap id, x < 2 ^ 63 := by
    intro x hx
    rw [values_drop] at hx
    exact hsmall x (List.mem_of_mem_drop hx)
  have hpn : p = none → present = none := by
    intro hp
    have := h.present.1 hp
    cases present <;> simp_all
  have hps : ∀ z, p = some z → present = some (counts.map (·.isSome)) := by
    intro z hz
    cases hp : present with
    | none =>
      have := h.present.2 (by simp [hp])
      rw [hz] at this; cases this
    | some bs =>
      rw [hp, Option.getD_some] at hc
      rw [hc]
  rcases hgo with ⟨rfl, rfl⟩ | ⟨index, entry, hk1, rfl, he, hle, pn, dn, rfl, hpp, hdd⟩
  · obtain ⟨l', l'', g1, g2, g3⟩ := hG.zero q hq
    cases hp : p with
    | none =>
      refine ⟨none, some l', ?_, ⟨by rw [← h.present, hp], by simp, l', rfl, g2⟩, counts_drop hc (hpn hp) 0, hsm, l'', by simpa using g3⟩
      simp only [seekOwn, if_true, seekFlags, seekLength, Res.ok_bind, List.getD_cons_zero, g1, Res.pure_eq]
    | some z =>
      have hb := hps z hp
      obtain ⟨z', z'', u1, u2, u3⟩ := (hF _ hb).zero z (h.flags z hp)
      have u1 : seekBool c z (0, 0, [0, 0]) = .ok z' := u1
      refine ⟨some z', some l', ?_, ⟨by simp [hb], fun y hy => by cases hy; exact u2, l', rfl, g2⟩, ⟨z'', by simpa using u3⟩, hsm, l'', by simpa using g3⟩
      simp only [seekOwn, if_true, seekFlags, u1, seekLength, Res.ok_bind, List.getD_cons_zero, g1, Res.pure_eq]
  · obtain ⟨chunk, b, y, n1, n2⟩ := hG.place _ _ hdd
    obtain ⟨l', l'', g1, g2, g3⟩ := n2 q hq
    rw [← values_drop] at g3
    have hk0 : k ≠ 0 := by omega
    have hgp : getStridePositions (some index) k = .ok (pn ++ dn) := by
      simp only [getStridePositions]
      rw [if_neg (by omega), he]
    cases hp : p with
    | none =>
      have hb := hpn hp
      simp only [PresentPlace, hb] at hpp
      subst hpp
      have hsp := n1 []
      rw [List.nil_append, List.length_nil] at hsp
      refine ⟨none, some l', ?_, ⟨by rw [← h.present, hp], by simp, l', rfl, g2⟩, counts_drop hc hb m, hsm, l'', g3⟩
      rw [List.nil_append] at hgp
      simp only [seekOwn, hk0, if_false, hgp, hsp, seekLength, Res.ok_bind, List.getD_cons_zero, g1, Res.pure_eq]
    | some z =>
      have hb := hps z hp
      rw [hb] at hpp
      obtain ⟨pos, t2, t4⟩ := (hF _ hb).place m pn (by rw [List.length_map]; exact hle) hpp
      obtain ⟨z', z'', u1, u2, u3⟩ := t4 z (h.flags z hp)
      refine ⟨some z', some l', ?_, ⟨by simp [hb], fun y hy => by cases hy; exact u2, l', rfl, g2⟩, ⟨z'', by rw [List.map_drop]; exact u3⟩, hsm, l'', g3⟩
      simp only [seekOwn, hk0, if_false, hgp, t2, n1, seekFlags, u1, seekLength, Res.ok_bind, List.getD_cons_zero, g1, Res.pure_eq]

/-! ### Lists and maps -/

variable {χ : Type} {X : RdOps χ} {I J : χ → Prop}

theorem listRows_keeps (hF : ∀ bs, present = some bs → FlagSeeks c kind size file ps contents bs F) (hG : LengthSeeks c kind size ps contents blocks ns G)
    (hX : ∀ x v v' x', I x → X.nextBatch x v = .ok (v', x') → I x') (vec : List Value) : ∀ {p p' : Option BoolReader} {l l' : Option IntReader} {x x' : Option χ}
    {cs cs' : List Vec} {out : List Value}, listRows X c p l x vec cs = .ok (out, cs', p', l', x') → OwnState present F G p l → (∃ y, x = some y ∧ I y) →
    OwnState present F G p' l' ∧ ∃ y, x' = some y ∧ I y := by
  induction vec with
  | nil =>
    intro p p' l l' x x' cs cs' out h h1 h2
    cases h
    exact ⟨h1, h2⟩
  | cons old vec ih =>
    intro p p' l l' x x' cs cs' out h h1 h2
    simp only [listRows] at h
    obtain ⟨⟨null, p1⟩, e1, h⟩ := Res.bind_ok_inv h
    obtain ⟨⟨v, n, l1⟩, e2, h⟩ := Res.bind_ok_inv h
    have o1 := h1.flag hF e1
    have o2 : OwnState present F G p1 l1 := by
      cases null with
      | true => cases e2; exact o1
      | false =>
        simp only [Bool.false_eq_true, if_false] at e2
        obtain ⟨⟨n', l2⟩, e3, e4⟩ := Res.bind_ok_inv e2
        cases e4
        exact o1.length hG e3
    cases cs with
    | nil => cases h
    | cons e cs =>
      obtain ⟨w, e3, h⟩ := Res.bind_ok_inv h
      obtain ⟨⟨w', x1⟩, e4, h⟩ := Res.bind_ok_inv h
      obtain ⟨⟨vs, cs1, p2, l2, x2⟩, e5, h⟩ := Res.bind_ok_inv h
      cases h
      obtain ⟨y, rfl, hy⟩ := h2
      simp only [nextOn] at e4
      obtain ⟨⟨w2, y'⟩, e6, e7⟩ := Res.bind_ok_inv e4
      cases e7
      exact ih e5 o2 ⟨y', rfl, hX _ _ _ _ hy e6⟩

theorem mapRows_keeps (hF : ∀ bs, present = some bs → FlagSeeks c kind size file ps contents bs F) (hG : LengthSeeks c kind size ps contents blocks ns G)
    (hX : ∀ x v v' x', I x → X.nextBatch x v = .ok (v', x') → I x') (hY : ∀ x v v' x', J x → X.nextBatch x v = .ok (v', x') → J x') (vec : List Value) :
    ∀ {p p' : Option BoolReader} {l l' : Option IntReader} {x x' z z' : Option χ}
    {cs cs' : List Vec} {out : List Value}, mapRows X c p l x z vec cs = .ok (out, cs', p', l', x', z') → OwnState present F G p l → (∃ y, x = some y ∧ I y) → (∃ y, z = some y ∧ J y) →
    OwnState present F G p' l' ∧ (∃ y, x' = some y ∧ I y) ∧ ∃ y, z' = some y ∧ J y := by
  induction vec with
  | nil =>
    intro p p' l l' x x' z z' cs cs' out h h1 h2 h3
    cases h
    exact ⟨h1, h2, h3⟩
  | cons old vec ih =>
    intro p p' l l' x x' z z' cs cs' out h h1 h2 h3
    simp only [mapRows] at h
    obtain ⟨⟨null, p1⟩, e1, h⟩ := Res.bind_ok_inv h
    obtain ⟨⟨v, n, l1⟩, e2, h⟩ := Res.bind_ok_inv h
    have o1 := h1.flag hF e1
    have o2 : OwnState present F G p1 l1 := by
      cases null with
      | true => cases e2; exact o1
      | false =>
        simp only [Bool.false_eq_true, if_false] at e2
        obtain ⟨⟨n', l2⟩, e3, e4⟩ := Res.bind_ok_inv e2
        cases e4
        exact o1.length hG e3
    rcases cs with _ | ⟨e, _ | ⟨f, cs⟩⟩
    · cases h
    · cases h
    · obtain ⟨w, e3, h⟩ := Res.bind_ok_inv h
      obtain ⟨u, e3', h⟩ := Res.bind_ok_inv h
      obtain ⟨⟨w', x1⟩, e4, h⟩ := Res.bind_ok_inv h
      obtain ⟨⟨u', z1⟩, e4', h⟩ := Res.bind_ok_inv h
      obtain ⟨⟨vs, cs1, p2, l2, x2, z2⟩, e5, h⟩ := Res.bind_ok_inv h
      cases h
      obtain ⟨y, rfl, hy⟩ := h2
      obtain ⟨y', rfl, hy'⟩ := h3
      simp only [nextOn] at e4 e4'
      obtain ⟨⟨w2, y1⟩, e6, e7⟩ := Res.bind_ok_inv e4
      cases e7
      obtain ⟨⟨w3, y2⟩, e6', e7'⟩ := Res.bind_ok_inv e4'
      cases e7'
      exact ih e5 o2 ⟨y1, rfl, hX _ _ _ _ hy e6⟩ ⟨y2, rfl, hY _ _ _ _ hy' e6'⟩

/-- `Skip` of lists. -/
theorem deep_listSkip {P : χ → List Deep → Prop} (hF : ∀ bs, present = some bs → FlagSeeks c kind size file ps contents bs F) (hG : LengthSeeks c kind size ps contents blocks ns G)
    (hX : ∀ x a b, I x → P x (a ++ b) → ∃ x', X.skip x a.length = .ok x' ∧ I x' ∧ P x' b) (rows rest : List (Option (List Deep))) :
    ∀ {p : Option BoolReader} {l : Option IntReader} {x : χ}, FlagsLeft c p ((rows ++ rest).map (·.isSome)) → LengthsLeft c l (((rows ++ rest).filterMap id).map (·.length)) →
    P x ((rows ++ rest).filterMap id).flatten → OwnState present F G p l → I x →
    ∃ p' l' x', listSkip X c rows.length p l (some x) = .ok (p', l', some x') ∧ OwnState present F G p' l' ∧ I x' ∧ FlagsLeft c p' (rest.map (·.isSome)) ∧
      LengthsLeft c l' ((rest.filterMap id).map (·.length)) ∧ P x' (rest.filterMap id).flatten ∧ (p' = none ↔ p = none) := by
  induction rows with
  | nil => intro p l x h1 h2 h3 h4 h5; exact ⟨p, l, x, rfl, h4, h5, h1, h2, h3, Iff.rfl⟩
  | cons row rows ih =>
    intro p l x h1 h2 h3 h4 h5
    obtain ⟨p1, f1, f2, f3⟩ := nextPresent_left (by simpa using h1)
    have o1 := h4.there hF f1
    cases row with
    | none =>
      obtain ⟨p', l', x', g1, g2, g3, g4, g5, g6, g7⟩ := ih (p := p1) (l := l) (x := x) (by simpa using f2) (by simpa using h2) (by simpa using h3) o1 h5
      refine ⟨p', l', x', ?_, g2, g3, g4, g5, g6, g7.trans f3⟩
      simpa [listSkip, f1] using g1
    | some es =>
      simp only [List.cons_append, List.filterMap_cons, id_eq, List.map_cons, List.flatten_cons] at h2 h3
      obtain ⟨l1, n1, n2, n3⟩ := nextLength_left h2
      have o2 := o1.length hG n1
      obtain ⟨x1, k1, k2, k3⟩ := hX x es _ h5 h3
      obtain ⟨p', l', x', g1, g2, g3, g4, g5, g6, g7⟩ := ih (p := p1) (l := l1) (x := x1) (by simpa using f2) n2 k3 o2 k2
      refine ⟨p', l', x', ?_, g2, g3, g4, g5, g6, g7.trans f3⟩
      simpa [listSkip, f1, n1, loopBound_ofNat _ n3, skipOn, k1] using g1

theorem elementsBefore_drop {α : Type} (rows : List (Option (List α))) (m : Nat) :
    ((rows.drop m).filterMap id).flatten = (rows.filterMap id).flatten.drop (elementsBefore rows m) := by
  conv => rhs; rw [← List.take_append_drop m rows]
  rw [List.filterMap_append, List.flatten_append]
  unfold elementsBefore
  rw [List.take_append_drop, List.drop_left]

variable {ix : Option (List (List Nat))} {goes goes' : Nat → Nat → Prop} {skips : Prop}

theorem list_roves {nd : SchemaNode} {e : Schema} {fuel n : Nat} {I : Rd n → Prop} {rows : List (Option (List Deep))} (hk : nd.kind = .list)
    (hpn : present.isSome = true → nd.hasNulls = true) (hc : rows.map (·.isSome) = present.getD (rows.map fun _ => true))
    (hsmall : ∀ m ∈ (rows.filterMap id).map List.length, m < 2 ^ 63) (hF : ∀ bs, present = some bs → FlagSeeks c kind size file ps contents bs F)
    (hG : LengthSeeks c kind size ps contents blocks ((rows.filterMap id).map List.length) G)
    (hgo : ∀ k m, goes k m → k = 0 ∧ m = 0 ∨ ∃ index entry, 1 ≤ k ∧ ix = some index ∧ index[k - 1]? = some entry ∧
      EntryAt c kind size ps contents present (rows.map (Option.map List.length)) (IntPlace c kind size ps contents false .length blocks) m entry)
    (hgo' : ∀ k m, goes k m → goes' k (elementsBefore rows m))
    (hX : Roves (rdOps c fuel n) (DeepHas c fuel n e) (rows.filterMap id).flatten goes' skips I) :
    Roves (rdOps c fuel (n + 1)) (DeepHas c fuel (n + 1) (.mk nd [e])) (rows.map Deep.ofList) goes skips
      (fun x => ∃ p l y, x = (RdNode.list kind p l ix (some y) : RdNode (Rd n)) ∧ OwnState present F G p l ∧ I y) := by
  have hnone : ∀ {p l}, OwnState present F G p l → nd.hasNulls = false → p = none := by
    intro p l ho hn
    rw [ho.present]
    cases hp : present with
    | none => rfl
    | some bs => rw [hp, hn] at hpn; cases hpn rfl
  constructor
  · rintro x v v' x' ⟨p, l, y, rfl, ho, hy⟩ h
    have h : (RdNode.list kind p l ix (some y) : RdNode (Rd n)).nextBatch (rdOps c fuel n) c fuel v = .ok (v', x') := h
    cases v with
    | nil => cases h
    | mk id k s cs =>
      simp only [RdNode.nextBatch] at h
      obtain ⟨⟨vs, cs', p', l', x1⟩, h1, h2⟩ := Res.bind_ok_inv h
      cases h2
      obtain ⟨ho', y', rfl, hy'⟩ := listRows_keeps hF hG hX.next _ h1 ho ⟨y, rfl, hy⟩
      exact ⟨p', l', y', rfl, ho', hy'⟩
  · rintro x k m ⟨p, l, y, rfl, ho, hy⟩ hg
    obtain ⟨p', l', g1, g2, g3, g4⟩ := ho.seek (ix := ix) (counts := rows.map (Option.map List.length)) (by simpa [Function.comp_def] using hc)
      (by rw [map_filterMap_id]; exact hsmall) hF (by rw [map_filterMap_id]; exact hG) (hgo k m hg)
    obtain ⟨y', k1, k2, k3⟩ := hX.seek y k _ hy (hgo' k m hg)
    refine ⟨(RdNode.list kind p' l' ix (some y') : RdNode (Rd n)), ?_, ⟨p', l', y', rfl, g2, k2⟩, ⟨hk, hnone g2, e, rfl, rows.drop m, by rw [List.map_drop], ?_, ?_, y', rfl, ?_⟩⟩
    · have e : (RdNode.list kind p l ix (some y) : RdNode (Rd n)).seekStride (rdOps c fuel n) c fuel k = .ok (.list kind p' l' ix (some y')) := by
        simp only [RdNode.seekStride, g1, seekOn, k1, Res.ok_bind, Res.pure_eq]
      exact e
    · simpa [← List.map_drop, Function.comp_def] using g3
    · rwa [← List.map_drop, map_filterMap_id] at g4
    · rw [elementsBefore_drop]; exact k3
  · rintro hs x a b ⟨p, l, y, rfl, ho, hy⟩ h
    obtain ⟨-, -, e', he, rs, hi, h1, h2, z, hz, h3⟩ := h
    cases he; cases hz
    obtain ⟨ra, rb, rfl, rfl, rfl⟩ := List.map_eq_append_iff.1 hi.symm
    obtain ⟨p', l', x', g1, g2, g3, g4, g5, g6, g7⟩ := deep_listSkip hF hG (fun x a b => hX.skip hs x a b) ra rb h1 h2 h3 ho hy
    refine ⟨(RdNode.list kind p' l' ix (some x') : RdNode (Rd n)), ?_, ⟨p', l', x', rfl, g2, g3⟩, ⟨hk, hnone g2, e, rfl, rb, rfl, g4, g5, x', rfl, g6⟩⟩
    have e : (RdNode.list kind p l ix (some y) : RdNode (Rd n)).skip (rdOps c fuel n) c fuel (ra.map Deep.ofList).length = .ok (.list kind p' l' ix (some x')) := by
      rw [List.length_map]
      simp only [RdNode.skip, g1, Res.ok_bind, Res.pure_eq]
    exact e

/-- Maps: `Skip` is left out. -/
theorem map_roves {nd : SchemaNode} {e e' : Schema} {fuel n : Nat} {I J : Rd n → Prop} {rows : List (Option (List (Deep × Deep)))} (hk : nd.kind = .map)
    (hpn : present.isSome = true → nd.hasNulls = true) (hc : rows.map (·.isSome) = present.getD (rows.map fun _ => true))
    (hsmall : ∀ m ∈ (rows.filterMap id).map List.length, m < 2 ^ 63) (hF : ∀ bs, present = some bs → FlagSeeks c kind size file ps contents bs F)
    (hG : LengthSeeks c kind size ps contents blocks ((rows.filterMap id).map List.length) G)
    (hgo : ∀ k m, goes k m → k = 0 ∧ m = 0 ∨ ∃ index entry, 1 ≤ k ∧ ix = some index ∧ index[k - 1]? = some entry ∧
      EntryAt c kind size ps contents present (rows.map (Option.map List.length)) (IntPlace c kind size ps contents false .length blocks) m entry)
    (hgo' : ∀ k m, goes k m → goes' k (elementsBefore rows m)) (hns : ¬ skips)
    (hX : Roves (rdOps c fuel n) (DeepHas c fuel n e) ((rows.filterMap id).flatten.map (·.1)) goes' skips I)
    (hY : Roves (rdOps c fuel n) (DeepHas c fuel n e') ((rows.filterMap id).flatten.map (·.2)) goes' skips J) :
    Roves (rdOps c fuel (n + 1)) (DeepHas c fuel (n + 1) (.mk nd [e, e'])) (rows.map Deep.ofMap) goes skips
      (fun x => ∃ p l y z, x = (RdNode.map kind p l ix (some y) (some z) : RdNode (Rd n)) ∧ OwnState present F G p l ∧ I y ∧ J z) := by
  have hnone : ∀ {p l}, OwnState present F G p l → nd.hasNulls = false → p = none := by
    intro p l ho hn
    rw [ho.present]
    cases hp : present with
    | none => rfl
    | some bs => rw [hp, hn] at hpn; cases hpn rfl
  constructor
  · rintro x v v' x' ⟨p, l, y, z, rfl, ho, hy, hz⟩ h
    have h : (RdNode.map kind p l ix (some y) (some z) : RdNode (Rd n)).nextBatch (rdOps c fuel n) c fuel v = .ok (v', x') := h
    cases v with
    | nil => cases h
    | mk id k s cs =>
      simp only [RdNode.nextBatch] at h
      obtain ⟨⟨vs, cs', p', l', x1, z1⟩, h1, h2⟩ := Res.bind_ok_inv h
      cases h2
      obtain ⟨ho', ⟨y', rfl, hy'⟩, z', rfl, hz'⟩ := mapRows_keeps hF hG hX.next hY.next _ h1 ho ⟨y, rfl, hy⟩ ⟨z, rfl, hz⟩
      exact ⟨p', l', y', z', rfl, ho', hy', hz'⟩
  · rintro x k m ⟨p, l, y, z, rfl, ho, hy, hz⟩ hg
    obtain ⟨p', l', g1, g2, g3, g4⟩ := ho.seek (ix := ix) (counts := rows.map (Option.map List.length)) (by simpa [Function.comp_def] using hc)
      (by rw [map_filterMap_id]; exact hsmall) hF (by rw [map_filterMap_id]; exact hG) (hgo k m hg)
    obtain ⟨y', k1, k2, k3⟩ := hX.seek y k _ hy (hgo' k m hg)
    obtain ⟨z', j1, j2, j3⟩ := hY.seek z k _ hz (hgo' k m hg)
    refine ⟨(RdNode.map kind p' l' ix (some y') (some z') : RdNode (Rd n)), ?_, ⟨p', l', y', z', rfl, g2, k2, j2⟩,
      ⟨hk, hnone g2, e, e', rfl, rows.drop m, by rw [List.map_drop], ?_, ?_, ⟨y', rfl, ?_⟩, z', rfl, ?_⟩⟩
    · have e : (RdNode.map kind p l ix (some y) (some z) : RdNode (Rd n)).seekStride (rdOps c fuel n) c fuel k = .ok (.map kind p' l' ix (some y') (some z')) := by
        simp only [RdNode.seekStride, g1, seekOn, k1, j1, Res.ok_bind, Res.pure_eq]
      exact e
    · simpa [← List.map_drop, Function.comp_def] using g3
    · rwa [← List.map_drop, map_filterMap_id] at g4
    · rw [elementsBefore_drop, List.map_drop]; exact k3
    · rw [elementsBefore_drop, List.map_drop]; exact j3
  · intro hs; exact absurd hs hns

end

/-! ### Opening -/

/-- Where `SeekStride` goes: to the start if `zero`, and to the row groups, one early. -/
def goesTo (zero : Prop) (groups : Nat) (starts : Nat → Nat) (k m : Nat) : Prop := k = 0 ∧ m = 0 ∧ zero ∨ 1 ≤ k ∧ k ≤ groups ∧ m = starts (k - 1)

theorem elementsBefore_zero {α : Type} (rows : List (Option (List α))) : elementsBefore rows 0 = 0 := rfl

theorem goesTo.elements {α : Type} {zero : Prop} {groups : Nat} {starts : Nat → Nat} {rows : List (Option (List α))} {k m : Nat} (h : goesTo zero groups starts k m) :
    goesTo zero groups (fun g => elementsBefore rows (starts g)) k (elementsBefore rows m) := by
  rcases h with ⟨h1, rfl, h3⟩ | ⟨h1, h2, rfl⟩
  · exact .inl ⟨h1, elementsBefore_zero rows, h3⟩
  · exact .inr ⟨h1, h2, rfl⟩

/-- A reader that can be sent around. -/
def Roams (c : Codec) (fuel n : Nat) (d : Schema) (items : List Deep) (goes : Nat → Nat → Prop) (skips : Prop) (x : Rd n) : Prop :=
  ∃ I : Rd n → Prop, I x ∧ (∀ y, I y → (Rd.flagged n y ↔ Rd.flagged n x)) ∧ Roves (rdOps c fuel n) (DeepHas c fuel n d) items goes skips I

section
variable {c : Codec} {kind : CompKind} {size : Nat} {file : Bytes} {ps : List LaidStream} {contents : StreamKind → Bytes} {present : Option (List Bool)} {kinds : List StreamKind}

theorem ColumnLaid.someFlags (hl : ColumnLaid c kind size file kinds ps contents present) (hreach : Reachable kind size ps) :
    ∃ F, ∀ bs, present = some bs → FlagSeeks c kind size file ps contents bs F := by
  cases hp : present with
  | none => exact ⟨fun _ => True, by simp⟩
  | some bs =>
    rw [hp] at hl
    obtain ⟨F, hF⟩ := hl.flagSeeks hreach
    exact ⟨F, fun bs' hb => by cases hb; exact hF⟩

theorem ReadKind.Holds.state {ρ : Type} {R : ReadKind ρ} {F : BoolReader → Prop} {over : ρ → Prop} {vals : List GoVal} {data : Nat → List Nat → Prop}
    (hF : ∀ bs, present = some bs → FlagSeeks c kind size file ps contents bs F) (hE : DataPlaced R c kind size file ps vals data over) {r : ColReader ρ} {rows : List (Option GoVal)}
    (h : R.Holds c F over r rows) (hk : r.kind = kind) (hp : r.present = none ↔ present.isSome = false) (ix : Option (List (List Nat))) {b : Bool} (hb : b = true → r.present = none → r.hasNulls = false) :
    LeafState b kind ix present F over { r with index := ix } := by
  have hkeep : r.present.isSome = true → ∀ p x p', BoolReader.next c p = .ok (x, p') → (F p ↔ F p') := by
    intro hs
    obtain ⟨bs, hb⟩ : ∃ bs, present = some bs := by
      cases hq : present with
      | none => rw [hp.2 (by simp [hq])] at hs; cases hs
      | some bs => exact ⟨bs, rfl⟩
    exact (hF bs hb).keeps
  obtain ⟨b1, b2⟩ := h.states hkeep hE.keeps
  exact ⟨hk, rfl, hp, b1, b2, hb⟩

theorem dictLoaded_open {fuel : Nat} {l : DictReader} {hasNulls : Bool} {r : ColReader DictReader} {st : List (StreamKind × StreamReader)}
    (h : (dictRead fuel).openCol kind hasNulls st = some r) : (dictLoaded fuel l).openCol kind hasNulls st = some { r with data := l.with r.data } := by
  have e : (dictLoaded fuel l).openCol kind hasNulls st = ((dictRead fuel).openCol kind hasNulls st).map fun r => { r with data := l.with r.data } := by
    simp only [ReadKind.openCol]
    have ha : (st.all fun s => (dictLoaded fuel l).accepts hasNulls s.1) = (st.all fun s => (dictRead fuel).accepts hasNulls s.1) := rfl
    rw [ha]
    split
    · simp only [dictLoaded, Option.map_map]; rfl
    · rfl
  rw [e, h]; rfl

theorem LeafState.flagged {ρ : Type} {b : Bool} {ix : Option (List (List Nat))} {F : BoolReader → Prop} {over : ρ → Prop} {r r' : ColReader ρ}
    (h : LeafState b kind ix present F over r) (h' : LeafState b kind ix present F over r') : r.present ≠ none ↔ r'.present ≠ none := by
  rw [Ne, Ne, h.present, h'.present]

theorem OwnState.flagged {F : BoolReader → Prop} {G : IntReader → Prop} {p p' : Option BoolReader} {l l' : Option IntReader}
    (h : OwnState present F G p l) (h' : OwnState present F G p' l') : p ≠ none ↔ p' ≠ none := by
  rw [Ne, Ne, h.present, h'.present]

/-- The own streams of a list or map, as they are opened. -/
theorem lengthsIndexed_opened {nd : SchemaNode} {counts : List (Option Nat)} {starts : Nat → Nat} {index : List (List Nat)}
    (h : LengthsIndexed c kind size file nd ps counts starts index) (hreach : Reachable kind size ps) :
    ∃ contents present blocks F G, (present.isSome = true → nd.hasNulls = true) ∧ counts.map (·.isSome) = present.getD (counts.map fun _ => true) ∧
      (∀ m ∈ counts.filterMap id, m < 2 ^ 63) ∧ (∀ bs, present = some bs → FlagSeeks c kind size file ps contents bs F) ∧
      LengthSeeks c kind size ps contents blocks (counts.filterMap id) G ∧
      OwnState present F G ((Goorc.lookup (laid kind size file ps) .present).map newBoolReader) ((Goorc.lookup (laid kind size file ps) .length).map (newIntReader false)) ∧
      ∀ g entry, index[g]? = some entry → EntryAt c kind size ps contents present counts (IntPlace c kind size ps contents false .length blocks) (starts g) entry := by
  obtain ⟨contents, present, blocks, hpn, hl, hfl, hsm, hbs, hh, hlen, hix⟩ := h
  obtain ⟨F, hF⟩ := hl.someFlags hreach
  obtain ⟨t, ht, hG⟩ := hl.lengthSeeks (by simp) hreach hbs hh hlen
  refine ⟨contents, present, blocks, F, _, hpn, hfl, hsm, hF, hG, ⟨?_, ?_, ?_⟩, hix⟩
  · cases hp : present with
    | none => rw [(hl.lookup .present).2 (by simp [hp])]; simp
    | some bs =>
      obtain ⟨t, p', g1, -, -⟩ := (hF bs hp).opened
      rw [g1]; simp
  · intro q hq
    cases hp : present with
    | none => rw [(hl.lookup .present).2 (by simp [hp])] at hq; cases hq
    | some bs =>
      obtain ⟨t, p', g1, g2, -⟩ := (hF bs hp).opened
      rw [g1] at hq
      cases hq
      exact g2
  · rw [ht]
    exact ⟨_, rfl, rfl, StreamReader.Same.refl _⟩

end

theorem ValuesIndexed.stored {c : Codec} {kind : CompKind} {size : Nat} {file : Bytes} {most : Nat} {n : SchemaNode} {enc : Encoding} {ps : List LaidStream}
    {rows : List (Option GoVal)} {starts : Nat → Nat} {index : List (List Nat)} (h : ValuesIndexed c kind size file most n enc ps rows starts index) :
    ValuesStored c kind size file most n enc ps rows := by
  rcases h with ⟨contents, present, t, place, h1, -, h2, h3, h4, h5, -⟩ | ⟨h1, h2, contents, present, dict, idx, blocks, h3, h4, h5, h6, h7, h8, -⟩
  · exact .inl ⟨contents, present, h1, .inr ⟨t, h2, h3, h4, h5.encodes⟩⟩
  · exact .inr ⟨h1, h2, contents, present, dict, idx, h3, h4, h5, h6, h7, h8⟩

theorem ValuesStored.indexed {c : Codec} {kind : CompKind} {size : Nat} {file : Bytes} {most : Nat} {n : SchemaNode} {enc : Encoding} {ps : List LaidStream}
    {rows : List (Option GoVal)} (h : ValuesStored c kind size file most n enc ps rows) (hk : n.kind ≠ .struct) (starts : Nat → Nat) :
    ValuesIndexed c kind size file most n enc ps rows starts [] := by
  rcases h with ⟨contents, present, h1, ⟨hs, -⟩ | ⟨t, h2, h3, h4, h5⟩⟩ | ⟨h1, h2, contents, present, dict, idx, h3, h4, h5, h6, h7, h8⟩
  · exact absurd hs hk
  · obtain ⟨place, hp⟩ := h5.placed c kind size ps
    exact .inl ⟨contents, present, t, place, h1, fun _ h => absurd rfl h, h2, h3, h4, hp, by simp⟩
  · obtain ⟨blocks, b1, b2, b3⟩ := h4.indices
    exact .inr ⟨h1, h2, contents, present, dict, idx, blocks, h3, h4, h5, h6, h7, h8, b1, b2, b3, by simp⟩

theorem LengthsIndexed.stored {c : Codec} {kind : CompKind} {size : Nat} {file : Bytes} {n : SchemaNode} {ps : List LaidStream} {counts : List (Option Nat)}
    {starts : Nat → Nat} {index : List (List Nat)} (h : LengthsIndexed c kind size file n ps counts starts index) : LengthsStored c kind size file n ps counts := by
  obtain ⟨contents, present, blocks, h1, h2, h3, h4, h5, h6, h7, -⟩ := h
  exact ⟨contents, present, blocks, h1, h2, h3, h4, h5, h6, h7⟩

theorem LengthsStored.indexed {c : Codec} {kind : CompKind} {size : Nat} {file : Bytes} {n : SchemaNode} {ps : List LaidStream} {counts : List (Option Nat)}
    (h : LengthsStored c kind size file n ps counts) (starts : Nat → Nat) : LengthsIndexed c kind size file n ps counts starts [] := by
  obtain ⟨contents, present, blocks, h1, h2, h3, h4, h5, h6, h7⟩ := h
  exact ⟨contents, present, blocks, h1, h2, h3, h4, h5, h6, h7, by simp⟩

section
variable {c : Codec} {bo : BatchOption} {ro : ROpts} {s : Schema} {file : Bytes} {f : StripeFooter} {places : List (StreamInfo × Nat)}
  {types : List RdType} {rs : List (Option FlatRd)} {most : Nat}

theorem DeepIndexed.stored {kind : CompKind} {size : Nat} {entries : Nat → List (List Nat)} {starts : Nat → Nat} {d : Schema} {items : List Deep}
    (h : DeepIndexed c kind size file most f places entries starts d items) : DeepStored c kind size file most f places d items := by
  induction h with
  | value starts n enc rows items h1 h2 h3 => exact .value n enc rows items h1 h2.stored h3
  | list starts n e rows items h1 h2 h3 h4 ih => exact .list n e rows items h1 h2.stored ih h4
  | map starts n k v rows items h1 h2 h3 h3' h4 ih ih' => exact .map n k v rows items h1 h2.stored ih ih' h4

theorem DeepStored.indexed {kind : CompKind} {size : Nat} {d : Schema} {items : List Deep} (h : DeepStored c kind size file most f places d items) (hd : d.Nest) :
    ∀ starts, DeepIndexed c kind size file most f places (fun _ => []) starts d items := by
  induction h with
  | value n enc rows items h1 h2 h3 => exact fun starts => .value starts n enc rows items h1 (h2.indexed hd.plain starts) h3
  | list n e rows items h1 h2 h3 h4 ih =>
    cases hd with
    | list _ _ hk he hsol => exact fun starts => .list starts n e rows items h1 (h2.indexed starts) (ih he _) h4
  | map n k v rows items h1 h2 h3 h3' h4 ih ih' =>
    cases hd with
    | map _ _ _ hk he he' hsol => exact fun starts => .map starts n k v rows items h1 (h2.indexed starts) (ih he _) (ih' he' _) h4

/-- What opening says of the row indexes. -/
def IndexesOf (bo : BatchOption) (s : Schema) (rs : List (Option FlatRd)) (groups : Nat) (entries : Nat → List (List Nat)) : Prop :=
  0 < groups → ∀ d ∈ s.columns, d.node.kind ≠ .struct → bo.isInclude d.node.id = true → ∀ fr, rs[d.node.id]? = some (some fr) →
    fr.index = some (entries d.node.id) ∧ (entries d.node.id).length = groups

theorem goesTo.entry {zero : Prop} {groups : Nat} {entries : Nat → List (List Nat)} (hix : IndexesOf bo s rs groups entries) {d : Schema} (hd : d ∈ s.columns)
    (hk : d.node.kind ≠ .struct) (hinc : bo.isInclude d.node.id = true) {fr : FlatRd} (hrs : rs[d.node.id]? = some (some fr)) {starts : Nat → Nat} {k m : Nat}
    (h : goesTo zero groups starts k m) {P : Nat → List Nat → Prop} (hP : ∀ g entry, (entries d.node.id)[g]? = some entry → P (starts g) entry) :
    k = 0 ∧ m = 0 ∧ zero ∨ ∃ index entry, 1 ≤ k ∧ fr.index = some index ∧ index[k - 1]? = some entry ∧ P m entry := by
  rcases h with h | ⟨h1, h2, rfl⟩
  · exact .inl h
  · obtain ⟨g1, g2⟩ := hix (by omega) d hd hk hinc fr hrs
    have : k - 1 < (entries d.node.id).length := by omega
    exact .inr ⟨_, _, h1, g1, List.getElem?_eq_getElem this, hP _ _ (List.getElem?_eq_getElem this)⟩

/-- **A column of a stripe can be sent to its row groups.** -/
theorem deepIndexed_roams (ht : TypesOf s types) (hrs : StripeReaders ro bo s file f places rs) {fuel : Nat} (hfuel : most ≤ fuel) {zero skips : Prop} {groups : Nat}
    {entries : Nat → List (List Nat)} (hix : IndexesOf bo s rs groups entries)
    (hreach : ∀ d ∈ s.columns, Reachable ro.kind ro.chunkSize (columnStreams file d.node.id places)) {starts : Nat → Nat} {d : Schema} {items : List Deep}
    (h : DeepIndexed c ro.kind ro.chunkSize file most f places entries starts d items) (hd : d.Nest) (hmem : d ∈ s.columns)
    (hinc : ∀ e ∈ d.columns, bo.isInclude e.node.id = true) (hzero : zero → ∀ e ∈ d.columns, e.node.kind ≠ .date) (hskips : skips → d.Mapless)
    (n : Nat) (hn : d.columns.length ≤ n) :
    ∃ x, treeOf bo ro types rs n d.node.id = .ok x ∧ Roams c fuel n d items (goesTo zero groups starts) skips x := by
  induction h generalizing n with
  | value starts nd enc rows items henc hst hi =>
    match n, hn with
    | n + 1, _ =>
    cases hd with
    | value _ hk =>
    have hinc0 := hinc _ (self_mem_columns _)
    have hz0 := fun hz => hzero hz _ (self_mem_columns _)
    have hr0 := hreach _ hmem
    obtain ⟨names, hty⟩ := ht.2 _ hmem
    obtain ⟨enc', tag, ix, j1, j2, j3⟩ := hrs _ hmem hinc0
    have hentry := fun (P : Nat → List Nat → Prop) (k m : Nat) (hg : goesTo zero groups starts k m) =>
      hg.entry hix hmem (by intro e; simp only [Schema.node_mk] at e; rw [e] at hk; cases hk) hinc0 j3 (P := P)
    simp only [Schema.node_mk, Schema.children_mk] at hty j1 j2 j3 hz0 hentry hr0
    rw [henc] at j1; cases j1
    subst hi
    rcases hst with ⟨contents, present, t, place, hpn, hdp, hs, hl, hfl, he, hen⟩ | ⟨hks, rfl, contents, present, dict, idx, blocks, hpn, hl, hle, hin, hfl, hr, hb, hh, hidx, hen⟩
    · obtain ⟨h1, h2, h3, h4, h5⟩ := hs.reader
      rw [h1] at j2; cases j2
      obtain ⟨over, hE⟩ := placed_data hl hr0 he
      obtain ⟨F, hF⟩ := hl.someFlags hr0
      rw [← h4] at hl
      obtain ⟨r, o1, o2, o3, o5, o4⟩ := hl.opensAt (R := t.read) (hasNulls := nd.hasNulls) h5 hpn rows (flagged_flags hfl) hF hE
      have hag : (t.read.byNulls && !(entries nd.id).isEmpty) = true → r.present = none → r.hasNulls = false := by
        intro hb hp
        simp only [Bool.and_eq_true, Bool.not_eq_true', List.isEmpty_eq_false_iff] at hb
        have hsome := o3.mp hp
        rw [o5]
        cases hnn : nd.hasNulls with
        | false => rfl
        | true => rw [hdp (hs.byNulls.mp hb.1) hb.2 hnn] at hsome; cases hsome
      refine ⟨(RdNode.leaf t { r with index := ix } : RdNode (Rd n)), ?_, _, ⟨_, rfl, o4.state hF hE o2 o3 ix hag⟩, ?_, leaf_roves h3 (t.skips c) hk hpn hfl hF hE (fun k m hg => ?_) (fun k m hg h1 h2 => ?_) fuel n⟩
      · simp only [Schema.node, treeOf, hty, j3, openLeaf, o1]
        rfl
      · rintro y ⟨r', rfl, hr'⟩
        exact hr'.flagged (o4.state hF hE o2 o3 ix hag)
      · rcases hentry _ k m hg hen with ⟨a1, a2, a3⟩ | h
        · exact .inl ⟨a1, a2, hs.seeksZero.2 (hz0 a3)⟩
        · exact .inr h
      · rcases hentry _ k m hg hen with ⟨a1, -⟩ | ⟨index, entry, -, a3, a4, -⟩
        · omega
        · rw [h2, Bool.true_and]
          obtain ⟨a5, -⟩ := hix (by rcases hg with ⟨a, -⟩ | ⟨-, a, -⟩ <;> omega) _ hmem (by intro e; simp only [Schema.node_mk] at e; rw [e] at hk; cases hk) hinc0 _ j3
          have a5 : ix = some (entries nd.id) := a5
          rw [a3, Option.some.injEq] at a5
          rw [← a5]
          cases index with
          | nil => simp at a4
          | cons => rfl
    · rw [hks] at j2; cases j2
      obtain ⟨r, l, data', g1, hp, hls, -, -, -⟩ := hl.opens (hasNulls := nd.hasNulls) hpn (Nat.le_trans hle hfuel)
      obtain ⟨over, hE⟩ := dict_placed hl hr0 hin fuel l hls blocks hb hh hidx
      rw [← hr] at hE
      obtain ⟨F, hF⟩ := hl.laid.someFlags hr0
      obtain ⟨r', o1, o2, o3, -, o4⟩ := ColumnLaid.opensAt (R := dictLoaded fuel l) (hasNulls := nd.hasNulls) hl.laid (by simp [dictLoaded, dictRead]) hpn rows (flagged_flags hfl) hF hE
      have o1' := dictLoaded_open (l := l) g1
      obtain rfl : r' = { r with data := l.with r.data } := Option.some.inj (o1.symm.trans o1')
      have hst := o4.state hF hE o2 o3 ix (b := false) nofun
      refine ⟨(RdNode.dict { r with index := ix } : RdNode (Rd n)), ?_, _, ⟨_, rfl, ⟨hst.kind, rfl, hst.present, ⟨hp, hst.data⟩, hst.flags, nofun⟩⟩, ?_,
        dict_roves hk hpn hfl hF hE (fun k m hg => ?_) n⟩
      · have g1' : (dictRead 0).openCol ro.kind nd.hasNulls (laid ro.kind ro.chunkSize file (columnStreams file nd.id places)) = some r := g1
        simp only [Schema.node, treeOf, hty, j3, openLeaf, g1']
        rfl
      · rintro y ⟨r', rfl, hr'⟩
        have h1 : r'.present = none ↔ _ := hr'.present
        have h2 : r.present = none ↔ _ := hst.present
        simp only [Rd.flagged, Ne, h1, h2]
      · rcases hentry _ k m hg hen with ⟨a1, a2, a3⟩ | h
        · exact .inl ⟨a1, a2⟩
        · exact .inr h
  | list starts nd e rows items henc hst hch hi ih =>
    cases hd with
    | list _ _ hk he hsol =>
    have hinc0 := hinc _ (self_mem_columns _)
    have hsub : ∀ x ∈ e.columns, x ∈ (Schema.mk nd [e]).columns := fun x hx => by simp [Schema.columns, columnsAll, hx]
    have hemem : e ∈ s.columns := columns_child hmem (by simp [Schema.children])
    have heinc := hinc e (hsub e (self_mem_columns e))
    have hr0 := hreach _ hmem
    obtain ⟨names, hty⟩ := ht.2 _ hmem
    obtain ⟨enc', tag, ix, j1, j2, j3⟩ := hrs _ hmem hinc0
    have hentry := fun (P : Nat → List Nat → Prop) (k m : Nat) (hg : goesTo zero groups starts k m) =>
      hg.entry hix hmem (by simp [Schema.node_mk, hk]) hinc0 j3 (P := P)
    simp only [Schema.node_mk, Schema.children_mk] at hty j1 j2 j3 hinc0 hentry hr0 ⊢
    rw [henc] at j1; cases j1
    rw [hk] at j2; cases j2
    match n, hn with
    | n + 1, hn =>
    obtain ⟨x, g1, I, g2, g3, g4⟩ := ih he hemem (fun x hx => hinc x (hsub x hx)) (fun hz x hx => hzero hz x (hsub x hx)) (fun hz x hx => hskips hz x (hsub x hx)) n (by
      simp only [Schema.columns, columnsAll, List.append_nil, List.length_cons] at hn; omega)
    obtain ⟨contents, present, blocks, F, G, k1, k2, k3, k4, k5, k6, k7⟩ := lengthsIndexed_opened hst hr0
    rw [map_filterMap_id] at k3 k5
    subst hi
    refine ⟨(RdNode.list ro.kind ((Goorc.lookup (laid ro.kind ro.chunkSize file (columnStreams file nd.id places)) .present).map newBoolReader)
      ((Goorc.lookup (laid ro.kind ro.chunkSize file (columnStreams file nd.id places)) .length).map (newIntReader false)) ix (some x) : RdNode (Rd n)), ?_,
      _, ⟨_, _, _, rfl, k6, g2⟩, ?_, list_roves hk k1 (by simpa only [List.map_map, Function.comp_def, Option.isSome_map] using k2) k3 k4 k5 (fun k m hg => ?_) (fun k m => goesTo.elements) g4⟩
    · rw [treeOf]
      simp only [hty, j3, List.map_cons, List.map_nil, List.filter_cons, heinc, if_true, List.filter_nil, List.getLast?_singleton, treeOn]
      rw [g1]
      rfl
    · rintro y ⟨p, l, z, rfl, ho, -⟩
      exact ho.flagged k6
    · rcases hentry _ k m hg k7 with ⟨a1, a2, a3⟩ | h
      · exact .inl ⟨a1, a2⟩
      · exact .inr h
  | map starts nd e e' rows items henc hst hch hch' hi ih ih' =>
    cases hd with
    | map _ _ _ hk he he' hsol =>
    have hinc0 := hinc _ (self_mem_columns _)
    have hsub : ∀ x ∈ e.columns, x ∈ (Schema.mk nd [e, e']).columns := fun x hx => by simp [Schema.columns, columnsAll, hx]
    have hsub' : ∀ x ∈ e'.columns, x ∈ (Schema.mk nd [e, e']).columns := fun x hx => by simp [Schema.columns, columnsAll, hx]
    have hemem : e ∈ s.columns := columns_child hmem (by simp [Schema.children])
    have hemem' : e' ∈ s.columns := columns_child hmem (by simp [Schema.children])
    have heinc := hinc e (hsub e (self_mem_columns e))
    have heinc' := hinc e' (hsub' e' (self_mem_columns e'))
    have hr0 := hreach _ hmem
    obtain ⟨names, hty⟩ := ht.2 _ hmem
    obtain ⟨enc', tag, ix, j1, j2, j3⟩ := hrs _ hmem hinc0
    have hentry := fun (P : Nat → List Nat → Prop) (k m : Nat) (hg : goesTo zero groups starts k m) =>
      hg.entry hix hmem (by simp [Schema.node_mk, hk]) hinc0 j3 (P := P)
    have hns : ¬ skips := fun hsk => hskips hsk _ (self_mem_columns _) hk
    simp only [Schema.node_mk, Schema.children_mk] at hty j1 j2 j3 hinc0 hentry hr0 ⊢
    rw [henc] at j1; cases j1
    rw [hk] at j2; cases j2
    match n, hn with
    | n + 1, hn =>
    simp only [Schema.columns, columnsAll, List.append_nil, List.length_cons, List.length_append] at hn
    obtain ⟨x, g1, I, g2, g3, g4⟩ := ih he hemem (fun x hx => hinc x (hsub x hx)) (fun hz x hx => hzero hz x (hsub x hx)) (fun hz => absurd hz hns) n (by omega)
    obtain ⟨y, g1', J, g2', g3', g4'⟩ := ih' he' hemem' (fun x hx => hinc x (hsub' x hx)) (fun hz x hx => hzero hz x (hsub' x hx)) (fun hz => absurd hz hns) n (by omega)
    obtain ⟨contents, present, blocks, F, G, k1, k2, k3, k4, k5, k6, k7⟩ := lengthsIndexed_opened hst hr0
    rw [map_filterMap_id] at k3 k5
    subst hi
    refine ⟨(RdNode.map ro.kind ((Goorc.lookup (laid ro.kind ro.chunkSize file (columnStreams file nd.id places)) .present).map newBoolReader)
      ((Goorc.lookup (laid ro.kind ro.chunkSize file (columnStreams file nd.id places)) .length).map (newIntReader false)) ix (some x) (some y) : RdNode (Rd n)), ?_,
      _, ⟨_, _, _, _, rfl, k6, g2, g2'⟩, ?_, map_roves hk k1 (by simpa only [List.map_map, Function.comp_def, Option.isSome_map] using k2) k3 k4 k5 (fun k m hg => ?_) (fun k m => goesTo.elements) hns g4 g4'⟩
    · rw [treeOf]
      simp only [hty, j3, List.map_cons, List.map_nil, includedChild, List.getElem?_cons_zero, List.getElem?_cons_succ, heinc, heinc', if_true, treeOn]
      rw [g1, g1']
      rfl
    · rintro z ⟨p, l, y, y', rfl, ho, -⟩
      exact ho.flagged k6
    · rcases hentry _ k m hg k7 with ⟨a1, a2, a3⟩ | h
      · exact .inl ⟨a1, a2⟩
      · exact .inr h

end

/-! ### Records -/

/-- A reader in some state from which it can be sent around. -/
def Rover {χ α : Type} (X : RdOps χ) (P : χ → List α → Prop) (items : List α) (goes : Nat → Nat → Prop) (skips : Prop) (x : χ) : Prop :=
  ∃ I, I x ∧ Roves X P items goes skips I

theorem rover_roves {χ α : Type} {X : RdOps χ} {P : χ → List α → Prop} {items : List α} {goes : Nat → Nat → Prop} {skips : Prop} :
    Roves X P items goes skips (Rover X P items goes skips) where
  next := fun x v v' x' ⟨I, h1, h2⟩ h => ⟨I, h2.next x v v' x' h1 h, h2⟩
  seek := fun x k m ⟨I, h1, h2⟩ h => by
    obtain ⟨x', g1, g2, g3⟩ := h2.seek x k m h1 h
    exact ⟨x', g1, ⟨I, g2, h2⟩, g3⟩
  skip := fun hs x a b ⟨I, h1, h2⟩ h => by
    obtain ⟨x', g1, g2, g3⟩ := h2.skip hs x a b h1 h
    exact ⟨x', g1, ⟨I, g2, h2⟩, g3⟩

section
variable {χ α δ : Type} {X : RdOps χ} {Q : δ → χ → List α → Prop} {items : List α} {goes : Nat → Nat → Prop} {skips : Prop}

theorem childBatches_keeps {J : δ → χ → Prop} (hJ : ∀ d x v v' x', J d x → X.nextBatch x v = .ok (v', x') → J d x') {fs : List δ} {xs : List χ} (h : List.Forall₂ J fs xs) :
    ∀ {vs vs' : List Vec} {xs' : List χ}, childBatches X xs vs = .ok (vs', xs') → List.Forall₂ J fs xs' := by
  induction h with
  | nil => intro vs vs' xs' e; cases e; exact .nil
  | cons h hs ih =>
    intro vs vs' xs' e
    cases vs with
    | nil => cases e
    | cons v vs =>
      simp only [childBatches] at e
      obtain ⟨⟨v1, x1⟩, e1, e⟩ := Res.bind_ok_inv e
      obtain ⟨⟨vs1, xs1⟩, e2, e⟩ := Res.bind_ok_inv e
      cases e
      exact .cons (hJ _ _ _ _ _ h e1) (ih e2)

theorem seekAll_roves {fs : List δ} {xs : List χ} (h : List.Forall₂ (fun d y => Rover X (Q d) items goes skips y) fs xs) {k m : Nat} (hg : goes k m) :
    ∃ xs', seekAll X k xs = .ok xs' ∧ List.Forall₂ (fun d y => Rover X (Q d) items goes skips y) fs xs' ∧ List.Forall₂ (fun d y => Q d y (items.drop m)) fs xs' := by
  induction h with
  | nil => exact ⟨[], rfl, .nil, .nil⟩
  | cons h hs ih =>
    obtain ⟨x', g1, g2, g3⟩ := rover_roves.seek _ k m h hg
    obtain ⟨xs', k1, k2, k3⟩ := ih
    exact ⟨x' :: xs', by simp only [seekAll, g1, k1, Res.ok_bind, Res.pure_eq], .cons g2 k2, .cons g3 k3⟩

theorem skipAll_roves {fs : List δ} {xs : List χ} (hs : skips) (h : List.Forall₂ (fun d y => Rover X (Q d) items goes skips y) fs xs) (a : α) (b : List α)
    (hq : List.Forall₂ (fun d y => Q d y (a :: b)) fs xs) :
    ∃ xs', skipAll X 1 xs = .ok xs' ∧ List.Forall₂ (fun d y => Rover X (Q d) items goes skips y) fs xs' ∧ List.Forall₂ (fun d y => Q d y b) fs xs' := by
  induction h with
  | nil => exact ⟨[], rfl, .nil, .nil⟩
  | cons h _ ih =>
    cases hq with
    | cons hq hqs =>
    obtain ⟨x', g1, g2, g3⟩ := rover_roves.skip hs _ [a] b h hq
    obtain ⟨xs', k1, k2, k3⟩ := ih hqs
    exact ⟨x' :: xs', by simp only [skipAll, k1, Res.ok_bind, Res.pure_eq]; rw [show (1 : Nat) = [a].length from rfl, g1]; rfl, .cons g2 k2, .cons g3 k3⟩

theorem structSkip_roves (c : Codec) {fs : List δ} (hs : skips) (b : List α) : ∀ (a : List α) {xs : List χ}, List.Forall₂ (fun d y => Rover X (Q d) items goes skips y) fs xs →
    List.Forall₂ (fun d y => Q d y (a ++ b)) fs xs →
    ∃ xs', structSkip X c a.length none xs = .ok (none, xs') ∧ List.Forall₂ (fun d y => Rover X (Q d) items goes skips y) fs xs' ∧ List.Forall₂ (fun d y => Q d y b) fs xs' := by
  intro a
  induction a with
  | nil => intro xs h hq; exact ⟨xs, rfl, h, hq⟩
  | cons r a ih =>
    intro xs h hq
    obtain ⟨xs1, g1, g2, g3⟩ := skipAll_roves hs h r (a ++ b) hq
    obtain ⟨xs', k1, k2, k3⟩ := ih g2 g3
    exact ⟨xs', by simp only [List.length_cons, structSkip, nextPresent, Res.ok_bind, if_true, g1, k1], k2, k3⟩

end

/-- A struct without nulls. -/
theorem struct_roves {c : Codec} {fuel : Nat} {bo : BatchOption} {n : Nat} {nd : SchemaNode} {cs : List Schema} (hk : nd.kind = .struct) {rows : List DeepRow}
    {goes : Nat → Nat → Prop} {skips : Prop} (kind : CompKind) (ix : Option (List (List Nat))) :
    Roves (rdOps c fuel (n + 1)) (RecHas c fuel bo (n + 1) (.mk nd cs)) rows goes skips
      (fun x => ∃ xs, x = (RdNode.struct kind none ix xs : RdNode (Rd n)) ∧
        List.Forall₂ (fun d y => Rover (rdOps c fuel n) (RecHas c fuel bo n d) rows goes skips y) (cs.filter fun c => bo.isInclude c.node.id) xs) := by
  constructor
  · rintro x v v' x' ⟨xs, rfl, hxs⟩ h
    have h : (RdNode.struct kind none ix xs : RdNode (Rd n)).nextBatch (rdOps c fuel n) c fuel v = .ok (v', x') := h
    cases v with
    | nil => cases h
    | mk id k s vs =>
      simp only [RdNode.nextBatch, structBatch, Res.pure_eq, Res.ok_bind] at h
      obtain ⟨⟨v1, p1, xs1⟩, h1, h2⟩ := Res.bind_ok_inv h
      obtain ⟨⟨vs1, xs2⟩, h3, h4⟩ := Res.bind_ok_inv h1
      cases h4
      cases h2
      exact ⟨xs2, rfl, childBatches_keeps (J := fun d y => Rover (rdOps c fuel n) (RecHas c fuel bo n d) rows goes skips y)
        (fun d x v v' x' h e => rover_roves.next x v v' x' h e) hxs h3⟩
  · rintro x k m ⟨xs, rfl, hxs⟩ hg
    obtain ⟨xs', g1, g2, g3⟩ := seekAll_roves hxs hg
    refine ⟨(RdNode.struct kind none ix xs' : RdNode (Rd n)), ?_, ⟨xs', rfl, g2⟩, ?_⟩
    · have e : (RdNode.struct kind none ix xs : RdNode (Rd n)).seekStride (rdOps c fuel n) c fuel k = .ok (.struct kind none ix xs') := by
        simp only [RdNode.seekStride, seekFlags, Option.isSome_none, Bool.false_eq_true, if_false, Res.pure_eq, ite_self, Res.ok_bind, g1]
      exact e
    · simp only [RecHas, if_pos hk]
      exact g3
  · rintro hs x a b ⟨xs, rfl, hxs⟩ h
    simp only [RecHas, if_pos hk] at h ⊢
    obtain ⟨xs', g1, g2, g3⟩ := structSkip_roves c hs b a hxs h
    refine ⟨(RdNode.struct kind none ix xs' : RdNode (Rd n)), ?_, ⟨xs', rfl, g2⟩, g3⟩
    have e : (RdNode.struct kind none ix xs : RdNode (Rd n)).skip (rdOps c fuel n) c fuel a.length = .ok (.struct kind none ix xs') := by
      simp only [RdNode.skip, g1, Res.ok_bind, Res.pure_eq]
    exact e

/-- A column of a record. -/
theorem field_roves {c : Codec} {fuel : Nat} {bo : BatchOption} {n : Nat} {nd : SchemaNode} {cs : List Schema} (hk : nd.kind ≠ .struct) {rows : List DeepRow}
    {goes : Nat → Nat → Prop} {skips : Prop} {I : Rd (n + 1) → Prop} (hf : ∀ y, I y → nd.hasNulls = true → Rd.flagged (n + 1) y)
    (h : Roves (rdOps c fuel (n + 1)) (DeepHas c fuel (n + 1) (.mk nd cs)) (rows.map (DeepRow.get nd.id)) goes skips I) :
    Roves (rdOps c fuel (n + 1)) (RecHas c fuel bo (n + 1) (.mk nd cs)) rows goes skips I := by
  constructor
  · exact h.next
  · intro x k m hx hg
    obtain ⟨x', g1, g2, g3⟩ := h.seek x k m hx hg
    refine ⟨x', g1, g2, ?_⟩
    simp only [RecHas, if_neg hk]
    exact ⟨by rw [List.map_drop]; exact g3, hf x' g2⟩
  · intro hs x a b hx hq
    simp only [RecHas, if_neg hk, List.map_append] at hq ⊢
    obtain ⟨x', g1, g2, g3⟩ := h.skip hs x (a.map (DeepRow.get nd.id)) _ hx hq.1
    rw [List.length_map] at g1
    exact ⟨x', g1, g2, g3, hf x' g2⟩

section
variable {c : Codec} {bo : BatchOption} {ro : ROpts} {s : Schema} {file : Bytes} {f : StripeFooter} {places : List (StreamInfo × Nat)}
  {types : List RdType} {rs : List (Option FlatRd)} {most : Nat}

/-- **The columns of a record can be sent to their row groups.** -/
theorem rec_roams (ht : TypesOf s types) (hrs : StripeReaders ro bo s file f places rs) {fuel : Nat} (hfuel : most ≤ fuel) {rows : List DeepRow}
    (hstruct : ∀ c ∈ s.columns, c.node.kind = .struct → f.columns[c.node.id]? = some .direct ∧ columnStreams file c.node.id places = [])
    (hall : ∀ c ∈ s.columns, c.node.kind ≠ .struct → ∀ d ∈ c.children, bo.isInclude d.node.id = bo.isInclude c.node.id) {zero skips : Prop} {groups : Nat}
    {entries : Nat → List (List Nat)} (hix : IndexesOf bo s rs groups entries) {starts : Nat → Nat}
    (hreach : ∀ d ∈ s.columns, Reachable ro.kind ro.chunkSize (columnStreams file d.node.id places))
    (hzero : zero → ∀ e ∈ s.columns, bo.isInclude e.node.id = true → e.node.kind ≠ .date) (hskips : skips → ∀ e ∈ s.columns, bo.isInclude e.node.id = true → e.node.kind ≠ .map) :
    ∀ (n : Nat) (d : Schema), d.Record → d ∈ s.columns → bo.isInclude d.node.id = true → d.columns.length ≤ n → (∀ e ∈ d.columns, e ∈ s.columns) →
      (∀ e ∈ d.fields, DeepIndexed c ro.kind ro.chunkSize file most f places entries starts e (rows.map (DeepRow.get e.node.id))) →
      (∀ e ∈ d.fields, bo.isInclude e.node.id = true → e.node.hasNulls = true → ∃ p ∈ columnStreams file e.node.id places, p.kind = .present) →
      ∃ x, treeOf bo ro types rs n d.node.id = .ok x ∧ Rover (rdOps c fuel n) (RecHas c fuel bo n d) rows (goesTo zero groups starts) skips x
  | 0, .mk nd cs, _, _, _, hn, _, _, _ => by simp [Schema.columns] at hn
  | n + 1, .mk nd cs, hd, hmem, hinc, hn, hsub, hst, hfl => by
    by_cases hk : nd.kind = .struct
    · rw [Schema.fields, if_pos hk, fieldsAll_eq] at hst hfl
      obtain ⟨names, hty⟩ := ht.2 _ hmem
      obtain ⟨enc, tag, ix, k1, k2, k3⟩ := hrs _ hmem hinc
      obtain ⟨s1, s2⟩ := hstruct _ hmem hk
      simp only [Schema.node_mk, Schema.children_mk] at hty k1 k2 k3 s1 s2
      have : tag = .struct := by
        rw [hk, ← Option.some.inj (k1.symm.trans s1).symm] at k2
        simpa [newReaderTag] using k2.symm
      subst this
      obtain ⟨xs, h1, h2⟩ := treesOf_spec (f := treeOf bo ro types rs n) (g := fun d : Schema => d.node.id)
        (P := fun d y => Rover (rdOps c fuel n) (RecHas c fuel bo n d) rows (goesTo zero groups starts) skips y) (l := cs.filter fun c => bo.isInclude c.node.id) (by
          intro d hd'
          obtain ⟨hd1, hd2⟩ := List.mem_filter.1 hd'
          exact rec_roams ht hrs hfuel hstruct hall hix hreach hzero hskips n d ((hd.struct_inv hk).2 d hd1) (columns_child hmem hd1) (by simpa using hd2)
            (by have := child_columns_length (n := nd) hd1; omega)
            (fun e he => hsub e (by simp only [Schema.columns, columnsAll_eq, List.mem_cons, List.mem_flatMap]; exact .inr ⟨d, hd1, he⟩))
            (fun e he => hst e (List.mem_flatMap.2 ⟨d, hd1, he⟩)) (fun e he => hfl e (List.mem_flatMap.2 ⟨d, hd1, he⟩)))
      refine ⟨(RdNode.struct ro.kind none ix xs : RdNode (Rd n)), ?_, _, ⟨xs, rfl, h2⟩, struct_roves hk ro.kind ix⟩
      rw [treeOf]
      simp only [Schema.node_mk, hty, k3]
      have hfm : (cs.map fun d => d.node.id).filter bo.isInclude = (cs.filter fun c => bo.isInclude c.node.id).map fun d => d.node.id := by
        rw [List.filter_map]; rfl
      rw [hfm, h1, s2]
      rfl
    · rw [Schema.fields, if_neg hk] at hst hfl
      have hnest := hd.nest hk
      have hincs := nest_included hall hnest hmem hinc
      obtain ⟨x, h1, I, h2, h3, h4⟩ := deepIndexed_roams ht hrs hfuel (zero := zero) (skips := skips) hix hreach (hst _ (by simp)) hnest hmem hincs
        (fun hz e he => hzero hz e (hsub e he) (hincs e he)) (fun hz e he => hskips hz e (hsub e he) (hincs e he)) (n + 1) hn
      obtain ⟨x', g1, -, g3⟩ := deep_opens (fuel := fuel) ht hrs hfuel (hst _ (by simp)).stored hnest hmem hincs (n + 1) hn
      obtain rfl : x = x' := by rw [h1] at g1; exact Res.ok.inj g1
      exact ⟨x, h1, I, h2, field_roves hk (fun y hy hnn => (h3 y hy).2 (g3 (hfl _ (by simp) hinc hnn))) h4⟩

end

mutual
theorem fields_plain : ∀ (d e : Schema), e ∈ d.fields → e.node.kind ≠ .struct
  | .mk nd cs, e, h => by
    rw [Schema.fields] at h
    split at h
    · exact fieldsAll_plain cs e h
    · simp only [List.mem_singleton] at h
      subst h; assumption

theorem fieldsAll_plain : ∀ (cs : List Schema) (e : Schema), e ∈ fieldsAll cs → e.node.kind ≠ .struct
  | [], e, h => by cases h
  | c :: cs, e, h => by
    rw [fieldsAll, List.mem_append] at h
    rcases h with h | h
    · exact fields_plain c e h
    · exact fieldsAll_plain cs e h
end

/-- **The readers of a stripe with row indexes.** -/
theorem stripeGroups_roams {E : Env} {ro : ROpts} {most : Nat} {s : Schema} {file : Bytes} {info : StripeInfo} {rows : List DeepRow} {f : StripeFooter}
    {index data : List StreamInfo} {stride groups : Nat} {entries : Nat → List (List Nat)} (h : StripeDeep E ro.kind ro.chunkSize most s file info rows f index data)
    (hg : StripeGroups E ro.kind ro.chunkSize most s file info rows f index data stride groups entries) (num : s.Numbered) (hs : s.Record)
    {bo : BatchOption} (hsel : bo.Chooses s) {types : List RdType} (ht : TypesOf s types) {fuel : Nat} (hfuel : most ≤ fuel)
    (hreach : info.Reachable ro.kind ro.chunkSize s file data) :
    ∃ x, newStripeReader E ro bo file types info = .ok ⟨types.map (·.hasNulls), some x, rows.length, 0⟩ ∧ RecHas E.c fuel bo types.length s x rows ∧
      Rover (rdOps E.c fuel types.length) (RecHas E.c fuel bo types.length s) rows
        (goesTo (∀ e ∈ s.columns, bo.isInclude e.node.id = true → e.node.kind ≠ .date) groups fun g => g * stride)
        (∀ e ∈ s.columns, bo.isInclude e.node.id = true → e.node.kind ≠ .map) x := by
  obtain ⟨rs, hrs, hfl, hidx, hx⟩ := stripeDeep_tree h num hs hsel ht
  have hall := fun c hc hk => (hsel.2 c hc).2 hk
  obtain ⟨x, h1, h2⟩ := rec_opens ht hrs hfuel (c := E.c) h.structs hall types.length s hs (self_mem_columns s) hsel.1
    (Nat.le_of_eq ht.1.symm) h.fields hfl
  have hix : IndexesOf bo s rs groups entries := by
    intro _ d hd hk hinc fr hfr
    obtain ⟨g1, p, flat, g2, g3, g4, g5⟩ := hg.each d hd hk
    exact ⟨hidx d hd hinc hg.once p g2 g3 flat _ g4 g5 fr hfr, g1⟩
  obtain ⟨x', g1, g2⟩ := rec_roams ht hrs hfuel (c := E.c) h.structs hall (zero := ∀ e ∈ s.columns, bo.isInclude e.node.id = true → e.node.kind ≠ .date)
    (skips := ∀ e ∈ s.columns, bo.isInclude e.node.id = true → e.node.kind ≠ .map) hix hreach id id types.length s hs (self_mem_columns s) hsel.1
    (Nat.le_of_eq ht.1.symm) (fun _ h => h) hg.fields hfl
  obtain rfl : x = x' := by rw [h1] at g1; exact Res.ok.inj g1
  exact ⟨x, hx x h1, h2, g2⟩

/-- The readers of a stripe can be sent back to the start. -/
theorem stripeDeep_rewinds {E : Env} {ro : ROpts} {most : Nat} {s : Schema} {file : Bytes} {info : StripeInfo} {rows : List DeepRow} {f : StripeFooter}
    {index data : List StreamInfo} (h : StripeDeep E ro.kind ro.chunkSize most s file info rows f index data) (num : s.Numbered) (hs : s.Record)
    {bo : BatchOption} (hsel : bo.Chooses s) {types : List RdType} (ht : TypesOf s types) {fuel : Nat} (hfuel : most ≤ fuel)
    (hreach : info.Reachable ro.kind ro.chunkSize s file data) :
    ∃ x, newStripeReader E ro bo file types info = .ok ⟨types.map (·.hasNulls), some x, rows.length, 0⟩ ∧ RecHas E.c fuel bo types.length s x rows ∧
      Rover (rdOps E.c fuel types.length) (RecHas E.c fuel bo types.length s) rows
        (fun k m => k = 0 ∧ m = 0 ∧ ∀ e ∈ s.columns, bo.isInclude e.node.id = true → e.node.kind ≠ .date)
        (∀ e ∈ s.columns, bo.isInclude e.node.id = true → e.node.kind ≠ .map) x := by
  obtain ⟨rs, hrs, hfl, -, hx⟩ := stripeDeep_tree h num hs hsel ht
  have hall := fun c hc hk => (hsel.2 c hc).2 hk
  obtain ⟨x, h1, h2⟩ := rec_opens ht hrs hfuel (c := E.c) h.structs hall types.length s hs (self_mem_columns s) hsel.1
    (Nat.le_of_eq ht.1.symm) h.fields hfl
  obtain ⟨x', g1, I, g2, g3⟩ := rec_roams ht hrs hfuel (c := E.c) h.structs hall (zero := ∀ e ∈ s.columns, bo.isInclude e.node.id = true → e.node.kind ≠ .date)
    (skips := ∀ e ∈ s.columns, bo.isInclude e.node.id = true → e.node.kind ≠ .map) (groups := 0) (entries := fun _ => []) (starts := fun _ => 0)
    (fun h => absurd h (by omega)) hreach id id types.length s hs (self_mem_columns s) hsel.1
    (Nat.le_of_eq ht.1.symm) (fun _ h => h) (fun e he => (h.fields e he).indexed (by
      rcases record_columns hs e (fields_columns s e he) with hk | ⟨g, hg, hg2, hg3⟩
      · exact absurd hk (fields_plain s e he)
      · exact nest_columns hg2 e hg3) _) hfl
  obtain rfl : x = x' := by rw [h1] at g1; exact Res.ok.inj g1
  exact ⟨x, hx x h1, h2, I, g2, g3.next, fun y k m hy hg => g3.seek y k m hy (.inl hg), g3.skip⟩

/-- What is shown of the rows. -/
theorem Rover.shown {c : Codec} {fuel n : Nat} {bo : BatchOption} {s : Schema} {full : Bool} {rows : List DeepRow} {goes : Nat → Nat → Prop} {skips : Prop} {x : Rd n}
    (h : Rover (rdOps c fuel n) (RecHas c fuel bo n s) rows goes skips x) :
    Rover (rdOps c fuel n) (RecLeft c fuel bo s full n) (rows.map (DeepRow.shown full (s.chosen bo))) goes skips x := by
  obtain ⟨I, h1, h2⟩ := h
  refine ⟨I, h1, h2.next, fun y k m hy hg => ?_, fun hs y a b hy hq => ?_⟩
  · obtain ⟨y', g1, g2, g3⟩ := h2.seek y k m hy hg
    exact ⟨y', g1, g2, _, by rw [List.map_drop], g3⟩
  · obtain ⟨items, hi, hq⟩ := hq
    obtain ⟨ia, ib, rfl, rfl, rfl⟩ := List.append_eq_map_iff.mp hi
    obtain ⟨y', g1, g2, g3⟩ := h2.skip hs y ia ib hy hq
    exact ⟨y', by rw [List.length_map]; exact g1, g2, ib, rfl, g3⟩

/-- Working through a list of calls. -/
theorem wander_spec {χ α : Type} {X : RdOps χ} {hasNulls : List Bool} {B : Nat} {Shape : Vec → Prop} {P : χ → List α → Prop} {rowsOf : Vec → List α}
    (D : Delivers X hasNulls B Shape P rowsOf) {items : List α} {goes : Nat → Nat → Prop} {skips : Prop} {row : Nat → Nat} {allowed : Nat → Prop}
    (hrow : ∀ k, allowed k → goes k (row k)) (ops : List GroupOp) : ∀ (p : Nat) (x : χ) (v : Vec), Rover X P items goes skips x → P x (items.drop p) → Shape v →
    KeepsIn row allowed skips B items.length p ops → X.wander hasNulls rowsOf x v ops = .ok (seenBy row items p ops) := by
  induction ops with
  | nil => intro p x v _ _ _ _; rfl
  | cons op ops ih =>
    intro p x v hx hp hv hk
    cases op with
    | batch m =>
      obtain ⟨hm, hle, hk⟩ := hk
      obtain ⟨v1, c1, c2, -, c4, -⟩ := D.cleared v hv
      have hl : ((items.drop p).take m).length = m := by simp; omega
      obtain ⟨sized, v2, x', d1, d2, d3, d4, d5, -, -⟩ := D.next v1 c2 c4 x ((items.drop p).take m) ((items.drop p).drop m) (by omega) (by rw [List.take_append_drop]; exact hp)
      rw [hl] at d1
      have := ih (p + m) x' v2 (rover_roves.next _ _ _ _ hx d2) (by rw [List.drop_drop] at d3; exact d3) d4 hk
      simp only [RdOps.wander, c1, d1, d2, this, Res.ok_bind, Res.pure_eq, seenBy, d5]
    | skip n =>
      obtain ⟨hs, hle, hk⟩ := hk
      have hl : ((items.drop p).take n).length = n := by simp; omega
      obtain ⟨x', g1, g2, g3⟩ := rover_roves.skip hs x ((items.drop p).take n) ((items.drop p).drop n) hx (by rw [List.take_append_drop]; exact hp)
      rw [hl] at g1
      have := ih (p + n) x' v g2 (by rw [List.drop_drop] at g3; exact g3) hv hk
      simp only [RdOps.wander, g1, this, Res.ok_bind, seenBy]
    | seek k =>
      obtain ⟨ha, hk⟩ := hk
      obtain ⟨x', g1, g2, g3⟩ := rover_roves.seek x k _ hx (hrow k ha)
      have := ih (row k) x' v g2 g3 hv hk
      simp only [RdOps.wander, g1, this, Res.ok_bind, seenBy]

end Goorc
