import Verif.Spec.SeekFile
import Verif.Proofs.ForeignFile
import Verif.Props.ForeignSeek
import Verif.Props.Skip
import Verif.Props.Seek
import Verif.Props.SeekCol
/- Seeking in the stripes of files: lemmas for Props/SeekFile.lean. -/
namespace Goorc

/-! ### What is known of readers that can be sent about -/

/-- Whatever the state of a reader, `SeekStride(k)` sends it to row `row`, for all `k` and `row` with `goes k row`. -/
def seekKeep (c : Codec) (nulls : Nat → Bool) (col : Nat → List (Option GoVal)) (goes : Nat → Nat → Prop) : Keep where
  leaf id t hn kind ix F E := (nulls id = true → ∀ p x p', BoolReader.next c p = .ok (x, p') → (F p ↔ F p')) ∧
    (∀ r x r', t.read.next c r = .ok (x, r') → (E r ↔ E r')) ∧
    ∀ k row, goes k row → ∀ y : ColReader t.ρ, y.hasNulls = hn → y.kind = kind → y.index = ix → (y.present = none ↔ nulls id = false) → E y.data →
      (∀ p, y.present = some p → F p) → ∃ y', t.read.seekStride c y k = .ok y' ∧ y'.hasNulls = hn ∧ y'.kind = kind ∧ y'.index = ix ∧
        (y'.present = none ↔ nulls id = false) ∧
        t.read.Holds c F E y' (if nulls id then (col id).drop row else ((col id).drop row).filter (·.isSome))
  flags id kind ix F := (∀ p x p', BoolReader.next c p = .ok (x, p') → (F p ↔ F p')) ∧
    ∀ k row, goes k row → ∀ q, F q → ∃ q' qe,
      (if k = 0 then seekFlags c (some q) (0, 0, [0, 0])
        else do
          let pos ← getStridePositions ix k
          let (pp, _) ← streamPos kind pos 0 2
          seekFlags c (some q) pp : Res (Option BoolReader)) = .ok (some q') ∧
      Yields (BoolReader.next c) q' (((col id).drop row).map (·.isSome)) qe ∧ F qe
  bare := False

theorem NullsFrom.drop {col : Nat → List (Option GoVal)} {par : Option Nat} {j : Nat} (h : NullsFrom col par j) (m : Nat) :
    NullsFrom (fun j => (col j).drop m) par j := by
  cases par with
  | none =>
    simp only [NullsFrom, List.map_drop] at h ⊢
    rw [h]
  | some p =>
    simp only [NullsFrom, List.map_drop] at h ⊢
    rw [h]

section
variable {c : Codec} {bo : BatchOption} {fuel : Nat}

theorem seekAll_spec {n : Nat} {k : Nat} {P Q : Schema → Rd n → Prop} {fs : List Schema} {rs : List (Rd n)} (h : List.Forall₂ P fs rs)
    (hs : ∀ d ∈ fs, ∀ x, P d x → ∃ x', (rdOps c fuel n).seekStride x k = .ok x' ∧ Q d x') :
    ∃ rs', seekAll (rdOps c fuel n) k rs = .ok rs' ∧ List.Forall₂ Q fs rs' := by
  induction h with
  | nil => exact ⟨[], rfl, .nil⟩
  | cons h hrs ih =>
    obtain ⟨x', e1, e2⟩ := hs _ (by simp) _ h
    obtain ⟨rs', e3, e4⟩ := ih fun d hd => hs d (by simp [hd])
    exact ⟨x' :: rs', by simp only [seekAll, e1, e3, Res.ok_bind, Res.pure_eq], .cons e2 e4⟩

theorem skipAll_spec {n : Nat} {k : Nat} {P Q : Schema → Rd n → Prop} {fs : List Schema} {rs : List (Rd n)} (h : List.Forall₂ P fs rs)
    (hs : ∀ d ∈ fs, ∀ x, P d x → ∃ x', (rdOps c fuel n).skip x k = .ok x' ∧ Q d x') :
    ∃ rs', skipAll (rdOps c fuel n) k rs = .ok rs' ∧ List.Forall₂ Q fs rs' := by
  induction h with
  | nil => exact ⟨[], rfl, .nil⟩
  | cons h hrs ih =>
    obtain ⟨x', e1, e2⟩ := hs _ (by simp) _ h
    obtain ⟨rs', e3, e4⟩ := ih fun d hd => hs d (by simp [hd])
    exact ⟨x' :: rs', by simp only [skipAll, e1, e3, Res.ok_bind, Res.pure_eq], .cons e2 e4⟩

/-- `SeekStride` of a tree of readers, whatever its state. `col` is what is in the columns, `cur` what the readers still have. -/
theorem RdHas.seek {nulls : Nat → Bool} {col : Nat → List (Option GoVal)} {goes : Nat → Nat → Prop} {k row : Nat} (hg : goes k row) (s : Schema) :
    ∀ n par (x x0 : Rd n) (cur : Nat → List (Option GoVal)), (∀ d ∈ s.columns, nulls d.node.id = d.node.hasNulls) →
    RdHas (seekKeep c nulls col goes) c bo col n par s x0 → RdHas (seekKeep c nulls col goes) c bo cur n par s x →
    ∃ x', (rdOps c fuel n).seekStride x k = .ok x' ∧ RdHas (seekKeep c nulls col goes) c bo (fun j => (col j).drop row) n par s x' := by
  induction s using Schema.ind with
  | h nd cs ih =>
    intro n par x x0 cur hn h0 hx
    have hnd := hn _ (self_mem_columns _)
    simp only [Schema.node] at hnd
    match n, x, x0 with
    | n + 1, x, x0 =>
      change RdNode (Rd n) at x x0
      cases x with
      | dict r => simp [RdHas] at hx
      | list k p l i y => simp [RdHas] at hx
      | map k p l i y z => simp [RdHas] at hx
      | bare t r => simp only [RdHas, seekKeep] at hx; exact hx.2.2.2.2.2.1.elim
      | leaf t r =>
        simp only [RdHas] at hx
        obtain ⟨hk, hcs, ht, hp, -, F, E, hK, hh⟩ := hx
        cases x0 with
        | dict r => simp [RdHas] at h0
        | list k p l i y => simp [RdHas] at h0
        | map k p l i y z => simp [RdHas] at h0
        | bare t r => simp only [RdHas, seekKeep] at h0; exact h0.2.2.2.2.2.1.elim
        | struct _ _ _ _ => simp only [RdHas] at h0; rw [h0.1] at hk; cases hk
        | leaf t0 r0 =>
          simp only [RdHas] at h0
          obtain ⟨k1, k2, k3⟩ := id hK
          obtain ⟨s1, s2⟩ := hh.states (fun hs => k1 (by
            cases hz : nulls nd.id with
            | true => rfl
            | false => rw [hp.2 (by rw [← hnd, hz])] at hs; cases hs)) k2
          obtain ⟨y', g1, g0, g2, g3, g4, g5⟩ := k3 k row hg r rfl rfl rfl (by rw [hnd]; exact hp) s1 s2
          refine ⟨(RdNode.leaf t y' : RdNode (Rd n)), ?_, ?_⟩
          · show RdNode.seekStride (rdOps c fuel n) c fuel (.leaf t r) k = _
            simp only [RdNode.seekStride, g1, Res.ok_bind, Res.pure_eq]; rfl
          · simp only [RdHas]
            rw [hnd] at g4 g5
            exact ⟨hk, hcs, ht, g4, fun hz => (h0.2.2.2.2.1 hz).drop row, F, E, by rw [g0, g2, g3]; exact hK, g5⟩
      | struct kind p ix rs =>
        simp only [RdHas] at hx
        obtain ⟨hk, hpar, hflags, hrs⟩ := hx
        cases x0 with
        | dict r => simp [RdHas] at h0
        | list k p l i y => simp [RdHas] at h0
        | map k p l i y z => simp [RdHas] at h0
        | bare t r => simp only [RdHas, seekKeep] at h0; exact h0.2.2.2.2.2.1.elim
        | leaf _ _ => simp only [RdHas] at h0; rw [hk] at h0; exact absurd h0.1 (by simp [TypeKind.nested])
        | struct kind0 p0 ix0 rs0 =>
          simp only [RdHas] at h0
          obtain ⟨-, -, hflags0, hrs0⟩ := h0
          have hboth : List.Forall₂ (fun d x => RdHas (seekKeep c nulls col goes) c bo cur n (if nd.hasNulls then some nd.id else none) d x ∧
              ∃ x0, RdHas (seekKeep c nulls col goes) c bo col n (if nd.hasNulls then some nd.id else none) d x0)
              (cs.filter fun c => bo.isInclude c.node.id) rs := by
            refine forall₂_imp_mem hrs fun d hd x hx => ⟨hx, ?_⟩
            obtain ⟨i, hi, rfl⟩ := List.mem_iff_getElem.1 hd
            rw [List.forall₂_iff_get] at hrs0
            exact ⟨_, hrs0.2 i hi (by rw [← hrs0.1]; exact hi)⟩
          obtain ⟨rs', e1, e2⟩ := seekAll_spec (c := c) (fuel := fuel) (k := k)
            (Q := RdHas (seekKeep c nulls col goes) c bo (fun j => (col j).drop row) n (if nd.hasNulls then some nd.id else none)) hboth (by
              rintro d hd y ⟨h1, x0, h2⟩
              have hmem : d ∈ cs := (List.mem_filter.1 hd).1
              exact ih d hmem n _ y x0 cur (fun e he => hn e (by
                simp only [Schema.columns, columnsAll_eq]
                exact List.mem_cons_of_mem _ (List.mem_flatMap.2 ⟨d, hmem, he⟩))) h2 h1)
          cases p with
          | none =>
            refine ⟨(RdNode.struct kind none ix rs' : RdNode (Rd n)), ?_, ?_⟩
            · show RdNode.seekStride (rdOps c fuel n) c fuel (.struct kind none ix rs) k = _
              simp only [RdNode.seekStride, seekFlags, e1, Option.isSome_none, Bool.false_eq_true, if_false, Res.pure_eq, ite_self, Res.ok_bind]; rfl
            · simp only [RdHas]
              exact ⟨hk, hpar, hflags, e2⟩
          | some q =>
            obtain ⟨f1, f2, F, q1, hK, hy, hF⟩ := hflags
            have hblank : ∀ x ∈ (col nd.id).drop row, x = none ∨ x = some .nil := by
              intro x hx
              cases p0 with
              | none => simp only [FlagsHave] at hflags0; rw [hflags0] at f1; cases f1
              | some _ => exact hflags0.2.1 x (List.mem_of_mem_drop hx)
            obtain ⟨k1, k2⟩ := id hK
            obtain ⟨q', qe, g1, g2, g3⟩ := k2 k row hg q ((Yields.keeps (fun r v r' h => k1 r v r' h) hy).mpr hF)
            refine ⟨(RdNode.struct kind (some q') ix rs' : RdNode (Rd n)), ?_, ?_⟩
            · show RdNode.seekStride (rdOps c fuel n) c fuel (.struct kind (some q) ix rs) k = _
              simp only [RdNode.seekStride, Option.isSome_some, if_true]
              rw [g1]
              simp only [Res.ok_bind, e1, Res.pure_eq]; rfl
            · simp only [RdHas]
              exact ⟨hk, hpar, ⟨f1, hblank, F, qe, hK, g2, g3⟩, e2⟩

/-! ### Skipping -/

theorem bare_skips (t : Option LeafTag) (c : Codec) : (bareRead t).SkipsLikeNext c := by
  intro d x d' h
  cases t <;> exact nomatch h

/-- `Skip(1)` for a leaf in a struct with nulls whose row is not null. -/
theorem RdHas.skipUnder {K : Keep} {col : Nat → List (Option GoVal)} {n : Nat} {par : Nat} {d : Schema} (hk : d.node.kind ≠ .struct)
    (hnn : d.node.hasNulls = false) {x : Rd n} (h : RdHas K c bo col n (some par) d x) :
    (((col par).head?.map (·.isSome)) = some true → ∃ x', (rdOps c fuel n).skip x 1 = .ok x' ∧ RdHas K c bo (fun j => (col j).drop 1) n (some par) d x') ∧
    (((col par).head?.map (·.isSome)) = some false → RdHas K c bo (fun j => (col j).drop 1) n (some par) d x) := by
  obtain ⟨nd, cs⟩ := d
  simp only [Schema.node] at hk hnn
  match n, x with
  | n + 1, x =>
    change RdNode (Rd n) at x
    cases x with
    | dict r => simp [RdHas] at h
    | list k p l i y => simp [RdHas] at h
    | map k p l i y z => simp [RdHas] at h
    | bare t r => simp only [RdHas] at h; rw [hnn] at h; cases h.2.2.2.1
    | struct kind p ix rs => simp only [RdHas] at h; exact absurd h.1 hk
    | leaf t r =>
      simp only [RdHas] at h
      obtain ⟨h1, h2, h3, h4, h5, F, E, hK, hh⟩ := h
      have hfrom := h5 hnn
      rw [if_neg (by simp [hnn])] at hh
      have hhead : (col nd.id).head?.map (·.isSome) = (col par).head?.map (·.isSome) := by
        simp only [NullsFrom] at hfrom
        have := congrArg List.head? hfrom
        simpa [List.head?_map] using this
      constructor
      · intro ht
        rw [← hhead] at ht
        cases hcol : col nd.id with
        | nil => rw [hcol] at ht; simp at ht
        | cons y ys =>
          rw [hcol] at ht
          have hy : y.isSome = true := by simpa using ht
          rw [hcol, List.filter_cons_of_pos (by simpa using hy)] at hh
          obtain ⟨r', g1, g2, g3⟩ := hh.skip (t.skips c) 1 (by simp)
          obtain ⟨g4, g5, g6⟩ := t.read.skipRows_keeps c 1 g1
          refine ⟨(RdNode.leaf t r' : RdNode (Rd n)), ?_, ?_⟩
          · show RdNode.skip (rdOps c fuel n) c fuel (.leaf t r) 1 = _
            simp only [RdNode.skip, g1, Res.ok_bind, Res.pure_eq]; rfl
          · simp only [RdHas]
            refine ⟨h1, h2, h3, g3.trans h4, fun _ => hfrom.drop 1, F, E, by rw [g4, g5, g6]; exact hK, ?_⟩
            rw [if_neg (by simp [hnn]), hcol]
            exact g2
      · intro hf
        rw [← hhead] at hf
        cases hcol : col nd.id with
        | nil => rw [hcol] at hf; simp at hf
        | cons y ys =>
          rw [hcol] at hf
          have hy : y.isSome = false := by simpa using hf
          rw [hcol, List.filter_cons_of_neg (by simp [hy])] at hh
          simp only [RdHas]
          refine ⟨h1, h2, h3, h4, fun _ => hfrom.drop 1, F, E, hK, ?_⟩
          rw [if_neg (by simp [hnn]), hcol]
          exact hh

/-- `Skip` of a tree of readers. -/
theorem RdHas.skip {K : Keep} (s : Schema) : ∀ n (x : Rd n) (col : Nat → List (Option GoVal)) (L m : Nat), s.NullsOnce → (∀ j, (col j).length = L) → m ≤ L →
    RdHas K c bo col n none s x → ∃ x', (rdOps c fuel n).skip x m = .ok x' ∧ RdHas K c bo (fun j => (col j).drop m) n none s x' := by
  induction s using Schema.ind with
  | h nd cs ih =>
    intro n x col L m once hL hm hx
    match n, x with
    | n + 1, x =>
      change RdNode (Rd n) at x
      cases x with
      | dict r => simp [RdHas] at hx
      | list k p l i y => simp [RdHas] at hx
      | map k p l i y z => simp [RdHas] at hx
      | bare t r =>
        simp only [RdHas] at hx
        obtain ⟨h1, h2, h3, h4, h5, h6, hh⟩ := hx
        obtain ⟨r', g1, g2, g3⟩ := hh.skip (bare_skips t c) m (by rw [hL]; exact hm)
        refine ⟨(RdNode.bare t r' : RdNode (Rd n)), ?_, ?_⟩
        · show RdNode.skip (rdOps c fuel n) c fuel (.bare t r) m = _
          simp only [RdNode.skip, g1, Res.ok_bind, Res.pure_eq]; rfl
        · simp only [RdHas]
          exact ⟨h1, h2, h3, h4, fun h => h5 (g3.1 h), h6, g2⟩
      | leaf t r =>
        simp only [RdHas] at hx
        obtain ⟨h1, h2, h3, h4, h5, F, E, hK, hh⟩ := hx
        have hall : nd.hasNulls = false → ∀ i, ((col nd.id).drop i).filter (·.isSome) = (col nd.id).drop i := by
          intro hz i
          rw [List.filter_eq_self]
          intro y hy
          have := h5 hz
          simp only [NullsFrom] at this
          have := List.map_inj_left.1 this y (List.mem_of_mem_drop hy)
          simpa using this
        have hh' : t.read.Holds c F E r (col nd.id) := by
          cases hz : nd.hasNulls with
          | true => rw [hz, if_pos rfl] at hh; exact hh
          | false => rw [hz, if_neg (by simp)] at hh; have := hall hz 0; rw [List.drop_zero] at this; rwa [this] at hh
        obtain ⟨r', g1, g2, g3⟩ := hh'.skip (t.skips c) m (by rw [hL]; exact hm)
        obtain ⟨g4, g5, g6⟩ := t.read.skipRows_keeps c m g1
        refine ⟨(RdNode.leaf t r' : RdNode (Rd n)), ?_, ?_⟩
        · show RdNode.skip (rdOps c fuel n) c fuel (.leaf t r) m = _
          simp only [RdNode.skip, g1, Res.ok_bind, Res.pure_eq]; rfl
        · simp only [RdHas]
          refine ⟨h1, h2, h3, g3.trans h4, fun hz => (h5 hz).drop m, F, E, by rw [g4, g5, g6]; exact hK, ?_⟩
          cases hz : nd.hasNulls with
          | true => simpa using g2
          | false => rw [if_neg (by simp), hall hz]; exact g2
      | struct kind p ix rs =>
        simp only [RdHas] at hx
        obtain ⟨hk, hpar, hflags, hrs⟩ := hx
        have key : ∀ (m : Nat) (col : Nat → List (Option GoVal)) (L : Nat) (p : Option BoolReader) (rs : List (Rd n)), (∀ j, (col j).length = L) → m ≤ L →
            FlagsHave (K.flags nd.id kind ix) c nd.hasNulls (col nd.id) p →
            List.Forall₂ (RdHas K c bo col n (if nd.hasNulls then some nd.id else none)) (cs.filter fun c => bo.isInclude c.node.id) rs →
            ∃ p' rs', structSkip (rdOps c fuel n) c m p rs = .ok (p', rs') ∧
              FlagsHave (K.flags nd.id kind ix) c nd.hasNulls ((col nd.id).drop m) p' ∧
              List.Forall₂ (RdHas K c bo (fun j => (col j).drop m) n (if nd.hasNulls then some nd.id else none)) (cs.filter fun c => bo.isInclude c.node.id) rs' := by
          intro m
          induction m with
          | zero => intro col L p rs _ _ h1 h2; exact ⟨p, rs, rfl, by simpa using h1, by simpa using h2⟩
          | succ m ihm =>
            intro col L p rs hL hm h1 h2
            have hstep : ∃ b p1 rs1, nextPresent c p = .ok (b, p1) ∧ (if b then skipAll (rdOps c fuel n) 1 rs else pure rs : Res (List (Rd n))) = .ok rs1 ∧
                FlagsHave (K.flags nd.id kind ix) c nd.hasNulls ((col nd.id).drop 1) p1 ∧
                List.Forall₂ (RdHas K c bo (fun j => (col j).drop 1) n (if nd.hasNulls then some nd.id else none)) (cs.filter fun c => bo.isInclude c.node.id) rs1 := by
              cases p with
              | none =>
                simp only [FlagsHave] at h1
                rw [h1, if_neg (by simp)] at h2 ⊢
                obtain ⟨rs1, e1, e2⟩ := skipAll_spec (c := c) (fuel := fuel) (k := 1) (Q := RdHas K c bo (fun j => (col j).drop 1) n none) h2 (fun d hd y hy => by
                  have hmem : d ∈ cs := (List.mem_filter.1 hd).1
                  exact ih d hmem n y col L 1 (fun e he => once e (by
                    simp only [Schema.columns, columnsAll_eq]
                    exact List.mem_cons_of_mem _ (List.mem_flatMap.2 ⟨d, hmem, he⟩))) hL (by omega) hy)
                exact ⟨true, none, rs1, rfl, e1, rfl, e2⟩
              | some q =>
                obtain ⟨f1, f2, F, q1, hK, hy, hF⟩ := h1
                rw [f1, if_pos rfl] at h2 ⊢
                cases hcol : col nd.id with
                | nil => have := hL nd.id; rw [hcol] at this; simp at this; omega
                | cons z zs =>
                  rw [hcol, List.map_cons] at hy
                  obtain ⟨q2, y1, y2⟩ := hy
                  have hon := once _ (self_mem_columns _) f1
                  simp only [Schema.children] at hon
                  refine ⟨z.isSome, some q2, ?_⟩
                  have hnp : nextPresent c (some q) = .ok (z.isSome, some q2) := by simp only [nextPresent, y1, Res.ok_bind, Res.pure_eq]
                  have hfl : FlagsHave (K.flags nd.id kind ix) c true ((z :: zs).drop 1) (some q2) :=
                    ⟨rfl, fun x hx => f2 x (by rw [hcol]; exact List.mem_of_mem_drop hx), F, q1, hK, y2, hF⟩
                  cases hz : z.isSome with
                  | true =>
                    obtain ⟨rs1, e1, e2⟩ := skipAll_spec (c := c) (fuel := fuel) (k := 1)
                      (Q := RdHas K c bo (fun j => (col j).drop 1) n (some nd.id)) h2 (fun d hd y hy => by
                        have hd := hon d (List.mem_filter.1 hd).1
                        exact (RdHas.skipUnder hd.1 hd.2 hy).1 (by rw [hcol]; simp [hz]))
                    exact ⟨rs1, by rw [hnp, hz], e1, hfl, e2⟩
                  | false =>
                    refine ⟨rs, by rw [hnp, hz], rfl, hfl, forall₂_imp_mem h2 fun d hd y hy => ?_⟩
                    have hd := hon d (List.mem_filter.1 hd).1
                    exact (RdHas.skipUnder (fuel := fuel) hd.1 hd.2 hy).2 (by rw [hcol]; simp [hz])
            obtain ⟨b, p1, rs1, g1, g2, g3, g4⟩ := hstep
            obtain ⟨p', rs', e1, e2, e3⟩ := ihm (fun j => (col j).drop 1) (L - 1) p1 rs1 (fun j => by simp [hL]) (by omega) g3 g4
            refine ⟨p', rs', ?_, ?_, ?_⟩
            · simp only [structSkip, g1, Res.ok_bind]
              cases b with
              | true => simp only [if_true] at g2 ⊢; rw [g2]; exact e1
              | false => simp only [Bool.false_eq_true, if_false] at g2 ⊢; rw [g2]; exact e1
            · simpa [List.drop_drop, Nat.add_comm] using e2
            · simpa [List.drop_drop, Nat.add_comm] using e3
        obtain ⟨p', rs', e1, e2, e3⟩ := key m col L p rs hL hm hflags hrs
        refine ⟨(RdNode.struct kind p' ix rs' : RdNode (Rd n)), ?_, ?_⟩
        · show RdNode.skip (rdOps c fuel n) c fuel (.struct kind p ix rs) m = _
          simp only [RdNode.skip, e1, Res.ok_bind, Res.pure_eq]; rfl
        · simp only [RdHas]
          exact ⟨hk, hpar, e2, e3⟩

end

/-! ### Columns -/

section
variable {c : Codec} {kind : CompKind} {size : Nat} {file : Bytes} {ps : List LaidStream} {contents : StreamKind → Bytes} {present : Option (List Bool)}

theorem LeafTag.Encodes.placed {t : LeafTag} {vals : List GoVal} (h : t.Encodes contents vals) (c : Codec) (kind : CompKind) (size : Nat) (ps : List LaidStream) :
    ∃ place, t.Placed c kind size ps contents vals place := by
  cases t with
  | byte => obtain ⟨xs, h1, h2⟩ := h; exact ⟨_, xs, h1, h2, rfl⟩
  | bool => obtain ⟨xs, h1, h2⟩ := h; exact ⟨_, xs, h1, h2, rfl⟩
  | int b => obtain ⟨blocks, h1, h2, h3⟩ := h; exact ⟨_, blocks, h1, h2, h3, rfl⟩
  | float d =>
    cases d with
    | false => exact h.elim
    | true => obtain ⟨xs, h1, h2⟩ := h; exact ⟨_, xs, h1, h2, rfl⟩
  | string => obtain ⟨xs, ⟨h1, h2, blocks, h3, h4, h5⟩, h6⟩ := h; exact ⟨_, xs, blocks, h1, h2, h3, h4, h5, h6, rfl⟩
  | binary => obtain ⟨xs, ⟨h1, h2, blocks, h3, h4, h5⟩, h6⟩ := h; exact ⟨_, xs, blocks, h1, h2, h3, h4, h5, h6, rfl⟩
  | date => obtain ⟨blocks, h1, h2, h3, h4⟩ := h; exact ⟨_, blocks, h1, h2, h3, h4, rfl⟩
  | timestamp => exact h.elim
  | decimal => exact h.elim

theorem LeafTag.Placed.encodes {t : LeafTag} {vals : List GoVal} {place : Nat → List Nat → Prop} (h : t.Placed c kind size ps contents vals place) :
    t.Encodes contents vals := by
  cases t with
  | byte => obtain ⟨xs, h1, h2, -⟩ := h; exact ⟨xs, h1, h2⟩
  | bool => obtain ⟨xs, h1, h2, -⟩ := h; exact ⟨xs, h1, h2⟩
  | int b => obtain ⟨blocks, h1, h2, h3, -⟩ := h; exact ⟨blocks, h1, h2, h3⟩
  | float d =>
    cases d with
    | false => exact h.elim
    | true => obtain ⟨xs, h1, h2, -⟩ := h; exact ⟨xs, h1, h2⟩
  | string => obtain ⟨xs, blocks, h1, h2, h3, h4, h5, h6, -⟩ := h; exact ⟨xs, ⟨h1, h2, blocks, h3, h4, h5⟩, h6⟩
  | binary => obtain ⟨xs, blocks, h1, h2, h3, h4, h5, h6, -⟩ := h; exact ⟨xs, ⟨h1, h2, blocks, h3, h4, h5⟩, h6⟩
  | date => obtain ⟨blocks, h1, h2, h3, h4, -⟩ := h; exact ⟨blocks, h1, h2, h3, h4⟩
  | timestamp => exact h.elim
  | decimal => exact h.elim

/-- The data streams of a column can be sought in. -/
theorem placed_data {t : LeafTag} (h : ColumnLaid c kind size file (ReaderTag.leaf t).streams ps contents present) (hreach : Reachable kind size ps)
    {vals : List GoVal} {place : Nat → List Nat → Prop} (hp : t.Placed c kind size ps contents vals place) :
    ∃ over, DataPlaced t.read c kind size file ps vals place over := by
  cases t with
  | byte => obtain ⟨xs, h1, rfl, rfl⟩ := hp; exact tinyint_placed h hreach xs h1
  | bool => obtain ⟨xs, h1, rfl, rfl⟩ := hp; exact boolean_placed h hreach xs h1
  | int b =>
    obtain ⟨blocks, h1, h2, rfl, rfl⟩ := hp
    have := ints_placed b h hreach blocks h1 h2
    simp only [intValue_read] at this
    exact this
  | float d =>
    cases d with
    | false => exact hp.elim
    | true => obtain ⟨xs, h1, rfl, rfl⟩ := hp; exact double_placed h hreach xs h1
  | string => obtain ⟨xs, blocks, h1, h2, h3, h4, h5, rfl, rfl⟩ := hp; exact string_placed h hreach xs h1 h2 blocks h3 h4 h5
  | binary => obtain ⟨xs, blocks, h1, h2, h3, h4, h5, rfl, rfl⟩ := hp; exact binary_placed h hreach xs h1 h2 blocks h3 h4 h5
  | date => obtain ⟨blocks, h1, h2, h3, rfl, rfl⟩ := hp; exact date_placed h hreach blocks h1 h2 h3
  | timestamp => exact hp.elim
  | decimal => exact hp.elim

theorem StoredAs.byNulls {k : TypeKind} {enc : Encoding} {t : LeafTag} (h : StoredAs k enc t) : t.read.byNulls = true ↔ k = .date := by
  cases h <;> simp [LeafTag.read, byteRead, boolRead, intRead, floatRead, stringRead, binaryRead, dateRead]

/-- Which readers go to the start of a stripe. -/
theorem StoredAs.seeksZero {k : TypeKind} {enc : Encoding} {t : LeafTag} (h : StoredAs k enc t) : t.read.seeksZero = true ↔ k ≠ .date := by
  cases h <;> simp [LeafTag.read, byteRead, boolRead, intRead, floatRead, stringRead, binaryRead, dateRead]

end

/-- A column as a stripe stores it can be opened, and its reader can be sent about. -/
theorem columnPlaced_opened {E : Env} {ro : ROpts} {file : Bytes} {s d : Schema} {enc : Encoding} {ps : List LaidStream}
    {col : Nat → List (Option GoVal)} {nulls : Nat → Bool} {goes : Nat → Nat → Prop} {stride : Nat} (hfit : ColsFit s col) (hd : d ∈ s.columns)
    (hreach : Reachable ro.kind ro.chunkSize ps) (hnulls : nulls d.node.id = d.node.hasNulls) {ix : Option (List (List Nat))}
    (h : ∃ contents present, (present.isSome = true → d.node.hasNulls = true) ∧
      ((d.node.kind = .struct ∧ enc = .direct ∧ ColumnLaid E.c ro.kind ro.chunkSize file [] ps contents present ∧ (d.node.hasNulls = true → Flagged present (col d.node.id)) ∧
        ∀ k row, goes k row → k = 0 ∧ row = 0 ∨ ∃ index, 1 ≤ k ∧ k ≤ index.length ∧ row = (k - 1) * stride ∧ ix = some index ∧
          IndexOf E.c ro.kind ro.chunkSize ps contents present (col d.node.id) stride (fun _ nums => nums = []) index) ∨
      ∃ t place, StoredAs d.node.kind enc t ∧ ColumnLaid E.c ro.kind ro.chunkSize file (ReaderTag.leaf t).streams ps contents present ∧
        (d.node.hasNulls = true → Flagged present (col d.node.id)) ∧ t.Placed E.c ro.kind ro.chunkSize ps contents ((col d.node.id).filterMap id) place ∧
        ∀ k row, goes k row → k = 0 ∧ row = 0 ∧ d.node.kind ≠ .date ∨ ∃ index, 1 ≤ k ∧ k ≤ index.length ∧ row = (k - 1) * stride ∧ ix = some index ∧
          IndexOf E.c ro.kind ro.chunkSize ps contents present (col d.node.id) stride place index))
    (hpr : d.node.hasNulls = true → ∃ p ∈ ps, p.kind = .present) {tag : ReaderTag} (htag : newReaderTag d.node.kind enc = .ok tag)
    {rs : List (Option FlatRd)}
    (hrs : rs[d.node.id]? = some (some ⟨tag, d.node.hasNulls, laid ro.kind ro.chunkSize file ps, ix⟩)) :
    (d.node.kind = .struct ∧ ∃ ss ix, rs[d.node.id]? = some (some ⟨.struct, d.node.hasNulls, ss, ix⟩) ∧
      FlagsHave ((seekKeep E.c nulls col goes).flags d.node.id ro.kind ix) E.c d.node.hasNulls (col d.node.id) (((⟨.struct, d.node.hasNulls, ss, ix⟩ : FlatRd).stream .present).map newBoolReader)) ∨
    ∃ (t : LeafTag) (ss : List (StreamKind × StreamReader)) (ix : Option (List (List Nat))) (r : ColReader t.ρ), d.node.kind ≠ .struct ∧
      rs[d.node.id]? = some (some ⟨.leaf t, d.node.hasNulls, ss, ix⟩) ∧ t.Replaces ∧
      t.read.openCol ro.kind d.node.hasNulls ss = some r ∧
      (∃ F E', (seekKeep E.c nulls col goes).leaf d.node.id t r.hasNulls r.kind ix F E' ∧ t.read.Holds E.c F E' r (if d.node.hasNulls then col d.node.id else (col d.node.id).filter (·.isSome))) ∧
      (r.present = none ↔ d.node.hasNulls = false) := by
  obtain ⟨contents, present, hpn, ⟨hk, rfl, hl, hfl, hgo⟩ | ⟨t, place, hs, hl, hfl, he, hgo⟩⟩ := h
  · have epr := columnStored_flags hl (by simp) hpn hfl hpr
    subst epr
    rw [hk] at htag
    have : tag = .struct := by simpa [newReaderTag] using htag.symm
    subst this
    refine .inl ⟨hk, _, ix, hrs, ?_⟩
    change FlagsHave _ _ _ _ ((Goorc.lookup (laid ro.kind ro.chunkSize file ps) .present).map newBoolReader)
    cases hn : d.node.hasNulls with
    | false =>
      rw [hn] at hl
      rw [(hl.lookup .present).2 (by simp)]
      rfl
    | true =>
      rw [hn, if_pos rfl] at hl hgo
      obtain ⟨F, hF⟩ := hl.flagSeeks hreach
      obtain ⟨q, q', g1, g2, g3⟩ := hF.opened
      rw [g1]
      refine ⟨rfl, hfit.blank d hd hk hn, F, q', ⟨hF.keeps, fun k row hg q hq => ?_⟩, g3, (Yields.keeps (fun r v r' h => hF.keeps r v r' h) g3).mp g2⟩
      rcases hgo k row hg with ⟨rfl, rfl⟩ | ⟨index, hk1, hk2, rfl, rfl, hi⟩
      · obtain ⟨r', r'', e1, e2, e3⟩ := hF.zero q hq
        refine ⟨r', r'', ?_, by simpa using e3, (Yields.keeps (fun r v r' h => hF.keeps r v r' h) e3).mp e2⟩
        have e1' : seekBool E.c q (0, 0, [0, 0]) = .ok r' := e1
        simp only [if_true, seekFlags, e1', Res.ok_bind, Res.pure_eq]
      · obtain ⟨entry, he⟩ : ∃ e, index[k - 1]? = some e := ⟨_, List.getElem?_eq_getElem (by omega)⟩
        obtain ⟨hle, pnums, dnums, rfl, hpp, rfl⟩ := hi _ _ he
        obtain ⟨pos, t2, t4⟩ := hF.place _ _ (by rw [List.length_map]; exact hle) hpp
        obtain ⟨r', r'', e1, e2, e3⟩ := t4 q hq
        refine ⟨r', r'', ?_, by rw [List.map_drop]; exact e3, (Yields.keeps (fun r v r' h => hF.keeps r v r' h) e3).mp e2⟩
        have hgp : getStridePositions (some index) k = .ok (pnums ++ []) := by
          simp only [getStridePositions]
          rw [if_neg (by omega), he]
        rw [if_neg (by omega)]
        simp only [hgp, Res.ok_bind, t2, seekFlags, e1, Res.pure_eq]
  · obtain ⟨h1, h2, h3, h4, h5⟩ := hs.reader
    have epr := columnStored_flags hl (by rw [← h4]; exact h5) hpn hfl hpr
    rw [h1] at htag
    injection htag with htag
    subst htag
    right
    obtain ⟨over, hE⟩ := placed_data hl hreach he
    have hsome : present.isSome = d.node.hasNulls := by rw [epr]; cases d.node.hasNulls <;> rfl
    have hflag : ∀ bs, present = some bs → bs = (col d.node.id).map (·.isSome) := by
      intro bs hb
      rw [epr] at hb
      cases hn : d.node.hasNulls with
      | false => rw [hn] at hb; simp at hb
      | true => rw [hn] at hb; simpa using hb.symm
    obtain ⟨F, hF⟩ : ∃ F, ∀ bs, present = some bs → FlagSeeks E.c ro.kind ro.chunkSize file ps contents bs F := by
      cases hp : present with
      | none => exact ⟨fun _ => True, by simp⟩
      | some bs =>
        rw [hp] at hl
        obtain ⟨F, hF⟩ := hl.flagSeeks hreach
        exact ⟨F, fun bs' hb => by cases hb; exact hF⟩
    rw [← h4] at hl
    have hstored : ∀ l, storedRows present l = if d.node.hasNulls then l else l.filter (·.isSome) := by
      intro l; simp only [storedRows, hsome]
    obtain ⟨r, o1, o2, o3, o5, o4⟩ := hl.opensAt (R := t.read) (hasNulls := d.node.hasNulls) h5 (by rw [hsome]; exact id) (col d.node.id) hflag hF hE
    rw [hstored] at o4
    rw [hsome] at o3
    refine ⟨t, _, ix, r, h2, hrs, h3, o1, ⟨F, over, ⟨fun hn => ?_, hE.keeps, fun k row hg y y0 y1 y2 y3 y4 y5 => ?_⟩, o4⟩, o3⟩
    · rw [hnulls, ← hsome] at hn
      obtain ⟨bs, hb⟩ := Option.isSome_iff_exists.1 hn
      exact (hF bs hb).keeps
    · rw [hnulls] at y3 ⊢
      have hi : k = 0 ∧ t.read.seeksZero = true ∨ ∃ index, 1 ≤ k ∧ k ≤ index.length ∧ y.index = some index ∧
          IndexOf E.c ro.kind ro.chunkSize ps contents present (col d.node.id) stride place index := by
        rcases hgo k row hg with ⟨a1, a2, a3⟩ | ⟨index, a1, a2, a3, a4, a5⟩
        · exact .inl ⟨a1, hs.seeksZero.2 a3⟩
        · exact .inr ⟨index, a1, a2, by rw [y2, a4], a5⟩
      have hrow : row = (k - 1) * stride := by
        rcases hgo k row hg with ⟨rfl, rfl, -⟩ | ⟨index, -, -, a3, -⟩
        · simp
        · exact a3
      obtain ⟨y', g1, g2, g3, g4, g6, g5⟩ := ReadKind.seekStride_goes (col d.node.id) hflag hF hE y (y1.trans o2) (by rw [hsome]; exact y3) y4 y5 (fun _ hp => (y0.trans o5).trans (y3.mp hp)) stride k hi
      rw [hstored, ← hrow] at g5
      rw [hsome] at g4
      exact ⟨y', g1, (ReadKind.seekStride_nulls g1).trans y0, g2.trans y1, g3.trans y2, g4, g5⟩

/-! ### Stripes -/

/-- Whether a column has nulls, as the reader knows it. -/
def typeNulls (types : List RdType) (id : Nat) : Bool := ((types.map (·.hasNulls))[id]?).getD false

theorem TypesOf.typeNulls {s : Schema} {types : List RdType} (ht : TypesOf s types) : ∀ d ∈ s.columns, typeNulls types d.node.id = d.node.hasNulls := by
  intro d hd
  rw [Goorc.typeNulls, ht.hasNulls d hd]; rfl

section
variable {E : Env} {ro : ROpts} {s : Schema} {file : Bytes} {info : StripeInfo} {rows : List Row} {f : StripeFooter} {index data : List StreamInfo}
  {bo : BatchOption} {types : List RdType}

/-- A stripe of any writer: its readers can be sent back to its start, if none of them is for dates. -/
theorem stripeLaid_rewinds (h : StripeLaid E ro.kind ro.chunkSize s file info rows f index data) (num : s.Numbered) (htab : s.Columnar)
    (once : s.NullsOnce) (hflags : f.Flags s) (hsel : bo.Selects s) (ht : TypesOf s types) (hfit : NullsFit s rows)
    (hreach : info.Reachable ro.kind ro.chunkSize s file data) (hdate : ∀ c ∈ s.columns, bo.isInclude c.node.id = true → c.node.kind ≠ .date) :
    ∃ x, newStripeReader E ro bo file types info = .ok ⟨types.map (·.hasNulls), some x, rows.length, 0⟩ ∧
      RdHas (seekKeep E.c (typeNulls types) (fun j => rows.map (Row.cell j)) fun k row => k = 0 ∧ row = 0) E.c bo (fun j => rows.map (Row.cell j)) types.length none s x := by
  obtain ⟨rs, rs', e1, f1, hcols⟩ := stripeLaid_readers (bo := bo) h num ht
  have hop : Opened (seekKeep E.c (typeNulls types) (fun j => rows.map (Row.cell j)) fun k row => k = 0 ∧ row = 0) E.c bo ro.kind (fun j => rows.map (Row.cell j)) s rs' := by
    intro d hd hinc
    obtain ⟨enc, tag, ix, -, htag, k1, g5, hpr, -⟩ := hcols d hd hinc
    refine .imp_right .inl (columnPlaced_opened (stride := 0) hfit.cols hd (hreach d hd) (ht.typeNulls d hd) ?_ (fun hn => hpr hn (hflags d hd hn)) htag k1)
    obtain ⟨contents, present, h1, ⟨a1, a2, a3, a4⟩ | ⟨t, a1, a2, a3, a4⟩⟩ := columnStored_seen num htab once hd hfit g5
    · exact ⟨contents, present, h1, .inl ⟨a1, a2, a3, a4, fun k row hg => .inl hg⟩⟩
    · obtain ⟨place, hp⟩ := a4.placed E.c ro.kind ro.chunkSize (columnStreams file d.node.id (startsFrom (info.offset + info.indexLength) data))
      exact ⟨contents, present, h1, .inr ⟨t, place, a1, a2, a3, hp, fun k row hg => .inl ⟨hg.1, hg.2, hdate d hd hinc⟩⟩⟩
  have := stripe_of_opened num htab hsel ht (stripeFrame_footer h.toStripeFrame) e1 f1 hop hfit.cols
  rwa [h.count] at this

/-- A stripe of any writer with row indexes: its readers can be sent to the row groups. -/
theorem stripeIndexed_roams {stride groups : Nat} (h : StripeLaid E ro.kind ro.chunkSize s file info rows f index data)
    (hi : StripeIndexed E ro.kind ro.chunkSize s file info rows f index data stride groups) (num : s.Numbered) (htab : s.Columnar)
    (once : s.NullsOnce) (hflags : f.Flags s) (hsel : bo.Selects s) (ht : TypesOf s types) (hfit : NullsFit s rows)
    (hreach : info.Reachable ro.kind ro.chunkSize s file data) {goes : Nat → Nat → Prop}
    (hgo : ∀ k row, goes k row → k ≤ groups ∧ row = (k - 1) * stride ∧ (k = 0 → ∀ c ∈ s.columns, bo.isInclude c.node.id = true → c.node.kind ≠ .date)) :
    ∃ x, newStripeReader E ro bo file types info = .ok ⟨types.map (·.hasNulls), some x, rows.length, 0⟩ ∧
      RdHas (seekKeep E.c (typeNulls types) (fun j => rows.map (Row.cell j)) goes) E.c bo (fun j => rows.map (Row.cell j)) types.length none s x := by
  obtain ⟨rs, rs', e1, f1, hcols⟩ := stripeLaid_readers (bo := bo) h num ht
  have hop : Opened (seekKeep E.c (typeNulls types) (fun j => rows.map (Row.cell j)) goes) E.c bo ro.kind (fun j => rows.map (Row.cell j)) s rs' := by
    intro d hd hinc
    obtain ⟨enc, tag, ix, henc, htag, k1, -, hpr, hix⟩ := hcols d hd hinc
    obtain ⟨enc', p, flat, entries, henc', hp, hpc, hst, hrd, hlen, contents, present, h1, h2⟩ := hi.each d hd
    rw [henc] at henc'
    cases henc'
    have hixe := hix hi.once p hp hpc flat entries hst hrd
    refine .imp_right .inl (columnPlaced_opened (stride := stride) hfit.cols hd (hreach d hd) (ht.typeNulls d hd) ?_ (fun hn => hpr hn (hflags d hd hn)) htag k1)
    rcases h2 with ⟨a1, a2, a3, a4, a5⟩ | ⟨t, place, a1, a2, a3, a4, a5⟩
    · refine ⟨contents, present, h1, .inl ⟨a1, a2, a3, fun hn => ?_, fun k row hg => ?_⟩⟩
      · have := a4 hn
        rwa [seenRows_nullable num htab once hd hn] at this
      · obtain ⟨b1, b2, b3⟩ := hgo k row hg
        by_cases hk : k = 0
        · exact .inl ⟨hk, by rw [b2, hk]; simp⟩
        · exact .inr ⟨entries, by omega, by rw [hlen]; exact b1, b2, hixe, a5⟩
    · refine ⟨contents, present, h1, .inr ⟨t, place, a1, a2, fun hn => ?_, ?_, fun k row hg => ?_⟩⟩
      · rwa [seenRows_nullable num htab once hd hn] at a3
      · cases hn : d.node.hasNulls with
        | true => rwa [seenRows_nullable num htab once hd hn] at a4
        | false => rwa [seenRows_values num htab once hd a1.reader.2.1 hn hfit] at a4
      · obtain ⟨b1, b2, b3⟩ := hgo k row hg
        by_cases hk : k = 0
        · exact .inl ⟨hk, by rw [b2, hk]; simp, b3 hk d hd hinc⟩
        · exact .inr ⟨entries, by omega, by rw [hlen]; exact b1, b2, hixe, a5⟩
  have := stripe_of_opened num htab hsel ht (stripeFrame_footer h.toStripeFrame) e1 f1 hop hfit.cols
  rwa [h.count] at this

/-- What a stripe's readers hold, in rows of the chosen columns. -/
theorem RdHas.rowsLeft {K : Keep} {c : Codec} {n : Nat} {x : Rd n} (hinc : bo.isInclude s.node.id = true) (m : Nat)
    (h : RdHas K c bo (fun j => (rows.map (Row.cell j)).drop m) n none s x) :
    RowsLeft K c bo s n x ((rows.map (Row.only (s.leaves bo))).drop m) := by
  refine ⟨fun r hr => ?_, RdHas.congr s _ none x hinc (fun j hj => ?_) (fun p hp => by simp at hp) h⟩
  · obtain ⟨r', -, rfl⟩ := List.mem_map.1 (List.mem_of_mem_drop hr)
    simp [Row.only, Function.comp_def]
  · rw [← List.map_drop, ← List.map_drop, List.map_map]
    apply List.map_congr_left
    intro r _
    simp [Row.cell_only hj]

/-- Calls on the readers of a stripe, in any state. -/
theorem RdHas.roams {c : Codec} {fuel : Nat} {nulls : Nat → Bool} {goes : Nat → Nat → Prop} {row : Nat → Nat} {allowed : Nat → Prop} {n : Nat}
    (hinc : bo.isInclude s.node.id = true) (once : s.NullsOnce) (hnulls : ∀ d ∈ s.columns, nulls d.node.id = d.node.hasNulls)
    (hgo : ∀ k, allowed k → goes k (row k)) (x0 : Rd n)
    (h0 : RdHas (seekKeep c nulls (fun j => rows.map (Row.cell j)) goes) c bo (fun j => rows.map (Row.cell j)) n none s x0)
    (ops : List StripeOp) : ∀ (p : Nat) (x : Rd n), StaysIn bo s row allowed rows.length p ops →
    RdHas (seekKeep c nulls (fun j => rows.map (Row.cell j)) goes) c bo (fun j => (rows.map (Row.cell j)).drop p) n none s x →
    ∃ vs, (rdOps c fuel n).roam x ops = .ok vs ∧ vs.map Vec.tableRows = visited row (rows.map (Row.only (s.leaves bo))) p ops := by
  induction ops with
  | nil => intro p x _ _; exact ⟨[], rfl, rfl⟩
  | cons op ops ih =>
    intro p x hst hx
    cases op with
    | batch v =>
      obtain ⟨⟨B, len, hv⟩, hle, hst⟩ := hst
      obtain ⟨hlen, hcap⟩ := ShapeIn.len_cap s v hv
      have hB : len ≤ B := by
        have : ∀ (s : Schema) (u : Bool) (v : Vec), ShapeIn bo B len u s v → len ≤ B := by
          intro s
          induction s using Schema.ind with
          | h nd cs ih =>
            intro u v hv
            cases hv with
            | leaf _ _ _ _ _ _ fits _ => exact fits
            | optional _ _ _ _ _ _ _ _ _ fits _ _ _ => exact fits
            | struct _ _ vs _ _ ne below =>
              generalize hf : cs.filter (fun c => bo.isInclude c.node.id) = fs at below ne
              cases below with
              | nil => exact absurd rfl ne
              | cons h hs =>
                rename_i a _ _ _
                have hm : a ∈ cs := (List.mem_filter.1 (hf ▸ List.mem_cons_self : a ∈ cs.filter _)).1
                exact ih a hm _ _ h
        exact this s _ v hv
      rw [hlen] at hle
      have hx' : RdHas (seekKeep c nulls (fun j => rows.map (Row.cell j)) goes) c bo
          (fun j => ((rows.map (Row.cell j)).drop p).take len ++ (rows.map (Row.cell j)).drop (p + len)) n none s x := by
        have e : (fun j => ((rows.map (Row.cell j)).drop p).take len ++ (rows.map (Row.cell j)).drop (p + len)) = fun j => (rows.map (Row.cell j)).drop p := by
          funext j
          rw [← List.drop_drop, List.take_append_drop]
        rw [e]; exact hx
      obtain ⟨v', x', g1, g2, g3, g4⟩ := RdHas.next (fuel := fuel) (fun j => ((rows.map (Row.cell j)).drop p).take len)
        (fun j => (rows.map (Row.cell j)).drop (p + len)) len (fun j => by simp; omega) hB s n none x v hx' hv hinc (fun p hp => by simp at hp)
      obtain ⟨vs, e1, e2⟩ := ih (p + v.len) x' hst (by rw [hlen]; exact g2)
      obtain ⟨h3, h4⟩ := ShapeIn.len_cap s v' g3
      refine ⟨v' :: vs, by simp only [RdOps.roam, g1, Res.ok_bind, e1, Res.pure_eq], ?_⟩
      simp only [List.map_cons, visited, e2, List.cons.injEq, and_true]
      apply List.ext_getElem
      · simp [Vec.tableRows, h3, hlen]; omega
      · intro i hi hi'
        have hi1 : i < len := by simpa [Vec.tableRows, h3] using hi
        simp only [Vec.tableRows, List.getElem_map, List.getElem_range, g4 i hi1, rowAt, List.getElem_take, List.getElem_drop]
        simp only [Row.only]
        apply List.map_congr_left
        intro j hj
        have : (((rows.map (Row.cell j)).drop p).take len)[i]? = some (Row.cell j (rows[p + i]'(by omega))) := by
          rw [List.getElem?_take_of_lt hi1, List.getElem?_drop, List.getElem?_map, List.getElem?_eq_getElem (by omega)]; rfl
        rw [this]; rfl
    | skip m =>
      obtain ⟨hle, hst⟩ := hst
      obtain ⟨x', g1, g2⟩ := RdHas.skip (fuel := fuel) s n x _ (rows.length - p) m once (fun j => by simp) (by omega) hx
      simp only [List.drop_drop] at g2
      obtain ⟨vs, e1, e2⟩ := ih (p + m) x' hst g2
      exact ⟨vs, by simp only [RdOps.roam, g1, Res.ok_bind, e1], e2⟩
    | seek k =>
      obtain ⟨hk, hst⟩ := hst
      obtain ⟨x', g1, g2⟩ := RdHas.seek (fuel := fuel) (hgo k hk) s n none x x0 _ hnulls h0 hx
      obtain ⟨vs, e1, e2⟩ := ih (row k) x' hst g2
      exact ⟨vs, by simp only [RdOps.roam, g1, Res.ok_bind, e1], e2⟩

end

/-! ### Dates -/

/-- Column `j` has dates. -/
def dateKeep (j : Nat) : Keep := ⟨fun id t _ _ _ _ _ => id = j → t = .date, fun _ _ _ _ => True, False⟩

theorem mem_leavesAll {bo : BatchOption} {j : Nat} : ∀ {cs : List Schema}, j ∈ leavesAll bo cs → ∃ c ∈ cs, j ∈ c.leaves bo
  | [], h => by simp [leavesAll] at h
  | c :: cs, h => by
    simp only [leavesAll, List.mem_append] at h
    rcases h with h | h
    · exact ⟨c, by simp, h⟩
    · obtain ⟨d, h1, h2⟩ := mem_leavesAll h
      exact ⟨d, by simp [h1], h2⟩

/-- Readers of which one is for dates cannot be sent to their beginning. -/
theorem RdHas.dates {c : Codec} {bo : BatchOption} {j fuel : Nat} {col : Nat → List (Option GoVal)} (s : Schema) : ∀ n par (x : Rd n), j ∈ s.leaves bo →
    (∀ d ∈ s.columns, d.node.id = j → d.node.kind ≠ .struct) → RdHas (dateKeep j) c bo col n par s x → ∀ x', (rdOps c fuel n).seekStride x 0 ≠ .ok x' := by
  induction s using Schema.ind with
  | h nd cs ih =>
    intro n par x hj hkind hx x' hseek
    match n, x with
    | n + 1, x =>
      change RdNode (Rd n) at x
      cases x with
      | dict r => simp [RdHas] at hx
      | list k p l i y => simp [RdHas] at hx
      | map k p l i y z => simp [RdHas] at hx
      | bare t r => simp only [RdHas, dateKeep] at hx; exact hx.2.2.2.2.2.1.elim
      | leaf t r =>
        simp only [RdHas] at hx
        obtain ⟨hk, rfl, ht, hp, hfrom, F, E, hK, hh⟩ := hx
        simp only [Schema.leaves, leavesAll, List.append_nil] at hj
        have hid : nd.id = j := by
          split at hj
          · split at hj
            · exact (List.mem_singleton.1 hj).symm
            · simp at hj
          · simp at hj
        have htag : t = .date := hK hid
        subst htag
        have : RdNode.seekStride (rdOps c fuel n) c fuel (.leaf .date r) 0 = .err .other := by
          simp only [RdNode.seekStride]
          have := date_seek_zero_fails c r
          change (dateRead.seekStride c r 0 >>= _) = _
          rw [this]; rfl
        rw [show (rdOps c fuel (n + 1)).seekStride (RdNode.leaf .date r : RdNode (Rd n)) 0 = .err .other from this] at hseek
        cases hseek
      | struct kind p ix rs =>
        simp only [RdHas] at hx
        obtain ⟨hk, hpar, hflags, hrs⟩ := hx
        have hne : nd.id ≠ j := fun h => hkind _ (self_mem_columns _) h hk
        have hin : j ∈ leavesAll bo cs := by
          simp only [Schema.leaves] at hj
          split at hj
          · rcases List.mem_append.1 hj with h | h
            · split at h
              · simp only [List.mem_singleton] at h; exact absurd h.symm hne
              · simp at h
            · exact h
          · simp at hj
        obtain ⟨d, hd, hjd⟩ := mem_leavesAll hin
        have hinc : bo.isInclude d.node.id = true := by
          obtain ⟨m, ms⟩ := d
          simp only [Schema.leaves] at hjd
          split at hjd
          · assumption
          · simp at hjd
        have hs : RdNode.seekStride (rdOps c fuel n) c fuel (.struct kind p ix rs) 0 = .ok x' := hseek
        clear hseek
        simp only [RdNode.seekStride] at hs
        obtain ⟨p', h1, h2⟩ := Res.bind_ok_inv hs
        obtain ⟨rs', h3, -⟩ := Res.bind_ok_inv h2
        clear hs h1 h2
        revert rs'
        have hfail : ∀ rs', seekAll (rdOps c fuel n) 0 rs ≠ .ok rs' := by
          have hmem : d ∈ cs.filter fun c => bo.isInclude c.node.id := List.mem_filter.2 ⟨hd, hinc⟩
          generalize cs.filter (fun c => bo.isInclude c.node.id) = fs at hrs hmem
          induction hrs with
          | nil => simp at hmem
          | cons h hrs ih' =>
            intro rs' hall
            simp only [seekAll] at hall
            obtain ⟨y, h1, h2⟩ := Res.bind_ok_inv hall
            obtain ⟨ys, h3, -⟩ := Res.bind_ok_inv h2
            rcases List.mem_cons.1 hmem with rfl | hm
            · exact ih d hd n _ _ hjd (fun e he => hkind e (by
                simp only [Schema.columns, columnsAll_eq]
                exact List.mem_cons_of_mem _ (List.mem_flatMap.2 ⟨d, hd, he⟩))) h y h1
            · exact ih' hm _ h3
        exact hfail

end Goorc
