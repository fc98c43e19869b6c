import Verif.Proofs.LocalityTree
import Verif.Proofs.Projection
/-
Opening the same columns of two files that agree on the streams of these columns.
-/
namespace Goorc

variable {sk : Prop}

/-- Readers before they have their children, with related streams. -/
structure FlatNear (sk : Prop) (r r' : FlatRd) : Prop where
  tag : r.tag = r'.tag
  hasNulls : r.hasNulls = r'.hasNulls
  index : r.index = r'.index
  streams : List.Forall₂ (fun a b => a.1 = b.1 ∧ Near sk a.2 b.2) r.streams r'.streams

theorem readAt_span {f g : Bytes} {start n : Nat} (h : span g start n = span f start n) : readAt g start n = readAt f start n := by
  unfold readAt
  have h0 : ¬((start : Int) < 0) := by omega
  rw [if_neg h0, if_neg h0, Int.toNat_natCast]
  have e : ∀ x : Bytes, n ≤ x.length - start ↔ n ≤ (span x start n).length := by
    intro x
    unfold span
    rw [List.length_take, List.length_drop]
    omega
  have h1 : n ≤ g.length - start ↔ n ≤ f.length - start := by rw [e g, e f, h]
  by_cases hn : n ≤ f.length - start
  · rw [if_pos hn, if_pos (h1.mpr hn)]
    exact congrArg Res.ok h
  · rw [if_neg hn, if_neg (fun q => hn (h1.mp q))]

theorem forall₂_append {α β : Type} {P : α → β → Prop} : ∀ {l : List α} {l' : List β} {m : List α} {m' : List β}, List.Forall₂ P l l' →
    List.Forall₂ P m m' → List.Forall₂ P (l ++ m) (l' ++ m')
  | [], _, _, _, h, h' => by cases h; exact h'
  | a :: l, _, _, _, h, h' => by
    cases h with
    | cons h hs => exact List.Forall₂.cons h (forall₂_append hs h')

theorem forall₂_reverse' {α β : Type} {P : α → β → Prop} : ∀ {l : List α} {l' : List β}, List.Forall₂ P l l' → List.Forall₂ P l.reverse l'.reverse
  | [], _, h => by cases h; exact List.Forall₂.nil
  | a :: l, _, h => by
    cases h with
    | cons h hs =>
      rw [List.reverse_cons, List.reverse_cons]
      exact forall₂_append (forall₂_reverse' hs) (List.Forall₂.cons h List.Forall₂.nil)

/-- What the streams of a stripe have to be: `f` and `g` agree on them. -/
structure StreamAgrees (sk : Prop) (ro : ROpts) (f g : Bytes) (s : StreamInfo) (start : Nat) : Prop where
  same : span g start s.length = span f start s.length
  whole : s.kind ≠ .rowIndex → ro.kind = .none ∨ Chunked (span f start s.length)
  seeks : sk → s.kind ≠ .rowIndex → ro.kind = .none ∨ s.length ≠ 0

theorem streams_like (E : Env) (ro : ROpts) (f g : Bytes) : ∀ (ss : List StreamInfo) (i d : Nat) {rs rs' : List (Option FlatRd)},
    List.Forall₂ (OptLike (FlatNear sk)) rs rs' →
    (∀ s ∈ streamStarts i d ss, ∀ r, rs[s.1.column]? = some (some r) → StreamAgrees sk ro f g s.1 s.2) →
    Res.Alike (List.Forall₂ (OptLike (FlatNear sk))) (initStreams E ro f i d ss rs) (initStreams E ro g i d ss rs')
  | [], i, d, rs, rs', h, _ => h
  | s :: ss, i, d, rs, rs', h, hs => by
    rw [initStreams, initStreams]
    have hc := forall₂_at s.column h
    have keep : ∀ (r : FlatRd) (rest : List (StreamInfo × Nat)), rs[s.column]? = some (some r) →
        (∀ x ∈ rest, ∀ q, rs[x.1.column]? = some (some q) → StreamAgrees sk ro f g x.1 x.2) → ∀ q : FlatRd,
        ∀ x ∈ rest, ∀ q', (rs.set s.column (some q))[x.1.column]? = some (some q') → StreamAgrees sk ro f g x.1 x.2 := by
      intro r rest hr hrest q x hx q' hq'
      by_cases e : s.column = x.1.column
      · exact hrest x hx r (e ▸ hr)
      · rw [List.getElem?_set_ne e] at hq'
        exact hrest x hx q' hq'
    cases e : rs[s.column]? <;> cases e' : rs'[s.column]? <;> rw [e, e'] at hc <;> first | exact hc.elim | skip
    · trivial
    · rename_i a a'
      have hc : OptLike (FlatNear sk) a a' := hc
      cases a with
      | none =>
        cases a' with
        | some _ => exact hc.elim
        | none =>
          dsimp only
          split
          · rename_i hk
            refine streams_like E ro f g ss _ _ h fun x hx r hr => hs x ?_ r hr
            rw [streamStarts, if_pos hk]
            exact List.mem_cons_of_mem _ hx
          · rename_i hk
            refine streams_like E ro f g ss _ _ h fun x hx r hr => hs x ?_ r hr
            rw [streamStarts, if_neg hk]
            exact List.mem_cons_of_mem _ hx
      | some a =>
        cases a' with
        | none => exact hc.elim
        | some a' =>
          have hc : FlatNear sk a a' := hc
          dsimp only
          by_cases hk : s.kind = .rowIndex
          · rw [if_pos hk, if_pos hk]
            have hst : streamStarts i d (s :: ss) = (s, i) :: streamStarts (i + s.length) d ss := by rw [streamStarts, if_pos hk]
            rw [hst] at hs
            have hh := hs (s, i) (List.mem_cons_self ..) a e
            have h1 : Res.Alike (FlatNear sk) (initIndex E ro f i s.length a) (initIndex E ro g i s.length a') := by
              unfold initIndex
              rw [readAt_span hh.same]
              refine (Res.Alike.refl (R := (· = ·)) (fun _ => rfl) _).bind ?_
              rintro b _ rfl
              have key : ∀ o : Res Bytes, Res.Alike (FlatNear sk)
                  (o >>= fun b => do let i ← unmarshal E.P.readIndex b; pure { a with index := some i })
                  (o >>= fun b => do let i ← unmarshal E.P.readIndex b; pure { a' with index := some i }) := by
                intro o
                refine (Res.Alike.refl (R := (· = ·)) (fun _ => rfl) _).bind ?_
                rintro b _ rfl
                refine (Res.Alike.refl (R := (· = ·)) (fun _ => rfl) _).bind ?_
                rintro x _ rfl
                exact ⟨hc.tag, hc.hasNulls, rfl, hc.streams⟩
              split
              · exact key _
              · exact key _
            refine h1.bind ?_
            intro q q' hq
            exact streams_like E ro f g ss _ _ (forall₂_update (P := OptLike (FlatNear sk)) (a := some q) (b := some q') hq s.column h)
              (keep a _ e (fun x hx => hs x (List.mem_cons_of_mem _ hx)) q)
          · rw [if_neg hk, if_neg hk]
            have hst : streamStarts i d (s :: ss) = (s, d) :: streamStarts i (d + s.length) ss := by rw [streamStarts, if_neg hk]
            rw [hst] at hs
            have hh := hs (s, d) (List.mem_cons_self ..) a e
            have h1 : Res.Alike (FlatNear sk) (initStream ro f d s a) (initStream ro g d s a') := by
              unfold initStream
              rw [hc.tag, hc.hasNulls]
              split
              · refine ⟨rfl, rfl, hc.index, forall₂_append hc.streams (List.Forall₂.cons ⟨rfl, ?_⟩ List.Forall₂.nil)⟩
                refine ⟨rfl, rfl, hh.same, fun _ => Nat.zero_le _, fun hn => ?_, fun q => ?_⟩
                · exact ⟨(hh.whole hk).resolve_left hn, (hh.whole hk).resolve_left hn⟩
                · exact (hh.seeks q hk).imp id Nat.pos_of_ne_zero
              · exact rfl
            refine h1.bind ?_
            intro q q' hq
            exact streams_like E ro f g ss _ _ (forall₂_update (P := OptLike (FlatNear sk)) (a := some q) (b := some q') hq s.column h)
              (keep a _ e (fun x hx => hs x (List.mem_cons_of_mem _ hx)) q)

theorem find_like (k : StreamKind) : ∀ {l l' : List (StreamKind × StreamReader)}, List.Forall₂ (fun a b => a.1 = b.1 ∧ Near sk a.2 b.2) l l' →
    OptLike (Near sk) ((l.find? fun s => s.1 = k).map (·.2)) ((l'.find? fun s => s.1 = k).map (·.2))
  | [], _, h => by cases h; trivial
  | a :: l, _, h => by
    cases h with
    | @cons _ b _ l' h hs =>
      rw [List.find?_cons, List.find?_cons, h.1]
      by_cases hk : b.1 = k
      · simp only [hk, decide_true]
        exact h.2
      · simp only [hk, decide_false]
        exact find_like k hs

theorem stream_like {r r' : FlatRd} (h : FlatNear sk r r') (k : StreamKind) : OptLike (Near sk) (r.stream k) (r'.stream k) :=
  find_like k (forall₂_reverse' h.streams)

theorem all_like {p : StreamKind → Bool} : ∀ {l l' : List (StreamKind × StreamReader)}, List.Forall₂ (fun a b => a.1 = b.1 ∧ Near sk a.2 b.2) l l' →
    (l.all fun s => p s.1) = (l'.all fun s => p s.1)
  | [], _, h => by cases h; rfl
  | a :: l, _, h => by
    cases h with
    | cons h hs => rw [List.all_cons, List.all_cons, h.1, all_like hs]

theorem openLeaf_like {ρ χ : Type} {mk : ColReader ρ → RdNode χ} {tag : Option LeafTag} {K : ReadKind ρ} {R : ρ → ρ → Prop} {S : χ → χ → Prop}
    (hK : K.Local sk R) (hmk : ∀ x x', ColNear sk R x x' → NodeNear sk S (mk x) (mk x')) (kind : CompKind) {r r' : FlatRd} (h : FlatNear sk r r') :
    NodeNear sk S (openLeaf mk tag K kind r) (openLeaf mk tag K kind r') := by
  have hb : NodeNear sk S (.bare tag ⟨r.hasNulls, kind, (r.stream .present).map newBoolReader, (), r.index⟩)
      (.bare tag ⟨r'.hasNulls, kind, (r'.stream .present).map newBoolReader, (), r'.index⟩) :=
    .bare ⟨h.hasNulls, rfl, h.index, (stream_like h .present).map fun _ _ g => bool_new g, trivial⟩
  unfold openLeaf ReadKind.openCol
  rw [← h.hasNulls] at hb ⊢
  have hall := all_like (p := K.accepts r.hasNulls) h.streams
  rw [hall]
  by_cases ha : (r'.streams.all fun s => K.accepts r.hasNulls s.1) = true
  · rw [if_pos ha, if_pos ha]
    have hi := hK.init r.stream r'.stream (stream_like h)
    have e1 : (fun k => (r.streams.reverse.find? fun s => decide (s.1 = k)).map fun s => s.2) = r.stream := rfl
    have e2 : (fun k => (r'.streams.reverse.find? fun s => decide (s.1 = k)).map fun s => s.2) = r'.stream := rfl
    rw [e1, e2]
    revert hi
    generalize K.init r.stream = a
    generalize K.init r'.stream = a'
    intro hi
    cases a <;> cases a' <;> first | exact hi.elim | skip
    · exact hb
    · exact hmk _ _ ⟨rfl, rfl, h.index, (stream_like h .present).map fun _ _ g => bool_new g, hi⟩
  · rw [if_neg ha, if_neg ha]
    exact hb

theorem trees_like {α : Type} {R : α → α → Prop} {f g : Nat → Res α} (h : ∀ i, Res.Alike R (f i) (g i)) : ∀ is : List Nat,
    Res.Alike (List.Forall₂ R) (treesOf f is) (treesOf g is)
  | [] => List.Forall₂.nil
  | i :: is => by
    refine (h i).bind ?_
    intro x x' hx
    exact alike_map (trees_like h is) fun _ _ g => List.Forall₂.cons hx g

theorem treeOn_like {α : Type} {R : α → α → Prop} {f g : Nat → Res α} (h : ∀ i, Res.Alike R (f i) (g i)) : ∀ i : Option Nat,
    Res.Alike (OptLike R) (treeOn f i) (treeOn g i)
  | none => trivial
  | some i => alike_map (h i) fun _ _ g => g

theorem tree_like (bo : BatchOption) (ro : ROpts) (types : List RdType) {rs rs' : List (Option FlatRd)}
    (h : List.Forall₂ (OptLike (FlatNear sk)) rs rs') : ∀ (n : Nat) (i : Nat),
    Res.Alike (TreeNear sk n) (treeOf bo ro types rs n i) (treeOf bo ro types rs' n i)
  | 0, i => trivial
  | n + 1, i => by
    rw [treeOf, treeOf]
    have hc := forall₂_at i h
    cases types[i]? with
    | none => trivial
    | some t =>
      cases e : rs[i]? <;> cases e' : rs'[i]? <;> rw [e, e'] at hc <;> first | exact hc.elim | skip
      · trivial
      · rename_i a a'
        have hc : OptLike (FlatNear sk) a a' := hc
        rename_i hcc
        clear hcc
        cases a <;> cases a' <;> first | exact hc.elim | skip
        · trivial
        · rename_i r r'
          have hc : FlatNear sk r r' := hc
          dsimp only
          rw [hc.tag]
          have hp := (stream_like hc .present).map (S := BoolNear sk) (f := newBoolReader) (g := newBoolReader) fun _ _ g => bool_new g
          have hl := (stream_like hc .length).map (S := IntNear sk) (f := newIntReader false) (g := newIntReader false) fun _ _ g => int_new false g
          have ih := tree_like bo ro types h n
          cases r'.tag with
          | leaf l => exact openLeaf_like (leaf_local l) (fun _ _ g => .leaf g) ro.kind hc
          | dict => exact openLeaf_like (dict_local 0) (fun _ _ g => .dict g) ro.kind hc
          | struct =>
            dsimp only
            rw [hc.index]
            exact alike_map (trees_like ih _) fun _ _ g => NodeNear.struct hp g
          | list =>
            dsimp only
            rw [hc.index]
            exact alike_map (treeOn_like ih _) fun _ _ g => NodeNear.list hp hl g
          | map =>
            dsimp only
            rw [hc.index]
            refine (treeOn_like ih _).bind ?_
            intro x x' hx
            exact alike_map (treeOn_like ih _) fun _ _ g => NodeNear.map hp hl hx g

theorem link_like (bo : BatchOption) : ∀ (types : List RdType) {rs rs' : List (Option FlatRd)}, List.Forall₂ (OptLike (FlatNear sk)) rs rs' →
    linkAll bo types rs = linkAll bo types rs'
  | [], rs, rs', h => by rw [linkAll.eq_def, linkAll.eq_def]
  | t :: ts, rs, rs', h => by
    cases h with
    | nil => rfl
    | @cons a b l l' h hs =>
      rw [linkAll, linkAll, link_like bo ts hs]
      have e : ∀ (cs : List Nat) (i : Nat), linkChildren bo t.kind a i cs = linkChildren bo t.kind b i cs := by
        intro cs
        induction cs with
        | nil => intro i; rfl
        | cons c cs ih =>
          intro i
          rw [linkChildren, linkChildren, ih]
          have : linkChild t.kind a i = linkChild t.kind b i := by
            unfold linkChild
            cases a <;> cases b <;> first | exact h.elim | rfl
          rw [this]
      rw [e]

/-- Opening a stripe. -/
theorem stripe_like (E : Env) (ro : ROpts) (bo : BatchOption) (f g : Bytes) (types : List RdType) (hid : ∀ (i : Nat) t, types[i]? = some t → t.id = i)
    (info : StripeInfo) (hf : readStripeFooter E ro g info = readStripeFooter E ro f info)
    (hs : ∀ foot, readStripeFooter E ro f info = .ok foot → ∀ s ∈ streamStarts info.offset (info.offset + info.indexLength) foot.streams,
      bo.isInclude s.1.column = true → StreamAgrees sk ro f g s.1 s.2) :
    Res.Alike (StripeNear (TreeNear sk types.length)) (newStripeReader E ro bo f types info) (newStripeReader E ro bo g types info) := by
  unfold newStripeReader
  rw [hf]
  cases hx : readStripeFooter E ro f info with
  | err e => exact rfl
  | panic => trivial
  | hang => trivial
  | ok foot =>
    have h1 : Res.Alike (OptLike (TreeNear sk types.length)) (initStripe E ro bo f types info foot) (initStripe E ro bo g types info foot) := by
      unfold initStripe
      cases hi : initColumns bo foot.columns types with
      | err e => exact rfl
      | panic => trivial
      | hang => trivial
      | ok rs =>
        simp only [Res.ok_bind]
        obtain ⟨rs', hr1, hr2, hr3, hr4⟩ := initColumns_keep (o₁ := bo) (o₂ := bo) (fun _ h => h) foot.columns types rs hi
        rw [hi] at hr1
        cases hr1
        have hne : ∀ x ∈ rs, ∀ q, x = some q → q.streams = [] := by
          have : ∀ (types : List RdType) (rs : List (Option FlatRd)), initColumns bo foot.columns types = .ok rs → ∀ x ∈ rs, ∀ q, x = some q → q.streams = [] := by
            intro types
            induction types with
            | nil => intro rs h; rw [initColumns] at h; cases h; simp
            | cons t ts ih =>
              intro rs h
              rw [initColumns] at h
              obtain ⟨r, g1, h⟩ := Res.bind_ok_inv h
              obtain ⟨rest, g2, h⟩ := Res.bind_ok_inv h
              cases h
              intro x hx q hq
              rcases List.mem_cons.mp hx with rfl | hx
              · subst hq
                split at g1
                · split at g1
                  · cases g1
                  · obtain ⟨tag, -, g1⟩ := Res.bind_ok_inv g1
                    cases g1
                    rfl
                · cases g1
              · exact ih rest g2 x hx q hq
          exact this types rs hi
        have hrefl : List.Forall₂ (OptLike (FlatNear sk)) rs rs := by
          clear hr2 hr3 hr4 hi
          induction rs with
          | nil => exact List.Forall₂.nil
          | cons a l ih =>
            refine List.Forall₂.cons ?_ (ih fun x hx => hne x (List.mem_cons_of_mem _ hx))
            cases a with
            | none => trivial
            | some a =>
              refine ⟨rfl, rfl, rfl, ?_⟩
              rw [hne _ (List.mem_cons_self ..) a rfl]
              exact List.Forall₂.nil
        refine (streams_like E ro f g foot.streams _ _ hrefl ?_).bind ?_
        · intro s hsm r hr
          refine hs foot hx s hsm ?_
          have hlt : s.1.column < types.length := by
            rw [← hr3]
            exact (List.getElem?_eq_some_iff.mp hr).1
          obtain ⟨t, ht⟩ : ∃ t, types[s.1.column]? = some t := ⟨_, List.getElem?_eq_getElem hlt⟩
          have h4 := hr4 _ t (some r) ht hr
          rw [hr] at h4
          rw [hid _ t ht] at h4
          cases hb : bo.isInclude s.1.column with
          | true => rfl
          | false => rw [hb] at h4; cases h4
        · intro q q' hq
          rw [link_like bo types hq]
          refine (Res.Alike.refl (R := (· = ·)) (fun _ => rfl) _).bind ?_
          rintro x _ rfl
          exact treeOn_like (tree_like bo ro types hq types.length) _
    exact alike_map h1 fun _ _ g => ⟨rfl, rfl, rfl, g⟩

end Goorc
