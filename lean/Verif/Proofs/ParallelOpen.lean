import Verif.Proofs.ParallelFile
/-
The streams of a batch reader that has just been created.
-/
namespace Goorc

section Laws

variable {σ τ α : Type} {H : Wires σ} {K : Wires τ}

/-- A reader with the streams it has is the same reader. -/
def Wires.Sane (H : Wires σ) : Prop := ∀ s, H.put s (H.get s) = s

theorem stream_sane : Wires.stream.Sane := fun _ => rfl

theorem pair_sane (h : H.Sane) (k : K.Sane) : (H.pair K).Sane := by
  rintro ⟨a, b⟩
  show (H.put a ((H.get a ++ K.get b).take (H.get a).length), K.put b ((H.get a ++ K.get b).drop (H.get a).length)) = (a, b)
  rw [List.take_left, List.drop_left, h, k]

theorem opt_sane (h : H.Sane) : H.opt.Sane
  | none => rfl
  | some a => congrArg some (h a)

theorem via_sane (h : H.Sane) {out : τ → σ} {back : τ → σ → τ} (hb : ∀ t, back t (out t) = t) : (H.via out back).Sane := fun t => by
  show back t (H.put (out t) (H.get (out t))) = t
  rw [h, hb]

theorem list_sane (h : H.Sane) : H.list.Sane
  | [] => rfl
  | s :: ss => by
    show H.put s ((H.get s ++ ss.flatMap H.get).take (H.get s).length) :: H.putAll ss ((H.get s ++ ss.flatMap H.get).drop (H.get s).length) = s :: ss
    rw [List.take_left, List.drop_left, h]
    exact congrArg _ (list_sane h ss)

theorem block_sane : (Wires.block (α := α)).Sane := via_sane stream_sane fun _ => rfl
theorem bool_sane : Wires.bool.Sane := via_sane block_sane fun _ => rfl
theorem int_sane : Wires.int.Sane := via_sane block_sane fun _ => rfl
theorem float_sane : Wires.float.Sane := via_sane stream_sane fun _ => rfl
theorem text_sane : Wires.text.Sane := via_sane (pair_sane stream_sane int_sane) fun _ => rfl
theorem ts_sane : Wires.ts.Sane := via_sane (pair_sane int_sane int_sane) fun _ => rfl
theorem dec_sane : Wires.dec.Sane := via_sane (pair_sane stream_sane int_sane) fun _ => rfl
theorem dict_sane : Wires.dict.Sane := via_sane (pair_sane int_sane (pair_sane stream_sane int_sane)) fun _ => rfl
theorem col_sane (h : H.Sane) : H.col.Sane := via_sane (pair_sane (opt_sane bool_sane) h) fun _ => rfl

theorem leaf_sane : (t : LeafTag) → t.wires.Sane
  | .byte => block_sane
  | .bool => bool_sane
  | .int _ => int_sane
  | .float _ => float_sane
  | .string => text_sane
  | .binary => text_sane
  | .date => block_sane
  | .timestamp => ts_sane
  | .decimal => dec_sane

theorem node_sane (skips : Prop) (h : H.Sane) : (RdNode.wires skips H).Sane := by
  intro x
  cases x with
  | leaf t r => exact congrArg (RdNode.leaf t) (col_sane (leaf_sane t) r)
  | dict r => exact congrArg RdNode.dict (col_sane dict_sane r)
  | struct k p i cs =>
    exact congrArg (fun q : Option BoolReader × List σ => RdNode.struct k q.1 i q.2) (pair_sane (opt_sane bool_sane) (list_sane h) (p, cs))
  | list k p l i x =>
    exact congrArg (fun q : Option BoolReader × Option IntReader × Option σ => RdNode.list k q.1 q.2.1 i q.2.2)
      (pair_sane (opt_sane bool_sane) (pair_sane (opt_sane int_sane) (opt_sane h)) (p, l, x))
  | map k p l i x y =>
    exact congrArg (fun q : Option BoolReader × Option IntReader × Option σ × Option σ => RdNode.map k q.1 q.2.1 i q.2.2.1 q.2.2.2)
      (pair_sane (opt_sane bool_sane) (pair_sane (opt_sane int_sane) (pair_sane (opt_sane h) (opt_sane h))) (p, l, x, y))
  | bare t r => exact congrArg (RdNode.bare t) (col_sane (H := .void) (fun _ => rfl) r)

theorem tree_sane (skips : Prop) : ∀ n, (Rd.wires skips n).Sane
  | 0 => fun _ => rfl
  | n + 1 => node_sane skips (tree_sane skips n)

theorem batch_sane (h : H.Sane) : (BatchReader.wires H).Sane := via_sane (list_sane (via_sane (opt_sane h) fun _ => rfl)) fun _ => rfl

theorem putAll_same (g : σ → List StreamReader) (u : σ → List StreamReader → σ) (o o' : σ → Prop) : ∀ (l : List σ) (ss : List StreamReader),
    Wires.putAll ⟨g, u, o⟩ l ss = Wires.putAll ⟨g, u, o'⟩ l ss
  | [], _ => rfl
  | s :: l, ss => congrArg _ (putAll_same g u o o' l _)

theorem node_same (p q : Prop) {H' : Wires σ} (h1 : H.get = H'.get) (h2 : H.put = H'.put) :
    (RdNode.wires p H).get = (RdNode.wires q H').get ∧ (RdNode.wires p H).put = (RdNode.wires q H').put := by
  obtain ⟨g, u, o⟩ := H
  obtain ⟨g', u', o'⟩ := H'
  cases h1
  cases h2
  refine ⟨?_, ?_⟩
  · funext x
    cases x <;> rfl
  · funext x l
    cases x with
    | struct k p i cs => exact congrArg (RdNode.struct k _ i) (putAll_same g u o o' cs _)
    | _ => rfl

/-- Which readers are meant does not change their streams. -/
theorem tree_same (p q : Prop) : ∀ n, (Rd.wires p n).get = (Rd.wires q n).get ∧ (Rd.wires p n).put = (Rd.wires q n).put
  | 0 => ⟨rfl, rfl⟩
  | n + 1 => node_same p q (tree_same p q n).1 (tree_same p q n).2

theorem batch_same {χ : Type} {H H' : Wires χ} (h1 : H.get = H'.get) (h2 : H.put = H'.put) :
    (BatchReader.wires H).get = (BatchReader.wires H').get ∧ (BatchReader.wires H).put = (BatchReader.wires H').put := by
  obtain ⟨g, u, o⟩ := H
  obtain ⟨g', u', o'⟩ := H'
  cases h1
  cases h2
  refine ⟨rfl, ?_⟩
  funext x l
  exact congrArg (fun s : List (StripeReader χ) => { x with stripes := s }) (putAll_same _ _ _ _ x.stripes l)

end Laws

/-- Without `Skip` all trees are meant. -/
theorem tree_ok : ∀ (n : Nat) (x : Rd n), (Rd.wires False n).ok x
  | 0, x => trivial
  | n + 1, x => by
    have opt_ok : ∀ x : Option (Rd n), (Rd.wires False n).opt.ok x := fun x => by
      cases x with
      | none => trivial
      | some x => exact tree_ok n x
    show (RdNode.wires False (Rd.wires False n)).ok x
    cases (show RdNode (Rd n) from x) with
    | leaf t r => exact fun h => h.elim
    | dict r => trivial
    | struct k p i cs => exact fun s _ => tree_ok n s
    | list k p l i x => exact opt_ok x
    | map k p l i x y => exact ⟨opt_ok x, opt_ok y⟩
    | bare t r => trivial

theorem batch_ok {χ : Type} {H : Wires χ} (h : ∀ x, H.ok x) (br : BatchReader χ) : (BatchReader.wires H).ok br := by
  intro s _
  show H.opt.ok s.reader
  cases s.reader with
  | none => trivial
  | some x => exact h x

section Open

variable {skips : Prop} {Q : StreamReader → Prop}

/-- What the streams of a reader satisfy. -/
def Wires.All {σ : Type} (Q : StreamReader → Prop) (H : Wires σ) (s : σ) : Prop := ∀ x ∈ H.get s, Q x

theorem all_pair {σ τ : Type} {H : Wires σ} {K : Wires τ} {a : σ} {b : τ} (h : H.All Q a) (k : K.All Q b) : (H.pair K).All Q (a, b) := fun x hx =>
  (List.mem_append.1 hx).elim (h x) (k x)

theorem all_stream {s : StreamReader} (h : Q s) : Wires.stream.All Q s := fun x hx => by
  cases List.mem_singleton.1 hx
  exact h

theorem all_some {σ : Type} {H : Wires σ} {s : Option StreamReader} {f : StreamReader → σ} (hf : ∀ s, Q s → H.All Q (f s)) (h : ∀ x, s = some x → Q x) :
    H.opt.All Q (s.map f) := by
  cases s with
  | none => exact fun x hx => absurd hx List.not_mem_nil
  | some s => exact hf s (h s rfl)

/-- The data streams of a column are streams it was given. -/
def ReadKind.Wired {ρ : Type} (K : ReadKind ρ) (D : Wires ρ) : Prop := ∀ (Q : StreamReader → Prop) (look : StreamKind → Option StreamReader) (x : ρ),
  K.init look = some x → (∀ k s, look k = some s → Q s) → D.All Q x

theorem wired_one {ρ : Type} {K : ReadKind ρ} {D : Wires ρ} (f : StreamReader → ρ) (hi : ∀ look, K.init look = (look .data).map f)
    (hg : ∀ s, D.get (f s) = [s]) : K.Wired D := by
  intro Q look x h hq
  rw [hi] at h
  cases hd : look .data with
  | none => rw [hd] at h; cases h
  | some s =>
    rw [hd] at h
    cases h
    intro y hy
    rw [hg, List.mem_singleton] at hy
    subst hy
    exact hq _ _ hd

theorem wired_two {ρ : Type} {K : ReadKind ρ} {D : Wires ρ} (k : StreamKind) (f : StreamReader → StreamReader → ρ)
    (hi : ∀ look, K.init look = match look .data, look k with | some d, some l => some (f d l) | _, _ => none)
    (hg : ∀ s t, D.get (f s t) = [s, t]) : K.Wired D := by
  intro Q look x h hq
  rw [hi] at h
  cases hd : look .data with
  | none => rw [hd] at h; cases h
  | some s =>
    cases hl : look k with
    | none => rw [hd, hl] at h; cases h
    | some t =>
      rw [hd, hl] at h
      cases h
      intro y hy
      rw [hg] at hy
      rcases List.mem_cons.1 hy with rfl | hy
      · exact hq _ _ hd
      · rw [List.mem_singleton] at hy
        subst hy
        exact hq _ _ hl

theorem leaf_wired : (t : LeafTag) → t.read.Wired t.wires
  | .byte => wired_one (fun r => ⟨r, []⟩) (fun _ => rfl) fun _ => rfl
  | .bool => wired_one newBoolReader (fun _ => rfl) fun _ => rfl
  | .int _ => wired_one (newIntReader true) (fun _ => rfl) fun _ => rfl
  | .float b => wired_one (fun r => ⟨b, r⟩) (fun _ => rfl) fun _ => rfl
  | .string => wired_two .length (fun d l => ⟨d, newIntReader false l⟩) (fun _ => rfl) fun _ _ => rfl
  | .binary => wired_two .length (fun d l => ⟨d, newIntReader false l⟩) (fun _ => rfl) fun _ _ => rfl
  | .date => wired_one (fun r => ⟨r, []⟩) (fun _ => rfl) fun _ => rfl
  | .timestamp => wired_two .secondary (fun d l => ⟨newIntReader true d, newIntReader false l⟩) (fun _ => rfl) fun _ _ => rfl
  | .decimal => wired_two .secondary (fun d l => ⟨d, newIntReader true l⟩) (fun _ => rfl) fun _ _ => rfl

theorem dict_wired (fuel : Nat) : (dictRead fuel).Wired Wires.dict := by
  intro Q look x h hq
  have hi : (dictRead fuel).init look = match look .data, look .dictionaryData, look .length with
    | some d, some dd, some l => some ⟨newIntReader false d, dd, newIntReader false l, [], false⟩
    | _, _, _ => none := rfl
  rw [hi] at h
  cases h1 : look .data <;> cases h2 : look .dictionaryData <;> cases h3 : look .length <;> rw [h1, h2, h3] at h <;> first | (cases h; done) | skip
  cases h
  rename_i a b d
  intro y hy
  have : y ∈ [a, b, d] := hy
  rcases List.mem_cons.1 this with rfl | this
  · exact hq _ _ h1
  · rcases List.mem_cons.1 this with rfl | this
    · exact hq _ _ h2
    · rw [List.mem_singleton] at this
      subst this
      exact hq _ _ h3

/-- What is said of a column reader and its streams before it has children. -/
structure FlatRd.Has (skips : Prop) (Q : StreamReader → Prop) (r : FlatRd) : Prop where
  streams : ∀ s ∈ r.streams, Q s.2
  tag : skips → r.tag ≠ .leaf .binary

theorem FlatRd.Has.stream {r : FlatRd} (h : r.Has skips Q) (k : StreamKind) {s : StreamReader} (hs : r.stream k = some s) : Q s := by
  unfold FlatRd.stream at hs
  cases hf : r.streams.reverse.find? fun s => s.1 = k with
  | none => rw [hf] at hs; cases hs
  | some p =>
    rw [hf] at hs
    cases hs
    exact h.streams p (List.mem_reverse.1 (List.mem_of_find?_eq_some hf))

theorem open_leaf {ρ χ : Type} {mk : ColReader ρ → RdNode χ} {tag : Option LeafTag} {K : ReadKind ρ} {D : Wires ρ} {H : Wires χ} (hK : K.Wired D) (kind : CompKind)
    {r : FlatRd} (h : r.Has skips Q) (hmk : ∀ x, D.col.All Q x → (RdNode.wires skips H).All Q (mk x)) (hok : ∀ x, (RdNode.wires skips H).ok (mk x)) :
    (RdNode.wires skips H).All Q (openLeaf mk tag K kind r) ∧ (RdNode.wires skips H).ok (openLeaf mk tag K kind r) := by
  have hp : Wires.bool.opt.All Q ((r.stream .present).map newBoolReader) := all_some (fun s hs => all_stream (s := s) hs) fun x hx => h.stream .present hx
  have hb : (RdNode.wires skips H).All Q (.bare tag ⟨r.hasNulls, kind, (r.stream .present).map newBoolReader, (), r.index⟩) ∧
      (RdNode.wires skips H).ok (.bare tag ⟨r.hasNulls, kind, (r.stream .present).map newBoolReader, (), r.index⟩) :=
    ⟨all_pair (K := Wires.void) (b := ()) hp fun x hx => absurd hx List.not_mem_nil, trivial⟩
  unfold openLeaf ReadKind.openCol
  by_cases ha : (r.streams.all fun s => K.accepts r.hasNulls s.1) = true
  · rw [if_pos ha]
    have e1 : (fun k => (r.streams.reverse.find? fun s => decide (s.1 = k)).map fun s => s.2) = r.stream := rfl
    rw [e1]
    cases hi : K.init r.stream with
    | none => exact hb
    | some d =>
      refine ⟨hmk _ ?_, hok _⟩
      exact all_pair hp (hK Q r.stream d hi fun k s hs => h.stream k hs)
  · rw [if_neg ha]
    exact hb

theorem open_trees {α : Type} {P : α → Prop} {f : Nat → Res α} (h : ∀ i x, f i = .ok x → P x) : ∀ (is : List Nat) (xs : List α), treesOf f is = .ok xs → ∀ x ∈ xs, P x
  | [], xs, e => by cases e; exact fun x hx => absurd hx List.not_mem_nil
  | i :: is, xs, e => by
    obtain ⟨y, hy, e⟩ := Res.bind_ok_inv e
    obtain ⟨ys, hys, e⟩ := Res.bind_ok_inv e
    cases e
    intro x hx
    rcases List.mem_cons.1 hx with rfl | hx
    · exact h _ _ hy
    · exact open_trees h is ys hys x hx

theorem open_on {α : Type} {P : α → Prop} {f : Nat → Res α} (h : ∀ i x, f i = .ok x → P x) : ∀ (i : Option Nat) (x : Option α), treeOn f i = .ok x →
    ∀ y, x = some y → P y
  | none, x, e => by cases e; exact fun y hy => by cases hy
  | some i, x, e => by
    obtain ⟨y, hy, e⟩ := Res.bind_ok_inv e
    cases e
    intro z hz
    cases hz
    exact h _ _ hy

theorem open_tree (bo : BatchOption) (ro : ROpts) (types : List RdType) {rs : List (Option FlatRd)} (h : ∀ (i : Nat) (r : FlatRd), rs[i]? = some (some r) → r.Has skips Q) :
    ∀ (n i : Nat) (x : Rd n), treeOf bo ro types rs n i = .ok x → (Rd.wires skips n).All Q x ∧ (Rd.wires skips n).ok x
  | 0, i, x, e => by cases e
  | n + 1, i, x, e => by
    have ih := open_tree bo ro types h n
    have on_all : ∀ (j : Option Nat) (x : Option (Rd n)), treeOn (treeOf bo ro types rs n) j = .ok x → (Rd.wires skips n).opt.All Q x ∧ (Rd.wires skips n).opt.ok x := by
      intro j x hx
      have := open_on ih j x hx
      cases x with
      | none => exact ⟨fun x hx => absurd hx List.not_mem_nil, trivial⟩
      | some x => exact this x rfl
    rw [treeOf] at e
    cases ht : types[i]? with
    | none => rw [ht] at e; cases e
    | some t =>
      cases hr : rs[i]? with
      | none => rw [ht, hr] at e; cases e
      | some o =>
        cases o with
        | none => rw [ht, hr] at e; cases e
        | some r =>
          rw [ht, hr] at e
          dsimp only at e
          have hh := h i r hr
          have hp : Wires.bool.opt.All Q ((r.stream .present).map newBoolReader) := all_some (fun s hs => all_stream (s := s) hs) fun x hx => hh.stream .present hx
          have hl : Wires.int.opt.All Q ((r.stream .length).map (newIntReader false)) := all_some (fun s hs => all_stream (s := s) hs) fun x hx => hh.stream .length hx
          cases htag : r.tag with
          | leaf l =>
            rw [htag] at e
            cases e
            exact open_leaf (leaf_wired l) ro.kind hh (fun _ g => g) fun _ hs hb => hh.tag hs (by rw [htag, hb])
          | dict =>
            rw [htag] at e
            cases e
            exact open_leaf (dict_wired 0) ro.kind hh (fun _ g => g) fun _ => trivial
          | struct =>
            rw [htag] at e
            obtain ⟨cs, hcs, e⟩ := Res.bind_ok_inv e
            cases e
            have := open_trees ih _ cs hcs
            refine ⟨all_pair hp fun y hy => ?_, fun x hx => (this x hx).2⟩
            obtain ⟨z, hz, hy⟩ := List.mem_flatMap.1 hy
            exact (this z hz).1 y hy
          | list =>
            rw [htag] at e
            obtain ⟨x, hx, e⟩ := Res.bind_ok_inv e
            cases e
            exact ⟨all_pair hp (all_pair hl (on_all _ x hx).1), (on_all _ x hx).2⟩
          | map =>
            rw [htag] at e
            obtain ⟨x, hx, e⟩ := Res.bind_ok_inv e
            obtain ⟨y, hy, e⟩ := Res.bind_ok_inv e
            cases e
            exact ⟨all_pair hp (all_pair hl (all_pair (on_all _ x hx).1 (on_all _ y hy).1)), (on_all _ x hx).2, (on_all _ y hy).2⟩

theorem columns_has (bo : BatchOption) (columns : List Encoding) : ∀ (types : List RdType) (rs : List (Option FlatRd)), initColumns bo columns types = .ok rs →
    (skips → ∀ t ∈ types, t.kind ≠ .binary) → ∀ (i : Nat) (r : FlatRd), rs[i]? = some (some r) → r.Has skips Q
  | [], rs, e, _ => by cases e; intro i r h; cases h
  | t :: ts, rs, e, hb => by
    rw [initColumns] at e
    obtain ⟨o, ho, e⟩ := Res.bind_ok_inv e
    obtain ⟨rs', hrs, e⟩ := Res.bind_ok_inv e
    cases e
    intro i r hi
    cases i with
    | succ i => exact columns_has bo columns ts rs' hrs (fun hs t ht => hb hs t (List.mem_cons_of_mem _ ht)) i r hi
    | zero =>
      cases hi
      by_cases hinc : bo.isInclude t.id = true
      · rw [if_pos hinc] at ho
        cases henc : columns[t.id]? with
        | none => rw [henc] at ho; cases ho
        | some enc =>
          rw [henc] at ho
          obtain ⟨tag, htag, ho⟩ := Res.bind_ok_inv ho
          cases ho
          refine ⟨fun s hs => absurd hs List.not_mem_nil, fun hs htg => ?_⟩
          have hk := hb hs t List.mem_cons_self
          dsimp only at htg
          subst htg
          unfold newReaderTag at htag
          cases hkind : t.kind <;> rw [hkind] at htag hk <;> dsimp only at htag <;> first | exact hk rfl | skip
          all_goals first | (cases htag; done) | (split at htag <;> first | (cases htag; done) | (split at htag <;> (cases htag; done)))
      · rw [if_neg hinc] at ho
        cases ho

theorem streams_has (E : Env) (ro : ROpts) (file : Bytes) (hQ : ∀ start len, Q (newStreamReader ro.kind ro.chunkSize start len file)) :
    ∀ (ss : List StreamInfo) (i d : Nat) (rs rs' : List (Option FlatRd)), initStreams E ro file i d ss rs = .ok rs' →
      (∀ (i : Nat) (r : FlatRd), rs[i]? = some (some r) → r.Has skips Q) → ∀ (i : Nat) (r : FlatRd), rs'[i]? = some (some r) → r.Has skips Q
  | [], i, d, rs, rs', e, h => by cases e; exact h
  | s :: ss, i, d, rs, rs', e, h => by
    rw [initStreams] at e
    have put : ∀ r : FlatRd, r.Has skips Q → ∀ (j : Nat) (r' : FlatRd), (rs.set s.column (some r))[j]? = some (some r') → r'.Has skips Q := by
      intro r hr j r' hj
      rw [List.getElem?_set] at hj
      by_cases hj' : s.column = j
      · rw [if_pos hj'] at hj
        by_cases hl : s.column < rs.length
        · rw [if_pos hl] at hj; cases hj; exact hr
        · rw [if_neg hl] at hj; cases hj
      · rw [if_neg hj'] at hj
        exact h j r' hj
    cases hr : rs[s.column]? with
    | none => rw [hr] at e; cases e
    | some o =>
      rw [hr] at e
      cases o with
      | none =>
        dsimp only at e
        split at e
        · exact streams_has E ro file hQ ss _ _ _ _ e h
        · exact streams_has E ro file hQ ss _ _ _ _ e h
      | some r =>
        have hh := h _ r hr
        dsimp only at e
        split at e
        · obtain ⟨r', hr', e⟩ := Res.bind_ok_inv e
          refine streams_has E ro file hQ ss _ _ _ _ e (put r' ?_)
          obtain ⟨b, -, hr'⟩ := Res.bind_ok_inv hr'
          obtain ⟨b', -, hr'⟩ := Res.bind_ok_inv hr'
          obtain ⟨ix, -, hr'⟩ := Res.bind_ok_inv hr'
          cases hr'
          exact ⟨hh.streams, hh.tag⟩
        · obtain ⟨r', hr', e⟩ := Res.bind_ok_inv e
          refine streams_has E ro file hQ ss _ _ _ _ e (put r' ?_)
          unfold initStream at hr'
          split at hr'
          · cases hr'
            refine ⟨fun x hx => ?_, hh.tag⟩
            rcases List.mem_append.1 hx with hx | hx
            · exact hh.streams x hx
            · cases List.mem_singleton.1 hx
              exact hQ _ _
          · cases hr'

theorem stripes_has (E : Env) (ro : ROpts) (bo : BatchOption) (file : Bytes) (types : List RdType) (hb : skips → ∀ t ∈ types, t.kind ≠ .binary)
    (hQ : ∀ start len, Q (newStreamReader ro.kind ro.chunkSize start len file)) : ∀ (is : List StripeInfo) (ss : List (StripeReader (Rd types.length))),
    initStripes E ro bo file types is = .ok ss → ∀ s ∈ ss, (StripeReader.wires (Rd.wires skips types.length)).All Q s ∧ (StripeReader.wires (Rd.wires skips types.length)).ok s
  | [], ss, e => by cases e; exact fun s hs => absurd hs List.not_mem_nil
  | i :: is, ss, e => by
    rw [initStripes] at e
    split at e
    · cases e
    obtain ⟨s, hs, e⟩ := Res.bind_ok_inv e
    obtain ⟨ss', hss, e⟩ := Res.bind_ok_inv e
    cases e
    intro x hx
    rcases List.mem_cons.1 hx with rfl | hx
    · obtain ⟨foot, -, hs⟩ := Res.bind_ok_inv hs
      obtain ⟨r, hr, hs⟩ := Res.bind_ok_inv hs
      cases hs
      obtain ⟨rs, hrs, hr⟩ := Res.bind_ok_inv hr
      obtain ⟨rs', hrs', hr⟩ := Res.bind_ok_inv hr
      obtain ⟨-, -, hr⟩ := Res.bind_ok_inv hr
      have h1 := streams_has (skips := skips) E ro file hQ _ _ _ _ _ hrs' (columns_has bo foot.columns types rs hrs hb)
      have h2 := open_on (open_tree bo ro types h1 types.length) _ r hr
      cases r with
      | none => exact ⟨fun x hx => absurd hx List.not_mem_nil, trivial⟩
      | some r => exact h2 r rfl
    · exact stripes_has E ro bo file types hb hQ is ss' hss x hx

end Open

end Goorc
