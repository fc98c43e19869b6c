import Verif.Proofs.StructNulls
import Verif.Props.Column
/-
C42: rows of list and map columns.
-/
namespace Goorc

variable {χ : Type} {X : RdOps χ} {c : Codec} {P Q : χ → List Value → Prop}

/-! ### Leaf columns as children -/

/-- A leaf reader with the rows left that `Holds` says. -/
def LeafLeft (χ : Type) (t : LeafTag) (c : Codec) (F : BoolReader → Prop) (E : t.ρ → Prop) (x : RdNode χ) (es : List Value) : Prop :=
  ∃ r rows, x = .leaf t r ∧ t.read.Holds c F E r rows ∧ es = rows.map (rowValue .nil)

/-- A leaf reader without a present stream. -/
def PlainLeft (χ : Type) (t : LeafTag) (c : Codec) (F : BoolReader → Prop) (E : t.ρ → Prop) (x : RdNode χ) (es : List Value) : Prop :=
  ∃ r rows, x = .leaf t r ∧ t.read.Holds c F E r rows ∧ r.present = none ∧ es = rows.map (rowValue .nil)

theorem fill_fresh (rows : List (Option GoVal)) :
    List.zipWith (storeRow fun _ x => x) (List.replicate rows.length (⟨false, .nil⟩ : Value)) rows = rows.map (rowValue .nil) := by
  induction rows with
  | nil => rfl
  | cons row rows ih =>
    simp only [List.length_cons, List.replicate_succ, List.zipWith_cons_cons, List.map_cons, ih, storeRow_replace]

/-- What the leaf reader does with a vector of empty rows. -/
theorem leaf_next (X : RdOps χ) (fuel : Nat) (t : LeafTag) {F : BoolReader → Prop} {E : t.ρ → Prop} (hprep : ∀ d : t.ρ, t.read.prepare c d = .ok d)
    (hst : t.read.store = replaceValue) {r : ColReader t.ρ} {rows : List (Option GoVal)} (h : t.read.Holds c F E r rows)
    (es rest : List Value) (he : es ++ rest = rows.map (rowValue .nil)) (id : Nat) (k : TypeKind) (cap : List Value) (cs : List Vec) :
    ∃ r' rows', t.read.Holds c F E r' rows' ∧ rest = rows'.map (rowValue .nil) ∧ (r'.present = none ↔ r.present = none) ∧
      (RdNode.leaf t r).nextBatch X c fuel (.mk id k (some ⟨List.replicate es.length ⟨false, .nil⟩ ++ cap, es.length⟩) cs) =
        .ok (.mk id k (some ⟨es ++ cap, es.length⟩) cs, .leaf t r') := by
  obtain ⟨a, b, rfl, ha, hb⟩ := List.append_eq_map_iff.mp he
  subst ha hb
  obtain ⟨r', g1, g2, g3, -⟩ := h.batch hprep (fun _ x => x) (List.replicate a.length ⟨false, .nil⟩) (by simp)
    (fun _ v hv => by rw [List.eq_of_mem_replicate hv]) (fun old _ x => by rw [hst]; rfl)
  refine ⟨r', b, g2, rfl, g3, ?_⟩
  simp only [RdNode.nextBatch, leafBatch, visibleRows, Slice.visible, List.length_map, List.take_left' (List.length_replicate ..), g1, Res.ok_bind,
    fill_fresh, updateRows, Option.map_some, Slice.update, Res.pure_eq]
  rw [List.drop_left' (by simp)]

theorem leaf_skip (X : RdOps χ) (fuel : Nat) (t : LeafTag) {F : BoolReader → Prop} {E : t.ρ → Prop} (hskip : t.read.SkipsLikeNext c)
    {r : ColReader t.ρ} {rows : List (Option GoVal)} (h : t.read.Holds c F E r rows) (es rest : List Value) (he : es ++ rest = rows.map (rowValue .nil)) :
    ∃ r' rows', t.read.Holds c F E r' rows' ∧ rest = rows'.map (rowValue .nil) ∧ (r'.present = none ↔ r.present = none) ∧
      (RdNode.leaf t r).skip X c fuel es.length = .ok (.leaf t r') := by
  obtain ⟨a, b, rfl, ha, hb⟩ := List.append_eq_map_iff.mp he
  subst ha hb
  obtain ⟨r', g1, g2, g3⟩ := h.skip hskip a.length (by simp)
  rw [List.drop_left' rfl] at g2
  exact ⟨r', b, g2, rfl, g3, by simp [RdNode.skip, g1]⟩

/-- Every leaf column feeds a list: byte, boolean, integers, floating point, strings and dates. -/
theorem leaf_feeds (X : RdOps χ) (fuel : Nat) (t : LeafTag) (F : BoolReader → Prop) (E : t.ρ → Prop) (hprep : ∀ d : t.ρ, t.read.prepare c d = .ok d)
    (hst : t.read.store = replaceValue) (hskip : t.read.SkipsLikeNext c) :
    Feeds ⟨RdNode.nextBatch X c fuel, RdNode.skip X c fuel, RdNode.seekStride X c fuel⟩ (LeafLeft χ t c F E) where
  next := by
    rintro x es rest id k cap cs ⟨r, rows, rfl, h, he⟩
    obtain ⟨r', rows', g1, g2, g3, g4⟩ := leaf_next X fuel t hprep hst h es rest he id k cap cs
    exact ⟨.leaf t r', ⟨r', rows', rfl, g1, g2⟩, g4⟩
  skip := by
    rintro x es rest ⟨r, rows, rfl, h, he⟩
    obtain ⟨r', rows', g1, g2, g3, g4⟩ := leaf_skip X fuel t hskip h es rest he
    exact ⟨.leaf t r', ⟨r', rows', rfl, g1, g2⟩, g4⟩

theorem plain_feeds (X : RdOps χ) (fuel : Nat) (t : LeafTag) (F : BoolReader → Prop) (E : t.ρ → Prop) (hprep : ∀ d : t.ρ, t.read.prepare c d = .ok d)
    (hst : t.read.store = replaceValue) (hskip : t.read.SkipsLikeNext c) :
    Feeds ⟨RdNode.nextBatch X c fuel, RdNode.skip X c fuel, RdNode.seekStride X c fuel⟩ (PlainLeft χ t c F E) ∧
    PassesNulls ⟨RdNode.nextBatch X c fuel, RdNode.skip X c fuel, RdNode.seekStride X c fuel⟩ (PlainLeft χ t c F E) := by
  refine ⟨⟨?_, ?_⟩, ?_⟩
  · rintro x es rest id k cap cs ⟨r, rows, rfl, h, hp, he⟩
    obtain ⟨r', rows', g1, g2, g3, g4⟩ := leaf_next X fuel t hprep hst h es rest he id k cap cs
    exact ⟨.leaf t r', ⟨r', rows', rfl, g1, g3.mpr hp, g2⟩, g4⟩
  · rintro x es rest ⟨r, rows, rfl, h, hp, he⟩
    obtain ⟨r', rows', g1, g2, g3, g4⟩ := leaf_skip X fuel t hskip h es rest he
    exact ⟨.leaf t r', ⟨r', rows', rfl, g1, g3.mpr hp, g2⟩, g4⟩
  · rintro x rest id k cap cs ⟨r, rows, rfl, h, hp, he⟩
    refine ⟨.leaf t r, ⟨r, rows, rfl, h, hp, he⟩, ?_⟩
    simp only [RdNode.nextBatch, leafBatch, visibleRows, Slice.visible, List.take_succ_cons, List.take_zero, ReadKind.nextBatch, hprep, Res.ok_bind,
      ReadKind.nextRows, hp, Res.pure_eq, if_true, updateRows, Option.map_some, Slice.update, List.length_singleton, List.drop_succ_cons, List.drop_zero,
      List.singleton_append]
    rw [← hp]

/-! ### Lists -/


/-- **C42** (partial) A batch of a list column: every row gets its null flag and its number of elements, exactly the
elements of these rows are consumed, and the child vector holds the elements of the last row. Missing: the elements of the
other rows (`list_elements_iff`). -/
theorem list_batch_partial (hX : Feeds X P) (fuel : Nat) (kind : CompKind) (i : Option (List (List Nat))) (rows rest : List (Option (List Value)))
    (hnull : none ∈ rows → PassesNulls X P) {p : Option BoolReader} {l : Option IntReader} {x : Option χ}
    (h : ListLeft c P p l x (rows ++ rest)) (s t : Slice) (hl : s.visible.length = rows.length) (hu : p = none → Unmarked s.visible)
    (id id' : Nat) (k k' : TypeKind) (ccs cs : List Vec) :
    ∃ s' t' p' l' x', (RdNode.list kind p l i x).nextBatch X c fuel (.mk id k (some s) (.mk id' k' (some t) ccs :: cs)) =
        .ok (.mk id k (some s') (.mk id' k' (some t') ccs :: cs), .list kind p' l' i x') ∧
      s'.visible = List.zipWith (fun old row => listRow (fun n => .u64 (BitVec.ofNat 64 n)) old row) s.visible rows ∧
      (∀ row, rows.getLast? = some row → t'.visible = rowElements (fun v => v) row) ∧
      ListLeft c P p' l' x' rest ∧ (p' = none ↔ p = none) := by
  obtain ⟨t', p', l', x', g1, g2, g3, -, g4⟩ := listRows_spec hX rows rest hnull s.visible hl h hu id' k' t ccs cs
  refine ⟨s.update (List.zipWith (fun old row => listRow (fun n => .u64 (BitVec.ofNat 64 n)) old row) s.visible rows), t', p', l', x', ?_, ?_, g4, g2, g3⟩
  · simp only [RdNode.nextBatch, visibleRows, g1, Res.ok_bind, Res.pure_eq, updateRows, Option.map_some]
  · exact s.visible_update _ (by rw [List.length_zipWith, hl, Nat.min_self])

/-- **C42** is false for lists: the child vector after a batch of lists holds the elements of all rows only if all rows
but the last are empty. -/
theorem list_elements_iff (rows : List (List Value)) (row : List Value) (t : Slice)
    (ht : ∀ r, ((rows ++ [row]).map some).getLast? = some r → t.visible = rowElements (fun v => v) r) :
    t.visible = (rows ++ [row]).flatten ↔ ∀ r ∈ rows, r = [] := by
  have h := ht (some row) (by simp)
  simp only [rowElements, List.map_id'] at h
  rw [h, List.flatten_append]
  constructor
  · intro he r hr
    have := congrArg List.length he
    simp only [List.length_append, List.flatten_cons, List.flatten_nil, List.append_nil] at this
    have h0 : rows.flatten = [] := List.eq_nil_of_length_eq_zero (by omega)
    exact List.flatten_eq_nil_iff.mp h0 r hr
  · intro hr
    rw [List.flatten_eq_nil_iff.mpr hr]
    simp

/-- **C42** Skipping rows of a list column skips exactly their elements. -/
theorem list_skip (hX : Feeds X P) (fuel : Nat) (kind : CompKind) (i : Option (List (List Nat))) (rows rest : List (Option (List Value)))
    {p : Option BoolReader} {l : Option IntReader} {x : Option χ} (h : ListLeft c P p l x (rows ++ rest)) :
    ∃ p' l' x', (RdNode.list kind p l i x).skip X c fuel rows.length = .ok (.list kind p' l' i x') ∧ ListLeft c P p' l' x' rest ∧
      (p' = none ↔ p = none) := by
  obtain ⟨p', l', x', g1, g2, g3⟩ := listSkip_spec hX rows rest h
  exact ⟨p', l', x', by simp [RdNode.skip, g1], g2, g3⟩

/-! ### Maps -/

/-- **C42** (partial) A batch of a map column, as `list_batch_partial`. -/
theorem map_batch_partial (hX : Feeds X P) (hY : Feeds X Q) (fuel : Nat) (kind : CompKind) (i : Option (List (List Nat)))
    (rows rest : List (Option (List (Value × Value)))) (hnull : none ∈ rows → PassesNulls X P ∧ PassesNulls X Q)
    {p : Option BoolReader} {l : Option IntReader} {x y : Option χ} (h : MapLeft c P Q p l x y (rows ++ rest)) (s t1 t2 : Slice)
    (hl : s.visible.length = rows.length) (hu : p = none → Unmarked s.visible) (id id1 id2 : Nat) (k k1 k2 : TypeKind) (c1 c2 cs : List Vec) :
    ∃ s' t1' t2' p' l' x' y',
      (RdNode.map kind p l i x y).nextBatch X c fuel (.mk id k (some s) (.mk id1 k1 (some t1) c1 :: .mk id2 k2 (some t2) c2 :: cs)) =
        .ok (.mk id k (some s') (.mk id1 k1 (some t1') c1 :: .mk id2 k2 (some t2') c2 :: cs), .map kind p' l' i x' y') ∧
      s'.visible = List.zipWith (fun old row => listRow (fun n => .int n) old row) s.visible rows ∧
      (∀ row, rows.getLast? = some row → t1'.visible = rowElements Prod.fst row ∧ t2'.visible = rowElements Prod.snd row) ∧
      MapLeft c P Q p' l' x' y' rest ∧ (p' = none ↔ p = none) := by
  obtain ⟨t1', t2', p', l', x', y', g1, g2, g3, -, g4, g5⟩ := mapRows_spec hX hY rows rest hnull s.visible hl h hu id1 id2 k1 k2 t1 t2 c1 c2 cs
  refine ⟨s.update _, t1', t2', p', l', x', y', ?_, s.visible_update _ (by rw [List.length_zipWith, hl, Nat.min_self]),
    fun row hr => ⟨g4 row hr, g5 row hr⟩, g2, g3⟩
  simp only [RdNode.nextBatch, visibleRows, g1, Res.ok_bind, Res.pure_eq, updateRows, Option.map_some]

theorem entrySkip_spec (hX : Feeds X P) (hY : Feeds X Q) (m n : Nat) (es fs : List Value) (rest rest' : List Value) (he : es.length = n * m) (hf : fs.length = n * m)
    {x y : χ} (hx : P x (es ++ rest)) (hy : Q y (fs ++ rest')) :
    ∃ x' y', entrySkip X m n (some x) (some y) = .ok (some x', some y') ∧ P x' rest ∧ Q y' rest' := by
  induction n generalizing es fs x y with
  | zero =>
    rw [Nat.zero_mul] at he hf
    rw [List.eq_nil_of_length_eq_zero he] at hx
    rw [List.eq_nil_of_length_eq_zero hf] at hy
    exact ⟨x, y, rfl, hx, hy⟩
  | succ n ih =>
    rw [Nat.succ_mul] at he hf
    rw [← List.take_append_drop m es, List.append_assoc] at hx
    rw [← List.take_append_drop m fs, List.append_assoc] at hy
    obtain ⟨x1, k1, k2⟩ := hX.skip _ _ _ hx
    obtain ⟨y1, j1, j2⟩ := hY.skip _ _ _ hy
    obtain ⟨x2, y2, g1, g2, g3⟩ := ih (es.drop m) (fs.drop m) (by rw [List.length_drop]; omega) (by rw [List.length_drop]; omega) k1 j1
    refine ⟨x2, y2, ?_, g2, g3⟩
    rw [List.length_take, Nat.min_eq_left (by omega)] at k2 j2
    simp [entrySkip, skipOn, k2, j2, g1]

/-- **C42** is false for skipping maps: skipping one row with `m` entries drops `m * m` keys and `m * m` values, if so many
are left in the stripe. -/
theorem map_skip_squares (hX : Feeds X P) (hY : Feeds X Q) (fuel : Nat) (kind : CompKind) (i : Option (List (List Nat)))
    {l : Option IntReader} (m : Nat) (ms : List Nat) (hl : LengthsLeft c l (m :: ms)) (keys keys' values values' : List Value)
    (hk : keys.length = m * m) (hv : values.length = m * m) {x y : χ} (hx : P x (keys ++ keys')) (hy : Q y (values ++ values')) :
    ∃ l' x' y', (RdNode.map kind none l i (some x) (some y)).skip X c fuel 1 = .ok (.map kind none l' i (some x') (some y')) ∧
      LengthsLeft c l' ms ∧ P x' keys' ∧ Q y' values' := by
  obtain ⟨l', h1, h2, h3⟩ := nextLength_left hl
  obtain ⟨x', y', g1, g2, g3⟩ := entrySkip_spec hX hY m m keys values keys' values' hk hv hx hy
  refine ⟨l', x', y', ?_, h2, g2, g3⟩
  simp [RdNode.skip, mapSkip, nextPresent, h1, loopBound_ofNat _ h3, g1]

/-- **C42** (partial) Skipping rows of a map column skips exactly their entries if no row has more than one. Missing:
`map_skip_squares`. -/
theorem map_skip_partial (hX : Feeds X P) (hY : Feeds X Q) (fuel : Nat) (kind : CompKind) (i : Option (List (List Nat)))
    (rows rest : List (Option (List (Value × Value)))) (hone : ∀ es, some es ∈ rows → es.length ≤ 1)
    {p : Option BoolReader} {l : Option IntReader} {x y : Option χ} (h : MapLeft c P Q p l x y (rows ++ rest)) :
    ∃ p' l' x' y', (RdNode.map kind p l i x y).skip X c fuel rows.length = .ok (.map kind p' l' i x' y') ∧ MapLeft c P Q p' l' x' y' rest ∧
      (p' = none ↔ p = none) := by
  have key : ∃ p' l' x' y', mapSkip X c rows.length p l x y = .ok (p', l', x', y') ∧ MapLeft c P Q p' l' x' y' rest ∧ (p' = none ↔ p = none) := by
    induction rows generalizing p l x y with
    | nil => exact ⟨p, l, x, y, rfl, by simpa using h, Iff.rfl⟩
    | cons row rows ih =>
      obtain ⟨hF, hL, ⟨z1, hz1, hP⟩, ⟨z2, hz2, hQ⟩⟩ := h
      obtain ⟨p1, f1, f2, f3⟩ := nextPresent_left (by simpa using hF)
      simp only [List.length_cons, mapSkip, f1, Res.ok_bind]
      cases row with
      | none =>
        obtain ⟨p2, l2, x2, y2, g1, g2, g3⟩ := ih (fun es he => hone es (by simp [he])) (p := p1) (l := l) (x := x) (y := y)
          ⟨by simpa using f2, by simpa using hL, ⟨z1, hz1, by simpa using hP⟩, ⟨z2, hz2, by simpa using hQ⟩⟩
        exact ⟨p2, l2, x2, y2, by simpa using g1, g2, g3.trans f3⟩
      | some es =>
        simp only [List.cons_append, List.filterMap_cons, id_eq, List.map_cons, List.flatten_cons, List.map_append] at hL hP hQ
        obtain ⟨l1, n1, n2, n3⟩ := nextLength_left hL
        have h1 := hone es (by simp)
        have hsq : es.length = es.length * es.length := by
          rcases Nat.le_one_iff_eq_zero_or_eq_one.mp h1 with h0 | h0 <;> rw [h0]
        subst hz1 hz2
        obtain ⟨x1, y1, k1, k2, k3⟩ := entrySkip_spec hX hY es.length es.length (es.map (·.1)) (es.map (·.2)) _ _
          (by rw [List.length_map]; exact hsq) (by rw [List.length_map]; exact hsq) hP hQ
        obtain ⟨p2, l2, x2, y2, g1, g2, g3⟩ := ih (fun es he => hone es (by simp [he])) (p := p1) (l := l1) (x := some x1) (y := some y1)
          ⟨by simpa using f2, n2, ⟨x1, rfl, k2⟩, ⟨y1, rfl, k3⟩⟩
        refine ⟨p2, l2, x2, y2, ?_, g2, g3.trans f3⟩
        simp [n1, loopBound_ofNat _ n3, k1, g1]
  obtain ⟨p', l', x', y', g1, g2, g3⟩ := key
  exact ⟨p', l', x', y', by simp [RdNode.skip, g1], g2, g3⟩

/-! ### Examples -/

/-- A file with the lengths 2, 2, 2 (a short repeat), then the bytes 1 to 6. -/
def nestedFile : Bytes := [0, 2, 0xfa, 1, 2, 3, 4, 5, 6]

def nestedLengths : IntReader := ⟨false, ⟨newStreamReader .none 100 0 2 nestedFile, []⟩⟩

def nestedBytes : RdNode Empty := .leaf .byte ⟨false, .none, none, ⟨newStreamReader .none 100 2 7 nestedFile, []⟩, none⟩

/-- An empty vector of `n` rows. -/
def freshSlice (n : Nat) : Slice := ⟨List.replicate n ⟨false, .nil⟩, n⟩

/-- The visible rows of a vector and of its children. -/
def shown : Vec → List (List Value)
  | .nil => []
  | .mk _ _ s cs => visibleRows s :: cs.map fun
    | .nil => []
    | .mk _ _ t _ => visibleRows t

/-- **C42** is false: the lists [1, 2], [3, 4], [5, 6], read in one batch. The child vector holds 5 and 6 only. -/
theorem list_batch_false : ((RdNode.list .none none (some nestedLengths) none (some nestedBytes)).nextBatch (rdOps growCodec 0 1) growCodec 0
      (.mk 0 .list (some (freshSlice 3)) [.mk 1 .byte (some (freshSlice 0)) []]) >>= fun y => .ok (shown y.1)) =
    .ok [[⟨false, .u64 2⟩, ⟨false, .u64 2⟩, ⟨false, .u64 2⟩], [⟨false, .u8 5⟩, ⟨false, .u8 6⟩]] := by
  decide +kernel

/-- **C42** is false: three maps with the keys (and values) [1, 2], [3, 4], [5, 6]. After skipping the first, the next row
is said to have the keys 5 and 6. -/
theorem map_skip_false : ((RdNode.map .none none (some nestedLengths) none (some nestedBytes) (some nestedBytes)).skip (rdOps growCodec 0 1) growCodec 0 1
      >>= fun r => r.nextBatch (rdOps growCodec 0 1) growCodec 0
        (.mk 0 .map (some (freshSlice 1)) [.mk 1 .byte (some (freshSlice 0)) [], .mk 2 .byte (some (freshSlice 0)) []]) >>= fun y => .ok (shown y.1)) =
    .ok [[⟨false, .int 2⟩], [⟨false, .u8 5⟩, ⟨false, .u8 6⟩], [⟨false, .u8 5⟩, ⟨false, .u8 6⟩]] := by
  decide +kernel

/-- Calling `next` `n` times. -/
def runNext {ρ α : Type} (next : ρ → Res (α × ρ)) : Nat → ρ → Res (List α)
  | 0, _ => .ok []
  | n + 1, r => do
    let (v, r) ← next r
    let vs ← runNext next n r
    pure (v :: vs)

theorem yields_of_run {ρ α : Type} (next : ρ → Res (α × ρ)) (n : Nat) (r : ρ) (vs : List α) (h : runNext next n r = .ok vs) : ∃ r', Yields next r vs r' := by
  induction n generalizing r vs with
  | zero => simp only [runNext, Res.ok.injEq] at h; subst h; exact ⟨r, rfl⟩
  | succ n ih =>
    obtain ⟨⟨v, r1⟩, h1, h2⟩ := Res.bind_ok_inv h
    obtain ⟨ws, h3, h4⟩ := Res.bind_ok_inv h2
    simp only [Res.pure_eq, Res.ok.injEq] at h4
    subst h4
    obtain ⟨r', h5⟩ := ih r1 ws h3
    exact ⟨r', r1, h1, h5⟩

/-- The hypotheses of the theorems above are met by these columns: the rows [1, 2], [3, 4], [5, 6] are left. -/
example : ListLeft growCodec (PlainLeft Empty .byte growCodec (fun _ => True) (fun _ => True)) none (some nestedLengths) (some nestedBytes)
    [some [⟨false, .u8 1⟩, ⟨false, .u8 2⟩], some [⟨false, .u8 3⟩, ⟨false, .u8 4⟩], some [⟨false, .u8 5⟩, ⟨false, .u8 6⟩]] := by
  have h1 := yields_of_run (IntReader.nextUInt64 growCodec) 3 nestedLengths [2, 2, 2] (by decide +kernel)
  obtain ⟨d, h2⟩ := yields_of_run (byteRead.next growCodec) 6 ⟨newStreamReader .none 100 2 7 nestedFile, []⟩
    [.u8 1, .u8 2, .u8 3, .u8 4, .u8 5, .u8 6] (by decide +kernel)
  refine ⟨by simp [FlagsLeft], ⟨by simp, h1⟩, _, rfl, _,
    [some (.u8 1), some (.u8 2), some (.u8 3), some (.u8 4), some (.u8 5), some (.u8 6)], rfl, ?_, rfl, rfl⟩
  exact ⟨d, rfl, h2, trivial⟩

example : Feeds (rdOps growCodec 0 1) (PlainLeft Empty .byte growCodec (fun _ => True) (fun _ => True)) :=
  (plain_feeds (rdOps growCodec 0 0) 0 .byte _ _ (fun _ => rfl) rfl byte_skips).1

end Goorc
