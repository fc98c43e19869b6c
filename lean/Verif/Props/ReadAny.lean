import Verif.Proofs.ReadAny
import Verif.Props.ForeignFile
/-
C88: reading anything comes to an end.
-/
namespace Goorc

/-- Columns of every type come to an end. -/
theorem leaf_terminates : ∀ t : LeafTag, t.read.Terminates
  | .byte => byte_column_terminates
  | .bool => bool_column_terminates
  | .int b => ints_column_terminates_partial b
  | .float d => float_column_terminates d
  | .string => string_column_terminates_partial
  | .binary => binary_column_terminates_partial
  | .date => date_column_terminates_partial
  | .timestamp => timestamp_column_terminates_partial
  | .decimal => decimal_column_terminates_partial

/-! ### Opening a stripe -/

theorem newReaderTag_sat (kind : TypeKind) (enc : Encoding) : (newReaderTag kind enc).Sat false fun _ => True := by
  cases kind <;> cases enc <;> trivial

/-- The streams given to readers so far can be read. -/
def StreamsSane (rs : List (Option FlatRd)) : Prop := ∀ r, some r ∈ rs → ∀ s ∈ r.streams, s.2.Sane

theorem initColumns_sat (bo : BatchOption) (columns : List Encoding) : ∀ types, (initColumns bo columns types).Sat true fun rs => StreamsSane rs := by
  intro types
  induction types with
  | nil => exact fun _ h => nomatch h
  | cons t ts ih =>
    rw [initColumns]
    refine Res.Sat.bind (P := fun r : Option FlatRd => ∀ x, r = some x → x.streams = []) ?_ fun r _ hr => ih.bind fun rs _ hrs => ?_
    · split
      · split
        · exact rfl
        · exact (newReaderTag_sat _ _).weaken.bind fun tag _ _ => fun x hx => by cases hx; rfl
      · exact nofun
    · intro x hx s hs
      rcases List.mem_cons.1 hx with h | h
      · rw [hr x h.symm] at hs; cases hs
      · exact hrs x h s hs

theorem readAt_sat (file : Bytes) (start : Int) (n : Nat) : (readAt file start n).Sat false fun _ => True := by
  rw [readAt]
  split
  · trivial
  · split <;> trivial

theorem unmarshal_sat {α : Type} (f : Bytes → Option α) (b : Bytes) : (unmarshal f b).Sat false fun _ => True := by
  rw [unmarshal]
  split <;> trivial

theorem inflate_sat (c : Codec) (kind : CompKind) (b : Bytes) : (if kind = .none then pure b else decompressChunks c kind b : Res Bytes).Sat false fun _ => True := by
  split
  · trivial
  · exact decompressChunks_sat _ _ _

theorem initStreams_sat (E : Env) (ro : ROpts) (file : Bytes) (hro : ∀ start length, (newStreamReader ro.kind ro.chunkSize start length file).Sane) :
    ∀ (ss : List StreamInfo) (i d : Nat) (rs : List (Option FlatRd)), StreamsSane rs → (initStreams E ro file i d ss rs).Sat true StreamsSane := by
  intro ss
  induction ss with
  | nil => intro i d rs h; exact h
  | cons s ss ih =>
    intro i d rs h
    rw [initStreams]
    split
    · exact rfl
    · split
      · exact ih _ _ _ h
      · exact ih _ _ _ h
    · rename_i r hr
      have hmem : some r ∈ rs := List.mem_of_getElem? hr
      split
      · refine Res.Sat.bind (P := fun r' : FlatRd => r'.streams = r.streams) ?_ fun r' _ hr' => ih _ _ _ ?_
        · rw [initIndex]
          exact (readAt_sat _ _ _).weaken.bind fun b _ _ => (inflate_sat _ _ _).weaken.bind fun b' _ _ => (unmarshal_sat _ _).weaken.bind fun x _ _ => rfl
        · intro x hx t ht
          rcases List.mem_or_eq_of_mem_set hx with h' | h'
          · exact h x h' t ht
          · cases h'
            rw [hr'] at ht
            exact h r hmem t ht
      · refine Res.Sat.bind (P := fun r' : FlatRd => ∀ t ∈ r'.streams, t.2.Sane) ?_ fun r' _ hr' => ih _ _ _ ?_
        · rw [initStream]
          split
          · intro t ht
            simp only [List.mem_append, List.mem_singleton] at ht
            rcases ht with ht | rfl
            · exact h r hmem t ht
            · exact hro _ _
          · trivial
        · intro x hx t ht
          rcases List.mem_or_eq_of_mem_set hx with h' | h'
          · exact h x h' t ht
          · cases h'
            exact hr' t ht

theorem linkChildren_sat (bo : BatchOption) (kind : TypeKind) (parent : Option FlatRd) : ∀ (cs : List Nat) (i : Nat), (linkChildren bo kind parent i cs).Sat true fun _ => True := by
  intro cs
  induction cs with
  | nil => intro i; trivial
  | cons c cs ih =>
    intro i
    rw [linkChildren]
    refine Res.Sat.bind (P := fun _ => True) ?_ fun _ _ _ => ih _
    split
    · rw [linkChild.eq_def]
      split
      · split <;> trivial
      · split <;> trivial
      · split
        · split <;> trivial
        · trivial
      · trivial
    · trivial

theorem linkAll_sat (bo : BatchOption) : ∀ (types : List RdType) (rs : List (Option FlatRd)), (linkAll bo types rs).Sat true fun _ => True := by
  intro types
  induction types with
  | nil => intro rs; cases rs <;> trivial
  | cons t ts ih =>
    intro rs
    cases rs with
    | nil => trivial
    | cons r rs =>
      rw [linkAll]
      exact (linkChildren_sat bo t.kind r t.children 0).bind fun _ _ _ => ih rs

theorem treesOf_sat {α : Type} (f : Nat → Res α) (P : α → Prop) : ∀ is : List Nat, (∀ i ∈ is, (f i).Sat true P) → (treesOf f is).Sat true fun xs => ∀ x ∈ xs, P x := by
  intro is
  induction is with
  | nil => intro _; exact fun _ h => nomatch h
  | cons i is ih =>
    intro h
    rw [treesOf]
    refine (h i (by simp)).bind fun x _ hx => (ih fun j hj => h j (by simp [hj])).bind fun xs _ hxs => ?_
    intro y hy
    rcases List.mem_cons.1 hy with rfl | hy
    · exact hx
    · exact hxs y hy

theorem treeOn_sat {α : Type} (f : Nat → Res α) (P : α → Prop) (i : Option Nat) (h : ∀ j, i = some j → (f j).Sat true P) :
    (treeOn f i).Sat true fun x => ∀ y, x = some y → P y := by
  cases i with
  | none => exact nofun
  | some i => exact (h i rfl).bind fun x _ hx => fun y hy => by cases hy; exact hx

/-- Readers whose calls come to an end once the dictionaries have enough fuel. -/
def RdSafe (c : Codec) (n : Nat) (x : Rd n) : Prop := ∃ N, ∀ fuel, N ≤ fuel → RdFine c fuel n x

theorem safe_all {c : Codec} {n : Nat} (xs : List (Rd n)) (h : ∀ x ∈ xs, RdSafe c n x) : ∃ N, ∀ fuel, N ≤ fuel → ∀ x ∈ xs, RdFine c fuel n x := by
  induction xs with
  | nil => exact ⟨0, fun _ _ _ h => nomatch h⟩
  | cons x xs ih =>
    obtain ⟨N, hN⟩ := ih fun y hy => h y (by simp [hy])
    obtain ⟨M, hM⟩ := h x (by simp)
    refine ⟨max N M, fun fuel hf y hy => ?_⟩
    rcases List.mem_cons.1 hy with rfl | hy
    · exact hM fuel (by omega)
    · exact hN fuel (by omega) y hy

theorem safe_on {c : Codec} {n : Nat} (x : Option (Rd n)) (h : ∀ y, x = some y → RdSafe c n y) : ∃ N, ∀ fuel, N ≤ fuel → ∀ y, x = some y → RdFine c fuel n y := by
  cases x with
  | none => exact ⟨0, fun _ _ => nofun⟩
  | some x =>
    obtain ⟨N, hN⟩ := h x rfl
    exact ⟨N, fun fuel hf y hy => by cases hy; exact hN fuel hf⟩

theorem FlatRd.stream_sane {r : FlatRd} (h : ∀ s ∈ r.streams, s.2.Sane) (k : StreamKind) (s : StreamReader) (hs : r.stream k = some s) : s.Sane := by
  rw [FlatRd.stream] at hs
  obtain ⟨x, h1, h2⟩ := Option.map_eq_some_iff.mp hs
  rw [← h2]
  exact h x (List.mem_reverse.mp (List.mem_of_find?_eq_some h1))

theorem bare_sound (t : Option LeafTag) (c : Codec) : (bareRead t).Sound c true fun _ => True where
  prepare _ _ := by cases t <;> first | rfl | trivial
  next _ _ := by cases t <;> rfl
  store _ _ := by cases t <;> trivial
  skip _ _ := by cases t <;> rfl
  seek _ _ _ _ := by cases t <;> rfl

theorem bare_lasts (t : Option LeafTag) (c : Codec) (r : ColReader Unit) (hp : FlagsSane r.present) : (bareRead t).Lasts c r :=
  fun ops => ((bare_sound t c).roam_sat ops r ⟨trivial, hp⟩ nofun).not_hang

theorem treeOf_sat (c : Codec) (bo : BatchOption) (ro : ROpts) (types : List RdType) (rs : List (Option FlatRd)) (hrs : StreamsSane rs)
    (ht : ∀ i t, types[i]? = some t → ∀ j ∈ t.children, i < j ∧ j < types.length) :
    ∀ (n id : Nat), id < types.length → types.length ≤ id + n → (treeOf bo ro types rs n id).Sat true fun x => RdSafe c n x := by
  intro n
  induction n with
  | zero => intro id h1 h2; omega
  | succ n ih =>
    intro id h1 h2
    rw [treeOf]
    split
    · rename_i t r htyp hr
      have hmem : some r ∈ rs := List.mem_of_getElem? hr
      have hs := hrs r hmem
      have child : ∀ j ∈ t.children, (treeOf bo ro types rs n j).Sat true fun x => RdSafe c n x := fun j hj => by
        have := ht id t htyp j hj
        exact ih j this.2 (by omega)
      have hp : FlagsSane ((r.stream .present).map newBoolReader) := fun b hb => by
        obtain ⟨s, g1, g2⟩ := Option.map_eq_some_iff.mp hb
        rw [← g2]
        exact FlatRd.stream_sane hs _ s g1
      have hl : LengthSane ((r.stream .length).map (newIntReader false)) := fun b hb => by
        obtain ⟨s, g1, g2⟩ := Option.map_eq_some_iff.mp hb
        rw [← g2]
        exact FlatRd.stream_sane hs _ s g1
      split
      · rename_i l _
        show RdSafe c (n + 1) _
        rw [openLeaf]
        split
        · exact ⟨0, fun fuel _ => bare_lasts _ c _ hp⟩
        · rename_i x hx
          exact ⟨0, fun fuel _ ops => leaf_terminates l c ro.kind r.hasNulls r.streams x r.index ops hs hx⟩
      · show RdSafe c (n + 1) _
        rw [openLeaf]
        split
        · exact ⟨0, fun fuel _ => bare_lasts _ c _ hp⟩
        · rename_i x hx
          obtain ⟨N, hN⟩ := dictionary_column_terminates_partial c ro.kind r.hasNulls r.streams hs x hx
          exact ⟨N, fun fuel hf ops => (hN fuel hf).2 r.index ops⟩
      · refine (treesOf_sat _ (RdSafe c n) _ fun j hj => child j (List.mem_filter.1 hj).1).bind fun cs _ hcs => ?_
        obtain ⟨N, hN⟩ := safe_all cs hcs
        exact ⟨N, fun fuel hf => ⟨hp, hN fuel hf⟩⟩
      · refine (treeOn_sat _ (RdSafe c n) _ fun j hj => child j (List.mem_filter.1 (List.mem_of_getLast? hj)).1).bind fun x _ hx => ?_
        obtain ⟨N, hN⟩ := safe_on x hx
        exact ⟨N, fun fuel hf => ⟨hp, hl, hN fuel hf⟩⟩
      · have inc : ∀ i j, includedChild bo t.children i = some j → j ∈ t.children := by
          intro i j h
          rw [includedChild] at h
          split at h
          · rename_i k hk
            split at h
            · cases h; exact List.mem_of_getElem? hk
            · cases h
          · cases h
        refine (treeOn_sat _ (RdSafe c n) _ fun j hj => child j (inc 0 j hj)).bind fun x _ hx => (treeOn_sat _ (RdSafe c n) _ fun j hj => child j (inc 1 j hj)).bind fun y _ hy => ?_
        obtain ⟨N, hN⟩ := safe_on x hx
        obtain ⟨M, hM⟩ := safe_on y hy
        exact ⟨max N M, fun fuel hf => ⟨hp, hl, hN fuel (by omega), hM fuel (by omega)⟩⟩
    · rfl

/-- The types of a file that was opened: numbered from 0 on, and their children exist. -/
theorem opened_types {E : Env} {file : Bytes} {r : FileReader} (h : newReader E file = .ok r) :
    ∀ (i : Nat) (t : RdType), r.schemas[i]? = some t → t.id = i ∧ ∀ j ∈ t.children, j < r.schemas.length := by
  obtain ⟨ps, ft, footer, psB, flat, -, -, h2, -, rfl⟩ := (open_ok_iff E file r).1 h
  intro i t ht
  simp only [List.getElem?_mapIdx, Option.map_eq_some_iff] at ht
  obtain ⟨u, hu, rfl⟩ := ht
  refine ⟨rfl, fun j hj => ?_⟩
  rw [List.length_mapIdx]
  exact (h2 u (List.mem_of_getElem? hu)).1 j hj

/-- The parts of a batch reader whose calls come to an end. -/
def StripesSafe (c : Codec) (n : Nat) (hasNulls : List Bool) (ss : List (StripeReader (Rd n))) : Prop :=
  ∀ s ∈ ss, s.hasNulls = hasNulls ∧ ∀ x, s.reader = some x → RdSafe c n x

theorem initStripes_sat {E : Env} {file : Bytes} {r : FileReader} (h : newReader E file = .ok r) (ht : TypesOrdered r.schemas) (bo : BatchOption) :
    ∀ infos, (initStripes E r.opts bo file r.schemas infos).Sat true (StripesSafe E.c r.schemas.length (r.schemas.map (·.hasNulls))) := by
  have htypes : ∀ i t, r.schemas[i]? = some t → ∀ j ∈ t.children, i < j ∧ j < r.schemas.length := fun i t hi j hj => by
    have h1 := opened_types h i t hi
    have h2 := ht t (List.mem_of_getElem? hi) j hj
    rw [h1.1] at h2
    exact ⟨h2, h1.2 j hj⟩
  have hro := opened_streams_sane E file r h
  intro infos
  induction infos with
  | nil => exact fun _ h => nomatch h
  | cons info infos ih =>
    rw [initStripes]
    split
    · trivial
    · refine Res.Sat.bind (P := fun s : StripeReader (Rd r.schemas.length) => s.hasNulls = r.schemas.map (·.hasNulls) ∧ ∀ x, s.reader = some x → RdSafe E.c _ x) ?_ fun s _ hs => ih.bind fun ss _ hss => ?_
      · rw [newStripeReader]
        refine Res.Sat.bind (P := fun _ => True) ?_ fun footer _ _ => ?_
        · rw [readStripeFooter]
          refine (readAt_sat _ _ _).weaken.bind fun b _ _ => ?_
          refine Res.Sat.bind (P := fun _ => True) ?_ fun b' _ _ => (unmarshal_sat _ _).weaken
          split
          · exact (decompressChunks_sat _ _ _).weaken
          · trivial
        · refine Res.Sat.bind (P := fun x => ∀ y, x = some y → RdSafe E.c r.schemas.length y) ?_ fun x _ hx => ⟨rfl, hx⟩
          rw [initStripe]
          refine (initColumns_sat _ _ _).bind fun rs _ hrs => (initStreams_sat E r.opts file hro _ _ _ rs hrs).bind fun rs' _ hrs' => ?_
          refine (linkAll_sat _ _ _).bind fun _ _ _ => ?_
          refine treeOn_sat _ _ _ fun j hj => ?_
          obtain ⟨t, h1, h2⟩ := Option.map_eq_some_iff.mp hj
          have hmem := List.mem_of_find?_eq_some h1
          obtain ⟨i, hi, he⟩ := List.mem_iff_getElem.1 hmem
          have hid := (opened_types h i t (by rw [List.getElem?_eq_getElem hi, he])).1
          subst h2
          refine treeOf_sat E.c bo r.opts r.schemas rs' hrs' htypes _ _ ?_ ?_
          · omega
          · omega
      · intro x hx
        rcases List.mem_cons.1 hx with rfl | hx
        · exact hs
        · exact hss x hx

/-! ### Reading -/

/-- What holds of a batch reader between calls, with enough fuel. -/
def BatchFine {χ : Type} (P : χ → Prop) (hasNulls : List Bool) (rows : Nat) (br : BatchReader χ) : Prop :=
  ∀ s ∈ br.stripes, s.hasNulls = hasNulls ∧ s.numberOfRows ≤ rows ∧ ∀ x, s.reader = some x → P x

section
variable {χ : Type} {X : RdOps χ} {P : χ → Prop} {hasNulls : List Bool} {rows : Nat}

/-- One turn of the loop of `Next`: if there is room and it is not the end of the stripe, the stripe advances. -/
theorem stripe_next_sat (hX : X.Ends P) (s : StripeReader χ) (v : Vec) (h1 : s.hasNulls = hasNulls) (h3 : ∀ x, s.reader = some x → P x)
    (hv : v.Agrees hasNulls) (hroom : v.len < v.cap ∨ v.cap = 0) :
    (s.next X v).Sat true fun q => q.2.1.Agrees hasNulls ∧ q.2.1.cap = v.cap ∧ q.2.2.hasNulls = hasNulls ∧ q.2.2.numberOfRows = s.numberOfRows ∧
      (∀ x, q.2.2.reader = some x → P x) ∧ (q.1 = false → q.2.1.len < q.2.1.cap → s.cursor < q.2.2.cursor ∧ q.2.2.cursor < s.numberOfRows) := by
  rw [StripeReader.next]
  have hset := setVectorSize_sat s.hasNulls (if (s.numberOfRows : Int) - s.cursor < (v.cap : Int) - v.len then (s.numberOfRows : Int) - s.cursor else (v.cap : Int) - v.len) v
  refine Res.Sat.bind (x := s.prepareVector v) hset fun v1 _ hv1 => ?_
  cases hr : s.reader with
  | none => rfl
  | some x =>
    refine (hX.next x v1 (h3 x hr)).bind fun q _ hq => ?_
    have hlike : Vec.Like anyLen v q.1 := hv1.1.trans (fun _ _ _ _ _ => trivial) (hq.1.mono fun _ _ _ => trivial)
    refine ⟨hlike.agrees hv, hlike.cap, h1, rfl, fun y hy => by cases hy; exact hq.2, fun hend hlen => ?_⟩
    simp only [decide_eq_false_iff_not] at hend
    simp only at hlen ⊢
    have hcap : q.1.cap = v1.cap := hq.1.cap
    have hcap' : q.1.cap = v.cap := hlike.cap
    have hsize : (1 : Int) ≤ (if (s.numberOfRows : Int) - s.cursor < (v.cap : Int) - v.len then (s.numberOfRows : Int) - s.cursor else (v.cap : Int) - v.len) := by
      split <;> omega
    rcases hv1.2 (by rw [h1]; exact hv) hsize with hg | hg
    · have := (hg.like hq.1).len
      omega
    · omega

theorem nextLoop_sat (hX : X.Ends P) : ∀ (fuel : Nat) (br : BatchReader χ) (v : Vec), BatchFine P hasNulls rows br → v.Agrees hasNulls → (v.len < v.cap ∨ v.cap = 0) →
    (∀ s, br.stripes[br.stripeIndex.toNat]? = some s → 1 ≤ fuel ∧ s.numberOfRows < s.cursor + fuel) →
    (br.nextLoop X fuel v).Sat true fun q => BatchFine P hasNulls rows q.2 := by
  intro fuel
  induction fuel with
  | zero =>
    intro br v h hv hroom hf
    rw [BatchReader.nextLoop.eq_def]
    simp only
    split
    · rfl
    split
    · exact h
    · rename_i s hs
      have := hf s hs
      omega
  | succ fuel ih =>
    intro br v h hv hroom hf
    rw [BatchReader.nextLoop.eq_def]
    simp only
    split
    · rfl
    split
    · exact h
    · rename_i s hs
      have hmem := List.mem_of_getElem? hs
      obtain ⟨h1, h2, h3⟩ := h s hmem
      have hf := hf s hs
      refine (stripe_next_sat hX s v h1 h3 hv hroom).bind fun q _ hq => ?_
      obtain ⟨stripeEnd, v', s'⟩ := q
      obtain ⟨g1, g2, g3, g4, g5, g6⟩ := hq
      simp only at g1 g2 g3 g4 g5 g6 ⊢
      have hbr : BatchFine P hasNulls rows { br with stripes := br.stripes.set br.stripeIndex.toNat s' } := by
        intro t ht
        rcases List.mem_or_eq_of_mem_set ht with ht | rfl
        · exact h t ht
        · exact ⟨g3, by rw [g4]; exact h2, g5⟩
      split
      · exact hbr
      · split
        · exact hbr
        · rename_i he hlen
          have hprog := g6 (by simpa using he) (by omega)
          refine ih _ v' hbr g1 (.inl (by omega)) fun t ht => ?_
          simp only at ht
          rw [List.getElem?_set_self (by
            have := List.getElem?_eq_some_iff.1 hs
            exact this.1)] at ht
          cases ht
          omega

theorem next_sat (hX : X.Ends P) (fuel : Nat) (hf : rows < fuel) (br : BatchReader χ) (v : Vec) (h : BatchFine P hasNulls rows br) (hv : v.Agrees hasNulls) :
    (br.next X fuel v).Sat true fun q => BatchFine P hasNulls rows q.2.2 := by
  rw [BatchReader.next]
  refine (clear_sat v).bind fun v' _ hv' => ?_
  split
  · exact h
  · refine (nextLoop_sat hX fuel br v' h (hv'.1.agrees hv) ?_ fun s hs => ?_).bind fun q _ hq => ?_
    · rw [hv'.2]; omega
    · have := h s (List.mem_of_getElem? hs)
      omega
    · obtain ⟨b, br'⟩ := q
      simp only
      split
      · exact hq
      · exact hq

theorem seekLoop_sat (hX : X.Ends P) (br : BatchReader χ) (row : Nat) (h : BatchFine P hasNulls rows br) : ∀ (ss : List (StripeReader χ)) (i n : Nat),
    (∀ s ∈ ss, s.hasNulls = hasNulls ∧ s.numberOfRows ≤ rows ∧ ∀ x, s.reader = some x → P x) → (br.seekLoop X row i n ss).Sat true (BatchFine P hasNulls rows) := by
  intro ss
  induction ss with
  | nil => intro i n _; trivial
  | cons s ss ih =>
    intro i n hs
    rw [BatchReader.seekLoop]
    split
    · obtain ⟨h1, h2, h3⟩ := hs s (by simp)
      refine Res.Sat.bind (P := fun s' : StripeReader χ => s'.hasNulls = hasNulls ∧ s'.numberOfRows ≤ rows ∧ ∀ x, s'.reader = some x → P x) ?_ fun s' _ hs' => ?_
      · rw [StripeReader.seek]
        refine Res.Sat.bind (P := fun _ => True) ?_ fun off _ _ => ?_
        · split
          · trivial
          · split
            · rfl
            · trivial
        · cases hr : s.reader with
          | none => rfl
          | some x =>
            exact (hX.seek x 0 (h3 x hr)).bind fun y _ hy => (hX.skip y off hy).bind fun z _ hz => ⟨h1, h2, fun w hw => by cases hw; exact hz⟩
      · intro t ht
        rcases List.mem_or_eq_of_mem_set ht with ht | rfl
        · exact h t ht
        · exact hs'
    · exact ih _ _ fun t ht => hs t (by simp [ht])

theorem run_sat (hX : X.Ends P) (fuel : Nat) (hf : rows < fuel) : ∀ (ops : List FileOp) (br : BatchReader χ), BatchFine P hasNulls rows br →
    (∀ v, FileOp.next v ∈ ops → v.Agrees hasNulls) → (br.run X fuel ops).Sat true fun _ => True := by
  intro ops
  induction ops with
  | nil => intro br _ _; trivial
  | cons op ops ih =>
    intro br h hv
    have hrest : ∀ v, FileOp.next v ∈ ops → v.Agrees hasNulls := fun v hm => hv v (List.mem_cons_of_mem _ hm)
    cases op with
    | next v =>
      rw [BatchReader.run]
      exact (next_sat hX fuel hf br v h (hv v List.mem_cons_self)).bind fun q _ hq => ih q.2.2 hq hrest
    | seek row =>
      rw [BatchReader.run]
      refine Res.Sat.bind (P := BatchFine P hasNulls rows) ?_ fun br' _ hbr => ih br' hbr hrest
      rw [BatchReader.seek]
      split
      · trivial
      · exact seekLoop_sat hX br row h br.stripes 0 0 h

end

/-- **C88** Whatever the bytes are: if the types are numbered as the format wants it, making a batch reader comes to an end, and so does every sequence of calls
of `Next` and `Seek` on it, with any vectors that have flags for structs only where the file has nulls. (`fuel` bounds the loops of the model that are
not bounded by construction; there is a bound that suffices for all calls.) -/
theorem reading_terminates (E : Env) (file : Bytes) (r : FileReader) (h : newReader E file = .ok r) (ht : TypesOrdered r.schemas) (bo : BatchOption) :
    FileReader.createBatchReader E r bo ≠ .hang ∧
      ∀ br, FileReader.createBatchReader E r bo = .ok br → ∃ N, ∀ fuel, N ≤ fuel → ∀ ops : List FileOp,
        (∀ v, FileOp.next v ∈ ops → v.Agrees (r.schemas.map (·.hasNulls))) → br.run (rdOps E.c fuel r.schemas.length) fuel ops ≠ .hang := by
  have hfile : r.file = file := by
    obtain ⟨ps, ft, footer, psB, flat, -, -, -, -, rfl⟩ := (open_ok_iff E file r).1 h
    rfl
  have key : (FileReader.createBatchReader E r bo).Sat true fun br => StripesSafe E.c r.schemas.length (r.schemas.map (·.hasNulls)) br.stripes := by
    rw [FileReader.createBatchReader]
    split
    · trivial
    · rw [hfile]
      exact (initStripes_sat h ht bo r.stripes).bind fun ss _ hss => hss
  refine ⟨key.not_hang, fun br hbr => ?_⟩
  rw [hbr] at key
  have key : StripesSafe E.c r.schemas.length (r.schemas.map (·.hasNulls)) br.stripes := key
  -- enough fuel for all stripes
  obtain ⟨N, rows, hN⟩ : ∃ N rows, ∀ fuel, N ≤ fuel → ∀ s ∈ br.stripes, s.hasNulls = r.schemas.map (·.hasNulls) ∧ s.numberOfRows ≤ rows ∧
      ∀ x, s.reader = some x → RdFine E.c fuel r.schemas.length x := by
    clear hbr
    generalize br.stripes = ss at key
    induction ss with
    | nil => exact ⟨0, 0, fun _ _ _ h => nomatch h⟩
    | cons s ss ih =>
      obtain ⟨N, rows, hN⟩ := ih fun t ht => key t (List.mem_cons_of_mem _ ht)
      obtain ⟨h1, h2⟩ := key s List.mem_cons_self
      obtain ⟨M, hM⟩ := safe_on s.reader h2
      refine ⟨max N M, max rows s.numberOfRows, fun fuel hf t ht => ?_⟩
      rcases List.mem_cons.1 ht with rfl | ht
      · exact ⟨h1, by omega, hM fuel (by omega)⟩
      · have := hN fuel (by omega) t ht
        exact ⟨this.1, by omega, this.2.2⟩
  refine ⟨max N (rows + 1), fun fuel hf ops hops => ?_⟩
  exact (run_sat (rows := rows) (rdOps_ends E.c fuel r.schemas.length) fuel (by omega) ops br (hN fuel (by omega)) hops).not_hang

/-! ### Vectors of `CreateVector` -/

mutual
theorem createVec_agrees (hasNulls : List Bool) (o : BatchOption) : ∀ (s : Schema), (∀ c ∈ s.columns, c.node.hasNulls = true → hasNulls[c.node.id]? = some true) →
    ∀ v, createVec o s = .ok v → v.Agrees hasNulls
  | .mk n cs, h, v, hv => by
    have hself : n.hasNulls = true → hasNulls[n.id]? = some true := h (.mk n cs) (by simp [Schema.columns])
    have hkids : ∀ c ∈ columnsAll cs, c.node.hasNulls = true → hasNulls[c.node.id]? = some true := fun c hc => h c (by simp [Schema.columns, hc])
    rw [createVec] at hv
    split at hv
    · split at hv
      · obtain ⟨vs, h1, h2⟩ := Res.bind_ok_inv hv
        cases h2
        split
        · rename_i hn
          simp only [Bool.and_eq_true] at hn
          exact fun _ => hself hn.1
        · cases vs with
          | nil => trivial
          | cons c rest => exact createVecs_agrees hasNulls o cs hkids _ h1 c rest rfl
      · obtain ⟨x, h1, h2⟩ := Res.bind_ok_inv hv
        cases h2
        split
        · exact createNth_agrees hasNulls o cs hkids 0 x h1
        · rename_i hk _
          exact fun hs => by rw [hk] at hs; cases hs
      · obtain ⟨x, -, h2⟩ := Res.bind_ok_inv hv
        obtain ⟨y, -, h2⟩ := Res.bind_ok_inv h2
        cases h2
        rename_i hk
        exact fun hs => by rw [hk] at hs; cases hs
      · cases hv
      · cases hv
        split
        · trivial
        · rename_i h1 _ _ _ _
          exact fun hs => absurd hs h1
    · cases hv; trivial

theorem createVecs_agrees (hasNulls : List Bool) (o : BatchOption) : ∀ (cs : List Schema), (∀ c ∈ columnsAll cs, c.node.hasNulls = true → hasNulls[c.node.id]? = some true) →
    ∀ vs, createVecs o cs = .ok vs → ∀ v rest, vs = v :: rest → v.Agrees hasNulls
  | [], _, vs, hv, v, rest, he => by cases hv; cases he
  | c :: cs, h, vs, hv, v, rest, he => by
    rw [createVecs] at hv
    obtain ⟨x, h1, hv⟩ := Res.bind_ok_inv hv
    obtain ⟨xs, h2, hv⟩ := Res.bind_ok_inv hv
    have hc : ∀ d ∈ c.columns, d.node.hasNulls = true → hasNulls[d.node.id]? = some true := fun d hd => h d (by simp [columnsAll, hd])
    have hcs : ∀ d ∈ columnsAll cs, d.node.hasNulls = true → hasNulls[d.node.id]? = some true := fun d hd => h d (by simp [columnsAll, hd])
    have hx := createVec_agrees hasNulls o c hc x h1
    cases x with
    | nil => cases hv; exact createVecs_agrees hasNulls o cs hcs _ h2 v rest he
    | mk id k s ds => cases hv; cases he; exact hx

theorem createNth_agrees (hasNulls : List Bool) (o : BatchOption) : ∀ (cs : List Schema), (∀ c ∈ columnsAll cs, c.node.hasNulls = true → hasNulls[c.node.id]? = some true) →
    ∀ i v, createNth o cs i = .ok v → v.Agrees hasNulls
  | [], _, i, v, hv => by cases hv
  | c :: cs, h, 0, v, hv => createVec_agrees hasNulls o c (fun d hd => h d (by simp [columnsAll, hd])) v hv
  | c :: cs, h, i + 1, v, hv => createNth_agrees hasNulls o cs (fun d hd => h d (by simp [columnsAll, hd])) i v hv
end

/-- **C88** The vectors of `CreateVector` do: it is enough that the schema it is called on has no nulls where the file has none. -/
theorem created_agrees (hasNulls : List Bool) (s : Schema) (o : BatchOption) (h : ∀ c ∈ s.columns, c.node.hasNulls = true → hasNulls[c.node.id]? = some true)
    (v : Vec) (hv : createVector s o = .ok v) : v.Agrees hasNulls := by
  rw [createVector] at hv
  split at hv
  · cases hv
  · obtain ⟨_, -, hv⟩ := Res.bind_ok_inv hv
    exact createVec_agrees hasNulls o s h v hv

/-! ### Witnesses -/

/-- A struct without fields; `CreateVector` is told that it may have nulls. -/
def exBare : Schema := .mk ⟨0, .struct, .direct, true, []⟩ []

/-- The footer of a file with five rows of it, none of which is null. -/
def exBareFooter : FileFooter := ⟨3, 0, 5, [⟨3, 0, 0, 1, 5⟩], [⟨.struct, [], []⟩], [tinyStats false], 10000⟩

def exBareEnv : Env := tinyEnv [⟨[], [.direct]⟩] exBareFooter tinyScript

/-- **C88** is false without the condition on vectors: `Next` of a file of five rows of a struct without fields never returns, if the schema `CreateVector`
was called on says there may be nulls and the file says there are none. -/
theorem next_hangs : ∃ r br v, newReader exBareEnv (tinyFile [0#8]) = .ok r ∧ TypesOrdered r.schemas ∧ FileReader.createBatchReader exBareEnv r ⟨[], 10, false⟩ = .ok br ∧
    createVector exBare ⟨[], 10, false⟩ = .ok v ∧ ∀ fuel, br.next (rdOps exBareEnv.c fuel r.schemas.length) fuel v = .hang := by
  let s : StripeReader (Rd 1) := ⟨[false], some (RdNode.struct .none none none [] : RdNode (Rd 0)), 5, 0⟩
  let v0 : Vec := .mk 0 .struct (some ⟨List.replicate 10 ⟨false, .nil⟩, 0⟩) []
  refine ⟨⟨tinyFile [0#8], ⟨.none, 256 * 1024, 10000⟩, [⟨⟨0, .struct, [], []⟩, false⟩], 5, [tinyStats false], [⟨3, 0, 0, 1, 5⟩]⟩, ⟨10000, 0, [s], 5, 0⟩,
    .mk 0 .struct (some ⟨List.replicate 10 ⟨false, .nil⟩, 10⟩) [], rfl, by intro t ht; simp at ht; subst ht; simp, rfl, rfl, fun fuel => ?_⟩
  have turn : ∀ fuel, s.next (rdOps exBareEnv.c fuel 1) v0 = .ok (false, v0, s) := fun _ => rfl
  have loop : ∀ n, BatchReader.nextLoop (rdOps exBareEnv.c fuel 1) n ⟨10000, 0, [s], 5, 0⟩ v0 = .hang := by
    intro n
    induction n with
    | zero => rfl
    | succ n ih =>
      rw [BatchReader.nextLoop.eq_def]
      simp only [show ¬ ((0 : Int) < 0) by decide, if_false, Int.toNat_zero, List.getElem?_cons_zero, turn, Res.ok_bind, Bool.false_eq_true, if_false]
      rw [if_neg (by decide)]
      exact ih
  show (do
    let (batch, br) ← BatchReader.nextLoop (rdOps exBareEnv.c fuel 1) fuel ⟨10000, 0, [s], 5, 0⟩ v0
    let br := if br.stripeIndex = br.stripes.length then { br with stripeIndex := br.stripeIndex - 1 } else br
    let br := { br with cursor := br.cursor + batch.len }
    pure (decide (br.cursor ≥ br.numberOfRows - 1), batch, br) : Res (Bool × Vec × BatchReader (Rd 1))) = .hang
  rw [loop fuel]
  rfl

/-- The footer of a file whose only type is a struct that is its own field. -/
def exCycleFooter : FileFooter := ⟨3, 0, 5, [⟨3, 0, 0, 1, 5⟩], [⟨.struct, [0], ["self"]⟩], [tinyStats false], 10000⟩

/-- **C88** is false without the condition on types: a type that contains itself is opened, and is never-ending recursion. -/
theorem cyclic_types_hang : ∃ r, newReader (tinyEnv [⟨[], [.direct]⟩] exCycleFooter tinyScript) (tinyFile [0#8]) = .ok r ∧ ¬ TypesOrdered r.schemas ∧
    FileReader.createBatchReader (tinyEnv [⟨[], [.direct]⟩] exCycleFooter tinyScript) r ⟨[], 10, false⟩ = .hang := by
  refine ⟨⟨tinyFile [0#8], ⟨.none, 256 * 1024, 10000⟩, [⟨⟨0, .struct, ["self"], [0]⟩, false⟩], 5, [tinyStats false], [⟨3, 0, 0, 1, 5⟩]⟩, rfl, fun h => ?_, rfl⟩
  have := h _ (List.mem_singleton.2 rfl) 0 (by simp)
  simp at this

/-- The conditions of C88 are met by the file of C85, read with vectors of `CreateVector`: -/
example : ∃ r br v, newReader (exNamedEnv false) (exNamedFile false) = .ok r ∧ TypesOrdered r.schemas ∧
    FileReader.createBatchReader (exNamedEnv false) r ⟨[], 10, false⟩ = .ok br ∧ createVector exNamed ⟨[], 10, false⟩ = .ok v ∧
    v.Agrees (r.schemas.map (·.hasNulls)) := by
  refine ⟨_, _, _, rfl, ?_, rfl, rfl, ?_⟩
  · intro t ht
    simp at ht
    rcases ht with rfl | rfl | rfl <;> simp [Schema.node]
  · exact created_agrees _ exNamed ⟨[], 10, false⟩ (exNamed_columns nofun (fun _ => rfl) nofun) _ rfl

end Goorc
