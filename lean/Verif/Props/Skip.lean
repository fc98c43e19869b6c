import Verif.Spec.Skip
import Verif.Proofs.Skip
import Verif.Props.Foreign
import Verif.Props.Dictionary
import Verif.Props.StructNulls
/-
C41 for readers in any state, of any file: skipping rows is reading them and forgetting what was read.
-/
namespace Goorc

/-- Read a batch and forget the rows. -/
def ReadKind.discard {ρ : Type} (R : ReadKind ρ) (c : Codec) (r : ColReader ρ) (vec : List Value) : Res (ColReader ρ) := do
  let (_, r) ← R.nextBatch c r vec
  pure r

theorem ReadKind.discard_eq {ρ : Type} {R : ReadKind ρ} {c : Codec} (hprep : ∀ d, R.prepare c d = .ok d) (r : ColReader ρ) (vec : List Value) :
    R.discard c r vec = R.nextRows c r vec >>= fun x => .ok x.2 := by
  simp only [ReadKind.discard, ReadKind.nextBatch, hprep, Res.ok_bind, Res.pure_eq]

/-- The old values `NextBatch` copes with: the readers of timestamps and decimals look at them. -/
def LeafTag.TakesOld : LeafTag → GoVal → Prop
  | .timestamp, v => ∃ l x n, v = .ts l x n
  | .decimal, v => ∃ p s, v = .dec p s
  | _, _ => True

/-- **C41** In every state, of whatever file, and whether or not the file is damaged: `Skip(n)` does the same as a batch of `n` rows,
it fails if and as that does, and leaves the reader in the same state. Binary columns are below. -/
theorem skip_is_reading (t : LeafTag) (ht : t ≠ .binary) (c : Codec) (r : ColReader t.ρ) (vec : List Value) (hu : ∀ v ∈ vec, v.null = false)
    (hv : ∀ v ∈ vec, t.TakesOld v.v) : t.read.skipRows c vec.length r = t.read.discard c r vec := by
  cases t with
  | byte =>
    rw [ReadKind.discard_eq fun _ => rfl]
    refine ReadKind.skipRows_eq (fun d => ?_) (fun _ => rfl) vec (fun _ _ x => ⟨x, rfl⟩) hu r
    simp only [LeafTag.read, byteRead, Res.pure_eq]
    cases d.nextByte c <;> rfl
  | bool =>
    rw [ReadKind.discard_eq fun _ => rfl]
    refine ReadKind.skipRows_eq (fun d => ?_) (fun _ => rfl) vec (fun _ _ x => ⟨x, rfl⟩) hu r
    simp only [LeafTag.read, boolRead, Res.pure_eq]
    cases BoolReader.next c d <;> rfl
  | int b =>
    rw [ReadKind.discard_eq fun _ => rfl]
    refine ReadKind.skipRows_eq (fun d => ?_) (fun _ => rfl) vec (fun _ _ x => ⟨x, rfl⟩) hu r
    simp only [LeafTag.read, intRead, Res.pure_eq]
    cases IntReader.nextInt64 c d <;> rfl
  | float is64 =>
    rw [ReadKind.discard_eq fun _ => rfl]
    refine ReadKind.skipRows_eq (fun d => ?_) (fun _ => rfl) vec (fun _ _ x => ⟨x, rfl⟩) hu r
    cases is64 with
    | true =>
      simp only [LeafTag.read, floatRead, Res.pure_eq, if_true]
      cases FloatReader.nextDouble c d <;> rfl
    | false =>
      simp only [LeafTag.read, floatRead, Res.pure_eq, Bool.false_eq_true, if_false]
      cases FloatReader.nextFloat c d <;> rfl
  | string =>
    rw [ReadKind.discard_eq fun _ => rfl]
    refine ReadKind.skipRows_eq (fun d => ?_) (fun _ => rfl) vec (fun _ _ x => ⟨x, rfl⟩) hu r
    simp only [LeafTag.read, stringRead, Res.pure_eq]
    cases TextReader.next c d <;> rfl
  | date =>
    rw [ReadKind.discard_eq fun _ => rfl]
    refine ReadKind.skipRows_eq (fun d => ?_) (fun _ => rfl) vec (fun _ _ x => ⟨x, rfl⟩) hu r
    simp only [LeafTag.read, dateRead, Res.pure_eq]
    cases DateReader.nextDate c d <;> rfl
  | timestamp =>
    rw [ReadKind.discard_eq fun _ => rfl]
    refine ReadKind.skipRows_eq (fun d => ?_) (fun _ => rfl) vec (fun old ho x => ?_) hu r
    · simp only [LeafTag.read, timestampRead, Res.pure_eq]
      cases IntReader.nextInt64 c d.data with
      | ok x => simp only [Res.ok_bind]; cases IntReader.nextUInt64 c d.secondary <;> rfl
      | err e => rfl
      | panic => rfl
      | hang => rfl
    · obtain ⟨l, y, n, hy⟩ := hv old ho
      exact ⟨old.v, by rw [hy]; rfl⟩
  | decimal =>
    rw [ReadKind.discard_eq fun _ => rfl]
    refine ReadKind.skipRows_eq (fun d => ?_) (fun _ => rfl) vec (fun old ho x => ?_) hu r
    · simp only [LeafTag.read, decimalRead, Res.pure_eq]
      cases nextVarint c d.data with
      | ok x => simp only [Res.ok_bind]; cases IntReader.nextInt64 c d.secondary <;> rfl
      | err e => rfl
      | panic => rfl
      | hang => rfl
    · obtain ⟨l, y, hy⟩ := hv old ho
      exact ⟨old.v, by rw [hy]; rfl⟩
  | binary => exact absurd rfl ht

/-- **C41** (partial) For binary columns: if a batch of `n` rows can be read, `Skip(n)` does the same. Missing: if it cannot, `Skip` may
report success (`binary_skip_swallows`). -/
theorem binary_skip_partial (c : Codec) (r r' : ColReader TextReader) (vec : List Value) (hu : ∀ v ∈ vec, v.null = false)
    (h : binaryRead.discard c r vec = .ok r') : binaryRead.skipRows c vec.length r = .ok r' := by
  rw [ReadKind.discard_eq fun _ => rfl] at h
  obtain ⟨⟨vs, r1⟩, h1, h2⟩ := Res.bind_ok_inv h
  cases h2
  exact ReadKind.skipRows_of_next binary_skips vec vs hu r _ h1

/-- **C41** is false for binary columns of damaged files: if the length of a value can be read but its bytes cannot, reading it fails and
`Skip` reports success, however many rows are to be skipped. -/
theorem binary_skip_swallows (c : Codec) (r : ColReader TextReader) (hp : r.present = none) (l : U64) (len : IntReader) (e : Err)
    (hl : r.data.length.nextUInt64 c = .ok (l, len)) (hb : nextBytes c r.data.data l.toNat = .err e) (vec : List Value) (hne : vec ≠ [])
    (hu : ∀ v ∈ vec, v.null = false) :
    binaryRead.discard c r vec = .err e ∧ ∃ r', binaryRead.skipRows c vec.length r = .ok r' := by
  cases vec with
  | nil => exact absurd rfl hne
  | cons v vec =>
    constructor
    · rw [ReadKind.discard_eq fun _ => rfl]
      simp only [ReadKind.nextRows, hp, Res.pure_eq, Res.ok_bind, hu v (by simp), Bool.false_eq_true, if_false]
      have : binaryRead.next c r.data = .err e := by simp [binaryRead, TextReader.next, hl, hb]
      rw [this]
      rfl
    · refine ⟨r, ?_⟩
      have : binaryRead.skipSwallows c r.data = true := by simp [binaryRead, hl, hb]
      simp only [List.length_cons, ReadKind.skipRows, hp, Res.pure_eq, Res.ok_bind, if_true, this]

/-- **C41** (partial) For dictionaries: if a batch of `n` rows can be read, and the dictionary has been loaded before, `Skip(n)` does the
same. Missing: `Skip` does not load the dictionary (the next batch does, C77), and does not notice an index that is out of range
(`dictionary_skip_unchecked`). -/
theorem dictionary_skip_partial (c : Codec) (fuel : Nat) (r r' : ColReader DictReader) (hl : r.data.loaded = true) (vec : List Value)
    (hu : ∀ v ∈ vec, v.null = false) (h : (dictRead fuel).discard c r vec = .ok r') : (dictRead fuel).skipRows c vec.length r = .ok r' := by
  have hprep : (dictRead fuel).prepare c r.data = .ok r.data := by simp [dictRead, hl]
  simp only [ReadKind.discard, ReadKind.nextBatch, hprep, Res.ok_bind, Res.pure_eq] at h
  obtain ⟨⟨vs, r1⟩, h1, h2⟩ := Res.bind_ok_inv h
  cases h2
  exact ReadKind.skipRows_of_next (dict_skips fuel) vec vs hu r _ h1

/-- **C41** is false for an index beyond the dictionary: reading the row panics, skipping it succeeds. -/
theorem dictionary_skip_unchecked (c : Codec) (fuel : Nat) (r : ColReader DictReader) (hl : r.data.loaded = true) (hp : r.present = none) (i : U64)
    (d : IntReader) (hi : r.data.data.nextUInt64 c = .ok (i, d)) (hout : r.data.strings.length ≤ i.toNat) (v : Value) (hv : v.null = false) :
    (dictRead fuel).discard c r [v] = .panic ∧ (dictRead fuel).skipRows c 1 r = .ok { r with data := { r.data with data := d } } := by
  have hprep : (dictRead fuel).prepare c r.data = .ok r.data := by simp [dictRead, hl]
  constructor
  · simp only [ReadKind.discard, ReadKind.nextBatch, hprep, Res.ok_bind, ReadKind.nextRows, hp, Res.pure_eq, hv, Bool.false_eq_true, if_false]
    have : (dictRead fuel).next c r.data = .panic := by
      simp only [dictRead, hi, Res.ok_bind]
      rw [List.getElem?_eq_none hout]
    rw [this]
    rfl
  · have : (dictRead fuel).skip c r.data = .ok { r.data with data := d } := by simp [dictRead, hi]
    have hs : (dictRead fuel).skipSwallows c r.data = false := rfl
    simp only [ReadKind.skipRows, hp, Res.pure_eq, Res.ok_bind, if_true, hs, Bool.false_eq_true, if_false, this]

/-! ### Structs -/

theorem LeafTag.prepares (t : LeafTag) (c : Codec) (d : t.ρ) : t.read.prepare c d = .ok d := by cases t <;> rfl

theorem LeafTag.skips (t : LeafTag) (c : Codec) : t.read.SkipsLikeNext c := by
  cases t with
  | byte => exact byte_skips
  | bool => exact bool_skips
  | int b => exact ints_skips b
  | float b => cases b; exact float_skips; exact double_skips
  | string => exact string_skips
  | binary => exact binary_skips
  | date => exact date_skips
  | timestamp =>
    intro d x d' h
    refine ⟨?_, rfl⟩
    simp only [LeafTag.read, timestampRead, Res.pure_eq] at h ⊢
    obtain ⟨y, h1, h2⟩ := Res.bind_ok_inv h
    obtain ⟨z, h3, h4⟩ := Res.bind_ok_inv h2
    cases h4
    simp only [h1, h3, Res.ok_bind]
  | decimal =>
    intro d x d' h
    refine ⟨?_, rfl⟩
    simp only [LeafTag.read, decimalRead, Res.pure_eq] at h ⊢
    obtain ⟨y, h1, h2⟩ := Res.bind_ok_inv h
    obtain ⟨z, h3, h4⟩ := Res.bind_ok_inv h2
    cases h4
    simp only [h1, h3, Res.ok_bind]

/-- Skipping in two steps, for columns without a present stream. -/
theorem ReadKind.skipRows_split {ρ : Type} {R : ReadKind ρ} {c : Codec} (r r' : ColReader ρ) (hp : r.present = none) (n : Nat)
    (h : R.skipRows c (n + 1) r = .ok r') : ∃ y, R.skipRows c 1 r = .ok y ∧ R.skipRows c n y = .ok r' ∧ y.present = none := by
  simp only [ReadKind.skipRows, hp, Res.pure_eq, Res.ok_bind, if_true] at h ⊢
  cases hs : R.skipSwallows c r.data with
  | true =>
    simp only [hs, if_true, Res.ok.injEq] at h
    subst h
    refine ⟨r, by simp, ?_, hp⟩
    cases n with
    | zero => rfl
    | succ n => simp only [ReadKind.skipRows, hp, Res.pure_eq, Res.ok_bind, if_true, hs]
  | false =>
    simp only [hs, Bool.false_eq_true, if_false] at h ⊢
    obtain ⟨d, h1, h2⟩ := Res.bind_ok_inv h
    exact ⟨{ r with present := none, data := d }, by rw [h1]; rfl, h2, rfl⟩

theorem LeafTree.split (c : Codec) (fuel n : Nat) : ∀ x : Rd n, LeafTree n x →
    (∀ x', (rdOps c fuel n).skip x 0 = .ok x' → x' = x) ∧
    ∀ m x', (rdOps c fuel n).skip x (m + 1) = .ok x' → ∃ y, (rdOps c fuel n).skip x 1 = .ok y ∧ (rdOps c fuel n).skip y m = .ok x' ∧ LeafTree n y := by
  induction n with
  | zero => intro x h; exact h.elim
  | succ n ih =>
    intro x hx
    change RdNode (Rd n) at x
    cases x with
    | leaf t r =>
      refine ⟨fun x' h => ?_, fun m x' h => ?_⟩
      · change RdNode.skip (rdOps c fuel n) c fuel (.leaf t r) 0 = .ok x' at h
        simp only [RdNode.skip, ReadKind.skipRows, Res.ok_bind, Res.pure_eq] at h
        exact (Res.ok.inj h).symm
      · change RdNode.skip (rdOps c fuel n) c fuel (.leaf t r) (m + 1) = .ok x' at h
        simp only [RdNode.skip, Res.pure_eq] at h
        obtain ⟨r', h1, h2⟩ := Res.bind_ok_inv h
        obtain ⟨y, k1, k2, k3⟩ := ReadKind.skipRows_split r r' hx m h1
        refine ⟨RdNode.leaf t y, ?_, ?_, k3⟩
        · change RdNode.skip (rdOps c fuel n) c fuel (.leaf t r) 1 = _
          simp only [RdNode.skip, k1, Res.ok_bind, Res.pure_eq]
          rfl
        · change RdNode.skip (rdOps c fuel n) c fuel (.leaf t y) m = _
          simp only [RdNode.skip, k2, Res.ok_bind, Res.pure_eq]
          exact h2
    | struct kind p i cs =>
      obtain ⟨rfl, hcs⟩ := hx
      refine ⟨fun x' h => ?_, fun m x' h => ?_⟩
      · change RdNode.skip (rdOps c fuel n) c fuel (.struct kind none i cs) 0 = .ok x' at h
        simp only [RdNode.skip, structSkip, Res.ok_bind, Res.pure_eq] at h
        exact (Res.ok.inj h).symm
      · change RdNode.skip (rdOps c fuel n) c fuel (.struct kind none i cs) (m + 1) = .ok x' at h
        simp only [RdNode.skip, structSkip, nextPresent, Res.ok_bind, Res.pure_eq, if_true] at h
        obtain ⟨⟨p', cs'⟩, h1, h2⟩ := Res.bind_ok_inv h
        obtain ⟨ys, h3, h4⟩ := Res.bind_ok_inv h1
        refine ⟨RdNode.struct kind none i ys, ?_, ?_, rfl, ?_⟩
        · change RdNode.skip (rdOps c fuel n) c fuel (.struct kind none i cs) 1 = _
          simp only [RdNode.skip, structSkip, nextPresent, h3, Res.ok_bind, Res.pure_eq, if_true]
          rfl
        · change RdNode.skip (rdOps c fuel n) c fuel (.struct kind none i ys) m = _
          simp only [RdNode.skip, h4, Res.ok_bind, Res.pure_eq]
          exact h2
        · have h5 := (skipAll_iff 1 cs ys).1 h3
          clear h h1 h2 h3 h4
          induction h5 with
          | nil => simp
          | cons k1 k2 ih2 =>
            intro z hz
            rcases List.mem_cons.1 hz with rfl | hz
            · obtain ⟨y, m1, -, m3⟩ := (ih _ (hcs _ (by simp))).2 0 _ k1
              rw [m1] at k1
              cases k1
              exact m3
            · exact ih2 (fun x hx => hcs x (List.mem_cons_of_mem _ hx)) z hz
    | _ => exact hx.elim

theorem LeafTree.children (c : Codec) (fuel : Nat) (marks : List Bool) (n : Nat)
    (ih : ∀ (x x' : Rd n) (v v' : Vec), LeafTree n x → MarkedBy marks n x v →
      (rdOps c fuel n).nextBatch x v = .ok (v', x') → (rdOps c fuel n).skip x (marks.countP (!·)) = .ok x')
    (cs cs' : List (Rd n)) (vs vs' : List Vec) (hcs : ∀ x ∈ cs, LeafTree n x) (hv : List.Forall₂ (MarkedBy marks n) cs vs)
    (h : childBatches (rdOps c fuel n) cs vs = .ok (vs', cs')) :
    List.Forall₂ (fun x x' => (rdOps c fuel n).skip x (marks.countP (!·)) = .ok x') cs cs' := by
  induction hv generalizing vs' cs' with
  | nil => cases h; exact .nil
  | cons h1 h2 ih2 =>
    simp only [childBatches, Res.pure_eq] at h
    obtain ⟨⟨w, x'⟩, k1, k2⟩ := Res.bind_ok_inv h
    obtain ⟨⟨ws, xs'⟩, k3, k4⟩ := Res.bind_ok_inv k2
    cases k4
    exact .cons (ih _ _ _ _ (hcs _ (by simp)) h1 k1) (ih2 _ _ (fun x hx => hcs x (List.mem_cons_of_mem _ hx)) k3)

theorem LeafTree.reads (c : Codec) (fuel : Nat) (marks : List Bool) (n : Nat) : ∀ (x x' : Rd n) (v v' : Vec), LeafTree n x → MarkedBy marks n x v →
    (rdOps c fuel n).nextBatch x v = .ok (v', x') → (rdOps c fuel n).skip x (marks.countP (!·)) = .ok x' := by
  induction n with
  | zero => intro x _ _ _ h; exact h.elim
  | succ n ih =>
    intro x x' v v' hx hm h
    change RdNode (Rd n) at x
    cases x with
    | leaf t r =>
      change RdNode.nextBatch (rdOps c fuel n) c fuel (.leaf t r) v = .ok (v', x') at h
      change RdNode.skip (rdOps c fuel n) c fuel (.leaf t r) _ = .ok x'
      simp only [RdNode.nextBatch, Res.pure_eq] at h
      obtain ⟨⟨w, r'⟩, h1, h2⟩ := Res.bind_ok_inv h
      cases v with
      | nil => cases h1
      | mk id k s vs =>
        simp only [leafBatch, ReadKind.nextBatch, t.prepares, Res.ok_bind, Res.pure_eq] at h1
        obtain ⟨⟨rows, r1⟩, h3, h4⟩ := Res.bind_ok_inv h1
        cases h4
        have h5 := ReadKind.skipRows_unmarked (t.skips c) _ _ _ _ hx h3
        have hc : (visibleRows s).countP (fun v => !v.null) = marks.countP (!·) := by
          rw [← (show (Vec.mk id k s vs).nulls = marks from hm)]
          simp only [Vec.nulls, Vec.rows, List.countP_map]
          rfl
        rw [hc] at h5
        simp only [RdNode.skip, h5, Res.ok_bind, Res.pure_eq]
        exact congrArg Res.ok (congrArg Prod.snd (Res.ok.inj h2))
    | struct kind p i cs =>
      obtain ⟨rfl, hcs⟩ := hx
      obtain ⟨id, k, s, vs, rfl, hv⟩ := hm
      change RdNode.nextBatch (rdOps c fuel n) c fuel (.struct kind none i cs) _ = .ok (v', x') at h
      change RdNode.skip (rdOps c fuel n) c fuel (.struct kind none i cs) _ = .ok x'
      simp only [RdNode.nextBatch, structBatch, Res.pure_eq, Res.ok_bind] at h
      obtain ⟨⟨w, p', cs'⟩, h1, h2⟩ := Res.bind_ok_inv h
      obtain ⟨⟨vs', cs1⟩, h3, h4⟩ := Res.bind_ok_inv h1
      cases h4
      have h5 := LeafTree.children c fuel marks n ih cs _ vs _ hcs hv h3
      have h6 := structSkip_none (c := c) (LeafTree n) _ cs _ hcs (fun x hx => (hx.split c fuel n x).1) (fun x hx x' m => (hx.split c fuel n x).2 m x') h5
      simp only [RdNode.skip, h6, Res.ok_bind, Res.pure_eq]
      exact congrArg Res.ok (congrArg Prod.snd (Res.ok.inj h2))
    | _ => exact hx.elim

theorem MarkedBy.fill (n : Nat) : ∀ (x : Rd n) (v v' : Vec) (marks flags : List Bool), LeafTree n x → MarkedBy marks n x v → marks.length ≤ flags.length →
    fillDown flags v = .ok v' → MarkedBy (flags.take marks.length) n x v' := by
  induction n with
  | zero => intro x _ _ _ _ h; exact h.elim
  | succ n ih =>
    intro x v v' marks flags hx hm hl h
    change RdNode (Rd n) at x
    cases v with
    | nil => cases h
    | mk id k s vs =>
      simp only [fillDown, Res.pure_eq] at h
      obtain ⟨s', h1, h2⟩ := Res.bind_ok_inv h
      obtain ⟨vs', h3, h4⟩ := Res.bind_ok_inv h2
      cases h4
      obtain ⟨k0, k1, k2, -⟩ := setNulls_ok h1
      cases x with
      | leaf t r =>
        have hm' : (visibleRows s).map (·.null) = marks := hm
        have hlen : (visibleRows s).length = marks.length := by rw [← hm', List.length_map]
        have : flags.length = marks.length := by omega
        change (visibleRows s').map (·.null) = flags.take marks.length
        rw [← this, List.take_length, ← k2, List.take_of_length_le (by rw [List.length_map]; omega)]
      | struct kind p i cs =>
        obtain ⟨-, hcs⟩ := hx
        obtain ⟨id', k', t, ws, he, hv⟩ := hm
        cases he
        refine ⟨id, k, s', vs', rfl, ?_⟩
        have hlen : flags.length ≤ ((visibleRows s').map (·.null)).length := by rw [List.length_map]; omega
        have htake : ((visibleRows s').map (·.null)).take marks.length = flags.take marks.length := by
          rw [← k2, List.take_take, Nat.min_eq_left hl]
        rw [← htake]
        generalize (visibleRows s').map (·.null) = fl at h3 hlen
        clear h1 k0 k1 k2 htake h h2
        induction hv generalizing vs' with
        | nil => cases h3; exact .nil
        | cons m1 m2 ih2 =>
          simp only [fillDownAll, Res.pure_eq] at h3
          obtain ⟨w, n1, n2⟩ := Res.bind_ok_inv h3
          obtain ⟨ws', n3, n4⟩ := Res.bind_ok_inv n2
          cases n4
          exact .cons (ih _ _ _ _ _ (hcs _ (by simp)) m1 (by omega) n1) (ih2 ws' (fun x hx => hcs x (List.mem_cons_of_mem _ hx)) n3)
      | _ => exact hx.elim

/-- **C41** (partial) For structs, nullable or not, of leaves and structs without a present stream of their own: if a batch of `m` rows can
be read, `Skip(m)` does the same. The vector has `m` rows for the struct, if it is nullable, and for the leaves, and none is marked null.
Missing: columns in a nullable struct with a present stream of their own, for which it is false (`struct_skip_false`). -/
theorem struct_skip_partial (c : Codec) (fuel n : Nat) (kind : CompKind) (p : Option BoolReader) (i : Option (List (List Nat))) (cs : List (Rd n))
    (hcs : ∀ x ∈ cs, LeafTree n x) (m : Nat) (v v' : Vec) (x' : Rd (n + 1)) (hp : p.isSome = true → v.rows.length = m)
    (hm : MarkedBy (List.replicate m false) (n + 1) (RdNode.struct kind p i cs : RdNode (Rd n)) v)
    (h : (rdOps c fuel (n + 1)).nextBatch (RdNode.struct kind p i cs : RdNode (Rd n)) v = .ok (v', x')) :
    (rdOps c fuel (n + 1)).skip (RdNode.struct kind p i cs : RdNode (Rd n)) m = .ok x' := by
  cases p with
  | none =>
    have := LeafTree.reads c fuel (List.replicate m false) (n + 1) _ x' v v' (show LeafTree (n + 1) (RdNode.struct kind none i cs : RdNode (Rd n)) from ⟨rfl, hcs⟩) hm h
    rw [List.countP_replicate] at this
    exact this
  | some p =>
    obtain ⟨vid, k, s, vs, rfl, hv⟩ := hm
    change RdNode.nextBatch (rdOps c fuel n) c fuel (.struct kind (some p) i cs) _ = .ok (v', x') at h
    change RdNode.skip (rdOps c fuel n) c fuel (.struct kind (some p) i cs) _ = .ok x'
    simp only [RdNode.nextBatch, structBatch, Res.pure_eq] at h
    obtain ⟨⟨v1, p1, cs1⟩, h1, h2⟩ := Res.bind_ok_inv h
    obtain ⟨⟨w, q⟩, g1, g2⟩ := Res.bind_ok_inv h1
    obtain ⟨⟨rows, p2⟩, g3, g4⟩ := Res.bind_ok_inv g1
    obtain ⟨w', g5, g6⟩ := Res.bind_ok_inv g4
    cases g6
    obtain ⟨flags, f1, f2, f3⟩ := readFlags_spec c p p2 _ _ g3
    have hm : flags.length = m := f3.trans (hp rfl)
    have hrl : rows.length = (visibleRows s).length := by rw [f2, List.length_zipWith, f3, Nat.min_self]
    have hrn : rows.map (·.null) = flags.map (!·) := by
      rw [f2]
      clear g3 f2 hrl g4 g5 hp
      generalize visibleRows s = us at f3
      clear f1 hm
      induction flags generalizing us with
      | nil => simp
      | cons b flags ih =>
        cases us with
        | nil => simp at f3
        | cons u us => simp [ih us (by simpa using f3)]
    simp only [fillNulls, Res.pure_eq, visibleRows_update s rows hrl, hrn] at g5
    obtain ⟨vs', g7, g8⟩ := Res.bind_ok_inv g5
    cases g8
    simp only [] at g2
    obtain ⟨⟨vs2, cs2⟩, g9, g10⟩ := Res.bind_ok_inv g2
    cases g10
    have hv' : List.Forall₂ (MarkedBy (flags.map (!·)) n) cs vs' := by
      clear g9 h h1 h2 g1 g2 g4 g5 hp
      induction hv generalizing vs' with
      | nil => cases g7; exact .nil
      | cons m1 m2 ih2 =>
        simp only [fillDownAll, Res.pure_eq] at g7
        obtain ⟨w, n1, n2⟩ := Res.bind_ok_inv g7
        obtain ⟨ws', n3, n4⟩ := Res.bind_ok_inv n2
        cases n4
        have := MarkedBy.fill n _ _ _ _ _ (hcs _ (by simp)) m1 (by simp [hm]) n1
        rw [List.take_of_length_le (by simp [hm])] at this
        exact .cons this (ih2 (fun x hx => hcs x (List.mem_cons_of_mem _ hx)) ws' n3)
    have h5 := LeafTree.children c fuel _ n (LeafTree.reads c fuel _ n) cs _ vs' _ hcs hv' g9
    have hcount : (flags.map (!·)).countP (!·) = flags.countP _root_.id := by
      rw [List.countP_map]
      congr 1
      funext b
      simp
    rw [hcount] at h5
    have h6 := structSkip_spec (LeafTree n) flags p p2 cs _ f1 hcs (fun x hx => (hx.split c fuel n x).1) (fun x hx x' m => (hx.split c fuel n x).2 m x') h5
    rw [hm] at h6
    simp only [RdNode.skip, h6, Res.ok_bind, Res.pure_eq]
    exact congrArg Res.ok (congrArg Prod.snd (Res.ok.inj h2))

/-! ### Examples -/

/-- **C41** is false for a column in a nullable struct that has a present stream of its own. The file has the flags 1, 0, 1 of the struct,
the flags 1, 1, 0 of the column, and its values 7 and 8. After reading two rows of the struct the column is at its third row, which is
null; after skipping two rows it is at its second. -/
theorem struct_skip_false :
    let x : RdNode (Rd 1) := RdNode.struct .none (some structFlags) none [structChild (some childFlags)]
    let vec (n : Nat) : Vec := .mk 0 .struct (some ⟨List.replicate n ⟨false, .nil⟩, n⟩) [.mk 1 .byte (some ⟨List.replicate n ⟨false, .nil⟩, n⟩) []]
    ((rdOps growCodec 0 2).nextBatch x (vec 2) >>= fun y => (rdOps growCodec 0 2).nextBatch y.2 (vec 1) >>= fun y => .ok (rowsBelow y.1)) =
      .ok [[⟨false, .nil⟩], [⟨true, .nil⟩]] ∧
    ((rdOps growCodec 0 2).skip x 2 >>= fun y => (rdOps growCodec 0 2).nextBatch y (vec 1) >>= fun y => .ok (rowsBelow y.1)) =
      .ok [[⟨false, .nil⟩], [⟨false, .u8 8⟩]] := by decide +kernel

/-- The hypotheses of `struct_skip_partial` are met by the struct of three rows, the second null, whose column has no present stream. -/
example : LeafTree 1 (structChild none) := rfl

example : MarkedBy (List.replicate 3 false) 2 (RdNode.struct .none (some structFlags) none [structChild none] : RdNode (Rd 1))
    (.mk 0 .struct (some ⟨List.replicate 3 ⟨false, .nil⟩, 3⟩) [.mk 1 .byte (some ⟨List.replicate 3 ⟨false, .nil⟩, 3⟩) []]) :=
  ⟨_, _, _, _, rfl, .cons rfl .nil⟩

example : ((rdOps growCodec 0 2).skip (RdNode.struct .none (some structFlags) none [structChild none] : RdNode (Rd 1)) 2 >>= fun y =>
      (rdOps growCodec 0 2).nextBatch y (.mk 0 .struct (some ⟨[⟨false, .nil⟩], 1⟩) [.mk 1 .byte (some ⟨[⟨false, .nil⟩], 1⟩) []]) >>= fun y => .ok (rowsBelow y.1)) =
    .ok [[⟨false, .nil⟩], [⟨false, .u8 8⟩]] := by decide +kernel

/-- A binary column of a damaged file: the length of its value is 3, but there are only two bytes. -/
def cutFile : Bytes := [0x00, 0x03, 0x41, 0x42]

def cutBinary : ColReader TextReader := ⟨false, .none, none, ⟨newStreamReader .none 100 2 2 cutFile, newIntReader false (newStreamReader .none 100 0 2 cutFile)⟩, none⟩

/-- Reading its first value fails with an unexpected end, skipping the value succeeds. -/
example : (∃ e, binaryRead.discard growCodec cutBinary [⟨false, .nil⟩] = .err e) ∧ ∃ r', binaryRead.skipRows growCodec 1 cutBinary = .ok r' := by
  have hl : ∃ len, cutBinary.data.length.nextUInt64 growCodec = .ok (3#64, len) := by
    cases h : cutBinary.data.length.nextUInt64 growCodec with
    | ok x =>
      have : (cutBinary.data.length.nextUInt64 growCodec >>= fun x => .ok x.1) = .ok 3#64 := by decide +kernel
      rw [h] at this
      exact ⟨x.2, congrArg Res.ok (Prod.ext (Res.ok.inj this) rfl)⟩
    | err e => exact absurd (show (cutBinary.data.length.nextUInt64 growCodec >>= fun x => .ok x.1) = .ok 3#64 by decide +kernel) (by rw [h]; nofun)
    | panic => exact absurd (show (cutBinary.data.length.nextUInt64 growCodec >>= fun x => .ok x.1) = .ok 3#64 by decide +kernel) (by rw [h]; nofun)
    | hang => exact absurd (show (cutBinary.data.length.nextUInt64 growCodec >>= fun x => .ok x.1) = .ok 3#64 by decide +kernel) (by rw [h]; nofun)
  obtain ⟨len, hl⟩ := hl
  have hb : nextBytes growCodec cutBinary.data.data (3#64).toNat = .err .other := by decide +kernel
  obtain ⟨h1, h2⟩ := binary_skip_swallows growCodec cutBinary rfl 3#64 len _ hl hb [⟨false, .nil⟩] (by simp) (by simp)
  exact ⟨⟨_, h1⟩, h2⟩

end Goorc
