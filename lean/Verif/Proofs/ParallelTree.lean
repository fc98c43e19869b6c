import Verif.Proofs.ParallelRead
/-
Trees of column readers, stripes and batch readers are programs.
-/
namespace Goorc

variable {c : Codec} {skips : Prop}

section Pairs

variable {σ τ υ σ₁ σ₂ σ₃ : Type} {A : Wires σ₁} {B : Wires σ₂} {C : Wires σ₃} {T : Wires τ} {L : Wires υ} {a : σ₁} {b : σ₂} {d : σ₃}

theorem RepAt.snd_fst {F : σ₂ → Res τ} {G : σ₁ → τ → σ₃ → Res υ} (h : RepAt c B T b F) (hd : C.ok d)
    (hG : ∀ t d, T.ok t → C.ok d → RepAt c (A.pair (T.pair C)) L (a, t, d) fun p => G p.1 p.2.1 p.2.2) :
    RepAt c (A.pair (B.pair C)) L (a, b, d) fun p => F p.2.1 >>= fun t => G p.1 t p.2.2 := by
  have h1 : RepAt c (B.pair C) (T.pair C) (b, d) fun q => F q.1 >>= fun t => .ok (t, q.2) :=
    h.fst (G := fun t x => .ok (t, x)) fun t ht => rep_same (H := T.pair C) ⟨ht, hd⟩
  refine RepAt.of (h1.snd (A := A) (a := a) (G := fun a x => G a x.1 x.2) fun x hx => hG x.1 x.2 hx.1 hx.2) rfl fun ss => ?_
  rw [Res.bind_assoc]
  rfl

theorem RepAt.snd_snd {F : σ₃ → Res τ} {G : σ₁ → σ₂ → τ → Res υ} (h : RepAt c C T d F) (hb : B.ok b)
    (hG : ∀ b t, B.ok b → T.ok t → RepAt c (A.pair (B.pair T)) L (a, b, t) fun p => G p.1 p.2.1 p.2.2) :
    RepAt c (A.pair (B.pair C)) L (a, b, d) fun p => F p.2.2 >>= fun t => G p.1 p.2.1 t := by
  have h1 : RepAt c (B.pair C) (B.pair T) (b, d) fun q => F q.2 >>= fun t => .ok (q.1, t) :=
    h.snd (G := fun x t => .ok (x, t)) fun t ht => rep_same (H := B.pair T) ⟨hb, ht⟩
  refine RepAt.of (h1.snd (A := A) (a := a) (G := fun a x => G a x.1 x.2) fun x hx => hG x.1 x.2 hx.1 hx.2) rfl fun ss => ?_
  rw [Res.bind_assoc]
  rfl

end Pairs

/-- Readers that are programs. -/
structure RdOps.Calls {χ : Type} (c : Codec) (skips : Prop) (X : RdOps χ) (H : Wires χ) : Prop where
  next : ∀ v x, H.ok x → RepAt c H (H.val (α := Vec)) x fun x => X.nextBatch x v
  skip : skips → ∀ n x, H.ok x → RepAt c H H x fun x => X.skip x n
  seek : skips → ∀ x, H.ok x → RepAt c H H x fun x => X.seekStride x 0

theorem rep_leafBatch {ρ : Type} {K : ReadKind ρ} {D : Wires ρ} (hK : K.Calls c skips D) (v : Vec) (r : ColReader ρ) :
    RepAt c D.col (D.col.val (α := Vec)) r fun r => leafBatch K c r v := by
  cases v with
  | nil => exact Rep.panic
  | mk id k s cs =>
    exact (rep_col_batch hK (visibleRows s) r).map (L := D.col.val) (fun x : List Value × ColReader ρ => (Vec.mk id k (updateRows s x.1) cs, x.2))
      fun _ ht => ⟨ht, rfl, fun _ => rfl⟩

theorem rep_readFlags : ∀ (vs : List Value) (p : BoolReader), RepAt c .bool (Wires.bool.val (α := List Value)) p fun p => readFlags c p vs
  | [], p => .ret ([], p) rfl trivial fun _ => rfl
  | v :: vs, p => (rep_bool_next p).bind (F' := fun x : Bool × BoolReader => readFlags c x.2 vs >>= fun y => pure ({ v with null := !x.1 } :: y.1, y.2)) fun x _ =>
      (rep_readFlags vs x.2).map (L := Wires.bool.val) (fun y : List Value × BoolReader => ({ v with null := !x.1 } :: y.1, y.2)) fun _ ht => ⟨ht, rfl, fun _ => rfl⟩

section Node

variable {χ : Type} {X : RdOps χ} {H : Wires χ}

theorem list_ok_cons {x : χ} {xs : List χ} (h : H.list.ok (x :: xs)) : H.ok x ∧ H.list.ok xs :=
  ⟨h x List.mem_cons_self, fun y hy => h y (List.mem_cons_of_mem _ hy)⟩

theorem list_ok_of {x : χ} {xs : List χ} (h : H.ok x) (hs : H.list.ok xs) : H.list.ok (x :: xs) := fun y hy => by
  rcases List.mem_cons.1 hy with rfl | hy
  · exact h
  · exact hs y hy

theorem rep_childBatches (hX : X.Calls c skips H) : ∀ (cs : List χ) (vs : List Vec), H.list.ok cs →
    RepAt c H.list (H.list.val (α := List Vec)) cs fun cs => childBatches X cs vs
  | [], vs, h => .ret (vs, []) rfl h fun _ => by rw [childBatches.eq_def]; rfl
  | x :: xs, [], h => Rep.panic
  | x :: xs, v :: vs, h => by
    obtain ⟨h1, h2⟩ := list_ok_cons h
    refine RepAt.of (H' := H.pair H.list) (s' := (x, xs)) (F' := fun p => X.nextBatch p.1 v >>= fun y => childBatches X p.2 vs >>= fun z =>
      pure (y.1 :: z.1, y.2 :: z.2)) ?_ rfl fun _ => rfl
    refine (hX.next v x h1).fst (B := H.list) (b := xs) (G := fun y xs => childBatches X xs vs >>= fun z => pure (y.1 :: z.1, y.2 :: z.2)) fun y hy => ?_
    refine (rep_childBatches hX xs vs h2).snd (A := H.val) (a := y) (G := fun y z => pure (y.1 :: z.1, y.2 :: z.2)) fun z hz => ?_
    exact .ret (y.1 :: z.1, y.2 :: z.2) rfl (list_ok_of hy hz) fun _ => rfl

theorem rep_structBatch (hX : X.Calls c skips H) (v : Vec) (p : Option BoolReader) (cs : List χ) (h : H.list.ok cs) :
    RepAt c (Wires.bool.opt.pair H.list) ((Wires.bool.opt.pair H.list).val (α := Vec)) (p, cs) fun q => structBatch X c q.1 q.2 v := by
  cases v with
  | nil => exact Rep.panic
  | mk id k s ws =>
    refine RepAt.fst (T := Wires.bool.opt.val (α := Vec)) (F := fun p : Option BoolReader => (match p with
        | none => pure (Vec.mk id k s ws, none)
        | some p => do
          let (rows, p) ← readFlags c p (visibleRows s)
          let v ← fillNulls (.mk id k (updateRows s rows) ws)
          pure (v, some p) : Res (Vec × Option BoolReader))) (B := H.list) (b := cs) (G := fun x cs => match x.1 with
        | .nil => .panic
        | .mk id k s ws => do
          let (ws, cs) ← childBatches X cs ws
          pure (Vec.mk id k s ws, x.2, cs)) ?_ ?_
    · cases p with
      | none => exact .ret (.mk id k s ws, none) rfl trivial fun _ => rfl
      | some p =>
        refine RepAt.of ((rep_readFlags (visibleRows s) p).bind (F' := fun x : List Value × BoolReader => fillNulls (.mk id k (updateRows s x.1) ws) >>= fun v =>
          pure (v, some x.2)) fun x _ => ?_) rfl fun _ => rfl
        exact Rep.pure (x := fillNulls (.mk id k (updateRows s x.1) ws)) (f := fun v ss => .ok (v, some (Wires.bool.put x.2 ss))) fun v => Rep.ret (K := Wires.bool.opt.val) (v, some x.2) rfl trivial
    · rintro ⟨v, p⟩ hp
      cases v with
      | nil => exact Rep.panic
      | mk id k s ws =>
        refine (rep_childBatches hX cs ws h).snd (A := Wires.bool.opt) (a := p) (G := fun p x => pure (Vec.mk id k s x.1, p, x.2)) fun x hx => ?_
        exact .ret (Vec.mk id k s x.1, p, x.2) rfl ⟨hp, hx⟩ fun _ => rfl

theorem rep_nextLength (l : Option IntReader) : RepAt c Wires.int.opt (Wires.int.opt.val (α := U64)) l (nextLength c) := by
  cases l with
  | none => exact Rep.panic
  | some l => exact RepAt.of ((rep_int_unsigned l).map (L := Wires.int.opt.val) (fun x : U64 × IntReader => (x.1, some x.2)) fun _ _ => ⟨trivial, rfl, fun _ => rfl⟩) rfl fun _ => rfl

theorem rep_nextFlag (old : Bool) (p : Option BoolReader) : RepAt c Wires.bool.opt (Wires.bool.opt.val (α := Bool)) p fun p => nextFlag c p old := by
  cases p with
  | none => exact .ret (old, none) rfl trivial fun _ => rfl
  | some p => exact RepAt.of ((rep_bool_next p).map (L := Wires.bool.opt.val) (fun x : Bool × BoolReader => (!x.1, some x.2)) fun _ _ => ⟨trivial, rfl, fun _ => rfl⟩) rfl fun _ => rfl

theorem rep_nextPresent (p : Option BoolReader) : RepAt c Wires.bool.opt (Wires.bool.opt.val (α := Bool)) p fun p => nextPresent c p := by
  cases p with
  | none => exact .ret (true, none) rfl trivial fun _ => rfl
  | some p => exact RepAt.of ((rep_bool_next p).map (L := Wires.bool.opt.val) (fun x : Bool × BoolReader => (x.1, some x.2)) fun _ _ => ⟨trivial, rfl, fun _ => rfl⟩) rfl fun _ => rfl

theorem rep_nextOn (hX : X.Calls c skips H) (v : Vec) (x : Option χ) (h : H.opt.ok x) : RepAt c H.opt (H.opt.val (α := Vec)) x fun x => nextOn X x v := by
  cases x with
  | none => exact Rep.panic
  | some x => exact RepAt.of ((hX.next v x h).map (L := H.opt.val) (fun x : Vec × χ => (x.1, some x.2)) fun _ ht => ⟨ht, rfl, fun _ => rfl⟩) rfl fun _ => rfl

theorem rep_count (null : Bool) (old : GoVal) (f : U64 → GoVal) (l : Option IntReader) :
    RepAt c Wires.int.opt ((Wires.int.opt.val (α := Nat)).val (α := GoVal)) l fun l => (if null then pure (old, 0, l)
      else do
        let (n, l) ← nextLength c l
        pure (f n, loopBound n, l) : Res (GoVal × Nat × Option IntReader)) := by
  cases null with
  | true => exact .ret (old, 0, l) rfl (int_opt_ok l) fun _ => rfl
  | false => exact (rep_nextLength l).map (L := Wires.val (Wires.val Wires.int.opt)) (fun x : U64 × Option IntReader => (f x.1, loopBound x.1, x.2)) fun _ ht => ⟨ht, rfl, fun _ => rfl⟩

/-- The readers of a list. -/
abbrev listWires (H : Wires χ) : Wires (Option BoolReader × Option IntReader × Option χ) := Wires.bool.opt.pair (Wires.int.opt.pair H.opt)

/-- The readers of a map. -/
abbrev mapWires (H : Wires χ) : Wires (Option BoolReader × Option IntReader × Option χ × Option χ) := Wires.bool.opt.pair (Wires.int.opt.pair (H.opt.pair H.opt))

theorem rep_listRows (hX : X.Calls c skips H) : ∀ (vs : List Value) (ws : List Vec) (p : Option BoolReader) (l : Option IntReader) (x : Option χ), H.opt.ok x →
    RepAt c (listWires H) (((listWires H).val (α := List Vec)).val (α := List Value)) (p, l, x) fun q => listRows X c q.1 q.2.1 q.2.2 vs ws
  | [], ws, p, l, x, h => .ret ([], ws, p, l, x) rfl ⟨bool_opt_ok _, int_opt_ok _, h⟩ fun _ => rfl
  | old :: vs, ws, p, l, x, h => by
    refine (rep_nextFlag old.null p).fst (B := Wires.int.opt.pair H.opt) (b := (l, x)) (G := fun f q => (if f.1 then pure (old.v, 0, q.1)
      else do
        let (n, l) ← nextLength c q.1
        pure (.u64 n, loopBound n, l) : Res (GoVal × Nat × Option IntReader)) >>= fun y => match ws with
      | [] => .panic
      | e :: ws => do
        let e ← prepareChild f.1 y.2.1 e
        let z ← nextOn X q.2 e
        let u ← listRows X c f.2 y.2.2 z.2 vs (z.1 :: ws)
        pure (⟨f.1, y.1⟩ :: u.1, u.2.1, u.2.2.1, u.2.2.2.1, u.2.2.2.2)) ?_
    rintro ⟨null, p⟩ -
    refine (rep_count null old.v GoVal.u64 l).snd_fst (A := Wires.bool.opt.val) (C := H.opt) (a := (null, p)) (d := x) (G := fun f y x => match ws with
      | [] => .panic
      | e :: ws => do
        let e ← prepareChild f.1 y.2.1 e
        let z ← nextOn X x e
        let u ← listRows X c f.2 y.2.2 z.2 vs (z.1 :: ws)
        pure (⟨f.1, y.1⟩ :: u.1, u.2.1, u.2.2.1, u.2.2.2.1, u.2.2.2.2)) h ?_
    rintro ⟨v, n, l⟩ x - hx
    cases ws with
    | nil => exact Rep.panic
    | cons e ws =>
      refine Rep.pure (x := prepareChild null n e) fun e => ?_
      refine (rep_nextOn hX e x hx).snd_snd (A := Wires.bool.opt) (B := Wires.int.opt) (a := p) (b := l) (G := fun p l z => do
        let u ← listRows X c p l z.2 vs (z.1 :: ws)
        pure (⟨null, v⟩ :: u.1, u.2.1, u.2.2.1, u.2.2.2.1, u.2.2.2.2)) (int_opt_ok l) ?_
      rintro l ⟨e, x⟩ - hx
      exact (rep_listRows hX vs (e :: ws) p l x hx).map (L := ((listWires H).val (α := List Vec)).val (α := List Value))
        (fun u : List Value × List Vec × Option BoolReader × Option IntReader × Option χ => (⟨null, v⟩ :: u.1, u.2.1, u.2.2.1, u.2.2.2.1, u.2.2.2.2)) fun _ ht => ⟨ht, rfl, fun _ => rfl⟩

theorem rep_mapRows (hX : X.Calls c skips H) : ∀ (vs : List Value) (ws : List Vec) (p : Option BoolReader) (l : Option IntReader) (x y : Option χ), H.opt.ok x →
    H.opt.ok y → RepAt c (mapWires H) (((mapWires H).val (α := List Vec)).val (α := List Value)) (p, l, x, y) fun q => mapRows X c q.1 q.2.1 q.2.2.1 q.2.2.2 vs ws
  | [], ws, p, l, x, y, h, h' => .ret ([], ws, p, l, x, y) rfl ⟨bool_opt_ok _, int_opt_ok _, h, h'⟩ fun _ => rfl
  | old :: vs, ws, p, l, x, y, h, h' => by
    refine (rep_nextFlag old.null p).fst (B := Wires.int.opt.pair (H.opt.pair H.opt)) (b := (l, x, y)) (G := fun f q => (if f.1 then pure (old.v, 0, q.1)
      else do
        let (n, l) ← nextLength c q.1
        pure (.int n.toInt, loopBound n, l) : Res (GoVal × Nat × Option IntReader)) >>= fun t => match ws with
      | e₁ :: e₂ :: ws => do
        let e₁ ← prepareChild f.1 t.2.1 e₁
        let e₂ ← prepareChild f.1 t.2.1 e₂
        let z₁ ← nextOn X q.2.1 e₁
        let z₂ ← nextOn X q.2.2 e₂
        let u ← mapRows X c f.2 t.2.2 z₁.2 z₂.2 vs (z₁.1 :: z₂.1 :: ws)
        pure (⟨f.1, t.1⟩ :: u.1, u.2.1, u.2.2.1, u.2.2.2.1, u.2.2.2.2.1, u.2.2.2.2.2)
      | _ => .panic) ?_
    rintro ⟨null, p⟩ -
    refine (rep_count null old.v (fun n => GoVal.int n.toInt) l).snd_fst (A := Wires.bool.opt.val) (C := H.opt.pair H.opt) (a := (null, p)) (d := (x, y))
      (G := fun f t q => match ws with
      | e₁ :: e₂ :: ws => do
        let e₁ ← prepareChild f.1 t.2.1 e₁
        let e₂ ← prepareChild f.1 t.2.1 e₂
        let z₁ ← nextOn X q.1 e₁
        let z₂ ← nextOn X q.2 e₂
        let u ← mapRows X c f.2 t.2.2 z₁.2 z₂.2 vs (z₁.1 :: z₂.1 :: ws)
        pure (⟨f.1, t.1⟩ :: u.1, u.2.1, u.2.2.1, u.2.2.2.1, u.2.2.2.2.1, u.2.2.2.2.2)
      | _ => .panic) ⟨h, h'⟩ ?_
    rintro ⟨v, n, l⟩ ⟨x, y⟩ - ⟨hx, hy⟩
    match ws with
    | [] => exact Rep.panic
    | [_] => exact Rep.panic
    | e₁ :: e₂ :: ws =>
      refine Rep.pure (x := prepareChild null n e₁) fun e₁ => ?_
      refine Rep.pure (x := prepareChild null n e₂) fun e₂ => ?_
      have hpair : RepAt c (H.opt.pair H.opt) ((H.opt.val (α := Vec)).pair (H.opt.val (α := Vec))) (x, y) fun q => nextOn X q.1 e₁ >>= fun z₁ =>
          nextOn X q.2 e₂ >>= fun z₂ => pure (z₁, z₂) := by
        refine (rep_nextOn hX e₁ x hx).fst (B := H.opt) (b := y) (G := fun z₁ y => nextOn X y e₂ >>= fun z₂ => pure (z₁, z₂)) fun z₁ hz₁ => ?_
        refine (rep_nextOn hX e₂ y hy).snd (A := H.opt.val) (a := z₁) (G := fun z₁ z₂ => pure (z₁, z₂)) fun z₂ hz₂ => ?_
        exact rep_same (H := (H.opt.val (α := Vec)).pair (H.opt.val (α := Vec))) ⟨hz₁, hz₂⟩
      refine RepAt.of (H := Wires.bool.opt.val.pair (Wires.int.opt.val.val.pair (H.opt.pair H.opt))) (s := ((null, p), (v, n, l), x, y)) (F := fun q => do
        let z₁ ← nextOn X q.2.2.1 e₁
        let z₂ ← nextOn X q.2.2.2 e₂
        let u ← mapRows X c q.1.2 q.2.1.2.2 z₁.2 z₂.2 vs (z₁.1 :: z₂.1 :: ws)
        pure (⟨q.1.1, q.2.1.1⟩ :: u.1, u.2.1, u.2.2.1, u.2.2.2.1, u.2.2.2.2.1, u.2.2.2.2.2)) (hpair.snd_snd (A := Wires.bool.opt) (B := Wires.int.opt) (a := p) (b := l) (G := fun p l z => do
        let u ← mapRows X c p l z.1.2 z.2.2 vs (z.1.1 :: z.2.1 :: ws)
        pure (⟨null, v⟩ :: u.1, u.2.1, u.2.2.1, u.2.2.2.1, u.2.2.2.2.1, u.2.2.2.2.2)) (int_opt_ok l) ?_) rfl fun ss => ?_
      · rintro l ⟨⟨e₁, x⟩, e₂, y⟩ - ⟨hx, hy⟩
        exact (rep_mapRows hX vs (e₁ :: e₂ :: ws) p l x y hx hy).map (L := ((mapWires H).val (α := List Vec)).val (α := List Value))
          (fun u : List Value × List Vec × Option BoolReader × Option IntReader × Option χ × Option χ =>
            (⟨null, v⟩ :: u.1, u.2.1, u.2.2.1, u.2.2.2.1, u.2.2.2.2.1, u.2.2.2.2.2)) fun _ ht => ⟨ht, rfl, fun _ => rfl⟩
      · simp only [Res.bind_assoc]
        rfl

/-- `NextBatch`. -/
theorem rep_node_next (fuel : Nat) (hX : X.Calls c skips H) (v : Vec) (x : RdNode χ) (h : (RdNode.wires skips H).ok x) :
    RepAt c (RdNode.wires skips H) ((RdNode.wires skips H).val (α := Vec)) x fun x => x.nextBatch X c fuel v := by
  cases x with
  | leaf t r =>
    exact RepAt.of ((rep_leafBatch (leaf_calls t h) v r).map (L := (RdNode.wires skips H).val (α := Vec)) (fun y : Vec × ColReader t.ρ => (y.1, .leaf t y.2))
      fun _ _ => ⟨h, rfl, fun _ => rfl⟩) rfl fun _ => rfl
  | dict r =>
    exact RepAt.of ((rep_leafBatch (dict_calls (skips := skips) fuel) v r).map (L := (RdNode.wires skips H).val (α := Vec)) (fun y : Vec × ColReader DictReader => (y.1, .dict y.2))
      fun _ _ => ⟨trivial, rfl, fun _ => rfl⟩) rfl fun _ => rfl
  | struct kind p i cs =>
    exact RepAt.of ((rep_structBatch hX v p cs h).map (L := (RdNode.wires skips H).val (α := Vec))
      (fun y : Vec × Option BoolReader × List χ => (y.1, .struct kind y.2.1 i y.2.2)) fun _ ht => ⟨ht.2, rfl, fun _ => rfl⟩) rfl fun _ => rfl
  | list kind p l i x =>
    cases v with
    | nil => exact Rep.panic
    | mk id k s ws =>
      exact RepAt.of ((rep_listRows hX (visibleRows s) ws p l x h).map (L := (RdNode.wires skips H).val (α := Vec))
        (fun y : List Value × List Vec × Option BoolReader × Option IntReader × Option χ =>
          (Vec.mk id k (updateRows s y.1) y.2.1, .list kind y.2.2.1 y.2.2.2.1 i y.2.2.2.2)) fun _ ht => ⟨ht.2.2, rfl, fun _ => rfl⟩) rfl fun _ => rfl
  | map kind p l i x y =>
    cases v with
    | nil => exact Rep.panic
    | mk id k s ws =>
      exact RepAt.of ((rep_mapRows hX (visibleRows s) ws p l x y h.1 h.2).map (L := (RdNode.wires skips H).val (α := Vec))
        (fun y : List Value × List Vec × Option BoolReader × Option IntReader × Option χ × Option χ =>
          (Vec.mk id k (updateRows s y.1) y.2.1, .map kind y.2.2.1 y.2.2.2.1 i y.2.2.2.2.1 y.2.2.2.2.2)) fun _ ht => ⟨ht.2.2, rfl, fun _ => rfl⟩) rfl fun _ => rfl
  | bare t r =>
    exact RepAt.of ((rep_leafBatch (bare_calls (skips := skips) t) v r).map (L := (RdNode.wires skips H).val (α := Vec)) (fun y : Vec × ColReader Unit => (y.1, .bare t y.2))
      fun _ _ => ⟨trivial, rfl, fun _ => rfl⟩) rfl fun _ => rfl

theorem rep_skipAll (hs : skips) (hX : X.Calls c skips H) (n : Nat) : ∀ cs : List χ, H.list.ok cs → RepAt c H.list H.list cs (skipAll X n)
  | [], h => .ret [] rfl h fun _ => rfl
  | x :: xs, h => by
    obtain ⟨h1, h2⟩ := list_ok_cons h
    refine RepAt.of (H' := H.pair H.list) (s' := (x, xs)) (F' := fun p => X.skip p.1 n >>= fun y => skipAll X n p.2 >>= fun z => pure (y :: z)) ?_ rfl fun _ => rfl
    refine (hX.skip hs n x h1).fst (B := H.list) (b := xs) (G := fun y xs => skipAll X n xs >>= fun z => pure (y :: z)) fun y hy => ?_
    refine (rep_skipAll hs hX n xs h2).snd (A := H) (a := y) (G := fun y z => pure (y :: z)) fun z hz => ?_
    exact .ret (y :: z) rfl (list_ok_of hy hz) fun _ => rfl

theorem rep_skipOn (hs : skips) (hX : X.Calls c skips H) (n : Nat) (x : Option χ) (h : H.opt.ok x) : RepAt c H.opt H.opt x (skipOn X n) := by
  cases x with
  | none => exact Rep.panic
  | some x => exact RepAt.of ((hX.skip hs n x h).map (L := H.opt) (fun x : χ => some x) fun _ ht => ⟨ht, rfl, fun _ => rfl⟩) rfl fun _ => rfl

theorem rep_structSkip (hs : skips) (hX : X.Calls c skips H) : ∀ (n : Nat) (p : Option BoolReader) (cs : List χ), H.list.ok cs →
    RepAt c (Wires.bool.opt.pair H.list) (Wires.bool.opt.pair H.list) (p, cs) fun q => structSkip X c n q.1 q.2
  | 0, p, cs, h => .ret (p, cs) rfl ⟨bool_opt_ok p, h⟩ fun _ => rfl
  | n + 1, p, cs, h => by
    refine (rep_nextPresent p).fst (B := H.list) (b := cs) (G := fun f cs => if f.1 then skipAll X 1 cs >>= fun cs => structSkip X c n f.2 cs
      else structSkip X c n f.2 cs) ?_
    rintro ⟨b, p⟩ -
    cases b with
    | true =>
      refine (rep_skipAll hs hX 1 cs h).snd (A := Wires.bool.opt.val (α := Bool)) (a := (true, p)) (G := fun f cs => structSkip X c n f.2 cs) fun cs hcs => ?_
      exact rep_structSkip hs hX n p cs hcs
    | false => exact rep_structSkip hs hX n p cs h

theorem rep_listSkip (hs : skips) (hX : X.Calls c skips H) : ∀ (n : Nat) (p : Option BoolReader) (l : Option IntReader) (x : Option χ), H.opt.ok x →
    RepAt c (listWires H) (listWires H) (p, l, x) fun q => listSkip X c n q.1 q.2.1 q.2.2
  | 0, p, l, x, h => .ret (p, l, x) rfl ⟨bool_opt_ok p, int_opt_ok l, h⟩ fun _ => rfl
  | n + 1, p, l, x, h => by
    refine (rep_nextPresent p).fst (B := Wires.int.opt.pair H.opt) (b := (l, x)) (G := fun f q => if f.1 then do
      let y ← nextLength c q.1
      let x ← skipOn X (loopBound y.1) q.2
      listSkip X c n f.2 y.2 x
    else listSkip X c n f.2 q.1 q.2) ?_
    rintro ⟨b, p⟩ -
    cases b with
    | false => exact rep_listSkip hs hX n p l x h
    | true =>
      have g : ∀ (t : U64 × Option IntReader) (x : Option χ), (Wires.val (α := U64) Wires.int.opt).ok t → H.opt.ok x →
          RepAt c (Wires.pair (Wires.val (α := Bool) Wires.bool.opt) ((Wires.val (α := U64) Wires.int.opt).pair H.opt)) (listWires H) ((true, p), t, x) fun q =>
            skipOn X (loopBound q.2.1.1) q.2.2 >>= fun x => listSkip X c n q.1.2 q.2.1.2 x := by
        rintro ⟨m, l⟩ x - hx
        refine RepAt.of (H' := listWires H) (s' := (p, l, x)) (F' := fun q => skipOn X (loopBound m) q.2.2 >>= fun x => listSkip X c n q.1 q.2.1 x) ?_ rfl fun _ => rfl
        refine RepAt.snd_snd (F := skipOn X (loopBound m)) (G := fun p l x => listSkip X c n p l x) (rep_skipOn hs hX (loopBound m) x hx) (int_opt_ok l) ?_
        rintro l x - hx
        exact rep_listSkip hs hX n p l x hx
      have key := RepAt.snd_fst (A := Wires.val (α := Bool) Wires.bool.opt) (B := Wires.int.opt) (C := H.opt) (L := listWires H) (a := (true, p)) (b := l) (d := x)
        (F := nextLength c) (G := fun f y x => skipOn X (loopBound y.1) x >>= fun x => listSkip X c n f.2 y.2 x) (rep_nextLength l) h g
      exact key

theorem rep_entrySkip (hs : skips) (hX : X.Calls c skips H) (m : Nat) : ∀ (n : Nat) (x y : Option χ), H.opt.ok x → H.opt.ok y →
    RepAt c (H.opt.pair H.opt) (H.opt.pair H.opt) (x, y) fun q => entrySkip X m n q.1 q.2
  | 0, x, y, h, h' => rep_same ⟨h, h'⟩
  | n + 1, x, y, h, h' => by
    refine (rep_skipOn hs hX m x h).fst (B := H.opt) (b := y) (G := fun x y => skipOn X m y >>= fun y => entrySkip X m n x y) fun x hx => ?_
    refine (rep_skipOn hs hX m y h').snd (A := H.opt) (a := x) (G := fun x y => entrySkip X m n x y) fun y hy => ?_
    exact rep_entrySkip hs hX m n x y hx hy

theorem rep_mapSkip (hs : skips) (hX : X.Calls c skips H) : ∀ (n : Nat) (p : Option BoolReader) (l : Option IntReader) (x y : Option χ), H.opt.ok x → H.opt.ok y →
    RepAt c (mapWires H) (mapWires H) (p, l, x, y) fun q => mapSkip X c n q.1 q.2.1 q.2.2.1 q.2.2.2
  | 0, p, l, x, y, h, h' => .ret (p, l, x, y) rfl ⟨bool_opt_ok p, int_opt_ok l, h, h'⟩ fun _ => rfl
  | n + 1, p, l, x, y, h, h' => by
    refine (rep_nextPresent p).fst (B := Wires.int.opt.pair (H.opt.pair H.opt)) (b := (l, x, y)) (G := fun f q => if f.1 then do
      let u ← nextLength c q.1
      let q ← entrySkip X (loopBound u.1) (loopBound u.1) q.2.1 q.2.2
      mapSkip X c n f.2 u.2 q.1 q.2
    else mapSkip X c n f.2 q.1 q.2.1 q.2.2) ?_
    rintro ⟨b, p⟩ -
    cases b with
    | false => exact rep_mapSkip hs hX n p l x y h h'
    | true =>
      refine (rep_nextLength l).snd_fst (A := Wires.bool.opt.val (α := Bool)) (C := H.opt.pair H.opt) (a := (true, p)) (d := (x, y)) (G := fun f u q =>
        entrySkip X (loopBound u.1) (loopBound u.1) q.1 q.2 >>= fun q => mapSkip X c n f.2 u.2 q.1 q.2) ⟨h, h'⟩ ?_
      rintro ⟨m, l⟩ ⟨x, y⟩ - ⟨hx, hy⟩
      refine (rep_entrySkip hs hX (loopBound m) (loopBound m) x y hx hy).snd_snd (A := Wires.bool.opt) (B := Wires.int.opt) (a := p) (b := l)
        (G := fun p l q => mapSkip X c n p l q.1 q.2) (int_opt_ok l) ?_
      rintro l ⟨x, y⟩ - ⟨hx, hy⟩
      exact rep_mapSkip hs hX n p l x y hx hy

/-- `Skip`. -/
theorem rep_node_skip (fuel : Nat) (hs : skips) (hX : X.Calls c skips H) (n : Nat) (x : RdNode χ) (h : (RdNode.wires skips H).ok x) :
    RepAt c (RdNode.wires skips H) (RdNode.wires skips H) x fun x => x.skip X c fuel n := by
  cases x with
  | leaf t r =>
    exact RepAt.of ((rep_col_skip hs (leaf_calls t h) n r).map (L := RdNode.wires skips H) (fun y : ColReader t.ρ => .leaf t y)
      fun _ _ => ⟨h, rfl, fun _ => rfl⟩) rfl fun _ => rfl
  | dict r =>
    exact RepAt.of ((rep_col_skip hs (dict_calls (skips := skips) fuel) n r).map (L := RdNode.wires skips H) (fun y : ColReader DictReader => .dict y)
      fun _ _ => ⟨trivial, rfl, fun _ => rfl⟩) rfl fun _ => rfl
  | struct kind p i cs =>
    exact RepAt.of ((rep_structSkip hs hX n p cs h).map (L := RdNode.wires skips H)
      (fun y : Option BoolReader × List χ => .struct kind y.1 i y.2) fun _ ht => ⟨ht.2, rfl, fun _ => rfl⟩) rfl fun _ => rfl
  | list kind p l i x =>
    exact RepAt.of ((rep_listSkip hs hX n p l x h).map (L := RdNode.wires skips H)
      (fun y : Option BoolReader × Option IntReader × Option χ => .list kind y.1 y.2.1 i y.2.2) fun _ ht => ⟨ht.2.2, rfl, fun _ => rfl⟩) rfl fun _ => rfl
  | map kind p l i x y =>
    exact RepAt.of ((rep_mapSkip hs hX n p l x y h.1 h.2).map (L := RdNode.wires skips H)
      (fun y : Option BoolReader × Option IntReader × Option χ × Option χ => .map kind y.1 y.2.1 i y.2.2.1 y.2.2.2) fun _ ht => ⟨ht.2.2, rfl, fun _ => rfl⟩) rfl
      fun _ => rfl
  | bare t r =>
    exact RepAt.of ((rep_col_skip hs (bare_calls (skips := skips) t) n r).map (L := RdNode.wires skips H) (fun y : ColReader Unit => .bare t y)
      fun _ _ => ⟨trivial, rfl, fun _ => rfl⟩) rfl fun _ => rfl

theorem rep_seekAll (hs : skips) (hX : X.Calls c skips H) : ∀ cs : List χ, H.list.ok cs → RepAt c H.list H.list cs (seekAll X 0)
  | [], h => .ret [] rfl h fun _ => rfl
  | x :: xs, h => by
    obtain ⟨h1, h2⟩ := list_ok_cons h
    refine RepAt.of (H' := H.pair H.list) (s' := (x, xs)) (F' := fun p => X.seekStride p.1 0 >>= fun y => seekAll X 0 p.2 >>= fun z => pure (y :: z)) ?_ rfl fun _ => rfl
    refine (hX.seek hs x h1).fst (B := H.list) (b := xs) (G := fun y xs => seekAll X 0 xs >>= fun z => pure (y :: z)) fun y hy => ?_
    refine (rep_seekAll hs hX xs h2).snd (A := H) (a := y) (G := fun y z => pure (y :: z)) fun z hz => ?_
    exact .ret (y :: z) rfl (list_ok_of hy hz) fun _ => rfl

theorem rep_seekOn (hs : skips) (hX : X.Calls c skips H) (x : Option χ) (h : H.opt.ok x) : RepAt c H.opt H.opt x (seekOn X 0) := by
  cases x with
  | none => exact Rep.panic
  | some x => exact RepAt.of ((hX.seek hs x h).map (L := H.opt) (fun x : χ => some x) fun _ ht => ⟨ht, rfl, fun _ => rfl⟩) rfl fun _ => rfl

theorem rep_seekFlags (p : Option BoolReader) : RepAt c Wires.bool.opt Wires.bool.opt p fun p => seekFlags c p (0, 0, [0, 0]) := by
  cases p with
  | none => exact rep_same trivial
  | some p => exact RepAt.of ((rep_bool_seek 0 0 0 0 p).map (L := Wires.bool.opt) (fun x : BoolReader => some x) fun _ _ => ⟨trivial, rfl, fun _ => rfl⟩) rfl fun _ => rfl

theorem rep_seekLength (l : Option IntReader) : RepAt c Wires.int.opt Wires.int.opt l fun l => seekLength c l (0, 0, [0]) := by
  cases l with
  | none => exact Rep.panic
  | some l => exact RepAt.of ((rep_int_seek 0 0 0 l).map (L := Wires.int.opt) (fun x : IntReader => some x) fun _ _ => ⟨trivial, rfl, fun _ => rfl⟩) rfl fun _ => rfl

theorem rep_seekOwn (kind : CompKind) (i : Option (List (List Nat))) (p : Option BoolReader) (l : Option IntReader) :
    RepAt c (Wires.bool.opt.pair Wires.int.opt) (Wires.bool.opt.pair Wires.int.opt) (p, l) fun q => seekOwn c kind q.1 q.2 i 0 := by
  refine (rep_seekFlags p).fst (B := Wires.int.opt) (b := l) (G := fun p l => seekLength c l (0, 0, [0]) >>= fun l => pure (p, l)) fun p hp => ?_
  refine (rep_seekLength l).snd (A := Wires.bool.opt) (a := p) (G := fun p l => pure (p, l)) fun l hl => ?_
  exact rep_same (H := Wires.bool.opt.pair Wires.int.opt) ⟨hp, hl⟩

/-- `SeekStride(0)`. -/
theorem rep_node_seek (fuel : Nat) (hs : skips) (hX : X.Calls c skips H) (x : RdNode χ) (h : (RdNode.wires skips H).ok x) :
    RepAt c (RdNode.wires skips H) (RdNode.wires skips H) x fun x => x.seekStride X c fuel 0 := by
  cases x with
  | leaf t r =>
    exact RepAt.of ((rep_col_seek (leaf_calls t h) r).map (L := RdNode.wires skips H) (fun y : ColReader t.ρ => .leaf t y)
      fun _ _ => ⟨h, rfl, fun _ => rfl⟩) rfl fun _ => rfl
  | dict r =>
    exact RepAt.of ((rep_col_seek (dict_calls (skips := skips) fuel) r).map (L := RdNode.wires skips H) (fun y : ColReader DictReader => .dict y)
      fun _ _ => ⟨trivial, rfl, fun _ => rfl⟩) rfl fun _ => rfl
  | struct kind p i cs =>
    refine RepAt.of (H' := Wires.bool.opt.pair H.list) (s' := (p, cs)) (F' := fun q => seekFlags c q.1 (0, 0, [0, 0]) >>= fun p => seekAll X 0 q.2 >>= fun cs =>
      pure (RdNode.struct kind p i cs)) ?_ rfl fun _ => rfl
    refine (rep_seekFlags p).fst (B := H.list) (b := cs) (G := fun p cs => seekAll X 0 cs >>= fun cs => pure (RdNode.struct kind p i cs)) fun p hp => ?_
    refine (rep_seekAll hs hX cs h).snd (A := Wires.bool.opt) (a := p) (G := fun p cs => pure (RdNode.struct kind p i cs)) fun cs hcs => ?_
    exact .ret (RdNode.struct kind p i cs) rfl hcs fun _ => rfl
  | list kind p l i x =>
    refine RepAt.of (H' := listWires H) (s' := (p, l, x)) (F' := fun q => seekFlags c q.1 (0, 0, [0, 0]) >>= fun p => seekLength c q.2.1 (0, 0, [0]) >>= fun l =>
      seekOn X 0 q.2.2 >>= fun x => pure (RdNode.list kind p l i x)) ?_ rfl fun ss => ?_
    · refine (rep_seekFlags p).fst (B := Wires.int.opt.pair H.opt) (b := (l, x)) (G := fun p q => seekLength c q.1 (0, 0, [0]) >>= fun l =>
        seekOn X 0 q.2 >>= fun x => pure (RdNode.list kind p l i x)) fun p hp => ?_
      refine (rep_seekLength l).snd_fst (A := Wires.bool.opt) (C := H.opt) (a := p) (d := x) (G := fun p l x =>
        seekOn X 0 x >>= fun x => pure (RdNode.list kind p l i x)) h fun l x hl hx => ?_
      refine (rep_seekOn hs hX x hx).snd_snd (A := Wires.bool.opt) (B := Wires.int.opt) (a := p) (b := l) (G := fun p l x => pure (RdNode.list kind p l i x))
        hl fun l x hl hx => ?_
      exact .ret (RdNode.list kind p l i x) rfl hx fun _ => rfl
    · show (seekOwn c kind _ _ i 0 >>= _) = _
      rw [seekOwn, if_pos rfl]
      simp only [Res.bind_assoc]
      rfl
  | map kind p l i x y =>
    refine RepAt.of (H' := mapWires H) (s' := (p, l, x, y)) (F' := fun q => seekFlags c q.1 (0, 0, [0, 0]) >>= fun p => seekLength c q.2.1 (0, 0, [0]) >>= fun l =>
      (seekOn X 0 q.2.2.1 >>= fun x => seekOn X 0 q.2.2.2 >>= fun y => .ok (x, y)) >>= fun z => pure (RdNode.map kind p l i z.1 z.2)) ?_ rfl fun ss => ?_
    · refine (rep_seekFlags p).fst (B := Wires.int.opt.pair (H.opt.pair H.opt)) (b := (l, x, y)) (G := fun p q => seekLength c q.1 (0, 0, [0]) >>= fun l =>
        (seekOn X 0 q.2.1 >>= fun x => seekOn X 0 q.2.2 >>= fun y => .ok (x, y)) >>= fun z => pure (RdNode.map kind p l i z.1 z.2)) fun p hp => ?_
      refine (rep_seekLength l).snd_fst (A := Wires.bool.opt) (C := H.opt.pair H.opt) (a := p) (d := (x, y)) (G := fun p l q =>
        (seekOn X 0 q.1 >>= fun x => seekOn X 0 q.2 >>= fun y => .ok (x, y)) >>= fun z => pure (RdNode.map kind p l i z.1 z.2)) h fun l q hl hq => ?_
      have hpair : RepAt c (H.opt.pair H.opt) (H.opt.pair H.opt) q fun q => seekOn X 0 q.1 >>= fun x => seekOn X 0 q.2 >>= fun y => .ok (x, y) := by
        obtain ⟨x, y⟩ := q
        refine (rep_seekOn hs hX x hq.1).fst (B := H.opt) (b := y) (G := fun x y => seekOn X 0 y >>= fun y => .ok (x, y)) fun x hx => ?_
        refine (rep_seekOn hs hX y hq.2).snd (A := H.opt) (a := x) (G := fun x y => .ok (x, y)) fun y hy => ?_
        exact rep_same (H := H.opt.pair H.opt) ⟨hx, hy⟩
      refine hpair.snd_snd (A := Wires.bool.opt) (B := Wires.int.opt) (a := p) (b := l) (G := fun p l z => pure (RdNode.map kind p l i z.1 z.2))
        hl fun l z hl hz => ?_
      exact .ret (RdNode.map kind p l i z.1 z.2) rfl hz fun _ => rfl
    · show (seekOwn c kind _ _ i 0 >>= _) = _
      rw [seekOwn, if_pos rfl]
      simp only [Res.bind_assoc]
      rfl
  | bare t r =>
    exact RepAt.of ((rep_col_seek (bare_calls (skips := skips) t) r).map (L := RdNode.wires skips H) (fun y : ColReader Unit => .bare t y)
      fun _ _ => ⟨trivial, rfl, fun _ => rfl⟩) rfl fun _ => rfl

end Node

end Goorc
