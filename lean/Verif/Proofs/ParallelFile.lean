import Verif.Proofs.ParallelTree
/-
Stripes and batch readers are programs.
-/
namespace Goorc

variable {c : Codec} {skips : Prop}

/-- Trees of readers. -/
theorem tree_calls (fuel : Nat) : ∀ n, (rdOps c fuel n).Calls c skips (Rd.wires skips n)
  | 0 => ⟨fun _ x => Empty.elim x, fun _ _ x => Empty.elim x, fun _ x => Empty.elim x⟩
  | n + 1 => ⟨rep_node_next fuel (tree_calls fuel n), fun hs => rep_node_skip fuel hs (tree_calls fuel n), fun hs => rep_node_seek fuel hs (tree_calls fuel n)⟩

section List

variable {σ α : Type} {S : Wires σ}

/-- One of several readers. -/
theorem rep_list_at {F : σ → Res (α × σ)} (hF : ∀ s, S.ok s → RepAt c S (S.val (α := α)) s F) : ∀ (l : List σ) (i : Nat), S.list.ok l →
    RepAt c S.list (S.list.val (α := α)) l fun l => match l[i]? with
      | none => .panic
      | some s => F s >>= fun x => .ok (x.1, l.set i x.2)
  | [], i, _ => Rep.panic
  | s :: l, 0, h => by
    obtain ⟨h1, h2⟩ := list_ok_cons h
    refine RepAt.of (H' := S.pair S.list) (s' := (s, l)) (F' := fun p => F p.1 >>= fun x => .ok (x.1, x.2 :: p.2)) ?_ rfl fun _ => rfl
    refine (hF s h1).fst (B := S.list) (b := l) (G := fun x l => .ok (x.1, x.2 :: l)) fun x hx => ?_
    exact .ret (x.1, x.2 :: l) rfl (list_ok_of hx h2) fun _ => rfl
  | s :: l, i + 1, h => by
    obtain ⟨h1, h2⟩ := list_ok_cons h
    refine RepAt.of (H' := S.pair S.list) (s' := (s, l)) (F' := fun p => (match p.2[i]? with
      | none => .panic
      | some s => F s >>= fun x => .ok (x.1, p.2.set i x.2)) >>= fun y => .ok (y.1, p.1 :: y.2)) ?_ rfl fun ss => ?_
    · refine (rep_list_at hF l i h2).snd (A := S) (a := s) (G := fun s y => .ok (y.1, s :: y.2)) fun y hy => ?_
      exact .ret (y.1, s :: y.2) rfl (list_ok_of h1 hy) fun _ => rfl
    · show (match (S.list.put l (ss.drop (S.size s)))[i]? with
        | none => Res.panic
        | some x => F x >>= fun x => .ok (x.1, (S.put s (ss.take (S.size s)) :: S.list.put l (ss.drop (S.size s))).set (i + 1) x.2)) =
        ((match (S.list.put l (ss.drop (S.size s)))[i]? with
          | none => Res.panic
          | some x => F x >>= fun x => .ok (x.1, (S.list.put l (ss.drop (S.size s))).set i x.2)) >>= fun y => .ok (y.1, S.put s (ss.take (S.size s)) :: y.2))
      cases (S.list.put l (ss.drop (S.size s)))[i]? with
      | none => rfl
      | some x =>
        dsimp only
        rw [Res.bind_assoc]
        rfl

theorem putAll_get : ∀ (l : List σ) (ss : List StreamReader) (i : Nat), ∃ m n, (S.putAll l ss)[i]? = l[i]?.map fun s => S.put s ((ss.drop m).take n)
  | [], ss, i => ⟨0, 0, rfl⟩
  | s :: l, ss, 0 => ⟨0, S.size s, rfl⟩
  | s :: l, ss, i + 1 => by
    obtain ⟨m, n, h⟩ := putAll_get l (ss.drop (S.size s)) i
    refine ⟨S.size s + m, n, ?_⟩
    rw [List.drop_drop] at h
    exact h

theorem putAll_length : ∀ (l : List σ) (ss : List StreamReader), (S.putAll l ss).length = l.length
  | [], _ => rfl
  | s :: l, ss => by rw [Wires.putAll, List.length_cons, putAll_length l, List.length_cons]

end List

section Stripe

variable {χ : Type} {X : RdOps χ} {H : Wires χ}

theorem rep_stripe_next (hX : X.Calls c skips H) (v : Vec) (s : StripeReader χ) (h : (StripeReader.wires H).ok s) :
    RepAt c (StripeReader.wires H) (Wires.val (α := Bool) (Wires.val (α := Vec) (StripeReader.wires H))) s fun s => s.next X v := by
  obtain ⟨hn, r, rows, cur⟩ := s
  refine Rep.pure (x := StripeReader.prepareVector ⟨hn, r, rows, cur⟩ v) (f := fun v ss => match ((StripeReader.wires H).put ⟨hn, r, rows, cur⟩ ss).reader with
    | none => .panic
    | some r => do
      let (vec, r) ← X.nextBatch r v
      let cursor := cur + vec.len
      pure (decide (cursor + 1 ≥ rows), vec, (⟨hn, some r, rows, cursor⟩ : StripeReader χ))) fun v => ?_
  cases r with
  | none => exact Rep.panic
  | some r =>
    exact (hX.next v r h).map (L := Wires.val (α := Bool) (Wires.val (α := Vec) (StripeReader.wires H)))
      (fun x : Vec × χ => (decide (cur + x.1.len + 1 ≥ rows), x.1, (⟨hn, some x.2, rows, cur + x.1.len⟩ : StripeReader χ))) fun _ ht => ⟨ht, rfl, fun _ => rfl⟩

theorem rep_stripe_seek (hs : skips) (hX : X.Calls c skips H) (stride row : Nat) (s : StripeReader χ) (h : (StripeReader.wires H).ok s) :
    RepAt c (StripeReader.wires H) (StripeReader.wires H) s fun s => s.seek X stride row := by
  obtain ⟨hn, r, rows, cur⟩ := s
  refine Rep.pure (x := (if row < stride then pure row else if stride = 0 then Res.panic else pure (row % (row / stride * stride)) : Res Nat))
    (f := fun o ss => match ((StripeReader.wires H).put ⟨hn, r, rows, cur⟩ ss).reader with
    | none => .panic
    | some r => do
      let r ← X.seekStride r 0
      let r ← X.skip r o
      pure (⟨hn, some r, rows, cur⟩ : StripeReader χ)) fun o => ?_
  cases r with
  | none => exact Rep.panic
  | some r =>
    refine RepAt.of (H := (StripeReader.wires H)) (s := ⟨hn, some r, rows, cur⟩) (F := fun s => match s.reader with
    | none => .panic
    | some r => do
      let r ← X.seekStride r 0
      let r ← X.skip r o
      pure (⟨hn, some r, rows, cur⟩ : StripeReader χ)) ((hX.seek hs r h).bind (F' := fun r => X.skip r o >>= fun r => pure (⟨hn, some r, rows, cur⟩ : StripeReader χ))
        fun r hr => ?_) rfl fun _ => rfl
    exact (hX.skip hs o r hr).map (L := StripeReader.wires H) (fun x : χ => (⟨hn, some x, rows, cur⟩ : StripeReader χ)) fun _ ht => ⟨ht, rfl, fun _ => rfl⟩

theorem nextLoop_zero (stride : Nat) (idx : Int) (l : List (StripeReader χ)) (rows cur : Nat) (v : Vec) :
    BatchReader.nextLoop X 0 ⟨stride, idx, l, rows, cur⟩ v = if idx < 0 then .panic else match l[idx.toNat]? with
      | none => .ok (v, ⟨stride, idx, l, rows, cur⟩)
      | some _ => .hang := by
  rw [BatchReader.nextLoop.eq_def]
  dsimp only
  cases l[idx.toNat]? <;> rfl

theorem nextLoop_succ (fuel stride : Nat) (idx : Int) (l : List (StripeReader χ)) (rows cur : Nat) (v : Vec) :
    BatchReader.nextLoop X (fuel + 1) ⟨stride, idx, l, rows, cur⟩ v = if idx < 0 then .panic else match l[idx.toNat]? with
      | none => .ok (v, ⟨stride, idx, l, rows, cur⟩)
      | some s => s.next X v >>= fun x =>
        if x.1 then pure (x.2.1, (⟨stride, idx + 1, l.set idx.toNat x.2.2, rows, cur⟩ : BatchReader χ))
        else if x.2.1.len ≥ x.2.1.cap then pure (x.2.1, (⟨stride, idx, l.set idx.toNat x.2.2, rows, cur⟩ : BatchReader χ))
        else BatchReader.nextLoop X fuel ⟨stride, idx, l.set idx.toNat x.2.2, rows, cur⟩ x.2.1 := by
  rw [BatchReader.nextLoop.eq_def]
  dsimp only
  cases l[idx.toNat]? <;> rfl

theorem rep_nextLoop (hX : X.Calls c skips H) : ∀ (fuel : Nat) (v : Vec) (br : BatchReader χ), (BatchReader.wires H).ok br →
    RepAt c (BatchReader.wires H) (Wires.val (α := Vec) (BatchReader.wires H)) br fun br => br.nextLoop X fuel v := by
  intro fuel
  induction fuel with
  | zero =>
    rintro v ⟨stride, idx, l, rows, cur⟩ h
    by_cases hidx : idx < 0
    · refine Rep.panic.congr fun ss _ => ?_
      show BatchReader.nextLoop X 0 ⟨stride, idx, Wires.putAll (StripeReader.wires H) l ss, rows, cur⟩ v = _
      rw [nextLoop_zero, if_pos hidx]
    cases hl : l[idx.toNat]? with
    | none =>
      refine (Rep.ret (K := Wires.val (α := Vec) (BatchReader.wires H)) (v, ⟨stride, idx, l, rows, cur⟩) rfl h).congr fun ss _ => ?_
      obtain ⟨m, n, hm⟩ := putAll_get (S := StripeReader.wires H) l ss idx.toNat
      show BatchReader.nextLoop X 0 ⟨stride, idx, Wires.putAll (StripeReader.wires H) l ss, rows, cur⟩ v = _
      rw [nextLoop_zero, if_neg hidx, hm, hl]
      rfl
    | some s =>
      refine Rep.hang.congr fun ss _ => ?_
      obtain ⟨m, n, hm⟩ := putAll_get (S := StripeReader.wires H) l ss idx.toNat
      show BatchReader.nextLoop X 0 ⟨stride, idx, Wires.putAll (StripeReader.wires H) l ss, rows, cur⟩ v = _
      rw [nextLoop_zero, if_neg hidx, hm, hl]
      rfl
  | succ fuel ih =>
    rintro v ⟨stride, idx, l, rows, cur⟩ h
    by_cases hidx : idx < 0
    · refine Rep.panic.congr fun ss _ => ?_
      show BatchReader.nextLoop X (fuel + 1) ⟨stride, idx, Wires.putAll (StripeReader.wires H) l ss, rows, cur⟩ v = _
      rw [nextLoop_succ, if_pos hidx]
    cases hl : l[idx.toNat]? with
    | none =>
      refine (Rep.ret (K := Wires.val (α := Vec) (BatchReader.wires H)) (v, ⟨stride, idx, l, rows, cur⟩) rfl h).congr fun ss _ => ?_
      obtain ⟨m, n, hm⟩ := putAll_get (S := StripeReader.wires H) l ss idx.toNat
      show BatchReader.nextLoop X (fuel + 1) ⟨stride, idx, Wires.putAll (StripeReader.wires H) l ss, rows, cur⟩ v = _
      rw [nextLoop_succ, if_neg hidx, hm, hl]
      rfl
    | some s =>
      have h1 := rep_list_at (c := c) (S := StripeReader.wires H) (α := Bool × Vec) (F := fun s => s.next X v >>= fun x => pure ((x.1, x.2.1), x.2.2))
        (fun s hs => (rep_stripe_next hX v s hs).map (L := Wires.val (α := Bool × Vec) (StripeReader.wires H))
          (fun x : Bool × Vec × StripeReader χ => ((x.1, x.2.1), x.2.2)) fun _ ht => ⟨ht, rfl, fun _ => rfl⟩) l idx.toNat h
      have h2 := h1.bind (L := Wires.val (α := Vec) (BatchReader.wires H)) (F' := fun y : (Bool × Vec) × List (StripeReader χ) =>
        if y.1.1 then pure (y.1.2, (⟨stride, idx + 1, y.2, rows, cur⟩ : BatchReader χ))
        else if y.1.2.len ≥ y.1.2.cap then pure (y.1.2, (⟨stride, idx, y.2, rows, cur⟩ : BatchReader χ))
        else BatchReader.nextLoop X fuel ⟨stride, idx, y.2, rows, cur⟩ y.1.2) (by
          rintro ⟨⟨b, w⟩, l'⟩ hl'
          cases b with
          | true => exact Rep.ret (K := Wires.val (α := Vec) (BatchReader.wires H)) (w, (⟨stride, idx + 1, l', rows, cur⟩ : BatchReader χ)) rfl hl'
          | false =>
            refine Rep.ite (p := w.len ≥ w.cap) (fun _ => ?_) fun _ => ?_
            · exact Rep.ret (K := Wires.val (α := Vec) (BatchReader.wires H)) (w, (⟨stride, idx, l', rows, cur⟩ : BatchReader χ)) rfl hl'
            · exact ih w ⟨stride, idx, l', rows, cur⟩ hl')
      refine Rep.congr h2 fun ss _ => ?_
      obtain ⟨m, n, hm⟩ := putAll_get (S := StripeReader.wires H) l ss idx.toNat
      refine Eq.trans (b := BatchReader.nextLoop X (fuel + 1) ⟨stride, idx, Wires.putAll (StripeReader.wires H) l ss, rows, cur⟩ v) rfl ?_
      have e : (StripeReader.wires H).list.put l ss = Wires.putAll (StripeReader.wires H) l ss := rfl
      dsimp only
      rw [e]
      rw [nextLoop_succ, if_neg hidx, hm, hl]
      dsimp only [Option.map_some]
      simp only [Res.bind_assoc]
      rfl

theorem rep_next (hX : X.Calls c skips H) (fuel : Nat) (v : Vec) (br : BatchReader χ) (h : (BatchReader.wires H).ok br) :
    RepAt c (BatchReader.wires H) (Wires.val (α := Bool) (Wires.val (α := Vec) (BatchReader.wires H))) br fun br => br.next X fuel v := by
  obtain ⟨stride, idx, l, rows, cur⟩ := br
  refine Rep.pure (x := v.clear) (f := fun v ss => if cur ≥ rows - 1 then pure (true, v, (BatchReader.wires H).put ⟨stride, idx, l, rows, cur⟩ ss)
    else do
      let (batch, br) ← BatchReader.nextLoop X fuel ((BatchReader.wires H).put ⟨stride, idx, l, rows, cur⟩ ss) v
      let br := if br.stripeIndex = br.stripes.length then { br with stripeIndex := br.stripeIndex - 1 } else br
      let br := { br with cursor := br.cursor + batch.len }
      pure (decide (br.cursor ≥ br.numberOfRows - 1), batch, br)) fun v => Rep.ite (fun _ => ?_) fun _ => ?_
  · exact Rep.ret (K := Wires.val (α := Bool) (Wires.val (α := Vec) (BatchReader.wires H))) (true, v, (⟨stride, idx, l, rows, cur⟩ : BatchReader χ)) rfl h
  · refine (rep_nextLoop hX fuel v ⟨stride, idx, l, rows, cur⟩ h).bind (L := Wires.val (α := Bool) (Wires.val (α := Vec) (BatchReader.wires H)))
      (F' := fun x : Vec × BatchReader χ =>
        let br := if x.2.stripeIndex = x.2.stripes.length then { x.2 with stripeIndex := x.2.stripeIndex - 1 } else x.2
        let br := { br with cursor := br.cursor + x.1.len }
        pure (decide (br.cursor ≥ br.numberOfRows - 1), x.1, br)) ?_
    rintro ⟨w, stride, idx, l, rows, cur⟩ hbr
    have hlen : ∀ ss, (Wires.putAll (StripeReader.wires H) l ss).length = l.length := putAll_length l
    by_cases hi : idx = l.length
    · refine RepAt.ret (decide (cur + w.len ≥ rows - 1), w, (⟨stride, idx - 1, l, rows, cur + w.len⟩ : BatchReader χ)) rfl hbr fun ss => ?_
      dsimp only
      rw [if_pos]
      · rfl
      · show idx = ((Wires.putAll (StripeReader.wires H) l ss).length : Int)
        rw [hlen, hi]
    · refine RepAt.ret (decide (cur + w.len ≥ rows - 1), w, (⟨stride, idx, l, rows, cur + w.len⟩ : BatchReader χ)) rfl hbr fun ss => ?_
      dsimp only
      rw [if_neg]
      · rfl
      · show ¬ idx = ((Wires.putAll (StripeReader.wires H) l ss).length : Int)
        rw [hlen]
        exact hi

theorem rep_seekLoop (hs : skips) (hX : X.Calls c skips H) (row : Nat) (br : BatchReader χ) (h : (BatchReader.wires H).ok br) :
    ∀ (ss : List (StripeReader χ)) (i rows : Nat), br.stripes.drop i = ss →
      RepAt c (BatchReader.wires H) (BatchReader.wires H) br fun br => br.seekLoop X row i rows (br.stripes.drop i) := by
  intro ss
  induction ss with
  | nil =>
    intro i rows hi
    refine (Rep.err .other).congr fun ss _ => ?_
    show BatchReader.seekLoop X _ row i rows ((Wires.putAll (StripeReader.wires H) br.stripes ss).drop i) = _
    have : (Wires.putAll (StripeReader.wires H) br.stripes ss).drop i = [] := by
      rw [List.drop_eq_nil_iff, putAll_length]
      exact List.drop_eq_nil_iff.1 hi
    rw [this]
    rfl
  | cons s ss ih =>
    intro i rows hi
    have hlt : i < br.stripes.length := by
      rcases Nat.lt_or_ge i br.stripes.length with h | h
      · exact h
      · rw [List.drop_eq_nil_of_le h] at hi; cases hi
    have hget : br.stripes[i]? = some s := by
      have := congrArg List.head? hi
      rw [List.head?_drop] at this
      exact this
    have hdrop : br.stripes.drop (i + 1) = ss := by
      rw [← List.tail_drop, hi]; rfl
    have key : ∀ l, ∃ s' : StripeReader χ, (Wires.putAll (StripeReader.wires H) br.stripes l)[i]? = some s' ∧ s'.numberOfRows = s.numberOfRows ∧
        (Wires.putAll (StripeReader.wires H) br.stripes l).drop i = s' :: (Wires.putAll (StripeReader.wires H) br.stripes l).drop (i + 1) := by
      intro l
      obtain ⟨m, n, hm⟩ := putAll_get (S := StripeReader.wires H) br.stripes l i
      rw [hget] at hm
      refine ⟨_, hm, rfl, ?_⟩
      obtain ⟨hl, he⟩ := List.getElem?_eq_some_iff.1 hm
      rw [List.drop_eq_getElem_cons hl, he]
    by_cases hr : rows + s.numberOfRows > row
    · have h1 := rep_list_at (c := c) (S := StripeReader.wires H) (α := Unit) (F := fun s => s.seek X br.indexStride (row - rows) >>= fun x => pure ((), x))
        (fun s hs' => (rep_stripe_seek hs hX br.indexStride (row - rows) s hs').map (L := Wires.val (α := Unit) (StripeReader.wires H))
          (fun x : StripeReader χ => ((), x)) fun _ ht => ⟨ht, rfl, fun _ => rfl⟩) br.stripes i h
      have h2 := h1.map (L := BatchReader.wires H) (fun y : Unit × List (StripeReader χ) => { br with stripes := y.2 }) fun _ ht => ⟨ht, rfl, fun _ => rfl⟩
      refine Rep.congr h2 fun l _ => ?_
      obtain ⟨s', k1, k2, k3⟩ := key l
      refine Eq.trans (b := BatchReader.seekLoop X { br with stripes := Wires.putAll (StripeReader.wires H) br.stripes l } row i rows
        ((Wires.putAll (StripeReader.wires H) br.stripes l).drop i)) rfl ?_
      have e : (StripeReader.wires H).list.put br.stripes l = Wires.putAll (StripeReader.wires H) br.stripes l := rfl
      dsimp only
      rw [e]
      rw [k3, k1, BatchReader.seekLoop, k2, if_pos hr]
      dsimp only
      simp only [Res.bind_assoc]
      rfl
    · refine Rep.congr (ih (i + 1) (rows + s.numberOfRows) hdrop) fun l _ => ?_
      obtain ⟨s', k1, k2, k3⟩ := key l
      show BatchReader.seekLoop X _ row i rows ((Wires.putAll (StripeReader.wires H) br.stripes l).drop i) =
        BatchReader.seekLoop X _ row (i + 1) (rows + s.numberOfRows) ((Wires.putAll (StripeReader.wires H) br.stripes l).drop (i + 1))
      rw [k3, BatchReader.seekLoop, k2, if_neg hr]

theorem rep_seek_row (hs : skips) (hX : X.Calls c skips H) (row : Nat) (br : BatchReader χ) (h : (BatchReader.wires H).ok br) :
    RepAt c (BatchReader.wires H) (BatchReader.wires H) br fun br => br.seek X row := by
  refine Rep.ite (p := row > br.numberOfRows) (f := fun _ => .err .other) (fun _ => Rep.err _) fun _ => ?_
  exact rep_seekLoop hs hX row br h br.stripes 0 0 rfl

/-- A goroutine with a batch reader. -/
theorem rep_caller {α : Type} (hX : X.Calls c skips H) (fuel : Nat) : ∀ (k : Caller α) (br : BatchReader χ), (skips ∨ k.NextOnly) → (BatchReader.wires H).ok br →
    Runs3 c 0 ((BatchReader.wires H).size br) 0 fun _ ss _ => k.run X fuel ((BatchReader.wires H).put br ss)
  | .done r, br, _, _ => ⟨.done r, fun _ _ _ _ _ _ => rfl⟩
  | .next v k, br, hk, h =>
    rep_next hX fuel v br h α 0 0 (fun _ x _ => (k x.1 x.2.1).run X fuel x.2.2) fun t ht => rep_caller hX fuel (k t.1 t.2.1) t.2.2 (hk.imp id fun hk => hk t.1 t.2.1) ht
  | .seek row k, br, hk, h => by
    rcases hk with hk | hk
    · exact rep_seek_row hk hX row br h α 0 0 (fun _ x _ => k.run X fuel x) fun t ht => rep_caller hX fuel k t (.inl hk) ht
    · exact absurd hk id

end Stripe

end Goorc
