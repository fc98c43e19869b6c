import Verif.Spec.Parallel
import Verif.Props.Schedule
/-
Functions on streams that are programs: they only call the streams, and do not look into them.
-/
namespace Goorc

/-- There is a program that does `g`, for `n` streams behind `off` others, and before `m` others. -/
def Runs3 (c : Codec) {β : Type} (off n m : Nat) (g : List StreamReader → List StreamReader → List StreamReader → Res β) : Prop :=
  ∃ cl : Client β, ∀ pre ss post : List StreamReader, pre.length = off → ss.length = n → post.length = m → cl.alone c (pre ++ ss ++ post) = g pre ss post

/-- `f` of `n` streams is a program: whatever is a program after it, is one with it. -/
def Rep (c : Codec) {τ : Type} (n : Nat) (K : Wires τ) (f : List StreamReader → Res τ) : Prop :=
  ∀ (β : Type) (off m : Nat) (G : List StreamReader → τ → List StreamReader → Res β),
    (∀ t, K.ok t → Runs3 c off (K.size t) m fun pre ss post => G pre (K.put t ss) post) → Runs3 c off n m fun pre ss post => f ss >>= fun t => G pre t post

/-- A function on readers of this shape is a program. -/
def RepAt (c : Codec) {σ τ : Type} (H : Wires σ) (K : Wires τ) (s : σ) (F : σ → Res τ) : Prop := Rep c (H.size s) K fun ss => F (H.put s ss)

variable {c : Codec} {σ τ υ α β : Type} {H : Wires σ} {K : Wires τ} {L : Wires υ} {n : Nat}

theorem Runs3.congr {off n m : Nat} {g g' : List StreamReader → List StreamReader → List StreamReader → Res β} (h : Runs3 c off n m g)
    (he : ∀ pre ss post, pre.length = off → ss.length = n → post.length = m → g' pre ss post = g pre ss post) : Runs3 c off n m g' := by
  obtain ⟨cl, hc⟩ := h
  exact ⟨cl, fun pre ss post h1 h2 h3 => by rw [hc pre ss post h1 h2 h3, he pre ss post h1 h2 h3]⟩

theorem Rep.congr {f f' : List StreamReader → Res τ} (h : Rep c n K f) (he : ∀ ss : List StreamReader, ss.length = n → f' ss = f ss) : Rep c n K f' :=
  fun β off m G hG => (h β off m G hG).congr fun pre ss post _ h2 _ => by rw [he ss h2]

theorem Rep.ret (t : τ) (hn : K.size t = n) (hk : K.ok t) : Rep c n K fun ss => .ok (K.put t ss) := by
  intro β off m G hG
  have h := hG t hk
  rw [hn] at h
  exact h

theorem Rep.stop (x : Res Empty) : Rep c n K fun _ => x >>= fun e => nomatch e := by
  intro β off m G hG
  refine ⟨.done (x >>= fun e => nomatch e), fun pre ss post _ _ _ => ?_⟩
  cases x with
  | ok e => cases e
  | err e => rfl
  | panic => rfl
  | hang => rfl

theorem Rep.err (e : Err) : Rep c n K fun _ => .err e := Rep.stop (.err e)
theorem Rep.panic : Rep c n K fun _ => .panic := Rep.stop .panic
theorem Rep.hang : Rep c n K fun _ => .hang := Rep.stop .hang

theorem Rep.bind {f : List StreamReader → Res τ} {F : τ → Res υ} (h : Rep c n K f) (hF : ∀ t, K.ok t → RepAt c K L t F) :
    Rep c n L fun ss => f ss >>= F := by
  intro β off m G hG
  have := h β off m (fun pre t post => F t >>= fun u => G pre u post) (fun t ht => hF t ht β off m G hG)
  exact this.congr fun pre ss post _ _ _ => by rw [Res.bind_assoc]

/-- What does not depend on the streams. -/
theorem Rep.pure {x : Res α} {f : α → List StreamReader → Res τ} (h : ∀ a, Rep c n K (f a)) : Rep c n K fun ss => x >>= fun a => f a ss := by
  cases x with
  | ok a => exact h a
  | err e => exact Rep.err e
  | panic => exact Rep.panic
  | hang => exact Rep.hang

theorem Rep.ite {p : Prop} [Decidable p] {f g : List StreamReader → Res τ} (h1 : p → Rep c n K f) (h2 : ¬ p → Rep c n K g) :
    Rep c n K fun ss => if p then f ss else g ss := by
  by_cases hp : p
  · exact (h1 hp).congr fun ss _ => if_pos hp
  · exact (h2 hp).congr fun ss _ => if_neg hp

theorem split3 {l n : Nat} (ss : List α) : ss.take l ++ (ss.drop l).take n ++ ss.drop (l + n) = ss := by
  rw [List.append_assoc, ← List.drop_drop, List.take_append_drop, List.take_append_drop]

theorem parts3 {l n : Nat} {X Y Z : List α} (hX : X.length = l) (hY : Y.length = n) :
    (X ++ Y ++ Z).take l = X ∧ ((X ++ Y ++ Z).drop l).take n = Y ∧ (X ++ Y ++ Z).drop (l + n) = Z := by
  subst hX hY
  rw [List.append_assoc]
  refine ⟨List.take_left, ?_, ?_⟩
  · rw [List.drop_left, List.take_left]
  · rw [← List.drop_drop, List.drop_left, List.drop_left]

/-- Streams before and behind do not matter. -/
theorem Rep.frame {l r : Nat} {f : List StreamReader → Res τ} (h : Rep c n K f) (g : List StreamReader → τ → List StreamReader → Res υ)
    (hg : ∀ t, K.ok t → Rep c (l + K.size t + r) L fun ss => g (ss.take l) (K.put t ((ss.drop l).take (K.size t))) (ss.drop (l + K.size t))) :
    Rep c (l + n + r) L fun ss => f ((ss.drop l).take n) >>= fun t => g (ss.take l) t (ss.drop (l + n)) := by
  intro β off m G hG
  obtain ⟨cl, hcl⟩ := h β (off + l) (r + m) (fun pre t post => g (pre.drop off) t (post.take r) >>= fun u => G (pre.take off) u (post.drop r)) (by
    intro t ht
    obtain ⟨cl, hcl⟩ := hg t ht β off m G hG
    refine ⟨cl, fun pre ss post hp hs hq => ?_⟩
    have e : pre ++ ss ++ post = pre.take off ++ (pre.drop off ++ ss ++ post.take r) ++ post.drop r := by
      calc pre ++ ss ++ post = (pre.take off ++ pre.drop off) ++ ss ++ (post.take r ++ post.drop r) := by rw [List.take_append_drop, List.take_append_drop]
        _ = _ := by simp only [List.append_assoc]
    rw [e, hcl (pre.take off) (pre.drop off ++ ss ++ post.take r) (post.drop r) (by simp; omega) (by simp; omega) (by simp; omega)]
    obtain ⟨e1, e2, e3⟩ := parts3 (X := pre.drop off) (Y := ss) (Z := post.take r) (l := l) (by simp; omega) hs
    dsimp only
    rw [e1, e2, e3])
  refine ⟨cl, fun pre ss post hp hs hq => ?_⟩
  have e : pre ++ ss ++ post = (pre ++ ss.take l) ++ (ss.drop l).take n ++ (ss.drop (l + n) ++ post) := by
    conv_lhs => rw [← split3 (l := l) (n := n) ss]
    simp only [List.append_assoc]
  rw [e, hcl _ _ _ (by simp; omega) (by simp; omega) (by simp; omega)]
  dsimp only
  rw [Res.bind_assoc]
  have e1 : (pre ++ ss.take l).take off = pre := by rw [List.take_append_of_le_length (by omega), List.take_of_length_le (by omega)]
  have e2 : (pre ++ ss.take l).drop off = ss.take l := by rw [← hp, List.drop_left]
  have hl : (ss.drop (l + n)).length = r := by simp; omega
  have e3 : (ss.drop (l + n) ++ post).take r = ss.drop (l + n) := by rw [← hl, List.take_left]
  have e4 : (ss.drop (l + n) ++ post).drop r = post := by rw [← hl, List.drop_left]
  rw [e1, e2, e3, e4]

theorem RepAt.ret {s : σ} {F : σ → Res τ} (t : τ) (hn : K.size t = H.size s) (hk : K.ok t) (he : ∀ ss, F (H.put s ss) = .ok (K.put t ss)) : RepAt c H K s F :=
  (Rep.ret t hn hk).congr fun ss _ => he ss

theorem RepAt.bind {s : σ} {F : σ → Res τ} {F' : τ → Res υ} (h : RepAt c H K s F) (hF : ∀ t, K.ok t → RepAt c K L t F') : RepAt c H L s fun s => F s >>= F' :=
  Rep.bind (f := fun ss => F (H.put s ss)) h hF

theorem RepAt.map {s : σ} {F : σ → Res τ} (f : τ → υ) (h : RepAt c H K s F)
    (hf : ∀ t, K.ok t → L.ok (f t) ∧ L.size (f t) = K.size t ∧ ∀ ss, L.put (f t) ss = f (K.put t ss)) : RepAt c H L s fun s => F s >>= fun t => pure (f t) :=
  h.bind fun t ht => .ret (f t) (hf t ht).2.1 (hf t ht).1 fun ss => by rw [(hf t ht).2.2]; rfl

theorem RepAt.of {σ' : Type} {H' : Wires σ'} {s : σ} {s' : σ'} {F : σ → Res τ} {F' : σ' → Res τ} (h : RepAt c H' K s' F') (hn : H.size s = H'.size s')
    (he : ∀ ss, F (H.put s ss) = F' (H'.put s' ss)) : RepAt c H K s F := by
  unfold RepAt
  rw [hn]
  exact Rep.congr h fun ss _ => he ss

/-! ### Streams -/

theorem get_mid {pre post : List StreamReader} {s : StreamReader} {off : Nat} (h : pre.length = off) : (pre ++ [s] ++ post)[off]? = some s := by
  subst h; simp

theorem set_mid {pre post : List StreamReader} {s s' : StreamReader} {off : Nat} (h : pre.length = off) : (pre ++ [s] ++ post).set off s' = pre ++ [s'] ++ post := by
  subst h; simp

theorem one_of_length {l : List α} (h : l.length = 1) : ∃ s, l = [s] := by
  match l, h with
  | [s], _ => exact ⟨s, rfl⟩

/-- A decoder. -/
theorem rep_dec (d : Dec α) (s : StreamReader) : RepAt c .stream (Wires.stream.val (α := α)) s (d.runStream c) := by
  intro β off m G hG
  have hch : ∀ a : α, ∃ cl : Client β, ∀ pre ss post : List StreamReader, pre.length = off → ss.length = 1 → post.length = m →
      cl.alone c (pre ++ ss ++ post) = G pre (a, ss.headD s) post := fun a => hG (a, s) trivial
  choose k hk using hch
  refine ⟨d.client off k, fun pre ss post hp hs hq => ?_⟩
  obtain ⟨x, rfl⟩ := one_of_length hs
  rw [client_decodes c off d k _ x (get_mid hp)]
  show Res.bind _ _ = Res.bind _ _
  congr 1
  funext y
  rw [set_mid hp, hk _ _ _ _ hp rfl hq]
  rfl

theorem rep_seek (chunk o : Nat) (s : StreamReader) : RepAt c .stream .stream s (fun s => s.seek c chunk o) := by
  intro β off m G hG
  obtain ⟨k, hk⟩ := hG s trivial
  refine ⟨.seek off chunk o k, fun pre ss post hp hs hq => ?_⟩
  obtain ⟨x, rfl⟩ := one_of_length hs
  rw [Client.alone, get_mid hp]
  dsimp only
  show Res.bind _ _ = Res.bind _ _
  congr 1
  funext y
  rw [set_mid hp, hk pre [y] post hp rfl hq]
  rfl

theorem rep_finished (s : StreamReader) : RepAt c .stream (Wires.stream.val (α := Bool)) s (fun s => .ok (s.finished, s)) := by
  intro β off m G hG
  have hch : ∀ a : Bool, ∃ cl : Client β, ∀ pre ss post : List StreamReader, pre.length = off → ss.length = 1 → post.length = m →
      cl.alone c (pre ++ ss ++ post) = G pre (a, ss.headD s) post := fun a => hG (a, s) trivial
  choose k hk using hch
  refine ⟨.finished off k, fun pre ss post hp hs hq => ?_⟩
  obtain ⟨x, rfl⟩ := one_of_length hs
  rw [Client.alone, get_mid hp]
  dsimp only
  rw [hk _ _ _ _ hp rfl hq]
  rfl

/-! ### Pairs -/

variable {σ' τ' : Type} {A : Wires σ} {B : Wires σ'} {T : Wires τ} {a : σ} {b : σ'}

theorem RepAt.fst {F : σ → Res τ} {G : τ → σ' → Res υ} (h : RepAt c A T a F) (hG : ∀ t, T.ok t → RepAt c (T.pair B) L (t, b) fun p => G p.1 p.2) :
    RepAt c (A.pair B) L (a, b) fun p => F p.1 >>= fun t => G t p.2 := by
  have h1 := Rep.frame (l := 0) (r := B.size b) (L := L) h (fun _ t R => G t (B.put b R)) (by
    intro t ht
    have := hG t ht
    unfold RepAt at this
    have e : (T.pair B).size (t, b) = 0 + T.size t + B.size b := by simp [Wires.size, Wires.pair]
    rw [e] at this
    refine this.congr fun ss _ => ?_
    rw [List.drop_zero, Nat.zero_add]
    rfl)
  have e : (A.pair B).size (a, b) = 0 + A.size a + B.size b := by simp [Wires.size, Wires.pair]
  unfold RepAt
  rw [e]
  refine h1.congr fun ss _ => ?_
  rw [List.drop_zero, Nat.zero_add]
  rfl

theorem RepAt.snd {F : σ' → Res τ} {G : σ → τ → Res υ} (h : RepAt c B T b F) (hG : ∀ t, T.ok t → RepAt c (A.pair T) L (a, t) fun p => G p.1 p.2) :
    RepAt c (A.pair B) L (a, b) fun p => F p.2 >>= fun t => G p.1 t := by
  have h1 := Rep.frame (l := A.size a) (r := 0) (L := L) h (fun l t _ => G (A.put a l) t) (by
    intro t ht
    have := hG t ht
    unfold RepAt at this
    have e : (A.pair T).size (a, t) = A.size a + T.size t + 0 := by simp [Wires.size, Wires.pair]
    rw [e] at this
    refine this.congr fun ss hs => ?_
    rw [List.take_of_length_le (l := ss.drop (A.size a)) (by simp; omega)]
    rfl)
  have e : (A.pair B).size (a, b) = A.size a + B.size b + 0 := by simp [Wires.size, Wires.pair]
  unfold RepAt
  rw [e]
  refine h1.congr fun ss hs => ?_
  rw [List.take_of_length_le (l := ss.drop (A.size a)) (by simp; omega)]
  rfl

/-! ### Readers of one stream -/

theorem rep_block_next (d : Dec (List α)) (r : BlockReader α) : RepAt c .block (Wires.block.val (α := α)) r (fun r => r.next d c) := by
  obtain ⟨s, v⟩ := r
  cases v with
  | cons x v => exact .ret (x, ⟨s, v⟩) rfl trivial fun ss => rfl
  | nil =>
    refine RepAt.of ((rep_dec d s).bind (F' := fun x : List α × StreamReader => match x.1 with
      | v :: vs => .ok (v, (⟨x.2, vs⟩ : BlockReader α))
      | [] => .panic) ?_) rfl fun _ => rfl
    rintro ⟨v, t⟩ -
    cases v with
    | cons x v => exact .ret (x, ⟨t, v⟩) rfl trivial fun ss => rfl
    | nil => exact Rep.panic

theorem rep_block_skip (d : Dec (List α)) : ∀ (n : Nat) (r : BlockReader α), RepAt c .block .block r (fun r => r.skip d c n)
  | 0, r => .ret r rfl trivial fun _ => rfl
  | n + 1, r => (rep_block_next d r).bind fun x _ => rep_block_skip d n x.2

theorem rep_block_seek (d : Dec (List α)) (chunk o n : Nat) (r : BlockReader α) : RepAt c .block .block r (fun r => r.seek d c chunk o n) :=
  (rep_seek chunk o r.stream).bind fun s _ => rep_block_skip d n ⟨s, []⟩

theorem rep_block_finished (r : BlockReader α) : RepAt c .block (Wires.block.val (α := Bool)) r (fun r => .ok (r.finished, r)) :=
  RepAt.of ((rep_finished r.stream).map (L := Wires.block.val) (fun x => (x.1 && r.values.isEmpty, (⟨x.2, r.values⟩ : BlockReader α)))
    fun _ _ => ⟨trivial, rfl, fun _ => rfl⟩) rfl fun _ => rfl

theorem rep_bool_next (r : BoolReader) : RepAt c .bool (Wires.bool.val (α := Bool)) r (fun r => r.next c) := by
  obtain ⟨s, v⟩ := r
  cases v with
  | cons x v => exact .ret (x, ⟨s, v⟩) rfl trivial fun _ => rfl
  | nil =>
    refine RepAt.of ((rep_block_next decodeByteRL s).bind (F' := fun x : Byte × ByteReader => match boolsOfByte x.1 with
      | v :: vs => .ok (v, (⟨x.2, vs⟩ : BoolReader))
      | [] => .panic) ?_) rfl fun _ => rfl
    rintro ⟨v, t⟩ -
    show RepAt c .block (Wires.bool.val (α := Bool)) t (fun t => match boolsOfByte v with
      | v :: vs => .ok (v, (⟨t, vs⟩ : BoolReader))
      | [] => .panic)
    cases boolsOfByte v with
    | cons x v => exact .ret (x, ⟨t, v⟩) rfl trivial fun _ => rfl
    | nil => exact Rep.panic

theorem rep_bool_skip : ∀ (n : Nat) (r : BoolReader), RepAt c .bool .bool r (fun r => r.skip c n)
  | 0, r => .ret r rfl trivial fun _ => rfl
  | n + 1, r => (rep_bool_next r).bind fun x _ => rep_bool_skip n x.2

theorem rep_bool_seek (chunk o n m : Nat) (r : BoolReader) : RepAt c .bool .bool r (fun r => r.seek c chunk o n m) :=
  (rep_block_seek decodeByteRL chunk o n r.reader).bind fun s _ => rep_bool_skip m ⟨s, []⟩

theorem rep_int_signed (r : IntReader) : RepAt c .int (Wires.int.val (α := U64)) r (fun r => r.nextInt64 c) := by
  obtain ⟨g, b⟩ := r
  refine RepAt.of (s' := b) (H' := .block) (F' := fun b => if !g then .err .other else do
    let (v, b) ← b.next (decodeInt g) c
    pure (v, (⟨g, b⟩ : IntReader))) ?_ rfl fun _ => rfl
  refine Rep.ite (fun _ => .err _) fun _ => ?_
  exact (rep_block_next _ b).map (L := Wires.int.val) (fun x => (x.1, (⟨g, x.2⟩ : IntReader))) fun _ _ => ⟨trivial, rfl, fun _ => rfl⟩

theorem rep_int_unsigned (r : IntReader) : RepAt c .int (Wires.int.val (α := U64)) r (fun r => r.nextUInt64 c) := by
  obtain ⟨g, s, v⟩ := r
  cases v with
  | cons x v =>
    refine RepAt.of (s' := s) (H' := .stream) (F' := fun s => if g then .err .other else .ok (x, (⟨g, s, v⟩ : IntReader))) ?_ rfl fun _ => rfl
    exact Rep.ite (fun _ => .err _) fun _ => Rep.ret (K := Wires.int.val) (x, (⟨g, s, v⟩ : IntReader)) rfl trivial
  | nil =>
    refine RepAt.of (s' := s) (H' := .stream) (F' := fun s => if g then .err .other else do
      let (vs, s) ← (decodeUInt g).runStream c s
      match vs with
      | v :: vs => .ok (v, (⟨g, s, vs⟩ : IntReader))
      | [] => .err .other) ?_ rfl fun _ => rfl
    refine Rep.ite (fun _ => .err _) fun _ => ?_
    refine Rep.bind (rep_dec _ s) ?_
    rintro ⟨v, t⟩ -
    cases v with
    | cons x v => exact .ret (x, ⟨g, t, v⟩) rfl trivial fun _ => rfl
    | nil => exact Rep.err _

theorem rep_int_finished (r : IntReader) : RepAt c .int (Wires.int.val (α := Bool)) r (fun r => .ok (r.finished, r)) :=
  RepAt.of ((rep_block_finished r.block).map (L := Wires.int.val) (fun x => (x.1, (⟨r.signed, x.2⟩ : IntReader)))
    fun _ _ => ⟨trivial, rfl, fun _ => rfl⟩) rfl fun _ => rfl

theorem rep_int_skip : ∀ (n : Nat) (r : IntReader), RepAt c .int .int r (fun r => r.skip c n)
  | 0, r => .ret r rfl trivial fun _ => rfl
  | n + 1, r => by
    by_cases hb : r.signed = true
    · refine RepAt.of ((rep_int_signed r).bind (F' := fun x : U64 × IntReader => IntReader.skip c n x.2) fun x _ => rep_int_skip n x.2) rfl fun ss => ?_
      rw [IntReader.skip, if_pos (show (Wires.int.put r ss).signed = true from hb)]
    · refine RepAt.of ((rep_int_unsigned r).bind (F' := fun x : U64 × IntReader => IntReader.skip c n x.2) fun x _ => rep_int_skip n x.2) rfl fun ss => ?_
      rw [IntReader.skip, if_neg (show ¬ (Wires.int.put r ss).signed = true from hb)]

theorem rep_int_seek (chunk o n : Nat) (r : IntReader) : RepAt c .int .int r (fun r => r.seek c chunk o n) :=
  RepAt.of ((rep_seek chunk o r.block.stream).bind (F' := fun s => IntReader.skip c n ⟨r.signed, s, []⟩) fun s _ => rep_int_skip n ⟨r.signed, s, []⟩) rfl fun _ => rfl

theorem rep_bytes (len : Nat) (s : StreamReader) : RepAt c .stream (Wires.stream.val (α := Bytes)) s (fun s => nextBytes c s len) :=
  Rep.ite (fun _ => rep_dec _ s) fun _ => Rep.panic

end Goorc
