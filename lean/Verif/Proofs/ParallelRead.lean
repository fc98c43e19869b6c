import Verif.Proofs.Parallel
/-
The readers of columns are programs.
-/
namespace Goorc

/-- A reader of values that is a program. -/
structure ReadKind.Calls {ρ : Type} (c : Codec) (skips : Prop) (K : ReadKind ρ) (D : Wires ρ) : Prop where
  ok : ∀ d, D.ok d
  prepare : ∀ d, RepAt c D D d (K.prepare c)
  next : ∀ d, RepAt c D (D.val (α := GoVal)) d (K.next c)
  skip : skips → ∀ d, K.skipSwallows c d = false ∧ RepAt c D D d (K.skip c)
  seek : K.seeksZero = true → ∀ d, RepAt c D D d fun d => K.seek c d (K.layout.map fun n => (0, 0, List.replicate n 0))

variable {c : Codec} {skips : Prop}

theorem rep_same {σ : Type} {H : Wires σ} {s : σ} (h : H.ok s) : RepAt c H H s Res.ok := .ret s rfl h fun _ => rfl

theorem rep_value {σ α β : Type} {H : Wires σ} {s : σ} {F : σ → Res (α × σ)} (f : α → β) (h : RepAt c H H.val s F) :
    RepAt c H (H.val (α := β)) s fun s => F s >>= fun x => pure (f x.1, x.2) :=
  h.map (L := H.val) (fun x : α × σ => (f x.1, x.2)) fun _ ht => ⟨ht, rfl, fun _ => rfl⟩

theorem rep_rest {σ α : Type} {H : Wires σ} {s : σ} {F : σ → Res (α × σ)} (h : RepAt c H H.val s F) :
    RepAt c H H s fun s => F s >>= fun x => pure x.2 :=
  h.map (fun x : α × σ => x.2) fun _ ht => ⟨ht, rfl, fun _ => rfl⟩

theorem byte_calls : byteRead.Calls c skips .block where
  ok _ := trivial
  prepare _ := rep_same trivial
  next d := rep_value _ (rep_block_next _ d)
  skip _ d := ⟨rfl, rep_rest (rep_block_next _ d)⟩
  seek _ d := rep_block_seek _ 0 0 0 d

theorem bool_calls : boolRead.Calls c skips .bool where
  ok _ := trivial
  prepare _ := rep_same trivial
  next d := rep_value _ (rep_bool_next d)
  skip _ d := ⟨rfl, rep_rest (rep_bool_next d)⟩
  seek _ d := rep_bool_seek 0 0 0 0 d

theorem int_calls (b : IntBits) : (intRead b).Calls c skips .int where
  ok _ := trivial
  prepare _ := rep_same trivial
  next d := rep_value _ (rep_int_signed d)
  skip _ d := ⟨rfl, rep_rest (rep_int_signed d)⟩
  seek _ d := rep_int_seek 0 0 0 d

theorem rep_float_next (r : FloatReader) : RepAt c .float (Wires.float.val (α := BitVec 32)) r (fun r => r.nextFloat c) := by
  obtain ⟨g, s⟩ := r
  refine RepAt.of (s' := s) (H' := .stream) (F' := fun s => if g then .err .other else do
    let (v, s) ← decodeFloat.runStream c s
    pure (v, (⟨g, s⟩ : FloatReader))) ?_ rfl fun _ => rfl
  refine Rep.ite (fun _ => .err _) fun _ => ?_
  exact (rep_dec _ s).map (L := Wires.float.val) (fun x : BitVec 32 × StreamReader => (x.1, (⟨g, x.2⟩ : FloatReader))) fun _ _ => ⟨trivial, rfl, fun _ => rfl⟩

theorem rep_double_next (r : FloatReader) : RepAt c .float (Wires.float.val (α := BitVec 64)) r (fun r => r.nextDouble c) := by
  obtain ⟨g, s⟩ := r
  refine RepAt.of (s' := s) (H' := .stream) (F' := fun s => if !g then .err .other else do
    let (v, s) ← decodeDouble.runStream c s
    pure (v, (⟨g, s⟩ : FloatReader))) ?_ rfl fun _ => rfl
  refine Rep.ite (fun _ => .err _) fun _ => ?_
  exact (rep_dec _ s).map (L := Wires.float.val) (fun x : BitVec 64 × StreamReader => (x.1, (⟨g, x.2⟩ : FloatReader))) fun _ _ => ⟨trivial, rfl, fun _ => rfl⟩

theorem float_calls (b : Bool) : (floatRead b).Calls c skips .float where
  ok _ := trivial
  prepare _ := rep_same trivial
  next d := by
    cases b
    · exact rep_value _ (rep_float_next d)
    · exact rep_value _ (rep_double_next d)
  skip _ d := by
    cases b
    · exact ⟨rfl, rep_rest (rep_float_next d)⟩
    · exact ⟨rfl, rep_rest (rep_double_next d)⟩
  seek _ d := RepAt.of ((rep_seek 0 0 d.stream).map (L := .float) (fun s => (⟨d.is64, s⟩ : FloatReader)) fun _ _ => ⟨trivial, rfl, fun _ => rfl⟩) rfl fun _ => rfl

theorem rep_text_next (r : TextReader) : RepAt c .text (Wires.text.val (α := Bytes)) r (fun r => r.next c) := by
  refine RepAt.of (H' := Wires.stream.pair .int) (s' := (r.data, r.length)) (F' := fun p => do
    let x ← p.2.nextUInt64 c
    let y ← nextBytes c p.1 x.1.toNat
    pure (y.1, (⟨y.2, x.2⟩ : TextReader))) ?_ rfl fun _ => rfl
  refine (rep_int_unsigned r.length).snd (G := fun d (x : U64 × IntReader) => do
    let y ← nextBytes c d x.1.toNat
    pure (y.1, (⟨y.2, x.2⟩ : TextReader))) fun x _ => ?_
  refine (rep_bytes x.1.toNat r.data).fst (B := Wires.int.val) (b := x) (G := fun (y : Bytes × StreamReader) (x : U64 × IntReader) =>
    pure (y.1, (⟨y.2, x.2⟩ : TextReader))) fun y _ => ?_
  exact .ret (y.1, ⟨y.2, x.2⟩) rfl ⟨trivial, trivial⟩ fun _ => rfl

theorem rep_text_seek (a b a' b' n : Nat) (r : TextReader) : RepAt c .text .text r (fun r => r.seek c [(a, b, []), (a', b', [n])]) := by
  refine RepAt.of (H' := Wires.stream.pair .int) (s' := (r.data, r.length)) (F' := fun p => do
    let x ← p.1.seek c a b
    let y ← p.2.seek c a' b' n
    pure (⟨x, y⟩ : TextReader)) ?_ rfl fun _ => rfl
  refine (rep_seek a b r.data).fst (B := .int) (b := r.length) (G := fun x (l : IntReader) => do
    let y ← l.seek c a' b' n
    pure (⟨x, y⟩ : TextReader)) fun x _ => ?_
  refine (rep_int_seek a' b' n r.length).snd (A := .stream) (a := x) (G := fun x y => pure (⟨x, y⟩ : TextReader)) fun y _ => ?_
  exact .ret ⟨x, y⟩ rfl ⟨trivial, trivial⟩ fun _ => rfl

theorem string_calls : stringRead.Calls c skips .text where
  ok _ := ⟨trivial, trivial⟩
  prepare _ := rep_same ⟨trivial, trivial⟩
  next d := rep_value _ (rep_text_next d)
  skip _ d := ⟨rfl, rep_rest (rep_text_next d)⟩
  seek _ d := rep_text_seek 0 0 0 0 0 d

theorem binary_calls (h : ¬ skips) : binaryRead.Calls c skips .text where
  ok _ := ⟨trivial, trivial⟩
  prepare _ := rep_same ⟨trivial, trivial⟩
  next d := rep_value _ (rep_text_next d)
  skip hs := absurd hs h
  seek _ d := rep_text_seek 0 0 0 0 0 d

theorem date_calls : dateRead.Calls c skips .block where
  ok _ := trivial
  prepare _ := rep_same trivial
  next d := rep_value _ (rep_block_next _ d)
  skip _ d := ⟨rfl, rep_rest (rep_block_next _ d)⟩
  seek h := by cases h

theorem rep_ts (r : TsReader) {β : Type} (f : U64 → U64 → β) : RepAt c .ts (Wires.ts.val (α := β)) r fun r => (do
    let x ← r.data.nextInt64 c
    let y ← r.secondary.nextUInt64 c
    pure (f x.1 y.1, (⟨x.2, y.2⟩ : TsReader))) := by
  refine RepAt.of (H' := Wires.int.pair .int) (s' := (r.data, r.secondary)) (F' := fun p => do
    let x ← p.1.nextInt64 c
    let y ← p.2.nextUInt64 c
    pure (f x.1 y.1, (⟨x.2, y.2⟩ : TsReader))) ?_ rfl fun _ => rfl
  refine (rep_int_signed r.data).fst (B := .int) (b := r.secondary) (G := fun x (l : IntReader) => do
    let y ← l.nextUInt64 c
    pure (f x.1 y.1, (⟨x.2, y.2⟩ : TsReader))) fun x _ => ?_
  refine (rep_int_unsigned r.secondary).snd (A := Wires.int.val) (a := x) (G := fun x y => pure (f x.1 y.1, (⟨x.2, y.2⟩ : TsReader))) fun y _ => ?_
  exact .ret (f x.1 y.1, ⟨x.2, y.2⟩) rfl ⟨trivial, trivial⟩ fun _ => rfl

theorem ts_calls : timestampRead.Calls c skips .ts where
  ok _ := ⟨trivial, trivial⟩
  prepare _ := rep_same ⟨trivial, trivial⟩
  next d := rep_ts d fun s n => GoVal.ts none s (decodingNano n)
  skip _ d := by
    refine ⟨rfl, RepAt.of (rep_rest (rep_ts d fun _ _ => ())) rfl fun ss => ?_⟩
    show (do
      let x ← (Wires.ts.put d ss).data.nextInt64 c
      let y ← (Wires.ts.put d ss).secondary.nextUInt64 c
      pure (⟨x.2, y.2⟩ : TsReader) : Res TsReader) = _
    simp only [Res.bind_assoc, Res.pure_eq, Res.ok_bind]
  seek _ d := by
    refine RepAt.of (H' := Wires.int.pair .int) (s' := (d.data, d.secondary)) (F' := fun p => do
      let x ← p.1.seek c 0 0 0
      let y ← p.2.seek c 0 0 0
      pure (⟨x, y⟩ : TsReader)) ?_ rfl fun _ => rfl
    refine (rep_int_seek 0 0 0 d.data).fst (B := .int) (b := d.secondary) (G := fun x (l : IntReader) => do
      let y ← l.seek c 0 0 0
      pure (⟨x, y⟩ : TsReader)) fun x _ => ?_
    refine (rep_int_seek 0 0 0 d.secondary).snd (A := .int) (a := x) (G := fun x y => pure (⟨x, y⟩ : TsReader)) fun y _ => ?_
    exact .ret ⟨x, y⟩ rfl ⟨trivial, trivial⟩ fun _ => rfl

theorem rep_decimal (r : DecReader) {β : Type} (f : U64 → U64 → β) : RepAt c .dec (Wires.dec.val (α := β)) r fun r => (do
    let x ← nextVarint c r.data
    let y ← r.secondary.nextInt64 c
    pure (f x.1 y.1, (⟨x.2, y.2⟩ : DecReader))) := by
  refine RepAt.of (H' := Wires.stream.pair .int) (s' := (r.data, r.secondary)) (F' := fun p => do
    let x ← nextVarint c p.1
    let y ← p.2.nextInt64 c
    pure (f x.1 y.1, (⟨x.2, y.2⟩ : DecReader))) ?_ rfl fun _ => rfl
  refine (rep_dec decodeVarInt64 r.data).fst (B := .int) (b := r.secondary) (G := fun x (l : IntReader) => do
    let y ← l.nextInt64 c
    pure (f x.1 y.1, (⟨x.2, y.2⟩ : DecReader))) fun x _ => ?_
  refine (rep_int_signed r.secondary).snd (A := Wires.stream.val) (a := x) (G := fun x y => pure (f x.1 y.1, (⟨x.2, y.2⟩ : DecReader))) fun y _ => ?_
  exact .ret (f x.1 y.1, ⟨x.2, y.2⟩) rfl ⟨trivial, trivial⟩ fun _ => rfl

theorem dec_calls : decimalRead.Calls c skips .dec where
  ok _ := ⟨trivial, trivial⟩
  prepare _ := rep_same ⟨trivial, trivial⟩
  next d := rep_decimal d fun p s => GoVal.dec p s.toInt
  skip _ d := by
    refine ⟨rfl, RepAt.of (rep_rest (rep_decimal d fun _ _ => ())) rfl fun ss => ?_⟩
    show (do
      let x ← nextVarint c (Wires.dec.put d ss).data
      let y ← (Wires.dec.put d ss).secondary.nextInt64 c
      pure (⟨x.2, y.2⟩ : DecReader) : Res DecReader) = _
    simp only [Res.bind_assoc, Res.pure_eq, Res.ok_bind]
  seek _ d := by
    refine RepAt.of (H' := Wires.stream.pair .int) (s' := (d.data, d.secondary)) (F' := fun p => do
      let x ← p.1.seek c 0 0
      let y ← p.2.seek c 0 0 0
      pure (⟨x, y⟩ : DecReader)) ?_ rfl fun _ => rfl
    refine (rep_seek 0 0 d.data).fst (B := .int) (b := d.secondary) (G := fun x (l : IntReader) => do
      let y ← l.seek c 0 0 0
      pure (⟨x, y⟩ : DecReader)) fun x _ => ?_
    refine (rep_int_seek 0 0 0 d.secondary).snd (A := .stream) (a := x) (G := fun x y => pure (⟨x, y⟩ : DecReader)) fun y _ => ?_
    exact .ret ⟨x, y⟩ rfl ⟨trivial, trivial⟩ fun _ => rfl

/-- The loop that loads a dictionary, on the two streams it reads. -/
def dictLoad (c : Codec) : Nat → List Bytes → StreamReader × IntReader → Res (List Bytes × StreamReader × IntReader)
  | fuel, st, q =>
    if q.2.finished then .ok (st, q)
    else
      match fuel with
      | 0 => .hang
      | fuel + 1 => do
        let x ← q.2.nextUInt64 c
        let y ← nextBytes c q.1 x.1.toNat
        dictLoad c fuel (st ++ [y.1]) (y.2, x.2)

theorem dictLoad_eq : ∀ (fuel : Nat) (r : DictReader), r.load c fuel = dictLoad c fuel r.strings (r.dict, r.length) >>= fun x =>
    .ok (⟨r.data, x.2.1, x.2.2, x.1, r.loaded⟩ : DictReader)
  | fuel, r => by
    rw [DictReader.load.eq_def, dictLoad.eq_def]
    dsimp only
    by_cases hl : r.length.finished = true
    · rw [if_pos hl, if_pos hl]; rfl
    · rw [if_neg hl, if_neg hl]
      cases fuel with
      | zero => rfl
      | succ fuel =>
        simp only [Res.bind_assoc]
        congr 1
        funext x
        congr 1
        funext y
        exact dictLoad_eq fuel _

theorem rep_dictLoad : ∀ (fuel : Nat) (st : List Bytes) (q : StreamReader × IntReader),
    RepAt c (Wires.stream.pair .int) ((Wires.stream.pair .int).val (α := List Bytes)) q (dictLoad c fuel st)
  | fuel, st, (d, l) => by
    refine RepAt.of (H' := Wires.stream.pair .int) (s' := (d, l)) (F' := fun q => (Res.ok (q.2.finished, q.2) : Res (Bool × IntReader)) >>= fun x =>
      if x.1 then .ok (st, q.1, x.2)
      else
        match fuel with
        | 0 => .hang
        | fuel + 1 => do
          let y ← x.2.nextUInt64 c
          let z ← nextBytes c q.1 y.1.toNat
          dictLoad c fuel (st ++ [z.1]) (z.2, y.2)) ?_ rfl fun ss => by rw [dictLoad.eq_def]; rfl
    refine (rep_int_finished l).snd (A := .stream) (a := d) (G := fun d x => if x.1 then .ok (st, d, x.2)
      else
        match fuel with
        | 0 => .hang
        | fuel + 1 => do
          let y ← x.2.nextUInt64 c
          let z ← nextBytes c d y.1.toNat
          dictLoad c fuel (st ++ [z.1]) (z.2, y.2)) ?_
    rintro ⟨b, l⟩ -
    cases b with
    | true => exact .ret (st, d, l) rfl ⟨trivial, trivial⟩ fun _ => rfl
    | false =>
      cases fuel with
      | zero => exact Rep.hang
      | succ fuel =>
        refine (rep_int_unsigned l).snd (A := .stream) (a := d) (G := fun d (y : U64 × IntReader) => do
          let z ← nextBytes c d y.1.toNat
          dictLoad c fuel (st ++ [z.1]) (z.2, y.2)) fun y _ => ?_
        refine (rep_bytes y.1.toNat d).fst (B := Wires.int.val) (b := y) (G := fun (z : Bytes × StreamReader) (y : U64 × IntReader) =>
          dictLoad c fuel (st ++ [z.1]) (z.2, y.2)) fun z _ => ?_
        exact rep_dictLoad fuel (st ++ [z.1]) (z.2, y.2)

theorem rep_dict_data {β : Type} (r : DictReader) {F : IntReader → Res (β × IntReader)} (h : RepAt c .int Wires.int.val r.data F) {τ : Type} {L : Wires τ}
    {G : β → DictReader → Res τ} (hG : ∀ b (d : IntReader), RepAt c .dict L { r with data := d } (G b)) :
    RepAt c .dict L r fun r => F r.data >>= fun x => G x.1 { r with data := x.2 } := by
  refine RepAt.of (H' := Wires.int.pair (Wires.stream.pair .int)) (s' := (r.data, r.dict, r.length)) (F' := fun p => F p.1 >>= fun x =>
    G x.1 ⟨x.2, p.2.1, p.2.2, r.strings, r.loaded⟩) ?_ rfl fun _ => rfl
  refine h.fst (B := Wires.stream.pair .int) (b := (r.dict, r.length)) (G := fun x q => G x.1 ⟨x.2, q.1, q.2, r.strings, r.loaded⟩) fun x _ => ?_
  exact hG x.1 x.2

theorem dict_calls (fuel : Nat) : (dictRead fuel).Calls c skips .dict where
  ok _ := ⟨trivial, trivial, trivial⟩
  prepare r := by
    refine RepAt.of (H' := .dict) (s' := r) (F' := fun t => if r.loaded then .ok t else do let x ← t.load c fuel; pure { x with loaded := true }) ?_ rfl fun _ => rfl
    refine Rep.ite (fun _ => rep_same ⟨trivial, trivial, trivial⟩) fun _ => ?_
    show RepAt c .dict .dict r fun t => do let x ← t.load c fuel; pure { x with loaded := true }
    refine RepAt.of (H' := Wires.int.pair (Wires.stream.pair .int)) (s' := (r.data, r.dict, r.length)) (F' := fun p => dictLoad c fuel r.strings p.2 >>= fun x =>
      .ok (⟨p.1, x.2.1, x.2.2, x.1, true⟩ : DictReader)) ?_ rfl fun ss => ?_
    · refine (rep_dictLoad fuel r.strings (r.dict, r.length)).snd (A := .int) (a := r.data) (G := fun d x => .ok (⟨d, x.2.1, x.2.2, x.1, true⟩ : DictReader)) fun x _ => ?_
      exact .ret ⟨r.data, x.2.1, x.2.2, x.1, true⟩ rfl ⟨trivial, trivial, trivial⟩ fun _ => rfl
    · rw [dictLoad_eq, Res.bind_assoc]
      rfl
  next r := by
    refine rep_dict_data r (rep_int_unsigned r.data) (G := fun i r => match r.strings[i.toNat]? with
      | some s => pure (GoVal.str s, r)
      | none => .panic) fun i d => ?_
    show RepAt c .dict Wires.dict.val { r with data := d } fun t => match r.strings[i.toNat]? with
      | some s => pure (GoVal.str s, t)
      | none => .panic
    cases r.strings[i.toNat]? with
    | none => exact Rep.panic
    | some x => exact .ret (GoVal.str x, { r with data := d }) rfl ⟨trivial, trivial, trivial⟩ fun _ => rfl
  skip _ r := ⟨rfl, rep_dict_data r (rep_int_unsigned r.data) (G := fun _ r => .ok r) fun _ d => rep_same ⟨trivial, trivial, trivial⟩⟩
  seek _ r := by
    refine RepAt.of (H' := Wires.int.pair (Wires.stream.pair .int)) (s' := (r.data, r.dict, r.length)) (F' := fun p => p.1.seek c 0 0 0 >>= fun x =>
      .ok (⟨x, p.2.1, p.2.2, r.strings, r.loaded⟩ : DictReader)) ?_ rfl fun _ => rfl
    refine (rep_int_seek 0 0 0 r.data).fst (B := Wires.stream.pair .int) (b := (r.dict, r.length))
      (G := fun x q => .ok (⟨x, q.1, q.2, r.strings, r.loaded⟩ : DictReader)) fun x _ => ?_
    exact .ret ⟨x, r.dict, r.length, r.strings, r.loaded⟩ rfl ⟨trivial, trivial, trivial⟩ fun _ => rfl

theorem bare_calls (t : Option LeafTag) : (bareRead t).Calls c skips .void where
  ok _ := trivial
  prepare r := by
    cases t
    · exact Rep.panic
    · exact rep_same trivial
  next _ := by cases t <;> exact Rep.panic
  skip _ _ := by cases t <;> exact ⟨rfl, Rep.panic⟩
  seek _ _ := by cases t <;> exact Rep.panic

theorem leaf_calls : ∀ t : LeafTag, (skips → t ≠ .binary) → t.read.Calls c skips t.wires
  | .byte, _ => byte_calls
  | .bool, _ => bool_calls
  | .int b, _ => int_calls b
  | .float b, _ => float_calls b
  | .string, _ => string_calls
  | .binary, h => binary_calls fun hs => h hs rfl
  | .date, _ => date_calls
  | .timestamp, _ => ts_calls
  | .decimal, _ => dec_calls

/-! ### Columns -/

section Col

variable {ρ : Type} {K : ReadKind ρ} {D : Wires ρ}

theorem bool_opt_ok : ∀ p, Wires.bool.opt.ok p
  | none => trivial
  | some _ => trivial

theorem int_opt_ok : ∀ p, Wires.int.opt.ok p
  | none => trivial
  | some _ => trivial

theorem rep_col_flag (hD : ∀ d, D.ok d) (f : Bool → Bool) (old : Bool) (r : ColReader ρ) :
    RepAt c D.col (D.col.val (α := Bool)) r fun r => match r.present with
      | some p => do
        let (b, p) ← p.next c
        pure (f b, { r with present := some p })
      | none => pure (old, r) := by
  obtain ⟨hn, k, p, d, i⟩ := r
  cases p with
  | none => exact .ret (old, ⟨hn, k, none, d, i⟩) rfl ⟨trivial, hD d⟩ fun _ => rfl
  | some p =>
    refine RepAt.of (H' := Wires.bool.pair D) (s' := (p, d)) (F' := fun q => q.1.next c >>= fun x => .ok (f x.1, (⟨hn, k, some x.2, q.2, i⟩ : ColReader ρ))) ?_ rfl
      fun _ => rfl
    refine (rep_bool_next p).fst (B := D) (b := d) (G := fun x d => .ok (f x.1, (⟨hn, k, some x.2, d, i⟩ : ColReader ρ))) fun x _ => ?_
    exact .ret (f x.1, ⟨hn, k, some x.2, d, i⟩) rfl ⟨trivial, hD d⟩ fun _ => rfl

theorem rep_col_data {β τ : Type} {L : Wires τ} (r : ColReader ρ) {F : ρ → Res (β × ρ)} (h : RepAt c D D.val r.data F)
    {G : β → ColReader ρ → Res τ} (hG : ∀ b (d : ρ), RepAt c D.col L { r with data := d } (G b)) :
    RepAt c D.col L r fun r => F r.data >>= fun x => G x.1 { r with data := x.2 } := by
  refine RepAt.of (H' := Wires.bool.opt.pair D) (s' := (r.present, r.data)) (F' := fun p => F p.2 >>= fun x =>
    G x.1 ⟨r.hasNulls, r.kind, p.1, x.2, r.index⟩) ?_ rfl fun _ => rfl
  refine h.snd (A := Wires.bool.opt) (a := r.present) (G := fun p x => G x.1 ⟨r.hasNulls, r.kind, p, x.2, r.index⟩) fun x _ => ?_
  exact hG x.1 x.2

theorem rep_col_data' {τ : Type} {L : Wires τ} (r : ColReader ρ) {F : ρ → Res ρ} (h : RepAt c D D r.data F)
    {G : ColReader ρ → Res τ} (hG : ∀ d : ρ, RepAt c D.col L { r with data := d } G) :
    RepAt c D.col L r fun r => F r.data >>= fun x => G { r with data := x } := by
  refine RepAt.of (H' := Wires.bool.opt.pair D) (s' := (r.present, r.data)) (F' := fun p => F p.2 >>= fun x =>
    G ⟨r.hasNulls, r.kind, p.1, x, r.index⟩) ?_ rfl fun _ => rfl
  refine h.snd (A := Wires.bool.opt) (a := r.present) (G := fun p x => G ⟨r.hasNulls, r.kind, p, x, r.index⟩) fun x _ => ?_
  exact hG x

theorem rep_col_rows (hK : K.Calls c skips D) : ∀ (vec : List Value) (r : ColReader ρ), RepAt c D.col (D.col.val (α := List Value)) r fun r => K.nextRows c r vec
  | [], r => .ret ([], r) rfl ⟨bool_opt_ok _, hK.ok _⟩ fun _ => rfl
  | old :: vec, r => by
    refine (rep_col_flag hK.ok (fun b => !b) old.null r).bind (F' := fun x => (if x.1 then pure (old.v, x.2)
      else do
        let (y, d) ← K.next c x.2.data
        let y ← K.store old.v y
        pure (y, { x.2 with data := d }) : Res (GoVal × ColReader ρ)) >>= fun y => do
          let z ← K.nextRows c y.2 vec
          pure (⟨x.1, y.1⟩ :: z.1, z.2)) ?_
    rintro ⟨b, s⟩ hs
    refine RepAt.bind (H := D.col) (s := s) (K := D.col.val (α := GoVal)) (F := fun s => (if b then pure (old.v, s)
      else do
        let (y, d) ← K.next c s.data
        let y ← K.store old.v y
        pure (y, { s with data := d }) : Res (GoVal × ColReader ρ)))
      (F' := fun y : GoVal × ColReader ρ => K.nextRows c y.2 vec >>= fun z => pure (⟨b, y.1⟩ :: z.1, z.2)) ?_ fun y _ =>
          (rep_col_rows hK vec y.2).map (L := D.col.val) (fun z : List Value × ColReader ρ => (⟨b, y.1⟩ :: z.1, z.2)) fun _ ht => ⟨ht, rfl, fun _ => rfl⟩
    cases b with
    | true => exact .ret (old.v, s) rfl hs fun _ => rfl
    | false =>
      refine rep_col_data s (hK.next s.data) (G := fun y s => K.store old.v y >>= fun y => pure (y, s)) fun y d => ?_
      exact Rep.pure fun z => RepAt.ret (H := D.col) (s := { s with data := d }) (K := D.col.val) (F := fun s => .ok (z, s)) (z, { s with data := d }) rfl
        ⟨hs.1, hK.ok _⟩ fun _ => rfl

theorem rep_col_batch (hK : K.Calls c skips D) (vec : List Value) (r : ColReader ρ) :
    RepAt c D.col (D.col.val (α := List Value)) r fun r => K.nextBatch c r vec :=
  rep_col_data' r (hK.prepare r.data) (G := fun r => K.nextRows c r vec) fun _ => rep_col_rows hK vec _

theorem rep_col_skip (hs : skips) (hK : K.Calls c skips D) : ∀ (n : Nat) (r : ColReader ρ), RepAt c D.col D.col r fun r => K.skipRows c n r
  | 0, r => .ret r rfl ⟨bool_opt_ok _, hK.ok _⟩ fun _ => rfl
  | n + 1, r => by
    refine RepAt.of ((rep_col_flag hK.ok (fun b => b) true r).bind (F' := fun x : Bool × ColReader ρ => if x.1 then K.skip c x.2.data >>= fun d =>
      K.skipRows c n { x.2 with data := d } else K.skipRows c n x.2) ?_) rfl fun ss => ?_
    · rintro ⟨b, s⟩ -
      cases b with
      | true => exact rep_col_data' s (hK.skip hs s.data).2 (G := fun r => K.skipRows c n r) fun _ => rep_col_skip hs hK n _
      | false => exact rep_col_skip hs hK n s
    · rw [ReadKind.skipRows]
      congr 1
      funext x
      obtain ⟨b, s⟩ := x
      cases b with
      | false => rfl
      | true =>
        dsimp only
        rw [if_pos rfl, if_pos rfl, (hK.skip hs s.data).1]
        rfl

theorem rep_col_seek (hK : K.Calls c skips D) (r : ColReader ρ) : RepAt c D.col D.col r fun r => K.seekStride c r 0 := by
  by_cases hz : K.seeksZero = true ∧ 0 = 0
  · refine RepAt.of (H' := Wires.bool.opt.pair D) (s' := (r.present, r.data)) (F' := fun q => (match q.1 with
        | some p => do let p ← p.seek c 0 0 0 0; pure (some p)
        | none => pure none : Res (Option BoolReader)) >>= fun p => K.seek c q.2 (K.layout.map fun n => (0, 0, List.replicate n 0)) >>= fun d =>
          pure (⟨r.hasNulls, r.kind, p, d, r.index⟩ : ColReader ρ)) ?_ rfl fun ss => by
        unfold ReadKind.seekStride
        rw [if_pos hz]
        rfl
    refine RepAt.fst (T := Wires.bool.opt) (F := fun q : Option BoolReader => (match q with
        | some p => do let p ← p.seek c 0 0 0 0; pure (some p)
        | none => pure none : Res (Option BoolReader))) (B := D) (b := r.data) (G := fun p d => K.seek c d (K.layout.map fun n => (0, 0, List.replicate n 0)) >>= fun d =>
          pure (⟨r.hasNulls, r.kind, p, d, r.index⟩ : ColReader ρ)) ?_ fun p hp => ?_
    · cases r.present with
      | none => exact .ret none rfl trivial fun _ => rfl
      | some p => exact RepAt.of ((rep_bool_seek 0 0 0 0 p).map (L := Wires.bool.opt) (fun p => some p) fun _ _ => ⟨trivial, rfl, fun _ => rfl⟩) rfl fun _ => rfl
    · refine (hK.seek hz.1 r.data).snd (A := Wires.bool.opt) (a := p) (G := fun p d => pure (⟨r.hasNulls, r.kind, p, d, r.index⟩ : ColReader ρ)) fun d _ => ?_
      exact .ret ⟨r.hasNulls, r.kind, p, d, r.index⟩ rfl ⟨hp, hK.ok _⟩ fun _ => rfl
  · refine Rep.congr (f := fun _ => getStridePositions r.index 0 >>= fun _ => .panic) (Rep.pure fun _ => Rep.panic) fun ss _ => ?_
    show K.seekStride c (D.col.put r ss) 0 = _
    unfold ReadKind.seekStride
    rw [if_neg hz]
    have : (D.col.put r ss).index = r.index := rfl
    rw [this]
    cases r.index with
    | none => rfl
    | some es => rfl

end Col

end Goorc
