import Verif.Proofs.LocalityRead
import Mathlib.Data.List.Forall2
/-
Trees of column readers, stripes and batch readers, on two files that agree on the streams of the columns.
-/
namespace Goorc

variable {sk : Prop}

/-- Readers with related streams whose children are related by `R`. -/
inductive NodeNear {χ : Type} (sk : Prop) (R : χ → χ → Prop) : RdNode χ → RdNode χ → Prop
  | leaf {t : LeafTag} {r r' : ColReader t.ρ} : ColNear sk (t.Near sk) r r' → NodeNear sk R (.leaf t r) (.leaf t r')
  | dict {r r' : ColReader DictReader} : ColNear sk (DictNear sk) r r' → NodeNear sk R (.dict r) (.dict r')
  | struct {k : CompKind} {p p' : Option BoolReader} {i : Option (List (List Nat))} {cs cs' : List χ} : OptLike (BoolNear sk) p p' →
      List.Forall₂ R cs cs' → NodeNear sk R (.struct k p i cs) (.struct k p' i cs')
  | list {k : CompKind} {p p' : Option BoolReader} {l l' : Option IntReader} {i : Option (List (List Nat))} {x x' : Option χ} :
      OptLike (BoolNear sk) p p' → OptLike (IntNear sk) l l' → OptLike R x x' → NodeNear sk R (.list k p l i x) (.list k p' l' i x')
  | map {k : CompKind} {p p' : Option BoolReader} {l l' : Option IntReader} {i : Option (List (List Nat))} {x x' y y' : Option χ} :
      OptLike (BoolNear sk) p p' → OptLike (IntNear sk) l l' → OptLike R x x' → OptLike R y y' → NodeNear sk R (.map k p l i x y) (.map k p' l' i x' y')
  | bare {t : Option LeafTag} {r r' : ColReader Unit} : ColNear sk (fun _ _ => True) r r' → NodeNear sk R (.bare t r) (.bare t r')

/-- Trees of readers with related streams. -/
def TreeNear (sk : Prop) : (n : Nat) → Rd n → Rd n → Prop
  | 0 => fun _ _ => False
  | n + 1 => NodeNear sk (TreeNear sk n)

/-- Readers that do the same when they are related. -/
structure OpsNear {χ : Type} (sk : Prop) (X : RdOps χ) (R : χ → χ → Prop) : Prop where
  next : ∀ (v : Vec) {x x'}, R x x' → Res.Alike (Like R) (X.nextBatch x v) (X.nextBatch x' v)
  skip : ∀ (n : Nat) {x x'}, R x x' → Res.Alike R (X.skip x n) (X.skip x' n)
  seek : sk → ∀ {x x'}, R x x' → Res.Alike R (X.seekStride x 0) (X.seekStride x' 0)

theorem leaf_batch {ρ : Type} {K : ReadKind ρ} {R : ρ → ρ → Prop} (hK : K.Local sk R) (c : Codec) (v : Vec) {r r' : ColReader ρ} (h : ColNear sk R r r') :
    Res.Alike (Like (ColNear sk R)) (leafBatch K c r v) (leafBatch K c r' v) := by
  cases v with
  | nil => trivial
  | mk id k s cs => exact alike_map (col_batch hK c _ h) fun _ _ g => ⟨by rw [g.1], g.2⟩

theorem flags_like (c : Codec) : ∀ (vs : List Value) {p p' : BoolReader}, BoolNear sk p p' →
    Res.Alike (Like (BoolNear sk)) (readFlags c p vs) (readFlags c p' vs)
  | [], p, p', h => ⟨rfl, h⟩
  | v :: vs, p, p', h => by
    refine (bool_next c h).bind ?_
    rintro ⟨b, s⟩ ⟨b', s'⟩ ⟨hb, hs⟩
    cases hb
    exact alike_map (flags_like c vs hs) fun _ _ g => ⟨by rw [g.1], g.2⟩

section Node

variable {χ : Type} {X : RdOps χ} {R : χ → χ → Prop}

theorem batches_like (hX : OpsNear sk X R) : ∀ {cs cs' : List χ} (vs : List Vec), List.Forall₂ R cs cs' →
    Res.Alike (Like (List.Forall₂ R)) (childBatches X cs vs) (childBatches X cs' vs)
  | [], _, vs, h => by cases h; rw [childBatches.eq_def]; exact ⟨rfl, List.Forall₂.nil⟩
  | c :: cs, _, [], h => by cases h; trivial
  | c :: cs, _, v :: vs, h => by
    cases h with
    | cons h hs =>
      refine (hX.next v h).bind ?_
      rintro ⟨b, s⟩ ⟨b', s'⟩ ⟨hb, hs'⟩
      cases hb
      exact alike_map (batches_like hX vs hs) fun _ _ g => ⟨by rw [g.1], List.Forall₂.cons hs' g.2⟩

theorem struct_like (hX : OpsNear sk X R) (c : Codec) {p p' : Option BoolReader} {cs cs' : List χ} (hp : OptLike (BoolNear sk) p p')
    (hc : List.Forall₂ R cs cs') (v : Vec) :
    Res.Alike (Like fun a b => OptLike (BoolNear sk) a.1 b.1 ∧ List.Forall₂ R a.2 b.2) (structBatch X c p cs v) (structBatch X c p' cs' v) := by
  cases v with
  | nil => trivial
  | mk id k s ws =>
    rw [structBatch.eq_def, structBatch.eq_def]
    dsimp only
    have h1 : ∀ p p', OptLike (BoolNear sk) p p' → Res.Alike (Like (OptLike (BoolNear sk)))
        (match p with
          | none => pure (.mk id k s ws, none)
          | some p => do
            let (rows, p) ← readFlags c p (visibleRows s)
            let v ← fillNulls (.mk id k (updateRows s rows) ws)
            pure (v, some p) : Res (Vec × Option BoolReader))
        (match p' with
          | none => pure (.mk id k s ws, none)
          | some p => do
            let (rows, p) ← readFlags c p (visibleRows s)
            let v ← fillNulls (.mk id k (updateRows s rows) ws)
            pure (v, some p) : Res (Vec × Option BoolReader)) := by
      intro p p' hp
      cases p <;> cases p' <;> first | exact hp.elim | skip
      · exact ⟨rfl, trivial⟩
      · refine (flags_like c _ hp).bind ?_
        rintro ⟨b, s⟩ ⟨b', s'⟩ ⟨hb, hs'⟩
        cases hb
        refine (Res.Alike.refl (R := (· = ·)) (fun _ => rfl) _).bind ?_
        rintro x _ rfl
        exact ⟨rfl, hs'⟩
    refine (h1 p p' hp).bind ?_
    rintro ⟨v, q⟩ ⟨v', q'⟩ ⟨hv, hq⟩
    cases hv
    dsimp only
    cases v with
    | nil => trivial
    | mk id k s ws => exact alike_map (batches_like hX ws hc) fun _ _ g => ⟨by rw [g.1], hq, g.2⟩

theorem length_like (c : Codec) {l l' : Option IntReader} (h : OptLike (IntNear sk) l l') :
    Res.Alike (Like (OptLike (IntNear sk))) (nextLength c l) (nextLength c l') := by
  cases l <;> cases l' <;> first | exact h.elim | skip
  · trivial
  · exact alike_map (int_unsigned c h) fun _ _ g => g

theorem flag_like (c : Codec) (old : Bool) {p p' : Option BoolReader} (h : OptLike (BoolNear sk) p p') :
    Res.Alike (Like (OptLike (BoolNear sk))) (nextFlag c p old) (nextFlag c p' old) := by
  cases p <;> cases p' <;> first | exact h.elim | skip
  · exact ⟨rfl, trivial⟩
  · exact alike_map (bool_next c h) fun _ _ g => ⟨by rw [g.1], g.2⟩

theorem present_like (c : Codec) {p p' : Option BoolReader} (h : OptLike (BoolNear sk) p p') :
    Res.Alike (Like (OptLike (BoolNear sk))) (nextPresent c p) (nextPresent c p') := by
  cases p <;> cases p' <;> first | exact h.elim | skip
  · exact ⟨rfl, trivial⟩
  · exact alike_map (bool_next c h) fun _ _ g => g

theorem on_like (hX : OpsNear sk X R) (v : Vec) {x x' : Option χ} (h : OptLike R x x') :
    Res.Alike (Like (OptLike R)) (nextOn X x v) (nextOn X x' v) := by
  cases x <;> cases x' <;> first | exact h.elim | skip
  · trivial
  · exact alike_map (hX.next v h) fun _ _ g => g

/-- The value and the number of entries of one row of a list or map. -/
theorem count_like (c : Codec) (null : Bool) (old : GoVal) (f : U64 → GoVal) {l l' : Option IntReader} (h : OptLike (IntNear sk) l l') :
    Res.Alike (fun a b => a.1 = b.1 ∧ a.2.1 = b.2.1 ∧ OptLike (IntNear sk) a.2.2 b.2.2)
      (if null then pure (old, 0, l)
        else do
          let (n, l) ← nextLength c l
          pure (f n, loopBound n, l) : Res (GoVal × Nat × Option IntReader))
      (if null then pure (old, 0, l')
        else do
          let (n, l) ← nextLength c l'
          pure (f n, loopBound n, l) : Res (GoVal × Nat × Option IntReader)) := by
  cases null
  · exact alike_map (length_like c h) fun _ _ g => ⟨by rw [g.1], by rw [g.1], g.2⟩
  · exact ⟨rfl, rfl, h⟩

theorem list_like (hX : OpsNear sk X R) (c : Codec) : ∀ (vs : List Value) (ws : List Vec) {p p' : Option BoolReader} {l l' : Option IntReader}
    {x x' : Option χ}, OptLike (BoolNear sk) p p' → OptLike (IntNear sk) l l' → OptLike R x x' →
    Res.Alike (fun a b => a.1 = b.1 ∧ a.2.1 = b.2.1 ∧ OptLike (BoolNear sk) a.2.2.1 b.2.2.1 ∧ OptLike (IntNear sk) a.2.2.2.1 b.2.2.2.1 ∧
      OptLike R a.2.2.2.2 b.2.2.2.2) (listRows X c p l x vs ws) (listRows X c p' l' x' vs ws)
  | [], ws, p, p', l, l', x, x', hp, hl, hx => ⟨rfl, rfl, hp, hl, hx⟩
  | old :: vs, ws, p, p', l, l', x, x', hp, hl, hx => by
    rw [listRows, listRows]
    refine (flag_like c old.null hp).bind ?_
    rintro ⟨b, p⟩ ⟨b', p'⟩ ⟨hb, hp⟩
    cases hb
    refine (count_like c b old.v GoVal.u64 hl).bind ?_
    rintro ⟨v, n, l⟩ ⟨v', n', l'⟩ ⟨hv, hn, hl⟩
    cases hv
    cases hn
    dsimp only
    cases ws with
    | nil => trivial
    | cons e ws =>
      refine (Res.Alike.refl (R := (· = ·)) (fun _ => rfl) _).bind ?_
      rintro e _ rfl
      refine (on_like hX e hx).bind ?_
      rintro ⟨e, x⟩ ⟨e', x'⟩ ⟨he, hx⟩
      cases he
      exact alike_map (list_like hX c vs (e :: ws) hp hl hx) fun _ _ g => ⟨by rw [g.1], g.2⟩

theorem map_like (hX : OpsNear sk X R) (c : Codec) : ∀ (vs : List Value) (ws : List Vec) {p p' : Option BoolReader} {l l' : Option IntReader}
    {x x' y y' : Option χ}, OptLike (BoolNear sk) p p' → OptLike (IntNear sk) l l' → OptLike R x x' → OptLike R y y' →
    Res.Alike (fun a b => a.1 = b.1 ∧ a.2.1 = b.2.1 ∧ OptLike (BoolNear sk) a.2.2.1 b.2.2.1 ∧ OptLike (IntNear sk) a.2.2.2.1 b.2.2.2.1 ∧
      OptLike R a.2.2.2.2.1 b.2.2.2.2.1 ∧ OptLike R a.2.2.2.2.2 b.2.2.2.2.2) (mapRows X c p l x y vs ws) (mapRows X c p' l' x' y' vs ws)
  | [], ws, p, p', l, l', x, x', y, y', hp, hl, hx, hy => ⟨rfl, rfl, hp, hl, hx, hy⟩
  | old :: vs, ws, p, p', l, l', x, x', y, y', hp, hl, hx, hy => by
    rw [mapRows, mapRows]
    refine (flag_like c old.null hp).bind ?_
    rintro ⟨b, p⟩ ⟨b', p'⟩ ⟨hb, hp⟩
    cases hb
    refine (count_like c b old.v (fun n => GoVal.int n.toInt) hl).bind ?_
    rintro ⟨v, n, l⟩ ⟨v', n', l'⟩ ⟨hv, hn, hl⟩
    cases hv
    cases hn
    dsimp only
    cases ws with
    | nil => trivial
    | cons e ws =>
      cases ws with
      | nil => trivial
      | cons f ws =>
        refine (Res.Alike.refl (R := (· = ·)) (fun _ => rfl) _).bind ?_
        rintro e _ rfl
        refine (Res.Alike.refl (R := (· = ·)) (fun _ => rfl) _).bind ?_
        rintro f _ rfl
        refine (on_like hX e hx).bind ?_
        rintro ⟨e, x⟩ ⟨e', x'⟩ ⟨he, hx⟩
        cases he
        refine (on_like hX f hy).bind ?_
        rintro ⟨f, y⟩ ⟨f', y'⟩ ⟨hf, hy⟩
        cases hf
        exact alike_map (map_like hX c vs (e :: f :: ws) hp hl hx hy) fun _ _ g => ⟨by rw [g.1], g.2⟩

theorem node_next (hX : OpsNear sk X R) (c : Codec) (fuel : Nat) (v : Vec) {x x' : RdNode χ} (h : NodeNear sk R x x') :
    Res.Alike (Like (NodeNear sk R)) (x.nextBatch X c fuel v) (x'.nextBatch X c fuel v) := by
  cases h with
  | leaf h => exact alike_map (leaf_batch (leaf_local _) c v h) fun _ _ g => ⟨g.1, .leaf g.2⟩
  | dict h => exact alike_map (leaf_batch (dict_local fuel) c v h) fun _ _ g => ⟨g.1, .dict g.2⟩
  | struct hp hc => exact alike_map (struct_like hX c hp hc v) fun _ _ g => ⟨g.1, .struct g.2.1 g.2.2⟩
  | list hp hl hx =>
    cases v with
    | nil => trivial
    | mk id k s ws => exact alike_map (list_like hX c _ ws hp hl hx) fun _ _ g => ⟨by rw [g.1, g.2.1], .list g.2.2.1 g.2.2.2.1 g.2.2.2.2⟩
  | map hp hl hx hy =>
    cases v with
    | nil => trivial
    | mk id k s ws =>
      exact alike_map (map_like hX c _ ws hp hl hx hy) fun _ _ g => ⟨by rw [g.1, g.2.1], .map g.2.2.1 g.2.2.2.1 g.2.2.2.2.1 g.2.2.2.2.2⟩
  | bare h => exact alike_map (leaf_batch (bare_local _) c v h) fun _ _ g => ⟨g.1, .bare g.2⟩

theorem skips_like (hX : OpsNear sk X R) (n : Nat) : ∀ {cs cs' : List χ}, List.Forall₂ R cs cs' →
    Res.Alike (List.Forall₂ R) (skipAll X n cs) (skipAll X n cs')
  | [], _, h => by cases h; exact List.Forall₂.nil
  | c :: cs, _, h => by
    cases h with
    | cons h hs =>
      refine (hX.skip n h).bind ?_
      intro s s' hs'
      exact alike_map (skips_like hX n hs) fun _ _ g => List.Forall₂.cons hs' g

theorem skipOn_like (hX : OpsNear sk X R) (n : Nat) {x x' : Option χ} (h : OptLike R x x') : Res.Alike (OptLike R) (skipOn X n x) (skipOn X n x') := by
  cases x <;> cases x' <;> first | exact h.elim | skip
  · trivial
  · exact alike_map (hX.skip n h) fun _ _ g => g

theorem structSkip_like (hX : OpsNear sk X R) (c : Codec) : ∀ (n : Nat) {p p' : Option BoolReader} {cs cs' : List χ}, OptLike (BoolNear sk) p p' →
    List.Forall₂ R cs cs' → Res.Alike (fun a b => OptLike (BoolNear sk) a.1 b.1 ∧ List.Forall₂ R a.2 b.2) (structSkip X c n p cs) (structSkip X c n p' cs')
  | 0, p, p', cs, cs', hp, hc => ⟨hp, hc⟩
  | n + 1, p, p', cs, cs', hp, hc => by
    rw [structSkip, structSkip]
    refine (present_like c hp).bind ?_
    rintro ⟨b, p⟩ ⟨b', p'⟩ ⟨hb, hp⟩
    cases hb
    cases b
    · exact structSkip_like hX c n hp hc
    · refine (skips_like hX 1 hc).bind ?_
      intro cs cs' hc
      exact structSkip_like hX c n hp hc

theorem listSkip_like (hX : OpsNear sk X R) (c : Codec) : ∀ (n : Nat) {p p' : Option BoolReader} {l l' : Option IntReader} {x x' : Option χ},
    OptLike (BoolNear sk) p p' → OptLike (IntNear sk) l l' → OptLike R x x' →
    Res.Alike (fun a b => OptLike (BoolNear sk) a.1 b.1 ∧ OptLike (IntNear sk) a.2.1 b.2.1 ∧ OptLike R a.2.2 b.2.2)
      (listSkip X c n p l x) (listSkip X c n p' l' x')
  | 0, p, p', l, l', x, x', hp, hl, hx => ⟨hp, hl, hx⟩
  | n + 1, p, p', l, l', x, x', hp, hl, hx => by
    rw [listSkip, listSkip]
    refine (present_like c hp).bind ?_
    rintro ⟨b, p⟩ ⟨b', p'⟩ ⟨hb, hp⟩
    cases hb
    cases b
    · exact listSkip_like hX c n hp hl hx
    · refine (length_like c hl).bind ?_
      rintro ⟨m, l⟩ ⟨m', l'⟩ ⟨hm, hl⟩
      cases hm
      refine (skipOn_like hX _ hx).bind ?_
      intro x x' hx
      exact listSkip_like hX c n hp hl hx

theorem entrySkip_like (hX : OpsNear sk X R) (m : Nat) : ∀ (n : Nat) {x x' y y' : Option χ}, OptLike R x x' → OptLike R y y' →
    Res.Alike (fun a b => OptLike R a.1 b.1 ∧ OptLike R a.2 b.2) (entrySkip X m n x y) (entrySkip X m n x' y')
  | 0, x, x', y, y', hx, hy => ⟨hx, hy⟩
  | n + 1, x, x', y, y', hx, hy => by
    rw [entrySkip, entrySkip]
    refine (skipOn_like hX m hx).bind ?_
    intro x x' hx
    refine (skipOn_like hX m hy).bind ?_
    intro y y' hy
    exact entrySkip_like hX m n hx hy

theorem mapSkip_like (hX : OpsNear sk X R) (c : Codec) : ∀ (n : Nat) {p p' : Option BoolReader} {l l' : Option IntReader} {x x' y y' : Option χ},
    OptLike (BoolNear sk) p p' → OptLike (IntNear sk) l l' → OptLike R x x' → OptLike R y y' →
    Res.Alike (fun a b => OptLike (BoolNear sk) a.1 b.1 ∧ OptLike (IntNear sk) a.2.1 b.2.1 ∧ OptLike R a.2.2.1 b.2.2.1 ∧ OptLike R a.2.2.2 b.2.2.2)
      (mapSkip X c n p l x y) (mapSkip X c n p' l' x' y')
  | 0, p, p', l, l', x, x', y, y', hp, hl, hx, hy => ⟨hp, hl, hx, hy⟩
  | n + 1, p, p', l, l', x, x', y, y', hp, hl, hx, hy => by
    rw [mapSkip, mapSkip]
    refine (present_like c hp).bind ?_
    rintro ⟨b, p⟩ ⟨b', p'⟩ ⟨hb, hp⟩
    cases hb
    cases b
    · exact mapSkip_like hX c n hp hl hx hy
    · refine (length_like c hl).bind ?_
      rintro ⟨m, l⟩ ⟨m', l'⟩ ⟨hm, hl⟩
      cases hm
      refine (entrySkip_like hX _ _ hx hy).bind ?_
      rintro ⟨x, y⟩ ⟨x', y'⟩ ⟨hx, hy⟩
      exact mapSkip_like hX c n hp hl hx hy

theorem node_skip (hX : OpsNear sk X R) (c : Codec) (fuel n : Nat) {x x' : RdNode χ} (h : NodeNear sk R x x') :
    Res.Alike (NodeNear sk R) (x.skip X c fuel n) (x'.skip X c fuel n) := by
  cases h with
  | leaf h => exact alike_map (col_skip (leaf_local _) c n h) fun _ _ g => .leaf g
  | dict h => exact alike_map (col_skip (dict_local fuel) c n h) fun _ _ g => .dict g
  | struct hp hc => exact alike_map (structSkip_like hX c n hp hc) fun _ _ g => .struct g.1 g.2
  | list hp hl hx => exact alike_map (listSkip_like hX c n hp hl hx) fun _ _ g => .list g.1 g.2.1 g.2.2
  | map hp hl hx hy => exact alike_map (mapSkip_like hX c n hp hl hx hy) fun _ _ g => .map g.1 g.2.1 g.2.2.1 g.2.2.2
  | bare h => exact alike_map (col_skip (bare_local _) c n h) fun _ _ g => .bare g

theorem seeks_like (hsk : sk) (hX : OpsNear sk X R) : ∀ {cs cs' : List χ}, List.Forall₂ R cs cs' →
    Res.Alike (List.Forall₂ R) (seekAll X 0 cs) (seekAll X 0 cs')
  | [], _, h => by cases h; exact List.Forall₂.nil
  | c :: cs, _, h => by
    cases h with
    | cons h hs =>
      refine (hX.seek hsk h).bind ?_
      intro s s' hs'
      exact alike_map (seeks_like hsk hX hs) fun _ _ g => List.Forall₂.cons hs' g

theorem seekOn_like (hsk : sk) (hX : OpsNear sk X R) {x x' : Option χ} (h : OptLike R x x') : Res.Alike (OptLike R) (seekOn X 0 x) (seekOn X 0 x') := by
  cases x <;> cases x' <;> first | exact h.elim | skip
  · trivial
  · exact alike_map (hX.seek hsk h) fun _ _ g => g

theorem seekFlags_like (hsk : sk) (c : Codec) {p p' : Option BoolReader} (h : OptLike (BoolNear sk) p p') :
    Res.Alike (OptLike (BoolNear sk)) (seekFlags c p (0, 0, [0, 0])) (seekFlags c p' (0, 0, [0, 0])) := by
  cases p <;> cases p' <;> first | exact h.elim | skip
  · trivial
  · exact alike_map (bool_seek hsk c 0 0 0 h) fun _ _ g => g

theorem seekLength_like (hsk : sk) (c : Codec) {l l' : Option IntReader} (h : OptLike (IntNear sk) l l') :
    Res.Alike (OptLike (IntNear sk)) (seekLength c l (0, 0, [0])) (seekLength c l' (0, 0, [0])) := by
  cases l <;> cases l' <;> first | exact h.elim | skip
  · trivial
  · exact alike_map (int_seek hsk c 0 0 h) fun _ _ g => g

theorem seekOwn_like (hsk : sk) (c : Codec) (k : CompKind) (i : Option (List (List Nat))) {p p' : Option BoolReader} {l l' : Option IntReader}
    (hp : OptLike (BoolNear sk) p p') (hl : OptLike (IntNear sk) l l') :
    Res.Alike (fun a b => OptLike (BoolNear sk) a.1 b.1 ∧ OptLike (IntNear sk) a.2 b.2) (seekOwn c k p l i 0) (seekOwn c k p' l' i 0) := by
  unfold seekOwn
  rw [if_pos rfl, if_pos rfl]
  refine (seekFlags_like hsk c hp).bind ?_
  intro p p' hp
  exact alike_map (seekLength_like hsk c hl) fun _ _ g => ⟨hp, g⟩

theorem node_seek (hsk : sk) (hX : OpsNear sk X R) (c : Codec) (fuel : Nat) {x x' : RdNode χ} (h : NodeNear sk R x x') :
    Res.Alike (NodeNear sk R) (x.seekStride X c fuel 0) (x'.seekStride X c fuel 0) := by
  cases h with
  | leaf h => exact alike_map (col_seek hsk (leaf_local _) c h) fun _ _ g => .leaf g
  | dict h => exact alike_map (col_seek hsk (dict_local fuel) c h) fun _ _ g => .dict g
  | struct hp hc =>
    rw [RdNode.seekStride, RdNode.seekStride, if_pos rfl, if_pos rfl]
    refine (seekFlags_like hsk c hp).bind ?_
    intro p p' hp
    exact alike_map (seeks_like hsk hX hc) fun _ _ g => .struct hp g
  | list hp hl hx =>
    rw [RdNode.seekStride, RdNode.seekStride]
    refine (seekOwn_like hsk c _ _ hp hl).bind ?_
    rintro ⟨p, l⟩ ⟨p', l'⟩ ⟨hp, hl⟩
    exact alike_map (seekOn_like hsk hX hx) fun _ _ g => .list hp hl g
  | map hp hl hx hy =>
    rw [RdNode.seekStride, RdNode.seekStride]
    refine (seekOwn_like hsk c _ _ hp hl).bind ?_
    rintro ⟨p, l⟩ ⟨p', l'⟩ ⟨hp, hl⟩
    refine (seekOn_like hsk hX hx).bind ?_
    intro x x' hx
    exact alike_map (seekOn_like hsk hX hy) fun _ _ g => .map hp hl hx g
  | bare h => exact alike_map (col_seek hsk (bare_local _) c h) fun _ _ g => .bare g

end Node

theorem tree_ops (c : Codec) (fuel : Nat) : ∀ n, OpsNear sk (rdOps c fuel n) (TreeNear sk n)
  | 0 => ⟨fun _ _ _ h => h.elim, fun _ _ _ h => h.elim, fun _ _ _ h => h.elim⟩
  | n + 1 => ⟨fun v _ _ h => node_next (tree_ops c fuel n) c fuel v h, fun k _ _ h => node_skip (tree_ops c fuel n) c fuel k h,
      fun hsk _ _ h => node_seek hsk (tree_ops c fuel n) c fuel h⟩

/-- Stripes with related readers. -/
structure StripeNear {χ : Type} (R : χ → χ → Prop) (s s' : StripeReader χ) : Prop where
  hasNulls : s.hasNulls = s'.hasNulls
  rows : s.numberOfRows = s'.numberOfRows
  cursor : s.cursor = s'.cursor
  reader : OptLike R s.reader s'.reader

/-- Batch readers with related stripes. -/
structure BatchNear {χ : Type} (R : χ → χ → Prop) (b b' : BatchReader χ) : Prop where
  stride : b.indexStride = b'.indexStride
  current : b.stripeIndex = b'.stripeIndex
  rows : b.numberOfRows = b'.numberOfRows
  cursor : b.cursor = b'.cursor
  stripes : List.Forall₂ (StripeNear R) b.stripes b'.stripes

section Batch

variable {χ : Type} {X : RdOps χ} {R : χ → χ → Prop}

theorem stripe_next_like (hX : OpsNear sk X R) (v : Vec) {s s' : StripeReader χ} (h : StripeNear R s s') :
    Res.Alike (fun a b => a.1 = b.1 ∧ a.2.1 = b.2.1 ∧ StripeNear R a.2.2 b.2.2) (s.next X v) (s'.next X v) := by
  obtain ⟨hn, r, m, k⟩ := s
  obtain ⟨hn', r', m', k'⟩ := s'
  obtain ⟨h1, h2, h3, h4⟩ := h
  cases h1
  cases h2
  cases h3
  unfold StripeReader.next
  refine (Res.Alike.refl (R := (· = ·)) (fun _ => rfl) _).bind ?_
  rintro v _ rfl
  dsimp only at h4 ⊢
  cases r <;> cases r' <;> first | exact h4.elim | skip
  · trivial
  · refine (hX.next v h4).bind ?_
    rintro ⟨w, x⟩ ⟨w', x'⟩ ⟨hw, hx⟩
    cases hw
    exact ⟨rfl, rfl, rfl, rfl, rfl, hx⟩

theorem stripe_seek_like (hsk : sk) (hX : OpsNear sk X R) (stride row : Nat) {s s' : StripeReader χ} (h : StripeNear R s s') :
    Res.Alike (StripeNear R) (s.seek X stride row) (s'.seek X stride row) := by
  obtain ⟨hn, r, m, k⟩ := s
  obtain ⟨hn', r', m', k'⟩ := s'
  obtain ⟨h1, h2, h3, h4⟩ := h
  cases h1
  cases h2
  cases h3
  unfold StripeReader.seek
  have key : ∀ (r r' : Option χ), OptLike R r r' → ∀ o : Res Nat, Res.Alike (StripeNear R)
      (o >>= fun offset => match r with
        | none => .panic
        | some r => do
          let r ← X.seekStride r 0
          let r ← X.skip r offset
          pure (⟨hn, some r, m, k⟩ : StripeReader χ))
      (o >>= fun offset => match r' with
        | none => .panic
        | some r => do
          let r ← X.seekStride r 0
          let r ← X.skip r offset
          pure (⟨hn, some r, m, k⟩ : StripeReader χ)) := by
    intro r r' h4 o
    refine (Res.Alike.refl (R := (· = ·)) (fun _ => rfl) _).bind ?_
    rintro o _ rfl
    cases r <;> cases r' <;> first | exact h4.elim | skip
    · trivial
    · refine (hX.seek hsk h4).bind ?_
      intro x x' hx
      exact alike_map (hX.skip o hx) fun _ _ g => ⟨rfl, rfl, rfl, g⟩
  dsimp only
  split
  · exact key r r' h4 _
  · split
    · exact key r r' h4 _
    · exact key r r' h4 _

theorem forall₂_at {α β : Type} {P : α → β → Prop} : ∀ {l : List α} {l' : List β} (i : Nat), List.Forall₂ P l l' → OptLike P l[i]? l'[i]?
  | [], _, i, h => by cases h; trivial
  | a :: l, _, 0, h => by cases h with | cons h _ => exact h
  | a :: l, _, i + 1, h => by
    cases h with
    | cons _ hs =>
      simpa using forall₂_at i hs

theorem forall₂_update {α β : Type} {P : α → β → Prop} {a : α} {b : β} (hab : P a b) : ∀ {l : List α} {l' : List β} (i : Nat), List.Forall₂ P l l' →
    List.Forall₂ P (l.set i a) (l'.set i b)
  | [], _, i, h => by cases h; exact List.Forall₂.nil
  | x :: l, _, 0, h => by cases h with | cons h hs => exact List.Forall₂.cons hab hs
  | x :: l, _, i + 1, h => by
    cases h with
    | cons h hs => exact List.Forall₂.cons h (forall₂_update hab i hs)

theorem loop_like (hX : OpsNear sk X R) : ∀ (fuel : Nat) (v : Vec) {b b' : BatchReader χ}, BatchNear R b b' →
    Res.Alike (Like (BatchNear R)) (b.nextLoop X fuel v) (b'.nextLoop X fuel v)
  | fuel, v, b, b', h => by
    obtain ⟨st, ix, ss, nr, cu⟩ := b
    obtain ⟨st', ix', ss', nr', cu'⟩ := b'
    obtain ⟨h1, h2, h3, h4, h5⟩ := h
    cases h1
    cases h2
    cases h3
    cases h4
    dsimp only at h5
    rw [BatchReader.nextLoop.eq_def, BatchReader.nextLoop.eq_def X fuel ⟨st, ix, ss', nr, cu⟩]
    dsimp only
    split
    · trivial
    · have hs := forall₂_at ix.toNat h5
      cases e : ss[ix.toNat]? <;> cases e' : ss'[ix.toNat]? <;> rw [e, e'] at hs <;> first | exact hs.elim | skip
      · exact ⟨rfl, rfl, rfl, rfl, rfl, h5⟩
      · cases fuel with
        | zero => trivial
        | succ fuel =>
          dsimp only
          refine (stripe_next_like hX v hs).bind ?_
          rintro ⟨a, w, s⟩ ⟨a', w', s'⟩ ⟨ha, hw, hs⟩
          cases ha
          cases hw
          have h6 := forall₂_update hs ix.toNat h5
          dsimp only
          split
          · exact ⟨rfl, rfl, rfl, rfl, rfl, h6⟩
          · split
            · exact ⟨rfl, rfl, rfl, rfl, rfl, h6⟩
            · exact loop_like hX fuel w ⟨rfl, rfl, rfl, rfl, h6⟩

theorem next_like (hX : OpsNear sk X R) (fuel : Nat) (v : Vec) {b b' : BatchReader χ} (h : BatchNear R b b') :
    Res.Alike (fun a b => a.1 = b.1 ∧ a.2.1 = b.2.1 ∧ BatchNear R a.2.2 b.2.2) (b.next X fuel v) (b'.next X fuel v) := by
  unfold BatchReader.next
  refine (Res.Alike.refl (R := (· = ·)) (fun _ => rfl) _).bind ?_
  rintro v _ rfl
  rw [h.cursor, h.rows]
  split
  · exact ⟨rfl, rfl, h⟩
  · refine (loop_like hX fuel v h).bind ?_
    rintro ⟨w, b⟩ ⟨w', b'⟩ ⟨hw, hb⟩
    cases hw
    replace hb : BatchNear R b b' := hb
    dsimp only
    rw [hb.current, hb.stripes.length_eq]
    have h1 := hb.cursor
    have h2 := hb.rows
    split
    · dsimp only
      exact ⟨by simp only [h1, h2], rfl, hb.stride, rfl, h2, by simp only [h1], hb.stripes⟩
    · exact ⟨by simp only [h1, h2], rfl, hb.stride, hb.current, h2, by simp only [h1], hb.stripes⟩

theorem seekLoop_like (hsk : sk) (hX : OpsNear sk X R) {b b' : BatchReader χ} (h : BatchNear R b b') (row : Nat) :
    ∀ (i rows : Nat) {ss ss' : List (StripeReader χ)}, List.Forall₂ (StripeNear R) ss ss' →
      Res.Alike (BatchNear R) (b.seekLoop X row i rows ss) (b'.seekLoop X row i rows ss')
  | i, rows, [], _, hs => by cases hs; exact rfl
  | i, rows, s :: ss, _, hs => by
    cases hs with
    | cons hs hss =>
      rw [BatchReader.seekLoop, BatchReader.seekLoop, hs.rows, h.stride]
      split
      · exact alike_map (stripe_seek_like hsk hX _ _ hs) fun _ _ g => ⟨rfl, h.current, h.rows, h.cursor, forall₂_update g i h.stripes⟩
      · exact seekLoop_like hsk hX h row (i + 1) _ hss

theorem seek_like (hsk : sk) (hX : OpsNear sk X R) {b b' : BatchReader χ} (h : BatchNear R b b') (row : Nat) :
    Res.Alike (BatchNear R) (b.seek X row) (b'.seek X row) := by
  unfold BatchReader.seek
  rw [h.rows]
  split
  · exact rfl
  · exact seekLoop_like hsk hX h row 0 0 h.stripes

end Batch

end Goorc
