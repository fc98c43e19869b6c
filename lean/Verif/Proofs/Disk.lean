import Verif.Spec.Disk
import Verif.Props.Crash
/-
Writing to a file that can fail follows writing to a file that cannot, until the first failure.
-/
namespace Goorc

/-- `u` is what a call would do with a file that never fails, `v` is what it does with `k`. `all` is the file's contents after it. -/
inductive Tracks {X Y : Type} (k : Disk) (all : X → Bytes) (same : X → Y → Prop) : Res X → Res (After Y) → Prop
  | good (x : X) (y : Y) (k' : Disk) (h1 : k'.content = all x) (h2 : k.content <+: k'.content) (h3 : k'.failures = k.failures) (h4 : k.Sound → k'.Sound) (h5 : same x y) :
      Tracks k all same (.ok x) (.ok ⟨true, y, k'⟩)
  | broke (u : Res X) (y : Y) (k' : Disk) (h1 : ∀ x, u = .ok x → k'.content <+: all x) (h2 : k.content <+: k'.content) (h3 : k'.failures = k.failures + 1) (h4 : ¬ k.Sound) :
      Tracks k all same u (.ok ⟨false, y, k'⟩)
  | err (e : Err) : Tracks k all same (.err e) (.err e)
  | panic : Tracks k all same .panic .panic
  | hang : Tracks k all same .hang .hang

theorem Tracks.bind {X Y Z W : Type} {k : Disk} {all : X → Bytes} {same : X → Y → Prop} {all' : Z → Bytes} {same' : Z → W → Prop} {u : Res X} {v : Res (After Y)} {f : X → Res Z} {g : After Y → Res (After W)}
    (h : Tracks k all same u v) (grow : ∀ x z, u = .ok x → f x = .ok z → all x <+: all' z)
    (hg : ∀ x y k', u = .ok x → k'.content = all x → same x y → Tracks k' all' same' (f x) (g ⟨true, y, k'⟩))
    (stop : ∀ y k', ∃ y', g ⟨false, y, k'⟩ = .ok ⟨false, y', k'⟩) : Tracks k all' same' (u >>= f) (v >>= g) := by
  cases h with
  | good x y k' h1 h2 h3 h4 h5 =>
    have hh := hg x y k' rfl h1 h5
    rw [Res.ok_bind, Res.ok_bind]
    generalize f x = fx at hh ⊢
    generalize g ⟨true, y, k'⟩ = gy at hh ⊢
    cases hh with
    | good z w k2 e1 e2 e3 e4 e5 => exact .good z w k2 e1 (h2.trans e2) (e3.trans h3) (fun h => e4 (h4 h)) e5
    | broke _ w k2 e1 e2 e3 e4 => exact .broke _ w k2 e1 (h2.trans e2) (by rw [e3, h3]) (fun h => e4 (h4 h))
    | err e => exact .err e
    | panic => exact .panic
    | hang => exact .hang
  | broke _ y k' h1 h2 h3 h4 =>
    obtain ⟨y', hy⟩ := stop y k'
    rw [Res.ok_bind, hy]
    refine .broke _ y' k' (fun z hz => ?_) h2 h3 h4
    obtain ⟨x, hx, hz⟩ := Res.bind_ok_inv hz
    exact (h1 x hx).trans (grow x z hx hz)
  | err e => exact .err e
  | panic => exact .panic
  | hang => exact .hang

theorem Tracks.pre {A X Y : Type} {k : Disk} {all : X → Bytes} {same : X → Y → Prop} {w : Res A} {f : A → Res X} {g : A → Res (After Y)} (h : ∀ a, w = .ok a → Tracks k all same (f a) (g a)) :
    Tracks k all same (w >>= f) (w >>= g) := by
  cases w with
  | ok a => exact h a rfl
  | err e => exact .err e
  | panic => exact .panic
  | hang => exact .hang

theorem After.eta {α : Type} {a : After α} {b : Bool} {k : Disk} (h1 : a.ok = b) (h2 : a.disk = k) : a = ⟨b, a.st, k⟩ := by
  subst h1 h2
  rfl

/-- Only what is returned changes. -/
theorem Tracks.map {X Y Z W : Type} {k : Disk} {all : X → Bytes} {same : X → Y → Prop} {all' : Z → Bytes} {same' : Z → W → Prop} {u : Res X} {v : Res (After Y)} {f : X → Z} {g : After Y → After W}
    (h : Tracks k all same u v) (hall : ∀ x, all' (f x) = all x) (hg : ∀ a, (g a).ok = a.ok ∧ (g a).disk = a.disk) (hs : ∀ x y k', same x y → same' (f x) (g ⟨true, y, k'⟩).st) :
    Tracks k all' same' (u >>= fun x => .ok (f x)) (v >>= fun y => .ok (g y)) := by
  refine h.bind (fun x z _ hz => ?_) (fun x y k' _ h1 h2 => ?_) (fun y k' => ?_)
  · cases hz; rw [hall]; exact List.prefix_refl _
  · have hk := hg ⟨true, y, k'⟩
    rw [After.eta hk.1 hk.2]
    exact .good _ _ _ (by rw [h1, hall]) (List.prefix_refl _) rfl id (hs x y k' h2)
  · have hk := hg ⟨false, y, k'⟩
    exact ⟨(g ⟨false, y, k'⟩).st, congrArg Res.ok (After.eta hk.1 hk.2)⟩

theorem Disk.write_tracks (k : Disk) (b : Bytes) : Tracks k (fun _ : Unit => k.content ++ b) (fun _ n => n = b.length) (.ok ()) (.ok (k.write b)) := by
  obtain ⟨as, c, n⟩ := k
  cases as with
  | nil => exact .good () _ _ rfl (List.prefix_append _ _) rfl id rfl
  | cons a as =>
    cases a with
    | none => exact .good () _ _ rfl (List.prefix_append _ _) rfl (fun h a ha => h a (List.mem_cons_of_mem _ ha)) rfl
    | some m =>
      exact .broke _ _ _ (fun _ _ => (List.prefix_append_right_inj c).2 (List.take_prefix m b)) (List.prefix_append _ _) rfl (fun h => by cases h _ (List.mem_cons_self ..))

theorem Disk.drain_tracks (k : Disk) (b : Bytes) : Tracks k (fun _ : Unit => k.content ++ b) (fun _ y => y = (b.length, [])) (.ok ()) (.ok (k.drain b)) := by
  unfold Disk.drain
  split
  · rename_i h; subst h
    exact .good () _ _ (List.append_nil _).symm (List.prefix_refl _) rfl id rfl
  · have h := (k.write_tracks b).map (f := fun u : Unit => u) (g := fun r : After Nat => ⟨r.ok, (r.st, b.drop r.st), r.disk⟩) (all' := fun _ : Unit => k.content ++ b)
      (same' := fun _ y => y = (b.length, [])) (fun _ => rfl) (fun _ => ⟨rfl, rfl⟩) (fun x y k' h => by subst h; simp)
    exact h

/-- What a `WriteOut` adds to the file, and what it returns. -/
abbrev OutAll {W : Type} (k : Disk) : W × Bytes → Bytes := fun x => k.content ++ x.2
abbrev OutSame {W : Type} : W × Bytes → Nat × W → Prop := fun x y => y = (x.2.length, x.1)

theorem StreamWriter.writeOutTo_tracks {σ : Type} (o : WOpts) (w : StreamWriter σ) (k : Disk) : Tracks k (OutAll k) OutSame (.ok (w.writeOut o)) (.ok (w.writeOutTo o k)) := by
  unfold StreamWriter.writeOut StreamWriter.writeOutTo
  split
  · exact (k.drain_tracks w.buf).map (all' := OutAll k) (same' := OutSame) (f := fun _ => (({ w with buf := [] } : StreamWriter σ), w.buf)) (g := fun r => ⟨r.ok, (r.st.1, { w with buf := r.st.2 }), r.disk⟩)
      (fun _ => rfl) (fun _ => ⟨rfl, rfl⟩) (fun x y k' h => by subst h; exact Eq.refl _)
  · exact (k.drain_tracks (w.cbuf.getD [])).map (all' := OutAll k) (same' := OutSame) (f := fun _ => (({ w with cbuf := w.cbuf.map fun _ => [] } : StreamWriter σ), w.cbuf.getD []))
      (g := fun r => ⟨r.ok, (r.st.1, { w with cbuf := w.cbuf.map fun _ => r.st.2 }), r.disk⟩)
      (fun _ => rfl) (fun _ => ⟨rfl, rfl⟩) (fun x y k' h => by subst h; exact Eq.refl _)

theorem twoOutTo_tracks {σ τ : Type} (o : WOpts) (d : StreamWriter σ × StreamWriter τ) (k : Disk) :
    Tracks k (OutAll k) OutSame (.ok (((d.1.writeOut o).1, (d.2.writeOut o).1), (d.1.writeOut o).2 ++ (d.2.writeOut o).2)) (.ok (twoOutTo o d k)) := by
  have h := (d.1.writeOutTo_tracks o k).bind (all' := OutAll k) (same' := OutSame) (f := fun x => .ok ((x.1, (d.2.writeOut o).1), x.2 ++ (d.2.writeOut o).2))
    (g := fun a => if a.ok then let b := d.2.writeOutTo o a.disk; .ok ⟨b.ok, (a.st.1 + b.st.1, (a.st.2, b.st.2)), b.disk⟩ else .ok ⟨false, (0, (a.st.2, d.2)), a.disk⟩)
    (fun x z _ hz => by cases hz; exact ⟨(d.2.writeOut o).2, by simp [OutAll, List.append_assoc]⟩)
    (fun x y k' _ h1 h2 => by
      subst h2
      have h := (d.2.writeOutTo_tracks o k').map (all' := OutAll k) (same' := OutSame) (f := fun z => ((x.1, z.1), x.2 ++ z.2))
        (g := fun b => ⟨b.ok, (x.2.length + b.st.1, (x.1, b.st.2)), b.disk⟩) (fun z => by simp only [OutAll] at h1 ⊢; rw [h1, List.append_assoc]) (fun _ => ⟨rfl, rfl⟩)
        (fun z y k' h => by subst h; simp [OutSame])
      exact h)
    (fun y k' => ⟨_, rfl⟩)
  have e : (Res.ok (d.1.writeOutTo o k) >>= fun a => if a.ok then let b := d.2.writeOutTo o a.disk; .ok ⟨b.ok, (a.st.1 + b.st.1, (a.st.2, b.st.2)), b.disk⟩ else .ok ⟨false, (0, (a.st.2, d.2)), a.disk⟩) =
      Res.ok (twoOutTo o d k) := by
    rw [Res.ok_bind]
    unfold twoOutTo
    dsimp only
    split <;> simp
  rw [e] at h
  exact h

theorem LeafTag.dataTo_tracks (A : Arith) (o : WOpts) (t : LeafTag) (d : t.δ) (k : Disk) : Tracks k (OutAll k) OutSame (.ok ((t.kind A).streams.writeOut o d)) (.ok (t.dataTo o d k)) := by
  cases t with
  | byte => exact StreamWriter.writeOutTo_tracks o d k
  | bool => exact StreamWriter.writeOutTo_tracks o d k
  | int b => exact StreamWriter.writeOutTo_tracks o d k
  | float b => exact StreamWriter.writeOutTo_tracks o d k
  | string => exact twoOutTo_tracks o d k
  | binary => exact twoOutTo_tracks o d k
  | date => exact StreamWriter.writeOutTo_tracks o d k
  | timestamp => exact twoOutTo_tracks o d k
  | decimal => exact twoOutTo_tracks o d k

theorem flagsTo_tracks (o : COpts) (hasNulls : Bool) (present : Option (StreamWriter BoolEnc)) (k : Disk) :
    Tracks k (OutAll k) OutSame (writeOutFlags o hasNulls present) (flagsTo o hasNulls present k) := by
  unfold writeOutFlags flagsTo
  split
  · cases present with
    | none => exact .panic
    | some p =>
      exact (p.writeOutTo_tracks o.toWOpts k).map (all' := OutAll k) (same' := OutSame) (f := fun x => (some x.1, x.2)) (g := fun r => ⟨r.ok, (r.st.1, some r.st.2), r.disk⟩) (fun _ => rfl) (fun _ => ⟨rfl, rfl⟩)
        (fun x y k' h => by subst h; exact Eq.refl _)
  · exact .good _ _ _ (by simp) (List.prefix_refl _) rfl id rfl

theorem LeafKind.writeOut_eq {δ κ : Type} (K : LeafKind δ κ) (o : COpts) (w : ColWriter δ κ) : K.writeOut o w =
    if K.mustFlush ∧ w.flushed = false then .err .other
    else writeOutFlags o w.hasNulls w.present >>= fun p =>
      .ok ({ w with present := p.1, data := (K.streams.writeOut o.toWOpts w.data).1 }, p.2 ++ (K.streams.writeOut o.toWOpts w.data).2) := by
  unfold LeafKind.writeOut writeOutFlags
  split
  · rfl
  · dsimp only
    split
    · rename_i hn
      cases hp : w.present with
      | none => rfl
      | some p => rfl
    · rfl

theorem LeafTag.writeOutTo_tracks (A : Arith) (o : COpts) (t : LeafTag) (w : ColWriter t.δ t.κ) (k : Disk) :
    Tracks k (OutAll k) OutSame ((t.kind A).writeOut o w) (t.writeOutTo A o w k) := by
  rw [LeafKind.writeOut_eq]
  unfold LeafTag.writeOutTo
  split
  · exact .err _
  · refine (flagsTo_tracks o w.hasNulls w.present k).bind (fun x z _ hz => ?_) (fun x y k' _ h1 h2 => ?_) (fun y k' => ⟨_, rfl⟩)
    · cases hz; exact ⟨_, by simp only [OutAll, List.append_assoc]; rfl⟩
    · subst h2
      have h := (LeafTag.dataTo_tracks A o.toWOpts t w.data k').map (all' := OutAll k) (same' := OutSame) (f := fun z => (({ w with present := x.1, data := z.1 } : ColWriter t.δ t.κ), x.2 ++ z.2))
        (g := fun d => ⟨d.ok, (x.2.length + d.st.1, { w with present := x.1, data := d.st.2 }), d.disk⟩) (fun z => by simp only [OutAll] at h1 ⊢; rw [h1, List.append_assoc]) (fun _ => ⟨rfl, rfl⟩)
        (fun z y k' h => by subst h; simp [OutSame])
      exact h

theorem StructWriter.writeOutTo_tracks (o : COpts) (w : StructWriter) (k : Disk) : Tracks k (OutAll k) OutSame (w.writeOut o) (w.writeOutTo o k) := by
  unfold StructWriter.writeOut StructWriter.writeOutTo
  split
  · exact .err _
  · exact (flagsTo_tracks o w.hasNulls w.present k).map (all' := OutAll k) (same' := OutSame) (f := fun x => (({ w with present := x.1 } : StructWriter), x.2)) (g := fun p => ⟨p.ok, (p.st.1, { w with present := p.st.2 }), p.disk⟩)
      (fun _ => rfl) (fun _ => ⟨rfl, rfl⟩) (fun x y k' h => by subst h; exact Eq.refl _)

theorem DictWriter.writeOutTo_tracks (o : COpts) (w : DictWriter) (k : Disk) : Tracks k (OutAll k) OutSame (w.writeOut o) (w.writeOutTo o k) := by
  have e : w.writeOut o = (writeOutFlags o w.hasNulls w.present >>= fun p => Res.ok (w.dataStream.writeOut o.toWOpts) >>= fun d => Res.ok (w.dictStream.writeOut o.toWOpts) >>= fun t =>
      Res.ok (w.lengthStream.writeOut o.toWOpts) >>= fun l =>
        .ok (({ w with present := p.1, dataStream := d.1, dictStream := t.1, lengthStream := l.1 } : DictWriter), p.2 ++ d.2 ++ t.2 ++ l.2)) := rfl
  have e' : w.writeOutTo o k = (flagsTo o w.hasNulls w.present k >>= fun p => if p.ok then (Res.ok (w.dataStream.writeOutTo o.toWOpts p.disk) >>= fun d =>
      if d.ok then (Res.ok (w.dictStream.writeOutTo o.toWOpts d.disk) >>= fun t => if t.ok then (Res.ok (w.lengthStream.writeOutTo o.toWOpts t.disk) >>= fun l =>
          .ok ⟨l.ok, (p.st.1 + d.st.1 + t.st.1 + l.st.1, { w with present := p.st.2, dataStream := d.st.2, dictStream := t.st.2, lengthStream := l.st.2 }), l.disk⟩)
        else .ok ⟨false, (0, { w with present := p.st.2, dataStream := d.st.2, dictStream := t.st.2 }), t.disk⟩)
      else .ok ⟨false, (0, { w with present := p.st.2, dataStream := d.st.2 }), d.disk⟩)
    else .ok ⟨false, (0, { w with present := p.st.2 }), p.disk⟩) := rfl
  rw [e, e']
  refine (flagsTo_tracks o w.hasNulls w.present k).bind (fun x z _ hz => ?_) (fun x y k1 _ h1 h2 => ?_) (fun y k' => ⟨_, rfl⟩)
  · cases hz; exact ⟨(w.dataStream.writeOut o.toWOpts).2 ++ (w.dictStream.writeOut o.toWOpts).2 ++ (w.lengthStream.writeOut o.toWOpts).2, by simp [OutAll, List.append_assoc]⟩
  · subst h2
    refine (w.dataStream.writeOutTo_tracks o.toWOpts k1).bind (fun a z _ hz => ?_) (fun a y k2 _ h3 h4 => ?_) (fun y k' => ⟨_, rfl⟩)
    · cases hz; exact ⟨(w.dictStream.writeOut o.toWOpts).2 ++ (w.lengthStream.writeOut o.toWOpts).2, by simp only [OutAll, h1, List.append_assoc]⟩
    · subst h4
      refine (w.dictStream.writeOutTo_tracks o.toWOpts k2).bind (fun b z _ hz => ?_) (fun b y k3 _ h5 h6 => ?_) (fun y k' => ⟨_, rfl⟩)
      · cases hz; exact ⟨(w.lengthStream.writeOut o.toWOpts).2, by simp only [OutAll, h3, h1, List.append_assoc]⟩
      · subst h6
        exact (w.lengthStream.writeOutTo_tracks o.toWOpts k3).map (all' := OutAll k) (same' := OutSame)
          (f := fun l => (({ w with present := x.1, dataStream := a.1, dictStream := b.1, lengthStream := l.1 } : DictWriter), x.2 ++ a.2 ++ b.2 ++ l.2))
          (g := fun l => ⟨l.ok, (x.2.length + a.2.length + b.2.length + l.st.1, { w with present := x.1, dataStream := a.1, dictStream := b.1, lengthStream := l.st.2 }), l.disk⟩)
          (fun l => by simp only [OutAll, h5, h3, h1, List.append_assoc]) (fun _ => ⟨rfl, rfl⟩) (fun l y k' h => by subst h; simp [OutSame, Nat.add_assoc])

theorem AnyWriter.writeOutTo_tracks (A : Arith) (o : COpts) (w : AnyWriter) (k : Disk) : Tracks k (OutAll k) OutSame (w.writeOut A o) (w.writeOutTo A o k) := by
  cases w with
  | leaf t w =>
    exact (LeafTag.writeOutTo_tracks A o t w k).map (all' := OutAll k) (same' := OutSame) (f := fun x => (AnyWriter.leaf t x.1, x.2)) (g := fun r => ⟨r.ok, (r.st.1, .leaf t r.st.2), r.disk⟩)
      (fun _ => rfl) (fun _ => ⟨rfl, rfl⟩) (fun x y k' h => by subst h; exact Eq.refl _)
  | dict w =>
    exact (w.writeOutTo_tracks o k).map (all' := OutAll k) (same' := OutSame) (f := fun x => (AnyWriter.dict x.1, x.2)) (g := fun r => ⟨r.ok, (r.st.1, .dict r.st.2), r.disk⟩)
      (fun _ => rfl) (fun _ => ⟨rfl, rfl⟩) (fun x y k' h => by subst h; exact Eq.refl _)
  | struct w =>
    exact (w.writeOutTo_tracks o k).map (all' := OutAll k) (same' := OutSame) (f := fun x => (AnyWriter.struct x.1, x.2)) (g := fun r => ⟨r.ok, (r.st.1, .struct r.st.2), r.disk⟩)
      (fun _ => rfl) (fun _ => ⟨rfl, rfl⟩) (fun x y k' h => by subst h; exact Eq.refl _)

namespace StripeWriter

theorem indexesTo_tracks (P : Proto) : ∀ (ws : List AnyWriter) (k : Disk), Tracks k (fun b : Bytes => k.content ++ b) (fun b n => n = b.length) (.ok (indexes P ws)) (.ok (indexesTo P ws k))
  | [], k => .good _ _ _ (by simp [indexes]) (List.prefix_refl _) rfl id rfl
  | w :: ws, k => by
    have e : Res.ok (indexes P (w :: ws)) = (Res.ok () >>= fun _ => Res.ok (P.index w.index ++ indexes P ws)) := rfl
    have e' : Res.ok (indexesTo P (w :: ws) k) = (Res.ok (k.write (P.index w.index)) >>= fun r => if r.ok then .ok ⟨(indexesTo P ws r.disk).ok, r.st + (indexesTo P ws r.disk).st, (indexesTo P ws r.disk).disk⟩
        else .ok ⟨false, 0, r.disk⟩) := by
      rw [Res.ok_bind, indexesTo]
      dsimp only
      split <;> rfl
    rw [e, e']
    refine (k.write_tracks (P.index w.index)).bind (fun x z _ hz => ?_) (fun x y k1 _ h1 h2 => ?_) (fun y k' => ⟨_, rfl⟩)
    · cases hz; exact ⟨indexes P ws, by simp [List.append_assoc]⟩
    · subst h2
      exact (indexesTo_tracks P ws k1).map (all' := fun b => k.content ++ b) (same' := fun b n => n = b.length) (f := fun b => P.index w.index ++ b)
        (g := fun s => ⟨s.ok, (P.index w.index).length + s.st, s.disk⟩) (fun b => by simp only [h1, List.append_assoc]) (fun _ => ⟨rfl, rfl⟩) (fun b y k' h => by subst h; simp)

theorem writeOutsTo_tracks (A : Arith) (o : COpts) : ∀ (ws : List AnyWriter) (k : Disk), Tracks k (OutAll k) OutSame (writeOuts A o ws) (writeOutsTo A o ws k)
  | [], k => .good _ _ _ (by simp) (List.prefix_refl _) rfl id rfl
  | w :: ws, k => by
    rw [writeOuts, writeOutsTo]
    refine (w.writeOutTo_tracks A o k).bind (fun x z _ hz => ?_) (fun x y k1 _ h1 h2 => ?_) (fun y k' => ⟨_, rfl⟩)
    · obtain ⟨a, -, hz⟩ := Res.bind_ok_inv hz
      cases hz; exact ⟨a.2, by simp [OutAll, List.append_assoc]⟩
    · subst h2
      exact (writeOutsTo_tracks A o ws k1).map (all' := OutAll k) (same' := OutSame) (f := fun z => (x.1 :: z.1, x.2 ++ z.2)) (g := fun s => ⟨s.ok, (x.2.length + s.st.1, x.1 :: s.st.2), s.disk⟩)
        (fun z => by simp only [OutAll, h1, List.append_assoc]) (fun _ => ⟨rfl, rfl⟩) (fun z y k' h => by subst h; simp [OutSame])

/-- The stripe writers agree but for `out`. -/
abbrev Same (x y : StripeWriter) : Prop := x = { y with out := x.out }

theorem writeFooterTo_tracks (E : Env) (o : FOpts) {s t : StripeWriter} {k : Disk} (h : Same s t) (hk : k.content = s.out) : Tracks k (·.out) Same (s.writeFooter E o) (t.writeFooterTo E o k) := by
  have hf : s.footer E.A = t.footer E.A := by rw [h]; rfl
  unfold writeFooter writeFooterTo
  rw [hf]
  refine Tracks.pre fun b _ => ?_
  refine (k.drain_tracks b).bind (f := fun _ => Res.ok { s with out := s.out ++ b, info := { s.info with footerLength := b.length } })
    (g := fun r => if r.ok then .ok ⟨true, { t with info := { t.info with footerLength := r.st.1 } }, r.disk⟩ else .ok ⟨false, t, r.disk⟩) (fun x z _ hz => ?_) (fun x y k1 _ h1 h2 => ?_) (fun y k' => ⟨_, rfl⟩)
  · cases hz; rw [hk]; exact List.prefix_refl _
  · subst h2
    refine .good _ _ _ ?_ (List.prefix_refl _) rfl id ?_
    · rw [h1, hk]
    · show _ = _
      rw [show s.info = t.info from by rw [h]]
      rw [h]

theorem flushOutTo_tracks (E : Env) (o : FOpts) {s t : StripeWriter} {k : Disk} (h : Same s t) (hk : k.content = s.out) : Tracks k (·.out) Same (s.flushOut E o) (t.flushOutTo E o k) := by
  unfold flushOut flushOutTo
  rw [show s.writers = t.writers from by rw [h]]
  refine Tracks.pre fun ws _ => ?_
  have hi : Tracks k (fun b : Bytes => k.content ++ b) (fun b n => n = b.length) (.ok (if o.writeIndex then indexes E.P ws else [])) (.ok (if o.writeIndex then indexesTo E.P ws k else ⟨true, 0, k⟩)) := by
    split
    · exact indexesTo_tracks E.P ws k
    · exact .good _ _ _ (by simp) (List.prefix_refl _) rfl id rfl
  refine hi.bind (f := fun idx => writeOuts E.A o.toCOpts ws >>= fun r => writeFooter E o { s with
      writers := r.1
      out := s.out ++ idx ++ r.2
      info := { s.info with indexLength := s.info.indexLength + idx.length, dataLength := s.info.dataLength + r.2.length } })
    (g := fun i => if i.ok then writeOutsTo E.A o.toCOpts ws i.disk >>= fun r => if r.ok then writeFooterTo E o { t with
          writers := r.st.2
          info := { t.info with indexLength := t.info.indexLength + i.st, dataLength := t.info.dataLength + r.st.1 } } r.disk
        else .ok ⟨false, { t with writers := r.st.2, info := { t.info with indexLength := t.info.indexLength + i.st, dataLength := t.info.dataLength + r.st.1 } }, r.disk⟩
      else .ok ⟨false, { t with writers := ws, info := { t.info with indexLength := t.info.indexLength + i.st } }, i.disk⟩)
    (fun x z _ hz => ?_) (fun x y k1 _ h1 h2 => ?_) (fun y k' => ⟨_, rfl⟩)
  · obtain ⟨r, -, hz⟩ := Res.bind_ok_inv hz
    simp only [writeFooter] at hz
    obtain ⟨b, -, hz⟩ := Res.bind_ok_inv hz
    cases hz
    exact ⟨r.2 ++ b, by simp only [hk, List.append_assoc]⟩
  · subst h2
    refine (writeOutsTo_tracks E.A o.toCOpts ws k1).bind (fun r z _ hz => ?_) (fun r y k2 _ h3 h4 => ?_) (fun y k' => ⟨_, rfl⟩)
    · simp only [writeFooter] at hz
      obtain ⟨b, -, hz⟩ := Res.bind_ok_inv hz
      cases hz
      exact ⟨b, by simp only [OutAll, h1, hk, List.append_assoc]⟩
    · subst h4
      refine writeFooterTo_tracks E o ?_ ?_
      · show _ = _
        rw [show s.info = t.info from by rw [h]]
        rw [h]
      · rw [h3]
        simp only [OutAll, h1, hk]

theorem writeLoopTo_tracks (E : Env) (o : FOpts) (vec : Vec) : ∀ (n i count : Nat) {s t : StripeWriter} {k : Disk}, Same s t → k.content = s.out →
    Tracks k (·.out) Same (writeLoop E o vec n i count s) (writeLoopTo E o vec n i count t k)
  | 0, i, count, s, t, k, h, hk => by
    rw [writeLoop, writeLoopTo]
    refine .good _ _ _ hk (List.prefix_refl _) rfl id ?_
    show _ = _
    unfold addRows
    rw [show s.info = t.info from by rw [h]]
    rw [h]
  | n + 1, i, count, s, t, k, h, hk => by
    rw [writeLoop, writeLoopTo]
    rw [show s.writers = t.writers from by rw [h]]
    refine Tracks.pre fun ws _ => ?_
    dsimp only
    rw [show StripeWriter.size E.A o { s with writers := ws } = StripeWriter.size E.A o { t with writers := ws } from rfl]
    split
    · refine (flushOutTo_tracks E o (s := addRows (count + 1) { s with writers := ws }) (t := addRows (count + 1) { t with writers := ws }) (k := k) ?_ hk).bind (fun x z _ hz => ?_)
        (fun x y k1 _ h1 h2 => ?_) (fun y k' => ⟨_, rfl⟩)
      · show _ = _
        unfold addRows
        rw [show s.info = t.info from by rw [h]]
        rw [h]
      · obtain ⟨x1, e1, hz⟩ := Res.bind_ok_inv hz
        have e2 := (writeLoop_grows _ _ _ _ _ _ hz).1
        have e3 : x1.out = x.out := by
          simp only [forward] at e1
          obtain ⟨ws1, -, e1⟩ := Res.bind_ok_inv e1
          cases e1; rfl
        rw [e3] at e2
        exact e2
      · have e : ∀ {X : Type} (f : StripeWriter → Res X), (x.forward E.A o >>= f) = (onWriters (fun w => w.reset E.A o.toCOpts) y.writers >>= fun ws => f { x with
            writers := ws
            infos := x.infos ++ [x.info]
            info := ⟨x.info.offset + x.info.indexLength + x.info.dataLength + x.info.footerLength, 0, 0, 0, 0⟩ }) := by
          intro X f
          unfold forward
          rw [show x.writers = y.writers from by rw [h2]]
          cases onWriters (fun w => w.reset E.A o.toCOpts) y.writers <;> rfl
        have e' : ∀ {X : Type} (f : StripeWriter → Res X), (y.forward E.A o >>= f) = (onWriters (fun w => w.reset E.A o.toCOpts) y.writers >>= fun ws => f { y with
            writers := ws
            infos := y.infos ++ [y.info]
            info := ⟨y.info.offset + y.info.indexLength + y.info.dataLength + y.info.footerLength, 0, 0, 0, 0⟩ }) := by
          intro X f
          unfold forward
          cases onWriters (fun w => w.reset E.A o.toCOpts) y.writers <;> rfl
        rw [e]
        refine Eq.mpr (congrArg (Tracks k1 _ _ _) (e' _)) ?_
        refine Tracks.pre fun ws _ => writeLoopTo_tracks E o vec n (i + 1) 0 ?_ h1
        show _ = _
        rw [show x.info = y.info from by rw [h2], show x.infos = y.infos from by rw [h2]]
        rw [h2]
    · exact writeLoopTo_tracks E o vec n (i + 1) (count + 1) (s := { s with writers := ws }) (t := { t with writers := ws }) (by show _ = _; rw [h]) hk

end StripeWriter

namespace FileWriter

abbrev Same (x y : FileWriter) : Prop := x.schemas = y.schemas ∧ StripeWriter.Same x.stripe y.stripe

theorem writeTo_tracks (E : Env) (o : FOpts) (vec : Vec) {w v : FileWriter} {k : Disk} (h : Same w v) (hk : k.content = w.stripe.out) :
    Tracks k (·.stripe.out) Same (w.write E o vec) (v.writeTo E o vec k) := by
  unfold write writeTo StripeWriter.write
  split
  · exact .panic
  · exact (StripeWriter.writeLoopTo_tracks E o vec vec.len 0 0 h.2 hk).map (all' := fun x : FileWriter => x.stripe.out) (same' := Same) (f := fun s => { w with stripe := s })
      (g := fun r => ⟨r.ok, { v with stripe := r.st }, r.disk⟩) (fun _ => rfl) (fun _ => ⟨rfl, rfl⟩) (fun x y k' hs => ⟨h.1, hs⟩)

theorem writesTo_tracks (E : Env) (o : FOpts) : ∀ (vs : List Vec) {w v : FileWriter} {k : Disk}, Same w v → k.content = w.stripe.out →
    Tracks k (·.stripe.out) Same (w.writes E o vs) (v.writesTo E o vs k)
  | [], w, v, k, h, hk => by
    rw [writes, writesTo]
    exact .good _ _ _ hk (List.prefix_refl _) rfl id h
  | x :: xs, w, v, k, h, hk => by
    rw [writes, writesTo]
    refine (writeTo_tracks E o x h hk).bind (fun w1 w2 _ hz => (writes_grows _ hz).1) (fun w1 v1 k1 _ h1 h2 => ?_) (fun y k' => ⟨_, rfl⟩)
    exact writesTo_tracks E o xs h2 h1

theorem footerTo_tracks (E : Env) (o : FOpts) (f : Bytes) (k : Disk) :
    Tracks k (fun b => k.content ++ b) (fun b n => n = b.length) (if o.kind = .none then pure f else compressingAllInChunks E.c o.kind o.chunkSize f : Res Bytes) (footerTo E o f k) := by
  unfold footerTo
  split
  · exact (k.write_tracks f).map (all' := fun b => k.content ++ b) (same' := fun b n => n = b.length) (f := fun _ => f) (g := fun r => ⟨r.ok, f.length, r.disk⟩) (fun _ => rfl) (fun _ => ⟨rfl, rfl⟩) (fun _ _ _ _ => rfl)
  · rw [show compressingAllInChunks E.c o.kind o.chunkSize f = (compressingAllInChunks E.c o.kind o.chunkSize f >>= fun b => .ok b) from by
      cases compressingAllInChunks E.c o.kind o.chunkSize f <;> rfl]
    rw [show (compressingAllInChunks E.c o.kind o.chunkSize f >>= fun b => Res.ok b) = (compressingAllInChunks E.c o.kind o.chunkSize f >>= fun b => (Res.ok () >>= fun _ => .ok b)) from rfl]
    have hs : ∀ (r : Res Bytes) (g : Bytes → Res (After Nat)), ((r >>= fun b => (Res.ok b : Res Bytes)) >>= g) = (r >>= g) := by
      intro r g; cases r <;> rfl
    refine Eq.mpr (congrArg (Tracks k _ _ _) (show _ = (compressingAllInChunks E.c o.kind o.chunkSize f >>= fun b => (Res.ok (k.drain b) >>= fun r => .ok ⟨r.ok, b.length, r.disk⟩)) from ?_)) ?_
    · exact hs _ _
    · exact Tracks.pre fun b _ => (k.drain_tracks b).map (all' := fun b => k.content ++ b) (same' := fun b n => n = b.length) (f := fun _ => b) (g := fun r => ⟨r.ok, b.length, r.disk⟩) (fun _ => rfl)
        (fun _ => ⟨rfl, rfl⟩) (fun _ _ _ _ => rfl)

theorem tailTo_tracks (E : Env) (o : FOpts) {w v : FileWriter} (hf : w.footer = v.footer) (k : Disk) : Tracks k (fun b => k.content ++ b) (fun _ _ => True) (w.tail E o) (v.tailTo E o k) := by
  unfold tail tailTo
  rw [hf]
  refine (footerTo_tracks E o (E.P.fileFooter v.footer) k).bind
    (f := fun f => Res.ok (f ++ E.P.postScript (postScript o f.length) ++ [BitVec.ofNat 8 (E.P.postScript (postScript o f.length)).length]))
    (g := fun r => if r.ok then (if (r.disk.write (E.P.postScript (postScript o r.st))).ok then
        Res.ok ⟨((r.disk.write (E.P.postScript (postScript o r.st))).disk.write [BitVec.ofNat 8 (r.disk.write (E.P.postScript (postScript o r.st))).st]).ok, (),
          ((r.disk.write (E.P.postScript (postScript o r.st))).disk.write [BitVec.ofNat 8 (r.disk.write (E.P.postScript (postScript o r.st))).st]).disk⟩
        else .ok ⟨false, (), (r.disk.write (E.P.postScript (postScript o r.st))).disk⟩) else .ok ⟨false, (), r.disk⟩)
    (fun x z _ hz => ?_) (fun x y k1 _ h1 h2 => ?_) (fun y k' => ⟨_, rfl⟩)
  · cases hz; exact (List.prefix_append_right_inj _).2 ((List.prefix_append _ _).trans (List.prefix_append _ _))
  · subst h2
    refine (k1.write_tracks (E.P.postScript (postScript o x.length))).bind (f := fun _ => Res.ok (x ++ E.P.postScript (postScript o x.length) ++ [BitVec.ofNat 8 (E.P.postScript (postScript o x.length)).length]))
      (g := fun p => if p.ok then Res.ok ⟨(p.disk.write [BitVec.ofNat 8 p.st]).ok, (), (p.disk.write [BitVec.ofNat 8 p.st]).disk⟩ else .ok ⟨false, (), p.disk⟩)
      (fun u z _ hz => ?_) (fun u y k2 _ h3 h4 => ?_) (fun y k' => ⟨_, rfl⟩)
    · cases hz; rw [h1, List.append_assoc]; exact (List.prefix_append_right_inj _).2 (List.prefix_append _ _)
    · subst h4
      exact (k2.write_tracks [BitVec.ofNat 8 (E.P.postScript (postScript o x.length)).length]).map (all' := fun b => k.content ++ b) (same' := fun _ _ => True)
        (f := fun _ => x ++ E.P.postScript (postScript o x.length) ++ [BitVec.ofNat 8 (E.P.postScript (postScript o x.length)).length]) (g := fun l => ⟨l.ok, (), l.disk⟩)
        (fun _ => by rw [h3, h1]; simp only [List.append_assoc]) (fun _ => ⟨rfl, rfl⟩) (fun _ _ _ _ => trivial)

theorem closeTo_tracks (E : Env) (o : FOpts) (closes : Bool) {w v : FileWriter} {k : Disk} (h : Same w v) (hk : k.content = w.stripe.out) :
    Tracks k id (fun _ _ => True) (w.close E o) (v.closeTo E o closes k) := by
  unfold close closeTo finish
  rw [Res.bind_assoc]
  refine (StripeWriter.flushOutTo_tracks E o h.2 hk).bind (fun x z _ hz => ?_) (fun x y k1 _ h1 h2 => ?_) (fun y k' => ⟨_, rfl⟩)
  · obtain ⟨w1, e1, hz⟩ := Res.bind_ok_inv hz
    obtain ⟨t, -, hz⟩ := Res.bind_ok_inv hz
    cases e1; cases hz
    exact List.prefix_append _ _
  · refine Eq.mpr (congrArg (fun a => Tracks k1 _ _ a _) (show _ = (tail E o { w with stripe := { x with infos := x.infos ++ [x.info] } } >>= fun t => Res.ok (x.out ++ t)) from rfl)) ?_
    have hf : FileWriter.footer { w with stripe := { x with infos := x.infos ++ [x.info] } } = FileWriter.footer { v with stripe := { y with infos := y.infos ++ [y.info] } } := by
      unfold FileWriter.footer
      simp only
      rw [show x.info = y.info from by rw [h2], show x.infos = y.infos from by rw [h2], show x.writers = y.writers from by rw [h2], h.1]
    refine (tailTo_tracks E o hf k1).bind (fun b z _ hz => ?_) (fun b u k2 _ h3 _ => ?_) (fun y k' => ⟨_, rfl⟩)
    · cases hz; rw [h1]; exact List.prefix_refl _
    · simp only [if_true]
      refine Eq.mpr (congrArg (Tracks k2 _ _ _) (show _ = Res.ok (⟨true, { v with stripe := { y with infos := y.infos ++ [y.info] } }, k2⟩ : After FileWriter) from ?_)) ?_
      · cases closes <;> rfl
      · exact .good _ _ _ (by rw [h3, h1]; rfl) (List.prefix_refl _) rfl id trivial

end FileWriter

theorem newWriterTo_tracks (E : Env) (o : FOpts) (schema : Schema) (k : Disk) (hk : k.content = []) :
    Tracks k (·.stripe.out) (fun x y => ∃ v, y = some v ∧ FileWriter.Same x v) (newWriter E o schema) (newWriterTo E o schema k) := by
  unfold newWriter newWriterTo
  refine Tracks.pre fun schemas _ => ?_
  refine (k.write_tracks magic).bind (f := fun _ => newStripeWriter E.A o magic magic.length (schemas.map (·.node)) >>= fun s => Res.ok (⟨schemas, s⟩ : FileWriter))
    (g := fun r => if r.ok then newStripeWriter E.A o [] magic.length (schemas.map (·.node)) >>= fun s => .ok ⟨true, some (⟨schemas, s⟩ : FileWriter), r.disk⟩ else .ok ⟨false, none, r.disk⟩)
    (fun x z _ hz => ?_) (fun x y k1 _ h1 h2 => ?_) (fun y k' => ⟨_, rfl⟩)
  · obtain ⟨s, e, hz⟩ := Res.bind_ok_inv hz
    unfold newStripeWriter at e
    obtain ⟨ws, -, e⟩ := Res.bind_ok_inv e
    cases e; cases hz
    rw [hk]; exact List.prefix_refl _
  · simp only [if_true]
    unfold newStripeWriter
    cases newWriters E.A o.toCOpts (schemas.map (·.node)) with
    | ok ws => exact .good _ _ _ (by rw [h1, hk]; rfl) (List.prefix_refl _) rfl id ⟨_, rfl, rfl, rfl⟩
    | err e => exact .err e
    | panic => exact .panic
    | hang => exact .hang

theorem writeFileTo_tracks (E : Env) (o : FOpts) (schema : Schema) (batches : List Vec) (closes : Bool) (k : Disk) (hk : k.content = []) :
    Tracks k id (fun _ _ => True) (writeFile E o schema batches) (writeFileTo E o schema batches closes k) := by
  unfold writeFile writeFileTo
  refine (newWriterTo_tracks E o schema k hk).bind (fun x z _ hz => ?_) (fun x y k1 _ h1 h2 => ?_) (fun y k' => ?_)
  · obtain ⟨w1, e1, hz⟩ := Res.bind_ok_inv hz
    exact (FileWriter.writes_grows _ e1).1.trans (FileWriter.close_grows hz)
  · obtain ⟨v, rfl, hv⟩ := h2
    dsimp only
    refine (FileWriter.writesTo_tracks E o batches hv h1).bind (fun x z _ hz => FileWriter.close_grows hz) (fun w1 v1 k2 _ h3 h4 => ?_) (fun y k' => ⟨_, rfl⟩)
    have h := (FileWriter.closeTo_tracks E o closes h4 h3).map (all' := id) (same' := fun (_ : Bytes) (_ : Unit) => True) (f := id) (g := fun c => ⟨c.ok, (), c.disk⟩)
      (fun _ => rfl) (fun _ => ⟨rfl, rfl⟩) (fun _ _ _ _ => trivial)
    rw [show (w1.close E o >>= fun x => Res.ok (id x)) = w1.close E o from by cases w1.close E o <;> rfl] at h
    exact h
  · cases y <;> exact ⟨(), rfl⟩

/-- What is left in the buffers is what is missing in the file. `u` writes out what there was, `v` what there is after the call. -/
structure Leaves {W : Type} (k : Disk) (u : W × Bytes) (ok : Bool) (v : W × Bytes) (k' : Disk) : Prop where
  same : v.1 = u.1
  all : k'.content ++ v.2 = k.content ++ u.2
  done : ok = true → v.2 = []

theorem Disk.drain_leaves (k : Disk) (b : Bytes) : (k.drain b).disk.content ++ (k.drain b).st.2 = k.content ++ b ∧ ((k.drain b).ok = true → (k.drain b).st.2 = []) ∧
    (k.drain b).st.1 + (k.drain b).st.2.length = b.length := by
  unfold Disk.drain
  split
  · rename_i h; subst h; simp
  · obtain ⟨as, c, n⟩ := k
    cases as with
    | nil => simp [Disk.write]
    | cons a as =>
      cases a with
      | none => simp [Disk.write]
      | some m =>
        simp only [Disk.write, List.append_assoc, List.length_take, List.length_drop]
        refine ⟨?_, nofun, ?_⟩
        · congr 1
          rcases Nat.le_total m b.length with h | h
          · rw [Nat.min_eq_left h]; exact List.take_append_drop m b
          · rw [Nat.min_eq_right h, List.drop_length, List.append_nil, List.take_of_length_le h]
        · omega

theorem StreamWriter.writeOutTo_leaves {σ : Type} (o : WOpts) (w : StreamWriter σ) (k : Disk) :
    Leaves k (w.writeOut o) (w.writeOutTo o k).ok ((w.writeOutTo o k).st.2.writeOut o) (w.writeOutTo o k).disk := by
  unfold StreamWriter.writeOutTo
  split
  · rename_i h
    have hd := k.drain_leaves w.buf
    simp only [StreamWriter.writeOut, if_pos h]
    exact ⟨rfl, hd.1, hd.2.1⟩
  · rename_i h
    have hd := k.drain_leaves (w.cbuf.getD [])
    simp only [StreamWriter.writeOut, if_neg h]
    cases hc : w.cbuf with
    | none =>
      rw [hc] at hd
      exact ⟨rfl, by simp [Disk.drain], fun _ => rfl⟩
    | some c =>
      rw [hc] at hd
      exact ⟨rfl, hd.1, hd.2.1⟩

abbrev twoOut {σ τ : Type} (o : WOpts) (d : StreamWriter σ × StreamWriter τ) : (StreamWriter σ × StreamWriter τ) × Bytes :=
  (((d.1.writeOut o).1, (d.2.writeOut o).1), (d.1.writeOut o).2 ++ (d.2.writeOut o).2)

theorem twoOutTo_leaves {σ τ : Type} (o : WOpts) (d : StreamWriter σ × StreamWriter τ) (k : Disk) : Leaves k (twoOut o d) (twoOutTo o d k).ok (twoOut o (twoOutTo o d k).st.2) (twoOutTo o d k).disk := by
  unfold twoOutTo
  have h1 := d.1.writeOutTo_leaves o k
  dsimp only
  split
  · rename_i ha
    have h2 := d.2.writeOutTo_leaves o (d.1.writeOutTo o k).disk
    have e := h1.done ha
    have e1 := h1.all
    rw [e, List.append_nil] at e1
    exact ⟨by dsimp only; rw [h1.same, h2.same], by dsimp only; rw [e, List.nil_append, h2.all, e1, List.append_assoc], fun hb => by dsimp only; rw [e, h2.done hb]; rfl⟩
  · exact ⟨by dsimp only; rw [h1.same], by dsimp only; rw [← List.append_assoc, h1.all, List.append_assoc], nofun⟩

theorem LeafTag.dataTo_leaves (A : Arith) (o : WOpts) (t : LeafTag) (d : t.δ) (k : Disk) :
    Leaves k ((t.kind A).streams.writeOut o d) (t.dataTo o d k).ok ((t.kind A).streams.writeOut o (t.dataTo o d k).st.2) (t.dataTo o d k).disk := by
  cases t with
  | byte => exact StreamWriter.writeOutTo_leaves o d k
  | bool => exact StreamWriter.writeOutTo_leaves o d k
  | int b => exact StreamWriter.writeOutTo_leaves o d k
  | float b => exact StreamWriter.writeOutTo_leaves o d k
  | string => exact twoOutTo_leaves o d k
  | binary => exact twoOutTo_leaves o d k
  | date => exact StreamWriter.writeOutTo_leaves o d k
  | timestamp => exact twoOutTo_leaves o d k
  | decimal => exact twoOutTo_leaves o d k

theorem flagsTo_leaves {o : COpts} {hasNulls : Bool} {present : Option (StreamWriter BoolEnc)} {k : Disk} {r : After (Nat × Option (StreamWriter BoolEnc))} (h : flagsTo o hasNulls present k = .ok r) :
    ∃ u v, writeOutFlags o hasNulls present = .ok u ∧ writeOutFlags o hasNulls r.st.2 = .ok v ∧ Leaves k u r.ok v r.disk := by
  unfold flagsTo at h
  unfold writeOutFlags
  split at h
  · rename_i hn
    cases present with
    | none => cases h
    | some p =>
      cases h
      have hl := p.writeOutTo_leaves o.toWOpts k
      exact ⟨_, _, if_pos hn, if_pos hn, congrArg some hl.same, hl.all, hl.done⟩
  · rename_i hn
    cases h
    exact ⟨_, _, if_neg hn, if_neg hn, rfl, rfl, fun _ => rfl⟩

theorem LeafTag.writeOutTo_leaves {A : Arith} {o : COpts} {t : LeafTag} {w : ColWriter t.δ t.κ} {k : Disk} {r : After (Nat × ColWriter t.δ t.κ)} (h : t.writeOutTo A o w k = .ok r) :
    ∃ u v, (t.kind A).writeOut o w = .ok u ∧ (t.kind A).writeOut o r.st.2 = .ok v ∧ Leaves k u r.ok v r.disk := by
  unfold LeafTag.writeOutTo at h
  split at h
  · cases h
  · rename_i hf
    obtain ⟨p, hp, h⟩ := Res.bind_ok_inv h
    obtain ⟨u, v, h1, h2, h3⟩ := flagsTo_leaves hp
    by_cases hok : p.ok = true
    · rw [if_pos hok] at h
      cases h
      have hd := LeafTag.dataTo_leaves A o.toWOpts t w.data p.disk
      have e := h3.done hok
      have e1 := h3.all
      rw [e, List.append_nil] at e1
      rw [LeafKind.writeOut_eq, LeafKind.writeOut_eq, if_neg hf, if_neg hf, h1]
      dsimp only
      rw [h2]
      exact ⟨_, _, rfl, rfl, by dsimp only; rw [h3.same, hd.same], by dsimp only; rw [e, List.nil_append, hd.all, e1, List.append_assoc], fun hb => by dsimp only; rw [e, hd.done hb]; rfl⟩
    · rw [if_neg hok] at h
      cases h
      rw [LeafKind.writeOut_eq, LeafKind.writeOut_eq, if_neg hf, if_neg hf, h1]
      dsimp only
      rw [h2]
      exact ⟨_, _, rfl, rfl, by dsimp only; rw [h3.same], by dsimp only; rw [← List.append_assoc, h3.all, List.append_assoc], nofun⟩

theorem StructWriter.writeOutTo_leaves {o : COpts} {w : StructWriter} {k : Disk} {r : After (Nat × StructWriter)} (h : w.writeOutTo o k = .ok r) :
    ∃ u v, w.writeOut o = .ok u ∧ r.st.2.writeOut o = .ok v ∧ Leaves k u r.ok v r.disk := by
  unfold StructWriter.writeOutTo at h
  split at h
  · cases h
  · rename_i hf
    obtain ⟨p, hp, h⟩ := Res.bind_ok_inv h
    obtain ⟨u, v, h1, h2, h3⟩ := flagsTo_leaves hp
    cases h
    unfold StructWriter.writeOut
    rw [if_neg hf, if_neg hf, h1]
    dsimp only
    rw [h2]
    exact ⟨_, _, rfl, rfl, by dsimp only; rw [h3.same], h3.all, h3.done⟩

theorem DictWriter.writeOut_eq (o : COpts) (w : DictWriter) : w.writeOut o = (writeOutFlags o w.hasNulls w.present >>= fun p =>
    .ok ({ w with present := p.1, dataStream := (w.dataStream.writeOut o.toWOpts).1, dictStream := (w.dictStream.writeOut o.toWOpts).1, lengthStream := (w.lengthStream.writeOut o.toWOpts).1 },
      p.2 ++ (w.dataStream.writeOut o.toWOpts).2 ++ (w.dictStream.writeOut o.toWOpts).2 ++ (w.lengthStream.writeOut o.toWOpts).2)) := rfl

theorem DictWriter.writeOutTo_leaves {o : COpts} {w : DictWriter} {k : Disk} {r : After (Nat × DictWriter)} (h : w.writeOutTo o k = .ok r) :
    ∃ u v, w.writeOut o = .ok u ∧ r.st.2.writeOut o = .ok v ∧ Leaves k u r.ok v r.disk := by
  unfold DictWriter.writeOutTo at h
  obtain ⟨p, hp, h⟩ := Res.bind_ok_inv h
  obtain ⟨u, v, h1, h2, h3⟩ := flagsTo_leaves hp
  rw [DictWriter.writeOut_eq, DictWriter.writeOut_eq, h1]
  dsimp only at h
  split at h
  · rename_i hpk
    have e3 := h3.done hpk
    have a3 := h3.all
    rw [e3, List.append_nil] at a3
    have h4 := w.dataStream.writeOutTo_leaves o.toWOpts p.disk
    split at h
    · rename_i hdk
      have e4 := h4.done hdk
      have a4 := h4.all
      rw [e4, List.append_nil] at a4
      have h5 := w.dictStream.writeOutTo_leaves o.toWOpts (w.dataStream.writeOutTo o.toWOpts p.disk).disk
      split at h
      · rename_i htk
        have e5 := h5.done htk
        have a5 := h5.all
        rw [e5, List.append_nil] at a5
        have h6 := w.lengthStream.writeOutTo_leaves o.toWOpts (w.dictStream.writeOutTo o.toWOpts (w.dataStream.writeOutTo o.toWOpts p.disk).disk).disk
        cases h
        dsimp only
        rw [h2]
        exact ⟨_, _, rfl, rfl, by dsimp only; rw [h3.same, h4.same, h5.same, h6.same], by dsimp only; rw [e3, e4, e5]; simp only [List.nil_append]; rw [h6.all, a5, a4, a3]; simp only [List.append_assoc],
          fun hb => by dsimp only; rw [e3, e4, e5, h6.done hb]; rfl⟩
      · cases h
        dsimp only
        rw [h2]
        exact ⟨_, _, rfl, rfl, by dsimp only; rw [h3.same, h4.same, h5.same], by
          dsimp only; rw [e3, e4]; simp only [List.nil_append]; rw [← List.append_assoc, h5.all, a4, a3]; simp only [List.append_assoc], nofun⟩
    · cases h
      dsimp only
      rw [h2]
      exact ⟨_, _, rfl, rfl, by dsimp only; rw [h3.same, h4.same], by
        dsimp only; rw [e3]; simp only [List.nil_append]; rw [← List.append_assoc, ← List.append_assoc, h4.all, a3]; simp only [List.append_assoc], nofun⟩
  · cases h
    dsimp only
    rw [h2]
    exact ⟨_, _, rfl, rfl, by dsimp only; rw [h3.same], by dsimp only; rw [← List.append_assoc, ← List.append_assoc, ← List.append_assoc, h3.all]; simp only [List.append_assoc], nofun⟩

theorem AnyWriter.writeOutTo_leaves {A : Arith} {o : COpts} {w : AnyWriter} {k : Disk} {r : After (Nat × AnyWriter)} (h : w.writeOutTo A o k = .ok r) :
    ∃ u v, w.writeOut A o = .ok u ∧ r.st.2.writeOut A o = .ok v ∧ Leaves k u r.ok v r.disk := by
  cases w with
  | leaf t w =>
    obtain ⟨r', hr, h⟩ := Res.bind_ok_inv h
    cases h
    obtain ⟨u, v, h1, h2, h3⟩ := LeafTag.writeOutTo_leaves hr
    refine ⟨(.leaf t u.1, u.2), (.leaf t v.1, v.2), ?_, ?_, congrArg (AnyWriter.leaf t) h3.same, h3.all, h3.done⟩
    · unfold AnyWriter.writeOut; dsimp only; rw [h1]; rfl
    · unfold AnyWriter.writeOut; dsimp only; rw [h2]; rfl
  | dict w =>
    obtain ⟨r', hr, h⟩ := Res.bind_ok_inv h
    cases h
    obtain ⟨u, v, h1, h2, h3⟩ := DictWriter.writeOutTo_leaves hr
    refine ⟨(.dict u.1, u.2), (.dict v.1, v.2), ?_, ?_, congrArg (AnyWriter.dict) h3.same, h3.all, h3.done⟩
    · unfold AnyWriter.writeOut; dsimp only; rw [h1]; rfl
    · unfold AnyWriter.writeOut; dsimp only; rw [h2]; rfl
  | struct w =>
    obtain ⟨r', hr, h⟩ := Res.bind_ok_inv h
    cases h
    obtain ⟨u, v, h1, h2, h3⟩ := StructWriter.writeOutTo_leaves hr
    refine ⟨(.struct u.1, u.2), (.struct v.1, v.2), ?_, ?_, congrArg (AnyWriter.struct) h3.same, h3.all, h3.done⟩
    · unfold AnyWriter.writeOut; dsimp only; rw [h1]; rfl
    · unfold AnyWriter.writeOut; dsimp only; rw [h2]; rfl

theorem StripeWriter.writeOutsTo_leaves {A : Arith} {o : COpts} : ∀ {ws : List AnyWriter} {k : Disk} {r : After (Nat × List AnyWriter)} {u : List AnyWriter × Bytes},
    writeOutsTo A o ws k = .ok r → writeOuts A o ws = .ok u →
    ∃ v, writeOuts A o r.st.2 = .ok v ∧ Leaves k u r.ok v r.disk ∧
      ∃ j a, j ≤ ws.length ∧ writeOuts A o (ws.take j) = .ok a ∧ r.st.1 = a.2.length ∧ (r.ok = true → j = ws.length) ∧
        (r.ok = false → ∃ b, writeOuts A o (ws.take (j + 1)) = .ok b ∧ k.content ++ a.2 <+: r.disk.content ∧ r.disk.content <+: k.content ++ b.2)
  | [], k, r, u, h, hu => by
    cases h; cases hu
    exact ⟨_, rfl, ⟨rfl, rfl, fun _ => rfl⟩, 0, _, Nat.le_refl _, rfl, rfl, fun _ => rfl, nofun⟩
  | w :: ws, k, r, u, h, hu => by
    rw [writeOutsTo] at h
    rw [writeOuts] at hu
    obtain ⟨r1, h1, h⟩ := Res.bind_ok_inv h
    obtain ⟨u1, e1, hu⟩ := Res.bind_ok_inv hu
    obtain ⟨u2, e2, hu⟩ := Res.bind_ok_inv hu
    cases hu
    obtain ⟨u1', v1, f1, f2, hl⟩ := AnyWriter.writeOutTo_leaves h1
    rw [e1] at f1; cases f1
    by_cases hok : r1.ok = true
    · rw [if_pos hok] at h
      obtain ⟨r2, h2, h⟩ := Res.bind_ok_inv h
      cases h
      obtain ⟨v, g1, g2, j, a, g3, g4, g5, g6, g7⟩ := writeOutsTo_leaves h2 e2
      have hv := hl.done hok
      have ha := hl.all
      rw [hv, List.append_nil] at ha
      have hn : r1.st.1 = u1.2.length := by
        have ht := w.writeOutTo_tracks A o k
        rw [h1, e1] at ht
        obtain ⟨ok1, st1, d1⟩ := r1
        cases hok
        cases ht with
        | good x y k' t1 t2 t3 t4 t5 => rw [t5]
      refine ⟨(v1.1 :: v.1, v1.2 ++ v.2), ?_, ⟨?_, ?_, ?_⟩, j + 1, (u1.1 :: a.1, u1.2 ++ a.2), ?_, ?_, ?_, ?_, ?_⟩
      · rw [writeOuts, f2, Res.ok_bind, g1]; rfl
      · rw [hl.same, g2.same]
      · show r2.disk.content ++ (v1.2 ++ v.2) = _
        rw [hv, List.nil_append, g2.all, ha, List.append_assoc]
      · intro hb
        show v1.2 ++ v.2 = []
        rw [hv, g2.done hb]; rfl
      · exact Nat.succ_le_succ g3
      · rw [List.take_succ_cons, writeOuts, e1, Res.ok_bind, g4]; rfl
      · show r1.st.1 + r2.st.1 = (u1.2 ++ a.2).length
        rw [hn, g5, List.length_append]
      · intro hb; rw [g6 hb]; rfl
      · intro hb
        obtain ⟨b, b1, b2, b3⟩ := g7 hb
        refine ⟨(u1.1 :: b.1, u1.2 ++ b.2), ?_, ?_, ?_⟩
        · rw [List.take_succ_cons, writeOuts, e1, Res.ok_bind, b1]; rfl
        · show k.content ++ (u1.2 ++ a.2) <+: r2.disk.content
          rw [← List.append_assoc, ← ha]; exact b2
        · show r2.disk.content <+: k.content ++ (u1.2 ++ b.2)
          rw [← List.append_assoc, ← ha]; exact b3
    · rw [if_neg hok] at h
      cases h
      refine ⟨(v1.1 :: u2.1, v1.2 ++ u2.2), ?_, ⟨?_, ?_, nofun⟩, 0, ([], []), Nat.zero_le _, rfl, rfl, nofun, fun _ => ⟨(u1.1 :: [], u1.2 ++ []), ?_, ?_, ?_⟩⟩
      · rw [writeOuts, f2, Res.ok_bind, e2]; rfl
      · rw [hl.same]
      · show r1.disk.content ++ (v1.2 ++ u2.2) = _
        rw [← List.append_assoc, hl.all, List.append_assoc]
      · rw [List.take_succ_cons, writeOuts, e1]; rfl
      · show k.content ++ [] <+: r1.disk.content
        rw [List.append_nil]
        have ht := w.writeOutTo_tracks A o k
        rw [h1, e1] at ht
        obtain ⟨ok1, st1, d1⟩ := r1
        cases ht with
        | good x y k' t1 t2 t3 t4 t5 => exact t2
        | broke _ y k' t1 t2 t3 t4 => exact t2
      · show r1.disk.content <+: k.content ++ (u1.2 ++ [])
        rw [List.append_nil, ← hl.all]
        exact List.prefix_append _ _

theorem StripeWriter.indexesTo_leaves (P : Proto) : ∀ (ws : List AnyWriter) (k : Disk), (indexesTo P ws k).ok = false →
    ∃ j, (indexesTo P ws k).st = (indexes P (ws.take j)).length ∧ k.content ++ indexes P (ws.take j) <+: (indexesTo P ws k).disk.content ∧
      (indexesTo P ws k).disk.content <+: k.content ++ indexes P (ws.take (j + 1))
  | [], k, h => by cases h
  | w :: ws, k, h => by
    have hw := k.write_tracks (P.index w.index)
    have hs : ∀ n, indexes P ((w :: ws).take (n + 1)) = P.index w.index ++ indexes P (ws.take n) := fun n => rfl
    rw [indexesTo] at h ⊢
    dsimp only at h ⊢
    by_cases hok : (k.write (P.index w.index)).ok = true
    · rw [if_pos hok] at h ⊢
      have e : (k.write (P.index w.index)).st = (P.index w.index).length ∧ (k.write (P.index w.index)).disk.content = k.content ++ P.index w.index := by
        generalize k.write (P.index w.index) = r at hw hok
        obtain ⟨rok, rst, rd⟩ := r
        cases hok
        cases hw with
        | good x y k' t1 t2 t3 t4 t5 => exact ⟨t5, t1⟩
      obtain ⟨j, h1, h2, h3⟩ := indexesTo_leaves P ws (k.write (P.index w.index)).disk h
      refine ⟨j + 1, ?_, ?_, ?_⟩
      · dsimp only; rw [hs, List.length_append, h1, e.1]
      · rw [hs, ← List.append_assoc, ← e.2]; exact h2
      · rw [hs, ← List.append_assoc, ← e.2]; exact h3
    · rw [if_neg hok]
      refine ⟨0, rfl, ?_, ?_⟩
      · generalize k.write (P.index w.index) = r at hw
        obtain ⟨rok, rst, rd⟩ := r
        rw [show k.content ++ indexes P (List.take 0 (w :: ws)) = k.content from List.append_nil _]
        cases hw with
        | good x y k' t1 t2 t3 t4 t5 => exact t2
        | broke _ y k' t1 t2 t3 t4 => exact t2
      · generalize k.write (P.index w.index) = r at hw
        obtain ⟨rok, rst, rd⟩ := r
        rw [hs, show indexes P (List.take 0 ws) = [] from rfl, List.append_nil]
        cases hw with
        | good x y k' t1 t2 t3 t4 t5 => rw [t1]; exact List.prefix_refl _
        | broke _ y k' t1 t2 t3 t4 => exact t1 _ rfl

end Goorc
