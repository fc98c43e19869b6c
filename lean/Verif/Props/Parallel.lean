import Verif.Proofs.ParallelOpen
import Verif.Props.Schedule
import Verif.Props.Projection
/-
C97 for goroutines that have batch readers: `Next` and `Seek` are programs that read from the streams of the batch reader, and so goroutines that have a batch reader each,
created beforehand, do not disturb each other.
-/
namespace Goorc

/-- With the streams it has, a batch reader is the same. -/
theorem same_streams {n : Nat} (br : BatchReader (Rd n)) : br.withStreams br.streams = br := batch_sane (tree_sane False n) br

/-- **C97** The streams of a batch reader that has just been created: each is at some place of the file, and nothing of it has been read. -/
theorem created_streams {E : Env} {r : FileReader} {bo : BatchOption} {br : BatchReader (Rd r.schemas.length)} (h : r.createBatchReader E bo = .ok br) :
    ∃ places : List (Nat × Nat), br.streams = places.map fun p => newStreamReader r.opts.kind r.opts.chunkSize p.1 p.2 r.file := by
  unfold FileReader.createBatchReader at h
  split at h
  · cases h
  obtain ⟨ss, hss, h⟩ := Res.bind_ok_inv h
  cases h
  have hall := stripes_has (skips := False) (Q := fun s => ∃ p : Nat × Nat, s = newStreamReader r.opts.kind r.opts.chunkSize p.1 p.2 r.file) E r.opts bo r.file r.schemas
    (fun h => h.elim) (fun a b => ⟨(a, b), rfl⟩) r.stripes ss hss
  have hq : ∀ x ∈ ss.flatMap (StripeReader.wires (Rd.wires False r.schemas.length)).get,
      ∃ p : Nat × Nat, x = newStreamReader r.opts.kind r.opts.chunkSize p.1 p.2 r.file := by
    intro x hx
    obtain ⟨s, hs, hx⟩ := List.mem_flatMap.1 hx
    exact (hall s hs).1 x hx
  show ∃ places : List (Nat × Nat), ss.flatMap (StripeReader.wires (Rd.wires False r.schemas.length)).get = _
  revert hq
  generalize ss.flatMap (StripeReader.wires (Rd.wires False r.schemas.length)).get = l
  intro hq
  induction l with
  | nil => exact ⟨[], rfl⟩
  | cons x l ih =>
    obtain ⟨p, hp⟩ := hq x List.mem_cons_self
    obtain ⟨ps, hps⟩ := ih fun y hy => hq y (List.mem_cons_of_mem _ hy)
    exact ⟨p :: ps, by rw [hp, hps, List.map_cons]⟩

/-- **C97** What a goroutine does with a batch reader is a program that reads from its streams, if it calls `Next` only, or if no column is binary (`Skip` of a binary column goes
on after an error). -/
theorem caller_is_client {α : Type} {E : Env} {r : FileReader} {bo : BatchOption} {br : BatchReader (Rd r.schemas.length)} (h : r.createBatchReader E bo = .ok br)
    (fuel : Nat) (k : Caller α) (hk : k.NextOnly ∨ ∀ t ∈ r.schemas, t.kind ≠ .binary) : ∃ cl : Client α, cl.Acts E.c fuel k br := by
  have main : ∀ skips : Prop, (skips ∨ k.NextOnly) → (BatchReader.wires (Rd.wires skips r.schemas.length)).ok br → ∃ cl : Client α, cl.Acts E.c fuel k br := by
    intro skips hs hok
    obtain ⟨g1, g2⟩ := batch_same (tree_same skips False r.schemas.length).1 (tree_same skips False r.schemas.length).2
    obtain ⟨cl, hcl⟩ := rep_caller (tree_calls (c := E.c) (skips := skips) fuel r.schemas.length) fuel k br hs hok
    refine ⟨cl, fun ss hss => ?_⟩
    have := hcl [] ss [] rfl (by rw [hss, Wires.size, g1]; rfl) rfl
    rw [List.append_nil, List.nil_append, g2] at this
    exact this
  rcases hk with hk | hk
  · exact main False (.inr hk) (batch_ok (tree_ok _) br)
  · refine main True (.inl trivial) ?_
    unfold FileReader.createBatchReader at h
    split at h
    · cases h
    obtain ⟨ss, hss, h⟩ := Res.bind_ok_inv h
    cases h
    exact fun s hs => (stripes_has (skips := True) (Q := fun _ => True) E r.opts bo r.file r.schemas (fun _ => hk) (fun _ _ => trivial) r.stripes ss hss s hs).2

theorem newReader_file {E : Env} {file : Bytes} {r : FileReader} (h : newReader E file = .ok r) : r.file = file := by
  obtain ⟨t, -, h⟩ := Res.bind_ok_inv h
  cases t with
  | none => cases h
  | some t =>
    dsimp only at h
    split at h
    · cases h
    obtain ⟨ts, -, h⟩ := Res.bind_ok_inv h
    obtain ⟨ss, -, h⟩ := Res.bind_ok_inv h
    cases h
    rfl

/-- **C97** Goroutines that have a batch reader each are such programs, however the operating system will split the reads of their handles (`quotas`). -/
theorem callers_embodied {α : Type} {E : Env} {f : OsFile} {r : FileReader} (hr : newReader E f.contents = .ok r) (fuel : Nat) (quotas : List Nat)
    (ks : List (Caller α × BatchReader (Rd r.schemas.length)))
    (hks : ∀ k ∈ ks, (∃ bo, r.createBatchReader E bo = .ok k.2) ∧ (k.1.NextOnly ∨ ∀ t ∈ r.schemas, t.kind ≠ .binary)) :
    ∃ gs : List (Client α × List StreamSpec), List.Forall₂ (Embodies E.c fuel f.contents) ks gs ∧ ∀ g ∈ gs, ∀ s ∈ g.2, s.quotas = quotas := by
  induction ks with
  | nil => exact ⟨[], .nil, fun g hg => absurd hg List.not_mem_nil⟩
  | cons k ks ih =>
    obtain ⟨gs, h1, h2⟩ := ih fun k hk => hks k (List.mem_cons_of_mem _ hk)
    obtain ⟨⟨bo, hbo⟩, hk⟩ := hks k List.mem_cons_self
    obtain ⟨cl, hcl⟩ := caller_is_client hbo fuel k.1 hk
    obtain ⟨ps, hps⟩ := created_streams hbo
    refine ⟨(cl, ps.map fun p => ⟨quotas, r.opts.kind, r.opts.chunkSize, p.1, p.2⟩) :: gs, .cons ⟨hcl, ?_⟩ h1, ?_⟩
    · rw [hps, newReader_file hr, List.map_map]
      rfl
    · intro g hg s hs
      rcases List.mem_cons.1 hg with rfl | hg
      · obtain ⟨p, -, rfl⟩ := List.mem_map.1 hs
        rfl
      · exact h2 g hg s hs

/-- **C97** (partial: the batch readers have been created one after the other, before) Goroutines that read one file of the operating system, each with a batch reader of its own.
After any schedule of their calls on the file handles, and however the operating system splits their reads, a goroutine that is done has what it would have alone; and it is done
when it was scheduled often enough. -/
theorem parallel_batches_partial {α : Type} {E : Env} {f : OsFile} {n : Nat} (fuel : Nat) (ks : List (Caller α × BatchReader (Rd n)))
    (gs : List (Client α × List StreamSpec)) (h : List.Forall₂ (Embodies E.c fuel f.contents) ks gs) (rooms : List Nat) (hs : Handles) (i : Nat) (k : Caller α)
    (br : BatchReader (Rd n)) (hi : ks[i]? = some (k, br)) :
    ∃ m, ∀ sch : List Nat, ∃ p, (runSchedule sch (startAll E.c rooms hs f gs)).1[i]? = some p ∧
      (∀ x, p = .done x → SameOutcome x (k.run (rdOps E.c fuel n) fuel br)) ∧ (m ≤ sch.count i → ∃ x, p = .done x) := by
  obtain ⟨⟨cl, specs⟩, hg, hm⟩ : ∃ g, gs[i]? = some g ∧ Embodies E.c fuel f.contents (k, br) g := by
    clear hs rooms
    induction h generalizing i with
    | nil => cases hi
    | cons hd _ ih =>
      cases i with
      | zero => cases hi; exact ⟨_, rfl, hd⟩
      | succ i => exact ih i hi
  obtain ⟨m, hmain⟩ := parallel_reading_partial E.c rooms f hs gs i cl specs hg
  refine ⟨m, fun sch => ?_⟩
  obtain ⟨p, h1, h2, h3⟩ := hmain sch
  refine ⟨p, h1, fun x hx => ?_, h3⟩
  have := h2 x hx
  have e := hm.acts _ rfl
  rw [same_streams] at e
  have e2 : br.streams = specs.map fun x => newStreamReader x.kind x.chunkSize x.start x.length f.contents := hm.streams
  rw [← e2] at this
  exact e ▸ this
/-- A goroutine that reads a batch, goes to row 1 and reads again; it keeps the second batch. -/
def exReread (v : Vec) : Caller (List (Nat × List Value)) := .next v fun _ w => .seek 1 (.next w fun _ w => .done (.ok w.columnsRead))

/-- A goroutine that reads a batch. -/
def exRead (v : Vec) : Caller (List (Nat × List Value)) := .next v fun _ w => .done (.ok w.columnsRead)

/-- Two goroutines read `exBothFile`, one of them only the first column. They get the same whatever the schedule. -/
example : ∃ r v w, newReader exBothEnv exBothFile = .ok r ∧ ∃ ba bb, r.createBatchReader exBothEnv ⟨[], 2, false⟩ = .ok ba ∧ r.createBatchReader exBothEnv ⟨[0, 1], 2, false⟩ = .ok bb ∧
    ∀ quotas, ∃ gs, List.Forall₂ (Embodies exBothEnv.c 10 exBothFile) [(exReread v, ba), (exRead w, bb)] gs ∧ (∀ g ∈ gs, ∀ s ∈ g.2, s.quotas = quotas) ∧
      ∀ rooms hs, ∃ m, ∀ sch : List Nat, m ≤ sch.count 0 → m ≤ sch.count 1 →
        (runSchedule sch (startAll exBothEnv.c rooms hs ⟨exBothFile, 0, []⟩ gs)).1[0]? =
          some (.done (.ok [(1, [⟨false, .u8 7⟩, ⟨false, .u8 7⟩]), (2, [⟨false, .bool false⟩, ⟨true, .bool false⟩])])) ∧
        (runSchedule sch (startAll exBothEnv.c rooms hs ⟨exBothFile, 0, []⟩ gs)).1[1]? =
          some (.done (.ok [(1, [⟨false, .u8 7⟩, ⟨false, .u8 7⟩])])) := by
  let r : FileReader := ⟨exBothFile, ⟨.none, 256 * 1024, 10000⟩, [⟨⟨0, .struct, ["t", "b"], [1, 2]⟩, false⟩, ⟨⟨1, .byte, [], []⟩, false⟩, ⟨⟨2, .boolean, [], []⟩, true⟩], 5,
      [tinyStats false, tinyStats false, tinyStats true], [⟨3, 0, 6, 1, 5⟩]⟩
  have hr : newReader exBothEnv exBothFile = .ok r := rfl
  have h1 : ((createVector exFrail ⟨[], 2, false⟩).bind fun v => (r.createBatchReader exBothEnv ⟨[], 2, false⟩).bind fun b => (exReread v).run (rdOps exBothEnv.c 10 3) 10 b) =
      .ok [(1, [⟨false, .u8 7⟩, ⟨false, .u8 7⟩]), (2, [⟨false, .bool false⟩, ⟨true, .bool false⟩])] := by decide +kernel
  have h2 : ((createVector exFrail ⟨[0, 1], 2, false⟩).bind fun v => (r.createBatchReader exBothEnv ⟨[0, 1], 2, false⟩).bind fun b => (exRead v).run (rdOps exBothEnv.c 10 3) 10 b) =
      .ok [(1, [⟨false, .u8 7⟩, ⟨false, .u8 7⟩])] := by decide +kernel
  obtain ⟨v, -, h1⟩ := Res.bind_ok_inv h1
  obtain ⟨ba, ha, h1⟩ := Res.bind_ok_inv h1
  obtain ⟨w, -, h2⟩ := Res.bind_ok_inv h2
  obtain ⟨bb, hb, h2⟩ := Res.bind_ok_inv h2
  refine ⟨r, v, w, hr, ba, bb, ha, hb, fun quotas => ?_⟩
  obtain ⟨gs, hg, hq⟩ := callers_embodied (f := ⟨exBothFile, 0, []⟩) hr 10 quotas [(exReread v, ba), (exRead w, bb)] (by
    intro k hk
    rcases List.mem_cons.1 hk with rfl | hk
    · exact ⟨⟨_, ha⟩, .inr (by decide)⟩
    · cases List.mem_singleton.1 hk
      exact ⟨⟨_, hb⟩, .inr (by decide)⟩)
  refine ⟨gs, hg, hq, fun rooms hs => ?_⟩
  obtain ⟨m0, k0⟩ := parallel_batches_partial 10 _ gs hg rooms hs 0 (exReread v) ba rfl
  obtain ⟨m1, k1⟩ := parallel_batches_partial 10 _ gs hg rooms hs 1 (exRead w) bb rfl
  have same : ∀ (p : Prog (List (Nat × List Value))) x y, (∃ z, p = .done z) → (∀ z, p = .done z → SameOutcome z x) → x = .ok y → p = .done (.ok y) := by
    rintro p x y ⟨z, rfl⟩ h rfl
    have := h z rfl
    cases z with
    | ok a => cases this; rfl
    | err e => exact this.elim
    | panic => exact this.elim
    | hang => exact this.elim
  refine ⟨max m0 m1, fun sch c0 c1 => ?_⟩
  obtain ⟨p, e, a, b⟩ := k0 sch
  obtain ⟨p', e', a', b'⟩ := k1 sch
  rw [e, e', same p _ _ (b (by omega)) a h1, same p' _ _ (b' (by omega)) a' h2]
  exact ⟨rfl, rfl⟩

end Goorc
