import Verif.Spec.Schedule
import Verif.Props.File
import Verif.Props.Chunk
/-
C97: goroutines that read one file.
-/
namespace Goorc

/-! ### Programs that run alone -/

namespace Prog
variable {α β : Type}

/-- All calls of a program, nobody else calls anything. -/
def run : Prog α → Handles → Res α × Handles
  | done r, hs => (r, hs)
  | seek h off k, hs =>
    match hs[h]? with
    | none => (.panic, hs)
    | some f =>
      match f.seek off with
      | .ok f => k.run (hs.set h f)
      | .err e => (.err e, hs)
      | .panic => (.panic, hs)
      | .hang => (.hang, hs)
  | read h n k, hs =>
    match hs[h]? with
    | none => (.panic, hs)
    | some f =>
      match f.read n with
      | .ok r => (k r.bytes r.err).run (hs.set h r.file)
      | .err e => (.err e, hs)
      | .panic => (.panic, hs)
      | .hang => (.hang, hs)

/-- The number of calls it makes. -/
def calls : Prog α → Handles → Nat
  | done _, _ => 0
  | seek h off k, hs =>
    match hs[h]? with
    | none => 1
    | some f =>
      match f.seek off with
      | .ok f => k.calls (hs.set h f) + 1
      | _ => 1
  | read h n k, hs =>
    match hs[h]? with
    | none => 1
    | some f =>
      match f.read n with
      | .ok r => (k r.bytes r.err).calls (hs.set h r.file) + 1
      | _ => 1

theorem step_run (p : Prog α) (hs : Handles) : (p.step hs).1.run (p.step hs).2 = p.run hs := by
  cases p with
  | done r => rfl
  | seek h off k =>
    simp only [step, run]
    cases hs[h]? with
    | none => rfl
    | some f => simp only; cases f.seek off <;> rfl
  | read h n k =>
    simp only [step, run]
    cases hs[h]? with
    | none => rfl
    | some f => simp only; cases f.read n <;> rfl

theorem step_calls (p : Prog α) (hs : Handles) : (p.step hs).1.calls (p.step hs).2 = p.calls hs - 1 := by
  cases p with
  | done r => rfl
  | seek h off k =>
    simp only [step, calls]
    cases hs[h]? with
    | none => rfl
    | some f => simp only; cases f.seek off <;> rfl
  | read h n k =>
    simp only [step, calls]
    cases hs[h]? with
    | none => rfl
    | some f => simp only; cases f.read n <;> rfl

theorem calls_zero (p : Prog α) (hs : Handles) (h : p.calls hs = 0) : p = .done (p.run hs).1 := by
  cases p with
  | done r => rfl
  | seek i off k =>
    simp only [calls] at h
    cases hf : hs[i]? with
    | none => simp [hf] at h
    | some f => simp only [hf] at h; cases hq : f.seek off <;> simp [hq] at h
  | read i n k =>
    simp only [calls] at h
    cases hf : hs[i]? with
    | none => simp [hf] at h
    | some f => simp only [hf] at h; cases hq : f.read n <;> simp [hq] at h

/-- A program calls only handles in `S`, and what it returns satisfies `P`. -/
def Sat (S : Nat → Prop) (P : α → Prop) : Prog α → Prop
  | done (.ok a) => P a
  | done _ => True
  | seek h _ k => S h ∧ k.Sat S P
  | read h _ k => S h ∧ ∀ b e, (k b e).Sat S P

/-- A program calls only handles in `S`. -/
abbrev Uses (S : Nat → Prop) (p : Prog α) : Prop := p.Sat S fun _ => True

theorem Sat.bind {S : Nat → Prop} {P : α → Prop} {Q : β → Prop} {f : α → Prog β} (hf : ∀ a, P a → (f a).Sat S Q) : ∀ {p : Prog α}, p.Sat S P → (p.bind f).Sat S Q
  | done (.ok a), h => hf a h
  | done (.err _), _ => trivial
  | done .panic, _ => trivial
  | done .hang, _ => trivial
  | seek _ _ k, h => ⟨h.1, Sat.bind hf (p := k) h.2⟩
  | read _ _ k, h => ⟨h.1, fun b e => Sat.bind hf (p := k b e) (h.2 b e)⟩

theorem Sat.then {S : Nat → Prop} {P : α → Prop} {Q : β → Prop} {f : α → Prog β} {p : Prog α} (h : p.Sat S P) (hf : ∀ a, P a → (f a).Sat S Q) : (p.bind f).Sat S Q :=
  h.bind hf

theorem Sat.mono {S S' : Nat → Prop} {P P' : α → Prop} (hS : ∀ h, S h → S' h) (hP : ∀ a, P a → P' a) : ∀ {p : Prog α}, p.Sat S P → p.Sat S' P'
  | done (.ok a), h => hP a h
  | done (.err _), _ => trivial
  | done .panic, _ => trivial
  | done .hang, _ => trivial
  | seek _ _ k, h => ⟨hS _ h.1, Sat.mono hS hP (p := k) h.2⟩
  | read _ _ k, h => ⟨hS _ h.1, fun b e => Sat.mono hS hP (p := k b e) (h.2 b e)⟩

theorem step_sat {S : Nat → Prop} {P : α → Prop} {p : Prog α} (h : p.Sat S P) (hs : Handles) : (p.step hs).1.Sat S P := by
  cases p with
  | done r => exact h
  | seek i off k =>
    simp only [step]
    cases hs[i]? with
    | none => trivial
    | some f => simp only; cases f.seek off <;> first | exact h.2 | trivial
  | read i n k =>
    simp only [step]
    cases hs[i]? with
    | none => trivial
    | some f => simp only; cases f.read n <;> first | exact h.2 _ _ | trivial

/-- Other handles stay as they are. -/
theorem step_frame {S : Nat → Prop} {P : α → Prop} {p : Prog α} (h : p.Sat S P) (hs : Handles) (j : Nat) (hj : ¬ S j) : (p.step hs).2[j]? = hs[j]? := by
  have hset : ∀ i (f : OsFile), S i → (hs.set i f)[j]? = hs[j]? := by
    intro i f hi
    rw [List.getElem?_set_ne]
    rintro rfl
    exact hj hi
  cases p with
  | done r => rfl
  | seek i off k =>
    simp only [step]
    cases hs[i]? with
    | none => rfl
    | some f => simp only; cases f.seek off <;> first | exact hset _ _ h.1 | rfl
  | read i n k =>
    simp only [step]
    cases hs[i]? with
    | none => rfl
    | some f => simp only; cases f.read n <;> first | exact hset _ _ h.1 | rfl

theorem agree_set {S : Nat → Prop} {hs hs' : Handles} (hag : ∀ j, S j → hs[j]? = hs'[j]?) {i : Nat} {f : OsFile} (hi : S i) (g : OsFile) (hf : hs[i]? = some f) :
    ∀ j, S j → (hs.set i g)[j]? = (hs'.set i g)[j]? := by
  intro j hj
  have hf' : hs'[i]? = some f := by rw [← hag i hi]; exact hf
  by_cases hij : i = j
  · subst hij
    rw [List.getElem?_set_self (List.getElem?_eq_some_iff.1 hf).1, List.getElem?_set_self (List.getElem?_eq_some_iff.1 hf').1]
  · rw [List.getElem?_set_ne hij, List.getElem?_set_ne hij, hag j hj]

/-- What a program returns depends only on the handles it calls. -/
theorem run_congr {S : Nat → Prop} {P : α → Prop} : ∀ {p : Prog α} (_ : p.Sat S P) {hs hs' : Handles} (_ : ∀ j, S j → hs[j]? = hs'[j]?),
    (p.run hs).1 = (p.run hs').1 ∧ p.calls hs = p.calls hs'
  | done r, _, _, _, _ => ⟨rfl, rfl⟩
  | seek i off k, h, hs, hs', hag => by
    simp only [run, calls, ← hag i h.1]
    cases hf : hs[i]? with
    | none => exact ⟨rfl, rfl⟩
    | some f =>
      simp only
      cases f.seek off with
      | ok g =>
        obtain ⟨e1, e2⟩ := run_congr (p := k) h.2 (agree_set hag h.1 g hf)
        exact ⟨e1, congrArg (· + 1) e2⟩
      | err e => exact ⟨rfl, rfl⟩
      | panic => exact ⟨rfl, rfl⟩
      | hang => exact ⟨rfl, rfl⟩
  | read i n k, h, hs, hs', hag => by
    simp only [run, calls, ← hag i h.1]
    cases hf : hs[i]? with
    | none => exact ⟨rfl, rfl⟩
    | some f =>
      simp only
      cases f.read n with
      | ok g =>
        obtain ⟨e1, e2⟩ := run_congr (p := k g.bytes g.err) (h.2 _ _) (agree_set hag h.1 g.file hf)
        exact ⟨e1, congrArg (· + 1) e2⟩
      | err e => exact ⟨rfl, rfl⟩
      | panic => exact ⟨rfl, rfl⟩
      | hang => exact ⟨rfl, rfl⟩

theorem bind_run (f : α → Prog β) : ∀ (p : Prog α) (hs : Handles), (p.bind f).run hs =
    match p.run hs with
    | (.ok a, hs) => (f a).run hs
    | (.err e, hs) => (.err e, hs)
    | (.panic, hs) => (.panic, hs)
    | (.hang, hs) => (.hang, hs)
  | done r, hs => by cases r <;> rfl
  | seek h off k, hs => by
    simp only [bind, run]
    cases hs[h]? with
    | none => rfl
    | some g => simp only; cases g.seek off <;> first | exact bind_run f k _ | rfl
  | read h n k, hs => by
    simp only [bind, run]
    cases hs[h]? with
    | none => rfl
    | some g => simp only; cases g.read n <;> first | exact bind_run f (k _ _) _ | rfl

end Prog

/-! ### Any schedule -/

section
variable {α : Type}

theorem stepAt_length (i : Nat) (x : List (Prog α) × Handles) : (stepAt i x).1.length = x.1.length := by
  simp only [stepAt]
  split <;> simp

/-- Goroutines whose handles are their own: after any schedule, each still has to do what it would have to do alone, after as many calls. -/
theorem schedule_keeps (S : Nat → Nat → Prop) (hdisj : ∀ i j h, i ≠ j → S i h → ¬ S j h) (sch : List Nat) : ∀ (ps : List (Prog α)) (hs : Handles),
    (∀ (i : Nat) (p : Prog α), ps[i]? = some p → p.Uses (S i)) → ∀ (i : Nat) (p : Prog α), ps[i]? = some p →
    ∃ p', (runSchedule sch (ps, hs)).1[i]? = some p' ∧ (p'.run (runSchedule sch (ps, hs)).2).1 = (p.run hs).1 ∧
      p'.calls (runSchedule sch (ps, hs)).2 = p.calls hs - sch.count i := by
  induction sch with
  | nil => intro ps hs _ i p hp; exact ⟨p, hp, rfl, rfl⟩
  | cons a sch ih =>
    intro ps hs huse i p hp
    simp only [runSchedule]
    cases ha : ps[a]? with
    | none =>
      have hne : a ≠ i := by rintro rfl; rw [ha] at hp; cases hp
      have : stepAt a (ps, hs) = (ps, hs) := by simp only [stepAt, ha]
      rw [this, List.count_cons_of_ne hne]
      exact ih ps hs huse i p hp
    | some q =>
      have hst : stepAt a (ps, hs) = (ps.set a (q.step hs).1, (q.step hs).2) := by simp only [stepAt, ha]
      rw [hst]
      have hq := huse a q ha
      have huse' : ∀ (j : Nat) (p : Prog α), (ps.set a (q.step hs).1)[j]? = some p → p.Uses (S j) := by
        intro j p hj
        by_cases haj : a = j
        · subst haj
          rw [List.getElem?_set_self (List.getElem?_eq_some_iff.1 ha).1] at hj
          cases hj
          exact Prog.step_sat hq hs
        · rw [List.getElem?_set_ne haj] at hj
          exact huse j p hj
      by_cases hai : a = i
      · subst hai
        rw [ha] at hp; cases hp
        obtain ⟨p', h1, h2, h3⟩ := ih _ (p.step hs).2 huse' a (p.step hs).1 (List.getElem?_set_self (List.getElem?_eq_some_iff.1 ha).1)
        refine ⟨p', h1, by rw [h2, Prog.step_run], ?_⟩
        rw [h3, Prog.step_calls, List.count_cons_self]
        omega
      · obtain ⟨p', h1, h2, h3⟩ := ih _ (q.step hs).2 huse' i p (by rw [List.getElem?_set_ne hai]; exact hp)
        have hag : ∀ j, S i j → (q.step hs).2[j]? = hs[j]? := fun j hj => Prog.step_frame hq hs j (hdisj i a j (Ne.symm hai) hj)
        obtain ⟨e1, e2⟩ := Prog.run_congr (huse i p hp) hag
        exact ⟨p', h1, by rw [h2, e1], by rw [h3, e2, List.count_cons_of_ne hai]⟩

end

/-! ### Calls on a handle -/

/-- A program, and what the model says of it: the same outcome, and results that are related. -/
def Runs {α β : Type} (p : Prog β) (hs : Handles) (x : Res α) (good : α → β → Handles → Prop) : Prop :=
  match x with
  | .ok a => ∃ b hs', p.run hs = (.ok b, hs') ∧ good a b hs'
  | .err _ => ∃ e hs', p.run hs = (.err e, hs')
  | .panic => ∃ hs', p.run hs = (.panic, hs')
  | .hang => ∃ hs', p.run hs = (.hang, hs')

theorem Runs.bind {α α' β β' : Type} {p : Prog β} {hs : Handles} {x : Res α} {good : α → β → Handles → Prop} {f : β → Prog β'} {g : α → Res α'}
    {good' : α' → β' → Handles → Prop} (h : Runs p hs x good) (hf : ∀ a b hs', good a b hs' → Runs (f b) hs' (g a) good') : Runs (p.bind f) hs (x.bind g) good' := by
  cases x with
  | ok a =>
    obtain ⟨b, hs', h1, h2⟩ := h
    have := hf a b hs' h2
    simp only [Res.bind]
    unfold Runs at this ⊢
    simp only [Prog.bind_run, h1]
    exact this
  | err e => obtain ⟨e', hs', h1⟩ := h; exact ⟨e', hs', by rw [Prog.bind_run, h1]⟩
  | panic => obtain ⟨hs', h1⟩ := h; exact ⟨hs', by rw [Prog.bind_run, h1]⟩
  | hang => obtain ⟨hs', h1⟩ := h; exact ⟨hs', by rw [Prog.bind_run, h1]⟩

theorem Runs.weaken {α β : Type} {p : Prog β} {hs : Handles} {x : Res α} {good good' : α → β → Handles → Prop} (h : Runs p hs x good)
    (hg : ∀ a b hs', good a b hs' → good' a b hs') : Runs p hs x good' := by
  cases x with
  | ok a => obtain ⟨b, hs', h1, h2⟩ := h; exact ⟨b, hs', h1, hg _ _ _ h2⟩
  | err e => exact h
  | panic => exact h
  | hang => exact h

theorem Runs.done {α β : Type} {hs : Handles} {x : Res α} {y : Res β} {good : α → β → Handles → Prop}
    (h : match x, y with | .ok a, .ok b => good a b hs | .err _, .err _ => True | .panic, .panic => True | .hang, .hang => True | _, _ => False) :
    Runs (.done y) hs x good := by
  cases x <;> cases y <;> first | exact absurd h id | skip
  · exact ⟨_, _, rfl, h⟩
  · exact ⟨_, _, rfl⟩
  · exact ⟨_, rfl⟩
  · exact ⟨_, rfl⟩

/-- `Read` on a handle that is there. -/
theorem Runs.read {β : Type} {hs : Handles} {h n : Nat} {f : OsFile} {k : Bytes → Option Err → Prog β} {α : Type} {g : ReadResult OsFile → Res α} {good : α → β → Handles → Prop}
    (hf : hs[h]? = some f) (hk : ∀ r, f.read n = .ok r → Runs (k r.bytes r.err) (hs.set h r.file) (g r) good) : Runs (.read h n k) hs ((f.read n).bind g) good := by
  cases hr : f.read n with
  | ok r =>
    have := hk r hr
    simp only [Res.bind]
    unfold Runs at this ⊢
    simp only [Prog.run, hf, hr]
    exact this
  | err e => exact ⟨e, hs, by simp only [Prog.run, hf, hr]⟩
  | panic => exact ⟨hs, by simp only [Prog.run, hf, hr]⟩
  | hang => exact ⟨hs, by simp only [Prog.run, hf, hr]⟩

theorem set_set_self {hs : Handles} {h : Nat} (f g : OsFile) : (hs.set h f).set h g = hs.set h g := List.set_set ..

theorem get_set_self {hs : Handles} {h : Nat} {f : OsFile} (hf : hs[h]? = some f) (g : OsFile) : (hs.set h g)[h]? = some g :=
  List.getElem?_set_self (List.getElem?_eq_some_iff.1 hf).1

theorem set_get_self {hs : Handles} {h : Nat} {f : OsFile} (hf : hs[h]? = some f) : hs.set h f = hs := by
  apply List.ext_getElem?
  intro j
  by_cases hj : h = j
  · subst hj; rw [get_set_self hf, hf]
  · rw [List.getElem?_set_ne hj]

theorem prog_readFull (h : Nat) (fuel : Nat) : ∀ (n : Nat) (hs : Handles) (f : OsFile), hs[h]? = some f →
    Runs (Prog.readFull h fuel n) hs (readFull OsFile.read fuel f n) fun x b hs' => x.1 = b ∧ hs' = hs.set h x.2 := by
  induction fuel with
  | zero => intro n hs f _; exact .done trivial
  | succ fuel ih =>
    intro n hs f hf
    rw [Prog.readFull, Goorc.readFull]
    by_cases hn : n = 0
    · rw [if_pos hn, if_pos hn]; exact .done ⟨rfl, (set_get_self hf).symm⟩
    · rw [if_neg hn, if_neg hn]
      refine Runs.read hf fun r _ => ?_
      by_cases hl : r.bytes.length ≥ n
      · rw [if_pos hl, if_pos hl]; exact .done ⟨rfl, rfl⟩
      · rw [if_neg hl, if_neg hl]
        cases r.err with
        | some e => exact .done trivial
        | none =>
          refine Runs.bind (ih (n - r.bytes.length) (hs.set h r.file) r.file (get_set_self hf _)) ?_
          rintro ⟨b, f'⟩ b' hs' ⟨rfl, rfl⟩
          exact .done ⟨rfl, by rw [set_set_self]⟩

theorem prog_readFrom (h : Nat) (fuel : Nat) : ∀ (rooms : List Nat) (n : Nat) (hs : Handles) (f : OsFile), hs[h]? = some f →
    Runs (Prog.readFrom h fuel rooms n) hs (readFrom OsFile.read fuel rooms f n) fun x b hs' => x.1 = b ∧ hs' = hs.set h x.2 := by
  induction fuel with
  | zero => intro rooms n hs f _; exact .done trivial
  | succ fuel ih =>
    intro rooms n hs f hf
    rw [Prog.readFrom, Goorc.readFrom]
    by_cases hn : n = 0
    · rw [if_pos hn, if_pos hn]; exact .done ⟨rfl, (set_get_self hf).symm⟩
    · rw [if_neg hn, if_neg hn]
      refine Runs.read hf fun r _ => ?_
      cases r.err with
      | some e => cases e with
        | eof => exact .done ⟨rfl, rfl⟩
        | other => exact .done trivial
      | none =>
        refine Runs.bind (ih rooms.tail (n - r.bytes.length) (hs.set h r.file) r.file (get_set_self hf _)) ?_
        rintro ⟨b, f'⟩ b' hs' ⟨rfl, rfl⟩
        exact .done ⟨rfl, by rw [set_set_self]⟩

theorem prog_copyN (h fuel : Nat) (rooms : List Nat) (n : Nat) (hs : Handles) (f : OsFile) (hf : hs[h]? = some f) :
    Runs (Prog.copyN h fuel rooms n) hs (copyN OsFile.read fuel rooms f n) fun x b hs' => x.1 = b ∧ hs' = hs.set h x.2 := by
  refine Runs.bind (prog_readFrom h fuel rooms n hs f hf) ?_
  rintro ⟨b, f'⟩ b' hs' ⟨rfl, rfl⟩
  by_cases hb : b.length < n
  · simp only [if_pos hb]; exact .done trivial
  · simp only [if_neg hb]; exact .done ⟨rfl, rfl⟩

/-- A stream on this handle, as the model of the reader has it. -/
def HStream.at (r : HStream) (f : OsFile) : StreamReader := ⟨r.kind, r.chunkSize, r.start, r.length, f.contents, f.offset, r.readLength, r.buf⟩

/-- Taking bytes from a stream's own handle. -/
def Taken (hs : Handles) (h : Nat) (r : StreamReader) (x : Bytes × StreamReader) (b : Bytes) (hs' : Handles) : Prop :=
  x.1 = b ∧ ∃ f', hs' = hs.set h f' ∧ f'.contents = r.file ∧ x.2 = { r with pos := f'.offset }

theorem taken_of {hs : Handles} {h : Nat} {f : OsFile} {r : StreamReader} (hc : f.contents = r.file) (ho : f.offset = r.pos) {p : Prog Bytes} {n : Nat}
    {x : Res (Bytes × OsFile)} (hp : Runs p hs x fun x b hs' => x.1 = b ∧ hs' = hs.set h x.2)
    (hx : match bytesAt f.contents f.offset n with
      | some b => ∃ quotas, x = .ok (b, ⟨f.contents, f.offset + n, quotas⟩)
      | none => ∃ e, x = .err e) : Runs p hs (r.take n) (Taken hs h r) := by
  rw [StreamReader.take, ← hc, ← ho, List.length_drop]
  rw [bytesAt] at hx
  by_cases hin : n ≤ f.contents.length - f.offset
  · rw [if_neg (by omega)]
    simp only [if_pos hin] at hx
    obtain ⟨q, rfl⟩ := hx
    obtain ⟨b, hs', h1, h2, h3⟩ := hp
    refine ⟨b, hs', h1, h2, _, h3, hc, ?_⟩
    rw [← hc]
  · rw [if_pos (by omega)]
    simp only [if_neg hin] at hx
    obtain ⟨e, rfl⟩ := hx
    exact hp

theorem prog_take_copy (h n : Nat) (rooms : List Nat) {hs : Handles} {f : OsFile} {r : StreamReader} (hf : hs[h]? = some f) (hc : f.contents = r.file) (ho : f.offset = r.pos) :
    Runs (Prog.copyN h (n + 1) rooms n) hs (r.take n) (Taken hs h r) :=
  taken_of hc ho (prog_copyN h (n + 1) rooms n hs f hf) (os_copyN n f (n + 1) rooms (by omega))

theorem prog_take_full (h n : Nat) {hs : Handles} {f : OsFile} {r : StreamReader} (hf : hs[h]? = some f) (hc : f.contents = r.file) (ho : f.offset = r.pos) :
    Runs (Prog.readFull h (n + 1) n) hs (r.take n) (Taken hs h r) :=
  taken_of hc ho (prog_readFull h (n + 1) n hs f hf) (os_readFull n f (n + 1) (by omega))

/-! ### Streams -/

/-- A stream after a call: only its own handle has moved. -/
def Moved (hs : Handles) (s : HStream) (r : StreamReader) (s' : HStream) (hs' : Handles) : Prop :=
  ∃ f', hs' = hs.set s.handle f' ∧ s'.handle = s.handle ∧ r = s'.at f'

theorem prog_readAChunk (c : Codec) (rooms : List Nat) (s : HStream) (hs : Handles) (f : OsFile) (hf : hs[s.handle]? = some f) :
    Runs (s.readAChunk c rooms) hs ((s.at f).readAChunk c) (fun r s' hs' => Moved hs s r s' hs') := by
  rw [HStream.readAChunk, StreamReader.readAChunk]
  by_cases hk : s.kind = .none
  · rw [if_pos hk, if_pos (show (s.at f).kind = .none from hk)]
    refine Runs.bind (prog_take_copy s.handle _ rooms hf rfl rfl) ?_
    rintro ⟨b, r⟩ b' hs' ⟨rfl, f', rfl, hc, rfl⟩
    exact .done ⟨f', rfl, rfl, by simp only [HStream.at, hc]; rfl⟩
  · rw [if_neg hk, if_neg (show ¬ (s.at f).kind = .none from hk)]
    refine Runs.bind (prog_take_full s.handle 3 hf rfl rfl) ?_
    rintro ⟨head, r⟩ b' hs' ⟨rfl, f', rfl, hc, rfl⟩
    dsimp only
    by_cases hl : (decChunkHeader (head.getD 0 0) (head.getD 1 0) (head.getD 2 0)).1 > s.chunkSize
    · rw [if_pos hl, if_pos (show _ > (s.at f).chunkSize from hl)]
      exact .done trivial
    · rw [if_neg hl, if_neg (show ¬ _ > (s.at f).chunkSize from hl)]
      refine Runs.bind (prog_take_copy (r := { ({ (s.at f) with pos := f'.offset } : StreamReader) with readLength := (s.at f).readLength + 3 }) s.handle _ rooms
        (get_set_self hf f') hc rfl) ?_
      rintro ⟨bs, r⟩ b' hs' ⟨rfl, f2, rfl, hc2, rfl⟩
      dsimp only
      have hgood : ∀ piece, Moved hs s ⟨s.kind, s.chunkSize, s.start, s.length, f.contents, f2.offset,
          s.readLength + 3 + (decChunkHeader (head.getD 0 0) (head.getD 1 0) (head.getD 2 0)).1, s.buf ++ piece⟩
          { s with buf := s.buf ++ piece, readLength := s.readLength + 3 + (decChunkHeader (head.getD 0 0) (head.getD 1 0) (head.getD 2 0)).1 }
          ((hs.set s.handle f').set s.handle f2) := fun piece => ⟨f2, by rw [set_set_self], rfl, by simp only [HStream.at, hc2]⟩
      cases (decChunkHeader (head.getD 0 0) (head.getD 1 0) (head.getD 2 0)).2 with
      | true => exact .done (hgood bs)
      | false =>
        simp only [Bool.false_eq_true, if_false]
        change Runs ((Prog.done (decompress c s.kind bs)).bind _) _ ((decompress c s.kind bs).bind _) _
        cases decompress c s.kind bs with
        | ok piece => exact .done (hgood piece)
        | err e => exact .done trivial
        | panic => exact .done trivial
        | hang => exact .done trivial

theorem prog_readByte (c : Codec) (rooms : List Nat) (s : HStream) (hs : Handles) (f : OsFile) (hf : hs[s.handle]? = some f) :
    Runs (s.readByte c rooms) hs ((s.at f).readByte c) (fun x y hs' => x.1 = y.1 ∧ Moved hs s x.2 y.2 hs') := by
  rw [HStream.readByte, StreamReader.readByte]
  cases hb : s.buf with
  | cons b bs =>
    have hb' : (s.at f).buf = b :: bs := hb
    simp only [hb']
    exact .done ⟨rfl, f, (set_get_self hf).symm, rfl, rfl⟩
  | nil =>
    have hb' : (s.at f).buf = [] := hb
    simp only [hb']
    by_cases hr : s.readLength ≥ s.length
    · rw [if_pos hr, if_pos (show (s.at f).readLength ≥ (s.at f).length from hr)]; exact .done trivial
    · rw [if_neg hr, if_neg (show ¬ (s.at f).readLength ≥ (s.at f).length from hr)]
      refine Runs.bind (prog_readAChunk c rooms s hs f hf) ?_
      rintro _ s' hs' ⟨f', rfl, hh, rfl⟩
      cases hb2 : s'.buf with
      | nil => simp only [HStream.at, hb2]; exact .done trivial
      | cons b bs => simp only [HStream.at, hb2]; exact .done ⟨rfl, f', rfl, hh, rfl⟩

theorem prog_fill (c : Codec) (rooms : List Nat) (n : Nat) (fuel : Nat) : ∀ (s : HStream) (hs : Handles) (f : OsFile), hs[s.handle]? = some f →
    Runs (s.fill c rooms n fuel) hs ((s.at f).fill c n fuel) (fun r s' hs' => Moved hs s r s' hs') := by
  induction fuel with
  | zero =>
    intro s hs f hf
    rw [HStream.fill, StreamReader.fill]
    by_cases hc : s.buf.length < n ∧ s.readLength < s.length
    · rw [if_pos hc, if_pos (show (s.at f).buf.length < n ∧ (s.at f).readLength < (s.at f).length from hc)]; exact .done trivial
    · rw [if_neg hc, if_neg (show ¬ ((s.at f).buf.length < n ∧ (s.at f).readLength < (s.at f).length) from hc)]
      exact .done ⟨f, (set_get_self hf).symm, rfl, rfl⟩
  | succ fuel ih =>
    intro s hs f hf
    rw [HStream.fill, StreamReader.fill]
    by_cases hc : s.buf.length < n ∧ s.readLength < s.length
    · rw [if_pos hc, if_pos (show (s.at f).buf.length < n ∧ (s.at f).readLength < (s.at f).length from hc)]
      refine Runs.bind (prog_readAChunk c rooms s hs f hf) ?_
      rintro _ s' hs' ⟨f', rfl, hh, rfl⟩
      have := ih s' (hs.set s.handle f') f' (by rw [hh]; exact get_set_self hf f')
      refine Runs.weaken this ?_
      rintro r s2 hs2 ⟨f2, rfl, hh2, rfl⟩
      exact ⟨f2, by rw [hh, set_set_self], by rw [hh2, hh], rfl⟩
    · rw [if_neg hc, if_neg (show ¬ ((s.at f).buf.length < n ∧ (s.at f).readLength < (s.at f).length) from hc)]
      exact .done ⟨f, (set_get_self hf).symm, rfl, rfl⟩

theorem prog_stream_readFull (c : Codec) (rooms : List Nat) (n : Nat) (s : HStream) (hs : Handles) (f : OsFile) (hf : hs[s.handle]? = some f) :
    Runs (s.readFull c rooms n) hs ((s.at f).readFull c n) (fun x y hs' => x.1 = y.1 ∧ Moved hs s x.2 y.2 hs') := by
  rw [HStream.readFull, StreamReader.readFull]
  by_cases hn : n = 0
  · rw [if_pos hn, if_pos hn]; exact .done ⟨rfl, f, (set_get_self hf).symm, rfl, rfl⟩
  rw [if_neg hn, if_neg hn]
  by_cases hb : s.buf.length ≥ n
  · rw [if_pos hb, if_pos (show (s.at f).buf.length ≥ n from hb)]; exact .done ⟨rfl, f, (set_get_self hf).symm, rfl, rfl⟩
  rw [if_neg hb, if_neg (show ¬ (s.at f).buf.length ≥ n from hb)]
  by_cases hr : s.readLength ≥ s.length
  · rw [if_pos hr, if_pos (show (s.at f).readLength ≥ (s.at f).length from hr)]; exact .done trivial
  rw [if_neg hr, if_neg (show ¬ (s.at f).readLength ≥ (s.at f).length from hr)]
  refine Runs.bind (prog_fill c rooms n _ s hs f hf) ?_
  rintro _ s' hs' ⟨f', rfl, hh, rfl⟩
  by_cases hb2 : s'.buf.length ≥ n
  · rw [if_pos hb2, if_pos (show (s'.at f').buf.length ≥ n from hb2)]; exact .done ⟨rfl, f', rfl, hh, rfl⟩
  rw [if_neg hb2, if_neg (show ¬ (s'.at f').buf.length ≥ n from hb2)]
  by_cases he : s'.buf = []
  · rw [if_pos he, if_pos (show (s'.at f').buf = [] from he)]; exact .done trivial
  · rw [if_neg he, if_neg (show ¬ (s'.at f').buf = [] from he)]; exact .done trivial

theorem prog_stream_seek (c : Codec) (rooms : List Nat) (chunk chunkOffset : Nat) (s : HStream) (hs : Handles) (f : OsFile) (hf : hs[s.handle]? = some f) :
    Runs (s.seek c rooms chunk chunkOffset) hs ((s.at f).seek c chunk chunkOffset) (fun r s' hs' => Moved hs s r s' hs') := by
  have key := Runs.bind (f := fun r : HStream => Prog.done (.ok { r with buf := r.buf.drop chunkOffset })) (g := fun r : StreamReader => .ok { r with buf := r.buf.drop chunkOffset })
    (good' := fun r s' hs' => Moved hs s r s' hs')
    (prog_readAChunk c rooms { s with buf := [], readLength := chunk } (hs.set s.handle { f with offset := s.start + chunk }) { f with offset := s.start + chunk } (get_set_self hf _))
    (by
      rintro _ s' hs' ⟨f', rfl, hh, rfl⟩
      exact .done ⟨f', by rw [set_set_self], hh, rfl⟩)
  have hrun : (s.seek c rooms chunk chunkOffset).run hs =
      ((({ s with buf := [], readLength := chunk } : HStream).readAChunk c rooms).bind fun r => .done (.ok { r with buf := r.buf.drop chunkOffset })).run
        (hs.set s.handle { f with offset := s.start + chunk }) := by
    have : f.seek ((s.start + chunk : Nat) : Int) = .ok { f with offset := s.start + chunk } := by
      rw [OsFile.seek, if_neg (by omega), Int.toNat_natCast]
    rw [HStream.seek, Prog.run]
    simp only [hf, this]
  unfold Runs at key ⊢
  rw [hrun]
  exact key

/-! ### Clients -/

/-- The streams of a goroutine, as the model of the reader has them: their handles are open, and no two are the same. -/
structure Views (hs : Handles) (ss : List HStream) (vs : List StreamReader) : Prop where
  length : ss.length = vs.length
  distinct : (ss.map (·.handle)).Nodup
  each : ∀ (i : Nat) (s : HStream), ss[i]? = some s → ∃ f, hs[s.handle]? = some f ∧ vs[i]? = some (s.at f)

theorem Views.move {hs hs' : Handles} {ss : List HStream} {vs : List StreamReader} (h : Views hs ss vs) {i : Nat} {s s' : HStream} {r : StreamReader} (hi : ss[i]? = some s)
    (hm : Moved hs s r s' hs') : Views hs' (ss.set i s') (vs.set i r) := by
  obtain ⟨f', rfl, hh, rfl⟩ := hm
  obtain ⟨f, hf, hv⟩ := h.each i s hi
  have hlt := (List.getElem?_eq_some_iff.1 hi).1
  have hmap : (ss.set i s').map (·.handle) = ss.map (·.handle) := by
    rw [List.map_set, hh]
    apply List.ext_getElem?
    intro k
    by_cases hk : i = k
    · subst hk
      rw [List.getElem?_set_self (by simpa using hlt), List.getElem?_map, hi]; rfl
    · rw [List.getElem?_set_ne hk]
  refine ⟨by simp [h.length], by rw [hmap]; exact h.distinct, ?_⟩
  intro k t hk
  by_cases hik : i = k
  · subst hik
    rw [List.getElem?_set_self hlt] at hk
    cases hk
    exact ⟨f', by rw [hh]; exact get_set_self hf f', List.getElem?_set_self (by rw [← h.length]; exact hlt)⟩
  · rw [List.getElem?_set_ne hik] at hk
    obtain ⟨g, hg, hw⟩ := h.each k t hk
    have hne : s.handle ≠ t.handle := by
      intro he
      have h1 : (ss.map (·.handle))[i]? = some s.handle := by rw [List.getElem?_map, hi]; rfl
      have h2 : (ss.map (·.handle))[k]? = some s.handle := by rw [List.getElem?_map, hk, he]; rfl
      have hlt' : i < (ss.map (·.handle)).length := by simpa using hlt
      exact hik ((List.getElem?_inj hlt' h.distinct).1 (by rw [h1, h2]))
    exact ⟨g, by rw [List.getElem?_set_ne hne]; exact hg, by rw [List.getElem?_set_ne hik]; exact hw⟩

theorem Runs.outcome {α : Type} {p : Prog α} {hs : Handles} {x : Res α} (h : Runs p hs x fun a b _ => a = b) : SameOutcome (p.run hs).1 x := by
  cases x with
  | ok a => obtain ⟨b, hs', h1, h2⟩ := h; rw [h1]; exact h2.symm
  | err e => obtain ⟨e', hs', h1⟩ := h; rw [h1]; trivial
  | panic => obtain ⟨hs', h1⟩ := h; rw [h1]; trivial
  | hang => obtain ⟨hs', h1⟩ := h; rw [h1]; trivial

/-- A goroutine that is alone gets what the model of the reader says, whatever the operating system does with its reads. -/
theorem client_runs {α : Type} (c : Codec) (rooms : List Nat) (cl : Client α) : ∀ (hs : Handles) (ss : List HStream) (vs : List StreamReader), Views hs ss vs →
    Runs (cl.prog c rooms ss) hs (cl.alone c vs) fun a b _ => a = b := by
  induction cl with
  | done r => intro hs ss vs _; cases r <;> first | exact .done rfl | exact .done trivial
  | readByte i k ih =>
    intro hs ss vs hv
    rw [Client.prog, Client.alone]
    cases hi : ss[i]? with
    | none =>
      have : vs[i]? = none := by rw [List.getElem?_eq_none_iff] at hi ⊢; rw [← hv.length]; exact hi
      rw [this]; exact .done trivial
    | some s =>
      obtain ⟨f, hf, hw⟩ := hv.each i s hi
      rw [hw]
      refine Runs.bind (prog_readByte c rooms s hs f hf) ?_
      rintro ⟨b, r⟩ ⟨b', s'⟩ hs' ⟨rfl, hm⟩
      exact ih _ _ _ _ (hv.move hi hm)
  | readFull i n k ih =>
    intro hs ss vs hv
    rw [Client.prog, Client.alone]
    cases hi : ss[i]? with
    | none =>
      have : vs[i]? = none := by rw [List.getElem?_eq_none_iff] at hi ⊢; rw [← hv.length]; exact hi
      rw [this]; exact .done trivial
    | some s =>
      obtain ⟨f, hf, hw⟩ := hv.each i s hi
      rw [hw]
      refine Runs.bind (prog_stream_readFull c rooms n s hs f hf) ?_
      rintro ⟨b, r⟩ ⟨b', s'⟩ hs' ⟨rfl, hm⟩
      exact ih _ _ _ _ (hv.move hi hm)
  | seek i chunk chunkOffset k ih =>
    intro hs ss vs hv
    rw [Client.prog, Client.alone]
    cases hi : ss[i]? with
    | none =>
      have : vs[i]? = none := by rw [List.getElem?_eq_none_iff] at hi ⊢; rw [← hv.length]; exact hi
      rw [this]; exact .done trivial
    | some s =>
      obtain ⟨f, hf, hw⟩ := hv.each i s hi
      rw [hw]
      refine Runs.bind (prog_stream_seek c rooms chunk chunkOffset s hs f hf) ?_
      rintro r s' hs' hm
      exact ih _ _ _ (hv.move hi hm)
  | finished i k ih =>
    intro hs ss vs hv
    rw [Client.prog, Client.alone]
    cases hi : ss[i]? with
    | none =>
      have : vs[i]? = none := by rw [List.getElem?_eq_none_iff] at hi ⊢; rw [← hv.length]; exact hi
      rw [this]; exact .done trivial
    | some s =>
      obtain ⟨f, hf, hw⟩ := hv.each i s hi
      rw [hw]
      exact ih _ _ _ _ hv

/-! ### Which handles are called -/

theorem hd_readFull_sat (h : Nat) (fuel : Nat) : ∀ n, (Prog.readFull h fuel n).Sat (· = h) fun _ => True := by
  induction fuel with
  | zero => intro n; trivial
  | succ fuel ih =>
    intro n
    rw [Prog.readFull]
    split
    · trivial
    · refine ⟨rfl, fun b e => ?_⟩
      dsimp only
      split
      · trivial
      · cases e with
        | some e => trivial
        | none => exact (ih _).then fun _ _ => trivial

theorem hd_readFrom_sat (h : Nat) (fuel : Nat) : ∀ rooms n, (Prog.readFrom h fuel rooms n).Sat (· = h) fun _ => True := by
  induction fuel with
  | zero => intro rooms n; trivial
  | succ fuel ih =>
    intro rooms n
    rw [Prog.readFrom]
    split
    · trivial
    · refine ⟨rfl, fun b e => ?_⟩
      dsimp only
      cases e with
      | some e => cases e <;> trivial
      | none => exact (ih _ _).then fun _ _ => trivial

theorem hd_copyN_sat (h fuel : Nat) (rooms : List Nat) (n : Nat) : (Prog.copyN h fuel rooms n).Sat (· = h) fun _ => True :=
  (hd_readFrom_sat h fuel rooms n).then fun b _ => by split <;> trivial

theorem hd_readAChunk_sat (c : Codec) (rooms : List Nat) (s : HStream) : (s.readAChunk c rooms).Sat (· = s.handle) fun s' => s'.handle = s.handle := by
  rw [HStream.readAChunk]
  split
  · exact (hd_copyN_sat _ _ _ _).then fun _ _ => rfl
  · refine (hd_readFull_sat _ _ _).then fun head _ => ?_
    dsimp only
    split
    · trivial
    · refine (hd_copyN_sat _ _ _ _).then fun bs _ => ?_
      split
      · rfl
      · cases decompress c s.kind bs <;> first | rfl | trivial

theorem hd_readByte_sat (c : Codec) (rooms : List Nat) (s : HStream) : (s.readByte c rooms).Sat (· = s.handle) fun x => x.2.handle = s.handle := by
  rw [HStream.readByte]
  split
  · rfl
  · split
    · trivial
    · refine (hd_readAChunk_sat c rooms s).then fun r hr => ?_
      split
      · exact hr
      · trivial

theorem hd_fill_sat (c : Codec) (rooms : List Nat) (n fuel : Nat) : ∀ s : HStream, (s.fill c rooms n fuel).Sat (· = s.handle) fun s' => s'.handle = s.handle := by
  induction fuel with
  | zero => intro s; rw [HStream.fill]; split <;> first | trivial | rfl
  | succ fuel ih =>
    intro s
    rw [HStream.fill]
    split
    · refine (hd_readAChunk_sat c rooms s).then fun r hr => ?_
      have := ih r
      rw [hr] at this
      exact this
    · rfl

theorem hd_stream_readFull_sat (c : Codec) (rooms : List Nat) (n : Nat) (s : HStream) : (s.readFull c rooms n).Sat (· = s.handle) fun x => x.2.handle = s.handle := by
  rw [HStream.readFull]
  split
  · rfl
  · split
    · rfl
    · split
      · trivial
      · refine (hd_fill_sat c rooms n _ s).then fun r hr => ?_
        split
        · exact hr
        · split <;> trivial

theorem hd_stream_seek_sat (c : Codec) (rooms : List Nat) (chunk chunkOffset : Nat) (s : HStream) :
    (s.seek c rooms chunk chunkOffset).Sat (· = s.handle) fun s' => s'.handle = s.handle :=
  ⟨rfl, (hd_readAChunk_sat c rooms { s with buf := [], readLength := chunk }).then fun _ hr => hr⟩

/-- A goroutine calls only the handles of its streams. -/
theorem client_uses {α : Type} (c : Codec) (rooms : List Nat) (cl : Client α) : ∀ ss : List HStream, (cl.prog c rooms ss).Uses (· ∈ ss.map (·.handle)) := by
  have hmem : ∀ (ss : List HStream) (i : Nat) (s : HStream), ss[i]? = some s → ∀ h, h = s.handle → h ∈ ss.map (·.handle) := by
    rintro ss i s hi _ rfl
    exact List.mem_map_of_mem (List.mem_of_getElem? hi)
  have hset : ∀ (ss : List HStream) (i : Nat) (s s' : HStream), ss[i]? = some s → s'.handle = s.handle → ∀ h, h ∈ (ss.set i s').map (·.handle) → h ∈ ss.map (·.handle) := by
    intro ss i s s' hi hh h hm
    obtain ⟨t, ht, rfl⟩ := List.mem_map.1 hm
    rcases List.mem_or_eq_of_mem_set ht with ht | rfl
    · exact List.mem_map_of_mem ht
    · rw [hh]; exact hmem ss i s hi _ rfl
  induction cl with
  | done r => intro ss; cases r <;> trivial
  | readByte i k ih =>
    intro ss
    rw [Client.prog]
    cases hi : ss[i]? with
    | none => trivial
    | some s =>
      refine Prog.Sat.bind ?_ ((hd_readByte_sat c rooms s).mono (hmem ss i s hi) fun _ h => h)
      exact fun x hx => (ih _ _).mono (hset ss i s _ hi hx) fun _ h => h
  | readFull i n k ih =>
    intro ss
    rw [Client.prog]
    cases hi : ss[i]? with
    | none => trivial
    | some s =>
      refine Prog.Sat.bind ?_ ((hd_stream_readFull_sat c rooms n s).mono (hmem ss i s hi) fun _ h => h)
      exact fun x hx => (ih _ _).mono (hset ss i s _ hi hx) fun _ h => h
  | seek i chunk chunkOffset k ih =>
    intro ss
    rw [Client.prog]
    cases hi : ss[i]? with
    | none => trivial
    | some s =>
      refine Prog.Sat.bind ?_ ((hd_stream_seek_sat c rooms chunk chunkOffset s).mono (hmem ss i s hi) fun _ h => h)
      exact fun x hx => (ih _).mono (hset ss i s _ hi hx) fun _ h => h
  | finished i k ih =>
    intro ss
    rw [Client.prog]
    cases hi : ss[i]? with
    | none => trivial
    | some s => exact ih _ _

/-! ### C97 -/

theorem openStreams_length (f : OsFile) (specs : List StreamSpec) : ∀ hs : Handles, (openStreams hs f specs).1.length = hs.length + specs.length ∧
    (openStreams hs f specs).2.map (·.handle) = List.range' hs.length specs.length ∧ ∃ more, (openStreams hs f specs).1 = hs ++ more := by
  induction specs with
  | nil => intro hs; exact ⟨rfl, rfl, [], by simp [openStreams]⟩
  | cons x xs ih =>
    intro hs
    simp only [openStreams]
    obtain ⟨h1, h2, more, h3⟩ := ih (openStream hs f x.quotas x.kind x.chunkSize x.start x.length).1
    have hl : (openStream hs f x.quotas x.kind x.chunkSize x.start x.length).1.length = hs.length + 1 := by simp [openStream]
    refine ⟨by rw [h1, hl, List.length_cons]; omega, ?_, ?_⟩
    · rw [List.map_cons, h2, hl, List.length_cons, List.range'_succ]
      rfl
    · rw [h3]
      simp only [openStream, List.append_assoc]
      exact ⟨_, rfl⟩

theorem openStreams_views (f : OsFile) (specs : List StreamSpec) : ∀ (hs : Handles) (later : Handles),
    Views ((openStreams hs f specs).1 ++ later) (openStreams hs f specs).2 (specs.map fun x => newStreamReader x.kind x.chunkSize x.start x.length f.contents) := by
  intro hs later
  obtain ⟨-, h2, -⟩ := openStreams_length f specs hs
  refine ⟨?_, by rw [h2]; exact List.nodup_range' .., ?_⟩
  · have := congrArg List.length h2
    simpa using this
  · induction specs generalizing hs with
    | nil => intro i s h; simp [openStreams] at h
    | cons x xs ih =>
      intro i s h
      simp only [openStreams] at h ⊢
      obtain ⟨-, h2', more, h3⟩ := openStreams_length f xs (openStream hs f x.quotas x.kind x.chunkSize x.start x.length).1
      cases i with
      | zero =>
        simp only [List.getElem?_cons_zero, Option.some.injEq] at h
        subst h
        refine ⟨{ f.clone with offset := x.start, quotas := x.quotas }, ?_, rfl⟩
        rw [h3]
        simp only [openStream, List.append_assoc]
        rw [List.getElem?_append_right (Nat.le_refl _), Nat.sub_self]
        rfl
      | succ i =>
        simp only [List.getElem?_cons_succ] at h
        obtain ⟨g, hg, hv⟩ := ih _ h2' i s h
        exact ⟨g, hg, by simpa using hv⟩

theorem openAll_spec (f : OsFile) (gs : List (List StreamSpec)) : ∀ (hs later : Handles),
    (∃ n, ((openAll hs f gs).2.flatMap fun ss => ss.map (·.handle)) = List.range' hs.length n) ∧ (∃ more, (openAll hs f gs).1 = hs ++ more) ∧
    (openAll hs f gs).2.length = gs.length ∧
    ∀ (i : Nat) (ss : List HStream) (specs : List StreamSpec), (openAll hs f gs).2[i]? = some ss → gs[i]? = some specs →
      Views ((openAll hs f gs).1 ++ later) ss (specs.map fun x => newStreamReader x.kind x.chunkSize x.start x.length f.contents) := by
  induction gs with
  | nil => intro hs later; exact ⟨⟨0, rfl⟩, ⟨[], by simp [openAll]⟩, rfl, fun i ss specs h => by simp [openAll] at h⟩
  | cons g gs ih =>
    intro hs later
    obtain ⟨l1, l2, m1, l3⟩ := openStreams_length f g hs
    obtain ⟨⟨n, k1⟩, ⟨m2, k2⟩, k3, k4⟩ := ih (openStreams hs f g).1 later
    simp only [openAll]
    refine ⟨⟨g.length + n, ?_⟩, ⟨m1 ++ m2, by rw [k2, l3, List.append_assoc]⟩, by rw [List.length_cons, k3, List.length_cons], ?_⟩
    · rw [List.flatMap_cons, l2, k1, l1, ← List.range'_append, Nat.one_mul]
    · intro i ss specs h1 h2
      cases i with
      | zero =>
        simp only [List.getElem?_cons_zero, Option.some.injEq] at h1 h2
        subst h1; subst h2
        rw [k2, List.append_assoc]
        exact openStreams_views f _ hs _
      | succ i =>
        simp only [List.getElem?_cons_succ] at h1 h2
        exact k4 i ss specs h1 h2

/-- **C97** (partial: the streams are opened beforehand; Props/Parallel shows that calls on batch readers are such programs) Goroutines that read one file of the operating system, each from
streams of its own, opened beforehand, on handles of their own. After any schedule of their calls on the handles, and however the operating system splits their reads, a
goroutine that is done has what it would have alone, reading from the contents of the file; and it is done when it was scheduled often enough. -/
theorem parallel_reading_partial {α : Type} (c : Codec) (rooms : List Nat) (f : OsFile) (hs : Handles) (gs : List (Client α × List StreamSpec)) (i : Nat) (cl : Client α)
    (specs : List StreamSpec) (hi : gs[i]? = some (cl, specs)) :
    ∃ n, ∀ sch : List Nat, ∃ p, (runSchedule sch (startAll c rooms hs f gs)).1[i]? = some p ∧
      (∀ r, p = .done r → SameOutcome r (cl.alone c (specs.map fun x => newStreamReader x.kind x.chunkSize x.start x.length f.contents))) ∧
      (n ≤ sch.count i → ∃ r, p = .done r) := by
  obtain ⟨⟨n, k1⟩, -, k3, k4⟩ := openAll_spec f (gs.map (·.2)) hs []
  obtain ⟨H, SS, hopen⟩ : ∃ H SS, openAll hs f (gs.map (·.2)) = (H, SS) := ⟨_, _, rfl⟩
  rw [hopen] at k1 k3 k4
  simp only [List.append_nil, List.length_map] at k1 k3 k4
  have hlt : i < gs.length := (List.getElem?_eq_some_iff.1 hi).1
  obtain ⟨ss, hss⟩ : ∃ ss, SS[i]? = some ss := ⟨SS[i]'(by omega), List.getElem?_eq_getElem (by omega)⟩
  have hview := k4 i ss specs hss (by rw [List.getElem?_map, hi]; rfl)
  let S : Nat → Nat → Prop := fun i h => ∃ ss, SS[i]? = some ss ∧ h ∈ ss.map (·.handle)
  have hnd : (SS.flatMap fun ss => ss.map (·.handle)).Nodup := by rw [k1]; exact List.nodup_range' ..
  have hdisj : ∀ i j h, i ≠ j → S i h → ¬ S j h := by
    rintro a b h hab ⟨s1, h1, m1⟩ ⟨s2, h2, m2⟩
    rw [List.flatMap_def, List.Nodup, List.pairwise_flatten] at hnd
    obtain ⟨-, hp⟩ := hnd
    have e1 : (SS.map fun ss => ss.map (·.handle))[a]? = some (s1.map (·.handle)) := by rw [List.getElem?_map, h1]; rfl
    have e2 : (SS.map fun ss => ss.map (·.handle))[b]? = some (s2.map (·.handle)) := by rw [List.getElem?_map, h2]; rfl
    obtain ⟨l1, e1⟩ := List.getElem?_eq_some_iff.1 e1
    obtain ⟨l2, e2⟩ := List.getElem?_eq_some_iff.1 e2
    rw [List.pairwise_iff_getElem] at hp
    rcases Nat.lt_or_gt_of_ne hab with hlt | hlt
    · have := hp a b l1 l2 hlt
      rw [e1, e2] at this
      exact this h m1 h m2 rfl
    · have := hp b a l2 l1 hlt
      rw [e1, e2] at this
      exact this h m2 h m1 rfl
  have hprogs : startAll c rooms hs f gs = ((gs.zip SS).map fun x => x.1.1.prog c rooms x.2, H) := by
    simp only [startAll, hopen]
  have huse : ∀ (j : Nat) (p : Prog α), ((gs.zip SS).map fun x => x.1.1.prog c rooms x.2)[j]? = some p → p.Uses (S j) := by
    intro j p hj
    rw [List.getElem?_map] at hj
    cases hz : (gs.zip SS)[j]? with
    | none => rw [hz] at hj; cases hj
    | some x =>
      rw [hz] at hj
      cases hj
      obtain ⟨-, hx⟩ := List.getElem?_zip_eq_some.1 hz
      exact (client_uses c rooms x.1.1 x.2).mono (fun h hm => ⟨x.2, hx, hm⟩) fun _ h => h
  have hp : ((gs.zip SS).map fun x => x.1.1.prog c rooms x.2)[i]? = some (cl.prog c rooms ss) := by
    rw [List.getElem?_map, List.getElem?_zip_eq_some.2 (show gs[i]? = some (((cl, specs), ss) : _ × _).1 ∧ SS[i]? = some (((cl, specs), ss) : _ × _).2 from ⟨hi, hss⟩)]
    rfl
  refine ⟨(cl.prog c rooms ss).calls H, fun sch => ?_⟩
  rw [hprogs]
  obtain ⟨p', h1, h2, h3⟩ := schedule_keeps S hdisj sch _ H huse i _ hp
  refine ⟨p', h1, ?_, ?_⟩
  · rintro r rfl
    have := (client_runs c rooms cl H ss _ hview).outcome
    rw [← h2] at this
    exact this
  · intro hle
    exact ⟨_, Prog.calls_zero p' _ (by rw [h3]; omega)⟩

/-- **C97** Decoders of the model are such programs. -/
theorem client_decodes {α β : Type} (c : Codec) (i : Nat) (d : Dec α) (k : α → Client β) : ∀ (ss : List StreamReader) (s : StreamReader), ss[i]? = some s →
    (d.client i k).alone c ss = (d.runStream c s).bind fun x => (k x.1).alone c (ss.set i x.2) := by
  have hset : ∀ (ss : List StreamReader) (s : StreamReader), ss[i]? = some s → ss.set i s = ss := by
    intro ss s h
    apply List.ext_getElem?
    intro j
    by_cases hj : i = j
    · subst hj; rw [List.getElem?_set_self (List.getElem?_eq_some_iff.1 h).1, h]
    · rw [List.getElem?_set_ne hj]
  induction d with
  | ret a => intro ss s h; simp only [Dec.client, Dec.runStream, Res.bind, hset ss s h]
  | fail e => intro ss s h; rfl
  | crash => intro ss s h; rfl
  | readByte f ih =>
    intro ss s h
    simp only [Dec.client, Dec.runStream, Client.alone, h]
    cases hr : s.readByte c with
    | ok x =>
      simp only [Res.bind, Res.ok_bind]
      rw [ih x.1 _ x.2 (List.getElem?_set_self (List.getElem?_eq_some_iff.1 h).1)]
      simp only [List.set_set]
      rfl
    | err e => rfl
    | panic => rfl
    | hang => rfl
  | readFull n f ih =>
    intro ss s h
    simp only [Dec.client, Dec.runStream, Client.alone, h]
    cases hr : s.readFull c n with
    | ok x =>
      simp only [Res.bind, Res.ok_bind]
      rw [ih x.1 _ x.2 (List.getElem?_set_self (List.getElem?_eq_some_iff.1 h).1)]
      simp only [List.set_set]
      rfl
    | err e => rfl
    | panic => rfl
    | hang => rfl

/-- **C97, refuted** for goroutines that create batch readers of one open file at the same time: that reads the stripe footers through one handle. If the second goroutine seeks
before the first one reads, it gets the bytes behind the footer. -/
theorem parallel_create_false (contents : Bytes) (off n : Nat) (hn : n ≠ 0) (hin : off + n + n ≤ contents.length) :
    (runSchedule [0, 1, 0, 1] ([readFooterBytes 0 off n, readFooterBytes 0 off n], [⟨contents, 0, []⟩])).1 =
      [.done (.ok ((contents.drop off).take n)), .done (.ok ((contents.drop (off + n)).take n))] ∧
    (readFooterBytes 0 off n).run [⟨contents, 0, []⟩] = (.ok ((contents.drop off).take n), [⟨contents, off + n, []⟩]) := by
  have hread : ∀ o, o + n ≤ contents.length → (⟨contents, o, []⟩ : OsFile).read n = .ok ⟨(contents.drop o).take n, none, ⟨contents, o + n, []⟩⟩ := by
    intro o ho
    have hl : ((contents.drop o).take n).length = n := by rw [List.length_take, List.length_drop]; omega
    have hne : (contents.drop o).take n ≠ [] := by intro h; rw [h] at hl; exact hn hl.symm
    simp only [OsFile.read, if_neg hn, portion, if_neg hne, hl]
    rfl
  have hseek : ∀ o, (⟨contents, o, []⟩ : OsFile).seek (off : Int) = .ok ⟨contents, off, []⟩ := by
    intro o
    rw [OsFile.seek, if_neg (by omega), Int.toNat_natCast]
  have hfull : Prog.readFull 0 (n + 1) n = .read 0 n fun b e => if b.length ≥ n then .done (.ok b)
      else match e with
        | some e => .done (.err e)
        | none => (Prog.readFull 0 n (n - b.length)).bind fun b' => .done (.ok (b ++ b')) := by
    rw [Prog.readFull, if_neg hn]
    congr 1
  have hl1 : ((contents.drop off).take n).length ≥ n := by rw [List.length_take, List.length_drop]; omega
  have hl2 : ((contents.drop (off + n)).take n).length ≥ n := by rw [List.length_take, List.length_drop]; omega
  have r1 := hread off (by omega)
  have r2 := hread (off + n) (by omega)
  constructor
  · simp only [runSchedule, stepAt, readFooterBytes, List.getElem?_cons_zero, List.getElem?_cons_succ, Prog.step, hseek, List.set_cons_zero, List.set_cons_succ, hfull, r1, r2]
    rw [if_pos hl1, if_pos hl2]
  · simp only [readFooterBytes, Prog.run, hseek, List.getElem?_cons_zero, List.set_cons_zero, hfull, r1]
    rw [if_pos hl1]
    rfl

/-- Two goroutines that read two bytes each from a stream of their own, in turns: the bytes are those of their streams. -/
example : (runSchedule [0, 1, 1, 0, 1, 0, 1, 0] (startAll runCodec [1] [] ⟨[1#8, 2#8, 3#8, 4#8], 0, []⟩
      [(.readByte 0 fun a => .readByte 0 fun b => .done (.ok [a, b]), [⟨[1], .none, 10, 0, 2⟩]),
       (.readByte 0 fun a => .readByte 0 fun b => .done (.ok [a, b]), [⟨[], .none, 10, 2, 2⟩])])).1.map (fun p => match p with | .done (.ok b) => b | _ => []) =
    [[1#8, 2#8], [3#8, 4#8]] := by decide +kernel

end Goorc
