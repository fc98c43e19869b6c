import Verif.Spec.Close
/-
Closing a batch reader: which handles are closed.
-/
namespace Goorc

theorem lastPos_iff (k : StreamKind) : ∀ (ks : List StreamKind) (i : Nat), lastPos k ks = some i ↔ LastOfKind ks i k := by
  intro ks
  induction ks with
  | nil => intro i; simp [lastPos, LastOfKind]
  | cons x xs ih =>
    intro i
    have hnone : lastPos k xs = none → ∀ j : Nat, xs[j]? ≠ some k := by
      intro h j hj
      have : ∃ i, LastOfKind xs i k := by
        clear ih h
        induction xs generalizing j with
        | nil => simp at hj
        | cons y ys ihy =>
          by_cases hin : ∃ j : Nat, ys[j]? = some k
          · obtain ⟨j, hj'⟩ := hin
            obtain ⟨i, h1, h2⟩ := ihy j hj'
            refine ⟨i + 1, by simpa using h1, fun m hm => ?_⟩
            cases m with
            | zero => omega
            | succ m => simpa using h2 m (by omega)
          · refine ⟨0, ?_, fun m hm => ?_⟩
            · cases j with
              | zero => simpa using hj
              | succ j => exact absurd ⟨j, by simpa using hj⟩ hin
            · cases m with
              | zero => omega
              | succ m => exact fun h => hin ⟨m, by simpa using h⟩
      obtain ⟨i, hi⟩ := this
      rw [(ih i).2 hi] at h
      simp at h
    rw [lastPos]
    cases hl : lastPos k xs with
    | some j =>
      have hj := (ih j).1 hl
      simp only [Option.some.injEq]
      constructor
      · rintro rfl
        refine ⟨by simpa using hj.1, fun m hm => ?_⟩
        cases m with
        | zero => omega
        | succ m => simpa using hj.2 m (by omega)
      · rintro ⟨h1, h2⟩
        cases i with
        | zero => exact absurd (by simpa using hj.1) (h2 (j + 1) (by omega))
        | succ i =>
          have : lastPos k xs = some i := (ih i).2 ⟨by simpa using h1, fun m hm => by simpa using h2 (m + 1) (by omega)⟩
          rw [hl] at this
          simp at this
          omega
    | none =>
      have hno := hnone hl
      simp only
      split
      · rename_i hx
        subst hx
        simp only [Option.some.injEq]
        constructor
        · rintro rfl
          refine ⟨rfl, fun m hm => ?_⟩
          cases m with
          | zero => omega
          | succ m => simpa using hno m
        · rintro ⟨h1, -⟩
          cases i with
          | zero => rfl
          | succ i => exact absurd (by simpa using h1) (hno i)
      · rename_i hx
        simp only [reduceCtorEq, false_iff]
        rintro ⟨h1, -⟩
        cases i with
        | zero => exact hx (by simpa using h1)
        | succ i => exact hno i (by simpa using h1)

theorem lastPos_some_of_mem {k : StreamKind} {ks : List StreamKind} (h : k ∈ ks) : ∃ i, lastPos k ks = some i := by
  induction ks with
  | nil => simp at h
  | cons x xs ih =>
    rw [lastPos]
    cases hl : lastPos k xs with
    | some i => exact ⟨_, rfl⟩
    | none =>
      rcases List.mem_cons.mp h with rfl | h
      · exact ⟨0, by simp⟩
      · obtain ⟨i, hi⟩ := ih h
        rw [hl] at hi; simp at hi

theorem LastOfKind.mem {ks : List StreamKind} {i : Nat} {k : StreamKind} (h : LastOfKind ks i k) : k ∈ ks := List.mem_of_getElem? h.1

theorem LastOfKind.kind {ks : List StreamKind} {i : Nat} {k l : StreamKind} (h : LastOfKind ks i k) (g : LastOfKind ks i l) : k = l := by
  have := h.1.symm.trans g.1
  simpa using this

/-- The streams of a column are given back: its flags, and those that `Close` names. -/
theorem givesBack_iff (r : FlatRd) (k : StreamKind) :
    GivesBack r k ↔ k ∈ r.tag.closes ∨ k = .present ∧ (r.tag = .leaf .string → r.hasNulls = true) := by
  obtain ⟨tag, hn, ss, ix⟩ := r
  rcases tag with t | _ | _ | _ | _
  · cases t <;> cases k <;> simp [GivesBack, ReaderTag.closes]
  all_goals cases k <;> simp [GivesBack, ReaderTag.closes]

theorem closes_present (tag : ReaderTag) : StreamKind.present ∉ tag.closes := by
  rcases tag with t | _ | _ | _ | _
  · cases t <;> simp [ReaderTag.closes]
  all_goals simp [ReaderTag.closes]

theorem closes_nodup (tag : ReaderTag) : tag.closes.Nodup := by
  rcases tag with t | _ | _ | _ | _
  · cases t <;> simp [ReaderTag.closes]
  all_goals simp [ReaderTag.closes]

theorem closeStream_ok {id : Nat} {r : FlatRd} {k : StreamKind} {x : List (Nat × Nat)} (h : closeStream id r k = .ok x) :
    ∃ i, LastOfKind (r.streams.map (·.1)) i k ∧ x = [(id, i)] := by
  simp only [closeStream] at h
  split at h
  · simp at h
  · rename_i i hi
    simp only [Res.ok.injEq] at h
    exact ⟨i, (lastPos_iff _ _ _).1 hi, h.symm⟩

theorem closeStreams_ok {id : Nat} {r : FlatRd} : ∀ (ks : List StreamKind) (d : List (Nat × Nat)), closeStreams id r ks = .ok d →
    (∀ x, x ∈ d ↔ x.1 = id ∧ ∃ k ∈ ks, LastOfKind (r.streams.map (·.1)) x.2 k) ∧ (ks.Nodup → d.Nodup) := by
  intro ks
  induction ks with
  | nil => intro d h; simp [closeStreams] at h; subst h; simp
  | cons k ks ih =>
    intro d h
    simp only [closeStreams, Res.bind_eq_ok, Res.pure_eq, Res.ok.injEq] at h
    obtain ⟨a, h1, b, h2, rfl⟩ := h
    obtain ⟨i, hi, rfl⟩ := closeStream_ok h1
    obtain ⟨hm, hnd⟩ := ih b h2
    refine ⟨fun x => ?_, fun hks => ?_⟩
    · simp only [List.singleton_append, List.mem_cons, hm]
      constructor
      · rintro (rfl | ⟨e, l, hl, hx⟩)
        · exact ⟨rfl, k, .inl rfl, hi⟩
        · exact ⟨e, l, .inr hl, hx⟩
      · rintro ⟨e, l, rfl | hl, hx⟩
        · left
          have h1 := (lastPos_iff _ _ _).2 hi
          rw [(lastPos_iff _ _ _).2 hx] at h1
          simp only [Option.some.injEq] at h1
          exact Prod.ext e h1
        · exact .inr ⟨e, l, hl, hx⟩
    · obtain ⟨k1, k2⟩ := List.nodup_cons.mp hks
      refine List.nodup_cons.mpr ⟨fun hin => ?_, hnd k2⟩
      obtain ⟨-, l, hl, hx⟩ := (hm _).1 hin
      have := hi.kind hx
      subst this
      exact k1 hl

theorem closePresent_ok {id : Nat} {r : FlatRd} {p : List (Nat × Nat)} (h : closePresent id r = .ok p) :
    (∀ x, x ∈ p ↔ x.1 = id ∧ (r.tag = .leaf .string → r.hasNulls = true) ∧ LastOfKind (r.streams.map (·.1)) x.2 .present) ∧ p.Nodup := by
  have one : ∀ i, LastOfKind (r.streams.map (·.1)) i .present → ∀ x : Nat × Nat, x ∈ [(id, i)] ↔ x.1 = id ∧ LastOfKind (r.streams.map (·.1)) x.2 .present := by
    intro i hi x
    simp only [List.mem_singleton]
    constructor
    · rintro rfl; exact ⟨rfl, hi⟩
    · rintro ⟨e, hx⟩
      have h1 := (lastPos_iff _ _ _).2 hi
      rw [(lastPos_iff _ _ _).2 hx] at h1
      simp only [Option.some.injEq] at h1
      exact Prod.ext e h1
  simp only [closePresent] at h
  split at h
  · rename_i ht
    split at h
    · rename_i hn
      obtain ⟨i, hi, rfl⟩ := closeStream_ok h
      refine ⟨fun x => ?_, by simp⟩
      rw [one i hi x]
      simp [hn]
    · rename_i hn
      simp only [Res.ok.injEq] at h
      subst h
      refine ⟨fun x => ?_, by simp⟩
      simp only [List.not_mem_nil, false_iff]
      rintro ⟨-, h, -⟩
      exact hn (h ht)
  · rename_i ht
    split at h
    · rename_i hl
      simp only [Res.ok.injEq] at h
      subst h
      refine ⟨fun x => ?_, by simp⟩
      simp only [List.not_mem_nil, false_iff]
      rintro ⟨-, -, h⟩
      rw [(lastPos_iff _ _ _).2 h] at hl
      simp at hl
    · rename_i i hi
      simp only [Res.ok.injEq] at h
      subst h
      refine ⟨fun x => ?_, by simp⟩
      rw [one i ((lastPos_iff _ _ _).1 hi) x]
      simp [ht]

theorem closeChildren_ok {f : Nat → Res (List (Nat × Nat))} : ∀ (cs : List Nat) (hs : List (Nat × Nat)), closeChildren f cs = .ok hs →
    (∀ x, x ∈ hs ↔ ∃ c ∈ cs, ∃ y, f c = .ok y ∧ x ∈ y) ∧ (∀ c ∈ cs, ∃ y, f c = .ok y) ∧
      (cs.Nodup → (∀ c ∈ cs, ∀ y, f c = .ok y → y.Nodup) →
        (∀ c ∈ cs, ∀ d ∈ cs, c ≠ d → ∀ y z, f c = .ok y → f d = .ok z → ∀ x ∈ y, x ∉ z) → hs.Nodup) := by
  intro cs
  induction cs with
  | nil => intro hs h; simp [closeChildren] at h; subst h; simp
  | cons c cs ih =>
    intro hs h
    simp only [closeChildren, Res.bind_eq_ok, Res.pure_eq, Res.ok.injEq] at h
    obtain ⟨a, h1, b, h2, rfl⟩ := h
    obtain ⟨hm, hall, hnd⟩ := ih b h2
    refine ⟨fun x => ?_, fun d hd => ?_, fun hcs hn hdis => ?_⟩
    · simp only [List.mem_append, hm, List.mem_cons]
      constructor
      · rintro (hx | ⟨d, hd, y, hy, hx⟩)
        · exact ⟨c, .inl rfl, a, h1, hx⟩
        · exact ⟨d, .inr hd, y, hy, hx⟩
      · rintro ⟨d, rfl | hd, y, hy, hx⟩
        · rw [h1] at hy; simp only [Res.ok.injEq] at hy; subst hy; exact .inl hx
        · exact .inr ⟨d, hd, y, hy, hx⟩
    · rcases List.mem_cons.mp hd with rfl | hd
      · exact ⟨a, h1⟩
      · exact hall d hd
    · obtain ⟨k1, k2⟩ := List.nodup_cons.mp hcs
      refine List.nodup_append.mpr ⟨hn c (by simp) a h1, hnd k2 (fun d hd => hn d (by simp [hd]))
        (fun d hd e he => hdis d (by simp [hd]) e (by simp [he])), fun x hx y hy => ?_⟩
      rintro rfl
      obtain ⟨d, hd, z, hz, hxz⟩ := (hm x).1 hy
      exact hdis c (by simp) d (by simp [hd]) (by rintro rfl; exact k1 hd) a z h1 hz x hx hxz

section
variable {bo : BatchOption} {types : List RdType} {rs : List (Option FlatRd)}

theorem includedChild_iff {cs : List Nat} {i c : Nat} : includedChild bo cs i = some c ↔ cs[i]? = some c ∧ bo.isInclude c = true := by
  simp only [includedChild]
  split
  · rename_i d hd
    rw [hd]
    split
    · rename_i hi
      simp only [Option.some.injEq]
      exact ⟨fun h => ⟨h, h ▸ hi⟩, fun h => h.1⟩
    · rename_i hi
      simp only [reduceCtorEq, Option.some.injEq, false_iff]
      rintro ⟨rfl, h⟩
      exact hi h
  · rename_i hd
    simp [hd]

/-- What `Close` of one column closes: its own streams, and what its entries close. -/
theorem closeCol_ok {n id : Nat} {hs : List (Nat × Nat)} (h : closeCol bo types rs (n + 1) id = .ok hs) :
    ∃ t r own sub, types[id]? = some t ∧ rs[id]? = some (some r) ∧ hs = own ++ sub ∧
      (∀ x, x ∈ own ↔ x.1 = id ∧ ∃ k, GivesBack r k ∧ LastOfKind (r.streams.map (·.1)) x.2 k) ∧ own.Nodup ∧
      (∀ x, x ∈ sub ↔ ∃ c, EntryOf bo types rs id c ∧ ∃ y, closeCol bo types rs n c = .ok y ∧ x ∈ y) ∧
      (∀ c, EntryOf bo types rs id c → ∃ y, closeCol bo types rs n c = .ok y) ∧
      (t.children.Nodup → (∀ c, EntryOf bo types rs id c → ∀ y, closeCol bo types rs n c = .ok y → y.Nodup) →
        (∀ c d, EntryOf bo types rs id c → EntryOf bo types rs id d → c ≠ d →
          ∀ y z, closeCol bo types rs n c = .ok y → closeCol bo types rs n d = .ok z → ∀ x ∈ y, x ∉ z) → sub.Nodup) := by
  simp only [closeCol] at h
  split at h
  rotate_left
  · simp at h
  rename_i t r ht hr
  simp only [Res.bind_eq_ok, Res.pure_eq, Res.ok.injEq] at h
  obtain ⟨p, h1, d, h2, sub, h3, rfl⟩ := h
  obtain ⟨p1, p2⟩ := closePresent_ok h1
  obtain ⟨d1, d2⟩ := closeStreams_ok _ _ h2
  refine ⟨t, r, p ++ d, sub, ht, hr, by simp, fun x => ?_, ?_, ?_⟩
  · simp only [List.mem_append, p1, d1]
    constructor
    · rintro (⟨e, g, hl⟩ | ⟨e, k, hk, hl⟩)
      · exact ⟨e, .present, (givesBack_iff r _).2 (.inr ⟨rfl, g⟩), hl⟩
      · exact ⟨e, k, (givesBack_iff r k).2 (.inl hk), hl⟩
    · rintro ⟨e, k, hk, hl⟩
      rcases (givesBack_iff r k).1 hk with hk | ⟨rfl, g⟩
      · exact .inr ⟨e, k, hk, hl⟩
      · exact .inl ⟨e, g, hl⟩
  · refine List.nodup_append.mpr ⟨p2, d2 (closes_nodup _), fun x hx y hy => ?_⟩
    rintro rfl
    obtain ⟨-, -, hl⟩ := (p1 x).1 hx
    obtain ⟨-, k, hk, hl'⟩ := (d1 x).1 hy
    have := hl.kind hl'
    subst this
    exact closes_present _ hk
  · cases htag : r.tag with
    | leaf l =>
      simp only [htag, Res.ok.injEq] at h3
      subst h3
      have : ∀ c, ¬ EntryOf bo types rs id c := by
        rintro c ⟨t', r', e1, e2, -, h | h⟩
        · rw [hr] at e2; simp at e2; subst e2; rw [htag] at h; simp at h
        · rw [hr] at e2; simp at e2; subst e2; rw [htag] at h; simp at h
      exact ⟨fun x => by simp [this], fun c hc => absurd hc (this c), fun _ _ _ => by simp⟩
    | dict =>
      simp only [htag, Res.ok.injEq] at h3
      subst h3
      have : ∀ c, ¬ EntryOf bo types rs id c := by
        rintro c ⟨t', r', e1, e2, -, h | h⟩
        · rw [hr] at e2; simp at e2; subst e2; rw [htag] at h; simp at h
        · rw [hr] at e2; simp at e2; subst e2; rw [htag] at h; simp at h
      exact ⟨fun x => by simp [this], fun c hc => absurd hc (this c), fun _ _ _ => by simp⟩
    | list =>
      simp only [htag, Res.ok.injEq] at h3
      subst h3
      have : ∀ c, ¬ EntryOf bo types rs id c := by
        rintro c ⟨t', r', e1, e2, -, h | h⟩
        · rw [hr] at e2; simp at e2; subst e2; rw [htag] at h; simp at h
        · rw [hr] at e2; simp at e2; subst e2; rw [htag] at h; simp at h
      exact ⟨fun x => by simp [this], fun c hc => absurd hc (this c), fun _ _ _ => by simp⟩
    | struct =>
      simp only [htag] at h3
      have hent : ∀ c, EntryOf bo types rs id c ↔ c ∈ t.children.filter bo.isInclude := by
        intro c
        rw [List.mem_filter]
        constructor
        · rintro ⟨t', r', e1, e2, hinc, ⟨-, h⟩ | ⟨h, -⟩⟩
          · rw [ht] at e1; simp at e1; subst e1; exact ⟨h, hinc⟩
          · rw [hr] at e2; simp at e2; subst e2; rw [htag] at h; simp at h
        · rintro ⟨h, hinc⟩
          exact ⟨t, r, ht, hr, hinc, .inl ⟨htag, h⟩⟩
      obtain ⟨c1, c2, c3⟩ := closeChildren_ok _ _ h3
      refine ⟨fun x => by rw [c1]; simp only [hent], fun c hc => c2 c ((hent c).1 hc), fun hnd hn hdis => ?_⟩
      exact c3 (hnd.filter _) (fun c hc => hn c ((hent c).2 hc)) (fun c hc e he => hdis c e ((hent c).2 hc) ((hent e).2 he))
    | map =>
      simp only [htag, Res.bind_eq_ok, Res.ok.injEq] at h3
      obtain ⟨k, h4, v, h5, rfl⟩ := h3
      have hsome : ∀ {i : Nat} {y}, closeEntry (closeCol bo types rs n) (includedChild bo t.children i) = .ok y →
          ∃ c, t.children[i]? = some c ∧ bo.isInclude c = true ∧ closeCol bo types rs n c = .ok y := by
        intro i y hy
        cases hc : includedChild bo t.children i with
        | none => simp [hc, closeEntry] at hy
        | some c =>
          rw [hc, closeEntry] at hy
          exact ⟨c, (includedChild_iff.1 hc).1, (includedChild_iff.1 hc).2, hy⟩
      obtain ⟨a, a1, a2, a3⟩ := hsome h4
      obtain ⟨b, b1, b2, b3⟩ := hsome h5
      have hent : ∀ c, EntryOf bo types rs id c ↔ c = a ∨ c = b := by
        intro c
        constructor
        · rintro ⟨t', r', e1, e2, hinc, ⟨h, -⟩ | ⟨-, h⟩⟩
          · rw [hr] at e2; simp at e2; subst e2; rw [htag] at h; simp at h
          · rw [ht] at e1; simp at e1; subst e1
            rcases h with h | h
            · left; rw [a1] at h; simpa using h.symm
            · right; rw [b1] at h; simpa using h.symm
        · rintro (rfl | rfl)
          · exact ⟨t, r, ht, hr, a2, .inr ⟨htag, .inl a1⟩⟩
          · exact ⟨t, r, ht, hr, b2, .inr ⟨htag, .inr b1⟩⟩
      refine ⟨fun x => ?_, fun c hc => ?_, fun hnd hn hdis => ?_⟩
      · rw [List.mem_append]
        constructor
        · rintro (hx | hx)
          · exact ⟨a, (hent a).2 (.inl rfl), k, a3, hx⟩
          · exact ⟨b, (hent b).2 (.inr rfl), v, b3, hx⟩
        · rintro ⟨c, hc, y, hy, hx⟩
          rcases (hent c).1 hc with rfl | rfl
          · rw [a3] at hy; simp at hy; subst hy; exact .inl hx
          · rw [b3] at hy; simp at hy; subst hy; exact .inr hx
      · rcases (hent c).1 hc with rfl | rfl
        · exact ⟨k, a3⟩
        · exact ⟨v, b3⟩
      · refine List.nodup_append.mpr ⟨hn a ((hent a).2 (.inl rfl)) k a3, hn b ((hent b).2 (.inr rfl)) v b3, fun x hx y hy => ?_⟩
        rintro rfl
        have hne : a ≠ b := by
          rintro rfl
          match hl : t.children with
          | [] => simp [hl] at a1
          | [_] => simp [hl] at b1
          | x :: y :: l =>
            simp only [hl, List.getElem?_cons_zero, Option.some.injEq] at a1
            simp only [hl, List.getElem?_cons_succ, List.getElem?_cons_zero, Option.some.injEq] at b1
            rw [hl, a1, b1] at hnd
            simp at hnd
        exact hdis a b ((hent a).2 (.inl rfl)) ((hent b).2 (.inr rfl)) hne k v a3 b3 x hx hy

theorem Inside.trans {a b c : Nat} (h : Inside bo types rs a b) (g : Inside bo types rs b c) : Inside bo types rs a c := by
  induction g with
  | self => exact h
  | entry _ e ih => exact .entry ih e

theorem Inside.head {a b c : Nat} (e : EntryOf bo types rs a b) (g : Inside bo types rs b c) : Inside bo types rs a c :=
  (Inside.entry .self e).trans g

theorem Inside.cases_head {a c : Nat} (g : Inside bo types rs a c) : a = c ∨ ∃ b, EntryOf bo types rs a b ∧ Inside bo types rs b c := by
  induction g with
  | self => exact .inl rfl
  | entry h e ih =>
    right
    rcases ih with rfl | ⟨b, hb, hi⟩
    · exact ⟨_, e, .self⟩
    · exact ⟨b, hb, .entry hi e⟩

/-- Exactly which handles `Close` of a column closes. -/
theorem closeCol_exact : ∀ (n id : Nat) (hs : List (Nat × Nat)), closeCol bo types rs n id = .ok hs → ∀ x,
    x ∈ hs ↔ Inside bo types rs id x.1 ∧ ∃ r k, rs[x.1]? = some (some r) ∧ GivesBack r k ∧ LastOfKind (r.streams.map (·.1)) x.2 k := by
  intro n
  induction n with
  | zero => intro id hs h; simp [closeCol] at h
  | succ n ih =>
    intro id hs h x
    obtain ⟨t, r, own, sub, -, hr, rfl, ho, -, hsub, hex, -⟩ := closeCol_ok h
    rw [List.mem_append, ho, hsub]
    constructor
    · rintro (⟨e, k, hk, hl⟩ | ⟨c, hc, y, hy, hx⟩)
      · exact ⟨e ▸ .self, r, k, e ▸ hr, hk, hl⟩
      · obtain ⟨h1, h2⟩ := (ih c y hy x).1 hx
        exact ⟨.head hc h1, h2⟩
    · rintro ⟨hin, r', k, h1, h2, h3⟩
      rcases hin.cases_head with e | ⟨c, hc, hi⟩
      · left
        rw [← e, hr] at h1
        simp only [Option.some.injEq] at h1
        subst h1
        exact ⟨e.symm, k, h2, h3⟩
      · right
        obtain ⟨y, hy⟩ := hex c hc
        exact ⟨c, hc, y, hy, (ih c y hy x).2 ⟨hi, r', k, h1, h2, h3⟩⟩

theorem EntryOf.child {p c : Nat} (h : EntryOf bo types rs p c) : ∃ t, types[p]? = some t ∧ c ∈ t.children := by
  obtain ⟨t, r, ht, -, -, ⟨-, h⟩ | ⟨-, h | h⟩⟩ := h
  · exact ⟨t, ht, h⟩
  · exact ⟨t, ht, List.mem_of_getElem? h⟩
  · exact ⟨t, ht, List.mem_of_getElem? h⟩

theorem EntryOf.lt (tree : TypesTree types) {p c : Nat} (h : EntryOf bo types rs p c) : p < c := by
  obtain ⟨t, ht, hc⟩ := h.child
  exact tree.grows p t ht c hc

theorem Inside.le (tree : TypesTree types) {a c : Nat} (h : Inside bo types rs a c) : a ≤ c := by
  induction h with
  | self => exact Nat.le_refl _
  | entry _ e ih => exact Nat.le_of_lt (Nat.lt_of_le_of_lt ih (e.lt tree))

/-- Of two columns a third is inside of, one is inside of the other. -/
theorem Inside.comparable (tree : TypesTree types) {a b c : Nat} (h : Inside bo types rs a c) (g : Inside bo types rs b c) :
    Inside bo types rs a b ∨ Inside bo types rs b a := by
  induction h with
  | self => exact .inr g
  | @entry p c h e ih =>
    cases g with
    | self => exact .inl (.entry h e)
    | @entry q _ g e' =>
      obtain ⟨t, ht, hc⟩ := e.child
      obtain ⟨u, hu, hc'⟩ := e'.child
      have := tree.parent p q t u ht hu c hc hc'
      subst this
      exact ih g

/-- Two entries of one column have nothing in common. -/
theorem entries_apart (tree : TypesTree types) {p a b c : Nat} (ha : EntryOf bo types rs p a) (hb : EntryOf bo types rs p b) (hne : a ≠ b)
    (h : Inside bo types rs a c) (g : Inside bo types rs b c) : False := by
  have key : ∀ a b, EntryOf bo types rs p a → EntryOf bo types rs p b → a ≠ b → ¬ Inside bo types rs a b := by
    intro a b ha hb hne h
    cases h with
    | self => exact hne rfl
    | @entry q _ h e =>
      obtain ⟨t, ht, hc⟩ := hb.child
      obtain ⟨u, hu, hc'⟩ := e.child
      have := tree.parent p q t u ht hu b hc hc'
      subst this
      have h1 := h.le tree
      have h2 := ha.lt tree
      omega
  rcases h.comparable tree g with h | h
  · exact key a b ha hb hne h
  · exact key b a hb ha (fun e => hne e.symm) h

/-- No handle is closed twice. -/
theorem closeCol_once (tree : TypesTree types) : ∀ (n id : Nat) (hs : List (Nat × Nat)), closeCol bo types rs n id = .ok hs → hs.Nodup := by
  intro n
  induction n with
  | zero => intro id hs h; simp [closeCol] at h
  | succ n ih =>
    intro id hs h
    obtain ⟨t, r, own, sub, ht, hr, rfl, ho, hond, hsub, hex, hsnd⟩ := closeCol_ok h
    refine List.nodup_append.mpr ⟨hond, hsnd (tree.once id t ht) (fun c _ y hy => ih c y hy) (fun c d hc hd hne y z hy hz x hx hx' => ?_), fun x hx y hy => ?_⟩
    · exact entries_apart tree hc hd hne ((closeCol_exact n c y hy x).1 hx).1 ((closeCol_exact n d z hz x).1 hx').1
    · rintro rfl
      obtain ⟨e, -⟩ := (ho x).1 hx
      obtain ⟨c, hc, y, hy, hxy⟩ := (hsub x).1 hy
      have h1 := ((closeCol_exact n c y hy x).1 hxy).1.le tree
      have h2 := hc.lt tree
      omega

/-- `Close` succeeds if no stream it uses is missing. -/
theorem closeCol_succeeds (tree : TypesTree types)
    (hrd : ∀ (id : Nat) r, rs[id]? = some (some r) → (∀ k ∈ r.tag.closes, k ∈ r.streams.map (·.1)) ∧
      (r.tag = .leaf .string → r.hasNulls = true → .present ∈ r.streams.map (·.1)) ∧
      (r.tag = .map → ∀ t, types[id]? = some t → (∃ c, t.children[0]? = some c ∧ bo.isInclude c = true) ∧ (∃ c, t.children[1]? = some c ∧ bo.isInclude c = true)))
    (hall : ∀ (id : Nat) t, types[id]? = some t → bo.isInclude id = true → ∃ r, rs[id]? = some (some r))
    (hkids : ∀ (id : Nat) t, types[id]? = some t → ∀ c ∈ t.children, ∃ u, types[c]? = some u) :
    ∀ (n id : Nat), types.length ≤ n + id → bo.isInclude id = true → (∃ t, types[id]? = some t) →
      ∃ hs, closeCol bo types rs n id = .ok hs := by
  intro n
  induction n with
  | zero =>
    rintro id hn hinc ⟨t, ht⟩
    have := (List.getElem?_eq_some_iff.1 ht).1
    omega
  | succ n ih =>
    rintro id hn hinc ⟨t, ht⟩
    obtain ⟨r, hr⟩ := hall id t ht hinc
    obtain ⟨g1, g2, g3⟩ := hrd id r hr
    have hstream : ∀ k, k ∈ r.streams.map (·.1) → ∃ x, closeStream id r k = .ok x := by
      intro k hk
      obtain ⟨i, hi⟩ := lastPos_some_of_mem hk
      exact ⟨[(id, i)], by simp [closeStream, hi]⟩
    have hp : ∃ p, closePresent id r = .ok p := by
      simp only [closePresent]
      split
      · rename_i hs
        split
        · rename_i hn
          exact hstream _ (g2 hs hn)
        · exact ⟨_, rfl⟩
      · split <;> exact ⟨_, rfl⟩
    have hd : ∀ ks : List StreamKind, (∀ k ∈ ks, k ∈ r.streams.map (·.1)) → ∃ d, closeStreams id r ks = .ok d := by
      intro ks
      induction ks with
      | nil => exact fun _ => ⟨[], rfl⟩
      | cons k ks ihk =>
        intro h
        obtain ⟨a, ha⟩ := hstream k (h k (by simp))
        obtain ⟨b, hb⟩ := ihk fun l hl => h l (by simp [hl])
        exact ⟨a ++ b, by simp [closeStreams, ha, hb]⟩
    have hcs : ∀ c ∈ t.children, bo.isInclude c = true → ∃ hs, closeCol bo types rs n c = .ok hs := by
      intro c hc hinc'
      have := tree.grows id t ht c hc
      exact ih c (by omega) hinc' (hkids id t ht c hc)
    have hch : ∀ cs : List Nat, (∀ c ∈ cs, c ∈ t.children ∧ bo.isInclude c = true) → ∃ hs, closeChildren (closeCol bo types rs n) cs = .ok hs := by
      intro cs
      induction cs with
      | nil => exact fun _ => ⟨[], rfl⟩
      | cons c cs ihc =>
        intro h
        obtain ⟨a, ha⟩ := hcs c (h c (by simp)).1 (h c (by simp)).2
        obtain ⟨b, hb⟩ := ihc fun d hd => h d (by simp [hd])
        exact ⟨a ++ b, by simp [closeChildren, ha, hb]⟩
    obtain ⟨p, hp⟩ := hp
    obtain ⟨d, hd⟩ := hd _ g1
    simp only [closeCol, ht, hr, hp, hd, Res.ok_bind, Res.pure_eq]
    cases htag : r.tag with
    | leaf l => exact ⟨_, rfl⟩
    | dict => exact ⟨_, rfl⟩
    | list => exact ⟨_, rfl⟩
    | struct =>
      obtain ⟨x, hx⟩ := hch (t.children.filter bo.isInclude) fun c hc => List.mem_filter.mp hc
      exact ⟨p ++ (d ++ x), by simp only [hx, Res.ok_bind]⟩
    | map =>
      obtain ⟨⟨a, a1, a2⟩, b, b1, b2⟩ := g3 htag t ht
      obtain ⟨x, hx⟩ := hcs a (List.mem_of_getElem? a1) a2
      obtain ⟨y, hy⟩ := hcs b (List.mem_of_getElem? b1) b2
      refine ⟨p ++ (d ++ (x ++ y)), by simp only [includedChild_iff.2 ⟨a1, a2⟩, includedChild_iff.2 ⟨b1, b2⟩, closeEntry, hx, hy, Res.ok_bind]⟩

end

end Goorc
