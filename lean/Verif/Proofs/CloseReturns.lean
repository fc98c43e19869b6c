import Verif.Proofs.Close
/-
When closing a batch reader returns.
-/
namespace Goorc

section
variable {bo : BatchOption} {types : List RdType} {rs : List (Option FlatRd)}

theorem closeStreams_needs {id : Nat} {r : FlatRd} : ∀ (ks : List StreamKind) (d : List (Nat × Nat)), closeStreams id r ks = .ok d → ∀ k ∈ ks, k ∈ r.streams.map (·.1) := by
  intro ks
  induction ks with
  | nil => intro d _ k hk; simp at hk
  | cons l ks ih =>
    intro d h k hk
    simp only [closeStreams, Res.bind_eq_ok] at h
    obtain ⟨x, hx, xs, hxs, -⟩ := h
    rcases List.mem_cons.1 hk with rfl | hk
    · obtain ⟨i, hi, -⟩ := closeStream_ok hx
      exact hi.mem
    · exact ih xs hxs k hk

theorem closeEntry_some {f : Nat → Res (List (Nat × Nat))} {c : Option Nat} {x : List (Nat × Nat)} (h : closeEntry f c = .ok x) : ∃ d, c = some d := by
  cases c with
  | none => simp [closeEntry] at h
  | some d => exact ⟨d, rfl⟩

/-- What `Close` has used is there. -/
theorem closeCol_needs : ∀ (n id : Nat) (hs : List (Nat × Nat)), closeCol bo types rs n id = .ok hs → ∀ c, Inside bo types rs id c →
    ∃ t r, types[c]? = some t ∧ rs[c]? = some (some r) ∧ CanClose bo t r := by
  intro n
  induction n with
  | zero => intro id hs h; simp [closeCol] at h
  | succ n ih =>
    intro id hs h c hc
    rcases hc.cases_head with rfl | ⟨b, hb, hbc⟩
    · clear ih hc
      simp only [closeCol] at h
      split at h
      rotate_left
      · simp at h
      rename_i t r ht hr
      simp only [Res.bind_eq_ok, Res.pure_eq] at h
      obtain ⟨p, h1, d, h2, sub, h3, -⟩ := h
      refine ⟨t, r, ht, hr, fun k hk hp => ?_, fun hm => ?_⟩
      · rcases (givesBack_iff r k).1 hk with hk | ⟨rfl, g⟩
        · exact closeStreams_needs _ _ h2 k hk
        · have hs := hp rfl
          simp only [closePresent, if_pos hs, if_pos (g hs)] at h1
          obtain ⟨i, hi, -⟩ := closeStream_ok h1
          exact hi.mem
      · rw [hm] at h3
        simp only [Res.bind_eq_ok] at h3
        obtain ⟨x, hx, y, hy, -⟩ := h3
        obtain ⟨a, ha⟩ := closeEntry_some hx
        obtain ⟨b, hb⟩ := closeEntry_some hy
        exact ⟨⟨a, includedChild_iff.1 ha⟩, b, includedChild_iff.1 hb⟩
    · obtain ⟨_, _, _, _, _, _, _, _, _, _, hkids, _⟩ := closeCol_ok h
      obtain ⟨y, hy⟩ := hkids b hb
      exact ih b y hy c hbc

/-- And if it is there, `Close` returns. -/
theorem closeCol_returns (tree : TypesTree types) : ∀ (n id : Nat), types.length ≤ n + id →
    (∀ c, Inside bo types rs id c → ∃ t r, types[c]? = some t ∧ rs[c]? = some (some r) ∧ CanClose bo t r) → ∃ hs, closeCol bo types rs n id = .ok hs := by
  intro n
  induction n with
  | zero =>
    intro id hn hall
    obtain ⟨t, -, ht, -⟩ := hall id .self
    have := (List.getElem?_eq_some_iff.1 ht).1
    omega
  | succ n ih =>
    intro id hn hall
    obtain ⟨t, r, ht, hr, g1, g3⟩ := hall id .self
    have hstream : ∀ k, k ∈ r.streams.map (·.1) → ∃ x, closeStream id r k = .ok x := by
      intro k hk
      obtain ⟨i, hi⟩ := lastPos_some_of_mem hk
      exact ⟨[(id, i)], by simp [closeStream, hi]⟩
    have hp : ∃ p, closePresent id r = .ok p := by
      simp only [closePresent]
      split
      · rename_i hs
        split
        · rename_i hn
          exact hstream _ (g1 _ ((givesBack_iff r _).2 (.inr ⟨rfl, fun _ => hn⟩)) fun _ => hs)
        · exact ⟨_, rfl⟩
      · split <;> exact ⟨_, rfl⟩
    have hd : ∀ ks : List StreamKind, (∀ k ∈ ks, k ∈ r.streams.map (·.1)) → ∃ d, closeStreams id r ks = .ok d := by
      intro ks
      induction ks with
      | nil => exact fun _ => ⟨[], rfl⟩
      | cons k ks ihk =>
        intro h
        obtain ⟨a, ha⟩ := hstream k (h k (by simp))
        obtain ⟨b, hb⟩ := ihk fun l hl => h l (by simp [hl])
        exact ⟨a ++ b, by simp [closeStreams, ha, hb]⟩
    have hcs : ∀ c, EntryOf bo types rs id c → ∃ hs, closeCol bo types rs n c = .ok hs := by
      intro c hc
      have := hc.lt tree
      exact ih c (by omega) fun d hd => hall d (Inside.head hc hd)
    have hch : ∀ cs : List Nat, (∀ c ∈ cs, EntryOf bo types rs id c) → ∃ hs, closeChildren (closeCol bo types rs n) cs = .ok hs := by
      intro cs
      induction cs with
      | nil => exact fun _ => ⟨[], rfl⟩
      | cons c cs ihc =>
        intro h
        obtain ⟨a, ha⟩ := hcs c (h c (by simp))
        obtain ⟨b, hb⟩ := ihc fun d hd => h d (by simp [hd])
        exact ⟨a ++ b, by simp [closeChildren, ha, hb]⟩
    obtain ⟨p, hp⟩ := hp
    obtain ⟨d, hd⟩ := hd _ fun k hk => g1 k ((givesBack_iff r k).2 (.inl hk)) fun e => absurd (e ▸ hk) (closes_present _)
    simp only [closeCol, ht, hr, hp, hd, Res.ok_bind, Res.pure_eq]
    cases htag : r.tag with
    | leaf l => exact ⟨_, rfl⟩
    | dict => exact ⟨_, rfl⟩
    | list => exact ⟨_, rfl⟩
    | struct =>
      obtain ⟨x, hx⟩ := hch (t.children.filter bo.isInclude) fun c hc => by
        obtain ⟨a, b⟩ := List.mem_filter.mp hc
        exact ⟨t, r, ht, hr, b, .inl ⟨htag, a⟩⟩
      exact ⟨p ++ (d ++ x), by simp only [hx, Res.ok_bind]⟩
    | map =>
      obtain ⟨⟨a, a1, a2⟩, b, b1, b2⟩ := g3 htag
      obtain ⟨x, hx⟩ := hcs a ⟨t, r, ht, hr, a2, .inr ⟨htag, .inl a1⟩⟩
      obtain ⟨y, hy⟩ := hcs b ⟨t, r, ht, hr, b2, .inr ⟨htag, .inr b1⟩⟩
      refine ⟨p ++ (d ++ (x ++ y)), by simp only [includedChild_iff.2 ⟨a1, a2⟩, includedChild_iff.2 ⟨b1, b2⟩, closeEntry, hx, hy, Res.ok_bind]⟩

/-- A call returns or panics. -/
def OkOrPanic {α : Type} (x : Res α) : Prop := (∃ a, x = .ok a) ∨ x = .panic

theorem OkOrPanic.bind {α β : Type} {x : Res α} {f : α → Res β} (h : OkOrPanic x) (g : ∀ a, OkOrPanic (f a)) : OkOrPanic (x >>= f) := by
  rcases h with ⟨a, rfl⟩ | rfl
  · exact g a
  · exact .inr rfl

theorem OkOrPanic.pure {α : Type} (a : α) : OkOrPanic (Pure.pure a : Res α) := .inl ⟨a, rfl⟩

theorem closeStream_outcome (id : Nat) (r : FlatRd) (k : StreamKind) : OkOrPanic (closeStream id r k) := by
  simp only [closeStream]
  split
  · exact .inr rfl
  · exact .inl ⟨_, rfl⟩

theorem closeStreams_outcome (id : Nat) (r : FlatRd) : ∀ ks : List StreamKind, OkOrPanic (closeStreams id r ks) := by
  intro ks
  induction ks with
  | nil => exact .inl ⟨_, rfl⟩
  | cons k ks ih => exact (closeStream_outcome id r k).bind fun x => ih.bind fun xs => .pure _

theorem closePresent_outcome (id : Nat) (r : FlatRd) : OkOrPanic (closePresent id r) := by
  simp only [closePresent]
  split
  · split
    · exact closeStream_outcome _ _ _
    · exact .inl ⟨_, rfl⟩
  · split <;> exact .inl ⟨_, rfl⟩

/-- `Close` of a column ends. -/
theorem closeCol_outcome (tree : TypesTree types) (hkids : ∀ (id : Nat) t, types[id]? = some t → ∀ c ∈ t.children, ∃ u, types[c]? = some u) :
    ∀ (n id : Nat), types.length ≤ n + id → (∃ t, types[id]? = some t) → OkOrPanic (closeCol bo types rs n id) := by
  intro n
  induction n with
  | zero =>
    rintro id hn ⟨t, ht⟩
    have := (List.getElem?_eq_some_iff.1 ht).1
    omega
  | succ n ih =>
    rintro id hn ⟨t, ht⟩
    have hcs : ∀ c ∈ t.children, OkOrPanic (closeCol bo types rs n c) := fun c hc => by
      have := tree.grows id t ht c hc
      exact ih c (by omega) (hkids id t ht c hc)
    have hent : ∀ i, OkOrPanic (closeEntry (closeCol bo types rs n) (includedChild bo t.children i)) := by
      intro i
      cases h : includedChild bo t.children i with
      | none => exact .inr rfl
      | some c => exact hcs c (List.mem_of_getElem? (includedChild_iff.1 h).1)
    simp only [closeCol, ht]
    split
    · rename_i t' r e1 e2
      simp only [Option.some.injEq] at e1
      subst e1
      refine (closePresent_outcome id r).bind fun p => (closeStreams_outcome id r _).bind fun d => OkOrPanic.bind ?_ fun c => .pure _
      split
      · have hch : ∀ cs : List Nat, (∀ c ∈ cs, c ∈ t.children) → OkOrPanic (closeChildren (closeCol bo types rs n) cs) := by
          intro cs
          induction cs with
          | nil => exact fun _ => .inl ⟨_, rfl⟩
          | cons c cs ihc => exact fun h => (hcs c (h c (by simp))).bind fun x => (ihc fun d hd => h d (by simp [hd])).bind fun xs => .pure _
        exact hch _ fun c hc => (List.mem_filter.1 hc).1
      · exact (hent 0).bind fun k => (hent 1).bind fun v => .pure _
      · exact .pure _
    · exact .inr rfl

end

end Goorc
