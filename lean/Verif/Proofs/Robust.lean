import Verif.Spec.Robust
import Verif.Proofs.ColSeek
import Verif.Props.EncIntDec
/-
Reading arbitrary bytes: nothing below the columns panics or goes on for ever, except for the cases named.
-/
namespace Goorc

/-- Outcomes: what is returned satisfies `P`; an error is fine, a panic only if `crash`, and going on for ever never. -/
def Res.Sat {α : Type} (crash : Bool) (r : Res α) (P : α → Prop) : Prop :=
  match r with
  | .ok a => P a
  | .err _ => True
  | .panic => crash = true
  | .hang => False

namespace Res.Sat

variable {α β : Type} {crash : Bool} {P : α → Prop} {Q : β → Prop}

theorem bind {x : Res α} {f : α → Res β} (h : x.Sat crash P) (hf : ∀ a, x = .ok a → P a → (f a).Sat crash Q) : (x >>= f).Sat crash Q := by
  cases x with
  | ok a => exact hf a rfl h
  | err e => trivial
  | panic => exact h
  | hang => exact h

theorem mono {x : Res α} {P' : α → Prop} (h : x.Sat crash P) (hp : ∀ a, P a → P' a) : x.Sat crash P' := by
  cases x with
  | ok a => exact hp a h
  | err e => trivial
  | panic => exact h
  | hang => exact h

theorem weaken {x : Res α} (h : x.Sat false P) : x.Sat crash P := by
  cases x with
  | ok a => exact h
  | err e => trivial
  | panic => cases h
  | hang => exact h

theorem orderly {x : Res α} (h : x.Sat false P) : x.Orderly := by
  cases x with
  | ok a => exact ⟨nofun, nofun⟩
  | err e => exact ⟨nofun, nofun⟩
  | panic => cases h
  | hang => cases h

theorem not_hang {x : Res α} (h : x.Sat crash P) : x ≠ .hang := by
  rintro rfl; exact h

end Res.Sat

/-! ### Streams -/

theorem StreamReader.Sane.same {r r' : StreamReader} (h : r.Sane) (hs : r.Same r') : r'.Sane := by
  intro hk
  rw [hs.1] at hk
  rw [hs.2.1]; exact h hk

theorem take_sat (r : StreamReader) (n : Nat) : (r.take n).Sat false fun p => p.2.readLength = r.readLength ∧ p.2.length = r.length ∧ p.1.length = n := by
  rw [StreamReader.take]
  split
  · trivial
  · refine ⟨rfl, rfl, ?_⟩
    simp only [List.length_take]; omega

theorem decompress_sat (c : Codec) (kind : CompKind) (bs : Bytes) : (decompress c kind bs).Sat false fun _ => True := by
  cases kind with
  | zlib =>
    simp only [decompress]
    cases c.decomp bs <;> trivial
  | none => trivial
  | other => trivial

theorem readAChunk_sat (c : Codec) (r : StreamReader) (h : r.Sane) (hl : r.readLength < r.length) :
    (r.readAChunk c).Sat false fun r' => r.readLength < r'.readLength ∧ r'.length = r.length := by
  rw [StreamReader.readAChunk]
  split
  · rename_i hk
    have := h hk
    refine (take_sat r _).bind fun p _ hp => ?_
    refine ⟨?_, hp.2.1⟩
    simp only [hp.1, if_pos (Nat.le_of_lt hl)]
    split <;> omega
  · refine (take_sat r 3).bind fun p _ hp => ?_
    simp only
    split
    · trivial
    · refine (take_sat _ _).bind fun q _ hq => ?_
      have hp2 := hp.2.1
      have hp1 := hp.1
      have hq1 := hq.1
      have hq2 := hq.2.1
      split
      · show _ < q.2.readLength + _ ∧ q.2.length = _
        rw [hq1, hq2]; simp only; omega
      · refine (decompress_sat c _ _).bind fun piece _ _ => ?_
        show _ < q.2.readLength + _ ∧ q.2.length = _
        rw [hq1, hq2]; simp only; omega

/-- Without any condition: reading a chunk is orderly. -/
theorem readAChunk_orderly (c : Codec) (r : StreamReader) : (r.readAChunk c).Sat false fun r' => r.Same r' := by
  have key : (r.readAChunk c).Sat false fun _ => True := by
    rw [StreamReader.readAChunk]
    split
    · exact (take_sat r _).bind fun p _ hp => trivial
    · refine (take_sat r 3).bind fun p _ hp => ?_
      simp only
      split
      · trivial
      · refine (take_sat _ _).bind fun q _ hq => ?_
        split
        · trivial
        · exact (decompress_sat c _ _).bind fun piece _ _ => trivial
  cases h : r.readAChunk c with
  | ok r' => exact StreamReader.readAChunk_same h
  | err e => trivial
  | panic => rw [h] at key; cases key
  | hang => rw [h] at key; cases key

theorem readByte_sat (c : Codec) (r : StreamReader) : (r.readByte c).Sat false fun p => r.Same p.2 := by
  have key : (r.readByte c).Sat false fun _ => True := by
    rw [StreamReader.readByte]
    split
    · trivial
    · split
      · trivial
      · refine (readAChunk_orderly c r).bind fun r' _ _ => ?_
        split <;> trivial
  cases h : r.readByte c with
  | ok p => exact StreamReader.readByte_same h
  | err e => trivial
  | panic => rw [h] at key; cases key
  | hang => rw [h] at key; cases key

theorem fill_sat (c : Codec) (n : Nat) (fuel : Nat) (r : StreamReader) (h : r.Sane) (hf : r.length - r.readLength ≤ fuel) :
    (r.fill c n fuel).Sat false fun _ => True := by
  induction fuel generalizing r with
  | zero =>
    rw [StreamReader.fill, if_neg (by omega)]
    trivial
  | succ fuel ih =>
    rw [StreamReader.fill]
    split
    · rename_i hh
      refine (readAChunk_sat c r h hh.2).bind fun r' hr hp => ih r' (h.same (StreamReader.readAChunk_same hr)) ?_
      omega
    · trivial

theorem readFull_sat (c : Codec) (n : Nat) (r : StreamReader) (h : r.Sane) :
    (r.readFull c n).Sat false fun p => r.Same p.2 ∧ p.1.length = n := by
  have key : (r.readFull c n).Sat false fun p => p.1.length = n := by
    rw [StreamReader.readFull]
    split
    · rename_i h0; exact h0.symm
    · split
      · show (List.take _ _).length = _
        simp only [List.length_take]; omega
      · split
        · trivial
        · refine (fill_sat c n _ r h (Nat.le_refl _)).bind fun r' _ _ => ?_
          split
          · show (List.take _ _).length = _
            simp only [List.length_take]; omega
          · split <;> trivial
  cases hh : r.readFull c n with
  | ok p => exact ⟨StreamReader.readFull_same hh, by rw [hh] at key; exact key⟩
  | err e => trivial
  | panic => rw [hh] at key; cases key
  | hang => rw [hh] at key; cases key

theorem seek_sat (c : Codec) (r : StreamReader) (chunk off : Nat) : (r.seek c chunk off).Sat false fun r' => r.Same r' := by
  rw [StreamReader.seek]
  refine (readAChunk_orderly c _).bind fun r' _ hs => ?_
  exact hs

/-! ### Decoders -/

/-- The decoder never reaches a panic if not `crash`, and what it returns satisfies `P`. -/
def Dec.Sat {α : Type} (crash : Bool) (P : α → Prop) : Dec α → Prop
  | .ret a => P a
  | .fail _ => True
  | .crash => crash = true
  | .readByte k => ∀ b, Dec.Sat crash P (k b)
  | .readFull n k => ∀ bs : Bytes, bs.length = n → Dec.Sat crash P (k bs)

theorem Dec.sat_of_safe {α : Type} {P : α → Prop} (d : Dec α) (h : Safe d P) : d.Sat false P := by
  induction d with
  | ret a =>
    rcases h [] with ⟨e, he⟩ | ⟨v, rest, he, hp⟩
    · cases he
    · simp only [Dec.runBuf_ret, Res.ok.injEq, Prod.mk.injEq] at he
      rw [he.1]; exact hp
  | fail e => trivial
  | crash =>
    rcases h [] with ⟨e, he⟩ | ⟨v, rest, he, hp⟩ <;> cases he
  | readByte k ih => exact fun b => ih b fun s => h (b :: s)
  | readFull n k ih =>
    intro bs hb
    apply ih bs
    intro s
    have := h (bs ++ s)
    simp only [Dec.runBuf] at this
    rw [if_pos (by rw [List.length_append]; omega)] at this
    subst hb
    rwa [List.take_left, List.drop_left] at this

theorem Dec.sat_bind {α β : Type} {crash : Bool} {P : α → Prop} {Q : β → Prop} {d : Dec α} {f : α → Dec β} (h : d.Sat crash P)
    (hf : ∀ a, P a → (f a).Sat crash Q) : (d >>= f).Sat crash Q := by
  show (Dec.bind d f).Sat crash Q
  induction d with
  | ret a => exact hf a h
  | fail e => trivial
  | crash => exact h
  | readByte k ih => exact fun b => ih b (h b)
  | readFull n k ih => exact fun bs hb => ih bs (h bs hb)

theorem Dec.sat_mono {α : Type} {crash : Bool} {P Q : α → Prop} {d : Dec α} (h : d.Sat false P) (hp : ∀ a, P a → Q a) : d.Sat crash Q := by
  induction d with
  | ret a => exact hp a h
  | fail e => trivial
  | crash => cases h
  | readByte k ih => exact fun b => ih b (h b)
  | readFull n k ih => exact fun bs hb => ih bs (h bs hb)

theorem Dec.sat_crash {α : Type} (d : Dec α) : d.Sat true fun _ => True := by
  induction d with
  | ret a => trivial
  | fail e => trivial
  | crash => rfl
  | readByte k ih => exact fun b => ih b
  | readFull n k ih => exact fun bs _ => ih bs

theorem Dec.sat_run {α : Type} {crash : Bool} {P : α → Prop} (c : Codec) {d : Dec α} (h : d.Sat crash P) (r : StreamReader) (hr : r.Sane) :
    (d.runStream c r).Sat crash fun p => P p.1 ∧ r.Same p.2 := by
  induction d generalizing r with
  | ret a => exact ⟨h, StreamReader.Same.refl r⟩
  | fail e => trivial
  | crash => exact h
  | readByte k ih =>
    rw [Dec.runStream]
    exact (readByte_sat c r).weaken.bind fun p _ hp => (ih p.1 (h p.1) p.2 (hr.same hp)).mono fun q hq => ⟨hq.1, hp.trans hq.2⟩
  | readFull n k ih =>
    rw [Dec.runStream]
    exact (readFull_sat c n r hr).weaken.bind fun p _ hp => (ih p.1 (h p.1 hp.2) p.2 (hr.same hp.1)).mono fun q hq => ⟨hq.1, hp.1.trans hq.2⟩

/-- The decoders that never panic. -/
theorem decodeByteRL_sat : decodeByteRL.Sat false fun vs => vs ≠ [] := by
  have hn : ∀ n, (readBytesN n).Sat false fun vs => vs.length = n := by
    intro n
    induction n with
    | zero => exact rfl
    | succ n ih =>
      rw [readBytesN]
      exact Dec.sat_bind (P := fun _ => True) (fun _ => trivial) fun b _ => Dec.sat_bind ih fun vs hv => by
        show (b :: vs).length = _
        simp [hv]
  intro b
  show (Dec.bind (Dec.ret b) _).Sat _ _
  simp only [Dec.bind]
  split
  · intro v
    show List.replicate (b.toNat + minRepeats) v ≠ []
    simp [minRepeats]
  · rename_i hb
    refine Dec.sat_mono (hn _) fun vs hv h0 => ?_
    rw [h0] at hv
    have hb' : ∀ b : Byte, ¬ b.toNat < 0x80 → (-b.toInt).toNat ≠ 0 := by decide +kernel
    exact hb' b hb hv.symm

theorem decodeUInt_sat : (decodeUInt false).Sat false fun vs => vs ≠ [] := by
  refine Dec.sat_mono (P := RunLength) (Dec.sat_of_safe _ fun s => ?_) fun vs hv h0 => by rw [h0] at hv; exact absurd hv.1 (by simp)
  rcases int_decode_total_partial false s (by simp) with h | ⟨vs, used, rest, h1, -, -, h3, h4⟩
  · exact .inl h
  · exact .inr ⟨vs, rest, h1, h3, h4⟩

theorem decodeVarInt64_sat : decodeVarInt64.Sat false fun _ => True := Dec.sat_of_safe _ safe_readVarint

theorem decodeFloat_sat : decodeFloat.Sat false fun _ => True := by
  intro bs hb
  match bs, hb with
  | [a, b, c, d], _ => trivial

theorem decodeDouble_sat : decodeDouble.Sat false fun _ => True := by
  intro bs hb
  match bs, hb with
  | [a, b, c, d, e, f, g, h], _ => trivial

theorem decodeBytes_sat (n : Nat) : (decodeBytes n).Sat false fun _ => True := fun _ _ => trivial

/-! ### Typed readers -/

section
variable {crash : Bool} {c : Codec}

theorem block_next_sat {α : Type} {d : Dec (List α)} (hd : d.Sat crash fun vs => vs ≠ []) (r : BlockReader α) (hr : r.stream.Sane) :
    (r.next d c).Sat crash fun p => r.stream.Same p.2.stream := by
  rw [BlockReader.next]
  split
  · exact StreamReader.Same.refl _
  · refine (Dec.sat_run c hd r.stream hr).bind fun p _ hp => ?_
    obtain ⟨vs, s⟩ := p
    cases vs with
    | cons v vs => exact hp.2
    | nil => exact absurd rfl hp.1

theorem block_next_crash {α : Type} {d : Dec (List α)} (r : BlockReader α) (hr : r.stream.Sane) :
    (r.next d c).Sat true fun p => r.stream.Same p.2.stream := by
  rw [BlockReader.next]
  split
  · exact StreamReader.Same.refl _
  · refine (Dec.sat_run c (Dec.sat_crash d) r.stream hr).bind fun p _ hp => ?_
    obtain ⟨vs, s⟩ := p
    cases vs with
    | cons v vs => exact hp.2
    | nil => exact rfl

/-- A loop of calls that keep the invariant. -/
theorem block_skip_sat {α : Type} {d : Dec (List α)}
    (hn : ∀ r : BlockReader α, r.stream.Sane → (r.next d c).Sat crash fun p => r.stream.Same p.2.stream) (n : Nat) (r : BlockReader α) (hr : r.stream.Sane) :
    (BlockReader.skip d c n r).Sat crash fun r' => r'.stream.Sane := by
  induction n generalizing r with
  | zero => exact hr
  | succ n ih =>
    rw [BlockReader.skip]
    exact (hn r hr).bind fun p _ hp => ih p.2 (hr.same hp)

theorem block_seek_sat {α : Type} {d : Dec (List α)}
    (hn : ∀ r : BlockReader α, r.stream.Sane → (r.next d c).Sat crash fun p => r.stream.Same p.2.stream) (a b n : Nat) (r : BlockReader α)
    (hr : r.stream.Sane) : (r.seek d c a b n).Sat crash fun r' => r'.stream.Sane := by
  rw [BlockReader.seek]
  exact (seek_sat c r.stream a b).weaken.bind fun s _ hs => block_skip_sat hn n ⟨s, []⟩ (hr.same hs)

theorem bool_next_sat (r : BoolReader) (hr : r.reader.stream.Sane) : (r.next c).Sat false fun p => p.2.reader.stream.Sane := by
  rw [BoolReader.next]
  split
  · exact hr
  · refine (block_next_sat decodeByteRL_sat r.reader hr).bind fun p _ hp => ?_
    obtain ⟨b, br⟩ := p
    simp only
    split
    · exact hr.same hp
    · rename_i h0
      exact absurd (congrArg List.length h0) (by simp [boolsOfByte])

theorem bool_skip_sat (n : Nat) (r : BoolReader) (hr : r.reader.stream.Sane) : (BoolReader.skip c n r).Sat false fun r' => r'.reader.stream.Sane := by
  induction n generalizing r with
  | zero => exact hr
  | succ n ih =>
    rw [BoolReader.skip]
    exact (bool_next_sat r hr).bind fun p _ hp => ih p.2 hp

theorem bool_seek_sat (a b n m : Nat) (r : BoolReader) (hr : r.reader.stream.Sane) : (r.seek c a b n m).Sat false fun r' => r'.reader.stream.Sane := by
  rw [BoolReader.seek]
  exact (block_seek_sat (fun r hr => block_next_sat decodeByteRL_sat r hr) a b n r.reader hr).bind fun br _ hs => bool_skip_sat m ⟨br, []⟩ hs

theorem uint_next_sat (r : IntReader) (hr : r.block.stream.Sane) : (r.nextUInt64 c).Sat false fun p => p.2.block.stream.Sane := by
  rw [IntReader.nextUInt64]
  split
  · trivial
  · rename_i hs
    have hs : r.signed = false := by simpa using hs
    split
    · exact hr
    · rw [hs]
      refine (Dec.sat_run c decodeUInt_sat r.block.stream hr).bind fun p _ hp => ?_
      obtain ⟨vs, s⟩ := p
      cases vs with
      | cons v vs => exact hr.same hp.2
      | nil => trivial

theorem int_next_crash (r : IntReader) (hr : r.block.stream.Sane) : (r.nextInt64 c).Sat true fun p => p.2.block.stream.Sane := by
  rw [IntReader.nextInt64]
  split
  · trivial
  · exact (block_next_crash r.block hr).bind fun p _ hp => hr.same hp

theorem int_skip_crash (n : Nat) (r : IntReader) (hr : r.block.stream.Sane) : (IntReader.skip c n r).Sat true fun r' => r'.block.stream.Sane := by
  induction n generalizing r with
  | zero => exact hr
  | succ n ih =>
    rw [IntReader.skip]
    split
    · exact (int_next_crash r hr).bind fun p _ hp => ih p.2 hp
    · exact (uint_next_sat r hr).weaken.bind fun p _ hp => ih p.2 hp

theorem int_seek_crash (a b n : Nat) (r : IntReader) (hr : r.block.stream.Sane) : (r.seek c a b n).Sat true fun r' => r'.block.stream.Sane := by
  rw [IntReader.seek]
  exact (seek_sat c _ a b).weaken.bind fun s _ hs => int_skip_crash n _ (hr.same hs)

end

/-! ### Columns -/

/-- What a column reader needs of its type for all calls to be orderly. -/
structure ReadKind.Sound {ρ : Type} (R : ReadKind ρ) (c : Codec) (crash : Bool) (Inv : ρ → Prop) : Prop where
  prepare : ∀ d, Inv d → (R.prepare c d).Sat crash Inv
  next : ∀ d, Inv d → (R.next c d).Sat crash fun p => Inv p.2
  store : ∀ old x, (R.store old x).Sat crash fun _ => True
  skip : ∀ d, Inv d → (R.skip c d).Sat crash Inv
  seek : ∀ d ps, Inv d → (crash = false → ps.map (fun p : Nat × Nat × List Nat => p.2.2.length) = R.layout) → (R.seek c d ps).Sat crash Inv

namespace ReadKind.Sound

variable {ρ : Type} {R : ReadKind ρ} {c : Codec} {crash : Bool} {Inv : ρ → Prop}

/-- What holds of a column reader between calls. -/
def Ok (Inv : ρ → Prop) (r : ColReader ρ) : Prop := Inv r.data ∧ ∀ p, r.present = some p → p.reader.stream.Sane

theorem open_ok (init : ∀ s d, (∀ k r, s k = some r → r.Sane) → R.init s = some d → Inv d) {kind : CompKind} {hasNulls : Bool} {streams : List (StreamKind × StreamReader)} {r : ColReader ρ}
    (hs : ∀ s ∈ streams, s.2.Sane) (h : R.openCol kind hasNulls streams = some r) : Ok Inv r ∧ r.kind = kind ∧ r.hasNulls = hasNulls := by
  rw [ReadKind.openCol] at h
  have hfind : ∀ k s, (streams.reverse.find? fun s => s.1 = k).map (·.2) = some s → s.Sane := by
    intro k s h
    obtain ⟨x, h1, h2⟩ := Option.map_eq_some_iff.mp h
    rw [← h2]
    exact hs x (List.mem_reverse.mp (List.mem_of_find?_eq_some h1))
  split at h
  · obtain ⟨d, h1, h2⟩ := Option.map_eq_some_iff.mp h
    subst h2
    refine ⟨⟨init _ d (fun k s hk => hfind k s hk) h1, fun p hp => ?_⟩, rfl, rfl⟩
    obtain ⟨s, g1, g2⟩ := Option.map_eq_some_iff.mp hp
    rw [← g2]
    exact hfind _ s g1
  · cases h

theorem rows_sat (S : R.Sound c crash Inv) (vec : List Value) (r : ColReader ρ) (h : Ok Inv r) :
    (R.nextRows c r vec).Sat crash fun p => Ok Inv p.2 ∧ p.2.present.isSome = r.present.isSome ∧ p.2.kind = r.kind ∧ (p.2.index, p.2.hasNulls) = (r.index, r.hasNulls) := by
  induction vec generalizing r with
  | nil => exact ⟨h, rfl, rfl, rfl⟩
  | cons old vec ih =>
    rw [ReadKind.nextRows]
    refine Res.Sat.bind (P := fun p : Bool × ColReader ρ => Ok Inv p.2 ∧ p.2.present.isSome = r.present.isSome ∧ p.2.kind = r.kind ∧ (p.2.index, p.2.hasNulls) = (r.index, r.hasNulls)) ?_ fun p _ hp => ?_
    · cases hpr : r.present with
      | none => exact ⟨h, by rw [hpr], rfl, rfl⟩
      | some p =>
        exact (bool_next_sat p (h.2 p hpr)).weaken.bind fun q _ hq => ⟨⟨h.1, fun p' hp' => by cases hp'; exact hq⟩, rfl, rfl, rfl⟩
    refine Res.Sat.bind (P := fun q : GoVal × ColReader ρ => Ok Inv q.2 ∧ q.2.present.isSome = r.present.isSome ∧ q.2.kind = r.kind ∧ (q.2.index, q.2.hasNulls) = (r.index, r.hasNulls)) ?_ fun q _ hq => ?_
    · split
      · exact hp
      · exact (S.next p.2.data hp.1.1).bind fun x _ hx => (S.store old.v x.1).bind fun y _ _ => ⟨⟨hx, hp.1.2⟩, hp.2.1, hp.2.2.1, hp.2.2.2⟩
    refine (ih q.2 hq.1).bind fun x _ hx => ⟨hx.1, hx.2.1.trans hq.2.1, hx.2.2.1.trans hq.2.2.1, hx.2.2.2.trans hq.2.2.2⟩

theorem skip_sat (S : R.Sound c crash Inv) (n : Nat) (r : ColReader ρ) (h : Ok Inv r) :
    (R.skipRows c n r).Sat crash fun r' => Ok Inv r' ∧ r'.present.isSome = r.present.isSome ∧ r'.kind = r.kind ∧ (r'.index, r'.hasNulls) = (r.index, r.hasNulls) := by
  induction n generalizing r with
  | zero => exact ⟨h, rfl, rfl, rfl⟩
  | succ n ih =>
    rw [ReadKind.skipRows]
    refine Res.Sat.bind (P := fun p : Bool × ColReader ρ => Ok Inv p.2 ∧ p.2.present.isSome = r.present.isSome ∧ p.2.kind = r.kind ∧ (p.2.index, p.2.hasNulls) = (r.index, r.hasNulls)) ?_ fun p _ hp => ?_
    · cases hpr : r.present with
      | none => exact ⟨h, by rw [hpr], rfl, rfl⟩
      | some p =>
        exact (bool_next_sat p (h.2 p hpr)).weaken.bind fun q _ hq => ⟨⟨h.1, fun p' hp' => by cases hp'; exact hq⟩, rfl, rfl, rfl⟩
    obtain ⟨b, p⟩ := p
    simp only
    split
    · split
      · exact hp
      · exact (S.skip p.data hp.1.1).bind fun d _ hd =>
          (ih { p with data := d } ⟨hd, hp.1.2⟩).mono fun x hx => ⟨hx.1, hx.2.1.trans hp.2.1, hx.2.2.1.trans hp.2.2.1, hx.2.2.2.trans hp.2.2.2⟩
    · exact (ih p hp.1).mono fun x hx => ⟨hx.1, hx.2.1.trans hp.2.1, hx.2.2.1.trans hp.2.2.1, hx.2.2.2.trans hp.2.2.2⟩

theorem posAt_sat (pos : List Nat) (i : Nat) (h : crash = false → i < pos.length) : (posAt pos i).Sat crash fun _ => True := by
  rw [posAt]
  split
  · trivial
  · rename_i h0
    show crash = true
    cases crash
    · exact absurd (List.getElem?_eq_none_iff.mp h0) (by have := h rfl; omega)
    · rfl

theorem posFrom_sat (pos : List Nat) (i n : Nat) (h : crash = false → i + n ≤ pos.length) : (posFrom pos i n).Sat crash fun l => l.length = n := by
  induction n generalizing i with
  | zero => exact rfl
  | succ n ih =>
    rw [posFrom]
    exact (posAt_sat pos i (fun hc => by have := h hc; omega)).bind fun p _ _ =>
      (ih (i + 1) (fun hc => by have := h hc; omega)).bind fun ps _ hps => by show (p :: ps).length = _; simp [hps]

theorem streamPos_sat (kind : CompKind) (pos : List Nat) (i n : Nat) (h : crash = false → i + ((if kind = .none then 1 else 2) + n) ≤ pos.length) :
    (streamPos kind pos i n).Sat crash fun p => p.1.2.2.length = n ∧ p.2 = i + ((if kind = .none then 1 else 2) + n) := by
  rw [streamPos]
  split
  · rename_i hk
    simp only [hk, if_true] at h
    exact (posAt_sat pos i (fun hc => by have := h hc; omega)).bind fun p _ _ =>
      (posFrom_sat pos (i + 1) n (fun hc => by have := h hc; omega)).bind fun ps _ hps => ⟨hps, by simp only; omega⟩
  · rename_i hk
    simp only [hk, if_false] at h
    exact (posAt_sat pos i (fun hc => by have := h hc; omega)).bind fun p _ _ =>
      (posAt_sat pos (i + 1) (fun hc => by have := h hc; omega)).bind fun q _ _ =>
      (posFrom_sat pos (i + 2) n (fun hc => by have := h hc; omega)).bind fun ps _ hps => ⟨hps, by simp only; omega⟩

theorem streamsPos_sat (kind : CompKind) (pos : List Nat) (layout : List Nat) (i : Nat)
    (h : crash = false → i + positionsNeeded kind false layout ≤ pos.length) :
    (streamsPos kind pos i layout).Sat crash fun ps => ps.map (fun p => p.2.2.length) = layout := by
  induction layout generalizing i with
  | nil => exact rfl
  | cons n ns ih =>
    rw [streamsPos]
    have hh : crash = false → i + ((if kind = CompKind.none then 1 else 2) + n + positionsNeeded kind false ns) ≤ pos.length := h
    refine (streamPos_sat kind pos i n (fun hc => by have := hh hc; omega)).bind fun p _ hp => ?_
    refine (ih p.2 (fun hc => by have := hh hc; omega)).bind fun ps _ hps => ?_
    show (List.map _ (p.1 :: ps)) = _
    rw [List.map_cons, hp.1, hps]

theorem seekStride_sat (S : R.Sound c crash Inv) (k : Nat) (r : ColReader ρ) (h : Ok Inv r)
    (hk : crash = false → k = 0 ∨ r.index = none ∨ ∃ es e, r.index = some es ∧ es[k - 1]? = some e ∧
      positionsNeeded r.kind (r.present.isSome || (R.byNulls && r.hasNulls)) R.layout ≤ e.length) :
    (R.seekStride c r k).Sat crash fun r' => Ok Inv r' ∧ r'.present.isSome = r.present.isSome ∧ r'.kind = r.kind ∧ (r'.index, r'.hasNulls) = (r.index, r.hasNulls) := by
  rw [ReadKind.seekStride]
  split
  · refine Res.Sat.bind (P := fun p : Option BoolReader => (∀ b, p = some b → b.reader.stream.Sane) ∧ p.isSome = r.present.isSome) ?_ fun p _ hp => ?_
    · cases hpr : r.present with
      | none => exact ⟨nofun, rfl⟩
      | some p => exact (bool_seek_sat _ _ _ _ p (h.2 p hpr)).weaken.bind fun q _ hq => ⟨fun b hb => by cases hb; exact hq, rfl⟩
    · refine (S.seek r.data _ h.1 (fun _ => ?_)).bind fun d _ hd => ⟨⟨hd, hp.1⟩, hp.2, rfl, rfl⟩
      rw [List.map_map]
      conv_rhs => rw [← List.map_id R.layout]
      apply List.map_congr_left
      intro n _
      simp
  · refine Res.Sat.bind (P := fun pos => crash = false → positionsNeeded r.kind (r.present.isSome || (R.byNulls && r.hasNulls)) R.layout ≤ pos.length) ?_ fun pos _ hpos => ?_
    · simp only [getStridePositions]
      split
      · trivial
      · rename_i es hes
        split
        · trivial
        · rename_i hk1
          split
          · rename_i p hp
            intro hc
            rcases hk hc with h0 | h0 | ⟨es', e, h1, h2, h3⟩
            · omega
            · rw [hes] at h0; cases h0
            · rw [hes] at h1; cases h1
              rw [hp] at h2; cases h2
              exact h3
          · rename_i hp
            show crash = true
            cases crash
            · rcases hk rfl with h0 | h0 | ⟨es', e, h1, h2, h3⟩
              · omega
              · rw [hes] at h0; cases h0
              · rw [hes] at h1; cases h1
                rw [hp] at h2; cases h2
            · rfl
    · cases hpr : r.present with
      | none =>
        simp only [hpr, Option.isSome_none, Bool.false_or] at hpos
        have hneed : crash = false → (if R.byNulls = true ∧ r.hasNulls = true then (if r.kind = .none then 3 else 4) else 0) + positionsNeeded r.kind false R.layout ≤ pos.length := by
          intro hc
          have := hpos hc
          by_cases hb : R.byNulls = true ∧ r.hasNulls = true
          · rw [if_pos hb]
            rw [hb.1, hb.2] at this
            have h2 : (if r.kind = CompKind.none then 1 else 2) + 2 + positionsNeeded r.kind false R.layout ≤ pos.length := this
            by_cases hkn : r.kind = .none
            · rw [if_pos hkn] at h2 ⊢; omega
            · rw [if_neg hkn] at h2 ⊢; omega
          · rw [if_neg hb]
            have hbf : (R.byNulls && r.hasNulls) = false := by
              rw [Bool.eq_false_iff]; intro hh; exact hb (by simpa using hh)
            rw [hbf] at this
            omega
        exact (streamsPos_sat r.kind pos R.layout _ hneed).bind fun ds _ hds =>
          (S.seek r.data ds h.1 (fun _ => hds)).bind fun d _ hd => ⟨⟨hd, fun p hp => by cases hp⟩, rfl, rfl, rfl⟩
      | some p =>
        simp only [hpr, Option.isSome_some, Bool.true_or] at hpos
        have hpos' : crash = false → (if r.kind = CompKind.none then 1 else 2) + 2 + positionsNeeded r.kind false R.layout ≤ pos.length := hpos
        refine (streamPos_sat r.kind pos 0 2 (fun hc => by have := hpos' hc; omega)).bind fun pp _ hpp => ?_
        have hds := streamsPos_sat (crash := crash) r.kind pos R.layout pp.2 (fun hc => by have := hpos' hc; omega)
        have hq : (seekBool c p pp.1).Sat crash fun q => q.reader.stream.Sane := (bool_seek_sat _ _ _ _ p (h.2 p hpr)).weaken
        refine Res.Sat.bind (P := fun x : BoolReader × List (Nat × Nat × List Nat) => x.1.reader.stream.Sane ∧ x.2.map (fun p => p.2.2.length) = R.layout) ?_ fun x _ hx =>
          (S.seek r.data x.2 h.1 (fun _ => hx.2)).bind fun d _ hd => ⟨⟨hd, fun b hb => by cases hb; exact hx.1⟩, rfl, rfl, rfl⟩
        split
        · exact hq.bind fun q _ hq => hds.bind fun ds _ hds => ⟨hq, hds⟩
        · exact hds.bind fun ds _ hds => hq.bind fun q _ hq => ⟨hq, hds⟩

theorem roam_sat (S : R.Sound c crash Inv) (ops : List SeekOp) (r : ColReader ρ) (h : Ok Inv r)
    (hi : crash = false → IndexFits (positionsNeeded r.kind (r.present.isSome || (R.byNulls && r.hasNulls)) R.layout) r.index ops) : (R.roam c r ops).Sat crash fun _ => True := by
  induction ops generalizing r with
  | nil => trivial
  | cons op ops ih =>
    have hrest : ∀ r' : ColReader ρ, (Ok Inv r' ∧ r'.present.isSome = r.present.isSome ∧ r'.kind = r.kind ∧ (r'.index, r'.hasNulls) = (r.index, r.hasNulls)) → (R.roam c r' ops).Sat crash fun _ => True := by
      intro r' ⟨g1, g2, g3, g4⟩
      refine ih r' g1 fun hc k hk => ?_
      obtain ⟨g5, g6⟩ := Prod.mk.inj g4
      rw [g2, g3, g5, g6]
      exact hi hc k (List.mem_cons_of_mem _ hk)
    cases op with
    | batch vec =>
      rw [ReadKind.roam]
      refine Res.Sat.bind (P := fun p : List Value × ColReader ρ => Ok Inv p.2 ∧ p.2.present.isSome = r.present.isSome ∧ p.2.kind = r.kind ∧ (p.2.index, p.2.hasNulls) = (r.index, r.hasNulls)) ?_ fun p _ hp =>
        (hrest p.2 hp).bind fun _ _ _ => trivial
      rw [ReadKind.nextBatch]
      exact (S.prepare r.data h.1).bind fun d _ hd => rows_sat S vec { r with data := d } ⟨hd, h.2⟩
    | skip n =>
      rw [ReadKind.roam]
      exact (skip_sat S n r h).bind fun r' _ hp => hrest r' hp
    | seek k =>
      rw [ReadKind.roam]
      exact (seekStride_sat S k r h (fun hc => hi hc k List.mem_cons_self)).bind fun r' _ hp => hrest r' hp

theorem robust (init : ∀ s d, (∀ k r, s k = some r → r.Sane) → R.init s = some d → Inv d) (S : ∀ c, R.Sound c false Inv) : R.Robust := by
  intro c kind hasNulls streams r index ops hs ho hi
  obtain ⟨h1, h2, h3⟩ := open_ok init hs ho
  exact ((S c).roam_sat ops { r with index := index } h1 fun _ => by rw [← h2, ← h3] at hi; exact hi).orderly

theorem terminates (init : ∀ s d, (∀ k r, s k = some r → r.Sane) → R.init s = some d → Inv d) (S : ∀ c, R.Sound c true Inv) : R.Terminates := by
  intro c kind hasNulls streams r index ops hs ho
  obtain ⟨h1, h2⟩ := open_ok init hs ho
  exact ((S c).roam_sat ops { r with index := index } h1 nofun).not_hang

end ReadKind.Sound

end Goorc
