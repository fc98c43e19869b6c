import Verif.Spec.Foreign
import Verif.Proofs.ColMore
import Verif.Props.EncIntDec
import Verif.Props.Column
import Verif.Props.EncScalar
namespace Goorc

/-! ### Contents of streams -/

theorem byteRun_decode (r : ByteRun) (h : r.WF) (tail : Bytes) : decodeByteRL.runBuf (r.bytes ++ tail) = .ok (r.values, tail) := by
  cases r with
  | repeated n v =>
    obtain ⟨h1, h2⟩ := h
    have hm : (BitVec.ofNat 8 (n - 3)).toNat = n - 3 := by rw [BitVec.toNat_ofNat]; omega
    simp only [decodeByteRL, Dec.runBuf_bind, ByteRun.bytes, List.cons_append, List.nil_append, Dec.runBuf_byte_cons, Res.ok_bind, hm]
    rw [if_pos (by omega)]
    simp only [Dec.runBuf_bind, Dec.runBuf_byte_cons, Res.ok_bind, Dec.pure_eq, Dec.runBuf_ret, ByteRun.values, minRepeats]
    rw [show n - 3 + 3 = n by omega]
  | literal vs =>
    obtain ⟨h1, h2⟩ := h
    have hm : (BitVec.ofNat 8 (256 - vs.length)).toNat = 256 - vs.length := by rw [BitVec.toNat_ofNat]; omega
    simp only [decodeByteRL, Dec.runBuf_bind, ByteRun.bytes, List.cons_append, Dec.runBuf_byte_cons, Res.ok_bind, hm]
    rw [if_neg (by omega)]
    have hi : (BitVec.ofNat 8 (256 - vs.length)).toInt = -(vs.length : Int) := by
      rw [BitVec.toInt_eq_toNat_cond, hm]; split <;> omega
    rw [hi, show (- -(vs.length : Int)).toNat = vs.length by omega]
    exact runBuf_readBytesN _ _
  
theorem byteStream_decodes {flat vals : Bytes} (h : ByteStream flat vals) : Decodes decodeByteRL flat vals := by
  obtain ⟨runs, h1, rfl, rfl⟩ := h
  induction runs with
  | nil => exact .nil
  | cons r runs ih =>
    simp only [List.flatMap_cons]
    refine .cons (byteRun_decode r (h1 r List.mem_cons_self) _) ?_ (ih fun x hx => h1 x (List.mem_cons_of_mem _ hx))
    have : 0 < r.bytes.length := by cases r <;> simp [ByteRun.bytes]
    rw [List.length_append]; omega

theorem intStream_decodes {signed : Bool} {flat : Bytes} {blocks : List RleBlock} (h : IntStream signed flat blocks)
    (hh : ∀ b ∈ blocks, b.Handled signed) :
    Decodes (IntReader.dec signed) flat ((blocks.flatMap (·.ints signed)).map (BitVec.ofInt 64)) := by
  refine decodes_of_decodeAll (intDec_progress signed) ?_
  have := rle_stream_format_partial signed blocks (fun b hb => ⟨h.1 b hb, hh b hb⟩) flat h.2
  cases signed <;> exact this

theorem boolsOfByte_bits (b : Byte) : boolsOfByte b = natBits 8 b.toNat := by
  revert b; decide

theorem Stands.feed {c : Codec} {kind : CompKind} {size : Nat} {body flat : Bytes} (h : Stands c kind size body flat) (tail : Bytes) :
    Feed c kind size (body ++ tail) body.length flat := by
  cases kind with
  | none => exact ⟨h.1, ⟨tail, by rw [h.2]⟩, by rw [h.2]⟩
  | zlib =>
    obtain ⟨cs, h1, h2, h3⟩ := h
    exact ⟨cs, tail, h1, by rw [h2], by rw [h2], h3⟩
  | other => exact h.elim

/-! ### Opening a column -/

section
variable {ρ : Type} {R : ReadKind ρ} {c : Codec} {kind : CompKind} {size : Nat} {file : Bytes} {ps : List LaidStream} {contents : StreamKind → Bytes}
  {present : Option (List Bool)} {hasNulls : Bool}

/-- The streams as the readers get them. -/
def laid (kind : CompKind) (size : Nat) (file : Bytes) (ps : List LaidStream) : List (StreamKind × StreamReader) :=
  ps.map fun p => (p.kind, newStreamReader kind size p.start p.body.length file)

/-- Looking up a stream. -/
def lookup (streams : List (StreamKind × StreamReader)) (k : StreamKind) : Option StreamReader :=
  (streams.reverse.find? fun s => s.1 = k).map (·.2)

theorem laid_unique {ps : List LaidStream} (h : (ps.map (·.kind)).Nodup) {p q : LaidStream} (hp : p ∈ ps) (hq : q ∈ ps)
    (e : p.kind = q.kind) : p = q := by
  induction ps with
  | nil => cases hp
  | cons x ps ih =>
    rw [List.map_cons, List.nodup_cons] at h
    rcases List.mem_cons.mp hp with hp | hp <;> rcases List.mem_cons.mp hq with hq | hq
    · rw [hp, hq]
    · exact absurd (by rw [← hp, e]; exact List.mem_map_of_mem hq) h.1
    · exact absurd (by rw [← hq, ← e]; exact List.mem_map_of_mem hp) h.1
    · exact ih h.2 hp hq

theorem ColumnLaid.lookup {kinds : List StreamKind} (h : ColumnLaid c kind size file kinds ps contents present) (k : StreamKind) :
    (k ∈ kinds ∨ (k = .present ∧ present.isSome) → ∃ s, lookup (laid kind size file ps) k = some s ∧ s.Represents c (contents k)) ∧
    (¬ (k ∈ kinds ∨ (k = .present ∧ present.isSome)) → Goorc.lookup (laid kind size file ps) k = none) := by
  refine ⟨fun hk => ?_, fun hk => ?_⟩
  · obtain ⟨p, hp, rfl⟩ := List.mem_map.mp ((h.kinds k).mpr hk)
    refine ⟨newStreamReader kind size p.start p.body.length file, ?_, ?_⟩
    · have hmem : (p.kind, newStreamReader kind size p.start p.body.length file) ∈ (laid kind size file ps).reverse := by
        rw [List.mem_reverse]; exact List.mem_map_of_mem hp
      cases hf : (laid kind size file ps).reverse.find? (fun s => s.1 = p.kind) with
      | none =>
        have := List.find?_eq_none.mp hf _ hmem
        simp at this
      | some q =>
        have hq := List.mem_of_find?_eq_some hf
        have hqk : q.1 = p.kind := by simpa using List.find?_some hf
        rw [List.mem_reverse] at hq
        obtain ⟨p', hp', rfl⟩ := List.mem_map.mp hq
        have : p' = p := laid_unique h.nodup hp' hp hqk
        subst this
        simp [Goorc.lookup, hf]
    · obtain ⟨⟨pre, post, hfile, hstart⟩, hst⟩ := h.inFile p hp
      rw [← hstart, hfile]
      exact newStreamReader_represents c kind size pre p.body post _ (hst.feed post)
  · have : ∀ s ∈ (laid kind size file ps).reverse, ¬ (decide (s.1 = k) = true) := by
      intro s hs
      rw [List.mem_reverse] at hs
      obtain ⟨p, hp, rfl⟩ := List.mem_map.mp hs
      rw [decide_eq_true_eq]
      rintro rfl
      exact hk ((h.kinds _).mp (List.mem_map_of_mem hp))
    simp [Goorc.lookup, List.find?_eq_none.mpr this]

theorem ColumnLaid.opens (h : ColumnLaid c kind size file R.kinds ps contents present) (hpk : StreamKind.present ∉ R.kinds)
    (hn : present.isSome = true → hasNulls = true) (d : ρ) (hd : R.init (Goorc.lookup (laid kind size file ps)) = some d) :
    ∃ r, R.openCol kind hasNulls (laid kind size file ps) = some r ∧ r.data = d ∧
      (present = none → r.present = none) ∧ (∀ bs, present = some bs → ∃ p p', r.present = some p ∧ Yields (BoolReader.next c) p bs p') := by
  have hacc : (laid kind size file ps).all (fun s => R.accepts hasNulls s.1) = true := by
    rw [List.all_eq_true]
    intro s hs
    obtain ⟨p, hp, rfl⟩ := List.mem_map.mp hs
    rcases (h.kinds p.kind).mp (List.mem_map_of_mem hp) with hk | ⟨hk, hpr⟩
    · have : p.kind ≠ .present := fun e => hpk (e ▸ hk)
      have e : R.accepts hasNulls p.kind = (R.kinds.contains p.kind || R.dropsOthers) := by
        cases hkk : p.kind <;> first | rfl | exact absurd hkk this
      simp only [e, Bool.or_eq_true, List.contains_iff_mem, hk, true_or]
    · simp [hk, ReadKind.accepts, hn hpr]
  refine ⟨⟨hasNulls, kind, (Goorc.lookup (laid kind size file ps) .present).map newBoolReader, d, none⟩, ?_, rfl, fun hp => ?_, fun bs hp => ?_⟩
  · simp only [ReadKind.openCol, hacc, if_true]
    show (R.init (Goorc.lookup (laid kind size file ps))).map _ = _
    rw [hd]
    rfl
  · have := (h.lookup .present).2 (by rintro (h1 | ⟨-, h1⟩); exacts [hpk h1, by simp [hp] at h1])
    simp [this]
  · obtain ⟨s, h1, h2⟩ := (h.lookup .present).1 (.inr ⟨rfl, by simp [hp]⟩)
    obtain ⟨bytes, pad, g1, g2⟩ := h.flags bs hp
    have hr := BoolReader.fresh h2 (byteStream_decodes g1)
    have e : bytes.flatMap boolsOfByte = bytesBits bytes := by
      simp only [bytesBits]; congr 1; funext b; exact boolsOfByte_bits b
    rw [e, g2] at hr
    obtain ⟨r', k, -⟩ := BoolReader.yields_spec bs pad hr
    exact ⟨_, r', by simp [h1], k⟩

/-- A column whose data readers yield the values delivers the rows. -/
theorem ColumnLaid.delivers (h : ColumnLaid c kind size file R.kinds ps contents present) (hpk : StreamKind.present ∉ R.kinds)
    (hn : present.isSome = true → hasNulls = true) (rows : List (Option GoVal)) (hf : Flagged present rows)
    (hd : ∃ d d', R.init (Goorc.lookup (laid kind size file ps)) = some d ∧ Yields (R.next c) d (rows.filterMap id) d')
    (hprep : ∀ d : ρ, R.prepare c d = .ok d) (hst : R.store = replaceValue) (hskip : R.SkipsLikeNext c) :
    ColumnDelivers R c kind size hasNulls file ps rows := by
  obtain ⟨d, d', hd1, hd2⟩ := hd
  obtain ⟨r, h1, rfl, h2, h3⟩ := h.opens hpk hn d hd1
  intro ops hl hu
  have hholds : R.Holds c (fun _ => True) (fun _ => True) r rows ∧ (r.present = none → Unmarked (vectors ops)) := by
    simp only [ReadKind.Holds, ReadKind.Has]
    cases hp : present with
    | none =>
      have hnm : StreamKind.present ∉ ps.map (·.kind) := by
        rw [h.kinds]; rintro (g | ⟨-, g⟩)
        · exact hpk g
        · simp [hp] at g
      rw [h2 hp]
      refine ⟨⟨d', ?_, hd2, trivial⟩, fun _ => hu hnm⟩
      rw [Flagged, hp, Option.getD_none] at hf
      rw [hf, List.all_map, List.all_eq_true]; exact fun _ _ => rfl
    | some bs =>
      obtain ⟨p, p', g1, g2⟩ := h3 bs hp
      rw [g1]
      rw [Flagged, hp, Option.getD_some] at hf
      exact ⟨⟨p', d', by rw [hf]; exact g2, trivial, hd2, trivial⟩, by simp⟩
  obtain ⟨r', k1, -⟩ := hholds.1.serve hprep hskip (fun _ x => x) ops hl hholds.2 (fun old _ x => by rw [hst]; rfl)
  simp only [serveStreams]
  show (match R.openCol kind hasNulls (laid kind size file ps) with
    | none => _
    | some r => _) = _
  rw [h1]
  simp only [k1, Res.ok_bind, Res.pure_eq, deliverBy_replace]

end

end Goorc
