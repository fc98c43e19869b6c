import Verif.Spec.Tables
import Verif.Proofs.StructStripe
import Verif.Proofs.Rows
/- One column in one stripe: lemmas for Props/RoundTrip.lean. -/
namespace Goorc

namespace LeafTag

/-- The data streams of a column at the start of a stripe. -/
def Clean (c : Codec) (o : WOpts) : (t : LeafTag) → t.δ → Prop
  | .byte, d => StreamWriter.Clean c o CleanByte d
  | .bool, d => StreamWriter.Clean c o CleanBool d
  | .int _, d => StreamWriter.Clean c o (CleanInt true) d
  | .float _, d => StreamWriter.Clean c o (fun _ => True) d
  | .string, d => StreamWriter.Clean c o (fun _ => True) d.1 ∧ StreamWriter.Clean c o (CleanInt false) d.2
  | .date, d => StreamWriter.Clean c o (CleanInt true) d
  | .binary, _ => False
  | .timestamp, _ => False
  | .decimal, _ => False

/-- The invariant of the index statistics. -/
def IndexOk : (t : LeafTag) → Option t.κ → Prop
  | .date, _ => True
  | _, u => u.isSome = true

theorem newData_clean (A : Arith) {c : Codec} {o : WOpts} (ho : o.Sound) {t : LeafTag} (ht : t.Faithful) : t.Clean c o ((t.kind A).newData o) := by
  cases t with
  | byte => exact newStreamWriter_clean c o ho _ _ ⟨newByteEncoder_wf _, rfl⟩
  | bool => exact newStreamWriter_clean c o ho _ _ ⟨rfl, newByteEncoder_wf _, rfl, rfl⟩
  | int b => exact newStreamWriter_clean c o ho _ _ ⟨rfl, rfl⟩
  | float d => exact newStreamWriter_clean c o ho () (fun _ => True) trivial
  | string => exact ⟨newStreamWriter_clean c o ho () (fun _ => True) trivial, newStreamWriter_clean c o ho _ _ ⟨rfl, rfl⟩⟩
  | date => exact newStreamWriter_clean c o ho _ _ ⟨rfl, rfl⟩
  | binary => exact ht.elim
  | timestamp => exact ht.elim
  | decimal => exact ht.elim

theorem firstIndex_ok (A : Arith) {t : LeafTag} (ht : t.Faithful) : t.IndexOk (t.kind A).firstIndex := by
  cases t <;> first | exact ht.elim | rfl | trivial

theorem healthy (A : Arith) (wi : Bool) (t : LeafTag) (vals : List GoVal) (h : t.Readable wi vals) :
    (t.kind A).Healthy wi (fun _ => True) t.IndexOk vals := by
  cases t with
  | byte => obtain ⟨xs, rfl⟩ := h; exact byte_healthy wi xs
  | bool => obtain ⟨xs, rfl⟩ := h; exact bool_healthy wi xs
  | int b => obtain ⟨xs, rfl, h1, -⟩ := h; exact int_healthy wi b xs h1
  | float d =>
    cases d with
    | false => obtain ⟨rfl, xs, rfl⟩ := h; exact float_healthy A xs
    | true => obtain ⟨xs, rfl⟩ := h; exact double_healthy wi A xs
  | string => obtain ⟨xs, rfl, -⟩ := h; exact string_healthy wi xs
  | date =>
    obtain ⟨xs, rfl, -⟩ := h
    have := date_healthy wi (xs.map fun d => d * (86400 * 1000000000))
    rw [List.map_map] at this
    exact this
  | binary => exact h.elim
  | timestamp => exact h.elim
  | decimal => exact h.elim

theorem midnight_trip {c : Codec} (hc : c.Lossless) {o : WOpts} (ho : o.Sound) (d : StreamWriter IntEnc) (hd : d.Clean c o (CleanInt true))
    (days : List Int) (hfit : ∀ d ∈ days, -106751 ≤ d ∧ d ≤ 106751) (hb : ReadsBackI (days.map (BitVec.ofInt 64))) :
    DataRoundTrip dateKind dateRead c o (StreamWriter.Clean c o (CleanInt true)) (Ends (dateRead.next c)) d (days.map midnight) (days.map midnight) := by
  have hs : ∀ d : Int, -106751 ≤ d ∧ d ≤ 106751 → (BitVec.ofInt 32 d).signExtend 64 = BitVec.ofInt 64 d := by
    intro d h
    apply BitVec.eq_of_toInt_eq
    rw [BitVec.toInt_signExtend_of_le (by omega), BitVec.toInt_ofInt, BitVec.toInt_ofInt, Int.bmod_eq_of_le, Int.bmod_eq_of_le] <;> omega
  have := date_trip hc ho d hd (days.map fun d => d * (86400 * 1000000000)) (by
    rw [List.map_map]
    have : days.map ((fun t => (toDays t).signExtend 64) ∘ fun d => d * (86400 * 1000000000)) = days.map (BitVec.ofInt 64) := by
      apply List.map_congr_left
      intro d hd
      simp only [Function.comp_def, (midnight_days d (hfit d hd)).1, hs d (hfit d hd)]
    rw [this]; exact hb)
  rw [List.map_map, List.map_map] at this
  have e : days.map ((fun t => GoVal.date (fromDays (toDays t))) ∘ fun d => d * (86400 * 1000000000)) = days.map midnight := by
    apply List.map_congr_left
    intro d hd
    simp only [Function.comp_def, (midnight_days d (hfit d hd)).1, (midnight_days d (hfit d hd)).2, midnight]
  rw [e] at this
  exact this

/-- The data streams of one column in one stripe. -/
theorem trip (A : Arith) {c : Codec} (hc : c.Lossless) {o : COpts} (ho : o.toWOpts.Sound) (t : LeafTag) (d : t.δ) (hd : t.Clean c o.toWOpts d)
    (vals : List GoVal) (h : t.Readable o.writeIndex vals) :
    ∃ clean E, DataRoundTrip (t.kind A) t.read c o.toWOpts clean E d vals vals ∧ ∀ d', clean d' → t.NothingStale vals → t.Clean c o.toWOpts d' := by
  cases t with
  | byte => obtain ⟨xs, rfl⟩ := h; exact ⟨_, _, byte_trip hc ho d hd xs, fun _ h _ => h⟩
  | bool =>
    obtain ⟨xs, rfl⟩ := h
    refine ⟨_, _, bool_trip hc ho d hd xs, fun d' h hs => ?_⟩
    obtain ⟨h1, h2, h3, h4, h5, h6⟩ := h
    exact ⟨h1, h2, h3, h4, h5, by rw [h6]; exact (hs xs rfl).pack⟩
  | int b => obtain ⟨xs, rfl, h1, h2⟩ := h; exact ⟨_, _, int_trip hc ho b d hd xs h1 h2, fun _ h _ => h⟩
  | float is64 =>
    cases is64 with
    | false => obtain ⟨_, xs, rfl⟩ := h; exact ⟨_, _, float_trip hc ho A d hd xs, fun _ h _ => h⟩
    | true => obtain ⟨xs, rfl⟩ := h; exact ⟨_, _, double_trip hc ho A d hd xs, fun _ h _ => h⟩
  | string => obtain ⟨xs, rfl, h1, h2⟩ := h; exact ⟨_, _, string_trip hc ho d hd.1 hd.2 xs h1 h2, fun _ h _ => h⟩
  | date => obtain ⟨xs, rfl, h1, h2⟩ := h; exact ⟨_, _, midnight_trip hc ho d hd xs h1 h2, fun _ h _ => h⟩
  | binary => exact h.elim
  | timestamp => exact h.elim
  | decimal => exact h.elim

end LeafTag


/-- Writing several values to a column. -/
def AnyWriter.writes (A : Arith) (c : Codec) (o : COpts) : AnyWriter → List Value → Res AnyWriter
  | w, [] => .ok w
  | w, v :: vs => do
    let w ← w.write A c o v
    writes A c o w vs

theorem AnyWriter.writes_leaf {A : Arith} {c : Codec} {o : COpts} {t : LeafTag} (rows : List Value) :
    ∀ {w w' : ColWriter t.δ t.κ}, (t.kind A).writes c o w rows = .ok w' → (AnyWriter.leaf t w).writes A c o rows = .ok (.leaf t w') := by
  induction rows with
  | nil => intro w w' h; simp only [LeafKind.writes] at h; injection h with h; subst h; rfl
  | cons v rows ih =>
    intro w w' h
    simp only [LeafKind.writes] at h
    obtain ⟨w1, h1, h⟩ := Res.bind_ok_inv h
    simp only [AnyWriter.writes, AnyWriter.write, h1, Res.ok_bind, Res.pure_eq, ih h]

/-- A column writer at the start of a stripe. -/
def AnyWriter.Ready (c : Codec) (o : COpts) (n : SchemaNode) : AnyWriter → Prop
  | .leaf t w => newWriterTag n.kind n.encoding = .ok (.leaf t) ∧ newReaderTag n.kind n.encoding = .ok (.leaf t) ∧ t.Faithful ∧
      w.hasNulls = n.hasNulls ∧ LeafKind.WInv o.writeIndex (fun _ => True) t.IndexOk w ∧ t.Clean c o.toWOpts w.data ∧
      if n.hasNulls then ∃ q, w.present = some q ∧ q.Clean c o.toWOpts CleanBool else w.present = none
  | .struct w => n.kind = .struct ∧ n.encoding = .direct ∧ if n.hasNulls then w.Ready c o else w.hasNulls = false
  | .dict _ => False

theorem AnyWriter.new_ready {A : Arith} {c : Codec} {o : COpts} (ho : o.toWOpts.Sound) {n : SchemaNode} (hn : n.Plain) :
    ∃ w, AnyWriter.new A o n = .ok w ∧ w.Ready c o n := by
  rcases hn with ⟨h1, h2⟩ | ⟨t, h1, h2, h3⟩
  · refine ⟨.struct (StructWriter.new o n.hasNulls), ?_, h1, h2, ?_⟩
    · simp only [AnyWriter.new, h1, h2]
      rfl
    · cases n.hasNulls with
      | true => exact StructWriter.new_ready c ho
      | false => rfl
  · refine ⟨.leaf t ((t.kind A).newWriter o n.hasNulls), by simp only [AnyWriter.new, h1]; rfl, h1, h2, h3, rfl, ?_, ?_, ?_⟩
    · exact LeafKind.newWriter_inv _ o _ trivial (LeafTag.firstIndex_ok A h3)
    · exact LeafTag.newData_clean A ho h3
    · cases hh : n.hasNulls with
      | true =>
        simp only [if_true, LeafKind.newWriter]
        exact ⟨_, rfl, newStreamWriter_clean c o.toWOpts ho _ _ ⟨rfl, newByteEncoder_wf _, rfl, rfl⟩⟩
      | false => simp [LeafKind.newWriter]

/-- The streams of a column in a file: its reader accepts them, opens with them wherever they are, and has the rows. -/
def ColHolds (c : Codec) (o : WOpts) (n : SchemaNode) (bs : Bodies) (rows : List (Option GoVal)) : Prop :=
  (n.kind = .struct ∧ n.encoding = .direct ∧
    if n.hasNulls then ∃ body, bs = [(.present, body)] ∧ FlagsIn c o body (rows.map (·.isSome)) else bs = []) ∨
  ∃ t : LeafTag, newReaderTag n.kind n.encoding = .ok (.leaf t) ∧ t.Faithful ∧ (∀ b ∈ bs, t.read.accepts n.hasNulls b.1 = true) ∧
    ∀ ss, List.Forall₂ (Placed o) bs ss → ∃ r F E, t.read.openCol o.kind n.hasNulls ss = some r ∧
      t.read.Holds c F E r (if n.hasNulls then rows else rows.filter (·.isSome)) ∧ (r.present = none ↔ n.hasNulls = false)

theorem placed_somewhere (o : WOpts) (bs : Bodies) : ∃ ss, List.Forall₂ (Placed o) bs ss := by
  induction bs with
  | nil => exact ⟨[], .nil⟩
  | cons b bs ih =>
    obtain ⟨ss, h⟩ := ih
    exact ⟨(b.1, streamAt o [] b.2 []) :: ss, .cons ⟨rfl, [], [], rfl⟩ h⟩

theorem openCol_accepts {ρ : Type} {R : ReadKind ρ} {kind : CompKind} {hasNulls : Bool} {ss : List (StreamKind × StreamReader)} {r : ColReader ρ}
    (h : R.openCol kind hasNulls ss = some r) : ∀ s ∈ ss, R.accepts hasNulls s.1 = true := by
  simp only [ReadKind.openCol] at h
  split at h
  · rename_i ha
    exact List.all_eq_true.1 ha
  · simp at h

theorem AnyWriter.writes_struct {A : Arith} {c : Codec} {o : COpts} (rows : List Value) :
    ∀ {w w' : StructWriter}, StructWriter.writes c o w rows = .ok w' → (AnyWriter.struct w).writes A c o rows = .ok (.struct w') := by
  induction rows with
  | nil => intro w w' h; simp only [StructWriter.writes] at h; injection h with h; subst h; rfl
  | cons v rows ih =>
    intro w w' h
    simp only [StructWriter.writes] at h
    obtain ⟨w1, h1, h⟩ := Res.bind_ok_inv h
    simp only [AnyWriter.writes, AnyWriter.write, h1, Res.ok_bind, Res.pure_eq, ih h]

/-- The flags in the present stream of a column, if it has one. -/
def storedFlags (hasNulls : Bool) (rows : List Value) : List Bool := if hasNulls then rows.map fun v => !v.null else (nonNulls rows).map fun _ => true

theorem stored_rows (hasNulls : Bool) (rows : List Value) :
    (if hasNulls then rows.map Value.row else (rows.map Value.row).filter (·.isSome)).map (·.isSome) = storedFlags hasNulls rows ∧
    (if hasNulls then rows.map Value.row else (rows.map Value.row).filter (·.isSome)).filterMap id = nonNulls rows := by
  cases hasNulls with
  | true => exact ⟨rows_flags rows, by rw [if_pos rfl, rows_values, nonNulls_eq]⟩
  | false =>
    have hall : ∀ l : List (Option GoVal), (l.filter (·.isSome)).map (·.isSome) = (l.filterMap id).map fun _ => true := by
      intro l
      induction l with
      | nil => rfl
      | cons x l ih =>
        cases x with
        | none => exact ih
        | some x => exact congrArg (true :: ·) ih
    simp only [Bool.false_eq_true, if_false, storedFlags, filter_some_vals, hall, rows_values, ← nonNulls_eq, and_self]

/-- One column of one stripe. -/
theorem AnyWriter.stripe_spec {A : Arith} {c : Codec} (hc : c.Lossless) {o : COpts} (ho : o.toWOpts.Sound) {n : SchemaNode} {w : AnyWriter}
    (hw : w.Ready c o n) (rows : List Value) (hs : n.hasVector = false → rows = []) (hr : n.kind ≠ .struct → n.Readable o.writeIndex (rows.map Value.row)) :
    ∃ w1 w2 w3 bs, w.writes A c o rows = .ok w1 ∧ w1.flush A c o = .ok w2 ∧ w2.writeOut A o = .ok (w3, Bodies.bytes bs) ∧ w3.streamInfos A = bs.infos ∧
      ColHolds c o.toWOpts n bs (rows.map Value.row) ∧
      (o.kind = .zlib → o.writeIndex = false → (n.hasVector = true → n.NothingStale (rows.map Value.row)) → ∃ w4, w3.reset A o = .ok w4 ∧ w4.Ready c o n) := by
  cases w with
  | dict w => exact hw.elim
  | struct w =>
    obtain ⟨h1, h2, h4⟩ := hw
    cases hn : n.hasNulls with
    | false =>
      simp only [hn, Bool.false_eq_true, if_false] at h4
      obtain rfl := hs (by simp [SchemaNode.hasVector, h1, hn])
      refine ⟨.struct w, .struct { w with stats := { w.stats with bytesOnDisk := w.stats.bytesOnDisk }, flushed := true }, .struct { w with flushed := true }, [], rfl, ?_, ?_, ?_,
        Or.inl ⟨h1, h2, by simp [hn]⟩, ?_⟩
      · simp [AnyWriter.flush, StructWriter.flush, flushFlags, h4]
      · simp [AnyWriter.writeOut, StructWriter.writeOut, writeOutFlags, h4, Bodies.bytes]
      · simp [AnyWriter.streamInfos, StructWriter.streamInfos, h4, Bodies.infos]
      · intro _ hwi _
        exact ⟨.struct { w with flushed := false }, by simp [AnyWriter.reset, StructWriter.reset, resetFlags, h4, hwi], h1, h2, by simp [hn, h4]⟩
    | true =>
      simp only [hn, if_true] at h4
      obtain ⟨w1, w2, w3, body, k1, k2, k3, -, k4, k5, k6⟩ := StructWriter.stripe_spec c hc ho w h4 rows
      refine ⟨.struct w1, .struct w2, .struct w3, [(.present, body)], AnyWriter.writes_struct rows k1, ?_, ?_, ?_, Or.inl ⟨h1, h2, ?_⟩, ?_⟩
      · simp only [AnyWriter.flush, k2, Res.ok_bind, Res.pure_eq]
      · simp only [AnyWriter.writeOut, k3, Res.ok_bind, Res.pure_eq, Bodies.bytes, List.flatMap_cons, List.flatMap_nil, List.append_nil]
      · simp only [AnyWriter.streamInfos, k4, Bodies.infos, List.map_cons, List.map_nil]
      · simp only [hn, if_true]
        exact ⟨body, rfl, by rw [rows_flags]; exact k5⟩
      · intro hz hwi hst
        have hv : n.hasVector = true := by simp [SchemaNode.hasVector, hn]
        have := (hst hv).1 hn
        rw [rows_flags] at this
        obtain ⟨w4, l1, l2⟩ := k6 hz hwi this
        exact ⟨.struct w4, by simp only [AnyWriter.reset, l1, Res.ok_bind, Res.pure_eq], h1, h2, by simp only [hn, if_true]; exact l2⟩
  | leaf t w =>
    obtain ⟨h1, h2, h3, h4, h5, h6, h7⟩ := hw
    have hns : n.kind ≠ .struct := by
      intro h
      rw [h] at h1
      simp only [newWriterTag] at h1
      split at h1 <;> simp at h1
    have hnv : n.hasVector = true := by simp [SchemaNode.hasVector, hns]
    have hr3 : t.Readable o.writeIndex ((rows.map Value.row).filterMap id) := hr hns t h1
    rw [rows_values, ← nonNulls_eq] at hr3
    obtain ⟨clean, E, g1, g2⟩ := t.trip A hc ho w.data h6 _ hr3
    obtain ⟨w1, w2, w3, bs, k1, k2, k3, k4, k5, k6, k7, k8, k9, k10⟩ := column_spec_from (t.kind A) t.read c o clean E w rows
      (storedFlags n.hasNulls rows) (nonNulls rows) (fun _ => True) t.IndexOk h5 (t.healthy A _ _ hr3) (by
        rw [h4]
        cases hh : n.hasNulls with
        | false => simp only [hh, Bool.false_eq_true, if_false] at h7 ⊢; exact h7
        | true =>
          simp only [hh, if_true] at h7 ⊢
          obtain ⟨q, e1, e2⟩ := h7
          exact ⟨q, e1, present_trip c hc o.toWOpts ho q e2 _⟩) g1 (fun hn => by rw [h4] at hn; simp only [storedFlags, hn, if_true]) (fun hn => by
        rw [h4] at hn
        simp [storedFlags, hn])
    refine ⟨.leaf t w1, .leaf t w2, .leaf t w3, bs, AnyWriter.writes_leaf rows k1, ?_, ?_, k5, Or.inr ⟨t, h2, h3, ?_, ?_⟩, ?_⟩
    · simp only [AnyWriter.flush, k2, Res.ok_bind, Res.pure_eq]
    · simp only [AnyWriter.writeOut, k3, Res.ok_bind, Res.pure_eq]
    · intro b hb
      obtain ⟨ss, hss⟩ := placed_somewhere o.toWOpts bs
      obtain ⟨r, e1, -⟩ := k6 ss hss
      have hm : b.1 ∈ ss.map (·.1) := by rw [placed_kinds hss]; exact List.mem_map_of_mem hb
      obtain ⟨s, hs, he⟩ := List.mem_map.1 hm
      rw [← he, ← h4]
      exact openCol_accepts e1 s hs
    · intro ss hss
      obtain ⟨r, e1, e2, e3⟩ := k6 ss hss
      rw [h4] at e1 e3
      refine ⟨r, PresentEnd c (storedFlags n.hasNulls rows).length, E, e1, ?_, e3⟩
      simp only [ReadKind.Holds, (stored_rows n.hasNulls rows).1, (stored_rows n.hasNulls rows).2]
      exact e2
    · intro hz hwi hst
      obtain ⟨s1, s2⟩ := hst hnv
      obtain ⟨⟨d, e1, e2⟩, e3⟩ := k10 hz
      have hst : t.NothingStale ((rows.map Value.row).filterMap id) := s2 t h1
      rw [rows_values, ← nonNulls_eq] at hst
      rw [h4] at k8 e3
      cases hh : n.hasNulls with
      | false =>
        simp only [hh, Bool.false_eq_true, if_false] at e3 k8
        refine ⟨.leaf t { w3 with present := none, flushed := false, data := d }, ?_, h1, h2, h3, ?_, ⟨k7.stats, fun h => ?_⟩, g2 d e2 hst, ?_⟩
        · simp [AnyWriter.reset, LeafKind.reset, k8, e3, hwi, e1]
        · simp [k8, hh]
        · rw [hwi] at h; cases h
        · simp [hh]
      | true =>
        simp only [hh, if_true] at e3 k8
        obtain ⟨q, q', f1, f2, f3, f4, f5, f6, f7, f8⟩ := e3
        refine ⟨.leaf t { w3 with present := some q', flushed := false, data := d }, ?_, h1, h2, h3, ?_, ⟨k7.stats, fun h => ?_⟩, g2 d e2 hst, ?_⟩
        · simp [AnyWriter.reset, LeafKind.reset, k8, f1, f2, hwi, e1]
        · simp [k8, hh]
        · rw [hwi] at h; cases h
        · simp only [hh, if_true]
          refine ⟨q', rfl, f3, f4, f5, f6, f7, ?_⟩
          rw [f8]
          have := s1 hh
          rw [rows_flags] at this
          simp only [storedFlags, if_true]
          exact this.pack

end Goorc
