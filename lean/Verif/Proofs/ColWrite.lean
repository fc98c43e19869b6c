import Verif.Spec.Columns
import Verif.Proofs.ColRead
import Verif.Props.Stream
import Mathlib.Data.List.Forall2
namespace Goorc

/-- The non-null values. -/
def nonNulls (rows : List Value) : List GoVal := rows.filterMap fun v => if v.null then none else some v.v

/-- Writing non-null values to the data streams only. -/
def LeafKind.dataWrites {δ κ : Type} (K : LeafKind δ κ) (c : Codec) (o : WOpts) : δ → List GoVal → Res δ
  | d, [] => .ok d
  | d, v :: vs => do
    let d ← K.writeValue c o d v
    LeafKind.dataWrites K c o d vs

/-- The statistics never fail on these values; `I` and `J` are invariants of the column and the index statistics. -/
structure LeafKind.Healthy {δ κ : Type} (K : LeafKind δ κ) (wi : Bool) (I : κ → Prop) (J : Option κ → Prop) (vals : List GoVal) : Prop where
  fresh : J (some K.fresh)
  stats : ∀ v ∈ vals, ∀ t, I t → ∃ t', K.addStats t v = .ok t' ∧ I t'
  index : wi = true → ∀ v ∈ vals, ∀ t u, I t → J u → ∃ t' u', K.addIndex t u v = .ok (t', u') ∧ I t' ∧ J u'

/-- The state of a writer outside its streams. -/
structure LeafKind.WInv {δ κ : Type} (wi : Bool) (I : κ → Prop) (J : Option κ → Prop) (w : ColWriter δ κ) : Prop where
  stats : ∃ t, w.stats.typed = some t ∧ I t
  index : wi = true → ∃ is, w.indexStats = some is ∧ J is.typed

theorem LeafKind.newWriter_inv {δ κ : Type} (K : LeafKind δ κ) (o : COpts) (hn : Bool) {I : κ → Prop} {J : Option κ → Prop}
    (hI : I K.fresh) (hJ : J K.firstIndex) : LeafKind.WInv o.writeIndex I J (K.newWriter o hn) := by
  refine ⟨⟨K.fresh, rfl, hI⟩, fun h => ?_⟩
  simp only [newWriter, h, if_true]
  exact ⟨_, rfl, hJ⟩

theorem LeafKind.indexRow_spec {δ κ : Type} (K : LeafKind δ κ) (o : COpts) {I : κ → Prop} {J : Option κ → Prop} (hw : o.writeIndex = true)
    (w : ColWriter δ κ) (hi : LeafKind.WInv o.writeIndex I J w) (v : Value) (vals : List GoVal) (hh : K.Healthy o.writeIndex I J vals)
    (hv : v.null = false → v.v ∈ vals) :
    ∃ w', K.indexRow o w v = .ok w' ∧ LeafKind.WInv o.writeIndex I J w' ∧ w'.present = w.present ∧ w'.data = w.data ∧
      w'.hasNulls = w.hasNulls ∧ w'.flushed = w.flushed ∧ w'.stats.bytesOnDisk = w.stats.bytesOnDisk ∧ w'.stats.hasNull = w.stats.hasNull ∧
      w'.stats.numberOfValues = w.stats.numberOfValues := by
  obtain ⟨⟨t, ht, hIt⟩, hix⟩ := hi
  obtain ⟨is, his, hJis⟩ := hix hw
  cases hn : v.null with
  | true =>
    simp only [indexRow, his, hn, if_true, Res.pure_eq]
    by_cases hs : w.indexInRows + 1 ≥ o.stride
    · simp only [if_pos hs]
      exact ⟨_, rfl, ⟨⟨t, ht, hIt⟩, fun _ => ⟨_, rfl, hh.fresh⟩⟩, rfl, rfl, rfl, rfl, rfl, rfl, rfl⟩
    · simp only [if_neg hs]
      exact ⟨_, rfl, ⟨⟨t, ht, hIt⟩, fun _ => ⟨_, rfl, hJis⟩⟩, rfl, rfl, rfl, rfl, rfl, rfl, rfl⟩
  | false =>
    simp only [indexRow, his, hn, Bool.false_eq_true, if_false]
    by_cases hs : w.indexInRows + 1 ≥ o.stride
    · simp only [if_pos hs, ht]
      obtain ⟨t', u', k1, k2, k3⟩ := hh.index hw v.v (hv hn) t (some K.fresh) hIt hh.fresh
      simp only [k1, Res.ok_bind, Res.pure_eq]
      exact ⟨_, rfl, ⟨⟨t', rfl, k2⟩, fun _ => ⟨_, rfl, k3⟩⟩, rfl, rfl, rfl, rfl, rfl, rfl, rfl⟩
    · simp only [if_neg hs, ht]
      obtain ⟨t', u', k1, k2, k3⟩ := hh.index hw v.v (hv hn) t is.typed hIt hJis
      simp only [k1, Res.ok_bind, Res.pure_eq]
      exact ⟨_, rfl, ⟨⟨t', rfl, k2⟩, fun _ => ⟨_, rfl, k3⟩⟩, rfl, rfl, rfl, rfl, rfl, rfl, rfl⟩

/-- The present stream of a writer and the flags written to it. -/
def PresentWrites (c : Codec) (o : COpts) (hasNulls : Bool) (p p' : Option (StreamWriter BoolEnc)) (rows : List Value) : Prop :=
  if hasNulls then ∃ q q', p = some q ∧ p' = some q' ∧ q.writes boolEnc c o.toWOpts (rows.map fun v => GoVal.bool (!v.null)) = .ok q'
  else p' = p

theorem LeafKind.write_spec {δ κ : Type} (K : LeafKind δ κ) (c : Codec) (o : COpts) {I : κ → Prop} {J : Option κ → Prop}
    (w : ColWriter δ κ) (hi : LeafKind.WInv o.writeIndex I J w) (v : Value) (vals : List GoVal) (hh : K.Healthy o.writeIndex I J vals)
    (hv : v.null = false → v.v ∈ vals) (p' : Option (StreamWriter BoolEnc)) (hp : PresentWrites c o w.hasNulls w.present p' [v])
    (d' : δ) (hd : K.dataWrites c o.toWOpts w.data (nonNulls [v]) = .ok d') :
    ∃ w', K.write c o w v = .ok w' ∧ LeafKind.WInv o.writeIndex I J w' ∧ w'.present = p' ∧ w'.data = d' ∧ w'.hasNulls = w.hasNulls ∧
      w'.flushed = w.flushed ∧ w'.stats.bytesOnDisk = w.stats.bytesOnDisk ∧ w'.stats.hasNull = w.stats.hasNull ∧
      w'.stats.numberOfValues = w.stats.numberOfValues + (nonNulls [v]).length := by
  have h1 : writePresent c o w v = .ok { w with present := p' } := by
    simp only [PresentWrites] at hp
    cases hn : w.hasNulls with
    | true =>
      simp only [hn, if_true] at hp
      obtain ⟨q, q', e1, e2, e3⟩ := hp
      simp only [List.map_cons, List.map_nil, StreamWriter.writes] at e3
      obtain ⟨q'', e4, e5⟩ := Res.bind_ok_inv e3
      simp only [Res.ok.injEq] at e5
      subst e5 e2
      simp only [writePresent, hn, if_true, e1, e4, Res.ok_bind, Res.pure_eq]
    | false =>
      simp only [hn, Bool.false_eq_true, if_false] at hp
      subst hp
      simp only [writePresent, hn, Bool.false_eq_true, if_false, Res.pure_eq]
      rw [← hn]
  obtain ⟨⟨t, ht, hIt⟩, hix⟩ := hi
  cases hn : v.null with
  | true =>
    simp only [nonNulls, hn, List.filterMap_cons, if_true, List.filterMap_nil, dataWrites, Res.ok.injEq] at hd
    subst hd
    simp only [write, h1, hn, if_true, Res.ok_bind, Res.pure_eq]
    by_cases hc : o.writeIndex = true ∧ (K.indexAllRows = true ∨ true = false)
    · rw [if_pos hc]
      obtain ⟨w', g1, g2, g3, g4, g5, g6, g7, g8, g9⟩ := K.indexRow_spec o hc.1 { w with present := p' } ⟨⟨t, ht, hIt⟩, hix⟩ v vals hh hv
      exact ⟨w', g1, g2, g3, g4, g5, g6, g7, g8, by rw [g9]; simp [nonNulls, hn]⟩
    · rw [if_neg hc]
      exact ⟨_, rfl, ⟨⟨t, ht, hIt⟩, hix⟩, rfl, rfl, rfl, rfl, rfl, rfl, by simp [nonNulls, hn]⟩
  | false =>
    simp only [nonNulls, hn, List.filterMap_cons, Bool.false_eq_true, if_false, List.filterMap_nil, dataWrites] at hd
    obtain ⟨d1, e1, e2⟩ := Res.bind_ok_inv hd
    simp only [Res.ok.injEq] at e2
    subst e2
    obtain ⟨t', k1, k2⟩ := hh.stats v.v (hv hn) t hIt
    simp only [write, h1, hn, Bool.false_eq_true, if_false, Res.ok_bind, writeNonNull, e1, ht, k1, Res.pure_eq, or_true, and_true]
    by_cases hc : o.writeIndex = true
    · rw [if_pos hc]
      obtain ⟨w', g1, g2, g3, g4, g5, g6, g7, g8, g9⟩ := K.indexRow_spec o hc
        { w with present := p', data := d1, stats := { w.stats with typed := some t', numberOfValues := w.stats.numberOfValues + 1 } }
        ⟨⟨t', rfl, k2⟩, hix⟩ v vals hh hv
      refine ⟨w', g1, g2, g3, g4, g5, g6, g7, g8, ?_⟩
      rw [g9]; simp [nonNulls, hn]
    · rw [if_neg hc]
      refine ⟨_, rfl, ⟨⟨t', rfl, k2⟩, hix⟩, rfl, rfl, rfl, rfl, rfl, rfl, ?_⟩
      simp [nonNulls, hn]

theorem LeafKind.writes_spec {δ κ : Type} (K : LeafKind δ κ) (c : Codec) (o : COpts) {I : κ → Prop} {J : Option κ → Prop}
    (rows : List Value) (w : ColWriter δ κ) (hi : LeafKind.WInv o.writeIndex I J w) (vals : List GoVal) (hh : K.Healthy o.writeIndex I J vals)
    (hv : ∀ v ∈ nonNulls rows, v ∈ vals) (p' : Option (StreamWriter BoolEnc)) (hp : PresentWrites c o w.hasNulls w.present p' rows)
    (d' : δ) (hd : K.dataWrites c o.toWOpts w.data (nonNulls rows) = .ok d') :
    ∃ w', K.writes c o w rows = .ok w' ∧ LeafKind.WInv o.writeIndex I J w' ∧ w'.present = p' ∧ w'.data = d' ∧ w'.hasNulls = w.hasNulls ∧
      w'.flushed = w.flushed ∧ w'.stats.bytesOnDisk = w.stats.bytesOnDisk ∧ w'.stats.hasNull = w.stats.hasNull ∧
      w'.stats.numberOfValues = w.stats.numberOfValues + (nonNulls rows).length := by
  induction rows generalizing w with
  | nil =>
    simp only [nonNulls, List.filterMap_nil, dataWrites, Res.ok.injEq] at hd
    subst hd
    have : p' = w.present := by
      simp only [PresentWrites] at hp
      cases hn : w.hasNulls with
      | true =>
        simp only [hn, if_true, List.map_nil, StreamWriter.writes, Res.ok.injEq] at hp
        obtain ⟨q, q', rfl', rfl'', rfl⟩ := hp
        rw [rfl', rfl'']
      | false => simpa [hn] using hp
    exact ⟨w, rfl, hi, this.symm, rfl, rfl, rfl, rfl, rfl, rfl⟩
  | cons v rows ih =>
    have hsplit : nonNulls (v :: rows) = nonNulls [v] ++ nonNulls rows := by
      simp only [nonNulls]
      rw [← List.filterMap_append]; rfl
    have happ : ∀ (a b : List GoVal) (d : δ), K.dataWrites c o.toWOpts d (a ++ b) =
        (K.dataWrites c o.toWOpts d a >>= fun d => K.dataWrites c o.toWOpts d b) := by
      intro a
      induction a with
      | nil => intro b d; rfl
      | cons x a iha =>
        intro b d
        simp only [List.cons_append, dataWrites, Res.bind_assoc, iha]
    rw [hsplit, happ] at hd
    obtain ⟨d1, e1, e2⟩ := Res.bind_ok_inv hd
    have hpp : ∃ p1, PresentWrites c o w.hasNulls w.present p1 [v] ∧ PresentWrites c o w.hasNulls p1 p' rows := by
      simp only [PresentWrites] at hp ⊢
      cases hn : w.hasNulls with
      | true =>
        simp only [hn, if_true, List.map_cons, StreamWriter.writes] at hp ⊢
        obtain ⟨q, q', e3, e4, e5⟩ := hp
        obtain ⟨q1, e6, e7⟩ := Res.bind_ok_inv e5
        exact ⟨some q1, ⟨q, q1, e3, rfl, by simp [e6, StreamWriter.writes]⟩, ⟨q1, q', rfl, e4, e7⟩⟩
      | false =>
        simp only [hn, Bool.false_eq_true, if_false] at hp ⊢
        exact ⟨w.present, rfl, hp⟩
    obtain ⟨p1, q1, q2⟩ := hpp
    obtain ⟨w1, g1, g2, g3, g4, g5, g6, g7, g8, g9⟩ := K.write_spec c o w hi v vals hh
      (fun hn => hv v.v (by rw [hsplit]; apply List.mem_append_left; simp [nonNulls, hn])) p1 q1 d1 e1
    obtain ⟨w2, k1, k2, k3, k4, k5, k6, k7, k8, k9⟩ := ih w1 g2 (fun x hx => hv x (by rw [hsplit]; exact List.mem_append_right _ hx))
      (by rw [g5, g3]; exact q2) (by rw [g4]; exact e2)
    refine ⟨w2, ?_, k2, k3, k4, by rw [k5, g5], by rw [k6, g6], by rw [k7, g7], by rw [k8, g8], ?_⟩
    · simp only [writes, g1, Res.ok_bind, k1]
    · rw [k9, g9, hsplit, List.length_append]; omega

/-- Streams with their bytes, in file order. -/
abbrev Bodies := List (StreamKind × Bytes)

def Bodies.infos (bs : Bodies) : List (StreamKind × Nat) := bs.map fun b => (b.1, b.2.length)
def Bodies.bytes (bs : Bodies) : Bytes := bs.flatMap (·.2)

/-- A source of streams that has each of the streams somewhere in some file. -/
def Located (o : WOpts) (bs : Bodies) (s : StreamKind → Option StreamReader) : Prop :=
  ∀ b ∈ bs, ∃ pre post, s b.1 = some (streamAt o pre b.2 post)

/-- A stream writer with nothing written since it was made or reset. -/
def StreamWriter.Clean {σ : Type} (c : Codec) (o : WOpts) (P : σ → Prop) (w : StreamWriter σ) : Prop :=
  w.Inv c o [] ∧ w.buf = [] ∧ P w.enc

/-- What is known of the data streams of a column type: `vals` can be written from `d`, the streams yield `outs`, and a
reset makes them clean again. -/
def DataRoundTrip {δ κ ρ : Type} (K : LeafKind δ κ) (R : ReadKind ρ) (c : Codec) (o : WOpts) (clean : δ → Prop) (E : ρ → Prop) (d : δ)
    (vals outs : List GoVal) : Prop :=
  ∃ d1 d2 bs, K.dataWrites c o d vals = .ok d1 ∧ K.streams.flush c o d1 = .ok d2 ∧ (K.streams.writeOut o d2).2 = Bodies.bytes bs ∧
    K.streams.infos d2 = bs.infos ∧ K.streams.infos (K.streams.writeOut o d2).1 = bs.infos ∧
    (bs.map (·.1)).Nodup ∧ (∀ b ∈ bs, b.1 ≠ .present ∧ b.1 ∈ R.kinds) ∧
    (∀ s, Located o bs s → ∃ r r', R.init s = some r ∧ Yields (R.next c) r outs r' ∧ E r') ∧
    (o.kind = .zlib → ∃ d3, K.streams.reset (K.streams.writeOut o d2).1 = .ok d3 ∧ clean d3)

/-- A stream reader over exactly the bytes of a stream, somewhere in some file. -/
def Placed (o : WOpts) (b : StreamKind × Bytes) (s : StreamKind × StreamReader) : Prop :=
  s.1 = b.1 ∧ ∃ pre post, s.2 = streamAt o pre b.2 post

theorem placed_kinds {o : WOpts} {bs : Bodies} {ss : List (StreamKind × StreamReader)} (h : List.Forall₂ (Placed o) bs ss) :
    ss.map (·.1) = bs.map (·.1) := by
  induction h with
  | nil => rfl
  | cons h _ ih => rw [List.map_cons, List.map_cons, ih, h.1]

theorem placeStreams_placed (o : WOpts) (bs : Bodies) (pre post : Bytes) :
    List.Forall₂ (Placed o) bs (placeStreams o.kind o.chunkSize (pre ++ bs.bytes ++ post) pre.length bs.infos) := by
  induction bs generalizing pre with
  | nil => exact .nil
  | cons b bs ih =>
    simp only [Bodies.infos, List.map_cons, placeStreams]
    have e1 : pre ++ b.2 ++ Bodies.bytes bs ++ post = pre ++ Bodies.bytes (b :: bs) ++ post := by simp [Bodies.bytes]
    have := ih (pre ++ b.2)
    rw [e1, List.length_append] at this
    refine .cons ⟨rfl, pre, Bodies.bytes bs ++ post, ?_⟩ this
    simp [streamAt, Bodies.bytes]

theorem placed_find {o : WOpts} {bs : Bodies} {ss : List (StreamKind × StreamReader)} (h : List.Forall₂ (Placed o) bs ss)
    (hn : (bs.map (·.1)).Nodup) (b : StreamKind × Bytes) (hb : b ∈ bs) :
    ∃ pre post, (ss.reverse.find? fun s => s.1 = b.1).map (·.2) = some (streamAt o pre b.2 post) := by
  induction h with
  | nil => simp at hb
  | cons hx hs ih =>
    rename_i x y bs ss
    simp only [List.map_cons, List.nodup_cons] at hn
    simp only [List.reverse_cons, List.find?_append]
    rcases List.mem_cons.mp hb with rfl | hb'
    · have hnone : ss.reverse.find? (fun s => decide (s.1 = b.1)) = none := by
        rw [List.find?_eq_none]
        intro z hz
        rw [List.mem_reverse] at hz
        have : z.1 ∈ bs.map (·.1) := by
          rw [← placed_kinds hs]
          exact List.mem_map_of_mem hz
        simp only [decide_eq_true_eq]
        intro he
        rw [he] at this
        exact hn.1 this
      obtain ⟨h1, pre, post, h2⟩ := hx
      rw [hnone]
      refine ⟨pre, post, ?_⟩
      simp [h1, h2]
    · obtain ⟨pre, post, h⟩ := ih hn.2 hb'
      refine ⟨pre, post, ?_⟩
      rw [← h]
      cases hf : ss.reverse.find? (fun s => decide (s.1 = b.1)) with
      | none => rw [hf] at h; simp at h
      | some z => rfl

/-- Opening a column. -/
theorem openCol_spec {ρ : Type} {R : ReadKind ρ} {o : WOpts} (hasNulls : Bool) (pbody : Bytes) (bs : Bodies)
    (hn : (bs.map (·.1)).Nodup) (hk : ∀ b ∈ bs, b.1 ≠ .present ∧ b.1 ∈ R.kinds)
    (ss : List (StreamKind × StreamReader)) (hss : List.Forall₂ (Placed o) (if hasNulls then (.present, pbody) :: bs else bs) ss) :
    ∃ s, Located o bs s ∧ ∀ r, R.init s = some r →
      ∃ p, R.openCol o.kind hasNulls ss =
        some ⟨hasNulls, o.kind, p, r, none⟩ ∧
        (hasNulls = false → p = none) ∧
        (hasNulls = true → ∃ pre' post', p = some (newBoolReader (streamAt o pre' pbody post'))) := by
  generalize hall : (if hasNulls then (.present, pbody) :: bs else bs : Bodies) = all at hss
  have hnall : (all.map (·.1)).Nodup := by
    rw [← hall]
    cases hasNulls with
    | false => simpa using hn
    | true =>
      simp only [if_true, List.map_cons, List.nodup_cons]
      refine ⟨fun hm => ?_, hn⟩
      obtain ⟨b, hb, he⟩ := List.mem_map.mp hm
      exact (hk b hb).1 he
  have hsub : ∀ b ∈ bs, b ∈ all := by
    intro b hb
    rw [← hall]
    cases hasNulls <;> simp [hb]
  refine ⟨fun k => (ss.reverse.find? fun s => s.1 = k).map (·.2),
    fun b hb => placed_find hss hnall b (hsub b hb), fun r hr => ?_⟩
  refine ⟨(((ss.reverse.find? fun s => s.1 = .present).map
    (·.2)).map newBoolReader), ?_, ?_, ?_⟩
  · simp only [ReadKind.openCol]
    rw [if_pos, hr]
    · rfl
    · rw [List.all_eq_true]
      intro x hx
      have hx1 : x.1 ∈ all.map (·.1) := by
        rw [← placed_kinds hss]
        exact List.mem_map_of_mem hx
      obtain ⟨b, hb, he⟩ := List.mem_map.mp hx1
      rw [← he]
      rw [← hall] at hb
      have hdat : ∀ b ∈ bs, R.accepts hasNulls b.1 = true := by
        intro b hb
        obtain ⟨h1, h2⟩ := hk b hb
        cases hb1 : b.1 <;> simp_all [ReadKind.accepts]
      cases hasNulls with
      | false =>
        simp only [Bool.false_eq_true, if_false] at hb
        exact hdat b hb
      | true =>
        simp only [if_true] at hb
        rcases List.mem_cons.mp hb with rfl | hb'
        · simp [ReadKind.accepts]
        · exact hdat b hb'
  · intro hf
    subst hf
    have : ss.reverse.find? (fun s => decide (s.1 = .present)) = none := by
      rw [List.find?_eq_none]
      intro y hy
      rw [List.mem_reverse] at hy
      have hy1 : y.1 ∈ all.map (·.1) := by
        rw [← placed_kinds hss]
        exact List.mem_map_of_mem hy
      obtain ⟨b, hb, he⟩ := List.mem_map.mp hy1
      rw [← hall, if_neg (by simp)] at hb
      simp only [decide_eq_true_eq, ← he]
      exact (hk b hb).1
    rw [this]; rfl
  · intro ht
    obtain ⟨pre', post', h⟩ := placed_find hss hnall (.present, pbody) (by rw [← hall, if_pos ht]; simp)
    refine ⟨pre', post', ?_⟩
    simp only at h
    rw [h]; rfl

theorem StreamWriter.reset_clean {σ : Type} {c : Codec} {o : WOpts} (w2 : StreamWriter σ) (P : σ → Prop) (hP : P w2.enc)
    (hc : o.kind = .zlib → w2.cbuf.isSome = true) (hz : o.kind = .zlib) : ∃ w3, (w2.writeOut o).1.reset = .ok w3 ∧ w3.Clean c o P := by
  have h := hc hz
  cases hb : w2.cbuf with
  | none => simp [hb] at h
  | some cb =>
    refine ⟨{ enc := w2.enc, buf := [], cbuf := some [], length := 0 }, ?_, ?_, rfl, hP⟩
    · simp [StreamWriter.writeOut, hz, StreamWriter.reset, hb]
    · simp [StreamWriter.Inv, hz, chunkBytes]

theorem writeOut_length {σ : Type} (o : WOpts) (w : StreamWriter σ) : (w.writeOut o).1.length = w.length := by
  simp only [StreamWriter.writeOut]
  by_cases hk : o.kind = .none <;> simp [hk]

/-- The end of a present stream of `n` flags: the padding of the last byte, then nothing. -/
def PresentEnd (c : Codec) (n : Nat) (p : BoolReader) : Prop :=
  ∃ p', Yields (BoolReader.next c) p (padding n) p' ∧ Ends (BoolReader.next c) p'

/-- What is known of the present stream. -/
def PresentTrip (c : Codec) (o : WOpts) (q : StreamWriter BoolEnc) (flags : List Bool) : Prop :=
  ∃ q1 q2, q.writes boolEnc c o (flags.map .bool) = .ok q1 ∧
    q1.flush boolEnc c o = .ok q2 ∧ q2.length = (q2.writeOut o).2.length ∧
    (∀ pre post, ∃ r', Yields (BoolReader.next c) (newBoolReader (streamAt o pre (q2.writeOut o).2 post)) flags r' ∧ PresentEnd c flags.length r') ∧
    (o.kind = .zlib → ∃ q3, (q2.writeOut o).1.reset = .ok q3 ∧
      q3.Clean c o fun e => e.index = -1 ∧ e.brl.WF ∧ e.brl.values = [] ∧ e.value = packByte (trailing flags))

/-- A boolean stream starting with no stale bits. -/
def CleanBool (e : BoolEnc) : Prop := e.index = -1 ∧ e.brl.WF ∧ e.brl.values = [] ∧ e.value = 0

theorem bool_run_clean (e : BoolEnc) (he : CleanBool e) (flags : List Bool) :
    ∃ e' out bytes, boolEnc.run e ((flags.map GoVal.bool).map .encode ++ [.flush]) = .ok (e', out) ∧ Decodes decodeByteRL out bytes ∧
      bytes.flatMap boolsOfByte = flags ++ padding flags.length ∧
      (e'.index = -1 ∧ e'.brl.WF ∧ e'.brl.values = [] ∧ e'.value = packByte (trailing flags)) := by
  obtain ⟨h1, h2, h3, h4⟩ := he
  obtain ⟨e', out, g1, g2, g3, g4, g5⟩ := boolEnc_group e 0 (by omega) h1 h2 flags
  have hf := fedBytes_clean [] flags (by simp)
  have hz : packByte [] = 0 := rfl
  simp only [List.nil_append, List.length_nil, hz, ← h4] at hf
  rw [h3, List.nil_append] at g5
  exact ⟨e', out, _, g1, g5, hf.1, g2, by rw [ByteEnc.WF, g4]; simp, g4, by rw [g3, hf.2.1]⟩

theorem present_trip (c : Codec) (hc : c.Lossless) (o : WOpts) (ho : o.Sound) (q : StreamWriter BoolEnc) (hq : q.Clean c o CleanBool)
    (flags : List Bool) : PresentTrip c o q flags := by
  obtain ⟨e', out', bytes, h1, h2, h3, h4⟩ := bool_run_clean q.enc hq.2.2 flags
  obtain ⟨w1, w2, cs, g1, g2, g3, g4, g5, g6⟩ := stream_spec boolEnc c hc o ho q hq.1 hq.2.1 _ e' out' h1
  refine ⟨w1, w2, g1, g2, g5, fun pre post => ?_, fun hz => StreamWriter.reset_clean w2 _ (by rw [g3]; exact h4) g6 hz⟩
  have hr := BoolReader.fresh (newStreamReader_represents c o.kind o.chunkSize pre _ post out' (g4.feed ho post)) h2
  rw [h3] at hr
  obtain ⟨r', k1, k2, -⟩ := BoolReader.yields_spec flags (padding flags.length) hr
  obtain ⟨r2, k3, k4, -⟩ := BoolReader.yields_spec (padding flags.length) [] (by simpa using k2)
  exact ⟨r', k1, r2, k3, BoolReader.end_spec k4⟩

/-- The whole of a column from any state of its writer: written, opened again, and holding its rows. -/
theorem column_spec_from {δ κ ρ : Type} (K : LeafKind δ κ) (R : ReadKind ρ) (c : Codec) (o : COpts)
    (clean : δ → Prop) (E : ρ → Prop) (w : ColWriter δ κ) (written : List Value) (flags : List Bool) (outs : List GoVal) (I : κ → Prop) (J : Option κ → Prop)
    (hw : LeafKind.WInv o.writeIndex I J w) (hh : K.Healthy o.writeIndex I J (nonNulls written))
    (hp : if w.hasNulls then ∃ q, w.present = some q ∧ PresentTrip c o.toWOpts q flags else w.present = none)
    (hd : DataRoundTrip K R c o.toWOpts clean E w.data (nonNulls written) outs)
    (hflags : w.hasNulls = true → flags = written.map (fun v => !v.null)) (hnull : w.hasNulls = false → flags.all id = true) :
    ∃ (w1 w2 w3 : ColWriter δ κ) (all : Bodies), K.writes c o w written = .ok w1 ∧ K.flush c o w1 = .ok w2 ∧ K.writeOut o w2 = .ok (w3, all.bytes) ∧
      K.streamInfos w2 = K.streamInfos w3 ∧ K.streamInfos w3 = all.infos ∧
      (∀ ss, List.Forall₂ (Placed o.toWOpts) all ss → ∃ r, R.openCol o.kind w.hasNulls ss = some r ∧
        R.Has c (PresentEnd c flags.length) E r flags outs ∧ (r.present = none ↔ w.hasNulls = false)) ∧
      LeafKind.WInv o.writeIndex I J w3 ∧ w3.hasNulls = w.hasNulls ∧
      w3.stats.numberOfValues = w.stats.numberOfValues + (nonNulls written).length ∧
      (o.kind = .zlib → (∃ d, K.streams.reset w3.data = .ok d ∧ clean d) ∧
        if w.hasNulls then ∃ q q', w3.present = some q ∧ q.reset = .ok q' ∧ 
          q'.Clean c o.toWOpts fun e => e.index = -1 ∧ e.brl.WF ∧ e.brl.values = [] ∧ e.value = packByte (trailing flags)
        else w3.present = none) := by
  obtain ⟨d1, d2, bs, a1, a2, a3, a4, a4', a5, a6, a7, a8⟩ := hd
  cases hn : w.hasNulls with
  | true =>
    simp only [hn, if_true] at hp
    obtain ⟨q, hq, q1, q2, b1, b2, b3, b4, b5⟩ := hp
    have hflag : (written.map fun v => GoVal.bool (!v.null)) = flags.map .bool := by
      rw [hflags hn]; simp [Function.comp_def]
    rw [← hflag] at b1
    obtain ⟨w1, c1, c2, c3, c4, c5, c6, c7, -, c9⟩ := K.writes_spec c o written w hw
      (nonNulls written) hh (fun _ h => h) (some q1) (by
        simp only [PresentWrites, hn, if_true]
        exact ⟨q, q1, hq, rfl, b1⟩) d1 a1
    rw [hn] at c5
    have hout : ∃ w2 w3, K.flush c o w1 = .ok w2 ∧ K.writeOut o w2 = .ok (w3, (q2.writeOut o.toWOpts).2 ++ bs.bytes) ∧
        K.streamInfos w2 = [(.present, (q2.writeOut o.toWOpts).2.length)] ++ bs.infos ∧
        K.streamInfos w3 = [(.present, (q2.writeOut o.toWOpts).2.length)] ++ bs.infos ∧
        LeafKind.WInv o.writeIndex I J w3 ∧ w3.hasNulls = true ∧ w3.stats.numberOfValues = w1.stats.numberOfValues ∧
        w3.data = (K.streams.writeOut o.toWOpts d2).1 ∧ w3.present = some (q2.writeOut o.toWOpts).1 := by
      obtain ⟨⟨t, ht, hIt⟩, hix⟩ := c2
      simp only [LeafKind.flush, c5, if_true, c3, b2, c4, a2, Res.ok_bind, Res.pure_eq]
      refine ⟨_, _, rfl, (by simp only [LeafKind.writeOut, Bool.true_eq_false, and_false, if_false, if_true, a3]; rfl), ?_, ?_, ?_, ?_, ?_, ?_, ?_⟩
      · simp only [LeafKind.streamInfos, if_true, Option.map_some, Option.getD_some, a4, b3]
      · simp only [LeafKind.streamInfos, if_true, Option.map_some, Option.getD_some, a4', writeOut_length, b3]
      · exact ⟨⟨t, ht, hIt⟩, hix⟩
      · rfl
      · rfl
      · rfl
      · rfl
    obtain ⟨w2, w3, f1, g1, g2, g3, g4, g5, g6, g7, g8⟩ := hout
    refine ⟨w1, w2, w3, (.present, (q2.writeOut o.toWOpts).2) :: bs, c1, f1, by rw [g1]; simp [Bodies.bytes], by rw [g2, g3],
      by rw [g3]; simp [Bodies.infos], fun ss hss => ?_, g4, g5, by rw [g6, c9], fun hz => ?_⟩
    · obtain ⟨s, h1, h2⟩ := openCol_spec (R := R) (o := o.toWOpts) true (q2.writeOut o.toWOpts).2 bs a5 a6 ss (by rw [if_pos rfl]; exact hss)
      obtain ⟨r, r', i1, i2, iE⟩ := a7 s h1
      obtain ⟨p, j1, j2, j3⟩ := h2 r i1
      refine ⟨⟨true, o.kind, p, r, none⟩, j1, ?_, ?_⟩
      · obtain ⟨pre', post', rfl⟩ := j3 rfl
        obtain ⟨p', k, kF⟩ := b4 pre' post'
        simp only [ReadKind.Has]
        exact ⟨p', r', k, kF, i2, iE⟩
      · obtain ⟨pre', post', rfl⟩ := j3 rfl; simp
    · simp only [if_true]
      obtain ⟨q3, k1, k2⟩ := b5 hz
      refine ⟨by rw [g7]; exact a8 hz, _, q3, g8, k1, k2⟩
  | false =>
    simp only [hn, Bool.false_eq_true, if_false] at hp
    obtain ⟨w1, c1, c2, c3, c4, c5, c6, c7, -, c9⟩ := K.writes_spec c o written w hw
      (nonNulls written) hh (fun _ h => h) none (by simp [PresentWrites, hn, hp]) d1 a1
    rw [hn] at c5
    have hout : ∃ w2 w3, K.flush c o w1 = .ok w2 ∧ K.writeOut o w2 = .ok (w3, bs.bytes) ∧
        K.streamInfos w2 = bs.infos ∧ K.streamInfos w3 = bs.infos ∧
        LeafKind.WInv o.writeIndex I J w3 ∧ w3.hasNulls = false ∧ w3.stats.numberOfValues = w1.stats.numberOfValues ∧
        w3.data = (K.streams.writeOut o.toWOpts d2).1 ∧ w3.present = none := by
      obtain ⟨⟨t, ht, hIt⟩, hix⟩ := c2
      simp only [LeafKind.flush, c5, Bool.false_eq_true, if_false, c3, c4, a2, Res.ok_bind, Res.pure_eq]
      refine ⟨_, _, rfl, (by simp only [LeafKind.writeOut, Bool.true_eq_false, and_false, if_false, Bool.false_eq_true, a3]; rfl), ?_, ?_, ?_, ?_, ?_, ?_, ?_⟩
      · simp only [LeafKind.streamInfos, Bool.false_eq_true, if_false, List.nil_append, a4]
      · simp only [LeafKind.streamInfos, Bool.false_eq_true, if_false, List.nil_append, a4']
      · exact ⟨⟨t, ht, hIt⟩, hix⟩
      · rfl
      · rfl
      · rfl
      · rfl
    obtain ⟨w2, w3, f1, g1, g2, g3, g4, g5, g6, g7, g8⟩ := hout
    refine ⟨w1, w2, w3, bs, c1, f1, g1, by rw [g2, g3], g3, fun ss hss => ?_, g4, g5, by rw [g6, c9], fun hz => ?_⟩
    · obtain ⟨s, h1, h2⟩ := openCol_spec (R := R) (o := o.toWOpts) false [] bs a5 a6 ss (by rw [if_neg (by simp)]; exact hss)
      obtain ⟨r, r', i1, i2, iE⟩ := a7 s h1
      obtain ⟨p, j1, j2, j3⟩ := h2 r i1
      refine ⟨⟨false, o.kind, p, r, none⟩, j1, ?_, ?_⟩
      · rw [j2 rfl]
        simp only [ReadKind.Has]
        exact ⟨r', hnull hn, i2, iE⟩
      · simp [j2 rfl]
    · simp only [Bool.false_eq_true, if_false]
      exact ⟨by rw [g7]; exact a8 hz, g8⟩

theorem newStreamWriter_clean {σ : Type} (c : Codec) (o : WOpts) (ho : o.Sound) (e : σ) (P : σ → Prop) (hP : P e) :
    (newStreamWriter o e).Clean c o P := ⟨newStreamWriter_inv c o ho e, rfl, hP⟩

/-- A new column. -/
theorem column_spec {δ κ ρ : Type} (K : LeafKind δ κ) (R : ReadKind ρ) (c : Codec) (hc : c.Lossless) (o : COpts) (ho : o.toWOpts.Sound)
    (clean : δ → Prop) (E : ρ → Prop) (hasNulls : Bool) (written : List Value) (flags : List Bool) (outs : List GoVal) (I : κ → Prop) (J : Option κ → Prop)
    (hI : I K.fresh) (hJ : J K.firstIndex) (hh : K.Healthy o.writeIndex I J (nonNulls written))
    (hd : DataRoundTrip K R c o.toWOpts clean E (K.newData o.toWOpts) (nonNulls written) outs)
    (hflags : hasNulls = true → flags = written.map (fun v => !v.null)) (hnull : hasNulls = false → flags.all id = true) :
    ∃ infos body, writeColumn K c o hasNulls written = .ok (infos, body) ∧ (infos.map (·.2)).sum = body.length ∧ ∀ pre post, ∃ r,
      R.openCol o.kind hasNulls (placeStreams o.kind o.chunkSize (pre ++ body ++ post) pre.length infos) = some r ∧
      R.Has c (PresentEnd c flags.length) E r flags outs ∧ (r.present = none ↔ hasNulls = false) := by
  obtain ⟨w1, w2, w3, all, h1, h2, h3, h4, h5, h6, -⟩ := column_spec_from K R c o clean E (K.newWriter o hasNulls) written flags outs I J
    (K.newWriter_inv o hasNulls hI hJ) hh (by
      cases hasNulls with
      | true =>
        simp only [LeafKind.newWriter, if_true]
        exact ⟨_, rfl, present_trip c hc o.toWOpts ho _ (newStreamWriter_clean c o.toWOpts ho _ _ ⟨rfl, newByteEncoder_wf _, rfl, rfl⟩) _⟩
      | false => simp [LeafKind.newWriter]) hd hflags hnull
  refine ⟨_, _, by simp only [writeColumn, h1, h2, h3, Res.ok_bind, Res.pure_eq]; rfl, ?_, fun pre post => ?_⟩
  · rw [h5]; simp [Bodies.infos, Bodies.bytes, List.length_flatMap, Function.comp_def]
  · rw [h5]
    exact h6 _ (placeStreams_placed o.toWOpts all pre post)

/-- From `column_spec` to reading in batches. -/
theorem column_reads {δ κ ρ : Type} (K : LeafKind δ κ) (R : ReadKind ρ) (c : Codec) (hc : c.Lossless) (o : COpts) (ho : o.toWOpts.Sound)
    (clean : δ → Prop) (E : ρ → Prop) (hasNulls : Bool) (written : List Value) (rows : List (Option GoVal)) (I : κ → Prop) (J : Option κ → Prop)
    (hI : I K.fresh) (hJ : J K.firstIndex) (hh : K.Healthy o.writeIndex I J (nonNulls written))
    (hd : DataRoundTrip K R c o.toWOpts clean E (K.newData o.toWOpts) (nonNulls written) (rows.filterMap id))
    (hflags : hasNulls = true → rows.map (·.isSome) = written.map (fun v => !v.null)) (hnull : hasNulls = false → rows.all (·.isSome) = true)
    (hprep : ∀ d : ρ, R.prepare c d = .ok d) (hst : R.store = replaceValue) :
    ColumnReadsBack K R c o hasNulls written rows := by
  obtain ⟨infos, body, h1, -, h2⟩ := column_spec K R c hc o ho clean E hasNulls written _ _ I J hI hJ hh hd hflags
    (fun h => by rw [List.all_map]; exact hnull h)
  refine ⟨infos, body, h1, fun pre post vecs hl hu => ?_⟩
  obtain ⟨r, g1, g2, g3⟩ := h2 pre post
  obtain ⟨r', k1, -⟩ := ReadKind.Holds.batches hprep (fun _ x => x) vecs (rows := rows) g2 hl (fun hn => hu (g3.mp hn)) (by intro old _ x; rw [hst]; rfl)
  simp only [readColumn, g1, k1, Res.ok_bind, Res.pure_eq, storeAll_replace]

end Goorc
