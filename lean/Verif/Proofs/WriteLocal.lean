import Verif.Props.Batching
import Verif.Spec.WriteLocal
/- One column of the stripes: lemmas for Props/WriteLocal.lean. -/
namespace Goorc

/-! ### The column of a table -/

/-- What a row has for a column. -/
def onlyAt (j : Nat) (r : List (Nat × Value)) : Row := (rowOf r).filter fun x => x.1 = j

theorem columnWritten_raw (j : Nat) (batches : List Vec) : columnWritten j batches = (batches.flatMap Vec.rawRows).map (onlyAt j) := by
  have raws : ∀ bs : List Vec, (bs.flatMap Vec.rawRows).map rowOf = bs.flatMap Vec.tableRows := by
    intro bs; induction bs with
    | nil => rfl
    | cons v vs ih => simp only [List.flatMap_cons, List.map_append, ih, Vec.rawRows_table]
  rw [columnWritten, ← raws, List.map_map]
  rfl

theorem onlyAt_column (j : Nat) (r : List (Nat × Value)) : (onlyAt j r).map (·.2) = (columnOf j r).map Value.row := by
  induction r with
  | nil => rfl
  | cons x r ih =>
    by_cases h : x.1 = j <;> simp [onlyAt, rowOf, columnOf, h] at ih ⊢ <;> exact ih

theorem columnOf_same {j : Nat} {rows rows' : Raws} (h : rows.map (onlyAt j) = rows'.map (onlyAt j)) :
    (columnOf j rows.flatten).map Value.row = (columnOf j rows'.flatten).map Value.row := by
  have key : ∀ rows : Raws, (columnOf j rows.flatten).map Value.row = (rows.map (onlyAt j)).flatMap fun r => r.map (·.2) := by
    intro rows
    induction rows with
    | nil => rfl
    | cons r rs ih => simp only [List.flatten_cons, columnOf_append, List.map_append, ih, List.map_cons, List.flatMap_cons, onlyAt_column]
  rw [key, key, h]

theorem AnyWriter.writes_rows {A : Arith} {c : Codec} {o : COpts} : ∀ (xs ys : List Value) (w : AnyWriter), xs.map Value.row = ys.map Value.row →
    w.writes A c o xs = w.writes A c o ys
  | [], [], _, _ => rfl
  | [], _ :: _, _, h => by simp at h
  | _ :: _, [], _, h => by simp at h
  | x :: xs, y :: ys, w, h => by
    simp only [List.map_cons, List.cons.injEq] at h
    simp only [AnyWriter.writes]
    rw [AnyWriter.write_row A c o w h.1]
    congr 1
    funext w'
    exact AnyWriter.writes_rows xs ys w' h.2

/-! ### Calls on all writers, seen from one -/

theorem onWriters_at {f : AnyWriter → Res AnyWriter} {ws ws' : List AnyWriter} (h : onWriters f ws = .ok ws') :
    ws'.length = ws.length ∧ ∀ (j : Nat) (w : AnyWriter), ws[j]? = some w → ∃ w', ws'[j]? = some w' ∧ f w = .ok w' := by
  induction ws generalizing ws' with
  | nil => simp only [onWriters] at h; injection h with h; subst h; exact ⟨rfl, by simp⟩
  | cons w ws ih =>
    simp only [onWriters] at h
    obtain ⟨w1, h1, h⟩ := Res.bind_ok_inv h
    obtain ⟨ws1, h2, h⟩ := Res.bind_ok_inv h
    injection h with h; subst h
    obtain ⟨g1, g2⟩ := ih h2
    refine ⟨by simp [g1], fun j x hx => ?_⟩
    cases j with
    | zero => simp only [List.getElem?_cons_zero, Option.some.injEq] at hx; subst hx; exact ⟨w1, rfl, h1⟩
    | succ j => simpa using g2 j x (by simpa using hx)

theorem newWriters_at {A : Arith} {o : COpts} {ns : List SchemaNode} {ws : List AnyWriter} (h : newWriters A o ns = .ok ws) :
    ws.length = ns.length ∧ ∀ (j : Nat) (n : SchemaNode), ns[j]? = some n → ∃ w, ws[j]? = some w ∧ AnyWriter.new A o n = .ok w := by
  induction ns generalizing ws with
  | nil => simp only [newWriters] at h; injection h with h; subst h; exact ⟨rfl, by simp⟩
  | cons n ns ih =>
    simp only [newWriters] at h
    obtain ⟨w1, h1, h⟩ := Res.bind_ok_inv h
    obtain ⟨ws1, h2, h⟩ := Res.bind_ok_inv h
    injection h with h; subst h
    obtain ⟨g1, g2⟩ := ih h2
    refine ⟨by simp [g1], fun j x hx => ?_⟩
    cases j with
    | zero => simp only [List.getElem?_cons_zero, Option.some.injEq] at hx; subst hx; exact ⟨w1, rfl, h1⟩
    | succ j => simpa using g2 j x (by simpa using hx)

/-- The flushed columns, written out one after the other. -/
theorem writeOuts_at {A : Arith} {c : Codec} {o : COpts} {ns : List SchemaNode} {ws ws1 ws2 : List AnyWriter} {b : Bytes} (hlen : ws.length = ns.length)
    (h1 : onWriters (fun w => w.flush A c o) ws = .ok ws1) (h2 : StripeWriter.writeOuts A o ws1 = .ok (ws2, b)) :
    ∃ bss : List Bodies, bss.length = ns.length ∧ ws2.length = ns.length ∧ b = ((ns.zip bss).flatMap fun x => tagged x.1 x.2).flatMap (·.2) ∧
      ((ns.zip ws2).flatMap fun x => (x.2.streamInfos A).map fun i => (⟨i.1, x.1.id, i.2⟩ : StreamInfo)) =
        ((ns.zip bss).flatMap fun x => tagged x.1 x.2).map (·.1) ∧
      ∀ (j : Nat) (w : AnyWriter), ws[j]? = some w → ∃ w1 w2 bs, w.flush A c o = .ok w1 ∧ w1.writeOut A o = .ok (w2, bs.bytes) ∧ w2.streamInfos A = bs.infos ∧
        ws2[j]? = some w2 ∧ bss[j]? = some bs := by
  induction ws generalizing ns ws1 ws2 b with
  | nil =>
    simp only [onWriters] at h1; injection h1 with h1; subst h1
    simp only [StripeWriter.writeOuts] at h2; injection h2 with h2; injection h2 with h2 hb; subst h2; subst hb
    exact ⟨[], by simp at hlen; simp [← hlen], by simpa using hlen, by simp, by simp, by simp⟩
  | cons w ws ih =>
    cases ns with
    | nil => simp at hlen
    | cons n ns =>
      simp only [onWriters] at h1
      obtain ⟨v1, g1, h1⟩ := Res.bind_ok_inv h1
      obtain ⟨vs1, g2, h1⟩ := Res.bind_ok_inv h1
      injection h1 with h1; subst h1
      simp only [StripeWriter.writeOuts] at h2
      obtain ⟨⟨v2, x⟩, k1, h2⟩ := Res.bind_ok_inv h2
      obtain ⟨⟨vs2, y⟩, k2, h2⟩ := Res.bind_ok_inv h2
      injection h2 with h2; injection h2 with h2 hb; subst h2; subst hb
      obtain ⟨bs, e1, e2, e3⟩ := AnyWriter.flush_writeOut g1 k1
      obtain ⟨bss, f0, f1, f2, f3, f4⟩ := ih (by simpa using hlen) g2 k2
      subst e1
      refine ⟨bs :: bss, by simp [f0], by simp [f1], ?_, ?_, ?_⟩
      · simp only [List.zip_cons_cons, List.flatMap_cons, List.flatMap_append, ← f2]
        simp [tagged, Bodies.bytes, List.flatMap_map]
      · simp only [List.zip_cons_cons, List.flatMap_cons, f3, List.map_append, e2]
        simp [Bodies.infos, tagged]
      · intro j u hu
        cases j with
        | zero =>
          simp only [List.getElem?_cons_zero, Option.some.injEq] at hu; subst hu
          exact ⟨v1, v2, bs, g1, k1, e2, rfl, rfl⟩
        | succ j => simpa using f4 j u (by simpa using hu)

theorem tagged_at {ns : List SchemaNode} {bss : List Bodies} (hlen : bss.length = ns.length) (hn : (ns.map (·.id)).Nodup) (j : Nat) (n : SchemaNode) (bs : Bodies)
    (h1 : ns[j]? = some n) (h2 : bss[j]? = some bs) : ((ns.zip bss).flatMap fun x => tagged x.1 x.2).filter (fun s => decide (s.1.column = n.id)) = tagged n bs := by
  have hother : ∀ (m : SchemaNode) (bs : Bodies) (j : Nat), m.id ≠ j → (tagged m bs).filter (fun s => decide (s.1.column = j)) = [] := by
    intro m bs j hne
    rw [List.filter_eq_nil_iff]
    intro s hs
    obtain ⟨b, -, rfl⟩ := List.mem_map.1 hs
    simpa using hne
  have hself : (tagged n bs).filter (fun s => decide (s.1.column = n.id)) = tagged n bs := by
    rw [List.filter_eq_self]
    intro s hs
    obtain ⟨b, -, rfl⟩ := List.mem_map.1 hs
    simp
  induction ns generalizing bss j with
  | nil => simp at h1
  | cons m ns ih =>
    cases bss with
    | nil => simp at h2
    | cons cs bss =>
      simp only [List.map_cons, List.nodup_cons] at hn
      simp only [List.zip_cons_cons, List.flatMap_cons, List.filter_append]
      cases j with
      | zero =>
        simp only [List.getElem?_cons_zero, Option.some.injEq] at h1 h2
        subst h1; subst h2
        have : ((ns.zip bss).flatMap fun x => tagged x.1 x.2).filter (fun s => decide (s.1.column = m.id)) = [] := by
          rw [List.filter_flatMap, List.flatMap_eq_nil_iff]
          intro x hx
          apply hother
          intro he
          exact hn.1 (he ▸ List.mem_map_of_mem (List.of_mem_zip hx).1)
        rw [this, hself, List.append_nil]
      | succ j =>
        simp only [List.getElem?_cons_succ] at h1 h2
        rw [ih (by simpa using hlen) hn.2 j h1 h2, hother m cs n.id, List.nil_append]
        intro he
        exact hn.1 (he ▸ List.mem_map_of_mem (List.mem_of_getElem? h1))

/-! ### One stripe, one column -/

/-- What the writer of a column does for one stripe. -/
def ColStripe (E : Env) (o : FOpts) (n : SchemaNode) (w : AnyWriter) (vals : List Value) (ss : List (StreamInfo × Bytes)) (w3 : AnyWriter) : Prop :=
  ∃ w1 w2 bs, w.writes E.A E.c o.toCOpts vals = .ok w1 ∧ w1.flush E.A E.c o.toCOpts = .ok w2 ∧ w2.writeOut E.A o.toCOpts = .ok (w3, Bodies.bytes bs) ∧
    w3.streamInfos E.A = bs.infos ∧ ss = tagged n bs

theorem ColStripe.unique {E : Env} {o : FOpts} {n : SchemaNode} {w : AnyWriter} {vals vals' : List Value} {ss ss' : List (StreamInfo × Bytes)}
    {w3 w3' : AnyWriter} (h : ColStripe E o n w vals ss w3) (h' : ColStripe E o n w vals' ss' w3') (hv : vals.map Value.row = vals'.map Value.row) : ss = ss' ∧ w3 = w3' := by
  obtain ⟨w1, w2, bs, a1, a2, a3, a4, rfl⟩ := h
  obtain ⟨u1, u2, bs', b1, b2, b3, b4, rfl⟩ := h'
  rw [← AnyWriter.writes_rows vals vals' w hv, a1] at b1; injection b1 with b1; subst b1
  rw [a2] at b2; injection b2 with b2; subst b2
  rw [a3] at b3; injection b3 with b3; injection b3 with b3 b5; subst b3
  rw [a4] at b4
  rw [Bodies.ext b4 b5]
  exact ⟨rfl, rfl⟩

theorem StripeRun.column {E : Env} {o : FOpts} {ns : List SchemaNode} {ws ws3 : List AnyWriter} {rows : Raws} {p : StripeParts}
    (hlen : ws.length = ns.length) (hids : ns.map (·.id) = List.range ns.length) (hp : ∀ s ∈ p.streams, s.1.length = s.2.length)
    (h : StripeRun E o ns ws rows p ws3) : ws3.length = ns.length ∧
      ∀ (j : Nat) (n : SchemaNode) (w : AnyWriter), ns[j]? = some n → ws[j]? = some w →
        ∃ w3, ws3[j]? = some w3 ∧ ColStripe E o n w (columnOf j rows.flatten) (p.streamsOf j) w3 := by
  obtain ⟨ws1, ws2, h1, h2, h3, h4, -⟩ := h
  obtain ⟨g1, g2⟩ := writeCells_column _ _ _ h1
  obtain ⟨bss, e0, e1, e2, e3, e4⟩ := writeOuts_at (ns := ns) (by rw [g1, hlen]) h2 h3
  have hnd : (ns.map (·.id)).Nodup := by rw [hids]; exact List.nodup_range
  have hstreams : p.streams = (ns.zip bss).flatMap fun x => tagged x.1 x.2 := by
    refine streams_ext (by rw [h4, e3]) (by rw [← e2]; rfl) hp ?_
    intro s hs
    obtain ⟨x, -, hs⟩ := List.mem_flatMap.1 hs
    obtain ⟨b, -, rfl⟩ := List.mem_map.1 hs
    rfl
  refine ⟨e1, fun j n w hn hw => ?_⟩
  obtain ⟨w1, k1, k2⟩ := g2 j w hw
  obtain ⟨w2, w3, bs, f1, f2, f3, f4, f5⟩ := e4 j w1 k1
  refine ⟨w3, f4, w1, w2, bs, k2, f1, f2, f3, ?_⟩
  have hid : n.id = j := by
    have := congrArg (fun l => l[j]?) hids
    have hj : j < ns.length := (List.getElem?_eq_some_iff.1 hn).1
    simp only [List.getElem?_map, hn, Option.map_some, List.getElem?_range hj, Option.some.injEq] at this
    exact this
  have := tagged_at e0 hnd j n bs hn f5
  rw [hid] at this
  rw [StripeParts.streamsOf, hstreams, this]

/-! ### The stripes of a file -/

/-- The stripes of a file, one after the other: each begins with the writers the one before it left, reset. -/
structure StripesRun (E : Env) (o : FOpts) (ns : List SchemaNode) (ws0 : List AnyWriter) (L : List WrittenStripe) : Prop where
  head : ∀ x, L[0]? = some x → x.start = ws0
  run : ∀ (k : Nat) (x : WrittenStripe), L[k]? = some x → ∃ ws3, StripeRun E o ns x.start x.rows x.part ws3 ∧
    ∀ y, L[k + 1]? = some y → onWriters (fun w => w.reset E.A o.toCOpts) ws3 = .ok y.start

theorem runs_of_chain {E : Env} {o : FOpts} {ns : List SchemaNode} : ∀ (runs : List WrittenStripe) (last : WrittenStripe) (ws0 ws3 : List AnyWriter),
    (runs ++ [last]).IsChain (WrittenStripe.Next E o ns) → (runs ++ [last]).head?.map (·.start) = some ws0 →
    StripeRun E o ns last.start last.rows last.part ws3 → StripesRun E o ns ws0 (runs ++ [last])
  | [], last, ws0, ws3, _, h2, h3 => by
    refine ⟨fun x hx => ?_, fun k x hx => ?_⟩
    · simp only [List.nil_append, List.getElem?_cons_zero, Option.some.injEq] at hx
      subst hx; simpa using h2
    · cases k with
      | zero =>
        simp only [List.nil_append, List.getElem?_cons_zero, Option.some.injEq] at hx
        subst hx
        exact ⟨ws3, h3, fun y hy => by simp at hy⟩
      | succ k => simp at hx
  | r :: rs, last, ws0, ws3, h1, h2, h3 => by
    obtain ⟨m1, m2⟩ := List.isChain_cons.1 (by simpa using h1 : (r :: (rs ++ [last])).IsChain (WrittenStripe.Next E o ns))
    obtain ⟨y, hy⟩ : ∃ y, (rs ++ [last]).head? = some y := by cases rs <;> simp
    have ih := runs_of_chain rs last y.start ws3 m2 (by rw [hy]; rfl) h3
    refine ⟨fun x hx => ?_, fun k x hx => ?_⟩
    · simp only [List.cons_append, List.getElem?_cons_zero, Option.some.injEq] at hx
      subst hx; simpa using h2
    · cases k with
      | zero =>
        simp only [List.cons_append, List.getElem?_cons_zero, Option.some.injEq] at hx
        subst hx
        obtain ⟨ws, a, b⟩ := m1 y hy
        refine ⟨ws, a, fun z hz => ?_⟩
        simp only [List.cons_append, List.getElem?_cons_succ] at hz
        rw [← List.head?_eq_getElem?, hy] at hz
        injection hz with hz; subst hz
        exact b
      | succ k => simpa using ih.run k x (by simpa using hx)

section
variable {E : Env} {o : FOpts} {ns1 ns2 : List SchemaNode} {a0 b0 : List AnyWriter} {L1 L2 : List WrittenStripe}

theorem StripesRun.lengths {ns : List SchemaNode} {ws0 : List AnyWriter} {L : List WrittenStripe} (h : StripesRun E o ns ws0 L) (hl : ws0.length = ns.length)
    (hids : ns.map (·.id) = List.range ns.length) (hp : ∀ x ∈ L, ∀ s ∈ x.part.streams, s.1.length = s.2.length) :
    ∀ (k : Nat) (x : WrittenStripe), L[k]? = some x → x.start.length = ns.length := by
  intro k
  induction k with
  | zero => intro x hx; rw [h.head x hx, hl]
  | succ k ih =>
    intro x hx
    have hk : k < L.length := by have := (List.getElem?_eq_some_iff.1 hx).1; omega
    obtain ⟨ws3, a, b⟩ := h.run k L[k] (List.getElem?_eq_getElem hk)
    have h0 := ih L[k] (List.getElem?_eq_getElem hk)
    rw [(onWriters_at (b x hx)).1, (a.column h0 hids (hp _ (List.getElem_mem hk))).1]

/-- A column starts a stripe of two files in the same state, if it got the same before. -/
theorem StripesRun.same (h1 : StripesRun E o ns1 a0 L1) (h2 : StripesRun E o ns2 b0 L2) (l1 : a0.length = ns1.length) (l2 : b0.length = ns2.length)
    (i1 : ns1.map (·.id) = List.range ns1.length) (i2 : ns2.map (·.id) = List.range ns2.length)
    (p1 : ∀ x ∈ L1, ∀ s ∈ x.part.streams, s.1.length = s.2.length) (p2 : ∀ x ∈ L2, ∀ s ∈ x.part.streams, s.1.length = s.2.length)
    {j : Nat} {n : SchemaNode} (n1 : ns1[j]? = some n) (n2 : ns2[j]? = some n) (h0 : a0[j]? = b0[j]?) : ∀ (k : Nat) (x1 x2 : WrittenStripe), L1[k]? = some x1 → L2[k]? = some x2 →
      (∀ i, i < k → ∀ y1 y2 : WrittenStripe, L1[i]? = some y1 → L2[i]? = some y2 → y1.rows.map (onlyAt j) = y2.rows.map (onlyAt j)) →
      x1.start[j]? = x2.start[j]? := by
  intro k
  induction k with
  | zero => intro x1 x2 e1 e2 _; rw [h1.head x1 e1, h2.head x2 e2, h0]
  | succ k ih =>
    intro x1 x2 e1 e2 hv
    have k1 : k < L1.length := by have := (List.getElem?_eq_some_iff.1 e1).1; omega
    have k2 : k < L2.length := by have := (List.getElem?_eq_some_iff.1 e2).1; omega
    have g1 := List.getElem?_eq_getElem k1
    have g2 := List.getElem?_eq_getElem k2
    have hs := ih L1[k] L2[k] g1 g2 fun i hi => hv i (by omega)
    have hr := hv k (by omega) _ _ g1 g2
    obtain ⟨c1, r1, s1⟩ := h1.run k _ g1
    obtain ⟨c2, r2, s2⟩ := h2.run k _ g2
    have w1 := h1.lengths l1 i1 p1 k _ g1
    have w2 := h2.lengths l2 i2 p2 k _ g2
    have j1 : j < ns1.length := (List.getElem?_eq_some_iff.1 n1).1
    have v1 : (L1[k].start)[j]? = some (L1[k].start)[j] := List.getElem?_eq_getElem (by omega)
    obtain ⟨u1, x3, x4⟩ := (r1.column w1 i1 (p1 _ (List.getElem_mem k1))).2 j n _ n1 v1
    obtain ⟨u2, x5, x6⟩ := (r2.column w2 i2 (p2 _ (List.getElem_mem k2))).2 j n _ n2 (hs ▸ v1)
    obtain ⟨-, rfl⟩ := x4.unique x6 (columnOf_same hr)
    obtain ⟨q1, y1, y2⟩ := (onWriters_at (s1 _ e1)).2 j u1 x3
    obtain ⟨q2, y3, y4⟩ := (onWriters_at (s2 _ e2)).2 j u1 x5
    rw [y2] at y4; injection y4 with y4; subst y4
    rw [y1, y3]

/-- A column has the same streams in a stripe of two files, if it got the same until the end of the stripe. -/
theorem StripesRun.streams (h1 : StripesRun E o ns1 a0 L1) (h2 : StripesRun E o ns2 b0 L2) (l1 : a0.length = ns1.length) (l2 : b0.length = ns2.length)
    (i1 : ns1.map (·.id) = List.range ns1.length) (i2 : ns2.map (·.id) = List.range ns2.length)
    (p1 : ∀ x ∈ L1, ∀ s ∈ x.part.streams, s.1.length = s.2.length) (p2 : ∀ x ∈ L2, ∀ s ∈ x.part.streams, s.1.length = s.2.length)
    {j : Nat} {n : SchemaNode} (n1 : ns1[j]? = some n) (n2 : ns2[j]? = some n) (h0 : a0[j]? = b0[j]?) {k : Nat} {x1 x2 : WrittenStripe} (e1 : L1[k]? = some x1) (e2 : L2[k]? = some x2)
    (hv : ∀ i, i ≤ k → ∀ y1 y2 : WrittenStripe, L1[i]? = some y1 → L2[i]? = some y2 → y1.rows.map (onlyAt j) = y2.rows.map (onlyAt j)) :
    x1.part.streamsOf j = x2.part.streamsOf j ∧
    ∀ c1 c2, StripeRun E o ns1 x1.start x1.rows x1.part c1 → StripeRun E o ns2 x2.start x2.rows x2.part c2 → c1[j]? = c2[j]? := by
  have hs := h1.same h2 l1 l2 i1 i2 p1 p2 n1 n2 h0 k x1 x2 e1 e2 fun i hi => hv i (by omega)
  have hr := hv k (Nat.le_refl _) _ _ e1 e2
  have w1 := h1.lengths l1 i1 p1 k _ e1
  have w2 := h2.lengths l2 i2 p2 k _ e2
  have j1 : j < ns1.length := (List.getElem?_eq_some_iff.1 n1).1
  have v1 : x1.start[j]? = some x1.start[j] := List.getElem?_eq_getElem (by omega)
  have key : ∀ c1 c2, StripeRun E o ns1 x1.start x1.rows x1.part c1 → StripeRun E o ns2 x2.start x2.rows x2.part c2 →
      x1.part.streamsOf j = x2.part.streamsOf j ∧ c1[j]? = c2[j]? := by
    intro c1 c2 r1 r2
    obtain ⟨u1, x3, x4⟩ := (r1.column w1 i1 (p1 _ (List.mem_of_getElem? e1))).2 j n _ n1 v1
    obtain ⟨u2, x5, x6⟩ := (r2.column w2 i2 (p2 _ (List.mem_of_getElem? e2))).2 j n _ n2 (hs ▸ v1)
    obtain ⟨z, rfl⟩ := x4.unique x6 (columnOf_same hr)
    exact ⟨z, by rw [x3, x5]⟩
  obtain ⟨c1, r1, -⟩ := h1.run k _ e1
  obtain ⟨c2, r2, -⟩ := h2.run k _ e2
  exact ⟨(key c1 c2 r1 r2).1, fun c1 c2 r1 r2 => (key c1 c2 r1 r2).2⟩

end

/-- Lists of lists with the same lengths and the same contents, up to some point. -/
theorem same_pieces {α : Type} : ∀ (k : Nat) (as bs : List (List α)), (as.map List.length).take (k + 1) = (bs.map List.length).take (k + 1) →
    as.flatten.take ((as.map List.length).take (k + 1)).sum = bs.flatten.take ((as.map List.length).take (k + 1)).sum →
    ∀ i, i ≤ k → as[i]? = bs[i]?
  | k, [], [], _, _, i, _ => rfl
  | k, [], b :: bs, h, _, i, _ => by simp at h
  | k, a :: as, [], h, _, i, _ => by simp at h
  | k, a :: as, b :: bs, h, h2, i, hi => by
    simp only [List.map_cons, List.take_succ_cons, List.cons.injEq] at h
    simp only [List.map_cons, List.take_succ_cons, List.sum_cons, List.flatten_cons] at h2
    have e1 : (a ++ as.flatten).take (a.length + ((as.map List.length).take k).sum) = a ++ as.flatten.take ((as.map List.length).take k).sum := by
      rw [List.take_append, List.take_of_length_le (by omega)]; simp
    have e2 : (b ++ bs.flatten).take (a.length + ((as.map List.length).take k).sum) = b ++ bs.flatten.take ((as.map List.length).take k).sum := by
      rw [List.take_append, List.take_of_length_le (by omega), h.1]; simp
    rw [e1, e2] at h2
    obtain ⟨rfl, h3⟩ := List.append_inj h2 h.1
    cases i with
    | zero => rfl
    | succ i =>
      cases k with
      | zero => omega
      | succ k => simpa using same_pieces k as bs h.2 h3 i (by omega)

/-- The stripes of a file that was closed. -/
theorem file_runs {E : Env} {o : FOpts} {schema : Schema} {batches : List Vec} {file : Bytes} (h : writeFile E o schema batches = .ok file) :
    ∃ (ws0 ws3 : List AnyWriter) (runs : List WrittenStripe) (last : WrittenStripe) (ft : FileFooter) (ps : PostScript),
      newWriters E.A o.toCOpts (schema.columns.map (·.node)) = .ok ws0 ∧ StripesRun E o (schema.columns.map (·.node)) ws0 (runs ++ [last]) ∧
      StripeRun E o (schema.columns.map (·.node)) last.start last.rows last.part ws3 ∧
      FileLayout E o schema.columns file ((runs ++ [last]).map (·.part)) ft ps ∧ (runs ++ [last]).flatMap (·.rows) = batches.flatMap Vec.rawRows ∧
      (∀ x ∈ runs ++ [last], x.part.rows = x.rows.length) ∧ ft.statistics = ws3.map (·.stats) := by
  obtain ⟨ws0, done, ws, rows, p, ws3, ft, ps, h1, h2, h3, h4, h5, h6, h7⟩ := file_traced h
  obtain ⟨runs, e1, e2, e3⟩ := h2.written
  obtain ⟨g1, g2⟩ := e3 ⟨ws, rows, p⟩ rfl
  refine ⟨ws0, ws3, runs, ⟨ws, rows, p⟩, ft, ps, h1, runs_of_chain _ _ _ _ g1 g2 h3, h3, ?_, ?_, ?_, h7⟩
  · rw [e1] at h5; simpa [Function.comp_def] using h5
  · rw [← h6, rowsOf, e1]
    simp [List.flatMap_map]
  · intro x hx
    rcases List.mem_append.1 hx with hx | hx
    · exact (e2 x hx).2
    · simp only [List.mem_cons, List.not_mem_nil, or_false] at hx
      subst hx
      obtain ⟨ws1, ws2, -, -, -, -, hr, -⟩ := h3
      exact hr

end Goorc
