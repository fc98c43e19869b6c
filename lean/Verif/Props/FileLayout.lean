import Verif.Proofs.Files
import Verif.Props.Schema
/-
C53, C54: what is in a file, and that its numbers add up.
-/
namespace Goorc

theorem stripeTable_content (start : Nat) (parts : List StripeParts) :
    ((stripeTable start parts).map fun i => i.indexLength + i.dataLength + i.footerLength).sum = (parts.flatMap (·.bytes)).length := by
  induction parts generalizing start with
  | nil => rfl
  | cons p ps ih => simp only [stripeTable, List.map_cons, List.sum_cons, ih, List.flatMap_cons, List.length_append, StripeParts.bytes]

theorem stripeTable_rows (start : Nat) (parts : List StripeParts) :
    ((stripeTable start parts).map (·.numberOfRows)) = parts.map (·.rows) := by
  induction parts generalizing start with
  | nil => rfl
  | cons p ps ih => simp only [stripeTable, List.map_cons, ih]

/-- Closing a writer that has the stripes `parts` and `r` more rows. -/
theorem FileWriter.close_spec {E : Env} {o : FOpts} {w : FileWriter} {parts : List StripeParts} {r : Nat} {file : Bytes}
    (hi : w.stripe.Inv E o (w.schemas.map (·.node)) parts r) (h : w.close E o = .ok file) :
    ∃ p ft ps, FileLayout E o w.schemas file (parts ++ [p]) ft ps ∧ p.rows = r ∧
      ∃ ws ws', onWriters (fun w => w.flush E.A E.c o.toCOpts) w.stripe.writers = .ok ws ∧ StripeWriter.writeOuts E.A o.toCOpts ws = .ok (ws', p.data) ∧
        p.streams.map (·.1) = (((w.schemas.map (·.node)).zip ws').flatMap fun x => (x.2.streamInfos E.A).map fun i => (⟨i.1, x.1.id, i.2⟩ : StreamInfo)) ∧
        ft.statistics = ws'.map (·.stats) ∧ p.indexes = if o.writeIndex = true then ws.flatMap (fun w => E.P.index w.index) else [] := by
  simp only [close, finish] at h
  obtain ⟨w1, h1, h⟩ := Res.bind_ok_inv h
  obtain ⟨s1, h2, h1⟩ := Res.bind_ok_inv h1
  injection h1 with h1
  obtain ⟨t, h3, h⟩ := Res.bind_ok_inv h
  injection h with h
  obtain ⟨p, e1, e2, e3, e4, e5, e6, e7, ws1, e8, e9, e10, e11⟩ := StripeWriter.flushOut_spec hi h2
  have hw : w1.schemas = w.schemas := by rw [← h1]
  have hinf : w1.stripe.infos = stripeTable 3 (parts ++ [p]) := by rw [← h1]; exact e7
  have ht : ∃ ps, IsTail E o w1.footer ps t := by
    simp only [tail] at h3
    by_cases hk : o.kind = .none
    · rw [if_pos hk] at h3
      injection h3 with h3
      exact ⟨_, _, h3.symm, by rw [if_pos hk], rfl⟩
    · rw [if_neg hk] at h3
      obtain ⟨f, h4, h3⟩ := Res.bind_ok_inv h3
      injection h3 with h3
      exact ⟨_, _, h3.symm, by rw [if_neg hk]; exact h4, rfl⟩
  obtain ⟨ps, ht⟩ := ht
  refine ⟨p, w1.footer, ps, ⟨⟨t, ?_, ht⟩, by simp, ?_, ?_, hinf, rfl, ?_, ?_, ?_, ?_, rfl⟩, e2, ws1, _, e8, e9, e10, by rw [← h1]; rfl, e11⟩
  · rw [← h, ← h1, e6]; rfl
  · intro q hq
    rw [List.dropLast_concat] at hq
    exact (hi.sound q hq).2
  · intro q hq
    rcases List.mem_append.1 hq with hq | hq
    · exact (hi.sound q hq).1
    · simp only [List.mem_cons, List.not_mem_nil, or_false] at hq
      subst hq; exact e1
  · simp only [footer, hinf, stripeTable_content]
  · simp only [footer, hinf, stripeTable_rows]
  · simp only [footer, hw]
  · simp only [footer]
    rw [← h1]
    simpa [AnyWriter.hasNull, Function.comp_def] using e4

/-- **C53, C54** Whatever batches are written, with whatever stripe size: a file that was closed has the layout above, for the
columns of the schema, and the rows of its stripes are together as many as were handed to `Write`. -/
theorem file_layout (E : Env) (o : FOpts) (schema : Schema) (batches : List Vec) (file : Bytes)
    (h : writeFile E o schema batches = .ok file) :
    ∃ parts ft ps, FileLayout E o schema.columns file parts ft ps ∧ (parts.map (·.rows)).sum = (batches.map Vec.len).sum := by
  simp only [writeFile] at h
  obtain ⟨w, h1, h⟩ := Res.bind_ok_inv h
  obtain ⟨w1, h2, h⟩ := Res.bind_ok_inv h
  obtain ⟨e1, e2⟩ := newWriter_inv h1
  obtain ⟨parts, r, f1, f2, f3⟩ := FileWriter.writes_spec batches w w1 [] 0 e2 h2
  rw [← f2] at f1
  obtain ⟨p, ft, ps, g1, g2, -⟩ := FileWriter.close_spec f1 h
  have hc : w1.schemas = schema.columns := by rw [f2]; exact ((flat_iff _ _).1 e1).2.2
  rw [hc] at g1
  refine ⟨_, ft, ps, g1, ?_⟩
  simp [g2]
  simp at f3
  omega

/-- **C53** The number of rows in the footer, and the numbers of rows of the stripes it lists, are the rows handed to
`Write`. -/
theorem row_counts (E : Env) (o : FOpts) (schema : Schema) (batches : List Vec) (file : Bytes)
    (h : writeFile E o schema batches = .ok file) :
    ∃ parts ft ps, FileLayout E o schema.columns file parts ft ps ∧ ft.numberOfRows = (batches.map Vec.len).sum ∧
      (ft.stripes.map (·.numberOfRows)).sum = (batches.map Vec.len).sum := by
  obtain ⟨parts, ft, ps, hl, hr⟩ := file_layout E o schema batches file h
  exact ⟨parts, ft, ps, hl, by rw [hl.rows, hr], by rw [hl.stripes, stripeTable_rows, hr]⟩

/-- Stripes of a table start where the one before ended. -/
def Tiles : Nat → List StripeInfo → Prop
  | _, [] => True
  | start, s :: ss => s.offset = start ∧ Tiles (start + s.indexLength + s.dataLength + s.footerLength) ss

theorem stripeTable_tiles (start : Nat) (parts : List StripeParts) : Tiles start (stripeTable start parts) := by
  induction parts generalizing start with
  | nil => trivial
  | cons p ps ih =>
    refine ⟨rfl, ?_⟩
    have := ih (start + p.bytes.length)
    simp only [StripeParts.bytes, List.length_append] at this ⊢
    rwa [Nat.add_assoc start, Nat.add_assoc start]

/-- The stripe with number `k` is at the offset the table says. -/
theorem stripeTable_get (pre : Bytes) (parts : List StripeParts) (post : Bytes) (k : Nat) (i : StripeInfo)
    (hk : (stripeTable pre.length parts)[k]? = some i) :
    ∃ p, parts[k]? = some p ∧ ((pre ++ parts.flatMap (·.bytes) ++ post).drop i.offset).take (i.indexLength + i.dataLength + i.footerLength) = p.bytes ∧
      i.indexLength = p.indexes.length ∧ i.dataLength = p.data.length ∧ i.footerLength = p.footerBytes.length ∧ i.numberOfRows = p.rows ∧
      pre.length ≤ i.offset ∧ ∃ post', (pre ++ parts.flatMap (·.bytes) ++ post).drop i.offset = p.bytes ++ post' := by
  induction parts generalizing pre k with
  | nil => simp [stripeTable] at hk
  | cons q ps ih =>
    cases k with
    | zero =>
      simp [stripeTable] at hk
      subst hk
      refine ⟨q, rfl, ?_, rfl, rfl, rfl, rfl, Nat.le_refl _, ?_⟩
      · simp only [List.append_assoc, List.drop_left, List.flatMap_cons]
        have : q.indexes.length + q.data.length + q.footerBytes.length = q.bytes.length := by simp [StripeParts.bytes, Nat.add_assoc]
        rw [this, List.take_left]
      · exact ⟨ps.flatMap (·.bytes) ++ post, by simp only [List.append_assoc, List.drop_left, List.flatMap_cons]⟩
    | succ k =>
      simp only [stripeTable, List.getElem?_cons_succ] at hk
      have hl : pre.length + q.bytes.length = (pre ++ q.bytes).length := by simp
      rw [hl] at hk
      obtain ⟨p, h1, h2, h3, h4, h5, h6, h7, h8⟩ := ih (pre ++ q.bytes) k hk
      refine ⟨p, by simpa using h1, ?_, h3, h4, h5, h6, by rw [List.length_append] at h7; omega, ?_⟩
      · rw [← h2]; simp only [List.flatMap_cons, List.append_assoc]
      · obtain ⟨post', h⟩ := h8
        exact ⟨post', by rw [← h]; simp only [List.flatMap_cons, List.append_assoc]⟩

/-- Stripes start inside the content. -/
theorem stripeTable_offset (start : Nat) (parts : List StripeParts) (k : Nat) (i : StripeInfo) (hk : (stripeTable start parts)[k]? = some i) :
    i.offset + i.indexLength + i.dataLength + i.footerLength ≤ start + (parts.flatMap (·.bytes)).length := by
  induction parts generalizing start k with
  | nil => simp [stripeTable] at hk
  | cons q ps ih =>
    cases k with
    | zero =>
      simp only [stripeTable, List.getElem?_cons_zero, Option.some.injEq] at hk
      subst hk
      simp only [List.flatMap_cons, List.length_append, StripeParts.bytes]; omega
    | succ k =>
      simp only [stripeTable, List.getElem?_cons_succ] at hk
      have := ih _ k hk
      simp only [List.flatMap_cons, List.length_append]; omega

/-- **C54** In a file that was closed the stripes listed in the footer start right after the three bytes of the header, each
begins where the one before ended, and their length is the content length of the footer. In each stripe the lengths of the
streams its footer lists add up to the data length. -/
theorem stripes_tile (E : Env) (o : FOpts) (schema : Schema) (batches : List Vec) (file : Bytes)
    (h : writeFile E o schema batches = .ok file) :
    ∃ parts ft ps, FileLayout E o schema.columns file parts ft ps ∧ Tiles 3 ft.stripes ∧
      (ft.stripes.map fun i => i.indexLength + i.dataLength + i.footerLength).sum = ft.contentLength ∧
      ∀ (k : Nat) (i : StripeInfo), ft.stripes[k]? = some i → ∃ p : StripeParts, parts[k]? = some p ∧ (p.footer.streams.map (·.length)).sum = i.dataLength ∧
        ((file.drop (i.offset + i.indexLength + i.dataLength)).take i.footerLength = p.footerBytes) ∧
        ((file.drop i.offset).take i.indexLength = p.indexes) ∧
        ((file.drop (i.offset + i.indexLength)).take i.dataLength = p.data) := by
  obtain ⟨parts, ft, ps, hl, -⟩ := file_layout E o schema batches file h
  refine ⟨parts, ft, ps, hl, by rw [hl.stripes]; exact stripeTable_tiles 3 parts, ?_, ?_⟩
  · rw [hl.stripes, stripeTable_content, hl.content]
  · intro k i hk
    obtain ⟨tail, hb, -⟩ := hl.bytes
    rw [hl.stripes] at hk
    obtain ⟨p, h1, h2, h3, h4, h5, -, -, post', h8⟩ := stripeTable_get [0x4f#8, 0x52#8, 0x43#8] parts tail k i hk
    have hs := hl.sound p (List.mem_of_getElem? h1)
    rw [← hb] at h8
    refine ⟨p, h1, ?_, ?_, ?_, ?_⟩
    · rw [h4, hs.listed]
      have : ∀ ss : List (StreamInfo × Bytes), (∀ s ∈ ss, s.1.length = s.2.length) → ((ss.map (·.1)).map (·.length)).sum = (ss.flatMap (·.2)).length := by
        intro ss
        induction ss with
        | nil => intro _; rfl
        | cons s ss ih =>
          intro hs
          simp only [List.map_cons, List.sum_cons, List.flatMap_cons, List.length_append]
          rw [ih (fun s h => hs s (by simp [h])), hs s (by simp)]
      exact this p.streams hs.lengths
    · rw [Nat.add_assoc, ← List.drop_drop, h8, h3, h4, h5]
      simp [StripeParts.bytes, List.append_assoc, ← List.drop_drop]
    · rw [h8, h3]
      simp [StripeParts.bytes, List.append_assoc]
    · rw [← List.drop_drop, h8, h3, h4]
      simp [StripeParts.bytes, List.append_assoc]

end Goorc
