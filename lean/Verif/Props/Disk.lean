import Verif.Proofs.Disk
import Verif.Props.FailedWrite
/-
C101: files that fail. Any `Write` of the file may fail, after any number of bytes, any number of times; the file's `Close` may fail too.
-/
namespace Goorc

/-- A file that does not fail makes no difference: the program ends as `writeFile` does, with the same file, the same error or the same panic. So what is shown of `writeFile` elsewhere is about files that do not fail,
and only that. -/
theorem sound_disk_exact (E : Env) (o : FOpts) (schema : Schema) (batches : List Vec) (closes : Bool) (answers : List (Option Nat)) (hs : (Disk.new answers).Sound) :
    (∀ file, writeFile E o schema batches = .ok file → ∃ d, writeFileTo E o schema batches closes (Disk.new answers) = .ok ⟨true, (), d⟩ ∧ d.content = file ∧ d.failures = 0) ∧
      (∀ e, writeFile E o schema batches = .err e → writeFileTo E o schema batches closes (Disk.new answers) = .err e) ∧
      (writeFile E o schema batches = .panic → writeFileTo E o schema batches closes (Disk.new answers) = .panic) ∧
      (writeFile E o schema batches = .hang → writeFileTo E o schema batches closes (Disk.new answers) = .hang) := by
  have h := writeFileTo_tracks E o schema batches closes (Disk.new answers) rfl
  generalize writeFile E o schema batches = u at h ⊢
  generalize writeFileTo E o schema batches closes (Disk.new answers) = v at h ⊢
  cases h with
  | good x y k' h1 h2 h3 h4 h5 =>
    refine ⟨fun f hf => ?_, fun _ h => (nomatch h), nofun, nofun⟩
    cases hf
    exact ⟨k', rfl, h1, h3⟩
  | broke _ y k' h1 h2 h3 h4 => exact absurd hs h4
  | err e => exact ⟨fun _ h => (nomatch h), fun _ h => (by cases h; rfl), nofun, nofun⟩
  | panic => exact ⟨fun _ h => (nomatch h), fun _ h => (nomatch h), fun _ => rfl, nofun⟩
  | hang => exact ⟨fun _ h => (nomatch h), fun _ h => (nomatch h), nofun, fun _ => rfl⟩

/-- If no call reports an error, no `Write` of the file has failed and the file is complete: it is the one a file that does not fail would have got. -/
theorem no_error_means_complete {E : Env} {o : FOpts} {schema : Schema} {batches : List Vec} {closes : Bool} {answers : List (Option Nat)} {d : Disk}
    (h : writeFileTo E o schema batches closes (Disk.new answers) = .ok ⟨true, (), d⟩) : writeFile E o schema batches = .ok d.content ∧ d.failures = 0 := by
  have ht := writeFileTo_tracks E o schema batches closes (Disk.new answers) rfl
  rw [h] at ht
  generalize writeFile E o schema batches = u at ht ⊢
  cases ht with
  | good x y k' h1 h2 h3 h4 h5 => exact ⟨by rw [h1]; rfl, h3⟩

/-- No error of the file's `Write` is lost: whenever one has failed, the program ends with an error. It makes no further `Write`, so just one has failed. -/
theorem failures_reported {E : Env} {o : FOpts} {schema : Schema} {batches : List Vec} {closes : Bool} {answers : List (Option Nat)} {r : After Unit}
    (h : writeFileTo E o schema batches closes (Disk.new answers) = .ok r) : r.disk.failures = if r.ok then 0 else 1 := by
  have ht := writeFileTo_tracks E o schema batches closes (Disk.new answers) rfl
  rw [h] at ht
  generalize writeFile E o schema batches = u at ht
  cases ht with
  | good x y k' h1 h2 h3 h4 h5 => exact h3
  | broke _ y k' h1 h2 h3 h4 => exact h3

/-- After a failure the file has the beginning of what it would have got, nothing else: nothing is out of order, missing in between, or written twice. -/
theorem failure_leaves_prefix {E : Env} {o : FOpts} {schema : Schema} {batches : List Vec} {closes : Bool} {answers : List (Option Nat)} {r : After Unit} {file : Bytes}
    (h : writeFileTo E o schema batches closes (Disk.new answers) = .ok r) (hf : writeFile E o schema batches = .ok file) : r.disk.content <+: file := by
  have ht := writeFileTo_tracks E o schema batches closes (Disk.new answers) rfl
  rw [h, hf] at ht
  cases ht with
  | good x y k' h1 h2 h3 h4 h5 => rw [h1]; exact List.prefix_refl _
  | broke _ y k' h1 h2 h3 h4 => exact h1 _ rfl

/-- The same for a program that only creates the file and writes batches: without an error the file has all that was written out so far, and the writer stands where it would. After a failure the beginning of it. -/
theorem writes_follow {E : Env} {o : FOpts} {schema : Schema} {batches : List Vec} {answers : List (Option Nat)} {n : After (Option FileWriter)} {v : FileWriter} {r : After FileWriter}
    (hn : newWriterTo E o schema (Disk.new answers) = .ok n) (hok : n.ok = true) (hv : n.st = some v) (h : v.writesTo E o batches n.disk = .ok r) :
    (r.ok = true → ∃ w, writeBatches E o schema batches = .ok w ∧ r.disk.content = w.stripe.out ∧ r.st.stripe.infos = w.stripe.infos ∧ r.st.stripe.info = w.stripe.info ∧ r.disk.failures = 0) ∧
      (r.ok = false → r.disk.failures = 1 ∧ ∀ w, writeBatches E o schema batches = .ok w → r.disk.content <+: w.stripe.out) := by
  have ht := newWriterTo_tracks E o schema (Disk.new answers) rfl
  rw [hn] at ht
  unfold writeBatches
  generalize newWriter E o schema = u at ht ⊢
  cases ht with
  | broke _ y k' h1 h2 h3 h4 => cases hok
  | good x y k' h1 h2 h3 h4 h5 =>
    obtain ⟨v', rfl, hs⟩ := h5
    cases hv
    have hw := FileWriter.writesTo_tracks E o batches hs h1
    dsimp only at h
    rw [h] at hw
    change (_ → ∃ w, x.writes E o batches = .ok w ∧ _) ∧ (_ → _ ∧ ∀ w, x.writes E o batches = .ok w → _)
    generalize x.writes E o batches = u2 at hw ⊢
    cases hw with
    | good z y k2 e1 e2 e3 e4 e5 =>
      refine ⟨fun _ => ⟨z, rfl, e1, ?_, ?_, by rw [e3, h3]; rfl⟩, nofun⟩
      · rw [show z.stripe.infos = y.stripe.infos from by rw [e5.2]]
      · rw [show z.stripe.info = y.stripe.info from by rw [e5.2]]
    | broke _ y k2 e1 e2 e3 e4 => exact ⟨nofun, fun _ => ⟨by rw [e3, h3]; rfl, fun w hw => e1 w hw⟩⟩

/-- What a `Close` leaves behind that has failed (no row indexes; `x` is the stripe as it would have been): it has failed at the data, in column `j`, and what is missing in the file is still in the buffers, but
only the columns before are counted in the stripe's length; or at the stripe's footer; or at the end of the file, and the stripe is in the list of stripes, where a second `Close` will put it again. -/
theorem failed_close_exact {E : Env} {o : FOpts} {w : FileWriter} {k : Disk} {closes : Bool} {r : After FileWriter} {x : StripeWriter} (hi : o.writeIndex = false) (h : w.closeTo E o closes k = .ok r)
    (hr : r.ok = false) (hx : w.stripe.flushOut E o = .ok x) :
    ∃ ws body foot, onWriters (fun w => w.flush E.A E.c o.toCOpts) w.stripe.writers = .ok ws ∧ StripeWriter.writeOuts E.A o.toCOpts ws = .ok (x.writers, body) ∧
      x.out = w.stripe.out ++ body ++ foot ∧
      ((∃ rest j a b, StripeWriter.writeOuts E.A o.toCOpts r.st.stripe.writers = .ok (x.writers, rest) ∧ r.disk.content ++ rest = k.content ++ body ∧
          StripeWriter.writeOuts E.A o.toCOpts (ws.take j) = .ok a ∧ StripeWriter.writeOuts E.A o.toCOpts (ws.take (j + 1)) = .ok b ∧
          k.content ++ a.2 <+: r.disk.content ∧ r.disk.content <+: k.content ++ b.2 ∧
          r.st.stripe.info = { w.stripe.info with dataLength := w.stripe.info.dataLength + a.2.length } ∧ r.st.stripe.infos = w.stripe.infos) ∨
        (r.st.stripe.writers = x.writers ∧ k.content ++ body <+: r.disk.content ∧ r.disk.content <+: k.content ++ body ++ foot ∧
          r.st.stripe.info = { w.stripe.info with dataLength := w.stripe.info.dataLength + body.length } ∧ r.st.stripe.infos = w.stripe.infos) ∨
        (k.content ++ body ++ foot <+: r.disk.content ∧ r.st.stripe = { x with infos := x.infos ++ [x.info], out := w.stripe.out })) := by
  have hz : ∀ n : Nat, n + ([] : Bytes).length = n := fun _ => rfl
  simp only [StripeWriter.flushOut, hi] at hx
  obtain ⟨ws, h1, hx⟩ := Res.bind_ok_inv hx
  obtain ⟨⟨ws', body⟩, h2, hx⟩ := Res.bind_ok_inv hx
  simp only [StripeWriter.writeFooter, Bool.false_eq_true, if_false, List.append_nil, hz] at hx
  obtain ⟨foot, h3, hx⟩ := Res.bind_ok_inv hx
  cases hx
  refine ⟨ws, body, foot, h1, h2, rfl, ?_⟩
  unfold FileWriter.closeTo at h
  obtain ⟨f, hf, h⟩ := Res.bind_ok_inv h
  simp only [StripeWriter.flushOutTo, hi, h1, Bool.false_eq_true, if_false, if_true, Res.ok_bind] at hf
  obtain ⟨d, hd, hf⟩ := Res.bind_ok_inv hf

  obtain ⟨v, g1, g2, j, a, g3, g4, g5, g6, g7⟩ := StripeWriter.writeOutsTo_leaves hd h2
  have gs := StripeWriter.writeOutsTo_tracks E.A o.toCOpts ws k
  rw [hd, h2] at gs
  by_cases hdk : d.ok = true
  · rw [if_pos hdk] at hf
    have hst : d.st = (body.length, ws') ∧ d.disk.content = k.content ++ body := by
      obtain ⟨dok, dst, dd⟩ := d
      cases hdk
      cases gs with
      | good x y k' t1 t2 t3 t4 t5 => exact ⟨t5, t1⟩
    rw [hst.1] at hf
    simp only [StripeWriter.writeFooterTo] at hf
    obtain ⟨foot', h3', hf⟩ := Res.bind_ok_inv hf
    have hff : foot' = foot := by
      have e := h3'.symm.trans h3
      injection e
    subst hff
    have gd := d.disk.drain_tracks foot'
    by_cases hfk : (d.disk.drain foot').ok = true
    · rw [if_pos hfk] at hf
      cases hf
      have hst2 : (d.disk.drain foot').st = (foot'.length, []) ∧ (d.disk.drain foot').disk.content = d.disk.content ++ foot' := by
        generalize d.disk.drain foot' = e at gd hfk
        obtain ⟨eok, est, ed⟩ := e
        cases hfk
        cases gd with
        | good x y k' t1 t2 t3 t4 t5 => exact ⟨t5, t1⟩
      dsimp only at h
      rw [if_pos rfl] at h
      obtain ⟨t, ht, h⟩ := Res.bind_ok_inv h
      have gt := FileWriter.tailTo_tracks E o (w := { w with stripe := { schemas := w.stripe.schemas, writers := ws', info := { w.stripe.info with dataLength := w.stripe.info.dataLength + body.length, footerLength := (d.disk.drain foot').st.1 }, infos := w.stripe.infos ++ [{ w.stripe.info with dataLength := w.stripe.info.dataLength + body.length, footerLength := (d.disk.drain foot').st.1 }], out := w.stripe.out } }) rfl (d.disk.drain foot').disk
      have ht' := ht
      by_cases htk : t.ok = true
      · rw [if_pos htk] at h
        cases closes <;> (cases h; cases hr)
      · rw [if_neg htk] at h
        cases h
        refine .inr (.inr ⟨?_, ?_⟩)
        · rw [← hst.2, ← hst2.2]
          generalize FileWriter.tail E o _ = u at gt
          erw [ht] at gt
          obtain ⟨tok, tst, td⟩ := t
          cases gt with
          | good x y k' t1 t2 t3 t4 t5 => exact t2
          | broke _ y k' t1 t2 t3 t4 => exact t2
        · simp only [hst2.1]; rfl
    · rw [if_neg hfk] at hf
      cases hf
      rw [if_neg (by simp)] at h
      cases h
      refine .inr (.inl ⟨rfl, ?_, ?_, rfl, rfl⟩)
      · rw [← hst.2]
        generalize d.disk.drain foot' = e at gd
        obtain ⟨eok, est, ed⟩ := e
        cases gd with
        | good x y k' t1 t2 t3 t4 t5 => exact t2
        | broke _ y k' t1 t2 t3 t4 => exact t2
      · rw [← hst.2]
        generalize d.disk.drain foot' = e at gd
        obtain ⟨eok, est, ed⟩ := e
        cases gd with
        | good x y k2 t1 t2 t3 t4 t5 => rw [t1]; exact List.prefix_refl _
        | broke _ y k' t1 t2 t3 t4 => exact t1 _ rfl
  · rw [if_neg hdk] at hf
    cases hf
    rw [if_neg (by simp)] at h
    cases h
    obtain ⟨b, b1, b2, b3⟩ := g7 (by simpa using hdk)
    refine .inl ⟨v.2, j, a, b, ?_, g2.all, g4, b1, b2, b3, ?_, rfl⟩
    · rw [g1, show v = (v.1, v.2) from rfl, g2.same]
    · simp only [g5]; rfl

/-- With row indexes: a `Close` that fails at them has written nothing else, and counts the indexes that were written completely. -/
theorem failed_index_exact {E : Env} {o : FOpts} {w : FileWriter} {k : Disk} {closes : Bool} {ws : List AnyWriter} (hi : o.writeIndex = true)
    (hw : onWriters (fun w => w.flush E.A E.c o.toCOpts) w.stripe.writers = .ok ws) (hk : (StripeWriter.indexesTo E.P ws k).ok = false) :
    ∃ r j, w.closeTo E o closes k = .ok r ∧ r.ok = false ∧ r.st.stripe = { w.stripe with
        writers := ws
        info := { w.stripe.info with indexLength := w.stripe.info.indexLength + (StripeWriter.indexes E.P (ws.take j)).length } } ∧
      k.content ++ StripeWriter.indexes E.P (ws.take j) <+: r.disk.content ∧ r.disk.content <+: k.content ++ StripeWriter.indexes E.P (ws.take (j + 1)) := by
  obtain ⟨j, h1, h2, h3⟩ := StripeWriter.indexesTo_leaves E.P ws k hk
  refine ⟨⟨false, { w with stripe := { w.stripe with writers := ws, info := { w.stripe.info with indexLength := w.stripe.info.indexLength + (StripeWriter.indexesTo E.P ws k).st } } },
    (StripeWriter.indexesTo E.P ws k).disk⟩, j, ?_, rfl, ?_, h2, h3⟩
  · unfold FileWriter.closeTo StripeWriter.flushOutTo
    rw [hw, Res.ok_bind, if_pos hi]
    simp only [hk, Bool.false_eq_true, if_false]
    rfl
  · simp only [h1]

/-! ### What is not so -/

/-- When the file's own `Close` fails (which is how some file systems report that data was not stored), `Close` reports no error: it makes no difference. -/
theorem close_error_lost (E : Env) (o : FOpts) (schema : Schema) (batches : List Vec) (k : Disk) :
    writeFileTo E o schema batches false k = writeFileTo E o schema batches true k := by
  have hc : ∀ (w : FileWriter) (d : Disk), w.closeTo E o false d = w.closeTo E o true d := fun _ _ => rfl
  unfold writeFileTo
  simp only [hc]

/-- A client that writes two rows of two columns and calls `Close` again when it has failed: the `Close` that has failed, and the second one. -/
def retryWriter (E : Env) (answers : List (Option Nat)) : Res (After FileWriter) := do
  let n ← newWriterTo E mixOpts mixSchema (Disk.new answers)
  match n.ok, n.st with
  | true, some w => do
    let a ← w.writeTo E mixOpts mixGood n.disk
    if a.ok then do
      let c ← a.st.closeTo E mixOpts true a.disk
      if c.ok then .err .other else c.st.closeTo E mixOpts true c.disk
    else .err .other
  | _, _ => .err .other

/-- The third `Write` of the file fails, and takes nothing: the second column's data. All others go well. -/
def retryAnswers : List (Option Nat) := [none, none, some 0]

def retryEnd : Option FileWriter :=
  match retryWriter (mixEnv none none none) retryAnswers with
  | .ok a => if a.ok then some a.st else none
  | _ => none

/-- The messages of that file are read back. -/
def retryE : Env := mixEnv (retryEnd.map fun w => w.stripe.footer exArith) (retryEnd.map FileWriter.footer) (some (FileWriter.postScript mixOpts 4))

/-- `Close` again after a failure: no error any more, but the file is not the one that was meant. The client wrote (2, 20) and (3, 30); who reads the second column gets 2 and 3, the values of the first; who reads both
gets an error. -/
theorem retry_swaps_columns : (retryWriter retryE retryAnswers).bind (fun a => .ok (a.ok, a.disk.failures)) = .ok (true, 1) ∧
    (retryWriter retryE retryAnswers).bind (fun a => readRecords retryE 10 mixSchema ⟨[0, 2], 10, false⟩ true 3 a.disk.content) = .ok ([[(2, .value (.f64 2))], [(2, .value (.f64 3))]], true) ∧
    (retryWriter retryE retryAnswers).bind (fun a => readRecords retryE 10 mixSchema ⟨[], 10, false⟩ true 3 a.disk.content) = .err .other := by
  refine ⟨?_, ?_, ?_⟩ <;> decide +kernel

/-- Messages of one byte each; that of a stripe's footer is the length of its data. Those given are read back. -/
def againEnv (f : Option (StripeFooter × StripeFooter)) (ft : Option FileFooter) (ps : Option PostScript) : Env where
  A := exArith
  c := runCodec
  P := ⟨fun _ => [], fun f => [BitVec.ofNat 8 (f.streams.map (·.length)).sum], fun _ => [1], fun _ => [2], fun _ => none,
    fun b => if b = [38] then f.map (·.1) else if b = [0] then f.map (·.2) else none, fun b => if b = [1] then ft else none, fun b => if b = [2] then ps else none⟩

/-- The postscript cannot be written at first. -/
def againAnswers : List (Option Nat) := [none, none, none, none, none, some 0]

/-- The client up to the `Close` that fails. -/
def againFirst (E : Env) : Res (After FileWriter) := do
  let n ← newWriterTo E mixOpts mixSchema (Disk.new againAnswers)
  match n.ok, n.st with
  | true, some w => do
    let a ← w.writeTo E mixOpts mixGood n.disk
    a.st.closeTo E mixOpts true a.disk
  | _, _ => .err .other

def writerOf : Res (After FileWriter) → Option FileWriter
  | .ok a => some a.st
  | _ => none

/-- The messages of that file are read back: the footers written by the first and the second `Close`, and the file's. -/
def againE : Env :=
  againEnv ((writerOf (againFirst (againEnv none none none))).bind fun a => (writerOf (retryWriter (againEnv none none none) againAnswers)).map fun b => (a.stripe.footer exArith, b.stripe.footer exArith))
    ((writerOf (retryWriter (againEnv none none none) againAnswers)).map FileWriter.footer) (some (FileWriter.postScript mixOpts 4))

/-- Here only the end of the file could not be written. The second `Close` reports no error, and the file has each row twice. -/
theorem retry_doubles_rows : (retryWriter againE againAnswers).bind (fun a => .ok (a.ok, a.disk.failures)) = .ok (true, 1) ∧
    (retryWriter againE againAnswers).bind (fun a => readRecords againE 10 mixSchema ⟨[], 10, false⟩ true 10 a.disk.content) =
      .ok ([[(1, .value (.f64 2)), (2, .value (.f64 20))], [(1, .value (.f64 3)), (2, .value (.f64 30))], [(1, .value (.f64 2)), (2, .value (.f64 20))], [(1, .value (.f64 3)), (2, .value (.f64 30))]], true) := by
  refine ⟨?_, ?_⟩ <;> decide +kernel

/-! ### Cases -/

/-- Indexes of two bytes. -/
def tinyIdx : Env := { mixE with P := { mixE.P with index := fun _ => [3, 4] } }

/-- The hypotheses of `no_error_means_complete`: two rows, no failure, the messages of the file are read back. The file's `Close` fails. -/
example : (writeFileTo mixE mixOpts mixSchema [mixGood] false (Disk.new [none, none])).bind (fun r => .ok (r.ok, r.disk.failures, r.disk.content.length)) = .ok (true, 0, 51) := by decide +kernel

/-- A failure in the middle of the first column's data: 6 bytes are in the file. -/
example : (writeFileTo mixE mixOpts mixSchema [mixGood] true (Disk.new [none, some 3])).bind (fun r => .ok (r.ok, r.disk.failures, r.disk.content.length)) = .ok (false, 1, 6) := by decide +kernel

/-- A failure of the header, of the stripe's footer, of the file's footer, of the postscript and of its length: each is reported. -/
example : [[some 1], [none, none, none, some 2], [none, none, none, none, some 0], [none, none, none, none, none, some 5], [none, none, none, none, none, none, some 1]].map (fun as =>
      (writeFileTo mixE mixOpts mixSchema [mixGood] true (Disk.new as)).bind fun r => .ok (r.ok, r.disk.failures, r.disk.content.length)) =
    [.ok (false, 1, 1), .ok (false, 1, 43), .ok (false, 1, 45), .ok (false, 1, 50), .ok (false, 1, 51)] := by decide +kernel

/-- A failure while a batch is written: every row fills a stripe. -/
example : (newWriterTo mixE { mixOpts with stripeSize := 0 } mixSchema (Disk.new [none, none, none, none, some 1])).bind (fun n => match n.st with
      | some w => (w.writesTo mixE { mixOpts with stripeSize := 0 } [mixGood] n.disk).bind fun r => .ok (r.ok, r.disk.failures, r.st.stripe.infos.length)
      | none => .err .other) = .ok (false, 1, 1) := by decide +kernel

/-- The hypotheses of `failed_close_exact`, in each of its cases: the data of the second column, the stripe's footer, the end of the file. The stripe's length as counted, and the stripes that are listed. -/
example : [[none, none, some 3], [none, none, none, some 2], [none, none, none, none, some 0]].map (fun as =>
      (newWriterTo mixE mixOpts mixSchema (Disk.new as)).bind fun n => match n.st with
        | some w => (w.writeTo mixE mixOpts mixGood n.disk).bind fun a => (a.st.closeTo mixE mixOpts true a.disk).bind fun c =>
          .ok (a.ok, c.ok, c.disk.content.length, c.st.stripe.info.dataLength, c.st.stripe.infos.length)
        | none => .err .other) =
    [.ok (true, false, 25, 19, 0), .ok (true, false, 43, 38, 0), .ok (true, false, 45, 38, 1)] := by decide +kernel

/-- The hypotheses of `failed_index_exact`: the second column's index. -/
example : (newWriterTo tinyIdx { mixOpts with writeIndex := true } mixSchema (Disk.new [none, none, some 0])).bind (fun n => match n.st with
      | some w => (w.writeTo tinyIdx { mixOpts with writeIndex := true } mixGood n.disk).bind fun a => (onWriters (fun w => w.flush tinyIdx.A tinyIdx.c mixOpts.toCOpts) a.st.stripe.writers).bind fun ws =>
        .ok (a.ok, (StripeWriter.indexesTo tinyIdx.P ws a.disk).ok, (StripeWriter.indexesTo tinyIdx.P ws a.disk).st)
      | none => .err .other) = .ok (true, false, 2) := by decide +kernel

end Goorc
