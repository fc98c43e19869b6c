import Verif.Props.Batching
import Verif.Props.OpenAny
/-
C107: the bytes of a file determine where its stripes and streams are.
-/
namespace Goorc

/-- Compression can be undone, so it does not confuse two texts. -/
theorem compressing_inj {c : Codec} (hc : c.Lossless) {kind : CompKind} {size : Nat} (h1 : 1 ≤ size) (h2 : size < 2 ^ 23) {a b d : Bytes}
    (ha : compressingAllInChunks c kind size a = .ok d) (hb : compressingAllInChunks c kind size b = .ok d) : a = b := by
  cases kind with
  | zlib =>
    obtain ⟨x, g1, g2⟩ := chunks_roundtrip c hc size h1 h2 a
    obtain ⟨y, g3, g4⟩ := chunks_roundtrip c hc size h1 h2 b
    rw [ha] at g1; rw [hb] at g3
    injection g1 with g1; injection g3 with g3
    subst g1; subst g3
    rw [g2] at g4
    exact Res.ok.inj g4
  | none => rw [(chunks_kind c size a).1] at ha; cases ha
  | other => rw [(chunks_kind c size a).2.1] at ha; cases ha

section
variable {E : Env} {o : FOpts} {columns columns' : List Schema} {file : Bytes}

theorem tail_unique (hc : E.c.Lossless) (hp : E.P.Lossless) (h1 : 1 ≤ o.chunkSize) (h2 : o.chunkSize < 2 ^ 23) {ft ft' : FileFooter} {ps ps' : PostScript}
    {pre pre' tail tail' : Bytes} (hf : file = pre ++ tail) (hf' : file = pre' ++ tail') (ht : IsTail E o ft ps tail) (ht' : IsTail E o ft' ps' tail')
    (hlen : file.length < 2 ^ 63) : ft = ft' ∧ ps = ps' ∧ tail = tail' := by
  obtain ⟨fb, e1, e2, e3⟩ := ht
  obtain ⟨fb', e1', e2', e3'⟩ := ht'
  have l1 : fb.length < 2 ^ 63 := by rw [hf, e1] at hlen; simp at hlen; omega
  have l2 : fb'.length < 2 ^ 63 := by rw [hf', e1'] at hlen; simp at hlen; omega
  have s1 : (E.P.postScript ps).length < 256 := by rw [e3]; exact hp.short _ _ _ l1 (by omega)
  have s2 : (E.P.postScript ps').length < 256 := by rw [e3']; exact hp.short _ _ _ l2 (by omega)
  have hall : (pre ++ fb ++ E.P.postScript ps) ++ [BitVec.ofNat 8 (E.P.postScript ps).length] =
      (pre' ++ fb' ++ E.P.postScript ps') ++ [BitVec.ofNat 8 (E.P.postScript ps').length] := by
    rw [e1] at hf; rw [e1'] at hf'
    rw [← List.append_assoc, ← List.append_assoc] at hf hf'
    rw [← hf, ← hf']
  obtain ⟨g1, g2⟩ := List.append_inj' hall rfl
  simp only [List.cons.injEq, and_true] at g2
  have hl : (E.P.postScript ps).length = (E.P.postScript ps').length := by
    have := congrArg BitVec.toNat g2
    simp only [BitVec.toNat_ofNat] at this
    omega
  obtain ⟨g3, g4⟩ := List.append_inj' g1 hl
  have hps : ps = ps' := by
    have := hp.postScript ps
    rw [g4, hp.postScript ps'] at this
    exact (Option.some.inj this).symm
  have hfl : fb.length = fb'.length := by rw [e3, e3'] at hps; injection hps
  obtain ⟨-, g5⟩ := List.append_inj' g3 hfl
  subst g5; subst hps
  refine ⟨?_, rfl, by rw [e1, e1']⟩
  have hm : E.P.fileFooter ft = E.P.fileFooter ft' := by
    by_cases hk : o.kind = .none
    · rw [if_pos hk] at e2 e2'; rw [← e2, ← e2']
    · rw [if_neg hk] at e2 e2'; exact compressing_inj hc h1 h2 e2 e2'
  have := hp.fileFooter ft
  rw [hm, hp.fileFooter ft'] at this
  exact (Option.some.inj this).symm

theorem parts_unique (hc : E.c.Lossless) (hp : E.P.Lossless) (h1 : 1 ≤ o.chunkSize) (h2 : o.chunkSize < 2 ^ 23) {ns ns' : List SchemaNode} :
    ∀ (ps ps' : List StripeParts) (start : Nat), (∀ p ∈ ps, p.Sound E o ns) → (∀ p ∈ ps', p.Sound E o ns') → stripeTable start ps = stripeTable start ps' →
      ∀ t t' : Bytes, ps.flatMap (·.bytes) ++ t = ps'.flatMap (·.bytes) ++ t' → ps = ps'
  | [], [], _, _, _, _, _, _, _ => rfl
  | [], _ :: _, _, _, _, h, _, _, _ => by simp [stripeTable] at h
  | _ :: _, [], _, _, _, h, _, _, _ => by simp [stripeTable] at h
  | p :: ps, p' :: ps', start, s1, s2, h, t, t', ht => by
    simp only [stripeTable, List.cons.injEq, StripeInfo.mk.injEq] at h
    obtain ⟨⟨-, i1, i2, i3, i4⟩, i5⟩ := h
    simp only [List.flatMap_cons, List.append_assoc] at ht
    have hb : p.bytes.length = p'.bytes.length := by simp [StripeParts.bytes, i1, i2, i3]
    obtain ⟨j1, j2⟩ := List.append_inj ht hb
    rw [StripeParts.bytes, StripeParts.bytes] at j1
    obtain ⟨j3, j4⟩ := List.append_inj j1 (by simp [i1, i2])
    obtain ⟨j5, j6⟩ := List.append_inj j3 i1
    have q := s1 p (by simp)
    have q' := s2 p' (by simp)
    have hft : p.footer = p'.footer := by
      have hm := compressing_inj hc h1 h2 q.footer (j4 ▸ q'.footer)
      have := hp.stripeFooter p.footer
      rw [hm, hp.stripeFooter p'.footer] at this
      exact (Option.some.inj this).symm
    have hst : p.streams = p'.streams := streams_ext (by rw [← q.listed, ← q'.listed, hft]) j6 q.lengths q'.lengths
    have hpp : p = p' := by
      obtain ⟨_, _, _, _, _⟩ := p
      obtain ⟨_, _, _, _, _⟩ := p'
      simp only at j5 hst hft j4 i4
      subst j5 hst hft j4 i4
      rfl
    subst hpp
    rw [parts_unique hc hp h1 h2 ps ps' _ (fun x hx => s1 x (by simp [hx])) (fun x hx => s2 x (by simp [hx])) i5 t t' j2]

/-- **C107** The bytes of a file determine its layout: there is only one way to take it apart into stripes and streams, footers and a postscript, that agrees with what these
say. Two tables, of whatever schemas, whose files are the same have the same stripes, streams and footers. -/
theorem layout_unique (hc : E.c.Lossless) (hp : E.P.Lossless) (h1 : 1 ≤ o.chunkSize) (h2 : o.chunkSize < 2 ^ 23) (hlen : file.length < 2 ^ 63)
    {parts parts' : List StripeParts} {ft ft' : FileFooter} {ps ps' : PostScript} (h : FileLayout E o columns file parts ft ps) (h' : FileLayout E o columns' file parts' ft' ps') :
    parts = parts' ∧ ft = ft' ∧ ps = ps' := by
  obtain ⟨tail, e1, e2⟩ := h.bytes
  obtain ⟨tail', e1', e2'⟩ := h'.bytes
  obtain ⟨hft, hps, ht⟩ := tail_unique hc hp h1 h2 e1 e1' e2 e2' hlen
  refine ⟨?_, hft, hps⟩
  have hs : stripeTable 3 parts = stripeTable 3 parts' := by rw [← h.stripes, ← h'.stripes, hft]
  refine parts_unique hc hp h1 h2 parts parts' 3 h.sound h'.sound hs tail tail' ?_
  rw [e1, List.append_assoc, List.append_assoc] at e1'
  exact List.append_cancel_left e1'

end

/-- The file of a table with nulls, integers and strings: whoever takes it apart finds one stripe of four rows. -/
example : ∃ file, writeFile exEnv exFOpts exTable [exBatch] = .ok file ∧
    ∀ columns parts ft ps, FileLayout exEnv exFOpts columns file parts ft ps → parts.map (·.rows) = [4] ∧ ft.stripes.map (·.numberOfRows) = [4] := by
  obtain ⟨file, part, ft, ps, h1, h2, h3, -⟩ := table_round_trip_partial exEnv runCodec_lossless plainProto_lossless exFOpts rfl (by decide) (by decide) exTable exTable_numbered exTable_named
    exTable_tabular [exBatch] (by simpa using ⟨4, exBatch_shape⟩) (exBatch_readable _) exBatch_fits
  have hlen : file.length = 863 := by
    have : (match writeFile exEnv exFOpts exTable [exBatch] with | .ok f => f.length | _ => 0) = 863 := by decide +kernel
    rw [h1] at this
    exact this
  rw [exBatch_rows] at h3
  refine ⟨file, h1, fun columns parts ft' ps' hl => ?_⟩
  obtain ⟨rfl, rfl, rfl⟩ := layout_unique runCodec_lossless plainProto_lossless (by decide) (by decide) (by omega) h2 hl
  exact ⟨by simp [h3], by rw [h2.stripes, stripeTable_rows]; simp [h3]⟩

end Goorc
