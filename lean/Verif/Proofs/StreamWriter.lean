import Verif.Spec.Streams
import Verif.Proofs.StreamReader
import Verif.Proofs.EncByte
namespace Goorc

/-- What a stream writer holds: `cs` are the chunks completed so far. -/
def StreamWriter.Inv {σ : Type} (c : Codec) (o : WOpts) (w : StreamWriter σ) (cs : List ChunkSpec) : Prop :=
  match o.kind with
  | .none => w.cbuf = none ∧ cs = []
  | .zlib => w.cbuf = some (chunkBytes cs) ∧ (∀ ch ∈ cs, ch.Good c o.chunkSize) ∧ w.buf.length ≤ o.chunkSize ∧
      (cs ≠ [] → w.buf ≠ [])
  | .other => False

theorem newStreamWriter_inv {σ : Type} (c : Codec) (o : WOpts) (ho : o.Sound) (e : σ) : (newStreamWriter o e).Inv c o [] := by
  obtain ⟨hk | hk, -⟩ := ho
  · simp [StreamWriter.Inv, newStreamWriter, hk]
  · simp [StreamWriter.Inv, newStreamWriter, hk, chunkBytes]

theorem chunkBytes_append (a b : List ChunkSpec) : chunkBytes (a ++ b) = chunkBytes a ++ chunkBytes b := by
  simp [chunkBytes]
theorem chunkPlain_append (a b : List ChunkSpec) : chunkPlain (a ++ b) = chunkPlain a ++ chunkPlain b := by
  simp [chunkPlain]

theorem write_spec {σ : Type} (E : Enc σ) (c : Codec) (hc : c.Lossless) (o : WOpts) (ho : o.Sound) (w : StreamWriter σ)
    (cs : List ChunkSpec) (h : w.Inv c o cs) (v : GoVal) (e' : σ) (out : Bytes) (he : E.encode w.enc v = .ok (e', out)) :
    ∃ w' cs2, w.write E c o v = .ok w' ∧ w'.Inv c o (cs ++ cs2) ∧ w'.enc = e' ∧ chunkPlain cs2 ++ w'.buf = w.buf ++ out ∧
      w'.length = w.length ∧ ∀ ch ∈ cs2, ch.plain.length = o.chunkSize := by
  obtain ⟨hk | hk, h1, h2⟩ := ho
  · refine ⟨{ w with enc := e', buf := w.buf ++ out }, [], ?_, ?_, rfl, rfl, rfl, by simp⟩
    · simp only [StreamWriter.write, he, Res.ok_bind]
      rw [if_neg (by simp [hk])]; rfl
    · simpa [StreamWriter.Inv, hk] using h
  · simp only [StreamWriter.Inv, hk] at h
    obtain ⟨g1, g2, g3, g4⟩ := h
    by_cases hb : (w.buf ++ out).length > o.chunkSize
    · obtain ⟨cs2, rest, k1, k2, k3, k4, k5, k6⟩ :=
        zlibToChunks_spec c o.chunkSize h1 (w.buf ++ out).length 0 (w.buf ++ out) (Nat.le_refl _)
      refine ⟨{ w with enc := e', buf := rest, cbuf := some (chunkBytes cs ++ chunkBytes cs2) }, cs2, ?_, ?_, rfl, k2, rfl, fun ch hch => (k5 ch hch).1⟩
      · simp only [StreamWriter.write, he, Res.ok_bind]
        rw [if_pos ⟨by rw [hk]; decide, hb⟩]
        simp only [g1, hk, compressingChunks, k1, Res.ok_bind, Res.pure_eq]
      · simp only [StreamWriter.Inv, hk, chunkBytes_append, true_and]
        refine ⟨?_, k3, fun _ => k4 ?_⟩
        · intro ch hch
          rcases List.mem_append.mp hch with hch | hch
          · exact g2 ch hch
          · exact k6 hc h2 ch hch
        · intro hnil; rw [hnil] at hb; simp at hb
    · refine ⟨{ w with enc := e', buf := w.buf ++ out }, [], ?_, ?_, rfl, rfl, rfl, by simp⟩
      · simp only [StreamWriter.write, he, Res.ok_bind]
        rw [if_neg (fun h => hb h.2)]; rfl
      · simp only [StreamWriter.Inv, hk, List.append_nil]
        refine ⟨g1, g2, by omega, fun hcs hnil => g4 hcs ?_⟩
        exact (List.append_eq_nil_iff.mp hnil).1

/-- If the encoder accepts the values, so does the stream writer, and the bytes it holds are those of the encoder. -/
theorem writes_spec {σ : Type} (E : Enc σ) (c : Codec) (hc : c.Lossless) (o : WOpts) (ho : o.Sound) (vs : List GoVal)
    (w : StreamWriter σ) (cs : List ChunkSpec) (h : w.Inv c o cs) (e' : σ) (out : Bytes)
    (he : E.run w.enc (vs.map .encode) = .ok (e', out)) :
    ∃ w' cs2, w.writes E c o vs = .ok w' ∧ w'.Inv c o (cs ++ cs2) ∧ w'.enc = e' ∧ chunkPlain cs2 ++ w'.buf = w.buf ++ out ∧
      w'.length = w.length ∧ ∀ ch ∈ cs2, ch.plain.length = o.chunkSize := by
  induction vs generalizing w cs out with
  | nil =>
    simp only [List.map_nil, Enc.run, Res.ok.injEq, Prod.mk.injEq] at he
    obtain ⟨rfl, rfl⟩ := he
    exact ⟨w, [], rfl, by simpa using h, rfl, by simp [chunkPlain], rfl, by simp⟩
  | cons v vs ih =>
    simp only [List.map_cons, Enc.run, Enc.step] at he
    obtain ⟨⟨e1, out1⟩, he1, he⟩ := Res.bind_ok_inv he
    obtain ⟨⟨e2, out2⟩, he2, he⟩ := Res.bind_ok_inv he
    simp only [Res.pure_eq, Res.ok.injEq, Prod.mk.injEq] at he
    obtain ⟨rfl, rfl⟩ := he
    obtain ⟨w1, cs1, g1, g2, g3, g4, g5, g6⟩ := write_spec E c hc o ho w cs h v e1 out1 he1
    subst g3
    obtain ⟨w2, cs2, k1, k2, k3, k4, k5, k6⟩ := ih w1 (cs ++ cs1) g2 out2 he2
    refine ⟨w2, cs1 ++ cs2, ?_, by simpa using k2, k3, ?_, by rw [k5, g5], ?_⟩
    · simp only [StreamWriter.writes, g1, Res.ok_bind, k1]
    · rw [chunkPlain_append, List.append_assoc, k4, ← List.append_assoc, g4, List.append_assoc]
    · intro ch hch
      rcases List.mem_append.mp hch with hch | hch
      · exact g6 ch hch
      · exact k6 ch hch

/-- The finished stream: `body` is what `WriteOut` emits, and it stands for `raw`; `cs` are its chunks. -/
def StreamBody (c : Codec) (o : WOpts) (cs : List ChunkSpec) (body raw : Bytes) : Prop :=
  match o.kind with
  | .none => body = raw ∧ cs = []
  | .zlib => body = chunkBytes cs ∧ raw = chunkPlain cs ∧ ∀ ch ∈ cs, ch.Good c o.chunkSize
  | .other => False

theorem StreamBody.feed {c : Codec} {o : WOpts} (ho : o.Sound) {cs : List ChunkSpec} {body raw : Bytes} (h : StreamBody c o cs body raw)
    (tail : Bytes) : Feed c o.kind o.chunkSize (body ++ tail) body.length raw := by
  obtain ⟨hk | hk, h1, h2⟩ := ho
  · simp only [StreamBody, hk] at h
    rw [hk]
    exact ⟨h1, ⟨tail, by rw [h.1]⟩, by rw [h.1]⟩
  · simp only [StreamBody, hk] at h
    rw [hk]
    exact ⟨cs, tail, h.2.2, by rw [h.1], by rw [h.1], h.2.1⟩

theorem flush_spec {σ : Type} (E : Enc σ) (c : Codec) (hc : c.Lossless) (o : WOpts) (ho : o.Sound) (w : StreamWriter σ)
    (cs : List ChunkSpec) (h : w.Inv c o cs) (e' : σ) (out : Bytes) (he : E.flush w.enc = .ok (e', out)) :
    ∃ w' cs2, w.flush E c o = .ok w' ∧ w'.enc = e' ∧
      StreamBody c o (cs ++ cs2) (w'.writeOut o).2 (chunkPlain cs ++ (w.buf ++ out)) ∧ w'.length = (w'.writeOut o).2.length ∧
      (o.kind = .zlib → chunkPlain cs2 = w.buf ++ out ∧ w'.cbuf.isSome = true ∧ HeadBig o.chunkSize cs2) := by
  obtain ⟨hk | hk, h1, h2⟩ := ho
  · simp only [StreamWriter.Inv, hk] at h
    obtain ⟨g1, rfl⟩ := h
    refine ⟨{ w with enc := e', buf := w.buf ++ out, length := (w.buf ++ out).length }, [], ?_, rfl, ?_, ?_, ?_⟩
    · simp only [StreamWriter.flush, he, Res.ok_bind, hk, if_true, Res.pure_eq]
    · simp [StreamBody, hk, StreamWriter.writeOut, chunkPlain]
    · simp [StreamWriter.writeOut, hk]
    · rw [hk]; intro h; simp at h
  · simp only [StreamWriter.Inv, hk] at h
    obtain ⟨g1, g2, g3, g4⟩ := h
    have hkn : ¬ o.kind = .none := by rw [hk]; decide
    by_cases hb : (w.buf ++ out).length > 0
    · obtain ⟨cs2, k1, k2, k3, k4, k5, k6⟩ := compressAll_spec c o.chunkSize h1 (w.buf ++ out)
      refine ⟨{ enc := e', buf := [], cbuf := some (chunkBytes cs ++ chunkBytes cs2),
                length := (chunkBytes cs ++ chunkBytes cs2).length }, cs2, ?_, rfl, ?_, ?_, ?_⟩
      · simp only [StreamWriter.flush, he, Res.ok_bind, g1, if_pos hb, hk, k1, Res.pure_eq]
        rw [if_neg (by decide)]
      · simp only [StreamBody, hk, StreamWriter.writeOut, Option.getD_some, chunkBytes_append, chunkPlain_append, k2, true_and]
        rw [if_neg (by decide)]
        refine ⟨rfl, fun ch hch => ?_⟩
        rcases List.mem_append.mp hch with hch | hch
        · exact g2 ch hch
        · exact k4 hc h2 (List.length_pos_iff.mp hb) ch hch
      · simp [StreamWriter.writeOut, hk]
      · exact fun _ => ⟨k2, rfl, k6⟩
    · have hnil : w.buf ++ out = [] := List.length_eq_zero_iff.mp (by omega)
      refine ⟨{ enc := e', buf := w.buf ++ out, cbuf := some (chunkBytes cs), length := (chunkBytes cs).length }, [], ?_, rfl, ?_, ?_, ?_⟩
      · simp only [StreamWriter.flush, he, Res.ok_bind, if_neg hkn, g1, if_neg hb, Res.pure_eq]
      · simp only [StreamBody, hk, StreamWriter.writeOut, Option.getD_some, List.append_nil, hnil, true_and]
        rw [if_neg (by decide)]
        exact ⟨rfl, g2⟩
      · simp [StreamWriter.writeOut, hk]
      · rw [hnil]; exact fun _ => ⟨rfl, rfl, by simp [HeadBig, chunkPlain]⟩

/-- Writing values in one go: start, write, flush, write out. -/
theorem stream_spec {σ : Type} (E : Enc σ) (c : Codec) (hc : c.Lossless) (o : WOpts) (ho : o.Sound) (w : StreamWriter σ)
    (h : w.Inv c o []) (hb : w.buf = []) (vs : List GoVal) (e' : σ) (out : Bytes)
    (he : E.run w.enc (vs.map .encode ++ [.flush]) = .ok (e', out)) :
    ∃ w1 w2 cs, w.writes E c o vs = .ok w1 ∧ w1.flush E c o = .ok w2 ∧ w2.enc = e' ∧
      StreamBody c o cs (w2.writeOut o).2 out ∧ w2.length = (w2.writeOut o).2.length ∧ (o.kind = .zlib → w2.cbuf.isSome = true) := by
  rw [Enc.run_append] at he
  obtain ⟨⟨e1, out1⟩, he1, he⟩ := Res.bind_ok_inv he
  obtain ⟨⟨e2, out2⟩, he2, he⟩ := Res.bind_ok_inv he
  simp only [Res.pure_eq, Res.ok.injEq, Prod.mk.injEq] at he
  obtain ⟨rfl, rfl⟩ := he
  simp only [Enc.run, Enc.step] at he2
  obtain ⟨⟨e3, out3⟩, he3, he2⟩ := Res.bind_ok_inv he2
  simp only [Res.ok_bind, List.append_nil, Res.pure_eq, Res.ok.injEq, Prod.mk.injEq] at he2
  obtain ⟨rfl, rfl⟩ := he2
  obtain ⟨w1, cs1, g1, g2, g3, g4, g5, -⟩ := writes_spec E c hc o ho vs w [] h e1 out1 he1
  simp only [List.nil_append] at g2
  subst g3
  obtain ⟨w2, cs2, k1, k2, k3, k4, k5⟩ := flush_spec E c hc o ho w1 cs1 g2 e3 out3 he3
  refine ⟨w1, w2, cs1 ++ cs2, g1, k1, k2, ?_, k4, fun hk => (k5 hk).2.1⟩
  rw [← List.append_assoc, g4, hb] at k3
  exact k3

theorem run_flush_inv {σ : Type} {E : Enc σ} {e e' : σ} {ops : List EncOp} {out : Bytes} (h : E.run e (ops ++ [.flush]) = .ok (e', out)) :
    ∃ e1 out1 out2, E.run e ops = .ok (e1, out1) ∧ E.flush e1 = .ok (e', out2) ∧ out = out1 ++ out2 := by
  rw [Enc.run_append] at h
  obtain ⟨⟨e1, out1⟩, he1, h⟩ := Res.bind_ok_inv h
  obtain ⟨⟨e2, out2⟩, he2, h⟩ := Res.bind_ok_inv h
  simp only [Res.pure_eq, Res.ok.injEq, Prod.mk.injEq] at h
  obtain ⟨rfl, rfl⟩ := h
  simp only [Enc.run, Enc.step] at he2
  obtain ⟨⟨e3, out3⟩, he3, he2⟩ := Res.bind_ok_inv he2
  simp only [Res.ok_bind, List.append_nil, Res.pure_eq, Res.ok.injEq, Prod.mk.injEq] at he2
  obtain ⟨rfl, rfl⟩ := he2
  exact ⟨e1, out1, out3, he1, he3, rfl⟩

/-- Seeking in a compressed stream to the point a writer had reached. -/
theorem seek_zlib_spec (c : Codec) (o : WOpts) (hk : o.kind = .zlib) (cs1 cs2 : List ChunkSpec) (body raw : Bytes)
    (hb : StreamBody c o (cs1 ++ cs2) body raw) (hne : cs2 ≠ []) (pre post : Bytes) (r : StreamReader)
    (hr : (newStreamReader o.kind o.chunkSize pre.length body.length (pre ++ body ++ post)).Same r) (off : Nat)
    (hoff : off ≤ (chunkPlain (cs2.take 1)).length) :
    ∃ r', r.seek c (chunkBytes cs1).length off = .ok r' ∧ r'.Represents c ((chunkPlain cs2).drop off) ∧ r.Same r' := by
  obtain ⟨s1, s2, s3, s4, s5⟩ := hr
  simp only [newStreamReader] at s1 s2 s3 s4 s5
  simp only [StreamBody, hk] at hb
  obtain ⟨b1, b2, b3⟩ := hb
  cases cs2 with
  | nil => exact absurd rfl hne
  | cons ch cs2 =>
  have hbl : body.length = (chunkBytes cs1).length + (chunkBytes (ch :: cs2)).length := by
    rw [b1, chunkBytes_append, List.length_append]
  have hrep : ({ r with buf := [], pos := r.start + (chunkBytes cs1).length, readLength := (chunkBytes cs1).length } :
      StreamReader).Represents c (chunkPlain (ch :: cs2)) := by
    refine ⟨_, rfl, by simp only; omega, ?_⟩
    simp only [s1, hk]
    refine ⟨ch :: cs2, post, fun x hx => by rw [s2]; exact b3 x (List.mem_append_right _ hx), ?_, by omega, rfl⟩
    rw [s5, s3, ← List.drop_drop, List.append_assoc, List.drop_left, b1, chunkBytes_append, List.append_assoc, List.drop_left]
  have hlt : (chunkBytes cs1).length < r.length := by
    rw [s4, hbl]
    have : 3 ≤ (chunkBytes (ch :: cs2)).length := by simp [chunkBytes, ChunkSpec.bytes, threeBytes]
    omega
  obtain ⟨r', piece, g1, g2, g3, g4, g5, g6⟩ := readAChunk_spec c _ _ hrep hlt
  simp only [List.nil_append] at g3
  refine ⟨{ r' with buf := r'.buf.drop off }, ?_, ?_, ?_⟩
  · simp only [StreamReader.seek, g1, Res.ok_bind, Res.pure_eq]
  · refine (Represents.drop g4 off ?_).1
    -- the first piece is the first chunk
    have hpiece : r'.buf = ch.plain := by
      have gg := b3 ch (by simp)
      obtain ⟨k1, k2, k3, k4, k5⟩ := gg
      have hkn : ¬ r.kind = .none := by rw [s1, hk]; decide
      have hb : chunkBytes (ch :: cs2) = threeBytes (2 * ch.stored.length + ch.original.toNat) ++ (ch.stored ++ chunkBytes cs2) := by
        simp [chunkBytes, ChunkSpec.bytes]
      have hd : r.file.drop (r.start + (chunkBytes cs1).length) =
          threeBytes (2 * ch.stored.length + ch.original.toNat) ++ (ch.stored ++ (chunkBytes cs2 ++ post)) := by
        rw [s5, s3, ← List.drop_drop, List.append_assoc, List.drop_left, b1, chunkBytes_append, List.append_assoc, List.drop_left, hb]
        simp only [List.append_assoc]
      have hd3 : r.file.drop (r.start + (chunkBytes cs1).length + 3) = ch.stored ++ (chunkBytes cs2 ++ post) := by
        rw [← List.drop_drop, hd]; simp [threeBytes]
      simp only [StreamReader.readAChunk, if_neg hkn, StreamReader.take] at g1
      rw [if_neg (by rw [hd]; simp [threeBytes])] at g1
      have htake : (r.file.drop (r.start + (chunkBytes cs1).length)).take 3 = threeBytes (2 * ch.stored.length + ch.original.toNat) := by
        rw [hd]
        exact List.take_left' rfl
      simp only [Res.ok_bind, htake, threeBytes, List.getD_cons_zero, List.getD_cons_succ, decChunkHeader_spec _ _ k2] at g1
      rw [if_neg (by omega), hd3, if_neg (by simp), List.take_left] at g1
      simp only [Res.ok_bind, s1, hk] at g1
      cases ho : ch.original
      · rw [ho] at k5 g1
        simp only [Bool.false_eq_true, if_false] at k5 g1
        simp only [decompress, k5, Res.ok_bind, Res.pure_eq, Res.ok.injEq] at g1
        rw [← g1]; rfl
      · rw [ho] at k5 g1
        simp only [if_true] at k5 g1
        simp only [Res.pure_eq, Res.ok_bind, k5, Res.ok.injEq] at g1
        rw [← g1]; rfl
    rw [hpiece]
    simpa [chunkPlain] using hoff
  · obtain ⟨t1, t2, t3, t4, t5⟩ := g6
    exact ⟨t1, t2, t3, t4, t5⟩

/-- Seeking in an uncompressed stream: only the first chunk-size bytes can be skipped. -/
theorem seek_none_spec (c : Codec) (o : WOpts) (ho : 1 ≤ o.chunkSize) (hk : o.kind = .none) (raw : Bytes) (pre post : Bytes) (r : StreamReader)
    (hr : (newStreamReader o.kind o.chunkSize pre.length raw.length (pre ++ raw ++ post)).Same r) (off : Nat) :
    ∃ r', r.seek c 0 off = .ok r' ∧ r'.Represents c (raw.drop (min off o.chunkSize)) ∧ r.Same r' := by
  obtain ⟨s1, s2, s3, s4, s5⟩ := hr
  simp only [newStreamReader] at s1 s2 s3 s4 s5
  have hrk : r.kind = .none := by rw [s1, hk]
  obtain ⟨l, hl⟩ : ∃ l, l = (if raw.length < o.chunkSize then raw.length else o.chunkSize) := ⟨_, rfl⟩
  have hl2 : l ≤ raw.length := by rw [hl]; split <;> omega
  have hdrop : r.file.drop (r.start + 0) = raw ++ post := by
    rw [s5, s3, Nat.add_zero, List.append_assoc, List.drop_left]
  refine ⟨{ r with pos := r.start + 0 + l, readLength := 0 + l, buf := (raw.take l).drop off }, ?_, ?_, ⟨rfl, rfl, rfl, rfl, rfl⟩⟩
  · simp only [StreamReader.seek, StreamReader.readAChunk, if_pos hrk, StreamReader.take, Nat.zero_le, if_true, Nat.sub_zero, s4, s2, ← hl,
      hdrop]
    rw [if_neg (by rw [List.length_append]; omega)]
    simp only [Res.ok_bind, Res.pure_eq, List.nil_append, List.take_append_of_le_length hl2]
  · refine ⟨raw.drop l, ?_, by simp only; omega, ?_⟩
    · show raw.drop (min off o.chunkSize) = (raw.take l).drop off ++ raw.drop l
      by_cases hoff : off ≤ l
      · have hmin : min off o.chunkSize = off := by
          rw [hl] at hoff; split at hoff <;> omega
        rw [hmin]
        conv => lhs; rw [← List.take_append_drop l raw]
        rw [List.drop_append_of_le_length (by rw [List.length_take]; omega)]
      · rw [List.drop_of_length_le (show (raw.take l).length ≤ off by rw [List.length_take]; omega), List.nil_append]
        rw [hl] at hoff ⊢
        by_cases hs : raw.length < o.chunkSize
        · rw [if_pos hs] at hoff ⊢
          rw [List.drop_of_length_le (by omega), List.drop_of_length_le (by omega)]
        · rw [if_neg hs] at hoff ⊢
          rw [Nat.min_eq_right (by omega)]
    · simp only [hrk]
      refine ⟨by omega, ⟨post, ?_⟩, by rw [List.length_drop]; omega⟩
      rw [← List.drop_drop, hdrop, List.drop_append_of_le_length hl2]

/-- A position taken after `vs1`: seeking to it in the finished stream gives what the encoder emitted later. -/
theorem position_spec {σ : Type} (E : Enc σ) (c : Codec) (hc : c.Lossless) (o : WOpts) (ho : o.Sound) (hi : o.writeIndex = true)
    (w : StreamWriter σ) (h : w.Inv c o []) (hb : w.buf = []) (vs1 vs2 : List GoVal) (e1 e2 : σ) (out1 out2 : Bytes)
    (he1 : E.run w.enc (vs1.map .encode) = .ok (e1, out1)) (he2 : E.run e1 (vs2.map .encode ++ [.flush]) = .ok (e2, out2)) :
    ∃ w1 w2 w3, w.writes E c o vs1 = .ok w1 ∧ w1.writes E c o vs2 = .ok w2 ∧ w2.flush E c o = .ok w3 ∧ w1.enc = e1 ∧ w3.enc = e2 ∧
      (∃ cs, StreamBody c o cs (w3.writeOut o).2 (out1 ++ out2)) ∧
      ∃ chunk off, splitPosition o.kind (w1.getPosition E o) = (chunk, off, E.getPosition e1) ∧
        ∀ pre post r, (newStreamReader o.kind o.chunkSize pre.length (w3.writeOut o).2.length (pre ++ (w3.writeOut o).2 ++ post)).Same r →
          (o.kind = .none ∧ out1.length ≤ o.chunkSize) ∨ (o.kind = .zlib ∧ out1 ++ out2 ≠ []) →
          ∃ r', r.seek c chunk off = .ok r' ∧ r'.Represents c out2 ∧ r.Same r' := by
  obtain ⟨e3, out3, out4, he3, he4, rfl⟩ := run_flush_inv he2
  obtain ⟨w1, cs1, g1, g2, g3, g4, g5, g6⟩ := writes_spec E c hc o ho vs1 w [] h e1 out1 he1
  simp only [List.nil_append] at g2
  subst g3
  obtain ⟨w2, cs2, k1, k2, k3, k4, k5, k6⟩ := writes_spec E c hc o ho vs2 w1 cs1 g2 e3 out3 he3
  subst k3
  obtain ⟨w3, cs3, f1, f2, f3, f4, f5⟩ := flush_spec E c hc o ho w2 (cs1 ++ cs2) k2 e2 out4 he4
  rw [hb, List.nil_append] at g4
  have hraw : chunkPlain (cs1 ++ cs2) ++ (w2.buf ++ out4) = out1 ++ (out3 ++ out4) := by
    rw [chunkPlain_append, List.append_assoc, ← List.append_assoc (chunkPlain cs2), k4, ← List.append_assoc, ← List.append_assoc,
      g4, List.append_assoc]
  rw [hraw] at f3
  refine ⟨w1, w2, w3, g1, k1, f1, rfl, f2, ⟨_, f3⟩, ?_⟩
  have hk := ho.1
  rcases hk with hk | hk
  · simp only [StreamWriter.Inv, hk] at g2
    obtain ⟨hcb, rfl⟩ := g2
    simp only [chunkPlain, List.flatMap_nil, List.nil_append] at g4
    refine ⟨0, w1.buf.length, ?_, ?_⟩
    · simp [splitPosition, hk, StreamWriter.getPosition, hi]
    · intro pre post r hr hcond
      have hoff : out1.length ≤ o.chunkSize := by
        rcases hcond with hh | hh
        · exact hh.2
        · rw [hk] at hh; simp at hh
      have hbody : (w3.writeOut o).2 = out1 ++ (out3 ++ out4) := by
        simp only [StreamBody, hk] at f3; exact f3.1
      rw [hbody] at hr
      obtain ⟨r', q1, q2, q3⟩ := seek_none_spec c o ho.2.1 hk _ pre post r hr w1.buf.length
      refine ⟨r', q1, ?_, q3⟩
      rw [g4, Nat.min_eq_left hoff, List.drop_left] at q2
      exact q2
  · have g2' := g2
    simp only [StreamWriter.Inv, hk] at g2
    obtain ⟨i1, i2, i3, i4⟩ := g2
    have f5' := f5 hk
    refine ⟨(chunkBytes cs1).length, w1.buf.length, ?_, ?_⟩
    · simp [splitPosition, hk, StreamWriter.getPosition, hi, i1]
    · intro pre post r hr hcond
      have hne : out1 ++ (out3 ++ out4) ≠ [] := by
        rcases hcond with hh | hh
        · rw [hk] at hh; simp at hh
        · exact hh.2
      have hplain : chunkPlain (cs2 ++ cs3) = w1.buf ++ (out3 ++ out4) := by
        rw [chunkPlain_append, f5'.1, ← List.append_assoc, k4, List.append_assoc]
      have hcs : cs2 ++ cs3 ≠ [] := by
        intro hnil
        rw [hnil] at hplain
        have hz := List.append_eq_nil_iff.mp hplain.symm
        apply hne
        have hcs1 : cs1 = [] := by
          apply Classical.byContradiction
          intro hh; exact i4 hh hz.1
        rw [hcs1, hz.1] at g4
        rw [← g4, hz.2]; rfl
      have hbig : HeadBig o.chunkSize (cs2 ++ cs3) := HeadBig.append k6 f5'.2.2
      rw [List.append_assoc] at f3
      obtain ⟨r', q1, q2, q3⟩ := seek_zlib_spec c o hk cs1 (cs2 ++ cs3) _ _ f3 hcs pre post r hr w1.buf.length (by
        simp only [HeadBig, hplain, List.length_append] at hbig
        omega)
      refine ⟨r', q1, ?_, q3⟩
      rw [hplain, List.drop_left] at q2
      exact q2

end Goorc
