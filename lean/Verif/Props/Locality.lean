import Verif.Proofs.LocalityOpen
import Verif.Props.Projection
/-
**C105** What a program reads does not depend on the bytes of the columns it does not read.
-/
namespace Goorc

theorem setHasNulls_id : ∀ (ts : List HeapType) (ss : List AnyStats) (i : Nat) {out : List RdType}, setHasNulls ts ss = .ok out →
    (∀ (k : Nat) t, ts[k]? = some t → t.id = i + k) → ∀ (k : Nat) t, out[k]? = some t → t.id = i + k
  | ts, [], i, out, h, hid => by
    rw [setHasNulls] at h
    cases h
    intro k t ht
    rw [List.getElem?_map] at ht
    cases hk : ts[k]? with
    | none => rw [hk] at ht; cases ht
    | some u => rw [hk] at ht; cases ht; exact hid k u hk
  | [], s :: ss, i, out, h, hid => by cases h
  | t :: ts, s :: ss, i, out, h, hid => by
    rw [setHasNulls] at h
    obtain ⟨rest, g, h⟩ := Res.bind_ok_inv h
    cases h
    intro k u hu
    cases k with
    | zero => cases hu; exact hid 0 t rfl
    | succ k =>
      have := setHasNulls_id ts ss (i + 1) g (fun k t ht => by have := hid (k + 1) t ht; omega) k u hu
      omega

theorem unmarshallFrom_id (total : Nat) : ∀ (ts : List PbType) (i : Nat) {out : List HeapType}, unmarshallFrom total i ts = .ok out →
    ∀ (k : Nat) t, out[k]? = some t → t.id = i + k
  | [], i, out, h => by cases h; intro k t ht; simp at ht
  | t :: ts, i, out, h => by
    rw [unmarshallFrom] at h
    obtain ⟨⟨cs, ns⟩, -, h⟩ := Res.bind_ok_inv h
    obtain ⟨rest, g, h⟩ := Res.bind_ok_inv h
    cases h
    intro k u hu
    cases k with
    | zero => cases hu; rfl
    | succ k =>
      have := unmarshallFrom_id total ts (i + 1) g k u hu
      omega

/-- The types of a reader are numbered. -/
theorem newReader_ids {E : Env} {f : Bytes} {r : FileReader} (h : newReader E f = .ok r) : r.file = f ∧ ∀ (i : Nat) t, r.schemas[i]? = some t → t.id = i := by
  unfold newReader at h
  obtain ⟨t, -, h⟩ := Res.bind_ok_inv h
  cases t with
  | none => cases h
  | some t =>
    dsimp only at h
    split at h
    · cases h
    · obtain ⟨ts, g1, h⟩ := Res.bind_ok_inv h
      obtain ⟨ss, g2, h⟩ := Res.bind_ok_inv h
      cases h
      refine ⟨rfl, fun i u hu => ?_⟩
      have := setHasNulls_id ts _ 0 g2 (unmarshallFrom_id _ _ 0 g1) i u hu
      omega

theorem stripes_like {sk : Prop} (E : Env) (ro : ROpts) (bo : BatchOption) (f g : Bytes) (types : List RdType)
    (hid : ∀ (i : Nat) t, types[i]? = some t → t.id = i) : ∀ infos : List StripeInfo,
    (∀ info ∈ infos, readStripeFooter E ro g info = readStripeFooter E ro f info) →
    (∀ info ∈ infos, ∀ foot, readStripeFooter E ro f info = .ok foot → ∀ s ∈ streamStarts info.offset (info.offset + info.indexLength) foot.streams,
      bo.isInclude s.1.column = true → StreamAgrees sk ro f g s.1 s.2) →
    Res.Alike (List.Forall₂ (StripeNear (TreeNear sk types.length))) (initStripes E ro bo f types infos) (initStripes E ro bo g types infos)
  | [], _, _ => List.Forall₂.nil
  | i :: is, h1, h2 => by
    rw [initStripes, initStripes]
    split
    · exact rfl
    · refine (stripe_like E ro bo f g types hid i (h1 i (List.mem_cons_self ..)) (h2 i (List.mem_cons_self ..))).bind ?_
      intro s s' hs
      exact alike_map (stripes_like E ro bo f g types hid is (fun x hx => h1 x (List.mem_cons_of_mem _ hx)) fun x hx => h2 x (List.mem_cons_of_mem _ hx))
        fun _ _ g => List.Forall₂.cons hs g

theorem tour_like {sk : Prop} {χ α : Type} {X : RdOps χ} {R : χ → χ → Prop} (hX : OpsNear sk X R) (fuel : Nat) (view : Vec → α) :
    ∀ (ops : List RowOp) (v : Vec) {b b' : BatchReader χ}, (∀ row, RowOp.seek row ∈ ops → sk) → BatchNear R b b' →
      Res.Alike (· = ·) (b.tour X fuel view v ops) (b'.tour X fuel view v ops)
  | [], v, b, b', _, h => rfl
  | .next :: ops, v, b, b', hsk, h => by
    rw [BatchReader.tour, BatchReader.tour]
    refine (next_like hX fuel v h).bind ?_
    rintro ⟨a, w, b⟩ ⟨a', w', b'⟩ ⟨ha, hw, hb⟩
    cases ha
    cases hw
    exact alike_map (tour_like hX fuel view ops w (fun row hr => hsk row (List.mem_cons_of_mem _ hr)) hb) fun _ _ g => by rw [g]
  | .seek row :: ops, v, b, b', hsk, h => by
    rw [BatchReader.tour, BatchReader.tour]
    refine (seek_like (hsk row (List.mem_cons_self ..)) hX h row).bind ?_
    intro b b' hb
    exact tour_like hX fuel view ops v (fun row hr => hsk row (List.mem_cons_of_mem _ hr)) hb

/-- **C105** Two files with the same tail and the same stripe footers that agree on the streams of the columns a program reads: whatever the other bytes are, the
program finds the same, or fails alike. The streams have to be whole chunks if the file is compressed, and not empty if the program seeks. -/
theorem unread_bytes_partial {E : Env} {fuel : Nat} {s : Schema} {bo : BatchOption} {ops : List RowOp} {f g : Bytes} (tail : SameTail E f g)
    (footers : SameFooters E f g) (same : OfStreams E f bo fun _ s start => span g start s.length = span f start s.length)
    (whole : OfStreams E f bo fun r s start => s.kind ≠ .rowIndex → r.opts.kind = .none ∨ Chunked (span f start s.length))
    (filled : (∃ row, RowOp.seek row ∈ ops) → OfStreams E f bo fun r s _ => s.kind ≠ .rowIndex → r.opts.kind = .none ∨ s.length ≠ 0) :
    tourVectors E fuel s bo ops g = tourVectors E fuel s bo ops f := by
  unfold tourVectors
  rw [show newReader E g = _ from tail]
  cases hr : newReader E f with
  | err e => rfl
  | panic => rfl
  | hang => rfl
  | ok r =>
    simp only [Res.ok_bind, Res.pure_eq]
    obtain ⟨hfile, hid⟩ := newReader_ids hr
    symm
    apply Res.Alike.eq
    have h1 : Res.Alike (BatchNear (TreeNear (∃ row, RowOp.seek row ∈ ops) r.schemas.length)) (r.createBatchReader E bo)
        (({ r with file := g } : FileReader).createBatchReader E bo) := by
      unfold FileReader.createBatchReader
      split
      · exact rfl
      · rw [hfile]
        exact alike_map (stripes_like E r.opts bo f g r.schemas hid r.stripes (footers r hr) fun info hi foot hfo x hx hb =>
          ⟨same r hr info hi foot hfo x hx hb, whole r hr info hi foot hfo x hx hb, fun q => filled q r hr info hi foot hfo x hx hb⟩)
          fun _ _ g => ⟨rfl, rfl, rfl, rfl, g⟩
    refine h1.bind ?_
    intro b b' hb
    refine (Res.Alike.refl (R := (· = ·)) (fun _ => rfl) _).bind ?_
    rintro v _ rfl
    exact tour_like (tree_ops E.c fuel _) _ id ops v (fun row hrow => ⟨row, hrow⟩) hb

/-- **C105** Of an uncompressed file nothing else is asked for. -/
theorem unread_bytes_plain {E : Env} {fuel : Nat} {s : Schema} {bo : BatchOption} {ops : List RowOp} {f g : Bytes} {r : FileReader} (hr : newReader E f = .ok r)
    (plain : r.opts.kind = .none) (tail : SameTail E f g) (footers : SameFooters E f g)
    (same : OfStreams E f bo fun _ s start => span g start s.length = span f start s.length) :
    tourVectors E fuel s bo ops g = tourVectors E fuel s bo ops f := by
  refine unread_bytes_partial tail footers same ?_ fun _ => ?_
  · intro r' hr' info _ foot _ x _ _ _
    rw [hr] at hr'
    cases hr'
    exact .inl plain
  · intro r' hr' info _ foot _ x _ _ _
    rw [hr] at hr'
    cases hr'
    exact .inl plain

theorem tail_readAt {x : Bytes} {R : Nat} (hR : R ≤ x.length) : readAt x ((x.length : Int) - R) R = .ok (x.drop (x.length - R)) := by
  unfold readAt
  have h0 : ¬((x.length : Int) - R < 0) := by omega
  have h1 : ((x.length : Int) - R).toNat = x.length - R := by omega
  rw [if_neg h0, h1, if_pos (by omega)]
  congr 1
  apply List.take_of_length_le
  rw [List.length_drop]
  omega

/-- The last bytes of a file are the postscript and before it the footer: what is before them does not matter for opening it. -/
theorem sameTail_of_parts {E : Env} {a b foot ps : Bytes} {l : Byte} (hab : b.length = a.length) (hl : ps.length = l.toNat)
    (hp : ∀ p, E.P.readPostScript ps = some p → p.footerLength ≤ foot.length) :
    SameTail E (a ++ (foot ++ (ps ++ [l]))) (b ++ (foot ++ (ps ++ [l]))) := by
  have key : extractFileTail E (b ++ (foot ++ (ps ++ [l]))) = extractFileTail E (a ++ (foot ++ (ps ++ [l]))) := by
    generalize hT : foot ++ (ps ++ [l]) = T
    have hTl : T.length = foot.length + ps.length + 1 := by rw [← hT]; simp; omega
    generalize hf : a ++ T = f
    generalize hg : b ++ T = g
    have hfl : f.length = a.length + T.length := by rw [← hf, List.length_append]
    have hgl : g.length = f.length := by rw [hfl, ← hg, List.length_append, hab]
    have hsuf : ∀ k, k ≤ T.length → ∀ R, R ≤ f.length → k ≤ R → (f.drop (f.length - R)).drop (R - k) = T.drop (T.length - k) ∧
        (g.drop (f.length - R)).drop (R - k) = T.drop (T.length - k) := by
      intro k hk R hR hkR
      have e : f.length - R + (R - k) = a.length + (T.length - k) := by omega
      rw [List.drop_drop, List.drop_drop, e, ← hf, ← hg]
      constructor
      · rw [← List.drop_drop, List.drop_left]
      · rw [← hab, ← List.drop_drop, List.drop_left]
    unfold extractFileTail
    rw [hgl]
    by_cases h0 : f.length = 0
    · rw [if_pos h0, if_pos h0]
    rw [if_neg h0, if_neg h0]
    by_cases h3 : f.length ≤ 3
    · rw [if_pos h3, if_pos h3]
    rw [if_neg h3, if_neg h3]
    dsimp only
    have hRl : min f.length directorySizeGuess ≤ f.length := Nat.min_le_left ..
    have hR1 : 1 ≤ min f.length directorySizeGuess := by
      have : directorySizeGuess = 16384 := rfl
      omega
    generalize min f.length directorySizeGuess = R at *
    have ra := tail_readAt (x := f) (R := R) hRl
    have rb := tail_readAt (x := g) (R := R) (by omega)
    rw [hgl] at rb
    rw [ra, rb]
    simp only [Res.ok_bind]
    generalize hF : f.drop (f.length - R) = F at *
    generalize hG : g.drop (f.length - R) = G at *
    have hFl : F.length = R := by rw [← hF, List.length_drop]; omega
    have hGl : G.length = R := by rw [← hG, List.length_drop]; omega
    have hlast : ∀ X : Bytes, X.drop (R - 1) = T.drop (T.length - 1) → X.getD (R - 1) 0 = l := by
      intro X hX
      have e : T.drop (T.length - 1) = [l] := by
        rw [hTl, ← hT, ← List.append_assoc]
        have : foot.length + ps.length + 1 - 1 = (foot ++ ps).length := by rw [List.length_append]; omega
        rw [this, List.drop_left]
      rw [e] at hX
      have := congrArg (fun y => y[0]?) hX
      simp only [List.getElem?_drop] at this
      rw [List.getD_eq_getElem?_getD]
      simp at this
      rw [this]
      rfl
    have hT1 : 1 ≤ T.length := by omega
    obtain ⟨q1, q2⟩ := hsuf 1 hT1 R hRl hR1
    rw [hF] at q1
    rw [hG] at q2
    rw [hlast F q1, hlast G q2, ← hl]
    -- the postscript
    have slice : ∀ (X e : Bytes) (k n : Nat), X.length = R → k ≤ R → n ≤ k → sliceAt (X ++ e) ((R : Int) - k) n = .ok ((X.drop (R - k)).take n) := by
      intro X e k n hX hk hn
      unfold sliceAt
      have h1 : ((R : Int) - k).toNat = R - k := by omega
      rw [h1, if_pos ⟨by omega, by rw [List.length_append]; omega⟩]
      congr 1
      rw [List.drop_append_of_le_length (by omega), List.take_append_of_le_length (by rw [List.length_drop]; omega)]
    have sliceNeg : ∀ (X : Bytes) (i : Int) (n : Nat), i < 0 → sliceAt X i n = .panic := by
      intro X i n hi
      unfold sliceAt
      rw [if_neg (by omega)]
    by_cases hps : ps.length + 1 ≤ R
    · have e1 : (R : Int) - 1 - ps.length = (R : Int) - (ps.length + 1 : Nat) := by omega
      rw [e1]
      have sF := slice F [] (ps.length + 1) ps.length hFl hps (by omega)
      have sG := slice G [] (ps.length + 1) ps.length hGl hps (by omega)
      rw [List.append_nil] at sF sG
      rw [sF, sG]
      obtain ⟨p1, p2⟩ := hsuf (ps.length + 1) (by omega) R hRl hps
      have eT : (T.drop (T.length - (ps.length + 1))).take ps.length = ps := by
        have : T.length - (ps.length + 1) = foot.length := by omega
        rw [this, ← hT, List.drop_left, List.take_left]
      rw [hF] at p1
      rw [hG] at p2
      rw [p1, p2, eT]
      simp only [Res.ok_bind]
      cases hu : unmarshal E.P.readPostScript ps with
      | err e => rfl
      | panic => rfl
      | hang => rfl
      | ok p =>
        simp only [Res.ok_bind]
        have hpl : p.footerLength ≤ foot.length := by
          apply hp p
          unfold unmarshal at hu
          split at hu
          · cases hu; assumption
          · cases hu
        have foots : ∀ e e' : Bytes, sliceAt (F ++ e) ((R : Int) - (ps.length + 1 : Nat) - p.footerLength) p.footerLength =
            sliceAt (G ++ e') ((R : Int) - (ps.length + 1 : Nat) - p.footerLength) p.footerLength := by
          intro e e'
          by_cases hk : ps.length + 1 + p.footerLength ≤ R
          · have e2 : (R : Int) - (ps.length + 1 : Nat) - p.footerLength = (R : Int) - (ps.length + 1 + p.footerLength : Nat) := by omega
            obtain ⟨p3, p4⟩ := hsuf (ps.length + 1 + p.footerLength) (by omega) R hRl hk
            rw [hF] at p3
            rw [hG] at p4
            rw [e2, slice F e _ _ hFl hk (by omega), slice G e' _ _ hGl hk (by omega), p3, p4]
          · rw [sliceNeg _ _ _ (by omega), sliceNeg _ _ _ (by omega)]
        by_cases hx : 0 < ps.length + 1 + p.footerLength + p.metadataLength - R
        · rw [if_pos hx, if_pos hx]
          generalize ps.length + 1 + p.footerLength + p.metadataLength - R = n
          unfold readAt
          rw [hgl]
          by_cases hneg : ((f.length : Int) - R - n < 0)
          · rw [if_pos hneg, if_pos hneg]; rfl
          · rw [if_neg hneg, if_neg hneg]
            by_cases hn : n ≤ f.length - ((f.length : Int) - R - n).toNat
            · rw [if_pos hn, if_pos hn]
              simp only [Res.ok_bind, Res.pure_eq]
              rw [foots]
            · rw [if_neg hn, if_neg hn]; rfl
        · rw [if_neg hx, if_neg hx]
          have := foots [] []
          rw [List.append_nil, List.append_nil] at this
          simp only [Res.ok_bind, Res.pure_eq]
          rw [this]
    · rw [sliceNeg _ _ _ (by omega), sliceNeg _ _ _ (by omega)]; rfl
  unfold SameTail newReader
  rw [key]
  cases extractFileTail E (a ++ (foot ++ (ps ++ [l]))) with
  | err e => rfl
  | panic => rfl
  | hang => rfl
  | ok t =>
    simp only [Res.ok_bind]
    cases t with
    | none => rfl
    | some t =>
      dsimp only
      split
      · rfl
      · cases unmarshallSchema t.footer.types with
        | err e => rfl
        | panic => rfl
        | hang => rfl
        | ok ts =>
          simp only [Res.ok_bind]
          cases setHasNulls ts t.footer.statistics with
          | err e => rfl
          | panic => rfl
          | hang => rfl
          | ok ss => rfl


/-- The same bytes where the stripe footers are. -/
theorem sameFooters_of_spans {E : Env} {f g : Bytes}
    (h : ∀ r, newReader E f = .ok r → ∀ info ∈ r.stripes, span g (info.offset + info.indexLength + info.dataLength) info.footerLength =
      span f (info.offset + info.indexLength + info.dataLength) info.footerLength) : SameFooters E f g := by
  intro r hr info hi
  unfold readStripeFooter
  rw [readAt_span (h r hr info hi)]

/-! ### Where it fails, and examples -/

/-- The postscript of a small compressed file. -/
def packScript : PostScript := ⟨4, .zlib, 64, 0, [0, 12], "ORC"⟩

/-- A small compressed file: the footers are chunks that are not compressed. -/
def packFile (body : Bytes) : Bytes :=
  ([0x4f#8, 0x52#8, 0x43#8] ++ body ++ [0x03#8, 0x00#8, 0x00#8, 0x00#8]) ++ ([0x03#8, 0x00#8, 0x00#8, 0xf0#8] ++ ([0xf1#8] ++ [0x01#8]))

/-- Small files with bodies of the same length have the same tail. -/
theorem pack_tail (footers : List StripeFooter) (ft : FileFooter) {x y : Bytes} (h : y.length = x.length) :
    SameTail (tinyEnv footers ft packScript) (packFile x) (packFile y) := by
  refine sameTail_of_parts (by simp [h]) rfl fun p hp => ?_
  have : p = packScript := by
    have e : (tinyEnv footers ft packScript).P.readPostScript [0xf1#8] = some packScript := rfl
    rw [e] at hp
    injection hp with hp
    exact hp.symm
  subst this
  decide

theorem tiny_sameTail (footers : List StripeFooter) (ft : FileFooter) {x y : Bytes} (h : y.length = x.length) :
    SameTail (tinyEnv footers ft tinyScript) (tinyFile x) (tinyFile y) := by
  have e : ∀ x, tinyFile x = ([0x4f#8, 0x52#8, 0x43#8] ++ x) ++ ([0xf0#8] ++ ([0xf1#8] ++ [0x01#8])) := fun x => by simp [tinyFile]
  rw [e, e]
  refine sameTail_of_parts (by simp [h]) rfl fun p hp => ?_
  have : p = tinyScript := by
    have e : (tinyEnv footers ft tinyScript).P.readPostScript [0xf1#8] = some tinyScript := rfl
    rw [e] at hp
    injection hp with hp
    exact hp.symm
  subst this
  decide

/-- What a program sees of the leaves of a table. -/
def columnsSeen (E : Env) (s : Schema) (bo : BatchOption) (ops : List RowOp) (file : Bytes) : Res (List (Bool × List (Nat × List Value))) :=
  (tourVectors E 10 s bo ops file).bind fun out => .ok (out.map fun p => (p.1, p.2.columnsRead))

/-- A compressed file whose first column has a chunk of 3 bytes in a stream of 4: only one byte of the chunk is in the stream, the others belong to the
second column. -/
def exOverEnv : Env := tinyEnv [⟨[⟨.data, 1, 4⟩, ⟨.present, 2, 2⟩, ⟨.data, 2, 2⟩], [.direct, .direct, .direct]⟩] (tinyFooter exFrail [⟨3, 0, 8, 4, 5⟩]) packScript

def exOverFile (x : Byte) : Bytes := packFile [0x07#8, 0x00#8, 0x00#8, 0x02#8, x, 0x09#8, 0x00#8, 0x00#8]

/-- **C105** A compressed chunk that is longer than its stream is filled with the bytes of another column: a program that reads only the first column finds 5 or
6 according to a byte of the second. -/
theorem chunk_takes_neighbours : ¬ ∀ (E : Env) (fuel : Nat) (s : Schema) (bo : BatchOption) (ops : List RowOp) (f g : Bytes), (∀ op ∈ ops, op.isNext = true) →
    SameTail E f g → SameFooters E f g → OfStreams E f bo (fun _ s start => span g start s.length = span f start s.length) →
    tourVectors E fuel s bo ops g = tourVectors E fuel s bo ops f := by
  intro h
  have hr : newReader exOverEnv (exOverFile 0x05#8) = .ok ⟨exOverFile 0x05#8, ⟨.zlib, 64, 10000⟩, [⟨⟨0, .struct, ["t", "b"], [1, 2]⟩, false⟩,
      ⟨⟨1, .byte, [], []⟩, false⟩, ⟨⟨2, .boolean, [], []⟩, true⟩], 5, [tinyStats false, tinyStats false, tinyStats true], [⟨3, 0, 8, 4, 5⟩]⟩ := rfl
  have := h exOverEnv 10 exFrail ⟨[0, 1], 5, false⟩ [.next] (exOverFile 0x05#8) (exOverFile 0x06#8) (by simp [RowOp.isNext]) (pack_tail _ _ rfl)
    (sameFooters_of_spans fun r hr' info hi => by
      rw [hr] at hr'
      cases hr'
      simp only [List.mem_singleton] at hi
      subst hi
      rfl)
    (fun r hr' info hi foot hf x hx hb => by
      rw [hr] at hr'
      cases hr'
      simp only [List.mem_singleton] at hi
      subst hi
      have e : readStripeFooter exOverEnv ⟨.zlib, 64, 10000⟩ (exOverFile 0x05#8) ⟨3, 0, 8, 4, 5⟩ =
        .ok ⟨[⟨.data, 1, 4⟩, ⟨.present, 2, 2⟩, ⟨.data, 2, 2⟩], [.direct, .direct, .direct]⟩ := rfl
      rw [e] at hf
      cases hf
      have e : streamStarts 3 (3 + 0) [⟨.data, 1, 4⟩, ⟨.present, 2, 2⟩, ⟨.data, 2, 2⟩] = [(⟨.data, 1, 4⟩, 3), (⟨.present, 2, 2⟩, 7), (⟨.data, 2, 2⟩, 9)] := rfl
      rw [e] at hx
      simp only [List.mem_cons, List.not_mem_nil, or_false] at hx
      rcases hx with rfl | rfl | rfl
      · rfl
      · cases hb
      · cases hb)
  have h1 : columnsSeen exOverEnv exFrail ⟨[0, 1], 5, false⟩ [.next] (exOverFile 0x05#8) = .ok [(true, [(1, List.replicate 5 ⟨false, .u8 5⟩)])] := by decide +kernel
  have h2 : columnsSeen exOverEnv exFrail ⟨[0, 1], 5, false⟩ [.next] (exOverFile 0x06#8) = .ok [(true, [(1, List.replicate 5 ⟨false, .u8 6⟩)])] := by decide +kernel
  unfold columnsSeen at h1 h2
  rw [this, h1] at h2
  injection h2 with h2
  revert h2
  decide

/-- A compressed file whose first column has an empty stream. -/
def exVoidEnv : Env := tinyEnv [⟨[⟨.data, 1, 0⟩, ⟨.present, 2, 2⟩, ⟨.data, 2, 3⟩], [.direct, .direct, .direct]⟩] (tinyFooter exFrail [⟨3, 0, 5, 4, 5⟩]) packScript

def exVoidFile (x : Byte) : Bytes := packFile [0x05#8, 0x00#8, 0x00#8, 0x02#8, x]

/-- **C105** `Seek` reads a chunk even if the stream is empty: the chunk it takes for the first one belongs to another column, and its values are handed over. -/
theorem seek_takes_neighbours : ¬ ∀ (E : Env) (fuel : Nat) (s : Schema) (bo : BatchOption) (ops : List RowOp) (f g : Bytes),
    SameTail E f g → SameFooters E f g → OfStreams E f bo (fun _ s start => span g start s.length = span f start s.length) →
    OfStreams E f bo (fun r s start => s.kind ≠ .rowIndex → r.opts.kind = .none ∨ Chunked (span f start s.length)) →
    tourVectors E fuel s bo ops g = tourVectors E fuel s bo ops f := by
  intro h
  have hr : newReader exVoidEnv (exVoidFile 0x07#8) = .ok ⟨exVoidFile 0x07#8, ⟨.zlib, 64, 10000⟩, [⟨⟨0, .struct, ["t", "b"], [1, 2]⟩, false⟩,
      ⟨⟨1, .byte, [], []⟩, false⟩, ⟨⟨2, .boolean, [], []⟩, true⟩], 5, [tinyStats false, tinyStats false, tinyStats true], [⟨3, 0, 5, 4, 5⟩]⟩ := rfl
  have key : ∀ p : FileReader → StreamInfo → Nat → Prop, (∀ r, p r ⟨.data, 1, 0⟩ 3) → OfStreams exVoidEnv (exVoidFile 0x07#8) ⟨[0, 1], 5, false⟩ p := by
    intro p hp r hr' info hi foot hf x hx hb
    rw [hr] at hr'
    cases hr'
    simp only [List.mem_singleton] at hi
    subst hi
    have e : readStripeFooter exVoidEnv ⟨.zlib, 64, 10000⟩ (exVoidFile 0x07#8) ⟨3, 0, 5, 4, 5⟩ =
      .ok ⟨[⟨.data, 1, 0⟩, ⟨.present, 2, 2⟩, ⟨.data, 2, 3⟩], [.direct, .direct, .direct]⟩ := rfl
    rw [e] at hf
    cases hf
    have e : streamStarts 3 (3 + 0) [⟨.data, 1, 0⟩, ⟨.present, 2, 2⟩, ⟨.data, 2, 3⟩] = [(⟨.data, 1, 0⟩, 3), (⟨.present, 2, 2⟩, 3), (⟨.data, 2, 3⟩, 5)] := rfl
    rw [e] at hx
    simp only [List.mem_cons, List.not_mem_nil, or_false] at hx
    rcases hx with rfl | rfl | rfl
    · exact hp _
    · cases hb
    · cases hb
  have := h exVoidEnv 10 exFrail ⟨[0, 1], 5, false⟩ [.seek 0, .next] (exVoidFile 0x07#8) (exVoidFile 0x08#8) (pack_tail _ _ rfl)
    (sameFooters_of_spans fun r hr' info hi => by
      rw [hr] at hr'
      cases hr'
      simp only [List.mem_singleton] at hi
      subst hi
      rfl)
    (key _ fun _ => rfl) (key _ fun _ _ => .inr Chunked.nil)
  have h1 : columnsSeen exVoidEnv exFrail ⟨[0, 1], 5, false⟩ [.seek 0, .next] (exVoidFile 0x07#8) = .ok [(true, [(1, List.replicate 5 ⟨false, .u8 7⟩)])] := by decide +kernel
  have h2 : columnsSeen exVoidEnv exFrail ⟨[0, 1], 5, false⟩ [.seek 0, .next] (exVoidFile 0x08#8) = .ok [(true, [(1, List.replicate 5 ⟨false, .u8 8⟩)])] := by decide +kernel
  unfold columnsSeen at h1 h2
  rw [this, h1] at h2
  injection h2 with h2
  revert h2
  decide

/-- The conditions of C105 are met: a compressed file with a whole chunk, read with a `Seek` between two `Next`; the stream of the other column is any bytes. -/
def exPackEnv : Env := tinyEnv [⟨[⟨.data, 1, 5⟩, ⟨.present, 2, 2⟩, ⟨.data, 2, 2⟩], [.direct, .direct, .direct]⟩] (tinyFooter exFrail [⟨3, 0, 9, 4, 5⟩]) packScript

def exPackFile (x : Byte) : Bytes := packFile [0x05#8, 0x00#8, 0x00#8, 0x02#8, 0x07#8, x, x, x, x]

theorem exPack_same (x : Byte) (ops : List RowOp) : tourVectors exPackEnv 10 exFrail ⟨[0, 1], 2, false⟩ ops (exPackFile x) =
    tourVectors exPackEnv 10 exFrail ⟨[0, 1], 2, false⟩ ops (exPackFile 0x00#8) := by
  have hr : newReader exPackEnv (exPackFile 0x00#8) = .ok ⟨exPackFile 0x00#8, ⟨.zlib, 64, 10000⟩, [⟨⟨0, .struct, ["t", "b"], [1, 2]⟩, false⟩,
      ⟨⟨1, .byte, [], []⟩, false⟩, ⟨⟨2, .boolean, [], []⟩, true⟩], 5, [tinyStats false, tinyStats false, tinyStats true], [⟨3, 0, 9, 4, 5⟩]⟩ := rfl
  have key : ∀ p : FileReader → StreamInfo → Nat → Prop, (∀ r, p r ⟨.data, 1, 5⟩ 3) → OfStreams exPackEnv (exPackFile 0x00#8) ⟨[0, 1], 2, false⟩ p := by
    intro p hp r hr' info hi foot hf x hx hb
    rw [hr] at hr'
    cases hr'
    simp only [List.mem_singleton] at hi
    subst hi
    have e : readStripeFooter exPackEnv ⟨.zlib, 64, 10000⟩ (exPackFile 0x00#8) ⟨3, 0, 9, 4, 5⟩ =
      .ok ⟨[⟨.data, 1, 5⟩, ⟨.present, 2, 2⟩, ⟨.data, 2, 2⟩], [.direct, .direct, .direct]⟩ := rfl
    rw [e] at hf
    cases hf
    have e : streamStarts 3 (3 + 0) [⟨.data, 1, 5⟩, ⟨.present, 2, 2⟩, ⟨.data, 2, 2⟩] = [(⟨.data, 1, 5⟩, 3), (⟨.present, 2, 2⟩, 8), (⟨.data, 2, 2⟩, 10)] := rfl
    rw [e] at hx
    simp only [List.mem_cons, List.not_mem_nil, or_false] at hx
    rcases hx with rfl | rfl | rfl
    · exact hp _
    · cases hb
    · cases hb
  refine unread_bytes_partial (pack_tail _ _ rfl) (sameFooters_of_spans fun r hr' info hi => ?_) (key _ fun _ => rfl)
    (key _ fun _ _ => .inr (Chunked.cons 0x05#8 0x00#8 0x00#8 [0x02#8, 0x07#8] [] rfl .nil)) fun _ => key _ fun _ _ => .inr (by decide)
  rw [hr] at hr'
  cases hr'
  simp only [List.mem_singleton] at hi
  subst hi
  rfl

example (x : Byte) : columnsSeen exPackEnv exFrail ⟨[0, 1], 2, false⟩ [.next, .seek 1, .next] (exPackFile x) =
    .ok [(false, [(1, [⟨false, .u8 7⟩, ⟨false, .u8 7⟩])]), (true, [(1, [⟨false, .u8 7⟩, ⟨false, .u8 7⟩])])] := by
  unfold columnsSeen
  rw [exPack_same]
  decide +kernel

/-- The same of an uncompressed file: the second column of `exBothFile` may be any bytes. -/
example (x y z w : Byte) (ops : List RowOp) : tourVectors exBothEnv 10 exFrail ⟨[0, 1], 2, false⟩ ops (tinyFile [0x02#8, 0x07#8, x, y, z, w, 0x00#8]) =
    tourVectors exBothEnv 10 exFrail ⟨[0, 1], 2, false⟩ ops exBothFile := by
  have hr : newReader exBothEnv exBothFile = .ok ⟨exBothFile, ⟨.none, 256 * 1024, 10000⟩, [⟨⟨0, .struct, ["t", "b"], [1, 2]⟩, false⟩,
      ⟨⟨1, .byte, [], []⟩, false⟩, ⟨⟨2, .boolean, [], []⟩, true⟩], 5, [tinyStats false, tinyStats false, tinyStats true], [⟨3, 0, 6, 1, 5⟩]⟩ := rfl
  refine unread_bytes_plain hr rfl (tiny_sameTail _ _ rfl) (sameFooters_of_spans fun r hr' info hi => ?_) fun r hr' info hi foot hf x hx hb => ?_
  · rw [hr] at hr'
    cases hr'
    simp only [List.mem_singleton] at hi
    subst hi
    rfl
  · rw [hr] at hr'
    cases hr'
    simp only [List.mem_singleton] at hi
    subst hi
    have e : readStripeFooter exBothEnv ⟨.none, 256 * 1024, 10000⟩ exBothFile ⟨3, 0, 6, 1, 5⟩ =
      .ok ⟨[⟨.data, 1, 2⟩, ⟨.present, 2, 2⟩, ⟨.data, 2, 2⟩], [.direct, .direct, .direct]⟩ := rfl
    rw [e] at hf
    cases hf
    have e : streamStarts 3 (3 + 0) [⟨.data, 1, 2⟩, ⟨.present, 2, 2⟩, ⟨.data, 2, 2⟩] = [(⟨.data, 1, 2⟩, 3), (⟨.present, 2, 2⟩, 5), (⟨.data, 2, 2⟩, 7)] := rfl
    rw [e] at hx
    simp only [List.mem_cons, List.not_mem_nil, or_false] at hx
    rcases hx with rfl | rfl | rfl
    · rfl
    · cases hb
    · cases hb

end Goorc
