import Verif.Spec.ForeignSeek
import Verif.Proofs.Foreign
import Verif.Proofs.ColSeek
namespace Goorc

section
variable {ρ : Type} {R : ReadKind ρ} {c : Codec} {kind : CompKind} {size : Nat} {file : Bytes} {ps : List LaidStream} {contents : StreamKind → Bytes}
  {present : Option (List Bool)} {hasNulls : Bool} {kinds : List StreamKind}

/-! ### Places -/

theorem laid_lookup (hnd : (ps.map (·.kind)).Nodup) {p : LaidStream} (hp : p ∈ ps) :
    Goorc.lookup (laid kind size file ps) p.kind = some (newStreamReader kind size p.start p.body.length file) := by
  have hmem : (p.kind, newStreamReader kind size p.start p.body.length file) ∈ (laid kind size file ps).reverse := by
    rw [List.mem_reverse]; exact List.mem_map_of_mem hp
  cases hf : (laid kind size file ps).reverse.find? (fun s => s.1 = p.kind) with
  | none =>
    have := List.find?_eq_none.mp hf _ hmem
    simp at this
  | some q =>
    have hq := List.mem_of_find?_eq_some hf
    have hqk : q.1 = p.kind := by simpa using List.find?_some hf
    rw [List.mem_reverse] at hq
    obtain ⟨p', hp', rfl⟩ := List.mem_map.mp hq
    have : p' = p := laid_unique hnd hp' hp hqk
    subst this
    simp [Goorc.lookup, hf]

/-- The numbers of a place, followed by those of the encoder. -/
theorem place_streamPos {k : StreamKind} {off : Nat} {nums : List Nat} (hp : PlaceOf c kind size ps contents k off nums) :
    ∃ chunk b, ∀ front rest back, streamPos kind (front ++ (nums ++ rest) ++ back) front.length rest.length =
      .ok ((chunk, b, rest), front.length + (nums ++ rest).length) ∧
      (kind = .none → chunk = 0 ∧ nums = [b]) ∧ (kind = .zlib → nums = [chunk, b]) := by
  obtain ⟨p, -, -, hp⟩ := hp
  cases kind with
  | none =>
    obtain ⟨-, -, rfl⟩ := hp
    refine ⟨0, off, fun front rest back => ⟨?_, fun _ => ⟨rfl, rfl⟩, by simp⟩⟩
    have h1 : posAt (front ++ ([off] ++ rest) ++ back) front.length = .ok off := by simp [posAt]
    have h2 := posFrom_mid (front ++ [off]) rest back
    simp only [List.length_append, List.length_cons, List.length_nil, Nat.zero_add, List.append_assoc, List.cons_append, List.nil_append] at h2
    simp only [streamPos, if_true, h1, Res.ok_bind]
    simp only [List.append_assoc, List.cons_append, List.nil_append] at h2 ⊢
    rw [h2]
    simp; omega
  | zlib =>
    obtain ⟨before, ch, after, b, -, -, -, -, -, rfl⟩ := hp
    refine ⟨(chunkBytes before).length, b, fun front rest back => ⟨?_, by simp, fun _ => rfl⟩⟩
    generalize (chunkBytes before).length = x
    have h1 : posAt (front ++ ([x, b] ++ rest) ++ back) front.length = .ok x := by simp [posAt]
    have h1' : posAt (front ++ ([x, b] ++ rest) ++ back) (front.length + 1) = .ok b := by simp [posAt]
    have h2 := posFrom_mid (front ++ [x, b]) rest back
    simp only [List.length_append, List.length_cons, List.length_nil, Nat.zero_add, List.append_assoc, List.cons_append, List.nil_append] at h2
    simp only [streamPos, reduceCtorEq, if_false, h1, h1', Res.ok_bind]
    simp only [List.append_assoc, List.cons_append, List.nil_append] at h2 ⊢
    rw [show front.length + 2 = front.length + (1 + 1) from rfl, h2]
    simp; omega
  | other => exact hp.elim

/-- Seeking to a place. -/
theorem ColumnLaid.place (h : ColumnLaid c kind size file kinds ps contents present) (hreach : Reachable kind size ps) {k : StreamKind} {off : Nat}
    {nums : List Nat} (hp : PlaceOf c kind size ps contents k off nums) :
    ∃ t chunk b, Goorc.lookup (laid kind size file ps) k = some t ∧
      (∀ front rest back, streamPos kind (front ++ (nums ++ rest) ++ back) front.length rest.length =
        .ok ((chunk, b, rest), front.length + (nums ++ rest).length)) ∧
      ∀ r, t.Same r → ∃ r', r.seek c chunk b = .ok r' ∧ r'.Represents c ((contents k).drop off) ∧ r.Same r' := by
  obtain ⟨chunk, b, hpos⟩ := place_streamPos hp
  obtain ⟨p, hmem, rfl, hp⟩ := hp
  obtain ⟨⟨pre, post, hfile, hstart⟩, hst⟩ := h.inFile p hmem
  refine ⟨_, chunk, b, laid_lookup h.nodup hmem, fun front rest back => (hpos front rest back).1, fun r hr => ?_⟩
  rw [← hstart, hfile] at hr
  obtain ⟨-, hn, hz⟩ := hpos [] [] []
  cases kind with
  | none =>
    obtain ⟨h1, h2, h3⟩ := hp
    obtain ⟨rfl, h4⟩ := hn rfl
    rw [h3] at h4
    obtain rfl : off = b := by simpa using h4
    obtain ⟨r', g1, g2, g3⟩ := seek_none_spec c ⟨.none, size, true⟩ hst.1 rfl p.body pre post r hr off
    refine ⟨r', g1, ?_, g3⟩
    rcases hreach with ⟨hk, -⟩ | ⟨-, hl⟩
    · cases hk
    · have := hl p hmem
      rw [h1] at this g2
      have g2 : r'.Represents c ((contents p.kind).drop (min off size)) := g2
      rw [Nat.min_eq_left (by omega)] at g2
      exact g2
  | zlib =>
    obtain ⟨before, ch, after, b', h1, h2, h3, h4, h5, h6⟩ := hp
    have h7 := hz rfl
    rw [h6] at h7
    simp only [List.cons.injEq, and_true] at h7
    obtain ⟨h7, rfl⟩ := h7
    obtain ⟨r', g1, g2, g3⟩ := seek_zlib_spec c ⟨.zlib, size, true⟩ rfl before (ch :: after) p.body (contents p.kind) ⟨h2, h3, h1⟩ (by simp) pre post r hr b'
      (by simpa [chunkPlain] using h4)
    rw [h7] at g1
    refine ⟨r', g1, ?_, g3⟩
    rw [h3, h5]
    have : chunkPlain (before ++ ch :: after) = chunkPlain before ++ chunkPlain (ch :: after) := by simp [chunkPlain]
    rw [this, ← List.drop_drop, List.drop_left]
    exact g2
  | other => exact hp.elim

/-- Seeking to the start of a stream. -/
theorem ColumnLaid.start (h : ColumnLaid c kind size file kinds ps contents present) (hreach : Reachable kind size ps) {k : StreamKind}
    (hk : k ∈ ps.map (·.kind)) :
    ∃ t, Goorc.lookup (laid kind size file ps) k = some t ∧
      ∀ r, t.Same r → ∃ r', r.seek c 0 0 = .ok r' ∧ r'.Represents c (contents k) ∧ r.Same r' := by
  obtain ⟨p, hmem, rfl⟩ := List.mem_map.mp hk
  obtain ⟨-, hst⟩ := h.inFile p hmem
  have hpl : PlaceOf c kind size ps contents p.kind 0 (if kind = .none then [0] else [0, 0]) := by
    refine ⟨p, hmem, rfl, ?_⟩
    cases kind with
    | none => exact ⟨hst.2, Nat.zero_le _, rfl⟩
    | zlib =>
      obtain ⟨cs, h1, h2, h3⟩ := hst
      cases cs with
      | nil =>
        rcases hreach with ⟨-, hne⟩ | ⟨hk, -⟩
        · exact absurd h2 (hne p hmem)
        · cases hk
      | cons ch cs => exact ⟨[], ch, cs, 0, h1, h2, h3, Nat.zero_le _, rfl, rfl⟩
    | other => exact hst.elim
  obtain ⟨t, chunk, b, h1, h2, h3⟩ := h.place hreach hpl
  obtain ⟨chunk', b', hpos⟩ := place_streamPos hpl
  obtain ⟨g0, g1, g2⟩ := hpos [] [] []
  have e := (h2 [] [] []).symm.trans g0
  simp only [Res.ok.injEq, Prod.mk.injEq, and_true] at e
  obtain ⟨rfl, rfl⟩ := e
  have : chunk = 0 ∧ b = 0 := by
    cases kind with
    | none =>
      obtain ⟨a1, a2⟩ := g1 rfl
      rw [if_pos rfl] at a2
      exact ⟨a1, by simpa using a2.symm⟩
    | zlib =>
      have a2 := g2 rfl
      rw [if_neg (by simp)] at a2
      simp only [List.cons.injEq, and_true] at a2
      exact ⟨a2.1.symm, a2.2.symm⟩
    | other => exact hst.elim
  obtain ⟨rfl, rfl⟩ := this
  refine ⟨t, h1, fun r hr => ?_⟩
  obtain ⟨r', k1, k2, k3⟩ := h3 r hr
  exact ⟨r', k1, by rwa [List.drop_zero] at k2, k3⟩

/-! ### Typed places -/

theorem bits_flatMap (bytes : Bytes) : bytes.flatMap boolsOfByte = bytesBits bytes := by
  simp only [bytesBits]; congr 1; funext b; exact boolsOfByte_bits b

/-- Bits. -/
theorem ColumnLaid.boolPlace (h : ColumnLaid c kind size file kinds ps contents present) (hreach : Reachable kind size ps) {k : StreamKind}
    {bs : List Bool} {m : Nat} {nums : List Nat} (hm : m ≤ bs.length) (hp : BoolPlace c kind size ps contents k bs m nums) :
    ∃ t chunk b x y, Goorc.lookup (laid kind size file ps) k = some t ∧
      (∀ front back, streamPos kind (front ++ nums ++ back) front.length 2 = .ok ((chunk, b, [x, y]), front.length + nums.length)) ∧
      ∀ r : BoolReader, t.Same r.reader.stream → ∃ r' r'', r.seek c chunk b x y = .ok r' ∧ t.Same r'.reader.stream ∧
        Yields (BoolReader.next c) r' (bs.drop m) r'' := by
  obtain ⟨bytes, pad, j, a, n, e, ⟨f1, f2, v1, v2, x, a', h1, h2, h3, h4, h5, h6, h7, rfl⟩, h9, rfl⟩ := hp
  obtain ⟨t, chunk, b, g1, g2, g3⟩ := h.place hreach h7
  refine ⟨t, chunk, b, x, n, g1, fun front back => ?_, fun r hr => ?_⟩
  · have := g2 front [x, n] back
    simpa using this
  · obtain ⟨s, k1, k2, k3⟩ := g3 _ hr
    rw [h1, List.drop_left] at k2
    have hsplit : (v2.drop x).flatMap boolsOfByte = ((bs ++ pad).drop (8 * j)).take n ++ (bs.drop m ++ pad) := by
      rw [bits_flatMap]
      have e1 : bytesBits bytes = bytesBits (v1 ++ v2.take x) ++ bytesBits (v2.drop x) := by
        rw [← bytesBits_append, h2, List.append_assoc, List.take_append_drop]
      have e2 : (bytesBits (v1 ++ v2.take x)).length = 8 * j := by
        rw [bytesBits_length, List.length_append, List.length_take, h6]; congr 2; omega
      have e3 : (bs ++ pad).drop (8 * j) = bytesBits (v2.drop x) := by
        rw [← e, e1, ← e2, List.drop_left]
      rw [← e3]
      conv => lhs; rw [← List.take_append_drop n ((bs ++ pad).drop (8 * j))]
      congr 1
      rw [List.drop_drop, ← h9, List.drop_append_of_le_length hm]
    have hx : (v2.take x).length = x := by rw [List.length_take]; omega
    have hn : (((bs ++ pad).drop (8 * j)).take n).length = n := by
      rw [List.length_take, List.length_drop, List.length_append]; omega
    obtain ⟨r', j1, j2, j3⟩ := BoolReader.seek_spec k1 k2 (v2.take x) (v2.drop x) (by rw [List.take_append_drop]; exact byteStream_decodes h4)
      (((bs ++ pad).drop (8 * j)).take n) (bs.drop m ++ pad) hsplit
    rw [hx, hn] at j1
    obtain ⟨r'', i1, -⟩ := BoolReader.yields_spec (bs.drop m) pad j2
    exact ⟨r', r'', j1, (hr.trans k3).trans j3, i1⟩

/-- Bytes. -/
theorem ColumnLaid.bytePlace (h : ColumnLaid c kind size file kinds ps contents present) (hreach : Reachable kind size ps) {k : StreamKind}
    {vals : Bytes} {m : Nat} {nums : List Nat} (hp : BytePlace c kind size ps contents k vals m nums) :
    ∃ t chunk b x, Goorc.lookup (laid kind size file ps) k = some t ∧
      (∀ front back, streamPos kind (front ++ nums ++ back) front.length 1 = .ok ((chunk, b, [x]), front.length + nums.length)) ∧
      ∀ r : ByteReader, t.Same r.stream → ∃ r' r'', r.seekByte c chunk b x = .ok r' ∧ t.Same r'.stream ∧
        Yields (ByteReader.nextByte c) r' (vals.drop m) r'' := by
  obtain ⟨f1, f2, v1, v2, x, a', h1, h2, h3, h4, h5, h6, h7, rfl⟩ := hp
  obtain ⟨t, chunk, b, g1, g2, g3⟩ := h.place hreach h7
  refine ⟨t, chunk, b, x, g1, fun front back => g2 front [x] back, fun r hr => ?_⟩
  obtain ⟨s, k1, k2, k3⟩ := g3 _ hr
  rw [h1, List.drop_left] at k2
  have hx : (v2.take x).length = x := by rw [List.length_take]; omega
  obtain ⟨r', j1, j2, j3⟩ := BlockReader.seek_spec goodBlocks_byte k1 k2 (v2.take x) (v2.drop x) (by rw [List.take_append_drop]; exact byteStream_decodes h4)
  rw [hx] at j1
  obtain ⟨r'', i1, -⟩ := BlockReader.yields_spec goodBlocks_byte (v2.drop x) [] (by rw [List.append_nil]; exact j2)
  refine ⟨r', r'', j1, (hr.trans k3).trans j3, ?_⟩
  rw [h2, h6, ← List.drop_drop, List.drop_left]
  exact i1

/-- What a seek to a place of an integer leads to. -/
theorem ColumnLaid.intPlace (h : ColumnLaid c kind size file kinds ps contents present) (hreach : Reachable kind size ps) {k : StreamKind}
    {signed : Bool} {blocks : List RleBlock} (hh : ∀ b ∈ blocks, b.Handled signed) {m : Nat} {nums : List Nat}
    (hp : IntPlace c kind size ps contents signed k blocks m nums) :
    ∃ t chunk b x, Goorc.lookup (laid kind size file ps) k = some t ∧
      (∀ front back, streamPos kind (front ++ nums ++ back) front.length 1 = .ok ((chunk, b, [x]), front.length + nums.length)) ∧
      ∀ r, t.Same r → ∃ s flat a z, r.seek c chunk b = .ok s ∧ r.Same s ∧ s.Represents c flat ∧ Decodes (IntReader.dec signed) flat (a ++ z) ∧ a.length = x ∧
        z = ((blocks.flatMap (·.ints signed)).map (BitVec.ofInt 64)).drop m := by
  obtain ⟨f1, f2, b1, b2, x, a', h1, h2, h3, h4, h5, h6, h7, rfl⟩ := hp
  obtain ⟨t, chunk, b, g1, g2, g3⟩ := h.place hreach h7
  refine ⟨t, chunk, b, x, g1, fun front back => g2 front [x] back, fun r hr => ?_⟩
  obtain ⟨s, k1, k2, k3⟩ := g3 _ hr
  rw [h1, List.drop_left] at k2
  refine ⟨s, f2, ((b2.flatMap (·.ints signed)).map (BitVec.ofInt 64)).take x, ((b2.flatMap (·.ints signed)).map (BitVec.ofInt 64)).drop x, k1, k3, k2, ?_, ?_, ?_⟩
  · rw [List.take_append_drop]
    exact intStream_decodes h4 fun b hb => hh b (by rw [h2]; exact List.mem_append_right _ hb)
  · rw [List.length_take, List.length_map]; omega
  · rw [h2, List.flatMap_append, List.map_append, h6, ← List.drop_drop]
    congr 1
    rw [show (b1.flatMap (·.ints signed)).length = ((b1.flatMap (·.ints signed)).map (BitVec.ofInt 64)).length by rw [List.length_map], List.drop_left]

/-- The start of the present stream. -/
theorem ColumnLaid.boolStart (h : ColumnLaid c kind size file kinds ps contents present) (hreach : Reachable kind size ps) {k : StreamKind}
    (hk : k ∈ ps.map (·.kind)) {bs : List Bool} (hb : BoolStream (contents k) bs) :
    ∃ t, Goorc.lookup (laid kind size file ps) k = some t ∧
      ∀ r : BoolReader, t.Same r.reader.stream → ∃ r' r'', r.seek c 0 0 0 0 = .ok r' ∧ t.Same r'.reader.stream ∧ Yields (BoolReader.next c) r' bs r'' := by
  obtain ⟨t, h1, h2⟩ := h.start hreach hk
  refine ⟨t, h1, fun r hr => ?_⟩
  obtain ⟨s, k1, k2, k3⟩ := h2 _ hr
  obtain ⟨bytes, pad, g1, g2⟩ := hb
  obtain ⟨r', j1, j2, j3⟩ := BoolReader.seek_spec k1 k2 [] bytes (byteStream_decodes g1) [] (bs ++ pad) (by rw [bits_flatMap, g2]; rfl)
  obtain ⟨r'', i1, -⟩ := BoolReader.yields_spec bs pad j2
  exact ⟨r', r'', j1, (hr.trans k3).trans j3, i1⟩

/-! ### A column -/

theorem ReadKind.Before.roamsBy {ρ : Type} {R : ReadKind ρ} {c : Codec} {kind : CompKind} {hasNulls : Bool} {index : List (List Nat)}
    {F : BoolReader → Prop} {E : ρ → Prop} {rows : List (Option GoVal)} {row : Nat → Nat} {allowed : Nat → Prop} (hprep : ∀ d : ρ, R.prepare c d = .ok d)
    (hst : R.store = replaceValue) (hskip : R.SkipsLikeNext c)
    (hseek : ∀ p r, R.Before c kind hasNulls index F E rows p r → ∀ k, allowed k →
      ∃ r', R.seekStride c r k = .ok r' ∧ R.Before c kind hasNulls index F E rows (row k) r')
    (ops : List SeekOp) {p : Nat} {r : ColReader ρ} (h : R.Before c kind hasNulls index F E rows p r)
    (hw : WithinBy row allowed rows.length p ops) (hu : hasNulls = false → Unmarked (roamVectors ops)) :
    R.roam c r ops = .ok (roamedBy row rows p ops) := by
  induction ops generalizing p r with
  | nil => rfl
  | cons op ops ih =>
    cases op with
    | batch vec =>
      obtain ⟨h1, h2⟩ := hw
      have hh := h.holds
      rw [← List.take_append_drop vec.length (rows.drop p)] at hh
      obtain ⟨r1, g1, g2, g3, g4, g5, g6⟩ := hh.batch hprep (fun _ x => x) vec (by rw [List.length_take, List.length_drop]; omega)
        (fun hn v hv => hu (h.present.mp hn) v (by simp [roamVectors, hv])) (fun old _ x => by rw [hst]; rfl)
      rw [List.drop_drop] at g2
      have := ih (p := p + vec.length) (r := r1) ⟨g5.trans h.kind, g6.trans h.index, g3.trans h.present, h.agrees.of g3 g4, g2⟩ h2
        (fun hn v hv => hu hn v (by simp [roamVectors, hv]))
      simp only [ReadKind.roam, g1, Res.ok_bind, this, Res.pure_eq, roamedBy]
      congr 2
      simp only [fill]
      congr 1
      funext old row
      exact storeRow_replace old row
    | skip n =>
      obtain ⟨h1, h2⟩ := hw
      obtain ⟨r1, g1, g2, g3⟩ := h.holds.skip hskip n (by rw [List.length_drop]; omega)
      obtain ⟨g4, g5, g6⟩ := R.skipRows_keeps c n g1
      rw [List.drop_drop] at g2
      have := ih (p := p + n) (r := r1) ⟨g4.trans h.kind, g5.trans h.index, g3.trans h.present, h.agrees.of g3 g6, g2⟩ h2 hu
      simp only [ReadKind.roam, g1, Res.ok_bind, this, roamedBy]
    | seek k =>
      obtain ⟨h1, h3⟩ := hw
      obtain ⟨r1, g1, g2⟩ := hseek p r h k h1
      have := ih (p := row k) (r := r1) g2 h3 hu
      simp only [ReadKind.roam, g1, Res.ok_bind, this, roamedBy]

/-- Which values follow a row. -/
theorem values_drop {α : Type} (rows : List (Option α)) (m : Nat) : (rows.drop m).filterMap id = (rows.filterMap id).drop (valuesBefore rows m) := by
  have h : rows.filterMap id = (rows.take m).filterMap id ++ (rows.drop m).filterMap id := by
    rw [← List.filterMap_append, List.take_append_drop]
  rw [h, valuesBefore, List.drop_left]

theorem valuesBefore_le {α : Type} (rows : List (Option α)) (m : Nat) : valuesBefore rows m ≤ (rows.filterMap id).length := by
  have h : rows.filterMap id = (rows.take m).filterMap id ++ (rows.drop m).filterMap id := by
    rw [← List.filterMap_append, List.take_append_drop]
  rw [h, valuesBefore, List.length_append]; omega

/-- What is known of the states `F` of the reader of a present stream: they can be sent to every place the format describes. -/
structure FlagSeeks (c : Codec) (kind : CompKind) (size : Nat) (file : Bytes) (ps : List LaidStream) (contents : StreamKind → Bytes)
    (bs : List Bool) (F : BoolReader → Prop) : Prop where
  keeps : ∀ p x p', BoolReader.next c p = .ok (x, p') → (F p ↔ F p')
  opened : ∃ t p', Goorc.lookup (laid kind size file ps) .present = some t ∧ F (newBoolReader t) ∧ Yields (BoolReader.next c) (newBoolReader t) bs p'
  zero : ∀ r : BoolReader, F r → ∃ r' r'', r.seek c 0 0 0 0 = .ok r' ∧ F r' ∧ Yields (BoolReader.next c) r' bs r''
  place : ∀ m nums, m ≤ bs.length → BoolPlace c kind size ps contents .present bs m nums →
    ∃ pos, (∀ back, streamPos kind (nums ++ back) 0 2 = .ok (pos, nums.length)) ∧
      ∀ r : BoolReader, F r → ∃ r' r'', seekBool c r pos = .ok r' ∧ F r' ∧ Yields (BoolReader.next c) r' (bs.drop m) r''

theorem ColumnLaid.flagSeeks {bs : List Bool} (h : ColumnLaid c kind size file kinds ps contents (some bs)) (hreach : Reachable kind size ps) :
    ∃ F, FlagSeeks c kind size file ps contents bs F := by
  have hmem : StreamKind.present ∈ ps.map (·.kind) := (h.kinds _).mpr (.inr ⟨rfl, rfl⟩)
  obtain ⟨t, ht, hs⟩ := h.boolStart hreach hmem (h.flags bs rfl)
  refine ⟨fun p => t.Same p.reader.stream, fun p x p' hx => ?_, ?_, hs, fun m nums hm hpl => ?_⟩
  · have := BoolReader.next_same hx
    exact ⟨fun h => h.trans this, fun h => h.trans this.symm⟩
  · obtain ⟨q, g1, g2⟩ := (h.lookup .present).1 (.inr ⟨rfl, rfl⟩)
    rw [ht] at g1
    cases g1
    obtain ⟨bytes, pad, k1, k2⟩ := h.flags _ rfl
    have hr := BoolReader.fresh g2 (byteStream_decodes k1)
    rw [bits_flatMap, k2] at hr
    obtain ⟨r', m, -⟩ := BoolReader.yields_spec _ pad hr
    exact ⟨t, r', ht, StreamReader.Same.refl _, m⟩
  · obtain ⟨t', chunk, b, x, y, k1, k2, k3⟩ := h.boolPlace hreach hm hpl
    rw [ht] at k1
    cases k1
    refine ⟨(chunk, b, [x, y]), fun back => ?_, fun r hr => k3 r hr⟩
    have := k2 [] back
    simpa using this

/-- Likewise of the states `over` of the readers of the data streams. -/
structure DataPlaced (R : ReadKind ρ) (c : Codec) (kind : CompKind) (size : Nat) (file : Bytes) (ps : List LaidStream) (vals : List GoVal)
    (data : Nat → List Nat → Prop) (over : ρ → Prop) : Prop where
  keeps : ∀ r x r', R.next c r = .ok (x, r') → (over r ↔ over r')
  opened : ∃ d d', R.init (Goorc.lookup (laid kind size file ps)) = some d ∧ over d ∧ Yields (R.next c) d vals d'
  place : ∀ n nums, n ≤ vals.length → data n nums → ∃ dps, (∀ front, streamsPos kind (front ++ nums) front.length R.layout = .ok dps) ∧
    ∀ r, over r → ∃ r' r'', R.seek c r dps = .ok r' ∧ over r' ∧ Yields (R.next c) r' (vals.drop n) r''
  zero : R.seeksZero = true → ∀ r, over r → ∃ r' r'', R.seek c r (R.layout.map fun n => (0, 0, List.replicate n 0)) = .ok r' ∧ over r' ∧
    Yields (R.next c) r' vals r''

/-- The rows that have something in the streams of a column: with a present stream all, else those that are not null. -/
def storedRows (present : Option (List Bool)) (rows : List (Option GoVal)) : List (Option GoVal) :=
  if present.isSome then rows else rows.filter (·.isSome)

theorem storedRows_flagged {rows : List (Option GoVal)} (hf : Flagged present rows) (m : Nat) : storedRows present (rows.drop m) = rows.drop m := by
  cases hp : present with
  | some bs => rfl
  | none =>
    rw [Flagged, hp, Option.getD_none] at hf
    simp only [storedRows, Option.isSome_none, Bool.false_eq_true, if_false, List.filter_eq_self]
    intro x hx
    exact List.map_inj_left.1 hf x (List.mem_of_mem_drop hx)

theorem filterMap_filter_isSome (l : List (Option GoVal)) : (l.filter (·.isSome)).filterMap id = l.filterMap id := by
  induction l with
  | nil => rfl
  | cons x l ih => cases x <;> simpa using ih

/-- `SeekStride` in any state of a reader, with an entry for row `row`. -/
theorem ReadKind.seekStride_to {F : BoolReader → Prop} {over : ρ → Prop} {data : Nat → List Nat → Prop} (rows : List (Option GoVal))
    (hflag : ∀ bs, present = some bs → bs = rows.map (·.isSome))
    (hF : ∀ bs, present = some bs → FlagSeeks c kind size file ps contents bs F) (hE : DataPlaced R c kind size file ps (rows.filterMap id) data over)
    (r0 : ColReader ρ) (m1 : r0.kind = kind) (m3 : r0.present = none ↔ present.isSome = false) (hov : over r0.data) (hFp : ∀ p, r0.present = some p → F p)
    (row k : Nat) (hi : k = 0 ∧ row = 0 ∧ R.seeksZero = true ∨ ∃ index entry, 1 ≤ k ∧ r0.index = some index ∧ index[k - 1]? = some entry ∧
      EntryAt c kind size ps contents present rows data row entry) (hag : 1 ≤ k → R.Agrees r0) :
    ∃ r', R.seekStride c r0 k = .ok r' ∧ r'.kind = r0.kind ∧ r'.index = r0.index ∧ (r'.present = none ↔ present.isSome = false) ∧ r'.hasNulls = r0.hasNulls ∧
      R.Holds c F over r' (storedRows present (rows.drop row)) := by
  -- every row group starts with flags and values
  have hholds : ∀ m, ∀ (r0 : ColReader ρ) (pp : Option BoolReader) (dr : ρ), (pp = none ↔ present.isSome = false) →
      (∀ bs p, present = some bs → pp = some p → F p ∧ ∃ p', Yields (BoolReader.next c) p (bs.drop m) p') →
      over dr → (∃ dr', Yields (R.next c) dr ((rows.filterMap id).drop (valuesBefore rows m)) dr') →
      R.Holds c F over { r0 with present := pp, data := dr } (storedRows present (rows.drop m)) := by
    intro m r0 pp dr hpp hfl hov ⟨drE, hy⟩
    rw [← values_drop] at hy
    simp only [ReadKind.Holds, ReadKind.Has, storedRows]
    cases hp : present with
    | none =>
      have : pp = none := hpp.mpr (by simp [hp])
      subst this
      simp only [Option.isSome_none, Bool.false_eq_true, if_false, filterMap_filter_isSome]
      refine ⟨drE, ?_, hy, (Yields.keeps (fun r v r' h => hE.keeps r v r' h) hy).mp hov⟩
      simp only [List.all_map, List.all_eq_true]
      intro y hy
      simpa using (List.mem_filter.1 hy).2
    | some bs =>
      cases pp with
      | none => have := hpp.mp rfl; simp [hp] at this
      | some p =>
        obtain ⟨g1, p', g2⟩ := hfl bs p hp rfl
        refine ⟨p', drE, ?_, (Yields.keeps (fun r v r' h => (hF bs hp).keeps r v r' h) g2).mp g1, hy, (Yields.keeps (fun r v r' h => hE.keeps r v r' h) hy).mp hov⟩
        simp only [Option.isSome_some, if_true]
        rw [List.map_drop, ← hflag bs hp]; exact g2
  have hsome : ∀ pp, r0.present = some pp → ∃ bs, present = some bs := by
    intro pp hp
    cases hh : present with
    | some bs => exact ⟨bs, rfl⟩
    | none => rw [m3.mpr (by simp [hh])] at hp; cases hp
  rcases hi with ⟨rfl, rfl, hsz⟩ | ⟨index, entry, hk1, m2, he, hi⟩
  · obtain ⟨dr, drE, o1, o2, o3⟩ := hE.zero hsz r0.data hov
    cases hp : r0.present with
    | none =>
      refine ⟨{ r0 with present := none, data := dr }, by simp only [ReadKind.seekStride, hsz, hp, Res.pure_eq, Res.ok_bind, o1, true_and, if_true], rfl, rfl, by rw [← m3, hp], rfl, ?_⟩
      refine hholds _ _ _ _ (by rw [← m3, hp]) (by simp) o2 ⟨drE, ?_⟩
      simpa [valuesBefore] using o3
    | some pp =>
      obtain ⟨bs, hbs⟩ := hsome pp hp
      obtain ⟨pr, prE, u1, u2, u3⟩ := (hF bs hbs).zero pp (hFp pp hp)
      refine ⟨{ r0 with present := some pr, data := dr }, by simp only [ReadKind.seekStride, hsz, hp, u1, Res.pure_eq, Res.ok_bind, o1, true_and, if_true], rfl, rfl, by simp [hbs], rfl, ?_⟩
      refine hholds _ _ _ _ (by simp [hbs]) (fun bs' p' hb hp' => ?_) o2 ⟨drE, ?_⟩
      · rw [hbs] at hb
        cases hb
        cases hp'
        exact ⟨u2, prE, by simpa using u3⟩
      · simpa [valuesBefore] using o3
  · obtain ⟨hle, pnums, dnums, rfl, hpp, hdd⟩ := hi
    obtain ⟨dps, n2, n4⟩ := hE.place _ _ (valuesBefore_le rows _) hdd
    obtain ⟨dr, drE, o1, o2, o3⟩ := n4 r0.data hov
    have hk0 : k ≠ 0 := by omega
    have hgp : getStridePositions r0.index k = .ok (pnums ++ dnums) := by
      simp only [getStridePositions, m2]
      rw [if_neg (by omega), he]
    cases hp : r0.present with
    | none =>
      have hps : present.isSome = false := m3.mp hp
      have hpn : present = none := by cases present <;> simp_all
      simp only [PresentPlace, hpn] at hpp
      subst hpp
      have hsp := n2 []
      rw [List.nil_append, List.length_nil, ← m1] at hsp
      refine ⟨{ r0 with present := none, data := dr }, ?_, rfl, rfl, by rw [← m3, hp], rfl, ?_⟩
      · rw [List.nil_append] at hgp
        simp only [ReadKind.seekStride, hk0, and_false, if_false, hgp, Res.ok_bind, hp, (hag (by omega)).skips hp, hsp, o1, Res.pure_eq]
      · exact hholds _ _ _ _ (by simp [hps]) (by simp) o2 ⟨drE, o3⟩
    | some pp =>
      obtain ⟨bs, hbs⟩ := hsome pp hp
      simp only [PresentPlace, hbs] at hpp
      obtain ⟨pos, t2, t4⟩ := (hF bs hbs).place _ _ (by rw [hflag bs hbs, List.length_map]; exact hle) hpp
      obtain ⟨pr, prE, u1, u2, u3⟩ := t4 pp (hFp pp hp)
      have hsp := n2 pnums
      have ht2 := t2 dnums
      rw [← m1] at hsp ht2
      refine ⟨{ r0 with present := some pr, data := dr }, ?_, rfl, rfl, by simp [hbs], rfl, ?_⟩
      · simp only [ReadKind.seekStride, hk0, and_false, if_false, hgp, Res.ok_bind, hp, ht2, hsp, u1, o1, Res.pure_eq, ite_self]
      · refine hholds _ _ _ _ (by simp [hbs]) (fun bs' p' hb hp' => ?_) o2 ⟨drE, o3⟩
        rw [hbs] at hb
        cases hb
        cases hp'
        exact ⟨u2, prE, u3⟩

/-- `SeekStride` in any state of a reader. -/
theorem ReadKind.seekStride_goes {F : BoolReader → Prop} {over : ρ → Prop} {data : Nat → List Nat → Prop} (rows : List (Option GoVal))
    (hflag : ∀ bs, present = some bs → bs = rows.map (·.isSome))
    (hF : ∀ bs, present = some bs → FlagSeeks c kind size file ps contents bs F) (hE : DataPlaced R c kind size file ps (rows.filterMap id) data over)
    (r0 : ColReader ρ) (m1 : r0.kind = kind) (m3 : r0.present = none ↔ present.isSome = false) (hov : over r0.data) (hFp : ∀ p, r0.present = some p → F p) (hag : R.Agrees r0)
    (stride k : Nat) (hi : k = 0 ∧ R.seeksZero = true ∨ ∃ index, 1 ≤ k ∧ k ≤ index.length ∧ r0.index = some index ∧
      IndexOf c kind size ps contents present rows stride data index) :
    ∃ r', R.seekStride c r0 k = .ok r' ∧ r'.kind = r0.kind ∧ r'.index = r0.index ∧ (r'.present = none ↔ present.isSome = false) ∧ R.Agrees r' ∧
      R.Holds c F over r' (storedRows present (rows.drop ((k - 1) * stride))) := by
  suffices h : k = 0 ∧ (k - 1) * stride = 0 ∧ R.seeksZero = true ∨ ∃ index entry, 1 ≤ k ∧ r0.index = some index ∧ index[k - 1]? = some entry ∧
      EntryAt c kind size ps contents present rows data ((k - 1) * stride) entry by
    obtain ⟨r', g1, g2, g3, g4, g5, g6⟩ := ReadKind.seekStride_to rows hflag hF hE r0 m1 m3 hov hFp _ k h (fun _ => hag)
    exact ⟨r', g1, g2, g3, g4, hag.of (g4.trans m3.symm) g5, g6⟩
  rcases hi with ⟨rfl, hsz⟩ | ⟨index, hk1, hk, m2, hi⟩
  · exact .inl ⟨rfl, by simp, hsz⟩
  · obtain ⟨entry, he⟩ : ∃ e, index[k - 1]? = some e := ⟨_, List.getElem?_eq_getElem (by omega)⟩
    exact .inr ⟨index, entry, hk1, m2, he, hi _ _ he⟩

/-- Opening a column. -/
theorem ColumnLaid.opensAt (h : ColumnLaid c kind size file R.kinds ps contents present) (hpk : StreamKind.present ∉ R.kinds)
    (hn : present.isSome = true → hasNulls = true) {F : BoolReader → Prop} {over : ρ → Prop} {data : Nat → List Nat → Prop} (rows : List (Option GoVal))
    (hflag : ∀ bs, present = some bs → bs = rows.map (·.isSome))
    (hF : ∀ bs, present = some bs → FlagSeeks c kind size file ps contents bs F) (hE : DataPlaced R c kind size file ps (rows.filterMap id) data over) :
    ∃ r, R.openCol kind hasNulls (laid kind size file ps) = some r ∧ r.kind = kind ∧ (r.present = none ↔ present.isSome = false) ∧ r.hasNulls = hasNulls ∧
      R.Holds c F over r (storedRows present rows) := by
  obtain ⟨d, d', hd1, hd2, hd3⟩ := hE.opened
  obtain ⟨r, h1, rfl, h2, h3⟩ := h.opens hpk hn d hd1
  have hkp : r.kind = kind ∧ r.present = (Goorc.lookup (laid kind size file ps) .present).map newBoolReader ∧ r.hasNulls = hasNulls := by
    have e := h1
    simp only [ReadKind.openCol] at e
    split at e
    · obtain ⟨dd, -, e⟩ := Option.map_eq_some_iff.mp e
      rw [← e]; exact ⟨rfl, rfl, rfl⟩
    · cases e
  refine ⟨r, h1, hkp.1, ?_, hkp.2.2, ?_⟩
  · cases hp : present with
    | none => simp [h2 hp]
    | some bs =>
      obtain ⟨p, p', g1, -⟩ := h3 bs hp
      simp [g1]
  · simp only [ReadKind.Holds, ReadKind.Has, storedRows]
    cases hp : present with
    | none =>
      simp only [h2 hp, Option.isSome_none, Bool.false_eq_true, if_false, filterMap_filter_isSome]
      refine ⟨d', ?_, hd3, (Yields.keeps (fun r v r' h => hE.keeps r v r' h) hd3).mp hd2⟩
      simp only [List.all_map, List.all_eq_true]
      intro y hy
      simpa using (List.mem_filter.1 hy).2
    | some bs =>
      obtain ⟨t, p', g1, g2, g3⟩ := (hF bs hp).opened
      have : r.present = some (newBoolReader t) := by rw [hkp.2.1, g1]; rfl
      rw [this]
      refine ⟨p', d', ?_, (Yields.keeps (fun r v r' h => (hF bs hp).keeps r v r' h) g3).mp g2, hd3, (Yields.keeps (fun r v r' h => hE.keeps r v r' h) hd3).mp hd2⟩
      simp only [Option.isSome_some, if_true]
      rw [← hflag bs hp]; exact g3

/-- The states of the readers of a column. -/
theorem ReadKind.Holds.states {F : BoolReader → Prop} {over : ρ → Prop} {r0 : ColReader ρ} {rows : List (Option GoVal)} (h : R.Holds c F over r0 rows)
    (hF : r0.present.isSome = true → ∀ p x p', BoolReader.next c p = .ok (x, p') → (F p ↔ F p'))
    (hE : ∀ r x r', R.next c r = .ok (x, r') → (over r ↔ over r')) : over r0.data ∧ ∀ p, r0.present = some p → F p := by
  constructor
  · simp only [ReadKind.Holds, ReadKind.Has] at h
    cases hp : r0.present with
    | none =>
      simp only [hp] at h
      obtain ⟨d', -, y1, y2⟩ := h
      exact (Yields.keeps (fun r v r' h => hE r v r' h) y1).mpr y2
    | some p =>
      simp only [hp] at h
      obtain ⟨p', d', -, -, y1, y2⟩ := h
      exact (Yields.keeps (fun r v r' h => hE r v r' h) y1).mpr y2
  · intro p hp
    simp only [ReadKind.Holds, ReadKind.Has, hp] at h
    obtain ⟨p', d', y1, y2, -⟩ := h
    exact (Yields.keeps (fun r v r' h => hF (by simp [hp]) r v r' h) y1).mpr y2

/-- Seeking in a column, given that it can be done in its data streams. -/
theorem ColumnLaid.roams (h : ColumnLaid c kind size file R.kinds ps contents present) (hreach : Reachable kind size ps)
    (hpk : StreamKind.present ∉ R.kinds) (hn : present.isSome = true → hasNulls = true) (hd : R.byNulls = true → hasNulls = present.isSome) (rows : List (Option GoVal)) (hf : Flagged present rows)
    {over : ρ → Prop} {data : Nat → List Nat → Prop} (hE : DataPlaced R c kind size file ps (rows.filterMap id) data over)
    (hprep : ∀ d : ρ, R.prepare c d = .ok d) (hst : R.store = replaceValue) (hskip : R.SkipsLikeNext c)
    (stride : Nat) (index : List (List Nat)) (hi : IndexOf c kind size ps contents present rows stride data index) :
    SeeksToRow R c kind size hasNulls file ps index rows (fun k => (k - 1) * stride) (fun k => k ≤ index.length ∧ (k = 0 → R.seeksZero = true)) := by
  obtain ⟨F, hF⟩ : ∃ F, ∀ bs, present = some bs → FlagSeeks c kind size file ps contents bs F := by
    cases hp : present with
    | none => exact ⟨fun _ => True, by simp⟩
    | some bs =>
      rw [hp] at h
      obtain ⟨F, hF⟩ := h.flagSeeks hreach
      exact ⟨F, fun bs' hb => by cases hb; exact hF⟩
  have hflag : ∀ bs, present = some bs → bs = rows.map (·.isSome) := by
    intro bs hp
    rw [Flagged, hp, Option.getD_some] at hf
    exact hf.symm
  obtain ⟨r, h1, h2, h3, h5, h4⟩ := h.opensAt (hasNulls := hasNulls) hpk hn rows hflag hF hE
  intro ops hw hu
  simp only [roamStreams]
  show (match R.openCol kind hasNulls (laid kind size file ps) with
    | none => _
    | some r => _) = _
  rw [h1]
  refine ReadKind.Before.roamsBy (kind := kind) (hasNulls := present.isSome) (index := index) (F := F) (E := over) hprep hst hskip ?_ ops (p := 0) ?_ hw ?_
  · intro p0 r0 hr0 k ⟨hk, hz⟩
    obtain ⟨m1, m2, m3, m5, m4⟩ := hr0
    obtain ⟨s1, s2⟩ := m4.states (fun hs => by
      cases hp : present with
      | none => rw [m3.mpr (by simp [hp])] at hs; cases hs
      | some bs => exact (hF bs hp).keeps) hE.keeps
    obtain ⟨r', g1, g2, g3, g4, g6, g5⟩ := ReadKind.seekStride_goes rows hflag hF hE r0 m1 m3 s1 s2 m5 stride k (by
      by_cases hk0 : k = 0
      · exact .inl ⟨hk0, hz hk0⟩
      · exact .inr ⟨index, by omega, hk, m2, hi⟩)
    rw [storedRows_flagged hf] at g5
    exact ⟨r', g1, g2.trans m1, g3.trans m2, g4, g6, g5⟩
  · have := storedRows_flagged hf 0
    rw [List.drop_zero] at this
    rw [this] at h4
    exact ⟨h2, rfl, h3, fun hb hp => h5.trans ((hd hb).trans (h3.mp hp)), h4⟩
  · intro hps
    refine hu fun hmem => ?_
    rcases (h.kinds _).mp hmem with hk | ⟨-, hk⟩
    · exact hpk hk
    · rw [hps] at hk; cases hk

end

end Goorc
