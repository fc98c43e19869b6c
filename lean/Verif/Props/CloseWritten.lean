import Verif.Props.Close
import Verif.Proofs.SchemaTree
import Verif.Props.Copy
/-
C110 for files of this library.
-/
namespace Goorc

theorem column_parent {s c : Schema} (hc : c ∈ s.columns) : c = s ∨ ∃ p ∈ s.columns, c ∈ p.children := by
  have : s.columns = s :: columnsAll s.children := by obtain ⟨n, cs⟩ := s; rfl
  rw [this] at hc
  rcases List.mem_cons.1 hc with rfl | hc
  · exact .inl rfl
  · exact .inr (List.mem_flatMap.1 ((children_perm s).mem_iff.2 hc))

theorem tags_streams {n : SchemaNode} {w : WriterTag} {r : ReaderTag} (h : newWriterTag n.kind n.encoding = .ok w) (g : newReaderTag n.kind n.encoding = .ok r) :
    r.closes = n.dataStreams ∧ r ≠ .map := by
  obtain ⟨id, kind, enc, nulls, names⟩ := n
  cases kind <;> cases enc <;> simp [newWriterTag, newReaderTag] at h g <;> subst g <;> simp [ReaderTag.closes, SchemaNode.dataStreams]

theorem stripeColumns_at {E : Env} {ro : ROpts} {bo : BatchOption} {file : Bytes} {types : List RdType} {info : StripeInfo} {footer : StripeFooter}
    {rs : List (Option FlatRd)} (h : stripeColumns E ro bo file types info footer = .ok rs) (hid : ∀ (i : Nat) t, types[i]? = some t → t.id = i) :
    rs.length = types.length ∧ ∀ (c : Nat) t, types[c]? = some t → (bo.isInclude c = false → rs[c]? = some none) ∧
      (bo.isInclude c = true → ∃ r enc, rs[c]? = some (some r) ∧ footer.columns[c]? = some enc ∧ newReaderTag t.kind enc = .ok r.tag ∧
        r.hasNulls = t.hasNulls ∧ r.streams.map (·.1) = listedKinds footer c) := by
  simp only [stripeColumns, Res.bind_eq_ok, Res.pure_eq, Res.ok.injEq] at h
  obtain ⟨rs0, h1, rs1, h2, _, -, rfl⟩ := h
  obtain ⟨hlen, hget⟩ := initColumns_get types rs0 h1
  obtain ⟨hlen', hout⟩ := initStreams_left_out _ _ _ _ _ h2
  refine ⟨hlen'.trans hlen, fun c t ht => ⟨fun hinc => ?_, fun hinc => ?_⟩⟩
  · exact hout c (initColumns_left_out types rs0 h1 c t ht (by rw [hid _ _ ht]; exact hinc))
  · obtain ⟨enc, tag, he, htag, hr⟩ := hget c t ht (by rw [hid _ _ ht]; exact hinc)
    obtain ⟨r', hr', e1, e2, hs⟩ := initStreams_places _ _ _ _ _ h2 c _ hr
    refine ⟨r', enc, hr', by rw [← hid _ _ ht]; exact he, by rw [e1]; exact htag, e2, ?_⟩
    rw [hs]
    simp only [List.nil_append, List.map_map, listedKinds, ← startsFrom_kinds c _ (info.offset + info.indexLength)]
    rfl

/-- A stripe as this library writes it gives back all of its handles. -/
theorem written_stripe_closes {E : Env} {ro : ROpts} {bo : BatchOption} {file : Bytes} {types : List RdType} {info : StripeInfo} {footer : StripeFooter} {s : Schema}
    {rs : List (Option FlatRd)} (num : s.Numbered) (ht : TypesOf s types)
    (hcols : ∀ (j : Nat) (n : SchemaNode), (s.columns.map (·.node))[j]? = some n →
      listedKinds footer j = (if n.hasNulls then [StreamKind.present] else []) ++ n.dataStreams ∧ ∃ w, newWriterTag n.kind n.encoding = .ok w)
    (henc : footer.columns = (s.columns.map (·.node)).map (·.encoding))
    (hroot : bo.isInclude s.node.id = true) (hpar : ∀ c ∈ s.columns, ∀ d ∈ c.children, bo.isInclude d.node.id = true → bo.isInclude c.node.id = true)
    (h : stripeColumns E ro bo file types info footer = .ok rs) :
    ∃ hs, closeStripe bo types rs = .ok hs ∧ hs.Nodup ∧ ∀ x, WasOpened rs x ↔ x ∈ hs := by
  have tree := types_tree num ht
  have hid : ∀ (i : Nat) t, types[i]? = some t → t.id = i := by
    intro i t hi
    obtain ⟨c, -, rfl, names, rfl⟩ := ht.at num hi
    rfl
  have node : ∀ (i : Nat) t, types[i]? = some t → ∃ c ∈ s.columns, c.node.id = i ∧ (s.columns.map (·.node))[i]? = some c.node ∧ t.kind = c.node.kind ∧ t.hasNulls = c.node.hasNulls ∧
      t.children = c.children.map fun d => d.node.id := by
    intro i t hi
    obtain ⟨c, hc, rfl, names, rfl⟩ := ht.at num hi
    refine ⟨c, hc, rfl, ?_, rfl, rfl, rfl⟩
    obtain ⟨k, hk, rfl⟩ := List.mem_iff_getElem.1 hc
    rw [numbered_at num k hk]
    simp [hk]
  have hs0 : s.node.id = 0 := by
    have hpos : 0 < s.columns.length := by obtain ⟨n, cs⟩ := s; simp [Schema.columns]
    have := numbered_at num 0 hpos
    have e : s.columns[0] = s := by obtain ⟨n, cs⟩ := s; rfl
    rwa [e] at this
  obtain ⟨names0, ht0⟩ := ht.2 s (self_mem_columns s)
  rw [hs0] at ht0 hroot
  have hfirst : firstIncluded bo types = some 0 := by
    cases types with
    | nil => simp at ht0
    | cons t ts =>
      have := hid 0 t (by simp)
      simp [firstIncluded, this, hroot]
  obtain ⟨hlen, hat⟩ := stripeColumns_at h hid
  have kids : ∀ (id : Nat) t, types[id]? = some t → ∀ c ∈ t.children, ∃ u, types[c]? = some u := by
    intro id t hi c hc
    obtain ⟨C, hC, -, -, -, -, e⟩ := node id t hi
    rw [e] at hc
    obtain ⟨d, hd, rfl⟩ := List.mem_map.1 hc
    obtain ⟨names, hn⟩ := ht.2 d (columns_child hC hd)
    exact ⟨_, hn⟩
  have flat : ∀ (c : Nat) u, types[c]? = some u → u.kind ≠ .list ∧ u.kind ≠ .map ∧ KindsKnown u (listedKinds footer c) := by
    intro c u hu
    obtain ⟨C, -, -, hn, e1, e2, -⟩ := node c u hu
    obtain ⟨k, w, hw⟩ := hcols c _ hn
    refine ⟨?_, ?_, ?_⟩
    · rw [e1]; intro e; rw [e] at hw; simp [newWriterTag] at hw
    · rw [e1]; intro e; rw [e] at hw; simp [newWriterTag] at hw
    · rw [k, KindsKnown, e1, e2]
      generalize C.node = n
      obtain ⟨id, kind, enc, nulls, names⟩ := n
      cases kind <;> cases nulls <;> cases enc <;> simp [SchemaNode.dataStreams]
  obtain ⟨hs, hc⟩ : ∃ hs, closeStripe bo types rs = .ok hs := by
    refine close_returns hid tree (fun id r hr => ?_) (fun id t hi hinc => ?_) kids ⟨_, List.mem_of_getElem? ht0, by simpa using hroot⟩
    · have hlt : id < types.length := by rw [← hlen]; exact (List.getElem?_eq_some_iff.1 hr).1
      have hi := List.getElem?_eq_getElem hlt
      obtain ⟨a1, a2⟩ := hat id _ hi
      cases hinc : bo.isInclude id with
      | false => rw [a1 hinc] at hr; simp at hr
      | true =>
        obtain ⟨r', enc, b1, b2, b3, b4, b5⟩ := a2 hinc
        rw [hr] at b1; injection b1 with b1; injection b1 with b1; subst b1
        obtain ⟨C, -, -, hn, e1, e2, -⟩ := node id _ hi
        obtain ⟨k, w, hw⟩ := hcols id _ hn
        have he : enc = C.node.encoding := by
          rw [henc, List.getElem?_map, hn] at b2; simpa using b2.symm
        rw [e1, he] at b3
        obtain ⟨t1, t2⟩ := tags_streams hw b3
        refine ⟨fun x hx => ?_, fun _ hnull => ?_, fun hm => absurd hm t2⟩
        · rw [b5, k, ← t1]; simp [hx]
        · rw [b5, k, if_pos (by rw [← e2, ← b4]; exact hnull)]; simp
    · obtain ⟨r, -, b1, -⟩ := (hat id t hi).2 hinc
      exact ⟨r, b1⟩
  have hup : ∀ (c : Nat) u, types[c]? = some u → bo.isInclude c = true →
      firstIncluded bo types = some c ∨ ∃ (p : Nat) (t : RdType), types[p]? = some t ∧ bo.isInclude p = true ∧ c ∈ t.children := by
    intro c u hu hinc
    obtain ⟨C, hC, rfl, -, -, -, -⟩ := node c u hu
    rcases column_parent hC with rfl | ⟨P, hP, hCP⟩
    · left; rw [hs0]; exact hfirst
    · obtain ⟨names, hn⟩ := ht.2 P hP
      exact .inr ⟨P.node.id, _, hn, hpar P hP C hCP hinc, List.mem_map.2 ⟨C, hCP, rfl⟩⟩
  obtain ⟨g1, g2⟩ := tables_give_back h hid tree hup (fun c u hu _ => flat c u hu) hc
  exact ⟨hs, hc, g1, fun x => by rw [g2, opened_exact h hid]⟩

/-- **C110** The columns of every stripe come from its footer, and no stripe is without rows. -/
theorem batchColumns_each {E : Env} {ro : ROpts} {bo : BatchOption} {file : Bytes} {types : List RdType} : ∀ (is : List StripeInfo) (rss : List (List (Option FlatRd))),
    batchColumns E ro bo file types is = .ok rss →
      List.Forall₂ (fun i rs => i.numberOfRows ≠ 0 ∧ ∃ footer, readStripeFooter E ro file i = .ok footer ∧ stripeColumns E ro bo file types i footer = .ok rs) is rss := by
  intro is
  induction is with
  | nil => intro rss h; simp only [batchColumns, Res.ok.injEq] at h; subst h; exact .nil
  | cons i is ih =>
    intro rss h
    simp only [batchColumns] at h
    split at h
    · simp at h
    · rename_i hrows
      simp only [Res.bind_eq_ok, Res.pure_eq, Res.ok.injEq] at h
      obtain ⟨footer, h1, rs, h2, rss', h3, rfl⟩ := h
      exact .cons ⟨hrows, footer, h1, h2⟩ (ih _ h3)

/-- **C110, files of this library.** Of a file that this library has written and can open: if with every column that is read the struct it is in is read, then `Close` of a
batch reader that was created returns, and closes the handles that were opened, each exactly once. -/
theorem written_gives_back (E : Env) (hc : E.c.Lossless) (o : FOpts) (h1 : 1 ≤ o.chunkSize) (h2 : o.chunkSize < 2 ^ 23) (s : Schema) (num : s.Numbered) (named : s.Named)
    (batches : List Vec) (file : Bytes) (h : writeFile E o s batches = .ok file) :
    ∃ parts ft ps, FileLayout E o s.columns file parts ft ps ∧ (E.P.Reads parts ft ps → ∀ r, newReader E file = .ok r →
      ∀ bo : BatchOption, bo.isInclude s.node.id = true → (∀ c ∈ s.columns, ∀ d ∈ c.children, bo.isInclude d.node.id = true → bo.isInclude c.node.id = true) →
      ∀ br, r.createBatchReader E bo = .ok br →
        ∃ rss hss, batchColumns E r.opts bo r.file r.schemas r.stripes = .ok rss ∧ rss.length = br.stripes.length ∧ closeBatch bo r.schemas rss = .ok hss ∧
          List.Forall₂ (fun rs hs => hs.Nodup ∧ ∀ x, WasOpened rs x ↔ x ∈ hs) rss hss) := by
  have hz : o.kind = .zlib := by
    by_cases hz : o.kind = .zlib
    · exact hz
    · exact absurd h (uncompressed_never_closes E o hz s batches file)
  obtain ⟨parts, ft, ps, hl, hcols⟩ := written_columns E o s batches file num h
  refine ⟨parts, ft, ps, hl, fun hreads r hr bo hroot hpar br hbr => ?_⟩
  obtain ⟨rss, hrss, hlen⟩ := created_columns hbr
  obtain ⟨tail, ht1, ht2, ht3⟩ := newReader_layout hc h1 h2 hl hreads
  obtain ⟨heap, types, k1, k2, k3⟩ := types_found num named hl.nulls
  have hps : ps.compression = .zlib := by
    obtain ⟨fb, -, -, e⟩ := ht1
    rw [e]; exact hz
  have : r.file = file ∧ r.opts.kind = o.kind ∧ r.schemas = types ∧ r.stripes = ft.stripes := by
    simp only [newReader, ht3] at hr
    split at hr
    · simp only [Res.ok_bind] at hr
      split at hr
      · simp at hr
      · simp only [hl.types, k1, k2, Res.ok_bind, Res.pure_eq, Res.ok.injEq] at hr
        subst hr
        exact ⟨rfl, by rw [hz, ← hps], rfl, rfl⟩
    · simp at hr
  obtain ⟨q1, q2, q3, q4⟩ := this
  have hlens : ft.stripes.length = parts.length := by
    have := congrArg List.length (stripeTable_rows 3 parts)
    rw [hl.stripes]; simpa using this
  have each := batchColumns_each _ _ hrss
  have closes : ∀ rs ∈ rss, ∃ hs, closeStripe bo r.schemas rs = .ok hs ∧ hs.Nodup ∧ ∀ x, WasOpened rs x ↔ x ∈ hs := by
    intro rs hrs
    obtain ⟨k, hk, rfl⟩ := List.mem_iff_getElem.1 hrs
    rw [List.forall₂_iff_get] at each
    have hk' : k < r.stripes.length := by rw [each.1]; exact hk
    obtain ⟨-, footer, f1, f2⟩ := each.2 k hk' hk
    simp only [List.get_eq_getElem] at f1 f2
    have hkf : k < ft.stripes.length := by rw [← q4]; exact hk'
    have hkp : k < parts.length := by rw [← hlens]; exact hkf
    have e1 : ft.stripes[k]? = some r.stripes[k] := by rw [← q4]; exact List.getElem?_eq_getElem hk'
    have e2 := (footer_found hc hz h1 h2 hl hreads e1 (List.getElem?_eq_getElem hkp) r.opts q2).1
    rw [q1, e2, Res.ok.injEq] at f1
    subst f1
    exact written_stripe_closes num (by rw [q3]; exact k3) (hcols _ (List.getElem_mem hkp)) (hl.sound _ (List.getElem_mem hkp)).encodings hroot hpar f2
  have all : ∀ rss : List (List (Option FlatRd)), (∀ rs ∈ rss, ∃ hs, closeStripe bo r.schemas rs = .ok hs ∧ hs.Nodup ∧ ∀ x, WasOpened rs x ↔ x ∈ hs) →
      ∃ hss, closeBatch bo r.schemas rss = .ok hss ∧ List.Forall₂ (fun rs hs => hs.Nodup ∧ ∀ x, WasOpened rs x ↔ x ∈ hs) rss hss := by
    intro rss
    induction rss with
    | nil => intro _; exact ⟨[], rfl, .nil⟩
    | cons rs rss ih =>
      intro closes
      obtain ⟨hs, a1, a2⟩ := closes rs (by simp)
      obtain ⟨hss, b1, b2⟩ := ih fun rs hrs => closes rs (by simp [hrs])
      exact ⟨hs :: hss, by simp [closeBatch, a1, b1], .cons a2 b2⟩
  obtain ⟨hss, c1, c2⟩ := all rss closes
  exact ⟨rss, hss, hrss, hlen, c1, c2⟩

/-- The file of a table with nulls, integers and strings can be opened, a batch reader created, and all of its handles are given back. -/
example : ∃ file r br rss hss, writeFile exEnv exFOpts exTable [exBatch] = .ok file ∧ newReader exEnv file = .ok r ∧ r.createBatchReader exEnv ⟨[], 2, false⟩ = .ok br ∧
    batchColumns exEnv r.opts ⟨[], 2, false⟩ r.file r.schemas r.stripes = .ok rss ∧ rss.length = 1 ∧ closeBatch ⟨[], 2, false⟩ r.schemas rss = .ok hss ∧
    List.Forall₂ (fun rs hs => hs.Nodup ∧ ∀ x, WasOpened rs x ↔ x ∈ hs) rss hss := by
  obtain ⟨file, part, ft, ps, h1, hlen, h2, h3, h4⟩ := exCopied
  have tail : SmallTail file ft := by simp only [SmallTail]; omega
  obtain ⟨-, -, r, r1, r2, r3⟩ := opened_cut exEnv runCodec_lossless plainProto_lossless exFOpts (by decide) (by decide) exTable exTable_numbered exTable_named exTable_tabular file [part] ft ps h2 (by omega)
    tail [exBatch] (batches_ids exEnv exFOpts exTable [exBatch] (by simpa using ⟨4, exBatch_shape⟩)) h1 h4
  obtain ⟨br, b1, b2⟩ := r3 ⟨[], 2, false⟩ (exAll_selects 2) (by decide)
  obtain ⟨parts', ft', ps', l, g⟩ := written_gives_back exEnv runCodec_lossless exFOpts (by decide) (by decide) exTable exTable_numbered exTable_named [exBatch] file h1
  obtain ⟨rfl, rfl, rfl⟩ := layout_unique runCodec_lossless plainProto_lossless (by decide) (by decide) (by omega) h2 l
  obtain ⟨rss, hss, c1, c2, c3, c4⟩ := g (reads_of_lossless plainProto_lossless (by decide) h2 tail) r r1 ⟨[], 2, false⟩ rfl (fun _ _ _ _ _ => rfl) br b1
  refine ⟨file, r, br, rss, hss, h1, r1, b1, c1, ?_, c3, c4⟩
  rw [c2]
  have := b2.each.length_eq
  rw [h3] at this
  simpa [cutRows] using this

end Goorc
