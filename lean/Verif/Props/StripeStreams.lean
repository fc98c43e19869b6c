import Verif.Props.FileLayout
import Mathlib.Data.List.Forall2
/-
C55: the reader finds the streams of a stripe.
-/
namespace Goorc

/-- A stream reader over exactly the bytes `body`, which are in the file. -/
def FoundAt (kind : CompKind) (chunkSize : Nat) (file : Bytes) (s : StreamInfo × Bytes) (r : StreamKind × StreamReader) : Prop :=
  r.1 = s.1.kind ∧ ∃ a b, file = a ++ s.2 ++ b ∧ r.2 = newStreamReader kind chunkSize a.length s.2.length file

/-- Reading the list of streams: every column gets its own streams, in order, each at its place. A stream the column reader does
not know is an error. -/
theorem initStreams_spec (E : Env) (ro : ROpts) (indexStart : Nat) (post : Bytes) :
    ∀ (streams : List (StreamInfo × Bytes)) (pre : Bytes) (rs : List (Option FlatRd)),
    (∀ s ∈ streams, s.1.length = s.2.length ∧ s.1.kind ≠ .rowIndex ∧ s.1.column < rs.length) →
    (∀ s ∈ streams, ∀ r, rs[s.1.column]? = some (some r) → r.tag.accepts r.hasNulls s.1.kind = true) →
    ∃ rs', initStreams E ro (pre ++ streams.flatMap (·.2) ++ post) indexStart pre.length (streams.map (·.1)) rs = .ok rs' ∧
      rs'.length = rs.length ∧
      (∀ id : Nat, rs[id]? = some none → rs'[id]? = some none) ∧
      (∀ (id : Nat) (r : FlatRd), rs[id]? = some (some r) → ∃ ss, rs'[id]? = some (some { r with streams := r.streams ++ ss }) ∧
        List.Forall₂ (FoundAt ro.kind ro.chunkSize (pre ++ streams.flatMap (·.2) ++ post)) (streams.filter fun s => s.1.column = id) ss) := by
  intro streams
  induction streams with
  | nil =>
    intro pre rs _ _
    refine ⟨rs, rfl, rfl, fun _ h => h, fun id r h => ⟨[], by simpa using h, .nil⟩⟩
  | cons s ss ih =>
    intro pre rs h1 h2
    obtain ⟨hl, hk, hc⟩ := h1 s (by simp)
    have hfile : pre ++ (s :: ss).flatMap (·.2) ++ post = (pre ++ s.2) ++ ss.flatMap (·.2) ++ post := by simp
    have hlen : pre.length + s.1.length = (pre ++ s.2).length := by simp [hl]
    simp only [List.map_cons, initStreams]
    obtain ⟨x, hx⟩ : ∃ x, rs[s.1.column]? = some x := ⟨_, List.getElem?_eq_getElem hc⟩
    rw [hx]
    cases x with
    | none =>
      simp only [if_neg hk]
      rw [hfile, hlen]
      obtain ⟨rs', g1, g2, g3, g4⟩ := ih (pre ++ s.2) rs (fun t ht => h1 t (by simp [ht])) (fun t ht => h2 t (by simp [ht]))
      refine ⟨rs', g1, g2, g3, fun id r hr => ?_⟩
      obtain ⟨ts, k1, k2⟩ := g4 id r hr
      refine ⟨ts, k1, ?_⟩
      have : ¬ s.1.column = id := by
        rintro rfl
        rw [hx] at hr; simp at hr
      rw [List.filter_cons, if_neg (by simpa using this)]
      exact k2
    | some r =>
      simp only [if_neg hk]
      have hacc := h2 s (by simp) r hx
      simp only [initStream, hacc, if_true, Res.ok_bind]
      rw [hfile, hlen]
      generalize hr2 : ({ r with streams := r.streams ++ [(s.1.kind, newStreamReader ro.kind ro.chunkSize pre.length s.1.length ((pre ++ s.2) ++ ss.flatMap (·.2) ++ post))] } : FlatRd) = r2
      have hget : ∀ id : Nat, (rs.set s.1.column (some r2))[id]? = if id = s.1.column then some (some r2) else rs[id]? := by
        intro id
        rw [List.getElem?_set]
        by_cases he : s.1.column = id
        · subst he; simp [hc]
        · rw [if_neg he, if_neg (fun h => he h.symm)]
      obtain ⟨rs', g1, g2, g3, g4⟩ := ih (pre ++ s.2) (rs.set s.1.column (some r2)) (fun t ht => by
          obtain ⟨a, b, c⟩ := h1 t (by simp [ht]); exact ⟨a, b, by simpa using c⟩)
        (fun t ht q hq => by
          rw [hget] at hq
          split at hq
          · rename_i he
            simp only [Option.some.injEq] at hq
            subst hq
            rw [← hr2]
            exact h2 t (by simp [ht]) r (by rw [he]; exact hx)
          · exact h2 t (by simp [ht]) q hq)
      refine ⟨rs', g1, by rw [g2]; simp, fun id h => g3 id (by
          rw [hget]
          split
          · rename_i he; rw [he, hx] at h; simp at h
          · exact h), fun id q hq => ?_⟩
      by_cases he : id = s.1.column
      · subst he
        rw [hx] at hq
        simp only [Option.some.injEq] at hq
        subst hq
        obtain ⟨ts, k1, k2⟩ := g4 s.1.column r2 (by rw [hget, if_pos rfl])
        refine ⟨(s.1.kind, newStreamReader ro.kind ro.chunkSize pre.length s.1.length ((pre ++ s.2) ++ ss.flatMap (·.2) ++ post)) :: ts,
          by rw [k1, ← hr2]; simp, ?_⟩
        rw [List.filter_cons, if_pos (by simp)]
        refine .cons ⟨rfl, pre, ss.flatMap (·.2) ++ post, by simp, ?_⟩ k2
        rw [hl]
      · obtain ⟨ts, k1, k2⟩ := g4 id q (by rw [hget, if_neg he]; exact hq)
        refine ⟨ts, k1, ?_⟩
        rw [List.filter_cons, if_neg (by simpa using fun h => he h.symm)]
        exact k2

/-- **C55** For every stripe of a file that was closed, opening the streams its footer lists, with readers `rs` for the columns
that accept them: each column gets a reader for each of its streams, in order, and each of these covers exactly the bytes
that were written for that stream. -/
theorem streams_found {E : Env} {o : FOpts} {columns : List Schema} {file : Bytes} {parts : List StripeParts} {ft : FileFooter}
    {ps : PostScript} (hl : FileLayout E o columns file parts ft ps) (k : Nat) (i : StripeInfo) (hk : ft.stripes[k]? = some i)
    (ro : ROpts) (rs : List (Option FlatRd)) (hn : ∀ c ∈ columns, c.node.id < rs.length) (hstart : ∀ (id : Nat) (r : FlatRd), rs[id]? = some (some r) → r.streams = []) :
    ∃ p, parts[k]? = some p ∧
      ((∀ s ∈ p.streams, ∀ r, rs[s.1.column]? = some (some r) → r.tag.accepts r.hasNulls s.1.kind = true) →
      ∃ rs', initStreams E ro file i.offset (i.offset + i.indexLength) p.footer.streams rs = .ok rs' ∧
        rs'.length = rs.length ∧ (∀ id : Nat, rs[id]? = some none → rs'[id]? = some none) ∧
        ∀ (id : Nat) (r : FlatRd), rs[id]? = some (some r) → ∃ ss, rs'[id]? = some (some { r with streams := ss }) ∧
          List.Forall₂ (FoundAt ro.kind ro.chunkSize file) (p.streams.filter fun s => s.1.column = id) ss) := by
  obtain ⟨tail, hb, -⟩ := hl.bytes
  rw [hl.stripes] at hk
  obtain ⟨p, h1, h2, h3, h4, h5, -, h7, post', h8⟩ := stripeTable_get [0x4f#8, 0x52#8, 0x43#8] parts tail k i hk
  refine ⟨p, h1, fun hacc => ?_⟩
  have hs := hl.sound p (List.mem_of_getElem? h1)
  rw [← hb] at h8
  have hoff : i.offset ≤ file.length := by
    by_cases h : i.offset ≤ file.length
    · exact h
    · -- otherwise the stripe has no bytes, and then nor do its parts
      have : file.drop i.offset = [] := List.drop_of_length_le (by omega)
      exfalso
      have hoff := (stripeTable_offset 3 parts k i hk)
      have hlen : file.length = 3 + (parts.flatMap (·.bytes)).length + tail.length := by rw [hb]; simp; omega
      omega
  have hfile : file = (file.take i.offset ++ p.indexes) ++ p.streams.flatMap (·.2) ++ (p.footerBytes ++ post') := by
    conv_lhs => rw [← List.take_append_drop i.offset file, h8]
    simp [StripeParts.bytes, StripeParts.data]
  have hpre : (file.take i.offset ++ p.indexes).length = i.offset + i.indexLength := by
    simp [h3]; omega
  obtain ⟨rs', g1, g2, g3, g4⟩ := initStreams_spec E ro i.offset (p.footerBytes ++ post') p.streams (file.take i.offset ++ p.indexes) rs
    (fun s hs' => by
      obtain ⟨n, e1, e2⟩ := hs.existing s hs'
      obtain ⟨c, e3, rfl⟩ := List.mem_map.1 e1
      exact ⟨hs.lengths s hs', hs.noIndex s hs', by rw [e2]; exact hn c e3⟩) hacc
  rw [← hfile, hpre, ← hs.listed] at g1
  rw [← hfile] at g4
  refine ⟨rs', g1, g2, g3, fun id r hr => ?_⟩
  obtain ⟨ss, e1, e2⟩ := g4 id r hr
  rw [hstart id r hr, List.nil_append] at e1
  exact ⟨ss, e1, e2⟩

end Goorc
