import Verif.Proofs.StructNulls
import Verif.Props.Column
import Verif.Model.Schema
/-
C63: null structs null their children.
-/
namespace Goorc

/-- **C63** Handing the null flags of a struct down succeeds exactly if no vector below has fewer rows than the one above
it; otherwise it panics. -/
theorem fill_nulls_iff (v : Vec) : ((∃ v', fillNulls v = .ok v') ↔ v ≠ .nil ∧ FillsDown v) ∧ ((∃ v', fillNulls v = .ok v') ∨ fillNulls v = .panic) := by
  refine ⟨?_, ?_⟩
  · rw [fillNulls_eq, fillDown_iff]
    simp [Vec.nulls]
  · have key : ∀ (w : Vec) flags, (∃ v', fillDown flags w = .ok v') ∨ fillDown flags w = .panic := by
      intro w
      induction w using Vec.ind with
      | hn => intro flags; exact .inr rfl
      | h id k s cs ih =>
        intro flags
        have hall : ∀ fl, (∃ cs', fillDownAll fl cs = .ok cs') ∨ fillDownAll fl cs = .panic := by
          intro fl
          clear flags
          induction cs with
          | nil => exact .inl ⟨[], rfl⟩
          | cons c cs ih2 =>
            rcases ih c (by simp) fl with ⟨c', h⟩ | h
            · rcases ih2 (fun d hd => ih d (by simp [hd])) with ⟨cs', h'⟩ | h'
              · exact .inl ⟨c' :: cs', by simp [fillDownAll, h, h']⟩
              · exact .inr (by simp [fillDownAll, h, h'])
            · exact .inr (by simp [fillDownAll, h])
        simp only [fillDown]
        by_cases hl : flags.length ≤ (visibleRows s).length
        · obtain ⟨s', hs⟩ := (setNulls_iff flags s).mpr hl
          rcases hall ((visibleRows s').map (·.null)) with ⟨cs', h'⟩ | h'
          · exact .inl ⟨.mk id k s' cs', by simp [hs, h']⟩
          · exact .inr (by simp [hs, h'])
        · exact .inr (by simp [setNulls, hl])
    rw [fillNulls_eq]
    exact key v _

/-- **C63** (partial) A batch of a nullable struct whose columns below are structs and leaves without a present stream of
their own: the struct's rows get the flags of its present stream, and at every depth below a row is null exactly if the row
of the struct is. Missing: columns below with a present stream of their own (`struct_nulls_false`), and vectors with fewer
rows than the struct's, among them those of a struct that is not nullable (`struct_nulls_panic`). -/
theorem struct_nulls_partial (c : Codec) (fuel n : Nat) (kind : CompKind) (p : BoolReader) (i : Option (List (List Nat))) (cs : List (Rd n))
    (hcs : ∀ x ∈ cs, PlainTree n x) (v v' : Vec) (x' : Rd (n + 1))
    (h : (rdOps c fuel (n + 1)).nextBatch (RdNode.struct kind (some p) i cs : RdNode (Rd n)) v = .ok (v', x')) :
    ∃ flags p', Yields (BoolReader.next c) p flags p' ∧ flags.length = v.rows.length ∧ v'.nulls = flags.map (!·) ∧
      ∀ path d', v'.at path = some d' → d'.nulls.take flags.length = flags.map (!·) := by
  change RdNode (Rd n) at x'
  change RdNode.nextBatch (rdOps c fuel n) c fuel (RdNode.struct kind (some p) i cs) v = .ok (v', x') at h
  simp only [RdNode.nextBatch] at h
  obtain ⟨⟨v1, p1, cs1⟩, h1, h2⟩ := Res.bind_ok_inv h
  simp only [Res.pure_eq, Res.ok.injEq, Prod.mk.injEq] at h2
  obtain ⟨rfl, rfl⟩ := h2
  cases v with
  | nil => simp [structBatch] at h1
  | mk id k s vs =>
    simp only [structBatch, Res.pure_eq] at h1
    obtain ⟨⟨w, q⟩, g1, g2⟩ := Res.bind_ok_inv h1
    obtain ⟨⟨rows, p2⟩, g3, g4⟩ := Res.bind_ok_inv g1
    obtain ⟨w', g5, g6⟩ := Res.bind_ok_inv g4
    simp only [Res.ok.injEq, Prod.mk.injEq] at g6
    obtain ⟨rfl, rfl⟩ := g6
    obtain ⟨flags, f1, f2, f3⟩ := readFlags_spec c p p2 _ _ g3
    have hrl : rows.length = (visibleRows s).length := by rw [f2, List.length_zipWith, f3, Nat.min_self]
    have hrn : rows.map (·.null) = flags.map (!·) := by
      rw [f2]
      clear f2 hrl g3 g4 f1 h1 g1 g2 h g5
      have : ∀ (vs : List Value) (fl : List Bool), fl.length = vs.length →
          (List.zipWith (fun v b => ({ v with null := !b } : Value)) vs fl).map (·.null) = fl.map (!·) := by
        intro vs
        induction vs with
        | nil => intro fl hfl; rw [List.eq_nil_of_length_eq_zero hfl]; rfl
        | cons v vs ih =>
          intro fl hfl
          cases fl with
          | nil => simp at hfl
          | cons b fl => simp [ih fl (by simpa using hfl)]
      exact this _ _ f3
    obtain ⟨cs', e1, rfl⟩ := (fillNulls_mk ..).mp g5
    obtain ⟨⟨vs1, cs2⟩, j1, j2⟩ := Res.bind_ok_inv g2
    simp only [Res.ok.injEq, Prod.mk.injEq] at j2
    obtain ⟨rfl, rfl, rfl⟩ := j2
    obtain ⟨m1, m2, -⟩ := childBatches_nulls (rdOps c fuel n) (PlainTree n) (fun x v v' x' => plainTree_nulls c fuel n x x' v v') cs cs2 cs' vs1 hcs j1
    have hsame : SameNulls (.mk id k (updateRows s rows) cs') (.mk id k (updateRows s rows) vs1) := SameNulls.of_rows rfl m1 m2
    have hroot : (Vec.mk id k (updateRows s rows) vs1).nulls = flags.map (!·) := by
      simp only [Vec.nulls, Vec.rows, visibleRows_update s rows hrl, hrn]
    refine ⟨flags, p2, f1, f3, hroot, fun path d' hd => ?_⟩
    have hs := hsame path
    rw [hd, Option.map_some] at hs
    cases hd1 : (Vec.mk id k (updateRows s rows) cs').at path with
    | none => rw [hd1] at hs; simp at hs
    | some d1 =>
      rw [hd1, Option.map_some, Option.some.injEq] at hs
      rw [hs]
      have hfn := g5
      rw [fillNulls_eq] at hfn
      obtain ⟨d, -, -, t2, -⟩ := fillDown_spec _ _ _ hfn path d1 hd1
      have hroot' : (Vec.mk id k (updateRows s rows) vs).nulls = flags.map (!·) := hroot
      rw [hroot', List.length_map] at t2
      exact t2

/-! ### Examples -/

/-- A file with the flags 1, 0, 1 (one literal byte), the flags 1, 1, 0, and the bytes 7 and 8. -/
def structFile : Bytes := [0xff, 0xa0, 0xff, 0xc0, 0xfe, 7, 8]

def structFlags : BoolReader := newBoolReader (newStreamReader .none 100 0 2 structFile)
def childFlags : BoolReader := newBoolReader (newStreamReader .none 100 2 2 structFile)

/-- The byte column, with or without a present stream of its own. -/
def structChild (p : Option BoolReader) : RdNode Empty := .leaf .byte ⟨p.isSome, .none, p, ⟨newStreamReader .none 100 4 3 structFile, []⟩, none⟩

def rowsBelow : Vec → List (List Value)
  | .nil => []
  | .mk _ _ s cs => visibleRows s :: cs.map Vec.rows

/-- A struct of three rows, the second null. -/
example : ((rdOps growCodec 0 2).nextBatch (RdNode.struct .none (some structFlags) none [structChild none] : RdNode (Rd 1))
      (.mk 0 .struct (some ⟨List.replicate 3 ⟨false, .nil⟩, 3⟩) [.mk 1 .byte (some ⟨List.replicate 3 ⟨false, .nil⟩, 3⟩) []]) >>= fun y => .ok (rowsBelow y.1)) =
    .ok [[⟨false, .nil⟩, ⟨true, .nil⟩, ⟨false, .nil⟩], [⟨false, .u8 7⟩, ⟨true, .nil⟩, ⟨false, .u8 8⟩]] := by decide +kernel

example : PlainTree 1 (structChild none) := rfl

/-- **C63** is false for a child with a present stream of its own: the second row of the struct is null, but that of its
child is not. -/
theorem struct_nulls_false : ((rdOps growCodec 0 2).nextBatch (RdNode.struct .none (some structFlags) none [structChild (some childFlags)] : RdNode (Rd 1))
      (.mk 0 .struct (some ⟨List.replicate 3 ⟨false, .nil⟩, 3⟩) [.mk 1 .byte (some ⟨List.replicate 3 ⟨false, .nil⟩, 3⟩) []]) >>= fun y => .ok (rowsBelow y.1)) =
    .ok [[⟨false, .nil⟩, ⟨true, .nil⟩, ⟨false, .nil⟩], [⟨false, .u8 7⟩, ⟨false, .u8 8⟩, ⟨true, .nil⟩]] := by decide +kernel

/-- A nullable struct with a struct in it that is not nullable. -/
def nestedStruct : Schema := .mk ⟨0, .struct, .direct, true, ["a"]⟩ [.mk ⟨1, .struct, .direct, false, ["b"]⟩ [.mk ⟨2, .byte, .direct, false, []⟩ []]]

/-- **C63** is false for a struct in a struct: `CreateVector` makes a vector for which reading the outer struct panics, at
every number of rows, since the vector of the inner struct has no rows. -/
theorem struct_nulls_panic (rows : Nat) (h : 0 < rows) : (createVector nestedStruct ⟨[], rows, false⟩ >>= fillNulls) = .panic := by
  have hr : createVector nestedStruct ⟨[], rows, false⟩ =
      .ok (.mk 0 .struct (some ⟨List.replicate rows ⟨false, .nil⟩, rows⟩)
        [.mk 1 .struct none [.mk 2 .byte (some ⟨List.replicate rows ⟨false, .nil⟩, rows⟩) []]]) := by
    have : rows ≠ 0 := by omega
    simp only [createVector, this, if_false]
    rfl
  rw [hr, Res.ok_bind]
  simp only [fillNulls, fillDownAll, fillDown, setNulls, visibleRows, Slice.visible, List.take_replicate, Nat.min_self, List.length_map, List.length_replicate,
    List.length_nil]
  rw [if_neg (by omega)]
  rfl

end Goorc
