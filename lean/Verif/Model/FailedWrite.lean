import Verif.Model.StripeWriter
/-
Model of a `Write` that reports an error because of a value of the wrong type: what it leaves in the writer. The functions below follow
orc/stripe.go and orc/column as Verif/Model/StripeWriter.lean does, but return the state together with a flag that is false when an error
was reported. Other errors (a compressor that fails, numbers that cannot be encoded, decimals that cannot be parsed) are not followed: they
are errors here as well, and what they leave behind is not said.
-/
namespace Goorc

/-- The columns that check the type of a value and report an error: orc/encoding/float.go:22-25 and 72-75, orc/column/string.go:55-58,
orc/encoding/string.go:18-21 (for binary.go:50). The others assert it, and panic. -/
def LeafTag.reports : LeafTag → GoVal → Bool
  | .float false, .f32 _ => false
  | .float true, .f64 _ => false
  | .string, .str _ => false
  | .binary, .bytes _ => false
  | .float _, _ => true
  | .string, _ => true
  | .binary, _ => true
  | _, _ => false

namespace AnyWriter

/-- `Write` of this value reports an error for its type; orc/column/string.go:585-588 for dictionaries. -/
def refuses : AnyWriter → Value → Bool
  | .leaf t _, v => !v.null && t.reports v.v
  | .dict _, v => !v.null && (match v.v with | .str _ => false | _ => true)
  | .struct _, _ => false

/-- What such a `Write` has done before it returns: `if w.schema.HasNulls { w.present.Write(!value.Null) }`, orc/column/float.go:191-195,
string.go:47-51 and 577-581, binary.go:43-47. -/
def flagged (c : Codec) (o : COpts) : AnyWriter → Value → Res AnyWriter
  | .leaf t w, v => do let w ← LeafKind.writePresent c o w v; pure (.leaf t w)
  | .dict w, v => do let p ← writeFlag c o w.hasNulls w.present v; pure (.dict { w with present := p })
  | .struct w, _ => .ok (.struct w)

/-- `Write` of a column: the writer it leaves, and whether it went well. orc/column/package.go:41-67. -/
def tryWrite (A : Arith) (c : Codec) (o : COpts) (w : AnyWriter) (v : Value) : Res (AnyWriter × Bool) :=
  if w.refuses v then do
    let w ← w.flagged c o v
    pure (w, false)
  else do
    let w ← w.write A c o v
    pure (w, true)

end AnyWriter

/-- orc/stripe.go:62-66, see `writeRow`. -/
def tryRow (A : Arith) (c : Codec) (o : COpts) (i id : Nat) (s : Option Slice) (ws : List AnyWriter) : Res (List AnyWriter × Bool) :=
  match s with
  | none => .ok (ws, true)
  | some s =>
    match ws[id]?, s.visible[i]? with
    | some w, some v => do
      let (w, fine) ← w.tryWrite A c o v
      pure (ws.set id w, fine)
    | _, _ => .panic

mutual
/-- orc/stripe.go:61-74 `writeValue`: after an error the children are not written. -/
def tryValue (A : Arith) (c : Codec) (o : COpts) (i : Nat) : List AnyWriter → Vec → Res (List AnyWriter × Bool)
  | _, .nil => .panic
  | ws, .mk id _ s cs => do
    let (ws, fine) ← tryRow A c o i id s ws
    if fine then tryValues A c o i ws cs else pure (ws, false)

/-- orc/stripe.go:68-72: after an error the other children are not written. -/
def tryValues (A : Arith) (c : Codec) (o : COpts) (i : Nat) : List AnyWriter → List Vec → Res (List AnyWriter × Bool)
  | ws, [] => .ok (ws, true)
  | ws, v :: vs => do
    let (ws, fine) ← tryValue A c o i ws v
    if fine then tryValues A c o i ws vs else pure (ws, false)
end

/-- orc/stripe.go:39-57, see `StripeWriter.writeLoop`. After an error the rows written since `count` was last zero are not added to the number of rows. -/
def StripeWriter.tryLoop (E : Env) (o : FOpts) (vec : Vec) : Nat → Nat → Nat → StripeWriter → Res (StripeWriter × Bool)
  | 0, _, count, s => .ok (s.addRows count, true)
  | n + 1, i, count, s => do
    let (ws, fine) ← tryValue E.A E.c o.toCOpts i s.writers vec
    let s := { s with writers := ws }
    if fine then
      if s.size E.A o ≥ o.stripeSize then do
        let s ← (s.addRows (count + 1)).flushOut E o
        let s ← s.forward E.A o
        tryLoop E o vec n (i + 1) 0 s
      else tryLoop E o vec n (i + 1) (count + 1) s
    else pure (s, false)

namespace FileWriter

/-- orc/writer.go:85-94 `Write`, orc/stripe.go:37-59 `write`: the writer it leaves, and whether it went well. -/
def tryWrite (E : Env) (o : FOpts) (w : FileWriter) (vec : Vec) : Res (FileWriter × Bool) := do
  let (s, fine) ← (if vec.lenPanics then .panic else StripeWriter.tryLoop E o vec vec.len 0 0 w.stripe : Res (StripeWriter × Bool))
  pure ({ w with stripe := s }, fine)

/-- A client that goes on after an error: several calls of `Write`, and which of them went well. The calls are
orc/writer.go:85-94. -/
def calls (E : Env) (o : FOpts) : FileWriter → List Vec → Res (FileWriter × List Bool)
  | w, [] => .ok (w, [])
  | w, v :: vs => do
    let (w, fine) ← w.tryWrite E o v
    let (w, rest) ← calls E o w vs
    pure (w, fine :: rest)

end FileWriter

end Goorc
