import Verif.Model.Wire

/-! # Balanced sequences of calls -/

namespace GoThrift.Spec

/-- The StructBegin and StructEnd calls in a sequence match, given the number of structs open before it; all are closed at the
end. -/
def balancedR : Nat → List ROp → Bool
  | d, [] => d == 0
  | d, .structBegin :: os => balancedR (d + 1) os
  | 0, .structEnd :: _ => false
  | d + 1, .structEnd :: os => balancedR d os
  | d, _ :: os => balancedR d os

/-- The same for Writer calls. -/
def balancedW : Nat → List WOp → Bool
  | d, [] => d == 0
  | d, .structBegin _ :: os => balancedW (d + 1) os
  | 0, .structEnd :: _ => false
  | d + 1, .structEnd :: os => balancedW d os
  | d, _ :: os => balancedW d os

/-- Make Reader calls one after the other, whatever they return. -/
def readAll {S : Type} (r : Rdr S) : List ROp → S → Out S
  | [], s => .done s
  | o :: os, s => (r.step o s).bind fun x => readAll r os x.2

/-- Make Writer calls one after the other, whatever they return. -/
def writeAll {S : Type} (w : Wtr S) : List WOp → S → Out S
  | [], s => .done s
  | o :: os, s => (w.step o s).bind fun x => writeAll w os x.2

/-- What the caller of a Reader method sees: the answer and the position in the stream, not the reader's private fields. -/
def seen {α C : Type} (x : Out (α × (C × Flat))) : Out (α × Flat) := x.bind fun r => .done (r.1, r.2.2)

end GoThrift.Spec
