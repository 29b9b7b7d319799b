import Verif.Model.Parser

/-!
# Counting what the parser does with its scanner
-/

namespace GoThrift.Idl

/-- How much each operation counts. -/
structure Weights where
  tok : Nat
  pos : Nat
  lit : Nat
  next : Nat
  expected : Nat

/-- How much the operation counts. -/
def Weights.of (w : Weights) : POp → Nat
  | .tok => w.tok
  | .pos => w.pos
  | .lit => w.lit
  | .next => w.next
  | .expected _ => w.expected

/-- The same operations, with the sum of what they count. -/
def Source.counted {S : Type} (r : Source S) (w : Weights) : Source (S × Nat) where
  step o s := (r.step o s.1).bind fun a => .done (a.1, (a.2, s.2 + w.of o))

/-- Everything counts. -/
def Weights.each : Weights := ⟨1, 1, 1, 1, 1⟩

/-- Only `next` counts. -/
def Weights.eachNext : Weights := ⟨0, 0, 0, 1, 0⟩

/-- Only the errors count. -/
def Weights.eachError : Weights := ⟨0, 0, 0, 0, 1⟩

end GoThrift.Idl
