import Verif.Model.Syntax

/-!
# How deep types and values are nested in a .thrift file
-/

namespace GoThrift.Spec

open Idl

/-- Types in types, from the outermost to the innermost. -/
def typeDepth : TypeNode → Nat
  | .map k v _ => max (typeDepth k) (typeDepth v) + 1
  | .set e _ => typeDepth e + 1
  | .list e _ => typeDepth e + 1
  | .ref _ _ => 1

mutual
/-- Values in values. -/
def valueDepth : Value → Nat
  | .list l => valuesDepth l + 1
  | .pairs l => pairsDepth l + 1
  | _ => 1
def valuesDepth : List Value → Nat
  | [] => 0
  | v :: l => max (valueDepth v) (valuesDepth l)
def pairsDepth : List (Value × Value) → Nat
  | [] => 0
  | (k, v) :: l => max (max (valueDepth k) (valueDepth v)) (pairsDepth l)
end

/-- The greatest of some numbers. -/
def greatest {α : Type} (f : α → Nat) : List α → Nat
  | [] => 0
  | x :: l => max (f x) (greatest f l)

/-- The deepest type or default value of a field. -/
def fieldDepth (f : Field) : Nat := max (typeDepth f.type) (f.default.elim 0 valueDepth)

/-- The deepest type or value of a method. -/
def methodDepth (m : Method) : Nat := max (m.ret.elim 0 typeDepth) (max (greatest fieldDepth m.arguments) (m.throws.elim 0 (greatest fieldDepth)))

/-- The deepest type or value of a definition. -/
def defDepth : Def → Nat
  | .const t _ v => max (typeDepth t) (valueDepth v)
  | .typedef t _ _ => typeDepth t
  | .struct _ _ _ fs _ => greatest fieldDepth fs
  | .service _ _ ms _ => greatest methodDepth ms
  | .enum _ _ _ | .bad _ _ => 0

/-- The deepest type or value of a file. -/
def fileDepth (f : File) : Nat := greatest defDepth f.defs

/-- The parser made sense of this definition. -/
def Sensible : Def → Prop
  | .bad _ _ => False
  | _ => True

end GoThrift.Spec
