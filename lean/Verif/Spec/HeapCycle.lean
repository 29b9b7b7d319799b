import Verif.Spec.Heap
import Verif.Spec.GoValue

/-!
# The parts of a value in memory

Marshal has to write the parts of a value before it is done with the value. They may lead back to it.
-/

namespace GoThrift.Spec

/-- Field `f` with value `x` is to be written: it takes part, and is required or not reported zero. -/
def HWritten (env : Env) (hz : HMethods) (h : Heap) (f : FieldDecl) (x : HVal) : Prop :=
  ∃ id required, Declares env f id required ∧ (required = true ∨ hreportsZero env hz f.typ h x = false)

/-- `y`, of type `e`, has to be written for `x`, of type `t`: `HPart env hz h (e, y) (t, x)`. -/
inductive HPart (env : Env) (hz : HMethods) (h : Heap) : TypeId × HVal → TypeId × HVal → Prop where
  /-- What a pointer points to. -/
  | ptr {t e : TypeId} {l : Loc} {y : HVal} : (env.type t).kind = .ptr e → h.mem l = .cell y → HPart env hz h (e, y) (t, .ptr (some l))
  /-- The zero value, for a nil pointer. -/
  | ptrNil {t e : TypeId} : (env.type t).kind = .ptr e → HPart env hz h (e, env.hzero e) (t, .ptr none)
  /-- An element of a slice that is a list or a set. -/
  | elem {t e : TypeId} {r : SliceRef} {i : Nat} {y : HVal} : (env.type t).kind = .slice e → (env.type t).asBytes = false → i < r.len → h.mem (r.base + i) = .cell y →
      HPart env hz h (e, y) (t, .slice (some r))
  /-- A key of a map. -/
  | key {t k e : TypeId} {l : Loc} {es : List (HVal × HVal)} {y z : HVal} : (env.type t).kind = .map k e → h.mem l = .table es → (y, z) ∈ es → HPart env hz h (k, y) (t, .map (some l))
  /-- A value of a map. -/
  | value {t k e : TypeId} {l : Loc} {es : List (HVal × HVal)} {y z : HVal} : (env.type t).kind = .map k e → h.mem l = .table es → (y, z) ∈ es → HPart env hz h (e, z) (t, .map (some l))
  /-- A field of a struct, if it is to be written. -/
  | field {t : TypeId} {fs : List FieldDecl} {i : Nat} {f : FieldDecl} {xs : List HVal} {y : HVal} : (env.type t).kind = .struct fs → fs[i]? = some f → xs[i]? = some y → HWritten env hz h f y →
      HPart env hz h (f.typ, y) (t, .struct xs)

/-- What Marshal has to write for its argument: what a pointer points to, or the argument itself. -/
inductive HArgument (env : Env) (h : Heap) : TypeId → HVal → TypeId × HVal → Prop where
  | value {t : TypeId} {x : HVal} : (∀ e, (env.type t).kind ≠ .ptr e) → HArgument env h t x (t, x)
  | pointer {t e : TypeId} {l : Loc} {y : HVal} : (env.type t).kind = .ptr e → h.mem l = .cell y → HArgument env h t (.ptr (some l)) (e, y)

/-- Part of a part, and so on, in one or more steps. -/
inductive HDeep (env : Env) (hz : HMethods) (h : Heap) : TypeId × HVal → TypeId × HVal → Prop where
  | part {p q : TypeId × HVal} : HPart env hz h p q → HDeep env hz h p q
  | step {p q r : TypeId × HVal} : HPart env hz h p q → HDeep env hz h q r → HDeep env hz h p r

end GoThrift.Spec
