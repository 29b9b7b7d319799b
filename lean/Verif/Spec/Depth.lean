import Verif.Spec.TVal

/-!
# How deep a value is nested
-/

namespace GoThrift.Spec

mutual
/-- The number of values that contain each other, from the outermost to the innermost. -/
def depth : TVal → Nat
  | .struct _ fs => depthFields fs + 1
  | .map _ _ es => depthEntries es + 1
  | .set _ es => depthElems es + 1
  | .list _ es => depthElems es + 1
  | _ => 1
def depthFields : List (Bytes × BitVec 16 × TVal) → Nat
  | [] => 0
  | (_, _, v) :: fs => max (depth v) (depthFields fs)
def depthEntries : List (TVal × TVal) → Nat
  | [] => 0
  | (k, v) :: es => max (depth k) (max (depth v) (depthEntries es))
def depthElems : List TVal → Nat
  | [] => 0
  | v :: es => max (depth v) (depthElems es)
end

/-- Lists in a list in a list, `n` of them around an empty one. -/
def nest : Nat → TVal
  | 0 => .list Ty.list []
  | n + 1 => .list Ty.list [nest n]

end GoThrift.Spec
