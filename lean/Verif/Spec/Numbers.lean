import Verif.Spec.TVal

/-!
# The numbers of the types in the protocols

Written from the protocol documents, without reference to the constants of the code.
-/

namespace GoThrift.Spec

/-- The number of the type of a value in the binary protocol. -/
def number : TVal → Nat
  | .bool _ => 2
  | .byte _ => 3
  | .double _ => 4
  | .i16 _ => 6
  | .i32 _ => 8
  | .i64 _ => 10
  | .str _ _ => 11
  | .struct _ _ => 12
  | .map _ _ _ => 13
  | .set _ _ => 14
  | .list _ _ => 15
  | .uuid _ => 16

/-- The number of the type of a value in the header of a field in the compact protocol. -/
def compactNumber : TVal → Nat
  | .bool true => 1
  | .bool false => 2
  | .byte _ => 3
  | .i16 _ => 4
  | .i32 _ => 5
  | .i64 _ => 6
  | .double _ => 7
  | .str _ _ => 8
  | .list _ _ => 9
  | .set _ _ => 10
  | .map _ _ _ => 11
  | .struct _ _ => 12
  | .uuid _ => 13

end GoThrift.Spec
