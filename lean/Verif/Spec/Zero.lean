import Verif.Model.GoType

/-!
# Values with positive zeros
-/

namespace GoThrift.Spec

mutual
/-- The value with zeros for its negative zeros, also in the fields of a struct. -/
def plus : GoVal → GoVal
  | .f32 x => .f32 (if x = 0x80000000 then 0 else x)
  | .f64 x => .f64 (if x = 0x8000000000000000 then 0 else x)
  | .struct vs => .struct (plusAll vs)
  | v => v
/-- The same for a list. -/
def plusAll : List GoVal → List GoVal
  | [] => []
  | v :: vs => plus v :: plusAll vs
end

end GoThrift.Spec
