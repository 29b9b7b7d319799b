import Verif.Model.Arshal

/-!
# How much a Go value holds
-/

namespace GoThrift.Spec

mutual
/-- The number of bytes in strings, of elements in slices and of entries in maps, everywhere inside a value. The spare capacity of slices is not counted. -/
def load : GoVal → Nat
  | .str b => b.length
  | .bytes b => (b.getD []).length
  | .struct vs => loads vs
  | .map es => es.length + loadEntries es
  | .slice es _ => es.length + loads es
  | .ptr v => load v
  | _ => 0
def loads : List GoVal → Nat
  | [] => 0
  | v :: vs => load v + loads vs
def loadEntries : List (GoVal × GoVal) → Nat
  | [] => 0
  | (k, v) :: es => load k + load v + loadEntries es
end

end GoThrift.Spec
