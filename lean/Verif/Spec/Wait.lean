import Verif.Spec.TVal

/-!
# Values that the compact reader reads without waiting
-/

namespace GoThrift.Spec.TVal

mutual
/-- `n` bytes have arrived behind the value, in the compact protocol. From the beginning of the length of each string in it (at any depth), at least ten bytes have arrived. -/
def TenFromEachString (n : Nat) : TVal → Prop
  | bool _ | byte _ | double _ | i16 _ | i32 _ | i64 _ | uuid _ => True
  | str b v => 10 ≤ (encCompact (str b v)).length + n
  | struct _ fs => TenFields n fs
  | map _ _ es => TenEntries n es
  | set _ es => TenElems n es
  | list _ es => TenElems n es
/-- Behind the value of a field are the other fields. -/
def TenFields (n : Nat) : List (Bytes × BitVec 16 × TVal) → Prop
  | [] => True
  | (_, id, v) :: fs => TenFromEachString ((encCompactFields id fs).length + n) v ∧ TenFields n fs
/-- Behind a key are its value and the other entries. -/
def TenEntries (n : Nat) : List (TVal × TVal) → Prop
  | [] => True
  | (k, v) :: es => TenFromEachString ((encCompact v).length + (encCompactEntries es).length + n) k ∧ TenFromEachString ((encCompactEntries es).length + n) v ∧ TenEntries n es
/-- Behind an element are the other elements. -/
def TenElems (n : Nat) : List TVal → Prop
  | [] => True
  | v :: es => TenFromEachString ((encCompactElems es).length + n) v ∧ TenElems n es
end

end GoThrift.Spec.TVal
