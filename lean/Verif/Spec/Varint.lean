import Verif.Model.Basic

/-!
# Independent statement of base-128 varints (ULEB128) and zigzag

Written from the description in the Thrift compact protocol document: seven bits per byte, least significant group first,
the high bit set on every byte but the last; zigzag maps 0, -1, 1, -2, 2 ... to 0, 1, 2, 3, 4 ...
-/

namespace GoThrift.Spec

/-- The ULEB128 encoding of a number. -/
def leb (v : Nat) : Bytes :=
  if v < 128 then [BitVec.ofNat 8 v]
  else BitVec.ofNat 8 (v % 128 + 128) :: leb (v / 128)
termination_by v
decreasing_by omega

/-- A byte string of the form: continuation bytes (high bit set), then one final byte (high bit clear). -/
def IsLeb : Bytes → Prop
  | [] => False
  | b :: bs => (b.toNat < 128 ∧ bs = []) ∨ (128 ≤ b.toNat ∧ IsLeb bs)

/-- The number such a byte string denotes. -/
def lebValue : Bytes → Nat
  | [] => 0
  | b :: bs => b.toNat % 128 + 128 * lebValue bs

/-- Zigzag on mathematical integers. -/
def zigzag (i : Int) : Nat := if 0 ≤ i then (2 * i).toNat else (-2 * i - 1).toNat

end GoThrift.Spec
