import Verif.Model.Basic

/-!
# UTF-8
-/

namespace GoThrift.Spec

/-- The numbers that are characters: up to 10FFFF, without the surrogates. -/
def Scalar (r : Nat) : Prop := r < 0xd800 ∨ (0xe000 ≤ r ∧ r < 0x110000)

/-- The encoding of a character: one byte up to 7F, two up to 7FF, three up to FFFF, else four; six bits in each byte but the first. -/
def utf8 (r : Nat) : Bytes :=
  if r < 0x80 then [BitVec.ofNat 8 r]
  else if r < 0x800 then [BitVec.ofNat 8 (0xc0 + r / 64), BitVec.ofNat 8 (0x80 + r % 64)]
  else if r < 0x10000 then [BitVec.ofNat 8 (0xe0 + r / 4096), BitVec.ofNat 8 (0x80 + r / 64 % 64), BitVec.ofNat 8 (0x80 + r % 64)]
  else [BitVec.ofNat 8 (0xf0 + r / 262144), BitVec.ofNat 8 (0x80 + r / 4096 % 64), BitVec.ofNat 8 (0x80 + r / 64 % 64), BitVec.ofNat 8 (0x80 + r % 64)]

end GoThrift.Spec
