import Verif.Model.Basic

/-!
# Numbers as text
-/

namespace GoThrift.Spec

/-- The number that these digits are: each digit is worth ten times the next. -/
def digitsValue : List Byte → Nat
  | [] => 0
  | d :: ds => (d.toNat - 48) * 10 ^ ds.length + digitsValue ds

/-- `s` is the number `n` in decimal, as people write it: digits only, and no 0 in front of others. -/
def Decimal (n : Nat) (s : List Byte) : Prop :=
  s ≠ [] ∧ (∀ d ∈ s, 48 ≤ d.toNat ∧ d.toNat ≤ 57) ∧ digitsValue s = n ∧ (1 < s.length → s.head? ≠ some 48)

end GoThrift.Spec
