import Verif.Model.GoType

/-!
# When two keys of a map are equal
-/

namespace GoThrift.Spec

/-- The bits of a float32 that is a number or an infinity: not all of the exponent is set, or none of the fraction. -/
def Number32 (x : BitVec 32) : Prop := x.toNat / 2 ^ 23 % 2 ^ 8 ≠ 2 ^ 8 - 1 ∨ x.toNat % 2 ^ 23 = 0

/-- The bits of a float64 that is a number or an infinity. -/
def Number64 (x : BitVec 64) : Prop := x.toNat / 2 ^ 52 % 2 ^ 11 ≠ 2 ^ 11 - 1 ∨ x.toNat % 2 ^ 52 = 0

/-- `==` of the Go language on two keys that were decoded: NaN is equal to nothing, the two zeros are equal, and two pointers are equal if both are nil (there is no pointer in a decoded key that was there before). -/
inductive SameKey : GoVal → GoVal → Prop
  | bool (x : Bool) : SameKey (.bool x) (.bool x)
  | f32 {x y : BitVec 32} : Number32 x → Number32 y → x = y ∨ (x = 0 ∨ x = 0x80000000) ∧ (y = 0 ∨ y = 0x80000000) → SameKey (.f32 x) (.f32 y)
  | f64 {x y : BitVec 64} : Number64 x → Number64 y → x = y ∨ (x = 0 ∨ x = 0x8000000000000000) ∧ (y = 0 ∨ y = 0x8000000000000000) → SameKey (.f64 x) (.f64 y)
  | i8 (x : BitVec 8) : SameKey (.i8 x) (.i8 x)
  | i16 (x : BitVec 16) : SameKey (.i16 x) (.i16 x)
  | i32 (x : BitVec 32) : SameKey (.i32 x) (.i32 x)
  | i64 (x : BitVec 64) : SameKey (.i64 x) (.i64 x)
  | str (x : Bytes) : SameKey (.str x) (.str x)
  | uuid (x : Bytes) : SameKey (.uuid x) (.uuid x)
  | ptrNil : SameKey .ptrNil .ptrNil
  | other (n : Nat) : SameKey (.other n) (.other n)
  | struct {xs ys : List GoVal} : ys.length = xs.length → (∀ (i : Nat) x y, xs[i]? = some x → ys[i]? = some y → SameKey x y) → SameKey (.struct xs) (.struct ys)

end GoThrift.Spec
