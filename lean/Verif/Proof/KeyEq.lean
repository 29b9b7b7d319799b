import Verif.Proof.Canon
import Verif.Spec.KeyEq

/-!
# The comparison of keys
-/

namespace GoThrift

open Spec

theorem or_mask_zero {n k : Nat} (a b : BitVec n) (hk : k ≤ n) : ((a ||| b) &&& BitVec.ofNat n (2 ^ k - 1) = 0) ↔ a.toNat % 2 ^ k = 0 ∧ b.toNat % 2 ^ k = 0 := by
  have hm : 2 ^ k - 1 < 2 ^ n := by
    have := Nat.pow_le_pow_right (show 0 < 2 by decide) hk
    have := Nat.two_pow_pos k
    omega
  rw [← BitVec.toNat_inj, BitVec.toNat_and, BitVec.toNat_or, BitVec.toNat_ofNat, Nat.mod_eq_of_lt hm, Nat.and_two_pow_sub_one_eq_mod, Nat.or_mod_two_pow]
  show _ ||| _ = 0 % 2 ^ n ↔ _
  rw [Nat.zero_mod, Nat.or_eq_zero_iff]

theorem f32Eq_number (a b : BitVec 32) : f32Eq a b = true ↔ Number32 a ∧ Number32 b ∧ (a = b ∨ (a = 0 ∨ a = 0x80000000) ∧ (b = 0 ∨ b = 0x80000000)) := by
  have nan : ∀ x : BitVec 32, (¬ (x &&& 0x7fffffff > 0x7f800000)) ↔ Number32 x := fun x => by
    have hx := x.isLt
    show ¬ ((0x7f800000#32).toNat < (x &&& 0x7fffffff#32).toNat) ↔ _
    rw [BitVec.toNat_and, show (0x7fffffff#32).toNat = 2 ^ 31 - 1 from rfl, Nat.and_two_pow_sub_one_eq_mod, show (0x7f800000#32).toNat = 2139095040 from rfl]
    unfold Number32
    omega
  have zero : ∀ x : BitVec 32, x.toNat % 2 ^ 31 = 0 ↔ x = 0 ∨ x = 0x80000000 := fun x => by
    have hx := x.isLt
    rw [← BitVec.toNat_inj, ← BitVec.toNat_inj, show (0 : BitVec 32).toNat = 0 from rfl, show (0x80000000 : BitVec 32).toNat = 2147483648 from rfl]
    omega
  have hz := or_mask_zero a b (k := 31) (by decide)
  rw [zero, zero] at hz
  unfold f32Eq
  simp only [Bool.and_eq_true, Bool.or_eq_true, beq_iff_eq, Bool.not_eq_true', decide_eq_false_iff_not]
  rw [nan, nan, and_assoc]
  exact and_congr_right fun _ => and_congr_right fun _ => or_congr_right hz

theorem f64Eq_number (a b : BitVec 64) : f64Eq a b = true ↔ Number64 a ∧ Number64 b ∧ (a = b ∨ (a = 0 ∨ a = 0x8000000000000000) ∧ (b = 0 ∨ b = 0x8000000000000000)) := by
  have nan : ∀ x : BitVec 64, (¬ (x &&& 0x7fffffffffffffff > 0x7ff0000000000000)) ↔ Number64 x := fun x => by
    have hx := x.isLt
    show ¬ ((0x7ff0000000000000#64).toNat < (x &&& 0x7fffffffffffffff#64).toNat) ↔ _
    rw [BitVec.toNat_and, show (0x7fffffffffffffff#64).toNat = 2 ^ 63 - 1 from rfl, Nat.and_two_pow_sub_one_eq_mod, show (0x7ff0000000000000#64).toNat = 0x7ff0000000000000 from rfl]
    unfold Number64
    omega
  have zero : ∀ x : BitVec 64, x.toNat % 2 ^ 63 = 0 ↔ x = 0 ∨ x = 0x8000000000000000 := fun x => by
    have hx := x.isLt
    rw [← BitVec.toNat_inj, ← BitVec.toNat_inj, show (0 : BitVec 64).toNat = 0 from rfl, show (0x8000000000000000 : BitVec 64).toNat = 0x8000000000000000 from rfl]
    omega
  have hz := or_mask_zero a b (k := 63) (by decide)
  rw [zero, zero] at hz
  unfold f64Eq
  simp only [Bool.and_eq_true, Bool.or_eq_true, beq_iff_eq, Bool.not_eq_true', decide_eq_false_iff_not]
  rw [nan, nan, and_assoc]
  exact and_congr_right fun _ => and_congr_right fun _ => or_congr_right hz

theorem SameKey_of_keyEq : ∀ (n : Nat) (a b : GoVal), sizeOf a < n → a.keyEq b = true → SameKey a b := by
  intro n
  induction n with
  | zero => intro a b h; omega
  | succ n ih =>
    intro a b hn h
    unfold GoVal.keyEq at h
    split at h
    all_goals try simp only [beq_iff_eq] at h
    all_goals try subst h
    all_goals first
      | (exact .struct (keysEq_at.1 h).1 fun i x y hx hy => ih x y (by
          have := List.sizeOf_lt_of_mem (List.mem_of_getElem? hx)
          simp at hn
          omega) ((keysEq_at.1 h).2 i x y hx hy))
      | (obtain ⟨h1, h2, h3⟩ := (f32Eq_number _ _).1 h; exact .f32 h1 h2 h3)
      | (obtain ⟨h1, h2, h3⟩ := (f64Eq_number _ _).1 h; exact .f64 h1 h2 h3)
      | constructor
      | cases h

theorem keyEq_iff (a b : GoVal) : a.keyEq b = true ↔ SameKey a b := by
  refine ⟨SameKey_of_keyEq _ a b (Nat.lt_succ_self _), fun h => ?_⟩
  induction h with
  | f32 h1 h2 h3 => exact (f32Eq_number _ _).2 ⟨h1, h2, h3⟩
  | f64 h1 h2 h3 => exact (f64Eq_number _ _).2 ⟨h1, h2, h3⟩
  | struct h1 h2 ih => exact keysEq_at.2 ⟨h1, ih⟩
  | _ => simp [GoVal.keyEq]

end GoThrift
