import Verif.Model.Binary
import Verif.Model.Compact
import Verif.Spec.TVal

/-! # Big- and little-endian numbers -/

namespace GoThrift

open Spec

theorem be_succ (k n : Nat) : be (k + 1) n = BitVec.ofNat 8 (n / 256 ^ k) :: be k n := by
  simp only [be, List.range_succ_eq_map, List.map_cons, List.map_map]
  congr 1
  apply List.map_congr_left
  intro i hi
  simp only [Function.comp]
  congr 3
  omega

theorem be_length (k n : Nat) : (be k n).length = k := by simp [be]

theorem putBE_eq (k n : Nat) : Binary.putBE k n = be k n := by
  induction k with
  | zero => rfl
  | succ k ih => rw [Binary.putBE, be_succ, ih]

theorem getBE_be (k n : Nat) : Binary.getBE (be k n) = n % 256 ^ k := by
  induction k with
  | zero => simp [be, Binary.getBE, Nat.mod_one]
  | succ k ih =>
    rw [be_succ, Binary.getBE, ih, be_length, BitVec.toNat_ofNat, Nat.pow_succ 256, Nat.mod_mul (x := n),
      show (2 : Nat) ^ 8 = 256 from rfl, Nat.mul_comm, Nat.add_comm]

theorem getLE_append (a b : Bytes) : Compact.getLE (a ++ b) = Compact.getLE a + 256 ^ a.length * Compact.getLE b := by
  induction a with
  | nil => simp [Compact.getLE]
  | cons x a ih =>
    simp only [List.cons_append, Compact.getLE, ih, List.length_cons, Nat.pow_succ]
    rw [Nat.mul_add, ← Nat.add_assoc, ← Nat.mul_assoc, Nat.mul_comm 256 (256 ^ _)]

theorem getLE_reverse (b : Bytes) : Compact.getLE b.reverse = Binary.getBE b := by
  induction b with
  | nil => rfl
  | cons x b ih =>
    rw [List.reverse_cons, getLE_append, ih, Binary.getBE]
    simp [Compact.getLE, Nat.mul_comm]; omega

theorem be_snoc (k n : Nat) : be (k + 1) n = be k (n / 256) ++ [BitVec.ofNat 8 n] := by
  simp only [be, List.range_succ, List.map_append, List.map_cons, List.map_nil]
  congr 1
  · apply List.map_congr_left
    intro i hi
    rw [List.mem_range] at hi
    rw [Nat.div_div_eq_div_mul, ← Nat.pow_succ']
    congr 3
    omega
  · simp

theorem putLE_eq (k n : Nat) : Compact.putLE k n = (be k n).reverse := by
  induction k generalizing n with
  | zero => rfl
  | succ k ih => rw [Compact.putLE, be_snoc, ih]; simp

end GoThrift
