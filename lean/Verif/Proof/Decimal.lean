import Verif.Spec.Decimal
import Verif.Spec.Lines
import Verif.Model.Parser

/-!
# `itoa` prints decimals
-/

namespace GoThrift

open Spec Idl

theorem digitsValue_snoc (s : List Byte) (d : Byte) : digitsValue (s ++ [d]) = 10 * digitsValue s + (d.toNat - 48) := by
  induction s with
  | nil => simp [digitsValue]
  | cons a s ih =>
    simp only [List.cons_append, digitsValue, ih, List.length_append, List.length_singleton, Nat.pow_succ]
    rw [Nat.mul_add, Nat.add_assoc, Nat.mul_comm (10 ^ s.length) 10, Nat.mul_left_comm]

theorem digit_toNat {d : Nat} (h : d < 10) : (BitVec.ofNat 8 (48 + d)).toNat = 48 + d := by
  rw [BitVec.toNat_ofNat]; exact Nat.mod_eq_of_lt (by omega)

theorem itoa_decimal (n : Nat) : Decimal n (itoa n) := by
  induction n using Nat.strongRecOn with
  | ind n ih =>
    unfold itoa
    split
    · rename_i h
      refine ⟨by simp, ?_, ?_, by simp⟩
      · intro d hd
        rw [List.mem_singleton.1 hd, digit_toNat h]
        omega
      · simp only [digitsValue, digit_toNat h, List.length_nil, Nat.pow_zero]
        omega
    · rename_i h
      have hm : n % 10 < 10 := Nat.mod_lt _ (by omega)
      obtain ⟨h1, h2, h3, h4⟩ := ih (n / 10) (by omega)
      refine ⟨by simp, ?_, ?_, ?_⟩
      · intro d hd
        rcases List.mem_append.1 hd with hd | hd
        · exact h2 d hd
        · rw [List.mem_singleton.1 hd, digit_toNat hm]
          omega
      · rw [digitsValue_snoc, h3, digit_toNat hm]
        omega
      · intro _
        cases hi : itoa (n / 10) with
        | nil => exact absurd hi h1
        | cons a s =>
          rw [hi] at h1 h2 h3 h4
          simp only [List.cons_append, List.head?_cons]
          cases s with
          | nil =>
            intro e
            injection e with e
            subst e
            have : digitsValue [48] = 0 := rfl
            omega
          | cons b s => exact h4 (by simp)

theorem lineOf_pos (src : Bytes) (o : Nat) : 0 < lineOf src o := by
  simp [lineOf, lineStarts]

theorem columnOf_pos (src : Bytes) (o : Nat) : 0 < columnOf src o := by
  simp [columnOf]

theorem positionText_eq (file : Bytes) {l c : Nat} (hl : 0 < l) (hc : 0 < c) :
    positionText file l c = (if file = [] then [] else file ++ text ":") ++ itoa l ++ text ":" ++ itoa c := by
  have h1 := (itoa_decimal l).1
  unfold positionText
  simp only [hl, if_true]
  rw [if_pos (by omega : c ≠ 0)]
  by_cases hf : file = []
  · subst hf
    simp [h1]
  · simp [hf]

/-- What is before a colon is determined if it has no colon. -/
theorem colon_split {x y r s : Bytes} (hx : ∀ d ∈ x, d ≠ 0x3a) (hy : ∀ d ∈ y, d ≠ 0x3a) (h : x ++ 0x3a :: r = y ++ 0x3a :: s) : x = y ∧ r = s := by
  induction x generalizing y with
  | nil =>
    cases y with
    | nil => exact ⟨rfl, (List.cons.inj h).2⟩
    | cons b y => exact absurd (List.cons.inj h).1.symm (hy b (by simp))
  | cons a x ih =>
    cases y with
    | nil => exact absurd (List.cons.inj h).1 (hx a (by simp))
    | cons b y =>
      obtain ⟨e1, e2⟩ := List.cons.inj h
      obtain ⟨e3, e4⟩ := ih (fun d hd => hx d (by simp [hd])) (fun d hd => hy d (by simp [hd])) e2
      exact ⟨by rw [e1, e3], e4⟩

theorem decimal_no_colon {n : Nat} {s : Bytes} (h : Decimal n s) : ∀ d ∈ s, d ≠ 0x3a := by
  intro d hd e
  have := (h.2.1 d hd).2
  rw [e] at this
  exact absurd this (by decide)

end GoThrift
