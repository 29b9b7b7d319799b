import Verif.Spec.Lex
import Verif.Proof.Tag

/-!
# Lemmas about runes and texts
-/

namespace GoThrift

open Spec

namespace Utf8

theorem inRange_iff {lo hi : Nat} {b : Byte} : inRange lo hi b = true ↔ lo ≤ b.toNat ∧ b.toNat ≤ hi := by
  simp [inRange]

theorem decodeRune_ascii (b : Byte) (p : Bytes) (h : b.toNat < 0x80) : decodeRune (b :: p) = (b.toNat, 1) := by
  unfold decodeRune
  dsimp only
  rw [if_pos h]

theorem decodeRune_ge (b : Byte) (p : Bytes) (h : ¬ b.toNat < 0x80) : 0x80 ≤ (decodeRune (b :: p)).1 := by
  unfold decodeRune
  dsimp only
  rw [if_neg h]
  repeat' split
  all_goals simp only [runeError, Bool.and_eq_true, inRange_iff] at *
  all_goals first | omega | (split at * <;> omega)

/-- The bytes of a rune that is not ASCII are not ASCII. -/
theorem decodeRune_high (b : Byte) (p : Bytes) (h : ¬ b.toNat < 0x80) (x : Byte) (hx : x ∈ (b :: p).take (decodeRune (b :: p)).2) : 0x80 ≤ x.toNat := by
  have h0 : 0x80 ≤ b.toNat := by omega
  unfold decodeRune at hx
  dsimp only at hx
  rw [if_neg h] at hx
  repeat' split at hx
  all_goals simp only [Bool.and_eq_true, inRange_iff] at *
  all_goals simp only [List.take_succ_cons, List.take_zero, List.mem_cons, List.not_mem_nil, or_false] at hx
  all_goals first
    | (subst hx; exact h0)
    | (rcases hx with hx | hx <;> subst hx <;> omega)
    | (rcases hx with hx | hx | hx <;> subst hx <;> first | omega | (split at * <;> omega))
    | (rcases hx with hx | hx | hx | hx <;> subst hx <;> first | omega | (split at * <;> omega))

end Utf8

theorem charsUpTo_step (n : Nat) (src : Bytes) : charsUpTo (n + 1) src =
    if src = [] then [] else ((Utf8.decodeRune src).1, src.take (Utf8.decodeRune src).2) :: charsUpTo n (src.drop (Utf8.decodeRune src).2) := rfl

theorem charsUpTo_succ (n : Nat) (src : Bytes) (h : src.length ≤ n) : charsUpTo (n + 1) src = charsUpTo n src := by
  induction n generalizing src with
  | zero =>
    have : src = [] := List.eq_nil_of_length_eq_zero (by omega)
    subst this; rfl
  | succ n ih =>
    rw [charsUpTo_step (n + 1) src, charsUpTo_step n src]
    split
    · rfl
    · rename_i hne
      have := Utf8.decodeRune_width_pos src hne
      rw [ih _ (by rw [List.length_drop]; omega)]

theorem charsUpTo_le (n m : Nat) (src : Bytes) (h : src.length ≤ n) (hm : n ≤ m) : charsUpTo m src = charsUpTo n src := by
  induction m with
  | zero => rw [show n = 0 by omega]
  | succ m ih =>
    by_cases hn : n = m + 1
    · rw [hn]
    · rw [charsUpTo_succ m src (by omega), ih (by omega)]

theorem chars_nil : chars [] = [] := rfl

theorem chars_of_ne (src : Bytes) (h : src ≠ []) :
    chars src = ((Utf8.decodeRune src).1, src.take (Utf8.decodeRune src).2) :: chars (src.drop (Utf8.decodeRune src).2) := by
  rw [chars]
  cases hl : src.length with
  | zero => exact absurd (List.eq_nil_of_length_eq_zero hl) h
  | succ n =>
    rw [charsUpTo, if_neg h]
    have := Utf8.decodeRune_width_pos src h
    rw [chars, charsUpTo_le (src.drop _).length n _ (Nat.le_refl _) (by rw [List.length_drop]; omega)]

theorem bytesOf_cons (c : Chr) (w : List Chr) : bytesOf (c :: w) = c.2 ++ bytesOf w := rfl

theorem bytesOf_append (v w : List Chr) : bytesOf (v ++ w) = bytesOf v ++ bytesOf w := List.flatMap_append

theorem runesOf_append (v w : List Chr) : runesOf (v ++ w) = runesOf v ++ runesOf w := List.map_append

theorem bytesOf_charsUpTo (n : Nat) (src : Bytes) (h : src.length ≤ n) : bytesOf (charsUpTo n src) = src := by
  induction n generalizing src with
  | zero =>
    have : src = [] := List.eq_nil_of_length_eq_zero (by omega)
    subst this; rfl
  | succ n ih =>
    rw [charsUpTo]
    split
    · rename_i h; rw [h]; rfl
    · rename_i hne
      have := Utf8.decodeRune_width_pos src hne
      rw [bytesOf_cons, ih _ (by rw [List.length_drop]; omega), List.take_append_drop]

/-- The characters of the bytes have these bytes. -/
theorem bytesOf_chars (src : Bytes) : bytesOf (chars src) = src := bytesOf_charsUpTo _ _ (Nat.le_refl _)

end GoThrift
