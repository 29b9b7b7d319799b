import Verif.Model.Stringer
import Verif.Spec.Names

/-!
# Computing names

The strings are taken apart once, because this is slow in the kernel.
-/

namespace GoThrift.Stringer

open Spec

/-- `entry` on the characters -/
def entryL (name : List Char) (index : List Nat) (i : Nat) : Out String := match index[i]?, index[i + 1]? with
  | some lo, some hi => if lo ≤ hi ∧ hi ≤ name.length then .done (String.ofList ((name.drop lo).take (hi - lo))) else .panicked
  | _, _ => .panicked

theorem entry_eq {name : String} {l : List Char} (h : name.toList = l) (index : List Nat) (i : Nat) : entry name index i = entryL l index i := by
  rw [entry, entryL]
  simp only [slice, h, ← String.length_toList]
  cases index[i]? <;> cases index[i + 1]? <;> rfl

theorem nameOf_none {type : String} {names : List (Nat × String)} {i : BitVec 8} (h : names.lookup i.toNat = none) : nameOf type names i = type ++ "(" ++ format i ++ ")" := by
  rw [nameOf, h]
  rfl

theorem lookup_mem {names : List (Nat × String)} {i : Nat} {s : String} (h : names.lookup i = some s) : (i, s) ∈ names := by
  induction names with
  | nil => cases h
  | cons x names ih =>
    obtain ⟨j, s'⟩ := x
    rw [List.lookup_cons] at h
    by_cases hj : i == j
    · rw [hj] at h
      cases h
      rw [beq_iff_eq] at hj
      subst hj
      exact List.mem_cons_self
    · simp only [Bool.not_eq_true] at hj
      rw [hj] at h
      exact List.mem_cons_of_mem _ (ih h)

/-- Names are distinct if those in the table are, and none in the table looks like one that is not. -/
theorem nameOf_inj {type : String} {names : List (Nat × String)} (h1 : (names.map fun x => x.2.toList).Nodup)
    (h2 : ∀ x ∈ names, (type.toList ++ "(".toList).isPrefixOf x.2.toList = false) (i j : BitVec 8) (h : nameOf type names i = nameOf type names j) : i = j := by
  have no : ∀ (i j : BitVec 8) s, names.lookup i.toNat = some s → names.lookup j.toNat = none → s ≠ nameOf type names j := by
    rintro i j s hi hj rfl
    have := h2 _ (lookup_mem hi)
    rw [nameOf_none hj, String.toList_append, String.toList_append, String.toList_append, List.append_assoc, Bool.eq_false_iff, ne_eq, List.isPrefixOf_iff_prefix] at this
    exact this (List.prefix_append _ _)
  cases hi : names.lookup i.toNat with
  | some s =>
    have hs : nameOf type names i = s := by rw [nameOf, hi]; rfl
    cases hj : names.lookup j.toNat with
    | some s' =>
      have hs' : nameOf type names j = s' := by rw [nameOf, hj]; rfl
      obtain ⟨a, ha⟩ := List.mem_iff_getElem?.1 (lookup_mem hi)
      obtain ⟨b, hb⟩ := List.mem_iff_getElem?.1 (lookup_mem hj)
      obtain rfl : s = s' := by rw [← hs, ← hs', h]
      obtain ⟨la, ea⟩ := List.getElem?_eq_some_iff.1 ha
      obtain ⟨lb, eb⟩ := List.getElem?_eq_some_iff.1 hb
      have : a = b := (List.getElem_inj (i := a) (j := b) (h₀ := by simpa using la) (h₁ := by simpa using lb) h1).1 (by simp [ea, eb])
      subst this
      rw [ha] at hb
      exact BitVec.eq_of_toNat_eq (congrArg Prod.fst (Option.some.inj hb))
    | none => exact absurd (hs.symm.trans h) (no i j s hi hj)
  | none =>
    cases hj : names.lookup j.toNat with
    | some s' =>
      have hs' : nameOf type names j = s' := by rw [nameOf, hj]; rfl
      exact absurd (hs'.symm.trans h.symm) (no j i s' hj hi)
    | none =>
      rw [nameOf_none hi, nameOf_none hj] at h
      have h := congrArg String.toList h
      simp only [String.toList_append, List.append_assoc, format, String.toList_ofList] at h
      have h := List.append_cancel_right (List.append_cancel_left (List.append_cancel_left h))
      refine BitVec.eq_of_toNat_eq ?_
      rw [← Nat.ofDigitChars_toDigits (b := 10) (n := i.toNat) (by decide) (by decide), h, Nat.ofDigitChars_toDigits (by decide) (by decide)]

/-- The characters of the names of compact types -/
def compactChars : List Char := ['S', 'T', 'O', 'P', 'B', 'O', 'O', 'L', 'E', 'A', 'N', '_', 'T', 'R', 'U', 'E', 'B', 'O', 'O', 'L', 'E', 'A', 'N', '_', 'F', 'A', 'L', 'S', 'E', 'I', '8', 'I', '1', '6', 'I', '3', '2', 'I', '6', '4', 'D', 'O', 'U', 'B', 'L', 'E', 'B', 'I', 'N', 'A', 'R', 'Y', 'L', 'I', 'S', 'T', 'S', 'E', 'T', 'M', 'A', 'P', 'S', 'T', 'R', 'U', 'C', 'T', 'U', 'U', 'I', 'D']

/-- The characters of the names of tokens -/
def tokenChars : List Char := ['I', 'L', 'L', 'E', 'G', 'A', 'L', 'E', 'O', 'F', 'C', 'O', 'M', 'M', 'E', 'N', 'T', 'l', 'i', 't', 'e', 'r', 'a', 'l', '_', 'b', 'e', 'g', 'I', 'D', 'E', 'N', 'T', 'I', 'N', 'T', 'F', 'L', 'O', 'A', 'T', 'S', 'T', 'R', 'I', 'N', 'G', 'l', 'i', 't', 'e', 'r', 'a', 'l', '_', 'e', 'n', 'd', '+', '-', '*', '/', '%', '&', '|', '^', '=', '=', '<', '>', '=', '!', '(', '[', '{', ',', '.', ')', ']', '}', ';', ':', 'k', 'e', 'y', 'w', 'o', 'r', 'd', '_', 'b', 'e', 'g', 'i', 'n', 'c', 'l', 'u', 'd', 'e', 'n', 'a', 'm', 'e', 's', 'p', 'a', 'c', 'e', 'd', 'e', 'f', 'i', 'n', 'i', 't', 'i', 'o', 'n', '_', 'b', 'e', 'g', 'c', 'o', 'n', 's', 't', 't', 'y', 'p', 'e', 'd', 'e', 'f', 'e', 'n', 'u', 'm', 's', 't', 'r', 'u', 'c', 't', 'u', 'n', 'i', 'o', 'n', 'e', 'x', 'c', 'e', 'p', 't', 'i', 'o', 'n', 's', 'e', 'r', 'v', 'i', 'c', 'e', 'd', 'e', 'f', 'i', 'n', 'i', 't', 'i', 'o', 'n', '_', 'e', 'n', 'd', 'r', 'e', 'q', 'u', 'i', 'r', 'e', 'd', 'o', 'p', 't', 'i', 'o', 'n', 'a', 'l', 'e', 'x', 't', 'e', 'n', 'd', 's', 'o', 'n', 'e', 'w', 'a', 'y', 'v', 'o', 'i', 'd', 't', 'h', 'r', 'o', 'w', 's', 'm', 'a', 'p', 's', 'e', 't', 'l', 'i', 's', 't', 'k', 'e', 'y', 'w', 'o', 'r', 'd', '_', 'e', 'n', 'd']

end GoThrift.Stringer
