import Verif.Proof.Stringer

/-!
# C46: String methods
-/

namespace GoThrift

open Spec Stringer

/-- **C46** (Type): String never panics, names the constants, and distinct values have distinct names. -/
theorem C46_type : (∀ i, typeString i = .done (nameOf "Type" typeNames i)) ∧ ∀ i j, nameOf "Type" typeNames i = nameOf "Type" typeNames j → i = j :=
  ⟨by decide +kernel, nameOf_inj (by decide +kernel) (by decide +kernel)⟩

/-- **C46** (MessageType) -/
theorem C46_messageType : (∀ i, messageTypeString i = .done (nameOf "MessageType" messageTypeNames i)) ∧
    ∀ i j, nameOf "MessageType" messageTypeNames i = nameOf "MessageType" messageTypeNames j → i = j :=
  ⟨by decide +kernel, nameOf_inj (by decide +kernel) (by decide +kernel)⟩

/-- **C46** (compactType) -/
theorem C46_compactType : (∀ i, compactTypeString i = .done (nameOf "compactType" compactTypeNames i)) ∧
    ∀ i j, nameOf "compactType" compactTypeNames i = nameOf "compactType" compactTypeNames j → i = j := by
  refine ⟨fun i => ?_, nameOf_inj (by decide +kernel) (by decide +kernel)⟩
  by_cases h : i ≥ 14
  · have : ∀ i : BitVec 8, i ≥ 14 → compactTypeNames.lookup i.toNat = none := by decide +kernel
    rw [nameOf_none (this i h)]
    exact if_pos h
  · have hs : compactTypeString i = entry _ _ i.toNat := if_neg h
    rw [hs, entry_eq (l := compactChars) (by decide +kernel)]
    have : ∀ i : BitVec 8, ¬ i ≥ 14 → entryL compactChars compactTypeIndex i.toNat = .done (nameOf "compactType" compactTypeNames i) := by decide +kernel
    exact this i h

/-- **C46** (token) -/
theorem C46_token : (∀ i, tokenString i = .done (nameOf "token" tokenNames i)) ∧ ∀ i j, nameOf "token" tokenNames i = nameOf "token" tokenNames j → i = j := by
  refine ⟨fun i => ?_, nameOf_inj (by decide +kernel) (by decide +kernel)⟩
  by_cases h : i ≥ 54
  · have : ∀ i : BitVec 8, i ≥ 54 → tokenNames.lookup i.toNat = none := by decide +kernel
    rw [nameOf_none (this i h)]
    exact if_pos h
  · have hs : tokenString i = entry _ _ i.toNat := if_neg h
    rw [hs, entry_eq (l := tokenChars) (by decide +kernel)]
    have : ∀ i : BitVec 8, ¬ i ≥ 54 → entryL tokenChars tokenIndex i.toNat = .done (nameOf "token" tokenNames i) := by decide +kernel
    exact this i h

example : typeString 11 = .done "String" ∧ typeString 200 = .done "Type(200)" ∧ messageTypeString 0 = .done "MessageType(0)" ∧ tokenString 43 = .done "definition_end" := by decide +kernel

end GoThrift
