import Verif.Proof.Canon
import Verif.Props.RoundTrip

/-!
# C12: which values are reported zero
-/

namespace GoThrift

open Spec

/-- **C12** (zero): a value of a type with an `IsZero` method is reported zero if the method says so, and a nil pointer always; a value of another type exactly if it is the zero value of the type, for the versions of Go that do
not take negative zeros for zero, and else if it is with zeros for the negative zeros in it. -/
theorem C12_zero (env : Env) (t : TypeId) (v : GoVal) (hv : HasType env t v) :
    (env.isZero t = none → env.negZero t = false → (reportsZero env t v = true ↔ v = env.zero t)) ∧
    (env.isZero t = none → env.negZero t = true → (reportsZero env t v = true ↔ plus v = env.zero t)) ∧
    ∀ m, env.isZero t = some m → ((∃ e, (env.type t).kind = .ptr e) ∧ v = .ptrNil → reportsZero env t v = true) ∧ (v ≠ .ptrNil → reportsZero env t v = m v) := by
  refine ⟨fun h1 h2 => ?_, fun h1 h2 => ?_, fun m h => ⟨fun hp => ?_, fun hp => ?_⟩⟩
  · rw [reportsZero, h1]
    simp only [h2]
    exact isZero_iff v t hv
  · rw [reportsZero, h1]
    simp only [h2]
    exact isZero_neg_iff v t hv
  · obtain ⟨⟨e, hk⟩, rfl⟩ := hp
    rw [reportsZero, h]
    simp only [hk]
  · rw [reportsZero, h]
    dsimp only
    split
    · exact absurd rfl hp
    · rfl

/-- A struct of a negative zero and an empty string is zero for the versions of Go that take it for that. -/
example : plus (.struct [.f64 0x8000000000000000, .str []]) = .struct [.f64 0, .str []] ∧ plus (.struct [.f32 0x80000000]) ≠ .struct [.f32 0x80000000] := ⟨rfl, by simp [plus, plusAll]⟩

/-- A struct that is not zero. -/
example : Ex.valQ ≠ Ex.env.zero 0 := fun h =>
  absurd (((C12_zero Ex.env 0 Ex.valQ Ex.hasType_valQ).1 rfl rfl).2 h) (by decide +kernel)

end GoThrift
