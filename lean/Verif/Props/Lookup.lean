import Verif.Proof.Lookup
import Verif.Spec.Example

/-!
# Property C36: termination of lookupArshaler
-/

namespace GoThrift

open Spec

/-- **C36** (terminates): if of finitely many types inside `t` none contains itself other than through a struct, then looking up the arshaler of `t` returns one. -/
theorem C36_terminates (env : Env) (t : TypeId) (types : List TypeId) (hfin : ∀ t', Inside env t' t → t' ∈ types)
    (h : ∀ t', Inside env t' t → ¬ SelfContaining env t') : ∃ n a, ∀ fuel, n ≤ fuel → lookupArshaler env fuel t = .done a := by
  obtain ⟨n, a, ha⟩ := (lookup_iff_acc env t).2 (acc_of_acyclic types t hfin h)
  exact ⟨n, a, fun fuel hf => (lookupArshaler_le env n fuel hf t).done ha⟩

/-- **C36** (does not terminate): if some type inside `t` contains itself other than through a struct, then looking up the arshaler of `t` recurses forever. -/
theorem C36_diverges (env : Env) (t t' : TypeId) (hin : Inside env t' t) (h : SelfContaining env t') (fuel : Nat) :
    lookupArshaler env fuel t = .diverged := by
  rcases lookup_total env fuel t with h1 | ⟨a, h1⟩
  · exact h1
  · exact absurd (Inside.acc hin ((lookup_iff_acc env t).1 ⟨fuel, a, h1⟩)) (SelfContaining.not_acc h)

/-- **C36**: in a program with finitely many types, lookup returns exactly if nothing inside the type contains itself other than through a struct. -/
theorem C36_exactly (env : Env) (t : TypeId) (types : List TypeId) (hfin : ∀ t', Inside env t' t → t' ∈ types) :
    (∃ fuel a, lookupArshaler env fuel t = .done a) ↔ ∀ t', Inside env t' t → ¬ SelfContaining env t' := by
  constructor
  · rintro ⟨fuel, a, h⟩ t' hin hs
    rw [C36_diverges env t t' hin hs fuel] at h
    cases h
  · intro h
    obtain ⟨n, a, ha⟩ := C36_terminates env t types hfin h
    exact ⟨n, a, ha n (Nat.le_refl _)⟩

/-- `type T []T` contains itself. -/
example : Inside Ex.env 10 10 ∧ SelfContaining Ex.env 10 :=
  have h : InPart Ex.env 10 10 := ⟨⟨rfl, rfl⟩, fun ⟨fs, h⟩ => by cases h⟩
  ⟨.refl _, 10, h, .refl _⟩

theorem inside_23 (u t : TypeId) (hu : u = 23) (h : Inside Ex.env t u) : t = 23 ∨ t = 21 := by
  induction h with
  | refl => exact .inl hu
  | step h _ ih =>
    rcases ih hu with rfl | rfl
    · exact .inr h.1
    · exact absurd ⟨_, rfl⟩ h.2

/-- A recursive type whose cycle passes through a struct: `*L` with `type L struct { Next *L }`. -/
example : (∀ t', Inside Ex.env t' 23 → t' ∈ [23, 21]) ∧ ∀ t', Inside Ex.env t' 23 → ¬ SelfContaining Ex.env t' := by
  refine ⟨fun t' h => by rcases inside_23 _ t' rfl h with rfl | rfl <;> decide, fun t' h => ?_⟩
  have key : ∀ t', InPart Ex.env t' 21 → False := fun t' h => absurd ⟨_, rfl⟩ h.2
  rintro ⟨t2, h1, h2⟩
  rcases inside_23 _ t' rfl h with rfl | rfl
  · have : t2 = 21 := h1.1
    subst this
    rcases Inside.head h2 with h | ⟨b, h3, _⟩
    · cases h
    · exact key _ h3
  · exact key _ h1

end GoThrift
