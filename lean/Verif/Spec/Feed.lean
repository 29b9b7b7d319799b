import Verif.Model.Feed
import Verif.Spec.Fragment

/-!
# The contract of `io.Reader`
-/

namespace GoThrift

/-- What is assumed of an `io.Reader`: there are some bytes left in it, and an end (an error, or waiting forever); Read delivers at most as many of these bytes as there is room for, in order; it returns an
error only if all bytes have been delivered, and then always the same; it waits only if there are none left and it has no error to return; and it returns nothing at all (`0, nil`) at most 99 times in a row:
`idle` says how often it may still. `ok` is what its state satisfies. -/
structure ReadFn.Contract {ρ : Type} (rd : ReadFn ρ) where
  ok : ρ → Prop
  left : ρ → Bytes
  fin : ρ → End
  idle : ρ → Nat
  idle_lt : ∀ s, ok s → idle s < 100
  total : ∀ s cap, ok s → 0 < cap → (rd s cap = .blocked ∧ left s = [] ∧ fin s = .block) ∨ ∃ r, rd s cap = .done r
  keeps : ∀ s cap p e s', ok s → 0 < cap → rd s cap = .done ((p, e), s') →
    ok s' ∧ p.length ≤ cap ∧ left s = p ++ left s' ∧ fin s' = fin s ∧ (∀ x, e = some x → left s' = [] ∧ fin s = .err x) ∧
      (p = [] → e = none → idle s' < idle s)

end GoThrift
