import Verif.Spec.GoValue

/-!
# Pointers to pointers
-/

namespace GoThrift.Spec

/-- `t` is a pointer to a pointer to … a type that is not a pointer type, with `n` pointers. -/
inductive Pointers (env : Env) : TypeId → Nat → Prop where
  | zero {t : TypeId} : (∀ e, (env.type t).kind ≠ .ptr e) → Pointers env t 0
  | succ {t e : TypeId} {n : Nat} : (env.type t).kind = .ptr e → Pointers env e n → Pointers env t (n + 1)

/-- Nowhere in `t` are more than `p` pointers in a row. -/
def PointersAtMost (env : Env) (p : Nat) (t : TypeId) : Prop := ∀ t' n, Within env t' t → Pointers env t' n → n ≤ p

end GoThrift.Spec
