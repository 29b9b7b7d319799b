import Verif.Spec.GoValue

/-!
# Values that differ in spare capacity only; laws of zero values and floats
-/

namespace GoThrift.Spec

/-- The values are the same except for what is in the spare capacity of their slices and, unless `ordered`, the order in which the entries of their maps come when iterating. -/
inductive SameValue (ordered : Bool) : GoVal → GoVal → Prop where
  | refl (v : GoVal) : SameValue ordered v v
  | ptr {v v' : GoVal} : SameValue ordered v v' → SameValue ordered (.ptr v) (.ptr v')
  | slice {es es' sp sp' : List GoVal} : es'.length = es.length → (∀ (i : Nat) x x', es[i]? = some x → es'[i]? = some x' → SameValue ordered x x') →
      SameValue ordered (.slice es sp) (.slice es' sp')
  | map {es es1 es' : List (GoVal × GoVal)} : es1.Perm es' → (ordered = true → es1 = es') → es1.length = es.length →
      (∀ (i : Nat) x x', es[i]? = some x → es1[i]? = some x' → SameValue ordered x.1 x'.1) →
      (∀ (i : Nat) x x', es[i]? = some x → es1[i]? = some x' → SameValue ordered x.2 x'.2) → SameValue ordered (.map es) (.map es')
  | struct {vs vs' : List GoVal} : vs'.length = vs.length → (∀ (i : Nat) x x', vs[i]? = some x → vs'[i]? = some x' → SameValue ordered x x') →
      SameValue ordered (.struct vs) (.struct vs')

/-- In `t` and its parts, exactly the zero values are reported zero. (So it is unless some IsZero method says otherwise, or reflect.Value.IsZero calls negative zero zero.) -/
def ZeroLaw (env : Env) (t : TypeId) : Prop := ∀ t', Within env t' t → ∀ v, HasType env t' v → (reportsZero env t' v = true ↔ v = env.zero t')

/-- A float32 that has been converted to float64 and back is not changed by another such conversion. (NaNs may change at the first.) -/
def FloatLaw (env : Env) : Prop := ∀ x, env.narrow (env.widen (env.narrow (env.widen x))) = env.narrow (env.widen x)

end GoThrift.Spec
