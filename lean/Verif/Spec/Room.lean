import Verif.Spec.Depth
import Verif.Spec.GoValue

/-!
# How many frames a value takes
-/

namespace GoThrift.Spec

/-- Not a container. -/
def NoContainer : TVal → Bool
  | .struct _ _ | .map _ _ _ | .set _ _ | .list _ _ => false
  | _ => true

/-- `Room env t tv d`: the wire value `tv` is nested at most `d` deep, if a pointer in the Go type `t` that it is read into counts as one level more. What is in undeclared fields is read into nothing. -/
inductive Room (env : Env) : TypeId → TVal → Nat → Prop where
  | ptr {t e : TypeId} {tv : TVal} {d : Nat} : (env.type t).kind = .ptr e → Room env e tv d → Room env t tv (d + 1)
  | scalar {t : TypeId} {tv : TVal} {d : Nat} : (∀ e, (env.type t).kind ≠ .ptr e) → NoContainer tv = true → Room env t tv (d + 1)
  | set {t e : TypeId} {w : WType} {es : List TVal} {d : Nat} : (env.type t).kind = .slice e → (∀ x ∈ es, Room env e x d) → Room env t (.set w es) (d + 1)
  | list {t e : TypeId} {w : WType} {es : List TVal} {d : Nat} : (env.type t).kind = .slice e → (∀ x ∈ es, Room env e x d) → Room env t (.list w es) (d + 1)
  | map {t k e : TypeId} {kw ew : WType} {es : List (TVal × TVal)} {d : Nat} : (env.type t).kind = .map k e → (∀ x ∈ es, Room env k x.1 d) → (∀ x ∈ es, Room env e x.2 d) →
      Room env t (.map kw ew es) (d + 1)
  | struct {t : TypeId} {fs : List FieldDecl} {n : Bytes} {tfs : List (Bytes × BitVec 16 × TVal)} {d : Nat} : (env.type t).kind = .struct fs →
      (∀ tf ∈ tfs, ∀ f ∈ fs, ∀ required, Declares env f tf.2.1 required → Room env f.typ tf.2.2 d) →
      (∀ tf ∈ tfs, (∀ f ∈ fs, ∀ required, ¬ Declares env f tf.2.1 required) → depth tf.2.2 ≤ d) → Room env t (.struct n tfs) (d + 1)

/-- The same for a Go value `v` of type `t`: what of it is written. A nil pointer counts as a pointer to the zero value. -/
inductive RoomV (env : Env) : TypeId → GoVal → Nat → Prop where
  | ptr {t e : TypeId} {v : GoVal} {d : Nat} : (env.type t).kind = .ptr e → RoomV env e v d → RoomV env t (.ptr v) (d + 1)
  | ptrNil {t e : TypeId} {d : Nat} : (env.type t).kind = .ptr e → RoomV env e (env.zero e) d → RoomV env t .ptrNil (d + 1)
  | scalar {t : TypeId} {v : GoVal} {tv : TVal} {d : Nat} : RepLeaf env t v tv → RoomV env t v (d + 1)
  | slice {t e : TypeId} {v : GoVal} {d : Nat} : (env.type t).kind = .slice e → (env.type t).asBytes = false → (∀ x ∈ elemsOf v, RoomV env e x d) → RoomV env t v (d + 1)
  | map {t k e : TypeId} {v : GoVal} {d : Nat} : (env.type t).kind = .map k e → (∀ x ∈ entriesOf v, RoomV env k x.1 d) → (∀ x ∈ entriesOf v, RoomV env e x.2 d) → RoomV env t v (d + 1)
  | struct {t : TypeId} {fs : List FieldDecl} {vs : List GoVal} {d : Nat} : (env.type t).kind = .struct fs →
      (∀ (i : Nat) f v, fs[i]? = some f → vs[i]? = some v → Written env f v → RoomV env f.typ v d) → RoomV env t (.struct vs) (d + 1)

end GoThrift.Spec
