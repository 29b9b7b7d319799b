import Verif.Model.GoType

/-!
# How Go types are made of each other
-/

namespace GoThrift.Spec

/-- `t'` is a part of `t`: key or element of a map type, element of a slice or pointer type, type of a field of a struct type. Byte slices count as having no parts. -/
def PartOf (env : Env) (t' t : TypeId) : Prop := match (env.type t).kind with
  | .map k e => t' = k ∨ t' = e
  | .slice e => (env.type t).asBytes = false ∧ t' = e
  | .ptr e => t' = e
  | .struct fs => ∃ f ∈ fs, f.typ = t'
  | _ => False

/-- A struct type. -/
def IsStruct (env : Env) (t : TypeId) : Prop := ∃ fs, (env.type t).kind = .struct fs

/-- `t'` is a part of `t`, which is not a struct type. -/
def InPart (env : Env) (t' t : TypeId) : Prop := PartOf env t' t ∧ ¬ IsStruct env t

/-- `t'` is `t` or a part of it, or a part of a part, and so on, without looking into structs. -/
inductive Inside (env : Env) : TypeId → TypeId → Prop where
  | refl (t : TypeId) : Inside env t t
  | step {t'' t' t : TypeId} : InPart env t'' t' → Inside env t' t → Inside env t'' t

/-- `t` contains itself (as part of a part of …) on a way that passes through no struct. -/
def SelfContaining (env : Env) (t : TypeId) : Prop := ∃ t', InPart env t' t ∧ Inside env t t'

end GoThrift.Spec
