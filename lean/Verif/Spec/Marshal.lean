import Verif.Spec.Decode

/-!
# What marshalling a value involves
-/

namespace GoThrift.Spec

/-- `Involves env (t', v') (t, v)`: marshalling the value `v` of type `t` involves marshalling the value `v'` of type `t'`: what a pointer points to (the zero value of its target type, for a nil
pointer), the elements of slices, the keys and values of maps, the fields of a struct that are to be written. -/
inductive Involves (env : Env) : TypeId × GoVal → TypeId × GoVal → Prop where
  | ptr {t e : TypeId} {v : GoVal} : (env.type t).kind = .ptr e → Involves env (e, v) (t, .ptr v)
  | ptrNil {t e : TypeId} : (env.type t).kind = .ptr e → Involves env (e, env.zero e) (t, .ptrNil)
  | elem {t e : TypeId} {es sp : List GoVal} {x : GoVal} : (env.type t).kind = .slice e → x ∈ es → Involves env (e, x) (t, .slice es sp)
  | key {t k e : TypeId} {es : List (GoVal × GoVal)} {x : GoVal × GoVal} : (env.type t).kind = .map k e → x ∈ es → Involves env (k, x.1) (t, .map es)
  | value {t k e : TypeId} {es : List (GoVal × GoVal)} {x : GoVal × GoVal} : (env.type t).kind = .map k e → x ∈ es → Involves env (e, x.2) (t, .map es)
  | field {t : TypeId} {fs : List FieldDecl} {vs : List GoVal} {i : Nat} {f : FieldDecl} {v : GoVal} : (env.type t).kind = .struct fs → fs[i]? = some f → vs[i]? = some v →
      Written env f v → Involves env (f.typ, v) (t, .struct vs)

/-- Marshalling the zero value of `t` involves marshalling the zero value of `t'`: `t` is a pointer to `t'`, or a struct with a field of type `t'` that is written even though it is zero. -/
def ZeroNeeds (env : Env) (t' t : TypeId) : Prop := Involves env (t', env.zero t') (t, env.zero t)

/-- Values that Marshal must refuse: of an unsupported type, directly or behind pointers; slices and maps with elements, keys or values of such a type, even empty ones;
structs with a field of such a type, even if it is zero; and values that involve one of these. -/
inductive Refuses (env : Env) : TypeId → GoVal → Prop where
  | here {t : TypeId} {v : GoVal} : Unsupported env t → Refuses env t v
  | elem {t e : TypeId} {v : GoVal} : (env.type t).kind = .slice e → (env.type t).asBytes = false → Unsupported env e → Refuses env t v
  | key {t k e : TypeId} {v : GoVal} : (env.type t).kind = .map k e → Unsupported env k → Refuses env t v
  | value {t k e : TypeId} {v : GoVal} : (env.type t).kind = .map k e → Unsupported env e → Refuses env t v
  | field {t : TypeId} {fs : List FieldDecl} {f : FieldDecl} {v : GoVal} : (env.type t).kind = .struct fs → f ∈ fs → ¬ Ignored f → Unsupported env f.typ → Refuses env t v
  | inside {t t' : TypeId} {v v' : GoVal} : Involves env (t', v') (t, v) → Refuses env t' v' → Refuses env t v

end GoThrift.Spec
