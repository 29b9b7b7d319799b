import Verif.Spec.Decode

/-!
# Writing with one type and reading with another
-/

namespace GoThrift.Spec

/-- The wire types of values without parts. -/
def scalars : List WType := [Ty.bool, Ty.byte, Ty.i16, Ty.i32, Ty.i64, Ty.double, Ty.string, Ty.uuid]

/-- What must hold of a type written and a type read, given which of their parts fit. -/
inductive CompatStep (env : Env) (R : TypeId → TypeId → Prop) : TypeId → TypeId → Prop where
  | same (t : TypeId) : CompatStep env R t t
  | scalar {t u : TypeId} (w : WType) : w ∈ scalars → WireTypeOf env t w → WireTypeOf env u w → CompatStep env R t u
  | ptrL {t u e : TypeId} : (env.type t).kind = .ptr e → R e u → CompatStep env R t u
  | ptrR {t u e : TypeId} : (env.type u).kind = .ptr e → R t e → CompatStep env R t u
  | set {t u e e' : TypeId} : (env.type t).kind = .slice e → (env.type t).isSet = true → (env.type u).kind = .slice e' → (env.type u).isSet = true → R e e' → CompatStep env R t u
  | list {t u e e' : TypeId} : (env.type t).kind = .slice e → (env.type t).isSet = false → (env.type t).asBytes = false → (env.type u).kind = .slice e' → (env.type u).isSet = false →
      (env.type u).asBytes = false → R e e' → CompatStep env R t u
  /-- the keys must have the same type, lest different keys become equal -/
  | map {t u k e e' : TypeId} : (env.type t).kind = .map k e → (env.type u).kind = .map k e' → R e e' → CompatStep env R t u
  /-- fields with the same id must fit; others need not be in both -/
  | struct {t u : TypeId} {fs gs : List FieldDecl} : (env.type t).kind = .struct fs → (env.type u).kind = .struct gs →
      (∀ f ∈ fs, ∀ g ∈ gs, ∀ id r r', Declares env f id r → Declares env g id r' → R f.typ g.typ) → CompatStep env R t u

/-- What is written with type `t` can be read with type `u`: the types are equal up to pointers, numbers of the same size, strings and byte slices, added and removed fields. -/
def Compatible (env : Env) (t u : TypeId) : Prop := ∃ R : TypeId → TypeId → Prop, (∀ a b, R a b → CompatStep env R a b) ∧ R t u

/-- What a scalar value comes back as in a variable of type `u`. -/
inductive CarriesLeaf (env : Env) (u : TypeId) : GoVal → GoVal → Prop where
  | bool (b : Bool) : (env.type u).kind = .bool → CarriesLeaf env u (.bool b) (.bool b)
  | i8 (x : BitVec 8) : (env.type u).kind = .int8 ∨ (env.type u).kind = .uint8 → CarriesLeaf env u (.i8 x) (.i8 x)
  | i16 (x : BitVec 16) : (env.type u).kind = .int16 ∨ (env.type u).kind = .uint16 → CarriesLeaf env u (.i16 x) (.i16 x)
  | i32 (x : BitVec 32) : (env.type u).kind = .int32 ∨ (env.type u).kind = .uint32 → CarriesLeaf env u (.i32 x) (.i32 x)
  | i64 (x : BitVec 64) : (env.type u).kind = .int64 ∨ (env.type u).kind = .uint64 → CarriesLeaf env u (.i64 x) (.i64 x)
  | f32 (x : BitVec 32) : (env.type u).kind = .float32 → CarriesLeaf env u (.f32 x) (.f32 (env.narrow (env.widen x)))
  | f32as64 (x : BitVec 32) : (env.type u).kind = .float64 → CarriesLeaf env u (.f32 x) (.f64 (env.widen x))
  | f64 (x : BitVec 64) : (env.type u).kind = .float64 → CarriesLeaf env u (.f64 x) (.f64 x)
  | f64as32 (x : BitVec 64) : (env.type u).kind = .float32 → CarriesLeaf env u (.f64 x) (.f32 (env.narrow x))
  | str (b : Bytes) : (env.type u).kind = .string → CarriesLeaf env u (.str b) (.str b)
  | strAsBytes {e : TypeId} (b : Bytes) : (env.type u).kind = .slice e → (env.type u).asBytes = true → CarriesLeaf env u (.str b) (.bytes (if b = [] then none else some b))
  | bytes {e : TypeId} (b : Option Bytes) : (env.type u).kind = .slice e → (env.type u).asBytes = true →
      CarriesLeaf env u (.bytes b) (.bytes (if b.getD [] = [] then none else some (b.getD [])))
  | bytesAsStr (b : Option Bytes) : (env.type u).kind = .string → CarriesLeaf env u (.bytes b) (.str (b.getD []))
  | uuid (b : Bytes) : (env.type u).kind = .uuid → CarriesLeaf env u (.uuid b) (.uuid b)

/-- `v'`, of type `u`, is what the value `v` of type `t` comes back as when marshalled and unmarshalled into a zero value of type `u`. -/
inductive Carries (env : Env) : TypeId → TypeId → GoVal → GoVal → Prop where
  | leaf {t u : TypeId} {v v' : GoVal} : CarriesLeaf env u v v' → Carries env t u v v'
  | ptrL {t u e : TypeId} {v v' : GoVal} : (env.type t).kind = .ptr e → Carries env e u v v' → Carries env t u (.ptr v) v'
  | ptrNilL {t u e : TypeId} {v' : GoVal} : (env.type t).kind = .ptr e → Carries env e u (env.zero e) v' → Carries env t u .ptrNil v'
  | ptrR {t u e : TypeId} {v v' : GoVal} : (env.type u).kind = .ptr e → Carries env t e v v' → Carries env t u v (.ptr v')
  | emptySlice {t u e : TypeId} {v : GoVal} : (env.type u).kind = .slice e → (env.type u).asBytes = false → (v = .sliceNil ∨ ∃ sp, v = .slice [] sp) → Carries env t u v .sliceNil
  | slice {t u e e' : TypeId} {es sp es' sp' : List GoVal} : (env.type t).kind = .slice e → (env.type u).kind = .slice e' → (env.type u).asBytes = false → es ≠ [] → es'.length = es.length →
      (∀ (i : Nat) x x', es[i]? = some x → es'[i]? = some x' → Carries env e e' x x') → Carries env t u (.slice es sp) (.slice es' sp')
  | emptyMap {t u k e : TypeId} {v : GoVal} : (env.type u).kind = .map k e → (v = .mapNil ∨ v = .map []) → Carries env t u v .mapNil
  | map {t u k e e' : TypeId} {es es' : List (GoVal × GoVal)} : (env.type t).kind = .map k e → (env.type u).kind = .map k e' → es ≠ [] → es'.length = es.length →
      (∀ (i : Nat) x x', es[i]? = some x → es'[i]? = some x' → RoundTrip env k x.1 x'.1) →
      (∀ (i : Nat) x x', es[i]? = some x → es'[i]? = some x' → Carries env e e' x.2 x'.2) → Carries env t u (.map es) (.map es')
  /-- a field of `u` gets the value of the field of `t` with the same id, if there is one and it was written, and is zero otherwise -/
  | struct {t u : TypeId} {fs gs : List FieldDecl} {vs vs' : List GoVal} : (env.type t).kind = .struct fs → (env.type u).kind = .struct gs → vs'.length = gs.length →
      (∀ (i j : Nat) f g v v' id r r', fs[i]? = some f → vs[i]? = some v → gs[j]? = some g → vs'[j]? = some v' → Declares env f id r → Declares env g id r' → Written env f v →
        Carries env f.typ g.typ v v') →
      (∀ (j : Nat) g v', gs[j]? = some g → vs'[j]? = some v' →
        (∀ (i : Nat) f v id r r', fs[i]? = some f → vs[i]? = some v → Declares env f id r → Declares env g id r' → ¬ Written env f v) → v' = env.zero g.typ) →
      Carries env t u (.struct vs) (.struct vs')

end GoThrift.Spec
