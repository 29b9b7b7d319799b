import Verif.Spec.Tag
import Verif.Spec.Types
import Verif.Spec.TVal

/-!
# Go values, and what they mean on the wire
-/

namespace GoThrift.Spec

/-! ## Predicates on all parts of a value -/

mutual
/-- `P` holds of the value `v` of type `t` and of all its parts: struct fields, map keys and values, slice elements, pointer targets. -/
def Everywhere (env : Env) (P : TypeId → GoVal → Prop) : TypeId → GoVal → Prop
  | t, .struct vs => P t (.struct vs) ∧ EverywhereFields env P (env.fields t) vs
  | t, .map es => P t (.map es) ∧ EverywhereEntries env P (env.keyType t) (env.elemType t) es
  | t, .slice es sp => P t (.slice es sp) ∧ EverywhereElems env P (env.elemType t) es
  | t, .ptr v => P t (.ptr v) ∧ Everywhere env P (env.elemType t) v
  | t, v => P t v
/-- See `Everywhere`. -/
def EverywhereFields (env : Env) (P : TypeId → GoVal → Prop) : List FieldDecl → List GoVal → Prop
  | f :: fs, v :: vs => Everywhere env P f.typ v ∧ EverywhereFields env P fs vs
  | _, _ => True
/-- See `Everywhere`. -/
def EverywhereEntries (env : Env) (P : TypeId → GoVal → Prop) (kt et : TypeId) : List (GoVal × GoVal) → Prop
  | [] => True
  | (k, v) :: es => Everywhere env P kt k ∧ Everywhere env P et v ∧ EverywhereEntries env P kt et es
/-- See `Everywhere`. -/
def EverywhereElems (env : Env) (P : TypeId → GoVal → Prop) (et : TypeId) : List GoVal → Prop
  | [] => True
  | v :: vs => Everywhere env P et v ∧ EverywhereElems env P et vs
end

/-- The outermost layer of a value fits the type. -/
def Shape (env : Env) (t : TypeId) (v : GoVal) : Prop := match (env.type t).kind, v with
  | .bool, .bool _ | .float32, .f32 _ | .float64, .f64 _ | .int8, .i8 _ | .uint8, .i8 _ | .int16, .i16 _ | .uint16, .i16 _ | .int32, .i32 _ | .uint32, .i32 _
  | .int64, .i64 _ | .uint64, .i64 _ | .string, .str _ | .map _ _, .mapNil | .map _ _, .map _ | .ptr _, .ptrNil | .ptr _, .ptr _ | .other, .other _ => True
  | .uuid, .uuid b => b.length = 16
  | .struct fs, .struct vs => vs.length = fs.length
  | .slice _, .bytes _ => (env.type t).asBytes = true
  | .slice _, .sliceNil | .slice _, .slice _ _ => (env.type t).asBytes = false
  | _, _ => False

/-- `v` is a value of type `t`. -/
def HasType (env : Env) (t : TypeId) (v : GoVal) : Prop := Everywhere env (Shape env) t v

/-- Lengths of strings, byte slices, slices and maps are at most `lim`. -/
def SizesAtMost (env : Env) (lim : Nat) (t : TypeId) (v : GoVal) : Prop := Everywhere env (fun _ v => match v with
  | .str b => b.length ≤ lim
  | .bytes (some b) => b.length ≤ lim
  | .slice es _ => es.length ≤ lim
  | .map es => es.length ≤ lim
  | _ => True) t v

/-! ## Fields -/

/-- A struct field that takes part, with this id, name and `required`. -/
def Declares (env : Env) (f : FieldDecl) (id : BitVec 16) (required : Bool) : Prop :=
  f.exported = true ∧ f.tag.getD [] ≠ [0x2d] ∧ TagDeclares env.unicode (f.tag.getD []) id required

/-- A struct field that takes no part: tagged `-`, or unexported without a tag. -/
def Ignored (f : FieldDecl) : Prop := f.tag = some [0x2d] ∨ (f.exported = false ∧ f.tag = none)

/-- Field `f` with value `v` is to be written: it takes part, and is required or not reported zero. -/
def Written (env : Env) (f : FieldDecl) (v : GoVal) : Prop :=
  ∃ id required, Declares env f id required ∧ (required = true ∨ reportsZero env f.typ v = false)

/-- No two fields of the struct type `t` declare the same id. -/
def DistinctIds (env : Env) (t : TypeId) : Prop :=
  ∀ (i j : Nat) (f g : FieldDecl) (id : BitVec 16) (r r' : Bool), (env.fields t)[i]? = some f → (env.fields t)[j]? = some g → Declares env f id r → Declares env g id r' → i = j

/-- `t'` is `t` or a part of it, or a part of a part, and so on. -/
inductive Within (env : Env) : TypeId → TypeId → Prop where
  | refl (t : TypeId) : Within env t t
  | step {t'' t' t : TypeId} : Within env t'' t' → PartOf env t' t → Within env t'' t

/-! ## Types -/

/-- The wire type that a Go type maps to. -/
inductive WireTypeOf (env : Env) : TypeId → WType → Prop where
  | bool {t : TypeId} : (env.type t).kind = .bool → WireTypeOf env t Ty.bool
  | double {t : TypeId} : (env.type t).kind = .float32 ∨ (env.type t).kind = .float64 → WireTypeOf env t Ty.double
  | byte {t : TypeId} : (env.type t).kind = .int8 ∨ (env.type t).kind = .uint8 → WireTypeOf env t Ty.byte
  | i16 {t : TypeId} : (env.type t).kind = .int16 ∨ (env.type t).kind = .uint16 → WireTypeOf env t Ty.i16
  | i32 {t : TypeId} : (env.type t).kind = .int32 ∨ (env.type t).kind = .uint32 → WireTypeOf env t Ty.i32
  | i64 {t : TypeId} : (env.type t).kind = .int64 ∨ (env.type t).kind = .uint64 → WireTypeOf env t Ty.i64
  | string {t : TypeId} : (env.type t).kind = .string → WireTypeOf env t Ty.string
  | uuid {t : TypeId} : (env.type t).kind = .uuid → WireTypeOf env t Ty.uuid
  | struct {t : TypeId} {fs : List FieldDecl} : (env.type t).kind = .struct fs → WireTypeOf env t Ty.struct
  | map {t k e : TypeId} : (env.type t).kind = .map k e → WireTypeOf env t Ty.map
  | set {t e : TypeId} : (env.type t).kind = .slice e → (env.type t).isSet = true → WireTypeOf env t Ty.set
  | list {t e : TypeId} : (env.type t).kind = .slice e → (env.type t).isSet = false → (env.type t).asBytes = false → WireTypeOf env t Ty.list
  | bytes {t e : TypeId} : (env.type t).kind = .slice e → (env.type t).asBytes = true → WireTypeOf env t Ty.string
  | ptr {t e : TypeId} {w : WType} : (env.type t).kind = .ptr e → WireTypeOf env e w → WireTypeOf env t w

/-- A type package thrift cannot handle, or a pointer to one, and so on. -/
inductive Unsupported (env : Env) : TypeId → Prop where
  | other {t : TypeId} : (env.type t).kind = .other → Unsupported env t
  | ptr {t e : TypeId} : (env.type t).kind = .ptr e → Unsupported env e → Unsupported env t

/-! ## The wire value of a Go value -/

/-- Strings and fixed-size values, with the wire value each stands for. -/
inductive RepLeaf (env : Env) : TypeId → GoVal → TVal → Prop where
  | bool {t : TypeId} (b : Bool) : (env.type t).kind = .bool → RepLeaf env t (.bool b) (.bool b)
  | f32 {t : TypeId} (x : BitVec 32) : (env.type t).kind = .float32 → RepLeaf env t (.f32 x) (.double (env.widen x))
  | f64 {t : TypeId} (x : BitVec 64) : (env.type t).kind = .float64 → RepLeaf env t (.f64 x) (.double x)
  | i8 {t : TypeId} (x : BitVec 8) : (env.type t).kind = .int8 ∨ (env.type t).kind = .uint8 → RepLeaf env t (.i8 x) (.byte x)
  | i16 {t : TypeId} (x : BitVec 16) : (env.type t).kind = .int16 ∨ (env.type t).kind = .uint16 → RepLeaf env t (.i16 x) (.i16 x)
  | i32 {t : TypeId} (x : BitVec 32) : (env.type t).kind = .int32 ∨ (env.type t).kind = .uint32 → RepLeaf env t (.i32 x) (.i32 x)
  | i64 {t : TypeId} (x : BitVec 64) : (env.type t).kind = .int64 ∨ (env.type t).kind = .uint64 → RepLeaf env t (.i64 x) (.i64 x)
  | str {t : TypeId} (b : Bytes) : (env.type t).kind = .string → RepLeaf env t (.str b) (.str false b)
  | uuid {t : TypeId} (b : Bytes) : (env.type t).kind = .uuid → RepLeaf env t (.uuid b) (.uuid b)
  | bytes {t e : TypeId} (b : Option Bytes) : (env.type t).kind = .slice e → (env.type t).asBytes = true → RepLeaf env t (.bytes b) (.str true (b.getD []))

/-- The elements of a slice value, none for nil. -/
def elemsOf : GoVal → List GoVal
  | .slice es _ => es
  | _ => []

/-- The entries of a map value, none for nil. -/
def entriesOf : GoVal → List (GoVal × GoVal)
  | .map es => es
  | _ => []

/-- The wire value that stands for the value `v` of type `t`: a nil pointer stands for the zero value of its target type; a struct for its written fields in order of ascending ids. Only values
that can be marshalled stand for a wire value: all fields of structs must have supported types, and a struct with fields must have tags. -/
inductive Rep (env : Env) : TypeId → GoVal → TVal → Prop where
  | leaf {t : TypeId} {v : GoVal} {tv : TVal} : RepLeaf env t v tv → Rep env t v tv
  | ptr {t e : TypeId} {v : GoVal} {tv : TVal} : (env.type t).kind = .ptr e → Rep env e v tv → Rep env t (.ptr v) tv
  | ptrNil {t e : TypeId} {tv : TVal} : (env.type t).kind = .ptr e → Rep env e (env.zero e) tv → Rep env t .ptrNil tv
  | set {t e : TypeId} {w : WType} {v : GoVal} {tvs : List TVal} : (env.type t).kind = .slice e → (env.type t).isSet = true → (v = .sliceNil ∨ ∃ es sp, v = .slice es sp) →
      WireTypeOf env e w → tvs.length = (elemsOf v).length →
      (∀ (i : Nat) x tv, (elemsOf v)[i]? = some x → tvs[i]? = some tv → Rep env e x tv) → Rep env t v (.set w tvs)
  | list {t e : TypeId} {w : WType} {v : GoVal} {tvs : List TVal} : (env.type t).kind = .slice e → (env.type t).isSet = false → (env.type t).asBytes = false →
      (v = .sliceNil ∨ ∃ es sp, v = .slice es sp) →
      WireTypeOf env e w → tvs.length = (elemsOf v).length →
      (∀ (i : Nat) x tv, (elemsOf v)[i]? = some x → tvs[i]? = some tv → Rep env e x tv) → Rep env t v (.list w tvs)
  | map {t k e : TypeId} {kw ew : WType} {v : GoVal} {tes : List (TVal × TVal)} : (env.type t).kind = .map k e → (v = .mapNil ∨ ∃ es, v = .map es) →
      WireTypeOf env k kw → WireTypeOf env e ew → tes.length = (entriesOf v).length →
      (∀ (i : Nat) x te, (entriesOf v)[i]? = some x → tes[i]? = some te → Rep env k x.1 te.1) →
      (∀ (i : Nat) x te, (entriesOf v)[i]? = some x → tes[i]? = some te → Rep env e x.2 te.2) → Rep env t v (.map kw ew tes)
  /-- `order` lists the positions of the written fields -/
  | struct {t : TypeId} {fs : List FieldDecl} {vs : List GoVal} {tfs : List (Bytes × BitVec 16 × TVal)} (order : List Nat) :
      (env.type t).kind = .struct fs → vs.length = fs.length →
      (∀ f ∈ fs, Ignored f ∨ ∃ id required w, Declares env f id required ∧ WireTypeOf env f.typ w) →
      (∀ f ∈ fs, ¬ Ignored f → Acc (InPart env) f.typ) → (fs ≠ [] → ∃ f ∈ fs, f.tag ≠ none) →
      order.Nodup → (∀ i : Nat, i ∈ order ↔ ∃ f v, fs[i]? = some f ∧ vs[i]? = some v ∧ Written env f v) →
      tfs.Pairwise (fun a b => a.2.1.toInt ≤ b.2.1.toInt) →
      tfs.length = order.length →
      (∀ (j i : Nat) tf f, order[j]? = some i → tfs[j]? = some tf → fs[i]? = some f → tf.1 = f.name ∧ ∃ required, Declares env f tf.2.1 required) →
      (∀ (j i : Nat) tf f v, order[j]? = some i → tfs[j]? = some tf → fs[i]? = some f → vs[i]? = some v → Rep env f.typ v tf.2.2) →
      Rep env t (.struct vs) (.struct (env.type t).name tfs)

/-! ## The round trip -/

/-- `v'` is what `v` comes back as when marshalled and unmarshalled into a zero value: floats of 32 bits pass through 64 bits; empty slices, maps and byte slices come back nil; a nil pointer
comes back as a pointer to what the zero value of its target comes back as; a struct field comes back if it was written, and is zero otherwise. -/
inductive RoundTrip (env : Env) : TypeId → GoVal → GoVal → Prop where
  | same {t : TypeId} {v : GoVal} : ((∃ b, v = .bool b) ∨ (∃ b, v = .f64 b) ∨ (∃ b, v = .i8 b) ∨ (∃ b, v = .i16 b) ∨ (∃ b, v = .i32 b) ∨ (∃ b, v = .i64 b) ∨ (∃ b, v = .str b) ∨
      (∃ b, v = .uuid b) ∨ (∃ b, v = .bytes b ∧ b ≠ some [])) → RoundTrip env t v v
  | f32 {t : TypeId} (x : BitVec 32) : RoundTrip env t (.f32 x) (.f32 (env.narrow (env.widen x)))
  | emptyBytes {t : TypeId} : RoundTrip env t (.bytes (some [])) (.bytes none)
  | ptr {t : TypeId} {v v' : GoVal} : RoundTrip env (env.elemType t) v v' → RoundTrip env t (.ptr v) (.ptr v')
  | ptrNil {t : TypeId} {v' : GoVal} : RoundTrip env (env.elemType t) (env.zero (env.elemType t)) v' → RoundTrip env t .ptrNil (.ptr v')
  | emptySlice {t : TypeId} {v : GoVal} : (v = .sliceNil ∨ ∃ sp, v = .slice [] sp) → RoundTrip env t v .sliceNil
  | slice {t : TypeId} {es sp es' sp' : List GoVal} : es ≠ [] → es'.length = es.length →
      (∀ (i : Nat) x x', es[i]? = some x → es'[i]? = some x' → RoundTrip env (env.elemType t) x x') → RoundTrip env t (.slice es sp) (.slice es' sp')
  | emptyMap {t : TypeId} {v : GoVal} : (v = .mapNil ∨ v = .map []) → RoundTrip env t v .mapNil
  | map {t : TypeId} {es es' : List (GoVal × GoVal)} : es ≠ [] → es'.length = es.length →
      (∀ (i : Nat) x x', es[i]? = some x → es'[i]? = some x' → RoundTrip env (env.keyType t) x.1 x'.1) →
      (∀ (i : Nat) x x', es[i]? = some x → es'[i]? = some x' → RoundTrip env (env.elemType t) x.2 x'.2) → RoundTrip env t (.map es) (.map es')
  | struct {t : TypeId} {vs vs' : List GoVal} : vs'.length = vs.length →
      (∀ (i : Nat) f v v', (env.fields t)[i]? = some f → vs[i]? = some v → vs'[i]? = some v' → Written env f v → RoundTrip env f.typ v v') →
      (∀ (i : Nat) f v v', (env.fields t)[i]? = some f → vs[i]? = some v → vs'[i]? = some v' → ¬ Written env f v → v' = env.zero f.typ) →
      RoundTrip env t (.struct vs) (.struct vs')

/-- In every map inside, the keys are still different after the round trip. (Keys of integer, string, bool and UUID types are, see `keysSurvive_plain`; keys that are structs
differing in ignored fields only are not.) -/
def KeysSurvive (env : Env) (t : TypeId) (v : GoVal) : Prop := Everywhere env (fun t v => match v with
  | .map es => ∀ (i j : Nat) (x y : GoVal × GoVal) (x' y' : GoVal), i < j → es[i]? = some x → es[j]? = some y →
      RoundTrip env (env.keyType t) x.1 x' → RoundTrip env (env.keyType t) y.1 y' → y'.keyEq x' = false
  | _ => True) t v

end GoThrift.Spec
