import Verif.Model.Wire

/-!
# Go types and values, as seen through package reflect

A program's Go types are numbered; `Env` describes them. Values are trees: pointers that share a target or form cycles, and slices that
share an array, are not modelled.
-/

namespace GoThrift

/-- A `reflect.Type`. -/
abbrev TypeId := Nat

/-- A `reflect.StructField`: its name, whether it is exported, the value of its `thrift` tag (`none`: `Tag.Lookup` does not find one), and
its type. -/
structure FieldDecl where
  name : Bytes
  exported : Bool
  tag : Option Bytes
  typ : TypeId
  deriving DecidableEq, Repr

/-- `reflect.Kind` with what `reflect.Type` tells about the parts. `uuid` is the type `[16]byte` itself; `other` is every kind package thrift does not
support (int, uint, uintptr, complex, chan, func, interface, unsafe.Pointer and all other array types). -/
inductive Kind where
  | bool | float32 | float64
  | int8 | int16 | int32 | int64
  | uint8 | uint16 | uint32 | uint64
  | string
  | struct (fields : List FieldDecl)
  | map (key elem : TypeId)
  | slice (elem : TypeId)
  | uuid
  | ptr (elem : TypeId)
  | other
  deriving DecidableEq, Repr

/-- A Go type: `Name()`, `Kind()`, and which interfaces it implements. -/
structure GoType where
  name : Bytes
  kind : Kind
  /-- `t.Implements(setType)` (thrift/arshal_default.go:11,47) -/
  isSet : Bool := false
  /-- `t.Implements(listType)` (thrift/arshal_default.go:12,49) -/
  isList : Bool := false
  /-- `t.AssignableTo(bytesType)` (thrift/arshal_default.go:13,51) -/
  isBytes : Bool := false
  deriving DecidableEq, Repr

/-- A Go value. Signed and unsigned integers are bit patterns, floats IEEE bit patterns. A map lists its entries in the order in which the next
iteration visits them. A slice has its elements and the contents of its spare capacity. `other` stands for the values of unsupported
kinds, 0 for the zero value. -/
inductive GoVal where
  | bool (v : Bool)
  | f32 (v : BitVec 32)
  | f64 (v : BitVec 64)
  | i8 (v : BitVec 8)
  | i16 (v : BitVec 16)
  | i32 (v : BitVec 32)
  | i64 (v : BitVec 64)
  | str (v : Bytes)
  | bytes (v : Option Bytes)
  | uuid (v : Bytes)
  | struct (fields : List GoVal)
  | mapNil
  | map (entries : List (GoVal × GoVal))
  | sliceNil
  | slice (elems spare : List GoVal)
  | ptrNil
  | ptr (v : GoVal)
  | other (n : Nat)

/-- The zero value of a kind, given the zero values of the types. -/
def Kind.zero (z : TypeId → GoVal) (isBytes : Bool) : Kind → GoVal
  | .bool => .bool false
  | .float32 => .f32 0
  | .float64 => .f64 0
  | .int8 | .uint8 => .i8 0
  | .int16 | .uint16 => .i16 0
  | .int32 | .uint32 => .i32 0
  | .int64 | .uint64 => .i64 0
  | .string => .str []
  | .struct fs => .struct (fs.map fun f => z f.typ)
  | .map _ _ => .mapNil
  | .slice _ => if isBytes then .bytes none else .sliceNil
  | .uuid => .uuid (List.replicate 16 0)
  | .ptr _ => .ptrNil
  | .other => .other 0

/-- Is this slice type handled as a byte slice? (thrift/arshal_default.go:46-55) -/
def GoType.asBytes (g : GoType) : Bool := !g.isSet && !g.isList && g.isBytes

/-- The results of functions of package unicode and of `strings.ToLower`, which the model does not define, but for: a comma is neither a letter nor a number. -/
structure Unicode where
  isLetter : Nat → Bool
  isDigit : Nat → Bool
  isNumber : Nat → Bool
  toLower : Bytes → Bytes
  comma_letter : isLetter 0x2c = false := by decide
  comma_number : isNumber 0x2c = false := by decide

/-- What the program being modelled consists of, besides the repository: its types, their zero values (given, because only by-value struct nesting
without cycles makes them well defined; Go's compiler guarantees it), their `IsZero` methods, and everything the Go language and
library leave open. -/
structure Env where
  type : TypeId → GoType
  zero : TypeId → GoVal
  zero_eq : ∀ t, zero t = (type t).kind.zero zero (type t).asBytes
  /-- the `IsZero() bool` method of a type or of the pointer to it, if there is one (thrift/fields.go:15-17). On pointer types it is called
  on non-nil pointers only. Methods are assumed to return and to have no effects. -/
  isZero : TypeId → Option (GoVal → Bool)
  /-- does `reflect.Value.IsZero` call a negative zero inside a value of this type zero? (It depends on the Go version.) -/
  negZero : TypeId → Bool
  /-- conversion float32 to float64 (`reflect.Value.Float`) -/
  widen : BitVec 32 → BitVec 64
  /-- conversion float64 to float32 (`reflect.Value.SetFloat`) -/
  narrow : BitVec 64 → BitVec 32
  /-- the capacity `reflect.Value.Grow(1)` gives a full slice of a type and capacity, if that is more than one extra -/
  grow : TypeId → Nat → Nat
  /-- `sort.Slice` by a key; how elements with equal keys are ordered is left open -/
  sort : ∀ {α : Type}, (α → Int) → List α → List α
  sort_perm : ∀ {α : Type} (key : α → Int) (l : List α), (sort key l).Perm l
  sort_sorted : ∀ {α : Type} (key : α → Int) (l : List α), (sort key l).Pairwise fun a b => key a ≤ key b
  /-- `sort.Slice` learns of the elements only how their keys compare, so it does the same to other elements with the same keys -/
  sort_map : ∀ {α β : Type} (key : β → Int) (f : α → β) (l : List α), sort key (l.map f) = (sort (fun a => key (f a)) l).map f
  unicode : Unicode

/-- The element type of a map, slice or pointer type. -/
def Env.elemType (env : Env) (t : TypeId) : TypeId := match (env.type t).kind with
  | .map _ e | .slice e | .ptr e => e
  | _ => 0

/-- The key type of a map type. -/
def Env.keyType (env : Env) (t : TypeId) : TypeId := match (env.type t).kind with
  | .map k _ => k
  | _ => 0

/-- The declared fields of a struct type. -/
def Env.fields (env : Env) (t : TypeId) : List FieldDecl := match (env.type t).kind with
  | .struct fs => fs
  | _ => []

/-! ## reflect.Value.IsZero -/

/-- Bits of a float that is zero; `neg`: negative zero too. -/
def f32IsZero (neg : Bool) (v : BitVec 32) : Bool := v == 0 || (neg && v == 0x80000000)
/-- See `f32IsZero`. -/
def f64IsZero (neg : Bool) (v : BitVec 64) : Bool := v == 0 || (neg && v == 0x8000000000000000)

mutual
/-- `reflect.Value.IsZero` -/
def GoVal.isZero (neg : Bool) : GoVal → Bool
  | .bool v => !v
  | .f32 v => f32IsZero neg v
  | .f64 v => f64IsZero neg v
  | .i8 v => v == 0
  | .i16 v => v == 0
  | .i32 v => v == 0
  | .i64 v => v == 0
  | .str v => v.isEmpty
  | .bytes v => v.isNone
  | .uuid v => v.all (· == 0)
  | .struct fs => GoVal.allZero neg fs
  | .mapNil | .sliceNil | .ptrNil => true
  | .map _ | .slice _ _ | .ptr _ => false
  | .other n => n == 0
/-- All fields are zero. -/
def GoVal.allZero (neg : Bool) : List GoVal → Bool
  | [] => true
  | v :: vs => v.isZero neg && GoVal.allZero neg vs
end

/-- Is a value of this type reported to be zero? By its `IsZero` method if it has one (thrift/fields.go:57-73; for a nil pointer the method is not asked), else by
`reflect.Value.IsZero` (thrift/arshal_default.go:295). -/
def reportsZero (env : Env) (t : TypeId) (v : GoVal) : Bool :=
  match env.isZero t with
  | none => v.isZero (env.negZero t)
  | some m => match (env.type t).kind, v with
    | .ptr _, .ptrNil => true
    | _, _ => m v

/-! ## Comparing map keys -/

/-- IEEE equality on bit patterns. -/
def f32Eq (a b : BitVec 32) : Bool :=
  let nan (x : BitVec 32) : Bool := x &&& 0x7fffffff > 0x7f800000
  !nan a && !nan b && (a == b || (a ||| b) &&& 0x7fffffff == 0)
/-- IEEE equality on bit patterns. -/
def f64Eq (a b : BitVec 64) : Bool :=
  let nan (x : BitVec 64) : Bool := x &&& 0x7fffffffffffffff > 0x7ff0000000000000
  !nan a && !nan b && (a == b || (a ||| b) &&& 0x7fffffffffffffff == 0)

mutual
/-- `==` on map keys, for a key that was just decoded against an existing one. A decoded non-nil pointer is fresh, so it equals no other. -/
def GoVal.keyEq : GoVal → GoVal → Bool
  | .bool a, .bool b => a == b
  | .f32 a, .f32 b => f32Eq a b
  | .f64 a, .f64 b => f64Eq a b
  | .i8 a, .i8 b => a == b
  | .i16 a, .i16 b => a == b
  | .i32 a, .i32 b => a == b
  | .i64 a, .i64 b => a == b
  | .str a, .str b => a == b
  | .uuid a, .uuid b => a == b
  | .struct a, .struct b => GoVal.keysEq a b
  | .ptrNil, .ptrNil => true
  | .other a, .other b => a == b
  | _, _ => false
/-- Field by field. -/
def GoVal.keysEq : List GoVal → List GoVal → Bool
  | [], [] => true
  | a :: as, b :: bs => a.keyEq b && GoVal.keysEq as bs
  | _, _ => false
end

/-- `MapIndex(k)` -/
def mapIndex (k : GoVal) : List (GoVal × GoVal) → Option GoVal
  | [] => none
  | (k', v) :: es => if k.keyEq k' then some v else mapIndex k es

/-- `SetMapIndex(k, v)`; an equal key is overwritten. -/
def setMapIndex (k v : GoVal) : List (GoVal × GoVal) → List (GoVal × GoVal)
  | [] => [(k, v)]
  | (k', v') :: es => if k.keyEq k' then (k, v) :: es else (k', v') :: setMapIndex k v es

end GoThrift
