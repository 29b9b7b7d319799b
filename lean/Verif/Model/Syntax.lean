import Verif.Model.Basic

/-!
# Syntax trees of .thrift files (tools/thriftfile/nodes.go)

`*Ident`, `*Int`, `*Float` and `*String` are their texts.
-/

namespace GoThrift.Idl

/-- `Annotation` (tools/thriftfile/nodes.go:263-267) -/
structure Annotation where
  name : Bytes
  value : Option Bytes
  deriving DecidableEq, Repr

/-- `*AnnotationList` (tools/thriftfile/nodes.go:269-274) -/
abbrev Annotations := Option (List Annotation)

/-- `Include` and `Namespace` (tools/thriftfile/nodes.go:36-48) -/
inductive Header where
  | include (path : Bytes)
  | namespace (scope : Option Bytes) (name : Bytes) (annotations : Annotations)
  deriving DecidableEq, Repr

/-- `Type` (tools/thriftfile/nodes.go:169-208) -/
inductive TypeNode where
  | map (key value : TypeNode) (annotations : Annotations)
  | set (element : TypeNode) (annotations : Annotations)
  | list (element : TypeNode) (annotations : Annotations)
  | ref (name : Bytes) (annotations : Annotations)
  deriving DecidableEq, Repr

/-- `Value` (tools/thriftfile/nodes.go:210-261) -/
inductive Value where
  | ident (name : Bytes)
  | int (value : Bytes)
  | float (value : Bytes)
  | string (value : Bytes)
  | list (l : List Value)
  | pairs (l : List (Value × Value))
  deriving Repr

/-! Equality of values is decidable; used for examples. -/

mutual
def Value.decEq : (a b : Value) → Decidable (a = b)
  | .ident x, b => match b with
    | .ident y => if h : x = y then isTrue (congrArg _ h) else isFalse (fun e => by cases e; exact h rfl)
    | .int _ | .float _ | .string _ | .list _ | .pairs _ => isFalse nofun
  | .int x, b => match b with
    | .int y => if h : x = y then isTrue (congrArg _ h) else isFalse (fun e => by cases e; exact h rfl)
    | .ident _ | .float _ | .string _ | .list _ | .pairs _ => isFalse nofun
  | .float x, b => match b with
    | .float y => if h : x = y then isTrue (congrArg _ h) else isFalse (fun e => by cases e; exact h rfl)
    | .ident _ | .int _ | .string _ | .list _ | .pairs _ => isFalse nofun
  | .string x, b => match b with
    | .string y => if h : x = y then isTrue (congrArg _ h) else isFalse (fun e => by cases e; exact h rfl)
    | .ident _ | .int _ | .float _ | .list _ | .pairs _ => isFalse nofun
  | .list x, b => match b with
    | .list y => match valuesDecEq x y with
      | isTrue h => isTrue (congrArg _ h)
      | isFalse h => isFalse (fun e => by cases e; exact h rfl)
    | .ident _ | .int _ | .float _ | .string _ | .pairs _ => isFalse nofun
  | .pairs x, b => match b with
    | .pairs y => match pairsDecEq x y with
      | isTrue h => isTrue (congrArg _ h)
      | isFalse h => isFalse (fun e => by cases e; exact h rfl)
    | .ident _ | .int _ | .float _ | .string _ | .list _ => isFalse nofun
def valuesDecEq : (a b : List Value) → Decidable (a = b)
  | [], [] => isTrue rfl
  | [], _ :: _ => isFalse nofun
  | _ :: _, [] => isFalse nofun
  | a :: x, b :: y => match Value.decEq a b, valuesDecEq x y with
    | isTrue h, isTrue h' => isTrue (by rw [h, h'])
    | isFalse h, _ => isFalse (fun e => by cases e; exact h rfl)
    | _, isFalse h => isFalse (fun e => by cases e; exact h rfl)
def pairsDecEq : (a b : List (Value × Value)) → Decidable (a = b)
  | [], [] => isTrue rfl
  | [], _ :: _ => isFalse nofun
  | _ :: _, [] => isFalse nofun
  | a :: x, b :: y => match pairDecEq a b, pairsDecEq x y with
    | isTrue h, isTrue h' => isTrue (by rw [h, h'])
    | isFalse h, _ => isFalse (fun e => by cases e; exact h rfl)
    | _, isFalse h => isFalse (fun e => by cases e; exact h rfl)
def pairDecEq : (a b : Value × Value) → Decidable (a = b)
  | (a, a'), (b, b') => match Value.decEq a b, Value.decEq a' b' with
    | isTrue h, isTrue h' => isTrue (by rw [h, h'])
    | isFalse h, _ => isFalse (fun e => by cases e; exact h rfl)
    | _, isFalse h => isFalse (fun e => by cases e; exact h rfl)
end
instance : DecidableEq Value := Value.decEq

/-- `EnumValue` (tools/thriftfile/nodes.go:93-99) -/
structure EnumValue where
  name : Bytes
  value : Option Bytes
  annotations : Annotations
  deriving DecidableEq, Repr

/-- `Field` (tools/thriftfile/nodes.go:118-129) -/
structure Field where
  id : Option Bytes
  required : Bool
  optional : Bool
  type : TypeNode
  reference : Bool
  name : Bytes
  default : Option Value
  annotations : Annotations
  deriving DecidableEq, Repr

/-- `Method` (tools/thriftfile/nodes.go:147-157) -/
structure Method where
  oneWay : Bool
  void : Bool
  ret : Option TypeNode
  name : Bytes
  arguments : List Field
  throws : Option (List Field)
  annotations : Annotations
  deriving DecidableEq, Repr

/-- `Def` (tools/thriftfile/nodes.go:50-91, 108-116, 138-145) -/
inductive Def where
  | bad (from_ to : Nat)
  | const (type : TypeNode) (name : Bytes) (value : Value)
  | typedef (type : TypeNode) (name : Bytes) (annotations : Annotations)
  | enum (name : Bytes) (values : List EnumValue) (annotations : Annotations)
  | struct (union exception : Bool) (name : Bytes) (fields : List Field) (annotations : Annotations)
  | service (name : Bytes) (extends_ : Option Bytes) (methods : List Method) (annotations : Annotations)
  deriving DecidableEq, Repr

/-- `File` (tools/thriftfile/nodes.go:17-21) -/
structure File where
  headers : List Header
  defs : List Def
  deriving DecidableEq, Repr

end GoThrift.Idl
