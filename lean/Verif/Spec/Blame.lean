import Verif.Spec.Decode
import Verif.Spec.Arshal

/-!
# What the errors of Marshal and Unmarshal may say
-/

namespace GoThrift.Spec

/-- The name of a Reader method. -/
def readName : ROp → String
  | .messageBegin => "ReadMessageBegin"
  | .messageEnd => "ReadMessageEnd"
  | .structBegin => "ReadStructBegin"
  | .structEnd => "ReadStructEnd"
  | .fieldBegin => "ReadFieldBegin"
  | .fieldEnd => "ReadFieldEnd"
  | .mapBegin => "ReadMapBegin"
  | .mapEnd => "ReadMapEnd"
  | .setBegin => "ReadSetBegin"
  | .setEnd => "ReadSetEnd"
  | .listBegin => "ReadListBegin"
  | .listEnd => "ReadListEnd"
  | .bool => "ReadBool"
  | .byte => "ReadByte"
  | .double => "ReadDouble"
  | .i16 => "ReadI16"
  | .i32 => "ReadI32"
  | .i64 => "ReadI64"
  | .string => "ReadString"
  | .bytes _ => "ReadBytes"
  | .uuid => "ReadUUID"
  | .skipString => "SkipString"
  | .skipUUID => "SkipUUID"

/-- The Thrift type of the values that a Reader method has to do with (Stop for messages, which are no values). -/
def readType : ROp → WType
  | .messageBegin | .messageEnd => Ty.stop
  | .structBegin | .structEnd | .fieldBegin | .fieldEnd => Ty.struct
  | .mapBegin | .mapEnd => Ty.map
  | .setBegin | .setEnd => Ty.set
  | .listBegin | .listEnd => Ty.list
  | .bool => Ty.bool
  | .byte => Ty.byte
  | .double => Ty.double
  | .i16 => Ty.i16
  | .i32 => Ty.i32
  | .i64 => Ty.i64
  | .string | .bytes _ | .skipString => Ty.string
  | .uuid | .skipUUID => Ty.uuid

/-- The Thrift type of the values that a Writer method has to do with. -/
def writeType : WOp → WType
  | .messageBegin _ | .messageEnd => Ty.stop
  | .structBegin _ | .structEnd | .fieldBegin _ | .fieldEnd => Ty.struct
  | .mapBegin _ | .mapEnd => Ty.map
  | .setBegin _ | .setEnd => Ty.set
  | .listBegin _ | .listEnd => Ty.list
  | .bool _ => Ty.bool
  | .byte _ => Ty.byte
  | .double _ => Ty.double
  | .i16 _ => Ty.i16
  | .i32 _ => Ty.i32
  | .i64 _ => Ty.i64
  | .string _ | .bytes _ => Ty.string
  | .uuid _ => Ty.uuid

/-- `t` maps to the wire type `w`, and is not a pointer type. -/
def MapsTo (env : Env) (t : TypeId) (w : WType) : Prop := WireTypeOf env t w ∧ ∀ e, (env.type t).kind ≠ .ptr e

/-- A struct type with a field that is neither ignored nor tagged properly, or with fields none of which has a tag. -/
def BadStruct (env : Env) (t : TypeId) : Prop := ∃ fs, (env.type t).kind = .struct fs ∧
  ((∃ f ∈ fs, ¬ Ignored f ∧ ∀ id required, ¬ Declares env f id required) ∨ (fs ≠ [] ∧ ∀ f ∈ fs, f.tag = none))

/-- The error says rightly why a value of type `t0` cannot be unmarshalled: it names a type that is part of `t0`, and -/
inductive UnmarshalBlames (env : Env) (t0 : TypeId) : Err → Prop where
  /-- the wire type that was found, which is not the one the Go type maps to; -/
  | mismatch {t : TypeId} {w found : WType} : Within env t t0 → MapsTo env t w → found ≠ w → UnmarshalBlames env t0 (.semantic .unmarshal found (some t))
  /-- the wire type that was found, and the Go type is of a kind that is not supported; -/
  | unsupported {t : TypeId} (found : WType) : Within env t t0 → (env.type t).kind = .other → UnmarshalBlames env t0 (.semantic .unmarshal found (some t))
  /-- what is wrong with its fields. -/
  | fields {t : TypeId} (cause : Err) : Within env t t0 → BadStruct env t → UnmarshalBlames env t0 (.semanticE .unmarshal Ty.stop (some t) cause)
  /-- Or it is about an unknown field, in a struct that is part of `t0`, whose wire type does not exist. -/
  | unknown {t : TypeId} (found : WType) : Within env t t0 → IsStruct env t → ¬ TVal.ValidTy found → UnmarshalBlames env t0 (.invalidType found)

/-- The error says rightly why a value of type `t0` cannot be marshalled: it names a type that is part of `t0`, and -/
inductive MarshalBlames (env : Env) (t0 : TypeId) : Err → Prop where
  /-- it cannot be handled; -/
  | unsupported {t : TypeId} : Within env t t0 → Unsupported env t → MarshalBlames env t0 (.semantic .marshal Ty.stop (some t))
  /-- it is a set or list of what cannot be handled; -/
  | elem {t e : TypeId} {w : WType} : Within env t t0 → (env.type t).kind = .slice e → MapsTo env t w → Unsupported env e → MarshalBlames env t0 (.semantic .marshal w (some t))
  /-- it is a map with keys or values that cannot be handled; -/
  | entry {t k e : TypeId} : Within env t t0 → (env.type t).kind = .map k e → Unsupported env k ∨ Unsupported env e → MarshalBlames env t0 (.semantic .marshal Ty.map (some t))
  /-- what is wrong with its fields. -/
  | fields {t : TypeId} (cause : Err) : Within env t t0 → BadStruct env t → MarshalBlames env t0 (.semanticE .marshal Ty.stop (some t) cause)

/-- What an error says if the call of `o` fails with `err` while a value of type `t0` is unmarshalled: the name of the method, and a Go type that is part of `t0` and maps to the Thrift type
that the method reads. If the call is on behalf of an unknown field, in a struct that is part of `t0`, it is the error of the call itself. -/
def ReadBlames (env : Env) (t0 : TypeId) (o : ROp) (err e : Err) : Prop :=
  (∃ t, Within env t t0 ∧ MapsTo env t (readType o) ∧ e = .semanticE .unmarshal (readType o) (some t) (.wire (readName o) err)) ∨
  (e = err ∧ ∃ t, Within env t t0 ∧ IsStruct env t)

/-- What an error says if the call of `o` fails with `err` while a value of type `t0` is marshalled: the name of the method, and a Go type that is part of `t0` and maps to the Thrift type that
the method writes. -/
def WriteBlames (env : Env) (t0 : TypeId) (o : WOp) (err e : Err) : Prop :=
  ∃ t, Within env t t0 ∧ MapsTo env t (writeType o) ∧ e = .semanticE .marshal (writeType o) (some t) (.wire (methodName o) err)

/-- The argument is nil, or a pointer that is nil; the Go type to be named is the one it should point to, if there is one. -/
inductive NilArgument (env : Env) : AnyVal → Option TypeId → Prop where
  | nil : NilArgument env .nil none
  | ptr {t e : TypeId} {v : GoVal} : (env.type t).kind = .ptr e → (∀ v', v ≠ .ptr v') → NilArgument env (.val t v) (some e)

/-- The argument is no pointer; the Go type to be named is its type. -/
def NoPointer (env : Env) (x : AnyVal) (g : Option TypeId) : Prop := ∃ t v, x = .val t v ∧ (∀ e, (env.type t).kind ≠ .ptr e) ∧ g = some t

/-- The cause that is given then. -/
def argumentCause : Err := .text "value must be passed as a non-nil pointer reference"

end GoThrift.Spec
