import Verif.Model.Wire

/-!
# thrift/errors.go: the texts of errors
-/

namespace GoThrift

/-- What the texts depend on: the names of Go types (`reflect.Type.String`) and the texts of errors that are not from package thrift's errors.go. -/
structure Texts where
  goType : Nat → String
  other : Err → String

/-- The name in the message of a Thrift type (thrift/errors.go:78-105) -/
def thriftTypeText (tt : WType) : Option String :=
  if tt = Ty.bool then some " Thrift bool"
  else if tt = Ty.byte then some " Thrift byte"
  else if tt = Ty.double then some " Thrift double"
  else if tt = Ty.i16 then some " Thrift i16"
  else if tt = Ty.i32 then some " Thrift i32"
  else if tt = Ty.i64 then some " Thrift i64"
  else if tt = Ty.string then some " Thrift string"
  else if tt = Ty.struct then some " Thrift struct"
  else if tt = Ty.map then some " Thrift map"
  else if tt = Ty.set then some " Thrift set"
  else if tt = Ty.list then some " Thrift list"
  else if tt = Ty.uuid then some " Thrift UUID"
  else none

/-- `SemanticError.Error` (thrift/errors.go:48-118) without the underlying error; `phrase` is the key that the map iteration yields first. The action is never anything but
"marshal" or "unmarshal", so the default case of the first switch is left out. -/
def semanticText (n : Texts) (phrase : Bool) (action : Action) (tt : WType) (goType : Option Nat) : String :=
  let s := "thrift: " ++ (if phrase then "cannot" else "unable to")
  let s := s ++ match action with
    | .marshal => " marshal"
    | .unmarshal => " unmarshal"
  let preposition := match action with
    | .marshal => " from"
    | .unmarshal => " into"
  let s := match thriftTypeText tt with
    | some t => s ++ t
    | none => s
  match goType with
  | none => s
  | some t =>
    let s := if (thriftTypeText tt).isSome then s ++ preposition else s
    s ++ " Go value of type " ++ n.goType t

/-- `Error()` of an error; `phrases` are the outcomes of the map iterations, from the outermost error inwards. -/
def errorText (n : Texts) (phrases : Nat → Bool) : Err → String
  /- `wireError.Error` (thrift/errors.go:17-19) -/
  | .wire action err => "thrift: " ++ action ++ ": " ++ errorText n phrases err
  /- `SemanticError.Error` (thrift/errors.go:48-118) -/
  | .semantic action tt goType => semanticText n (phrases 0) action tt goType
  | .semanticE action tt goType err => semanticText n (phrases 0) action tt goType ++ ": " ++ errorText n (fun i => phrases (i + 1)) err
  | e => n.other e

end GoThrift
