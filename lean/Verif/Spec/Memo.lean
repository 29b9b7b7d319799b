import Verif.Model.Memo
import Verif.Spec.Holds

/-!
# What a Memo is to do
-/

namespace GoThrift.Spec

/-- A call of a Reader method, with the answer. -/
abbrev Answer := (o : ROp) × o.Ans

/-- The Reader calls that take back what a Writer call has put, with their answers: one each; WriteStructEnd puts a stop header and the end. -/
def takeBack : WOp → List Answer
  | .messageBegin h => [⟨.messageBegin, h⟩]
  | .messageEnd => [⟨.messageEnd, ()⟩]
  | .structBegin n => [⟨.structBegin, n⟩]
  | .structEnd => [⟨.fieldBegin, ⟨[], Ty.stop, 0⟩⟩, ⟨.structEnd, ()⟩]
  | .fieldBegin h => [⟨.fieldBegin, h⟩]
  | .fieldEnd => [⟨.fieldEnd, ()⟩]
  | .mapBegin h => [⟨.mapBegin, h⟩]
  | .mapEnd => [⟨.mapEnd, ()⟩]
  | .setBegin h => [⟨.setBegin, h⟩]
  | .setEnd => [⟨.setEnd, ()⟩]
  | .listBegin h => [⟨.listBegin, h⟩]
  | .listEnd => [⟨.listEnd, ()⟩]
  | .bool v => [⟨.bool, v⟩]
  | .byte v => [⟨.byte, v⟩]
  | .double v => [⟨.double, v⟩]
  | .i16 v => [⟨.i16, v⟩]
  | .i32 v => [⟨.i32, v⟩]
  | .i64 v => [⟨.i64, v⟩]
  | .string v => [⟨.string, v⟩]
  | .bytes v => [⟨.bytes [], v⟩]
  | .uuid v => [⟨.uuid, v⟩]

/-- The name of the step of a Reader call: the name of the method without "Read" (or "Skip"). -/
def stepName : ROp → String
  | .messageBegin => "MessageBegin"
  | .messageEnd => "MessageEnd"
  | .structBegin => "StructBegin"
  | .structEnd => "StructEnd"
  | .fieldBegin => "FieldBegin"
  | .fieldEnd => "FieldEnd"
  | .mapBegin => "MapBegin"
  | .mapEnd => "MapEnd"
  | .setBegin => "SetBegin"
  | .setEnd => "SetEnd"
  | .listBegin => "ListBegin"
  | .listEnd => "ListEnd"
  | .bool => "Bool"
  | .byte => "Byte"
  | .double => "Double"
  | .i16 => "I16"
  | .i32 => "I32"
  | .i64 => "I64"
  | .string | .skipString => "String"
  | .bytes _ => "Bytes"
  | .uuid | .skipUUID => "UUID"

/-- The answers that take back a sequence of Writer calls. -/
def takeAll (l : List WOp) : List Answer := l.flatMap takeBack

/-- The steps of a sequence of Writer calls. -/
def stepsOf (l : List WOp) : List String := (takeAll l).map fun a => stepName a.1

/-- The Reader gives these answers to these calls, in this order. -/
def Answers {S : Type} (r : Rdr S) : List Answer → S → S → Prop
  | [], s, s' => s' = s
  | a :: as, s, s' => ∃ s1, Gives r a.1 s a.2 s1 ∧ Answers r as s1 s'

end GoThrift.Spec
