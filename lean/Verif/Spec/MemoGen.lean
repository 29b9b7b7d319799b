import Verif.Spec.ZMemo

/-!
# Calling the generated methods
-/

namespace GoThrift

open MemoGen

/-- The name of the method. -/
def ROp.method : ROp → MemoGen.Text
  | .messageBegin => c! "ReadMessageBegin"
  | .messageEnd => c! "ReadMessageEnd"
  | .structBegin => c! "ReadStructBegin"
  | .structEnd => c! "ReadStructEnd"
  | .fieldBegin => c! "ReadFieldBegin"
  | .fieldEnd => c! "ReadFieldEnd"
  | .mapBegin => c! "ReadMapBegin"
  | .mapEnd => c! "ReadMapEnd"
  | .setBegin => c! "ReadSetBegin"
  | .setEnd => c! "ReadSetEnd"
  | .listBegin => c! "ReadListBegin"
  | .listEnd => c! "ReadListEnd"
  | .bool => c! "ReadBool"
  | .byte => c! "ReadByte"
  | .double => c! "ReadDouble"
  | .i16 => c! "ReadI16"
  | .i32 => c! "ReadI32"
  | .i64 => c! "ReadI64"
  | .string => c! "ReadString"
  | .bytes _ => c! "ReadBytes"
  | .uuid => c! "ReadUUID"
  | .skipString => c! "SkipString"
  | .skipUUID => c! "SkipUUID"

/-- An answer as a list of values with their types. -/
def ROp.returned : (o : ROp) → o.Ans → List MVal
  | .messageBegin, h => [.messageHeader h]
  | .messageEnd, _ => []
  | .structBegin, n => [.structHeader n]
  | .structEnd, _ => []
  | .fieldBegin, h => [.fieldHeader h]
  | .fieldEnd, _ => []
  | .mapBegin, h => [.mapHeader h]
  | .mapEnd, _ => []
  | .setBegin, h => [.setHeader h]
  | .setEnd, _ => []
  | .listBegin, h => [.listHeader h]
  | .listEnd, _ => []
  | .bool, v => [.bool v]
  | .byte, v => [.byte v]
  | .double, v => [.double v]
  | .i16, v => [.i16 v]
  | .i32, v => [.i32 v]
  | .i64, v => [.i64 v]
  | .string, v => [.string v]
  | .bytes _, v => [.bytes v]
  | .uuid, v => [.uuid v]
  | .skipString, _ => []
  | .skipUUID, _ => []

/-- The name of the method. -/
def WOp.method : WOp → MemoGen.Text
  | .messageBegin _ => c! "WriteMessageBegin"
  | .messageEnd => c! "WriteMessageEnd"
  | .structBegin _ => c! "WriteStructBegin"
  | .structEnd => c! "WriteStructEnd"
  | .fieldBegin _ => c! "WriteFieldBegin"
  | .fieldEnd => c! "WriteFieldEnd"
  | .mapBegin _ => c! "WriteMapBegin"
  | .mapEnd => c! "WriteMapEnd"
  | .setBegin _ => c! "WriteSetBegin"
  | .setEnd => c! "WriteSetEnd"
  | .listBegin _ => c! "WriteListBegin"
  | .listEnd => c! "WriteListEnd"
  | .bool _ => c! "WriteBool"
  | .byte _ => c! "WriteByte"
  | .double _ => c! "WriteDouble"
  | .i16 _ => c! "WriteI16"
  | .i32 _ => c! "WriteI32"
  | .i64 _ => c! "WriteI64"
  | .string _ => c! "WriteString"
  | .bytes _ => c! "WriteBytes"
  | .uuid _ => c! "WriteUUID"

/-- The arguments, for a pointer what it points to. -/
def WOp.args : WOp → List MVal
  | .messageBegin h => [.messageHeader h]
  | .structBegin n => [.structHeader n]
  | .fieldBegin h => [.fieldHeader h]
  | .mapBegin h => [.mapHeader h]
  | .setBegin h => [.setHeader h]
  | .listBegin h => [.listHeader h]
  | .bool v => [.bool v]
  | .byte v => [.byte v]
  | .double v => [.double v]
  | .i16 v => [.i16 v]
  | .i32 v => [.i32 v]
  | .i64 v => [.i64 v]
  | .string v => [.string v]
  | .bytes v => [.bytes v]
  | .uuid v => [.uuid v]
  | _ => []

namespace MemoGen

/-- The generated method of this name. -/
def find (body : Sig → Option (List Stmt)) (sigs : List Sig) (name : Text) : Option (Sig × List Stmt) := (sigs.find? fun s => s.name = name).bind fun s => (body s).map fun b => (s, b)

/-- Call the generated method of the Reader of this name. -/
def callR (sigs : List Sig) (name : Text) (m : Memo) : Out (Except Err (List MVal) × Memo) :=
  match find readerBody sigs name with
  | some (s, b) => execR s b [] [] m
  | none => .panicked

/-- Call the generated method of the Writer of this name. -/
def callW (sigs : List Sig) (name : Text) (ins : List MVal) (m : Memo) : Out (Option Err × Memo) :=
  match find writerBody sigs name with
  | some (_, b) => execW ins b m
  | none => .panicked

/-- Something that interfaces yet to be written may have methods for: parameters of `Write<step>`, and results of `Read<step>` besides its error. -/
structure Call where
  step : Text
  types : List Text
  vals : List MVal

/-- The values are of the types, and the generator does not treat the name specially. -/
def Call.Ok (c : Call) : Prop := c.vals.map typeOf = c.types.map typeString ∧ c.step ≠ c! "UUID" ∧ c.step ≠ c! "StructEnd"

/-- `Write<step>(types...) error` -/
def Call.writer (c : Call) : Sig := ⟨c! "Write" ++ c.step, c.types, [c! "error"]⟩

/-- `Read<step>() (types..., error)` -/
def Call.reader (c : Call) : Sig := ⟨c! "Read" ++ c.step, [], c.types ++ [c! "error"]⟩

/-- Call the methods of the Writer one after the other. -/
def writeAll (w : List Sig) : List Call → Memo → Out (Option Err × Memo)
  | [], m => .done (none, m)
  | c :: l, m => (callW w c.writer.name c.vals m).bind fun x => match x.1 with
    | some e => .done (some e, x.2)
    | none => writeAll w l x.2

/-- Call the methods of the Reader one after the other: what they return. -/
def readAll (r : List Sig) : List Call → Memo → Out (Except Err (List (List MVal)) × Memo)
  | [], m => .done (.ok [], m)
  | c :: l, m => (callR r c.reader.name m).bind fun x => match x.1 with
    | .error e => .done (.error e, x.2)
    | .ok vs => (readAll r l x.2).bind fun y => .done (y.1.map (vs :: ·), y.2)

end MemoGen

end GoThrift
