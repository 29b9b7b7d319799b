import Verif.Model.Wire

/-!
# internal/thriftmemo: a Reader and a Writer that record

`Reset` and `Flush` of the two interfaces panic with "unsupported" (zmemo.go:179-181, 201-207) and are not modelled. The counters are natural numbers and do not wrap.
-/

namespace GoThrift

/-- A recorded argument: an `any` with its dynamic type. (Whether a byte slice is nil is not modelled, and neither is that the recorded slice is the caller's.) -/
inductive MVal where
  | bool (v : Bool)
  | byte (v : BitVec 8)
  | bytes (v : Bytes)
  | double (v : BitVec 64)
  | fieldHeader (h : FieldHeader)
  | i16 (v : BitVec 16)
  | i32 (v : BitVec 32)
  | i64 (v : BitVec 64)
  | listHeader (h : SetHeader)
  | mapHeader (h : MapHeader)
  | messageHeader (h : MessageHeader)
  | setHeader (h : SetHeader)
  | string (v : Bytes)
  | structHeader (name : Bytes)
  | uuid (v : Bytes)
  deriving DecidableEq, Repr

/-- `thriftmemo.Memo` (internal/thriftmemo/memo.go:16-22) -/
structure Memo where
  breakpoint : Int := 0
  r : Nat := 0
  w : Nat := 0
  steps : List String := []
  values : List (List MVal) := []
  deriving DecidableEq, Repr

namespace Memo

/-- `Memo.Reset` (memo.go:25-30) -/
def reset (_m : Memo) : Memo := {}

/-- `Memo.Steps` (memo.go:33-35) -/
def Steps (m : Memo) : List String := m.steps

/-- The condition in `Memo.advance` (memo.go:70): the counter `p` may not be increased. -/
def atBreak (m : Memo) (p : Nat) : Bool := m.breakpoint > 0 && (p : Int) + 1 ≥ m.breakpoint

/-- `memoWriter.advance` (memo.go:93-95, 69-75) -/
def advanceW (m : Memo) : Option Memo := if m.atBreak m.w then none else some { m with w := m.w + 1 }

/-- `memoReader.advance` (memo.go:83-85, 69-75) -/
def advanceR (m : Memo) : Option Memo := if m.atBreak m.r then none else some { m with r := m.r + 1 }

/-- `Memo.write` (memo.go:64-67) -/
def write (m : Memo) (step : String) (values : List MVal) : Memo := { m with steps := m.steps ++ [step], values := m.values ++ [values] }

/-- `Memo.read` up to the loop (memo.go:53-58) -/
def check (m : Memo) (step : String) : Out Memo :=
  let steps := m.steps ++ [step]
  match steps[m.r - 1]? with
  | none => .panicked
  | some want => if step ≠ want then .panicked else .done { m with steps := steps }

/-- `Memo.read` (memo.go:53-62) with no values to set -/
def read0 (m : Memo) (step : String) : Out (Except Err Unit × Memo) := (m.check step).bind fun m => .done (.ok (), m)

/-- `Memo.read` (memo.go:53-62) with one value to set; `as` is its type: `reflect.Value.Set` panics unless the recorded value is of that type. -/
def read1 {α : Type} (m : Memo) (step : String) (as : MVal → Option α) : Out (Except Err α × Memo) :=
  (m.check step).bind fun m => match m.values[m.r - 1]? with
    | some (v :: _) => match as v with
      | some a => .done (.ok a, m)
      | none => .panicked
    | _ => .panicked

/-- The methods of `memoReader` after `advance` (zmemo.go:11-199). ReadBytes ignores its argument. -/
def readStep (m : Memo) : (o : ROp) → Out (Except Err o.Ans × Memo)
  | .bool => m.read1 "Bool" fun | .bool v => some v | _ => none
  | .byte => m.read1 "Byte" fun | .byte v => some v | _ => none
  | .bytes _ => m.read1 "Bytes" fun | .bytes v => some v | _ => none
  | .double => m.read1 "Double" fun | .double v => some v | _ => none
  | .fieldBegin => m.read1 "FieldBegin" fun | .fieldHeader h => some h | _ => none
  | .fieldEnd => m.read0 "FieldEnd"
  | .i16 => m.read1 "I16" fun | .i16 v => some v | _ => none
  | .i32 => m.read1 "I32" fun | .i32 v => some v | _ => none
  | .i64 => m.read1 "I64" fun | .i64 v => some v | _ => none
  | .listBegin => m.read1 "ListBegin" fun | .listHeader h => some h | _ => none
  | .listEnd => m.read0 "ListEnd"
  | .mapBegin => m.read1 "MapBegin" fun | .mapHeader h => some h | _ => none
  | .mapEnd => m.read0 "MapEnd"
  | .messageBegin => m.read1 "MessageBegin" fun | .messageHeader h => some h | _ => none
  | .messageEnd => m.read0 "MessageEnd"
  | .setBegin => m.read1 "SetBegin" fun | .setHeader h => some h | _ => none
  | .setEnd => m.read0 "SetEnd"
  | .string => m.read1 "String" fun | .string v => some v | _ => none
  | .structBegin => m.read1 "StructBegin" fun | .structHeader h => some h | _ => none
  | .structEnd => m.read0 "StructEnd"
  | .uuid => m.read1 "UUID" fun | .uuid v => some v | _ => none
  | .skipString => m.read1 "String" fun | .string _ => some () | _ => none
  | .skipUUID => m.read1 "UUID" fun | .uuid _ => some () | _ => none

/-- `Memo.Reader` (memo.go:41-43; zmemo.go:11-199) -/
def reader : Rdr Memo where
  step o m := match m.advanceR with
    | none => .done (.error .brk, m)
    | some m => m.readStep o

/-- `if o0 = m.advance(); o0 != nil { return }; m.memo().write(step, values...)`, then `k` -/
def record (m : Memo) (step : String) (values : List MVal) (k : Memo → Option Err × Memo) : Option Err × Memo :=
  match m.advanceW with
  | none => (some .brk, m)
  | some m => k (m.write step values)

/-- The methods of `memoWriter` (zmemo.go:209-379) -/
def writeStep (m : Memo) (o : WOp) : Option Err × Memo :=
  let last (m : Memo) : Option Err × Memo := (none, m)
  match o with
  | .bool v => m.record "Bool" [.bool v] last
  | .byte v => m.record "Byte" [.byte v] last
  | .bytes v => m.record "Bytes" [.bytes v] last
  | .double v => m.record "Double" [.double v] last
  | .fieldBegin h => m.record "FieldBegin" [.fieldHeader h] last
  | .fieldEnd => m.record "FieldEnd" [] last
  | .i16 v => m.record "I16" [.i16 v] last
  | .i32 v => m.record "I32" [.i32 v] last
  | .i64 v => m.record "I64" [.i64 v] last
  | .listBegin h => m.record "ListBegin" [.listHeader h] last
  | .listEnd => m.record "ListEnd" [] last
  | .mapBegin h => m.record "MapBegin" [.mapHeader h] last
  | .mapEnd => m.record "MapEnd" [] last
  | .messageBegin h => m.record "MessageBegin" [.messageHeader h] last
  | .messageEnd => m.record "MessageEnd" [] last
  | .setBegin h => m.record "SetBegin" [.setHeader h] last
  | .setEnd => m.record "SetEnd" [] last
  | .string v => m.record "String" [.string v] last
  | .structBegin n => m.record "StructBegin" [.structHeader n] last
  | .structEnd => m.record "FieldBegin" [.fieldHeader ⟨[], Ty.stop, 0⟩] fun m => m.record "StructEnd" [] last
  | .uuid v => m.record "UUID" [.uuid v] last

/-- `Memo.Writer` (memo.go:49-51; zmemo.go:209-379) -/
def writer : Wtr Memo where
  step o m := .done (m.writeStep o)

end Memo

end GoThrift
