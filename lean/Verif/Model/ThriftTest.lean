import Verif.Model.Arshal
import Verif.Model.Stream

/-!
# `thrifttest.TestProtocol` (testing/thrifttest/protocol.go)

A test of a protocol: it writes messages to a `bytes.Buffer` and reads them back. The `bytes.Buffer` is shared by the writer, the reader and the test itself, so it is put into the writer or the
reader whenever one of them runs, and taken out afterwards.
-/

namespace GoThrift.ThriftTest

/-- `*bytes.Buffer` as an `io.Writer`; its state is its unread part. It is an `io.StringWriter` and no `thriftwire.Flusher`. (It panics if it becomes too large; not modelled.) -/
def bufferW : Transport Bytes where
  write b p := ((p.length, none), b ++ p)
  isStringWriter _ := true
  writeString b p := ((p.length, none), b ++ p)
  isFlusher _ := false
  flush b := (none, b)

/-- `*bytes.Buffer` as an `io.Reader`: it gives as much as it can, and `io.EOF` if it is empty. -/
def bufferR (b : Bytes) : Source := ⟨b, .err .eof, fun _ => (b.length + 1, false), 0⟩

/-- A protocol (encoding/thriftwire/protocol.go:9-17) whose writer and reader are built on `bufio`: the methods, `NewWriter`, `NewReader` and both `Reset`s. -/
structure Protocol (C R : Type) where
  wimpl : WOp → WM C Unit
  rdr : Rdr (R × BufReader)
  newW : Bytes → PW C Bytes
  resetW : PW C Bytes → Bytes → PW C Bytes
  newR : Source → R × BufReader
  resetR : R × BufReader → Source → R × BufReader

/-- The binary protocol (thriftbinary.go:20-59), strict or not. -/
def binary (strict : Bool) : Protocol Unit Unit where
  wimpl := Binary.wimpl strict
  rdr := Binary.bufReader strict
  newW := Binary.newPW 4096
  resetW := Binary.resetPW
  newR := Binary.newBR 4096
  resetR := Binary.resetBR

/-- The compact protocol (thriftcompact.go:20-32). -/
def compact : Protocol Compact.WState Compact.RState where
  wimpl := Compact.wimpl
  rdr := Compact.bufReader
  newW := Compact.newPW 4096
  resetW := Compact.resetPW
  newR := Compact.newBR
  resetR := Compact.resetBR

/-- The variables of `TestProtocol` (protocol.go:49-53), and: how often Marshal has been called, and has the test failed? -/
structure State (C R : Type) where
  msg : MessageHeader
  b : Bytes
  w : PW C Bytes
  r : R × BufReader
  marshals : Nat
  failed : Bool

/-- A part of the test: it returns or ends the subtest (`none`). -/
def TM (C R α : Type) : Type := State C R → Out (Option α × State C R)

namespace TM
variable {C R α β : Type}

/-- return -/
def ret (a : α) : TM C R α := fun s => .done (some a, s)

/-- one after the other -/
def bind (m : TM C R α) (f : α → TM C R β) : TM C R β := fun s => (m s).bind fun x => match x.1 with
  | some a => f a x.2
  | none => .done (none, x.2)

instance : Monad (TM C R) where
  pure := ret
  bind := bind

/-- `t.Errorf` -/
def errorf : TM C R Unit := fun s => .done (some (), { s with failed := true })

/-- `t.Fatal`, `t.Fatalf` -/
def fatal : TM C R α := fun s => .done (none, { s with failed := true })

/-- `t.Skipf` -/
def skipf : TM C R α := fun s => .done (none, s)

/-- the variables -/
def get : TM C R (State C R) := fun s => .done (some s, s)

/-- assignments -/
def set (f : State C R → State C R) : TM C R Unit := fun s => .done (some (), f s)

/-- `if err != nil { t.Fatal(err) }` -/
def check : Option Err → TM C R Unit
  | none => pure ()
  | some _ => fatal

/-- `if c { m }` -/
def whenever (c : Prop) [Decidable c] (m : TM C R Unit) : TM C R Unit := if c then m else pure ()

/-- Use the writer, on the buffer. -/
def writer (f : PW C Bytes → Out (Option Err × PW C Bytes)) : TM C R (Option Err) := fun s =>
  (f { s.w with b := { s.w.b with wr := s.b } }).bind fun x => .done (some x.1, { s with w := x.2, b := x.2.b.wr })

/-- Use the reader, on the buffer. -/
def reader (P : Protocol C R) (p : RProg α) : TM C R α := fun s =>
  (p.run P.rdr (s.r.1, { s.r.2 with src := bufferR s.b })).bind fun x => .done (some x.1, { s with r := x.2, b := x.2.2.src.data })

/-- `for i := 0; i < n; i++ { ... }` -/
def times (m : TM C R Unit) : Nat → TM C R Unit
  | 0 => pure ()
  | n + 1 => do m; times m n

end TM

open TM

variable {C R : Type}

/-- The argument of Marshal, with the entries of maps in the order in which the n-th Marshal will come across them. -/
def ordered (ord : Nat → GoVal → GoVal) (n : Nat) : AnyVal → AnyVal
  | .nil => .nil
  | .val t v => .val t (ord n v)

/-- `marshal(t, w, msg, in)` (protocol.go:226-240) -/
def marshal (P : Protocol C R) (env : Env) (ord : Nat → GoVal → GoVal) (fuel : Nat) (x : AnyVal) : TM C R Unit := do
  let s ← get
  check (← writer fun w => (PW.wtr bufferW P.wimpl).step (.messageBegin s.msg) w)
  check (← writer fun w => (Marshal env fuel (ordered ord s.marshals x)).run (PW.wtr bufferW P.wimpl) w)
  set fun s => { s with marshals := s.marshals + 1 }
  check (← writer fun w => (PW.wtr bufferW P.wimpl).step .messageEnd w)
  check (← writer fun w => .done (w.flush bufferW))

/-- An element of the table (protocol.go:55-61); `t` is the type of `in` and `p` the type of pointers to it. -/
structure Case where
  name : Bytes
  t : TypeId
  p : TypeId
  val : GoVal
  hasUUID : Bool := false
  hasMap : Bool := false

/-- `isMessageNameEqual` (protocol.go:39-41) -/
def isMessageNameEqual (x y : Bytes) : Bool := x == y || x == [] || y == []

/-- `isMessageHeaderEqual` (protocol.go:43-45) -/
def isMessageHeaderEqual (x y : MessageHeader) : Bool := x.type == y.type && x.id == y.id && isMessageNameEqual x.name y.name

/-- What is done with the header that was read (protocol.go:182-186) -/
def header : Except Err MessageHeader → TM C R Unit
  | .error _ => fatal
  | .ok h => do whenever (isMessageHeaderEqual h (← get).msg = false) errorf

/-- One subtest (protocol.go:167-222) -/
def subtest (P : Protocol C R) (env : Env) (ord : Nat → GoVal → GoVal) (fuel : Nat) (uuid : Bool) (tt : Case) : TM C R Unit := do
  whenever (tt.hasUUID = true ∧ uuid = false) skipf
  set fun s => { s with msg := { name := tt.name, type := s.msg.type % 4 + 1, id := s.msg.id + 1 } }
  set fun s => { s with w := P.resetW s.w s.b }
  marshal P env ord fuel (.val tt.t tt.val)
  let want := (← get).b
  set fun s => { s with r := P.resetR s.r (bufferR s.b) }
  header (← reader P (.call .messageBegin .ret))
  let x ← reader P (Unmarshal env fuel (.val tt.p (.ptr (env.zero tt.t))))
  check x.2
  check (errOf (← reader P (.call .messageEnd .ret)))
  whenever ((← get).b.length ≠ 0) fatal
  whenever (tt.hasMap = false) (times (do
    set fun s => { s with b := [] }
    marshal P env ord fuel x.1
    whenever ((← get).b ≠ want) errorf) 3)
  set fun s => { s with r := P.resetR s.r (bufferR s.b) }
  times (do
    set fun s => { s with b := s.b ++ want }
    check (errOf (← reader P (.call .messageBegin .ret)))
    check (← reader P (skip fuel Ty.struct))
    check (errOf (← reader P (.call .messageEnd .ret)))) 3
  set fun s => { s with b := [] }

/-- The loop over the table (protocol.go:55-223): a subtest that has failed does not keep the others from running. -/
def subtests (P : Protocol C R) (env : Env) (ord : Nat → GoVal → GoVal) (fuel : Nat) (uuid : Bool) : List Case → State C R → Out (State C R)
  | [], s => .done s
  | tt :: l, s => (subtest P env ord fuel uuid tt s).bind fun x => subtests P env ord fuel uuid l x.2

/-- `TestProtocol` (protocol.go:48-224) with any table; does it pass? -/
def testProtocol (P : Protocol C R) (env : Env) (ord : Nat → GoVal → GoVal) (fuel : Nat) (uuid : Bool) (table : List Case) : Out Bool :=
  (subtests P env ord fuel uuid table ⟨⟨[], 0, 0⟩, [], P.newW [], P.newR (bufferR []), 0, false⟩).bind fun s => .done (!s.failed)

/-! ## The table -/

/-- A tagged, exported field. -/
def fld (name tag : String) (t : TypeId) : FieldDecl := ⟨ascii name, true, some (ascii tag), t⟩

/-- The types of the table (protocol.go:18-37 and 74-152; thrift.Set and thrift.List: thrift/doc.go:10-17), and pointers to them. -/
def type : TypeId → GoType
  | 0 => { name := ascii "boolStruct", kind := .struct [fld "Bool" "1,required" 10] }
  | 1 => { name := ascii "floatStruct", kind := .struct [fld "Float32" "1" 11, fld "Float64" "2" 12] }
  | 2 => { name := ascii "intStruct", kind := .struct [fld "Int16" "1" 13, fld "Int32" "2" 14, fld "Int64" "3" 15] }
  | 3 => { name := ascii "testStruct", kind := .struct [fld "Struct" "1" 33, fld "String" "2" 16, fld "Bytes" "3" 18] }
  | 4 => { name := [], kind := .struct [fld "Value" "1,required" 19] }
  | 5 => { name := [], kind := .struct [fld "Value" "1,required" 20] }
  | 6 => { name := [], kind := .struct [fld "Value" "1,required" 21] }
  | 7 => { name := [], kind := .struct [fld "UUID" "1,required" 22] }
  | 8 => { name := [], kind := .struct [fld "Set" "32" 23, fld "List" "64" 24] }
  | 9 => { name := [], kind := .struct [fld "Map" "0" 25] }
  | 10 => { name := ascii "bool", kind := .bool }
  | 11 => { name := ascii "float32", kind := .float32 }
  | 12 => { name := ascii "float64", kind := .float64 }
  | 13 => { name := ascii "int16", kind := .int16 }
  | 14 => { name := ascii "int32", kind := .int32 }
  | 15 => { name := ascii "int64", kind := .int64 }
  | 16 => { name := ascii "string", kind := .string }
  | 17 => { name := ascii "uint8", kind := .uint8 }
  | 18 => { name := [], kind := .slice 17, isBytes := true }
  | 19 => { name := [], kind := .map 16 16 }
  | 20 => { name := ascii "Set[string]", kind := .slice 16, isSet := true }
  | 21 => { name := ascii "List[string]", kind := .slice 16, isList := true }
  | 22 => { name := [], kind := .uuid }
  | 23 => { name := ascii "Set[bool]", kind := .slice 10, isSet := true }
  | 24 => { name := ascii "List[bool]", kind := .slice 10, isList := true }
  | 25 => { name := [], kind := .map 16 10 }
  | 30 => { name := [], kind := .ptr 0 }
  | 31 => { name := [], kind := .ptr 1 }
  | 32 => { name := [], kind := .ptr 2 }
  | 33 => { name := [], kind := .ptr 3 }
  | 34 => { name := [], kind := .ptr 4 }
  | 35 => { name := [], kind := .ptr 5 }
  | 36 => { name := [], kind := .ptr 6 }
  | 37 => { name := [], kind := .ptr 7 }
  | 38 => { name := [], kind := .ptr 8 }
  | 39 => { name := [], kind := .ptr 9 }
  | _ => { name := [], kind := .other }

/-- A value of type `testStruct` (protocol.go:33-37) -/
def nested (n : String) (next : GoVal) : GoVal := .struct [next, .str (ascii n), .bytes (some (ascii n))]

/-- `[]string{"hello", "world"}`. -/
def hello : GoVal := .slice [.str (ascii "hello"), .str (ascii "world")] []

/-- The map of the last element of the table (protocol.go:155-161) -/
def letters : GoVal := .map ((List.range 26).map fun i => (.str [BitVec.ofNat 8 (0x41 + i)], .bool true))

/-- The table (protocol.go:61-166) -/
def table : List Case := [
  { name := ascii "False", t := 0, p := 30, val := .struct [.bool false] },
  { name := ascii "True", t := 0, p := 30, val := .struct [.bool true] },
  { name := ascii "SmallestNonzeroFloats", t := 1, p := 31, val := .struct [.f32 1, .f64 1] },
  { name := ascii "MaxFloats", t := 1, p := 31, val := .struct [.f32 0x7f7fffff, .f64 0x7fefffffffffffff] },
  { name := ascii "MinInts", t := 2, p := 32, val := .struct [.i16 0x8000, .i32 0x80000000, .i64 0x8000000000000000] },
  { name := ascii "MaxInts", t := 2, p := 32, val := .struct [.i16 0x7fff, .i32 0x7fffffff, .i64 0x7fffffffffffffff] },
  { name := ascii "ZeroStringMap", t := 4, p := 34, val := .struct [.mapNil] },
  { name := ascii "StringMap", t := 4, p := 34, val := .struct [.map [(.str (ascii "hello"), .str (ascii "world"))]] },
  { name := ascii "ZeroStringSet", t := 5, p := 35, val := .struct [.sliceNil] },
  { name := ascii "StringSet", t := 5, p := 35, val := .struct [hello] },
  { name := ascii "ZeroStringList", t := 6, p := 36, val := .struct [.sliceNil] },
  { name := ascii "StringList", t := 6, p := 36, val := .struct [hello] },
  { name := ascii "UUID", t := 7, p := 37, val := .struct [.uuid (List.replicate 16 0)], hasUUID := true },
  { name := ascii "NestedStruct", t := 3, p := 33, val := nested "1" (.ptr (nested "2" (.ptr (nested "3" .ptrNil)))) },
  { name := ascii "LargeSetListOfBools", t := 8, p := 38, val := .struct [.slice (List.replicate 64 (.bool false)) [], .slice (List.replicate 64 (.bool false)) []] },
  { name := ascii "LargeMapOfBools", t := 9, p := 39, val := .struct [letters], hasMap := true }]

end GoThrift.ThriftTest
