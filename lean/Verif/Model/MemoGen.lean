import Verif.Model.Memo

/-!
# The generator of zmemo.go (internal/thriftmemo/memogen.go)

It writes a Reader and a Writer for the methods that reflection finds in the two interfaces of encoding/thriftwire. Here a method is first made as a list of statements and then written as text. `gofmt` (`format.Source`)
and the writing of the file are not modelled. A type implements `error` if it is `error`, the only such type in the interfaces.
-/

namespace GoThrift.MemoGen

abbrev Text := List Char

/-- `c! "ab"` is `['a', 'b']` -/
scoped syntax "c!" str : term
macro_rules
  | `(c! $s) => do
    let cs := (s.getString.toList.map Lean.Syntax.mkCharLit).toArray
    `([$cs,*])

/-- `%d` -/
def number (n : Nat) : Text := Nat.toDigits 10 n

/-- A `reflect.Method` of an interface: its name, and the types of parameters and results as `reflect.Type.String` has them -/
structure Sig where
  name : Text
  ins : List Text
  outs : List Text
  deriving DecidableEq, Repr

/-- `strings.ReplaceAll(s, "uint8", "byte")` -/
def uint8ToByte : List Char → List Char
  | 'u' :: 'i' :: 'n' :: 't' :: '8' :: l => 'b' :: 'y' :: 't' :: 'e' :: uint8ToByte l
  | c :: l => c :: uint8ToByte l
  | [] => []

/-- `typeString` (internal/thriftmemo/memogen.go:76-78) -/
def typeString (t : Text) : Text := uint8ToByte t

/-- `strings.CutPrefix` -/
def cutPrefix (s p : Text) : Option Text := if p.isPrefixOf s then some (s.drop p.length) else none

/-- What is passed to `read` and `write`: `&o0`, `i0`, `*i0`, `&tmp`, and the header of a stop field. -/
inductive Arg where
  | out (i : Nat)
  | param (i : Nat)
  | deref (i : Nat)
  | tmp
  | stop
  deriving DecidableEq, Repr

/-- The statements that are generated. `advance` is `if o0 = m.advance(); o0 != nil { return }`. -/
inductive Stmt where
  | advance (o : Nat)
  | read (step : Text) (args : List Arg)
  | write (step : Text) (args : List Arg)
  | var (type : Text)
  | ret
  | panic (msg : Text)
  deriving DecidableEq, Repr

/-- `generateAdvance` (internal/thriftmemo/memogen.go:82-90); `none` is the panic -/
def advance (m : Sig) : Option Stmt := if m.outs.getLast? = some (c! "error") then some (.advance (m.outs.length - 1)) else none

/-- The body of a method of the Reader (internal/thriftmemo/memogen.go:98-124) -/
def readerBody (m : Sig) : Option (List Stmt) :=
  match cutPrefix m.name (c! "Read") with
  | some step => (advance m).bind fun a =>
    if step = c! "UUID" then some [a, .read step [.param 0], .ret]
    else some [a, .read step ((List.range (m.outs.length - 1)).map .out), .ret]
  | none => match cutPrefix m.name (c! "Skip") with
    | some step => (advance m).bind fun a =>
      if step = c! "String" then some [a, .var (c! "string"), .read step [.tmp], .ret]
      else if step = c! "UUID" then some [a, .var (c! "[16]byte"), .read step [.tmp], .ret]
      else none
    | none => some [.panic (c! "unsupported")]

/-- The body of a method of the Writer (internal/thriftmemo/memogen.go:135-153) -/
def writerBody (m : Sig) : Option (List Stmt) :=
  match cutPrefix m.name (c! "Write") with
  | some step => (advance m).bind fun a =>
    if step = c! "StructEnd" then some [a, .write (c! "FieldBegin") [.stop], a, .write step [], .ret]
    else if step = c! "UUID" then some [a, .write step [.deref 0], .ret]
    else some [a, .write step ((List.range m.ins.length).map .param), .ret]
  | none => some [.panic (c! "unsupported")]

/-! ## The text -/

/-- `%q` of a text without anything to escape -/
def quote (s : Text) : Text := c! "\"" ++ s ++ c! "\""

def Arg.text : Arg → Text
  | .out i => c! "&o" ++ number i
  | .param i => c! "i" ++ number i
  | .deref i => c! "*i" ++ number i
  | .tmp => c! "&tmp"
  | .stop => c! "thriftwire.FieldHeader{Name:\"\", Type:0x0, ID:0}"

/-- Each after a comma. -/
def argsText (l : List Arg) : Text := List.flatten (l.map fun a => c! ", " ++ a.text)

def Stmt.text : Stmt → Text
  | .advance o => c! "if o" ++ number o ++ c! " = m.advance(); o" ++ number o ++ c! " != nil {\nreturn\n}\n"
  | .read step args => c! "m.memo().read(" ++ quote step ++ argsText args ++ c! ")\n"
  | .write step args => c! "m.memo().write(" ++ quote step ++ argsText args ++ c! ")\n"
  | .var t => c! "var tmp " ++ t ++ c! "\n"
  | .ret => c! "return\n"
  | .panic msg => c! "panic(" ++ quote msg ++ c! ")\n"

/-- `i0 T, i1 T` (internal/thriftmemo/memogen.go:57-62, 66-71) -/
def params (prefix_ : Text) (l : List Text) : Text := List.intercalate (c! ", ") (l.zipIdx.map fun x => prefix_ ++ number x.2 ++ c! " " ++ typeString x.1)

/-- `generateMethod` (internal/thriftmemo/memogen.go:55-74) and the body -/
def method (recv : Text) (m : Sig) (body : List Stmt) : Text :=
  c! "func (" ++ recv ++ c! ") " ++ m.name ++ c! "(" ++ params (c! "i") m.ins ++ c! ")" ++ (if m.outs.length > 0 then (c! " (") ++ params (c! "o") m.outs ++ c! ")" else []) ++ c! "{\n" ++ List.flatten (body.map Stmt.text) ++ c! "}\n\n"

/-- The loop of `generateReader` and `generateWriter` (internal/thriftmemo/memogen.go:94-126, 131-155) -/
def methods (recv : Text) (body : Sig → Option (List Stmt)) : List Sig → Option Text
  | [] => some []
  | m :: l => (body m).bind fun b => (methods recv body l).bind fun t => some (method recv m b ++ t)

/-- `generate` (internal/thriftmemo/memogen.go:42-53), for the methods of the two interfaces -/
def generate (r w : List Sig) : Option Text :=
  (methods (c! "m *memoReader") readerBody r).bind fun tr => (methods (c! "m *memoWriter") writerBody w).bind fun tw => some (
    c! "// Code generated by " ++ quote (c! "go run tmemogen.go") ++ c! "; DO NOT EDIT.\n\n" ++ c! "package thriftmemo\n\n" ++ c! "import (\n" ++ quote (c! "io") ++ c! "\n" ++ c! "\n" ++
    quote (c! "github.com/itstarsun/go-thrift/encoding/thriftwire") ++ c! "\n" ++ c! ")\n\n" ++ tr ++ tw)

/-! ## The interfaces, in the order of reflection: by name -/

/-- `thriftwire.Reader` (encoding/thriftwire/protocol.go:39-64) -/
def readerSigs : List Sig := [
  ⟨c! "ReadBool", [], [c! "bool", c! "error"]⟩,
  ⟨c! "ReadByte", [], [c! "uint8", c! "error"]⟩,
  ⟨c! "ReadBytes", [c! "[]uint8"], [c! "[]uint8", c! "error"]⟩,
  ⟨c! "ReadDouble", [], [c! "float64", c! "error"]⟩,
  ⟨c! "ReadFieldBegin", [], [c! "thriftwire.FieldHeader", c! "error"]⟩,
  ⟨c! "ReadFieldEnd", [], [c! "error"]⟩,
  ⟨c! "ReadI16", [], [c! "int16", c! "error"]⟩,
  ⟨c! "ReadI32", [], [c! "int32", c! "error"]⟩,
  ⟨c! "ReadI64", [], [c! "int64", c! "error"]⟩,
  ⟨c! "ReadListBegin", [], [c! "thriftwire.ListHeader", c! "error"]⟩,
  ⟨c! "ReadListEnd", [], [c! "error"]⟩,
  ⟨c! "ReadMapBegin", [], [c! "thriftwire.MapHeader", c! "error"]⟩,
  ⟨c! "ReadMapEnd", [], [c! "error"]⟩,
  ⟨c! "ReadMessageBegin", [], [c! "thriftwire.MessageHeader", c! "error"]⟩,
  ⟨c! "ReadMessageEnd", [], [c! "error"]⟩,
  ⟨c! "ReadSetBegin", [], [c! "thriftwire.SetHeader", c! "error"]⟩,
  ⟨c! "ReadSetEnd", [], [c! "error"]⟩,
  ⟨c! "ReadString", [], [c! "string", c! "error"]⟩,
  ⟨c! "ReadStructBegin", [], [c! "thriftwire.StructHeader", c! "error"]⟩,
  ⟨c! "ReadStructEnd", [], [c! "error"]⟩,
  ⟨c! "ReadUUID", [c! "*[16]uint8"], [c! "error"]⟩,
  ⟨c! "Reset", [c! "io.Reader"], []⟩,
  ⟨c! "SkipString", [], [c! "error"]⟩,
  ⟨c! "SkipUUID", [], [c! "error"]⟩]

/-- `thriftwire.Writer` (encoding/thriftwire/protocol.go:74-98) -/
def writerSigs : List Sig := [
  ⟨c! "Flush", [], [c! "error"]⟩,
  ⟨c! "Reset", [c! "io.Writer"], []⟩,
  ⟨c! "WriteBool", [c! "bool"], [c! "error"]⟩,
  ⟨c! "WriteByte", [c! "uint8"], [c! "error"]⟩,
  ⟨c! "WriteBytes", [c! "[]uint8"], [c! "error"]⟩,
  ⟨c! "WriteDouble", [c! "float64"], [c! "error"]⟩,
  ⟨c! "WriteFieldBegin", [c! "thriftwire.FieldHeader"], [c! "error"]⟩,
  ⟨c! "WriteFieldEnd", [], [c! "error"]⟩,
  ⟨c! "WriteI16", [c! "int16"], [c! "error"]⟩,
  ⟨c! "WriteI32", [c! "int32"], [c! "error"]⟩,
  ⟨c! "WriteI64", [c! "int64"], [c! "error"]⟩,
  ⟨c! "WriteListBegin", [c! "thriftwire.ListHeader"], [c! "error"]⟩,
  ⟨c! "WriteListEnd", [], [c! "error"]⟩,
  ⟨c! "WriteMapBegin", [c! "thriftwire.MapHeader"], [c! "error"]⟩,
  ⟨c! "WriteMapEnd", [], [c! "error"]⟩,
  ⟨c! "WriteMessageBegin", [c! "thriftwire.MessageHeader"], [c! "error"]⟩,
  ⟨c! "WriteMessageEnd", [], [c! "error"]⟩,
  ⟨c! "WriteSetBegin", [c! "thriftwire.SetHeader"], [c! "error"]⟩,
  ⟨c! "WriteSetEnd", [], [c! "error"]⟩,
  ⟨c! "WriteString", [c! "string"], [c! "error"]⟩,
  ⟨c! "WriteStructBegin", [c! "thriftwire.StructHeader"], [c! "error"]⟩,
  ⟨c! "WriteStructEnd", [], [c! "error"]⟩,
  ⟨c! "WriteUUID", [c! "*[16]uint8"], [c! "error"]⟩]

/-! ## What the generated methods do -/

/-- The Go type of a recorded value. -/
def typeOf : MVal → Text
  | .bool _ => c! "bool"
  | .byte _ => c! "byte"
  | .bytes _ => c! "[]byte"
  | .double _ => c! "float64"
  | .fieldHeader _ => c! "thriftwire.FieldHeader"
  | .i16 _ => c! "int16"
  | .i32 _ => c! "int32"
  | .i64 _ => c! "int64"
  | .listHeader _ => c! "thriftwire.ListHeader"
  | .mapHeader _ => c! "thriftwire.MapHeader"
  | .messageHeader _ => c! "thriftwire.MessageHeader"
  | .setHeader _ => c! "thriftwire.SetHeader"
  | .string _ => c! "string"
  | .structHeader _ => c! "thriftwire.StructHeader"
  | .uuid _ => c! "[16]byte"

/-- The type of the variable that a pointer passed to `read` points to, in a method with the given variable `tmp`. -/
def Arg.target (m : Sig) (tmp : Text) : Arg → Option Text
  | .out i => (m.outs[i]?).map typeString
  | .param i => (m.ins[i]?).bind fun t => cutPrefix (typeString t) (c! "*")
  | .tmp => some tmp
  | _ => none

/-- The loop of `Memo.read` (internal/thriftmemo/memo.go:59-61), from the `i`th value on: what is stored in the results and where parameters point to. `reflect.Value.Set` panics if the types differ. -/
def assign (m : Sig) (tmp : Text) (memo : Memo) : Nat → List Arg → Out (List MVal)
  | _, [] => .done []
  | i, a :: l => match (memo.values[memo.r - 1]?).bind (fun vs => vs[i]?) with
    | none => .panicked
    | some v => if a.target m tmp = some (typeOf v) then (assign m tmp memo (i + 1) l).bind fun vs => .done (if a = .tmp then vs else v :: vs) else .panicked

/-- Execute a method of the Reader: its error, or what it returned or stored. -/
def execR (m : Sig) : List Stmt → Text → List MVal → Memo → Out (Except Err (List MVal) × Memo)
  | .ret :: _, _, vs, memo => .done (.ok vs, memo)
  | .var t :: b, _, vs, memo => execR m b t vs memo
  | .advance _ :: b, tmp, vs, memo => match memo.advanceR with
    | none => .done (.error .brk, memo)
    | some memo => execR m b tmp vs memo
  | .read step args :: b, tmp, vs, memo => (memo.check (String.ofList step)).bind fun memo => (assign m tmp memo 0 args).bind fun vs' => execR m b tmp (vs ++ vs') memo
  | _, _, _, _ => .panicked

/-- The value of an argument of `write`; the parameters are `ins`, for a pointer the array. -/
def Arg.value (ins : List MVal) : Arg → Option MVal
  | .param i => ins[i]?
  | .deref i => ins[i]?
  | .stop => some (.fieldHeader ⟨[], Ty.stop, 0⟩)
  | _ => none

/-- Execute a method of the Writer with the given parameters. -/
def execW (ins : List MVal) : List Stmt → Memo → Out (Option Err × Memo)
  | .ret :: _, memo => .done (none, memo)
  | .advance _ :: b, memo => match memo.advanceW with
    | none => .done (some .brk, memo)
    | some memo => execW ins b memo
  | .write step args :: b, memo => match args.mapM (Arg.value ins) with
    | some vs => execW ins b (memo.write (String.ofList step) vs)
    | none => .panicked
  | _, _ => .panicked

end GoThrift.MemoGen
