import Verif.Model.Scanner
import Verif.Model.Syntax

/-!
# The parser of .thrift files (tools/thriftfile/parser.go)

The functions of the parser are programs over the operations that they use of the scanner, so that they can be run on the scanner and on a given sequence of tokens. A
loop or recursion is given a number of rounds; if they do not suffice the program is `diverge`. `Parse` gives more rounds than the source has bytes; `C39_total` shows that
they suffice. Go's limit on the depth of the stack is not modelled. Nodes are values; which pointers of the tree are equal is not modelled (none are).
-/

namespace GoThrift.Idl

/-! ## Programs -/

/-- What the parser does with its scanner: look at the current token, its position and its text, advance (`parser.next`), report that something else is expected than
the current token (`errorExpected`). -/
inductive POp where
  | tok
  | pos
  | lit
  | next
  | expected (what : What)

/-- What an operation returns. -/
def POp.Ans : POp → Type
  | .tok => Token
  | .pos => Nat
  | .lit => Bytes
  | .next => Unit
  | .expected _ => Unit

/-- Programs that return a value or panic with `badDef{}`. -/
inductive PProg (α : Type) where
  | ret (a : α)
  | bad
  | diverge
  | call (o : POp) (k : o.Ans → PProg α)

namespace PProg

/-- Sequencing. -/
def bind {α β : Type} : PProg α → (α → PProg β) → PProg β
  | .ret a, f => f a
  | .bad, _ => .bad
  | .diverge, _ => .diverge
  | .call o k, f => .call o fun a => (k a).bind f

instance : Monad PProg where
  pure := .ret
  bind := .bind

/-- A deferred function that recovers from `badDef{}` with `h`. -/
def recover {α : Type} : PProg α → PProg α → PProg α
  | .ret a, _ => .ret a
  | .bad, h => h
  | .diverge, _ => .diverge
  | .call o k, h => .call o fun a => (k a).recover h

/-- One operation. -/
def op (o : POp) : PProg o.Ans := .call o .ret

end PProg

/-- What executes the operations. -/
structure Source (S : Type) where
  step : (o : POp) → S → Out (o.Ans × S)

/-- Run a program; `none` is the panic `badDef{}`. -/
def PProg.run {S α : Type} (r : Source S) : PProg α → S → Out (Option α × S)
  | .ret a, s => .done (some a, s)
  | .bad, s => .done (none, s)
  | .diverge, _ => .diverged
  | .call o k, s => (r.step o s).bind fun a => (k a.1).run r a.2

/-! ## The parser -/

/-- `p.tok` -/
def tok : PProg Token := .op .tok
/-- `p.pos` -/
def pos : PProg Nat := .op .pos
/-- `p.scanner.lit()` -/
def lit : PProg Bytes := .op .lit
/-- `p.next()` -/
def next : PProg Unit := .op .next
/-- `p.errorExpected(p.pos, …)`, the only way it is called -/
def errorExpected (what : What) : PProg Unit := .op (.expected what)

/-- `got` (tools/thriftfile/parser.go:107-113) -/
def got (t : Token) : PProg Bool := do
  if (← tok) = t then
    next
    pure true
  else pure false

/-- `want` (tools/thriftfile/parser.go:115-120) -/
def want (t : Token) : PProg Unit := do
  if ! (← got t) then
    errorExpected (.tok t)
    next

/-- `gotAssign` (tools/thriftfile/parser.go:133-142) -/
def gotAssign : PProg Bool := do
  if ← got Tk.assign then pure true
  else if (← tok) = Tk.eql then
    want Tk.assign
    pure true
  else pure false

/-- `if p.gotAssign() { x = f() }`, as in `enumValue`, `field` and `annotation` (tools/thriftfile/parser.go:297-299, 349-351, 505-507); `none` is nil. -/
def assigned {α : Type} (f : PProg α) : PProg (Option α) := do
  if ← gotAssign then
    let v ← f
    pure (some v)
  else pure none

/-- `if p.got(t) { x = f() }`, as in `service` and `method` (tools/thriftfile/parser.go:368-370, 388-390); `none` is nil. -/
def after {α : Type} (t : Token) (f : PProg α) : PProg (Option α) := do
  if ← got t then
    let v ← f
    pure (some v)
  else pure none

/-- `separator` (tools/thriftfile/parser.go:522-526) -/
def separator : Nat → PProg Unit
  | 0 => .diverge
  | n + 1 => do
    let t ← tok
    if t = Tk.comma ∨ t = Tk.semicolon then
      next
      separator n

/-- The loop of `list` (tools/thriftfile/parser.go:146-149); the closures passed as `f` append a value to a list. -/
def listLoop {α : Type} (close : Token) (f : PProg α) : Nat → PProg (List α)
  | 0 => .diverge
  | n + 1 => do
    let t ← tok
    if t ≠ Tk.eof ∧ t ≠ close then
      let x ← f
      separator n
      let l ← listLoop close f n
      pure (x :: l)
    else pure []

/-- `list` (tools/thriftfile/parser.go:144-151) -/
def list {α : Type} (n : Nat) (open_ close : Token) (f : PProg α) : PProg (List α) := do
  want open_
  let l ← listLoop close f n
  want close
  pure l

/-- `lit` (tools/thriftfile/parser.go:153-162) -/
def litOf (t : Token) : PProg Bytes := do
  if (← tok) = t then
    let l ← lit
    next
    pure l
  else
    want t
    pure []

/-- `ident` (tools/thriftfile/parser.go:164-168) -/
def ident : PProg Bytes := litOf Tk.ident
/-- `int` (tools/thriftfile/parser.go:170-174) -/
def int : PProg Bytes := litOf Tk.int
/-- `float` (tools/thriftfile/parser.go:176-180) -/
def float : PProg Bytes := litOf Tk.float
/-- `string` (tools/thriftfile/parser.go:182-186) -/
def string : PProg Bytes := litOf Tk.string

/-- `annotation` (tools/thriftfile/parser.go:502-509) -/
def annotation : PProg Annotation := do
  let name ← ident
  let v ← assigned string
  pure ⟨name, v⟩

/-- `annotations` (tools/thriftfile/parser.go:511-520) -/
def annotations (n : Nat) : PProg Annotations := do
  if (← tok) ≠ Tk.lparen then pure none
  else
    let l ← list n Tk.lparen Tk.rparen annotation
    pure (some l)

/-- `type_`, `typeRef`, `map_`, `set` and `list_` (tools/thriftfile/parser.go:403-456) -/
def type_ : Nat → PProg TypeNode
  | 0 => .diverge
  | n + 1 => do
    let t ← tok
    if t = Tk.map then
      want Tk.map
      want Tk.lss
      let k ← type_ n
      want Tk.comma
      let v ← type_ n
      want Tk.gtr
      let a ← annotations n
      pure (.map k v a)
    else if t = Tk.set then
      want Tk.set
      want Tk.lss
      let e ← type_ n
      want Tk.gtr
      let a ← annotations n
      pure (.set e a)
    else if t = Tk.list then
      want Tk.list
      want Tk.lss
      let e ← type_ n
      want Tk.gtr
      let a ← annotations n
      pure (.list e a)
    else if t = Tk.ident then
      let name ← ident
      let a ← annotations n
      pure (.ref name a)
    else
      errorExpected .type
      .bad

/-- `value`, `values`, `keyValuePair` and `keyValuePairs` (tools/thriftfile/parser.go:458-500) -/
def value : Nat → PProg Value
  | 0 => .diverge
  | n + 1 => do
    let t ← tok
    if t = Tk.ident then
      let x ← ident
      pure (.ident x)
    else if t = Tk.int then
      let x ← int
      pure (.int x)
    else if t = Tk.float then
      let x ← float
      pure (.float x)
    else if t = Tk.string then
      let x ← string
      pure (.string x)
    else if t = Tk.lbrack then
      let l ← list n Tk.lbrack Tk.rbrack (value n)
      pure (.list l)
    else if t = Tk.lbrace then
      let pair : PProg (Value × Value) := do
        let k ← value n
        want Tk.colon
        let v ← value n
        pure (k, v)
      let l ← list n Tk.lbrace Tk.rbrace pair
      pure (.pairs l)
    else
      errorExpected .value
      .bad

/-- `const_` (tools/thriftfile/parser.go:264-273) -/
def const_ (n : Nat) : PProg Def := do
  want Tk.const
  let t ← type_ n
  let name ← ident
  want Tk.assign
  let v ← value n
  separator n
  pure (.const t name v)

/-- `typedef` (tools/thriftfile/parser.go:275-283) -/
def typedef (n : Nat) : PProg Def := do
  want Tk.typedef
  let t ← type_ n
  let name ← ident
  let a ← annotations n
  separator n
  pure (.typedef t name a)

/-- `enumValue` (tools/thriftfile/parser.go:294-302) -/
def enumValue (n : Nat) : PProg EnumValue := do
  let name ← ident
  let v ← assigned int
  let a ← annotations n
  pure ⟨name, v, a⟩

/-- `enum` (tools/thriftfile/parser.go:285-292) and `enumValues` (304-310) -/
def enum (n : Nat) : PProg Def := do
  want Tk.enum
  let name ← ident
  let l ← list n Tk.lbrace Tk.rbrace (enumValue n)
  let a ← annotations n
  pure (.enum name l a)

/-- `fieldName` (tools/thriftfile/parser.go:323-332) -/
def fieldName : PProg Bytes := do
  let t ← tok
  if t = Tk.ident ∨ isKeyword t then
    let l ← lit
    next
    pure l
  else
    want Tk.ident
    pure []

/-- The `switch` of `field` (tools/thriftfile/parser.go:340-345): required and optional -/
def requiredness : PProg (Bool × Bool) := do
  if ← got Tk.required then pure (true, false)
  else if ← got Tk.optional then pure (false, true)
  else pure (false, false)

/-- The number of a field (tools/thriftfile/parser.go:336-339) -/
def fieldId : PProg (Option Bytes) := do
  if (← tok) = Tk.int then
    let i ← int
    want Tk.colon
    pure (some i)
  else pure none

/-- `field` (tools/thriftfile/parser.go:334-354) -/
def field (n : Nat) : PProg Field := do
  let id ← fieldId
  let r ← requiredness
  let t ← type_ n
  let reference ← got Tk.and
  let name ← fieldName
  let d ← assigned (value n)
  let a ← annotations n
  pure ⟨id, r.1, r.2, t, reference, name, d, a⟩

/-- `fields` (tools/thriftfile/parser.go:356-362) -/
def fields (n : Nat) (open_ close : Token) : PProg (List Field) := list n open_ close (field n)

/-- `struct_` (tools/thriftfile/parser.go:312-321) -/
def struct_ (n : Nat) (t : Token) : PProg Def := do
  want t
  let name ← ident
  let l ← fields n Tk.lbrace Tk.rbrace
  let a ← annotations n
  pure (.struct (t = Tk.union) (t = Tk.exception) name l a)

/-- What a method returns (tools/thriftfile/parser.go:381-385): `Void` and `Return` -/
def returnType (n : Nat) : PProg (Bool × Option TypeNode) := do
  if ← got Tk.void then pure (true, none)
  else
    let t ← type_ n
    pure (false, some t)

/-- `method` (tools/thriftfile/parser.go:376-393) -/
def method (n : Nat) : PProg Method := do
  let oneWay ← got Tk.oneway
  let ret ← returnType n
  let name ← ident
  let args ← fields n Tk.lparen Tk.rparen
  let throws ← after Tk.throws (fields n Tk.lparen Tk.rparen)
  let a ← annotations n
  pure ⟨oneWay, ret.1, ret.2, name, args, throws, a⟩

/-- `service` (tools/thriftfile/parser.go:364-374) and `methods` (395-401) -/
def service (n : Nat) : PProg Def := do
  want Tk.service
  let name ← ident
  let ext ← after Tk.extends_ ident
  let l ← list n Tk.lbrace Tk.rbrace (method n)
  let a ← annotations n
  pure (.service name ext l a)

/-- The `switch` of `def` (tools/thriftfile/parser.go:247-261) -/
def definition (n : Nat) : PProg Def := do
  let t ← tok
  if t = Tk.const then const_ n
  else if t = Tk.typedef then typedef n
  else if t = Tk.enum then enum n
  else if t = Tk.struct ∨ t = Tk.union ∨ t = Tk.exception then struct_ n t
  else if t = Tk.service then service n
  else
    errorExpected .definition
    .bad

/-- The loop of the deferred function of `def` (tools/thriftfile/parser.go:237-239) -/
def resync : Nat → PProg Unit
  | 0 => .diverge
  | n + 1 => do
    let t ← tok
    if t ≠ Tk.eof ∧ ¬ isDefinition t then
      next
      resync n

/-- `def` (tools/thriftfile/parser.go:230-262) -/
def def_ (n : Nat) : PProg Def := do
  let p ← pos
  (definition n).recover do
    resync n
    let q ← pos
    pure (.bad p q)

/-- The scope of a namespace (tools/thriftfile/parser.go:220-222) -/
def scope : PProg (Option Bytes) := do
  if ← got Tk.mul then pure none
  else
    let i ← ident
    pure (some i)

/-- `header`, `include` and `namespace` (tools/thriftfile/parser.go:199-226) -/
def header (n : Nat) : PProg (Option Header) := do
  let t ← tok
  if t = Tk.include_ then
    want Tk.include_
    let path ← string
    pure (some (.include path))
  else if t = Tk.namespace_ then
    want Tk.namespace_
    let sc ← scope
    let name ← ident
    let a ← annotations n
    pure (some (.namespace sc name a))
  else pure none

/-- The first loop of `file_` (tools/thriftfile/parser.go:190-192) -/
def headers : Nat → PProg (List Header)
  | 0 => .diverge
  | n + 1 => do
    match ← header n with
    | some h =>
      let l ← headers n
      pure (h :: l)
    | none => pure []

/-- The second loop of `file_` (tools/thriftfile/parser.go:193-195) -/
def defs : Nat → PProg (List Def)
  | 0 => .diverge
  | n + 1 => do
    if (← tok) ≠ Tk.eof then
      let d ← def_ (n + 1)
      let l ← defs n
      pure (d :: l)
    else pure []

/-- `file_` (tools/thriftfile/parser.go:188-197) -/
def file_ (n : Nat) : PProg File := do
  let hs ← headers n
  let ds ← defs n
  pure ⟨hs, ds⟩

/-! ## On the scanner -/

namespace Scanner

/-- The loop of `parser.next` (tools/thriftfile/parser.go:128-130) -/
def skipComments (u : Unicode) : Nat → Scanner → Out Scanner
  | 0, _ => .diverged
  | n + 1, s => if s.tok = Tk.comment then (s.next u).bind (skipComments u n) else .done s

/-- `parser.next` (tools/thriftfile/parser.go:126-131) -/
def nextToken (u : Unicode) (s : Scanner) : Out Scanner := (s.next u).bind fun s => s.skipComments u s.bound

/-- `errorExpected` (tools/thriftfile/parser.go:94-105) and `parser.error` (90-92). It is called with `p.pos` only, so the comparison of positions is true. -/
def errorExpected (what : What) (s : Scanner) : Out Scanner :=
  if isLiteral s.tok then s.lit.bind fun l => .done (s.error s.pos (.expected what (some (.lit l))))
  else .done (s.error s.pos (.expected what (some (.tok s.tok))))

end Scanner

/-- The operations on the scanner. -/
def scannerSource (u : Unicode) : Source Scanner where
  step
    | .tok, s => .done (s.tok, s)
    | .pos, s => .done (s.pos, s)
    | .lit, s => s.lit.bind fun l => .done (l, s)
    | .next, s => (s.nextToken u).bind fun s => .done ((), s)
    | .expected what, s => (s.errorExpected what).bind fun s => .done ((), s)

/-- The text of a rune as `%#U` prints it is left open, and so is the order in which `sort.Sort` leaves equal elements. -/
structure IdlEnv where
  u : Unicode
  fmtU : Int → Bytes
  sort : (PosErr → PosErr → Bool) → List PosErr → List PosErr
  sort_perm : ∀ less l, (sort less l).Perm l
  sort_sorted : ∀ less l, (∀ a b, less a b → ¬ less b a) → (∀ a b c, ¬ less a b → ¬ less b c → ¬ less a c) →
    (sort less l).Pairwise fun a b => ¬ less b a

/-- Go's `<` on strings -/
def bytesLess : Bytes → Bytes → Bool
  | _, [] => false
  | [], _ :: _ => true
  | a :: x, b :: y => if a.toNat < b.toNat then true else if b.toNat < a.toNat then false else bytesLess x y

/-- Text of ASCII characters -/
def text (s : String) : Bytes := s.toList.map fun c => BitVec.ofNat 8 c.toNat

/-- The texts of the messages. -/
def Msg.text (env : IdlEnv) : Msg → Bytes
  | .nul => Idl.text "illegal character NUL"
  | .utf8 => Idl.text "illegal UTF-8 encoding"
  | .bom => Idl.text "illegal byte order mark"
  | .char ch => Idl.text "invalid character " ++ env.fmtU ch
  | .identBegin ch => Idl.text "identifier cannot begin with " ++ env.fmtU ch
  | .newline => Idl.text "newline in string"
  | .unterminatedString => Idl.text "string not terminated"
  | .escape => Idl.text "unknown escape"
  | .unterminatedComment => Idl.text "comment not terminated"
  | .expected what found =>
    Idl.text "expected " ++
    (match what with
      | .tok t => Idl.text "'" ++ tokenText t ++ Idl.text "'"
      | .definition => Idl.text "definition"
      | .type => Idl.text "type"
      | .value => Idl.text "value") ++
    (match found with
      | some (.lit l) => Idl.text ", found " ++ l
      | some (.tok t) => Idl.text ", found '" ++ tokenText t ++ Idl.text "'"
      | none => [])

/-- `errors_.Less` (tools/thriftfile/parser.go:50-66); the file names are equal. -/
def less (env : IdlEnv) (e f : PosErr) : Bool :=
  if e.line ≠ f.line then decide (e.line < f.line)
  else if e.column ≠ f.column then decide (e.column < f.column)
  else bytesLess (e.msg.text env) (f.msg.text env)

/-- `Parse` (tools/thriftfile/parser.go:10-19) and `parser.init` (83-88): the file and the errors, none for a nil error. A panic of `file_` would go on
after the deferred function. -/
def Parse (env : IdlEnv) (src : Bytes) : Out (File × List PosErr) :=
  ((Scanner.init src).nextToken env.u).bind fun s =>
  ((file_ (src.length + 1)).run (scannerSource env.u) s).bind fun r =>
  match r.1 with
  | some f => .done (f, env.sort (less env) r.2.errs)
  | none => .panicked

/-- `strconv.Itoa` of a number that is not negative (also what `%d` prints, fmt) -/
def itoa (n : Nat) : Bytes :=
  if n < 10 then [BitVec.ofNat 8 (48 + n)] else itoa (n / 10) ++ [BitVec.ofNat 8 (48 + n % 10)]

/-- `Position.String` (go/token): the file name, the line if it is valid, and the column if it is not 0. -/
def positionText (filename : Bytes) (line column : Nat) : Bytes :=
  let s :=
    if 0 < line then
      let s := if filename ≠ [] then filename ++ text ":" else filename
      let s := s ++ itoa line
      if column ≠ 0 then s ++ (text ":" ++ itoa column) else s
    else filename
  if s = [] then text "-" else s

/-- `error_.Error` (tools/thriftfile/parser.go:26-28) -/
def PosErr.text (env : IdlEnv) (filename : Bytes) (e : PosErr) : Bytes :=
  positionText filename e.line e.column ++ Idl.text ": " ++ e.msg.text env

/-- `errors_.err` (tools/thriftfile/parser.go:36-41) -/
def errorsErr (errs : List PosErr) : Option (List PosErr) := if errs.length = 0 then none else some errs

/-- `errors_.Error` (tools/thriftfile/parser.go:68-76); `%s` of a `*error_` is what its `Error` returns (fmt). -/
def errorsText (env : IdlEnv) (filename : Bytes) : List PosErr → Bytes
  | [] => text "no errors"
  | [e] => e.text env filename
  | e :: rest => e.text env filename ++ text " (and " ++ itoa ((e :: rest).length - 1) ++ text " more errors)"

/-- What a caller of `Parse` (tools/thriftfile/parser.go:10-19) sees: the file, and the text of the error unless it is nil. -/
def ParseFile (env : IdlEnv) (filename src : Bytes) : Out (File × Option Bytes) :=
  (Parse env src).bind fun r => .done (r.1, (errorsErr r.2).map (errorsText env filename))

end GoThrift.Idl
