import Verif.Model.Parser

/-!
# Parse on a stack of limited size

Of the functions of the parser, `type_` calls itself for the types in a type and `value` for the values in a value (through `map_`, `set`, `list_`, and `values`, `keyValuePairs`, `list` and the
closures passed to that: a fixed number of frames for each level). All others are called a fixed number of levels below `Parse`. So only the calls of `type_` and `value` below each other count here; a frame is
one of these. Overflow of the stack is a fatal error in Go: no deferred function recovers from it. It is written `diverge`; `Parse` itself never diverges (C39).
-/

namespace GoThrift.Idl

/-- `type_` as in `Model/Parser.lean` (tools/thriftfile/parser.go:403-456) with room for `d` frames on the stack. -/
def typeS : Nat → Nat → PProg TypeNode
  | 0, _ => .diverge
  | _ + 1, 0 => .diverge
  | n + 1, d + 1 => do
    let t ← tok
    if t = Tk.map then
      want Tk.map
      want Tk.lss
      let k ← typeS n d
      want Tk.comma
      let v ← typeS n d
      want Tk.gtr
      let a ← annotations n
      pure (.map k v a)
    else if t = Tk.set then
      want Tk.set
      want Tk.lss
      let e ← typeS n d
      want Tk.gtr
      let a ← annotations n
      pure (.set e a)
    else if t = Tk.list then
      want Tk.list
      want Tk.lss
      let e ← typeS n d
      want Tk.gtr
      let a ← annotations n
      pure (.list e a)
    else if t = Tk.ident then
      let name ← ident
      let a ← annotations n
      pure (.ref name a)
    else
      errorExpected .type
      .bad

/-- `value` (tools/thriftfile/parser.go:458-500) with room for `d` frames. -/
def valueS : Nat → Nat → PProg Value
  | 0, _ => .diverge
  | _ + 1, 0 => .diverge
  | n + 1, d + 1 => do
    let t ← tok
    if t = Tk.ident then
      let x ← ident
      pure (.ident x)
    else if t = Tk.int then
      let x ← int
      pure (.int x)
    else if t = Tk.float then
      let x ← float
      pure (.float x)
    else if t = Tk.string then
      let x ← string
      pure (.string x)
    else if t = Tk.lbrack then
      let l ← list n Tk.lbrack Tk.rbrack (valueS n d)
      pure (.list l)
    else if t = Tk.lbrace then
      let pair : PProg (Value × Value) := do
        let k ← valueS n d
        want Tk.colon
        let v ← valueS n d
        pure (k, v)
      let l ← list n Tk.lbrace Tk.rbrace pair
      pure (.pairs l)
    else
      errorExpected .value
      .bad

/-- `const_` (tools/thriftfile/parser.go:264-273) -/
def constS (n d : Nat) : PProg Def := do
  want Tk.const
  let t ← typeS n d
  let name ← ident
  want Tk.assign
  let v ← valueS n d
  separator n
  pure (.const t name v)

/-- `typedef` (tools/thriftfile/parser.go:275-283) -/
def typedefS (n d : Nat) : PProg Def := do
  want Tk.typedef
  let t ← typeS n d
  let name ← ident
  let a ← annotations n
  separator n
  pure (.typedef t name a)

/-- `field` (tools/thriftfile/parser.go:334-354) -/
def fieldS (n d : Nat) : PProg Field := do
  let id ← fieldId
  let r ← requiredness
  let t ← typeS n d
  let reference ← got Tk.and
  let name ← fieldName
  let v ← assigned (valueS n d)
  let a ← annotations n
  pure ⟨id, r.1, r.2, t, reference, name, v, a⟩

/-- `fields` (tools/thriftfile/parser.go:356-362) -/
def fieldsS (n d : Nat) (open_ close : Token) : PProg (List Field) := list n open_ close (fieldS n d)

/-- `struct_` (tools/thriftfile/parser.go:312-321) -/
def structS (n d : Nat) (t : Token) : PProg Def := do
  want t
  let name ← ident
  let l ← fieldsS n d Tk.lbrace Tk.rbrace
  let a ← annotations n
  pure (.struct (t = Tk.union) (t = Tk.exception) name l a)

/-- What a method returns (tools/thriftfile/parser.go:381-385) -/
def returnTypeS (n d : Nat) : PProg (Bool × Option TypeNode) := do
  if ← got Tk.void then pure (true, none)
  else
    let t ← typeS n d
    pure (false, some t)

/-- `method` (tools/thriftfile/parser.go:376-393) -/
def methodS (n d : Nat) : PProg Method := do
  let oneWay ← got Tk.oneway
  let ret ← returnTypeS n d
  let name ← ident
  let args ← fieldsS n d Tk.lparen Tk.rparen
  let throws ← after Tk.throws (fieldsS n d Tk.lparen Tk.rparen)
  let a ← annotations n
  pure ⟨oneWay, ret.1, ret.2, name, args, throws, a⟩

/-- `service` (tools/thriftfile/parser.go:364-374) and `methods` (395-401) -/
def serviceS (n d : Nat) : PProg Def := do
  want Tk.service
  let name ← ident
  let ext ← after Tk.extends_ ident
  let l ← list n Tk.lbrace Tk.rbrace (methodS n d)
  let a ← annotations n
  pure (.service name ext l a)

/-- The `switch` of `def` (tools/thriftfile/parser.go:247-261) -/
def definitionS (n d : Nat) : PProg Def := do
  let t ← tok
  if t = Tk.const then constS n d
  else if t = Tk.typedef then typedefS n d
  else if t = Tk.enum then enum n
  else if t = Tk.struct ∨ t = Tk.union ∨ t = Tk.exception then structS n d t
  else if t = Tk.service then serviceS n d
  else
    errorExpected .definition
    .bad

/-- `def` (tools/thriftfile/parser.go:230-262) -/
def defS (n d : Nat) : PProg Def := do
  let p ← pos
  (definitionS n d).recover do
    resync n
    let q ← pos
    pure (.bad p q)

/-- The second loop of `file_` (tools/thriftfile/parser.go:193-195) -/
def defsS : Nat → Nat → PProg (List Def)
  | 0, _ => .diverge
  | n + 1, d => do
    if (← tok) ≠ Tk.eof then
      let x ← defS (n + 1) d
      let l ← defsS n d
      pure (x :: l)
    else pure []

/-- `file_` (tools/thriftfile/parser.go:188-197) -/
def fileS (n d : Nat) : PProg File := do
  let hs ← headers n
  let ds ← defsS n d
  pure ⟨hs, ds⟩

/-- `Parse` (tools/thriftfile/parser.go:10-19) with room for `d` frames of `type_` and `value`. -/
def ParseS (env : IdlEnv) (d : Nat) (src : Bytes) : Out (File × List PosErr) :=
  ((Scanner.init src).nextToken env.u).bind fun s =>
  ((fileS (src.length + 1) d).run (scannerSource env.u) s).bind fun r =>
  match r.1 with
  | some f => .done (f, env.sort (less env) r.2.errs)
  | none => .panicked

end GoThrift.Idl
