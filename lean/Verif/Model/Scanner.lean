import Verif.Model.Token
import Verif.Model.Utf8
import Verif.Model.GoType

/-!
# The scanner of .thrift files (tools/thriftfile/scanner.go)

`Pos` values are offsets into the source here: `file.Pos` and `file.Offset` (go/token) translate between the two by adding the file's base.
In Go 1.21 `file.Pos` panics for an offset behind the end of the file; every offset passed to it is `s.offset`, and `C40_tiles` shows that it
never is. Runes are integers, `-1` at the end. A loop is given `s.bound` iterations, more than there can be, and the outcome is `diverged` if they do not
suffice; `C39_scans` and `C39_total` show that they do.
-/

namespace GoThrift.Idl

/-- What is printed after "expected". -/
inductive What where
  | tok (t : Token)
  | definition
  | type
  | value
  deriving DecidableEq, Repr

/-- What is printed after "found". -/
inductive Found where
  | tok (t : Token)
  | lit (s : Bytes)
  deriving DecidableEq, Repr

/-- The messages of scanner.go and parser.go; `Msg.text` has their texts. -/
inductive Msg where
  | nul
  | utf8
  | bom
  | char (ch : Int)
  | identBegin (ch : Int)
  | newline
  | unterminatedString
  | escape
  | unterminatedComment
  | expected (what : What) (found : Option Found)
  deriving DecidableEq, Repr

/-- `error_` (tools/thriftfile/parser.go:21-24), without the file name, which is the same for all. -/
structure PosErr where
  offset : Nat
  line : Nat
  column : Nat
  msg : Msg
  deriving DecidableEq, Repr

/-- `scanner` (tools/thriftfile/scanner.go:15-27), together with the line table of its `file` and the list `errs` of the parser that it reports
its errors to (tools/thriftfile/parser.go:78-88). -/
structure Scanner where
  src : Bytes
  ch : Int
  offset : Nat
  rdOffset : Nat
  lineOffset : Nat
  tok : Token
  pos : Nat
  lines : List Nat
  errs : List PosErr
  deriving DecidableEq, Repr

/-- `file.Position` (go/token), the line and the column: the line is the last one in the table that begins at or before the offset. go/token finds it by
binary search; the table is sorted (`C40_tiles`). -/
def position (lines : List Nat) (offset : Nat) : Nat × Nat :=
  let l := lines.takeWhile (fun b => decide (b ≤ offset))
  (l.length, offset - l.getLastD 0 + 1)

/-- `file.AddLine` (go/token): ignored unless behind the last line and before the end. -/
def addLine (size : Nat) (lines : List Nat) (offset : Nat) : List Nat :=
  if (lines = [] ∨ lines.getLastD 0 < offset) ∧ offset < size then lines ++ [offset] else lines

namespace Scanner

/-- An upper bound for the number of iterations of the loops. -/
def bound (s : Scanner) : Nat := s.src.length + 2

/-- `error` (tools/thriftfile/scanner.go:49-53) and `parser.error` (tools/thriftfile/parser.go:90-92); `s.err` is never nil. -/
def error (s : Scanner) (offs : Nat) (msg : Msg) : Scanner :=
  let p := position s.lines offs
  { s with errs := s.errs ++ [⟨offs, p.1, p.2, msg⟩] }

/-- The common part of the branches of `nextch` (tools/thriftfile/scanner.go:61-65 and 81-85). -/
def newLine (s : Scanner) (offset : Nat) : Scanner :=
  let s := { s with offset := offset }
  if s.ch = 10 then { s with lineOffset := s.offset, lines := addLine s.src.length s.lines s.offset } else s

/-- `nextch` (tools/thriftfile/scanner.go:59-89) -/
def nextch (s : Scanner) : Scanner :=
  match s.src.drop s.rdOffset with
  | b :: rest =>
    let s := s.newLine s.rdOffset
    if b = 0 then { s.error s.offset .nul with rdOffset := s.rdOffset + 1, ch := 0 }
    else if b.toNat < 0x80 then { s with rdOffset := s.rdOffset + 1, ch := b.toNat }
    else
      let r := Utf8.decodeRune (b :: rest)
      let s :=
        if r.1 = Utf8.runeError ∧ r.2 = 1 then s.error s.offset .utf8
        else if r.1 = 0xfeff ∧ s.offset > 0 then s.error s.offset .bom
        else s
      { s with rdOffset := s.rdOffset + r.2, ch := r.1 }
  | [] => { s.newLine s.src.length with ch := -1 }

/-- `init` (tools/thriftfile/scanner.go:29-43). The line table of a new file has one line (go/token, `AddFile`). `pos` is `NoPos` in the code, but is not
read before `next` sets it. -/
def init (src : Bytes) : Scanner :=
  let s : Scanner := ⟨src, 32, 0, 0, 0, Tk.illegal, 0, [0], []⟩
  let s := s.nextch
  if s.ch = 0xfeff then s.nextch else s

/-- `lit` (tools/thriftfile/scanner.go:45-47); the slice expression panics if out of range. -/
def lit (s : Scanner) : Out Bytes :=
  if s.pos ≤ s.offset ∧ s.offset ≤ s.src.length then .done ((s.src.drop s.pos).take (s.offset - s.pos)) else .panicked

/-- `for p(s.ch) { s.nextch() }` -/
def skipWhile (p : Int → Bool) : Nat → Scanner → Out Scanner
  | 0, _ => .diverged
  | n + 1, s => if p s.ch then skipWhile p n s.nextch else .done s

end Scanner

/-- `lower` (tools/thriftfile/scanner.go:382); negative runes are unchanged, as they have all bits of `eof` set. -/
def lower (ch : Int) : Int := if ch < 0 then ch else Int.ofNat (ch.toNat ||| 32)

/-- `isLetter` (tools/thriftfile/scanner.go:383) -/
def isLetter (ch : Int) : Bool := decide (97 ≤ lower ch ∧ lower ch ≤ 122) || decide (ch = 95)

/-- `isDecimal` (tools/thriftfile/scanner.go:384) -/
def isDecimal (ch : Int) : Bool := decide (48 ≤ ch ∧ ch ≤ 57)

/-- `isHex` (tools/thriftfile/scanner.go:385) -/
def isHex (ch : Int) : Bool := isDecimal ch || decide (97 ≤ lower ch ∧ lower ch ≤ 102)

/-- The condition of the loop over white space (tools/thriftfile/scanner.go:93) -/
def isSpace (ch : Int) : Bool := decide (ch = 10) || decide (ch = 13) || decide (ch = 9) || decide (ch = 32)

/-- `unicode.IsLetter` of a rune that may be `eof` -/
def uniLetter (u : Unicode) (ch : Int) : Bool := decide (0 ≤ ch) && u.isLetter ch.toNat

/-- `unicode.IsDigit` of a rune that may be `eof` -/
def uniDigit (u : Unicode) (ch : Int) : Bool := decide (0 ≤ ch) && u.isDigit ch.toNat

namespace Scanner

/-- `atIdent(false)` (tools/thriftfile/scanner.go:258-270), which changes nothing. -/
def atIdentRune (u : Unicode) (ch : Int) : Bool :=
  if uniLetter u ch ∨ ch = 95 then true else if uniDigit u ch ∨ ch = 46 then true else false

/-- `atIdent(true)` (tools/thriftfile/scanner.go:258-270) -/
def atIdentFirst (u : Unicode) (s : Scanner) : Bool × Scanner :=
  if uniLetter u s.ch ∨ s.ch = 95 then (true, s)
  else if uniDigit u s.ch ∨ s.ch = 46 then (true, s.error s.offset (.identBegin s.ch))
  else (false, s)

/-- `ident` (tools/thriftfile/scanner.go:240-256) -/
def ident (u : Unicode) (s : Scanner) : Out Scanner :=
  (s.skipWhile (fun ch => isLetter ch || isDecimal ch || decide (ch = 46)) s.bound).bind fun s =>
  (if s.ch ≥ 0x80 then s.skipWhile (atIdentRune u) s.bound else .done s).bind fun s =>
  s.lit.bind fun lit =>
  if lit.length > 2 then
    match keywords.lookup lit with
    | some tok => .done { s with tok := tok }
    | none => .done { s with tok := Tk.ident }
  else .done { s with tok := Tk.ident }

/-- The last part of `number` (tools/thriftfile/scanner.go:304-315) -/
def exponent (s : Scanner) (tok : Token) : Out Scanner :=
  if lower s.ch = 101 then
    let s := s.nextch
    let s := if s.ch = 43 ∨ s.ch = 45 then s.nextch else s
    (s.skipWhile isDecimal s.bound).bind fun s => .done { s with tok := Tk.float }
  else .done { s with tok := tok }

/-- `number(false)` (tools/thriftfile/scanner.go:272-316) from behind the test for a hexadecimal number -/
def decimal (s : Scanner) : Out Scanner :=
  (s.skipWhile isDecimal s.bound).bind fun s =>
  if s.ch = 46 then
    let s := s.nextch
    (s.skipWhile isDecimal s.bound).bind fun s => s.exponent Tk.float
  else s.exponent Tk.int

/-- `number(false)` (tools/thriftfile/scanner.go:272-316), the only way it is called -/
def number (s : Scanner) : Out Scanner :=
  if s.ch = 48 then
    let s := s.nextch
    if lower s.ch = 120 then
      let s := s.nextch
      (s.skipWhile isHex s.bound).bind fun s => .done { s with tok := Tk.int }
    else s.decimal
  else s.decimal

/-- `escape` (tools/thriftfile/scanner.go:346-358) -/
def escape (quote : Int) (s : Scanner) : Bool × Scanner :=
  if s.ch = quote ∨ s.ch = 92 ∨ s.ch = 110 ∨ s.ch = 114 ∨ s.ch = 116 then (true, s.nextch)
  else if s.ch < 0 then (true, s)
  else (false, s.error s.offset .escape)

/-- The loop of `string` (tools/thriftfile/scanner.go:321-343) -/
def stringLoop (quote : Int) : Nat → Scanner → Out Scanner
  | 0, _ => .diverged
  | n + 1, s =>
    if s.ch = quote then .done { s.nextch with tok := Tk.string }
    else if s.ch = 92 then
      let e := escape quote s.nextch
      if e.1 then stringLoop quote n e.2 else .done e.2
    else if s.ch = 10 then .done (s.error s.offset .newline)
    else if s.ch < 0 then .done { s.error s.offset .unterminatedString with tok := Tk.string }
    else stringLoop quote n s.nextch

/-- `string` (tools/thriftfile/scanner.go:318-344) -/
def string (s : Scanner) : Out Scanner := stringLoop s.ch s.bound s.nextch

/-- `lineComment` (tools/thriftfile/scanner.go:360-365) -/
def lineComment (s : Scanner) : Out Scanner :=
  let s := { s with tok := Tk.comment }
  s.skipWhile (fun ch => decide (ch ≥ 0) && decide (ch ≠ 10)) s.bound

/-- The inner loop of `fullComment` (tools/thriftfile/scanner.go:370-376); the flag says that it returned. -/
def stars : Nat → Scanner → Out (Bool × Scanner)
  | 0, _ => .diverged
  | n + 1, s =>
    if s.ch = 42 then
      let s := s.nextch
      if s.ch = 47 then .done (true, s.nextch) else stars n s
    else .done (false, s)

/-- The outer loop of `fullComment` (tools/thriftfile/scanner.go:369-379) -/
def fullCommentLoop : Nat → Scanner → Out Scanner
  | 0, _ => .diverged
  | n + 1, s =>
    if s.ch ≥ 0 then
      (stars s.bound s).bind fun r => if r.1 then .done r.2 else fullCommentLoop n r.2.nextch
    else .done (s.error s.offset .unterminatedComment)

/-- `fullComment` (tools/thriftfile/scanner.go:367-380) -/
def fullComment (s : Scanner) : Out Scanner :=
  let s := { s with tok := Tk.comment }
  fullCommentLoop s.bound s

/-- The runes that make a token by themselves (tools/thriftfile/scanner.go:130-228) -/
def single (ch : Int) : Option Token :=
  if ch = 42 then some Tk.mul
  else if ch = 37 then some Tk.rem
  else if ch = 38 then some Tk.and
  else if ch = 124 then some Tk.or
  else if ch = 94 then some Tk.xor
  else if ch = 60 then some Tk.lss
  else if ch = 62 then some Tk.gtr
  else if ch = 33 then some Tk.not
  else if ch = 40 then some Tk.lparen
  else if ch = 91 then some Tk.lbrack
  else if ch = 123 then some Tk.lbrace
  else if ch = 44 then some Tk.comma
  else if ch = 46 then some Tk.period
  else if ch = 41 then some Tk.rparen
  else if ch = 93 then some Tk.rbrack
  else if ch = 125 then some Tk.rbrace
  else if ch = 59 then some Tk.semicolon
  else if ch = 58 then some Tk.colon
  else none

/-- The `switch` of `next` (tools/thriftfile/scanner.go:104-237); `none` means `goto redo`. The second `case '/'` of the inner switch (lines 142-144) is
never reached. -/
def token (s : Scanner) : Out (Option Scanner) :=
  let ret (x : Out Scanner) : Out (Option Scanner) := x.bind fun s => .done (some s)
  if s.ch = -1 then ret (.done { s with tok := Tk.eof })
  else if isDecimal s.ch then ret s.number
  else if s.ch = 34 ∨ s.ch = 39 then ret s.string
  else if s.ch = 43 then
    let s := s.nextch
    if isDecimal s.ch then ret s.number else ret (.done { s with tok := Tk.add })
  else if s.ch = 45 then
    let s := s.nextch
    if isDecimal s.ch then ret s.number else ret (.done { s with tok := Tk.sub })
  else if s.ch = 47 then
    let s := s.nextch
    if s.ch = 47 then ret s.nextch.lineComment
    else if s.ch = 42 then ret s.nextch.fullComment
    else ret (.done { s with tok := Tk.quo })
  else if s.ch = 61 then
    let s := s.nextch
    if s.ch = 61 then ret (.done { s.nextch with tok := Tk.eql }) else ret (.done { s with tok := Tk.assign })
  else if s.ch = 35 then ret s.nextch.lineComment
  else
    match single s.ch with
    | some tok => ret (.done { s.nextch with tok := tok })
    | none => .done none

/-- `next` (tools/thriftfile/scanner.go:91-238) from `redo`, at most `n` times -/
def redo (u : Unicode) : Nat → Scanner → Out Scanner
  | 0, _ => .diverged
  | n + 1, s =>
    (s.skipWhile isSpace s.bound).bind fun s =>
    let s := { s with pos := s.offset }
    let a := if isLetter s.ch then (true, s) else if s.ch ≥ 0x80 then atIdentFirst u s else (false, s)
    if a.1 then ident u a.2.nextch
    else
      (token a.2).bind fun r =>
      match r with
      | some s => .done s
      | none => redo u n (a.2.error a.2.offset (.char a.2.ch)).nextch

/-- `next` (tools/thriftfile/scanner.go:91-238) -/
def next (u : Unicode) (s : Scanner) : Out Scanner := redo u s.bound s

end Scanner

end GoThrift.Idl
