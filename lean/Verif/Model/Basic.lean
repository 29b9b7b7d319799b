/-!
# Basic vocabulary of the model

Go integers are `BitVec`s, byte slices and strings are lists of bytes.
Go's `int` is 64 bits wide (amd64/arm64).
-/

namespace GoThrift

/-- Go `byte`. -/
abbrev Byte := BitVec 8

/-- Go `[]byte` / `string` contents. -/
abbrev Bytes := List Byte

/-- `thriftwire.Type` (encoding/thriftwire/types.go:25): a named `byte`, any of the 256 values is possible. -/
abbrev WType := Byte

/-- Action recorded in a `SemanticError` (thrift/errors.go:33, "marshal" or "unmarshal"). -/
inductive Action where
  | marshal | unmarshal
  deriving DecidableEq, Repr

/-- Error values. `nil` is `none : Option Err` (or absence).
Constructors up to `io` come from the Go standard library or the transport, the others from the repository. -/
inductive Err where
  /-- `io.EOF` -/
  | eof
  /-- `io.ErrUnexpectedEOF` -/
  | unexpectedEOF
  /-- `bufio.ErrNegativeCount` -/
  | negativeCount
  /-- `bufio.ErrBufferFull` -/
  | bufferFull
  /-- `io.ErrNoProgress` -/
  | noProgress
  /-- `io.ErrShortWrite` -/
  | shortWrite
  /-- `binary: varint overflows a 64-bit integer` -/
  | varintOverflow
  /-- any other error value produced by the transport -/
  | io (code : Nat)
  /-- `thriftwire.InvalidTypeError` (encoding/thriftwire/types.go:44) -/
  | invalidType (t : WType)
  /-- `invalidCompactTypeError` (encoding/thriftcompact/types.go:27) -/
  | invalidCompactType (t : Byte)
  /-- `thriftbinary: bad version` (encoding/thriftbinary/thriftbinary.go:78) -/
  | binBadVersion (v : BitVec 64)
  /-- `thriftbinary: missing version` (encoding/thriftbinary/thriftbinary.go:88) -/
  | binMissingVersion
  /-- `thriftcompact: bad protocol ID` (encoding/thriftcompact/thriftcompact.go:68) -/
  | compactBadProtocolID (p : Byte)
  /-- `thriftcompact: bad version` (encoding/thriftcompact/thriftcompact.go:76) -/
  | compactBadVersion (v : Byte)
  /-- `ReadStructEnd called without matching ReadStructBegin` (encoding/thriftcompact/thriftcompact.go:102) -/
  | readStructEndUnbalanced
  /-- `WriteStructEnd called without matching WriteStructBegin` (encoding/thriftcompact/thriftcompact.go:334) -/
  | writeStructEndUnbalanced
  /-- `thriftmemo.ErrBreak` (internal/thriftmemo/memo.go:13) -/
  | brk
  /-- errors produced with `errors.New`/`fmt.Errorf` inside package thrift (text kept informally) -/
  | text (msg : String)
  /-- `*wireError` (thrift/errors.go:12) -/
  | wire (action : String) (err : Err)
  /-- `*SemanticError` (thrift/errors.go:29) with `Err == nil`; `tt = 0` means unknown Thrift type, Go types are type ids -/
  | semantic (action : Action) (tt : WType) (goType : Option Nat)
  /-- `*SemanticError` with a non-nil `Err` -/
  | semanticE (action : Action) (tt : WType) (goType : Option Nat) (err : Err)
  deriving DecidableEq, Repr

/-- How running a program can end: it returns, it waits forever on the transport (`blocked`),
it recurses/loops without end (`diverged`, the model ran out of fuel), or it panics. -/
inductive Out (α : Type) where
  | done (a : α)
  | blocked
  | diverged
  | panicked
  deriving DecidableEq, Repr

/-- Sequencing of outcomes. -/
def Out.bind {α β : Type} (x : Out α) (f : α → Out β) : Out β :=
  match x with
  | .done a => f a
  | .blocked => .blocked
  | .diverged => .diverged
  | .panicked => .panicked

@[simp] theorem Out.bind_done {α β : Type} (a : α) (f : α → Out β) : (Out.done a).bind f = f a := rfl
@[simp] theorem Out.bind_blocked {α β : Type} (f : α → Out β) : (Out.blocked : Out α).bind f = .blocked := rfl
@[simp] theorem Out.bind_diverged {α β : Type} (f : α → Out β) : (Out.diverged : Out α).bind f = .diverged := rfl
@[simp] theorem Out.bind_panicked {α β : Type} (f : α → Out β) : (Out.panicked : Out α).bind f = .panicked := rfl

theorem Out.bind_assoc {α β γ : Type} (x : Out α) (f : α → Out β) (g : β → Out γ) :
    (x.bind f).bind g = x.bind (fun a => (f a).bind g) := by
  cases x <;> rfl

end GoThrift
