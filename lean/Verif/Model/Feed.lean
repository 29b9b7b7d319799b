import Verif.Model.Bufio

/-!
# `bufio.Reader` over any `io.Reader`

`Verif/Model/Bufio.lean` has a `*bufio.Reader` that reads from a transport of a certain form. Here the transport is any state machine with a Read method; it may be another `*bufio.Reader`, or one that
belongs to somebody else. The algorithms are those of Go 1.21 (bufio/bufio.go).
-/

namespace GoThrift

/-- `Read(p)` with `len(p)` as a function of the state: the bytes and the error, and the state afterwards. -/
abbrev ReadFn (ρ : Type) := ρ → Nat → Out ((Bytes × Option Err) × ρ)

/-- The fields of `bufio.Reader`: `len(buf)`, `buf[r:w]`, `err`, `rd`. -/
structure GBuf (ρ : Type) where
  size : Nat
  unread : Bytes
  err : Option Err
  src : ρ

namespace GBuf
variable {ρ : Type} (rd : ReadFn ρ)

/-- See `BufReader.fillLoop`. -/
def fillLoop : Nat → GBuf ρ → Out (GBuf ρ)
  | 0, b => .done { b with err := some .noProgress }
  | i + 1, b =>
    (rd b.src (b.size - b.unread.length)).bind fun r =>
      let b' := { b with unread := b.unread ++ r.1.1, src := r.2 }
      match r.1.2 with
      | some e => .done { b' with err := some e }
      | none => if r.1.1.length > 0 then .done b' else fillLoop i b'

/-- `func (b *Reader) fill()` -/
def fill (b : GBuf ρ) : Out (GBuf ρ) :=
  if b.unread.length ≥ b.size then .panicked else fillLoop rd 100 b

/-- The loop of `Peek`. -/
def peekLoop : Nat → Nat → GBuf ρ → Out (GBuf ρ)
  | 0, _, _ => .diverged
  | fuel + 1, n, b =>
    if b.unread.length < n ∧ b.unread.length < b.size ∧ b.err = none then (b.fill rd).bind (peekLoop fuel n)
    else .done b

/-- `func (b *Reader) Peek(n int) ([]byte, error)` -/
def peek (b : GBuf ρ) (n : Int) : Out ((Bytes × Option Err) × GBuf ρ) :=
  if n < 0 then .done (([], some .negativeCount), b)
  else (peekLoop rd (b.size + 2) n.toNat b).bind fun b =>
    if n.toNat > b.size then .done ((b.unread, some .bufferFull), b)
    else if b.unread.length < n.toNat then
      .done ((b.unread, some (b.err.getD .bufferFull)), { b with err := none })
    else .done ((b.unread.take n.toNat, none), b)

/-- The loop of `Discard`. -/
def discardLoop : Nat → Nat → GBuf ρ → Out (Option Err × GBuf ρ)
  | 0, _, _ => .diverged
  | fuel + 1, remain, b =>
    (if b.unread.length = 0 then b.fill rd else .done b).bind fun b =>
      let skip := min b.unread.length remain
      let b := { b with unread := b.unread.drop skip }
      if remain - skip = 0 then .done (none, b)
      else match b.err with
        | some e => .done (some e, { b with err := none })
        | none => discardLoop fuel (remain - skip) b

/-- `func (b *Reader) Discard(n int) (discarded int, err error)`, the error. -/
def discard (b : GBuf ρ) (n : Int) : Out (Option Err × GBuf ρ) :=
  if n < 0 then .done (some .negativeCount, b)
  else if n.toNat = 0 then .done (none, b)
  else discardLoop rd (n.toNat + 1) n.toNat b

/-- The loop of `ReadByte`. -/
def readByteLoop : Nat → GBuf ρ → Out (Except Err Byte × GBuf ρ)
  | 0, _ => .diverged
  | fuel + 1, b => match b.unread with
    | c :: cs => .done (.ok c, { b with unread := cs })
    | [] => match b.err with
      | some e => .done (.error e, { b with err := none })
      | none => (b.fill rd).bind (readByteLoop fuel)

/-- `func (b *Reader) ReadByte() (byte, error)` -/
def readByte (b : GBuf ρ) : Out (Except Err Byte × GBuf ρ) := readByteLoop rd 2 b

/-- `func (b *Reader) Read(p []byte) (n int, err error)` with `len(p) = cap`. -/
def read (b : GBuf ρ) (cap : Nat) : Out ((Bytes × Option Err) × GBuf ρ) :=
  if cap = 0 then
    if b.unread.length > 0 then .done (([], none), b) else .done (([], b.err), { b with err := none })
  else if b.unread.length = 0 then
    match b.err with
    | some e => .done (([], some e), { b with err := none })
    | none =>
      if cap ≥ b.size then
        (rd b.src cap).bind fun r => .done (r.1, { b with src := r.2 })
      else
        (rd b.src b.size).bind fun r =>
          if r.1.1.length = 0 then .done (([], r.1.2), { b with src := r.2 })
          else .done ((r.1.1.take cap, none), { b with unread := r.1.1.drop cap, err := r.1.2, src := r.2 })
  else .done ((b.unread.take cap, none), { b with unread := b.unread.drop cap })

/-- The loop of `io.ReadAtLeast(b, buf, len(buf))`. -/
def readFullLoop : Nat → Nat → Bytes → GBuf ρ → Out ((Bytes × Option Err) × GBuf ρ)
  | 0, _, _, _ => .diverged
  | fuel + 1, n, acc, b =>
    if acc.length ≥ n then .done ((acc, none), b)
    else (b.read rd (n - acc.length)).bind fun r =>
      let acc := acc ++ r.1.1
      match r.1.2 with
      | some e =>
        if acc.length ≥ n then .done ((acc, none), r.2)
        else .done ((acc, some (if acc.length > 0 ∧ e = .eof then .unexpectedEOF else e)), r.2)
      | none => readFullLoop fuel n acc r.2

/-- `io.ReadFull(b, buf)` with `len(buf) = n` -/
def readFull (b : GBuf ρ) (n : Nat) : Out ((Bytes × Option Err) × GBuf ρ) := readFullLoop rd (100 * (n + 2)) n [] b

/-- A new one, or one that is `Reset`. -/
def new (size : Nat) (src : ρ) : GBuf ρ := ⟨size, [], none, src⟩

end GBuf

/-- Run a program on a `bufio.Reader`. -/
def BProg.runG {ρ α : Type} (rd : ReadFn ρ) : BProg α → GBuf ρ → Out (α × GBuf ρ)
  | .ret a, b => .done (a, b)
  | .diverge, _ => .diverged
  | .panic, _ => .panicked
  | .peek n k, b => (b.peek rd n).bind fun r => (k r.1.1 r.1.2).runG rd r.2
  | .discard n k, b => (b.discard rd n).bind fun r => (k r.1).runG rd r.2
  | .readByte k, b => (b.readByte rd).bind fun r => (k r.1).runG rd r.2
  | .readFull n k, b => (b.readFull rd n).bind fun r => (k r.1.1 r.1.2).runG rd r.2
  | .size k, b => (k b.size).runG rd b

/-- The binary reader on a `bufio.Reader` (thriftbinary.go:61-68). -/
def Binary.gReader {ρ : Type} (rd : ReadFn ρ) (strict : Bool) : Rdr (Unit × GBuf ρ) where
  step o s := ((Binary.impl strict o) s.1).runG rd s.2 |>.bind fun r => .done (r.1.1, (r.1.2, r.2))

/-- The compact reader on a `bufio.Reader` (thriftcompact.go:34-43). -/
def Compact.gReader {ρ : Type} (rd : ReadFn ρ) : Rdr (Compact.RState × GBuf ρ) where
  step o s := ((Compact.impl o) s.1).runG rd s.2 |>.bind fun r => .done (r.1.1, (r.1.2, r.2))

end GoThrift
