import Verif.Model.Binary
import Verif.Model.Compact

/-!
# `bufio.Reader` (Go standard library, bufio/bufio.go) over a fragmenting transport

The `*bufio.Reader` every protocol reader is built on (`bufio.NewReader`, thriftbinary.go:66-68, thriftcompact.go:34-36), with the
algorithms of Go 1.21. The model keeps the unread part `buf[r:w]` of the buffer; where in the array it lies is not observable.
-/

namespace GoThrift

/-- An `io.Reader` that delivers the bytes `data` in pieces and then ends as `fin` says (its error is reported by every read after the
data). `sched` decides the `idx`-th call of Read: the first component is the largest number of bytes it delivers (0: the call returns `0, nil`);
if the second is true the final error is returned together with the last bytes instead of by the following call. -/
structure Source where
  data : Bytes
  fin : End
  sched : Nat → Nat × Bool
  idx : Nat := 0

/-- `Read(p)` with `len(p) = cap`: the bytes, the error, the source afterwards. -/
def Source.read (s : Source) (cap : Nat) : Out ((Bytes × Option Err) × Source) :=
  let s' := { s with idx := s.idx + 1 }
  if (s.sched s.idx).1 = 0 then .done (([], none), s')
  else if s.data = [] then
    match s.fin with
    | .block => .blocked
    | .err e => .done (([], some e), s')
  else
    let n := min (s.sched s.idx).1 cap
    let rest := s.data.drop n
    .done ((s.data.take n,
      match s.fin with
      | .err e => if (s.sched s.idx).2 = true ∧ rest = [] then some e else none
      | .block => none), { s' with data := rest })

/-- The fields of `bufio.Reader`: `len(buf)`, `buf[r:w]`, `err`, `rd`. -/
structure BufReader where
  size : Nat
  unread : Bytes
  err : Option Err
  src : Source

namespace BufReader

/-- The loop of `fill` (at most `maxConsecutiveEmptyReads` reads). -/
def fillLoop : Nat → BufReader → Out BufReader
  | 0, b => .done { b with err := some .noProgress }
  | i + 1, b =>
    (b.src.read (b.size - b.unread.length)).bind fun r =>
      let b' := { b with unread := b.unread ++ r.1.1, src := r.2 }
      match r.1.2 with
      | some e => .done { b' with err := some e }
      | none => if r.1.1.length > 0 then .done b' else fillLoop i b'

/-- `func (b *Reader) fill()`: panics if the buffer is full. -/
def fill (b : BufReader) : Out BufReader :=
  if b.unread.length ≥ b.size then .panicked else fillLoop 100 b

/-- The loop of `Peek`: `for b.w-b.r < n && b.w-b.r < len(b.buf) && b.err == nil { b.fill() }`. Every round adds a byte or sets the error, so
`len(b.buf) + 2` rounds suffice. -/
def peekLoop : Nat → Nat → BufReader → Out BufReader
  | 0, _, _ => .diverged
  | fuel + 1, n, b =>
    if b.unread.length < n ∧ b.unread.length < b.size ∧ b.err = none then (b.fill).bind (peekLoop fuel n)
    else .done b

/-- `func (b *Reader) Peek(n int) ([]byte, error)`; `readErr` clears the error. -/
def peek (b : BufReader) (n : Int) : Out ((Bytes × Option Err) × BufReader) :=
  if n < 0 then .done (([], some .negativeCount), b)
  else (peekLoop (b.size + 2) n.toNat b).bind fun b =>
    if n.toNat > b.size then .done ((b.unread, some .bufferFull), b)
    else if b.unread.length < n.toNat then
      .done ((b.unread, some (b.err.getD .bufferFull)), { b with err := none })
    else .done ((b.unread.take n.toNat, none), b)

/-- The loop of `Discard`; `remain > 0`. Every round but the last discards a byte or ends with the error. -/
def discardLoop : Nat → Nat → BufReader → Out (Option Err × BufReader)
  | 0, _, _ => .diverged
  | fuel + 1, remain, b =>
    (if b.unread.length = 0 then b.fill else .done b).bind fun b =>
      let skip := min b.unread.length remain
      let b := { b with unread := b.unread.drop skip }
      if remain - skip = 0 then .done (none, b)
      else match b.err with
        | some e => .done (some e, { b with err := none })
        | none => discardLoop fuel (remain - skip) b

/-- `func (b *Reader) Discard(n int) (discarded int, err error)`, the error. -/
def discard (b : BufReader) (n : Int) : Out (Option Err × BufReader) :=
  if n < 0 then .done (some .negativeCount, b)
  else if n.toNat = 0 then .done (none, b)
  else discardLoop (n.toNat + 1) n.toNat b

/-- `func (b *Reader) ReadByte() (byte, error)`: `for b.r == b.w { if b.err != nil { return 0, b.readErr() }; b.fill() }`; after one fill there is
a byte or an error, so the loop runs at most twice. -/
def readByteLoop : Nat → BufReader → Out (Except Err Byte × BufReader)
  | 0, _ => .diverged
  | fuel + 1, b => match b.unread with
    | c :: cs => .done (.ok c, { b with unread := cs })
    | [] => match b.err with
      | some e => .done (.error e, { b with err := none })
      | none => b.fill.bind (readByteLoop fuel)

/-- See `readByteLoop`. -/
def readByte (b : BufReader) : Out (Except Err Byte × BufReader) := readByteLoop 2 b

/-- `func (b *Reader) Read(p []byte) (n int, err error)` with `len(p) = cap`. -/
def read (b : BufReader) (cap : Nat) : Out ((Bytes × Option Err) × BufReader) :=
  if cap = 0 then
    if b.unread.length > 0 then .done (([], none), b) else .done (([], b.err), { b with err := none })
  else if b.unread.length = 0 then
    match b.err with
    | some e => .done (([], some e), { b with err := none })
    | none =>
      if cap ≥ b.size then
        (b.src.read cap).bind fun r => .done (r.1, { b with src := r.2 })
      else
        (b.src.read b.size).bind fun r =>
          if r.1.1.length = 0 then .done (([], r.1.2), { b with src := r.2 })
          else .done ((r.1.1.take cap, none), { b with unread := r.1.1.drop cap, err := r.1.2, src := r.2 })
  else .done ((b.unread.take cap, none), { b with unread := b.unread.drop cap })

/-- The loop of `io.ReadAtLeast(b, buf, len(buf))`: `for n < min && err == nil { nn, err = r.Read(buf[n:]); n += nn }`. Bounded by fuel: with a
transport that delivers something at least every 100 calls the bound in `readFull` is never reached (C22). -/
def readFullLoop : Nat → Nat → Bytes → BufReader → Out ((Bytes × Option Err) × BufReader)
  | 0, _, _, _ => .diverged
  | fuel + 1, n, acc, b =>
    if acc.length ≥ n then .done ((acc, none), b)
    else (b.read (n - acc.length)).bind fun r =>
      let acc := acc ++ r.1.1
      match r.1.2 with
      | some e =>
        if acc.length ≥ n then .done ((acc, none), r.2)
        else .done ((acc, some (if acc.length > 0 ∧ e = .eof then .unexpectedEOF else e)), r.2)
      | none => readFullLoop fuel n acc r.2

/-- `io.ReadFull(b, buf)` with `len(buf) = n` -/
def readFull (b : BufReader) (n : Nat) : Out ((Bytes × Option Err) × BufReader) := readFullLoop (100 * (n + 2)) n [] b

end BufReader

/-- Run a program on a `bufio.Reader`. -/
def BProg.runBuf {α : Type} : BProg α → BufReader → Out (α × BufReader)
  | .ret a, b => .done (a, b)
  | .diverge, _ => .diverged
  | .panic, _ => .panicked
  | .peek n k, b => (b.peek n).bind fun r => (k r.1.1 r.1.2).runBuf r.2
  | .discard n k, b => (b.discard n).bind fun r => (k r.1).runBuf r.2
  | .readByte k, b => b.readByte.bind fun r => (k r.1).runBuf r.2
  | .readFull n k, b => (b.readFull n).bind fun r => (k r.1.1 r.1.2).runBuf r.2
  | .size k, b => (k b.size).runBuf b

/-- The binary reader on a `bufio.Reader` (thriftbinary.go:61-68). -/
def Binary.bufReader (strict : Bool) : Rdr (Unit × BufReader) where
  step o s := ((Binary.impl strict o) s.1).runBuf s.2 |>.bind fun r => .done (r.1.1, (r.1.2, r.2))

/-- The compact reader on a `bufio.Reader` (thriftcompact.go:34-43). -/
def Compact.bufReader : Rdr (Compact.RState × BufReader) where
  step o s := ((Compact.impl o) s.1).runBuf s.2 |>.bind fun r => .done (r.1.1, (r.1.2, r.2))

/-- `bufio.NewReader(r)` / `Reset(r)`: an empty buffer and no error. (`bufio.NewReader` returns its argument if that already is a large
enough `*bufio.Reader`; cf. C77, C78.) -/
def newBufReader (size : Nat) (src : Source) : BufReader := ⟨size, [], none, src⟩

/-- A new binary reader (thriftbinary.go:66-68). -/
def Binary.newBR (size : Nat) (src : Source) : Unit × BufReader := ((), newBufReader size src)

/-- The binary reader's `Reset` is the promoted `(*bufio.Reader).Reset`: empty buffer of the same size, no error, the new source
(thriftbinary.go:61-64). -/
def Binary.resetBR (x : Unit × BufReader) (src : Source) : Unit × BufReader := (x.1, newBufReader x.2.size src)

/-- A new compact reader (thriftcompact.go:26-28). -/
def Compact.newBR (src : Source) : Compact.RState × BufReader := ({}, newBufReader 4096 src)

/-- The compact reader's `Reset` (thriftcompact.go:289-295): a new `*bufio.Reader` of the default size, all other fields zero. (`lastFieldIDs` keeps its
capacity, which is not observable.) -/
def Compact.resetBR (_x : Compact.RState × BufReader) (src : Source) : Compact.RState × BufReader := ({ ids := [] }, newBufReader 4096 src)

end GoThrift
