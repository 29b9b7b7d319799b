import Verif.Model.Binary
import Verif.Model.Compact

/-!
# `bufio.Writer` (Go standard library, bufio/bufio.go) over a transport that may fail

The `*bufio.Writer` every protocol writer is built on (thriftbinary.go:260-262, thriftcompact.go:30-32), with the algorithms of
Go 1.21, and `Flush` and `Reset` of the protocol writers.
-/

namespace GoThrift

/-- An `io.Writer` with its optional methods, as a state machine. The state may say anything, also which optional methods there are. -/
structure Transport (σ : Type) where
  /-- `Write(p)`: the count and the error -/
  write : σ → Bytes → (Nat × Option Err) × σ
  /-- is it an `io.StringWriter`? -/
  isStringWriter : σ → Bool
  /-- `WriteString(s)` -/
  writeString : σ → Bytes → (Nat × Option Err) × σ
  /-- is it a `thriftwire.Flusher`? (encoding/thriftwire/protocol.go:100-105) -/
  isFlusher : σ → Bool
  /-- `Flush()` -/
  flush : σ → Option Err × σ

/-- The contract of `io.Writer`: at most `len(p)` bytes are written, and an error is returned if fewer are. -/
structure Transport.Honest {σ : Type} (T : Transport σ) : Prop where
  write_le : ∀ s p, (T.write s p).1.1 ≤ p.length
  write_err : ∀ s p, (T.write s p).1.1 < p.length → (T.write s p).1.2 ≠ none
  writeString_le : ∀ s p, (T.writeString s p).1.1 ≤ p.length
  writeString_err : ∀ s p, (T.writeString s p).1.1 < p.length → (T.writeString s p).1.2 ≠ none

/-- The fields of `bufio.Writer`: `len(buf)`, `buf[:n]`, `err`, `wr`. `sent` is not in the program: it records the bytes the
transport has accepted since the writer was created or reset. -/
structure BufWriter (σ : Type) where
  size : Nat
  buf : Bytes
  err : Option Err
  wr : σ
  sent : Bytes

namespace BufWriter
variable {σ : Type} (T : Transport σ)

/-- `func (b *Writer) Available() int` -/
def available (b : BufWriter σ) : Nat := b.size - b.buf.length

/-- `func (b *Writer) Flush() error` -/
def flush (b : BufWriter σ) : Option Err × BufWriter σ :=
  match b.err with
  | some e => (some e, b)
  | none =>
    if b.buf.length = 0 then (none, b)
    else
      let r := T.write b.wr b.buf
      let n := r.1.1
      let err := if n < b.buf.length ∧ r.1.2 = none then some .shortWrite else r.1.2
      match err with
      | some e => (some e, { b with buf := b.buf.drop n, err := some e, wr := r.2, sent := b.sent ++ b.buf.take n })
      | none => (none, { b with buf := [], wr := r.2, sent := b.sent ++ b.buf.take n })

/-- The loop of `Write` and `WriteString`. `str` says that `wr.WriteString` may be used for a direct write (only by `WriteString`), otherwise a
direct write is `wr.Write` (`Write`) or not possible (`WriteString` on a transport that is no `io.StringWriter`: `direct` is false). Every round but the
last but one writes directly or flushes; the fuel in `write` suffices for honest transports. -/
def writeLoop (direct : σ → Bool) (put : σ → Bytes → (Nat × Option Err) × σ) : Nat → Bytes → BufWriter σ → Out (Option Err × BufWriter σ)
  | 0, _, _ => .diverged
  | fuel + 1, p, b =>
    if p.length > b.available ∧ b.err = none then
      if b.buf.length = 0 ∧ direct b.wr = true then
        let r := put b.wr p
        writeLoop direct put fuel (p.drop r.1.1) { b with err := r.1.2, wr := r.2, sent := b.sent ++ p.take r.1.1 }
      else
        let n := min b.available p.length
        writeLoop direct put fuel (p.drop n) (flush T { b with buf := b.buf ++ p.take n }).2
    else match b.err with
      | some e => .done (some e, b)
      | none => .done (none, { b with buf := b.buf ++ p })

/-- `func (b *Writer) Write(p []byte) (nn int, err error)` -/
def writeBytes (p : Bytes) (b : BufWriter σ) : Out (Option Err × BufWriter σ) :=
  writeLoop T (fun _ => true) T.write (p.length + 3) p b

/-- `func (b *Writer) WriteString(s string) (int, error)` -/
def writeStr (p : Bytes) (b : BufWriter σ) : Out (Option Err × BufWriter σ) :=
  writeLoop T T.isStringWriter T.writeString (p.length + 3) p b

/-- `func (b *Writer) WriteByte(c byte) error` -/
def writeByte (c : Bytes) (b : BufWriter σ) : Out (Option Err × BufWriter σ) :=
  match b.err with
  | some e => .done (some e, b)
  | none =>
    if b.available ≤ 0 then
      let r := flush T b
      match r.1 with
      | some e => .done (some e, r.2)
      | none => .done (none, { r.2 with buf := r.2.buf ++ c })
    else .done (none, { b with buf := b.buf ++ c })

/-- A write of some kind. -/
def put (kind : WKind) (p : Bytes) (b : BufWriter σ) : Out (Option Err × BufWriter σ) :=
  match kind with
  | .bytes => writeBytes T p b
  | .string => writeStr T p b
  | .byte => writeByte T p b

/-- `ensureAvailable` (thriftcompact.go:554-559) -/
def ensure (n : Nat) (b : BufWriter σ) : Option Err × BufWriter σ :=
  if b.available ≥ n then (none, b) else flush T b

/-- `bufio.NewWriter(w)` / `Reset(w)`: an empty buffer, no error. (`bufio.NewWriter` returns its argument if that already is a large enough
`*bufio.Writer`; cf. C77, C78.) -/
def new (size : Nat) (w : σ) : BufWriter σ := ⟨size, [], none, w, []⟩

end BufWriter

/-- Run a program on a `bufio.Writer`. -/
def BWProg.runBuf {σ α : Type} (T : Transport σ) : BWProg α → BufWriter σ → Out (α × BufWriter σ)
  | .ret a, b => .done (a, b)
  | .write kind p k, b => (b.put T kind p).bind fun r => (k r.1).runBuf T r.2
  | .ensure n k, b => let r := b.ensure T n; (k r.1).runBuf T r.2

/-- The calls a user makes on a writer besides `Reset`. -/
inductive WCall where
  | op (o : WOp)
  | flush

/-- A protocol writer: its own fields, its `*bufio.Writer`, and whether the field with the underlying writer (`w`, thriftbinary.go:253-258; `uw`,
thriftcompact.go:297-304) holds it or is nil. -/
structure PW (C σ : Type) where
  c : C
  b : BufWriter σ
  uw : Bool

namespace PW
variable {C σ : Type} (T : Transport σ)

/-- `thriftwire.Flush(w)` (encoding/thriftwire/protocol.go:107-114); a nil interface is no Flusher. -/
def flushTransport (x : PW C σ) : Option Err × PW C σ :=
  if x.uw = true ∧ T.isFlusher x.b.wr = true then
    let r := T.flush x.b.wr
    (r.1, { x with b := { x.b with wr := r.2 } })
  else (none, x)

/-- `Flush` (thriftbinary.go:395-400, thriftcompact.go:526-531) -/
def flush (x : PW C σ) : Option Err × PW C σ :=
  let r := x.b.flush T
  match r.1 with
  | some e => (some e, { x with b := r.2 })
  | none => flushTransport T { x with b := r.2 }

/-- One call; `impl` gives the code of the methods. -/
def step (impl : WOp → WM C Unit) : WCall → PW C σ → Out (Option Err × PW C σ)
  | .op o, x => ((impl o) x.c).runBuf T x.b |>.bind fun r => .done (errOf r.1.1, { x with c := r.1.2, b := r.2 })
  | .flush, x => .done (x.flush T)

end PW

/-- Make some calls in a row: the answers and the writer afterwards. (A program that reacts to the answers makes, in each of its runs, some
sequence of calls.) -/
def PW.run {C σ : Type} (T : Transport σ) (impl : WOp → WM C Unit) : List WCall → PW C σ → Out (List (Option Err) × PW C σ)
  | [], x => .done ([], x)
  | c :: cs, x => (x.step T impl c).bind fun r => (PW.run T impl cs r.2).bind fun q => .done (r.1 :: q.1, q.2)

/-- The binary writer: `newWriter` (thriftbinary.go:260-262) and `Reset` (402-405) -/
def Binary.newPW {σ : Type} (size : Nat) (w : σ) : PW Unit σ := ⟨(), .new size w, true⟩

/-- See `Binary.newPW`. -/
def Binary.resetPW {σ : Type} (x : PW Unit σ) (w : σ) : PW Unit σ :=
  { x with b := .new x.b.size w, uw := true }

/-- The compact writer: `NewWriter` (thriftcompact.go:30-32) -/
def Compact.newPW {σ : Type} (size : Nat) (w : σ) : PW Compact.WState σ := ⟨{}, .new size w, true⟩

/-- The compact writer's `Reset` (thriftcompact.go:533-539): all fields but the `*bufio.Writer` (which now writes to `w`) become zero, also the
field with the underlying writer. -/
def Compact.resetPW {σ : Type} (x : PW Compact.WState σ) (w : σ) : PW Compact.WState σ :=
  ⟨{}, .new x.b.size w, false⟩

end GoThrift
