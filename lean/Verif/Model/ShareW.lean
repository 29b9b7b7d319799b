import Verif.Model.BufWriter
import Verif.Model.Share

/-!
# `bufio.Writer`s of the caller's under protocol writers

`bufio.NewWriter(w)` returns `w` if that is a `*bufio.Writer` with a buffer of at least 4096 bytes; a smaller one is wrapped like any other `io.Writer`. So a protocol writer (thriftbinary.go:253-262,
thriftcompact.go:30-32, 297-304) made from a `*bufio.Writer` of the caller's works on that one, or on one of its own above it. Algorithms as in Go 1.21 (bufio/bufio.go).
-/

namespace GoThrift

namespace BufWriter
variable {σ : Type} (T : Transport σ)

/-- `writeLoop` with the count `nn` that `Write` and `WriteString` return. -/
def writeLoopN (direct : σ → Bool) (put : σ → Bytes → (Nat × Option Err) × σ) : Nat → Nat → Bytes → BufWriter σ → Out ((Nat × Option Err) × BufWriter σ)
  | 0, _, _, _ => .diverged
  | fuel + 1, nn, p, b =>
    if p.length > b.available ∧ b.err = none then
      if b.buf.length = 0 ∧ direct b.wr = true then
        let r := put b.wr p
        writeLoopN direct put fuel (nn + r.1.1) (p.drop r.1.1) { b with err := r.1.2, wr := r.2, sent := b.sent ++ p.take r.1.1 }
      else
        let n := min b.available p.length
        writeLoopN direct put fuel (nn + n) (p.drop n) (flush T { b with buf := b.buf ++ p.take n }).2
    else match b.err with
      | some e => .done ((nn, some e), b)
      | none => .done ((nn + p.length, none), { b with buf := b.buf ++ p })

/-- A `*bufio.Writer` as an `io.Writer`. It has WriteString and Flush. The loops end (on an honest transport below a buffer that is not empty), so the second cases do not occur. -/
def stack : Transport (BufWriter σ) where
  write b p :=
    match writeLoopN T (fun _ => true) T.write (p.length + 3) 0 p b with
    | .done r => r
    | _ => ((0, some .shortWrite), b)
  isStringWriter _ := true
  writeString b p :=
    match writeLoopN T T.isStringWriter T.writeString (p.length + 3) 0 p b with
    | .done r => r
    | _ => ((0, some .shortWrite), b)
  isFlusher _ := true
  flush b := b.flush T

end BufWriter

namespace Share

/-- The fields of a protocol writer apart from its `*bufio.Writer` and the `io.Writer` it was made from. -/
inductive WState where
  | binary (strict : Bool)
  | compact (c : Compact.WState)

/-- A new one's. -/
def Proto.startW : Proto → WState
  | .binary strict => .binary strict
  | .compact => .compact {}

/-- One's after Reset (thriftbinary.go:402-405, thriftcompact.go:533-539) -/
def WState.again : WState → WState
  | .binary strict => .binary strict
  | .compact _ => .compact {}

/-- The code of a method. -/
def WState.impl (st : WState) (o : WOp) : BWProg (Except Err Unit × WState) :=
  match st with
  | .binary strict => (Binary.wimpl strict o ()).bind fun r => .ret (r.1, .binary strict)
  | .compact c => (Compact.wimpl o c).bind fun r => .ret (r.1, .compact r.2)

/-- A protocol writer made from the caller's `*bufio.Writer`: its fields; its own `*bufio.Writer` (which writes to the caller's, whose state is not repeated here), or none if it has taken the caller's; and
whether the field with the underlying writer holds the caller's or is nil. -/
structure PWr where
  st : WState
  own : Option (BufWriter Unit)
  uw : Bool

/-- The caller's `*bufio.Writer` and the protocol writers made from it. -/
structure WWorld (σ : Type) where
  b : BufWriter σ
  ws : List PWr

/-- What the caller does: make a protocol writer from its `*bufio.Writer`, call a method of the `i`-th, Flush it, Reset it to the `*bufio.Writer`; or call Write, WriteString, WriteByte or Flush of the
`*bufio.Writer` itself. -/
inductive WAct where
  | new (p : Proto)
  | op (i : Nat) (o : WOp)
  | flush (i : Nat)
  | reset (i : Nat)
  | write (kind : WKind) (p : Bytes)
  | flushOwn

section
variable {σ : Type} (T : Transport σ)

/-- The `*bufio.Writer` of a protocol writer, with what it writes to. -/
def over (w : BufWriter Unit) (b : BufWriter σ) : BufWriter (BufWriter σ) := ⟨w.size, w.buf, w.err, b, w.sent⟩

/-- The other direction. -/
def above (x : BufWriter (BufWriter σ)) : BufWriter Unit := ⟨x.size, x.buf, x.err, (), x.sent⟩

/-- `NewWriter(b)` (thriftbinary.go:260-262, thriftcompact.go:30-32) with `bufio.NewWriter` -/
def newPWr (p : Proto) (b : BufWriter σ) : PWr :=
  ⟨p.startW, if b.size ≥ 4096 then none else some (.new 4096 ()), true⟩

/-- `x.Reset(b)` (thriftbinary.go:402-405, thriftcompact.go:533-539). `Reset` of a `*bufio.Writer` to itself does nothing. -/
def resetPWr (x : PWr) : PWr :=
  ⟨x.st.again, x.own.map fun w => .new w.size (), match x.st with | .binary _ => true | .compact _ => false⟩

/-- A method. -/
def opPWr (x : PWr) (o : WOp) (b : BufWriter σ) : Out (Option Err × PWr × BufWriter σ) :=
  match x.own with
  | none => ((x.st.impl o).runBuf T b).bind fun r => .done (errOf r.1.1, { x with st := r.1.2 }, r.2)
  | some w => ((x.st.impl o).runBuf (BufWriter.stack T) (over w b)).bind fun r => .done (errOf r.1.1, ⟨r.1.2, some (above r.2), x.uw⟩, r.2.wr)

/-- `Flush` (thriftbinary.go:395-400, thriftcompact.go:526-531): that of its `*bufio.Writer`, and then that of the underlying writer (protocol.go:107-114), here the caller's `*bufio.Writer`. -/
def flushPWr (x : PWr) (b : BufWriter σ) : Option Err × PWr × BufWriter σ :=
  match x.own with
  | none =>
    let r := b.flush T
    match r.1 with
    | some e => (some e, x, r.2)
    | none => if x.uw then let q := r.2.flush T; (q.1, x, q.2) else (none, x, r.2)
  | some w =>
    let r := (over w b).flush (BufWriter.stack T)
    match r.1 with
    | some e => (some e, { x with own := some (above r.2) }, r.2.wr)
    | none => if x.uw then let q := r.2.wr.flush T; (q.1, { x with own := some (above r.2) }, q.2) else (none, { x with own := some (above r.2) }, r.2.wr)

/-- One action. (The caller has no `i`-th writer if there are fewer; then nothing happens.) -/
def WWorld.step (w : WWorld σ) : WAct → Out (Option Err × WWorld σ)
  | .new p => .done (none, ⟨w.b, w.ws ++ [newPWr p w.b]⟩)
  | .op i o =>
    match w.ws[i]? with
    | none => .done (none, w)
    | some x => (opPWr T x o w.b).bind fun r => .done (r.1, ⟨r.2.2, w.ws.set i r.2.1⟩)
  | .flush i =>
    match w.ws[i]? with
    | none => .done (none, w)
    | some x => let r := flushPWr T x w.b; .done (r.1, ⟨r.2.2, w.ws.set i r.2.1⟩)
  | .reset i =>
    match w.ws[i]? with
    | none => .done (none, w)
    | some x => .done (none, ⟨w.b, w.ws.set i (resetPWr x)⟩)
  | .write kind p => (w.b.put T kind p).bind fun r => .done (r.1, ⟨r.2, w.ws⟩)
  | .flushOwn => let r := w.b.flush T; .done (r.1, ⟨r.2, w.ws⟩)

/-- Some actions in a row: the answers and the world afterwards. (A program that reacts to the answers does, in each of its runs, some sequence of actions.) -/
def WWorld.run (w : WWorld σ) : List WAct → Out (List (Option Err) × WWorld σ)
  | [] => .done ([], w)
  | a :: as => (w.step T a).bind fun r => (r.2.run as).bind fun q => .done (r.1 :: q.1, q.2)

/-- The `i`-th protocol writer as a `thriftwire.Writer`. -/
def sharedWriter (i : Nat) : Wtr (WWorld σ) where
  step o w := w.step T (.op i o)

end

end Share
end GoThrift
