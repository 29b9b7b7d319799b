import Verif.Model.BufWriter

/-!
# `bufio.Writer` with its array, and the code that writes from scratch memory

`Verif/Model/BufWriter.lean` keeps the buffered bytes of a `*bufio.Writer` as a value, and every write is given bytes. In the program the
buffered bytes are a part `buf[:n]` of an array; numbers are put into a scratch array of the protocol writer, and a slice of this array is
written; the compact writer appends headers to `AvailableBuffer()`, the free part of the array of the `bufio.Writer` itself, and passes
the result to its `Write`. This file models these arrays (bufio.Writer: Go standard library, bufio/bufio.go, Go 1.21).
-/

namespace GoThrift.Mem

/-- The fields of `bufio.Writer`: the whole array `buf`, `n`, `err`, `wr`; `sent` as in `BufWriter`. -/
structure ArrWriter (σ : Type) where
  buf : Bytes
  n : Nat
  err : Option Err
  wr : σ
  sent : Bytes

/-- The memory of a protocol writer: its `bufio.Writer` and its scratch array (the field `buf`, thriftbinary.go:256, thriftcompact.go:300). -/
structure WMem (σ : Type) where
  b : ArrWriter σ
  scratch : Bytes

/-- A slice of bytes: with memory of its own (or a string), a part `x.buf[lo:hi]` of the scratch array, or a part `buf[lo:hi]` of the array of the
`bufio.Writer`. A slice of the latter has the rest of the array as capacity. -/
inductive Src where
  | own (p : Bytes)
  | scratch (lo hi : Nat)
  | arr (lo hi : Nat)

namespace WMem
variable {σ : Type} (T : Transport σ)

/-- What is in a slice now. -/
def load (m : WMem σ) : Src → Bytes
  | .own p => p
  | .scratch lo hi => (m.scratch.take hi).drop lo
  | .arr lo hi => (m.b.buf.take hi).drop lo

/-- `s[k:]` -/
def _root_.GoThrift.Mem.Src.drop : Src → Nat → Src
  | .own p, k => .own (p.drop k)
  | .scratch lo hi, k => .scratch (lo + k) hi
  | .arr lo hi, k => .arr (lo + k) hi

/-- `copy(b.buf[lo:], p)`; `p` may overlap. -/
def store (m : WMem σ) (lo : Nat) (p : Bytes) : WMem σ :=
  { m with b := { m.b with buf := m.b.buf.take lo ++ p.take (m.b.buf.length - lo) ++ m.b.buf.drop (lo + p.length) } }

/-- `func (b *Writer) Available() int` -/
def available (m : WMem σ) : Nat := m.b.buf.length - m.b.n

/-- `func (b *Writer) Flush() error` -/
def flush (m : WMem σ) : Option Err × WMem σ :=
  match m.b.err with
  | some e => (some e, m)
  | none =>
    if m.b.n = 0 then (none, m)
    else
      let p := m.load (.arr 0 m.b.n)
      let r := T.write m.b.wr p
      let k := r.1.1
      let m1 : WMem σ := { m with b := { m.b with wr := r.2, sent := m.b.sent ++ p.take k } }
      let err := if k < m.b.n ∧ r.1.2 = none then some .shortWrite else r.1.2
      match err with
      | some e =>
        -- if n > 0 && n < b.n { copy(b.buf[0:b.n-n], b.buf[n:b.n]) }; b.n -= n; b.err = err
        let m2 := if k > 0 ∧ k < m.b.n then m1.store 0 (m1.load (.arr k m.b.n)) else m1
        (some e, { m2 with b := { m2.b with n := m.b.n - k, err := some e } })
      | none => (none, { m1 with b := { m1.b with n := 0 } })

/-- The loop of `Write` and `WriteString`, see `BufWriter.writeLoop`. The contents of the argument are looked up in every round. -/
def writeLoop (direct : σ → Bool) (put : σ → Bytes → (Nat × Option Err) × σ) : Nat → Src → WMem σ → Out (Option Err × WMem σ)
  | 0, _, _ => .diverged
  | fuel + 1, s, m =>
    let p := m.load s
    if p.length > m.available ∧ m.b.err = none then
      if m.b.n = 0 ∧ direct m.b.wr = true then
        let r := put m.b.wr p
        writeLoop direct put fuel (s.drop r.1.1) { m with b := { m.b with err := r.1.2, wr := r.2, sent := m.b.sent ++ p.take r.1.1 } }
      else
        let k := min m.available p.length
        let m1 := m.store m.b.n p
        let m2 : WMem σ := { m1 with b := { m1.b with n := m1.b.n + k } }
        writeLoop direct put fuel (s.drop k) (flush T m2).2
    else match m.b.err with
      | some e => .done (some e, m)
      | none =>
        let m1 := m.store m.b.n p
        .done (none, { m1 with b := { m1.b with n := m1.b.n + p.length } })

/-- `func (b *Writer) WriteByte(c byte) error` -/
def writeByte (s : Src) (m : WMem σ) : Out (Option Err × WMem σ) :=
  match m.b.err with
  | some e => .done (some e, m)
  | none =>
    let f := if m.available ≤ 0 then flush T m else (none, m)
    match f.1 with
    | some e => .done (some e, f.2)
    | none =>
      let m1 := f.2.store f.2.b.n (f.2.load s)
      .done (none, { m1 with b := { m1.b with n := m1.b.n + 1 } })

/-- A write of some kind. -/
def write (kind : WKind) (s : Src) (m : WMem σ) : Out (Option Err × WMem σ) :=
  match kind with
  | .bytes => writeLoop T (fun _ => true) T.write ((m.load s).length + 3) s m
  | .string => writeLoop T T.isStringWriter T.writeString ((m.load s).length + 3) s m
  | .byte => writeByte T s m

/-- `ensureAvailable` (thriftcompact.go:554-559) -/
def ensure (n : Nat) (m : WMem σ) : Option Err × WMem σ :=
  if m.available ≥ n then (none, m) else flush T m

/-- `append(s, c)`: in place if the capacity suffices, otherwise in new memory. -/
def append (s : Src) (c : Byte) (m : WMem σ) : Src × WMem σ :=
  match s with
  | .arr lo hi => if hi < m.b.buf.length then (.arr lo (hi + 1), m.store hi [c]) else (.own (m.load s ++ [c]), m)
  | s => (.own (m.load s ++ [c]), m)

/-- Store at the beginning of the scratch array; panics if there is no room (`binary.BigEndian.PutUint16` etc., `binary.PutUvarint`). -/
def put (p : Bytes) (m : WMem σ) : Out (WMem σ) :=
  if p.length ≤ m.scratch.length then .done { m with scratch := p ++ m.scratch.drop p.length } else .panicked

end WMem

/-- A program of a protocol writer (compare `BWProg`). -/
inductive MWProg (α : Type) : Type where
  | ret (a : α)
  | write (kind : WKind) (s : Src) (k : Option Err → MWProg α)
  | ensure (n : Nat) (k : Option Err → MWProg α)
  /-- `x.AvailableBuffer()`: `b.buf[b.n:][:0]` -/
  | availableBuffer (k : Src → MWProg α)
  | append (s : Src) (c : Byte) (k : Src → MWProg α)
  | put (p : Bytes) (k : MWProg α)

namespace MWProg

/-- Sequential composition. -/
def bind {α β : Type} : MWProg α → (α → MWProg β) → MWProg β
  | ret a, f => f a
  | write kind s k, f => write kind s fun e => (k e).bind f
  | ensure n k, f => ensure n fun e => (k e).bind f
  | availableBuffer k, f => availableBuffer fun s => (k s).bind f
  | append s c k, f => append s c fun s => (k s).bind f
  | put p k, f => put p (k.bind f)

/-- Run a program. -/
def run {σ α : Type} (T : Transport σ) : MWProg α → WMem σ → Out (α × WMem σ)
  | .ret a, m => .done (a, m)
  | .write kind s k, m => (m.write T kind s).bind fun r => (k r.1).run T r.2
  | .ensure n k, m => let r := m.ensure T n; (k r.1).run T r.2
  | .availableBuffer k, m => (k (.arr m.b.n m.b.n)).run T m
  | .append s c k, m => let r := m.append s c; (k r.1).run T r.2
  | .put p k, m => (m.put p).bind fun m => k.run T m

end MWProg

/-- Methods of a protocol writer (compare `WM`). -/
def MWM (C α : Type) := C → MWProg (Except Err α × C)

namespace MWM

/-- `return nil` -/
def ok {C α : Type} (a : α) : MWM C α := fun c => .ret (.ok a, c)

/-- `return err` -/
def fail {C α : Type} (e : Err) : MWM C α := fun c => .ret (.error e, c)

/-- `if err := m; err != nil { return err }; ...` -/
def bind {C α β : Type} (m : MWM C α) (f : α → MWM C β) : MWM C β := fun c =>
  (m c).bind fun r => match r with
    | (.ok a, c') => f a c'
    | (.error e, c') => .ret (.error e, c')

instance {C : Type} : Monad (MWM C) where
  pure := ok
  bind := bind

/-- Read the fields. -/
def get {C : Type} : MWM C C := fun c => .ret (.ok c, c)

/-- Write the fields. -/
def set {C : Type} (c : C) : MWM C Unit := fun _ => .ret (.ok (), c)

/-- An optional error as a result. -/
def res {C : Type} (e : Option Err) (c : C) : MWProg (Except Err Unit × C) :=
  match e with
  | none => .ret (.ok (), c)
  | some e => .ret (.error e, c)

/-- `_, err := x.Write(s); if err != nil { return err }` (or WriteString/WriteByte) -/
def write {C : Type} (kind : WKind) (s : Src) : MWM C Unit := fun c => .write kind s fun e => res e c

/-- Put a number into the scratch array, write the first `n` bytes of it: `buf := x.buf[:n]; binary.BigEndian.PutUint16(buf, v); _, err := x.Write(buf)` -/
def number {C : Type} (n : Nat) (p : Bytes) : MWM C Unit := fun c => .put p (.write .bytes (.scratch 0 n) fun e => res e c)

/-- Append byte by byte, as `append(buf, c)` and `binary.AppendUvarint` do. -/
def appendAll {C : Type} : Bytes → Src → (Src → MWProg (Except Err Unit × C)) → MWProg (Except Err Unit × C)
  | [], s, k => k s
  | c :: cs, s, k => .append s c fun s => appendAll cs s k

/-- `appendWrite` (thriftcompact.go:541-552); `r` is what `f` appends, or the error it returns before appending anything. -/
def appendWrite {C : Type} (max : Nat) (r : Except Err Bytes) : MWM C Unit := fun c =>
  .ensure max fun e => match e with
    | some e => .ret (.error e, c)
    | none => .availableBuffer fun buf => match r with
      | .error e => .ret (.error e, c)
      | .ok p => appendAll p buf fun buf => .write .bytes buf fun e => res e c

end MWM

namespace Binary

open GoThrift.Binary (putBE version1 lenInt)
open MWM

abbrev W := MWM Unit

/-- thriftbinary.go:353-358 -/
def writeI16 (v : BitVec 16) : W Unit := number 2 (putBE 2 v.toNat)
/-- thriftbinary.go:360-365 -/
def writeI32 (v : BitVec 32) : W Unit := number 4 (putBE 4 v.toNat)
/-- thriftbinary.go:367-372 -/
def writeI64 (v : BitVec 64) : W Unit := number 8 (putBE 8 v.toNat)
/-- thriftbinary.go:346-351 -/
def writeDouble (v : BitVec 64) : W Unit := number 8 (putBE 8 v.toNat)
/-- thriftbinary.go:407-413 and the promoted `(*bufio.Writer).WriteByte` -/
def writeByte (v : Byte) : W Unit := write .byte (.own [v])
/-- thriftbinary.go:415-417 -/
def writeSize (v : BitVec 64) : W Unit := writeI32 (v.setWidth 32)

/-- thriftbinary.go:374-380 -/
def writeString (v : Bytes) : W Unit := do
  writeSize (lenInt v)
  write .string (.own v)

/-- thriftbinary.go:382-388 -/
def writeBytes (v : Bytes) : W Unit := do
  writeSize (lenInt v)
  write .bytes (.own v)

/-- thriftbinary.go:264-281 -/
def writeMessageBegin (strict : Bool) (h : MessageHeader) : W Unit :=
  if strict then do
    writeI32 (h.type.setWidth 32 ||| version1)
    writeString h.name
    writeI32 h.id
  else do
    writeString h.name
    writeByte h.type
    writeI32 h.id

/-- thriftbinary.go:295-300 -/
def writeFieldBegin (h : FieldHeader) : W Unit := do
  writeByte h.type
  writeI16 h.id

/-- thriftbinary.go:306-314 -/
def writeMapBegin (h : MapHeader) : W Unit := do
  writeByte h.key
  writeByte h.value
  writeSize h.size

/-- thriftbinary.go:320-325 (sets), 331-333 (lists) -/
def writeSetBegin (h : SetHeader) : W Unit := do
  writeByte h.element
  writeSize h.size

/-- The binary writer's method table (see `Binary.wimpl`). -/
def wimpl (strict : Bool) : WOp → W Unit
  | .messageBegin h => writeMessageBegin strict h
  | .messageEnd => pure ()
  | .structBegin _ => pure ()
  | .structEnd => writeByte Ty.stop
  | .fieldBegin h => writeFieldBegin h
  | .fieldEnd => pure ()
  | .mapBegin h => writeMapBegin h
  | .mapEnd => pure ()
  | .setBegin h => writeSetBegin h
  | .setEnd => pure ()
  | .listBegin h => writeSetBegin h
  | .listEnd => pure ()
  | .bool v => if v then writeByte 1 else writeByte 0
  | .byte v => writeByte v
  | .double v => writeDouble v
  | .i16 v => writeI16 v
  | .i32 v => writeI32 v
  | .i64 v => writeI64 v
  | .string v => writeString v
  | .bytes v => writeBytes v
  | .uuid v => write .bytes (.own v)

end Binary

namespace Compact

open GoThrift.Compact (WState CT.stop putLE protocolID version1 lenInt appendFieldHeader appendMapHeader appendSetHeader maxFieldHeaderSize
  maxMapHeaderSize maxSetHeaderSize)
open MWM

abbrev W := MWM WState

/-- thriftcompact.go:377-384 -/
def writeFieldHeader (h : FieldHeader) (isTrue : Bool) : W Unit := do
  let c ← get
  appendWrite maxFieldHeaderSize (appendFieldHeader h isTrue c.last)
  let c ← get
  set { c with last := h.id }

/-- promoted `(*bufio.Writer).WriteByte` -/
def writeByte (v : Byte) : W Unit := write .byte (.own [v])

/-- thriftcompact.go:561-566: `n := binary.PutUvarint(buf, v)` is the number of bytes put. -/
def writeUvarint (v : BitVec 64) : W Unit := number (putUvarint v).length (putUvarint v)

/-- thriftcompact.go:568-570 -/
def writeSize (v : BitVec 64) : W Unit := writeUvarint v

/-- thriftcompact.go:505-511 -/
def writeString (v : Bytes) : W Unit := do
  writeSize (lenInt v)
  write .string (.own v)

/-- thriftcompact.go:513-519 -/
def writeBytes (v : Bytes) : W Unit := do
  writeSize (lenInt v)
  write .bytes (.own v)

/-- thriftcompact.go:498-503 -/
def writeI64 (v : BitVec 64) : W Unit := number (putVarint v).length (putVarint v)

/-- thriftcompact.go:483-488 -/
def writeDouble (v : BitVec 64) : W Unit := number 8 (putLE 8 v.toNat)

/-- thriftcompact.go:306-320 -/
def writeMessageBegin (h : MessageHeader) : W Unit := do
  writeByte protocolID
  writeByte (version1 ||| (h.type <<< 5))
  writeUvarint (h.id.signExtend 64)
  writeString h.name

/-- thriftcompact.go:326-330 -/
def writeStructBegin : W Unit := do
  let c ← get
  set { c with ids := c.last :: c.ids, last := 0 }

/-- thriftcompact.go:332-339 -/
def writeStructEnd : W Unit := do
  let c ← get
  match c.ids with
  | [] => fail .writeStructEndUnbalanced
  | id :: ids => do
    set { c with ids := ids, last := id }
    writeByte GoThrift.Compact.CT.stop

/-- thriftcompact.go:386-392 -/
def writeFieldBegin (h : FieldHeader) : W Unit :=
  if h.type = Ty.bool then do
    let c ← get
    set { c with boolField := h }
  else writeFieldHeader h false

/-- thriftcompact.go:468-481 -/
def writeBool (v : Bool) : W Unit := do
  let c ← get
  if c.boolField.type ≠ Ty.stop then do
    writeFieldHeader c.boolField v
    let c ← get
    set { c with boolField := { c.boolField with type := Ty.stop } }
  else if v then writeByte 1
  else writeByte 0

/-- The compact writer's method table (see `Compact.wimpl`). -/
def wimpl : WOp → W Unit
  | .messageBegin h => writeMessageBegin h
  | .messageEnd => pure ()
  | .structBegin _ => writeStructBegin
  | .structEnd => writeStructEnd
  | .fieldBegin h => writeFieldBegin h
  | .fieldEnd => pure ()
  | .mapBegin h => appendWrite maxMapHeaderSize (appendMapHeader h)
  | .mapEnd => pure ()
  | .setBegin h => appendWrite maxSetHeaderSize (appendSetHeader h)
  | .setEnd => pure ()
  | .listBegin h => appendWrite maxSetHeaderSize (appendSetHeader h)
  | .listEnd => pure ()
  | .bool v => writeBool v
  | .byte v => writeByte v
  | .double v => writeDouble v
  | .i16 v => writeI64 (v.signExtend 64)
  | .i32 v => writeI64 (v.signExtend 64)
  | .i64 v => writeI64 v
  | .string v => writeString v
  | .bytes v => writeBytes v
  | .uuid v => write .bytes (.own v)

end Compact

/-- A protocol writer with its memory (compare `PW`). -/
structure MPW (C σ : Type) where
  c : C
  m : WMem σ
  uw : Bool

namespace MPW
variable {C σ : Type} (T : Transport σ)

/-- `thriftwire.Flush(w)` (encoding/thriftwire/protocol.go:107-114) -/
def flushTransport (x : MPW C σ) : Option Err × MPW C σ :=
  if x.uw = true ∧ T.isFlusher x.m.b.wr = true then
    let r := T.flush x.m.b.wr
    (r.1, { x with m := { x.m with b := { x.m.b with wr := r.2 } } })
  else (none, x)

/-- `Flush` (thriftbinary.go:395-400, thriftcompact.go:526-531) -/
def flush (x : MPW C σ) : Option Err × MPW C σ :=
  let r := x.m.flush T
  match r.1 with
  | some e => (some e, { x with m := r.2 })
  | none => flushTransport T { x with m := r.2 }

/-- One call. -/
def step (impl : WOp → MWM C Unit) : WCall → MPW C σ → Out (Option Err × MPW C σ)
  | .op o, x => ((impl o) x.c).run T x.m |>.bind fun r => .done (errOf r.1.1, { x with c := r.1.2, m := r.2 })
  | .flush, x => .done (x.flush T)

/-- Some calls in a row. -/
def run (impl : WOp → MWM C Unit) : List WCall → MPW C σ → Out (List (Option Err) × MPW C σ)
  | [], x => .done ([], x)
  | c :: cs, x => (x.step T impl c).bind fun r => (run impl cs r.2).bind fun q => .done (r.1 :: q.1, q.2)

/-- A new writer, or one that was `Reset`: the arrays keep what is in them. -/
def new (c : C) (buf scratch : Bytes) (w : σ) (uw : Bool) : MPW C σ := ⟨c, ⟨⟨buf, 0, none, w, []⟩, scratch⟩, uw⟩

end MPW

end GoThrift.Mem
