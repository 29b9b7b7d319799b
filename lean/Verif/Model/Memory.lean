import Verif.Model.Bufio

/-!
# `bufio.Reader` with its array, and the code that uses slices of it

`Verif/Model/Bufio.lean` keeps the unread bytes of a `*bufio.Reader` as a value, and there `Peek` returns bytes. In the program the
unread bytes are a part `buf[r:w]` of an array that is moved and overwritten by later calls, and `Peek` returns a slice of this
array. This file models the array (Go standard library, bufio/bufio.go, Go 1.21), and the functions of
encoding/thriftwire/bufio.go and varint.go and the methods of the two protocol readers with slices where the program has slices: the
contents are looked up (`load`) where the program looks at them.
-/

namespace GoThrift.Mem

/-- The fields of `bufio.Reader`: the whole array `buf`, `r`, `w`, `err`, `rd`. An `io.Reader` may use all of `p` in `Read(p)` as
scratch space: `junk i` is what the `i`-th call leaves in the part of `p` after the bytes it reports. -/
structure ArrReader where
  buf : Bytes
  r : Nat
  w : Nat
  err : Option Err
  src : Source
  junk : Nat → Bytes

/-- A slice of the array of a `bufio.Reader`: `buf[lo:hi]`. -/
structure Slice where
  lo : Nat
  hi : Nat
  deriving DecidableEq, Repr

/-- `len(s)` -/
def Slice.len (s : Slice) : Nat := s.hi - s.lo

namespace ArrReader

/-- What is in a slice now. -/
def load (b : ArrReader) (s : Slice) : Bytes := (b.buf.take s.hi).drop s.lo

/-- `copy(b.buf[lo:], p)` -/
def store (b : ArrReader) (lo : Nat) (p : Bytes) : ArrReader :=
  { b with buf := b.buf.take lo ++ p.take (b.buf.length - lo) ++ b.buf.drop (lo + p.length) }

/-- `b.rd.Read(b.buf[lo:])`: the count and the error. -/
def readAt (b : ArrReader) (lo : Nat) : Out ((Nat × Option Err) × ArrReader) :=
  (b.src.read (b.buf.length - lo)).bind fun x =>
    .done ((x.1.1.length, x.1.2), { b.store lo (x.1.1 ++ b.junk b.src.idx) with src := x.2 })

/-- The loop of `fill` (at most `maxConsecutiveEmptyReads` reads). -/
def fillLoop : Nat → ArrReader → Out ArrReader
  | 0, b => .done { b with err := some .noProgress }
  | i + 1, b =>
    (b.readAt b.w).bind fun x =>
      let b' := { x.2 with w := x.2.w + x.1.1 }
      match x.1.2 with
      | some e => .done { b' with err := some e }
      | none => if x.1.1 > 0 then .done b' else fillLoop i b'

/-- `if b.r > 0 { copy(b.buf, b.buf[b.r:b.w]); b.w -= b.r; b.r = 0 }` -/
def slide (b : ArrReader) : ArrReader :=
  if b.r > 0 then { b.store 0 (b.load ⟨b.r, b.w⟩) with w := b.w - b.r, r := 0 } else b

/-- `func (b *Reader) fill()` -/
def fill (b : ArrReader) : Out ArrReader :=
  let b := b.slide
  if b.w ≥ b.buf.length then .panicked else fillLoop 100 b

/-- The loop of `Peek`. -/
def peekLoop : Nat → Nat → ArrReader → Out ArrReader
  | 0, _, _ => .diverged
  | fuel + 1, n, b =>
    if b.w - b.r < n ∧ b.w - b.r < b.buf.length ∧ b.err = none then b.fill.bind (peekLoop fuel n)
    else .done b

/-- `func (b *Reader) Peek(n int) ([]byte, error)`; the slice returned with an error for a negative count is nil. -/
def peek (b : ArrReader) (n : Int) : Out ((Slice × Option Err) × ArrReader) :=
  if n < 0 then .done ((⟨0, 0⟩, some .negativeCount), b)
  else (peekLoop (b.buf.length + 2) n.toNat b).bind fun b =>
    if n.toNat > b.buf.length then .done ((⟨b.r, b.w⟩, some .bufferFull), b)
    else if b.w - b.r < n.toNat then
      .done ((⟨b.r, b.r + (b.w - b.r)⟩, some (b.err.getD .bufferFull)), { b with err := none })
    else .done ((⟨b.r, b.r + n.toNat⟩, none), b)

/-- The loop of `Discard`; `remain > 0`. -/
def discardLoop : Nat → Nat → ArrReader → Out (Option Err × ArrReader)
  | 0, _, _ => .diverged
  | fuel + 1, remain, b =>
    (if b.w - b.r = 0 then b.fill else .done b).bind fun b =>
      let skip := min (b.w - b.r) remain
      let b := { b with r := b.r + skip }
      if remain - skip = 0 then .done (none, b)
      else match b.err with
        | some e => .done (some e, { b with err := none })
        | none => discardLoop fuel (remain - skip) b

/-- `func (b *Reader) Discard(n int) (discarded int, err error)`, the error. -/
def discard (b : ArrReader) (n : Int) : Out (Option Err × ArrReader) :=
  if n < 0 then .done (some .negativeCount, b)
  else if n.toNat = 0 then .done (none, b)
  else discardLoop (n.toNat + 1) n.toNat b

/-- The loop of `ReadByte`; it ends with `c := b.buf[b.r]; b.r++; return c, nil`. -/
def readByteLoop : Nat → ArrReader → Out (Except Err Byte × ArrReader)
  | 0, _ => .diverged
  | fuel + 1, b =>
    if b.r = b.w then
      match b.err with
      | some e => .done (.error e, { b with err := none })
      | none => b.fill.bind (readByteLoop fuel)
    else .done (.ok (b.buf.getD b.r 0), { b with r := b.r + 1 })

/-- `func (b *Reader) ReadByte() (byte, error)` -/
def readByte (b : ArrReader) : Out (Except Err Byte × ArrReader) := readByteLoop 2 b

/-- `func (b *Reader) Read(p []byte) (n int, err error)` with `len(p) = cap`: what is stored in `p`, and the error. A direct read is a read into
`p`, which is not part of the array. -/
def read (b : ArrReader) (cap : Nat) : Out ((Bytes × Option Err) × ArrReader) :=
  if cap = 0 then
    if b.w - b.r > 0 then .done (([], none), b) else .done (([], b.err), { b with err := none })
  else if b.r = b.w then
    match b.err with
    | some e => .done (([], some e), { b with err := none })
    | none =>
      if cap ≥ b.buf.length then
        (b.src.read cap).bind fun x => .done (x.1, { b with src := x.2 })
      else
        ({ b with r := 0, w := 0 }.readAt 0).bind fun x =>
          if x.1.1 = 0 then .done (([], x.1.2), x.2)
          else
            let n := min cap x.1.1
            .done ((x.2.load ⟨0, n⟩, none), { x.2 with r := n, w := x.1.1, err := x.1.2 })
  else
    let n := min cap (b.w - b.r)
    .done ((b.load ⟨b.r, b.r + n⟩, none), { b with r := b.r + n })

/-- The loop of `io.ReadAtLeast(b, buf, len(buf))`; `acc` is what is in `buf` so far, the destination is not part of the array. -/
def readFullLoop : Nat → Nat → Bytes → ArrReader → Out ((Bytes × Option Err) × ArrReader)
  | 0, _, _, _ => .diverged
  | fuel + 1, n, acc, b =>
    if acc.length ≥ n then .done ((acc, none), b)
    else (b.read (n - acc.length)).bind fun x =>
      let acc := acc ++ x.1.1
      match x.1.2 with
      | some e =>
        if acc.length ≥ n then .done ((acc, none), x.2)
        else .done ((acc, some (if acc.length > 0 ∧ e = .eof then .unexpectedEOF else e)), x.2)
      | none => readFullLoop fuel n acc x.2

/-- `io.ReadFull(b, buf)` with `len(buf) = n` -/
def readFull (b : ArrReader) (n : Nat) : Out ((Bytes × Option Err) × ArrReader) := readFullLoop (100 * (n + 2)) n [] b

/-- `bufio.NewReaderSize` and `Reset(r)`: the array keeps what is in it. -/
def new (buf : Bytes) (src : Source) (junk : Nat → Bytes) : ArrReader := ⟨buf, 0, 0, none, src, junk⟩

end ArrReader

/-- A program making calls on a `*bufio.Reader` (compare `BProg`): `Peek` is answered by a slice of the array; `load` looks at the contents a
slice has at this moment. -/
inductive MProg (α : Type) : Type where
  | ret (a : α)
  | diverge
  | panic
  | peek (n : Int) (k : Slice → Option Err → MProg α)
  | load (s : Slice) (k : Bytes → MProg α)
  | discard (n : Int) (k : Option Err → MProg α)
  | readByte (k : Except Err Byte → MProg α)
  | readFull (n : Nat) (k : Bytes → Option Err → MProg α)
  | size (k : Nat → MProg α)

namespace MProg

/-- Sequential composition. -/
def bind {α β : Type} : MProg α → (α → MProg β) → MProg β
  | ret a, f => f a
  | diverge, _ => diverge
  | panic, _ => panic
  | peek n k, f => peek n fun s e => (k s e).bind f
  | load s k, f => load s fun b => (k b).bind f
  | discard n k, f => discard n fun e => (k e).bind f
  | readByte k, f => readByte fun r => (k r).bind f
  | readFull n k, f => readFull n fun b e => (k b e).bind f
  | size k, f => size fun n => (k n).bind f

/-- Run a program. -/
def run {α : Type} : MProg α → ArrReader → Out (α × ArrReader)
  | .ret a, b => .done (a, b)
  | .diverge, _ => .diverged
  | .panic, _ => .panicked
  | .peek n k, b => (b.peek n).bind fun x => (k x.1.1 x.1.2).run x.2
  | .load s k, b => (k (b.load s)).run b
  | .discard n k, b => (b.discard n).bind fun x => (k x.1).run x.2
  | .readByte k, b => b.readByte.bind fun x => (k x.1).run x.2
  | .readFull n k, b => (b.readFull n).bind fun x => (k x.1.1 x.1.2).run x.2
  | .size k, b => (k b.buf.length).run b

end MProg

/-! ## encoding/thriftwire/bufio.go and varint.go -/

/-- `thriftwire.Next` (encoding/thriftwire/bufio.go:12-21): a slice of the array is returned. -/
def next (n : Int) : MProg (Slice × Option Err) :=
  .peek n fun buf err =>
  .discard buf.len fun _ =>
  .ret (buf,
    if (buf.len : Int) = n then none
    else if buf.len > 0 ∧ err = some .eof then some .unexpectedEOF
    else err)

/-- The loop of `ReadString` (bufio.go:29-42) and of `ReadBytes` (bufio.go:52-64): `sb.Write(c)` and `append(buf, c...)` copy the contents of `c`. -/
def readLoop : Nat → Int → Int → Bytes → MProg (Bytes × Option Err)
  | fuel, n, left, acc =>
    if left > 0 then
      match fuel with
      | 0 => .diverge
      | fuel + 1 =>
        .size fun sz =>
        (next (min left sz)).bind fun r =>
        .load r.1 fun c =>
          let acc := acc ++ c
          let left := left - r.1.len
          match r.2 with
          | some e => .ret (acc, some (if left ≠ n ∧ e = .eof then .unexpectedEOF else e))
          | none => readLoop fuel n left acc
    else .ret (acc, none)

/-- `thriftwire.ReadString` (encoding/thriftwire/bufio.go:24-43): `string(c)` copies the contents of `c`. -/
def wireReadString (n : Int) : MProg (Bytes × Option Err) :=
  .size fun sz =>
    if (sz : Int) ≥ n then (next n).bind fun r => .load r.1 fun c => .ret (c, r.2)
    else readLoop n.toNat n n []

/-- `thriftwire.ReadBytes` (encoding/thriftwire/bufio.go:47-65); the argument is not part of the array. -/
def wireReadBytes (n : Int) (buf : Bytes) : MProg (Bytes × Option Err) :=
  .size fun sz =>
    if (sz : Int) ≥ n then (next n).bind fun r => .load r.1 fun c => .ret (buf ++ c, r.2)
    else readLoop n.toNat n n buf

/-- Loop of `binary.ReadUvarint`, see `binReadUvarintLoop`. -/
def binReadUvarintLoop : Nat → Nat → BitVec 64 → Nat → MProg (BitVec 64 × Option Err)
  | 0, _, x, _ => .ret (x, some .varintOverflow)
  | left + 1, i, x, s => .readByte fun r => match r with
    | .error e => .ret (x, some (if i > 0 ∧ e = .eof then .unexpectedEOF else e))
    | .ok b =>
      if b < 0x80 then
        if i = maxVarintLen64 - 1 ∧ b > 1 then .ret (x, some .varintOverflow)
        else .ret (x ||| (b.setWidth 64 <<< s), none)
      else binReadUvarintLoop left (i + 1) (x ||| ((b &&& 0x7f).setWidth 64 <<< s)) (s + 7)

/-- `binary.ReadUvarint` -/
def binReadUvarint : MProg (BitVec 64 × Option Err) := binReadUvarintLoop maxVarintLen64 0 0 0

/-- `binary.ReadVarint` -/
def binReadVarint : MProg (BitVec 64 × Option Err) :=
  binReadUvarint.bind fun r => .ret (unzigzag r.1, r.2)

/-- `thriftwire.ReadUvarint` (encoding/thriftwire/varint.go:9-17). -/
def readUvarint : MProg (BitVec 64 × Option Err) :=
  .peek maxVarintLen64 fun buf _ =>
    if buf.len > 0 then
      .load buf fun c =>
        let (x, n) := uvarint c
        if n > 0 then .discard n fun err => .ret (x, err)
        else binReadUvarint
    else binReadUvarint

/-- `thriftwire.ReadVarint` (encoding/thriftwire/varint.go:20-28). -/
def readVarint : MProg (BitVec 64 × Option Err) :=
  .peek maxVarintLen64 fun buf _ =>
    if buf.len > 0 then
      .load buf fun c =>
        let (x, n) := varint c
        if n > 0 then .discard n fun err => .ret (x, err)
        else binReadVarint
    else binReadVarint

/-! ## Methods of the protocol readers -/

/-- Methods of a protocol reader (compare `RM`). -/
def MM (C α : Type) := C → MProg (Except Err α × C)

namespace MM

/-- `return a, nil` -/
def ok {C α : Type} (a : α) : MM C α := fun c => .ret (.ok a, c)

/-- `return _, err` -/
def fail {C α : Type} (e : Err) : MM C α := fun c => .ret (.error e, c)

/-- `x, err := m(); if err != nil { return err }; ...` -/
def bind {C α β : Type} (m : MM C α) (f : α → MM C β) : MM C β := fun c =>
  (m c).bind fun r => match r with
    | (.ok a, c') => f a c'
    | (.error e, c') => .ret (.error e, c')

instance {C : Type} : Monad (MM C) where
  pure := ok
  bind := bind

/-- A call returning a value and an error, none of the fields involved. -/
def lift {C α : Type} (p : MProg (Except Err α)) : MM C α := fun c => p.bind fun r => .ret (r, c)

/-- Read the fields. -/
def get {C : Type} : MM C C := fun c => .ret (.ok c, c)

/-- Write the fields. -/
def set {C : Type} (c : C) : MM C Unit := fun _ => .ret (.ok (), c)

/-- `buf, err := thriftwire.Next(x.Reader, n); if err != nil { return 0, err }; return f(buf), nil` where `f` is one of `binary.BigEndian.Uint16`,
`Uint32`, `Uint64`, `binary.LittleEndian.Uint64`: it panics if the slice is too short, otherwise it looks at the contents of the slice after
`Next` has returned (thriftbinary.go:171-201, thriftcompact.go:223-229). -/
def fixed {C : Type} (n : Nat) (f : Bytes → Nat) : MM C Nat := fun c =>
  (next n).bind fun r => match r.2 with
    | some e => .ret (.error e, c)
    | none => if r.1.len < n then .panic else .load r.1 fun buf => .ret (.ok (f buf), c)

end MM

namespace Binary

open GoThrift.Binary (getBE versionMask version1)
open MM

abbrev M := MM Unit

/-- `(*bufio.Reader).ReadByte`, promoted (thriftbinary.go:62) -/
def readByte : M Byte := lift (.readByte fun r => .ret r)

/-- thriftbinary.go:179-185 -/
def readI16 : M (BitVec 16) := do
  let v ← fixed 2 getBE
  pure (BitVec.ofNat 16 v)

/-- thriftbinary.go:187-193 -/
def readI32 : M (BitVec 32) := do
  let v ← fixed 4 getBE
  pure (BitVec.ofNat 32 v)

/-- thriftbinary.go:195-201 -/
def readI64 : M (BitVec 64) := do
  let v ← fixed 8 getBE
  pure (BitVec.ofNat 64 v)

/-- thriftbinary.go:171-177 -/
def readDouble : M (BitVec 64) := do
  let v ← fixed 8 getBE
  pure (BitVec.ofNat 64 v)

/-- thriftbinary.go:166-169 -/
def readBool : M Bool := do
  let v ← readByte
  pure (v != 0)

/-- thriftbinary.go:248-251 -/
def readSize : M (BitVec 64) := do
  let v ← readI32
  pure (v.signExtend 64)

/-- thriftbinary.go:203-209 -/
def readString : M Bytes := do
  let n ← readSize
  lift ((wireReadString n.toInt).bind fun r => .ret (toExcept r))

/-- thriftbinary.go:211-217 -/
def readBytes (buf : Bytes) : M Bytes := do
  let n ← readSize
  lift ((wireReadBytes n.toInt buf).bind fun r => .ret (toExcept r))

/-- thriftbinary.go:219-222 -/
def readUUID : M Bytes := lift (.readFull 16 fun b e => .ret (toExcept (b, e)))

/-- `_, err = x.Discard(n)` -/
def discard (n : Int) : M Unit := lift (.discard n fun e => .ret (toExcept ((), e)))

/-- thriftbinary.go:224-231 -/
def skipString : M Unit := do
  let n ← readSize
  discard n.toInt

/-- thriftbinary.go:233-236 -/
def skipUUID : M Unit := discard 16

/-- thriftbinary.go:114-121 -/
def readFieldBegin : M FieldHeader := do
  let t ← readByte
  if t = Ty.stop then pure ⟨[], t, 0⟩
  else do
    let id ← readI16
    pure ⟨[], t, id⟩

/-- thriftbinary.go:127-138 -/
def readMapBegin : M MapHeader := do
  let k ← readByte
  let v ← readByte
  let n ← readSize
  pure ⟨k, v, n⟩

/-- thriftbinary.go:144-151 (sets) and 157-160 (lists) -/
def readSetBegin : M SetHeader := do
  let e ← readByte
  let n ← readSize
  pure ⟨e, n⟩

/-- thriftbinary.go:70-100 -/
def readMessageBegin (strict : Bool) : M MessageHeader := do
  let n ← readSize
  if n.toInt < 0 then
    let version := n &&& versionMask
    if version ≠ version1.setWidth 64 then fail (.binBadVersion version)
    else do
      let name ← readString
      let id ← readI32
      pure ⟨name, n.setWidth 8, id⟩
  else if strict then fail .binMissingVersion
  else do
    let name ← lift ((wireReadString n.toInt).bind fun r => .ret (toExcept r))
    let t ← readByte
    let id ← readI32
    pure ⟨name, t, id⟩

/-- The binary reader's method table (see `Binary.impl`). -/
def impl (strict : Bool) : (o : ROp) → M o.Ans
  | .messageBegin => readMessageBegin strict
  | .messageEnd => pure ()
  | .structBegin => pure []
  | .structEnd => pure ()
  | .fieldBegin => readFieldBegin
  | .fieldEnd => pure ()
  | .mapBegin => readMapBegin
  | .mapEnd => pure ()
  | .setBegin => readSetBegin
  | .setEnd => pure ()
  | .listBegin => readSetBegin
  | .listEnd => pure ()
  | .bool => readBool
  | .byte => readByte
  | .double => readDouble
  | .i16 => readI16
  | .i32 => readI32
  | .i64 => readI64
  | .string => readString
  | .bytes buf => readBytes buf
  | .uuid => readUUID
  | .skipString => skipString
  | .skipUUID => skipUUID

/-- The binary reader on a `bufio.Reader` with its array (thriftbinary.go:61-68). -/
def reader (strict : Bool) : Rdr (Unit × ArrReader) where
  step o s := ((impl strict o) s.1).run s.2 |>.bind fun r => .done (r.1.1, (r.1.2, r.2))

end Binary

namespace Compact

open GoThrift.Compact (RState getLE wire protocolID version1)
open MM

abbrev M := MM RState

/-- `(*bufio.Reader).ReadByte`, promoted (thriftcompact.go:39) -/
def readByte : M Byte := lift (.readByte fun r => .ret r)

/-- An error computed without I/O. -/
def ofExcept {α : Type} (r : Except Err α) : M α := lift (.ret r)

/-- thriftcompact.go:280-287 -/
def readUvarint : M (BitVec 64) := lift (Mem.readUvarint.bind fun r => .ret (toExcept r))

/-- function `readSize`, thriftcompact.go:137-140 -/
def readSize : M (BitVec 64) := lift (binReadUvarint.bind fun r => .ret (toExcept r))

/-- thriftcompact.go:241-243 -/
def readI64 : M (BitVec 64) := lift (binReadVarint.bind fun r => .ret (toExcept r))

/-- thriftcompact.go:236-239 -/
def readI32 : M (BitVec 32) := do
  let v ← readI64
  pure (v.setWidth 32)

/-- thriftcompact.go:231-234 -/
def readI16 : M (BitVec 16) := do
  let v ← readI64
  pure (v.setWidth 16)

/-- thriftcompact.go:223-229 -/
def readDouble : M (BitVec 64) := do
  let v ← fixed 8 getLE
  pure (BitVec.ofNat 64 v)

/-- thriftcompact.go:213-221 -/
def readBool : M Bool := do
  let c ← get
  match c.boolField with
  | .none => do
    let v ← readByte
    pure (v != 0)
  | .true => do
    set { c with boolField := .none }
    pure true
  | .false => do
    set { c with boolField := .none }
    pure false

/-- thriftcompact.go:245-251 -/
def readString : M Bytes := do
  let n ← readUvarint
  lift ((wireReadString n.toInt).bind fun r => .ret (toExcept r))

/-- thriftcompact.go:253-259 -/
def readBytes (buf : Bytes) : M Bytes := do
  let n ← readUvarint
  lift ((wireReadBytes n.toInt buf).bind fun r => .ret (toExcept r))

/-- thriftcompact.go:261-264 -/
def readUUID : M Bytes := lift (.readFull 16 fun b e => .ret (toExcept (b, e)))

/-- `_, err = x.Discard(n)` -/
def discard (n : Int) : M Unit := lift (.discard n fun e => .ret (toExcept ((), e)))

/-- thriftcompact.go:266-273 -/
def skipString : M Unit := do
  let n ← readUvarint
  discard n.toInt

/-- thriftcompact.go:275-278 -/
def skipUUID : M Unit := discard 16

/-- thriftcompact.go:94-98 -/
def readStructBegin : M Bytes := do
  let c ← get
  set { c with ids := c.last :: c.ids, last := 0 }
  pure []

/-- thriftcompact.go:100-107 -/
def readStructEnd : M Unit := do
  let c ← get
  match c.ids with
  | [] => fail .readStructEndUnbalanced
  | id :: ids => set { c with ids := ids, last := id }

/-- thriftcompact.go:109-131 -/
def readFieldBegin : M FieldHeader := do
  let dt ← readByte
  let t := dt &&& 15
  let ty ← ofExcept (wire t)
  if ty = Ty.stop then pure ⟨[], ty, 0⟩
  else do
    let modifier : BitVec 16 := (dt >>> 4).setWidth 16
    let c ← get
    let id ← if modifier = 0 then readI16 else pure (c.last + modifier)
    let c ← get
    set { c with last := id, boolField := c.boolField.setBy t }
    pure ⟨[], ty, id⟩

/-- `ReadMapHeader` thriftcompact.go:143-161, `ReadMapBegin` 163-165 -/
def readMapBegin : M MapHeader := do
  let n ← readSize
  if n = 0 then pure ⟨Ty.stop, Ty.stop, n⟩
  else do
    let kv ← readByte
    let k ← ofExcept (wire (kv >>> 4))
    let v ← ofExcept (wire (kv &&& 15))
    pure ⟨k, v, n⟩

/-- `ReadSetHeader` thriftcompact.go:172-189, `ReadListHeader` 200-203, `ReadSetBegin` 191-193, `ReadListBegin` 205-207 -/
def readSetBegin : M SetHeader := do
  let st ← readByte
  let e ← ofExcept (wire (st &&& 15))
  let n : BitVec 64 := (st >>> 4).setWidth 64
  if n = 15 then do
    let n ← readSize
    pure ⟨e, n⟩
  else pure ⟨e, n⟩

/-- thriftcompact.go:62-88 -/
def readMessageBegin : M MessageHeader := do
  let p ← readByte
  if p ≠ protocolID then fail (.compactBadProtocolID p)
  else do
    let vt ← readByte
    let version := vt &&& 0x1f
    if version ≠ version1 then fail (.compactBadVersion version)
    else do
      let id ← readUvarint
      let name ← readString
      pure ⟨name, vt >>> 5, id.setWidth 32⟩

/-- The compact reader's method table (see `Compact.impl`). -/
def impl : (o : ROp) → M o.Ans
  | .messageBegin => readMessageBegin
  | .messageEnd => pure ()
  | .structBegin => readStructBegin
  | .structEnd => readStructEnd
  | .fieldBegin => readFieldBegin
  | .fieldEnd => pure ()
  | .mapBegin => readMapBegin
  | .mapEnd => pure ()
  | .setBegin => readSetBegin
  | .setEnd => pure ()
  | .listBegin => readSetBegin
  | .listEnd => pure ()
  | .bool => readBool
  | .byte => readByte
  | .double => readDouble
  | .i16 => readI16
  | .i32 => readI32
  | .i64 => readI64
  | .string => readString
  | .bytes buf => readBytes buf
  | .uuid => readUUID
  | .skipString => skipString
  | .skipUUID => skipUUID

/-- The compact reader on a `bufio.Reader` with its array (thriftcompact.go:34-43). -/
def reader : Rdr (RState × ArrReader) where
  step o s := ((impl o) s.1).run s.2 |>.bind fun r => .done (r.1.1, (r.1.2, r.2))

end Compact

/-! ## A user of package thriftwire -/

/-- Calls of the functions of encoding/thriftwire/bufio.go and varint.go on one `*bufio.Reader`. -/
inductive Call where
  | next (n : Int)
  | readString (n : Int)
  | readBytes (n : Int) (buf : Bytes)
  | readUvarint
  | readVarint

/-- What a call returned, as the user holds it: a slice of the array, or something of their own. -/
inductive Kept where
  | slice (s : Slice) (e : Option Err)
  | bytes (b : Bytes) (e : Option Err)
  | number (x : BitVec 64) (e : Option Err)

/-- The calls as programs. -/
def Call.prog : Call → MProg Kept
  | .next n => (Mem.next n).bind fun r => .ret (.slice r.1 r.2)
  | .readString n => (wireReadString n).bind fun r => .ret (.bytes r.1 r.2)
  | .readBytes n buf => (wireReadBytes n buf).bind fun r => .ret (.bytes r.1 r.2)
  | .readUvarint => Mem.readUvarint.bind fun r => .ret (.number r.1 r.2)
  | .readVarint => Mem.readVarint.bind fun r => .ret (.number r.1 r.2)

/-- What the user sees looking at a result when the reader is in state `b`. -/
def Kept.look (b : ArrReader) : Kept → (Bytes ⊕ BitVec 64) × Option Err
  | .slice s e => (.inl (b.load s), e)
  | .bytes c e => (.inl c, e)
  | .number x e => (.inr x, e)

/-- A session: the calls made one after another, all results kept. -/
def session : List Call → ArrReader → Out (List Kept × ArrReader)
  | [], b => .done ([], b)
  | c :: cs, b => (c.prog.run b).bind fun x => (session cs x.2).bind fun y => .done (x.1 :: y.1, y.2)

end GoThrift.Mem
