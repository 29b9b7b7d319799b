import Verif.Model.Byte

/-!
# Varints: `encoding/binary` of the Go standard library and encoding/thriftwire/varint.go
-/

namespace GoThrift

/-- Pair `(value, err)` as Go code uses it after `if err != nil { return err }`. The value returned next to
a non-nil error is dropped (every caller in the repository ignores it). -/
def toExcept {α : Type} (r : α × Option Err) : Except Err α :=
  match r.2 with
  | none => .ok r.1
  | some e => .error e

/-- `binary.MaxVarintLen64` -/
abbrev maxVarintLen64 : Nat := 10

/-- Loop of `binary.Uvarint(buf)` (Go standard library): `i` bytes were processed, `x` accumulates, `s = 7*i`. -/
def uvarintLoop (i : Nat) (x : BitVec 64) (s : Nat) : Bytes → BitVec 64 × Int
  | [] => (0, 0)
  | b :: bs =>
    if i = maxVarintLen64 then (0, -((i : Int) + 1))
    else if b < 0x80 then
      if i = maxVarintLen64 - 1 ∧ b > 1 then (0, -((i : Int) + 1))
      else (x ||| (b.setWidth 64 <<< s), (i : Int) + 1)
    else uvarintLoop (i + 1) (x ||| ((b &&& 0x7f).setWidth 64 <<< s)) (s + 7) bs

/-- `binary.Uvarint` -/
def uvarint (buf : Bytes) : BitVec 64 × Int := uvarintLoop 0 0 0 buf

/-- Zigzag decoding shared by `binary.Varint` and `binary.ReadVarint`:
`x := int64(ux >> 1); if ux&1 != 0 { x = ^x }`. -/
def unzigzag (ux : BitVec 64) : BitVec 64 :=
  if ux &&& 1 ≠ 0 then ~~~(ux >>> 1) else ux >>> 1

/-- Zigzag encoding of `binary.PutVarint`/`AppendVarint`: `ux := uint64(x) << 1; if x < 0 { ux = ^ux }`. -/
def zigzag (x : BitVec 64) : BitVec 64 :=
  if x.toInt < 0 then ~~~(x <<< 1) else x <<< 1

/-- `binary.Varint` -/
def varint (buf : Bytes) : BitVec 64 × Int :=
  let r := uvarint buf
  (unzigzag r.1, r.2)

/-- Loop of `binary.ReadUvarint`: first argument is the number of iterations left out of `MaxVarintLen64`. -/
def binReadUvarintLoop : Nat → Nat → BitVec 64 → Nat → BProg (BitVec 64 × Option Err)
  | 0, _, x, _ => .ret (x, some .varintOverflow)
  | left + 1, i, x, s => .readByte fun r => match r with
    | .error e => .ret (x, some (if i > 0 ∧ e = .eof then .unexpectedEOF else e))
    | .ok b =>
      if b < 0x80 then
        if i = maxVarintLen64 - 1 ∧ b > 1 then .ret (x, some .varintOverflow)
        else .ret (x ||| (b.setWidth 64 <<< s), none)
      else binReadUvarintLoop left (i + 1) (x ||| ((b &&& 0x7f).setWidth 64 <<< s)) (s + 7)

/-- `binary.ReadUvarint` -/
def binReadUvarint : BProg (BitVec 64 × Option Err) := binReadUvarintLoop maxVarintLen64 0 0 0

/-- `binary.ReadVarint` -/
def binReadVarint : BProg (BitVec 64 × Option Err) :=
  binReadUvarint.bind fun r => .ret (unzigzag r.1, r.2)

/-- `thriftwire.ReadUvarint` (encoding/thriftwire/varint.go:9-17). -/
def readUvarint : BProg (BitVec 64 × Option Err) :=
  .peek maxVarintLen64 fun buf _ =>
    if buf.length > 0 then
      let (x, n) := uvarint buf
      if n > 0 then .discard n fun err => .ret (x, err)
      else binReadUvarint
    else binReadUvarint

/-- `thriftwire.ReadVarint` (encoding/thriftwire/varint.go:20-28). -/
def readVarint : BProg (BitVec 64 × Option Err) :=
  .peek maxVarintLen64 fun buf _ =>
    if buf.length > 0 then
      let (x, n) := varint buf
      if n > 0 then .discard n fun err => .ret (x, err)
      else binReadVarint
    else binReadVarint

/-- `binary.PutUvarint`/`binary.AppendUvarint`: `for x >= 0x80 { emit byte(x)|0x80; x >>= 7 }; emit byte(x)`.
The first argument bounds the iterations; 9 suffice for 64 bits. -/
def putUvarintLoop : Nat → BitVec 64 → Bytes
  | 0, x => [x.setWidth 8]
  | fuel + 1, x =>
    if x < 0x80 then [x.setWidth 8]
    else (x.setWidth 8 ||| 0x80) :: putUvarintLoop fuel (x >>> 7)

/-- `binary.PutUvarint` / `binary.AppendUvarint` (the bytes appended). -/
def putUvarint (x : BitVec 64) : Bytes := putUvarintLoop 9 x

/-- `binary.PutVarint` / `binary.AppendVarint` (the bytes appended). -/
def putVarint (x : BitVec 64) : Bytes := putUvarint (zigzag x)

end GoThrift
