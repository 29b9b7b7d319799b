import Verif.Model.WireBufio
import Verif.Model.ByteW
import Verif.Model.Wire

/-!
# encoding/thriftbinary/thriftbinary.go: reader and writer
-/

namespace GoThrift.Binary

open RM

/-- `versionMask` (thriftbinary.go:17) as the `int64` constant it becomes in `int64(n) & versionMask`. -/
def versionMask : BitVec 64 := 0xffff0000
/-- `version1` (thriftbinary.go:18) -/
def version1 : BitVec 32 := 0x80010000

/-- The bytes `binary.BigEndian.PutUint16/32/64` stores for a value of `k` bytes: most significant first. -/
def putBE : Nat → Nat → Bytes
  | 0, _ => []
  | k + 1, v => BitVec.ofNat 8 (v / 256 ^ k) :: putBE k v

/-- The number `binary.BigEndian.Uint16/32/64` loads. -/
def getBE : Bytes → Nat
  | [] => 0
  | b :: bs => b.toNat * 256 ^ bs.length + getBE bs

/-! ## Reader. The only field besides the `*bufio.Reader` is `strict` (thriftbinary.go:61-64), constant over its life. -/

abbrev M := RM Unit

/-- `buf, err := thriftwire.Next(x.Reader, n); if err != nil { return 0, err }` -/
def nextM (n : Int) : M Bytes := lift ((next n).bind fun r => .ret (toExcept r))

/-- `(*bufio.Reader).ReadByte`, promoted (thriftbinary.go:62) -/
def readByte : M Byte := lift (.readByte fun r => .ret r)

/-- thriftbinary.go:179-185 -/
def readI16 : M (BitVec 16) := do
  let buf ← nextM 2
  need 2 buf
  pure (BitVec.ofNat 16 (getBE buf))

/-- thriftbinary.go:187-193 -/
def readI32 : M (BitVec 32) := do
  let buf ← nextM 4
  need 4 buf
  pure (BitVec.ofNat 32 (getBE buf))

/-- thriftbinary.go:195-201 -/
def readI64 : M (BitVec 64) := do
  let buf ← nextM 8
  need 8 buf
  pure (BitVec.ofNat 64 (getBE buf))

/-- thriftbinary.go:171-177; the float is its bit pattern (`math.Float64frombits`). -/
def readDouble : M (BitVec 64) := do
  let buf ← nextM 8
  need 8 buf
  pure (BitVec.ofNat 64 (getBE buf))

/-- thriftbinary.go:166-169 -/
def readBool : M Bool := do
  let v ← readByte
  pure (v != 0)

/-- thriftbinary.go:248-251: `int(v)` of an `int32` -/
def readSize : M (BitVec 64) := do
  let v ← readI32
  pure (v.signExtend 64)

/-- thriftbinary.go:203-209 -/
def readString : M Bytes := do
  let n ← readSize
  lift ((wireReadString n.toInt).bind fun r => .ret (toExcept r))

/-- thriftbinary.go:211-217 -/
def readBytes (buf : Bytes) : M Bytes := do
  let n ← readSize
  lift ((wireReadBytes n.toInt buf).bind fun r => .ret (toExcept r))

/-- thriftbinary.go:219-222 -/
def readUUID : M Bytes := lift (.readFull 16 fun b e => .ret (toExcept (b, e)))

/-- `_, err = x.Discard(n)` -/
def discard (n : Int) : M Unit := lift (.discard n fun e => .ret (toExcept ((), e)))

/-- thriftbinary.go:224-231 -/
def skipString : M Unit := do
  let n ← readSize
  discard n.toInt

/-- thriftbinary.go:233-236 -/
def skipUUID : M Unit := discard 16

/-- thriftbinary.go:114-121 -/
def readFieldBegin : M FieldHeader := do
  let t ← readByte
  if t = Ty.stop then pure ⟨[], t, 0⟩
  else do
    let id ← readI16
    pure ⟨[], t, id⟩

/-- thriftbinary.go:127-138 -/
def readMapBegin : M MapHeader := do
  let k ← readByte
  let v ← readByte
  let n ← readSize
  pure ⟨k, v, n⟩

/-- thriftbinary.go:144-151 (sets) and 157-160 (lists) -/
def readSetBegin : M SetHeader := do
  let e ← readByte
  let n ← readSize
  pure ⟨e, n⟩

/-- thriftbinary.go:70-100 -/
def readMessageBegin (strict : Bool) : M MessageHeader := do
  let n ← readSize
  if n.toInt < 0 then
    let version := n &&& versionMask
    if version ≠ version1.setWidth 64 then fail (.binBadVersion version)
    else do
      let name ← readString
      let id ← readI32
      pure ⟨name, n.setWidth 8, id⟩
  else if strict then fail .binMissingVersion
  else do
    let name ← lift ((wireReadString n.toInt).bind fun r => .ret (toExcept r))
    let t ← readByte
    let id ← readI32
    pure ⟨name, t, id⟩

/-- The binary reader's method table. Methods not listed above return nil without effect
(thriftbinary.go:102-112,123-125,140-142,153-155,162-164). -/
def impl (strict : Bool) : (o : ROp) → M o.Ans
  | .messageBegin => readMessageBegin strict
  | .messageEnd => pure ()
  | .structBegin => pure []
  | .structEnd => pure ()
  | .fieldBegin => readFieldBegin
  | .fieldEnd => pure ()
  | .mapBegin => readMapBegin
  | .mapEnd => pure ()
  | .setBegin => readSetBegin
  | .setEnd => pure ()
  | .listBegin => readSetBegin
  | .listEnd => pure ()
  | .bool => readBool
  | .byte => readByte
  | .double => readDouble
  | .i16 => readI16
  | .i32 => readI32
  | .i64 => readI64
  | .string => readString
  | .bytes buf => readBytes buf
  | .uuid => readUUID
  | .skipString => skipString
  | .skipUUID => skipUUID

/-- The binary reader over a flat stream. -/
def reader (strict : Bool) : Rdr (Unit × Flat) where
  step o s := ((impl strict o).run s.1 s.2).bind fun r => .done (r.1.1, (r.1.2, r.2))

/-! ## Writer. Its own fields besides the `*bufio.Writer` are `w` (used by Flush only, see `Model/BufWriter.lean`),
the scratch array `buf`, overwritten before every use, and the constant `strict` (thriftbinary.go:253-258). -/

open WM

abbrev W := WM Unit

/-- `len(v)` as a Go `int` -/
def lenInt (v : Bytes) : BitVec 64 := BitVec.ofNat 64 v.length

/-- thriftbinary.go:353-358 -/
def writeI16 (v : BitVec 16) : W Unit := write .bytes (putBE 2 v.toNat)
/-- thriftbinary.go:360-365 -/
def writeI32 (v : BitVec 32) : W Unit := write .bytes (putBE 4 v.toNat)
/-- thriftbinary.go:367-372 -/
def writeI64 (v : BitVec 64) : W Unit := write .bytes (putBE 8 v.toNat)
/-- thriftbinary.go:346-351 -/
def writeDouble (v : BitVec 64) : W Unit := write .bytes (putBE 8 v.toNat)
/-- thriftbinary.go:407-413 and the promoted `(*bufio.Writer).WriteByte` -/
def writeByte (v : Byte) : W Unit := write .byte [v]
/-- thriftbinary.go:415-417: `x.WriteI32(int32(v))` of a Go `int` -/
def writeSize (v : BitVec 64) : W Unit := writeI32 (v.setWidth 32)

/-- thriftbinary.go:374-380 -/
def writeString (v : Bytes) : W Unit := do
  writeSize (lenInt v)
  write .string v

/-- thriftbinary.go:382-388 -/
def writeBytes (v : Bytes) : W Unit := do
  writeSize (lenInt v)
  write .bytes v

/-- thriftbinary.go:264-281 -/
def writeMessageBegin (strict : Bool) (h : MessageHeader) : W Unit :=
  if strict then do
    writeI32 (h.type.setWidth 32 ||| version1)
    writeString h.name
    writeI32 h.id
  else do
    writeString h.name
    writeByte h.type
    writeI32 h.id

/-- thriftbinary.go:295-300 -/
def writeFieldBegin (h : FieldHeader) : W Unit := do
  writeByte h.type
  writeI16 h.id

/-- thriftbinary.go:306-314 -/
def writeMapBegin (h : MapHeader) : W Unit := do
  writeByte h.key
  writeByte h.value
  writeSize h.size

/-- thriftbinary.go:320-325 (sets), 331-333 (lists) -/
def writeSetBegin (h : SetHeader) : W Unit := do
  writeByte h.element
  writeSize h.size

/-- The binary writer's method table. Methods that write nothing: thriftbinary.go:283-289,302-304,316-318,327-329,335-337.
WriteStructEnd 291-293, WriteBool 339-344, WriteUUID 390-393 inline. -/
def wimpl (strict : Bool) : WOp → W Unit
  | .messageBegin h => writeMessageBegin strict h
  | .messageEnd => pure ()
  | .structBegin _ => pure ()
  | .structEnd => writeByte Ty.stop
  | .fieldBegin h => writeFieldBegin h
  | .fieldEnd => pure ()
  | .mapBegin h => writeMapBegin h
  | .mapEnd => pure ()
  | .setBegin h => writeSetBegin h
  | .setEnd => pure ()
  | .listBegin h => writeSetBegin h
  | .listEnd => pure ()
  | .bool v => if v then writeByte 1 else writeByte 0
  | .byte v => writeByte v
  | .double v => writeDouble v
  | .i16 v => writeI16 v
  | .i32 v => writeI32 v
  | .i64 v => writeI64 v
  | .string v => writeString v
  | .bytes v => writeBytes v
  | .uuid v => write .bytes v

/-- The binary writer over an ideal sink; the state is the bytes written so far. -/
def writer (strict : Bool) : Wtr (Unit × Bytes) where
  step o s := let r := (wimpl strict o).ideal s.1; .done (errOf r.1.1, (r.1.2, s.2 ++ r.2))

end GoThrift.Binary
