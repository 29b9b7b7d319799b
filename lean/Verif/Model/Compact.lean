import Verif.Model.WireBufio
import Verif.Model.ByteW
import Verif.Model.Wire

/-!
# encoding/thriftcompact: types.go and thriftcompact.go
-/

namespace GoThrift.Compact

/-! Compact type codes (encoding/thriftcompact/types.go:10-25). -/
namespace CT
def stop : Byte := 0
def boolTrue : Byte := 1
def boolFalse : Byte := 2
def i8 : Byte := 3
def i16 : Byte := 4
def i32 : Byte := 5
def i64 : Byte := 6
def double : Byte := 7
def binary : Byte := 8
def list : Byte := 9
def set : Byte := 10
def map : Byte := 11
def struct : Byte := 12
def uuid : Byte := 13
end CT

/-- `typeCompact` (types.go:33-64) -/
def typeCompact (t : WType) : Except Err Byte :=
  if t = Ty.bool then .ok CT.boolFalse
  else if t = Ty.byte then .ok CT.i8
  else if t = Ty.i16 then .ok CT.i16
  else if t = Ty.i32 then .ok CT.i32
  else if t = Ty.i64 then .ok CT.i64
  else if t = Ty.double then .ok CT.double
  else if t = Ty.string then .ok CT.binary
  else if t = Ty.list then .ok CT.list
  else if t = Ty.set then .ok CT.set
  else if t = Ty.map then .ok CT.map
  else if t = Ty.struct then .ok CT.struct
  else if t = Ty.uuid then .ok CT.uuid
  else .error (.invalidType t)

/-- `compactType.wire` (types.go:66-96) -/
def wire (t : Byte) : Except Err WType :=
  if t = CT.stop then .ok Ty.stop
  else if t = CT.boolTrue ∨ t = CT.boolFalse then .ok Ty.bool
  else if t = CT.i8 then .ok Ty.byte
  else if t = CT.i16 then .ok Ty.i16
  else if t = CT.i32 then .ok Ty.i32
  else if t = CT.i64 then .ok Ty.i64
  else if t = CT.double then .ok Ty.double
  else if t = CT.binary then .ok Ty.string
  else if t = CT.list then .ok Ty.list
  else if t = CT.set then .ok Ty.set
  else if t = CT.map then .ok Ty.map
  else if t = CT.struct then .ok Ty.struct
  else if t = CT.uuid then .ok Ty.uuid
  else .error (.invalidCompactType t)

/-- `protocolID` (thriftcompact.go:17) -/
def protocolID : Byte := 0x82
/-- `version1` (thriftcompact.go:18) -/
def version1 : Byte := 1

/-- `binary.LittleEndian.Uint64` -/
def getLE (b : Bytes) : Nat :=
  match b with
  | [] => 0
  | b :: bs => b.toNat + 256 * getLE bs

/-- `binary.LittleEndian.PutUint64` (for `k` bytes) -/
def putLE : Nat → Nat → Bytes
  | 0, _ => []
  | k + 1, v => BitVec.ofNat 8 v :: putLE k (v / 256)

/-! ## Reader -/

section Reader
open RM

/-- `boolField` of the reader (thriftcompact.go:45-51) -/
inductive BoolField where
  | none | true | false
  deriving DecidableEq, Repr

/-- The fields of the reader besides its `*bufio.Reader` (thriftcompact.go:38-43); the slice `lastFieldIDs` is kept
with its last element first. -/
structure RState where
  ids : List (BitVec 16) := []
  last : BitVec 16 := 0
  boolField : BoolField := .none
  deriving DecidableEq, Repr

abbrev M := RM RState

/-- `boolField.set` (thriftcompact.go:53-60) -/
def BoolField.setBy (f : BoolField) (t : Byte) : BoolField :=
  if t = CT.boolTrue then .true
  else if t = CT.boolFalse then .false
  else f

/-- `(*bufio.Reader).ReadByte`, promoted (thriftcompact.go:39) -/
def readByte : M Byte := lift (.readByte fun r => .ret r)

/-- An error computed without I/O. -/
def ofExcept {α : Type} (r : Except Err α) : M α := lift (.ret r)

/-- thriftcompact.go:280-282 -/
def readUvarint : M (BitVec 64) := lift (GoThrift.readUvarint.bind fun r => .ret (toExcept r))

/-- method `readSize`, thriftcompact.go:284-287: used for strings -/
def readStringSize : M (BitVec 64) := readUvarint

/-- function `readSize`, thriftcompact.go:137-140: used for container headers -/
def readSize : M (BitVec 64) := lift (binReadUvarint.bind fun r => .ret (toExcept r))

/-- thriftcompact.go:241-243 -/
def readI64 : M (BitVec 64) := lift (binReadVarint.bind fun r => .ret (toExcept r))

/-- thriftcompact.go:236-239 -/
def readI32 : M (BitVec 32) := do
  let v ← readI64
  pure (v.setWidth 32)

/-- thriftcompact.go:231-234 -/
def readI16 : M (BitVec 16) := do
  let v ← readI64
  pure (v.setWidth 16)

/-- thriftcompact.go:223-229 -/
def readDouble : M (BitVec 64) := do
  let buf ← lift ((next 8).bind fun r => .ret (toExcept r))
  need 8 buf
  pure (BitVec.ofNat 64 (getLE buf))

/-- thriftcompact.go:213-221 -/
def readBool : M Bool := do
  let c ← get
  match c.boolField with
  | .none => do
    let v ← readByte
    pure (v != 0)
  | .true => do
    set { c with boolField := .none }
    pure true
  | .false => do
    set { c with boolField := .none }
    pure false

/-- thriftcompact.go:245-251 -/
def readString : M Bytes := do
  let n ← readStringSize
  lift ((wireReadString n.toInt).bind fun r => .ret (toExcept r))

/-- thriftcompact.go:253-259 -/
def readBytes (buf : Bytes) : M Bytes := do
  let n ← readStringSize
  lift ((wireReadBytes n.toInt buf).bind fun r => .ret (toExcept r))

/-- thriftcompact.go:261-264 -/
def readUUID : M Bytes := lift (.readFull 16 fun b e => .ret (toExcept (b, e)))

/-- `_, err = x.Discard(n)` -/
def discard (n : Int) : M Unit := lift (.discard n fun e => .ret (toExcept ((), e)))

/-- thriftcompact.go:266-273 -/
def skipString : M Unit := do
  let n ← readStringSize
  discard n.toInt

/-- thriftcompact.go:275-278 -/
def skipUUID : M Unit := discard 16

/-- thriftcompact.go:94-98 -/
def readStructBegin : M Bytes := do
  let c ← get
  set { c with ids := c.last :: c.ids, last := 0 }
  pure []

/-- thriftcompact.go:100-107 -/
def readStructEnd : M Unit := do
  let c ← get
  match c.ids with
  | [] => fail .readStructEndUnbalanced
  | id :: ids => set { c with ids := ids, last := id }

/-- thriftcompact.go:109-131. The header returned with an error is not modelled. -/
def readFieldBegin : M FieldHeader := do
  let dt ← readByte
  let t := dt &&& 15
  let ty ← ofExcept (wire t)
  if ty = Ty.stop then pure ⟨[], ty, 0⟩
  else do
    let modifier : BitVec 16 := (dt >>> 4).setWidth 16
    let c ← get
    let id ← if modifier = 0 then readI16 else pure (c.last + modifier)
    let c ← get
    set { c with last := id, boolField := c.boolField.setBy t }
    pure ⟨[], ty, id⟩

/-- `ReadMapHeader` thriftcompact.go:143-161, `ReadMapBegin` 163-165 -/
def readMapBegin : M MapHeader := do
  let n ← readSize
  if n = 0 then pure ⟨Ty.stop, Ty.stop, n⟩
  else do
    let kv ← readByte
    let k ← ofExcept (wire (kv >>> 4))
    let v ← ofExcept (wire (kv &&& 15))
    pure ⟨k, v, n⟩

/-- `ReadSetHeader` thriftcompact.go:172-189, `ReadListHeader` 200-203, `ReadSetBegin` 191-193, `ReadListBegin` 205-207 -/
def readSetBegin : M SetHeader := do
  let st ← readByte
  let e ← ofExcept (wire (st &&& 15))
  let n : BitVec 64 := (st >>> 4).setWidth 64
  if n = 15 then do
    let n ← readSize
    pure ⟨e, n⟩
  else pure ⟨e, n⟩

/-- thriftcompact.go:62-88 -/
def readMessageBegin : M MessageHeader := do
  let p ← readByte
  if p ≠ protocolID then fail (.compactBadProtocolID p)
  else do
    let vt ← readByte
    let version := vt &&& 0x1f
    if version ≠ version1 then fail (.compactBadVersion version)
    else do
      let id ← readUvarint
      let name ← readString
      pure ⟨name, vt >>> 5, id.setWidth 32⟩

/-- The compact reader's method table. Methods returning nil without effect:
thriftcompact.go:90-92,133-135,167-169,195-197,209-211. -/
def impl : (o : ROp) → M o.Ans
  | .messageBegin => readMessageBegin
  | .messageEnd => pure ()
  | .structBegin => readStructBegin
  | .structEnd => readStructEnd
  | .fieldBegin => readFieldBegin
  | .fieldEnd => pure ()
  | .mapBegin => readMapBegin
  | .mapEnd => pure ()
  | .setBegin => readSetBegin
  | .setEnd => pure ()
  | .listBegin => readSetBegin
  | .listEnd => pure ()
  | .bool => readBool
  | .byte => readByte
  | .double => readDouble
  | .i16 => readI16
  | .i32 => readI32
  | .i64 => readI64
  | .string => readString
  | .bytes buf => readBytes buf
  | .uuid => readUUID
  | .skipString => skipString
  | .skipUUID => skipUUID

/-- The compact reader over a flat stream. -/
def reader : Rdr (RState × Flat) where
  step o s := ((impl o).run s.1 s.2).bind fun r => .done (r.1.1, (r.1.2, r.2))

end Reader

/-! ## Writer -/

section Writer
open WM

/-- The fields of the writer besides its `*bufio.Writer`, `uw` (used by Flush only, see `Model/BufWriter.lean`) and the
scratch array (thriftcompact.go:297-304); the slice `lastFieldIDs` is kept with its last element first. -/
structure WState where
  ids : List (BitVec 16) := []
  last : BitVec 16 := 0
  boolField : FieldHeader := ⟨[], Ty.stop, 0⟩
  deriving DecidableEq, Repr

abbrev W := WM WState

/-- `len(v)` as a Go `int` -/
def lenInt (v : Bytes) : BitVec 64 := BitVec.ofNat 64 v.length

/-- `appendI16` (thriftcompact.go:572-574), the bytes appended -/
def appendI16 (v : BitVec 16) : Bytes := putVarint (v.signExtend 64)

/-- `appendSize` (thriftcompact.go:576-578), the bytes appended -/
def appendSize (v : BitVec 64) : Bytes := putUvarint v

/-- `appendFieldHeader` (thriftcompact.go:350-370) / `AppendFieldHeader` (373-375), the bytes appended -/
def appendFieldHeader (h : FieldHeader) (isTrue : Bool) (lastFieldID : BitVec 16) : Except Err Bytes :=
  match (if h.type = Ty.bool then
           (if isTrue then Except.ok CT.boolTrue else Except.ok CT.boolFalse)
         else typeCompact h.type : Except Err Byte) with
  | .error e => .error e
  | .ok t =>
    let delta := h.id - lastFieldID
    if delta.toInt > 0 ∧ delta.toInt ≤ 15 then .ok [(delta <<< 4).setWidth 8 ||| t]
    else .ok ([t] ++ appendI16 h.id)

/-- `AppendMapHeader` (thriftcompact.go:402-417), the bytes appended -/
def appendMapHeader (h : MapHeader) : Except Err Bytes :=
  if h.size.toInt ≤ 0 then .ok [0]
  else match typeCompact h.key with
    | .error e => .error e
    | .ok k => match typeCompact h.value with
      | .error e => .error e
      | .ok v => .ok (appendSize h.size ++ [(k <<< 4) ||| v])

/-- `AppendSetHeader` (thriftcompact.go:431-442) / `AppendListHeader` (448-450), the bytes appended -/
def appendSetHeader (h : SetHeader) : Except Err Bytes :=
  match typeCompact h.element with
  | .error e => .error e
  | .ok e =>
    if h.size.toInt ≥ 0 ∧ h.size.toInt < 15 then .ok [(h.size <<< 4).setWidth 8 ||| e]
    else .ok ([0xf0 ||| e] ++ appendSize h.size)

/-- `appendWrite` (thriftcompact.go:541-552) with the result of `f`; `append`ing to `AvailableBuffer()` and passing the
result to `Write` writes exactly the appended bytes. -/
def appendWrite (max : Nat) (r : Except Err Bytes) : W Unit := do
  ensure max
  let buf ← WM.ofExcept r
  write .bytes buf

/-- `MaxFieldHeaderSize` (thriftcompact.go:342): `1 + binary.MaxVarintLen16` -/
def maxFieldHeaderSize : Nat := 4
/-- `MaxMapHeaderSize` (thriftcompact.go:399) -/
def maxMapHeaderSize : Nat := 11
/-- `MaxSetHeaderSize` (thriftcompact.go:428) -/
def maxSetHeaderSize : Nat := 11

/-- thriftcompact.go:377-384 -/
def writeFieldHeader (h : FieldHeader) (isTrue : Bool) : W Unit := do
  let c ← get
  appendWrite maxFieldHeaderSize (appendFieldHeader h isTrue c.last)
  let c ← get
  set { c with last := h.id }

/-- promoted `(*bufio.Writer).WriteByte` -/
def writeByte (v : Byte) : W Unit := write .byte [v]

/-- thriftcompact.go:561-566 -/
def writeUvarint (v : BitVec 64) : W Unit := write .bytes (putUvarint v)

/-- thriftcompact.go:568-570 -/
def writeSize (v : BitVec 64) : W Unit := writeUvarint v

/-- thriftcompact.go:505-511 -/
def writeString (v : Bytes) : W Unit := do
  writeSize (lenInt v)
  write .string v

/-- thriftcompact.go:513-519 -/
def writeBytes (v : Bytes) : W Unit := do
  writeSize (lenInt v)
  write .bytes v

/-- thriftcompact.go:498-503 -/
def writeI64 (v : BitVec 64) : W Unit := write .bytes (putVarint v)

/-- thriftcompact.go:483-488 -/
def writeDouble (v : BitVec 64) : W Unit := write .bytes (putLE 8 v.toNat)

/-- thriftcompact.go:306-320; `uint64(h.ID)` of an `int32` extends the sign. -/
def writeMessageBegin (h : MessageHeader) : W Unit := do
  writeByte protocolID
  writeByte (version1 ||| (h.type <<< 5))
  writeUvarint (h.id.signExtend 64)
  writeString h.name

/-- thriftcompact.go:326-330 -/
def writeStructBegin : W Unit := do
  let c ← get
  set { c with ids := c.last :: c.ids, last := 0 }

/-- thriftcompact.go:332-339 -/
def writeStructEnd : W Unit := do
  let c ← get
  match c.ids with
  | [] => fail .writeStructEndUnbalanced
  | id :: ids => do
    set { c with ids := ids, last := id }
    writeByte CT.stop

/-- thriftcompact.go:386-392 -/
def writeFieldBegin (h : FieldHeader) : W Unit :=
  if h.type = Ty.bool then do
    let c ← get
    set { c with boolField := h }
  else writeFieldHeader h false

/-- thriftcompact.go:468-481 -/
def writeBool (v : Bool) : W Unit := do
  let c ← get
  if c.boolField.type ≠ Ty.stop then do
    writeFieldHeader c.boolField v
    let c ← get
    set { c with boolField := { c.boolField with type := Ty.stop } }
  else if v then writeByte 1
  else writeByte 0

/-- The compact writer's method table. Methods returning nil without effect:
thriftcompact.go:322-324,394-396,423-425,456-458,464-466. WriteMapBegin 419-421, WriteSetBegin 452-454,
WriteListBegin 460-462, WriteI16 490-492, WriteI32 494-496, WriteUUID 521-524 inline. -/
def wimpl : WOp → W Unit
  | .messageBegin h => writeMessageBegin h
  | .messageEnd => pure ()
  | .structBegin _ => writeStructBegin
  | .structEnd => writeStructEnd
  | .fieldBegin h => writeFieldBegin h
  | .fieldEnd => pure ()
  | .mapBegin h => appendWrite maxMapHeaderSize (appendMapHeader h)
  | .mapEnd => pure ()
  | .setBegin h => appendWrite maxSetHeaderSize (appendSetHeader h)
  | .setEnd => pure ()
  | .listBegin h => appendWrite maxSetHeaderSize (appendSetHeader h)
  | .listEnd => pure ()
  | .bool v => writeBool v
  | .byte v => writeByte v
  | .double v => writeDouble v
  | .i16 v => writeI64 (v.signExtend 64)
  | .i32 v => writeI64 (v.signExtend 64)
  | .i64 v => writeI64 v
  | .string v => writeString v
  | .bytes v => writeBytes v
  | .uuid v => write .bytes v

/-- The compact writer over an ideal sink; the state is its fields and the bytes written so far. -/
def writer : Wtr (WState × Bytes) where
  step o s := let r := (wimpl o).ideal s.1; .done (errOf r.1.1, (r.1.2, s.2 ++ r.2))

end Writer

end GoThrift.Compact
