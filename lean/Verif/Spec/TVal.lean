import Verif.Model.Wire
import Verif.Spec.Varint

/-!
# Wire values and their encodings

`TVal` is a Thrift value as it travels on the wire. `encBin` and `encCompact` state the Thrift binary and compact protocol
encodings of a value, written from the protocol documents
(thrift-binary-protocol.md, thrift-compact-protocol.md), without reference to the Go code.
-/

namespace GoThrift.Spec

/-- A Thrift wire value. Containers carry their declared element types (they are on the wire also when the container is
empty). `str raw v` is a string/binary value; `raw` only records whether the application handed it over as a Go byte slice. Names of
structs and fields are passed to writers but not part of either encoding. A field is (name, id, value). -/
inductive TVal where
  | bool (v : Bool)
  | byte (v : BitVec 8)
  | double (v : BitVec 64)
  | i16 (v : BitVec 16)
  | i32 (v : BitVec 32)
  | i64 (v : BitVec 64)
  | str (raw : Bool) (v : Bytes)
  | uuid (v : Bytes)
  | struct (name : Bytes) (fields : List (Bytes × BitVec 16 × TVal))
  | map (kt vt : WType) (entries : List (TVal × TVal))
  | set (et : WType) (elems : List TVal)
  | list (et : WType) (elems : List TVal)

namespace TVal

/-- The wire type of a value. -/
def ty : TVal → WType
  | bool _ => Ty.bool
  | byte _ => Ty.byte
  | double _ => Ty.double
  | i16 _ => Ty.i16
  | i32 _ => Ty.i32
  | i64 _ => Ty.i64
  | str _ _ => Ty.string
  | uuid _ => Ty.uuid
  | struct _ _ => Ty.struct
  | map _ _ _ => Ty.map
  | set _ _ => Ty.set
  | list _ _ => Ty.list

/-- Induction over wire values: the hypothesis holds for all parts. -/
theorem ind {P : TVal → Prop}
    (hbool : ∀ v, P (bool v)) (hbyte : ∀ v, P (byte v)) (hdouble : ∀ v, P (double v)) (hi16 : ∀ v, P (i16 v))
    (hi32 : ∀ v, P (i32 v)) (hi64 : ∀ v, P (i64 v)) (hstr : ∀ r v, P (str r v)) (huuid : ∀ v, P (uuid v))
    (hstruct : ∀ n fs, (∀ f ∈ fs, P f.2.2) → P (struct n fs))
    (hmap : ∀ kt vt es, (∀ e ∈ es, P e.1 ∧ P e.2) → P (map kt vt es))
    (hset : ∀ et es, (∀ e ∈ es, P e) → P (set et es))
    (hlist : ∀ et es, (∀ e ∈ es, P e) → P (list et es)) (t : TVal) : P t :=
  TVal.rec (motive_1 := P) (motive_2 := fun fs => ∀ f ∈ fs, P f.2.2) (motive_3 := fun es => ∀ e ∈ es, P e.1 ∧ P e.2)
    (motive_4 := fun es => ∀ e ∈ es, P e) (motive_5 := fun p => P p.2.2) (motive_6 := fun p => P p.1 ∧ P p.2)
    (motive_7 := fun p => P p.2)
    hbool hbyte hdouble hi16 hi32 hi64 hstr huuid hstruct hmap hset hlist
    (by simp) (fun _ _ h1 h2 => List.forall_mem_cons.2 ⟨h1, h2⟩)
    (by simp) (fun _ _ h1 h2 => List.forall_mem_cons.2 ⟨h1, h2⟩)
    (by simp) (fun _ _ h1 h2 => List.forall_mem_cons.2 ⟨h1, h2⟩)
    (fun _ _ h => h) (fun _ _ h1 h2 => ⟨h1, h2⟩) (fun _ _ h => h) t

/-! ## Well-formedness -/

mutual
/-- A value that can exist on the wire: parts have the declared types, UUIDs have 16 bytes, and string lengths and element
counts are at most `lim`. -/
def WF (lim : Nat) : TVal → Prop
  | bool _ | byte _ | double _ | i16 _ | i32 _ | i64 _ => True
  | str _ v => v.length ≤ lim
  | uuid v => v.length = 16
  | struct _ fs => WFFields lim fs
  | map kt vt es => es.length ≤ lim ∧ WFEntries lim kt vt es
  | set et es => es.length ≤ lim ∧ WFElems lim et es
  | list et es => es.length ≤ lim ∧ WFElems lim et es
/-- All field values are well-formed. -/
def WFFields (lim : Nat) : List (Bytes × BitVec 16 × TVal) → Prop
  | [] => True
  | (_, _, v) :: fs => WF lim v ∧ WFFields lim fs
/-- All entries are well-formed and have the declared types. -/
def WFEntries (lim : Nat) (kt vt : WType) : List (TVal × TVal) → Prop
  | [] => True
  | (k, v) :: es => k.ty = kt ∧ v.ty = vt ∧ WF lim k ∧ WF lim v ∧ WFEntries lim kt vt es
/-- All elements are well-formed and have the declared type. -/
def WFElems (lim : Nat) (et : WType) : List TVal → Prop
  | [] => True
  | v :: es => v.ty = et ∧ WF lim v ∧ WFElems lim et es
end

/-- The twelve wire types a value can have. -/
def ValidTy (t : WType) : Prop :=
  t = Ty.bool ∨ t = Ty.byte ∨ t = Ty.double ∨ t = Ty.i16 ∨ t = Ty.i32 ∨ t = Ty.i64 ∨ t = Ty.string ∨ t = Ty.struct ∨
  t = Ty.map ∨ t = Ty.set ∨ t = Ty.list ∨ t = Ty.uuid

instance (t : WType) : Decidable (ValidTy t) := by unfold ValidTy; infer_instance

mutual
/-- Every declared element type of every container that is on the wire is one of the twelve types (an empty compact map has none). -/
def TypesOK : TVal → Prop
  | bool _ | byte _ | double _ | i16 _ | i32 _ | i64 _ | str _ _ | uuid _ => True
  | struct _ fs => TypesOKFields fs
  | map _ _ es => TypesOKEntries es
  | set et es => ValidTy et ∧ TypesOKElems es
  | list et es => ValidTy et ∧ TypesOKElems es
/-- See `TypesOK`. -/
def TypesOKFields : List (Bytes × BitVec 16 × TVal) → Prop
  | [] => True
  | (_, _, v) :: fs => TypesOK v ∧ TypesOKFields fs
/-- See `TypesOK`. -/
def TypesOKEntries : List (TVal × TVal) → Prop
  | [] => True
  | (k, v) :: es => TypesOK k ∧ TypesOK v ∧ TypesOKEntries es
/-- See `TypesOK`. -/
def TypesOKElems : List TVal → Prop
  | [] => True
  | v :: es => TypesOK v ∧ TypesOKElems es
end

mutual
/-- No string or binary value anywhere inside. -/
def NoStr : TVal → Prop
  | bool _ | byte _ | double _ | i16 _ | i32 _ | i64 _ | uuid _ => True
  | str _ _ => False
  | struct _ fs => NoStrFields fs
  | map _ _ es => NoStrEntries es
  | set _ es => NoStrElems es
  | list _ es => NoStrElems es
/-- See `NoStr`. -/
def NoStrFields : List (Bytes × BitVec 16 × TVal) → Prop
  | [] => True
  | (_, _, v) :: fs => NoStr v ∧ NoStrFields fs
/-- See `NoStr`. -/
def NoStrEntries : List (TVal × TVal) → Prop
  | [] => True
  | (k, v) :: es => NoStr k ∧ NoStr v ∧ NoStrEntries es
/-- See `NoStr`. -/
def NoStrElems : List TVal → Prop
  | [] => True
  | v :: es => NoStr v ∧ NoStrElems es
end

mutual
/-- In every struct, at every depth, no field id is lower than the one before it (the first: than 0) by 65521 or more; true in
particular whenever the ids are ascending. Otherwise the 16-bit delta of the two ids wraps around to 1..15. -/
def NoWrap : TVal → Prop
  | bool _ | byte _ | double _ | i16 _ | i32 _ | i64 _ | str _ _ | uuid _ => True
  | struct _ fs => NoWrapFields 0 fs
  | map _ _ es => NoWrapEntries es
  | set _ es => NoWrapElems es
  | list _ es => NoWrapElems es
/-- See `NoWrap`. -/
def NoWrapFields (last : BitVec 16) : List (Bytes × BitVec 16 × TVal) → Prop
  | [] => True
  | (_, id, v) :: fs => -65521 < id.toInt - last.toInt ∧ NoWrap v ∧ NoWrapFields id fs
/-- See `NoWrap`. -/
def NoWrapEntries : List (TVal × TVal) → Prop
  | [] => True
  | (k, v) :: es => NoWrap k ∧ NoWrap v ∧ NoWrapEntries es
/-- See `NoWrap`. -/
def NoWrapElems : List TVal → Prop
  | [] => True
  | v :: es => NoWrap v ∧ NoWrapElems es
end

end TVal

open TVal

/-! ## Binary protocol -/

/-- `n` as `k` bytes, most significant first. -/
def be (k n : Nat) : Bytes := (List.range k).map fun i => BitVec.ofNat 8 (n / 256 ^ (k - 1 - i))

mutual
/-- The binary protocol: bool one byte 1/0; integers big-endian two's complement; double as big-endian IEEE bits;
string: length as i32, bytes; uuid: 16 bytes; struct: fields then a stop byte 0; list/set: element type, count as i32, elements;
map: key type, value type, count as i32, entries. -/
def encBin : TVal → Bytes
  | .bool v => [if v then 1 else 0]
  | .byte v => [v]
  | .double v => be 8 v.toNat
  | .i16 v => be 2 v.toNat
  | .i32 v => be 4 v.toNat
  | .i64 v => be 8 v.toNat
  | .str _ v => be 4 v.length ++ v
  | .uuid v => v
  | .struct _ fs => encBinFields fs
  | .map kt vt es => [kt, vt] ++ be 4 es.length ++ encBinEntries es
  | .set et es => [et] ++ be 4 es.length ++ encBinElems es
  | .list et es => [et] ++ be 4 es.length ++ encBinElems es
/-- Fields: type byte, id as i16, value; then the stop byte. -/
def encBinFields : List (Bytes × BitVec 16 × TVal) → Bytes
  | [] => [0]
  | (_, id, v) :: fs => [v.ty] ++ be 2 id.toNat ++ encBin v ++ encBinFields fs
/-- Entries: key, value. -/
def encBinEntries : List (TVal × TVal) → Bytes
  | [] => []
  | (k, v) :: es => encBin k ++ encBin v ++ encBinEntries es
/-- Elements. -/
def encBinElems : List TVal → Bytes
  | [] => []
  | v :: es => encBin v ++ encBinElems es
end

/-- Binary protocol message headers. Strict: version word `80 01 00 tt`, name, sequence id.
Old encoding: name, type byte, sequence id. -/
def encBinMessage (strict : Bool) (h : MessageHeader) : Bytes :=
  if strict then [0x80, 0x01, 0x00, h.type] ++ be 4 h.name.length ++ h.name ++ be 4 h.id.toNat
  else be 4 h.name.length ++ h.name ++ [h.type] ++ be 4 h.id.toNat

/-! ## Compact protocol -/

/-- The compact code of a type in a container header or a field header of a non-bool field (bool elements: 2). -/
def compactCode (t : WType) : Byte :=
  if t = Ty.bool then 2 else if t = Ty.byte then 3 else if t = Ty.i16 then 4 else if t = Ty.i32 then 5
  else if t = Ty.i64 then 6 else if t = Ty.double then 7 else if t = Ty.string then 8 else if t = Ty.list then 9
  else if t = Ty.set then 10 else if t = Ty.map then 11 else if t = Ty.struct then 12 else if t = Ty.uuid then 13 else 0

/-- `hi` in the upper, `lo` in the lower four bits. -/
def nibbles (hi lo : Nat) : Byte := BitVec.ofNat 8 (16 * hi + lo)

/-- A field header: the short form when the id exceeds the previous id by 1 to 15, else the long form. -/
def compactFieldHeader (code : Byte) (last id : BitVec 16) : Bytes :=
  if 0 < id.toInt - last.toInt ∧ id.toInt - last.toInt ≤ 15 then
    [nibbles (id.toInt - last.toInt).toNat code.toNat]
  else [code] ++ leb (zigzag id.toInt)

/-- A list or set header: the short form for up to 14 elements. -/
def compactListHeader (et : WType) (n : Nat) : Bytes :=
  if n < 15 then [nibbles n (compactCode et).toNat]
  else [nibbles 15 (compactCode et).toNat] ++ leb n

/-- A map header: a single 0 byte for an empty map. -/
def compactMapHeader (kt vt : WType) (n : Nat) : Bytes :=
  if n = 0 then [0]
  else leb n ++ [nibbles (compactCode kt).toNat (compactCode vt).toNat]

/-- The code in the header of a field: for a bool field it is its value (1 true, 2 false), and no value bytes follow. -/
def compactFieldCode : TVal → Byte
  | .bool v => if v then 1 else 2
  | v => compactCode v.ty

mutual
/-- The compact protocol: integers as zigzag varints, byte as is, double little-endian, string: varint length, bytes;
bool elements one byte 1/0; struct: fields then a stop byte 0. -/
def encCompact : TVal → Bytes
  | .bool v => [if v then 1 else 0]
  | .byte v => [v]
  | .double v => (be 8 v.toNat).reverse
  | .i16 v => leb (zigzag v.toInt)
  | .i32 v => leb (zigzag v.toInt)
  | .i64 v => leb (zigzag v.toInt)
  | .str _ v => leb v.length ++ v
  | .uuid v => v
  | .struct _ fs => encCompactFields 0 fs
  | .map kt vt es => compactMapHeader kt vt es.length ++ encCompactEntries es
  | .set et es => compactListHeader et es.length ++ encCompactElems es
  | .list et es => compactListHeader et es.length ++ encCompactElems es
/-- Fields, given the id of the previous field. -/
def encCompactFields (last : BitVec 16) : List (Bytes × BitVec 16 × TVal) → Bytes
  | [] => [0]
  | (_, id, v) :: fs =>
    compactFieldHeader (compactFieldCode v) last id ++ (if v.ty = Ty.bool then [] else encCompact v) ++
      encCompactFields id fs
/-- Entries: key, value. -/
def encCompactEntries : List (TVal × TVal) → Bytes
  | [] => []
  | (k, v) :: es => encCompact k ++ encCompact v ++ encCompactEntries es
/-- Elements. -/
def encCompactElems : List TVal → Bytes
  | [] => []
  | v :: es => encCompact v ++ encCompactElems es
end

/-- Compact protocol message header: protocol id `82`, version 1 and type in one byte, sequence id as a varint of the 32-bit
pattern, name. -/
def encCompactMessage (h : MessageHeader) : Bytes :=
  [0x82, BitVec.ofNat 8 (32 * h.type.toNat + 1)] ++ leb h.id.toNat ++ leb h.name.length ++ h.name

/-! ## The sequence of Writer calls that describes a value -/

mutual
/-- The Writer calls that write a value, in order. -/
def calls : TVal → List WOp
  | .bool v => [.bool v]
  | .byte v => [.byte v]
  | .double v => [.double v]
  | .i16 v => [.i16 v]
  | .i32 v => [.i32 v]
  | .i64 v => [.i64 v]
  | .str raw v => [if raw then .bytes v else .string v]
  | .uuid v => [.uuid v]
  | .struct n fs => [.structBegin n] ++ callsFields fs ++ [.structEnd]
  | .map kt vt es => [.mapBegin ⟨kt, vt, BitVec.ofNat 64 es.length⟩] ++ callsEntries es ++ [.mapEnd]
  | .set et es => [.setBegin ⟨et, BitVec.ofNat 64 es.length⟩] ++ callsElems es ++ [.setEnd]
  | .list et es => [.listBegin ⟨et, BitVec.ofNat 64 es.length⟩] ++ callsElems es ++ [.listEnd]
/-- Calls for fields. -/
def callsFields : List (Bytes × BitVec 16 × TVal) → List WOp
  | [] => []
  | (n, id, v) :: fs => [.fieldBegin ⟨n, v.ty, id⟩] ++ calls v ++ [.fieldEnd] ++ callsFields fs
/-- Calls for map entries. -/
def callsEntries : List (TVal × TVal) → List WOp
  | [] => []
  | (k, v) :: es => calls k ++ calls v ++ callsEntries es
/-- Calls for elements. -/
def callsElems : List TVal → List WOp
  | [] => []
  | v :: es => calls v ++ callsElems es
end

end GoThrift.Spec
