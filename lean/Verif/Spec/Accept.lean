import Verif.Spec.TVal

/-!
# The byte sequences that stand for a value, in both protocols, as a tolerant reader takes them

More than the encodings `encBin` and `encCompact`: several byte sequences stand for the same value.
-/

namespace GoThrift.Spec

open TVal

/-! ## Binary protocol -/

/-- The four bytes of the size of a container of `n` elements. A negative size counts as 0. -/
def BinCount (n : Nat) (b : Bytes) : Prop := ∃ c, c < 2 ^ 32 ∧ b = be 4 c ∧ n = if c < 2 ^ 31 then c else 0

mutual
/-- The byte sequences of a value in the binary protocol: as `encBin` says, but any byte other than 0 is `true`, the size of an empty container may be negative, and the types of an empty map may be any. -/
def BinWire : TVal → Bytes → Prop
  | .bool v, b => ∃ x, b = [x] ∧ (v = true ↔ x ≠ 0)
  | .byte v, b => b = [v]
  | .double v, b => b = be 8 v.toNat
  | .i16 v, b => b = be 2 v.toNat
  | .i32 v, b => b = be 4 v.toNat
  | .i64 v, b => b = be 8 v.toNat
  | .str _ v, b => v.length < 2 ^ 31 ∧ b = be 4 v.length ++ v
  | .uuid v, b => v.length = 16 ∧ b = v
  | .struct _ fs, b => BinWireFields fs b
  | .map kt vt es, b => ∃ k v c b1, b = [k, v] ++ c ++ b1 ∧ BinCount es.length c ∧ (es ≠ [] → k = kt ∧ v = vt) ∧ BinWireEntries kt vt es b1
  | .set et es, b => ∃ c b1, b = [et] ++ c ++ b1 ∧ BinCount es.length c ∧ BinWireElems et es b1
  | .list et es, b => ∃ c b1, b = [et] ++ c ++ b1 ∧ BinCount es.length c ∧ BinWireElems et es b1
/-- Fields: type byte, id, value; then the stop byte. -/
def BinWireFields : List (Bytes × BitVec 16 × TVal) → Bytes → Prop
  | [], b => b = [0]
  | (_, id, v) :: fs, b => ∃ b1 b2, b = [v.ty] ++ be 2 id.toNat ++ b1 ++ b2 ∧ BinWire v b1 ∧ BinWireFields fs b2
/-- Entries of the declared types. -/
def BinWireEntries (kt vt : WType) : List (TVal × TVal) → Bytes → Prop
  | [], b => b = []
  | (k, v) :: es, b => k.ty = kt ∧ v.ty = vt ∧ ∃ b1 b2 b3, b = b1 ++ b2 ++ b3 ∧ BinWire k b1 ∧ BinWire v b2 ∧ BinWireEntries kt vt es b3
/-- Elements of the declared type. -/
def BinWireElems (et : WType) : List TVal → Bytes → Prop
  | [], b => b = []
  | v :: es, b => v.ty = et ∧ ∃ b1 b2, b = b1 ++ b2 ∧ BinWire v b1 ∧ BinWireElems et es b2
end

/-- The byte sequences of a message header: as `encBinMessage` says, but the byte between version and type may be any, and a reader that is not strict takes both forms. -/
def BinMessage (strict : Bool) (h : MessageHeader) (b : Bytes) : Prop :=
  (∃ x, h.name.length < 2 ^ 31 ∧ b = [0x80, 0x01, x, h.type] ++ be 4 h.name.length ++ h.name ++ be 4 h.id.toNat) ∨
  (strict = false ∧ h.name.length < 2 ^ 31 ∧ b = be 4 h.name.length ++ h.name ++ [h.type] ++ be 4 h.id.toNat)

/-! ## Compact protocol -/

/-- A number below 2^64 as a varint of at most 10 bytes, padded or not. -/
def UVarint (n : Nat) (b : Bytes) : Prop := IsLeb b ∧ b.length ≤ 10 ∧ lebValue b = n ∧ n < 2 ^ 64

/-- The integer of which `n` is the zigzag image. -/
def unzig (n : Nat) : Int := if n % 2 = 0 then (n / 2 : Nat) else -(n / 2 : Nat) - 1

/-- A signed varint of which the low `w` bits are taken. -/
def SVarint {w : Nat} (v : BitVec w) (b : Bytes) : Prop := ∃ n, UVarint n b ∧ v = BitVec.ofInt w (unzig n)

/-- The four-bit code of a type; two for bool, and 0 for no type. -/
def CompactType (t : WType) (code : Nat) : Prop := (code = 0 ∧ t = Ty.stop) ∨ (code = 1 ∧ t = Ty.bool) ∨ (ValidTy t ∧ code = (compactCode t).toNat)

/-- The header of a field whose type, or bool value, has the code `code`: the short form with the increment to the last id (modulo 2^16), or the long form with the id. -/
def CompactField (code : Nat) (last id : BitVec 16) (b : Bytes) : Prop :=
  (∃ d, 0 < d ∧ d < 16 ∧ b = [nibbles d code] ∧ id = last + BitVec.ofNat 16 d) ∨ ∃ w, SVarint id w ∧ b = nibbles 0 code :: w

/-- The size of a container: a size that is negative as a 64-bit integer counts as 0. -/
def compactCount (n : Nat) : Nat := if n < 2 ^ 63 then n else 0

/-- The header of a list or set of `n` elements: the short form for up to 14, or the long form for any number. -/
def CompactList (et : WType) (n : Nat) (b : Bytes) : Prop :=
  ∃ code, CompactType et code ∧ ((n < 15 ∧ b = [nibbles n code]) ∨ ∃ m w, UVarint m w ∧ n = compactCount m ∧ b = nibbles 15 code :: w)

/-- The header of a map of `n` entries: the size, followed by the types if it is not 0. -/
def CompactMap (kt vt : WType) (n : Nat) (b : Bytes) : Prop :=
  (n = 0 ∧ UVarint 0 b) ∨ ∃ m w k v kt' vt', m ≠ 0 ∧ UVarint m w ∧ n = compactCount m ∧ CompactType kt' k ∧ CompactType vt' v ∧ (n ≠ 0 → kt' = kt ∧ vt' = vt) ∧ b = w ++ [nibbles k v]

mutual
/-- The byte sequences of a value in the compact protocol. -/
def CompactWire : TVal → Bytes → Prop
  | .bool v, b => ∃ x, b = [x] ∧ (v = true ↔ x ≠ 0)
  | .byte v, b => b = [v]
  | .double v, b => b = (be 8 v.toNat).reverse
  | .i16 v, b => SVarint v b
  | .i32 v, b => SVarint v b
  | .i64 v, b => SVarint v b
  | .str _ v, b => v.length < 2 ^ 63 ∧ ∃ w, UVarint v.length w ∧ b = w ++ v
  | .uuid v, b => v.length = 16 ∧ b = v
  | .struct _ fs, b => CompactWireFields 0 fs b
  | .map kt vt es, b => ∃ hd b1, b = hd ++ b1 ∧ CompactMap kt vt es.length hd ∧ CompactWireEntries kt vt es b1
  | .set et es, b => ∃ hd b1, b = hd ++ b1 ∧ CompactList et es.length hd ∧ CompactWireElems et es b1
  | .list et es, b => ∃ hd b1, b = hd ++ b1 ∧ CompactList et es.length hd ∧ CompactWireElems et es b1
/-- Fields, given the id of the field before: header and value, where a bool is in the header; then a byte with 0 in its lower half. -/
def CompactWireFields (last : BitVec 16) : List (Bytes × BitVec 16 × TVal) → Bytes → Prop
  | [], b => ∃ d, d < 16 ∧ b = [nibbles d 0]
  | (_, id, v) :: fs, b => ∃ hd b1 b2, b = hd ++ b1 ++ b2 ∧ CompactField (compactFieldCode v).toNat last id hd ∧ (if v.ty = Ty.bool then b1 = [] else CompactWire v b1) ∧ CompactWireFields id fs b2
/-- Entries of the declared types. -/
def CompactWireEntries (kt vt : WType) : List (TVal × TVal) → Bytes → Prop
  | [], b => b = []
  | (k, v) :: es, b => k.ty = kt ∧ v.ty = vt ∧ ∃ b1 b2 b3, b = b1 ++ b2 ++ b3 ∧ CompactWire k b1 ∧ CompactWire v b2 ∧ CompactWireEntries kt vt es b3
/-- Elements of the declared type. -/
def CompactWireElems (et : WType) : List TVal → Bytes → Prop
  | [], b => b = []
  | v :: es, b => v.ty = et ∧ ∃ b1 b2, b = b1 ++ b2 ∧ CompactWire v b1 ∧ CompactWireElems et es b2
end

/-- The byte sequences of a message header in the compact protocol: as `encCompactMessage` says, with padded varints or not; of the sequence id the low 32 bits are taken. -/
def CompactMessage (h : MessageHeader) (b : Bytes) : Prop :=
  h.type.toNat < 8 ∧ h.name.length < 2 ^ 63 ∧ ∃ m w1 w2, UVarint m w1 ∧ h.id = BitVec.ofNat 32 m ∧ UVarint h.name.length w2 ∧
    b = [0x82, BitVec.ofNat 8 (32 * h.type.toNat + 1)] ++ w1 ++ w2 ++ h.name

end GoThrift.Spec
