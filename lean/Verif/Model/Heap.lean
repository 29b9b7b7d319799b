import Verif.Model.Arshal

/-!
# Package thrift on memory with sharing

`Model/Arshal.lean` has Marshal and Unmarshal on values that are trees. Here they are again on a memory in which pointers may point to the same variable, slices may overlap and maps may be
shared, or refer to themselves. `Props/Heap.lean` shows that on memory without sharing they do what they do on trees.

A location is a variable, an element of an array, or a map. Structs, and arrays of 16 bytes, are inside their variable; pointers to a field of a struct are not modelled.
-/

namespace GoThrift

/-- An address. The elements of an array have consecutive ones. -/
notation "Loc" => Nat

/-- A slice that is not nil: the address of its first element, length and capacity. -/
structure SliceRef where
  base : Loc
  len : Nat
  cap : Nat
  deriving DecidableEq, Repr

/-- What a variable holds. `lit` is a value without references: a bool, number, string, UUID, or a value of an unsupported kind. -/
inductive HVal where
  | lit (v : GoVal)
  | struct (fields : List HVal)
  | map (m : Option Loc)
  | bytes (s : Option SliceRef)
  | slice (s : Option SliceRef)
  | ptr (p : Option Loc)

/-- What is at an address: a variable or array element, or a map with its entries. -/
inductive MObj where
  | cell (v : HVal)
  | table (entries : List (HVal × HVal))

/-- The memory. Addresses from `next` on are free. `oracle` stands for all that is left open: what a failed read leaves behind, and the capacity of new byte slices. -/
structure Heap where
  mem : Loc → MObj
  next : Loc
  oracle : Nat → Nat

/-- An addressable value: a variable, and the way to a field inside. -/
structure Place where
  loc : Loc
  path : List Nat
  deriving DecidableEq, Repr

/-- `va.Field(i)` -/
def Place.field (p : Place) (i : Nat) : Place := ⟨p.loc, p.path ++ [i]⟩

namespace HVal

/-- The part of a value at a path. -/
def sub : List Nat → HVal → Option HVal
  | [], x => some x
  | i :: is, .struct fs => (fs[i]?).bind (sub is)
  | _ :: _, _ => none

/-- Replace the part of a value at a path. -/
def put (x y : HVal) : List Nat → HVal
  | [] => y
  | i :: is => match x with
    | .struct fs => .struct (fs.modify i fun x => x.put y is)
    | x => x

mutual
/-- A zero value in memory (zero values have no references, so the other cases do not occur). -/
def ofZero : GoVal → HVal
  | .struct vs => .struct (ofZeros vs)
  | .mapNil => .map none
  | .bytes none => .bytes none
  | .sliceNil => .slice none
  | .ptrNil => .ptr none
  | v => .lit v
/-- See `ofZero`. -/
def ofZeros : List GoVal → List HVal
  | [] => []
  | v :: vs => ofZero v :: ofZeros vs
end

end HVal

/-- `reflect.Zero(t)` in memory. -/
def Env.hzero (env : Env) (t : TypeId) : HVal := .ofZero (env.zero t)

namespace Heap

/-- Replace what is at an address. -/
def write (h : Heap) (l : Loc) (o : MObj) : Heap := { h with mem := fun l' => if l' = l then o else h.mem l' }

/-- `va` as a value -/
def get (h : Heap) (p : Place) : Option HVal := match h.mem p.loc with
  | .cell x => x.sub p.path
  | .table _ => none

/-- `va.Set(y)` -/
def set (h : Heap) (p : Place) (y : HVal) : Heap := match h.mem p.loc with
  | .cell x => h.write p.loc (.cell (x.put y p.path))
  | .table _ => h

/-- The entries of the map at an address. -/
def table (h : Heap) (l : Loc) : Option (List (HVal × HVal)) := match h.mem l with
  | .cell _ => none
  | .table es => some es

/-- A new object. -/
def alloc (h : Heap) (o : MObj) : Heap × Loc := ({ h.write h.next o with next := h.next + 1 }, h.next)

/-- Consecutive variables from `base` on get the values `xs`. -/
def fill (h : Heap) (base : Loc) (xs : List HVal) : Heap :=
  { h with mem := fun l => match (if base ≤ l then xs[l - base]? else none) with
      | some x => .cell x
      | none => h.mem l }

/-- A new array. -/
def allocArray (h : Heap) (xs : List HVal) : Heap × Loc := ({ h.fill h.next xs with next := h.next + xs.length }, h.next)

/-- The values of consecutive variables. -/
def cells (h : Heap) (base : Loc) : Nat → Option (List HVal)
  | 0 => some []
  | n + 1 => match h.mem base, h.cells (base + 1) n with
    | .cell x, some xs => some (x :: xs)
    | _, _ => none

/-- `n` bytes nobody knows. -/
def junk (h : Heap) (n : Nat) : Bytes := (List.range n).map fun i => BitVec.ofNat 8 (h.oracle i)

/-- The bytes of `junk h n` have been used. -/
def used (h : Heap) (n : Nat) : Heap := { h with oracle := fun i => h.oracle (i + n) }

/-- The bytes of an array. -/
def byteCells (b : Bytes) : List HVal := b.map fun x => .lit (.i8 x)

/-- Something has been written to the array of a byte slice, up to its capacity. -/
def scribble (h : Heap) : Option SliceRef → Heap
  | none => h
  | some s => (h.fill s.base (byteCells (h.junk s.cap))).used s.cap

/-- Something has been written to a UUID. -/
def scribbleUUID (h : Heap) (p : Place) : Heap := match h.get p with
  | some (.lit (.uuid _)) => (h.set p (.lit (.uuid (h.junk 16)))).used 16
  | _ => h

/-- A new byte slice, with some spare capacity. -/
def newBytes (h : Heap) (v : Bytes) : Heap × Option SliceRef :=
  let n := h.oracle 0
  let h := h.used 1
  let r := (h.used n).allocArray (byteCells (v ++ h.junk n))
  (r.1, some ⟨r.2, v.length, v.length + n⟩)

/-- `append(s[:0], v...)`, done bit by bit as the bytes arrive: in the array of `s` if its capacity suffices, else in a new array at the end. What is then in the rest of the array
of `s` is left open. -/
def appendBytes (h : Heap) (s : Option SliceRef) (v : Bytes) : Heap × Option SliceRef :=
  match s with
  | none => if v.isEmpty then (h, none) else h.newBytes v
  | some s =>
    if v.length ≤ s.cap then ((h.scribble (some s)).fill s.base (byteCells v), some { s with len := v.length })
    else (h.scribble (some s)).newBytes v

end Heap

/-! ## Map keys -/

mutual
/-- `==` on map keys -/
def HVal.keyEq : HVal → HVal → Bool
  | .lit a, .lit b => a.keyEq b
  | .struct a, .struct b => HVal.keysEq a b
  | .ptr a, .ptr b => a == b
  | _, _ => false
/-- Field by field. -/
def HVal.keysEq : List HVal → List HVal → Bool
  | [], [] => true
  | a :: as, b :: bs => a.keyEq b && HVal.keysEq as bs
  | _, _ => false
end

/-- `MapIndex(k)` -/
def hmapIndex (k : HVal) : List (HVal × HVal) → Option HVal
  | [] => none
  | (k', v) :: es => if k.keyEq k' then some v else hmapIndex k es

/-- `SetMapIndex(k, v)`; an equal key is overwritten. -/
def hsetMapIndex (k v : HVal) : List (HVal × HVal) → List (HVal × HVal)
  | [] => [(k, v)]
  | (k', v') :: es => if k.keyEq k' then (k, v) :: es else (k', v') :: hsetMapIndex k v es

/-! ## Unmarshal -/

/-- Leaves (arshal_default.go:68-256). ReadBytes appends to `va.Bytes()[:0]`, that is, into the array of the old byte slice (arshal_default.go:213); ReadUUID reads into the variable (242). If
they fail, something may have been written there. -/
def hunmarshalLeaf (env : Env) (t : TypeId) (l : Leaf) (p : Place) (wt : WType) (h : Heap) : UProg Heap :=
  if wt ≠ l.wireType then .ret (h, some (.semantic .unmarshal wt (some t)))
  else match l with
    | .bool => rcall "ReadBool" Ty.bool t .bool h fun v => .ret (h.set p (.lit (.bool v)), none)
    | .f32 => rcall "ReadDouble" Ty.double t .double h fun v => .ret (h.set p (.lit (.f32 (env.narrow v))), none)
    | .f64 => rcall "ReadDouble" Ty.double t .double h fun v => .ret (h.set p (.lit (.f64 v)), none)
    | .i8 => rcall "ReadByte" Ty.byte t .byte h fun v => .ret (h.set p (.lit (.i8 v)), none)
    | .i16 => rcall "ReadI16" Ty.i16 t .i16 h fun v => .ret (h.set p (.lit (.i16 v)), none)
    | .i32 => rcall "ReadI32" Ty.i32 t .i32 h fun v => .ret (h.set p (.lit (.i32 v)), none)
    | .i64 => rcall "ReadI64" Ty.i64 t .i64 h fun v => .ret (h.set p (.lit (.i64 v)), none)
    | .string => rcall "ReadString" Ty.string t .string h fun v => .ret (h.set p (.lit (.str v)), none)
    | .bytes => match h.get p with
      | some (.bytes s) => rcall "ReadBytes" Ty.string t (.bytes []) (h.scribble s) fun v =>
          let r := h.appendBytes s v
          .ret (r.1.set p (.bytes r.2), none)
      | _ => .panic
    | .uuid => rcall "ReadUUID" Ty.uuid t .uuid (h.scribbleUUID p) fun v => .ret (h.set p (.lit (.uuid v)), none)

/-- `va.SetLen(n)`, which panics if the capacity is less. -/
def Heap.setLen (h : Heap) (p : Place) (n : Nat) : Option Heap := match h.get p with
  | some (.slice none) => if n = 0 then some h else none
  | some (.slice (some s)) => if n ≤ s.cap then some (h.set p (.slice (some { s with len := n }))) else none
  | _ => none

/-- The slice at a place, if it is not nil. -/
def Heap.sliceAt (h : Heap) (p : Place) : Option SliceRef := match h.get p with
  | some (.slice s) => s
  | _ => none

/-- `va.Grow(1); cap = va.Cap(); va.SetLen(cap)` (arshal_default.go:540-542): if the slice is full, its elements move to a new array. -/
def Heap.grow (env : Env) (t et : TypeId) (h : Heap) (p : Place) : Option Heap :=
  let full (xs : List HVal) : Option Heap :=
    let xs := xs ++ List.replicate (max 1 (env.grow t xs.length - xs.length)) (env.hzero et)
    let r := h.allocArray xs
    some (r.1.set p (.slice (some ⟨r.2, xs.length, xs.length⟩)))
  match h.get p with
  | some (.slice none) => full []
  | some (.slice (some s)) => if s.len < s.cap then h.setLen p s.cap else (h.cells s.base s.cap).bind full
  | _ => none

/-- Go on, or panic. -/
def orPanic {α β : Type} (x : Option α) (k : α → RProg β) : RProg β := match x with
  | some a => k a
  | none => .panic

/-- The element loop of lists and sets (arshal_default.go:538-554): `n` elements to go, `i` are there, `cap` and `mustZero` as in the code. -/
def hseqLoop (env : Env) (t et : TypeId) (p : Place) (u : Place → Heap → UProg Heap) : Nat → Nat → Nat → Bool → Heap → UProg Heap
  | 0, i, _, _, h => orPanic (h.setLen p i) fun h => .ret (h, none)
  | n + 1, i, cap, mustZero, h =>
    orPanic (if i = cap then h.grow env t et p else some h) fun h =>
    orPanic (h.sliceAt p) fun s =>
      if i < s.len then
        let mustZero := mustZero && !decide (i = cap)
        let cap := if i = cap then s.cap else cap
        let v : Place := ⟨s.base + i, []⟩
        (u v (if mustZero then h.set v (env.hzero et) else h)).bind fun r => match r.2 with
          | some e => orPanic (r.1.setLen p (i + 1)) fun h => .ret (h, some e)
          | none => hseqLoop env t et p u n (i + 1) cap mustZero r.1
      else .panic

/-- Between the header and the closing call of a list or set (arshal_default.go:529-557). -/
def hseqBody (env : Env) (t et : TypeId) (u : WType → Place → Heap → UProg Heap) (p : Place) (s : Option SliceRef) (h : Heap) (hd : SetHeader)
    (fin : Heap → UProg Heap) : UProg Heap :=
  if hd.size.toInt > 0 then
    let cap := match s with
      | none => 0
      | some s => s.cap
    orPanic (if cap > 0 then h.setLen p cap else some h) fun h =>
      (hseqLoop env t et p (u hd.element) (loopCount hd.size) 0 cap true h).andThen id fin
  else orPanic (h.setLen p 0) fin

/-- Lists and sets (arshal_default.go:521-565). -/
def hunmarshalSeq (env : Env) (t : TypeId) (isSet : Bool) (et : TypeId) (u : WType → Place → Heap → UProg Heap) (p : Place) (wt : WType) (h : Heap) : UProg Heap :=
  let wireType := if isSet then Ty.set else Ty.list
  if wt ≠ wireType then .ret (h, some (.semantic .unmarshal wt (some t)))
  else match h.get p with
    | some (.slice s) =>
      if isSet then rcall "ReadSetBegin" Ty.set t .setBegin h fun hd =>
        hseqBody env t et u p s h hd fun h => rcall "ReadSetEnd" Ty.set t .setEnd h fun _ => .ret (h, none)
      else rcall "ReadListBegin" Ty.list t .listBegin h fun hd =>
        hseqBody env t et u p s h hd fun h => rcall "ReadListEnd" Ty.list t .listEnd h fun _ => .ret (h, none)
    | _ => .panic

/-- The entries of the map at a place, none if it is nil. -/
def Heap.entriesAt (h : Heap) (p : Place) : Option (List (HVal × HVal)) := match h.get p with
  | some (.map none) => some []
  | some (.map (some l)) => h.table l
  | _ => none

/-- `va.SetMapIndex(k, v)`, which panics if the map is nil. -/
def Heap.setMapIndex (h : Heap) (p : Place) (k v : HVal) : Option Heap := match h.get p with
  | some (.map (some l)) => (h.table l).map fun es => h.write l (.table (hsetMapIndex k v es))
  | _ => none

/-- The entry loop of maps (arshal_default.go:453-468); `k` and `v` are the variables of the code. -/
def hmapLoop (env : Env) (kt et : TypeId) (p : Place) (k v : Loc) (uk uv : Place → Heap → UProg Heap) : Nat → Heap → UProg Heap
  | 0, h => .ret (h, none)
  | n + 1, h =>
    (uk ⟨k, []⟩ (h.set ⟨k, []⟩ (env.hzero kt))).andThen id fun h =>
    orPanic (h.get ⟨k, []⟩) fun kv =>
    orPanic (h.entriesAt p) fun es =>
      (uv ⟨v, []⟩ (h.set ⟨v, []⟩ ((hmapIndex kv es).getD (env.hzero et)))).bind fun r =>
        orPanic (r.1.get ⟨k, []⟩) fun kv =>
        orPanic (r.1.get ⟨v, []⟩) fun vv =>
        orPanic (r.1.setMapIndex p kv vv) fun h => match r.2 with
          | none => hmapLoop env kt et p k v uk uv n h
          | some e => .ret (h, some e)

/-- `if va.IsNil() { va.Set(reflect.MakeMap(t)) }` (arshal_default.go:448-450) -/
def Heap.makeMap (h : Heap) (p : Place) : Option Loc → Heap
  | some _ => h
  | none => (h.alloc (.table [])).1.set p (.map (some (h.alloc (.table [])).2))

/-- Maps (arshal_default.go:438-476). -/
def hunmarshalMap (env : Env) (t kt et : TypeId) (uk uv : WType → Place → Heap → UProg Heap) (p : Place) (wt : WType) (h : Heap) : UProg Heap :=
  if wt ≠ Ty.map then .ret (h, some (.semantic .unmarshal wt (some t)))
  else match h.get p with
    | some (.map m) => rcall "ReadMapBegin" Ty.map t .mapBegin h fun hd =>
      let fin (h : Heap) : UProg Heap := rcall "ReadMapEnd" Ty.map t .mapEnd h fun _ => .ret (h, none)
      if hd.size.toInt > 0 then
        let k := (h.makeMap p m).alloc (.cell (env.hzero kt))
        let v := k.1.alloc (.cell (env.hzero et))
        (hmapLoop env kt et p k.2 v.2 (uk hd.key) (uv hd.value) (loopCount hd.size) v.1).andThen id fin
      else fin h
    | _ => .panic

mutual
/-- `fncs.unmarshal` on the addressable value `p` -/
def hunmarshal (env : Env) (sk : Nat) : Nat → Arsh → Place → WType → Heap → UProg Heap
  | 0, _, _, _, _ => .diverge
  | fuel + 1, a, p, wt, h =>
    match a with
    | .leaf t l => hunmarshalLeaf env t l p wt h
    | .struct t =>                                                      -- arshal_default.go:321-370
      (makeStructFields env fuel t).elim .panic .diverge fun r => match r with
        | .error e => .ret (h, some (withAction .unmarshal e))
        | .ok fs =>
          if wt ≠ Ty.struct then .ret (h, some (.semantic .unmarshal wt (some t)))
          else match h.get p with
            | some (.struct _) => rcall "ReadStructBegin" Ty.struct t .structBegin h fun _ => hunmarshalFields env sk fuel t fs p h
            | _ => .panic
    | .map t ka ea =>
      hunmarshalMap env t ka.typ ea.typ (fun wt p h => hunmarshal env sk fuel ka p wt h) (fun wt p h => hunmarshal env sk fuel ea p wt h) p wt h
    | .seq t isSet ea => hunmarshalSeq env t isSet ea.typ (fun wt p h => hunmarshal env sk fuel ea p wt h) p wt h
    | .ptr _ ea =>                                                      -- arshal_default.go:609-615
      match h.get p with
      | some (.ptr (some l)) => hunmarshal env sk fuel ea ⟨l, []⟩ wt h
      | some (.ptr none) =>
        let r := h.alloc (.cell (env.hzero ea.typ))
        hunmarshal env sk fuel ea ⟨r.2, []⟩ wt (r.1.set p (.ptr (some r.2)))
      | _ => .panic
    | .invalid t => .ret (h, some (.semantic .unmarshal wt (some t))) -- arshal_default.go:624-626
/-- The field loop (arshal_default.go:336-370). -/
def hunmarshalFields (env : Env) (sk : Nat) : Nat → TypeId → List SField → Place → Heap → UProg Heap
  | 0, _, _, _, _ => .diverge
  | fuel + 1, t, fs, p, h =>
    rcall "ReadFieldBegin" Ty.struct t .fieldBegin h fun hd =>
      if hd.type = Ty.stop then rcall "ReadStructEnd" Ty.struct t .structEnd h fun _ => .ret (h, none)
      else
        let next (h : Heap) : UProg Heap := rcall "ReadFieldEnd" Ty.struct t .fieldEnd h fun _ => hunmarshalFields env sk fuel t fs p h
        match byID fs hd.id with
        | none => (skip sk hd.type).bind fun e => match e with
          | some e => .ret (h, some e)
          | none => next h
        | some f => match h.get (p.field f.index) with
          | none => .panic
          | some _ => (hunmarshal env sk fuel f.a (p.field f.index) hd.type h).andThen id next
end

/-- An argument of interface type `any`: nil, or a value with its dynamic type. -/
inductive HAny where
  | nil
  | val (t : TypeId) (x : HVal)

/-- `Unmarshal` (arshal.go:47-63): the memory afterwards, and the error. -/
def HUnmarshal (env : Env) (fuel : Nat) (x : HAny) (h : Heap) : UProg Heap :=
  match x with
  | .nil => .ret (h, some (badArgument .unmarshal none))
  | .val t x => match env.elem? t with
    | none => .ret (h, some (badArgument .unmarshal (some t)))
    | some e => match x with
      | .ptr (some l) => (lookupArshaler env fuel e).elim .panic .diverge fun a => hunmarshal env fuel fuel a ⟨l, []⟩ a.wireType h
      | _ => .ret (h, some (badArgument .unmarshal (some e)))

/-! ## Marshal

Marshal only reads memory; the variables it makes (arshal.go:31-32, arshal_default.go:420-421,603) are its own. -/

mutual
/-- `reflect.Value.IsZero` -/
def HVal.isZero (neg : Bool) : HVal → Bool
  | .lit v => v.isZero neg
  | .struct fs => HVal.allZero neg fs
  | .map m => m.isNone
  | .bytes s => s.isNone
  | .slice s => s.isNone
  | .ptr p => p.isNone
/-- All fields are zero. -/
def HVal.allZero (neg : Bool) : List HVal → Bool
  | [] => true
  | x :: xs => x.isZero neg && HVal.allZero neg xs
end

/-- The `IsZero` methods, which may follow references. -/
abbrev HMethods := TypeId → Option (Heap → HVal → Bool)

/-- Is a value of this type reported to be zero (thrift/fields.go:57-73, thrift/arshal_default.go:296)? -/
def hreportsZero (env : Env) (hz : HMethods) (t : TypeId) (h : Heap) (x : HVal) : Bool :=
  match hz t with
  | none => x.isZero (env.negZero t)
  | some m => match (env.type t).kind, x with
    | .ptr _, .ptr none => true
    | _, _ => m h x

/-- A byte of an array. -/
def HVal.byte? : HVal → Option Byte
  | .lit (.i8 b) => some b
  | _ => none

/-- `va.Bytes()` of a byte slice -/
def Heap.bytesOf (h : Heap) : Option SliceRef → Option Bytes
  | none => some []
  | some s => (h.cells s.base s.len).bind fun xs => xs.mapM HVal.byte?

/-- The elements of a slice. -/
def Heap.elemsOf (h : Heap) : Option SliceRef → Option (List HVal)
  | none => some []
  | some s => h.cells s.base s.len

/-- The entries of a map. (Go iterates in an order of its own choice each time. Here it is that of the table.) -/
def Heap.entriesOf (h : Heap) : Option Loc → Option (List (HVal × HVal))
  | none => some []
  | some l => h.table l

/-- Leaves (arshal_default.go:68-256). -/
def hmarshalLeaf (env : Env) (t : TypeId) (h : Heap) : Leaf → HVal → WProg
  | .bytes, .bytes s => match h.bytesOf s with
    | some b => wcall "WriteBytes" Ty.string t (.bytes b) (.ret none)
    | none => .panic
  | l, .lit v => marshalLeaf env t l v
  | _, _ => .panic

/-- Marshal elements in order, then go on with `k` (arshal_default.go:508-513). -/
def hmarshalElems (m : HVal → WProg) (k : WProg) : List HVal → WProg
  | [] => k
  | x :: xs => (m x).andThen (hmarshalElems m k xs)

/-- Marshal map entries in iteration order (arshal_default.go:417-430). -/
def hmarshalEntries (mk mv : HVal → WProg) (k : WProg) : List (HVal × HVal) → WProg
  | [] => k
  | e :: es => (mk e.1).andThen ((mv e.2).andThen (hmarshalEntries mk mv k es))

/-- Marshal struct fields in order (arshal_default.go:283-313). -/
def hmarshalFields (env : Env) (hz : HMethods) (h : Heap) (m : Arsh → HVal → WProg) (t : TypeId) (vals : List HVal) (k : WProg) : List SField → WProg
  | [] => k
  | f :: fs =>
    if f.a.wireType = Ty.stop then .ret (some (.semantic .marshal 0 (some f.typ)))
    else match vals[f.index]? with
      | none => .panic
      | some x =>
        if f.required = false ∧ hreportsZero env hz f.typ h x = true then hmarshalFields env hz h m t vals k fs
        else wcall "WriteFieldBegin" Ty.struct t (.fieldBegin ⟨f.name, f.a.wireType, f.id⟩)
          ((m f.a x).andThen (wcall "WriteFieldEnd" Ty.struct t .fieldEnd (hmarshalFields env hz h m t vals k fs)))

/-- Lists and sets (arshal_default.go:495-520,569-595). -/
def hmarshalSeq (t : TypeId) (isSet : Bool) (et : WType) (m : HVal → WProg) (xs : List HVal) : WProg :=
  let hd : SetHeader := ⟨et, BitVec.ofNat 64 xs.length⟩
  if isSet then wcall "WriteSetBegin" Ty.set t (.setBegin hd) (hmarshalElems m (wcall "WriteSetEnd" Ty.set t .setEnd (.ret none)) xs)
  else wcall "WriteListBegin" Ty.list t (.listBegin hd) (hmarshalElems m (wcall "WriteListEnd" Ty.list t .listEnd (.ret none)) xs)

/-- `fncs.marshal` -/
def hmarshal (env : Env) (hz : HMethods) (h : Heap) : Nat → Arsh → HVal → WProg
  | 0, _, _ => .diverge
  | fuel + 1, a, x =>
    match a with
    | .leaf t l => hmarshalLeaf env t h l x
    | .struct t =>                                                      -- arshal_default.go:269-320
      (makeStructFields env fuel t).elim .panic .diverge fun r => match r with
        | .error e => .ret (some (withAction .marshal e))
        | .ok fs => match x with
          | .struct vals =>
            wcall "WriteStructBegin" Ty.struct t (.structBegin (env.type t).name)
              (hmarshalFields env hz h (hmarshal env hz h fuel) t vals (wcall "WriteStructEnd" Ty.struct t .structEnd (.ret none)) fs)
          | _ => .panic
    | .map t ka ea =>                                                   -- arshal_default.go:403-437
      if ka.wireType = Ty.stop ∨ ea.wireType = Ty.stop then .ret (some (.semantic .marshal Ty.map (some t)))
      else match x with
        | .map m => match h.entriesOf m with
          | none => .panic
          | some es =>
            wcall "WriteMapBegin" Ty.map t (.mapBegin ⟨ka.wireType, ea.wireType, BitVec.ofNat 64 es.length⟩)
              (hmarshalEntries (hmarshal env hz h fuel ka) (hmarshal env hz h fuel ea) (wcall "WriteMapEnd" Ty.map t .mapEnd (.ret none)) es)
        | _ => .panic
    | .seq t isSet ea =>                                                -- arshal_default.go:495-520
      if ea.wireType = Ty.stop then .ret (some (.semantic .marshal (if isSet then Ty.set else Ty.list) (some t)))
      else match x with
        | .slice s => match h.elemsOf s with
          | none => .panic
          | some xs => hmarshalSeq t isSet ea.wireType (hmarshal env hz h fuel ea) xs
        | _ => .panic
    | .ptr _ ea =>                                                      -- arshal_default.go:601-608
      match x with
      | .ptr none => hmarshal env hz h fuel ea (env.hzero ea.typ)
      | .ptr (some l) => match h.get ⟨l, []⟩ with
        | none => .panic
        | some y => hmarshal env hz h fuel ea y
      | _ => .panic
    | .invalid t => .ret (some (.semantic .marshal 0 (some t)))         -- arshal_default.go:621-623

/-- `Marshal` (arshal.go:18-38). -/
def HMarshal (env : Env) (hz : HMethods) (fuel : Nat) (x : HAny) (h : Heap) : WProg :=
  match x with
  | .nil => .ret (some (badArgument .marshal none))
  | .val t x => match env.elem? t with
    | none => (lookupArshaler env fuel t).elim .panic .diverge fun a => hmarshal env hz h fuel a x
    | some e => match x with
      | .ptr (some l) => match h.get ⟨l, []⟩ with
        | none => .panic
        | some y => (lookupArshaler env fuel e).elim .panic .diverge fun a => hmarshal env hz h fuel a y
      | _ => .ret (some (badArgument .marshal (some e)))

end GoThrift
