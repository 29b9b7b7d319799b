import Verif.Model.Fields

/-!
# Package thrift: Marshal and Unmarshal

thrift/arshal.go, thrift/arshal_default.go and `makeStructFields` of thrift/fields.go. The closures of an `arshaler` are represented by data (`Arsh`): what they capture. The model of
marshalling and unmarshalling carries bounds ("fuel") on the recursion depth; a run that reaches the bound is `diverged`.
-/

namespace GoThrift

/-- The arshalers of types without parts (arshal_default.go:68-256). -/
inductive Leaf where
  | bool | f32 | f64 | i8 | i16 | i32 | i64 | string | bytes | uuid
  deriving DecidableEq, Repr

/-- An `*arshaler` (arshal.go:84-88) with the type it was made for. Signed and unsigned integers of a width have the same effect on bit patterns
(`T(get(va))` and `U(v)`, arshal_default.go:159,175, are truncation and extension of the same bits). -/
inductive Arsh where
  | leaf (t : TypeId) (l : Leaf)
  /-- makeStructArshaler (258-372); the field table is made on first use -/
  | struct (t : TypeId)
  /-- makeMapArshaler (398-478) -/
  | map (t : TypeId) (key elem : Arsh)
  /-- makeSetArshaler, makeListArshaler (480-595) -/
  | seq (t : TypeId) (isSet : Bool) (elem : Arsh)
  /-- makePointerArshaler (597-617) -/
  | ptr (t : TypeId) (elem : Arsh)
  /-- makeInvalidArshaler (619-628) -/
  | invalid (t : TypeId)
  deriving DecidableEq, Repr

/-- The wire type of scalars and strings. -/
def Leaf.wireType : Leaf → WType
  | .bool => Ty.bool
  | .f32 | .f64 => Ty.double
  | .i8 => Ty.byte
  | .i16 => Ty.i16
  | .i32 => Ty.i32
  | .i64 => Ty.i64
  | .string | .bytes => Ty.string
  | .uuid => Ty.uuid

namespace Arsh

/-- The `reflect.Type` an arshaler was made for. -/
def typ : Arsh → TypeId
  | leaf t _ | struct t | map t _ _ | seq t _ _ | ptr t _ | invalid t => t

/-- `fncs.wireType`; the invalid arshaler leaves it 0, which is `thriftwire.Stop`. -/
def wireType : Arsh → WType
  | leaf _ l => l.wireType
  | struct _ => Ty.struct
  | map _ _ _ => Ty.map
  | seq _ isSet _ => if isSet then Ty.set else Ty.list
  | ptr _ e => e.wireType
  | invalid _ => Ty.stop

end Arsh

/-- `lookupArshaler` (arshal.go:91-101) and `makeDefaultArshaler` (arshal_default.go:17-66), run by one goroutine: the cache only saves repeating the same
construction (a type enters the cache after its arshaler is complete). -/
def lookupArshaler (env : Env) : Nat → TypeId → Out Arsh
  | 0, _ => .diverged
  | fuel + 1, t =>
    let g := env.type t
    match g.kind with
    | .bool => .done (.leaf t .bool)
    | .float32 => .done (.leaf t .f32)
    | .float64 => .done (.leaf t .f64)
    | .int8 | .uint8 => .done (.leaf t .i8)
    | .int16 | .uint16 => .done (.leaf t .i16)
    | .int32 | .uint32 => .done (.leaf t .i32)
    | .int64 | .uint64 => .done (.leaf t .i64)
    | .string => .done (.leaf t .string)
    | .struct _ => .done (.struct t)
    | .map k e => (lookupArshaler env fuel k).bind fun ka => (lookupArshaler env fuel e).bind fun ea => .done (.map t ka ea)
    | .slice e =>
      if g.isSet then (lookupArshaler env fuel e).bind fun ea => .done (.seq t true ea)
      else if g.isList then (lookupArshaler env fuel e).bind fun ea => .done (.seq t false ea)
      else if g.isBytes then .done (.leaf t .bytes)
      else (lookupArshaler env fuel e).bind fun ea => .done (.seq t false ea)
    | .uuid => .done (.leaf t .uuid)
    | .ptr e => (lookupArshaler env fuel e).bind fun ea => .done (.ptr t ea)
    | .other => .done (.invalid t)

/-- `structField` (fields.go:26-32). `index` has length one: only `t.Field(i)` of the struct itself are considered (fields.go:39-53), so
the loops over `f.index[1:]` (arshal_default.go:289-294,349-351,374-396) never run. -/
structure SField where
  index : Nat
  typ : TypeId
  a : Arsh
  id : BitVec 16
  name : Bytes
  required : Bool
  deriving DecidableEq, Repr

/-- The loop over `t.NumField()` in `makeStructFields` (fields.go:38-77), from field `i` on. The result is `allFields` or the error, and whether any field was found to be
serialisable (`hasAnyThriftField`). -/
def fieldLoop (env : Env) (fuel : Nat) (t : TypeId) : Nat → List FieldDecl → Out (Except Err (List SField))
  | _, [] => .done (.ok [])
  | i, sf :: sfs =>
    (parseFieldOptions env.unicode sf).bind fun (opts, ignored, err) =>
      match err with
      | some e => .done (.error (.semanticE .marshal 0 (some t) e))
      | none =>
        if ignored then fieldLoop env fuel t (i + 1) sfs
        else (lookupArshaler env fuel sf.typ).bind fun a =>
          (fieldLoop env fuel t (i + 1) sfs).bind fun r => match r with
            | .error e => .done (.error e)
            | .ok fs => .done (.ok (⟨i, sf.typ, a, opts.id, opts.name, opts.required⟩ :: fs))

/-- `err := *errInit; err.action = …` (arshal_default.go:271-273,323-325) -/
def withAction (act : Action) : Err → Err
  | .semantic _ tt t => .semantic act tt t
  | .semanticE _ tt t e => .semanticE act tt t e
  | e => e

/-- `makeStructFields` (fields.go:34-100): `fs.sorted`, or the SemanticError (its action is set by the caller). `fs.byID` is `byID` of the result. -/
def makeStructFields (env : Env) (fuel : Nat) (t : TypeId) : Out (Except Err (List SField)) :=
  (fieldLoop env fuel t 0 (env.fields t)).bind fun r => match r with
    | .error e => .done (.error e)
    | .ok all =>
      if (env.fields t) ≠ [] ∧ (∀ f ∈ env.fields t, f.tag = none) ∧ all = [] then
        .done (.error (.semanticE .marshal 0 (some t) (.text "Go struct has no exported fields")))
      else .done (.ok (env.sort (fun f => f.id.toInt) all))

/-- `fs.byID[id]` (fields.go:93-97): of several fields with one id the last in `sorted`. -/
def byID (fs : List SField) (id : BitVec 16) : Option SField := fs.reverse.find? fun f => f.id == id

/-- Go on with a result computed on the way, in a program that can itself panic or diverge. -/
def Out.elim {α β : Type} (x : Out α) (panic diverge : β) (k : α → β) : β := match x with
  | .done a => k a
  | .panicked => panic
  | _ => diverge

/-! ## Marshal -/

/-- `if err := w.Op(...); err != nil { err := &wireError{action: act, err: err}; return &SemanticError{action: "marshal", ThriftType: tt, GoType: t, Err: err} }; k` -/
def wcall (act : String) (tt : WType) (t : TypeId) (o : WOp) (k : WProg) : WProg :=
  .call o fun r => match r with
    | none => k
    | some e => .ret (some (.semanticE .marshal tt (some t) (.wire act e)))

/-- Leaves (arshal_default.go:68-256). A value that is not of the arshaler's type cannot occur in Go. -/
def marshalLeaf (env : Env) (t : TypeId) : Leaf → GoVal → WProg
  | .bool, .bool v => wcall "WriteBool" Ty.bool t (.bool v) (.ret none)
  | .f32, .f32 v => wcall "WriteDouble" Ty.double t (.double (env.widen v)) (.ret none)
  | .f64, .f64 v => wcall "WriteDouble" Ty.double t (.double v) (.ret none)
  | .i8, .i8 v => wcall "WriteByte" Ty.byte t (.byte v) (.ret none)
  | .i16, .i16 v => wcall "WriteI16" Ty.i16 t (.i16 v) (.ret none)
  | .i32, .i32 v => wcall "WriteI32" Ty.i32 t (.i32 v) (.ret none)
  | .i64, .i64 v => wcall "WriteI64" Ty.i64 t (.i64 v) (.ret none)
  | .string, .str v => wcall "WriteString" Ty.string t (.string v) (.ret none)
  | .bytes, .bytes v => wcall "WriteBytes" Ty.string t (.bytes (v.getD [])) (.ret none)
  | .uuid, .uuid v => wcall "WriteUUID" Ty.uuid t (.uuid v) (.ret none)
  | _, _ => .panic

/-- Marshal elements in order, then go on with `k` (arshal_default.go:508-513). -/
def marshalElems (m : GoVal → WProg) (k : WProg) : List GoVal → WProg
  | [] => k
  | v :: vs => (m v).andThen (marshalElems m k vs)

/-- Marshal map entries in iteration order (arshal_default.go:417-430). -/
def marshalEntries (mk mv : GoVal → WProg) (k : WProg) : List (GoVal × GoVal) → WProg
  | [] => k
  | e :: es => (mk e.1).andThen ((mv e.2).andThen (marshalEntries mk mv k es))

/-- Marshal struct fields in order (arshal_default.go:283-313). Fields of interface type are never asked whether they are zero: their arshaler is invalid. `vals` are the values of all fields of the struct `t`. -/
def marshalFields (env : Env) (m : Arsh → GoVal → WProg) (t : TypeId) (vals : List GoVal) (k : WProg) : List SField → WProg
  | [] => k
  | f :: fs =>
    if f.a.wireType = Ty.stop then .ret (some (.semantic .marshal 0 (some f.typ)))
    else match vals[f.index]? with
      | none => .panic
      | some v =>
        if f.required = false ∧ reportsZero env f.typ v = true then marshalFields env m t vals k fs
        else wcall "WriteFieldBegin" Ty.struct t (.fieldBegin ⟨f.name, f.a.wireType, f.id⟩)
          ((m f.a v).andThen (wcall "WriteFieldEnd" Ty.struct t .fieldEnd (marshalFields env m t vals k fs)))

/-- `SetHeader`/`ListHeader` and the method names for sets and lists (arshal_default.go:569-595). -/
def marshalSeq (t : TypeId) (isSet : Bool) (et : WType) (m : GoVal → WProg) (vs : List GoVal) : WProg :=
  let h : SetHeader := ⟨et, BitVec.ofNat 64 vs.length⟩
  if isSet then wcall "WriteSetBegin" Ty.set t (.setBegin h) (marshalElems m (wcall "WriteSetEnd" Ty.set t .setEnd (.ret none)) vs)
  else wcall "WriteListBegin" Ty.list t (.listBegin h) (marshalElems m (wcall "WriteListEnd" Ty.list t .listEnd (.ret none)) vs)

/-- The entries of a map value; `va.Len()` of a nil map is 0. -/
def GoVal.entries? : GoVal → Option (List (GoVal × GoVal))
  | .mapNil => some []
  | .map es => some es
  | _ => none

/-- The elements of a slice value. -/
def GoVal.elems? : GoVal → Option (List GoVal)
  | .sliceNil => some []
  | .slice es _ => some es
  | _ => none

/-- The fields of a struct value. -/
def GoVal.fields? : GoVal → Option (List GoVal)
  | .struct vs => some vs
  | _ => none

/-- What a pointer points to; `zero` for a nil pointer (a new variable takes its place, arshal_default.go:602-604,610-612). -/
def GoVal.deref? (v zero : GoVal) : Option GoVal := match v with
  | .ptrNil => some zero
  | .ptr v => some v
  | _ => none

/-- `fncs.marshal` -/
def marshal (env : Env) : Nat → Arsh → GoVal → WProg
  | 0, _, _ => .diverge
  | fuel + 1, a, v =>
    match a with
    | .leaf t l => marshalLeaf env t l v
    | .struct t =>                                                      -- arshal_default.go:269-320
      (makeStructFields env fuel t).elim .panic .diverge fun r => match r with
        | .error e => .ret (some (withAction .marshal e))
        | .ok fs => match v.fields? with
          | none => .panic
          | some vals =>
            wcall "WriteStructBegin" Ty.struct t (.structBegin (env.type t).name)
              (marshalFields env (marshal env fuel) t vals (wcall "WriteStructEnd" Ty.struct t .structEnd (.ret none)) fs)
    | .map t ka ea =>                                                   -- arshal_default.go:403-437
      if ka.wireType = Ty.stop ∨ ea.wireType = Ty.stop then .ret (some (.semantic .marshal Ty.map (some t)))
      else match v.entries? with
        | none => .panic
        | some es =>
          wcall "WriteMapBegin" Ty.map t (.mapBegin ⟨ka.wireType, ea.wireType, BitVec.ofNat 64 es.length⟩)
            (marshalEntries (marshal env fuel ka) (marshal env fuel ea) (wcall "WriteMapEnd" Ty.map t .mapEnd (.ret none)) es)
    | .seq t isSet ea =>                                                -- arshal_default.go:495-520
      if ea.wireType = Ty.stop then .ret (some (.semantic .marshal (if isSet then Ty.set else Ty.list) (some t)))
      else match v.elems? with
        | none => .panic
        | some vs => marshalSeq t isSet ea.wireType (marshal env fuel ea) vs
    | .ptr _ ea =>                                                      -- arshal_default.go:601-608
      match v.deref? (env.zero ea.typ) with
      | none => .panic
      | some v => marshal env fuel ea v
    | .invalid t => .ret (some (.semantic .marshal 0 (some t)))         -- arshal_default.go:621-623

/-- An argument of interface type `any`: nil, or a value with its dynamic type. -/
inductive AnyVal where
  | nil
  | val (t : TypeId) (v : GoVal)

/-- The element type of a pointer type. -/
def Env.elem? (env : Env) (t : TypeId) : Option TypeId := match (env.type t).kind with
  | .ptr e => some e
  | _ => none

/-- What a non-nil pointer points to. -/
def GoVal.pointee? : GoVal → Option GoVal
  | .ptr v => some v
  | _ => none

/-- The error for an invalid argument of Marshal or Unmarshal. -/
def badArgument (act : Action) (t : Option TypeId) : Err :=
  .semanticE act 0 t (.text "value must be passed as a non-nil pointer reference")

/-- `Marshal` (arshal.go:18-38). A non-pointer value is copied to make it addressable, which changes nothing here. -/
def Marshal (env : Env) (fuel : Nat) (x : AnyVal) : WProg :=
  match x with
  | .nil => .ret (some (badArgument .marshal none))
  | .val t v => match env.elem? t with
    | none => (lookupArshaler env fuel t).elim .panic .diverge fun a => marshal env fuel a v
    | some e => match v.pointee? with
      | none => .ret (some (badArgument .marshal (some e)))
      | some v => (lookupArshaler env fuel e).elim .panic .diverge fun a => marshal env fuel a v

/-! ## Unmarshal -/

/-- The effect of an unmarshaler: the new value of its target, and the error. -/
abbrev UProg (α : Type) := RProg (α × Option Err)

/-- `v, err := r.Op(...); if err != nil { return SemanticError{..., wireError{act, err}} }; k(v)`; on failure the target is `old`. -/
def rcall {α : Type} (act : String) (tt : WType) (t : TypeId) (o : ROp) (old : α) (k : o.Ans → UProg α) : UProg α :=
  .call o fun r => match r with
    | .ok a => k a
    | .error e => .ret (old, some (.semanticE .unmarshal tt (some t) (.wire act e)))

/-- `if err = p; err != nil { return err }; k` where `p` yields a new value for the target. -/
def UProg.andThen {α β : Type} (p : UProg α) (fail : α → β) (k : α → UProg β) : UProg β :=
  p.bind fun r => match r.2 with
    | none => k r.1
    | some e => .ret (fail r.1, some e)

/-- Leaves (arshal_default.go:68-256); `old` is the previous value. ReadBytes appends to `va.Bytes()[:0]`, so a nil byte slice stays nil if nothing is read. What
is left in the array of the old byte slice, or in the old UUID, by a failed read is not modelled. -/
def unmarshalLeaf (env : Env) (t : TypeId) (l : Leaf) (old : GoVal) (wt : WType) : UProg GoVal :=
  if wt ≠ l.wireType then .ret (old, some (.semantic .unmarshal wt (some t)))
  else match l with
    | .bool => rcall "ReadBool" Ty.bool t .bool old fun v => .ret (.bool v, none)
    | .f32 => rcall "ReadDouble" Ty.double t .double old fun v => .ret (.f32 (env.narrow v), none)
    | .f64 => rcall "ReadDouble" Ty.double t .double old fun v => .ret (.f64 v, none)
    | .i8 => rcall "ReadByte" Ty.byte t .byte old fun v => .ret (.i8 v, none)
    | .i16 => rcall "ReadI16" Ty.i16 t .i16 old fun v => .ret (.i16 v, none)
    | .i32 => rcall "ReadI32" Ty.i32 t .i32 old fun v => .ret (.i32 v, none)
    | .i64 => rcall "ReadI64" Ty.i64 t .i64 old fun v => .ret (.i64 v, none)
    | .string => rcall "ReadString" Ty.string t .string old fun v => .ret (.str v, none)
    | .bytes => match old with
      | .bytes b => rcall "ReadBytes" Ty.string t (.bytes []) old fun v =>
          .ret (.bytes (if b.isNone && v.isEmpty then none else some v), none)
      | _ => .panic
    | .uuid => rcall "ReadUUID" Ty.uuid t .uuid old fun v => .ret (.uuid v, none)

/-- The element loop of lists and sets (arshal_default.go:538-554): `n` elements to go, `done` are the decoded ones, `rest` the remaining slots up to the
capacity, `mustZero` as in the code. The result is the elements and the remaining slots. -/
def seqLoop (u : GoVal → UProg GoVal) (zero : GoVal) (grow : Nat → Nat) : Nat → List GoVal → List GoVal → Bool →
    UProg (List GoVal × List GoVal)
  | 0, done, rest, _ => .ret ((done, rest), none)
  | n + 1, done, rest, mustZero =>
    let grown := rest.isEmpty
    let rest := if grown then List.replicate (max 1 (grow done.length - done.length)) zero else rest
    let mustZero := mustZero && !grown
    match rest with
    | [] => .panic
    | v :: rest =>
      (u (if mustZero then zero else v)).andThen (fun v' => (done ++ [v'], rest)) fun v' =>
        seqLoop u zero grow n (done ++ [v']) rest mustZero

/-- The slots of a slice up to its capacity. -/
def GoVal.slots : GoVal → List GoVal
  | .slice es sp => es ++ sp
  | _ => []

/-- `SetLen(0)`, which leaves a nil slice nil. -/
def GoVal.cleared : GoVal → GoVal
  | .slice es sp => .slice [] (es ++ sp)
  | v => v

/-- Between the header and the closing call of a list or set (arshal_default.go:529-557). -/
def seqBody (env : Env) (t et : TypeId) (u : WType → GoVal → UProg GoVal) (old : GoVal) (h : SetHeader) (fin : GoVal → UProg GoVal) : UProg GoVal :=
  if h.size.toInt > 0 then
    (seqLoop (u h.element) (env.zero et) (env.grow t) (loopCount h.size) [] old.slots true).andThen
      (fun p => .slice p.1 p.2) fun p => fin (.slice p.1 p.2)
  else fin old.cleared

/-- Lists and sets (arshal_default.go:521-565). -/
def unmarshalSeq (env : Env) (t : TypeId) (isSet : Bool) (et : TypeId) (u : WType → GoVal → UProg GoVal) (old : GoVal) (wt : WType) :
    UProg GoVal :=
  let wireType := if isSet then Ty.set else Ty.list
  if wt ≠ wireType then .ret (old, some (.semantic .unmarshal wt (some t)))
  else if old.elems?.isNone then .panic
  else if isSet then rcall "ReadSetBegin" Ty.set t .setBegin old fun h =>
    seqBody env t et u old h fun v => rcall "ReadSetEnd" Ty.set t .setEnd v fun _ => .ret (v, none)
  else rcall "ReadListBegin" Ty.list t .listBegin old fun h =>
    seqBody env t et u old h fun v => rcall "ReadListEnd" Ty.list t .listEnd v fun _ => .ret (v, none)

/-- The entry loop of maps (arshal_default.go:453-468). -/
def mapLoop (uk : UProg GoVal) (uv : GoVal → UProg GoVal) (zeroV : GoVal) : Nat → List (GoVal × GoVal) → UProg (List (GoVal × GoVal))
  | 0, es => .ret (es, none)
  | n + 1, es =>
    uk.andThen (fun _ => es) fun k =>
      (uv ((mapIndex k es).getD zeroV)).andThen (fun v => setMapIndex k v es) fun v => mapLoop uk uv zeroV n (setMapIndex k v es)

/-- Maps (arshal_default.go:438-476). -/
def unmarshalMap (env : Env) (t kt et : TypeId) (uk uv : WType → GoVal → UProg GoVal) (old : GoVal) (wt : WType) : UProg GoVal :=
  if wt ≠ Ty.map then .ret (old, some (.semantic .unmarshal wt (some t)))
  else match old.entries? with
    | none => .panic
    | some es => rcall "ReadMapBegin" Ty.map t .mapBegin old fun h =>
      let fin (v : GoVal) : UProg GoVal := rcall "ReadMapEnd" Ty.map t .mapEnd v fun _ => .ret (v, none)
      if h.size.toInt > 0 then
        (mapLoop (uk h.key (env.zero kt)) (uv h.value) (env.zero et) (loopCount h.size) es).andThen .map fun es => fin (.map es)
      else fin old

mutual
/-- `fncs.unmarshal`: `sk` bounds the recursion of Skip, `fuel` the recursion of unmarshalling and the number of fields. -/
def unmarshal (env : Env) (sk : Nat) : Nat → Arsh → GoVal → WType → UProg GoVal
  | 0, _, _, _ => .diverge
  | fuel + 1, a, old, wt =>
    match a with
    | .leaf t l => unmarshalLeaf env t l old wt
    | .struct t =>                                                      -- arshal_default.go:321-370
      (makeStructFields env fuel t).elim .panic .diverge fun r => match r with
        | .error e => .ret (old, some (withAction .unmarshal e))
        | .ok fs =>
          if wt ≠ Ty.struct then .ret (old, some (.semantic .unmarshal wt (some t)))
          else match old.fields? with
            | none => .panic
            | some vals => rcall "ReadStructBegin" Ty.struct t .structBegin old fun _ => unmarshalFields env sk fuel t fs vals
    | .map t ka ea => unmarshalMap env t ka.typ ea.typ (fun wt v => unmarshal env sk fuel ka v wt) (fun wt v => unmarshal env sk fuel ea v wt) old wt
    | .seq t isSet ea => unmarshalSeq env t isSet ea.typ (fun wt v => unmarshal env sk fuel ea v wt) old wt
    | .ptr _ ea =>                                                      -- arshal_default.go:609-615
      match old.deref? (env.zero ea.typ) with
      | none => .panic
      | some v => (unmarshal env sk fuel ea v wt).andThen .ptr fun v => .ret (.ptr v, none)
    | .invalid t => .ret (old, some (.semantic .unmarshal wt (some t))) -- arshal_default.go:624-626
/-- The field loop (arshal_default.go:336-370). -/
def unmarshalFields (env : Env) (sk : Nat) : Nat → TypeId → List SField → List GoVal → UProg GoVal
  | 0, _, _, _ => .diverge
  | fuel + 1, t, fs, vals =>
    rcall "ReadFieldBegin" Ty.struct t .fieldBegin (.struct vals) fun h =>
      if h.type = Ty.stop then rcall "ReadStructEnd" Ty.struct t .structEnd (.struct vals) fun _ => .ret (.struct vals, none)
      else
        let next (vals : List GoVal) : UProg GoVal :=
          rcall "ReadFieldEnd" Ty.struct t .fieldEnd (.struct vals) fun _ => unmarshalFields env sk fuel t fs vals
        match byID fs h.id with
        | none => (skip sk h.type).bind fun e => match e with
          | some e => .ret (.struct vals, some e)
          | none => next vals
        | some f => match vals[f.index]? with
          | none => .panic
          | some v => (unmarshal env sk fuel f.a v h.type).andThen (fun v' => .struct (vals.set f.index v')) fun v' => next (vals.set f.index v')
end

/-- `Unmarshal` (arshal.go:47-63): the argument afterwards, and the error. -/
def Unmarshal (env : Env) (fuel : Nat) (x : AnyVal) : UProg AnyVal :=
  match x with
  | .nil => .ret (.nil, some (badArgument .unmarshal none))
  | .val t v => match env.elem? t with
    | none => .ret (.val t v, some (badArgument .unmarshal (some t)))
    | some e => match v.pointee? with
      | none => .ret (.val t v, some (badArgument .unmarshal (some e)))
      | some v0 => (lookupArshaler env fuel e).elim .panic .diverge fun a =>
        (unmarshal env fuel fuel a v0 a.wireType).andThen (fun v => .val t (.ptr v)) fun v => .ret (.val t (.ptr v), none)

end GoThrift
