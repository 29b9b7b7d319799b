import Verif.Model.Arshal

/-!
# Marshal and Unmarshal used by several goroutines

The same functions as in `Verif/Model/Arshal.lean`, with the state they share made explicit: the arshalers on the heap, the global cache `lookupArshalerCache` and, of each struct arshaler,
the variables `once`, `fields` and `errInit` its closures capture. A goroutine is a program (`CProg`) whose steps are the operations on this shared state, one atomic step each,
and the calls it makes on its own Readers and Writers. The steps of the goroutines are interleaved in any order (sequential consistency, which the Go memory model
guarantees to programs without data races; that there are none is part of property C37).
-/

namespace GoThrift

/-- The address of an arshaler: a value of type `*arshaler`. -/
abbrev Ptr := Nat

/-- What the closures `marshal` and `unmarshal` of an arshaler capture and never change (arshal_default.go). The arshalers of parts are pointers. -/
inductive Body where
  | leaf (t : TypeId) (l : Leaf)
  | struct (t : TypeId)
  | map (t : TypeId) (key elem : Ptr)
  | seq (t : TypeId) (isSet : Bool) (elem : Ptr)
  | ptr (t : TypeId) (elem : Ptr)
  | invalid (t : TypeId)
  deriving DecidableEq, Repr

/-- An `arshaler` (arshal.go:84-88). -/
structure Obj where
  wireType : WType
  body : Body
  deriving DecidableEq, Repr

/-- `structField` (fields.go:26-32). -/
structure CField where
  index : Nat
  typ : TypeId
  fncs : Ptr
  id : BitVec 16
  name : Bytes
  required : Bool
  deriving DecidableEq, Repr

/-- The variables `fields` and `errInit` (arshal_default.go:262-263): the error, or `fields.sorted`. -/
abbrev CTable := Except Err (List CField)

/-- A `sync.Once`: not used yet; its function is being run by a goroutine; its function has returned. (A real `Once` does not know which goroutine it is; no operation depends on it.) -/
inductive Once where
  | idle
  | running (i : Nat)
  | done
  deriving DecidableEq, Repr

/-- The state that goroutines share. -/
structure Shared where
  /-- the arshalers made so far; addresses are positions -/
  heap : List Obj
  /-- `lookupArshalerCache` (arshal.go:90) -/
  cache : TypeId → Option Ptr
  /-- the variable `once` of each struct arshaler (arshal_default.go:261) -/
  once : Ptr → Once
  /-- the variables `fields` and `errInit` of each struct arshaler -/
  vars : Ptr → CTable
  /-- how often these variables have been assigned (not part of the program: it counts) -/
  writes : Ptr → Nat

/-- Before anything has been used: the cache is empty, the variables have their zero values. -/
def Shared.initial : Shared := ⟨[], fun _ => none, fun _ => .idle, fun _ => .ok [], fun _ => 0⟩

/-- The operations on the shared state. -/
inductive SOp where
  /-- `lookupArshalerCache.Load(t)` -/
  | load (t : TypeId)
  /-- `lookupArshalerCache.LoadOrStore(t, p)` -/
  | loadOrStore (t : TypeId) (p : Ptr)
  /-- `&fncs`: a new arshaler -/
  | new (o : Obj)
  /-- use of the parts of an arshaler, which do not change -/
  | get (p : Ptr)
  /-- the beginning of `once.Do(init)`: waits while another goroutine runs `init`; the answer says whether this goroutine has to run it -/
  | enter (p : Ptr)
  /-- the end of `once.Do(init)` in the goroutine that ran `init` -/
  | leave (p : Ptr)
  /-- `fields, errInit = r` (arshal_default.go:266) -/
  | assign (p : Ptr) (r : CTable)
  /-- use of `errInit` and `fields` -/
  | read (p : Ptr)

/-- The answer to an operation. -/
@[reducible] def SOp.Ans : SOp → Type
  | load _ => Option Ptr
  | loadOrStore _ _ => Ptr
  | new _ => Ptr
  | get _ => Obj
  | enter _ => Bool
  | leave _ => Unit
  | assign _ _ => Unit
  | read _ => CTable

/-- The function `f` with another value at `a`. -/
def update {α β : Type} [DecidableEq α] (f : α → β) (a : α) (b : β) : α → β := fun x => if x = a then b else f x

/-- The effect of an operation of goroutine `i`; `none`: it has to wait. An address outside the heap cannot occur in Go. -/
def SOp.step (i : Nat) (s : Shared) : (o : SOp) → Option (o.Ans × Shared)
  | load t => some (s.cache t, s)
  | loadOrStore t p => match s.cache t with
    | some q => some (q, s)
    | none => some (p, { s with cache := update s.cache t (some p) })
  | new o => some (s.heap.length, { s with heap := s.heap ++ [o] })
  | get p => some ((s.heap[p]?).getD ⟨0, .invalid 0⟩, s)
  | enter p => match s.once p with
    | .idle => some (true, { s with once := update s.once p (.running i) })
    | .running _ => none
    | .done => some (false, s)
  | leave p => some ((), { s with once := update s.once p .done })
  | assign p r => some ((), { s with vars := update s.vars p r, writes := update s.writes p (s.writes p + 1) })
  | read p => some (s.vars p, s)

/-- A call on a Writer or Reader of the goroutine. -/
inductive LOp where
  | write (o : WOp)
  | read (o : ROp)
  deriving DecidableEq, Repr

/-- The answer to a call. -/
@[reducible] def LOp.Ans : LOp → Type
  | write _ => Option Err
  | read o => Except Err o.Ans

/-- The program of a goroutine. -/
inductive CProg (α : Type) : Type where
  | ret (a : α)
  | diverge
  | panic
  | shared (o : SOp) (k : o.Ans → CProg α)
  | call (o : LOp) (k : o.Ans → CProg α)

namespace CProg

/-- Sequential composition. -/
def bind {α β : Type} : CProg α → (α → CProg β) → CProg β
  | ret a, f => f a
  | diverge, _ => diverge
  | panic, _ => panic
  | shared o k, f => shared o fun r => (k r).bind f
  | call o k, f => call o fun r => (k r).bind f

/-- An operation on the shared state. -/
def op (o : SOp) : CProg o.Ans := .shared o .ret

/-- `if err := p; err != nil { return err }; q` -/
def andThen (p q : CProg (Option Err)) : CProg (Option Err) := p.bind fun e => match e with
  | none => q
  | some e => .ret (some e)

end CProg

/-- A program that uses a Writer only. -/
def WProg.toC : WProg → CProg (Option Err)
  | .ret e => .ret e
  | .diverge => .diverge
  | .panic => .panic
  | .call o k => .call (.write o) fun r => (k r).toC

/-- A program that uses a Reader only. -/
def RProg.toC {α : Type} : RProg α → CProg α
  | .ret e => .ret e
  | .diverge => .diverge
  | .panic => .panic
  | .call o k => .call (.read o) fun r => (k r).toC

/-! ## Making and finding arshalers -/

/-- `return &fncs` -/
def newObj (wt : WType) (b : Body) : CProg Ptr := .op (.new ⟨wt, b⟩)

/-- `makeDefaultArshaler` (arshal_default.go:17-66 and the functions it calls), where `look` is lookupArshaler. -/
def makeDefaultArshaler (env : Env) (look : TypeId → CProg Ptr) (t : TypeId) : CProg Ptr :=
  let g := env.type t
  let seq (isSet : Bool) (e : TypeId) : CProg Ptr := (look e).bind fun p => newObj (if isSet then Ty.set else Ty.list) (.seq t isSet p)
  let leaf (l : Leaf) : CProg Ptr := newObj l.wireType (.leaf t l)
  match g.kind with
  | .bool => leaf .bool
  | .float32 => leaf .f32
  | .float64 => leaf .f64
  | .int8 | .uint8 => leaf .i8
  | .int16 | .uint16 => leaf .i16
  | .int32 | .uint32 => leaf .i32
  | .int64 | .uint64 => leaf .i64
  | .string => leaf .string
  | .struct _ => newObj Ty.struct (.struct t)
  | .map k e => (look k).bind fun kp => (look e).bind fun ep => newObj Ty.map (.map t kp ep)   -- arshal_default.go:398-402
  | .slice e => if g.isSet then seq true e else if g.isList then seq false e else if g.isBytes then leaf .bytes else seq false e
  | .uuid => leaf .uuid
  | .ptr e => (look e).bind fun p => (CProg.op (.get p)).bind fun o => newObj o.wireType (.ptr t p)   -- arshal_default.go:597-600
  | .other => newObj 0 (.invalid t)

/-- `lookupArshaler` (arshal.go:92-102). -/
def clookup (env : Env) : Nat → TypeId → CProg Ptr
  | 0, _ => .diverge
  | fuel + 1, t => .shared (.load t) fun v => match v with
    | some p => .ret p
    | none => (makeDefaultArshaler env (clookup env fuel) t).bind fun fncs => .op (.loadOrStore t fncs)

/-- The loop of `makeStructFields` (fields.go:38-77); compare `fieldLoop`. -/
def cfieldLoop (env : Env) (look : TypeId → CProg Ptr) (t : TypeId) : Nat → List FieldDecl → CProg CTable
  | _, [] => .ret (.ok [])
  | i, sf :: sfs =>
    (parseFieldOptions env.unicode sf).elim .panic .diverge fun (opts, ignored, err) =>
      match err with
      | some e => .ret (.error (.semanticE .marshal 0 (some t) e))
      | none =>
        if ignored then cfieldLoop env look t (i + 1) sfs
        else (look sf.typ).bind fun p =>
          (cfieldLoop env look t (i + 1) sfs).bind fun r => match r with
            | .error e => .ret (.error e)
            | .ok fs => .ret (.ok (⟨i, sf.typ, p, opts.id, opts.name, opts.required⟩ :: fs))

/-- `makeStructFields` (fields.go:34-100); compare `makeStructFields` in `Verif/Model/Arshal.lean`. -/
def cmakeStructFields (env : Env) (look : TypeId → CProg Ptr) (t : TypeId) : CProg CTable :=
  (cfieldLoop env look t 0 (env.fields t)).bind fun r => match r with
    | .error e => .ret (.error e)
    | .ok all =>
      if (env.fields t) ≠ [] ∧ (∀ f ∈ env.fields t, f.tag = none) ∧ all = [] then
        .ret (.error (.semanticE .marshal 0 (some t) (.text "Go struct has no exported fields")))
      else .ret (.ok (env.sort (fun f => f.id.toInt) all))

/-- `once.Do(init)` (arshal_default.go:265-267,270,322) in the arshaler at `p`, made for the struct type `t`. -/
def onceDo (env : Env) (lf : Nat) (t : TypeId) (p : Ptr) : CProg Unit :=
  .shared (.enter p) fun first =>
    if first then (cmakeStructFields env (clookup env lf) t).bind fun r => (CProg.op (.assign p r)).bind fun _ => .op (.leave p)
    else .ret ()

/-- `once.Do(init)` and then the use of `errInit` and `fields`. The code reads `fields` again for every field; here it is read once. -/
def ctable (env : Env) (lf : Nat) (t : TypeId) (p : Ptr) : CProg CTable := (onceDo env lf t p).bind fun _ => .op (.read p)

/-! ## Marshal: compare the functions of `Verif/Model/Arshal.lean` without the `c` -/

/-- Compare `wcall`. -/
def cwcall (act : String) (tt : WType) (t : TypeId) (o : WOp) (k : CProg (Option Err)) : CProg (Option Err) :=
  .call (.write o) fun r => match r with
    | none => k
    | some e => .ret (some (.semanticE .marshal tt (some t) (.wire act e)))

/-- Compare `marshalElems`. -/
def cmarshalElems (m : GoVal → CProg (Option Err)) (k : CProg (Option Err)) : List GoVal → CProg (Option Err)
  | [] => k
  | v :: vs => (m v).andThen (cmarshalElems m k vs)

/-- Compare `marshalEntries`. -/
def cmarshalEntries (mk mv : GoVal → CProg (Option Err)) (k : CProg (Option Err)) : List (GoVal × GoVal) → CProg (Option Err)
  | [] => k
  | e :: es => (mk e.1).andThen ((mv e.2).andThen (cmarshalEntries mk mv k es))

/-- Compare `marshalFields`. -/
def cmarshalFields (env : Env) (m : Ptr → GoVal → CProg (Option Err)) (t : TypeId) (vals : List GoVal) (k : CProg (Option Err)) : List CField → CProg (Option Err)
  | [] => k
  | f :: fs =>
    (CProg.op (.get f.fncs)).bind fun o =>
    if o.wireType = Ty.stop then .ret (some (.semantic .marshal 0 (some f.typ)))
    else match vals[f.index]? with
      | none => .panic
      | some v =>
        if f.required = false ∧ reportsZero env f.typ v = true then cmarshalFields env m t vals k fs
        else cwcall "WriteFieldBegin" Ty.struct t (.fieldBegin ⟨f.name, o.wireType, f.id⟩)
          ((m f.fncs v).andThen (cwcall "WriteFieldEnd" Ty.struct t .fieldEnd (cmarshalFields env m t vals k fs)))

/-- Compare `marshalSeq`. -/
def cmarshalSeq (t : TypeId) (isSet : Bool) (et : WType) (m : GoVal → CProg (Option Err)) (vs : List GoVal) : CProg (Option Err) :=
  let h : SetHeader := ⟨et, BitVec.ofNat 64 vs.length⟩
  if isSet then cwcall "WriteSetBegin" Ty.set t (.setBegin h) (cmarshalElems m (cwcall "WriteSetEnd" Ty.set t .setEnd (.ret none)) vs)
  else cwcall "WriteListBegin" Ty.list t (.listBegin h) (cmarshalElems m (cwcall "WriteListEnd" Ty.list t .listEnd (.ret none)) vs)

/-- `fncs.marshal` of the arshaler at `p`; `lf` bounds the recursion of lookupArshaler. -/
def cmarshal (env : Env) (lf : Nat) : Nat → Ptr → GoVal → CProg (Option Err)
  | 0, _, _ => .diverge
  | fuel + 1, p, v => (CProg.op (.get p)).bind fun fncs => match fncs.body with
    | .leaf t l => (marshalLeaf env t l v).toC
    | .struct t => (ctable env lf t p).bind fun r => match r with
      | .error e => .ret (some (withAction .marshal e))
      | .ok fs => match v.fields? with
        | none => .panic
        | some vals =>
          cwcall "WriteStructBegin" Ty.struct t (.structBegin (env.type t).name)
            (cmarshalFields env (cmarshal env lf fuel) t vals (cwcall "WriteStructEnd" Ty.struct t .structEnd (.ret none)) fs)
    | .map t kp ep => (CProg.op (.get kp)).bind fun ko => (CProg.op (.get ep)).bind fun eo =>
      if ko.wireType = Ty.stop ∨ eo.wireType = Ty.stop then .ret (some (.semantic .marshal Ty.map (some t)))
      else match v.entries? with
        | none => .panic
        | some es =>
          cwcall "WriteMapBegin" Ty.map t (.mapBegin ⟨ko.wireType, eo.wireType, BitVec.ofNat 64 es.length⟩)
            (cmarshalEntries (cmarshal env lf fuel kp) (cmarshal env lf fuel ep) (cwcall "WriteMapEnd" Ty.map t .mapEnd (.ret none)) es)
    | .seq t isSet ep => (CProg.op (.get ep)).bind fun eo =>
      if eo.wireType = Ty.stop then .ret (some (.semantic .marshal (if isSet then Ty.set else Ty.list) (some t)))
      else match v.elems? with
        | none => .panic
        | some vs => cmarshalSeq t isSet eo.wireType (cmarshal env lf fuel ep) vs
    | .ptr t ep => match v.deref? (env.zero (env.elemType t)) with
      | none => .panic
      | some v => cmarshal env lf fuel ep v
    | .invalid t => .ret (some (.semantic .marshal 0 (some t)))

/-- `Marshal` (arshal.go:18-38); compare `Marshal` in `Verif/Model/Arshal.lean`. -/
def cMarshal (env : Env) (lf fuel : Nat) (x : AnyVal) : CProg (Option Err) :=
  match x with
  | .nil => .ret (some (badArgument .marshal none))
  | .val t v => match env.elem? t with
    | none => (clookup env lf t).bind fun p => cmarshal env lf fuel p v
    | some e => match v.pointee? with
      | none => .ret (some (badArgument .marshal (some e)))
      | some v => (clookup env lf e).bind fun p => cmarshal env lf fuel p v

/-! ## Unmarshal: compare the functions of `Verif/Model/Arshal.lean` without the `c` -/

/-- Compare `UProg`. -/
abbrev CUProg (α : Type) := CProg (α × Option Err)

/-- Compare `rcall`. -/
def crcall {α : Type} (act : String) (tt : WType) (t : TypeId) (o : ROp) (old : α) (k : o.Ans → CUProg α) : CUProg α :=
  .call (.read o) fun r => match r with
    | .ok a => k a
    | .error e => .ret (old, some (.semanticE .unmarshal tt (some t) (.wire act e)))

/-- Compare `UProg.andThen`. -/
def CUProg.andThen {α β : Type} (p : CUProg α) (fail : α → β) (k : α → CUProg β) : CUProg β :=
  p.bind fun r => match r.2 with
    | none => k r.1
    | some e => .ret (fail r.1, some e)

/-- Compare `seqLoop`. -/
def cseqLoop (u : GoVal → CUProg GoVal) (zero : GoVal) (grow : Nat → Nat) : Nat → List GoVal → List GoVal → Bool →
    CUProg (List GoVal × List GoVal)
  | 0, done, rest, _ => .ret ((done, rest), none)
  | n + 1, done, rest, mustZero =>
    let grown := rest.isEmpty
    let rest := if grown then List.replicate (max 1 (grow done.length - done.length)) zero else rest
    let mustZero := mustZero && !grown
    match rest with
    | [] => .panic
    | v :: rest =>
      (u (if mustZero then zero else v)).andThen (fun v' => (done ++ [v'], rest)) fun v' =>
        cseqLoop u zero grow n (done ++ [v']) rest mustZero

/-- Compare `seqBody`. -/
def cseqBody (env : Env) (t et : TypeId) (u : WType → GoVal → CUProg GoVal) (old : GoVal) (h : SetHeader) (fin : GoVal → CUProg GoVal) : CUProg GoVal :=
  if h.size.toInt > 0 then
    (cseqLoop (u h.element) (env.zero et) (env.grow t) (loopCount h.size) [] old.slots true).andThen
      (fun p => .slice p.1 p.2) fun p => fin (.slice p.1 p.2)
  else fin old.cleared

/-- Compare `unmarshalSeq`. -/
def cunmarshalSeq (env : Env) (t : TypeId) (isSet : Bool) (et : TypeId) (u : WType → GoVal → CUProg GoVal) (old : GoVal) (wt : WType) :
    CUProg GoVal :=
  let wireType := if isSet then Ty.set else Ty.list
  if wt ≠ wireType then .ret (old, some (.semantic .unmarshal wt (some t)))
  else if old.elems?.isNone then .panic
  else if isSet then crcall "ReadSetBegin" Ty.set t .setBegin old fun h =>
    cseqBody env t et u old h fun v => crcall "ReadSetEnd" Ty.set t .setEnd v fun _ => .ret (v, none)
  else crcall "ReadListBegin" Ty.list t .listBegin old fun h =>
    cseqBody env t et u old h fun v => crcall "ReadListEnd" Ty.list t .listEnd v fun _ => .ret (v, none)

/-- Compare `mapLoop`. -/
def cmapLoop (uk : CUProg GoVal) (uv : GoVal → CUProg GoVal) (zeroV : GoVal) : Nat → List (GoVal × GoVal) → CUProg (List (GoVal × GoVal))
  | 0, es => .ret (es, none)
  | n + 1, es =>
    uk.andThen (fun _ => es) fun k =>
      (uv ((mapIndex k es).getD zeroV)).andThen (fun v => setMapIndex k v es) fun v => cmapLoop uk uv zeroV n (setMapIndex k v es)

/-- Compare `unmarshalMap`. -/
def cunmarshalMap (env : Env) (t kt et : TypeId) (uk uv : WType → GoVal → CUProg GoVal) (old : GoVal) (wt : WType) : CUProg GoVal :=
  if wt ≠ Ty.map then .ret (old, some (.semantic .unmarshal wt (some t)))
  else match old.entries? with
    | none => .panic
    | some es => crcall "ReadMapBegin" Ty.map t .mapBegin old fun h =>
      let fin (v : GoVal) : CUProg GoVal := crcall "ReadMapEnd" Ty.map t .mapEnd v fun _ => .ret (v, none)
      if h.size.toInt > 0 then
        (cmapLoop (uk h.key (env.zero kt)) (uv h.value) (env.zero et) (loopCount h.size) es).andThen .map fun es => fin (.map es)
      else fin old

/-- Compare `byID`. -/
def cbyID (fs : List CField) (id : BitVec 16) : Option CField := fs.reverse.find? fun f => f.id == id

mutual
/-- `fncs.unmarshal` of the arshaler at `p`; `lf` bounds the recursion of lookupArshaler. -/
def cunmarshal (env : Env) (lf sk : Nat) : Nat → Ptr → GoVal → WType → CUProg GoVal
  | 0, _, _, _ => .diverge
  | fuel + 1, p, old, wt => (CProg.op (.get p)).bind fun fncs => match fncs.body with
    | .leaf t l => (unmarshalLeaf env t l old wt).toC
    | .struct t => (ctable env lf t p).bind fun r => match r with
      | .error e => .ret (old, some (withAction .unmarshal e))
      | .ok fs =>
        if wt ≠ Ty.struct then .ret (old, some (.semantic .unmarshal wt (some t)))
        else match old.fields? with
          | none => .panic
          | some vals => crcall "ReadStructBegin" Ty.struct t .structBegin old fun _ => cunmarshalFields env lf sk fuel t fs vals
    | .map t kp ep => cunmarshalMap env t (env.keyType t) (env.elemType t) (fun wt v => cunmarshal env lf sk fuel kp v wt) (fun wt v => cunmarshal env lf sk fuel ep v wt) old wt
    | .seq t isSet ep => cunmarshalSeq env t isSet (env.elemType t) (fun wt v => cunmarshal env lf sk fuel ep v wt) old wt
    | .ptr t ep => match old.deref? (env.zero (env.elemType t)) with
      | none => .panic
      | some v => (cunmarshal env lf sk fuel ep v wt).andThen .ptr fun v => .ret (.ptr v, none)
    | .invalid t => .ret (old, some (.semantic .unmarshal wt (some t)))
/-- Compare `unmarshalFields`. -/
def cunmarshalFields (env : Env) (lf sk : Nat) : Nat → TypeId → List CField → List GoVal → CUProg GoVal
  | 0, _, _, _ => .diverge
  | fuel + 1, t, fs, vals =>
    crcall "ReadFieldBegin" Ty.struct t .fieldBegin (.struct vals) fun h =>
      if h.type = Ty.stop then crcall "ReadStructEnd" Ty.struct t .structEnd (.struct vals) fun _ => .ret (.struct vals, none)
      else
        let next (vals : List GoVal) : CUProg GoVal :=
          crcall "ReadFieldEnd" Ty.struct t .fieldEnd (.struct vals) fun _ => cunmarshalFields env lf sk fuel t fs vals
        match cbyID fs h.id with
        | none => (skip sk h.type).toC.bind fun e => match e with
          | some e => .ret (.struct vals, some e)
          | none => next vals
        | some f => match vals[f.index]? with
          | none => .panic
          | some v => (cunmarshal env lf sk fuel f.fncs v h.type).andThen (fun v' => .struct (vals.set f.index v')) fun v' => next (vals.set f.index v')
end

/-- `Unmarshal` (arshal.go:47-63); compare `Unmarshal` in `Verif/Model/Arshal.lean`. -/
def cUnmarshal (env : Env) (lf fuel : Nat) (x : AnyVal) : CUProg AnyVal :=
  match x with
  | .nil => .ret (.nil, some (badArgument .unmarshal none))
  | .val t v => match env.elem? t with
    | none => .ret (.val t v, some (badArgument .unmarshal (some t)))
    | some e => match v.pointee? with
      | none => .ret (.val t v, some (badArgument .unmarshal (some e)))
      | some v0 => (clookup env lf e).bind fun p => (CProg.op (.get p)).bind fun fncs =>
        (cunmarshal env lf fuel fuel p v0 fncs.wireType).andThen (fun v => .val t (.ptr v)) fun v => .ret (.val t (.ptr v), none)

/-! ## Goroutines -/

/-- What a goroutine does with the package: any number of calls of Marshal and Unmarshal, each depending on what the previous ones returned. The fuel of each call is part of the call. -/
inductive Caller (β : Type) where
  | stop (b : β)
  | marshal (fuel : Nat) (x : AnyVal) (next : Option Err → Caller β)
  | unmarshal (fuel : Nat) (x : AnyVal) (next : AnyVal × Option Err → Caller β)

/-- The program of a goroutine. -/
def Caller.prog {β : Type} (env : Env) (lf : Nat) : Caller β → CProg β
  | .stop b => .ret b
  | .marshal fuel x next => (cMarshal env lf fuel x).bind fun e => (next e).prog env lf
  | .unmarshal fuel x next => (cUnmarshal env lf fuel x).bind fun r => (next r).prog env lf

/-- What a goroutine can be seen to do in one step. -/
inductive Event where
  | shared (o : SOp) (r : o.Ans)
  | call (o : LOp) (r : o.Ans)

/-- All goroutines and the state they share. -/
structure Config (β : Type) where
  threads : List (CProg β)
  s : Shared

/-- One step of the goroutine `i`: an operation on the shared state that does not have to wait, or a call on its Reader or Writer, which may answer anything. -/
inductive Config.Step {β : Type} : Config β → Nat → Event → Config β → Prop where
  | shared {ts : List (CProg β)} {s s' : Shared} {i : Nat} {o : SOp} {k : o.Ans → CProg β} {r : o.Ans} :
      ts[i]? = some (.shared o k) → o.step i s = some (r, s') → Step ⟨ts, s⟩ i (.shared o r) ⟨ts.set i (k r), s'⟩
  | call {ts : List (CProg β)} {s : Shared} {i : Nat} {o : LOp} {k : o.Ans → CProg β} (r : o.Ans) :
      ts[i]? = some (.call o k) → Step ⟨ts, s⟩ i (.call o r) ⟨ts.set i (k r), s⟩

/-- Any interleaving of steps, with what was done by whom, in order. -/
inductive Config.Steps {β : Type} : Config β → List (Nat × Event) → Config β → Prop where
  | refl (c : Config β) : Steps c [] c
  | tail {c c' c'' : Config β} {es : List (Nat × Event)} {i : Nat} {e : Event} : Steps c es c' → Step c' i e c'' → Steps c (es ++ [(i, e)]) c''

/-- The beginning of a program with these goroutines. -/
def Config.start {β : Type} (env : Env) (lf : Nat) (cs : List (Caller β)) : Config β := ⟨cs.map (·.prog env lf), .initial⟩

end GoThrift
