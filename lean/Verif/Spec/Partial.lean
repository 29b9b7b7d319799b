import Verif.Spec.Decode

/-!
# What Unmarshal leaves in its target when it stops half way
-/

namespace GoThrift.Spec

/-- A call of a Reader method that succeeded, with its answer. -/
abbrev Ev := (o : ROp) × o.Ans

mutual
/-- These calls, with these answers, read the wire value. A string can be read as string, as bytes or skipped; a UUID can be read or skipped. -/
inductive Reads : TVal → List Ev → Prop where
  | bool (v : Bool) : Reads (.bool v) [⟨.bool, v⟩]
  | byte (v : BitVec 8) : Reads (.byte v) [⟨.byte, v⟩]
  | double (v : BitVec 64) : Reads (.double v) [⟨.double, v⟩]
  | i16 (v : BitVec 16) : Reads (.i16 v) [⟨.i16, v⟩]
  | i32 (v : BitVec 32) : Reads (.i32 v) [⟨.i32, v⟩]
  | i64 (v : BitVec 64) : Reads (.i64 v) [⟨.i64, v⟩]
  | string (raw : Bool) (v : Bytes) : Reads (.str raw v) [⟨.string, v⟩]
  | bytes (raw : Bool) (v : Bytes) : Reads (.str raw v) [⟨.bytes [], v⟩]
  | skipString (raw : Bool) (v : Bytes) : Reads (.str raw v) [⟨.skipString, ()⟩]
  | uuid (v : Bytes) : Reads (.uuid v) [⟨.uuid, v⟩]
  | skipUUID (v : Bytes) : Reads (.uuid v) [⟨.skipUUID, ()⟩]
  | struct (name name' : Bytes) {tfs : List (Bytes × BitVec 16 × TVal)} {evs : List Ev} {h : FieldHeader} : ReadsFields tfs evs → h.type = Ty.stop →
      Reads (.struct name tfs) (⟨.structBegin, name'⟩ :: (evs ++ [⟨.fieldBegin, h⟩, ⟨.structEnd, ()⟩]))
  | map {h : MapHeader} {tes : List (TVal × TVal)} {evs : List Ev} : loopCount h.size = tes.length → ReadsEntries h.key h.value tes evs →
      Reads (.map h.key h.value tes) (⟨.mapBegin, h⟩ :: (evs ++ [⟨.mapEnd, ()⟩]))
  | set {h : SetHeader} {tvs : List TVal} {evs : List Ev} : loopCount h.size = tvs.length → ReadsElems h.element tvs evs →
      Reads (.set h.element tvs) (⟨.setBegin, h⟩ :: (evs ++ [⟨.setEnd, ()⟩]))
  | list {h : SetHeader} {tvs : List TVal} {evs : List Ev} : loopCount h.size = tvs.length → ReadsElems h.element tvs evs →
      Reads (.list h.element tvs) (⟨.listBegin, h⟩ :: (evs ++ [⟨.listEnd, ()⟩]))
/-- Fields, without the stop header. -/
inductive ReadsFields : List (Bytes × BitVec 16 × TVal) → List Ev → Prop where
  | nil : ReadsFields [] []
  | cons {h : FieldHeader} {tv : TVal} {tfs : List (Bytes × BitVec 16 × TVal)} {evs evs' : List Ev} : tv.ty = h.type → Reads tv evs → ReadsFields tfs evs' →
      ReadsFields ((h.name, h.id, tv) :: tfs) (⟨.fieldBegin, h⟩ :: (evs ++ ⟨.fieldEnd, ()⟩ :: evs'))
/-- Elements of a list or set. -/
inductive ReadsElems : WType → List TVal → List Ev → Prop where
  | nil {w : WType} : ReadsElems w [] []
  | cons {tv : TVal} {tvs : List TVal} {evs evs' : List Ev} : Reads tv evs → ReadsElems tv.ty tvs evs' → ReadsElems tv.ty (tv :: tvs) (evs ++ evs')
/-- Entries of a map. -/
inductive ReadsEntries : WType → WType → List (TVal × TVal) → List Ev → Prop where
  | nil {kw ew : WType} : ReadsEntries kw ew [] []
  | cons {k v : TVal} {tes : List (TVal × TVal)} {evs evs' evs'' : List Ev} : Reads k evs → Reads v evs' → ReadsEntries k.ty v.ty tes evs'' →
      ReadsEntries k.ty v.ty ((k, v) :: tes) (evs ++ evs' ++ evs'')
end

/-- Reading a value of this wire type has begun with these calls, and is not complete. -/
inductive Begun : WType → List Ev → Prop where
  | nothing (w : WType) : Begun w []
  /-- all but the closing call -/
  | last {tv : TVal} {evs : List Ev} {ev : Ev} : evs ≠ [] → Reads tv (evs ++ [ev]) → Begun tv.ty evs
  /-- some fields -/
  | fields (name : Bytes) {tfs : List (Bytes × BitVec 16 × TVal)} {evs : List Ev} : ReadsFields tfs evs → Begun Ty.struct (⟨.structBegin, name⟩ :: evs)
  /-- some fields, the last one but for its closing call -/
  | fieldEnd (name : Bytes) {tfs : List (Bytes × BitVec 16 × TVal)} {evs : List Ev} : ReadsFields tfs (evs ++ [⟨.fieldEnd, ()⟩]) → Begun Ty.struct (⟨.structBegin, name⟩ :: evs)
  /-- some fields and a part of the next one -/
  | field (name : Bytes) {tfs : List (Bytes × BitVec 16 × TVal)} {evs evs' : List Ev} {h : FieldHeader} : ReadsFields tfs evs → h.type ≠ Ty.stop → Begun h.type evs' →
      Begun Ty.struct (⟨.structBegin, name⟩ :: (evs ++ ⟨.fieldBegin, h⟩ :: evs'))
  /-- some elements, entries and so on, and a part of the next one -/
  | set {h : SetHeader} {tvs : List TVal} {evs evs' : List Ev} : ReadsElems h.element tvs evs → tvs.length < loopCount h.size → Begun h.element evs' → Begun Ty.set (⟨.setBegin, h⟩ :: (evs ++ evs'))
  | list {h : SetHeader} {tvs : List TVal} {evs evs' : List Ev} : ReadsElems h.element tvs evs → tvs.length < loopCount h.size → Begun h.element evs' → Begun Ty.list (⟨.listBegin, h⟩ :: (evs ++ evs'))
  | key {h : MapHeader} {tes : List (TVal × TVal)} {evs evs' : List Ev} : ReadsEntries h.key h.value tes evs → tes.length < loopCount h.size → Begun h.key evs' →
      Begun Ty.map (⟨.mapBegin, h⟩ :: (evs ++ evs'))
  | value {h : MapHeader} {tes : List (TVal × TVal)} {k : TVal} {evs evs' evs'' : List Ev} : ReadsEntries h.key h.value tes evs → tes.length < loopCount h.size → k.ty = h.key → Reads k evs' →
      Begun h.value evs'' → Begun Ty.map (⟨.mapBegin, h⟩ :: (evs ++ evs' ++ evs''))

/-- If reading a value of wire type `w` into a variable of type `t` that holds `old` ends after these calls, before the value is complete, the variable holds `v`. The last argument says whether it ended inside a field that is not declared. -/
inductive Stops (env : Env) : TypeId → WType → GoVal → List Ev → GoVal → Bool → Prop where
  /-- nothing was read: unchanged, -/
  | nothing {t : TypeId} (w : WType) (old : GoVal) : (∀ e, (env.type t).kind ≠ .ptr e) → Stops env t w old [] old false
  /-- but a nil pointer points to a new variable -/
  | ptrNil {t e : TypeId} {w : WType} {v : GoVal} {evs : List Ev} {u : Bool} : (env.type t).kind = .ptr e → Stops env e w (env.zero e) evs v u → Stops env t w .ptrNil evs (.ptr v) u
  /-- and the variable that a pointer points to is changed accordingly -/
  | ptr {t e : TypeId} {w : WType} {old v : GoVal} {evs : List Ev} {u : Bool} : (env.type t).kind = .ptr e → Stops env e w old evs v u → Stops env t w (.ptr old) evs (.ptr v) u
  /-- all but the closing call: as if it were complete -/
  | last {t : TypeId} {old v : GoVal} {tv : TVal} {evs : List Ev} {ev : Ev} : (∀ e, (env.type t).kind ≠ .ptr e) → evs ≠ [] → Reads tv (evs ++ [ev]) → Decodes env t old tv v → Stops env t tv.ty old evs v false
  /-- some fields: they are stored, the others are unchanged -/
  | fields {t : TypeId} {fs : List FieldDecl} {vs vs' : List GoVal} (name : Bytes) {tfs : List (Bytes × BitVec 16 × TVal)} {evs : List Ev} : (env.type t).kind = .struct fs →
      ReadsFields tfs evs → DecodesFields env fs vs tfs vs' → Stops env t Ty.struct (.struct vs) (⟨.structBegin, name⟩ :: evs) (.struct vs') false
  /-- some fields, the last one but for its closing call -/
  | fieldEnd {t : TypeId} {fs : List FieldDecl} {vs vs' : List GoVal} (name : Bytes) {tfs : List (Bytes × BitVec 16 × TVal)} {evs : List Ev} : (env.type t).kind = .struct fs →
      ReadsFields tfs (evs ++ [⟨.fieldEnd, ()⟩]) → DecodesFields env fs vs tfs vs' → Stops env t Ty.struct (.struct vs) (⟨.structBegin, name⟩ :: evs) (.struct vs') false
  /-- some fields and a part of the next one -/
  | field {t : TypeId} {fs : List FieldDecl} {vs vs' : List GoVal} (name : Bytes) {tfs : List (Bytes × BitVec 16 × TVal)} {evs evs' : List Ev} {h : FieldHeader} {i : Nat} {f : FieldDecl} {required u : Bool}
      {old v : GoVal} : (env.type t).kind = .struct fs → ReadsFields tfs evs → DecodesFields env fs vs tfs vs' → h.type ≠ Ty.stop → fs[i]? = some f → Declares env f h.id required → vs'[i]? = some old →
      Stops env f.typ h.type old evs' v u → Stops env t Ty.struct (.struct vs) (⟨.structBegin, name⟩ :: (evs ++ ⟨.fieldBegin, h⟩ :: evs')) (.struct (vs'.set i v)) u
  /-- some fields and a part of one that is not declared -/
  | unknown {t : TypeId} {fs : List FieldDecl} {vs vs' : List GoVal} (name : Bytes) {tfs : List (Bytes × BitVec 16 × TVal)} {evs evs' : List Ev} {h : FieldHeader} :
      (env.type t).kind = .struct fs → ReadsFields tfs evs → DecodesFields env fs vs tfs vs' → h.type ≠ Ty.stop → (∀ f ∈ fs, ∀ required, ¬ Declares env f h.id required) →
      Begun h.type evs' → Stops env t Ty.struct (.struct vs) (⟨.structBegin, name⟩ :: (evs ++ ⟨.fieldBegin, h⟩ :: evs')) (.struct vs') true
  /-- some elements of a set, and a part of the next one: these are the elements of the slice -/
  | set {t e : TypeId} {old v : GoVal} {h : SetHeader} {tvs : List TVal} {es sp : List GoVal} {evs evs' : List Ev} {u : Bool} : (env.type t).kind = .slice e → (env.type t).asBytes = false →
      (env.type t).isSet = true → ReadsElems h.element tvs evs → tvs.length < loopCount h.size → es.length = tvs.length →
      (∀ (i : Nat) x v, tvs[i]? = some x → es[i]? = some v → Decodes env e (env.zero e) x v) → Stops env e h.element (env.zero e) evs' v u →
      Stops env t Ty.set old (⟨.setBegin, h⟩ :: (evs ++ evs')) (.slice (es ++ [v]) sp) u
  /-- of a list likewise -/
  | list {t e : TypeId} {old v : GoVal} {h : SetHeader} {tvs : List TVal} {es sp : List GoVal} {evs evs' : List Ev} {u : Bool} : (env.type t).kind = .slice e → (env.type t).asBytes = false →
      (env.type t).isSet = false → ReadsElems h.element tvs evs → tvs.length < loopCount h.size → es.length = tvs.length →
      (∀ (i : Nat) x v, tvs[i]? = some x → es[i]? = some v → Decodes env e (env.zero e) x v) → Stops env e h.element (env.zero e) evs' v u →
      Stops env t Ty.list old (⟨.listBegin, h⟩ :: (evs ++ evs')) (.slice (es ++ [v]) sp) u
  /-- some entries of a map and a part of a key: these entries are in the map -/
  | key {t k e : TypeId} {old x : GoVal} {h : MapHeader} {tes : List (TVal × TVal)} {es : List (GoVal × GoVal)} {evs evs' : List Ev} {u : Bool} : (env.type t).kind = .map k e →
      ReadsEntries h.key h.value tes evs → tes.length < loopCount h.size → DecodesEntries env k e (entriesOf old) tes es → Stops env k h.key (env.zero k) evs' x u →
      Stops env t Ty.map old (⟨.mapBegin, h⟩ :: (evs ++ evs')) (.map es) u
  /-- some entries of a map, a key and a part of its value: as if it were the whole value -/
  | value {t k e : TypeId} {old x v : GoVal} {h : MapHeader} {tes : List (TVal × TVal)} {es : List (GoVal × GoVal)} {ktv : TVal} {evs evs' evs'' : List Ev} {u : Bool} : (env.type t).kind = .map k e →
      ReadsEntries h.key h.value tes evs → tes.length < loopCount h.size → DecodesEntries env k e (entriesOf old) tes es → ktv.ty = h.key → Reads ktv evs' →
      Decodes env k (env.zero k) ktv x → Stops env e h.value ((mapIndex x es).getD (env.zero e)) evs'' v u →
      Stops env t Ty.map old (⟨.mapBegin, h⟩ :: (evs ++ evs' ++ evs'')) (.map (setMapIndex x v es)) u

/-- The reader `r` with a record of the calls and their answers. -/
def traced {S : Type} (r : Rdr S) : Rdr (S × List ((o : ROp) × Except Err o.Ans)) where
  step o s := (r.step o s.1).bind fun x => .done (x.1, (x.2, s.2 ++ [⟨o, x.1⟩]))

/-- A successful call in such a record. -/
def Ev.ok (ev : Ev) : (o : ROp) × Except Err o.Ans := ⟨ev.1, .ok ev.2⟩

end GoThrift.Spec
