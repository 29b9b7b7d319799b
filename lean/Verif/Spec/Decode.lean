import Verif.Spec.GoValue

/-!
# What Unmarshal makes of a wire value
-/

namespace GoThrift.Spec

/-- A struct type that can be unmarshalled into: every field takes no part or is tagged properly and has a type that does not contain itself other than through a struct; and if there
are fields, one has a tag. (The type of a field may even be unsupported if the field is not on the wire.) -/
def GoodStruct (env : Env) (fs : List FieldDecl) : Prop :=
  (∀ f ∈ fs, Ignored f ∨ ∃ id required, Declares env f id required) ∧
  (∀ f ∈ fs, ¬ Ignored f → Acc (InPart env) f.typ) ∧ (fs ≠ [] → ∃ f ∈ fs, f.tag ≠ none)

mutual
/-- Decoding the wire value into a variable of type `t` holding `old` makes it hold the last argument. -/
inductive Decodes (env : Env) : TypeId → GoVal → TVal → GoVal → Prop where
  | bool {t : TypeId} {old : GoVal} (b : Bool) : (env.type t).kind = .bool → Decodes env t old (.bool b) (.bool b)
  | f32 {t : TypeId} {old : GoVal} (x : BitVec 64) : (env.type t).kind = .float32 → Decodes env t old (.double x) (.f32 (env.narrow x))
  | f64 {t : TypeId} {old : GoVal} (x : BitVec 64) : (env.type t).kind = .float64 → Decodes env t old (.double x) (.f64 x)
  | byte {t : TypeId} {old : GoVal} (x : BitVec 8) : (env.type t).kind = .int8 ∨ (env.type t).kind = .uint8 → Decodes env t old (.byte x) (.i8 x)
  | i16 {t : TypeId} {old : GoVal} (x : BitVec 16) : (env.type t).kind = .int16 ∨ (env.type t).kind = .uint16 → Decodes env t old (.i16 x) (.i16 x)
  | i32 {t : TypeId} {old : GoVal} (x : BitVec 32) : (env.type t).kind = .int32 ∨ (env.type t).kind = .uint32 → Decodes env t old (.i32 x) (.i32 x)
  | i64 {t : TypeId} {old : GoVal} (x : BitVec 64) : (env.type t).kind = .int64 ∨ (env.type t).kind = .uint64 → Decodes env t old (.i64 x) (.i64 x)
  | string {t : TypeId} {old : GoVal} (raw : Bool) (b : Bytes) : (env.type t).kind = .string → Decodes env t old (.str raw b) (.str b)
  /-- a nil byte slice stays nil if there is nothing to store -/
  | bytes {t e : TypeId} {o : Option Bytes} (raw : Bool) (b : Bytes) : (env.type t).kind = .slice e → (env.type t).asBytes = true →
      Decodes env t (.bytes o) (.str raw b) (.bytes (if o = none ∧ b = [] then none else some b))
  | uuid {t : TypeId} {old : GoVal} (b : Bytes) : (env.type t).kind = .uuid → Decodes env t old (.uuid b) (.uuid b)
  | ptr {t e : TypeId} {old v : GoVal} {tv : TVal} : (env.type t).kind = .ptr e → Decodes env e old tv v → Decodes env t (.ptr old) tv (.ptr v)
  | ptrNil {t e : TypeId} {v : GoVal} {tv : TVal} : (env.type t).kind = .ptr e → Decodes env e (env.zero e) tv v → Decodes env t .ptrNil tv (.ptr v)
  /-- a nil slice stays nil -/
  | seqNil {t e : TypeId} (w : WType) {tv : TVal} : (env.type t).kind = .slice e → (env.type t).asBytes = false →
      tv = (if (env.type t).isSet then .set w [] else .list w []) → Decodes env t .sliceNil tv .sliceNil
  | seqEmpty {t e : TypeId} (w : WType) {tv : TVal} {es sp : List GoVal} : (env.type t).kind = .slice e → (env.type t).asBytes = false →
      tv = (if (env.type t).isSet then .set w [] else .list w []) → Decodes env t (.slice es sp) tv (.slice [] (es ++ sp))
  /-- each element is decoded into a zero value -/
  | seq {t e : TypeId} (w : WType) {tv : TVal} {tvs : List TVal} {old : GoVal} {es sp : List GoVal} : (env.type t).kind = .slice e → (env.type t).asBytes = false →
      tv = (if (env.type t).isSet then .set w tvs else .list w tvs) → tvs ≠ [] → (old = .sliceNil ∨ ∃ es0 sp0, old = .slice es0 sp0) → es.length = tvs.length →
      (∀ (i : Nat) x v, tvs[i]? = some x → es[i]? = some v → Decodes env e (env.zero e) x v) → Decodes env t old tv (.slice es sp)
  /-- a nil map stays nil -/
  | mapEmpty {t k e : TypeId} (kw ew : WType) {old : GoVal} : (env.type t).kind = .map k e → (old = .mapNil ∨ ∃ es0, old = .map es0) → Decodes env t old (.map kw ew []) old
  | map {t k e : TypeId} (kw ew : WType) {tes : List (TVal × TVal)} {old : GoVal} {es : List (GoVal × GoVal)} : (env.type t).kind = .map k e → tes ≠ [] →
      (old = .mapNil ∨ ∃ es0, old = .map es0) → DecodesEntries env k e (entriesOf old) tes es → Decodes env t old (.map kw ew tes) (.map es)
  | struct {t : TypeId} {fs : List FieldDecl} (n : Bytes) {tfs : List (Bytes × BitVec 16 × TVal)} {vs vs' : List GoVal} : (env.type t).kind = .struct fs → GoodStruct env fs →
      DecodesFields env fs vs tfs vs' → Decodes env t (.struct vs) (.struct n tfs) (.struct vs')
/-- Map entries are decoded one after the other: the key into a zero value, the value into the value the map has for the key, or a zero value. -/
inductive DecodesEntries (env : Env) : TypeId → TypeId → List (GoVal × GoVal) → List (TVal × TVal) → List (GoVal × GoVal) → Prop where
  | nil {k e : TypeId} {es : List (GoVal × GoVal)} : DecodesEntries env k e es [] es
  | cons {k e : TypeId} {es es' : List (GoVal × GoVal)} {te : TVal × TVal} {tes : List (TVal × TVal)} {x v : GoVal} : Decodes env k (env.zero k) te.1 x →
      Decodes env e ((mapIndex x es).getD (env.zero e)) te.2 v → DecodesEntries env k e (setMapIndex x v es) tes es' → DecodesEntries env k e es (te :: tes) es'
/-- The fields of a struct are decoded one after the other; those that are not declared are skipped. -/
inductive DecodesFields (env : Env) : List FieldDecl → List GoVal → List (Bytes × BitVec 16 × TVal) → List GoVal → Prop where
  | nil {fs : List FieldDecl} {vs : List GoVal} : DecodesFields env fs vs [] vs
  | unknown {fs : List FieldDecl} {vs vs' : List GoVal} {tf : Bytes × BitVec 16 × TVal} {tfs : List (Bytes × BitVec 16 × TVal)} :
      (∀ f ∈ fs, ∀ required, ¬ Declares env f tf.2.1 required) → DecodesFields env fs vs tfs vs' → DecodesFields env fs vs (tf :: tfs) vs'
  | known {fs : List FieldDecl} {vs vs' : List GoVal} {tf : Bytes × BitVec 16 × TVal} {tfs : List (Bytes × BitVec 16 × TVal)} {i : Nat} {f : FieldDecl} {required : Bool}
      {old v : GoVal} : fs[i]? = some f → Declares env f tf.2.1 required → vs[i]? = some old → Decodes env f.typ old tf.2.2 v →
      DecodesFields env fs (vs.set i v) tfs vs' → DecodesFields env fs vs (tf :: tfs) vs'
end

/-- Somewhere inside `tv` there is a wire value of type `bad` where a variable of type `t'`, which is not a pointer and does not map to `bad`, is to be filled. -/
inductive Mismatch (env : Env) : TypeId → TVal → WType → TypeId → Prop where
  | here {t : TypeId} {tv : TVal} : (∀ e, (env.type t).kind ≠ .ptr e) → ¬ WireTypeOf env t tv.ty → Mismatch env t tv tv.ty t
  | ptr {t e t' : TypeId} {tv : TVal} {bad : WType} : (env.type t).kind = .ptr e → Mismatch env e tv bad t' → Mismatch env t tv bad t'
  | set {t e t' : TypeId} {w bad : WType} {tv : TVal} {tvs : List TVal} : (env.type t).kind = .slice e → (env.type t).isSet = true → tv ∈ tvs → Mismatch env e tv bad t' →
      Mismatch env t (.set w tvs) bad t'
  | list {t e t' : TypeId} {w bad : WType} {tv : TVal} {tvs : List TVal} : (env.type t).kind = .slice e → (env.type t).isSet = false → (env.type t).asBytes = false → tv ∈ tvs →
      Mismatch env e tv bad t' → Mismatch env t (.list w tvs) bad t'
  | key {t k e t' : TypeId} {kw ew bad : WType} {te : TVal × TVal} {tes : List (TVal × TVal)} : (env.type t).kind = .map k e → te ∈ tes → Mismatch env k te.1 bad t' →
      Mismatch env t (.map kw ew tes) bad t'
  | value {t k e t' : TypeId} {kw ew bad : WType} {te : TVal × TVal} {tes : List (TVal × TVal)} : (env.type t).kind = .map k e → te ∈ tes → Mismatch env e te.2 bad t' →
      Mismatch env t (.map kw ew tes) bad t'
  | field {t t' : TypeId} {fs : List FieldDecl} {n : Bytes} {bad : WType} {tf : Bytes × BitVec 16 × TVal} {tfs : List (Bytes × BitVec 16 × TVal)} {f : FieldDecl}
      {required : Bool} : (env.type t).kind = .struct fs → tf ∈ tfs → f ∈ fs → Declares env f tf.2.1 required → Mismatch env f.typ tf.2.2 bad t' →
      Mismatch env t (.struct n tfs) bad t'

/-- All struct types inside `t` can be unmarshalled into. -/
def AllGood (env : Env) (t : TypeId) : Prop := ∀ t' fs, Within env t' t → (env.type t').kind = .struct fs → GoodStruct env fs

/-- No two keys of a map are equal. -/
def DistinctKeys (es : List (GoVal × GoVal)) : Prop := es.Pairwise fun x y => x.1.keyEq y.1 = false

/-- The lookup of every type inside `t` ends (C36): none of them contains itself other than through a struct. -/
def AllAcc (env : Env) (t : TypeId) : Prop := ∀ t', Within env t' t → Acc (InPart env) t'

/-- `v` is a value of type `t`, and no map inside has a key twice: a value that can occur in a Go program. -/
def ValidValue (env : Env) (t : TypeId) (v : GoVal) : Prop := Everywhere env (fun t v => Shape env t v ∧ ∀ es, v = .map es → DistinctKeys es) t v

/-- The UUIDs that the Reader returns have 16 bytes, as Go's type system has it. -/
def UUIDs16 {S : Type} (r : Rdr S) : Prop := ∀ s s' b, r.step .uuid s = .done (.ok b, s') → b.length = 16

mutual
/-- Two wire values that differ, seen from a variable of type `t`, only in fields the structs do not declare: one may have such fields where the other has not, and what such fields
hold does not matter. -/
inductive Alike (env : Env) : TypeId → TVal → TVal → Prop where
  | refl {t : TypeId} (tv : TVal) : Alike env t tv tv
  | ptr {t e : TypeId} {tv tv' : TVal} : (env.type t).kind = .ptr e → Alike env e tv tv' → Alike env t tv tv'
  | set {t e : TypeId} (w : WType) {tvs tvs' : List TVal} : (env.type t).kind = .slice e → (env.type t).isSet = true → tvs.length = tvs'.length →
      (∀ (i : Nat) x x', tvs[i]? = some x → tvs'[i]? = some x' → Alike env e x x') → Alike env t (.set w tvs) (.set w tvs')
  | list {t e : TypeId} (w : WType) {tvs tvs' : List TVal} : (env.type t).kind = .slice e → (env.type t).asBytes = false → tvs.length = tvs'.length →
      (∀ (i : Nat) x x', tvs[i]? = some x → tvs'[i]? = some x' → Alike env e x x') → Alike env t (.list w tvs) (.list w tvs')
  | map {t k e : TypeId} (kw ew : WType) {tes tes' : List (TVal × TVal)} : (env.type t).kind = .map k e → tes.length = tes'.length →
      (∀ (i : Nat) x x', tes[i]? = some x → tes'[i]? = some x' → Alike env k x.1 x'.1) → (∀ (i : Nat) x x', tes[i]? = some x → tes'[i]? = some x' → Alike env e x.2 x'.2) →
      Alike env t (.map kw ew tes) (.map kw ew tes')
  | struct {t : TypeId} {fs : List FieldDecl} (n n' : Bytes) {tfs tfs' : List (Bytes × BitVec 16 × TVal)} : (env.type t).kind = .struct fs → AlikeFields env fs tfs tfs' →
      Alike env t (.struct n tfs) (.struct n' tfs')
/-- See `Alike`. -/
inductive AlikeFields (env : Env) : List FieldDecl → List (Bytes × BitVec 16 × TVal) → List (Bytes × BitVec 16 × TVal) → Prop where
  | nil {fs : List FieldDecl} : AlikeFields env fs [] []
  | both {fs : List FieldDecl} {tfs tfs' : List (Bytes × BitVec 16 × TVal)} (n n' : Bytes) (id : BitVec 16) {v v' : TVal} :
      (∀ f ∈ fs, ∀ required, Declares env f id required → Alike env f.typ v v') → AlikeFields env fs tfs tfs' → AlikeFields env fs ((n, id, v) :: tfs) ((n', id, v') :: tfs')
  | left {fs : List FieldDecl} {tfs tfs' : List (Bytes × BitVec 16 × TVal)} (n : Bytes) (id : BitVec 16) (v : TVal) :
      (∀ f ∈ fs, ∀ required, ¬ Declares env f id required) → AlikeFields env fs tfs tfs' → AlikeFields env fs ((n, id, v) :: tfs) tfs'
  | right {fs : List FieldDecl} {tfs tfs' : List (Bytes × BitVec 16 × TVal)} (n : Bytes) (id : BitVec 16) (v : TVal) :
      (∀ f ∈ fs, ∀ required, ¬ Declares env f id required) → AlikeFields env fs tfs tfs' → AlikeFields env fs tfs ((n, id, v) :: tfs')
end

end GoThrift.Spec
