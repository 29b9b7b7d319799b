import Verif.Spec.Canon
import Verif.Spec.Decode

/-!
# Wire values that differ in the order of map entries; IsZero methods that do not ask for the order of map entries
-/

namespace GoThrift.Spec

/-- The wire values are the same except for the order of the entries of the maps inside. -/
inductive TVal.Reordered : TVal → TVal → Prop where
  | refl (tv : TVal) : Reordered tv tv
  | struct (n : Bytes) {fs fs' : List (Bytes × BitVec 16 × TVal)} : fs'.length = fs.length → (∀ (i : Nat) f f', fs[i]? = some f → fs'[i]? = some f' → f'.1 = f.1 ∧ f'.2.1 = f.2.1) →
      (∀ (i : Nat) f f', fs[i]? = some f → fs'[i]? = some f' → Reordered f.2.2 f'.2.2) → Reordered (.struct n fs) (.struct n fs')
  | map (kt vt : WType) {es es1 es' : List (TVal × TVal)} : es1.Perm es' → es1.length = es.length → (∀ (i : Nat) e e', es[i]? = some e → es1[i]? = some e' → Reordered e.1 e'.1) →
      (∀ (i : Nat) e e', es[i]? = some e → es1[i]? = some e' → Reordered e.2 e'.2) → Reordered (.map kt vt es) (.map kt vt es')
  | set (et : WType) {es es' : List TVal} : es'.length = es.length → (∀ (i : Nat) e e', es[i]? = some e → es'[i]? = some e' → Reordered e e') → Reordered (.set et es) (.set et es')
  | list (et : WType) {es es' : List TVal} : es'.length = es.length → (∀ (i : Nat) e e', es[i]? = some e → es'[i]? = some e' → Reordered e e') → Reordered (.list et es) (.list et es')

/-- The IsZero methods of `t` and its parts do not look at the order in which map entries come, nor into the spare capacity of slices. -/
def FairIsZero (env : Env) (t : TypeId) : Prop := ∀ t' m, Within env t' t → env.isZero t' = some m → ∀ v v', HasType env t' v → SameValue false v v' → m v = m v'

/-- In decoding `tv` into a variable of type `t`, the part `tv'` is decoded into a variable of type `t'`. -/
inductive Seen (env : Env) : TypeId → TVal → TypeId → TVal → Prop where
  | refl (t : TypeId) (tv : TVal) : Seen env t tv t tv
  | ptr {t e t' : TypeId} {tv tv' : TVal} : (env.type t).kind = .ptr e → Seen env e tv t' tv' → Seen env t tv t' tv'
  | set {t e t' : TypeId} {w : WType} {tv tv' : TVal} {tvs : List TVal} : (env.type t).kind = .slice e → tv ∈ tvs → Seen env e tv t' tv' → Seen env t (.set w tvs) t' tv'
  | list {t e t' : TypeId} {w : WType} {tv tv' : TVal} {tvs : List TVal} : (env.type t).kind = .slice e → tv ∈ tvs → Seen env e tv t' tv' → Seen env t (.list w tvs) t' tv'
  | key {t k e t' : TypeId} {kw ew : WType} {te : TVal × TVal} {tv' : TVal} {tes : List (TVal × TVal)} : (env.type t).kind = .map k e → te ∈ tes → Seen env k te.1 t' tv' →
      Seen env t (.map kw ew tes) t' tv'
  | value {t k e t' : TypeId} {kw ew : WType} {te : TVal × TVal} {tv' : TVal} {tes : List (TVal × TVal)} : (env.type t).kind = .map k e → te ∈ tes → Seen env e te.2 t' tv' →
      Seen env t (.map kw ew tes) t' tv'
  | field {t t' : TypeId} {fs : List FieldDecl} {n : Bytes} {tf : Bytes × BitVec 16 × TVal} {tv' : TVal} {tfs : List (Bytes × BitVec 16 × TVal)} {f : FieldDecl} {required : Bool} :
      (env.type t).kind = .struct fs → tf ∈ tfs → f ∈ fs → Declares env f tf.2.1 required → Seen env f.typ tf.2.2 t' tv' → Seen env t (.struct n tfs) t' tv'

/-- No map inside has two entries whose keys, decoded into the key type that `t` has there, are equal. -/
def KeysApart (env : Env) (t : TypeId) (tv : TVal) : Prop := ∀ t' k e kw ew tes, Seen env t tv t' (.map kw ew tes) → (env.type t').kind = .map k e →
  ∀ (i j : Nat) (te te' : TVal × TVal) x y, i < j → tes[i]? = some te → tes[j]? = some te' → Decodes env k (env.zero k) te.1 x → Decodes env k (env.zero k) te'.1 y → x.keyEq y = false

end GoThrift.Spec
