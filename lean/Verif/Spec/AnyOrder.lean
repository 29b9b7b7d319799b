import Verif.Spec.Again

/-!
# Wire values that differ in order
-/

namespace GoThrift.Spec

/-- The wire values are the same except for the order of the fields of the structs and of the entries of the maps inside, and for the names (that no protocol writes). -/
inductive TVal.AnyOrder : TVal → TVal → Prop where
  | refl (tv : TVal) : AnyOrder tv tv
  | struct (n n' : Bytes) {fs fs1 fs' : List (Bytes × BitVec 16 × TVal)} : fs1.Perm fs' → fs1.length = fs.length → (∀ (i : Nat) f f', fs[i]? = some f → fs1[i]? = some f' → f'.2.1 = f.2.1) →
      (∀ (i : Nat) f f', fs[i]? = some f → fs1[i]? = some f' → AnyOrder f.2.2 f'.2.2) → AnyOrder (.struct n fs) (.struct n' fs')
  | map (kt vt : WType) {es es1 es' : List (TVal × TVal)} : es1.Perm es' → es1.length = es.length → (∀ (i : Nat) e e', es[i]? = some e → es1[i]? = some e' → AnyOrder e.1 e'.1) →
      (∀ (i : Nat) e e', es[i]? = some e → es1[i]? = some e' → AnyOrder e.2 e'.2) → AnyOrder (.map kt vt es) (.map kt vt es')
  | set (et : WType) {es es' : List TVal} : es'.length = es.length → (∀ (i : Nat) e e', es[i]? = some e → es'[i]? = some e' → AnyOrder e e') → AnyOrder (.set et es) (.set et es')
  | list (et : WType) {es es' : List TVal} : es'.length = es.length → (∀ (i : Nat) e e', es[i]? = some e → es'[i]? = some e' → AnyOrder e e') → AnyOrder (.list et es) (.list et es')

end GoThrift.Spec
