import Verif.Spec.MapOrder

/-!
# Wire values that can be received twice
-/

namespace GoThrift.Spec

/-- Every key of a map inside, decoded into the key type that `t` has there, is equal to itself: not so NaN, and not so a pointer, as each decoding makes a new one. -/
def KeysEqual (env : Env) (t : TypeId) (tv : TVal) : Prop := ∀ t' k e kw ew tes, Seen env t tv t' (.map kw ew tes) → (env.type t').kind = .map k e →
  ∀ te ∈ tes, ∀ x, Decodes env k (env.zero k) te.1 x → x.keyEq x = true

/-- No struct inside that is decoded has the id of one of the declared fields twice. -/
def IdsOnce (env : Env) (t : TypeId) (tv : TVal) : Prop := ∀ t' fs n tfs, Seen env t tv t' (.struct n tfs) → (env.type t').kind = .struct fs →
  ∀ (i j : Nat) (tf tf' : Bytes × BitVec 16 × TVal) f r, i < j → tfs[i]? = some tf → tfs[j]? = some tf' → f ∈ fs → Declares env f tf.2.1 r → tf.2.1 ≠ tf'.2.1

/-- In every map inside, the keys come back as keys that are equal to themselves. -/
def KeysStayEqual (env : Env) (t : TypeId) (v : GoVal) : Prop :=
  Everywhere env (fun t v => ∀ es, v = .map es → ∀ x ∈ es, ∀ x', RoundTrip env (env.keyType t) x.1 x' → x'.keyEq x' = true) t v

end GoThrift.Spec
