import Verif.Proof.Eats
import Verif.Spec.Decode
import Verif.Spec.Example
import Verif.Spec.Same
import Verif.Proof.Le

/-!
# C45: declared sizes do not drive what is stored

`load` counts the bytes in strings and byte slices, the elements of slices and the entries of maps, everywhere inside a value.
-/

namespace GoThrift

open Spec

/-- **C45**, binary: whatever is on the wire, what Unmarshal leaves in the target is not more than was there, together with one for every byte taken from the input. -/
theorem C45_binary (env : Env) (strict : Bool) (p t : TypeId) (hp : (env.type p).kind = .ptr t) (old : GoVal) (size : Nat) (hsize : 16 ≤ size) (bytes : Bytes) (err : Err)
    (e : Option Err) (x' : AnyVal) (s' : Unit × Flat) (h : UnmarshalReturns env (Binary.reader strict) (.val p (.ptr old)) ((), ⟨size, bytes, .err err⟩) e x' s') :
    ∃ v, x' = .val p (.ptr v) ∧ load v + s'.2.bytes.length ≤ load old + bytes.length := by
  obtain ⟨n, h⟩ := h
  obtain ⟨g', ⟨v, h1, h2⟩, h3⟩ := eats_run _ (Binary.eats strict) (deliver_Unmarshal env n p t hp old 0) () size hsize bytes err s' _ (h n (Nat.le_refl _))
  exact ⟨v, h1, by omega⟩

/-- **C45**, compact: the same; a bool field counts when its value is read, so a reader that already holds the value of one may deliver one more. -/
theorem C45_compact (env : Env) (p t : TypeId) (hp : (env.type p).kind = .ptr t) (old : GoVal) (c : Compact.RState) (size : Nat) (hsize : 16 ≤ size) (bytes : Bytes) (err : Err)
    (e : Option Err) (x' : AnyVal) (s' : Compact.RState × Flat) (h : UnmarshalReturns env Compact.reader (.val p (.ptr old)) (c, ⟨size, bytes, .err err⟩) e x' s') :
    ∃ v, x' = .val p (.ptr v) ∧ load v + s'.2.bytes.length ≤ load old + bytes.length + (if c.boolField = .none then 0 else 1) := by
  obtain ⟨n, h⟩ := h
  obtain ⟨g', ⟨v, h1, h2⟩, h3⟩ := eats_run _ Compact.eats (deliver_Unmarshal env n p t hp old 0) c size hsize bytes err s' _ (h n (Nat.le_refl _))
  refine ⟨v, h1, ?_⟩
  unfold Compact.pending at h3
  cases hb : c.boolField <;> simp_all <;> omega

/-- **C45**: a list that declares a million elements and has two. -/
example : ∃ x' s', UnmarshalReturns Ex.env (Binary.reader true) (.val 25 (.ptr .sliceNil))
    ((), ⟨16, [11, 0, 0xf, 0x42, 0x40, 0, 0, 0, 1, 0x61, 0, 0, 0, 1, 0x62], .err .eof⟩) (some (.semanticE .unmarshal Ty.string (some 3) (.wire "ReadString" .eof))) x' s' :=
  ⟨.val 25 (.ptr (.slice [.str [0x61], .str [0x62], .str []] [.str []])), ((), ⟨16, [], .err .eof⟩),
    20, fun fuel hf => ((Unmarshal_le Ex.env 20 fuel hf _).run _ _).done (sameResult_eq (by decide +kernel))⟩

end GoThrift
