import Verif.Proof.HeapCycle
import Verif.Props.Heap

/-!
# C66: values that lead to themselves
-/

namespace GoThrift

open Spec

/-- **C66** (ends): if Marshal succeeds, with any Writer, one cannot go on for ever from its argument to a part that is to be written, and on to a part of that. -/
theorem C66_ends {S : Type} (env : Env) (hz : HMethods) (w : Wtr S) (h : Heap) (t : TypeId) (x : HVal) (s s' : S) (hr : HMarshalReturns env hz w (.val t x) h s none s')
    (f : Nat → TypeId × HVal) (ha : HArgument env h t x (f 0)) : ∃ n, ¬ HPart env hz h (f (n + 1)) (f n) :=
  Classical.not_forall.1 (acc_not_endless (HMarshal_acc ha hr) f rfl)

/-- **C66** (cycles): so Marshal never succeeds, with any Writer, for an argument that leads back to itself through pointers, slices, maps and fields that are to be written, nor if a part does. -/
theorem C66_no_cycle {S : Type} (env : Env) (hz : HMethods) (w : Wtr S) (h : Heap) (t : TypeId) (x : HVal) (p q : TypeId × HVal) (ha : HArgument env h t x p) (hq : q = p ∨ HDeep env hz h q p)
    (hc : HDeep env hz h q q) (s s' : S) : ¬ HMarshalReturns env hz w (.val t x) h s none s' := by
  intro hr
  have hp := HMarshal_acc ha hr
  rcases hq with rfl | hq
  · exact acc_not_self hp hc
  · exact acc_not_self (acc_deep hp hq) hc

/-- The variable of type `L` that points to itself is such an argument: the variable, its field `Next`, the variable again. -/
example (hz : HMethods) (h0 : hz 23 = none) : ∃ p, HArgument Ex.env Ex.loop 23 (.ptr (some 0)) p ∧ HDeep Ex.env hz Ex.loop p p := by
  refine ⟨(21, .struct [.ptr (some 0), .lit (.f32 0)]), .pointer rfl rfl, ?_⟩
  have hf : HPart Ex.env hz Ex.loop (23, .ptr (some 0)) (21, .struct [.ptr (some 0), .lit (.f32 0)]) :=
    .field (i := 0) (f := Ex.fld "Next" "1" 23) rfl rfl rfl ⟨1, false, (parse_declares Ex.env _ ⟨1, ascii "Next", false⟩ rfl).2, .inr (by simp [hreportsZero, h0, HVal.isZero, Ex.fld])⟩
  exact .step (.ptr rfl rfl) (.part hf)

end GoThrift
