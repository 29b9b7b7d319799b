import Verif.Proof.Discipline
import Verif.Proof.Table
import Verif.Proof.Le
import Verif.Spec.Example
import Verif.Spec.Same
import Verif.Props.Decode

/-!
# C52: Skip and Unmarshal read what the headers announce
-/

namespace GoThrift

open Spec

/-- **C52** for Skip: against any Reader, whatever it answers, every call is the one that reads what the type or the last headers announced; a nil error means that all of it was read. -/
theorem C52_skip {S : Type} (r : Rdr S) (t : WType) (s s' : S) (m : Option (List Want)) (e : Option Err) (h : SkipReturns (watched r) t (s, some [.value t]) e (s', m)) :
    m ≠ none ∧ (e = none → m = some []) := by
  obtain ⟨n, h⟩ := h
  obtain ⟨l, rfl, hl⟩ := watch_run r ((wp_skip n).1 t []) s s' e m (h n (Nat.le_refl _))
  exact ⟨by simp, fun he => by rw [hl he]⟩

/-- **C52** for Unmarshal: the same, starting from a value of the wire type of the Go type. In particular a field, element, key or value that was announced with one type is never read as
another (C08). -/
theorem C52_unmarshal {S : Type} (env : Env) (r : Rdr S) (p t : TypeId) (hp : (env.type p).kind = .ptr t) (w : WType) (hw : WireTypeOf env t w) (old : GoVal) (s s' : S)
    (m : Option (List Want)) (e : Option Err) (x' : AnyVal) (h : UnmarshalReturns env (watched r) (.val p (.ptr old)) (s, some [.value w]) e x' (s', m)) :
    m ≠ none ∧ (e = none → m = some []) := by
  obtain ⟨n, h⟩ := h
  have hr := h n (Nat.le_refl _)
  have he : env.elem? p = some t := by simp [Env.elem?, hp]
  have hwp : Wp watch (Leaves []) (Unmarshal env n (.val p (.ptr old))) [.value w] := by
    simp only [Unmarshal, he, GoVal.pointee?]
    refine Wp.elim (.inr trivial) fun a ha => ?_
    rw [hw.lookup ha]
    exact Wp.andThen ((wp_unmarshal env n n).1 a old w []) (fun _ _ hg _ => hg rfl) fun _ _ _ _ h => by cases h
  obtain ⟨l, rfl, hl⟩ := watch_run r hwp s s' (x', e) m hr
  exact ⟨by simp, fun he => by rw [hl he]⟩

/-- The hypotheses are met: a binary reader in front of a struct with an unknown field and an i32, unmarshalled and skipped, watched. -/
example : UnmarshalReturns Ex.env (watched (Binary.reader true)) (.val 4 (.ptr (Ex.env.zero 0))) (((), ⟨16, [2, 0, 9, 1, 8, 0, 1, 0, 0, 0, 7, 0], .block⟩), some [.value Ty.struct]) none
      (.val 4 (.ptr (.struct [.mapNil, .i32 7, .ptrNil, .other 0, .sliceNil, .other 0, .bool false]))) (((), ⟨16, [], .block⟩), some []) ∧
    WireTypeOf Ex.env 0 Ty.struct :=
  ⟨⟨20, fun fuel hf => ((Unmarshal_le Ex.env 20 fuel hf _).run _ _).done (sameResult_eq (by decide +kernel))⟩, .struct rfl⟩

/-- The watch notices a call of the wrong type: reading an i32 where a string was announced. -/
example : (RProg.last .i32).run (watched (Binary.reader true)) (((), ⟨16, [0, 0, 0, 1, 120], .block⟩), some [.value Ty.string]) = .done (none, (((), ⟨16, [120], .block⟩), none)) := by
  decide +kernel

end GoThrift
