import Verif.Proof.WaitU
import Verif.Props.Decode

/-!
# C23: Unmarshal on an idle transport

Reader states as in Props/Skip.
-/

namespace GoThrift

open Spec Spec.TVal

/-- **C23** binary, for Unmarshal: what Unmarshal returns and stores with a complete value on an ended or continued stream it also returns and stores when the stream is idle behind the value. If
it succeeds, it has consumed just the value. -/
theorem C23_binary_unmarshal (strict : Bool) (env : Env) (p t : TypeId) (hp : (env.type p).kind = .ptr t) (tv : TVal) (hwf : WF (2 ^ 31 - 1) tv) (hw : WireTypeOf env t tv.ty) (size : Nat)
    (hsize : 16 ≤ size) (rest : Bytes) (fin : End) (old : GoVal) (e : Option Err) (x' : AnyVal) (s1 : Unit × Flat)
    (h : UnmarshalReturns env (Binary.reader strict) (.val p (.ptr old)) ((), ⟨size, encBin tv ++ rest, fin⟩) e x' s1) :
    ∃ s2, UnmarshalReturns env (Binary.reader strict) (.val p (.ptr old)) ((), ⟨size, encBin tv, .block⟩) e x' s2 ∧ (e = none → s2 = ((), ⟨size, [], .block⟩)) := by
  obtain ⟨n, a, m, v, h1, h2, rfl, _⟩ := h.dec hp hw (Binary.holds strict size hsize fin tv hwf rest)
  have hh := C23_binary_holds strict tv hwf size hsize
  obtain ⟨s2, h4⟩ := UnmarshalReturns_of_dec' hp h1 (hw.lookup h1) hh h2
  refine ⟨s2, h4, fun he => ?_⟩
  obtain ⟨_, _, _, _, _, _, _, h5⟩ := h4.dec hp hw hh
  exact h5 he

/-- **C23** compact, exactly, for Unmarshal: let Unmarshal succeed with a complete value on a stream that ends. On an open idle connection where `rest` has arrived after the value it does the same if
from the beginning of each string in the value at least ten bytes have arrived, also of strings in fields the Go type does not have. Otherwise it waits for more. (The property would be the first
part without the condition.) -/
theorem C23_compact_unmarshal_exact_partial (env : Env) (p t : TypeId) (hp : (env.type p).kind = .ptr t) (tv : TVal) (hwf : WF (2 ^ 63 - 1) tv) (ht : TypesOK tv) (hw : WireTypeOf env t tv.ty)
    (c : Compact.RState) (hc : c.boolField = .none) (size : Nat) (hsize : 16 ≤ size) (rest : Bytes) (err : Err) (old : GoVal) (x' : AnyVal) (s1 : Compact.RState × Flat)
    (h : UnmarshalReturns env Compact.reader (.val p (.ptr old)) (c, ⟨size, encCompact tv ++ rest, .err err⟩) none x' s1) :
    (TenFromEachString rest.length tv →
      UnmarshalReturns env Compact.reader (.val p (.ptr old)) (c, ⟨size, encCompact tv ++ rest, .block⟩) none x' (c, ⟨size, rest, .block⟩)) ∧
    (¬ TenFromEachString rest.length tv →
      ∃ n, ∀ fuel, n ≤ fuel → (Unmarshal env fuel (.val p (.ptr old))).run Compact.reader (c, ⟨size, encCompact tv ++ rest, .block⟩) = .blocked) := by
  obtain ⟨n, a, m, v, h1, h2, rfl, _⟩ := h.dec hp hw (Compact.holds size hsize (.err err) tv hwf ht c rest hc (.inl (.inl ⟨_, rfl⟩)))
  refine ⟨fun h => ?_, fun h => ?_⟩
  · exact UnmarshalReturns_of_dec hp h1 (hw.lookup h1) ((C23_compact_exact_partial tv hwf ht c hc size hsize rest).1 h).1 h2
  · rw [← Compact.fit_iff] at h
    rw [← Compact.encWith_spec]
    exact Unmarshal_stuck hp h1 (hw.lookup h1) (Compact.waits Compact.hdrSpec_ok hsize tv hwf ht c rest hc h) h2

/-! ## The hypotheses hold of these -/

/-- A struct with an undeclared field, unmarshalled with nothing after it. -/
example : ∃ s2, UnmarshalReturns Ex.env (Binary.reader true) (.val 4 (.ptr Ex.valP)) ((), ⟨16, encBin Ex.extra, .block⟩) none
    (.val 4 (.ptr (.struct [.map [(.str (ascii "k"), .i64 7)], .i32 7, .ptr (.str (ascii "hi")), .other 0, .slice [.str (ascii "x"), .str []] [], .other 3, .bool true]))) s2 ∧
    (none = (none : Option Err) → s2 = ((), ⟨16, [], .block⟩)) :=
  C23_binary_unmarshal true Ex.env 4 0 rfl Ex.extra (by simp [Ex.extra, WF, WFFields, WFElems, ty]) (.struct rfl) 16 (by decide) [9] .block _ _ _ _ Ex.unmarshals_extra

/-- A struct with an undeclared field, the string "a". -/
def Ex.extraStr : TVal := .struct [] [([], 1, .i32 7), ([], 9, .str false [0x61])]

theorem Ex.extraStr_enc : encCompact Ex.extraStr = [0x15, 0x0e, 0x88, 0x01, 0x61, 0x00] := by
  have h1 : leb 1 = [1] := by rw [leb]; rfl
  have h14 : leb (Spec.zigzag 7) = [14] := by rw [leb]; rfl
  simp only [Ex.extraStr, encCompact, encCompactFields, show (7 : BitVec 32).toInt = 7 from rfl, List.length_singleton, h1, h14]
  rfl

/-- Six bytes after the struct are too few: Unmarshal returns once the stream ends, but waits while it is open. With seven bytes it does not wait. -/
example : (∃ n, ∀ fuel, n ≤ fuel → (Unmarshal Ex.env fuel (.val 4 (.ptr Ex.valP))).run Compact.reader ({}, ⟨16, encCompact Ex.extraStr ++ List.replicate 6 0, .block⟩) = .blocked) ∧
    ∃ x' s1, UnmarshalReturns Ex.env Compact.reader (.val 4 (.ptr Ex.valP)) ({}, ⟨16, encCompact Ex.extraStr ++ List.replicate 7 0, .block⟩) none x' s1 := by
  have h1 : leb 1 = [1] := by rw [leb]; rfl
  have hu : ∀ k, k = 6 ∨ k = 7 → UnmarshalReturns Ex.env Compact.reader (.val 4 (.ptr Ex.valP)) ({}, ⟨16, encCompact Ex.extraStr ++ List.replicate k 0, .err .eof⟩) none
      (.val 4 (.ptr (.struct [.map [(.str (ascii "k"), .i64 7)], .i32 7, .ptr (.str (ascii "hi")), .other 0, .slice [.str (ascii "x"), .str []] [], .other 3, .bool true])))
      ({}, ⟨16, List.replicate k 0, .err .eof⟩) := by
    intro k hk
    rw [Ex.extraStr_enc]
    rcases hk with rfl | rfl
    all_goals exact ⟨20, fun fuel hf => ((Unmarshal_le Ex.env 20 fuel hf _).run _ _).done (sameResult_eq (by decide +kernel))⟩
  have hwf : WF (2 ^ 63 - 1) Ex.extraStr := by simp [Ex.extraStr, WF, WFFields]
  have hty : TypesOK Ex.extraStr := by simp [Ex.extraStr, TypesOK, TypesOKFields]
  have key := fun k hk => C23_compact_unmarshal_exact_partial Ex.env 4 0 rfl Ex.extraStr hwf hty (.struct rfl) {} rfl 16 (by decide) (List.replicate k 0) .eof _ _ _ (hu k hk)
  clear hu
  exact ⟨(key 6 (.inl rfl)).2 (by simp [Ex.extraStr, TenFromEachString, TenFields, encCompact, encCompactFields, h1]),
    _, _, (key 7 (.inr rfl)).1 (by simp [Ex.extraStr, TenFromEachString, TenFields, encCompact, encCompactFields, h1])⟩

end GoThrift
