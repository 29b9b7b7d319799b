import Verif.Proof.Stack
import Verif.Props.Skip

/-!
# C73: how deep Skip recurses
-/

namespace GoThrift

open Spec Spec.TVal

/-- `thriftwire.Skip(r, t)` called in state `s` with room for `d` frames of it on the stack returns `e` and leaves the reader in state `s'`. -/
def Spec.SkipReturnsIn {S : Type} (r : Rdr S) (d : Nat) (t : WType) (s : S) (e : Option Err) (s' : S) : Prop :=
  ∃ n, ∀ fuel, n ≤ fuel → (skipS fuel d t).run r s = .done (e, s')

/-- `thriftwire.Skip(r, t)` called in state `s` with room for `d` frames of it on the stack overflows the stack. -/
def Spec.SkipOverflows {S : Type} (r : Rdr S) (d : Nat) (t : WType) (s : S) : Prop :=
  ∃ n, ∀ fuel, n ≤ fuel → (skipS fuel d t).run r s = .panicked

/-- **C73** (exact): for any Reader that is positioned at a value, Skip of the value succeeds iff there is room for as many frames as the value is deep; with less room it overflows the stack. -/
theorem C73_exact {S : Type} (r : Rdr S) (t : TVal) (s s' : S) (h : Holds r t s s') (d : Nat) :
    (depth t ≤ d → SkipReturnsIn r d t.ty s none s') ∧ (d < depth t → SkipOverflows r d t.ty s) :=
  ⟨fun hd => ⟨fuelOf t, fun fuel hf => (skipS_holds t fuel d hf s s' h).1 hd⟩, fun hd => ⟨fuelOf t, fun fuel hf => (skipS_holds t fuel d hf s s' h).2 hd⟩⟩

example : ∃ s s', Holds (Binary.reader true) sample s s' ∧ depth sample = 4 :=
  ⟨((), ⟨16, encBin sample ++ [], .err .eof⟩), ((), ⟨16, [], .err .eof⟩), Binary.holds true 16 (by decide) _ sample
    (by simp [sample, WF, WFFields, WFEntries, WFElems, ty]) [], by decide⟩

/-- **C73** (binary, any bytes): with one frame more than there are bytes, Skip never overflows the stack: it does what it does without a limit. -/
theorem C73_binary (strict : Bool) (t : WType) (size : Nat) (hsize : 16 ≤ size) (bytes : Bytes) (e : Err) (d : Nat) (hd : bytes.length < d) (fuel : Nat) :
    (skipS fuel d t).run (Binary.reader strict) ((), ⟨size, bytes, .err e⟩) = (skip fuel t).run (Binary.reader strict) ((), ⟨size, bytes, .err e⟩) :=
  ((skipS_agree (Binary.lowers strict) fuel).1 d _ t ⟨hsize, e, rfl⟩ hd).1

/-- **C73** (compact, any bytes): the same, in any state of the reader. -/
theorem C73_compact (t : WType) (c : Compact.RState) (size : Nat) (hsize : 16 ≤ size) (bytes : Bytes) (e : Err) (d : Nat) (hd : bytes.length < d) (fuel : Nat) :
    (skipS fuel d t).run Compact.reader (c, ⟨size, bytes, .err e⟩) = (skip fuel t).run Compact.reader (c, ⟨size, bytes, .err e⟩) :=
  ((skipS_agree Compact.lowers fuel).1 d _ t ⟨hsize, e, rfl⟩ hd).1

/-- Hostile bytes: a list that declares more than there is. -/
example : (16 : Nat) ≤ 16 ∧ ([15, 0, 0, 0, 9] : Bytes).length < 6 := by decide

/-- **C73** (no limit, binary): whatever the stack, `5 (d + 1)` bytes that are a well-formed value overflow it. -/
theorem C73_binary_unlimited (strict : Bool) (d size : Nat) (hsize : 16 ≤ size) (rest : Bytes) (e : Err) :
    ∃ bytes : Bytes, bytes.length = 5 * (d + 1) ∧ SkipReturns (Binary.reader strict) Ty.list ((), ⟨size, bytes ++ rest, .err e⟩) none ((), ⟨size, rest, .err e⟩) ∧
      SkipOverflows (Binary.reader strict) d Ty.list ((), ⟨size, bytes ++ rest, .err e⟩) := by
  have hw := (nest_wf (2 ^ 31 - 1) (by decide) d).1
  have h1 := C03_skip_binary strict (nest d) hw size hsize rest (.err e)
  have h2 := (C73_exact _ _ _ _ (Binary.holds strict size hsize (.err e) (nest d) hw rest) d).2 (by rw [nest_depth]; omega)
  rw [nest_ty] at h1 h2
  exact ⟨encBin (nest d), nest_binary d, h1, h2⟩

/-- **C73** (no limit, compact): whatever the stack, `d + 1` bytes that are a well-formed value overflow it: one frame for each byte. -/
theorem C73_compact_unlimited (d : Nat) (c : Compact.RState) (hc : c.boolField = .none) (size : Nat) (hsize : 16 ≤ size) (rest : Bytes) (e : Err) :
    ∃ bytes : Bytes, bytes.length = d + 1 ∧ SkipReturns Compact.reader Ty.list (c, ⟨size, bytes ++ rest, .err e⟩) none (c, ⟨size, rest, .err e⟩) ∧
      SkipOverflows Compact.reader d Ty.list (c, ⟨size, bytes ++ rest, .err e⟩) := by
  obtain ⟨hw, ht⟩ := nest_wf (2 ^ 63 - 1) (by decide) d
  have h1 := C03_skip_compact (nest d) hw ht c hc size hsize rest e
  have h2 := (C73_exact _ _ _ _ (Compact.holds size hsize _ (nest d) hw ht c rest hc (.inl (.inl ⟨e, rfl⟩))) d).2 (by rw [nest_depth]; omega)
  rw [nest_ty] at h1 h2
  exact ⟨encCompact (nest d), nest_compact d, h1, h2⟩

example : ∃ c : Compact.RState, c.boolField = .none := ⟨{ ids := [] }, rfl⟩

end GoThrift
