import Verif.Proof.Robust
import Verif.Props.Skip

/-!
# C05 (Skip), C06, C49 (Reader methods, Skip): truncated and hostile input
-/

namespace GoThrift

open Spec Spec.TVal

/-! ## C06 -/

/-- **C06** binary: on any bytes that end, in whatever way, Skip of any type returns, after at most `6 n + 2` Reader calls where `n` is
the number of bytes present. -/
theorem C06_binary (strict : Bool) (t : WType) (size : Nat) (hsize : 16 ≤ size) (bytes : Bytes) (e : Err) :
    ∃ (x : Option Err) (s' : Unit × Flat) (k n : Nat), k ≤ 6 * bytes.length + 2 ∧ ∀ fuel, n ≤ fuel →
      (skip fuel t).run (counted (Binary.reader strict)) (((), ⟨size, bytes, .err e⟩), 0) = .done (x, (s', k)) := by
  obtain ⟨x, s', k, h1, _, _, h4⟩ := bounded_skip (Binary.metered strict) _ ((), ⟨size, bytes, .err e⟩) ⟨hsize, e, rfl⟩ rfl t
  refine ⟨x, s', k, _, ?_, fun fuel hf => by rw [h1 fuel hf 0, Nat.zero_add]⟩
  simp only at h4
  omega

/-- **C06** compact: the same, at most `6 n + 5` calls, in any state of the reader. -/
theorem C06_compact (t : WType) (c : Compact.RState) (size : Nat) (hsize : 16 ≤ size) (bytes : Bytes) (e : Err) :
    ∃ (x : Option Err) (s' : Compact.RState × Flat) (k n : Nat), k ≤ 6 * bytes.length + 5 ∧ ∀ fuel, n ≤ fuel →
      (skip fuel t).run (counted Compact.reader) ((c, ⟨size, bytes, .err e⟩), 0) = .done (x, (s', k)) := by
  obtain ⟨x, s', k, h1, _, _, h4⟩ := bounded_skip Compact.metered _ (c, ⟨size, bytes, .err e⟩) ⟨hsize, e, rfl⟩ rfl t
  refine ⟨x, s', k, _, ?_, fun fuel hf => by rw [h1 fuel hf 0, Nat.zero_add]⟩
  have : Compact.pending c ≤ 1 := by unfold Compact.pending; split <;> omega
  simp only at h4
  omega

/-- A list header declaring 2^31-1 lists, followed by nothing: Skip gives up at once. -/
example : (skip 4 Ty.list).run (counted (Binary.reader true)) (((), ⟨4096, [15, 0x7f, 0xff, 0xff, 0xff], .err .eof⟩), 0) =
    .done (some .eof, (((), ⟨4096, [], .err .eof⟩), 2)) := by
  have h : (RProg.loop (loopCount 0x7fffffff) (skip 3 Ty.list) (RProg.last .listEnd)) =
      (skip 3 Ty.list).andThen (RProg.loop (0x7fffffff - 1) (skip 3 Ty.list) (RProg.last .listEnd)) := rfl
  have h0 : (counted (Binary.reader true)).step .listBegin (((), ⟨4096, [15, 0x7f, 0xff, 0xff, 0xff], .err .eof⟩), 0) =
      .done (.ok ⟨Ty.list, 0x7fffffff⟩, (((), ⟨4096, [], .err .eof⟩), 1)) := by decide +kernel
  have h1 : (counted (Binary.reader true)).step .listBegin (((), ⟨4096, [], .err .eof⟩), 1) =
      .done (.error .eof, (((), ⟨4096, [], .err .eof⟩), 2)) := by decide +kernel
  have hs : ∀ n, skip (n + 1) Ty.list = RProg.try' .listBegin fun h => RProg.loop (loopCount h.size) (skip n h.element) (RProg.last .listEnd) := by
    intro n; rw [skip]; simp [Ty.list, Ty.bool, Ty.byte, Ty.double, Ty.i16, Ty.i32, Ty.i64, Ty.string, Ty.struct, Ty.map, Ty.set]
  rw [hs 3, RProg.try', RProg.run, h0, Out.bind_done]
  dsimp only
  rw [h, RProg.andThen, RProg.run_bind, hs 2, RProg.try', RProg.run, h1]
  rfl

/-! ## C05, Skip -/

/-- **C05** binary, Skip: a value cut anywhere before its end gives an error. -/
theorem C05_skip_binary (strict : Bool) (t : TVal) (hw : WF (2 ^ 31 - 1) t) (size : Nat) (hsize : 16 ≤ size) (pre cut : Bytes)
    (hcut : encBin t = pre ++ cut) (hne : cut ≠ []) (e : Err) :
    ∃ err s', SkipReturns (Binary.reader strict) t.ty ((), ⟨size, pre, .err e⟩) (some err) s' := by
  obtain ⟨x, s', k, n, _, hrun⟩ := C06_binary strict t.ty size hsize pre e
  have hrun' : ∀ fuel, n ≤ fuel → (skip fuel t.ty).run (Binary.reader strict) ((), ⟨size, pre, .err e⟩) = .done (x, s') := by
    intro fuel hf
    rw [run_counted _ _ _ 0, hrun fuel hf]; rfl
  cases x with
  | some err => exact ⟨err, s', n, hrun'⟩
  | none =>
    exfalso
    obtain ⟨m, hm⟩ := C03_skip_binary strict t hw size hsize [] (.err e)
    obtain ⟨used, rest, c', h1, _, h3⟩ := replay (Binary.tameReader strict) (skip (max n m) t.ty) ((failFast_skip _).1 _) size hsize () pre e none s'
      (hrun' _ (Nat.le_max_left _ _)) (fun e h => by cases h)
    have h4 := h3 (rest ++ cut) e
    have h5 := hm (max n m) (Nat.le_max_right _ _)
    rw [← List.append_assoc, ← h1, ← hcut] at h4
    rw [List.append_nil] at h5
    rw [h5] at h4
    injection h4 with h4
    injection h4 with _ h4
    injection h4 with _ h4
    injection h4 with _ h4
    exact hne (List.append_eq_nil_iff.1 h4.symm).2

/-- **C05** compact, Skip. -/
theorem C05_skip_compact (t : TVal) (hw : WF (2 ^ 63 - 1) t) (ht : TypesOK t) (c : Compact.RState) (hc : c.boolField = .none)
    (size : Nat) (hsize : 16 ≤ size) (pre cut : Bytes) (hcut : encCompact t = pre ++ cut) (hne : cut ≠ []) (e : Err) :
    ∃ err s', SkipReturns Compact.reader t.ty (c, ⟨size, pre, .err e⟩) (some err) s' := by
  obtain ⟨x, s', k, n, _, hrun⟩ := C06_compact t.ty c size hsize pre e
  have hrun' : ∀ fuel, n ≤ fuel → (skip fuel t.ty).run Compact.reader (c, ⟨size, pre, .err e⟩) = .done (x, s') := by
    intro fuel hf
    rw [run_counted _ _ _ 0, hrun fuel hf]; rfl
  cases x with
  | some err => exact ⟨err, s', n, hrun'⟩
  | none =>
    exfalso
    obtain ⟨m, hm⟩ := C03_skip_compact t hw ht c hc size hsize [] e
    obtain ⟨used, rest, c', h1, _, h3⟩ := replay Compact.tameReader (skip (max n m) t.ty) ((failFast_skip _).1 _) size hsize c pre e none s'
      (hrun' _ (Nat.le_max_left _ _)) (fun e h => by cases h)
    have h4 := h3 (rest ++ cut) e
    have h5 := hm (max n m) (Nat.le_max_right _ _)
    rw [← List.append_assoc, ← h1, ← hcut] at h4
    rw [List.append_nil] at h5
    rw [h5] at h4
    injection h4 with h4
    injection h4 with _ h4
    injection h4 with _ h4
    injection h4 with _ h4
    exact hne (List.append_eq_nil_iff.1 h4.symm).2

/-- `sample` cut after three bytes meets the hypotheses. -/
example : ∃ err s', SkipReturns (Binary.reader true) Ty.struct ((), ⟨16, [2, 0, 1], .err .eof⟩) (some err) s' :=
  C05_skip_binary true sample (by simp [sample, WF, WFFields, WFEntries, WFElems, ty]) 16 (by decide) [2, 0, 1]
    [1, 13, 1, 44, 11, 15, 0, 0, 0, 1, 0, 0, 0, 1, 0x61, 8, 0, 0, 0, 2, 0, 0, 0, 1, 255, 255, 255, 255, 0] (by decide) (by simp) _

/-! ## C49, Reader methods and Skip -/

/-- A sequence of Reader calls made in order, whatever each returns; the outcome of the sequence. -/
def callAll {S : Type} (r : Rdr S) : List ROp → S → Out S
  | [], s => .done s
  | o :: os, s => (r.step o s).bind fun x => callAll r os x.2

/-- **C49** binary: any sequence of Reader calls on any bytes that end runs to its end: every call returns a value or an error. -/
theorem C49_binary (strict : Bool) (os : List ROp) (size : Nat) (hsize : 16 ≤ size) (bytes : Bytes) (e : Err) :
    ∃ s', callAll (Binary.reader strict) os ((), ⟨size, bytes, .err e⟩) = .done s' := by
  induction os generalizing bytes with
  | nil => exact ⟨_, rfl⟩
  | cons o os ih =>
    obtain ⟨x, c', used, rest, h1, h2, h3⟩ := Binary.tameReader strict o size hsize () bytes e
    obtain ⟨s', h⟩ := ih rest
    exact ⟨s', by rw [callAll, h2]; exact h⟩

/-- **C49** compact: the same, from any state of the reader. -/
theorem C49_compact (os : List ROp) (c : Compact.RState) (size : Nat) (hsize : 16 ≤ size) (bytes : Bytes) (e : Err) :
    ∃ s', callAll Compact.reader os (c, ⟨size, bytes, .err e⟩) = .done s' := by
  induction os generalizing bytes c with
  | nil => exact ⟨_, rfl⟩
  | cons o os ih =>
    obtain ⟨x, c', used, rest, h1, h2, h3⟩ := Compact.tameReader o size hsize c bytes e
    obtain ⟨s', h⟩ := ih c' rest
    exact ⟨s', by rw [callAll, h2]; exact h⟩

/-- **C49** Skip in the middle of any such sequence. -/
theorem C49_skip (strict : Bool) (t : WType) (c : Compact.RState) (size : Nat) (hsize : 16 ≤ size) (bytes : Bytes) (e : Err) :
    (∃ x s', SkipReturns (Binary.reader strict) t ((), ⟨size, bytes, .err e⟩) x s') ∧
    ∃ x s', SkipReturns Compact.reader t (c, ⟨size, bytes, .err e⟩) x s' := by
  constructor
  · obtain ⟨x, s', k, n, _, h⟩ := C06_binary strict t size hsize bytes e
    exact ⟨x, s', n, fun fuel hf => by rw [run_counted _ _ _ 0, h fuel hf]; rfl⟩
  · obtain ⟨x, s', k, n, _, h⟩ := C06_compact t c size hsize bytes e
    exact ⟨x, s', n, fun fuel hf => by rw [run_counted _ _ _ 0, h fuel hf]; rfl⟩

/-- A program that would panic (taking 8 bytes of a shorter slice) does panic in the model: the theorems above are not vacuous. -/
example : (RM.need 8 [1, 2] : RM Unit Unit).run () ⟨16, [], .err .eof⟩ = .panicked := rfl

end GoThrift
