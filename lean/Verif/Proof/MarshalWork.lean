import Verif.Proof.Size
import Verif.Proof.Top
import Verif.Spec.Counted

/-!
# How many calls of a Writer a value takes
-/

namespace GoThrift

open Spec Spec.TVal

/-- Calls made on a counting writer are made on the writer, and counted. -/
theorem writes_countedW {S : Type} {w : Wtr S} : ∀ (l : List WOp) (s : S) (k : Nat) (s' : S × Nat), Writes (countedW w) l (s, k) s' → Writes w l s s'.1 ∧ s'.2 = k + l.length
  | [], s, k, s', h => by
    simp only [Writes, WProg.ofCalls, WProg.run] at h
    cases h
    exact ⟨rfl, rfl⟩
  | o :: l, s, k, s', h => by
    simp only [Writes, WProg.ofCalls, WProg.run, countedW] at h
    cases hw : w.step o s with
    | done x =>
      obtain ⟨e, s1⟩ := x
      rw [hw] at h
      cases e with
      | none =>
        obtain ⟨h1, h2⟩ := writes_countedW l s1 (k + 1) s' h
        refine ⟨?_, by rw [h2, List.length_cons]; omega⟩
        simp only [Writes, WProg.ofCalls, WProg.run, hw]
        exact h1
      | some e => cases h
    | panicked => rw [hw] at h; cases h
    | diverged => rw [hw] at h; cases h
    | blocked => rw [hw] at h; cases h

mutual
theorem calls_bin : ∀ tv : TVal, WF (2 ^ 63 - 1) tv → (calls tv).length ≤ 2 * (encBin tv).length
  | .bool v, _ => by simp [calls, encBin]
  | .byte v, _ => by simp [calls, encBin]
  | .double v, _ => by simp [calls, encBin, be_length]
  | .i16 v, _ => by simp [calls, encBin, be_length]
  | .i32 v, _ => by simp [calls, encBin, be_length]
  | .i64 v, _ => by simp [calls, encBin, be_length]
  | .str _ v, _ => by simp only [calls, encBin, be_length, List.length_append, List.length_cons, List.length_nil]; omega
  | .uuid v, h => by simp only [WF] at h; simp [calls, encBin, h]
  | .struct _ fs, h => by
    simp only [WF] at h
    have := calls_binFields fs h
    simp only [calls, encBin, List.length_append, List.length_cons, List.length_nil]
    omega
  | .map kt vt es, h => by
    simp only [WF] at h
    have := calls_binEntries es kt vt h.2
    simp only [calls, encBin, be_length, List.length_append, List.length_cons, List.length_nil]
    omega
  | .set et es, h => by
    simp only [WF] at h
    have := calls_binElems es et h.2
    simp only [calls, encBin, be_length, List.length_append, List.length_cons, List.length_nil]
    omega
  | .list et es, h => by
    simp only [WF] at h
    have := calls_binElems es et h.2
    simp only [calls, encBin, be_length, List.length_append, List.length_cons, List.length_nil]
    omega
theorem calls_binFields : ∀ (fs : List (Bytes × BitVec 16 × TVal)), WFFields (2 ^ 63 - 1) fs → (callsFields fs).length + 2 ≤ 2 * (encBinFields fs).length
  | [], _ => by simp [callsFields, encBinFields]
  | (_, id, v) :: fs, h => by
    simp only [WFFields] at h
    have h1 := calls_bin v h.1
    have h2 := calls_binFields fs h.2
    simp only [callsFields, encBinFields, be_length, List.length_append, List.length_cons, List.length_nil]
    omega
theorem calls_binEntries : ∀ (es : List (TVal × TVal)) (kt vt : WType), WFEntries (2 ^ 63 - 1) kt vt es → (callsEntries es).length ≤ 2 * (encBinEntries es).length
  | [], _, _, _ => by simp [callsEntries, encBinEntries]
  | (k, v) :: es, kt, vt, h => by
    simp only [WFEntries] at h
    have h1 := calls_bin k h.2.2.1
    have h2 := calls_bin v h.2.2.2.1
    have h3 := calls_binEntries es kt vt h.2.2.2.2
    simp only [callsEntries, encBinEntries, List.length_append]
    omega
theorem calls_binElems : ∀ (es : List TVal) (et : WType), WFElems (2 ^ 63 - 1) et es → (callsElems es).length ≤ 2 * (encBinElems es).length
  | [], _, _ => by simp [callsElems, encBinElems]
  | v :: es, et, h => by
    simp only [WFElems] at h
    have h1 := calls_bin v h.2.1
    have h2 := calls_binElems es et h.2.2
    simp only [callsElems, encBinElems, List.length_append]
    omega
end

theorem fieldHeader_pos (code : Byte) (last id : BitVec 16) : 1 ≤ (compactFieldHeader code last id).length := by
  unfold compactFieldHeader
  split <;> simp

theorem listHeader_pos (et : WType) (n : Nat) : 1 ≤ (compactListHeader et n).length := by
  unfold compactListHeader
  split <;> simp

theorem mapHeader_pos (kt vt : WType) (n : Nat) : 1 ≤ (compactMapHeader kt vt n).length := by
  unfold compactMapHeader
  split <;> simp

mutual
theorem calls_compact : ∀ tv : TVal, WF (2 ^ 63 - 1) tv → (calls tv).length ≤ 3 * (encCompact tv).length
  | .bool v, _ => by simp [calls, encCompact]
  | .byte v, _ => by simp [calls, encCompact]
  | .double v, _ => by simp [calls, encCompact, be_length]
  | .i16 v, _ => by have := leb_pos (Spec.zigzag v.toInt); simp only [calls, encCompact, List.length_cons, List.length_nil]; omega
  | .i32 v, _ => by have := leb_pos (Spec.zigzag v.toInt); simp only [calls, encCompact, List.length_cons, List.length_nil]; omega
  | .i64 v, _ => by have := leb_pos (Spec.zigzag v.toInt); simp only [calls, encCompact, List.length_cons, List.length_nil]; omega
  | .str _ v, _ => by have := leb_pos v.length; simp only [calls, encCompact, List.length_append, List.length_cons, List.length_nil]; omega
  | .uuid v, h => by simp only [WF] at h; simp [calls, encCompact, h]
  | .struct _ fs, h => by
    simp only [WF] at h
    have := calls_compactFields fs 0 h
    simp only [calls, encCompact, List.length_append, List.length_cons, List.length_nil]
    omega
  | .map kt vt es, h => by
    simp only [WF] at h
    have := calls_compactEntries es kt vt h.2
    have := mapHeader_pos kt vt es.length
    simp only [calls, encCompact, List.length_append, List.length_cons, List.length_nil]
    omega
  | .set et es, h => by
    simp only [WF] at h
    have := calls_compactElems es et h.2
    have := listHeader_pos et es.length
    simp only [calls, encCompact, List.length_append, List.length_cons, List.length_nil]
    omega
  | .list et es, h => by
    simp only [WF] at h
    have := calls_compactElems es et h.2
    have := listHeader_pos et es.length
    simp only [calls, encCompact, List.length_append, List.length_cons, List.length_nil]
    omega
theorem calls_compactFields : ∀ (fs : List (Bytes × BitVec 16 × TVal)) (last : BitVec 16), WFFields (2 ^ 63 - 1) fs → (callsFields fs).length + 2 ≤ 3 * (encCompactFields last fs).length
  | [], _, _ => by simp [callsFields, encCompactFields]
  | (_, id, v) :: fs, last, h => by
    simp only [WFFields] at h
    have h1 := calls_compact v h.1
    have h2 := calls_compactFields fs id h.2
    have h3 := fieldHeader_pos (compactFieldCode v) last id
    by_cases hb : v.ty = Ty.bool
    · have : (calls v).length = 1 := by
        cases v with
        | bool b => rfl
        | _ => exact absurd hb (by simp only [ty]; decide)
      rw [encCompactFields, if_pos hb]
      simp only [callsFields, List.length_append, List.length_cons, List.length_nil]
      omega
    · rw [encCompactFields, if_neg hb]
      simp only [callsFields, List.length_append, List.length_cons, List.length_nil]
      omega
theorem calls_compactEntries : ∀ (es : List (TVal × TVal)) (kt vt : WType), WFEntries (2 ^ 63 - 1) kt vt es → (callsEntries es).length ≤ 3 * (encCompactEntries es).length
  | [], _, _, _ => by simp [callsEntries, encCompactEntries]
  | (k, v) :: es, kt, vt, h => by
    simp only [WFEntries] at h
    have h1 := calls_compact k h.2.2.1
    have h2 := calls_compact v h.2.2.2.1
    have h3 := calls_compactEntries es kt vt h.2.2.2.2
    simp only [callsEntries, encCompactEntries, List.length_append]
    omega
theorem calls_compactElems : ∀ (es : List TVal) (et : WType), WFElems (2 ^ 63 - 1) et es → (callsElems es).length ≤ 3 * (encCompactElems es).length
  | [], _, _ => by simp [callsElems, encCompactElems]
  | v :: es, et, h => by
    simp only [WFElems] at h
    have h1 := calls_compact v h.2.1
    have h2 := calls_compactElems es et h.2.2
    simp only [callsElems, encCompactElems, List.length_append]
    omega
end

/-- Counting the calls changes nothing else. -/
theorem run_countedW {S : Type} {w : Wtr S} : ∀ (p : WProg) (s : S) (k : Nat) (e : Option Err) (s' : S), p.run w s = .done (e, s') → ∃ k', p.run (countedW w) (s, k) = .done (e, (s', k'))
  | .ret e', s, k, e, s', h => by
    rw [WProg.run] at h
    cases h
    exact ⟨k, rfl⟩
  | .diverge, _, _, _, _, h => by cases h
  | .panic, _, _, _, _, h => by cases h
  | .call o f, s, k, e, s', h => by
    rw [WProg.run] at h
    cases hw : w.step o s with
    | done x =>
      rw [hw] at h
      obtain ⟨k', h'⟩ := run_countedW (f x.1) x.2 (k + 1) e s' h
      exact ⟨k', by rw [WProg.run]; simp only [countedW, hw]; exact h'⟩
    | panicked => rw [hw] at h; cases h
    | diverged => rw [hw] at h; cases h
    | blocked => rw [hw] at h; cases h

theorem writes_countedW' {S : Type} {w : Wtr S} : ∀ (l : List WOp) (s : S) (k : Nat) (s' : S), Writes w l s s' → Writes (countedW w) l (s, k) (s', k + l.length)
  | [], s, k, s', h => by
    simp only [Writes, WProg.ofCalls, WProg.run] at h
    cases h
    rfl
  | o :: l, s, k, s', h => by
    simp only [Writes, WProg.ofCalls, WProg.run] at h
    cases hw : w.step o s with
    | done x =>
      obtain ⟨e, s1⟩ := x
      rw [hw] at h
      cases e with
      | none =>
        have := writes_countedW' l s1 (k + 1) s' h
        simp only [Writes, WProg.ofCalls, WProg.run, countedW, hw]
        rw [List.length_cons, show k + (l.length + 1) = k + 1 + l.length by omega]
        exact this
      | some e => cases h
    | panicked => rw [hw] at h; cases h
    | diverged => rw [hw] at h; cases h
    | blocked => rw [hw] at h; cases h

theorem callsElems_replicate (n : Nat) (tv : TVal) : (callsElems (List.replicate n tv)).length = n * (calls tv).length := by
  induction n with
  | zero => simp [callsElems]
  | succ n ih => rw [List.replicate_succ, callsElems, List.length_append, ih, Nat.succ_mul]; omega

end GoThrift
