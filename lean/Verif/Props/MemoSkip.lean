import Verif.Proof.MemoSkip
import Verif.Proof.MemoTest
import Verif.Props.Memo

/-!
# C80: Skip at a Memo
-/

namespace GoThrift

open Spec Spec.TVal

/-- **C80**: wherever a Memo's Reader gives back the calls that write a value, in any state of the Memo, Skip of the value's type returns nil and leaves the Memo as reading the value does, provided
WriteBytes is not among the calls. -/
theorem C80_skip (tv : TVal) (hw : WF (2 ^ 63 - 1) tv) (hb : ∀ b, .bytes b ∉ calls tv) (m m' : Memo) (h : Answers Memo.reader (takeAll (calls tv)) m m') : SkipReturns Memo.reader tv.ty m none m' :=
  ⟨fuelOf tv, fun fuel hf => skip_answers tv hw fuel hf m m' (Memo.skipBack_answers _ (Memo.noBytes_takeAll hb) h)⟩

/-- **C80** (a fresh Memo): after a value has been written to a fresh Memo, without WriteBytes, Skip returns nil after exactly the steps that were written. -/
theorem C80_fresh (tv : TVal) (hw : WF (2 ^ 63 - 1) tv) (hb : ∀ b, .bytes b ∉ calls tv) (m : Memo) (h : Writes Memo.writer (calls tv) {} m) :
    ∃ m', SkipReturns Memo.reader tv.ty m none m' ∧ m'.Steps = m.Steps ++ m.Steps := by
  obtain ⟨_, m', h1, h2⟩ := C34_replay _ m h
  exact ⟨m', C80_skip tv hw hb m m' h1, h2⟩

/-- **C80** (bytes): if WriteBytes is among the calls, Skip panics. -/
theorem C80_bytes (tv : TVal) (hw : WF (2 ^ 63 - 1) tv) (b : Bytes) (hb : .bytes b ∈ calls tv) (m m' : Memo) (h : Answers Memo.reader (takeAll (calls tv)) m m') :
    ∃ N, ∀ fuel, N ≤ fuel → (skip fuel tv.ty).run Memo.reader m = .panicked := by
  obtain ⟨n, v, h1, h2⟩ := Memo.first_bytes (takeAll (calls tv)) (List.mem_flatMap.2 ⟨_, hb, List.mem_cons_self ..⟩) (Memo.takeAll_bytes _)
  rw [← List.take_append_drop n (takeAll (calls tv))] at h
  obtain ⟨m1, h3, h4⟩ := answers_append h
  have hd : (takeAll (calls tv)).drop n = ⟨.bytes [], v⟩ :: (takeAll (calls tv)).drop (n + 1) := by
    obtain ⟨hn, he⟩ := List.getElem?_eq_some_iff.1 h1
    rw [List.drop_eq_getElem_cons hn, he]
  rw [hd] at h4
  obtain ⟨m2, h5, _⟩ := h4
  refine ⟨fuelOf tv, fun fuel hf => (skip_follow tv hw n ⟨.skipString, ()⟩ ?_ (s1 := m1) ?_ fuel hf).2 (Memo.skipString_bytes h5)⟩
  · rw [skipAll, List.getElem?_map, h1]; rfl
  · rw [skipAll, ← List.map_take]; exact Memo.skipBack_answers _ h2 h3

/-- **C80** (breaks): if the Memo breaks after `n` of the steps, Skip returns ErrBreak itself, after these steps. -/
theorem C80_break (tv : TVal) (hw : WF (2 ^ 63 - 1) tv) (hb : ∀ b, .bytes b ∉ calls tv) (n : Nat) (hn : n < (takeAll (calls tv)).length) (m m' : Memo)
    (h : Answers Memo.reader ((takeAll (calls tv)).take n) m m') (hm : m'.breakpoint > 0) (hr : (m'.r : Int) ≥ m'.breakpoint - 1) : SkipReturns Memo.reader tv.ty m (some .brk) m' := by
  have ha := List.getElem?_eq_getElem hn
  refine ⟨fuelOf tv, fun fuel hf => (skip_follow tv hw n (skipBack (takeAll (calls tv))[n]) ?_ (s1 := m') ?_ fuel hf).1 _ _ ((C35_reader m' _).1 ⟨hm, hr⟩)⟩
  · rw [skipAll, List.getElem?_map, ha]; rfl
  · rw [skipAll, ← List.map_take]; exact Memo.skipBack_answers _ (fun a h => Memo.noBytes_takeAll hb a (List.mem_of_mem_take h)) h

/-- **C80** (breaks, a fresh Memo): writing a value to a Memo with Breakpoint `n + 1`, where `n` is less than the number of steps, returns ErrBreak after `n` steps; then so does Skip, after the
same steps. -/
theorem C80_break_fresh (tv : TVal) (hw : WF (2 ^ 63 - 1) tv) (hb : ∀ b, .bytes b ∉ calls tv) (n : Nat) (hn : n < (stepsOf (calls tv)).length) :
    ∃ m m', (WProg.ofCalls (calls tv)).run Memo.writer { breakpoint := (n : Int) + 1 } = .done (some .brk, m) ∧ m.Steps = (stepsOf (calls tv)).take n ∧
      SkipReturns Memo.reader tv.ty m (some .brk) m' ∧ m'.Steps = m.Steps ++ m.Steps := by
  have hlen : (stepsOf (calls tv)).length = (takeAll (calls tv)).length := by rw [stepsOf, List.length_map]
  have hes : ((calls tv).flatMap Memo.entries).length = (takeAll (calls tv)).length := (Memo.fits_all _).1
  obtain ⟨m, h1, h2⟩ := (C35_writer ((n : Int) + 1) (by omega) (calls tv)).2 (by omega)
  rw [show ((n : Int) + 1 - 1).toNat = n by omega] at h2
  have hm : m = Memo.after ((n : Int) + 1) (((calls tv).flatMap Memo.entries).take n) 0 := by
    rw [Memo.run_ofCalls, Memo.putAll_eq, show Memo.room { breakpoint := (n : Int) + 1 } 0 = some n from (if_pos (by show (n : Int) + 1 > 0; omega)).trans (by simp)] at h1
    dsimp only at h1
    rw [if_neg (by omega)] at h1
    cases h1
    exact Memo.put_fresh _ _
  subst hm
  refine ⟨_, Memo.after ((n : Int) + 1) (((calls tv).flatMap Memo.entries).take n) n, h1, h2, C80_break tv hw hb n (by omega) _ _
    (Memo.answers_first tv ((n : Int) + 1) n (by omega) (fun _ => by omega)) (by simp only [Memo.after]; omega) (by simp only [Memo.after]; omega), ?_⟩
  rw [Memo.steps_after, Memo.steps_after, List.take_zero, List.append_nil, List.map_take, List.take_take, Nat.min_self]

/-! ## Examples -/

/-- The values that `TestSkip` writes (encoding/thriftwire/skip_test.go:65-123), with the steps in its table, which it does not compare. -/
def skipTable : List (TVal × List String) := [
  (.bool true, ["Bool"]),
  (.byte 255, ["Byte"]),
  (.double 0x7fefffffffffffff, ["Double"]),
  (.i16 32767, ["I16"]),
  (.i32 2147483647, ["I32"]),
  (.i64 9223372036854775807, ["I64"]),
  (.str false [], ["String"]),
  (.struct [] [([], 0, .bool true), ([], 0, .str false [])], ["StructBegin", "FieldBegin", "Bool", "FieldEnd", "FieldBegin", "String", "FieldEnd", "FieldBegin", "StructEnd"]),
  (.map Ty.bool Ty.bool [(.bool true, .bool false), (.bool false, .bool true)], ["MapBegin", "Bool", "Bool", "Bool", "Bool", "MapEnd"]),
  (.set Ty.bool [.bool true, .bool false], ["SetBegin", "Bool", "Bool", "SetEnd"]),
  (.list Ty.bool [.bool true, .bool false], ["ListBegin", "Bool", "Bool", "ListEnd"]),
  (.uuid (List.replicate 16 0), ["UUID"])]

/-- The table of `TestSkip` meets the hypotheses of `C80_fresh` and `C80_break_fresh`, and its steps are those that are written, and hence those that Skip makes. -/
example : (∀ x ∈ skipTable, stepsOf (calls x.1) = x.2) ∧ (∀ x ∈ skipTable, WF (2 ^ 63 - 1) x.1 ∧ ∀ b, .bytes b ∉ calls x.1) ∧
    ∀ x ∈ skipTable, ∃ m m', Writes Memo.writer (calls x.1) {} m ∧ SkipReturns Memo.reader x.1.ty m none m' ∧ m'.Steps = x.2 ++ x.2 := by
  have h1 : ∀ x ∈ skipTable, stepsOf (calls x.1) = x.2 := by decide +kernel
  have h2 : ∀ x ∈ skipTable, WF (2 ^ 63 - 1) x.1 ∧ ∀ b, .bytes b ∉ calls x.1 := by
    simp [skipTable, WF, WFFields, WFEntries, WFElems, calls, callsFields, callsEntries, callsElems, ty]
  refine ⟨h1, h2, fun x hx => ?_⟩
  have hw := Memo.writes_fresh 0 (calls x.1) (fun h => by omega)
  obtain ⟨m', h3, h4⟩ := C80_fresh x.1 (h2 x hx).1 (h2 x hx).2 _ hw
  refine ⟨_, m', hw, h3, h4.trans ?_⟩
  rw [(C34_replay _ _ hw).1, h1 x hx]

/-- A value with bytes in a struct, as in `C80_bytes`. -/
example : ∃ m m', Writes Memo.writer (calls (.struct [] [([], 1, .str true [7])])) {} m ∧ Answers Memo.reader (takeAll (calls (.struct [] [([], 1, .str true [7])]))) m m' ∧
    .bytes [7] ∈ calls (.struct [] [([], 1, .str true [7])]) := by
  have hw := Memo.writes_fresh 0 (calls (.struct [] [([], 1, .str true [7])])) (fun h => by omega)
  obtain ⟨_, m', h, _⟩ := C34_replay _ _ hw
  exact ⟨_, m', hw, h, by simp [calls, callsFields]⟩

end GoThrift
