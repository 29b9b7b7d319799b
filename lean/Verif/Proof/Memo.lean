import Verif.Spec.Memo

/-!
# The Memo, step by step
-/

namespace GoThrift

open Spec Spec.TVal

namespace Memo

/-- What a Writer call records. -/
def entries : WOp → List (String × List MVal)
  | .messageBegin h => [("MessageBegin", [.messageHeader h])]
  | .messageEnd => [("MessageEnd", [])]
  | .structBegin n => [("StructBegin", [.structHeader n])]
  | .structEnd => [("FieldBegin", [.fieldHeader ⟨[], Ty.stop, 0⟩]), ("StructEnd", [])]
  | .fieldBegin h => [("FieldBegin", [.fieldHeader h])]
  | .fieldEnd => [("FieldEnd", [])]
  | .mapBegin h => [("MapBegin", [.mapHeader h])]
  | .mapEnd => [("MapEnd", [])]
  | .setBegin h => [("SetBegin", [.setHeader h])]
  | .setEnd => [("SetEnd", [])]
  | .listBegin h => [("ListBegin", [.listHeader h])]
  | .listEnd => [("ListEnd", [])]
  | .bool v => [("Bool", [.bool v])]
  | .byte v => [("Byte", [.byte v])]
  | .double v => [("Double", [.double v])]
  | .i16 v => [("I16", [.i16 v])]
  | .i32 v => [("I32", [.i32 v])]
  | .i64 v => [("I64", [.i64 v])]
  | .string v => [("String", [.string v])]
  | .bytes v => [("Bytes", [.bytes v])]
  | .uuid v => [("UUID", [.uuid v])]

/-- Recording a list of entries. -/
def putAll : List (String × List MVal) → Memo → Option Err × Memo
  | [], m => (none, m)
  | e :: es, m => m.record e.1 e.2 (putAll es)

theorem writeStep_eq (m : Memo) (o : WOp) : m.writeStep o = putAll (entries o) m := by cases o <;> rfl

theorem putAll_append (es es' : List (String × List MVal)) (m : Memo) : putAll (es ++ es') m = match putAll es m with
    | (none, m') => putAll es' m'
    | x => x := by
  induction es generalizing m with
  | nil => rfl
  | cons e es ih =>
    rw [List.cons_append, putAll, putAll, record, record]
    cases m.advanceW with
    | none => rfl
    | some m => exact ih _

theorem run_ofCalls (l : List WOp) (m : Memo) : (WProg.ofCalls l).run writer m = .done (putAll (l.flatMap entries) m) := by
  induction l generalizing m with
  | nil => rfl
  | cons o l ih =>
    have hs : writer.step o m = .done (putAll (entries o) m) := congrArg Out.done (writeStep_eq m o)
    rw [WProg.ofCalls, WProg.run, List.flatMap_cons, putAll_append, hs]
    rcases putAll (entries o) m with ⟨_ | e, m'⟩
    · exact ih m'
    · rfl

/-- The Memo with these entries added. -/
def put (m : Memo) (es : List (String × List MVal)) : Memo := { m with w := m.w + es.length, steps := m.steps ++ es.map (·.1), values := m.values ++ es.map (·.2) }

theorem put_nil (m : Memo) : m.put [] = m := by cases m; simp [put]

theorem put_cons (m : Memo) (e : String × List MVal) (es : List (String × List MVal)) : put ({ m with w := m.w + 1 }.write e.1 e.2) es = m.put (e :: es) := by
  simp [put, write]
  omega

/-- How many more entries the Memo takes. -/
def room (m : Memo) (p : Nat) : Option Nat := if m.breakpoint > 0 then some (m.breakpoint - 1 - p).toNat else none

theorem putAll_eq (es : List (String × List MVal)) (m : Memo) : putAll es m = match m.room m.w with
    | none => (none, m.put es)
    | some n => (if es.length ≤ n then none else some .brk, m.put (es.take n)) := by
  induction es generalizing m with
  | nil =>
    cases m.room m.w <;> simp [putAll, put_nil]
  | cons e es ih =>
    rw [putAll, record, advanceW, atBreak, room]
    by_cases hb : m.breakpoint > 0
    · rw [if_pos hb]
      by_cases hw : (m.w : Int) + 1 ≥ m.breakpoint
      · rw [if_pos (by simp [hb, hw])]
        have : (m.breakpoint - 1 - m.w).toNat = 0 := by omega
        simp [this, put_nil]
      · rw [if_neg (by simp [hw])]
        dsimp only
        rw [ih]
        have hn : (m.breakpoint - 1 - m.w).toNat = (m.breakpoint - 1 - (m.w + 1 : Nat)).toNat + 1 := by omega
        have : room ({ m with w := m.w + 1 }.write e.1 e.2) ({ m with w := m.w + 1 }.write e.1 e.2).w = some (m.breakpoint - 1 - (m.w + 1 : Nat)).toNat := by
          exact if_pos hb
        rw [this, hn]
        dsimp only
        rw [put_cons, List.take_succ_cons]
        simp
    · rw [if_neg hb, if_neg (by simp; omega)]
      dsimp only
      rw [ih]
      have : room ({ m with w := m.w + 1 }.write e.1 e.2) ({ m with w := m.w + 1 }.write e.1 e.2).w = none := by
        exact if_neg hb
      rw [this]
      dsimp only
      rw [put_cons]

/-! ## Reading -/

/-- A Memo that recorded the entries `es`, of which `k` were read since. -/
def after (b : Int) (es : List (String × List MVal)) (k : Nat) : Memo :=
  { breakpoint := b, r := k, w := es.length, steps := es.map (·.1) ++ (es.map (·.1)).take k, values := es.map (·.2) }

/-- The entry that answers a Reader call. -/
def Fits (e : String × List MVal) (a : Answer) : Prop := ∀ (b : Int) (es : List (String × List MVal)) (k : Nat), es[k]? = some e → (b > 0 → (k : Int) + 1 < b) →
  Gives reader a.1 (after b es k) a.2 (after b es (k + 1))

theorem advanceR_after (b : Int) (es : List (String × List MVal)) (k : Nat) (h : b > 0 → (k : Int) + 1 < b) : (after b es k).advanceR = some { after b es k with r := k + 1 } := by
  rw [advanceR, atBreak, if_neg]
  · rfl
  · rw [Bool.and_eq_true]
    rintro ⟨h1, h2⟩
    have h1 := h (of_decide_eq_true h1)
    have h2 : (k : Int) + 1 ≥ b := of_decide_eq_true h2
    omega

theorem check_after (b : Int) {es : List (String × List MVal)} {k : Nat} {e : String × List MVal} (he : es[k]? = some e) :
    check { after b es k with r := k + 1 } e.1 = .done (after b es (k + 1)) := by
  have hk : k < es.length := (List.getElem?_eq_some_iff.1 he).1
  have h1 : (es.map (·.1))[k]? = some e.1 := by rw [List.getElem?_map, he]; rfl
  have h2 : (es.map (·.1)).take (k + 1) = (es.map (·.1)).take k ++ [e.1] := by rw [List.take_add_one, h1]; rfl
  simp only [check, after, Nat.add_sub_cancel]
  rw [List.append_assoc, List.getElem?_append_left (by simpa using hk), h1]
  simp only [ne_eq, not_true_eq_false, if_false, h2]

theorem read1_after {α : Type} (b : Int) {es : List (String × List MVal)} {k : Nat} {s : String} {v : MVal} (he : es[k]? = some (s, [v])) (as : MVal → Option α) {a : α} (ha : as v = some a) :
    read1 { after b es k with r := k + 1 } s as = .done (.ok a, after b es (k + 1)) := by
  rw [read1, check_after b he]
  have : (after b es (k + 1)).values[(after b es (k + 1)).r - 1]? = some [v] := by
    simp only [after, Nat.add_sub_cancel, List.getElem?_map, he, Option.map_some]
  rw [Out.bind_done, this]
  dsimp only
  rw [ha]

theorem read0_after (b : Int) {es : List (String × List MVal)} {k : Nat} {s : String} (he : es[k]? = some (s, [])) :
    read0 { after b es k with r := k + 1 } s = .done (.ok (), after b es (k + 1)) := by
  rw [read0, check_after b he]
  rfl

theorem gives_iff {o : ROp} {a : o.Ans} {b : Int} {es : List (String × List MVal)} {k : Nat} (h : b > 0 → (k : Int) + 1 < b) {m : Memo} :
    Gives reader o (after b es k) a m ↔ readStep { after b es k with r := k + 1 } o = .done (.ok a, m) := by
  simp only [Gives, reader, advanceR_after b es k h]

/-- The entries of a call answer the Reader calls that take it back. -/
theorem fits (o : WOp) : (entries o).length = (takeBack o).length ∧ ∀ (i : Nat) e a, (entries o)[i]? = some e → (takeBack o)[i]? = some a → Fits e a ∧ e.1 = stepName a.1 := by
  have one : ∀ (e : String × List MVal) (a : Answer), Fits e a → e.1 = stepName a.1 → [e].length = [a].length ∧ ∀ (i : Nat) e' a', [e][i]? = some e' → [a][i]? = some a' → Fits e' a' ∧ e'.1 = stepName a'.1 := by
    intro e a h hn
    refine ⟨rfl, fun i e' a' h1 h2 => ?_⟩
    cases i with
    | zero => cases h1; cases h2; exact ⟨h, hn⟩
    | succ i => simp at h1
  cases o <;> first
    | exact one _ _ (fun b es k he hb => (gives_iff hb).2 (read1_after b he _ rfl)) rfl
    | exact one _ _ (fun b es k he hb => (gives_iff hb).2 (read0_after b he)) rfl
    | skip
  refine ⟨rfl, fun i e a h1 h2 => ?_⟩
  match i with
  | 0 => cases h1; cases h2; exact ⟨fun b es k he hb => (gives_iff hb).2 (read1_after b he _ rfl), rfl⟩
  | 1 => cases h1; cases h2; exact ⟨fun b es k he hb => (gives_iff hb).2 (read0_after b he), rfl⟩
  | i + 2 => simp [entries] at h1

theorem fits_all (l : List WOp) : (l.flatMap entries).length = (takeAll l).length ∧
    ∀ (i : Nat) e a, (l.flatMap entries)[i]? = some e → (takeAll l)[i]? = some a → Fits e a ∧ e.1 = stepName a.1 := by
  induction l with
  | nil => exact ⟨rfl, fun i e a h => by simp at h⟩
  | cons o l ih =>
    obtain ⟨h1, h2⟩ := fits o
    obtain ⟨h3, h4⟩ := ih
    simp only [takeAll, List.flatMap_cons] at h3 h4 ⊢
    refine ⟨by simp only [List.length_append]; omega, fun i e a he ha => ?_⟩
    by_cases hi : i < (entries o).length
    · rw [List.getElem?_append_left hi] at he
      rw [List.getElem?_append_left (by omega)] at ha
      exact h2 i e a he ha
    · rw [List.getElem?_append_right (by omega)] at he ha
      rw [← h1] at ha
      exact h4 _ e a he ha

theorem names_eq (l : List WOp) : (l.flatMap entries).map (·.1) = stepsOf l := by
  obtain ⟨h1, h2⟩ := fits_all l
  refine List.ext_getElem? fun i => ?_
  rw [stepsOf, List.getElem?_map, List.getElem?_map]
  by_cases hi : i < (takeAll l).length
  · have he := List.getElem?_eq_getElem (l := l.flatMap entries) (i := i) (by omega)
    have ha := List.getElem?_eq_getElem hi
    rw [he, ha]
    simp only [Option.map_some]
    rw [(h2 i _ _ he ha).2]
  · rw [List.getElem?_eq_none (by omega), List.getElem?_eq_none (by omega)]
    rfl

/-- Taking back entries from the middle. -/
theorem answers_from (b : Int) (es : List (String × List MVal)) (as : List Answer) (k : Nat) (h : ∀ (i : Nat) a, as[i]? = some a → ∃ e, es[k + i]? = some e ∧ Fits e a)
    (hb : b > 0 → ((k + as.length : Nat) : Int) < b) : Answers reader as (after b es k) (after b es (k + as.length)) := by
  induction as generalizing k with
  | nil => rfl
  | cons a as ih =>
    obtain ⟨e, he, hf⟩ := h 0 a rfl
    refine ⟨after b es (k + 1), hf b es k he (fun h => ?_), ?_⟩
    · have := hb h
      rw [List.length_cons] at this
      omega
    · have := ih (k + 1) (fun i a ha => ?_) (fun h => ?_)
      · rw [show k + (a :: as).length = k + 1 + as.length by rw [List.length_cons]; omega]
        exact this
      · obtain ⟨e, he, hf⟩ := h (i + 1) a (by simpa using ha)
        exact ⟨e, by rw [← he]; congr 1; omega, hf⟩
      · have := hb h
        rw [List.length_cons] at this
        omega

/-- A fresh Memo that took some calls has recorded their steps. -/
theorem writes_fresh (b : Int) (l : List WOp) (hb : b > 0 → ((stepsOf l).length : Int) < b) : Writes Memo.writer l { breakpoint := b } (after b (l.flatMap entries) 0) := by
  have hlen : (l.flatMap entries).length = (stepsOf l).length := by rw [← names_eq, List.length_map]
  have hput : put { breakpoint := b } (l.flatMap entries) = after b (l.flatMap entries) 0 := by simp [put, after]
  rw [Writes, run_ofCalls, putAll_eq]
  by_cases h : b > 0
  · have := hb h
    have hr : room { breakpoint := b } 0 = some (b - 1).toNat := (if_pos h).trans (by simp)
    rw [hr]
    dsimp only
    rw [if_pos (by omega), List.take_of_length_le (by omega), hput]
  · have hr : room { breakpoint := b } 0 = none := if_neg h
    rw [hr]
    dsimp only
    rw [hput]

end Memo

end GoThrift
