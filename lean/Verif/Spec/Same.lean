import Verif.Model.Arshal

/-!
# A decision procedure for equality of Go values, for the examples beside the theorems
-/

namespace GoThrift

mutual
/-- Equal? -/
def GoVal.same : GoVal → GoVal → Bool
  | .bool a, .bool b => a == b
  | .f32 a, .f32 b => a == b
  | .f64 a, .f64 b => a == b
  | .i8 a, .i8 b => a == b
  | .i16 a, .i16 b => a == b
  | .i32 a, .i32 b => a == b
  | .i64 a, .i64 b => a == b
  | .str a, .str b => a == b
  | .bytes a, .bytes b => a == b
  | .uuid a, .uuid b => a == b
  | .struct a, .struct b => GoVal.sameList a b
  | .mapNil, .mapNil => true
  | .map a, .map b => GoVal.samePairs a b
  | .sliceNil, .sliceNil => true
  | .slice a c, .slice b d => GoVal.sameList a b && GoVal.sameList c d
  | .ptrNil, .ptrNil => true
  | .ptr a, .ptr b => GoVal.same a b
  | .other a, .other b => a == b
  | _, _ => false
/-- See `GoVal.same`. -/
def GoVal.sameList : List GoVal → List GoVal → Bool
  | [], [] => true
  | a :: as, b :: bs => GoVal.same a b && GoVal.sameList as bs
  | _, _ => false
/-- See `GoVal.same`. -/
def GoVal.samePairs : List (GoVal × GoVal) → List (GoVal × GoVal) → Bool
  | [], [] => true
  | (a, c) :: as, (b, d) :: bs => GoVal.same a b && GoVal.same c d && GoVal.samePairs as bs
  | _, _ => false
end

mutual
theorem GoVal.eq_of_same : ∀ a b : GoVal, a.same b = true → a = b
  | .struct a, b, h => by
    cases b <;> simp only [GoVal.same, Bool.false_eq_true] at h
    rw [GoVal.eq_of_sameList a _ h]
  | .map a, b, h => by
    cases b <;> simp only [GoVal.same, Bool.false_eq_true] at h
    rw [GoVal.eq_of_samePairs a _ h]
  | .slice a c, b, h => by
    cases b <;> simp only [GoVal.same, Bool.false_eq_true, Bool.and_eq_true] at h
    rw [GoVal.eq_of_sameList a _ h.1, GoVal.eq_of_sameList c _ h.2]
  | .ptr a, b, h => by
    cases b <;> simp only [GoVal.same, Bool.false_eq_true] at h
    rw [GoVal.eq_of_same a _ h]
  | .bool a, b, h | .f32 a, b, h | .f64 a, b, h | .i8 a, b, h | .i16 a, b, h | .i32 a, b, h | .i64 a, b, h | .str a, b, h | .bytes a, b, h | .uuid a, b, h
  | .mapNil, b, h | .sliceNil, b, h | .ptrNil, b, h | .other a, b, h => by
    cases b <;> simp [GoVal.same] at h <;> first | rfl | rw [h]
theorem GoVal.eq_of_sameList : ∀ a b : List GoVal, GoVal.sameList a b = true → a = b
  | [], b, h => by cases b <;> simp [GoVal.sameList] at h; rfl
  | a :: as, b, h => by
    cases b with
    | nil => simp [GoVal.sameList] at h
    | cons b bs =>
      simp only [GoVal.sameList, Bool.and_eq_true] at h
      rw [GoVal.eq_of_same a b h.1, GoVal.eq_of_sameList as bs h.2]
theorem GoVal.eq_of_samePairs : ∀ a b : List (GoVal × GoVal), GoVal.samePairs a b = true → a = b
  | [], b, h => by cases b <;> simp [GoVal.samePairs] at h; rfl
  | (a, c) :: as, b, h => by
    cases b with
    | nil => simp [GoVal.samePairs] at h
    | cons b bs =>
      obtain ⟨b, d⟩ := b
      simp only [GoVal.samePairs, Bool.and_eq_true] at h
      rw [GoVal.eq_of_same a b h.1.1, GoVal.eq_of_same c d h.1.2, GoVal.eq_of_samePairs as bs h.2]
end

/-- Did a run of Unmarshal end with this result? -/
def sameResult {S : Type} [DecidableEq S] (x : Out ((AnyVal × Option Err) × S)) (t : TypeId) (v : GoVal) (e : Option Err) (s : S) : Bool := match x with
  | .done ((.val t' v', e'), s') => t' == t && v'.same v && decide (e' = e) && decide (s' = s)
  | _ => false

theorem sameResult_eq {S : Type} [DecidableEq S] {x : Out ((AnyVal × Option Err) × S)} {t : TypeId} {v : GoVal} {e : Option Err} {s : S}
    (h : sameResult x t v e s = true) : x = .done ((.val t v, e), s) := by
  unfold sameResult at h
  split at h
  · simp only [Bool.and_eq_true, decide_eq_true_eq, beq_iff_eq] at h
    obtain ⟨⟨⟨rfl, h2⟩, rfl⟩, rfl⟩ := h
    rw [GoVal.eq_of_same _ _ h2]
  · cases h

end GoThrift
