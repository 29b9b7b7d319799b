import Verif.Proof.KeyEq
import Verif.Proof.MapSame
import Verif.Spec.Decode

/-!
# C11: which keys are equal, and what a map holds for them
-/

namespace GoThrift

open Spec

/-- **C11** (equal keys): the comparison of keys is `==` of the Go language. -/
theorem C11_equal (a b : GoVal) : (a.keyEq b = true ↔ SameKey a b) ∧ (∀ x y : BitVec 32, Number32 x → ¬ Number32 y → (GoVal.f32 x).keyEq (.f32 y) = false) ∧ ∀ v w, (GoVal.ptr v).keyEq (.ptr w) = false := by
  refine ⟨keyEq_iff a b, fun x y _ hy => ?_, fun v w => ?_⟩
  · rw [Bool.eq_false_iff]
    intro h
    cases (keyEq_iff _ _).1 h with
    | f32 _ h2 _ => exact hy h2
  · rw [Bool.eq_false_iff]
    intro h
    cases (keyEq_iff _ _).1 h

/-- **C11** (lookup and update): in a map without two equal keys, the value found for a key is that of the entry with an equal key, if there is one; and setting a key makes a map that has the entry set and the entries of other keys,
and nothing else. -/
theorem C11_map (es : List (GoVal × GoVal)) (hd : DistinctKeys es) (x : GoVal) :
    (∀ v, mapIndex x es = some v ↔ ∃ y, (y, v) ∈ es ∧ SameKey x y) ∧ (mapIndex x es = none ↔ ∀ en ∈ es, ¬ SameKey x en.1) ∧
    (∀ v en, en ∈ setMapIndex x v es ↔ en = (x, v) ∨ en ∈ es ∧ ¬ SameKey x en.1) ∧ ∀ v, DistinctKeys (setMapIndex x v es) := by
  have no : ∀ {a b : GoVal}, ¬ SameKey a b ↔ a.keyEq b = false := fun {a b} => by rw [← keyEq_iff, Bool.not_eq_true]
  have apart : ∀ {k : GoVal} {es : List (GoVal × GoVal)}, (∀ e ∈ es, k.keyEq e.1 = false) → x.keyEq k = true → ∀ e ∈ es, x.keyEq e.1 = false := fun {k es} hk hx e he => by
    rw [Bool.eq_false_iff]
    intro h
    have := keyEq_trans k x e.1 (by rw [keyEq_comm]; exact hx) h
    rw [hk e he] at this
    cases this
  induction es with
  | nil =>
    refine ⟨fun v => ⟨fun h => (by cases h), fun ⟨_, h, _⟩ => (by cases h)⟩, ⟨fun _ en h => (by cases h), fun _ => rfl⟩, fun v en => ⟨fun h => ?_, fun h => ?_⟩, fun v => ?_⟩
    · exact .inl (List.mem_singleton.1 h)
    · rcases h with rfl | ⟨h, _⟩
      · exact List.mem_singleton.2 rfl
      · cases h
    · exact List.pairwise_singleton _ _
  | cons e es ih =>
    obtain ⟨k, w⟩ := e
    have hd' := List.pairwise_cons.1 hd
    obtain ⟨i1, i2, i3, i4⟩ := ih hd'.2
    by_cases hk : x.keyEq k = true
    · have hap := apart hd'.1 hk
      have hs := (keyEq_iff _ _).1 hk
      rw [mapIndex, if_pos hk]
      refine ⟨fun v => ⟨fun h => ?_, fun ⟨y, hy, hs'⟩ => ?_⟩, ⟨fun h => (by cases h), fun h => absurd hs (h _ (List.mem_cons_self ..))⟩, fun v en => ?_, fun v => ?_⟩
      · cases h; exact ⟨k, List.mem_cons_self .., hs⟩
      · rcases List.mem_cons.1 hy with h | h
        · cases h; rfl
        · have := hap _ h
          rw [(keyEq_iff _ _).2 hs'] at this
          cases this
      · rw [setMapIndex, if_pos hk, List.mem_cons]
        refine or_congr_right ⟨fun h => ⟨List.mem_cons_of_mem _ h, no.2 (hap _ h)⟩, fun ⟨h, hn⟩ => ?_⟩
        rcases List.mem_cons.1 h with h | h
        · cases h; exact absurd hs hn
        · exact h
      · rw [setMapIndex, if_pos hk]
        exact List.pairwise_cons.2 ⟨hap, hd'.2⟩
    · have hn := no.2 (Bool.eq_false_iff.2 hk)
      rw [mapIndex, if_neg hk]
      refine ⟨fun v => (i1 v).trans ⟨fun ⟨y, h, hs⟩ => ⟨y, List.mem_cons_of_mem _ h, hs⟩, fun ⟨y, h, hs⟩ => ?_⟩, i2.trans ⟨fun h en he => ?_, fun h en he => h en (List.mem_cons_of_mem _ he)⟩, fun v en => ?_, fun v => ?_⟩
      · rcases List.mem_cons.1 h with h | h
        · cases h; exact absurd hs hn
        · exact ⟨y, h, hs⟩
      · rcases List.mem_cons.1 he with rfl | he
        · exact hn
        · exact h en he
      · rw [setMapIndex, if_neg hk, List.mem_cons, i3]
        constructor
        · rintro (rfl | rfl | ⟨h, h'⟩)
          · exact .inr ⟨List.mem_cons_self .., hn⟩
          · exact .inl rfl
          · exact .inr ⟨List.mem_cons_of_mem _ h, h'⟩
        · rintro (rfl | ⟨h, h'⟩)
          · exact .inr (.inl rfl)
          · rcases List.mem_cons.1 h with rfl | h
            · exact .inl rfl
            · exact .inr (.inr ⟨h, h'⟩)
      · rw [setMapIndex, if_neg hk]
        refine List.pairwise_cons.2 ⟨fun en hen => ?_, i4 v⟩
        rcases (i3 v en).1 hen with rfl | ⟨h, _⟩
        · rw [keyEq_comm]; exact Bool.eq_false_iff.2 hk
        · exact hd'.1 en h

/-- The two zeros of float64 are one key, and a NaN is found by no key, not even by itself. -/
example : mapIndex (.f64 0) [(.f64 0x8000000000000000, .i8 1)] = some (.i8 1) ∧ mapIndex (.f64 0x7ff8000000000000) [(.f64 0x7ff8000000000000, .i8 1)] = none ∧
    DistinctKeys [(.str [1], .i8 1), (.str [2], .i8 1)] := by
  refine ⟨if_pos (by decide +kernel), if_neg (by decide +kernel), ?_⟩
  exact List.pairwise_cons.2 ⟨fun en he => by rw [List.mem_singleton.1 he]; decide +kernel, List.pairwise_singleton _ _⟩

end GoThrift
