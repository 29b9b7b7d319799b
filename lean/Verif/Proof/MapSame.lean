import Verif.Proof.MapOrder
import Verif.Proof.Keep

/-!
# Go maps up to the order of their entries: lemmas
-/

namespace GoThrift

open Spec Spec.TVal

/-- The entries are the same but for spare capacity and order. -/
def SameMap (es es' : List (GoVal × GoVal)) : Prop :=
  ∃ es1 : List (GoVal × GoVal), es1.Perm es' ∧ es1.length = es.length ∧ ∀ (i : Nat) x x', es[i]? = some x → es1[i]? = some x' → SameValue false x.1 x'.1 ∧ SameValue false x.2 x'.2

theorem SameMap.refl (es : List (GoVal × GoVal)) : SameMap es es :=
  ⟨es, .refl _, rfl, fun i x x' h1 h2 => by rw [h1] at h2; cases h2; exact ⟨.refl _, .refl _⟩⟩

theorem SameMap.perm_right {a b c : List (GoVal × GoVal)} (h : SameMap a b) (p : b.Perm c) : SameMap a c := by
  obtain ⟨m, h1, h2, h3⟩ := h
  exact ⟨m, h1.trans p, h2, h3⟩

theorem SameMap.perm_left {a b c : List (GoVal × GoVal)} (p : a.Perm b) (h : SameMap b c) : SameMap a c := by
  obtain ⟨m, h1, h2, h3⟩ := h
  obtain ⟨m', h4, h5, h6⟩ := perm_along p.symm m h2
  refine ⟨m', h4.symm.trans h1, h5, fun i x x' hx hx' => ?_⟩
  obtain ⟨j, h7, h8⟩ := h6 i x x' hx hx'
  exact h3 j x x' h7 h8

theorem SameMap.value {es es' : List (GoVal × GoVal)} (h : SameMap es es') : SameValue false (.map es) (.map es') := by
  obtain ⟨m, h1, h2, h3⟩ := h
  exact .map h1 (fun h => by cases h) h2 (fun i x x' hx hx' => (h3 i x x' hx hx').1) (fun i x x' hx hx' => (h3 i x x' hx hx').2)

theorem SameMap.of {es es' : List (GoVal × GoVal)} (h : SameValue false (.map es) (.map es')) : SameMap es es' := by
  cases h with
  | refl => exact .refl _
  | map p _ hl h1 h2 => exact ⟨_, p, hl, fun i x x' hx hx' => ⟨h1 i x x' hx hx', h2 i x x' hx hx'⟩⟩

theorem keyEq_comm (a b : GoVal) : a.keyEq b = b.keyEq a := by
  rw [Bool.eq_iff_iff]
  exact ⟨keyEq_symm a b, keyEq_symm b a⟩

theorem Spec.SameValue.keyEq {o : Bool} {a a' b b' : GoVal} (h : SameValue o a a') (h' : SameValue o b b') : a.keyEq b = a'.keyEq b' :=
  (h.keyEq_left b).trans (h'.keyEq_right a')

theorem Spec.DistinctKeys.perm {es es' : List (GoVal × GoVal)} (h : DistinctKeys es) (p : es.Perm es') : DistinctKeys es' :=
  (p.pairwise_iff (R := fun x y : GoVal × GoVal => x.1.keyEq y.1 = false) fun {x y} h => (keyEq_comm y.1 x.1).trans h).1 h

theorem distinct_same {es es1 : List (GoVal × GoVal)} (hl : es1.length = es.length)
    (hs : ∀ (i : Nat) x x', es[i]? = some x → es1[i]? = some x' → SameValue false x.1 x'.1 ∧ SameValue false x.2 x'.2) (h : DistinctKeys es) : DistinctKeys es1 := by
  rw [DistinctKeys, List.pairwise_iff_getElem] at h ⊢
  intro i j hi hj hij
  have at' : ∀ (k : Nat) (hk : k < es1.length) (hk' : k < es.length), SameValue false es[k].1 es1[k].1 := fun k hk hk' =>
    (hs k _ _ (List.getElem?_eq_getElem hk') (List.getElem?_eq_getElem hk)).1
  rw [← (at' i hi (by omega)).keyEq (at' j hj (by omega))]
  exact h i j (by omega) (by omega) hij

theorem SameMap.distinct {es es' : List (GoVal × GoVal)} (h : SameMap es es') (hd : DistinctKeys es) : DistinctKeys es' := by
  obtain ⟨m, h1, h2, h3⟩ := h
  exact (distinct_same h2 h3 hd).perm h1

/-! ## mapIndex -/

theorem mapIndex_perm {es es' : List (GoVal × GoVal)} (p : es.Perm es') (hd : DistinctKeys es) (k : GoVal) : mapIndex k es = mapIndex k es' := by
  induction p with
  | nil => rfl
  | cons x _ ih =>
    obtain ⟨k', v⟩ := x
    rw [mapIndex, mapIndex, ih (List.pairwise_cons.1 hd).2]
  | swap x y l =>
    obtain ⟨a, v⟩ := x
    obtain ⟨b, w⟩ := y
    have hab : b.keyEq a = false := (List.pairwise_cons.1 hd).1 (a, v) (by simp)
    simp only [mapIndex]
    split
    · rename_i h1
      rw [if_neg]
      intro h2
      rw [keyEq_trans b k a (keyEq_symm _ _ h1) h2] at hab
      cases hab
    · rfl
  | trans p1 _ ih1 ih2 => exact (ih1 hd).trans (ih2 (hd.perm p1))

/-- What two maps that are the same have for the same key. -/
def SameSlot (a b : Option GoVal) : Prop := (a = none ∧ b = none) ∨ ∃ v v', a = some v ∧ b = some v' ∧ SameValue false v v'

theorem SameMap.mapIndex {es es' : List (GoVal × GoVal)} (h : SameMap es es') (hd : DistinctKeys es) {k k' : GoVal} (hk : SameValue false k k') :
    SameSlot (GoThrift.mapIndex k es) (GoThrift.mapIndex k' es') := by
  obtain ⟨m, h1, h2, h3⟩ := h
  rw [← mapIndex_perm h1 (distinct_same h2 h3 hd)]
  clear h1 hd
  induction es generalizing m with
  | nil => cases m with
    | nil => exact .inl ⟨rfl, rfl⟩
    | cons => simp at h2
  | cons e es ih => cases m with
    | nil => simp at h2
    | cons e' m =>
      obtain ⟨a, v⟩ := e
      obtain ⟨a', v'⟩ := e'
      obtain ⟨h4, h5⟩ := h3 0 _ _ rfl rfl
      rw [GoThrift.mapIndex, GoThrift.mapIndex, hk.keyEq h4]
      split
      · exact .inr ⟨v, v', rfl, rfl, h5⟩
      · exact ih m (by simpa using h2) fun i x x' hx hx' => h3 (i + 1) x x' hx hx'

theorem SameSlot.getD {a b : Option GoVal} (h : SameSlot a b) (z : GoVal) : SameValue false (a.getD z) (b.getD z) := by
  rcases h with ⟨rfl, rfl⟩ | ⟨v, v', rfl, rfl, h⟩
  · exact .refl _
  · exact h

theorem mapIndex_set_other {x y : GoVal} (h : x.keyEq y = false) (v : GoVal) (es : List (GoVal × GoVal)) : mapIndex y (setMapIndex x v es) = mapIndex y es := by
  have hyx : y.keyEq x = false := (keyEq_comm y x).trans h
  induction es with
  | nil => simp [setMapIndex, mapIndex, hyx]
  | cons e es ih =>
    obtain ⟨k, w⟩ := e
    rw [setMapIndex]
    split
    · rename_i h1
      rw [mapIndex, mapIndex, if_neg (by simp [hyx]), if_neg]
      intro h2
      rw [keyEq_trans x k y h1 (keyEq_symm _ _ h2)] at h
      cases h
    · rw [mapIndex, mapIndex, ih]

/-! ## setMapIndex -/

theorem setMapIndex_perm {es es' : List (GoVal × GoVal)} (p : es.Perm es') (hd : DistinctKeys es) (k v : GoVal) : (setMapIndex k v es).Perm (setMapIndex k v es') := by
  induction p with
  | nil => exact .refl _
  | cons x p ih =>
    obtain ⟨k', w⟩ := x
    rw [setMapIndex, setMapIndex]
    split
    · exact p.cons _
    · exact (ih (List.pairwise_cons.1 hd).2).cons _
  | swap x y l =>
    obtain ⟨a, v1⟩ := x
    obtain ⟨b, v2⟩ := y
    have hab : b.keyEq a = false := (List.pairwise_cons.1 hd).1 (a, v1) (by simp)
    simp only [setMapIndex]
    split
    · rename_i h1
      rw [if_neg]
      · exact .swap _ _ _
      intro h2
      rw [keyEq_trans b k a (keyEq_symm _ _ h1) h2] at hab
      cases hab
    · split <;> exact .swap _ _ _
  | trans p1 _ ih1 ih2 => exact (ih1 hd).trans (ih2 (hd.perm p1))

theorem SameMap.setMapIndex {es es' : List (GoVal × GoVal)} (h : SameMap es es') (hd : DistinctKeys es) {k k' v v' : GoVal} (hk : SameValue false k k') (hv : SameValue false v v') :
    SameMap (GoThrift.setMapIndex k v es) (GoThrift.setMapIndex k' v' es') := by
  obtain ⟨m, h1, h2, h3⟩ := h
  refine SameMap.perm_right ?_ (setMapIndex_perm h1 (distinct_same h2 h3 hd) k' v')
  clear h1 hd
  suffices (GoThrift.setMapIndex k' v' m).length = (GoThrift.setMapIndex k v es).length ∧ ∀ (i : Nat) x x', (GoThrift.setMapIndex k v es)[i]? = some x →
      (GoThrift.setMapIndex k' v' m)[i]? = some x' → SameValue false x.1 x'.1 ∧ SameValue false x.2 x'.2 from ⟨_, .refl _, this.1, this.2⟩
  induction es generalizing m with
  | nil => cases m with
    | nil =>
      refine ⟨rfl, fun i x x' hx hx' => ?_⟩
      cases i with
      | zero => cases hx; cases hx'; exact ⟨hk, hv⟩
      | succ i => cases hx
    | cons => simp at h2
  | cons e es ih => cases m with
    | nil => simp at h2
    | cons e' m =>
      obtain ⟨a, w⟩ := e
      obtain ⟨a', w'⟩ := e'
      have h0 := h3 0 _ _ rfl rfl
      rw [GoThrift.setMapIndex, GoThrift.setMapIndex, hk.keyEq h0.1]
      split
      · refine ⟨by simpa using h2, fun i x x' hx hx' => ?_⟩
        cases i with
        | zero => cases hx; cases hx'; exact ⟨hk, hv⟩
        | succ i => exact h3 (i + 1) x x' hx hx'
      · obtain ⟨h4, h5⟩ := ih m (by simpa using h2) fun i x x' hx hx' => h3 (i + 1) x x' hx hx'
        refine ⟨by simp [h4], fun i x x' hx hx' => ?_⟩
        cases i with
        | zero => cases hx; cases hx'; exact h0
        | succ i => exact h5 i x x' hx hx'

theorem setMapIndex_swap {x y : GoVal} (h : x.keyEq y = false) (v w : GoVal) (es : List (GoVal × GoVal)) :
    (setMapIndex y w (setMapIndex x v es)).Perm (setMapIndex x v (setMapIndex y w es)) := by
  have hyx : y.keyEq x = false := (keyEq_comm y x).trans h
  induction es with
  | nil =>
    simp only [setMapIndex, h, hyx, Bool.false_eq_true, if_false]
    exact .swap _ _ _
  | cons e es ih =>
    obtain ⟨k, u⟩ := e
    by_cases h1 : x.keyEq k = true
    · have h2 : ¬ y.keyEq k = true := fun h2 => by
        rw [keyEq_trans x k y h1 (keyEq_symm _ _ h2)] at h
        cases h
      simp only [setMapIndex, h1, h2, hyx, Bool.false_eq_true, if_false, if_true]
      exact .refl _
    · by_cases h2 : y.keyEq k = true
      · simp only [setMapIndex, h1, h2, h, Bool.false_eq_true, if_false, if_true]
        exact .refl _
      · simp only [setMapIndex, h1, h2, Bool.false_eq_true, if_false]
        exact ih.cons _

/-- Store the entries one after the other. -/
def setAll (kvs es : List (GoVal × GoVal)) : List (GoVal × GoVal) := kvs.foldl (fun m kv => setMapIndex kv.1 kv.2 m) es

theorem setAll_perm (kvs : List (GoVal × GoVal)) {es es' : List (GoVal × GoVal)} (p : es.Perm es') (hd : DistinctKeys es) : (setAll kvs es).Perm (setAll kvs es') := by
  induction kvs generalizing es es' with
  | nil => exact p
  | cons kv kvs ih => exact ih (setMapIndex_perm p hd _ _) (setMapIndex_distinct hd)

/-- Entries whose keys are different can be stored in any order. -/
theorem setAll_reorder {kvs kvs' : List (GoVal × GoVal)} (p : kvs.Perm kvs') (ha : DistinctKeys kvs) {es : List (GoVal × GoVal)} (hd : DistinctKeys es) :
    (setAll kvs es).Perm (setAll kvs' es) := by
  induction p generalizing es with
  | nil => exact .refl _
  | cons x _ ih => exact ih (List.pairwise_cons.1 ha).2 (setMapIndex_distinct hd)
  | swap x y l =>
    have h : y.1.keyEq x.1 = false := (List.pairwise_cons.1 ha).1 x (by simp)
    exact setAll_perm l (setMapIndex_swap h _ _ _) (setMapIndex_distinct (setMapIndex_distinct hd))
  | trans p1 _ ih1 ih2 => exact (ih1 ha hd).trans (ih2 (ha.perm p1) hd)

theorem SameMap.setAll {es es' : List (GoVal × GoVal)} (h : SameMap es es') (hd : DistinctKeys es) {kvs kvs' : List (GoVal × GoVal)} (hl : kvs'.length = kvs.length)
    (hs : ∀ (i : Nat) x x', kvs[i]? = some x → kvs'[i]? = some x' → SameValue false x.1 x'.1 ∧ SameValue false x.2 x'.2) : SameMap (GoThrift.setAll kvs es) (GoThrift.setAll kvs' es') := by
  induction kvs generalizing kvs' es es' with
  | nil => cases kvs' with
    | nil => exact h
    | cons => simp at hl
  | cons kv kvs ih => cases kvs' with
    | nil => simp at hl
    | cons kv' kvs' =>
      obtain ⟨h1, h2⟩ := hs 0 _ _ rfl rfl
      exact ih (h.setMapIndex hd h1 h2) (setMapIndex_distinct hd) (by simpa using hl) fun i x x' hx hx' => hs (i + 1) x x' hx hx'

end GoThrift
