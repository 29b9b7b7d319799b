import Verif.Proof.Alike

/-!
# What decoding keeps: map keys stay distinct, entries and fields not on the wire are not touched
-/

namespace GoThrift

open Spec Spec.TVal

/-! ## Equality of map keys is symmetric and transitive (not reflexive: NaN) -/

theorem or_and_zero {w : Nat} (a b m : BitVec w) : (a ||| b) &&& m = 0#w ↔ a &&& m = 0#w ∧ b &&& m = 0#w := by
  rw [← BitVec.or_eq_zero_iff]
  have : (a ||| b) &&& m = a &&& m ||| b &&& m := by ext i hi; simp; cases a[i] <;> cases b[i] <;> cases m[i] <;> rfl
  rw [this]

theorem f32Eq_iff (a b : BitVec 32) : f32Eq a b = true ↔ (a &&& 0x7fffffff#32 ≤ 0x7f800000#32) ∧ (b &&& 0x7fffffff#32 ≤ 0x7f800000#32) ∧
    (a = b ∨ (a &&& 0x7fffffff#32 = 0#32 ∧ b &&& 0x7fffffff#32 = 0#32)) := by
  rw [← or_and_zero]; simp [f32Eq, and_assoc]

theorem f64Eq_iff (a b : BitVec 64) : f64Eq a b = true ↔ (a &&& 0x7fffffffffffffff#64 ≤ 0x7ff0000000000000#64) ∧ (b &&& 0x7fffffffffffffff#64 ≤ 0x7ff0000000000000#64) ∧
    (a = b ∨ (a &&& 0x7fffffffffffffff#64 = 0#64 ∧ b &&& 0x7fffffffffffffff#64 = 0#64)) := by
  rw [← or_and_zero]; simp [f64Eq, and_assoc]

mutual
theorem keyEq_symm : ∀ (a b : GoVal), a.keyEq b = true → b.keyEq a = true
  | .f32 a, b, h => by
    cases b with
    | f32 b =>
      simp only [GoVal.keyEq, f32Eq_iff] at h ⊢
      exact ⟨h.2.1, h.1, h.2.2.elim (fun h => .inl h.symm) fun h => .inr ⟨h.2, h.1⟩⟩
    | _ => simp [GoVal.keyEq] at h
  | .f64 a, b, h => by
    cases b with
    | f64 b =>
      simp only [GoVal.keyEq, f64Eq_iff] at h ⊢
      exact ⟨h.2.1, h.1, h.2.2.elim (fun h => .inl h.symm) fun h => .inr ⟨h.2, h.1⟩⟩
    | _ => simp [GoVal.keyEq] at h
  | .struct a, b, h => by
    cases b with
    | struct b => rw [GoVal.keyEq] at h ⊢; exact keysEq_symm a b h
    | _ => simp [GoVal.keyEq] at h
  | .bool a, b, h | .i8 a, b, h | .i16 a, b, h | .i32 a, b, h | .i64 a, b, h | .str a, b, h | .uuid a, b, h | .other a, b, h => by cases b <;> simp_all [GoVal.keyEq]
  | .bytes _, b, h | .mapNil, b, h | .map _, b, h | .sliceNil, b, h | .slice _ _, b, h | .ptrNil, b, h | .ptr _, b, h => by cases b <;> simp_all [GoVal.keyEq]
theorem keysEq_symm : ∀ (a b : List GoVal), GoVal.keysEq a b = true → GoVal.keysEq b a = true
  | [], [], _ => rfl
  | a :: as, b :: bs, h => by
    simp only [GoVal.keysEq, Bool.and_eq_true] at h ⊢
    exact ⟨keyEq_symm a b h.1, keysEq_symm as bs h.2⟩
  | [], _ :: _, h => by simp [GoVal.keysEq] at h
  | _ :: _, [], h => by simp [GoVal.keysEq] at h
end

mutual
theorem keyEq_trans : ∀ (a b c : GoVal), a.keyEq b = true → b.keyEq c = true → a.keyEq c = true
  | .f32 a, b, c, h, h' => by
    cases b with
    | f32 b =>
      cases c with
      | f32 c =>
        simp only [GoVal.keyEq, f32Eq_iff] at h h' ⊢
        refine ⟨h.1, h'.2.1, ?_⟩
        rcases h.2.2 with rfl | h1
        · exact h'.2.2
        · rcases h'.2.2 with rfl | h2
          · exact .inr h1
          · exact .inr ⟨h1.1, h2.2⟩
      | _ => simp [GoVal.keyEq] at h'
    | _ => simp [GoVal.keyEq] at h
  | .f64 a, b, c, h, h' => by
    cases b with
    | f64 b =>
      cases c with
      | f64 c =>
        simp only [GoVal.keyEq, f64Eq_iff] at h h' ⊢
        refine ⟨h.1, h'.2.1, ?_⟩
        rcases h.2.2 with rfl | h1
        · exact h'.2.2
        · rcases h'.2.2 with rfl | h2
          · exact .inr h1
          · exact .inr ⟨h1.1, h2.2⟩
      | _ => simp [GoVal.keyEq] at h'
    | _ => simp [GoVal.keyEq] at h
  | .struct a, b, c, h, h' => by
    cases b with
    | struct b =>
      cases c with
      | struct c => rw [GoVal.keyEq] at h h' ⊢; exact keysEq_trans a b c h h'
      | _ => simp [GoVal.keyEq] at h'
    | _ => simp [GoVal.keyEq] at h
  | .bool a, b, c, h, h' | .i8 a, b, c, h, h' | .i16 a, b, c, h, h' | .i32 a, b, c, h, h' | .i64 a, b, c, h, h' | .str a, b, c, h, h' | .uuid a, b, c, h, h' | .other a, b, c, h, h' => by
    cases b <;> simp [GoVal.keyEq] at h; subst h; exact h'
  | .ptrNil, b, c, h, h' => by cases b <;> simp [GoVal.keyEq] at h; exact h'
  | .bytes _, b, c, h, h' | .mapNil, b, c, h, h' | .map _, b, c, h, h' | .sliceNil, b, c, h, h' | .slice _ _, b, c, h, h' | .ptr _, b, c, h, h' => by
    cases b <;> simp [GoVal.keyEq] at h
theorem keysEq_trans : ∀ (a b c : List GoVal), GoVal.keysEq a b = true → GoVal.keysEq b c = true → GoVal.keysEq a c = true
  | [], [], _, _, h => h
  | a :: as, b :: bs, c :: cs, h, h' => by
    simp only [GoVal.keysEq, Bool.and_eq_true] at h h' ⊢
    exact ⟨keyEq_trans a b c h.1 h'.1, keysEq_trans as bs cs h.2 h'.2⟩
  | [], _ :: _, _, h, _ => by simp [GoVal.keysEq] at h
  | _ :: _, [], _, h, _ => by simp [GoVal.keysEq] at h
  | _ :: _, _ :: _, [], _, h => by simp [GoVal.keysEq] at h
end

/-! ## Maps -/

theorem setMapIndex_length (k v : GoVal) (es : List (GoVal × GoVal)) : (setMapIndex k v es).length ≤ es.length + 1 := by
  induction es with
  | nil => simp [setMapIndex]
  | cons e es ih =>
    obtain ⟨k', v'⟩ := e
    rw [setMapIndex]
    split
    · simp
    · simp only [List.length_cons]; omega

theorem setMapIndex_distinct {k v : GoVal} {es : List (GoVal × GoVal)} (h : DistinctKeys es) : DistinctKeys (setMapIndex k v es) := by
  induction es with
  | nil => simp [setMapIndex, DistinctKeys]
  | cons e es ih =>
    obtain ⟨k', v'⟩ := e
    rw [DistinctKeys, List.pairwise_cons] at h
    rw [setMapIndex]
    split
    · rename_i hk
      refine List.pairwise_cons.2 ⟨fun x hx => ?_, h.2⟩
      cases hx' : k.keyEq x.1 with
      | false => rfl
      | true =>
        have := h.1 x hx
        rw [keyEq_trans k' k x.1 (keyEq_symm _ _ hk) hx'] at this
        cases this
    · rename_i hk
      refine List.pairwise_cons.2 ⟨fun x hx => ?_, ih h.2⟩
      rcases setMapIndex_mem hx with rfl | hx
      · cases hx' : k'.keyEq k with
        | false => rfl
        | true => exact absurd (keyEq_symm _ _ hx') hk
      · exact h.1 x hx

theorem setMapIndex_keeps {k v : GoVal} {es : List (GoVal × GoVal)} {e : GoVal × GoVal} (he : e ∈ es) (hk : k.keyEq e.1 = false) : e ∈ setMapIndex k v es := by
  induction es with
  | nil => cases he
  | cons e' es ih =>
    obtain ⟨k', v'⟩ := e'
    rw [setMapIndex]
    rcases List.mem_cons.1 he with rfl | he
    · rw [if_neg (by simp [hk])]; simp
    · split
      · simp [he]
      · simp [ih he]

theorem decEntries_keep {uk uv : GoVal → TVal → Dec GoVal} {zk zv : GoVal} {tes : List (TVal × TVal)} {es es' : List (GoVal × GoVal)} {er : Option Err}
    (h : decEntries uk uv zk zv tes es = .done (es', er)) :
    es'.length ≤ es.length + tes.length ∧
    (∀ e ∈ es, (∀ te ∈ tes, ∀ k, uk zk te.1 = .done (k, none) → k.keyEq e.1 = false) → e ∈ es') ∧
    (DistinctKeys es → DistinctKeys es') := by
  induction tes generalizing es with
  | nil => cases h; exact ⟨by simp, fun e he _ => he, id⟩
  | cons te tes ih =>
    rw [decEntries] at h
    rcases Dec.andThen_done h with ⟨k, h1, h⟩ | ⟨k, e, h1, h2⟩
    · have hl : ∀ v, (setMapIndex k v es).length ≤ es.length + 1 := fun v => setMapIndex_length k v es
      rcases Dec.andThen_done h with ⟨v, h2, h⟩ | ⟨v, e, h2, h3⟩
      · obtain ⟨i1, i2, i3⟩ := ih h
        refine ⟨by have := hl v; simp only [List.length_cons]; omega, fun e he hn => ?_, fun hd => i3 (setMapIndex_distinct hd)⟩
        exact i2 e (setMapIndex_keeps he (hn te (by simp) k h1)) fun te' hte' => hn te' (by simp [hte'])
      · cases h3
        exact ⟨by have := hl v; simp only [List.length_cons]; omega, fun e he hn => setMapIndex_keeps he (hn te (by simp) k h1), setMapIndex_distinct⟩
    · cases h2
      exact ⟨by simp, fun e he _ => he, id⟩

/-! ## Structs -/

theorem decFields_keep {env : Env} {n : Nat} {t : TypeId} {fs : List SField} (htab : Table env n t fs) (fuel : Nat) (tfs : List (Bytes × BitVec 16 × TVal)) (vs : List GoVal)
    (v : GoVal) (e : Option Err) (h : decFields env fuel t fs vs tfs = .done (v, e)) : ∃ vs', v = .struct vs' ∧ vs'.length = vs.length ∧
      ∀ (i : Nat), (∀ f, (env.fields t)[i]? = some f → ∀ tf ∈ tfs, ∀ required, ¬ Declares env f tf.2.1 required) → vs'[i]? = vs[i]? := by
  induction fuel generalizing tfs vs with
  | zero => simp only [decFields] at h; cases h
  | succ fuel ih =>
    cases tfs with
    | nil => simp only [decFields] at h; cases h; exact ⟨vs, rfl, rfl, fun _ _ => rfl⟩
    | cons tf tfs =>
      rw [decFields] at h
      cases hb : byID fs tf.2.1 with
      | none =>
        rw [hb] at h
        obtain ⟨vs', h1, h2, h3⟩ := ih tfs vs h
        exact ⟨vs', h1, h2, fun i hi => h3 i fun f hf tf' htf' => hi f hf tf' (by simp [htf'])⟩
      | some sf =>
        rw [hb] at h
        dsimp only at h
        cases hv : vs[sf.index]? with
        | none => rw [hv] at h; cases h
        | some v0 =>
          rw [hv] at h
          obtain ⟨d, d1, d2, _⟩ := htab.byID_declares hb
          have hne : ∀ (i : Nat), (∀ f, (env.fields t)[i]? = some f → ∀ tf' ∈ tf :: tfs, ∀ required, ¬ Declares env f tf'.2.1 required) → sf.index ≠ i := by
            rintro i hi rfl
            exact hi d d1 tf (by simp) _ d2
          rcases Dec.andThen_done h with ⟨y, h1, h2⟩ | ⟨y, e, h1, h2⟩
          · obtain ⟨vs', i1, i2, i3⟩ := ih tfs _ h2
            refine ⟨vs', i1, by simpa using i2, fun i hi => ?_⟩
            rw [i3 i fun f hf tf' htf' => hi f hf tf' (by simp [htf']), List.getElem?_set_ne (hne i hi)]
          · cases h2
            exact ⟨_, rfl, by simp, fun i hi => by rw [List.getElem?_set_ne (hne i hi)]⟩

end GoThrift
