import Verif.Spec.Holds

/-! # Skipping a value the stream holds -/

namespace GoThrift

open Spec Spec.TVal

mutual
/-- Fuel that suffices to skip a value. -/
def fuelOf : TVal → Nat
  | .struct _ fs => fuelOfFields fs + 1
  | .map _ _ es => fuelOfEntries es + 1
  | .set _ es => fuelOfElems es + 1
  | .list _ es => fuelOfElems es + 1
  | _ => 1
/-- Fuel for fields: one per field on top of the value. -/
def fuelOfFields : List (Bytes × BitVec 16 × TVal) → Nat
  | [] => 1
  | (_, _, v) :: fs => max (fuelOf v) (fuelOfFields fs) + 1
/-- Fuel for entries. -/
def fuelOfEntries : List (TVal × TVal) → Nat
  | [] => 1
  | (k, v) :: es => max (fuelOf k) (max (fuelOf v) (fuelOfEntries es))
/-- Fuel for elements. -/
def fuelOfElems : List TVal → Nat
  | [] => 1
  | v :: es => max (fuelOf v) (fuelOfElems es)
end

section
variable {S : Type} {r : Rdr S}

theorem run_try' {o : ROp} {s s' : S} {a : o.Ans} (h : Gives r o s a s') (k : o.Ans → RProg (Option Err)) :
    (RProg.try' o k).run r s = (k a).run r s' := by
  have h' : r.step o s = .done (.ok a, s') := h
  simp [RProg.try', RProg.run, h']

theorem run_last {o : ROp} {s s' : S} {a : o.Ans} (h : Gives r o s a s') :
    (RProg.last o).run r s = .done (none, s') := by
  have h' : r.step o s = .done (.ok a, s') := h
  simp [RProg.last, RProg.run, h']

theorem run_andThen {p q : RProg (Option Err)} {s s' : S} (h : p.run r s = .done (none, s')) :
    (p.andThen q).run r s = q.run r s' := by
  simp [RProg.andThen, RProg.run_bind, h]

theorem fuelOf_pos (t : TVal) : 1 ≤ fuelOf t := by cases t <;> simp [fuelOf]

theorem ty_ne_stop (t : TVal) : t.ty ≠ Ty.stop := by
  cases t <;> (simp only [ty]; decide)

/-- The induction statement of `skip_holds`. -/
def SkipOK (r : Rdr S) (t : TVal) : Prop := ∀ (fuel : Nat), fuelOf t ≤ fuel → ∀ (s s' : S), Holds r t s s' →
    (skip fuel t.ty).run r s = .done (none, s')

theorem skipElems_holds (et : WType) (es : List TVal) (hall : ∀ e ∈ es, SkipOK r e) (fuel : Nat) (hf : fuelOfElems es ≤ fuel)
    (q : RProg (Option Err)) (s s' : S) (h : HoldsElems r et es s s') :
    (RProg.loop es.length (skip fuel et) q).run r s = q.run r s' := by
  induction es generalizing s with
  | nil => simp only [HoldsElems] at h; rw [h]; rfl
  | cons e es ih =>
    simp only [HoldsElems] at h
    obtain ⟨ht, s1, h1, h2⟩ := h
    simp only [fuelOfElems] at hf
    rw [List.length_cons, RProg.loop]
    have := hall e (by simp) fuel (by omega) s s1 h1
    rw [ht] at this
    rw [run_andThen this]
    exact ih (fun e he => hall e (by simp [he])) (by omega) s1 h2

theorem skipEntries_holds (kt vt : WType) (es : List (TVal × TVal)) (hall : ∀ e ∈ es, SkipOK r e.1 ∧ SkipOK r e.2)
    (fuel : Nat) (hf : fuelOfEntries es ≤ fuel) (q : RProg (Option Err)) (s s' : S) (h : HoldsEntries r kt vt es s s') :
    (RProg.loop es.length ((skip fuel kt).andThen (skip fuel vt)) q).run r s = q.run r s' := by
  induction es generalizing s with
  | nil => simp only [HoldsEntries] at h; rw [h]; rfl
  | cons e es ih =>
    obtain ⟨k, v⟩ := e
    simp only [HoldsEntries] at h
    obtain ⟨hk, hv, s3, s4, hk', hv', hr⟩ := h
    simp only [fuelOfEntries] at hf
    rw [List.length_cons, RProg.loop]
    obtain ⟨ihk, ihv⟩ := hall (k, v) (by simp)
    have ihk := ihk fuel (by show fuelOf k ≤ fuel; omega) s s3 hk'
    have ihv := ihv fuel (by show fuelOf v ≤ fuel; omega) s3 s4 hv'
    simp only at ihk ihv
    rw [hk] at ihk; rw [hv] at ihv
    rw [run_andThen ((run_andThen ihk).trans ihv)]
    exact ih (fun e he => hall e (by simp [he])) (by omega) s4 hr

theorem skipFields_holds (fs : List (Bytes × BitVec 16 × TVal)) (hall : ∀ f ∈ fs, SkipOK r f.2.2) (fuel : Nat)
    (hf : fuelOfFields fs ≤ fuel) (s s' s'' : S) (h : HoldsFields r fs s s') (h' : Gives r .structEnd s' () s'') :
    (skipFields fuel).run r s = .done (none, s'') := by
  induction fs generalizing s fuel with
  | nil =>
    simp only [HoldsFields] at h
    obtain ⟨h, h2, ht⟩ := h
    simp only [fuelOfFields] at hf
    obtain ⟨fuel, rfl⟩ := Nat.exists_eq_add_of_le' hf
    rw [skipFields, run_try' h2, if_pos ht]
    exact run_last h'
  | cons f fs ih =>
    obtain ⟨fn, id, v⟩ := f
    simp only [HoldsFields] at h
    obtain ⟨n, s3, s4, s5, hb, hv, he, hr⟩ := h
    simp only [fuelOfFields] at hf
    obtain ⟨fuel, rfl⟩ := Nat.exists_eq_add_of_le' (Nat.le_trans (Nat.le_add_left 1 _) hf)
    rw [skipFields, run_try' hb, if_neg (ty_ne_stop v)]
    have := hall (fn, id, v) (by simp) fuel (by show fuelOf v ≤ fuel; omega) s3 s4 hv
    rw [run_andThen this, run_try' he]
    exact ih (fun f hf => hall f (by simp [hf])) fuel (by omega) s5 hr

/-- Skipping a value the stream holds consumes exactly that value. -/
theorem skip_holds (t : TVal) : SkipOK r t := by
  induction t using TVal.ind with
  | hbool v => intro fuel hf s s' h; obtain ⟨fuel, rfl⟩ := Nat.exists_eq_add_of_le' hf; exact run_last h
  | hbyte v => intro fuel hf s s' h; obtain ⟨fuel, rfl⟩ := Nat.exists_eq_add_of_le' hf; exact run_last h
  | hdouble v => intro fuel hf s s' h; obtain ⟨fuel, rfl⟩ := Nat.exists_eq_add_of_le' hf; exact run_last h
  | hi16 v => intro fuel hf s s' h; obtain ⟨fuel, rfl⟩ := Nat.exists_eq_add_of_le' hf; exact run_last h
  | hi32 v => intro fuel hf s s' h; obtain ⟨fuel, rfl⟩ := Nat.exists_eq_add_of_le' hf; exact run_last h
  | hi64 v => intro fuel hf s s' h; obtain ⟨fuel, rfl⟩ := Nat.exists_eq_add_of_le' hf; exact run_last h
  | hstr raw v => intro fuel hf s s' h; obtain ⟨fuel, rfl⟩ := Nat.exists_eq_add_of_le' hf; exact run_last h.2.2
  | huuid v => intro fuel hf s s' h; obtain ⟨fuel, rfl⟩ := Nat.exists_eq_add_of_le' hf; exact run_last h.2
  | hstruct n fs hall =>
    intro fuel hf s s' h
    simp only [fuelOf] at hf
    obtain ⟨fuel, rfl⟩ := Nat.exists_eq_add_of_le' (Nat.le_trans (Nat.le_add_left 1 _) hf)
    simp only [Holds] at h
    obtain ⟨n', s1, s2, h1, h2, h3⟩ := h
    exact (run_try' h1 _).trans (skipFields_holds fs hall fuel (by omega) s1 s2 s' h2 h3)
  | hmap kt vt es hall =>
    intro fuel hf s s' h
    simp only [fuelOf] at hf
    obtain ⟨fuel, rfl⟩ := Nat.exists_eq_add_of_le' (Nat.le_trans (Nat.le_add_left 1 _) hf)
    simp only [Holds] at h
    obtain ⟨h, s1, s2, h1, h2, h3, h4, h5⟩ := h
    refine (run_try' h1 _).trans ?_
    rw [h2]
    by_cases he : es = []
    · subst he; simp only [HoldsEntries] at h4; rw [← h4]; exact run_last h5
    · obtain ⟨rfl, rfl⟩ := h3 he
      rw [skipEntries_holds _ _ es hall fuel (by omega) _ s1 s2 h4]
      exact run_last h5
  | hset et es hall =>
    intro fuel hf s s' h
    simp only [fuelOf] at hf
    obtain ⟨fuel, rfl⟩ := Nat.exists_eq_add_of_le' (Nat.le_trans (Nat.le_add_left 1 _) hf)
    simp only [Holds] at h
    obtain ⟨h, s1, s2, h1, h2, rfl, h4, h5⟩ := h
    refine (run_try' h1 _).trans ?_
    rw [h2, skipElems_holds _ es hall fuel (by omega) _ s1 s2 h4]
    exact run_last h5
  | hlist et es hall =>
    intro fuel hf s s' h
    simp only [fuelOf] at hf
    obtain ⟨fuel, rfl⟩ := Nat.exists_eq_add_of_le' (Nat.le_trans (Nat.le_add_left 1 _) hf)
    simp only [Holds] at h
    obtain ⟨h, s1, s2, h1, h2, rfl, h4, h5⟩ := h
    refine (run_try' h1 _).trans ?_
    rw [h2, skipElems_holds _ es hall fuel (by omega) _ s1 s2 h4]
    exact run_last h5

end

end GoThrift
