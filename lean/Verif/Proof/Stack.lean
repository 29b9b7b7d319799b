import Verif.Model.Stack
import Verif.Spec.Depth
import Verif.Proof.Robust

/-!
# Skip on a stack of limited size
-/

namespace GoThrift

open Spec Spec.TVal

section
variable {S : Type} {r : Rdr S}

/-! ## Values that the stream holds: exactly the depth of the value is needed -/

theorem run_andThen_panicked {p q : RProg (Option Err)} {s : S} (h : p.run r s = .panicked) : (p.andThen q).run r s = .panicked := by
  rw [RProg.andThen, RProg.run_bind, h]
  rfl

/-- The program returns without an error in `s'` if there is room, and panics if not. -/
def Fits (r : Rdr S) (n d : Nat) (p : RProg (Option Err)) (s s' : S) : Prop := (n ≤ d → p.run r s = .done (none, s')) ∧ (d < n → p.run r s = .panicked)

/-- The induction statement of `skipS_holds`. -/
def SkipFits (r : Rdr S) (t : TVal) : Prop := ∀ (fuel d : Nat), fuelOf t ≤ fuel → ∀ (s s' : S), Holds r t s s' → Fits r (depth t) d (skipS fuel d t.ty) s s'

theorem skipElems_fits (et : WType) (es : List TVal) (hall : ∀ e ∈ es, SkipFits r e) (fuel d : Nat) (hf : fuelOfElems es ≤ fuel) {o : ROp} {a : o.Ans} (s s' s'' : S)
    (h : HoldsElems r et es s s') (ho : Gives r o s' a s'') : Fits r (depthElems es) d (RProg.loop es.length (skipS fuel d et) (.last o)) s s'' := by
  induction es generalizing s with
  | nil =>
    simp only [HoldsElems] at h
    subst h
    exact ⟨fun _ => run_last ho, fun h => nomatch h⟩
  | cons e es ih =>
    simp only [HoldsElems] at h
    obtain ⟨ht, s1, h1, h2⟩ := h
    simp only [fuelOfElems] at hf
    simp only [depthElems]
    rw [List.length_cons, RProg.loop]
    obtain ⟨j1, j2⟩ := hall e (by simp) fuel d (by omega) s s1 h1
    obtain ⟨i1, i2⟩ := ih (fun e he => hall e (by simp [he])) (by omega) s1 h2
    rw [ht] at j1 j2
    constructor
    · intro hd
      rw [run_andThen (j1 (by omega))]
      exact i1 (by omega)
    · intro hd
      by_cases hd' : d < depth e
      · exact run_andThen_panicked (j2 hd')
      · rw [run_andThen (j1 (by omega))]
        exact i2 (by omega)

theorem skipEntries_fits (kt vt : WType) (es : List (TVal × TVal)) (hall : ∀ e ∈ es, SkipFits r e.1 ∧ SkipFits r e.2) (fuel d : Nat) (hf : fuelOfEntries es ≤ fuel) {o : ROp} {a : o.Ans}
    (s s' s'' : S) (h : HoldsEntries r kt vt es s s') (ho : Gives r o s' a s'') :
    Fits r (depthEntries es) d (RProg.loop es.length ((skipS fuel d kt).andThen (skipS fuel d vt)) (.last o)) s s'' := by
  induction es generalizing s with
  | nil =>
    simp only [HoldsEntries] at h
    subst h
    exact ⟨fun _ => run_last ho, fun h => nomatch h⟩
  | cons e es ih =>
    obtain ⟨k, v⟩ := e
    simp only [HoldsEntries] at h
    obtain ⟨hk, hv, s3, s4, hk', hv', hr⟩ := h
    simp only [fuelOfEntries] at hf
    simp only [depthEntries]
    rw [List.length_cons, RProg.loop]
    obtain ⟨ihk, ihv⟩ := hall (k, v) (by simp)
    obtain ⟨k1, k2⟩ := ihk fuel d (by show fuelOf k ≤ fuel; omega) s s3 hk'
    obtain ⟨v1, v2⟩ := ihv fuel d (by show fuelOf v ≤ fuel; omega) s3 s4 hv'
    obtain ⟨i1, i2⟩ := ih (fun e he => hall e (by simp [he])) (by omega) s4 hr
    simp only at k1 k2 v1 v2
    rw [hk] at k1 k2
    rw [hv] at v1 v2
    constructor
    · intro hd
      rw [run_andThen ((run_andThen (k1 (by omega))).trans (v1 (by omega)))]
      exact i1 (by omega)
    · intro hd
      by_cases hd' : d < depth k
      · exact run_andThen_panicked (run_andThen_panicked (k2 hd'))
      · by_cases hd'' : d < depth v
        · exact run_andThen_panicked ((run_andThen (k1 (by omega))).trans (v2 hd''))
        · rw [run_andThen ((run_andThen (k1 (by omega))).trans (v1 (by omega)))]
          exact i2 (by omega)

theorem skipFields_fits (fs : List (Bytes × BitVec 16 × TVal)) (hall : ∀ f ∈ fs, SkipFits r f.2.2) (fuel d : Nat) (hf : fuelOfFields fs ≤ fuel) (s s' s'' : S) (h : HoldsFields r fs s s')
    (h' : Gives r .structEnd s' () s'') : Fits r (depthFields fs) d (skipFieldsS fuel d) s s'' := by
  induction fs generalizing s fuel with
  | nil =>
    simp only [HoldsFields] at h
    obtain ⟨h, h2, ht⟩ := h
    simp only [fuelOfFields] at hf
    obtain ⟨fuel, rfl⟩ := Nat.exists_eq_add_of_le' hf
    refine ⟨fun _ => ?_, fun h => nomatch h⟩
    rw [skipFieldsS, run_try' h2, if_pos ht]
    exact run_last h'
  | cons f fs ih =>
    obtain ⟨fn, id, v⟩ := f
    simp only [HoldsFields] at h
    obtain ⟨n, s3, s4, s5, hb, hv, he, hr⟩ := h
    simp only [fuelOfFields] at hf
    obtain ⟨fuel, rfl⟩ := Nat.exists_eq_add_of_le' (Nat.le_trans (Nat.le_add_left 1 _) hf)
    simp only [depthFields]
    unfold Fits
    rw [skipFieldsS, run_try' hb, if_neg (ty_ne_stop v)]
    obtain ⟨j1, j2⟩ := hall (fn, id, v) (by simp) fuel d (by show fuelOf v ≤ fuel; omega) s3 s4 hv
    obtain ⟨i1, i2⟩ := ih (fun f hf => hall f (by simp [hf])) fuel (by omega) s5 hr
    simp only at j1 j2
    constructor
    · intro hd
      rw [run_andThen (j1 (by omega)), run_try' he]
      exact i1 (by omega)
    · intro hd
      by_cases hd' : d < depth v
      · exact run_andThen_panicked (j2 hd')
      · rw [run_andThen (j1 (by omega)), run_try' he]
        exact i2 (by omega)

/-- One frame more. -/
theorem fits_succ {n fuel : Nat} {t : WType} {p : Nat → RProg (Option Err)} {s s' : S} (hp : ∀ d, skipS (fuel + 1) (d + 1) t = p d) (h : ∀ d, Fits r n d (p d) s s') (d : Nat) :
    Fits r (n + 1) d (skipS (fuel + 1) d t) s s' := by
  cases d with
  | zero => exact ⟨fun h => absurd h (by omega), fun _ => rfl⟩
  | succ d =>
    unfold Fits
    rw [hp]
    exact ⟨fun hd => (h d).1 (by omega), fun hd => (h d).2 (by omega)⟩

theorem fits_last {o : ROp} {a : o.Ans} {s s' : S} (h : Gives r o s a s') (d : Nat) : Fits r 0 d (.last o) s s' := ⟨fun _ => run_last h, fun h => nomatch h⟩

theorem fits_try {o : ROp} {a : o.Ans} {s s1 s' : S} (h : Gives r o s a s1) {k : o.Ans → RProg (Option Err)} {n d : Nat} (hk : Fits r n d (k a) s1 s') : Fits r n d (.try' o k) s s' := by
  unfold Fits
  rw [run_try' h]
  exact hk

theorem skipS_holds (t : TVal) : SkipFits r t := by
  induction t using TVal.ind with
  | hbool v => intro fuel d hf s s' h; obtain ⟨fuel, rfl⟩ := Nat.exists_eq_add_of_le' hf; exact fits_succ (fun _ => by rw [skipS]; rfl) (fits_last h) d
  | hbyte v => intro fuel d hf s s' h; obtain ⟨fuel, rfl⟩ := Nat.exists_eq_add_of_le' hf; exact fits_succ (fun _ => by rw [skipS]; rfl) (fits_last h) d
  | hdouble v => intro fuel d hf s s' h; obtain ⟨fuel, rfl⟩ := Nat.exists_eq_add_of_le' hf; exact fits_succ (fun _ => by rw [skipS]; rfl) (fits_last h) d
  | hi16 v => intro fuel d hf s s' h; obtain ⟨fuel, rfl⟩ := Nat.exists_eq_add_of_le' hf; exact fits_succ (fun _ => by rw [skipS]; rfl) (fits_last h) d
  | hi32 v => intro fuel d hf s s' h; obtain ⟨fuel, rfl⟩ := Nat.exists_eq_add_of_le' hf; exact fits_succ (fun _ => by rw [skipS]; rfl) (fits_last h) d
  | hi64 v => intro fuel d hf s s' h; obtain ⟨fuel, rfl⟩ := Nat.exists_eq_add_of_le' hf; exact fits_succ (fun _ => by rw [skipS]; rfl) (fits_last h) d
  | hstr raw v => intro fuel d hf s s' h; obtain ⟨fuel, rfl⟩ := Nat.exists_eq_add_of_le' hf; exact fits_succ (fun _ => by rw [skipS]; rfl) (fits_last h.2.2) d
  | huuid v => intro fuel d hf s s' h; obtain ⟨fuel, rfl⟩ := Nat.exists_eq_add_of_le' hf; exact fits_succ (fun _ => by rw [skipS]; rfl) (fits_last h.2) d
  | hstruct n fs hall =>
    intro fuel d hf s s' h
    simp only [fuelOf] at hf
    obtain ⟨fuel, rfl⟩ := Nat.exists_eq_add_of_le' (Nat.le_trans (Nat.le_add_left 1 _) hf)
    simp only [Holds] at h
    obtain ⟨n', s1, s2, h1, h2, h3⟩ := h
    exact fits_succ (fun _ => by rw [skipS]; rfl) (fun d => fits_try h1 (skipFields_fits fs hall fuel d (by omega) s1 s2 s' h2 h3)) d
  | hmap kt vt es hall =>
    intro fuel d hf s s' h
    simp only [fuelOf] at hf
    obtain ⟨fuel, rfl⟩ := Nat.exists_eq_add_of_le' (Nat.le_trans (Nat.le_add_left 1 _) hf)
    simp only [Holds] at h
    obtain ⟨h, s1, s2, h1, h2, h3, h4, h5⟩ := h
    refine fits_succ (fun _ => by rw [skipS]; rfl) (fun d => fits_try h1 ?_) d
    show Fits r _ d (RProg.loop (loopCount h.size) _ _) s1 s'
    rw [h2]
    by_cases he : es = []
    · subst he
      simp only [HoldsEntries] at h4
      rw [← h4]
      exact fits_last h5 d
    · obtain ⟨rfl, rfl⟩ := h3 he
      exact skipEntries_fits _ _ es hall fuel d (by omega) s1 s2 s' h4 h5
  | hset et es hall =>
    intro fuel d hf s s' h
    simp only [fuelOf] at hf
    obtain ⟨fuel, rfl⟩ := Nat.exists_eq_add_of_le' (Nat.le_trans (Nat.le_add_left 1 _) hf)
    simp only [Holds] at h
    obtain ⟨h, s1, s2, h1, h2, rfl, h4, h5⟩ := h
    refine fits_succ (fun _ => by rw [skipS]; rfl) (fun d => fits_try h1 ?_) d
    show Fits r _ d (RProg.loop (loopCount h.size) _ _) s1 s'
    rw [h2]
    exact skipElems_fits _ es hall fuel d (by omega) s1 s2 s' h4 h5
  | hlist et es hall =>
    intro fuel d hf s s' h
    simp only [fuelOf] at hf
    obtain ⟨fuel, rfl⟩ := Nat.exists_eq_add_of_le' (Nat.le_trans (Nat.le_add_left 1 _) hf)
    simp only [Holds] at h
    obtain ⟨h, s1, s2, h1, h2, rfl, h4, h5⟩ := h
    refine fits_succ (fun _ => by rw [skipS]; rfl) (fun d => fits_try h1 ?_) d
    show Fits r _ d (RProg.loop (loopCount h.size) _ _) s1 s'
    rw [h2]
    exact skipElems_fits _ es hall fuel d (by omega) s1 s2 s' h4 h5

/-! ## Any bytes: the length of the input is enough -/

variable {Good : S → Prop} {Φ : S → Nat}

/-- The least number of bytes behind which `Skip` may call itself. -/
def ROp.deepens : ROp → Nat
  | .fieldBegin | .mapBegin | .setBegin | .listBegin => 1
  | _ => 0

/-- Calls return, and a successful call behind which `Skip` may call itself lowers `Φ`. -/
def Lowers (r : Rdr S) (Good : S → Prop) (Φ : S → Nat) : Prop :=
  ∀ (o : ROp) (s : S), Good s → ∃ x s', r.step o s = .done (x, s') ∧ Good s' ∧ ∀ a, x = .ok a → Φ s' + o.deepens ≤ Φ s

/-- The two programs do the same from `s`, and if they succeed, the resource has not grown. -/
def Agree (r : Rdr S) (Good : S → Prop) (Φ : S → Nat) (p' p : RProg (Option Err)) (s : S) : Prop :=
  p'.run r s = p.run r s ∧ ∀ s', p.run r s = .done (none, s') → Good s' ∧ Φ s' ≤ Φ s

theorem agree_ret (e : Err) (s : S) : Agree r Good Φ (.ret (some e)) (.ret (some e)) s := ⟨rfl, fun s' h => by cases h⟩

theorem agree_diverge (s : S) : Agree r Good Φ .diverge .diverge s := ⟨rfl, fun s' h => by cases h⟩

theorem agree_try (hm : Lowers r Good Φ) (o : ROp) {k' k : o.Ans → RProg (Option Err)} {s : S} (hs : Good s) (h : ∀ a s', Good s' → Φ s' + o.deepens ≤ Φ s → Agree r Good Φ (k' a) (k a) s') :
    Agree r Good Φ (.try' o k') (.try' o k) s := by
  obtain ⟨x, s', h1, h2, h3⟩ := hm o s hs
  have run : ∀ k : o.Ans → RProg (Option Err), (RProg.try' o k).run r s = (match x with | .ok a => k a | .error e => .ret (some e)).run r s' := fun k => by
    rw [RProg.try', RProg.run, h1]
    rfl
  unfold Agree
  rw [run, run]
  cases x with
  | error e => exact ⟨rfl, fun s2 h => (by cases h)⟩
  | ok a =>
    have h3 := h3 a rfl
    obtain ⟨j1, j2⟩ := h a s' h2 h3
    exact ⟨j1, fun s2 hs2 => ⟨(j2 s2 hs2).1, by have := (j2 s2 hs2).2; omega⟩⟩

theorem agree_last (hm : Lowers r Good Φ) (o : ROp) {s : S} (hs : Good s) : Agree r Good Φ (.last o) (.last o) s := by
  obtain ⟨x, s', h1, h2, h3⟩ := hm o s hs
  refine ⟨rfl, fun s2 h => ?_⟩
  rw [RProg.last, RProg.run, h1] at h
  cases x with
  | error e => cases h
  | ok a =>
    cases h
    have := h3 a rfl
    exact ⟨h2, by show Φ s' ≤ Φ s; omega⟩

theorem agree_andThen {p' p q' q : RProg (Option Err)} {s : S} (hp : Agree r Good Φ p' p s) (hq : ∀ s', Good s' → Φ s' ≤ Φ s → Agree r Good Φ q' q s') :
    Agree r Good Φ (p'.andThen q') (p.andThen q) s := by
  obtain ⟨h1, h2⟩ := hp
  unfold Agree
  simp only [RProg.andThen, RProg.run_bind]
  rw [h1]
  cases e : p.run r s with
  | done x =>
    obtain ⟨x, s'⟩ := x
    rw [Out.bind_done, Out.bind_done]
    cases x with
    | some e => exact ⟨rfl, fun s2 h => (by cases h)⟩
    | none =>
      obtain ⟨g, l⟩ := h2 s' e
      obtain ⟨j1, j2⟩ := hq s' g l
      exact ⟨j1, fun s2 hs2 => ⟨(j2 s2 hs2).1, by have := (j2 s2 hs2).2; omega⟩⟩
  | blocked => exact ⟨rfl, fun s' h => by cases h⟩
  | diverged => exact ⟨rfl, fun s' h => by cases h⟩
  | panicked => exact ⟨rfl, fun s' h => by cases h⟩

theorem agree_loop {p' p q' q : RProg (Option Err)} (n : Nat) {s : S} (hs : Good s) (hp : ∀ s', Good s' → Φ s' ≤ Φ s → Agree r Good Φ p' p s')
    (hq : ∀ s', Good s' → Φ s' ≤ Φ s → Agree r Good Φ q' q s') : Agree r Good Φ (.loop n p' q') (.loop n p q) s := by
  induction n generalizing s with
  | zero => exact hq s hs (Nat.le_refl _)
  | succ n ih =>
    exact agree_andThen (hp s hs (Nat.le_refl _)) fun s1 hs1 hl => ih hs1 (fun s2 hs2 hl2 => hp s2 hs2 (Nat.le_trans hl2 hl)) fun s2 hs2 hl2 => hq s2 hs2 (Nat.le_trans hl2 hl)

theorem agree_ite {c : Prop} [Decidable c] {p' p q' q : RProg (Option Err)} {s : S} (hp : Agree r Good Φ p' p s) (hq : Agree r Good Φ q' q s) :
    Agree r Good Φ (if c then p' else q') (if c then p else q) s := by
  by_cases h : c
  · rw [if_pos h, if_pos h]; exact hp
  · rw [if_neg h, if_neg h]; exact hq

theorem skipS_agree (hm : Lowers r Good Φ) (fuel : Nat) :
    (∀ d s t, Good s → Φ s < d → Agree r Good Φ (skipS fuel d t) (skip fuel t) s) ∧ ∀ d s, Good s → Φ s ≤ d → Agree r Good Φ (skipFieldsS fuel d) (skipFields fuel) s := by
  induction fuel with
  | zero =>
    refine ⟨fun d s t _ _ => ?_, fun d s _ _ => ?_⟩
    · rw [skipS, skip]
      exact agree_diverge s
    · rw [skipFieldsS, skipFields]
      exact agree_diverge s
  | succ fuel ih =>
    obtain ⟨ih1, ih2⟩ := ih
    constructor
    · intro d s t hs hd
      obtain ⟨d, rfl⟩ : ∃ e, d = e + 1 := ⟨d - 1, by omega⟩
      have last : ∀ o, Agree r Good Φ (.last o) (.last o) s := fun o => agree_last hm o hs
      rw [skipS, skip]
      refine agree_ite (last _) <| agree_ite (last _) <| agree_ite (last _) <| agree_ite (last _) <| agree_ite (last _) <| agree_ite (last _) <| agree_ite (last _) <| agree_ite ?_ <|
        agree_ite ?_ <| agree_ite ?_ <| agree_ite ?_ <| agree_ite (last _) (agree_ret _ s)
      · refine agree_try hm _ hs fun _ s' hs' hl => ih2 d s' hs' ?_
        omega
      · refine agree_try hm _ hs fun h s' hs' hl => ?_
        have hl : Φ s' + 1 ≤ Φ s := hl
        refine agree_loop _ hs' (fun s2 hs2 hl2 => agree_andThen (ih1 d s2 _ hs2 (by omega)) fun s3 hs3 hl3 => ih1 d s3 _ hs3 (by omega)) fun s2 hs2 _ => agree_last hm _ hs2
      · refine agree_try hm _ hs fun h s' hs' hl => ?_
        have hl : Φ s' + 1 ≤ Φ s := hl
        exact agree_loop _ hs' (fun s2 hs2 hl2 => ih1 d s2 _ hs2 (by omega)) fun s2 hs2 _ => agree_last hm _ hs2
      · refine agree_try hm _ hs fun h s' hs' hl => ?_
        have hl : Φ s' + 1 ≤ Φ s := hl
        exact agree_loop _ hs' (fun s2 hs2 hl2 => ih1 d s2 _ hs2 (by omega)) fun s2 hs2 _ => agree_last hm _ hs2
    · intro d s hs hd
      rw [skipFieldsS, skipFields]
      refine agree_try hm _ hs fun h s' hs' hl => ?_
      have hl : Φ s' + 1 ≤ Φ s := hl
      refine agree_ite (agree_last hm _ hs') (agree_andThen (ih1 d s' _ hs' (by omega)) fun s2 hs2 hl2 => ?_)
      exact agree_try hm _ hs2 fun _ s3 hs3 hl3 => ih2 d s3 hs3 (by omega)

end

/-! ## The readers -/

theorem ROp.deepens_le (o : ROp) : o.deepens ≤ o.least ∧ (o.deepens = 1 → o ≠ .bool) := by
  cases o <;> simp [ROp.deepens, ROp.least]

theorem lowers_of_tame {C : Type} {r : Rdr (C × Flat)} {J : ROp → C → C → Nat → Prop} (ht : TameReader r J) (hJ : ∀ o c c' n, J o c c' n → o.deepens ≤ n) :
    Lowers r Ends fun s => s.2.bytes.length := by
  rintro o ⟨c, ⟨size, bytes, fin⟩⟩ ⟨hs, e, rfl⟩
  obtain ⟨x, c', used, rest, h1, h2, h3⟩ := ht o size hs c bytes e
  refine ⟨x, _, h2, ⟨hs, e, rfl⟩, fun a ha => ?_⟩
  have := hJ _ _ _ _ (h3 a ha).1
  simp only [h1, List.length_append]
  omega

theorem Binary.lowers (strict : Bool) : Lowers (reader strict) Ends fun s => s.2.bytes.length :=
  lowers_of_tame (tameReader strict) fun o c c' n h => Nat.le_trans o.deepens_le.1 h.2

theorem Compact.lowers : Lowers reader Ends fun s => s.2.bytes.length :=
  lowers_of_tame tameReader fun o c c' n h => by
    rcases Nat.eq_zero_or_pos o.deepens with h0 | h0
    · omega
    · have h1 : o.deepens = 1 := by cases o <;> simp [ROp.deepens] at h0 ⊢
      exact Nat.le_trans o.deepens_le.1 (h.2 (o.deepens_le.2 h1))

/-! ## Nested lists -/

theorem nest_ty (n : Nat) : (nest n).ty = Ty.list := by cases n <;> rfl

theorem nest_depth (n : Nat) : depth (nest n) = n + 1 := by
  induction n with
  | zero => rfl
  | succ n ih => simp [nest, depth, depthElems, ih]

theorem nest_wf (lim : Nat) (h : 1 ≤ lim) (n : Nat) : WF lim (nest n) ∧ TypesOK (nest n) := by
  induction n with
  | zero => simp [nest, WF, WFElems, TypesOK, TypesOKElems, ValidTy]
  | succ n ih => simp [nest, WF, WFElems, TypesOK, TypesOKElems, ValidTy, nest_ty, ih, h]

theorem nest_binary (n : Nat) : (encBin (nest n)).length = 5 * (n + 1) := by
  induction n with
  | zero => rfl
  | succ n ih =>
    simp only [nest, encBin, encBinElems, List.length_append, List.length_nil, ih]
    rw [show (be 4 [nest n].length).length = 4 from rfl]
    simp
    omega

theorem nest_compact (n : Nat) : (encCompact (nest n)).length = n + 1 := by
  induction n with
  | zero => rfl
  | succ n ih =>
    simp only [nest, encCompact, encCompactElems, List.length_append, List.length_nil, ih]
    simp [compactListHeader]
    omega

end GoThrift
