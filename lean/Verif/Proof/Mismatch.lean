import Verif.Proof.DecTotal
import Verif.Proof.Top

/-!
# A wire value with a mismatch is not decoded; Unmarshal at a wire value
-/

namespace GoThrift

open Spec Spec.TVal

theorem Spec.Decodes.wireType {env : Env} {tv : TVal} {t : TypeId} {old v : GoVal} (h : Decodes env t old tv v) : WireTypeOf env t tv.ty := by
  have key : ∀ (h : Decodes env t old tv v), WireTypeOf env t tv.ty := by
    apply Decodes.rec (motive_1 := fun t _ tv _ _ => WireTypeOf env t tv.ty) (motive_2 := fun _ _ _ _ _ _ => True) (motive_3 := fun _ _ _ _ _ => True)
    case bool => intro _ _ _ h; exact .bool h
    case f32 => intro _ _ _ h; exact .double (.inl h)
    case f64 => intro _ _ _ h; exact .double (.inr h)
    case byte => intro _ _ _ h; exact .byte h
    case i16 => intro _ _ _ h; exact .i16 h
    case i32 => intro _ _ _ h; exact .i32 h
    case i64 => intro _ _ _ h; exact .i64 h
    case string => intro _ _ _ _ h; exact .string h
    case bytes => intro _ _ _ _ _ h1 h2; exact .bytes h1 h2
    case uuid => intro _ _ _ h; exact .uuid h
    case ptr => intro _ _ _ _ _ h _ ih; exact .ptr h ih
    case ptrNil => intro _ _ _ _ h _ ih; exact .ptr h ih
    case mapEmpty => intro _ _ _ _ _ _ h _; exact .map h
    case map => intro _ _ _ _ _ _ _ _ h _ _ _ _; exact .map h
    case struct => intro _ _ _ _ _ _ h _ _ _; exact .struct h
    case seqNil =>
      intro t e w tv h1 h2 h3
      subst h3
      cases hs : (env.type t).isSet <;> simp only [Bool.false_eq_true, if_false, if_true]
      · exact .list h1 hs h2
      · exact .set h1 hs
    case seqEmpty =>
      intro t e w tv es sp h1 h2 h3
      subst h3
      cases hs : (env.type t).isSet <;> simp only [Bool.false_eq_true, if_false, if_true]
      · exact .list h1 hs h2
      · exact .set h1 hs
    case seq =>
      intro t e w tv tvs old es sp h1 h2 h3 _ _ _ _ _
      subst h3
      cases hs : (env.type t).isSet <;> simp only [Bool.false_eq_true, if_false, if_true]
      · exact .list h1 hs h2
      · exact .set h1 hs
    all_goals intros; trivial
  exact key h

theorem decodesFields_mem {env : Env} {fs : List FieldDecl} {vs vs' : List GoVal} {tfs : List (Bytes × BitVec 16 × TVal)} (h : DecodesFields env fs vs tfs vs')
    {tf : Bytes × BitVec 16 × TVal} (hm : tf ∈ tfs) {f : FieldDecl} (hf : f ∈ fs) {required : Bool} (hd : Declares env f tf.2.1 required) :
    ∃ (i : Nat) (g : FieldDecl) (r : Bool) (old v : GoVal), fs[i]? = some g ∧ Declares env g tf.2.1 r ∧ Decodes env g.typ old tf.2.2 v := by
  induction tfs generalizing vs with
  | nil => cases hm
  | cons tf0 tfs ih =>
    cases h with
    | unknown hu h =>
      rcases List.mem_cons.1 hm with rfl | hm
      · exact absurd hd (hu f hf required)
      · exact ih h hm
    | known h1 h2 h3 h4 h =>
      rcases List.mem_cons.1 hm with rfl | hm
      · exact ⟨_, _, _, _, _, h1, h2, h4⟩
      · exact ih h hm

theorem decodesEntries_mem {env : Env} {k e : TypeId} {es es' : List (GoVal × GoVal)} {tes : List (TVal × TVal)} (h : DecodesEntries env k e es tes es')
    {te : TVal × TVal} (hm : te ∈ tes) : ∃ x old v, Decodes env k (env.zero k) te.1 x ∧ Decodes env e old te.2 v := by
  induction tes generalizing es with
  | nil => cases hm
  | cons te0 tes ih =>
    cases h with
    | cons h1 h2 h =>
      rcases List.mem_cons.1 hm with rfl | hm
      · exact ⟨_, _, _, h1, h2⟩
      · exact ih h hm

/-- A wire value with a mismatch inside is not decoded to anything. -/
theorem Spec.Mismatch.not_decodes {env : Env} {t t' : TypeId} {tv : TVal} {bad : WType} (h : Mismatch env t tv bad t') :
    (∀ t', Within env t' t → DistinctIds env t') → ∀ old v, ¬ Decodes env t old tv v := by
  have part : ∀ {t e : TypeId}, (∀ t', Within env t' t → DistinctIds env t') → PartOf env e t → ∀ t', Within env t' e → DistinctIds env t' :=
    fun hd hp t' hw => hd t' (.step hw hp)
  induction h with
  | here hp hw => intro _ old v h; exact hw h.wireType
  | ptr hk _ ih =>
    intro hd old v h
    have hp := ih (part hd (by simp [PartOf, hk]))
    cases h with
    | ptr hk' h => rw [hk] at hk'; cases hk'; exact hp _ _ h
    | ptrNil hk' h => rw [hk] at hk'; cases hk'; exact hp _ _ h
    | _ => simp_all
  | @set t e t' w bad tv tvs hk hs hm _ ih =>
    intro hd old v h
    have hb : (env.type t).asBytes = false := by simp [GoType.asBytes, hs]
    have hp := ih (part hd (by simp [PartOf, hk, hb]))
    generalize hx : TVal.set w tvs = x at h
    cases h with
    | ptr hk' => rw [hk] at hk'; cases hk'
    | ptrNil hk' => rw [hk] at hk'; cases hk'
    | seqNil w' hk' _ he => rw [hs] at he; subst he; cases hx; cases hm
    | seqEmpty w' hk' _ he => rw [hs] at he; subst he; cases hx; cases hm
    | seq w' hk' _ he hne ho hl hall =>
      rw [hs] at he
      subst he
      cases hx
      rw [hk] at hk'
      cases hk'
      obtain ⟨i, hi⟩ := List.mem_iff_getElem?.1 hm
      have hi' := (List.getElem?_eq_some_iff.1 hi).1
      rw [← hl] at hi'
      exact hp _ _ (hall i tv _ hi (List.getElem?_eq_getElem hi'))
    | _ => cases hx
  | @list t e t' w bad tv tvs hk hs hb hm _ ih =>
    intro hd old v h
    have hp := ih (part hd (by simp [PartOf, hk, hb]))
    generalize hx : TVal.list w tvs = x at h
    cases h with
    | ptr hk' => rw [hk] at hk'; cases hk'
    | ptrNil hk' => rw [hk] at hk'; cases hk'
    | seqNil w' hk' _ he => rw [hs] at he; subst he; cases hx; cases hm
    | seqEmpty w' hk' _ he => rw [hs] at he; subst he; cases hx; cases hm
    | seq w' hk' _ he hne ho hl hall =>
      rw [hs] at he
      subst he
      cases hx
      rw [hk] at hk'
      cases hk'
      obtain ⟨i, hi⟩ := List.mem_iff_getElem?.1 hm
      have hi' := (List.getElem?_eq_some_iff.1 hi).1
      rw [← hl] at hi'
      exact hp _ _ (hall i tv _ hi (List.getElem?_eq_getElem hi'))
    | _ => cases hx
  | @key t k e t' kw ew bad te tes hk hm _ ih =>
    intro hd old v h
    have hp := ih (part hd (by simp [PartOf, hk]))
    generalize hx : TVal.map kw ew tes = x at h
    cases h with
    | ptr hk' => rw [hk] at hk'; cases hk'
    | ptrNil hk' => rw [hk] at hk'; cases hk'
    | mapEmpty _ _ hk' => cases hx; cases hm
    | map _ _ hk' _ _ h' =>
      cases hx
      rw [hk] at hk'
      cases hk'
      obtain ⟨x, old, v, h1, h2⟩ := decodesEntries_mem h' hm
      exact hp _ _ h1
    | seqNil _ hk' => rw [hk] at hk'; cases hk'
    | seqEmpty _ hk' => rw [hk] at hk'; cases hk'
    | seq _ hk' => rw [hk] at hk'; cases hk'
    | _ => cases hx
  | @value t k e t' kw ew bad te tes hk hm _ ih =>
    intro hd old v h
    have hp := ih (part hd (by simp [PartOf, hk]))
    generalize hx : TVal.map kw ew tes = x at h
    cases h with
    | ptr hk' => rw [hk] at hk'; cases hk'
    | ptrNil hk' => rw [hk] at hk'; cases hk'
    | mapEmpty _ _ hk' => cases hx; cases hm
    | map _ _ hk' _ _ h' =>
      cases hx
      rw [hk] at hk'
      cases hk'
      obtain ⟨x, old, v, h1, h2⟩ := decodesEntries_mem h' hm
      exact hp _ _ h2
    | seqNil _ hk' => rw [hk] at hk'; cases hk'
    | seqEmpty _ hk' => rw [hk] at hk'; cases hk'
    | seq _ hk' => rw [hk] at hk'; cases hk'
    | _ => cases hx
  | @field t t' fs nm bad tf tfs f required hk hm hf hdec _ ih =>
    intro hd old v h
    have hp := ih (part hd (by simpa [PartOf, hk] using ⟨f, hf, rfl⟩))
    generalize hx : TVal.struct nm tfs = x at h
    cases h with
    | ptr hk' => rw [hk] at hk'; cases hk'
    | ptrNil hk' => rw [hk] at hk'; cases hk'
    | struct _ hk' _ h' =>
      cases hx
      rw [hk] at hk'
      cases hk'
      obtain ⟨i, g, r, old, v, h1, h2, h3⟩ := decodesFields_mem h' hm hf hdec
      obtain ⟨j, hj⟩ := List.mem_iff_getElem?.1 hf
      have hij := hd t (.refl t) i j g f _ _ _ (by rw [fields_struct hk]; exact h1) (by rw [fields_struct hk]; exact hj) h2 hdec
      subst hij
      rw [h1] at hj
      cases hj
      exact hp _ _ h3
    | seqNil _ hk' => rw [hk] at hk'; cases hk'
    | seqEmpty _ hk' => rw [hk] at hk'; cases hk'
    | seq _ hk' => rw [hk] at hk'; cases hk'
    | _ => cases hx

/-! ## Unmarshal at a wire value -/

/-- If Unmarshal returns, the type has an arshaler. -/
theorem UnmarshalReturns.lookup {S : Type} {env : Env} {r : Rdr S} {p t : TypeId} {old : GoVal} {s s' : S} {e : Option Err} {x' : AnyVal}
    (h : UnmarshalReturns env r (.val p (.ptr old)) s e x' s') (hp : (env.type p).kind = .ptr t) : ∃ n a, lookupArshaler env n t = .done a := by
  obtain ⟨n, h⟩ := h
  have := h n (Nat.le_refl _)
  have he : env.elem? p = some t := by simp [Env.elem?, hp]
  simp only [Unmarshal, he, GoVal.pointee?] at this
  rcases lookup_total env n t with h' | ⟨a, h'⟩
  · rw [h'] at this; cases this
  · exact ⟨n, a, h'⟩

/-- What Unmarshal returns at a wire value is what decoding it gives. -/
theorem UnmarshalReturns.dec {S : Type} {env : Env} {r : Rdr S} {p t : TypeId} {old : GoVal} {s s' s1 : S} {e : Option Err} {x' : AnyVal} {tv : TVal}
    (h : UnmarshalReturns env r (.val p (.ptr old)) s e x' s1) (hp : (env.type p).kind = .ptr t) (hw : WireTypeOf env t tv.ty) (hh : Holds r tv s s') :
    ∃ n a m v, lookupArshaler env n t = .done a ∧ dec env m a old tv = .done (v, e) ∧ x' = .val p (.ptr v) ∧ (e = none → s1 = s') := by
  obtain ⟨n, a, hl⟩ := h.lookup hp
  obtain ⟨k, h⟩ := h
  have hrun := h (n + fuelOf tv + k) (by omega)
  have hm := Unmarshal_at hp hl (hw.lookup hl) hh old (n + fuelOf tv + k) (by omega) (by omega)
  rw [hrun] at hm
  cases hd : GoThrift.dec env (n + fuelOf tv + k) a old tv with
  | done x =>
    obtain ⟨v, e'⟩ := x
    rw [hd] at hm
    refine ⟨n, a, n + fuelOf tv + k, v, hl, ?_, ?_⟩
    · rw [hd]
      cases e' with
      | none => have hm : _ = _ := hm; cases hm; rfl
      | some err => obtain ⟨_, hm⟩ := hm; cases hm; rfl
    · cases e' with
      | none => have hm : _ = _ := hm; cases hm; exact ⟨rfl, fun _ => rfl⟩
      | some err => obtain ⟨_, hm⟩ := hm; cases hm; exact ⟨rfl, fun h => by cases h⟩
  | blocked => rw [hd] at hm; exact False.elim hm
  | diverged => rw [hd] at hm; have hm : _ = _ := hm; cases hm
  | panicked => rw [hd] at hm; have hm : _ = _ := hm; cases hm

/-- Conversely, if decoding ends, so does Unmarshal. -/
theorem UnmarshalReturns_of_dec' {S : Type} {r : Rdr S} {env : Env} {p t : TypeId} (hp : (env.type p).kind = .ptr t) {n : Nat} {a : Arsh} (hl : lookupArshaler env n t = .done a)
    {tv : TVal} (hty : a.wireType = tv.ty) {s s' : S} (h : Holds r tv s s') {old v' : GoVal} {m : Nat} {e : Option Err} (hd : dec env m a old tv = .done (v', e)) :
    ∃ s1, UnmarshalReturns env r (.val p (.ptr old)) s e (.val p (.ptr v')) s1 := by
  cases e with
  | none => exact ⟨s', UnmarshalReturns_of_dec hp hl hty h hd⟩
  | some err =>
    have key : ∀ fuel, n + fuelOf tv + m ≤ fuel → ∃ s1, (Unmarshal env fuel (.val p (.ptr old))).run r s = .done ((.val p (.ptr v'), some err), s1) := by
      intro fuel hf
      have := Unmarshal_at hp hl hty h old fuel (by omega) (by omega)
      rw [(dec_le env (show m ≤ fuel by omega) a old tv).done hd] at this
      exact this
    obtain ⟨s1, h1⟩ := key _ (Nat.le_refl _)
    exact ⟨s1, _, fun fuel hf => ((Unmarshal_le env _ fuel hf _).run r s).done h1⟩

end GoThrift
