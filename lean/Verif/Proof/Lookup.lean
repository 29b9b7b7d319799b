import Verif.Spec.Types
import Verif.Proof.Le

/-!
# Termination of lookupArshaler
-/

namespace GoThrift

open Spec

/-- lookupArshaler returns or runs out of fuel. -/
theorem lookup_total (env : Env) (fuel : Nat) (t : TypeId) : lookupArshaler env fuel t = .diverged ∨ ∃ a, lookupArshaler env fuel t = .done a := by
  induction fuel generalizing t with
  | zero => exact .inl rfl
  | succ fuel ih =>
    rw [lookupArshaler]
    have one : ∀ e (f : Arsh → Arsh), ((lookupArshaler env fuel e).bind fun ea => .done (f ea)) = .diverged ∨
        ∃ a, ((lookupArshaler env fuel e).bind fun ea => .done (f ea)) = .done a := by
      intro e f
      rcases ih e with h | ⟨a, h⟩
      · exact .inl (by rw [h]; rfl)
      · exact .inr ⟨f a, by rw [h]; rfl⟩
    split
    all_goals first
      | exact .inr ⟨_, rfl⟩
      | exact one _ _
      | skip
    · rename_i k e _
      rcases ih k with h | ⟨a, h⟩
      · exact .inl (by rw [h]; rfl)
      · rw [h]; exact one _ _
    · split
      · exact one _ _
      · split
        · exact one _ _
        · split
          · exact .inr ⟨_, rfl⟩
          · exact one _ _

/-- With arshalers for all parts there is one for the type. -/
theorem lookup_of_parts (env : Env) (fuel : Nat) (t : TypeId) (h : ∀ t', InPart env t' t → ∃ a, lookupArshaler env fuel t' = .done a) :
    ∃ a, lookupArshaler env (fuel + 1) t = .done a := by
  rw [lookupArshaler]
  have one : ∀ e (f : Arsh → Arsh), (∃ a, lookupArshaler env fuel e = .done a) →
      ∃ a, ((lookupArshaler env fuel e).bind fun ea => .done (f ea)) = .done a := by
    rintro e f ⟨a, h⟩
    exact ⟨f a, by rw [h]; rfl⟩
  have hs : ∀ {k}, (env.type t).kind = k → (∀ fs, k ≠ .struct fs) → ¬ IsStruct env t := by
    rintro k hk hn ⟨fs, hfs⟩
    exact hn fs (hk ▸ hfs)
  split
  all_goals first
    | exact ⟨_, rfl⟩
    | skip
  · rename_i k e hk
    obtain ⟨ka, h1⟩ := h k ⟨by rw [PartOf, hk]; exact .inl rfl, hs hk (fun _ => by simp)⟩
    rw [h1]
    exact one _ _ (h e ⟨by rw [PartOf, hk]; exact .inr rfl, hs hk (fun _ => by simp)⟩)
  · rename_i e hk
    by_cases hb : (env.type t).asBytes = true
    · rw [GoType.asBytes] at hb
      simp only [Bool.and_eq_true, Bool.not_eq_true'] at hb
      rw [if_neg (by rw [hb.1.1]; simp), if_neg (by rw [hb.1.2]; simp), if_pos hb.2]
      exact ⟨_, rfl⟩
    · have he := h e ⟨by rw [PartOf, hk]; exact ⟨by simpa using hb, rfl⟩, hs hk (fun _ => by simp)⟩
      split
      · exact one _ _ he
      · split
        · exact one _ _ he
        · split
          · exact ⟨_, rfl⟩
          · exact one _ _ he
  · rename_i e hk
    exact one _ _ (h e ⟨by rw [PartOf, hk], hs hk (fun _ => by simp)⟩)

/-- An arshaler for a type was made from arshalers for all parts. -/
theorem parts_of_lookup (env : Env) (fuel : Nat) (t : TypeId) (a : Arsh) (h : lookupArshaler env (fuel + 1) t = .done a) (t' : TypeId)
    (ht : InPart env t' t) : ∃ a, lookupArshaler env fuel t' = .done a := by
  obtain ⟨hp, hs⟩ := ht
  rw [lookupArshaler] at h
  have one : ∀ e (f : Arsh → Out Arsh), ((lookupArshaler env fuel e).bind f) = .done a →
      ∃ a, lookupArshaler env fuel e = .done a := by
    intro e f h
    rcases lookup_total env fuel e with h' | h'
    · rw [h'] at h; cases h
    · exact h'
  rw [PartOf] at hp
  split at hp
  · rename_i k e hk
    rw [hk] at h
    dsimp only at h
    have h1 := one _ _ h
    rcases hp with rfl | rfl
    · exact h1
    · obtain ⟨ka, h1⟩ := h1
      rw [h1] at h
      exact one _ _ h
  · rename_i e hk
    obtain ⟨hb, rfl⟩ := hp
    rw [hk] at h
    dsimp only at h
    split at h
    · exact one _ _ h
    · split at h
      · exact one _ _ h
      · split at h
        · rename_i h1 h2 h3
          rw [GoType.asBytes, h3] at hb
          simp_all
        · exact one _ _ h
  · rename_i e hk
    subst hp
    rw [hk] at h
    exact one _ _ h
  · rename_i fs hk
    exact absurd ⟨fs, hk⟩ hs
  · cases hp

theorem lookup_iff_acc (env : Env) (t : TypeId) : (∃ fuel a, lookupArshaler env fuel t = .done a) ↔ Acc (InPart env) t := by
  constructor
  · rintro ⟨fuel, a, h⟩
    induction fuel generalizing t a with
    | zero => cases h
    | succ fuel ih =>
      refine ⟨t, fun t' ht => ?_⟩
      obtain ⟨a', h'⟩ := parts_of_lookup env fuel t a h t' ht
      exact ih t' a' h'
  · intro h
    induction h with
    | intro t _ ih =>
      -- a type has at most two parts, so finitely many bounds have a maximum
      have : ∃ fuel, ∀ t', InPart env t' t → ∃ a, lookupArshaler env fuel t' = .done a := by
        have mono : ∀ {n m t' a}, n ≤ m → lookupArshaler env n t' = .done a → lookupArshaler env m t' = .done a :=
          fun hnm h => (lookupArshaler_le env _ _ hnm _).done h
        by_cases hone : ∃ e, ∀ t', InPart env t' t → t' = e
        · obtain ⟨e, he⟩ := hone
          by_cases hin : InPart env e t
          · obtain ⟨n, a, h⟩ := ih e hin
            exact ⟨n, fun t' ht' => by rw [he t' ht']; exact ⟨a, h⟩⟩
          · exact ⟨0, fun t' ht' => absurd (he t' ht' ▸ ht') hin⟩
        · cases hk : (env.type t).kind with
          | map k e =>
            have hs : ¬ IsStruct env t := by rintro ⟨fs, h⟩; rw [hk] at h; cases h
            obtain ⟨n, a, h1⟩ := ih k ⟨by rw [PartOf, hk]; exact .inl rfl, hs⟩
            obtain ⟨m, b, h2⟩ := ih e ⟨by rw [PartOf, hk]; exact .inr rfl, hs⟩
            refine ⟨max n m, fun t' ht' => ?_⟩
            have ht' := ht'.1
            rw [PartOf, hk] at ht'
            rcases ht' with rfl | rfl
            · exact ⟨a, mono (Nat.le_max_left _ _) h1⟩
            · exact ⟨b, mono (Nat.le_max_right _ _) h2⟩
          | slice e => exact absurd ⟨e, fun t' ht' => by have := ht'.1; rw [PartOf, hk] at this; exact this.2⟩ hone
          | ptr e => exact absurd ⟨e, fun t' ht' => by have := ht'.1; rw [PartOf, hk] at this; exact this⟩ hone
          | struct fs => exact ⟨0, fun t' ht' => absurd ⟨fs, hk⟩ ht'.2⟩
          | _ => exact ⟨0, fun t' ht' => by have := ht'.1; rw [PartOf, hk] at this; exact this.elim⟩
      obtain ⟨fuel, h⟩ := this
      exact ⟨fuel + 1, lookup_of_parts env fuel t h⟩

theorem Inside.trans {env : Env} {a b c : TypeId} (h1 : Inside env a b) (h2 : Inside env b c) : Inside env a c := by
  induction h1 with
  | refl => exact h2
  | step h _ ih => exact .step h (ih h2)

theorem Inside.acc {env : Env} {t' t : TypeId} (h : Inside env t' t) (ha : Acc (InPart env) t) : Acc (InPart env) t' := by
  induction h with
  | refl => exact ha
  | step h _ ih => exact (ih ha).inv h

theorem Inside.head {env : Env} {a b : TypeId} (h : Inside env a b) : a = b ∨ ∃ b', InPart env b' b ∧ Inside env a b' := by
  induction h with
  | refl => exact .inl rfl
  | @step a a' b h _ ih =>
    rcases ih with rfl | ⟨b', k1, k2⟩
    · exact .inr ⟨a, h, .refl _⟩
    · exact .inr ⟨b', k1, .step h k2⟩

/-- A self-containing type is not accessible. -/
theorem SelfContaining.not_acc {env : Env} {t : TypeId} (h : SelfContaining env t) : ¬ Acc (InPart env) t := by
  intro ha
  induction ha with
  | intro t _ ih =>
    obtain ⟨t', h1, h2⟩ := h
    rcases Inside.head h2 with rfl | ⟨b', k1, k2⟩
    · exact ih t h1 ⟨t, h1, .refl t⟩
    · exact ih t' h1 ⟨b', k1, .step h1 k2⟩

/-- Among finitely many types: if none inside `t` contains itself, `t` is accessible. -/
theorem acc_of_acyclic {env : Env} (l : List TypeId) (t : TypeId) (hl : ∀ t', Inside env t' t → t' ∈ l)
    (h : ∀ t', Inside env t' t → ¬ SelfContaining env t') : Acc (InPart env) t := by
  -- by induction on how many types of the list are inside
  induction hn : l.length generalizing l t with
  | zero =>
    cases l with
    | nil => exact absurd (hl t (.refl t)) (by simp)
    | cons a l => cases hn
  | succ n ih =>
    refine ⟨t, fun t' ht' => ?_⟩
    have hin : Inside env t' t := .step ht' (.refl t)
    refine ih (l.erase t) t' (fun t'' ht'' => ?_) (fun t'' ht'' => h t'' (Inside.trans ht'' hin)) ?_
    · have hm := hl t'' (Inside.trans ht'' hin)
      by_cases he : t'' = t
      · subst he
        exact absurd ⟨t', ht', ht''⟩ (h t'' (.refl t''))
      · exact (List.mem_erase_of_ne he).2 hm
    · rw [List.length_erase_of_mem (hl t (.refl t)), hn]
      rfl

end GoThrift
