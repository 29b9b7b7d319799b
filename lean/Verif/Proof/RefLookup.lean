import Verif.Proof.Refine
import Verif.Proof.Lookup

/-!
# lookupArshaler among other goroutines
-/

namespace GoThrift

open Spec

variable {env : Env} {T : Prop} {i : Nat}

theorem Out.toC_bind {α β : Type} (x : Out α) (f : α → Out β) : (x.bind f).toC = x.elim .panic .diverge fun a => (f a).toC := by
  cases x <;> rfl

theorem Out.toC_bind_ret {α : Type} (x : Out α) : x.toC.bind .ret = x.toC := by
  cases x <;> rfl

/-- The arshaler at `p` is the one lookupArshaler makes for `t`. -/
def Found (env : Env) (i : Nat) (t : TypeId) (H : Option Ptr) (s : Shared) (p : Ptr) (a : Arsh) : Prop :=
  Denotes s p a ∧ (∃ fuel, lookupArshaler env fuel t = .done a) ∧ Hold i H s

/-- The same of an arshaler that is not in the cache yet. -/
def Made (env : Env) (i : Nat) (t : TypeId) (H : Option Ptr) (s : Shared) (p : Ptr) (a : Arsh) : Prop :=
  Describes s p a ∧ (∃ fuel, lookupArshaler env fuel t = .done a) ∧ Hold i H s

theorem lookup_eq_of {n m : Nat} {t : TypeId} {a : Arsh} (h : lookupArshaler env m t = .done a) : lookupArshaler env n t = .diverged ∨ lookupArshaler env n t = .done a := by
  rcases lookup_total env n t with h1 | ⟨a', h1⟩
  · exact .inl h1
  · rw [lookup_unique h h1]; exact .inr h1

/-- Storing an arshaler, or finding that another goroutine did. -/
theorem store_ref {t : TypeId} {H : Option Ptr} {s : Shared} {p : Ptr} {a : Arsh} (h : Made env i t H s p a) :
    Ref env T i (Found env i t H) (.op (.loadOrStore t p)) (.ret a) s := by
  obtain ⟨h1, ⟨fuel, h2⟩, h3⟩ := h
  refine Ref.op trivial fun s' hr hi r s'' hs => ?_
  have hd := Describes.le hr.1 h1
  rw [SOp.step] at hs
  split at hs
  · rename_i q hq
    cases hs
    obtain ⟨f', a', h4, h5⟩ := hi.cache hq
    rw [lookup_unique h2 h4]
    exact ⟨guar_refl _ _, hi, h5, ⟨f', h4⟩, h3.rely hr⟩
  · rename_i hq
    cases hs
    have hle : s'.Le { s' with cache := update s'.cache t (some p) } := by
      refine ⟨fun h => h, fun {t' q} hp => ?_, fun h => h, fun h => ⟨h, rfl, rfl⟩⟩
      have hn : t' ≠ t := fun he => by rw [he, hq] at hp; cases hp
      show update s'.cache t (some p) t' = some q
      rw [update_ne _ _ _ hn]; exact hp
    have hden : Denotes { s' with cache := update s'.cache t (some p) } p a := by
      refine ⟨?_, Describes.le hle hd⟩
      show update s'.cache t (some p) a.typ = some p
      rw [lookup_typ h2, update_same]
    refine ⟨⟨hle, fun j _ => guar_of_eq hle rfl rfl rfl j⟩, hi.grow hle rfl rfl rfl fun {t' q} hp => ?_, hden, ⟨fuel, h2⟩, h3.rely ⟨hr.1.trans hle, hr.2.trans (guar_of_eq hle rfl rfl rfl i)⟩⟩
    by_cases ht : t' = t
    · subst ht
      have : some p = some q := (update_same s'.cache t' (some p)).symm.trans hp
      cases this
      exact .inr ⟨fuel, a, h2, hden⟩
    · left
      rw [← hp]
      exact (update_ne s'.cache t (some p) ht).symm

/-- Making an arshaler. -/
theorem makeDefault_ref {n : Nat} {t : TypeId} {H : Option Ptr} {s : Shared} (hs : Hold i H s)
    (ih : ∀ t s, Hold i H s → Ref env T i (Found env i t H) (clookup env n t) (lookupArshaler env n t).toC s) :
    Ref env T i (Made env i t H) (makeDefaultArshaler env (clookup env n) t) (lookupArshaler env (n + 1) t).toC s := by
  have hnew : ∀ {wt b a} {s : Shared}, Hold i H s → (∃ fuel, lookupArshaler env fuel t = .done a) → (∀ s' : Shared, ∀ p, s.Le s' → s'.heap[p]? = some ⟨wt, b⟩ → Describes s' p a) →
      Ref env T i (Made env i t H) (newObj wt b) (.ret a) s :=
    fun h0 h1 h2 => Ref.newObj fun s' p hr hp => ⟨h2 s' p hr.1 hp, h1, h0.rely hr⟩
  have hone : ∀ {e : TypeId} {f : Arsh → Arsh} {g : Ptr → CProg Ptr}, (∀ s p a, Found env i e H s p a → Ref env T i (Made env i t H) (g p) (.ret (f a)) s) →
      Ref env T i (Made env i t H) ((clookup env n e).bind g) ((lookupArshaler env n e).bind fun a => .done (f a)).toC s := by
    intro e f g hg
    rw [Out.toC_bind]
    exact (ih e s hs).bindOut hg
  have hseq : ∀ {e : TypeId} {isSet : Bool}, (∀ m a, lookupArshaler env m e = .done a → lookupArshaler env (m + 1) t = .done (.seq t isSet a)) →
      Ref env T i (Made env i t H) ((clookup env n e).bind fun p => newObj (if isSet then Ty.set else Ty.list) (.seq t isSet p))
        ((lookupArshaler env n e).bind fun a => .done (.seq t isSet a)).toC s := by
    intro e isSet hm
    refine hone fun s p a ⟨h1, ⟨fuel, h2⟩, h3⟩ => ?_
    exact hnew h3 ⟨fuel + 1, hm _ _ h2⟩ fun s' q hle hq => ⟨p, hq, hle.cache h1.1, Describes.le hle h1.2⟩
  have hleaf : ∀ {l : Leaf}, lookupArshaler env (n + 1) t = .done (.leaf t l) → Ref env T i (Made env i t H) (newObj l.wireType (.leaf t l)) (.ret (.leaf t l)) s :=
    fun h => hnew hs ⟨_, h⟩ fun s' q _ hq => hq
  have hd : ∀ m, lookupArshaler env (m + 1) t = lookupArshaler env (m + 1) t := fun _ => rfl
  conv at hd => intro m; rhs; rw [lookupArshaler]
  rw [hd, makeDefaultArshaler]
  cases hk : (env.type t).kind with
  | map k e =>
    simp only [hk] at hd ⊢
    rw [Out.toC_bind]
    refine (ih k s hs).bindOut fun s kp ka ⟨h1, ⟨f1, h2⟩, h3⟩ => ?_
    rw [Out.toC_bind]
    refine (ih e s h3).frame.bindOut fun s ep ea ⟨⟨g1, ⟨f2, g2⟩, g3⟩, hle⟩ => ?_
    refine hnew g3 ⟨max f1 f2 + 1, ?_⟩ fun s' q hle' hq => ⟨kp, ep, hq, ⟨hle'.cache (hle.cache h1.1), Describes.le hle' (Describes.le hle h1.2)⟩, hle'.cache g1.1, Describes.le hle' g1.2⟩
    rw [hd, (lookupArshaler_le env f1 (max f1 f2) (Nat.le_max_left _ _) k).done h2, (lookupArshaler_le env f2 (max f1 f2) (Nat.le_max_right _ _) e).done g2]
    rfl
  | slice e =>
    simp only [hk] at hd ⊢
    by_cases c1 : (env.type t).isSet = true
    · simp only [c1, if_true] at hd ⊢
      exact hseq (isSet := true) fun m a hm => by rw [hd, hm]; rfl
    · simp only [c1] at hd ⊢
      by_cases c2 : (env.type t).isList = true
      · simp only [c2, if_true] at hd ⊢
        exact hseq (isSet := false) fun m a hm => by rw [hd, hm]; rfl
      · simp only [c2] at hd ⊢
        by_cases c3 : (env.type t).isBytes = true
        · simp only [c3, if_true] at hd ⊢
          exact hleaf (l := .bytes) (hd n)
        · simp only [c3] at hd ⊢
          exact hseq (isSet := false) fun m a hm => by rw [hd, hm]; rfl
  | ptr e =>
    simp only [hk] at hd ⊢
    refine hone fun s p a ⟨h1, ⟨fuel, h2⟩, h3⟩ => ?_
    refine Ref.get h1.2 fun s' o hr _ _ ho => ?_
    rw [ho]
    exact hnew (h3.rely hr) ⟨fuel + 1, by rw [hd, h2]; rfl⟩ fun s'' q hle hq => ⟨p, hq, hle.cache (hr.1.cache h1.1), Describes.le hle (Describes.le hr.1 h1.2)⟩
  | struct fs =>
    simp only [hk] at hd ⊢
    exact hnew hs ⟨_, hd n⟩ fun s' q _ hq => hq
  | other =>
    simp only [hk] at hd ⊢
    exact hnew hs ⟨_, hd n⟩ fun s' q _ hq => hq
  | _ =>
    simp only [hk] at hd ⊢
    exact hleaf (hd n)

/-- lookupArshaler. -/
theorem clookup_ref (n : Nat) (t : TypeId) (H : Option Ptr) (hT : T → H = none) (s : Shared) (hs : Hold i H s) :
    Ref env T i (Found env i t H) (clookup env n t) (lookupArshaler env n t).toC s := by
  induction n generalizing t s with
  | zero =>
    refine ⟨rfl, fun ht => ?_⟩
    rw [hT ht] at hs
    exact hs.none
  | succ n ih =>
    rw [clookup]
    refine ⟨trivial, fun s' hr hi r s'' hstep => ?_⟩
    cases hstep
    refine ⟨guar_refl _ _, hi, ?_⟩
    cases hc : s'.cache t with
    | some p =>
      obtain ⟨fuel, a, h1, h2⟩ := hi.cache hc
      refine ⟨a, ⟨h2, ⟨fuel, h1⟩, hs.rely hr⟩, ?_⟩
      rcases lookup_eq_of (n := n + 1) h1 with h3 | h3
      · rw [h3]; exact .inr rfl
      · rw [h3]; exact .inl rfl
    | none =>
      show Ref env T i _ ((makeDefaultArshaler env (clookup env n) t).bind _) _ s'
      have := (makeDefault_ref (t := t) (hs.rely hr) (fun t s hs => ih t s hs)).bind (Q' := Found env i t H) (f := fun p => .op (.loadOrStore t p)) (g := .ret) fun s p a h => store_ref h
      rw [Out.toC_bind_ret] at this
      exact this

end GoThrift
