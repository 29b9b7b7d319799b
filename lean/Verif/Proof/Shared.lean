import Verif.Spec.Concurrent
import Verif.Proof.Le

/-!
# The state shared by goroutines: what never changes, and what is true of it at all times
-/

namespace GoThrift

open Spec

@[simp] theorem update_same {α β : Type} [DecidableEq α] (f : α → β) (a : α) (b : β) : update f a b a = b := if_pos rfl

theorem update_ne {α β : Type} [DecidableEq α] (f : α → β) (a : α) (b : β) {x : α} (h : x ≠ a) : update f a b x = f x := if_neg h

/-- What is never undone. -/
structure Shared.Le (s s' : Shared) : Prop where
  heap : ∀ {p : Ptr} {o : Obj}, s.heap[p]? = some o → s'.heap[p]? = some o
  cache : ∀ {t p}, s.cache t = some p → s'.cache t = some p
  used : ∀ {p}, s'.once p = .idle → s.once p = .idle
  done : ∀ {p}, s.once p = .done → s'.once p = .done ∧ s'.vars p = s.vars p ∧ s'.writes p = s.writes p

theorem Shared.Le.refl (s : Shared) : s.Le s := ⟨fun h => h, fun h => h, fun h => h, fun h => ⟨h, rfl, rfl⟩⟩

theorem Shared.Le.trans {s s' s'' : Shared} (h : s.Le s') (h' : s'.Le s'') : s.Le s'' :=
  ⟨fun x => h'.heap (h.heap x), fun x => h'.cache (h.cache x), fun x => h.used (h'.used x), fun x =>
    ⟨(h'.done (h.done x).1).1, ((h'.done (h.done x).1).2.1).trans (h.done x).2.1, ((h'.done (h.done x).1).2.2).trans (h.done x).2.2⟩⟩

/-- The part of the state that belongs to goroutine `i` is the same: which `once` functions it runs, and the variables they set. -/
def Keeps (i : Nat) (s s' : Shared) : Prop := ∀ p, (s'.once p = .running i ↔ s.once p = .running i) ∧
  (s.once p = .running i → s'.vars p = s.vars p ∧ s'.writes p = s.writes p)

theorem Keeps.refl (i : Nat) (s : Shared) : Keeps i s s := fun _ => ⟨Iff.rfl, fun _ => ⟨rfl, rfl⟩⟩

theorem Keeps.trans {i : Nat} {s s' s'' : Shared} (h : Keeps i s s') (h' : Keeps i s' s'') : Keeps i s s'' := fun p =>
  ⟨(h' p).1.trans (h p).1, fun x => ⟨((h' p).2 ((h p).1.2 x)).1.trans ((h p).2 x).1, ((h' p).2 ((h p).1.2 x)).2.trans ((h p).2 x).2⟩⟩

/-- What other goroutines may do to the state while `i` does nothing. -/
def Rely (i : Nat) (s s' : Shared) : Prop := s.Le s' ∧ Keeps i s s'

theorem Rely.refl (i : Nat) (s : Shared) : Rely i s s := ⟨.refl s, .refl i s⟩

theorem Rely.trans {i : Nat} {s s' s'' : Shared} (h : Rely i s s') (h' : Rely i s' s'') : Rely i s s'' := ⟨h.1.trans h'.1, h.2.trans h'.2⟩

/-- What a step of `i` may do. -/
def Guar (i : Nat) (s s' : Shared) : Prop := s.Le s' ∧ ∀ j, j ≠ i → Keeps j s s'

theorem Describes.le {s s' : Shared} (h : s.Le s') {a : Arsh} {p : Ptr} (hd : Describes s p a) : Describes s' p a := by
  induction a generalizing p with
  | leaf t l => exact h.heap hd
  | struct t => exact h.heap hd
  | invalid t => exact h.heap hd
  | map t ka ea ihk ihe =>
    obtain ⟨k, e, h1, ⟨h2, h3⟩, h4, h5⟩ := hd
    exact ⟨k, e, h.heap h1, ⟨h.cache h2, ihk h3⟩, h.cache h4, ihe h5⟩
  | seq t b ea ihe =>
    obtain ⟨e, h1, h4, h5⟩ := hd
    exact ⟨e, h.heap h1, h.cache h4, ihe h5⟩
  | ptr t ea ihe =>
    obtain ⟨e, h1, h4, h5⟩ := hd
    exact ⟨e, h.heap h1, h.cache h4, ihe h5⟩

theorem Denotes.le {s s' : Shared} (h : s.Le s') {a : Arsh} {p : Ptr} (hd : Denotes s p a) : Denotes s' p a := ⟨h.cache hd.1, Describes.le h hd.2⟩

theorem FieldDenotes.le {s s' : Shared} (h : s.Le s') {c : CField} {f : SField} (hd : FieldDenotes s c f) : FieldDenotes s' c f :=
  ⟨hd.1, hd.2, hd.3, hd.4, hd.5, Denotes.le h hd.6⟩

theorem FieldsDenote.le {s s' : Shared} (h : s.Le s') {cs : List CField} {fs : List SField} (hd : FieldsDenote s cs fs) : FieldsDenote s' cs fs := by
  induction hd with
  | nil => exact .nil
  | cons h1 _ ih => exact .cons (FieldDenotes.le h h1) ih

theorem TableDenotes.le {s s' : Shared} (h : s.Le s') {c : CTable} {f : Except Err (List SField)} (hd : TableDenotes s c f) : TableDenotes s' c f := by
  cases hd with
  | error e => exact .error e
  | ok h1 => exact .ok (FieldsDenote.le h h1)

/-- The object of an arshaler has its wire type. -/
theorem Describes.obj {s : Shared} {p : Ptr} {a : Arsh} (h : Describes s p a) : ∃ o, s.heap[p]? = some o ∧ o.wireType = a.wireType := by
  cases a with
  | leaf t l => exact ⟨_, h, rfl⟩
  | struct t => exact ⟨_, h, rfl⟩
  | invalid t => exact ⟨_, h, rfl⟩
  | map t ka ea => obtain ⟨k, e, h1, _⟩ := h; exact ⟨_, h1, rfl⟩
  | seq t b ea => obtain ⟨e, h1, _⟩ := h; exact ⟨_, h1, rfl⟩
  | ptr t ea => obtain ⟨e, h1, _⟩ := h; exact ⟨_, h1, rfl⟩

/-- The type of the result of lookupArshaler. -/
theorem lookup_typ {env : Env} {fuel : Nat} {t : TypeId} {a : Arsh} (h : lookupArshaler env fuel t = .done a) : a.typ = t := by
  cases fuel with
  | zero => cases h
  | succ fuel =>
    rw [lookupArshaler] at h
    have one : ∀ {e} {f : Arsh → Arsh}, (∀ x, (f x).typ = t) → ((lookupArshaler env fuel e).bind fun ea => .done (f ea)) = .done a → a.typ = t := by
      intro e f hf hb
      cases hx : lookupArshaler env fuel e with
      | done x => rw [hx] at hb; cases hb; exact hf x
      | _ => rw [hx] at hb; cases hb
    split at h
    all_goals first
      | (cases h; rfl)
      | exact one (fun _ => rfl) h
      | skip
    · rename_i k e _
      cases hx : lookupArshaler env fuel k with
      | done x => rw [hx] at h; exact one (fun _ => rfl) h
      | _ => rw [hx] at h; cases h
    · split at h
      · exact one (fun _ => rfl) h
      · split at h
        · exact one (fun _ => rfl) h
        · split at h
          · cases h; rfl
          · exact one (fun _ => rfl) h

/-- Two lookups of a type, with whatever fuel, give the same. -/
theorem lookup_unique {env : Env} {n m : Nat} {t : TypeId} {a a' : Arsh} (h : lookupArshaler env n t = .done a) (h' : lookupArshaler env m t = .done a') : a = a' := by
  have h1 := (lookupArshaler_le env n (max n m) (Nat.le_max_left _ _) t).done h
  have h2 := (lookupArshaler_le env m (max n m) (Nat.le_max_right _ _) t).done h'
  rw [h1] at h2
  cases h2
  rfl

theorem table_unique {env : Env} {n m : Nat} {t : TypeId} {a a' : Except Err (List SField)} (h : makeStructFields env n t = .done a)
    (h' : makeStructFields env m t = .done a') : a = a' := by
  have h1 := (makeStructFields_le env n (max n m) (Nat.le_max_left _ _) t).done h
  have h2 := (makeStructFields_le env m (max n m) (Nat.le_max_right _ _) t).done h'
  rw [h1] at h2
  cases h2
  rfl

/-- The struct arshaler at `p`, in the cache for the type `t`. -/
def IsStructAt (s : Shared) (p : Ptr) (t : TypeId) : Prop := s.heap[p]? = some ⟨Ty.struct, .struct t⟩ ∧ s.cache t = some p

theorem IsStructAt.le {s s' : Shared} (h : s.Le s') {p : Ptr} {t : TypeId} (hs : IsStructAt s p t) : IsStructAt s' p t := ⟨h.heap hs.1, h.cache hs.2⟩

/-- What is true at all times. -/
structure Inv (env : Env) (s : Shared) : Prop where
  /-- what is in the cache is what lookupArshaler makes -/
  cache : ∀ {t p}, s.cache t = some p → ∃ fuel a, lookupArshaler env fuel t = .done a ∧ Denotes s p a
  /-- `once` is used only of arshalers in the cache -/
  used : ∀ {p}, s.once p ≠ .idle → ∃ t, IsStructAt s p t
  idle : ∀ {p}, s.once p = .idle → s.writes p = 0
  writes : ∀ p, s.writes p ≤ 1
  /-- afterwards the variables have the right values -/
  done : ∀ {p t}, s.once p = .done → IsStructAt s p t → s.writes p = 1 ∧ ∃ fuel r, makeStructFields env fuel t = .done r ∧ TableDenotes s (s.vars p) r

theorem Inv.initial (env : Env) : Inv env .initial :=
  ⟨fun h => (by cases h), fun h => absurd rfl h, fun _ => rfl, fun _ => Nat.zero_le _, fun h => (by cases h)⟩

/-- A change that leaves the `once` variables alone. -/
theorem Inv.grow {env : Env} {s s' : Shared} (h : Inv env s) (hle : s.Le s') (hw : s'.writes = s.writes) (hv : s'.vars = s.vars) (ho : s'.once = s.once)
    (hc : ∀ {t p}, s'.cache t = some p → s.cache t = some p ∨ ∃ fuel a, lookupArshaler env fuel t = .done a ∧ Denotes s' p a) : Inv env s' := by
  refine ⟨fun hp => ?_, fun hp => ?_, fun hp => ?_, fun p => ?_, fun hp ht => ?_⟩
  · rcases hc hp with h1 | h1
    · obtain ⟨fuel, a, h2, h3⟩ := h.cache h1
      exact ⟨fuel, a, h2, Denotes.le hle h3⟩
    · exact h1
  · rw [ho] at hp
    obtain ⟨t, h1⟩ := h.used hp
    exact ⟨t, h1.le hle⟩
  · rw [ho] at hp
    rw [hw]; exact h.idle hp
  · rw [hw]; exact h.writes p
  · rw [ho] at hp
    obtain ⟨t', h1⟩ := h.used (p := _) (by rw [hp]; simp)
    have h2 := (h1.le hle).1
    rw [ht.1] at h2
    cases h2
    obtain ⟨h3, fuel, r, h4, h5⟩ := h.done hp h1
    exact ⟨by rw [hw]; exact h3, fuel, r, h4, by rw [hv]; exact TableDenotes.le hle h5⟩

end GoThrift
