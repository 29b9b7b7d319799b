import Verif.Proof.Shared

/-!
# One goroutine among others

`Ref env T i Q p w s`: in the state `s`, whatever the other goroutines do, the program `p` of goroutine `i` keeps to the rules (`Legal`, `Guar`, `Inv`) and makes the calls of the
sequential program `w`; results are related by `Q`. If `w` runs out of fuel, nothing is said of the calls from there on. `T`: the goroutine does not run out of fuel inside `once.Do`.
-/

namespace GoThrift

open Spec

/-- The goroutine is running the function of some `once`. -/
def InInit (i : Nat) (s : Shared) : Prop := ∃ p, s.once p = .running i

/-- When an operation may be used. -/
def Legal (i : Nat) (s : Shared) : SOp → Prop
  | .enter _ => ¬ InInit i s
  | .assign p _ => s.once p = .running i ∧ s.writes p = 0
  | .leave p => s.once p = .running i
  | .read p => s.once p = .done
  | _ => True

/-- See the head of this file. -/
def Ref (env : Env) (T : Prop) (i : Nat) {α β : Type} (Q : Shared → α → β → Prop) : CProg α → CProg β → Shared → Prop
  | .ret a, w, s => ∃ b, Q s a b ∧ (w = .ret b ∨ w = .diverge)
  | .diverge, w, s => w = .diverge ∧ (T → ¬ InInit i s)
  | .panic, w, s => (w = .panic ∨ w = .diverge) ∧ ¬ InInit i s
  | .shared o k, w, s => Legal i s o ∧ ∀ s', Rely i s s' → Inv env s' → ∀ r s'', o.step i s' = some (r, s'') →
      Guar i s' s'' ∧ Inv env s'' ∧ Ref env T i Q (k r) w s''
  | .call o k, w, s => ¬ InInit i s ∧ ((∃ k', w = .call o k' ∧ ∀ r, Ref env T i Q (k r) (k' r) s) ∨ (w = .diverge ∧ ∀ r, Ref env T i Q (k r) .diverge s))

variable {env : Env} {T : Prop} {i : Nat}

/-- A sequential program that ran out of fuel is followed by anything that keeps to the rules. -/
theorem Ref.weaken {α β : Type} {Q : Shared → α → β → Prop} {p : CProg α} {w : CProg β} {s : Shared} (h : Ref env T i Q p w s) : Ref env T i Q p .diverge s := by
  induction p generalizing w s with
  | ret a =>
    obtain ⟨b, h1, _⟩ := h
    exact ⟨b, h1, .inr rfl⟩
  | diverge => exact ⟨rfl, h.2⟩
  | panic => exact ⟨.inr rfl, h.2⟩
  | shared o k ih => exact ⟨h.1, fun s' hr hi r s'' hs => ⟨(h.2 s' hr hi r s'' hs).1, (h.2 s' hr hi r s'' hs).2.1, ih r (h.2 s' hr hi r s'' hs).2.2⟩⟩
  | call o k ih =>
    refine ⟨h.1, .inr ⟨rfl, fun r => ?_⟩⟩
    rcases h.2 with ⟨k', _, h1⟩ | ⟨_, h1⟩
    · exact ih r (h1 r)
    · exact ih r (h1 r)

/-- The state only grows. -/
theorem Ref.frame {α β : Type} {Q : Shared → α → β → Prop} {p : CProg α} {w : CProg β} {s : Shared} (h : Ref env T i Q p w s) :
    Ref env T i (fun s' a b => Q s' a b ∧ s.Le s') p w s := by
  suffices ∀ s0 : Shared, s0.Le s → Ref env T i (fun s' a b => Q s' a b ∧ s0.Le s') p w s from this s (.refl s)
  intro s0 h0
  induction p generalizing w s with
  | ret a =>
    obtain ⟨b, h1, h2⟩ := h
    exact ⟨b, ⟨h1, h0⟩, h2⟩
  | diverge => exact h
  | panic => exact h
  | shared o k ih =>
    exact ⟨h.1, fun s' hr hi r s'' hs => ⟨(h.2 s' hr hi r s'' hs).1, (h.2 s' hr hi r s'' hs).2.1,
      ih r (h.2 s' hr hi r s'' hs).2.2 ((h0.trans hr.1).trans (h.2 s' hr hi r s'' hs).1.1)⟩⟩
  | call o k ih =>
    refine ⟨h.1, ?_⟩
    rcases h.2 with ⟨k', h2, h1⟩ | ⟨h2, h1⟩
    · exact .inl ⟨k', h2, fun r => ih r (h1 r) h0⟩
    · exact .inr ⟨h2, fun r => ih r (h1 r) h0⟩

theorem Ref.mono {α β : Type} {Q Q' : Shared → α → β → Prop} {p : CProg α} {w : CProg β} {s : Shared} (h : Ref env T i Q p w s)
    (hq : ∀ s a b, Q s a b → Q' s a b) : Ref env T i Q' p w s := by
  induction p generalizing w s with
  | ret a =>
    obtain ⟨b, h1, h2⟩ := h
    exact ⟨b, hq _ _ _ h1, h2⟩
  | diverge => exact h
  | panic => exact h
  | shared o k ih => exact ⟨h.1, fun s' hr hi r s'' hs => ⟨(h.2 s' hr hi r s'' hs).1, (h.2 s' hr hi r s'' hs).2.1, ih r (h.2 s' hr hi r s'' hs).2.2⟩⟩
  | call o k ih =>
    refine ⟨h.1, ?_⟩
    rcases h.2 with ⟨k', h2, h1⟩ | ⟨h2, h1⟩
    · exact .inl ⟨k', h2, fun r => ih r (h1 r)⟩
    · exact .inr ⟨h2, fun r => ih r (h1 r)⟩

theorem Ref.bind {α β α' β' : Type} {Q : Shared → α → β → Prop} {Q' : Shared → α' → β' → Prop} {p : CProg α} {w : CProg β} {s : Shared}
    {f : α → CProg α'} {g : β → CProg β'} (h : Ref env T i Q p w s) (hf : ∀ s a b, Q s a b → Ref env T i Q' (f a) (g b) s) :
    Ref env T i Q' (p.bind f) (w.bind g) s := by
  induction p generalizing w s with
  | ret a =>
    obtain ⟨b, h1, rfl | rfl⟩ := h
    · exact hf _ _ _ h1
    · exact (hf _ _ _ h1).weaken
  | diverge =>
    obtain ⟨rfl, h2⟩ := h
    exact ⟨rfl, h2⟩
  | panic =>
    obtain ⟨rfl | rfl, h2⟩ := h
    · exact ⟨.inl rfl, h2⟩
    · exact ⟨.inr rfl, h2⟩
  | shared o k ih => exact ⟨h.1, fun s' hr hi r s'' hs => ⟨(h.2 s' hr hi r s'' hs).1, (h.2 s' hr hi r s'' hs).2.1, ih r (h.2 s' hr hi r s'' hs).2.2⟩⟩
  | call o k ih =>
    refine ⟨h.1, ?_⟩
    rcases h.2 with ⟨k', rfl, h1⟩ | ⟨rfl, h1⟩
    · exact .inl ⟨fun r => (k' r).bind g, rfl, fun r => ih r (h1 r)⟩
    · exact .inr ⟨rfl, fun r => ih r (h1 r)⟩

theorem _root_.GoThrift.CProg.bind_assoc {α β γ : Type} (m : CProg α) (f : α → CProg β) (g : β → CProg γ) :
    (m.bind f).bind g = m.bind (fun a => (f a).bind g) := by
  induction m <;> simp_all [CProg.bind]

/-- A result of the sequential program computed without calls. -/
def _root_.GoThrift.Out.toC {α : Type} (x : Out α) : CProg α := x.elim .panic .diverge .ret

/-- `Ref.bind` when the sequential program goes on with `Out.elim`. -/
theorem Ref.bindOut {α β α' β' : Type} {Q : Shared → α → β → Prop} {Q' : Shared → α' → β' → Prop} {p : CProg α} {x : Out β} {s : Shared}
    {f : α → CProg α'} {g : β → CProg β'} (h : Ref env T i Q p x.toC s) (hf : ∀ s a b, Q s a b → Ref env T i Q' (f a) (g b) s) :
    Ref env T i Q' (p.bind f) (x.elim .panic .diverge g) s := by
  have := h.bind hf
  cases x <;> exact this

/-- Nothing is said about running out of fuel inside `once.Do`, but it does not happen. -/
theorem Ref.upgrade {α β : Type} {Q : Shared → α → β → Prop} {p : CProg α} {x : Out β} {s : Shared} (h : Ref env False i Q p x.toC s)
    (hx : T → ∃ b, x = .done b) : Ref env T i Q p x.toC s := by
  induction p generalizing s with
  | ret a => exact h
  | diverge =>
    refine ⟨h.1, fun ht => ?_⟩
    obtain ⟨b, rfl⟩ := hx ht
    exact absurd h.1 (fun h => by cases h)
  | panic => exact h
  | shared o k ih => exact ⟨h.1, fun s' hr hi r s'' hs => ⟨(h.2 s' hr hi r s'' hs).1, (h.2 s' hr hi r s'' hs).2.1, ih r (h.2 s' hr hi r s'' hs).2.2⟩⟩
  | call o k ih =>
    refine ⟨h.1, ?_⟩
    rcases h.2 with ⟨k', h2, h1⟩ | ⟨h2, h1⟩
    · cases x <;> cases h2
    · refine .inr ⟨h2, fun r => ?_⟩
      have := ih r (s := s) (by rw [h2]; exact h1 r)
      rw [h2] at this
      exact this

/-- A sequential program with less fuel. -/
theorem Ref.lessOut {α β : Type} {Q : Shared → α → β → Prop} {p : CProg α} {x y : Out β} {s : Shared} (h : Ref env T i Q p y.toC s) (hx : OLe x y) :
    Ref env T i Q p x.toC s := by
  rcases hx with rfl | rfl
  · exact h.weaken
  · exact h

/-! ## Operations -/

/-- The goroutine runs the function of the `once` of `p` and has not set its variables yet, or it runs none. -/
structure Hold (i : Nat) (H : Option Ptr) (s : Shared) : Prop where
  once : ∀ p, s.once p = .running i ↔ H = some p
  writes : ∀ p, H = some p → s.writes p = 0

theorem Hold.rely {H : Option Ptr} {s s' : Shared} (h : Hold i H s) (hr : Rely i s s') : Hold i H s' :=
  ⟨fun p => (hr.2 p).1.trans (h.1 p), fun p hp => ((hr.2 p).2 ((h.1 p).2 hp)).2.trans (h.2 p hp)⟩

theorem Hold.none {s : Shared} (h : Hold i none s) : ¬ InInit i s := fun ⟨p, hp⟩ => by cases (h.1 p).1 hp

/-- An operation that touches neither `once` nor the variables. -/
theorem guar_of_eq {s s' : Shared} (hle : s.Le s') (ho : s'.once = s.once) (hv : s'.vars = s.vars) (hw : s'.writes = s.writes) (j : Nat) : Keeps j s s' := fun p =>
  ⟨by rw [ho], fun _ => ⟨by rw [hv], by rw [hw]⟩⟩

theorem Ref.op {o : SOp} {β : Type} {b : β} {Q : Shared → o.Ans → β → Prop} {s : Shared} (hl : Legal i s o)
    (h : ∀ s', Rely i s s' → Inv env s' → ∀ r s'', o.step i s' = some (r, s'') → Guar i s' s'' ∧ Inv env s'' ∧ Q s'' r b) :
    Ref env T i Q (.op o) (.ret b) s :=
  ⟨hl, fun s' hr hi r s'' hs => ⟨(h s' hr hi r s'' hs).1, (h s' hr hi r s'' hs).2.1, b, (h s' hr hi r s'' hs).2.2, .inl rfl⟩⟩

theorem guar_refl (i : Nat) (s : Shared) : Guar i s s := ⟨.refl s, fun j _ => .refl j s⟩

/-- Use of the parts of an arshaler. -/
theorem Ref.get {α : Type} {β : Type} {p : Ptr} {a : Arsh} {w : CProg β} {s : Shared} {Q : Shared → α → β → Prop} {k : Obj → CProg α} (hd : Describes s p a)
    (h : ∀ s' o, Rely i s s' → Describes s' p a → s'.heap[p]? = some o → o.wireType = a.wireType → Ref env T i Q (k o) w s') :
    Ref env T i Q ((CProg.op (.get p)).bind k) w s := by
  refine ⟨trivial, fun s' hr hi r s'' hs => ?_⟩
  cases hs
  obtain ⟨o, h1, h2⟩ := Describes.obj (Describes.le hr.1 hd)
  refine ⟨guar_refl _ _, hi, ?_⟩
  show Ref env T i Q (k ((s'.heap[p]?).getD _)) w s'
  rw [h1]
  exact h s' o hr (Describes.le hr.1 hd) h1 h2

/-- A new arshaler. -/
theorem Ref.newObj {wt : WType} {b : Body} {β : Type} {x : β} {s : Shared} {Q : Shared → Ptr → β → Prop}
    (h : ∀ s' p, Rely i s s' → s'.heap[p]? = some ⟨wt, b⟩ → Q s' p x) : Ref env T i Q (newObj wt b) (.ret x) s := by
  refine Ref.op trivial fun s' hr hi r s'' hs => ?_
  cases hs
  have hle : s'.Le { s' with heap := s'.heap ++ [⟨wt, b⟩] } := by
    refine ⟨fun {p o} hp => ?_, fun h => h, fun h => h, fun h => ⟨h, rfl, rfl⟩⟩
    have := (List.getElem?_eq_some_iff.1 hp).1
    show (s'.heap ++ [⟨wt, b⟩])[p]? = some o
    rw [List.getElem?_append_left this]; exact hp
  refine ⟨⟨hle, fun j _ => guar_of_eq hle rfl rfl rfl j⟩, hi.grow hle rfl rfl rfl fun hp => .inl hp, ?_⟩
  refine h _ _ ⟨hr.1.trans hle, hr.2.trans (guar_of_eq hle rfl rfl rfl i)⟩ ?_
  show (s'.heap ++ [⟨wt, b⟩])[s'.heap.length]? = _
  simp

end GoThrift
