import Verif.Model.Arshal

/-!
# Reasoning about programs of Reader calls, whatever the Reader
-/

namespace GoThrift

/-- Which calls may be made and which answers are to be expected, with a ghost state. -/
structure Mon (G : Type) where
  pre : ROp → G → Prop
  okAns : (o : ROp) → o.Ans → Prop
  next : (o : ROp) → o.Ans → G → G
  fail : ROp → G → G
  /-- may the program panic? -/
  panics : Prop

/-- The program makes only calls that may be made, and ends, if it ends, with `Q`. -/
def Wp {G α : Type} (m : Mon G) (Q : α → G → Prop) : RProg α → G → Prop
  | .ret a, g => Q a g
  | .diverge, _ => True
  | .panic, _ => m.panics
  | .call o k, g => m.pre o g ∧ (∀ a, m.okAns o a → Wp m Q (k (.ok a)) (m.next o a g)) ∧ ∀ e, Wp m Q (k (.error e)) (m.fail o g)

namespace Wp

variable {G : Type} {m : Mon G}

theorem imp {α : Type} {Q Q' : α → G → Prop} (h : ∀ a g, Q a g → Q' a g) {p : RProg α} {g : G} (hp : Wp m Q p g) : Wp m Q' p g := by
  induction p generalizing g with
  | ret a => exact h _ _ hp
  | diverge => trivial
  | panic => exact hp
  | call o k ih => exact ⟨hp.1, fun a ha => ih _ (hp.2.1 a ha), fun e => ih _ (hp.2.2 e)⟩

theorem bind {α β : Type} {Q : α → G → Prop} {Q' : β → G → Prop} {p : RProg α} {f : α → RProg β} {g : G} (hp : Wp m Q p g) (hf : ∀ a g, Q a g → Wp m Q' (f a) g) : Wp m Q' (p.bind f) g := by
  induction p generalizing g with
  | ret a => exact hf _ _ hp
  | diverge => trivial
  | panic => exact hp
  | call o k ih => exact ⟨hp.1, fun a ha => ih _ (hp.2.1 a ha), fun e => ih _ (hp.2.2 e)⟩

theorem rcall {α : Type} {Q : α × Option Err → G → Prop} {act : String} {tt : WType} {t : TypeId} {o : ROp} {old : α} {k : o.Ans → UProg α} {g : G} (hpre : m.pre o g)
    (hk : ∀ a, m.okAns o a → Wp m Q (k a) (m.next o a g)) (he : ∀ e, Q (old, some (.semanticE .unmarshal tt (some t) (.wire act e))) (m.fail o g)) : Wp m Q (rcall act tt t o old k) g :=
  ⟨hpre, hk, fun _ => he _⟩

theorem andThen {α β : Type} {Q : α × Option Err → G → Prop} {Q' : β × Option Err → G → Prop} {p : UProg α} {fail : α → β} {k : α → UProg β} {g : G} (hp : Wp m Q p g)
    (hk : ∀ a g, Q (a, none) g → Wp m Q' (k a) g) (he : ∀ a e g, Q (a, some e) g → Q' (fail a, some e) g) : Wp m Q' (p.andThen fail k) g := by
  refine bind hp fun x g hx => ?_
  obtain ⟨a, e⟩ := x
  cases e with
  | none => exact hk a g hx
  | some e => exact he a e g hx

theorem elim {α β : Type} {Q : β → G → Prop} {x : Out α} {k : α → RProg β} {g : G} (hx : x ≠ .panicked ∨ m.panics) (hk : ∀ a, x = .done a → Wp m Q (k a) g) :
    Wp m Q (x.elim .panic .diverge k) g := by
  cases x with
  | done a => exact hk a rfl
  | blocked => trivial
  | diverged => trivial
  | panicked => rcases hx with h | h <;> first | exact absurd rfl h | exact h

end Wp

end GoThrift
