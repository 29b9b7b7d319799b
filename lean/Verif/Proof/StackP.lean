import Verif.Model.StackP
import Verif.Spec.DepthP
import Verif.Proof.ParseGood

/-!
# How deep the parser recurses
-/

namespace GoThrift

open Spec Idl

/-- The program can return this. -/
def PRet {α : Type} : PProg α → α → Prop
  | .ret a, b => a = b
  | .bad, _ => False
  | .diverge, _ => False
  | .call _ k, b => ∃ x, PRet (k x) b

theorem PRet.of_run {S α : Type} {r : Source S} {p : PProg α} {s s' : S} {a : α} (h : p.run r s = .done (some a, s')) : PRet p a := by
  induction p generalizing s with
  | ret b => rw [PProg.run] at h; cases h; rfl
  | bad => cases h
  | diverge => cases h
  | call o k ih =>
    rw [PProg.run] at h
    cases hx : r.step o s with
    | done x => rw [hx, Out.bind_done] at h; exact ⟨x.1, ih _ h⟩
    | blocked => rw [hx] at h; cases h
    | diverged => rw [hx] at h; cases h
    | panicked => rw [hx] at h; cases h

theorem pret_bind {α β : Type} {p : PProg α} {f : α → PProg β} {b : β} : PRet (p >>= f) b ↔ ∃ a, PRet p a ∧ PRet (f a) b := by
  show PRet (p.bind f) b ↔ _
  induction p with
  | ret a => simp [PProg.bind, PRet]
  | bad => simp [PProg.bind, PRet]
  | diverge => simp [PProg.bind, PRet]
  | call o k ih =>
    simp only [PProg.bind, PRet, ih]
    exact ⟨fun ⟨x, a, h1, h2⟩ => ⟨a, ⟨x, h1⟩, h2⟩, fun ⟨a, ⟨x, h1⟩, h2⟩ => ⟨x, a, h1, h2⟩⟩

theorem pret_pure {α : Type} {a b : α} : PRet (pure a) b ↔ a = b := Iff.rfl

/-- The limited program `p'` cuts off `p`; and if `H`, then on the way to a result with `V` it has room iff the result has `R`. -/
structure PFits {S α : Type} (r : Source S) (H : Prop) (V R : α → Prop) (p' p : PProg α) : Prop where
  cuts : ∀ s, p'.run r s = .diverged ∨ p'.run r s = p.run r s
  exact : H → ∀ s a s', p.run r s = .done (some a, s') → V a → (R a → p'.run r s = p.run r s) ∧ (¬ R a → p'.run r s = .diverged)

section
variable {S : Type} {r : Source S}

theorem PFits.refl {α : Type} {H : Prop} {V R : α → Prop} (p : PProg α) (h : H → ∀ a, PRet p a → V a → R a) : PFits r H V R p p :=
  ⟨fun _ => .inr rfl, fun hH _ a _ hr hV => ⟨fun _ => rfl, fun hR => absurd (h hH a (.of_run hr) hV) hR⟩⟩

theorem PFits.pure {α : Type} {H : Prop} {V R : α → Prop} (a : α) (h : H → V a → R a) : PFits r H V R (pure a) (pure a) := .refl _ fun hH b hb => by cases hb; exact h hH

theorem PFits.over {α : Type} {H : Prop} {V R : α → Prop} {p : PProg α} (h : H → ∀ a, PRet p a → V a → ¬ R a) : PFits r H V R .diverge p :=
  ⟨fun _ => .inl rfl, fun hH _ a _ hr hV => ⟨fun hR => absurd hR (h hH a (.of_run hr) hV), fun _ => rfl⟩⟩

theorem PFits.imp {α : Type} {H H' : Prop} {V V' R R' : α → Prop} {p' p : PProg α} (h : PFits r H V R p' p) (hH : H' → H) (hi : ∀ a, PRet p a → V' a → V a ∧ (R a ↔ R' a)) : PFits r H' V' R' p' p :=
  ⟨h.cuts, fun hH' s a s' hr hV => by
    obtain ⟨h1, h2⟩ := hi a (.of_run hr) hV
    obtain ⟨h3, h4⟩ := h.exact (hH hH') s a s' hr h1
    exact ⟨fun hR => h3 (h2.2 hR), fun hR => h4 fun h => hR (h2.1 h)⟩⟩

theorem PFits.bind {α β : Type} {H : Prop} {V P : α → Prop} {W R : β → Prop} {p' p : PProg α} {f' f : α → PProg β} (hp : PFits r H V P p' p) (hf : ∀ a, PFits r (H ∧ P a) W R (f' a) (f a))
    (hR : H → ∀ a b, PRet p a → PRet (f a) b → W b → V a ∧ (R b → P a)) : PFits r H W R (p' >>= f') (p >>= f) := by
  refine ⟨fun s => ?_, fun hH s b s' hr hW => ?_⟩
  · rw [run_bind, run_bind]
    rcases hp.cuts s with h | h
    · rw [h]; exact .inl rfl
    · rw [h]
      cases p.run r s with
      | done x =>
        obtain ⟨a, s1⟩ := x
        rw [Out.bind_done, Out.bind_done]
        cases a with
        | none => exact .inr rfl
        | some a => exact (hf a).cuts s1
      | _ => exact .inr rfl
  · rw [run_bind] at hr
    cases hx : p.run r s with
    | done x =>
      obtain ⟨a, s1⟩ := x
      rw [hx, Out.bind_done] at hr
      cases a with
      | none => cases hr
      | some a =>
        dsimp only at hr
        obtain ⟨h1, h2⟩ := hR hH a b (.of_run hx) (.of_run hr) hW
        obtain ⟨h3, h4⟩ := hp.exact hH s a s1 hx h1
        rw [run_bind, run_bind, hx]
        by_cases hP : P a
        · rw [h3 hP, hx, Out.bind_done]
          exact (hf a).exact ⟨hH, hP⟩ s1 b s' hr hW
        · rw [h4 hP]
          exact ⟨fun hRb => absurd (h2 hRb) hP, fun _ => rfl⟩
    | blocked => rw [hx] at hr; cases hr
    | diverged => rw [hx] at hr; cases hr
    | panicked => rw [hx] at hr; cases hr

/-- The same program first. -/
theorem PFits.step {α β : Type} {H : Prop} {W R : β → Prop} {p : PProg α} {f' f : α → PProg β} (hf : ∀ a, PFits r H W R (f' a) (f a)) : PFits r H W R (p >>= f') (p >>= f) :=
  .bind (P := fun _ => True) (V := fun _ => True) (.refl p fun _ _ _ _ => trivial) (fun a => (hf a).imp (fun h => h.1) fun _ _ hV => ⟨hV, Iff.rfl⟩) fun _ _ _ _ _ _ => ⟨trivial, fun _ => trivial⟩

theorem PFits.ite {α : Type} {H : Prop} {V R : α → Prop} {c : Prop} [Decidable c] {p' p q' q : PProg α} (hp : PFits r H V R p' p) (hq : PFits r H V R q' q) :
    PFits r H V R (if c then p' else q') (if c then p else q) := by
  by_cases h : c
  · rw [if_pos h, if_pos h]; exact hp
  · rw [if_neg h, if_neg h]; exact hq

theorem PFits.never {α : Type} {H : Prop} {V R : α → Prop} {p : PProg α} (h : ∀ a, ¬ PRet p a) : PFits r H V R p p := .refl p fun _ a ha => absurd ha (h a)

theorem pret_expected {α : Type} (what : What) (a : α) : ¬ PRet (errorExpected what >>= fun _ => PProg.bad) a := by
  rw [pret_bind]
  rintro ⟨_, _, h⟩
  exact h

theorem PFits.listLoop {α : Type} {H : Prop} {P : α → Prop} (close : Token) {f' f : PProg α} (hf : PFits r H (fun _ => True) P f' f) (n : Nat) :
    PFits r H (fun _ => True) (fun l => ∀ x ∈ l, P x) (Idl.listLoop close f' n) (Idl.listLoop close f n) := by
  induction n with
  | zero => exact .never fun _ h => h
  | succ n ih =>
    rw [Idl.listLoop, Idl.listLoop]
    refine .step fun t => .ite (.bind hf (fun x => .step fun _ => .bind (ih.imp (fun h => h.1) fun _ _ h => ⟨h, Iff.rfl⟩) (fun l => .pure _ fun hH _ y hy => ?_) ?_) ?_)
      (.pure _ fun _ _ x hx => by cases hx)
    · rcases List.mem_cons.1 hy with rfl | hy
      · exact hH.1.2
      · exact hH.2 y hy
    · rintro _ l b _ hb _
      cases hb
      exact ⟨trivial, fun h x hx => h x (by simp [hx])⟩
    · rintro _ x b _ hb _
      simp only [pret_bind, pret_pure] at hb
      obtain ⟨_, _, l, _, rfl⟩ := hb
      exact ⟨trivial, fun h => h x (by simp)⟩

theorem PFits.list {α : Type} {H : Prop} {P : α → Prop} (n : Nat) (open_ close : Token) {f' f : PProg α} (hf : PFits r H (fun _ => True) P f' f) :
    PFits r H (fun _ => True) (fun l => ∀ x ∈ l, P x) (Idl.list n open_ close f') (Idl.list n open_ close f) := by
  rw [Idl.list, Idl.list]
  refine .step fun _ => .bind (.listLoop close hf n) (fun l => .step fun _ => .pure _ fun hH _ => hH.2) ?_
  rintro _ l b _ hb _
  simp only [pret_bind, pret_pure] at hb
  obtain ⟨_, _, rfl⟩ := hb
  exact ⟨trivial, id⟩

theorem greatest_le {α : Type} {f : α → Nat} {l : List α} {d : Nat} : greatest f l ≤ d ↔ ∀ x ∈ l, f x ≤ d := by
  induction l with
  | nil => simp [greatest]
  | cons x l ih => rw [greatest, Nat.max_le, ih]; simp

theorem valuesDepth_le {l : List Value} {d : Nat} : valuesDepth l ≤ d ↔ ∀ x ∈ l, valueDepth x ≤ d := by
  induction l with
  | nil => simp [valuesDepth]
  | cons x l ih => rw [valuesDepth, Nat.max_le, ih]; simp

theorem pairsDepth_le {l : List (Value × Value)} {d : Nat} : pairsDepth l ≤ d ↔ ∀ x ∈ l, valueDepth x.1 ≤ d ∧ valueDepth x.2 ≤ d := by
  induction l with
  | nil => simp [pairsDepth]
  | cons x l ih => rw [pairsDepth, Nat.max_le, Nat.max_le, ih]; simp

theorem typeDepth_pos (t : TypeNode) : 1 ≤ typeDepth t := by cases t <;> simp [typeDepth]

theorem valueDepth_pos (v : Value) : 1 ≤ valueDepth v := by cases v <;> simp [valueDepth]

/-- A type. -/
theorem typeS_fits (n : Nat) : ∀ d, PFits r True (fun _ => True) (fun t => typeDepth t ≤ d) (typeS n d) (type_ n) := by
  induction n with
  | zero => intro d; rw [typeS, type_]; exact .never fun _ h => h
  | succ n ih =>
    intro d
    cases d with
    | zero => rw [typeS]; exact .over fun _ a _ _ h => by have := typeDepth_pos a; omega
    | succ d =>
      have ih {H : Prop} : PFits r H (fun _ => True) (fun t => typeDepth t ≤ d) (typeS n d) (type_ n) := (ih d).imp (fun _ => trivial) fun _ _ _ => ⟨trivial, Iff.rfl⟩
      rw [typeS, type_]
      refine .step fun t => .ite ?_ (.ite ?_ (.ite ?_ (.ite ?_ (.never (pret_expected _)))))
      · refine .step fun _ => .step fun _ => .bind ih (fun k => .step fun _ => .bind ih (fun v => .step fun _ => .step fun a => .pure _ fun hH _ => ?_) ?_) ?_
        · rw [typeDepth]; exact Nat.succ_le_succ (Nat.max_le.2 ⟨hH.1.2, hH.2⟩)
        · rintro _ v b _ hb _
          simp only [pret_bind, pret_pure] at hb
          obtain ⟨_, _, a, _, rfl⟩ := hb
          refine ⟨trivial, fun h => ?_⟩
          rw [typeDepth] at h
          omega
        · rintro _ k b _ hb _
          simp only [pret_bind, pret_pure] at hb
          obtain ⟨_, _, v, _, _, _, a, _, rfl⟩ := hb
          refine ⟨trivial, fun h => ?_⟩
          rw [typeDepth] at h
          omega
      · refine .step fun _ => .step fun _ => .bind ih (fun k => .step fun _ => .step fun a => .pure _ fun hH _ => ?_) ?_
        · rw [typeDepth]; exact Nat.succ_le_succ hH.2
        · rintro _ k b _ hb _
          simp only [pret_bind, pret_pure] at hb
          obtain ⟨_, _, a, _, rfl⟩ := hb
          refine ⟨trivial, fun h => ?_⟩
          rw [typeDepth] at h
          omega
      · refine .step fun _ => .step fun _ => .bind ih (fun k => .step fun _ => .step fun a => .pure _ fun hH _ => ?_) ?_
        · rw [typeDepth]; exact Nat.succ_le_succ hH.2
        · rintro _ k b _ hb _
          simp only [pret_bind, pret_pure] at hb
          obtain ⟨_, _, a, _, rfl⟩ := hb
          refine ⟨trivial, fun h => ?_⟩
          rw [typeDepth] at h
          omega
      · exact .step fun _ => .step fun _ => .pure _ fun _ _ => by rw [typeDepth]; omega

/-- A value. -/
theorem valueS_fits (n : Nat) : ∀ d, PFits r True (fun _ => True) (fun v => valueDepth v ≤ d) (valueS n d) (value n) := by
  induction n with
  | zero => intro d; rw [valueS, value]; exact .never fun _ h => h
  | succ n ih =>
    intro d
    cases d with
    | zero => rw [valueS]; exact .over fun _ a _ _ h => by have := valueDepth_pos a; omega
    | succ d =>
      have ih {H : Prop} : PFits r H (fun _ => True) (fun t => valueDepth t ≤ d) (valueS n d) (value n) := (ih d).imp (fun _ => trivial) fun _ _ _ => ⟨trivial, Iff.rfl⟩
      rw [valueS, value]
      refine .step fun t => .ite ?_ (.ite ?_ (.ite ?_ (.ite ?_ (.ite ?_ (.ite ?_ (.never (pret_expected _)))))))
      · exact .step fun _ => .pure _ fun _ _ => by simp [valueDepth]
      · exact .step fun _ => .pure _ fun _ _ => by simp [valueDepth]
      · exact .step fun _ => .pure _ fun _ _ => by simp [valueDepth]
      · exact .step fun _ => .pure _ fun _ _ => by simp [valueDepth]
      · refine .bind (.list n _ _ ih) (fun l => .pure _ fun hH _ => ?_) ?_
        · rw [valueDepth]; exact Nat.succ_le_succ (valuesDepth_le.2 hH.2)
        · rintro _ l b _ hb _
          cases hb
          exact ⟨trivial, fun h => valuesDepth_le.1 (by rw [valueDepth] at h; omega)⟩
      · have hpair {H : Prop} : PFits r H (fun _ => True) (fun x : Value × Value => valueDepth x.1 ≤ d ∧ valueDepth x.2 ≤ d)
            (do let k ← valueS n d; want Tk.colon; let v ← valueS n d; pure (k, v)) (do let k ← value n; want Tk.colon; let v ← value n; pure (k, v)) := by
          refine .bind ih (fun k => .step fun _ => .bind ih (fun v => .pure _ fun hH _ => ⟨hH.1.2, hH.2⟩) ?_) ?_
          · rintro _ v b _ hb _
            cases hb
            exact ⟨trivial, fun h => h.2⟩
          · rintro _ k b _ hb _
            simp only [pret_bind, pret_pure] at hb
            obtain ⟨_, _, v, _, rfl⟩ := hb
            exact ⟨trivial, fun h => h.1⟩
        refine .bind (.list n _ _ hpair) (fun l => .pure _ fun hH _ => ?_) ?_
        · rw [valueDepth]; exact Nat.succ_le_succ (pairsDepth_le.2 hH.2)
        · rintro _ l b _ hb _
          cases hb
          exact ⟨trivial, fun h => pairsDepth_le.1 (by rw [valueDepth] at h; omega)⟩

theorem typeS_fits' {H : Prop} (n d : Nat) : PFits r H (fun _ => True) (fun t => typeDepth t ≤ d) (typeS n d) (type_ n) := (typeS_fits n d).imp (fun _ => trivial) fun _ _ _ => ⟨trivial, Iff.rfl⟩

theorem valueS_fits' {H : Prop} (n d : Nat) : PFits r H (fun _ => True) (fun v => valueDepth v ≤ d) (valueS n d) (value n) := (valueS_fits n d).imp (fun _ => trivial) fun _ _ _ => ⟨trivial, Iff.rfl⟩

theorem PFits.assigned {α : Type} {H : Prop} {f : α → Nat} {d : Nat} {p' p : PProg α} (h : PFits r H (fun _ => True) (fun a => f a ≤ d) p' p) :
    PFits r H (fun _ => True) (fun o : Option α => o.elim 0 f ≤ d) (Idl.assigned p') (Idl.assigned p) := by
  rw [Idl.assigned, Idl.assigned]
  refine .step fun _ => .ite (.bind h (fun a => .pure _ fun hH _ => hH.2) ?_) (.pure _ fun _ _ => Nat.zero_le _)
  rintro _ a b _ hb _
  cases hb
  exact ⟨trivial, id⟩

theorem PFits.after {α : Type} {H : Prop} {f : α → Nat} {d : Nat} {t : Token} {p' p : PProg α} (h : PFits r H (fun _ => True) (fun a => f a ≤ d) p' p) :
    PFits r H (fun _ => True) (fun o : Option α => o.elim 0 f ≤ d) (Idl.after t p') (Idl.after t p) := by
  rw [Idl.after, Idl.after]
  refine .step fun _ => .ite (.bind h (fun a => .pure _ fun hH _ => hH.2) ?_) (.pure _ fun _ _ => Nat.zero_le _)
  rintro _ a b _ hb _
  cases hb
  exact ⟨trivial, id⟩

theorem constS_fits (n d : Nat) : PFits r True (fun _ => True) (fun t => defDepth t ≤ d) (constS n d) (const_ n) := by
  rw [constS, const_]
  refine .step fun _ => .bind (typeS_fits' n d) (fun t => .step fun name => .step fun _ => .bind (valueS_fits' n d) (fun v => .step fun _ => .pure _ fun hH _ => ?_) ?_) ?_
  · rw [defDepth]; exact Nat.max_le.2 ⟨hH.1.2, hH.2⟩
  · rintro _ v b _ hb _
    simp only [pret_bind, pret_pure] at hb
    obtain ⟨_, _, rfl⟩ := hb
    refine ⟨trivial, fun h => ?_⟩
    rw [defDepth] at h
    omega
  · rintro _ t b _ hb _
    simp only [pret_bind, pret_pure] at hb
    obtain ⟨_, _, _, _, v, _, _, _, rfl⟩ := hb
    refine ⟨trivial, fun h => ?_⟩
    rw [defDepth] at h
    omega

theorem typedefS_fits (n d : Nat) : PFits r True (fun _ => True) (fun t => defDepth t ≤ d) (typedefS n d) (typedef n) := by
  rw [typedefS, typedef]
  refine .step fun _ => .bind (typeS_fits' n d) (fun t => .step fun name => .step fun _ => .step fun _ => .pure _ fun hH _ => hH.2) ?_
  rintro _ t b _ hb _
  simp only [pret_bind, pret_pure] at hb
  obtain ⟨_, _, _, _, _, _, rfl⟩ := hb
  exact ⟨trivial, id⟩

theorem fieldS_fits {H : Prop} (n d : Nat) : PFits r H (fun _ => True) (fun f => fieldDepth f ≤ d) (fieldS n d) (field n) := by
  rw [fieldS, field]
  refine .step fun i => .step fun q => .bind (typeS_fits' n d) (fun t => .step fun ref => .step fun name => .bind (PFits.assigned (valueS_fits' n d)) (fun v => .step fun _ => .pure _ fun hH _ => ?_) ?_) ?_
  · rw [fieldDepth]; exact Nat.max_le.2 ⟨hH.1.2, hH.2⟩
  · rintro _ v b _ hb _
    simp only [pret_bind, pret_pure] at hb
    obtain ⟨_, _, rfl⟩ := hb
    refine ⟨trivial, fun h => ?_⟩
    exact (Nat.max_le.1 h).2
  · rintro _ t b _ hb _
    simp only [pret_bind, pret_pure] at hb
    obtain ⟨_, _, _, _, v, _, _, _, rfl⟩ := hb
    refine ⟨trivial, fun h => ?_⟩
    exact (Nat.max_le.1 h).1

theorem fieldsS_fits {H : Prop} (n d : Nat) (o c : Token) : PFits r H (fun _ => True) (fun fs => greatest fieldDepth fs ≤ d) (fieldsS n d o c) (fields n o c) :=
  (PFits.list n o c (fieldS_fits n d)).imp id fun _ _ _ => ⟨trivial, greatest_le.symm⟩

theorem structS_fits (n d : Nat) (t : Token) : PFits r True (fun _ => True) (fun t => defDepth t ≤ d) (structS n d t) (struct_ n t) := by
  rw [structS, struct_]
  refine .step fun _ => .step fun name => .bind (fieldsS_fits n d _ _) (fun l => .step fun _ => .pure _ fun hH _ => hH.2) ?_
  rintro _ l b _ hb _
  simp only [pret_bind, pret_pure] at hb
  obtain ⟨_, _, rfl⟩ := hb
  exact ⟨trivial, id⟩

theorem returnTypeS_fits {H : Prop} (n d : Nat) : PFits r H (fun _ => True) (fun x : Bool × Option TypeNode => x.2.elim 0 typeDepth ≤ d) (returnTypeS n d) (returnType n) := by
  rw [returnTypeS, returnType]
  refine .step fun _ => .ite (.pure _ fun _ _ => Nat.zero_le _) (.bind (typeS_fits' n d) (fun t => .pure _ fun hH _ => hH.2) ?_)
  rintro _ l b _ hb _
  cases hb
  exact ⟨trivial, id⟩

theorem methodS_fits {H : Prop} (n d : Nat) : PFits r H (fun _ => True) (fun m => methodDepth m ≤ d) (methodS n d) (method n) := by
  rw [methodS, method]
  refine .step fun o => .bind (returnTypeS_fits n d) (fun t => .step fun name => .bind (fieldsS_fits n d _ _) (fun args => .bind (PFits.after (fieldsS_fits n d _ _)) (fun th => .step fun _ =>
    .pure _ fun hH _ => ?_) ?_) ?_) ?_
  · rw [methodDepth]; exact Nat.max_le.2 ⟨hH.1.1.2, Nat.max_le.2 ⟨hH.1.2, hH.2⟩⟩
  · rintro _ v b _ hb _
    simp only [pret_bind, pret_pure] at hb
    obtain ⟨_, _, rfl⟩ := hb
    exact ⟨trivial, fun h => (Nat.max_le.1 (Nat.max_le.1 h).2).2⟩
  · rintro _ v b _ hb _
    simp only [pret_bind, pret_pure] at hb
    obtain ⟨_, _, _, _, rfl⟩ := hb
    exact ⟨trivial, fun h => (Nat.max_le.1 (Nat.max_le.1 h).2).1⟩
  · rintro _ t b _ hb _
    simp only [pret_bind, pret_pure] at hb
    obtain ⟨_, _, _, _, _, _, _, _, rfl⟩ := hb
    exact ⟨trivial, fun h => (Nat.max_le.1 h).1⟩

theorem serviceS_fits (n d : Nat) : PFits r True (fun _ => True) (fun t => defDepth t ≤ d) (serviceS n d) (service n) := by
  rw [serviceS, service]
  refine .step fun _ => .step fun name => .step fun _ => .bind ((PFits.list n _ _ (methodS_fits n d)).imp (V' := fun _ => True) (R' := fun l => greatest methodDepth l ≤ d) id fun _ _ _ => ⟨trivial, greatest_le.symm⟩)
    (fun l => .step fun _ => .pure _ fun hH _ => hH.2) ?_
  rintro _ l b _ hb _
  simp only [pret_bind, pret_pure] at hb
  obtain ⟨_, _, rfl⟩ := hb
  exact ⟨trivial, id⟩

theorem enum_fits (n d : Nat) : PFits r True (fun _ => True) (fun t => defDepth t ≤ d) (enum n) (enum n) := by
  refine .refl _ fun _ a ha _ => ?_
  rw [enum] at ha
  simp only [pret_bind, pret_pure] at ha
  obtain ⟨_, _, _, _, _, _, _, _, rfl⟩ := ha
  exact Nat.zero_le _

theorem definitionS_fits (n d : Nat) : PFits r True (fun _ => True) (fun t => defDepth t ≤ d) (definitionS n d) (definition n) := by
  rw [definitionS, definition]
  exact .step fun t => .ite (constS_fits n d) (.ite (typedefS_fits n d) (.ite (enum_fits n d) (.ite (structS_fits n d t) (.ite (serviceS_fits n d) (.never (pret_expected _))))))

theorem run_recover {α : Type} (p h : PProg α) (s : S) :
    (p.recover h).run r s = (p.run r s).bind fun x => match x.1 with
      | some a => .done (some a, x.2)
      | none => h.run r x.2 := by
  induction p generalizing s with
  | ret a => rfl
  | bad => rfl
  | diverge => rfl
  | call o k ih =>
    rw [PProg.recover, PProg.run, PProg.run, Out.bind_assoc]
    congr 1
    funext x
    exact ih x.1 x.2

theorem PFits.recover {α : Type} {H : Prop} {V R : α → Prop} {p' p h : PProg α} (hp : PFits r H V R p' p) (hV : ∀ a, PRet h a → ¬ V a) : PFits r H V R (p'.recover h) (p.recover h) := by
  refine ⟨fun s => ?_, fun hH s b s' hr hb => ?_⟩
  · rw [run_recover, run_recover]
    rcases hp.cuts s with h | h
    · rw [h]; exact .inl rfl
    · rw [h]; exact .inr rfl
  · rw [run_recover] at hr
    cases hx : p.run r s with
    | done x =>
      obtain ⟨a, s1⟩ := x
      rw [hx, Out.bind_done] at hr
      cases a with
      | none => exact absurd hb (hV b (.of_run hr))
      | some a =>
        cases hr
        obtain ⟨h3, h4⟩ := hp.exact hH s b s1 hx hb
        rw [run_recover, run_recover]
        exact ⟨fun hR => by rw [h3 hR], fun hR => by rw [h4 hR]; rfl⟩
    | blocked => rw [hx] at hr; cases hr
    | diverged => rw [hx] at hr; cases hr
    | panicked => rw [hx] at hr; cases hr

theorem defS_fits {H : Prop} (n d : Nat) : PFits r H Sensible (fun t => defDepth t ≤ d) (defS n d) (def_ n) := by
  rw [defS, def_]
  refine .step fun p => .recover ((definitionS_fits n d).imp (fun _ => trivial) fun _ _ _ => ⟨trivial, Iff.rfl⟩) fun a ha => ?_
  simp only [pret_bind, pret_pure] at ha
  obtain ⟨_, _, _, _, rfl⟩ := ha
  exact id

theorem defsS_fits {H : Prop} (n d : Nat) : PFits r H (fun l => ∀ x ∈ l, Sensible x) (fun l => greatest defDepth l ≤ d) (defsS n d) (defs n) := by
  induction n generalizing H with
  | zero => rw [defsS, defs]; exact .never fun _ h => h
  | succ n ih =>
    rw [defsS, defs]
    refine .step fun t => .ite (.bind (defS_fits (n + 1) d) (fun x => .bind ih (fun l => .pure _ fun hH _ => ?_) ?_) ?_) (.pure _ fun _ _ => Nat.zero_le _)
    · rw [greatest]; exact Nat.max_le.2 ⟨hH.1.2, hH.2⟩
    · rintro _ l b _ hb hW
      cases hb
      exact ⟨fun x hx => hW x (by simp [hx]), fun h => (Nat.max_le.1 h).2⟩
    · rintro _ x b _ hb hW
      simp only [pret_bind, pret_pure] at hb
      obtain ⟨l, _, rfl⟩ := hb
      exact ⟨hW x (by simp), fun h => (Nat.max_le.1 h).1⟩

theorem fileS_fits (n d : Nat) : PFits r True (fun f => ∀ x ∈ f.defs, Sensible x) (fun f => fileDepth f ≤ d) (fileS n d) (file_ n) := by
  rw [fileS, file_]
  refine .step fun hs => .bind (defsS_fits n d) (fun l => .pure _ fun hH _ => hH.2) ?_
  rintro _ l b _ hb hW
  cases hb
  exact ⟨hW, id⟩

end

/-! ## With enough room -/

theorem typeS_enough (n : Nat) : ∀ d, n ≤ d → typeS n d = type_ n := by
  induction n with
  | zero => intro d _; rw [typeS, type_]
  | succ n ih =>
    intro d hd
    obtain ⟨d, rfl⟩ := Nat.exists_eq_add_of_le' (show 1 ≤ d by omega)
    rw [typeS, type_, ih d (by omega)]

theorem valueS_enough (n : Nat) : ∀ d, n ≤ d → valueS n d = value n := by
  induction n with
  | zero => intro d _; rw [valueS, value]
  | succ n ih =>
    intro d hd
    obtain ⟨d, rfl⟩ := Nat.exists_eq_add_of_le' (show 1 ≤ d by omega)
    rw [valueS, value, ih d (by omega)]

theorem defsS_enough (n : Nat) : ∀ d, n ≤ d → defsS n d = defs n := by
  induction n with
  | zero => intro d _; rw [defsS, defs]
  | succ n ih =>
    intro d hd
    have h1 := typeS_enough (n + 1) d hd
    have h2 := valueS_enough (n + 1) d hd
    rw [defsS, defs, ih d (by omega)]
    simp only [defS, def_, definitionS, definition, constS, const_, typedefS, typedef, structS, struct_, fieldsS, fields, fieldS, field, serviceS, service, methodS, method, returnTypeS, returnType, h1, h2]

theorem fileS_enough (n d : Nat) (h : n ≤ d) : fileS n d = file_ n := by rw [fileS, file_, defsS_enough n d h]

end GoThrift
