import Verif.Proof.ParseAll
import Verif.Spec.ParseWork

/-!
# What the parser costs, by the tokens it consumes
-/

namespace GoThrift.Idl

open Spec

/-- What a run on the tokens costs. -/
def PProg.cost (w : Weights) {α : Type} : PProg α → TS → Nat
  | .ret _, _ => 0
  | .bad, _ => 0
  | .diverge, _ => 0
  | .call o k, t => w.of o + match tokSource.step o t with
    | .done a => (k a.1).cost w a.2
    | _ => 0

/-- The costs of the operations as integers, what a token that is consumed pays for, and what an identifier costs. -/
structure Rates (w : Weights) where
  A : Int
  I : Int
  i1 : (w.tok + w.lit + w.next : Int) ≤ I
  i2 : (2 * w.tok + w.next + w.expected : Int) ≤ I
  a1 : (10 * w.tok + w.lit + w.next + 2 * (w.tok + w.next + w.expected) : Int) + I ≤ A
  a2 : (10 * w.tok + w.next + 2 * w.pos + (w.tok + w.next + w.expected) + w.expected : Int) + I ≤ A
  a3 : (6 * w.tok + w.next + w.pos + 2 * (w.tok + w.next + w.expected) : Int) + I ≤ A
  a4 : (4 * w.tok + w.next : Int) + 2 * I ≤ A

variable {w : Weights} (R : Rates w) {α β : Type}

theorem Rates.pos : 0 ≤ R.A := by
  have := R.i1; have := R.a1; omega

/-- The program costs at most `c` more than what the tokens pay for that it consumes, if it returns, and `d` if it panics. -/
def Takes (c d : Int) (p : PProg α) (t : TS) : Prop :=
  ∀ r t', p.run tokSource t = .done (r, t') → (p.cost w t : Int) + R.A * (t'.rest.length : Int) ≤ R.A * (t.rest.length : Int) + (if r = none then d else c)

variable {R}

theorem Takes.mono {c d c' d' : Int} {p : PProg α} {t : TS} (h : Takes R c d p t) (hc : c ≤ c') (hd : d ≤ d') : Takes R c' d' p t := fun r t' hr => by
  have := h r t' hr
  split at this <;> split <;> first | omega | simp_all

theorem cost_bind (p : PProg α) (f : α → PProg β) (t : TS) : (p >>= f).cost w t = p.cost w t + match p.run tokSource t with
    | .done (some a, t') => (f a).cost w t'
    | _ => 0 := by
  show (p.bind f).cost w t = _
  induction p generalizing t with
  | ret a => show _ = 0 + (f a).cost w t; rw [Nat.zero_add]; rfl
  | bad => rfl
  | diverge => rfl
  | call o k ih =>
    rw [PProg.bind, PProg.cost, PProg.cost, PProg.run]
    cases hs : tokSource.step o t with
    | done a => dsimp only; rw [ih, Out.bind_done, Nat.add_assoc]
    | blocked => rfl
    | diverged => rfl
    | panicked => rfl

theorem Takes.bind {c d c1 d1 : Int} {p : PProg α} {f : α → PProg β} {t : TS} (hp : Takes R c1 d1 p t) (hd : d1 ≤ d)
    (hf : ∀ a t', p.run tokSource t = .done (some a, t') → Takes R (c - c1) (d - c1) (f a) t') : Takes R c d (p >>= f) t := by
  intro r t' hr
  rw [run_bind] at hr
  rw [cost_bind]
  cases hx : p.run tokSource t with
  | done x =>
    obtain ⟨a, t1⟩ := x
    rw [hx, Out.bind_done] at hr
    have h1 := hp a t1 hx
    cases a with
    | none =>
      cases hr
      simp only [if_true] at h1 ⊢
      omega
    | some a =>
      have h2 := hf a t1 hx r t' hr
      dsimp only at h1 ⊢
      split at h2 <;> simp_all <;> omega
  | blocked => rw [hx] at hr; cases hr
  | diverged => rw [hx] at hr; cases hr
  | panicked => rw [hx] at hr; cases hr

theorem Takes.pure {c d : Int} (a : α) (t : TS) (h : 0 ≤ c) : Takes R c d (pure a) t := fun r t' hr => by
  cases hr
  show (0 : Int) + _ ≤ _
  split
  · rename_i h; cases h
  · omega

theorem Takes.diverge {c d : Int} (t : TS) : Takes R c d (.diverge : PProg α) t := fun r t' hr => by cases hr

theorem Takes.ite {c d : Int} {q : Prop} [Decidable q] {p p' : PProg α} {t : TS} (h : q → Takes R c d p t) (h' : ¬ q → Takes R c d p' t) : Takes R c d (if q then p else p') t := by
  by_cases hc : q
  · rw [if_pos hc]; exact h hc
  · rw [if_neg hc]; exact h' hc

theorem Takes.op {c d : Int} {o : POp} {f : o.Ans → PProg α} {t : TS} {x : o.Ans} {t1 : TS} (hs : tokSource.step o t = .done (x, t1)) (n : Int)
    (hl : R.A * (t1.rest.length : Int) ≤ R.A * (t.rest.length : Int) + n) (h : Takes R (c - w.of o - n) (d - w.of o - n) (f x) t1) : Takes R c d (PProg.op o >>= f) t := by
  intro r t' hr
  have hr' : (f x).run tokSource t1 = .done (r, t') := by
    have : ((PProg.op o >>= f) : PProg α).run tokSource t = (f x).run tokSource t1 := by
      show (tokSource.step o t).bind _ = _
      rw [hs]; rfl
    rw [← this]; exact hr
  have hc : ((PProg.op o >>= f) : PProg α).cost w t = w.of o + (f x).cost w t1 := by
    show (PProg.call o fun a => PProg.bind (.ret a) f).cost w t = _
    rw [PProg.cost, hs]; rfl
  have := h r t' hr'
  rw [hc]
  split at this <;> split <;> first | omega | simp_all

theorem Takes.tok {c d : Int} {f : Token → PProg α} {t : TS} (h : Takes R (c - w.tok) (d - w.tok) (f t.tok) t) : Takes R c d (tok >>= f) t :=
  Takes.op (o := .tok) rfl 0 (by omega) (h.mono (by simp [Weights.of]) (by simp [Weights.of]))

theorem Takes.lit {c d : Int} {f : Bytes → PProg α} {t : TS} (h : Takes R (c - w.lit) (d - w.lit) (f t.lit) t) : Takes R c d (lit >>= f) t :=
  Takes.op (o := .lit) rfl 0 (by omega) (h.mono (by simp [Weights.of]) (by simp [Weights.of]))

theorem Takes.posOf {c d : Int} {f : Nat → PProg α} {t : TS} (h : Takes R (c - w.pos) (d - w.pos) (f t.pos) t) : Takes R c d (pos >>= f) t :=
  Takes.op (o := .pos) rfl 0 (by omega) (h.mono (by simp [Weights.of]) (by simp [Weights.of]))

theorem Takes.error {c d : Int} {x : What} {f : Unit → PProg α} {t : TS} (h : Takes R (c - w.expected) (d - w.expected) (f ()) (t.expected x)) : Takes R c d (errorExpected x >>= f) t :=
  Takes.op (o := .expected x) (t1 := t.expected x) rfl 0 (by show R.A * (t.rest.length : Int) ≤ R.A * (t.rest.length : Int) + 0; omega) (h.mono (by simp [Weights.of]) (by simp [Weights.of]))

/-- A token is consumed. -/
theorem Takes.next {c d : Int} {f : Unit → PProg α} {t : TS} (ht : t.tok ≠ Tk.eof) (h : Takes R (c - w.next + R.A) (d - w.next + R.A) (f ()) t.next) : Takes R c d (next >>= f) t := by
  obtain ⟨y, p, l, hr⟩ := rest_of_tok' ht
  refine Takes.op (o := .next) (t1 := t.next) rfl (-R.A) ?_ (h.mono (by simp only [Weights.of]; omega) (by simp only [Weights.of]; omega))
  show R.A * (t.rest.tail.length : Int) ≤ _
  rw [hr, List.tail_cons, List.length_cons]
  push_cast
  rw [Int.mul_add]
  omega

/-- Or none, at the end. -/
theorem Takes.next' {c d : Int} {f : Unit → PProg α} {t : TS} (h : Takes R (c - w.next) (d - w.next) (f ()) t.next) : Takes R c d (Idl.next >>= f) t := by
  refine Takes.op (o := .next) (t1 := t.next) rfl 0 ?_ (h.mono (by simp only [Weights.of]; omega) (by simp only [Weights.of]; omega))
  show R.A * (t.rest.tail.length : Int) ≤ _
  have := Int.mul_le_mul_of_nonneg_left (show (t.rest.tail.length : Int) ≤ t.rest.length by rw [List.length_tail]; omega) R.pos
  omega

theorem Takes.bad {c d : Int} {x : What} {t : TS} (h : (w.expected : Int) ≤ d) : Takes R c d (errorExpected x >>= fun _ => (.bad : PProg α)) t :=
  .error fun r t' hr => by
    cases hr
    show (0 : Int) + _ ≤ _
    rw [if_pos rfl]
    omega

/-- `next` at the end of a program. -/
theorem bind_pure_unit (p : PProg Unit) : (p >>= fun _ => pure ()) = p := by
  show p.bind _ = p
  induction p with
  | ret a => rfl
  | bad => rfl
  | diverge => rfl
  | call o k ih => rw [PProg.bind]; congr 1; funext a; exact ih a

/-! ## The small functions -/

section
variable {c d : Int} {t : TS}

/-- Cases for `got`. -/
theorem Takes.got {x : Token} (hx : x ≠ Tk.eof) {f : Bool → PProg α} (h : t.tok = x → Takes R (c - w.tok - w.next + R.A) (d - w.tok - w.next + R.A) (f true) t.next)
    (h' : t.tok ≠ x → Takes R (c - w.tok) (d - w.tok) (f false) t) : Takes R c d (got x >>= f) t := by
  have e : (Idl.got x >>= f) = Idl.tok >>= fun (y : Token) => if y = x then Idl.next >>= fun _ => f true else f false := by
    unfold Idl.got
    show PProg.bind (PProg.bind _ _) _ = PProg.bind _ _
    show PProg.call _ _ = PProg.call _ _
    refine congrArg (PProg.call _) (funext fun (y : Token) => ?_)
    show PProg.bind (if y = x then _ else _) f = (if y = x then _ else _)
    split <;> rfl
  rw [e]
  refine .tok (.ite (fun hy => .next (by rw [hy]; exact hx) ((h hy).mono (by omega) (by omega))) h')

theorem want_ite (x : Token) (f : Unit → PProg α) : (want x >>= f) = got x >>= fun b => if b then f () else errorExpected (.tok x) >>= fun _ => Idl.next >>= f := by
  unfold Idl.want
  show PProg.bind (PProg.bind _ _) _ = PProg.bind _ _
  have assoc : ∀ (p : PProg Bool) (g : Bool → PProg Unit), (p.bind g).bind f = p.bind fun b => (g b).bind f := by
    intro p g
    induction p with
    | ret a => rfl
    | bad => rfl
    | diverge => rfl
    | call o k ih => rw [PProg.bind, PProg.bind, PProg.bind]; congr 1; funext a; exact ih a
  rw [assoc]
  congr 1; funext b
  cases b <;> rfl

/-- `want` where a token is consumed, whichever it is. -/
theorem Takes.want {x : Token} (hx : x ≠ Tk.eof) {f : Unit → PProg α} (ht : t.tok ≠ Tk.eof)
    (h : ∀ t', Takes R (c - (w.tok + w.next + w.expected) + R.A) (d - (w.tok + w.next + w.expected) + R.A) (f ()) t') : Takes R c d (want x >>= f) t := by
  rw [want_ite]
  refine .got hx (fun _ => ?_) fun _ => ?_
  · exact (h _).mono (by omega) (by omega)
  · exact .error (.next (t := t.expected _) ht ((h _).mono (by omega) (by omega)))

/-- `want` of the current token. -/
theorem Takes.want_tok {x : Token} (hx : x ≠ Tk.eof) {f : Unit → PProg α} (ht : t.tok = x) (h : ∀ t', Takes R (c - (w.tok + w.next) + R.A) (d - (w.tok + w.next) + R.A) (f ()) t') :
    Takes R c d (Idl.want x >>= f) t := by
  rw [want_ite]
  exact .got hx (fun _ => (h _).mono (by omega) (by omega)) fun hn => absurd ht hn

/-- `want` anywhere. -/
theorem Takes.want' {x : Token} (hx : x ≠ Tk.eof) {f : Unit → PProg α} (h : ∀ t', Takes R (c - (w.tok + w.next + w.expected)) (d - (w.tok + w.next + w.expected)) (f ()) t') :
    Takes R c d (Idl.want x >>= f) t := by
  have := R.pos
  rw [want_ite]
  refine .got hx (fun _ => (h _).mono (by omega) (by omega)) fun _ => .error (.next' ((h _).mono (by omega) (by omega)))

theorem takes_litOf {x : Token} (hx : x ≠ Tk.eof) (hc : R.I ≤ c) : Takes R c d (litOf x) t := by
  have := R.pos; have := R.i1; have := R.i2
  unfold Idl.litOf
  refine .tok (.ite (fun h => .lit (.next (by rw [h]; exact hx) (.pure _ _ (by omega)))) fun h => .want' hx fun t' => .pure _ _ (by omega))

/-- `lit` where there is a token. -/
theorem takes_litOf_some {x : Token} (hx : x ≠ Tk.eof) (ht : t.tok ≠ Tk.eof) (hc : R.I - R.A ≤ c) : Takes R c d (litOf x) t := by
  have := R.i1; have := R.i2
  unfold Idl.litOf
  refine .tok (.ite (fun h => .lit (.next ht (.pure _ _ (by omega)))) fun h => .want hx ht fun t' => .pure _ _ (by omega))

/-- `lit` of the current token. -/
theorem takes_litOf_tok {x : Token} (hx : x ≠ Tk.eof) (ht : t.tok = x) (hc : (w.tok + w.lit + w.next : Int) - R.A ≤ c) : Takes R c d (litOf x) t := by
  unfold Idl.litOf
  exact .tok (.ite (fun h => .lit (.next (by rw [h]; exact hx) (.pure _ _ (by omega)))) fun h => absurd ht h)

/-- Sequencing with something that costs `c1`, and `d` if it panics. -/
theorem Takes.seq {p : PProg α} {f : α → PProg β} (c1 : Int) (hp : Takes R c1 d p t) (hf : ∀ a t', Takes R (c - c1) (d - c1) (f a) t') : Takes R c d (p >>= f) t :=
  hp.bind (Int.le_refl _) fun a t' _ => hf a t'

theorem takes_separator (n : Nat) (hc : (w.tok : Int) ≤ c) : Takes R c d (separator n) t := by
  have := R.i1; have := R.a1; have := R.i2
  induction n generalizing t c d with
  | zero => exact .diverge t
  | succ n ih =>
    refine .tok (.ite (fun h => ?_) fun h => .pure _ _ (by omega))
    refine .next (by rcases h with h | h <;> rw [h] <;> decide) (ih (by omega))

theorem takes_listLoop {close : Token} {f : PProg α} (n : Nat) {df : Int} (hf : ∀ t : TS, t.tok ≠ Tk.eof → Takes R (-2 * w.tok) df f t) (hc : (w.tok : Int) ≤ c) (hd : (w.tok : Int) + df ≤ d) :
    Takes R c d (listLoop close f n) t := by
  induction n generalizing t c d with
  | zero => exact .diverge t
  | succ n ih =>
    refine .tok (.ite (fun h => ?_) fun h => .pure _ _ (by omega))
    refine (hf t h.1).bind (by omega) fun x t1 _ => ?_
    refine .seq w.tok (takes_separator n (Int.le_refl _)) fun _ t2 => ?_
    refine .seq w.tok (ih (Int.le_refl _) (by omega)) fun l t3 => .pure _ _ (by omega)

/-- `list` where there is the opening token. -/
theorem takes_list_tok {open_ close : Token} (ho : open_ ≠ Tk.eof) (hcl : close ≠ Tk.eof) {f : PProg α} (n : Nat) {df : Int} (hf : ∀ t : TS, t.tok ≠ Tk.eof → Takes R (-2 * w.tok) df f t)
    (ht : t.tok = open_) (hc : (w.tok + w.next + w.tok + (w.tok + w.next + w.expected) : Int) - R.A ≤ c) (hd : (w.tok + w.next + w.tok : Int) - R.A + df ≤ d) : Takes R c d (list n open_ close f) t := by
  unfold Idl.list
  refine .want_tok ho ht fun t1 => ?_
  refine .seq w.tok (takes_listLoop n hf (Int.le_refl _) (by omega)) fun l t2 => ?_
  exact .want' hcl fun t3 => .pure _ _ (by omega)

/-- `list` anywhere. -/
theorem takes_list {open_ close : Token} (ho : open_ ≠ Tk.eof) (hcl : close ≠ Tk.eof) {f : PProg α} (n : Nat) {df : Int} (hf : ∀ t : TS, t.tok ≠ Tk.eof → Takes R (-2 * w.tok) df f t)
    (hc : (w.tok + 2 * (w.tok + w.next + w.expected) : Int) ≤ c) (hd : (w.tok + w.next + w.expected + w.tok : Int) + df ≤ d) : Takes R c d (list n open_ close f) t := by
  unfold Idl.list
  refine .want' ho fun t1 => ?_
  refine .seq w.tok (takes_listLoop n hf (Int.le_refl _) (by omega)) fun l t2 => ?_
  exact .want' hcl fun t3 => .pure _ _ (by omega)

/-- Cases for `gotAssign`. -/
theorem takes_assigned {f : PProg α} {cf df : Int} (hf : ∀ t, Takes R cf df f t) (hcf : cf ≤ R.A - (w.tok + w.next + w.expected)) (hc : (2 * w.tok : Int) ≤ c)
    (hd : (2 * w.tok + (w.tok + w.next + w.expected) : Int) - R.A + df ≤ d) : Takes R c d (assigned f) t := by
  have e : assigned f = got Tk.assign >>= fun b => if b then (f >>= fun v => Pure.pure (some v)) else tok >>= fun y => if y = Tk.eql then want Tk.assign >>= fun _ => (f >>= fun v => Pure.pure (some v)) else Pure.pure none := by
    unfold assigned gotAssign
    have assoc : ∀ {γ δ : Type} (p : PProg γ) (g : γ → PProg Bool) (k : Bool → PProg δ), (p.bind g).bind k = p.bind fun b => (g b).bind k := by
      intro γ δ p g k
      induction p with
      | ret a => rfl
      | bad => rfl
      | diverge => rfl
      | call o q ih => rw [PProg.bind, PProg.bind, PProg.bind]; congr 1; funext a; exact ih a
    show PProg.bind (PProg.bind _ _) _ = PProg.bind _ _
    rw [assoc]
    congr 1; funext b
    cases b
    · show PProg.bind (PProg.bind _ _) _ = PProg.bind _ _
      rw [assoc]
      congr 1; funext y
      show PProg.bind (if y = Tk.eql then _ else _) _ = (if y = Tk.eql then _ else _)
      split
      · show PProg.bind (PProg.bind _ _) _ = PProg.bind _ _
        rw [assoc]
        rfl
      · rfl
    · rfl
  rw [e]
  refine .got (by decide) (fun h => ?_) fun h => ?_
  · exact (hf _).bind (by omega) fun v t' _ => .pure _ _ (by omega)
  · refine .tok (.ite (fun h => ?_) fun h => .pure _ _ (by omega))
    refine .want (by decide) (by rw [h]; decide) fun t' => (hf _).bind (by omega) fun v t' _ => .pure _ _ (by omega)

theorem takes_annotation (ht : t.tok ≠ Tk.eof) (hc : R.I - R.A + 2 * w.tok ≤ c) : Takes R c 0 annotation t := by
  have := R.i1; have := R.a1; have := R.i2
  unfold annotation
  refine .seq (R.I - R.A) (takes_litOf_some (by decide) ht (Int.le_refl _)) fun a t1 => ?_
  refine .seq (2 * w.tok) (takes_assigned (cf := R.I) (df := 0) (fun t => takes_litOf (by decide) (Int.le_refl _)) (by omega) (Int.le_refl _) (by omega)) fun v t2 => .pure _ _ (by omega)

theorem takes_annotations (n : Nat) (hc : (w.tok : Int) ≤ c) (hd : (3 * w.tok + w.next : Int) - R.A ≤ d) : Takes R c d (annotations n) t := by
  have := R.i1; have := R.a1; have := R.i2
  unfold annotations
  refine .tok (.ite (fun h => .pure _ _ (by omega)) fun h => ?_)
  refine .seq 0 (takes_list_tok (by decide) (by decide) n (df := 0) (fun t ht => takes_annotation ht (by omega)) (by simpa using h) (by omega) (by omega)) fun l t' => .pure _ _ (by omega)

/-- What a type costs if there is one. -/
abbrev Rates.ct (R : Rates w) : Int := 3 * w.tok + w.lit + w.next - R.A

theorem takes_type (n : Nat) (hc : R.ct ≤ c) (hd : (w.tok + w.expected : Int) ≤ d) : Takes R c d (type_ n) t := by
  have := R.i1; have := R.a1; have := R.i2
  have hct : R.ct = 3 * w.tok + w.lit + w.next - R.A := rfl
  induction n generalizing t c d with
  | zero => exact .diverge t
  | succ n ih =>
    unfold type_
    refine .tok (.ite (fun h => ?_) fun _ => .ite (fun h => ?_) fun _ => .ite (fun h => ?_) fun _ => .ite (fun h => ?_) fun _ => ?_)
    · refine .want_tok (by decide) h fun t1 => .want' (by decide) fun t2 => .seq R.ct (ih (by omega) (by omega)) fun k t3 => .want' (by decide) fun t4 => .seq R.ct (ih (by omega) (by omega)) fun v t5 =>
        .want' (by decide) fun t6 => .seq w.tok (takes_annotations n (by omega) (by omega)) fun a t7 => .pure _ _ (by omega)
    · refine .want_tok (by decide) h fun t1 => .want' (by decide) fun t2 => .seq R.ct (ih (by omega) (by omega)) fun k t3 =>
        .want' (by decide) fun t6 => .seq w.tok (takes_annotations n (by omega) (by omega)) fun a t7 => .pure _ _ (by omega)
    · refine .want_tok (by decide) h fun t1 => .want' (by decide) fun t2 => .seq R.ct (ih (by omega) (by omega)) fun k t3 =>
        .want' (by decide) fun t6 => .seq w.tok (takes_annotations n (by omega) (by omega)) fun a t7 => .pure _ _ (by omega)
    · refine .seq (w.tok + w.lit + w.next - R.A) (takes_litOf_tok (by decide) h (by omega)) fun a t1 => .seq w.tok (takes_annotations n (by omega) (by omega)) fun a t7 => .pure _ _ (by omega)
    · exact .bad (by omega)

/-- What a value costs if there is one. -/
abbrev Rates.cv (R : Rates w) : Int := 3 * w.tok + w.lit + w.next + (w.tok + w.next + w.expected) - R.A

theorem takes_value (n : Nat) (hc : R.cv ≤ c) (hd : (w.tok + w.expected : Int) ≤ d) : Takes R c d (value n) t := by
  have := R.i1; have := R.a1; have := R.i2
  have hcv : R.cv = 3 * w.tok + w.lit + w.next + (w.tok + w.next + w.expected) - R.A := rfl
  induction n generalizing t c d with
  | zero => exact .diverge t
  | succ n ih =>
    unfold value
    have leaf : ∀ {x : Token} {g : Bytes → Value}, x ≠ Tk.eof → t.tok = x → Takes R (c - w.tok) (d - w.tok) (litOf x >>= fun b => pure (g b)) t := fun hx h =>
      .seq (w.tok + w.lit + w.next - R.A) (takes_litOf_tok hx h (by omega)) fun a t1 => .pure _ _ (by omega)
    refine .tok (.ite (leaf (by decide)) fun _ => .ite (leaf (by decide)) fun _ => .ite (leaf (by decide)) fun _ => .ite (leaf (by decide)) fun _ => .ite (fun h => ?_) fun _ => .ite (fun h => ?_) fun _ => ?_)
    · refine .seq (w.tok + w.next + w.tok + (w.tok + w.next + w.expected) - R.A) (takes_list_tok (by decide) (by decide) n (df := w.tok + w.expected) (fun t ht => ih (by omega) (by omega)) h (by omega) (by omega)) fun l t' => .pure _ _ (by omega)
    · refine .seq (w.tok + w.next + w.tok + (w.tok + w.next + w.expected) - R.A) (takes_list_tok (by decide) (by decide) n (df := w.tok + w.expected) (fun t ht => ?_) h (by omega) (by omega)) fun l t' => .pure _ _ (by omega)
      refine .seq R.cv (ih (by omega) (by omega)) fun k t1 => .want' (by decide) fun t2 => .seq R.cv (ih (by omega) (by omega)) fun v t3 => .pure _ _ (by omega)
    · exact .bad (by omega)

theorem takes_enumValue (n : Nat) (ht : t.tok ≠ Tk.eof) (hc : -2 * (w.tok : Int) ≤ c) (hd : 0 ≤ d) : Takes R c d (enumValue n) t := by
  have := R.i1; have := R.a1; have := R.i2
  unfold enumValue
  refine .seq (R.I - R.A) (takes_litOf_some (by decide) ht (Int.le_refl _)) fun a t1 => ?_
  refine .seq (2 * w.tok) (takes_assigned (cf := R.I) (df := 0) (fun t => takes_litOf (by decide) (Int.le_refl _)) (by omega) (Int.le_refl _) (by omega)) fun v t2 => ?_
  exact .seq w.tok (takes_annotations n (by omega) (by omega)) fun a t7 => .pure _ _ (by omega)

theorem takes_fieldName (hc : R.I ≤ c) : Takes R c d fieldName t := by
  have := R.i1; have := R.a1; have := R.i2
  unfold fieldName
  refine .tok (.ite (fun h => ?_) fun h => ?_)
  · refine .lit (.next (fun e => ?_) (.pure _ _ (by omega)))
    rw [e] at h
    exact absurd h (by decide)
  · exact .want' (by decide) fun t' => .pure _ _ (by omega)

theorem takes_requiredness (hc : 2 * (w.tok : Int) ≤ c) : Takes R c d requiredness t := by
  have := R.i1; have := R.a1; have := R.i2
  unfold requiredness
  refine .got (by decide) (fun h => ?_) fun h => ?_
  · exact .pure _ _ (by omega)
  · refine .got (by decide) (fun h => ?_) fun h => ?_
    · exact .pure _ _ (by omega)
    · exact .pure _ _ (by omega)

theorem takes_fieldId (hc : (w.tok : Int) ≤ c) : Takes R c d fieldId t := by
  have := R.i1; have := R.a1; have := R.i2
  unfold fieldId
  refine .tok (.ite (fun h => ?_) fun h => .pure _ _ (by omega))
  exact .seq (w.tok + w.lit + w.next - R.A) (takes_litOf_tok (by decide) h (by omega)) fun a t1 => .want' (by decide) fun t' => .pure _ _ (by omega)

theorem takes_field (n : Nat) (hc : -2 * (w.tok : Int) ≤ c) (hd : (4 * w.tok + w.expected : Int) ≤ d) : Takes R c d (field n) t := by
  have := R.i1; have := R.a1; have := R.i2
  have hct : R.ct = 3 * w.tok + w.lit + w.next - R.A := rfl
  have hcv : R.cv = 3 * w.tok + w.lit + w.next + (w.tok + w.next + w.expected) - R.A := rfl
  unfold field
  refine .seq w.tok (takes_fieldId (by omega)) fun _ t1 => .seq (2 * w.tok) (takes_requiredness (by omega)) fun _ t2 => .seq R.ct (takes_type n (by omega) (by omega)) fun _ t3 => ?_
  have rest : ∀ (b : Bool) (t : TS) {c d : Int} (ty : TypeNode) (i : Option Bytes) (r : Bool × Bool), R.I + 3 * w.tok ≤ c → R.I + 3 * w.tok ≤ d → Takes R c d (do
      let name ← fieldName
      let v ← assigned (value n)
      let a ← annotations n
      pure (⟨i, r.1, r.2, ty, b, name, v, a⟩ : Field)) t := fun b t c d ty i r h1 h2 =>
    .seq R.I (takes_fieldName (by omega)) fun _ t5 =>
    .seq (2 * w.tok) (takes_assigned (cf := R.cv) (df := w.tok + w.expected) (fun t => takes_value n (by omega) (by omega)) (by omega) (by omega) (by omega)) fun _ t6 =>
    .seq w.tok (takes_annotations n (by omega) (by omega)) fun _ t7 => .pure _ _ (by omega)
  exact .got (by decide) (fun h => rest _ _ _ _ _ (by omega) (by omega)) fun h => rest _ _ _ _ _ (by omega) (by omega)

theorem takes_fields {open_ close : Token} (ho : open_ ≠ Tk.eof) (hcl : close ≠ Tk.eof) (n : Nat)
    (hc : (w.tok + 2 * (w.tok + w.next + w.expected) : Int) ≤ c) (hd : (w.tok + w.next + w.expected + 5 * w.tok + w.expected : Int) ≤ d) : Takes R c d (fields n open_ close) t :=
  takes_list ho hcl n (df := 4 * w.tok + w.expected) (fun t _ => takes_field n (by omega) (by omega)) (by omega) (by omega)

theorem takes_returnType (n : Nat) (hc : w.tok + R.ct ≤ c) (hd : (2 * w.tok + w.expected : Int) ≤ d) : Takes R c d (returnType n) t := by
  have := R.i1; have := R.a1; have := R.i2
  have hct : R.ct = 3 * w.tok + w.lit + w.next - R.A := rfl
  unfold returnType
  refine .got (by decide) (fun h => .pure _ _ (by omega)) fun h => ?_
  exact .seq R.ct (takes_type n (by omega) (by omega)) fun _ t3 => .pure _ _ (by omega)

theorem takes_after {x : Token} (hx : x ≠ Tk.eof) {f : PProg α} {cf df : Int} (hf : ∀ t, Takes R cf df f t) (hcf : cf ≤ R.A - w.next) (hc : (w.tok : Int) ≤ c)
    (hd : (w.tok + w.next : Int) - R.A + df ≤ d) : Takes R c d (after x f) t := by
  unfold after
  refine .got hx (fun h => ?_) fun h => .pure _ _ (by omega)
  exact (hf _).bind (by omega) fun v t' _ => .pure _ _ (by omega)

theorem takes_method (n : Nat) (hc : -2 * (w.tok : Int) ≤ c) (hd : (3 * w.tok + w.expected : Int) ≤ d) : Takes R c d (method n) t := by
  have := R.i1; have := R.a1; have := R.i2; have := R.a2
  have hct : R.ct = 3 * w.tok + w.lit + w.next - R.A := rfl
  unfold method
  have rest : ∀ (b : Bool) (t : TS) {c d : Int}, 7 * w.tok + w.lit + w.next + R.I + 2 * (w.tok + w.next + w.expected) - R.A ≤ c → (2 * w.tok + w.expected : Int) ≤ d → Takes R c d (do
      let ret ← returnType n
      let name ← ident
      let args ← fields n Tk.lparen Tk.rparen
      let throws ← after Tk.throws (fields n Tk.lparen Tk.rparen)
      let a ← annotations n
      pure (⟨b, ret.1, ret.2, name, args, throws, a⟩ : Method)) t := fun b t c d h1 h2 =>
    .seq (w.tok + R.ct) (takes_returnType n (by omega) (by omega)) fun _ t1 =>
    .seq R.I (takes_litOf (by decide) (by omega)) fun _ t2 =>
    .seq (w.tok + 2 * (w.tok + w.next + w.expected)) (takes_fields (by decide) (by decide) n (by omega) (by omega)) fun _ t3 =>
    .seq w.tok (takes_after (by decide) (cf := w.tok + 2 * (w.tok + w.next + w.expected)) (df := w.tok + w.next + w.expected + 5 * w.tok + w.expected)
      (fun t => takes_fields (by decide) (by decide) n (by omega) (by omega)) (by omega) (by omega) (by omega)) fun _ t4 =>
    .seq w.tok (takes_annotations n (by omega) (by omega)) fun _ t7 => .pure _ _ (by omega)
  exact .got (by decide) (fun h => rest _ _ (by omega) (by omega)) fun h => rest _ _ (by omega) (by omega)

/-! ## Definitions -/

/-- What a definition costs after its keyword was seen. -/
abbrev Rates.cd (R : Rates w) : Int := 4 * w.tok + w.next + 2 * (w.tok + w.next + w.expected) + R.I - R.A

/-- And if it panics. -/
abbrev Rates.dd (R : Rates w) : Int := 6 * w.tok + w.next + (w.tok + w.next + w.expected) + w.expected + R.I - R.A

theorem takes_const (n : Nat) (ht : t.tok = Tk.const) : Takes R R.cd R.dd (const_ n) t := by
  have := R.i1; have := R.a1; have := R.i2; have := R.a2
  have hct : R.ct = 3 * w.tok + w.lit + w.next - R.A := rfl
  have hcv : R.cv = 3 * w.tok + w.lit + w.next + (w.tok + w.next + w.expected) - R.A := rfl
  have hcd : R.cd = 4 * w.tok + w.next + 2 * (w.tok + w.next + w.expected) + R.I - R.A := rfl
  have hdd : R.dd = 6 * w.tok + w.next + (w.tok + w.next + w.expected) + w.expected + R.I - R.A := rfl
  unfold const_
  exact .want_tok (by decide) ht fun t1 => .seq R.ct (takes_type n (by omega) (by omega)) fun _ t3 => .seq R.I (takes_litOf (by decide) (by omega)) fun _ t2 => .want' (by decide) fun t1 =>
    .seq R.cv (takes_value n (by omega) (by omega)) fun _ t2 => .seq w.tok (takes_separator n (by omega)) fun _ t3 => .pure _ _ (by omega)

theorem takes_typedef (n : Nat) (ht : t.tok = Tk.typedef) : Takes R R.cd R.dd (typedef n) t := by
  have := R.i1; have := R.a1; have := R.i2; have := R.a2
  have hct : R.ct = 3 * w.tok + w.lit + w.next - R.A := rfl
  have hcd : R.cd = 4 * w.tok + w.next + 2 * (w.tok + w.next + w.expected) + R.I - R.A := rfl
  have hdd : R.dd = 6 * w.tok + w.next + (w.tok + w.next + w.expected) + w.expected + R.I - R.A := rfl
  unfold typedef
  exact .want_tok (by decide) ht fun t1 => .seq R.ct (takes_type n (by omega) (by omega)) fun _ t3 => .seq R.I (takes_litOf (by decide) (by omega)) fun _ t2 =>
    .seq w.tok (takes_annotations n (by omega) (by omega)) fun _ t7 => .seq w.tok (takes_separator n (by omega)) fun _ t3 => .pure _ _ (by omega)

theorem takes_enum (n : Nat) (ht : t.tok = Tk.enum) : Takes R R.cd R.dd (enum n) t := by
  have := R.i1; have := R.a1; have := R.i2; have := R.a2
  have hcd : R.cd = 4 * w.tok + w.next + 2 * (w.tok + w.next + w.expected) + R.I - R.A := rfl
  have hdd : R.dd = 6 * w.tok + w.next + (w.tok + w.next + w.expected) + w.expected + R.I - R.A := rfl
  unfold enum
  exact .want_tok (by decide) ht fun t1 => .seq R.I (takes_litOf (by decide) (by omega)) fun _ t2 =>
    .seq (w.tok + 2 * (w.tok + w.next + w.expected)) (takes_list (by decide) (by decide) n (df := 0) (fun t h => takes_enumValue n h (by omega) (by omega)) (by omega) (by omega)) fun _ t3 =>
    .seq w.tok (takes_annotations n (by omega) (by omega)) fun _ t7 => .pure _ _ (by omega)

theorem takes_struct (n : Nat) {x : Token} (hx : x ≠ Tk.eof) (ht : t.tok = x) : Takes R R.cd R.dd (struct_ n x) t := by
  have := R.i1; have := R.a1; have := R.i2; have := R.a2
  have hcd : R.cd = 4 * w.tok + w.next + 2 * (w.tok + w.next + w.expected) + R.I - R.A := rfl
  have hdd : R.dd = 6 * w.tok + w.next + (w.tok + w.next + w.expected) + w.expected + R.I - R.A := rfl
  unfold struct_
  exact .want_tok hx ht fun t1 => .seq R.I (takes_litOf (by decide) (by omega)) fun _ t2 =>
    .seq (w.tok + 2 * (w.tok + w.next + w.expected)) (takes_fields (by decide) (by decide) n (by omega) (by omega)) fun _ t3 =>
    .seq w.tok (takes_annotations n (by omega) (by omega)) fun _ t7 => .pure _ _ (by omega)

theorem takes_service (n : Nat) (ht : t.tok = Tk.service) : Takes R R.cd R.dd (service n) t := by
  have := R.i1; have := R.a1; have := R.i2; have := R.a2
  have hcd : R.cd = 4 * w.tok + w.next + 2 * (w.tok + w.next + w.expected) + R.I - R.A := rfl
  have hdd : R.dd = 6 * w.tok + w.next + (w.tok + w.next + w.expected) + w.expected + R.I - R.A := rfl
  unfold service
  exact .want_tok (by decide) ht fun t1 => .seq R.I (takes_litOf (by decide) (by omega)) fun _ t2 =>
    .seq w.tok (takes_after (by decide) (cf := R.I) (df := 0) (fun t => takes_litOf (by decide) (Int.le_refl _)) (by omega) (by omega) (by omega)) fun _ t4 =>
    .seq (w.tok + 2 * (w.tok + w.next + w.expected)) (takes_list (by decide) (by decide) n (df := 3 * w.tok + w.expected) (fun t h => takes_method n (by omega) (by omega)) (by omega) (by omega)) fun _ t3 =>
    .seq w.tok (takes_annotations n (by omega) (by omega)) fun _ t7 => .pure _ _ (by omega)

theorem isDefinition_cases : ∀ x : Token, isDefinition x = true → x = Tk.const ∨ x = Tk.typedef ∨ x = Tk.enum ∨ x = Tk.struct ∨ x = Tk.union ∨ x = Tk.exception ∨ x = Tk.service := by
  decide +kernel

/-- Where there is the keyword of a definition. -/
theorem takes_definition (n : Nat) (ht : isDefinition t.tok = true) : Takes R (w.tok + R.cd) (w.tok + R.dd) (definition n) t := by
  have e1 : w.tok + R.cd - w.tok = R.cd := by omega
  have e2 : w.tok + R.dd - w.tok = R.dd := by omega
  unfold definition
  refine .tok ?_
  rw [e1, e2]
  refine .ite (takes_const n) fun h1 => .ite (takes_typedef n) fun h2 => .ite (takes_enum n) fun h3 => .ite (fun h => takes_struct n ?_ rfl) fun h4 => .ite (takes_service n) fun h5 => ?_
  · rcases h with h | h | h <;> rw [h] <;> decide
  · simp only [not_or] at h4
    have := isDefinition_cases _ ht
    simp_all

theorem takes_resync (n : Nat) (hc : (w.tok : Int) ≤ c) : Takes R c d (resync n) t := by
  have := R.i1; have := R.a1; have := R.i2; have := R.a2
  induction n generalizing t c d with
  | zero => exact .diverge t
  | succ n ih =>
    refine .tok (.ite (fun h => ?_) fun h => .pure _ _ (by omega))
    exact .next h.1 (ih (by omega))

/-- Where there is something to skip. -/
theorem takes_resync_skip (n : Nat) (ht : t.tok ≠ Tk.eof) (hn : isDefinition t.tok = false) (hc : (2 * w.tok + w.next : Int) - R.A ≤ c) : Takes R c d (resync n) t := by
  have := R.i1; have := R.a1; have := R.i2; have := R.a2
  cases n with
  | zero => exact .diverge t
  | succ n =>
    refine .tok (.ite (fun h => ?_) fun h => absurd ⟨ht, by rw [hn]; decide⟩ h)
    exact .next h.1 (takes_resync n (by omega))

theorem cost_recover (p h : PProg α) (t : TS) : (p.recover h).cost w t = p.cost w t + match p.run tokSource t with
    | .done (none, t') => h.cost w t'
    | _ => 0 := by
  induction p generalizing t with
  | ret a => rfl
  | bad => show _ = 0 + h.cost w t; rw [Nat.zero_add]; rfl
  | diverge => rfl
  | call o k ih =>
    rw [PProg.recover, PProg.cost, PProg.cost, PProg.run]
    cases hs : tokSource.step o t with
    | done a => dsimp only; rw [ih, Out.bind_done, Nat.add_assoc]
    | blocked => rfl
    | diverged => rfl
    | panicked => rfl

theorem Takes.recover {p h : PProg α} {dp : Int} (hp : Takes R c dp p t) (hh : ∀ t', p.run tokSource t = .done (none, t') → Takes R (c - dp) (d - dp) h t') : Takes R c d (p.recover h) t := by
  intro r t' hr
  rw [run_recover] at hr
  rw [cost_recover]
  cases hx : p.run tokSource t with
  | done x =>
    obtain ⟨a, t1⟩ := x
    rw [hx, Out.bind_done] at hr
    have h1 := hp a t1 hx
    cases a with
    | some a =>
      cases hr
      simp only [reduceCtorEq, if_false] at h1 ⊢
      omega
    | none =>
      have h2 := hh t1 hx r t' hr
      dsimp only at h1 ⊢
      split at h2 <;> simp_all <;> omega
  | blocked => rw [hx] at hr; cases hr
  | diverged => rw [hx] at hr; cases hr
  | panicked => rw [hx] at hr; cases hr

/-- A definition, or what is skipped in its place. -/
theorem takes_def (n : Nat) (ht : t.tok ≠ Tk.eof) (hc : -(w.tok : Int) ≤ c) : Takes R c d (def_ n) t := by
  have := R.i1; have := R.a1; have := R.i2; have := R.a2; have := R.a3
  have hcd : R.cd = 4 * w.tok + w.next + 2 * (w.tok + w.next + w.expected) + R.I - R.A := rfl
  have hdd : R.dd = 6 * w.tok + w.next + (w.tok + w.next + w.expected) + w.expected + R.I - R.A := rfl
  unfold def_
  refine .posOf ?_
  cases hk : isDefinition t.tok with
  | true =>
    refine .recover ((takes_definition n hk).mono (by omega) (Int.le_refl _)) fun t' _ => ?_
    exact .seq w.tok (takes_resync n (by omega)) fun _ t1 => .posOf (.pure _ _ (by omega))
  | false =>
    have hrun : (definition n).run tokSource t = .done (none, t.expected .definition) ∧ (definition n).cost w t = w.tok + w.expected := by
      have hx : ∀ x, isDefinition x = true → t.tok ≠ x := fun x hx e => by rw [e, hx] at hk; cases hk
      have e : ∀ (p : PProg Def), (if t.tok = Tk.const then const_ n else if t.tok = Tk.typedef then typedef n else if t.tok = Tk.enum then enum n
          else if t.tok = Tk.struct ∨ t.tok = Tk.union ∨ t.tok = Tk.exception then struct_ n t.tok else if t.tok = Tk.service then service n else p) = p := fun p => by
        rw [if_neg (hx _ (by decide)), if_neg (hx _ (by decide)), if_neg (hx _ (by decide)), if_neg (fun h => h.elim (hx _ (by decide)) fun h => h.elim (hx _ (by decide)) (hx _ (by decide))), if_neg (hx _ (by decide))]
      constructor
      · show PProg.run tokSource (if t.tok = Tk.const then const_ n else _) t = _
        rw [e]; rfl
      · show w.tok + PProg.cost w (if t.tok = Tk.const then const_ n else _) t = _
        rw [e]; rfl
    refine .recover (dp := w.tok + w.expected) (fun r t' hr => ?_) fun t' ht' => ?_
    · rw [hrun.1] at hr
      cases hr
      rw [hrun.2, if_pos rfl]
      show _ + R.A * (t.rest.length : Int) ≤ _
      omega
    · rw [hrun.1] at ht'
      cases ht'
      exact .seq (2 * w.tok + w.next - R.A) (takes_resync_skip n ht hk (by omega)) fun _ t1 => .posOf (.pure _ _ (by omega))

theorem takes_scope (hc : w.tok + R.I ≤ c) : Takes R c d scope t := by
  have := R.i1; have := R.a1; have := R.i2
  unfold scope
  refine .got (by decide) (fun h => .pure _ _ (by omega)) fun h => ?_
  exact .seq R.I (takes_litOf (by decide) (by omega)) fun _ t2 => .pure _ _ (by omega)

theorem takes_header_none (n : Nat) (h1 : t.tok ≠ Tk.include_) (h2 : t.tok ≠ Tk.namespace_) (hc : (w.tok : Int) ≤ c) : Takes R c d (header n) t := by
  unfold header
  exact .tok (.ite (fun h => absurd h h1) fun _ => .ite (fun h => absurd h h2) fun _ => .pure _ _ (by omega))

theorem takes_header_some (n : Nat) (h : t.tok = Tk.include_ ∨ t.tok = Tk.namespace_) (hc : 0 ≤ c) (hd : 0 ≤ d) : Takes R c d (header n) t := by
  have := R.i1; have := R.a1; have := R.i2; have := R.a4
  unfold header
  refine .tok (.ite (fun h => ?_) fun h1 => .ite (fun h => ?_) fun h2 => absurd h (fun h => h.elim h1 h2))
  · exact .want_tok (by decide) h fun t1 => .seq R.I (takes_litOf (by decide) (by omega)) fun _ t2 => .pure _ _ (by omega)
  · exact .want_tok (by decide) h fun t1 => .seq (w.tok + R.I) (takes_scope (by omega)) fun _ t2 => .seq R.I (takes_litOf (by decide) (by omega)) fun _ t2 =>
      .seq w.tok (takes_annotations n (by omega) (by omega)) fun _ t7 => .pure _ _ (by omega)

theorem takes_headers (n : Nat) (hc : (w.tok : Int) ≤ c) (hd : (w.tok : Int) ≤ d) : Takes R c d (headers n) t := by
  induction n generalizing t c d with
  | zero => exact .diverge t
  | succ n ih =>
    unfold headers
    by_cases h : t.tok = Tk.include_ ∨ t.tok = Tk.namespace_
    · refine (takes_header_some n h (Int.le_refl _) (Int.le_refl _)).bind (by omega) fun a t1 _ => ?_
      cases a with
      | none => exact .pure _ _ (by omega)
      | some a => exact .seq w.tok (ih (by omega) (by omega)) fun _ t2 => .pure _ _ (by omega)
    · simp only [not_or] at h
      refine (takes_header_none n h.1 h.2 (Int.le_refl _)).bind (Int.le_refl d) fun a t1 ha => ?_
      have : (header n).run tokSource t = .done (some none, t) := by
        show PProg.run tokSource (if t.tok = Tk.include_ then _ else if t.tok = Tk.namespace_ then _ else _) t = _
        rw [if_neg h.1, if_neg h.2]; rfl
      rw [this] at ha
      cases ha
      exact .pure _ _ (by omega)

theorem takes_defs (n : Nat) (hc : (w.tok : Int) ≤ c) : Takes R c d (defs n) t := by
  induction n generalizing t c d with
  | zero => exact .diverge t
  | succ n ih =>
    unfold defs
    refine .tok (.ite (fun h => ?_) fun h => .pure _ _ (by omega))
    exact .seq (-w.tok) (takes_def (n + 1) h (Int.le_refl _)) fun _ t1 => .seq w.tok (ih (by omega)) fun _ t2 => .pure _ _ (by omega)

/-- The whole file. -/
theorem takes_file (n : Nat) : Takes R (2 * w.tok) (2 * w.tok) (file_ n) t := by
  unfold file_
  exact .seq w.tok (takes_headers n (by omega) (by omega)) fun _ t1 => .seq w.tok (takes_defs n (by omega)) fun _ t2 => .pure _ _ (by omega)

end

/-! ## The run on the scanner -/

/-- What the program does on the scanner, and what is counted, from what it does on the tokens. -/
theorem Sim.counted {u : Unicode} {K : List (Nat × Msg)} (w : Weights) (p : PProg α) {s : Scanner} {t t' : TS} {r : Option α} (k : Nat) (h : Sim u K s t) (hr : p.run tokSource t = .done (r, t')) :
    ∃ s', p.run (scannerSource u) s = .done (r, s') ∧ p.run ((scannerSource u).counted w) (s, k) = .done (r, (s', k + p.cost w t)) := by
  induction p generalizing s t k with
  | ret a => cases hr; exact ⟨s, rfl, rfl⟩
  | bad => cases hr; exact ⟨s, rfl, rfl⟩
  | diverge => cases hr
  | call o q ih =>
    obtain ⟨a, s1, t1, h1, h2, h3⟩ := h.step o
    rw [PProg.run, h2, Out.bind_done] at hr
    obtain ⟨s', g1, g2⟩ := ih a (k + w.of o) h3 hr
    refine ⟨s', ?_, ?_⟩
    · rw [PProg.run, h1, Out.bind_done]; exact g1
    · rw [PProg.run]
      show (((scannerSource u).step o s).bind fun a => .done (a.1, (a.2, k + w.of o))).bind _ = _
      rw [h1, Out.bind_done, Out.bind_done, g2, PProg.cost, h2, Nat.add_assoc]

/-- Each error is counted. -/
theorem cost_errs (p : PProg α) {t t' : TS} {r : Option α} (hr : p.run tokSource t = .done (r, t')) : t'.errs.length = t.errs.length + p.cost ⟨0, 0, 0, 0, 1⟩ t := by
  induction p generalizing t with
  | ret a => cases hr; rfl
  | bad => cases hr; rfl
  | diverge => cases hr
  | call o q ih =>
    rw [PProg.run] at hr
    rw [PProg.cost]
    cases o with
    | tok => rw [ih _ hr]; show _ = _ + (0 + _); rw [Nat.zero_add]; rfl
    | pos => rw [ih _ hr]; show _ = _ + (0 + _); rw [Nat.zero_add]; rfl
    | lit => rw [ih _ hr]; show _ = _ + (0 + _); rw [Nat.zero_add]; rfl
    | next => rw [ih _ hr]; show _ = _ + (0 + _); rw [Nat.zero_add]; rfl
    | expected x =>
      rw [ih _ hr]
      show (t.errs ++ [_]).length + _ = _ + (1 + _)
      rw [List.length_append, List.length_singleton, Nat.add_assoc]
      rfl

/-- What `file_` costs on the tokens. -/
theorem file_cost (R : Rates w) (n : Nat) {t t' : TS} {r : Option File} (hr : (file_ n).run tokSource t = .done (r, t')) : ((file_ n).cost w t : Int) ≤ R.A * t.rest.length + 2 * w.tok := by
  have := takes_file (R := R) (t := t) n r t' hr
  have h0 := Int.mul_nonneg R.pos (Int.natCast_nonneg t'.rest.length)
  split at this <;> omega

/-- `Parse`, with what is counted. -/
theorem Parse_counted (R : Rates w) (env : IdlEnv) (src : Bytes) : ∃ toks sf s0 f s' k, scanAll env.u (src.length + 2) (Scanner.init src) = .done (toks, sf) ∧ (code toks).length ≤ src.length ∧
    (Scanner.init src).nextToken env.u = .done s0 ∧ (file_ (src.length + 1)).run ((scannerSource env.u).counted w) (s0, 0) = .done (some f, (s', k)) ∧
    Parse env src = .done (f, env.sort (less env) s'.errs) ∧ (k : Int) ≤ R.A * (code toks).length + 2 * w.tok := by
  obtain ⟨toks, sf, l, K, f, t, errs, s1, s2, s3, s4, s5, s6, s7, s8, s9, s10, s11, s12, s13⟩ := Parse_run env src
  obtain ⟨s, l', es, h1, h2, h3, h4, h5, h6, h7, h8⟩ := Scanner.nextToken_toks env.u (Scanner.init_at src).1 (by rw [Scanner.init_tok]; decide)
  rw [Scanner.init_src] at h3
  obtain ⟨hl, hK⟩ := Scanner.scanAll_toks ⟨_, (Scanner.init_at src).1⟩ h1 h2 s1
  rw [← s2] at hl
  subst hl
  have hsim : Sim env.u ((s.errs ++ es).map PosErr.key) s ⟨l', src.length, []⟩ :=
    ⟨⟨es, h2, by rw [List.append_nil]⟩, by rw [h3], Scanner.lined_invariant.nextToken env.u (Scanner.init_lined src) h1⟩
  obtain ⟨s', g1, g2⟩ := hsim.counted w (file_ (src.length + 1)) 0 s8
  have hlen : l'.length = (code toks).length := by rw [s2, List.length_map]
  refine ⟨toks, sf, s, f, s', _, s1, by rw [← hlen]; exact s4, h1, g2, ?_, ?_⟩
  · rw [Parse, h1, Out.bind_done, g1, Out.bind_done]
  · have := file_cost R _ s8
    rw [Nat.zero_add, ← hlen]
    exact this

end GoThrift.Idl
