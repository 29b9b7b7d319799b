import Verif.Proof.ParseResync
import Verif.Proof.Layout
import Verif.Spec.Places

/-!
# The parser does not depend on the positions of the tokens
-/

namespace GoThrift.Idl

open Spec

/-- Two programs that do the same, up to what positions are (those of the first are in `P` to those of the second), unless the first one runs out of steps. -/
inductive Sync (P : Nat → Nat → Prop) {α : Type} (R : α → α → Prop) : PProg α → PProg α → Prop
  | ret {a b : α} : R a b → Sync P R (.ret a) (.ret b)
  | bad : Sync P R .bad .bad
  | diverge {q : PProg α} : Sync P R .diverge q
  | call {o : POp} {k k' : o.Ans → PProg α} : o ≠ .pos → (∀ a, Sync P R (k a) (k' a)) → Sync P R (.call o k) (.call o k')
  | pos {k k' : Nat → PProg α} : (∀ a b, P a b → Sync P R (k a) (k' b)) → Sync P R (.call .pos k) (.call .pos k')

variable {P : Nat → Nat → Prop}

theorem Sync.bind {α β : Type} {R : α → α → Prop} {R' : β → β → Prop} {p p' : PProg α} {f f' : α → PProg β} (h : Sync P R p p') (hf : ∀ a b, R a b → Sync P R' (f a) (f' b)) :
    Sync P R' (p >>= f) (p' >>= f') := by
  show Sync P R' (p.bind f) (p'.bind f')
  induction h with
  | ret h => exact hf _ _ h
  | bad => exact .bad
  | diverge => exact .diverge
  | call ho _ ih => exact .call ho ih
  | pos _ ih => exact .pos fun a b h => ih a b h

theorem Sync.recover {α : Type} {R : α → α → Prop} {p p' q q' : PProg α} (h : Sync P R p p') (hq : Sync P R q q') : Sync P R (p.recover q) (p'.recover q') := by
  induction h with
  | ret h => exact .ret h
  | bad => exact hq
  | diverge => exact .diverge
  | call ho _ ih => exact .call ho ih
  | pos _ ih => exact .pos fun a b h => ih a b h

theorem Sync.mono {α : Type} {R R' : α → α → Prop} {p p' : PProg α} (h : Sync P R p p') (hR : ∀ a b, R a b → R' a b) : Sync P R' p p' := by
  induction h with
  | ret h => exact .ret (hR _ _ h)
  | bad => exact .bad
  | diverge => exact .diverge
  | call ho _ ih => exact .call ho ih
  | pos _ ih => exact .pos fun a b h => ih a b h

/-- Two programs that do the same and do not ask for positions, unless the first one runs out of steps. -/
abbrev Same (P : Nat → Nat → Prop) {α : Type} (p q : PProg α) : Prop := Sync P Eq p q

theorem Same.bind {α β : Type} {p p' : PProg α} {f f' : α → PProg β} (hp : Same P p p') (hf : ∀ a, Same P (f a) (f' a)) : Same P (p >>= f) (p' >>= f') := Sync.bind hp fun a b h => by subst h; exact hf a

theorem Same.andThen {α β : Type} {R : β → β → Prop} {p p' : PProg α} {f f' : α → PProg β} (hp : Same P p p') (hf : ∀ a, Sync P R (f a) (f' a)) : Sync P R (p >>= f) (p' >>= f') :=
  Sync.bind hp fun a b h => by subst h; exact hf a

theorem Sync.ite {α : Type} {R : α → α → Prop} {c : Prop} {_ : Decidable c} {p p' q q' : PProg α} (hp : Sync P R p p') (hq : Sync P R q q') : Sync P R (if c then p else q) (if c then p' else q') := by
  split
  · exact hp
  · exact hq

theorem Same.ite {α : Type} {c : Prop} {_ : Decidable c} {p p' q q' : PProg α} (hp : Same P p p') (hq : Same P q q') : Same P (if c then p else q) (if c then p' else q') := by
  split
  · exact hp
  · exact hq

theorem Same.pure {α : Type} (a : α) : Same P (pure a : PProg α) (pure a) := Sync.ret rfl
theorem Same.tok : Same P tok tok := .call (o := .tok) (fun h => nomatch h) fun _ => .ret rfl
theorem Same.lit : Same P lit lit := .call (o := .lit) (fun h => nomatch h) fun _ => .ret rfl
theorem Same.next : Same P next next := .call (o := .next) (fun h => nomatch h) fun _ => .ret rfl
theorem Same.expected (w : What) : Same P (errorExpected w) (errorExpected w) := .call (o := .expected w) (fun h => nomatch h) fun _ => .ret rfl

theorem got_same (x : Token) : Same P (got x) (got x) := .bind .tok fun _ => .ite (.bind .next fun _ => .pure _) (.pure _)
theorem want_same (x : Token) : Same P (want x) (want x) := .bind (got_same x) fun _ => .ite (.bind (.expected _) fun _ => .next) (.pure _)
theorem litOf_same (x : Token) : Same P (litOf x) (litOf x) := .bind .tok fun _ => .ite (.bind .lit fun _ => .bind .next fun _ => .pure _) (.bind (want_same _) fun _ => .pure _)

theorem separator_same {n m : Nat} (h : n ≤ m) : Same P (separator n) (separator m) := by
  induction n generalizing m with
  | zero => exact .diverge
  | succ n ih =>
    obtain ⟨m, rfl⟩ : ∃ k, m = k + 1 := ⟨m - 1, by omega⟩
    replace h : n ≤ m := by omega
    replace ih := ih h
    exact .bind .tok fun _ => .ite (.bind .next fun _ => ih) (.pure _)

theorem list_same {α : Type} {n m : Nat} (h : n ≤ m) (o c : Token) {f f' : PProg α} (hf : Same P f f') : Same P (list n o c f) (list m o c f') := by
  have hl : ∀ {n m : Nat}, n ≤ m → Same P (listLoop c f n) (listLoop c f' m) := fun {n} => by
    induction n with
    | zero => exact fun _ => .diverge
    | succ n ih =>
      intro m h
      obtain ⟨m, rfl⟩ : ∃ k, m = k + 1 := ⟨m - 1, by omega⟩
      replace h : n ≤ m := by omega
      exact .bind .tok fun _ => .ite (.bind hf fun _ => .bind (separator_same h) fun _ => .bind (ih h) fun _ => .pure _) (.pure _)
  exact .bind (want_same _) fun _ => .bind (hl h) fun _ => .bind (want_same _) fun _ => .pure _

theorem gotAssign_same : Same P gotAssign gotAssign := .bind (got_same _) fun _ => .ite (.pure _) (.bind .tok fun _ => .ite (.bind (want_same _) fun _ => .pure _) (.pure _))

theorem assigned_same {α : Type} {f f' : PProg α} (hf : Same P f f') : Same P (assigned f) (assigned f') := .bind gotAssign_same fun _ => .ite (.bind hf fun _ => .pure _) (.pure _)

theorem after_same {α : Type} (t : Token) {f f' : PProg α} (hf : Same P f f') : Same P (after t f) (after t f') := .bind (got_same _) fun _ => .ite (.bind hf fun _ => .pure _) (.pure _)

theorem annotations_same {n m : Nat} (h : n ≤ m) : Same P (annotations n) (annotations m) :=
  .bind .tok fun _ => .ite (.pure _) (.bind (list_same h _ _ (.bind (litOf_same _) fun _ => .bind (assigned_same (litOf_same _)) fun _ => .pure _)) fun _ => .pure _)

theorem type_same {n m : Nat} (h : n ≤ m) : Same P (type_ n) (type_ m) := by
  induction n generalizing m with
  | zero => exact .diverge
  | succ n ih =>
    obtain ⟨m, rfl⟩ : ∃ k, m = k + 1 := ⟨m - 1, by omega⟩
    replace h : n ≤ m := by omega
    replace ih := ih h
    refine .bind .tok fun _ => .ite ?_ (.ite ?_ (.ite ?_ (.ite ?_ (.bind (.expected _) fun _ => .bad))))
    · exact .bind (want_same _) fun _ => .bind (want_same _) fun _ => .bind ih fun _ => .bind (want_same _) fun _ => .bind ih fun _ => .bind (want_same _) fun _ => .bind (annotations_same h) fun _ => .pure _
    · exact .bind (want_same _) fun _ => .bind (want_same _) fun _ => .bind ih fun _ => .bind (want_same _) fun _ => .bind (annotations_same h) fun _ => .pure _
    · exact .bind (want_same _) fun _ => .bind (want_same _) fun _ => .bind ih fun _ => .bind (want_same _) fun _ => .bind (annotations_same h) fun _ => .pure _
    · exact .bind (litOf_same _) fun _ => .bind (annotations_same h) fun _ => .pure _

theorem value_same {n m : Nat} (h : n ≤ m) : Same P (value n) (value m) := by
  induction n generalizing m with
  | zero => exact .diverge
  | succ n ih =>
    obtain ⟨m, rfl⟩ : ∃ k, m = k + 1 := ⟨m - 1, by omega⟩
    replace h : n ≤ m := by omega
    replace ih := ih h
    refine .bind .tok fun _ => .ite ?_ (.ite ?_ (.ite ?_ (.ite ?_ (.ite ?_ (.ite ?_ (.bind (.expected _) fun _ => .bad))))))
    · exact .bind (litOf_same _) fun _ => .pure _
    · exact .bind (litOf_same _) fun _ => .pure _
    · exact .bind (litOf_same _) fun _ => .pure _
    · exact .bind (litOf_same _) fun _ => .pure _
    · exact .bind (list_same h _ _ ih) fun _ => .pure _
    · exact .bind (list_same h _ _ (.bind ih fun _ => .bind (want_same _) fun _ => .bind ih fun _ => .pure _)) fun _ => .pure _

theorem field_same {n m : Nat} (h : n ≤ m) : Same P (field n) (field m) :=
  .bind (.bind .tok fun _ => .ite (.bind (litOf_same _) fun _ => .bind (want_same _) fun _ => .pure _) (.pure _)) fun _ =>
  .bind (.bind (got_same _) fun _ => .ite (.pure _) (.bind (got_same _) fun _ => .ite (.pure _) (.pure _))) fun _ => .bind (type_same h) fun _ => .bind (got_same _) fun _ =>
  .bind (.bind .tok fun _ => .ite (.bind .lit fun _ => .bind .next fun _ => .pure _) (.bind (want_same _) fun _ => .pure _)) fun _ => .bind (assigned_same (value_same h)) fun _ =>
  .bind (annotations_same h) fun _ => .pure _

theorem fields_same {n m : Nat} (h : n ≤ m) (o c : Token) : Same P (fields n o c) (fields m o c) := list_same h o c (field_same h)

theorem method_same {n m : Nat} (h : n ≤ m) : Same P (method n) (method m) :=
  .bind (got_same _) fun _ => .bind (.bind (got_same _) fun _ => .ite (.pure _) (.bind (type_same h) fun _ => .pure _)) fun _ => .bind (litOf_same _) fun _ => .bind (fields_same h _ _) fun _ =>
  .bind (after_same _ (fields_same h _ _)) fun _ => .bind (annotations_same h) fun _ => .pure _

theorem definition_same {n m : Nat} (h : n ≤ m) : Sync P (fun d e => d = e ∧ ∀ a b, d ≠ .bad a b) (definition n) (definition m) := by
  have hp : ∀ d : Def, (∀ a b, d ≠ .bad a b) → Sync P (fun d e => d = e ∧ ∀ a b, d ≠ .bad a b) (pure d : PProg Def) (pure d) := fun d h => .ret ⟨rfl, h⟩
  refine Same.tok.andThen fun _ => .ite ?_ (.ite ?_ (.ite ?_ (.ite ?_ (.ite ?_ ((Same.expected _).andThen fun _ => .bad)))))
  · exact (want_same _).andThen fun _ => (type_same h).andThen fun _ => (litOf_same _).andThen fun _ => (want_same _).andThen fun _ => (value_same h).andThen fun _ => (separator_same h).andThen fun _ => hp _ fun _ _ h => nomatch h
  · exact (want_same _).andThen fun _ => (type_same h).andThen fun _ => (litOf_same _).andThen fun _ => (annotations_same h).andThen fun _ => (separator_same h).andThen fun _ => hp _ fun _ _ h => nomatch h
  · exact (want_same _).andThen fun _ => (litOf_same _).andThen fun _ => (list_same h _ _ (.bind (litOf_same _) fun _ => .bind (assigned_same (litOf_same _)) fun _ => .bind (annotations_same h) fun _ => .pure _)).andThen fun _ =>
      (annotations_same h).andThen fun _ => hp _ fun _ _ h => nomatch h
  · exact (want_same _).andThen fun _ => (litOf_same _).andThen fun _ => (fields_same h _ _).andThen fun _ => (annotations_same h).andThen fun _ => hp _ fun _ _ h => nomatch h
  · exact (want_same _).andThen fun _ => (litOf_same _).andThen fun _ => (after_same _ (litOf_same _)).andThen fun _ => (list_same h _ _ (method_same h)).andThen fun _ => (annotations_same h).andThen fun _ =>
      hp _ fun _ _ h => nomatch h

theorem resync_same {n m : Nat} (h : n ≤ m) : Same P (resync n) (resync m) := by
  induction n generalizing m with
  | zero => exact .diverge
  | succ n ih =>
    obtain ⟨m, rfl⟩ : ∃ k, m = k + 1 := ⟨m - 1, by omega⟩
    replace h : n ≤ m := by omega
    replace ih := ih h
    exact .bind .tok fun _ => .ite (.bind .next fun _ => ih) (.pure _)

theorem header_same {n m : Nat} (h : n ≤ m) : Same P (header n) (header m) :=
  .bind .tok fun _ => .ite (.bind (want_same _) fun _ => .bind (litOf_same _) fun _ => .pure _) (.ite (.bind (want_same _) fun _ =>
    .bind (.bind (got_same _) fun _ => .ite (.pure _) (.bind (litOf_same _) fun _ => .pure _)) fun _ => .bind (litOf_same _) fun _ => .bind (annotations_same h) fun _ => .pure _) (.pure _))

theorem headers_same {n m : Nat} (h : n ≤ m) : Same P (headers n) (headers m) := by
  induction n generalizing m with
  | zero => exact .diverge
  | succ n ih =>
    obtain ⟨m, rfl⟩ : ∃ k, m = k + 1 := ⟨m - 1, by omega⟩
    replace h : n ≤ m := by omega
    replace ih := ih h
    refine .bind (header_same h) fun o => ?_
    cases o with
    | none => exact .pure _
    | some h => exact .bind ih fun _ => .pure _

variable {pl : Nat → Nat}

theorem def_sync {n m : Nat} (h : n ≤ m) : Sync (fun i p => p = pl i) (fun d e : Def => e = d.place pl) (def_ n) (def_ m) := by
  refine Sync.bind (R := fun i p => p = pl i) (.pos fun _ _ h => .ret h) fun p p' hp => ?_
  refine ((definition_same h).mono fun a b h => ?_).recover ?_
  · rw [← h.1]
    cases a with
    | bad a b => exact absurd rfl (h.2 a b)
    | _ => rfl
  refine Sync.bind (resync_same h) fun _ _ _ => Sync.bind (R := fun i p => p = pl i) (.pos fun _ _ h => .ret h) fun q q' hq => .ret (by rw [hp, hq]; rfl)

theorem defs_sync {n m : Nat} (h : n ≤ m) : Sync (fun i p => p = pl i) (fun l l' : List Def => l' = l.map (Def.place pl)) (defs n) (defs m) := by
  induction n generalizing m with
  | zero => exact .diverge
  | succ n ih =>
    obtain ⟨m, rfl⟩ : ∃ k, m = k + 1 := ⟨m - 1, by omega⟩
    replace h : n ≤ m := by omega
    replace ih := ih h
    refine Sync.bind Same.tok fun t t' ht => ?_
    subst ht
    split
    · exact Sync.bind (def_sync (by omega)) fun d d' hd => Sync.bind ih fun l l' h' => .ret (by rw [List.map_cons, hd, h'])
    · exact .ret rfl

theorem file_sync {n m : Nat} (h : n ≤ m) : Sync (fun i p => p = pl i) (fun f g : File => g = f.place pl) (file_ n) (file_ m) :=
  Sync.bind (headers_same h) fun _ _ h1 => Sync.bind (defs_sync h) fun _ _ h' => .ret (by rw [← h1, h']; rfl)

/-! ## Whatever the positions are -/

theorem def_any {n m : Nat} (h : n ≤ m) : Sync (fun _ _ => True) (fun _ _ => True) (def_ n) (def_ m) := by
  refine Sync.bind (R := fun _ _ => True) (.pos fun _ _ _ => .ret trivial) fun p p' _ => ?_
  refine ((definition_same h).mono fun a b h => trivial).recover ?_
  exact Sync.bind (resync_same h) fun _ _ _ => Sync.bind (R := fun _ _ => True) (.pos fun _ _ _ => .ret trivial) fun _ _ _ => .ret trivial

theorem defs_any {n m : Nat} (h : n ≤ m) : Sync (fun _ _ => True) (fun _ _ => True) (defs n) (defs m) := by
  induction n generalizing m with
  | zero => exact .diverge
  | succ n ih =>
    obtain ⟨m, rfl⟩ : ∃ k, m = k + 1 := ⟨m - 1, by omega⟩
    replace h : n ≤ m := by omega
    replace ih := ih h
    refine Sync.bind Same.tok fun t t' ht => ?_
    subst ht
    split
    · exact Sync.bind (def_any (by omega)) fun _ _ _ => Sync.bind ih fun _ _ _ => .ret trivial
    · exact .ret trivial

theorem file_any {n m : Nat} (h : n ≤ m) : Sync (fun _ _ => True) (fun _ _ => True) (file_ n) (file_ m) :=
  Sync.bind (headers_same h) fun _ _ _ => Sync.bind (defs_any h) fun _ _ _ => .ret trivial

/-- The tokens and errors at other positions. -/
def TS.place (pl : Nat → Nat) (t : TS) : TS := ⟨t.rest.map fun x => (x.1, x.2.1, pl x.2.2), pl t.eof, t.errs.map fun e => (pl e.1, e.2)⟩

theorem TS.place_tok (t : TS) : (t.place pl).tok = t.tok := by
  obtain ⟨rest, eof, errs⟩ := t
  cases rest <;> rfl

theorem TS.place_lit (t : TS) : (t.place pl).lit = t.lit := by
  obtain ⟨rest, eof, errs⟩ := t
  cases rest <;> rfl

theorem TS.place_pos (t : TS) : (t.place pl).pos = pl t.pos := by
  obtain ⟨rest, eof, errs⟩ := t
  cases rest <;> rfl

theorem TS.place_next (t : TS) : (t.place pl).next = t.next.place pl := by
  obtain ⟨rest, eof, errs⟩ := t
  cases rest <;> rfl

theorem TS.place_expected (t : TS) (w : What) : (t.place pl).expected w = (t.expected w).place pl := by
  have hf : (t.place pl).found = t.found := by unfold TS.found; rw [t.place_tok, t.place_lit]
  unfold TS.expected
  rw [hf, t.place_pos]
  simp only [TS.place, List.map_append, List.map_cons, List.map_nil]

theorem Sync.run {α : Type} {R : α → α → Prop} {p p' : PProg α} (h : Sync (fun i p => p = pl i) R p p') {t t1 : TS} {r : Option α} (hr : p.run tokSource t = .done (r, t1)) :
    ∃ r', p'.run tokSource (t.place pl) = .done (r', t1.place pl) ∧ ((r = none ∧ r' = none) ∨ ∃ a b, r = some a ∧ r' = some b ∧ R a b) := by
  induction h generalizing t with
  | ret h =>
    injection hr with hr
    injection hr with h1 h2
    subst h1
    subst h2
    exact ⟨_, rfl, .inr ⟨_, _, rfl, rfl, h⟩⟩
  | bad =>
    injection hr with hr
    injection hr with h1 h2
    subst h1
    subst h2
    exact ⟨_, rfl, .inl ⟨rfl, rfl⟩⟩
  | diverge => cases hr
  | @call o k k' ho _ ih =>
    cases o with
    | pos => exact absurd rfl ho
    | tok =>
      obtain ⟨r', h⟩ := ih t.tok hr
      refine ⟨r', ?_⟩
      rw [← t.place_tok (pl := pl)] at h
      exact h
    | lit =>
      obtain ⟨r', h⟩ := ih t.lit hr
      refine ⟨r', ?_⟩
      rw [← t.place_lit (pl := pl)] at h
      exact h
    | next =>
      obtain ⟨r', h⟩ := ih () hr
      refine ⟨r', ?_⟩
      rw [← t.place_next (pl := pl)] at h
      exact h
    | expected w =>
      obtain ⟨r', h⟩ := ih () hr
      refine ⟨r', ?_⟩
      rw [← t.place_expected (pl := pl)] at h
      exact h
  | pos _ ih =>
    obtain ⟨r', h⟩ := ih t.pos (pl t.pos) rfl hr
    refine ⟨r', ?_⟩
    rw [← t.place_pos (pl := pl)] at h
    exact h

end GoThrift.Idl
