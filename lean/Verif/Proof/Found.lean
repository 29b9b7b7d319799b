import Verif.Proof.Partial
import Verif.Spec.Found

/-!
# Which wire type comes next
-/

namespace GoThrift

open Spec

/-- If no call fails, the program ends, if it ends, with `Q`; the ghost state is the list of calls. -/
def Wok {α : Type} (Q : α → List Ev → Prop) : RProg α → List Ev → Prop
  | .ret a, g => Q a g
  | .diverge, _ => True
  | .panic, _ => True
  | .call o k, g => ∀ a, Wok Q (k (.ok a)) (g ++ [⟨o, a⟩])

namespace Wok

theorem imp {α : Type} {Q Q' : α → List Ev → Prop} (h : ∀ a g, Q a g → Q' a g) {p : RProg α} {g : List Ev} (hp : Wok Q p g) : Wok Q' p g := by
  induction p generalizing g with
  | ret a => exact h _ _ hp
  | diverge => trivial
  | panic => trivial
  | call o k ih => exact fun a => ih _ (hp a)

theorem bind {α β : Type} {Q : α → List Ev → Prop} {Q' : β → List Ev → Prop} {p : RProg α} {f : α → RProg β} {g : List Ev} (hp : Wok Q p g) (hf : ∀ a g, Q a g → Wok Q' (f a) g) :
    Wok Q' (p.bind f) g := by
  induction p generalizing g with
  | ret a => exact hf _ _ hp
  | diverge => trivial
  | panic => trivial
  | call o k ih => exact fun a => ih _ (hp a)

theorem rcall {α : Type} {Q : α × Option Err → List Ev → Prop} {act : String} {tt : WType} {t : TypeId} {o : ROp} {old : α} {k : o.Ans → UProg α} {g : List Ev}
    (hk : ∀ a, Wok Q (k a) (g ++ [⟨o, a⟩])) : Wok Q (rcall act tt t o old k) g := hk

theorem andThen {α β : Type} {Q : α × Option Err → List Ev → Prop} {Q' : β × Option Err → List Ev → Prop} {p : UProg α} {fail : α → β} {k : α → UProg β} {g : List Ev} (hp : Wok Q p g)
    (hk : ∀ a g, Q (a, none) g → Wok Q' (k a) g) (he : ∀ a e g, Q (a, some e) g → Q' (fail a, some e) g) : Wok Q' (p.andThen fail k) g := by
  refine bind hp fun x g hx => ?_
  obtain ⟨a, e⟩ := x
  cases e with
  | none => exact hk a g hx
  | some e => exact he a e g hx

theorem elim {α β : Type} {Q : β → List Ev → Prop} {x : Out α} {k : α → RProg β} {g : List Ev} (hk : ∀ a, x = .done a → Wok Q (k a) g) : Wok Q (x.elim .panic .diverge k) g := by
  cases x with
  | done a => exact hk a rfl
  | blocked => trivial
  | diverged => trivial
  | panicked => trivial

end Wok

/-- The calls behind `g0` satisfy `P` if there is no error, and `A` with the wire type that the error names. -/
def AddsF (P : List Ev → Prop) (A : List Ev → WType → Prop) (g0 : List Ev) (e : Option Err) (g : List Ev) : Prop :=
  ∃ evs, g = g0 ++ evs ∧ (e = none → P evs) ∧ ∀ err found, e = some err → Names err found → A evs found

theorem AddsF.imp {P P' : List Ev → Prop} {A A' : List Ev → WType → Prop} (h : ∀ evs, P evs → P' evs) (ha : ∀ evs w, A evs w → A' evs w) {g0 : List Ev} {e : Option Err} {g : List Ev} :
    AddsF P A g0 e g → AddsF P' A' g0 e g :=
  fun ⟨evs, h1, h2, h3⟩ => ⟨evs, h1, fun he => h _ (h2 he), fun err w he hn => ha _ _ (h3 err w he hn)⟩

theorem AddsF.good {P : List Ev → Prop} {A : List Ev → WType → Prop} {g0 evs : List Ev} (h : P evs) : AddsF P A g0 none (g0 ++ evs) := ⟨evs, rfl, fun _ => h, fun _ _ he => (by cases he)⟩

theorem AddsF.bad {P : List Ev → Prop} {A : List Ev → WType → Prop} {g0 : List Ev} (evs : List Ev) {e : Err} (h : ∀ found, Names e found → A evs found) : AddsF P A g0 (some e) (g0 ++ evs) :=
  ⟨evs, rfl, fun he => (by cases he), fun _ w he hn => by cases he; exact h w hn⟩

/-- After a call. -/
theorem AddsF.cons {P : List Ev → Prop} {A : List Ev → WType → Prop} {ev : Ev} {g0 : List Ev} {e : Option Err} {g : List Ev}
    (h : AddsF (fun evs => P (ev :: evs)) (fun evs w => A (ev :: evs) w) (g0 ++ [ev]) e g) : AddsF P A g0 e g := by
  obtain ⟨evs, rfl, h1, h2⟩ := h
  exact ⟨ev :: evs, by simp, h1, h2⟩

/-- After more calls. -/
theorem AddsF.append {P : List Ev → Prop} {A : List Ev → WType → Prop} {evs0 : List Ev} {g0 : List Ev} {e : Option Err} {g : List Ev}
    (h : AddsF (fun evs => P (evs0 ++ evs)) (fun evs w => A (evs0 ++ evs) w) (g0 ++ evs0) e g) : AddsF P A g0 e g := by
  obtain ⟨evs, rfl, h1, h2⟩ := h
  exact ⟨evs0 ++ evs, by simp, h1, h2⟩

theorem found_last {P : List Ev → Prop} {A : List Ev → WType → Prop} {o : ROp} {g : List Ev} (h : ∀ a, P [⟨o, a⟩]) : Wok (AddsF P A g) (.last o) g := fun a => .good (h a)

theorem found_try {P : List Ev → Prop} {A : List Ev → WType → Prop} {o : ROp} {k : o.Ans → RProg (Option Err)} {g : List Ev}
    (h : ∀ a g, Wok (AddsF (fun evs => P (⟨o, a⟩ :: evs)) (fun evs w => A (⟨o, a⟩ :: evs) w) g) (k a) g) : Wok (AddsF P A g) (.try' o k) g :=
  fun a => (h a _).imp fun _ _ => .cons

theorem found_then {P P' : List Ev → Prop} {A A' : List Ev → WType → Prop} {p q : RProg (Option Err)} {g : List Ev} (hp : Wok (AddsF P A g) p g) (hq : ∀ g, Wok (AddsF P' A' g) q g) :
    Wok (AddsF (fun evs => ∃ a b, evs = a ++ b ∧ P a ∧ P' b) (fun evs w => A evs w ∨ ∃ a b, evs = a ++ b ∧ P a ∧ A' b w) g) (p.andThen q) g := by
  refine Wok.bind hp fun e g' ⟨evs, h1, h2, h3⟩ => ?_
  subst h1
  cases e with
  | none => exact (hq _).imp fun e g'' h => .append (h.imp (fun evs' h => ⟨evs, evs', rfl, h2 rfl, h⟩) fun evs' w h => .inr ⟨evs, evs', rfl, h2 rfl, h⟩)
  | some e => exact .bad evs fun w hn => .inl (h3 e w rfl hn)

theorem found_loop {P P' : List Ev → Prop} {A A' : List Ev → WType → Prop} {p q : RProg (Option Err)} (hp : ∀ g, Wok (AddsF P A g) p g) (hq : ∀ g, Wok (AddsF P' A' g) q g) (n : Nat) :
    ∀ g, Wok (AddsF (fun evs => ∃ (l : List (List Ev)) (b : List Ev), l.length = n ∧ evs = l.flatten ++ b ∧ (∀ x ∈ l, P x) ∧ P' b)
      (fun evs w => ∃ (l : List (List Ev)) (b : List Ev), evs = l.flatten ++ b ∧ (∀ x ∈ l, P x) ∧ ((l.length < n ∧ A b w) ∨ A' b w)) g) (.loop n p q) g := by
  induction n with
  | zero => intro g; exact (hq g).imp fun e g' => AddsF.imp (fun evs h => ⟨[], evs, rfl, rfl, by simp, h⟩) fun evs w h => ⟨[], evs, rfl, by simp, .inr h⟩
  | succ n ih =>
    intro g
    rw [RProg.loop]
    refine (found_then (hp g) ih).imp fun e g' => AddsF.imp (fun evs => ?_) fun evs w => ?_
    · rintro ⟨a, b, rfl, h1, l, c, h2, rfl, h3, h4⟩
      exact ⟨a :: l, c, by rw [List.length_cons, h2], by simp, by simpa using ⟨h1, h3⟩, h4⟩
    · rintro (h | ⟨a, b, rfl, h1, l, c, rfl, h3, h4⟩)
      · exact ⟨[], evs, rfl, by simp, .inl ⟨by simp, h⟩⟩
      · refine ⟨a :: l, c, by simp, by simpa using ⟨h1, h3⟩, h4.imp (fun h => ⟨by simp [h.1], h.2⟩) id⟩

theorem Spec.Awaits.append {evs : List Ev} {w : WType} (before : List Ev) (h : Awaits evs w) : Awaits (before ++ evs) w := by
  cases h with
  | field b h h1 => have := Awaits.field (before ++ b) h h1; simpa using this
  | set b h h1 h2 => have := Awaits.set (before ++ b) h h1 h2; simpa using this
  | list b h h1 h2 => have := Awaits.list (before ++ b) h h1 h2; simpa using this
  | key b h h1 h2 => have := Awaits.key (before ++ b) h h1 h2; simpa using this
  | value b h h1 h2 h3 h4 => have := Awaits.value (before ++ b) h h1 h2 h3 h4; simpa using this

theorem Spec.Awaits.cons {evs : List Ev} {w : WType} (ev : Ev) (h : Awaits evs w) : Awaits (ev :: evs) w := h.append [ev]

/-- The value to come, with condition `c`, or one inside of it. -/
def Here (w : WType) (c : Prop) (evs : List Ev) (found : WType) : Prop := (evs = [] ∧ found = w ∧ c) ∨ Awaits evs found

theorem Here.field {h : FieldHeader} {c : Prop} {evs : List Ev} {found : WType} (hs : h.type ≠ Ty.stop) (h1 : Here h.type c evs found) : Awaits (⟨.fieldBegin, h⟩ :: evs) found := by
  rcases h1 with ⟨rfl, rfl, _⟩ | h1
  · exact .field [] h hs
  · exact h1.cons _

theorem Here.set {h : SetHeader} {c : Prop} {tvs : List TVal} {evs evs' : List Ev} {found : WType} (hr : ReadsElems h.element tvs evs) (hl : tvs.length < loopCount h.size)
    (h1 : Here h.element c evs' found) : Awaits (⟨.setBegin, h⟩ :: (evs ++ evs')) found := by
  rcases h1 with ⟨rfl, rfl, _⟩ | h1
  · simpa using Awaits.set [] h hr hl
  · exact (h1.append _).cons _

theorem Here.list {h : SetHeader} {c : Prop} {tvs : List TVal} {evs evs' : List Ev} {found : WType} (hr : ReadsElems h.element tvs evs) (hl : tvs.length < loopCount h.size)
    (h1 : Here h.element c evs' found) : Awaits (⟨.listBegin, h⟩ :: (evs ++ evs')) found := by
  rcases h1 with ⟨rfl, rfl, _⟩ | h1
  · simpa using Awaits.list [] h hr hl
  · exact (h1.append _).cons _

/-- In an entry of a map: in the key, or after it in the value. -/
def InEntry (kw ew : WType) (ck cv : Prop) (evs : List Ev) (found : WType) : Prop := Here kw ck evs found ∨ ∃ a b, evs = a ++ b ∧ ReadsTy kw a ∧ Here ew cv b found

theorem InEntry.map {h : MapHeader} {ck cv : Prop} {tes : List (TVal × TVal)} {evs evs' : List Ev} {found : WType} (hr : ReadsEntries h.key h.value tes evs) (hl : tes.length < loopCount h.size)
    (h1 : InEntry h.key h.value ck cv evs' found) : Awaits (⟨.mapBegin, h⟩ :: (evs ++ evs')) found := by
  rcases h1 with (⟨rfl, rfl, _⟩ | h1) | ⟨a, b, rfl, ⟨k, hk, h2⟩, ⟨rfl, rfl, _⟩ | h1⟩
  · simpa using Awaits.key [] h hr hl
  · exact (h1.append _).cons _
  · simpa using Awaits.value [] h hr hl hk h2
  · exact ((h1.append _).append _).cons _

theorem found_skip (fuel : Nat) : (∀ t g, Wok (AddsF (ReadsTy t) (Here t True) g) (skip fuel t) g) ∧ ∀ g, Wok (AddsF ReadsRest Awaits g) (skipFields fuel) g := by
  induction fuel with
  | zero => exact ⟨fun _ _ => trivial, fun _ => trivial⟩
  | succ fuel ih =>
    obtain ⟨ih1, ih2⟩ := ih
    constructor
    · intro t g
      rw [skip]
      by_cases h : t = Ty.bool
      · rw [if_pos h, h]; exact found_last fun a => ⟨_, rfl, .bool a⟩
      rw [if_neg h]; clear h
      by_cases h : t = Ty.byte
      · rw [if_pos h, h]; exact found_last fun a => ⟨_, rfl, .byte a⟩
      rw [if_neg h]; clear h
      by_cases h : t = Ty.double
      · rw [if_pos h, h]; exact found_last fun a => ⟨_, rfl, .double a⟩
      rw [if_neg h]; clear h
      by_cases h : t = Ty.i16
      · rw [if_pos h, h]; exact found_last fun a => ⟨_, rfl, .i16 a⟩
      rw [if_neg h]; clear h
      by_cases h : t = Ty.i32
      · rw [if_pos h, h]; exact found_last fun a => ⟨_, rfl, .i32 a⟩
      rw [if_neg h]; clear h
      by_cases h : t = Ty.i64
      · rw [if_pos h, h]; exact found_last fun a => ⟨_, rfl, .i64 a⟩
      rw [if_neg h]; clear h
      by_cases h : t = Ty.string
      · rw [if_pos h, h]; exact found_last fun a => ⟨_, rfl, .skipString false []⟩
      rw [if_neg h]; clear h
      by_cases h : t = Ty.struct
      · rw [if_pos h, h]
        refine found_try fun n g => (ih2 g).imp fun e g' => AddsF.imp (fun evs => ?_) fun evs w h => .inr (h.cons _)
        rintro ⟨tfs, evs', hd, rfl, h1, h2⟩
        exact ⟨_, rfl, .struct [] n h1 h2⟩
      rw [if_neg h]; clear h
      by_cases h : t = Ty.map
      · rw [if_pos h, h]
        refine found_try fun hd g => ?_
        refine (found_loop (fun g => found_then (ih1 hd.key g) (ih1 hd.value)) (fun g => found_last (P := fun evs => evs = [⟨.mapEnd, ()⟩]) (A := fun _ _ => False) fun _ => rfl) _ g).imp
          fun e g' => AddsF.imp (fun evs => ?_) fun evs w => ?_
        · rintro ⟨l, b, h1, rfl, h2, rfl⟩
          obtain ⟨tes, h3, h4⟩ := readsEntries_flatten h2
          exact ⟨_, rfl, .map (by rw [h3, h1]) h4⟩
        · rintro ⟨l, b, rfl, h2, ⟨h1, h3⟩ | h3⟩
          · obtain ⟨tes, h4, h5⟩ := readsEntries_flatten h2
            exact .inr (InEntry.map h5 (by omega) h3)
          · exact h3.elim
      rw [if_neg h]; clear h
      by_cases h : t = Ty.set
      · rw [if_pos h, h]
        refine found_try fun hd g => ?_
        refine (found_loop (ih1 hd.element) (fun g => found_last (P := fun evs => evs = [⟨.setEnd, ()⟩]) (A := fun _ _ => False) fun _ => rfl) _ g).imp
          fun e g' => AddsF.imp (fun evs => ?_) fun evs w => ?_
        · rintro ⟨l, b, h1, rfl, h2, rfl⟩
          obtain ⟨tvs, h3, h4⟩ := readsElems_flatten h2
          exact ⟨_, rfl, .set (by rw [h3, h1]) h4⟩
        · rintro ⟨l, b, rfl, h2, ⟨h1, h3⟩ | h3⟩
          · obtain ⟨tvs, h4, h5⟩ := readsElems_flatten h2
            exact .inr (Here.set h5 (by omega) h3)
          · exact h3.elim
      rw [if_neg h]; clear h
      by_cases h : t = Ty.list
      · rw [if_pos h, h]
        refine found_try fun hd g => ?_
        refine (found_loop (ih1 hd.element) (fun g => found_last (P := fun evs => evs = [⟨.listEnd, ()⟩]) (A := fun _ _ => False) fun _ => rfl) _ g).imp
          fun e g' => AddsF.imp (fun evs => ?_) fun evs w => ?_
        · rintro ⟨l, b, h1, rfl, h2, rfl⟩
          obtain ⟨tvs, h3, h4⟩ := readsElems_flatten h2
          exact ⟨_, rfl, .list (by rw [h3, h1]) h4⟩
        · rintro ⟨l, b, rfl, h2, ⟨h1, h3⟩ | h3⟩
          · obtain ⟨tvs, h4, h5⟩ := readsElems_flatten h2
            exact .inr (Here.list h5 (by omega) h3)
          · exact h3.elim
      rw [if_neg h]; clear h
      by_cases h : t = Ty.uuid
      · rw [if_pos h, h]; exact found_last fun a => ⟨_, rfl, .skipUUID []⟩
      rw [if_neg h]
      refine ⟨[], by simp, fun he => (by cases he), fun err w he hn => ?_⟩
      cases he
      rcases hn with hn | ⟨_, hn⟩
      · cases hn; exact .inl ⟨rfl, rfl, trivial⟩
      · cases hn
    · intro g
      rw [skipFields]
      refine found_try fun hd g => ?_
      by_cases hs : hd.type = Ty.stop
      · rw [if_pos hs]
        exact found_last fun _ => ⟨[], [], hd, rfl, .nil, hs⟩
      · rw [if_neg hs]
        refine (found_then (ih1 hd.type g) fun g => found_try (P := fun evs => ∃ b, evs = ⟨.fieldEnd, ()⟩ :: b ∧ ReadsRest b) (A := Awaits) fun _ g =>
          (ih2 g).imp fun e g' => AddsF.imp (fun evs h => ⟨evs, rfl, h⟩) fun evs w h => h.cons _).imp fun e g' => AddsF.imp (fun evs => ?_) fun evs w => ?_
        · rintro ⟨a, b, rfl, ⟨tv, h1, h2⟩, b', rfl, tfs, evs', h, rfl, h3, h4⟩
          exact ⟨_, ⟨.fieldBegin, hd⟩ :: (a ++ ⟨.fieldEnd, ()⟩ :: evs'), h, by simp, .cons h1 h2 h3, h4⟩
        · rintro (h | ⟨a, b, rfl, h1, h2⟩)
          · exact h.field hs
          · exact (h2.append _).cons _

/-! ## Unmarshal -/

/-- `AddsF` for the error of a result. -/
abbrev AddsR {α : Type} (P : List Ev → Prop) (A : List Ev → WType → Prop) (g0 : List Ev) (r : α × Option Err) (g : List Ev) : Prop := AddsF P A g0 r.2 g

theorem found_rcall {α : Type} {P : List Ev → Prop} {A : List Ev → WType → Prop} {act : String} {tt : WType} {t : TypeId} {o : ROp} {old : α} {k : o.Ans → UProg α} {g : List Ev}
    (h : ∀ a g, Wok (AddsR (fun evs => P (⟨o, a⟩ :: evs)) (fun evs w => A (⟨o, a⟩ :: evs) w) g) (k a) g) : Wok (AddsR P A g) (rcall act tt t o old k) g :=
  fun a => (h a _).imp fun _ _ => .cons

theorem found_andThen {α β : Type} {P P' : List Ev → Prop} {A A' : List Ev → WType → Prop} {p : UProg α} {fail : α → β} {k : α → UProg β} {g : List Ev} (hp : Wok (AddsR P A g) p g)
    (hk : ∀ a evs g, P evs → Wok (AddsR (fun b => P' (evs ++ b)) (fun b w => A' (evs ++ b) w) g) (k a) g) (he : ∀ evs w, A evs w → A' evs w) : Wok (AddsR P' A' g) (p.andThen fail k) g := by
  refine Wok.andThen hp (fun a g' h => ?_) fun a e g' h => ?_
  · obtain ⟨evs, rfl, h1, _⟩ := h
    exact (hk a evs _ (h1 rfl)).imp fun _ _ => .append
  · obtain ⟨evs, rfl, _, h2⟩ := h
    exact .bad evs fun w hn => he _ _ (h2 e w rfl hn)

theorem AddsF.mismatch {α : Type} {P : List Ev → Prop} {w : WType} {c : Prop} {g : List Ev} {t : Option TypeId} {v : α} (hc : c) :
    AddsR P (Here w c) g (v, some (.semantic .unmarshal w t)) g := by
  refine ⟨[], by simp, fun he => (by cases he), fun err f he hn => ?_⟩
  cases he
  rcases hn with hn | ⟨_, hn⟩
  · cases hn
  · cases hn; exact .inl ⟨rfl, rfl, hc⟩

theorem found_leaf {env : Env} {t : TypeId} (l : Leaf) (old : GoVal) (w : WType) (g : List Ev) :
    Wok (AddsR (ReadsTy w) (Here w (w = l.wireType → w = Ty.stop)) g) (unmarshalLeaf env t l old w) g := by
  unfold unmarshalLeaf
  split
  · rename_i hw
    exact .mismatch fun h => absurd h hw
  · rename_i hw
    have hw := Classical.not_not.1 hw
    subst hw
    cases l with
    | bool => exact fun a => .good ⟨_, rfl, .bool a⟩
    | f32 => exact fun a => .good ⟨_, rfl, .double a⟩
    | f64 => exact fun a => .good ⟨_, rfl, .double a⟩
    | i8 => exact fun a => .good ⟨_, rfl, .byte a⟩
    | i16 => exact fun a => .good ⟨_, rfl, .i16 a⟩
    | i32 => exact fun a => .good ⟨_, rfl, .i32 a⟩
    | i64 => exact fun a => .good ⟨_, rfl, .i64 a⟩
    | string => exact fun a => .good ⟨_, rfl, .string false a⟩
    | bytes =>
      cases old with
      | bytes b => exact fun a => .good ⟨_, rfl, .bytes false a⟩
      | _ => trivial
    | uuid => exact fun a => .good ⟨_, rfl, .uuid a⟩

theorem found_seqLoop {P : List Ev → Prop} {A : List Ev → WType → Prop} {u : GoVal → UProg GoVal} {zero : GoVal} {grow : Nat → Nat} (hu : ∀ v g, Wok (AddsR P A g) (u v) g) (n : Nat) :
    ∀ (done rest : List GoVal) (mz : Bool) g, Wok (AddsR (fun evs => ∃ l : List (List Ev), l.length = n ∧ evs = l.flatten ∧ ∀ x ∈ l, P x)
      (fun evs w => ∃ (l : List (List Ev)) (b : List Ev), evs = l.flatten ++ b ∧ (∀ x ∈ l, P x) ∧ l.length < n ∧ A b w) g) (seqLoop u zero grow n done rest mz) g := by
  induction n with
  | zero => intro done rest mz g; exact ⟨[], by simp, fun _ => ⟨[], rfl, rfl, by simp⟩, fun _ _ he => (by cases he)⟩
  | succ n ih =>
    intro done rest mz g
    rw [seqLoop]
    split
    · trivial
    · refine found_andThen (hu _ g) (fun v evs g h => ?_) fun evs w h => ⟨[], evs, rfl, by simp, by simp, h⟩
      refine (ih _ _ _ g).imp fun r g' => AddsF.imp (fun evs' => ?_) fun evs' w => ?_
      · rintro ⟨l, h1, rfl, h2⟩
        exact ⟨evs :: l, by simp [h1], by simp, by simpa using ⟨h, h2⟩⟩
      · rintro ⟨l, b, rfl, h1, h2, h3⟩
        exact ⟨evs :: l, b, by simp, by simpa using ⟨h, h1⟩, by simp [h2], h3⟩

theorem found_mapLoop {kw ew : WType} {ck cv : Prop} {uk : UProg GoVal} {uv : GoVal → UProg GoVal} {zero : GoVal} (hk : ∀ g, Wok (AddsR (ReadsTy kw) (Here kw ck) g) uk g)
    (hv : ∀ old g, Wok (AddsR (ReadsTy ew) (Here ew cv) g) (uv old) g) (n : Nat) :
    ∀ (es : List (GoVal × GoVal)) g, Wok (AddsR (fun evs => ∃ l : List (List Ev), l.length = n ∧ evs = l.flatten ∧ ∀ x ∈ l, ∃ a b, x = a ++ b ∧ ReadsTy kw a ∧ ReadsTy ew b)
      (fun evs w => ∃ (l : List (List Ev)) (b : List Ev), evs = l.flatten ++ b ∧ (∀ x ∈ l, ∃ a b, x = a ++ b ∧ ReadsTy kw a ∧ ReadsTy ew b) ∧ l.length < n ∧ InEntry kw ew ck cv b w) g)
      (mapLoop uk uv zero n es) g := by
  induction n with
  | zero => intro es g; exact ⟨[], by simp, fun _ => ⟨[], rfl, rfl, by simp⟩, fun _ _ he => (by cases he)⟩
  | succ n ih =>
    intro es g
    rw [mapLoop]
    refine found_andThen (hk g) (fun k evs g h => ?_) fun evs w h => ⟨[], evs, rfl, by simp, by simp, .inl h⟩
    refine found_andThen (hv _ g) (fun v evs' g h' => ?_) fun evs' w h' => ⟨[], evs ++ evs', rfl, by simp, by simp, .inr ⟨evs, evs', rfl, h, h'⟩⟩
    refine (ih _ g).imp fun r g' => AddsF.imp (fun evs'' => ?_) fun evs'' w => ?_
    · rintro ⟨l, h1, rfl, h2⟩
      exact ⟨(evs ++ evs') :: l, by simp [h1], by simp, by simpa using ⟨⟨evs, evs', rfl, h, h'⟩, h2⟩⟩
    · rintro ⟨l, b, rfl, h1, h2, h3⟩
      exact ⟨(evs ++ evs') :: l, b, by simp, by simpa using ⟨⟨evs, evs', rfl, h, h'⟩, h1⟩, by simp [h2], h3⟩

theorem found_unmarshalSeq {env : Env} {t et : TypeId} {isSet : Bool} {c : WType → Prop} {u : WType → GoVal → UProg GoVal} (hu : ∀ w v g, Wok (AddsR (ReadsTy w) (Here w (c w)) g) (u w v) g)
    (old : GoVal) (w : WType) (g : List Ev) : Wok (AddsR (ReadsTy w) (Here w (w = (if isSet then Ty.set else Ty.list) → w = Ty.stop)) g) (unmarshalSeq env t isSet et u old w) g := by
  unfold unmarshalSeq
  dsimp only
  by_cases hw : w ≠ (if isSet then Ty.set else Ty.list)
  · rw [if_pos hw]; exact .mismatch fun h => absurd h hw
  rw [if_neg hw]
  have hw := Classical.not_not.1 hw
  by_cases ho : old.elems?.isNone = true
  · rw [if_pos ho]; trivial
  rw [if_neg ho]
  -- between header and end
  have body : ∀ (P : List Ev → Prop) (h : SetHeader) (fin : GoVal → UProg GoVal),
      (∀ v g, Wok (AddsR P (fun _ _ => False) g) (fin v) g) → ∀ g, Wok (AddsR (fun evs => ∃ tvs a b, evs = a ++ b ∧ loopCount h.size = tvs.length ∧ ReadsElems h.element tvs a ∧ P b)
        (fun evs f => ∃ tvs a b, evs = a ++ b ∧ tvs.length < loopCount h.size ∧ ReadsElems h.element tvs a ∧ Here h.element (c h.element) b f) g) (seqBody env t et u old h fin) g := by
    intro P h fin hfin g
    rw [seqBody]
    split
    · refine found_andThen (found_seqLoop (hu h.element) _ _ _ _ g) (fun p evs g h1 => ?_) fun evs f h1 => ?_
      · obtain ⟨l, h1, rfl, h2⟩ := h1
        obtain ⟨tvs, h3, h4⟩ := readsElems_flatten h2
        exact (hfin _ g).imp fun r g' => AddsF.imp (fun b hb => ⟨tvs, _, b, rfl, by omega, h4, hb⟩) fun _ _ h => h.elim
      · obtain ⟨l, b, rfl, h1, h2, h3⟩ := h1
        obtain ⟨tvs, h4, h5⟩ := readsElems_flatten h1
        exact ⟨tvs, _, b, rfl, by omega, h5, h3⟩
    · rename_i hpos
      exact (hfin _ g).imp fun r g' => AddsF.imp (fun b hb => ⟨[], [], b, rfl, by simp [loopCount]; omega, .nil, hb⟩) fun _ _ h => h.elim
  cases isSet with
  | true =>
    simp only [if_true] at hw ⊢
    subst hw
    refine found_rcall fun h g => ?_
    refine (body (fun b => b = [⟨.setEnd, ()⟩]) h (fun v => rcall "ReadSetEnd" Ty.set t .setEnd v fun _ => .ret (v, none)) (fun v g => fun a => .good (evs := [⟨.setEnd, a⟩]) rfl) g).imp fun r g' => AddsF.imp (fun evs => ?_) fun evs f => ?_
    · rintro ⟨tvs, a, b, rfl, h1, h2, rfl⟩
      exact ⟨_, rfl, .set h1 h2⟩
    · rintro ⟨tvs, a, b, rfl, h1, h2, h3⟩
      exact .inr (Here.set h2 h1 h3)
  | false =>
    simp only [Bool.false_eq_true, if_false] at hw ⊢
    subst hw
    refine found_rcall fun h g => ?_
    refine (body (fun b => b = [⟨.listEnd, ()⟩]) h (fun v => rcall "ReadListEnd" Ty.list t .listEnd v fun _ => .ret (v, none)) (fun v g => fun a => .good (evs := [⟨.listEnd, a⟩]) rfl) g).imp fun r g' => AddsF.imp (fun evs => ?_) fun evs f => ?_
    · rintro ⟨tvs, a, b, rfl, h1, h2, rfl⟩
      exact ⟨_, rfl, .list h1 h2⟩
    · rintro ⟨tvs, a, b, rfl, h1, h2, h3⟩
      exact .inr (Here.list h2 h1 h3)

theorem found_unmarshalMap {env : Env} {t kt et : TypeId} {ck cv : WType → Prop} {uk uv : WType → GoVal → UProg GoVal} (hk : ∀ w v g, Wok (AddsR (ReadsTy w) (Here w (ck w)) g) (uk w v) g)
    (hv : ∀ w v g, Wok (AddsR (ReadsTy w) (Here w (cv w)) g) (uv w v) g) (old : GoVal) (w : WType) (g : List Ev) :
    Wok (AddsR (ReadsTy w) (Here w (w = Ty.map → w = Ty.stop)) g) (unmarshalMap env t kt et uk uv old w) g := by
  rw [unmarshalMap]
  split
  · rename_i hw
    exact .mismatch fun h => absurd h hw
  rename_i hw
  have hw : w = Ty.map := Classical.not_not.1 hw
  subst hw
  split
  · trivial
  refine found_rcall fun h g => ?_
  split
  · refine found_andThen (found_mapLoop (hk h.key _) (hv h.value) _ _ g) (fun es evs g h1 => ?_) fun evs f h1 => ?_
    · obtain ⟨l, h1, rfl, h2⟩ := h1
      obtain ⟨tes, h3, h4⟩ := readsEntries_flatten h2
      exact fun a => .good ⟨_, rfl, .map (by omega) h4⟩
    · obtain ⟨l, b, rfl, h1, h2, h3⟩ := h1
      obtain ⟨tes, h4, h5⟩ := readsEntries_flatten h1
      exact .inr (InEntry.map h5 (by omega) h3)
  · rename_i hpos
    exact fun a => .good (evs := [⟨.mapEnd, a⟩]) ⟨_, rfl, .map (tes := []) (evs := []) (by simp [loopCount]; omega) .nil⟩

/-- The error of a struct type with bad fields does not name a wire type. -/
theorem makeStructFields_names {env : Env} {fuel : Nat} {t : TypeId} {e : Err} (h : makeStructFields env fuel t = .done (.error e)) (found : WType) : ¬ Names (withAction .unmarshal e) found := by
  have : ∃ c, e = .semanticE .marshal Ty.stop (some t) c := by
    cases hk : (env.type t).kind with
    | struct fs => exact (makeStructFields_error hk h).1
    | _ => simp [makeStructFields, Env.fields, hk, fieldLoop] at h
  obtain ⟨c, rfl⟩ := this
  rintro (h | ⟨_, h⟩) <;> cases h

theorem found_unmarshal (env : Env) (sk fuel : Nat) :
    (∀ a old w g, Wok (AddsR (ReadsTy w) (Here w (w = a.wireType → w = Ty.stop)) g) (unmarshal env sk fuel a old w) g) ∧
    (∀ t fs vs g, Wok (AddsR ReadsRest Awaits g) (unmarshalFields env sk fuel t fs vs) g) := by
  induction fuel with
  | zero => exact ⟨fun _ _ _ _ => trivial, fun _ _ _ _ => trivial⟩
  | succ fuel ih =>
    obtain ⟨ih1, ih2⟩ := ih
    constructor
    · intro a old w g
      unfold unmarshal
      cases a with
      | leaf t l => exact found_leaf l old w g
      | invalid t => exact .mismatch fun h => h
      | ptr t ea =>
        dsimp only
        split
        · trivial
        · exact found_andThen (ih1 ea _ w g) (fun v evs g h => ⟨[], by simp, fun _ => by simpa using h, fun _ _ he => (by cases he)⟩) fun _ _ h => h
      | struct t =>
        dsimp only
        refine Wok.elim fun r hr => ?_
        cases r with
        | error e => exact ⟨[], by simp, fun he => (by cases he), fun err f he hn => by cases he; exact absurd hn (makeStructFields_names hr f)⟩
        | ok fs =>
          dsimp only
          split
          · rename_i hw
            exact .mismatch fun h => absurd h hw
          · rename_i hw
            have hw : w = Ty.struct := Classical.not_not.1 hw
            subst hw
            split
            · trivial
            · refine found_rcall fun nm g => (ih2 t fs _ g).imp fun r g' => AddsF.imp (fun evs => ?_) fun evs f h => .inr (h.cons _)
              rintro ⟨tfs, evs', hd, rfl, h1, h2⟩
              exact ⟨_, rfl, .struct [] nm h1 h2⟩
      | map t ka ea => exact found_unmarshalMap (fun w v g => ih1 ka v w g) (fun w v g => ih1 ea v w g) old w g
      | seq t isSet ea => exact found_unmarshalSeq (fun w v g => ih1 ea v w g) old w g
    · intro t fs vs g
      unfold unmarshalFields
      refine found_rcall fun hd g => ?_
      by_cases hs : hd.type = Ty.stop
      · rw [if_pos hs]
        exact fun a => .good ⟨[], [], hd, rfl, .nil, hs⟩
      rw [if_neg hs]
      dsimp only
      -- after the value of the field
      have next : ∀ vs' evs g, ReadsTy hd.type evs → Wok (AddsR (fun b => ReadsRest (⟨.fieldBegin, hd⟩ :: (evs ++ b))) (fun b f => Awaits (⟨.fieldBegin, hd⟩ :: (evs ++ b)) f) g)
          (rcall "ReadFieldEnd" Ty.struct t .fieldEnd (.struct vs') fun _ => unmarshalFields env sk fuel t fs vs') g := by
        intro vs' evs g h
        refine found_rcall fun _ g => (ih2 t fs vs' g).imp fun r g' => AddsF.imp (fun b => ?_) fun b f h => ((h.cons _).append _).cons _
        rintro ⟨tfs, evs', h', rfl, h1, h2⟩
        obtain ⟨tv, h3, h4⟩ := h
        exact ⟨_, ⟨.fieldBegin, hd⟩ :: (evs ++ ⟨.fieldEnd, ()⟩ :: evs'), h', by simp, .cons h3 h4 h1, h2⟩
      split
      · refine Wok.bind ((found_skip sk).1 hd.type g) fun e g' ⟨evs, h1, h2, h3⟩ => ?_
        subst h1
        cases e with
        | none => exact (next vs evs _ (h2 rfl)).imp fun _ _ => AddsF.append (P := fun evs => ReadsRest (⟨.fieldBegin, hd⟩ :: evs)) (A := fun evs f => Awaits (⟨.fieldBegin, hd⟩ :: evs) f)
        | some e => exact .bad evs fun f hn => (h3 e f rfl hn).field hs
      · split
        · trivial
        · exact found_andThen (ih1 _ _ hd.type g) (fun v evs g h => next _ evs g h) fun evs f h => h.field hs

/-! ## Runs -/

theorem traced_prefix {α S : Type} (r : Rdr S) (p : RProg α) (s s' : S) (log0 log : List ((o : ROp) × Except Err o.Ans)) (a : α) (h : p.run (traced r) (s, log0) = .done (a, (s', log))) :
    ∃ l, log = log0 ++ l := by
  induction p generalizing s log0 with
  | ret b => cases h; exact ⟨[], by simp⟩
  | diverge => cases h
  | panic => cases h
  | call o k ih =>
    rw [RProg.run] at h
    cases hs : r.step o s with
    | done x =>
      simp only [traced, hs, Out.bind_done] at h
      obtain ⟨l, rfl⟩ := ih _ _ _ h
      exact ⟨⟨o, x.1⟩ :: l, by simp⟩
    | blocked => simp only [traced, hs] at h; cases h
    | diverged => simp only [traced, hs] at h; cases h
    | panicked => simp only [traced, hs] at h; cases h

theorem Wok.run {α S : Type} {Q : α → List Ev → Prop} (r : Rdr S) (p : RProg α) (g : List Ev) (hp : Wok Q p g) (s s' : S) (log0 log : List ((o : ROp) × Except Err o.Ans)) (a : α)
    (h : p.run (traced r) (s, log0) = .done (a, (s', log))) (hok : ∀ o err, (⟨o, .error err⟩ : (o : ROp) × Except Err o.Ans) ∉ log) : ∃ evs : List Ev, Q a (g ++ evs) ∧ log = log0 ++ evs.map Ev.ok := by
  induction p generalizing s log0 g with
  | ret b => cases h; exact ⟨[], by simpa using (show Q a g from hp), by simp⟩
  | diverge => cases h
  | panic => cases h
  | call o k ih =>
    rw [RProg.run] at h
    cases hs : r.step o s with
    | done x =>
      obtain ⟨x, s1⟩ := x
      simp only [traced, hs, Out.bind_done] at h
      cases x with
      | ok b =>
        obtain ⟨evs, h1, h2⟩ := ih (.ok b) _ (hp b) s1 _ h
        exact ⟨⟨o, b⟩ :: evs, by simpa using h1, by rw [h2]; simp [Ev.ok]⟩
      | error e =>
        obtain ⟨l, rfl⟩ := traced_prefix r _ _ _ _ _ _ h
        exact absurd (by simp) (hok o e)
    | blocked => simp only [traced, hs] at h; cases h
    | diverged => simp only [traced, hs] at h; cases h
    | panicked => simp only [traced, hs] at h; cases h

end GoThrift
