import Verif.Proof.LexNext
import Verif.Model.Parser

/-!
# Relations and invariants that the scanner keeps

Every function of the scanner is made from `nextch`, reporting an error at the current offset, and setting `tok` and `pos`. So it keeps every relation between two
scanners that these keep, and every invariant.
-/

namespace GoThrift.Idl

/-- Outcomes are related if they are of the same kind and their values are related. -/
def OutRel {α β : Type} (R : α → β → Prop) : Out α → Out β → Prop
  | .done a, .done b => R a b
  | .blocked, .blocked => True
  | .diverged, .diverged => True
  | .panicked, .panicked => True
  | _, _ => False

theorem OutRel.bind {α β α' β' : Type} {R : α → β → Prop} {R' : α' → β' → Prop} {x : Out α} {y : Out β} {f : α → Out α'} {g : β → Out β'} (h : OutRel R x y)
    (hf : ∀ a b, R a b → OutRel R' (f a) (g b)) : OutRel R' (x.bind f) (y.bind g) := by
  cases x <;> cases y <;> first | exact h | exact hf _ _ h | exact False.elim h

theorem OutRel.done_left {α β : Type} {R : α → β → Prop} {y : Out β} {a : α} (h : OutRel R (.done a) y) : ∃ b, y = .done b ∧ R a b := by
  cases y <;> first | exact ⟨_, rfl, h⟩ | exact False.elim h

/-- Related values of two conditionals. -/
theorem rel_ite {α β : Type} {R : α → β → Prop} {p q : Prop} [Decidable p] [Decidable q] {a b : α} {c d : β} (hpq : p ↔ q) (h1 : p → R a c) (h2 : ¬ p → R b d) :
    R (if p then a else b) (if q then c else d) := by
  by_cases hp : p
  · rw [if_pos hp, if_pos (hpq.1 hp)]; exact h1 hp
  · rw [if_neg hp, if_neg (fun hq => hp (hpq.2 hq))]; exact h2 hp

namespace Scanner

/-- Relations that the parts of the scanner keep. -/
structure Kept (R : Scanner → Scanner → Prop) : Prop where
  src : ∀ {s t}, R s t → s.src = t.src
  ch : ∀ {s t}, R s t → s.ch = t.ch
  offset : ∀ {s t}, R s t → s.offset = t.offset
  pos : ∀ {s t}, R s t → s.pos = t.pos
  nextch : ∀ {s t}, R s t → R s.nextch t.nextch
  error : ∀ {s t} m, R s t → R (s.error s.offset m) (t.error t.offset m)
  setTok : ∀ {s t} x, R s t → R { s with tok := x } { t with tok := x }
  setPos : ∀ {s t}, R s t → R { s with pos := s.offset } { t with pos := t.offset }

variable {R : Scanner → Scanner → Prop}

theorem Kept.bound (k : Kept R) {s t : Scanner} (h : R s t) : s.bound = t.bound := by rw [Scanner.bound, Scanner.bound, k.src h]

theorem Kept.skipWhile (k : Kept R) (p : Int → Bool) (n : Nat) {s t : Scanner} (h : R s t) : OutRel R (s.skipWhile p n) (t.skipWhile p n) := by
  induction n generalizing s t with
  | zero => trivial
  | succ n ih =>
    rw [Scanner.skipWhile, Scanner.skipWhile, k.ch h]
    by_cases hp : p t.ch = true
    · rw [if_pos hp, if_pos hp]; exact ih (k.nextch h)
    · rw [if_neg hp, if_neg hp]; exact h

theorem Kept.skipWhile' (k : Kept R) (p : Int → Bool) {s t : Scanner} (h : R s t) : OutRel R (s.skipWhile p s.bound) (t.skipWhile p t.bound) := by
  rw [k.bound h]; exact k.skipWhile p _ h

theorem Kept.lit (k : Kept R) {s t : Scanner} (h : R s t) : s.lit = t.lit := by
  rw [Scanner.lit, Scanner.lit, k.src h, k.offset h, k.pos h]

theorem OutRel.ofEq {α : Type} (x : Out α) : OutRel (· = ·) x x := by cases x <;> simp [OutRel]

theorem Kept.ident (k : Kept R) (u : Unicode) {s t : Scanner} (h : R s t) : OutRel R (s.ident u) (t.ident u) := by
  refine (k.skipWhile' _ h).bind fun s t h => OutRel.bind (R := R) ?_ fun s t h => ?_
  · rw [k.ch h]
    by_cases hc : t.ch ≥ 0x80
    · rw [if_pos hc, if_pos hc]; exact k.skipWhile' _ h
    · rw [if_neg hc, if_neg hc]; exact h
  · rw [k.lit h]
    refine (OutRel.ofEq t.lit).bind fun l l' hl => ?_
    cases hl
    by_cases hl : l.length > 2
    · rw [if_pos hl, if_pos hl]
      cases keywords.lookup l with
      | some _ => exact k.setTok _ h
      | none => exact k.setTok _ h
    · rw [if_neg hl, if_neg hl]; exact k.setTok _ h

theorem Kept.exponent (k : Kept R) (x : Token) {s t : Scanner} (h : R s t) : OutRel R (s.exponent x) (t.exponent x) := by
  refine rel_ite (R := OutRel R) (by rw [k.ch h]) (fun _ => ?_) (fun _ => k.setTok _ h)
  have h := k.nextch h
  have h2 : R (if s.nextch.ch = 43 ∨ s.nextch.ch = 45 then s.nextch.nextch else s.nextch) (if t.nextch.ch = 43 ∨ t.nextch.ch = 45 then t.nextch.nextch else t.nextch) :=
    rel_ite (by rw [k.ch h]) (fun _ => k.nextch h) (fun _ => h)
  exact (k.skipWhile' _ h2).bind fun _ _ h => k.setTok _ h

theorem Kept.decimal (k : Kept R) {s t : Scanner} (h : R s t) : OutRel R s.decimal t.decimal := by
  refine (k.skipWhile' _ h).bind fun s t h => ?_
  rw [k.ch h]
  by_cases hc : t.ch = 46
  · rw [if_pos hc, if_pos hc]
    exact (k.skipWhile' _ (k.nextch h)).bind fun _ _ h => k.exponent _ h
  · rw [if_neg hc, if_neg hc]
    exact k.exponent _ h

theorem Kept.number (k : Kept R) {s t : Scanner} (h : R s t) : OutRel R s.number t.number := by
  unfold Scanner.number
  rw [k.ch h]
  by_cases hc : t.ch = 48
  · rw [if_pos hc, if_pos hc]
    dsimp only
    have h := k.nextch h
    rw [k.ch h]
    by_cases hs : lower t.nextch.ch = 120
    · rw [if_pos hs, if_pos hs]
      exact (k.skipWhile' _ (k.nextch h)).bind fun _ _ h => k.setTok _ h
    · rw [if_neg hs, if_neg hs]
      exact k.decimal h
  · rw [if_neg hc, if_neg hc]
    exact k.decimal h

theorem Kept.escape (k : Kept R) (q : Int) {s t : Scanner} (h : R s t) : (s.escape q).1 = (t.escape q).1 ∧ R (s.escape q).2 (t.escape q).2 := by
  unfold Scanner.escape
  rw [k.ch h]
  by_cases h1 : t.ch = q ∨ t.ch = 92 ∨ t.ch = 110 ∨ t.ch = 114 ∨ t.ch = 116
  · rw [if_pos h1, if_pos h1]; exact ⟨rfl, k.nextch h⟩
  · rw [if_neg h1, if_neg h1]
    by_cases h2 : t.ch < 0
    · rw [if_pos h2, if_pos h2]; exact ⟨rfl, h⟩
    · rw [if_neg h2, if_neg h2]; exact ⟨rfl, k.error _ h⟩

theorem Kept.stringLoop (k : Kept R) (q : Int) (n : Nat) {s t : Scanner} (h : R s t) : OutRel R (s.stringLoop q n) (t.stringLoop q n) := by
  induction n generalizing s t with
  | zero => trivial
  | succ n ih =>
    rw [Scanner.stringLoop, Scanner.stringLoop, k.ch h]
    by_cases h1 : t.ch = q
    · rw [if_pos h1, if_pos h1]; exact k.setTok _ (k.nextch h)
    · rw [if_neg h1, if_neg h1]
      by_cases h2 : t.ch = 92
      · rw [if_pos h2, if_pos h2]
        dsimp only
        obtain ⟨he, hr⟩ := k.escape q (k.nextch h)
        rw [he]
        cases (Scanner.escape q t.nextch).1 with
        | true => exact ih hr
        | false => exact hr
      · rw [if_neg h2, if_neg h2]
        by_cases h3 : t.ch = 10
        · rw [if_pos h3, if_pos h3]; exact k.error _ h
        · rw [if_neg h3, if_neg h3]
          by_cases h4 : t.ch < 0
          · rw [if_pos h4, if_pos h4]; exact k.setTok _ (k.error _ h)
          · rw [if_neg h4, if_neg h4]; exact ih (k.nextch h)

theorem Kept.string (k : Kept R) {s t : Scanner} (h : R s t) : OutRel R s.string t.string := by
  unfold Scanner.string
  rw [k.ch h, k.bound h]
  exact k.stringLoop _ _ (k.nextch h)

theorem Kept.lineComment (k : Kept R) {s t : Scanner} (h : R s t) : OutRel R s.lineComment t.lineComment := by
  unfold Scanner.lineComment
  exact k.skipWhile' _ (k.setTok Tk.comment h)

theorem Kept.stars (k : Kept R) (n : Nat) {s t : Scanner} (h : R s t) : OutRel (fun a b => a.1 = b.1 ∧ R a.2 b.2) (s.stars n) (t.stars n) := by
  induction n generalizing s t with
  | zero => trivial
  | succ n ih =>
    rw [Scanner.stars, Scanner.stars, k.ch h]
    by_cases h1 : t.ch = 42
    · rw [if_pos h1, if_pos h1]
      dsimp only
      have h := k.nextch h
      rw [k.ch h]
      by_cases h2 : t.nextch.ch = 47
      · rw [if_pos h2, if_pos h2]; exact ⟨rfl, k.nextch h⟩
      · rw [if_neg h2, if_neg h2]; exact ih h
    · rw [if_neg h1, if_neg h1]; exact ⟨rfl, h⟩

theorem Kept.fullCommentLoop (k : Kept R) (n : Nat) {s t : Scanner} (h : R s t) : OutRel R (s.fullCommentLoop n) (t.fullCommentLoop n) := by
  induction n generalizing s t with
  | zero => trivial
  | succ n ih =>
    rw [Scanner.fullCommentLoop, Scanner.fullCommentLoop, k.ch h]
    by_cases h1 : t.ch ≥ 0
    · rw [if_pos h1, if_pos h1, k.bound h]
      refine (k.stars _ h).bind fun a b hab => ?_
      rw [hab.1]
      cases b.1 with
      | true => exact hab.2
      | false => exact ih (k.nextch hab.2)
    · rw [if_neg h1, if_neg h1]; exact k.error _ h

theorem Kept.fullComment (k : Kept R) {s t : Scanner} (h : R s t) : OutRel R s.fullComment t.fullComment := by
  unfold Scanner.fullComment
  have h := k.setTok Tk.comment h
  dsimp only
  rw [k.bound h]
  exact k.fullCommentLoop _ h

/-- Both are none or related. -/
def OptRel (R : Scanner → Scanner → Prop) : Option Scanner → Option Scanner → Prop
  | some a, some b => R a b
  | none, none => True
  | _, _ => False

theorem Kept.token (k : Kept R) {s t : Scanner} (h : R s t) : OutRel (OptRel R) s.token t.token := by
  have ret : ∀ {x y : Out Scanner}, OutRel R x y → OutRel (OptRel R) (x.bind fun s => .done (some s)) (y.bind fun s => .done (some s)) :=
    fun h => h.bind fun _ _ h => h
  have ret1 : ∀ {x y : Scanner}, R x y → OutRel (OptRel R) (.done (some x)) (.done (some y)) := fun h => h
  have hn := k.nextch h
  unfold Scanner.token
  refine rel_ite (R := OutRel (OptRel R)) (by rw [k.ch h]) (fun _ => ret1 (k.setTok _ h)) fun _ => ?_
  refine rel_ite (R := OutRel (OptRel R)) (by rw [k.ch h]) (fun _ => ret (k.number h)) fun _ => ?_
  refine rel_ite (R := OutRel (OptRel R)) (by rw [k.ch h]) (fun _ => ret (k.string h)) fun _ => ?_
  refine rel_ite (R := OutRel (OptRel R)) (by rw [k.ch h]) (fun _ => ?_) fun _ => ?_
  · exact rel_ite (R := OutRel (OptRel R)) (by rw [k.ch hn]) (fun _ => ret (k.number hn)) fun _ => ret1 (k.setTok _ hn)
  refine rel_ite (R := OutRel (OptRel R)) (by rw [k.ch h]) (fun _ => ?_) fun _ => ?_
  · exact rel_ite (R := OutRel (OptRel R)) (by rw [k.ch hn]) (fun _ => ret (k.number hn)) fun _ => ret1 (k.setTok _ hn)
  refine rel_ite (R := OutRel (OptRel R)) (by rw [k.ch h]) (fun _ => ?_) fun _ => ?_
  · refine rel_ite (R := OutRel (OptRel R)) (by rw [k.ch hn]) (fun _ => ret (k.lineComment (k.nextch hn))) fun _ => ?_
    exact rel_ite (R := OutRel (OptRel R)) (by rw [k.ch hn]) (fun _ => ret (k.fullComment (k.nextch hn))) fun _ => ret1 (k.setTok _ hn)
  refine rel_ite (R := OutRel (OptRel R)) (by rw [k.ch h]) (fun _ => ?_) fun _ => ?_
  · exact rel_ite (R := OutRel (OptRel R)) (by rw [k.ch hn]) (fun _ => ret1 (k.setTok _ (k.nextch hn))) fun _ => ret1 (k.setTok _ hn)
  refine rel_ite (R := OutRel (OptRel R)) (by rw [k.ch h]) (fun _ => ret (k.lineComment hn)) fun _ => ?_
  dsimp only
  rw [k.ch h]
  cases single t.ch with
  | some x => exact ret1 (k.setTok _ hn)
  | none => trivial

theorem Kept.atIdentFirst (k : Kept R) (u : Unicode) {s t : Scanner} (h : R s t) : (s.atIdentFirst u).1 = (t.atIdentFirst u).1 ∧ R (s.atIdentFirst u).2 (t.atIdentFirst u).2 := by
  unfold Scanner.atIdentFirst
  rw [k.ch h]
  split
  · exact ⟨rfl, h⟩
  split
  · exact ⟨rfl, k.error _ h⟩
  · exact ⟨rfl, h⟩

theorem Kept.redo (k : Kept R) (u : Unicode) (n : Nat) {s t : Scanner} (h : R s t) : OutRel R (s.redo u n) (t.redo u n) := by
  induction n generalizing s t with
  | zero => trivial
  | succ n ih =>
    rw [redo_step, redo_step]
    refine (k.skipWhile' _ h).bind fun s t h => ?_
    have h := k.setPos h
    generalize ({ s with pos := s.offset } : Scanner) = s at h ⊢
    generalize ({ t with pos := t.offset } : Scanner) = t at h ⊢
    unfold redoAt
    have key : ∀ a b : Bool × Scanner, a.1 = b.1 ∧ R a.2 b.2 →
        OutRel R (if a.1 then Scanner.ident u a.2.nextch else (Scanner.token a.2).bind fun r => match r with | some s => .done s | none => Scanner.redo u n (a.2.error a.2.offset (.char a.2.ch)).nextch)
          (if b.1 then Scanner.ident u b.2.nextch else (Scanner.token b.2).bind fun r => match r with | some s => .done s | none => Scanner.redo u n (b.2.error b.2.offset (.char b.2.ch)).nextch) := by
      rintro ⟨a, s⟩ ⟨b, t⟩ ⟨he, h⟩
      cases he
      cases a with
      | true => exact k.ident u (k.nextch h)
      | false =>
        refine (k.token h).bind fun x y hxy => ?_
        cases x with
        | some x => cases y with
          | some y => exact hxy
          | none => exact hxy.elim
        | none => cases y with
          | some y => exact hxy.elim
          | none =>
            have h : R s t := h
            have := k.error (.char s.ch) h
            have h2 : (Scanner.error t t.offset (.char s.ch)) = (Scanner.error t t.offset (.char t.ch)) := by rw [k.ch h]
            rw [h2] at this
            exact ih (k.nextch this)
    refine key _ _ ?_
    rw [k.ch h]
    split
    · exact ⟨rfl, h⟩
    split
    · exact k.atIdentFirst u h
    · exact ⟨rfl, h⟩

theorem Kept.next (k : Kept R) (u : Unicode) {s t : Scanner} (h : R s t) : OutRel R (s.next u) (t.next u) := by
  unfold Scanner.next
  rw [k.bound h]
  exact k.redo u _ h

theorem Kept.skipComments (k : Kept R) (htok : ∀ {s t}, R s t → s.tok = t.tok) (u : Unicode) (n : Nat) {s t : Scanner} (h : R s t) :
    OutRel R (s.skipComments u n) (t.skipComments u n) := by
  induction n generalizing s t with
  | zero => trivial
  | succ n ih =>
    rw [Scanner.skipComments, Scanner.skipComments, htok h]
    split
    · exact (k.next u h).bind fun _ _ h => ih h
    · exact h

theorem Kept.nextToken (k : Kept R) (htok : ∀ {s t}, R s t → s.tok = t.tok) (u : Unicode) {s t : Scanner} (h : R s t) : OutRel R (s.nextToken u) (t.nextToken u) := by
  refine (k.next u h).bind fun s t h => ?_
  rw [k.bound h]
  exact k.skipComments htok u _ h

/-! ## The errors do not matter -/

/-- The same but for the errors before; and the same errors since. -/
structure SameBut (e e' : List PosErr) (s t : Scanner) : Prop where
  same : t = { s with errs := t.errs }
  since : ∃ l, s.errs = e ++ l ∧ t.errs = e' ++ l

theorem SameBut.refl (s : Scanner) (e : List PosErr) : SameBut s.errs e s { s with errs := e } := ⟨rfl, [], by simp⟩

theorem SameBut.error {e e' : List PosErr} {s t : Scanner} (o : Nat) (m : Msg) (h : SameBut e e' s t) : SameBut e e' (s.error o m) (t.error o m) := by
  obtain ⟨h1, l, h2, h3⟩ := h
  have hl : t.lines = s.lines := by rw [h1]
  refine ⟨?_, l ++ [⟨o, (position s.lines o).1, (position s.lines o).2, m⟩], ?_, ?_⟩
  · rw [h1]; rfl
  · simp [Scanner.error, h2]
  · simp [Scanner.error, h3, hl]

theorem SameBut.newLine {e e' : List PosErr} {s t : Scanner} (o : Nat) (h : SameBut e e' s t) : SameBut e e' (s.newLine o) (t.newLine o) := by
  obtain ⟨h1, l, h2, h3⟩ := h
  refine ⟨?_, l, by rw [newLine_errs]; exact h2, by rw [newLine_errs]; exact h3⟩
  rw [newLine_errs]
  rw [h1]
  unfold Scanner.newLine
  dsimp only
  split <;> rfl

theorem SameBut.set {e e' : List PosErr} {s t : Scanner} (h : SameBut e e' s t) (rd : Nat) (ch : Int) : SameBut e e' { s with rdOffset := rd, ch := ch } { t with rdOffset := rd, ch := ch } := by
  obtain ⟨h1, l, h2, h3⟩ := h
  refine ⟨?_, l, h2, h3⟩
  rw [h1]

theorem SameBut.fields {e e' : List PosErr} {s t : Scanner} (h : SameBut e e' s t) :
    s.src = t.src ∧ s.ch = t.ch ∧ s.offset = t.offset ∧ s.rdOffset = t.rdOffset ∧ s.pos = t.pos ∧ s.tok = t.tok := by
  have := h.same
  refine ⟨?_, ?_, ?_, ?_, ?_, ?_⟩ <;> rw [this]

theorem SameBut.kept (e e' : List PosErr) : Kept (SameBut e e') where
  src h := h.fields.1
  ch h := h.fields.2.1
  offset h := h.fields.2.2.1
  pos h := h.fields.2.2.2.2.1
  nextch {s t} h := by
    obtain ⟨h1, h2, h3, h4, h5, h6⟩ := h.fields
    unfold Scanner.nextch
    rw [h1, h4]
    have set' : ∀ {s t : Scanner} {rd rd' : Nat} {ch : Int}, SameBut e e' s t → rd = rd' → SameBut e e' { s with rdOffset := rd, ch := ch } { t with rdOffset := rd', ch := ch } :=
      fun h hr => by subst hr; exact h.set _ _
    generalize t.src.drop t.rdOffset = l
    cases l with
    | nil =>
      have := h.newLine t.src.length
      exact set' this this.fields.2.2.2.1
    | cons b rest =>
      have hn := h.newLine t.rdOffset
      have ho := hn.fields.2.2.1
      have hr := hn.fields.2.2.2.1
      have herr : ∀ m, SameBut e e' ((s.newLine t.rdOffset).error (s.newLine t.rdOffset).offset m) ((t.newLine t.rdOffset).error (t.newLine t.rdOffset).offset m) := by
        intro m; rw [ho]; exact hn.error _ m
      refine rel_ite Iff.rfl (fun _ => set' (herr _) (by rw [hr])) fun _ => ?_
      refine rel_ite Iff.rfl (fun _ => set' hn (by rw [hr])) fun _ => ?_
      have : SameBut e e' (if (Utf8.decodeRune (b :: rest)).1 = Utf8.runeError ∧ (Utf8.decodeRune (b :: rest)).2 = 1 then (s.newLine t.rdOffset).error (s.newLine t.rdOffset).offset .utf8
            else if (Utf8.decodeRune (b :: rest)).1 = 0xfeff ∧ (s.newLine t.rdOffset).offset > 0 then (s.newLine t.rdOffset).error (s.newLine t.rdOffset).offset .bom else s.newLine t.rdOffset)
          (if (Utf8.decodeRune (b :: rest)).1 = Utf8.runeError ∧ (Utf8.decodeRune (b :: rest)).2 = 1 then (t.newLine t.rdOffset).error (t.newLine t.rdOffset).offset .utf8
            else if (Utf8.decodeRune (b :: rest)).1 = 0xfeff ∧ (t.newLine t.rdOffset).offset > 0 then (t.newLine t.rdOffset).error (t.newLine t.rdOffset).offset .bom else t.newLine t.rdOffset) := by
        refine rel_ite Iff.rfl (fun _ => herr _) fun _ => ?_
        exact rel_ite (by rw [ho]) (fun _ => herr _) fun _ => hn
      exact set' this (by rw [this.fields.2.2.2.1])
  error {s t} m h := by
    rw [h.fields.2.2.1]; exact h.error _ m
  setTok {s t} x h := by
    obtain ⟨h1, l, h2, h3⟩ := h
    refine ⟨?_, l, h2, h3⟩
    rw [h1]
  setPos {s t} h := by
    obtain ⟨h1, l, h2, h3⟩ := h
    refine ⟨?_, l, h2, h3⟩
    rw [h1]

/-- The next token does not depend on the errors before, and neither do the errors about it. -/
theorem nextToken_errs (u : Unicode) {s s' : Scanner} (h : s.nextToken u = .done s') (e : List PosErr) :
    ∃ l, s'.errs = s.errs ++ l ∧ ({ s with errs := e } : Scanner).nextToken u = .done { s' with errs := e ++ l } := by
  have := (SameBut.kept s.errs e).nextToken (fun h => h.fields.2.2.2.2.2) u (SameBut.refl s e)
  rw [h] at this
  obtain ⟨t', ht, hr⟩ := this.done_left
  obtain ⟨h1, l, h2, h3⟩ := hr
  refine ⟨l, h2, ?_⟩
  rw [ht, h1, h3]

/-! ## Invariants -/

/-- Invariants of one scanner. -/
structure Invariant (P : Scanner → Prop) : Prop where
  nextch : ∀ {s}, P s → P s.nextch
  error : ∀ {s} m, P s → P (s.error s.offset m)
  setTok : ∀ {s} x, P s → P { s with tok := x }
  setPos : ∀ {s}, P s → P { s with pos := s.offset }

theorem Invariant.kept {P : Scanner → Prop} (k : Invariant P) : Kept (fun s t => s = t ∧ P s) where
  src h := by rw [h.1]
  ch h := by rw [h.1]
  offset h := by rw [h.1]
  pos h := by rw [h.1]
  nextch h := ⟨by rw [h.1], k.nextch h.2⟩
  error m h := ⟨by rw [h.1], k.error m h.2⟩
  setTok x h := ⟨by rw [h.1], k.setTok x h.2⟩
  setPos h := ⟨by rw [h.1], k.setPos h.2⟩

theorem Invariant.next {P : Scanner → Prop} (k : Invariant P) (u : Unicode) {s s' : Scanner} (h : P s) (hs : s.next u = .done s') : P s' := by
  have := k.kept.next u (s := s) ⟨rfl, h⟩
  rw [hs] at this
  exact this.2

theorem Invariant.nextToken {P : Scanner → Prop} (k : Invariant P) (u : Unicode) {s s' : Scanner} (h : P s) (hs : s.nextToken u = .done s') : P s' := by
  have := k.kept.nextToken (fun h => by rw [h.1]) u (s := s) ⟨rfl, h⟩
  rw [hs] at this
  exact this.2

end Scanner

end GoThrift.Idl
