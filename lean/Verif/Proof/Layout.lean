import Verif.Spec.Layout
import Verif.Proof.Toks

/-!
# Inserting layout does not change the lexemes
-/

namespace GoThrift.Spec

open Idl

/-! ## Numbers, from the automaton back -/

/-- What was read when the automaton is in a state. -/
def NumState.Read : NumState → List Nat → Prop
  | .start, w => w = []
  | .zero, w => w = [0x30]
  | .int, w => w ≠ [] ∧ ∀ d ∈ w, Digit d
  | .hex, w => ∃ x ds, (x = 0x78 ∨ x = 0x58) ∧ (∀ d ∈ ds, HexDigit d) ∧ w = 0x30 :: x :: ds
  | .frac, w => ∃ ds fs, ds ≠ [] ∧ (∀ d ∈ ds, Digit d) ∧ (∀ d ∈ fs, Digit d) ∧ w = ds ++ 0x2e :: fs
  | .exp, w => ∃ ds f e, ds ≠ [] ∧ (∀ d ∈ ds, Digit d) ∧ Fraction f ∧ (e = 0x65 ∨ e = 0x45) ∧ w = ds ++ f ++ [e]
  | .expDigits, w => ∃ ds f e s es, ds ≠ [] ∧ (∀ d ∈ ds, Digit d) ∧ Fraction f ∧ (e = 0x65 ∨ e = 0x45) ∧ Sign s ∧ (∀ d ∈ es, Digit d) ∧ w = ds ++ f ++ e :: (s ++ es)

theorem mem_snoc {α : Type} {P : α → Prop} {l : List α} {a : α} (h : ∀ d ∈ l, P d) (ha : P a) : ∀ d ∈ l ++ [a], P d := by
  intro d hd
  rcases List.mem_append.1 hd with hd | hd
  · exact h d hd
  · rw [List.mem_singleton.1 hd]; exact ha

theorem NumState.Read.step {s s' : NumState} {w : List Nat} {r : Nat} (h : s.Read w) (hs : numStep s r = some s') : s'.Read (w ++ [r]) := by
  cases s with
  | start =>
    rw [show w = [] from h]
    rw [numStep] at hs
    split at hs
    · cases hs; rename_i h0; rw [h0]; rfl
    · split at hs
      · cases hs; rename_i hd; exact ⟨by simp, fun d h => by rw [List.mem_singleton.1 h]; exact hd⟩
      · cases hs
  | zero =>
    rw [show w = [0x30] from h]
    rw [numStep] at hs
    split at hs
    · cases hs; rename_i hx; exact ⟨r, [], hx, by simp, rfl⟩
    · split at hs
      · cases hs; rename_i hd
        refine ⟨by simp, fun d h => ?_⟩
        simp at h
        rcases h with rfl | rfl
        · decide
        · exact hd
      · split at hs
        · cases hs; rename_i hp; exact ⟨[0x30], [], by simp, fun d h => by rw [List.mem_singleton.1 h]; decide, by simp, by rw [hp]⟩
        · split at hs
          · cases hs; rename_i he; exact ⟨[0x30], [], r, by simp, fun d h => by rw [List.mem_singleton.1 h]; decide, .inl rfl, he, rfl⟩
          · cases hs
  | int =>
    obtain ⟨h1, h2⟩ := h
    rw [numStep] at hs
    split at hs
    · cases hs; rename_i hd; exact ⟨by simp, mem_snoc h2 hd⟩
    · split at hs
      · cases hs; rename_i hp; exact ⟨w, [], h1, h2, by simp, by rw [hp]⟩
      · split at hs
        · cases hs; rename_i he; exact ⟨w, [], r, h1, h2, .inl rfl, he, by simp⟩
        · cases hs
  | hex =>
    obtain ⟨x, ds, h1, h2, rfl⟩ := h
    rw [numStep] at hs
    split at hs
    · cases hs; rename_i hd; exact ⟨x, ds ++ [r], h1, mem_snoc h2 hd, rfl⟩
    · cases hs
  | frac =>
    obtain ⟨ds, fs, h1, h2, h3, rfl⟩ := h
    rw [numStep] at hs
    split at hs
    · cases hs; rename_i hd; exact ⟨ds, fs ++ [r], h1, h2, mem_snoc h3 hd, by simp⟩
    · split at hs
      · cases hs; rename_i he; exact ⟨ds, 0x2e :: fs, r, h1, h2, .inr ⟨fs, h3, rfl⟩, he, rfl⟩
      · cases hs
  | exp =>
    obtain ⟨ds, f, e, h1, h2, h3, h4, rfl⟩ := h
    rw [numStep] at hs
    split at hs
    · cases hs; rename_i hd
      rcases hd with rfl | rfl | hd
      · exact ⟨ds, f, e, [0x2b], [], h1, h2, h3, h4, .inr (.inl rfl), by simp, by simp⟩
      · exact ⟨ds, f, e, [0x2d], [], h1, h2, h3, h4, .inr (.inr rfl), by simp, by simp⟩
      · exact ⟨ds, f, e, [], [r], h1, h2, h3, h4, .inl rfl, fun d h => by rw [List.mem_singleton.1 h]; exact hd, by simp⟩
    · cases hs
  | expDigits =>
    obtain ⟨ds, f, e, s, es, h1, h2, h3, h4, h5, h6, rfl⟩ := h
    rw [numStep] at hs
    split at hs
    · cases hs; rename_i hd; exact ⟨ds, f, e, s, es ++ [r], h1, h2, h3, h4, h5, mem_snoc h6 hd, by simp⟩
    · cases hs

theorem NumState.Read.run {s s' : NumState} {v w : List Nat} (h : s.Read v) (hs : numRun s w = some s') : s'.Read (v ++ w) := by
  induction w generalizing s v with
  | nil => cases hs; rw [List.append_nil]; exact h
  | cons r w ih =>
    rw [numRun] at hs
    cases hr : numStep s r with
    | none => rw [hr] at hs; cases hs
    | some s1 =>
      rw [hr, Option.bind_some] at hs
      have := ih (h.step hr) hs
      rwa [List.append_assoc] at this

theorem Lexeme.ofRun {u : Unicode} {s : NumState} {sg n : List Nat} {w : List Chr} (hsg : Sign sg) (hne : n ≠ []) (hr : runesOf w = sg ++ n) (h : numRun .start n = some s) : ∃ t, Lexeme u t w := by
  have hread := NumState.Read.run (s := .start) (v := []) rfl h
  rw [List.nil_append] at hread
  cases s with
  | start => exact absurd hread hne
  | zero => exact ⟨_, .int hsg hne (by rw [show n = [0x30] from hread]; intro d h; rw [List.mem_singleton.1 h]; decide) hr⟩
  | int => exact ⟨_, .int hsg hne hread.2 hr⟩
  | hex =>
    obtain ⟨x, ds, h1, h2, rfl⟩ := hread
    exact ⟨_, .hex hsg h1 h2 hr⟩
  | frac =>
    obtain ⟨ds, fs, h1, h2, h3, rfl⟩ := hread
    exact ⟨_, .float (f := 0x2e :: fs) (e := []) hsg h1 h2 (.inr ⟨fs, h3, rfl⟩) (.inl rfl) (by simp) (by rw [hr]; simp)⟩
  | exp =>
    obtain ⟨ds, f, e, h1, h2, h3, h4, rfl⟩ := hread
    exact ⟨_, .float (f := f) (e := [e]) hsg h1 h2 h3 (.inr ⟨e, [], [], h4, .inl rfl, by simp, rfl⟩) (by simp) (by rw [hr]; simp)⟩
  | expDigits =>
    obtain ⟨ds, f, e, s, es, h1, h2, h3, h4, h5, h6, rfl⟩ := hread
    exact ⟨_, .float (f := f) (e := e :: (s ++ es)) hsg h1 h2 h3 (.inr ⟨e, s, es, h4, h5, h6, rfl⟩) (by simp) (by rw [hr]; simp)⟩

/-! ## One more character -/

theorem runesOf_append (v w : List Chr) : runesOf (v ++ w) = runesOf v ++ runesOf w := List.map_append

theorem runesOf_cons (c : Chr) (w : List Chr) : runesOf (c :: w) = c.1 :: runesOf w := rfl

/-- A comment is not a proper beginning of another. -/
theorem full_ext {w v : List Chr} {c : Chr} {b b' : List Nat} (h : NoClose b) (h' : NoClose b') (e : runesOf w = 0x2a :: (b ++ [0x2a, 0x2f])) (e' : runesOf (w ++ c :: v) = 0x2a :: (b' ++ [0x2a, 0x2f])) : False := by
  rw [runesOf_append, e, List.cons_append, List.append_assoc] at e'
  have e' := (List.cons.inj e').2
  have := NoClose.unique (rest := runesOf (c :: v)) (rest' := []) h h' (by simpa using e')
  subst this
  have := congrArg List.length e'
  simp [runesOf] at this

/-- If a lexeme can be made longer, it can be made longer by the next character. -/
theorem Lexeme.shorter {u : Unicode} {t t0 : Token} {w v : List Chr} {c : Chr} (h0 : Lexeme u t0 w) (h : Lexeme u t (w ++ c :: v)) (hc : ¬ (runesOf w = [0x2f] ∧ c.1 = 0x2a)) : ∃ t', Lexeme u t' (w ++ [c]) := by
  cases w with
  | nil => exact absurd rfl h0.ne_nil
  | cons a w =>
    have hF : Form u t a (w ++ c :: v) := Lexeme.form h
    cases hF with
    | word h1 h2 h3 =>
      have h2' : ∀ d ∈ w ++ [c], IdentPart u d.1 := fun d hd => h2 d (by
        rcases List.mem_append.1 hd with hd | hd
        · exact List.mem_append_left _ hd
        · rw [List.mem_singleton.1 hd]; simp)
      by_cases hr : ∃ t', Reserved (bytesOf (a :: (w ++ [c]))) t'
      · obtain ⟨t', hr⟩ := hr
        exact ⟨t', .word h1 h2' (.inl hr)⟩
      · exact ⟨Tk.ident, .word h1 h2' (.inr ⟨rfl, fun t' ht => hr ⟨t', ht⟩⟩)⟩
    | num h1 h2 h3 =>
      rw [show a :: (w ++ c :: v) = (a :: (w ++ [c])) ++ v by simp, runesOf_append, numRun_append] at h2
      cases hr : numRun .start (runesOf (a :: (w ++ [c]))) with
      | none => rw [hr] at h2; cases h2
      | some s' => exact Lexeme.ofRun (sg := []) (.inl rfl) (by simp [runesOf]) rfl hr
    | signed h1 h2 h3 h4 =>
      rw [show w ++ c :: v = (w ++ [c]) ++ v by simp, runesOf_append, numRun_append] at h3
      cases hr : numRun .start (runesOf (w ++ [c])) with
      | none => rw [hr] at h3; cases h3
      | some s' => exact Lexeme.ofRun (sg := [a.1]) (h1.elim (fun h => .inr (.inl (by rw [h]))) fun h => .inr (.inr (by rw [h]))) (by simp [runesOf]) rfl hr
    | string h1 h2 h3 h4 =>
      obtain ⟨b, hb1, hb2⟩ := h0.form.ofQuote h1
      rw [runesOf_append, hb2, List.append_assoc] at h3
      have := StringBody.unique (rest := runesOf (c :: v)) (rest' := []) hb1 h2 (by omega) h3
      subst this
      have := congrArg List.length h3
      simp [runesOf] at this
    | hash h1 h2 h3 =>
      refine ⟨Tk.comment, .lineComment (open_ := [0x23]) (.inl rfl) (body := runesOf (w ++ [c])) ?_ (by rw [List.cons_append, runesOf_cons, h1]; rfl)⟩
      intro hm
      apply h2
      rw [runesOf_append] at hm ⊢
      rcases List.mem_append.1 hm with hm | hm
      · exact List.mem_append_left _ hm
      · exact List.mem_append_right _ (by rw [runesOf_cons, ← List.mem_singleton.1 hm]; exact List.mem_cons_self)
    | @slashes body h1 h2 h3 h4 =>
      cases w with
      | nil =>
        have h3 := List.cons.inj h3
        exact ⟨Tk.comment, .lineComment (open_ := [0x2f, 0x2f]) (.inr rfl) (body := []) (by simp) (by rw [List.cons_append, runesOf_cons, h1]; show [_, c.1] = _; rw [h3.1]; rfl)⟩
      | cons b w =>
        have h3 := List.cons.inj h3
        refine ⟨Tk.comment, .lineComment (open_ := [0x2f, 0x2f]) (.inr rfl) (body := runesOf (w ++ [c])) ?_ ?_⟩
        · intro hm
          apply h2
          rw [← h3.2]
          change _ ∈ runesOf (w ++ c :: v)
          rw [runesOf_append] at hm ⊢
          rcases List.mem_append.1 hm with hm | hm
          · exact List.mem_append_left _ hm
          · exact List.mem_append_right _ (by rw [runesOf_cons, ← List.mem_singleton.1 hm]; exact List.mem_cons_self)
        · rw [List.cons_append, List.cons_append, runesOf_cons, runesOf_cons, h1, h3.1]
          rfl
    | @full body h1 h2 h3 h4 =>
      rcases h0.form.ofSlash h1 with rfl | ⟨b, _, hb⟩ | ⟨b, hb1, hb2⟩
      · have h3 := List.cons.inj h3
        exact absurd ⟨by rw [runesOf_cons, h1]; rfl, h3.1⟩ hc
      · rw [runesOf_append, hb] at h3
        have := (List.cons.inj h3).1
        omega
      · exact (full_ext hb1 h2 hb2 h3).elim
    | operator h1 =>
      rcases (operators_first h1).2.2.2.2.2.2 with hw | ⟨_, hw⟩
      · simp at hw
      · have hlen := congrArg List.length hw
        simp at hlen
        have hw0 : w = [] := List.length_eq_zero_iff.1 (by omega)
        have hv0 : v = [] := List.length_eq_zero_iff.1 (by omega)
        subst hw0
        subst hv0
        exact ⟨t, h⟩

/-- Which lexeme is next depends only on the character behind it. -/
theorem NextLexeme.local {u : Unicode} {t : Token} {w r r' : List Chr} {c : Chr} (h : NextLexeme u (w ++ c :: r) t w (c :: r)) : NextLexeme u (w ++ c :: r') t w (c :: r') where
  split := rfl
  lexeme := h.lexeme
  longest := fun t' w' rest' he hl => by
    apply Nat.le_of_not_lt
    intro hlt
    obtain ⟨c', r1, v, e1, rfl⟩ := longer he hlt
    injection e1 with e1 e2
    subst e1
    obtain ⟨t1, h1⟩ := h.lexeme.shorter hl (fun ⟨ha, hb⟩ => h.comment ⟨ha, c, r, rfl, hb⟩)
    have := h.longest t1 (w ++ [c]) r (by simp) h1
    rw [List.length_append] at this
    simp only [List.length_cons, List.length_nil] at this
    omega
  comment := fun ⟨ha, c', r1, e, hb⟩ => by
    injection e with e1 e2
    subst e1
    exact h.comment ⟨ha, c, r, rfl, hb⟩

/-- What a gap begins with. -/
def GapStart (c : Chr) : Prop := White c.1 ∨ c.1 = 0x23 ∨ c.1 = 0x2f

theorem numStep_gap {s s' : NumState} {c : Chr} (hc : GapStart c) (h : numStep s c.1 = some s') : False := by
  unfold GapStart White at hc
  have key : ∀ r ∈ [0x20, 0x09, 0x0a, 0x0d, 0x23, 0x2f], numStep s r = none := by cases s <;> decide
  rw [key c.1 (by simp; omega)] at h
  cases h

/-- Only a line comment and a slash are made longer by what a gap begins with. -/
theorem Lexeme.stop {u : Unicode} {t t0 : Token} {w v : List Chr} {c : Chr} (h0 : Lexeme u t0 w) (h : Lexeme u t (w ++ c :: v)) (hc : GapStart c) :
    (LineComment w ∧ c.1 ≠ 0x0a) ∨ (runesOf w = [0x2f] ∧ c.1 = 0x2f) := by
  have hc' := hc
  unfold GapStart White at hc'
  obtain ⟨t', h⟩ := h0.shorter h (by omega)
  cases w with
  | nil => exact absurd rfl h0.ne_nil
  | cons a w =>
    have hF : Form u t' a (w ++ [c]) := Lexeme.form h
    cases hF with
    | word h1 h2 h3 =>
      have := h2 c (by simp)
      simp only [IdentPart, IdentStart, Digit] at this
      omega
    | num h1 h2 h3 =>
      rw [show a :: (w ++ [c]) = (a :: w) ++ [c] from rfl, runesOf_append, numRun_append] at h2
      cases hr : numRun .start (runesOf (a :: w)) with
      | none => rw [hr] at h2; cases h2
      | some s' =>
        rw [hr, Option.bind_some] at h2
        change (numStep s' c.1).bind _ = _ at h2
        cases hn : numStep s' c.1 with
        | none => rw [hn] at h2; cases h2
        | some _ => exact (numStep_gap hc hn).elim
    | signed h1 h2 h3 h4 =>
      rw [runesOf_append, numRun_append] at h3
      cases hr : numRun .start (runesOf w) with
      | none => rw [hr] at h3; cases h3
      | some s' =>
        rw [hr, Option.bind_some] at h3
        change (numStep s' c.1).bind _ = _ at h3
        cases hn : numStep s' c.1 with
        | none => rw [hn] at h3; cases h3
        | some _ => exact (numStep_gap hc hn).elim
    | string h1 h2 h3 h4 =>
      rw [runesOf_append] at h3
      have := (List.append_inj' h3 rfl).2
      have := (List.cons.inj this).1
      change c.1 = a.1 at this
      omega
    | hash h1 h2 h3 =>
      rw [runesOf_append] at h2
      refine .inl ⟨⟨[0x23], runesOf w, .inl rfl, fun hm => h2 (List.mem_append_left _ hm), by rw [runesOf_cons, h1]; rfl⟩, fun hn => h2 (List.mem_append_right _ ?_)⟩
      show 0x0a ∈ [c.1]
      rw [hn]
      exact List.mem_cons_self
    | @slashes body h1 h2 h3 h4 =>
      cases w with
      | nil =>
        have h3 := List.cons.inj h3
        exact .inr ⟨by rw [runesOf_cons, h1]; rfl, h3.1⟩
      | cons b w =>
        have h3 := List.cons.inj h3
        have hb : body = runesOf w ++ [c.1] := by
          rw [← h3.2]
          exact runesOf_append w [c]
        rw [hb] at h2
        refine .inl ⟨⟨[0x2f, 0x2f], runesOf w, .inr rfl, fun hm => h2 (List.mem_append_left _ hm), by rw [runesOf_cons, runesOf_cons, h1, h3.1]; rfl⟩, fun hn => h2 (List.mem_append_right _ ?_)⟩
        rw [hn]
        exact List.mem_cons_self
    | @full body h1 h2 h3 h4 =>
      rcases h0.form.ofSlash h1 with rfl | ⟨b, _, hb⟩ | ⟨b, hb1, hb2⟩
      · have h3 := (List.cons.inj h3).2
        simp at h3
      · rw [runesOf_append, hb] at h3
        have := (List.cons.inj h3).1
        omega
      · exact (full_ext hb1 h2 hb2 h3).elim
    | operator h1 =>
      rcases (operators_first h1).2.2.2.2.2.2 with hw | ⟨_, hw⟩
      · simp at hw
      · have hlen := congrArg List.length hw
        simp at hlen
        subst hlen
        have := (List.cons.inj hw).1
        change c.1 = _ at this
        omega

/-- The next lexeme stays the next one before a gap. -/
theorem NextLexeme.gap {u : Unicode} {t : Token} {w r r' : List Chr} {c : Chr} (h : NextLexeme u (w ++ r) t w r) (hc : GapStart c) (h1 : LineComment w → c.1 = 0x0a) (h2 : runesOf w = [0x2f] → c.1 ≠ 0x2f) :
    NextLexeme u (w ++ c :: r') t w (c :: r') where
  split := rfl
  lexeme := h.lexeme
  longest := fun t' w' rest' he hl => by
    apply Nat.le_of_not_lt
    intro hlt
    obtain ⟨c', r1, v, e1, rfl⟩ := longer he hlt
    injection e1 with e1 e2
    subst e1
    rcases h.lexeme.stop hl hc with ⟨ha, hb⟩ | ⟨ha, hb⟩
    · exact hb (h1 ha)
    · exact h2 ha hb
  comment := fun ⟨ha, c', r1, e, hb⟩ => by
    injection e with e1 e2
    subst e1
    unfold GapStart White at hc
    omega

theorem LineComment.lexeme {u : Unicode} {w : List Chr} (h : LineComment w) : Lexeme u Tk.comment w := by
  obtain ⟨o, b, h1, h2, h3⟩ := h
  exact .lineComment h1 h2 h3

theorem FullComment.lexeme {u : Unicode} {w : List Chr} (h : FullComment w) : Lexeme u Tk.comment w := by
  obtain ⟨b, h1, h2⟩ := h
  exact .fullComment h1 h2

theorem LineComment.start {w : List Chr} (h : LineComment w) : ∃ c v, w = c :: v ∧ GapStart c := by
  obtain ⟨o, b, h1, _, h3⟩ := h
  cases w with
  | nil => rcases h1 with rfl | rfl <;> cases h3
  | cons c v =>
    refine ⟨c, v, rfl, ?_⟩
    rcases h1 with rfl | rfl
    · exact .inr (.inl (List.cons.inj h3).1)
    · exact .inr (.inr (List.cons.inj h3).1)

theorem FullComment.start {w : List Chr} (h : FullComment w) : ∃ c v, w = c :: v ∧ GapStart c := by
  obtain ⟨b, _, h3⟩ := h
  cases w with
  | nil => cases h3
  | cons c v => exact ⟨c, v, rfl, .inr (.inr (List.cons.inj h3).1)⟩

theorem Gap.start {c : Chr} {v g : List Chr} (h : Gap g) (he : g = c :: v) : GapStart c := by
  cases h with
  | nil => cases he
  | white h _ => injection he with e1 _; subst e1; exact .inl h
  | line h _ _ =>
    obtain ⟨c', v', rfl, hs⟩ := h.start
    injection he with e1 _
    subst e1; exact hs
  | full h _ =>
    obtain ⟨c', v', rfl, hs⟩ := h.start
    injection he with e1 _
    subst e1; exact hs

theorem FullComment.next {u : Unicode} {w r : List Chr} (h : FullComment w) : NextLexeme u (w ++ r) Tk.comment w r where
  split := rfl
  lexeme := h.lexeme
  longest := fun t' w' rest' he hl => by
    apply Nat.le_of_not_lt
    intro hlt
    obtain ⟨c, r1, v, e1, rfl⟩ := longer he hlt
    obtain ⟨b, h1, h2⟩ := h
    cases w with
    | nil => cases h2
    | cons a w =>
      have h2 : a.1 = 0x2f ∧ runesOf w = 0x2a :: (b ++ [0x2a, 0x2f]) := ⟨(List.cons.inj h2).1, by rw [show runesOf w = _ from (List.cons.inj h2).2]; simp⟩
      have hF : Form u t' a (w ++ c :: v) := Lexeme.form hl
      rcases hF.ofSlash h2.1 with h3 | ⟨b', _, hb⟩ | ⟨b', hb1, hb2⟩
      · simp at h3
      · rw [runesOf_append, h2.2] at hb
        have := (List.cons.inj hb).1
        omega
      · exact full_ext h1 hb1 h2.2 hb2
  comment := fun ⟨ha, _⟩ => by
    obtain ⟨b, h1, h2⟩ := h
    rw [ha] at h2
    cases h2

theorem LineComment.next {u : Unicode} {w r : List Chr} {c : Chr} (h : LineComment w) (hc : c.1 = 0x0a) : NextLexeme u (w ++ c :: r) Tk.comment w (c :: r) where
  split := rfl
  lexeme := h.lexeme
  longest := fun t' w' rest' he hl => by
    apply Nat.le_of_not_lt
    intro hlt
    obtain ⟨c', r1, v, e1, rfl⟩ := longer he hlt
    injection e1 with e1 e2
    subst e1
    rcases (h.lexeme (u := u)).stop hl (.inl (.inr (.inr (.inl hc)))) with ⟨_, hb⟩ | ⟨_, hb⟩
    · exact hb hc
    · omega
  comment := fun ⟨_, c', r1, e, hb⟩ => by
    injection e with e1 e2
    subst e1
    omega

/-- A gap contains no lexeme but comments. -/
theorem Gap.lex {u : Unicode} {gap y : List Chr} (h : Gap gap) {l : List (Token × Bytes)} : Lex u (gap ++ y) l ↔ Lex u y l := by
  induction h with
  | nil => exact Iff.rfl
  | white hc _ ih => exact (Lex.ofWhite (ws := [_]) (fun d hd => by rw [List.mem_singleton.1 hd]; exact hc)).trans ih
  | @line w v c hl hc _ ih =>
    rw [List.append_assoc]
    exact (Lex.ofComment (hl.next hc)).trans ((Lex.ofWhite (ws := [c]) (fun d hd => by rw [List.mem_singleton.1 hd]; exact .inr (.inr (.inl hc)))).trans ih)
  | full hf _ ih =>
    rw [List.append_assoc]
    exact (Lex.ofComment hf.next).trans ih

/-- Inserting a gap between lexemes does not change them. -/
theorem Cut.lex {u : Unicode} {x y gap : List Chr} (hg : Gap gap) (h : Cut u y gap x) {l : List (Token × Bytes)} : Lex u (x ++ (gap ++ y)) l ↔ Lex u (x ++ y) l := by
  induction h generalizing l with
  | nil => exact hg.lex
  | @white c x hc _ ih =>
    exact (Lex.ofWhite (ws := [c]) (fun d hd => by rw [List.mem_singleton.1 hd]; exact hc)).trans (ih.trans (Lex.ofWhite (ws := [c]) (fun d hd => by rw [List.mem_singleton.1 hd]; exact hc)).symm)
  | @lexeme t w x hn ha hx ih =>
    have hn' : NextLexeme u (w ++ (x ++ (gap ++ y))) t w (x ++ (gap ++ y)) := by
      cases x with
      | nil =>
        cases gap with
        | nil => exact hn
        | cons c v =>
          obtain ⟨h1, h2⟩ := ha rfl c v rfl
          exact hn.gap (hg.start rfl) h1 h2
      | cons c x => exact hn.local
    rw [List.append_assoc, List.append_assoc]
    by_cases ht : t = Tk.comment
    · subst ht
      exact (Lex.ofComment hn').trans (ih.trans (Lex.ofComment hn).symm)
    · rw [Lex.ofToken hn' ht, Lex.ofToken hn ht]
      constructor
      · rintro ⟨l', h1, h2⟩
        exact ⟨l', h1, ih.1 h2⟩
      · rintro ⟨l', h1, h2⟩
        exact ⟨l', h1, ih.2 h2⟩

end GoThrift.Spec
