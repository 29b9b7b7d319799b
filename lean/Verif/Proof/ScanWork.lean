import Verif.Proof.ParseAll
import Verif.Proof.Tag

/-!
# How many errors the scanner reports
-/

namespace GoThrift.Idl.Scanner

open Spec

/-- The scanner is inside its source, and its character is before what it reads next. -/
structure Inside (s : Scanner) : Prop where
  off : s.offset ≤ s.rdOffset
  rd : s.rdOffset ≤ s.src.length
  ch : s.ch ≠ -1 → s.offset < s.rdOffset

/-- What was read and passed between the two states allows for the errors reported, and for `k` more. -/
structure Pays (k : Int) (s s' : Scanner) : Prop where
  inside : Inside s'
  src : s'.src = s.src
  le : (s'.errs.length : Int) + k + s.rdOffset + s.offset ≤ s'.rdOffset + s'.offset + s.errs.length

theorem Pays.refl {s : Scanner} (h : Inside s) : Pays 0 s s := ⟨h, rfl, by omega⟩

theorem Pays.trans {a b k : Int} {s s' s'' : Scanner} (h : Pays a s s') (h' : Pays b s' s'') (hk : k ≤ a + b) : Pays k s s'' :=
  ⟨h'.inside, h'.src.trans h.src, by have := h.le; have := h'.le; omega⟩

theorem Pays.mono {a k : Int} {s s' : Scanner} (h : Pays a s s') (hk : k ≤ a) : Pays k s s' := ⟨h.inside, h.src, by have := h.le; omega⟩

theorem Pays.setTok {k : Int} {s s' : Scanner} (h : Pays k s s') (x : Token) : Pays k s { s' with tok := x } := ⟨⟨h.inside.off, h.inside.rd, h.inside.ch⟩, h.src, h.le⟩

theorem Pays.error {s : Scanner} (h : Inside s) (p : Nat) (m : Msg) : Pays (-1) s (s.error p m) := by
  refine ⟨⟨h.off, h.rd, h.ch⟩, rfl, ?_⟩
  show (((s.errs ++ [_]).length : Nat) : Int) + _ + _ + _ ≤ _
  rw [List.length_append, List.length_singleton]
  show _ ≤ (s.rdOffset : Int) + s.offset + _
  omega

theorem newLine_fields (s : Scanner) (o : Nat) : (s.newLine o).offset = o ∧ (s.newLine o).rdOffset = s.rdOffset ∧ (s.newLine o).src = s.src ∧ (s.newLine o).errs = s.errs := by
  unfold newLine
  dsimp only
  split <;> exact ⟨rfl, rfl, rfl, rfl⟩

theorem nextch_pays {s : Scanner} (h1 : s.offset ≤ s.rdOffset) (h2 : s.rdOffset ≤ s.src.length) : Pays ((s.rdOffset : Int) - s.offset) s s.nextch := by
  obtain ⟨a, b, c, d⟩ := newLine_fields s s.rdOffset
  unfold nextch
  split
  · rename_i x rest hx
    have hlen : s.rdOffset + (x :: rest).length = s.src.length := by
      rw [← hx, List.length_drop]; omega
    rw [List.length_cons] at hlen
    dsimp only
    split
    · refine ⟨⟨?_, ?_, fun _ => ?_⟩, c, ?_⟩
      · show (s.newLine s.rdOffset).offset ≤ (s.newLine s.rdOffset).rdOffset + 1; omega
      · show (s.newLine s.rdOffset).rdOffset + 1 ≤ (s.newLine s.rdOffset).src.length; rw [c]; omega
      · show (s.newLine s.rdOffset).offset < (s.newLine s.rdOffset).rdOffset + 1; omega
      · show ((((s.newLine s.rdOffset).errs ++ [_]).length : Nat) : Int) + _ + _ + _ ≤ (((s.newLine s.rdOffset).rdOffset + 1 : Nat) : Int) + ((s.newLine s.rdOffset).offset : Nat) + _
        rw [a, b, d, List.length_append, List.length_singleton]
        omega
    · split
      · refine ⟨⟨?_, ?_, fun _ => ?_⟩, c, ?_⟩
        · show (s.newLine s.rdOffset).offset ≤ (s.newLine s.rdOffset).rdOffset + 1; omega
        · show (s.newLine s.rdOffset).rdOffset + 1 ≤ (s.newLine s.rdOffset).src.length; rw [c]; omega
        · show (s.newLine s.rdOffset).offset < (s.newLine s.rdOffset).rdOffset + 1; omega
        · show (((s.newLine s.rdOffset).errs.length : Nat) : Int) + _ + _ + _ ≤ (((s.newLine s.rdOffset).rdOffset + 1 : Nat) : Int) + ((s.newLine s.rdOffset).offset : Nat) + _
          rw [a, b, d]
          omega
      · have w1 : 1 ≤ (Utf8.decodeRune (x :: rest)).2 := Utf8.decodeRune_width_pos _ (List.cons_ne_nil _ _)
        have w2 : (Utf8.decodeRune (x :: rest)).2 ≤ (x :: rest).length := Utf8.decodeRune_width_le _
        rw [List.length_cons] at w2
        generalize Utf8.decodeRune (x :: rest) = r at w1 w2 ⊢
        generalize hs1 : s.newLine s.rdOffset = s1 at a b c d ⊢
        have key : ∀ s2 : Scanner, s2.offset = s1.offset → s2.rdOffset = s1.rdOffset → s2.src = s1.src → s2.errs.length ≤ s1.errs.length + 1 →
            Pays ((s.rdOffset : Int) - s.offset) s { s2 with rdOffset := s2.rdOffset + r.2, ch := r.1 } := by
          intro s2 e1 e2 e3 e4
          refine ⟨⟨?_, ?_, fun _ => ?_⟩, e3.trans c, ?_⟩
          · show s2.offset ≤ s2.rdOffset + r.2; omega
          · show s2.rdOffset + r.2 ≤ s2.src.length; rw [e3, c]; omega
          · show s2.offset < s2.rdOffset + r.2; omega
          · show ((s2.errs.length : Nat) : Int) + _ + _ + _ ≤ ((s2.rdOffset + r.2 : Nat) : Int) + (s2.offset : Nat) + _
            rw [d] at e4
            omega
        refine key _ ?_ ?_ ?_ ?_
        · split
          · rfl
          · split <;> rfl
        · split
          · rfl
          · split <;> rfl
        · split
          · rfl
          · split <;> rfl
        · split
          · exact Nat.le_of_eq (by show (s1.errs ++ [_]).length = _; rw [List.length_append, List.length_singleton])
          · split
            · exact Nat.le_of_eq (by show (s1.errs ++ [_]).length = _; rw [List.length_append, List.length_singleton])
            · exact Nat.le_succ _
  · rename_i hx
    obtain ⟨a, b, c, d⟩ := newLine_fields s s.src.length
    have hlen : s.src.length ≤ s.rdOffset := List.drop_eq_nil_iff.1 hx
    refine ⟨⟨?_, ?_, fun h => absurd rfl h⟩, c, ?_⟩
    · show (s.newLine s.src.length).offset ≤ (s.newLine s.src.length).rdOffset; omega
    · show (s.newLine s.src.length).rdOffset ≤ (s.newLine s.src.length).src.length; rw [c]; omega
    · show (((s.newLine s.src.length).errs.length : Nat) : Int) + _ + _ + _ ≤ (((s.newLine s.src.length).rdOffset : Nat) : Int) + ((s.newLine s.src.length).offset : Nat) + _
      rw [a, b, d]
      omega

theorem Inside.nextch {s : Scanner} (h : Inside s) : Pays 0 s s.nextch := (nextch_pays h.off h.rd).mono (by have := h.off; omega)

theorem Inside.pass {s : Scanner} (h : Inside s) (hc : s.ch ≠ -1) : Pays 1 s s.nextch := (nextch_pays h.off h.rd).mono (by have := h.ch hc; omega)

theorem Pays.nextch {k : Int} {s s' : Scanner} (h : Pays k s s') : Pays k s s'.nextch := h.trans h.inside.nextch (by omega)

/-- The outcome pays, if there is one. -/
def Ok (k : Int) (s : Scanner) (x : Out Scanner) : Prop := ∀ s', x = .done s' → Pays k s s'

theorem Ok.done {k : Int} {s s' : Scanner} (h : Pays k s s') : Ok k s (.done s') := fun _ e => by cases e; exact h

theorem Ok.from {k a : Int} {s s' : Scanner} {x : Out Scanner} (h : Ok (k - a) s' x) (h' : Pays a s s') : Ok k s x := fun t e => h'.trans (h t e) (by omega)

theorem Ok.bind {k a : Int} {s : Scanner} {x : Out Scanner} {f : Scanner → Out Scanner} (h : Ok a s x) (hf : ∀ s', Pays a s s' → Ok k s (f s')) : Ok k s (x.bind f) := by
  intro t e
  cases x with
  | done s' => exact hf s' (h s' rfl) t e
  | blocked => cases e
  | diverged => cases e
  | panicked => cases e

theorem Ok.lit {k : Int} {s t : Scanner} {f : Bytes → Out Scanner} (h : ∀ b, Ok k s (f b)) : Ok k s (t.lit.bind f) := by
  intro t' e
  cases hx : t.lit with
  | done b => rw [hx] at e; exact h b t' e
  | blocked => rw [hx] at e; cases e
  | diverged => rw [hx] at e; cases e
  | panicked => rw [hx] at e; cases e

theorem skipWhile_ok (p : Int → Bool) (n : Nat) {s t : Scanner} {k : Int} (h : Pays k s t) : Ok k s (t.skipWhile p n) := by
  induction n generalizing t with
  | zero => intro _ e; cases e
  | succ n ih =>
    unfold skipWhile
    split
    · exact ih h.nextch
    · exact .done h

theorem ident_ok (u : Unicode) {s t : Scanner} {k : Int} (h : Pays k s t) : Ok k s (ident u t) := by
  unfold ident
  refine (skipWhile_ok _ _ h).bind fun s1 h1 => Ok.bind (a := k) ?_ fun s2 h2 => .lit fun b => ?_
  · split
    · exact skipWhile_ok _ _ h1
    · exact .done h1
  · split
    · split <;> exact .done (h2.setTok _)
    · exact .done (h2.setTok _)

theorem exponent_ok {s t : Scanner} {k : Int} (h : Pays k s t) (x : Token) : Ok k s (exponent t x) := by
  unfold exponent
  split
  · dsimp only
    refine Ok.bind (a := k) (skipWhile_ok _ _ ?_) fun s1 h1 => .done (h1.setTok _)
    split
    · exact h.nextch.nextch
    · exact h.nextch
  · exact .done (h.setTok _)

theorem decimal_ok {s t : Scanner} {k : Int} (h : Pays k s t) : Ok k s (decimal t) := by
  unfold decimal
  refine (skipWhile_ok _ _ h).bind fun s1 h1 => ?_
  split
  · exact (skipWhile_ok _ _ h1.nextch).bind fun s2 h2 => exponent_ok h2 _
  · exact exponent_ok h1 _

theorem number_ok {s t : Scanner} {k : Int} (h : Pays k s t) : Ok k s (number t) := by
  unfold number
  split
  · dsimp only
    split
    · exact (skipWhile_ok _ _ h.nextch.nextch).bind fun s2 h2 => .done (h2.setTok _)
    · exact decimal_ok h.nextch
  · exact decimal_ok h

theorem stringLoop_ok (q : Int) (n : Nat) {s t : Scanner} {k : Int} (h : Pays (k + 1) s t) : Ok k s (stringLoop q n t) := by
  induction n generalizing t with
  | zero => intro _ e; cases e
  | succ n ih =>
    unfold stringLoop
    split
    · exact .done ((h.nextch.mono (by omega)).setTok _)
    · split
      · unfold escape
        dsimp only
        split
        · rw [if_pos rfl]
          exact ih h.nextch.nextch
        · split
          · rw [if_pos rfl]
            exact ih h.nextch
          · rw [if_neg Bool.false_ne_true]
            exact .done (h.nextch.trans (.error h.nextch.inside _ _) (by omega))
      · split
        · exact .done (h.trans (.error h.inside _ _) (by omega))
        · split
          · exact .done ((h.trans (.error h.inside _ _) (by omega)).setTok _)
          · exact ih h.nextch

theorem stars_ok (n : Nat) {s t t' : Scanner} {k : Int} {b : Bool} (h : Pays k s t) (ht : stars n t = .done (b, t')) : Pays k s t' := by
  induction n generalizing t with
  | zero => cases ht
  | succ n ih =>
    unfold stars at ht
    split at ht
    · dsimp only at ht
      split at ht
      · cases ht; exact h.nextch.nextch
      · exact ih h.nextch ht
    · cases ht; exact h

theorem fullCommentLoop_ok (n : Nat) {s t : Scanner} {k : Int} (h : Pays (k + 1) s t) : Ok k s (fullCommentLoop n t) := by
  induction n generalizing t with
  | zero => intro _ e; cases e
  | succ n ih =>
    unfold fullCommentLoop
    split
    · intro t' e
      cases hx : stars t.bound t with
      | done r =>
        rw [hx, Out.bind_done] at e
        have h1 := stars_ok _ h hx
        split at e
        · cases e; exact h1.mono (by omega)
        · exact ih h1.nextch t' e
      | blocked => rw [hx] at e; cases e
      | diverged => rw [hx] at e; cases e
      | panicked => rw [hx] at e; cases e
    · exact .done (h.trans (.error h.inside _ _) (by omega))

theorem ret_ok {k : Int} {s : Scanner} {x : Out Scanner} (h : Ok k s x) {r : Option Scanner} (hr : (x.bind fun s => .done (some s)) = .done r) : ∃ s', r = some s' ∧ Pays k s s' := by
  cases x with
  | done s' => cases hr; exact ⟨s', rfl, h s' rfl⟩
  | blocked => cases hr
  | diverged => cases hr
  | panicked => cases hr

theorem token_ok {s : Scanner} (h : Inside s) {r : Option Scanner} (hr : token s = .done r) : (r = none ∧ s.ch ≠ -1) ∨ ∃ s', r = some s' ∧ Pays 0 s s' := by
  have h0 := Pays.refl h
  unfold token at hr
  dsimp only at hr
  split at hr
  · exact .inr (ret_ok (.done (h0.setTok _)) hr)
  · rename_i hc
    have hp := h.pass hc
    split at hr
    · exact .inr (ret_ok (number_ok h0) hr)
    · split at hr
      · exact .inr (ret_ok (stringLoop_ok _ _ (k := 0) hp) hr)
      · split at hr
        · split at hr
          · exact .inr (ret_ok (number_ok h0.nextch) hr)
          · exact .inr (ret_ok (.done (h0.nextch.setTok _)) hr)
        · split at hr
          · split at hr
            · exact .inr (ret_ok (number_ok h0.nextch) hr)
            · exact .inr (ret_ok (.done (h0.nextch.setTok _)) hr)
          · split at hr
            · split at hr
              · exact .inr (ret_ok (skipWhile_ok _ _ (h0.nextch.nextch.setTok _)) hr)
              · split at hr
                · exact .inr (ret_ok (fullCommentLoop_ok _ (k := 0) (hp.nextch.setTok _)) hr)
                · exact .inr (ret_ok (.done (h0.nextch.setTok _)) hr)
            · split at hr
              · split at hr
                · exact .inr (ret_ok (.done (h0.nextch.nextch.setTok _)) hr)
                · exact .inr (ret_ok (.done (h0.nextch.setTok _)) hr)
              · split at hr
                · exact .inr (ret_ok (skipWhile_ok _ _ (h0.nextch.setTok _)) hr)
                · split at hr
                  · exact .inr (ret_ok (.done (h0.nextch.setTok _)) hr)
                  · cases hr; exact .inl ⟨rfl, hc⟩

theorem redo_ok (u : Unicode) (n : Nat) {s t : Scanner} {k : Int} (h : Pays k s t) : Ok k s (redo u n t) := by
  induction n generalizing t with
  | zero => intro _ e; cases e
  | succ n ih =>
    unfold redo
    refine (skipWhile_ok _ _ h).bind fun s1 h1 => ?_
    have h2 : Pays k s { s1 with pos := s1.offset } := ⟨⟨h1.inside.off, h1.inside.rd, h1.inside.ch⟩, h1.src, h1.le⟩
    revert h2
    show Pays k s ({ s1 with pos := s1.offset } : Scanner) → Ok k s ((fun s2 : Scanner =>
      (fun a : Bool × Scanner => if a.1 then ident u a.2.nextch else (token a.2).bind fun r => match r with
        | some s => .done s
        | none => redo u n (a.2.error a.2.offset (.char a.2.ch)).nextch)
      (if isLetter s2.ch then (true, s2) else if s2.ch ≥ 0x80 then atIdentFirst u s2 else (false, s2))) { s1 with pos := s1.offset })
    generalize ({ s1 with pos := s1.offset } : Scanner) = s2
    intro h2
    dsimp only
    have other : Ok k s ((token s2).bind fun r => match r with
        | some s => .done s
        | none => redo u n (s2.error s2.offset (.char s2.ch)).nextch) := by
      intro t' e
      cases hx : token s2 with
      | done r =>
        rw [hx, Out.bind_done] at e
        rcases token_ok h2.inside hx with ⟨rfl, hc⟩ | ⟨s', rfl, hp⟩
        · refine ih ?_ t' e
          have he := Pays.error h2.inside s2.offset (.char s2.ch)
          exact h2.trans (he.trans (he.inside.pass hc) (Int.le_refl _)) (by omega)
        · cases e
          exact h2.trans hp (by omega)
      | blocked => rw [hx] at e; cases e
      | diverged => rw [hx] at e; cases e
      | panicked => rw [hx] at e; cases e
    by_cases hl : isLetter s2.ch = true
    · rw [if_pos hl, if_pos rfl]
      exact ident_ok u h2.nextch
    · rw [if_neg hl]
      by_cases h8 : s2.ch ≥ 0x80
      · rw [if_pos h8]
        unfold atIdentFirst
        split
        · rw [if_pos rfl]
          exact ident_ok u h2.nextch
        · split
          · rw [if_pos rfl]
            have he := Pays.error h2.inside s2.offset (.identBegin s2.ch)
            exact ident_ok u (h2.trans (he.trans (he.inside.pass (by show s2.ch ≠ -1; omega)) (Int.le_refl _)) (by omega))
          · rw [if_neg Bool.false_ne_true]
            exact other
      · rw [if_neg h8, if_neg Bool.false_ne_true]
        exact other

theorem next_ok (u : Unicode) {s t : Scanner} {k : Int} (h : Pays k s t) : Ok k s (next u t) := redo_ok u _ h

theorem scanAll_pays (u : Unicode) (n : Nat) {s t sf : Scanner} {toks : List TokenAt} {k : Int} (h : Pays k s t) (hs : scanAll u n t = .done (toks, sf)) : Pays k s sf := by
  induction n generalizing t toks with
  | zero => cases hs
  | succ n ih =>
    unfold scanAll at hs
    cases hx : t.next u with
    | done t1 =>
      rw [hx, Out.bind_done] at hs
      have h1 := next_ok u h t1 hx
      cases hl : t1.lit with
      | done l =>
        rw [hl, Out.bind_done] at hs
        split at hs
        · cases hs; exact h1
        · cases hr : scanAll u n t1 with
          | done r => rw [hr, Out.bind_done] at hs; cases hs; exact ih h1 hr
          | blocked => rw [hr] at hs; cases hs
          | diverged => rw [hr] at hs; cases hs
          | panicked => rw [hr] at hs; cases hs
      | blocked => rw [hl] at hs; cases hs
      | diverged => rw [hl] at hs; cases hs
      | panicked => rw [hl] at hs; cases hs
    | blocked => rw [hx] at hs; cases hs
    | diverged => rw [hx] at hs; cases hs
    | panicked => rw [hx] at hs; cases hs

/-- The errors of the scanner are at most twice as many as the bytes of the source. -/
theorem scanAll_errs (u : Unicode) (src : Bytes) (n : Nat) {sf : Scanner} {toks : List TokenAt} (hs : scanAll u n (Scanner.init src) = .done (toks, sf)) : sf.errs.length ≤ 2 * src.length := by
  have h0 : Pays 0 (⟨src, 32, 0, 0, 0, Tk.illegal, 0, [0], []⟩ : Scanner) (Scanner.init src) := by
    have := nextch_pays (s := ⟨src, 32, 0, 0, 0, Tk.illegal, 0, [0], []⟩) (Nat.le_refl _) (Nat.zero_le _)
    unfold Scanner.init
    dsimp only
    split
    · exact (this.mono (Int.le_refl 0)).nextch
    · exact this.mono (Int.le_refl 0)
  have h1 := scanAll_pays u n h0 hs
  have h2 := h1.le
  have h3 := h1.inside.rd
  have h4 := h1.inside.off
  have h5 : sf.src = src := h1.src
  rw [h5] at h3
  simp only [List.length_nil] at h2
  omega

end GoThrift.Idl.Scanner
