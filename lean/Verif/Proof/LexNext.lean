import Verif.Proof.LexToken

/-!
# The scanner finds the lexemes: `next`
-/

namespace GoThrift.Spec

open Idl

theorem Lexeme.tok_ne {u : Unicode} {t : Token} {w : List Chr} (h : Lexeme u t w) : t ≠ Tk.eof := by
  cases h with
  | word _ _ ht =>
    rcases ht with ⟨s, hm, _⟩ | ⟨rfl, _⟩
    · have : ∀ x ∈ reserved, x.2 ≠ Tk.eof := by decide +kernel
      exact this _ hm
    · decide
  | operator hm =>
    have : ∀ x ∈ operators, x.2 ≠ Tk.eof := by decide +kernel
    exact this _ hm
  | hex => decide
  | int => decide
  | float => decide
  | string => decide
  | lineComment => decide
  | fullComment => decide

theorem NextLexeme.not_white {u : Unicode} {c : Chr} {cs : List Chr} {t : Token} {w rest : List Chr} (h : NextLexeme u (c :: cs) t w rest) : ¬ White c.1 := by
  cases w with
  | nil => exact absurd rfl h.lexeme.ne_nil
  | cons d w =>
    have := List.cons.inj h.split
    rw [this.1]
    exact h.lexeme.not_white

theorem Lex.ofWhite {u : Unicode} {ws cs : List Chr} (hw : ∀ c ∈ ws, White c.1) {l : List (Token × Bytes)} : Lex u (ws ++ cs) l ↔ Lex u cs l := by
  induction ws with
  | nil => rfl
  | cons c ws ih =>
    rw [← ih fun c hc => hw c (List.mem_cons_of_mem _ hc)]
    refine ⟨fun h => ?_, fun h => .white (hw c (by simp)) h⟩
    have hc := hw c (by simp)
    rw [List.cons_append] at h
    generalize hcs : c :: (ws ++ cs) = x at h
    cases h with
    | nil => cases hcs
    | white _ h => cases hcs; exact h
    | comment h => subst hcs; exact absurd hc h.not_white
    | token h => subst hcs; exact absurd hc h.not_white

/-- What a text that begins with a character that is not white must begin with. -/
theorem Lex.ofNotWhite {u : Unicode} {c : Chr} {cs : List Chr} (hc : ¬ White c.1) {l : List (Token × Bytes)} (h : Lex u (c :: cs) l) :
    ∃ t w rest, NextLexeme u (c :: cs) t w rest := by
  generalize hcs : c :: cs = x at h ⊢
  cases h with
  | nil => cases hcs
  | white h _ => cases hcs; exact absurd h hc
  | comment h => exact ⟨_, _, _, h⟩
  | token h => exact ⟨_, _, _, h⟩

end GoThrift.Spec

namespace GoThrift.Idl

open Spec

namespace Scanner

theorem Moves.setPos {s s' : Scanner} {w cs : List Chr} (h : Moves s w cs s') (p : Nat) : Moves { s with pos := p } w cs { s' with pos := p } :=
  ⟨h.at_.setPos p, h.src, rfl, h.off, h.pre⟩

theorem Reads.setPos {s s' : Scanner} {w cs : List Chr} (h : Reads s w cs s') (p : Nat) : Reads { s with pos := p } w cs { s' with pos := p } :=
  ⟨h.toMoves.setPos p, h.quiet⟩

theorem Fails.setPos {s s' : Scanner} {w cs : List Chr} (h : Fails s w cs s') (p : Nat) : Fails { s with pos := p } w cs { s' with pos := p } :=
  ⟨h.toMoves.setPos p, h.loud⟩

/-- The scanner skipped `skip` and read the token `w`. -/
structure Scans (u : Unicode) (s : Scanner) (skip w rest : List Chr) (s' : Scanner) : Prop where
  at_ : s'.At rest
  src : s'.src = s.src
  pos : s'.pos = s.offset + (bytesOf skip).length
  off : s'.offset = s'.pos + (bytesOf w).length
  pre : s.errs <+: s'.errs
  kind : (w = [] ∧ rest = [] ∧ s'.tok = Tk.eof) ∨ (w ≠ [] ∧ (s.tok ≠ Tk.eof → s'.tok ≠ Tk.eof))
  lexical : AsciiTables u → (s'.errs ≠ s.errs ∧ ∀ l, ¬ Lex u (skip ++ (w ++ rest)) l) ∨
    ((∀ c ∈ skip, White c.1) ∧ (w = [] ∨ NextLexeme u (w ++ rest) s'.tok w rest) ∧ (s'.errs = s.errs ↔ ∀ c ∈ ((skip ++ (w ++ rest)).tail).take (skip ++ w).length, Chr.Ok c))

/-- A part of `Scans` from `Moves`. -/
theorem Moves.scans {s s' : Scanner} {skip w rest : List Chr} {p : Nat} (h : Moves { s with pos := p } (skip ++ w) rest s') (hp : p = s.offset + (bytesOf skip).length) :
    s'.At rest ∧ s'.src = s.src ∧ s'.pos = s.offset + (bytesOf skip).length ∧ s'.offset = s'.pos + (bytesOf w).length ∧ s.errs <+: s'.errs := by
  have hpos : s'.pos = p := h.pos
  refine ⟨h.at_, h.src, hpos.trans hp, ?_, h.pre⟩
  rw [hpos, h.off, hp, bytesOf_append, List.length_append]
  show s.offset + _ = _
  omega

/-- `redo` behind the white space -/
def redoAt (u : Unicode) (n : Nat) (s : Scanner) : Out Scanner :=
  let a := if isLetter s.ch then (true, s) else if s.ch ≥ 0x80 then atIdentFirst u s else (false, s)
  if a.1 then ident u a.2.nextch
  else
    (token a.2).bind fun r =>
    match r with
    | some s => .done s
    | none => redo u n (a.2.error a.2.offset (.char a.2.ch)).nextch

theorem redo_step (u : Unicode) (n : Nat) (s : Scanner) : redo u (n + 1) s = (s.skipWhile isSpace s.bound).bind fun s => redoAt u n { s with pos := s.offset } := rfl

theorem redo_scans (u : Unicode) {n : Nat} {s : Scanner} {cs : List Chr} (h : s.At cs) (hn : cs.length < n) :
    ∃ s' skip w rest, redo u n s = .done s' ∧ cs = skip ++ (w ++ rest) ∧ Scans u s skip w rest s' := by
  induction n generalizing s cs with
  | zero => omega
  | succ n ih =>
    obtain ⟨s1, ws, cs1, hs1, rfl, hws, hstop, hr1, ht1⟩ := skipWhile_split (p := isSpace) (by decide) h
    have hwhite : ∀ c ∈ ws, White c.1 := fun c hc => (isSpace_iff _).1 (hws c hc)
    rw [redo_step, hs1, Out.bind_done]
    have hp : s1.offset = s.offset + (bytesOf ws).length := hr1.off
    have hr : Reads { s with pos := s1.offset } ws cs1 { s1 with pos := s1.offset } := hr1.setPos s1.offset
    generalize hs1p : ({ s1 with pos := s1.offset } : Scanner) = t1 at hr ⊢
    unfold redoAt
    have hpos1 : t1.pos = t1.offset := by rw [← hs1p]
    have htok1 : t1.tok = s.tok := by rw [← hs1p]; exact ht1
    cases cs1 with
    | nil =>
      have hch : t1.ch = -1 := hr.at_.ch
      rw [if_neg (show ¬ isLetter t1.ch = true by rw [hch]; decide), if_neg (show ¬ t1.ch ≥ 0x80 by rw [hch]; decide), if_neg (show ¬ (false = true) by decide)]
      unfold token
      dsimp only
      rw [if_pos hch]
      refine ⟨_, ws, [], [], rfl, rfl, ?_⟩
      have hrr : Reads { s with pos := s1.offset } (ws ++ []) [] { t1 with tok := Tk.eof } := by rw [List.append_nil]; exact hr.setTok _
      obtain ⟨h1, h2, h3, h4, h5⟩ := hrr.toMoves.scans hp
      exact ⟨h1, h2, h3, h4, h5, .inl ⟨rfl, rfl, rfl⟩, fun _ => .inr ⟨hwhite, .inl rfl, by have := hrr.quiet; rw [List.append_assoc] at this; exact this⟩⟩
    | cons c cs1 =>
      have hch : t1.ch = (c.1 : Int) := hr.at_.ch
      have hnw : ¬ White c.1 := fun hw => by
        have := hstop c cs1 rfl
        rw [(isSpace_iff _).2 hw] at this; cases this
      by_cases hid : IdentStart u c.1
      · -- a word
        have ha : (if isLetter t1.ch = true then (true, t1) else if t1.ch ≥ 0x80 then atIdentFirst u t1 else (false, t1)) = (true, t1) := by
          by_cases hl : isLetter t1.ch = true
          · rw [if_pos hl]
          · rw [if_neg hl]
            rw [hch, isLetter_iff] at hl
            have : 0x80 ≤ c.1 ∧ u.isLetter c.1 = true := by
              unfold IdentStart at hid
              grind
            rw [if_pos (by rw [hch]; omega)]
            unfold atIdentFirst
            rw [if_pos]
            left
            rw [hch, uniLetter]
            simp [this.2]
        rw [ha]
        dsimp only
        rw [if_pos rfl]
        obtain ⟨s', w, rest, hs', rfl, hm, htok, hlex⟩ := ident_reads u hr.at_ hpos1
        refine ⟨s', ws, c :: w, rest, hs', rfl, ?_⟩
        have hrr := hr.trans (w' := c :: w) hm
        obtain ⟨h1, h2, h3, h4, h5⟩ := hrr.toMoves.scans hp
        refine ⟨h1, h2, h3, h4, h5, .inr ⟨by simp, fun _ => htok.1⟩, fun ha => .inr ⟨hwhite, .inr ?_, by have := hrr.quiet; rw [List.append_assoc] at this; exact this⟩⟩
        obtain ⟨hpart, hend, hres⟩ := hlex ha
        refine NextLexeme.mk' (.word hid hpart hres) ?_ ?_
        · intro t' w' rest' he hf
          exact all_longest (P := fun d : Chr => IdentPart u d.1) he (hf.ofWord hid) hend
        · unfold IdentStart at hid; omega
      · -- not a word
        have hnl : ¬ isLetter t1.ch = true := by
          rw [hch, isLetter_iff]
          unfold IdentStart at hid
          grind
        rw [if_neg hnl]
        by_cases hdig : t1.ch ≥ 0x80 ∧ uniDigit u t1.ch = true
        · -- a digit that is not ASCII: an error, then a word
          have hnlet : ¬ (uniLetter u t1.ch = true ∨ t1.ch = 95) := by
            rw [hch]
            rw [hch] at hdig
            unfold IdentStart at hid
            unfold uniLetter
            simp only [Bool.and_eq_true, decide_eq_true_eq]
            have : ((c.1 : Int)).toNat = c.1 := by omega
            rw [this]
            rintro (⟨_, h2⟩ | h2)
            · exact hid (.inr (.inr (.inr ⟨by omega, h2⟩)))
            · omega
          have ha : atIdentFirst u t1 = (true, t1.error t1.offset (.identBegin t1.ch)) := by
            unfold atIdentFirst
            rw [if_neg hnlet, if_pos (.inl hdig.2)]
          rw [if_pos hdig.1, ha]
          dsimp only
          rw [if_pos rfl]
          have hf : Fails { s with pos := s1.offset } (ws ++ []) (c :: cs1) (t1.error t1.offset (.identBegin t1.ch)) := Fails.right (w' := []) hr.toMoves (Fails.error hr.at_ _ _)
          rw [List.append_nil] at hf
          obtain ⟨s', w, rest, hs', rfl, hm, htok, _⟩ := ident_reads u hf.at_ hpos1
          refine ⟨s', ws, c :: w, rest, hs', rfl, ?_⟩
          have hrr := Fails.left (w' := c :: w) hf hm.toMoves
          obtain ⟨h1, h2, h3, h4, h5⟩ := hrr.toMoves.scans hp
          refine ⟨h1, h2, h3, h4, h5, .inr ⟨by simp, fun _ => htok.1⟩, fun ha => .inl ⟨hrr.loud, fun l hl => ?_⟩⟩
          obtain ⟨t, w2, rest2, hx⟩ := ((Lex.ofWhite hwhite).1 hl).ofNotWhite hnw
          obtain ⟨w3, _, _, hform⟩ := NextLexeme.cons hx
          have hge : 0x80 ≤ c.1 := by have := hdig.1; rw [hch] at this; omega
          have := operators_first (hform.ofOther hid (by unfold Digit; omega) (by omega) (by omega) (by omega) (by omega))
          omega
        · have ha : (if t1.ch ≥ 0x80 then atIdentFirst u t1 else (false, t1)) = (false, t1) := by
            by_cases hge : t1.ch ≥ 0x80
            · rw [if_pos hge]
              unfold atIdentFirst
              rw [if_neg, if_neg]
              · rintro (h1 | h1)
                · exact hdig ⟨hge, h1⟩
                · omega
              · rw [hch] at hge ⊢
                unfold IdentStart at hid
                unfold uniLetter
                simp only [Bool.and_eq_true, decide_eq_true_eq]
                have : ((c.1 : Int)).toNat = c.1 := by omega
                rw [this]
                rintro (⟨_, h2⟩ | h2)
                · exact hid (.inr (.inr (.inr ⟨by omega, h2⟩)))
                · omega
            · rw [if_neg hge]
          rw [ha]
          dsimp only
          rw [if_neg (show ¬ (false = true) by decide)]
          rcases token_outcome u hr.at_ hid with ⟨s', hs', hg | hb⟩ | ⟨hnone, hno⟩
          · obtain ⟨w, rest, he, hm, hx⟩ := hg
            rw [hs', Out.bind_done]
            rw [he] at hr hx ⊢
            refine ⟨s', ws, w, rest, rfl, rfl, ?_⟩
            have hrr := hr.trans hm
            obtain ⟨h1, h2, h3, h4, h5⟩ := hrr.toMoves.scans hp
            exact ⟨h1, h2, h3, h4, h5, .inr ⟨hx.lexeme.ne_nil, fun _ => hx.lexeme.tok_ne⟩,
              fun _ => .inr ⟨hwhite, .inr hx, by have := hrr.quiet; rw [List.append_assoc] at this; exact this⟩⟩
          · obtain ⟨w, rest, he, hw, hm, htok, hx⟩ := hb
            rw [hs', Out.bind_done]
            rw [he] at hr ⊢
            refine ⟨s', ws, w, rest, rfl, rfl, ?_⟩
            have hrr := Fails.right hr.toMoves hm
            obtain ⟨h1, h2, h3, h4, h5⟩ := hrr.toMoves.scans hp
            refine ⟨h1, h2, h3, h4, h5, .inr ⟨hw, fun hst => ?_⟩, fun _ => .inl ⟨hrr.loud, fun l hl => ?_⟩⟩
            · rw [htok1] at htok
              rcases htok with htok | htok | htok
              · rw [htok]; exact hst
              · rw [htok]; decide
              · rw [htok]; decide
            · rw [← he] at hl
              obtain ⟨t, w2, rest2, hx2⟩ := ((Lex.ofWhite hwhite).1 hl).ofNotWhite hnw
              exact hx _ _ _ hx2
          · rw [hnone, Out.bind_done]
            dsimp only
            have hf : Fails { s with pos := s1.offset } (ws ++ []) (c :: cs1) (t1.error t1.offset (.char t1.ch)) := Fails.right (w' := []) hr.toMoves (Fails.error hr.at_ _ _)
            have hf2 := Fails.left (w' := [c]) hf (Reads.nextch hf.at_).toMoves
            rw [List.append_nil] at hf2
            obtain ⟨s', skip, w, rest, hs', rfl, hsc⟩ := ih (s := (t1.error t1.offset (.char t1.ch)).nextch) hf2.at_ (by simp at hn ⊢; omega)
            refine ⟨s', ws ++ [c] ++ skip, w, rest, hs', by simp, hsc.at_, hsc.src.trans hf2.src, ?_, hsc.off, List.IsPrefix.trans (l₂ := (t1.error t1.offset (.char t1.ch)).nextch.errs) hf2.pre hsc.pre, ?_, fun _ => .inl ⟨?_, ?_⟩⟩
            · rw [hsc.pos, hf2.off, bytesOf_append (ws ++ [c]), List.length_append]
              show s.offset + _ + _ = _
              omega
            · rcases hsc.kind with hk | ⟨hk, hk2⟩
              · exact .inl hk
              · refine .inr ⟨hk, fun hst => hk2 ?_⟩
                rw [nextch_tok]
                exact fun hx => hst (htok1.symm.trans hx)
            · intro he
              exact hf2.loud ((prefix_eq_both hf2.pre hsc.pre).1 he).1
            · intro l hl
              rw [show ws ++ [c] ++ skip ++ (w ++ rest) = ws ++ c :: (skip ++ (w ++ rest)) by simp] at hl
              obtain ⟨t, w2, rest2, hx2⟩ := ((Lex.ofWhite hwhite).1 hl).ofNotWhite hnw
              exact hno _ _ _ hx2

/-- `next` reads the next token and does not panic or diverge. -/
theorem next_scans (u : Unicode) {s : Scanner} {cs : List Chr} (h : s.At cs) :
    ∃ s' skip w rest, next u s = .done s' ∧ cs = skip ++ (w ++ rest) ∧ Scans u s skip w rest s' :=
  redo_scans u h h.lt_bound

end Scanner

end GoThrift.Idl
