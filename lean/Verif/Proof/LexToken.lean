import Verif.Proof.Lex

/-!
# The scanner finds the lexemes: strings, comments, tokens
-/

namespace GoThrift.Idl

open Spec

namespace Scanner

theorem Reads.nextch_eof {s : Scanner} (h : s.At []) : Reads s [] [] s.nextch where
  at_ := h.nextch_eof.1
  src := nextch_src s
  pos := nextch_pos s
  off := h.nextch_eof.2.1
  pre := nextch_errs_prefix s
  quiet := by simp [h.nextch_eof.2.2]

/-- `Reads.trans` with the text of the second part in any form. -/
theorem Reads.trans' {s s' s'' : Scanner} {w w' v ds cs : List Chr} (h : Reads s w ds s') (h' : Reads s' w' cs s'') (hd : ds = w' ++ cs) (hv : v = w ++ w') : Reads s v cs s'' := by
  subst hd; subst hv; exact h.trans h'

theorem Fails.right' {s s' s'' : Scanner} {w w' v ds cs : List Chr} (h : Moves s w ds s') (h' : Fails s' w' cs s'') (hd : ds = w' ++ cs) (hv : v = w ++ w') : Fails s v cs s'' := by
  subst hd; subst hv; exact Fails.right h h'

/-! ## Strings -/

theorem stringLoop_reads {q : Nat} {n : Nat} {s : Scanner} {cs : List Chr} (h : s.At cs) (hn : cs.length < n) (hq : q ≠ 0x5c) :
    ∃ s', stringLoop q n s = .done s' ∧
      ((∃ body c rest, cs = body ++ c :: rest ∧ c.1 = q ∧ StringBody q (runesOf body) ∧ Reads s (body ++ [c]) rest s' ∧ s'.tok = Tk.string) ∨
       (∃ w rest, cs = w ++ rest ∧ Fails s w rest s' ∧ (s'.tok = s.tok ∨ s'.tok = Tk.string) ∧ ∀ body rest, runesOf cs = body ++ q :: rest → ¬ StringBody q body)) := by
  induction n generalizing s cs with
  | zero => omega
  | succ n ih =>
    rw [stringLoop]
    cases cs with
    | nil =>
      have hch : s.ch = -1 := h.ch
      rw [if_neg (by rw [hch]; omega), if_neg (by rw [hch]; decide), if_neg (by rw [hch]; decide), if_pos (by rw [hch]; decide)]
      refine ⟨_, rfl, .inr ⟨[], [], rfl, (Fails.error h _ _).setTok _, .inr rfl, fun body rest he => ?_⟩⟩
      simp [runesOf] at he
    | cons c cs =>
      have hch : s.ch = (c.1 : Int) := h.ch
      by_cases hcq : c.1 = q
      · rw [if_pos (by rw [hch, hcq])]
        exact ⟨_, rfl, .inl ⟨[], c, cs, rfl, hcq, .nil, (Reads.nextch h).setTok _, rfl⟩⟩
      · rw [if_neg (by rw [hch]; omega)]
        by_cases hb : c.1 = 0x5c
        · rw [if_pos (by rw [hch]; omega)]
          have h1 := Reads.nextch h
          cases cs with
          | nil =>
            have hch1 : s.nextch.ch = -1 := h1.at_.ch
            have he : escape (q : Int) s.nextch = (true, s.nextch) := by
              unfold escape
              rw [if_neg (by rw [hch1]; omega), if_pos (by rw [hch1]; decide)]
            dsimp only
            rw [he, if_pos rfl]
            obtain ⟨s', hs', ho⟩ := ih (s := s.nextch) h1.at_ (by simp at hn ⊢; omega)
            refine ⟨s', hs', .inr ?_⟩
            rcases ho with ⟨body, c', rest, he, _⟩ | ⟨w, rest, he, hf, ht, _⟩
            · simp at he
            · have hwr := List.append_eq_nil_iff.1 he.symm
              rw [hwr.1, hwr.2] at hf
              refine ⟨[c], [], rfl, Fails.right (w := [c]) (w' := []) h1.toMoves hf, ?_, fun body rest he hbody => ?_⟩
              · rw [nextch_tok] at ht; exact ht
              · change [c.1] = body ++ q :: rest at he
                cases body with
                | nil => exact hcq (List.cons.inj he).1
                | cons a b => have := (List.cons.inj he).2; simp at this
          | cons d cs =>
            have hch1 : s.nextch.ch = (d.1 : Int) := h1.at_.ch
            have notBody : ∀ {body rest : List Nat}, runesOf (c :: d :: cs) = body ++ q :: rest → StringBody q body →
                ∃ body', (d.1 = q ∨ d.1 = 0x5c ∨ d.1 = 0x6e ∨ d.1 = 0x72 ∨ d.1 = 0x74) ∧ StringBody q body' ∧ runesOf cs = body' ++ q :: rest := by
              intro body rest he hbody
              change c.1 :: d.1 :: runesOf cs = _ at he
              cases hbody with
              | nil => exact absurd (List.cons.inj he).1 hcq
              | plain h1 h2 h3 _ => exact absurd ((List.cons.inj he).1.symm.trans hb) h2
              | escape h1 h2 =>
                have := List.cons.inj (List.cons.inj he).2
                exact ⟨_, by rw [this.1]; exact h1, h2, this.2⟩
            by_cases hesc : d.1 = q ∨ d.1 = 0x5c ∨ d.1 = 0x6e ∨ d.1 = 0x72 ∨ d.1 = 0x74
            · have he : escape (q : Int) s.nextch = (true, s.nextch.nextch) := by
                unfold escape
                rw [if_pos (by rw [hch1]; omega)]
              dsimp only
              rw [he, if_pos rfl]
              have h2 := h1.trans (w' := [d]) (Reads.nextch h1.at_)
              obtain ⟨s', hs', ho⟩ := ih (s := s.nextch.nextch) h2.at_ (by simp at hn; omega)
              refine ⟨s', hs', ?_⟩
              rcases ho with ⟨body, c', rest, rfl, hc', hb', hr', ht'⟩ | ⟨w, rest, rfl, hf, ht, hno⟩
              · refine .inl ⟨c :: d :: body, c', rest, rfl, hc', ?_, h2.trans' hr' (by simp) (by simp), ht'⟩
                change StringBody q (c.1 :: d.1 :: runesOf body)
                rw [hb]
                exact .escape hesc hb'
              · refine .inr ⟨c :: d :: w, rest, rfl, Fails.right (w := [c] ++ [d]) (w' := w) h2.toMoves hf, ?_, fun body rest he hbody => ?_⟩
                · rw [nextch_tok, nextch_tok] at ht; exact ht
                · obtain ⟨body', _, hb2, he2⟩ := notBody he hbody
                  exact hno body' rest he2 hb2
            · have he : escape (q : Int) s.nextch = (false, s.nextch.error s.nextch.offset .escape) := by
                unfold escape
                rw [if_neg (by rw [hch1]; omega), if_neg (by rw [hch1]; omega)]
              dsimp only
              rw [he, if_neg (show ¬ (false = true) by decide)]
              refine ⟨_, rfl, .inr ⟨[c], d :: cs, rfl, Fails.right (w := [c]) (w' := []) h1.toMoves (Fails.error h1.at_ _ _), .inl (nextch_tok s), fun body rest he hbody => ?_⟩⟩
              obtain ⟨_, h, _⟩ := notBody he hbody
              exact hesc h
        · rw [if_neg (by rw [hch]; omega)]
          by_cases hnl : c.1 = 0x0a
          · rw [if_pos (by rw [hch]; omega)]
            refine ⟨_, rfl, .inr ⟨[], c :: cs, rfl, Fails.error h _ _, .inl rfl, fun body rest he hbody => ?_⟩⟩
            change c.1 :: runesOf cs = _ at he
            cases hbody with
            | nil => exact hcq (List.cons.inj he).1
            | plain h1 h2 h3 _ => exact h3 ((List.cons.inj he).1.symm.trans hnl)
            | escape h1 h2 => exact hb (List.cons.inj he).1
          · rw [if_neg (by rw [hch]; omega), if_neg (by rw [hch]; omega)]
            have h1 := Reads.nextch h
            obtain ⟨s', hs', ho⟩ := ih (s := s.nextch) h1.at_ (by simp at hn; omega)
            refine ⟨s', hs', ?_⟩
            rcases ho with ⟨body, c', rest, rfl, hc', hb', hr', ht'⟩ | ⟨w, rest, rfl, hf, ht, hno⟩
            · exact .inl ⟨c :: body, c', rest, rfl, hc', .plain hcq hb hnl hb', h1.trans' hr' (by simp) (by simp), ht'⟩
            · refine .inr ⟨c :: w, rest, rfl, Fails.right (w := [c]) (w' := w) h1.toMoves hf, ?_, fun body rest he hbody => ?_⟩
              · rw [nextch_tok] at ht; exact ht
              · change c.1 :: runesOf (w ++ _) = _ at he
                cases hbody with
                | nil => exact hcq (List.cons.inj he).1
                | plain h1 h2 h3 h4 => exact hno _ rest (List.cons.inj he).2 h4
                | escape h1 h2 => exact hb (List.cons.inj he).1

/-! ## Comments -/

theorem lineComment_reads {s : Scanner} {cs : List Chr} (h : s.At cs) :
    ∃ s' w rest, lineComment s = .done s' ∧ cs = w ++ rest ∧ 0x0a ∉ runesOf w ∧ (∀ d rest', rest = d :: rest' → d.1 = 0x0a) ∧ Reads s w rest s' ∧ s'.tok = Tk.comment := by
  unfold lineComment
  obtain ⟨s', w, rest, hs', rfl, hw, hr, hm, ht⟩ := skipWhile_split (p := fun ch => decide (ch ≥ 0) && decide (ch ≠ 10)) (by decide) (h.setTok Tk.comment)
  refine ⟨s', w, rest, hs', rfl, ?_, ?_, hm.ofSetTok, ht⟩
  · intro hm
    obtain ⟨x, hx, h10⟩ := List.mem_map.1 hm
    have := hw x hx
    rw [h10] at this
    simp at this
  · intro d rest' he
    have := hr d rest' he
    simp only [ge_iff_le, ne_eq, decide_not, Bool.and_eq_false_iff, decide_eq_false_iff_not, Bool.not_eq_eq_eq_not, Bool.not_false, decide_eq_true_eq] at this
    omega

theorem stars_reads {n : Nat} {s : Scanner} {cs : List Chr} (h : s.At cs) (hn : cs.length < n) :
    ∃ b s', stars n s = .done (b, s') ∧ s'.tok = s.tok ∧
      ((b = true ∧ ∃ k x y rest, cs = k ++ x :: y :: rest ∧ (∀ c ∈ k, c.1 = 0x2a) ∧ x.1 = 0x2a ∧ y.1 = 0x2f ∧ Reads s (k ++ [x, y]) rest s') ∨
       (b = false ∧ ∃ k rest, cs = k ++ rest ∧ (∀ c ∈ k, c.1 = 0x2a) ∧ (∀ d rest', rest = d :: rest' → d.1 ≠ 0x2a ∧ (k ≠ [] → d.1 ≠ 0x2f)) ∧ Reads s k rest s')) := by
  induction n generalizing s cs with
  | zero => omega
  | succ n ih =>
    rw [stars]
    cases cs with
    | nil =>
      have hch : s.ch = -1 := h.ch
      rw [if_neg (by rw [hch]; decide)]
      exact ⟨false, s, rfl, rfl, .inr ⟨rfl, [], [], rfl, by simp, by simp, Reads.refl h⟩⟩
    | cons c cs =>
      have hch : s.ch = (c.1 : Int) := h.ch
      by_cases hc : c.1 = 0x2a
      · rw [if_pos (by rw [hch]; omega)]
        have h1 := Reads.nextch h
        dsimp only
        by_cases hs : s.nextch.ch = 47
        · rw [if_pos hs]
          have : headRune cs = ((47 : Nat) : Int) := h1.at_.ch.symm.trans hs
          obtain ⟨y, rest, rfl, hy⟩ := headRune_eq this
          exact ⟨true, _, rfl, (nextch_tok _).trans (nextch_tok _), .inl ⟨rfl, [], c, y, rest, rfl, by simp, hc, hy, h1.trans (w := [c]) (w' := [y]) (Reads.nextch h1.at_)⟩⟩
        · rw [if_neg hs]
          obtain ⟨b, s', hs', ht, ho⟩ := ih (s := s.nextch) h1.at_ (by simp at hn; omega)
          refine ⟨b, s', hs', ht.trans (nextch_tok s), ?_⟩
          rcases ho with ⟨hb, k, x, y, rest, rfl, hk, hx, hy, hr⟩ | ⟨hb, k, rest, rfl, hk, hd, hr⟩
          · refine .inl ⟨hb, c :: k, x, y, rest, rfl, ?_, hx, hy, h1.trans' hr (by simp) (by simp)⟩
            intro d hd
            rcases List.mem_cons.1 hd with rfl | hd
            · exact hc
            · exact hk d hd
          · refine .inr ⟨hb, c :: k, rest, rfl, ?_, ?_, h1.trans hr⟩
            · intro d hd
              rcases List.mem_cons.1 hd with rfl | hd
              · exact hc
              · exact hk d hd
            · intro d rest' he
              refine ⟨(hd d rest' he).1, fun _ => ?_⟩
              by_cases hk0 : k = []
              · subst hk0
                intro hx
                rw [h1.at_.ch, he, List.nil_append, headRune] at hs
                omega
              · exact (hd d rest' he).2 hk0
      · rw [if_neg (by rw [hch]; omega)]
        refine ⟨false, s, rfl, rfl, .inr ⟨rfl, [], c :: cs, rfl, by simp, ?_, Reads.refl h⟩⟩
        intro d rest' he
        cases he
        exact ⟨hc, by simp⟩

theorem noClose_stars {k : List Chr} (hk : ∀ c ∈ k, c.1 = 0x2a) : NoClose (runesOf k) := by
  rintro ⟨a, b, he⟩
  have : (0x2f : Nat) ∈ runesOf k ++ [0x2a] := by rw [← he]; simp
  rcases List.mem_append.1 this with h | h
  · obtain ⟨x, hx, hx2⟩ := List.mem_map.1 h
    have := hk x hx
    omega
  · simp at h

/-- Stars, a rune that is not a star and does not end the comment, and a text without end of a comment. -/
theorem noClose_step {k : List Chr} (hk : ∀ c ∈ k, c.1 = 0x2a) {d : Nat} (hd : d ≠ 0x2a) (hd2 : k ≠ [] → d ≠ 0x2f) {l : List Nat} (hl : ¬ [0x2a, 0x2f] <:+: l) :
    ¬ [0x2a, 0x2f] <:+: runesOf k ++ d :: l := by
  induction k with
  | nil =>
    intro h
    rcases List.infix_cons_iff.1 h with h | h
    · obtain ⟨_, he⟩ := h
      exact hd (List.cons.inj he).1.symm
    · exact hl h
  | cons c k ih =>
    intro h
    rcases List.infix_cons_iff.1 (show [0x2a, 0x2f] <:+: c.1 :: (runesOf k ++ d :: l) from h) with h | h
    · obtain ⟨_, he⟩ := h
      have he := (List.cons.inj he).2
      cases k with
      | nil => exact hd2 (by simp) (List.cons.inj he).1.symm
      | cons c' k =>
        have := hk c' (by simp)
        have h2 := (List.cons.inj he).1
        change (0x2f : Nat) = c'.1 at h2
        omega
    · refine ih (fun c hc => hk c (List.mem_cons_of_mem _ hc)) (fun hk0 => hd2 (by simp)) h

theorem fullCommentLoop_reads {n : Nat} {s : Scanner} {cs : List Chr} (h : s.At cs) (hn : cs.length < n) :
    ∃ s', fullCommentLoop n s = .done s' ∧ s'.tok = s.tok ∧
      ((∃ body x y rest, cs = body ++ x :: y :: rest ∧ x.1 = 0x2a ∧ y.1 = 0x2f ∧ NoClose (runesOf body) ∧ Reads s (body ++ [x, y]) rest s') ∨
       (Fails s cs [] s' ∧ ¬ [0x2a, 0x2f] <:+: runesOf cs)) := by
  induction n generalizing s cs with
  | zero => omega
  | succ n ih =>
    rw [fullCommentLoop]
    cases cs with
    | nil =>
      have hch : s.ch = -1 := h.ch
      rw [if_neg (by rw [hch]; decide)]
      refine ⟨_, rfl, rfl, .inr ⟨Fails.error h _ _, ?_⟩⟩
      rintro ⟨a, b, he⟩
      simp [runesOf] at he
    | cons c cs =>
      have hch : s.ch = (c.1 : Int) := h.ch
      rw [if_pos (by rw [hch]; omega)]
      obtain ⟨b, s1, hs1, ht1, ho⟩ := stars_reads h h.lt_bound
      rw [hs1, Out.bind_done]
      dsimp only
      rcases ho with ⟨rfl, k, x, y, rest, he, hk, hx, hy, hr⟩ | ⟨rfl, k, rest, he, hk, hd, hr⟩
      · rw [if_pos rfl]
        exact ⟨s1, rfl, ht1, .inl ⟨k, x, y, rest, he, hx, hy, noClose_stars hk, hr⟩⟩
      · rw [if_neg (by decide)]
        cases rest with
        | nil =>
          rw [List.append_nil] at he
          have h2 := hr.trans (w' := []) (Reads.nextch_eof hr.at_)
          obtain ⟨s', hs', ht', ho⟩ := ih (s := s1.nextch) h2.at_ (by simp at hn ⊢; omega)
          refine ⟨s', hs', (ht'.trans (nextch_tok _)).trans ht1, .inr ?_⟩
          rcases ho with ⟨body, x, y, rest, he', _⟩ | ⟨hf, _⟩
          · simp at he'
          · have h3 := Fails.right (w := k ++ []) (w' := []) h2.toMoves hf
            rw [List.append_nil, List.append_nil, ← he] at h3
            refine ⟨h3, ?_⟩
            rw [he]
            intro hi
            exact noClose_stars hk (hi.trans (List.infix_append' [] (runesOf k) [0x2a]))
        | cons d rest =>
          have hd' := hd d rest rfl
          have h2 := hr.trans (w' := [d]) (Reads.nextch hr.at_)
          have hlen : rest.length < n := by
            have := congrArg List.length he
            simp at this hn
            omega
          obtain ⟨s', hs', ht', ho⟩ := ih (s := s1.nextch) h2.at_ hlen
          refine ⟨s', hs', (ht'.trans (nextch_tok _)).trans ht1, ?_⟩
          rcases ho with ⟨body, x, y, rest', rfl, hx, hy, hb, hr'⟩ | ⟨hf, hno⟩
          · refine .inl ⟨k ++ d :: body, x, y, rest', by rw [he]; simp, hx, hy, ?_, ?_⟩
            · have := noClose_step hk hd'.1 hd'.2 hb
              rw [NoClose, runesOf_append]
              simpa [runesOf] using this
            · exact h2.trans' hr' (by simp) (by simp)
          · refine .inr ⟨?_, ?_⟩
            · have := Fails.right (w := k ++ [d]) (w' := rest) (cs := []) (by simpa using h2.toMoves) hf
              rw [he]; simpa using this
            · rw [he, runesOf_append]
              exact noClose_step hk hd'.1 hd'.2 hno

/-! ## Tokens -/

/-- The scanner read the next lexeme. -/
def Good (u : Unicode) (s : Scanner) (cs : List Chr) (s' : Scanner) : Prop :=
  ∃ w rest, cs = w ++ rest ∧ Reads s w rest s' ∧ NextLexeme u cs s'.tok w rest

/-- The scanner reported an error, and there is no next lexeme. -/
def Bad (u : Unicode) (s : Scanner) (cs : List Chr) (s' : Scanner) : Prop :=
  ∃ w rest, cs = w ++ rest ∧ w ≠ [] ∧ Fails s w rest s' ∧ (s'.tok = s.tok ∨ s'.tok = Tk.string ∨ s'.tok = Tk.comment) ∧ ∀ t w rest, ¬ NextLexeme u cs t w rest

/-- The next lexeme begins with the first character. -/
theorem NextLexeme.cons {u : Unicode} {c : Chr} {cs : List Chr} {t : Token} {w rest : List Chr} (h : NextLexeme u (c :: cs) t w rest) :
    ∃ w', w = c :: w' ∧ cs = w' ++ rest ∧ Form u t c w' := by
  cases w with
  | nil => exact absurd rfl h.lexeme.ne_nil
  | cons d w =>
    have := List.cons.inj h.split
    rw [← this.1] at h ⊢
    exact ⟨w, rfl, this.2, h.lexeme.form⟩

/-- How to show that a lexeme is the next one. -/
theorem NextLexeme.mk' {u : Unicode} {c : Chr} {t : Token} {w rest : List Chr} (hl : Lexeme u t (c :: w))
    (hlong : ∀ t' w' rest', w ++ rest = w' ++ rest' → Form u t' c w' → w'.length ≤ w.length) (hc : c.1 = 0x2f → w = [] → ∀ d rest', rest = d :: rest' → d.1 ≠ 0x2a) :
    NextLexeme u (c :: (w ++ rest)) t (c :: w) rest where
  split := rfl
  lexeme := hl
  longest := by
    intro t' w' rest' he hl'
    cases w' with
    | nil => exact absurd rfl hl'.ne_nil
    | cons d w' =>
      have := List.cons.inj he
      rw [← this.1] at hl'
      have := hlong t' w' rest' this.2 hl'.form
      simp only [List.length_cons]; omega
  comment := by
    rintro ⟨h1, d, rest', h2, h3⟩
    have := List.cons.inj h1
    exact hc this.1 (List.map_eq_nil_iff.1 this.2) d rest' h2 h3

/-- A signed or unsigned number. -/
theorem number_good (u : Unicode) {s : Scanner} {c : Chr} {cs : List Chr} (h : s.At (c :: cs)) (hd : Digit c.1) :
    ∃ s', number s = .done s' ∧ Good u s (c :: cs) s' := by
  obtain ⟨s', w, rest, ns, hs', rfl, hr, hns, ht, hstop, hl⟩ := number_reads u h hd
  refine ⟨s', hs', c :: w, rest, rfl, hr, NextLexeme.mk' (hl [] (c :: w) (.inl rfl) rfl) ?_ ?_⟩
  · intro t' w' rest' he hf
    obtain ⟨s2, hs2⟩ := hf.ofDigit hd
    have := numRun_longest (w := runesOf (c :: w)) (w' := runesOf (c :: w')) (rest := runesOf rest) (rest' := runesOf rest')
      (by rw [← runesOf_append, ← runesOf_append, List.cons_append, List.cons_append, he]) hns hs2 (by
        intro d r hr
        cases rest with
        | nil => cases hr
        | cons x rest =>
          have := List.cons.inj hr
          rw [← this.1]; exact hstop x rest rfl)
    simpa [runesOf] using this
  · intro h2f
    unfold Digit at hd; omega

theorem signed_good (u : Unicode) {s : Scanner} {c : Chr} {cs : List Chr} (h : s.At (c :: cs)) (hc : c.1 = 0x2b ∨ c.1 = 0x2d) (t : Token) (ht : ([c.1], t) ∈ operators) :
    (isDecimal s.nextch.ch = true ∧ ∃ s', number s.nextch = .done s' ∧ Good u s (c :: cs) s') ∨ (isDecimal s.nextch.ch = false ∧ Good u s (c :: cs) { s.nextch with tok := t }) := by
  have h1 := Reads.nextch h
  by_cases hdig : isDecimal s.nextch.ch = true
  · refine .inl ⟨hdig, ?_⟩
    cases cs with
    | nil => rw [h1.at_.ch, headRune] at hdig; exact absurd hdig (by decide)
    | cons d cs =>
      rw [h1.at_.ch, headRune, isDecimal_iff] at hdig
      obtain ⟨s', w, rest, ns, hs', rfl, hr, hns, ht', hstop, hl⟩ := number_reads u h1.at_ hdig
      have hsg : Sign [c.1] := by
        rcases hc with hc | hc
        · exact .inr (.inl (by rw [hc]))
        · exact .inr (.inr (by rw [hc]))
      refine ⟨s', hs', c :: d :: w, rest, rfl, h1.trans hr, NextLexeme.mk' (w := d :: w) (hl [c.1] (c :: d :: w) hsg rfl) ?_ (by omega)⟩
      intro t2 w' rest' he hf
      rcases hf.ofSign hc with rfl | ⟨s2, hs2⟩
      · simp
      · have := numRun_longest (w := runesOf (d :: w)) (w' := runesOf w') (rest := runesOf rest) (rest' := runesOf rest')
          (by rw [← runesOf_append, ← runesOf_append, he]) hns hs2 (by
            intro x r hr
            cases rest with
            | nil => cases hr
            | cons y rest =>
              have := List.cons.inj hr
              rw [← this.1]; exact hstop y rest rfl)
        simpa [runesOf] using this
  · refine .inr ⟨by simpa using hdig, [c], cs, rfl, h1.setTok t, ?_⟩
    refine NextLexeme.mk' (w := []) (.operator ht) ?_ (by omega)
    intro t2 w' rest' he hf
    rcases hf.ofSign hc with rfl | ⟨s2, hs2⟩
    · simp
    · cases w' with
      | nil => simp
      | cons d w' =>
        exfalso
        rw [List.nil_append] at he
        subst he
        rw [h1.at_.ch, List.cons_append, headRune, isDecimal_iff] at hdig
        change numRun .start (d.1 :: runesOf w') = _ at hs2
        rw [numRun, numStep] at hs2
        by_cases h30 : d.1 = 0x30
        · exact hdig (by rw [h30]; decide)
        · rw [if_neg h30, if_neg hdig] at hs2
          cases hs2

theorem string_outcome (u : Unicode) {s : Scanner} {c : Chr} {cs : List Chr} (h : s.At (c :: cs)) (hc : c.1 = 0x22 ∨ c.1 = 0x27) :
    ∃ s', string s = .done s' ∧ (Good u s (c :: cs) s' ∨ Bad u s (c :: cs) s') := by
  have h1 := Reads.nextch h
  have hch : s.ch = (c.1 : Int) := h.ch
  have hq : c.1 ≠ 0x5c := by omega
  unfold string
  rw [hch]
  obtain ⟨s', hs', ho⟩ := stringLoop_reads (q := c.1) (n := s.bound) h1.at_ (by have := h.lt_bound; simp at this; omega) hq
  refine ⟨s', hs', ?_⟩
  rcases ho with ⟨body, d, rest, rfl, hd, hb, hr, ht⟩ | ⟨w, rest, rfl, hf, ht, hno⟩
  · refine .inl ⟨c :: (body ++ [d]), rest, by simp, h1.trans' hr (by simp) (by simp), ?_⟩
    rw [ht]
    have := NextLexeme.mk' (u := u) (c := c) (t := Tk.string) (w := body ++ [d]) (rest := rest) (.string hc hb (by simp [runesOf, hd])) ?_ (by omega)
    · simpa using this
    intro t' w' rest' he hform
    obtain ⟨body', hb', hr'⟩ := hform.ofQuote hc
    have h2 : runesOf body ++ c.1 :: runesOf rest = body' ++ c.1 :: runesOf rest' := by
      have := congrArg runesOf he
      rw [runesOf_append, runesOf_append, runesOf_append, hr'] at this
      simpa [runesOf, hd] using this
    have := hb.unique hb' hq h2
    have hl := congrArg List.length hr'
    rw [← this] at hl
    simp [runesOf] at hl ⊢
    omega
  · refine .inr ⟨c :: w, rest, rfl, by simp, Fails.right (w := [c]) (w' := w) h1.toMoves hf, ?_, ?_⟩
    · rw [nextch_tok] at ht
      rcases ht with ht | ht
      · exact .inl ht
      · exact .inr (.inl ht)
    · intro t w' rest' hn
      obtain ⟨w2, _, he, hform⟩ := NextLexeme.cons hn
      obtain ⟨body', hb', hr'⟩ := hform.ofQuote hc
      refine hno body' (runesOf rest') ?_ hb'
      rw [he, runesOf_append, hr']; simp

theorem hash_good (u : Unicode) {s : Scanner} {c : Chr} {cs : List Chr} (h : s.At (c :: cs)) (hc : c.1 = 0x23) :
    ∃ s', lineComment s.nextch = .done s' ∧ Good u s (c :: cs) s' := by
  have h1 := Reads.nextch h
  obtain ⟨s', w, rest, hs', rfl, hw, hr, hm, ht⟩ := lineComment_reads h1.at_
  refine ⟨s', hs', c :: w, rest, rfl, h1.trans hm, ?_⟩
  rw [ht]
  refine NextLexeme.mk' (.lineComment (.inl rfl) hw (by simp [runesOf, hc])) ?_ (by omega)
  intro t' w' rest' he hform
  have hf := hform.ofHash hc
  refine all_longest (P := fun d : Chr => d.1 ≠ 0x0a) he (fun d hd h10 => hf (List.mem_map.2 ⟨d, hd, h10⟩)) (fun d r hd => by simp [hr d r hd])

theorem slashes_good (u : Unicode) {s : Scanner} {c d : Chr} {cs : List Chr} (h : s.At (c :: d :: cs)) (hc : c.1 = 0x2f) (hd : d.1 = 0x2f) :
    ∃ s', lineComment s.nextch.nextch = .done s' ∧ Good u s (c :: d :: cs) s' := by
  have h1 := Reads.nextch h
  have h2 := h1.trans (w' := [d]) (Reads.nextch h1.at_)
  obtain ⟨s', w, rest, hs', rfl, hw, hr, hm, ht⟩ := lineComment_reads h2.at_
  refine ⟨s', hs', c :: d :: w, rest, rfl, h2.trans hm, ?_⟩
  rw [ht]
  refine NextLexeme.mk' (w := d :: w) (.lineComment (.inr rfl) hw (by simp [runesOf, hc, hd])) ?_ (by simp)
  intro t' w' rest' he hform
  rcases hform.ofSlash hc with rfl | ⟨body, hb, hr'⟩ | ⟨body, hb, hr'⟩
  · simp
  · cases w' with
    | nil => simp
    | cons d' w' =>
      have he := (List.cons.inj he).2
      have hb2 : runesOf w' = body := (List.cons.inj hr').2
      have := all_longest (P := fun d : Chr => d.1 ≠ 0x0a) he (fun d hd h10 => hb (by rw [← hb2]; exact List.mem_map.2 ⟨d, hd, h10⟩)) (fun d r hd => by simp [hr d r hd])
      simpa using this
  · cases w' with
    | nil => simp
    | cons d' w' =>
      have h3 := (List.cons.inj he).1
      have h4 : d'.1 = 0x2a := (List.cons.inj hr').1
      rw [← h3] at h4; omega

theorem fullComment_outcome (u : Unicode) {s : Scanner} {c d : Chr} {cs : List Chr} (h : s.At (c :: d :: cs)) (hc : c.1 = 0x2f) (hd : d.1 = 0x2a) :
    ∃ s', fullComment s.nextch.nextch = .done s' ∧ (Good u s (c :: d :: cs) s' ∨ Bad u s (c :: d :: cs) s') := by
  have h1 := Reads.nextch h
  have h2 := h1.trans (w' := [d]) (Reads.nextch h1.at_)
  unfold fullComment
  obtain ⟨s', hs', ht, ho⟩ := fullCommentLoop_reads (h2.at_.setTok Tk.comment) (h2.at_.setTok Tk.comment).lt_bound
  refine ⟨s', hs', ?_⟩
  rcases ho with ⟨body, x, y, rest, rfl, hx, hy, hb, hr⟩ | ⟨hf, hno⟩
  · refine .inl ⟨c :: d :: (body ++ [x, y]), rest, by simp, h2.trans' hr.ofSetTok (by simp) (by simp), ?_⟩
    rw [show s'.tok = Tk.comment from ht]
    have := NextLexeme.mk' (u := u) (c := c) (t := Tk.comment) (w := d :: (body ++ [x, y])) (rest := rest) (.fullComment hb (by simp [runesOf, hc, hd, hx, hy])) ?_ (by simp)
    · simpa using this
    intro t' w' rest' he hform
    rcases hform.ofSlash hc with rfl | ⟨body', hb', hr'⟩ | ⟨body', hb', hr'⟩
    · simp
    · cases w' with
      | nil => simp
      | cons d' w' =>
        have h3 := (List.cons.inj he).1
        have h4 : d'.1 = 0x2f := (List.cons.inj hr').1
        rw [← h3] at h4; omega
    · cases w' with
      | nil => simp
      | cons d' w' =>
        have he : body ++ [x, y] ++ rest = w' ++ rest' := (List.cons.inj he).2
        have hb2 : runesOf w' = body' ++ [0x2a, 0x2f] := (List.cons.inj hr').2
        have h3 : runesOf body ++ 0x2a :: 0x2f :: runesOf rest = body' ++ 0x2a :: 0x2f :: runesOf rest' := by
          have := congrArg runesOf he
          rw [runesOf_append, runesOf_append w', hb2] at this
          simpa [runesOf, hx, hy] using this
        have := NoClose.unique hb hb' h3
        have hl := congrArg List.length hb2
        rw [← this] at hl
        simp [runesOf] at hl ⊢
        omega
  · refine .inr ⟨c :: d :: cs, [], by simp, by simp, ?_, .inr (.inr ht), ?_⟩
    · have := Fails.right (w := [c] ++ [d]) (w' := cs) (cs := []) (by simpa using h2.toMoves) hf.ofSetTok
      simpa using this
    · intro t w' rest' hn
      have hcom := hn.comment
      obtain ⟨w2, rfl, he, hform⟩ := NextLexeme.cons hn
      rcases hform.ofSlash hc with rfl | ⟨body', hb', hr'⟩ | ⟨body', hb', hr'⟩
      · exact hcom ⟨by simp [runesOf, hc], d, cs, by simpa using he.symm, hd⟩
      · cases w2 with
        | nil => cases hr'
        | cons d' w2 =>
          have h3 := (List.cons.inj he).1
          have h4 : d'.1 = 0x2f := (List.cons.inj hr').1
          rw [← h3] at h4; omega
      · cases w2 with
        | nil => cases hr'
        | cons d' w2 =>
          have he : cs = w2 ++ rest' := (List.cons.inj he).2
          have hb2 : runesOf w2 = body' ++ [0x2a, 0x2f] := (List.cons.inj hr').2
          apply hno
          rw [he, runesOf_append, hb2]
          exact ⟨body', runesOf rest', by simp⟩

theorem single_operators {r : Nat} {t : Token} (h : single (r : Int) = some t) : ([r], t) ∈ operators ∧ ¬ (r = 0x2b ∨ r = 0x2d) ∧ r ≠ 0x2f ∧ r ≠ 0x3d := by
  have step : ∀ {n : Nat} {t' : Token} {o : Option Token}, (([n], t') ∈ operators ∧ ¬ (n = 0x2b ∨ n = 0x2d) ∧ n ≠ 0x2f ∧ n ≠ 0x3d) →
      (if (r : Int) = (n : Int) then some t' else o) = some t → (([r], t) ∈ operators ∧ ¬ (r = 0x2b ∨ r = 0x2d) ∧ r ≠ 0x2f ∧ r ≠ 0x3d) ∨ o = some t := by
    intro n t' o hn h
    by_cases he : (r : Int) = (n : Int)
    · rw [if_pos he] at h
      cases h
      have : r = n := by omega
      subst this
      exact .inl hn
    · rw [if_neg he] at h
      exact .inr h
  unfold single at h
  iterate 18 (rcases step (n := _) (by decide) h with h | h; · exact h)
  cases h

theorem single_none {r : Nat} (h : single (r : Int) = none) (h1 : ¬ (r = 0x2b ∨ r = 0x2d)) (h2 : r ≠ 0x2f) (h3 : r ≠ 0x3d) (w : List Nat) (t : Token) : (r :: w, t) ∉ operators := by
  intro hm
  simp only [operators, List.mem_cons, List.not_mem_nil, or_false, Prod.mk.injEq, List.cons.injEq] at hm
  have step : ∀ {n : Int} {t' : Token} {o : Option Token}, (if (r : Int) = n then some t' else o) = none → (r : Int) ≠ n ∧ o = none := by
    intro n t' o h
    by_cases he : (r : Int) = n
    · rw [if_pos he] at h
      cases h
    · rw [if_neg he] at h
      exact ⟨he, h⟩
  unfold single at h
  iterate 18 (have h := step h; have ⟨_, h⟩ := h)
  omega

theorem token_outcome (u : Unicode) {s : Scanner} {c : Chr} {cs : List Chr} (h : s.At (c :: cs)) (hid : ¬ IdentStart u c.1) :
    (∃ s', token s = .done (some s') ∧ (Good u s (c :: cs) s' ∨ Bad u s (c :: cs) s')) ∨ (token s = .done none ∧ ∀ t w rest, ¬ NextLexeme u (c :: cs) t w rest) := by
  have hch : s.ch = (c.1 : Int) := h.ch
  have h1 := Reads.nextch h
  unfold token
  dsimp only
  rw [if_neg (by rw [hch]; omega)]
  by_cases hdig : isDecimal s.ch = true
  · rw [if_pos hdig]
    rw [hch, isDecimal_iff] at hdig
    obtain ⟨s', hs', hg⟩ := number_good u h hdig
    rw [hs']
    exact .inl ⟨s', rfl, .inl hg⟩
  rw [if_neg hdig]
  rw [hch, isDecimal_iff] at hdig
  by_cases hq : s.ch = 34 ∨ s.ch = 39
  · rw [if_pos hq]
    obtain ⟨s', hs', ho⟩ := string_outcome u h (by rw [hch] at hq; omega)
    rw [hs']
    exact .inl ⟨s', rfl, ho⟩
  rw [if_neg hq]
  rw [hch] at hq
  by_cases hplus : s.ch = 43
  · rw [if_pos hplus]
    have hc : c.1 = 0x2b := by omega
    rcases signed_good u h (.inl hc) Tk.add (by rw [hc]; decide) with ⟨hd, s', hs', hg⟩ | ⟨hd, hg⟩
    · rw [if_pos hd, hs']
      exact .inl ⟨s', rfl, .inl hg⟩
    · rw [if_neg (by rw [hd]; decide)]
      exact .inl ⟨_, rfl, .inl hg⟩
  rw [if_neg hplus]
  by_cases hminus : s.ch = 45
  · rw [if_pos hminus]
    have hc : c.1 = 0x2d := by omega
    rcases signed_good u h (.inr hc) Tk.sub (by rw [hc]; decide) with ⟨hd, s', hs', hg⟩ | ⟨hd, hg⟩
    · rw [if_pos hd, hs']
      exact .inl ⟨s', rfl, .inl hg⟩
    · rw [if_neg (by rw [hd]; decide)]
      exact .inl ⟨_, rfl, .inl hg⟩
  rw [if_neg hminus]
  by_cases hslash : s.ch = 47
  · rw [if_pos hslash]
    have hc : c.1 = 0x2f := by omega
    by_cases hs2 : s.nextch.ch = 47
    · rw [if_pos hs2]
      have : headRune cs = ((47 : Nat) : Int) := h1.at_.ch.symm.trans hs2
      obtain ⟨d, rest, rfl, hd⟩ := headRune_eq this
      obtain ⟨s', hs', hg⟩ := slashes_good u h hc hd
      rw [hs']
      exact .inl ⟨s', rfl, .inl hg⟩
    rw [if_neg hs2]
    by_cases hs3 : s.nextch.ch = 42
    · rw [if_pos hs3]
      have : headRune cs = ((42 : Nat) : Int) := h1.at_.ch.symm.trans hs3
      obtain ⟨d, rest, rfl, hd⟩ := headRune_eq this
      obtain ⟨s', hs', hg⟩ := fullComment_outcome u h hc hd
      rw [hs']
      exact .inl ⟨s', rfl, hg⟩
    rw [if_neg hs3]
    refine .inl ⟨_, rfl, .inl ⟨[c], cs, rfl, h1.setTok _, NextLexeme.mk' (w := []) (.operator ?_) ?_ ?_⟩⟩
    · simp only [runesOf, List.map, hc]; decide
    · intro t' w' rest' he hform
      rw [h1.at_.ch] at hs2 hs3
      rw [List.nil_append] at he
      subst he
      rcases hform.ofSlash hc with rfl | ⟨body', hb', hr'⟩ | ⟨body', hb', hr'⟩
      · simp
      · cases w' with
        | nil => simp
        | cons d' w' =>
          have h4 : d'.1 = 0x2f := (List.cons.inj hr').1
          exact absurd (by rw [List.cons_append, headRune, h4]; rfl) hs2
      · cases w' with
        | nil => simp
        | cons d' w' =>
          have h4 : d'.1 = 0x2a := (List.cons.inj hr').1
          exact absurd (by rw [List.cons_append, headRune, h4]; rfl) hs3
    · intro _ _ d rest' he hd
      rw [h1.at_.ch, he, headRune] at hs3
      omega
  rw [if_neg hslash]
  have other : ∀ {t : Token} {w : List Chr}, c.1 ≠ 0x23 → Form u t c w → (runesOf (c :: w), t) ∈ operators :=
    fun h23 hf => hf.ofOther hid hdig (by omega) (by omega) h23 (by omega)
  by_cases heq : s.ch = 61
  · rw [if_pos heq]
    have hc : c.1 = 0x3d := by omega
    by_cases heq2 : s.nextch.ch = 61
    · rw [if_pos heq2]
      have : headRune cs = ((61 : Nat) : Int) := h1.at_.ch.symm.trans heq2
      obtain ⟨d, rest, rfl, hd⟩ := headRune_eq this
      refine .inl ⟨_, rfl, .inl ⟨[c, d], rest, rfl, (h1.trans (w := [c]) (w' := [d]) (Reads.nextch h1.at_)).setTok _, NextLexeme.mk' (w := [d]) (.operator ?_) ?_ (by simp)⟩⟩
      · simp only [runesOf, List.map, hc, hd]; decide
      · intro t' w' rest' he hform
        have := operators_first (other (by omega) hform)
        rcases this.2.2.2.2.2.2 with hw | ⟨_, hw⟩
        · rw [List.map_eq_nil_iff.1 hw]; simp
        · have := congrArg List.length hw
          simp at this ⊢; omega
    · rw [if_neg heq2]
      refine .inl ⟨_, rfl, .inl ⟨[c], cs, rfl, h1.setTok _, NextLexeme.mk' (w := []) (.operator ?_) ?_ (by omega)⟩⟩
      · simp only [runesOf, List.map, hc]; decide
      · intro t' w' rest' he hform
        have := operators_first (other (by omega) hform)
        rcases this.2.2.2.2.2.2 with hw | ⟨_, hw⟩
        · rw [List.map_eq_nil_iff.1 hw]; simp
        · exfalso
          cases w' with
          | nil => cases hw
          | cons d w' =>
            have h4 : d.1 = 0x3d := (List.cons.inj hw).1
            rw [List.nil_append] at he
            rw [h1.at_.ch, he, List.cons_append, headRune] at heq2
            omega
  rw [if_neg heq]
  by_cases hhash : s.ch = 35
  · rw [if_pos hhash]
    obtain ⟨s', hs', hg⟩ := hash_good u h (by omega)
    rw [hs']
    exact .inl ⟨s', rfl, .inl hg⟩
  rw [if_neg hhash]
  cases hsingle : single s.ch with
  | some t =>
    rw [hch] at hsingle
    have hop := single_operators hsingle
    refine .inl ⟨_, rfl, .inl ⟨[c], cs, rfl, h1.setTok _, NextLexeme.mk' (w := []) (.operator hop.1) ?_ (by omega)⟩⟩
    intro t' w' rest' he hform
    have := operators_first (other (by omega) hform)
    rcases this.2.2.2.2.2.2 with hw | ⟨_, hw⟩
    · rw [List.map_eq_nil_iff.1 hw]; simp
    · omega
  | none =>
    refine .inr ⟨rfl, ?_⟩
    intro t w rest hn
    obtain ⟨w2, _, he, hform⟩ := NextLexeme.cons hn
    rw [hch] at hsingle
    exact single_none hsingle (by omega) (by omega) (by omega) _ _ (other (by omega) hform)

end Scanner

end GoThrift.Idl
