import Verif.Proof.ScanAll

/-!
# The tokens of a source, as the parser sees them
-/

namespace GoThrift.Spec

open Idl

theorem NextLexeme.ne_nil {u : Unicode} {cs : List Chr} {t : Token} {w rest : List Chr} (h : NextLexeme u cs t w rest) : ∃ c cs', cs = c :: cs' ∧ ¬ White c.1 := by
  cases cs with
  | nil => exact absurd (List.append_eq_nil_iff.1 h.split.symm).1 h.lexeme.ne_nil
  | cons c cs => exact ⟨c, cs, rfl, h.not_white⟩

theorem Lex.ofComment {u : Unicode} {cs w rest : List Chr} (h : NextLexeme u cs Tk.comment w rest) {l : List (Token × Bytes)} : Lex u cs l ↔ Lex u rest l := by
  refine ⟨fun hl => ?_, fun hl => .comment h hl⟩
  cases hl with
  | nil => obtain ⟨_, _, he, _⟩ := h.ne_nil; cases he
  | white hw _ => exact absurd hw h.not_white
  | comment h' hl => rw [(h.unique h').2.2]; exact hl
  | token h' hne hl => exact absurd (h.unique h').1.symm hne

theorem Lex.ofToken {u : Unicode} {cs w rest : List Chr} {t : Token} (h : NextLexeme u cs t w rest) (ht : t ≠ Tk.comment) {l : List (Token × Bytes)} :
    Lex u cs l ↔ ∃ l', l = (t, bytesOf w) :: l' ∧ Lex u rest l' := by
  refine ⟨fun hl => ?_, fun ⟨l', he, hl⟩ => by rw [he]; exact .token h ht hl⟩
  cases hl with
  | nil => obtain ⟨_, _, he, _⟩ := h.ne_nil; cases he
  | white hw _ => exact absurd hw h.not_white
  | comment h' hl => exact absurd (h.unique h').1 ht
  | token h' hne hl =>
    obtain ⟨rfl, rfl, rfl⟩ := h.unique h'
    exact ⟨_, rfl, hl⟩

theorem Lex.ofNil {u : Unicode} {l : List (Token × Bytes)} : Lex u [] l ↔ l = [] := by
  refine ⟨fun hl => ?_, fun h => by rw [h]; exact .nil⟩
  cases hl with
  | nil => rfl
  | comment h' hl => obtain ⟨_, _, he, _⟩ := h'.ne_nil; cases he
  | token h' hne hl => obtain ⟨_, _, he, _⟩ := h'.ne_nil; cases he

end GoThrift.Spec

namespace GoThrift.Idl

open Spec

namespace Scanner

/-- At the end, `next` says so. -/
theorem next_eof (u : Unicode) {s : Scanner} (h : s.At []) : s.next u = .done { s with pos := s.offset, tok := Tk.eof } := by
  have hch : s.ch = -1 := h.ch
  have hskip : s.skipWhile isSpace s.bound = .done s := by
    unfold Scanner.bound Scanner.skipWhile
    rw [if_neg (by rw [hch]; decide)]
  unfold Scanner.next
  rw [show s.bound = (s.src.length + 1) + 1 from rfl, redo_step, hskip, Out.bind_done]
  unfold redoAt
  dsimp only
  rw [if_neg (show ¬ isLetter s.ch = true by rw [hch]; decide), if_neg (show ¬ s.ch ≥ 0x80 by rw [hch]; decide), if_neg (show ¬ (false = true) by decide)]
  unfold Scanner.token
  dsimp only
  rw [if_pos hch, Out.bind_done, Out.bind_done]

/-- `skip` is white space and comments before `rest`. -/
inductive Blank (u : Unicode) (rest : List Chr) : List Chr → Prop
  | nil : Blank u rest []
  | white {c : Chr} {skip : List Chr} : White c.1 → Blank u rest skip → Blank u rest (c :: skip)
  | comment {w skip : List Chr} : NextLexeme u (w ++ (skip ++ rest)) Tk.comment w (skip ++ rest) → Blank u rest skip → Blank u rest (w ++ skip)

theorem Blank.whites {u : Unicode} {rest ws skip : List Chr} (h : ∀ c ∈ ws, White c.1) (hb : Blank u rest skip) : Blank u rest (ws ++ skip) := by
  induction ws with
  | nil => exact hb
  | cons c ws ih => exact .white (h c List.mem_cons_self) (ih fun d hd => h d (List.mem_cons_of_mem _ hd))

/-- The scanner skipped `skip`, with comments, and read the token `w`. -/
structure TScans (u : Unicode) (s : Scanner) (skip w rest : List Chr) (s' : Scanner) : Prop where
  at_ : s'.At rest
  src : s'.src = s.src
  pos : s'.pos = s.offset + (bytesOf skip).length
  off : s'.offset = s'.pos + (bytesOf w).length
  pre : s.errs <+: s'.errs
  kind : (w = [] ∧ rest = [] ∧ s'.tok = Tk.eof) ∨ (w ≠ [] ∧ s'.tok ≠ Tk.eof ∧ s'.tok ≠ Tk.comment)
  lexical : AsciiTables u → (s'.errs ≠ s.errs ∧ ∀ l, ¬ Lex u (skip ++ (w ++ rest)) l) ∨
    ((∀ l, Lex u (skip ++ (w ++ rest)) l ↔ Lex u (w ++ rest) l) ∧ (w = [] ∨ NextLexeme u (w ++ rest) s'.tok w rest) ∧ Blank u (w ++ rest) skip ∧
      (s'.errs = s.errs ↔ ∀ c ∈ ((skip ++ (w ++ rest)).tail).take (skip ++ w).length, Chr.Ok c))

theorem nextToken_scans' (u : Unicode) {n : Nat} {s : Scanner} {cs : List Chr} (h : s.At cs) (hn : cs.length < n) (ht : s.tok ≠ Tk.eof) :
    ∃ s' skip w rest, ((s.next u).bind (Scanner.skipComments u n)) = .done s' ∧ cs = skip ++ (w ++ rest) ∧ TScans u s skip w rest s' := by
  induction n generalizing s cs with
  | zero => omega
  | succ n ih =>
    obtain ⟨s1, skip, w, rest, hs1, rfl, hsc⟩ := next_scans u h
    rw [hs1, Out.bind_done, Scanner.skipComments]
    by_cases hcom : s1.tok = Tk.comment
    · rw [if_pos hcom]
      have hne1 : s1.tok ≠ Tk.eof := by rw [hcom]; decide
      rcases hsc.kind with ⟨_, _, heof⟩ | ⟨hw, _⟩
      · exact absurd heof hne1
      · have hrest : rest.length < n := by
          simp only [List.length_append] at hn
          have : w.length ≠ 0 := fun h0 => hw (List.eq_nil_of_length_eq_zero h0)
          omega
        obtain ⟨s', skip', w', rest', hs', rfl, hsc'⟩ := ih hsc.at_ hrest hne1
        refine ⟨s', skip ++ w ++ skip', w', rest', hs', by simp, hsc'.at_, hsc'.src.trans hsc.src, ?_, hsc'.off, hsc.pre.trans hsc'.pre, hsc'.kind, fun ha => ?_⟩
        · rw [hsc'.pos, hsc.off, hsc.pos, bytesOf_append, bytesOf_append]
          simp only [List.length_append]; omega
        · have hreassoc : skip ++ w ++ skip' ++ (w' ++ rest') = skip ++ (w ++ (skip' ++ (w' ++ rest'))) := by simp
          rw [hreassoc]
          rcases hsc.lexical ha with ⟨hl, hno⟩ | ⟨hwhite, hx, hq⟩
          · refine .inl ⟨fun he => hl ((prefix_eq_both hsc.pre hsc'.pre).1 he).1, hno⟩
          · rcases hx with hx | hx
            · exact absurd hx hw
            rw [hcom] at hx
            have hlex : ∀ l, Lex u (skip ++ (w ++ (skip' ++ (w' ++ rest')))) l ↔ Lex u (skip' ++ (w' ++ rest')) l := by
              intro l
              rw [Lex.ofWhite hwhite, Lex.ofComment hx]
            rcases hsc'.lexical ha with ⟨hl', hno'⟩ | ⟨hlex', hx', hb', hq'⟩
            · refine .inl ⟨fun he => hl' ((prefix_eq_both hsc.pre hsc'.pre).1 he).2, fun l hl => hno' l ((hlex l).1 hl)⟩
            · refine .inr ⟨fun l => (hlex l).trans (hlex' l), hx', by rw [List.append_assoc]; exact .whites hwhite (.comment hx hb'), ?_⟩
              rw [prefix_eq_both hsc.pre hsc'.pre, hq, hq']
              have := take_tail_append (skip ++ w) (skip' ++ w') rest'
              rw [show skip ++ w ++ (skip' ++ w') ++ rest' = skip ++ (w ++ (skip' ++ (w' ++ rest'))) by simp,
                show skip ++ w ++ (skip' ++ w') = skip ++ w ++ skip' ++ w' by simp,
                show skip ++ w ++ (skip' ++ w' ++ rest') = skip ++ (w ++ (skip' ++ (w' ++ rest'))) by simp,
                show skip' ++ w' ++ rest' = skip' ++ (w' ++ rest') by simp] at this
              rw [this]
              simp only [List.mem_append (s := List.take (skip ++ w).length _)]
              constructor
              · rintro ⟨h1, h2⟩ c (hc | hc)
                · exact h1 c hc
                · exact h2 c hc
              · exact fun hh => ⟨fun c hc => hh c (.inl hc), fun c hc => hh c (.inr hc)⟩
    · rw [if_neg hcom]
      refine ⟨s1, skip, w, rest, rfl, rfl, hsc.at_, hsc.src, hsc.pos, hsc.off, hsc.pre, ?_, fun ha => ?_⟩
      · rcases hsc.kind with hk | ⟨hw, hne⟩
        · exact .inl hk
        · exact .inr ⟨hw, hne ht, hcom⟩
      · rcases hsc.lexical ha with hl | ⟨hwhite, hx, hq⟩
        · exact .inl hl
        · exact .inr ⟨fun l => Lex.ofWhite hwhite, hx, by have := Blank.whites (u := u) (rest := w ++ rest) hwhite .nil; rwa [List.append_nil] at this, hq⟩

theorem nextToken_scans (u : Unicode) {s : Scanner} {cs : List Chr} (h : s.At cs) (ht : s.tok ≠ Tk.eof) :
    ∃ s' skip w rest, s.nextToken u = .done s' ∧ cs = skip ++ (w ++ rest) ∧ TScans u s skip w rest s' := by
  obtain ⟨s1, _, _, _, hs1, _, hsc1⟩ := next_scans u h
  obtain ⟨s', skip, w, rest, hs', rfl, hsc⟩ := nextToken_scans' u (n := s1.bound) h (by rw [Scanner.bound, hsc1.src]; exact h.lt_bound) ht
  refine ⟨s', skip, w, rest, ?_, rfl, hsc⟩
  rw [hs1, Out.bind_done] at hs'
  rw [Scanner.nextToken, hs1, Out.bind_done]
  exact hs'

theorem nextToken_eof (u : Unicode) {s : Scanner} (h : s.At []) : s.nextToken u = .done { s with pos := s.offset, tok := Tk.eof } := by
  rw [Scanner.nextToken, next_eof u h, Out.bind_done]
  unfold Scanner.bound Scanner.skipComments
  rw [if_neg (show ¬ Tk.eof = Tk.comment by decide)]

theorem TScans.text {u : Unicode} {s s' : Scanner} {skip w rest : List Chr} (hs : s.At (skip ++ (w ++ rest))) (h : TScans u s skip w rest s') : s'.lit = .done (bytesOf w) := by
  rw [Scanner.lit, if_pos ⟨by rw [h.off]; omega, h.at_.le⟩, h.src, show s'.offset - s'.pos = (bytesOf w).length by rw [h.off]; omega, h.pos]
  have hb := bytesOf_chars (s.src.drop s.offset)
  rw [hs.rest, bytesOf_append, bytesOf_append] at hb
  rw [← List.drop_drop, ← hb, List.drop_left, List.take_left]

/-! ## The sequence of tokens -/

/-- The tokens from the current one on: token, text and position; and the errors about the text behind the current one. -/
inductive Toks (u : Unicode) : Scanner → List (Token × Bytes × Nat) → List PosErr → Prop
  | eof {s : Scanner} : s.At [] → s.tok = Tk.eof → s.pos = s.src.length → Toks u s [] []
  | tok {s s' : Scanner} {x : Bytes} {l : List (Token × Bytes × Nat)} {es es' : List PosErr} : (∃ cs, s.At cs) → s.tok ≠ Tk.eof → s.lit = .done x → s.nextToken u = .done s' → s'.errs = s.errs ++ es →
      Toks u s' l es' → Toks u s ((s.tok, x, s.pos) :: l) (es ++ es')

/-- Token and text. -/
def plain (t : Token × Bytes × Nat) : Token × Bytes := (t.1, t.2.1)

theorem nextToken_toks (u : Unicode) {s : Scanner} {cs : List Chr} (h : s.At cs) (ht : s.tok ≠ Tk.eof) :
    ∃ s' l es, s.nextToken u = .done s' ∧ Toks u s' l es ∧ s'.src = s.src ∧ s.errs <+: s'.errs ∧ l.length ≤ cs.length ∧
      (∀ t ∈ l, t.1 ≠ Tk.eof ∧ t.1 ≠ Tk.comment ∧ s.offset ≤ t.2.2 ∧ t.2.2 < s.src.length) ∧ l.Pairwise (fun a b => a.2.2 < b.2.2) ∧
      (AsciiTables u → (s'.errs = s.errs ∧ es = [] → Lex u cs (l.map plain) ∧ ∀ c ∈ cs.tail, Chr.Ok c) ∧
        (∀ lx, Lex u cs lx → lx = l.map plain ∧ ((∀ c ∈ cs.tail, Chr.Ok c) → s'.errs = s.errs ∧ es = []))) := by
  generalize hlen : cs.length = k
  induction k using Nat.strongRecOn generalizing s cs with
  | ind k ih =>
    obtain ⟨s1, skip, w, rest, hs1, rfl, hsc⟩ := nextToken_scans u h ht
    rcases hsc.kind with ⟨rfl, rfl, heof⟩ | ⟨hw, hne, hcom⟩
    · have ho : s1.offset = s1.src.length := hsc.at_.offset_eof
      have hp : s1.pos = s1.src.length := by rw [← ho, hsc.off]; simp [bytesOf]
      refine ⟨s1, [], [], hs1, .eof hsc.at_ heof hp, hsc.src, hsc.pre, Nat.zero_le _, by simp, by simp, fun ha => ?_⟩
      rcases hsc.lexical ha with ⟨hl, hno⟩ | ⟨hlex, _, _, hq⟩
      · exact ⟨fun he => absurd he.1 hl, fun lx hx => absurd hx (hno lx)⟩
      · simp only [List.append_nil] at hlex hq ⊢
        rw [List.take_of_length_le (by simp)] at hq
        refine ⟨fun he => ⟨(hlex _).2 .nil, hq.1 he.1⟩, fun lx hx => ⟨Lex.ofNil.1 ((hlex _).1 hx), fun hok => ⟨hq.2 hok, trivial⟩⟩⟩
    · have hwl : 0 < w.length := Nat.pos_of_ne_zero fun h0 => hw (List.eq_nil_of_length_eq_zero h0)
      obtain ⟨s2, l, es, hs2, htoks, hsrc2, hpre2, hlen2, hmem2, hpair2, hlex2⟩ := ih rest.length (by simp at hlen; omega) hsc.at_ hne rfl
      obtain ⟨e2, he2⟩ := hpre2
      have hpos : s1.pos < s1.offset := by
        have hnb : 0 < (bytesOf w).length := by
          cases w with
          | nil => exact absurd rfl hw
          | cons c w =>
            have : ∀ n src, c ∈ charsUpTo n src → 1 ≤ c.2.length := by
              intro n
              induction n with
              | zero => intro src h; cases h
              | succ n ih =>
                intro src h
                rw [charsUpTo_step] at h
                by_cases hs : src = []
                · rw [if_pos hs] at h; cases h
                · rw [if_neg hs] at h
                  rcases List.mem_cons.1 h with h | h
                  · have h1 := Utf8.decodeRune_width_pos src hs
                    have h2 := Utf8.decodeRune_width_le src
                    rw [h]; simp only [List.length_take]; omega
                  · exact ih _ h
            have := this _ _ (show c ∈ chars (s.src.drop s.offset) by rw [h.rest]; simp)
            rw [bytesOf_cons, List.length_append]; omega
        rw [hsc.off]; omega
      have hle := hsc.at_.le
      refine ⟨s1, (s1.tok, bytesOf w, s1.pos) :: l, e2 ++ es, hs1, .tok ⟨_, hsc.at_⟩ hne (hsc.text h) hs2 he2.symm htoks, hsc.src, hsc.pre, by simp at hlen ⊢; omega, ?_, ?_, fun ha => ?_⟩
      · intro t htm
        rcases List.mem_cons.1 htm with rfl | htm
        · refine ⟨hne, hcom, ?_, ?_⟩ <;> dsimp only
          · rw [hsc.pos]; omega
          · rw [hsc.src] at hle; omega
        · obtain ⟨h1, h2, h3, h4⟩ := hmem2 t htm
          have := hsc.pos
          exact ⟨h1, h2, by omega, by rw [← hsc.src]; exact h4⟩
      · refine List.Pairwise.cons (fun t htm => ?_) hpair2
        have := (hmem2 t htm).2.2.1
        dsimp only
        omega
      · obtain ⟨hA, hB⟩ := hlex2 ha
        rcases hsc.lexical ha with ⟨hl, hno⟩ | ⟨hlex, hx, _, hq⟩
        · exact ⟨fun he => absurd he.1 hl, fun lx hx => absurd hx (hno lx)⟩
        · rcases hx with hx | hx
          · exact absurd hx hw
          have hes : (s2.errs = s1.errs ∧ es = []) ↔ e2 ++ es = [] := by
            rw [← he2, List.append_eq_nil_iff]
            simp
          have htail : (∀ c ∈ (skip ++ (w ++ rest)).tail, Chr.Ok c) ↔ (∀ c ∈ ((skip ++ (w ++ rest)).tail).take (skip ++ w).length, Chr.Ok c) ∧ (∀ c ∈ rest.tail, Chr.Ok c) := by
            have h1 := take_tail_append (skip ++ w) rest []
            simp only [List.append_nil] at h1
            rw [List.take_of_length_le (by simp : (skip ++ w ++ rest).tail.length ≤ (skip ++ w ++ rest).length), List.take_of_length_le (by simp : rest.tail.length ≤ rest.length), List.append_assoc] at h1
            rw [h1]
            simp only [List.mem_append (s := List.take (skip ++ w).length _)]
            have h2 : List.take (skip ++ w).length (skip ++ (w ++ rest)).tail ++ rest.tail = (skip ++ (w ++ rest)).tail := h1.symm
            constructor
            · intro hh
              refine ⟨fun c hc => hh c ?_, fun c hc => hh c (.inr hc)⟩
              rw [h2] at hc
              have := List.mem_of_mem_take hc
              rw [h1] at this
              exact List.mem_append.1 this
            · rintro ⟨h3, h4⟩ c (hc | hc)
              · exact h3 c (by rw [h2]; exact hc)
              · exact h4 c hc
          constructor
          · rintro ⟨he, hes0⟩
            obtain ⟨h1, h2⟩ := hA (hes.2 hes0)
            refine ⟨(hlex _).2 ((Lex.ofToken hx hcom).2 ⟨_, rfl, h1⟩), htail.2 ⟨hq.1 he, h2⟩⟩
          · intro lx hlx
            obtain ⟨l', rfl, hl'⟩ := (Lex.ofToken hx hcom).1 ((hlex _).1 hlx)
            obtain ⟨h1, h2⟩ := hB l' hl'
            refine ⟨by rw [h1]; rfl, fun hok => ?_⟩
            obtain ⟨h3, h4⟩ := htail.1 hok
            exact ⟨hq.2 h3, hes.1 (h2 h4)⟩

/-! ## They do not depend on the errors before -/

theorem Toks.setErrs {u : Unicode} {s : Scanner} {l : List (Token × Bytes × Nat)} {es : List PosErr} (h : Toks u s l es) (e : List PosErr) : Toks u { s with errs := e } l es := by
  induction h generalizing e with
  | eof h1 h2 h3 => exact .eof ⟨h1.rest, h1.ch, h1.le, h1.rd⟩ h2 h3
  | @tok s s' x l es es' hat h1 h2 h3 h4 h5 ih =>
    obtain ⟨cs, hat⟩ := hat
    obtain ⟨l', hl', hn⟩ := nextToken_errs u h3 e
    have : l' = es := List.append_cancel_left (hl'.symm.trans h4)
    subst this
    exact .tok (s := { s with errs := e }) ⟨cs, hat.rest, hat.ch, hat.le, hat.rd⟩ h1 h2 hn rfl (ih _)

end Scanner

end GoThrift.Idl
