import Verif.Model.Scanner
import Verif.Proof.Chars

/-!
# Lemmas about the scanner: how it moves over the text
-/

namespace GoThrift.Idl

open Spec

/-- The rune the scanner sees at a text. -/
def headRune : List Chr → Int
  | [] => -1
  | c :: _ => c.1

/-- The width of the first character. -/
def headWidth : List Chr → Nat
  | [] => 0
  | c :: _ => c.2.length

theorem headRune_nonneg {c : Chr} {cs : List Chr} : 0 ≤ headRune (c :: cs) := Int.natCast_nonneg _

theorem headRune_lt {cs : List Chr} (h : headRune cs < 0) : cs = [] := by
  cases cs with
  | nil => rfl
  | cons c cs => have := headRune_nonneg (c := c) (cs := cs); omega

theorem headRune_eq {cs : List Chr} {n : Nat} (h : headRune cs = n) : ∃ c rest, cs = c :: rest ∧ c.1 = n := by
  cases cs with
  | nil => simp only [headRune] at h; omega
  | cons c cs => exact ⟨c, cs, rfl, by simp only [headRune] at h; omega⟩

namespace Scanner

/-- The scanner is before the text `cs`, the rest of its source. -/
structure At (s : Scanner) (cs : List Chr) : Prop where
  rest : chars (s.src.drop s.offset) = cs
  ch : s.ch = headRune cs
  le : s.offset ≤ s.src.length
  rd : s.rdOffset = s.offset + headWidth cs

theorem newLine_src (s : Scanner) (o : Nat) : (s.newLine o).src = s.src := by unfold newLine; dsimp only; split <;> rfl
theorem newLine_tok (s : Scanner) (o : Nat) : (s.newLine o).tok = s.tok := by unfold newLine; dsimp only; split <;> rfl
theorem newLine_pos (s : Scanner) (o : Nat) : (s.newLine o).pos = s.pos := by unfold newLine; dsimp only; split <;> rfl
theorem newLine_offset (s : Scanner) (o : Nat) : (s.newLine o).offset = o := by unfold newLine; dsimp only; split <;> rfl
theorem newLine_rdOffset (s : Scanner) (o : Nat) : (s.newLine o).rdOffset = s.rdOffset := by unfold newLine; dsimp only; split <;> rfl
theorem newLine_errs (s : Scanner) (o : Nat) : (s.newLine o).errs = s.errs := by unfold newLine; dsimp only; split <;> rfl

theorem nextch_src (s : Scanner) : s.nextch.src = s.src := by
  unfold nextch; split
  · dsimp only; repeat' split
    all_goals simp only [error, newLine_src]
  · simp only [newLine_src]

theorem nextch_tok (s : Scanner) : s.nextch.tok = s.tok := by
  unfold nextch; split
  · dsimp only; repeat' split
    all_goals simp only [error, newLine_tok]
  · simp only [newLine_tok]

theorem nextch_pos (s : Scanner) : s.nextch.pos = s.pos := by
  unfold nextch; split
  · dsimp only; repeat' split
    all_goals simp only [error, newLine_pos]
  · simp only [newLine_pos]

theorem nextch_offset (s : Scanner) (h : s.rdOffset ≤ s.src.length) : s.nextch.offset = s.rdOffset := by
  unfold nextch; split
  · dsimp only; repeat' split
    all_goals simp only [error, newLine_offset]
  · rename_i hd
    have := List.drop_eq_nil_iff.1 hd
    simp only [newLine_offset]; omega

theorem nextch_ch (s : Scanner) : s.nextch.ch = headRune (chars (s.src.drop s.rdOffset)) := by
  unfold nextch; split
  · rename_i b rest hd
    rw [hd, chars_of_ne _ (List.cons_ne_nil _ _)]
    dsimp only; repeat' split
    all_goals first
      | rfl
      | (rename_i hb; subst hb; rfl)
      | (rename_i hb; rw [headRune, Utf8.decodeRune_ascii _ _ hb])
  · rename_i hd
    rw [hd]; rfl

theorem nextch_rdOffset (s : Scanner) : s.nextch.rdOffset = s.rdOffset + headWidth (chars (s.src.drop s.rdOffset)) := by
  unfold nextch; split
  · rename_i b rest hd
    have hw : ((b :: rest).take (Utf8.decodeRune (b :: rest)).2).length = (Utf8.decodeRune (b :: rest)).2 := by
      have := Utf8.decodeRune_width_le (b :: rest)
      rw [List.length_take]; omega
    rw [hd, chars_of_ne _ (List.cons_ne_nil _ _), headWidth, hw]
    dsimp only; repeat' split
    all_goals first
      | (rename_i hb; subst hb; simp only [error, newLine_rdOffset, Utf8.decodeRune_ascii 0 rest (by decide)])
      | (rename_i hb; simp only [newLine_rdOffset, Utf8.decodeRune_ascii b rest hb])
      | simp only [error, newLine_rdOffset]
  · rename_i hd
    rw [hd]; simp [newLine_rdOffset, headWidth, chars_nil]

theorem nextch_errs_prefix (s : Scanner) : s.errs <+: s.nextch.errs := by
  unfold nextch; split
  · dsimp only; repeat' split
    all_goals simp only [error, newLine_errs, List.prefix_append, List.prefix_refl]
  · simp only [newLine_errs, List.prefix_refl]

/-- Reading a character is reported as an error just if the character is not allowed. -/
theorem nextch_errs (s : Scanner) (h0 : 0 < s.rdOffset) :
    s.nextch.errs = s.errs ↔ ∀ c ∈ (chars (s.src.drop s.rdOffset)).take 1, Chr.Ok c := by
  unfold nextch; split
  · rename_i b rest hd
    have hw : ((b :: rest).take (Utf8.decodeRune (b :: rest)).2).length = (Utf8.decodeRune (b :: rest)).2 := by
      have := Utf8.decodeRune_width_le (b :: rest)
      rw [List.length_take]; omega
    have hc : (chars (s.src.drop s.rdOffset)).take 1 = [((Utf8.decodeRune (b :: rest)).1, (b :: rest).take (Utf8.decodeRune (b :: rest)).2)] := by
      rw [hd, chars_of_ne _ (List.cons_ne_nil _ _)]; rfl
    rw [hc]
    simp only [List.mem_singleton, forall_eq, Chr.Ok, hw]
    have hne : ∀ e : PosErr, s.errs ++ [e] ≠ s.errs := fun e he => by
      have := congrArg List.length he
      simp at this
    by_cases hb : b = 0
    · subst hb
      rw [if_pos rfl, Utf8.decodeRune_ascii 0 rest (by decide)]
      simp [error, newLine_errs]
    · rw [if_neg hb]
      by_cases hb2 : b.toNat < 0x80
      · rw [if_pos hb2, Utf8.decodeRune_ascii b rest hb2]
        have : b.toNat ≠ 0 := fun h => hb (BitVec.eq_of_toNat_eq (by simpa using h))
        simp only [newLine_errs, true_iff]
        refine ⟨this, ?_, ?_⟩ <;> omega
      · rw [if_neg hb2]
        have hge := Utf8.decodeRune_ge b rest hb2
        simp only [newLine_offset]
        by_cases hu : (Utf8.decodeRune (b :: rest)).1 = Utf8.runeError ∧ (Utf8.decodeRune (b :: rest)).2 = 1
        · rw [if_pos hu]
          simp only [error, newLine_errs, hne, false_iff]
          exact fun h => h.2.1 hu
        · rw [if_neg hu]
          by_cases hm : (Utf8.decodeRune (b :: rest)).1 = 0xfeff
          · rw [if_pos ⟨hm, h0⟩]
            simp only [error, newLine_errs, hne, false_iff]
            exact fun h => h.2.2 hm
          · rw [if_neg (fun h => hm h.1)]
            simp only [newLine_errs, true_iff]
            exact ⟨by omega, hu, hm⟩
  · rename_i hd
    rw [hd]; simp [newLine_errs, chars_nil]

theorem chars_length_le (src : Bytes) : (chars src).length ≤ src.length := by
  suffices ∀ n src, (charsUpTo n src).length ≤ src.length from this _ _
  intro n
  induction n with
  | zero => intro src; simp [charsUpTo]
  | succ n ih =>
    intro src
    rw [charsUpTo_step]
    split
    · simp
    · rename_i h
      have := Utf8.decodeRune_width_pos src h
      have := Utf8.decodeRune_width_le src
      have := ih (src.drop (Utf8.decodeRune src).2)
      rw [List.length_drop] at this
      rw [List.length_cons]; omega

theorem At.length {s : Scanner} {cs : List Chr} (h : s.At cs) : cs.length + s.offset ≤ s.src.length := by
  have := chars_length_le (s.src.drop s.offset)
  rw [h.rest, List.length_drop] at this
  have := h.le
  omega

theorem At.lt_bound {s : Scanner} {cs : List Chr} (h : s.At cs) : cs.length < s.bound := by
  have := h.length
  unfold bound; omega

/-- Every character has a byte. -/
theorem At.width_pos {s : Scanner} {c : Chr} {cs : List Chr} (h : s.At (c :: cs)) : 1 ≤ c.2.length := by
  have hne : s.src.drop s.offset ≠ [] := fun hd => by have := h.rest; rw [hd] at this; simp [chars_nil] at this
  have := h.rest
  rw [chars_of_ne _ hne] at this
  have hc := (List.cons.inj this).1
  rw [← hc]
  have := Utf8.decodeRune_width_pos _ hne
  have := Utf8.decodeRune_width_le (s.src.drop s.offset)
  simp only [List.length_take]; omega

theorem At.rd_le {s : Scanner} {cs : List Chr} (h : s.At cs) : s.rdOffset ≤ s.src.length := by
  have hb := bytesOf_chars (s.src.drop s.offset)
  rw [h.rest] at hb
  have hl := congrArg List.length hb
  rw [List.length_drop] at hl
  have := h.le
  rw [h.rd]
  cases cs with
  | nil => simpa [headWidth] using this
  | cons c cs => rw [bytesOf_cons, List.length_append] at hl; simp only [headWidth]; omega

theorem At.next {s : Scanner} {c : Chr} {cs : List Chr} (h : s.At (c :: cs)) : chars (s.src.drop s.rdOffset) = cs := by
  have hne : s.src.drop s.offset ≠ [] := fun hd => by have := h.rest; rw [hd] at this; simp [chars_nil] at this
  have := h.rest
  rw [chars_of_ne _ hne] at this
  have hc := List.cons.inj this
  rw [h.rd, headWidth, ← hc.1]
  have := Utf8.decodeRune_width_le (s.src.drop s.offset)
  rw [List.length_take, Nat.min_eq_left this, ← hc.2, List.drop_drop]

theorem At.text {s : Scanner} {w cs : List Chr} (h : s.At (w ++ cs)) : (s.src.drop s.offset).take (bytesOf w).length = bytesOf w := by
  have hb := bytesOf_chars (s.src.drop s.offset)
  rw [h.rest, bytesOf_append] at hb
  rw [← hb, List.take_left]

/-- `nextch` before a character moves behind it. -/
theorem At.nextch {s : Scanner} {c : Chr} {cs : List Chr} (h : s.At (c :: cs)) : s.nextch.At cs where
  rest := by rw [nextch_src, nextch_offset s h.rd_le, h.next]
  ch := by rw [nextch_ch, h.next]
  le := by rw [nextch_src, nextch_offset s h.rd_le]; exact h.rd_le
  rd := by rw [nextch_offset s h.rd_le, nextch_rdOffset, h.next]

theorem At.offset_eof {s : Scanner} (h : s.At []) : s.offset = s.src.length := by
  have hb := bytesOf_chars (s.src.drop s.offset)
  rw [h.rest] at hb
  have := congrArg List.length hb
  rw [List.length_drop] at this
  have := h.le
  simp [bytesOf] at *
  omega

theorem At.nextch_eof {s : Scanner} (h : s.At []) : s.nextch.At [] ∧ s.nextch.offset = s.offset ∧ s.nextch.errs = s.errs := by
  have ho := h.offset_eof
  have hrd : s.rdOffset = s.src.length := by rw [h.rd, ho]; rfl
  have hd : s.src.drop s.rdOffset = [] := List.drop_eq_nil_iff.2 (by omega)
  have hoff := nextch_offset s h.rd_le
  refine ⟨⟨by rw [nextch_src, hoff, hd]; rfl, by rw [nextch_ch, hd]; rfl, by rw [nextch_src, hoff]; exact h.rd_le, by rw [nextch_rdOffset, hoff, hd]; rfl⟩, by rw [hoff, hrd, ho], ?_⟩
  unfold Scanner.nextch
  rw [hd]
  simp only [newLine_errs]

/-- The scanner moved over `w` and is before `cs`. -/
structure Moves (s : Scanner) (w cs : List Chr) (s' : Scanner) : Prop where
  at_ : s'.At cs
  src : s'.src = s.src
  pos : s'.pos = s.pos
  off : s'.offset = s.offset + (bytesOf w).length
  pre : s.errs <+: s'.errs

/-- The scanner moved over `w`, and the only errors are about characters that are not allowed. -/
structure Reads (s : Scanner) (w cs : List Chr) (s' : Scanner) : Prop extends Moves s w cs s' where
  quiet : s'.errs = s.errs ↔ ∀ c ∈ ((w ++ cs).tail).take w.length, Chr.Ok c

/-- The scanner moved over `w` and reported an error. -/
structure Fails (s : Scanner) (w cs : List Chr) (s' : Scanner) : Prop extends Moves s w cs s' where
  loud : s'.errs ≠ s.errs

theorem Reads.refl {s : Scanner} {cs : List Chr} (h : s.At cs) : Reads s [] cs s where
  at_ := h
  src := rfl
  pos := rfl
  off := rfl
  pre := List.prefix_refl _
  quiet := by simp

theorem Reads.nextch {s : Scanner} {c : Chr} {cs : List Chr} (h : s.At (c :: cs)) : Reads s [c] cs s.nextch where
  at_ := h.nextch
  src := nextch_src s
  pos := nextch_pos s
  off := by rw [nextch_offset s h.rd_le, h.rd]; simp [headWidth, bytesOf]
  pre := nextch_errs_prefix s
  quiet := by
    rw [nextch_errs s (by have := h.width_pos; rw [h.rd]; simp only [headWidth]; omega), h.next]
    simp

theorem Moves.trans {s s' s'' : Scanner} {w w' cs : List Chr} (h : Moves s w (w' ++ cs) s') (h' : Moves s' w' cs s'') : Moves s (w ++ w') cs s'' where
  at_ := h'.at_
  src := h'.src.trans h.src
  pos := h'.pos.trans h.pos
  off := by rw [h'.off, h.off, bytesOf_append, List.length_append]; omega
  pre := h.pre.trans h'.pre

theorem prefix_eq_both {α : Type} {a b c : List α} (h : a <+: b) (h' : b <+: c) : c = a ↔ b = a ∧ c = b := by
  constructor
  · intro e
    subst e
    have : b = c := h'.eq_of_length (Nat.le_antisymm h'.length_le h.length_le)
    exact ⟨this, this.symm⟩
  · rintro ⟨rfl, rfl⟩; rfl

theorem take_tail_append (w w' cs : List Chr) :
    ((w ++ w' ++ cs).tail).take (w ++ w').length = ((w ++ (w' ++ cs)).tail).take w.length ++ ((w' ++ cs).tail).take w'.length := by
  cases w with
  | nil => simp
  | cons c t =>
    simp only [List.cons_append, List.tail_cons, List.length_cons, List.length_append, List.append_assoc]
    have h : ∀ (k : Nat) (l : List Chr), l.take (k + 1) = l.take 1 ++ l.tail.take k := by
      intro k l
      cases l <;> simp
    generalize w'.length = k
    generalize w' ++ cs = l
    rw [show t.length + k + 1 = t.length + (k + 1) by omega, List.take_length_add_append, List.take_length_add_append, h, List.append_assoc]

theorem Reads.trans {s s' s'' : Scanner} {w w' cs : List Chr} (h : Reads s w (w' ++ cs) s') (h' : Reads s' w' cs s'') : Reads s (w ++ w') cs s'' where
  toMoves := h.toMoves.trans h'.toMoves
  quiet := by
    rw [prefix_eq_both h.pre h'.pre, h.quiet, h'.quiet, take_tail_append]
    simp only [List.mem_append]
    constructor
    · rintro ⟨h1, h2⟩ c (hc | hc)
      · exact h1 c hc
      · exact h2 c hc
    · exact fun hh => ⟨fun c hc => hh c (.inl hc), fun c hc => hh c (.inr hc)⟩

theorem Fails.left {s s' s'' : Scanner} {w w' cs : List Chr} (h : Fails s w (w' ++ cs) s') (h' : Moves s' w' cs s'') : Fails s (w ++ w') cs s'' where
  toMoves := h.toMoves.trans h'
  loud := by
    rw [Ne, prefix_eq_both h.pre h'.pre]
    exact fun hh => h.loud hh.1

theorem Fails.right {s s' s'' : Scanner} {w w' cs : List Chr} (h : Moves s w (w' ++ cs) s') (h' : Fails s' w' cs s'') : Fails s (w ++ w') cs s'' where
  toMoves := h.trans h'.toMoves
  loud := by
    rw [Ne, prefix_eq_both h.pre h'.pre]
    exact fun hh => h'.loud hh.2

theorem At.error {s : Scanner} {cs : List Chr} (h : s.At cs) (o : Nat) (m : Msg) : (s.error o m).At cs := ⟨h.rest, h.ch, h.le, h.rd⟩

theorem Fails.error {s : Scanner} {cs : List Chr} (h : s.At cs) (o : Nat) (m : Msg) : Fails s [] cs (s.error o m) where
  at_ := h.error o m
  src := rfl
  pos := rfl
  off := rfl
  pre := List.prefix_append _ _
  loud := fun he => by
    have := congrArg List.length he
    simp [Scanner.error] at this

theorem At.setTok {s : Scanner} {cs : List Chr} (h : s.At cs) (t : Token) : At { s with tok := t } cs := ⟨h.rest, h.ch, h.le, h.rd⟩

theorem At.setPos {s : Scanner} {cs : List Chr} (h : s.At cs) (p : Nat) : At { s with pos := p } cs := ⟨h.rest, h.ch, h.le, h.rd⟩

theorem Moves.setTok {s s' : Scanner} {w cs : List Chr} (h : Moves s w cs s') (t : Token) : Moves s w cs { s' with tok := t } :=
  ⟨h.at_.setTok t, h.src, h.pos, h.off, h.pre⟩

theorem Reads.setTok {s s' : Scanner} {w cs : List Chr} (h : Reads s w cs s') (t : Token) : Reads s w cs { s' with tok := t } :=
  ⟨h.toMoves.setTok t, h.quiet⟩

theorem Fails.setTok {s s' : Scanner} {w cs : List Chr} (h : Fails s w cs s') (t : Token) : Fails s w cs { s' with tok := t } :=
  ⟨h.toMoves.setTok t, h.loud⟩

theorem Reads.ofSetTok {s s' : Scanner} {w cs : List Chr} {t : Token} (h : Reads { s with tok := t } w cs s') : Reads s w cs s' :=
  ⟨⟨h.at_, h.src, h.pos, h.off, h.pre⟩, h.quiet⟩

theorem Fails.ofSetTok {s s' : Scanner} {w cs : List Chr} {t : Token} (h : Fails { s with tok := t } w cs s') : Fails s w cs s' :=
  ⟨⟨h.at_, h.src, h.pos, h.off, h.pre⟩, h.loud⟩

/-- `for p(s.ch) { s.nextch() }` moves over the characters satisfying `p`. -/
theorem skipWhile_reads {p : Int → Bool} (hp : p (-1) = false) {n : Nat} {s : Scanner} {cs : List Chr} (h : s.At cs) (hn : cs.length < n) :
    ∃ s', skipWhile p n s = .done s' ∧ Reads s (cs.takeWhile fun c => p c.1) (cs.dropWhile fun c => p c.1) s' ∧ s'.tok = s.tok := by
  induction n generalizing s cs with
  | zero => omega
  | succ n ih =>
    rw [skipWhile]
    cases cs with
    | nil =>
      rw [h.ch, headRune, hp]
      exact ⟨s, rfl, Reads.refl h, rfl⟩
    | cons c cs =>
      rw [h.ch, headRune]
      by_cases hc : p c.1
      · obtain ⟨s', hs', hr, ht⟩ := ih h.nextch (by simp at hn; omega)
        have h1 := Reads.nextch h
        simp only [hc, if_true, List.takeWhile_cons, List.dropWhile_cons]
        refine ⟨s', hs', ?_, ht.trans (nextch_tok s)⟩
        rw [← List.takeWhile_append_dropWhile (p := fun c : Chr => p c.1) (l := cs)] at h1
        exact h1.trans hr
      · simp only [hc, Bool.false_eq_true, if_false, List.takeWhile_cons, List.dropWhile_cons]
        exact ⟨s, rfl, Reads.refl h, rfl⟩

end Scanner

end GoThrift.Idl
