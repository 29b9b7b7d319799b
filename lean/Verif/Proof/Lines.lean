import Verif.Proof.ScanRel
import Verif.Spec.Lines

/-!
# The line table and the positions of errors
-/

namespace GoThrift.Idl

open Spec

/-- The lines that begin at or before the offset. -/
def startsUpTo (src : Bytes) (o : Nat) : List Nat := 0 :: (List.range (min src.length (o + 1))).filter (startsLine src)

theorem startsUpTo_succ (src : Bytes) (o : Nat) :
    startsUpTo src (o + 1) = startsUpTo src o ++ (if o + 1 < src.length ∧ src[o]? = some 0x0a then [o + 1] else []) := by
  unfold startsUpTo
  by_cases h : o + 1 < src.length
  · rw [Nat.min_eq_right (by omega), Nat.min_eq_right (by omega), List.range_succ, List.filter_append, ← List.cons_append]
    congr 1
    simp [List.filter_cons, startsLine, h]
  · rw [if_neg (fun hh => h hh.1), Nat.min_eq_left (by omega), List.append_nil]
    by_cases h2 : o + 1 = src.length
    · rw [Nat.min_eq_right (by omega), h2]
    · rw [Nat.min_eq_left (by omega)]

theorem startsUpTo_le (src : Bytes) (o : Nat) : ∀ b ∈ startsUpTo src o, b ≤ o := by
  intro b hb
  rcases List.mem_cons.1 hb with rfl | hb
  · omega
  · have := List.mem_range.1 (List.mem_filter.1 hb).1
    omega

theorem startsUpTo_add (src : Bytes) (o k : Nat) (h : ∀ i, o ≤ i → i < o + k → src[i]? ≠ some 0x0a) : startsUpTo src (o + k) = startsUpTo src o := by
  induction k with
  | zero => rfl
  | succ k ih =>
    rw [← Nat.add_assoc, startsUpTo_succ, if_neg (fun hh => h (o + k) (by omega) (by omega) hh.2), List.append_nil, ih fun i h1 h2 => h i h1 (by omega)]

theorem startsUpTo_end (src : Bytes) : startsUpTo src src.length = lineStarts src := by
  unfold startsUpTo lineStarts
  rw [Nat.min_eq_left (by omega)]

theorem takeWhile_startsUpTo (src : Bytes) (o k : Nat) : (startsUpTo src (o + k)).takeWhile (fun b => decide (b ≤ o)) = startsUpTo src o := by
  induction k with
  | zero =>
    have : ∀ l : List Nat, (∀ b ∈ l, b ≤ o) → l.takeWhile (fun b => decide (b ≤ o)) = l := by
      intro l hl
      induction l with
      | nil => rfl
      | cons a l ih =>
        rw [List.takeWhile_cons_of_pos (by simpa using hl a (by simp)), ih fun b hb => hl b (List.mem_cons_of_mem _ hb)]
    exact this _ (startsUpTo_le src o)
  | succ k ih =>
    rw [← Nat.add_assoc, startsUpTo_succ]
    have drop : ∀ (l : List Nat) (x : Nat), ¬ x ≤ o → (l ++ [x]).takeWhile (fun b => decide (b ≤ o)) = l.takeWhile (fun b => decide (b ≤ o)) := by
      intro l x hx
      induction l with
      | nil => rw [List.nil_append, List.takeWhile_cons_of_neg (by simpa using hx), List.takeWhile_nil]
      | cons a l ih =>
        by_cases ha : a ≤ o
        · rw [List.cons_append, List.takeWhile_cons_of_pos (by simpa using ha), List.takeWhile_cons_of_pos (by simpa using ha), ih]
        · rw [List.cons_append, List.takeWhile_cons_of_neg (by simpa using ha), List.takeWhile_cons_of_neg (by simpa using ha)]
    split
    · rw [drop _ _ (by omega), ih]
    · rw [List.append_nil, ih]

theorem filter_startsUpTo (src : Bytes) (o k : Nat) : (startsUpTo src (o + k)).filter (fun b => decide (b ≤ o)) = startsUpTo src o := by
  induction k with
  | zero => exact List.filter_eq_self.2 fun b hb => by simpa using startsUpTo_le src o b hb
  | succ k ih =>
    rw [← Nat.add_assoc, startsUpTo_succ, List.filter_append, ih]
    split
    · rw [List.filter_cons_of_neg (by simp; omega), List.filter_nil, List.append_nil]
    · rw [List.filter_nil, List.append_nil]

theorem filter_lineStarts (src : Bytes) (o : Nat) (h : o ≤ src.length) : (lineStarts src).filter (fun b => decide (b ≤ o)) = startsUpTo src o := by
  rw [← startsUpTo_end, show src.length = o + (src.length - o) by omega, filter_startsUpTo]

theorem position_startsUpTo (src : Bytes) {o o' : Nat} (h : o ≤ o') (h' : o' ≤ src.length) : position (startsUpTo src o') o = (lineOf src o, columnOf src o) := by
  unfold position lineOf columnOf
  rw [filter_lineStarts src o (by omega), show o' = o + (o' - o) by omega, takeWhile_startsUpTo]

theorem getLastD_startsUpTo (src : Bytes) (o : Nat) : (startsUpTo src o).getLastD 0 ≤ o := by
  have hne : startsUpTo src o ≠ [] := by simp [startsUpTo]
  rw [List.getLastD_eq_getLast?, List.getLast?_eq_some_getLast hne, Option.getD_some]
  exact startsUpTo_le src o _ (List.getLast_mem hne)

/-- A newline stands by itself. -/
theorem newline_chr {src : Bytes} {c : Chr} {cs : List Chr} (h : chars src = c :: cs) : (c.1 = 0x0a → c.2 = [0x0a]) ∧ (0x0a ∈ c.2 → c.1 = 0x0a) := by
  have hne : src ≠ [] := fun hn => by rw [hn, chars_nil] at h; cases h
  rw [chars_of_ne _ hne] at h
  have hc := (List.cons.inj h).1
  cases src with
  | nil => exact absurd rfl hne
  | cons b p =>
    by_cases hb : b.toNat < 0x80
    · rw [Utf8.decodeRune_ascii b p hb] at hc
      rw [← hc]
      simp only [List.take_succ_cons, List.take_zero, List.mem_singleton, List.cons.injEq, and_true]
      refine ⟨fun h => BitVec.eq_of_toNat_eq h, fun h => by rw [← h]; rfl⟩
    · rw [← hc]
      refine ⟨fun h => ?_, fun h => ?_⟩
      · have := Utf8.decodeRune_ge b p hb
        dsimp only at h; omega
      · have := Utf8.decodeRune_high b p hb _ h
        exact absurd this (by decide)

namespace Scanner

theorem nextch_lines (s : Scanner) : s.nextch.lines = if s.ch = 10 then addLine s.src.length s.lines s.nextch.offset else s.lines := by
  have hn : ∀ o, (s.newLine o).lines = if s.ch = 10 then addLine s.src.length s.lines o else s.lines := by
    intro o
    unfold Scanner.newLine
    dsimp only
    split <;> rfl
  unfold nextch
  split
  · dsimp only
    repeat' split
    all_goals
      simp only [Scanner.error, hn, newLine_offset]
      simp_all
  · dsimp only
    rw [hn, newLine_offset]

/-- The line table is that of the source up to the offset, and the errors have the right positions. -/
structure Lined (s : Scanner) : Prop where
  at_ : ∃ cs, s.At cs
  lines : s.lines = startsUpTo s.src s.offset
  pos : s.pos ≤ s.offset
  errs : ∀ e ∈ s.errs, e.offset ≤ s.src.length ∧ e.line = lineOf s.src e.offset ∧ e.column = columnOf s.src e.offset

theorem nextch_startsUpTo {s : Scanner} {cs : List Chr} (h : s.At cs) (hl : s.lines = startsUpTo s.src s.offset) : s.nextch.lines = startsUpTo s.src s.nextch.offset := by
  rw [nextch_lines]
  cases cs with
  | nil =>
    have hch : s.ch = -1 := h.ch
    rw [if_neg (by rw [hch]; decide), h.nextch_eof.2.1, hl]
  | cons c cs =>
    have hch : s.ch = (c.1 : Int) := h.ch
    obtain ⟨hn1, hn2⟩ := newline_chr h.rest
    have ho : s.nextch.offset = s.offset + c.2.length := (nextch_offset s h.rd_le).trans (by rw [h.rd]; rfl)
    have htext : (s.src.drop s.offset).take c.2.length = c.2 := by
      have := At.text (w := [c]) (cs := cs) h
      simpa [bytesOf] using this
    by_cases hc : c.1 = 0x0a
    · rw [if_pos (by rw [hch]; omega), ho, hn1 hc]
      rw [hn1 hc] at htext
      have hb : s.src[s.offset]? = some 0x0a := by
        have := congrArg (·[0]?) htext
        simpa [List.getElem?_take, List.getElem?_drop] using this
      show addLine s.src.length s.lines (s.offset + 1) = startsUpTo s.src (s.offset + 1)
      rw [startsUpTo_succ, addLine, hl]
      by_cases hlt : s.offset + 1 < s.src.length
      · rw [if_pos ⟨.inr (by have := getLastD_startsUpTo s.src s.offset; omega), hlt⟩, if_pos ⟨hlt, hb⟩]
      · rw [if_neg (fun hh => hlt hh.2), if_neg (fun hh => hlt hh.1), List.append_nil]
    · rw [if_neg (by rw [hch]; omega), ho, hl]
      refine (startsUpTo_add _ _ _ fun i h1 h2 hi => hc (hn2 ?_)).symm
      rw [← htext]
      refine List.mem_of_getElem? (i := i - s.offset) ?_
      rw [List.getElem?_take, if_pos (by omega), List.getElem?_drop, show s.offset + (i - s.offset) = i by omega, hi]

theorem Lined.error {s : Scanner} (h : Lined s) {o : Nat} (ho : o ≤ s.offset) (m : Msg) : Lined (s.error o m) := by
  obtain ⟨cs, hat⟩ := h.at_
  refine ⟨⟨cs, hat.error o m⟩, h.lines, h.pos, fun e he => ?_⟩
  rcases List.mem_append.1 he with he | he
  · exact h.errs e he
  · rw [List.mem_singleton.1 he]
    have hle := hat.le
    show o ≤ s.src.length ∧ (position s.lines o).1 = lineOf s.src o ∧ (position s.lines o).2 = columnOf s.src o
    rw [h.lines, position_startsUpTo s.src ho hle]
    exact ⟨by omega, rfl, rfl⟩

/-- What `nextch` does to the errors: nothing, or one error at the new offset, for which the line table has been brought up to date. -/
theorem nextch_errs_form (s : Scanner) : s.nextch.errs = s.errs ∨ ∃ m, s.nextch.errs = s.errs ++ [⟨s.nextch.offset, (position s.nextch.lines s.nextch.offset).1, (position s.nextch.lines s.nextch.offset).2, m⟩] := by
  unfold nextch
  split
  · dsimp only
    repeat' split
    all_goals simp only [Scanner.error, newLine_errs]
    all_goals first | exact .inl trivial | exact .inr ⟨_, rfl⟩ | simp
  · left; simp only [newLine_errs]

theorem Lined.nextch {s : Scanner} (h : Lined s) : Lined s.nextch := by
  obtain ⟨cs, hat⟩ := h.at_
  have hat' : ∃ cs', s.nextch.At cs' ∧ s.offset ≤ s.nextch.offset := by
    cases cs with
    | nil => exact ⟨[], hat.nextch_eof.1, by rw [hat.nextch_eof.2.1]; omega⟩
    | cons c cs => exact ⟨cs, hat.nextch, by rw [nextch_offset s hat.rd_le, hat.rd]; omega⟩
  obtain ⟨cs', hat', hoff⟩ := hat'
  have hlines := nextch_startsUpTo hat h.lines
  refine ⟨⟨cs', hat'⟩, by rw [nextch_src]; exact hlines, by rw [nextch_pos]; have := h.pos; omega, ?_⟩
  rw [nextch_src]
  intro e he
  rcases nextch_errs_form s with hf | ⟨m, hf⟩
  · rw [hf] at he; exact h.errs e he
  · rw [hf] at he
    rcases List.mem_append.1 he with he | he
    · exact h.errs e he
    · rw [List.mem_singleton.1 he]
      have hle := hat'.le
      rw [nextch_src] at hle
      dsimp only
      rw [hlines, position_startsUpTo s.src (Nat.le_refl _) hle]
      exact ⟨hle, rfl, rfl⟩

theorem lined_invariant : Invariant Lined where
  nextch h := h.nextch
  error m h := h.error (Nat.le_refl _) m
  setTok x h := by
    obtain ⟨cs, hat⟩ := h.at_
    exact ⟨⟨cs, hat.setTok x⟩, h.lines, h.pos, h.errs⟩
  setPos {s} h := by
    obtain ⟨cs, hat⟩ := h.at_
    exact ⟨⟨cs, hat.setPos s.offset⟩, h.lines, Nat.le_refl _, h.errs⟩

/-! ## The beginning -/

/-- The state from which `init` reads the first character. -/
def blank (src : Bytes) : Scanner := ⟨src, 32, 0, 0, 0, Tk.illegal, 0, [0], []⟩

theorem init_eq (src : Bytes) : init src = if (blank src).nextch.ch = 0xfeff then (blank src).nextch.nextch else (blank src).nextch := rfl

theorem blank_at (src : Bytes) : (blank src).nextch.At (chars src) where
  rest := by rw [nextch_src, nextch_offset _ (Nat.zero_le _)]; rfl
  ch := by rw [nextch_ch]; rfl
  le := by rw [nextch_src, nextch_offset _ (Nat.zero_le _)]; exact Nat.zero_le _
  rd := by rw [nextch_offset _ (Nat.zero_le _), nextch_rdOffset]; rfl

theorem blank_lined (src : Bytes) : Lined (blank src).nextch := by
  have hoff : (blank src).nextch.offset = 0 := nextch_offset _ (Nat.zero_le _)
  have hlines : (blank src).nextch.lines = startsUpTo src 0 := by
    rw [nextch_lines, if_neg (show ¬ (blank src).ch = 10 from (by decide : ¬ (32 : Int) = 10))]
    show [0] = 0 :: List.filter (startsLine src) (List.range (min src.length 1))
    have : min src.length 1 = 0 ∨ min src.length 1 = 1 := by omega
    rcases this with h | h <;> rw [h] <;> simp [List.range_succ, startsLine]
  refine ⟨⟨_, blank_at src⟩, by rw [nextch_src, hoff]; exact hlines, by rw [nextch_pos]; exact Nat.zero_le _, ?_⟩
  rw [nextch_src]
  intro e he
  rcases nextch_errs_form (blank src) with hf | ⟨m, hf⟩
  · rw [hf] at he; cases he
  · rw [hf, hoff, hlines, position_startsUpTo src (Nat.le_refl _) (Nat.zero_le _)] at he
    rw [List.mem_singleton.1 he]
    exact ⟨Nat.zero_le _, rfl, rfl⟩

theorem init_lined (src : Bytes) : Lined (init src) := by
  rw [init_eq]
  split
  · exact (blank_lined src).nextch
  · exact blank_lined src

theorem init_src (src : Bytes) : (init src).src = src := by
  rw [init_eq]
  split <;> simp only [nextch_src] <;> rfl

theorem init_tok (src : Bytes) : (init src).tok = Tk.illegal := by
  rw [init_eq]
  split <;> simp only [nextch_tok] <;> rfl

/-- What the first character can be reported for. -/
theorem blank_errs (src : Bytes) : (blank src).nextch.errs = [] ↔ ∀ c ∈ (chars src).take 1, c.1 = 0xfeff ∨ Chr.Ok c := by
  cases src with
  | nil => simp [nextch, blank, chars_nil, newLine]
  | cons b p =>
    have hne : b :: p ≠ [] := by simp
    rw [chars_of_ne _ hne]
    simp only [List.take_succ_cons, List.take_zero, List.mem_singleton, forall_eq]
    unfold nextch Chr.Ok blank
    simp only [List.drop_zero]
    by_cases h0 : b = 0
    · rw [if_pos h0]
      subst h0
      have : Utf8.decodeRune ((0 : Byte) :: p) = (0, 1) := Utf8.decodeRune_ascii _ p (by decide)
      rw [this]
      simp [Scanner.error, newLine]
    · rw [if_neg h0]
      by_cases hb : b.toNat < 0x80
      · rw [if_pos hb, Utf8.decodeRune_ascii b p hb]
        have : b.toNat ≠ 0 := fun h => h0 (BitVec.eq_of_toNat_eq h)
        simp only [newLine]
        simp
        omega
      · rw [if_neg hb]
        have hge := Utf8.decodeRune_ge b p hb
        have hw := Utf8.decodeRune_width_le (b :: p)
        have hw0 := Utf8.decodeRune_width_pos (b :: p) hne
        generalize Utf8.decodeRune (b :: p) = r at hge hw hw0 ⊢
        have hl : ((b :: p).take r.2).length = r.2 := by rw [List.length_take]; omega
        rw [hl]
        by_cases he : r.1 = Utf8.runeError ∧ r.2 = 1
        · rw [if_pos he]
          have := he.1
          simp only [Utf8.runeError] at this
          simp [Scanner.error, newLine, he.2, this]
        · rw [if_neg he, if_neg (by simp [newLine])]
          simp only [Utf8.runeError] at he
          simp only [newLine]
          simp
          omega

/-- The scanner begins before the text of the source, and has reported its first character if it is not allowed. -/
theorem init_at (src : Bytes) : (init src).At (sourceText src) ∧ ((init src).errs = [] ↔ ∀ c ∈ (sourceText src).take 1, Chr.Ok c) := by
  have hat := blank_at src
  have herr := blank_errs src
  rw [init_eq]
  unfold sourceText
  generalize hcs : chars src = cs at hat herr ⊢
  cases cs with
  | nil =>
    have hch : (blank src).nextch.ch = -1 := hat.ch
    rw [if_neg (by rw [hch]; decide)]
    exact ⟨hat, by rw [herr]; simp⟩
  | cons c cs =>
    have hch : (blank src).nextch.ch = (c.1 : Int) := hat.ch
    dsimp only
    by_cases hb : c.1 = 0xfeff
    · rw [if_pos hb, if_pos (by rw [hch]; omega)]
      refine ⟨hat.nextch, ?_⟩
      have hread := Reads.nextch hat
      have hnil : (blank src).nextch.errs = [] := herr.2 (by simp [hb])
      have := hread.quiet
      rw [hnil] at this
      rw [this]
      simp
    · rw [if_neg hb, if_neg (by rw [hch]; omega)]
      refine ⟨hat, ?_⟩
      rw [herr]
      simp [hb]

end Scanner

end GoThrift.Idl
