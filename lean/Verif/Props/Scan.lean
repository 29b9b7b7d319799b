import Verif.Proof.ScanLex
import Verif.Proof.Utf8
import Verif.Spec.Example

/-!
# C40, C56 and C57: the scanner of .thrift files

`scanAll` calls `next` until the token is EOF.
-/

namespace GoThrift

open Spec Idl

/-- An example: `a = 1 // x`, a newline, `set`. -/
def exSource : Bytes := [0x61, 0x20, 0x3d, 0x20, 0x31, 0x20, 0x2f, 0x2f, 0x20, 0x78, 0x0a, 0x73, 0x65, 0x74]

/-- The tables of the examples agree with ASCII. -/
theorem exTables : AsciiTables asciiUnicode := by
  intro r hr
  constructor <;> simp [asciiUnicode]

/-- **C40**: the tokens of a source are in bounds, not empty, and follow one another without overlapping; the last one and no other is EOF, at the end; the text of
each is the source at its range; and the line table has the beginnings of the lines in increasing order. -/
theorem C40_tiles (u : Unicode) (src : Bytes) :
    ∃ front s, scanAll u (src.length + 2) (Scanner.init src) = .done (front ++ [⟨Tk.eof, src.length, src.length, []⟩], s) ∧
      (∀ t ∈ front, t.tok ≠ Tk.eof ∧ t.from_ < t.to ∧ t.to ≤ src.length ∧ t.text = (src.drop t.from_).take (t.to - t.from_)) ∧
      front.Pairwise (fun a b => a.to ≤ b.from_) ∧ s.lines = lineStarts src ∧ (lineStarts src).Pairwise (· < ·) := by
  have hb := (Scanner.init_at src).1.lt_bound
  rw [Scanner.bound, Scanner.init_src] at hb
  obtain ⟨front, s, h1, h2, h3, h4, h5, h6, _⟩ := Scanner.scanAll_tiles u (Scanner.init_at src).1 (Scanner.init_lined src) hb (by rw [Scanner.init_tok]; decide)
  rw [Scanner.init_src] at h1 h2 h5 h6
  refine ⟨front, s, h1, fun t ht => ?_, h3, ?_, ?_⟩
  · obtain ⟨a, _, b, c, d⟩ := h2 t ht
    exact ⟨a, b, c, d⟩
  · rw [h4.lines, h5, h6, startsUpTo_end]
  · unfold lineStarts
    refine List.Pairwise.cons (fun b hb => ?_) (List.Pairwise.filter _ List.pairwise_lt_range)
    have := (List.mem_filter.1 hb).2
    simp only [startsLine, decide_eq_true_eq] at this
    exact this.1

example : scanAll asciiUnicode 16 (Scanner.init exSource) = .done ([⟨Tk.ident, 0, 1, [0x61]⟩, ⟨Tk.assign, 2, 3, [0x3d]⟩, ⟨Tk.int, 4, 5, [0x31]⟩,
    ⟨Tk.comment, 6, 10, [0x2f, 0x2f, 0x20, 0x78]⟩, ⟨Tk.set, 11, 14, [0x73, 0x65, 0x74]⟩, ⟨Tk.eof, 14, 14, []⟩], ⟨exSource, -1, 14, 14, 11, Tk.eof, 14, [0, 11], []⟩) := by
  decide +kernel

/-- **C40** (nothing is lost): without errors, every byte of the source is in a token, is white space, or is of a byte order mark at the beginning. -/
theorem C40_gaps (u : Unicode) (ha : AsciiTables u) (src : Bytes) {l : List TokenAt} {s : Scanner} (h : scanAll u (src.length + 2) (Scanner.init src) = .done (l, s)) (he : s.errs = []) :
    ∀ i b, src[i]? = some b → (∃ t ∈ l, t.from_ ≤ i ∧ i < t.to) ∨ b = 0x20 ∨ b = 0x09 ∨ b = 0x0a ∨ b = 0x0d ∨ (i < 3 ∧ src.take 3 = [0xef, 0xbb, 0xbf]) := by
  have hb := (Scanner.init_at src).1.lt_bound
  rw [Scanner.bound, Scanner.init_src] at hb
  obtain ⟨front, s', h1, h2, h3, h4, h5, h6, h7, h8⟩ := Scanner.scanAll_tiles u (Scanner.init_at src).1 (Scanner.init_lined src) hb (by rw [Scanner.init_tok]; decide)
  rw [Scanner.init_src] at h1 h2 h5 h6 h8
  rw [h] at h1
  injection h1 with h1
  injection h1 with hl hs
  subst hs
  subst hl
  intro i b hi
  have hinit : (Scanner.init src).errs = [] := by
    rw [he] at h7
    exact List.prefix_nil.1 h7
  by_cases ho : (Scanner.init src).offset ≤ i
  · rcases h8 ha (by rw [he, hinit]) i b ho hi with ⟨t, ht, h9, h10⟩ | hw
    · exact .inl ⟨t, List.mem_append_left _ ht, h9, h10⟩
    · unfold WhiteByte at hw
      rcases hw with hw | hw | hw | hw
      · exact .inr (.inl hw)
      · exact .inr (.inr (.inl hw))
      · exact .inr (.inr (.inr (.inl hw)))
      · exact .inr (.inr (.inr (.inr (.inl hw))))
  · rcases Scanner.init_offset src with h0 | ⟨h3, h4⟩
    · omega
    · exact .inr (.inr (.inr (.inr (.inr ⟨by omega, h4⟩))))

example : AsciiTables asciiUnicode ∧ ∃ l s, scanAll asciiUnicode (exSource.length + 2) (Scanner.init exSource) = .done (l, s) ∧ s.errs = [] :=
  ⟨exTables, [⟨Tk.ident, 0, 1, [0x61]⟩, ⟨Tk.assign, 2, 3, [0x3d]⟩, ⟨Tk.int, 4, 5, [0x31]⟩,
    ⟨Tk.comment, 6, 10, [0x2f, 0x2f, 0x20, 0x78]⟩, ⟨Tk.set, 11, 14, [0x73, 0x65, 0x74]⟩, ⟨Tk.eof, 14, 14, []⟩], ⟨exSource, -1, 14, 14, 11, Tk.eof, 14, [0, 11], []⟩,
    by decide +kernel, rfl⟩

/-- **C56**: the scanner reports no error iff the source has only characters that are allowed and is a sequence of white space and lexemes; the tokens are those lexemes. -/
theorem C56_lexical (u : Unicode) (ha : AsciiTables u) (src : Bytes) :
    ∃ l s, scanAll u (src.length + 2) (Scanner.init src) = .done (l, s) ∧
      (s.errs = [] ↔ (∀ c ∈ sourceText src, Chr.Ok c) ∧ ∃ lx, Lex u (sourceText src) lx) ∧
      (∀ lx, Lex u (sourceText src) lx → lx = lexemes l) := by
  have hb := (Scanner.init_at src).1.lt_bound
  rw [Scanner.bound, Scanner.init_src] at hb
  obtain ⟨l, s, h1, h2, h3, h4⟩ := Scanner.scanAll_lex u ha (Scanner.init_at src).1 hb (by rw [Scanner.init_tok]; decide)
  refine ⟨l, s, h1, ?_, fun lx hlx => (h4 lx hlx).1⟩
  have hi := (Scanner.init_at src).2
  have hsplit : (∀ c ∈ sourceText src, Chr.Ok c) ↔ (∀ c ∈ (sourceText src).take 1, Chr.Ok c) ∧ ∀ c ∈ (sourceText src).tail, Chr.Ok c := by
    cases sourceText src with
    | nil => simp
    | cons c cs => simp
  rw [hsplit]
  constructor
  · intro he
    have hinit : (Scanner.init src).errs = [] := by
      rw [he] at h2
      exact List.prefix_nil.1 h2
    obtain ⟨h5, h6⟩ := h3 (by rw [he, hinit])
    exact ⟨⟨hi.1 hinit, h6⟩, _, h5⟩
  · rintro ⟨⟨h5, h6⟩, lx, hlx⟩
    rw [(h4 lx hlx).2 h6]
    exact hi.2 h5

/-- **C56** (one way to read): a text is at most one sequence of lexemes. -/
theorem C56_unique (u : Unicode) {cs : List Chr} {l l' : List (Token × Bytes)} (h : Lex u cs l) (h' : Lex u cs l') : l = l' := by
  induction h generalizing l' with
  | nil => exact (Lex.ofNil.1 h').symm
  | @white c cs l hw _ ih =>
    have := (Lex.ofWhite (u := u) (ws := [c]) (cs := cs) (l := l') (by simpa using hw)).1 h'
    exact ih this
  | comment hx _ ih => exact ih ((Lex.ofComment hx).1 h')
  | token hx hne _ ih =>
    obtain ⟨l2, rfl, h2⟩ := (Lex.ofToken hx hne).1 h'
    rw [ih h2]

example : ∃ lx, Lex asciiUnicode (sourceText exSource) lx ∧ ∀ c ∈ sourceText exSource, Chr.Ok c := by
  obtain ⟨l, s, h1, h2, h3⟩ := C56_lexical asciiUnicode exTables exSource
  have hs : s.errs = [] := by
    have : scanAll asciiUnicode (exSource.length + 2) (Scanner.init exSource) = .done ([⟨Tk.ident, 0, 1, [0x61]⟩, ⟨Tk.assign, 2, 3, [0x3d]⟩, ⟨Tk.int, 4, 5, [0x31]⟩,
      ⟨Tk.comment, 6, 10, [0x2f, 0x2f, 0x20, 0x78]⟩, ⟨Tk.set, 11, 14, [0x73, 0x65, 0x74]⟩, ⟨Tk.eof, 14, 14, []⟩], ⟨exSource, -1, 14, 14, 11, Tk.eof, 14, [0, 11], []⟩) := by decide +kernel
    rw [this] at h1
    injection h1 with h1
    injection h1 with _ h1
    rw [← h1]
  obtain ⟨h4, lx, h5⟩ := h2.1 hs
  exact ⟨lx, h5, h4⟩

/-- **C56** (characters): the characters of a source are what UTF-8 encodes; a byte at which no encoded character begins stands for itself, as the rune `U+FFFD`. So a character that may stand in a source is
encoded as UTF-8 says. -/
theorem C56_utf8 : chars [] = [] ∧ (∀ r rest, Scalar r → chars (utf8 r ++ rest) = (r, utf8 r) :: chars rest) ∧
    (∀ b rest, (∀ r rest', Scalar r → b :: rest ≠ utf8 r ++ rest') → chars (b :: rest) = (0xfffd, [b]) :: chars rest) ∧
    ∀ src, ∀ c ∈ chars src, c.Ok → Scalar c.1 ∧ c.2 = utf8 c.1 :=
  ⟨rfl, fun _ rest hr => chars_utf8 hr rest, fun _ _ h => chars_bad h, fun _ _ hc hok => ok_utf8 hc hok⟩

/-- `é` in two bytes, and a first half of it. -/
example : Scalar 0xe9 ∧ utf8 0xe9 = [0xc3, 0xa9] ∧ chars [0xc3, 0xa9, 0xc3] = [(0xe9, [0xc3, 0xa9]), (0xfffd, [0xc3])] := ⟨.inl (by decide), by decide, by decide +kernel⟩

/-- An encoding of a surrogate and one that is too long begin no character. -/
example : chars [0xed, 0xa0, 0x80] = [(0xfffd, [0xed]), (0xfffd, [0xa0]), (0xfffd, [0x80])] ∧ chars [0xc0, 0x80] = [(0xfffd, [0xc0]), (0xfffd, [0x80])] := by decide +kernel

/-- **C57**: the errors of the scanner are in the source, and have the line and the column of their offsets. -/
theorem C57_scan (u : Unicode) (src : Bytes) {n : Nat} {l : List TokenAt} {s : Scanner} (h : scanAll u n (Scanner.init src) = .done (l, s)) :
    ∀ e ∈ s.errs, e.offset ≤ src.length ∧ e.line = lineOf src e.offset ∧ e.column = columnOf src e.offset := by
  suffices ∀ n s0 l s, Scanner.Lined s0 → s0.src = src → scanAll u n s0 = .done (l, s) → Scanner.Lined s ∧ s.src = src by
    obtain ⟨h1, h2⟩ := this _ _ _ _ (Scanner.init_lined src) (Scanner.init_src src) h
    have := h1.errs
    rw [h2] at this
    exact this
  intro n
  induction n with
  | zero => intro s0 l s _ _ h; cases h
  | succ n ih =>
    intro s0 l s hl hsrc h
    obtain ⟨cs, hat⟩ := hl.at_
    obtain ⟨s1, skip, w, rest, hs1, rfl, hsc⟩ := Scanner.next_scans u hat
    have hl1 := Scanner.lined_invariant.next u hl hs1
    rw [scanAll, hs1, Out.bind_done, hsc.lit, Out.bind_done] at h
    by_cases he : s1.tok = Tk.eof
    · rw [if_pos he] at h
      injection h with h
      injection h with _ h
      subst h
      exact ⟨hl1, hsc.src.trans hsrc⟩
    · rw [if_neg he] at h
      cases hr : scanAll u n s1 with
      | done r =>
        rw [hr, Out.bind_done] at h
        injection h with h
        injection h with _ h
        subst h
        exact ih s1 r.1 r.2 hl1 (hsc.src.trans hsrc) hr
      | blocked => rw [hr] at h; cases h
      | diverged => rw [hr] at h; cases h
      | panicked => rw [hr] at h; cases h

/-- A newline and a byte that is no character: reported in line 2, column 2. -/
example : ∃ l s, scanAll asciiUnicode 5 (Scanner.init [0x0a, 0x20, 0x3f]) = .done (l, s) ∧ s.errs = [⟨2, 2, 2, .char 0x3f⟩] :=
  ⟨[⟨Tk.eof, 3, 3, []⟩], ⟨[0x0a, 0x20, 0x3f], -1, 3, 3, 1, Tk.eof, 3, [0, 1], [⟨2, 2, 2, .char 0x3f⟩]⟩, by decide +kernel, rfl⟩

set_option maxRecDepth 100000 in
/-- **C56** (reserved words): `init` fills the table of keywords with the reserved words of the language. -/
theorem C56_keywords : initKeywords 20 (Tk.keywordBeg + 1) = keywords ∧ keywords = reserved.map (fun p => (wordBytes p.1, p.2)) := by
  constructor <;> decide +kernel

end GoThrift
