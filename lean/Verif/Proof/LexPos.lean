import Verif.Proof.ParseAll
import Verif.Proof.Layout
import Verif.Proof.Utf8
import Verif.Proof.ParseFull

/-!
# Tokens with their positions, and another text behind one of them
-/

namespace GoThrift.Idl

open Spec
open Scanner (plain Blank)

/-- The tokens of a text that begins at `off`, with their positions. -/
inductive LexPos (u : Unicode) : Nat → List Chr → List (Token × Bytes × Nat) → Prop
  | nil {off : Nat} {cs : List Chr} : Blank u [] cs → LexPos u off cs []
  | token {off : Nat} {skip w rest : List Chr} {t : Token} {l : List (Token × Bytes × Nat)} : Blank u (w ++ rest) skip → NextLexeme u (w ++ rest) t w rest → t ≠ Tk.comment →
      LexPos u (off + (bytesOf skip).length + (bytesOf w).length) rest l → LexPos u off (skip ++ (w ++ rest)) ((t, bytesOf w, off + (bytesOf skip).length) :: l)

theorem Scanner.Toks.lexPos {u : Unicode} (ha : AsciiTables u) {l : List (Token × Bytes × Nat)} {s s' : Scanner} {cs : List Chr} (h : s.At cs) (ht : s.tok ≠ Tk.eof) (hn : s.nextToken u = .done s')
    (hl : Toks u s' l []) (he : s'.errs = s.errs) : LexPos u s.offset cs l := by
  induction l generalizing s s' cs with
  | nil =>
    obtain ⟨s1, skip, w, rest, hs1, rfl, hsc⟩ := nextToken_scans u h ht
    rw [hn] at hs1
    injection hs1 with hs1
    subst hs1
    have heof : s'.tok = Tk.eof := by cases hl; assumption
    rcases hsc.kind with ⟨rfl, rfl, _⟩ | ⟨_, hne, _⟩
    · rcases hsc.lexical ha with ⟨h1, _⟩ | ⟨_, _, hb, _⟩
      · exact absurd he h1
      · rw [List.append_nil, List.append_nil]
        exact .nil hb
    · exact absurd heof hne
  | cons x l ih =>
    obtain ⟨s1, skip, w, rest, hs1, rfl, hsc⟩ := nextToken_scans u h ht
    rw [hn] at hs1
    injection hs1 with hs1
    subst hs1
    generalize hes : ([] : List PosErr) = es at hl
    cases hl with
    | @tok _ s2 x _ e1 e2 _ hne hlit hn2 herr htoks =>
      obtain ⟨h1, h2⟩ := List.append_eq_nil_iff.1 hes.symm
      subst h1
      subst h2
      rcases hsc.kind with ⟨_, _, heof⟩ | ⟨hw, _, hcom⟩
      · exact absurd heof hne
      · rcases hsc.lexical ha with ⟨h1, _⟩ | ⟨_, hx, hb, _⟩
        · exact absurd he h1
        · rcases hx with hx | hx
          · exact absurd hx hw
          have hlit2 := hsc.text h
          rw [hlit] at hlit2
          injection hlit2 with hlit2
          subst hlit2
          have := ih hsc.at_ hne hn2 htoks (by rw [herr, List.append_nil])
          rw [hsc.off, hsc.pos] at this
          rw [hsc.pos]
          exact .token hb hx hcom this

/-- Without errors of the scanner, the tokens of a source have their positions. -/
theorem scan_lexPos {u : Unicode} (ha : AsciiTables u) {src : Bytes} {toks : List TokenAt} {sf : Scanner} (h : scanAll u (src.length + 2) (Scanner.init src) = .done (toks, sf)) (he : sf.errs = []) :
    LexPos u (Scanner.init src).offset (sourceText src) ((code toks).map fun t => (t.tok, t.text, t.from_)) := by
  have hat := (Scanner.init_at src).1
  have ht : (Scanner.init src).tok ≠ Tk.eof := by rw [Scanner.init_tok]; decide
  obtain ⟨s, l, es, h1, h2, h3, h4, _⟩ := Scanner.nextToken_toks u hat ht
  obtain ⟨hl, hK⟩ := Scanner.scanAll_toks ⟨_, hat⟩ h1 h2 h
  rw [he] at hK
  obtain ⟨e1, e2⟩ := List.append_eq_nil_iff.1 hK.symm
  subst e2
  rw [e1] at h4
  rw [← hl]
  exact Scanner.Toks.lexPos ha hat ht h1 h2 (by rw [e1, List.prefix_nil.1 h4])

theorem NextLexeme.swap {u : Unicode} {t : Token} {w a r v : List Chr} {c : Chr} (h : NextLexeme u (w ++ (a ++ r)) t w (a ++ r)) (hc : c.1 = 0x0a) : NextLexeme u (w ++ (a ++ c :: v)) t w (a ++ c :: v) := by
  cases a with
  | nil => exact h.gap (.inl (by unfold White; omega)) (fun _ => hc) (fun _ => by omega)
  | cons d a => exact h.local

theorem Blank.swap {u : Unicode} {a r v skip : List Chr} {c : Chr} (h : Blank u (a ++ r) skip) (hc : c.1 = 0x0a) : Blank u (a ++ c :: v) skip := by
  induction h with
  | nil => exact .nil
  | white hw _ ih => exact .white hw ih
  | @comment w skip hx _ ih =>
    refine .comment ?_ ih
    rw [← List.append_assoc skip]
    refine NextLexeme.swap (r := r) ?_ hc
    rw [List.append_assoc skip]
    exact hx

theorem Blank.lex {u : Unicode} {rest skip : List Chr} {l : List Lx} (h : Blank u rest skip) (hl : Lex u rest l) : Lex u (skip ++ rest) l := by
  induction h with
  | nil => exact hl
  | white hw _ ih => exact .white hw ih
  | comment hx _ ih =>
    rw [List.append_assoc]
    exact .comment hx ih

/-- A text can be cut before each of its tokens, and at its end; what is before the cut, and a newline, gives the tokens before it. -/
theorem LexPos.cut {u : Unicode} {off : Nat} {cs : List Chr} {l : List (Token × Bytes × Nat)} (h : LexPos u off cs l) {pre post : List (Token × Bytes × Nat)} (hl : l = pre ++ post) :
    ∃ x y, cs = x ++ y ∧ (post = [] → y = []) ∧ (∀ t r, post = t :: r → t.2.2 = off + (bytesOf x).length ∧ ∃ v r, y = v ++ r ∧ t.2.1 = bytesOf v) ∧
      ∀ (c : Chr) v lv, c.1 = 0x0a → Lex u (c :: v) lv → Lex u (x ++ c :: v) (pre.map plain ++ lv) := by
  induction h generalizing pre with
  | @nil off cs hb =>
    obtain ⟨rfl, rfl⟩ := List.append_eq_nil_iff.1 hl.symm
    refine ⟨cs, [], by simp, fun _ => rfl, fun _ _ h => (by cases h), fun c v lv hc hlv => ?_⟩
    exact Blank.lex (Blank.swap (a := []) (r := []) hb hc) hlv
  | @token off skip w rest t l hb hx ht _ ih =>
    cases pre with
    | nil =>
      refine ⟨skip, w ++ rest, rfl, fun h => (by rw [h] at hl; cases hl), fun t' r he => ?_, fun c v lv hc hlv => Blank.lex (Blank.swap (a := []) (r := w ++ rest) hb hc) hlv⟩
      rw [he] at hl
      injection hl with hl
      rw [← hl]
      exact ⟨rfl, w, rest, rfl, rfl⟩
    | cons b pre =>
      injection hl with h1 h2
      obtain ⟨x, y, rfl, hy, hp, hlex⟩ := ih h2
      refine ⟨skip ++ (w ++ x), y, by simp, hy, fun t' r he => ?_, fun c v lv hc hlv => ?_⟩
      · obtain ⟨h3, h4⟩ := hp t' r he
        refine ⟨?_, h4⟩
        rw [h3, bytesOf_append, bytesOf_append, List.length_append, List.length_append]
        omega
      · have h3 : NextLexeme u (w ++ (x ++ c :: v)) t w (x ++ c :: v) := NextLexeme.swap hx hc
        have h4 : Blank u (w ++ (x ++ c :: v)) skip := by
          rw [← List.append_assoc w]
          refine Blank.swap (r := y) ?_ hc
          rw [List.append_assoc]
          exact hb
        have := Blank.lex h4 (.token h3 ht (hlex c v lv hc hlv))
        rw [← h1]
        simpa [plain] using this

/-! ## Samples -/

/-- ASCII characters. -/
def ascii (w : Bytes) : List Chr := w.map fun b => (b.toNat, [b])

theorem bytesOf_ascii (w : Bytes) : bytesOf (ascii w) = w := by
  induction w with
  | nil => rfl
  | cons b w ih => rw [ascii, List.map_cons, bytesOf_cons]; exact congrArg (b :: ·) ih

theorem sampled_mem : ∀ t : Token, Sampled t → (t, sample t) ∈ samples := by decide +kernel

theorem sampled_comment {t : Token} (h : Sampled t) : t ≠ Tk.comment := by
  intro he
  rw [he] at h
  exact absurd h (by decide)

theorem samples_ascii : ∀ p ∈ samples, ∀ b ∈ p.2, b.toNat < 0x80 ∧ b ≠ 0 := by decide +kernel

theorem samples_lexeme (u : Unicode) : ∀ p ∈ samples, Lexeme u p.1 (ascii p.2) := by
  intro p hp
  unfold samples at hp
  rcases List.mem_append.1 hp with hp | hp
  · rcases List.mem_append.1 hp with hp | hp
    · simp only [List.mem_cons, List.not_mem_nil, or_false] at hp
      rcases hp with rfl | rfl | rfl | rfl
      · refine .word (c := (0x61, [0x61])) (w := []) (.inr (.inl (by decide))) (fun _ h => nomatch h) (.inr ⟨rfl, ?_⟩)
        rintro t ⟨s, hs, he⟩
        have : ∀ p ∈ reserved, wordBytes p.1 ≠ [0x61] := by decide +kernel
        exact this _ hs he.symm
      · exact .int (sign := []) (ds := [0x31]) (.inl rfl) (by decide) (by decide) rfl
      · exact .float (sign := []) (ds := [0x31]) (f := [0x2e, 0x35]) (e := []) (.inl rfl) (by decide) (by decide) (.inr ⟨[0x35], by decide, rfl⟩) (.inl rfl) (by decide) rfl
      · exact .string (q := 0x22) (body := []) (.inl rfl) .nil rfl
    · obtain ⟨q, hq, rfl⟩ := List.mem_map.1 hp
      have : ∀ q ∈ operators, runesOf (ascii (q.1.map fun r => BitVec.ofNat 8 r)) = q.1 := by decide +kernel
      refine .operator ?_
      dsimp only
      rw [this q hq]
      exact hq
  · obtain ⟨q, hq, rfl⟩ := List.mem_map.1 hp
    have key : ∀ q ∈ reserved, (wordBytes q.1 ≠ []) ∧ ∀ b ∈ wordBytes q.1, (0x61 ≤ b.toNat ∧ b.toNat ≤ 0x7a) ∨ b.toNat = 0x5f := by decide +kernel
    obtain ⟨hne, hall⟩ := key q hq
    have hstart : ∀ b ∈ wordBytes q.1, IdentStart u b.toNat := by
      intro b hb
      rcases hall b hb with h | h
      · exact .inr (.inl h)
      · exact .inr (.inr (.inl h))
    have hres : Reserved (bytesOf (ascii (wordBytes q.1))) q.2 := ⟨q.1, hq, bytesOf_ascii _⟩
    dsimp only
    cases hw : wordBytes q.1 with
    | nil => exact absurd hw hne
    | cons b v =>
      rw [hw] at hstart hres
      refine .word (c := (b.toNat, [b])) (w := ascii v) (hstart b List.mem_cons_self) (fun d hd => ?_) (.inl hres)
      obtain ⟨b', hb', rfl⟩ := List.mem_map.1 hd
      exact .inl (hstart b' (List.mem_cons_of_mem _ hb'))

/-- The text of a word: each of its tokens and a space. -/
def spaced (w : List Lx) : Bytes := w.flatMap fun z => z.2 ++ [0x20]

theorem spaced_lex (u : Unicode) {w : List Lx} (h : StdW w) : Lex u (ascii (spaced w)) w := by
  induction w with
  | nil => exact .nil
  | cons z w ih =>
    obtain ⟨hs, he⟩ := h z List.mem_cons_self
    have hL : Lexeme u z.1 (ascii z.2) := by
      rw [he]
      exact samples_lexeme u _ (sampled_mem _ hs)
    have h0 : NextLexeme u (ascii z.2 ++ []) z.1 (ascii z.2) [] := by
      refine ⟨rfl, hL, fun t' w' rest' he _ => ?_, ?_⟩
      · have := congrArg List.length he
        rw [List.append_nil, List.length_append] at this
        omega
      · rintro ⟨_, _, _, he, _⟩
        cases he
    have h1 : NextLexeme u (ascii z.2 ++ (0x20, [0x20]) :: ascii (spaced w)) z.1 (ascii z.2) ((0x20, [0x20]) :: ascii (spaced w)) := by
      refine h0.gap (.inl (.inl rfl)) (fun hc => ?_) (fun _ => by decide)
      exact absurd (hL.unique hc.lexeme) (sampled_comment hs)
    have h2 := Lex.token h1 (sampled_comment hs) (Lex.white (.inl rfl) (ih fun y hy => h y (List.mem_cons_of_mem _ hy)))
    rw [bytesOf_ascii] at h2
    have h3 : ascii (spaced (z :: w)) = ascii z.2 ++ (0x20, [0x20]) :: ascii (spaced w) := by
      unfold spaced ascii
      rw [List.flatMap_cons, List.map_append, List.map_append, List.append_assoc]
      rfl
    rw [h3]
    exact h2

theorem spaced_ascii {w : List Lx} (h : StdW w) : ∀ b ∈ spaced w, b.toNat < 0x80 ∧ b ≠ 0 := by
  intro b hb
  obtain ⟨z, hz, hb⟩ := List.mem_flatMap.1 hb
  rcases List.mem_append.1 hb with hb | hb
  · obtain ⟨hs, he⟩ := h z hz
    rw [he] at hb
    exact samples_ascii _ (sampled_mem _ hs) b hb
  · rw [List.mem_singleton.1 hb]
    decide

theorem ascii_utf8 {b : Byte} (h : b.toNat < 0x80) : Scalar b.toNat ∧ [b] = utf8 b.toNat := by
  have hs : Scalar b.toNat := .inl (by omega)
  refine ⟨hs, ?_⟩
  have : ∀ b : Byte, b.toNat < 0x80 → [b] = utf8 b.toNat := by decide +kernel
  exact this b h

theorem chars_ascii {w : Bytes} (h : ∀ b ∈ w, b.toNat < 0x80) : chars w = ascii w := by
  have := chars_append (x := ascii w) (fun c hc => by
    obtain ⟨b, hb, rfl⟩ := List.mem_map.1 hc
    exact ascii_utf8 (h b hb)) []
  rw [bytesOf_ascii, List.append_nil] at this
  rw [this]
  exact List.append_nil _

theorem ascii_ok {w : Bytes} (h : ∀ b ∈ w, b.toNat < 0x80 ∧ b ≠ 0) : ∀ c ∈ ascii w, c.Ok := by
  intro c hc
  obtain ⟨b, hb, rfl⟩ := List.mem_map.1 hc
  obtain ⟨h1, h2⟩ := h b hb
  refine ⟨fun he => h2 (BitVec.eq_of_toNat_eq he), ?_, ?_⟩ <;> dsimp only
  · rintro ⟨he, _⟩; omega
  · omega

/-! ## The text of a source that is cut and continued -/

theorem sourceText_cut {src : Bytes} {x y : List Chr} (hs : sourceText src = x ++ y) (hok : ∀ c ∈ sourceText src, c.Ok) {more : Bytes} (hm : ∀ b ∈ more, b.toNat < 0x80 ∧ b ≠ 0) (hne : more ≠ []) :
    sourceText (src.take ((Scanner.init src).offset + (bytesOf x).length) ++ more) = x ++ ascii more := by
  have hat := (Scanner.init_at src).1
  have hb := bytesOf_chars (src.drop (Scanner.init src).offset)
  have hrest := hat.rest
  rw [Scanner.init_src] at hrest
  rw [hrest, hs, bytesOf_append] at hb
  have htake : src.take ((Scanner.init src).offset + (bytesOf x).length) = src.take (Scanner.init src).offset ++ bytesOf x := by
    rw [List.take_add, ← hb, List.take_left]
  have hx : ∀ c ∈ x, Scalar c.1 ∧ c.2 = utf8 c.1 := by
    intro c hc
    have hmem : c ∈ sourceText src := by rw [hs]; exact List.mem_append_left _ hc
    exact ok_utf8 (src := src.drop (Scanner.init src).offset) (by rw [hrest]; exact hmem) (hok c hmem)
  have hchars : chars (bytesOf x ++ more) = x ++ ascii more := by rw [chars_append hx, chars_ascii fun b hb => (hm b hb).1]
  rw [htake, List.append_assoc]
  rcases Scanner.init_offset src with h0 | ⟨h3, h4⟩
  · rw [h0, List.take_zero, List.nil_append]
    unfold sourceText
    rw [hchars]
    cases x with
    | nil =>
      cases more with
      | nil => exact absurd rfl hne
      | cons b more =>
        show (if b.toNat = 0xfeff then _ else _) = _
        rw [if_neg (by have := (hm b List.mem_cons_self).1; omega)]
        rfl
    | cons c x =>
      show (if c.1 = 0xfeff then _ else _) = _
      rw [if_neg (hok c (by rw [hs]; exact List.mem_cons_self)).2.2]
      rfl
  · rw [h3, h4]
    unfold sourceText
    rw [show ([0xef, 0xbb, 0xbf] : Bytes) = utf8 0xfeff by decide +kernel, chars_utf8 (.inr ⟨by decide, by decide⟩), hchars]
    rfl

end GoThrift.Idl
