import Verif.Proof.Toks

/-!
# The lexical grammar and calls of `next` until the end
-/

namespace GoThrift.Spec

open Idl

theorem tail_ok (a rest : List Chr) (n : Nat) (hn : n = a.length) :
    (∀ c ∈ (a ++ rest).tail, Chr.Ok c) ↔ (∀ c ∈ ((a ++ rest).tail).take n, Chr.Ok c) ∧ (∀ c ∈ rest.tail, Chr.Ok c) := by
  subst hn
  have h1 := Scanner.take_tail_append a rest []
  simp only [List.append_nil] at h1
  rw [List.take_of_length_le (show (a ++ rest).tail.length ≤ (a ++ rest).length by simp), List.take_of_length_le (show rest.tail.length ≤ rest.length by simp)] at h1
  constructor
  · intro hh
    refine ⟨fun c hc => hh c (List.mem_of_mem_take hc), fun c hc => hh c ?_⟩
    rw [h1]; exact List.mem_append_right _ hc
  · rintro ⟨h3, h4⟩ c hc
    rw [h1] at hc
    rcases List.mem_append.1 hc with hc | hc
    · exact h3 c hc
    · exact h4 c hc

end GoThrift.Spec

namespace GoThrift.Idl.Scanner

open Spec

theorem scanAll_lex (u : Unicode) (ha : AsciiTables u) {n : Nat} {s : Scanner} {cs : List Chr} (h : s.At cs) (hn : cs.length < n) (ht : s.tok ≠ Tk.eof) :
    ∃ l s', scanAll u n s = .done (l, s') ∧ s.errs <+: s'.errs ∧ (s'.errs = s.errs → Lex u cs (lexemes l) ∧ ∀ c ∈ cs.tail, Chr.Ok c) ∧
      ∀ lx, Lex u cs lx → lx = lexemes l ∧ ((∀ c ∈ cs.tail, Chr.Ok c) → s'.errs = s.errs) := by
  induction n generalizing s cs with
  | zero => omega
  | succ n ih =>
    obtain ⟨s1, skip, w, rest, hs1, rfl, hsc⟩ := next_scans u h
    rw [scanAll, hs1, Out.bind_done, hsc.text h, Out.bind_done]
    rcases hsc.kind with ⟨rfl, rfl, heof⟩ | ⟨hw, hne⟩
    · rw [if_pos heof]
      refine ⟨_, _, rfl, hsc.pre, ?_⟩
      have hnil : lexemes [⟨s1.tok, s1.pos, s1.offset, bytesOf []⟩] = [] := by
        unfold lexemes
        rw [List.filter_cons_of_neg (by simp [heof])]
        rfl
      rw [hnil]
      rcases hsc.lexical ha with ⟨hl, hno⟩ | ⟨hwhite, _, hq⟩
      · exact ⟨fun he => absurd he hl, fun lx hx => absurd hx (hno lx)⟩
      · simp only [List.append_nil] at hq ⊢
        rw [List.take_of_length_le (by simp)] at hq
        have hlex : ∀ l, Lex u skip l ↔ l = [] := fun l => by
          have := Lex.ofWhite (u := u) (cs := []) (l := l) hwhite
          rw [List.append_nil] at this
          rw [this, Lex.ofNil]
        exact ⟨fun he => ⟨(hlex _).2 rfl, hq.1 he⟩, fun lx hx => ⟨(hlex _).1 hx, hq.2⟩⟩
    · rw [if_neg (hne ht)]
      have hrest : rest.length < n := by
        simp only [List.length_append] at hn
        have : w.length ≠ 0 := fun h0 => hw (List.eq_nil_of_length_eq_zero h0)
        omega
      obtain ⟨l, s', hs', hpre', hA, hB⟩ := ih hsc.at_ hrest (hne ht)
      rw [hs', Out.bind_done]
      refine ⟨_, _, rfl, hsc.pre.trans hpre', ?_⟩
      dsimp only
      rw [prefix_eq_both hsc.pre hpre']
      rcases hsc.lexical ha with ⟨hl, hno⟩ | ⟨hwhite, hx, hq⟩
      · exact ⟨fun he => absurd he.1 hl, fun lx hx => absurd hx (hno lx)⟩
      rcases hx with hx | hx
      · exact absurd hx hw
      have htail : (∀ c ∈ (skip ++ (w ++ rest)).tail, Chr.Ok c) ↔ (∀ c ∈ ((skip ++ (w ++ rest)).tail).take (skip ++ w).length, Chr.Ok c) ∧ (∀ c ∈ rest.tail, Chr.Ok c) := by
        have := tail_ok (skip ++ w) rest _ rfl
        rw [List.append_assoc] at this
        exact this
      rw [htail]
      have hlex : ∀ lx, Lex u (skip ++ (w ++ rest)) lx ↔ ∃ l', lx = lexemes [⟨s1.tok, s1.pos, s1.offset, bytesOf w⟩] ++ l' ∧ Lex u rest l' := by
        intro lx
        rw [Lex.ofWhite hwhite]
        by_cases hcom : s1.tok = Tk.comment
        · have : lexemes [⟨s1.tok, s1.pos, s1.offset, bytesOf w⟩] = [] := by
            unfold lexemes
            rw [List.filter_cons_of_neg (by simp [hcom])]
            rfl
          rw [this]
          rw [hcom] at hx
          rw [Lex.ofComment hx]
          simp
        · have : lexemes [⟨s1.tok, s1.pos, s1.offset, bytesOf w⟩] = [(s1.tok, bytesOf w)] := by
            unfold lexemes
            rw [List.filter_cons_of_pos (by simp [hcom, hne ht])]
            rfl
          rw [this, Lex.ofToken hx hcom]
          simp
      have hcons : lexemes (⟨s1.tok, s1.pos, s1.offset, bytesOf w⟩ :: l) = lexemes [⟨s1.tok, s1.pos, s1.offset, bytesOf w⟩] ++ lexemes l := by
        unfold lexemes
        rw [← List.map_append, ← List.filter_append]
        rfl
      rw [hcons]
      constructor
      · rintro ⟨he, he'⟩
        obtain ⟨h1, h2⟩ := hA he'
        exact ⟨(hlex _).2 ⟨_, rfl, h1⟩, hq.1 he, h2⟩
      · intro lx hlx
        obtain ⟨l', rfl, hl'⟩ := (hlex _).1 hlx
        obtain ⟨h1, h2⟩ := hB l' hl'
        exact ⟨by rw [h1], fun hok => ⟨hq.2 hok.1, h2 hok.2⟩⟩

end GoThrift.Idl.Scanner

namespace GoThrift.Utf8

/-- The encoding of the byte order mark. -/
theorem decodeRune_bom {src : Bytes} (h : (decodeRune src).1 = 0xfeff) : (decodeRune src).2 = 3 ∧ src.take 3 = [0xef, 0xbb, 0xbf] := by
  have ofNat {b : Byte} {n : Nat} (h : b.toNat = n) (h' : n < 256) : b = BitVec.ofNat 8 n := BitVec.eq_of_toNat_eq (by rw [h, BitVec.toNat_ofNat]; omega)
  suffices ∃ q, src = 0xef :: 0xbb :: 0xbf :: q by
    obtain ⟨q, rfl⟩ := this
    exact ⟨rfl, rfl⟩
  unfold decodeRune at h
  split at h
  · simp [runeError] at h
  · rename_i b0 p
    dsimp only at h
    have hb0 := b0.isLt
    split at h
    · simp only at h; omega
    split at h
    · simp [runeError] at h
    split at h
    · split at h
      · rename_i b1 _
        split at h
        · simp only at h; omega
        · simp [runeError] at h
      · simp [runeError] at h
    split at h
    · split at h
      · rename_i h1 h2 h3 h4 b1 b2 q
        generalize hlo : (if b0.toNat = 0xe0 then 0xa0 else 0x80) = lo at h
        generalize hhi : (if b0.toNat = 0xed then 0x9f else 0xbf) = hi at h
        have hlo' : 0x80 ≤ lo := by rw [← hlo]; split <;> omega
        have hhi' : hi ≤ 0xbf := by rw [← hhi]; split <;> omega
        clear hlo hhi
        split at h
        · rename_i hr
          simp only [inRange, Bool.and_eq_true, decide_eq_true_eq] at hr
          dsimp only at h
          have e0 : b0.toNat = 0xef := by omega
          have e1 : b1.toNat = 0xbb := by omega
          have e2 : b2.toNat = 0xbf := by omega
          rw [ofNat e0 (by omega), ofNat e1 (by omega), ofNat e2 (by omega)]
          exact ⟨q, rfl⟩
        · simp [runeError] at h
      · simp [runeError] at h
    split at h
    · split at h
      · rename_i h1 h2 h3 h4 h5 b1 b2 b3 q
        generalize hlo : (if b0.toNat = 0xf0 then 0x90 else 0x80) = lo at h
        generalize hhi : (if b0.toNat = 0xf4 then 0x8f else 0xbf) = hi at h
        have hlo' : b0.toNat = 0xf0 → 0x90 ≤ lo := by intro h; rw [← hlo, if_pos h]; omega
        have hhi' : hi ≤ 0xbf := by rw [← hhi]; split <;> omega
        clear hlo hhi
        split at h
        · rename_i hr
          simp only [inRange, Bool.and_eq_true, decide_eq_true_eq] at hr
          dsimp only at h
          omega
        · simp [runeError] at h
      · simp [runeError] at h
    · simp [runeError] at h

end GoThrift.Utf8

namespace GoThrift.Idl.Scanner

open Spec

/-- Where the text begins: behind a byte order mark. -/
theorem init_offset (src : Bytes) : (init src).offset = 0 ∨ ((init src).offset = 3 ∧ src.take 3 = [0xef, 0xbb, 0xbf]) := by
  have hat := blank_at src
  have hoff : (blank src).nextch.offset = 0 := nextch_offset _ (Nat.zero_le _)
  rw [init_eq]
  generalize hcs : chars src = cs at hat
  cases cs with
  | nil =>
    have hch : (blank src).nextch.ch = -1 := hat.ch
    rw [if_neg (by rw [hch]; decide)]
    exact .inl hoff
  | cons c cs =>
    have hch : (blank src).nextch.ch = (c.1 : Int) := hat.ch
    by_cases hb : c.1 = 0xfeff
    · rw [if_pos (by rw [hch]; omega)]
      have hne : src ≠ [] := by intro h; rw [h, chars_nil] at hcs; cases hcs
      rw [chars_of_ne _ hne] at hcs
      obtain ⟨h1, _⟩ := List.cons.inj hcs
      have h2 : (Utf8.decodeRune src).1 = 0xfeff := by rw [← hb, ← h1]
      obtain ⟨h3, h4⟩ := Utf8.decodeRune_bom h2
      have hmove := (Reads.nextch hat).off
      refine .inr ⟨?_, h4⟩
      rw [hmove, hoff, ← h1, h3, h4]
      rfl
    · rw [if_neg (by rw [hch]; omega)]
      exact .inl hoff

end GoThrift.Idl.Scanner
