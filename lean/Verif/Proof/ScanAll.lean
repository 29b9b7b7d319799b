import Verif.Proof.Lines

/-!
# Scanning a whole source
-/

namespace GoThrift.Idl

open Spec

/-- The characters of a text are encoded runes. -/
theorem mem_chars_ascii {src : Bytes} {c : Chr} (h : c ∈ chars src) (hc : c.1 < 0x80) : ∃ b : Byte, c.2 = [b] ∧ b.toNat = c.1 := by
  suffices ∀ n src, c ∈ charsUpTo n src → ∃ b : Byte, c.2 = [b] ∧ b.toNat = c.1 from this _ _ h
  intro n
  induction n with
  | zero => intro src h; cases h
  | succ n ih =>
    intro src h
    rw [charsUpTo_step] at h
    by_cases hs : src = []
    · rw [if_pos hs] at h; cases h
    · rw [if_neg hs] at h
      rcases List.mem_cons.1 h with h | h
      · cases src with
        | nil => exact absurd rfl hs
        | cons b p =>
          by_cases hb : b.toNat < 0x80
          · rw [Utf8.decodeRune_ascii b p hb] at h
            exact ⟨b, by rw [h]; rfl, by rw [h]⟩
          · have := Utf8.decodeRune_ge b p hb
            rw [h] at hc
            dsimp only at hc
            omega
      · exact ih _ h

/-- A byte of white space. -/
def WhiteByte (b : Byte) : Prop := b = 0x20 ∨ b = 0x09 ∨ b = 0x0a ∨ b = 0x0d

theorem bytes_white {src : Bytes} {w cs : List Chr} (h : chars src = w ++ cs) (hw : ∀ c ∈ w, White c.1) : ∀ b ∈ bytesOf w, WhiteByte b := by
  intro b hb
  obtain ⟨c, hc, hbc⟩ := List.mem_flatMap.1 hb
  have hwc := hw c hc
  unfold White at hwc
  obtain ⟨b', hb', hn⟩ := mem_chars_ascii (src := src) (c := c) (by rw [h]; exact List.mem_append_left _ hc) (by omega)
  rw [hb', List.mem_singleton] at hbc
  subst hbc
  unfold WhiteByte
  have : ∀ n : Nat, n < 256 → c.1 = n → b = BitVec.ofNat 8 n := fun n hn' h => BitVec.eq_of_toNat_eq (by rw [hn, h, BitVec.toNat_ofNat, Nat.mod_eq_of_lt hn'])
  rcases hwc with h | h | h | h
  · exact .inl (this _ (by decide) h)
  · exact .inr (.inl (this _ (by decide) h))
  · exact .inr (.inr (.inl (this _ (by decide) h)))
  · exact .inr (.inr (.inr (this _ (by decide) h)))

namespace Scanner

theorem Scans.lit {u : Unicode} {s s' : Scanner} {skip w rest : List Chr} (h : Scans u s skip w rest s') : s'.lit = .done ((s'.src.drop s'.pos).take (s'.offset - s'.pos)) := by
  rw [Scanner.lit, if_pos ⟨by rw [h.off]; omega, h.at_.le⟩]

/-- The text of the token. -/
theorem Scans.text {u : Unicode} {s s' : Scanner} {skip w rest : List Chr} (hs : s.At (skip ++ (w ++ rest))) (h : Scans u s skip w rest s') : s'.lit = .done (bytesOf w) := by
  rw [h.lit, h.src, show s'.offset - s'.pos = (bytesOf w).length by rw [h.off]; omega, h.pos]
  have hb := bytesOf_chars (s.src.drop s.offset)
  rw [hs.rest, bytesOf_append, bytesOf_append] at hb
  rw [← List.drop_drop, ← hb, List.drop_left, List.take_left]

theorem scanAll_tiles (u : Unicode) {n : Nat} {s : Scanner} {cs : List Chr} (h : s.At cs) (hl : Lined s) (hn : cs.length < n) (ht : s.tok ≠ Tk.eof) :
    ∃ front s', scanAll u n s = .done (front ++ [⟨Tk.eof, s.src.length, s.src.length, []⟩], s') ∧
      (∀ t ∈ front, t.tok ≠ Tk.eof ∧ s.offset ≤ t.from_ ∧ t.from_ < t.to ∧ t.to ≤ s.src.length ∧ t.text = (s.src.drop t.from_).take (t.to - t.from_)) ∧
      front.Pairwise (fun a b => a.to ≤ b.from_) ∧ Lined s' ∧ s'.src = s.src ∧ s'.offset = s.src.length ∧ s.errs <+: s'.errs ∧
      (AsciiTables u → s'.errs = s.errs → ∀ i b, s.offset ≤ i → s.src[i]? = some b → (∃ t ∈ front, t.from_ ≤ i ∧ i < t.to) ∨ WhiteByte b) := by
  induction n generalizing s cs with
  | zero => omega
  | succ n ih =>
    obtain ⟨s1, skip, w, rest, hs1, rfl, hsc⟩ := next_scans u h
    have hl1 := lined_invariant.next u hl hs1
    rw [scanAll, hs1, Out.bind_done, hsc.lit, Out.bind_done]
    have htext : ((s.src.drop s.offset).take (bytesOf skip).length) = bytesOf skip := At.text h
    have gap : AsciiTables u → s1.errs = s.errs → ∀ i b, s.offset ≤ i → i < s1.pos → s.src[i]? = some b → WhiteByte b := by
      intro ha he i b h1 h2 hb
      rcases hsc.lexical ha with hx | ⟨hw, _⟩
      · exact absurd he hx.1
      · refine bytes_white (w := skip) h.rest hw b ?_
        rw [hsc.pos] at h2
        rw [← htext]
        refine List.mem_of_getElem? (i := i - s.offset) ?_
        rw [List.getElem?_take, if_pos (by omega), List.getElem?_drop, show s.offset + (i - s.offset) = i by omega, hb]
    rcases hsc.kind with ⟨rfl, rfl, heof⟩ | ⟨hw, hne⟩
    · rw [if_pos heof]
      have ho : s1.offset = s.src.length := by rw [← hsc.src]; exact hsc.at_.offset_eof
      have hp : s1.pos = s.src.length := by rw [← ho, hsc.off]; simp [bytesOf]
      refine ⟨[], s1, ?_, by simp, by simp, hl1, hsc.src, ho, hsc.pre, ?_⟩
      · rw [heof, ho, hp]; simp
      · intro ha he i b h1 hb
        refine .inr (gap ha he i b h1 ?_ hb)
        rw [hp]
        exact (List.getElem?_eq_some_iff.1 hb).1
    · rw [if_neg (hne ht)]
      have hwlen : 0 < (bytesOf w).length := by
        cases w with
        | nil => exact absurd rfl hw
        | cons c w =>
          have hmem : c ∈ chars (s.src.drop s.offset) := by rw [h.rest]; simp
          have : 1 ≤ c.2.length := by
            suffices ∀ n src, c ∈ charsUpTo n src → 1 ≤ c.2.length from this _ _ hmem
            intro n
            induction n with
            | zero => intro src h; cases h
            | succ n ih =>
              intro src h
              rw [charsUpTo_step] at h
              by_cases hs : src = []
              · rw [if_pos hs] at h; cases h
              · rw [if_neg hs] at h
                rcases List.mem_cons.1 h with h | h
                · have h1 := Utf8.decodeRune_width_pos src hs
                  have h2 := Utf8.decodeRune_width_le src
                  rw [h]; simp only [List.length_take]; omega
                · exact ih _ h
          rw [bytesOf_cons, List.length_append]; omega
      have hrest : rest.length < n := by
        simp only [List.length_append] at hn
        have : w.length ≠ 0 := fun h0 => hw (List.eq_nil_of_length_eq_zero h0)
        omega
      obtain ⟨front, s', hs', hfront, hpair, hl', hsrc', hoff', hpre', hgap'⟩ := ih hsc.at_ hl1 hrest (hne ht)
      rw [hs', Out.bind_done]
      refine ⟨⟨s1.tok, s1.pos, s1.offset, (s1.src.drop s1.pos).take (s1.offset - s1.pos)⟩ :: front, s', by rw [hsc.src]; rfl, ?_, ?_, hl', by rw [hsrc', hsc.src], by rw [hoff', hsc.src], hsc.pre.trans hpre', ?_⟩
      · intro t htm
        rcases List.mem_cons.1 htm with rfl | htm
        · refine ⟨hne ht, ?_, ?_, ?_, ?_⟩ <;> dsimp only
          · rw [hsc.pos]; omega
          · rw [hsc.off]; omega
          · rw [← hsc.src]; exact hsc.at_.le
          · rw [hsc.src]
        · obtain ⟨h1, h2, h3, h4, h5⟩ := hfront t htm
          rw [hsc.src] at h4 h5
          refine ⟨h1, ?_, h3, h4, h5⟩
          have h6 := hsc.off
          have h7 := hsc.pos
          omega
      · refine List.Pairwise.cons ?_ hpair
        intro t htm
        exact (hfront t htm).2.1
      · intro ha he i b h1 hb
        obtain ⟨e1, e2⟩ := (prefix_eq_both hsc.pre hpre').1 he
        by_cases hi : i < s1.pos
        · exact .inr (gap ha e1 i b h1 hi hb)
        · by_cases hi2 : i < s1.offset
          · exact .inl ⟨_, List.mem_cons_self, by dsimp only; omega, hi2⟩
          · rcases hgap' ha e2 i b (by omega) (by rw [hsc.src]; exact hb) with ⟨t, htm, h3⟩ | hw
            · exact .inl ⟨t, List.mem_cons_of_mem _ htm, h3⟩
            · exact .inr hw

end Scanner

end GoThrift.Idl
