import Verif.Proof.Scanner
import Verif.Proof.Lexeme

/-!
# The scanner finds the lexemes
-/

namespace GoThrift.Idl

open Spec

/-! ## Runes -/

theorem lower_cast (r : Nat) : lower (r : Int) = ((r ||| 32 : Nat) : Int) := by
  rw [lower, if_neg (by omega)]
  rfl

theorem or32_range (lo hi : Nat) (hhi : hi < 128) (h : ∀ r < 128, (lo ≤ r ||| 32 ∧ r ||| 32 ≤ hi) ↔ (lo ≤ r ∧ r ≤ hi) ∨ (lo - 32 ≤ r ∧ r ≤ hi - 32)) (h2 : 32 ≤ lo) (r : Nat) :
    (lo ≤ r ||| 32 ∧ r ||| 32 ≤ hi) ↔ (lo ≤ r ∧ r ≤ hi) ∨ (lo - 32 ≤ r ∧ r ≤ hi - 32) := by
  by_cases hr : r < 128
  · exact h r hr
  · have : r ≤ r ||| 32 := Nat.left_le_or
    omega

theorem isLetter_iff (r : Nat) : isLetter (r : Int) = true ↔ (0x41 ≤ r ∧ r ≤ 0x5a) ∨ (0x61 ≤ r ∧ r ≤ 0x7a) ∨ r = 0x5f := by
  have h := or32_range 97 122 (by decide) (by decide +kernel) (by decide) r
  simp only [isLetter, lower_cast, Bool.or_eq_true, decide_eq_true_eq]
  omega

theorem isDecimal_iff (r : Nat) : isDecimal (r : Int) = true ↔ Digit r := by
  simp only [isDecimal, decide_eq_true_eq, Digit]
  omega

theorem isHex_iff (r : Nat) : isHex (r : Int) = true ↔ HexDigit r := by
  have h := or32_range 97 102 (by decide) (by decide +kernel) (by decide) r
  simp only [isHex, lower_cast, Bool.or_eq_true, isDecimal_iff, decide_eq_true_eq, HexDigit, Digit]
  omega

theorem isSpace_iff (r : Nat) : isSpace (r : Int) = true ↔ White r := by
  simp only [isSpace, Bool.or_eq_true, decide_eq_true_eq, White]
  omega

theorem lower_x (r : Nat) : lower (r : Int) = 120 ↔ r = 0x78 ∨ r = 0x58 := by
  have h := or32_range 120 120 (by decide) (by decide +kernel) (by decide) r
  rw [lower_cast]
  omega

theorem lower_e (r : Nat) : lower (r : Int) = 101 ↔ r = 0x65 ∨ r = 0x45 := by
  have h := or32_range 101 101 (by decide) (by decide +kernel) (by decide) r
  rw [lower_cast]
  omega

theorem lower_eof : lower (-1) = -1 := rfl

/-! ## Words -/

theorem reserved_keywords : reserved.map (fun p => (wordBytes p.1, p.2)) = keywords := by decide +kernel

theorem lookup_mem {α β : Type} [BEq α] [LawfulBEq α] {l : List (α × β)} {a : α} {b : β} (h : l.lookup a = some b) : (a, b) ∈ l := by
  induction l with
  | nil => cases h
  | cons p l ih =>
    obtain ⟨x, y⟩ := p
    rw [List.lookup_cons] at h
    split at h
    · rename_i he
      have : a = x := by simpa using he
      cases h
      rw [this]; exact List.mem_cons_self ..
    · exact List.mem_cons_of_mem _ (ih h)

theorem lookup_none {α β : Type} [BEq α] [LawfulBEq α] {l : List (α × β)} {a : α} (h : l.lookup a = none) (b : β) : (a, b) ∉ l := by
  induction l with
  | nil => simp
  | cons p l ih =>
    obtain ⟨x, y⟩ := p
    rw [List.lookup_cons] at h
    split at h
    · cases h
    · rename_i he
      intro hm
      rcases List.mem_cons.1 hm with hm | hm
      · cases hm
        simp at he
      · exact ih h hm

theorem mem_keywords {w : Bytes} {t : Token} : (w, t) ∈ keywords ↔ Reserved w t := by
  rw [← reserved_keywords, List.mem_map]
  constructor
  · rintro ⟨⟨s, t'⟩, hm, he⟩
    cases he
    exact ⟨s, hm, rfl⟩
  · rintro ⟨s, hm, rfl⟩
    exact ⟨(s, t), hm, rfl⟩

theorem reserved_length {w : Bytes} {t : Token} (h : Reserved w t) : 2 < w.length := by
  have key : ∀ p ∈ keywords, 2 < p.1.length := by decide +kernel
  exact key _ (mem_keywords.2 h)

namespace Scanner

/-- What a loop leaves. -/
theorem skipWhile_split {p : Int → Bool} (hp : p (-1) = false) {s : Scanner} {cs : List Chr} (h : s.At cs) :
    ∃ s' w rest, skipWhile p s.bound s = .done s' ∧ cs = w ++ rest ∧ (∀ c ∈ w, p c.1 = true) ∧ (∀ c rest', rest = c :: rest' → p c.1 = false) ∧
      Reads s w rest s' ∧ s'.tok = s.tok := by
  obtain ⟨s', hs, hr, ht⟩ := skipWhile_reads hp h h.lt_bound
  refine ⟨s', _, _, hs, (List.takeWhile_append_dropWhile (p := fun c : Chr => p c.1)).symm, ?_, ?_, hr, ht⟩
  · intro c hc
    exact List.all_eq_true.1 List.all_takeWhile c hc
  · intro c rest' he
    have := List.head?_dropWhile_not (p := fun c : Chr => p c.1) cs
    rw [he] at this
    simpa using this


/-- `ident` behind the first character of a word. -/
theorem ident_reads (u : Unicode) {s : Scanner} {c : Chr} {cs : List Chr} (h : s.At (c :: cs)) (hpos : s.pos = s.offset) :
    ∃ s' w rest, ident u s.nextch = .done s' ∧ cs = w ++ rest ∧ Reads s (c :: w) rest s' ∧ (s'.tok ≠ Tk.eof ∧ s'.tok ≠ Tk.comment) ∧
      (AsciiTables u → (∀ d ∈ w, IdentPart u d.1) ∧ (∀ d rest', rest = d :: rest' → ¬ IdentPart u d.1) ∧
        (Reserved (bytesOf (c :: w)) s'.tok ∨ (s'.tok = Tk.ident ∧ ∀ t, ¬ Reserved (bytesOf (c :: w)) t))) := by
  obtain ⟨s1, w1, rest1, hs1, rfl, hw1, hr1, hm1, _⟩ := skipWhile_split (p := fun ch => isLetter ch || isDecimal ch || decide (ch = 46)) (by decide) h.nextch
  have hm1 : Reads s (c :: w1) rest1 s1 := (Reads.nextch h).trans hm1
  unfold ident
  rw [hs1, Out.bind_done]
  have hp1 : ∀ d : Chr, ((isLetter d.1 || isDecimal d.1 || decide ((d.1 : Int) = 46)) = true ↔
      ((0x41 ≤ d.1 ∧ d.1 ≤ 0x5a) ∨ (0x61 ≤ d.1 ∧ d.1 ≤ 0x7a) ∨ d.1 = 0x5f) ∨ Digit d.1 ∨ d.1 = 46) := by
    intro d
    simp only [Bool.or_eq_true, isLetter_iff, isDecimal_iff, decide_eq_true_eq, Digit]
    omega
  have hp2 : AsciiTables u → ∀ d : Chr, atIdentRune u d.1 = true ↔ IdentPart u d.1 := by
    intro hu d
    have h0 : (0 : Int) ≤ d.1 := by omega
    have hat : atIdentRune u d.1 = true ↔ (u.isLetter d.1 = true ∨ d.1 = 95) ∨ (u.isDigit d.1 = true ∨ d.1 = 46) := by
      have h46 : ((d.1 : Int) = 46) ↔ d.1 = 46 := by omega
      have h95 : ((d.1 : Int) = 95) ↔ d.1 = 95 := by omega
      simp only [atIdentRune, uniLetter, uniDigit, h0, decide_true, Bool.true_and, Int.toNat_natCast, h46, h95]
      by_cases h1 : u.isLetter d.1 = true ∨ d.1 = 95
      · simp [h1]
      · by_cases h2 : u.isDigit d.1 = true ∨ d.1 = 46 <;> simp [h1, h2]
    rw [hat]
    unfold IdentPart IdentStart Digit
    by_cases hd : d.1 < 0x80
    · have := hu d.1 hd
      rw [this.1, this.2]
      omega
    · by_cases h1 : u.isLetter d.1 = true <;> by_cases h2 : u.isDigit d.1 = true <;> simp only [h1, h2] <;> grind
  -- the second loop
  have h2 : ∃ s2 w2 rest2, (if s1.ch ≥ 0x80 then s1.skipWhile (atIdentRune u) s1.bound else .done s1) = .done s2 ∧ rest1 = w2 ++ rest2 ∧ Reads s1 w2 rest2 s2 ∧
      (AsciiTables u → (∀ d ∈ w2, IdentPart u d.1) ∧ (∀ d rest', rest2 = d :: rest' → ¬ IdentPart u d.1)) := by
    by_cases hge : s1.ch ≥ 0x80
    · rw [if_pos hge]
      obtain ⟨s2, w2, rest2, hs2, rfl, hw2, hr2, hm2, _⟩ := skipWhile_split (p := atIdentRune u) (by simp [atIdentRune, uniLetter, uniDigit]) hm1.at_
      refine ⟨s2, w2, rest2, hs2, rfl, hm2, fun hu => ⟨fun d hd => (hp2 hu d).1 (hw2 d hd), fun d rest' he hd => ?_⟩⟩
      have := (hp2 hu d).2 hd
      rw [hr2 d rest' he] at this
      cases this
    · rw [if_neg hge]
      refine ⟨s1, [], rest1, rfl, rfl, Reads.refl hm1.at_, fun hu => ⟨fun d hd => by simp at hd, fun d rest' he hd => ?_⟩⟩
      have hch := hm1.at_.ch
      rw [he, headRune] at hch
      have := (not_congr (hp1 d)).1 (by rw [hr1 d rest' he]; simp)
      unfold IdentPart IdentStart at hd
      unfold Digit at *
      omega
  obtain ⟨s2, w2, rest2, hs2, rfl, hm2, hu2⟩ := h2
  rw [hs2, Out.bind_done]
  have hm : Reads s (c :: (w1 ++ w2)) rest2 s2 := hm1.trans hm2
  have hlit : s2.lit = .done (bytesOf (c :: (w1 ++ w2))) := by
    unfold lit
    have hp : s2.pos = s.offset := hm.pos.trans hpos
    have ho := hm.off
    rw [if_pos ⟨by omega, hm.at_.le⟩, hm.src, hp, ho, Nat.add_sub_cancel_left]
    congr 1
    refine At.text (s := s) (w := c :: (w1 ++ w2)) (cs := rest2) ?_
    simpa using h
  rw [hlit, Out.bind_done]
  have hparts : AsciiTables u → (∀ d ∈ w1 ++ w2, IdentPart u d.1) ∧ (∀ d rest', rest2 = d :: rest' → ¬ IdentPart u d.1) := by
    intro hu
    refine ⟨fun d hd => ?_, (hu2 hu).2⟩
    rcases List.mem_append.1 hd with hd | hd
    · have := (hp1 d).1 (hw1 d hd)
      unfold IdentPart IdentStart
      unfold Digit at *
      omega
    · exact (hu2 hu).1 d hd
  generalize htxt : bytesOf (c :: (w1 ++ w2)) = txt
  have hkw : ∀ p ∈ keywords, p.2 ≠ Tk.eof ∧ p.2 ≠ Tk.comment := by decide +kernel
  by_cases hl : txt.length > 2
  · rw [if_pos hl]
    cases hk : keywords.lookup txt with
    | some t =>
      refine ⟨_, w1 ++ w2, rest2, rfl, (List.append_assoc ..).symm, hm.setTok t, hkw (_, t) (lookup_mem hk), fun hu => ⟨(hparts hu).1, (hparts hu).2, .inl ?_⟩⟩
      rw [htxt]; exact mem_keywords.1 (lookup_mem hk)
    | none =>
      refine ⟨_, w1 ++ w2, rest2, rfl, (List.append_assoc ..).symm, hm.setTok _, ⟨(show Tk.ident ≠ Tk.eof by decide), (show Tk.ident ≠ Tk.comment by decide)⟩, fun hu => ⟨(hparts hu).1, (hparts hu).2, .inr ⟨rfl, fun t ht => ?_⟩⟩⟩
      rw [htxt] at ht; exact lookup_none hk t (mem_keywords.2 ht)
  · rw [if_neg hl]
    refine ⟨_, w1 ++ w2, rest2, rfl, (List.append_assoc ..).symm, hm.setTok _, ⟨(show Tk.ident ≠ Tk.eof by decide), (show Tk.ident ≠ Tk.comment by decide)⟩, fun hu => ⟨(hparts hu).1, (hparts hu).2, .inr ⟨rfl, fun t ht => ?_⟩⟩⟩
    rw [htxt] at ht; exact hl (reserved_length ht)

/-! ## Numbers -/

theorem exponent_reads {s : Scanner} {cs : List Chr} (h : s.At cs) (t : Token) :
    ∃ s' e rest, exponent s t = .done s' ∧ cs = e ++ rest ∧ Reads s e rest s' ∧ Exponent (runesOf e) ∧ s'.tok = (if e = [] then t else Tk.float) ∧
      (e = [] → ∀ d rest', rest = d :: rest' → ¬ (d.1 = 0x65 ∨ d.1 = 0x45)) ∧ (e ≠ [] → ∀ d rest', rest = d :: rest' → ¬ Digit d.1) ∧
      (e.length = 1 → ∀ d rest', rest = d :: rest' → ¬ (d.1 = 0x2b ∨ d.1 = 0x2d)) := by
  unfold exponent
  cases cs with
  | nil =>
    rw [if_neg (by rw [h.ch, headRune, lower_eof]; decide)]
    exact ⟨_, [], [], rfl, rfl, (Reads.refl h).setTok t, .inl rfl, rfl, by simp, by simp, by simp⟩
  | cons c cs =>
    have hch : s.ch = (c.1 : Int) := h.ch
    by_cases he : lower (c.1 : Int) = 101
    · rw [if_pos (by rw [hch]; exact he)]
      have he' := (lower_e c.1).1 he
      have h1 := Reads.nextch h
      -- the sign
      have h2 : ∃ sg rest1, cs = sg ++ rest1 ∧ Sign (runesOf sg) ∧
          Reads s (c :: sg) rest1 (if s.nextch.ch = 43 ∨ s.nextch.ch = 45 then s.nextch.nextch else s.nextch) ∧
          (sg = [] → ∀ d rest', rest1 = d :: rest' → ¬ (d.1 = 0x2b ∨ d.1 = 0x2d)) := by
        cases cs with
        | nil =>
          rw [h1.at_.ch, headRune, if_neg (by decide)]
          exact ⟨[], [], rfl, .inl rfl, h1, by simp⟩
        | cons d cs =>
          rw [h1.at_.ch, headRune]
          by_cases hd : (d.1 : Int) = 43 ∨ (d.1 : Int) = 45
          · rw [if_pos hd]
            refine ⟨[d], cs, rfl, ?_, h1.trans (w := [c]) (w' := [d]) (Reads.nextch h1.at_), by simp⟩
            rcases hd with hd | hd
            · exact .inr (.inl (by simp only [runesOf, List.map]; congr 1; omega))
            · exact .inr (.inr (by simp only [runesOf, List.map]; congr 1; omega))
          · rw [if_neg hd]
            refine ⟨[], d :: cs, rfl, .inl rfl, h1, fun _ d' rest' he => ?_⟩
            cases he
            omega
      obtain ⟨sg, rest1, rfl, hsg, hm, hns⟩ := h2
      obtain ⟨s', w, rest, hs', rfl, hw, hr, hm', _⟩ := skipWhile_split (p := isDecimal) (by decide) hm.at_
      dsimp only
      rw [hs', Out.bind_done]
      refine ⟨_, c :: (sg ++ w), rest, rfl, by simp, (hm.trans hm').setTok _, .inr ⟨c.1, runesOf sg, runesOf w, he', hsg, ?_, by simp [runesOf]⟩, by simp, by simp, ?_, ?_⟩
      · intro d hd
        obtain ⟨x, hx, rfl⟩ := List.mem_map.1 hd
        exact (isDecimal_iff _).1 (hw x hx)
      · intro _ d rest' he hd
        have := (isDecimal_iff d.1).2 hd
        rw [hr d rest' he] at this
        cases this
      · intro hl d rest' hd
        have hsw : sg ++ w = [] := List.eq_nil_of_length_eq_zero (by simpa using hl)
        have hw0 := (List.append_eq_nil_iff.1 hsw).2
        subst hw0
        exact hns (List.append_eq_nil_iff.1 hsw).1 d rest' hd
    · rw [if_neg (by rw [hch]; exact he)]
      refine ⟨_, [], c :: cs, rfl, rfl, (Reads.refl h).setTok t, .inl rfl, rfl, fun _ d rest' hd => ?_, by simp, by simp⟩
      cases hd
      exact fun hx => he ((lower_e _).2 hx)

theorem decimal_reads {s : Scanner} {cs : List Chr} (h : s.At cs) :
    ∃ s' ds f e rest, decimal s = .done s' ∧ cs = ds ++ f ++ e ++ rest ∧ Reads s (ds ++ f ++ e) rest s' ∧ (∀ d ∈ runesOf ds, Digit d) ∧ Fraction (runesOf f) ∧ Exponent (runesOf e) ∧
      s'.tok = (if f ++ e = [] then Tk.int else Tk.float) ∧
      (e = [] → ∀ d rest', rest = d :: rest' → ¬ (d.1 = 0x65 ∨ d.1 = 0x45)) ∧ (∀ d rest', rest = d :: rest' → ¬ Digit d.1) ∧
      (e.length = 1 → ∀ d rest', rest = d :: rest' → ¬ (d.1 = 0x2b ∨ d.1 = 0x2d)) ∧ (f ++ e = [] → ∀ d rest', rest = d :: rest' → d.1 ≠ 0x2e) := by
  unfold decimal
  obtain ⟨s1, ds, rest1, hs1, rfl, hds, hr1, hm1, _⟩ := skipWhile_split (p := isDecimal) (by decide) h
  rw [hs1, Out.bind_done]
  have digits : ∀ {w : List Chr}, (∀ c ∈ w, isDecimal c.1 = true) → ∀ d ∈ runesOf w, Digit d := by
    intro w hw d hd
    obtain ⟨x, hx, rfl⟩ := List.mem_map.1 hd
    exact (isDecimal_iff _).1 (hw x hx)
  have stop : ∀ {rest : List Chr}, (∀ c rest', rest = c :: rest' → isDecimal c.1 = false) → ∀ d rest', rest = d :: rest' → ¬ Digit d.1 := by
    intro rest hr d rest' he hd
    have := (isDecimal_iff d.1).2 hd
    rw [hr d rest' he] at this
    cases this
  by_cases hdot : s1.ch = 46
  · rw [if_pos hdot]
    have hch : headRune rest1 = ((46 : Nat) : Int) := hm1.at_.ch.symm.trans hdot
    obtain ⟨c, rest2, rfl, hc⟩ := headRune_eq hch
    have hm2 := hm1.trans (w' := [c]) (Reads.nextch hm1.at_)
    obtain ⟨s3, fs, rest3, hs3, rfl, hfs, hr3, hm3, _⟩ := skipWhile_split (p := isDecimal) (by decide) hm2.at_
    dsimp only
    rw [hs3, Out.bind_done]
    obtain ⟨s4, e, rest, hs4, rfl, hm4, he, ht, h1, h2, h3⟩ := exponent_reads hm3.at_ Tk.float
    refine ⟨s4, ds, c :: fs, e, rest, hs4, by simp, ?_, digits hds, .inr ⟨runesOf fs, digits hfs, by simp [runesOf, hc]⟩, he, ?_, h1, ?_, h3, by simp⟩
    · have := (hm2.trans hm3).trans hm4
      simpa using this
    · rw [ht, if_neg (show ¬ (c :: fs ++ e = []) by simp)]
      split <;> rfl
    · intro d rest' hd
      by_cases he0 : e = []
      · subst he0
        exact stop hr3 d rest' hd
      · exact h2 he0 d rest' hd
  · rw [if_neg hdot]
    obtain ⟨s4, e, rest, hs4, rfl, hm4, he, ht, h1, h2, h3⟩ := exponent_reads hm1.at_ Tk.int
    refine ⟨s4, ds, [], e, rest, hs4, by simp, by simpa using hm1.trans hm4, digits hds, .inl rfl, he, ht, h1, ?_, h3, ?_⟩
    · intro d rest' hd
      by_cases he0 : e = []
      · subst he0
        exact stop hr1 d rest' hd
      · exact h2 he0 d rest' hd
    · intro he0 d rest' hd h46
      rw [List.nil_append] at he0
      subst he0
      rw [hm1.at_.ch, hd] at hdot
      exact hdot (by simp only [List.nil_append, headRune]; omega)

/-- `number` reads the longest number. -/
theorem number_reads (u : Unicode) {s : Scanner} {c : Chr} {cs : List Chr} (h : s.At (c :: cs)) (hd : Digit c.1) :
    ∃ s' w rest ns, number s = .done s' ∧ cs = w ++ rest ∧ Reads s (c :: w) rest s' ∧ numRun .start (runesOf (c :: w)) = some ns ∧ s'.tok = ns.tok ∧
      (∀ d rest', rest = d :: rest' → numStep ns d.1 = none) ∧ (∀ sg v, Sign sg → runesOf v = sg ++ runesOf (c :: w) → Lexeme u s'.tok v) := by
  -- the decimal numbers
  have dec : ∀ {s1 : Scanner} {pre ds f e rest : List Chr}, Reads s (pre ++ (ds ++ f ++ e)) rest s1 → c :: cs = pre ++ ds ++ f ++ e ++ rest → pre ++ ds ≠ [] →
      (∀ d ∈ runesOf (pre ++ ds), Digit d) → Fraction (runesOf f) → Exponent (runesOf e) →
      s1.tok = (if f ++ e = [] then Tk.int else Tk.float) →
      (e = [] → ∀ d rest', rest = d :: rest' → ¬ (d.1 = 0x65 ∨ d.1 = 0x45)) → (∀ d rest', rest = d :: rest' → ¬ Digit d.1) →
      (e.length = 1 → ∀ d rest', rest = d :: rest' → ¬ (d.1 = 0x2b ∨ d.1 = 0x2d)) → (f ++ e = [] → ∀ d rest', rest = d :: rest' → d.1 ≠ 0x2e) →
      (runesOf (pre ++ ds ++ f ++ e) = [0x30] → ∀ d rest', rest = d :: rest' → ¬ (d.1 = 0x78 ∨ d.1 = 0x58)) →
      ∃ w rest ns, cs = w ++ rest ∧ Reads s (c :: w) rest s1 ∧ numRun .start (runesOf (c :: w)) = some ns ∧ s1.tok = ns.tok ∧
        (∀ d rest', rest = d :: rest' → numStep ns d.1 = none) ∧ (∀ sg v, Sign sg → runesOf v = sg ++ runesOf (c :: w) → Lexeme u s1.tok v) := by
    intro s1 pre ds f e rest hm hcs hne hdig hf he ht h1 h2 h3 h4 h5
    obtain ⟨ns, hns, n1, n2, n3⟩ := numRun_decimal (fun h => hne (List.map_eq_nil_iff.1 h)) hdig hf he
    have hw : ∃ w, pre ++ ds ++ f ++ e = c :: w ∧ cs = w ++ rest := by
      cases hp : pre ++ ds with
      | nil => exact absurd hp hne
      | cons a l =>
        rw [hp, List.append_assoc, List.append_assoc, List.cons_append] at hcs
        have := List.cons.inj hcs
        refine ⟨l ++ f ++ e, by rw [this.1]; simp, by rw [this.2]; simp⟩
    obtain ⟨w, hw, hcs'⟩ := hw
    have hruns : runesOf (c :: w) = runesOf (pre ++ ds) ++ runesOf f ++ runesOf e := by
      rw [← hw]; simp [runesOf]
    have hnil : ∀ l : List Chr, runesOf l = [] ↔ l = [] := fun l => List.map_eq_nil_iff
    have hlen : (runesOf e).length = e.length := List.length_map ..
    refine ⟨w, rest, ns, hcs', ?_, by rw [hruns]; exact hns, ?_, ?_, ?_⟩
    · rw [← hw]; simpa using hm
    · rw [ht]
      by_cases he0 : e = []
      · by_cases hf0 : f = []
        · rw [if_pos (by rw [hf0, he0]; rfl)]
          exact (numTok_digits (n3 ((hnil _).2 he0) ((hnil _).2 hf0))).symm
        · rw [if_neg (by simp [hf0]), n2 ((hnil _).2 he0) (fun h => hf0 ((hnil _).1 h))]; rfl
      · rw [if_neg (by simp [he0]), n1 (fun h => he0 ((hnil _).1 h))]
        split <;> rfl
    · intro d rest' hd
      have h2 := h2 d rest' hd
      by_cases he0 : e = []
      · have h1 := h1 he0 d rest' hd
        by_cases hf0 : f = []
        · have h4 := h4 (by rw [hf0, he0]; rfl) d rest' hd
          rcases n3 ((hnil _).2 he0) ((hnil _).2 hf0) with rfl | ⟨rfl, h30⟩
          · rw [numStep, if_neg h2, if_neg h4, if_neg h1]
          · have h5 := h5 (by rw [hf0, he0, List.append_nil, List.append_nil]; exact h30) d rest' hd
            rw [numStep, if_neg h5, if_neg h2, if_neg h4, if_neg h1]
        · rw [n2 ((hnil _).2 he0) (fun h => hf0 ((hnil _).1 h)), numStep, if_neg h2, if_neg h1]
      · rw [n1 (fun h => he0 ((hnil _).1 h)), hlen]
        split
        · rename_i hl
          have h3 := h3 hl d rest' hd
          rw [numStep, if_neg]
          rintro (h | h | h)
          · exact h3 (.inl h)
          · exact h3 (.inr h)
          · exact h2 h
        · rw [numStep, if_neg h2]
    · intro sg v hsg hv
      rw [hruns] at hv
      rw [ht]
      have hpd : runesOf (pre ++ ds) ≠ [] := fun h => hne ((hnil _).1 h)
      by_cases hfe : f ++ e = []
      · rw [if_pos hfe]
        have hfe := List.append_eq_nil_iff.1 hfe
        rw [hfe.1, hfe.2] at hv
        exact .int hsg hpd hdig (by simpa [runesOf] using hv)
      · rw [if_neg hfe]
        refine .float hsg hpd hdig hf he (fun h => hfe ?_) (by rw [hv]; simp)
        have := List.append_eq_nil_iff.1 h
        rw [(hnil _).1 this.1, (hnil _).1 this.2]; rfl
  unfold number
  rw [h.ch, headRune]
  by_cases h0 : (c.1 : Int) = 48
  · rw [if_pos h0]
    have h30 : c.1 = 0x30 := by omega
    have h1 := Reads.nextch h
    dsimp only
    by_cases hx : lower s.nextch.ch = 120
    · rw [if_pos hx]
      rw [h1.at_.ch] at hx
      cases cs with
      | nil => rw [headRune, lower_eof] at hx; cases hx
      | cons x cs =>
        rw [headRune, lower_x] at hx
        have h2 := h1.trans (w' := [x]) (Reads.nextch h1.at_)
        obtain ⟨s', w, rest, hs', rfl, hw, hr, hm', _⟩ := skipWhile_split (p := isHex) (by decide) h2.at_
        rw [hs', Out.bind_done]
        have hh : ∀ d ∈ runesOf w, HexDigit d := by
          intro d hd
          obtain ⟨y, hy, rfl⟩ := List.mem_map.1 hd
          exact (isHex_iff _).1 (hw y hy)
        refine ⟨_, x :: w, rest, .hex, rfl, rfl, by simpa using (h2.trans hm').setTok Tk.int, ?_, rfl, ?_, ?_⟩
        · change numRun .start (c.1 :: x.1 :: runesOf w) = _
          rw [numRun, numStep, if_pos h30, Option.bind_some, numRun, numStep, if_pos hx]
          exact numRun_hex hh
        · intro d rest' he
          rw [numStep, if_neg]
          intro hd
          have := (isHex_iff d.1).2 hd
          rw [hr d rest' he] at this
          cases this
        · intro sg v hsg hv
          exact .hex hsg hx hh (by rw [hv]; simp [runesOf, h30])
    · rw [if_neg hx]
      obtain ⟨s', ds, f, e, rest, hs', hcs, hm', hds, hf, he, ht, g1, g2, g3, g4⟩ := decimal_reads h1.at_
      rw [hs']
      rw [hcs] at h1
      obtain ⟨w, rest', ns, k1, k2, k3, k4, k5, k6⟩ := dec (pre := [c]) (h1.trans hm') (by rw [hcs]; simp) (by simp) (by
        intro d hd'
        rcases List.mem_cons.1 (show d ∈ c.1 :: runesOf ds from hd') with rfl | hd'
        · exact hd
        · exact hds d hd') hf he ht g1 g2 g3 g4 (by
        intro hw d rest' hdr hx'
        have : ds ++ f ++ e = [] := by
          have := congrArg List.length hw
          simp [runesOf] at this
          exact List.eq_nil_of_length_eq_zero (by simp; omega)
        rw [this, hdr] at h1
        rw [h1.at_.ch] at hx
        exact hx (by rw [List.nil_append, headRune]; exact (lower_x _).2 hx'))
      exact ⟨s', w, rest', ns, rfl, k1, k2, k3, k4, k5, k6⟩
  · rw [if_neg h0]
    obtain ⟨s', ds, f, e, rest, hs', hcs, hm', hds, hf, he, ht, g1, g2, g3, g4⟩ := decimal_reads h
    rw [hs']
    have hne : ds ≠ [] := by
      rintro rfl
      rw [List.nil_append] at hcs
      cases f with
      | cons a f =>
        have hf' : Fraction (a.1 :: runesOf f) := hf
        rcases hf' with hf' | ⟨_, _, hf'⟩
        · cases hf'
        · have := (List.cons.inj hf').1
          have h2 : c = a := by simpa using (List.cons.inj hcs).1
          rw [← h2] at this
          unfold Digit at hd; omega
      | nil =>
        cases e with
        | cons a e =>
          have he' : Exponent (a.1 :: runesOf e) := he
          rcases he' with he' | ⟨x, _, _, hx, _, _, he'⟩
          · cases he'
          · have := (List.cons.inj he').1
            have h2 : c = a := by simpa using (List.cons.inj hcs).1
            rw [← h2] at this
            unfold Digit at hd; omega
        | nil => exact g2 c cs (by simpa using hcs.symm) hd
    obtain ⟨w, rest', ns, k1, k2, k3, k4, k5, k6⟩ := dec (pre := []) hm' hcs hne hds hf he ht g1 g2 g3 g4 (by
      intro hw
      exfalso
      cases ds with
      | nil => exact hne rfl
      | cons a ds =>
        have h2 : c = a := by simpa using (List.cons.inj hcs).1
        have : a.1 = 0x30 := (List.cons.inj hw).1
        rw [← h2] at this
        exact h0 (by omega))
    exact ⟨s', w, rest', ns, rfl, k1, k2, k3, k4, k5, k6⟩

end Scanner

end GoThrift.Idl
