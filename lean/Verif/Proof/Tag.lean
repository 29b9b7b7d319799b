import Verif.Model.Fields
import Verif.Spec.Tag

/-! # Parsing struct tags -/

namespace GoThrift

open Spec

/-! ## Numbers -/

theorem foldl_ge (ds : Bytes) (n : Nat) : n ≤ ds.foldl (fun n d => 10 * n + (d.toNat - 0x30)) n := by
  induction ds generalizing n with
  | nil => exact Nat.le_refl _
  | cons d ds ih =>
    simp only [List.foldl_cons]
    exact Nat.le_trans (by omega) (ih _)

theorem parseUintLoop_spec (ds : Bytes) (n m : Nat) : parseUintLoop ds n = some m ↔
    (∀ d ∈ ds, 0x30 ≤ d.toNat ∧ d.toNat ≤ 0x39) ∧ m = ds.foldl (fun n d => 10 * n + (d.toNat - 0x30)) n ∧ (ds = [] ∨ m ≤ 65535) := by
  induction ds generalizing n with
  | nil => simp [parseUintLoop, eq_comm]
  | cons d ds ih =>
    rw [parseUintLoop]
    by_cases h : 0x30 ≤ d.toNat ∧ d.toNat ≤ 0x39
    · rw [if_pos h]
      try dsimp only
      have hc : n * 10 + (d.toNat - 0x30) = 10 * n + (d.toNat - 0x30) := by omega
      rw [hc]
      by_cases h2 : 10 * n + (d.toNat - 0x30) > 65535
      · rw [if_pos h2]
        constructor
        · intro h; cases h
        · rintro ⟨_, h3, h4 | h4⟩
          · cases h4
          · have := foldl_ge ds (10 * n + (d.toNat - 0x30))
            simp only [List.foldl_cons] at h3
            omega
      · rw [if_neg h2, ih]
        simp only [List.forall_mem_cons, List.foldl_cons]
        constructor
        · rintro ⟨h3, h4, h5⟩
          refine ⟨⟨h, h3⟩, h4, .inr ?_⟩
          rcases h5 with rfl | h5
          · simp only [List.foldl_nil] at h4; omega
          · exact h5
        · rintro ⟨h3, h4, h5 | h5⟩
          · cases h5
          · exact ⟨h3.2, h4, .inr h5⟩
    · rw [if_neg h]
      constructor
      · intro h; cases h
      · rintro ⟨h3, _⟩; exact absurd (h3 d (by simp)) h

theorem parseInt_spec (s : Bytes) (id : BitVec 16) : parseInt s = some id ↔ DecimalInt s id.toInt := by
  have key : ∀ ds m, parseUintLoop ds 0 = some m ↔
      (∀ d ∈ ds, 0x30 ≤ d.toNat ∧ d.toNat ≤ 0x39) ∧ m = decimal ds ∧ (ds = [] ∨ m ≤ 65535) := fun ds m => parseUintLoop_spec ds 0 m
  cases s with
  | nil =>
    simp only [parseInt, DecimalInt]
    constructor
    · intro h; cases h
    · rintro ⟨ds, h1, h2, ⟨h3, _⟩ | ⟨h3, _⟩ | ⟨h3, _⟩⟩
      · exact absurd h3.symm h1
      · cases h3
      · cases h3
  | cons c cs =>
    have hbv : ∀ n : Nat, n < 32768 → (BitVec.ofNat 16 n).toInt = n := by
      intro n hn
      rw [BitVec.toInt_eq_toNat_cond]
      simp only [BitVec.toNat_ofNat]
      rw [Nat.mod_eq_of_lt (by omega)]
      simp only [if_pos (show 2 * n < 2 ^ 16 by omega)]
    have hbn : ∀ n : Nat, n ≤ 32768 → (-(BitVec.ofNat 16 n)).toInt = -(n : Int) := by
      intro n hn
      rcases Nat.lt_or_ge n 32768 with h | h
      · rw [BitVec.toInt_neg, hbv n h, Int.bmod_def]; omega
      · have : n = 32768 := by omega
        subst this; decide
    rw [parseInt]
    -- split on the sign
    by_cases hneg : c = 0x2d
    · subst hneg
      simp only [beq_self_eq_true, Bool.or_true, if_true, Bool.not_true, Bool.false_and, Bool.true_and]
      cases cs with
      | nil =>
        simp only [List.isEmpty_nil, if_true, DecimalInt]
        constructor
        · intro h; cases h
        · rintro ⟨ds, h1, h2, ⟨h3, _⟩ | ⟨h3, _⟩ | ⟨h3, _⟩⟩
          · subst h3; exact absurd (h2 0x2d (by simp)) (by decide)
          · cases h3
          · injection h3 with _ h3; exact absurd h3.symm h1
      | cons d ds =>
        simp only [List.isEmpty_cons]
        have hd : DecimalInt (0x2d :: d :: ds) id.toInt ↔
            (∀ x ∈ d :: ds, 0x30 ≤ x.toNat ∧ x.toNat ≤ 0x39) ∧ id.toInt = -(decimal (d :: ds) : Int) := by
          constructor
          · rintro ⟨es, h1, h2, ⟨h3, _⟩ | ⟨h3, _⟩ | ⟨h3, h4⟩⟩
            · subst h3; exact absurd (h2 0x2d (by simp)) (by decide)
            · cases h3
            · injection h3 with _ h3; subst h3; exact ⟨h2, h4⟩
          · rintro ⟨h1, h2⟩; exact ⟨d :: ds, by simp, h1, .inr (.inr ⟨rfl, h2⟩)⟩
        rw [hd]
        have hk := key (d :: ds)
        cases hp : parseUintLoop (d :: ds) 0 with
        | none =>
          simp only [Bool.false_eq_true, if_false]
          constructor
          · intro h; cases h
          · rintro ⟨h1, h2⟩
            have := id.le_toInt; simp at this
            have := (hk (decimal (d :: ds))).2 ⟨h1, rfl, .inr (by omega)⟩
            rw [hp] at this; cases this
        | some m =>
          obtain ⟨h1, h2, h3⟩ := (hk m).1 hp
          simp only [Bool.false_eq_true, if_false, decide_eq_true_eq]
          by_cases hm : m > 32768
          · rw [if_pos hm]
            constructor
            · intro h; cases h
            · rintro ⟨_, h5⟩
              have := id.le_toInt; simp at this
              omega
          · rw [if_neg hm]
            constructor
            · intro h; injection h with h; subst h
              exact ⟨h1, by rw [hbn m (by omega), h2]⟩
            · rintro ⟨_, h5⟩
              congr 1
              apply BitVec.eq_of_toInt_eq
              rw [hbn m (by omega), h5, h2]
    · have hn : (c == 0x2d) = false := by simpa using hneg
      simp only [hn, Bool.or_false, Bool.not_false, Bool.true_and, Bool.false_and, Bool.false_eq_true, if_false]
      have main : ∀ ds : Bytes, (DecimalInt (c :: cs) id.toInt ↔
            ds ≠ [] ∧ (∀ x ∈ ds, 0x30 ≤ x.toNat ∧ x.toNat ≤ 0x39) ∧ id.toInt = decimal ds) →
          ((if ds.isEmpty = true then none else match parseUintLoop ds 0 with
            | none => none
            | some un => if decide (un ≥ 32768) = true then none else some (BitVec.ofNat 16 un)) = some id ↔ DecimalInt (c :: cs) id.toInt) := by
        intro ds hd
        rw [hd]
        cases ds with
        | nil => simp
        | cons d ds =>
          simp only [List.isEmpty_cons, Bool.false_eq_true, if_false]
          have hk := key (d :: ds)
          cases hp : parseUintLoop (d :: ds) 0 with
          | none =>
            constructor
            · intro h; cases h
            · rintro ⟨_, h1, h2⟩
              have := id.toInt_lt; simp at this
              have := (hk (decimal (d :: ds))).2 ⟨h1, rfl, .inr (by omega)⟩
              rw [hp] at this; cases this
          | some m =>
            obtain ⟨h1, h2, h3⟩ := (hk m).1 hp
            simp only [decide_eq_true_eq]
            by_cases hm : m ≥ 32768
            · rw [if_pos hm]
              constructor
              · intro h; cases h
              · rintro ⟨_, _, h5⟩
                have := id.toInt_lt; simp at this
                omega
            · rw [if_neg hm]
              constructor
              · intro h; injection h with h; subst h
                exact ⟨by simp, h1, by rw [hbv m (by omega), h2]⟩
              · rintro ⟨_, _, h5⟩
                congr 1
                apply BitVec.eq_of_toInt_eq
                rw [hbv m (by omega), h5, h2]
      by_cases hp : c = 0x2b
      · subst hp
        simp only [beq_self_eq_true, if_true]
        refine main cs ⟨?_, ?_⟩
        · rintro ⟨es, h1, h2, ⟨h3, _⟩ | ⟨h3, h4⟩ | ⟨h3, h4⟩⟩
          · subst h3; exact absurd (h2 0x2b (by simp)) (by decide)
          · injection h3 with _ h3; subst h3; exact ⟨h1, h2, h4⟩
          · cases h3
        · rintro ⟨h1, h2, h3⟩; exact ⟨cs, h1, h2, .inr (.inl ⟨rfl, h3⟩)⟩
      · have hp' : (c == 0x2b) = false := by simpa using hp
        simp only [hp', Bool.false_eq_true, if_false]
        refine main (c :: cs) ⟨?_, ?_⟩
        · rintro ⟨es, h1, h2, ⟨h3, h4⟩ | ⟨h3, h4⟩ | ⟨h3, h4⟩⟩
          · subst h3; exact ⟨h1, h2, h4⟩
          · injection h3 with h3 _; exact absurd h3 hp
          · injection h3 with h3 _; exact absurd h3 hneg
        · rintro ⟨h1, h2, h3⟩; exact ⟨_, h1, h2, .inl ⟨rfl, h3⟩⟩

/-! ## Commas -/

theorem cutComma_append (s : Bytes) : (cutComma s).1 ++ (cutComma s).2 = s := by
  induction s with
  | nil => rfl
  | cons c cs ih =>
    rw [cutComma]
    by_cases h : c = 0x2c
    · rw [if_pos h]; rfl
    · rw [if_neg h]; simp [ih]

theorem cutComma_no (s : Bytes) : (0x2c : Byte) ∉ (cutComma s).1 := by
  induction s with
  | nil => simp [cutComma]
  | cons c cs ih =>
    rw [cutComma]
    by_cases h : c = 0x2c
    · rw [if_pos h]; simp
    · rw [if_neg h]; simp only [List.mem_cons, not_or]; exact ⟨fun h' => h h'.symm, ih⟩

theorem cutComma_rest (s : Bytes) : (cutComma s).2 = [] ∨ ∃ r, (cutComma s).2 = 0x2c :: r := by
  induction s with
  | nil => exact .inl rfl
  | cons c cs ih =>
    rw [cutComma]
    by_cases h : c = 0x2c
    · rw [if_pos h]; exact .inr ⟨cs, by rw [h]⟩
    · rw [if_neg h]; exact ih

theorem cutComma_eq (s r : Bytes) (hs : (0x2c : Byte) ∉ s) (hr : r = [] ∨ ∃ r', r = 0x2c :: r') : cutComma (s ++ r) = (s, r) := by
  induction s with
  | nil =>
    rcases hr with rfl | ⟨r', rfl⟩
    · rfl
    · simp [cutComma]
  | cons c cs ih =>
    have h : c ≠ 0x2c := fun h => hs (by simp [h])
    rw [List.cons_append, cutComma, if_neg h, ih fun h => hs (List.mem_cons_of_mem _ h)]

/-! ## Runes -/

namespace Utf8

theorem decodeRune_width_pos (s : Bytes) (h : s ≠ []) : 1 ≤ (decodeRune s).2 := by
  cases s with
  | nil => exact absurd rfl h
  | cons b p =>
    unfold decodeRune
    try dsimp only
    repeat' split
    all_goals simp

theorem inRange_comma (lo hi : Nat) (hlo : 0x80 ≤ lo) : inRange lo hi 0x2c = false := by
  simp [inRange]; omega

/-- A comma after a text does not change how its runes are decoded. -/
theorem decodeRune_comma (s r : Bytes) (h : s ≠ []) : decodeRune (s ++ 0x2c :: r) = decodeRune s := by
  have hc : ∀ lo hi, 0x80 ≤ lo → inRange lo hi 0x2c#8 = false := inRange_comma
  cases s with
  | nil => exact absurd rfl h
  | cons b p =>
    rw [List.cons_append]
    unfold decodeRune
    dsimp only
    by_cases h1 : b.toNat < 0x80
    · rw [if_pos h1, if_pos h1]
    rw [if_neg h1, if_neg h1]
    by_cases h2 : b.toNat < 0xc2
    · rw [if_pos h2, if_pos h2]
    rw [if_neg h2, if_neg h2]
    by_cases h3 : b.toNat < 0xe0
    · rw [if_pos h3, if_pos h3]
      cases p with
      | nil => simp [hc]
      | cons b1 p => rfl
    rw [if_neg h3, if_neg h3]
    by_cases h4 : b.toNat < 0xf0
    · rw [if_pos h4, if_pos h4]
      match p with
      | [] =>
        cases r with
        | nil => rfl
        | cons b2 r =>
          have : inRange (if b.toNat = 0xe0 then 0xa0 else 0x80) (if b.toNat = 0xed then 0x9f else 0xbf) 0x2c#8 = false :=
            hc _ _ (by split <;> omega)
          simp [this]
      | [b1] => simp [hc]
      | b1 :: b2 :: p => rfl
    rw [if_neg h4, if_neg h4]
    by_cases h5 : b.toNat < 0xf5
    · rw [if_pos h5, if_pos h5]
      match p with
      | [] =>
        match r with
        | [] => rfl
        | [_] => rfl
        | b2 :: b3 :: r =>
          have : inRange (if b.toNat = 0xf0 then 0x90 else 0x80) (if b.toNat = 0xf4 then 0x8f else 0xbf) 0x2c#8 = false :=
            hc _ _ (by split <;> omega)
          simp [this]
      | [b1] => cases r <;> simp [hc]
      | [b1, b2] => simp [hc]
      | b1 :: b2 :: b3 :: p => rfl
    rw [if_neg h5, if_neg h5]

theorem decodeRune_width_le (s : Bytes) : (decodeRune s).2 ≤ s.length := by
  cases s with
  | nil => simp [decodeRune]
  | cons b p =>
    unfold decodeRune
    try dsimp only
    repeat' split
    all_goals simp

theorem span_append (f : Nat → Bool) (n : Nat) (s : Bytes) : (span f n s).1 ++ (span f n s).2 = s := by
  induction n generalizing s with
  | zero => rfl
  | succ n ih =>
    rw [span]
    split
    · rfl
    · try dsimp only
      split
      · simp only [List.append_assoc, ih, List.take_append_drop]
      · rfl

theorem span_all (f : Nat → Bool) (n : Nat) (s : Bytes) (hn : s.length ≤ n) :
    (span f n s).2 = [] ∨ f (decodeRune (span f n s).2).1 = false := by
  induction n generalizing s with
  | zero =>
    left
    have : s = [] := List.eq_nil_of_length_eq_zero (by omega)
    rw [this]; rfl
  | succ n ih =>
    rw [span]
    split
    · left
      rename_i h; exact List.isEmpty_iff.1 h
    · rename_i h
      try dsimp only
      split
      · have h1 := decodeRune_width_pos s (by simpa using h)
        exact ih _ (by rw [List.length_drop]; omega)
      · rename_i h2; right; simpa using h2

end Utf8

open Utf8

theorem span_comma (f : Nat → Bool) (hf : f 0x2c = false) (s : Bytes) (hs : AllRunes f s) (r : Bytes) (hr : r = [] ∨ ∃ r', r = 0x2c :: r')
    (n : Nat) (hn : s.length ≤ n) : span f n (s ++ r) = (s, r) := by
  induction n generalizing s with
  | zero =>
    have : s = [] := List.eq_nil_of_length_eq_zero (by omega)
    rw [this]; rfl
  | succ n ih =>
    cases hs with
    | nil =>
      rw [List.nil_append, span]
      rcases hr with rfl | ⟨r', rfl⟩
      · rfl
      · have : decodeRune (0x2c :: r') = (0x2c, 1) := rfl
        simp only [List.isEmpty_cons, Bool.false_eq_true, if_false, this, hf]
    | cons h1 h2 h3 =>
      have hd : decodeRune (s ++ r) = decodeRune s := by
        rcases hr with rfl | ⟨r', rfl⟩
        · rw [List.append_nil]
        · exact decodeRune_comma s r' h1
      have hpos := decodeRune_width_pos s h1
      have hle := decodeRune_width_le s
      rw [span]
      have hne : (s ++ r).isEmpty = false := by cases s <;> simp_all
      simp only [hne, Bool.false_eq_true, if_false, hd, h2, if_true]
      rw [List.drop_append_of_le_length hle, List.take_append_of_le_length hle, ih _ h3 (by rw [List.length_drop]; omega)]
      simp

theorem span_allRunes (f : Nat → Bool) (n : Nat) (s : Bytes) (h : (span f n s).2 = [] ∨ ∃ r, (span f n s).2 = 0x2c :: r) :
    AllRunes f (span f n s).1 := by
  induction n generalizing s with
  | zero => exact .nil
  | succ n ih =>
    rw [span] at h ⊢
    split
    · exact .nil
    · rename_i he
      rw [if_neg he] at h
      dsimp only at h ⊢
      split
      · rename_i hf
        rw [if_pos hf] at h
        have h3 := ih _ h
        have hs : s ≠ [] := by simpa using he
        have hle := decodeRune_width_le s
        have hpos := decodeRune_width_pos s hs
        -- the consumed text decodes as the whole
        have happ := span_append f n (s.drop (decodeRune s).2)
        generalize hq : span f n (s.drop (decodeRune s).2) = q at *
        have hs' : s = (s.take (decodeRune s).2 ++ q.1) ++ q.2 := by
          rw [List.append_assoc, happ, List.take_append_drop]
        have hne : s.take (decodeRune s).2 ++ q.1 ≠ [] := by
          intro h0
          have := congrArg List.length h0
          simp [List.length_take] at this
          cases s with
          | nil => exact hs rfl
          | cons => simp at this; omega
        have hd : decodeRune (s.take (decodeRune s).2 ++ q.1) = decodeRune s := by
          refine Eq.trans ?_ (congrArg decodeRune hs').symm
          rcases h with h | ⟨r, h⟩
          · rw [h, List.append_nil]
          · rw [h, decodeRune_comma _ _ hne]
        refine .cons hne (by rw [hd]; exact hf) ?_
        rw [hd, List.drop_append_of_le_length (by rw [List.length_take]; omega)]
        rw [show (s.take (decodeRune s).2).drop (decodeRune s).2 = [] by simp]
        exact h3
      · exact .nil

/-! ## Options -/

theorem consumeTagOption_append (u : Unicode) (s : Bytes) :
    (consumeTagOption u s).1 ++ (consumeTagOption u s).2.1 = s := by
  rw [consumeTagOption]
  try dsimp only
  split
  · exact span_append _ _ _
  · split
    · rename_i h; simp
    · exact cutComma_append s

/-- Without the comma at the front something is consumed. -/
theorem consumeTagOption_progress (u : Unicode) (c : Byte) (cs : Bytes) (hc : c ≠ 0x2c) :
    (consumeTagOption u (c :: cs)).2.1.length < (c :: cs).length := by
  have h := congrArg List.length (consumeTagOption_append u (c :: cs))
  rw [List.length_append] at h
  suffices h' : 1 ≤ (consumeTagOption u (c :: cs)).1.length by omega
  rw [consumeTagOption]
  try dsimp only
  split
  · rename_i hl
    try dsimp only
    rw [List.length_cons, span]
    have hlt : isLetterOrDigit u (decodeRune (c :: cs)).1 = true := by
      simp only [isLetterOrDigit]
      rcases hl with hl | hl
      · rw [hl]; rfl
      · rw [hl]; simp
    simp only [List.isEmpty_cons, Bool.false_eq_true, if_false, hlt, if_true, List.length_append, List.length_take, List.length_cons]
    have := decodeRune_width_pos (c :: cs) (by simp)
    omega
  · split
    · rename_i h; simp at h
    · rw [cutComma, if_neg hc]; simp

theorem firstError_some (e : Err) (b : Option Err) : firstError (some e) b = some e := rfl
theorem firstError_none (b : Option Err) : firstError none b = b := rfl

theorem ascii_required : ascii "required" = requiredText := by decide

/-- The loop ends; an error once found stays. -/
theorem optionLoop_done (u : Unicode) (fuel : Nat) (tag : Bytes) (req : Bool) (err : Option Err) (seen : List Bytes) (hf : tag.length ≤ fuel) :
    ∃ req' err', optionLoop u fuel tag req err seen = .done (req', err') ∧ (∀ e, err = some e → err' = some e) := by
  induction fuel generalizing tag req err seen with
  | zero =>
    have : tag = [] := List.eq_nil_of_length_eq_zero (by omega)
    subst this
    exact ⟨req, err, rfl, fun e h => h⟩
  | succ fuel ih =>
    cases tag with
    | nil => exact ⟨req, err, rfl, fun e h => h⟩
    | cons c cs =>
      rw [optionLoop]
      try dsimp only
      by_cases hc : c = 0x2c
      · subst hc
        simp only [ne_eq, not_true_eq_false, if_false, true_and]
        by_cases hcs : cs.isEmpty = true
        · rw [if_pos hcs]
          exact ⟨_, _, rfl, fun e he => by subst he; rfl⟩
        · rw [if_neg hcs]
          have hlen : (consumeTagOption u cs).2.1.length ≤ fuel := by
            have := congrArg List.length (consumeTagOption_append u cs)
            rw [List.length_append] at this
            simp only [List.length_cons] at hf
            omega
          obtain ⟨req', err', h1, h2⟩ := ih _ _ _ _ hlen
          refine ⟨req', err', h1, fun e he => h2 e ?_⟩
          subst he
          simp only [firstError_some]
          split <;> split <;> split <;> rfl
      · rw [if_neg fun h => hc h.1]
        have hlen : (consumeTagOption u (c :: cs)).2.1.length ≤ fuel := by
          have := consumeTagOption_progress u c cs hc
          omega
        simp only [ne_eq, hc, not_false_eq_true, if_true]
        obtain ⟨req', err', h1, h2⟩ := ih _ _ _ _ hlen
        refine ⟨req', err', h1, fun e he => h2 e ?_⟩
        subst he
        simp only [firstError_some]
        split <;> split <;> split <;> rfl

/-- An empty text is no identifier. -/
theorem ident_ne (u : Unicode) (o : Bytes) (h : Ident u o) : o ≠ [] := h.1

/-- Option lists as text. -/
def optText (opts : List Bytes) : Bytes := (opts.map (0x2c :: ·)).flatten

theorem optText_head (opts : List Bytes) : optText opts = [] ∨ ∃ r, optText opts = 0x2c :: r := by
  cases opts with
  | nil => exact .inl rfl
  | cons o os => exact .inr ⟨o ++ optText os, rfl⟩

theorem isLD_eq (u : Unicode) : isLetterOrDigit u = fun r => r == 0x5f || u.isLetter r || u.isNumber r := rfl

/-- What a good tag option list makes of the loop, and conversely. -/
theorem optionLoop_ok (u : Unicode) (fuel : Nat) (tag : Bytes) (req : Bool)
    (seen : List Bytes) (hf : tag.length ≤ fuel) (req' : Bool) :
    optionLoop u fuel tag req none seen = .done (req', none) ↔
      ∃ opts, tag = optText opts ∧ (∀ o ∈ opts, Ident u o ∧ ¬ Resembles u o) ∧ opts.Nodup ∧ (∀ o ∈ opts, o ∉ seen) ∧
        req' = (req || decide (requiredText ∈ opts)) := by
  have hcomma : isLetterOrDigit u 0x2c = false := by simp [isLetterOrDigit, u.comma_letter, u.comma_number]
  induction fuel generalizing tag req seen with
  | zero =>
    have : tag = [] := List.eq_nil_of_length_eq_zero (by omega)
    subst this
    simp only [optionLoop, List.isEmpty_nil, if_true, Out.done.injEq, Prod.mk.injEq, and_true]
    constructor
    · rintro rfl; exact ⟨[], rfl, by simp, by simp, by simp, by simp⟩
    · rintro ⟨opts, h1, _, _, _, h5⟩
      cases opts with
      | nil => simpa using h5.symm
      | cons o os => cases h1
  | succ fuel ih =>
    cases tag with
    | nil =>
      simp only [optionLoop, Out.done.injEq, Prod.mk.injEq, and_true]
      constructor
      · rintro rfl; exact ⟨[], rfl, by simp, by simp, by simp, by simp⟩
      · rintro ⟨opts, h1, _, _, _, h5⟩
        cases opts with
        | nil => simpa using h5.symm
        | cons o os => cases h1
    | cons c cs =>
      have bad : ∀ (tag : Bytes) (req : Bool) (err : Option Err) (seen : List Bytes), tag.length ≤ fuel → err.isSome = true →
          optionLoop u fuel tag req err seen ≠ .done (req', none) := by
        intro tag req err seen hlen he h
        obtain ⟨e, rfl⟩ := Option.isSome_iff_exists.1 he
        obtain ⟨r1, e1, h1, h2⟩ := optionLoop_done u fuel tag req (some e) seen hlen
        rw [h1] at h
        have := h2 e rfl
        injection h with h; injection h with _ h
        rw [this] at h; cases h
      rw [optionLoop]
      try dsimp only
      by_cases hc : c = 0x2c
      · subst hc
        simp only [ne_eq, not_true_eq_false, if_false, true_and, firstError_none]
        by_cases hcs : cs = []
        · subst hcs
          simp only [List.isEmpty_nil, if_true]
          constructor
          · intro h; cases h
          · rintro ⟨opts, h1, h2, _⟩
            cases opts with
            | nil => cases h1
            | cons o os =>
              injection h1 with _ h1
              have := (h2 o (by simp)).1.1
              cases o with
              | nil => exact absurd rfl this
              | cons => cases h1
        · have hcs' : cs.isEmpty = false := by cases cs <;> simp_all
          simp only [hcs', Bool.false_eq_true, if_false]
          have hlen : (consumeTagOption u cs).2.1.length ≤ fuel := by
            have := congrArg List.length (consumeTagOption_append u cs)
            rw [List.length_append] at this
            simp only [List.length_cons] at hf
            omega
          have happ := consumeTagOption_append u cs
          -- the three checks on the option
          by_cases hfirst : (decodeRune cs).1 = 0x5f ∨ u.isLetter (decodeRune cs).1 = true
          · have hct : consumeTagOption u cs = ((span (isLetterOrDigit u) cs.length cs).1, (span (isLetterOrDigit u) cs.length cs).2, none) := by
              rw [consumeTagOption]; dsimp only; rw [if_pos hfirst]
            rw [hct] at hlen happ ⊢
            dsimp only at hlen happ ⊢
            generalize hq : span (isLetterOrDigit u) cs.length cs = q at *
            obtain ⟨o, rest⟩ := q
            dsimp only at hlen happ ⊢
            simp only [ascii_required, dropUnderscores]
            -- equivalence of the list on the right with head o
            have head : ∀ opts, (0x2c : Byte) :: cs = optText opts → (∀ o ∈ opts, Ident u o ∧ ¬ Resembles u o) →
                ∃ os, opts = o :: os ∧ rest = optText os := by
              intro opts h1 h2
              cases opts with
              | nil => cases h1
              | cons o' os =>
                have h1' : cs = o' ++ optText os := by
                  injection h1
                have hid := (h2 o' (by simp)).1
                have := span_comma (isLetterOrDigit u) hcomma o' hid.2.2 (optText os) (optText_head os) cs.length
                  (by rw [h1', List.length_append]; omega)
                rw [← h1', hq] at this
                injection this with t1 t2
                exact ⟨os, by rw [t1], t2⟩
            by_cases hres : o ≠ requiredText ∧ (u.toLower o).filter (· != 0x5f) = requiredText
            · rw [if_pos hres]
              constructor
              · intro h
                exact absurd h (bad _ _ _ _ hlen (by split <;> rfl))
              · rintro ⟨opts, h1, h2, _⟩
                obtain ⟨os, rfl, _⟩ := head opts h1 h2
                exact absurd hres (h2 o (by simp)).2
            · rw [if_neg hres]
              by_cases hseen : o ∈ seen
              · rw [if_pos hseen]
                constructor
                · intro h; exact absurd h (bad _ _ _ _ hlen rfl)
                · rintro ⟨opts, h1, h2, _, h4, _⟩
                  obtain ⟨os, rfl, _⟩ := head opts h1 h2
                  exact absurd hseen (h4 o (by simp))
              · rw [if_neg hseen]
                refine (ih _ _ _ hlen).trans ?_
                constructor
                · rintro ⟨os, h1, h2, h3, h4, h5⟩
                  have hcs2 : cs = o ++ optText os := by rw [← h1, happ]
                  have hne : o ≠ [] := by
                    intro h0
                    have := span_all (isLetterOrDigit u) cs.length cs (Nat.le_refl _)
                    rw [hq, show rest = cs by rw [← happ, h0]; rfl] at this
                    rcases this with this | this
                    · exact hcs this
                    · simp only [isLetterOrDigit] at this
                      rcases hfirst with hfirst | hfirst
                      · rw [hfirst] at this; simp at this
                      · rw [hfirst] at this; simp at this
                  have hd : decodeRune cs = decodeRune o := by
                    rw [hcs2]
                    rcases optText_head os with h0 | ⟨r, h0⟩
                    · rw [h0, List.append_nil]
                    · rw [h0, decodeRune_comma _ _ hne]
                  have hall : AllRunes (isLetterOrDigit u) o := by
                    have := span_allRunes (isLetterOrDigit u) cs.length cs (by rw [hq, h1]; exact optText_head os)
                    rwa [hq] at this
                  refine ⟨o :: os, by rw [hcs2]; rfl, ?_, ?_, ?_, ?_⟩
                  · intro x hx
                    rcases List.mem_cons.1 hx with rfl | hx
                    · exact ⟨⟨hne, by rw [← hd]; exact hfirst, hall⟩, hres⟩
                    · exact h2 x hx
                  · rw [List.nodup_cons]
                    exact ⟨fun hx => (h4 o hx) (by simp), h3⟩
                  · intro x hx
                    rcases List.mem_cons.1 hx with rfl | hx
                    · exact hseen
                    · exact fun hs => h4 x hx (by simp [hs])
                  · rw [h5]
                    by_cases ho : o = requiredText
                    · simp [ho]
                    · simp [ho, Ne.symm ho]
                · rintro ⟨opts, h1, h2, h3, h4, h5⟩
                  obtain ⟨os, rfl, hr⟩ := head opts h1 h2
                  rw [List.nodup_cons] at h3
                  refine ⟨os, hr, fun x hx => h2 x (by simp [hx]), h3.2, fun x hx => ?_, ?_⟩
                  · intro hx'
                    rcases List.mem_cons.1 hx' with rfl | hx'
                    · exact h3.1 hx
                    · exact h4 x (by simp [hx]) hx'
                  · rw [h5]
                    by_cases ho : o = requiredText
                    · simp [ho]
                    · simp [ho, Ne.symm ho]
          · have he : ∃ e, (consumeTagOption u cs).2.2 = some e := by
              rw [consumeTagOption]; dsimp only; rw [if_neg hfirst]
              split
              · exact ⟨_, rfl⟩
              · exact ⟨_, rfl⟩
            obtain ⟨e, he⟩ := he
            constructor
            · intro h
              rw [he] at h
              simp only [firstError_none, firstError_some] at h
              exact absurd h (bad _ _ _ _ hlen (by split <;> split <;> rfl))
            · rintro ⟨opts, h1, h2, _⟩
              cases opts with
              | nil => cases h1
              | cons o os =>
                have h1' : cs = o ++ optText os := by injection h1
                have hid := (h2 o (by simp)).1
                have hd : decodeRune cs = decodeRune o := by
                  rw [h1']
                  rcases optText_head os with h0 | ⟨r, h0⟩
                  · rw [h0, List.append_nil]
                  · rw [h0, decodeRune_comma _ _ hid.1]
                rw [hd] at hfirst
                exact absurd hid.2.1 hfirst
      · have hcond : ¬ (c = 0x2c ∧ (if c ≠ 0x2c then c :: cs else cs).isEmpty = true) := fun h => hc h.1
        rw [if_neg hcond]
        have hlen : (consumeTagOption u (c :: cs)).2.1.length ≤ fuel := by
          have := consumeTagOption_progress u c cs hc
          omega
        simp only [ne_eq, hc, not_false_eq_true, if_true, firstError_none, firstError_some]
        constructor
        · intro h
          exact absurd h (bad _ _ _ _ hlen (by split <;> split <;> split <;> rfl))
        · rintro ⟨opts, h1, _⟩
          cases opts with
          | nil => cases h1
          | cons o os => injection h1 with h1 _; exact absurd h1 hc

end GoThrift
