import Verif.Proof.LexPos
import Verif.Proof.ParseOpen
import Verif.Props.Parse
import Verif.Props.Stringer

/-!
# C63: what the errors of the parser say
-/

namespace GoThrift

open Spec Idl

theorem tokenText_eq (t : Token) : tokenText t = wordBytes (nameOf "token" tokenNames t) := by
  unfold tokenText
  rw [C46_token.1 t]
  rfl

theorem isLiteral_iff : ∀ t : Token, isLiteral t = true ↔ t ∈ [Tk.ident, Tk.int, Tk.float, Tk.string] := by decide +kernel

/-- The text of an error of the parser. -/
theorem expected_text (env : IdlEnv) (w : What) (t : TS) :
    (Msg.expected w (some t.found)).text env = wordBytes "expected " ++ whatText w ++ wordBytes ", found " ++ foundText t.tok t.lit := by
  have h1 : (∀ l, (Msg.expected w (some (.lit l))).text env = wordBytes "expected " ++ whatText w ++ (wordBytes ", found " ++ l)) ∧
      ∀ x, (Msg.expected w (some (.tok x))).text env = wordBytes "expected " ++ whatText w ++ (wordBytes ", found '" ++ wordBytes (nameOf "token" tokenNames x) ++ wordBytes "'") := by
    have h2 : ∀ t, whatText (.tok t) = Idl.text "'" ++ tokenText t ++ Idl.text "'" := fun t => by rw [tokenText_eq]; rfl
    constructor
    · intro l
      cases w with
      | tok t => rw [h2]; rfl
      | _ => rfl
    · intro x
      rw [← tokenText_eq]
      cases w with
      | tok t => rw [h2]; rfl
      | _ => rfl
  unfold TS.found foundText
  by_cases h : isLiteral t.tok = true
  · rw [if_pos h, if_pos ((isLiteral_iff _).1 h), h1.1, List.append_assoc _ (wordBytes ", found ")]
  · rw [if_neg h, if_neg fun h' => h ((isLiteral_iff _).2 h'), h1.2, List.append_assoc _ (wordBytes ", found "), show wordBytes ", found '" = wordBytes ", found " ++ wordBytes "'" by decide +kernel]
    unfold quoted
    simp only [List.append_assoc]

/-- **C63** (found): every error of `Parse` is one of the scanner, or stands at a token and says what is expected there and what is found: the text of a name, a number or a string, else the token in quotes. -/
theorem C63_found (env : IdlEnv) (src : Bytes) {f : File} {errs : List PosErr} (h : Parse env src = .done (f, errs)) :
    ∃ toks s, scanAll env.u (src.length + 2) (Scanner.init src) = .done (toks, s) ∧
      ∀ e ∈ errs, (∃ e' ∈ s.errs, e'.offset = e.offset ∧ e'.msg = e.msg) ∨
        ∃ w found, e.msg.text env = wordBytes "expected " ++ whatText w ++ wordBytes ", found " ++ found ∧
          ((∃ t ∈ code toks, e.offset = t.from_ ∧ found = foundText t.tok t.text) ∨ (e.offset = src.length ∧ found = quoted Tk.eof)) := by
  obtain ⟨toks, s, l, K, f', t, errs', s1, s2, s3, h1, h2, h3, h4, h5, h6, h7, h8, h9, h10⟩ := Parse_run env src
  rw [h] at h8
  injection h8 with h8
  injection h8 with _ h8
  refine ⟨toks, s, s1, fun e he => ?_⟩
  have hm : e.key ∈ K ++ t.errs := h9.mem_iff.1 (List.mem_map_of_mem ((env.sort_perm (less env) errs').mem_iff.1 (by rw [← h8]; exact he)))
  rcases List.mem_append.1 hm with hm | hm
  · rw [s3] at hm
    obtain ⟨e', he', hk⟩ := List.mem_map.1 hm
    exact .inl ⟨e', he', congrArg Prod.fst hk, congrArg Prod.snd hk⟩
  · obtain ⟨more, g1, g2⟩ := run_errs h5
    rw [g1] at hm
    obtain ⟨t2, w, g3, g4, g5⟩ := g2 _ hm
    have hoff : e.offset = t2.pos := congrArg Prod.fst g5
    have hmsg : e.msg = .expected w (some t2.found) := congrArg Prod.snd g5
    refine .inr ⟨w, _, by rw [hmsg]; exact expected_text env w t2, ?_⟩
    cases hr : t2.rest with
    | nil =>
      refine .inr ⟨?_, ?_⟩
      · rw [hoff]; unfold TS.pos; rw [hr]; exact g3
      · unfold TS.tok; rw [hr]; rfl
    | cons x r =>
      have hx : x ∈ l := g4.subset (by rw [hr]; exact List.mem_cons_self)
      rw [s2] at hx
      obtain ⟨y, hy, rfl⟩ := List.mem_map.1 hx
      refine .inl ⟨y, hy, ?_, ?_⟩
      · rw [hoff]; unfold TS.pos; rw [hr]
      · unfold TS.tok TS.lit; rw [hr]

/-- `struct S { 1: }` -/
def exNoType : Bytes := [0x73, 0x74, 0x72, 0x75, 0x63, 0x74, 0x20, 0x53, 0x20, 0x7b, 0x20, 0x31, 0x3a, 0x20, 0x7d]

/-- The type of the field is missing: one error, at the brace; the definition is given up. -/
theorem exNoType_parse : Parse exIdlEnv exNoType = .done (⟨[], [.bad 0 15]⟩, [⟨14, 1, 15, .expected .type (some (.tok Tk.rbrace))⟩]) := by decide +kernel

example : (Msg.expected .type (some (.tok Tk.rbrace))).text exIdlEnv = wordBytes "expected type, found '}'" := by decide +kernel

/-- **C63** (first): take a source without errors of the scanner, and of the errors that `Parse` returns for it one with the smallest offset. What is before that offset can be continued to a source that `Parse`
accepts, with anything that the error says is expected; and with the token that is found there it cannot be continued. -/
theorem C63_first (env : IdlEnv) (ha : AsciiTables env.u) {src : Bytes} {f : File} {errs : List PosErr} {lx : List Lx} (h : Parse env src = .done (f, errs)) (hok : ∀ c ∈ sourceText src, c.Ok)
    (hlx : Lex env.u (sourceText src) lx) (hne : errs ≠ []) :
    ∃ e ∈ errs, (∀ e' ∈ errs, e.offset ≤ e'.offset) ∧ ∃ w found before rest, e.msg.text env = wordBytes "expected " ++ whatText w ++ wordBytes ", found " ++ found ∧ lx = before ++ rest ∧
      Lex env.u (sourceText (src.take e.offset ++ [0x0a])) before ∧
      (∀ x ∈ begins w, ∃ more f', Parse env (src.take e.offset ++ 0x0a :: (sample x ++ 0x20 :: more)) = .done (f', [])) ∧
      (rest = [] → e.offset = src.length ∧ found = quoted Tk.eof) ∧
      (∀ t rest', rest = t :: rest' → found = foundText t.1 t.2 ∧ t.2 <+: src.drop e.offset ∧
        ∀ src' lx' f', Lex env.u (sourceText src') (before ++ t :: lx') → Parse env src' ≠ .done (f', [])) := by
  obtain ⟨toks, s, l, K, f1, t, errs', s1, s2, s3, h1, h2, h3, h4, h5, h6, h7, h8, h9, h10⟩ := Parse_run env src
  rw [h] at h8
  injection h8 with h8
  injection h8 with _ h8
  obtain ⟨hlxe, hK⟩ := (h4 ha).2 lx hlx
  have hK := hK hok
  have hperm := env.sort_perm (less env) errs'
  rw [← h8] at hperm
  have hkeys : (errs.map PosErr.key).Perm t.errs := by
    have := (hperm.map PosErr.key).trans h9
    rwa [hK, List.nil_append] at this
  -- the first error
  obtain ⟨t1, w, hf⟩ : ∃ t1 w, (file_ (src.length + 1)).first ⟨l, src.length, []⟩ = some (t1, w) := by
    cases hf : (file_ (src.length + 1)).first ⟨l, src.length, []⟩ with
    | some x => exact ⟨x.1, x.2, rfl⟩
    | none =>
      have := first_none h5 hf
      change t.errs = [] at this
      rw [this] at hkeys
      exact absurd (List.map_eq_nil_iff.1 (List.perm_nil.1 hkeys)) hne
  obtain ⟨more, g1, g2⟩ := first_some h5 hf
  rw [List.nil_append] at g1
  obtain ⟨_, heof, hsuf⟩ := first_suffix hf
  change t1.eof = src.length at heof
  obtain ⟨lpre, hl⟩ := hsuf
  change lpre ++ t1.rest = l at hl
  obtain ⟨e, he, hk⟩ : ∃ e ∈ errs, e.key = (t1.pos, .expected w (some t1.found)) :=
    List.mem_map.1 (hkeys.mem_iff.2 (by rw [g1]; exact List.mem_cons_self))
  have hoff : e.offset = t1.pos := congrArg Prod.fst hk
  have hmsg : e.msg = .expected w (some t1.found) := congrArg Prod.snd hk
  -- where it is
  have hsf : s.errs = [] := List.map_eq_nil_iff.1 (s3.symm.trans hK)
  have hpos := scan_lexPos ha s1 hsf
  rw [← s2] at hpos
  obtain ⟨x, y, hxy, hy, hp, hcut⟩ := hpos.cut hl.symm
  have hat := (Scanner.init_at src).1
  have hrest := hat.rest
  rw [Scanner.init_src] at hrest
  have hb := bytesOf_chars (src.drop (Scanner.init src).offset)
  rw [hrest, hxy, bytesOf_append] at hb
  have hat_le := hat.le
  rw [Scanner.init_src] at hat_le
  have hoffx : e.offset = (Scanner.init src).offset + (bytesOf x).length := by
    rw [hoff]
    unfold TS.pos
    cases hr : t1.rest with
    | nil =>
      dsimp only
      rw [hy hr, show bytesOf ([] : List Chr) = [] from rfl, List.append_nil] at hb
      rw [heof, hb, List.length_drop]
      omega
    | cons z r => exact (hp z r hr).1
  have hword := (file_full (src.length + 1) ⟨l, src.length, []⟩ (show l.length < _ by omega)).first t1 w hf
  obtain ⟨pre, hpre, hword⟩ := hword
  have hpre : pre = lpre.map Scanner.plain := by
    change l.map Scanner.plain = pre ++ t1.rest.map Scanner.plain at hpre
    rw [← hl, List.map_append] at hpre
    exact (List.append_cancel_right hpre).symm
  refine ⟨e, he, fun e' he' => ?_, w, foundText t1.tok t1.lit, lpre.map Scanner.plain, t1.rest.map Scanner.plain, by rw [hmsg]; exact expected_text env w t1, by rw [hlxe, ← hl, List.map_append], ?_, ?_, ?_, ?_⟩
  · have hk' : e'.key ∈ t.errs := hkeys.mem_iff.1 (List.mem_map_of_mem he')
    rw [g1] at hk'
    rcases List.mem_cons.1 hk' with hk' | hk'
    · rw [hoff, show e'.offset = t1.pos from congrArg Prod.fst hk']
      exact Nat.le_refl _
    · obtain ⟨t2, w2, c1, ⟨q, c2⟩, c3⟩ := g2 _ hk'
      rw [hoff, show e'.offset = t2.pos from congrArg Prod.fst c3]
      change t2.eof = src.length at c1
      rw [← hl, ← c2] at h3
      have hmem1 : ∀ z ∈ t1.rest, z.2.2 < src.length := fun z hz => (h2 z (by rw [← hl]; exact List.mem_append_right _ hz)).2.2
      have hp1 := (List.pairwise_append.1 h3).2.1
      unfold TS.pos
      cases q with
      | nil => rw [List.nil_append] at c2; rw [c2, c1, heof]; exact Nat.le_refl _
      | cons z q =>
        rw [← c2] at hmem1 ⊢
        rw [List.cons_append]
        dsimp only
        cases hr2 : t2.rest with
        | nil => dsimp only; rw [c1]; exact Nat.le_of_lt (hmem1 z List.mem_cons_self)
        | cons z2 r2 =>
          rw [hr2] at hp1
          exact Nat.le_of_lt ((List.pairwise_cons.1 hp1).1 z2 (by simp))
  · rw [hoffx, sourceText_cut hxy hok (more := [0x0a]) (by decide) (by decide)]
    have := hcut (0x0a, [0x0a]) [] [] rfl (.white (.inr (.inr (.inl rfl))) .nil)
    rw [List.append_nil] at this
    exact this
  · intro x0 hx0
    obtain ⟨a, suf, hstd, hG⟩ := hword x0 hx0
    have heq : (0x0a :: (sample x0 ++ 0x20 :: spaced suf) : Bytes) = 0x0a :: spaced ((x0, sample x0) :: suf) := by
      unfold spaced
      rw [List.flatMap_cons, List.append_assoc]
      rfl
    have hasc : ∀ b ∈ (0x0a :: spaced ((x0, sample x0) :: suf) : Bytes), b.toNat < 0x80 ∧ b ≠ 0 := by
      intro b hb
      rcases List.mem_cons.1 hb with rfl | hb
      · decide
      · exact spaced_ascii hstd b hb
    refine ⟨spaced suf, a, (C41_grammar env ha _ a).2 ?_⟩
    rw [hoffx, heq, sourceText_cut hxy hok hasc (by simp)]
    refine ⟨fun c hc => ?_, _, ?_, hG⟩
    · rcases List.mem_append.1 hc with hc | hc
      · exact hok c (by rw [hxy]; exact List.mem_append_left _ hc)
      · exact ascii_ok hasc c hc
    · rw [hpre]
      exact hcut (0x0a, [0x0a]) _ _ rfl (.white (.inr (.inr (.inl rfl))) (spaced_lex env.u hstd))
  · intro hr
    have hr := List.map_eq_nil_iff.1 hr
    refine ⟨?_, ?_⟩
    · rw [hoff]; unfold TS.pos; rw [hr]; exact heof
    · unfold TS.tok TS.lit; rw [hr]; rfl
  · intro z rest' hz
    cases hr : t1.rest with
    | nil => rw [hr] at hz; cases hz
    | cons z1 r1 =>
      rw [hr, List.map_cons] at hz
      injection hz with hz1 hz2
      subst hz1
      refine ⟨?_, ?_, ?_⟩
      · unfold TS.tok TS.lit; rw [hr]; rfl
      · obtain ⟨_, v, r, hyv, hv⟩ := hp z1 r1 hr
        rw [hoffx, ← List.drop_drop, ← hb, List.drop_left, hyv, bytesOf_append]
        exact ⟨bytesOf r, by rw [show (Scanner.plain z1).2 = bytesOf v from hv]⟩
      · intro src' lx' f' hL hP
        obtain ⟨_, toks', hL', hG⟩ := (C41_grammar env ha src' f').1 hP
        have hu := C56_unique env.u hL hL'
        subst hu
        have hplain : ∀ w : List Lx, (w.map fun x : Lx => (x.1, x.2, 0)).map Scanner.plain = w := fun w => by rw [List.map_map]; exact List.map_id w
        have hN := Nat.le_max_left (src.length + 1) ((lpre.map Scanner.plain ++ Scanner.plain z1 :: lx').length + 1)
        have hM := Nat.le_max_right (src.length + 1) ((lpre.map Scanner.plain ++ Scanner.plain z1 :: lx').length + 1)
        generalize max (src.length + 1) ((lpre.map Scanner.plain ++ Scanner.plain z1 :: lx').length + 1) = N at hN hM
        obtain ⟨t2, k1, k2, k3, _⟩ := Eats.file hG (n := N) (by omega)
          ⟨(lpre.map Scanner.plain ++ Scanner.plain z1 :: lx').map fun x : Lx => (x.1, x.2, 0), 0, []⟩ (by rw [List.append_nil]; exact hplain _)
        obtain ⟨q, hq⟩ := first_look (file_any hN) hf (by show l = lpre ++ z1 :: r1; rw [← hl, hr]) hr
          (t2 := ⟨(lpre.map Scanner.plain ++ Scanner.plain z1 :: lx').map fun x : Lx => (x.1, x.2, 0), 0, []⟩) (pre := lpre) (r2 := lx') (hplain _)
        obtain ⟨more2, m1, _⟩ := first_some (t1 := q.1) (w := q.2) k1 hq
        rw [k3] at m1
        cases m1

/-- The hypotheses hold for `exNoType`. -/
example : AsciiTables exIdlEnv.u ∧ (∀ c ∈ sourceText exNoType, c.Ok) ∧ (∃ lx, Lex exIdlEnv.u (sourceText exNoType) lx) ∧ ∃ f errs, Parse exIdlEnv exNoType = .done (f, errs) ∧ errs ≠ [] := by
  have hok : ∀ c ∈ sourceText exNoType, c.Ok := by decide +kernel
  refine ⟨exTables, hok, ?_, _, _, exNoType_parse, by decide⟩
  obtain ⟨l, s, h1, h2, _⟩ := C56_lexical exIdlEnv.u exTables exNoType
  have hs : s.errs = [] := by
    have h3 : ((scanAll exIdlEnv.u (exNoType.length + 2) (Scanner.init exNoType)).bind fun r => .done r.2.errs) = .done [] := by decide +kernel
    rw [h1, Out.bind_done] at h3
    injection h3
  exact (h2.1 hs).2

/-- One continuation of what is before the brace: the expected type, a name and the closing brace. -/
example : ∃ f, Parse exIdlEnv (exNoType.take 14 ++ 0x0a :: (sample Tk.ident ++ 0x20 :: [0x61, 0x20, 0x7d, 0x20])) = .done (f, []) :=
  ⟨⟨[], [.struct false false [0x53] [⟨some [0x31], false, false, .ref [0x61] none, false, [0x61], none, none⟩] none]⟩, by decide +kernel⟩

end GoThrift
