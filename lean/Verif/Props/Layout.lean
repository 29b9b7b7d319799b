import Verif.Proof.ParsePlaces
import Verif.Props.Resume

/-!
# C43: comments and layout
-/

namespace GoThrift

open Spec Idl

/-- **C43** (lexemes): inserting white space and comments between lexemes does not change the lexemes of a text, and does not make a text one that has none. -/
theorem C43_lex {u : Unicode} {x y gap : List Chr} (hg : Gap gap) (hc : Cut u y gap x) (toks : List (Token × Bytes)) : Lex u (x ++ (gap ++ y)) toks ↔ Lex u (x ++ y) toks := hc.lex hg

/-- **C43** (files): inserting white space and comments between lexemes does not change whether `Parse` reports errors, and if it reports none, it returns the same file. -/
theorem C43_layout (env : IdlEnv) (ha : AsciiTables env.u) {src src' : Bytes} {x y gap : List Chr} (hs : sourceText src = x ++ y) (hs' : sourceText src' = x ++ (gap ++ y)) (hg : Gap gap)
    (hok : ∀ c ∈ gap, Chr.Ok c) (hc : Cut env.u y gap x) (f : File) : Parse env src' = .done (f, []) ↔ Parse env src = .done (f, []) := by
  rw [C41_grammar env ha, C41_grammar env ha, hs, hs']
  have hall : (∀ c ∈ x ++ (gap ++ y), Chr.Ok c) ↔ ∀ c ∈ x ++ y, Chr.Ok c := by
    constructor
    · intro h c hc
      apply h
      rcases List.mem_append.1 hc with hc | hc
      · exact List.mem_append_left _ hc
      · exact List.mem_append_right _ (List.mem_append_right _ hc)
    · intro h c hc
      rcases List.mem_append.1 hc with hc | hc
      · exact h c (List.mem_append_left _ hc)
      · rcases List.mem_append.1 hc with hc | hc
        · exact hok c hc
        · exact h c (List.mem_append_right _ hc)
  rw [hall]
  simp only [hc.lex hg]

/-- **C43** (syntax errors): if the lexemes of the source are well-formed, inserting white space and comments between them does not change the tree, up to the positions of what was given up, nor the messages
of the errors. -/
theorem C43_errors (env : IdlEnv) (ha : AsciiTables env.u) {src src' : Bytes} {x y gap : List Chr} (hs : sourceText src = x ++ y) (hs' : sourceText src' = x ++ (gap ++ y)) (hg : Gap gap)
    (hok : ∀ c ∈ gap, Chr.Ok c) (hc : Cut env.u y gap x) {toks : List (Token × Bytes)} (hlex : Lex env.u (sourceText src) toks) (hsrc : ∀ c ∈ sourceText src, Chr.Ok c) {f : File} {errs : List PosErr}
    (hP : Parse env src = .done (f, errs)) :
    ∃ f' errs', Parse env src' = .done (f', errs') ∧ f'.headers = f.headers ∧ f'.defs.map Def.erase = f.defs.map Def.erase ∧ (errs'.map PosErr.msg).Perm (errs.map PosErr.msg) := by
  have hlex' : Lex env.u (sourceText src') toks := by
    rw [hs']
    rw [hs] at hlex
    exact (hc.lex hg).2 hlex
  have hsrc' : ∀ c ∈ sourceText src', Chr.Ok c := by
    rw [hs']
    rw [hs] at hsrc
    intro c hc
    rcases List.mem_append.1 hc with hc | hc
    · exact hsrc c (List.mem_append_left _ hc)
    · rcases List.mem_append.1 hc with hc | hc
      · exact hok c hc
      · exact hsrc c (List.mem_append_right _ hc)
  obtain ⟨tk, sc, l, K, f1, t, errs1, s1, s2, s3, h1, h2, h3, h4, h5, h6, h7, h8, h9, h10⟩ := Parse_run env src
  obtain ⟨tk', sc', l', K', f2, t', errs2, s1', s2', s3', g1, g2, g3, g4, g5, g6, g7, g8, g9, g10⟩ := Parse_run env src'
  obtain ⟨a1, a2⟩ := (h4 ha).2 toks hlex
  obtain ⟨b1, b2⟩ := (g4 ha).2 toks hlex'
  rw [a2 hsrc] at s3
  rw [b2 hsrc'] at s3'
  have hl : lexemes tk = toks := by rw [a1, s2, List.map_map]; rfl
  have hl' : lexemes tk' = toks := by rw [b1, s2', List.map_map]; rfl
  obtain ⟨g, ks, _, hall⟩ := Parse_places toks
  obtain ⟨e1, p1, q1⟩ := hall env src tk sc s1 hl
  obtain ⟨e2, p2, q2⟩ := hall env src' tk' sc' s1' hl'
  rw [hP] at p1
  injection p1 with p1
  obtain ⟨rfl, rfl⟩ := Prod.mk.inj p1
  rw [← s3, List.nil_append] at q1
  rw [← s3', List.nil_append] at q2
  have he : ∀ pl : Nat → Nat, (g.place pl).defs.map Def.erase = g.defs.map Def.erase := fun pl => by
    show (g.defs.map _).map _ = _
    rw [List.map_map]
    exact List.map_congr_left fun d _ => by cases d <;> rfl
  refine ⟨_, _, p2, rfl, (he _).trans (he _).symm, ?_⟩
  have hm : ∀ l : List PosErr, l.map PosErr.msg = (l.map PosErr.key).map Prod.snd := fun l => by rw [List.map_map]; rfl
  have hk : ∀ pl : Nat → Nat, (ks.map fun k => (pl k.1, k.2)).map Prod.snd = ks.map Prod.snd := fun pl => by rw [List.map_map]; rfl
  rw [hm, hm]
  have q1 := q1.map Prod.snd
  have q2 := q2.map Prod.snd
  rw [hk] at q1 q2
  exact q2.trans q1.symm

/-- A text of ASCII characters. -/
def plainText (w : Bytes) : List Chr := w.map fun b => (b.toNat, [b])

/-- ` /**/ # d` and a newline. -/
def exGap : List Chr := plainText [0x20, 0x2f, 0x2a, 0x2a, 0x2f, 0x20, 0x23, 0x20, 0x64, 0x0a]

theorem exGap_gap : Gap exGap :=
  .white (.inl rfl) (.full (w := plainText [0x2f, 0x2a, 0x2a, 0x2f]) ⟨[], by decide, rfl⟩ (.white (.inl rfl) (.line (w := plainText [0x23, 0x20, 0x64]) (v := []) ⟨[0x23], [0x20, 0x64], .inl rfl, by decide, rfl⟩ rfl .nil)))

/-- `enum` -/
def exWord : Bytes := [0x65, 0x6e, 0x75, 0x6d]

/-- ` A{} }` -/
def exRest : Bytes := [0x20, 0x41, 0x7b, 0x7d, 0x20, 0x7d]

/-- Behind `enum` there is room for white space and comments. -/
theorem exWord_cut (u : Unicode) : Cut u (plainText exRest) exGap (plainText exWord) := by
  have hl : Lexeme u Tk.enum (plainText exWord) := by
    refine .word (c := (0x65, [0x65])) (w := plainText [0x6e, 0x75, 0x6d]) (.inr (.inl ⟨by decide, by decide⟩)) ?_ (.inl ⟨"enum", by simp [reserved], by decide⟩)
    intro d hd
    simp [plainText] at hd
    rcases hd with rfl | rfl | rfl <;> exact .inl (.inr (.inl ⟨by decide, by decide⟩))
  have hline : ¬ LineComment (plainText exWord) := by
    rintro ⟨o, b, h1, _, h2⟩
    rcases h1 with rfl | rfl <;> cases h2
  have hn0 : NextLexeme u (plainText exWord ++ []) Tk.enum (plainText exWord) [] := ⟨rfl, hl, fun t' w' rest' he _ => by
    have := congrArg List.length he
    rw [List.length_append, List.length_append] at this
    simp at this
    omega, fun ⟨h, _⟩ => nomatch h⟩
  have hn : NextLexeme u (plainText exWord ++ ([] ++ plainText exRest)) Tk.enum (plainText exWord) ([] ++ plainText exRest) :=
    hn0.gap (c := (0x20, [0x20])) (r' := plainText [0x41, 0x7b, 0x7d, 0x20, 0x7d]) (.inl (.inl rfl)) (fun h => absurd h hline) (fun h => nomatch h)
  have := Cut.lexeme (x := []) (gap := exGap) hn (fun _ c v _ => ⟨fun h => absurd h hline, fun h => nomatch h⟩) .nil
  rwa [List.append_nil] at this

/-- `enum A{} }`, and the same with a comment behind `enum`: the hypotheses of the theorems hold, and there is an error. -/
example : sourceText (exWord ++ exRest) = plainText exWord ++ plainText exRest ∧ sourceText (exWord ++ exGap.flatMap Prod.snd ++ exRest) = plainText exWord ++ (exGap ++ plainText exRest) ∧ Gap exGap ∧ (∀ c ∈ exGap, Chr.Ok c) ∧
    Cut exIdlEnv.u (plainText exRest) exGap (plainText exWord) ∧ (∃ toks, Lex exIdlEnv.u (sourceText (exWord ++ exRest)) toks) ∧ (∀ c ∈ sourceText (exWord ++ exRest), Chr.Ok c) ∧
    Parse exIdlEnv (exWord ++ exRest) = .done (⟨[], [.enum [0x41] [] none, .bad 9 10]⟩, [⟨9, 1, 10, .expected .definition (some (.tok Tk.rbrace))⟩]) := by
  refine ⟨by decide +kernel, by decide +kernel, exGap_gap, by decide +kernel, exWord_cut _, ?_, by decide +kernel, by decide +kernel⟩
  obtain ⟨toks, sf, l, K, f1, t, errs1, s1, _, s3, h1, h2, h3, h4, _⟩ := Parse_run exIdlEnv (exWord ++ exRest)
  have : (scanAll exIdlEnv.u ((exWord ++ exRest).length + 2) (Scanner.init (exWord ++ exRest))).bind (fun r => .done (r.2.errs.map PosErr.key)) = .done [] := by decide +kernel
  rw [s1, Out.bind_done] at this
  injection this with this
  exact ⟨_, ((h4 exTables).1 (s3.trans this)).1⟩

/-- **C43** (a limit): among malformed lexemes a comment does matter. A string with a newline in it does not set the token of the scanner, so the parser sees the previous one again, or skips it if it was
a comment: here a comment before the string makes a definition that was given up disappear, and one of the two errors. -/
theorem C43_broken : ∃ (env : IdlEnv) (src src' : Bytes) (x y gap : List Chr) (f f' : File) (errs errs' : List PosErr), AsciiTables env.u ∧ sourceText src = x ++ y ∧ sourceText src' = x ++ (gap ++ y) ∧ Gap gap ∧
    (∀ c ∈ gap, Chr.Ok c) ∧ Cut env.u y gap x ∧ Parse env src = .done (f, errs) ∧ Parse env src' = .done (f', errs') ∧ f.defs = [.bad 0 2] ∧ f'.defs = [] ∧ errs.length = 2 ∧ errs'.length = 1 := by
  refine ⟨exIdlEnv, [0x22, 0x0a], [0x2f, 0x2a, 0x2a, 0x2f, 0x22, 0x0a], [], plainText [0x22, 0x0a], plainText [0x2f, 0x2a, 0x2a, 0x2f], ⟨[], [.bad 0 2]⟩, ⟨[], []⟩,
    [⟨0, 1, 1, .expected .definition (some (.tok 0))⟩, ⟨1, 1, 2, .newline⟩], [⟨5, 1, 6, .newline⟩], exTables, by decide +kernel, by decide +kernel, ?_, by decide +kernel, .nil,
    by decide +kernel, by decide +kernel, rfl, rfl, rfl, rfl⟩
  exact .full (w := plainText [0x2f, 0x2a, 0x2a, 0x2f]) (v := []) ⟨[], by decide, rfl⟩ .nil

end GoThrift
