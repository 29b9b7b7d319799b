import Verif.Proof.Told
import Verif.Proof.Semi
import Verif.Props.Writable
import Verif.Props.Scan

/-!
# C84: separators, and what a tree tells of its source
-/

namespace GoThrift

open Spec Idl

theorem parse_tokens (env : IdlEnv) (ha : AsciiTables env.u) {src : Bytes} {f : File} (h : Parse env src = .done (f, [])) {toks : List Lx} (hl : Lex env.u (sourceText src) toks) :
    FileG f toks ∧ Spoken env.u toks := by
  obtain ⟨hok, toks', hL, hG⟩ := (C41_grammar env ha src f).1 h
  cases C56_unique env.u hl hL
  exact ⟨hG, hL.spoken (src := src) fun c hc => ⟨sourceText_mem hc, hok c hc⟩⟩

/-- **C84** (tree and tokens): of two sources without errors, `Parse` returns the same tree iff their tokens and the texts of these are the same, except for commas and semicolons. -/
theorem C84_same (env : IdlEnv) (ha : AsciiTables env.u) {src src' : Bytes} {f f' : File} (h : Parse env src = .done (f, [])) (h' : Parse env src' = .done (f', [])) {toks toks' : List Lx}
    (hl : Lex env.u (sourceText src) toks) (hl' : Lex env.u (sourceText src') toks') : f = f' ↔ strip toks = strip toks' := by
  obtain ⟨h1, h2⟩ := parse_tokens env ha h hl
  obtain ⟨h3, h4⟩ := parse_tokens env ha h' hl'
  constructor
  · rintro rfl
    exact h1.told h3 h2 h4
  · exact h1.clear h3

/-- **C84** (semicolons): a source with the tokens of a source without errors but its semicolons has no error, and its tree is the same. -/
theorem C84_semicolons (env : IdlEnv) (ha : AsciiTables env.u) {src src' : Bytes} {f : File} (h : Parse env src = .done (f, [])) {toks : List Lx} (hl : Lex env.u (sourceText src) toks)
    (hok : ∀ c ∈ sourceText src', Chr.Ok c) (hl' : Lex env.u (sourceText src') (noSemicolons toks)) : Parse env src' = .done (f, []) :=
  (C41_grammar env ha src' f).2 ⟨hok, _, hl', (parse_tokens env ha h hl).1.spared⟩

/-- `const i32 x = 1,;`, with the same tree as `exConst`. -/
def exConst2 : Bytes := [0x63, 0x6f, 0x6e, 0x73, 0x74, 0x20, 0x69, 0x33, 0x32, 0x20, 0x78, 0x20, 0x3d, 0x20, 0x31, 0x2c, 0x3b]

/-- Two sources of the same tree with other separators. -/
example : Parse exIdlEnv exConst = .done (exConstFile, []) ∧ Parse exIdlEnv exConst2 = .done (exConstFile, []) ∧
    ∃ toks toks', Lex exIdlEnv.u (sourceText exConst) toks ∧ Lex exIdlEnv.u (sourceText exConst2) toks' := by
  have h2 : Parse exIdlEnv exConst2 = .done (exConstFile, []) := by decide +kernel
  obtain ⟨_, t, h, _⟩ := (C41_grammar exIdlEnv exTables _ _).1 exConst_parse
  obtain ⟨_, t', h', _⟩ := (C41_grammar exIdlEnv exTables _ _).1 h2
  exact ⟨exConst_parse, h2, t, t', h, h'⟩

/-- There is a source with the tokens of `exConst2` but its semicolon. -/
example : ∃ src' toks, Parse exIdlEnv exConst2 = .done (exConstFile, []) ∧ Lex exIdlEnv.u (sourceText exConst2) toks ∧ (∀ c ∈ sourceText src', Chr.Ok c) ∧
    Lex exIdlEnv.u (sourceText src') (noSemicolons toks) := by
  have h2 : Parse exIdlEnv exConst2 = .done (exConstFile, []) := by decide +kernel
  obtain ⟨_, toks, hl, _⟩ := (C41_grammar exIdlEnv exTables _ _).1 h2
  obtain ⟨_, hS⟩ := parse_tokens exIdlEnv exTables h2 hl
  obtain ⟨hL, hok⟩ := spaced_lex (w := noSemicolons toks) fun x hx => hS x (List.mem_filter.1 hx).1
  have e : sourceText (spaced (noSemicolons toks)) = chars (spaced (noSemicolons toks)) := by
    unfold sourceText
    split
    · rename_i c cs e
      rw [if_neg (hok c (by rw [e]; simp)).2.2, e]
    · rename_i e
      rw [e]
  exact ⟨_, toks, h2, hl, by rw [e]; exact hok, by rw [e]; exact hL⟩

end GoThrift
