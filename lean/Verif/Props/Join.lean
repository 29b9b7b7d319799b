import Verif.Proof.Join
import Verif.Props.Strip

/-!
# C86: two sources one after the other
-/

namespace GoThrift

open Spec Idl

/-- **C86**: two sources without errors, with a newline between them, are without errors exactly if the second does not begin with a byte order mark, and the first has no definitions or the second no
headers. The tree then has the headers and the definitions of the first and then those of the second. -/
theorem C86_join (env : IdlEnv) (ha : AsciiTables env.u) {src src2 : Bytes} {f f2 : File} (h : Parse env src = .done (f, [])) (h2 : Parse env src2 = .done (f2, [])) (k : File) :
    Parse env (src ++ 0x0a :: src2) = .done (k, []) ↔
      ¬ [0xef, 0xbb, 0xbf] <+: src2 ∧ (f.defs = [] ∨ f2.headers = []) ∧ k = ⟨f.headers ++ f2.headers, f.defs ++ f2.defs⟩ := by
  obtain ⟨ok1, t1, l1, g1⟩ := (C41_grammar env ha src f).1 h
  obtain ⟨ok2, t2, l2, g2⟩ := (C41_grammar env ha src2 f2).1 h2
  rw [C41_grammar env ha, sourceText_join ok1]
  by_cases hm : [0xef, 0xbb, 0xbf] <+: src2
  · refine ⟨fun hk => ?_, fun hk => absurd hm hk.1⟩
    obtain ⟨c, cs, h3, h4⟩ := (chars_mark src2).2 hm
    exact absurd h4 (hk.1 c (by rw [h3]; simp)).2.2
  · rw [sourceText_plain hm] at ok2 l2
    have hl := Idl.Lex.join (c := (0x0a, [0x0a])) l1 rfl l2
    have hok : ∀ c ∈ sourceText src ++ (0x0a, [0x0a]) :: chars src2, c.Ok := by
      intro c hc
      rcases List.mem_append.1 hc with hc | hc
      · exact ok1 c hc
      · rcases List.mem_cons.1 hc with rfl | hc
        · decide
        · exact ok2 c hc
    constructor
    · rintro ⟨_, toks, h3, h4⟩
      cases C56_unique env.u h3 hl
      by_cases he : f.defs = [] ∨ f2.headers = []
      · exact ⟨hm, he, h4.clear (g1.join g2 he) rfl⟩
      · rw [not_or] at he
        exact absurd h4 (g1.no_join g2 he.1 he.2)
    · rintro ⟨_, he, rfl⟩
      exact ⟨hok, _, hl, g1.join g2 he⟩

/-- **C86** (any number): the sources of definitions, each after a newline behind a source, add their definitions in order. -/
theorem C86_append (env : IdlEnv) (ha : AsciiTables env.u) {src : Bytes} {f : File} (h : Parse env src = .done (f, [])) (more : List (Bytes × List Def))
    (hm : ∀ p ∈ more, ¬ [0xef, 0xbb, 0xbf] <+: p.1 ∧ Parse env p.1 = .done (⟨[], p.2⟩, [])) :
    Parse env (more.foldl (fun s p => s ++ 0x0a :: p.1) src) = .done (⟨f.headers, f.defs ++ more.flatMap Prod.snd⟩, []) := by
  induction more generalizing src f with
  | nil => simpa using h
  | cons p more ih =>
    obtain ⟨h1, h2⟩ := hm p (by simp)
    have := (C86_join env ha h h2 _).2 ⟨h1, .inr rfl, rfl⟩
    have := ih this fun q hq => hm q (by simp [hq])
    simpa using this

/-- `typedef i32 x` -/
def exTypedef : Bytes := ascii "typedef i32 x"

/-- **C86** needs the newline: a source that ends in a comment takes what follows into the comment, and the last token can grow. -/
theorem C86_needs_newline : Parse exIdlEnv exConst = .done (exConstFile, []) ∧ Parse exIdlEnv (exConst ++ exConst) = .done (exConstFile, []) ∧
    (∃ f, Parse exIdlEnv exTypedef = .done (f, [])) ∧ ∀ f, Parse exIdlEnv (exTypedef ++ exTypedef) ≠ .done (f, []) := by
  refine ⟨exConst_parse, by decide +kernel, ⟨⟨[], [.typedef (.ref (ascii "i32") none) (ascii "x") none]⟩, by decide +kernel⟩, ?_⟩
  have : (match Parse exIdlEnv (exTypedef ++ exTypedef) with | .done (_, []) => false | _ => true) = true := by decide +kernel
  intro f h
  rw [h] at this
  cases this

/-! ## The hypotheses hold of these -/

/-- `include "a"` -/
def exInclude : Bytes := ascii "include \"a\""

theorem exInclude_parse : Parse exIdlEnv exInclude = .done (⟨[.include (ascii "\"a\"")], []⟩, []) := by decide +kernel

/-- A definition may follow a header, and a header may not follow a definition. -/
example : Parse exIdlEnv (exInclude ++ 0x0a :: exConst) = .done (⟨[.include (ascii "\"a\"")], exConstFile.defs⟩, []) ∧ ∀ k, Parse exIdlEnv (exConst ++ 0x0a :: exInclude) ≠ .done (k, []) := by
  refine ⟨(C86_join exIdlEnv exTables exInclude_parse exConst_parse _).2 ⟨by decide, .inl rfl, rfl⟩, fun k h => ?_⟩
  rcases ((C86_join exIdlEnv exTables exConst_parse exInclude_parse k).1 h).2.1 with h | h <;> cases h

/-- Three sources. -/
example : Parse exIdlEnv (exInclude ++ 0x0a :: exConst ++ 0x0a :: exConst2) = .done (⟨[.include (ascii "\"a\"")], exConstFile.defs ++ exConstFile.defs⟩, []) :=
  C86_append exIdlEnv exTables exInclude_parse [(exConst, exConstFile.defs), (exConst2, exConstFile.defs)] (by
    intro p hp
    simp only [List.mem_cons, List.not_mem_nil, or_false] at hp
    rcases hp with rfl | rfl
    · exact ⟨by decide, exConst_parse⟩
    · exact ⟨by decide, by decide +kernel⟩)

end GoThrift
