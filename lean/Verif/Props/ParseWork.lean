import Verif.Proof.ParseWork
import Verif.Proof.ScanWork
import Verif.Spec.IdlExample

/-!
# C89: Parse does work, and reports errors, in proportion to its source
-/

namespace GoThrift

open Spec Idl

/-- **C89** (work): the parser looks at its token, at its place or at its text, goes on to the next token or reports an error at most 22 times for each token that is not a comment, and twice more. -/
theorem C89_work (env : IdlEnv) (src : Bytes) : ∃ toks sf s0 f s k, scanAll env.u (src.length + 2) (Scanner.init src) = .done (toks, sf) ∧ (code toks).length ≤ src.length ∧
    (Scanner.init src).nextToken env.u = .done s0 ∧ (file_ (src.length + 1)).run ((scannerSource env.u).counted Weights.each) (s0, 0) = .done (some f, (s, k)) ∧
    Parse env src = .done (f, env.sort (less env) s.errs) ∧ k ≤ 22 * (code toks).length + 2 := by
  obtain ⟨toks, sf, s0, f, s, k, h1, h2, h3, h4, h5, h6⟩ := Parse_counted (w := Weights.each) ⟨22, 4, by decide, by decide, by decide, by decide, by decide, by decide⟩ env src
  refine ⟨toks, sf, s0, f, s, k, h1, h2, h3, h4, h5, ?_⟩
  change (k : Int) ≤ 22 * ((code toks).length : Int) + 2 * 1 at h6
  omega

/-- **C89** (tokens): it asks for the next token at most four times for each token that is not a comment. -/
theorem C89_next (env : IdlEnv) (src : Bytes) : ∃ toks sf s0 f s k, scanAll env.u (src.length + 2) (Scanner.init src) = .done (toks, sf) ∧
    (Scanner.init src).nextToken env.u = .done s0 ∧ (file_ (src.length + 1)).run ((scannerSource env.u).counted Weights.eachNext) (s0, 0) = .done (some f, (s, k)) ∧
    Parse env src = .done (f, env.sort (less env) s.errs) ∧ k ≤ 4 * (code toks).length := by
  obtain ⟨toks, sf, s0, f, s, k, h1, h2, h3, h4, h5, h6⟩ := Parse_counted (w := Weights.eachNext) ⟨4, 1, by decide, by decide, by decide, by decide, by decide, by decide⟩ env src
  refine ⟨toks, sf, s0, f, s, k, h1, h3, h4, h5, ?_⟩
  change (k : Int) ≤ 4 * ((code toks).length : Int) + 2 * 0 at h6
  omega

/-- **C89** (errors): of the errors that `Parse` returns, at most two for each byte are of the scanner, and at most three for each token that is not a comment are of the parser; so there are at most five times as many as bytes. -/
theorem C89_errors (env : IdlEnv) (src : Bytes) {f : File} {errs : List PosErr} (h : Parse env src = .done (f, errs)) :
    ∃ toks sf, scanAll env.u (src.length + 2) (Scanner.init src) = .done (toks, sf) ∧ sf.errs.length ≤ 2 * src.length ∧ sf.errs.length ≤ errs.length ∧
      errs.length ≤ sf.errs.length + 3 * (code toks).length ∧ (code toks).length ≤ src.length ∧ errs.length ≤ 5 * src.length := by
  obtain ⟨toks, sf, l, K, f', t, errs', s1, s2, s3, s4, s5, s6, s7, s8, s9, s10, s11, s12, s13⟩ := Parse_run env src
  rw [h] at s11
  injection s11 with s11
  injection s11 with e1 e2
  have hl : l.length = (code toks).length := by rw [s2, List.length_map]
  have hc := file_cost (w := Weights.eachError) ⟨3, 1, by decide, by decide, by decide, by decide, by decide, by decide⟩ _ s8
  have he : t.errs.length = ([] : List (Nat × Msg)).length + _ := cost_errs _ s8
  have hs := Scanner.scanAll_errs env.u src _ s1
  have hn : errs.length = sf.errs.length + t.errs.length := by
    have p1 := (env.sort_perm (less env) errs').length_eq
    have p2 := s12.length_eq
    rw [List.length_map, List.length_append, s3, List.length_map] at p2
    rw [e2, p1, p2]
  change ((file_ (src.length + 1)).cost Weights.eachError ⟨l, src.length, []⟩ : Int) ≤ 3 * (l.length : Int) + 2 * 0 at hc
  rw [List.length_nil, Nat.zero_add] at he
  change t.errs.length = (file_ (src.length + 1)).cost Weights.eachError ⟨l, src.length, []⟩ at he
  refine ⟨toks, sf, s1, hs, ?_, ?_, ?_, ?_⟩ <;> omega

/-- The word `enum` and nothing else -/
def exEnum : Bytes := [0x65, 0x6e, 0x75, 0x6d]

/-- One token, and three errors of the parser: no less than three for each token are needed. -/
theorem exEnum_parse : Parse exIdlEnv exEnum = .done (⟨[], [.enum [] [] none]⟩, [⟨4, 1, 5, .expected (.tok Tk.ident) (some (.tok Tk.eof))⟩,
    ⟨4, 1, 5, .expected (.tok Tk.lbrace) (some (.tok Tk.eof))⟩, ⟨4, 1, 5, .expected (.tok Tk.rbrace) (some (.tok Tk.eof))⟩]) := by decide +kernel

example : ∃ toks sf, scanAll exIdlEnv.u (exEnum.length + 2) (Scanner.init exEnum) = .done (toks, sf) ∧ 3 ≤ sf.errs.length + 3 * (code toks).length := by
  obtain ⟨toks, sf, h1, _, _, h2, _⟩ := C89_errors exIdlEnv exEnum exEnum_parse
  exact ⟨toks, sf, h1, h2⟩

/-- Two bytes that are no UTF-8, and four errors of the scanner: no less than two for each byte are needed. -/
example : ∃ f errs, Parse exIdlEnv [0xff, 0xff] = .done (f, errs) ∧ errs.length = 4 := by
  refine ⟨⟨[], []⟩, [⟨0, 1, 1, .utf8⟩, ⟨0, 1, 1, .char 0xfffd⟩, ⟨1, 1, 2, .utf8⟩, ⟨1, 1, 2, .char 0xfffd⟩], ?_, rfl⟩
  decide +kernel

/-- The empty source: the token is looked at twice. -/
example : ∃ s0 s, (Scanner.init []).nextToken exIdlEnv.u = .done s0 ∧ (file_ 1).run ((scannerSource exIdlEnv.u).counted Weights.each) (s0, 0) = .done (some ⟨[], []⟩, (s, 2)) := by
  obtain ⟨toks, sf, s0, f, s, k, h1, h2, h3, h4, h5, h6⟩ := C89_work exIdlEnv []
  have hx : (Scanner.init []).nextToken exIdlEnv.u = .done ⟨[], -1, 0, 0, 0, Tk.eof, 0, [0], []⟩ := by decide +kernel
  refine ⟨_, ⟨[], -1, 0, 0, 0, Tk.eof, 0, [0], []⟩, hx, ?_⟩
  rfl

end GoThrift
