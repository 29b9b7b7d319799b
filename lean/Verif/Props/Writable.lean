import Verif.Proof.Writable
import Verif.Props.Parse
import Verif.Spec.IdlExample

/-!
# C72: the trees that Parse returns
-/

namespace GoThrift

open Spec Idl

theorem sourceText_mem {src : Bytes} {c : Chr} (h : c ∈ sourceText src) : c ∈ chars src := by
  unfold sourceText at h
  split at h
  · rename_i d cs e
    rw [e]
    split at h
    · exact List.mem_cons_of_mem _ h
    · exact h
  · cases h

/-- **C72** (range): a tree is what `Parse` returns for some source without reporting an error iff it can be written down. -/
theorem C72_range (env : IdlEnv) (ha : AsciiTables env.u) (f : File) : (∃ src, Parse env src = .done (f, [])) ↔ Writable env.u f := by
  constructor
  · rintro ⟨src, h⟩
    obtain ⟨hok, toks, hL, hG⟩ := (C41_grammar env ha src f).1 h
    exact hG.ok (hL.spoken (src := src) fun c hc => ⟨sourceText_mem hc, hok c hc⟩)
  · intro h
    obtain ⟨toks, hG, hS⟩ := h.say
    obtain ⟨hL, hok⟩ := spaced_lex hS
    have e : sourceText (spaced toks) = chars (spaced toks) := by
      unfold sourceText
      split
      · rename_i c cs e
        rw [if_neg (hok c (by rw [e]; simp)).2.2, e]
      · rename_i e
        rw [e]
    refine ⟨spaced toks, (C41_grammar env ha _ f).2 ?_⟩
    rw [e]
    exact ⟨hok, toks, hL, hG⟩

/-- `exConstFile` can be written down, and so `Parse` returns it for some source; a constant without a name cannot. -/
example : AsciiTables exIdlEnv.u ∧ Writable exIdlEnv.u exConstFile ∧ ¬ Writable exIdlEnv.u ⟨[], [.const (.ref [0x69, 0x33, 0x32] none) [] (.int [0x31])]⟩ :=
  ⟨exTables, (C72_range exIdlEnv exTables exConstFile).1 ⟨_, exConst_parse⟩, fun h => by
    have h : DefOK _ _ := h.2 _ (List.mem_singleton.2 rfl)
    exact h.2.1.2.ne_nil rfl⟩

end GoThrift
