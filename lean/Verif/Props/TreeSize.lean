import Verif.Proof.TreeSize
import Verif.Props.ParseWork
import Verif.Props.Scan
import Verif.Props.Parse

/-!
# C92: the tree that Parse returns is made of the tokens of its source
-/

namespace GoThrift

open Spec Idl

/-- `Parse` on the tokens, with what it makes of them. -/
theorem Parse_gives (env : IdlEnv) (src : Bytes) {f : File} {errs : List PosErr} (h : Parse env src = .done (f, errs)) :
    ∃ toks sf, scanAll env.u (src.length + 2) (Scanner.init src) = .done (toks, sf) ∧ List.Sublist f.texts ((code toks).map fun t => t.text) ∧ f.nodes ≤ 5 * (code toks).length + 1 ∧
      (code toks).length ≤ src.length ∧ (errs = [] → List.Sublist (lits ((code toks).map fun t => (t.tok, t.text))) f.texts) := by
  obtain ⟨toks, sf, l, K, f', t, errs', s1, s2, s3, s4, s5, s6, s7, s8, s9, s10, s11, s12, s13⟩ := Parse_run env src
  rw [h] at s11
  injection s11 with s11
  injection s11 with e1 e2
  subst e1
  obtain ⟨u, m, g1, g2, g3, g4⟩ := gives_file (src.length + 1) (t := ⟨l, src.length, []⟩) (show l.length < _ by omega) _ _ s8
  have hl : l.length = (code toks).length := by rw [s2, List.length_map]
  rw [s9, List.append_nil] at g1
  have g1' : l = u := g1
  subst g1'
  rw [List.nil_append] at g2
  refine ⟨toks, sf, s1, ?_, by omega, by omega, fun he => ?_⟩
  · rw [g2]
    rw [s2, List.map_map] at g3
    exact g3
  · have hp : errs'.length = 0 := by
      rw [← (env.sort_perm (less env) errs').length_eq, ← e2, he]; rfl
    have ht : t.errs = [] := by
      have := s12.length_eq
      rw [List.length_map, List.length_append, hp] at this
      exact List.eq_nil_of_length_eq_zero (by omega)
    have := lits_file (s10 ht)
    rw [s2, List.map_map] at this
    exact this

/-- **C92** (texts): the texts in the tree are texts of tokens that are not comments, of different ones and in their order, whether the source is well-formed or not. If there are no errors, none of the
identifiers, numbers and strings is left out. -/
theorem C92_texts (env : IdlEnv) (src : Bytes) {f : File} {errs : List PosErr} (h : Parse env src = .done (f, errs)) :
    ∃ toks sf, scanAll env.u (src.length + 2) (Scanner.init src) = .done (toks, sf) ∧ List.Sublist f.texts ((code toks).map fun t => t.text) ∧
      (errs = [] → List.Sublist (((code toks).filter fun t => decide (t.tok ∈ [Tk.ident, Tk.int, Tk.float, Tk.string])).map fun t => t.text) f.texts) := by
  obtain ⟨toks, sf, h1, h2, _, _, h3⟩ := Parse_gives env src h
  refine ⟨toks, sf, h1, h2, fun he => ?_⟩
  obtain ⟨front, s, k1, k2, _⟩ := C40_tiles env.u src
  rw [h1] at k1
  injection k1 with k1
  injection k1 with k1 _
  have hc : ∀ t ∈ code toks, t.text ≠ [] := fun t ht => by
    obtain ⟨ht, hk⟩ := List.mem_filter.1 ht
    rw [k1, List.mem_append, List.mem_singleton] at ht
    rcases ht with ht | rfl
    · obtain ⟨_, k3, k4, k5⟩ := k2 t ht
      intro e
      have := congrArg List.length k5
      rw [e, List.length_take, List.length_drop] at this
      simp only [List.length_nil] at this
      omega
    · simp at hk
  have lit : ∀ x : Token, isLiteral x = decide (x ∈ [Tk.ident, Tk.int, Tk.float, Tk.string]) := by decide +kernel
  have key : ∀ l : List TokenAt, (∀ t ∈ l, t.text ≠ []) →
      lits (l.map fun t => (t.tok, t.text)) = (l.filter fun t => decide (t.tok ∈ [Tk.ident, Tk.int, Tk.float, Tk.string])).map fun t => t.text := by
    intro l hl
    induction l with
    | nil => rfl
    | cons t l ih =>
      rw [List.map_cons, lits_cons, ih fun x hx => hl x (List.mem_cons_of_mem _ hx), lit, List.filter_cons]
      split
      · rw [List.map_cons, word, if_neg (hl t List.mem_cons_self)]; rfl
      · rfl
  rw [← key _ hc]
  exact h3 he

/-- Ranges that follow one another between `m` and `N`. -/
theorem ranges_sum {N : Nat} (l : List TokenAt) (h : ∀ t ∈ l, t.from_ < t.to ∧ t.to ≤ N ∧ t.text.length ≤ t.to - t.from_) (hp : l.Pairwise fun a b => a.to ≤ b.from_) (m : Nat) (hm : m ≤ N)
    (hf : ∀ t ∈ l, m ≤ t.from_) : m + (l.map fun t => t.text.length).sum ≤ N := by
  induction l generalizing m with
  | nil => simpa using hm
  | cons t l ih =>
    obtain ⟨h1, h2, h3⟩ := h t List.mem_cons_self
    have := ih (fun x hx => h x (List.mem_cons_of_mem _ hx)) hp.of_cons t.to h2 fun x hx => List.rel_of_pairwise_cons hp hx
    have := hf t List.mem_cons_self
    rw [List.map_cons, List.sum_cons]
    omega

theorem sum_sublist {l m : List Nat} (h : List.Sublist l m) : l.sum ≤ m.sum := by
  induction h with
  | slnil => exact Nat.le_refl _
  | cons a _ ih => rw [List.sum_cons]; omega
  | cons_cons a _ ih => rw [List.sum_cons, List.sum_cons]; omega

/-- **C92** (size): the tree has at most five nodes for each token that is not a comment, and the one of the file; the texts in it have together at most as many bytes as the source. -/
theorem C92_size (env : IdlEnv) (src : Bytes) {f : File} {errs : List PosErr} (h : Parse env src = .done (f, errs)) :
    ∃ toks sf, scanAll env.u (src.length + 2) (Scanner.init src) = .done (toks, sf) ∧ f.nodes ≤ 5 * (code toks).length + 1 ∧ f.nodes ≤ 5 * src.length + 1 ∧
      (f.texts.map fun b => b.length).sum ≤ src.length := by
  obtain ⟨toks, sf, h1, h2, h3, h4, _⟩ := Parse_gives env src h
  refine ⟨toks, sf, h1, h3, by omega, ?_⟩
  obtain ⟨front, s, k1, k2, k3, _⟩ := C40_tiles env.u src
  rw [h1] at k1
  injection k1 with k1
  injection k1 with k1 _
  have e1 : List.Sublist (code toks) front := by
    rw [k1, code, List.filter_append]
    have : ([⟨Tk.eof, src.length, src.length, []⟩] : List TokenAt).filter (fun t => decide (t.tok ≠ Tk.comment ∧ t.tok ≠ Tk.eof)) = [] := by simp
    rw [this, List.append_nil]
    exact List.filter_sublist
  have e2 := ranges_sum (N := src.length) front (fun t ht => by
    obtain ⟨_, a, b, c⟩ := k2 t ht
    refine ⟨a, b, ?_⟩
    rw [c, List.length_take]
    exact Nat.min_le_left _ _) k3 0 (Nat.zero_le _) fun _ _ => Nat.zero_le _
  have e3 : List.Sublist (f.texts.map fun b => b.length) (front.map fun t => t.text.length) := by
    have := (h2.trans (e1.map _)).map fun b => b.length
    rwa [List.map_map] at this
  have := sum_sublist e3
  omega

example : exConstFile.texts ≠ [] ∧ ∃ toks sf, scanAll exIdlEnv.u (exConst.length + 2) (Scanner.init exConst) = .done (toks, sf) ∧ List.Sublist exConstFile.texts ((code toks).map fun t => t.text) ∧
    List.Sublist (((code toks).filter fun t => decide (t.tok ∈ [Tk.ident, Tk.int, Tk.float, Tk.string])).map fun t => t.text) exConstFile.texts := by
  obtain ⟨toks, sf, h1, h2, h3⟩ := C92_texts exIdlEnv exConst exConst_parse
  exact ⟨by decide +kernel, toks, sf, h1, h2, h3 rfl⟩

/-- A source with one token only, and four nodes. -/
example : (⟨[], [.enum [] [] none]⟩ : File).nodes = 4 ∧ 4 ≤ 5 * exEnum.length + 1 := by
  obtain ⟨toks, sf, h1, h2, h3, h4⟩ := C92_size exIdlEnv exEnum exEnum_parse
  exact ⟨by decide, h3⟩

end GoThrift
