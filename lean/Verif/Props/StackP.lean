import Verif.Proof.StackP
import Verif.Props.Writable

/-!
# C83: how deep Parse recurses
-/

namespace GoThrift

open Spec Idl

/-- **C83** (the limit only cuts): with a limited stack Parse either overflows it or does what it does on an unlimited one. -/
theorem C83_cuts (env : IdlEnv) (d : Nat) (src : Bytes) : ParseS env d src = .diverged ∨ ParseS env d src = Parse env src := by
  unfold ParseS Parse
  cases (Scanner.init src).nextToken env.u with
  | done s =>
    rw [Out.bind_done, Out.bind_done]
    rcases (fileS_fits (r := scannerSource env.u) (src.length + 1) d).cuts s with h | h
    · rw [h]; exact .inl rfl
    · rw [h]; exact .inr rfl
  | _ => simp only [Out.bind, or_true]

/-- **C83** (exact): when Parse made sense of all definitions, with room for the deepest type or value of the file it does the same, and without it overflows the stack. -/
theorem C83_exact (env : IdlEnv) (src : Bytes) (f : File) (errs : List PosErr) (h : Parse env src = .done (f, errs)) (hf : ∀ x ∈ f.defs, Sensible x) (d : Nat) :
    (fileDepth f ≤ d → ParseS env d src = .done (f, errs)) ∧ (d < fileDepth f → ParseS env d src = .diverged) := by
  unfold Parse at h
  unfold ParseS
  cases hs : (Scanner.init src).nextToken env.u with
  | done s =>
    rw [hs, Out.bind_done] at h
    rw [Out.bind_done]
    cases hx : (file_ (src.length + 1)).run (scannerSource env.u) s with
    | done x =>
      obtain ⟨o, s'⟩ := x
      rw [hx, Out.bind_done] at h
      cases o with
      | none => cases h
      | some g =>
        cases h
        obtain ⟨h1, h2⟩ := (fileS_fits (r := scannerSource env.u) (src.length + 1) d).exact trivial s _ s' hx hf
        exact ⟨fun hd => by rw [h1 hd, hx]; rfl, fun hd => by rw [h2 (by omega)]; rfl⟩
    | _ => rw [hx] at h; cases h
  | _ => rw [hs] at h; cases h

/-- **C83** (valid files): on a source without errors it takes exactly as many frames as the deepest type or value has levels. -/
theorem C83_valid (env : IdlEnv) (ha : AsciiTables env.u) (src : Bytes) (f : File) (h : Parse env src = .done (f, [])) (d : Nat) :
    (ParseS env d src = .done (f, []) ↔ fileDepth f ≤ d) ∧ (ParseS env d src = .diverged ↔ d < fileDepth f) := by
  have hf : ∀ x ∈ f.defs, Sensible x := fun x hx => by
    have := ((C72_range env ha f).1 ⟨src, h⟩).2 x hx
    cases x with
    | bad => exact this
    | _ => trivial
  obtain ⟨h1, h2⟩ := C83_exact env src f [] h hf d
  refine ⟨⟨fun e => Nat.le_of_not_lt fun hd => ?_, h1⟩, ⟨fun e => Nat.lt_of_not_le fun hd => ?_, h2⟩⟩
  · rw [h2 hd] at e; cases e
  · rw [h1 hd] at e; cases e

/-- **C83** (enough): whatever the source, as many frames as it has bytes and one more are enough. -/
theorem C83_enough (env : IdlEnv) (src : Bytes) (d : Nat) (h : src.length < d) : ParseS env d src = Parse env src := by
  unfold ParseS Parse
  rw [fileS_enough (src.length + 1) d h]
  refine congrArg _ (funext fun s => congrArg _ (funext fun r => ?_))
  cases r.1 <;> rfl

/-- Brackets in brackets. -/
def brackets : Nat → Value
  | 0 => .list []
  | d + 1 => .list [brackets d]

theorem brackets_depth (d : Nat) : valueDepth (brackets d) = d + 1 := by
  induction d with
  | zero => rfl
  | succ d ih => rw [brackets, valueDepth, valuesDepth, valuesDepth, ih]; rfl

theorem brackets_say (u : Unicode) (d : Nat) : ∃ w, ValueG (brackets d) w ∧ Spoken u w ∧ (spaced w).length = 4 * (d + 1) := by
  have h1 : Said u (Tk.lbrack, [0x5b]) := said_op (by decide +kernel)
  have h2 : Said u (Tk.rbrack, [0x5d]) := said_op (by decide +kernel)
  induction d with
  | zero => exact ⟨_, .list (.mk (a := [0x5b]) (b := [0x5d]) .nil), .cons h1 (.cons h2 .nil), rfl⟩
  | succ d ih =>
    obtain ⟨w, hG, hS, hl⟩ := ih
    refine ⟨_, .list (.mk (a := [0x5b]) (b := [0x5d]) (.cons (s := []) hG (fun _ h => nomatch h) .nil)), .cons h1 (.append (.append hS (.append .nil .nil)) (.cons h2 .nil)), ?_⟩
    simp only [spaced, List.flatMap_cons, List.flatMap_append, List.flatMap_nil, List.length_append, List.length_cons, List.length_nil] at hl ⊢
    omega

/-- What `Parse` returns for tokens with blanks between them. -/
theorem spaced_parse (env : IdlEnv) (ha : AsciiTables env.u) {f : File} {toks : List Lx} (hG : FileG f toks) (hS : Spoken env.u toks) : Parse env (spaced toks) = .done (f, []) := by
  obtain ⟨hL, hok⟩ := spaced_lex hS
  have e : sourceText (spaced toks) = chars (spaced toks) := by
    unfold sourceText
    split
    · rename_i c cs e
      rw [if_neg (hok c (by rw [e]; simp)).2.2, e]
    · rename_i e
      rw [e]
  refine (C41_grammar env ha _ f).2 ?_
  rw [e]
  exact ⟨hok, toks, hL, hG⟩

/-- An identifier of Latin letters and digits that is not reserved. -/
theorem identifier_of (u : Unicode) {c : Byte} {n : Bytes} (h1 : chars (c :: n) = (c.toNat, [c]) :: n.map fun b => (b.toNat, [b])) (h2 : 0x61 ≤ c.toNat ∧ c.toNat ≤ 0x7a)
    (h3 : ∀ b ∈ n, Digit b.toNat) (h4 : ∀ p ∈ reserved, wordBytes p.1 ≠ c :: n) (h5 : ∀ x ∈ chars (c :: n), x.Ok) : Identifier u (c :: n) := by
  refine ⟨h5, ?_⟩
  have hb := bytesOf_chars (c :: n)
  rw [h1] at hb ⊢
  refine .word (.inr (.inl h2)) (fun d hd => ?_) (.inr ⟨rfl, ?_⟩)
  · obtain ⟨b, hb, rfl⟩ := List.mem_map.1 hd
    exact .inr (.inl (h3 b hb))
  · rw [hb]
    rintro t ⟨s, hs, e⟩
    exact h4 _ hs e.symm

/-- **C83** (no limit is enough): for every stack there is a source without errors, of four bytes for each frame and 18 more, that overflows it. -/
theorem C83_unlimited (env : IdlEnv) (ha : AsciiTables env.u) (d : Nat) :
    ∃ src f, src.length = 4 * d + 18 ∧ Parse env src = .done (f, []) ∧ ParseS env d src = .diverged := by
  obtain ⟨w, hG, hS, hl⟩ := brackets_say env.u d
  have h1 : Identifier env.u [0x69, 0x33, 0x32] := identifier_of env.u (by decide +kernel) (by decide) (by decide) (by decide +kernel) (by decide +kernel)
  have h2 : Identifier env.u [0x78] := identifier_of env.u (by decide +kernel) (by decide) (by decide) (by decide +kernel) (by decide +kernel)
  have hF : FileG ⟨[], [.const (.ref [0x69, 0x33, 0x32] none) [0x78] (brackets d)]⟩ _ :=
    .mk .nil (.cons (.const (a := wordBytes "const") (b := [0x3d]) (.ref .none) hG (s := []) fun _ h => nomatch h) .nil)
  have hp := spaced_parse env ha hF (.append .nil (.append (.cons (said_word (by simp [reserved])) (.cons (said_ident h1) (.cons (said_ident h2) (.cons say_assign (.append hS .nil))))) .nil))
  refine ⟨_, _, ?_, hp, (C83_valid env ha _ _ hp d).2.2 ?_⟩
  · have : (wordBytes "const").length = 5 := by decide +kernel
    simp only [spaced, List.flatMap_cons, List.flatMap_append, List.flatMap_nil, List.length_append, List.length_cons, List.length_nil] at hl ⊢
    omega
  · rw [fileDepth, greatest, greatest, defDepth, brackets_depth]
    omega

/-- `const i32 x = 1` has depth 1: `Parse` returns it on a stack with room for one frame, and not on one without. -/
example : ParseS exIdlEnv 1 exConst = .done (exConstFile, []) ∧ ParseS exIdlEnv 0 exConst = .diverged :=
  ⟨(C83_valid exIdlEnv exTables exConst exConstFile exConst_parse 1).1.2 (by decide), (C83_valid exIdlEnv exTables exConst exConstFile exConst_parse 0).2.2 (by decide)⟩

/-- `exConst` meets the hypotheses of `C83_exact` and, for 20 frames, of `C83_enough`. -/
example : Parse exIdlEnv exConst = .done (exConstFile, []) ∧ (∀ x ∈ exConstFile.defs, Sensible x) ∧ exConst.length < 20 :=
  ⟨exConst_parse, fun x hx => by cases List.mem_singleton.1 hx; trivial, by decide⟩

end GoThrift
