import Verif.Proof.ParseAll
import Verif.Props.Scan
import Verif.Spec.IdlExample

/-!
# C39, C41, C42 and C57: Parse
-/

namespace GoThrift

open Spec Idl

/-- **C39**: `Parse` ends on every sequence of bytes, with a file and a list of errors; it does not panic. -/
theorem C39_total (env : IdlEnv) (src : Bytes) : ∃ f errs, Parse env src = .done (f, errs) := by
  obtain ⟨_, _, _, _, f, _, errs, _, _, _, _, _, _, _, _, _, _, h, _⟩ := Parse_run env src
  exact ⟨f, _, h⟩

/-- `const i32 x = 1 # c` -/
def exConst : Bytes := [0x63, 0x6f, 0x6e, 0x73, 0x74, 0x20, 0x69, 0x33, 0x32, 0x20, 0x78, 0x20, 0x3d, 0x20, 0x31, 0x20, 0x23, 0x20, 0x63]

/-- What `exConst` is. -/
def exConstFile : File := ⟨[], [.const (.ref [0x69, 0x33, 0x32] none) [0x78] (.int [0x31])]⟩

theorem exConst_parse : Parse exIdlEnv exConst = .done (exConstFile, []) := by decide +kernel

/-- **C41**: `Parse` reports no error and returns `f` iff the characters of the source are allowed, it is a sequence of lexemes, and they are a file of the grammar with the tree `f`. -/
theorem C41_grammar (env : IdlEnv) (ha : AsciiTables env.u) (src : Bytes) (f : File) :
    Parse env src = .done (f, []) ↔ (∀ c ∈ sourceText src, Chr.Ok c) ∧ ∃ toks, Lex env.u (sourceText src) toks ∧ FileG f toks := by
  obtain ⟨_, _, l, K, f', t, errs, _, _, _, h1, h2, h3, h4, h5, h6, h7, h8, h9, h10⟩ := Parse_run env src
  obtain ⟨hA, hB⟩ := h4 ha
  constructor
  · intro h
    rw [h8] at h
    injection h with h
    injection h with e1 e2
    subst e1
    rw [sort_nil] at e2
    subst e2
    have h9 := List.nil_perm.1 h9
    obtain ⟨hK, ht⟩ := List.append_eq_nil_iff.1 h9
    obtain ⟨hL, hok⟩ := hA hK
    exact ⟨hok, _, hL, h7 ht⟩
  · rintro ⟨hok, toks, hL, hG⟩
    obtain ⟨e1, e2⟩ := hB toks hL
    have hK := e2 hok
    subst e1
    obtain ⟨t', g1, g2, g3, _⟩ := Eats.file hG (n := src.length + 1) (by simp; omega) ⟨l, src.length, []⟩ (by rw [List.append_nil]; rfl)
    rw [h5] at g1
    injection g1 with g1
    injection g1 with g1 g4
    injection g1 with g1
    subst g1
    subst g4
    change t.errs = [] at g3
    rw [hK, g3, List.append_nil] at h9
    have h9 := List.map_eq_nil_iff.1 (List.perm_nil.1 h9)
    rw [h8, (sort_nil env).2 h9]

/-- `exConst` is a file of the grammar, and its tree is `exConstFile`. -/
example : AsciiTables exIdlEnv.u ∧ ∃ toks, Lex exIdlEnv.u (sourceText exConst) toks ∧ FileG exConstFile toks :=
  ⟨exTables, ((C41_grammar exIdlEnv exTables exConst exConstFile).1 exConst_parse).2⟩

/-- **C41** (one tree): a sequence of tokens is at most one file. -/
theorem C41_unique {w : List Lx} {f f' : File} (h : FileG f w) (h' : FileG f' w) : f = f' := by
  obtain ⟨l, hl⟩ : ∃ l : List (Token × Bytes × Nat), l.map Scanner.plain = w := ⟨w.map fun x => (x.1, x.2, 0), by
    rw [List.map_map]
    exact List.map_id w⟩
  obtain ⟨t1, h1, _⟩ := Eats.file h (n := w.length + 1) (by omega) ⟨l, 0, []⟩ (by rw [List.append_nil]; exact hl)
  obtain ⟨t2, h2, _⟩ := Eats.file h' (n := w.length + 1) (by omega) ⟨l, 0, []⟩ (by rw [List.append_nil]; exact hl)
  rw [h1] at h2
  injection h2 with h2
  injection h2 with h2
  injection h2

example : FileG ⟨[.include [0x22, 0x22]], []⟩ [(Tk.include_, []), (Tk.string, [0x22, 0x22])] := .mk (wh := [_, _]) (wd := []) (.cons (w := [_, _]) (ws := []) .include .nil) .nil

/-- **C42**: `Parse` returns all errors that were reported to it and no others, in the order of their positions, and of their texts at one position; no error iff none was reported. -/
theorem C42_errors (env : IdlEnv) (src : Bytes) :
    ∃ f s errs, ((Scanner.init src).nextToken env.u).bind (fun s => (file_ (src.length + 1)).run (scannerSource env.u) s) = .done (some f, s) ∧ Parse env src = .done (f, errs) ∧
      errs.Perm s.errs ∧ (errs = [] ↔ s.errs = []) ∧
      errs.Pairwise (fun a b => a.offset < b.offset ∨ (a.offset = b.offset ∧ TextLE (a.msg.text env) (b.msg.text env))) := by
  obtain ⟨f, errs, h⟩ := C39_total env src
  have hP := h
  unfold Parse at h
  cases h1 : (Scanner.init src).nextToken env.u with
  | done s1 =>
    rw [h1, Out.bind_done] at h
    cases h2 : (file_ (src.length + 1)).run (scannerSource env.u) s1 with
    | done r =>
      rw [h2, Out.bind_done] at h
      obtain ⟨r, s⟩ := r
      cases r with
      | none => cases h
      | some f' =>
        injection h with h
        injection h with e1 e2
        dsimp only at e1 e2
        subst e1
        have hp := env.sort_perm (less env) s.errs
        rw [e2] at hp
        refine ⟨f', s, errs, by rw [Out.bind_done, h2], hP, hp, ⟨fun h => ?_, fun h => ?_⟩, ?_⟩
        · rw [h] at hp; exact List.nil_perm.1 hp
        · rw [h] at hp; exact List.perm_nil.1 hp
        · have hs := env.sort_sorted (less env) s.errs (less_asymm env) (less_neg_trans env)
          rw [e2] at hs
          obtain ⟨_, _, l, K, f2, t, errs2, _, _, _, g1, g2, g3, g4, g5, g6, g7, g8, g9, g10⟩ := Parse_run env src
          rw [hP] at g8
          injection g8 with g8
          injection g8 with _ g8
          have hpos : ∀ e ∈ errs, e.line = lineOf src e.offset ∧ e.column = columnOf src e.offset := fun e he =>
            (g10 e ((env.sort_perm (less env) errs2).mem_iff.1 (by rw [← g8]; exact he))).2
          refine List.pairwise_iff_forall_sublist.2 fun {a b} hab => ?_
          have hn := List.pairwise_iff_forall_sublist.1 hs hab
          have hma := hpos a (hab.subset (by simp))
          have hmb := hpos b (hab.subset (by simp))
          rw [not_less_iff, hma.1, hma.2, hmb.1, hmb.2] at hn
          rcases Nat.lt_trichotomy a.offset b.offset with h | h | h
          · exact .inl h
          · refine .inr ⟨h, textLE_of ?_⟩
            rw [h] at hn
            rcases hn with hn | ⟨_, hn | ⟨_, hn⟩⟩
            · omega
            · omega
            · exact hn
          · have := position_lt src h
            omega
    | blocked => rw [h2] at h; cases h
    | diverged => rw [h2] at h; cases h
    | panicked => rw [h2] at h; cases h
  | blocked => rw [h1] at h; cases h
  | diverged => rw [h1] at h; cases h
  | panicked => rw [h1] at h; cases h

/-- `? enum` -/
def exBad : Bytes := [0x3f, 0x20, 0x65, 0x6e, 0x75, 0x6d]

/-- An error of the scanner and three of the parser, and a definition with empty parts. -/
example : Parse exIdlEnv exBad = .done (⟨[], [.enum [] [] none]⟩, [⟨0, 1, 1, .char 0x3f⟩, ⟨6, 1, 7, .expected (.tok Tk.ident) (some (.tok Tk.eof))⟩,
    ⟨6, 1, 7, .expected (.tok Tk.lbrace) (some (.tok Tk.eof))⟩, ⟨6, 1, 7, .expected (.tok Tk.rbrace) (some (.tok Tk.eof))⟩]) := by decide +kernel

/-- **C57** (Parse): the errors that `Parse` returns are in the source, and have the line and the column of their offsets. -/
theorem C57_parse (env : IdlEnv) (src : Bytes) {f : File} {errs : List PosErr} (h : Parse env src = .done (f, errs)) :
    ∀ e ∈ errs, e.offset ≤ src.length ∧ e.line = lineOf src e.offset ∧ e.column = columnOf src e.offset := by
  obtain ⟨_, _, l, K, f2, t, errs2, _, _, _, g1, g2, g3, g4, g5, g6, g7, g8, g9, g10⟩ := Parse_run env src
  rw [h] at g8
  injection g8 with g8
  injection g8 with _ g8
  intro e he
  exact g10 e ((env.sort_perm (less env) errs2).mem_iff.1 (by rw [← g8]; exact he))

example : ∃ f errs, Parse exIdlEnv exConst = .done (f, errs) := ⟨_, _, exConst_parse⟩

end GoThrift
