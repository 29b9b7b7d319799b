import Verif.Proof.ScanLex
import Verif.Model.Parser

/-!
# The parser on a sequence of tokens

The programs of the parser run on the scanner as they run on the sequence of the tokens that it will yield.
-/

namespace GoThrift.Idl

open Spec

/-- The tokens that are left, the position of the end, and the errors of the parser. -/
structure TS where
  rest : List (Token × Bytes × Nat)
  eof : Nat
  errs : List (Nat × Msg)

namespace TS

/-- The current token. -/
def tok (t : TS) : Token := match t.rest with
  | x :: _ => x.1
  | [] => Tk.eof

/-- Its text. -/
def lit (t : TS) : Bytes := match t.rest with
  | x :: _ => x.2.1
  | [] => []

/-- Its position. -/
def pos (t : TS) : Nat := match t.rest with
  | x :: _ => x.2.2
  | [] => t.eof

/-- Drop the current token. -/
def next (t : TS) : TS := { t with rest := t.rest.tail }

/-- What an error says about the current token. -/
def found (t : TS) : Found := if isLiteral t.tok then .lit t.lit else .tok t.tok

/-- Something else is expected. -/
def expected (t : TS) (w : What) : TS := { t with errs := t.errs ++ [(t.pos, .expected w (some t.found))] }

end TS

/-- The operations on a sequence of tokens. -/
def tokSource : Source TS where
  step
    | .tok, t => .done (t.tok, t)
    | .pos, t => .done (t.pos, t)
    | .lit, t => .done (t.lit, t)
    | .next, t => .done ((), t.next)
    | .expected w, t => .done ((), t.expected w)

/-- Offset and message. -/
def PosErr.key (e : PosErr) : Nat × Msg := (e.offset, e.msg)

/-- The scanner is where the sequence is; `K` are all errors of the scanner. -/
structure Sim (u : Unicode) (K : List (Nat × Msg)) (s : Scanner) (t : TS) : Prop where
  toks : ∃ es, Scanner.Toks u s t.rest es ∧ ((s.errs ++ es).map PosErr.key).Perm (K ++ t.errs)
  eof : t.eof = s.src.length
  lined : Scanner.Lined s

theorem Sim.tok {u : Unicode} {K : List (Nat × Msg)} {s : Scanner} {t : TS} (h : Sim u K s t) : s.tok = t.tok ∧ s.pos = t.pos ∧ s.lit = .done t.lit := by
  obtain ⟨⟨es, ht, _⟩, he, hl⟩ := h
  obtain ⟨rest, eof, errs⟩ := t
  dsimp only at ht he
  cases ht with
  | eof h1 h2 h3 =>
    refine ⟨h2, h3.trans he.symm, ?_⟩
    have ho := h1.offset_eof
    rw [Scanner.lit, if_pos ⟨hl.pos, by omega⟩, show s.offset - s.pos = 0 by omega]
    rfl
  | tok _ h1 h2 _ _ _ => exact ⟨rfl, rfl, h2⟩

theorem nextToken_src (u : Unicode) {s s' : Scanner} (hs : s.nextToken u = .done s') {src : Bytes} (h : s.src = src) : s'.src = src := by
  have : Scanner.Invariant (fun s => s.src = src) := {
    nextch := fun h => by rw [Scanner.nextch_src]; exact h
    error := fun _ h => h
    setTok := fun _ h => h
    setPos := fun h => h }
  exact this.nextToken u h hs

theorem Sim.step {u : Unicode} {K : List (Nat × Msg)} {s : Scanner} {t : TS} (h : Sim u K s t) (o : POp) :
    ∃ a s' t', (scannerSource u).step o s = .done (a, s') ∧ tokSource.step o t = .done (a, t') ∧ Sim u K s' t' := by
  obtain ⟨htok, hpos, hlit⟩ := h.tok
  cases o with
  | tok => exact ⟨_, s, t, rfl, by rw [htok]; rfl, h⟩
  | pos => exact ⟨_, s, t, rfl, by rw [hpos]; rfl, h⟩
  | lit =>
    refine ⟨t.lit, s, t, ?_, rfl, h⟩
    show s.lit.bind _ = _
    rw [hlit, Out.bind_done]
  | next =>
    obtain ⟨⟨es, ht, hp⟩, he, hl⟩ := h
    obtain ⟨rest, eof, errs⟩ := t
    dsimp only at ht he hp
    cases ht with
    | eof h1 h2 h3 =>
      have hn := Scanner.nextToken_eof u h1
      have hl' := Scanner.lined_invariant.nextToken u hl hn
      refine ⟨(), { s with pos := s.offset, tok := Tk.eof }, ⟨[], eof, errs⟩, ?_, rfl, ⟨[], .eof ⟨h1.rest, h1.ch, h1.le, h1.rd⟩ rfl h1.offset_eof, hp⟩, he, hl'⟩
      show (s.nextToken u).bind _ = _
      rw [hn, Out.bind_done]
    | @tok _ s' x l es es' hat h1 h2 h3 h4 h5 =>
      refine ⟨(), s', ⟨l, eof, errs⟩, ?_, rfl, ⟨es', h5, ?_⟩, ?_, Scanner.lined_invariant.nextToken u hl h3⟩
      · show (s.nextToken u).bind _ = _
        rw [h3, Out.bind_done]
      · rw [h4, List.append_assoc]
        exact hp
      · rw [nextToken_src u h3 rfl]
        exact he
  | expected w =>
    obtain ⟨⟨es, ht, hp⟩, he, hl⟩ := h
    refine ⟨(), s.error s.pos (.expected w (some t.found)), t.expected w, ?_, rfl, ⟨es, ht.setErrs _, ?_⟩, he, hl.error hl.pos _⟩
    · show (s.errorExpected w).bind _ = _
      have : s.errorExpected w = .done (s.error s.pos (.expected w (some t.found))) := by
        rw [Scanner.errorExpected, TS.found, htok]
        by_cases hi : isLiteral t.tok
        · rw [if_pos hi, if_pos hi, hlit, Out.bind_done]
        · rw [if_neg hi, if_neg hi]
      rw [this, Out.bind_done]
    · show ((s.errs ++ [_] ++ es).map PosErr.key).Perm (K ++ (t.errs ++ [_]))
      rw [List.map_append, List.map_append, List.append_assoc, ← List.append_assoc K]
      rw [List.map_append] at hp
      refine (List.perm_append_comm_assoc _ _ _).trans (List.Perm.trans ?_ List.perm_append_comm)
      rw [hpos]
      exact List.Perm.append_left _ hp

theorem Sim.run {u : Unicode} {K : List (Nat × Msg)} {α : Type} (p : PProg α) {s : Scanner} {t : TS} (h : Sim u K s t) :
    OutRel (fun a b => a.1 = b.1 ∧ Sim u K a.2 b.2) (p.run (scannerSource u) s) (p.run tokSource t) := by
  induction p generalizing s t with
  | ret a => exact ⟨rfl, h⟩
  | bad => exact ⟨rfl, h⟩
  | diverge => exact trivial
  | call o k ih =>
    obtain ⟨a, s', t', h1, h2, h3⟩ := h.step o
    rw [PProg.run, PProg.run, h1, h2, Out.bind_done, Out.bind_done]
    exact ih a h3

end GoThrift.Idl
