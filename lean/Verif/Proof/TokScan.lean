import Verif.Proof.ParseSim

/-!
# The tokens of the parser are those of the scanner, without comments
-/

namespace GoThrift.Idl

open Spec

namespace Scanner

theorem skipComments_det {u : Unicode} {n m : Nat} {s a b : Scanner} (h1 : s.skipComments u n = .done a) (h2 : s.skipComments u m = .done b) : a = b := by
  induction n generalizing s m with
  | zero => cases h1
  | succ n ih =>
    cases m with
    | zero => cases h2
    | succ m =>
      rw [skipComments] at h1 h2
      by_cases hc : s.tok = Tk.comment
      · rw [if_pos hc] at h1 h2
        cases hs : s.next u with
        | done s1 =>
          rw [hs, Out.bind_done] at h1 h2
          exact ih h1 h2
        | _ => rw [hs] at h1; cases h1
      · rw [if_neg hc] at h1 h2
        injection h1 with h1
        injection h2 with h2
        exact h1.symm.trans h2

theorem scanAll_toks {u : Unicode} {n : Nat} {s s' sf : Scanner} {l : List (Token × Bytes × Nat)} {es : List PosErr} {toks : List TokenAt} (hat : ∃ cs, s.At cs) (h1 : s.nextToken u = .done s') (h2 : Toks u s' l es)
    (h3 : scanAll u n s = .done (toks, sf)) : l = (code toks).map (fun t => (t.tok, t.text, t.from_)) ∧ sf.errs = s'.errs ++ es := by
  induction n generalizing s s' l es toks with
  | zero => cases h3
  | succ n ih =>
    rw [nextToken] at h1
    rw [scanAll] at h3
    cases hs : s.next u with
    | done s1 =>
      rw [hs, Out.bind_done] at h1 h3
      cases hl : s1.lit with
      | done x =>
        rw [hl, Out.bind_done] at h3
        by_cases he : s1.tok = Tk.eof
        · rw [if_pos he] at h3
          have hs' : s' = s1 := by
            unfold bound skipComments at h1
            rw [if_neg (by rw [he]; decide)] at h1
            injection h1 with h1
            exact h1.symm
          subst hs'
          injection h3 with h3
          injection h3 with h3 h4
          subst h3
          subst h4
          cases h2 with
          | eof => exact ⟨by simp [code, he], by simp⟩
          | tok _ h => exact absurd he h
        · rw [if_neg he] at h3
          cases hr : scanAll u n s1 with
          | done r =>
            rw [hr, Out.bind_done] at h3
            injection h3 with h3
            injection h3 with h3 h4
            subst h3
            subst h4
            by_cases hc : s1.tok = Tk.comment
            · obtain ⟨cs, hat⟩ := hat
              obtain ⟨s1', skip, w, rest, hs1', rfl, hsc⟩ := next_scans u hat
              rw [hs] at hs1'
              injection hs1' with hs1'
              subst hs1'
              obtain ⟨b, _, _, _, hb, _⟩ := nextToken_scans u hsc.at_ (by rw [hc]; decide)
              have hn : s1.nextToken u = .done s' := by
                have hb' := hb
                rw [nextToken] at hb
                cases hs1 : s1.next u with
                | done s2 =>
                  rw [hs1, Out.bind_done] at hb
                  unfold bound skipComments at h1
                  rw [if_pos hc, hs1, Out.bind_done] at h1
                  rw [hb', skipComments_det h1 hb]
                | _ => rw [hs1] at hb; cases hb
              obtain ⟨e1, e2⟩ := ih ⟨_, hsc.at_⟩ hn h2 hr
              exact ⟨by rw [e1]; simp [code, hc], e2⟩
            · have hs' : s' = s1 := by
                unfold bound skipComments at h1
                rw [if_neg hc] at h1
                injection h1 with h1
                exact h1.symm
              subst hs'
              cases h2 with
              | eof _ h => exact absurd h he
              | @tok _ s2 y l' e1 e2 hat' _ g1 g2 g3 g4 =>
                obtain ⟨i1, i2⟩ := ih hat' g2 g4 hr
                rw [hl] at g1
                injection g1 with g1
                subst g1
                exact ⟨by rw [i1]; simp [code, hc, he], by rw [i2, g3, List.append_assoc]⟩
          | _ => rw [hr] at h3; cases h3
      | _ => rw [hl] at h3; cases h3
    | _ => rw [hs] at h1; cases h1

end Scanner

end GoThrift.Idl
