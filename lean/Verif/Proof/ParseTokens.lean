import Verif.Proof.TokScan

/-!
# Parse on the tokens of its source
-/

namespace GoThrift.Idl

open Spec

/-- `Parse` runs `file_` on the tokens of the source. -/
theorem Parse_tokens (env : IdlEnv) (src : Bytes) :
    ∃ (toks : List TokenAt) (sf : Scanner) (l : List (Token × Bytes × Nat)) (K : List (Nat × Msg)), scanAll env.u (src.length + 2) (Scanner.init src) = .done (toks, sf) ∧
      l = (code toks).map (fun t => (t.tok, t.text, t.from_)) ∧ K = sf.errs.map PosErr.key ∧ l.length ≤ src.length ∧
      (∀ t ∈ l, t.1 ≠ Tk.eof ∧ t.1 ≠ Tk.comment ∧ t.2.2 < src.length) ∧ l.Pairwise (fun a b => a.2.2 < b.2.2) ∧
      (AsciiTables env.u → (K = [] → Lex env.u (sourceText src) (l.map Scanner.plain) ∧ ∀ c ∈ sourceText src, Chr.Ok c) ∧
        ∀ lx, Lex env.u (sourceText src) lx → lx = l.map Scanner.plain ∧ ((∀ c ∈ sourceText src, Chr.Ok c) → K = [])) ∧
      ∀ f t, (file_ (src.length + 1)).run tokSource ⟨l, src.length, []⟩ = .done (some f, t) → t.rest = [] →
        ∃ errs, Parse env src = .done (f, env.sort (less env) errs) ∧ (errs.map PosErr.key).Perm (K ++ t.errs) ∧
          ∀ e ∈ errs, e.offset ≤ src.length ∧ e.line = lineOf src e.offset ∧ e.column = columnOf src e.offset := by
  have hat := (Scanner.init_at src).1
  have hi := (Scanner.init_at src).2
  obtain ⟨s, l, es, h1, h2, h3, h4, h5, h6, h7, h8⟩ := Scanner.nextToken_toks env.u hat (by rw [Scanner.init_tok]; decide)
  rw [Scanner.init_src] at h3 h6
  have hlen : (sourceText src).length ≤ src.length := by
    have hn := Scanner.chars_length_le src
    unfold sourceText
    generalize chars src = cs at hn ⊢
    cases cs with
    | nil => exact Nat.zero_le _
    | cons c cs =>
      dsimp only
      split <;> simp at hn ⊢ <;> omega
  have hsplit : (∀ c ∈ sourceText src, Chr.Ok c) ↔ (∀ c ∈ (sourceText src).take 1, Chr.Ok c) ∧ ∀ c ∈ (sourceText src).tail, Chr.Ok c := by
    cases sourceText src with
    | nil => simp
    | cons c cs => simp
  obtain ⟨toks, sf, hscan⟩ : ∃ toks sf, scanAll env.u (src.length + 2) (Scanner.init src) = .done (toks, sf) := by
    have hb := hat.lt_bound
    rw [Scanner.bound, Scanner.init_src] at hb
    obtain ⟨front, s, h, _⟩ := Scanner.scanAll_tiles env.u hat (Scanner.init_lined src) hb (by rw [Scanner.init_tok]; decide)
    exact ⟨_, s, h⟩
  obtain ⟨hl, hK⟩ := Scanner.scanAll_toks ⟨_, hat⟩ h1 h2 hscan
  refine ⟨toks, sf, l, (s.errs ++ es).map PosErr.key, hscan, hl, by rw [hK], Nat.le_trans h5 hlen, fun t ht => ?_, h7, fun ha => ?_, fun f t hrun hrest => ?_⟩
  · obtain ⟨a, b, _, c⟩ := h6 t ht
    exact ⟨a, b, c⟩
  · obtain ⟨hA, hB⟩ := h8 ha
    constructor
    · intro hK
      obtain ⟨e1, e2⟩ := List.append_eq_nil_iff.1 (List.map_eq_nil_iff.1 hK)
      have hinit : (Scanner.init src).errs = [] := by
        rw [e1] at h4
        exact List.prefix_nil.1 h4
      obtain ⟨h9, h10⟩ := hA ⟨by rw [e1, hinit], e2⟩
      exact ⟨h9, hsplit.2 ⟨hi.1 hinit, h10⟩⟩
    · intro lx hlx
      obtain ⟨h9, h10⟩ := hB lx hlx
      refine ⟨h9, fun hok => ?_⟩
      obtain ⟨ok1, ok2⟩ := hsplit.1 hok
      obtain ⟨e1, e2⟩ := h10 ok2
      rw [e1, hi.2 ok1, e2]
      rfl
  · have hsim : Sim env.u ((s.errs ++ es).map PosErr.key) s ⟨l, src.length, []⟩ :=
      ⟨⟨es, h2, by rw [List.append_nil]⟩, by rw [h3], Scanner.lined_invariant.nextToken env.u (Scanner.init_lined src) h1⟩
    have := hsim.run (file_ (src.length + 1))
    rw [hrun] at this
    cases hr : (file_ (src.length + 1)).run (scannerSource env.u) s with
    | done r =>
      rw [hr] at this
      obtain ⟨e1, hs⟩ := this
      dsimp only at e1
      refine ⟨r.2.errs, ?_, ?_, ?_⟩
      · rw [Parse, h1, Out.bind_done, hr, Out.bind_done, e1]
      · obtain ⟨es', ht, hp⟩ := hs.toks
        rw [hrest] at ht
        cases ht with
        | eof =>
          rw [List.append_nil] at hp
          exact hp
      · have hl := hs.lined.errs
        have he := hs.eof
        suffices r.2.src = src by rw [this] at hl; exact hl
        have hsrc : ∀ {α : Type} (p : PProg α) (s : Scanner) r, s.src = src → p.run (scannerSource env.u) s = .done r → r.2.src = src := by
          intro α p
          induction p with
          | ret a => intro s r h hr; injection hr with hr; rw [← hr]; exact h
          | bad => intro s r h hr; injection hr with hr; rw [← hr]; exact h
          | diverge => intro s r h hr; cases hr
          | call o k ih =>
            intro s r h hr
            rw [PProg.run] at hr
            have hstep : ∀ a s', (scannerSource env.u).step o s = .done (a, s') → s'.src = src := by
              intro a s' hst
              cases o with
              | tok => injection hst with hst; injection hst with _ hst; rw [← hst]; exact h
              | pos => injection hst with hst; injection hst with _ hst; rw [← hst]; exact h
              | lit =>
                change s.lit.bind _ = _ at hst
                cases hx : s.lit with
                | done x => rw [hx, Out.bind_done] at hst; injection hst with hst; injection hst with _ hst; rw [← hst]; exact h
                | blocked => rw [hx] at hst; cases hst
                | diverged => rw [hx] at hst; cases hst
                | panicked => rw [hx] at hst; cases hst
              | next =>
                change (s.nextToken env.u).bind _ = _ at hst
                cases hx : s.nextToken env.u with
                | done x => rw [hx, Out.bind_done] at hst; injection hst with hst; injection hst with _ hst; rw [← hst]; exact nextToken_src env.u hx h
                | blocked => rw [hx] at hst; cases hst
                | diverged => rw [hx] at hst; cases hst
                | panicked => rw [hx] at hst; cases hst
              | expected w =>
                change (s.errorExpected w).bind _ = _ at hst
                have hex : ∀ x, s.errorExpected w = .done x → x.src = src := by
                  intro x hx
                  unfold Scanner.errorExpected at hx
                  split at hx
                  · cases hy : s.lit with
                    | done y => rw [hy, Out.bind_done] at hx; injection hx with hx; rw [← hx]; exact h
                    | blocked => rw [hy] at hx; cases hx
                    | diverged => rw [hy] at hx; cases hx
                    | panicked => rw [hy] at hx; cases hx
                  · injection hx with hx; rw [← hx]; exact h
                cases hx : s.errorExpected w with
                | done x => rw [hx, Out.bind_done] at hst; injection hst with hst; injection hst with _ hst; rw [← hst]; exact hex x hx
                | blocked => rw [hx] at hst; cases hst
                | diverged => rw [hx] at hst; cases hst
                | panicked => rw [hx] at hst; cases hst
            cases hx : (scannerSource env.u).step o s with
            | done x => rw [hx, Out.bind_done] at hr; exact ih x.1 x.2 r (hstep x.1 x.2 hx) hr
            | blocked => rw [hx] at hr; cases hr
            | diverged => rw [hx] at hr; cases hr
            | panicked => rw [hx] at hr; cases hr
        exact hsrc _ s r h3 hr
    | blocked => rw [hr] at this; exact this.elim
    | diverged => rw [hr] at this; exact this.elim
    | panicked => rw [hr] at this; exact this.elim

end GoThrift.Idl
