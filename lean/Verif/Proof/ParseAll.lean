import Verif.Proof.ParseEats

/-!
# Parse as a whole, and the order of its errors
-/

namespace GoThrift.Idl

open Spec

/-- `Parse` is `file_` on the tokens of the source. -/
theorem Parse_run (env : IdlEnv) (src : Bytes) :
    ∃ (toks : List TokenAt) (sf : Scanner) (l : List (Token × Bytes × Nat)) (K : List (Nat × Msg)) (f : File) (t : TS) (errs : List PosErr),
      scanAll env.u (src.length + 2) (Scanner.init src) = .done (toks, sf) ∧ l = (code toks).map (fun t => (t.tok, t.text, t.from_)) ∧ K = sf.errs.map PosErr.key ∧ l.length ≤ src.length ∧
      (∀ t ∈ l, t.1 ≠ Tk.eof ∧ t.1 ≠ Tk.comment ∧ t.2.2 < src.length) ∧ l.Pairwise (fun a b => a.2.2 < b.2.2) ∧
      (AsciiTables env.u → (K = [] → Lex env.u (sourceText src) (l.map Scanner.plain) ∧ ∀ c ∈ sourceText src, Chr.Ok c) ∧
        ∀ lx, Lex env.u (sourceText src) lx → lx = l.map Scanner.plain ∧ ((∀ c ∈ sourceText src, Chr.Ok c) → K = [])) ∧
      (file_ (src.length + 1)).run tokSource ⟨l, src.length, []⟩ = .done (some f, t) ∧ t.rest = [] ∧
      (t.errs = [] → FileG f (l.map Scanner.plain)) ∧
      Parse env src = .done (f, env.sort (less env) errs) ∧ (errs.map PosErr.key).Perm (K ++ t.errs) ∧
      ∀ e ∈ errs, e.offset ≤ src.length ∧ e.line = lineOf src e.offset ∧ e.column = columnOf src e.offset := by
  obtain ⟨toks, sf, l, K, s1, s2, s3, h1, h2, h3, h4, h5⟩ := Parse_tokens env src
  obtain ⟨hg, f, t, h6, h7⟩ := file_good (src.length + 1) ⟨l, src.length, []⟩ (show l.length < _ by omega)
  obtain ⟨r, t', g1, g2, g3, g4, g5, g6, g7⟩ := hg
  rw [h6] at g1
  injection g1 with g1
  injection g1 with e1 e2
  subst e1
  subst e2
  have hrest : t.rest = [] := by
    cases hr : t.rest with
    | nil => rfl
    | cons x r =>
      have hx : x.1 = Tk.eof := by
        rw [← h7]
        unfold TS.tok
        rw [hr]
      have hm : x ∈ l := g3.subset (by rw [hr]; exact List.mem_cons_self)
      exact absurd hx (h2 x hm).1
  obtain ⟨errs, h8, h9, h10⟩ := h5 f t h6 hrest
  refine ⟨toks, sf, l, K, f, t, errs, s1, s2, s3, h1, h2, h3, h4, h6, hrest, fun he => ?_, h8, h9, h10⟩
  obtain ⟨a, w, ha, hw, hG⟩ := g7 he
  injection ha with ha
  subst ha
  have : t.plain = [] := by unfold TS.plain; rw [hrest]; rfl
  rw [this, List.append_nil] at hw
  rw [← hw] at hG
  exact hG

/-! ## The order of errors -/

theorem bytesLess_asymm {a b : Bytes} (h : bytesLess a b = true) : bytesLess b a = false := by
  induction a generalizing b with
  | nil => cases b with
    | nil => cases h
    | cons => rfl
  | cons x a ih => cases b with
    | nil => cases h
    | cons y b =>
      rw [bytesLess] at h ⊢
      by_cases h1 : x.toNat < y.toNat
      · rw [if_neg (by omega), if_pos h1]
      · rw [if_neg h1] at h
        by_cases h2 : y.toNat < x.toNat
        · rw [if_pos h2] at h; cases h
        · rw [if_neg h2] at h
          rw [if_neg h2, if_neg h1]
          exact ih h

theorem bytesLess_neg_trans {a b c : Bytes} (h : bytesLess a b = false) (h' : bytesLess b c = false) : bytesLess a c = false := by
  induction c generalizing a b with
  | nil => cases a <;> rfl
  | cons z c ih =>
    cases b with
    | nil => cases h'
    | cons y b =>
      cases a with
      | nil => cases h
      | cons x a =>
        rw [bytesLess] at h h' ⊢
        by_cases h1 : x.toNat < y.toNat
        · rw [if_pos h1] at h; cases h
        · rw [if_neg h1] at h
          by_cases h2 : y.toNat < z.toNat
          · rw [if_pos h2] at h'; cases h'
          · rw [if_neg h2] at h'
            rw [if_neg (by omega)]
            by_cases h3 : z.toNat < x.toNat
            · rw [if_pos h3]
            · rw [if_neg h3]
              rw [if_neg (by omega)] at h
              rw [if_neg (by omega)] at h'
              exact ih h h'

theorem less_asymm (env : IdlEnv) (a b : PosErr) (h : less env a b = true) : ¬ less env b a = true := by
  unfold less at h ⊢
  by_cases h1 : a.line = b.line
  · rw [if_neg (by simp [h1])] at h
    rw [if_neg (by simp [h1])]
    by_cases h2 : a.column = b.column
    · rw [if_neg (by simp [h2])] at h
      rw [if_neg (by simp [h2]), bytesLess_asymm h]
      simp
    · rw [if_pos h2] at h
      rw [if_pos fun h => h2 h.symm]
      simp at h ⊢; omega
  · rw [if_pos h1] at h
    rw [if_pos fun h => h1 h.symm]
    simp at h ⊢; omega

theorem not_less_iff (env : IdlEnv) (a b : PosErr) : ¬ less env a b = true ↔
    b.line < a.line ∨ (b.line = a.line ∧ (b.column < a.column ∨ (b.column = a.column ∧ bytesLess (a.msg.text env) (b.msg.text env) = false))) := by
  unfold less
  by_cases h1 : a.line = b.line
  · rw [if_neg (by simp [h1])]
    by_cases h2 : a.column = b.column
    · rw [if_neg (by simp [h2])]; simp [h1, h2]
    · rw [if_pos h2]; simp; omega
  · rw [if_pos h1]; simp; omega

theorem less_neg_trans (env : IdlEnv) (a b c : PosErr) (h : ¬ less env a b = true) (h' : ¬ less env b c = true) : ¬ less env a c = true := by
  rw [not_less_iff] at h h' ⊢
  rcases h with h | ⟨h1, h | ⟨h2, h3⟩⟩
  · rcases h' with h' | ⟨h4, h' | ⟨h5, h6⟩⟩ <;> exact .inl (by omega)
  · rcases h' with h' | ⟨h4, h' | ⟨h5, h6⟩⟩
    · exact .inl (by omega)
    · exact .inr ⟨by omega, .inl (by omega)⟩
    · exact .inr ⟨by omega, .inl (by omega)⟩
  · rcases h' with h' | ⟨h4, h' | ⟨h5, h6⟩⟩
    · exact .inl (by omega)
    · exact .inr ⟨by omega, .inl (by omega)⟩
    · exact .inr ⟨by omega, .inr ⟨by omega, bytesLess_neg_trans h3 h6⟩⟩

theorem sort_nil (env : IdlEnv) {l : List PosErr} : env.sort (less env) l = [] ↔ l = [] := by
  have := env.sort_perm (less env) l
  constructor
  · intro h; rw [h] at this; exact List.perm_nil.1 this.symm
  · intro h; rw [h] at this ⊢; exact List.perm_nil.1 this

end GoThrift.Idl

namespace GoThrift.Spec

open Idl

theorem starts_sublist (src : Bytes) {o o' : Nat} (h : o ≤ o') :
    ((lineStarts src).filter fun b => decide (b ≤ o)).Sublist ((lineStarts src).filter fun b => decide (b ≤ o')) := by
  have : ((lineStarts src).filter fun b => decide (b ≤ o)) = ((lineStarts src).filter fun b => decide (b ≤ o')).filter fun b => decide (b ≤ o) := by
    rw [List.filter_filter]
    congr 1
    funext b
    by_cases h1 : b ≤ o
    · simp [h1, Nat.le_trans h1 h]
    · simp [h1]
  rw [this]
  exact List.filter_sublist

/-- Lines and columns are in the order of the offsets. -/
theorem position_lt (src : Bytes) {o o' : Nat} (h : o < o') : lineOf src o < lineOf src o' ∨ (lineOf src o = lineOf src o' ∧ columnOf src o < columnOf src o') := by
  have hs := starts_sublist src (Nat.le_of_lt h)
  have hl := hs.length_le
  by_cases he : lineOf src o = lineOf src o'
  · refine .inr ⟨he, ?_⟩
    have hf := hs.eq_of_length he
    unfold columnOf
    rw [← hf]
    have : ((lineStarts src).filter fun b => decide (b ≤ o)).getLastD 0 ≤ o := by
      rw [List.getLastD_eq_getLast?]
      cases hg : ((lineStarts src).filter fun b => decide (b ≤ o)).getLast? with
      | none => exact Nat.zero_le _
      | some b =>
        have hm := List.mem_of_getLast? hg
        simpa using (List.mem_filter.1 hm).2
    omega
  · exact .inl (by unfold lineOf at he ⊢; omega)

theorem textLE_of {x y : Bytes} (h : bytesLess y x = false) : TextLE x y := by
  induction x generalizing y with
  | nil => exact .inl (List.nil_prefix)
  | cons a x ih =>
    cases y with
    | nil => cases h
    | cons b y =>
      rw [bytesLess] at h
      by_cases h1 : b.toNat < a.toNat
      · rw [if_pos h1] at h; cases h
      · rw [if_neg h1] at h
        by_cases h2 : a.toNat < b.toNat
        · exact .inr ⟨[], a, x, b, y, rfl, rfl, h2⟩
        · rw [if_neg h2] at h
          have hab : a = b := BitVec.eq_of_toNat_eq (by omega)
          subst hab
          rcases ih h with h3 | ⟨p, c, r, d, s, rfl, rfl, h4⟩
          · exact .inl (List.cons_prefix_cons.2 ⟨rfl, h3⟩)
          · exact .inr ⟨a :: p, c, r, d, s, rfl, rfl, h4⟩

end GoThrift.Spec
