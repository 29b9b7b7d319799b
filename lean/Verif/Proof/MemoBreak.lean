import Verif.Proof.Memo
import Verif.Proof.FailFast
import Verif.Proof.Le

/-!
# Programs at a Memo with a breakpoint
-/

namespace GoThrift

open Spec

namespace Memo

/-- The Memo with this breakpoint. -/
def cut (m : Memo) (b : Int) : Memo := { m with breakpoint := b }

theorem reader_cut (o : ROp) (m : Memo) (hm : m.breakpoint = 0) (b : Int) : reader.step o (m.cut b) =
    if b > 0 ∧ (m.r : Int) + 1 ≥ b then .done (.error .brk, m.cut b) else (reader.step o m).bind fun x => .done (x.1, x.2.cut b) := by
  have key : ∀ m' : Memo, readStep (m'.cut b) o = (readStep m' o).bind fun x => .done (x.1, x.2.cut b) := by
    intro m'
    have hc : ∀ s, check (m'.cut b) s = (check m' s).bind fun x => .done (x.cut b) := by
      intro s
      simp only [check, cut]
      split
      · rfl
      · split <;> rfl
    have h0 : ∀ s, read0 (m'.cut b) s = (read0 m' s).bind fun x => .done (x.1, x.2.cut b) := by
      intro s
      rw [read0, read0, hc]
      cases check m' s <;> rfl
    have h1 : ∀ {α : Type} s (as : MVal → Option α), read1 (m'.cut b) s as = (read1 m' s as).bind fun x => .done (x.1, x.2.cut b) := by
      intro α s as
      rw [read1, read1, hc]
      cases check m' s with
      | done m2 =>
        simp only [Out.bind_done, cut]
        cases m2.values[m2.r - 1]? with
        | none => rfl
        | some l => cases l with
          | nil => rfl
          | cons v l => dsimp only; cases as v <;> rfl
      | _ => rfl
    cases o <;> first | exact h0 _ | exact h1 _ _
  have ha : (m.cut b).atBreak (m.cut b).r = decide (b > 0 ∧ (m.r : Int) + 1 ≥ b) := by
    rw [Bool.eq_iff_iff]
    simp only [atBreak, cut, Bool.and_eq_true, decide_eq_true_eq]
    exact and_congr decide_eq_true_iff decide_eq_true_iff
  have hm' : m.atBreak m.r = false := by simp [atBreak, hm]
  simp only [reader, advanceR, ha, hm']
  by_cases h : b > 0 ∧ (m.r : Int) + 1 ≥ b
  · rw [if_pos h, decide_eq_true h]
    rfl
  · rw [if_neg h, decide_eq_false h]
    exact key { m with r := m.r + 1 }

/-- A Reader call at a Memo that is not at its breakpoint, if it does not panic. -/
theorem reader_step (o : ROp) (m m' : Memo) (hm : m.atBreak m.r = false) (x : Except Err o.Ans) (h : reader.step o m = .done (x, m')) :
    (∃ a, x = .ok a) ∧ m'.breakpoint = m.breakpoint ∧ m'.r = m.r + 1 ∧ m'.steps = m.steps ++ [stepName o] := by
  have hc : ∀ (m m' : Memo) s, check m s = .done m' → m'.breakpoint = m.breakpoint ∧ m'.r = m.r ∧ m'.steps = m.steps ++ [s] := by
    intro m m' s h
    simp only [check] at h
    split at h
    · cases h
    · split at h
      · cases h
      · cases h; exact ⟨rfl, rfl, rfl⟩
  have h0 : ∀ (m m' : Memo) s x, read0 m s = .done (x, m') → (∃ a, x = .ok a) ∧ m'.breakpoint = m.breakpoint ∧ m'.r = m.r ∧ m'.steps = m.steps ++ [s] := by
    intro m m' s x h
    rw [read0] at h
    cases hck : check m s with
    | done m2 => rw [hck] at h; cases h; exact ⟨⟨_, rfl⟩, hc _ _ _ hck⟩
    | _ => rw [hck] at h; cases h
  have h1 : ∀ {α : Type} (m m' : Memo) s (as : MVal → Option α) x, read1 m s as = .done (x, m') → (∃ a, x = .ok a) ∧ m'.breakpoint = m.breakpoint ∧ m'.r = m.r ∧ m'.steps = m.steps ++ [s] := by
    intro α m m' s as x h
    rw [read1] at h
    cases hck : check m s with
    | done m2 =>
      rw [hck] at h
      simp only [Out.bind_done] at h
      cases hv : m2.values[m2.r - 1]? with
      | none => rw [hv] at h; cases h
      | some l => cases l with
        | nil => rw [hv] at h; cases h
        | cons v l =>
          rw [hv] at h
          dsimp only at h
          cases ha : as v with
          | none => rw [ha] at h; cases h
          | some a => rw [ha] at h; cases h; exact ⟨⟨_, rfl⟩, hc _ _ _ hck⟩
    | _ => rw [hck] at h; cases h
  have hr : readStep { m with r := m.r + 1 } o = .done (x, m') := by
    simp only [reader, advanceR, hm] at h
    exact h
  cases o <;> first | exact h0 _ _ _ _ hr | exact h1 _ _ _ _ _ hr

theorem reader_free (o : ROp) (m m' : Memo) (hm : m.breakpoint = 0) (x : Except Err o.Ans) (h : reader.step o m = .done (x, m')) :
    (∃ a, x = .ok a) ∧ m'.breakpoint = 0 ∧ m'.r = m.r + 1 := by
  obtain ⟨h1, h2, h3, _⟩ := reader_step o m m' (by simp [atBreak, hm]) x h
  exact ⟨h1, h2.trans hm, h3⟩

/-- A fail-fast program that ends at a Memo without breakpoint, run at one with a breakpoint. -/
theorem run_cut_reader {α : Type} {bad : Err → α → Prop} (p : RProg α) (hp : FailFast bad p) (m m' : Memo) (hm : m.breakpoint = 0) (a : α) (h : p.run reader m = .done (a, m')) (b : Int)
    (hb : b > 0 → (m.r : Int) < b) :
    ((b > 0 → (m'.r : Int) < b) → p.run reader (m.cut b) = .done (a, m'.cut b)) ∧
    (b > 0 → (m'.r : Int) ≥ b → ∃ a' m2, p.run reader (m.cut b) = .done (a', m2) ∧ bad .brk a' ∧ (m2.r : Int) = b - 1) := by
  induction p generalizing m with
  | ret x =>
    cases h
    exact ⟨fun _ => rfl, fun h1 h2 => by have := hb h1; omega⟩
  | diverge => cases h
  | panic => cases h
  | call o k ih =>
    rw [RProg.run] at h ⊢
    rw [reader_cut o m hm]
    cases hs : reader.step o m with
    | done x =>
      obtain ⟨x, m1⟩ := x
      rw [hs] at h
      obtain ⟨⟨v, rfl⟩, h1, h2⟩ := reader_free o m m1 hm x hs
      have hle : ∀ (p : RProg α) (m m' : Memo) a, m.breakpoint = 0 → p.run reader m = .done (a, m') → m.r ≤ m'.r := by
        intro p
        induction p with
        | ret x => intro m m' a _ h; cases h; exact Nat.le_refl _
        | diverge => intro m m' a _ h; cases h
        | panic => intro m m' a _ h; cases h
        | call o k ih =>
          intro m m' a hm h
          rw [RProg.run] at h
          cases hs : reader.step o m with
          | done x =>
            obtain ⟨x, m1⟩ := x
            rw [hs] at h
            obtain ⟨_, h1, h2⟩ := reader_free o m m1 hm x hs
            have := ih x m1 m' a h1 h
            omega
          | _ => rw [hs] at h; cases h
      have hle := hle (k (.ok v)) m1 m' a h1 h
      by_cases hcut : b > 0 ∧ (m.r : Int) + 1 ≥ b
      · rw [if_pos hcut]
        obtain ⟨y, hy1, hy2⟩ := hp.1 .brk
        refine ⟨fun h4 => ?_, fun _ _ => ⟨y, m.cut b, ?_, hy2, ?_⟩⟩
        · have := h4 hcut.1
          omega
        · rw [Out.bind_done, hy1, RProg.run]
        · have := hb hcut.1
          simp only [cut]
          omega
      · rw [if_neg hcut, Out.bind_done, Out.bind_done]
        exact ih (.ok v) (hp.2 v) m1 h1 h fun h4 => by
          have := hb h4
          rw [h2]
          omega
    | _ => rw [hs] at h; cases h

theorem writer_free (o : WOp) (m : Memo) (hm : m.breakpoint = 0) : writer.step o m = .done (none, m.put (entries o)) := by
  have : writer.step o m = .done (putAll (entries o) m) := congrArg Out.done (writeStep_eq m o)
  rw [this, putAll_eq, room, if_neg (by omega)]

theorem writer_cut (o : WOp) (m : Memo) (b : Int) (hb : b > 0) : writer.step o (m.cut b) =
    .done (if (entries o).length ≤ (b - 1 - m.w).toNat then none else some .brk, (m.put ((entries o).take (b - 1 - m.w).toNat)).cut b) := by
  have : writer.step o (m.cut b) = .done (putAll (entries o) (m.cut b)) := congrArg Out.done (writeStep_eq _ o)
  have hr : room (m.cut b) (m.cut b).w = some (b - 1 - m.w).toNat := if_pos hb
  rw [this, putAll_eq, hr]
  rfl

/-- What a program leaves in a Memo without a breakpoint. -/
theorem run_writer_free (p : WProg) (m m' : Memo) (hm : m.breakpoint = 0) (hw : m.w = m.steps.length) (e : Option Err) (h : p.run writer m = .done (e, m')) :
    m'.breakpoint = 0 ∧ m'.w = m'.steps.length ∧ m.steps <+: m'.steps := by
  induction p generalizing m with
  | ret x => cases h; exact ⟨hm, hw, List.prefix_refl _⟩
  | diverge => cases h
  | panic => cases h
  | call o k ih =>
    rw [WProg.run, writer_free o m hm, Out.bind_done] at h
    obtain ⟨h1, h2, h3⟩ := ih none (m.put (entries o)) hm (by simp [put, hw]) h
    exact ⟨h1, h2, (List.prefix_append _ _).trans h3⟩

/-- As `run_cut_reader`, for Writers. -/
theorem run_cut_writer (p : WProg) (hp : Wrapped p) (m m' : Memo) (hm : m.breakpoint = 0) (hw : m.w = m.steps.length) (e : Option Err) (h : p.run writer m = .done (e, m')) (b : Int) (hb : b > 0)
    (hlt : (m.w : Int) < b) :
    ((m'.w : Int) < b → p.run writer (m.cut b) = .done (e, m'.cut b)) ∧
    ((m'.w : Int) ≥ b → ∃ o x m2, p.run writer (m.cut b) = .done (x, m2) ∧ Wraps o .brk x ∧ m2.steps = m'.steps.take (b - 1).toNat) := by
  induction p generalizing m with
  | ret x => cases h; exact ⟨fun _ => rfl, fun _ => by omega⟩
  | diverge => cases h
  | panic => cases h
  | call o k ih =>
    rw [WProg.run, writer_free o m hm, Out.bind_done] at h
    rw [WProg.run, writer_cut o m b hb, Out.bind_done]
    obtain ⟨h1, h2, h3⟩ := run_writer_free (k none) (m.put (entries o)) m' hm (by simp [put, hw]) e h
    have hlen : m.w + (entries o).length ≤ m'.w := by
      have := h3.length_le
      simp only [put, List.length_append, List.length_map] at this
      omega
    by_cases hc : (entries o).length ≤ (b - 1 - m.w).toNat
    · rw [if_pos hc, List.take_of_length_le hc]
      exact ih none hp.2 (m.put (entries o)) hm (by simp [put, hw]) h (by simp only [put]; omega)
    · rw [if_neg hc]
      obtain ⟨x, hx1, hx2⟩ := hp.1 .brk
      refine ⟨fun h4 => by omega, fun _ => ⟨o, x, _, by rw [hx1, WProg.run], hx2, ?_⟩⟩
      obtain ⟨rest, h3⟩ := h3
      simp only [cut, put, ← h3, List.take_append, List.length_append, List.length_map, List.map_take]
      have e1 : (b - 1).toNat - m.steps.length = (b - 1 - m.w).toNat := by omega
      have e2 : (b - 1).toNat - (m.steps.length + (entries o).length) = 0 := by omega
      rw [e1, e2, List.take_of_length_le (show m.steps.length ≤ (b - 1).toNat by omega)]
      simp

end Memo

end GoThrift
