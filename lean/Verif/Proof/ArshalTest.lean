import Verif.Props.MemoBreaks
import Verif.Spec.ArshalTest

/-!
# The rows of `TestArshaler`
-/

namespace GoThrift

open Spec Spec.TVal

namespace ArshalTest

theorem body_ok {env : Env} {row : Row} (hrow : GoodRow env row) {m : Memo} (h : MarshalReturns env Memo.writer (.val row.typ row.val) {} none m) (n : Nat) (hn : n ≤ m.Steps.length)
    (out : GoVal) (ho : ValidValue env row.typ out) : ∃ N out', ValidValue env row.typ out' ∧ ∀ fuel, N ≤ fuel → body (code env fuel) row m.Steps n out = .done (some (out', true)) := by
  have hx : Passes env (.val row.typ row.val) row.typ row.val := .inl ⟨rfl, hrow.noPtr⟩
  by_cases he : n = m.Steps.length
  · obtain ⟨v', m', ⟨N2, h2⟩, hv, h3⟩ := C79_whole env _ _ _ _ hx hrow.ptr hrow.hasType hrow.sizes hrow.distinct hrow.good m h out ho
    obtain ⟨N1, h1⟩ := h
    refine ⟨N1 + N2, v', hv, fun fuel hf => ?_⟩
    have hb : (decide (n ≠ m.Steps.length)) = false := decide_eq_false (by omega)
    simp only [body, code, hb, Bool.false_eq_true, if_false]
    rw [h1 fuel (by omega), Out.bind_done]
    simp only [errOK, if_true]
    rw [if_pos (by rw [he, List.take_length]), h2 fuel (by omega), Out.bind_done]
    simp only [errOK, if_true]
    rw [h3, List.drop_left]
    simp
  · have hlt : n < m.Steps.length := by omega
    have hst := List.getElem?_eq_getElem hlt
    have hgd : m.Steps.getD n "" = m.Steps[n] := by rw [List.getD_eq_getElem?_getD, hst]; rfl
    obtain ⟨act, tt, g, m', h1, hact, h3⟩ := C79_marshal env _ m h n _ hst
    obtain ⟨tt2, g2, v', m'', ⟨N2, h4⟩, hv, h5⟩ := C79_unmarshal env _ _ _ _ hx hrow.ptr hrow.hasType hrow.sizes hrow.distinct hrow.good m h n _ hst m' _ h1 out ho
    obtain ⟨N1, h1⟩ := h1
    refine ⟨N1 + N2, v', hv, fun fuel hf => ?_⟩
    have hb : (decide (n ≠ m.Steps.length)) = true := decide_eq_true he
    simp only [body, code, hb, if_true]
    rw [h1 fuel (by omega), Out.bind_done]
    have ha : (decide (act = "Write" ++ m.Steps[n]) || decide (act = "WriteStructEnd")) = true := by
      rcases hact with h | ⟨h, _⟩ <;> simp [h]
    simp only [errOK, asSemantic, asWire, hgd, ha, Bool.and_true, beq_self_eq_true, if_true]
    rw [if_pos h3, h4 fuel (by omega), Out.bind_done]
    simp only [asSemantic, asWire, decide_true, Bool.and_true, beq_self_eq_true, if_true]
    rw [h5, h3, List.drop_left]
    simp

theorem loop_ok {env : Env} {row : Row} (hrow : GoodRow env row) {m : Memo} (h : MarshalReturns env Memo.writer (.val row.typ row.val) {} none m) (n : Nat) (hn : n ≤ m.Steps.length)
    (out : GoVal) (ho : ValidValue env row.typ out) : ∃ N, ∀ fuel, N ≤ fuel → loop (code env fuel) row m.Steps n out true = .done true := by
  induction n generalizing out with
  | zero =>
    obtain ⟨N, out', _, h1⟩ := body_ok hrow h 0 hn out ho
    exact ⟨N, fun fuel hf => by rw [loop, h1 fuel hf]; rfl⟩
  | succ n ih =>
    obtain ⟨N, out', h2, h1⟩ := body_ok hrow h (n + 1) hn out ho
    obtain ⟨N', h3⟩ := ih (by omega) out' h2
    exact ⟨N + N', fun fuel hf => by rw [loop, h1 fuel (by omega)]; exact h3 fuel (by omega)⟩

theorem row_ok {env : Env} {row : Row} (hrow : GoodRow env row) (h : Makes env row) : ∃ N, ∀ fuel, N ≤ fuel → testRow env (code env fuel) row = .done true := by
  obtain ⟨m, h1, h2⟩ := h
  obtain ⟨N, h3⟩ := loop_ok hrow h1 m.Steps.length (Nat.le_refl _) (env.zero row.typ) (zero_valid env row.typ)
  refine ⟨N, fun fuel hf => ?_⟩
  have := h3 fuel hf
  rw [h2] at this
  exact this

theorem row_makes {env : Env} {row : Row} {fuel : Nat} (h : testRow env (code env fuel) row = .done true) : Makes env row := by
  rw [testRow] at h
  change loop (code env fuel) row (wantSteps row) (wantSteps row).length (env.zero row.typ) true = .done true at h
  have hb : (decide ((wantSteps row).length ≠ (wantSteps row).length)) = false := decide_eq_false fun h => h rfl
  rw [loop] at h
  simp only [body, code, hb, Bool.false_eq_true, if_false] at h
  cases hm : (Marshal env fuel (.val row.typ row.val)).run Memo.writer {} with
  | done y =>
    obtain ⟨e, m⟩ := y
    rw [hm, Out.bind_done] at h
    cases e with
    | some e => simp only [errOK, Bool.false_eq_true, if_false, Out.bind_done] at h; cases h
    | none =>
      simp only [errOK, if_true] at h
      by_cases hst : m.Steps = (wantSteps row).take (wantSteps row).length
      · rw [List.take_length] at hst
        exact ⟨m, ⟨fuel, fun fuel' hf => ((Marshal_le env fuel fuel' hf _).run _ _).done hm⟩, hst⟩
      · rw [if_neg hst, Out.bind_done] at h; cases h
  | _ => rw [hm] at h; cases h

theorem passed_makes {env : Env} {rows : List Row} {fuel : Nat} (h : testArshaler env fuel rows = .done true) : ∀ row ∈ rows, Makes env row := by
  induction rows with
  | nil => simp
  | cons row rows ih =>
    change (testRow env (code env fuel) row).bind _ = _ at h
    cases hr : testRow env (code env fuel) row with
    | done b =>
      rw [hr, Out.bind_done] at h
      cases b with
      | false => cases h
      | true => exact List.forall_mem_cons.2 ⟨row_makes hr, ih h⟩
    | _ => rw [hr] at h; cases h

/-! ## What it means that the test passes -/

theorem asSemantic_chain : ∀ {e : Err} {act : Action}, asSemantic e = some act → ∃ tt g, Chain e (.semantic act tt g) ∨ ∃ e', Chain e (.semanticE act tt g e')
  | .semantic _ tt g, _, h => by cases h; exact ⟨tt, g, .inl (.here _)⟩
  | .semanticE _ tt g e, _, h => by cases h; exact ⟨tt, g, .inr ⟨e, .here _⟩⟩
  | .wire _ e, _, h => by
    obtain ⟨tt, g, h1 | ⟨e', h1⟩⟩ := asSemantic_chain (e := e) h
    · exact ⟨tt, g, .inl (.wire h1)⟩
    · exact ⟨tt, g, .inr ⟨e', .wire h1⟩⟩

theorem asWire_chain : ∀ {e : Err} {a : String}, asWire e = some a → ∃ e', Chain e (.wire a e')
  | .wire _ e, _, h => by cases h; exact ⟨e, .here _⟩
  | .semanticE _ _ _ e, _, h => by
    obtain ⟨e', h1⟩ := asWire_chain (e := e) h
    exact ⟨e', .semantic h1⟩

theorem errOK_false {act : Action} {p : String → Bool} {err : Option Err} (h : errOK false act p err = true) : err = none := by
  cases err with
  | none => rfl
  | some e => cases h

theorem errOK_true {act : Action} {p : String → Bool} {l : List String} (hp : ∀ a, p a = true → a ∈ l) {err : Option Err} (h : errOK true act p err = true) : NamesMethod act l err := by
  cases err with
  | none => cases h
  | some e =>
    simp only [errOK, Bool.and_eq_true, beq_iff_eq] at h
    obtain ⟨h1, h2⟩ := h
    cases hw : asWire e with
    | none => rw [hw] at h2; cases h2
    | some a => rw [hw] at h2; exact ⟨e, rfl, asSemantic_chain h1, a, hp a h2, asWire_chain hw⟩

theorem body_seen {i : Impl} {row : Row} {steps : List String} {n : Nat} (hn : n ≤ steps.length) {out out' : GoVal} (h : body i row steps n out = .done (some (out', true))) : TestSaw i row steps n out out' := by
  unfold body at h
  dsimp only at h
  have hm : (if decide (n ≠ steps.length) = true then ({ breakpoint := n + 1 } : Memo) else {}) = if n = steps.length then {} else { breakpoint := n + 1 } := by
    by_cases e : n = steps.length <;> simp [e]
  rw [hm] at h
  cases h1 : i.marshal (.val row.typ row.val) (if n = steps.length then {} else { breakpoint := n + 1 }) with
  | done y =>
    obtain ⟨err, m⟩ := y
    rw [h1, Out.bind_done] at h
    dsimp only at h
    split at h
    · rename_i ok1
      split at h
      · rename_i hst
        cases h2 : i.unmarshal (.val row.ptrTyp (.ptr out)) m with
        | done y =>
          obtain ⟨⟨x, err'⟩, m'⟩ := y
          rw [h2, Out.bind_done] at h
          dsimp only at h
          split at h
          · rename_i ok2
            split at h
            · rename_i t out1
              simp only [Out.done.injEq, Option.some.injEq, Prod.mk.injEq, decide_eq_true_eq] at h
              obtain ⟨h3, h4⟩ := h
              subst h3
              refine ⟨err, m, t, err', m', h1, hst, h2, by rw [h4, hst], ?_⟩
              by_cases e : n = steps.length
              · rw [List.getElem?_eq_none (by omega)]
                rw [show decide (n ≠ steps.length) = false from decide_eq_false (by omega)] at ok1 ok2
                exact ⟨errOK_false ok1, errOK_false ok2⟩
              · have hlt : n < steps.length := by omega
                have hgd : steps.getD n "" = steps[n] := by rw [List.getD_eq_getElem?_getD, List.getElem?_eq_getElem hlt]; rfl
                rw [List.getElem?_eq_getElem hlt]
                rw [show decide (n ≠ steps.length) = true from decide_eq_true e, hgd] at ok1 ok2
                exact ⟨errOK_true (by simp) ok1, errOK_true (by simp) ok2⟩
            · cases h
          · cases h
        | _ => rw [h2] at h; cases h
      · cases h
    · cases h
  | _ => rw [h1] at h; cases h

theorem loop_seen {i : Impl} {row : Row} {steps : List String} : ∀ {n : Nat} (_ : n ≤ steps.length) {out : GoVal} {b : Bool}, loop i row steps n out b = .done true →
    b = true ∧ ∃ outs : Nat → GoVal, outs (n + 1) = out ∧ ∀ k ≤ n, TestSaw i row steps k (outs (k + 1)) (outs k)
  | n, hn, out, b, h => by
    rw [loop] at h
    cases hb : body i row steps n out with
    | done y =>
      rw [hb, Out.bind_done] at h
      cases y with
      | none => cases h
      | some y =>
        obtain ⟨out', same⟩ := y
        cases n with
        | zero =>
          simp only [Out.done.injEq, Bool.and_eq_true] at h
          obtain ⟨h1, h2⟩ := h
          subst h2
          refine ⟨h1, fun k => if k = 0 then out' else out, by simp, fun k hk => ?_⟩
          have : k = 0 := by omega
          subst this
          exact body_seen hn hb
        | succ n =>
          obtain ⟨h1, outs, h2, h3⟩ := loop_seen (n := n) (by omega) h
          rw [Bool.and_eq_true] at h1
          obtain ⟨h1, h4⟩ := h1
          subst h4
          refine ⟨h1, fun k => if k = n + 2 then out else outs k, by simp, fun k hk => ?_⟩
          by_cases e : k = n + 1
          · subst e
            simp only [if_true, if_neg (show ¬ n + 1 = n + 2 by omega), h2]
            exact body_seen hn hb
          · simp only [if_neg (show ¬ k + 1 = n + 2 by omega), if_neg (show ¬ k = n + 2 by omega)]
            exact h3 k (by omega)
    | _ => rw [hb] at h; cases h

theorem testWith_seen {env : Env} {i : Impl} : ∀ {rows : List Row}, testWith env i rows = .done true → ∀ row ∈ rows, testRow env i row = .done true
  | [], _, row, hm => by cases hm
  | r :: rows, h, row, hm => by
    rw [testWith] at h
    cases hr : testRow env i r with
    | done b =>
      rw [hr, Out.bind_done] at h
      cases b with
      | false => cases h
      | true =>
        cases hm with
        | head => exact hr
        | tail _ hm => exact testWith_seen h row hm
    | _ => rw [hr] at h; cases h

end ArshalTest

end GoThrift
