import Verif.Proof.MemoTest

/-!
# C79: a Memo that breaks at any step
-/

namespace GoThrift

open Spec Spec.TVal

/-- **C79** (Marshal): let Marshal to a fresh Memo succeed, and let step `n` be one of the steps it makes. With Breakpoint `n + 1` Marshal returns a SemanticError of Marshal that wraps an error that
names the method that made the step and wraps ErrBreak, and the steps before that are recorded. WriteStructEnd makes two steps, FieldBegin and StructEnd. -/
theorem C79_marshal (env : Env) (x : AnyVal) (m : Memo) (h : MarshalReturns env Memo.writer x {} none m) (n : Nat) (step : String) (hn : m.Steps[n]? = some step) :
    ∃ act tt g m', MarshalReturns env Memo.writer x { breakpoint := (n : Int) + 1 } (some (.semanticE .marshal tt (some g) (.wire act .brk))) m' ∧
      (act = "Write" ++ step ∨ (act = "WriteStructEnd" ∧ step = "FieldBegin")) ∧ m'.Steps = m.Steps.take n := by
  obtain ⟨k, h⟩ := h
  obtain ⟨es, rfl, _⟩ := Memo.run_cut_exact _ (wrapped_Marshal env k x) {} _ rfl none (h k (Nat.le_refl k))
  rw [Memo.put_fresh 0 es] at h hn ⊢
  rw [Memo.steps_after, List.take_zero, List.append_nil] at hn ⊢
  rw [List.getElem?_map, Option.map_eq_some_iff] at hn
  obtain ⟨e, he, rfl⟩ := hn
  obtain ⟨act, tt, g, h1, h2⟩ := MarshalReturns.cut ⟨k, h⟩ n e he
  refine ⟨act, tt, g, _, h1, h2, ?_⟩
  rw [Memo.steps_after, List.take_zero, List.append_nil, List.map_take]

section
variable (env : Env) (x : AnyVal) (t p : TypeId) (v : GoVal) (hx : Passes env x t v) (hp : (env.type p).kind = .ptr t) (ht : HasType env t v) (hs : SizesAtMost env (2 ^ 63 - 1) t v)
  (hd : ∀ t', Within env t' t → DistinctIds env t') (hg : AllGood env t) (m : Memo) (h : MarshalReturns env Memo.writer x {} none m)
include hx hp ht hs hd hg h

/-- **C79** (Unmarshal): then Unmarshal from that Memo into any variable of the type returns a SemanticError of Unmarshal that wraps an error that names the Reader's method for step `n` and wraps
ErrBreak; it leaves a value of the type, and has made the same steps as Marshal. -/
theorem C79_unmarshal (n : Nat) (step : String) (hn : m.Steps[n]? = some step) (m' : Memo) (e : Err)
    (h' : MarshalReturns env Memo.writer x { breakpoint := (n : Int) + 1 } (some e) m') (old : GoVal) (ho : ValidValue env t old) :
    ∃ tt g v' m'', UnmarshalReturns env Memo.reader (.val p (.ptr old)) m' (some (.semanticE .unmarshal tt (some g) (.wire ("Read" ++ step) .brk))) (.val p (.ptr v')) m'' ∧ ValidValue env t v' ∧
      m''.Steps = m.Steps.take n ++ m.Steps.take n := by
  obtain ⟨tv, hr, rfl, k, a, hl, hty⟩ := MarshalReturns.memo hx ht h
  obtain ⟨hw, _, _⟩ := rep_wf hr _ ht hs
  rw [Memo.steps_after, List.take_zero, List.append_nil] at hn ⊢
  rw [List.getElem?_map, Option.map_eq_some_iff] at hn
  obtain ⟨e1, he, rfl⟩ := hn
  obtain ⟨act, tt, g, h1, _⟩ := MarshalReturns.cut h n e1 he
  have hm : m' = Memo.after ((n : Int) + 1) (((calls tv).flatMap Memo.entries).take n) 0 := by
    obtain ⟨a1, h1⟩ := h1
    obtain ⟨a2, h'⟩ := h'
    have := (h' (a1 + a2) (by omega)).symm.trans (h1 (a1 + a2) (by omega))
    cases this
    rfl
  subst hm
  obtain ⟨tt, g, v', h2, h3⟩ := unmarshal_memo_cut hr hw hd hg hp hl hty ho n e1 he
  refine ⟨tt, g, v', _, h2, h3, ?_⟩
  rw [Memo.steps_after, List.map_take, List.take_take, Nat.min_self]

/-- **C79** (no break): without breakpoint Unmarshal from the Memo into any variable of the type succeeds, leaves a value of the type, and makes the same steps as Marshal. -/
theorem C79_whole (old : GoVal) (ho : ValidValue env t old) :
    ∃ v' m', UnmarshalReturns env Memo.reader (.val p (.ptr old)) m none (.val p (.ptr v')) m' ∧ ValidValue env t v' ∧ m'.Steps = m.Steps ++ m.Steps := by
  obtain ⟨tv, hr, rfl, k, a, hl, hty⟩ := MarshalReturns.memo hx ht h
  obtain ⟨hw, _, _⟩ := rep_wf hr _ ht hs
  obtain ⟨v', h2, h3⟩ := unmarshal_memo_whole hr hw hd hg hp hl hty ho
  refine ⟨v', _, h2, h3, ?_⟩
  rw [Memo.steps_after, Memo.steps_after, List.take_zero, List.append_nil, List.take_of_length_le (by rw [List.length_map]; exact Nat.le_refl _)]

end

end GoThrift
