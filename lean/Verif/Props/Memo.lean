import Verif.Proof.Strict
import Verif.Proof.MemoBreak
import Verif.Props.RoundTrip

/-!
# C34, C35: the Memo
-/

namespace GoThrift

open Spec Spec.TVal

/-- **C34** (calls): after any calls of Writer methods at a fresh Memo, the Reader answers the calls that take them back with exactly what was written; the recorded steps are the names of the
methods, first of the writes, then of the reads. -/
theorem C34_replay (l : List WOp) (m : Memo) (h : Writes Memo.writer l {} m) :
    m.Steps = stepsOf l ∧ ∃ m', Answers Memo.reader (takeAll l) m m' ∧ m'.Steps = m.Steps ++ m.Steps := by
  obtain rfl := h.unique (Memo.writes_fresh 0 l (fun h => by omega))
  have hlen : (l.flatMap Memo.entries).length = (takeAll l).length := (Memo.fits_all l).1
  refine ⟨?_, Memo.after 0 (l.flatMap Memo.entries) (0 + (takeAll l).length), ?_, ?_⟩
  · simp [Memo.Steps, Memo.after, Memo.names_eq]
  · refine Memo.answers_from 0 _ _ 0 (fun i a ha => ?_) (fun h => by omega)
    have hi : i < (l.flatMap Memo.entries).length := by
      have := (List.getElem?_eq_some_iff.1 ha).1
      omega
    have he := List.getElem?_eq_getElem hi
    exact ⟨_, by rw [Nat.zero_add]; exact he, ((Memo.fits_all l).2 i _ a he ha).1⟩
  · simp only [Memo.Steps, Memo.after, Nat.zero_add, List.take_zero, List.append_nil]
    rw [List.take_of_length_le (by rw [List.length_map]; omega)]

/-- **C34**: Unmarshal from the Reader of a Memo, into a zero value of the same type, after Marshal to its Writer, succeeds, yields the value up to `RoundTrip`, and makes the very steps
that Marshal made. -/
theorem C34_unmarshal (env : Env) (x : AnyVal) (t p : TypeId) (v : GoVal) (hx : Passes env x t v) (hp : (env.type p).kind = .ptr t) (ht : HasType env t v)
    (hs : SizesAtMost env (2 ^ 63 - 1) t v) (hk : KeysSurvive env t v) (hd : ∀ t', Within env t' t → DistinctIds env t') (m : Memo)
    (h : MarshalReturns env Memo.writer x {} none m) :
    ∃ v' m', RoundTrip env t v v' ∧ UnmarshalReturns env Memo.reader (.val p (.ptr (env.zero t))) m none (.val p (.ptr v')) m' ∧ m'.Steps = m.Steps ++ m.Steps := by
  obtain ⟨tv, hr, hw, n, a, hl, hty⟩ := h.rep hx ht
  obtain ⟨h1, _, _⟩ := rep_wf hr _ ht hs
  obtain ⟨v', h4, k, h5⟩ := rep_restores hr hk hd n a hl
  obtain ⟨_, m', h6, h7⟩ := C34_replay _ m hw
  refine ⟨v', m', h4, ⟨n + k + 1, fun fuel hf => ?_⟩, h7⟩
  have he : env.elem? p = some t := by simp [Env.elem?, hp]
  simp only [Unmarshal, he, GoVal.pointee?, lookup_mono (show n ≤ fuel by omega) hl, Out.elim, hty]
  have := ((unmarshal_strict env fuel fuel).1 n t a (env.zero t) tv m m' hl hr.marked hd (holdsS_answers tv h1 m m' h6)).andThen (fun v => AnyVal.val p (.ptr v))
    (k := fun v => .ret (.val p (.ptr v), none)) (kd := fun v => .done (.val p (.ptr v), none)) fun v => .ret _ _
  rw [(dec_le env (show k ≤ fuel by omega) a (env.zero t) tv).done h5] at this
  exact this

/-- **C34** fails for Skip: the Memo's Reader panics when a value written with WriteBytes is skipped, as Unmarshal does with a byte slice in a field it does not know. -/
theorem C34_skip_bytes_panics (b : Bytes) : ∃ m, Writes Memo.writer [.bytes b] {} m ∧ (skip 1 Ty.string).run Memo.reader m = .panicked :=
  ⟨_, rfl, rfl⟩

/-- **C34** does not say that reads past the end fail: reading the end of a field from an empty Memo succeeds. -/
theorem C34_reads_past_end : ∃ m, Gives Memo.reader .fieldEnd {} () m := ⟨_, rfl⟩

/-! ## Breakpoints -/

/-- **C35** (Writer): a Memo with breakpoint `b > 0` takes any calls with fewer than `b` steps together; of others it records exactly the first `b - 1` steps, and one of the calls returns ErrBreak. -/
theorem C35_writer (b : Int) (hb : b > 0) (l : List WOp) :
    (((stepsOf l).length : Int) < b → ∃ m, (WProg.ofCalls l).run Memo.writer { breakpoint := b } = .done (none, m) ∧ m.Steps = stepsOf l) ∧
    (((stepsOf l).length : Int) ≥ b → ∃ m, (WProg.ofCalls l).run Memo.writer { breakpoint := b } = .done (some .brk, m) ∧ m.Steps = (stepsOf l).take (b - 1).toNat) := by
  have hlen : (l.flatMap Memo.entries).length = (stepsOf l).length := by rw [← Memo.names_eq, List.length_map]
  have hr : Memo.room { breakpoint := b } 0 = some (b - 1).toNat := (if_pos hb).trans (by simp)
  rw [Memo.run_ofCalls, Memo.putAll_eq, hr]
  dsimp only
  refine ⟨fun h => ⟨_, by rw [if_pos (by omega)], ?_⟩, fun h => ⟨_, by rw [if_neg (by omega)], ?_⟩⟩
  · simp only [Memo.Steps, Memo.put, List.map_take, Memo.names_eq, List.nil_append]
    exact List.take_of_length_le (by omega)
  · simp only [Memo.Steps, Memo.put, List.map_take, Memo.names_eq, List.nil_append]

/-- **C35** (Writer, afterwards): once a call of the Writer has returned an error, it is ErrBreak, and every call returns it and changes nothing. -/
theorem C35_writer_stays (o o' : WOp) (m m' : Memo) (e : Err) (h : Memo.writer.step o m = .done (some e, m')) : e = .brk ∧ Memo.writer.step o' m' = .done (some .brk, m') := by
  have hs : ∀ o m, Memo.writer.step o m = .done (Memo.putAll (Memo.entries o) m) := fun o m => congrArg Out.done (Memo.writeStep_eq m o)
  rw [hs, Memo.putAll_eq] at h
  rw [hs, Memo.putAll_eq]
  by_cases hb : m.breakpoint > 0
  · have hr : m.room m.w = some (m.breakpoint - 1 - m.w).toNat := if_pos hb
    rw [hr] at h
    dsimp only at h
    by_cases hle : (Memo.entries o).length ≤ (m.breakpoint - 1 - m.w).toNat
    · rw [if_pos hle] at h; cases h
    · rw [if_neg hle] at h
      injection h with h
      injection h with h1 h2
      injection h1 with h1
      refine ⟨h1.symm, ?_⟩
      subst h2
      have hr' : Memo.room (m.put ((Memo.entries o).take (m.breakpoint - 1 - m.w).toNat)) (m.put ((Memo.entries o).take (m.breakpoint - 1 - m.w).toNat)).w = some 0 := by
        refine (if_pos hb).trans ?_
        simp only [Memo.put, List.length_take]
        congr 1
        omega
      rw [hr']
      dsimp only
      rw [List.take_zero, Memo.put_nil, if_neg]
      have : 0 < (Memo.entries o').length := by cases o' <;> exact Nat.succ_pos _
      omega
  · have hr : m.room m.w = none := if_neg hb
    rw [hr] at h
    cases h

/-- **C35** (no breakpoint): a Memo with breakpoint 0 or less takes every call. -/
theorem C35_writer_free (m : Memo) (hb : m.breakpoint ≤ 0) (o : WOp) : ∃ m', Memo.writer.step o m = .done (none, m') ∧ m'.breakpoint = m.breakpoint ∧ m'.Steps = m.Steps ++ stepsOf [o] := by
  have hs : Memo.writer.step o m = .done (Memo.putAll (Memo.entries o) m) := congrArg Out.done (Memo.writeStep_eq m o)
  have hr : m.room m.w = none := if_neg (by omega)
  rw [hs, Memo.putAll_eq, hr]
  refine ⟨_, rfl, rfl, ?_⟩
  have := Memo.names_eq [o]
  rw [List.flatMap_cons, List.flatMap_nil, List.append_nil] at this
  simp only [Memo.Steps, Memo.put, this]

/-- **C35** (Reader): a call at a Memo with breakpoint `b > 0` returns an error exactly if `b - 1` calls have been made; the error is ErrBreak, and nothing changes, so that the next call
returns it again. Otherwise the call counts (if it does not panic). -/
theorem C35_reader (m : Memo) (o : ROp) :
    (m.breakpoint > 0 ∧ (m.r : Int) ≥ m.breakpoint - 1 → Memo.reader.step o m = .done (.error .brk, m)) ∧
    (¬ (m.breakpoint > 0 ∧ (m.r : Int) ≥ m.breakpoint - 1) → ∀ x m', Memo.reader.step o m = .done (x, m') →
      (∃ a, x = .ok a) ∧ m'.breakpoint = m.breakpoint ∧ m'.r = m.r + 1 ∧ m'.Steps = m.Steps ++ [stepName o]) := by
  constructor
  · intro h
    have : m.atBreak m.r = true := by
      rw [Memo.atBreak, Bool.and_eq_true]
      exact ⟨decide_eq_true h.1, decide_eq_true (by omega)⟩
    simp only [Memo.reader, Memo.advanceR, this]
    rfl
  · intro h x m' hs
    refine Memo.reader_step o m m' ?_ x hs
    rw [Memo.atBreak, Bool.and_eq_false_iff]
    by_cases hb : m.breakpoint > 0
    · exact .inr (decide_eq_false fun h' => h ⟨hb, by omega⟩)
    · exact .inl (decide_eq_false hb)

/-- **C35** (Marshal): let Marshal to a fresh Memo succeed. With a breakpoint `b > 0` it does the same if it makes fewer than `b` steps; otherwise it returns ErrBreak, wrapped, after recording
the first `b - 1` of the steps. -/
theorem C35_marshal (env : Env) (x : AnyVal) (m : Memo) (h : MarshalReturns env Memo.writer x {} none m) (b : Int) (hb : b > 0) :
    ((m.Steps.length : Int) < b → MarshalReturns env Memo.writer x { breakpoint := b } none { m with breakpoint := b }) ∧
    ((m.Steps.length : Int) ≥ b → ∃ act tt t m', MarshalReturns env Memo.writer x { breakpoint := b } (some (.semanticE .marshal tt (some t) (.wire act .brk))) m' ∧
      m'.Steps = m.Steps.take (b - 1).toNat) := by
  obtain ⟨n, h⟩ := h
  have h0 := h n (Nat.le_refl n)
  have hw := (Memo.run_writer_free _ _ _ rfl rfl _ h0).2.1
  obtain ⟨h1, h2⟩ := Memo.run_cut_writer _ (wrapped_Marshal env n x) {} m rfl rfl none h0 b hb hb
  refine ⟨fun hlt => ⟨n, fun fuel hf => ((Marshal_le env n fuel hf x).run _ _).done (h1 ?_)⟩, fun hge => ?_⟩
  · simp only [Memo.Steps] at hlt; omega
  · obtain ⟨o, e, m2, h3, ⟨tt, t, rfl⟩, h4⟩ := h2 (by simp only [Memo.Steps] at hge; omega)
    exact ⟨_, tt, t, m2, ⟨n, fun fuel hf => ((Marshal_le env n fuel hf x).run _ _).done h3⟩, h4⟩

/-- **C35** (Unmarshal): let Unmarshal from a Memo without breakpoint return after `k` steps. With a breakpoint `b > 0`, set before the first read, it returns the same if `k < b`; otherwise it
returns an error that leads to ErrBreak, after `b - 1` reads. -/
theorem C35_unmarshal (env : Env) (x x' : AnyVal) (m m' : Memo) (hm : m.breakpoint = 0) (hr : m.r = 0) (e : Option Err) (h : UnmarshalReturns env Memo.reader x m e x' m') (b : Int) (hb : b > 0) :
    ((m'.r : Int) < b → UnmarshalReturns env Memo.reader x { m with breakpoint := b } e x' { m' with breakpoint := b }) ∧
    ((m'.r : Int) ≥ b → ∃ e2 x2 m2, UnmarshalReturns env Memo.reader x { m with breakpoint := b } (some e2) x2 m2 ∧ Reaches e2 .brk ∧ (m2.r : Int) = b - 1) := by
  obtain ⟨n, h⟩ := h
  obtain ⟨h1, h2⟩ := Memo.run_cut_reader _ (failFast_Unmarshal env n x) m m' hm _ (h n (Nat.le_refl n)) b (fun _ => by omega)
  refine ⟨fun hlt => ⟨n, fun fuel hf => ((Unmarshal_le env n fuel hf x).run _ _).done (h1 fun _ => hlt)⟩, fun hge => ?_⟩
  obtain ⟨⟨x2, e2⟩, m2, h3, ⟨err, h4, h5⟩, h6⟩ := h2 hb hge
  cases h4
  exact ⟨err, x2, m2, ⟨n, fun fuel hf => ((Unmarshal_le env n fuel hf x).run _ _).done h3⟩, h5, h6⟩

/-! ## Examples -/

/-- The Memo after Marshal of `Ex.valQ`. -/
def Ex.memoQ : Memo := match (Marshal Ex.env 20 (.val 0 Ex.valQ)).run Memo.writer {} with
  | .done (_, m) => m
  | _ => {}

theorem Ex.memoizesQ : MarshalReturns Ex.env Memo.writer (.val 0 Ex.valQ) {} none Ex.memoQ :=
  ⟨20, fun fuel hf => ((Marshal_le Ex.env 20 fuel hf _).run _ _).done (by decide +kernel)⟩

example : Ex.memoQ.Steps = ["StructBegin", "FieldBegin", "I32", "FieldEnd", "FieldBegin", "String", "FieldEnd", "FieldBegin", "ListBegin", "String", "String", "ListEnd", "FieldEnd",
    "FieldBegin", "MapBegin", "String", "I64", "String", "I64", "MapEnd", "FieldEnd", "FieldBegin", "StructEnd"] := by decide +kernel

/-- The hypotheses of `C34_unmarshal` hold of a struct with ignored, zero, required nil, list and map fields. -/
example : ∃ v' m', RoundTrip Ex.env 0 Ex.valQ v' ∧ UnmarshalReturns Ex.env Memo.reader (.val 4 (.ptr (Ex.env.zero 0))) Ex.memoQ none (.val 4 (.ptr v')) m' ∧
    m'.Steps = Ex.memoQ.Steps ++ Ex.memoQ.Steps :=
  C34_unmarshal Ex.env (.val 0 Ex.valQ) 0 4 Ex.valQ (.inl ⟨rfl, fun e h => by cases h⟩) rfl Ex.hasType_valQ (Ex.sizes_valQ.mono (by decide)) Ex.keys_valQ Ex.distinct_P _ Ex.memoizesQ

/-- Calls for `C34_replay` and `C35_writer`: a struct with one field; the last call makes two steps. -/
example : Writes Memo.writer (calls (.struct [83] [([65], 1, .str true [7])])) {} (Memo.after 0 ((calls (.struct [83] [([65], 1, .str true [7])])).flatMap Memo.entries) 0) ∧
    stepsOf (calls (.struct [83] [([65], 1, .str true [7])])) = ["StructBegin", "FieldBegin", "Bytes", "FieldEnd", "FieldBegin", "StructEnd"] := ⟨rfl, rfl⟩

/-- A breakpoint between the two steps of WriteStructEnd: the first of them is recorded. -/
example : (WProg.ofCalls [.structBegin [], .structEnd]).run Memo.writer { breakpoint := 3 } =
    .done (some .brk, { breakpoint := 3, w := 2, steps := ["StructBegin", "FieldBegin"], values := [[.structHeader []], [.fieldHeader ⟨[], Ty.stop, 0⟩]] }) := by decide +kernel

/-- A call that returns ErrBreak, as in `C35_writer_stays` and `C35_reader`. -/
example : Memo.writer.step (.bool true) { breakpoint := 1 } = .done (some .brk, { breakpoint := 1 }) ∧
    Memo.reader.step .bool { breakpoint := 2, r := 1, w := 1, steps := ["Bool"], values := [[.bool true]] } =
      .done (.error .brk, { breakpoint := 2, r := 1, w := 1, steps := ["Bool"], values := [[.bool true]] }) := ⟨rfl, rfl⟩

/-- `C35_marshal` and `C35_unmarshal`: with breakpoint 5 both break. -/
example : (∃ act tt t m', MarshalReturns Ex.env Memo.writer (.val 0 Ex.valQ) { breakpoint := 5 } (some (.semanticE .marshal tt (some t) (.wire act .brk))) m' ∧
      m'.Steps = ["StructBegin", "FieldBegin", "I32", "FieldEnd"]) ∧
    ∃ e2 x2 m2, UnmarshalReturns Ex.env Memo.reader (.val 4 (.ptr (Ex.env.zero 0))) { Ex.memoQ with breakpoint := 5 } (some e2) x2 m2 ∧ Reaches e2 .brk ∧ (m2.r : Int) = 4 := by
  constructor
  · obtain ⟨act, tt, t, m', h1, h2⟩ := (C35_marshal Ex.env _ _ Ex.memoizesQ 5 (by decide)).2 (by decide +kernel)
    exact ⟨act, tt, t, m', h1, h2.trans (by decide +kernel)⟩
  · have h : UnmarshalReturns Ex.env Memo.reader (.val 4 (.ptr (Ex.env.zero 0))) Ex.memoQ none
        (.val 4 (.ptr (.struct [.map [(.str [107], .i64 7), (.str [108], .i64 0)], .i32 5, .ptr (.str []), .other 0, .slice [.str [120], .str []] [], .other 0, .bool false])))
        { Ex.memoQ with r := 23, steps := Ex.memoQ.Steps ++ Ex.memoQ.Steps } :=
      ⟨20, fun fuel hf => ((Unmarshal_le Ex.env 20 fuel hf _).run _ _).done (sameResult_eq (by decide +kernel))⟩
    exact (C35_unmarshal Ex.env _ _ _ _ (by decide +kernel) (by decide +kernel) _ h 5 (by decide)).2 (by decide)

end GoThrift
