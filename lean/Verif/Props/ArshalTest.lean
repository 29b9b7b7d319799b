import Verif.Proof.ArshalTest
import Verif.Spec.ArshalTable
import Verif.Props.Memo

/-!
# C79: `TestArshaler`
-/

namespace GoThrift

open Spec Spec.TVal

open ArshalTest in
/-- **C79** (the test): `TestArshaler`, with any table of values, passes exactly if each row lists the steps in which Marshal writes its value. -/
theorem C79_test (env : Env) (rows : List Row) (hrows : ∀ row ∈ rows, GoodRow env row) :
    (∃ N, ∀ fuel, N ≤ fuel → testArshaler env fuel rows = .done true) ↔ ∀ row ∈ rows, Makes env row := by
  constructor
  · rintro ⟨N, h⟩
    exact passed_makes (h N (Nat.le_refl N))
  · intro h
    induction rows with
    | nil => exact ⟨0, fun _ _ => rfl⟩
    | cons row rows ih =>
      rw [List.forall_mem_cons] at h hrows
      obtain ⟨N1, h1⟩ := row_ok hrows.1 h.1
      obtain ⟨N2, h2⟩ := ih hrows.2 h.2
      exact ⟨N1 + N2, fun fuel hf => by rw [testArshaler, testWith, h1 fuel (by omega), Out.bind_done, if_pos rfl]; exact h2 fuel (by omega)⟩

open ArshalTest in
/-- The test passes with its own table: each row lists the steps in which Marshal writes its value. -/
theorem C79_table : testArshaler tableEnv 20 table = .done true ∧ ∀ row ∈ table, Makes tableEnv row := by
  have h : testArshaler tableEnv 20 table = .done true := by decide +kernel
  exact ⟨h, passed_makes h⟩

open ArshalTest in
/-- What it means that the test passes, for any two functions in the place of Marshal and Unmarshal, right or wrong: at each of the listed steps, from the last to the first, Marshal into a Memo that breaks there has
written the steps before it and returned an error that names the method that failed, and Unmarshal into what the round before has left has then read these steps and returned such an error; without a break
both returned no error and wrote and read all of the steps. -/
theorem C79_passed (env : Env) (i : Impl) (rows : List Row) (h : testWith env i rows = .done true) :
    ∀ row ∈ rows, ∃ outs : Nat → GoVal, outs ((wantSteps row).length + 1) = env.zero row.typ ∧ ∀ n ≤ (wantSteps row).length, TestSaw i row (wantSteps row) n (outs (n + 1)) (outs n) :=
  fun row hrow => (loop_seen (Nat.le_refl _) (testWith_seen h row hrow)).2

/-! ## Examples -/

open ArshalTest in
/-- The test passes for the functions of the package, and not for a Marshal that hides its errors, a Marshal that names another method, or an Unmarshal that does nothing. -/
example : testWith tableEnv (code tableEnv 20) table = .done true ∧
    testWith tableEnv { code tableEnv 20 with marshal := fun x m => ((code tableEnv 20).marshal x m).bind fun y => .done (none, y.2) } table = .done false ∧
    testWith tableEnv { code tableEnv 20 with marshal := fun x m => ((code tableEnv 20).marshal x m).bind fun y => .done (y.1.map fun _ => .semanticE .marshal 0 none (.wire "WriteBytes" .brk), y.2) } table = .done false ∧
    testWith tableEnv { code tableEnv 20 with unmarshal := fun x m => .done ((x, none), m) } table = .done false := by
  decide +kernel

/-- The hypotheses of `C79_marshal`, `C79_unmarshal` and `C79_whole`: a struct with ignored, zero, required nil, list and map fields, cut at the stop field, step 21 of 23. -/
example : ∃ tt g v' m' m'', MarshalReturns Ex.env Memo.writer (.val 0 Ex.valQ) { breakpoint := 22 } (some (.semanticE .marshal Ty.struct (some 0) (.wire "WriteStructEnd" .brk))) m' ∧
    UnmarshalReturns Ex.env Memo.reader (.val 4 (.ptr Ex.valQ)) m' (some (.semanticE .unmarshal tt (some g) (.wire "ReadFieldBegin" .brk))) (.val 4 (.ptr v')) m'' := by
  have hv : ValidValue Ex.env 0 Ex.valQ := Ex.valid_valQ
  have h1 : MarshalReturns Ex.env Memo.writer (.val 0 Ex.valQ) { breakpoint := 22 } (some (.semanticE .marshal Ty.struct (some 0) (.wire "WriteStructEnd" .brk))) (Memo.after 22 ((Ex.memoQ.steps.zip Ex.memoQ.values).take 21) 0) :=
    ⟨20, fun fuel hf => ((Marshal_le Ex.env 20 fuel hf _).run _ _).done (by decide +kernel)⟩
  obtain ⟨tt, g, v', m'', h2, _, _⟩ := C79_unmarshal Ex.env _ 0 4 Ex.valQ (.inl ⟨rfl, fun e h => by cases h⟩) rfl Ex.hasType_valQ (Ex.sizes_valQ.mono (by decide)) Ex.distinct_P Ex.allGood_P _
    Ex.memoizesQ 21 "FieldBegin" (by decide +kernel) _ _ h1 Ex.valQ hv
  exact ⟨tt, g, v', _, m'', h1, h2⟩

/-- A good row, with the steps that Marshal makes, and the same row with a step missing. -/
example : GoodRow Ex.env ⟨0, 4, Ex.valQ, Ex.memoQ.Steps⟩ ∧ Makes Ex.env ⟨0, 4, Ex.valQ, Ex.memoQ.Steps⟩ ∧ ¬ Makes Ex.env ⟨0, 4, Ex.valQ, Ex.memoQ.Steps.drop 1⟩ := by
  refine ⟨⟨(fun e h => by cases h), rfl, Ex.hasType_valQ, Ex.sizes_valQ.mono (by decide), Ex.allGood_P, Ex.distinct_P⟩, ⟨_, Ex.memoizesQ, by decide +kernel⟩, ?_⟩
  rintro ⟨m, ⟨n, h⟩, h2⟩
  obtain ⟨n', h'⟩ := Ex.memoizesQ
  have := (h (n + n') (by omega)).symm.trans (h' (n + n') (by omega))
  cases this
  revert h2
  decide +kernel

open ArshalTest in
/-- The test sees a wrong step. -/
example : testArshaler tableEnv 20 [row 5 (.i8 255) ["I16"]] = .done false ∧ testArshaler tableEnv 20 [row 17 .sliceNil ["ListBegin", "ListEnd", "ListEnd"]] = .done false := by decide +kernel

end GoThrift
