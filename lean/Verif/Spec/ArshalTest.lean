import Verif.Model.ArshalTest
import Verif.Spec.Decode
import Verif.Spec.Memo
import Verif.Spec.Arshal

/-!
# Rows for `TestArshaler`
-/

namespace GoThrift.Spec

/-- A row with a value that can occur: its type is no pointer type, its structs have valid tags with distinct ids, and none of its strings and containers is too long. -/
structure GoodRow (env : Env) (row : ArshalTest.Row) : Prop where
  noPtr : ∀ e, (env.type row.typ).kind ≠ .ptr e
  ptr : (env.type row.ptrTyp).kind = .ptr row.typ
  hasType : HasType env row.typ row.val
  sizes : SizesAtMost env (2 ^ 63 - 1) row.typ row.val
  good : AllGood env row.typ
  distinct : ∀ t', Within env t' row.typ → DistinctIds env t'

/-- The steps of a row; the end of a struct's fields is a call of WriteFieldBegin and ReadFieldBegin. -/
def wantSteps (row : ArshalTest.Row) : List String := row.steps.map fun s => if s = "FieldStop" then "FieldBegin" else s

/-- The value can be marshalled, in these steps. -/
def Makes (env : Env) (row : ArshalTest.Row) : Prop := ∃ m, MarshalReturns env Memo.writer (.val row.typ row.val) {} none m ∧ m.Steps = wantSteps row

/-- `e` is in the chain of `Unwrap` that begins with the error. -/
inductive Chain : Err → Err → Prop where
  | here (e : Err) : Chain e e
  | wire {a : String} {e e' : Err} : Chain e e' → Chain (.wire a e) e'
  | semantic {act : Action} {tt : WType} {g : Option TypeId} {e e' : Err} : Chain e e' → Chain (.semanticE act tt g e) e'

/-- An error of Marshal or Unmarshal that names the method that failed. -/
def NamesMethod (act : Action) (methods : List String) (err : Option Err) : Prop :=
  ∃ e, err = some e ∧ (∃ tt g, Chain e (.semantic act tt g) ∨ ∃ e', Chain e (.semanticE act tt g e')) ∧ ∃ a ∈ methods, ∃ e', Chain e (.wire a e')

/-- What the test has seen of the functions when Marshal breaks at step `n` (counted from 0) of `steps`, or, if there is no such step, does not break: `out` before and `out'` afterwards. -/
def TestSaw (i : ArshalTest.Impl) (row : ArshalTest.Row) (steps : List String) (n : Nat) (out out' : GoVal) : Prop :=
  ∃ err m t err' m', i.marshal (.val row.typ row.val) (if n = steps.length then {} else { breakpoint := n + 1 }) = .done (err, m) ∧ m.Steps = steps.take n ∧
    i.unmarshal (.val row.ptrTyp (.ptr out)) m = .done ((.val t (.ptr out'), err'), m') ∧ m'.Steps.drop m.Steps.length = steps.take n ∧
    match steps[n]? with
    | none => err = none ∧ err' = none
    | some step => NamesMethod .marshal ["Write" ++ step, "WriteStructEnd"] err ∧ NamesMethod .unmarshal ["Read" ++ step] err'

end GoThrift.Spec
