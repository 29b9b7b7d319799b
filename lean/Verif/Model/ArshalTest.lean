import Verif.Model.Arshal
import Verif.Model.Memo

/-!
# `TestArshaler` (thrift/arshal_test.go)

The test of Marshal and Unmarshal at a Memo that breaks at every step. What `t.Fatalf` and `t.Errorf` print is not modelled. A row holds the value `in`, its type, and the type of pointers to
that type, which `reflect.New` and `out.Interface()` use.
-/

namespace GoThrift.ArshalTest

/-- A row of the table (arshal_test.go:27-30): `in`, with its type and the type of pointers to it, and `steps` -/
structure Row where
  typ : TypeId
  ptrTyp : TypeId
  val : GoVal
  steps : List String

/-- `errors.As(err, &se)` with a `*SemanticError`, then `se.action` (arshal_test.go:138-144, 162-168): the first one in the chain of `Unwrap` -/
def asSemantic : Err → Option Action
  | .semantic act _ _ => some act
  | .semanticE act _ _ _ => some act
  | .wire _ e => asSemantic e
  | _ => none

/-- `errors.As(err, &we)` with a `*wireError`, then `we.action` (arshal_test.go:145-151, 169-175): the first one in the chain of `Unwrap` -/
def asWire : Err → Option String
  | .wire act _ => some act
  | .semanticE _ _ _ e => asWire e
  | _ => none

/-- Are the checks of an error passed? With `step = none` no error is expected (arshal_test.go:135-136, 159-160), otherwise one with this action, and a `*wireError` with an action that `isStep`
accepts (arshal_test.go:137-152, 161-176). -/
def errOK (expectError : Bool) (act : Action) (isStep : String → Bool) (err : Option Err) : Bool :=
  match err, expectError with
  | none, false => true
  | some _, false => false
  | none, true => false
  | some e, true => asSemantic e == some act && match asWire e with
    | none => false
    | some a => isStep a

/-- What is tested: Marshal at the Writer of a Memo, and Unmarshal at its Reader. -/
structure Impl where
  marshal : AnyVal → Memo → Out (Option Err × Memo)
  unmarshal : AnyVal → Memo → Out ((AnyVal × Option Err) × Memo)

/-- The functions of the package. -/
def code (env : Env) (fuel : Nat) : Impl := ⟨fun x => (Marshal env fuel x).run Memo.writer, fun x => (Unmarshal env fuel x).run Memo.reader⟩

/-- The body of the loop (arshal_test.go:128-181). `none`: the test ends with `t.Fatal`; otherwise the new `*out`, and whether `t.Errorf` was not called. -/
def body (i : Impl) (row : Row) (steps : List String) (n : Nat) (out : GoVal) : Out (Option (GoVal × Bool)) :=
  let expectError : Bool := n ≠ steps.length
  let m : Memo := if expectError then { breakpoint := n + 1 } else {}
  (i.marshal (.val row.typ row.val) m).bind fun (err, m) =>
    if errOK expectError .marshal (fun a => a = "Write" ++ steps.getD n "" || a = "WriteStructEnd") err then
      let write := m.Steps
      if write = steps.take n then
        (i.unmarshal (.val row.ptrTyp (.ptr out)) m).bind fun ((x, err), m) =>
          if errOK expectError .unmarshal (fun a => a = "Read" ++ steps.getD n "") err then
            match x with
            | .val _ (.ptr out) => .done (some (out, m.Steps.drop write.length = write))
            | _ => .panicked
          else .done none
      else .done none
    else .done none

/-- The loop (arshal_test.go:127-182), for `n`, `n - 1`, ..., 0. Is the test passed? -/
def loop (i : Impl) (row : Row) (steps : List String) (n : Nat) (out : GoVal) (passed : Bool) : Out Bool :=
  (body i row steps n out).bind fun
    | none => .done false
    | some (out, same) => match n with
      | 0 => .done (passed && same)
      | n + 1 => loop i row steps n out (passed && same)

/-- What is done with a row (arshal_test.go:120-182) -/
def testRow (env : Env) (i : Impl) (row : Row) : Out Bool :=
  let steps := row.steps.map fun s => if s = "FieldStop" then "FieldBegin" else s
  loop i row steps steps.length (env.zero row.typ) true

/-- `TestArshaler` (arshal_test.go:26-184) with any table and any functions: does it pass? (After a failed row that did not call `t.Fatal` it goes on, but it has failed.) -/
def testWith (env : Env) (i : Impl) : List Row → Out Bool
  | [] => .done true
  | row :: rows => (testRow env i row).bind fun passed => if passed then testWith env i rows else .done false

/-- `TestArshaler` of the functions of the package -/
def testArshaler (env : Env) (fuel : Nat) (rows : List Row) : Out Bool := testWith env (code env fuel) rows

end GoThrift.ArshalTest
