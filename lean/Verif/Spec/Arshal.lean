import Verif.Model.Arshal

/-!
# Observing Marshal and Unmarshal
-/

namespace GoThrift

/-- `Marshal(w, x)` with the writer in state `s` returns `e` and leaves the writer in state `s'`. (The model carries a bound on the recursion; "returns" means: with
every large enough bound.) -/
def MarshalReturns {S : Type} (env : Env) (w : Wtr S) (x : AnyVal) (s : S) (e : Option Err) (s' : S) : Prop :=
  ∃ n, ∀ fuel, n ≤ fuel → (Marshal env fuel x).run w s = .done (e, s')

/-- `Unmarshal(r, x)` with the reader in state `s` returns `e`; the argument is then `x'` and the reader in state `s'`. -/
def UnmarshalReturns {S : Type} (env : Env) (r : Rdr S) (x : AnyVal) (s : S) (e : Option Err) (x' : AnyVal) (s' : S) : Prop :=
  ∃ n, ∀ fuel, n ≤ fuel → (Unmarshal env fuel x).run r s = .done ((x', e), s')

namespace Spec

/-- The argument `x` of Marshal passes the value `v` of type `t`: it is a pointer to `v`, or `v` itself and not a pointer. -/
def Passes (env : Env) (x : AnyVal) (t : TypeId) (v : GoVal) : Prop :=
  (x = .val t v ∧ ∀ e, (env.type t).kind ≠ .ptr e) ∨ ∃ p, (env.type p).kind = .ptr t ∧ x = .val p (.ptr v)

/-! ## Errors -/

/-- `errors.Unwrap`: only `*wireError` (thrift/errors.go:21-23) and `*SemanticError` (120-122) wrap an error. -/
def unwrap : Err → Option Err
  | .wire _ e => some e
  | .semanticE _ _ _ e => some e
  | _ => none

/-- `e'` is `e` or is reached by unwrapping `e`. -/
inductive Reaches : Err → Err → Prop where
  | refl (e : Err) : Reaches e e
  | step {e e1 e' : Err} : unwrap e = some e1 → Reaches e1 e' → Reaches e e'

/-- Is it a `*SemanticError` with this action? -/
def IsSemantic (act : Action) : Err → Prop
  | .semantic a _ _ => a = act
  | .semanticE a _ _ _ => a = act
  | _ => False

/-- The name of a Writer method. -/
def methodName : WOp → String
  | .messageBegin _ => "WriteMessageBegin"
  | .messageEnd => "WriteMessageEnd"
  | .structBegin _ => "WriteStructBegin"
  | .structEnd => "WriteStructEnd"
  | .fieldBegin _ => "WriteFieldBegin"
  | .fieldEnd => "WriteFieldEnd"
  | .mapBegin _ => "WriteMapBegin"
  | .mapEnd => "WriteMapEnd"
  | .setBegin _ => "WriteSetBegin"
  | .setEnd => "WriteSetEnd"
  | .listBegin _ => "WriteListBegin"
  | .listEnd => "WriteListEnd"
  | .bool _ => "WriteBool"
  | .byte _ => "WriteByte"
  | .double _ => "WriteDouble"
  | .i16 _ => "WriteI16"
  | .i32 _ => "WriteI32"
  | .i64 _ => "WriteI64"
  | .string _ => "WriteString"
  | .bytes _ => "WriteBytes"
  | .uuid _ => "WriteUUID"

/-! ## Recording calls -/

/-- The writer `w`, recording each call with the error it returned. -/
def loggedW {S : Type} (w : Wtr S) : Wtr (S × List (WOp × Option Err)) where
  step o s := (w.step o s.1).bind fun x => .done (x.1, (x.2, s.2 ++ [(o, x.1)]))

/-- A writer whose calls all succeed; its state is the list of calls. -/
def okWriter : Wtr (List WOp) where
  step o s := .done (none, s ++ [o])

/-- The reader `r`, recording each call with the error it returned. -/
def loggedR {S : Type} (r : Rdr S) : Rdr (S × List (ROp × Option Err)) where
  step o s := (r.step o s.1).bind fun x => .done (x.1, (x.2, s.2 ++ [(o, match x.1 with | .ok _ => none | .error e => some e)]))

end Spec

end GoThrift
