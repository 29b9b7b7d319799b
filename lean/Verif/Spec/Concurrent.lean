import Verif.Model.Concurrent

/-!
# What goroutines are to see of each other

Nothing: each finds the arshalers it would have made itself, and makes the calls it would have made alone.
-/

namespace GoThrift.Spec

/-- What a goroutine would do if it were the only one: the calls of the sequential Marshal and Unmarshal. -/
def alone {β : Type} (env : Env) : Caller β → CProg β
  | .stop b => .ret b
  | .marshal fuel x next => (Marshal env fuel x).toC.bind fun e => alone env (next e)
  | .unmarshal fuel x next => (Unmarshal env fuel x).toC.bind fun r => alone env (next r)

/-- A call on a Reader or Writer and its answer. -/
abbrev Call := (o : LOp) × o.Ans

/-- `Does p cs q`: the program `p` can make the calls `cs` with these answers, and then goes on as `q`. -/
inductive Does {β : Type} : CProg β → List Call → CProg β → Prop where
  | refl (p : CProg β) : Does p [] p
  | step {o : LOp} {k : o.Ans → CProg β} {r : o.Ans} {cs : List Call} {q : CProg β} : Does (k r) cs q → Does (.call o k) (⟨o, r⟩ :: cs) q

/-- The calls among the steps of one goroutine. -/
def callsOf (i : Nat) : List (Nat × Event) → List Call
  | [] => []
  | (j, .call o r) :: es => if j = i then ⟨o, r⟩ :: callsOf i es else callsOf i es
  | (_, .shared _ _) :: es => callsOf i es

/-- Is it an assignment to the variables of the struct arshaler at `p`? -/
def isAssign (p : Ptr) : Event → Bool
  | .shared (.assign q _) _ => q == p
  | _ => false

/-- How often the variables of the struct arshaler at `p` were assigned. -/
def assignments (p : Ptr) (es : List (Nat × Event)) : Nat := es.countP fun x => isAssign p x.2

/-- The arshaler for the type `t` that an event returns, if it is a successful lookup of that type in the cache. -/
inductive Finds : Event → TypeId → Ptr → Prop where
  | load (t : TypeId) (p : Ptr) : Finds (.shared (.load t) (some p)) t p
  | loadOrStore (t : TypeId) (new p : Ptr) : Finds (.shared (.loadOrStore t new) p) t p

/-- A goroutine that has nothing more to do. -/
def Finished {β : Type} : CProg β → Prop
  | .ret _ | .diverge | .panic => True
  | .shared _ _ | .call _ _ => False

/-- No call of Marshal or Unmarshal by the goroutine has a larger fuel. -/
def FuelAtMost {β : Type} (n : Nat) : Caller β → Prop
  | .stop _ => True
  | .marshal fuel _ next => fuel ≤ n ∧ ∀ e, FuelAtMost n (next e)
  | .unmarshal fuel _ next => fuel ≤ n ∧ ∀ r, FuelAtMost n (next r)

/-- The arshaler at `p` is `a`, and the parts it refers to are the arshalers in the cache. -/
def Describes (s : Shared) (p : Ptr) : Arsh → Prop
  | .leaf t l => s.heap[p]? = some ⟨l.wireType, .leaf t l⟩
  | .struct t => s.heap[p]? = some ⟨Ty.struct, .struct t⟩
  | .map t ka ea => ∃ k e, s.heap[p]? = some ⟨Ty.map, .map t k e⟩ ∧ (s.cache ka.typ = some k ∧ Describes s k ka) ∧ s.cache ea.typ = some e ∧ Describes s e ea
  | .seq t isSet ea => ∃ e, s.heap[p]? = some ⟨if isSet then Ty.set else Ty.list, .seq t isSet e⟩ ∧ s.cache ea.typ = some e ∧ Describes s e ea
  | .ptr t ea => ∃ e, s.heap[p]? = some ⟨ea.wireType, .ptr t e⟩ ∧ s.cache ea.typ = some e ∧ Describes s e ea
  | .invalid t => s.heap[p]? = some ⟨Ty.stop, .invalid t⟩

/-- The arshaler at `p` is `a`, and it is the one in the cache for its type. -/
def Denotes (s : Shared) (p : Ptr) (a : Arsh) : Prop := s.cache a.typ = some p ∧ Describes s p a

/-- The same entry of a field table. -/
structure FieldDenotes (s : Shared) (c : CField) (f : SField) : Prop where
  index : c.index = f.index
  typ : c.typ = f.typ
  id : c.id = f.id
  name : c.name = f.name
  required : c.required = f.required
  fncs : Denotes s c.fncs f.a

/-- The same entries in the same order. -/
inductive FieldsDenote (s : Shared) : List CField → List SField → Prop where
  | nil : FieldsDenote s [] []
  | cons {c : CField} {f : SField} {cs : List CField} {fs : List SField} : FieldDenotes s c f → FieldsDenote s cs fs → FieldsDenote s (c :: cs) (f :: fs)

/-- The same field table, or the same error. -/
inductive TableDenotes (s : Shared) : CTable → Except Err (List SField) → Prop where
  | error (e : Err) : TableDenotes s (.error e) (.error e)
  | ok {cs : List CField} {fs : List SField} : FieldsDenote s cs fs → TableDenotes s (.ok cs) (.ok fs)

end GoThrift.Spec
