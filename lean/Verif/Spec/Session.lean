import Verif.Spec.GoValue
import Verif.Spec.Arshal
import Verif.Spec.Holds

/-!
# Exchanging messages
-/

namespace GoThrift.Spec

/-- Messages are sent: for each, WriteMessageBegin, Marshal and WriteMessageEnd are called and return nil. -/
def Sends {S : Type} (env : Env) (w : Wtr S) : List (MessageHeader × AnyVal) → S → S → Prop
  | [], s, s' => s' = s
  | (h, x) :: ms, s, s' => ∃ s1 s2 s3, w.step (.messageBegin h) s = .done (none, s1) ∧ MarshalReturns env w x s1 none s2 ∧
      w.step .messageEnd s2 = .done (none, s3) ∧ Sends env w ms s3 s'

/-- Messages are received: for each (header, argument before, argument after), ReadMessageBegin returns the header, Unmarshal of the argument returns nil and makes it what is said, and ReadMessageEnd
returns nil. -/
def Receives {S : Type} (env : Env) (r : Rdr S) : List (MessageHeader × AnyVal × AnyVal) → S → S → Prop
  | [], s, s' => s' = s
  | (h, x, x') :: ms, s, s' => ∃ s1 s2 s3, Gives r .messageBegin s h s1 ∧ UnmarshalReturns env r x s1 none x' s2 ∧
      Gives r .messageEnd s2 () s3 ∧ Receives env r ms s3 s'

/-- A message with a value `v` of type `t`, passed to Marshal as `x`; `p` is the type `*t`. -/
structure Msg where
  h : MessageHeader
  x : AnyVal
  t : TypeId
  p : TypeId
  v : GoVal

/-- What the round trip of a message asks for; strings and containers have at most `lim` bytes or elements. -/
structure Msg.OK (env : Env) (lim : Nat) (m : Msg) : Prop where
  passes : Passes env m.x m.t m.v
  ptr : (env.type m.p).kind = .ptr m.t
  hasType : HasType env m.t m.v
  sizes : SizesAtMost env lim m.t m.v
  keys : KeysSurvive env m.t m.v
  distinct : ∀ t', Within env t' m.t → DistinctIds env t'
  name : m.h.name.length ≤ lim

/-- The message is unmarshalled into a zero value, which becomes `v'`. -/
def Msg.into (env : Env) (m : Msg) (v' : GoVal) : MessageHeader × AnyVal × AnyVal :=
  (m.h, .val m.p (.ptr (env.zero m.t)), .val m.p (.ptr v'))

/-- The values received are those sent, up to `RoundTrip`. -/
def SameValues (env : Env) : List Msg → List GoVal → Prop
  | [], [] => True
  | m :: ms, v' :: vs => RoundTrip env m.t m.v v' ∧ SameValues env ms vs
  | _, _ => False

end GoThrift.Spec
