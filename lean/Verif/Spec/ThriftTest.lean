import Verif.Model.ThriftTest
import Verif.Spec.Session
import Verif.Spec.Canon

/-!
# Tables for `TestProtocol`
-/

namespace GoThrift.Spec

mutual
/-- No map inside has two entries. -/
def SmallMaps : GoVal → Prop
  | .struct vs => SmallMapsAll vs
  | .map es => es.length ≤ 1 ∧ SmallMapsEntries es
  | .slice es _ => SmallMapsAll es
  | .ptr v => SmallMaps v
  | _ => True
/-- See `SmallMaps`. -/
def SmallMapsAll : List GoVal → Prop
  | [] => True
  | v :: vs => SmallMaps v ∧ SmallMapsAll vs
/-- See `SmallMaps`. -/
def SmallMapsEntries : List (GoVal × GoVal) → Prop
  | [] => True
  | (k, v) :: es => SmallMaps k ∧ SmallMaps v ∧ SmallMapsEntries es
end

/-- An element of the table is one the test is meant for. Strings and containers have at most `lim` bytes or elements. -/
structure CaseOK (env : Env) (lim : Nat) (tt : ThriftTest.Case) : Prop where
  /-- a struct type all parts of which are supported, with distinct field ids and no IsZero methods -/
  kind : ∃ fs, (env.type tt.t).kind = .struct fs
  ptr : (env.type tt.p).kind = .ptr tt.t
  acc : Acc (InPart env) tt.t
  distinct : ∀ t', Within env t' tt.t → DistinctIds env t'
  noIsZero : ∀ t', Within env t' tt.t → env.isZero t' = none
  /-- a value of this type that has a wire form -/
  hasType : HasType env tt.t tt.val
  rep : ∃ tv, Rep env tt.t tt.val tv
  sizes : SizesAtMost env lim tt.t tt.val
  name : tt.name.length ≤ lim
  /-- which comes back as it was, -/
  settled : RoundTrip env tt.t tt.val tt.val
  keys : KeysSurvive env tt.t tt.val
  /-- without maps that can be iterated in several ways, unless it is said to have some -/
  maps : tt.hasMap = false → SmallMaps tt.val

/-- A program that contains the types of the table, with Go's floats (as far as the table needs them) and letters. -/
structure TestProgram (env : Env) : Prop where
  types : ∀ t, t < 40 → env.type t = ThriftTest.type t
  noIsZero : ∀ t, t < 40 → env.isZero t = none
  float_min : env.narrow (env.widen 1) = 1
  float_max : env.narrow (env.widen 0x7f7fffff) = 0x7f7fffff
  letters : ∀ b ∈ requiredText, env.unicode.isLetter b.toNat = true

end GoThrift.Spec
