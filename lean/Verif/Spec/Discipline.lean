import Verif.Model.Wire

/-!
# The order of Reader calls that the wire types ask for
-/

namespace GoThrift.Spec

/-- What a caller of a Reader has yet to read. -/
inductive Want where
  /-- a value of this type -/
  | value (t : WType)
  /-- the next field header of a struct -/
  | fieldHeader
  /-- this call -/
  | exactly (o : ROp)
  deriving DecidableEq

/-- The methods that read a value of this type, or begin to. A string may be read as a string, as bytes, or skipped; a UUID may be skipped. -/
def readsValue : ROp → WType → Bool
  | .bool, t => t == Ty.bool
  | .byte, t => t == Ty.byte
  | .double, t => t == Ty.double
  | .i16, t => t == Ty.i16
  | .i32, t => t == Ty.i32
  | .i64, t => t == Ty.i64
  | .string, t => t == Ty.string
  | .bytes _, t => t == Ty.string
  | .skipString, t => t == Ty.string
  | .uuid, t => t == Ty.uuid
  | .skipUUID, t => t == Ty.uuid
  | .structBegin, t => t == Ty.struct
  | .mapBegin, t => t == Ty.map
  | .setBegin, t => t == Ty.set
  | .listBegin, t => t == Ty.list
  | _, _ => false

/-- May this call be made, given what is to be read? -/
def allowed : List Want → ROp → Bool
  | .value t :: _, o => readsValue o t
  | .fieldHeader :: _, o => o == .fieldBegin
  | .exactly o' :: _, o => o == o'
  | [], _ => false

/-- What is to be read next, after an answer: the fields of a struct up to the stop field and then StructEnd, the announced number of elements of the announced types and then the End call. -/
def afterCall : (o : ROp) → o.Ans → List Want → List Want
  | .structBegin, _, l => .fieldHeader :: l
  | .fieldBegin, h, l => if h.type = Ty.stop then .exactly .structEnd :: l else .value h.type :: .exactly .fieldEnd :: .fieldHeader :: l
  | .mapBegin, h, l => (List.replicate (loopCount h.size) [Want.value h.key, .value h.value]).flatten ++ .exactly .mapEnd :: l
  | .setBegin, h, l => List.replicate (loopCount h.size) (.value h.element) ++ .exactly .setEnd :: l
  | .listBegin, h, l => List.replicate (loopCount h.size) (.value h.element) ++ .exactly .listEnd :: l
  | _, _, l => l

/-- The reader `r`, watched: the second part of the state is what is to be read, or `none` after a call that was not allowed. No call is allowed after a failed one. -/
def watched {S : Type} (r : Rdr S) : Rdr (S × Option (List Want)) where
  step o s := (r.step o s.1).bind fun x => .done (x.1, (x.2, s.2.bind fun l =>
    if allowed l o then some (match x.1 with | .ok a => afterCall o a l.tail | .error _ => []) else none))

end GoThrift.Spec
