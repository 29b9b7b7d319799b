import Verif.Model.Arshal

/-!
# Marshal on a stack of limited size

Frames count as in `Model/StackU.lean`.
-/

namespace GoThrift

/-- `fncs.marshal` as in `marshal` (`Model/Arshal.lean`), with room for `d` frames on the stack. -/
def marshalS (env : Env) : Nat → Nat → Arsh → GoVal → WProg
  | 0, _, _, _ => .diverge
  | _ + 1, 0, _, _ => .panic
  | fuel + 1, d + 1, a, v =>
    match a with
    | .leaf t l => marshalLeaf env t l v                                -- arshal_default.go:68-256
    | .struct t =>                                                      -- arshal_default.go:269-320
      (makeStructFields env fuel t).elim .panic .diverge fun r => match r with
        | .error e => .ret (some (withAction .marshal e))
        | .ok fs => match v.fields? with
          | none => .panic
          | some vals =>
            wcall "WriteStructBegin" Ty.struct t (.structBegin (env.type t).name)
              (marshalFields env (marshalS env fuel d) t vals (wcall "WriteStructEnd" Ty.struct t .structEnd (.ret none)) fs)
    | .map t ka ea =>                                                   -- arshal_default.go:403-437
      if ka.wireType = Ty.stop ∨ ea.wireType = Ty.stop then .ret (some (.semantic .marshal Ty.map (some t)))
      else match v.entries? with
        | none => .panic
        | some es =>
          wcall "WriteMapBegin" Ty.map t (.mapBegin ⟨ka.wireType, ea.wireType, BitVec.ofNat 64 es.length⟩)
            (marshalEntries (marshalS env fuel d ka) (marshalS env fuel d ea) (wcall "WriteMapEnd" Ty.map t .mapEnd (.ret none)) es)
    | .seq t isSet ea =>                                                -- arshal_default.go:495-520
      if ea.wireType = Ty.stop then .ret (some (.semantic .marshal (if isSet then Ty.set else Ty.list) (some t)))
      else match v.elems? with
        | none => .panic
        | some vs => marshalSeq t isSet ea.wireType (marshalS env fuel d ea) vs
    | .ptr _ ea =>                                                      -- arshal_default.go:601-608
      match v.deref? (env.zero ea.typ) with
      | none => .panic
      | some v => marshalS env fuel d ea v
    | .invalid t => .ret (some (.semantic .marshal 0 (some t)))         -- arshal_default.go:621-623

/-- `Marshal` (arshal.go:18-38) with room for `d` frames of the arshalers. -/
def MarshalS (env : Env) (fuel d : Nat) (x : AnyVal) : WProg :=
  match x with
  | .nil => .ret (some (badArgument .marshal none))
  | .val t v => match env.elem? t with
    | none => (lookupArshaler env fuel t).elim .panic .diverge fun a => marshalS env fuel d a v
    | some e => match v.pointee? with
      | none => .ret (some (badArgument .marshal (some e)))
      | some v => (lookupArshaler env fuel e).elim .panic .diverge fun a => marshalS env fuel d a v

end GoThrift
