import Verif.Model.Arshal
import Verif.Model.Stack

/-!
# Unmarshal on a stack of limited size

The arshalers call each other for what is inside a value, and `Skip` for unknown fields. Their frames count as those of `Skip` do (`Model/Stack.lean`). The frames of
`Unmarshal` itself, and those on which arshalers are looked up and fields are collected, do not count: how many there are is determined by the Go types.
-/

namespace GoThrift

mutual
/-- `fncs.unmarshal` as in `unmarshal` (`Model/Arshal.lean`), with room for `d` frames on the stack. -/
def unmarshalS (env : Env) (sk : Nat) : Nat → Nat → Arsh → GoVal → WType → UProg GoVal
  | 0, _, _, _, _ => .diverge
  | _ + 1, 0, _, _, _ => .panic
  | fuel + 1, d + 1, a, old, wt =>
    match a with
    | .leaf t l => unmarshalLeaf env t l old wt                         -- arshal_default.go:68-256
    | .struct t =>                                                      -- arshal_default.go:321-370
      (makeStructFields env fuel t).elim .panic .diverge fun r => match r with
        | .error e => .ret (old, some (withAction .unmarshal e))
        | .ok fs =>
          if wt ≠ Ty.struct then .ret (old, some (.semantic .unmarshal wt (some t)))
          else match old.fields? with
            | none => .panic
            | some vals => rcall "ReadStructBegin" Ty.struct t .structBegin old fun _ => unmarshalFieldsS env sk fuel d t fs vals
    | .map t ka ea =>                                                   -- arshal_default.go:438-476
      unmarshalMap env t ka.typ ea.typ (fun wt v => unmarshalS env sk fuel d ka v wt) (fun wt v => unmarshalS env sk fuel d ea v wt) old wt
    | .seq t isSet ea => unmarshalSeq env t isSet ea.typ (fun wt v => unmarshalS env sk fuel d ea v wt) old wt -- arshal_default.go:521-565
    | .ptr _ ea =>                                                      -- arshal_default.go:609-615
      match old.deref? (env.zero ea.typ) with
      | none => .panic
      | some v => (unmarshalS env sk fuel d ea v wt).andThen .ptr fun v => .ret (.ptr v, none)
    | .invalid t => .ret (old, some (.semantic .unmarshal wt (some t))) -- arshal_default.go:624-626
/-- The field loop (arshal_default.go:336-370), with room for `d` frames more. -/
def unmarshalFieldsS (env : Env) (sk : Nat) : Nat → Nat → TypeId → List SField → List GoVal → UProg GoVal
  | 0, _, _, _, _ => .diverge
  | fuel + 1, d, t, fs, vals =>
    rcall "ReadFieldBegin" Ty.struct t .fieldBegin (.struct vals) fun h =>
      if h.type = Ty.stop then rcall "ReadStructEnd" Ty.struct t .structEnd (.struct vals) fun _ => .ret (.struct vals, none)
      else
        let next (vals : List GoVal) : UProg GoVal :=
          rcall "ReadFieldEnd" Ty.struct t .fieldEnd (.struct vals) fun _ => unmarshalFieldsS env sk fuel d t fs vals
        match byID fs h.id with
        | none => (skipS sk d h.type).bind fun e => match e with
          | some e => .ret (.struct vals, some e)
          | none => next vals
        | some f => match vals[f.index]? with
          | none => .panic
          | some v => (unmarshalS env sk fuel d f.a v h.type).andThen (fun v' => .struct (vals.set f.index v')) fun v' => next (vals.set f.index v')
end

/-- `Unmarshal` (arshal.go:47-63) with room for `d` frames of the arshalers and of `Skip`. -/
def UnmarshalS (env : Env) (fuel d : Nat) (x : AnyVal) : UProg AnyVal :=
  match x with
  | .nil => .ret (.nil, some (badArgument .unmarshal none))
  | .val t v => match env.elem? t with
    | none => .ret (.val t v, some (badArgument .unmarshal (some t)))
    | some e => match v.pointee? with
      | none => .ret (.val t v, some (badArgument .unmarshal (some e)))
      | some v0 => (lookupArshaler env fuel e).elim .panic .diverge fun a =>
        (unmarshalS env fuel fuel d a v0 a.wireType).andThen (fun v => .val t (.ptr v)) fun v => .ret (.val t (.ptr v), none)

end GoThrift
