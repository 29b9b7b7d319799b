import Verif.Model.GoType
import Verif.Model.Utf8

/-!
# thrift/fields.go: struct tags
-/

namespace GoThrift

/-- The bytes of an ASCII string literal. -/
def ascii (s : String) : Bytes := s.toList.map fun c => BitVec.ofNat 8 c.toNat

/-- `firstError` (thrift/errors.go:124-131) with two arguments. -/
def firstError (a b : Option Err) : Option Err := match a with
  | some e => some e
  | none => b

/-- `fieldOptions` (fields.go:102-106) -/
structure FieldOptions where
  id : BitVec 16
  name : Bytes
  required : Bool
  deriving DecidableEq, Repr

/-- The loop of `strconv.ParseUint(s, 10, 16)`: the value, `none` for any error. (The test `n >= cutoff` for a product overflowing 64 bits is never true,
as `n` stays below 65536.) -/
def parseUintLoop : Bytes → Nat → Option Nat
  | [], n => some n
  | c :: cs, n =>
    if 0x30 ≤ c.toNat ∧ c.toNat ≤ 0x39 then
      let n1 := n * 10 + (c.toNat - 0x30)
      if n1 > 65535 then none else parseUintLoop cs n1
    else none

/-- `strconv.ParseInt(s, 10, 16)`: the value, `none` for a syntax or range error. -/
def parseInt (s : Bytes) : Option (BitVec 16) :=
  match s with
  | [] => none
  | c :: cs =>
    let neg := c == 0x2d
    let digits := if c == 0x2b || c == 0x2d then cs else c :: cs
    if digits.isEmpty then none
    else match parseUintLoop digits 0 with
      | none => none
      | some un =>
        if !neg && un ≥ 32768 then none
        else if neg && un > 32768 then none
        else some (if neg then -(BitVec.ofNat 16 un) else BitVec.ofNat 16 un)

/-- `s` up to (not including) the first comma, and the rest. -/
def cutComma : Bytes → Bytes × Bytes
  | [] => ([], [])
  | c :: cs => if c = 0x2c then ([], c :: cs) else (c :: (cutComma cs).1, (cutComma cs).2)

/-- `isLetterOrDigit` (fields.go:206-208) -/
def isLetterOrDigit (u : Unicode) (r : Nat) : Bool := r == 0x5f || u.isLetter r || u.isNumber r

/-- `consumeTagOption` (fields.go:188-204): the option, the input after it, the error. -/
def consumeTagOption (u : Unicode) (s : Bytes) : Bytes × Bytes × Option Err :=
  let r := (Utf8.decodeRune s).1
  if r = 0x5f ∨ u.isLetter r = true then
    let p := Utf8.span (isLetterOrDigit u) s.length s
    (p.1, p.2, none)
  else if s.length = 0 then (s, [], some .unexpectedEOF)
  else
    let p := cutComma s
    (p.1, p.2, some (.text "invalid character at start of option"))

/-- Bytes that are not `_`. -/
def dropUnderscores (s : Bytes) : Bytes := s.filter (· != 0x5f)

/-- The option loop of `parseFieldOptions` (fields.go:142-184): state `(required, err, seenOpts)`; the result is the first two. -/
def optionLoop (u : Unicode) : Nat → Bytes → Bool → Option Err → List Bytes → Out (Bool × Option Err)
  | 0, tag, req, err, _ => if tag.isEmpty then .done (req, err) else .diverged
  | fuel + 1, tag, req, err, seen =>
    match tag with
    | [] => .done (req, err)
    | c :: cs =>
      let err1 := if c ≠ 0x2c then firstError err (some (.text "invalid character before next option")) else err
      let tag1 := if c ≠ 0x2c then c :: cs else cs
      if c = 0x2c ∧ tag1.isEmpty then .done (req, firstError err1 (some (.text "invalid trailing ',' character")))
      else
        let (opt, rest, err2) := consumeTagOption u tag1
        let err2 := match err2 with
          | some _ => firstError err1 (some (.text "malformed tag"))
          | none => err1
        let req' := if opt = ascii "required" then true else req
        let err3 := if opt ≠ ascii "required" ∧ dropUnderscores (u.toLower opt) = ascii "required" then
            firstError err2 (some (.text "invalid appearance of tag option"))
          else err2
        let err4 := if opt ∈ seen then firstError err3 (some (.text "duplicate appearance of tag option")) else err3
        optionLoop u fuel rest req' err4 (opt :: seen)

/-- `parseFieldOptions` (fields.go:108-186): options, ignored, error. -/
def parseFieldOptions (u : Unicode) (sf : FieldDecl) : Out (FieldOptions × Bool × Option Err) :=
  let none' : FieldOptions := ⟨0, [], false⟩
  let tag := sf.tag.getD []
  if tag = ascii "-" then .done (none', true, none)
  else if sf.exported = false then
    .done (none', true, if sf.tag.isSome then some (.text "unexported Go struct field cannot have non-ignored tag") else none)
  else
    let p := cutComma tag
    match parseInt p.1 with
    | none => .done (none', true, some (.text "malformed tag: invalid field ID"))
    | some id =>
      (optionLoop u p.2.length p.2 false none []).bind fun r => .done (⟨id, sf.name, r.1⟩, false, r.2)

end GoThrift
