import Verif.Model.Wire

/-!
# Skip on a stack of limited size

`Skip` calls itself for what is inside a value. The stack of a goroutine is limited (`runtime/debug.SetMaxStack`); a program that needs more is ended with a fatal error,
which cannot be recovered from and counts as a panic here. All frames count the same.
-/

namespace GoThrift

open RProg in
mutual
/-- `thriftwire.Skip` (encoding/thriftwire/skip.go:4-82) with room for `d` frames of it on the stack. The fuel bounds loops, as in `skip`. -/
def skipS : Nat → Nat → WType → RProg (Option Err)
  | 0, _, _ => .diverge
  | _ + 1, 0, _ => .panic
  | fuel + 1, d + 1, t =>
    if t = Ty.bool then last .bool                                      -- skip.go:8-9
    else if t = Ty.byte then last .byte                                 -- skip.go:10-11
    else if t = Ty.double then last .double                             -- skip.go:12-13
    else if t = Ty.i16 then last .i16                                   -- skip.go:14-15
    else if t = Ty.i32 then last .i32                                   -- skip.go:16-17
    else if t = Ty.i64 then last .i64                                   -- skip.go:18-19
    else if t = Ty.string then last .skipString                         -- skip.go:20-21
    else if t = Ty.struct then                                          -- skip.go:22-41
      try' .structBegin fun _ => skipFieldsS fuel d
    else if t = Ty.map then                                             -- skip.go:42-55
      try' .mapBegin fun h =>
        loop (loopCount h.size) ((skipS fuel d h.key).andThen (skipS fuel d h.value)) (last .mapEnd)
    else if t = Ty.set then                                             -- skip.go:56-66
      try' .setBegin fun h => loop (loopCount h.size) (skipS fuel d h.element) (last .setEnd)
    else if t = Ty.list then                                            -- skip.go:67-77
      try' .listBegin fun h => loop (loopCount h.size) (skipS fuel d h.element) (last .listEnd)
    else if t = Ty.uuid then last .skipUUID                             -- skip.go:78-79
    else .ret (some (.invalidType t))                                   -- skip.go:6-7
/-- The field loop of `Skip` (encoding/thriftwire/skip.go:26-41), with room for `d` frames more. -/
def skipFieldsS : Nat → Nat → RProg (Option Err)
  | 0, _ => .diverge
  | fuel + 1, d =>
    try' .fieldBegin fun h =>
      if h.type = Ty.stop then last .structEnd
      else (skipS fuel d h.type).andThen (try' .fieldEnd fun _ => skipFieldsS fuel d)
end

end GoThrift
