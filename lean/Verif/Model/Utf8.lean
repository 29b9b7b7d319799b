import Verif.Model.Basic

/-!
# Package unicode/utf8: DecodeRune

Used by thrift/fields.go and tools/thriftfile/scanner.go. Runes are natural numbers.
-/

namespace GoThrift.Utf8

/-- `utf8.RuneError` -/
def runeError : Nat := 0xfffd

/-- Is it a continuation byte between `lo` and `hi`? -/
def inRange (lo hi : Nat) (b : Byte) : Bool := lo ≤ b.toNat && b.toNat ≤ hi

/-- `utf8.DecodeRune` / `DecodeRuneInString`: the rune and its width; `(RuneError, 0)` for no bytes and `(RuneError, 1)` for a byte that does
not begin a valid encoding (overlong encodings, surrogates and runes above 10FFFF are not valid). -/
def decodeRune : Bytes → Nat × Nat
  | [] => (runeError, 0)
  | b0 :: p =>
    let x := b0.toNat
    if x < 0x80 then (x, 1)
    else if x < 0xc2 then (runeError, 1)
    else if x < 0xe0 then
      match p with
      | b1 :: _ => if inRange 0x80 0xbf b1 then ((x % 32) * 64 + b1.toNat % 64, 2) else (runeError, 1)
      | _ => (runeError, 1)
    else if x < 0xf0 then
      match p with
      | b1 :: b2 :: _ =>
        if inRange (if x = 0xe0 then 0xa0 else 0x80) (if x = 0xed then 0x9f else 0xbf) b1 && inRange 0x80 0xbf b2 then
          ((x % 16) * 4096 + (b1.toNat % 64) * 64 + b2.toNat % 64, 3)
        else (runeError, 1)
      | _ => (runeError, 1)
    else if x < 0xf5 then
      match p with
      | b1 :: b2 :: b3 :: _ =>
        if inRange (if x = 0xf0 then 0x90 else 0x80) (if x = 0xf4 then 0x8f else 0xbf) b1 && inRange 0x80 0xbf b2 && inRange 0x80 0xbf b3 then
          ((x % 8) * 262144 + (b1.toNat % 64) * 4096 + (b2.toNat % 64) * 64 + b3.toNat % 64, 4)
        else (runeError, 1)
      | _ => (runeError, 1)
    else (runeError, 1)

/-- Split off the longest prefix of runes satisfying `f`; `n` bounds the number of runes. -/
def span (f : Nat → Bool) : Nat → Bytes → Bytes × Bytes
  | 0, s => ([], s)
  | n + 1, s =>
    if s.isEmpty then ([], s)
    else
      let r := decodeRune s
      if f r.1 then
        let q := span f n (s.drop r.2)
        (s.take r.2 ++ q.1, q.2)
      else ([], s)

end GoThrift.Utf8
