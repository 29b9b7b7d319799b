import Verif.Spec.Heap
import Verif.Spec.Example

/-!
# A small Go program with memory, for the examples beside the theorems
-/

namespace GoThrift.Ex

/-- `type Two struct { A []byte; B []byte }`, with field ids 1 and 2, is type 28; type 29 is `*Two`. -/
def hType : TypeId → GoType
  | 28 => { name := ascii "Two", kind := .struct [fld "A" "1" 15, fld "B" "2" 15] }
  | 29 => { name := [], kind := .ptr 28 }
  | t => type t

/-- Their zero values. -/
def hZero : TypeId → GoVal
  | 28 => .struct [.bytes none, .bytes none]
  | 29 => .ptrNil
  | t => zero t

theorem hZero_eq : ∀ t, hZero t = (hType t).kind.zero hZero (hType t).asBytes
  | 0 | 1 | 2 | 3 | 4 | 5 | 6 | 7 | 8 | 9 | 10 | 11 | 12 | 13 | 14 | 15 | 16 | 17 | 18 | 19 | 20 | 21 | 22 | 23 | 24 | 25 | 26 | 27 | 28 | 29 => rfl
  | _ + 30 => rfl

/-- The program. -/
def hEnv : Env := { env with type := hType, zero := hZero, zero_eq := hZero_eq }

/-- Memory with these objects. -/
def memory (os : List MObj) : Heap where
  mem l := os[l]?.getD (.cell (.lit (.other 0)))
  next := os.length
  oracle _ := 0

/-- The bytes `"xy"` at addresses 1 and 2, and `"ab"` at 3 and 4; at 0 a variable of type `Two` with the first and the second. -/
def apart : Heap := memory [.cell (.struct [.bytes (some ⟨1, 2, 2⟩), .bytes (some ⟨3, 2, 2⟩)]), .cell (.lit (.i8 120)), .cell (.lit (.i8 121)), .cell (.lit (.i8 97)), .cell (.lit (.i8 98))]

/-- As `apart`, but both fields have the first bytes. At 5 there is another variable of type `Two`, which is zero. -/
def shared : Heap := memory [.cell (.struct [.bytes (some ⟨1, 2, 2⟩), .bytes (some ⟨1, 2, 2⟩)]), .cell (.lit (.i8 120)), .cell (.lit (.i8 121)), .cell (.lit (.i8 97)), .cell (.lit (.i8 98)),
  .cell (.struct [.bytes none, .bytes none])]

/-- At 0 a variable of type `L` that points to itself; at 1 another, which is zero. -/
def loop : Heap := memory [.cell (.struct [.ptr (some 0), .lit (.f32 0)]), .cell (.struct [.ptr none, .lit (.f32 0)])]

end GoThrift.Ex
