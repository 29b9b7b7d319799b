import Verif.Model.Arshal

/-!
# A small Go program, for the examples beside the theorems
-/

namespace GoThrift

/-- Letters and digits of ASCII only, for the examples. -/
def asciiUnicode : Unicode where
  isLetter r := (0x41 ≤ r && r ≤ 0x5a) || (0x61 ≤ r && r ≤ 0x7a)
  isDigit r := 0x30 ≤ r && r ≤ 0x39
  isNumber r := 0x30 ≤ r && r ≤ 0x39
  toLower s := s.map fun b => if 0x41 ≤ b.toNat ∧ b.toNat ≤ 0x5a then b + 0x20 else b

namespace Ex

/-- Insertion into a sorted list. -/
def insertBy {α : Type} (key : α → Int) (a : α) : List α → List α
  | [] => [a]
  | b :: l => if key a ≤ key b then a :: b :: l else b :: insertBy key a l

/-- Insertion sort. -/
def sortBy {α : Type} (key : α → Int) (l : List α) : List α := l.foldr (insertBy key) []

theorem insertBy_perm {α : Type} (key : α → Int) (a : α) (l : List α) : (insertBy key a l).Perm (a :: l) := by
  induction l with
  | nil => exact .refl _
  | cons b l ih =>
    rw [insertBy]
    split
    · exact .refl _
    · exact (List.Perm.cons b ih).trans (.swap _ _ _)

theorem sortBy_perm {α : Type} (key : α → Int) (l : List α) : (sortBy key l).Perm l := by
  induction l with
  | nil => exact .refl _
  | cons a l ih => exact (insertBy_perm key a _).trans (.cons a ih)

theorem insertBy_sorted {α : Type} (key : α → Int) (a : α) (l : List α) (h : l.Pairwise fun a b => key a ≤ key b) :
    (insertBy key a l).Pairwise fun a b => key a ≤ key b := by
  induction l with
  | nil => exact List.pairwise_singleton _ _
  | cons b l ih =>
    rw [insertBy]
    have hb := List.pairwise_cons.1 h
    split
    · rename_i hab
      refine List.pairwise_cons.2 ⟨fun c hc => ?_, h⟩
      rcases List.mem_cons.1 hc with rfl | hc
      · exact hab
      · exact Int.le_trans hab (hb.1 c hc)
    · rename_i hab
      refine List.pairwise_cons.2 ⟨fun c hc => ?_, ih hb.2⟩
      rcases List.mem_cons.1 ((insertBy_perm key a l).mem_iff.1 hc) with rfl | hc
      · omega
      · exact hb.1 c hc

theorem sortBy_sorted {α : Type} (key : α → Int) (l : List α) : (sortBy key l).Pairwise fun a b => key a ≤ key b := by
  induction l with
  | nil => exact .nil
  | cons a l ih => exact insertBy_sorted key a _ ih

theorem insertBy_map {α β : Type} (key : β → Int) (f : α → β) (a : α) (l : List α) :
    insertBy key (f a) (l.map f) = (insertBy (fun a => key (f a)) a l).map f := by
  induction l with
  | nil => rfl
  | cons b l ih =>
    rw [List.map_cons, insertBy, insertBy]
    split
    · rfl
    · rw [ih]; rfl

theorem sortBy_map {α β : Type} (key : β → Int) (f : α → β) (l : List α) :
    sortBy key (l.map f) = (sortBy (fun a => key (f a)) l).map f := by
  induction l with
  | nil => rfl
  | cons a l ih =>
    show insertBy key (f a) (sortBy key (l.map f)) = _
    rw [ih]
    exact insertBy_map key f a _

/-- A tagged, exported field. -/
def fld (name tag : String) (t : TypeId) : FieldDecl := ⟨ascii name, true, some (ascii tag), t⟩

/-- The fields of type 0. -/
def fieldsP : List FieldDecl :=
  [fld "D" "4" 6, fld "A" "1" 1, fld "B" "2,required" 2, ⟨ascii "x", false, none, 9⟩, fld "C" "3" 5, fld "Ign" "-" 9, fld "E" "-2" 8]

/-- The types. -/
def type : TypeId → GoType
  | 0 => { name := ascii "P", kind := .struct fieldsP }
  | 1 => { name := ascii "int32", kind := .int32 }
  | 2 => { name := [], kind := .ptr 3 }
  | 3 => { name := ascii "string", kind := .string }
  | 4 => { name := [], kind := .ptr 0 }
  | 5 => { name := [], kind := .slice 3 }
  | 6 => { name := [], kind := .map 3 7 }
  | 7 => { name := ascii "int64", kind := .int64 }
  | 8 => { name := ascii "bool", kind := .bool }
  | 9 => { name := [], kind := .other }                                                        -- chan int
  | 10 => { name := ascii "T", kind := .slice 10 }                                             -- type T []T
  | 11 => { name := ascii "R", kind := .struct [fld "X" "1,required" 12] }                     -- type R struct { X *R `1,required` }
  | 12 => { name := [], kind := .ptr 11 }
  | 13 => { name := ascii "Bad", kind := .struct [fld "A" "1" 1, fld "C" "2" 9] }
  | 14 => { name := ascii "float32", kind := .float32 }
  | 15 => { name := [], kind := .slice 22, isBytes := true }
  | 16 => { name := ascii "Dup", kind := .struct [fld "A" "1" 1, fld "B" "1" 8] }
  | 17 => { name := ascii "NoTag", kind := .struct [⟨ascii "A", true, none, 1⟩] }
  | 18 => { name := [], kind := .slice 9 }
  | 19 => { name := ascii "UUID", kind := .uuid }
  | 20 => { name := ascii "Names", kind := .slice 3, isSet := true }
  | 21 => { name := ascii "L", kind := .struct [fld "Next" "1" 23, fld "V" "2" 14] }           -- type L struct { Next *L `1`; V float32 `2` }
  | 22 => { name := ascii "uint8", kind := .uint8 }
  | 23 => { name := [], kind := .ptr 21 }
  | 24 => { name := [], kind := .ptr 16 }
  | 25 => { name := [], kind := .ptr 5 }
  | 26 => { name := [], kind := .ptr 6 }
  | 27 => { name := ascii "Hid", kind := .struct [fld "F" "1" 18] }                            -- type Hid struct { F []chan int `1` }
  | _ => { name := [], kind := .other }

/-- Their zero values. -/
def zero : TypeId → GoVal
  | 0 => .struct [.mapNil, .i32 0, .ptrNil, .other 0, .sliceNil, .other 0, .bool false]
  | 1 => .i32 0
  | 2 => .ptrNil
  | 3 => .str []
  | 4 => .ptrNil
  | 5 => .sliceNil
  | 6 => .mapNil
  | 7 => .i64 0
  | 8 => .bool false
  | 9 => .other 0
  | 10 => .sliceNil
  | 11 => .struct [.ptrNil]
  | 12 => .ptrNil
  | 13 => .struct [.i32 0, .other 0]
  | 14 => .f32 0
  | 15 => .bytes none
  | 16 => .struct [.i32 0, .bool false]
  | 17 => .struct [.i32 0]
  | 18 => .sliceNil
  | 19 => .uuid (List.replicate 16 0)
  | 20 => .sliceNil
  | 21 => .struct [.ptrNil, .f32 0]
  | 22 => .i8 0
  | 23 => .ptrNil
  | 24 | 25 | 26 => .ptrNil
  | 27 => .struct [.sliceNil]
  | _ => .other 0

theorem zero_eq : ∀ t, zero t = (type t).kind.zero zero (type t).asBytes
  | 0 | 1 | 2 | 3 | 4 | 5 | 6 | 7 | 8 | 9 | 10 | 11 | 12 | 13 | 14 | 15 | 16 | 17 | 18 | 19 | 20 | 21 | 22 | 23 | 24 | 25 | 26 | 27 => rfl
  | _ + 28 => rfl

/-- The program. (Its conversions between float32 and float64 are not the IEEE ones, which no example uses.) -/
def env : Env where
  type := type
  zero := zero
  zero_eq := zero_eq
  isZero _ := none
  negZero _ := false
  widen x := x.zeroExtend 64
  narrow x := x.truncate 32
  grow _ n := 2 * n
  sort := sortBy
  sort_perm := sortBy_perm
  sort_sorted := sortBy_sorted
  sort_map := sortBy_map
  unicode := asciiUnicode

/-- The same types without `type T []T`, the lookup of which never ends. -/
def flatType : TypeId → GoType
  | 10 => { name := [], kind := .other }
  | t => type t

/-- Their zero values. -/
def flatZero : TypeId → GoVal
  | 10 => .other 0
  | t => zero t

theorem flat_zero_eq : ∀ t, flatZero t = (flatType t).kind.zero flatZero (flatType t).asBytes
  | 0 | 1 | 2 | 3 | 4 | 5 | 6 | 7 | 8 | 9 | 10 | 11 | 12 | 13 | 14 | 15 | 16 | 17 | 18 | 19 | 20 | 21 | 22 | 23 | 24 | 25 | 26 | 27 => rfl
  | _ + 28 => rfl

/-- A program in which every lookup ends. -/
def flat : Env := { env with type := flatType, zero := flatZero, zero_eq := flat_zero_eq }

/-- A value of type 0. -/
def valP : GoVal :=
  .struct [.map [(.str (ascii "k"), .i64 7)], .i32 5, .ptr (.str (ascii "hi")), .other 0, .slice [.str (ascii "x"), .str []] [], .other 3, .bool true]

end Ex

end GoThrift
