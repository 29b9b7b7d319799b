import Verif.Model.Parser
import Verif.Spec.Lex
import Verif.Spec.Example

/-!
# Tables, a sort and a source, for the examples beside the theorems about .thrift files
-/

namespace GoThrift

open Idl Spec

namespace Ex

/-- Insertion into a sorted list. -/
def insertErr (less : PosErr → PosErr → Bool) (a : PosErr) : List PosErr → List PosErr
  | [] => [a]
  | b :: l => if less b a then b :: insertErr less a l else a :: b :: l

/-- Insertion sort. -/
def sortErrs (less : PosErr → PosErr → Bool) : List PosErr → List PosErr
  | [] => []
  | a :: l => insertErr less a (sortErrs less l)

theorem insertErr_perm (less : PosErr → PosErr → Bool) (a : PosErr) (l : List PosErr) : (insertErr less a l).Perm (a :: l) := by
  induction l with
  | nil => exact .refl _
  | cons b l ih =>
    rw [insertErr]
    split
    · exact (List.Perm.cons b ih).trans (.swap _ _ _)
    · exact .refl _

theorem sortErrs_perm (less : PosErr → PosErr → Bool) (l : List PosErr) : (sortErrs less l).Perm l := by
  induction l with
  | nil => exact .refl _
  | cons a l ih => exact (insertErr_perm less a _).trans (.cons a ih)

theorem insertErr_sorted {less : PosErr → PosErr → Bool} (h1 : ∀ a b, less a b → ¬ less b a) (h2 : ∀ a b c, ¬ less a b → ¬ less b c → ¬ less a c) (a : PosErr) {l : List PosErr}
    (h : l.Pairwise fun a b => ¬ less b a) : (insertErr less a l).Pairwise fun a b => ¬ less b a := by
  induction l with
  | nil => exact List.pairwise_singleton _ _
  | cons b l ih =>
    rw [insertErr]
    have hb := List.pairwise_cons.1 h
    split
    · rename_i hab
      refine List.pairwise_cons.2 ⟨fun c hc => ?_, ih hb.2⟩
      rcases List.mem_cons.1 ((insertErr_perm less a l).mem_iff.1 hc) with rfl | hc
      · exact h1 _ _ hab
      · exact hb.1 c hc
    · rename_i hab
      refine List.pairwise_cons.2 ⟨fun c hc => ?_, h⟩
      rcases List.mem_cons.1 hc with rfl | hc
      · exact hab
      · exact h2 c b a (hb.1 c hc) hab

theorem sortErrs_sorted (less : PosErr → PosErr → Bool) (l : List PosErr) (h1 : ∀ a b, less a b → ¬ less b a) (h2 : ∀ a b c, ¬ less a b → ¬ less b c → ¬ less a c) :
    (sortErrs less l).Pairwise fun a b => ¬ less b a := by
  induction l with
  | nil => exact .nil
  | cons a l ih => exact insertErr_sorted h1 h2 a ih

end Ex

/-- Tables of ASCII, and insertion sort. -/
def exIdlEnv : IdlEnv where
  u := asciiUnicode
  fmtU _ := []
  sort := Ex.sortErrs
  sort_perm := Ex.sortErrs_perm
  sort_sorted := Ex.sortErrs_sorted

end GoThrift
