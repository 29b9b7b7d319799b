import Verif.Model.Wire

/-! # Counting Reader and Writer calls -/

namespace GoThrift.Spec

/-- The reader `r`, counting the calls made on it. -/
def counted {S : Type} (r : Rdr S) : Rdr (S × Nat) where
  step o s := (r.step o s.1).bind fun x => .done (x.1, (x.2, s.2 + 1))

/-- The writer `w`, counting the calls made on it. -/
def countedW {S : Type} (w : Wtr S) : Wtr (S × Nat) where
  step o s := (w.step o s.1).bind fun x => .done (x.1, (x.2, s.2 + 1))

end GoThrift.Spec
