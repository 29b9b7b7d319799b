import Verif.Model.Wire

/-! # Writing and reading back one value -/

namespace GoThrift.Spec

/-- Whatever was written before, the Writer call `ow` succeeds, leaves the writer's fields `cw` alone, and appends bytes from which,
whatever follows them, the Reader call `o` returns `v`, leaving the reader's fields `cr` alone and stopping exactly after those
bytes. -/
def WritesThenReads {CW CR : Type} (w : Wtr (CW × Bytes)) (r : Rdr (CR × Flat)) (cw : CW) (cr : CR) (ow : WOp) (o : ROp) (v : o.Ans) :
    Prop :=
  ∃ out, (∀ b, w.step ow (cw, b) = .done (none, (cw, b ++ out))) ∧
    ∀ (size : Nat) (rest : Bytes) (e : Err), 16 ≤ size →
      r.step o (cr, ⟨size, out ++ rest, .err e⟩) = .done (.ok v, (cr, ⟨size, rest, .err e⟩))

end GoThrift.Spec
