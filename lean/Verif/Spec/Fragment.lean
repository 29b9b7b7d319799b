import Verif.Model.Bufio

/-!
# Transports that fragment the data
-/

namespace GoThrift

/-- The transport delivers something at least once in any 100 consecutive calls of Read. -/
def Source.Fair (s : Source) : Prop := ∀ i, ∃ j, j < 100 ∧ (s.sched (i + j)).1 ≠ 0

/-- Equal outcomes: both return (with related results), both wait for the transport, both run forever or both panic. -/
def OutRel {α β : Type} (R : α → β → Prop) : Out α → Out β → Prop
  | .done a, .done b => R a b
  | .blocked, .blocked | .diverged, .diverged | .panicked, .panicked => True
  | _, _ => False

/-- The bytes of the stream that have not been consumed yet: those in the buffer and those not yet delivered. -/
def BufReader.left (b : BufReader) : Bytes := b.unread ++ b.src.data

end GoThrift
