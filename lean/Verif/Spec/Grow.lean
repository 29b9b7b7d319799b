import Verif.Spec.Fragment

/-!
# Readers of a source that grows
-/

namespace GoThrift

/-- The source reports errors by calls that deliver no bytes, like `bytes.Buffer` and `net.Conn`. -/
def Source.Quiet (s : Source) : Prop := ∀ i, (s.sched i).2 = false

/-- The states of a reader in a program that reads from a source, perhaps up to its end and beyond, and in between appends to the source or changes
how it delivers its bytes and how it ends. `r` gives the code of the methods, `fresh s` is a new reader of `s`, and `reset x s` is what `Reset(s)` makes of
`x`. -/
inductive Growing {C : Type} (r : Rdr (C × BufReader)) (fresh : Source → C × BufReader) (reset : C × BufReader → Source → C × BufReader) : C × BufReader → Prop
  /-- a new reader -/
  | new (s : Source) (quiet : s.Quiet) (fair : s.Fair) : Growing r fresh reset (fresh s)
  /-- some calls, each of which may depend on the answers before, and which may fail -/
  | calls {α : Type} (p : RProg α) {x x' : C × BufReader} {a : α} (before : Growing r fresh reset x) (returned : p.run r x = .done (a, x')) : Growing r fresh reset x'
  /-- more data -/
  | grow {x : C × BufReader} (before : Growing r fresh reset x) (s : Source) (more : Bytes) (data : s.data = x.2.src.data ++ more) (quiet : s.Quiet) (fair : s.Fair) :
      Growing r fresh reset (x.1, { x.2 with src := s })
  /-- a new start -/
  | reset {x : C × BufReader} (before : Growing r fresh reset x) (s : Source) (quiet : s.Quiet) (fair : s.Fair) : Growing r fresh reset (reset x s)

end GoThrift
