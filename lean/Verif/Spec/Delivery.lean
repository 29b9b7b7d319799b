import Verif.Model.BufWriter

/-!
# What a writer is expected to deliver
-/

namespace GoThrift.Spec

/-- The answers an ideal writer (one whose transport accepts everything and whose Flush never fails) gives to the calls, and its state afterwards. -/
def ideal {S : Type} (w : Wtr S) : List WCall → S → Out (List (Option Err) × S)
  | [], s => .done ([], s)
  | .op o :: cs, s => (w.step o s).bind fun r => (ideal w cs r.2).bind fun q => .done (r.1 :: q.1, q.2)
  | .flush :: cs, s => (ideal w cs s).bind fun q => .done (none :: q.1, q.2)

/-- The answers to the calls other than Flush. -/
def opAnswers : List WCall → List (Option Err) → List (Option Err)
  | .op _ :: cs, a :: as => a :: opAnswers cs as
  | .flush :: cs, _ :: as => opAnswers cs as
  | _, _ => []

/-- A history: calls and resets to other transports. -/
inductive Event (σ : Type) where
  | call (c : WCall)
  | reset (w : σ)

/-- Run a history, ignoring the answers. -/
def runEvents {C σ : Type} (T : Transport σ) (impl : WOp → WM C Unit) (reset : PW C σ → σ → PW C σ) :
    List (Event σ) → PW C σ → Out (PW C σ)
  | [], x => .done x
  | .call c :: es, x => (x.step T impl c).bind fun r => runEvents T impl reset es r.2
  | .reset w :: es, x => runEvents T impl reset es (reset x w)

/-- The calls after the last reset. -/
def sinceReset {σ : Type} : List (Event σ) → List WCall → List WCall
  | [], cs => cs
  | .call c :: es, cs => sinceReset es (cs ++ [c])
  | .reset _ :: es, _ => sinceReset es []

end GoThrift.Spec
