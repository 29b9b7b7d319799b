import Verif.Proof.ParsePlaces
import Verif.Props.Layout

/-!
# C87: the tokens determine what `Parse` returns and at which token each error is
-/

namespace GoThrift

open Spec Idl

/-- **C87** (places): for a sequence of tokens there are one file, in which what was given up is from one token to another, and one list of errors, each at a token or behind the last; whatever source has these tokens,
`Parse` returns this file and these errors at the places where the tokens stand in the source, and beside them the errors of the scanner. -/
theorem C87_places (lx : List (Token × Bytes)) :
    ∃ (g : File) (ks : List (Nat × Msg)), (∀ k ∈ ks, k.1 ≤ lx.length) ∧ ∀ env src toks s, scanAll env.u (src.length + 2) (Scanner.init src) = .done (toks, s) → lexemes toks = lx →
      ∃ errs, Parse env src = .done (g.place (placeOf src toks), errs) ∧ (errs.map fun e => (e.offset, e.msg)).Perm (s.errs.map (fun e => (e.offset, e.msg)) ++ ks.map fun k => (placeOf src toks k.1, k.2)) :=
  Parse_places lx

/-- **C87** (order): two sources with the same tokens and without errors of the scanner: the errors of `Parse` are in the same order, the n-th of the one and the n-th of the other have the same text and are at the same
token. -/
theorem C87_order (env : IdlEnv) {src src' : Bytes} {toks toks' : List TokenAt} {s s' : Scanner} {f f' : File} {errs errs' : List PosErr}
    (h : scanAll env.u (src.length + 2) (Scanner.init src) = .done (toks, s)) (h' : scanAll env.u (src'.length + 2) (Scanner.init src') = .done (toks', s')) (hs : s.errs = []) (hs' : s'.errs = [])
    (hlx : lexemes toks' = lexemes toks) (hP : Parse env src = .done (f, errs)) (hP' : Parse env src' = .done (f', errs')) :
    ∃ is : List (Nat × Bytes), (∀ i ∈ is, i.1 ≤ (lexemes toks).length) ∧
      (errs.map fun e => (e.offset, e.msg.text env)) = is.map (fun i => (placeOf src toks i.1, i.2)) ∧
      (errs'.map fun e => (e.offset, e.msg.text env)) = is.map (fun i => (placeOf src' toks' i.1, i.2)) := by
  obtain ⟨g, ks, hk, hall⟩ := Parse_places (lexemes toks)
  obtain ⟨e1, p1, q1⟩ := hall env src toks s h rfl
  obtain ⟨e2, p2, q2⟩ := hall env src' toks' s' h' hlx
  rw [hP] at p1
  rw [hP'] at p2
  injection p1 with p1
  injection p2 with p2
  obtain ⟨rfl, rfl⟩ := Prod.mk.inj p1
  obtain ⟨rfl, rfl⟩ := Prod.mk.inj p2
  rw [hs, List.map_nil, List.nil_append] at q1
  rw [hs', List.map_nil, List.nil_append] at q2
  have sorted : ∀ {src f errs}, Parse env src = .done (f, errs) →
      (errs.map fun e => (e.offset, e.msg.text env)).Pairwise (fun a b => a.1 < b.1 ∨ (a.1 = b.1 ∧ TextLE a.2 b.2)) := fun {src f errs} hP => by
    obtain ⟨_, _, errs1, _, hp', _, _, hs⟩ := C42_errors env src
    rw [hP] at hp'
    injection hp' with hp'
    rw [List.pairwise_map, (Prod.mk.inj hp').2]
    exact hs
  have key : ∀ {errs : List PosErr} {pl : Nat → Nat}, (errs.map PosErr.key).Perm (ks.map fun k => (pl k.1, k.2)) →
      (errs.map fun e => (e.offset, e.msg.text env)).Perm ((ks.map fun k => (k.1, k.2.text env)).map fun i => (pl i.1, i.2)) := fun {errs pl} q => by
    have q := q.map fun k => (k.1, k.2.text env)
    rw [List.map_map, List.map_map] at q
    rw [List.map_map]
    exact q
  obtain ⟨is, m1, m2⟩ := perm_of_map (key q1)
  have hle : ∀ i ∈ is, i.1 ≤ (lexemes toks).length := fun i hi => by
    obtain ⟨k, hk', rfl⟩ := List.mem_map.1 (m2.mem_iff.1 hi)
    exact hk k hk'
  refine ⟨is, hle, m1, ?_⟩
  have hs1 := sorted hP
  rw [m1, List.pairwise_map] at hs1
  refine List.Perm.eq_of_pairwise (le := fun a b : Nat × Bytes => a.1 < b.1 ∨ (a.1 = b.1 ∧ TextLE a.2 b.2)) ?_ (sorted hP') ?_ ((key q2).trans (m2.symm.map _))
  · rintro ⟨a, x⟩ ⟨b, y⟩ _ _ hab hba
    rcases hab with hab | ⟨rfl, hab⟩
    · rcases hba with hba | ⟨hba, _⟩ <;> dsimp only at * <;> omega
    · rcases hba with hba | ⟨_, hba⟩
      · dsimp only at *; omega
      · exact congrArg (Prod.mk a) (textLE_antisymm hab hba)
  · rw [List.pairwise_map]
    refine hs1.imp_of_mem ?_
    intro a b ha hb hab
    rcases Nat.lt_trichotomy a.1 b.1 with hlt | heq | hgt
    · exact .inl (placeOf_lt h' hlt (by rw [hlx]; exact hle b hb))
    · rcases hab with hab | hab
      · rw [heq] at hab; exact absurd hab (Nat.lt_irrefl _)
      · exact .inr ⟨by rw [heq], hab.2⟩
    · have := placeOf_lt h hgt (hle a ha)
      rcases hab with hab | hab <;> omega

/-- `enum A{} }` with comments behind `enum`. -/
def exSpaced : Bytes := exWord ++ exGap.flatMap Prod.snd ++ exRest

/-- The hypotheses hold for `enum A{} }` and the same with comments: the tokens are the same, the error is at the fifth one, in one source at the offset 9, in the other at 19. -/
example : ∃ toks toks' s s', scanAll exIdlEnv.u ((exWord ++ exRest).length + 2) (Scanner.init (exWord ++ exRest)) = .done (toks, s) ∧
    scanAll exIdlEnv.u (exSpaced.length + 2) (Scanner.init exSpaced) = .done (toks', s') ∧ s.errs = [] ∧ s'.errs = [] ∧ lexemes toks' = lexemes toks ∧
    placeOf (exWord ++ exRest) toks 4 = 9 ∧ placeOf exSpaced toks' 4 = 19 ∧ placeOf (exWord ++ exRest) toks 5 = 10 ∧ placeOf exSpaced toks' 5 = 20 ∧
    (∃ f, Parse exIdlEnv (exWord ++ exRest) = .done (f, [⟨9, 1, 10, .expected .definition (some (.tok Tk.rbrace))⟩])) ∧
    (∃ f, Parse exIdlEnv exSpaced = .done (f, [⟨19, 2, 6, .expected .definition (some (.tok Tk.rbrace))⟩])) := by
  refine ⟨_, _, _, _, rfl, rfl, ?_, ?_, ?_, ?_, ?_, ?_, ?_, ⟨_, rfl⟩, ⟨_, rfl⟩⟩ <;> decide +kernel

end GoThrift
