import Verif.Proof.ParseSync
import Verif.Proof.ParseAll

/-!
# What `Parse` returns in terms of the tokens and of where they stand
-/

namespace GoThrift.Idl

open Spec

theorem getD_min (l : List Nat) (d k : Nat) : (l[min k l.length]?).getD d = (l[k]?).getD d := by
  by_cases h : k ≤ l.length
  · rw [Nat.min_eq_left h]
  · rw [Nat.min_eq_right (by omega), List.getElem?_eq_none (Nat.le_refl _), List.getElem?_eq_none (by omega)]

/-- The tokens numbered. -/
def numbered (lx : List (Token × Bytes)) (from_ : Nat) : List (Token × Bytes × Nat) :=
  match lx with
  | [] => []
  | t :: lx => (t.1, t.2, from_) :: numbered lx (from_ + 1)

theorem numbered_length (lx : List (Token × Bytes)) (k : Nat) : (numbered lx k).length = lx.length := by
  induction lx generalizing k with
  | nil => rfl
  | cons t lx ih => rw [numbered, List.length_cons, List.length_cons, ih]

theorem numbered_place {l : List TokenAt} {k : Nat} {pl : Nat → Nat} (h : ∀ i, i < l.length → pl (k + i) = ((l.map TokenAt.from_)[i]?).getD 0) :
    (numbered (l.map fun t => (t.tok, t.text)) k).map (fun x => (x.1, x.2.1, pl x.2.2)) = l.map fun t => (t.tok, t.text, t.from_) := by
  induction l generalizing k with
  | nil => rfl
  | cons t l ih =>
    rw [List.map_cons, numbered, List.map_cons, List.map_cons, ih (k := k + 1) fun i hi => by
      have := h (i + 1) (by rw [List.length_cons]; omega)
      rw [show k + 1 + i = k + (i + 1) by omega, this]
      rfl]
    have := h 0 (by rw [List.length_cons]; omega)
    rw [show pl k = t.from_ by simpa using this]

/-- There is one result for a sequence of tokens; `Parse` returns it with the places of the tokens in the source. -/
theorem Parse_places (lx : List (Token × Bytes)) :
    ∃ (g : File) (ks : List (Nat × Msg)), (∀ k ∈ ks, k.1 ≤ lx.length) ∧ ∀ env src toks s, scanAll env.u (src.length + 2) (Scanner.init src) = .done (toks, s) → lexemes toks = lx →
      ∃ errs, Parse env src = .done (g.place (placeOf src toks), errs) ∧ (errs.map PosErr.key).Perm (s.errs.map PosErr.key ++ ks.map fun k => (placeOf src toks k.1, k.2)) := by
  obtain ⟨_, g, t, hr, _⟩ := file_good (lx.length + 1) ⟨numbered lx 0, lx.length, []⟩ (by show (numbered lx 0).length < _; rw [numbered_length]; omega)
  refine ⟨g, t.errs.map fun k => (min k.1 lx.length, k.2), ?_, ?_⟩
  · intro k hk
    obtain ⟨e, _, rfl⟩ := List.mem_map.1 hk
    exact Nat.min_le_right _ _
  intro env src toks s hs hlx
  obtain ⟨toks', s', l, K, f, t', errs, s1, s2, s3, h1, h2, h3, h4, h5, h6, h7, h8, h9, h10⟩ := Parse_run env src
  rw [hs] at s1
  injection s1 with s1
  obtain ⟨rfl, rfl⟩ := Prod.mk.inj s1
  have hlen : lx.length = ((code toks).map TokenAt.from_).length := by rw [← hlx]; unfold lexemes code; rw [List.length_map, List.length_map]
  have hplace : TS.place (placeOf src toks) ⟨numbered lx 0, lx.length, []⟩ = ⟨l, src.length, []⟩ := by
    unfold TS.place
    rw [s2, ← hlx]
    congr 1
    · refine numbered_place (l := code toks) fun i hi => ?_
      rw [Nat.zero_add]
      unfold placeOf
      rw [List.getElem?_eq_getElem (by rw [List.length_map]; exact hi)]
      rfl
    · unfold placeOf
      rw [hlx, hlen, List.getElem?_eq_none (Nat.le_refl _)]
      rfl
  have hle : lx.length + 1 ≤ src.length + 1 := by
    have : l.length = lx.length := by rw [s2, hlen, List.length_map, List.length_map]
    omega
  obtain ⟨r', g1, g2⟩ := (file_sync (pl := placeOf src toks) hle).run hr
  rw [hplace, h5] at g1
  injection g1 with g1
  obtain ⟨rfl, rfl⟩ := Prod.mk.inj g1
  rcases g2 with ⟨g2, _⟩ | ⟨a, b, ha, hb, rfl⟩
  · cases g2
  injection ha with ha
  injection hb with hb
  subst ha
  subst hb
  refine ⟨_, h8, ((env.sort_perm (less env) errs).map _).trans (h9.trans (.of_eq ?_))⟩
  rw [s3, List.map_map]
  congr 1
  refine List.map_congr_left fun e _ => ?_
  show _ = (placeOf src toks (min e.1 lx.length), e.2)
  congr 1
  unfold placeOf
  rw [hlen, getD_min]

/-- The places of different tokens, and the end, are different and in their order. -/
theorem placeOf_lt {env : IdlEnv} {src : Bytes} {toks : List TokenAt} {s : Scanner} (hs : scanAll env.u (src.length + 2) (Scanner.init src) = .done (toks, s)) {i j : Nat} (h : i < j)
    (hj : j ≤ (lexemes toks).length) : placeOf src toks i < placeOf src toks j := by
  obtain ⟨toks', s', l, K, f, t', errs, s1, s2, s3, h1, h2, h3, _⟩ := Parse_run env src
  rw [hs] at s1
  injection s1 with s1
  obtain ⟨rfl, rfl⟩ := Prod.mk.inj s1
  have hl : (code toks).map TokenAt.from_ = l.map fun x => x.2.2 := by rw [s2, List.map_map]; rfl
  have hlen : (lexemes toks).length = l.length := by rw [s2, List.length_map]; unfold lexemes code; rw [List.length_map]
  unfold placeOf
  rw [hl]
  rw [hlen] at hj
  rw [List.getElem?_map, List.getElem?_map, List.getElem?_eq_getElem (by omega : i < l.length)]
  by_cases hj' : j < l.length
  · rw [List.getElem?_eq_getElem hj']
    exact List.pairwise_iff_getElem.1 h3 i j _ hj' h
  · rw [List.getElem?_eq_none (by omega)]
    exact (h2 _ (List.getElem_mem _)).2.2

/-- A permutation of mapped values is a map of permuted ones. -/
theorem perm_of_map {α β : Type} {f : α → β} {l' : List β} {l : List α} (h : l'.Perm (l.map f)) : ∃ m : List α, l' = m.map f ∧ m.Perm l := by
  generalize hb : l.map f = b at h
  replace h := h.symm
  induction h generalizing l with
  | nil =>
    have : l = [] := by simpa using hb
    exact ⟨[], rfl, this ▸ .nil⟩
  | cons x _ ih =>
    cases l with
    | nil => cases hb
    | cons a l =>
      rw [List.map_cons] at hb
      obtain ⟨h1, h2⟩ := List.cons.inj hb
      obtain ⟨m, e, p⟩ := ih h2
      exact ⟨a :: m, by rw [List.map_cons, h1, e], p.cons a⟩
  | swap x y r =>
    match l, hb with
    | a :: c :: l, hb =>
      simp only [List.map_cons, List.cons.injEq] at hb
      exact ⟨c :: a :: l, by simp only [List.map_cons, hb], .swap a c l⟩
  | trans _ _ ih1 ih2 =>
    obtain ⟨m, e, p⟩ := ih1 hb
    obtain ⟨m', e', p'⟩ := ih2 e.symm
    exact ⟨m', e', p'.trans p⟩

theorem textLE_antisymm {x y : Bytes} (h : TextLE x y) (h' : TextLE y x) : x = y := by
  rcases h with h | ⟨p, a, r, b, s, rfl, rfl, hab⟩
  · rcases h' with h' | ⟨p, a, r, b, s, rfl, rfl, hab⟩
    · exact h.eq_of_length (Nat.le_antisymm h.length_le h'.length_le)
    · have := List.prefix_append_right_inj p |>.1 h
      rw [List.cons_prefix_cons] at this
      rw [this.1] at hab
      omega
  · exfalso
    rcases h' with h' | ⟨p', a', r', b', s', h1, h2, hab'⟩
    · have := List.prefix_append_right_inj p |>.1 h'
      rw [List.cons_prefix_cons] at this
      rw [this.1] at hab
      omega
    · induction p generalizing p' with
      | nil =>
        cases p' with
        | nil =>
          obtain ⟨rfl, _⟩ := List.cons.inj h1
          obtain ⟨rfl, _⟩ := List.cons.inj h2
          omega
        | cons c p' =>
          have e1 := (List.cons.inj h1).1
          have e2 := (List.cons.inj h2).1
          rw [e1, e2] at hab
          omega
      | cons c p ih =>
        cases p' with
        | nil =>
          have e1 := (List.cons.inj h1).1
          have e2 := (List.cons.inj h2).1
          rw [← e1, ← e2] at hab'
          omega
        | cons c' p' => exact ih p' (List.cons.inj h1).2 (List.cons.inj h2).2

end GoThrift.Idl
