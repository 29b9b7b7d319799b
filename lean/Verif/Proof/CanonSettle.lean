import Verif.Proof.CanonRep
import Verif.Props.Marshal

/-!
# What a value that has been through Marshal and Unmarshal once does: lemmas
-/

namespace GoThrift

open Spec Spec.TVal

/-- Unmarshal is a function of its argument and the reader. -/
theorem UnmarshalReturns.unique {S : Type} {env : Env} {r : Rdr S} {x x1 x2 : AnyVal} {s s1 s2 : S} {e1 e2 : Option Err} (h1 : UnmarshalReturns env r x s e1 x1 s1) (h2 : UnmarshalReturns env r x s e2 x2 s2) :
    e1 = e2 ∧ x1 = x2 ∧ s1 = s2 := by
  obtain ⟨n, h1⟩ := h1
  obtain ⟨m, h2⟩ := h2
  have := (h1 (max n m) (Nat.le_max_left _ _)).symm.trans (h2 (max n m) (Nat.le_max_right _ _))
  cases this
  exact ⟨rfl, rfl, rfl⟩

/-- What a value does that comes back as itself: `u` is the same as `v` but for spare capacity and the order of map entries. -/
theorem settled_settles {env : Env} {t : TypeId} {v u : GoVal} {tv : TVal} (hz : ZeroSame env t) (lim : Nat) (ht : HasType env t v) (hs : SizesAtMost env lim t v) (hk : KeysSurvive env t v)
    (hd : ∀ t', Within env t' t → DistinctIds env t') (hr : Rep env t v tv) (hst : RoundTrip env t v v) (hu : SameValue false v u) {n : Nat} {a : Arsh} (hl : lookupArshaler env n t = .done a)
    (hty : a.wireType = tv.ty) :
    ∃ tv2, Rep env t u tv2 ∧ HasType env t u ∧ SizesAtMost env lim t u ∧ (∃ v2, SameValue true u v2 ∧ (∀ {S : Type} (r : Rdr S) p s s', (env.type p).kind = .ptr t → Holds r tv2 s s' →
      UnmarshalReturns env r (.val p (.ptr (env.zero t))) s none (.val p (.ptr v2)) s') ∧
      ∀ u3 x3, (u3 = u ∨ SameValue true v2 u3) → Passes env x3 t u3 → ∀ {S : Type} (w : Wtr S) (s s' : S), Writes w (calls tv2) s s' → MarshalReturns env w x3 s none s') := by
  have htu := hu.hasType ht
  have hstu := hu.settled ht hz hst
  obtain ⟨tv2, hr2⟩ := hu.rep ht hz hr
  have hacc := (lookup_iff_acc env t).1 ⟨n, a, hl⟩
  have hku := hu.keys ht hz hst hk
  have hty2 : a.wireType = tv2.ty := hty.trans (wireTypeOf_unique (rep_wireType hr) (rep_wireType hr2))
  obtain ⟨v2, h2, m, hdec⟩ := rep_restores hr2 hku hd n a hl
  have hsame := RoundTrip.sameValue hstu h2 htu
  refine ⟨tv2, hr2, htu, hu.sizes hs, v2, hsame, fun r p s s' hp hh => UnmarshalReturns_of_dec hp hl hty2 hh hdec, fun u3 x3 hu3 hx3 S w s s' hw => ?_⟩
  have hr3 : Rep env t u3 tv2 ∧ HasType env t u3 := by
    rcases hu3 with rfl | hu3
    · exact ⟨hr2, htu⟩
    · exact ⟨hu3.rep_eq rfl (hsame.hasType htu) hz (hsame.rep_eq rfl htu hz hr2), hu3.hasType (hsame.hasType htu)⟩
  obtain ⟨tv3, h3, h4⟩ := C54_any_writer env x3 t u3 hx3 hr3.2 hacc tv2 hr3.1
  rw [hr3.1.unique h3 hd] at hw
  exact h4 w s s' hw

/-- What the two theorems have in common: `v1` is what `v` comes back as, `u` the same as `v1` but for spare capacity and the order of map entries. -/
theorem settles {env : Env} {t : TypeId} {v v1 u : GoVal} {tv : TVal} (hfl : FloatLaw env) (hz : ZeroLaw env t) (lim : Nat) (ht : HasType env t v) (hs : SizesAtMost env lim t v) (hk : KeysSurvive env t v)
    (hd : ∀ t', Within env t' t → DistinctIds env t') (hr : Rep env t v tv) (h1 : RoundTrip env t v v1) (hu : SameValue false v1 u) {n : Nat} {a : Arsh} (hl : lookupArshaler env n t = .done a)
    (hty : a.wireType = tv.ty) :
    ∃ tv2, Rep env t u tv2 ∧ HasType env t u ∧ SizesAtMost env lim t u ∧ (∃ v2, SameValue true u v2 ∧ (∀ {S : Type} (r : Rdr S) p s s', (env.type p).kind = .ptr t → Holds r tv2 s s' →
      UnmarshalReturns env r (.val p (.ptr (env.zero t))) s none (.val p (.ptr v2)) s') ∧
      ∀ u3 x3, (u3 = u ∨ SameValue true v2 u3) → Passes env x3 t u3 → ∀ {S : Type} (w : Wtr S) (s s' : S), Writes w (calls tv2) s s' → MarshalReturns env w x3 s none s') := by
  obtain ⟨tv1, hr1⟩ := RoundTrip.repAgain h1 ht hz hr
  exact settled_settles hz.zeroSame lim (RoundTrip.hasType h1 ht) (RoundTrip.sizes h1 hs) (RoundTrip.keys hfl h1 ht hz hk) hd hr1 (RoundTrip.again hfl h1 ht hz) hu hl
    (hty.trans (wireTypeOf_unique (rep_wireType hr) (rep_wireType hr1)))

end GoThrift
