import Verif.Proof.MarshalWork
import Verif.Props.Size

/-!
# C90: how many calls Marshal makes
-/

namespace GoThrift

open Spec Spec.TVal

/-- **C90** (counting): a Writer whose calls are counted behaves like one whose calls are not. -/
theorem C90_counting {S : Type} (env : Env) (w : Wtr S) (x : AnyVal) (s : S) (e : Option Err) (s' : S) : MarshalReturns env w x s e s' → ∃ k, MarshalReturns env (countedW w) x (s, 0) e (s', k) := by
  rintro ⟨n, h⟩
  obtain ⟨k, hk⟩ := run_countedW _ s 0 e s' (h n (Nat.le_refl _))
  exact ⟨k, n, fun fuel hf => ((Marshal_le env n fuel hf x).run (countedW w) (s, 0)).done hk⟩

/-- **C90** (binary): Marshal makes at most two calls for each byte it writes. -/
theorem C90_binary (env : Env) (strict : Bool) (x : AnyVal) (t : TypeId) (v : GoVal) (hx : Passes env x t v) (ht : HasType env t v) (hs : SizesAtMost env (2 ^ 63 - 1) t v) (b : Bytes)
    (s' : (Unit × Bytes) × Nat) (h : MarshalReturns env (countedW (Binary.writer strict)) x (((), b), 0) none s') :
    ∃ out, s'.1 = ((), b ++ out) ∧ 0 < s'.2 ∧ s'.2 ≤ 2 * out.length := by
  obtain ⟨tv, hr, hw, _⟩ := h.rep hx ht
  obtain ⟨h1, h2⟩ := writes_countedW _ _ _ _ hw
  refine ⟨encBin tv, h1.unique (Binary.writes strict tv b), ?_, ?_⟩
  · rw [h2]; cases tv <;> simp [calls]
  · have := calls_bin tv (rep_wf hr _ ht hs).1
    omega

/-- **C90** (compact): and at most three for each byte of the compact protocol. -/
theorem C90_compact (env : Env) (x : AnyVal) (t : TypeId) (v : GoVal) (hx : Passes env x t v) (ht : HasType env t v) (hs : SizesAtMost env (2 ^ 63 - 1) t v) (c : Compact.WState)
    (hc : c.boolField.type = Ty.stop) (b : Bytes) (s' : (Compact.WState × Bytes) × Nat) (h : MarshalReturns env (countedW Compact.writer) x ((c, b), 0) none s') :
    ∃ out, s'.1.2 = b ++ out ∧ 0 < s'.2 ∧ s'.2 ≤ 3 * out.length := by
  obtain ⟨tv, hr, hw, _⟩ := h.rep hx ht
  obtain ⟨h1, h2⟩ := writes_countedW _ _ _ _ hw
  obtain ⟨w1, w2, w3⟩ := rep_wf hr _ ht hs
  obtain ⟨c', _, h3⟩ := Compact.writes tv w1 w2 c b hc
  rw [Compact.enc_noWrap tv w3] at h3
  refine ⟨encCompact tv, by rw [h1.unique h3], ?_, ?_⟩
  · rw [h2]; cases tv <;> simp [calls]
  · have := calls_compact tv w1
    omega

theorem rep_empty {env : Env} {e : TypeId} (he : (env.type e).kind = .struct []) (tv : TVal) (h : Rep env e (.struct []) tv) : tv = .struct (env.type e).name [] := by
  cases h with
  | leaf h => cases h
  | set _ _ hv | list _ _ _ hv | map _ hv => rcases hv with hv | hv <;> simp at hv
  | struct order hk hl _ _ _ _ ho _ hlen _ =>
    rw [he] at hk
    cases hk
    cases order with
    | nil =>
      simp only [List.length_nil, List.length_eq_zero_iff] at hlen
      rw [hlen]
    | cons i l =>
      obtain ⟨f, _, h, _⟩ := (ho i).1 (List.mem_cons_self ..)
      simp at h

/-- **C90**: the first bound cannot be improved: for a slice of `n` empty structs Marshal makes that many calls, up to eight. -/
theorem C90_reaches (env : Env) (t e : TypeId) (hk : (env.type t).kind = .slice e) (hset : (env.type t).isSet = false) (hb : (env.type t).asBytes = false)
    (he : (env.type e).kind = .struct []) (n : Nat) (hn : n ≤ 2 ^ 31 - 1) (strict : Bool) (b : Bytes) :
    ∃ out k, MarshalReturns env (countedW (Binary.writer strict)) (.val t (.slice (List.replicate n (.struct [])) [])) (((), b), 0) none (((), b ++ out), k) ∧ out.length = 5 + n ∧ 2 * out.length = k + 8 := by
  have hr : Rep env e (.struct []) (.struct (env.type e).name []) :=
    .struct [] he rfl (by simp) (by simp) (by simp) .nil (by simp) .nil rfl (by simp) (by simp)
  have hacc : Acc (InPart env) e := .intro _ fun t' ht => by
    have := ht.1
    simp [PartOf, he] at this
  obtain ⟨h1, _, h2⟩ := slice_marshals env t e hk hset hb (.struct []) (.struct (env.type e).name []) (.struct he) hr (rep_empty he)
    (by simp [HasType, Everywhere, EverywhereFields, Shape, he]) (by simp [SizesAtMost, Everywhere, EverywhereFields]) hacc n hn b {} rfl
  refine ⟨encBin (.list Ty.struct (List.replicate n (.struct (env.type e).name []))), _, h2 _ _ _ (writes_countedW' _ _ _ _ (Binary.writes strict _ b)), ?_, ?_⟩
  · simp [encBin, encBinElems_replicate, encBinFields, be_length]; omega
  · simp [encBin, encBinElems_replicate, encBinFields, be_length, calls, callsElems_replicate, callsFields]; omega

/-- A struct of bools takes three calls for each byte of the compact protocol, but for the two of the struct itself. -/
example : (calls (.struct [] [([], 1, .bool true), ([], 2, .bool true), ([], 3, .bool true)])).length = 11 ∧
    (encCompact (.struct [] [([], 1, .bool true), ([], 2, .bool true), ([], 3, .bool true)])).length = 4 := by decide +kernel

/-- `type A []struct{}`. -/
def Ex.typeE : TypeId → GoType
  | 0 => { name := ascii "A", kind := .slice 1 }
  | 1 => { name := [], kind := .struct [] }
  | _ => { name := [], kind := .other }

/-- These types as a program. -/
def Ex.envE : Env := { Ex.env with
  type := Ex.typeE
  zero := fun | 0 => .sliceNil | 1 => .struct [] | _ => .other 0
  zero_eq := fun t => match t with
    | 0 | 1 => rfl
    | _ + 2 => rfl }

/-- A thousand empty structs: 1005 bytes, 2002 calls; so the hypotheses of `C90_binary` are met. -/
example : ∃ out, MarshalReturns Ex.envE (countedW (Binary.writer true)) (.val 0 (.slice (List.replicate 1000 (.struct [])) [])) (((), []), 0) none (((), [] ++ out), 2002) ∧ out.length = 1005 := by
  obtain ⟨out, k, h1, h2, h3⟩ := C90_reaches Ex.envE 0 1 rfl rfl rfl rfl 1000 (by decide) true []
  obtain rfl : k = 2002 := by omega
  exact ⟨out, h1, h2⟩

/-- A thousand numbers through the compact protocol: the hypotheses of `C90_compact` are met. -/
example : ∃ c' out k, MarshalReturns Ex.envS (countedW Compact.writer) (.val 0 (.slice (List.replicate 1000 (.i16 (-32768))) [])) (({}, []), 0) none ((c', [] ++ out), k) := by
  obtain ⟨_, _, out, c', rfl, _, h, _⟩ := C85_reaches_longest Ex.envS 0 1 rfl rfl rfl rfl 1000 (by decide) [] {} rfl
  obtain ⟨k, hk⟩ := C90_counting _ _ _ _ _ _ h
  exact ⟨c', out, k, hk⟩

end GoThrift
