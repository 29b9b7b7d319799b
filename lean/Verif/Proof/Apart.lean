import Verif.Props.Accept
import Verif.Props.Skip
import Verif.Props.RoundTrip

/-!
# Lemmas for C97
-/

namespace GoThrift

open Spec Spec.TVal

/-- `out` is what Marshal writes, in the binary protocol, for some value of some type with wire type `w`. -/
def BinaryOf (env : Env) (strict : Bool) (w : WType) (out : Bytes) : Prop :=
  ∃ x t v b, Passes env x t v ∧ HasType env t v ∧ SizesAtMost env (2 ^ 31 - 1) t v ∧ WireTypeOf env t w ∧ MarshalReturns env (Binary.writer strict) x ((), b) none ((), b ++ out)

/-- `out` is what Marshal writes, in the compact protocol, for some value of some type with wire type `w`. -/
def CompactOf (env : Env) (w : WType) (out : Bytes) : Prop :=
  ∃ x t v b c c', Passes env x t v ∧ HasType env t v ∧ SizesAtMost env (2 ^ 63 - 1) t v ∧ WireTypeOf env t w ∧ c.boolField.type = Ty.stop ∧ MarshalReturns env Compact.writer x (c, b) none (c', b ++ out)

theorem BinaryOf.skips {env : Env} {strict : Bool} {w : WType} {out : Bytes} (h : BinaryOf env strict w out) (rest : Bytes) :
    SkipReturns (Binary.reader strict) w ((), ⟨16, out ++ rest, .err .eof⟩) none ((), ⟨16, rest, .err .eof⟩) := by
  obtain ⟨x, t, v, b, hx, ht, hs, hw, h⟩ := h
  obtain ⟨tv, hr, hwr, _⟩ := h.rep hx ht
  obtain rfl : out = encBin tv := by simpa using hwr.unique (Binary.writes strict tv b)
  obtain ⟨w1, _, _⟩ := rep_wf hr _ ht hs
  obtain rfl := (rep_wireType hr).unique hw
  exact C03_skip_binary strict tv w1 16 (by decide) rest _

theorem CompactOf.skips {env : Env} {w : WType} {out : Bytes} (h : CompactOf env w out) (rest : Bytes) :
    SkipReturns Compact.reader w ({}, ⟨16, out ++ rest, .err .eof⟩) none ({}, ⟨16, rest, .err .eof⟩) := by
  obtain ⟨x, t, v, b, c, c', hx, ht, hs, hw, hc, h⟩ := h
  obtain ⟨tv, hr, hwr, _⟩ := h.rep hx ht
  obtain ⟨w1, w2, w3⟩ := rep_wf hr _ ht hs
  obtain ⟨_, _, hw'⟩ := Compact.writes tv w1 w2 c b hc
  rw [Compact.enc_noWrap tv w3] at hw'
  obtain rfl : out = encCompact tv := by simpa using congrArg Prod.snd (hwr.unique hw')
  obtain rfl := (rep_wireType hr).unique hw
  exact C03_skip_compact tv w1 w2 {} rfl 16 (by decide) rest _

theorem apart {P : WType → Bytes → Prop} (hp : ∀ w out out' rest rest', P w out → P w out' → out ++ rest = out' ++ rest' → out = out' ∧ rest = rest') :
    ∀ (ws : List WType) (outs outs' : List Bytes) (rest rest' : Bytes), outs.length = ws.length → outs'.length = ws.length → (∀ (i : Nat) w out, ws[i]? = some w → outs[i]? = some out → P w out) →
      (∀ (i : Nat) w out, ws[i]? = some w → outs'[i]? = some out → P w out) → outs.flatten ++ rest = outs'.flatten ++ rest' → outs = outs' ∧ rest = rest' := by
  intro ws
  induction ws with
  | nil =>
    intro outs outs' rest rest' hl hl' _ _ he
    obtain rfl := List.length_eq_zero_iff.1 hl
    obtain rfl := List.length_eq_zero_iff.1 hl'
    exact ⟨rfl, he⟩
  | cons w ws ih =>
    intro outs outs' rest rest' hl hl' h h' he
    cases outs with
    | nil => simp at hl
    | cons out outs =>
      cases outs' with
      | nil => simp at hl'
      | cons out' outs' =>
        simp only [List.flatten_cons, List.append_assoc] at he
        obtain ⟨rfl, he'⟩ := hp w out out' _ _ (h 0 w out rfl rfl) (h' 0 w out' rfl rfl) he
        obtain ⟨rfl, rfl⟩ := ih outs outs' rest rest' (by simpa using hl) (by simpa using hl') (fun i w out h1 h2 => h (i + 1) w out h1 h2) (fun i w out h1 h2 => h' (i + 1) w out h1 h2) he'
        exact ⟨rfl, rfl⟩

end GoThrift
