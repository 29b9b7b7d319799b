import Verif.Proof.HeapTop
import Verif.Proof.HeapMarshal
import Verif.Spec.HeapExample
import Verif.Props.RoundTrip
import Verif.Props.Marshal

/-!
# C64 to C67: Marshal, Unmarshal and memory
-/

namespace GoThrift

open Spec

/-- **C64**: whatever shares memory in the argument of Unmarshal, and even if it refers to itself: Unmarshal changes no memory but what the argument leads to, and whatever the argument leads to
afterwards it led to before, or is new. -/
theorem C64_unmarshal_frame {S : Type} (env : Env) (r : Rdr S) (t : TypeId) (l : Loc) (h h' : Heap) (s s' : S) (e : Option Err) (hl : ∀ l', LeadsTo h l l' → l' < h.next)
    (hu : HUnmarshalReturns env r (.val t (.ptr (some l))) h s e h' s') :
    (∀ l', l' < h.next → ¬ LeadsTo h l l' → h'.mem l' = h.mem l') ∧ ∀ l', LeadsTo h' l l' → l' < h'.next ∧ (LeadsTo h l l' ∨ h.next ≤ l') := by
  obtain ⟨n, hn⟩ := hu
  have w := (HUnmarshal_frame env n t h l hl).run r s s' _ (hn n (Nat.le_refl _))
  refine ⟨fun l' hlt hnl => w.frame l' fun hc => hc.elim hnl fun hc => absurd hlt (Nat.not_lt.2 hc), fun l' hl' => ?_⟩
  have : (LeadsTo h l l' ∨ h.next ≤ l') ∧ l' < h'.next := by
    induction hl' with
    | here => exact ⟨.inl .here, Nat.lt_of_lt_of_le (hl l .here) w.next⟩
    | step _ hr ih => exact w.closed _ ih.1 ih.2 _ hr
  exact ⟨this.2, this.1⟩

/-- **C65**: on memory without sharing Unmarshal does what it does on trees (which is what the other properties are about). Given what it does on trees, … -/
theorem C65_tree_to_memory {S : Type} (env : Env) (r : Rdr S) (t : TypeId) (l : Loc) (h : Heap) (v : GoVal) (F : List Loc) (hh : HoldsTree h l v F) (s s' : S) (e : Option Err) (x' : AnyVal)
    (hu : UnmarshalReturns env r (.val t (.ptr v)) s e x' s') :
    ∃ h' v', x' = .val t (.ptr v') ∧ HUnmarshalReturns env r (.val t (.ptr (some l))) h s e h' s' ∧ BecomesTree h l F v' e h' := by
  obtain ⟨n, hn⟩ := hu
  obtain ⟨⟨h', e'⟩, hr, rfl, v', hx, hb⟩ := (HUnmarshal_rel env n t hh).run r s s' _ (hn n (Nat.le_refl _))
  exact ⟨h', v', hx, ⟨n, fun fuel hf => ((HUnmarshal_le env n fuel hf _ _).run r s).done hr⟩, hb⟩

/-- … and the other way round. -/
theorem C65_memory_to_tree {S : Type} (env : Env) (r : Rdr S) (t : TypeId) (l : Loc) (h h' : Heap) (v : GoVal) (F : List Loc) (hh : HoldsTree h l v F) (s s' : S) (e : Option Err)
    (hu : HUnmarshalReturns env r (.val t (.ptr (some l))) h s e h' s') :
    ∃ v', UnmarshalReturns env r (.val t (.ptr v)) s e (.val t (.ptr v')) s' ∧ BecomesTree h l F v' e h' := by
  obtain ⟨n, hn⟩ := hu
  obtain ⟨⟨x', e'⟩, hr, rfl, v', rfl, hb⟩ := (Rel.flip (HUnmarshal_rel env n t hh)).run r s s' _ (hn n (Nat.le_refl _))
  exact ⟨v', ⟨n, fun fuel hf => ((Unmarshal_le env n fuel hf _).run r s).done hr⟩, hb⟩

/-- **C65** arguments that are no pointers (or nil, or nil pointers) are refused with the error of C68, and neither memory nor the reader is touched. -/
theorem C65_bad_arguments {S : Type} (env : Env) (r : Rdr S) (h : Heap) (s : S) :
    (∃ e, UnmarshalReturns env r .nil s (some e) .nil s ∧ HUnmarshalReturns env r .nil h s (some e) h s) ∧
    (∀ t v x, (∀ u, (env.type t).kind ≠ .ptr u) → ∃ e, UnmarshalReturns env r (.val t v) s (some e) (.val t v) s ∧ HUnmarshalReturns env r (.val t x) h s (some e) h s) ∧
    ∀ t u, (env.type t).kind = .ptr u → ∃ e, UnmarshalReturns env r (.val t .ptrNil) s (some e) (.val t .ptrNil) s ∧ HUnmarshalReturns env r (.val t (.ptr none)) h s (some e) h s := by
  refine ⟨⟨_, ⟨0, fun _ _ => rfl⟩, 0, fun _ _ => rfl⟩, fun t v x ht => ?_, fun t u ht => ?_⟩
  · have : env.elem? t = none := by
      unfold Env.elem?
      split
      · rename_i u hu; exact absurd hu (ht u)
      · rfl
    exact ⟨_, ⟨0, fun _ _ => by rw [Unmarshal, this]; rfl⟩, 0, fun _ _ => by rw [HUnmarshal, this]; rfl⟩
  · have : env.elem? t = some u := by rw [Env.elem?, ht]
    exact ⟨_, ⟨0, fun _ _ => by rw [Unmarshal, this]; rfl⟩, 0, fun _ _ => by rw [HUnmarshal, this]; rfl⟩

/-! ## C66 -/

/-- **C66** Marshal of nil is refused with the error of C68, and nothing is written. -/
theorem C66_nil {S : Type} (env : Env) (hz : HMethods) (w : Wtr S) (h : Heap) (s : S) : ∃ e, MarshalReturns env w .nil s (some e) s ∧ HMarshalReturns env hz w .nil h s (some e) s :=
  ⟨_, ⟨0, fun _ _ => rfl⟩, 0, fun _ _ => rfl⟩

/-- **C66**: if the argument of Marshal is the value `v`, Marshal does what it does on trees, however the value lies in memory: parts may be shared. -/
theorem C66_marshal_memory {S : Type} (env : Env) (hz : HMethods) (hz' : MethodsAgree env hz) (w : Wtr S) (t : TypeId) (h : Heap) (v : GoVal) (x : HVal) (F : List Loc) (ho : Owns h v x F) (s s' : S)
    (e : Option Err) : HMarshalReturns env hz w (.val t x) h s e s' ↔ MarshalReturns env w (.val t v) s e s' := by
  unfold HMarshalReturns MarshalReturns
  simp only [HMarshal_eq hz' _ t ho]

/-- **C66**: so two values that are the same as trees are marshalled alike, whatever they share. -/
theorem C66_sharing_invisible {S : Type} (env : Env) (hz : HMethods) (hz' : MethodsAgree env hz) (w : Wtr S) (t : TypeId) (h1 h2 : Heap) (v : GoVal) (x1 x2 : HVal) (F1 F2 : List Loc)
    (h1v : Owns h1 v x1 F1) (h2v : Owns h2 v x2 F2) (s s' : S) (e : Option Err) :
    HMarshalReturns env hz w (.val t x1) h1 s e s' ↔ HMarshalReturns env hz w (.val t x2) h2 s e s' :=
  (C66_marshal_memory env hz hz' w t h1 v x1 F1 h1v s s' e).trans (C66_marshal_memory env hz hz' w t h2 v x2 F2 h2v s s' e).symm

/-- **C66** `type L struct { Next *L "1"; V float32 "2" }`: Marshal of an `L` with `Next` pointing to itself does not return, with a Writer that never fails. (C38 says that on trees it does.) -/
theorem C66_cycle_diverges (hz : HMethods) (h0 : hz 23 = none) (fuel : Nat) : (HMarshal Ex.env hz fuel (.val 23 (.ptr (some 0))) Ex.loop).run okWriter [] = .diverged := by
  have main : ∀ fuel ops, (hmarshal Ex.env hz Ex.loop fuel (.struct 21) (.struct [.ptr (some 0), .lit (.f32 0)])).run okWriter ops = .diverged := by
    intro fuel
    induction fuel using Nat.strongRecOn with
    | ind fuel ih =>
      intro ops
      match fuel with
      | 0 => rfl
      | 1 => rfl
      | 2 => rfl
      | n + 3 =>
        have hm : makeStructFields Ex.env (n + 2) 21 = .done (.ok [⟨0, 23, .ptr 23 (.struct 21), 1, ascii "Next", false⟩, ⟨1, 14, .leaf 14 .f32, 2, ascii "V", false⟩]) := by
          exact (makeStructFields_le Ex.env 2 (n + 2) (by omega) 21).done (by decide +kernel)
        have h1 := ih (n + 1) (by omega)
        rw [hmarshal, hm]
        have hp : ∀ ops, (hmarshal Ex.env hz Ex.loop (n + 2) (.ptr 23 (.struct 21)) (.ptr (some 0))).run okWriter ops = .diverged := fun ops => by
          unfold hmarshal
          exact h1 ops
        simp only [Out.elim]
        rw [ok_wcall, hmarshalFields]
        rw [if_neg (by decide)]
        simp only [List.getElem?_cons_zero]
        rw [if_neg (by simp [hreportsZero, h0, HVal.isZero]), ok_wcall, wrun_andThen, hp]
        rfl
  match fuel with
  | 0 => rfl
  | n + 1 => exact main (n + 1) []

/-- … so it does not return. -/
theorem C66_cycle_does_not_return (hz : HMethods) (h0 : hz 23 = none) (e : Option Err) (ops : List WOp) : ¬ HMarshalReturns Ex.env hz okWriter (.val 23 (.ptr (some 0))) Ex.loop [] e ops := by
  rintro ⟨n, h⟩
  have := h n (Nat.le_refl _)
  rw [C66_cycle_diverges hz h0] at this
  cases this

/-! ## C67 -/

/-- **C67** what is read back from what Marshal has written shares no memory with anything there was before, even if parts of the value written shared memory among themselves; and nothing there was
before is changed, but for the variable read into. -/
theorem C67_binary_copy (env : Env) (strict : Bool) (hz : HMethods) (hz' : MethodsAgree env hz) (t p : TypeId) (hp : (env.type p).kind = .ptr t) (h : Heap) (l : Loc) (v : GoVal) (x : HVal) (F : List Loc)
    (hl : h.mem l = .cell x) (ho : Owns h v x F) (ht : HasType env t v) (hs : SizesAtMost env (2 ^ 31 - 1) t v) (hk : KeysSurvive env t v) (hd : ∀ t', Within env t' t → DistinctIds env t')
    (b : Bytes) (s' : Unit × Bytes) (hw : HMarshalReturns env hz (Binary.writer strict) (.val p (.ptr (some l))) h ((), b) none s') (l2 : Loc) (hl2 : h.mem l2 = .cell (env.hzero t)) (hlt : l2 < h.next) :
    ∃ out v', s' = ((), b ++ out) ∧ RoundTrip env t v v' ∧ ∀ (size : Nat) (rest : Bytes) (fin : End), 16 ≤ size →
      ∃ h' F', HUnmarshalReturns env (Binary.reader strict) (.val p (.ptr (some l2))) h ((), ⟨size, out ++ rest, fin⟩) none h' ((), ⟨size, rest, fin⟩) ∧
        HoldsTree h' l2 v' F' ∧ (∀ l' ∈ F', h.next ≤ l') ∧ ∀ l', l' < h.next → l' ≠ l2 → h'.mem l' = h.mem l' := by
  have ho' : Owns h (.ptr v) (.ptr (some l)) (l :: F) := ⟨l, x, F, rfl, hl, ho, rfl⟩
  obtain ⟨out, v', he, hr, hu⟩ := C01_binary_round_trip env strict (.val p (.ptr v)) t p v (.inr ⟨p, hp, rfl⟩) hp ht hs hk hd b s' ((C66_marshal_memory env hz hz' _ p h _ _ _ ho' _ _ _).1 hw)
  refine ⟨out, v', he, hr, fun size rest fin hsize => ?_⟩
  have hh : HoldsTree h l2 (env.zero t) [] := ⟨⟨_, hl2, owns_zero env h t⟩, by simp, fun l' hm => by rw [List.mem_singleton.1 hm]; exact hlt⟩
  obtain ⟨h', v1, hx, hu', ⟨v2, F', hh', -, hv2, hF⟩, -, hfr⟩ := C65_tree_to_memory env _ p l2 h _ [] hh _ _ _ _ (hu size rest fin hsize)
  cases hx
  obtain rfl := hv2 rfl
  exact ⟨h', F', hu', hh', fun l' hm => (hF l' hm).elim (fun hc => (List.not_mem_nil hc).elim) id, fun l' hlt' hne => hfr l' hlt' fun hm => hne (List.mem_singleton.1 hm)⟩

/-- **C67** the same for the compact protocol. -/
theorem C67_compact_copy (env : Env) (hz : HMethods) (hz' : MethodsAgree env hz) (t p : TypeId) (hp : (env.type p).kind = .ptr t) (h : Heap) (l : Loc) (v : GoVal) (x : HVal) (F : List Loc)
    (hl : h.mem l = .cell x) (ho : Owns h v x F) (ht : HasType env t v) (hs : SizesAtMost env (2 ^ 63 - 1) t v) (hk : KeysSurvive env t v) (hd : ∀ t', Within env t' t → DistinctIds env t')
    (c : Compact.WState) (hc : c.boolField.type = Ty.stop) (b : Bytes) (s' : Compact.WState × Bytes) (hw : HMarshalReturns env hz Compact.writer (.val p (.ptr (some l))) h (c, b) none s')
    (l2 : Loc) (hl2 : h.mem l2 = .cell (env.hzero t)) (hlt : l2 < h.next) :
    ∃ c' out v', s' = (c', b ++ out) ∧ RoundTrip env t v v' ∧ ∀ (size : Nat) (rest : Bytes) (fin : End) (rs : Compact.RState), 16 ≤ size → rs.boolField = .none →
      ((∃ e, fin = .err e) ∨ 9 ≤ rest.length) →
      ∃ h' F', HUnmarshalReturns env Compact.reader (.val p (.ptr (some l2))) h (rs, ⟨size, out ++ rest, fin⟩) none h' (rs, ⟨size, rest, fin⟩) ∧
        HoldsTree h' l2 v' F' ∧ (∀ l' ∈ F', h.next ≤ l') ∧ ∀ l', l' < h.next → l' ≠ l2 → h'.mem l' = h.mem l' := by
  have ho' : Owns h (.ptr v) (.ptr (some l)) (l :: F) := ⟨l, x, F, rfl, hl, ho, rfl⟩
  obtain ⟨c', out, v', he, hr, hu⟩ := C02_compact_round_trip env (.val p (.ptr v)) t p v (.inr ⟨p, hp, rfl⟩) hp ht hs hk hd c hc b s' ((C66_marshal_memory env hz hz' _ p h _ _ _ ho' _ _ _).1 hw)
  refine ⟨c', out, v', he, hr, fun size rest fin rs hsize hrs hfin => ?_⟩
  have hh : HoldsTree h l2 (env.zero t) [] := ⟨⟨_, hl2, owns_zero env h t⟩, by simp, fun l' hm => by rw [List.mem_singleton.1 hm]; exact hlt⟩
  obtain ⟨h', v1, hx, hu', ⟨v2, F', hh', -, hv2, hF⟩, -, hfr⟩ := C65_tree_to_memory env _ p l2 h _ [] hh _ _ _ _ (hu size rest fin rs hsize hrs hfin)
  cases hx
  obtain rfl := hv2 rfl
  exact ⟨h', F', hu', hh', fun l' hm => (hF l' hm).elim (fun hc => (List.not_mem_nil hc).elim) id, fun l' hlt' hne => hfr l' hlt' fun hm => hne (List.mem_singleton.1 hm)⟩

/-! ## Examples -/

/-- The byte slice at a place. -/
def bytesAt (h : Heap) (p : Place) : Option Bytes := match h.get p with
  | some (.bytes (some s)) => (h.cells s.base s.len).bind fun xs => xs.mapM fun x => match x with
    | .lit (.i8 b) => some b
    | _ => none
  | _ => none

/-- Is the result nil, with these two byte slices in the variable at 0? -/
def gives {S : Type} [DecidableEq S] (x : Out ((Heap × Option Err) × S)) (a b : Bytes) (s : S) : Bool := match x with
  | .done ((h, none), s') => bytesAt h ⟨0, [0]⟩ == some a && bytesAt h ⟨0, [1]⟩ == some b && decide (s' = s)
  | _ => false

theorem gives_done {S : Type} [DecidableEq S] {x : Out ((Heap × Option Err) × S)} {a b : Bytes} {s : S} (h : gives x a b s = true) :
    ∃ h', x = .done ((h', none), s) ∧ bytesAt h' ⟨0, [0]⟩ = some a ∧ bytesAt h' ⟨0, [1]⟩ = some b := by
  unfold gives at h
  split at h
  · rename_i h' s'
    simp only [Bool.and_eq_true, beq_iff_eq, decide_eq_true_eq] at h
    obtain ⟨⟨h1, h2⟩, rfl⟩ := h
    exact ⟨h', rfl, h1, h2⟩
  · cases h

/-- A struct on the wire: field 1 is `"pq"`, field 2 is `"cd"`. -/
def Ex.twoBytes : Bytes := [11, 0, 1, 0, 0, 0, 2, 112, 113, 11, 0, 2, 0, 0, 0, 2, 99, 100, 0]

/-- C65 needs its hypothesis: if two fields share an array, the second read overwrites what the first has read. -/
theorem C65_sharing_matters : ∃ h', HUnmarshalReturns Ex.hEnv (Binary.reader true) (.val 29 (.ptr (some 0))) Ex.shared ((), ⟨16, Ex.twoBytes, .block⟩) none h' ((), ⟨16, [], .block⟩) ∧
    bytesAt h' ⟨0, [0]⟩ = some [99, 100] ∧ bytesAt h' ⟨0, [1]⟩ = some [99, 100] := by
  obtain ⟨h', hr, h1, h2⟩ := gives_done (x := (HUnmarshal Ex.hEnv 20 (.val 29 (.ptr (some 0))) Ex.shared).run (Binary.reader true) ((), ⟨16, Ex.twoBytes, .block⟩)) (a := [99, 100]) (b := [99, 100])
    (s := ((), ⟨16, [], .block⟩)) (by decide +kernel)
  exact ⟨h', ⟨20, fun fuel hf => ((HUnmarshal_le _ _ _ hf _ _).run _ _).done hr⟩, h1, h2⟩

/-- The hypothesis of C65 is met by a variable with two byte slices … -/
theorem Ex.apart_holds : HoldsTree Ex.apart 0 (.struct [.bytes (some [120, 121]), .bytes (some [97, 98])]) [1, 2, 3, 4] := by
  refine ⟨⟨_, rfl, ?_⟩, by decide, by decide⟩
  have cells : ∀ (base : Loc) (a b : Byte), Ex.apart.mem base = .cell (.lit (.i8 a)) → Ex.apart.mem (base + 1) = .cell (.lit (.i8 b)) → CellsAt Ex.apart base (Heap.byteCells ([a, b] ++ [])) := by
    intro base a b h1 h2 i x hx
    match i, hx with
    | 0, hx => cases hx; exact h1
    | 1, hx => cases hx; exact h2
  exact ⟨_, rfl, _, _, [1, 2], [3, 4], rfl, ⟨⟨1, 2, 2⟩, [], rfl, rfl, rfl, cells 1 _ _ rfl rfl, rfl⟩, ⟨_, _, [3, 4], [], rfl, ⟨⟨3, 2, 2⟩, [], rfl, rfl, rfl, cells 3 _ _ rfl rfl, rfl⟩, ⟨rfl, rfl⟩, rfl⟩, rfl⟩

/-- … and there Unmarshal does return, with the two byte slices read. -/
example : ∃ h', HUnmarshalReturns Ex.hEnv (Binary.reader true) (.val 29 (.ptr (some 0))) Ex.apart ((), ⟨16, Ex.twoBytes, .block⟩) none h' ((), ⟨16, [], .block⟩) ∧
    bytesAt h' ⟨0, [0]⟩ = some [112, 113] ∧ bytesAt h' ⟨0, [1]⟩ = some [99, 100] := by
  obtain ⟨h', hr, h1, h2⟩ := gives_done (x := (HUnmarshal Ex.hEnv 20 (.val 29 (.ptr (some 0))) Ex.apart).run (Binary.reader true) ((), ⟨16, Ex.twoBytes, .block⟩)) (a := [112, 113]) (b := [99, 100])
    (s := ((), ⟨16, [], .block⟩)) (by decide +kernel)
  exact ⟨h', ⟨20, fun fuel hf => ((HUnmarshal_le _ _ _ hf _ _).run _ _).done hr⟩, h1, h2⟩

/-- The hypotheses of C64: `*L` with a variable that points to itself. A struct on the wire with a struct in field 1 and a double in field 2 of that is read into the one variable, and the other is
left alone. -/
example : (∀ l', LeadsTo Ex.loop 0 l' → l' < Ex.loop.next) ∧ ¬ LeadsTo Ex.loop 0 1 ∧
    ∃ h', HUnmarshalReturns Ex.env (Binary.reader true) (.val 23 (.ptr (some 0))) Ex.loop ((), ⟨16, [12, 0, 1, 4, 0, 2, 0, 0, 0, 0, 0, 0, 0, 7, 0, 0], .block⟩) none h' ((), ⟨16, [], .block⟩) := by
  have only : ∀ l', LeadsTo Ex.loop 0 l' → l' = 0 := by
    intro l' hl
    induction hl with
    | here => rfl
    | step _ hr ih =>
      subst ih
      simp only [Ex.loop, Ex.memory, List.getElem?_cons_zero, Option.getD_some, MObj.Refers, HVal.Refers, HVal.RefersAny, or_false] at hr
      exact (Option.some.inj hr).symm
  refine ⟨fun l' hl => by rw [only l' hl]; decide, fun hl => absurd (only 1 hl) (by decide), ?_⟩
  have : (match (HUnmarshal Ex.env 20 (.val 23 (.ptr (some 0))) Ex.loop).run (Binary.reader true) ((), ⟨16, [12, 0, 1, 4, 0, 2, 0, 0, 0, 0, 0, 0, 0, 7, 0, 0], .block⟩) with
      | .done ((_, none), s) => decide (s = ((), ⟨16, [], .block⟩))
      | _ => false) = true := by decide +kernel
  split at this
  · rename_i h' s hr
    obtain rfl := of_decide_eq_true this
    exact ⟨h', 20, fun fuel hf => ((HUnmarshal_le _ _ _ hf _ _).run _ _).done hr⟩
  · cases this

/-- A program without `IsZero` methods. -/
theorem Ex.methods : MethodsAgree Ex.hEnv fun _ => none := fun _ => trivial

/-- The variable at 0 in `Ex.shared`, of which the two fields share their bytes, has a value: the bytes twice. -/
theorem Ex.shared_owns : ∃ x, Ex.shared.mem 0 = .cell x ∧ Owns Ex.shared (.struct [.bytes (some [120, 121]), .bytes (some [120, 121])]) x [1, 2, 1, 2] := by
  refine ⟨_, rfl, ?_⟩
  have cells : CellsAt Ex.shared 1 (Heap.byteCells ([120, 121] ++ [])) := by
    intro i x hx
    match i, hx with
    | 0, hx => cases hx; rfl
    | 1, hx => cases hx; rfl
  exact ⟨_, rfl, _, _, [1, 2], [1, 2], rfl, ⟨⟨1, 2, 2⟩, [], rfl, rfl, rfl, cells, rfl⟩, ⟨_, _, [1, 2], [], rfl, ⟨⟨1, 2, 2⟩, [], rfl, rfl, rfl, cells, rfl⟩, ⟨rfl, rfl⟩, rfl⟩, rfl⟩

/-- The bytes for it. -/
def Ex.twice : Bytes := [11, 0, 1, 0, 0, 0, 2, 120, 121, 11, 0, 2, 0, 0, 0, 2, 120, 121, 0]

/-- The hypotheses of C66 and C67 are met by it. -/
example : ∃ x F, Ex.shared.mem 0 = .cell x ∧ Owns Ex.shared (.struct [.bytes (some [120, 121]), .bytes (some [120, 121])]) x F ∧
    HasType Ex.hEnv 28 (.struct [.bytes (some [120, 121]), .bytes (some [120, 121])]) ∧ SizesAtMost Ex.hEnv 2 28 (.struct [.bytes (some [120, 121]), .bytes (some [120, 121])]) ∧
    KeysSurvive Ex.hEnv 28 (.struct [.bytes (some [120, 121]), .bytes (some [120, 121])]) ∧ (∀ t', Within Ex.hEnv t' 28 → DistinctIds Ex.hEnv t') ∧
    HMarshalReturns Ex.hEnv (fun _ => none) (Binary.writer true) (.val 29 (.ptr (some 0))) Ex.shared ((), []) none ((), Ex.twice) ∧
    Ex.shared.mem 5 = .cell (Ex.hEnv.hzero 28) ∧ 5 < Ex.shared.next := by
  obtain ⟨x, hx, ho⟩ := Ex.shared_owns
  refine ⟨x, _, hx, ho, ?_, ?_, ?_, ?_, ?_, rfl, by decide⟩
  · refine ⟨rfl, ?_⟩
    simp [EverywhereFields, Everywhere, Shape, Ex.hEnv, Ex.env, Ex.hType, Ex.type, Ex.fld, GoType.asBytes, Env.fields]
  · refine ⟨trivial, ?_⟩
    simp [EverywhereFields, Everywhere, Ex.hEnv, Ex.env, Ex.hType, Ex.fld, Env.fields]
  · refine keysSurvive_plain ⟨trivial, ?_⟩
    simp [EverywhereFields, Everywhere, Ex.hEnv, Ex.env, Ex.hType, Ex.fld, Env.fields]
  · intro t' ht'
    have closed : ∀ t t', PartOf Ex.hEnv t' t → t ∈ [28, 15, 22] → t' ∈ [28, 15, 22] := by
      intro t t' h ht
      simp only [List.mem_cons, List.not_mem_nil, or_false] at ht
      rcases ht with rfl | rfl | rfl
      all_goals simp [PartOf, Ex.hEnv, Ex.hType, Ex.env, Ex.type, Ex.fld] at h
      all_goals (simp only [List.mem_cons, List.not_mem_nil, or_false]; grind)
    have key : ∀ u t', Within Ex.hEnv t' u → u ∈ [28, 15, 22] → t' ∈ [28, 15, 22] := by
      intro u t' h
      induction h with
      | refl => exact id
      | step _ hp ih => exact fun hu => ih (closed _ _ hp hu)
    have hm := key _ _ ht' (by simp)
    intro i j f g id r r' hf hg d1 d2
    simp only [List.mem_cons, List.not_mem_nil, or_false] at hm
    rcases hm with rfl | rfl | rfl
    · have ids : ∀ (i : Nat) f id r, (Ex.hEnv.fields 28)[i]? = some f → Declares Ex.hEnv f id r → (i = 0 ∧ id = 1) ∨ (i = 1 ∧ id = 2) := by
        intro i f id r hf hd
        match i with
        | 0 => cases hf; exact .inl ⟨rfl, hd.id_of (o := ⟨1, ascii "A", false⟩) rfl⟩
        | 1 => cases hf; exact .inr ⟨rfl, hd.id_of (o := ⟨2, ascii "B", false⟩) rfl⟩
        | i + 2 => cases hf
      rcases ids i f id r hf d1 with ⟨rfl, h1⟩ | ⟨rfl, h1⟩ <;> rcases ids j g id r' hg d2 with ⟨rfl, h2⟩ | ⟨rfl, h2⟩
      · rfl
      · rw [h1] at h2; exact absurd h2 (by decide)
      · rw [h1] at h2; exact absurd h2 (by decide)
      · rfl
    · cases hf
    · cases hf
  · have ho' : Owns Ex.shared (.ptr (.struct [.bytes (some [120, 121]), .bytes (some [120, 121])])) (.ptr (some 0)) _ := ⟨0, x, _, rfl, hx, ho, rfl⟩
    refine (C66_marshal_memory Ex.hEnv _ Ex.methods _ 29 _ _ _ _ ho' _ _ _).2 ?_
    exact ⟨20, fun fuel hf => ((Marshal_le Ex.hEnv 20 fuel hf _).run _ _).done (by decide +kernel)⟩

end GoThrift
