import Verif.Spec.Discipline
import Verif.Spec.Arshal
import Verif.Proof.Wp

/-!
# Skip and Unmarshal make the Reader calls that the wire types ask for
-/

namespace GoThrift

open Spec

/-- `watched` as a monitor. -/
def watch : Mon (List Want) where
  pre o l := allowed l o = true
  okAns _ _ := True
  next o a l := afterCall o a l.tail
  fail _ _ := []
  panics := True

theorem watch_run {α S : Type} {Q : α → List Want → Prop} {p : RProg α} (r : Rdr S) {l : List Want} (h : Wp watch Q p l) (s s' : S) (a : α) (m : Option (List Want))
    (hr : p.run (watched r) (s, some l) = .done (a, (s', m))) : ∃ l', m = some l' ∧ Q a l' := by
  induction p generalizing l s with
  | ret b => cases hr; exact ⟨l, rfl, h⟩
  | diverge => cases hr
  | panic => cases hr
  | call o k ih =>
    rw [RProg.run] at hr
    simp only [watched] at hr
    have hpre : allowed l o = true := h.1
    cases hs : r.step o s with
    | done x =>
      rw [hs] at hr
      simp only [Out.bind_done, Option.bind_some, hpre, if_true] at hr
      cases x with
      | mk x s1 =>
        cases x with
        | ok b => exact ih _ (h.2.1 b trivial) s1 hr
        | error e => exact ih _ (h.2.2 e) s1 hr
    | blocked => rw [hs] at hr; cases hr
    | diverged => rw [hs] at hr; cases hr
    | panicked => rw [hs] at hr; cases hr

/-- Afterwards nothing but `l` is to be read, unless there is an error. -/
def Leaves {α : Type} (l : List Want) (x : α × Option Err) (g : List Want) : Prop := x.2 = none → g = l

/-! ## Skip -/

/-- As `Leaves`, for Skip. -/
def LeavesE (l : List Want) (e : Option Err) (g : List Want) : Prop := e = none → g = l

theorem wp_last {l g : List Want} {o : ROp} (h : allowed g o = true) (ha : ∀ a, afterCall o a g.tail = l) : Wp watch (LeavesE l) (.last o) g :=
  ⟨h, fun a _ _ => ha a, fun e h => by cases h⟩

theorem wp_try {l g : List Want} {o : ROp} {k : o.Ans → RProg (Option Err)} (h : allowed g o = true) (hk : ∀ a, Wp watch (LeavesE l) (k a) (afterCall o a g.tail)) :
    Wp watch (LeavesE l) (.try' o k) g :=
  ⟨h, fun a _ => hk a, fun e h => by cases h⟩

theorem wp_then {l l' g : List Want} {p q : RProg (Option Err)} (h : Wp watch (LeavesE l') p g) (hq : Wp watch (LeavesE l) q l') : Wp watch (LeavesE l) (p.andThen q) g := by
  refine Wp.bind h fun e g he => ?_
  cases e with
  | none => rw [he rfl]; exact hq
  | some e => intro h; cases h

theorem wp_loop {l l' : List Want} {n : Nat} {p q : RProg (Option Err)} {w : List Want} (h : ∀ rest, Wp watch (LeavesE rest) p (w ++ rest)) (hq : Wp watch (LeavesE l) q l') :
    Wp watch (LeavesE l) (.loop n p q) ((List.replicate n w).flatten ++ l') := by
  induction n with
  | zero => exact hq
  | succ n ih =>
    rw [RProg.loop, List.replicate_succ, List.flatten_cons, List.append_assoc]
    exact wp_then (h _) ih

theorem flatten_single (n : Nat) (w : Want) : (List.replicate n [w]).flatten = List.replicate n w := by
  induction n with
  | zero => rfl
  | succ n ih => rw [List.replicate_succ, List.flatten_cons, ih]; rfl

theorem wp_skip (fuel : Nat) :
    (∀ t l, Wp watch (LeavesE l) (skip fuel t) (.value t :: l)) ∧ (∀ l, Wp watch (LeavesE l) (skipFields fuel) (.fieldHeader :: l)) := by
  induction fuel with
  | zero => exact ⟨fun _ _ => trivial, fun _ => trivial⟩
  | succ fuel ih =>
    obtain ⟨ih1, ih2⟩ := ih
    constructor
    · intro t l
      rw [skip]
      by_cases h : t = Ty.bool
      · rw [if_pos h, h]; exact wp_last rfl fun _ => rfl
      rw [if_neg h]; clear h
      by_cases h : t = Ty.byte
      · rw [if_pos h, h]; exact wp_last rfl fun _ => rfl
      rw [if_neg h]; clear h
      by_cases h : t = Ty.double
      · rw [if_pos h, h]; exact wp_last rfl fun _ => rfl
      rw [if_neg h]; clear h
      by_cases h : t = Ty.i16
      · rw [if_pos h, h]; exact wp_last rfl fun _ => rfl
      rw [if_neg h]; clear h
      by_cases h : t = Ty.i32
      · rw [if_pos h, h]; exact wp_last rfl fun _ => rfl
      rw [if_neg h]; clear h
      by_cases h : t = Ty.i64
      · rw [if_pos h, h]; exact wp_last rfl fun _ => rfl
      rw [if_neg h]; clear h
      by_cases h : t = Ty.string
      · rw [if_pos h, h]; exact wp_last rfl fun _ => rfl
      rw [if_neg h]; clear h
      by_cases h : t = Ty.struct
      · rw [if_pos h, h]; exact wp_try rfl fun _ => ih2 l
      rw [if_neg h]; clear h
      by_cases h : t = Ty.map
      · rw [if_pos h, h]
        refine wp_try rfl fun hd => wp_loop (w := [.value hd.key, .value hd.value]) (fun rest => ?_) (wp_last rfl fun _ => rfl)
        exact wp_then (ih1 hd.key (.value hd.value :: rest)) (ih1 hd.value rest)
      rw [if_neg h]; clear h
      by_cases h : t = Ty.set
      · rw [if_pos h, h]
        refine wp_try rfl fun hd => ?_
        have := wp_loop (l := l) (n := loopCount hd.size) (w := [.value hd.element]) (fun rest => ih1 hd.element rest) (wp_last (o := .setEnd) (g := .exactly .setEnd :: l) rfl fun _ => rfl)
        rwa [flatten_single] at this
      rw [if_neg h]; clear h
      by_cases h : t = Ty.list
      · rw [if_pos h, h]
        refine wp_try rfl fun hd => ?_
        have := wp_loop (l := l) (n := loopCount hd.size) (w := [.value hd.element]) (fun rest => ih1 hd.element rest) (wp_last (o := .listEnd) (g := .exactly .listEnd :: l) rfl fun _ => rfl)
        rwa [flatten_single] at this
      rw [if_neg h]; clear h
      by_cases h : t = Ty.uuid
      · rw [if_pos h, h]; exact wp_last rfl fun _ => rfl
      rw [if_neg h]
      intro h; cases h
    · intro l
      rw [skipFields]
      refine wp_try rfl fun hd => ?_
      simp only [afterCall, List.tail_cons]
      by_cases hs : hd.type = Ty.stop
      · rw [if_pos hs, if_pos hs]; exact wp_last rfl fun _ => rfl
      · rw [if_neg hs, if_neg hs]
        exact wp_then (ih1 hd.type _) (wp_try rfl fun _ => ih2 l)

/-! ## Unmarshal -/

theorem wp_seqLoop {u : GoVal → UProg GoVal} {w : Want} (hu : ∀ v l, Wp watch (Leaves l) (u v) (w :: l)) (zero : GoVal) (grow : Nat → Nat) (n : Nat) (done rest : List GoVal) (mz : Bool)
    (l : List Want) : Wp watch (Leaves l) (seqLoop u zero grow n done rest mz) (List.replicate n w ++ l) := by
  induction n generalizing done rest mz with
  | zero => exact fun _ => rfl
  | succ n ih =>
    rw [seqLoop]
    split
    · trivial
    · exact Wp.andThen (hu _ _) (fun a g hg => by rw [hg rfl]; exact ih _ _ _) fun _ _ _ _ h => by cases h

theorem wp_mapLoop {uk : UProg GoVal} {uv : GoVal → UProg GoVal} {w w' : Want} (hk : ∀ l, Wp watch (Leaves l) uk (w :: l)) (hv : ∀ v l, Wp watch (Leaves l) (uv v) (w' :: l))
    (zero : GoVal) (n : Nat) (es : List (GoVal × GoVal)) (l : List Want) : Wp watch (Leaves l) (mapLoop uk uv zero n es) ((List.replicate n [w, w']).flatten ++ l) := by
  induction n generalizing es with
  | zero => exact fun _ => rfl
  | succ n ih =>
    refine Wp.andThen (hk _) (fun a g hg => ?_) fun _ _ _ _ h => by cases h
    rw [hg rfl]
    exact Wp.andThen (hv _ _) (fun a g hg => by rw [hg rfl]; exact ih _) fun _ _ _ _ h => by cases h

theorem wp_rlast {α : Type} {act : String} {tt : WType} {t : TypeId} {o : ROp} {old v : α} {l g : List Want} (h : allowed g o = true) (ha : ∀ a, afterCall o a g.tail = l) :
    Wp watch (Leaves l) (rcall act tt t o old fun _ => .ret (v, none)) g :=
  Wp.rcall h (fun a _ _ => ha a) fun _ h => by cases h

theorem wp_rcall {α : Type} {act : String} {tt : WType} {t : TypeId} {o : ROp} {old : α} {k : o.Ans → UProg α} {l g : List Want} (h : allowed g o = true)
    (hk : ∀ a, Wp watch (Leaves l) (k a) (afterCall o a g.tail)) : Wp watch (Leaves l) (rcall act tt t o old k) g :=
  Wp.rcall h (fun a _ => hk a) fun _ h => by cases h

theorem wp_leaf (env : Env) (t : TypeId) (le : Leaf) (old : GoVal) (wt : WType) (l : List Want) : Wp watch (Leaves l) (unmarshalLeaf env t le old wt) (.value wt :: l) := by
  unfold unmarshalLeaf
  split
  · intro h; cases h
  · rename_i hw
    obtain rfl : wt = le.wireType := Decidable.not_not.1 hw
    cases le with
    | bytes =>
      cases old with
      | bytes b => exact wp_rcall rfl fun _ => fun _ => rfl
      | _ => trivial
    | _ => exact wp_rcall rfl fun _ => fun _ => rfl

theorem loopCount_neg {n : BitVec 64} (h : ¬ n.toInt > 0) : loopCount n = 0 := by
  simp only [loopCount]
  omega

theorem wp_unmarshal (env : Env) (sk fuel : Nat) :
    (∀ a old wt l, Wp watch (Leaves l) (unmarshal env sk fuel a old wt) (.value wt :: l)) ∧
    (∀ t fs vals l, Wp watch (Leaves l) (unmarshalFields env sk fuel t fs vals) (.fieldHeader :: l)) := by
  induction fuel with
  | zero => exact ⟨fun _ _ _ _ => by rw [unmarshal]; trivial, fun _ _ _ _ => by rw [unmarshalFields]; trivial⟩
  | succ fuel ih =>
    obtain ⟨ih1, ih2⟩ := ih
    constructor
    · intro a old wt l
      cases a with
      | leaf t l => rw [unmarshal]; exact wp_leaf _ _ _ _ _ _
      | struct t =>
        rw [unmarshal]
        refine Wp.elim (.inr trivial) fun r _ => ?_
        cases r with
        | error e => intro h; cases h
        | ok fs =>
          dsimp only
          split
          · intro h; cases h
          · rename_i hw
            obtain rfl := Decidable.not_not.1 hw
            split
            · trivial
            · exact wp_rcall rfl fun _ => ih2 _ _ _ _
      | map t ka ea =>
        rw [unmarshal, unmarshalMap]
        split
        · intro h; cases h
        · rename_i hw
          obtain rfl := Decidable.not_not.1 hw
          split
          · trivial
          · refine wp_rcall rfl fun hd => ?_
            simp only [afterCall, List.tail_cons]
            split
            · refine Wp.andThen (wp_mapLoop (fun _ => ih1 _ _ _ _) (fun _ _ => ih1 _ _ _ _) _ _ _ (.exactly .mapEnd :: l)) (fun a g hg => ?_) fun _ _ _ _ h => by cases h
              rw [hg rfl]
              exact wp_rlast rfl fun _ => rfl
            · rename_i hn
              rw [loopCount_neg hn]
              exact wp_rlast rfl fun _ => rfl
      | seq t isSet ea =>
        have body : ∀ (hd : SetHeader) (o : ROp) (fin : GoVal → UProg GoVal), (∀ v, Wp watch (Leaves l) (fin v) (.exactly o :: l)) →
            Wp watch (Leaves l) (seqBody env t ea.typ (fun wt v => unmarshal env sk fuel ea v wt) old hd fin) (List.replicate (loopCount hd.size) (.value hd.element) ++ .exactly o :: l) := by
          intro hd o fin hfin
          rw [seqBody]
          split
          · refine Wp.andThen (wp_seqLoop (fun _ _ => ih1 _ _ _ _) _ _ _ _ _ _ (.exactly o :: l)) (fun a g hg => ?_) fun _ _ _ _ h => by cases h
            rw [hg rfl]
            exact hfin _
          · rename_i hn
            rw [loopCount_neg hn]
            exact hfin _
        rw [unmarshal, unmarshalSeq]
        cases isSet with
        | true =>
          simp only [if_true]
          split
          · intro h; cases h
          · rename_i hw
            obtain rfl := Decidable.not_not.1 hw
            split
            · trivial
            · exact wp_rcall rfl fun hd => body hd .setEnd _ fun v => wp_rlast rfl fun _ => rfl
        | false =>
          simp only [Bool.false_eq_true, if_false]
          split
          · intro h; cases h
          · rename_i hw
            obtain rfl := Decidable.not_not.1 hw
            split
            · trivial
            · exact wp_rcall rfl fun hd => body hd .listEnd _ fun v => wp_rlast rfl fun _ => rfl
      | ptr t ea =>
        rw [unmarshal]
        split
        · trivial
        · exact Wp.andThen (ih1 _ _ _ _) (fun _ _ hg _ => hg rfl) fun _ _ _ _ h => by cases h
      | invalid t => rw [unmarshal]; intro h; cases h
    · intro t fs vals l
      rw [unmarshalFields]
      refine wp_rcall rfl fun hd => ?_
      simp only [afterCall, List.tail_cons]
      by_cases hs : hd.type = Ty.stop
      · rw [if_pos hs, if_pos hs]; exact wp_rlast rfl fun _ => rfl
      · rw [if_neg hs, if_neg hs]
        have next : ∀ vals, Wp watch (Leaves l) (rcall "ReadFieldEnd" Ty.struct t .fieldEnd (.struct vals) fun _ => unmarshalFields env sk fuel t fs vals) (.exactly .fieldEnd :: .fieldHeader :: l) :=
          fun vals => wp_rcall rfl fun _ => ih2 _ _ _ _
        split
        · refine Wp.bind ((wp_skip sk).1 hd.type _) fun e g he => ?_
          cases e with
          | none => rw [he rfl]; exact next vals
          | some e => intro h; cases h
        · split
          · trivial
          · refine Wp.andThen (ih1 _ _ _ _) (fun a g hg => ?_) fun _ _ _ _ h => by cases h
            rw [hg rfl]
            exact next _

end GoThrift
