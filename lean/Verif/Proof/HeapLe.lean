import Verif.Model.Heap
import Verif.Proof.Le

/-!
# More fuel does not change what Unmarshal does in memory
-/

namespace GoThrift

open RProg

theorem orPanic_le {α β : Type} (x : Option α) {k k' : α → RProg β} (h : ∀ a, Le (k a) (k' a)) : Le (orPanic x k) (orPanic x k') := by
  cases x with
  | none => exact .panic
  | some a => exact h a

theorem hseqLoop_le (env : Env) (t et : TypeId) (p : Place) {u u' : Place → Heap → UProg Heap} (hu : ∀ q h, Le (u q h) (u' q h)) (n i cap : Nat) (mz : Bool) (h : Heap) :
    Le (hseqLoop env t et p u n i cap mz h) (hseqLoop env t et p u' n i cap mz h) := by
  induction n generalizing i cap mz h with
  | zero => exact .refl _
  | succ n ih =>
    rw [hseqLoop, hseqLoop]
    refine orPanic_le _ fun h => orPanic_le _ fun s => .ite ?_ (.refl _)
    refine (hu _ _).bind fun r => ?_
    obtain ⟨h1, e⟩ := r
    cases e with
    | some e => exact .refl _
    | none => exact ih _ _ _ _

theorem hseqBody_le (env : Env) (t et : TypeId) {u u' : WType → Place → Heap → UProg Heap} (hu : ∀ wt q h, Le (u wt q h) (u' wt q h)) (p : Place) (s : Option SliceRef) (h : Heap)
    (hd : SetHeader) (fin : Heap → UProg Heap) : Le (hseqBody env t et u p s h hd fin) (hseqBody env t et u' p s h hd fin) :=
  .ite (orPanic_le _ fun _ => uandThen_le (hseqLoop_le env t et p (hu _) _ _ _ _ _) _ fun _ => .refl _) (.refl _)

theorem hunmarshalSeq_le (env : Env) (t : TypeId) (isSet : Bool) (et : TypeId) {u u' : WType → Place → Heap → UProg Heap} (hu : ∀ wt q h, Le (u wt q h) (u' wt q h)) (p : Place) (wt : WType)
    (h : Heap) : Le (hunmarshalSeq env t isSet et u p wt h) (hunmarshalSeq env t isSet et u' p wt h) := by
  rw [hunmarshalSeq, hunmarshalSeq]
  refine .ite (.refl _) ?_
  split
  · exact .ite (rcall_le _ _ _ _ _ fun hd => hseqBody_le env t et hu _ _ _ _ _) (rcall_le _ _ _ _ _ fun hd => hseqBody_le env t et hu _ _ _ _ _)
  · exact .refl _

theorem hmapLoop_le (env : Env) (kt et : TypeId) (p : Place) (k v : Loc) {uk uk' uv uv' : Place → Heap → UProg Heap} (hk : ∀ q h, Le (uk q h) (uk' q h)) (hv : ∀ q h, Le (uv q h) (uv' q h))
    (n : Nat) (h : Heap) : Le (hmapLoop env kt et p k v uk uv n h) (hmapLoop env kt et p k v uk' uv' n h) := by
  induction n generalizing h with
  | zero => exact .refl _
  | succ n ih =>
    rw [hmapLoop, hmapLoop]
    refine uandThen_le (hk _ _) _ fun h => orPanic_le _ fun kv => orPanic_le _ fun es => (hv _ _).bind fun r => orPanic_le _ fun _ => orPanic_le _ fun _ => orPanic_le _ fun h => ?_
    obtain ⟨h1, e⟩ := r
    cases e with
    | some e => exact .refl _
    | none => exact ih _

theorem hunmarshalMap_le (env : Env) (t kt et : TypeId) {uk uk' uv uv' : WType → Place → Heap → UProg Heap} (hk : ∀ wt q h, Le (uk wt q h) (uk' wt q h))
    (hv : ∀ wt q h, Le (uv wt q h) (uv' wt q h)) (p : Place) (wt : WType) (h : Heap) : Le (hunmarshalMap env t kt et uk uv p wt h) (hunmarshalMap env t kt et uk' uv' p wt h) := by
  rw [hunmarshalMap, hunmarshalMap]
  refine .ite (.refl _) ?_
  split
  · exact rcall_le _ _ _ _ _ fun hd => .ite (uandThen_le (hmapLoop_le env kt et p _ _ (hk _) (hv _) _ _) _ fun _ => .refl _) (.refl _)
  · exact .refl _

theorem hunmarshal_le (env : Env) (sk sk' : Nat) (hsk : sk ≤ sk') (n m : Nat) (h : n ≤ m) :
    (∀ a p wt h, Le (hunmarshal env sk n a p wt h) (hunmarshal env sk' m a p wt h)) ∧
    (∀ t fs p h, Le (hunmarshalFields env sk n t fs p h) (hunmarshalFields env sk' m t fs p h)) := by
  induction n generalizing m with
  | zero => exact ⟨fun _ _ _ _ => by rw [hunmarshal]; exact .diverge _, fun _ _ _ _ => by rw [hunmarshalFields]; exact .diverge _⟩
  | succ n ih =>
    obtain ⟨m, rfl⟩ : ∃ m', m = m' + 1 := ⟨m - 1, by omega⟩
    obtain ⟨ih1, ih2⟩ := ih m (by omega)
    constructor
    · intro a p wt h
      cases a with
      | leaf t l => rw [hunmarshal, hunmarshal]; exact .refl _
      | struct t =>
        rw [hunmarshal, hunmarshal]
        try dsimp only
        refine (makeStructFields_le env n m (by omega) t).elimR fun r => ?_
        cases r with
        | error e => exact .refl _
        | ok fs =>
          dsimp only
          refine .ite (.refl _) ?_
          split
          · exact rcall_le _ _ _ _ _ fun _ => ih2 _ _ _ _
          · exact .refl _
      | map t ka ea => rw [hunmarshal, hunmarshal]; exact hunmarshalMap_le env _ _ _ (fun wt q h => ih1 _ _ _ _) (fun wt q h => ih1 _ _ _ _) _ _ _
      | seq t isSet ea => rw [hunmarshal, hunmarshal]; exact hunmarshalSeq_le env _ _ _ (fun wt q h => ih1 _ _ _ _) _ _ _
      | ptr t ea =>
        rw [hunmarshal, hunmarshal]
        try dsimp only
        split
        · exact ih1 _ _ _ _
        · exact ih1 _ _ _ _
        · exact .refl _
      | invalid t => rw [hunmarshal, hunmarshal]; exact .refl _
    · intro t fs p h
      rw [hunmarshalFields, hunmarshalFields]
      refine rcall_le _ _ _ _ _ fun hd => .ite (.refl _) ?_
      have next : ∀ h, Le (rcall "ReadFieldEnd" Ty.struct t .fieldEnd h fun _ => hunmarshalFields env sk n t fs p h)
          (rcall "ReadFieldEnd" Ty.struct t .fieldEnd h fun _ => hunmarshalFields env sk' m t fs p h) :=
        fun h => rcall_le _ _ _ _ _ fun _ => ih2 _ _ _ _
      dsimp only
      split
      · refine ((skip_le sk sk' hsk).1 _).bind fun e => ?_
        cases e with
        | none => exact next _
        | some e => exact .ret _
      · split
        · exact .refl _
        · exact uandThen_le (ih1 _ _ _ _) _ fun _ => next _

theorem HUnmarshal_le (env : Env) (n m : Nat) (h : n ≤ m) (x : HAny) (hp : Heap) : Le (HUnmarshal env n x hp) (HUnmarshal env m x hp) := by
  cases x with
  | nil => exact .refl _
  | val t v =>
    simp only [HUnmarshal]
    split
    · exact .refl _
    · split
      · exact (lookupArshaler_le env n m h _).elimR fun a => (hunmarshal_le env n m h n m h).1 _ _ _ _
      · exact .refl _

end GoThrift
