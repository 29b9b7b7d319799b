import Verif.Model.Arshal

/-!
# More fuel does not change a result

`Le p q`: `q` behaves as `p` wherever `p` does not run out of fuel.
-/

namespace GoThrift

/-! ## Outcomes -/

/-- `y` equals `x` unless `x` ran out of fuel. -/
def OLe {α : Type} (x y : Out α) : Prop := x = .diverged ∨ x = y

theorem OLe.refl {α : Type} (x : Out α) : OLe x x := .inr rfl

theorem OLe.bind {α β : Type} {x y : Out α} {f g : α → Out β} (h : OLe x y) (hf : ∀ a, OLe (f a) (g a)) : OLe (x.bind f) (y.bind g) := by
  rcases h with rfl | rfl
  · exact .inl rfl
  · cases x with
    | done a => exact hf a
    | blocked => exact .inr rfl
    | diverged => exact .inl rfl
    | panicked => exact .inr rfl

theorem OLe.done {α : Type} {x y : Out α} {a : α} (h : OLe x y) (hx : x = .done a) : y = .done a := by
  rcases h with rfl | rfl
  · cases hx
  · exact hx

theorem OLe.trans {α : Type} {x y z : Out α} (h1 : OLe x y) (h2 : OLe y z) : OLe x z := by
  rcases h1 with rfl | rfl
  · exact .inl rfl
  · exact h2

/-! ## Reader programs -/

/-- See the head of this file. -/
inductive RProg.Le {α : Type} : RProg α → RProg α → Prop where
  | diverge (q : RProg α) : Le .diverge q
  | ret (a : α) : Le (.ret a) (.ret a)
  | panic : Le .panic .panic
  | call (o : ROp) (k k' : Except Err o.Ans → RProg α) : (∀ x, Le (k x) (k' x)) → Le (.call o k) (.call o k')

namespace RProg

theorem Le.refl {α : Type} (p : RProg α) : Le p p := by
  induction p with
  | ret a => exact .ret a
  | diverge => exact .diverge _
  | panic => exact .panic
  | call o k ih => exact .call o k k ih

theorem Le.bind {α β : Type} {p q : RProg α} {f g : α → RProg β} (h : Le p q) (hf : ∀ a, Le (f a) (g a)) : Le (p.bind f) (q.bind g) := by
  induction h with
  | diverge q => exact .diverge _
  | ret a => exact hf a
  | panic => exact .panic
  | call o k k' _ ih => exact .call o _ _ ih

theorem Le.run {α S : Type} {p q : RProg α} (h : Le p q) (r : Rdr S) (s : S) : OLe (p.run r s) (q.run r s) := by
  induction h generalizing s with
  | diverge q => exact .inl rfl
  | ret a => exact .inr rfl
  | panic => exact .inr rfl
  | call o k k' _ ih => exact (OLe.refl _).bind fun x => ih _ _

theorem Le.ite {α : Type} {c : Prop} [Decidable c] {p p' q q' : RProg α} (h1 : Le p p') (h2 : Le q q') :
    Le (if c then p else q) (if c then p' else q') := by
  by_cases h : c
  · rw [if_pos h, if_pos h]; exact h1
  · rw [if_neg h, if_neg h]; exact h2

theorem Le.try' (o : ROp) {k k' : o.Ans → RProg (Option Err)} (h : ∀ a, Le (k a) (k' a)) : Le (RProg.try' o k) (RProg.try' o k') := by
  refine .call o _ _ fun x => ?_
  cases x with
  | ok a => exact h a
  | error e => exact .ret _

theorem Le.andThen {p p' q q' : RProg (Option Err)} (h1 : Le p p') (h2 : Le q q') : Le (p.andThen q) (p'.andThen q') := by
  refine h1.bind fun e => ?_
  cases e with
  | none => exact h2
  | some e => exact .ret _

theorem Le.loop {p p' q q' : RProg (Option Err)} (h1 : Le p p') (h2 : Le q q') (n : Nat) : Le (RProg.loop n p q) (RProg.loop n p' q') := by
  induction n with
  | zero => exact h2
  | succ n ih => exact h1.andThen ih

end RProg

open RProg in
theorem skip_le (n m : Nat) (h : n ≤ m) : (∀ t, Le (skip n t) (skip m t)) ∧ Le (skipFields n) (skipFields m) := by
  induction n generalizing m with
  | zero => exact ⟨fun t => by rw [skip]; exact .diverge _, by rw [skipFields]; exact .diverge _⟩
  | succ n ih =>
    obtain ⟨m, rfl⟩ : ∃ m', m = m' + 1 := ⟨m - 1, by omega⟩
    have ih := ih m (by omega)
    refine ⟨fun t => ?_, ?_⟩
    · rw [skip, skip]
      refine .ite (.refl _) (.ite (.refl _) (.ite (.refl _) (.ite (.refl _) (.ite (.refl _) (.ite (.refl _) (.ite (.refl _) ?_))))))
      refine .ite (.try' _ fun _ => ih.2) (.ite (.try' _ fun h => .loop ((ih.1 _).andThen (ih.1 _)) (.refl _) _) ?_)
      refine .ite (.try' _ fun h => .loop (ih.1 _) (.refl _) _) (.ite (.try' _ fun h => .loop (ih.1 _) (.refl _) _) ?_)
      exact .ite (.refl _) (.refl _)
    · rw [skipFields, skipFields]
      exact .try' _ fun h => .ite (.refl _) ((ih.1 _).andThen (.try' _ fun _ => ih.2))

/-! ## Writer programs -/

/-- See the head of this file. -/
inductive WProg.Le : WProg → WProg → Prop where
  | diverge (q : WProg) : Le .diverge q
  | ret (e : Option Err) : Le (.ret e) (.ret e)
  | panic : Le .panic .panic
  | call (o : WOp) (k k' : Option Err → WProg) : (∀ x, Le (k x) (k' x)) → Le (.call o k) (.call o k')

namespace WProg

theorem Le.refl (p : WProg) : Le p p := by
  induction p with
  | ret a => exact .ret a
  | diverge => exact .diverge _
  | panic => exact .panic
  | call o k ih => exact .call o k k ih

theorem Le.andThen {p q p' q' : WProg} (h : Le p p') (hq : Le q q') : Le (p.andThen q) (p'.andThen q') := by
  induction h with
  | diverge q => exact .diverge _
  | ret e => cases e with
    | none => exact hq
    | some e => exact .ret _
  | panic => exact .panic
  | call o k k' _ ih => exact .call o _ _ ih

theorem Le.run {S : Type} {p q : WProg} (h : Le p q) (w : Wtr S) (s : S) : OLe (p.run w s) (q.run w s) := by
  induction h generalizing s with
  | diverge q => exact .inl rfl
  | ret a => exact .inr rfl
  | panic => exact .inr rfl
  | call o k k' _ ih => exact (OLe.refl _).bind fun x => ih _ _

end WProg

/-! ## Arshalers -/

theorem lookupArshaler_le (env : Env) (n m : Nat) (h : n ≤ m) (t : TypeId) : OLe (lookupArshaler env n t) (lookupArshaler env m t) := by
  induction n generalizing m t with
  | zero => exact .inl rfl
  | succ n ih =>
    obtain ⟨m, rfl⟩ : ∃ m', m = m' + 1 := ⟨m - 1, by omega⟩
    have ih := fun t => ih m (by omega) t
    rw [lookupArshaler, lookupArshaler]
    cases (env.type t).kind with
    | map k e => exact (ih k).bind fun _ => (ih e).bind fun _ => .refl _
    | slice e =>
      dsimp only
      split
      · exact (ih e).bind fun _ => .refl _
      · split
        · exact (ih e).bind fun _ => .refl _
        · split
          · exact .refl _
          · exact (ih e).bind fun _ => .refl _
    | ptr e => exact (ih e).bind fun _ => .refl _
    | _ => exact .refl _

theorem OLe.elimR {α β : Type} {x y : Out α} (h : OLe x y) {k k' : α → RProg β} (hk : ∀ a, RProg.Le (k a) (k' a)) :
    RProg.Le (x.elim .panic .diverge k) (y.elim .panic .diverge k') := by
  rcases h with rfl | rfl
  · exact .diverge _
  · cases x with
    | done a => exact hk a
    | blocked => exact .diverge _
    | diverged => exact .diverge _
    | panicked => exact .panic

theorem OLe.elimW {α : Type} {x y : Out α} (h : OLe x y) {k k' : α → WProg} (hk : ∀ a, WProg.Le (k a) (k' a)) :
    WProg.Le (x.elim .panic .diverge k) (y.elim .panic .diverge k') := by
  rcases h with rfl | rfl
  · exact .diverge _
  · cases x with
    | done a => exact hk a
    | blocked => exact .diverge _
    | diverged => exact .diverge _
    | panicked => exact .panic

theorem fieldLoop_le (env : Env) (n m : Nat) (h : n ≤ m) (t : TypeId) (i : Nat) (sfs : List FieldDecl) :
    OLe (fieldLoop env n t i sfs) (fieldLoop env m t i sfs) := by
  induction sfs generalizing i with
  | nil => exact .refl _
  | cons sf sfs ih =>
    rw [fieldLoop, fieldLoop]
    refine (OLe.refl _).bind fun r => ?_
    obtain ⟨opts, ignored, err⟩ := r
    dsimp only
    cases err with
    | some e => exact .refl _
    | none =>
      dsimp only
      split
      · exact ih _
      · refine (lookupArshaler_le env n m h _).bind fun a => (ih _).bind fun r => ?_
        cases r <;> exact .refl _

theorem makeStructFields_le (env : Env) (n m : Nat) (h : n ≤ m) (t : TypeId) : OLe (makeStructFields env n t) (makeStructFields env m t) := by
  refine (fieldLoop_le env n m h t _ _).bind fun r => ?_
  cases r <;> exact .refl _

/-! ## Marshal -/

open WProg

theorem wcall_le (act : String) (tt : WType) (t : TypeId) (o : WOp) {k k' : WProg} (h : WProg.Le k k') :
    WProg.Le (wcall act tt t o k) (wcall act tt t o k') := by
  refine .call o _ _ fun x => ?_
  cases x with
  | none => exact h
  | some e => exact .ret _

theorem marshalElems_le {m m' : GoVal → WProg} (hm : ∀ v, WProg.Le (m v) (m' v)) {k k' : WProg} (hk : WProg.Le k k') (vs : List GoVal) :
    WProg.Le (marshalElems m k vs) (marshalElems m' k' vs) := by
  induction vs with
  | nil => exact hk
  | cons v vs ih => exact (hm v).andThen ih

theorem marshalEntries_le {m m' n n' : GoVal → WProg} (hm : ∀ v, WProg.Le (m v) (m' v)) (hn : ∀ v, WProg.Le (n v) (n' v)) {k k' : WProg}
    (hk : WProg.Le k k') (es : List (GoVal × GoVal)) : WProg.Le (marshalEntries m n k es) (marshalEntries m' n' k' es) := by
  induction es with
  | nil => exact hk
  | cons e es ih => exact (hm _).andThen ((hn _).andThen ih)

theorem marshalFields_le (env : Env) {m m' : Arsh → GoVal → WProg} (hm : ∀ a v, WProg.Le (m a v) (m' a v)) (t : TypeId) (vals : List GoVal)
    {k k' : WProg} (hk : WProg.Le k k') (fs : List SField) : WProg.Le (marshalFields env m t vals k fs) (marshalFields env m' t vals k' fs) := by
  induction fs with
  | nil => exact hk
  | cons f fs ih =>
    rw [marshalFields, marshalFields]
    split
    · exact .refl _
    · split
      · exact .refl _
      · split
        · exact ih
        · exact wcall_le _ _ _ _ ((hm _ _).andThen (wcall_le _ _ _ _ ih))

theorem marshalSeq_le (t : TypeId) (isSet : Bool) (et : WType) {m m' : GoVal → WProg} (hm : ∀ v, WProg.Le (m v) (m' v)) (vs : List GoVal) :
    WProg.Le (marshalSeq t isSet et m vs) (marshalSeq t isSet et m' vs) := by
  rw [marshalSeq, marshalSeq]
  split
  · exact wcall_le _ _ _ _ (marshalElems_le hm (.refl _) vs)
  · exact wcall_le _ _ _ _ (marshalElems_le hm (.refl _) vs)

theorem marshal_le (env : Env) (n m : Nat) (h : n ≤ m) (a : Arsh) (v : GoVal) : WProg.Le (marshal env n a v) (marshal env m a v) := by
  induction n generalizing m a v with
  | zero => exact .diverge _
  | succ n ih =>
    obtain ⟨m, rfl⟩ : ∃ m', m = m' + 1 := ⟨m - 1, by omega⟩
    have ih := fun a v => ih m (by omega) a v
    cases a with
    | leaf t l => rw [marshal, marshal]; exact .refl _
    | struct t =>
      rw [marshal, marshal]
      try dsimp only
      refine (makeStructFields_le env n m (by omega) t).elimW fun r => ?_
      cases r with
      | error e => exact .refl _
      | ok fs =>
        dsimp only
        split
        · exact .refl _
        · exact wcall_le _ _ _ _ (marshalFields_le env ih _ _ (.refl _) _)
    | map t ka ea =>
      rw [marshal, marshal]
      try dsimp only
      split
      · exact .refl _
      · split
        · exact .refl _
        · exact wcall_le _ _ _ _ (marshalEntries_le (ih _) (ih _) (.refl _) _)
    | seq t isSet ea =>
      rw [marshal, marshal]
      try dsimp only
      split
      · exact .refl _
      · split
        · exact .refl _
        · exact marshalSeq_le _ _ _ (ih _) _
    | ptr t ea =>
      rw [marshal, marshal]
      try dsimp only
      split
      · exact .refl _
      · exact ih _ _
    | invalid t => rw [marshal, marshal]; exact .refl _

theorem Marshal_le (env : Env) (n m : Nat) (h : n ≤ m) (x : AnyVal) : WProg.Le (Marshal env n x) (Marshal env m x) := by
  cases x with
  | nil => exact .refl _
  | val t v =>
    simp only [Marshal]
    split
    · exact (lookupArshaler_le env n m h _).elimW fun a => marshal_le env n m h a _
    · split
      · exact .refl _
      · exact (lookupArshaler_le env n m h _).elimW fun a => marshal_le env n m h a _

/-! ## Unmarshal -/

open RProg

theorem rcall_le {α : Type} (act : String) (tt : WType) (t : TypeId) (o : ROp) (old : α) {k k' : o.Ans → UProg α} (h : ∀ a, Le (k a) (k' a)) :
    Le (rcall act tt t o old k) (rcall act tt t o old k') := by
  refine .call o _ _ fun x => ?_
  cases x with
  | ok a => exact h a
  | error e => exact .ret _

theorem uandThen_le {α β : Type} {p p' : UProg α} (h : Le p p') (fail : α → β) {k k' : α → UProg β} (hk : ∀ a, Le (k a) (k' a)) :
    Le (UProg.andThen p fail k) (UProg.andThen p' fail k') := by
  refine h.bind fun r => ?_
  obtain ⟨a, e⟩ := r
  cases e with
  | none => exact hk a
  | some e => exact .ret _

theorem seqLoop_le {u u' : GoVal → UProg GoVal} (hu : ∀ v, Le (u v) (u' v)) (zero : GoVal) (grow : Nat → Nat) (n : Nat) (done rest : List GoVal)
    (mz : Bool) : Le (seqLoop u zero grow n done rest mz) (seqLoop u' zero grow n done rest mz) := by
  induction n generalizing done rest mz with
  | zero => exact .ret _
  | succ n ih =>
    rw [seqLoop, seqLoop]
    split
    · exact .refl _
    · exact uandThen_le (hu _) _ fun _ => ih _ _ _

theorem mapLoop_le {uk uk' : UProg GoVal} {uv uv' : GoVal → UProg GoVal} (hk : Le uk uk') (hv : ∀ v, Le (uv v) (uv' v)) (zero : GoVal) (n : Nat)
    (es : List (GoVal × GoVal)) : Le (mapLoop uk uv zero n es) (mapLoop uk' uv' zero n es) := by
  induction n generalizing es with
  | zero => exact .ret _
  | succ n ih => exact uandThen_le hk _ fun k => uandThen_le (hv _) _ fun v => ih _

theorem unmarshalSeq_le (env : Env) (t : TypeId) (isSet : Bool) (et : TypeId) {u u' : WType → GoVal → UProg GoVal}
    (hu : ∀ wt v, Le (u wt v) (u' wt v)) (old : GoVal) (wt : WType) :
    Le (unmarshalSeq env t isSet et u old wt) (unmarshalSeq env t isSet et u' old wt) := by
  have body : ∀ (h : SetHeader) (fin : GoVal → UProg GoVal), Le (seqBody env t et u old h fin) (seqBody env t et u' old h fin) := by
    intro h fin
    exact .ite (uandThen_le (seqLoop_le (hu _) _ _ _ _ _ _) _ fun _ => .refl _) (.refl _)
  refine .ite (.refl _) (.ite (.refl _) (.ite (rcall_le _ _ _ _ _ fun h => body h _) (rcall_le _ _ _ _ _ fun h => body h _)))

theorem unmarshalMap_le (env : Env) (t kt et : TypeId) {uk uk' uv uv' : WType → GoVal → UProg GoVal} (hk : ∀ wt v, Le (uk wt v) (uk' wt v))
    (hv : ∀ wt v, Le (uv wt v) (uv' wt v)) (old : GoVal) (wt : WType) :
    Le (unmarshalMap env t kt et uk uv old wt) (unmarshalMap env t kt et uk' uv' old wt) := by
  rw [unmarshalMap, unmarshalMap]
  refine .ite (.refl _) ?_
  split
  · exact .refl _
  · exact rcall_le _ _ _ _ _ fun h => .ite (uandThen_le (mapLoop_le (hk _ _) (hv _) _ _ _) _ fun _ => .refl _) (.refl _)

theorem unmarshal_le (env : Env) (sk sk' : Nat) (hsk : sk ≤ sk') (n m : Nat) (h : n ≤ m) :
    (∀ a old wt, Le (unmarshal env sk n a old wt) (unmarshal env sk' m a old wt)) ∧
    (∀ t fs vals, Le (unmarshalFields env sk n t fs vals) (unmarshalFields env sk' m t fs vals)) := by
  induction n generalizing m with
  | zero => exact ⟨fun _ _ _ => by rw [unmarshal]; exact .diverge _, fun _ _ _ => by rw [unmarshalFields]; exact .diverge _⟩
  | succ n ih =>
    obtain ⟨m, rfl⟩ : ∃ m', m = m' + 1 := ⟨m - 1, by omega⟩
    obtain ⟨ih1, ih2⟩ := ih m (by omega)
    constructor
    · intro a old wt
      cases a with
      | leaf t l => rw [unmarshal, unmarshal]; exact .refl _
      | struct t =>
        rw [unmarshal, unmarshal]
        try dsimp only
        refine (makeStructFields_le env n m (by omega) t).elimR fun r => ?_
        cases r with
        | error e => exact .refl _
        | ok fs =>
          dsimp only
          refine .ite (.refl _) ?_
          split
          · exact .refl _
          · exact rcall_le _ _ _ _ _ fun _ => ih2 _ _ _
      | map t ka ea => rw [unmarshal, unmarshal]; exact unmarshalMap_le env _ _ _ (fun wt v => ih1 _ _ _) (fun wt v => ih1 _ _ _) _ _
      | seq t isSet ea => rw [unmarshal, unmarshal]; exact unmarshalSeq_le env _ _ _ (fun wt v => ih1 _ _ _) _ _
      | ptr t ea =>
        rw [unmarshal, unmarshal]
        try dsimp only
        split
        · exact .refl _
        · exact uandThen_le (ih1 _ _ _) _ fun _ => .refl _
      | invalid t => rw [unmarshal, unmarshal]; exact .refl _
    · intro t fs vals
      rw [unmarshalFields, unmarshalFields]
      refine rcall_le _ _ _ _ _ fun h => .ite (.refl _) ?_
      have next : ∀ vals, Le (rcall "ReadFieldEnd" Ty.struct t .fieldEnd (GoVal.struct vals) fun _ => unmarshalFields env sk n t fs vals)
          (rcall "ReadFieldEnd" Ty.struct t .fieldEnd (GoVal.struct vals) fun _ => unmarshalFields env sk' m t fs vals) :=
        fun vals => rcall_le _ _ _ _ _ fun _ => ih2 _ _ _
      dsimp only
      split
      · refine ((skip_le sk sk' hsk).1 _).bind fun e => ?_
        cases e with
        | none => exact next _
        | some e => exact .ret _
      · split
        · exact .refl _
        · exact uandThen_le (ih1 _ _ _) _ fun _ => next _

theorem Unmarshal_le (env : Env) (n m : Nat) (h : n ≤ m) (x : AnyVal) : Le (Unmarshal env n x) (Unmarshal env m x) := by
  cases x with
  | nil => exact .refl _
  | val t v =>
    simp only [Unmarshal]
    split
    · exact .refl _
    · split
      · exact .refl _
      · exact (lookupArshaler_le env n m h _).elimR fun a => uandThen_le ((unmarshal_le env n m h n m h).1 _ _ _) _ fun _ => .refl _

end GoThrift
