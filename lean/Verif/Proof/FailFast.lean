import Verif.Spec.Arshal
import Verif.Proof.Robust

/-!
# Marshal and Unmarshal stop at the first failing call
-/

namespace GoThrift

open Spec

/-! ## Marshal -/

/-- The error Marshal makes of an error of a Writer call. -/
def Wraps (o : WOp) (e : Err) (x : Option Err) : Prop := ∃ tt t, x = some (.semanticE .marshal tt (some t) (.wire (methodName o) e))

/-- After a failed call the program returns that call's error, wrapped. -/
def Wrapped : WProg → Prop
  | .ret _ | .diverge | .panic => True
  | .call o k => (∀ e, ∃ x, k (some e) = .ret x ∧ Wraps o e x) ∧ Wrapped (k none)

theorem Wrapped.andThen {p q : WProg} (hp : Wrapped p) (hq : Wrapped q) : Wrapped (p.andThen q) := by
  induction p with
  | ret e => cases e with
    | none => exact hq
    | some e => trivial
  | diverge => trivial
  | panic => trivial
  | call o k ih =>
    refine ⟨fun e => ?_, ih none hp.2⟩
    obtain ⟨x, h1, h2⟩ := hp.1 e
    refine ⟨x, ?_, h2⟩
    dsimp only
    rw [h1]
    obtain ⟨tt, t, rfl⟩ := h2
    rfl

theorem wrapped_ret (e : Option Err) : Wrapped (.ret e) := trivial

theorem wrapped_wcall (act : String) (tt : WType) (t : TypeId) (o : WOp) (ho : methodName o = act) {k : WProg} (hk : Wrapped k) :
    Wrapped (wcall act tt t o k) :=
  ⟨fun e => ⟨_, rfl, tt, t, by rw [ho]⟩, hk⟩

theorem wrapped_leaf (env : Env) (t : TypeId) (l : Leaf) (v : GoVal) : Wrapped (marshalLeaf env t l v) := by
  unfold marshalLeaf
  split
  all_goals first
    | exact wrapped_wcall _ _ _ _ rfl (wrapped_ret _)
    | trivial

theorem wrapped_elems {m : GoVal → WProg} (hm : ∀ v, Wrapped (m v)) {k : WProg} (hk : Wrapped k) (vs : List GoVal) :
    Wrapped (marshalElems m k vs) := by
  induction vs with
  | nil => exact hk
  | cons v vs ih => exact (hm v).andThen ih

theorem wrapped_entries {mk mv : GoVal → WProg} (hmk : ∀ v, Wrapped (mk v)) (hmv : ∀ v, Wrapped (mv v)) {k : WProg} (hk : Wrapped k)
    (es : List (GoVal × GoVal)) : Wrapped (marshalEntries mk mv k es) := by
  induction es with
  | nil => exact hk
  | cons e es ih => exact (hmk _).andThen ((hmv _).andThen ih)

theorem wrapped_fields (env : Env) {m : Arsh → GoVal → WProg} (hm : ∀ a v, Wrapped (m a v)) (t : TypeId) (vals : List GoVal) {k : WProg}
    (hk : Wrapped k) (fs : List SField) : Wrapped (marshalFields env m t vals k fs) := by
  induction fs with
  | nil => exact hk
  | cons f fs ih =>
    rw [marshalFields]
    split
    · trivial
    · split
      · trivial
      · split
        · exact ih
        · exact wrapped_wcall _ _ _ _ rfl ((hm _ _).andThen (wrapped_wcall _ _ _ _ rfl ih))

theorem wrapped_seq (t : TypeId) (isSet : Bool) (et : WType) {m : GoVal → WProg} (hm : ∀ v, Wrapped (m v)) (vs : List GoVal) :
    Wrapped (marshalSeq t isSet et m vs) := by
  rw [marshalSeq]
  split
  · exact wrapped_wcall _ _ _ _ rfl (wrapped_elems hm (wrapped_wcall _ _ _ _ rfl (wrapped_ret _)) vs)
  · exact wrapped_wcall _ _ _ _ rfl (wrapped_elems hm (wrapped_wcall _ _ _ _ rfl (wrapped_ret _)) vs)

theorem wrapped_elim {α : Type} (x : Out α) {k : α → WProg} (hk : ∀ a, Wrapped (k a)) : Wrapped (x.elim .panic .diverge k) := by
  cases x with
  | done a => exact hk a
  | blocked => trivial
  | diverged => trivial
  | panicked => trivial

theorem wrapped_marshal (env : Env) (fuel : Nat) (a : Arsh) (v : GoVal) : Wrapped (marshal env fuel a v) := by
  induction fuel generalizing a v with
  | zero => trivial
  | succ fuel ih =>
    cases a with
    | leaf t l => rw [marshal]; exact wrapped_leaf env t l v
    | struct t =>
      rw [marshal]
      refine wrapped_elim _ fun r => ?_
      cases r with
      | error e => trivial
      | ok fs =>
        dsimp only
        split
        · trivial
        · exact wrapped_wcall _ _ _ _ rfl (wrapped_fields env ih _ _ (wrapped_wcall _ _ _ _ rfl (wrapped_ret _)) _)
    | map t ka ea =>
      rw [marshal]
      split
      · trivial
      · split
        · trivial
        · exact wrapped_wcall _ _ _ _ rfl (wrapped_entries (ih _) (ih _) (wrapped_wcall _ _ _ _ rfl (wrapped_ret _)) _)
    | seq t isSet ea =>
      rw [marshal]
      split
      · trivial
      · split
        · trivial
        · exact wrapped_seq _ _ _ (ih _) _
    | ptr t ea =>
      rw [marshal]
      split
      · trivial
      · exact ih _ _
    | invalid t => rw [marshal]; trivial

theorem wrapped_Marshal (env : Env) (fuel : Nat) (x : AnyVal) : Wrapped (Marshal env fuel x) := by
  cases x with
  | nil => trivial
  | val t v =>
    simp only [Marshal]
    split
    · exact wrapped_elim _ fun a => wrapped_marshal env fuel a _
    · split
      · trivial
      · exact wrapped_elim _ fun a => wrapped_marshal env fuel a _

/-- What the log of a run of a `Wrapped` program looks like. -/
theorem wrapped_run {S : Type} (w : Wtr S) (p : WProg) (hp : Wrapped p) (s s' : S) (log0 log : List (WOp × Option Err)) (e : Option Err)
    (hrun : p.run (loggedW w) (s, log0) = .done (e, (s', log))) (ops0 : List WOp) :
    (∃ os : List WOp, log = log0 ++ os.map (·, none) ∧ p.run okWriter ops0 = .done (e, ops0 ++ os)) ∨
    (∃ os o err, log = log0 ++ os.map (·, none) ++ [(o, some err)] ∧ Wraps o err e ∧
      ∀ e2 ops, p.run okWriter ops0 = .done (e2, ops) → (ops0 ++ os ++ [o]) <+: ops) := by
  induction p generalizing s log0 ops0 with
  | ret x =>
    cases hrun
    exact .inl ⟨[], by simp, by simp [WProg.run]⟩
  | diverge => cases hrun
  | panic => cases hrun
  | call o k ih =>
    rw [WProg.run] at hrun
    simp only [loggedW] at hrun
    cases hstep : w.step o s with
    | done x =>
      obtain ⟨a, s1⟩ := x
      rw [hstep] at hrun
      simp only [Out.bind_done] at hrun
      cases a with
      | some err =>
        obtain ⟨y, h1, h2⟩ := hp.1 err
        rw [h1] at hrun
        cases hrun
        refine .inr ⟨[], o, err, by simp, h2, fun e2 ops hok => ?_⟩
        rw [WProg.run] at hok
        simp only [okWriter, Out.bind_done] at hok
        have grow : ∀ (p : WProg) (l : List WOp) e ops, p.run okWriter l = .done (e, ops) → l <+: ops := by
          intro p
          induction p with
          | ret x => intro l e ops h; cases h; exact List.prefix_refl _
          | diverge => intro l e ops h; cases h
          | panic => intro l e ops h; cases h
          | call o k ih =>
            intro l e ops h
            rw [WProg.run] at h
            simp only [okWriter, Out.bind_done] at h
            exact (List.prefix_append l [o]).trans (ih none _ _ _ h)
        rw [List.append_nil]
        exact grow _ _ _ _ hok
      | none =>
        rcases ih none hp.2 s1 (log0 ++ [(o, none)]) hrun (ops0 ++ [o]) with ⟨os, h1, h2⟩ | ⟨os, o', err, h1, h2, h3⟩
        · refine .inl ⟨o :: os, by rw [h1]; simp, ?_⟩
          rw [WProg.run]
          simp only [okWriter, Out.bind_done]
          rw [show ops0 ++ o :: os = ops0 ++ [o] ++ os by simp]
          exact h2
        · refine .inr ⟨o :: os, o', err, by rw [h1]; simp, h2, fun e2 ops hok => ?_⟩
          rw [WProg.run] at hok
          simp only [okWriter, Out.bind_done] at hok
          rw [show ops0 ++ o :: os ++ [o'] = ops0 ++ [o] ++ os ++ [o'] by simp]
          exact h3 e2 ops hok
    | blocked => rw [hstep] at hrun; cases hrun
    | diverged => rw [hstep] at hrun; cases hrun
    | panicked => rw [hstep] at hrun; cases hrun

/-! ## Unmarshal -/

/-- The result has an error whose chain reaches `e`. -/
def Reports {α : Type} (e : Err) (x : α × Option Err) : Prop := ∃ err, x.2 = some err ∧ Reaches err e

theorem failFast_rcall {α : Type} (act : String) (tt : WType) (t : TypeId) (o : ROp) (old : α) {k : o.Ans → UProg α}
    (hk : ∀ a, FailFast Reports (k a)) : FailFast Reports (rcall act tt t o old k) :=
  ⟨fun e => ⟨_, rfl, _, rfl, .step rfl (.step rfl (.refl _))⟩, hk⟩

theorem failFast_uandThen {α β : Type} {p : UProg α} (hp : FailFast Reports p) (fail : α → β) {k : α → UProg β}
    (hk : ∀ a, FailFast Reports (k a)) : FailFast Reports (UProg.andThen p fail k) := by
  refine FailFast.bind hp (fun r => ?_) fun e r hr => ?_
  · obtain ⟨a, x⟩ := r
    cases x with
    | none => exact hk a
    | some e => trivial
  · obtain ⟨a, x⟩ := r
    obtain ⟨err, rfl, h⟩ := hr
    exact ⟨_, rfl, err, rfl, h⟩

theorem failFast_uleaf (env : Env) (t : TypeId) (l : Leaf) (old : GoVal) (wt : WType) : FailFast Reports (unmarshalLeaf env t l old wt) := by
  unfold unmarshalLeaf
  refine .ite trivial ?_
  cases l with
  | bytes =>
    cases old with
    | bytes b => exact failFast_rcall _ _ _ _ _ fun _ => trivial
    | _ => trivial
  | _ => exact failFast_rcall _ _ _ _ _ fun _ => trivial

theorem failFast_seqLoop {u : GoVal → UProg GoVal} (hu : ∀ v, FailFast Reports (u v)) (zero : GoVal) (grow : Nat → Nat) (n : Nat)
    (done rest : List GoVal) (mz : Bool) : FailFast Reports (seqLoop u zero grow n done rest mz) := by
  induction n generalizing done rest mz with
  | zero => trivial
  | succ n ih =>
    rw [seqLoop]
    split
    · trivial
    · exact failFast_uandThen (hu _) _ fun _ => ih _ _ _

theorem failFast_mapLoop {uk : UProg GoVal} {uv : GoVal → UProg GoVal} (hk : FailFast Reports uk) (hv : ∀ v, FailFast Reports (uv v)) (zero : GoVal)
    (n : Nat) (es : List (GoVal × GoVal)) : FailFast Reports (mapLoop uk uv zero n es) := by
  induction n generalizing es with
  | zero => trivial
  | succ n ih => exact failFast_uandThen hk _ fun _ => failFast_uandThen (hv _) _ fun _ => ih _

theorem failFast_elim {α β : Type} {bad : Err → β → Prop} (x : Out α) {k : α → RProg β} (hk : ∀ a, FailFast bad (k a)) :
    FailFast bad (x.elim .panic .diverge k) := by
  cases x with
  | done a => exact hk a
  | blocked => trivial
  | diverged => trivial
  | panicked => trivial

theorem failFast_unmarshal (env : Env) (sk fuel : Nat) :
    (∀ a old wt, FailFast Reports (unmarshal env sk fuel a old wt)) ∧
    (∀ t fs vals, FailFast Reports (unmarshalFields env sk fuel t fs vals)) := by
  induction fuel with
  | zero => exact ⟨fun _ _ _ => by rw [unmarshal]; trivial, fun _ _ _ => by rw [unmarshalFields]; trivial⟩
  | succ fuel ih =>
    obtain ⟨ih1, ih2⟩ := ih
    constructor
    · intro a old wt
      cases a with
      | leaf t l => rw [unmarshal]; exact failFast_uleaf _ _ _ _ _
      | struct t =>
        rw [unmarshal]
        refine failFast_elim _ fun r => ?_
        cases r with
        | error e => trivial
        | ok fs =>
          dsimp only
          refine .ite trivial ?_
          split
          · trivial
          · exact failFast_rcall _ _ _ _ _ fun _ => ih2 _ _ _
      | map t ka ea =>
        rw [unmarshal, unmarshalMap]
        refine .ite trivial ?_
        split
        · trivial
        · refine failFast_rcall _ _ _ _ _ fun h => .ite ?_ ?_
          · exact failFast_uandThen (failFast_mapLoop (ih1 _ _ _) (fun _ => ih1 _ _ _) _ _ _) _ fun _ => failFast_rcall _ _ _ _ _ fun _ => trivial
          · exact failFast_rcall _ _ _ _ _ fun _ => trivial
      | seq t isSet ea =>
        have body : ∀ (h : SetHeader) (fin : GoVal → UProg GoVal), (∀ v, FailFast Reports (fin v)) →
            FailFast Reports (seqBody env t ea.typ (fun wt v => unmarshal env sk fuel ea v wt) old h fin) := by
          intro h fin hfin
          exact .ite (failFast_uandThen (failFast_seqLoop (fun _ => ih1 _ _ _) _ _ _ _ _ _) _ fun _ => hfin _) (hfin _)
        rw [unmarshal, unmarshalSeq]
        refine .ite trivial (.ite trivial (.ite ?_ ?_))
        · exact failFast_rcall _ _ _ _ _ fun h => body h _ fun _ => failFast_rcall _ _ _ _ _ fun _ => trivial
        · exact failFast_rcall _ _ _ _ _ fun h => body h _ fun _ => failFast_rcall _ _ _ _ _ fun _ => trivial
      | ptr t ea =>
        rw [unmarshal]
        split
        · trivial
        · exact failFast_uandThen (ih1 _ _ _) _ fun _ => trivial
      | invalid t => rw [unmarshal]; trivial
    · intro t fs vals
      rw [unmarshalFields]
      refine failFast_rcall _ _ _ _ _ fun h => .ite (failFast_rcall _ _ _ _ _ fun _ => trivial) ?_
      have next : ∀ vals, FailFast Reports (rcall "ReadFieldEnd" Ty.struct t .fieldEnd (GoVal.struct vals) fun _ => unmarshalFields env sk fuel t fs vals) :=
        fun vals => failFast_rcall _ _ _ _ _ fun _ => ih2 _ _ _
      dsimp only
      split
      · refine FailFast.bind ((failFast_skip sk).1 _) (fun x => ?_) fun e x hx => ?_
        · cases x with
          | none => exact next _
          | some e => trivial
        · cases hx
          exact ⟨_, rfl, e, rfl, .refl _⟩
      · split
        · trivial
        · exact failFast_uandThen (ih1 _ _ _) _ fun _ => next _

theorem failFast_Unmarshal (env : Env) (fuel : Nat) (x : AnyVal) : FailFast Reports (Unmarshal env fuel x) := by
  cases x with
  | nil => trivial
  | val t v =>
    simp only [Unmarshal]
    split
    · trivial
    · split
      · trivial
      · exact failFast_elim _ fun a => failFast_uandThen ((failFast_unmarshal env fuel fuel).1 _ _ _) _ fun _ => trivial

/-- What the log of a run of a fail-fast program looks like. -/
theorem failFast_run {S α : Type} {bad : Err → α → Prop} (r : Rdr S) (p : RProg α) (hp : FailFast bad p) (s s' : S)
    (log0 log : List (ROp × Option Err)) (a : α) (hrun : p.run (loggedR r) (s, log0) = .done (a, (s', log))) :
    (∃ os : List ROp, log = log0 ++ os.map (·, none)) ∨ (∃ (os : List ROp) (o : ROp) (err : Err), log = log0 ++ os.map (·, none) ++ [(o, some err)] ∧ bad err a) := by
  induction p generalizing s log0 with
  | ret x => cases hrun; exact .inl ⟨[], by simp⟩
  | diverge => cases hrun
  | panic => cases hrun
  | call o k ih =>
    rw [RProg.run] at hrun
    simp only [loggedR] at hrun
    cases hstep : r.step o s with
    | done x =>
      obtain ⟨x, s1⟩ := x
      rw [hstep] at hrun
      simp only [Out.bind_done] at hrun
      cases x with
      | error err =>
        obtain ⟨b, h1, h2⟩ := hp.1 err
        rw [h1] at hrun
        cases hrun
        exact .inr ⟨[], o, err, by simp, h2⟩
      | ok v =>
        rcases ih (.ok v) (hp.2 v) s1 _ hrun with ⟨os, h1⟩ | ⟨os, o', err, h1, h2⟩
        · exact .inl ⟨o :: os, by rw [h1]; simp⟩
        · exact .inr ⟨o :: os, o', err, by rw [h1]; simp, h2⟩
    | blocked => rw [hstep] at hrun; cases hrun
    | diverged => rw [hstep] at hrun; cases hrun
    | panicked => rw [hstep] at hrun; cases hrun

end GoThrift
