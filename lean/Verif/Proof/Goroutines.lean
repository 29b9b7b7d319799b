import Verif.Proof.RefArshal

/-!
# All goroutines together
-/

namespace GoThrift

open Spec

theorem Legal.rely {i : Nat} {s s' : Shared} (h : Rely i s s') {o : SOp} (hl : Legal i s o) : Legal i s' o := by
  cases o with
  | enter p => exact fun ⟨q, hq⟩ => hl ⟨q, (h.2 q).1.1 hq⟩
  | assign p r => exact ⟨(h.2 p).1.2 hl.1, ((h.2 p).2 hl.1).2.trans hl.2⟩
  | leave p => exact (h.2 p).1.2 hl
  | read p => exact (h.1.done hl).1
  | load t => trivial
  | loadOrStore t p => trivial
  | new o => trivial
  | get p => trivial

theorem InInit.rely {i : Nat} {s s' : Shared} (h : Rely i s s') : InInit i s' ↔ InInit i s :=
  ⟨fun ⟨p, hp⟩ => ⟨p, (h.2 p).1.1 hp⟩, fun ⟨p, hp⟩ => ⟨p, (h.2 p).1.2 hp⟩⟩

/-- What others do does not matter. -/
theorem Ref.rely {env : Env} {T : Prop} {i : Nat} {α : Type} {p w : CProg α} {s s' : Shared} (h : Ref env T i (Same' i) p w s) (hr : Rely i s s') :
    Ref env T i (Same' i) p w s' := by
  induction p generalizing w s s' with
  | ret a =>
    obtain ⟨b, h1, h2⟩ := h
    exact ⟨b, ⟨h1.1, h1.2.rely hr⟩, h2⟩
  | diverge => exact ⟨h.1, fun ht => by rw [InInit.rely hr]; exact h.2 ht⟩
  | panic => exact ⟨h.1, by rw [InInit.rely hr]; exact h.2⟩
  | shared o k ih => exact ⟨h.1.rely hr, fun s2 hr2 => h.2 s2 (hr.trans hr2)⟩
  | call o k ih =>
    refine ⟨by rw [InInit.rely hr]; exact h.1, ?_⟩
    rcases h.2 with ⟨k', h2, h1⟩ | ⟨h2, h1⟩
    · exact .inl ⟨k', h2, fun r => ih r (h1 r) hr⟩
    · exact .inr ⟨h2, fun r => ih r (h1 r) hr⟩

theorem Does.snoc {β : Type} {p : CProg β} {cs : List Call} {o : LOp} {k : o.Ans → CProg β} (h : Does p cs (.call o k)) (r : o.Ans) : Does p (cs ++ [⟨o, r⟩]) (k r) := by
  generalize hq : CProg.call o k = q at h
  induction h with
  | refl p => subst hq; exact .step (.refl _)
  | step _ ih => exact .step (ih hq)

theorem callsOf_append (i : Nat) (es es' : List (Nat × Event)) : callsOf i (es ++ es') = callsOf i es ++ callsOf i es' := by
  induction es with
  | nil => rfl
  | cons e es ih =>
    obtain ⟨j, e⟩ := e
    cases e with
    | shared o r => exact ih
    | call o r =>
      show callsOf i ((j, .call o r) :: (es ++ es')) = _
      rw [callsOf, callsOf]
      split
      · rw [ih]; rfl
      · exact ih

theorem Config.Steps.trans {β : Type} {c c' c'' : Config β} {es es' : List (Nat × Event)} (h : c.Steps es c') (h' : c'.Steps es' c'') : c.Steps (es ++ es') c'' := by
  induction h' with
  | refl => rw [List.append_nil]; exact h
  | tail _ hs ih => rw [← List.append_assoc]; exact .tail ih hs

theorem Config.Steps.split {β : Type} {c c'' : Config β} {es' : List (Nat × Event)} : ∀ {es : List (Nat × Event)}, c.Steps (es ++ es') c'' → ∃ c', c.Steps es c' ∧ c'.Steps es' c'' := by
  intro es h
  generalize ha : es ++ es' = a at h
  induction h generalizing es' with
  | refl =>
    obtain ⟨rfl, rfl⟩ := List.append_eq_nil_iff.1 ha
    exact ⟨_, .refl _, .refl _⟩
  | @tail c' c'' es0 i e h1 h2 ih =>
    rcases List.eq_nil_or_concat es' with rfl | ⟨l, x, rfl⟩
    · rw [List.append_nil] at ha
      subst ha
      exact ⟨_, .tail h1 h2, .refl _⟩
    · rw [List.concat_eq_append, ← List.append_assoc] at ha
      obtain ⟨h3, h4⟩ := List.append_inj' ha rfl
      cases h4
      obtain ⟨d, h5, h6⟩ := ih h3
      rw [List.concat_eq_append]
      exact ⟨d, h5, .tail h6 h2⟩

/-- What an event says about the state from then on. -/
def Event.IsSo (s : Shared) : Event → Prop
  | .shared (.load t) (some p) => s.cache t = some p
  | .shared (.loadOrStore t _) p => s.cache t = some p
  | .shared (.read p) r => s.once p = .done ∧ s.vars p = r
  | _ => True

theorem Event.IsSo.le {s s' : Shared} (h : s.Le s') {e : Event} (he : e.IsSo s) : e.IsSo s' := by
  cases e with
  | call o r => trivial
  | shared o r =>
    cases o with
    | load t =>
      cases r with
      | none => trivial
      | some p => exact h.cache he
    | loadOrStore t q => exact h.cache he
    | read p => exact ⟨(h.done he.1).1, ((h.done he.1).2.1).trans he.2⟩
    | _ => trivial

/-- What holds of all goroutines at all times. -/
structure CInv {β : Type} (env : Env) (lf : Nat) (cs : List (Caller β)) (es : List (Nat × Event)) (c : Config β) : Prop where
  inv : Inv env c.s
  len : c.threads.length = cs.length
  threads : ∀ (i : Nat) (caller : Caller β) (p : CProg β), cs[i]? = some caller → c.threads[i]? = some p →
    ∃ pre w, pre <+: callsOf i es ∧ Does (alone env caller) pre w ∧ (w = .diverge ∨ pre = callsOf i es) ∧ Ref env (Total env lf) i (Same' i) p w c.s
  owner : ∀ {p : Ptr} {i : Nat}, c.s.once p = .running i → i < c.threads.length
  events : ∀ x ∈ es, Event.IsSo c.s x.2
  assigned : ∀ p, assignments p es = c.s.writes p

theorem CInv.start {β : Type} (env : Env) (lf : Nat) (cs : List (Caller β)) (hc : ∀ c ∈ cs, FuelAtMost lf c) : CInv env lf cs [] (.start env lf cs) := by
  refine ⟨.initial env, by simp [Config.start], fun i caller p h1 h2 => ?_, fun h => (by cases h), fun _ h => (by cases h), fun _ => rfl⟩
  have h3 : p = caller.prog env lf := by
    have : (cs.map (·.prog env lf))[i]? = some p := h2
    rw [List.getElem?_map, h1] at this
    cases this
    rfl
  subst h3
  refine ⟨[], _, List.nil_prefix, .refl _, .inr rfl, ?_⟩
  exact Fol.caller (s0 := .initial) (fun h => h) caller (hc _ (List.mem_of_getElem? h1)) _ (.refl _) ⟨fun p => ⟨fun h => (by cases h), fun h => (by cases h)⟩, fun p h => (by cases h)⟩

theorem step_event {i : Nat} {s s' : Shared} {o : SOp} {r : o.Ans} (h : o.step i s = some (r, s')) (hl : Legal i s o) : (Event.shared o r).IsSo s' := by
  cases o with
  | load t =>
    cases h
    cases hc : s.cache t with
    | none => trivial
    | some p => exact hc
  | loadOrStore t p =>
    rw [SOp.step] at h
    split at h
    · rename_i hq; cases h; exact hq
    · cases h; exact update_same _ _ _
  | read p => cases h; exact ⟨hl, rfl⟩
  | _ => trivial

theorem step_writes {i : Nat} {s s' : Shared} {o : SOp} {r : o.Ans} (h : o.step i s = some (r, s')) (p : Ptr) :
    s'.writes p = s.writes p + if isAssign p (Event.shared o r) then 1 else 0 := by
  cases o with
  | assign q r' =>
    cases h
    rw [isAssign]
    by_cases hq : q = p
    · subst hq
      simp
    · have : (q == p) = false := by simpa using hq
      rw [this]
      exact update_ne _ _ _ (fun h => hq h.symm)
  | load t => cases h; rfl
  | loadOrStore t q =>
    rw [SOp.step] at h
    split at h <;> cases h <;> rfl
  | new o => cases h; rfl
  | get q => cases h; rfl
  | enter q =>
    rw [SOp.step] at h
    split at h <;> cases h <;> rfl
  | leave q => cases h; rfl
  | read q => cases h; rfl

theorem assignments_snoc (p : Ptr) (es : List (Nat × Event)) (x : Nat × Event) : assignments p (es ++ [x]) = assignments p es + if isAssign p x.2 then 1 else 0 := by
  rw [assignments, assignments, List.countP_append]
  simp [List.countP_cons]

theorem CInv.step {β : Type} {env : Env} {lf : Nat} {cs : List (Caller β)} {es : List (Nat × Event)} {c c' : Config β} {i : Nat} {e : Event}
    (h : CInv env lf cs es c) (hs : c.Step i e c') : CInv env lf cs (es ++ [(i, e)]) c' := by
  cases hs with
  | @shared ts s s' _ o k r hi hstep =>
    have hlen : i < ts.length := (List.getElem?_eq_some_iff.1 hi).1
    obtain ⟨caller, hcaller⟩ : ∃ caller, cs[i]? = some caller := ⟨cs[i]'(by have := h.len; dsimp only at this; omega), List.getElem?_eq_getElem _⟩
    obtain ⟨pre, w, h1, h2, h3, h4⟩ := h.threads i caller _ hcaller hi
    obtain ⟨g1, g2, g3⟩ := h4.2 s (.refl _ _) h.inv r s' hstep
    refine ⟨g2, by simpa using h.len, fun j caller' p hj hp => ?_, fun {p} {j} hp => ?_, fun x hx => ?_, fun p => ?_⟩
    · have hcalls : callsOf j (es ++ [(i, .shared o r)]) = callsOf j es := by rw [callsOf_append]; exact List.append_nil _
      rw [hcalls]
      by_cases hij : j = i
      · subst hij
        rw [hcaller] at hj
        cases hj
        have hp : (ts.set j (k r))[j]? = some p := hp
        rw [List.getElem?_set_self hlen] at hp
        cases hp
        exact ⟨pre, w, h1, h2, h3, g3⟩
      · have hp : (ts.set i (k r))[j]? = some p := hp
        rw [List.getElem?_set_ne (Ne.symm hij)] at hp
        obtain ⟨pre', w', k1, k2, k3, k4⟩ := h.threads j caller' p hj hp
        exact ⟨pre', w', k1, k2, k3, k4.rely ⟨g1.1, g1.2 j hij⟩⟩
    · show j < (ts.set i (k r)).length
      rw [List.length_set]
      by_cases hij : j = i
      · rw [hij]; exact hlen
      · exact h.owner (((g1.2 j hij) p).1.1 hp)
    · rcases List.mem_append.1 hx with hx | hx
      · exact Event.IsSo.le g1.1 (h.events x hx)
      · rcases List.mem_singleton.1 hx with rfl
        exact step_event hstep h4.1
    · rw [assignments_snoc, h.assigned p]
      exact (step_writes hstep p).symm
  | @call ts s _ o k r hi =>
    have hlen : i < ts.length := (List.getElem?_eq_some_iff.1 hi).1
    obtain ⟨caller, hcaller⟩ : ∃ caller, cs[i]? = some caller := ⟨cs[i]'(by have := h.len; dsimp only at this; omega), List.getElem?_eq_getElem _⟩
    obtain ⟨pre, w, h1, h2, h3, h4⟩ := h.threads i caller _ hcaller hi
    refine ⟨h.inv, by simpa using h.len, fun j caller' p hj hp => ?_, fun {p} {j} hp => ?_, fun x hx => ?_, fun p => ?_⟩
    · by_cases hij : j = i
      · subst hij
        have hcalls : callsOf j (es ++ [(j, .call o r)]) = callsOf j es ++ [⟨o, r⟩] := by
          rw [callsOf_append, callsOf, if_pos rfl]; rfl
        rw [hcalls]
        rw [hcaller] at hj
        cases hj
        have hp : (ts.set j (k r))[j]? = some p := hp
        rw [List.getElem?_set_self hlen] at hp
        cases hp
        rcases h4.2 with ⟨k', rfl, g3⟩ | ⟨rfl, g3⟩
        · rcases h3 with h3 | rfl
          · cases h3
          · exact ⟨_, k' r, List.prefix_rfl, Does.snoc h2 r, .inr rfl, g3 r⟩
        · exact ⟨pre, .diverge, h1.trans (List.prefix_append _ _), h2, .inl rfl, g3 r⟩
      · have hcalls : callsOf j (es ++ [(i, .call o r)]) = callsOf j es := by
          rw [callsOf_append, callsOf, if_neg (Ne.symm hij)]; exact List.append_nil _
        rw [hcalls]
        have hp : (ts.set i (k r))[j]? = some p := hp
        rw [List.getElem?_set_ne (Ne.symm hij)] at hp
        exact h.threads j caller' p hj hp
    · show j < (ts.set i (k r)).length
      rw [List.length_set]
      exact h.owner hp
    · rcases List.mem_append.1 hx with hx | hx
      · exact h.events x hx
      · rcases List.mem_singleton.1 hx with rfl
        trivial
    · rw [assignments_snoc, h.assigned p]
      rfl

theorem CInv.steps {β : Type} {env : Env} {lf : Nat} {cs : List (Caller β)} (hc : ∀ c ∈ cs, FuelAtMost lf c) {es : List (Nat × Event)} {c : Config β}
    (h : (Config.start env lf cs).Steps es c) : CInv env lf cs es c := by
  generalize hs : Config.start env lf cs = c0 at h
  induction h with
  | refl => subst hs; exact .start env lf cs hc
  | tail _ h2 ih => exact ih.step h2

/-! ## Every run ends -/

/-- What a program goes on with after one step. -/
def NextProg {β : Type} (q p : CProg β) : Prop := (∃ o k r, p = .shared o k ∧ q = k r) ∨ ∃ o k r, p = .call o k ∧ q = k r

theorem nextProg_acc {β : Type} (p : CProg β) : Acc NextProg p := by
  induction p with
  | ret a => exact ⟨_, fun q h => by rcases h with ⟨_, _, _, h, _⟩ | ⟨_, _, _, h, _⟩ <;> cases h⟩
  | diverge => exact ⟨_, fun q h => by rcases h with ⟨_, _, _, h, _⟩ | ⟨_, _, _, h, _⟩ <;> cases h⟩
  | panic => exact ⟨_, fun q h => by rcases h with ⟨_, _, _, h, _⟩ | ⟨_, _, _, h, _⟩ <;> cases h⟩
  | shared o k ih =>
    refine ⟨_, fun q h => ?_⟩
    rcases h with ⟨o', k', r, h, rfl⟩ | ⟨_, _, _, h, _⟩
    · cases h; exact ih r
    · cases h
  | call o k ih =>
    refine ⟨_, fun q h => ?_⟩
    rcases h with ⟨_, _, _, h, _⟩ | ⟨o', k', r, h, rfl⟩
    · cases h
    · cases h; exact ih r

/-- One goroutine makes a step. -/
def OneStep {β : Type} (ts' ts : List (CProg β)) : Prop := ∃ (i : Nat) (p q : CProg β), ts[i]? = some p ∧ NextProg q p ∧ ts' = ts.set i q

theorem oneStep_acc {β : Type} (ts : List (CProg β)) : Acc OneStep ts := by
  induction ts with
  | nil => exact ⟨_, fun ts' ⟨i, p, q, h, _⟩ => by simp at h⟩
  | cons p ts ih =>
    have hp := nextProg_acc p
    induction hp generalizing ts with
    | intro p _ ihp =>
      induction ih with
      | intro ts h1 ihts =>
        refine ⟨_, fun ts' ⟨i, p', q, h, hc, he⟩ => ?_⟩
        subst he
        cases i with
        | zero => cases h; exact ihp q hc ts ⟨ts, h1⟩
        | succ i => exact ihts (ts.set i q) ⟨i, p', q, h, hc, rfl⟩

end GoThrift
