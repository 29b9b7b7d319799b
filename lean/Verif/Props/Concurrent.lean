import Verif.Proof.Goroutines
import Verif.Spec.Example

/-!
# C37: Marshal and Unmarshal used by several goroutines
-/

namespace GoThrift

open Spec

/-- **C37** (one arshaler per type): whatever goroutines do, in whatever order, all lookups of a type that have returned an arshaler have returned the same one, which is the one in the cache;
it is made for that type, and is what a single goroutine would have made. -/
theorem C37_same_arshaler {β : Type} (env : Env) (lf : Nat) (cs : List (Caller β)) (hc : ∀ c ∈ cs, FuelAtMost lf c) {es : List (Nat × Event)} {c : Config β}
    (h : (Config.start env lf cs).Steps es c) {i j : Nat} {e e' : Event} {t : TypeId} {p p' : Ptr} (he : (i, e) ∈ es) (he' : (j, e') ∈ es)
    (hp : Finds e t p) (hp' : Finds e' t p') :
    p = p' ∧ c.s.cache t = some p ∧ ∃ fuel a, lookupArshaler env fuel t = .done a ∧ a.typ = t ∧ Denotes c.s p a := by
  have hI := CInv.steps hc h
  have one : ∀ {i e p}, (i, e) ∈ es → Finds e t p → c.s.cache t = some p := by
    intro i e p he hp
    have h1 := hI.events _ he
    cases hp with
    | load => exact h1
    | loadOrStore => exact h1
  have h1 := one he hp
  have h2 := one he' hp'
  rw [h1] at h2
  cases h2
  obtain ⟨fuel, a, h3, h4⟩ := hI.inv.cache h1
  exact ⟨rfl, h1, fuel, a, h3, lookup_typ h3, h4⟩

/-- **C37** (the field table): the field table of a struct arshaler is computed at most once. Whenever a goroutine uses it, it has been computed, exactly once, before; the goroutine
finds the table (or the error) that a single goroutine would have computed, and nobody changes it afterwards. -/
theorem C37_table_once {β : Type} (env : Env) (lf : Nat) (cs : List (Caller β)) (hc : ∀ c ∈ cs, FuelAtMost lf c) {es : List (Nat × Event)} {c : Config β}
    (h : (Config.start env lf cs).Steps es c) (p : Ptr) :
    assignments p es ≤ 1 ∧
    ∀ es1 es2 i r, es = es1 ++ (i, .shared (.read p) r) :: es2 →
      assignments p es1 = 1 ∧ assignments p es2 = 0 ∧ c.s.vars p = r ∧
      ∃ t fuel r', Denotes c.s p (.struct t) ∧ makeStructFields env fuel t = .done r' ∧ TableDenotes c.s r r' := by
  have hI := CInv.steps hc h
  have hle : assignments p es ≤ 1 := by rw [hI.assigned]; exact hI.inv.writes p
  refine ⟨hle, fun es1 es2 i r he => ?_⟩
  subst he
  obtain ⟨c1, h1, h2⟩ := Config.Steps.split h
  obtain ⟨c2, h3, h4⟩ := Config.Steps.split (es := [(i, .shared (.read p) r)]) h2
  have hI1 := CInv.steps hc h1
  have hr := hI.events (i, .shared (.read p) r) (List.mem_append_right _ (List.mem_cons_self ..))
  have hd1 : c1.s.once p = .done := by
    generalize hg : [(i, Event.shared (.read p) r)] = l at h3
    cases h3 with
    | refl => cases hg
    | @tail c' _ es0 i' e' h5 h6 =>
      have hnil : es0 = [] := by
        have := congrArg List.length hg
        simp at this
        exact this
      subst hnil
      have hcc : c' = c1 := by
        generalize hz : ([] : List (Nat × Event)) = z at h5
        cases h5 with
        | refl => rfl
        | tail _ _ => simp at hz
      subst hcc
      cases hg
      cases h6 with
      | @shared ts s s' _ o k r' hi hs =>
        have hlen : i < ts.length := (List.getElem?_eq_some_iff.1 hi).1
        obtain ⟨caller, hcaller⟩ : ∃ caller, cs[i]? = some caller := ⟨cs[i]'(by have := hI1.len; dsimp only at this; omega), List.getElem?_eq_getElem _⟩
        obtain ⟨_, w, _, _, _, g⟩ := hI1.threads i caller _ hcaller hi
        exact g.1
  obtain ⟨t, ht⟩ := hI1.inv.used (p := p) (by rw [hd1]; simp)
  have hw := (hI1.inv.done hd1 ht).1
  have h5 : assignments p es1 = 1 := by rw [hI1.assigned]; exact hw
  refine ⟨h5, ?_, hr.2, ?_⟩
  · rw [assignments, List.countP_append, List.countP_cons] at hle
    rw [assignments] at h5 ⊢
    omega
  · obtain ⟨t, ht⟩ := hI.inv.used (p := p) (by rw [hr.1]; simp)
    obtain ⟨_, fuel, r', h6, h7⟩ := hI.inv.done hr.1 ht
    exact ⟨t, fuel, r', ⟨ht.2, ht.1⟩, h6, by rw [← hr.2]; exact h7⟩

/-- **C37** (no goroutine notices the others): the calls each goroutine makes on its Readers and Writers are those it would make as the only one, given the same answers, and if it ends, it
ends with the result it would have had. (As long as the only one gets that far with its fuel.) -/
theorem C37_alone {β : Type} (env : Env) (lf : Nat) (cs : List (Caller β)) (hc : ∀ c ∈ cs, FuelAtMost lf c) {es : List (Nat × Event)} {c : Config β}
    (h : (Config.start env lf cs).Steps es c) {i : Nat} {caller : Caller β} (hi : cs[i]? = some caller)
    (hfuel : ∀ pre, pre <+: callsOf i es → ¬ Does (alone env caller) pre .diverge) :
    ∃ w, Does (alone env caller) (callsOf i es) w ∧ (∀ b, c.threads[i]? = some (.ret b) → w = .ret b) ∧ (c.threads[i]? = some .panic → w = .panic) ∧
      c.threads[i]? ≠ some .diverge ∧ ∀ o k, c.threads[i]? = some (.call o k) → ∃ k', w = .call o k' := by
  have hI := CInv.steps hc h
  have hlen : i < c.threads.length := by rw [hI.len]; exact (List.getElem?_eq_some_iff.1 hi).1
  obtain ⟨pre, w, h1, h2, h3, h4⟩ := hI.threads i caller _ hi (List.getElem?_eq_getElem hlen)
  have hw : w ≠ .diverge := fun hw => hfuel pre h1 (hw ▸ h2)
  rcases h3 with h3 | rfl
  · exact absurd h3 hw
  · have ht : c.threads[i]? = some c.threads[i] := List.getElem?_eq_getElem hlen
    refine ⟨w, h2, fun b hb => ?_, fun hb => ?_, fun hb => ?_, fun o k hb => ?_⟩
    all_goals
      rw [ht] at hb
      injection hb with hb
      rw [hb] at h4
    · obtain ⟨b', h5, h6⟩ := h4
      rcases h6 with h6 | h6
      · rw [h6, h5.1]
      · exact absurd h6 hw
    · exact h4.1.resolve_right hw
    · exact hw h4.1
    · rcases h4.2 with ⟨k', h5, _⟩ | ⟨h5, _⟩
      · exact ⟨k', h5⟩
      · exact absurd h5 hw

/-- **C37** (no data race): while one goroutine is about to assign the field table of a struct arshaler, no other is about to assign or to use it. -/
theorem C37_no_race {β : Type} (env : Env) (lf : Nat) (cs : List (Caller β)) (hc : ∀ c ∈ cs, FuelAtMost lf c) {es : List (Nat × Event)} {c : Config β}
    (h : (Config.start env lf cs).Steps es c) {i j : Nat} (hij : i ≠ j) {p : Ptr} {r : CTable} {k : Unit → CProg β} (hi : c.threads[i]? = some (.shared (.assign p r) k)) :
    (∀ r' k', c.threads[j]? ≠ some (.shared (.assign p r') k')) ∧ ∀ k', c.threads[j]? ≠ some (.shared (.read p) k') := by
  have hI := CInv.steps hc h
  have legal : ∀ {i o k}, c.threads[i]? = some (.shared o k) → Legal i c.s o := by
    intro i o k hi
    have hlen : i < c.threads.length := (List.getElem?_eq_some_iff.1 hi).1
    obtain ⟨caller, hcaller⟩ : ∃ caller, cs[i]? = some caller := ⟨cs[i]'(by rw [← hI.len]; exact hlen), List.getElem?_eq_getElem _⟩
    obtain ⟨_, w, _, _, _, g⟩ := hI.threads i caller _ hcaller hi
    exact g.1
  have h1 := (legal hi).1
  refine ⟨fun r' k' hj => ?_, fun k' hj => ?_⟩
  · have h2 := (legal hj).1
    rw [h1] at h2
    injection h2 with h2
    exact hij h2
  · have h2 : c.s.once p = .done := legal hj
    rw [h1] at h2
    cases h2

/-- **C37** (no deadlock): if every lookup ends, then as long as some goroutine is not finished, some goroutine can make a step: a goroutine that waits in `once.Do` waits for another that does not
wait. -/
theorem C37_no_deadlock {β : Type} (env : Env) (lf : Nat) (hT : ∀ t, ∃ a, lookupArshaler env lf t = .done a) (cs : List (Caller β)) (hc : ∀ c ∈ cs, FuelAtMost lf c)
    {es : List (Nat × Event)} {c : Config β} (h : (Config.start env lf cs).Steps es c) {i : Nat} {p : CProg β} (hi : c.threads[i]? = some p) (hf : ¬ Finished p) :
    ∃ j e c', c.Step j e c' := by
  have hI := CInv.steps hc h
  obtain ⟨ts, s⟩ := c
  cases p with
  | ret b => exact absurd trivial hf
  | diverge => exact absurd trivial hf
  | panic => exact absurd trivial hf
  | call o k =>
    refine ⟨i, _, _, .call (o := o) (k := k) ?_ hi⟩
    cases o with
    | write o => exact none
    | read o => exact .error (.text "")
  | shared o k =>
    have step : ∀ {j o} {k : SOp.Ans o → CProg β}, ts[j]? = some (.shared o k) → ∀ x, o.step j s = some x → ∃ j e c', Config.Step ⟨ts, s⟩ j e c' :=
      fun hj x hx => ⟨_, _, _, .shared (r := x.1) (s' := x.2) hj hx⟩
    cases o with
    | load t => exact step hi _ rfl
    | new o => exact step hi _ rfl
    | get q => exact step hi _ rfl
    | leave q => exact step hi _ rfl
    | assign q r => exact step hi _ rfl
    | read q => exact step hi _ rfl
    | loadOrStore t q =>
      cases hs : SOp.step i s (.loadOrStore t q) with
      | some x => exact step hi _ hs
      | none =>
        rw [SOp.step] at hs
        split at hs <;> cases hs
    | enter q =>
      cases ho : s.once q with
      | idle => exact step hi (true, { s with once := update s.once q (.running i) }) (by rw [SOp.step, ho])
      | done => exact step hi (false, s) (by rw [SOp.step, ho])
      | running j =>
        have hlen : j < ts.length := hI.owner ho
        obtain ⟨caller, hcaller⟩ : ∃ caller, cs[j]? = some caller := ⟨cs[j]'(by have := hI.len; dsimp only at this; omega), List.getElem?_eq_getElem _⟩
        have hj : ts[j]? = some ts[j] := List.getElem?_eq_getElem hlen
        obtain ⟨_, w, _, _, _, g⟩ := hI.threads j caller _ hcaller hj
        have hh : InInit j s := ⟨q, ho⟩
        generalize hx : ts[j] = x at g hj
        cases x with
        | ret b =>
          obtain ⟨b', h1, _⟩ := g
          exact absurd ((h1.2.1 q).1 ho) (by simp)
        | diverge => exact absurd hh (g.2 hT)
        | panic => exact absurd hh g.2
        | call o k => exact absurd hh g.1
        | shared o k' =>
          cases o with
          | load t => exact step hj _ rfl
          | new o => exact step hj _ rfl
          | get q => exact step hj _ rfl
          | leave q => exact step hj _ rfl
          | assign q r => exact step hj _ rfl
          | read q => exact step hj _ rfl
          | enter q => exact absurd hh g.1
          | loadOrStore t q =>
            cases hs : SOp.step j s (.loadOrStore t q) with
            | some x => exact step hj _ hs
            | none =>
              rw [SOp.step] at hs
              split at hs <;> cases hs

/-- **C37** (every run ends): there is no infinite sequence of steps. -/
theorem C37_ends {β : Type} (c : Config β) : Acc (fun c' c : Config β => ∃ i e, c.Step i e c') c := by
  obtain ⟨ts, s⟩ := c
  have ha := oneStep_acc ts
  induction ha generalizing s with
  | intro ts _ ih =>
    refine ⟨_, fun c' hs => ?_⟩
    obtain ⟨i, e, hs⟩ := hs
    cases hs with
    | @shared _ _ s' _ o k r hi hs => exact ih _ ⟨i, _, k r, hi, .inl ⟨o, k, r, rfl, rfl⟩, rfl⟩ s'
    | @call _ _ _ o k r hi => exact ih _ ⟨i, _, k r, hi, .inr ⟨o, k, r, rfl, rfl⟩, rfl⟩ s

/-! ## Examples -/

namespace Ex

/-- `Marshal(w, Dup{A: 5})` -/
def one : Caller (Option Err) := .marshal 20 (.val 16 (.struct [.i32 5, .bool false])) .stop

theorem flat_total : ∀ t, ∃ a, lookupArshaler flat 20 t = .done a
  | 0 | 1 | 2 | 3 | 4 | 5 | 6 | 7 | 8 | 9 | 10 | 11 | 12 | 13 | 14 | 15 | 16 | 17 | 18 | 19 | 20 | 21 | 22 | 23 | 24 | 25 | 26 | 27 => ⟨_, rfl⟩
  | _ + 28 => ⟨_, rfl⟩

end Ex

theorem Config.Steps.cons {β : Type} {c c' c'' : Config β} {i : Nat} {e : Event} {es : List (Nat × Event)} (h : c.Step i e c') (h' : c'.Steps es c'') :
    c.Steps ((i, e) :: es) c'' := Config.Steps.trans (es := [(i, e)]) (.tail (.refl _) h) h'

/-- Two goroutines use the type `Dup` for the first time at the same time: both do not find it in the cache, both make an arshaler, both go on with that of the first. The second one computes the
field table; meanwhile the first has to wait. -/
theorem Ex.together : ∃ c, (Config.start flat 20 [one, one]).Steps [(0, .shared (.load 16) none), (1, .shared (.load 16) none), (0, .shared (.new ⟨Ty.struct, .struct 16⟩) (0 : Nat)),
    (1, .shared (.new ⟨Ty.struct, .struct 16⟩) (1 : Nat)), (0, .shared (.loadOrStore 16 0) (0 : Nat)), (1, .shared (.loadOrStore 16 1) (0 : Nat)),
    (0, .shared (.get 0) ⟨Ty.struct, .struct 16⟩), (1, .shared (.get 0) ⟨Ty.struct, .struct 16⟩), (1, .shared (.enter 0) true)] c ∧
    ∃ k, c.threads[0]? = some (.shared (.enter 0) k) ∧ SOp.step 0 c.s (.enter 0) = none := by
  refine ⟨_, .cons (.shared rfl rfl) (.cons (.shared rfl rfl) (.cons (.shared rfl rfl) (.cons (.shared rfl rfl) (.cons (.shared rfl rfl) (.cons (.shared rfl rfl)
    (.cons (.shared rfl rfl) (.cons (.shared rfl rfl) (.cons (.shared rfl rfl) (.refl _))))))))), _, rfl, rfl⟩

/-- The two lookups return the arshaler of the first goroutine. -/
example : ∃ c es, (Config.start Ex.flat 20 [Ex.one, Ex.one]).Steps es c ∧ (0, .shared (.loadOrStore 16 0) (0 : Nat)) ∈ es ∧ (1, .shared (.loadOrStore 16 1) (0 : Nat)) ∈ es ∧
    Finds (.shared (.loadOrStore 16 0) (0 : Nat)) 16 0 ∧ Finds (.shared (.loadOrStore 16 1) (0 : Nat)) 16 0 := by
  obtain ⟨c, h, _⟩ := Ex.together
  exact ⟨c, _, h, by simp, by simp, .loadOrStore _ _ _, .loadOrStore _ _ _⟩

example : ∀ c ∈ [Ex.one, Ex.one], FuelAtMost 20 c := by
  intro c hc
  have : c = Ex.one := by simpa using hc
  subst this
  exact ⟨Nat.le_refl _, fun _ => trivial⟩

/-- The first goroutine waits, and the second can go on. -/
example : ∃ c es, (Config.start Ex.flat 20 [Ex.one, Ex.one]).Steps es c ∧ (∀ e c', ¬ c.Step 0 e c') ∧ ∃ j e c', c.Step j e c' := by
  obtain ⟨c, h, k, h1, h2⟩ := Ex.together
  refine ⟨c, _, h, fun e c' hs => ?_, C37_no_deadlock Ex.flat 20 Ex.flat_total _ ?_ h h1 (fun h => h)⟩
  · cases hs with
    | shared hi hs => rw [h1] at hi; cases hi; rw [h2] at hs; cases hs
    | call r hi => rw [h1] at hi; cases hi
  · intro c hc
    have : c = Ex.one := by simpa using hc
    subst this
    exact ⟨Nat.le_refl _, fun _ => trivial⟩

/-- One goroutine goes on to its first call, while the other has not begun; the call is the one it would have made alone. -/
example : ∃ c es, (Config.start Ex.flat 20 [Ex.one, Ex.one]).Steps es c ∧ callsOf 0 es = [⟨.write (.structBegin (ascii "Dup")), none⟩] ∧
    ∀ pre, pre <+: callsOf 0 es → ¬ Does (alone Ex.flat Ex.one) pre .diverge := by
  refine ⟨_, [(0, .shared (.load 16) none), (0, .shared (.new ⟨Ty.struct, .struct 16⟩) (0 : Nat)), (0, .shared (.loadOrStore 16 0) (0 : Nat)), (0, .shared (.get 0) ⟨Ty.struct, .struct 16⟩),
    (0, .shared (.enter 0) true), (0, .shared (.load 1) none), (0, .shared (.new ⟨Ty.i32, .leaf 1 .i32⟩) (1 : Nat)), (0, .shared (.loadOrStore 1 1) (1 : Nat)),
    (0, .shared (.load 8) none), (0, .shared (.new ⟨Ty.bool, .leaf 8 .bool⟩) (2 : Nat)), (0, .shared (.loadOrStore 8 2) (2 : Nat)),
    (0, .shared (.assign 0 (.ok [⟨0, 1, 1, 1, ascii "A", false⟩, ⟨1, 8, 2, 1, ascii "B", false⟩])) ()), (0, .shared (.leave 0) ()),
    (0, .shared (.read 0) (.ok [⟨0, 1, 1, 1, ascii "A", false⟩, ⟨1, 8, 2, 1, ascii "B", false⟩])), (0, .call (.write (.structBegin (ascii "Dup"))) none)],
    .cons (.shared rfl rfl) (.cons (.shared rfl rfl) (.cons (.shared rfl rfl) (.cons (.shared rfl rfl) (.cons (.shared rfl rfl) (.cons (.shared rfl rfl)
    (.cons (.shared rfl rfl) (.cons (.shared rfl rfl) (.cons (.shared rfl rfl) (.cons (.shared rfl rfl) (.cons (.shared rfl rfl) (.cons (.shared rfl rfl) (.cons (.shared rfl rfl)
    (.cons (.shared rfl rfl) (.cons (.call (o := .write (.structBegin (ascii "Dup"))) none rfl) (.refl _))))))))))))))), rfl, fun pre hp hd => ?_⟩
  replace hp : pre <+: [⟨.write (.structBegin (ascii "Dup")), none⟩] := hp
  obtain ⟨k, hk, k', hk'⟩ : ∃ k, alone Ex.flat Ex.one = .call (.write (.structBegin (ascii "Dup"))) k ∧ ∃ k', k none = .call (.write (.fieldBegin ⟨ascii "A", Ty.i32, 1⟩)) k' := ⟨_, rfl, _, rfl⟩
  rw [hk] at hd
  cases pre with
  | nil => cases hd
  | cons x l =>
    obtain ⟨h1, h2⟩ := List.cons_prefix_cons.1 hp
    subst h1
    rw [List.prefix_nil.1 h2] at hd
    cases hd with
    | step hd => rw [hk'] at hd; cases hd

end GoThrift
