import Verif.Proof.MemoCut

/-!
# Skip, call by call
-/

namespace GoThrift

open Spec Spec.TVal

/-- The call that Skip makes for such a call, and the answer. -/
def skipBack : Answer → Answer
  | ⟨.string, _⟩ => ⟨.skipString, ()⟩
  | ⟨.bytes _, _⟩ => ⟨.skipString, ()⟩
  | ⟨.uuid, _⟩ => ⟨.skipUUID, ()⟩
  | a => a

/-- The calls that Skip makes for what these calls have written. -/
def skipAll (l : List WOp) : List Answer := (takeAll l).map skipBack

theorem skipAll_append (l l' : List WOp) : skipAll (l ++ l') = skipAll l ++ skipAll l' := by simp [skipAll, takeAll]

section
variable {S : Type} {r : Rdr S}

/-- The induction statement of `skip_answers`. -/
def SkipAns (r : Rdr S) (t : TVal) : Prop := WF (2 ^ 63 - 1) t → ∀ fuel : Nat, fuelOf t ≤ fuel → ∀ s s' : S, Answers r (skipAll (calls t)) s s' → (skip fuel t.ty).run r s = .done (none, s')

theorem skipElems_answers (et : WType) (es : List TVal) (hall : ∀ e ∈ es, SkipAns r e) (hw : WFElems (2 ^ 63 - 1) et es) (fuel : Nat) (hf : fuelOfElems es ≤ fuel) (q : RProg (Option Err)) (s s' : S)
    (h : Answers r (skipAll (callsElems es)) s s') : (RProg.loop es.length (skip fuel et) q).run r s = q.run r s' := by
  induction es generalizing s with
  | nil => cases h; rfl
  | cons e es ih =>
    rw [callsElems, skipAll_append] at h
    obtain ⟨s1, h1, h2⟩ := answers_append h
    rw [WFElems] at hw
    simp only [fuelOfElems] at hf
    rw [List.length_cons, RProg.loop]
    have := hall e (by simp) hw.2.1 fuel (by omega) s s1 h1
    rw [hw.1] at this
    rw [run_andThen this]
    exact ih (fun e he => hall e (by simp [he])) hw.2.2 (by omega) s1 h2

theorem skipEntries_answers (kt vt : WType) (es : List (TVal × TVal)) (hall : ∀ e ∈ es, SkipAns r e.1 ∧ SkipAns r e.2) (hw : WFEntries (2 ^ 63 - 1) kt vt es) (fuel : Nat)
    (hf : fuelOfEntries es ≤ fuel) (q : RProg (Option Err)) (s s' : S) (h : Answers r (skipAll (callsEntries es)) s s') :
    (RProg.loop es.length ((skip fuel kt).andThen (skip fuel vt)) q).run r s = q.run r s' := by
  induction es generalizing s with
  | nil => cases h; rfl
  | cons e es ih =>
    obtain ⟨k, v⟩ := e
    rw [callsEntries, skipAll_append, skipAll_append] at h
    obtain ⟨s4, h, hr⟩ := answers_append h
    obtain ⟨s3, hk', hv'⟩ := answers_append h
    rw [WFEntries] at hw
    obtain ⟨hk, hv, w1, w2, w3⟩ := hw
    simp only [fuelOfEntries] at hf
    rw [List.length_cons, RProg.loop]
    obtain ⟨ihk, ihv⟩ := hall (k, v) (by simp)
    have ihk := ihk w1 fuel (by show fuelOf k ≤ fuel; omega) s s3 hk'
    have ihv := ihv w2 fuel (by show fuelOf v ≤ fuel; omega) s3 s4 hv'
    simp only at ihk ihv
    rw [hk] at ihk; rw [hv] at ihv
    rw [run_andThen ((run_andThen ihk).trans ihv)]
    exact ih (fun e he => hall e (by simp [he])) w3 (by omega) s4 hr

theorem skipFields_answers (fs : List (Bytes × BitVec 16 × TVal)) (hall : ∀ f ∈ fs, SkipAns r f.2.2) (hw : WFFields (2 ^ 63 - 1) fs) (fuel : Nat) (hf : fuelOfFields fs ≤ fuel) (s s' : S)
    (h : Answers r (skipAll (callsFields fs ++ [.structEnd])) s s') : (skipFields fuel).run r s = .done (none, s') := by
  induction fs generalizing s fuel with
  | nil =>
    obtain ⟨s1, h1, s2, h2, h3⟩ := h
    cases h3
    simp only [fuelOfFields] at hf
    obtain ⟨fuel, rfl⟩ := Nat.exists_eq_add_of_le' hf
    rw [skipFields, run_try' (o := .fieldBegin) (a := ⟨[], Ty.stop, 0⟩) h1, if_pos rfl]
    exact run_last (o := .structEnd) h2
  | cons f fs ih =>
    obtain ⟨fn, id, v⟩ := f
    rw [callsFields, List.append_assoc, skipAll_append, skipAll_append, skipAll_append] at h
    obtain ⟨s5, h, hr⟩ := answers_append h
    obtain ⟨s4, h, he⟩ := answers_append h
    obtain ⟨s3, hb, hv⟩ := answers_append h
    rw [WFFields] at hw
    simp only [fuelOfFields] at hf
    obtain ⟨fuel, rfl⟩ := Nat.exists_eq_add_of_le' (Nat.le_trans (Nat.le_add_left 1 _) hf)
    rw [skipFields, run_try' (o := .fieldBegin) (a := ⟨fn, v.ty, id⟩) (answers_one hb), if_neg (ty_ne_stop v)]
    have := hall (fn, id, v) (by simp) hw.1 fuel (by show fuelOf v ≤ fuel; omega) s3 s4 hv
    rw [run_andThen this, run_try' (o := .fieldEnd) (answers_one he)]
    exact ih (fun f hf => hall f (by simp [hf])) hw.2 fuel (by omega) s5 hr

/-- Skip at a Reader that answers the calls that skip a value. -/
theorem skip_answers (t : TVal) : SkipAns r t := by
  induction t using TVal.ind with
  | hbool v => intro _ fuel hf s s' h; obtain ⟨fuel, rfl⟩ := Nat.exists_eq_add_of_le' hf; exact run_last (answers_one h)
  | hbyte v => intro _ fuel hf s s' h; obtain ⟨fuel, rfl⟩ := Nat.exists_eq_add_of_le' hf; exact run_last (answers_one h)
  | hdouble v => intro _ fuel hf s s' h; obtain ⟨fuel, rfl⟩ := Nat.exists_eq_add_of_le' hf; exact run_last (answers_one h)
  | hi16 v => intro _ fuel hf s s' h; obtain ⟨fuel, rfl⟩ := Nat.exists_eq_add_of_le' hf; exact run_last (answers_one h)
  | hi32 v => intro _ fuel hf s s' h; obtain ⟨fuel, rfl⟩ := Nat.exists_eq_add_of_le' hf; exact run_last (answers_one h)
  | hi64 v => intro _ fuel hf s s' h; obtain ⟨fuel, rfl⟩ := Nat.exists_eq_add_of_le' hf; exact run_last (answers_one h)
  | hstr raw v => intro _ fuel hf s s' h; obtain ⟨fuel, rfl⟩ := Nat.exists_eq_add_of_le' hf; cases raw <;> exact run_last (o := .skipString) (answers_one h)
  | huuid v => intro _ fuel hf s s' h; obtain ⟨fuel, rfl⟩ := Nat.exists_eq_add_of_le' hf; exact run_last (o := .skipUUID) (answers_one h)
  | hstruct n fs hall =>
    intro hw fuel hf s s' h
    simp only [fuelOf] at hf
    obtain ⟨fuel, rfl⟩ := Nat.exists_eq_add_of_le' (Nat.le_trans (Nat.le_add_left 1 _) hf)
    rw [calls, List.append_assoc, skipAll_append] at h
    obtain ⟨s1, h1, h2⟩ := answers_append h
    rw [WF] at hw
    exact (run_try' (o := .structBegin) (answers_one h1) _).trans (skipFields_answers fs hall hw fuel (by omega) s1 s' h2)
  | hmap kt vt es hall =>
    intro hw fuel hf s s' h
    simp only [fuelOf] at hf
    obtain ⟨fuel, rfl⟩ := Nat.exists_eq_add_of_le' (Nat.le_trans (Nat.le_add_left 1 _) hf)
    rw [calls, skipAll_append, skipAll_append] at h
    obtain ⟨s2, h, h3⟩ := answers_append h
    obtain ⟨s1, h1, h2⟩ := answers_append h
    rw [WF] at hw
    refine (run_try' (o := .mapBegin) (a := ⟨kt, vt, BitVec.ofNat 64 es.length⟩) (answers_one h1) _).trans ?_
    rw [loopCount_ofNat hw.1, skipEntries_answers _ _ es hall hw.2 fuel (by omega) _ s1 s2 h2]
    exact run_last (o := .mapEnd) (answers_one h3)
  | hset et es hall =>
    intro hw fuel hf s s' h
    simp only [fuelOf] at hf
    obtain ⟨fuel, rfl⟩ := Nat.exists_eq_add_of_le' (Nat.le_trans (Nat.le_add_left 1 _) hf)
    rw [calls, skipAll_append, skipAll_append] at h
    obtain ⟨s2, h, h3⟩ := answers_append h
    obtain ⟨s1, h1, h2⟩ := answers_append h
    rw [WF] at hw
    refine (run_try' (o := .setBegin) (a := ⟨et, BitVec.ofNat 64 es.length⟩) (answers_one h1) _).trans ?_
    rw [loopCount_ofNat hw.1, skipElems_answers _ es hall hw.2 fuel (by omega) _ s1 s2 h2]
    exact run_last (o := .setEnd) (answers_one h3)
  | hlist et es hall =>
    intro hw fuel hf s s' h
    simp only [fuelOf] at hf
    obtain ⟨fuel, rfl⟩ := Nat.exists_eq_add_of_le' (Nat.le_trans (Nat.le_add_left 1 _) hf)
    rw [calls, skipAll_append, skipAll_append] at h
    obtain ⟨s2, h, h3⟩ := answers_append h
    obtain ⟨s1, h1, h2⟩ := answers_append h
    rw [WF] at hw
    refine (run_try' (o := .listBegin) (a := ⟨et, BitVec.ofNat 64 es.length⟩) (answers_one h1) _).trans ?_
    rw [loopCount_ofNat hw.1, skipElems_answers _ es hall hw.2 fuel (by omega) _ s1 s2 h2]
    exact run_last (o := .listEnd) (answers_one h3)

/-! ## Following a script for a while -/

/-- A program that follows a script to its end, at a Reader that follows the script for some calls: the next call is that of the script. -/
theorem follow {α : Type} (p : RProg α) (Q : RProg α → Prop) (hQ : ∀ o k a, Q (.call o k) → Q (k (.ok a))) (hp : Q p) (as : List Answer) (x : α) (h : p.run scripted as = .done (x, [])) (n : Nat)
    (a : Answer) (ha : as[n]? = some a) {s s1 : S} (h1 : Answers r (as.take n) s s1) :
    ∃ k, Q (.call a.1 k) ∧ p.run r s = (r.step a.1 s1).bind fun y => (k y.1).run r y.2 := by
  induction p generalizing as n s with
  | ret y => cases h; simp at ha
  | diverge => cases h
  | panic => cases h
  | call o k ih =>
    cases as with
    | nil => simp at ha
    | cons b as =>
      rw [RProg.run] at h
      obtain ⟨bo, bv⟩ := b
      by_cases hb : bo = o
      · subst hb
        simp only [scripted, dite_true, Out.bind_done] at h
        cases n with
        | zero =>
          cases ha
          rw [List.take_zero] at h1
          cases h1
          exact ⟨k, hp, by rw [RProg.run]⟩
        | succ n =>
          rw [List.take_succ_cons] at h1
          obtain ⟨s3, h3, h4⟩ := h1
          rw [RProg.run, show r.step bo s = .done (.ok bv, s3) from h3, Out.bind_done]
          exact ih (.ok bv) (hQ _ _ bv hp) as h n (by simpa using ha) h4
      · simp only [scripted, dif_neg hb] at h
        cases h

theorem skip_follow (t : TVal) (hw : WF (2 ^ 63 - 1) t) (n : Nat) (a : Answer) (ha : (skipAll (calls t))[n]? = some a) {s s1 : S} (h1 : Answers r ((skipAll (calls t)).take n) s s1) (fuel : Nat)
    (hf : fuelOf t ≤ fuel) : (∀ err s2, r.step a.1 s1 = .done (.error err, s2) → (skip fuel t.ty).run r s = .done (some err, s2)) ∧
      (r.step a.1 s1 = .panicked → (skip fuel t.ty).run r s = .panicked) := by
  have h := skip_answers (r := scripted) t hw fuel hf _ _ (scripted_answers _)
  obtain ⟨k, hk, h2⟩ := follow (r := r) (skip fuel t.ty) (Blames id (fun _ err e => e = err) fun _ => True) (fun o k a h => h.2 a)
    ((blames_skip (bad := fun _ err e => e = err) (fine := fun _ => True) (fun _ _ => rfl) (fun _ _ => trivial) fuel).1 _) _ _ h n a ha h1
  refine ⟨fun err s2 h3 => ?_, fun h3 => by rw [h2, h3]; rfl⟩
  obtain ⟨y, e, h4, h5, h6⟩ := hk.1 err
  cases h6
  rw [h2, h3, Out.bind_done]
  show (k (.error err)).run r s2 = _
  rw [h4, RProg.run]
  cases h5
  rfl

end

/-! ## The Memo -/

namespace Memo

theorem check_inv {m m' : Memo} {step : String} (h : m.check step = .done m') : m' = { m with steps := m.steps ++ [step] } ∧ (m.steps ++ [step])[m.r - 1]? = some step := by
  simp only [check] at h
  split at h
  · cases h
  · rename_i want hw
    split at h
    · cases h
    · rename_i hne
      cases h
      simp only [ne_eq, Decidable.not_not] at hne
      exact ⟨rfl, hne ▸ hw⟩

theorem read1_inv {α : Type} {m m' : Memo} {step : String} {as : MVal → Option α} {x : Except Err α} (h : m.read1 step as = .done (x, m')) :
    ∃ v l a, (m.steps ++ [step])[m.r - 1]? = some step ∧ m.values[m.r - 1]? = some (v :: l) ∧ as v = some a ∧ x = .ok a ∧ m' = { m with steps := m.steps ++ [step] } := by
  rw [read1] at h
  cases hc : m.check step with
  | done m2 =>
    obtain ⟨rfl, h2⟩ := check_inv hc
    rw [hc, Out.bind_done] at h
    split at h
    · rename_i v l hv
      split at h
      · rename_i a ha
        cases h
        exact ⟨v, l, a, h2, hv, ha, rfl, rfl⟩
      · cases h
    · cases h
  | _ => rw [hc] at h; cases h

theorem read1_eq {α : Type} {m : Memo} {step : String} {as : MVal → Option α} {v : MVal} {l : List MVal} {a : α} (h1 : (m.steps ++ [step])[m.r - 1]? = some step) (h2 : m.values[m.r - 1]? = some (v :: l))
    (h3 : as v = some a) : m.read1 step as = .done (.ok a, { m with steps := m.steps ++ [step] }) := by
  have hc : m.check step = .done { m with steps := m.steps ++ [step] } := by
    simp only [check, h1, ne_eq, not_true_eq_false, if_false]
  rw [read1, hc, Out.bind_done]
  simp only [h2, h3]

theorem gives_skipString {m m' : Memo} {v : Bytes} (h : Gives reader .string m v m') : Gives reader .skipString m () m' := by
  simp only [Gives, reader] at h ⊢
  cases ha : m.advanceR with
  | none => rw [ha] at h; cases h
  | some m1 =>
    rw [ha] at h
    obtain ⟨v, l, a, h1, h2, h3, h4, rfl⟩ := read1_inv h
    cases v <;> cases h3
    exact read1_eq h1 h2 rfl

theorem gives_skipUUID {m m' : Memo} {v : Bytes} (h : Gives reader .uuid m v m') : Gives reader .skipUUID m () m' := by
  simp only [Gives, reader] at h ⊢
  cases ha : m.advanceR with
  | none => rw [ha] at h; cases h
  | some m1 =>
    rw [ha] at h
    obtain ⟨v, l, a, h1, h2, h3, h4, rfl⟩ := read1_inv h
    cases v <;> cases h3
    exact read1_eq h1 h2 rfl

theorem skipString_bytes {m m' : Memo} {buf v : Bytes} (h : Gives reader (.bytes buf) m v m') : reader.step .skipString m = .panicked := by
  simp only [Gives, reader] at h ⊢
  cases ha : m.advanceR with
  | none => rw [ha] at h; cases h
  | some m1 =>
    rw [ha] at h
    obtain ⟨v, l, a, h1, h2, h3, h4, rfl⟩ := read1_inv h
    have h3' : ∃ b, v = .bytes b := by
      cases v <;> first | exact ⟨_, rfl⟩ | cases h3
    obtain ⟨b, rfl⟩ := h3'
    simp only [readStep, read1]
    cases hc : m1.check "String" with
    | done m2 =>
      obtain ⟨rfl, _⟩ := check_inv hc
      simp only [Out.bind_done, h2]
    | panicked => rfl
    | blocked => simp only [check] at hc; split at hc <;> (try split at hc) <;> cases hc
    | diverged => simp only [check] at hc; split at hc <;> (try split at hc) <;> cases hc

/-- No bytes among the answers. -/
def NoBytes (as : List Answer) : Prop := ∀ a ∈ as, ∀ buf, a.1 ≠ .bytes buf

theorem skipBack_gives {m m' : Memo} {a : Answer} (ha : ∀ buf, a.1 ≠ .bytes buf) (h : Gives reader a.1 m a.2 m') : Gives reader (skipBack a).1 m (skipBack a).2 m' := by
  obtain ⟨o, v⟩ := a
  cases o
  case string => exact gives_skipString h
  case uuid => exact gives_skipUUID h
  case bytes buf => exact absurd rfl (ha buf)
  all_goals exact h

theorem skipBack_answers (as : List Answer) (ha : NoBytes as) {m m' : Memo} (h : Answers reader as m m') : Answers reader (as.map skipBack) m m' := by
  induction as generalizing m with
  | nil => exact h
  | cons a as ih =>
    obtain ⟨m1, h1, h2⟩ := h
    exact ⟨m1, skipBack_gives (ha a (List.mem_cons_self ..)) h1, ih (fun a h => ha a (List.mem_cons_of_mem _ h)) h2⟩

theorem noBytes_takeAll {l : List WOp} (h : ∀ b, .bytes b ∉ l) : NoBytes (takeAll l) := by
  intro a ha buf
  obtain ⟨o, ho, ha⟩ := List.mem_flatMap.1 ha
  cases o
  case bytes b => exact absurd ho (h b)
  all_goals
    simp only [takeBack, List.mem_cons, List.not_mem_nil, or_false] at ha
    first
      | (subst ha; simp)
      | (rcases ha with rfl | rfl <;> simp)

/-- The first bytes among some answers. -/
theorem first_bytes (as : List Answer) {b : Bytes} (h : ⟨.bytes [], b⟩ ∈ as) (hn : ∀ a ∈ as, ∀ buf, a.1 = .bytes buf → buf = []) :
    ∃ (n : Nat) (v : Bytes), as[n]? = some ⟨.bytes [], v⟩ ∧ NoBytes (as.take n) := by
  induction as with
  | nil => cases h
  | cons a as ih =>
    by_cases ha : ∃ v : Bytes, a = ⟨.bytes [], v⟩
    · obtain ⟨v, rfl⟩ := ha
      exact ⟨0, v, rfl, fun a h => by simp at h⟩
    · rcases List.mem_cons.1 h with rfl | h
      · exact absurd ⟨b, rfl⟩ ha
      · obtain ⟨n, v, h1, h2⟩ := ih h fun a h => hn a (List.mem_cons_of_mem _ h)
        refine ⟨n + 1, v, h1, ?_⟩
        rw [List.take_succ_cons]
        intro x hx
        rcases List.mem_cons.1 hx with rfl | hx
        · intro buf hb
          obtain ⟨o, v'⟩ := x
          cases hb
          have := hn _ (List.mem_cons_self ..) buf rfl
          subst this
          exact ha ⟨v', rfl⟩
        · exact h2 x hx

theorem takeAll_bytes (l : List WOp) : ∀ a ∈ takeAll l, ∀ buf, a.1 = .bytes buf → buf = [] := by
  intro a ha buf hb
  obtain ⟨o, ho, ha⟩ := List.mem_flatMap.1 ha
  cases o <;> simp only [takeBack, List.mem_cons, List.not_mem_nil, or_false] at ha <;>
    first
      | (subst ha; cases hb; rfl)
      | (subst ha; cases hb)
      | (rcases ha with rfl | rfl <;> cases hb)

end Memo

end GoThrift
