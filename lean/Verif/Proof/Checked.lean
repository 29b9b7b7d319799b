import Verif.Proof.MemoCut
import Verif.Props.Hostile

/-!
# A Reader of which only UUIDs of 16 bytes are taken
-/

namespace GoThrift

open Spec Spec.TVal

/-- The Reader, but it panics when it would answer with a UUID that has not 16 bytes. -/
def checked {S : Type} (r : Rdr S) : Rdr S where
  step o s := match o with
    | .uuid => (r.step .uuid s).bind fun
      | (.ok b, s') => if b.length = 16 then .done (.ok b, s') else .panicked
      | (.error e, s') => .done (.error e, s')
    | o => r.step o s

theorem checked_step {S : Type} {r : Rdr S} {o : ROp} {s : S} {y : Except Err o.Ans × S} (h : (checked r).step o s = .done y) : r.step o s = .done y := by
  cases o
  case uuid =>
    simp only [checked] at h
    cases hs : r.step .uuid s with
    | done z =>
      rw [hs, Out.bind_done] at h
      obtain ⟨x, s'⟩ := z
      cases x with
      | error e => exact h
      | ok b =>
        dsimp only at h
        split at h
        · exact h
        · cases h
    | _ => rw [hs] at h; cases h
  all_goals exact h

theorem checked_uuids16 {S : Type} (r : Rdr S) : UUIDs16 (checked r) := by
  intro s s' b h
  simp only [checked] at h
  cases hs : r.step .uuid s with
  | done z =>
    rw [hs, Out.bind_done] at h
    obtain ⟨x, s'⟩ := z
    cases x with
    | error e => cases h
    | ok b' =>
      dsimp only at h
      split at h
      · cases h; assumption
      · cases h
  | _ => rw [hs] at h; cases h

theorem checked_error {S : Type} {r : Rdr S} {o : ROp} {s s' : S} {e : Err} (h : r.step o s = .done (.error e, s')) : (checked r).step o s = .done (.error e, s') := by
  cases o
  case uuid => simp only [checked, h, Out.bind_done]
  all_goals exact h

theorem checked_run {α : Type} {S : Type} {r : Rdr S} (p : RProg α) {s : S} {y : α × S} (h : p.run (checked r) s = .done y) : p.run r s = .done y := by
  induction p generalizing s with
  | ret x => exact h
  | diverge => cases h
  | panic => cases h
  | call o k ih =>
    rw [RProg.run] at h ⊢
    cases hs : (checked r).step o s with
    | done z =>
      rw [hs, Out.bind_done] at h
      rw [checked_step hs, Out.bind_done]
      exact ih _ h
    | _ => rw [hs] at h; cases h

/-- A UUID of 16 bytes, or something else. -/
def Sixteen (a : Answer) : Prop := ∀ b : Bytes, a = ⟨.uuid, b⟩ → b.length = 16

theorem checked_answers {S : Type} {r : Rdr S} (as : List Answer) (h16 : ∀ a ∈ as, Sixteen a) {s s' : S} (h : Answers r as s s') : Answers (checked r) as s s' := by
  induction as generalizing s with
  | nil => exact h
  | cons a as ih =>
    obtain ⟨s1, h1, h2⟩ := h
    refine ⟨s1, ?_, ih (fun a ha => h16 a (List.mem_cons_of_mem _ ha)) h2⟩
    obtain ⟨o, b⟩ := a
    have hb := h16 ⟨o, b⟩ (List.mem_cons_self ..)
    simp only [Gives] at h1 ⊢
    cases o
    case uuid => simp only [checked, h1, Out.bind_done]; rw [if_pos (hb b rfl)]
    all_goals exact h1

/-- A call that does not write a UUID of other than 16 bytes. -/
def Sixteen' (o : WOp) : Prop := ∀ b, o = .uuid b → b.length = 16

theorem calls_sixteen (lim : Nat) (tv : TVal) : WF lim tv → ∀ o ∈ calls tv, Sixteen' o := by
  have fields : ∀ fs : List (Bytes × BitVec 16 × TVal), (∀ f ∈ fs, WF lim f.2.2 → ∀ o ∈ calls f.2.2, Sixteen' o) → WFFields lim fs → ∀ o ∈ callsFields fs, Sixteen' o := by
    intro fs ih hw
    induction fs with
    | nil => simp [callsFields]
    | cons f fs ih' =>
      obtain ⟨n, id, v⟩ := f
      rw [WFFields] at hw
      rw [List.forall_mem_cons] at ih
      intro o ho
      simp only [callsFields, List.mem_append, List.mem_singleton] at ho
      rcases ho with ((rfl | ho) | rfl) | ho
      · intro b h; cases h
      · exact ih.1 hw.1 o ho
      · intro b h; cases h
      · exact ih' ih.2 hw.2 o ho
  have elems : ∀ (et : WType) (es : List TVal), (∀ e ∈ es, WF lim e → ∀ o ∈ calls e, Sixteen' o) → WFElems lim et es → ∀ o ∈ callsElems es, Sixteen' o := by
    intro et es ih hw
    induction es with
    | nil => simp [callsElems]
    | cons e es ih' =>
      rw [WFElems] at hw
      rw [List.forall_mem_cons] at ih
      intro o ho
      simp only [callsElems, List.mem_append] at ho
      rcases ho with ho | ho
      · exact ih.1 hw.2.1 o ho
      · exact ih' ih.2 hw.2.2 o ho
  have entries : ∀ (kt vt : WType) (es : List (TVal × TVal)), (∀ e ∈ es, (WF lim e.1 → ∀ o ∈ calls e.1, Sixteen' o) ∧ (WF lim e.2 → ∀ o ∈ calls e.2, Sixteen' o)) → WFEntries lim kt vt es →
      ∀ o ∈ callsEntries es, Sixteen' o := by
    intro kt vt es ih hw
    induction es with
    | nil => simp [callsEntries]
    | cons e es ih' =>
      obtain ⟨k, v⟩ := e
      rw [WFEntries] at hw
      rw [List.forall_mem_cons] at ih
      intro o ho
      simp only [callsEntries, List.mem_append] at ho
      rcases ho with (ho | ho) | ho
      · exact ih.1.1 hw.2.2.1 o ho
      · exact ih.1.2 hw.2.2.2.1 o ho
      · exact ih' ih.2 hw.2.2.2.2 o ho
  have one : ∀ o' : WOp, Sixteen' o' → ∀ o ∈ [o'], Sixteen' o := fun o' h o ho => by
    rw [List.mem_singleton] at ho; subst ho; exact h
  induction tv using TVal.ind with
  | hbool | hbyte | hdouble | hi16 | hi32 | hi64 => intro _; rw [calls]; exact one _ fun b h => by cases h
  | hstr r v =>
    intro _
    cases r <;> (rw [calls]; exact one _ fun b h => by cases h)
  | huuid v => intro h; rw [calls]; exact one _ fun b hb => by cases hb; rw [WF] at h; exact h
  | hstruct n fs ih =>
    intro h o ho
    rw [WF] at h
    simp only [calls, List.mem_append, List.mem_singleton] at ho
    rcases ho with (rfl | ho) | rfl
    · intro b h; cases h
    · exact fields fs ih h o ho
    · intro b h; cases h
  | hmap kt vt es ih =>
    intro h o ho
    rw [WF] at h
    simp only [calls, List.mem_append, List.mem_singleton] at ho
    rcases ho with (rfl | ho) | rfl
    · intro b h; cases h
    · exact entries kt vt es ih h.2 o ho
    · intro b h; cases h
  | hset et es ih =>
    intro h o ho
    rw [WF] at h
    simp only [calls, List.mem_append, List.mem_singleton] at ho
    rcases ho with (rfl | ho) | rfl
    · intro b h; cases h
    · exact elems et es ih h.2 o ho
    · intro b h; cases h
  | hlist et es ih =>
    intro h o ho
    rw [WF] at h
    simp only [calls, List.mem_append, List.mem_singleton] at ho
    rcases ho with (rfl | ho) | rfl
    · intro b h; cases h
    · exact elems et es ih h.2 o ho
    · intro b h; cases h

theorem takeBack_sixteen (o : WOp) (h : Sixteen' o) : ∀ a ∈ takeBack o, Sixteen a := by
  intro a ha b hb
  subst hb
  cases o <;> simp only [takeBack, List.mem_cons, List.not_mem_nil, or_false, reduceCtorEq, Sigma.mk.injEq, false_and] at ha
  rename_i v
  exact h b (by rw [eq_of_heq ha.2])

theorem takeAll_sixteen {lim : Nat} {tv : TVal} (h : WF lim tv) : ∀ a ∈ takeAll (calls tv), Sixteen a := by
  intro a ha
  obtain ⟨o, ho, ha⟩ := List.mem_flatMap.1 ha
  exact takeBack_sixteen o (calls_sixteen lim tv h o ho) a ha

end GoThrift
