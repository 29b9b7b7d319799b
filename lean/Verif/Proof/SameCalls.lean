import Verif.Proof.Mismatch

/-!
# Two programs that make the same calls
-/

namespace GoThrift

open Spec Spec.TVal

/-- The programs make the same calls, whatever the answers, and end with results related by `R`. -/
def Rel {α β : Type} (R : α → β → Prop) : RProg α → RProg β → Prop
  | .ret a, .ret b => R a b
  | .diverge, .diverge => True
  | .panic, .panic => True
  | .call o k, .call o' k' => ∃ h : o' = o, ∀ r, Rel R (k r) (k' (h ▸ r))
  | _, _ => False

theorem Rel.call {α β : Type} {R : α → β → Prop} (o : ROp) {k : Except Err o.Ans → RProg α} {k' : Except Err o.Ans → RProg β} (h : ∀ r, Rel R (k r) (k' r)) :
    Rel R (.call o k) (.call o k') := ⟨rfl, h⟩

theorem Rel.refl {α : Type} {R : α → α → Prop} (hR : ∀ a, R a a) (p : RProg α) : Rel R p p := by
  induction p with
  | ret a => exact hR a
  | diverge => trivial
  | panic => trivial
  | call o k ih => exact .call o ih

theorem Rel.mono {α β : Type} {R R' : α → β → Prop} (hR : ∀ a b, R a b → R' a b) {p : RProg α} {q : RProg β} (h : Rel R p q) : Rel R' p q := by
  induction p generalizing q with
  | ret a => cases q <;> first | exact hR _ _ h | exact h.elim
  | diverge => cases q <;> first | trivial | exact h.elim
  | panic => cases q <;> first | trivial | exact h.elim
  | call o k ih =>
    cases q with
    | call o' k' =>
      obtain ⟨rfl, h⟩ := h
      exact .call _ fun r => ih r (h r)
    | _ => exact h.elim

theorem Rel.flip {α β : Type} {R : α → β → Prop} {p : RProg α} {q : RProg β} (h : Rel R p q) : Rel (fun b a => R a b) q p := by
  induction p generalizing q with
  | ret a => cases q <;> first | exact h | exact h.elim
  | diverge => cases q <;> first | trivial | exact h.elim
  | panic => cases q <;> first | trivial | exact h.elim
  | call o k ih =>
    cases q with
    | call o' k' =>
      obtain ⟨rfl, h⟩ := h
      exact .call _ fun r => ih r (h r)
    | _ => exact h.elim

theorem Rel.bind {α β γ δ : Type} {R : α → β → Prop} {R' : γ → δ → Prop} {p : RProg α} {q : RProg β} (h : Rel R p q) {f : α → RProg γ} {g : β → RProg δ}
    (hf : ∀ a b, R a b → Rel R' (f a) (g b)) : Rel R' (p.bind f) (q.bind g) := by
  induction p generalizing q with
  | ret a => cases q <;> first | exact hf _ _ h | exact h.elim
  | diverge => cases q <;> first | trivial | exact h.elim
  | panic => cases q <;> first | trivial | exact h.elim
  | call o k ih =>
    cases q with
    | call o' k' =>
      obtain ⟨rfl, h⟩ := h
      exact .call _ fun r => ih r (h r)
    | _ => exact h.elim

theorem Rel.run {α β S : Type} {R : α → β → Prop} {p : RProg α} {q : RProg β} (h : Rel R p q) (r : Rdr S) (s s' : S) (a : α) (hp : p.run r s = .done (a, s')) :
    ∃ b, q.run r s = .done (b, s') ∧ R a b := by
  induction p generalizing q s with
  | ret a =>
    cases q with
    | ret b => cases hp; exact ⟨b, rfl, h⟩
    | _ => exact h.elim
  | diverge => cases hp
  | panic => cases hp
  | call o k ih =>
    cases q with
    | call o' k' =>
      obtain ⟨rfl, h⟩ := h
      rw [RProg.run] at hp ⊢
      cases hs : r.step o' s with
      | done x => rw [hs] at hp; exact ih x.1 (h x.1) x.2 hp
      | blocked => rw [hs] at hp; cases hp
      | diverged => rw [hs] at hp; cases hp
      | panicked => rw [hs] at hp; cases hp
    | _ => exact h.elim

/-- Same value up to what a slice has beyond its length, same error. -/
def SameElems {α : Type} (x y : (List GoVal × α) × Option Err) : Prop := x.1.1 = y.1.1 ∧ x.2 = y.2

theorem Rel.andThen {α β γ δ : Type} {R : α × Option Err → β × Option Err → Prop} (hR : ∀ x y, R x y → x.2 = y.2) {R' : γ × Option Err → δ × Option Err → Prop} {p : UProg α} {q : UProg β}
    (h : Rel R p q) {fa : α → γ} {fb : β → δ} {f : α → UProg γ} {g : β → UProg δ} (hf : ∀ a b, R (a, none) (b, none) → Rel R' (f a) (g b))
    (he : ∀ a b e, R (a, some e) (b, some e) → R' (fa a, some e) (fb b, some e)) : Rel R' (p.andThen fa f) (q.andThen fb g) := by
  refine Rel.bind h fun x y hxy => ?_
  obtain ⟨a, e⟩ := x
  obtain ⟨b, e'⟩ := y
  have := hR _ _ hxy
  dsimp only at this
  subst this
  cases e with
  | none => exact hf a b hxy
  | some e => exact he a b e hxy

/-- The element loop depends only on the answers, if it starts from slots that have to be zeroed or are zero. -/
theorem seqLoop_rel {u : GoVal → UProg GoVal} {zero : GoVal} {grow grow' : Nat → Nat} (n : Nat) (done rest rest' : List GoVal) (mz mz' : Bool)
    (hz : mz = true ∨ ∀ v ∈ rest, v = zero) (hz' : mz' = true ∨ ∀ v ∈ rest', v = zero) :
    Rel SameElems (seqLoop u zero grow n done rest mz) (seqLoop u zero grow' n done rest' mz') := by
  induction n generalizing done rest rest' mz mz' with
  | zero => exact ⟨rfl, rfl⟩
  | succ n ih =>
    have slot : ∀ (grow : Nat → Nat) (rest : List GoVal) (mz : Bool), (mz = true ∨ ∀ v ∈ rest, v = zero) → ∃ v rest1,
        (if rest.isEmpty = true then List.replicate (max 1 (grow done.length - done.length)) zero else rest) = v :: rest1 ∧
        (if (mz && !rest.isEmpty) = true then zero else v) = zero ∧ ((mz && !rest.isEmpty) = true ∨ ∀ v ∈ rest1, v = zero) := by
      intro grow rest mz hz
      cases rest with
      | nil =>
        obtain ⟨m, hm⟩ : ∃ m, max 1 (grow done.length - done.length) = m + 1 := ⟨max 1 (grow done.length - done.length) - 1, by omega⟩
        refine ⟨zero, List.replicate m zero, ?_, by simp, .inr fun v hv => List.eq_of_mem_replicate hv⟩
        simp only [List.isEmpty_nil, if_true]
        rw [hm, List.replicate_succ]
      | cons v rest =>
        refine ⟨v, rest, rfl, ?_, ?_⟩
        · cases mz with
          | true => rfl
          | false => rcases hz with hz | hz
                     · cases hz
                     · exact hz v (by simp)
        · cases mz with
          | true => exact .inl rfl
          | false => rcases hz with hz | hz
                     · cases hz
                     · exact .inr fun x hx => hz x (by simp [hx])
    obtain ⟨v, rest1, h1, h2, h3⟩ := slot grow rest mz hz
    obtain ⟨v', rest1', h1', h2', h3'⟩ := slot grow' rest' mz' hz'
    rw [seqLoop, seqLoop]
    simp only [h1, h1']
    rw [h2, h2']
    refine Rel.andThen (R := Eq) (fun x y h => h ▸ rfl) (.refl (fun _ => rfl) _) (fun a b h => ?_) fun a b e h => ?_
    · cases h; exact ih _ _ _ _ _ h3 h3'
    · cases h; exact ⟨rfl, rfl⟩

/-- Same error; and the same elements, or both as before and an error. -/
def Replaced (old old' : GoVal) (x y : GoVal × Option Err) : Prop :=
  x.2 = y.2 ∧ (elemsOf x.1 = elemsOf y.1 ∨ (x.1 = old ∧ y.1 = old' ∧ x.2 ≠ none))

theorem rcall_rel {α β : Type} {R : α × Option Err → β × Option Err → Prop} {act : String} {tt : WType} {t : TypeId} {o : ROp} {a : α} {b : β} {k : o.Ans → UProg α} {k' : o.Ans → UProg β}
    (hf : ∀ e, R (a, some e) (b, some e)) (hk : ∀ x, Rel R (k x) (k' x)) : Rel R (rcall act tt t o a k) (rcall act tt t o b k') :=
  .call o fun r => by
    cases r with
    | ok x => exact hk x
    | error e => exact hf _

theorem seqBody_rel {env : Env} {t et : TypeId} {u : WType → GoVal → UProg GoVal} {old old' : GoVal} (h : SetHeader) {fin : GoVal → UProg GoVal} (ho : elemsOf old.cleared = elemsOf old'.cleared)
    (hfin : ∀ v v', elemsOf v = elemsOf v' → Rel (Replaced old old') (fin v) (fin v')) :
    Rel (Replaced old old') (seqBody env t et u old h fin) (seqBody env t et u old' h fin) := by
  unfold seqBody
  split
  · refine Rel.andThen (fun x y h => h.2) (seqLoop_rel _ _ _ _ _ _ (.inl rfl) (.inl rfl)) (fun a b h => hfin _ _ h.1) fun a b e h => ⟨rfl, .inl h.1⟩
  · exact hfin _ _ ho

theorem unmarshalSeq_rel {env : Env} {t et : TypeId} {isSet : Bool} {u : WType → GoVal → UProg GoVal} {old old' : GoVal} (h : old = .sliceNil ∨ ∃ es sp, old = .slice es sp)
    (h' : old' = .sliceNil ∨ ∃ es sp, old' = .slice es sp) (wt : WType) :
    Rel (Replaced old old') (unmarshalSeq env t isSet et u old wt) (unmarshalSeq env t isSet et u old' wt) := by
  have hn : ∀ {v : GoVal}, (v = .sliceNil ∨ ∃ es sp, v = .slice es sp) → v.elems?.isNone = false ∧ elemsOf v.cleared = [] := by
    rintro v (rfl | ⟨es, sp, rfl⟩) <;> exact ⟨rfl, rfl⟩
  have kept : ∀ e, Replaced old old' (old, some e) (old', some e) := fun e => ⟨rfl, .inr ⟨rfl, rfl, by simp⟩⟩
  have ho : elemsOf old.cleared = elemsOf old'.cleared := by rw [(hn h).2, (hn h').2]
  unfold unmarshalSeq
  simp only [(hn h).1, (hn h').1, Bool.false_eq_true, if_false]
  have done : ∀ v v', elemsOf v = elemsOf v' → Rel (Replaced old old') (.ret (v, none)) (.ret (v', none)) := fun v v' hv => ⟨rfl, .inl hv⟩
  cases isSet <;> simp only [Bool.false_eq_true, if_false, if_true] <;> split
  · exact kept _
  · exact rcall_rel kept fun hd => seqBody_rel hd ho fun v v' hv => rcall_rel (fun e => ⟨rfl, .inl hv⟩) fun _ => done v v' hv
  · exact kept _
  · exact rcall_rel kept fun hd => seqBody_rel hd ho fun v v' hv => rcall_rel (fun e => ⟨rfl, .inl hv⟩) fun _ => done v v' hv

theorem Unmarshal_seq_rel {env : Env} {p t e : TypeId} (hp : (env.type p).kind = .ptr t) (hk : (env.type t).kind = .slice e) (hb : (env.type t).asBytes = false) {old old' : GoVal}
    (h : old = .sliceNil ∨ ∃ es sp, old = .slice es sp) (h' : old' = .sliceNil ∨ ∃ es sp, old' = .slice es sp) (fuel : Nat) :
    Rel (fun x y => ∃ v v', x.1 = .val p (.ptr v) ∧ y.1 = .val p (.ptr v') ∧ Replaced old old' (v, x.2) (v', y.2)) (Unmarshal env fuel (.val p (.ptr old))) (Unmarshal env fuel (.val p (.ptr old'))) := by
  have he : env.elem? p = some t := by simp [Env.elem?, hp]
  simp only [Unmarshal, he, GoVal.pointee?]
  rcases lookup_total env fuel t with hl | ⟨a, hl⟩
  · rw [hl]; trivial
  · rw [hl]
    simp only [Out.elim]
    cases fuel with
    | zero => cases hl
    | succ fuel =>
      have hc := lookup_cases hl
      rw [hk] at hc
      rcases hc with ⟨hb', _⟩ | ⟨_, ea, hle, rfl⟩
      · rw [hb] at hb'; cases hb'
      · rw [unmarshal, unmarshal]
        exact Rel.andThen (R := Replaced old old') (fun x y h => h.1) (unmarshalSeq_rel h h' _) (fun a b h => ⟨a, b, rfl, rfl, h⟩) fun a b e h => ⟨a, b, rfl, rfl, h⟩

end GoThrift
