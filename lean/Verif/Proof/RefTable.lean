import Verif.Proof.RefLookup
import Verif.Props.Tag

/-!
# Field tables and `once.Do` among other goroutines
-/

namespace GoThrift

open Spec

variable {env : Env} {T : Prop} {i : Nat}

/-- Sorting does not see where the arshalers are. -/
theorem fieldsDenote_sort {s : Shared} {cs : List CField} {fs : List SField} (h : FieldsDenote s cs fs) :
    FieldsDenote s (env.sort (fun f => f.id.toInt) cs) (env.sort (fun f => f.id.toInt) fs) := by
  have key : ∃ l : List { x : CField × SField // FieldDenotes s x.1 x.2 }, cs = l.map (·.1.1) ∧ fs = l.map (·.1.2) := by
    induction h with
    | nil => exact ⟨[], rfl, rfl⟩
    | @cons c f cs fs h1 _ ih =>
      obtain ⟨l, rfl, rfl⟩ := ih
      exact ⟨⟨(c, f), h1⟩ :: l, rfl, rfl⟩
  obtain ⟨l, rfl, rfl⟩ := key
  rw [env.sort_map, env.sort_map]
  have hk : (fun a : { x : CField × SField // FieldDenotes s x.1 x.2 } => a.1.1.id.toInt) = fun a => a.1.2.id.toInt := by
    funext a
    rw [a.2.id]
  rw [hk]
  generalize env.sort _ l = l'
  induction l' with
  | nil => exact .nil
  | cons a l' ih => exact .cons a.2 ih

theorem fieldsDenote_nil_iff {s : Shared} {cs : List CField} {fs : List SField} (h : FieldsDenote s cs fs) : cs = [] ↔ fs = [] := by
  cases h <;> simp

theorem fieldLoop_more {n m : Nat} (h : n ≤ m) {t : TypeId} {j : Nat} {sfs : List FieldDecl} {r : Except Err (List SField)}
    (hr : fieldLoop env n t j sfs = .done r) : fieldLoop env m t j sfs = .done r := (fieldLoop_le env n m h t j sfs).done hr

/-- The loop over the fields. -/
theorem cfieldLoop_ref (n : Nat) (t : TypeId) (H : Option Ptr) (hT : T → H = none) (sfs : List FieldDecl) (j : Nat) (s : Shared) (hs : Hold i H s) :
    Ref env T i (fun s r r' => TableDenotes s r r' ∧ (∃ fuel, fieldLoop env fuel t j sfs = .done r') ∧ Hold i H s)
      (cfieldLoop env (clookup env n) t j sfs) (fieldLoop env n t j sfs).toC s := by
  induction sfs generalizing j s with
  | nil => exact ⟨.ok [], ⟨.ok .nil, ⟨0, rfl⟩, hs⟩, .inl rfl⟩
  | cons sf sfs ih =>
    have hd : ∀ m, fieldLoop env m t j (sf :: sfs) = fieldLoop env m t j (sf :: sfs) := fun _ => rfl
    conv at hd => intro m; rhs; rw [fieldLoop]
    obtain ⟨⟨opts, ignored, err⟩, hp⟩ := C17_terminates env.unicode sf
    rw [hd, cfieldLoop]
    simp only [hp, Out.bind_done, Out.elim] at hd ⊢
    cases err with
    | some e => exact ⟨_, ⟨.error _, ⟨0, hd 0⟩, hs⟩, .inl rfl⟩
    | none =>
      cases ignored with
      | true =>
        simp only [if_true] at hd ⊢
        refine (ih (j + 1) s hs).mono fun s r r' ⟨h1, ⟨fuel, h2⟩, h3⟩ => ⟨h1, ⟨fuel, by rw [hd]; exact h2⟩, h3⟩
      | false =>
        simp only [Bool.false_eq_true, if_false] at hd ⊢
        rw [Out.toC_bind]
        refine (clookup_ref n sf.typ H hT s hs).bindOut fun s p a ⟨h1, ⟨f1, h2⟩, h3⟩ => ?_
        rw [Out.toC_bind]
        refine (ih (j + 1) s h3).frame.bindOut fun s r r' ⟨⟨g1, ⟨f2, g2⟩, g3⟩, hle⟩ => ?_
        have e1 := (lookupArshaler_le env f1 (max f1 f2) (Nat.le_max_left _ _) _).done h2
        have e2 := fieldLoop_more (Nat.le_max_right f1 f2) g2
        cases g1 with
        | error e => exact ⟨_, ⟨.error _, ⟨max f1 f2, by rw [hd, e1, Out.bind_done, e2]; rfl⟩, g3⟩, .inl rfl⟩
        | ok g1 =>
          refine ⟨_, ⟨.ok (.cons ⟨rfl, rfl, rfl, rfl, rfl, Denotes.le hle h1⟩ g1), ⟨max f1 f2, by rw [hd, e1, Out.bind_done, e2]; rfl⟩, g3⟩, .inl rfl⟩

/-- The table is the one makeStructFields makes for `t`. -/
def TableFound (env : Env) (i : Nat) (t : TypeId) (H : Option Ptr) (s : Shared) (r : CTable) (r' : Except Err (List SField)) : Prop :=
  TableDenotes s r r' ∧ (∃ fuel, makeStructFields env fuel t = .done r') ∧ Hold i H s

theorem cmakeStructFields_ref (n : Nat) (t : TypeId) (H : Option Ptr) (hT : T → H = none) (s : Shared) (hs : Hold i H s) :
    Ref env T i (TableFound env i t H) (cmakeStructFields env (clookup env n) t) (makeStructFields env n t).toC s := by
  rw [cmakeStructFields, makeStructFields, Out.toC_bind]
  refine (cfieldLoop_ref n t H hT _ 0 s hs).bindOut fun s r r' ⟨h1, ⟨fuel, h2⟩, h3⟩ => ?_
  cases h1 with
  | error e => exact ⟨_, ⟨.error _, ⟨fuel, by rw [makeStructFields, h2]; rfl⟩, h3⟩, .inl rfl⟩
  | @ok cs fs h1 =>
    simp only [fieldsDenote_nil_iff h1]
    split
    · rename_i hc
      exact ⟨_, ⟨.error _, ⟨fuel, by rw [makeStructFields, h2, Out.bind_done]; exact if_pos hc⟩, h3⟩, .inl rfl⟩
    · rename_i hc
      exact ⟨_, ⟨.ok (fieldsDenote_sort h1), ⟨fuel, by rw [makeStructFields, h2, Out.bind_done]; exact if_neg hc⟩, h3⟩, .inl rfl⟩

/-- Looking up any type succeeds with this fuel. -/
def Total (env : Env) (lf : Nat) : Prop := ∀ t, ∃ a, lookupArshaler env lf t = .done a

theorem Total.fieldLoop {lf : Nat} (h : Total env lf) (t : TypeId) (sfs : List FieldDecl) (j : Nat) : ∃ r, fieldLoop env lf t j sfs = .done r := by
  induction sfs generalizing j with
  | nil => exact ⟨_, rfl⟩
  | cons sf sfs ih =>
    obtain ⟨⟨opts, ignored, err⟩, hp⟩ := C17_terminates env.unicode sf
    rw [GoThrift.fieldLoop, hp, Out.bind_done]
    dsimp only
    cases err with
    | some e => exact ⟨_, rfl⟩
    | none =>
      cases ignored with
      | true => exact ih (j + 1)
      | false =>
        obtain ⟨a, ha⟩ := h sf.typ
        obtain ⟨r, hr⟩ := ih (j + 1)
        simp only [Bool.false_eq_true, if_false, ha, Out.bind_done, hr]
        cases r <;> exact ⟨_, rfl⟩

theorem Total.table {lf : Nat} (h : Total env lf) (t : TypeId) : ∃ r, makeStructFields env lf t = .done r := by
  obtain ⟨r, hr⟩ := h.fieldLoop t (env.fields t) 0
  rw [makeStructFields, hr, Out.bind_done]
  cases r with
  | error e => exact ⟨_, rfl⟩
  | ok all =>
    dsimp only
    split <;> exact ⟨_, rfl⟩

/-- The state after `enter`. -/
theorem enter_step {s : Shared} {p : Ptr} {t : TypeId} (hi : Inv env s) (hs : IsStructAt s p t) (ho : s.once p = .idle) (hH : Hold i none s) :
    let s' : Shared := { s with once := update s.once p (.running i) }
    Guar i s s' ∧ Inv env s' ∧ Hold i (some p) s' := by
  intro s'
  have ne : ∀ {q}, s.once q ≠ .idle → s'.once q = s.once q := fun {q} h => update_ne _ _ _ (fun he => h (he ▸ ho))
  have hle : s.Le s' := by
    refine ⟨fun h => h, fun h => h, fun {q} hq => ?_, fun {q} hq => ⟨?_, rfl, rfl⟩⟩
    · by_cases he : q = p
      · rw [he]; exact ho
      · exact (update_ne s.once p (.running i) he).symm.trans hq
    · rw [ne (by rw [hq]; simp)]; exact hq
  have hp : s'.once p = .running i := update_same _ _ _
  refine ⟨⟨hle, fun j hj q => ⟨?_, fun _ => ⟨rfl, rfl⟩⟩⟩, ?_, fun q => ?_, fun q hq => by cases hq; exact hi.idle ho⟩
  · by_cases he : q = p
    · subst he
      rw [hp, ho]
      exact ⟨fun h => absurd (by injection h with h; exact h.symm) hj, fun h => (by cases h)⟩
    · show update s.once p (.running i) q = _ ↔ _
      rw [update_ne _ _ _ he]
  · refine ⟨fun hc => ?_, fun {q} hq => ?_, fun {q} hq => hi.idle (hle.used hq), hi.writes, fun {q t} hq ht => ?_⟩
    · obtain ⟨fuel, a, h1, h2⟩ := hi.cache hc
      exact ⟨fuel, a, h1, Denotes.le hle h2⟩
    · by_cases he : q = p
      · exact ⟨t, he ▸ hs.le hle⟩
      · have : s'.once q = s.once q := update_ne _ _ _ he
        rw [this] at hq
        obtain ⟨t, h⟩ := hi.used hq
        exact ⟨t, h.le hle⟩
    · by_cases he : q = p
      · rw [he, hp] at hq; cases hq
      · have : s'.once q = s.once q := update_ne _ _ _ he
        rw [this] at hq
        obtain ⟨h3, fuel, r, h4, h5⟩ := hi.done hq ⟨ht.1, ht.2⟩
        exact ⟨h3, fuel, r, h4, TableDenotes.le hle h5⟩
  · by_cases he : q = p
    · rw [he, hp]; simp
    · show update s.once p (.running i) q = _ ↔ _
      rw [update_ne _ _ _ he]
      exact ⟨fun h => (by cases (hH.1 q).1 h), fun h => (by cases h; exact absurd rfl he)⟩

/-- The state after `assign`. -/
theorem assign_step {s : Shared} {p : Ptr} {r : CTable} (hi : Inv env s) (ho : s.once p = .running i) (hw : s.writes p = 0) :
    let s' : Shared := { s with vars := update s.vars p r, writes := update s.writes p (s.writes p + 1) }
    Guar i s s' ∧ Inv env s' ∧ s'.vars p = r ∧ s'.writes p = 1 := by
  intro s'
  have ne : ∀ {q}, q ≠ p → s'.vars q = s.vars q ∧ s'.writes q = s.writes q := fun {q} h => ⟨update_ne _ _ _ h, update_ne _ _ _ h⟩
  have hp : s'.writes p = 1 := by
    show update s.writes p (s.writes p + 1) p = 1
    rw [update_same, hw]
  have hle : s.Le s' := ⟨fun h => h, fun h => h, fun h => h, fun {q} hq => ⟨hq, ne fun he => by rw [he, ho] at hq; cases hq⟩⟩
  refine ⟨⟨hle, fun j hj q => ⟨Iff.rfl, fun hq => ne fun he => ?_⟩⟩, ?_, update_same _ _ _, hp⟩
  · rw [he, ho] at hq
    injection hq with hq
    exact hj hq.symm
  · refine ⟨fun hc => ?_, fun {q} hq => ?_, fun {q} hq => ?_, fun q => ?_, fun {q t} hq ht => ?_⟩
    · obtain ⟨fuel, a, h1, h2⟩ := hi.cache hc
      exact ⟨fuel, a, h1, Denotes.le hle h2⟩
    · obtain ⟨t, h⟩ := hi.used hq
      exact ⟨t, h.le hle⟩
    · have : q ≠ p := fun he => by
        have hq : s.once q = .idle := hq
        rw [he, ho] at hq; cases hq
      rw [(ne this).2]; exact hi.idle hq
    · by_cases he : q = p
      · rw [he, hp]; exact Nat.le_refl _
      · rw [(ne he).2]; exact hi.writes q
    · have hq : s.once q = .done := hq
      have : q ≠ p := fun he => by rw [he, ho] at hq; cases hq
      rw [(ne this).1, (ne this).2]
      obtain ⟨h3, fuel, r, h4, h5⟩ := hi.done hq ⟨ht.1, ht.2⟩
      exact ⟨h3, fuel, r, h4, TableDenotes.le hle h5⟩

/-- The state after `leave`. -/
theorem leave_step {s : Shared} {p : Ptr} {t : TypeId} {r' : Except Err (List SField)} (hi : Inv env s) (hs : IsStructAt s p t) (hH : ∀ q, s.once q = .running i ↔ some p = some q) (hw : s.writes p = 1)
    (hr : TableDenotes s (s.vars p) r') (hf : ∃ fuel, makeStructFields env fuel t = .done r') :
    let s' : Shared := { s with once := update s.once p .done }
    Guar i s s' ∧ Inv env s' ∧ Hold i none s' ∧ s'.once p = .done := by
  intro s'
  have ho : s.once p = .running i := (hH p).2 rfl
  have hp : s'.once p = .done := update_same _ _ _
  have ne : ∀ {q}, q ≠ p → s'.once q = s.once q := fun {q} h => update_ne _ _ _ h
  have hle : s.Le s' := by
    refine ⟨fun h => h, fun h => h, fun {q} hq => ?_, fun {q} hq => ⟨?_, rfl, rfl⟩⟩
    · by_cases he : q = p
      · rw [he, hp] at hq; cases hq
      · rw [← ne he]; exact hq
    · by_cases he : q = p
      · rw [he, hp]
      · rw [ne he]; exact hq
  refine ⟨⟨hle, fun j hj q => ⟨?_, fun _ => ⟨rfl, rfl⟩⟩⟩, ?_, ⟨fun q => ?_, fun _ h => (by cases h)⟩, hp⟩
  · by_cases he : q = p
    · subst he
      rw [hp, ho]
      exact ⟨fun h => (by cases h), fun h => absurd (by injection h with h; exact h.symm) hj⟩
    · rw [ne he]
  · refine ⟨fun hc => ?_, fun {q} hq => ?_, fun {q} hq => hi.idle (hle.used hq), hi.writes, fun {q t'} hq ht => ?_⟩
    · obtain ⟨fuel, a, h1, h2⟩ := hi.cache hc
      exact ⟨fuel, a, h1, Denotes.le hle h2⟩
    · by_cases he : q = p
      · exact ⟨t, he ▸ hs.le hle⟩
      · rw [ne he] at hq
        obtain ⟨t, h⟩ := hi.used hq
        exact ⟨t, h.le hle⟩
    · by_cases he : q = p
      · subst he
        have h2 := ht.1
        have h2' : s.heap[q]? = some ⟨Ty.struct, .struct t'⟩ := h2
        rw [hs.1] at h2'
        cases h2'
        obtain ⟨fuel, h3⟩ := hf
        exact ⟨hw, fuel, r', h3, TableDenotes.le hle hr⟩
      · rw [ne he] at hq
        obtain ⟨h3, fuel, r, h4, h5⟩ := hi.done hq ⟨ht.1, ht.2⟩
        exact ⟨h3, fuel, r, h4, TableDenotes.le hle h5⟩
  · by_cases he : q = p
    · rw [he, hp]; simp
    · rw [ne he, hH q]
      exact ⟨fun h => (by cases h; exact absurd rfl he), fun h => (by cases h)⟩

/-- The table that every use of a struct arshaler finds. -/
theorem ctable_ref {lf n : Nat} (hn : n ≤ lf) (hT : T → Total env lf) {t : TypeId} {p : Ptr} {s : Shared} (hd : Denotes s p (.struct t)) (hs : Hold i none s) :
    Ref env T i (TableFound env i t none) (ctable env lf t p) (makeStructFields env n t).toC s := by
  have hread : ∀ {s : Shared} {w : CProg (Except Err (List SField))}, IsStructAt s p t → s.once p = .done → Hold i none s →
      (∀ fuel r', makeStructFields env fuel t = .done r' → w = .ret r' ∨ w = .diverge) → Ref env T i (TableFound env i t none) (.op (.read p)) w s := by
    intro s w h1 h2 h3 hw
    refine ⟨h2, fun s' hr hi r s'' hstep => ?_⟩
    cases hstep
    obtain ⟨_, fuel, r', h4, h5⟩ := hi.done (hr.1.done h2).1 (h1.le hr.1)
    exact ⟨guar_refl _ _, hi, r', ⟨h5, ⟨fuel, h4⟩, h3.rely hr⟩, hw fuel r' h4⟩
  have hspec : ∀ fuel r', makeStructFields env fuel t = .done r' → (makeStructFields env n t).toC = .ret r' ∨ (makeStructFields env n t).toC = .diverge := by
    intro fuel r' h4
    rcases makeStructFields_le env n (max n fuel) (Nat.le_max_left _ _) t with h6 | h6
    · rw [h6]; exact .inr rfl
    · rw [h6, (makeStructFields_le env fuel (max n fuel) (Nat.le_max_right _ _) t).done h4]; exact .inl rfl
  have hst : IsStructAt s p t := ⟨hd.2, hd.1⟩
  rw [ctable, onceDo]
  refine ⟨hs.none, fun s1 hr hi r s2 hstep => ?_⟩
  rw [SOp.step] at hstep
  split at hstep
  · rename_i ho
    cases hstep
    obtain ⟨k1, k2, k3⟩ := enter_step hi (hst.le hr.1) ho (hs.rely hr)
    refine ⟨k1, k2, ?_⟩
    have h0 := (hst.le hr.1).le k1.1
    dsimp only [CProg.bind]
    generalize ({ s1 with once := update s1.once p (.running i) } : Shared) = s2 at k1 k2 k3 h0
    have href : Ref env T i (TableFound env i t (some p)) (cmakeStructFields env (clookup env lf) t) (makeStructFields env lf t).toC s2 :=
      (cmakeStructFields_ref (T := False) lf t (some p) (fun h => h.elim) s2 k3).upgrade fun h => (hT h).table t
    refine Ref.lessOut ?_ (makeStructFields_le env n lf hn t)
    have hass : ∀ (s3 : Shared) (r : CTable) (r' : Except Err (List SField)), TableFound env i t (some p) s3 r r' ∧ s2.Le s3 →
        Ref env T i (TableFound env i t none) (((CProg.op (.assign p r)).bind fun _ => CProg.op (.leave p)).bind fun _ => .op (.read p)) (.ret r') s3 := by
      rintro s3 r r' ⟨⟨h1, hf, h3⟩, hle⟩
      refine ⟨⟨(h3.1 p).2 rfl, h3.2 p rfl⟩, fun s4 hr4 hi4 _ s5 hstep => ?_⟩
      cases hstep
      have h4 := h3.rely hr4
      obtain ⟨m1, m2, m3, m4⟩ := assign_step (r := r) hi4 ((h4.1 p).2 rfl) (h4.2 p rfl)
      refine ⟨m1, m2, ?_⟩
      have d5 := TableDenotes.le (hr4.1.trans m1.1) h1
      have o5 : ∀ q, ({ s4 with vars := update s4.vars p r, writes := update s4.writes p (s4.writes p + 1) } : Shared).once q = .running i ↔ some p = some q := h4.1
      have st5 := h0.le ((hle.trans hr4.1).trans m1.1)
      generalize ({ s4 with vars := update s4.vars p r, writes := update s4.writes p (s4.writes p + 1) } : Shared) = s5 at m1 m2 m3 m4 d5 o5 st5
      have own := (o5 p).2 rfl
      refine ⟨own, fun s6 hr6 hi6 _ s7 hstep => ?_⟩
      cases hstep
      have v6 := (hr6.2 p).2 own
      obtain ⟨n1, n2, n3, n4⟩ := leave_step hi6 (st5.le hr6.1) (fun q => (hr6.2 q).1.trans (o5 q)) (v6.2.trans m4) (by rw [v6.1, m3]; exact TableDenotes.le hr6.1 d5) hf
      refine ⟨n1, n2, ?_⟩
      have st7 := (st5.le hr6.1).le n1.1
      generalize ({ s6 with once := update s6.once p .done } : Shared) = s7 at n1 n2 n3 n4 st7
      obtain ⟨fuel, hf⟩ := hf
      exact hread st7 n4 n3 fun fuel' r'' h => .inl (by rw [table_unique hf h])
    rw [if_pos rfl, CProg.bind_assoc]
    exact href.frame.bindOut (g := .ret) hass
  · cases hstep
  · rename_i ho
    cases hstep
    exact ⟨guar_refl _ _, hi, hread (hst.le hr.1) ho (hs.rely hr) hspec⟩

end GoThrift
