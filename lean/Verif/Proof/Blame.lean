import Verif.Spec.Blame
import Verif.Proof.Table
import Verif.Proof.Decode
import Verif.Proof.FailFast

/-!
# What the errors of Marshal and Unmarshal say
-/

namespace GoThrift

open Spec

/-! ## Types -/

theorem Spec.Within.part {env : Env} {t'' t' t : TypeId} (h : Within env t' t) (hp : PartOf env t'' t') : Within env t'' t := by
  induction h with
  | refl => exact .step (.refl _) hp
  | step _ hq ih => exact .step ih hq

theorem fields_of_kind {env : Env} {t : TypeId} {fs : List FieldDecl} (h : (env.type t).kind = .struct fs) : env.fields t = fs := by
  simp only [Env.fields, h]

theorem ignored_parse (u : Unicode) {sf : FieldDecl} (h : Ignored sf) : ∃ o, parseFieldOptions u sf = .done (o, true, none) := by
  rw [parseFieldOptions]
  rcases h with h | ⟨h1, h2⟩
  · exact ⟨_, by rw [h]; exact if_pos (by decide)⟩
  · refine ⟨⟨0, [], false⟩, ?_⟩
    dsimp only
    rw [h2, if_neg (by decide), if_pos h1]
    rfl

theorem fieldLoop_error {env : Env} {fuel : Nat} {t : TypeId} {ds : List FieldDecl} {i : Nat} {e : Err} (h : fieldLoop env fuel t i ds = .done (.error e)) :
    (∃ c, e = .semanticE .marshal Ty.stop (some t) c) ∧ ∃ f ∈ ds, ¬ Ignored f ∧ ∀ id required, ¬ Declares env f id required := by
  induction ds generalizing i e with
  | nil => cases h
  | cons sf ds ih =>
    rw [fieldLoop] at h
    obtain ⟨⟨o, ignored, err⟩, hp⟩ := C17_terminates env.unicode sf
    rw [hp, Out.bind_done] at h
    dsimp only at h
    cases err with
    | some err =>
      cases h
      refine ⟨⟨_, rfl⟩, sf, List.mem_cons_self .., fun hi => ?_, fun id r hd => ?_⟩
      · obtain ⟨o', ho⟩ := ignored_parse env.unicode hi
        rw [ho] at hp; cases hp
      · have := declares_parse hd
        rw [this] at hp; cases hp
    | none =>
      dsimp only at h
      cases ignored with
      | true =>
        rw [if_pos rfl] at h
        obtain ⟨h1, f, h2, h3⟩ := ih h
        exact ⟨h1, f, List.mem_cons_of_mem _ h2, h3⟩
      | false =>
        rw [if_neg (by simp)] at h
        rcases lookup_total env fuel sf.typ with hl | ⟨a, hl⟩
        · rw [hl] at h; cases h
        · rw [hl, Out.bind_done] at h
          cases hrest : fieldLoop env fuel t (i + 1) ds with
          | done x =>
            rw [hrest, Out.bind_done] at h
            cases x with
            | ok fs => cases h
            | error e' =>
              cases h
              obtain ⟨h1, f, h2, h3⟩ := ih hrest
              exact ⟨h1, f, List.mem_cons_of_mem _ h2, h3⟩
          | blocked => rw [hrest] at h; cases h
          | diverged => rw [hrest] at h; cases h
          | panicked => rw [hrest] at h; cases h

theorem makeStructFields_error {env : Env} {fuel : Nat} {t : TypeId} {fs : List FieldDecl} (hk : (env.type t).kind = .struct fs) {e : Err}
    (h : makeStructFields env fuel t = .done (.error e)) : (∃ c, e = .semanticE .marshal Ty.stop (some t) c) ∧ BadStruct env t := by
  rw [makeStructFields, fields_of_kind hk] at h
  cases hl : fieldLoop env fuel t 0 fs with
  | done x =>
    rw [hl, Out.bind_done] at h
    cases x with
    | error e' =>
      cases h
      obtain ⟨h1, h2⟩ := fieldLoop_error hl
      exact ⟨h1, fs, hk, .inl h2⟩
    | ok all =>
      dsimp only at h
      split at h
      · rename_i hc
        cases h
        exact ⟨⟨_, rfl⟩, fs, hk, .inr ⟨hc.1, hc.2.1⟩⟩
      · cases h
  | blocked => rw [hl] at h; cases h
  | diverged => rw [hl] at h; cases h
  | panicked => rw [hl] at h; cases h

/-- What an arshaler says of its type. -/
theorem lookup_arsh {env : Env} {n : Nat} {t : TypeId} {a : Arsh} (h : lookupArshaler env n t = .done a) : match a with
    | .leaf t' l => t' = t ∧ MapsTo env t l.wireType
    | .struct t' => t' = t ∧ IsStruct env t ∧ MapsTo env t Ty.struct
    | .map t' ka ea => t' = t ∧ MapsTo env t Ty.map ∧ ∃ m k e, (env.type t).kind = .map k e ∧ lookupArshaler env m k = .done ka ∧ lookupArshaler env m e = .done ea
    | .seq t' isSet ea => t' = t ∧ MapsTo env t (if isSet then Ty.set else Ty.list) ∧ ∃ m e, (env.type t).kind = .slice e ∧ (env.type t).asBytes = false ∧ lookupArshaler env m e = .done ea
    | .ptr t' ea => t' = t ∧ ∃ m e, (env.type t).kind = .ptr e ∧ lookupArshaler env m e = .done ea
    | .invalid t' => t' = t ∧ (env.type t).kind = .other := by
  cases n with
  | zero => cases h
  | succ n =>
    have hc := lookup_cases h
    have hw := lookup_wireType h
    have maps : (∀ e, (env.type t).kind ≠ .ptr e) → (env.type t).kind ≠ .other → MapsTo env t a.wireType := by
      intro h1 h2
      refine ⟨?_, h1⟩
      rcases hw.2 with ⟨_, hu⟩ | h
      · cases hu with
        | other h => exact absurd h h2
        | ptr h => exact absurd h (h1 _)
      · exact h
    cases hk : (env.type t).kind with
    | map k e =>
      rw [hk] at hc
      obtain ⟨ka, ea, h1, h2, rfl⟩ := hc
      exact ⟨rfl, maps (by simp [hk]) (by simp [hk]), n, k, e, rfl, h1, h2⟩
    | slice e =>
      rw [hk] at hc
      rcases hc with ⟨hb, rfl⟩ | ⟨hb, ea, h1, rfl⟩
      · exact ⟨rfl, maps (by simp [hk]) (by simp [hk])⟩
      · exact ⟨rfl, maps (by simp [hk]) (by simp [hk]), n, e, rfl, hb, h1⟩
    | ptr e =>
      rw [hk] at hc
      obtain ⟨ea, h1, rfl⟩ := hc
      exact ⟨rfl, n, e, rfl, h1⟩
    | other => rw [hk] at hc; subst hc; exact ⟨rfl, rfl⟩
    | struct fs => rw [hk] at hc; subst hc; exact ⟨rfl, ⟨fs, hk⟩, maps (by simp [hk]) (by simp [hk])⟩
    | _ => rw [hk] at hc; subst hc; exact ⟨rfl, maps (by simp [hk]) (by simp [hk])⟩

/-! ## Programs that say what is the matter -/

variable {α β : Type} {bad : ROp → Err → Err → Prop} {fine : Err → Prop}

/-- Errors without a failed call are `fine`; if a call fails the program returns at once with a `bad` error. -/
def Blames (pr : α → Option Err) (bad : ROp → Err → Err → Prop) (fine : Err → Prop) : RProg α → Prop
  | .ret a => ∀ e, pr a = some e → fine e
  | .diverge | .panic => True
  | .call o k => (∀ err, ∃ a e, k (.error err) = .ret a ∧ pr a = some e ∧ bad o err e) ∧ ∀ a, Blames pr bad fine (k (.ok a))

theorem Blames.bind {pr : α → Option Err} {pr' : β → Option Err} {p : RProg α} {f : α → RProg β} (hp : Blames pr bad fine p) (hf : ∀ a, pr a = none → Blames pr' bad fine (f a))
    (he : ∀ a e, pr a = some e → ∃ b, f a = .ret b ∧ pr' b = some e) : Blames pr' bad fine (p.bind f) := by
  induction p with
  | ret a =>
    show Blames pr' bad fine (f a)
    cases h : pr a with
    | none => exact hf a h
    | some e =>
      obtain ⟨b, h1, h2⟩ := he a e h
      rw [h1]
      intro e' h3
      rw [h2] at h3
      cases h3
      exact hp e h
  | diverge => trivial
  | panic => trivial
  | call o k ih =>
    refine ⟨fun err => ?_, fun a => ih (.ok a) (hp.2 a)⟩
    obtain ⟨a, e, h1, h2, h3⟩ := hp.1 err
    obtain ⟨b, h4, h5⟩ := he a e h2
    exact ⟨b, e, by show (k (.error err)).bind f = _; rw [h1]; exact h4, h5, h3⟩

theorem Blames.ite {pr : α → Option Err} {c : Prop} [Decidable c] {p q : RProg α} (hp : c → Blames pr bad fine p) (hq : ¬ c → Blames pr bad fine q) : Blames pr bad fine (if c then p else q) := by
  by_cases h : c
  · rw [if_pos h]; exact hp h
  · rw [if_neg h]; exact hq h

theorem Blames.ok {pr : α → Option Err} {a : α} (h : pr a = none) : Blames pr bad fine (.ret a) := fun e he => by rw [h] at he; cases he

theorem Blames.err {a : α} {e : Err} (h : fine e) : Blames (α := α × Option Err) Prod.snd bad fine (.ret (a, some e)) := fun e' he => by cases he; exact h

/-! ### Skip -/

section Skip

theorem Blames.last (h : ∀ o e, bad o e e) (o : ROp) : Blames id bad fine (RProg.last o) := ⟨fun e => ⟨some e, e, rfl, rfl, h o e⟩, fun _ => .ok rfl⟩

theorem Blames.try' (h : ∀ o e, bad o e e) (o : ROp) {k : o.Ans → RProg (Option Err)} (hk : ∀ a, Blames id bad fine (k a)) : Blames id bad fine (RProg.try' o k) :=
  ⟨fun e => ⟨some e, e, rfl, rfl, h o e⟩, hk⟩

theorem Blames.andThen {p q : RProg (Option Err)} (hp : Blames id bad fine p) (hq : Blames id bad fine q) : Blames id bad fine (p.andThen q) := by
  refine hp.bind (fun a ha => ?_) (fun a e ha => ?_)
  · cases ha; exact hq
  · cases ha; exact ⟨_, rfl, rfl⟩

theorem Blames.loop {p q : RProg (Option Err)} (hp : Blames id bad fine p) (hq : Blames id bad fine q) (n : Nat) : Blames id bad fine (RProg.loop n p q) := by
  induction n with
  | zero => exact hq
  | succ n ih => exact hp.andThen ih

theorem blames_skip (h : ∀ o e, bad o e e) (hf : ∀ t, ¬ TVal.ValidTy t → fine (.invalidType t)) (fuel : Nat) :
    (∀ t, Blames id bad fine (skip fuel t)) ∧ Blames id bad fine (skipFields fuel) := by
  induction fuel with
  | zero => exact ⟨fun t => by rw [skip]; trivial, by rw [skipFields]; trivial⟩
  | succ fuel ih =>
    refine ⟨fun t => ?_, ?_⟩
    · rw [skip]
      refine .ite (fun _ => .last h _) fun h1 => .ite (fun _ => .last h _) fun h2 => .ite (fun _ => .last h _) fun h3 => .ite (fun _ => .last h _) fun h4 => .ite (fun _ => .last h _) fun h5 => ?_
      refine .ite (fun _ => .last h _) fun h6 => .ite (fun _ => .last h _) fun h7 => ?_
      refine .ite (fun _ => .try' h _ fun _ => ih.2) fun h8 => .ite (fun _ => .try' h _ fun hd => .loop ((ih.1 _).andThen (ih.1 _)) (.last h _) _) fun h9 => ?_
      refine .ite (fun _ => .try' h _ fun hd => .loop (ih.1 _) (.last h _) _) fun h10 => .ite (fun _ => .try' h _ fun hd => .loop (ih.1 _) (.last h _) _) fun h11 => ?_
      refine .ite (fun _ => .last h _) fun h12 => ?_
      intro e he
      cases he
      refine hf t fun hv => ?_
      simp only [TVal.ValidTy] at hv
      simp_all
    · rw [skipFields]
      exact .try' h _ fun hd => .ite (fun _ => .last h _) fun _ => (ih.1 _).andThen (.try' h _ fun _ => ih.2)

end Skip

/-! ### Unmarshal -/

section Unmarshal

variable {env : Env} {t0 : TypeId}

/-- The errors of unmarshalling. -/
abbrev UBlames (env : Env) (t0 : TypeId) (p : UProg α) : Prop := Blames (α := α × Option Err) Prod.snd (ReadBlames env t0) (UnmarshalBlames env t0) p

theorem ublames_rcall {act : String} {tt : WType} {t : TypeId} {o : ROp} {old : α} {k : o.Ans → UProg α} (hw : Within env t t0) (ht : MapsTo env t tt) (h1 : act = readName o)
    (h2 : tt = readType o) (hk : ∀ a, UBlames env t0 (k a)) : UBlames env t0 (rcall act tt t o old k) := by
  subst h1 h2
  exact ⟨fun e => ⟨_, _, rfl, rfl, .inl ⟨t, hw, ht, rfl⟩⟩, hk⟩

theorem ublames_andThen {p : UProg α} {fail : α → β} {k : α → UProg β} (hp : UBlames env t0 p) (hk : ∀ a, UBlames env t0 (k a)) : UBlames env t0 (UProg.andThen p fail k) := by
  refine hp.bind (fun a ha => ?_) (fun a e ha => ?_)
  · obtain ⟨a, x⟩ := a
    cases ha
    exact hk a
  · obtain ⟨a, x⟩ := a
    cases ha
    exact ⟨_, rfl, rfl⟩

theorem ublames_seqLoop {u : GoVal → UProg GoVal} (hu : ∀ v, UBlames env t0 (u v)) (zero : GoVal) (grow : Nat → Nat) (n : Nat) (done rest : List GoVal) (mz : Bool) :
    UBlames env t0 (seqLoop u zero grow n done rest mz) := by
  induction n generalizing done rest mz with
  | zero => exact .ok rfl
  | succ n ih =>
    rw [seqLoop]
    split
    · trivial
    · exact ublames_andThen (hu _) fun _ => ih _ _ _

theorem ublames_mapLoop {uk : UProg GoVal} {uv : GoVal → UProg GoVal} (hk : UBlames env t0 uk) (hv : ∀ v, UBlames env t0 (uv v)) (zero : GoVal) (n : Nat) (es : List (GoVal × GoVal)) :
    UBlames env t0 (mapLoop uk uv zero n es) := by
  induction n generalizing es with
  | zero => exact .ok rfl
  | succ n ih => exact ublames_andThen hk fun _ => ublames_andThen (hv _) fun _ => ih _

theorem blames_elim {pr : α → Option Err} {x : Out β} {k : β → RProg α} (hk : ∀ a, x = .done a → Blames pr bad fine (k a)) : Blames pr bad fine (x.elim .panic .diverge k) := by
  cases x with
  | done a => exact hk a rfl
  | blocked => trivial
  | diverged => trivial
  | panicked => trivial

theorem ublames_leaf {t : TypeId} {l : Leaf} (hw : Within env t t0) (ht : MapsTo env t l.wireType) (old : GoVal) (wt : WType) : UBlames env t0 (unmarshalLeaf env t l old wt) := by
  unfold unmarshalLeaf
  refine .ite (fun h => .err (.mismatch hw ht h)) fun _ => ?_
  cases l with
  | bytes =>
    cases old with
    | bytes b => exact ublames_rcall hw ht rfl rfl fun _ => .ok rfl
    | _ => trivial
  | _ => exact ublames_rcall hw ht rfl rfl fun _ => .ok rfl

theorem ublames_unmarshal (env : Env) (t0 : TypeId) (sk fuel : Nat) :
    (∀ n t a old wt, lookupArshaler env n t = .done a → Within env t t0 → UBlames env t0 (unmarshal env sk fuel a old wt)) ∧
    (∀ n t fs vals, Table env n t fs → IsStruct env t → Within env t t0 → UBlames env t0 (unmarshalFields env sk fuel t fs vals)) := by
  induction fuel with
  | zero => exact ⟨fun _ _ _ _ _ _ _ => by rw [unmarshal]; trivial, fun _ _ _ _ _ _ _ => by rw [unmarshalFields]; trivial⟩
  | succ fuel ih =>
    obtain ⟨ih1, ih2⟩ := ih
    constructor
    · intro n t a old wt hl hw
      have ha := lookup_arsh hl
      cases a with
      | leaf t' l =>
        obtain ⟨rfl, hm⟩ := ha
        rw [unmarshal]
        exact ublames_leaf hw hm old wt
      | struct t' =>
        obtain ⟨rfl, ⟨ds, hk⟩, hm⟩ := ha
        rw [unmarshal]
        refine blames_elim fun r hr => ?_
        cases r with
        | error e =>
          obtain ⟨⟨c, rfl⟩, hb⟩ := makeStructFields_error hk hr
          exact .err (.fields c hw hb)
        | ok fs =>
          dsimp only
          refine .ite (fun h => .err (.mismatch hw hm h)) fun _ => ?_
          split
          · trivial
          · exact ublames_rcall hw hm rfl rfl fun _ => ih2 _ _ _ _ (makeStructFields_table env _ _ _ hr) ⟨ds, hk⟩ hw
      | map t' ka ea =>
        obtain ⟨rfl, hm, m, k, e, hk, h1, h2⟩ := ha
        have hpk : Within env k t0 := hw.part (by simp only [PartOf, hk, true_or])
        have hpe : Within env e t0 := hw.part (by simp only [PartOf, hk, or_true])
        rw [unmarshal, unmarshalMap]
        refine .ite (fun h => .err (.mismatch hw hm h)) fun _ => ?_
        split
        · trivial
        · refine ublames_rcall hw hm rfl rfl fun h => .ite (fun _ => ?_) fun _ => ?_
          · exact ublames_andThen (ublames_mapLoop (ih1 _ _ _ _ _ h1 hpk) (fun _ => ih1 _ _ _ _ _ h2 hpe) _ _ _) fun _ => ublames_rcall hw hm rfl rfl fun _ => .ok rfl
          · exact ublames_rcall hw hm rfl rfl fun _ => .ok rfl
      | seq t' isSet ea =>
        obtain ⟨rfl, hm, m, e, hk, hb, h1⟩ := ha
        have hpe : Within env e t0 := hw.part (by simp only [PartOf, hk]; exact ⟨hb, trivial⟩)
        have body : ∀ (h : SetHeader) (fin : GoVal → UProg GoVal), (∀ v, UBlames env t0 (fin v)) →
            UBlames env t0 (seqBody env t' ea.typ (fun wt v => unmarshal env sk fuel ea v wt) old h fin) := by
          intro h fin hfin
          exact .ite (fun _ => ublames_andThen (ublames_seqLoop (fun _ => ih1 _ _ _ _ _ h1 hpe) _ _ _ _ _ _) fun _ => hfin _) fun _ => hfin _
        rw [unmarshal, unmarshalSeq]
        refine .ite (fun h => .err (.mismatch hw hm h)) fun _ => .ite (fun _ => trivial) fun _ => .ite (fun hs => ?_) fun hs => ?_
        · rw [if_pos hs] at hm
          exact ublames_rcall hw hm rfl rfl fun h => body h _ fun _ => ublames_rcall hw hm rfl rfl fun _ => .ok rfl
        · rw [if_neg hs] at hm
          exact ublames_rcall hw hm rfl rfl fun h => body h _ fun _ => ublames_rcall hw hm rfl rfl fun _ => .ok rfl
      | ptr t' ea =>
        obtain ⟨rfl, m, e, hk, h1⟩ := ha
        rw [unmarshal]
        split
        · trivial
        · exact ublames_andThen (ih1 _ _ _ _ _ h1 (hw.part (by simp only [PartOf, hk]))) fun _ => .ok rfl
      | invalid t' =>
        obtain ⟨rfl, hk⟩ := ha
        rw [unmarshal]
        exact .err (.unsupported _ hw hk)
    · intro n t fs vals ht hs hw
      have hm : MapsTo env t Ty.struct := by
        obtain ⟨ds, hk⟩ := hs
        exact ⟨.struct hk, by simp [hk]⟩
      rw [unmarshalFields]
      refine ublames_rcall hw hm rfl rfl fun h => .ite (fun _ => ublames_rcall hw hm rfl rfl fun _ => .ok rfl) fun _ => ?_
      have next : ∀ vals, UBlames env t0 (rcall "ReadFieldEnd" Ty.struct t .fieldEnd (GoVal.struct vals) fun _ => unmarshalFields env sk fuel t fs vals) :=
        fun vals => ublames_rcall hw hm rfl rfl fun _ => ih2 _ _ _ _ ht hs hw
      dsimp only
      split
      · refine Blames.bind (pr := id) ((blames_skip (fun _ _ => .inr ⟨rfl, t, hw, hs⟩) (fun w hv => .unknown w hw hs hv) sk).1 _) (fun x hx => ?_) fun x e hx => ?_
        · cases hx; exact next _
        · cases hx; exact ⟨_, rfl, rfl⟩
      · rename_i f hf
        split
        · trivial
        · obtain ⟨hmem, _⟩ := byID_some hf
          obtain ⟨d, h1, _, _, _, h2⟩ := ht.mem f hmem
          refine ublames_andThen (ih1 _ _ _ _ _ h2 (hw.part ?_)) fun _ => next _
          obtain ⟨ds, hk⟩ := hs
          rw [fields_of_kind hk] at h1
          simp only [PartOf, hk]
          exact ⟨d, List.mem_of_getElem? h1, rfl⟩

end Unmarshal

/-- What the log of a run looks like. -/
theorem blames_run {S : Type} {pr : α → Option Err} (r : Rdr S) (p : RProg α) (hp : Blames pr bad fine p) (s s' : S) (log0 log : List (ROp × Option Err)) (a : α)
    (hrun : p.run (loggedR r) (s, log0) = .done (a, (s', log))) :
    (∃ os : List ROp, log = log0 ++ os.map (·, none) ∧ ∀ e, pr a = some e → fine e) ∨
    (∃ (os : List ROp) (o : ROp) (err e : Err), log = log0 ++ os.map (·, none) ++ [(o, some err)] ∧ pr a = some e ∧ bad o err e) := by
  induction p generalizing s log0 with
  | ret x => cases hrun; exact .inl ⟨[], by simp, hp⟩
  | diverge => cases hrun
  | panic => cases hrun
  | call o k ih =>
    rw [RProg.run] at hrun
    simp only [loggedR] at hrun
    cases hstep : r.step o s with
    | done x =>
      obtain ⟨x, s1⟩ := x
      rw [hstep] at hrun
      simp only [Out.bind_done] at hrun
      cases x with
      | error err =>
        obtain ⟨b, e, h1, h2, h3⟩ := hp.1 err
        rw [h1] at hrun
        cases hrun
        exact .inr ⟨[], o, err, e, by simp, h2, h3⟩
      | ok v =>
        rcases ih (.ok v) (hp.2 v) s1 _ hrun with ⟨os, h1, h2⟩ | ⟨os, o', err, e, h1, h2⟩
        · exact .inl ⟨o :: os, by rw [h1]; simp, h2⟩
        · exact .inr ⟨o :: os, o', err, e, by rw [h1]; simp, h2⟩
    | blocked => rw [hstep] at hrun; cases hrun
    | diverged => rw [hstep] at hrun; cases hrun
    | panicked => rw [hstep] at hrun; cases hrun

/-! ### Marshal -/

section Marshal

variable {env : Env} {t0 : TypeId}

/-- The same for marshalling. -/
def WBlames (env : Env) (t0 : TypeId) : WProg → Prop
  | .ret e => ∀ x, e = some x → MarshalBlames env t0 x
  | .diverge | .panic => True
  | .call o k => (∀ err, ∃ e, k (some err) = .ret (some e) ∧ WriteBlames env t0 o err e) ∧ WBlames env t0 (k none)

theorem WBlames.ok : WBlames env t0 (.ret none) := fun _ h => by cases h

theorem WBlames.err {e : Err} (h : MarshalBlames env t0 e) : WBlames env t0 (.ret (some e)) := fun _ h' => by cases h'; exact h

theorem WBlames.andThen {p q : WProg} (hp : WBlames env t0 p) (hq : WBlames env t0 q) : WBlames env t0 (p.andThen q) := by
  induction p with
  | ret e => cases e with
    | none => exact hq
    | some e => exact hp
  | diverge => trivial
  | panic => trivial
  | call o k ih =>
    refine ⟨fun err => ?_, ih none hp.2⟩
    obtain ⟨e, h1, h2⟩ := hp.1 err
    exact ⟨e, by dsimp only; rw [h1]; rfl, h2⟩

theorem wblames_wcall {act : String} {tt : WType} {t : TypeId} {o : WOp} {k : WProg} (hw : Within env t t0) (ht : MapsTo env t tt) (h1 : act = methodName o) (h2 : tt = writeType o)
    (hk : WBlames env t0 k) : WBlames env t0 (wcall act tt t o k) := by
  subst h1 h2
  exact ⟨fun e => ⟨_, rfl, t, hw, ht, rfl⟩, hk⟩

theorem wblames_elim {x : Out β} {k : β → WProg} (hk : ∀ a, x = .done a → WBlames env t0 (k a)) : WBlames env t0 (x.elim .panic .diverge k) := by
  cases x with
  | done a => exact hk a rfl
  | blocked => trivial
  | diverged => trivial
  | panicked => trivial

theorem wblames_leaf {t : TypeId} {l : Leaf} (hw : Within env t t0) (ht : MapsTo env t l.wireType) (v : GoVal) : WBlames env t0 (marshalLeaf env t l v) := by
  unfold marshalLeaf
  split
  all_goals first
    | exact wblames_wcall hw ht rfl rfl .ok
    | trivial

theorem wblames_elems {m : GoVal → WProg} (hm : ∀ v, WBlames env t0 (m v)) {k : WProg} (hk : WBlames env t0 k) (vs : List GoVal) : WBlames env t0 (marshalElems m k vs) := by
  induction vs with
  | nil => exact hk
  | cons v vs ih => exact (hm v).andThen ih

theorem wblames_entries {mk mv : GoVal → WProg} (hmk : ∀ v, WBlames env t0 (mk v)) (hmv : ∀ v, WBlames env t0 (mv v)) {k : WProg} (hk : WBlames env t0 k) (es : List (GoVal × GoVal)) :
    WBlames env t0 (marshalEntries mk mv k es) := by
  induction es with
  | nil => exact hk
  | cons e es ih => exact (hmk _).andThen ((hmv _).andThen ih)

theorem unsupported_of_stop {n : Nat} {t : TypeId} {a : Arsh} (h : lookupArshaler env n t = .done a) (hs : a.wireType = Ty.stop) : Unsupported env t := by
  rcases (lookup_wireType h).2 with ⟨_, h⟩ | h
  · exact h
  · exact absurd hs h.ne_stop

theorem wblames_marshal (env : Env) (t0 : TypeId) (fuel : Nat) : ∀ n t a v, lookupArshaler env n t = .done a → Within env t t0 → WBlames env t0 (marshal env fuel a v) := by
  induction fuel with
  | zero => intro _ _ _ _ _ _; rw [marshal]; trivial
  | succ fuel ih =>
    intro n t a v hl hw
    have ha := lookup_arsh hl
    cases a with
    | leaf t' l =>
      obtain ⟨rfl, hm⟩ := ha
      rw [marshal]
      exact wblames_leaf hw hm v
    | struct t' =>
      obtain ⟨rfl, ⟨ds, hk⟩, hm⟩ := ha
      rw [marshal]
      refine wblames_elim fun r hr => ?_
      cases r with
      | error e =>
        obtain ⟨⟨c, rfl⟩, hb⟩ := makeStructFields_error hk hr
        exact .err (.fields c hw hb)
      | ok fs =>
        have ht := makeStructFields_table env _ _ _ hr
        dsimp only
        split
        · trivial
        · rename_i vals _
          refine wblames_wcall hw hm rfl rfl ?_
          have close : WBlames env t0 (wcall "WriteStructEnd" Ty.struct t' .structEnd (.ret none)) := wblames_wcall hw hm rfl rfl .ok
          have : ∀ gs : List SField, (∀ f ∈ gs, f ∈ fs) →
              WBlames env t0 (marshalFields env (marshal env fuel) t' vals (wcall "WriteStructEnd" Ty.struct t' .structEnd (.ret none)) gs) := by
            intro gs
            induction gs with
            | nil => intro _; exact close
            | cons f gs ihg =>
              intro hmem
              obtain ⟨d, h1, _, _, hft, h2⟩ := ht.mem f (hmem f (List.mem_cons_self ..))
              have hpart : Within env d.typ t0 := by
                refine hw.part ?_
                rw [fields_of_kind hk] at h1
                simp only [PartOf, hk]
                exact ⟨d, List.mem_of_getElem? h1, rfl⟩
              have ihg := ihg fun g hg => hmem g (List.mem_cons_of_mem _ hg)
              rw [marshalFields]
              split
              · rename_i hst
                rw [hft]
                exact .err (.unsupported hpart (unsupported_of_stop h2 hst))
              · split
                · trivial
                · split
                  · exact ihg
                  · exact wblames_wcall hw hm rfl rfl ((ih _ _ _ _ h2 hpart).andThen (wblames_wcall hw hm rfl rfl ihg))
          exact this fs fun _ h => h
    | map t' ka ea =>
      obtain ⟨rfl, hm, m, k, e, hk, h1, h2⟩ := ha
      have hpk : Within env k t0 := hw.part (by simp only [PartOf, hk, true_or])
      have hpe : Within env e t0 := hw.part (by simp only [PartOf, hk, or_true])
      rw [marshal]
      split
      · rename_i hst
        exact .err (.entry hw hk (hst.imp (unsupported_of_stop h1) (unsupported_of_stop h2)))
      · split
        · trivial
        · exact wblames_wcall hw hm rfl rfl (wblames_entries (fun _ => ih _ _ _ _ h1 hpk) (fun _ => ih _ _ _ _ h2 hpe) (wblames_wcall hw hm rfl rfl .ok) _)
    | seq t' isSet ea =>
      obtain ⟨rfl, hm, m, e, hk, hb, h1⟩ := ha
      have hpe : Within env e t0 := hw.part (by simp only [PartOf, hk]; exact ⟨hb, trivial⟩)
      rw [marshal]
      split
      · rename_i hst
        exact .err (.elem hw hk hm (unsupported_of_stop h1 hst))
      · split
        · trivial
        · rw [marshalSeq]
          split
          · rename_i hs
            rw [if_pos hs] at hm
            exact wblames_wcall hw hm rfl rfl (wblames_elems (fun _ => ih _ _ _ _ h1 hpe) (wblames_wcall hw hm rfl rfl .ok) _)
          · rename_i hs
            rw [if_neg hs] at hm
            exact wblames_wcall hw hm rfl rfl (wblames_elems (fun _ => ih _ _ _ _ h1 hpe) (wblames_wcall hw hm rfl rfl .ok) _)
    | ptr t' ea =>
      obtain ⟨rfl, m, e, hk, h1⟩ := ha
      rw [marshal]
      split
      · trivial
      · exact ih _ _ _ _ h1 (hw.part (by simp only [PartOf, hk]))
    | invalid t' =>
      obtain ⟨rfl, hk⟩ := ha
      rw [marshal]
      exact .err (.unsupported hw (.other hk))

theorem wblames_run {S : Type} (w : Wtr S) (p : WProg) (hp : WBlames env t0 p) (s s' : S) (log0 log : List (WOp × Option Err)) (a : Option Err)
    (hrun : p.run (loggedW w) (s, log0) = .done (a, (s', log))) :
    (∃ os : List WOp, log = log0 ++ os.map (·, none) ∧ ∀ e, a = some e → MarshalBlames env t0 e) ∨
    (∃ (os : List WOp) (o : WOp) (err e : Err), log = log0 ++ os.map (·, none) ++ [(o, some err)] ∧ a = some e ∧ WriteBlames env t0 o err e) := by
  induction p generalizing s log0 with
  | ret x => cases hrun; exact .inl ⟨[], by simp, hp⟩
  | diverge => cases hrun
  | panic => cases hrun
  | call o k ih =>
    rw [WProg.run] at hrun
    simp only [loggedW] at hrun
    cases hstep : w.step o s with
    | done x =>
      obtain ⟨x, s1⟩ := x
      rw [hstep] at hrun
      simp only [Out.bind_done] at hrun
      cases x with
      | some err =>
        obtain ⟨e, h1, h2⟩ := hp.1 err
        rw [h1] at hrun
        cases hrun
        exact .inr ⟨[], o, err, e, by simp, rfl, h2⟩
      | none =>
        rcases ih none hp.2 s1 _ hrun with ⟨os, h1, h2⟩ | ⟨os, o', err, e, h1, h2⟩
        · exact .inl ⟨o :: os, by rw [h1]; simp, h2⟩
        · exact .inr ⟨o :: os, o', err, e, by rw [h1]; simp, h2⟩
    | blocked => rw [hstep] at hrun; cases hrun
    | diverged => rw [hstep] at hrun; cases hrun
    | panicked => rw [hstep] at hrun; cases hrun

end Marshal

end GoThrift
