import Verif.Model.StackM
import Verif.Spec.Room
import Verif.Proof.StackU
import Verif.Proof.Marshal
import Verif.Proof.Strict

/-!
# How many frames Marshal and Unmarshal take
-/

namespace GoThrift

open Spec Spec.TVal

/-! ## Marshal -/

section
variable {S : Type} {w : Wtr S}

/-- If the unlimited program succeeds, the limited one is the same if there is room, and panics otherwise. -/
def OrPanics (w : Wtr S) (R : Prop) (p' p : WProg) : Prop := ∀ s s', p.run w s = .done (none, s') → (R → p' = p) ∧ (¬ R → p'.run w s = .panicked)

theorem OrPanics.refl (p : WProg) : OrPanics w True p p := fun _ _ _ => ⟨fun _ => rfl, fun h => absurd trivial h⟩

theorem OrPanics.imp {R R' : Prop} {p' p : WProg} (h : OrPanics w R p' p) (hi : R ↔ R') : OrPanics w R' p' p := by rw [← hi]; exact h

theorem OrPanics.never {R : Prop} {p' p : WProg} (h : ∀ s s', p.run w s ≠ .done (none, s')) : OrPanics w R p' p := fun s s' hr => absurd hr (h s s')

theorem OrPanics.panic {R : Prop} {p : WProg} (h : ¬ R) : OrPanics w R .panic p := fun _ _ _ => ⟨fun hr => absurd hr h, fun _ => rfl⟩

theorem OrPanics.wcall {R : Prop} {p' p : WProg} {act : String} {tt : WType} {t : TypeId} {o : WOp} (h : OrPanics w R p' p) : OrPanics w R (wcall act tt t o p') (wcall act tt t o p) := by
  intro s s' hr
  rw [GoThrift.wcall, WProg.run] at hr
  cases hx : w.step o s with
  | done x =>
    obtain ⟨e, s1⟩ := x
    rw [hx, Out.bind_done] at hr
    cases e with
    | some e => cases hr
    | none =>
      obtain ⟨h1, h2⟩ := h s1 s' hr
      refine ⟨fun hR => by rw [h1 hR], fun hR => ?_⟩
      rw [GoThrift.wcall, WProg.run, hx, Out.bind_done]
      exact h2 hR
  | blocked => rw [hx] at hr; cases hr
  | diverged => rw [hx] at hr; cases hr
  | panicked => rw [hx] at hr; cases hr

theorem OrPanics.andThen {R R2 : Prop} {p' p q' q : WProg} (hp : OrPanics w R p' p) (hq : OrPanics w R2 q' q) : OrPanics w (R ∧ R2) (p'.andThen q') (p.andThen q) := by
  intro s s' hr
  obtain ⟨s1, h1, h2⟩ := wrun_andThen_none hr
  obtain ⟨a1, a2⟩ := hp s s1 h1
  obtain ⟨b1, b2⟩ := hq s1 s' h2
  refine ⟨fun h => by rw [a1 h.1, b1 h.2], fun h => ?_⟩
  rw [wrun_andThen]
  by_cases hR : R
  · rw [a1 hR, h1, Out.bind_done]
    exact b2 fun h2 => h ⟨hR, h2⟩
  · rw [a2 hR]; rfl

theorem OrPanics.elems {R : GoVal → Prop} {m' m : GoVal → WProg} {k : WProg} (vs : List GoVal) (hm : ∀ v ∈ vs, OrPanics w (R v) (m' v) (m v)) :
    OrPanics w (∀ v ∈ vs, R v) (marshalElems m' k vs) (marshalElems m k vs) := by
  induction vs with
  | nil => exact (OrPanics.refl k).imp (by simp)
  | cons v vs ih => exact ((hm v (by simp)).andThen (ih fun v hv => hm v (by simp [hv]))).imp (by simp)

theorem OrPanics.entries {RK RV : GoVal → Prop} {mk' mk mv' mv : GoVal → WProg} {k : WProg} (es : List (GoVal × GoVal)) (hk : ∀ e ∈ es, OrPanics w (RK e.1) (mk' e.1) (mk e.1))
    (hv : ∀ e ∈ es, OrPanics w (RV e.2) (mv' e.2) (mv e.2)) : OrPanics w ((∀ e ∈ es, RK e.1) ∧ ∀ e ∈ es, RV e.2) (marshalEntries mk' mv' k es) (marshalEntries mk mv k es) := by
  induction es with
  | nil => exact (OrPanics.refl k).imp (by simp)
  | cons e es ih =>
    refine ((hk e (by simp)).andThen ((hv e (by simp)).andThen (ih (fun e he => hk e (by simp [he])) fun e he => hv e (by simp [he])))).imp ?_
    simp only [List.mem_cons, forall_eq_or_imp]
    constructor
    · exact fun ⟨a, b, c, d⟩ => ⟨⟨a, c⟩, b, d⟩
    · exact fun ⟨⟨a, c⟩, b, d⟩ => ⟨a, b, c, d⟩

theorem OrPanics.fields {env : Env} {R : SField → GoVal → Prop} {m' m : Arsh → GoVal → WProg} {t : TypeId} {vals : List GoVal} {k : WProg} (fs : List SField)
    (hm : ∀ f ∈ fs, ∀ v, vals[f.index]? = some v → OrPanics w (R f v) (m' f.a v) (m f.a v)) :
    OrPanics w (∀ f ∈ fs, ∀ v, vals[f.index]? = some v → (f.required = true ∨ reportsZero env f.typ v = false) → R f v) (marshalFields env m' t vals k fs) (marshalFields env m t vals k fs) := by
  induction fs with
  | nil => exact (OrPanics.refl k).imp (by simp)
  | cons f fs ih =>
    have ih := ih fun f hf => hm f (by simp [hf])
    rw [marshalFields, marshalFields]
    by_cases hst : f.a.wireType = Ty.stop
    · rw [if_pos hst, if_pos hst]
      exact .never fun s s' h => by cases h
    · rw [if_neg hst, if_neg hst]
      cases hv : vals[f.index]? with
      | none => exact .never fun s s' h => by cases h
      | some v =>
        dsimp only
        by_cases hz : f.required = false ∧ reportsZero env f.typ v = true
        · rw [if_pos hz, if_pos hz]
          refine ih.imp ⟨fun h g hg v' hv' hw => ?_, fun h g hg => h g (by simp [hg])⟩
          rcases List.mem_cons.1 hg with rfl | hg
          · rw [hv] at hv'
            cases hv'
            simp [hz] at hw
          · exact h g hg v' hv' hw
        · rw [if_neg hz, if_neg hz]
          refine (((hm f (by simp) v hv).andThen ih.wcall).wcall).imp ⟨fun h g hg v' hv' hw => ?_, fun h => ⟨h f (by simp) v hv ?_, fun g hg => h g (by simp [hg])⟩⟩
          · rcases List.mem_cons.1 hg with rfl | hg
            · rw [hv] at hv'
              cases hv'
              exact h.1
            · exact h.2 g hg v' hv' hw
          · cases h1 : f.required <;> cases h2 : reportsZero env f.typ v <;> simp_all

theorem OrPanics.seq {R : GoVal → Prop} {m' m : GoVal → WProg} {t : TypeId} {isSet : Bool} {et : WType} (vs : List GoVal) (hm : ∀ v ∈ vs, OrPanics w (R v) (m' v) (m v)) :
    OrPanics w (∀ v ∈ vs, R v) (marshalSeq t isSet et m' vs) (marshalSeq t isSet et m vs) := by
  rw [marshalSeq, marshalSeq]
  cases isSet <;> exact (OrPanics.elems vs hm).wcall

theorem marshalS_room (env : Env) (fuel : Nat) : ∀ d n t a v, lookupArshaler env n t = .done a → HasType env t v → OrPanics w (RoomV env t v d) (marshalS env fuel d a v) (marshal env fuel a v) := by
  induction fuel with
  | zero => intro d n t a v _ _; rw [marshalS, marshal]; exact .never fun s s' h => by cases h
  | succ fuel ih =>
    intro d n t a v hl ht
    cases d with
    | zero => rw [marshalS]; exact .panic fun h => by cases h
    | succ d =>
    have ha := lookup_arsh hl
    cases a with
    | leaf t' l =>
      obtain ⟨rfl, hm⟩ := ha
      rw [marshalS, marshal]
      intro s s' h
      refine ⟨fun _ => rfl, fun hr => ?_⟩
      have : Wrapped (marshalLeaf env t' l v) := by
        have := wrapped_marshal env 1 (.leaf t' l) v
        rwa [marshal] at this
      obtain ⟨ops, h1, _⟩ := wrapped_ok this h []
      obtain ⟨tv, h2, _⟩ := marshalLeaf_ok h1
      exact absurd (.scalar (leafTVal_rep hl h2)) hr
    | struct t' =>
      obtain ⟨rfl, ⟨fields, hk⟩, _⟩ := ha
      rw [marshalS, marshal]
      cases hx : makeStructFields env fuel t' with
      | done x =>
        cases x with
        | error e => exact .never fun s s' h => by cases h
        | ok fs =>
          dsimp only [Out.elim]
          have htab := makeStructFields_table env fuel t' fs hx
          have hfs := fields_struct hk
          cases v with
          | struct vals =>
            dsimp only [GoVal.fields?]
            have hvt : ∀ (i : Nat) f v, fields[i]? = some f → vals[i]? = some v → HasType env f.typ v := by
              have := (everywhereFields_iff _ _).1 ht.2
              rw [hfs] at this
              exact this
            refine ((OrPanics.fields (R := fun f v => RoomV env f.typ v d) fs fun f hf v hv => ?_).wcall).imp ⟨fun h => .struct hk fun i f v h1 h2 h3 => ?_, fun h f hf v hv hw => ?_⟩
            · obtain ⟨dc, d1, d2, d3, d4, d5⟩ := htab.mem f hf
              rw [hfs] at d1
              rw [d4]
              exact ih d fuel dc.typ f.a v d5 (hvt _ _ _ d1 hv)
            · obtain ⟨id, req, h4, h5⟩ := h3
              rcases htab.all i f (by rw [hfs]; exact h1) with h6 | ⟨sf, h6, rfl⟩
              · exact absurd h4 h6.not_declares
              · obtain ⟨dc, d1, d2, d3, d4, d5⟩ := htab.mem sf h6
                rw [hfs, h1] at d1
                cases d1
                rw [← d4]
                exact h sf h6 v h2 (by rw [d4, (d2.unique h4).2]; exact h5)
            · obtain ⟨dc, d1, d2, d3, d4, d5⟩ := htab.mem f hf
              rw [hfs] at d1
              cases h with
              | struct hk' h =>
                rw [hk] at hk'
                cases hk'
                rw [d4]
                exact h f.index dc v d1 hv ⟨_, _, d2, by rw [← d4]; exact hw⟩
              | scalar h => cases h
              | slice hk' => rw [hk] at hk'; cases hk'
              | map hk' => rw [hk] at hk'; cases hk'
          | _ => exact .never fun s s' h => by cases h
      | blocked => exact .never fun s s' h => by cases h
      | diverged => exact .never fun s s' h => by cases h
      | panicked => exact .never fun s s' h => by cases h
    | map t' ka ea =>
      obtain ⟨rfl, _, m, k, e, hk, h1, h2⟩ := ha
      rw [marshalS, marshal]
      by_cases hw : ka.wireType = Ty.stop ∨ ea.wireType = Ty.stop
      · rw [if_pos hw, if_pos hw]; exact .never fun s s' h => by cases h
      · rw [if_neg hw, if_neg hw]
        cases he : v.entries? with
        | none => exact .never fun s s' h => by cases h
        | some es =>
          have hes : entriesOf v = es ∧ ∀ x ∈ es, HasType env k x.1 ∧ HasType env e x.2 := by
            cases v with
            | mapNil => cases he; exact ⟨rfl, by simp⟩
            | map es' =>
              cases he
              have := (everywhereEntries_iff _).1 ht.2
              rw [keyType_map hk, elemType_map hk] at this
              exact ⟨rfl, this⟩
            | _ => cases he
          obtain ⟨he1, he2⟩ := hes
          refine ((OrPanics.entries (RK := fun x => RoomV env k x d) (RV := fun x => RoomV env e x d) es (fun x hx => ih d m k ka _ h1 (he2 x hx).1)
            (fun x hx => ih d m e ea _ h2 (he2 x hx).2)).wcall).imp ⟨fun h => .map hk (by rw [he1]; exact h.1) (by rw [he1]; exact h.2), fun h => ?_⟩
          cases h with
          | map hk' a b => rw [hk] at hk'; cases hk'; rw [he1] at a b; exact ⟨a, b⟩
          | ptr hk' => rw [hk] at hk'; cases hk'
          | ptrNil hk' => rw [hk] at hk'; cases hk'
          | slice hk' => rw [hk] at hk'; cases hk'
          | struct hk' => rw [hk] at hk'; cases hk'
          | scalar h => cases h <;> cases he
    | seq t' isSet ea =>
      obtain ⟨rfl, _, m, e, hk, hb, h1⟩ := ha
      rw [marshalS, marshal]
      by_cases hw : ea.wireType = Ty.stop
      · rw [if_pos hw, if_pos hw]; exact .never fun s s' h => by cases h
      · rw [if_neg hw, if_neg hw]
        cases he : v.elems? with
        | none => exact .never fun s s' h => by cases h
        | some es =>
          have hes : elemsOf v = es ∧ ∀ x ∈ es, HasType env e x := by
            cases v with
            | sliceNil => cases he; exact ⟨rfl, by simp⟩
            | slice es' sp =>
              cases he
              have := (everywhereElems_iff _).1 ht.2
              rw [elemType_slice hk] at this
              exact ⟨rfl, this⟩
            | _ => cases he
          obtain ⟨he1, he2⟩ := hes
          refine (OrPanics.seq (R := fun x => RoomV env e x d) es fun x hx => ih d m e ea _ h1 (he2 x hx)).imp ⟨fun h => .slice hk hb (by rw [he1]; exact h), fun h => ?_⟩
          cases h with
          | slice hk' _ a => rw [hk] at hk'; cases hk'; rw [he1] at a; exact a
          | ptr hk' => rw [hk] at hk'; cases hk'
          | ptrNil hk' => rw [hk] at hk'; cases hk'
          | map hk' => rw [hk] at hk'; cases hk'
          | struct hk' => rw [hk] at hk'; cases hk'
          | scalar h => cases h <;> cases he
    | ptr t' ea =>
      obtain ⟨rfl, m, e, hk, h1⟩ := ha
      have hte := (lookup_wireType h1).1
      rw [marshalS, marshal]
      cases v with
      | ptrNil =>
        simp only [GoVal.deref?, hte]
        refine (ih d m e ea _ h1 (zero_hasType env e)).imp ⟨fun h => .ptrNil hk h, fun h => ?_⟩
        cases h with
        | ptrNil hk' h => rw [hk] at hk'; cases hk'; exact h
        | slice hk' => rw [hk] at hk'; cases hk'
        | map hk' => rw [hk] at hk'; cases hk'
        | scalar h => cases h
      | ptr v =>
        simp only [GoVal.deref?]
        have ht' := ht.2
        rw [elemType_ptr hk] at ht'
        refine (ih d m e ea _ h1 ht').imp ⟨fun h => .ptr hk h, fun h => ?_⟩
        cases h with
        | ptr hk' h => rw [hk] at hk'; cases hk'; exact h
        | slice hk' => rw [hk] at hk'; cases hk'
        | map hk' => rw [hk] at hk'; cases hk'
        | scalar h => cases h
      | _ => exact .never fun s s' h => by cases h
    | invalid t' => rw [marshal]; exact .never fun s s' h => by cases h

end

/-! ## The value and what stands for it -/

/-- A value and the wire value that stands for it take the same room. -/
theorem Spec.Rep.room {env : Env} {t : TypeId} {v : GoVal} {tv : TVal} (h : Rep env t v tv) (hd : ∀ t', Within env t' t → DistinctIds env t') (d : Nat) :
    RoomV env t v d ↔ Room env t tv d := by
  have part : ∀ {t e : TypeId}, (∀ t', Within env t' t → DistinctIds env t') → PartOf env e t → ∀ t', Within env t' e → DistinctIds env t' := fun hd hp t' hw => hd t' (.step hw hp)
  have fwd : ∀ {vs : List GoVal} {tvs : List TVal} {e : TypeId} {d : Nat}, tvs.length = vs.length → (∀ (i : Nat) x tv, vs[i]? = some x → tvs[i]? = some tv → (RoomV env e x d ↔ Room env e tv d)) →
      ((∀ x ∈ vs, RoomV env e x d) ↔ ∀ x ∈ tvs, Room env e x d) := by
    intro vs tvs e d hlen hi
    constructor
    · intro h x hx
      obtain ⟨i, hx⟩ := List.mem_iff_getElem?.1 hx
      have : i < vs.length := by have := (List.getElem?_eq_some_iff.1 hx).1; omega
      exact (hi i _ x (List.getElem?_eq_getElem this) hx).1 (h _ (List.getElem_mem this))
    · intro h x hx
      obtain ⟨i, hx⟩ := List.mem_iff_getElem?.1 hx
      have : i < tvs.length := by have := (List.getElem?_eq_some_iff.1 hx).1; omega
      exact (hi i x _ hx (List.getElem?_eq_getElem this)).2 (h _ (List.getElem_mem this))
  induction h generalizing d with
  | @leaf t v tv h =>
    have hs : NoContainer tv = true := by cases h <;> rfl
    have hp : ∀ e, (env.type t).kind ≠ .ptr e := by
      intro e he
      cases h <;> simp_all
    constructor
    · intro h'
      cases h' <;> exact .scalar hp hs
    · intro h'
      cases h' <;> exact .scalar h
  | @ptr t e v tv hk h ih =>
    have ih := fun d => ih (part hd (by simp [PartOf, hk])) d
    constructor
    · intro h'
      cases h' with
      | ptr hk' h => rw [hk] at hk'; cases hk'; exact .ptr hk ((ih _).1 h)
      | slice hk' => rw [hk] at hk'; cases hk'
      | map hk' => rw [hk] at hk'; cases hk'
      | scalar h => cases h
    · intro h'
      cases h' with
      | ptr hk' h => rw [hk] at hk'; cases hk'; exact .ptr hk ((ih _).2 h)
      | scalar hk' => exact absurd hk (hk' _)
      | _ hk' => rw [hk] at hk'; cases hk'
  | @ptrNil t e tv hk h ih =>
    have ih := fun d => ih (part hd (by simp [PartOf, hk])) d
    constructor
    · intro h'
      cases h' with
      | ptrNil hk' h => rw [hk] at hk'; cases hk'; exact .ptr hk ((ih _).1 h)
      | slice hk' => rw [hk] at hk'; cases hk'
      | map hk' => rw [hk] at hk'; cases hk'
      | scalar h => cases h
    · intro h'
      cases h' with
      | ptr hk' h => rw [hk] at hk'; cases hk'; exact .ptrNil hk ((ih _).2 h)
      | scalar hk' => exact absurd hk (hk' _)
      | _ hk' => rw [hk] at hk'; cases hk'
  | @set t e w v tvs hk hs hv hw hlen h ih =>
    have hb : (env.type t).asBytes = false := by simp [GoType.asBytes, hs]
    have ih := fun d => fwd (e := e) (d := d) hlen fun i x tv h1 h2 => ih i x tv h1 h2 (part hd (by simp [PartOf, hk, hb])) d
    constructor
    · intro h'
      cases h' with
      | slice hk' _ h => rw [hk] at hk'; cases hk'; exact .set hk ((ih _).1 h)
      | scalar h => cases h <;> simp at hv
      | _ hk' => rw [hk] at hk'; cases hk'
    · intro h'
      cases h' with
      | set hk' h => rw [hk] at hk'; cases hk'; exact .slice hk hb ((ih _).2 h)
      | ptr hk' => rw [hk] at hk'; cases hk'
      | scalar _ h => cases h
  | @list t e w v tvs hk hs hb hv hw hlen h ih =>
    have ih := fun d => fwd (e := e) (d := d) hlen fun i x tv h1 h2 => ih i x tv h1 h2 (part hd (by simp [PartOf, hk, hb])) d
    constructor
    · intro h'
      cases h' with
      | slice hk' _ h => rw [hk] at hk'; cases hk'; exact .list hk ((ih _).1 h)
      | scalar h => cases h <;> simp at hv
      | _ hk' => rw [hk] at hk'; cases hk'
    · intro h'
      cases h' with
      | list hk' h => rw [hk] at hk'; cases hk'; exact .slice hk hb ((ih _).2 h)
      | ptr hk' => rw [hk] at hk'; cases hk'
      | scalar _ h => cases h
  | @map t k e kw ew v tes hk hv hw1 hw2 hlen h1 h2 ih1 ih2 =>
    have pk := part hd (show PartOf env k t by simp [PartOf, hk])
    have pe := part hd (show PartOf env e t by simp [PartOf, hk])
    have both : ∀ d, ((∀ x ∈ entriesOf v, RoomV env k x.1 d) ↔ ∀ x ∈ tes, Room env k x.1 d) ∧ ((∀ x ∈ entriesOf v, RoomV env e x.2 d) ↔ ∀ x ∈ tes, Room env e x.2 d) := by
      intro d
      refine ⟨⟨fun h x hx => ?_, fun h x hx => ?_⟩, fun h x hx => ?_, fun h x hx => ?_⟩ <;> obtain ⟨i, hx⟩ := List.mem_iff_getElem?.1 hx
      · have : i < (entriesOf v).length := by have := (List.getElem?_eq_some_iff.1 hx).1; omega
        exact (ih1 i _ x (List.getElem?_eq_getElem this) hx pk d).1 (h _ (List.getElem_mem this))
      · have : i < tes.length := by have := (List.getElem?_eq_some_iff.1 hx).1; omega
        exact (ih1 i x _ hx (List.getElem?_eq_getElem this) pk d).2 (h _ (List.getElem_mem this))
      · have : i < (entriesOf v).length := by have := (List.getElem?_eq_some_iff.1 hx).1; omega
        exact (ih2 i _ x (List.getElem?_eq_getElem this) hx pe d).1 (h _ (List.getElem_mem this))
      · have : i < tes.length := by have := (List.getElem?_eq_some_iff.1 hx).1; omega
        exact (ih2 i x _ hx (List.getElem?_eq_getElem this) pe d).2 (h _ (List.getElem_mem this))
    constructor
    · intro h'
      cases h' with
      | map hk' a b => rw [hk] at hk'; cases hk'; exact .map hk ((both _).1.1 a) ((both _).2.1 b)
      | scalar h => cases h <;> simp at hv
      | _ hk' => rw [hk] at hk'; cases hk'
    · intro h'
      cases h' with
      | map hk' a b => rw [hk] at hk'; cases hk'; exact .map hk ((both _).1.2 a) ((both _).2.2 b)
      | ptr hk' => rw [hk] at hk'; cases hk'
      | scalar _ h => cases h
  | @struct t fs vs tfs order hk hlen hall hacc htag hnd hord hsort hl2 hdecl hrep ih =>
    have hdt := hd t (.refl t)
    have hfs := fields_struct hk
    have pf : ∀ f ∈ fs, ∀ t', Within env t' f.typ → DistinctIds env t' := fun f hf => part hd (by simp only [PartOf, hk]; exact ⟨f, hf, rfl⟩)
    constructor
    · intro h'
      cases h' with
      | struct hk' h =>
        rw [hk] at hk'
        cases hk'
        have find : ∀ tf ∈ tfs, ∃ (j i : Nat) (f : FieldDecl) (v : GoVal), order[j]? = some i ∧ tfs[j]? = some tf ∧ fs[i]? = some f ∧ vs[i]? = some v ∧ Written env f v := by
          intro tf htf
          obtain ⟨j, hj⟩ := List.mem_iff_getElem?.1 htf
          have hlt : j < order.length := by have := (List.getElem?_eq_some_iff.1 hj).1; omega
          obtain ⟨f, v, g1, g2, g3⟩ := (hord order[j]).1 (List.getElem_mem hlt)
          exact ⟨j, order[j], f, v, List.getElem?_eq_getElem hlt, hj, g1, g2, g3⟩
        refine .struct hk (fun tf htf f hf req hdc => ?_) fun tf htf hno => ?_
        · obtain ⟨j, i, f', v, e1, e2, e3, e4, e5⟩ := find tf htf
          obtain ⟨_, req', hdc'⟩ := hdecl j i tf f' e1 e2 e3
          obtain ⟨i', hi'⟩ := List.mem_iff_getElem?.1 hf
          obtain rfl := hdt i' i f f' tf.2.1 req req' (by rw [hfs]; exact hi') (by rw [hfs]; exact e3) hdc hdc'
          rw [e3] at hi'
          cases hi'
          exact (ih j i' tf f v e1 e2 e3 e4 (pf f hf) _).1 (h i' f v e3 e4 e5)
        · obtain ⟨j, i, f', v, e1, e2, e3, e4, e5⟩ := find tf htf
          obtain ⟨_, req', hdc'⟩ := hdecl j i tf f' e1 e2 e3
          exact absurd hdc' (hno f' (List.mem_of_getElem? e3) req')
      | scalar h => cases h
      | slice hk' => rw [hk] at hk'; cases hk'
      | map hk' => rw [hk] at hk'; cases hk'
    · intro h'
      cases h' with
      | struct hk' h _ =>
        rw [hk] at hk'
        cases hk'
        refine .struct hk fun i f v h1 h2 h3 => ?_
        obtain ⟨j, hj⟩ := List.mem_iff_getElem?.1 ((hord i).2 ⟨f, v, h1, h2, h3⟩)
        have hlt : j < tfs.length := by have := (List.getElem?_eq_some_iff.1 hj).1; omega
        have htf := List.getElem?_eq_getElem hlt
        obtain ⟨_, req, hdc⟩ := hdecl j i _ f hj htf h1
        exact (ih j i _ f v hj htf h1 h2 (pf f (List.mem_of_getElem? h1)) _).2 (h _ (List.getElem_mem hlt) f (List.mem_of_getElem? h1) req hdc)
      | ptr hk' => rw [hk] at hk'; cases hk'
      | scalar _ h => cases h

/-! ## Unmarshal -/

section
open RProg
variable {S : Type} {r : Rdr S}

/-- The premises of `Room.struct`. -/
def RoomFields (env : Env) (fs : List FieldDecl) (tfs : List (Bytes × BitVec 16 × TVal)) (d : Nat) : Prop :=
  (∀ tf ∈ tfs, ∀ f ∈ fs, ∀ required, Declares env f tf.2.1 required → Room env f.typ tf.2.2 d) ∧ ∀ tf ∈ tfs, (∀ f ∈ fs, ∀ required, ¬ Declares env f tf.2.1 required) → depth tf.2.2 ≤ d

theorem RoomFields.cons {env : Env} {fs : List FieldDecl} {tfs : List (Bytes × BitVec 16 × TVal)} {d : Nat} {tf : Bytes × BitVec 16 × TVal} (h : RoomFields env fs tfs d)
    (h1 : ∀ f ∈ fs, ∀ required, Declares env f tf.2.1 required → Room env f.typ tf.2.2 d) (h2 : (∀ f ∈ fs, ∀ required, ¬ Declares env f tf.2.1 required) → depth tf.2.2 ≤ d) :
    RoomFields env fs (tf :: tfs) d := by
  refine ⟨fun x hx => ?_, fun x hx => ?_⟩ <;> rcases List.mem_cons.1 hx with rfl | hx
  · exact h1
  · exact h.1 x hx
  · exact h2
  · exact h.2 x hx

theorem RoomFields.tail {env : Env} {fs : List FieldDecl} {tfs : List (Bytes × BitVec 16 × TVal)} {d : Nat} {tf : Bytes × BitVec 16 × TVal} (h : RoomFields env fs (tf :: tfs) d) :
    RoomFields env fs tfs d := ⟨fun x hx => h.1 x (by simp [hx]), fun x hx => h.2 x (by simp [hx])⟩

theorem unmarshalS_room (env : Env) (sk fuel : Nat) :
    (∀ d n t a old tv (s s' : S), fuelOf tv ≤ sk → lookupArshaler env n t = .done a → (∀ t', Within env t' t → DistinctIds env t') → Holds r tv s s' →
      Two r (¬ Room env t tv d) (Room env t tv d) (unmarshalS env sk fuel d a old tv.ty) (unmarshal env sk fuel a old tv.ty) s s') ∧
    ∀ d n t fields fs vals tfs (s s1 s' : S), (env.type t).kind = .struct fields → Table env n t fs → (∀ t', Within env t' t → DistinctIds env t') → fuelOfFields tfs ≤ sk → HoldsFields r tfs s s1 →
      Gives r .structEnd s1 () s' →
      Two r (¬ RoomFields env fields tfs d) (RoomFields env fields tfs d) (unmarshalFieldsS env sk fuel d t fs vals) (unmarshalFields env sk fuel t fs vals) s s' := by
  induction fuel with
  | zero =>
    refine ⟨fun d n t a old tv s s' _ _ _ _ => ?_, fun d n t fields fs vals tfs s s1 s' _ _ _ _ _ _ => ?_⟩
    · rw [unmarshalS, unmarshal]; exact .never (.refl _) fun v s2 h => by cases h
    · rw [unmarshalFieldsS, unmarshalFields]; exact .never (.refl _) fun v s2 h => by cases h
  | succ fuel ih =>
    obtain ⟨ih1, ih2⟩ := ih
    have hcut := (unmarshalS_cuts env sk fuel).1
    constructor
    · intro d n t a old tv s s' hsk hl hd h
      cases d with
      | zero =>
        rw [unmarshalS]
        refine .panic (fun v s2 hr => ?_) (fun h => by cases h)
        have hm := unmarshal_holds env sk (fuel + 1) a old tv s s' hsk h
        rw [hr] at hm
        cases hd : dec env (fuel + 1) a old tv with
        | done x =>
          obtain ⟨v', e⟩ := x
          rw [hd] at hm
          cases e with
          | none => have hm : Out.done _ = Out.done _ := hm; cases hm; rfl
          | some e => obtain ⟨s3, hm⟩ := hm; cases hm
        | blocked => rw [hd] at hm; exact False.elim hm
        | diverged => rw [hd] at hm; have hm : Out.done _ = Out.diverged := hm; cases hm
        | panicked => rw [hd] at hm; have hm : Out.done _ = Out.panicked := hm; cases hm
      | succ d =>
      have ha := lookup_arsh hl
      cases a with
      | leaf t' l =>
        rw [unmarshalS, unmarshal]
        by_cases hw : tv.ty = l.wireType
        · have hsc : NoContainer tv = true := by
            cases l <;> cases tv <;> first | rfl | exact absurd hw (by simp only [ty, Leaf.wireType]; decide)
          obtain ⟨rfl, hm⟩ := ha
          exact (Two.leaf env t' l old tv s s' h).imp (fun h => h (.scalar hm.2 hsc)) fun _ => trivial
        · unfold unmarshalLeaf
          rw [if_pos hw]
          exact .err _ _ _ _
      | struct t' =>
        obtain ⟨rfl, ⟨fields, hk⟩, _⟩ := ha
        rw [unmarshalS, unmarshal]
        cases hx : makeStructFields env fuel t' with
        | done x =>
          cases x with
          | error e => exact .err _ _ _ _
          | ok fs =>
            dsimp only [Out.elim]
            by_cases hw : tv.ty ≠ Ty.struct
            · rw [if_pos hw, if_pos hw]; exact .err _ _ _ _
            · rw [if_neg hw, if_neg hw]
              have hw : tv.ty = Ty.struct := Classical.not_not.1 hw
              cases tv with
              | struct nm tfs =>
                cases old.fields? with
                | none => exact .never (.refl _) fun v s2 h => by cases h
                | some vals =>
                  simp only [Holds] at h
                  obtain ⟨n', s1, s2, h1, h2, h3⟩ := h
                  simp only [fuelOf] at hsk
                  refine Two.rcall h1 (fun _ => (unmarshalS_cuts env sk fuel).2 _ _ _ _)
                    ((ih2 d fuel t' fields fs vals tfs s1 s2 s' hk (makeStructFields_table env fuel t' fs hx) hd (by omega) h2 h3).imp ?_ ?_)
                  · exact fun h h' => h (.struct hk h'.1 h'.2)
                  · intro h
                    cases h with
                    | struct hk' a b => rw [hk] at hk'; cases hk'; exact ⟨a, b⟩
                    | ptr hk' => rw [hk] at hk'; cases hk'
                    | scalar _ h => cases h
              | _ => exact absurd hw (by simp only [ty]; decide)
        | blocked => exact .never (.refl _) fun v s2 h => by cases h
        | diverged => exact .never (.refl _) fun v s2 h => by cases h
        | panicked => exact .never (.refl _) fun v s2 h => by cases h
      | map t' ka ea =>
        obtain ⟨rfl, _, m, k, e, hk, h1, h2⟩ := ha
        have pk : ∀ t', Within env t' k → DistinctIds env t' := fun t1 h => hd t1 (.step h (by simp [PartOf, hk]))
        have pe : ∀ t', Within env t' e → DistinctIds env t' := fun t1 h => hd t1 (.step h (by simp [PartOf, hk]))
        rw [unmarshalS, unmarshal]
        unfold unmarshalMap
        by_cases hw : tv.ty ≠ Ty.map
        · rw [if_pos hw, if_pos hw]; exact .err _ _ _ _
        · rw [if_neg hw, if_neg hw]
          have hw : tv.ty = Ty.map := Classical.not_not.1 hw
          cases tv with
          | map w1 w2 tes =>
            cases old.entries? with
            | none => exact .never (.refl _) fun v s2 h => by cases h
            | some es =>
              simp only [Holds] at h
              obtain ⟨h, s1, s2, g1, g2, g3, g4, g5⟩ := h
              simp only [fuelOf] at hsk
              have hfin : ∀ v, Two r False True (rcall "ReadMapEnd" Ty.map t' .mapEnd v fun _ => .ret (v, none) : UProg GoVal) (rcall "ReadMapEnd" Ty.map t' .mapEnd v fun _ => .ret (v, none)) s2 s' :=
                fun v => .rcall g5 (fun _ => .refl _) (.ok _ _)
              refine Two.rcall g1 (fun h => .ite (.uandThen (.mapLoop (hcut _ _ _ _) (fun v => hcut _ _ _ _) _ _ _) _ fun _ => .refl _) (.refl _)) ?_
              dsimp only
              by_cases he : tes = []
              · subst he
                simp only [HoldsEntries] at g4
                subst g4
                have hn : ¬ h.size.toInt > 0 := by rw [loopCount] at g2; simp only [List.length_nil] at g2; omega
                rw [if_neg hn, if_neg hn]
                exact (hfin _).imp (fun h => h (.map hk (by simp) (by simp))) fun _ => trivial
              · have : 0 < tes.length := List.length_pos_iff.2 he
                have hp : h.size.toInt > 0 := by rw [loopCount] at g2; omega
                rw [if_pos hp, if_pos hp, g2]
                obtain ⟨rfl, rfl⟩ := g3 he
                refine ((Two.mapLoop (lk := fun tv => ¬ Room env k tv d) (uk := fun tv => Room env k tv d) (lv := fun tv => ¬ Room env e tv d) (uv := fun tv => Room env e tv d) _ h.key h.value tes (hcut _ _ _ _) (fun v => hcut _ _ _ _) (fun x hx s s' hty hh => ?_)
                  (fun x hx v s s' hty hh => ?_) es s1 s2 g4).andThen fun es => hfin _).imp ?_ ?_
                · rw [← hty]; exact ih1 d m k ka _ x.1 s s' (by have := (fuelOf_entry hx).1; omega) h1 pk hh
                · rw [← hty]; exact ih1 d m e ea _ x.2 s s' (by have := (fuelOf_entry hx).2; omega) h2 pe hh
                · intro h
                  refine .inl (Classical.byContradiction fun hno => h (.map hk (fun x hx => ?_) fun x hx => ?_))
                  · exact Classical.byContradiction fun hx' => hno ⟨x, hx, .inl hx'⟩
                  · exact Classical.byContradiction fun hx' => hno ⟨x, hx, .inr hx'⟩
                · intro h
                  cases h with
                  | map hk' a b => rw [hk] at hk'; cases hk'; exact ⟨fun x hx => ⟨a x hx, b x hx⟩, trivial⟩
                  | ptr hk' => rw [hk] at hk'; cases hk'
                  | scalar _ h => cases h
          | _ => exact absurd hw (by simp only [ty]; decide)
      | seq t' isSet ea =>
        obtain ⟨rfl, _, m, e, hk, hb, h1⟩ := ha
        have pe : ∀ t', Within env t' e → DistinctIds env t' := fun t1 h => hd t1 (.step h (by simp [PartOf, hk, hb]))
        rw [unmarshalS, unmarshal]
        unfold unmarshalSeq
        dsimp only
        have body : ∀ (es : List TVal) (h : SetHeader) (fin : GoVal → UProg GoVal) (s1 s2 : S), fuelOfElems es ≤ sk → loopCount h.size = es.length → HoldsElems r h.element es s1 s2 →
            (∀ v, Two r False True (fin v) (fin v) s2 s') →
            Two r (¬ ∀ x ∈ es, Room env e x d) (∀ x ∈ es, Room env e x d)
              (seqBody env t' ea.typ (fun wt v => unmarshalS env sk fuel d ea v wt) old h fin) (seqBody env t' ea.typ (fun wt v => unmarshal env sk fuel ea v wt) old h fin) s1 s' := by
          intro es h fin s1 s2 hf hsz hes hfin
          refine (Two.seqBody (low := fun tv => ¬ Room env e tv d) (up := fun tv => Room env e tv d) env t' ea.typ es old h s1 s2 s'
            (fun wt v => hcut _ _ _ _) (fun x hx v s s' hty hh => ?_) hsz hes hfin).imp ?_ ?_
          · rw [← hty]; exact ih1 d m e ea _ x s s' (by have := fuelOf_elem hx; omega) h1 pe hh
          · exact fun h => Classical.byContradiction fun hno => h fun x hx => Classical.byContradiction fun hx' => hno ⟨x, hx, hx'⟩
          · exact fun h => h
        have cbody : ∀ (h : SetHeader) (fin : GoVal → UProg GoVal), Cuts (seqBody env t' ea.typ (fun wt v => unmarshalS env sk fuel d ea v wt) old h fin)
            (seqBody env t' ea.typ (fun wt v => unmarshal env sk fuel ea v wt) old h fin) :=
          fun h fin => .ite (.uandThen (.seqLoop (fun v => hcut _ _ _ _) _ _ _ _ _ _) _ fun _ => .refl _) (.refl _)
        by_cases hw : tv.ty ≠ (if isSet then Ty.set else Ty.list)
        · rw [if_pos hw, if_pos hw]; exact .err _ _ _ _
        · rw [if_neg hw, if_neg hw]
          have hw : tv.ty = (if isSet then Ty.set else Ty.list) := Classical.not_not.1 hw
          by_cases ho : old.elems?.isNone = true
          · rw [if_pos ho, if_pos ho]
            exact .never (.refl _) fun v s2 h => by cases h
          · rw [if_neg ho, if_neg ho]
            cases isSet with
            | true =>
              cases tv with
              | set w es =>
                simp only [Holds] at h
                obtain ⟨h, s1, s2, g1, g2, rfl, g4, g5⟩ := h
                simp only [fuelOf] at hsk
                rw [if_pos rfl, if_pos rfl]
                refine Two.imp (.rcall g1 (fun h => cbody h _) (body es h _ s1 s2 (by omega) g2 g4 fun v => .rcall g5 (fun _ => .refl _) (.ok _ _))) (fun h h' => h (.set hk h')) fun h => ?_
                cases h with
                | set hk' a => rw [hk] at hk'; cases hk'; exact a
                | ptr hk' => rw [hk] at hk'; cases hk'
                | scalar _ h => cases h
              | _ => exact absurd hw (by simp only [ty]; decide)
            | false =>
              cases tv with
              | list w es =>
                simp only [Holds] at h
                obtain ⟨h, s1, s2, g1, g2, rfl, g4, g5⟩ := h
                simp only [fuelOf] at hsk
                rw [if_neg (by decide), if_neg (by decide)]
                refine Two.imp (.rcall g1 (fun h => cbody h _) (body es h _ s1 s2 (by omega) g2 g4 fun v => .rcall g5 (fun _ => .refl _) (.ok _ _))) (fun h h' => h (.list hk h')) fun h => ?_
                cases h with
                | list hk' a => rw [hk] at hk'; cases hk'; exact a
                | ptr hk' => rw [hk] at hk'; cases hk'
                | scalar _ h => cases h
              | _ => exact absurd hw (by simp only [ty]; decide)
      | ptr t' ea =>
        obtain ⟨rfl, m, e, hk, h1⟩ := ha
        rw [unmarshalS, unmarshal]
        cases old.deref? (env.zero ea.typ) with
        | none => exact .never (.refl _) fun v s2 h => by cases h
        | some v =>
          refine ((ih1 d m e ea v tv s s' hsk h1 (fun t1 h => hd t1 (.step h (by simp [PartOf, hk]))) h).andThen fun v => Two.ok _ _).imp (fun h => .inl fun h' => h (.ptr hk h')) fun h => ⟨?_, trivial⟩
          cases h with
          | ptr hk' h => rw [hk] at hk'; cases hk'; exact h
          | scalar hk' => exact absurd hk (hk' _)
          | _ hk' => rw [hk] at hk'; cases hk'
      | invalid t' => rw [unmarshalS, unmarshal]; exact .err _ _ _ _
    · intro d n t fields fs vals tfs s s1 s' hk htab hd hsk h hend
      have hcutf := (unmarshalS_cuts env sk fuel).2
      have ccont : ∀ (h : FieldHeader), Cuts
          (if h.type = Ty.stop then rcall "ReadStructEnd" Ty.struct t .structEnd (GoVal.struct vals) fun _ => .ret (.struct vals, none)
          else match byID fs h.id with
            | none => (skipS sk d h.type).bind fun e => match e with
              | some e => .ret (.struct vals, some e)
              | none => rcall "ReadFieldEnd" Ty.struct t .fieldEnd (.struct vals) fun _ => unmarshalFieldsS env sk fuel d t fs vals
            | some f => match vals[f.index]? with
              | none => .panic
              | some v => (unmarshalS env sk fuel d f.a v h.type).andThen (fun v' => .struct (vals.set f.index v')) fun v' =>
                rcall "ReadFieldEnd" Ty.struct t .fieldEnd (.struct (vals.set f.index v')) fun _ => unmarshalFieldsS env sk fuel d t fs (vals.set f.index v'))
          (if h.type = Ty.stop then rcall "ReadStructEnd" Ty.struct t .structEnd (GoVal.struct vals) fun _ => .ret (.struct vals, none)
          else match byID fs h.id with
            | none => (skip sk h.type).bind fun e => match e with
              | some e => .ret (.struct vals, some e)
              | none => rcall "ReadFieldEnd" Ty.struct t .fieldEnd (.struct vals) fun _ => unmarshalFields env sk fuel t fs vals
            | some f => match vals[f.index]? with
              | none => .panic
              | some v => (unmarshal env sk fuel f.a v h.type).andThen (fun v' => .struct (vals.set f.index v')) fun v' =>
                rcall "ReadFieldEnd" Ty.struct t .fieldEnd (.struct (vals.set f.index v')) fun _ => unmarshalFields env sk fuel t fs (vals.set f.index v')) := by
        intro h
        refine .ite (.refl _) ?_
        cases byID fs h.id with
        | none =>
          refine ((skipS_cuts sk).1 d _).bind fun e => ?_
          cases e with
          | none => exact .rcall _ _ _ _ _ fun _ => hcutf _ _ _ _
          | some e => exact .ret _
        | some f =>
          dsimp only
          cases vals[f.index]? with
          | none => exact .refl _
          | some v => exact .uandThen (hcut _ _ _ _) _ fun _ => .rcall _ _ _ _ _ fun _ => hcutf _ _ _ _
      rw [unmarshalFieldsS, unmarshalFields]
      cases tfs with
      | nil =>
        simp only [HoldsFields] at h
        obtain ⟨h, h2, ht⟩ := h
        refine Two.rcall h2 ccont ?_
        rw [if_pos ht, if_pos ht]
        exact (Two.rcall hend (fun _ => .refl _) (.ok _ _)).imp (fun h => h ⟨by simp, by simp⟩) fun _ => trivial
      | cons f tfs =>
        obtain ⟨fn, id, v⟩ := f
        simp only [HoldsFields] at h
        obtain ⟨nm, s3, s4, s5, hb, hv, he, hr⟩ := h
        simp only [fuelOfFields] at hsk
        refine Two.rcall hb ccont ?_
        rw [if_neg (ty_ne_stop v), if_neg (ty_ne_stop v)]
        have next : ∀ vals, Two r (¬ RoomFields env fields tfs d) (RoomFields env fields tfs d)
            (rcall "ReadFieldEnd" Ty.struct t .fieldEnd (GoVal.struct vals) fun _ => unmarshalFieldsS env sk fuel d t fs vals)
            (rcall "ReadFieldEnd" Ty.struct t .fieldEnd (GoVal.struct vals) fun _ => unmarshalFields env sk fuel t fs vals) s4 s' :=
          fun vals => .rcall he (fun _ => hcutf _ _ _ _) (ih2 d n t fields fs vals tfs s5 s1 s' hk htab hd (by omega) hr hend)
        dsimp only
        cases hid : byID fs id with
        | none =>
          have hno := htab.byID_none hid
          rw [fields_struct hk] at hno
          refine (Two.skip ((skipS_cuts sk).1 d _) (skip_holds v sk (by omega) s3 s4 hv) (skipS_holds v sk d (by omega) s3 s4 hv) (next vals)).imp (fun h => ?_) fun h => ⟨?_, ?_⟩
          · by_cases h1 : d < depth v
            · exact .inl h1
            · exact .inr fun h' => h (h'.cons (tf := (fn, id, v)) (fun f hf req hdc => absurd hdc (hno f hf req)) fun _ => Nat.le_of_not_lt h1)
          · exact h.2 (fn, id, v) (by simp) hno
          · exact h.tail
        | some sf =>
          dsimp only
          cases vals[sf.index]? with
          | none => exact .never (.refl _) fun v s2 h => by cases h
          | some v0 =>
            obtain ⟨dcl, d1, d2, d3⟩ := htab.byID_declares hid
            rw [fields_struct hk] at d1
            have hmem := List.mem_of_getElem? d1
            refine ((ih1 d n dcl.typ sf.a v0 v s3 s4 (by omega) d3 (fun t1 h => hd t1 (.step h (by simp only [PartOf, hk]; exact ⟨dcl, hmem, rfl⟩))) hv).andThen fun v' => next _).imp (fun h => ?_)
              fun h => ⟨h.1 (fn, id, v) (by simp) dcl hmem _ d2, h.tail⟩
            by_cases h1 : Room env dcl.typ v d
            · refine .inr fun h' => h (h'.cons (tf := (fn, id, v)) (fun f hf req hdc => ?_) fun hno => absurd d2 (hno dcl hmem _))
              obtain ⟨i, hi⟩ := List.mem_iff_getElem?.1 hf
              have := hd t (.refl t) i sf.index f dcl id req sf.required (by rw [fields_struct hk]; exact hi) (by rw [fields_struct hk]; exact d1) hdc d2
              subst this
              rw [d1] at hi
              cases hi
              exact h1
            · exact .inl h1

end

/-! ## A limited stack only cuts -/

section
variable {S : Type} {w : Wtr S}

/-- The limited program panics, or it is the unlimited one. -/
def WCuts (w : Wtr S) (p' p : WProg) : Prop := ∀ s, p'.run w s = .panicked ∨ p'.run w s = p.run w s

theorem WCuts.refl (p : WProg) : WCuts w p p := fun _ => .inr rfl

theorem WCuts.wcall {p' p : WProg} {act : String} {tt : WType} {t : TypeId} {o : WOp} (h : WCuts w p' p) : WCuts w (wcall act tt t o p') (wcall act tt t o p) := by
  intro s
  rw [GoThrift.wcall, GoThrift.wcall, WProg.run, WProg.run]
  cases w.step o s with
  | done x =>
    obtain ⟨e, s1⟩ := x
    rw [Out.bind_done, Out.bind_done]
    cases e with
    | some e => exact .inr rfl
    | none => exact h s1
  | _ => exact .inr rfl

theorem WCuts.andThen {p' p q' q : WProg} (hp : WCuts w p' p) (hq : WCuts w q' q) : WCuts w (p'.andThen q') (p.andThen q) := by
  intro s
  rw [wrun_andThen, wrun_andThen]
  rcases hp s with h | h
  · rw [h]; exact .inl rfl
  · rw [h]
    cases p.run w s with
    | done x =>
      obtain ⟨e, s1⟩ := x
      rw [Out.bind_done, Out.bind_done]
      cases e with
      | some e => exact .inr rfl
      | none => exact hq s1
    | _ => exact .inr rfl

theorem WCuts.elems {m' m : GoVal → WProg} {k : WProg} (hm : ∀ v, WCuts w (m' v) (m v)) (vs : List GoVal) : WCuts w (marshalElems m' k vs) (marshalElems m k vs) := by
  induction vs with
  | nil => exact .refl k
  | cons v vs ih => exact (hm v).andThen ih

theorem WCuts.entries {mk' mk mv' mv : GoVal → WProg} {k : WProg} (hk : ∀ v, WCuts w (mk' v) (mk v)) (hv : ∀ v, WCuts w (mv' v) (mv v)) (es : List (GoVal × GoVal)) :
    WCuts w (marshalEntries mk' mv' k es) (marshalEntries mk mv k es) := by
  induction es with
  | nil => exact .refl k
  | cons e es ih => exact (hk _).andThen ((hv _).andThen ih)

theorem WCuts.fields {env : Env} {m' m : Arsh → GoVal → WProg} {t : TypeId} {vals : List GoVal} {k : WProg} (hm : ∀ a v, WCuts w (m' a v) (m a v)) (fs : List SField) :
    WCuts w (marshalFields env m' t vals k fs) (marshalFields env m t vals k fs) := by
  induction fs with
  | nil => exact .refl k
  | cons f fs ih =>
    rw [marshalFields, marshalFields]
    by_cases hst : f.a.wireType = Ty.stop
    · rw [if_pos hst, if_pos hst]
      exact .refl _
    · rw [if_neg hst, if_neg hst]
      cases hv : vals[f.index]? with
      | none => exact .refl _
      | some v =>
        dsimp only
        by_cases hz : f.required = false ∧ reportsZero env f.typ v = true
        · rw [if_pos hz, if_pos hz]; exact ih
        · rw [if_neg hz, if_neg hz]
          exact ((hm _ v).andThen ih.wcall).wcall

theorem marshalS_cuts (env : Env) (fuel : Nat) : ∀ d a v, WCuts w (marshalS env fuel d a v) (marshal env fuel a v) := by
  induction fuel with
  | zero => intro d a v; rw [marshalS, marshal]; exact .refl _
  | succ fuel ih =>
    intro d a v
    cases d with
    | zero => intro s; rw [marshalS]; exact .inl rfl
    | succ d =>
      cases a with
      | leaf t l => rw [marshalS, marshal]; exact .refl _
      | struct t =>
        rw [marshalS, marshal]
        cases makeStructFields env fuel t with
        | done r =>
          dsimp only [Out.elim]
          cases r with
          | error e => exact .refl _
          | ok fs =>
            dsimp only
            cases v.fields? with
            | none => exact .refl _
            | some vals => exact (WCuts.fields (ih d) fs).wcall
        | _ => exact .refl _
      | map t ka ea =>
        rw [marshalS, marshal]
        by_cases h : ka.wireType = Ty.stop ∨ ea.wireType = Ty.stop
        · rw [if_pos h, if_pos h]; exact .refl _
        · rw [if_neg h, if_neg h]
          cases v.entries? with
          | none => exact .refl _
          | some es => exact (WCuts.entries (ih d ka) (ih d ea) es).wcall
      | seq t isSet ea =>
        rw [marshalS, marshal]
        by_cases h : ea.wireType = Ty.stop
        · rw [if_pos h, if_pos h]; exact .refl _
        · rw [if_neg h, if_neg h]
          cases v.elems? with
          | none => exact .refl _
          | some vs =>
            dsimp only
            rw [marshalSeq, marshalSeq]
            cases isSet <;> exact (WCuts.elems (ih d ea) vs).wcall
      | ptr t ea =>
        rw [marshalS, marshal]
        cases v.deref? (env.zero ea.typ) with
        | none => exact .refl _
        | some v => exact ih d ea v
      | invalid t => rw [marshalS, marshal]; exact .refl _

end

/-- With as many frames as there are calls there is enough room. -/
theorem marshalS_enough (env : Env) (fuel : Nat) : ∀ d, fuel ≤ d → marshalS env fuel d = marshal env fuel := by
  induction fuel with
  | zero => intro d _; funext a v; rw [marshalS, marshal]
  | succ fuel ih =>
    intro d hd
    obtain ⟨d, rfl⟩ := Nat.exists_eq_add_of_le' (show 1 ≤ d by omega)
    funext a v
    have ih := ih d (by omega)
    cases a with
    | leaf | invalid => rw [marshalS, marshal]
    | _ => rw [marshalS, marshal, ih]; rfl

theorem Spec.RoomV.mono {env : Env} {t : TypeId} {v : GoVal} {d d' : Nat} (h : RoomV env t v d) (hd : d ≤ d') : RoomV env t v d' := by
  induction h generalizing d' with
  | ptr hk _ ih => obtain ⟨k, rfl⟩ := Nat.exists_eq_add_of_le' (show 1 ≤ d' by omega); exact .ptr hk (ih (by omega))
  | ptrNil hk _ ih => obtain ⟨k, rfl⟩ := Nat.exists_eq_add_of_le' (show 1 ≤ d' by omega); exact .ptrNil hk (ih (by omega))
  | scalar h => obtain ⟨k, rfl⟩ := Nat.exists_eq_add_of_le' (show 1 ≤ d' by omega); exact .scalar h
  | slice hk hb _ ih => obtain ⟨k, rfl⟩ := Nat.exists_eq_add_of_le' (show 1 ≤ d' by omega); exact .slice hk hb fun x hx => ih x hx (by omega)
  | map hk _ _ ih1 ih2 =>
    obtain ⟨k, rfl⟩ := Nat.exists_eq_add_of_le' (show 1 ≤ d' by omega)
    exact .map hk (fun x hx => ih1 x hx (by omega)) fun x hx => ih2 x hx (by omega)
  | struct hk _ ih => obtain ⟨k, rfl⟩ := Nat.exists_eq_add_of_le' (show 1 ≤ d' by omega); exact .struct hk fun i f v h1 h2 h3 => ih i f v h1 h2 h3 (by omega)

theorem depthElems_le {es : List TVal} {d : Nat} (h : ∀ x ∈ es, depth x ≤ d) : depthElems es ≤ d := by
  induction es with
  | nil => exact Nat.zero_le _
  | cons x es ih => rw [depthElems]; exact Nat.max_le.2 ⟨h x (by simp), ih fun x hx => h x (by simp [hx])⟩

theorem depthEntries_le {es : List (TVal × TVal)} {d : Nat} (h1 : ∀ x ∈ es, depth x.1 ≤ d) (h2 : ∀ x ∈ es, depth x.2 ≤ d) : depthEntries es ≤ d := by
  induction es with
  | nil => exact Nat.zero_le _
  | cons x es ih =>
    rw [depthEntries]
    exact Nat.max_le.2 ⟨h1 x (by simp), Nat.max_le.2 ⟨h2 x (by simp), ih (fun x hx => h1 x (by simp [hx])) fun x hx => h2 x (by simp [hx])⟩⟩

theorem depthFields_le {fs : List (Bytes × BitVec 16 × TVal)} {d : Nat} (h : ∀ x ∈ fs, depth x.2.2 ≤ d) : depthFields fs ≤ d := by
  induction fs with
  | nil => exact Nat.zero_le _
  | cons x es ih => rw [depthFields]; exact Nat.max_le.2 ⟨h x (by simp), ih fun x hx => h x (by simp [hx])⟩

/-- Pointers or not, there must be as much room as the value is deep. -/
theorem Spec.Room.depth_le {env : Env} {t : TypeId} {tv : TVal} {d : Nat} (h : Room env t tv d) : depth tv ≤ d := by
  induction h with
  | ptr _ _ ih => omega
  | @scalar t tv d _ h => cases tv <;> first | (cases h; done) | (rw [depth]; omega; all_goals simp)
  | set _ _ ih => rw [depth]; exact Nat.succ_le_succ (depthElems_le ih)
  | list _ _ ih => rw [depth]; exact Nat.succ_le_succ (depthElems_le ih)
  | map _ _ _ ih1 ih2 => rw [depth]; exact Nat.succ_le_succ (depthEntries_le ih1 ih2)
  | @struct t fs n tfs d _ _ h2 ih =>
    rw [depth]
    refine Nat.succ_le_succ (depthFields_le fun tf htf => ?_)
    by_cases h : ∃ f ∈ fs, ∃ required, Declares env f tf.2.1 required
    · obtain ⟨f, hf, req, hdec⟩ := h
      exact ih tf htf f hf req hdec
    · exact h2 tf htf fun f hf req hdec => h ⟨f, hf, req, hdec⟩

end GoThrift
