import Verif.Proof.Wait
import Verif.Proof.Mismatch

/-!
# Unmarshal waits where the reader does
-/

namespace GoThrift

open Spec Spec.TVal

section
variable {S : Type} {r : Rdr S}

/-- If decoding succeeds, the run waits. -/
def Wants {α : Type} (x : Out ((α × Option Err) × S)) (d : Dec α) : Prop := ∀ v, d = .done (v, none) → x = .blocked

theorem Wants.first {α β : Type} {p : UProg α} {d : Dec α} {s : S} (h : Wants (p.run r s) d) (fail : α → β) (k : α → UProg β) (kd : α → Dec β) :
    Wants ((UProg.andThen p fail k).run r s) (d.andThen fail kd) := by
  intro v hv
  obtain ⟨a, h1, _⟩ := Dec.andThen_ok hv
  rw [UProg.andThen, RProg.run_bind, h a h1]
  rfl

theorem Wants.second {α β : Type} {p : UProg α} {d : Dec α} {s s1 : S} (h : Matches (p.run r s) d s1) (fail : α → β) {k : α → UProg β} {kd : α → Dec β}
    (hk : ∀ v, Wants ((k v).run r s1) (kd v)) : Wants ((UProg.andThen p fail k).run r s) (d.andThen fail kd) := by
  intro v hv
  obtain ⟨a, rfl, h2⟩ := Dec.andThen_ok hv
  rw [UProg.andThen, RProg.run_bind, show p.run r s = _ from h]
  exact hk a v h2

theorem rcall_blocked {α : Type} {o : ROp} {s : S} (h : r.step o s = .blocked) (act : String) (tt : WType) (t : TypeId) (old : α) (k : o.Ans → UProg α) : (rcall act tt t o old k).run r s = .blocked := by
  simp [rcall, RProg.run, h, Out.bind]

theorem leaf_stuck (env : Env) (t : TypeId) (l : Leaf) (old : GoVal) (tv : TVal) (s : S) (h : Stuck r tv s) : Wants ((unmarshalLeaf env t l old tv.ty).run r s) (decLeaf env t l old tv) := by
  intro v hv
  unfold decLeaf at hv
  unfold unmarshalLeaf
  by_cases hw : tv.ty ≠ l.wireType
  · rw [if_pos hw] at hv; cases hv
  · rw [if_neg hw] at hv ⊢
    have hw : tv.ty = l.wireType := Classical.not_not.1 hw
    cases tv with
    | str raw x =>
      cases l with
      | string => exact rcall_blocked h.1 _ _ _ _ _
      | bytes =>
        cases old with
        | bytes b => exact rcall_blocked (h.2.1 []) _ _ _ _ _
        | _ => cases hv
      | _ => exact absurd hw (by simp only [ty, Leaf.wireType]; decide)
    | _ => first
      | exact h.elim
      | (cases l <;> exact absurd hw (by simp only [ty, Leaf.wireType]; decide))

theorem decLoop_stuck {u : GoVal → UProg GoVal} {du : GoVal → TVal → Dec GoVal} (zero : GoVal) (grow : Nat → Nat) (et : WType) (es : List TVal)
    (hu : ∀ tv ∈ es, ∀ v (s s' : S), tv.ty = et → Holds r tv s s' → Matches ((u v).run r s) (du v tv) s')
    (hs : ∀ tv ∈ es, ∀ v (s : S), tv.ty = et → Stuck r tv s → Wants ((u v).run r s) (du v tv))
    (done rest : List GoVal) (mz : Bool) (s : S) (h : StuckElems r et es s) :
    Wants ((seqLoop u zero grow es.length done rest mz).run r s) (decLoop du zero grow es done rest mz) := by
  induction es generalizing done rest mz s with
  | nil => exact h.elim
  | cons e es ih =>
    simp only [StuckElems] at h
    obtain ⟨ht, h⟩ := h
    rw [List.length_cons, seqLoop, decLoop]
    generalize (if rest.isEmpty = true then List.replicate (max 1 (grow done.length - done.length)) zero else rest) = rest'
    cases rest' with
    | nil => intro v hv; cases hv
    | cons v rest' =>
      rcases h with h | ⟨s1, h1, h2⟩
      · exact (hs e (by simp) _ s ht h).first _ _ _
      · exact .second (hu e (by simp) _ s s1 ht h1) _ fun v' => ih (fun tv htv => hu tv (by simp [htv])) (fun tv htv => hs tv (by simp [htv])) _ _ _ s1 h2

theorem seqBody_stuck (env : Env) (t et : TypeId) {u : WType → GoVal → UProg GoVal} {du : GoVal → TVal → Dec GoVal} (es : List TVal) (old : GoVal) (h : SetHeader)
    {fin : GoVal → UProg GoVal} (s1 : S)
    (hu : ∀ tv ∈ es, ∀ v (s s' : S), tv.ty = h.element → Holds r tv s s' → Matches ((u h.element v).run r s) (du v tv) s')
    (hs : ∀ tv ∈ es, ∀ v (s : S), tv.ty = h.element → Stuck r tv s → Wants ((u h.element v).run r s) (du v tv))
    (hsize : loopCount h.size = es.length) (hes : StuckElems r h.element es s1) :
    Wants ((seqBody env t et u old h fin).run r s1)
      (if es ≠ [] then (decLoop du (env.zero et) (env.grow t) es [] old.slots true).andThen (fun p => .slice p.1 p.2) fun p => .done (.slice p.1 p.2, none)
       else .done (old.cleared, none)) := by
  rw [seqBody]
  have he : es ≠ [] := by rintro rfl; exact hes
  have : 0 < es.length := List.length_pos_iff.2 he
  rw [if_pos (by rw [loopCount] at hsize; omega), if_pos he, hsize]
  exact (decLoop_stuck _ _ _ es hu hs _ _ _ s1 hes).first _ _ _

theorem seq_stuck (env : Env) (t : TypeId) (isSet : Bool) (et : TypeId) {u : WType → GoVal → UProg GoVal} {du : GoVal → TVal → Dec GoVal} (old : GoVal) (tv : TVal)
    (hu : ∀ e, (∃ w es, (tv = .list w es ∨ tv = .set w es) ∧ e ∈ es) → ∀ v (s s' : S), Holds r e s s' → Matches ((u e.ty v).run r s) (du v e) s')
    (hs : ∀ e, (∃ w es, (tv = .list w es ∨ tv = .set w es) ∧ e ∈ es) → ∀ v (s : S), Stuck r e s → Wants ((u e.ty v).run r s) (du v e))
    (s : S) (h : Stuck r tv s) : Wants ((unmarshalSeq env t isSet et u old tv.ty).run r s) (decSeq env t isSet et du old tv) := by
  unfold unmarshalSeq
  dsimp only
  by_cases hw : tv.ty ≠ (if isSet then Ty.set else Ty.list)
  · have : decSeq env t isSet et du old tv = .done (old, some (.semantic .unmarshal tv.ty (some t))) := by
      cases isSet <;> cases tv <;> first | rfl | exact absurd rfl hw
    rw [this]
    intro v hv
    cases hv
  · rw [if_neg hw]
    have hw : tv.ty = (if isSet then Ty.set else Ty.list) := Classical.not_not.1 hw
    cases isSet with
    | true =>
      cases tv with
      | set w es =>
        unfold decSeq
        dsimp only
        by_cases ho : old.elems?.isNone = true
        · rw [if_pos ho]; intro v hv; rw [if_pos ho] at hv; cases hv
        · rw [if_neg ho, if_neg ho, if_pos rfl]
          simp only [Stuck] at h
          obtain ⟨h, s1, h1, h2, rfl, h4⟩ := h
          rw [run_rcall h1]
          refine seqBody_stuck env t et es old h s1 (fun tv htv v s s' hty hh => ?_) (fun tv htv v s hty hh => ?_) h2 h4
          · rw [← hty]; exact hu tv ⟨_, es, .inr rfl, htv⟩ v s s' hh
          · rw [← hty]; exact hs tv ⟨_, es, .inr rfl, htv⟩ v s hh
      | _ => exact absurd hw (by simp only [ty]; decide)
    | false =>
      cases tv with
      | list w es =>
        unfold decSeq
        dsimp only
        by_cases ho : old.elems?.isNone = true
        · rw [if_pos ho]; intro v hv; rw [if_pos ho] at hv; cases hv
        · rw [if_neg ho, if_neg ho, if_neg (by simp)]
          simp only [Stuck] at h
          obtain ⟨h, s1, h1, h2, rfl, h4⟩ := h
          rw [run_rcall h1]
          refine seqBody_stuck env t et es old h s1 (fun tv htv v s s' hty hh => ?_) (fun tv htv v s hty hh => ?_) h2 h4
          · rw [← hty]; exact hu tv ⟨_, es, .inl rfl, htv⟩ v s s' hh
          · rw [← hty]; exact hs tv ⟨_, es, .inl rfl, htv⟩ v s hh
      | _ => exact absurd hw (by simp only [ty]; decide)

theorem decEntries_stuck {uk : UProg GoVal} {uv : GoVal → UProg GoVal} {duk duv : GoVal → TVal → Dec GoVal} (zeroK zeroV : GoVal) (kt vt : WType)
    (tes : List (TVal × TVal))
    (hk : ∀ e ∈ tes, ∀ (s s' : S), e.1.ty = kt → Holds r e.1 s s' → Matches (uk.run r s) (duk zeroK e.1) s')
    (hv : ∀ e ∈ tes, ∀ v (s s' : S), e.2.ty = vt → Holds r e.2 s s' → Matches ((uv v).run r s) (duv v e.2) s')
    (sk : ∀ e ∈ tes, ∀ (s : S), e.1.ty = kt → Stuck r e.1 s → Wants (uk.run r s) (duk zeroK e.1))
    (sv : ∀ e ∈ tes, ∀ v (s : S), e.2.ty = vt → Stuck r e.2 s → Wants ((uv v).run r s) (duv v e.2))
    (es : List (GoVal × GoVal)) (s : S) (h : StuckEntries r kt vt tes s) :
    Wants ((mapLoop uk uv zeroV tes.length es).run r s) (decEntries duk duv zeroK zeroV tes es) := by
  induction tes generalizing es s with
  | nil => exact h.elim
  | cons e tes ih =>
    obtain ⟨k, v⟩ := e
    simp only [StuckEntries] at h
    obtain ⟨h1, h2, h⟩ := h
    rw [List.length_cons, mapLoop, decEntries]
    rcases h with h | ⟨s3, h3, h | ⟨s4, h4, h5⟩⟩
    · exact (sk (k, v) (by simp) s h1 h).first _ _ _
    · exact .second (hk (k, v) (by simp) s s3 h1 h3) _ fun k' => (sv (k, v) (by simp) _ s3 h2 h).first _ _ _
    · refine .second (hk (k, v) (by simp) s s3 h1 h3) _ fun k' => ?_
      refine .second (hv (k, v) (by simp) _ s3 s4 h2 h4) _ fun v' => ?_
      exact ih (fun e he => hk e (by simp [he])) (fun e he => hv e (by simp [he])) (fun e he => sk e (by simp [he])) (fun e he => sv e (by simp [he])) _ s4 h5

theorem map_stuck (env : Env) (t kt et : TypeId) {uk uv : WType → GoVal → UProg GoVal} {duk duv : GoVal → TVal → Dec GoVal} (old : GoVal) (tv : TVal)
    (hk : ∀ e, (∃ w1 w2 es, tv = .map w1 w2 es ∧ e ∈ es) → ∀ v (s s' : S), Holds r e.1 s s' → Matches ((uk e.1.ty v).run r s) (duk v e.1) s')
    (hv : ∀ e, (∃ w1 w2 es, tv = .map w1 w2 es ∧ e ∈ es) → ∀ v (s s' : S), Holds r e.2 s s' → Matches ((uv e.2.ty v).run r s) (duv v e.2) s')
    (sk : ∀ e, (∃ w1 w2 es, tv = .map w1 w2 es ∧ e ∈ es) → ∀ v (s : S), Stuck r e.1 s → Wants ((uk e.1.ty v).run r s) (duk v e.1))
    (sv : ∀ e, (∃ w1 w2 es, tv = .map w1 w2 es ∧ e ∈ es) → ∀ v (s : S), Stuck r e.2 s → Wants ((uv e.2.ty v).run r s) (duv v e.2))
    (s : S) (h : Stuck r tv s) : Wants ((unmarshalMap env t kt et uk uv old tv.ty).run r s) (decMap env t kt et duk duv old tv) := by
  unfold unmarshalMap
  by_cases hw : tv.ty ≠ Ty.map
  · have : decMap env t kt et duk duv old tv = .done (old, some (.semantic .unmarshal tv.ty (some t))) := by
      cases tv <;> first | rfl | exact absurd rfl hw
    rw [this]
    intro v hv
    cases hv
  · rw [if_neg hw]
    have hw : tv.ty = Ty.map := Classical.not_not.1 hw
    cases tv with
    | map w1 w2 tes =>
      rw [decMap]
      cases ho : old.entries? with
      | none => intro v hv; cases hv
      | some es =>
        simp only [Stuck] at h
        obtain ⟨h, s1, h1, h2, rfl, rfl, h4⟩ := h
        dsimp only
        rw [run_rcall h1]
        have he : tes ≠ [] := by rintro rfl; exact h4
        have : 0 < tes.length := List.length_pos_iff.2 he
        rw [if_pos (by rw [loopCount] at h2; omega), if_pos he, h2]
        refine (decEntries_stuck _ _ h.key h.value tes (fun e he s s' hty hh => ?_) (fun e he v s s' hty hh => ?_) (fun e he s hty hh => ?_) (fun e he v s hty hh => ?_) es s1 h4).first _ _ _
        · rw [← hty]; exact hk e ⟨_, _, tes, rfl, he⟩ _ s s' hh
        · rw [← hty]; exact hv e ⟨_, _, tes, rfl, he⟩ _ s s' hh
        · rw [← hty]; exact sk e ⟨_, _, tes, rfl, he⟩ _ s hh
        · rw [← hty]; exact sv e ⟨_, _, tes, rfl, he⟩ _ s hh
    | _ => exact absurd hw (by simp only [ty]; decide)

/-- Unmarshalling at a wire value that decodes waits where the reader does. -/
theorem unmarshal_stuck_both (env : Env) (sk fuel : Nat) :
    (∀ a old tv (s : S), fuelOf tv ≤ sk → Stuck r tv s → Wants ((unmarshal env sk fuel a old tv.ty).run r s) (dec env fuel a old tv)) ∧
    (∀ t fs vals tfs (s : S), fuelOfFields tfs ≤ sk → StuckFields r tfs s → Wants ((unmarshalFields env sk fuel t fs vals).run r s) (decFields env fuel t fs vals tfs)) := by
  induction fuel with
  | zero =>
    exact ⟨fun _ _ _ _ _ _ v hv => (by rw [dec] at hv; cases hv), fun _ _ _ _ _ _ _ v hv => (by rw [decFields] at hv; cases hv)⟩
  | succ fuel ih =>
    obtain ⟨ih1, ih2⟩ := ih
    constructor
    · intro a old tv s hsk h
      cases a with
      | leaf t l => rw [unmarshal, dec]; exact leaf_stuck env t l old tv s h
      | struct t =>
        rw [unmarshal, dec]
        cases makeStructFields env fuel t with
        | done x =>
          cases x with
          | error e => intro v hv; cases hv
          | ok fs =>
            dsimp only [Out.elim]
            cases tv with
            | struct n tfs =>
              rw [if_neg (by simp [ty])]
              dsimp only
              cases old.fields? with
              | none => intro v hv; cases hv
              | some vals =>
                simp only [Stuck] at h
                obtain ⟨n', s1, h1, h2⟩ := h
                dsimp only
                rw [run_rcall h1]
                simp only [fuelOf] at hsk
                exact ih2 t fs vals tfs s1 (by omega) h2
            | _ => intro v hv; cases hv
        | _ => intro v hv; cases hv
      | map t ka ea =>
        rw [unmarshal, dec]
        have hh := (unmarshal_holds_both (r := r) env sk fuel).1
        have hf : ∀ e, (∃ w1 w2 es, tv = .map w1 w2 es ∧ e ∈ es) → fuelOf e.1 ≤ sk ∧ fuelOf e.2 ≤ sk := by
          rintro e ⟨w1, w2, es, rfl, he⟩
          simp only [fuelOf] at hsk
          have := fuelOf_entry he
          omega
        exact map_stuck env t _ _ old tv (fun e he v s s' h => hh ka v e.1 s s' (hf e he).1 h) (fun e he v s s' h => hh ea v e.2 s s' (hf e he).2 h)
          (fun e he v s h => ih1 ka v e.1 s (hf e he).1 h) (fun e he v s h => ih1 ea v e.2 s (hf e he).2 h) s h
      | seq t isSet ea =>
        rw [unmarshal, dec]
        have hf : ∀ e, (∃ w es, (tv = .list w es ∨ tv = .set w es) ∧ e ∈ es) → fuelOf e ≤ sk := by
          rintro e ⟨w, es, ht, he⟩
          have := fuelOf_elem he
          rcases ht with rfl | rfl
          · simp only [fuelOf] at hsk; omega
          · simp only [fuelOf] at hsk; omega
        exact seq_stuck env t isSet _ old tv (fun e he v s s' h => (unmarshal_holds_both env sk fuel).1 ea v e s s' (hf e he) h) (fun e he v s h => ih1 ea v e s (hf e he) h) s h
      | ptr t ea =>
        rw [unmarshal, dec]
        cases old.deref? (env.zero ea.typ) with
        | none => intro v hv; cases hv
        | some v => exact (ih1 ea v tv s hsk h).first _ _ _
      | invalid t => rw [dec]; intro v hv; cases hv
    · intro t fs vals tfs s hsk h
      cases tfs with
      | nil => exact h.elim
      | cons f tfs =>
        obtain ⟨fn, id, v⟩ := f
        simp only [StuckFields] at h
        obtain ⟨n, s3, hb, h⟩ := h
        simp only [fuelOfFields] at hsk
        rw [unmarshalFields, decFields, run_rcall hb, if_neg (ty_ne_stop v)]
        dsimp only
        rcases h with h | ⟨s4, s5, hv, he, hr⟩
        · cases byID fs id with
          | none =>
            dsimp only
            rw [RProg.run_bind, skip_stuck v sk (by omega) s3 h]
            exact fun _ _ => rfl
          | some sf =>
            dsimp only
            cases vals[sf.index]? with
            | none => intro v hv; cases hv
            | some v0 => exact (ih1 sf.a v0 v s3 (by omega) h).first _ _ _
        · have next : ∀ vals, Wants ((rcall "ReadFieldEnd" Ty.struct t .fieldEnd (GoVal.struct vals) fun _ => unmarshalFields env sk fuel t fs vals).run r s4) (decFields env fuel t fs vals tfs) := by
            intro vals
            rw [run_rcall he]
            exact ih2 t fs vals tfs s5 (by omega) hr
          cases byID fs id with
          | none =>
            dsimp only
            rw [RProg.run_bind, skip_holds v sk (by omega) s3 s4 hv]
            exact next vals
          | some sf =>
            dsimp only
            cases vals[sf.index]? with
            | none => intro v hv; cases hv
            | some v0 => exact .second ((unmarshal_holds_both env sk fuel).1 sf.a v0 v s3 s4 (by omega) hv) _ fun v' => next _

/-- Unmarshal waits if decoding would succeed. -/
theorem Unmarshal_stuck {env : Env} {p t : TypeId} (hp : (env.type p).kind = .ptr t) {n : Nat} {a : Arsh} (hl : lookupArshaler env n t = .done a) {tv : TVal} (hty : a.wireType = tv.ty) {s : S}
    (h : Stuck r tv s) {old v : GoVal} {m : Nat} (hd : dec env m a old tv = .done (v, none)) :
    ∃ k, ∀ fuel, k ≤ fuel → (Unmarshal env fuel (.val p (.ptr old))).run r s = .blocked := by
  refine ⟨n + fuelOf tv + m, fun fuel hf => ?_⟩
  have he : env.elem? p = some t := by simp [Env.elem?, hp]
  simp only [Unmarshal, he, GoVal.pointee?, lookup_mono (show n ≤ fuel by omega) hl, Out.elim, hty]
  have := (unmarshal_stuck_both (r := r) env fuel fuel).1 a old tv s (by omega) h v ((dec_le env (show m ≤ fuel by omega) a old tv).done hd)
  rw [UProg.andThen, RProg.run_bind, this]
  rfl

end

end GoThrift
