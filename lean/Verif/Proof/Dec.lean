import Verif.Model.Arshal
import Verif.Proof.Holds

/-!
# Unmarshal at a wire value

`dec env fuel a old tv`: what unmarshalling with arshaler `a` into `old` does when the reader is positioned at the wire value `tv`, as a function of the wire value. `unmarshal_holds` says so, for
any Reader.
-/

namespace GoThrift

open Spec Spec.TVal

/-- Result of decoding: the new value and the error. -/
abbrev Dec (α : Type) := Out (α × Option Err)

/-- As `UProg.andThen`. -/
def Dec.andThen {α β : Type} (p : Dec α) (fail : α → β) (k : α → Dec β) : Dec β :=
  p.bind fun r => match r.2 with
    | none => k r.1
    | some e => .done (fail r.1, some e)

/-- See the head of this file. -/
def decLeaf (env : Env) (t : TypeId) (l : Leaf) (old : GoVal) (tv : TVal) : Dec GoVal :=
  if tv.ty ≠ l.wireType then .done (old, some (.semantic .unmarshal tv.ty (some t)))
  else match l, tv with
    | .bool, .bool v => .done (.bool v, none)
    | .f32, .double v => .done (.f32 (env.narrow v), none)
    | .f64, .double v => .done (.f64 v, none)
    | .i8, .byte v => .done (.i8 v, none)
    | .i16, .i16 v => .done (.i16 v, none)
    | .i32, .i32 v => .done (.i32 v, none)
    | .i64, .i64 v => .done (.i64 v, none)
    | .string, .str _ v => .done (.str v, none)
    | .bytes, .str _ v => match old with
      | .bytes b => .done (.bytes (if b.isNone && v.isEmpty then none else some v), none)
      | _ => .panicked
    | .uuid, .uuid v => .done (.uuid v, none)
    | _, _ => .panicked

/-- As `seqLoop`. -/
def decLoop (u : GoVal → TVal → Dec GoVal) (zero : GoVal) (grow : Nat → Nat) : List TVal → List GoVal → List GoVal → Bool → Dec (List GoVal × List GoVal)
  | [], done, rest, _ => .done ((done, rest), none)
  | tv :: tvs, done, rest, mustZero =>
    let grown := rest.isEmpty
    let rest := if grown then List.replicate (max 1 (grow done.length - done.length)) zero else rest
    let mustZero := mustZero && !grown
    match rest with
    | [] => .panicked
    | v :: rest =>
      (u (if mustZero then zero else v) tv).andThen (fun v' => (done ++ [v'], rest)) fun v' =>
        decLoop u zero grow tvs (done ++ [v']) rest mustZero

/-- As `unmarshalSeq`. -/
def decSeq (env : Env) (t : TypeId) (isSet : Bool) (et : TypeId) (u : GoVal → TVal → Dec GoVal) (old : GoVal) (tv : TVal) : Dec GoVal :=
  let body (es : List TVal) : Dec GoVal :=
    if old.elems?.isNone then .panicked
    else if es ≠ [] then (decLoop u (env.zero et) (env.grow t) es [] old.slots true).andThen (fun p => .slice p.1 p.2) fun p => .done (.slice p.1 p.2, none)
    else .done (old.cleared, none)
  match isSet, tv with
  | true, .set _ es => body es
  | false, .list _ es => body es
  | _, _ => .done (old, some (.semantic .unmarshal tv.ty (some t)))

/-- As `mapLoop`. -/
def decEntries (uk uv : GoVal → TVal → Dec GoVal) (zeroK zeroV : GoVal) : List (TVal × TVal) → List (GoVal × GoVal) → Dec (List (GoVal × GoVal))
  | [], es => .done (es, none)
  | e :: tes, es =>
    (uk zeroK e.1).andThen (fun _ => es) fun k =>
      (uv ((mapIndex k es).getD zeroV) e.2).andThen (fun v => setMapIndex k v es) fun v => decEntries uk uv zeroK zeroV tes (setMapIndex k v es)

/-- As `unmarshalMap`. -/
def decMap (env : Env) (t kt et : TypeId) (uk uv : GoVal → TVal → Dec GoVal) (old : GoVal) (tv : TVal) : Dec GoVal :=
  match tv with
  | .map _ _ tes => match old.entries? with
    | none => .panicked
    | some es =>
      if tes ≠ [] then (decEntries uk uv (env.zero kt) (env.zero et) tes es).andThen .map fun es => .done (.map es, none)
      else .done (old, none)
  | tv => .done (old, some (.semantic .unmarshal tv.ty (some t)))

mutual
/-- See the head of this file. -/
def dec (env : Env) : Nat → Arsh → GoVal → TVal → Dec GoVal
  | 0, _, _, _ => .diverged
  | fuel + 1, a, old, tv =>
    match a with
    | .leaf t l => decLeaf env t l old tv
    | .struct t =>
      (makeStructFields env fuel t).elim .panicked .diverged fun r => match r with
        | .error e => .done (old, some (withAction .unmarshal e))
        | .ok fs => match tv with
          | .struct _ tfs => match old.fields? with
            | none => .panicked
            | some vals => decFields env fuel t fs vals tfs
          | tv => .done (old, some (.semantic .unmarshal tv.ty (some t)))
    | .map t ka ea => decMap env t ka.typ ea.typ (fun v tv => dec env fuel ka v tv) (fun v tv => dec env fuel ea v tv) old tv
    | .seq t isSet ea => decSeq env t isSet ea.typ (fun v tv => dec env fuel ea v tv) old tv
    | .ptr _ ea =>
      match old.deref? (env.zero ea.typ) with
      | none => .panicked
      | some v => (dec env fuel ea v tv).andThen .ptr fun v => .done (.ptr v, none)
    | .invalid t => .done (old, some (.semantic .unmarshal tv.ty (some t)))
/-- As `unmarshalFields`. -/
def decFields (env : Env) : Nat → TypeId → List SField → List GoVal → List (Bytes × BitVec 16 × TVal) → Dec GoVal
  | 0, _, _, _, _ => .diverged
  | _ + 1, _, _, vals, [] => .done (.struct vals, none)
  | fuel + 1, t, fs, vals, f :: tfs =>
    match byID fs f.2.1 with
    | none => decFields env fuel t fs vals tfs
    | some sf => match vals[sf.index]? with
      | none => .panicked
      | some v => (dec env fuel sf.a v f.2.2).andThen (fun v' => .struct (vals.set sf.index v')) fun v' => decFields env fuel t fs (vals.set sf.index v') tfs
end

/-! ## Agreement -/

/-- The run `x` has the outcome `d`; on success the reader is left in state `s'`. -/
def Matches {α S : Type} (x : Out ((α × Option Err) × S)) (d : Dec α) (s' : S) : Prop := match d with
  | .done (v, none) => x = .done ((v, none), s')
  | .done (v, some e) => ∃ s'', x = .done ((v, some e), s'')
  | .blocked => False
  | .diverged => x = .diverged
  | .panicked => x = .panicked

section
variable {S : Type} {r : Rdr S}

theorem Matches.ret {α : Type} (x : α × Option Err) (s : S) : Matches ((RProg.ret x).run r s) (.done x) s := by
  obtain ⟨v, e⟩ := x
  cases e with
  | none => rfl
  | some e => exact ⟨s, rfl⟩

theorem Matches.andThen {α β : Type} {p : UProg α} {d : Dec α} {s s1 s2 : S} (h : Matches (p.run r s) d s1) (fail : α → β) {k : α → UProg β} {kd : α → Dec β}
    (hk : ∀ v, Matches ((k v).run r s1) (kd v) s2) : Matches ((UProg.andThen p fail k).run r s) (d.andThen fail kd) s2 := by
  rw [UProg.andThen, RProg.run_bind]
  cases d with
  | done x =>
    obtain ⟨v, e⟩ := x
    cases e with
    | none =>
      rw [show p.run r s = _ from h]
      exact hk v
    | some e =>
      obtain ⟨s'', h⟩ := h
      rw [h]
      exact ⟨s'', rfl⟩
  | blocked => exact h.elim
  | diverged => rw [show p.run r s = _ from h]; rfl
  | panicked => rw [show p.run r s = _ from h]; rfl

theorem run_rcall {α : Type} {o : ROp} {s s' : S} {a : o.Ans} (h : Gives r o s a s') (act : String) (tt : WType) (t : TypeId) (old : α) (k : o.Ans → UProg α) :
    (rcall act tt t o old k).run r s = (k a).run r s' := by
  have h' : r.step o s = .done (.ok a, s') := h
  simp [rcall, RProg.run, h']

theorem leaf_holds (env : Env) (t : TypeId) (l : Leaf) (old : GoVal) (tv : TVal) (s s' : S) (h : Holds r tv s s') :
    Matches ((unmarshalLeaf env t l old tv.ty).run r s) (decLeaf env t l old tv) s' := by
  unfold unmarshalLeaf decLeaf
  by_cases hw : tv.ty ≠ l.wireType
  · rw [if_pos hw, if_pos hw]; exact ⟨s, rfl⟩
  · rw [if_neg hw, if_neg hw]
    have hw : tv.ty = l.wireType := Classical.not_not.1 hw
    cases l <;> cases tv <;> first | exact absurd hw (by simp only [ty, Leaf.wireType]; decide) | skip
    · dsimp only; rw [run_rcall h]; rfl
    · dsimp only; rw [run_rcall h]; rfl
    · dsimp only; rw [run_rcall h]; rfl
    · dsimp only; rw [run_rcall h]; rfl
    · dsimp only; rw [run_rcall h]; rfl
    · dsimp only; rw [run_rcall h]; rfl
    · dsimp only; rw [run_rcall h]; rfl
    · dsimp only; rw [run_rcall h.1]; rfl
    · cases old with
      | bytes b => dsimp only; rw [run_rcall (h.2.1 [])]; rfl
      | _ => rfl
    · dsimp only; rw [run_rcall h.1]; rfl

theorem decLoop_holds {u : GoVal → UProg GoVal} {du : GoVal → TVal → Dec GoVal} (zero : GoVal) (grow : Nat → Nat) (et : WType) (es : List TVal)
    (hu : ∀ tv ∈ es, ∀ v (s s' : S), tv.ty = et → Holds r tv s s' → Matches ((u v).run r s) (du v tv) s')
    (done rest : List GoVal) (mz : Bool) (s s' : S) (h : HoldsElems r et es s s') :
    Matches ((seqLoop u zero grow es.length done rest mz).run r s) (decLoop du zero grow es done rest mz) s' := by
  induction es generalizing done rest mz s with
  | nil => simp only [HoldsElems] at h; subst h; exact .ret _ _
  | cons e es ih =>
    simp only [HoldsElems] at h
    obtain ⟨ht, s1, h1, h2⟩ := h
    rw [List.length_cons, seqLoop, decLoop]
    generalize (if rest.isEmpty = true then List.replicate (max 1 (grow done.length - done.length)) zero else rest) = rest'
    cases rest' with
    | nil => rfl
    | cons v rest' => exact (hu e (by simp) _ s s1 ht h1).andThen _ fun v' => ih (fun tv htv => hu tv (by simp [htv])) _ _ _ s1 h2

theorem seqBody_holds (env : Env) (t et : TypeId) {u : WType → GoVal → UProg GoVal} {du : GoVal → TVal → Dec GoVal} (es : List TVal) (old : GoVal) (h : SetHeader)
    {fin : GoVal → UProg GoVal} (s1 s2 s' : S)
    (hu : ∀ tv ∈ es, ∀ v (s s' : S), tv.ty = h.element → Holds r tv s s' → Matches ((u h.element v).run r s) (du v tv) s')
    (hsize : loopCount h.size = es.length) (hes : HoldsElems r h.element es s1 s2)
    (hfin : ∀ v, Matches ((fin v).run r s2) (.done (v, none)) s') :
    Matches ((seqBody env t et u old h fin).run r s1)
      (if es ≠ [] then (decLoop du (env.zero et) (env.grow t) es [] old.slots true).andThen (fun p => .slice p.1 p.2) fun p => .done (.slice p.1 p.2, none)
       else .done (old.cleared, none)) s' := by
  rw [seqBody]
  by_cases he : es = []
  · subst he
    simp only [HoldsElems] at hes
    subst hes
    rw [if_neg (by rw [loopCount] at hsize; simp only [List.length_nil] at hsize; omega), if_neg (by simp)]
    exact hfin _
  · have : 0 < es.length := List.length_pos_iff.2 he
    rw [if_pos (by rw [loopCount] at hsize; omega), if_pos he, hsize]
    exact (decLoop_holds _ _ _ es hu _ _ _ s1 s2 hes).andThen _ fun p => hfin _

theorem seq_holds (env : Env) (t : TypeId) (isSet : Bool) (et : TypeId) {u : WType → GoVal → UProg GoVal} {du : GoVal → TVal → Dec GoVal} (old : GoVal) (tv : TVal)
    (hu : ∀ e, (∃ w es, (tv = .list w es ∨ tv = .set w es) ∧ e ∈ es) → ∀ v (s s' : S), Holds r e s s' → Matches ((u e.ty v).run r s) (du v e) s')
    (s s' : S) (h : Holds r tv s s') :
    Matches ((unmarshalSeq env t isSet et u old tv.ty).run r s) (decSeq env t isSet et du old tv) s' := by
  unfold unmarshalSeq
  dsimp only
  by_cases hw : tv.ty ≠ (if isSet then Ty.set else Ty.list)
  · rw [if_pos hw]
    have : decSeq env t isSet et du old tv = .done (old, some (.semantic .unmarshal tv.ty (some t))) := by
      cases isSet <;> cases tv <;> first | rfl | exact absurd rfl hw
    rw [this]
    exact ⟨s, rfl⟩
  · rw [if_neg hw]
    have hw : tv.ty = (if isSet then Ty.set else Ty.list) := Classical.not_not.1 hw
    cases isSet with
    | true =>
      cases tv with
      | set w es =>
        unfold decSeq
        dsimp only
        by_cases ho : old.elems?.isNone = true
        · rw [if_pos ho, if_pos ho]; rfl
        · rw [if_neg ho, if_neg ho, if_pos rfl]
          simp only [Holds] at h
          obtain ⟨h, s1, s2, h1, h2, rfl, h4, h5⟩ := h
          rw [run_rcall h1]
          refine seqBody_holds env t et es old h s1 s2 s' (fun tv htv v s s' hty hh => ?_) h2 h4 fun v => ?_
          · rw [← hty]; exact hu tv ⟨_, es, .inr rfl, htv⟩ v s s' hh
          · rw [run_rcall h5]; exact .ret _ _
      | _ => exact absurd hw (by simp only [ty]; decide)
    | false =>
      cases tv with
      | list w es =>
        unfold decSeq
        dsimp only
        by_cases ho : old.elems?.isNone = true
        · rw [if_pos ho, if_pos ho]; rfl
        · rw [if_neg ho, if_neg ho, if_neg (by simp)]
          simp only [Holds] at h
          obtain ⟨h, s1, s2, h1, h2, rfl, h4, h5⟩ := h
          rw [run_rcall h1]
          refine seqBody_holds env t et es old h s1 s2 s' (fun tv htv v s s' hty hh => ?_) h2 h4 fun v => ?_
          · rw [← hty]; exact hu tv ⟨_, es, .inl rfl, htv⟩ v s s' hh
          · rw [run_rcall h5]; exact .ret _ _
      | _ => exact absurd hw (by simp only [ty]; decide)

theorem decEntries_holds {uk : UProg GoVal} {uv : GoVal → UProg GoVal} {duk duv : GoVal → TVal → Dec GoVal} (zeroK zeroV : GoVal) (kt vt : WType)
    (tes : List (TVal × TVal))
    (hk : ∀ e ∈ tes, ∀ (s s' : S), e.1.ty = kt → Holds r e.1 s s' → Matches (uk.run r s) (duk zeroK e.1) s')
    (hv : ∀ e ∈ tes, ∀ v (s s' : S), e.2.ty = vt → Holds r e.2 s s' → Matches ((uv v).run r s) (duv v e.2) s')
    (es : List (GoVal × GoVal)) (s s' : S) (h : HoldsEntries r kt vt tes s s') :
    Matches ((mapLoop uk uv zeroV tes.length es).run r s) (decEntries duk duv zeroK zeroV tes es) s' := by
  induction tes generalizing es s with
  | nil => simp only [HoldsEntries] at h; subst h; exact .ret _ _
  | cons e tes ih =>
    obtain ⟨k, v⟩ := e
    simp only [HoldsEntries] at h
    obtain ⟨h1, h2, s3, s4, h3, h4, h5⟩ := h
    rw [List.length_cons, mapLoop, decEntries]
    refine (hk (k, v) (by simp) s s3 h1 h3).andThen _ fun k' => ?_
    refine (hv (k, v) (by simp) _ s3 s4 h2 h4).andThen _ fun v' => ?_
    exact ih (fun e he => hk e (by simp [he])) (fun e he => hv e (by simp [he])) _ s4 h5

theorem map_holds (env : Env) (t kt et : TypeId) {uk uv : WType → GoVal → UProg GoVal} {duk duv : GoVal → TVal → Dec GoVal} (old : GoVal) (tv : TVal)
    (hk : ∀ e, (∃ w1 w2 es, tv = .map w1 w2 es ∧ e ∈ es) → ∀ v (s s' : S), Holds r e.1 s s' → Matches ((uk e.1.ty v).run r s) (duk v e.1) s')
    (hv : ∀ e, (∃ w1 w2 es, tv = .map w1 w2 es ∧ e ∈ es) → ∀ v (s s' : S), Holds r e.2 s s' → Matches ((uv e.2.ty v).run r s) (duv v e.2) s')
    (s s' : S) (h : Holds r tv s s') :
    Matches ((unmarshalMap env t kt et uk uv old tv.ty).run r s) (decMap env t kt et duk duv old tv) s' := by
  unfold unmarshalMap
  by_cases hw : tv.ty ≠ Ty.map
  · rw [if_pos hw]
    have : decMap env t kt et duk duv old tv = .done (old, some (.semantic .unmarshal tv.ty (some t))) := by
      cases tv <;> first | rfl | exact absurd rfl hw
    rw [this]
    exact ⟨s, rfl⟩
  · rw [if_neg hw]
    have hw : tv.ty = Ty.map := Classical.not_not.1 hw
    cases tv with
    | map w1 w2 tes =>
      rw [decMap]
      cases ho : old.entries? with
      | none => rfl
      | some es =>
        simp only [Holds] at h
        obtain ⟨h, s1, s2, h1, h2, h3, h4, h5⟩ := h
        dsimp only
        rw [run_rcall h1]
        have hfin : ∀ v, Matches ((rcall "ReadMapEnd" Ty.map t .mapEnd v fun _ => .ret (v, none) : UProg GoVal).run r s2) (.done (v, none)) s' := by
          intro v; rw [run_rcall h5]; exact .ret _ _
        by_cases he : tes = []
        · subst he
          simp only [HoldsEntries] at h4
          subst h4
          rw [if_neg (by rw [loopCount] at h2; simp only [List.length_nil] at h2; omega), if_neg (by simp)]
          exact hfin _
        · have : 0 < tes.length := List.length_pos_iff.2 he
          rw [if_pos (by rw [loopCount] at h2; omega), if_pos he, h2]
          obtain ⟨rfl, rfl⟩ := h3 he
          refine (decEntries_holds _ _ h.key h.value tes (fun e he s s' hty hh => ?_) (fun e he v s s' hty hh => ?_) es s1 s2 h4).andThen _ fun es => hfin _
          · rw [← hty]; exact hk e ⟨_, _, tes, rfl, he⟩ _ s s' hh
          · rw [← hty]; exact hv e ⟨_, _, tes, rfl, he⟩ _ s s' hh
    | _ => exact absurd hw (by simp only [ty]; decide)

theorem Matches.elim {α β : Type} (x : Out α) {k : α → RProg (β × Option Err)} {kd : α → Dec β} {s s' : S} (hk : ∀ a, Matches ((k a).run r s) (kd a) s') :
    Matches ((x.elim .panic .diverge k).run r s) (x.elim .panicked .diverged kd) s' := by
  cases x with
  | done a => exact hk a
  | blocked => rfl
  | diverged => rfl
  | panicked => rfl

theorem fuelOf_elem {e : TVal} {es : List TVal} (h : e ∈ es) : fuelOf e ≤ fuelOfElems es := by
  induction es with
  | nil => cases h
  | cons a es ih =>
    rw [fuelOfElems]
    rcases List.mem_cons.1 h with rfl | h
    · omega
    · have := ih h; omega

theorem fuelOf_entry {e : TVal × TVal} {es : List (TVal × TVal)} (h : e ∈ es) : fuelOf e.1 ≤ fuelOfEntries es ∧ fuelOf e.2 ≤ fuelOfEntries es := by
  induction es with
  | nil => cases h
  | cons a es ih =>
    obtain ⟨k, v⟩ := a
    rw [fuelOfEntries]
    rcases List.mem_cons.1 h with rfl | h
    · dsimp only; omega
    · have := ih h; omega

/-- Unmarshalling at a wire value does what `dec` says. -/
theorem unmarshal_holds_both (env : Env) (sk fuel : Nat) :
    (∀ a old tv (s s' : S), fuelOf tv ≤ sk → Holds r tv s s' → Matches ((unmarshal env sk fuel a old tv.ty).run r s) (dec env fuel a old tv) s') ∧
    (∀ t fs vals tfs (s s1 s' : S), fuelOfFields tfs ≤ sk → HoldsFields r tfs s s1 → Gives r .structEnd s1 () s' →
      Matches ((unmarshalFields env sk fuel t fs vals).run r s) (decFields env fuel t fs vals tfs) s') := by
  induction fuel with
  | zero =>
    exact ⟨fun _ _ _ _ _ _ _ => by rw [unmarshal, dec]; rfl, fun _ _ _ _ _ _ _ _ _ _ => by rw [unmarshalFields, decFields]; rfl⟩
  | succ fuel ih =>
    obtain ⟨ih1, ih2⟩ := ih
    constructor
    · intro a old tv s s' hsk h
      cases a with
      | leaf t l => rw [unmarshal, dec]; exact leaf_holds env t l old tv s s' h
      | struct t =>
        rw [unmarshal, dec]
        refine Matches.elim _ fun x => ?_
        cases x with
        | error e => exact ⟨s, rfl⟩
        | ok fs =>
          dsimp only
          by_cases hw : tv.ty ≠ Ty.struct
          · rw [if_pos hw]
            cases tv <;> first | exact ⟨s, rfl⟩ | exact absurd rfl hw
          · rw [if_neg hw]
            have hw : tv.ty = Ty.struct := Classical.not_not.1 hw
            cases tv with
            | struct n tfs =>
              dsimp only
              cases old.fields? with
              | none => rfl
              | some vals =>
                simp only [Holds] at h
                obtain ⟨n', s1, s2, h1, h2, h3⟩ := h
                dsimp only
                rw [run_rcall h1]
                simp only [fuelOf] at hsk
                exact ih2 t fs vals tfs s1 s2 s' (by omega) h2 h3
            | _ => exact absurd hw (by simp only [ty]; decide)
      | map t ka ea =>
        rw [unmarshal, dec]
        refine map_holds env t _ _ old tv (fun e he v s s' hh => ?_) (fun e he v s s' hh => ?_) s s' h
        · obtain ⟨w1, w2, es, rfl, he⟩ := he
          simp only [fuelOf] at hsk
          exact ih1 ka v e.1 s s' (by have := (fuelOf_entry he).1; omega) hh
        · obtain ⟨w1, w2, es, rfl, he⟩ := he
          simp only [fuelOf] at hsk
          exact ih1 ea v e.2 s s' (by have := (fuelOf_entry he).2; omega) hh
      | seq t isSet ea =>
        rw [unmarshal, dec]
        refine seq_holds env t isSet _ old tv (fun e he v s s' hh => ?_) s s' h
        obtain ⟨w, es, ht, he⟩ := he
        refine ih1 ea v e s s' ?_ hh
        have := fuelOf_elem he
        rcases ht with rfl | rfl
        · simp only [fuelOf] at hsk; omega
        · simp only [fuelOf] at hsk; omega
      | ptr t ea =>
        rw [unmarshal, dec]
        cases old.deref? (env.zero ea.typ) with
        | none => rfl
        | some v => exact (ih1 ea v tv s s' hsk h).andThen _ fun v => .ret _ _
      | invalid t => rw [unmarshal, dec]; exact ⟨s, rfl⟩
    · intro t fs vals tfs s s1 s' hsk h hend
      cases tfs with
      | nil =>
        simp only [HoldsFields] at h
        obtain ⟨h, h2, ht⟩ := h
        rw [unmarshalFields, decFields, run_rcall h2, if_pos ht, run_rcall hend]
        exact .ret _ _
      | cons f tfs =>
        obtain ⟨fn, id, v⟩ := f
        simp only [HoldsFields] at h
        obtain ⟨n, s3, s4, s5, hb, hv, he, hr⟩ := h
        simp only [fuelOfFields] at hsk
        rw [unmarshalFields, decFields, run_rcall hb, if_neg (ty_ne_stop v)]
        have next : ∀ vals, Matches ((rcall "ReadFieldEnd" Ty.struct t .fieldEnd (GoVal.struct vals) fun _ => unmarshalFields env sk fuel t fs vals).run r s4)
            (decFields env fuel t fs vals tfs) s' := by
          intro vals
          rw [run_rcall he]
          exact ih2 t fs vals tfs s5 s1 s' (by omega) hr hend
        dsimp only
        cases byID fs id with
        | none =>
          dsimp only
          rw [RProg.run_bind, skip_holds v sk (by omega) s3 s4 hv]
          exact next vals
        | some sf =>
          dsimp only
          cases vals[sf.index]? with
          | none => rfl
          | some v0 => exact (ih1 sf.a v0 v s3 s4 (by omega) hv).andThen _ fun v' => next _

theorem unmarshal_holds (env : Env) (sk fuel : Nat) (a : Arsh) (old : GoVal) (tv : TVal) (s s' : S) (hsk : fuelOf tv ≤ sk) (h : Holds r tv s s') :
    Matches ((unmarshal env sk fuel a old tv.ty).run r s) (dec env fuel a old tv) s' :=
  (unmarshal_holds_both env sk fuel).1 a old tv s s' hsk h

end

end GoThrift
