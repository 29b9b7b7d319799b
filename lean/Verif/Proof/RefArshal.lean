import Verif.Proof.RefTable
import Verif.Proof.Table

/-!
# Marshal and Unmarshal among other goroutines
-/

namespace GoThrift

open Spec

/-! ## Programs without shared steps, as goroutines -/

theorem WProg.toC_andThen (p q : WProg) : (p.andThen q).toC = p.toC.andThen q.toC := by
  induction p with
  | ret e => cases e <;> rfl
  | diverge => rfl
  | panic => rfl
  | call o k ih =>
    show CProg.call _ _ = CProg.call _ _
    congr 1
    funext r
    exact ih r

theorem RProg.toC_bind {α β : Type} (p : RProg α) (f : α → RProg β) : (p.bind f).toC = p.toC.bind fun a => (f a).toC := by
  induction p with
  | ret e => rfl
  | diverge => rfl
  | panic => rfl
  | call o k ih =>
    show CProg.call _ _ = CProg.call _ _
    congr 1
    funext r
    exact ih r

theorem toC_elimW {α : Type} (x : Out α) (k : α → WProg) : (x.elim .panic .diverge k).toC = x.elim .panic .diverge fun a => (k a).toC := by
  cases x <;> rfl

theorem toC_elimR {α β : Type} (x : Out α) (k : α → RProg β) : (x.elim .panic .diverge k).toC = x.elim .panic .diverge fun a => (k a).toC := by
  cases x <;> rfl

/-! ## Following a sequential program from any later state -/

/-- The same result, outside of any `once.Do`. -/
def Same' (i : Nat) {α : Type} (s : Shared) (a b : α) : Prop := a = b ∧ Hold i none s

/-- In every later state, outside of `once.Do`, the goroutine follows the sequential program. -/
def Fol (env : Env) (T : Prop) (i : Nat) (s0 : Shared) {α : Type} (p w : CProg α) : Prop :=
  ∀ s, s0.Le s → Hold i none s → Ref env T i (Same' i) p w s

variable {env : Env} {T : Prop} {i : Nat} {s0 : Shared}

theorem Fol.ret {α : Type} (a : α) : Fol env T i s0 (.ret a) (.ret a) := fun _ _ hs => ⟨a, ⟨rfl, hs⟩, .inl rfl⟩

theorem Fol.panic {α : Type} : Fol env T i s0 (.panic : CProg α) .panic := fun _ _ hs => ⟨.inl rfl, hs.none⟩

theorem Fol.diverge {α : Type} : Fol env T i s0 (.diverge : CProg α) .diverge := fun _ _ hs => ⟨rfl, fun _ => hs.none⟩

theorem Fol.call {α : Type} (o : LOp) {k k' : o.Ans → CProg α} (h : ∀ r, Fol env T i s0 (k r) (k' r)) : Fol env T i s0 (.call o k) (.call o k') :=
  fun s h0 hs => ⟨hs.none, .inl ⟨k', rfl, fun r => h r s h0 hs⟩⟩

theorem Fol.bind {α β : Type} {p w : CProg α} {f g : α → CProg β} (h : Fol env T i s0 p w) (hf : ∀ a, Fol env T i s0 (f a) (g a)) :
    Fol env T i s0 (p.bind f) (w.bind g) := by
  intro s h0 hs
  refine (h s h0 hs).frame.bind ?_
  rintro s' a b ⟨⟨rfl, h3⟩, h4⟩
  exact hf a s' (h0.trans h4) h3

theorem Fol.refl {α : Type} {p : CProg α} (h : ∀ (o : SOp) (k : o.Ans → CProg α), p ≠ .shared o k) (hk : ∀ (o : LOp) (k : o.Ans → CProg α), p = .call o k → ∀ r, Fol env T i s0 (k r) (k r)) :
    Fol env T i s0 p p := by
  cases p with
  | ret a => exact .ret a
  | diverge => exact .diverge
  | panic => exact .panic
  | shared o k => exact absurd rfl (h o k)
  | call o k => exact .call o (hk o k rfl)

theorem Fol.ofW (p : WProg) : Fol env T i s0 p.toC p.toC := by
  induction p with
  | ret a => exact .ret a
  | diverge => exact .diverge
  | panic => exact .panic
  | call o k ih => exact .call (.write o) ih

theorem Fol.ofR {α : Type} (p : RProg α) : Fol env T i s0 p.toC p.toC := by
  induction p with
  | ret a => exact .ret a
  | diverge => exact .diverge
  | panic => exact .panic
  | call o k ih => exact .call (.read o) ih

theorem Fol.get {α : Type} {p : Ptr} {a : Arsh} {w : CProg α} {k : Obj → CProg α} (hd : Describes s0 p a)
    (h : ∀ o, s0.heap[p]? = some o → o.wireType = a.wireType → Fol env T i s0 (k o) w) : Fol env T i s0 ((CProg.op (.get p)).bind k) w := by
  intro s h0 hs
  obtain ⟨o, h1, h2⟩ := Describes.obj hd
  refine Ref.get (Describes.le h0 hd) fun s' o' hr _ ho _ => ?_
  have := (h0.trans hr.1).heap h1
  rw [ho] at this
  cases this
  exact h _ h1 h2 s' (h0.trans hr.1) (hs.rely hr)

theorem Fol.ite {α : Type} {c : Prop} {_ : Decidable c} {p p' q q' : CProg α} (h1 : Fol env T i s0 p p') (h2 : Fol env T i s0 q q') :
    Fol env T i s0 (if c then p else q) (if c then p' else q') := by
  by_cases h : c
  · rw [if_pos h, if_pos h]; exact h1
  · rw [if_neg h, if_neg h]; exact h2

theorem Fol.later {α : Type} {s1 : Shared} {p w : CProg α} (h : Fol env T i s0 p w) (h1 : s0.Le s1) : Fol env T i s1 p w :=
  fun s hs => h s (h1.trans hs)

/-! ## The arshalers of parts -/

/-- Made by lookupArshaler. -/
def Genuine (env : Env) (a : Arsh) : Prop := ∃ fuel t, lookupArshaler env fuel t = .done a

theorem Genuine.map {t : TypeId} {ka ea : Arsh} (h : Genuine env (.map t ka ea)) :
    env.keyType t = ka.typ ∧ env.elemType t = ea.typ ∧ Genuine env ka ∧ Genuine env ea := by
  obtain ⟨fuel, t', h⟩ := h
  cases fuel with
  | zero => cases h
  | succ n =>
    have hc := lookup_cases h
    cases hk : (env.type t').kind with
    | map k e =>
      simp only [hk] at hc
      obtain ⟨ka', ea', h1, h2, h3⟩ := hc
      cases h3
      rw [Env.keyType, Env.elemType, hk]
      exact ⟨(lookup_typ h1).symm, (lookup_typ h2).symm, ⟨n, k, h1⟩, ⟨n, e, h2⟩⟩
    | slice e =>
      simp only [hk] at hc
      rcases hc with ⟨_, hc⟩ | ⟨_, ea, _, hc⟩ <;> cases hc
    | ptr e =>
      simp only [hk] at hc
      obtain ⟨_, _, hc⟩ := hc
      cases hc
    | _ => simp only [hk] at hc; cases hc

theorem Genuine.seq {t : TypeId} {b : Bool} {ea : Arsh} (h : Genuine env (.seq t b ea)) : env.elemType t = ea.typ ∧ Genuine env ea := by
  obtain ⟨fuel, t', h⟩ := h
  cases fuel with
  | zero => cases h
  | succ n =>
    have hc := lookup_cases h
    cases hk : (env.type t').kind with
    | map k e =>
      simp only [hk] at hc
      obtain ⟨ka', ea', h1, h2, h3⟩ := hc
      cases h3
    | slice e =>
      simp only [hk] at hc
      rcases hc with ⟨_, hc⟩ | ⟨_, ea, h1, hc⟩
      · cases hc
      · cases hc
        rw [Env.elemType, hk]
        exact ⟨(lookup_typ h1).symm, ⟨n, e, h1⟩⟩
    | ptr e =>
      simp only [hk] at hc
      obtain ⟨_, _, hc⟩ := hc
      cases hc
    | _ => simp only [hk] at hc; cases hc

theorem Genuine.ptr {t : TypeId} {ea : Arsh} (h : Genuine env (.ptr t ea)) : env.elemType t = ea.typ ∧ Genuine env ea := by
  obtain ⟨fuel, t', h⟩ := h
  cases fuel with
  | zero => cases h
  | succ n =>
    have hc := lookup_cases h
    cases hk : (env.type t').kind with
    | map k e =>
      simp only [hk] at hc
      obtain ⟨ka', ea', h1, h2, h3⟩ := hc
      cases h3
    | slice e =>
      simp only [hk] at hc
      rcases hc with ⟨_, hc⟩ | ⟨_, ea, h1, hc⟩ <;> cases hc
    | ptr e =>
      simp only [hk] at hc
      obtain ⟨_, h1, hc⟩ := hc
      cases hc
      rw [Env.elemType, hk]
      exact ⟨(lookup_typ h1).symm, ⟨n, e, h1⟩⟩
    | _ => simp only [hk] at hc; cases hc

/-! ## Marshal -/

theorem Fol.andThen {p w q v : CProg (Option Err)} (h : Fol env T i s0 p w) (hq : Fol env T i s0 q v) : Fol env T i s0 (p.andThen q) (w.andThen v) := by
  refine h.bind fun e => ?_
  cases e with
  | none => exact hq
  | some e => exact .ret _

theorem Fol.wcall (act : String) (tt : WType) (t : TypeId) (o : WOp) {k : CProg (Option Err)} {k' : WProg} (h : Fol env T i s0 k k'.toC) :
    Fol env T i s0 (cwcall act tt t o k) (wcall act tt t o k').toC := by
  refine .call (.write o) fun r => ?_
  cases r with
  | none => exact h
  | some e => exact .ret _

theorem Fol.wcallEnd (act : String) (tt : WType) (t : TypeId) (o : WOp) :
    Fol env T i s0 (cwcall act tt t o (.ret none)) (GoThrift.wcall act tt t o (.ret none)).toC := .wcall _ _ _ _ (k' := .ret none) (.ret _)

theorem Fol.elems {m : GoVal → CProg (Option Err)} {m' : GoVal → WProg} (hm : ∀ v, Fol env T i s0 (m v) (m' v).toC) {k : CProg (Option Err)} {k' : WProg}
    (hk : Fol env T i s0 k k'.toC) (vs : List GoVal) : Fol env T i s0 (cmarshalElems m k vs) (marshalElems m' k' vs).toC := by
  induction vs with
  | nil => exact hk
  | cons v vs ih => rw [marshalElems, WProg.toC_andThen]; exact (hm v).andThen ih

theorem Fol.entries {m n : GoVal → CProg (Option Err)} {m' n' : GoVal → WProg} (hm : ∀ v, Fol env T i s0 (m v) (m' v).toC) (hn : ∀ v, Fol env T i s0 (n v) (n' v).toC)
    {k : CProg (Option Err)} {k' : WProg} (hk : Fol env T i s0 k k'.toC) (es : List (GoVal × GoVal)) :
    Fol env T i s0 (cmarshalEntries m n k es) (marshalEntries m' n' k' es).toC := by
  induction es with
  | nil => exact hk
  | cons e es ih => rw [marshalEntries, WProg.toC_andThen, WProg.toC_andThen]; exact (hm _).andThen ((hn _).andThen ih)

theorem Fol.fields {m : Ptr → GoVal → CProg (Option Err)} {m' : Arsh → GoVal → WProg} {cs : List CField} {fs : List SField}
    (hf : FieldsDenote s0 cs fs) (hm : ∀ p f, f ∈ fs → Denotes s0 p f.a → ∀ v, Fol env T i s0 (m p v) (m' f.a v).toC) (t : TypeId) (vals : List GoVal) {k : CProg (Option Err)} {k' : WProg}
    (hk : Fol env T i s0 k k'.toC) : Fol env T i s0 (cmarshalFields env m t vals k cs) (marshalFields env m' t vals k' fs).toC := by
  induction hf with
  | nil => exact hk
  | @cons c f cs fs h1 _ ih =>
    have ih := ih fun p g hg => hm p g (List.mem_cons_of_mem _ hg)
    rw [cmarshalFields, marshalFields]
    refine .get h1.fncs.2 fun o _ ho => ?_
    rw [ho, h1.typ, h1.index, h1.required, h1.name, h1.id]
    split
    · exact .ret _
    · cases vals[f.index]? with
      | none => exact .panic
      | some v =>
        dsimp only
        split
        · exact ih
        · refine .wcall _ _ _ _ ?_
          rw [WProg.toC_andThen]
          exact (hm c.fncs f (List.mem_cons_self ..) h1.fncs _).andThen (.wcall _ _ _ _ ih)

theorem Fol.seqM (t : TypeId) (isSet : Bool) (et : WType) {m : GoVal → CProg (Option Err)} {m' : GoVal → WProg} (hm : ∀ v, Fol env T i s0 (m v) (m' v).toC) (vs : List GoVal) :
    Fol env T i s0 (cmarshalSeq t isSet et m vs) (marshalSeq t isSet et m' vs).toC := by
  rw [cmarshalSeq, marshalSeq]
  split
  · exact .wcall _ _ _ _ (.elems hm (.wcallEnd _ _ _ _) vs)
  · exact .wcall _ _ _ _ (.elems hm (.wcallEnd _ _ _ _) vs)

/-- Use of a field table. -/
theorem Fol.table {α : Type} {lf n : Nat} (hn : n ≤ lf) (hT : T → Total env lf) {t : TypeId} {p : Ptr} (hd : Denotes s0 p (.struct t)) {f : CTable → CProg α}
    {g : Except Err (List SField) → CProg α}
    (h : ∀ s1 r r', s0.Le s1 → TableDenotes s1 r r' → (∀ fs, r' = .ok fs → ∀ f ∈ fs, Genuine env f.a) → Fol env T i s1 (f r) (g r')) :
    Fol env T i s0 ((ctable env lf t p).bind f) ((makeStructFields env n t).elim .panic .diverge g) := by
  intro s h0 hs
  refine (ctable_ref hn hT (Denotes.le h0 hd) hs).frame.bindOut ?_
  rintro s1 r r' ⟨⟨h1, ⟨fuel, h2⟩, h3⟩, h4⟩
  refine h s1 r r' (h0.trans h4) h1 (fun fs hr f hf => ?_) s1 (.refl _) h3
  subst hr
  obtain ⟨d, _, _, _, _, h5⟩ := (makeStructFields_table env fuel t fs h2).mem f hf
  exact ⟨fuel, d.typ, h5⟩

theorem Fol.marshal {lf : Nat} (hT : T → Total env lf) (n : Nat) (hn : n ≤ lf) {p : Ptr} {a : Arsh} (hd : Denotes s0 p a) (ha : Genuine env a) (v : GoVal) :
    Fol env T i s0 (cmarshal env lf n p v) (marshal env n a v).toC := by
  induction n generalizing s0 p a v with
  | zero => exact .diverge
  | succ n ih =>
    have ih : ∀ {s0 : Shared} {p : Ptr} {a : Arsh}, Denotes s0 p a → Genuine env a → ∀ v, Fol env T i s0 (cmarshal env lf n p v) (GoThrift.marshal env n a v).toC :=
      fun hd ha v => ih (by omega) hd ha v
    rw [cmarshal]
    refine .get hd.2 fun o ho _ => ?_
    have ho' := ho
    cases a with
    | leaf t l =>
      rw [show s0.heap[p]? = _ from hd.2] at ho'
      cases ho'
      rw [marshal]
      exact .ofW _
    | struct t =>
      rw [show s0.heap[p]? = _ from hd.2] at ho'
      cases ho'
      rw [marshal, toC_elimW]
      refine .table (by omega) hT hd fun s1 r r' hle hr hg => ?_
      cases hr with
      | error e => exact .ret _
      | ok hr =>
        dsimp only
        cases v.fields? with
        | none => exact .panic
        | some vals => exact .wcall _ _ _ _ (.fields hr (fun p f hf hp v => ih hp (hg _ rfl f hf) v) _ _ (.wcallEnd _ _ _ _))
    | map t ka ea =>
      obtain ⟨k, e, h1, h2, h3⟩ := hd.2
      obtain ⟨_, _, g1, g2⟩ := ha.map
      rw [h1] at ho'
      cases ho'
      rw [marshal]
      refine .get h2.2 fun ko _ hk => .get h3.2 fun eo _ he => ?_
      rw [hk, he]
      split
      · exact .ret _
      · cases v.entries? with
        | none => exact .panic
        | some es => exact .wcall _ _ _ _ (.entries (ih h2 g1) (ih h3 g2) (.wcallEnd _ _ _ _) _)
    | seq t isSet ea =>
      obtain ⟨e, h1, h3⟩ := hd.2
      obtain ⟨_, g2⟩ := ha.seq
      rw [h1] at ho'
      cases ho'
      rw [marshal]
      refine .get h3.2 fun eo _ he => ?_
      rw [he]
      split
      · exact .ret _
      · cases v.elems? with
        | none => exact .panic
        | some vs => exact .seqM _ _ _ (ih h3 g2) _
    | ptr t ea =>
      obtain ⟨e, h1, h3⟩ := hd.2
      obtain ⟨g1, g2⟩ := ha.ptr
      rw [h1] at ho'
      cases ho'
      rw [marshal]
      dsimp only
      rw [g1]
      cases v.deref? (env.zero ea.typ) with
      | none => exact .panic
      | some v => exact ih h3 g2 _
    | invalid t =>
      rw [show s0.heap[p]? = _ from hd.2] at ho'
      cases ho'
      rw [marshal]
      exact .ret _

/-- After a lookup. -/
theorem Fol.lookup {α : Type} {lf n : Nat} (hn : n ≤ lf) {t : TypeId} {f : Ptr → CProg α} {g : Arsh → CProg α}
    (h : ∀ s1 p a, s0.Le s1 → Denotes s1 p a → Genuine env a → Fol env T i s1 (f p) (g a)) :
    Fol env T i s0 ((clookup env lf t).bind f) ((lookupArshaler env n t).elim .panic .diverge g) := by
  intro s h0 hs
  refine ((clookup_ref lf t none (fun _ => rfl) s hs).lessOut (lookupArshaler_le env n lf hn t)).frame.bindOut ?_
  rintro s1 p a ⟨⟨h1, ⟨fuel, h2⟩, h3⟩, h4⟩
  exact h s1 p a (h0.trans h4) h1 ⟨fuel, t, h2⟩ s1 (.refl _) h3

theorem Fol.Marshal {lf : Nat} (hT : T → Total env lf) (n : Nat) (hn : n ≤ lf) (x : AnyVal) : Fol env T i s0 (cMarshal env lf n x) (Marshal env n x).toC := by
  cases x with
  | nil => exact .ret _
  | val t v =>
    rw [cMarshal, GoThrift.Marshal]
    cases env.elem? t with
    | none =>
      show Fol env T i s0 _ (Out.elim _ _ _ _ : WProg).toC
      rw [toC_elimW]
      exact .lookup hn fun s1 p a _ hd ha => .marshal hT n hn hd ha v
    | some e =>
      cases v.pointee? with
      | none => exact .ret _
      | some v =>
        simp only
        rw [toC_elimW]
        exact .lookup hn fun s1 p a _ hd ha => .marshal hT n hn hd ha _

/-! ## Unmarshal -/

theorem Fol.uandThen {α β : Type} {p : CUProg α} {w : UProg α} (h : Fol env T i s0 p w.toC) (fail : α → β) {k : α → CUProg β} {k' : α → UProg β}
    (hk : ∀ a, Fol env T i s0 (k a) (k' a).toC) : Fol env T i s0 (p.andThen fail k) (UProg.andThen w fail k').toC := by
  rw [UProg.andThen, RProg.toC_bind]
  refine h.bind fun r => ?_
  obtain ⟨a, e⟩ := r
  cases e with
  | none => exact hk a
  | some e => exact .ret _

theorem Fol.rcall {α : Type} (act : String) (tt : WType) (t : TypeId) (o : ROp) (old : α) {k : o.Ans → CUProg α} {k' : o.Ans → UProg α}
    (h : ∀ a, Fol env T i s0 (k a) (k' a).toC) : Fol env T i s0 (crcall act tt t o old k) (rcall act tt t o old k').toC := by
  refine .call (.read o) fun r => ?_
  cases r with
  | ok a => exact h a
  | error e => exact .ret _

theorem Fol.seqLoop {u : GoVal → CUProg GoVal} {u' : GoVal → UProg GoVal} (hu : ∀ v, Fol env T i s0 (u v) (u' v).toC) (zero : GoVal) (grow : Nat → Nat) (n : Nat)
    (done rest : List GoVal) (mz : Bool) : Fol env T i s0 (cseqLoop u zero grow n done rest mz) (seqLoop u' zero grow n done rest mz).toC := by
  induction n generalizing done rest mz with
  | zero => exact .ret _
  | succ n ih =>
    rw [cseqLoop, GoThrift.seqLoop]
    cases (if rest.isEmpty = true then List.replicate (max 1 (grow done.length - done.length)) zero else rest) with
    | nil => exact .panic
    | cons v rest' => exact .uandThen (hu _) _ fun _ => ih _ _ _

theorem Fol.mapLoop {uk : CUProg GoVal} {uk' : UProg GoVal} {uv : GoVal → CUProg GoVal} {uv' : GoVal → UProg GoVal} (hk : Fol env T i s0 uk uk'.toC)
    (hv : ∀ v, Fol env T i s0 (uv v) (uv' v).toC) (zero : GoVal) (n : Nat) (es : List (GoVal × GoVal)) :
    Fol env T i s0 (cmapLoop uk uv zero n es) (mapLoop uk' uv' zero n es).toC := by
  induction n generalizing es with
  | zero => exact .ret _
  | succ n ih => exact .uandThen hk _ fun k => .uandThen (hv _) _ fun v => ih _

theorem toC_ite {α : Type} {c : Prop} {_ : Decidable c} (p q : RProg α) : (if c then p else q).toC = if c then p.toC else q.toC := by
  split <;> rfl

theorem Fol.unmarshalSeq (t : TypeId) (isSet : Bool) (et : TypeId) {u : WType → GoVal → CUProg GoVal} {u' : WType → GoVal → UProg GoVal}
    (hu : ∀ wt v, Fol env T i s0 (u wt v) (u' wt v).toC) (old : GoVal) (wt : WType) :
    Fol env T i s0 (cunmarshalSeq env t isSet et u old wt) (unmarshalSeq env t isSet et u' old wt).toC := by
  have body : ∀ (h : SetHeader) {fin : GoVal → CUProg GoVal} {fin' : GoVal → UProg GoVal}, (∀ v, Fol env T i s0 (fin v) (fin' v).toC) →
      Fol env T i s0 (cseqBody env t et u old h fin) (seqBody env t et u' old h fin').toC := by
    intro h fin fin' hf
    rw [cseqBody, seqBody, toC_ite]
    exact .ite (.uandThen (.seqLoop (hu _) _ _ _ _ _ _) _ fun _ => hf _) (hf _)
  rw [cunmarshalSeq, GoThrift.unmarshalSeq]
  simp only [toC_ite]
  exact .ite (.ret _) (.ite .panic (.ite (.rcall _ _ _ _ _ fun h => body h fun _ => .rcall _ _ _ _ _ fun _ => .ret _)
    (.rcall _ _ _ _ _ fun h => body h fun _ => .rcall _ _ _ _ _ fun _ => .ret _)))

theorem Fol.unmarshalMap (t kt et : TypeId) {uk uv : WType → GoVal → CUProg GoVal} {uk' uv' : WType → GoVal → UProg GoVal}
    (hk : ∀ wt v, Fol env T i s0 (uk wt v) (uk' wt v).toC) (hv : ∀ wt v, Fol env T i s0 (uv wt v) (uv' wt v).toC) (old : GoVal) (wt : WType) :
    Fol env T i s0 (cunmarshalMap env t kt et uk uv old wt) (unmarshalMap env t kt et uk' uv' old wt).toC := by
  rw [cunmarshalMap, GoThrift.unmarshalMap, toC_ite]
  refine .ite (.ret _) ?_
  cases old.entries? with
  | none => exact .panic
  | some es =>
    refine .rcall _ _ _ _ _ fun h => ?_
    have fin : ∀ v : GoVal, Fol env T i s0 (crcall "ReadMapEnd" Ty.map t .mapEnd v fun _ => .ret (v, none)) (GoThrift.rcall "ReadMapEnd" Ty.map t .mapEnd v fun _ => .ret (v, none)).toC :=
      fun v => .rcall _ _ _ _ _ fun _ => .ret _
    dsimp only
    rw [toC_ite]
    exact .ite (.uandThen (.mapLoop (hk _ _) (hv _) _ _ _) _ fun _ => fin _) (fin _)

theorem byID_denotes {cs : List CField} {fs : List SField} (h : FieldsDenote s0 cs fs) (id : BitVec 16) :
    (cbyID cs id = none ∧ byID fs id = none) ∨ ∃ c f, cbyID cs id = some c ∧ byID fs id = some f ∧ FieldDenotes s0 c f ∧ f ∈ fs := by
  rw [cbyID, byID]
  induction h with
  | nil => exact .inl ⟨rfl, rfl⟩
  | @cons c f cs fs h1 _ ih =>
    rw [List.reverse_cons, List.reverse_cons, List.find?_append, List.find?_append]
    rcases ih with ⟨e1, e2⟩ | ⟨c', f', e1, e2, h3, h4⟩
    · rw [e1, e2]
      by_cases hc : f.id = id
      · refine .inr ⟨c, f, ?_, ?_, h1, List.mem_cons_self ..⟩
        · rw [← hc, ← h1.id]; simp
        · rw [← hc]; simp
      · left
        have hc' : c.id ≠ id := by rw [h1.id]; exact hc
        simp [hc, hc']
    · rw [e1, e2]
      exact .inr ⟨c', f', rfl, rfl, h3, List.mem_cons_of_mem _ h4⟩

theorem fol_unmarshal {lf : Nat} (hT : T → Total env lf) (sk : Nat) (n : Nat) (hn : n ≤ lf) :
    (∀ (s0 : Shared) {p : Ptr} {a : Arsh} (_ : Denotes s0 p a) (_ : Genuine env a) (old : GoVal) (wt : WType),
      Fol env T i s0 (cunmarshal env lf sk n p old wt) (unmarshal env sk n a old wt).toC) ∧
    (∀ (s0 : Shared) (t : TypeId) {cs : List CField} {fs : List SField} (_ : FieldsDenote s0 cs fs) (_ : ∀ f ∈ fs, Genuine env f.a) (vals : List GoVal),
      Fol env T i s0 (cunmarshalFields env lf sk n t cs vals) (unmarshalFields env sk n t fs vals).toC) := by
  induction n with
  | zero => exact ⟨fun s0 p a _ _ _ _ => by rw [cunmarshal, unmarshal]; exact .diverge, fun s0 t cs fs _ _ _ => by rw [cunmarshalFields, unmarshalFields]; exact .diverge⟩
  | succ n ih =>
    obtain ⟨ih1, ih2⟩ := ih (by omega)
    constructor
    · intro s0 p a hd ha old wt
      rw [cunmarshal]
      refine .get hd.2 fun o ho _ => ?_
      have ho' := ho
      cases a with
      | leaf t l =>
        rw [show s0.heap[p]? = _ from hd.2] at ho'
        cases ho'
        rw [unmarshal]
        exact .ofR _
      | struct t =>
        rw [show s0.heap[p]? = _ from hd.2] at ho'
        cases ho'
        rw [unmarshal, toC_elimR]
        refine .table (by omega) hT hd fun s1 r r' hle hr hg => ?_
        cases hr with
        | error e => exact .ret _
        | ok hr =>
          dsimp only
          rw [toC_ite]
          refine .ite (.ret _) ?_
          cases old.fields? with
          | none => exact .panic
          | some vals => exact .rcall _ _ _ _ _ fun _ => ih2 s1 t hr (hg _ rfl) _
      | map t ka ea =>
        obtain ⟨k, e, h1, h2, h3⟩ := hd.2
        obtain ⟨g1, g2, g3, g4⟩ := ha.map
        rw [h1] at ho'
        cases ho'
        rw [unmarshal]
        dsimp only
        rw [g1, g2]
        exact .unmarshalMap _ _ _ (fun wt v => ih1 s0 h2 g3 v wt) (fun wt v => ih1 s0 h3 g4 v wt) _ _
      | seq t isSet ea =>
        obtain ⟨e, h1, h3⟩ := hd.2
        obtain ⟨g1, g2⟩ := ha.seq
        rw [h1] at ho'
        cases ho'
        rw [unmarshal]
        dsimp only
        rw [g1]
        exact .unmarshalSeq _ _ _ (fun wt v => ih1 s0 h3 g2 v wt) _ _
      | ptr t ea =>
        obtain ⟨e, h1, h3⟩ := hd.2
        obtain ⟨g1, g2⟩ := ha.ptr
        rw [h1] at ho'
        cases ho'
        rw [unmarshal]
        dsimp only
        rw [g1]
        cases old.deref? (env.zero ea.typ) with
        | none => exact .panic
        | some v => exact .uandThen (ih1 s0 h3 g2 _ _) _ fun _ => .ret _
      | invalid t =>
        rw [show s0.heap[p]? = _ from hd.2] at ho'
        cases ho'
        rw [unmarshal]
        exact .ret _
    · intro s0 t cs fs hf hg vals
      rw [cunmarshalFields, unmarshalFields]
      refine .rcall _ _ _ _ _ fun h => ?_
      rw [toC_ite]
      refine .ite (.rcall _ _ _ _ _ fun _ => .ret _) ?_
      have next : ∀ vals, Fol env T i s0 (crcall "ReadFieldEnd" Ty.struct t .fieldEnd (GoVal.struct vals) fun _ => cunmarshalFields env lf sk n t cs vals)
          (rcall "ReadFieldEnd" Ty.struct t .fieldEnd (GoVal.struct vals) fun _ => unmarshalFields env sk n t fs vals).toC :=
        fun vals => .rcall _ _ _ _ _ fun _ => ih2 s0 t hf hg vals
      dsimp only
      rcases byID_denotes hf h.id with ⟨e1, e2⟩ | ⟨c, f, e1, e2, hd, hm⟩
      · rw [e1, e2]
        dsimp only
        rw [RProg.toC_bind]
        refine (Fol.ofR _).bind fun e => ?_
        cases e with
        | none => exact next _
        | some e => exact .ret _
      · rw [e1, e2]
        dsimp only
        rw [hd.index]
        cases vals[f.index]? with
        | none => exact .panic
        | some v => exact .uandThen (ih1 s0 hd.fncs (hg f hm) _ _) _ fun _ => next _

theorem Fol.Unmarshal {lf : Nat} (hT : T → Total env lf) (n : Nat) (hn : n ≤ lf) (x : AnyVal) : Fol env T i s0 (cUnmarshal env lf n x) (Unmarshal env n x).toC := by
  cases x with
  | nil => exact .ret _
  | val t v =>
    rw [cUnmarshal, GoThrift.Unmarshal]
    cases env.elem? t with
    | none => exact .ret _
    | some e =>
      cases v.pointee? with
      | none => exact .ret _
      | some v =>
        simp only
        rw [toC_elimR]
        refine .lookup hn fun s1 p a _ hd ha => .get hd.2 fun o _ ho => ?_
        rw [ho]
        exact .uandThen ((fol_unmarshal hT n n hn).1 s1 hd ha _ _) _ fun _ => .ret _

/-- A goroutine does what it would do alone. -/
theorem Fol.caller {lf : Nat} (hT : T → Total env lf) {β : Type} (c : Caller β) (hc : FuelAtMost lf c) : Fol env T i s0 (c.prog env lf) (alone env c) := by
  induction c with
  | stop b => exact .ret b
  | marshal fuel x next ih => exact (Fol.Marshal hT fuel hc.1 x).bind fun e => ih e (hc.2 e)
  | unmarshal fuel x next ih => exact (Fol.Unmarshal hT fuel hc.1 x).bind fun r => ih r (hc.2 r)

end GoThrift
