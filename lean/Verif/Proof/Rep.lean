import Verif.Proof.Table
import Verif.Proof.FailFast
import Verif.Proof.Writes

/-!
# Marshal writes the wire value of the Go value
-/

namespace GoThrift

open Spec Spec.TVal

/-! ## Parts of values -/

theorem everywhereElems_iff {env : Env} {P : TypeId → GoVal → Prop} {et : TypeId} (es : List GoVal) :
    EverywhereElems env P et es ↔ ∀ x ∈ es, Everywhere env P et x := by
  induction es with
  | nil => simp [EverywhereElems]
  | cons x es ih => simp [EverywhereElems, ih]

theorem everywhereEntries_iff {env : Env} {P : TypeId → GoVal → Prop} {kt et : TypeId} (es : List (GoVal × GoVal)) :
    EverywhereEntries env P kt et es ↔ ∀ x ∈ es, Everywhere env P kt x.1 ∧ Everywhere env P et x.2 := by
  induction es with
  | nil => simp [EverywhereEntries]
  | cons x es ih => obtain ⟨k, v⟩ := x; simp [EverywhereEntries, ih, and_assoc]

theorem everywhereFields_iff {env : Env} {P : TypeId → GoVal → Prop} (fs : List FieldDecl) (vs : List GoVal) :
    EverywhereFields env P fs vs ↔ ∀ (i : Nat) f v, fs[i]? = some f → vs[i]? = some v → Everywhere env P f.typ v := by
  induction fs generalizing vs with
  | nil => simp [EverywhereFields]
  | cons f fs ih =>
    cases vs with
    | nil => simp [EverywhereFields]
    | cons v vs =>
      simp only [EverywhereFields, ih]
      constructor
      · rintro ⟨h1, h2⟩ i g w hg hw
        cases i with
        | zero => simp at hg hw; subst hg hw; exact h1
        | succ i => exact h2 i g w (by simpa using hg) (by simpa using hw)
      · intro h
        exact ⟨h 0 f v rfl rfl, fun i g w hg hw => h (i + 1) g w (by simpa using hg) (by simpa using hw)⟩

theorem Everywhere.here {env : Env} {P : TypeId → GoVal → Prop} {t : TypeId} {v : GoVal} (h : Everywhere env P t v) : P t v := by
  cases v <;> simp only [Everywhere] at h <;> first | exact h.1 | exact h

theorem elemType_ptr {env : Env} {t e : TypeId} (h : (env.type t).kind = .ptr e) : env.elemType t = e := by simp [Env.elemType, h]
theorem elemType_slice {env : Env} {t e : TypeId} (h : (env.type t).kind = .slice e) : env.elemType t = e := by simp [Env.elemType, h]
theorem elemType_map {env : Env} {t k e : TypeId} (h : (env.type t).kind = .map k e) : env.elemType t = e := by simp [Env.elemType, h]
theorem keyType_map {env : Env} {t k e : TypeId} (h : (env.type t).kind = .map k e) : env.keyType t = k := by simp [Env.keyType, h]
theorem fields_struct {env : Env} {t : TypeId} {fs : List FieldDecl} (h : (env.type t).kind = .struct fs) : env.fields t = fs := by simp [Env.fields, h]

/-- What holds of the zero values of all types holds everywhere in zero values. -/
theorem everywhere_zero {env : Env} {P : TypeId → GoVal → Prop} (h : ∀ t, P t (env.zero t)) (t : TypeId) : Everywhere env P t (env.zero t) := by
  generalize hz : env.zero t = z
  have hP : P t z := hz ▸ h t
  have hk := env.zero_eq t
  rw [hz] at hk
  cases z with
  | struct vs =>
    refine ⟨hP, (everywhereFields_iff _ _).2 fun i f v hf hv => ?_⟩
    cases hkind : (env.type t).kind with
    | struct fs =>
      rw [hkind, Kind.zero] at hk
      rw [fields_struct hkind] at hf
      cases hk
      rw [List.getElem?_map, hf] at hv
      cases hv
      have : sizeOf (env.zero f.typ) < sizeOf (env.zero t) := by
        have : sizeOf (env.zero f.typ) < sizeOf (fs.map fun f => env.zero f.typ) :=
          List.sizeOf_lt_of_mem (List.mem_map.2 ⟨f, List.mem_of_getElem? hf, rfl⟩)
        rw [hz]
        simp
        omega
      exact everywhere_zero h f.typ
    | _ => rw [hkind, Kind.zero] at hk; first | cases hk | (split at hk <;> cases hk)
  | map es => cases hkind : (env.type t).kind <;> rw [hkind, Kind.zero] at hk <;> first | cases hk | (split at hk <;> cases hk)
  | slice es sp => cases hkind : (env.type t).kind <;> rw [hkind, Kind.zero] at hk <;> first | cases hk | (split at hk <;> cases hk)
  | ptr v => cases hkind : (env.type t).kind <;> rw [hkind, Kind.zero] at hk <;> first | cases hk | (split at hk <;> cases hk)
  | _ => exact hP
termination_by sizeOf (env.zero t)

theorem zero_shape (env : Env) (t : TypeId) : Shape env t (env.zero t) := by
  rw [env.zero_eq t]
  cases hk : (env.type t).kind <;> simp only [Kind.zero, Shape, hk]
  · simp
  · cases hb : (env.type t).asBytes <;> simp [hk]
  · simp

theorem zero_hasType (env : Env) (t : TypeId) : HasType env t (env.zero t) := everywhere_zero (zero_shape env) t

/-! ## Running on a writer whose calls succeed -/

theorem wrun_andThen {S : Type} {w : Wtr S} (p q : WProg) (s : S) : (p.andThen q).run w s = (p.run w s).bind fun x => match x.1 with
    | none => q.run w x.2
    | some e => .done (some e, x.2) := by
  induction p generalizing s with
  | ret e => cases e <;> rfl
  | diverge => rfl
  | panic => rfl
  | call o k ih =>
    simp only [WProg.andThen, WProg.run]
    cases w.step o s with
    | done x => simp only [Out.bind_done]; exact ih _ _
    | _ => rfl

theorem wrun_andThen_none {S : Type} {w : Wtr S} {p q : WProg} {s s' : S} (h : (p.andThen q).run w s = .done (none, s')) :
    ∃ s1, p.run w s = .done (none, s1) ∧ q.run w s1 = .done (none, s') := by
  rw [wrun_andThen] at h
  cases hp : p.run w s with
  | done x =>
    obtain ⟨e, s1⟩ := x
    rw [hp] at h
    cases e with
    | none => exact ⟨s1, rfl, h⟩
    | some e => cases h
  | _ => rw [hp] at h; cases h

theorem ok_wcall (act : String) (tt : WType) (t : TypeId) (o : WOp) (k : WProg) (ops : List WOp) :
    (wcall act tt t o k).run okWriter ops = k.run okWriter (ops ++ [o]) := rfl

/-- A `Wrapped` program that returns nil has made only successful calls, the same as with a writer that never fails. -/
theorem wrapped_ok {S : Type} {w : Wtr S} {p : WProg} (hp : Wrapped p) {s s' : S} (h : p.run w s = .done (none, s')) (ops0 : List WOp) :
    ∃ ops, p.run okWriter ops0 = .done (none, ops0 ++ ops) ∧ Writes w ops s s' := by
  induction p generalizing s ops0 with
  | ret e => cases h; exact ⟨[], by simp [WProg.run], .nil _⟩
  | diverge => cases h
  | panic => cases h
  | call o k ih =>
    rw [WProg.run] at h
    cases hs : w.step o s with
    | done x =>
      obtain ⟨e, s1⟩ := x
      rw [hs, Out.bind_done] at h
      cases e with
      | none =>
        obtain ⟨ops, h1, h2⟩ := ih none hp.2 h (ops0 ++ [o])
        refine ⟨o :: ops, ?_, .cons hs h2⟩
        rw [WProg.run]
        simpa [okWriter] using h1
      | some e =>
        obtain ⟨x, h1, h2⟩ := hp.1 e
        dsimp only at h
        rw [h1] at h
        cases h
        obtain ⟨_, _, h2⟩ := h2
        cases h2
    | _ => rw [hs] at h; cases h

/-! ## Marshal -/

/-- `tvs` are wire values of the `vs`. -/
def Pointwise {α β : Type} (R : α → β → Prop) (vs : List α) (tvs : List β) : Prop :=
  tvs.length = vs.length ∧ ∀ (i : Nat) x tv, vs[i]? = some x → tvs[i]? = some tv → R x tv

theorem Pointwise.nil {α β : Type} {R : α → β → Prop} : Pointwise R [] [] := ⟨rfl, fun i x tv h _ => by simp at h⟩

theorem Pointwise.cons {α β : Type} {R : α → β → Prop} {v : α} {tv : β} {vs : List α} {tvs : List β} (h : R v tv) (h' : Pointwise R vs tvs) :
    Pointwise R (v :: vs) (tv :: tvs) := by
  refine ⟨by simp [h'.1], fun i x y hx hy => ?_⟩
  cases i with
  | zero => simp at hx hy; subst hx hy; exact h
  | succ i => exact h'.2 i x y (by simpa using hx) (by simpa using hy)

theorem marshalElems_rep {R : GoVal → TVal → Prop} {m : GoVal → WProg} {k : WProg} (vs : List GoVal) (ops0 ops : List WOp)
    (hm : ∀ v ∈ vs, ∀ o0 o, (m v).run okWriter o0 = .done (none, o) → ∃ tv, R v tv ∧ o = o0 ++ calls tv)
    (h : (marshalElems m k vs).run okWriter ops0 = .done (none, ops)) :
    ∃ tvs, Pointwise R vs tvs ∧ k.run okWriter (ops0 ++ callsElems tvs) = .done (none, ops) := by
  induction vs generalizing ops0 with
  | nil => exact ⟨[], .nil, by simpa [callsElems, marshalElems] using h⟩
  | cons v vs ih =>
    obtain ⟨s1, h1, h2⟩ := wrun_andThen_none h
    obtain ⟨tv, hr, rfl⟩ := hm v (by simp) _ _ h1
    obtain ⟨tvs, hr', h3⟩ := ih _ (fun v hv => hm v (by simp [hv])) h2
    exact ⟨tv :: tvs, .cons hr hr', by simpa [callsElems] using h3⟩

theorem marshalEntries_rep {RK RV : GoVal → TVal → Prop} {mk mv : GoVal → WProg} {k : WProg} (es : List (GoVal × GoVal)) (ops0 ops : List WOp)
    (hk : ∀ e ∈ es, ∀ o0 o, (mk e.1).run okWriter o0 = .done (none, o) → ∃ tv, RK e.1 tv ∧ o = o0 ++ calls tv)
    (hv : ∀ e ∈ es, ∀ o0 o, (mv e.2).run okWriter o0 = .done (none, o) → ∃ tv, RV e.2 tv ∧ o = o0 ++ calls tv)
    (h : (marshalEntries mk mv k es).run okWriter ops0 = .done (none, ops)) :
    ∃ tes, Pointwise (fun x te => RK x.1 te.1 ∧ RV x.2 te.2) es tes ∧ k.run okWriter (ops0 ++ callsEntries tes) = .done (none, ops) := by
  induction es generalizing ops0 with
  | nil => exact ⟨[], .nil, by simpa [callsEntries, marshalEntries] using h⟩
  | cons e es ih =>
    obtain ⟨s1, h1, h2⟩ := wrun_andThen_none h
    obtain ⟨s2, h2, h3⟩ := wrun_andThen_none h2
    obtain ⟨tk, hr1, rfl⟩ := hk e (by simp) _ _ h1
    obtain ⟨tv, hr2, rfl⟩ := hv e (by simp) _ _ h2
    obtain ⟨tes, hr', h4⟩ := ih _ (fun v h => hk v (by simp [h])) (fun v h => hv v (by simp [h])) h3
    exact ⟨(tk, tv) :: tes, .cons ⟨hr1, hr2⟩ hr', by simpa [callsEntries] using h4⟩

/-- Is the field written? -/
def SField.written (env : Env) (vals : List GoVal) (f : SField) : Bool := match vals[f.index]? with
  | none => false
  | some v => f.required || !reportsZero env f.typ v

theorem marshalFields_rep {env : Env} {R : SField → GoVal → TVal → Prop} {m : Arsh → GoVal → WProg} {t : TypeId} {vals : List GoVal} {k : WProg} (fs : List SField) (ops0 ops : List WOp)
    (hm : ∀ f ∈ fs, f.a.wireType ≠ Ty.stop → ∀ v, vals[f.index]? = some v → ∀ o0 o, (m f.a v).run okWriter o0 = .done (none, o) → ∃ tv, R f v tv ∧ tv.ty = f.a.wireType ∧ o = o0 ++ calls tv)
    (h : (marshalFields env m t vals k fs).run okWriter ops0 = .done (none, ops)) :
    (∀ f ∈ fs, f.a.wireType ≠ Ty.stop) ∧
    ∃ tfs, Pointwise (fun f tf => tf.1 = f.name ∧ tf.2.1 = f.id ∧ ∃ v, vals[f.index]? = some v ∧ R f v tf.2.2) (fs.filter (·.written env vals)) tfs ∧
      k.run okWriter (ops0 ++ callsFields tfs) = .done (none, ops) := by
  induction fs generalizing ops0 with
  | nil => exact ⟨by simp, [], .nil, by simpa [callsFields, marshalFields] using h⟩
  | cons f fs ih =>
    rw [marshalFields] at h
    split at h
    · cases h
    · rename_i hst
      cases hv : vals[f.index]? with
      | none => rw [hv] at h; cases h
      | some v =>
        rw [hv] at h
        dsimp only at h
        split at h
        · rename_i hz
          obtain ⟨h0, tfs, h1, h2⟩ := ih _ (fun f hf => hm f (by simp [hf])) h
          refine ⟨by simpa [hst] using h0, tfs, ?_, h2⟩
          rw [List.filter_cons_of_neg (by simp [SField.written, hv, hz.1, hz.2])]
          exact h1
        · rename_i hz
          rw [ok_wcall] at h
          obtain ⟨s1, h1, h2⟩ := wrun_andThen_none h
          obtain ⟨tv, hr, hty, rfl⟩ := hm f (by simp) hst v hv _ _ h1
          rw [ok_wcall] at h2
          obtain ⟨h0, tfs, h3, h4⟩ := ih _ (fun f hf => hm f (by simp [hf])) h2
          refine ⟨by simpa [hst] using h0, (f.name, f.id, tv) :: tfs, ?_, ?_⟩
          · rw [List.filter_cons_of_pos (by
              simp only [SField.written, hv]
              cases hr : f.required <;> cases hz' : reportsZero env f.typ v <;> simp_all)]
            exact .cons ⟨rfl, rfl, v, hv, hr⟩ h3
          · rw [← hty] at h4
            simpa [callsFields] using h4

/-- What marshalling with the arshaler of `t` means. -/
def Represents (env : Env) (fuel : Nat) : Prop := ∀ n t a v, lookupArshaler env n t = .done a → HasType env t v → ∀ o0 o, (marshal env fuel a v).run okWriter o0 = .done (none, o) →
  ∃ tv, Rep env t v tv ∧ tv.ty = a.wireType ∧ o = o0 ++ calls tv

/-- The wire value of a scalar or string. -/
def leafTVal (env : Env) : Leaf → GoVal → Option TVal
  | .bool, .bool b => some (.bool b)
  | .f32, .f32 b => some (.double (env.widen b))
  | .f64, .f64 b => some (.double b)
  | .i8, .i8 b => some (.byte b)
  | .i16, .i16 b => some (.i16 b)
  | .i32, .i32 b => some (.i32 b)
  | .i64, .i64 b => some (.i64 b)
  | .string, .str b => some (.str false b)
  | .bytes, .bytes b => some (.str true (b.getD []))
  | .uuid, .uuid b => some (.uuid b)
  | _, _ => none

theorem marshalLeaf_ok {env : Env} {t : TypeId} {l : Leaf} {v : GoVal} {o0 o : List WOp} (h : (marshalLeaf env t l v).run okWriter o0 = .done (none, o)) :
    ∃ tv, leafTVal env l v = some tv ∧ tv.ty = l.wireType ∧ o = o0 ++ calls tv := by
  cases l <;> cases v <;> first | (cases h; done) | (cases h; exact ⟨_, rfl, rfl, rfl⟩)

theorem leafTVal_rep {env : Env} {n : Nat} {t : TypeId} {l : Leaf} (h : lookupArshaler env n t = .done (.leaf t l)) {v : GoVal} {tv : TVal} (hl : leafTVal env l v = some tv) :
    RepLeaf env t v tv := by
  cases n with
  | zero => cases h
  | succ n =>
    have hc := lookup_cases h
    cases hk : (env.type t).kind <;> rw [hk] at hc <;> dsimp only at hc
    case map => obtain ⟨_, _, _, _, hc⟩ := hc; cases hc
    case ptr => obtain ⟨_, _, hc⟩ := hc; cases hc
    case struct => cases hc
    case other => cases hc
    case slice =>
      rcases hc with ⟨hb, hc⟩ | ⟨_, _, _, hc⟩
      · cases hc
        cases v <;> cases hl
        exact .bytes _ hk hb
      · cases hc
    all_goals (cases hc; cases v <;> cases hl)
    · exact .bool _ hk
    · exact .f32 _ hk
    · exact .f64 _ hk
    · exact .i8 _ (.inl hk)
    · exact .i16 _ (.inl hk)
    · exact .i32 _ (.inl hk)
    · exact .i64 _ (.inl hk)
    · exact .i8 _ (.inr hk)
    · exact .i16 _ (.inr hk)
    · exact .i32 _ (.inr hk)
    · exact .i64 _ (.inr hk)
    · exact .str _ hk
    · exact .uuid _ hk

theorem getElem?_of_pointwise {α β : Type} {R : α → β → Prop} {vs : List α} {tvs : List β} (h : Pointwise R vs tvs) {i : Nat} {x : α} (hx : vs[i]? = some x) :
    ∃ tv, tvs[i]? = some tv ∧ R x tv := by
  have hi : i < tvs.length := h.1 ▸ (List.getElem?_eq_some_iff.1 hx).1
  exact ⟨tvs[i], List.getElem?_eq_getElem hi, h.2 i x _ hx (List.getElem?_eq_getElem hi)⟩

theorem struct_rep {env : Env} {t : TypeId} {fs : List FieldDecl} {vs : List GoVal} {fuel : Nat} {sfs : List SField} {tfs : List (Bytes × BitVec 16 × TVal)}
    (hk : (env.type t).kind = .struct fs) (hlen : vs.length = fs.length) (htab : Table env fuel t sfs) (hst : ∀ f ∈ sfs, f.a.wireType ≠ Ty.stop)
    (h : Pointwise (fun f tf => tf.1 = f.name ∧ tf.2.1 = f.id ∧ ∃ v, vs[f.index]? = some v ∧ Rep env f.typ v tf.2.2) (sfs.filter (·.written env vs)) tfs) :
    Rep env t (.struct vs) (.struct (env.type t).name tfs) := by
  have hfs := fields_struct hk
  obtain ⟨hmem, hall, htag, hnd, hsort⟩ := htab
  rw [hfs] at hmem hall htag
  have hord : ∀ (j i : Nat), ((sfs.filter (·.written env vs)).map (·.index))[j]? = some i → ∃ f, (sfs.filter (·.written env vs))[j]? = some f ∧ f.index = i := by
    intro j i h
    rw [List.getElem?_map] at h
    cases hf : (sfs.filter (·.written env vs))[j]? with
    | none => rw [hf] at h; cases h
    | some f => rw [hf] at h; cases h; exact ⟨f, rfl, rfl⟩
  refine .struct ((sfs.filter (·.written env vs)).map (·.index)) hk hlen (fun f hf => ?_) (fun f hf hni => ?_) htag ?_ (fun i => ?_) ?_ (by rw [h.1, List.length_map]) ?_ ?_
  · obtain ⟨i, hi⟩ := List.mem_iff_getElem?.1 hf
    rcases hall i f hi with h | ⟨sf, hsf, rfl⟩
    · exact .inl h
    · obtain ⟨d, hd1, hd2, hd3, hd4, hd5⟩ := hmem sf hsf
      rw [hi] at hd1
      cases hd1
      refine .inr ⟨_, _, sf.a.wireType, hd2, ?_⟩
      rcases (lookup_wireType hd5).2 with ⟨h, _⟩ | h
      · exact absurd h (hst sf hsf)
      · exact h
  · obtain ⟨i, hi⟩ := List.mem_iff_getElem?.1 hf
    rcases hall i f hi with h | ⟨sf, hsf, rfl⟩
    · exact absurd h hni
    · obtain ⟨d, hd1, hd2, hd3, hd4, hd5⟩ := hmem sf hsf
      rw [hi] at hd1
      cases hd1
      exact (lookup_iff_acc env f.typ).1 ⟨_, _, hd5⟩
  · exact hnd.sublist (List.filter_sublist.map _)
  · rw [List.mem_map]
    constructor
    · rintro ⟨sf, hsf, rfl⟩
      obtain ⟨hsf, hw⟩ := List.mem_filter.1 hsf
      obtain ⟨d, hd1, hd2, hd3, hd4, hd5⟩ := hmem sf hsf
      rw [SField.written] at hw
      cases hv : vs[sf.index]? with
      | none => rw [hv] at hw; cases hw
      | some v =>
        rw [hv] at hw
        refine ⟨d, v, hd1, rfl, _, _, hd2, ?_⟩
        rw [← hd4]
        cases hr : sf.required <;> simp_all
    · rintro ⟨f, v, hf, hv, id, req, hd, hw⟩
      rcases hall i f hf with h | ⟨sf, hsf, rfl⟩
      · exact absurd hd h.not_declares
      · obtain ⟨d, hd1, hd2, hd3, hd4, hd5⟩ := hmem sf hsf
        rw [hf] at hd1
        cases hd1
        obtain ⟨rfl, rfl⟩ := hd.unique hd2
        refine ⟨sf, List.mem_filter.2 ⟨hsf, ?_⟩, rfl⟩
        rw [SField.written, hv, hd4]
        rcases hw with hw | hw <;> simp [hw]
  · rw [List.pairwise_iff_getElem]
    intro i j hi hj hij
    have hs := hsort.sublist (List.filter_sublist (p := (·.written env vs)))
    rw [List.pairwise_iff_getElem] at hs
    have hi' : i < (sfs.filter (·.written env vs)).length := h.1 ▸ hi
    have hj' : j < (sfs.filter (·.written env vs)).length := h.1 ▸ hj
    have h1 := h.2 i _ _ (List.getElem?_eq_getElem hi') (List.getElem?_eq_getElem hi)
    have h2 := h.2 j _ _ (List.getElem?_eq_getElem hj') (List.getElem?_eq_getElem hj)
    rw [h1.2.1, h2.2.1]
    exact hs i j hi' hj' hij
  · intro j i tf f hj htf hf
    obtain ⟨sf, hsf, rfl⟩ := hord j i hj
    obtain ⟨d, hd1, hd2, hd3, hd4, hd5⟩ := hmem sf (List.mem_filter.1 (List.mem_of_getElem? hsf)).1
    rw [hf] at hd1
    cases hd1
    obtain ⟨h1, h2, h3⟩ := h.2 j sf tf hsf htf
    exact ⟨h1.trans hd3, _, h2 ▸ hd2⟩
  · intro j i tf f v hj htf hf hv
    obtain ⟨sf, hsf, rfl⟩ := hord j i hj
    obtain ⟨d, hd1, hd2, hd3, hd4, hd5⟩ := hmem sf (List.mem_filter.1 (List.mem_of_getElem? hsf)).1
    rw [hf] at hd1
    cases hd1
    obtain ⟨h1, h2, v', h3, h4⟩ := h.2 j sf tf hsf htf
    rw [hv] at h3
    cases h3
    rw [← hd4]
    exact h4

/-- A successful Marshal of a value has written what the value stands for. -/
theorem marshal_rep (env : Env) (fuel : Nat) : Represents env fuel := by
  induction fuel with
  | zero => intro n t a v _ _ o0 o h; cases h
  | succ fuel ih =>
    intro n t a v hl ht o0 o h
    cases n with
    | zero => cases hl
    | succ n =>
      have hc := lookup_cases hl
      have hwt : ∀ {n t a}, lookupArshaler env n t = .done a → a.wireType ≠ Ty.stop → WireTypeOf env t a.wireType := by
        intro n t a hl hw
        rcases (lookup_wireType hl).2 with ⟨h, _⟩ | h
        · exact absurd h hw
        · exact h
      have hta := (lookup_wireType hl).1
      cases a with
      | leaf t' l =>
        rw [show t' = t from hta] at hl h
        obtain ⟨tv, h1, h2, h3⟩ := marshalLeaf_ok h
        exact ⟨tv, .leaf (leafTVal_rep hl h1), h2, h3⟩
      | invalid t' => cases h
      | ptr t' ea =>
        cases hk : (env.type t).kind with
        | ptr e =>
          rw [hk] at hc
          obtain ⟨ea', hle, hc⟩ := hc
          cases hc
          have hte := (lookup_wireType hle).1
          rw [marshal] at h
          cases v with
          | ptrNil =>
            simp only [GoVal.deref?, hte] at h
            obtain ⟨tv, h1, h2, h3⟩ := ih n e ea _ hle (zero_hasType env e) _ _ h
            exact ⟨tv, .ptrNil hk h1, h2, h3⟩
          | ptr v =>
            simp only [GoVal.deref?] at h
            have ht' := ht.2
            rw [elemType_ptr hk] at ht'
            obtain ⟨tv, h1, h2, h3⟩ := ih n e ea _ hle ht' _ _ h
            exact ⟨tv, .ptr hk h1, h2, h3⟩
          | _ => cases h
        | slice e => rw [hk] at hc; rcases hc with ⟨_, hc⟩ | ⟨_, _, _, hc⟩ <;> cases hc
        | map k e => rw [hk] at hc; obtain ⟨_, _, _, _, hc⟩ := hc; cases hc
        | _ => rw [hk] at hc; cases hc
      | seq t' isSet ea =>
        cases hk : (env.type t).kind with
        | slice e =>
          rw [hk] at hc
          rcases hc with ⟨_, hc⟩ | ⟨hb, ea', hle, hc⟩
          · cases hc
          · cases hc
            rw [marshal] at h
            split at h
            · cases h
            · rename_i hst
              have hw := hwt hle hst
              cases he : v.elems? with
              | none => rw [he] at h; cases h
              | some vs =>
                have hvs : elemsOf v = vs ∧ (v = .sliceNil ∨ ∃ es sp, v = .slice es sp) ∧ ∀ x ∈ vs, HasType env e x := by
                  cases v with
                  | sliceNil => cases he; exact ⟨rfl, .inl rfl, by simp⟩
                  | slice es sp =>
                    cases he
                    have := (everywhereElems_iff _).1 ht.2
                    rw [elemType_slice hk] at this
                    exact ⟨rfl, .inr ⟨_, _, rfl⟩, this⟩
                  | _ => cases he
                obtain ⟨hv1, hv2, hv3⟩ := hvs
                rw [he] at h
                dsimp only at h
                rw [marshalSeq] at h
                split at h
                · rename_i hs
                  rw [ok_wcall] at h
                  obtain ⟨tvs, h1, h2⟩ := marshalElems_rep (R := Rep env e) vs _ _ (fun v hv o0 o hr => by
                    obtain ⟨tv, h1, _, h3⟩ := ih n e ea v hle (hv3 v hv) o0 o hr
                    exact ⟨tv, h1, h3⟩) h
                  rw [ok_wcall] at h2
                  cases h2
                  refine ⟨.set ea.wireType tvs, .set hk hs hv2 hw (hv1 ▸ h1.1) (hv1 ▸ h1.2), by simp [ty, Arsh.wireType, hs], ?_⟩
                  simp [calls, h1.1]
                · rename_i hs
                  rw [ok_wcall] at h
                  obtain ⟨tvs, h1, h2⟩ := marshalElems_rep (R := Rep env e) vs _ _ (fun v hv o0 o hr => by
                    obtain ⟨tv, h1, _, h3⟩ := ih n e ea v hle (hv3 v hv) o0 o hr
                    exact ⟨tv, h1, h3⟩) h
                  rw [ok_wcall] at h2
                  cases h2
                  refine ⟨.list ea.wireType tvs, .list hk (by simpa using hs) hb hv2 hw (hv1 ▸ h1.1) (hv1 ▸ h1.2), by simp [ty, Arsh.wireType, hs], ?_⟩
                  simp [calls, h1.1]
        | ptr e => rw [hk] at hc; obtain ⟨_, _, hc⟩ := hc; cases hc
        | map k e => rw [hk] at hc; obtain ⟨_, _, _, _, hc⟩ := hc; cases hc
        | _ => rw [hk] at hc; cases hc
      | map t' ka ea =>
        cases hk : (env.type t).kind with
        | map k e =>
          rw [hk] at hc
          obtain ⟨ka', ea', hlk, hle, hc⟩ := hc
          cases hc
          rw [marshal] at h
          split at h
          · cases h
          · rename_i hst
            rw [not_or] at hst
            have hkw := hwt hlk hst.1
            have hew := hwt hle hst.2
            cases he : v.entries? with
            | none => rw [he] at h; cases h
            | some es =>
              have hes : entriesOf v = es ∧ (v = .mapNil ∨ ∃ es, v = .map es) ∧ ∀ x ∈ es, HasType env k x.1 ∧ HasType env e x.2 := by
                cases v with
                | mapNil => cases he; exact ⟨rfl, .inl rfl, by simp⟩
                | map es =>
                  cases he
                  have := (everywhereEntries_iff _).1 ht.2
                  rw [elemType_map hk, keyType_map hk] at this
                  exact ⟨rfl, .inr ⟨_, rfl⟩, this⟩
                | _ => cases he
              obtain ⟨hv1, hv2, hv3⟩ := hes
              rw [he] at h
              dsimp only at h
              rw [ok_wcall] at h
              obtain ⟨tes, h1, h2⟩ := marshalEntries_rep (RK := Rep env k) (RV := Rep env e) es _ _
                (fun x hx o0 o hr => by
                  obtain ⟨tv, h1, _, h3⟩ := ih n k ka _ hlk (hv3 x hx).1 o0 o hr
                  exact ⟨tv, h1, h3⟩)
                (fun x hx o0 o hr => by
                  obtain ⟨tv, h1, _, h3⟩ := ih n e ea _ hle (hv3 x hx).2 o0 o hr
                  exact ⟨tv, h1, h3⟩) h
              rw [ok_wcall] at h2
              cases h2
              refine ⟨.map ka.wireType ea.wireType tes, .map hk hv2 hkw hew (hv1 ▸ h1.1) (fun i x te hx hte => ?_) (fun i x te hx hte => ?_), rfl, ?_⟩
              · rw [hv1] at hx; exact (h1.2 i x te hx hte).1
              · rw [hv1] at hx; exact (h1.2 i x te hx hte).2
              · simp [calls, h1.1]
        | ptr e => rw [hk] at hc; obtain ⟨_, _, hc⟩ := hc; cases hc
        | slice e => rw [hk] at hc; rcases hc with ⟨_, hc⟩ | ⟨_, _, _, hc⟩ <;> cases hc
        | _ => rw [hk] at hc; cases hc
      | struct t' =>
        cases hk : (env.type t).kind with
        | struct fs =>
          rw [hk] at hc
          cases hc
          have hfs := fields_struct hk
          rw [marshal] at h
          cases hm : makeStructFields env fuel t with
          | done r =>
            cases r with
            | error e => rw [hm] at h; cases h
            | ok sfs =>
              rw [hm] at h
              simp only [Out.elim] at h
              have htab := makeStructFields_table env fuel t sfs hm
              cases v with
              | struct vs =>
                have hlen : vs.length = fs.length := by
                  have := ht.1
                  simp only [Shape, hk] at this
                  exact this
                have hflds := (everywhereFields_iff _ _).1 ht.2
                simp only [GoVal.fields?] at h
                rw [ok_wcall] at h
                obtain ⟨hst, tfs, h1, h2⟩ := marshalFields_rep (R := fun f v tv => Rep env f.typ v tv) sfs _ _ (fun f hf hst v hv o0 o hr => by
                  obtain ⟨d, hd1, hd2, hd3, hd4, hd5⟩ := htab.mem f hf
                  have := ih fuel d.typ f.a v hd5 (hflds f.index d v hd1 hv) o0 o hr
                  rw [← hd4] at this
                  exact this) h
                rw [ok_wcall] at h2
                cases h2
                exact ⟨.struct (env.type t).name tfs, struct_rep hk hlen htab hst h1, rfl, by simp [calls]⟩
              | _ => cases h
          | _ => rw [hm] at h; cases h
        | ptr e => rw [hk] at hc; obtain ⟨_, _, hc⟩ := hc; cases hc
        | slice e => rw [hk] at hc; rcases hc with ⟨_, hc⟩ | ⟨_, _, _, hc⟩ <;> cases hc
        | map k e => rw [hk] at hc; obtain ⟨_, _, _, _, hc⟩ := hc; cases hc
        | _ => rw [hk] at hc; cases hc

end GoThrift
