import Verif.Proof.Wp
import Verif.Proof.Blame
import Verif.Spec.Partial

/-!
# What Unmarshal leaves in its target when it stops half way
-/

namespace GoThrift

open Spec

/-- The ghost state is the list of successful calls. -/
def evMon : Mon (List Ev) where
  pre _ _ := True
  okAns _ _ := True
  next o a g := g ++ [⟨o, a⟩]
  fail _ g := g
  panics := True

/-! ## Skip -/

/-- The calls behind `g0` satisfy `P` if there is no error, and `A` if there is one. -/
def AddsE (P A : List Ev → Prop) (g0 : List Ev) (e : Option Err) (g : List Ev) : Prop := ∃ evs, g = g0 ++ evs ∧ (e = none → P evs) ∧ (e ≠ none → A evs)

theorem AddsE.imp {P P' A A' : List Ev → Prop} (h : ∀ evs, P evs → P' evs) (ha : ∀ evs, A evs → A' evs) {g0 : List Ev} {e : Option Err} {g : List Ev} : AddsE P A g0 e g → AddsE P' A' g0 e g :=
  fun ⟨evs, h1, h2, h3⟩ => ⟨evs, h1, fun he => h _ (h2 he), fun he => ha _ (h3 he)⟩

theorem adds_last {P A : List Ev → Prop} {o : ROp} {g : List Ev} (h : ∀ a, P [⟨o, a⟩]) (ha : A []) : Wp evMon (AddsE P A g) (.last o) g :=
  ⟨trivial, fun a _ => ⟨_, rfl, fun _ => h a, fun he => absurd rfl he⟩, fun _ => ⟨[], by simp [evMon], fun he => (by cases he), fun _ => ha⟩⟩

theorem adds_try {P A : List Ev → Prop} {o : ROp} {k : o.Ans → RProg (Option Err)} {g : List Ev} (ha : A [])
    (h : ∀ a g, Wp evMon (AddsE (fun evs => P (⟨o, a⟩ :: evs)) (fun evs => A (⟨o, a⟩ :: evs)) g) (k a) g) : Wp evMon (AddsE P A g) (.try' o k) g := by
  refine ⟨trivial, fun a _ => ?_, fun _ => ⟨[], by simp [evMon], fun he => (by cases he), fun _ => ha⟩⟩
  refine (h a _).imp fun e g' ⟨evs, h1, h2⟩ => ⟨⟨o, a⟩ :: evs, ?_, h2⟩
  rw [h1]
  simp [evMon]

theorem adds_then {P P' A A' : List Ev → Prop} {p q : RProg (Option Err)} {g : List Ev} (hp : Wp evMon (AddsE P A g) p g) (hq : ∀ g, Wp evMon (AddsE P' A' g) q g) :
    Wp evMon (AddsE (fun evs => ∃ a b, evs = a ++ b ∧ P a ∧ P' b) (fun evs => A evs ∨ ∃ a b, evs = a ++ b ∧ P a ∧ A' b) g) (p.andThen q) g := by
  refine Wp.bind hp fun e g' ⟨evs, h1, h2, h2'⟩ => ?_
  cases e with
  | none =>
    refine (hq g').imp fun e g'' ⟨evs', h3, h4, h5⟩ => ⟨evs ++ evs', by rw [h3, h1, List.append_assoc], fun he => ⟨evs, evs', rfl, h2 rfl, h4 he⟩, fun he => .inr ⟨evs, evs', rfl, h2 rfl, h5 he⟩⟩
  | some e => exact ⟨evs, h1, fun he => (by cases he), fun he => .inl (h2' he)⟩

theorem adds_loop {P P' A A' : List Ev → Prop} {p q : RProg (Option Err)} (hp : ∀ g, Wp evMon (AddsE P A g) p g) (hq : ∀ g, Wp evMon (AddsE P' A' g) q g) (n : Nat) :
    ∀ g, Wp evMon (AddsE (fun evs => ∃ (l : List (List Ev)) (b : List Ev), l.length = n ∧ evs = l.flatten ++ b ∧ (∀ x ∈ l, P x) ∧ P' b)
      (fun evs => ∃ (l : List (List Ev)) (b : List Ev), evs = l.flatten ++ b ∧ (∀ x ∈ l, P x) ∧ ((l.length < n ∧ A b) ∨ (l.length = n ∧ A' b))) g) (.loop n p q) g := by
  induction n with
  | zero => intro g; exact (hq g).imp fun e g' => AddsE.imp (fun evs h => ⟨[], evs, rfl, rfl, by simp, h⟩) fun evs h => ⟨[], evs, rfl, by simp, .inr ⟨rfl, h⟩⟩
  | succ n ih =>
    intro g
    rw [RProg.loop]
    refine (adds_then (hp g) ih).imp fun e g' => AddsE.imp (fun evs => ?_) fun evs => ?_
    · rintro ⟨a, b, rfl, h1, l, c, h2, rfl, h3, h4⟩
      exact ⟨a :: l, c, by rw [List.length_cons, h2], by simp, by simpa using ⟨h1, h3⟩, h4⟩
    · rintro (h | ⟨a, b, rfl, h1, l, c, rfl, h3, h4⟩)
      · exact ⟨[], evs, rfl, by simp, .inl ⟨by simp, h⟩⟩
      · exact ⟨a :: l, c, by simp, by simpa using ⟨h1, h3⟩, h4.imp (fun h => ⟨by simp [h.1], h.2⟩) fun h => ⟨by simp [h.1], h.2⟩⟩

/-- The calls read a value of type `t`. -/
def ReadsTy (t : WType) (evs : List Ev) : Prop := ∃ tv : TVal, tv.ty = t ∧ Reads tv evs

theorem readsElems_flatten {w : WType} {l : List (List Ev)} (h : ∀ x ∈ l, ReadsTy w x) : ∃ tvs : List TVal, tvs.length = l.length ∧ ReadsElems w tvs l.flatten := by
  induction l with
  | nil => exact ⟨[], rfl, .nil⟩
  | cons x l ih =>
    obtain ⟨tvs, h1, h2⟩ := ih fun y hy => h y (by simp [hy])
    obtain ⟨tv, rfl, h3⟩ := h x (by simp)
    exact ⟨tv :: tvs, by simp [h1], .cons h3 h2⟩

theorem readsEntries_flatten {kw ew : WType} {l : List (List Ev)} (h : ∀ x ∈ l, ∃ a b, x = a ++ b ∧ ReadsTy kw a ∧ ReadsTy ew b) :
    ∃ tes : List (TVal × TVal), tes.length = l.length ∧ ReadsEntries kw ew tes l.flatten := by
  induction l with
  | nil => exact ⟨[], rfl, .nil⟩
  | cons x l ih =>
    obtain ⟨tes, h1, h2⟩ := ih fun y hy => h y (by simp [hy])
    obtain ⟨a, b, rfl, ⟨k, rfl, h3⟩, v, rfl, h4⟩ := h x (by simp)
    exact ⟨(k, v) :: tes, by simp [h1], .cons h3 h4 h2⟩

/-- The calls read the rest of a struct, from a field header on. -/
def ReadsRest (evs : List Ev) : Prop := ∃ tfs evs' h, evs = evs' ++ [⟨.fieldBegin, h⟩, ⟨.structEnd, ()⟩] ∧ ReadsFields tfs evs' ∧ h.type = Ty.stop

/-- Reading the rest of a struct has begun, from a field header on. -/
inductive BegunRest : List Ev → Prop where
  | fields {tfs : List (Bytes × BitVec 16 × TVal)} {evs : List Ev} : ReadsFields tfs evs → BegunRest evs
  | fieldEnd {tfs : List (Bytes × BitVec 16 × TVal)} {evs : List Ev} : ReadsFields tfs (evs ++ [⟨.fieldEnd, ()⟩]) → BegunRest evs
  | structEnd {tfs : List (Bytes × BitVec 16 × TVal)} {evs : List Ev} {h : FieldHeader} : ReadsFields tfs evs → h.type = Ty.stop → BegunRest (evs ++ [⟨.fieldBegin, h⟩])
  | field {tfs : List (Bytes × BitVec 16 × TVal)} {evs evs' : List Ev} {h : FieldHeader} : ReadsFields tfs evs → h.type ≠ Ty.stop → Begun h.type evs' → BegunRest (evs ++ ⟨.fieldBegin, h⟩ :: evs')

theorem BegunRest.cons {h : FieldHeader} {tv : TVal} {evs evs' : List Ev} (hw : tv.ty = h.type) (hr : Reads tv evs) (hs : BegunRest evs') :
    BegunRest (⟨.fieldBegin, h⟩ :: (evs ++ ⟨.fieldEnd, ()⟩ :: evs')) := by
  cases hs with
  | fields h1 => exact .fields (.cons hw hr h1)
  | fieldEnd h1 => exact .fieldEnd (by simpa using ReadsFields.cons hw hr h1)
  | structEnd h1 h2 => simpa using BegunRest.structEnd (.cons hw hr h1) h2
  | field h1 h2 h3 => simpa using BegunRest.field (.cons hw hr h1) h2 h3

theorem BegunRest.struct (name : Bytes) {evs : List Ev} (h : BegunRest evs) : Begun Ty.struct (⟨.structBegin, name⟩ :: evs) := by
  cases h with
  | fields h1 => exact .fields name h1
  | fieldEnd h1 => exact .fieldEnd name h1
  | @structEnd tfs _ _ h1 h2 => exact .last (tv := .struct [] tfs) (ev := ⟨.structEnd, ()⟩) (by simp) (by simpa using Reads.struct [] name h1 h2)
  | field h1 h2 h3 => exact .field name h1 h2 h3

theorem adds_skip (fuel : Nat) : (∀ t g, Wp evMon (AddsE (ReadsTy t) (Begun t) g) (skip fuel t) g) ∧ ∀ g, Wp evMon (AddsE ReadsRest BegunRest g) (skipFields fuel) g := by
  induction fuel with
  | zero => exact ⟨fun _ _ => trivial, fun _ => trivial⟩
  | succ fuel ih =>
    obtain ⟨ih1, ih2⟩ := ih
    constructor
    · intro t g
      rw [skip]
      by_cases h : t = Ty.bool
      · rw [if_pos h, h]; exact adds_last (fun a => ⟨_, rfl, .bool a⟩) (.nothing _)
      rw [if_neg h]; clear h
      by_cases h : t = Ty.byte
      · rw [if_pos h, h]; exact adds_last (fun a => ⟨_, rfl, .byte a⟩) (.nothing _)
      rw [if_neg h]; clear h
      by_cases h : t = Ty.double
      · rw [if_pos h, h]; exact adds_last (fun a => ⟨_, rfl, .double a⟩) (.nothing _)
      rw [if_neg h]; clear h
      by_cases h : t = Ty.i16
      · rw [if_pos h, h]; exact adds_last (fun a => ⟨_, rfl, .i16 a⟩) (.nothing _)
      rw [if_neg h]; clear h
      by_cases h : t = Ty.i32
      · rw [if_pos h, h]; exact adds_last (fun a => ⟨_, rfl, .i32 a⟩) (.nothing _)
      rw [if_neg h]; clear h
      by_cases h : t = Ty.i64
      · rw [if_pos h, h]; exact adds_last (fun a => ⟨_, rfl, .i64 a⟩) (.nothing _)
      rw [if_neg h]; clear h
      by_cases h : t = Ty.string
      · rw [if_pos h, h]; exact adds_last (fun a => ⟨_, rfl, .skipString false []⟩) (.nothing _)
      rw [if_neg h]; clear h
      by_cases h : t = Ty.struct
      · rw [if_pos h, h]
        refine adds_try (.nothing _) fun n g => (ih2 g).imp fun e g' => AddsE.imp (fun evs => ?_) fun evs h => h.struct n
        rintro ⟨tfs, evs', hd, rfl, h1, h2⟩
        exact ⟨_, rfl, .struct [] n h1 h2⟩
      rw [if_neg h]; clear h
      by_cases h : t = Ty.map
      · rw [if_pos h, h]
        refine adds_try (.nothing _) fun hd g => ?_
        refine (adds_loop (fun g => adds_then (ih1 hd.key g) (ih1 hd.value)) (fun g => adds_last (P := fun evs => evs = [⟨.mapEnd, ()⟩]) (A := fun evs => evs = []) (fun _ => rfl) rfl) _ g).imp
          fun e g' => AddsE.imp (fun evs => ?_) fun evs => ?_
        · rintro ⟨l, b, h1, rfl, h2, rfl⟩
          obtain ⟨tes, h3, h4⟩ := readsEntries_flatten h2
          exact ⟨_, rfl, .map (by rw [h3, h1]) h4⟩
        · rintro ⟨l, b, rfl, h2, h1⟩
          obtain ⟨tes, h3, h4⟩ := readsEntries_flatten h2
          rcases h1 with ⟨h1, h5 | ⟨a, b, rfl, ⟨k, h5, h6⟩, h7⟩⟩ | ⟨h1, rfl⟩
          · exact .key h4 (by omega) h5
          · rw [← List.append_assoc]
            exact .value h4 (by omega) h5 h6 h7
          · exact .last (tv := .map hd.key hd.value tes) (ev := ⟨.mapEnd, ()⟩) (by simp) (by simpa using Reads.map (h := hd) (by omega) h4)
      rw [if_neg h]; clear h
      by_cases h : t = Ty.set
      · rw [if_pos h, h]
        refine adds_try (.nothing _) fun hd g => ?_
        refine (adds_loop (ih1 hd.element) (fun g => adds_last (P := fun evs => evs = [⟨.setEnd, ()⟩]) (A := fun evs => evs = []) (fun _ => rfl) rfl) _ g).imp
          fun e g' => AddsE.imp (fun evs => ?_) fun evs => ?_
        · rintro ⟨l, b, h1, rfl, h2, rfl⟩
          obtain ⟨tvs, h3, h4⟩ := readsElems_flatten h2
          exact ⟨_, rfl, .set (by rw [h3, h1]) h4⟩
        · rintro ⟨l, b, rfl, h2, h1⟩
          obtain ⟨tvs, h3, h4⟩ := readsElems_flatten h2
          rcases h1 with ⟨h1, h5⟩ | ⟨h1, rfl⟩
          · exact .set h4 (by omega) h5
          · exact .last (tv := .set hd.element tvs) (ev := ⟨.setEnd, ()⟩) (by simp) (by simpa using Reads.set (h := hd) (by omega) h4)
      rw [if_neg h]; clear h
      by_cases h : t = Ty.list
      · rw [if_pos h, h]
        refine adds_try (.nothing _) fun hd g => ?_
        refine (adds_loop (ih1 hd.element) (fun g => adds_last (P := fun evs => evs = [⟨.listEnd, ()⟩]) (A := fun evs => evs = []) (fun _ => rfl) rfl) _ g).imp
          fun e g' => AddsE.imp (fun evs => ?_) fun evs => ?_
        · rintro ⟨l, b, h1, rfl, h2, rfl⟩
          obtain ⟨tvs, h3, h4⟩ := readsElems_flatten h2
          exact ⟨_, rfl, .list (by rw [h3, h1]) h4⟩
        · rintro ⟨l, b, rfl, h2, h1⟩
          obtain ⟨tvs, h3, h4⟩ := readsElems_flatten h2
          rcases h1 with ⟨h1, h5⟩ | ⟨h1, rfl⟩
          · exact .list h4 (by omega) h5
          · exact .last (tv := .list hd.element tvs) (ev := ⟨.listEnd, ()⟩) (by simp) (by simpa using Reads.list (h := hd) (by omega) h4)
      rw [if_neg h]; clear h
      by_cases h : t = Ty.uuid
      · rw [if_pos h, h]; exact adds_last (fun a => ⟨_, rfl, .skipUUID []⟩) (.nothing _)
      rw [if_neg h]
      exact ⟨[], by simp, fun he => (by cases he), fun _ => .nothing _⟩
    · intro g
      rw [skipFields]
      refine adds_try (.fields .nil) fun hd g => ?_
      by_cases hs : hd.type = Ty.stop
      · rw [if_pos hs]
        exact adds_last (fun _ => ⟨[], [], hd, rfl, .nil, hs⟩) (.structEnd .nil hs)
      · rw [if_neg hs]
        refine (adds_then (ih1 hd.type g) fun g => adds_try (P := fun evs => ∃ b, evs = ⟨.fieldEnd, ()⟩ :: b ∧ ReadsRest b) (A := fun evs => evs = [] ∨ ∃ b, evs = ⟨.fieldEnd, ()⟩ :: b ∧ BegunRest b)
          (.inl rfl) fun _ g => (ih2 g).imp fun e g' => AddsE.imp (fun evs h => ⟨evs, rfl, h⟩) fun evs h => .inr ⟨evs, rfl, h⟩).imp fun e g' => AddsE.imp (fun evs => ?_) fun evs => ?_
        · rintro ⟨a, b, rfl, ⟨tv, h1, h2⟩, b', rfl, tfs, evs', h, rfl, h3, h4⟩
          exact ⟨_, ⟨.fieldBegin, hd⟩ :: (a ++ ⟨.fieldEnd, ()⟩ :: evs'), h, by simp, .cons h1 h2 h3, h4⟩
        · rintro (h | ⟨a, b, rfl, ⟨tv, h1, h2⟩, rfl | ⟨b, rfl, h3⟩⟩)
          · exact .field (evs := []) .nil hs h
          · exact .fieldEnd (by simpa using ReadsFields.cons h1 h2 .nil)
          · exact .cons h1 h2 h3

/-! ## Unmarshal -/

/-- Reading has stopped with this error: a SemanticError, unless it has stopped in a field that is not declared. -/
def Stopped (env : Env) (t : TypeId) (w : WType) (old : GoVal) (evs : List Ev) (v : GoVal) (e : Err) : Prop := ∃ u, Stops env t w old evs v u ∧ (u = false → IsSemantic .unmarshal e)

theorem Stopped.map {env : Env} {t t' : TypeId} {w w' : WType} {old old' v v' : GoVal} {evs evs' : List Ev} {e : Err} (h : Stopped env t w old evs v e)
    (hs : ∀ u, Stops env t w old evs v u → Stops env t' w' old' evs' v' u) : Stopped env t' w' old' evs' v' e :=
  have ⟨u, h1, h2⟩ := h
  ⟨u, hs u h1, h2⟩

/-- After the calls behind `g0`: the value is read and decoded, or reading has stopped. -/
def Post (env : Env) (t : TypeId) (w : WType) (old : GoVal) (g0 : List Ev) (r : GoVal × Option Err) (g : List Ev) : Prop :=
  ∃ evs, g = g0 ++ evs ∧ (r.2 = none → ∃ tv : TVal, tv.ty = w ∧ Reads tv evs ∧ Decodes env t old tv r.1) ∧ (∀ e, r.2 = some e → Stopped env t w old evs r.1 e)

theorem Post.err {env : Env} {t : TypeId} {w : WType} {old v : GoVal} {g0 : List Ev} {e : Err} (evs : List Ev) (h : Stopped env t w old evs v e) : Post env t w old g0 (v, some e) (g0 ++ evs) :=
  ⟨evs, rfl, fun he => (by cases he), fun _ he => by cases he; exact h⟩

theorem Post.stay {env : Env} {t : TypeId} {w : WType} {old : GoVal} {g : List Ev} {e : Err} (h : ∀ e, (env.type t).kind ≠ .ptr e) (he : IsSemantic .unmarshal e) :
    Post env t w old g (old, some e) g :=
  ⟨[], by simp, fun he => (by cases he), fun _ he' => by cases he'; exact ⟨false, .nothing _ _ h, fun _ => he⟩⟩

theorem post_leaf {env : Env} {n : Nat} {t : TypeId} {l : Leaf} (hl : lookupArshaler env n t = .done (.leaf t l)) (old : GoVal) (w : WType) (g : List Ev) :
    Wp evMon (Post env t w old g) (unmarshalLeaf env t l old w) g := by
  have hm := (lookup_arsh hl).2.2
  have one : ∀ {o : ROp} {a : o.Ans} {tv : TVal} {v : GoVal}, tv.ty = w → Reads tv [⟨o, a⟩] → Decodes env t old tv v → Post env t w old g (v, none) (evMon.next o a g) :=
    fun h1 h2 h3 => ⟨_, rfl, fun _ => ⟨_, h1, h2, h3⟩, fun _ he => (by cases he)⟩
  unfold unmarshalLeaf
  split
  · exact Post.stay hm rfl
  · rename_i hw
    have hw := (Classical.not_not.1 hw).symm
    cases n with
    | zero => cases hl
    | succ n =>
      have hc := lookup_cases hl
      cases hk : (env.type t).kind <;> rw [hk] at hc <;> dsimp only at hc
      case map => obtain ⟨_, _, _, _, h⟩ := hc; cases h
      case slice e =>
        rcases hc with ⟨hb, h⟩ | ⟨_, _, _, h⟩
        · cases h
          dsimp only
          cases old with
          | bytes b =>
            refine Wp.rcall trivial (fun a _ => ?_) fun e => Post.stay hm rfl
            refine one (tv := .str false a) hw (.bytes _ _) ?_
            have := Decodes.bytes (env := env) (o := b) false a hk hb
            rwa [show (if b.isNone && a.isEmpty then none else some a) = (if b = none ∧ a = [] then none else some a) by simp]
          | _ => trivial
        · cases h
      case ptr => obtain ⟨_, _, h⟩ := hc; cases h
      case struct => cases hc
      case other => cases hc
      case bool => cases hc; exact Wp.rcall trivial (fun a _ => one (tv := .bool a) hw (.bool _) (.bool _ hk)) fun e => Post.stay hm rfl
      case float32 => cases hc; exact Wp.rcall trivial (fun a _ => one (tv := .double a) hw (.double _) (.f32 _ hk)) fun e => Post.stay hm rfl
      case float64 => cases hc; exact Wp.rcall trivial (fun a _ => one (tv := .double a) hw (.double _) (.f64 _ hk)) fun e => Post.stay hm rfl
      case int8 => cases hc; exact Wp.rcall trivial (fun a _ => one (tv := .byte a) hw (.byte _) (.byte _ (.inl hk))) fun e => Post.stay hm rfl
      case uint8 => cases hc; exact Wp.rcall trivial (fun a _ => one (tv := .byte a) hw (.byte _) (.byte _ (.inr hk))) fun e => Post.stay hm rfl
      case int16 => cases hc; exact Wp.rcall trivial (fun a _ => one (tv := .i16 a) hw (.i16 _) (.i16 _ (.inl hk))) fun e => Post.stay hm rfl
      case uint16 => cases hc; exact Wp.rcall trivial (fun a _ => one (tv := .i16 a) hw (.i16 _) (.i16 _ (.inr hk))) fun e => Post.stay hm rfl
      case int32 => cases hc; exact Wp.rcall trivial (fun a _ => one (tv := .i32 a) hw (.i32 _) (.i32 _ (.inl hk))) fun e => Post.stay hm rfl
      case uint32 => cases hc; exact Wp.rcall trivial (fun a _ => one (tv := .i32 a) hw (.i32 _) (.i32 _ (.inr hk))) fun e => Post.stay hm rfl
      case int64 => cases hc; exact Wp.rcall trivial (fun a _ => one (tv := .i64 a) hw (.i64 _) (.i64 _ (.inl hk))) fun e => Post.stay hm rfl
      case uint64 => cases hc; exact Wp.rcall trivial (fun a _ => one (tv := .i64 a) hw (.i64 _) (.i64 _ (.inr hk))) fun e => Post.stay hm rfl
      case string => cases hc; exact Wp.rcall trivial (fun a _ => one (tv := .str false a) hw (.string _ _) (.string _ _ hk)) fun e => Post.stay hm rfl
      case uuid => cases hc; exact Wp.rcall trivial (fun a _ => one (tv := .uuid a) hw (.uuid _) (.uuid _ hk)) fun e => Post.stay hm rfl

/-- Elements that are read and decoded. -/
structure Elems (env : Env) (e : TypeId) (w : WType) (evs : List Ev) (tvs : List TVal) (es : List GoVal) : Prop where
  reads : ReadsElems w tvs evs
  length : es.length = tvs.length
  decodes : ∀ (i : Nat) x v, tvs[i]? = some x → es[i]? = some v → Decodes env e (env.zero e) x v

theorem Elems.cons {env : Env} {e : TypeId} {w : WType} {evs evs' : List Ev} {tv : TVal} {tvs : List TVal} {v : GoVal} {es : List GoVal} (hw : tv.ty = w) (h1 : Reads tv evs)
    (h2 : Decodes env e (env.zero e) tv v) (h : Elems env e w evs' tvs es) : Elems env e w (evs ++ evs') (tv :: tvs) (v :: es) where
  reads := by subst hw; exact .cons h1 h.reads
  length := by simp [h.length]
  decodes := by
    intro i x v hx hv
    cases i with
    | zero => cases hx; cases hv; exact h2
    | succ i => exact h.decodes i x v hx hv

theorem post_seqLoop {env : Env} {e : TypeId} {w : WType} {u : GoVal → UProg GoVal} {grow : Nat → Nat} (hu : ∀ g, Wp evMon (Post env e w (env.zero e) g) (u (env.zero e)) g) (n : Nat) :
    ∀ (done rest : List GoVal) (mz : Bool), (mz = true ∨ ∀ v ∈ rest, v = env.zero e) → ∀ g, Wp evMon (fun r g' => ∃ evs, g' = g ++ evs ∧
      (r.2 = none → ∃ tvs es, r.1.1 = done ++ es ∧ tvs.length = n ∧ Elems env e w evs tvs es) ∧
      (∀ err, r.2 = some err → ∃ tvs es v evs1 evs2, r.1.1 = done ++ (es ++ [v]) ∧ tvs.length < n ∧ evs = evs1 ++ evs2 ∧ Elems env e w evs1 tvs es ∧ Stopped env e w (env.zero e) evs2 v err))
      (seqLoop u (env.zero e) grow n done rest mz) g := by
  induction n with
  | zero => intro done rest mz _ g; exact ⟨[], by simp, fun _ => ⟨[], [], by simp, rfl, .nil, rfl, by simp⟩, fun _ he => (by cases he)⟩
  | succ n ih =>
    intro done rest mz hz g
    rw [seqLoop]
    have key : ∀ v rest', (if rest.isEmpty = true then List.replicate (max 1 (grow done.length - done.length)) (env.zero e) else rest) = v :: rest' →
        (if (mz && !rest.isEmpty) = true then (env.zero e) else v) = (env.zero e) ∧ ((mz && !rest.isEmpty) = true ∨ ∀ v ∈ rest', v = (env.zero e)) := by
      intro v rest' hr
      cases rest with
      | nil =>
        simp only [List.isEmpty_nil, if_true] at hr
        have hall : ∀ x ∈ v :: rest', x = (env.zero e) := by rw [← hr]; intro x hx; exact List.eq_of_mem_replicate hx
        simp only [List.isEmpty_nil, Bool.not_true, Bool.and_false, Bool.false_eq_true, if_false, false_or]
        exact ⟨hall v (by simp), fun x hx => hall x (by simp [hx])⟩
      | cons v0 rest0 =>
        simp only [List.isEmpty_cons, Bool.false_eq_true, if_false, List.cons.injEq] at hr
        obtain ⟨rfl, rfl⟩ := hr
        cases mz with
        | true => simp
        | false =>
          rcases hz with hz | hz
          · cases hz
          · simp only [Bool.false_and, Bool.false_eq_true, if_false, false_or]
            exact ⟨hz v0 (by simp), fun x hx => hz x (by simp [hx])⟩
    generalize hr : (if rest.isEmpty = true then List.replicate (max 1 (grow done.length - done.length)) (env.zero e) else rest) = r at key
    cases r with
    | nil => trivial
    | cons v rest' =>
      obtain ⟨k1, k2⟩ := key v rest' rfl
      dsimp only
      rw [k1]
      refine Wp.andThen (hu g) (fun v' g' h => ?_) fun v' err g' h => ?_
      · obtain ⟨evs, rfl, h1, _⟩ := h
        obtain ⟨tv, h1, h2, h3⟩ := h1 rfl
        refine (ih (done ++ [v']) rest' _ k2 (g ++ evs)).imp fun r g' h => ?_
        obtain ⟨evs', rfl, h4, h5⟩ := h
        refine ⟨evs ++ evs', by simp, fun he => ?_, fun err he => ?_⟩
        · obtain ⟨tvs, es, h6, h7, h8⟩ := h4 he
          exact ⟨tv :: tvs, v' :: es, by simp [h6], by simp [h7], h8.cons h1 h2 h3⟩
        · obtain ⟨tvs, es, v, evs1, evs2, h6, h7, rfl, h8, h9⟩ := h5 err he
          exact ⟨tv :: tvs, v' :: es, v, evs ++ evs1, evs2, by simp [h6], by simp [h7], by simp, h8.cons h1 h2 h3, h9⟩
      · obtain ⟨evs, rfl, _, h1⟩ := h
        exact ⟨evs, rfl, fun he => (by cases he), fun _ he => by cases he; exact ⟨[], [], v', [], evs, by simp, by simp, rfl, ⟨.nil, rfl, by simp⟩, h1 _ rfl⟩⟩

theorem post_mapLoop {env : Env} {k e : TypeId} {kw ew : WType} {uk : UProg GoVal} {uv : GoVal → UProg GoVal} (hk : ∀ g, Wp evMon (Post env k kw (env.zero k) g) uk g)
    (hv : ∀ old g, Wp evMon (Post env e ew old g) (uv old) g) (n : Nat) :
    ∀ (es0 : List (GoVal × GoVal)) g, Wp evMon (fun r g' => ∃ evs, g' = g ++ evs ∧
      (r.2 = none → ∃ tes, tes.length = n ∧ ReadsEntries kw ew tes evs ∧ DecodesEntries env k e es0 tes r.1) ∧
      (∀ err, r.2 = some err → ∃ tes evs1 es, tes.length < n ∧ ReadsEntries kw ew tes evs1 ∧ DecodesEntries env k e es0 tes es ∧
        ((∃ evs2 x, evs = evs1 ++ evs2 ∧ Stopped env k kw (env.zero k) evs2 x err ∧ r.1 = es) ∨
        ∃ ktv x v evs2 evs3, evs = evs1 ++ evs2 ++ evs3 ∧ ktv.ty = kw ∧ Reads ktv evs2 ∧ Decodes env k (env.zero k) ktv x ∧
          Stopped env e ew ((mapIndex x es).getD (env.zero e)) evs3 v err ∧ r.1 = setMapIndex x v es)))
      (mapLoop uk uv (env.zero e) n es0) g := by
  induction n with
  | zero => intro es0 g; exact ⟨[], by simp, fun _ => ⟨[], rfl, .nil, .nil⟩, fun _ he => (by cases he)⟩
  | succ n ih =>
    intro es0 g
    rw [mapLoop]
    refine Wp.andThen (hk g) (fun x g' h => ?_) fun x err g' h => ?_
    · obtain ⟨evs, rfl, h1, _⟩ := h
      obtain ⟨ktv, h1, h2, h3⟩ := h1 rfl
      refine Wp.andThen (hv _ _) (fun v g' h => ?_) fun v err g' h => ?_
      · obtain ⟨evs', rfl, h4, _⟩ := h
        obtain ⟨vtv, h4, h5, h6⟩ := h4 rfl
        refine (ih _ _).imp fun r g' h => ?_
        obtain ⟨evs'', rfl, h7, h8⟩ := h
        have rd : ∀ {tes ev}, ReadsEntries kw ew tes ev → ReadsEntries kw ew ((ktv, vtv) :: tes) (evs ++ evs' ++ ev) := by
          intro tes ev h; subst h1; subst h4; exact .cons h2 h5 h
        refine ⟨evs ++ evs' ++ evs'', by simp, fun he => ?_, fun err he => ?_⟩
        · obtain ⟨tes, h9, h10, h11⟩ := h7 he
          exact ⟨(ktv, vtv) :: tes, by simp [h9], rd h10, .cons h3 h6 h11⟩
        · obtain ⟨tes, evs1, es, h9, h10, h11, h12⟩ := h8 err he
          refine ⟨(ktv, vtv) :: tes, evs ++ evs' ++ evs1, es, by simp [h9], rd h10, .cons h3 h6 h11, ?_⟩
          rcases h12 with ⟨evs2, y, rfl, h13, h14⟩ | ⟨ktv', y, v', evs2, evs3, rfl, h13⟩
          · exact .inl ⟨evs2, y, by simp, h13, h14⟩
          · exact .inr ⟨ktv', y, v', evs2, evs3, by simp, h13⟩
      · obtain ⟨evs', rfl, _, h4⟩ := h
        exact ⟨evs ++ evs', by simp, fun he => (by cases he), fun _ he => by cases he; exact ⟨[], [], es0, by simp, .nil, .nil, .inr ⟨ktv, x, v, evs, evs', rfl, h1, h2, h3, h4 _ rfl, rfl⟩⟩⟩
    · obtain ⟨evs, rfl, _, h1⟩ := h
      exact ⟨evs, rfl, fun he => (by cases he), fun _ he => by cases he; exact ⟨[], [], es0, by simp, .nil, .nil, .inl ⟨evs, x, rfl, h1 _ rfl, rfl⟩⟩⟩

/-- What stopping in the fields of a struct leaves behind. -/
inductive FStops (env : Env) (fs : List FieldDecl) : List GoVal → List Ev → List GoVal → Bool → Prop where
  | fields {vs vs' : List GoVal} {tfs : List (Bytes × BitVec 16 × TVal)} {evs : List Ev} : ReadsFields tfs evs → DecodesFields env fs vs tfs vs' → FStops env fs vs evs vs' false
  | fieldEnd {vs vs' : List GoVal} {tfs : List (Bytes × BitVec 16 × TVal)} {evs : List Ev} : ReadsFields tfs (evs ++ [⟨.fieldEnd, ()⟩]) → DecodesFields env fs vs tfs vs' → FStops env fs vs evs vs' false
  | structEnd {vs vs' : List GoVal} {tfs : List (Bytes × BitVec 16 × TVal)} {evs : List Ev} {h : FieldHeader} : ReadsFields tfs evs → DecodesFields env fs vs tfs vs' → h.type = Ty.stop →
      FStops env fs vs (evs ++ [⟨.fieldBegin, h⟩]) vs' false
  | field {vs vs' : List GoVal} {tfs : List (Bytes × BitVec 16 × TVal)} {evs evs' : List Ev} {h : FieldHeader} {i : Nat} {f : FieldDecl} {required u : Bool}
      {old v : GoVal} : ReadsFields tfs evs → DecodesFields env fs vs tfs vs' → h.type ≠ Ty.stop → fs[i]? = some f → Declares env f h.id required → vs'[i]? = some old →
      Stops env f.typ h.type old evs' v u → FStops env fs vs (evs ++ ⟨.fieldBegin, h⟩ :: evs') (vs'.set i v) u
  | unknown {vs vs' : List GoVal} {tfs : List (Bytes × BitVec 16 × TVal)} {evs evs' : List Ev} {h : FieldHeader} : ReadsFields tfs evs → DecodesFields env fs vs tfs vs' →
      h.type ≠ Ty.stop → (∀ f ∈ fs, ∀ required, ¬ Declares env f h.id required) → Begun h.type evs' → FStops env fs vs (evs ++ ⟨.fieldBegin, h⟩ :: evs') vs' true

/-- One more field before. -/
theorem FStops.cons {env : Env} {fs : List FieldDecl} {vs vs1 vs' : List GoVal} {h : FieldHeader} {tv : TVal} {evs evs' : List Ev} {u : Bool} (hw : tv.ty = h.type) (hr : Reads tv evs)
    (hd : ∀ tfs vs', DecodesFields env fs vs1 tfs vs' → DecodesFields env fs vs ((h.name, h.id, tv) :: tfs) vs') (hs : FStops env fs vs1 evs' vs' u) :
    FStops env fs vs (⟨.fieldBegin, h⟩ :: (evs ++ ⟨.fieldEnd, ()⟩ :: evs')) vs' u := by
  cases hs with
  | fields h1 h2 => exact .fields (.cons hw hr h1) (hd _ _ h2)
  | fieldEnd h1 h2 =>
    refine .fieldEnd ?_ (hd _ _ h2)
    have := ReadsFields.cons hw hr h1
    simpa using this
  | structEnd h1 h2 h3 =>
    have := FStops.structEnd (.cons hw hr h1) (hd _ _ h2) h3
    simpa using this
  | field h1 h2 h3 h4 h5 h6 h7 =>
    have := FStops.field (.cons hw hr h1) (hd _ _ h2) h3 h4 h5 h6 h7
    simpa using this
  | unknown h1 h2 h3 h4 h5 =>
    have := FStops.unknown (.cons hw hr h1) (hd _ _ h2) h3 h4 h5
    simpa using this

/-- As `Post`, for the fields of a struct from a header on. -/
def FPost (env : Env) (fs : List FieldDecl) (vs : List GoVal) (g0 : List Ev) (r : GoVal × Option Err) (g : List Ev) : Prop :=
  ∃ evs vs', g = g0 ++ evs ∧ r.1 = .struct vs' ∧
    (r.2 = none → ∃ tfs evs' h, evs = evs' ++ [⟨.fieldBegin, h⟩, ⟨.structEnd, ()⟩] ∧ h.type = Ty.stop ∧ ReadsFields tfs evs' ∧ DecodesFields env fs vs tfs vs') ∧
    (∀ e, r.2 = some e → ∃ u, FStops env fs vs evs vs' u ∧ (u = false → IsSemantic .unmarshal e))

theorem FPost.err {env : Env} {fs : List FieldDecl} {vs vs' : List GoVal} {g0 g : List Ev} {e : Err} {u : Bool} (evs : List Ev) (hg : g = g0 ++ evs) (h : FStops env fs vs evs vs' u)
    (he : u = false → IsSemantic .unmarshal e) :
    FPost env fs vs g0 (.struct vs', some e) g := ⟨evs, vs', hg, rfl, fun he => (by cases he), fun _ h' => by cases h'; exact ⟨u, h, he⟩⟩

theorem FPost.cons {env : Env} {fs : List FieldDecl} {vs vs1 : List GoVal} {h : FieldHeader} {tv : TVal} {evs g0 g : List Ev} {r : GoVal × Option Err} (hw : tv.ty = h.type) (hr : Reads tv evs)
    (hd : ∀ tfs vs', DecodesFields env fs vs1 tfs vs' → DecodesFields env fs vs ((h.name, h.id, tv) :: tfs) vs')
    (hp : FPost env fs vs1 (g0 ++ ⟨.fieldBegin, h⟩ :: (evs ++ [⟨.fieldEnd, ()⟩])) r g) : FPost env fs vs g0 r g := by
  obtain ⟨evs', vs', rfl, h1, h2, h3⟩ := hp
  refine ⟨⟨.fieldBegin, h⟩ :: (evs ++ ⟨.fieldEnd, ()⟩ :: evs'), vs', by simp, h1, fun he => ?_, fun e he => have ⟨u, h4, h5⟩ := h3 e he; ⟨u, h4.cons hw hr hd, h5⟩⟩
  obtain ⟨tfs, e2, hd', rfl, h4, h5, h6⟩ := h2 he
  exact ⟨_, _, hd', by simp, h4, .cons hw hr h5, hd _ _ h6⟩

theorem post_unmarshal (env : Env) (sk fuel : Nat) :
    (∀ n t a old w g, lookupArshaler env n t = .done a → Wp evMon (Post env t w old g) (unmarshal env sk fuel a old w) g) ∧
    (∀ n t fs vs g, Table env n t fs → Wp evMon (FPost env (env.fields t) vs g) (unmarshalFields env sk fuel t fs vs) g) := by
  induction fuel with
  | zero => exact ⟨fun _ _ _ _ _ _ _ => trivial, fun _ _ _ _ _ _ => trivial⟩
  | succ fuel ih =>
    obtain ⟨ih1, ih2⟩ := ih
    constructor
    · intro n t a old w g hl
      unfold unmarshal
      have ha := lookup_arsh hl
      cases a with
      | leaf t' l => obtain ⟨rfl, _⟩ := ha; exact post_leaf hl old w g
      | invalid t' =>
        obtain ⟨rfl, hk⟩ := ha
        exact Post.stay (by simp [hk]) rfl
      | ptr t' ea =>
        obtain ⟨rfl, m, e, hk, h1⟩ := ha
        dsimp only
        rw [(lookup_wireType h1).1]
        cases hd : old.deref? (env.zero e) with
        | none => trivial
        | some v0 =>
          have put : ∀ {tv v}, Decodes env e v0 tv v → Decodes env t' old tv (.ptr v) := by
            intro tv v h
            cases old <;> simp [GoVal.deref?] at hd <;> subst hd
            · exact .ptrNil hk h
            · exact .ptr hk h
          have put' : ∀ {evs v} u, Stops env e w v0 evs v u → Stops env t' w old evs (.ptr v) u := by
            intro tv v u h
            cases old <;> simp [GoVal.deref?] at hd <;> subst hd
            · exact .ptrNil hk h
            · exact .ptr hk h
          refine Wp.andThen (ih1 m e ea v0 w g h1) (fun v g' h => ?_) fun v err g' h => ?_
          · obtain ⟨evs, rfl, h2, _⟩ := h
            obtain ⟨tv, h2, h3, h4⟩ := h2 rfl
            exact ⟨evs, rfl, fun _ => ⟨tv, h2, h3, put h4⟩, fun _ he => (by cases he)⟩
          · obtain ⟨evs, rfl, _, h2⟩ := h
            exact .err evs ((h2 _ rfl).map put')
      | struct t' =>
        obtain ⟨rfl, ⟨fs, hk⟩, hm⟩ := ha
        dsimp only
        refine Wp.elim (.inr trivial) fun r hr => ?_
        cases r with
        | error e =>
          obtain ⟨⟨c, rfl⟩, _⟩ := makeStructFields_error hk hr
          exact Post.stay hm.2 rfl
        | ok sfs =>
          have htab := makeStructFields_table env fuel t' sfs hr
          have hg := htab.good
          have hfs : env.fields t' = fs := fields_of_kind hk
          dsimp only
          split
          · exact Post.stay hm.2 rfl
          · rename_i hw
            have hw : w = Ty.struct := Classical.not_not.1 hw
            subst hw
            cases old with
            | struct vals =>
              dsimp only [GoVal.fields?]
              refine Wp.rcall trivial (fun nm _ => ?_) fun e => Post.stay hm.2 rfl
              refine (ih2 fuel t' sfs vals _ htab).imp fun r g' h => ?_
              rw [hfs] at h hg
              obtain ⟨v, e⟩ := r
              obtain ⟨evs, vs', rfl, rfl, h1, h2⟩ := h
              refine ⟨⟨.structBegin, nm⟩ :: evs, by simp [evMon], fun he => ?_, fun err he => ?_⟩
              · obtain ⟨tfs, evs', hd, rfl, h3, h4, h5⟩ := h1 he
                exact ⟨.struct [] tfs, rfl, .struct [] nm h4 h3, .struct [] hk hg h5⟩
              · obtain ⟨u, hs, hu⟩ := h2 err he
                refine ⟨u, ?_, hu⟩
                clear h1 h2 hu
                cases hs with
                | fields h1 h2 => exact .fields nm hk h1 h2
                | fieldEnd h1 h2 => exact .fieldEnd nm hk h1 h2
                | @structEnd _ tfs evs hd h1 h2 h3 =>
                  refine Stops.last (ev := ⟨.structEnd, ()⟩) (tv := .struct [] tfs) hm.2 (by simp) ?_ (.struct [] hk hg h2)
                  have := Reads.struct [] nm h1 h3
                  simpa using this
                | field h1 h2 h3 h4 h5 h6 h7 => exact .field nm hk h1 h2 h3 h4 h5 h6 h7
                | unknown h1 h2 h3 h4 h5 => exact .unknown nm hk h1 h2 h3 h4 h5
            | _ => trivial
      | map t' ka ea =>
        obtain ⟨rfl, hm, m, k, e, hk, h1, h2⟩ := ha
        dsimp only
        rw [(lookup_wireType h1).1, (lookup_wireType h2).1, unmarshalMap]
        split
        · exact Post.stay hm.2 rfl
        · rename_i hw
          have hw : w = Ty.map := Classical.not_not.1 hw
          subst hw
          cases he : old.entries? with
          | none => trivial
          | some es0 =>
            have hold : (old = .mapNil ∨ ∃ es0, old = .map es0) ∧ entriesOf old = es0 := by
              cases old <;> simp [GoVal.entries?] at he <;> simp [entriesOf, he]
            dsimp only
            refine Wp.rcall trivial (fun h _ => ?_) fun e => Post.stay hm.2 rfl
            -- the closing call
            have fin : ∀ {v tes evs}, loopCount h.size = tes.length → ReadsEntries h.key h.value tes evs → Decodes env t' old (.map h.key h.value tes) v →
                Wp evMon (Post env t' Ty.map old g) (rcall "ReadMapEnd" Ty.map t' .mapEnd v fun _ => .ret (v, none)) (g ++ ⟨.mapBegin, h⟩ :: evs) := by
              intro v tes evs h3 h4 h5
              refine Wp.rcall trivial (fun _ _ => ⟨⟨.mapBegin, h⟩ :: (evs ++ [⟨.mapEnd, ()⟩]), by simp [evMon], fun _ => ⟨_, rfl, .map h3 h4, h5⟩, fun _ he => (by cases he)⟩) fun e => ?_
              exact .err _ ⟨false, .last (ev := ⟨.mapEnd, ()⟩) (tv := .map h.key h.value tes) hm.2 (by simp) (by have := Reads.map h3 h4; simpa using this) h5, fun _ => rfl⟩
            split
            · rename_i hpos
              refine Wp.andThen (post_mapLoop (fun g => ih1 m k ka _ _ g h1) (fun old g => ih1 m e ea old _ g h2) _ es0 _) (fun es g' h3 => ?_) fun es err g' h3 => ?_
              · obtain ⟨evs, rfl, h3, _⟩ := h3
                obtain ⟨tes, h4, h5, h6⟩ := h3 rfl
                have hne : tes ≠ [] := by rintro rfl; simp [loopCount] at h4; omega
                have := fin h4.symm h5 (.map _ _ hk hne hold.1 (by rw [hold.2]; exact h6))
                simpa [evMon] using this
              · obtain ⟨evs, rfl, _, h3⟩ := h3
                obtain ⟨tes, evs1, es', h4, h5, h6, h7⟩ := h3 err rfl
                rw [← hold.2] at h6
                refine ⟨⟨.mapBegin, h⟩ :: evs, by simp [evMon], fun he => (by cases he), fun err' he => ?_⟩
                cases he
                rcases h7 with ⟨evs2, x, rfl, h7, rfl⟩ | ⟨ktv, x, v, evs2, evs3, rfl, h7, h8, h9, h10, rfl⟩
                · exact h7.map fun u h7 => .key hk h5 h4 h6 h7
                · exact h10.map fun u h10 => .value hk h5 h4 h6 h7 h8 h9 h10
            · rename_i hpos
              refine fin (tes := []) (evs := []) ?_ .nil (.mapEmpty _ _ hk hold.1)
              simp [loopCount]; omega
      | seq t' isSet ea =>
        obtain ⟨rfl, hm, m, e, hk, hb, h1⟩ := ha
        have hset : isSet = (env.type t').isSet := by
          cases n with
          | zero => cases hl
          | succ n =>
            have hc := lookup_cases hl
            rw [hk] at hc
            rcases hc with ⟨hb', _⟩ | ⟨_, ea', _, h⟩
            · rw [hb] at hb'; cases hb'
            · cases h; rfl
        dsimp only
        rw [(lookup_wireType h1).1]
        unfold unmarshalSeq
        dsimp only
        by_cases hw : w ≠ (if isSet then Ty.set else Ty.list)
        · rw [if_pos hw]; exact Post.stay hm.2 rfl
        · rw [if_neg hw]
          have hw := Classical.not_not.1 hw
          split
          · trivial
          · rename_i hold
            have hold : old = .sliceNil ∨ ∃ es sp, old = .slice es sp := by cases old <;> simp [GoVal.elems?] at hold <;> simp
            have body : ∀ (ob oe : Ev) (h : SetHeader) (mk : List TVal → TVal) (fin : GoVal → UProg GoVal),
                (∀ tvs, (mk tvs).ty = w ∧ (mk tvs = if (env.type t').isSet then .set h.element tvs else .list h.element tvs)) →
                (∀ tvs evs, loopCount h.size = tvs.length → ReadsElems h.element tvs evs → Reads (mk tvs) (ob :: (evs ++ [oe]))) →
                (∀ tvs es v sp evs evs' u, tvs.length < loopCount h.size → Elems env e h.element evs tvs es → Stops env e h.element (env.zero e) evs' v u →
                  Stops env t' w old (ob :: (evs ++ evs')) (.slice (es ++ [v]) sp) u) →
                (∀ v evs, (∃ tv : TVal, tv.ty = w ∧ Reads tv (ob :: (evs ++ [oe])) ∧ Decodes env t' old tv v) → Wp evMon (Post env t' w old g) (fin v) (g ++ ob :: evs)) →
                Wp evMon (Post env t' w old g) (seqBody env t' e (fun wt v => unmarshal env sk fuel ea v wt) old h fin) (g ++ [ob]) := by
              intro ob oe h mk fin hmk hrd hst hfin
              rw [seqBody]
              split
              · rename_i hpos
                refine Wp.andThen (post_seqLoop (fun g => ih1 m e ea _ _ g h1) _ _ _ true (.inl rfl) _) (fun p g' h3 => ?_) fun p err g' h3 => ?_
                · obtain ⟨es, sp⟩ := p
                  obtain ⟨evs, rfl, h3, _⟩ := h3
                  obtain ⟨tvs, es', h4, h5, h6⟩ := h3 rfl
                  obtain rfl : es = es' := by simpa using h4
                  have hne : tvs ≠ [] := by rintro rfl; simp [loopCount] at h5; omega
                  have := hfin (.slice es sp) evs ⟨mk tvs, (hmk tvs).1, hrd tvs evs h5.symm h6.reads, .seq h.element hk hb (hmk tvs).2 hne hold h6.length h6.decodes⟩
                  simpa using this
                · obtain ⟨es, sp⟩ := p
                  obtain ⟨evs, rfl, _, h3⟩ := h3
                  obtain ⟨tvs, es', v, evs1, evs2, h4, h5, rfl, h6, h7⟩ := h3 err rfl
                  obtain rfl : es = es' ++ [v] := by simpa using h4
                  have := Post.err (g0 := g) (e := err) _ (h7.map fun u h7 => hst tvs es' v sp evs1 evs2 u h5 h6 h7)
                  simpa using this
              · rename_i hpos
                refine hfin _ [] ⟨mk [], (hmk []).1, hrd [] [] (by simp [loopCount]; omega) .nil, ?_⟩
                rcases hold with rfl | ⟨es, sp, rfl⟩
                · exact .seqNil h.element hk hb (hmk []).2
                · exact .seqEmpty h.element hk hb (hmk []).2
            have close : ∀ (o : ROp) (nm : String) (tt : WType) (ob : Ev) (v : GoVal) (evs : List Ev),
                (∀ a : o.Ans, ∃ tv : TVal, tv.ty = w ∧ Reads tv (ob :: (evs ++ [⟨o, a⟩])) ∧ Decodes env t' old tv v) → (∃ a : o.Ans, True) →
                Wp evMon (Post env t' w old g) (rcall nm tt t' o v fun _ => .ret (v, none)) (g ++ ob :: evs) := by
              intro o nm tt ob v evs h3 h4
              refine Wp.rcall trivial (fun a _ => ⟨_, ?_, fun _ => h3 a, fun _ he => (by cases he)⟩) fun err => ?_
              · simp [evMon]
              · obtain ⟨a, _⟩ := h4
                obtain ⟨tv, rfl, h4, h5⟩ := h3 a
                exact .err _ ⟨false, .last (ev := ⟨o, a⟩) hm.2 (by simp) h4 h5, fun _ => rfl⟩
            cases isSet with
            | true =>
              simp only [if_true] at hw ⊢
              refine Wp.rcall trivial (fun h _ => ?_) fun err => Post.stay hm.2 rfl
              refine body ⟨.setBegin, h⟩ ⟨.setEnd, ()⟩ h (fun tvs => .set h.element tvs) _ (fun tvs => ⟨hw.symm, by rw [← hset]; rfl⟩) (fun tvs evs h3 h4 => .set h3 h4) ?_ fun v evs h3 => ?_
              · intro tvs es v sp evs evs' u h3 h4 h5
                rw [hw]
                exact .set hk hb hset.symm h4.reads h3 h4.length h4.decodes h5
              · exact close .setEnd _ _ _ v evs (fun _ => h3) ⟨(), trivial⟩
            | false =>
              simp only [Bool.false_eq_true, if_false] at hw ⊢
              refine Wp.rcall trivial (fun h _ => ?_) fun err => Post.stay hm.2 rfl
              refine body ⟨.listBegin, h⟩ ⟨.listEnd, ()⟩ h (fun tvs => .list h.element tvs) _ (fun tvs => ⟨hw.symm, by rw [← hset]; rfl⟩) (fun tvs evs h3 h4 => .list h3 h4) ?_ fun v evs h3 => ?_
              · intro tvs es v sp evs evs' u h3 h4 h5
                rw [hw]
                exact .list hk hb hset.symm h4.reads h3 h4.length h4.decodes h5
              · exact close .listEnd _ _ _ v evs (fun _ => h3) ⟨(), trivial⟩
    · intro n t fs vs g htab
      rw [unmarshalFields]
      refine Wp.rcall trivial (fun h _ => ?_) fun e => .err [] (by simp [evMon]) (.fields .nil .nil) fun _ => rfl
      have next : ∀ {vs1 tv evs}, tv.ty = h.type → Reads tv evs → (∀ tfs vs', DecodesFields env (env.fields t) vs1 tfs vs' → DecodesFields env (env.fields t) vs ((h.name, h.id, tv) :: tfs) vs') →
          Wp evMon (FPost env (env.fields t) vs g) (rcall "ReadFieldEnd" Ty.struct t .fieldEnd (.struct vs1) fun _ => unmarshalFields env sk fuel t fs vs1) (g ++ ⟨.fieldBegin, h⟩ :: evs) := by
        intro vs1 tv evs h1 h2 h3
        refine Wp.rcall trivial (fun _ _ => ?_) fun e => ?_
        · refine (ih2 n t fs vs1 _ htab).imp fun r g' h4 => FPost.cons h1 h2 h3 ?_
          simpa [evMon] using h4
        · refine .err (⟨.fieldBegin, h⟩ :: evs) rfl (.fieldEnd (tfs := [(h.name, h.id, tv)]) ?_ (h3 [] _ .nil)) fun _ => rfl
          have := ReadsFields.cons h1 h2 .nil
          simpa using this
      split
      · rename_i hs
        refine Wp.rcall trivial (fun _ _ => ?_) fun e => ?_
        · exact ⟨[⟨.fieldBegin, h⟩, ⟨.structEnd, ()⟩], vs, by simp [evMon], rfl, fun _ => ⟨[], [], h, rfl, hs, .nil, .nil⟩, fun _ he => (by cases he)⟩
        · exact .err [⟨.fieldBegin, h⟩] rfl (.structEnd .nil .nil hs) fun _ => rfl
      · rename_i hs
        dsimp only
        cases hb : byID fs h.id with
        | none =>
          dsimp only
          have hun := htab.byID_none hb
          refine Wp.bind ((adds_skip sk).1 h.type _) fun e g' h1 => ?_
          obtain ⟨evs, rfl, h1, h1'⟩ := h1
          cases e with
          | some e =>
            exact .err (⟨.fieldBegin, h⟩ :: evs) (by simp [evMon]) (.unknown .nil .nil hs hun (h1' (by simp))) fun hu => (by cases hu)
          | none =>
            obtain ⟨tv, h1, h2⟩ := h1 rfl
            have := next h1 h2 fun tfs vs' h => .unknown hun h
            simpa [evMon] using this
        | some sf =>
          dsimp only
          obtain ⟨hsf, hid⟩ := byID_some hb
          obtain ⟨d, h2, h3, _, h5, h6⟩ := htab.mem sf hsf
          rw [hid] at h3
          cases hv : vs[sf.index]? with
          | none => trivial
          | some old =>
            dsimp only
            refine Wp.andThen (ih1 _ d.typ sf.a old h.type _ h6) (fun v' g' h7 => ?_) fun v' err g' h7 => ?_
            · obtain ⟨evs, rfl, h7, _⟩ := h7
              obtain ⟨tv, h7, h8, h9⟩ := h7 rfl
              have := next h7 h8 fun tfs vs' hd => .known h2 h3 hv h9 hd
              simpa [evMon] using this
            · obtain ⟨evs, rfl, _, h7⟩ := h7
              obtain ⟨u, h7, h8⟩ := h7 err rfl
              exact .err (⟨.fieldBegin, h⟩ :: evs) (by simp [evMon]) (.field .nil .nil hs h2 h3 hv h7) h8

end GoThrift
