import Verif.Proof.ThriftTest
import Verif.Proof.Chars

/-!
# The elements of the table of `TestProtocol` are fine: lemmas
-/

namespace GoThrift

open Spec Spec.TVal ThriftTest

/-- All that is asked of a value of a part of the table. -/
structure Good (env : Env) (lim : Nat) (t : TypeId) (v : GoVal) : Prop where
  hasType : HasType env t v
  sizes : SizesAtMost env lim t v
  rep : ∃ tv, Rep env t v tv
  settled : RoundTrip env t v v
  keys : KeysSurvive env t v

section
variable {env : Env} {lim : Nat} {t : TypeId}

theorem good_bool (h : (env.type t).kind = .bool) (b : Bool) : Good env lim t (.bool b) :=
  ⟨by simp [HasType, Everywhere, Shape, h], trivial, ⟨_, .leaf (.bool b h)⟩, .same (.inl ⟨b, rfl⟩), trivial⟩

theorem good_f32 (h : (env.type t).kind = .float32) {x : BitVec 32} (hx : env.narrow (env.widen x) = x) : Good env lim t (.f32 x) :=
  ⟨by simp [HasType, Everywhere, Shape, h], trivial, ⟨_, .leaf (.f32 x h)⟩, by have := RoundTrip.f32 (env := env) (t := t) x; rwa [hx] at this, trivial⟩

theorem good_f64 (h : (env.type t).kind = .float64) (x : BitVec 64) : Good env lim t (.f64 x) :=
  ⟨by simp [HasType, Everywhere, Shape, h], trivial, ⟨_, .leaf (.f64 x h)⟩, .same (by simp), trivial⟩

theorem good_i16 (h : (env.type t).kind = .int16) (x : BitVec 16) : Good env lim t (.i16 x) :=
  ⟨by simp [HasType, Everywhere, Shape, h], trivial, ⟨_, .leaf (.i16 x (.inl h))⟩, .same (by simp), trivial⟩

theorem good_i32 (h : (env.type t).kind = .int32) (x : BitVec 32) : Good env lim t (.i32 x) :=
  ⟨by simp [HasType, Everywhere, Shape, h], trivial, ⟨_, .leaf (.i32 x (.inl h))⟩, .same (by simp), trivial⟩

theorem good_i64 (h : (env.type t).kind = .int64) (x : BitVec 64) : Good env lim t (.i64 x) :=
  ⟨by simp [HasType, Everywhere, Shape, h], trivial, ⟨_, .leaf (.i64 x (.inl h))⟩, .same (by simp), trivial⟩

theorem good_str (h : (env.type t).kind = .string) {b : Bytes} (hb : b.length ≤ lim) : Good env lim t (.str b) :=
  ⟨by simp [HasType, Everywhere, Shape, h], hb, ⟨_, .leaf (.str b h)⟩, .same (by simp), trivial⟩

theorem good_uuid (h : (env.type t).kind = .uuid) {b : Bytes} (hb : b.length = 16) : Good env lim t (.uuid b) :=
  ⟨by simp [HasType, Everywhere, Shape, h, hb], trivial, ⟨_, .leaf (.uuid b h)⟩, .same (by simp), trivial⟩

theorem good_bytes {e : TypeId} (h : (env.type t).kind = .slice e) (ha : (env.type t).asBytes = true) {b : Bytes} (hb : b.length ≤ lim) (hn : b ≠ []) : Good env lim t (.bytes (some b)) :=
  ⟨by simp [HasType, Everywhere, Shape, h, ha], hb, ⟨_, .leaf (.bytes _ h ha)⟩, .same (by simp [hn]), trivial⟩

theorem good_ptr {e : TypeId} (h : (env.type t).kind = .ptr e) {v : GoVal} (hv : Good env lim e v) : Good env lim t (.ptr v) := by
  have he := elemType_ptr h
  refine ⟨⟨by simp [Shape, h], ?_⟩, ⟨trivial, ?_⟩, ?_, .ptr ?_, ⟨trivial, ?_⟩⟩
  · rw [he]; exact hv.hasType
  · rw [he]; exact hv.sizes
  · obtain ⟨tv, hr⟩ := hv.rep; exact ⟨tv, .ptr h hr⟩
  · rw [he]; exact hv.settled
  · rw [he]; exact hv.keys

theorem good_sliceNil {e : TypeId} {w : WType} (h : (env.type t).kind = .slice e) (ha : (env.type t).asBytes = false) (hw : WireTypeOf env e w) : Good env lim t .sliceNil :=
  ⟨by simp [HasType, Everywhere, Shape, h, ha], trivial, rep_slice h ha (.inl rfl) hw (by simp [elemsOf]), .emptySlice (.inl rfl), trivial⟩

theorem everywhereElems {P : TypeId → GoVal → Prop} {e : TypeId} {es : List GoVal} (h : ∀ x ∈ es, Everywhere env P e x) : EverywhereElems env P e es := by
  induction es with
  | nil => trivial
  | cons x es ih => exact ⟨h x (by simp), ih fun y hy => h y (by simp [hy])⟩

theorem good_slice {e : TypeId} {w : WType} (h : (env.type t).kind = .slice e) (ha : (env.type t).asBytes = false) (hw : WireTypeOf env e w) {es sp : List GoVal} (hn : es ≠ []) (hl : es.length ≤ lim)
    (hes : ∀ x ∈ es, Good env lim e x) : Good env lim t (.slice es sp) := by
  have he := elemType_slice h
  refine ⟨⟨by simp [Shape, h, ha], ?_⟩, ⟨hl, ?_⟩, rep_slice h ha (.inr ⟨_, _, rfl⟩) hw fun x hx => (hes x hx).rep, .slice hn rfl fun i x x' h1 h2 => ?_, ⟨trivial, ?_⟩⟩
  · rw [he]; exact everywhereElems fun x hx => (hes x hx).hasType
  · rw [he]; exact everywhereElems fun x hx => (hes x hx).sizes
  · cases h1.symm.trans h2; rw [he]; exact (hes x (List.mem_of_getElem? h1)).settled
  · rw [he]; exact everywhereElems fun x hx => (hes x hx).keys

theorem good_mapNil {k e : TypeId} {kw ew : WType} (h : (env.type t).kind = .map k e) (h1 : WireTypeOf env k kw) (h2 : WireTypeOf env e ew) : Good env lim t .mapNil :=
  ⟨by simp [HasType, Everywhere, Shape, h], trivial, rep_map h (.inl rfl) h1 h2 (by simp [entriesOf]), .emptyMap (.inl rfl), trivial⟩

theorem everywhereEntries {P : TypeId → GoVal → Prop} {k e : TypeId} {es : List (GoVal × GoVal)} (h : ∀ x ∈ es, Everywhere env P k x.1 ∧ Everywhere env P e x.2) : EverywhereEntries env P k e es := by
  induction es with
  | nil => trivial
  | cons x es ih => exact ⟨(h x (by simp)).1, (h x (by simp)).2, ih fun y hy => h y (by simp [hy])⟩

theorem good_map {k e : TypeId} {kw ew : WType} (h : (env.type t).kind = .map k e) (h1 : WireTypeOf env k kw) (h2 : WireTypeOf env e ew) {es : List (GoVal × GoVal)} (hn : es ≠ []) (hl : es.length ≤ lim)
    (hes : ∀ x ∈ es, Good env lim k x.1 ∧ Good env lim e x.2)
    (hk : ∀ (i j : Nat) (x y : GoVal × GoVal), i < j → es[i]? = some x → es[j]? = some y → PlainKey x.1 ∧ PlainKey y.1 ∧ y.1.keyEq x.1 = false) : Good env lim t (.map es) := by
  have he := elemType_map h
  have hke := keyType_map h
  refine ⟨⟨by simp [Shape, h], ?_⟩, ⟨hl, ?_⟩, rep_map h (.inr ⟨_, rfl⟩) h1 h2 fun x hx => ⟨(hes x hx).1.rep, (hes x hx).2.rep⟩, .map hn rfl (fun i x x' h1 h2 => ?_) (fun i x x' h1 h2 => ?_), ⟨?_, ?_⟩⟩
  · rw [he, hke]; exact everywhereEntries fun x hx => ⟨(hes x hx).1.hasType, (hes x hx).2.hasType⟩
  · rw [he, hke]; exact everywhereEntries fun x hx => ⟨(hes x hx).1.sizes, (hes x hx).2.sizes⟩
  · cases h1.symm.trans h2; rw [hke]; exact (hes x (List.mem_of_getElem? h1)).1.settled
  · cases h1.symm.trans h2; rw [he]; exact (hes x (List.mem_of_getElem? h1)).2.settled
  · intro i j x y x' y' hij hx hy g1 g2
    obtain ⟨p1, p2, p3⟩ := hk i j x y hij hx hy
    rw [p1.same g1, p2.same g2]
    exact p3
  · rw [he, hke]; exact everywhereEntries fun x hx => ⟨(hes x hx).1.keys, (hes x hx).2.keys⟩

/-! ## Structs -/

/-- A field that takes part, of a supported type. -/
structure GoodField (env : Env) (f : FieldDecl) (id : BitVec 16) (required : Bool) : Prop where
  declares : Declares env f id required
  wire : ∃ w, WireTypeOf env f.typ w
  acc : Acc (InPart env) f.typ
  tag : f.tag ≠ none

/-- The fields of a struct with their values: either the value is fine and, if it is reported zero, required, or it is the zero value and not required. -/
inductive GoodFields (env : Env) (lim : Nat) : List FieldDecl → List GoVal → List (BitVec 16) → Prop where
  | nil : GoodFields env lim [] [] []
  | written {f : FieldDecl} {fs : List FieldDecl} {v : GoVal} {vs : List GoVal} {id : BitVec 16} {ids : List (BitVec 16)} {required : Bool} : GoodField env f id required →
      Good env lim f.typ v → (required = true ∨ reportsZero env f.typ v = false) → GoodFields env lim fs vs ids → GoodFields env lim (f :: fs) (v :: vs) (id :: ids)
  | omitted {f : FieldDecl} {fs : List FieldDecl} {vs : List GoVal} {id : BitVec 16} {ids : List (BitVec 16)} : GoodField env f id false →
      HasType env f.typ (env.zero f.typ) → SizesAtMost env lim f.typ (env.zero f.typ) → KeysSurvive env f.typ (env.zero f.typ) → reportsZero env f.typ (env.zero f.typ) = true →
      GoodFields env lim fs vs ids → GoodFields env lim (f :: fs) (env.zero f.typ :: vs) (id :: ids)

theorem good_struct {fs : List FieldDecl} {vs : List GoVal} {ids : List (BitVec 16)} (h : (env.type t).kind = .struct fs) (hne : fs ≠ []) (hv : GoodFields env lim fs vs ids) :
    Good env lim t (.struct vs) := by
  have hf := fields_struct h
  have hlen : vs.length = fs.length := by clear h hf hne; induction hv <;> simp_all
  have h1 : EverywhereFields env (Shape env) fs vs := by
    clear h hf hne hlen
    induction hv with
    | nil => trivial
    | written _ h _ _ ih => exact ⟨h.hasType, ih⟩
    | omitted _ h _ _ _ _ ih => exact ⟨h, ih⟩
  have h2 : ∀ (P : TypeId → GoVal → Prop), (∀ t v, Good env lim t v → Everywhere env P t v) → (∀ t, SizesAtMost env lim t (env.zero t) → KeysSurvive env t (env.zero t) → Everywhere env P t (env.zero t)) →
      EverywhereFields env P fs vs := by
    clear h hf hne hlen h1
    intro P p1 p2
    induction hv with
    | nil => trivial
    | written _ h _ _ ih => exact ⟨p1 _ _ h, ih⟩
    | omitted _ _ h1 h2 _ _ ih => exact ⟨p2 _ h1 h2, ih⟩
  have h3 : ∀ f ∈ fs, ∃ id r, GoodField env f id r := by
    clear h hf hne hlen h1 h2
    induction hv with
    | nil => simp
    | written h _ _ _ ih => intro f hf; rcases List.mem_cons.1 hf with rfl | hf; exact ⟨_, _, h⟩; exact ih f hf
    | omitted h _ _ _ _ _ ih => intro f hf; rcases List.mem_cons.1 hf with rfl | hf; exact ⟨_, _, h⟩; exact ih f hf
  have h4 : ∀ (i : Nat) f v, fs[i]? = some f → vs[i]? = some v → (Good env lim f.typ v ∧ Written env f v) ∨ (v = env.zero f.typ ∧ ¬ Written env f v) := by
    clear h hf hne hlen h1 h2 h3
    induction hv with
    | nil => simp
    | @written f fs v vs id ids r h1 h2 h3 _ ih =>
      intro i f' v' hf' hv'
      cases i with
      | zero => cases hf'; cases hv'; exact .inl ⟨h2, id, _, h1.declares, h3⟩
      | succ i => exact ih i f' v' hf' hv'
    | @omitted f fs vs id ids h1 _ _ _ h2 _ ih =>
      intro i f' v' hf' hv'
      cases i with
      | zero =>
        cases hf'; cases hv'
        refine .inr ⟨rfl, ?_⟩
        rintro ⟨id', r', d, hr⟩
        have := (d.unique h1.declares).2
        subst this
        rcases hr with hr | hr
        · cases hr
        · rw [h2] at hr; cases hr
      | succ i => exact ih i f' v' hf' hv'
  refine ⟨⟨by simp [Shape, h, hlen], by rw [hf]; exact h1⟩, ⟨trivial, ?_⟩, rep_struct h hlen ⟨fun f hf => ?_, fun f hf _ => ?_, fun _ => ?_⟩ fun i f v hf hv hw => ?_, .struct rfl (fun i f v v' hf' hv hv' hw => ?_)
    (fun i f v v' hf' hv hv' hw => ?_), ⟨trivial, ?_⟩⟩
  · rw [hf]; exact h2 _ (fun _ _ h => h.sizes) (fun _ h _ => h)
  · obtain ⟨id, r, g⟩ := h3 f hf
    obtain ⟨w, hw⟩ := g.wire
    exact .inr ⟨id, r, w, g.declares, hw⟩
  · obtain ⟨id, r, g⟩ := h3 f hf
    exact g.acc
  · obtain ⟨f, hf⟩ := List.exists_mem_of_ne_nil _ hne
    obtain ⟨id, r, g⟩ := h3 f hf
    exact ⟨f, hf, g.tag⟩
  · rcases h4 i f v hf hv with h | h
    · exact h.1.rep
    · exact absurd hw h.2
  · cases hv.symm.trans hv'
    rw [hf] at hf'
    rcases h4 i f v hf' hv with h | h
    · exact h.1.settled
    · exact absurd hw h.2
  · cases hv.symm.trans hv'
    rw [hf] at hf'
    rcases h4 i f v hf' hv with h | h
    · exact absurd h.2 hw
    · exact h.1
  · rw [hf]; exact h2 _ (fun _ _ h => h.keys) (fun _ _ h => h)

end

/-! ## The fields and types of the table -/

theorem declares_plain {env : Env} {name : Bytes} {digits : Bytes} {t : TypeId} {id : BitVec 16} (h1 : digits ≠ []) (h2 : ∀ d ∈ digits, 0x30 ≤ d.toNat ∧ d.toNat ≤ 0x39) (h3 : id.toInt = decimal digits) :
    Declares env ⟨name, true, some digits, t⟩ id false := by
  refine ⟨rfl, fun h => ?_, digits, [], by simp, ⟨digits, h1, h2, .inl ⟨rfl, h3⟩⟩, by simp, by simp, by simp⟩
  have := h2 0x2d (by rw [show digits = [0x2d] from h]; simp)
  exact absurd this (by decide)

theorem declares_required {env : Env} {name : Bytes} {digits : Bytes} {t : TypeId} {id : BitVec 16} (hu : ∀ b ∈ requiredText, env.unicode.isLetter b.toNat = true) (h1 : digits ≠ [])
    (h2 : ∀ d ∈ digits, 0x30 ≤ d.toNat ∧ d.toNat ≤ 0x39) (h3 : id.toInt = decimal digits) :
    Declares env ⟨name, true, some (digits ++ 0x2c :: requiredText), t⟩ id true := by
  have hall : ∀ s : Bytes, (∀ b ∈ s, b.toNat < 0x80 ∧ env.unicode.isLetter b.toNat = true) → AllRunes (fun r => r == 0x5f || env.unicode.isLetter r || env.unicode.isNumber r) s := by
    intro s
    induction s with
    | nil => exact fun _ => .nil
    | cons b s ih =>
      intro h
      have hb := h b (by simp)
      have hd : Utf8.decodeRune (b :: s) = (b.toNat, 1) := Utf8.decodeRune_ascii _ _ hb.1
      refine .cons (by simp) ?_ ?_
      · rw [hd]; simp [hb.2]
      · rw [hd]; exact ih fun c hc => h c (by simp [hc])
  have hreq : ∀ b ∈ requiredText, b.toNat < 0x80 ∧ env.unicode.isLetter b.toNat = true := fun b hb => ⟨(by
    have : ∀ b ∈ requiredText, b.toNat < 0x80 := by decide
    exact this b hb), hu b hb⟩
  refine ⟨rfl, fun h => ?_, digits, [requiredText], by simp, ⟨digits, h1, h2, .inl ⟨rfl, h3⟩⟩, fun o ho => ?_, by simp, by simp⟩
  · have := congrArg List.length h
    simp [requiredText] at this
  · rw [List.mem_singleton] at ho
    subst ho
    refine ⟨⟨by decide, .inr ?_, hall _ hreq⟩, fun h => h.1 rfl⟩
    rw [requiredText, Utf8.decodeRune_ascii _ _ (by decide)]
    exact hu _ (by decide)

theorem distinct_of {env : Env} {t : TypeId} {fs : List FieldDecl} {ids : List (BitVec 16)} (h : (env.type t).kind = .struct fs) (hn : ids.Nodup)
    (hids : ∀ (i : Nat) f, fs[i]? = some f → ∃ id r, ids[i]? = some id ∧ Declares env f id r) : DistinctIds env t := by
  intro i j f g id r r' hf hg h1 h2
  rw [fields_struct h] at hf hg
  obtain ⟨id1, r1, e1, d1⟩ := hids i f hf
  obtain ⟨id2, r2, e2, d2⟩ := hids j g hg
  have a1 := (h1.unique d1).1
  have a2 := (h2.unique d2).1
  subst a1
  subst a2
  exact (List.getElem?_inj (List.getElem?_eq_some_iff.1 e1).1 hn).1 (e1.trans e2.symm)

theorem acc_leaf {env : Env} {t : TypeId} (h : ∀ t', ¬ InPart env t' t) : Acc (InPart env) t := ⟨_, fun t' ht => absurd ht (h t')⟩

/-- The parts of a type. -/
def parts : Kind → List Nat
  | .map k e => [k, e]
  | .slice e => [e]
  | .ptr e => [e]
  | .struct fs => fs.map fun f => f.typ
  | _ => []

section
variable {env : Env} {lim : Nat} (hp : TestProgram env)
include hp

/-- What the types are. -/
theorem Spec.TestProgram.kind {t : Nat} (h : t < 40) : (env.type t).kind = (ThriftTest.type t).kind := by rw [hp.types t h]

theorem Spec.TestProgram.asBytes {t : Nat} (h : t < 40) : (env.type t).asBytes = (ThriftTest.type t).asBytes := by rw [hp.types t h]

theorem Spec.TestProgram.reports {t : Nat} (h : t < 40) (v : GoVal) : reportsZero env t v = v.isZero (env.negZero t) := by simp only [reportsZero, hp.noIsZero t h]

theorem Spec.TestProgram.within {t t' : Nat} (ht : t < 40) (h : Within env t' t) : t' < 40 := by
  induction h with
  | refl => exact ht
  | @step t' t _ h ih =>
    refine ih ?_
    unfold PartOf at h
    rw [hp.types t ht] at h
    have hmem : t' ∈ parts (ThriftTest.type t).kind := by
      generalize (ThriftTest.type t).kind = k at h
      cases k with
      | map k e => simpa [parts] using h
      | slice e => simpa [parts] using h.2
      | ptr e => simpa [parts] using h
      | struct fs => simpa [parts] using h
      | _ => exact h.elim
    have : ∀ t, t < 40 → ∀ t' ∈ parts (ThriftTest.type t).kind, t' < 40 := by decide +kernel
    exact this t ht t' hmem

/-- Types without parts, or containers of such. -/
theorem Spec.TestProgram.acc {t : Nat} (h : t < 40) (hs : t < 30 ∨ t = 33) : Acc (InPart env) t := by
  have leaf : ∀ t : Nat, t < 40 → (∀ t', ¬ InPart env t' t) → Acc (InPart env) t := fun _ _ h => acc_leaf h
  have struct : ∀ t : Nat, t < 40 → (∃ fs, (ThriftTest.type t).kind = .struct fs) → Acc (InPart env) t := fun t ht ⟨fs, h⟩ => acc_leaf fun t' hi => hi.2 ⟨fs, by rw [hp.kind ht, h]⟩
  have plain : ∀ t : Nat, t < 40 → (∀ t', ¬ PartOf env t' t) → Acc (InPart env) t := fun t ht h => acc_leaf fun t' hi => h t' hi.1
  have b10 : Acc (InPart env) 10 := plain 10 (by decide) fun t' h => by simp [PartOf, hp.types 10 (by decide), ThriftTest.type] at h
  have b16 : Acc (InPart env) 16 := plain 16 (by decide) fun t' h => by simp [PartOf, hp.types 16 (by decide), ThriftTest.type] at h
  have up : ∀ t, (∀ t', PartOf env t' t → Acc (InPart env) t') → Acc (InPart env) t := fun t h => ⟨_, fun t' hi => h t' hi.1⟩
  have key : ∀ t : Nat, t < 40 → (t < 30 ∨ t = 33) → Acc (InPart env) t := by
    intro t h hs
    match t, h, hs with
    | 0, h, _ => exact struct _ h ⟨_, rfl⟩
    | 1, h, _ => exact struct _ h ⟨_, rfl⟩
    | 2, h, _ => exact struct _ h ⟨_, rfl⟩
    | 3, h, _ => exact struct _ h ⟨_, rfl⟩
    | 4, h, _ => exact struct _ h ⟨_, rfl⟩
    | 5, h, _ => exact struct _ h ⟨_, rfl⟩
    | 6, h, _ => exact struct _ h ⟨_, rfl⟩
    | 7, h, _ => exact struct _ h ⟨_, rfl⟩
    | 8, h, _ => exact struct _ h ⟨_, rfl⟩
    | 9, h, _ => exact struct _ h ⟨_, rfl⟩
    | 33, h, _ =>
      refine up _ fun t' ht => ?_
      simp [PartOf, hp.types 33 h, ThriftTest.type] at ht
      rw [ht]
      exact struct 3 (by decide) ⟨_, rfl⟩
    | 19, h, _ =>
      refine up _ fun t' ht => ?_
      simp [PartOf, hp.types 19 h, ThriftTest.type] at ht
      rw [ht]; exact b16
    | 25, h, _ =>
      refine up _ fun t' ht => ?_
      simp [PartOf, hp.types 25 h, ThriftTest.type] at ht
      rcases ht with rfl | rfl
      · exact b16
      · exact b10
    | 20, h, _ =>
      refine up _ fun t' ht => ?_
      simp [PartOf, hp.types 20 h, ThriftTest.type] at ht
      rw [ht.2]; exact b16
    | 21, h, _ =>
      refine up _ fun t' ht => ?_
      simp [PartOf, hp.types 21 h, ThriftTest.type] at ht
      rw [ht.2]; exact b16
    | 23, h, _ =>
      refine up _ fun t' ht => ?_
      simp [PartOf, hp.types 23 h, ThriftTest.type] at ht
      rw [ht.2]; exact b10
    | 24, h, _ =>
      refine up _ fun t' ht => ?_
      simp [PartOf, hp.types 24 h, ThriftTest.type] at ht
      rw [ht.2]; exact b10
    | 10, h, _ | 11, h, _ | 12, h, _ | 13, h, _ | 14, h, _ | 15, h, _ | 16, h, _ | 17, h, _ | 22, h, _ | 26, h, _ | 27, h, _ | 28, h, _ | 29, h, _ =>
      exact plain _ h fun t' ht => by simp [PartOf, hp.types _ h, ThriftTest.type] at ht
    | 18, h, _ => exact plain _ h fun t' ht => by simp [PartOf, hp.types _ h, ThriftTest.type, GoType.asBytes] at ht
    | 30, _, hs | 31, _, hs | 32, _, hs | 34, _, hs | 35, _, hs | 36, _, hs | 37, _, hs | 38, _, hs | 39, _, hs => omega
    | t + 40, h, _ => omega
  exact key t h hs

/-- What they are on the wire. -/
theorem Spec.TestProgram.wire {t : Nat} (h : t < 40) (hs : t < 26 ∨ t = 33) : ∃ w, WireTypeOf env t w := by
  match t, h, hs with
  | 0, h, _ | 1, h, _ | 2, h, _ | 3, h, _ | 4, h, _ | 5, h, _ | 6, h, _ | 7, h, _ | 8, h, _ | 9, h, _ => exact ⟨_, .struct (by rw [hp.kind h]; rfl)⟩
  | 10, h, _ => exact ⟨_, .bool (by rw [hp.kind h]; rfl)⟩
  | 11, h, _ => exact ⟨_, .double (.inl (by rw [hp.kind h]; rfl))⟩
  | 12, h, _ => exact ⟨_, .double (.inr (by rw [hp.kind h]; rfl))⟩
  | 13, h, _ => exact ⟨_, .i16 (.inl (by rw [hp.kind h]; rfl))⟩
  | 14, h, _ => exact ⟨_, .i32 (.inl (by rw [hp.kind h]; rfl))⟩
  | 15, h, _ => exact ⟨_, .i64 (.inl (by rw [hp.kind h]; rfl))⟩
  | 16, h, _ => exact ⟨_, .string (by rw [hp.kind h]; rfl)⟩
  | 17, h, _ => exact ⟨_, .byte (.inr (by rw [hp.kind h]; rfl))⟩
  | 18, h, _ => exact ⟨_, .bytes (by rw [hp.kind h]; rfl) (by rw [hp.asBytes h]; rfl)⟩
  | 19, h, _ | 25, h, _ => exact ⟨_, .map (by rw [hp.kind h]; rfl)⟩
  | 20, h, _ | 23, h, _ => exact ⟨_, .set (by rw [hp.kind h]; rfl) (by rw [hp.types _ h]; rfl)⟩
  | 21, h, _ | 24, h, _ => exact ⟨_, .list (by rw [hp.kind h]; rfl) (by rw [hp.types _ h]; rfl) (by rw [hp.asBytes h]; rfl)⟩
  | 22, h, _ => exact ⟨_, .uuid (by rw [hp.kind h]; rfl)⟩
  | 33, h, _ => exact ⟨_, .ptr (by rw [hp.kind h]; rfl) (.struct (t := 3) (by rw [hp.kind (by decide)]; rfl))⟩
  | 26, _, hs | 27, _, hs | 28, _, hs | 29, _, hs | 30, _, hs | 31, _, hs | 32, _, hs | 34, _, hs | 35, _, hs | 36, _, hs | 37, _, hs | 38, _, hs | 39, _, hs => omega
  | t + 40, h, _ => omega

/-- Its fields. -/
theorem Spec.TestProgram.plain {name tag : String} {t : Nat} {id : BitVec 16} (ht : t < 40 ∧ (t < 26 ∨ t = 33)) (h : ascii tag ≠ [] ∧ (∀ d ∈ ascii tag, 0x30 ≤ d.toNat ∧ d.toNat ≤ 0x39) ∧ id.toInt = decimal (ascii tag)) :
    GoodField env (ThriftTest.fld name tag t) id false :=
  ⟨declares_plain h.1 h.2.1 h.2.2, hp.wire ht.1 ht.2, hp.acc (t := t) ht.1 (by omega), fun h => by cases h⟩

theorem Spec.TestProgram.required {name : String} {t : Nat} (ht : t < 40 ∧ (t < 26 ∨ t = 33)) : GoodField env (ThriftTest.fld name "1,required" t) 1 true := by
  refine ⟨?_, hp.wire ht.1 ht.2, hp.acc (t := t) ht.1 (by omega), fun h => by cases h⟩
  have : ascii "1,required" = [0x31] ++ 0x2c :: requiredText := by decide
  rw [ThriftTest.fld, this]
  exact declares_required hp.letters (by decide) (by decide) (by decide)

/-- Its structs have distinct field ids. -/
theorem Spec.TestProgram.distinct {t : Nat} (h : t < 40) : DistinctIds env t := by
  have one : ∀ {t : TypeId} {f : FieldDecl}, (env.type t).kind = .struct [f] → DistinctIds env t := by
    intro t f hk i j f' g id r r' hf hg _ _
    rw [fields_struct hk] at hf hg
    have h1 := (List.getElem?_eq_some_iff.1 hf).1
    have h2 := (List.getElem?_eq_some_iff.1 hg).1
    simp at h1 h2
    omega
  have none : ∀ {t : TypeId}, (∀ fs, (env.type t).kind ≠ .struct fs) → DistinctIds env t := by
    intro t hk i j f' g id r r' hf hg _ _
    unfold Env.fields at hf
    split at hf
    · rename_i fs h; exact absurd h (hk fs)
    · cases hf
  match t, h with
  | 0, h | 4, h | 5, h | 6, h | 7, h | 9, h => exact one (by rw [hp.kind h]; rfl)
  | 1, h =>
    refine distinct_of (ids := [1, 2]) (by rw [hp.kind h]; rfl) (by decide) fun i f hf => ?_
    match i with
    | 0 => cases hf; exact ⟨1, false, rfl, (hp.plain (by decide) (by decide)).declares⟩
    | 1 => cases hf; exact ⟨2, false, rfl, (hp.plain (by decide) (by decide)).declares⟩
    | i + 2 => cases hf
  | 2, h =>
    refine distinct_of (ids := [1, 2, 3]) (by rw [hp.kind h]; rfl) (by decide) fun i f hf => ?_
    match i with
    | 0 => cases hf; exact ⟨1, false, rfl, (hp.plain (by decide) (by decide)).declares⟩
    | 1 => cases hf; exact ⟨2, false, rfl, (hp.plain (by decide) (by decide)).declares⟩
    | 2 => cases hf; exact ⟨3, false, rfl, (hp.plain (by decide) (by decide)).declares⟩
    | i + 3 => cases hf
  | 3, h =>
    refine distinct_of (ids := [1, 2, 3]) (by rw [hp.kind h]; rfl) (by decide) fun i f hf => ?_
    match i with
    | 0 => cases hf; exact ⟨1, false, rfl, (hp.plain (by decide) (by decide)).declares⟩
    | 1 => cases hf; exact ⟨2, false, rfl, (hp.plain (by decide) (by decide)).declares⟩
    | 2 => cases hf; exact ⟨3, false, rfl, (hp.plain (by decide) (by decide)).declares⟩
    | i + 3 => cases hf
  | 8, h =>
    refine distinct_of (ids := [32, 64]) (by rw [hp.kind h]; rfl) (by decide) fun i f hf => ?_
    match i with
    | 0 => cases hf; exact ⟨32, false, rfl, (hp.plain (by decide) (by decide)).declares⟩
    | 1 => cases hf; exact ⟨64, false, rfl, (hp.plain (by decide) (by decide)).declares⟩
    | i + 2 => cases hf
  | 10, h | 11, h | 12, h | 13, h | 14, h | 15, h | 16, h | 17, h | 18, h | 19, h | 20, h | 21, h | 22, h | 23, h | 24, h | 25, h | 26, h | 27, h | 28, h | 29, h | 30, h | 31, h | 32, h | 33, h
  | 34, h | 35, h | 36, h | 37, h | 38, h | 39, h => exact none fun fs hk => by rw [hp.kind h] at hk; cases hk
  | t + 40, h => omega

/-- What remains to be shown of an element of the table. -/
theorem Spec.TestProgram.caseOK {tt : ThriftTest.Case} (ht : tt.t < 10) (hpt : (ThriftTest.type tt.p).kind = .ptr tt.t) (hp40 : tt.p < 40) (h40 : tt.t < 40) (hk : ∃ fs, (ThriftTest.type tt.t).kind = .struct fs)
    (hv : Good env lim tt.t tt.val) (hname : tt.name.length ≤ lim) (hm : tt.hasMap = false → SmallMaps tt.val) : CaseOK env lim tt where
  kind := by obtain ⟨fs, h⟩ := hk; exact ⟨fs, by rw [hp.kind h40, h]⟩
  ptr := by rw [hp.kind hp40, hpt]
  acc := hp.acc h40 (.inl (Nat.lt_of_lt_of_le ht (by decide)))
  distinct t' h := hp.distinct (hp.within h40 h)
  noIsZero t' h := hp.noIsZero t' (hp.within h40 h)
  hasType := hv.hasType
  rep := hv.rep
  sizes := hv.sizes
  name := hname
  settled := hv.settled
  keys := hv.keys
  maps := hm

end

end GoThrift
