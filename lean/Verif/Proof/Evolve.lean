import Verif.Proof.CanonRep
import Verif.Proof.Keep
import Verif.Proof.DecTotal
import Verif.Spec.Evolve

/-!
# Writing with one type and reading with another: lemmas
-/

namespace GoThrift

open Spec Spec.TVal

/-! ## Compatible types -/

theorem CompatStep.imp {env : Env} {R R' : TypeId → TypeId → Prop} (h : ∀ a b, R a b → R' a b) {t u : TypeId} (hs : CompatStep env R t u) : CompatStep env R' t u := by
  cases hs with
  | same => exact .same _
  | scalar w h1 h2 h3 => exact .scalar w h1 h2 h3
  | ptrL h1 h2 => exact .ptrL h1 (h _ _ h2)
  | ptrR h1 h2 => exact .ptrR h1 (h _ _ h2)
  | set h1 h2 h3 h4 h5 => exact .set h1 h2 h3 h4 (h _ _ h5)
  | list h1 h2 h3 h4 h5 h6 h7 => exact .list h1 h2 h3 h4 h5 h6 (h _ _ h7)
  | map h1 h2 h3 => exact .map h1 h2 (h _ _ h3)
  | struct h1 h2 h3 => exact .struct h1 h2 fun f hf g hg id r r' d d' => h _ _ (h3 f hf g hg id r r' d d')

theorem Spec.Compatible.step {env : Env} {t u : TypeId} (h : Compatible env t u) : CompatStep env (Compatible env) t u := by
  obtain ⟨R, h1, h2⟩ := h
  exact CompatStep.imp (fun a b hab => ⟨R, h1, hab⟩) (h1 _ _ h2)

theorem compatible_of {env : Env} {R : TypeId → TypeId → Prop} (h : ∀ a b, R a b → CompatStep env (fun a b => R a b ∨ Compatible env a b) a b) {t u : TypeId} (ht : R t u) : Compatible env t u :=
  ⟨fun a b => R a b ∨ Compatible env a b, fun a b hab => hab.elim (h a b) fun hc => CompatStep.imp (fun _ _ => .inr) hc.step, .inl ht⟩

theorem compatible_of_step {env : Env} {t u : TypeId} (h : CompatStep env (Compatible env) t u) : Compatible env t u :=
  compatible_of (R := fun a b => a = t ∧ b = u) (fun a b hab => by obtain ⟨rfl, rfl⟩ := hab; exact CompatStep.imp (fun _ _ => .inr) h) ⟨rfl, rfl⟩

theorem compatible_refl (env : Env) (t : TypeId) : Compatible env t t := compatible_of_step (.same t)

theorem wireTypeOf_ptr {env : Env} {t e : TypeId} {w : WType} (h : WireTypeOf env t w) (hk : (env.type t).kind = .ptr e) : WireTypeOf env e w := by
  cases h with
  | ptr hk' h => rw [hk] at hk'; cases hk'; exact h
  | _ => simp_all

theorem Spec.Compatible.stripR {env : Env} {t u e : TypeId} (h : Compatible env t u) (hk : (env.type u).kind = .ptr e) : Compatible env t e := by
  refine compatible_of (R := fun a b => ∃ p, (env.type p).kind = .ptr b ∧ Compatible env a p) (fun a b hab => ?_) ⟨u, hk, h⟩
  obtain ⟨p, hp, hc⟩ := hab
  cases hc.step with
  | same => exact .ptrL hp (.inr (compatible_refl env b))
  | scalar w h1 h2 h3 => exact .scalar w h1 h2 (wireTypeOf_ptr h3 hp)
  | ptrL h1 h2 => exact .ptrL h1 (.inl ⟨p, hp, h2⟩)
  | ptrR h1 h2 => rw [hp] at h1; cases h1; exact CompatStep.imp (fun _ _ => .inr) h2.step
  | set _ _ h1 => rw [hp] at h1; cases h1
  | list _ _ _ h1 => rw [hp] at h1; cases h1
  | map _ h1 => rw [hp] at h1; cases h1
  | struct _ h1 => rw [hp] at h1; cases h1

theorem Spec.Compatible.stripL {env : Env} {t u e : TypeId} (h : Compatible env t u) (hk : (env.type t).kind = .ptr e) : Compatible env e u := by
  refine compatible_of (R := fun a b => ∃ p, (env.type p).kind = .ptr a ∧ Compatible env p b) (fun a b hab => ?_) ⟨t, hk, h⟩
  obtain ⟨p, hp, hc⟩ := hab
  cases hc.step with
  | same => exact .ptrR hp (.inr (compatible_refl env a))
  | scalar w h1 h2 h3 => exact .scalar w h1 (wireTypeOf_ptr h2 hp) h3
  | ptrR h1 h2 => exact .ptrR h1 (.inl ⟨p, hp, h2⟩)
  | ptrL h1 h2 => rw [hp] at h1; cases h1; exact CompatStep.imp (fun _ _ => .inr) h2.step
  | set h1 => rw [hp] at h1; cases h1
  | list h1 => rw [hp] at h1; cases h1
  | map h1 => rw [hp] at h1; cases h1
  | struct h1 => rw [hp] at h1; cases h1

theorem not_scalar {env : Env} {t : TypeId} {w w' : WType} (hw : w ∈ scalars) (h : WireTypeOf env t w) (h' : WireTypeOf env t w') (hn : w' ∉ scalars) : False :=
  hn (wireTypeOf_unique h h' ▸ hw)

theorem Spec.Compatible.slice {env : Env} {t u e e' : TypeId} (h : Compatible env t u) (h1 : (env.type t).kind = .slice e) (h2 : (env.type u).kind = .slice e') (hb : (env.type t).asBytes = false) :
    Compatible env e e' ∧ (env.type t).isSet = (env.type u).isSet := by
  have hs := h.step
  cases hs with
  | same => rw [h1] at h2; cases h2; exact ⟨compatible_refl env _, rfl⟩
  | scalar w hw h3 h4 =>
    cases hset : (env.type t).isSet with
    | true => exact (not_scalar hw h3 (.set h1 hset) (by decide)).elim
    | false => exact (not_scalar hw h3 (.list h1 hset hb) (by decide)).elim
  | ptrL h3 => rw [h1] at h3; cases h3
  | ptrR h3 => rw [h2] at h3; cases h3
  | set h3 h4 h5 h6 h7 => rw [h1] at h3; cases h3; rw [h2] at h5; cases h5; exact ⟨h7, h4.trans h6.symm⟩
  | list h3 h4 _ h5 h6 _ h7 => rw [h1] at h3; cases h3; rw [h2] at h5; cases h5; exact ⟨h7, h4.trans h6.symm⟩
  | map h3 => rw [h1] at h3; cases h3
  | struct h3 => rw [h1] at h3; cases h3

theorem Spec.Compatible.map {env : Env} {t u k e k' e' : TypeId} (h : Compatible env t u) (h1 : (env.type t).kind = .map k e) (h2 : (env.type u).kind = .map k' e') : k = k' ∧ Compatible env e e' := by
  have hs := h.step
  cases hs with
  | same => rw [h1] at h2; cases h2; exact ⟨rfl, compatible_refl env _⟩
  | scalar w hw h3 h4 => exact (not_scalar hw h3 (.map h1) (by decide)).elim
  | ptrL h3 => rw [h1] at h3; cases h3
  | ptrR h3 => rw [h2] at h3; cases h3
  | set h3 => rw [h1] at h3; cases h3
  | list h3 => rw [h1] at h3; cases h3
  | map h3 h4 h5 => rw [h1] at h3; cases h3; rw [h2] at h4; cases h4; exact ⟨rfl, h5⟩
  | struct h3 => rw [h1] at h3; cases h3

theorem Spec.Compatible.struct {env : Env} {t u : TypeId} {fs gs : List FieldDecl} (h : Compatible env t u) (h1 : (env.type t).kind = .struct fs) (h2 : (env.type u).kind = .struct gs)
    (hd : DistinctIds env t) {f g : FieldDecl} (hf : f ∈ fs) (hg : g ∈ gs) {id : BitVec 16} {r r' : Bool} (d : Declares env f id r) (d' : Declares env g id r') : Compatible env f.typ g.typ := by
  have hs := h.step
  cases hs with
  | same =>
    rw [h1] at h2
    cases h2
    obtain ⟨i, hi⟩ := List.getElem?_of_mem hf
    obtain ⟨j, hj⟩ := List.getElem?_of_mem hg
    rw [← fields_struct h1] at hi hj
    have := hd i j f g id r r' hi hj d d'
    subst this
    cases hi.symm.trans hj
    exact compatible_refl env _
  | scalar w hw h3 h4 => exact (not_scalar hw h3 (.struct h1) (by decide)).elim
  | ptrL h3 => rw [h1] at h3; cases h3
  | ptrR h3 => rw [h2] at h3; cases h3
  | set h3 => rw [h1] at h3; cases h3
  | list h3 => rw [h1] at h3; cases h3
  | map h3 => rw [h1] at h3; cases h3
  | struct h3 h4 h5 => rw [h1] at h3; cases h3; rw [h2] at h4; cases h4; exact h5 f hf g hg id r r' d d'

theorem inPart_ptr {env : Env} {t e : TypeId} (h : (env.type t).kind = .ptr e) : InPart env e t := ⟨partOf_ptr h, by simp [IsStruct, h]⟩
theorem inPart_slice {env : Env} {t e : TypeId} (h : (env.type t).kind = .slice e) (hb : (env.type t).asBytes = false) : InPart env e t := ⟨partOf_slice ⟨h, hb⟩, by simp [IsStruct, h]⟩
theorem inPart_key {env : Env} {t k e : TypeId} (h : (env.type t).kind = .map k e) : InPart env k t := ⟨partOf_key h, by simp [IsStruct, h]⟩
theorem inPart_value {env : Env} {t k e : TypeId} (h : (env.type t).kind = .map k e) : InPart env e t := ⟨partOf_value h, by simp [IsStruct, h]⟩

theorem Spec.Compatible.wire_aux {env : Env} {t u : TypeId} {w : WType} (h : Compatible env t u) (hw : WireTypeOf env t w) (hn : ∀ e, (env.type t).kind ≠ .ptr e) (hacc : Acc (InPart env) u) :
    WireTypeOf env u w := by
  induction hacc with
  | intro u _ ih =>
    cases h.step with
    | same => exact hw
    | scalar w' h1 h2 h3 => rw [wireTypeOf_unique hw h2]; exact h3
    | ptrL h1 => exact absurd h1 (hn _)
    | ptrR h1 h2 => exact .ptr h1 (ih _ (inPart_ptr h1) h2)
    | set h1 h2 h3 h4 => rw [wireTypeOf_unique hw (.set h1 h2)]; exact .set h3 h4
    | list h1 h2 h3 h4 h5 h6 => rw [wireTypeOf_unique hw (.list h1 h2 h3)]; exact .list h4 h5 h6
    | map h1 h2 => rw [wireTypeOf_unique hw (.map h1)]; exact .map h2
    | struct h1 h2 => rw [wireTypeOf_unique hw (.struct h1)]; exact .struct h2

/-- Compatible types have the same wire type. -/
theorem Spec.Compatible.wire {env : Env} {t u : TypeId} {w : WType} (h : Compatible env t u) (hw : WireTypeOf env t w) (hacc : Acc (InPart env) u) : WireTypeOf env u w := by
  by_cases hn : ∀ e, (env.type t).kind ≠ .ptr e
  · exact h.wire_aux hw hn hacc
  · induction hw with
    | @ptr t e w hk hw ih =>
      by_cases hn' : ∀ e', (env.type e).kind ≠ .ptr e'
      · exact (h.stripL hk).wire_aux hw hn' hacc
      · exact ih (h.stripL hk) hn'
    | _ => exact absurd (fun e he => by simp_all) hn

/-! ## No wire value of the wrong type -/

/-- A wire value stands for a value that is not a pointer, too. -/
theorem Spec.Rep.strip {env : Env} {t u : TypeId} {v : GoVal} {tv : TVal} (h : Rep env t v tv) (hc : Compatible env t u) (hd : ∀ t', Within env t' t → DistinctIds env t') :
    ∃ t1 v1, (∀ e, (env.type t1).kind ≠ .ptr e) ∧ Rep env t1 v1 tv ∧ Compatible env t1 u ∧ ∀ t', Within env t' t1 → DistinctIds env t' := by
  by_cases hn : ∀ e, (env.type t).kind ≠ .ptr e
  · exact ⟨t, v, hn, h, hc, hd⟩
  · induction h with
    | @ptr t e v tv hk h ih =>
      have hd' : ∀ t', Within env t' e → DistinctIds env t' := fun t' ht' => hd t' (.step ht' (partOf_ptr hk))
      by_cases hn' : ∀ e', (env.type e).kind ≠ .ptr e'
      · exact ⟨e, v, hn', h, hc.stripL hk, hd'⟩
      · exact ih (hc.stripL hk) hd' hn'
    | @ptrNil t e tv hk h ih =>
      have hd' : ∀ t', Within env t' e → DistinctIds env t' := fun t' ht' => hd t' (.step ht' (partOf_ptr hk))
      by_cases hn' : ∀ e', (env.type e).kind ≠ .ptr e'
      · exact ⟨e, _, hn', h, hc.stripL hk, hd'⟩
      · exact ih (hc.stripL hk) hd' hn'
    | leaf h => exact absurd (fun e he => by cases h <;> simp_all) hn
    | _ => exact absurd (fun e he => by simp_all) hn

theorem not_ignored {env : Env} {f : FieldDecl} {id : BitVec 16} {r : Bool} (h : Declares env f id r) : ¬ Ignored f := by
  rintro (hi | ⟨hi, _⟩)
  · exact h.2.1 (by rw [hi]; rfl)
  · rw [h.1] at hi; cases hi

theorem set_not_bytes {g : GoType} (h : g.isSet = true) : g.asBytes = false := by simp [GoType.asBytes, h]

theorem no_mismatch {env : Env} {u t' : TypeId} {tv : TVal} {bad : WType} (hm : Mismatch env u tv bad t') {t : TypeId} {v : GoVal} (h : Rep env t v tv) (hc : Compatible env t u)
    (hd : ∀ t', Within env t' t → DistinctIds env t') (hacc : Acc (InPart env) u) (hg : AllGood env u) : False := by
  induction hm generalizing t v with
  | here hn hw => exact hw (hc.wire (rep_wireType h) hacc)
  | ptr hk _ ih => exact ih h (hc.stripR hk) hd (hacc.inv (inPart_ptr hk)) fun t' fs hw => hg t' fs (.step hw (partOf_ptr hk))
  | set hk hs hmem _ ih =>
    obtain ⟨t1, v1, hn, hr, hc, hd⟩ := h.strip hc hd
    cases hr with
    | leaf h => cases h
    | ptr h => exact hn _ h
    | ptrNil h => exact hn _ h
    | set hk1 hs1 hv hw hlen hrep =>
      obtain ⟨i, hi⟩ := List.getElem?_of_mem hmem
      obtain ⟨x, hx⟩ := pair_at hlen hi
      have hb := set_not_bytes hs
      exact ih (hrep i x _ hx hi) (hc.slice hk1 hk (set_not_bytes hs1)).1 (fun t' ht' => hd t' (.step ht' (partOf_slice ⟨hk1, set_not_bytes hs1⟩))) (hacc.inv (inPart_slice hk hb))
        fun t' fs hw => hg t' fs (.step hw (partOf_slice ⟨hk, hb⟩))
  | list hk hs hb hmem _ ih =>
    obtain ⟨t1, v1, hn, hr, hc, hd⟩ := h.strip hc hd
    cases hr with
    | leaf h => cases h
    | ptr h => exact hn _ h
    | ptrNil h => exact hn _ h
    | list hk1 hs1 hb1 hv hw hlen hrep =>
      obtain ⟨i, hi⟩ := List.getElem?_of_mem hmem
      obtain ⟨x, hx⟩ := pair_at hlen hi
      exact ih (hrep i x _ hx hi) (hc.slice hk1 hk hb1).1 (fun t' ht' => hd t' (.step ht' (partOf_slice ⟨hk1, hb1⟩))) (hacc.inv (inPart_slice hk hb))
        fun t' fs hw => hg t' fs (.step hw (partOf_slice ⟨hk, hb⟩))
  | key hk hmem _ ih =>
    obtain ⟨t1, v1, hn, hr, hc, hd⟩ := h.strip hc hd
    cases hr with
    | leaf h => cases h
    | ptr h => exact hn _ h
    | ptrNil h => exact hn _ h
    | map hk1 hv hw1 hw2 hlen hrep1 hrep2 =>
      obtain ⟨i, hi⟩ := List.getElem?_of_mem hmem
      obtain ⟨x, hx⟩ := pair_at hlen hi
      obtain ⟨rfl, _⟩ := hc.map hk1 hk
      exact ih (hrep1 i x _ hx hi) (compatible_refl env _) (fun t' ht' => hd t' (.step ht' (partOf_key hk1))) (hacc.inv (inPart_key hk)) fun t' fs hw => hg t' fs (.step hw (partOf_key hk))
  | value hk hmem _ ih =>
    obtain ⟨t1, v1, hn, hr, hc, hd⟩ := h.strip hc hd
    cases hr with
    | leaf h => cases h
    | ptr h => exact hn _ h
    | ptrNil h => exact hn _ h
    | map hk1 hv hw1 hw2 hlen hrep1 hrep2 =>
      obtain ⟨i, hi⟩ := List.getElem?_of_mem hmem
      obtain ⟨x, hx⟩ := pair_at hlen hi
      exact ih (hrep2 i x _ hx hi) (hc.map hk1 hk).2 (fun t' ht' => hd t' (.step ht' (partOf_value hk1))) (hacc.inv (inPart_value hk)) fun t' fs hw => hg t' fs (.step hw (partOf_value hk))
  | @field u t' gs n bad tf tfs g r hk hmem hgm hdg _ ih =>
    obtain ⟨t1, v1, hn, hr, hc, hd⟩ := h.strip hc hd
    cases hr with
    | leaf h => cases h
    | ptr h => exact hn _ h
    | ptrNil h => exact hn _ h
    | @struct _ fs vs _ order hk1 hlen hfs hacc1 htag hnd hord hsort hlen' hname hrep =>
      obtain ⟨j, hj⟩ := List.getElem?_of_mem hmem
      obtain ⟨i, hi⟩ := pair_at hlen' hj
      obtain ⟨f, v, hf, hv, _⟩ := (hord i).1 (List.mem_of_getElem? hi)
      obtain ⟨_, r', hdf⟩ := hname j i tf f hi hj hf
      have hgood := hg u gs (.refl u) hk
      have hpg : PartOf env g.typ u := by rw [PartOf, hk]; exact ⟨g, hgm, rfl⟩
      have hpf : PartOf env f.typ t1 := by rw [PartOf, hk1]; exact ⟨f, List.mem_of_getElem? hf, rfl⟩
      exact ih (hrep j i tf f v hi hj hf hv) (hc.struct hk1 hk (hd t1 (.refl t1)) (List.mem_of_getElem? hf) hgm hdf hdg) (fun t' ht' => hd t' (.step ht' hpf))
        (hgood.2.1 g hgm (not_ignored hdg)) fun t' fs hw => hg t' fs (.step hw hpg)

/-! ## Decoding into zero values -/

theorem decodes_ptr {env : Env} {u e : TypeId} {tv : TVal} {v' : GoVal} (h : Decodes env u (env.zero u) tv v') (hk : (env.type u).kind = .ptr e) :
    ∃ v, v' = .ptr v ∧ Decodes env e (env.zero e) tv v := by
  have hz := env.zero_eq u
  rw [hk, Kind.zero] at hz
  rw [hz] at h
  cases h with
  | ptrNil hk' h => rw [hk] at hk'; cases hk'; exact ⟨_, rfl, h⟩
  | _ => simp_all

theorem decodes_seq {env : Env} {u e : TypeId} {w : WType} {tv : TVal} {tvs : List TVal} {v' : GoVal} (h : Decodes env u (env.zero u) tv v') (hk : (env.type u).kind = .slice e)
    (hb : (env.type u).asBytes = false) (htv : tv = .set w tvs ∨ tv = .list w tvs) :
    (tvs = [] ∧ v' = .sliceNil) ∨ ∃ es sp, tvs ≠ [] ∧ v' = .slice es sp ∧ es.length = tvs.length ∧ ∀ (i : Nat) x v, tvs[i]? = some x → es[i]? = some v → Decodes env e (env.zero e) x v := by
  have hz := env.zero_eq u
  rw [hk, Kind.zero, if_neg (by simp [hb])] at hz
  rw [hz] at h
  cases h with
  | seqNil w' _ _ he => exact .inl ⟨by rcases htv with rfl | rfl <;> split at he <;> cases he <;> rfl, rfl⟩
  | @seq _ _ w' _ _ _ es sp hk' _ he hne _ hlen hall =>
    rw [hk] at hk'
    cases hk'
    refine .inr ⟨es, sp, ?_⟩
    rcases htv with rfl | rfl <;> split at he <;> cases he <;> exact ⟨hne, rfl, hlen, hall⟩
  | _ => simp_all

theorem decodes_map {env : Env} {u k e : TypeId} {kw ew : WType} {tes : List (TVal × TVal)} {v' : GoVal} (h : Decodes env u (env.zero u) (.map kw ew tes) v') (hk : (env.type u).kind = .map k e) :
    (tes = [] ∧ v' = .mapNil) ∨ ∃ es, tes ≠ [] ∧ v' = .map es ∧ DecodesEntries env k e [] tes es := by
  have hz := env.zero_eq u
  rw [hk, Kind.zero] at hz
  rw [hz] at h
  cases h with
  | mapEmpty => exact .inl ⟨rfl, rfl⟩
  | map kw ew hk' hne _ hd => rw [hk] at hk'; cases hk'; exact .inr ⟨_, hne, rfl, hd⟩
  | _ => simp_all

theorem decodes_struct {env : Env} {u : TypeId} {gs : List FieldDecl} {n : Bytes} {tfs : List (Bytes × BitVec 16 × TVal)} {v' : GoVal} (h : Decodes env u (env.zero u) (.struct n tfs) v')
    (hk : (env.type u).kind = .struct gs) : ∃ vs', v' = .struct vs' ∧ GoodStruct env gs ∧ DecodesFields env gs (gs.map fun g => env.zero g.typ) tfs vs' := by
  have hz := env.zero_eq u
  rw [hk, Kind.zero] at hz
  rw [hz] at h
  cases h with
  | struct n hk' hg hd => rw [hk] at hk'; cases hk'; exact ⟨_, rfl, hg, hd⟩
  | _ => simp_all

theorem entries_carried {env : Env} {k e : TypeId} {PK PV : GoVal → GoVal → Prop} {es0 es : List (GoVal × GoVal)} {tes : List (TVal × TVal)} {src : List (GoVal × GoVal)}
    (h : DecodesEntries env k e es0 tes es) (hlen : tes.length = src.length)
    (hk : ∀ (i : Nat) x te x', src[i]? = some x → tes[i]? = some te → Decodes env k (env.zero k) te.1 x' → PK x.1 x')
    (hv : ∀ (i : Nat) x te x', src[i]? = some x → tes[i]? = some te → Decodes env e (env.zero e) te.2 x' → PV x.2 x')
    (hnew : ∀ (i j : Nat) (x y : GoVal × GoVal) (x' y' : GoVal), i < j → src[i]? = some x → src[j]? = some y → PK x.1 x' → PK y.1 y' → y'.keyEq x' = false)
    (hnew0 : ∀ e0 ∈ es0, ∀ y ∈ src, ∀ y', PK y.1 y' → y'.keyEq e0.1 = false) :
    ∃ es', es = es0 ++ es' ∧ es'.length = src.length ∧ ∀ (i : Nat) x x', src[i]? = some x → es'[i]? = some x' → PK x.1 x'.1 ∧ PV x.2 x'.2 := by
  induction tes generalizing es0 src with
  | nil =>
    cases h
    cases src with
    | nil => exact ⟨[], by simp, rfl, by simp⟩
    | cons => simp at hlen
  | cons te tes ih =>
    cases src with
    | nil => simp at hlen
    | cons s src =>
      cases h with
      | @cons _ _ _ _ _ _ x v h1 h2 h3 =>
        have hx : PK s.1 x := hk 0 s te x rfl rfl h1
        have hfr : ∀ e0 ∈ es0, x.keyEq e0.1 = false := fun e0 he0 => hnew0 e0 he0 s (by simp) x hx
        rw [mapIndex_none hfr] at h2
        rw [setMapIndex_new hfr] at h3
        have hv0 : PV s.2 v := hv 0 s te v rfl rfl h2
        obtain ⟨es', h4, h5, h6⟩ := ih h3 (by simpa using hlen) (fun i => hk (i + 1)) (fun i => hv (i + 1)) (fun i j x y x' y' hij hi hj => hnew (i + 1) (j + 1) x y x' y' (by omega) hi hj)
          (by
            intro e0 he0 y hy y' hy'
            rcases List.mem_append.1 he0 with he0 | he0
            · exact hnew0 e0 he0 y (by simp [hy]) y' hy'
            · obtain rfl := List.mem_singleton.1 he0
              obtain ⟨j, hj⟩ := List.getElem?_of_mem hy
              exact hnew 0 (j + 1) s y x y' (by omega) rfl hj hx hy')
        refine ⟨(x, v) :: es', by simp [h4], by simp [h5], fun i a a' ha ha' => ?_⟩
        cases i with
        | zero => cases ha; cases ha'; exact ⟨hx, hv0⟩
        | succ i => exact h6 i a a' ha ha'

theorem fields_carried {env : Env} {gs : List FieldDecl} {vs0 vs' : List GoVal} {tfs : List (Bytes × BitVec 16 × TVal)} (h : DecodesFields env gs vs0 tfs vs')
    (hd : ∀ (i j : Nat) f g id r r', gs[i]? = some f → gs[j]? = some g → Declares env f id r → Declares env g id r' → i = j) (hpw : tfs.Pairwise fun a b => a.2.1 ≠ b.2.1) :
    vs'.length = vs0.length ∧
    (∀ tf ∈ tfs, ∀ (j : Nat) g r v', gs[j]? = some g → Declares env g tf.2.1 r → vs'[j]? = some v' → ∃ old, vs0[j]? = some old ∧ Decodes env g.typ old tf.2.2 v') ∧
    ∀ (j : Nat) g, gs[j]? = some g → (∀ tf ∈ tfs, ∀ r, ¬ Declares env g tf.2.1 r) → vs'[j]? = vs0[j]? := by
  induction tfs generalizing vs0 with
  | nil => cases h; exact ⟨rfl, by simp, fun _ _ _ _ => rfl⟩
  | cons tf tfs ih =>
    have hpw' := List.pairwise_cons.1 hpw
    cases h with
    | unknown hu h =>
      obtain ⟨h1, h2, h3⟩ := ih h hpw'.2
      refine ⟨h1, fun tf' htf' j g r v' hg hdg hv' => ?_, fun j g hg hn => h3 j g hg fun tf' htf' => hn tf' (by simp [htf'])⟩
      rcases List.mem_cons.1 htf' with rfl | htf'
      · exact absurd hdg (hu g (List.mem_of_getElem? hg) r)
      · exact h2 tf' htf' j g r v' hg hdg hv'
    | @known _ _ _ _ _ i f r0 old v hf hdf hold hdec h =>
      obtain ⟨h1, h2, h3⟩ := ih h hpw'.2
      have hi : i < vs0.length := (List.getElem?_eq_some_iff.1 hold).1
      refine ⟨by simpa using h1, fun tf' htf' j g r v' hg hdg hv' => ?_, fun j g hg hn => ?_⟩
      · rcases List.mem_cons.1 htf' with rfl | htf'
        · obtain rfl := hd i j f g _ _ _ hf hg hdf hdg
          cases hf.symm.trans hg
          rw [h3 i f hf fun tf' htf' r' hd' => hpw'.1 tf' htf' (hdf.unique hd').1] at hv'
          simp [hi] at hv'
          subst hv'
          exact ⟨old, hold, hdec⟩
        · obtain ⟨old', h4, h5⟩ := h2 tf' htf' j g r v' hg hdg hv'
          have hne : i ≠ j := fun he => by
            subst he
            cases hf.symm.trans hg
            exact hpw'.1 tf' htf' (hdf.unique hdg).1
          rw [List.getElem?_set_ne hne] at h4
          exact ⟨old', h4, h5⟩
      · rw [h3 j g hg fun tf' htf' => hn tf' (by simp [htf'])]
        have hne : i ≠ j := fun he => by
          subst he
          cases hf.symm.trans hg
          exact hn tf (by simp) r0 hdf
        rw [List.getElem?_set_ne hne]

theorem pairwise_ne {tfs : List (Bytes × BitVec 16 × TVal)} (h : tfs.Pairwise fun a b => a.2.1.toInt < b.2.1.toInt) : tfs.Pairwise fun a b => a.2.1 ≠ b.2.1 :=
  h.imp fun hlt he => by rw [he] at hlt; omega

/-- The fields of a struct that are decoded into a zero struct. -/
theorem struct_carried {env : Env} {t u : TypeId} {fs gs : List FieldDecl} {vs vs' : List GoVal} {tfs : List (Bytes × BitVec 16 × TVal)} {order : List Nat} (hk : (env.type t).kind = .struct fs)
    (hku : (env.type u).kind = .struct gs) (hd : DistinctIds env t) (hdu : DistinctIds env u) (hnd : order.Nodup)
    (hord : ∀ i : Nat, i ∈ order ↔ ∃ f v, fs[i]? = some f ∧ vs[i]? = some v ∧ Written env f v) (hsort : tfs.Pairwise (fun a b => a.2.1.toInt ≤ b.2.1.toInt)) (hlen : tfs.length = order.length)
    (hname : ∀ (j i : Nat) tf f, order[j]? = some i → tfs[j]? = some tf → fs[i]? = some f → tf.1 = f.name ∧ ∃ required, Declares env f tf.2.1 required)
    (h : DecodesFields env gs (gs.map fun g => env.zero g.typ) tfs vs') :
    vs'.length = gs.length ∧
    (∀ (i j : Nat) f g v v' id r r', fs[i]? = some f → vs[i]? = some v → gs[j]? = some g → vs'[j]? = some v' → Declares env f id r → Declares env g id r' → Written env f v →
      ∃ (l : Nat) (tf : Bytes × BitVec 16 × TVal), order[l]? = some i ∧ tfs[l]? = some tf ∧ Decodes env g.typ (env.zero g.typ) tf.2.2 v') ∧
    ∀ (j : Nat) g v', gs[j]? = some g → vs'[j]? = some v' →
      (∀ (i : Nat) f v id r r', fs[i]? = some f → vs[i]? = some v → Declares env f id r → Declares env g id r' → ¬ Written env f v) → v' = env.zero g.typ := by
  have hdu' : ∀ (i j : Nat) f g id r r', gs[i]? = some f → gs[j]? = some g → Declares env f id r → Declares env g id r' → i = j := fun i j f g id r r' hi hj => by
    rw [← fields_struct hku] at hi hj
    exact hdu i j f g id r r' hi hj
  obtain ⟨h1, h2, h3⟩ := fields_carried h hdu' (pairwise_ne (sorted_strict hk hd hnd hord hsort hlen hname))
  refine ⟨by simpa using h1, fun i j f g v v' id r r' hf hv hg hv' hdf hdg hw => ?_, fun j g v' hg hv' hn => ?_⟩
  · obtain ⟨l, hl⟩ := List.getElem?_of_mem ((hord i).2 ⟨f, v, hf, hv, hw⟩)
    obtain ⟨tf, htf⟩ := pair_at hlen.symm hl
    obtain ⟨_, r2, hd2⟩ := hname l i tf f hl htf hf
    obtain ⟨rfl, _⟩ := hdf.unique hd2
    obtain ⟨old, h4, h5⟩ := h2 tf (List.mem_of_getElem? htf) j g r' v' hg hdg hv'
    rw [List.getElem?_map, hg] at h4
    cases h4
    exact ⟨l, tf, hl, htf, h5⟩
  · rw [h3 j g hg, List.getElem?_map, hg] at hv'
    · cases hv'; rfl
    · intro tf htf r' hdg
      obtain ⟨l, hl⟩ := List.getElem?_of_mem htf
      obtain ⟨i, hi⟩ := pair_at hlen hl
      obtain ⟨f, v, hf, hv, hw⟩ := (hord i).1 (List.mem_of_getElem? hi)
      obtain ⟨_, r, hdf⟩ := hname l i tf f hi hl hf
      exact hn i f v _ r r' hf hv hdf hdg hw

theorem keysSurvive_elem {env : Env} {t e : TypeId} {v x : GoVal} {i : Nat} (h : KeysSurvive env t v) (hk : (env.type t).kind = .slice e) (hx : (elemsOf v)[i]? = some x) : KeysSurvive env e x := by
  cases v with
  | slice es sp =>
    have := (everywhereElems_iff _).1 h.2 x (List.mem_of_getElem? hx)
    rwa [elemType_slice hk] at this
  | _ => simp [elemsOf] at hx

theorem seq_roundTrip {env : Env} {t e : TypeId} {w : WType} {v v' : GoVal} {tv : TVal} {tvs : List TVal} (hdec : Decodes env t (env.zero t) tv v') (hk : (env.type t).kind = .slice e)
    (hb : (env.type t).asBytes = false) (htv : tv = .set w tvs ∨ tv = .list w tvs) (hv : v = .sliceNil ∨ ∃ es sp, v = .slice es sp) (hlen : tvs.length = (elemsOf v).length)
    (h : ∀ (i : Nat) x tv x', (elemsOf v)[i]? = some x → tvs[i]? = some tv → Decodes env e (env.zero e) tv x' → RoundTrip env e x x') : RoundTrip env t v v' := by
  rcases decodes_seq hdec hk hb htv with ⟨rfl, rfl⟩ | ⟨es', sp', hne, rfl, hlen', hall⟩
  · refine .emptySlice (hv.imp id ?_)
    rintro ⟨es, sp, rfl⟩
    cases es with
    | nil => exact ⟨sp, rfl⟩
    | cons => simp [elemsOf] at hlen
  · rcases hv with rfl | ⟨es, sp, rfl⟩
    · simp [elemsOf] at hlen; exact absurd hlen hne
    · simp only [elemsOf] at hlen h
      refine .slice (by rintro rfl; exact hne (List.eq_nil_of_length_eq_zero hlen)) (hlen'.trans hlen) fun i x x' hx hx' => ?_
      obtain ⟨tv', htv'⟩ := pair_at hlen.symm hx
      rw [elemType_slice hk]
      exact h i x tv' x' hx htv' (hall i tv' x' htv' hx')

theorem seq_carries {env : Env} {t u e e' : TypeId} {w : WType} {v v' : GoVal} {tv : TVal} {tvs : List TVal} (hdec : Decodes env u (env.zero u) tv v') (hk : (env.type t).kind = .slice e)
    (hku : (env.type u).kind = .slice e') (hb : (env.type u).asBytes = false) (htv : tv = .set w tvs ∨ tv = .list w tvs) (hv : v = .sliceNil ∨ ∃ es sp, v = .slice es sp)
    (hlen : tvs.length = (elemsOf v).length)
    (h : ∀ (i : Nat) x tv x', (elemsOf v)[i]? = some x → tvs[i]? = some tv → Decodes env e' (env.zero e') tv x' → Carries env e e' x x') : Carries env t u v v' := by
  rcases decodes_seq hdec hku hb htv with ⟨rfl, rfl⟩ | ⟨es', sp', hne, rfl, hlen', hall⟩
  · refine .emptySlice hku hb (hv.imp id ?_)
    rintro ⟨es, sp, rfl⟩
    cases es with
    | nil => exact ⟨sp, rfl⟩
    | cons => simp [elemsOf] at hlen
  · rcases hv with rfl | ⟨es, sp, rfl⟩
    · simp [elemsOf] at hlen; exact absurd hlen hne
    · simp only [elemsOf] at hlen h
      refine .slice hk hku hb (by rintro rfl; exact hne (List.eq_nil_of_length_eq_zero hlen)) (hlen'.trans hlen) fun i x x' hx hx' => ?_
      obtain ⟨tv', htv'⟩ := pair_at hlen.symm hx
      exact h i x tv' x' hx htv' (hall i tv' x' htv' hx')

theorem compat_slice {env : Env} {t u e : TypeId} (hc : Compatible env t u) (hn : ∀ e, (env.type u).kind ≠ .ptr e) (hk : (env.type t).kind = .slice e) (hb : (env.type t).asBytes = false) :
    ∃ e', (env.type u).kind = .slice e' ∧ (env.type u).asBytes = false := by
  cases hc.step with
  | same => exact ⟨e, hk, hb⟩
  | scalar w hw h1 _ =>
    cases hset : (env.type t).isSet with
    | true => exact (not_scalar hw h1 (.set hk hset) (by decide)).elim
    | false => exact (not_scalar hw h1 (.list hk hset hb) (by decide)).elim
  | ptrR h => exact absurd h (hn _)
  | set _ _ h1 h2 => exact ⟨_, h1, set_not_bytes h2⟩
  | list _ _ _ h1 _ h2 => exact ⟨_, h1, h2⟩
  | _ => simp_all

theorem compat_map {env : Env} {t u k e : TypeId} (hc : Compatible env t u) (hn : ∀ e, (env.type u).kind ≠ .ptr e) (hk : (env.type t).kind = .map k e) : ∃ e', (env.type u).kind = .map k e' := by
  cases hc.step with
  | same => exact ⟨e, hk⟩
  | scalar w hw h1 _ => exact (not_scalar hw h1 (.map hk) (by decide)).elim
  | ptrR h => exact absurd h (hn _)
  | map h1 h2 => rw [hk] at h1; cases h1; exact ⟨_, h2⟩
  | _ => simp_all

theorem compat_struct {env : Env} {t u : TypeId} {fs : List FieldDecl} (hc : Compatible env t u) (hn : ∀ e, (env.type u).kind ≠ .ptr e) (hk : (env.type t).kind = .struct fs) :
    ∃ gs, (env.type u).kind = .struct gs := by
  cases hc.step with
  | same => exact ⟨fs, hk⟩
  | scalar w hw h1 _ => exact (not_scalar hw h1 (.struct hk) (by decide)).elim
  | ptrR h => exact absurd h (hn _)
  | struct h1 h2 _ => exact ⟨_, h2⟩
  | _ => simp_all

/-- Whatever the wire value of `v` is decoded to in a zero variable of the same type is what `v` comes back as. -/
theorem decodes_roundTrip {env : Env} {t : TypeId} {v v' : GoVal} {tv : TVal} (h : Rep env t v tv) (hdec : Decodes env t (env.zero t) tv v') (hs : KeysSurvive env t v)
    (hd : ∀ t', Within env t' t → DistinctIds env t') : RoundTrip env t v v' := by
  induction h generalizing v' with
  | @leaf t v tv h =>
    have hz := env.zero_eq t
    cases h with
    | bytes b hk hb =>
      rw [hk, Kind.zero, if_pos hb] at hz
      rw [hz] at hdec
      cases hdec with
      | bytes raw b' =>
        cases b with
        | none => exact .same (by simp)
        | some b => cases b with
          | nil => exact .emptyBytes
          | cons x b => exact .same (by simp)
      | _ => simp_all
    | _ =>
      generalize env.zero t = old at hdec hz
      cases hdec with
      | ptr hk => simp_all
      | ptrNil hk => simp_all
      | _ => first | exact .same (by simp) | exact .f32 _ | simp_all
  | ptr hk _ ih =>
    obtain ⟨v1, rfl, h1⟩ := decodes_ptr hdec hk
    have hs' := hs.2
    rw [elemType_ptr hk] at hs'
    exact .ptr (by rw [elemType_ptr hk]; exact ih h1 hs' fun t' ht' => hd t' (.step ht' (partOf_ptr hk)))
  | @ptrNil t e _ hk _ ih =>
    obtain ⟨v1, rfl, h1⟩ := decodes_ptr hdec hk
    exact .ptrNil (by rw [elemType_ptr hk]; exact ih h1 (keysSurvive_zero env e) fun t' ht' => hd t' (.step ht' (partOf_ptr hk)))
  | @set t e w v tvs hk hset hv hw hlen _ ih =>
    exact seq_roundTrip hdec hk (set_not_bytes hset) (.inl rfl) hv hlen (fun i x tv x' hx htv hx' => ih i x tv hx htv hx' (keysSurvive_elem hs hk hx)
      fun t' ht' => hd t' (.step ht' (partOf_slice ⟨hk, set_not_bytes hset⟩)))
  | @list t e w v tvs hk hset hb hv hw hlen _ ih =>
    exact seq_roundTrip hdec hk hb (.inr rfl) hv hlen (fun i x tv x' hx htv hx' => ih i x tv hx htv hx' (keysSurvive_elem hs hk hx)
      fun t' ht' => hd t' (.step ht' (partOf_slice ⟨hk, hb⟩)))
  | @map t k e kw ew v tes hk hv hkw hew hlen _ _ ihk ihv =>
    rcases decodes_map hdec hk with ⟨rfl, rfl⟩ | ⟨es', hne, rfl, hent⟩
    · rcases hv with rfl | ⟨es, rfl⟩
      · exact .emptyMap (.inl rfl)
      · cases es with
        | nil => exact .emptyMap (.inr rfl)
        | cons => simp [entriesOf] at hlen
    · rcases hv with rfl | ⟨es, rfl⟩
      · simp [entriesOf] at hlen; exact absurd hlen hne
      · simp only [entriesOf] at hlen ihk ihv
        have hs2 := (everywhereEntries_iff _).1 hs.2
        rw [keyType_map hk, elemType_map hk] at hs2
        have hs1 := hs.1
        simp only [keyType_map hk] at hs1
        obtain ⟨es2, h1, h2, h3⟩ := entries_carried (src := es) (PK := fun x x' => RoundTrip env k x x') (PV := fun x x' => RoundTrip env e x x') hent hlen
          (fun i x te x' hx hte hx' => ihk i x te hx hte hx' (hs2 x (List.mem_of_getElem? hx)).1 fun t' ht' => hd t' (.step ht' (partOf_key hk)))
          (fun i x te x' hx hte hx' => ihv i x te hx hte hx' (hs2 x (List.mem_of_getElem? hx)).2 fun t' ht' => hd t' (.step ht' (partOf_value hk)))
          hs1 (by simp)
        obtain rfl : es' = es2 := by simpa using h1
        refine .map (by rintro rfl; exact hne (List.eq_nil_of_length_eq_zero hlen)) h2 (fun i x x' hx hx' => ?_) fun i x x' hx hx' => ?_
        · rw [keyType_map hk]; exact (h3 i x x' hx hx').1
        · rw [elemType_map hk]; exact (h3 i x x' hx hx').2
  | @struct t fs vs tfs order hk hlen hfs hacc htag hnd hord hsort hlen' hname _ ih =>
    obtain ⟨vs', rfl, hgood, hf⟩ := decodes_struct hdec hk
    have hdt := hd t (.refl t)
    obtain ⟨h1, h2, h3⟩ := struct_carried hk hk hdt hdt hnd hord hsort hlen' hname hf
    have hs2 := (everywhereFields_iff _ _).1 hs.2
    rw [fields_struct hk] at hs2
    refine .struct (by rw [h1, hlen]) (fun i f v v' hf hv hv' hw => ?_) fun i f v v' hf hv hv' hw => ?_
    · rw [fields_struct hk] at hf
      obtain ⟨id, r, hdf, _⟩ := id hw
      obtain ⟨l, tf, hl, htf, hdec'⟩ := h2 i i f f v v' id r r hf hv hf hv' hdf hdf hw
      have hpf : PartOf env f.typ t := by rw [PartOf, hk]; exact ⟨f, List.mem_of_getElem? hf, rfl⟩
      exact ih l i tf f v hl htf hf hv hdec' (hs2 i f v hf hv) fun t' ht' => hd t' (.step ht' hpf)
    · rw [fields_struct hk] at hf
      refine h3 i f v' hf hv' fun i' f' w id r r' hf' hw' hdf' hdf => ?_
      obtain rfl := hdt i' i f' f id r r' (by rw [fields_struct hk]; exact hf') (by rw [fields_struct hk]; exact hf) hdf' hdf
      cases hf.symm.trans hf'
      cases hv.symm.trans hw'
      exact hw

/-! ## Decoding into another type -/

/-- Pointers in the type read. -/
theorem peel {env : Env} {t : TypeId} {v : GoVal} {tv : TVal}
    (hcore : ∀ u v', (∀ e, (env.type u).kind ≠ .ptr e) → Compatible env t u → Acc (InPart env) u → (∀ t', Within env t' u → DistinctIds env t') → Decodes env u (env.zero u) tv v' →
      Carries env t u v v') {u : TypeId} {v' : GoVal} (hacc : Acc (InPart env) u) (hc : Compatible env t u) (hdu : ∀ t', Within env t' u → DistinctIds env t')
    (hdec : Decodes env u (env.zero u) tv v') : Carries env t u v v' := by
  induction hacc generalizing v' with
  | intro u hu ih =>
    by_cases hn : ∀ e, (env.type u).kind ≠ .ptr e
    · exact hcore u v' hn hc (.intro u hu) hdu hdec
    · obtain ⟨e, hk⟩ := Classical.not_forall.1 hn
      have hk := Classical.not_not.1 hk
      obtain ⟨v1, rfl, h1⟩ := decodes_ptr hdec hk
      exact .ptrR hk (ih e (inPart_ptr hk) (hc.stripR hk) (fun t' ht' => hdu t' (.step ht' (partOf_ptr hk))) h1)

/-- Whatever the wire value of `v` is decoded to in a zero variable of a compatible type is what `v` is carried to. -/
theorem decodes_carries {env : Env} {t u : TypeId} {v v' : GoVal} {tv : TVal} (h : Rep env t v tv) (hdec : Decodes env u (env.zero u) tv v') (hc : Compatible env t u)
    (hs : KeysSurvive env t v) (hd : ∀ t', Within env t' t → DistinctIds env t') (hdu : ∀ t', Within env t' u → DistinctIds env t') (hacc : Acc (InPart env) u) : Carries env t u v v' := by
  induction h generalizing u v' with
  | @leaf t v tv h =>
    refine peel (fun u v' hn hc hacc hdu hdec => ?_) hacc hc hdu hdec
    have hz := env.zero_eq u
    generalize env.zero u = old at hdec hz
    refine .leaf ?_
    cases h with
    | f32 =>
      cases hdec with
      | f32 _ hk => exact .f32 _ hk
      | f64 _ hk => exact .f32as64 _ hk
      | ptr hk => exact absurd hk (hn _)
      | ptrNil hk => exact absurd hk (hn _)
      | seqNil _ _ _ he => split at he <;> cases he
      | seqEmpty _ _ _ he => split at he <;> cases he
      | seq _ _ _ he => split at he <;> cases he
    | f64 =>
      cases hdec with
      | f32 _ hk => exact .f64as32 _ hk
      | f64 _ hk => exact .f64 _ hk
      | ptr hk => exact absurd hk (hn _)
      | ptrNil hk => exact absurd hk (hn _)
      | seqNil _ _ _ he => split at he <;> cases he
      | seqEmpty _ _ _ he => split at he <;> cases he
      | seq _ _ _ he => split at he <;> cases he
    | str b =>
      cases hdec with
      | string _ _ hk => exact .str _ hk
      | @bytes _ _ o _ _ hk hb =>
        rw [hk, Kind.zero, if_pos hb] at hz
        cases hz
        simpa using CarriesLeaf.strAsBytes (env := env) b hk hb
      | ptr hk => exact absurd hk (hn _)
      | ptrNil hk => exact absurd hk (hn _)
      | seqNil _ _ _ he => split at he <;> cases he
      | seqEmpty _ _ _ he => split at he <;> cases he
      | seq _ _ _ he => split at he <;> cases he
    | bytes b =>
      cases hdec with
      | string _ _ hk => exact .bytesAsStr _ hk
      | @bytes _ _ o _ _ hk hb =>
        rw [hk, Kind.zero, if_pos hb] at hz
        cases hz
        simpa using CarriesLeaf.bytes (env := env) b hk hb
      | ptr hk => exact absurd hk (hn _)
      | ptrNil hk => exact absurd hk (hn _)
      | seqNil _ _ _ he => split at he <;> cases he
      | seqEmpty _ _ _ he => split at he <;> cases he
      | seq _ _ _ he => split at he <;> cases he
    | _ =>
      cases hdec with
      | ptr hk => exact absurd hk (hn _)
      | ptrNil hk => exact absurd hk (hn _)
      | seqNil _ _ _ he => split at he <;> cases he
      | seqEmpty _ _ _ he => split at he <;> cases he
      | seq _ _ _ he => split at he <;> cases he
      | _ => first | exact .bool _ ‹_› | exact .i8 _ ‹_› | exact .i16 _ ‹_› | exact .i32 _ ‹_› | exact .i64 _ ‹_› | exact .uuid _ ‹_›
  | ptr hk _ ih =>
    have hs' := hs.2
    rw [elemType_ptr hk] at hs'
    exact .ptrL hk (ih hdec (hc.stripL hk) hs' (fun t' ht' => hd t' (.step ht' (partOf_ptr hk))) hdu hacc)
  | @ptrNil t e _ hk _ ih => exact .ptrNilL hk (ih hdec (hc.stripL hk) (keysSurvive_zero env e) (fun t' ht' => hd t' (.step ht' (partOf_ptr hk))) hdu hacc)
  | @set t e w v tvs hk hset hv hw hlen _ ih =>
    refine peel (fun u v' hn hc hacc hdu hdec => ?_) hacc hc hdu hdec
    obtain ⟨e', hku, hbu⟩ := compat_slice hc hn hk (set_not_bytes hset)
    exact seq_carries hdec hk hku hbu (.inl rfl) hv hlen fun i x tv x' hx htv hx' => ih i x tv hx htv hx' (hc.slice hk hku (set_not_bytes hset)).1 (keysSurvive_elem hs hk hx)
      (fun t' ht' => hd t' (.step ht' (partOf_slice ⟨hk, set_not_bytes hset⟩))) (fun t' ht' => hdu t' (.step ht' (partOf_slice ⟨hku, hbu⟩))) (hacc.inv (inPart_slice hku hbu))
  | @list t e w v tvs hk hset hb hv hw hlen _ ih =>
    refine peel (fun u v' hn hc hacc hdu hdec => ?_) hacc hc hdu hdec
    obtain ⟨e', hku, hbu⟩ := compat_slice hc hn hk hb
    exact seq_carries hdec hk hku hbu (.inr rfl) hv hlen fun i x tv x' hx htv hx' => ih i x tv hx htv hx' (hc.slice hk hku hb).1 (keysSurvive_elem hs hk hx)
      (fun t' ht' => hd t' (.step ht' (partOf_slice ⟨hk, hb⟩))) (fun t' ht' => hdu t' (.step ht' (partOf_slice ⟨hku, hbu⟩))) (hacc.inv (inPart_slice hku hbu))
  | @map t k e kw ew v tes hk hv hkw hew hlen hrepk _ _ ihv =>
    refine peel (fun u v' hn hc hacc hdu hdec => ?_) hacc hc hdu hdec
    obtain ⟨e', hku⟩ := compat_map hc hn hk
    rcases decodes_map hdec hku with ⟨rfl, rfl⟩ | ⟨es', hne, rfl, hent⟩
    · rcases hv with rfl | ⟨es, rfl⟩
      · exact .emptyMap hku (.inl rfl)
      · cases es with
        | nil => exact .emptyMap hku (.inr rfl)
        | cons => simp [entriesOf] at hlen
    · rcases hv with rfl | ⟨es, rfl⟩
      · simp [entriesOf] at hlen; exact absurd hlen hne
      · simp only [entriesOf] at hlen hrepk ihv
        have hs2 := (everywhereEntries_iff _).1 hs.2
        rw [keyType_map hk, elemType_map hk] at hs2
        have hs1 := hs.1
        simp only [keyType_map hk] at hs1
        obtain ⟨es2, h1, h2, h3⟩ := entries_carried (src := es) (PK := fun x x' => RoundTrip env k x x') (PV := fun x x' => Carries env e e' x x') hent hlen
          (fun i x te x' hx hte hx' => decodes_roundTrip (hrepk i x te hx hte) hx' (hs2 x (List.mem_of_getElem? hx)).1 fun t' ht' => hd t' (.step ht' (partOf_key hk)))
          (fun i x te x' hx hte hx' => ihv i x te hx hte hx' (hc.map hk hku).2 (hs2 x (List.mem_of_getElem? hx)).2 (fun t' ht' => hd t' (.step ht' (partOf_value hk)))
            (fun t' ht' => hdu t' (.step ht' (partOf_value hku))) (hacc.inv (inPart_value hku)))
          hs1 (by simp)
        obtain rfl : es' = es2 := by simpa using h1
        exact .map hk hku (by rintro rfl; exact hne (List.eq_nil_of_length_eq_zero hlen)) h2 (fun i x x' hx hx' => (h3 i x x' hx hx').1) fun i x x' hx hx' => (h3 i x x' hx hx').2
  | @struct t fs vs tfs order hk hlen hfs hacc' htag hnd hord hsort hlen' hname _ ih =>
    refine peel (fun u v' hn hc hacc hdu hdec => ?_) hacc hc hdu hdec
    obtain ⟨gs, hku⟩ := compat_struct hc hn hk
    obtain ⟨vs', rfl, hgood, hf⟩ := decodes_struct hdec hku
    obtain ⟨h1, h2, h3⟩ := struct_carried hk hku (hd t (.refl t)) (hdu u (.refl u)) hnd hord hsort hlen' hname hf
    have hs2 := (everywhereFields_iff _ _).1 hs.2
    rw [fields_struct hk] at hs2
    refine .struct hk hku h1 (fun i j f g v v' id r r' hf hv hg hv' hdf hdg hw => ?_) h3
    obtain ⟨l, tf, hl, htf, hdec'⟩ := h2 i j f g v v' id r r' hf hv hg hv' hdf hdg hw
    have hpf : PartOf env f.typ t := by rw [PartOf, hk]; exact ⟨f, List.mem_of_getElem? hf, rfl⟩
    have hpg : PartOf env g.typ u := by rw [PartOf, hku]; exact ⟨g, List.mem_of_getElem? hg, rfl⟩
    exact ih l i tf f v hl htf hf hv hdec' (hc.struct hk hku (hd t (.refl t)) (List.mem_of_getElem? hf) (List.mem_of_getElem? hg) hdf hdg) (hs2 i f v hf hv)
      (fun t' ht' => hd t' (.step ht' hpf)) (fun t' ht' => hdu t' (.step ht' hpg)) (hgood.2.1 g (List.mem_of_getElem? hg) (not_ignored hdg))

end GoThrift
