import Verif.Proof.Wp
import Verif.Proof.Keep
import Verif.Proof.DecTotal
import Verif.Proof.Top

/-!
# Unmarshal does not panic by itself, and leaves valid values, whatever the Reader answers
-/

namespace GoThrift

open Spec

/-- UUIDs have 16 bytes; no panics. -/
def typed : Mon Unit where
  pre _ _ := True
  okAns o a := match o, a with
    | .uuid, b => b.length = 16
    | _, _ => True
  next _ _ _ := ()
  fail _ _ := ()
  panics := False

/-- The result of a program satisfies `P`, and it does not panic. -/
def Safe' {α : Type} (P : α → Prop) (p : RProg α) : Prop := Wp typed (fun a _ => P a) p ()

theorem Safe'.run {α S : Type} {P : α → Prop} {p : RProg α} (h : Safe' P p) {r : Rdr S} (hr : UUIDs16 r) {s s' : S} {a : α} (hd : p.run r s = .done (a, s')) : P a := by
  unfold Safe' at h
  induction p generalizing s with
  | ret a => cases hd; exact h
  | diverge => cases hd
  | panic => cases hd
  | call o k ih =>
    rw [RProg.run] at hd
    cases hs : r.step o s with
    | done x =>
      rw [hs, Out.bind_done] at hd
      obtain ⟨x, s1⟩ := x
      cases x with
      | error e => exact ih _ (h.2.2 e) hd
      | ok b =>
        refine ih _ (h.2.1 b ?_) hd
        cases o <;> first | trivial | exact hr _ _ _ hs
    | blocked => rw [hs] at hd; cases hd
    | diverged => rw [hs] at hd; cases hd
    | panicked => rw [hs] at hd; cases hd

/-- A program that is safe panics only if the Reader does. -/
theorem Safe'.no_panic {α S : Type} {P : α → Prop} {p : RProg α} (h : Safe' P p) {r : Rdr S} (hr : UUIDs16 r) (hp : ∀ o s, r.step o s ≠ .panicked) (s : S) : p.run r s ≠ .panicked := by
  unfold Safe' at h
  induction p generalizing s with
  | ret a => simp [RProg.run]
  | diverge => simp [RProg.run]
  | panic => exact False.elim h
  | call o k ih =>
    rw [RProg.run]
    cases hs : r.step o s with
    | done x =>
      rw [Out.bind_done]
      obtain ⟨x, s1⟩ := x
      cases x with
      | error e => exact ih _ (h.2.2 e) s1
      | ok b =>
        refine ih _ (h.2.1 b ?_) s1
        cases o <;> first | trivial | exact hr _ _ _ hs
    | blocked => simp [Out.bind]
    | diverged => simp [Out.bind]
    | panicked => exact absurd hs (hp o s)

/-! ## Values -/

theorem Spec.ValidValue.hasType {env : Env} {t : TypeId} {v : GoVal} (h : ValidValue env t v) : HasType env t v := Everywhere.imp (fun _ _ h => h.1) t v h

theorem zero_valid (env : Env) (t : TypeId) : ValidValue env t (env.zero t) := by
  refine everywhere_zero (fun t => ⟨zero_shape env t, fun es h => ?_⟩) t
  have hk := env.zero_eq t
  rw [h] at hk
  cases hkind : (env.type t).kind <;> rw [hkind, Kind.zero] at hk <;> first | cases hk | (split at hk <;> cases hk)

/-- The slot for the next element of a list is zero when it is decoded into. -/
theorem slot_zero {zero : GoVal} {rest : List GoVal} {mz : Bool} (hz : mz = true ∨ ∀ v ∈ rest, v = zero) (k : Nat) :
    ∃ r0 rest', (if rest.isEmpty = true then List.replicate (max 1 k) zero else rest) = r0 :: rest' ∧
      (if (mz && !rest.isEmpty) = true then zero else r0) = zero ∧ ((mz && !rest.isEmpty) = true ∨ ∀ v ∈ rest', v = zero) := by
  cases rest with
  | nil =>
    refine ⟨zero, List.replicate (max 1 k - 1) zero, ?_, by simp, .inr fun v hv => List.eq_of_mem_replicate hv⟩
    simp only [List.isEmpty_nil, if_true]
    rw [← List.replicate_succ, show max 1 k - 1 + 1 = max 1 k by omega]
  | cons v0 rest0 =>
    refine ⟨v0, rest0, rfl, ?_⟩
    cases mz with
    | true => simp
    | false =>
      rcases hz with hz | hz
      · cases hz
      · simp only [Bool.false_and, Bool.false_eq_true, if_false, false_or]
        exact ⟨hz v0 (by simp), fun x hx => hz x (by simp [hx])⟩

/-! ## Skip does not panic -/

theorem safe_last (o : ROp) : Safe' (fun _ => True) (RProg.last o) := ⟨trivial, fun _ _ => trivial, fun _ => trivial⟩

theorem safe_then {p q : RProg (Option Err)} (hp : Safe' (fun _ => True) p) (hq : Safe' (fun _ => True) q) : Safe' (fun _ => True) (p.andThen q) := by
  refine Wp.bind hp fun e g _ => ?_
  cases e with
  | none => exact hq
  | some e => trivial

theorem safe_loop {p q : RProg (Option Err)} (hp : Safe' (fun _ => True) p) (hq : Safe' (fun _ => True) q) (n : Nat) : Safe' (fun _ => True) (RProg.loop n p q) := by
  induction n with
  | zero => exact hq
  | succ n ih => exact safe_then hp ih

theorem safe_try {o : ROp} {k : o.Ans → RProg (Option Err)} (hk : ∀ a, Safe' (fun _ => True) (k a)) : Safe' (fun _ => True) (RProg.try' o k) :=
  ⟨trivial, fun a _ => hk a, fun _ => trivial⟩

theorem safe_ite {α : Type} {P : α → Prop} {c : Prop} [Decidable c] {p q : RProg α} (hp : Safe' P p) (hq : Safe' P q) : Safe' P (if c then p else q) := by
  split
  · exact hp
  · exact hq

theorem safe_skip (fuel : Nat) : (∀ t, Safe' (fun _ => True) (skip fuel t)) ∧ Safe' (fun _ => True) (skipFields fuel) := by
  induction fuel with
  | zero => exact ⟨fun _ => trivial, trivial⟩
  | succ fuel ih =>
    constructor
    · intro t
      rw [skip]
      refine safe_ite (safe_last _) (safe_ite (safe_last _) (safe_ite (safe_last _) (safe_ite (safe_last _) (safe_ite (safe_last _) (safe_ite (safe_last _) (safe_ite (safe_last _) ?_))))))
      refine safe_ite (safe_try fun _ => ih.2) (safe_ite (safe_try fun h => safe_loop (safe_then (ih.1 _) (ih.1 _)) (safe_last _) _) ?_)
      refine safe_ite (safe_try fun h => safe_loop (ih.1 _) (safe_last _) _) (safe_ite (safe_try fun h => safe_loop (ih.1 _) (safe_last _) _) ?_)
      exact safe_ite (safe_last _) trivial
    · rw [skipFields]
      exact safe_try fun h => safe_ite (safe_last _) (safe_then (ih.1 _) (safe_try fun _ => ih.2))

/-! ## Unmarshal -/

/-- The value part of a result is valid. -/
def Ok (env : Env) (t : TypeId) (x : GoVal × Option Err) : Prop := ValidValue env t x.1

theorem safe_rcall {α : Type} {P : α × Option Err → Prop} {act : String} {tt : WType} {t : TypeId} {o : ROp} {old : α} {k : o.Ans → UProg α} (hold : ∀ e, P (old, e))
    (hk : ∀ a, typed.okAns o a → Safe' P (k a)) : Safe' P (rcall act tt t o old k) :=
  Wp.rcall trivial hk fun _ => hold _

theorem safe_andThen {α β : Type} {P : α × Option Err → Prop} {P' : β × Option Err → Prop} {p : UProg α} {fail : α → β} {k : α → UProg β} (hp : Safe' P p)
    (hk : ∀ a, P (a, none) → Safe' P' (k a)) (he : ∀ a e, P (a, some e) → P' (fail a, some e)) : Safe' P' (p.andThen fail k) :=
  Wp.andThen hp (fun a _ h => hk a h) fun a e _ h => he a e h

theorem safe_seqLoop {env : Env} {et : TypeId} {u : GoVal → UProg GoVal} (hu : ∀ v, ValidValue env et v → Safe' (Ok env et) (u v)) (grow : Nat → Nat) (n : Nat) (done rest : List GoVal)
    (mz : Bool) (hz : mz = true ∨ ∀ v ∈ rest, v = env.zero et) (hd : ∀ v ∈ done, ValidValue env et v) :
    Safe' (fun x : (List GoVal × List GoVal) × Option Err => ∀ v ∈ x.1.1, ValidValue env et v) (seqLoop u (env.zero et) grow n done rest mz) := by
  induction n generalizing done rest mz with
  | zero => exact hd
  | succ n ih =>
    rw [seqLoop]
    obtain ⟨r0, rest', h1, h2, h3⟩ := slot_zero hz (grow done.length - done.length)
    (try dsimp only)
    rw [h1]
    (try dsimp only)
    rw [h2]
    have app : ∀ v, ValidValue env et v → ∀ x ∈ done ++ [v], ValidValue env et x := by
      intro v hv x hx
      rcases List.mem_append.1 hx with hx | hx
      · exact hd x hx
      · rw [List.mem_singleton.1 hx]; exact hv
    exact safe_andThen (hu _ (zero_valid env et)) (fun v hv => ih _ _ _ h3 (app v hv)) fun v e hv => app v hv

theorem safe_mapLoop {env : Env} {kt et : TypeId} {uk : UProg GoVal} {uv : GoVal → UProg GoVal} (hk : Safe' (Ok env kt) uk) (hv : ∀ v, ValidValue env et v → Safe' (Ok env et) (uv v))
    (n : Nat) (es : List (GoVal × GoVal)) (he : DistinctKeys es ∧ ∀ x ∈ es, ValidValue env kt x.1 ∧ ValidValue env et x.2) :
    Safe' (fun x : List (GoVal × GoVal) × Option Err => DistinctKeys x.1 ∧ ∀ y ∈ x.1, ValidValue env kt y.1 ∧ ValidValue env et y.2) (mapLoop uk uv (env.zero et) n es) := by
  induction n generalizing es with
  | zero => exact he
  | succ n ih =>
    have set : ∀ k v, ValidValue env kt k → ValidValue env et v → DistinctKeys (setMapIndex k v es) ∧ ∀ x ∈ setMapIndex k v es, ValidValue env kt x.1 ∧ ValidValue env et x.2 := by
      intro k v hk hv
      refine ⟨setMapIndex_distinct he.1, fun x hx => ?_⟩
      rcases setMapIndex_mem hx with rfl | hx
      · exact ⟨hk, hv⟩
      · exact he.2 x hx
    refine safe_andThen hk (fun k hk => ?_) fun _ _ _ => he
    refine safe_andThen (hv _ ?_) (fun v hv => ih _ (set k v hk hv)) fun v e hv => set k v hk hv
    cases hm : mapIndex k es with
    | none => exact zero_valid env et
    | some v =>
      obtain ⟨k', h1, _⟩ := mapIndex_mem hm
      exact (he.2 _ h1).2

theorem fieldLoop_no_panic (env : Env) (fuel : Nat) (t : TypeId) (i : Nat) (ds : List FieldDecl) : fieldLoop env fuel t i ds ≠ .panicked := by
  induction ds generalizing i with
  | nil => simp [fieldLoop]
  | cons d ds ih =>
    rw [fieldLoop]
    obtain ⟨⟨o, ig, e⟩, h⟩ := C17_terminates env.unicode d
    rw [h, Out.bind_done]
    dsimp only
    cases e with
    | some e => simp
    | none =>
      dsimp only
      split
      · exact ih _
      · rcases lookup_total env fuel d.typ with h | ⟨a, h⟩
        · rw [h]; simp [Out.bind]
        · rw [h, Out.bind_done]
          cases hr : fieldLoop env fuel t (i + 1) ds with
          | done x => cases x <;> simp
          | panicked => exact absurd hr (ih _)
          | _ => simp [Out.bind]

theorem makeStructFields_no_panic (env : Env) (fuel : Nat) (t : TypeId) : makeStructFields env fuel t ≠ .panicked := by
  rw [makeStructFields]
  cases h : fieldLoop env fuel t 0 (env.fields t) with
  | panicked => exact absurd h (fieldLoop_no_panic _ _ _ _ _)
  | done x =>
    rw [Out.bind_done]
    cases x with
    | error e => simp
    | ok all => dsimp only; split <;> simp
  | _ => simp [Out.bind]

theorem safe_leaf {env : Env} {n : Nat} {t : TypeId} {l : Leaf} (hl : lookupArshaler env n t = .done (.leaf t l)) {old : GoVal} (ht : ValidValue env t old) (wt : WType) :
    Safe' (Ok env t) (unmarshalLeaf env t l old wt) := by
  cases n with
  | zero => cases hl
  | succ n =>
  have hc := lookup_cases hl
  have hsh := (Everywhere.here ht).1
  unfold unmarshalLeaf
  refine safe_ite ht ?_
  have val : ∀ v, Shape env t v → (∀ es, v ≠ .map es) → (∀ es, v ≠ .struct es) → (∀ es sp, v ≠ .slice es sp) → (∀ x, v ≠ .ptr x) → ValidValue env t v := by
    intro v h1 h2 h3 h4 h5
    cases v <;> first | exact ⟨h1, fun es h => by cases h⟩ | exact absurd rfl (h2 _) | exact absurd rfl (h3 _) | exact absurd rfl (h4 _ _) | exact absurd rfl (h5 _)
  cases l with
  | bytes =>
    cases hk : (env.type t).kind <;> rw [hk] at hc <;> try (cases hc; done)
    case ptr => obtain ⟨_, _, h⟩ := hc; cases h
    case map => obtain ⟨_, _, _, _, h⟩ := hc; cases h
    case slice =>
      rcases hc with ⟨hb, _⟩ | ⟨_, _, _, h⟩
      · cases old <;> simp [Shape, hk, hb] at hsh
        refine safe_rcall (fun _ => ht) fun v _ => val _ ?_ (by simp) (by simp) (by simp) (by simp)
        simp [Shape, hk, hb]
      · cases h
  | _ =>
    refine safe_rcall (fun _ => ht) fun v hv => val _ ?_ (by simp) (by simp) (by simp) (by simp)
    cases hk : (env.type t).kind <;> rw [hk] at hc <;> try (cases hc; done)
    all_goals first
      | (simp [Shape, hk]; done)
      | (simp only [Shape, hk]; exact hv)
      | (obtain ⟨_, _, h⟩ := hc; cases h; done)
      | (obtain ⟨_, _, _, _, h⟩ := hc; cases h; done)
      | (rcases hc with ⟨_, h⟩ | ⟨_, _, _, h⟩ <;> cases h; done)

theorem safe_unmarshal (env : Env) (sk fuel : Nat) :
    (∀ n t a old wt, lookupArshaler env n t = .done a → ValidValue env t old → Safe' (Ok env t) (unmarshal env sk fuel a old wt)) ∧
    (∀ n t fields sfs vals, (env.type t).kind = .struct fields → Table env n t sfs → vals.length = fields.length →
      (∀ (i : Nat) f v, fields[i]? = some f → vals[i]? = some v → ValidValue env f.typ v) → Safe' (Ok env t) (unmarshalFields env sk fuel t sfs vals)) := by
  induction fuel with
  | zero => exact ⟨fun _ _ _ _ _ _ _ => by rw [unmarshal]; trivial, fun _ _ _ _ _ _ _ _ _ => by rw [unmarshalFields]; trivial⟩
  | succ fuel ih =>
    obtain ⟨ih1, ih2⟩ := ih
    constructor
    · intro n t a old wt hl ht
      cases n with
      | zero => cases hl
      | succ n =>
      have hc := lookup_cases hl
      have hsh := (Everywhere.here ht).1
      cases hk : (env.type t).kind with
      | other => rw [hk] at hc; subst hc; rw [unmarshal]; exact ht
      | ptr e =>
        rw [hk] at hc
        obtain ⟨ea, hle, rfl⟩ := hc
        have htyp : ea.typ = e := (lookup_wireType hle).1
        obtain ⟨v0, h0, h0t⟩ : ∃ v0, old.deref? (env.zero ea.typ) = some v0 ∧ ValidValue env e v0 := by
          cases old <;> simp [Shape, hk] at hsh
          · exact ⟨_, rfl, htyp ▸ zero_valid env _⟩
          · rename_i v
            exact ⟨v, rfl, by have := ht.2; rwa [elemType_ptr hk] at this⟩
        rw [unmarshal, h0]
        have fin : ∀ v, ValidValue env e v → ValidValue env t (.ptr v) := fun v hv => ⟨⟨by simp [Shape, hk], fun es h => by cases h⟩, by rw [elemType_ptr hk]; exact hv⟩
        exact safe_andThen (ih1 n e ea v0 wt hle h0t) (fun v hv => fin v hv) fun v e hv => fin v hv
      | struct fs =>
        rw [hk] at hc
        subst hc
        rw [unmarshal]
        refine Wp.elim (.inl (makeStructFields_no_panic _ _ _)) fun r hr => ?_
        cases r with
        | error e => exact ht
        | ok sfs =>
          dsimp only
          refine safe_ite ht ?_
          cases old <;> simp [Shape, hk] at hsh
          rename_i vs
          refine safe_rcall (fun _ => ht) fun _ _ => ih2 fuel t fs sfs vs hk (makeStructFields_table _ _ _ _ hr) hsh fun i f v hf hv => ?_
          exact (everywhereFields_iff _ _).1 ht.2 i f v (by rw [fields_struct hk]; exact hf) hv
      | map k e =>
        rw [hk] at hc
        obtain ⟨ka, ea, hlk, hle, rfl⟩ := hc
        have hkt : ka.typ = k := (lookup_wireType hlk).1
        have het : ea.typ = e := (lookup_wireType hle).1
        obtain ⟨es0, h0, h0t⟩ : ∃ es0, old.entries? = some es0 ∧ DistinctKeys es0 ∧ ∀ x ∈ es0, ValidValue env k x.1 ∧ ValidValue env e x.2 := by
          cases old <;> simp [Shape, hk] at hsh
          · exact ⟨[], rfl, List.Pairwise.nil, by simp⟩
          · rename_i es
            refine ⟨es, rfl, (Everywhere.here ht).2 es rfl, ?_⟩
            have := (everywhereEntries_iff _).1 ht.2
            rwa [keyType_map hk, elemType_map hk] at this
        have fin : ∀ es : List (GoVal × GoVal), (DistinctKeys es ∧ ∀ x ∈ es, ValidValue env k x.1 ∧ ValidValue env e x.2) → ValidValue env t (.map es) := fun es he =>
          ⟨⟨by simp [Shape, hk], fun es' h => by cases h; exact he.1⟩, by rw [everywhereEntries_iff, keyType_map hk, elemType_map hk]; exact he.2⟩
        rw [unmarshal, unmarshalMap, h0, hkt, het]
        refine safe_ite ht ?_
        dsimp only
        refine safe_rcall (fun _ => ht) fun h _ => safe_ite ?_ (safe_rcall (fun _ => ht) fun _ _ => ht)
        refine safe_andThen (safe_mapLoop (ih1 n k ka _ _ hlk (zero_valid env k)) (fun v hv => ih1 n e ea v _ hle hv) _ es0 h0t) (fun es he => ?_) fun es _ he => fin es he
        exact safe_rcall (fun _ => fin es he) fun _ _ => fin es he
      | slice e =>
        rw [hk] at hc
        rcases hc with ⟨hb, rfl⟩ | ⟨hb, ea, hle, rfl⟩
        · rw [unmarshal]; exact safe_leaf hl ht wt
        · have het : ea.typ = e := (lookup_wireType hle).1
          obtain ⟨h0, h1⟩ : old.elems?.isNone = false ∧ ValidValue env t old.cleared := by
            cases old <;> simp [Shape, hk, hb] at hsh
            · exact ⟨rfl, ht⟩
            · exact ⟨rfl, ⟨⟨by simp [Shape, hk, hb], fun es h => by cases h⟩, trivial⟩⟩
          have fin : ∀ p : List GoVal × List GoVal, (∀ v ∈ p.1, ValidValue env e v) → ValidValue env t (.slice p.1 p.2) := fun p hp =>
            ⟨⟨by simp [Shape, hk, hb], fun es h => by cases h⟩, by rw [everywhereElems_iff, elemType_slice hk]; exact hp⟩
          have body : ∀ (hd : SetHeader) (f : GoVal → UProg GoVal), (∀ v, ValidValue env t v → Safe' (Ok env t) (f v)) →
              Safe' (Ok env t) (seqBody env t e (fun wt v => unmarshal env sk fuel ea v wt) old hd f) := by
            intro hd f hf
            rw [seqBody]
            refine safe_ite ?_ (hf _ h1)
            exact safe_andThen (safe_seqLoop (fun v hv => ih1 n e ea v _ hle hv) _ _ [] old.slots true (.inl rfl) (by simp)) (fun p hp => hf _ (fin p hp)) fun p _ hp => fin p hp
          rw [unmarshal, unmarshalSeq, h0, het]
          (try dsimp only)
          simp only [Bool.false_eq_true, if_false]
          refine safe_ite ht (safe_ite ?_ ?_)
          · exact safe_rcall (fun _ => ht) fun hd _ => body hd _ fun v hv => safe_rcall (fun _ => hv) fun _ _ => hv
          · exact safe_rcall (fun _ => ht) fun hd _ => body hd _ fun v hv => safe_rcall (fun _ => hv) fun _ _ => hv
      | _ => rw [hk] at hc; subst hc; rw [unmarshal]; exact safe_leaf hl ht wt
    · intro n t fields sfs vals hk htab hlen hv
      have hfs := fields_struct hk
      have fin : ∀ vs : List GoVal, vs.length = fields.length → (∀ (i : Nat) f v, fields[i]? = some f → vs[i]? = some v → ValidValue env f.typ v) → ValidValue env t (.struct vs) :=
        fun vs h1 h2 => ⟨⟨by simp [Shape, hk, h1], fun es h => by cases h⟩, (everywhereFields_iff _ _).2 fun i f v hf hv => h2 i f v (hfs ▸ hf) hv⟩
      rw [unmarshalFields]
      refine safe_rcall (fun _ => fin vals hlen hv) fun h _ => safe_ite (safe_rcall (fun _ => fin vals hlen hv) fun _ _ => fin vals hlen hv) ?_
      dsimp only
      cases hb : byID sfs h.id with
      | none =>
        refine Wp.bind ((safe_skip sk).1 h.type) fun e _ _ => ?_
        cases e with
        | some e => exact fin vals hlen hv
        | none => exact safe_rcall (fun _ => fin vals hlen hv) fun _ _ => ih2 n t fields sfs vals hk htab hlen hv
      | some sf =>
        obtain ⟨d, d1, d2, d3⟩ := htab.byID_declares hb
        rw [hfs] at d1
        obtain ⟨v0, hv0⟩ : ∃ v0, vals[sf.index]? = some v0 := by
          have : sf.index < vals.length := by rw [hlen]; exact (List.getElem?_eq_some_iff.1 d1).1
          exact ⟨_, List.getElem?_eq_getElem this⟩
        dsimp only
        rw [hv0]
        have upd : ∀ v, ValidValue env d.typ v → ∀ (i : Nat) f x, fields[i]? = some f → (vals.set sf.index v)[i]? = some x → ValidValue env f.typ x := by
          intro v hvv i f x hf hx
          by_cases hi : sf.index = i
          · subst hi
            rw [d1] at hf
            cases hf
            rw [List.getElem?_set_self (List.getElem?_eq_some_iff.1 hv0).1] at hx
            cases hx
            exact hvv
          · rw [List.getElem?_set_ne hi] at hx
            exact hv i f x hf hx
        refine safe_andThen (ih1 n d.typ sf.a v0 h.type d3 (hv _ d v0 d1 hv0)) (fun v hvv => ?_) fun v e hvv => fin _ (by simpa using hlen) (upd v hvv)
        exact safe_rcall (fun _ => fin _ (by simpa using hlen) (upd v hvv)) fun _ _ => ih2 n t fields sfs _ hk htab (by simpa using hlen) (upd v hvv)

end GoThrift
