import Verif.Spec.Load
import Verif.Proof.Valid
import Verif.Proof.Robust

/-!
# What Unmarshal stores was delivered by the Reader
-/

namespace GoThrift

open Spec

/-- What an answer of a Reader delivers. -/
def delivered : (o : ROp) → o.Ans → Nat
  | .string, b => 1 + b.length
  | .bytes buf, b => 1 + (b.length - buf.length)
  | .fieldBegin, h => if h.type = Ty.stop then 1 else 0
  | .messageBegin, _ | .messageEnd, _ | .structBegin, _ | .structEnd, _ | .fieldEnd, _ | .mapEnd, _ | .setEnd, _ | .listEnd, _ | .skipString, _ | .skipUUID, _ => 0
  | _, _ => 1

/-- Count what is delivered. -/
def deliver : Mon Nat where
  pre _ _ := True
  okAns _ _ := True
  next o a g := g + delivered o a
  fail _ g := g
  panics := True

/-! ## Loads -/

theorem loads_append (a b : List GoVal) : loads (a ++ b) = loads a + loads b := by
  induction a with
  | nil => simp [loads]
  | cons x a ih => simp [loads, ih]; omega

theorem loads_set (vs : List GoVal) (i : Nat) (v v' : GoVal) (h : vs[i]? = some v) : loads (vs.set i v') + load v = loads vs + load v' := by
  induction vs generalizing i with
  | nil => cases h
  | cons x vs ih =>
    cases i with
    | zero => cases h; simp [loads]; omega
    | succ i => have := ih i h; simp [loads]; omega

theorem loadEntries_set (k v : GoVal) (es : List (GoVal × GoVal)) (z : GoVal) (hz : load z = 0) :
    (setMapIndex k v es).length + loadEntries (setMapIndex k v es) + load ((mapIndex k es).getD z) ≤ es.length + loadEntries es + 1 + load k + load v := by
  induction es with
  | nil => simp [setMapIndex, mapIndex, loadEntries, hz]; omega
  | cons e es ih =>
    obtain ⟨k', v'⟩ := e
    rw [setMapIndex, mapIndex]
    split
    · simp [loadEntries]; omega
    · simp only [loadEntries, List.length_cons]; omega

theorem load_zero (env : Env) (t : TypeId) : load (env.zero t) = 0 := by
  have hk := env.zero_eq t
  cases hkind : (env.type t).kind with
  | struct fs =>
    rw [hkind, Kind.zero] at hk
    have : ∀ fs' : List FieldDecl, (∀ f ∈ fs', f ∈ fs) → loads (fs'.map fun f => env.zero f.typ) = 0 := by
      intro fs' hfs
      induction fs' with
      | nil => rfl
      | cons f fs' ih =>
        have : sizeOf (env.zero f.typ) < sizeOf (env.zero t) := by
          have : sizeOf (env.zero f.typ) < sizeOf (fs.map fun f => env.zero f.typ) :=
            List.sizeOf_lt_of_mem (List.mem_map.2 ⟨f, hfs f (by simp), rfl⟩)
          rw [hk]
          simp
          omega
        rw [List.map_cons, loads, load_zero env f.typ, ih fun f hf => hfs f (by simp [hf])]
    rw [hk, load]
    exact this fs fun _ h => h
  | slice e => rw [hkind, Kind.zero] at hk; rw [hk]; split <;> rfl
  | _ => rw [hkind, Kind.zero] at hk; rw [hk]; rfl
termination_by sizeOf (env.zero t)

/-! ## Programs -/

/-- The load grows at most by what is delivered; a value completely decoded leaves one over. -/
def Pays (size : α → Nat) (base g0 : Nat) (x : α × Option Err) (g : Nat) : Prop := size x.1 + (if x.2 = none then 1 else 0) + g0 ≤ base + g

theorem Pays.fail {size : α → Nat} {base g0 g : Nat} {a : α} {e : Err} (h : size a + g0 ≤ base + g) : Pays size base g0 (a, some e) g := by
  simpa [Pays] using h

theorem Pays.of_fail {size : α → Nat} {base g0 g : Nat} {a : α} {e : Err} (h : Pays size base g0 (a, some e) g) : size a + g0 ≤ base + g := by
  simpa [Pays] using h

theorem Pays.of_ok {size : α → Nat} {base g0 g : Nat} {a : α} (h : Pays size base g0 (a, none) g) : size a + 1 + g0 ≤ base + g := by
  simpa [Pays] using h

theorem Pays.ok {size : α → Nat} {base g0 g : Nat} {a : α} (h : size a + 1 + g0 ≤ base + g) : Pays size base g0 (a, none) g := by
  simpa [Pays] using h

theorem deliver_rcall {α : Type} {Q : α × Option Err → Nat → Prop} {act : String} {tt : WType} {t : TypeId} {o : ROp} {old : α} {k : o.Ans → UProg α} {g : Nat}
    (hk : ∀ a, Wp deliver Q (k a) (g + delivered o a)) (he : ∀ e, Q (old, some e) g) : Wp deliver Q (rcall act tt t o old k) g :=
  Wp.rcall trivial (fun a _ => hk a) fun e => he _

/-- Skip: nothing is lost. -/
theorem deliver_any {α : Type} (p : RProg α) (g : Nat) : Wp deliver (fun _ g' => g ≤ g') p g := by
  suffices ∀ g', g ≤ g' → Wp deliver (fun _ g' => g ≤ g') p g' from this g (Nat.le_refl _)
  induction p with
  | ret a => exact fun _ h => h
  | diverge => exact fun _ _ => trivial
  | panic => exact fun _ _ => trivial
  | call o k ih => exact fun g' h => ⟨trivial, fun a _ => ih _ _ (Nat.le_trans h (Nat.le_add_right _ _)), fun e => ih _ _ h⟩

theorem deliver_seqLoop {env : Env} {et : TypeId} {u : GoVal → UProg GoVal} (hu : ∀ v g, Wp deliver (Pays load (load v) g) (u v) g) (grow : Nat → Nat) (n : Nat) (done rest : List GoVal)
    (mz : Bool) (hz : mz = true ∨ ∀ v ∈ rest, v = env.zero et) (g : Nat) :
    Wp deliver (fun x g' => x.1.1.length + loads x.1.1 + g ≤ done.length + loads done + (if x.2 = none then 0 else 1) + g') (seqLoop u (env.zero et) grow n done rest mz) g := by
  induction n generalizing done rest mz g with
  | zero => show _ ≤ _; simp
  | succ n ih =>
    rw [seqLoop]
    obtain ⟨r0, rest', h1, h2, h3⟩ := slot_zero hz (grow done.length - done.length)
    (try dsimp only)
    rw [h1]
    (try dsimp only)
    rw [h2]
    refine Wp.andThen (hu _ g) (fun v g' hg => ?_) fun v e g' hg => ?_
    · have hg := hg.of_ok
      rw [load_zero] at hg
      refine Wp.imp (fun x g'' h => ?_) (ih (done ++ [v]) rest' _ h3 g')
      rw [loads_append, List.length_append] at h
      simp only [loads, List.length_singleton] at h
      omega
    · have hg := hg.of_fail
      rw [load_zero] at hg
      rw [loads_append, List.length_append]
      simp [loads]
      omega

theorem deliver_mapLoop {uk : UProg GoVal} {uv : GoVal → UProg GoVal} {z : GoVal} (hz : load z = 0) (hk : ∀ g, Wp deliver (Pays load 0 g) uk g) (hv : ∀ v g, Wp deliver (Pays load (load v) g) (uv v) g)
    (n : Nat) (es : List (GoVal × GoVal)) (g : Nat) :
    Wp deliver (fun x g' => x.1.length + loadEntries x.1 + g ≤ es.length + loadEntries es + g') (mapLoop uk uv z n es) g := by
  induction n generalizing es g with
  | zero => show _ ≤ _; simp
  | succ n ih =>
    refine Wp.andThen (hk g) (fun k g' hg => ?_) fun k e g' hg => ?_
    · have hg := hg.of_ok
      refine Wp.andThen (hv _ g') (fun v g'' hg' => ?_) fun v e g'' hg' => ?_
      · have hg' := hg'.of_ok
        have := loadEntries_set k v es z hz
        exact Wp.imp (fun x g'' h => by omega) (ih (setMapIndex k v es) g'')
      · have hg' := hg'.of_fail
        have := loadEntries_set k v es z hz
        dsimp only
        omega
    · have hg := hg.of_fail
      dsimp only
      omega

theorem deliver_leaf (env : Env) (t : TypeId) (l : Leaf) (old : GoVal) (wt : WType) (g : Nat) : Wp deliver (Pays load (load old) g) (unmarshalLeaf env t l old wt) g := by
  unfold unmarshalLeaf
  split
  · exact .fail (by omega)
  · cases l with
    | bytes =>
      dsimp only
      split
      · refine deliver_rcall (fun a => .ok ?_) fun _ => .fail (by omega)
        rename_i b
        simp only [delivered]
        split <;> simp [load] <;> omega
      · trivial
    | _ => refine deliver_rcall (fun a => .ok ?_) fun _ => .fail (by omega) <;> simp [load, delivered] <;> omega

theorem deliver_unmarshal (env : Env) (sk fuel : Nat) :
    (∀ a old wt g, Wp deliver (Pays load (load old) g) (unmarshal env sk fuel a old wt) g) ∧
    (∀ t fs vals g, Wp deliver (Pays load (loads vals) g) (unmarshalFields env sk fuel t fs vals) g) := by
  induction fuel with
  | zero => exact ⟨fun _ _ _ _ => by rw [unmarshal]; trivial, fun _ _ _ _ => by rw [unmarshalFields]; trivial⟩
  | succ fuel ih =>
    obtain ⟨ih1, ih2⟩ := ih
    constructor
    · intro a old wt g
      cases a with
      | leaf t l => rw [unmarshal]; exact deliver_leaf _ _ _ _ _ _
      | struct t =>
        rw [unmarshal]
        refine Wp.elim (.inr trivial) fun r _ => ?_
        cases r with
        | error e => exact .fail (by omega)
        | ok fs =>
          dsimp only
          split
          · exact .fail (by omega)
          · cases old with
            | struct vals => exact deliver_rcall (fun _ => ih2 _ _ _ _) fun _ => .fail (by omega)
            | _ => trivial
      | map t ka ea =>
        rw [unmarshal, unmarshalMap]
        split
        · exact .fail (by omega)
        · cases ho : old.entries? with
          | none => trivial
          | some es =>
            have hl : load old = es.length + loadEntries es := by
              cases old <;> cases ho <;> rfl
            refine deliver_rcall (fun hd => ?_) fun _ => .fail (by omega)
            simp only [delivered]
            have fin : ∀ v g', load v + 1 + g ≤ load old + g' → Wp deliver (Pays load (load old) g) (rcall "ReadMapEnd" Ty.map t .mapEnd v fun _ => .ret (v, none)) g' :=
              fun v g' h => deliver_rcall (fun _ => .ok (by simpa [delivered] using h)) fun _ => .fail (by omega)
            split
            · refine Wp.andThen (deliver_mapLoop (load_zero _ _) (fun g => ?_) (fun v g => ih1 _ _ _ _) _ es _) (fun es' g' hg => fin _ _ ?_) fun es' e g' hg => .fail ?_
              · have := ih1 ka (env.zero ka.typ) hd.key g
                rwa [load_zero] at this
              · dsimp only at hg; rw [load]; omega
              · dsimp only at hg; rw [load]; omega
            · exact fin _ _ (by omega)
      | seq t isSet ea =>
        have body : ∀ (hd : SetHeader) (fin : GoVal → UProg GoVal), (∀ v g', load v + 1 + g ≤ load old + g' → Wp deliver (Pays load (load old) g) (fin v) g') →
            Wp deliver (Pays load (load old) g) (seqBody env t ea.typ (fun wt v => unmarshal env sk fuel ea v wt) old hd fin) (g + 1) := by
          intro hd fin hfin
          rw [seqBody]
          split
          · refine Wp.andThen (deliver_seqLoop (fun v g => ih1 _ _ _ _) _ _ [] _ true (.inl rfl) _) (fun p g' hg => hfin _ _ ?_) fun p e g' hg => .fail ?_
            · simp only [if_true, List.length_nil, loads] at hg; rw [load]; omega
            · simp only [reduceCtorEq, if_false, List.length_nil, loads] at hg; rw [load]; omega
          · refine hfin _ _ ?_
            have : load old.cleared ≤ load old := by cases old <;> simp [GoVal.cleared, load, loads]
            omega
        rw [unmarshal, unmarshalSeq]
        cases isSet with
        | true =>
          simp only [if_true]
          split
          · exact .fail (by omega)
          · split
            · trivial
            · exact deliver_rcall (fun hd => body hd _ fun v g' h => deliver_rcall (fun _ => .ok (by simpa [delivered] using h)) fun _ => .fail (by omega)) fun _ => .fail (by omega)
        | false =>
          simp only [Bool.false_eq_true, if_false]
          split
          · exact .fail (by omega)
          · split
            · trivial
            · exact deliver_rcall (fun hd => body hd _ fun v g' h => deliver_rcall (fun _ => .ok (by simpa [delivered] using h)) fun _ => .fail (by omega)) fun _ => .fail (by omega)
      | ptr t ea =>
        rw [unmarshal]
        cases ho : old.deref? (env.zero ea.typ) with
        | none => trivial
        | some v =>
          have hl : load v = load old := by
            cases old <;> cases ho
            · rw [load_zero]; rfl
            · rfl
          have := ih1 ea v wt g
          rw [hl] at this
          exact Wp.andThen this (fun _ _ hg => .ok hg.of_ok) fun _ _ _ hg => .fail hg.of_fail
      | invalid t => rw [unmarshal]; exact .fail (by omega)
    · intro t fs vals g
      rw [unmarshalFields]
      refine deliver_rcall (fun hd => ?_) fun _ => .fail (by rw [load]; omega)
      simp only [delivered]
      by_cases hs : hd.type = Ty.stop
      · rw [if_pos hs, if_pos hs]
        exact deliver_rcall (fun _ => .ok (by rw [load]; simp only [delivered]; omega)) fun _ => .fail (by rw [load]; omega)
      · rw [if_neg hs, if_neg hs]
        have next : ∀ vals' g', loads vals' + g ≤ loads vals + g' →
            Wp deliver (Pays load (loads vals) g) (rcall "ReadFieldEnd" Ty.struct t .fieldEnd (.struct vals') fun _ => unmarshalFields env sk fuel t fs vals') g' := by
          intro vals' g' h
          refine deliver_rcall (fun _ => Wp.imp (fun x g'' hx => ?_) (ih2 t fs vals' g')) fun _ => .fail (by rw [load]; omega)
          unfold Pays at hx ⊢
          omega
        split
        · refine Wp.bind (deliver_any _ _) fun e g' he => ?_
          cases e with
          | none => exact next vals g' (by omega)
          | some e => exact .fail (by rw [load]; omega)
        · rename_i sf _
          cases hv : vals[sf.index]? with
          | none => trivial
          | some v =>
            refine Wp.andThen (ih1 _ _ _ _) (fun v' g' hg => next _ _ ?_) fun v' e g' hg => .fail ?_
            · have := loads_set vals sf.index v v' hv
              have := hg.of_ok
              omega
            · have := loads_set vals sf.index v v' hv
              have := hg.of_fail
              rw [load]
              omega

theorem deliver_Unmarshal (env : Env) (fuel : Nat) (p t : TypeId) (hp : (env.type p).kind = .ptr t) (old : GoVal) (g : Nat) :
    Wp deliver (fun x g' => ∃ v, x.1 = AnyVal.val p (.ptr v) ∧ load v + g ≤ load old + g') (Unmarshal env fuel (.val p (.ptr old))) g := by
  have he : env.elem? p = some t := by simp [Env.elem?, hp]
  simp only [Unmarshal, he, GoVal.pointee?]
  cases lookupArshaler env fuel t with
  | done a =>
    refine Wp.bind ((deliver_unmarshal env fuel fuel).1 a old _ g) fun x g' hx => ?_
    obtain ⟨v, x⟩ := x
    have hx' : load v + g ≤ load old + g' := by simp only [Pays] at hx; omega
    cases x <;> exact ⟨v, rfl, hx'⟩
  | _ => trivial

end GoThrift
