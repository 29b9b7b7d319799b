import Verif.Proof.Hostile
import Verif.Proof.Top
import Verif.Spec.Marshal

/-!
# Marshal terminates; it succeeds on the values that stand for a wire value
-/

namespace GoThrift

open Spec Spec.TVal

/-! ## Programs that end -/

/-- The program neither diverges nor panics by itself; with `b`, it returns nil if all calls succeed. -/
def WGood (b : Bool) : WProg → Prop
  | .ret e => b = true → e = none
  | .diverge | .panic => False
  | .call _ k => WGood b (k none) ∧ ∀ e, WGood false (k (some e))

theorem WGood.weaken {b : Bool} {p : WProg} (h : WGood b p) : WGood false p := by
  induction p with
  | ret e => intro h; cases h
  | diverge => exact h
  | panic => exact h
  | call o k ih => exact ⟨ih _ h.1, h.2⟩

theorem WGood.andThen {b : Bool} {p q : WProg} (hp : WGood b p) (hq : WGood b q) : WGood b (p.andThen q) := by
  induction p generalizing b with
  | ret e => cases e with
    | none => exact hq
    | some e => exact hp
  | diverge => exact hp
  | panic => exact hp
  | call o k ih => exact ⟨ih _ hp.1 hq, fun e => ih _ (hp.2 e) hq.weaken⟩

theorem WGood.wcall {b : Bool} {act : String} {tt : WType} {t : TypeId} {o : WOp} {k : WProg} (h : WGood b k) : WGood b (wcall act tt t o k) :=
  ⟨h, fun _ h => by cases h⟩

theorem WGood.le {b : Bool} {p q : WProg} (h : WProg.Le p q) (hp : WGood b p) : WGood b q := by
  induction h generalizing b with
  | diverge q => exact hp.elim
  | ret e => exact hp
  | panic => exact hp
  | call o k k' _ ih => exact ⟨ih _ hp.1, fun e => ih _ (hp.2 e)⟩

/-- On a writer all of whose methods return, it ends. -/
theorem WGood.run {S : Type} {b : Bool} {p : WProg} (h : WGood b p) (w : Wtr S) (hw : ∀ o s, ∃ e s', w.step o s = .done (e, s')) (s : S) : ∃ e s', p.run w s = .done (e, s') := by
  induction p generalizing b s with
  | ret e => exact ⟨e, s, rfl⟩
  | diverge => exact h.elim
  | panic => exact h.elim
  | call o k ih =>
    obtain ⟨e, s', hs⟩ := hw o s
    rw [WProg.run, hs, Out.bind_done]
    cases e with
    | none => exact ih none h.1 s'
    | some e => exact ih (some e) (h.2 e) s'

theorem WGood.run_ok {p : WProg} (h : WGood true p) (ops : List WOp) : ∃ ops', p.run okWriter ops = .done (none, ops') := by
  induction p generalizing ops with
  | ret e => rw [h rfl]; exact ⟨ops, rfl⟩
  | diverge => exact h.elim
  | panic => exact h.elim
  | call o k ih => exact ih none h.1 (ops ++ [o])

theorem writes_ok (l : List WOp) (ops : List WOp) : Writes okWriter l ops (ops ++ l) := by
  induction l generalizing ops with
  | nil => simpa using Writes.nil (w := okWriter) ops
  | cons o l ih => exact .cons (s1 := ops ++ [o]) rfl (by simpa using ih (ops ++ [o]))

theorem okRun_prefix {p : WProg} {ops0 ops : List WOp} {e : Option Err} (h : p.run okWriter ops0 = .done (e, ops)) : ops0 <+: ops := by
  induction p generalizing ops0 with
  | ret _ => cases h; exact List.prefix_refl _
  | diverge => cases h
  | panic => cases h
  | call o k ih => exact (List.prefix_append _ _).trans (ih none (ops0 := ops0 ++ [o]) h)

/-- A program that makes certain calls when all succeed makes them on any writer that takes them. -/
theorem replay_calls {S : Type} {w : Wtr S} {p : WProg} {ops0 ops : List WOp} {e : Option Err} (h : p.run okWriter ops0 = .done (e, ops0 ++ ops)) {s s' : S} (hw : Writes w ops s s') :
    p.run w s = .done (e, s') := by
  induction p generalizing ops0 ops s with
  | ret _ =>
    rw [WProg.run] at h
    injection h with h
    injection h with h1 h2
    have : ops = [] := by simpa using h2
    subst this h1
    cases hw
    rfl
  | diverge => cases h
  | panic => cases h
  | call o k ih =>
    have h : (k none).run okWriter (ops0 ++ [o]) = .done (e, ops0 ++ ops) := h
    obtain ⟨rest, hr⟩ := okRun_prefix h
    have hops : ops = o :: rest := by
      rw [List.append_assoc] at hr
      exact (List.append_cancel_left hr).symm
    subst hops
    unfold Writes at hw
    simp only [WProg.ofCalls, WProg.run] at hw ⊢
    cases hs : w.step o s with
    | done x =>
      obtain ⟨e', s1⟩ := x
      simp only [hs, Out.bind_done] at hw ⊢
      cases e' with
      | some e' => cases hw
      | none => exact ih none (ops0 := ops0 ++ [o]) (by simpa using h) hw
    | _ => simp only [hs] at hw; cases hw

/-! ## The loops -/

theorem WGood.elems {b : Bool} {m : GoVal → WProg} {k : WProg} (hk : WGood b k) (vs : List GoVal) (hm : ∀ v ∈ vs, WGood b (m v)) : WGood b (marshalElems m k vs) := by
  induction vs with
  | nil => exact hk
  | cons v vs ih => exact (hm v (by simp)).andThen (ih fun v hv => hm v (by simp [hv]))

theorem WGood.entries {b : Bool} {mk mv : GoVal → WProg} {k : WProg} (hk : WGood b k) (es : List (GoVal × GoVal)) (h1 : ∀ e ∈ es, WGood b (mk e.1)) (h2 : ∀ e ∈ es, WGood b (mv e.2)) :
    WGood b (marshalEntries mk mv k es) := by
  induction es with
  | nil => exact hk
  | cons e es ih => exact (h1 e (by simp)).andThen ((h2 e (by simp)).andThen (ih (fun v hv => h1 v (by simp [hv])) fun v hv => h2 v (by simp [hv])))

theorem WGood.fields {b : Bool} {env : Env} {m : Arsh → GoVal → WProg} {t : TypeId} {vals : List GoVal} {k : WProg} (hk : WGood b k) (fs : List SField)
    (hst : b = true → ∀ f ∈ fs, f.a.wireType ≠ Ty.stop)
    (hm : ∀ f ∈ fs, ∃ v, vals[f.index]? = some v ∧ (f.required = true ∨ reportsZero env f.typ v = false → WGood b (m f.a v))) : WGood b (marshalFields env m t vals k fs) := by
  induction fs with
  | nil => exact hk
  | cons f fs ih =>
    have ih := ih (fun h f hf => hst h f (by simp [hf])) fun f hf => hm f (by simp [hf])
    obtain ⟨v, hv, hm⟩ := hm f (by simp)
    rw [marshalFields]
    split
    · rename_i h
      exact fun hb => absurd h (hst hb f (by simp))
    · rw [hv]
      dsimp only
      split
      · exact ih
      · rename_i hz
        refine .wcall (.andThen (hm ?_) (.wcall ih))
        cases hr : f.required <;> cases hz' : reportsZero env f.typ v <;> simp_all

theorem WGood.leaf (b : Bool) {env : Env} {n : Nat} {t : TypeId} {l : Leaf} (h : lookupArshaler env n t = .done (.leaf t l)) {v : GoVal} (hv : Shape env t v) : WGood b (marshalLeaf env t l v) := by
  cases n with
  | zero => cases h
  | succ n =>
    have hc := lookup_cases h
    have one : ∀ {act tt o}, WGood b (GoThrift.wcall act tt t o (.ret none)) := fun {_ _ _} => WGood.wcall fun _ => rfl
    unfold Shape at hv
    cases hk : (env.type t).kind <;> rw [hk] at hc hv <;> dsimp only at hc
    case map => obtain ⟨_, _, _, _, hc⟩ := hc; cases hc
    case ptr => obtain ⟨_, _, hc⟩ := hc; cases hc
    case struct => cases hc
    case other => cases hc
    case slice =>
      rcases hc with ⟨hb, hc⟩ | ⟨_, _, _, hc⟩
      · cases hc
        cases v <;> simp [hb] at hv
        exact one
      · cases hc
    all_goals (cases hc; cases v <;> first | exact hv.elim | exact one)

/-- A bound for each of finitely many things is a bound for all. -/
theorem common_bound {α : Type} {P : Nat → α → Prop} (hP : ∀ n m a, n ≤ m → P n a → P m a) (l : List α) (h : ∀ a ∈ l, ∃ n, P n a) : ∃ n, ∀ a ∈ l, P n a := by
  induction l with
  | nil => exact ⟨0, by simp⟩
  | cons a l ih =>
    obtain ⟨n, hn⟩ := ih fun a ha => h a (by simp [ha])
    obtain ⟨m, hm⟩ := h a (by simp)
    refine ⟨max n m, fun x hx => ?_⟩
    rcases List.mem_cons.1 hx with rfl | hx
    · exact hP m _ _ (Nat.le_max_right _ _) hm
    · exact hP n _ _ (Nat.le_max_left _ _) (hn x hx)

/-! ## One layer -/

/-- Marshalling `v` as a `t` ends. -/
def Ends' (env : Env) (b : Bool) (n : Nat) (p : TypeId × GoVal) : Prop := ∀ m a, lookupArshaler env m p.1 = .done a → WGood b (marshal env n a p.2)

theorem Ends'.mono {env : Env} {b : Bool} {n m : Nat} {p : TypeId × GoVal} (h : n ≤ m) (he : Ends' env b n p) : Ends' env b m p := fun k a hl => (he k a hl).le (marshal_le env n m h a _)

theorem fieldLoop_total' (env : Env) (t : TypeId) (ds : List FieldDecl) (h : ∀ d ∈ ds, ¬ Ignored d → Acc (InPart env) d.typ) (i : Nat) : ∃ n x, fieldLoop env n t i ds = .done x := by
  induction ds generalizing i with
  | nil => exact ⟨0, _, rfl⟩
  | cons d ds ih =>
    obtain ⟨⟨o, ig, e⟩, hp⟩ := C17_terminates env.unicode d
    obtain ⟨n1, x, h1⟩ := ih (fun d hd => h d (by simp [hd])) (i + 1)
    cases e with
    | some e => exact ⟨n1, _, by rw [fieldLoop, hp, Out.bind_done]⟩
    | none =>
      cases ig with
      | true =>
        refine ⟨n1, x, ?_⟩
        rw [fieldLoop, hp, Out.bind_done]
        exact h1
      | false =>
        have hni : ¬ Ignored d := fun hi => hi.not_declares (parse_declares env d o hp).2
        obtain ⟨n2, a, h2⟩ := (lookup_iff_acc env d.typ).2 (h d (by simp) hni)
        refine ⟨max n1 n2, ?_⟩
        rw [fieldLoop, hp, Out.bind_done]
        simp only [Bool.false_eq_true, if_false]
        rw [(lookupArshaler_le env n2 (max n1 n2) (by omega) d.typ).done h2, Out.bind_done, (fieldLoop_le env n1 (max n1 n2) (by omega) t (i + 1) ds).done h1, Out.bind_done]
        cases x <;> exact ⟨_, rfl⟩

theorem makeStructFields_total' (env : Env) (t : TypeId) (h : ∀ d ∈ env.fields t, ¬ Ignored d → Acc (InPart env) d.typ) : ∃ n x, makeStructFields env n t = .done x := by
  obtain ⟨n, x, hx⟩ := fieldLoop_total' env t _ h 0
  refine ⟨n, ?_⟩
  rw [makeStructFields, hx, Out.bind_done]
  cases x with
  | error e => exact ⟨_, rfl⟩
  | ok all => dsimp only; split <;> exact ⟨_, rfl⟩

theorem fin {b : Bool} {act : String} {tt : WType} {t : TypeId} {o : WOp} : WGood b (wcall act tt t o (.ret none)) := .wcall fun _ => rfl

theorem ends_step (env : Env) (b : Bool) (t : TypeId) (v : GoVal) (ht : HasType env t v) (hacc : ∀ fs, (env.type t).kind = .struct fs → ∀ f ∈ fs, ¬ Ignored f → Acc (InPart env) f.typ)
    (hrep : b = true → ∃ tv, Rep env t v tv) (ih : ∀ p, Involves env p (t, v) → ∃ n, Ends' env b n p) : ∃ n, Ends' env b n (t, v) := by
  have hshape := Everywhere.here ht
  cases hk : (env.type t).kind with
  | ptr e =>
    unfold Shape at hshape
    rw [hk] at hshape
    have go : ∀ v' , v.deref? (env.zero e) = some v' → Involves env (e, v') (t, v) → ∃ n, Ends' env b n (t, v) := by
      intro v' hd hi
      obtain ⟨n, hn⟩ := ih _ hi
      refine ⟨n + 1, fun m a hl => ?_⟩
      cases m with
      | zero => cases hl
      | succ m =>
        have hc := lookup_cases hl
        rw [hk] at hc
        obtain ⟨ea, hle, rfl⟩ := hc
        rw [marshal, (lookup_wireType hle).1, hd]
        exact hn m ea hle
    cases v <;> first | exact hshape.elim | skip
    · exact go _ rfl (.ptrNil hk)
    · exact go _ rfl (.ptr hk)
  | slice e =>
    cases hb : (env.type t).asBytes with
    | true =>
      refine ⟨1, fun m a hl => ?_⟩
      cases m with
      | zero => cases hl
      | succ m =>
        have hc := lookup_cases hl
        rw [hk] at hc
        rcases hc with ⟨_, rfl⟩ | ⟨hb', _⟩
        · exact .leaf b hl hshape
        · rw [hb] at hb'; cases hb'
    | false =>
      have hvs : v = .sliceNil ∨ ∃ es sp, v = .slice es sp := by
        unfold Shape at hshape
        rw [hk] at hshape
        cases v <;> first | exact hshape.elim | skip
        · exact absurd hshape (by simp [hb])
        · exact .inl rfl
        · exact .inr ⟨_, _, rfl⟩
      have hel : v.elems? = some (elemsOf v) := by rcases hvs with rfl | ⟨_, _, rfl⟩ <;> rfl
      obtain ⟨n, hn⟩ := common_bound (P := fun n x => Ends' env b n (e, x)) (fun n m a h => .mono h) (elemsOf v) fun x hx => ih (e, x) (by
        rcases hvs with rfl | ⟨_, _, rfl⟩
        · cases hx
        · exact .elem hk hx)
      refine ⟨n + 1, fun m a hl => ?_⟩
      cases m with
      | zero => cases hl
      | succ m =>
        have hc := lookup_cases hl
        rw [hk] at hc
        rcases hc with ⟨hb', _⟩ | ⟨_, ea, hle, rfl⟩
        · rw [hb] at hb'; cases hb'
        · rw [marshal]
          split
          · rename_i hst
            intro hbt
            exfalso
            obtain ⟨tv, hr⟩ := hrep hbt
            cases hr with
            | leaf h => cases h <;> simp_all
            | ptr hk' => rw [hk] at hk'; cases hk'
            | ptrNil hk' => rw [hk] at hk'; cases hk'
            | map hk' => rw [hk] at hk'; cases hk'
            | struct _ hk' => rw [hk] at hk'; cases hk'
            | set hk' _ _ hw => rw [hk] at hk'; cases hk'; exact hw.ne_stop ((hw.lookup hle).symm.trans hst)
            | list hk' _ _ _ hw => rw [hk] at hk'; cases hk'; exact hw.ne_stop ((hw.lookup hle).symm.trans hst)
          · rw [hel]
            dsimp only
            rw [marshalSeq]
            split
            · exact .wcall (.elems fin _ fun x hx => hn x hx m ea hle)
            · exact .wcall (.elems fin _ fun x hx => hn x hx m ea hle)
  | map k e =>
    have hvs : v = .mapNil ∨ ∃ es, v = .map es := by
      unfold Shape at hshape
      rw [hk] at hshape
      cases v <;> first | exact hshape.elim | exact .inl rfl | exact .inr ⟨_, rfl⟩
    have hel : v.entries? = some (entriesOf v) := by rcases hvs with rfl | ⟨_, rfl⟩ <;> rfl
    obtain ⟨n1, hn1⟩ := common_bound (P := fun n (x : GoVal × GoVal) => Ends' env b n (k, x.1)) (fun n m a h => .mono h) (entriesOf v) fun x hx => ih (k, x.1) (by
      rcases hvs with rfl | ⟨_, rfl⟩
      · cases hx
      · exact .key hk hx)
    obtain ⟨n2, hn2⟩ := common_bound (P := fun n (x : GoVal × GoVal) => Ends' env b n (e, x.2)) (fun n m a h => .mono h) (entriesOf v) fun x hx => ih (e, x.2) (by
      rcases hvs with rfl | ⟨_, rfl⟩
      · cases hx
      · exact .value hk hx)
    refine ⟨max n1 n2 + 1, fun m a hl => ?_⟩
    cases m with
    | zero => cases hl
    | succ m =>
      have hc := lookup_cases hl
      rw [hk] at hc
      obtain ⟨ka, ea, hlk, hle, rfl⟩ := hc
      rw [marshal]
      split
      · rename_i hst
        intro hbt
        exfalso
        obtain ⟨tv, hr⟩ := hrep hbt
        cases hr with
        | leaf h => cases h <;> simp_all
        | ptr hk' => rw [hk] at hk'; cases hk'
        | ptrNil hk' => rw [hk] at hk'; cases hk'
        | set hk' => rw [hk] at hk'; cases hk'
        | list hk' => rw [hk] at hk'; cases hk'
        | struct _ hk' => rw [hk] at hk'; cases hk'
        | map hk' _ hw1 hw2 =>
          rw [hk] at hk'
          cases hk'
          rcases hst with hst | hst
          · exact hw1.ne_stop ((hw1.lookup hlk).symm.trans hst)
          · exact hw2.ne_stop ((hw2.lookup hle).symm.trans hst)
      · rw [hel]
        dsimp only
        exact .wcall (.entries fin _ (fun x hx => (hn1 x hx).mono (Nat.le_max_left _ _) m ka hlk) fun x hx => (hn2 x hx).mono (Nat.le_max_right _ _) m ea hle)
  | struct fs =>
    have hfs := fields_struct hk
    obtain ⟨n1, x, hx⟩ := makeStructFields_total' env t (by rw [hfs]; exact hacc fs hk)
    have hvs : ∃ vs, v = .struct vs ∧ vs.length = fs.length := by
      unfold Shape at hshape
      rw [hk] at hshape
      cases v <;> first | exact hshape.elim | exact ⟨_, rfl, hshape⟩
    obtain ⟨vs, rfl, hlen⟩ := hvs
    cases x with
    | error e =>
      refine ⟨n1 + 1, fun m a hl => ?_⟩
      cases m with
      | zero => cases hl
      | succ m =>
        have hc := lookup_cases hl
        rw [hk] at hc
        dsimp only at hc
        subst hc
        rw [marshal, hx]
        intro hbt
        exfalso
        obtain ⟨tv, hr⟩ := hrep hbt
        cases hr with
        | leaf h => cases h
        | set _ _ h => rcases h with h | ⟨_, _, h⟩ <;> cases h
        | list _ _ _ h => rcases h with h | ⟨_, _, h⟩ <;> cases h
        | map _ h => rcases h with h | ⟨_, h⟩ <;> cases h
        | struct _ hk' _ hall hacc' htag =>
          rw [hk] at hk'
          cases hk'
          obtain ⟨n2, sfs, h2⟩ := table_exists env t (by
            rw [hfs]
            intro f hf
            rcases hall f hf with h | ⟨id, r, _, h, _⟩
            · exact .inl h
            · exact .inr ⟨id, r, h⟩) (by rw [hfs]; exact hacc') (by rw [hfs]; exact htag)
          have h3 := (makeStructFields_le env n1 (max n1 n2) (by omega) t).done hx
          have h4 := (makeStructFields_le env n2 (max n1 n2) (by omega) t).done h2
          rw [h3] at h4
          cases h4
    | ok sfs =>
      have htab := makeStructFields_table env n1 t sfs hx
      have hval : ∀ f ∈ sfs, ∃ d v, fs[f.index]? = some d ∧ vs[f.index]? = some v ∧ Declares env d f.id f.required ∧ f.typ = d.typ ∧ lookupArshaler env n1 d.typ = .done f.a := by
        intro f hf
        obtain ⟨d, hd1, hd2, _, hd4, hd5⟩ := htab.mem f hf
        rw [hfs] at hd1
        have hi : f.index < vs.length := hlen ▸ (List.getElem?_eq_some_iff.1 hd1).1
        exact ⟨d, vs[f.index], hd1, List.getElem?_eq_getElem hi, hd2, hd4, hd5⟩
      obtain ⟨n2, hn2⟩ := common_bound (P := fun n (f : SField) => ∃ v, vs[f.index]? = some v ∧ (f.required = true ∨ reportsZero env f.typ v = false → WGood b (marshal env n f.a v)))
        (fun n m f h ⟨v, hv, hg⟩ => ⟨v, hv, fun hw => (hg hw).le (marshal_le env n m h f.a v)⟩) sfs (fun f hf => by
          obtain ⟨d, v, hd, hv, hdec, hty, hl⟩ := hval f hf
          by_cases hw : f.required = true ∨ reportsZero env f.typ v = false
          · obtain ⟨n, hn⟩ := ih (d.typ, v) (.field hk hd hv ⟨f.id, f.required, hdec, hty ▸ hw⟩)
            exact ⟨n, v, hv, fun _ => hn n1 f.a hl⟩
          · exact ⟨0, v, hv, fun h => absurd h hw⟩)
      refine ⟨max n1 n2 + 1, fun m a hl => ?_⟩
      cases m with
      | zero => cases hl
      | succ m =>
        have hc := lookup_cases hl
        rw [hk] at hc
        dsimp only at hc
        subst hc
        rw [marshal, (makeStructFields_le env n1 (max n1 n2) (by omega) t).done hx]
        dsimp only [Out.elim, GoVal.fields?]
        refine .wcall (.fields fin sfs (fun hbt f hf => ?_) fun f hf => ?_)
        · obtain ⟨d, v, hd, hv, hdec, hty, hl⟩ := hval f hf
          obtain ⟨tv, hr⟩ := hrep hbt
          cases hr with
          | leaf h => cases h
          | set _ _ h => rcases h with h | ⟨_, _, h⟩ <;> cases h
          | list _ _ _ h => rcases h with h | ⟨_, _, h⟩ <;> cases h
          | map _ h => rcases h with h | ⟨_, h⟩ <;> cases h
          | struct _ hk' _ hall hacc' htag =>
            rw [hk] at hk'
            cases hk'
            rcases hall d (List.mem_of_getElem? hd) with h | ⟨_, _, w, _, hw⟩
            · exact absurd hdec h.not_declares
            · rw [hw.lookup hl]
              exact hw.ne_stop
        · obtain ⟨v, hv, hg⟩ := hn2 f hf
          exact ⟨v, hv, fun hw => (hg hw).le (marshal_le env n2 _ (Nat.le_max_right _ _) f.a v)⟩
  | other =>
    refine ⟨1, fun m a hl => ?_⟩
    cases m with
    | zero => cases hl
    | succ m =>
      have hc := lookup_cases hl
      rw [hk] at hc
      dsimp only at hc
      subst hc
      rw [marshal]
      intro hbt
      exfalso
      obtain ⟨tv, hr⟩ := hrep hbt
      cases hr with
      | leaf h => cases h <;> simp_all
      | ptr hk' => rw [hk] at hk'; cases hk'
      | ptrNil hk' => rw [hk] at hk'; cases hk'
      | set hk' => rw [hk] at hk'; cases hk'
      | list hk' => rw [hk] at hk'; cases hk'
      | map hk' => rw [hk] at hk'; cases hk'
      | struct _ hk' => rw [hk] at hk'; cases hk'
  | _ =>
    refine ⟨1, fun m a hl => ?_⟩
    cases m with
    | zero => cases hl
    | succ m =>
      have hc := lookup_cases hl
      rw [hk] at hc
      dsimp only at hc
      subst hc
      exact .leaf b hl hshape

/-! ## Induction -/

theorem Spec.Involves.hasType {env : Env} {p q : TypeId × GoVal} (h : Involves env p q) (hq : HasType env q.1 q.2) : HasType env p.1 p.2 := by
  cases h with
  | ptr hk => have := hq.2; rw [elemType_ptr hk] at this; exact this
  | ptrNil hk => exact zero_hasType env _
  | elem hk hx => have := (everywhereElems_iff _).1 hq.2; rw [elemType_slice hk] at this; exact this _ hx
  | key hk hx => have := (everywhereEntries_iff _).1 hq.2; rw [keyType_map hk] at this; exact (this _ hx).1
  | value hk hx => have := (everywhereEntries_iff _).1 hq.2; rw [elemType_map hk] at this; exact (this _ hx).2
  | field hk hf hv _ => have := (everywhereFields_iff _ _).1 hq.2; rw [fields_struct hk] at this; exact this _ _ _ hf hv

theorem Spec.Involves.partOf {env : Env} {p q : TypeId × GoVal} (h : Involves env p q) (hq : HasType env q.1 q.2) : PartOf env p.1 q.1 := by
  cases h with
  | ptr hk => simp [PartOf, hk]
  | ptrNil hk => simp [PartOf, hk]
  | elem hk hx =>
    have := Everywhere.here hq
    simp only [Shape, hk] at this
    simp [PartOf, hk, this]
  | key hk hx => simp [PartOf, hk]
  | value hk hx => simp [PartOf, hk]
  | field hk hf hv _ => simp only [PartOf, hk]; exact ⟨_, List.mem_of_getElem? hf, rfl⟩

/-- Marshalling ends if the values it involves come to an end. -/
theorem marshal_ends {env : Env} {p : TypeId × GoVal} (hi : Acc (Involves env) p) (hacc : AllAcc env p.1) (ht : HasType env p.1 p.2) : ∃ n, Ends' env false n p := by
  induction hi with
  | intro p _ ih =>
    refine ends_step env false p.1 p.2 ht (fun fs hk f hf _ => hacc _ (.step (.refl _) ?_)) (fun h => by cases h) fun q hq => ?_
    · simp only [PartOf, hk]; exact ⟨f, hf, rfl⟩
    · exact ih q hq (hacc.part (hq.partOf ht)) (hq.hasType ht)

theorem Spec.Rep.involves {env : Env} {t : TypeId} {v : GoVal} {tv : TVal} (h : Rep env t v tv) {p : TypeId × GoVal} (hi : Involves env p (t, v)) : ∃ tv', Rep env p.1 p.2 tv' := by
  have get : ∀ {α β : Type} {l : List α} {l' : List β} {x : α}, x ∈ l → l'.length = l.length → ∃ (i : Nat) (y : β), l[i]? = some x ∧ l'[i]? = some y := by
    intro α β l l' x hx hl
    obtain ⟨i, hi⟩ := List.mem_iff_getElem?.1 hx
    have : i < l'.length := hl ▸ (List.getElem?_eq_some_iff.1 hi).1
    exact ⟨i, _, hi, List.getElem?_eq_getElem this⟩
  cases h with
  | leaf h => cases h <;> cases hi
  | ptr hk h => cases hi with | ptr hk' => rw [hk] at hk'; cases hk'; exact ⟨_, h⟩
  | ptrNil hk h => cases hi with | ptrNil hk' => rw [hk] at hk'; cases hk'; exact ⟨_, h⟩
  | set hk _ hv _ hl h =>
    rcases hv with rfl | ⟨_, _, rfl⟩
    · cases hi
    · cases hi with | elem hk' hx => rw [hk] at hk'; cases hk'; obtain ⟨i, y, h1, h2⟩ := get hx hl; exact ⟨_, h i _ _ h1 h2⟩
  | list hk _ _ hv _ hl h =>
    rcases hv with rfl | ⟨_, _, rfl⟩
    · cases hi
    · cases hi with | elem hk' hx => rw [hk] at hk'; cases hk'; obtain ⟨i, y, h1, h2⟩ := get hx hl; exact ⟨_, h i _ _ h1 h2⟩
  | map hk hv _ _ hl h1 h2 =>
    rcases hv with rfl | ⟨_, rfl⟩
    · cases hi
    · cases hi with
      | key hk' hx => rw [hk] at hk'; cases hk'; obtain ⟨i, y, h3, h4⟩ := get hx hl; exact ⟨_, h1 i _ _ h3 h4⟩
      | value hk' hx => rw [hk] at hk'; cases hk'; obtain ⟨i, y, h3, h4⟩ := get hx hl; exact ⟨_, h2 i _ _ h3 h4⟩
  | struct order hk hlen _ _ _ _ hord _ hl _ h =>
    cases hi with
    | field hk' hf hv hw =>
      rw [hk] at hk'
      cases hk'
      have ho := (hord _).2 ⟨_, _, hf, hv, hw⟩
      obtain ⟨j, y, h3, h4⟩ := get ho hl
      exact ⟨_, h j _ _ _ _ h3 h4 hf hv⟩

/-- A value that stands for a wire value involves finitely many. -/
theorem Spec.Rep.acc {env : Env} {t : TypeId} {v : GoVal} {tv : TVal} (h : Rep env t v tv) : Acc (Involves env) (t, v) := by
  have get : ∀ {α β : Type} {l : List α} {l' : List β} {x : α}, x ∈ l → l'.length = l.length → ∃ (i : Nat) (y : β), l[i]? = some x ∧ l'[i]? = some y := by
    intro α β l l' x hx hl
    obtain ⟨i, hi⟩ := List.mem_iff_getElem?.1 hx
    have : i < l'.length := hl ▸ (List.getElem?_eq_some_iff.1 hi).1
    exact ⟨i, _, hi, List.getElem?_eq_getElem this⟩
  induction h with
  | leaf h => exact ⟨_, fun p hi => by cases h <;> cases hi⟩
  | ptr hk _ ih => refine ⟨_, fun p hi => ?_⟩; cases hi with | ptr hk' => rw [hk] at hk'; cases hk'; exact ih
  | ptrNil hk _ ih => refine ⟨_, fun p hi => ?_⟩; cases hi with | ptrNil hk' => rw [hk] at hk'; cases hk'; exact ih
  | set hk _ hv _ hl _ ih =>
    refine ⟨_, fun p hi => ?_⟩
    rcases hv with rfl | ⟨_, _, rfl⟩
    · cases hi
    · cases hi with | elem hk' hx => rw [hk] at hk'; cases hk'; obtain ⟨i, y, h1, h2⟩ := get hx hl; exact ih i _ _ h1 h2
  | list hk _ _ hv _ hl _ ih =>
    refine ⟨_, fun p hi => ?_⟩
    rcases hv with rfl | ⟨_, _, rfl⟩
    · cases hi
    · cases hi with | elem hk' hx => rw [hk] at hk'; cases hk'; obtain ⟨i, y, h1, h2⟩ := get hx hl; exact ih i _ _ h1 h2
  | map hk hv _ _ hl _ _ ih1 ih2 =>
    refine ⟨_, fun p hi => ?_⟩
    rcases hv with rfl | ⟨_, rfl⟩
    · cases hi
    · cases hi with
      | key hk' hx => rw [hk] at hk'; cases hk'; obtain ⟨i, y, h3, h4⟩ := get hx hl; exact ih1 i _ _ h3 h4
      | value hk' hx => rw [hk] at hk'; cases hk'; obtain ⟨i, y, h3, h4⟩ := get hx hl; exact ih2 i _ _ h3 h4
  | struct order hk hlen _ _ _ _ hord _ hl _ _ ih =>
    refine ⟨_, fun p hi => ?_⟩
    cases hi with
    | field hk' hf hv hw =>
      rw [hk] at hk'
      cases hk'
      have ho := (hord _).2 ⟨_, _, hf, hv, hw⟩
      obtain ⟨j, y, h3, h4⟩ := get ho hl
      exact ih j _ _ _ _ h3 h4 hf hv

/-- A value that stands for a wire value is marshalled. -/
theorem rep_ends {env : Env} {p : TypeId × GoVal} (hi : Acc (Involves env) p) (ht : HasType env p.1 p.2) (hr : ∃ tv, Rep env p.1 p.2 tv) : ∃ n, Ends' env true n p := by
  induction hi with
  | intro p _ ih =>
    obtain ⟨tv, hr⟩ := hr
    obtain ⟨t, v⟩ := p
    refine ends_step env true t v ht (fun fs hk f hf hni => ?_) (fun _ => ⟨tv, hr⟩) fun q hq => ih q hq (hq.hasType ht) (hr.involves hq)
    dsimp only at hr
    cases hr with
    | leaf h => cases h <;> simp_all
    | ptr hk' => rw [hk] at hk'; cases hk'
    | ptrNil hk' => rw [hk] at hk'; cases hk'
    | set hk' => rw [hk] at hk'; cases hk'
    | list hk' => rw [hk] at hk'; cases hk'
    | map hk' => rw [hk] at hk'; cases hk'
    | struct _ hk' _ _ hacc => rw [hk] at hk'; cases hk'; exact hacc f hf hni

/-! ## Values -/

/-- If zero values of the types inside involve finitely many zero values, every value involves finitely many values. -/
theorem involves_acc {env : Env} (t : TypeId) (hz : ∀ t', Within env t' t → Acc (ZeroNeeds env) t') (v : GoVal) (ht : HasType env t v) : Acc (Involves env) (t, v) := by
  -- the zero values themselves
  have zero : ∀ t', Acc (ZeroNeeds env) t' → Acc (Involves env) (t', env.zero t') := by
    intro t' ha
    induction ha with
    | intro t' _ ih =>
      refine ⟨_, fun p hp => ?_⟩
      suffices p.2 = env.zero p.1 by
        obtain ⟨t'', v''⟩ := p
        dsimp only at this
        subst this
        exact ih _ hp
      have hzero := env.zero_eq t'
      generalize hq : env.zero t' = z at hp hzero
      cases hp with
      | ptr hk => rw [hk] at hzero; cases hzero
      | ptrNil hk => rfl
      | elem hk => rw [hk, Kind.zero] at hzero; split at hzero <;> cases hzero
      | key hk => rw [hk] at hzero; cases hzero
      | value hk => rw [hk] at hzero; cases hzero
      | field hk hf hv _ =>
        rw [hk] at hzero
        cases hzero
        rw [List.getElem?_map, hf] at hv
        cases hv
        rfl
  have main : ∀ n t v, sizeOf v < n → (∀ t', Within env t' t → Acc (ZeroNeeds env) t') → HasType env t v → Acc (Involves env) (t, v) := by
    intro n
    induction n with
    | zero => intro t v h; omega
    | succ n ih =>
      intro t v hn hz ht
      refine ⟨_, fun p hp => ?_⟩
      have hw : Within env p.1 t := .step (.refl _) (hp.partOf ht)
      have hz' : ∀ t', Within env t' p.1 → Acc (ZeroNeeds env) t' := fun t' h => hz t' (.step h (hp.partOf ht))
      have ht' := hp.hasType ht
      cases hp with
      | ptr hk => exact ih _ _ (by simp at hn; omega) hz' ht'
      | ptrNil hk => exact zero _ (hz _ hw)
      | elem hk hx => have := List.sizeOf_lt_of_mem hx; exact ih _ _ (by simp at hn; omega) hz' ht'
      | key hk hx =>
        rename_i x
        have := List.sizeOf_lt_of_mem hx
        have : sizeOf x.1 < sizeOf x := by cases x; simp; omega
        exact ih _ _ (by simp at hn; omega) hz' ht'
      | value hk hx =>
        rename_i x
        have := List.sizeOf_lt_of_mem hx
        have : sizeOf x.2 < sizeOf x := by cases x; simp; omega
        exact ih _ _ (by simp at hn; omega) hz' ht'
      | field hk hf hv _ => have := List.sizeOf_lt_of_mem (List.mem_of_getElem? hv); exact ih _ _ (by simp at hn; omega) hz' ht'
  exact main _ t v (Nat.lt_succ_self _) hz ht

/-- A value that must be refused stands for nothing. -/
theorem Spec.Refuses.not_rep {env : Env} {t : TypeId} {v : GoVal} (h : Refuses env t v) : ∀ tv, ¬ Rep env t v tv := by
  induction h with
  | here hu =>
    intro tv hr
    exact (rep_wireType hr).supported hu
  | elem hk hb hu =>
    intro tv hr
    cases hr with
    | leaf h => cases h <;> simp_all
    | ptr hk' => rw [hk] at hk'; cases hk'
    | ptrNil hk' => rw [hk] at hk'; cases hk'
    | map hk' => rw [hk] at hk'; cases hk'
    | struct _ hk' => rw [hk] at hk'; cases hk'
    | set hk' _ _ hw => rw [hk] at hk'; cases hk'; exact hw.supported hu
    | list hk' _ _ _ hw => rw [hk] at hk'; cases hk'; exact hw.supported hu
  | key hk hu =>
    intro tv hr
    cases hr with
    | leaf h => cases h <;> simp_all
    | ptr hk' => rw [hk] at hk'; cases hk'
    | ptrNil hk' => rw [hk] at hk'; cases hk'
    | set hk' => rw [hk] at hk'; cases hk'
    | list hk' => rw [hk] at hk'; cases hk'
    | struct _ hk' => rw [hk] at hk'; cases hk'
    | map hk' _ hw => rw [hk] at hk'; cases hk'; exact hw.supported hu
  | value hk hu =>
    intro tv hr
    cases hr with
    | leaf h => cases h <;> simp_all
    | ptr hk' => rw [hk] at hk'; cases hk'
    | ptrNil hk' => rw [hk] at hk'; cases hk'
    | set hk' => rw [hk] at hk'; cases hk'
    | list hk' => rw [hk] at hk'; cases hk'
    | struct _ hk' => rw [hk] at hk'; cases hk'
    | map hk' _ _ hw => rw [hk] at hk'; cases hk'; exact hw.supported hu
  | field hk hf hni hu =>
    intro tv hr
    cases hr with
    | leaf h => cases h <;> simp_all
    | ptr hk' => rw [hk] at hk'; cases hk'
    | ptrNil hk' => rw [hk] at hk'; cases hk'
    | set hk' => rw [hk] at hk'; cases hk'
    | list hk' => rw [hk] at hk'; cases hk'
    | map hk' => rw [hk] at hk'; cases hk'
    | struct _ hk' _ hall =>
      rw [hk] at hk'
      cases hk'
      rcases hall _ hf with h | ⟨_, _, w, _, hw⟩
      · exact hni h
      · exact hw.supported hu
  | inside hi _ ih =>
    intro tv hr
    obtain ⟨tv', hr'⟩ := hr.involves hi
    exact ih tv' hr'

end GoThrift
