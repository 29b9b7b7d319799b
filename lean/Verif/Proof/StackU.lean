import Verif.Model.StackU
import Verif.Spec.Pointers
import Verif.Proof.Stack
import Verif.Proof.Dec
import Verif.Proof.Blame
import Verif.Proof.Alike

/-!
# Unmarshal on a stack of limited size
-/

namespace GoThrift

open Spec Spec.TVal

/-! ## A limited stack changes nothing but where the program ends -/

/-- `p` is `q`, except that it may panic on the way. -/
inductive RProg.Cuts {α : Type} : RProg α → RProg α → Prop where
  | panic (q : RProg α) : Cuts .panic q
  | ret (a : α) : Cuts (.ret a) (.ret a)
  | diverge : Cuts .diverge .diverge
  | call (o : ROp) (k k' : Except Err o.Ans → RProg α) : (∀ x, Cuts (k x) (k' x)) → Cuts (.call o k) (.call o k')

namespace RProg

theorem Cuts.refl {α : Type} (p : RProg α) : Cuts p p := by
  induction p with
  | ret a => exact .ret a
  | diverge => exact .diverge
  | panic => exact .panic _
  | call o k ih => exact .call o k k ih

theorem Cuts.bind {α β : Type} {p q : RProg α} {f g : α → RProg β} (h : Cuts p q) (hf : ∀ a, Cuts (f a) (g a)) : Cuts (p.bind f) (q.bind g) := by
  induction h with
  | panic q => exact .panic _
  | ret a => exact hf a
  | diverge => exact .diverge
  | call o k k' _ ih => exact .call o _ _ ih

theorem Cuts.run {α S : Type} {p q : RProg α} (h : Cuts p q) (r : Rdr S) (s : S) : p.run r s = .panicked ∨ p.run r s = q.run r s := by
  induction h generalizing s with
  | panic q => exact .inl rfl
  | ret a => exact .inr rfl
  | diverge => exact .inr rfl
  | call o k k' _ ih =>
    rw [RProg.run, RProg.run]
    cases r.step o s with
    | done x => exact ih _ _
    | blocked => exact .inr rfl
    | diverged => exact .inr rfl
    | panicked => exact .inr rfl

theorem Cuts.ite {α : Type} {c : Prop} [Decidable c] {p p' q q' : RProg α} (h1 : Cuts p p') (h2 : Cuts q q') : Cuts (if c then p else q) (if c then p' else q') := by
  by_cases h : c
  · rw [if_pos h, if_pos h]; exact h1
  · rw [if_neg h, if_neg h]; exact h2

theorem Cuts.try' (o : ROp) {k k' : o.Ans → RProg (Option Err)} (h : ∀ a, Cuts (k a) (k' a)) : Cuts (RProg.try' o k) (RProg.try' o k') := by
  refine .call o _ _ fun x => ?_
  cases x with
  | ok a => exact h a
  | error e => exact .ret _

theorem Cuts.andThen {p p' q q' : RProg (Option Err)} (h1 : Cuts p p') (h2 : Cuts q q') : Cuts (p.andThen q) (p'.andThen q') := by
  refine h1.bind fun e => ?_
  cases e with
  | none => exact h2
  | some e => exact .ret _

theorem Cuts.loop {p p' q q' : RProg (Option Err)} (h1 : Cuts p p') (h2 : Cuts q q') (n : Nat) : Cuts (RProg.loop n p q) (RProg.loop n p' q') := by
  induction n with
  | zero => exact h2
  | succ n ih => exact h1.andThen ih

theorem Cuts.rcall {α : Type} (act : String) (tt : WType) (t : TypeId) (o : ROp) (old : α) {k k' : o.Ans → UProg α} (h : ∀ a, Cuts (k a) (k' a)) :
    Cuts (GoThrift.rcall act tt t o old k) (GoThrift.rcall act tt t o old k') := by
  refine .call o _ _ fun x => ?_
  cases x with
  | ok a => exact h a
  | error e => exact .ret _

theorem Cuts.uandThen {α β : Type} {p p' : UProg α} (h : Cuts p p') (fail : α → β) {k k' : α → UProg β} (hk : ∀ a, Cuts (k a) (k' a)) :
    Cuts (UProg.andThen p fail k) (UProg.andThen p' fail k') := by
  refine h.bind fun r => ?_
  obtain ⟨a, e⟩ := r
  cases e with
  | none => exact hk a
  | some e => exact .ret _

theorem Cuts.seqLoop {u u' : GoVal → UProg GoVal} (hu : ∀ v, Cuts (u v) (u' v)) (zero : GoVal) (grow : Nat → Nat) (n : Nat) (done rest : List GoVal) (mz : Bool) :
    Cuts (GoThrift.seqLoop u zero grow n done rest mz) (GoThrift.seqLoop u' zero grow n done rest mz) := by
  induction n generalizing done rest mz with
  | zero => exact .ret _
  | succ n ih =>
    rw [GoThrift.seqLoop, GoThrift.seqLoop]
    split
    · exact .refl _
    · exact uandThen (hu _) _ fun _ => ih _ _ _

theorem Cuts.mapLoop {uk uk' : UProg GoVal} {uv uv' : GoVal → UProg GoVal} (hk : Cuts uk uk') (hv : ∀ v, Cuts (uv v) (uv' v)) (zero : GoVal) (n : Nat) (es : List (GoVal × GoVal)) :
    Cuts (GoThrift.mapLoop uk uv zero n es) (GoThrift.mapLoop uk' uv' zero n es) := by
  induction n generalizing es with
  | zero => exact .ret _
  | succ n ih => exact uandThen hk _ fun k => uandThen (hv _) _ fun v => ih _

theorem Cuts.seq (env : Env) (t : TypeId) (isSet : Bool) (et : TypeId) {u u' : WType → GoVal → UProg GoVal} (hu : ∀ wt v, Cuts (u wt v) (u' wt v)) (old : GoVal) (wt : WType) :
    Cuts (unmarshalSeq env t isSet et u old wt) (unmarshalSeq env t isSet et u' old wt) := by
  have body : ∀ (h : SetHeader) (fin : GoVal → UProg GoVal), Cuts (seqBody env t et u old h fin) (seqBody env t et u' old h fin) := by
    intro h fin
    exact .ite (uandThen (seqLoop (hu _) _ _ _ _ _ _) _ fun _ => .refl _) (.refl _)
  exact .ite (.refl _) (.ite (.refl _) (.ite (rcall _ _ _ _ _ fun h => body h _) (rcall _ _ _ _ _ fun h => body h _)))

theorem Cuts.map (env : Env) (t kt et : TypeId) {uk uk' uv uv' : WType → GoVal → UProg GoVal} (hk : ∀ wt v, Cuts (uk wt v) (uk' wt v)) (hv : ∀ wt v, Cuts (uv wt v) (uv' wt v)) (old : GoVal)
    (wt : WType) : Cuts (unmarshalMap env t kt et uk uv old wt) (unmarshalMap env t kt et uk' uv' old wt) := by
  rw [unmarshalMap, unmarshalMap]
  refine .ite (.refl _) ?_
  split
  · exact .refl _
  · exact rcall _ _ _ _ _ fun h => .ite (uandThen (mapLoop (hk _ _) (hv _) _ _ _) _ fun _ => .refl _) (.refl _)

theorem Cuts.elim {α β : Type} (x : Out α) {k k' : α → RProg β} (hk : ∀ a, Cuts (k a) (k' a)) : Cuts (x.elim .panic .diverge k) (x.elim .panic .diverge k') := by
  cases x with
  | done a => exact hk a
  | blocked => exact .diverge
  | diverged => exact .diverge
  | panicked => exact .panic _

end RProg

open RProg

theorem skipS_cuts (fuel : Nat) : (∀ d t, Cuts (skipS fuel d t) (skip fuel t)) ∧ ∀ d, Cuts (skipFieldsS fuel d) (skipFields fuel) := by
  induction fuel with
  | zero => exact ⟨fun d t => by rw [skipS, skip]; exact .diverge, fun d => by rw [skipFieldsS, skipFields]; exact .diverge⟩
  | succ n ih =>
    refine ⟨fun d t => ?_, fun d => ?_⟩
    · cases d with
      | zero => exact .panic _
      | succ d =>
        rw [skipS, skip]
        refine .ite (.refl _) (.ite (.refl _) (.ite (.refl _) (.ite (.refl _) (.ite (.refl _) (.ite (.refl _) (.ite (.refl _) ?_))))))
        refine .ite (.try' _ fun _ => ih.2 d) (.ite (.try' _ fun h => .loop ((ih.1 d _).andThen (ih.1 d _)) (.refl _) _) ?_)
        refine .ite (.try' _ fun h => .loop (ih.1 d _) (.refl _) _) (.ite (.try' _ fun h => .loop (ih.1 d _) (.refl _) _) ?_)
        exact .ite (.refl _) (.refl _)
    · rw [skipFieldsS, skipFields]
      exact .try' _ fun h => .ite (.refl _) ((ih.1 d _).andThen (.try' _ fun _ => ih.2 d))

theorem unmarshalS_cuts (env : Env) (sk fuel : Nat) : (∀ d a old wt, Cuts (unmarshalS env sk fuel d a old wt) (unmarshal env sk fuel a old wt)) ∧
    ∀ d t fs vals, Cuts (unmarshalFieldsS env sk fuel d t fs vals) (unmarshalFields env sk fuel t fs vals) := by
  induction fuel with
  | zero => exact ⟨fun _ _ _ _ => by rw [unmarshalS, unmarshal]; exact .diverge, fun _ _ _ _ => by rw [unmarshalFieldsS, unmarshalFields]; exact .diverge⟩
  | succ n ih =>
    obtain ⟨ih1, ih2⟩ := ih
    constructor
    · intro d a old wt
      cases d with
      | zero => exact .panic _
      | succ d =>
        cases a with
        | leaf t l => rw [unmarshalS, unmarshal]; exact .refl _
        | struct t =>
          rw [unmarshalS, unmarshal]
          refine .elim _ fun r => ?_
          cases r with
          | error e => exact .refl _
          | ok fs =>
            dsimp only
            refine .ite (.refl _) ?_
            cases old.fields? with
            | none => exact .refl _
            | some vals => exact .rcall _ _ _ _ _ fun _ => ih2 _ _ _ _
        | map t ka ea => rw [unmarshalS, unmarshal]; exact .map env _ _ _ (fun wt v => ih1 _ _ _ _) (fun wt v => ih1 _ _ _ _) _ _
        | seq t isSet ea => rw [unmarshalS, unmarshal]; exact .seq env _ _ _ (fun wt v => ih1 _ _ _ _) _ _
        | ptr t ea =>
          rw [unmarshalS, unmarshal]
          cases old.deref? (env.zero ea.typ) with
          | none => exact .refl _
          | some v => exact .uandThen (ih1 _ _ _ _) _ fun _ => .refl _
        | invalid t => rw [unmarshalS, unmarshal]; exact .refl _
    · intro d t fs vals
      rw [unmarshalFieldsS, unmarshalFields]
      refine .rcall _ _ _ _ _ fun h => .ite (.refl _) ?_
      have next : ∀ vals, Cuts (rcall "ReadFieldEnd" Ty.struct t .fieldEnd (GoVal.struct vals) fun _ => unmarshalFieldsS env sk n d t fs vals)
          (rcall "ReadFieldEnd" Ty.struct t .fieldEnd (GoVal.struct vals) fun _ => unmarshalFields env sk n t fs vals) :=
        fun vals => .rcall _ _ _ _ _ fun _ => ih2 _ _ _ _
      dsimp only
      cases byID fs h.id with
      | none =>
        refine ((skipS_cuts sk).1 d _).bind fun e => ?_
        cases e with
        | none => exact next _
        | some e => exact .ret _
      | some f =>
        dsimp only
        cases vals[f.index]? with
        | none => exact .refl _
        | some v => exact .uandThen (ih1 _ _ _ _) _ fun _ => next _

/-! ## Pointers -/

/-- The number of pointer arshalers on top. -/
def Arsh.ptrs : Arsh → Nat
  | .ptr _ a => a.ptrs + 1
  | _ => 0

theorem lookup_pointers {env : Env} {n : Nat} {t : TypeId} {a : Arsh} (h : lookupArshaler env n t = .done a) : Pointers env t a.ptrs := by
  induction n generalizing t a with
  | zero => cases h
  | succ n ih =>
    have hc := lookup_cases h
    cases hk : (env.type t).kind with
    | ptr e =>
      rw [hk] at hc
      obtain ⟨ea, h1, rfl⟩ := hc
      exact .succ hk (ih h1)
    | map k e => rw [hk] at hc; obtain ⟨ka, ea, h1, h2, rfl⟩ := hc; exact .zero (by simp [hk])
    | slice e =>
      rw [hk] at hc
      rcases hc with ⟨hb, rfl⟩ | ⟨hb, ea, h1, rfl⟩ <;> exact .zero (by simp [hk])
    | _ => rw [hk] at hc; subst hc; exact .zero (by simp [hk])

theorem Spec.PointersAtMost.ptrs {env : Env} {p n : Nat} {t : TypeId} {a : Arsh} (h : PointersAtMost env p t) (hl : lookupArshaler env n t = .done a) : a.ptrs ≤ p :=
  h t _ (.refl t) (lookup_pointers hl)

theorem Spec.PointersAtMost.part {env : Env} {p : Nat} {t t' : TypeId} (h : PointersAtMost env p t) (hp : PartOf env t' t) : PointersAtMost env p t' :=
  fun t'' n hw => h t'' n (.step hw hp)

/-! ## Any bytes -/

section
variable {S : Type} {r : Rdr S} {Good : S → Prop} {Φ : S → Nat} {α β : Type}

/-- The two programs do the same from `s`, and if they succeed, the resource has not grown. -/
def AgreeU (r : Rdr S) (Good : S → Prop) (Φ : S → Nat) (p' p : UProg α) (s : S) : Prop :=
  p'.run r s = p.run r s ∧ ∀ a s', p.run r s = .done ((a, none), s') → Good s' ∧ Φ s' ≤ Φ s

theorem AgreeU.err (a : α) (e : Err) (s : S) : AgreeU r Good Φ (.ret (a, some e)) (.ret (a, some e)) s := ⟨rfl, fun a s' h => by cases h⟩

theorem AgreeU.ok (a : α) {s : S} (hs : Good s) : AgreeU r Good Φ (.ret (a, none)) (.ret (a, none)) s := ⟨rfl, fun a s' h => by cases h; exact ⟨hs, Nat.le_refl _⟩⟩

theorem AgreeU.panic (s : S) : AgreeU (α := α) r Good Φ .panic .panic s := ⟨rfl, fun a s' h => by cases h⟩

theorem AgreeU.diverge (s : S) : AgreeU (α := α) r Good Φ .diverge .diverge s := ⟨rfl, fun a s' h => by cases h⟩

theorem AgreeU.ite {c : Prop} [Decidable c] {p' p q' q : UProg α} {s : S} (hp : c → AgreeU r Good Φ p' p s) (hq : ¬ c → AgreeU r Good Φ q' q s) :
    AgreeU r Good Φ (if c then p' else q') (if c then p else q) s := by
  by_cases h : c
  · rw [if_pos h, if_pos h]; exact hp h
  · rw [if_neg h, if_neg h]; exact hq h

theorem AgreeU.rcall (hm : Lowers r Good Φ) {act : String} {tt : WType} {t : TypeId} (o : ROp) {old : α} {k' k : o.Ans → UProg α} {s : S} (hs : Good s)
    (h : ∀ a s', Good s' → Φ s' + o.deepens ≤ Φ s → AgreeU r Good Φ (k' a) (k a) s') : AgreeU r Good Φ (rcall act tt t o old k') (rcall act tt t o old k) s := by
  obtain ⟨x, s', h1, h2, h3⟩ := hm o s hs
  have run : ∀ k : o.Ans → UProg α, (GoThrift.rcall act tt t o old k).run r s = (match x with | .ok a => k a | .error e => .ret (old, some (.semanticE .unmarshal tt (some t) (.wire act e)))).run r s' := fun k => by
    rw [GoThrift.rcall, RProg.run, h1]
    rfl
  unfold AgreeU
  rw [run, run]
  cases x with
  | error e => exact ⟨rfl, fun a s2 h => (by cases h)⟩
  | ok a =>
    have h3 := h3 a rfl
    obtain ⟨j1, j2⟩ := h a s' h2 h3
    exact ⟨j1, fun a s2 hs2 => ⟨(j2 a s2 hs2).1, by have := (j2 a s2 hs2).2; omega⟩⟩

theorem AgreeU.andThen {p' p : UProg α} {fail : α → β} {k' k : α → UProg β} {s : S} (hp : AgreeU r Good Φ p' p s) (hk : ∀ a s', Good s' → Φ s' ≤ Φ s → AgreeU r Good Φ (k' a) (k a) s') :
    AgreeU r Good Φ (p'.andThen fail k') (p.andThen fail k) s := by
  obtain ⟨h1, h2⟩ := hp
  unfold AgreeU
  simp only [UProg.andThen, RProg.run_bind]
  rw [h1]
  cases e : p.run r s with
  | done x =>
    obtain ⟨⟨a, x⟩, s'⟩ := x
    rw [Out.bind_done, Out.bind_done]
    cases x with
    | some e => exact ⟨rfl, fun a s2 h => (by cases h)⟩
    | none =>
      obtain ⟨g, l⟩ := h2 a s' e
      obtain ⟨j1, j2⟩ := hk a s' g l
      exact ⟨j1, fun b s2 hs2 => ⟨(j2 b s2 hs2).1, by have := (j2 b s2 hs2).2; omega⟩⟩
  | blocked => exact ⟨rfl, fun a s' h => by cases h⟩
  | diverged => exact ⟨rfl, fun a s' h => by cases h⟩
  | panicked => exact ⟨rfl, fun a s' h => by cases h⟩

/-- Behind a call of `Skip`. -/
theorem AgreeU.skip {p' p : RProg (Option Err)} {v : α} {k' k : UProg α} {s : S} (hp : Agree r Good Φ p' p s) (hk : ∀ s', Good s' → Φ s' ≤ Φ s → AgreeU r Good Φ k' k s') :
    AgreeU r Good Φ (p'.bind fun e => match e with | some e => .ret (v, some e) | none => k') (p.bind fun e => match e with | some e => .ret (v, some e) | none => k) s := by
  obtain ⟨h1, h2⟩ := hp
  unfold AgreeU
  simp only [RProg.run_bind]
  rw [h1]
  cases e : p.run r s with
  | done x =>
    obtain ⟨x, s'⟩ := x
    rw [Out.bind_done, Out.bind_done]
    cases x with
    | some e => exact ⟨rfl, fun a s2 h => (by cases h)⟩
    | none =>
      obtain ⟨g, l⟩ := h2 s' e
      obtain ⟨j1, j2⟩ := hk s' g l
      exact ⟨j1, fun b s2 hs2 => ⟨(j2 b s2 hs2).1, by have := (j2 b s2 hs2).2; omega⟩⟩
  | blocked => exact ⟨rfl, fun a s' h => by cases h⟩
  | diverged => exact ⟨rfl, fun a s' h => by cases h⟩
  | panicked => exact ⟨rfl, fun a s' h => by cases h⟩

theorem AgreeU.leaf (hm : Lowers r Good Φ) (env : Env) (t : TypeId) (l : Leaf) (old : GoVal) (wt : WType) {s : S} (hs : Good s) :
    AgreeU r Good Φ (unmarshalLeaf env t l old wt) (unmarshalLeaf env t l old wt) s := by
  unfold unmarshalLeaf
  refine .ite (fun _ => .err _ _ _) fun _ => ?_
  cases l with
  | bytes => cases old with
    | bytes b => exact .rcall hm _ hs fun _ s' hs' _ => .ok _ hs'
    | _ => exact .panic s
  | _ => exact .rcall hm _ hs fun _ s' hs' _ => .ok _ hs'

theorem AgreeU.seqLoop {u' u : GoVal → UProg GoVal} (zero : GoVal) (grow : Nat → Nat) (n : Nat) (done rest : List GoVal) (mz : Bool) {s : S} (hs : Good s)
    (hu : ∀ v s', Good s' → Φ s' ≤ Φ s → AgreeU r Good Φ (u' v) (u v) s') : AgreeU r Good Φ (seqLoop u' zero grow n done rest mz) (seqLoop u zero grow n done rest mz) s := by
  induction n generalizing done rest mz s with
  | zero => exact .ok _ hs
  | succ n ih =>
    rw [GoThrift.seqLoop, GoThrift.seqLoop]
    split
    · exact .panic s
    · exact .andThen (hu _ s hs (Nat.le_refl _)) fun _ s' hs' hl => ih _ _ _ hs' fun v s2 hs2 hl2 => hu v s2 hs2 (Nat.le_trans hl2 hl)

theorem AgreeU.mapLoop {uk' uk : UProg GoVal} {uv' uv : GoVal → UProg GoVal} (zero : GoVal) (n : Nat) (es : List (GoVal × GoVal)) {s : S} (hs : Good s)
    (hk : ∀ s', Good s' → Φ s' ≤ Φ s → AgreeU r Good Φ uk' uk s') (hv : ∀ v s', Good s' → Φ s' ≤ Φ s → AgreeU r Good Φ (uv' v) (uv v) s') :
    AgreeU r Good Φ (mapLoop uk' uv' zero n es) (mapLoop uk uv zero n es) s := by
  induction n generalizing es s with
  | zero => exact .ok _ hs
  | succ n ih =>
    rw [GoThrift.mapLoop, GoThrift.mapLoop]
    exact .andThen (hk s hs (Nat.le_refl _)) fun _ s1 hs1 hl1 => .andThen (hv _ s1 hs1 hl1) fun _ s2 hs2 hl2 =>
      ih _ hs2 (fun s3 hs3 hl3 => hk s3 hs3 (by omega)) fun v s3 hs3 hl3 => hv v s3 hs3 (by omega)

theorem AgreeU.seq (hm : Lowers r Good Φ) (env : Env) (t : TypeId) (isSet : Bool) (et : TypeId) {u' u : WType → GoVal → UProg GoVal} (old : GoVal) (wt : WType) {s : S} (hs : Good s)
    (hu : ∀ wt v s', Good s' → Φ s' + 1 ≤ Φ s → AgreeU r Good Φ (u' wt v) (u wt v) s') : AgreeU r Good Φ (unmarshalSeq env t isSet et u' old wt) (unmarshalSeq env t isSet et u old wt) s := by
  have body : ∀ (h : SetHeader) (act : String) (tt : WType) (o : ROp) s1, Good s1 → Φ s1 + 1 ≤ Φ s →
      AgreeU r Good Φ (seqBody env t et u' old h fun v => GoThrift.rcall act tt t o v fun _ => .ret (v, none)) (seqBody env t et u old h fun v => GoThrift.rcall act tt t o v fun _ => .ret (v, none)) s1 := by
    intro h act tt o s1 hs1 hl
    refine .ite (fun _ => .andThen (.seqLoop _ _ _ _ _ _ hs1 fun v s2 hs2 hl2 => hu _ v s2 hs2 (by omega)) fun _ s2 hs2 hl2 => ?_) fun _ => ?_
    · exact .rcall hm _ hs2 fun _ s3 hs3 _ => .ok _ hs3
    · exact .rcall hm _ hs1 fun _ s3 hs3 _ => .ok _ hs3
  exact .ite (fun _ => .err _ _ _) fun _ => .ite (fun _ => .panic s) fun _ => .ite (fun _ => .rcall hm _ hs fun h s1 hs1 hl => body h _ _ _ s1 hs1 hl) fun _ =>
    .rcall hm _ hs fun h s1 hs1 hl => body h _ _ _ s1 hs1 hl

theorem AgreeU.map (hm : Lowers r Good Φ) (env : Env) (t kt et : TypeId) {uk' uk uv' uv : WType → GoVal → UProg GoVal} (old : GoVal) (wt : WType) {s : S} (hs : Good s)
    (hk : ∀ wt v s', Good s' → Φ s' + 1 ≤ Φ s → AgreeU r Good Φ (uk' wt v) (uk wt v) s') (hv : ∀ wt v s', Good s' → Φ s' + 1 ≤ Φ s → AgreeU r Good Φ (uv' wt v) (uv wt v) s') :
    AgreeU r Good Φ (unmarshalMap env t kt et uk' uv' old wt) (unmarshalMap env t kt et uk uv old wt) s := by
  rw [unmarshalMap, unmarshalMap]
  refine .ite (fun _ => .err _ _ _) fun _ => ?_
  split
  · exact .panic s
  · refine .rcall hm _ hs fun h s1 hs1 hl => ?_
    have hl : Φ s1 + 1 ≤ Φ s := hl
    refine .ite (fun _ => .andThen (.mapLoop _ _ _ hs1 (fun s2 hs2 hl2 => hk _ _ s2 hs2 (by omega)) fun v s2 hs2 hl2 => hv _ v s2 hs2 (by omega)) fun _ s2 hs2 hl2 => ?_) fun _ => ?_
    · exact .rcall hm _ hs2 fun _ s3 hs3 _ => .ok _ hs3
    · exact .rcall hm _ hs1 fun _ s3 hs3 _ => .ok _ hs3

/-- Room for the pointers on top, and for `p + 1` frames for each unit of the resource, and one frame more, is enough. -/
theorem unmarshalS_agree (hm : Lowers r Good Φ) (env : Env) (p sk fuel : Nat) :
    (∀ d s n t a old wt, lookupArshaler env n t = .done a → PointersAtMost env p t → Good s → a.ptrs + (p + 1) * Φ s < d →
      AgreeU r Good Φ (unmarshalS env sk fuel d a old wt) (unmarshal env sk fuel a old wt) s) ∧
    ∀ d s n t fields fs vals, (env.type t).kind = .struct fields → Table env n t fs → PointersAtMost env p t → Good s → (p + 1) * Φ s ≤ d →
      AgreeU r Good Φ (unmarshalFieldsS env sk fuel d t fs vals) (unmarshalFields env sk fuel t fs vals) s := by
  have mono : ∀ {x y : Nat}, x + 1 ≤ y → (p + 1) * x + p + 1 ≤ (p + 1) * y := fun {x y} h => by
    have := Nat.mul_le_mul_left (p + 1) h
    rw [Nat.mul_add, Nat.mul_one] at this
    omega
  have mono' : ∀ {x y : Nat}, x ≤ y → (p + 1) * x ≤ (p + 1) * y := fun h => Nat.mul_le_mul_left _ h
  have self : ∀ x : Nat, x ≤ (p + 1) * x := fun x => Nat.le_mul_of_pos_left _ (by omega)
  induction fuel with
  | zero =>
    refine ⟨fun d s n t a old wt _ _ _ _ => ?_, fun d s n t fields fs vals _ _ _ _ _ => ?_⟩
    · rw [unmarshalS, unmarshal]; exact .diverge s
    · rw [unmarshalFieldsS, unmarshalFields]; exact .diverge s
  | succ fuel ih =>
    obtain ⟨ih1, ih2⟩ := ih
    constructor
    · intro d s n t a old wt hl hp hs hd
      obtain ⟨d, rfl⟩ : ∃ e, d = e + 1 := ⟨d - 1, by omega⟩
      have ha := lookup_arsh hl
      cases a with
      | leaf t' l => rw [unmarshalS, unmarshal]; exact .leaf hm env t' l old wt hs
      | struct t' =>
        obtain ⟨rfl, ⟨fields, hk⟩, _⟩ := ha
        rw [unmarshalS, unmarshal]
        simp only [Arsh.ptrs] at hd
        cases hx : makeStructFields env fuel t' with
        | done x =>
          cases x with
          | error e => exact .err _ _ _
          | ok fs =>
            refine .ite (fun _ => .err _ _ _) fun _ => ?_
            cases old.fields? with
            | none => exact .panic s
            | some vals =>
              refine .rcall hm _ hs fun _ s1 hs1 hl1 => ih2 d s1 fuel t' fields fs _ hk (makeStructFields_table env fuel t' fs hx) hp hs1 ?_
              have := mono' (x := Φ s1) (y := Φ s) (by omega)
              omega
        | blocked => exact .diverge s
        | diverged => exact .diverge s
        | panicked => exact .panic s
      | map t' ka ea =>
        obtain ⟨rfl, _, m, k, e, hk, h1, h2⟩ := ha
        have pk : PointersAtMost env p k := hp.part (by simp [PartOf, hk])
        have pe : PointersAtMost env p e := hp.part (by simp [PartOf, hk])
        simp only [Arsh.ptrs] at hd
        rw [unmarshalS, unmarshal]
        refine .map hm env _ _ _ _ _ hs (fun wt v s1 hs1 hl1 => ih1 d s1 m k ka v wt h1 pk hs1 ?_) fun wt v s1 hs1 hl1 => ih1 d s1 m e ea v wt h2 pe hs1 ?_
        · have := mono hl1
          have := pk.ptrs h1
          omega
        · have := mono hl1
          have := pe.ptrs h2
          omega
      | seq t' isSet ea =>
        obtain ⟨rfl, _, m, e, hk, hb, h1⟩ := ha
        have pe : PointersAtMost env p e := hp.part (by simp [PartOf, hk, hb])
        simp only [Arsh.ptrs] at hd
        rw [unmarshalS, unmarshal]
        refine .seq hm env _ _ _ _ _ hs fun wt v s1 hs1 hl1 => ih1 d s1 m e ea v wt h1 pe hs1 ?_
        have := mono hl1
        have := pe.ptrs h1
        omega
      | ptr t' ea =>
        obtain ⟨rfl, m, e, hk, h1⟩ := ha
        have pe : PointersAtMost env p e := hp.part (by simp [PartOf, hk])
        simp only [Arsh.ptrs] at hd
        rw [unmarshalS, unmarshal]
        cases old.deref? (env.zero ea.typ) with
        | none => exact .panic s
        | some v => exact .andThen (ih1 d s m e ea _ wt h1 pe hs (by omega)) fun _ s1 hs1 _ => .ok _ hs1
      | invalid t' => rw [unmarshalS, unmarshal]; exact .err _ _ _
    · intro d s n t fields fs vals hk htab hp hs hd
      rw [unmarshalFieldsS, unmarshalFields]
      refine .rcall hm _ hs fun h s1 hs1 hl1 => .ite (fun _ => .rcall hm _ hs1 fun _ s2 hs2 _ => .ok _ hs2) fun _ => ?_
      have hl1 : Φ s1 + 1 ≤ Φ s := hl1
      have h1 := mono hl1
      have h2 := self (Φ s1)
      have next : ∀ vals s2, Good s2 → Φ s2 ≤ Φ s1 → AgreeU r Good Φ (rcall "ReadFieldEnd" Ty.struct t .fieldEnd (GoVal.struct vals) fun _ => unmarshalFieldsS env sk fuel d t fs vals)
          (rcall "ReadFieldEnd" Ty.struct t .fieldEnd (GoVal.struct vals) fun _ => unmarshalFields env sk fuel t fs vals) s2 := by
        intro vals s2 hs2 hl2
        refine .rcall hm _ hs2 fun _ s3 hs3 hl3 => ih2 d s3 n t fields fs vals hk htab hp hs3 ?_
        have := mono' (x := Φ s3) (y := Φ s1) (by omega)
        omega
      dsimp only
      cases hb : byID fs h.id with
      | none =>
        refine .skip ((skipS_agree hm sk).1 d s1 h.type hs1 (by omega)) fun s2 hs2 hl2 => next _ s2 hs2 hl2
      | some f =>
        dsimp only
        cases vals[f.index]? with
        | none => exact .panic s1
        | some v =>
          obtain ⟨dcl, d1, _, d3⟩ := htab.byID_declares hb
          rw [fields_struct hk] at d1
          have pf : PointersAtMost env p dcl.typ := hp.part (by simp only [PartOf, hk]; exact ⟨dcl, List.mem_of_getElem? d1, rfl⟩)
          refine .andThen (ih1 d s1 n dcl.typ f.a _ _ d3 pf hs1 ?_) fun _ s2 hs2 hl2 => next _ s2 hs2 hl2
          have := pf.ptrs d3
          omega

end

/-! ## Values that the stream holds -/

section
variable {S : Type} {r : Rdr S} {α β : Type}

/-- If the unlimited program `p` succeeds from `s` it ends in `s'`; then the limited program `p'` panics if there is too little room, and does the same if there is enough. -/
structure Two (r : Rdr S) (low up : Prop) (p' p : UProg α) (s s' : S) : Prop where
  cuts : Cuts p' p
  two : ∀ v s2, p.run r s = .done ((v, none), s2) → s2 = s' ∧ (low → p'.run r s = .panicked) ∧ (up → p'.run r s = .done ((v, none), s'))

theorem Two.imp {low up low' up' : Prop} {p' p : UProg α} {s s' : S} (h : Two r low up p' p s s') (hl : low' → low) (hu : up' → up) : Two r low' up' p' p s s' :=
  ⟨h.cuts, fun v s2 hr => by obtain ⟨h1, h2, h3⟩ := h.two v s2 hr; exact ⟨h1, fun h => h2 (hl h), fun h => h3 (hu h)⟩⟩

theorem Two.ok (a : α) (s : S) : Two r False True (.ret (a, none)) (.ret (a, none)) s s := ⟨.refl _, fun v s2 hr => by cases hr; exact ⟨rfl, False.elim, fun _ => rfl⟩⟩

/-- A program that does not succeed. -/
theorem Two.never {low up : Prop} {p' p : UProg α} {s s' : S} (hc : Cuts p' p) (h : ∀ v s2, p.run r s ≠ .done ((v, none), s2)) : Two r low up p' p s s' := ⟨hc, fun v s2 hr => absurd hr (h v s2)⟩

theorem Two.err {low up : Prop} (a : α) (e : Err) (s s' : S) : Two r low up (.ret (a, some e)) (.ret (a, some e)) s s' := .never (.refl _) fun v s2 h => by cases h

theorem Two.panic {low up : Prop} {p : UProg α} {s s' : S} (h : ∀ v s2, p.run r s = .done ((v, none), s2) → s2 = s') (hu : ¬ up) : Two r low up .panic p s s' :=
  ⟨.panic _, fun v s2 hr => ⟨h v s2 hr, fun _ => rfl, fun h => absurd h hu⟩⟩

theorem Two.rcall {low up : Prop} {act : String} {tt : WType} {t : TypeId} {o : ROp} {a : o.Ans} {old : α} {k' k : o.Ans → UProg α} {s s1 s' : S} (hg : Gives r o s a s1) (hc : ∀ a, Cuts (k' a) (k a))
    (h : Two r low up (k' a) (k a) s1 s') : Two r low up (rcall act tt t o old k') (rcall act tt t o old k) s s' := by
  refine ⟨.rcall _ _ _ _ _ hc, fun v s2 hr => ?_⟩
  rw [run_rcall hg] at hr ⊢
  exact h.two v s2 hr

theorem Two.andThen {low up low2 up2 : Prop} {p' p : UProg α} {fail : α → β} {k' k : α → UProg β} {s s1 s' : S} (hp : Two r low up p' p s s1) (hk : ∀ a, Two r low2 up2 (k' a) (k a) s1 s') :
    Two r (low ∨ low2) (up ∧ up2) (p'.andThen fail k') (p.andThen fail k) s s' := by
  refine ⟨.uandThen hp.cuts _ fun a => (hk a).cuts, fun v s2 hr => ?_⟩
  rw [UProg.andThen, RProg.run_bind] at hr
  cases hx : p.run r s with
  | done x =>
    obtain ⟨⟨a, e⟩, s3⟩ := x
    rw [hx, Out.bind_done] at hr
    cases e with
    | some e => cases hr
    | none =>
      obtain ⟨rfl, h2, h3⟩ := hp.two a s3 hx
      obtain ⟨h4, h5, h6⟩ := (hk a).two v s2 hr
      refine ⟨h4, fun hl => ?_, fun hu => ?_⟩
      · rw [UProg.andThen, RProg.run_bind]
        rcases hp.cuts.run r s with h | h
        · rw [h]; rfl
        · rcases hl with hl | hl
          · rw [h2 hl]; rfl
          · rw [h, hx, Out.bind_done]
            exact h5 hl
      · rw [UProg.andThen, RProg.run_bind, h3 hu.1, Out.bind_done]
        exact h6 hu.2
  | blocked => rw [hx] at hr; cases hr
  | diverged => rw [hx] at hr; cases hr
  | panicked => rw [hx] at hr; cases hr

/-- Behind a call of `Skip` at a value. -/
theorem Two.skip {n d : Nat} {low2 up2 : Prop} {p' p : RProg (Option Err)} (hc : Cuts p' p) {v : α} {k' k : UProg α} {s s1 s' : S} (hp : p.run r s = .done (none, s1)) (hf : Fits r n d p' s s1)
    (hk : Two r low2 up2 k' k s1 s') :
    Two r (d < n ∨ low2) (n ≤ d ∧ up2) (p'.bind fun e => match e with | some e => .ret (v, some e) | none => k') (p.bind fun e => match e with | some e => .ret (v, some e) | none => k) s s' := by
  refine ⟨hc.bind fun e => ?_, fun x s2 hr => ?_⟩
  · cases e with
    | none => exact hk.cuts
    | some e => exact .ret _
  · rw [RProg.run_bind, hp, Out.bind_done] at hr
    obtain ⟨h4, h5, h6⟩ := hk.two x s2 hr
    refine ⟨h4, fun hl => ?_, fun hu => ?_⟩
    · rw [RProg.run_bind]
      rcases hc.run r s with h | h
      · rw [h]; rfl
      · rcases hl with hl | hl
        · rw [hf.2 hl]; rfl
        · rw [h, hp, Out.bind_done]
          exact h5 hl
    · rw [RProg.run_bind, hf.1 hu.1, Out.bind_done]
      exact h6 hu.2

theorem Two.seqLoop {low up : TVal → Prop} {u' u : GoVal → UProg GoVal} (zero : GoVal) (grow : Nat → Nat) (et : WType) (es : List TVal) (hc : ∀ v, Cuts (u' v) (u v))
    (hu : ∀ tv ∈ es, ∀ v (s s' : S), tv.ty = et → Holds r tv s s' → Two r (low tv) (up tv) (u' v) (u v) s s') (done rest : List GoVal) (mz : Bool) (s s' : S) (h : HoldsElems r et es s s') :
    Two r (∃ tv ∈ es, low tv) (∀ tv ∈ es, up tv) (seqLoop u' zero grow es.length done rest mz) (seqLoop u zero grow es.length done rest mz) s s' := by
  induction es generalizing done rest mz s with
  | nil => simp only [HoldsElems] at h; subst h; exact (Two.ok _ _).imp (by simp) fun _ => trivial
  | cons e es ih =>
    simp only [HoldsElems] at h
    obtain ⟨ht, s1, h1, h2⟩ := h
    rw [List.length_cons, GoThrift.seqLoop, GoThrift.seqLoop]
    generalize (if rest.isEmpty = true then List.replicate (max 1 (grow done.length - done.length)) zero else rest) = rest'
    cases rest' with
    | nil => exact .never (.refl _) fun v s2 h => by cases h
    | cons v rest' =>
      refine ((hu e (by simp) _ s s1 ht h1).andThen fun v' => ih (fun tv htv => hu tv (by simp [htv])) _ _ _ s1 h2).imp ?_ ?_
      · rintro ⟨tv, htv, hl⟩
        rcases List.mem_cons.1 htv with rfl | htv
        · exact .inl hl
        · exact .inr ⟨tv, htv, hl⟩
      · exact fun h => ⟨h e (by simp), fun tv htv => h tv (by simp [htv])⟩

theorem Two.mapLoop {lk uk lv uv : TVal → Prop} {pk' pk : UProg GoVal} {pv' pv : GoVal → UProg GoVal} (zero : GoVal) (kt vt : WType) (tes : List (TVal × TVal)) (hck : Cuts pk' pk) (hcv : ∀ v, Cuts (pv' v) (pv v))
    (hk : ∀ e ∈ tes, ∀ (s s' : S), e.1.ty = kt → Holds r e.1 s s' → Two r (lk e.1) (uk e.1) pk' pk s s')
    (hv : ∀ e ∈ tes, ∀ v (s s' : S), e.2.ty = vt → Holds r e.2 s s' → Two r (lv e.2) (uv e.2) (pv' v) (pv v) s s') (es : List (GoVal × GoVal)) (s s' : S) (h : HoldsEntries r kt vt tes s s') :
    Two r (∃ e ∈ tes, lk e.1 ∨ lv e.2) (∀ e ∈ tes, uk e.1 ∧ uv e.2) (mapLoop pk' pv' zero tes.length es) (mapLoop pk pv zero tes.length es) s s' := by
  induction tes generalizing es s with
  | nil => simp only [HoldsEntries] at h; subst h; exact (Two.ok _ _).imp (by simp) fun _ => trivial
  | cons e tes ih =>
    obtain ⟨k, v⟩ := e
    simp only [HoldsEntries] at h
    obtain ⟨h1, h2, s3, s4, h3, h4, h5⟩ := h
    rw [List.length_cons, GoThrift.mapLoop, GoThrift.mapLoop]
    refine ((hk (k, v) (by simp) s s3 h1 h3).andThen fun k' => (hv (k, v) (by simp) _ s3 s4 h2 h4).andThen fun v' =>
      ih (fun e he => hk e (by simp [he])) (fun e he => hv e (by simp [he])) _ s4 h5).imp ?_ ?_
    · rintro ⟨e, he, hl⟩
      rcases List.mem_cons.1 he with rfl | he
      · exact hl.elim .inl fun h => .inr (.inl h)
      · exact .inr (.inr ⟨e, he, hl⟩)
    · exact fun h => ⟨(h (k, v) (by simp)).1, (h (k, v) (by simp)).2, fun e he => h e (by simp [he])⟩

theorem Two.seqBody {low up : TVal → Prop} (env : Env) (t et : TypeId) {u' u : WType → GoVal → UProg GoVal} (es : List TVal) (old : GoVal) (h : SetHeader) {fin : GoVal → UProg GoVal} (s1 s2 s' : S)
    (hc : ∀ wt v, Cuts (u' wt v) (u wt v))
    (hu : ∀ tv ∈ es, ∀ v (s s' : S), tv.ty = h.element → Holds r tv s s' → Two r (low tv) (up tv) (u' h.element v) (u h.element v) s s') (hsize : loopCount h.size = es.length)
    (hes : HoldsElems r h.element es s1 s2) (hfin : ∀ v, Two r False True (fin v) (fin v) s2 s') :
    Two r (∃ tv ∈ es, low tv) (∀ tv ∈ es, up tv) (seqBody env t et u' old h fin) (seqBody env t et u old h fin) s1 s' := by
  rw [GoThrift.seqBody, GoThrift.seqBody]
  by_cases he : es = []
  · subst he
    simp only [HoldsElems] at hes
    subst hes
    have hn : ¬ h.size.toInt > 0 := by rw [loopCount] at hsize; simp only [List.length_nil] at hsize; omega
    rw [if_neg hn, if_neg hn]
    exact (hfin _).imp (by simp) fun _ => trivial
  · have : 0 < es.length := List.length_pos_iff.2 he
    have hp : h.size.toInt > 0 := by rw [loopCount] at hsize; omega
    rw [if_pos hp, if_pos hp, hsize]
    exact ((Two.seqLoop _ _ _ es (hc _) hu _ _ _ s1 s2 hes).andThen fun p => hfin _).imp .inl fun h => ⟨h, trivial⟩

theorem Two.leaf (env : Env) (t : TypeId) (l : Leaf) (old : GoVal) (tv : TVal) (s s' : S) (h : Holds r tv s s') :
    Two r False True (unmarshalLeaf env t l old tv.ty) (unmarshalLeaf env t l old tv.ty) s s' := by
  refine ⟨.refl _, fun v s2 hr => ?_⟩
  have hm := leaf_holds env t l old tv s s' h
  cases hd : decLeaf env t l old tv with
  | done x =>
    obtain ⟨v', e⟩ := x
    rw [hd] at hm
    cases e with
    | none =>
      have hm : _ = Out.done ((v', none), s') := hm
      rw [hm] at hr
      cases hr
      exact ⟨rfl, False.elim, fun _ => hm⟩
    | some e =>
      obtain ⟨s3, hm⟩ := hm
      rw [hm] at hr
      cases hr
  | blocked => rw [hd] at hm; exact False.elim hm
  | diverged => rw [hd] at hm; have hm : _ = Out.diverged := hm; rw [hm] at hr; cases hr
  | panicked => rw [hd] at hm; have hm : _ = Out.panicked := hm; rw [hm] at hr; cases hr

theorem depth_pos (tv : TVal) : 1 ≤ depth tv := by cases tv <;> simp [depth]

theorem depth_elem {e : TVal} {es : List TVal} (h : e ∈ es) : depth e ≤ depthElems es := by
  induction es with
  | nil => cases h
  | cons a es ih =>
    rw [depthElems]
    rcases List.mem_cons.1 h with rfl | h
    · omega
    · have := ih h; omega

theorem depthElems_mem {d : Nat} {es : List TVal} (h : d < depthElems es) : ∃ e ∈ es, d < depth e := by
  induction es with
  | nil => cases h
  | cons a es ih =>
    rw [depthElems] at h
    by_cases h1 : d < depth a
    · exact ⟨a, by simp, h1⟩
    · obtain ⟨e, he, h2⟩ := ih (by omega)
      exact ⟨e, by simp [he], h2⟩

theorem depth_entry {e : TVal × TVal} {es : List (TVal × TVal)} (h : e ∈ es) : depth e.1 ≤ depthEntries es ∧ depth e.2 ≤ depthEntries es := by
  induction es with
  | nil => cases h
  | cons a es ih =>
    obtain ⟨k, v⟩ := a
    rw [depthEntries]
    rcases List.mem_cons.1 h with rfl | h
    · dsimp only; omega
    · have := ih h; omega

theorem depthEntries_mem {d : Nat} {es : List (TVal × TVal)} (h : d < depthEntries es) : ∃ e ∈ es, d < depth e.1 ∨ d < depth e.2 := by
  induction es with
  | nil => cases h
  | cons a es ih =>
    obtain ⟨k, v⟩ := a
    rw [depthEntries] at h
    by_cases h1 : d < depth k ∨ d < depth v
    · exact ⟨(k, v), by simp, h1⟩
    · obtain ⟨e, he, h2⟩ := ih (by omega)
      exact ⟨e, by simp [he], h2⟩

/-- At a value of depth `n` with at most `p` pointers in a row in the type: too little room is less than `n`, enough is the pointers on top and `p + 1` frames for each level below and one. -/
theorem unmarshalS_two (env : Env) (p sk fuel : Nat) :
    (∀ d n t a old tv (s s' : S), fuelOf tv ≤ sk → lookupArshaler env n t = .done a → Holds r tv s s' →
      Two r (d < depth tv) (PointersAtMost env p t ∧ a.ptrs + (p + 1) * (depth tv - 1) < d) (unmarshalS env sk fuel d a old tv.ty) (unmarshal env sk fuel a old tv.ty) s s') ∧
    ∀ d n t fields fs vals tfs (s s1 s' : S), (env.type t).kind = .struct fields → Table env n t fs → fuelOfFields tfs ≤ sk → HoldsFields r tfs s s1 → Gives r .structEnd s1 () s' →
      Two r (d < depthFields tfs) (PointersAtMost env p t ∧ (p + 1) * depthFields tfs ≤ d) (unmarshalFieldsS env sk fuel d t fs vals) (unmarshalFields env sk fuel t fs vals) s s' := by
  -- enough room for all is enough for one
  have room : ∀ {x y d : Nat}, 1 ≤ x → x ≤ y → (p + 1) * y ≤ d → p + (p + 1) * (x - 1) < d := fun {x y d} h1 h2 h3 => by
    obtain ⟨x, rfl⟩ := Nat.exists_eq_add_of_le' h1
    have := Nat.mul_le_mul_left (p + 1) h2
    rw [Nat.mul_add, Nat.mul_one] at this
    simp only [Nat.add_sub_cancel]
    omega
  have mono' : ∀ {x y d : Nat}, x ≤ y → (p + 1) * y ≤ d → (p + 1) * x ≤ d := fun h h' => Nat.le_trans (Nat.mul_le_mul_left _ h) h'
  have self : ∀ x : Nat, x ≤ (p + 1) * x := fun x => Nat.le_mul_of_pos_left _ (by omega)
  induction fuel with
  | zero =>
    refine ⟨fun d n t a old tv s s' _ _ _ => ?_, fun d n t fields fs vals tfs s s1 s' _ _ _ _ _ => ?_⟩
    · rw [unmarshalS, unmarshal]; exact .never (.refl _) fun v s2 h => by cases h
    · rw [unmarshalFieldsS, unmarshalFields]; exact .never (.refl _) fun v s2 h => by cases h
  | succ fuel ih =>
    obtain ⟨ih1, ih2⟩ := ih
    have hcut := (unmarshalS_cuts env sk fuel).1
    constructor
    · intro d n t a old tv s s' hsk hl h
      have hdp := depth_pos tv
      cases d with
      | zero =>
        rw [unmarshalS]
        refine .panic (fun v s2 hr => ?_) (by omega)
        have hm := unmarshal_holds env sk (fuel + 1) a old tv s s' hsk h
        rw [hr] at hm
        cases hd : dec env (fuel + 1) a old tv with
        | done x =>
          obtain ⟨v', e⟩ := x
          rw [hd] at hm
          cases e with
          | none => have hm : Out.done _ = Out.done _ := hm; cases hm; rfl
          | some e => obtain ⟨s3, hm⟩ := hm; cases hm
        | blocked => rw [hd] at hm; exact False.elim hm
        | diverged => rw [hd] at hm; have hm : Out.done _ = Out.diverged := hm; cases hm
        | panicked => rw [hd] at hm; have hm : Out.done _ = Out.panicked := hm; cases hm
      | succ d =>
      have ha := lookup_arsh hl
      cases a with
      | leaf t' l =>
        rw [unmarshalS, unmarshal]
        by_cases hw : tv.ty = l.wireType
        · have hd1 : depth tv = 1 := by
            cases l <;> cases tv <;> first | rfl | exact absurd hw (by simp only [ty, Leaf.wireType]; decide)
          exact (Two.leaf env t' l old tv s s' h).imp (by omega) fun _ => trivial
        · unfold unmarshalLeaf
          rw [if_pos hw]
          exact .err _ _ _ _
      | struct t' =>
        obtain ⟨rfl, ⟨fields, hk⟩, _⟩ := ha
        rw [unmarshalS, unmarshal]
        cases hx : makeStructFields env fuel t' with
        | done x =>
          cases x with
          | error e => exact .err _ _ _ _
          | ok fs =>
            dsimp only [Out.elim]
            by_cases hw : tv.ty ≠ Ty.struct
            · rw [if_pos hw, if_pos hw]; exact .err _ _ _ _
            · rw [if_neg hw, if_neg hw]
              have hw : tv.ty = Ty.struct := Classical.not_not.1 hw
              cases tv with
              | struct nm tfs =>
                cases old.fields? with
                | none => exact .never (.refl _) fun v s2 h => by cases h
                | some vals =>
                  simp only [Holds] at h
                  obtain ⟨n', s1, s2, h1, h2, h3⟩ := h
                  simp only [fuelOf] at hsk
                  refine Two.rcall h1 (fun _ => (unmarshalS_cuts env sk fuel).2 _ _ _ _)
                    ((ih2 d fuel t' fields fs vals tfs s1 s2 s' hk (makeStructFields_table env fuel t' fs hx) (by omega) h2 h3).imp ?_ ?_)
                  · simp only [depth]; omega
                  · simp only [depth, Arsh.ptrs, Nat.add_sub_cancel]
                    exact fun h => ⟨h.1, by omega⟩
              | _ => exact absurd hw (by simp only [ty]; decide)
        | blocked => exact .never (.refl _) fun v s2 h => by cases h
        | diverged => exact .never (.refl _) fun v s2 h => by cases h
        | panicked => exact .never (.refl _) fun v s2 h => by cases h
      | map t' ka ea =>
        obtain ⟨rfl, _, m, k, e, hk, h1, h2⟩ := ha
        rw [unmarshalS, unmarshal]
        unfold unmarshalMap
        by_cases hw : tv.ty ≠ Ty.map
        · rw [if_pos hw, if_pos hw]; exact .err _ _ _ _
        · rw [if_neg hw, if_neg hw]
          have hw : tv.ty = Ty.map := Classical.not_not.1 hw
          cases tv with
          | map w1 w2 tes =>
            cases old.entries? with
            | none => exact .never (.refl _) fun v s2 h => by cases h
            | some es =>
              simp only [Holds] at h
              obtain ⟨h, s1, s2, g1, g2, g3, g4, g5⟩ := h
              simp only [fuelOf] at hsk
              have hfin : ∀ v, Two r False True (rcall "ReadMapEnd" Ty.map t' .mapEnd v fun _ => .ret (v, none) : UProg GoVal) (rcall "ReadMapEnd" Ty.map t' .mapEnd v fun _ => .ret (v, none)) s2 s' :=
                fun v => .rcall g5 (fun _ => .refl _) (.ok _ _)
              refine Two.rcall g1 (fun h => .ite (.uandThen (.mapLoop (hcut _ _ _ _) (fun v => hcut _ _ _ _) _ _ _) _ fun _ => .refl _) (.refl _)) ?_
              dsimp only
              by_cases he : tes = []
              · subst he
                simp only [HoldsEntries] at g4
                subst g4
                have hn : ¬ h.size.toInt > 0 := by rw [loopCount] at g2; simp only [List.length_nil] at g2; omega
                rw [if_neg hn, if_neg hn]
                exact (hfin _).imp (by simp only [depth, depthEntries]; omega) fun _ => trivial
              · have : 0 < tes.length := List.length_pos_iff.2 he
                have hp : h.size.toInt > 0 := by rw [loopCount] at g2; omega
                rw [if_pos hp, if_pos hp, g2]
                obtain ⟨rfl, rfl⟩ := g3 he
                refine ((Two.mapLoop (lk := fun tv => d < depth tv) (uk := fun tv => PointersAtMost env p k ∧ ka.ptrs + (p + 1) * (depth tv - 1) < d) (lv := fun tv => d < depth tv)
                  (uv := fun tv => PointersAtMost env p e ∧ ea.ptrs + (p + 1) * (depth tv - 1) < d) _ h.key h.value tes (hcut _ _ _ _) (fun v => hcut _ _ _ _) (fun x hx s s' hty hh => ?_)
                  (fun x hx v s s' hty hh => ?_) es s1 s2 g4).andThen fun es => hfin _).imp ?_ ?_
                · rw [← hty]; exact ih1 d m k ka _ x.1 s s' (by have := (fuelOf_entry hx).1; omega) h1 hh
                · rw [← hty]; exact ih1 d m e ea _ x.2 s s' (by have := (fuelOf_entry hx).2; omega) h2 hh
                · simp only [depth]
                  exact fun h => .inl (depthEntries_mem (by omega))
                · simp only [depth, Arsh.ptrs, Nat.add_sub_cancel]
                  rintro ⟨hp, hr⟩
                  have pk : PointersAtMost env p k := hp.part (by simp [PartOf, hk])
                  have pe : PointersAtMost env p e := hp.part (by simp [PartOf, hk])
                  refine ⟨fun x hx => ⟨⟨pk, ?_⟩, pe, ?_⟩, trivial⟩
                  · have := pk.ptrs h1
                    have := room (depth_pos x.1) (depth_entry hx).1 (show _ ≤ d by omega)
                    omega
                  · have := pe.ptrs h2
                    have := room (depth_pos x.2) (depth_entry hx).2 (show _ ≤ d by omega)
                    omega
          | _ => exact absurd hw (by simp only [ty]; decide)
      | seq t' isSet ea =>
        obtain ⟨rfl, _, m, e, hk, hb, h1⟩ := ha
        rw [unmarshalS, unmarshal]
        unfold unmarshalSeq
        dsimp only
        have body : ∀ (es : List TVal) (h : SetHeader) (fin : GoVal → UProg GoVal) (s1 s2 : S), fuelOfElems es ≤ sk → loopCount h.size = es.length → HoldsElems r h.element es s1 s2 →
            (∀ v, Two r False True (fin v) (fin v) s2 s') →
            Two r (d + 1 < depthElems es + 1) (PointersAtMost env p t' ∧ 0 + (p + 1) * (depthElems es + 1 - 1) < d + 1)
              (seqBody env t' ea.typ (fun wt v => unmarshalS env sk fuel d ea v wt) old h fin) (seqBody env t' ea.typ (fun wt v => unmarshal env sk fuel ea v wt) old h fin) s1 s' := by
          intro es h fin s1 s2 hf hsz hes hfin
          refine (Two.seqBody (low := fun tv => d < depth tv) (up := fun tv => PointersAtMost env p e ∧ ea.ptrs + (p + 1) * (depth tv - 1) < d) env t' ea.typ es old h s1 s2 s'
            (fun wt v => hcut _ _ _ _) (fun x hx v s s' hty hh => ?_) hsz hes hfin).imp ?_ ?_
          · rw [← hty]; exact ih1 d m e ea _ x s s' (by have := fuelOf_elem hx; omega) h1 hh
          · exact fun h => depthElems_mem (by omega)
          · simp only [Nat.add_sub_cancel]
            rintro ⟨hp, hr⟩ x hx
            have pe : PointersAtMost env p e := hp.part (by simp [PartOf, hk, hb])
            have := pe.ptrs h1
            have := room (depth_pos x) (depth_elem hx) (show _ ≤ d by omega)
            exact ⟨pe, by omega⟩
        have cbody : ∀ (h : SetHeader) (fin : GoVal → UProg GoVal), Cuts (seqBody env t' ea.typ (fun wt v => unmarshalS env sk fuel d ea v wt) old h fin)
            (seqBody env t' ea.typ (fun wt v => unmarshal env sk fuel ea v wt) old h fin) :=
          fun h fin => .ite (.uandThen (.seqLoop (fun v => hcut _ _ _ _) _ _ _ _ _ _) _ fun _ => .refl _) (.refl _)
        by_cases hw : tv.ty ≠ (if isSet then Ty.set else Ty.list)
        · rw [if_pos hw, if_pos hw]; exact .err _ _ _ _
        · rw [if_neg hw, if_neg hw]
          have hw : tv.ty = (if isSet then Ty.set else Ty.list) := Classical.not_not.1 hw
          by_cases ho : old.elems?.isNone = true
          · rw [if_pos ho, if_pos ho]
            exact .never (.refl _) fun v s2 h => by cases h
          · rw [if_neg ho, if_neg ho]
            cases isSet with
            | true =>
              cases tv with
              | set w es =>
                simp only [Holds] at h
                obtain ⟨h, s1, s2, g1, g2, rfl, g4, g5⟩ := h
                simp only [fuelOf] at hsk
                rw [if_pos rfl, if_pos rfl]
                exact .rcall g1 (fun h => cbody h _) (body es h _ s1 s2 (by omega) g2 g4 fun v => .rcall g5 (fun _ => .refl _) (.ok _ _))
              | _ => exact absurd hw (by simp only [ty]; decide)
            | false =>
              cases tv with
              | list w es =>
                simp only [Holds] at h
                obtain ⟨h, s1, s2, g1, g2, rfl, g4, g5⟩ := h
                simp only [fuelOf] at hsk
                rw [if_neg (by decide), if_neg (by decide)]
                exact .rcall g1 (fun h => cbody h _) (body es h _ s1 s2 (by omega) g2 g4 fun v => .rcall g5 (fun _ => .refl _) (.ok _ _))
              | _ => exact absurd hw (by simp only [ty]; decide)
      | ptr t' ea =>
        obtain ⟨rfl, m, e, hk, h1⟩ := ha
        rw [unmarshalS, unmarshal]
        cases old.deref? (env.zero ea.typ) with
        | none => exact .never (.refl _) fun v s2 h => by cases h
        | some v =>
          refine ((ih1 d m e ea v tv s s' hsk h1 h).andThen fun v => Two.ok _ _).imp (fun h => .inl (by omega)) ?_
          simp only [Arsh.ptrs]
          exact fun h => ⟨⟨h.1.part (by simp [PartOf, hk]), by omega⟩, trivial⟩
      | invalid t' => rw [unmarshalS, unmarshal]; exact .err _ _ _ _
    · intro d n t fields fs vals tfs s s1 s' hk htab hsk h hend
      have hcutf := (unmarshalS_cuts env sk fuel).2
      have ccont : ∀ (h : FieldHeader), Cuts
          (if h.type = Ty.stop then rcall "ReadStructEnd" Ty.struct t .structEnd (GoVal.struct vals) fun _ => .ret (.struct vals, none)
          else match byID fs h.id with
            | none => (skipS sk d h.type).bind fun e => match e with
              | some e => .ret (.struct vals, some e)
              | none => rcall "ReadFieldEnd" Ty.struct t .fieldEnd (.struct vals) fun _ => unmarshalFieldsS env sk fuel d t fs vals
            | some f => match vals[f.index]? with
              | none => .panic
              | some v => (unmarshalS env sk fuel d f.a v h.type).andThen (fun v' => .struct (vals.set f.index v')) fun v' =>
                rcall "ReadFieldEnd" Ty.struct t .fieldEnd (.struct (vals.set f.index v')) fun _ => unmarshalFieldsS env sk fuel d t fs (vals.set f.index v'))
          (if h.type = Ty.stop then rcall "ReadStructEnd" Ty.struct t .structEnd (GoVal.struct vals) fun _ => .ret (.struct vals, none)
          else match byID fs h.id with
            | none => (skip sk h.type).bind fun e => match e with
              | some e => .ret (.struct vals, some e)
              | none => rcall "ReadFieldEnd" Ty.struct t .fieldEnd (.struct vals) fun _ => unmarshalFields env sk fuel t fs vals
            | some f => match vals[f.index]? with
              | none => .panic
              | some v => (unmarshal env sk fuel f.a v h.type).andThen (fun v' => .struct (vals.set f.index v')) fun v' =>
                rcall "ReadFieldEnd" Ty.struct t .fieldEnd (.struct (vals.set f.index v')) fun _ => unmarshalFields env sk fuel t fs (vals.set f.index v')) := by
        intro h
        refine .ite (.refl _) ?_
        cases byID fs h.id with
        | none =>
          refine ((skipS_cuts sk).1 d _).bind fun e => ?_
          cases e with
          | none => exact .rcall _ _ _ _ _ fun _ => hcutf _ _ _ _
          | some e => exact .ret _
        | some f =>
          dsimp only
          cases vals[f.index]? with
          | none => exact .refl _
          | some v => exact .uandThen (hcut _ _ _ _) _ fun _ => .rcall _ _ _ _ _ fun _ => hcutf _ _ _ _
      rw [unmarshalFieldsS, unmarshalFields]
      cases tfs with
      | nil =>
        simp only [HoldsFields] at h
        obtain ⟨h, h2, ht⟩ := h
        refine Two.rcall h2 ccont ?_
        rw [if_pos ht, if_pos ht]
        exact (Two.rcall hend (fun _ => .refl _) (.ok _ _)).imp (fun h => nomatch h) fun _ => trivial
      | cons f tfs =>
        obtain ⟨fn, id, v⟩ := f
        simp only [HoldsFields] at h
        obtain ⟨nm, s3, s4, s5, hb, hv, he, hr⟩ := h
        simp only [fuelOfFields] at hsk
        refine Two.rcall hb ccont ?_
        rw [if_neg (ty_ne_stop v), if_neg (ty_ne_stop v)]
        have next : ∀ vals, Two r (d < depthFields tfs) (PointersAtMost env p t ∧ (p + 1) * depthFields tfs ≤ d)
            (rcall "ReadFieldEnd" Ty.struct t .fieldEnd (GoVal.struct vals) fun _ => unmarshalFieldsS env sk fuel d t fs vals)
            (rcall "ReadFieldEnd" Ty.struct t .fieldEnd (GoVal.struct vals) fun _ => unmarshalFields env sk fuel t fs vals) s4 s' :=
          fun vals => .rcall he (fun _ => hcutf _ _ _ _) (ih2 d n t fields fs vals tfs s5 s1 s' hk htab (by omega) hr hend)
        dsimp only
        simp only [depthFields]
        cases hid : byID fs id with
        | none =>
          refine (Two.skip ((skipS_cuts sk).1 d _) (skip_holds v sk (by omega) s3 s4 hv) (skipS_holds v sk d (by omega) s3 s4 hv) (next vals)).imp (fun h => ?_) fun h => ⟨?_, h.1, ?_⟩
          · by_cases h1 : d < depth v
            · exact .inl h1
            · exact .inr (by omega)
          · have := self (max (depth v) (depthFields tfs)); omega
          · exact mono' (Nat.le_max_right _ _) h.2
        | some sf =>
          dsimp only
          cases vals[sf.index]? with
          | none => exact .never (.refl _) fun v s2 h => by cases h
          | some v0 =>
            obtain ⟨dcl, d1, _, d3⟩ := htab.byID_declares hid
            rw [fields_struct hk] at d1
            refine ((ih1 d n dcl.typ sf.a v0 v s3 s4 (by omega) d3 hv).andThen fun v' => next _).imp (fun h => ?_) fun h => ⟨⟨?_, ?_⟩, h.1, mono' (Nat.le_max_right _ _) h.2⟩
            · by_cases h1 : d < depth v
              · exact .inl h1
              · exact .inr (by omega)
            · exact h.1.part (by simp only [PartOf, hk]; exact ⟨dcl, List.mem_of_getElem? d1, rfl⟩)
            · have pf : PointersAtMost env p dcl.typ := h.1.part (by simp only [PartOf, hk]; exact ⟨dcl, List.mem_of_getElem? d1, rfl⟩)
              have := pf.ptrs d3
              have := room (depth_pos v) (Nat.le_max_left _ _) h.2
              omega

end

end GoThrift
