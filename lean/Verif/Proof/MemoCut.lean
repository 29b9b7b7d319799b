import Verif.Proof.Strict
import Verif.Proof.MemoBreak
import Verif.Proof.Blame
import Verif.Proof.Evolve

/-!
# Marshal and Unmarshal at a Memo that breaks
-/

namespace GoThrift

open Spec Spec.TVal

/-! ## Errors that name the Reader's method -/

/-- If a call fails the program returns at once an error that names the method. -/
abbrev Named {α : Type} (p : UProg α) : Prop :=
  Blames (α := α × Option Err) Prod.snd (fun o err e => ∃ tt t, e = .semanticE .unmarshal tt (some t) (.wire (readName o) err)) (fun _ => True) p

theorem named_rcall {α : Type} {act : String} {tt : WType} {t : TypeId} {o : ROp} {old : α} {k : o.Ans → UProg α} (h1 : act = readName o) (hk : ∀ a, Named (k a)) : Named (rcall act tt t o old k) := by
  subst h1
  exact ⟨fun e => ⟨_, _, rfl, rfl, tt, t, rfl⟩, hk⟩

theorem named_andThen {α β : Type} {p : UProg α} {fail : α → β} {k : α → UProg β} (hp : Named p) (hk : ∀ a, Named (k a)) : Named (UProg.andThen p fail k) := by
  refine hp.bind (fun a ha => ?_) (fun a e ha => ?_)
  · obtain ⟨a, x⟩ := a
    cases ha
    exact hk a
  · obtain ⟨a, x⟩ := a
    cases ha
    exact ⟨_, rfl, rfl⟩

theorem named_ret {α : Type} (x : α × Option Err) : Named (.ret x : UProg α) := fun _ _ => trivial

theorem named_seqLoop {u : GoVal → UProg GoVal} (hu : ∀ v, Named (u v)) (zero : GoVal) (grow : Nat → Nat) (n : Nat) (done rest : List GoVal) (mz : Bool) :
    Named (seqLoop u zero grow n done rest mz) := by
  induction n generalizing done rest mz with
  | zero => exact named_ret _
  | succ n ih =>
    rw [seqLoop]
    split
    · trivial
    · exact named_andThen (hu _) fun _ => ih _ _ _

theorem named_mapLoop {uk : UProg GoVal} {uv : GoVal → UProg GoVal} (hk : Named uk) (hv : ∀ v, Named (uv v)) (zero : GoVal) (n : Nat) (es : List (GoVal × GoVal)) :
    Named (mapLoop uk uv zero n es) := by
  induction n generalizing es with
  | zero => exact named_ret _
  | succ n ih => exact named_andThen hk fun _ => named_andThen (hv _) fun _ => ih _

theorem named_leaf (env : Env) (t : TypeId) (l : Leaf) (old : GoVal) (wt : WType) : Named (unmarshalLeaf env t l old wt) := by
  unfold unmarshalLeaf
  refine .ite (fun h => named_ret _) fun _ => ?_
  cases l with
  | bytes =>
    cases old with
    | bytes b => exact named_rcall rfl fun _ => named_ret _
    | _ => trivial
  | _ => exact named_rcall rfl fun _ => named_ret _

/-- Unmarshalling that may not skip names the method that failed. -/
theorem named_unmarshal (env : Env) (fuel : Nat) :
    (∀ a old wt, Named (unmarshal env 0 fuel a old wt)) ∧ (∀ t fs vals, Named (unmarshalFields env 0 fuel t fs vals)) := by
  induction fuel with
  | zero => exact ⟨fun _ _ _ => by rw [unmarshal]; trivial, fun _ _ _ => by rw [unmarshalFields]; trivial⟩
  | succ fuel ih =>
    obtain ⟨ih1, ih2⟩ := ih
    constructor
    · intro a old wt
      cases a with
      | leaf t l => rw [unmarshal]; exact named_leaf env t l old wt
      | struct t =>
        rw [unmarshal]
        refine blames_elim fun r hr => ?_
        cases r with
        | error e => exact named_ret _
        | ok fs =>
          dsimp only
          refine .ite (fun h => named_ret _) fun _ => ?_
          split
          · trivial
          · exact named_rcall rfl fun _ => ih2 _ _ _
      | map t ka ea =>
        rw [unmarshal, unmarshalMap]
        refine .ite (fun h => named_ret _) fun _ => ?_
        split
        · trivial
        · refine named_rcall rfl fun h => .ite (fun _ => ?_) fun _ => ?_
          · exact named_andThen (named_mapLoop (ih1 _ _ _) (fun _ => ih1 _ _ _) _ _ _) fun _ => named_rcall rfl fun _ => named_ret _
          · exact named_rcall rfl fun _ => named_ret _
      | seq t isSet ea =>
        have body : ∀ (h : SetHeader) (fin : GoVal → UProg GoVal), (∀ v, Named (fin v)) → Named (seqBody env t ea.typ (fun wt v => unmarshal env 0 fuel ea v wt) old h fin) := by
          intro h fin hfin
          exact .ite (fun _ => named_andThen (named_seqLoop (fun _ => ih1 _ _ _) _ _ _ _ _ _) fun _ => hfin _) fun _ => hfin _
        rw [unmarshal, unmarshalSeq]
        refine .ite (fun h => named_ret _) fun _ => .ite (fun _ => trivial) fun _ => .ite (fun hs => ?_) fun hs => ?_
        · exact named_rcall rfl fun h => body h _ fun _ => named_rcall rfl fun _ => named_ret _
        · exact named_rcall rfl fun h => body h _ fun _ => named_rcall rfl fun _ => named_ret _
      | ptr t ea =>
        rw [unmarshal]
        split
        · trivial
        · exact named_andThen (ih1 _ _ _) fun _ => named_ret _
      | invalid t => rw [unmarshal]; exact named_ret _
    · intro t fs vals
      rw [unmarshalFields]
      refine named_rcall rfl fun h => .ite (fun _ => named_rcall rfl fun _ => named_ret _) fun _ => ?_
      have next : ∀ vals, Named (rcall "ReadFieldEnd" Ty.struct t .fieldEnd (GoVal.struct vals) fun _ => unmarshalFields env 0 fuel t fs vals) :=
        fun vals => named_rcall rfl fun _ => ih2 _ _ _
      dsimp only
      split
      · rw [skip]; trivial
      · split
        · trivial
        · exact named_andThen (ih1 _ _ _) fun _ => next _

/-! ## Following a script -/

/-- A Reader that gives these answers to these calls, and panics when called otherwise. -/
def scripted : Rdr (List Answer) where
  step o s := match s with
    | [] => .panicked
    | a :: as => if h : a.1 = o then .done (.ok (h ▸ a.2), as) else .panicked

theorem scripted_answers (as : List Answer) : Answers scripted as as [] := by
  induction as with
  | nil => rfl
  | cons a as ih => exact ⟨as, by simp [Gives, scripted], ih⟩

/-- A program that follows a script to its end, at a Reader that follows the script for some calls and then fails. -/
theorem named_cut {α : Type} {S : Type} {r : Rdr S} (p : UProg α) (hp : Named p) (as : List Answer) (x : α × Option Err) (h : p.run scripted as = .done (x, [])) (n : Nat) (a : Answer)
    (ha : as[n]? = some a) {s s1 s2 : S} {err : Err} (h1 : Answers r (as.take n) s s1) (h2 : r.step a.1 s1 = .done (.error err, s2)) :
    ∃ y tt t, p.run r s = .done ((y, some (.semanticE .unmarshal tt (some t) (.wire (readName a.1) err))), s2) := by
  induction p generalizing as n s with
  | ret y => cases h; simp at ha
  | diverge => cases h
  | panic => cases h
  | call o k ih =>
    cases as with
    | nil => simp at ha
    | cons b as =>
      rw [RProg.run] at h ⊢
      obtain ⟨bo, bv⟩ := b
      by_cases hb : bo = o
      · subst hb
        simp only [scripted, dite_true, Out.bind_done] at h
        cases n with
        | zero =>
          cases ha
          rw [List.take_zero] at h1
          cases h1
          rw [h2, Out.bind_done]
          obtain ⟨⟨y, z⟩, e, h3, h4, tt, t, rfl⟩ := hp.1 err
          cases h4
          exact ⟨y, tt, t, by rw [h3, RProg.run]⟩
        | succ n =>
          rw [List.take_succ_cons] at h1
          obtain ⟨s3, h3, h4⟩ := h1
          rw [show r.step bo s = .done (.ok bv, s3) from h3, Out.bind_done]
          exact ih (.ok bv) (hp.2 bv) as h n (by simpa using ha) h4
      · simp only [scripted, dif_neg hb] at h
        cases h

theorem readName_takeBack (o : WOp) : ∀ a ∈ takeBack o, readName a.1 = "Read" ++ stepName a.1 := by
  cases o <;> simp only [takeBack, List.mem_cons, List.not_mem_nil, or_false, forall_eq, forall_eq_or_imp] <;> decide

theorem readName_takeAll (l : List WOp) (a : Answer) (h : a ∈ takeAll l) : readName a.1 = "Read" ++ stepName a.1 := by
  obtain ⟨o, _, h⟩ := List.mem_flatMap.1 h
  exact readName_takeBack o a h

/-! ## Unmarshal of what is written of a value, into any variable of the type -/

theorem rep_decodes {env : Env} {t : TypeId} {v : GoVal} {tv : TVal} (h : Rep env t v tv) {lim : Nat} (hw : WF lim tv) (hd : ∀ t', Within env t' t → DistinctIds env t') (hg : AllGood env t)
    {n : Nat} {a : Arsh} (hl : lookupArshaler env n t = .done a) {old : GoVal} (ho : HasType env t old) : ∃ k v', dec env k a old tv = .done (v', none) ∧ HasType env t v' := by
  obtain ⟨k, v', e, h1, h2, h3⟩ := dec_total tv hw n t a old hl ho hg
  cases e with
  | none => exact ⟨k, v', h1, h2⟩
  | some err =>
    obtain ⟨bad, t', hm, _⟩ := h3 err rfl
    exact (no_mismatch hm h ⟨Eq, fun a b h => h ▸ .same a, rfl⟩ hd ((lookup_iff_acc env t).1 ⟨n, a, hl⟩) hg).elim

/-- Unmarshal at a Reader that answers as if reading `tv`, but fails at the `n`th call. -/
theorem unmarshal_cut {env : Env} {t p : TypeId} {v : GoVal} {tv : TVal} (h : Rep env t v tv) (hw : WF (2 ^ 63 - 1) tv) (hd : ∀ t', Within env t' t → DistinctIds env t') (hg : AllGood env t)
    (hp : (env.type p).kind = .ptr t) {n : Nat} {a : Arsh} (hl : lookupArshaler env n t = .done a) (hty : a.wireType = tv.ty) {old : GoVal} (ho : HasType env t old)
    {S : Type} {r : Rdr S} {s s1 s2 : S} {err : Err} (i : Nat) (b : Answer) (hb : (takeAll (calls tv))[i]? = some b) (h1 : Answers r ((takeAll (calls tv)).take i) s s1)
    (h2 : r.step b.1 s1 = .done (.error err, s2)) :
    ∃ v' tt g, UnmarshalReturns env r (.val p (.ptr old)) s (some (.semanticE .unmarshal tt (some g) (.wire ("Read" ++ stepName b.1) err))) (.val p (.ptr v')) s2 := by
  obtain ⟨k, v', h3, _⟩ := rep_decodes h hw hd hg hl ho
  have h4 := (unmarshal_strict (r := scripted) env 0 k).1 n t a old tv (takeAll (calls tv)) [] hl h.marked hd (holdsS_answers tv hw _ _ (scripted_answers _))
  rw [h3] at h4
  obtain ⟨y, tt, g, h5⟩ := named_cut _ ((named_unmarshal env k).1 a old tv.ty) _ _ h4 i b hb h1 h2
  rw [readName_takeAll _ b (List.mem_of_getElem? hb)] at h5
  refine ⟨y, tt, g, n + k, fun fuel hf => ?_⟩
  have h6 := (((unmarshal_le env 0 fuel (Nat.zero_le _) k fuel (by omega)).1 a old tv.ty).run r s).done h5
  have he : env.elem? p = some t := by simp [Env.elem?, hp]
  simp only [Unmarshal, he, GoVal.pointee?, lookup_mono (show n ≤ fuel by omega) hl, Out.elim, hty]
  rw [UProg.andThen, RProg.run_bind, h6]
  rfl

/-! ## Marshal -/

namespace Memo

theorem put_put (m : Memo) (es es' : List (String × List MVal)) : (m.put es).put es' = m.put (es ++ es') := by
  simp [put, Nat.add_assoc]

/-- What a program writes to a Memo without breakpoint, and what of it if there is one. -/
theorem run_cut_exact (p : WProg) (hp : Wrapped p) (m m' : Memo) (hm : m.breakpoint = 0) (e : Option Err) (h : p.run writer m = .done (e, m')) :
    ∃ es, m' = m.put es ∧ ∀ (i : Nat) x, es[i]? = some x →
      ∃ o y, p.run writer (m.cut (m.w + i + 1)) = .done (y, (m.put (es.take i)).cut (m.w + i + 1)) ∧ Wraps o .brk y ∧ x ∈ entries o := by
  induction p generalizing m with
  | ret x => cases h; exact ⟨[], (put_nil _).symm, fun i x h => by simp at h⟩
  | diverge => cases h
  | panic => cases h
  | call o k ih =>
    rw [WProg.run, writer_free o m hm, Out.bind_done] at h
    obtain ⟨es, h1, h2⟩ := ih none hp.2 (m.put (entries o)) hm h
    refine ⟨entries o ++ es, by rw [h1, put_put], fun i x hx => ?_⟩
    rw [WProg.run, writer_cut o m _ (by omega), Out.bind_done, show ((m.w : Int) + i + 1 - 1 - m.w).toNat = i by omega]
    by_cases hi : i < (entries o).length
    · rw [if_neg (by omega)]
      rw [List.getElem?_append_left hi] at hx
      obtain ⟨y, hy1, hy2⟩ := hp.1 .brk
      refine ⟨o, y, ?_, hy2, List.mem_of_getElem? hx⟩
      rw [hy1, WProg.run, List.take_append_of_le_length (by omega)]
    · rw [if_pos (by omega), List.take_of_length_le (by omega)]
      rw [List.getElem?_append_right (by omega)] at hx
      obtain ⟨o', y, h3, h4, h5⟩ := h2 _ x hx
      refine ⟨o', y, ?_, h4, h5⟩
      have hw : ((m.put (entries o)).w : Int) + (i - (entries o).length : Nat) + 1 = m.w + i + 1 := by simp only [put]; omega
      rw [hw, put_put] at h3
      rw [List.take_append, List.take_of_length_le (show (entries o).length ≤ i by omega)]
      exact h3

theorem methodName_entries (o : WOp) : ∀ x ∈ entries o, methodName o = "Write" ++ x.1 ∨ (methodName o = "WriteStructEnd" ∧ x.1 = "FieldBegin") := by
  cases o <;> simp only [entries, List.mem_cons, List.not_mem_nil, or_false, forall_eq, forall_eq_or_imp] <;> simp only [methodName] <;> decide

end Memo

end GoThrift
