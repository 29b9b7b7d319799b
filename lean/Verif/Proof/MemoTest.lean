import Verif.Proof.Checked

/-!
# Marshal to a Memo, cut at a step, and Unmarshal from it
-/

namespace GoThrift

open Spec Spec.TVal

theorem checked_returns {S : Type} {env : Env} {r : Rdr S} {x x' : AnyVal} {s s' : S} {e : Option Err} (h : UnmarshalReturns env (checked r) x s e x' s') : UnmarshalReturns env r x s e x' s' := by
  obtain ⟨n, h⟩ := h
  exact ⟨n, fun fuel hf => checked_run _ (h fuel hf)⟩

namespace Memo

theorem put_fresh (b : Int) (es : List (String × List MVal)) : put { breakpoint := b } es = after b es 0 := by simp [put, after]

theorem after_inj {b : Int} {es es' : List (String × List MVal)} (h : after b es 0 = after b es' 0) : es = es' := by
  have h1 : es.map (·.1) = es'.map (·.1) := by simpa [after] using congrArg Memo.steps h
  have h2 : es.map (·.2) = es'.map (·.2) := congrArg Memo.values h
  have key : ∀ es : List (String × List MVal), (es.map (·.1)).zip (es.map (·.2)) = es := fun es => by
    induction es with
    | nil => rfl
    | cons e es ih => simp only [List.map_cons, List.zip_cons_cons, ih]
  rw [← key es, ← key es', h1, h2]

theorem steps_after (b : Int) (es : List (String × List MVal)) (k : Nat) : (after b es k).Steps = es.map (·.1) ++ (es.map (·.1)).take k := rfl

/-- The Reader at the first entries of a value's. -/
theorem answers_first (tv : TVal) (b : Int) (n : Nat) (hn : n ≤ (takeAll (calls tv)).length) (hb : b > 0 → (n : Int) < b) :
    Answers reader ((takeAll (calls tv)).take n) (after b (((calls tv).flatMap entries).take n) 0) (after b (((calls tv).flatMap entries).take n) n) := by
  have hlen := (fits_all (calls tv)).1
  have h1 : ((takeAll (calls tv)).take n).length = n := by rw [List.length_take]; omega
  have := answers_from b (((calls tv).flatMap entries).take n) ((takeAll (calls tv)).take n) 0 (fun i a ha => ?_) (fun h => by rw [h1]; have := hb h; omega)
  · rwa [h1, Nat.zero_add] at this
  · have hi : i < n := by
      have := (List.getElem?_eq_some_iff.1 ha).1
      omega
    rw [List.getElem?_take_of_lt hi] at ha
    have he := List.getElem?_eq_getElem (l := (calls tv).flatMap entries) (i := i) (by omega)
    exact ⟨_, by rw [Nat.zero_add, List.getElem?_take_of_lt hi]; exact he, ((fits_all (calls tv)).2 i _ a he ha).1⟩

theorem reader_breaks (es : List (String × List MVal)) (n : Nat) (o : ROp) : reader.step o (after ((n : Int) + 1) es n) = .done (.error .brk, after ((n : Int) + 1) es n) := by
  have : (after ((n : Int) + 1) es n).atBreak (after ((n : Int) + 1) es n).r = true := by
    rw [atBreak, Bool.and_eq_true]
    exact ⟨decide_eq_true (by simp only [after]; omega), decide_eq_true (by simp only [after]; omega)⟩
  simp only [reader, advanceR, this]
  rfl

end Memo

/-- What `Marshal` to a fresh Memo leaves there. -/
theorem MarshalReturns.memo {env : Env} {x : AnyVal} {t : TypeId} {v : GoVal} (hx : Passes env x t v) (ht : HasType env t v) {m : Memo} (h : MarshalReturns env Memo.writer x {} none m) :
    ∃ tv, Rep env t v tv ∧ m = Memo.after 0 ((calls tv).flatMap Memo.entries) 0 ∧ ∃ n a, lookupArshaler env n t = .done a ∧ a.wireType = tv.ty := by
  obtain ⟨tv, hr, hw, h⟩ := h.rep hx ht
  exact ⟨tv, hr, hw.unique (Memo.writes_fresh 0 (calls tv) (fun h => by omega)), h⟩

/-- What Marshal to a Memo leaves if the Memo breaks. -/
theorem MarshalReturns.cut {env : Env} {x : AnyVal} {es : List (String × List MVal)} (h : MarshalReturns env Memo.writer x {} none (Memo.after 0 es 0)) (n : Nat) (e : String × List MVal)
    (he : es[n]? = some e) : ∃ act tt g, MarshalReturns env Memo.writer x { breakpoint := (n : Int) + 1 } (some (.semanticE .marshal tt (some g) (.wire act .brk))) (Memo.after ((n : Int) + 1) (es.take n) 0) ∧
      (act = "Write" ++ e.1 ∨ (act = "WriteStructEnd" ∧ e.1 = "FieldBegin")) := by
  obtain ⟨k, h⟩ := h
  obtain ⟨es', h1, h2⟩ := Memo.run_cut_exact _ (wrapped_Marshal env k x) {} _ rfl none (h k (Nat.le_refl k))
  obtain rfl := Memo.after_inj (h1.trans (Memo.put_fresh 0 es'))
  obtain ⟨o, y, h3, ⟨tt, g, rfl⟩, h4⟩ := h2 n e he
  have hb : ((({} : Memo).w : Int) + n + 1) = (n : Int) + 1 := by simp
  rw [hb] at h3
  rw [show (Memo.put {} (es.take n)).cut ((n : Int) + 1) = Memo.after ((n : Int) + 1) (es.take n) 0 by simp [Memo.put, Memo.cut, Memo.after],
    show ({} : Memo).cut ((n : Int) + 1) = { breakpoint := (n : Int) + 1 } from rfl] at h3
  exact ⟨_, tt, g, ⟨k, fun fuel hf => ((Marshal_le env k fuel hf x).run _ _).done h3⟩, Memo.methodName_entries o e h4⟩

section
variable {env : Env} {t p : TypeId} {v : GoVal} {tv : TVal} (h : Rep env t v tv) (hw : WF (2 ^ 63 - 1) tv) (hd : ∀ t', Within env t' t → DistinctIds env t') (hg : AllGood env t)
  (hp : (env.type p).kind = .ptr t) {k : Nat} {a : Arsh} (hl : lookupArshaler env k t = .done a) (hty : a.wireType = tv.ty) {old : GoVal} (ho : ValidValue env t old)
include h hw hd hg hp hl hty ho

/-- Unmarshal from a Memo that breaks. -/
theorem unmarshal_memo_cut (n : Nat) (e : String × List MVal) (he : ((calls tv).flatMap Memo.entries)[n]? = some e) :
    ∃ tt g v', UnmarshalReturns env Memo.reader (.val p (.ptr old)) (Memo.after ((n : Int) + 1) (((calls tv).flatMap Memo.entries).take n) 0)
      (some (.semanticE .unmarshal tt (some g) (.wire ("Read" ++ e.1) .brk))) (.val p (.ptr v')) (Memo.after ((n : Int) + 1) (((calls tv).flatMap Memo.entries).take n) n) ∧ ValidValue env t v' := by
  obtain ⟨f1, f2⟩ := Memo.fits_all (calls tv)
  have hn := (List.getElem?_eq_some_iff.1 he).1
  have hb := List.getElem?_eq_getElem (l := takeAll (calls tv)) (i := n) (by omega)
  have hname := (f2 n e _ he hb).2
  have h16 : ∀ a ∈ (takeAll (calls tv)).take n, Sixteen a := fun a ha => takeAll_sixteen hw a (List.mem_of_mem_take ha)
  obtain ⟨v', tt, g, h1⟩ := unmarshal_cut h hw hd hg hp hl hty ho.hasType (r := checked Memo.reader) n _ hb
    (checked_answers _ h16 (Memo.answers_first tv ((n : Int) + 1) n (by omega) (fun _ => by omega))) (checked_error (Memo.reader_breaks _ n _))
  obtain ⟨v'', h2, h3⟩ := C49_unmarshal_valid _ (checked_uuids16 _) env p t hp old ho _ _ _ _ h1
  cases h2
  rw [← hname] at h1
  exact ⟨tt, g, v', checked_returns h1, h3⟩

/-- Unmarshal from a Memo that does not break. -/
theorem unmarshal_memo_whole : ∃ v', UnmarshalReturns env Memo.reader (.val p (.ptr old)) (Memo.after 0 ((calls tv).flatMap Memo.entries) 0) none (.val p (.ptr v'))
    (Memo.after 0 ((calls tv).flatMap Memo.entries) ((calls tv).flatMap Memo.entries).length) ∧ ValidValue env t v' := by
  obtain ⟨f1, f2⟩ := Memo.fits_all (calls tv)
  have hans := Memo.answers_first tv 0 (takeAll (calls tv)).length (Nat.le_refl _) (fun h => by omega)
  rw [List.take_of_length_le (Nat.le_refl _), List.take_of_length_le (by omega), ← f1] at hans
  obtain ⟨j, v', h1, h2⟩ := rep_decodes h hw hd hg hl ho.hasType
  have h3 := (unmarshal_strict (r := checked Memo.reader) env 0 j).1 k t a old tv _ _ hl h.marked hd (holdsS_answers tv hw _ _ (checked_answers _ (takeAll_sixteen hw) hans))
  rw [h1] at h3
  have h4 : UnmarshalReturns env (checked Memo.reader) (.val p (.ptr old)) (Memo.after 0 ((calls tv).flatMap Memo.entries) 0) none (.val p (.ptr v'))
      (Memo.after 0 ((calls tv).flatMap Memo.entries) ((calls tv).flatMap Memo.entries).length) := by
    refine ⟨k + j, fun fuel hf => ?_⟩
    have h5 := (((unmarshal_le env 0 fuel (Nat.zero_le _) j fuel (by omega)).1 a old tv.ty).run (checked Memo.reader) _).done h3
    have he : env.elem? p = some t := by simp [Env.elem?, hp]
    simp only [Unmarshal, he, GoVal.pointee?, lookup_mono (show k ≤ fuel by omega) hl, Out.elim, hty]
    rw [UProg.andThen, RProg.run_bind, h5]
    rfl
  obtain ⟨v'', h6, h7⟩ := C49_unmarshal_valid _ (checked_uuids16 _) env p t hp old ho _ _ _ _ h4
  cases h6
  exact ⟨v', checked_returns h4, h7⟩

end

end GoThrift
