import Verif.Spec.HeapCycle
import Verif.Proof.Rep

/-!
# What Marshal has written has an end
-/

namespace GoThrift

open Spec

variable {env : Env} {hz : HMethods} {h : Heap} {S : Type} {w : Wtr S}

theorem wcall_none {act : String} {tt : WType} {t : TypeId} {o : WOp} {k : WProg} {s s' : S} (hr : (wcall act tt t o k).run w s = .done (none, s')) : ∃ s1, k.run w s1 = .done (none, s') := by
  rw [wcall, WProg.run] at hr
  cases hs : w.step o s with
  | done x =>
    rw [hs, Out.bind_done] at hr
    cases hx : x.1 with
    | none => rw [hx] at hr; exact ⟨_, hr⟩
    | some e => rw [hx] at hr; cases hr
  | _ => rw [hs] at hr; cases hr

theorem hmarshalElems_each {m : HVal → WProg} {k : WProg} : ∀ {xs : List HVal} {s s' : S}, (hmarshalElems m k xs).run w s = .done (none, s') → ∀ y ∈ xs, ∃ s1 s2, (m y).run w s1 = .done (none, s2)
  | [], _, _, _, y, hy => by cases hy
  | x :: xs, s, s', hr, y, hy => by
    rw [hmarshalElems] at hr
    obtain ⟨s1, h1, h2⟩ := wrun_andThen_none hr
    rcases List.mem_cons.1 hy with rfl | hy
    · exact ⟨s, s1, h1⟩
    · exact hmarshalElems_each h2 y hy

theorem hmarshalEntries_each {mk mv : HVal → WProg} {k : WProg} : ∀ {es : List (HVal × HVal)} {s s' : S}, (hmarshalEntries mk mv k es).run w s = .done (none, s') →
    ∀ e ∈ es, (∃ s1 s2, (mk e.1).run w s1 = .done (none, s2)) ∧ ∃ s1 s2, (mv e.2).run w s1 = .done (none, s2)
  | [], _, _, _, y, hy => by cases hy
  | x :: xs, s, s', hr, y, hy => by
    rw [hmarshalEntries] at hr
    obtain ⟨s1, h1, h2⟩ := wrun_andThen_none hr
    obtain ⟨s2, h3, h4⟩ := wrun_andThen_none h2
    rcases List.mem_cons.1 hy with rfl | hy
    · exact ⟨⟨s, s1, h1⟩, s1, s2, h3⟩
    · exact hmarshalEntries_each h4 y hy

theorem hmarshalFields_each {m : Arsh → HVal → WProg} {t : TypeId} {vals : List HVal} {k : WProg} : ∀ {fs : List SField} {s s' : S},
    (hmarshalFields env hz h m t vals k fs).run w s = .done (none, s') →
    ∀ f ∈ fs, ∀ x, vals[f.index]? = some x → (f.required = true ∨ hreportsZero env hz f.typ h x = false) → ∃ s1 s2, (m f.a x).run w s1 = .done (none, s2)
  | [], _, _, _, y, hy => by cases hy
  | g :: fs, s, s', hr, f, hf => by
    intro x hx hw
    rw [hmarshalFields] at hr
    split at hr
    · cases hr
    · split at hr
      · cases hr
      · rename_i x' hx'
        split at hr
        · rename_i hz'
          rcases List.mem_cons.1 hf with rfl | hf
          · rw [hx] at hx'
            cases hx'
            rcases hw with hw | hw
            · rw [hw] at hz'; cases hz'.1
            · rw [hw] at hz'; cases hz'.2
          · exact hmarshalFields_each hr f hf x hx hw
        · obtain ⟨s1, h1⟩ := wcall_none hr
          obtain ⟨s2, h2, h3⟩ := wrun_andThen_none h1
          obtain ⟨s3, h4⟩ := wcall_none h3
          rcases List.mem_cons.1 hf with rfl | hf
          · rw [hx] at hx'
            cases hx'
            exact ⟨s1, s2, h2⟩
          · exact hmarshalFields_each h4 f hf x hx hw

theorem cells_each {h : Heap} : ∀ {n : Nat} {base : Loc} {xs : List HVal}, h.cells base n = some xs → ∀ i y, i < n → h.mem (base + i) = .cell y → y ∈ xs
  | 0, _, _, _, i, y, hi, _ => by omega
  | n + 1, base, xs, hc, i, y, hi, hm => by
    rw [Heap.cells] at hc
    split at hc
    · rename_i x xs' h1 h2
      cases hc
      cases i with
      | zero => rw [Nat.add_zero, h1] at hm; cases hm; exact List.mem_cons_self
      | succ i => exact List.mem_cons_of_mem _ (cells_each h2 i y (by omega) (by rw [← hm]; congr 1; omega))
    · cases hc

/-- What Marshal has written successfully has parts that end. -/
theorem hmarshal_acc (env : Env) (hz : HMethods) (h : Heap) (w : Wtr S) (fuel : Nat) : ∀ (n : Nat) (t : TypeId) (a : Arsh) (x : HVal) (s s' : S), lookupArshaler env n t = .done a →
    (hmarshal env hz h fuel a x).run w s = .done (none, s') → Acc (HPart env hz h) (t, x) := by
  induction fuel with
  | zero => intro n t a x s s' _ hr; cases hr
  | succ fuel ih =>
    intro n t a x s s' hl hr
    cases n with
    | zero => cases hl
    | succ n =>
      have hc := lookup_cases hl
      refine Acc.intro _ fun p hp => ?_
      cases hp with
      | @ptr _ e l y hk hm =>
        rw [hk] at hc
        obtain ⟨ea, hle, rfl⟩ := hc
        rw [hmarshal] at hr
        simp only [Heap.get, hm, HVal.sub] at hr
        exact ih n e ea y _ _ hle hr
      | @ptrNil _ e hk =>
        rw [hk] at hc
        obtain ⟨ea, hle, rfl⟩ := hc
        rw [hmarshal, (lookup_wireType hle).1] at hr
        exact ih n e ea _ _ _ hle hr
      | @elem _ e r i y hk hb hi hm =>
        rw [hk] at hc
        rcases hc with ⟨hb', _⟩ | ⟨_, ea, hle, rfl⟩
        · rw [hb] at hb'; cases hb'
        · rw [hmarshal] at hr
          split at hr
          · cases hr
          · split at hr
            · cases hr
            · rename_i xs hxs
              have hy : y ∈ xs := cells_each hxs i y hi hm
              rw [hmarshalSeq] at hr
              split at hr
              · obtain ⟨_, h1⟩ := wcall_none hr
                obtain ⟨_, _, h2⟩ := hmarshalElems_each h1 y hy
                exact ih n e ea y _ _ hle h2
              · obtain ⟨_, h1⟩ := wcall_none hr
                obtain ⟨_, _, h2⟩ := hmarshalElems_each h1 y hy
                exact ih n e ea y _ _ hle h2
      | @key _ k e l es y z hk hm hy =>
        rw [hk] at hc
        obtain ⟨ka, ea, hlk, hle, rfl⟩ := hc
        rw [hmarshal] at hr
        split at hr
        · cases hr
        · simp only [Heap.entriesOf, Heap.table, hm] at hr
          obtain ⟨_, h1⟩ := wcall_none hr
          obtain ⟨⟨_, _, h2⟩, _⟩ := hmarshalEntries_each h1 (y, z) hy
          exact ih n k ka y _ _ hlk h2
      | @value _ k e l es y z hk hm hy =>
        rw [hk] at hc
        obtain ⟨ka, ea, hlk, hle, rfl⟩ := hc
        rw [hmarshal] at hr
        split at hr
        · cases hr
        · simp only [Heap.entriesOf, Heap.table, hm] at hr
          obtain ⟨_, h1⟩ := wcall_none hr
          obtain ⟨_, _, _, h2⟩ := hmarshalEntries_each h1 (y, z) hy
          exact ih n e ea z _ _ hle h2
      | @field _ ds i f xs y hk hf hy hw =>
        rw [hk] at hc
        obtain rfl := hc
        rw [hmarshal] at hr
        cases hmk : makeStructFields env fuel t with
        | done r =>
          rw [hmk] at hr
          cases r with
          | error e => cases hr
          | ok fs =>
            simp only [Out.elim] at hr
            obtain ⟨_, h1⟩ := wcall_none hr
            have htab := makeStructFields_table env fuel t fs hmk
            obtain ⟨id, req, hd, hw⟩ := hw
            have hf' : (env.fields t)[i]? = some f := by rw [fields_struct hk]; exact hf
            rcases htab.all i f hf' with hi | ⟨g, hg, rfl⟩
            · exact absurd hi (by
                rintro (hi | ⟨hi, _⟩)
                · exact hd.2.1 (by rw [hi]; rfl)
                · rw [hd.1] at hi; cases hi)
            · obtain ⟨d, e1, e2, _, e4, e5⟩ := htab.mem g hg
              rw [hf'] at e1
              cases e1
              obtain ⟨_, hreq⟩ := hd.unique e2
              subst hreq
              obtain ⟨_, _, h2⟩ := hmarshalFields_each h1 g hg y hy (by rw [e4]; exact hw)
              exact ih fuel f.typ g.a y _ _ e5 h2
        | _ => rw [hmk] at hr; cases hr

theorem HMarshal_acc {x : HVal} {t : TypeId} {p : TypeId × HVal} (ha : HArgument env h t x p) {s s' : S} (hr : HMarshalReturns env hz w (.val t x) h s none s') : Acc (HPart env hz h) p := by
  obtain ⟨n, hn⟩ := hr
  have hr := hn n (Nat.le_refl _)
  cases ha with
  | value hk =>
    have he : env.elem? t = none := by
      unfold Env.elem?
      split
      · rename_i e h; exact absurd h (hk e)
      · rfl
    simp only [HMarshal, he] at hr
    cases hl : lookupArshaler env n t with
    | done a => rw [hl] at hr; exact hmarshal_acc env hz h w n n t a x s s' hl hr
    | _ => rw [hl] at hr; cases hr
  | @pointer e l y hk hm =>
    have he : env.elem? t = some e := by simp [Env.elem?, hk]
    simp only [HMarshal, he, Heap.get, hm, HVal.sub] at hr
    cases hl : lookupArshaler env n e with
    | done a => rw [hl] at hr; exact hmarshal_acc env hz h w n n e a y s s' hl hr
    | _ => rw [hl] at hr; cases hr

/-- What has an end is not deep in itself, and has no endless chain below it. -/
theorem acc_not_endless {p : TypeId × HVal} (ha : Acc (HPart env hz h) p) : ∀ f : Nat → TypeId × HVal, f 0 = p → ¬ ∀ n, HPart env hz h (f (n + 1)) (f n) := by
  induction ha with
  | intro p _ ih => exact fun f h0 hf => ih (f 1) (h0 ▸ hf 0) (fun n => f (n + 1)) rfl fun n => hf (n + 1)

theorem HDeep.trans {p q r : TypeId × HVal} (h1 : HDeep env hz h p q) (h2 : HDeep env hz h q r) : HDeep env hz h p r := by
  induction h1 with
  | part h1 => exact .step h1 h2
  | step h1 _ ih => exact .step h1 (ih h2)

theorem acc_not_self {p : TypeId × HVal} (ha : Acc (HPart env hz h) p) : ¬ HDeep env hz h p p := by
  induction ha with
  | intro p _ ih =>
    have last : ∀ {a b : TypeId × HVal}, HDeep env hz h a b → ∃ c, HPart env hz h c b ∧ (a = c ∨ HDeep env hz h a c) := by
      intro a b hab
      induction hab with
      | part hp => exact ⟨_, hp, .inl rfl⟩
      | step hp _ ih =>
        obtain ⟨c, hc, h' | h'⟩ := ih
        · exact ⟨c, hc, .inr (h' ▸ .part hp)⟩
        · exact ⟨c, hc, .inr (.step hp h')⟩
    intro hd
    obtain ⟨c, hc, h' | h'⟩ := last hd
    · subst h'; exact ih _ hc (.part hc)
    · refine ih c hc ?_
      exact HDeep.trans (.part hc) h'

theorem acc_deep {p q : TypeId × HVal} (ha : Acc (HPart env hz h) p) (hd : HDeep env hz h q p) : Acc (HPart env hz h) q := by
  induction hd with
  | part hp => exact ha.inv hp
  | step hp _ ih => exact (ih ha).inv hp

end GoThrift
