import Verif.Proof.HeapTree
import Verif.Proof.HeapFrame
import Verif.Proof.HeapLe

/-!
# Unmarshal in memory: the entry point
-/

namespace GoThrift

open Spec

theorem Spec.HoldsTree.pre {h : Heap} {l : Loc} {v : GoVal} {F : List Loc} (hh : HoldsTree h l v F) : ∃ x, Pre ⟨l, []⟩ h v x F := by
  obtain ⟨x, hx, ho⟩ := hh.var
  have hn := List.nodup_cons.1 hh.nodup
  exact ⟨x, get_var.2 hx, ho, hn.2, hn.1, hh.allocated l List.mem_cons_self, fun l' hl => hh.allocated l' (List.mem_cons_of_mem _ hl)⟩

theorem After.becomes {h h' : Heap} {l : Loc} {v v1 : GoVal} {x : HVal} {F : List Loc} {e e' : Option Err} (c : Pre ⟨l, []⟩ h v x F) (a : After ⟨l, []⟩ h F (v1, e) (h', e')) :
    e = e' ∧ BecomesTree h l F v1 e h' := by
  obtain ⟨he, v', x', F', st, ho, hs, hn⟩ := a
  refine ⟨he, ⟨v', F', ⟨⟨x', get_var.1 st.get, ho⟩, List.nodup_cons.2 ⟨st.notin c.notin c.lt, st.nodup⟩, fun l' hl => ?_⟩, hs, hn, fun l' hl => ?_⟩, st.next, fun l' hl hm => ?_⟩
  · rcases List.mem_cons.1 hl with rfl | hl
    · exact Nat.lt_of_lt_of_le c.lt st.next
    · rcases st.sub l' hl with h | h
      · exact Nat.lt_of_lt_of_le (c.alloc l' h) st.next
      · exact h.2
  · rcases st.sub l' hl with h | h
    · exact .inl h
    · exact .inr h.1
  · rw [st.frame l' hl fun h => hm (List.mem_cons_of_mem _ h)]
    exact set_mem_ne h _ fun he => hm (he ▸ List.mem_cons_self)

/-- The results of the two models. -/
def BothEnd (t : TypeId) (h : Heap) (l : Loc) (F : List Loc) (r : AnyVal × Option Err) (r' : Heap × Option Err) : Prop :=
  r.2 = r'.2 ∧ ∃ v, r.1 = .val t (.ptr v) ∧ BecomesTree h l F v r.2 r'.1

theorem HUnmarshal_rel (env : Env) (fuel : Nat) (t : TypeId) {h : Heap} {l : Loc} {v : GoVal} {F : List Loc} (hh : HoldsTree h l v F) :
    Rel (BothEnd t h l F) (Unmarshal env fuel (.val t (.ptr v))) (HUnmarshal env fuel (.val t (.ptr (some l))) h) := by
  obtain ⟨x, c⟩ := hh.pre
  rw [Unmarshal, HUnmarshal]
  dsimp only [GoVal.pointee?]
  cases env.elem? t with
  | none => exact ⟨rfl, v, rfl, (After.keep c (some _)).becomes c |>.2⟩
  | some e =>
    dsimp only
    cases lookupArshaler env fuel e with
    | blocked => trivial
    | panicked => trivial
    | diverged => trivial
    | done a =>
      dsimp only [Out.elim]
      have := (hunmarshal_rel env fuel fuel).1 a a.wireType ⟨l, []⟩ h v x F c
      rw [← bind_ret (hunmarshal env fuel fuel a ⟨l, []⟩ a.wireType h)]
      refine Rel.bind this fun r r' hr => ?_
      obtain ⟨v1, e1⟩ := r
      obtain ⟨h1, e2⟩ := r'
      obtain ⟨rfl, hb⟩ := After.becomes c hr
      cases e1 with
      | none => exact ⟨rfl, v1, rfl, hb⟩
      | some e => exact ⟨rfl, v1, rfl, hb⟩

theorem HUnmarshal_frame (env : Env) (fuel : Nat) (t : TypeId) (h : Heap) (l : Loc) (hl : ∀ l', LeadsTo h l l' → l' < h.next) :
    Always (fun r => Fenced (fun l' => LeadsTo h l l' ∨ h.next ≤ l') h r.1) (HUnmarshal env fuel (.val t (.ptr (some l))) h) := by
  have w : Fenced (fun l' => LeadsTo h l l' ∨ h.next ≤ l') h h := by
    refine ⟨Nat.le_refl _, fun _ => .inr, fun _ _ => rfl, fun l' hl' hlt r hr => ?_⟩
    rcases hl' with h' | h'
    · exact ⟨.inl (.step h' hr), hl r (.step h' hr)⟩
    · omega
  rw [HUnmarshal]
  cases env.elem? t with
  | none => exact w
  | some e =>
    dsimp only
    cases lookupArshaler env fuel e with
    | blocked => trivial
    | panicked => trivial
    | diverged => trivial
    | done a => exact Always.mono (fun _ hr => hr.1) ((hunmarshal_frame env fuel _ h fuel).1 a a.wireType ⟨l, []⟩ h w ⟨.inl .here, hl l .here⟩)

end GoThrift
