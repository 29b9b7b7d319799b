import Verif.Spec.Share
import Verif.Proof.Feed

/-!
# Shared `bufio.Reader`s are plain streams
-/

namespace GoThrift

/-- A program leaves the size and the end of a plain stream alone. -/
theorem BProg.run_keeps {α : Type} (p : BProg α) (f : Flat) : ∀ a f', p.run f = .done (a, f') → f'.size = f.size ∧ f'.fin = f.fin := by
  induction p generalizing f with
  | ret a => intro a f' h; cases h; exact ⟨rfl, rfl⟩
  | diverge => intro a f' h; cases h
  | panic => intro a f' h; cases h
  | peek n k ih =>
    intro a f' h
    rw [run] at h
    cases hp : f.peek n with
    | done r => rw [hp, Out.bind_done] at h; exact ih _ _ _ _ _ h
    | blocked => rw [hp] at h; cases h
    | diverged => rw [hp] at h; cases h
    | panicked => rw [hp] at h; cases h
  | discard n k ih =>
    intro a f' h
    rw [run] at h
    have hd : ∀ r, f.discard n = .done r → r.2.size = f.size ∧ r.2.fin = f.fin := by
      intro r hr
      unfold Flat.discard at hr
      repeat' split at hr
      all_goals first | (cases hr; done) | (cases hr; exact ⟨rfl, rfl⟩)
    cases hp : f.discard n with
    | done r => rw [hp, Out.bind_done] at h; have := ih _ _ _ _ h; rw [(hd r hp).1, (hd r hp).2] at this; exact this
    | blocked => rw [hp] at h; cases h
    | diverged => rw [hp] at h; cases h
    | panicked => rw [hp] at h; cases h
  | readByte k ih =>
    intro a f' h
    rw [run] at h
    have hd : ∀ r, f.readByte = .done r → r.2.size = f.size ∧ r.2.fin = f.fin := by
      intro r hr
      unfold Flat.readByte at hr
      repeat' split at hr
      all_goals first | (cases hr; done) | (cases hr; exact ⟨rfl, rfl⟩)
    cases hp : f.readByte with
    | done r => rw [hp, Out.bind_done] at h; have := ih _ _ _ _ h; rw [(hd r hp).1, (hd r hp).2] at this; exact this
    | blocked => rw [hp] at h; cases h
    | diverged => rw [hp] at h; cases h
    | panicked => rw [hp] at h; cases h
  | readFull n k ih =>
    intro a f' h
    rw [run] at h
    have hd : ∀ r, f.readFull n = .done r → r.2.size = f.size ∧ r.2.fin = f.fin := by
      intro r hr
      unfold Flat.readFull at hr
      repeat' split at hr
      all_goals first | (cases hr; done) | (cases hr; exact ⟨rfl, rfl⟩)
    cases hp : f.readFull n with
    | done r => rw [hp, Out.bind_done] at h; have := ih _ _ _ _ _ h; rw [(hd r hp).1, (hd r hp).2] at this; exact this
    | blocked => rw [hp] at h; cases h
    | diverged => rw [hp] at h; cases h
    | panicked => rw [hp] at h; cases h
  | size k ih => intro a f' h; rw [run] at h; exact ih _ _ _ _ h

namespace Share

variable {ρ : Type} {rd : ReadFn ρ}

@[simp] theorem upd_same {α : Type} (f : Nat → α) (i : Nat) (a : α) : upd f i a i = a := by simp [upd]
theorem upd_other {α : Type} (f : Nat → α) {i j : Nat} (a : α) (h : j ≠ i) : upd f i a j = f j := by simp [upd, h]

/-- The `i`-th transport within the heap; nothing else changes. -/
def rawContract (C : rd.Contract) (fuel i : Nat) (h0 : Heap ρ) : ReadFn.Contract (readSrc rd fuel (.raw i)) where
  ok h := C.ok (h.raws i) ∧ h.bufs = h0.bufs ∧ h.next = h0.next ∧ ∀ i', i' ≠ i → h.raws i' = h0.raws i'
  left h := C.left (h.raws i)
  fin h := C.fin (h.raws i)
  idle h := C.idle (h.raws i)
  idle_lt h hk := C.idle_lt _ hk.1
  total h cap hk hcap := by
    rw [show readSrc rd fuel (.raw i) h cap = (rd (h.raws i) cap).bind fun r => .done (r.1, ⟨upd h.raws i r.2, h.bufs, h.next⟩) by cases fuel <;> rfl]
    rcases C.total _ cap hk.1 hcap with ⟨g1, g2, g3⟩ | ⟨r, g1⟩
    · rw [g1]; exact .inl ⟨rfl, g2, g3⟩
    · rw [g1]; exact .inr ⟨_, rfl⟩
  keeps h cap p e h' hk hcap hr := by
    rw [show readSrc rd fuel (.raw i) h cap = (rd (h.raws i) cap).bind fun r => .done (r.1, ⟨upd h.raws i r.2, h.bufs, h.next⟩) by cases fuel <;> rfl] at hr
    rcases C.total _ cap hk.1 hcap with ⟨g1, -, -⟩ | ⟨⟨⟨q, e'⟩, s'⟩, g1⟩
    · rw [g1] at hr; cases hr
    · rw [g1, Out.bind_done] at hr
      obtain ⟨k1, k2, k3, k4, k5, k6⟩ := C.keeps _ _ _ _ _ hk.1 hcap g1
      cases hr
      simp only [upd_same]
      exact ⟨⟨k1, hk.2.1, hk.2.2.1, fun i' hi => by rw [upd_other _ _ hi]; exact hk.2.2.2 i' hi⟩, k2, k3, k4, k5, k6⟩

/-- The heap holds these streams; `P a i` says that the `*bufio.Reader` at `a` is in use and reads from the transport `i`. -/
structure Holds (C : rd.Contract) (h : Heap ρ) (used : Nat) (P : Nat → Nat → Prop) (fs : Nat → Flat) : Prop where
  addr : ∀ a i, P a i → a < h.next
  lt : ∀ a i, P a i → i < used
  size : ∀ a i, P a i → 4096 ≤ (h.bufs a).size
  src : ∀ a i, P a i → (h.bufs a).src = .raw i
  ok : ∀ a i, P a i → C.ok (h.raws i)
  le : ∀ a i, P a i → (h.bufs a).unread.length ≤ (h.bufs a).size
  err : ∀ a i, P a i → ∀ e, (h.bufs a).err = some e → C.left (h.raws i) = [] ∧ C.fin (h.raws i) = .err e
  same : ∀ a i, P a i → fs i = ⟨(h.bufs a).size, (h.bufs a).unread ++ C.left (h.raws i), C.fin (h.raws i)⟩
  inj : ∀ a a' i, P a i → P a' i → a = a'
  fresh : ∀ i, used ≤ i → C.ok (h.raws i) ∧ fs i = ⟨4096, C.left (h.raws i), C.fin (h.raws i)⟩

theorem Holds.mono {C : rd.Contract} {h : Heap ρ} {used : Nat} {P Q : Nat → Nat → Prop} {fs : Nat → Flat} (H : Holds C h used P fs) (hq : ∀ a i, Q a i → P a i) :
    Holds C h used Q fs :=
  ⟨fun a i q => H.addr a i (hq a i q), fun a i q => H.lt a i (hq a i q), fun a i q => H.size a i (hq a i q), fun a i q => H.src a i (hq a i q),
    fun a i q => H.ok a i (hq a i q), fun a i q => H.le a i (hq a i q), fun a i q => H.err a i (hq a i q), fun a i q => H.same a i (hq a i q),
    fun a a' i q q' => H.inj a a' i (hq a i q) (hq a' i q'), H.fresh⟩

/-- A transport is given to the `*bufio.Reader` at `b`, which is not in use or no longer for what it was. -/
theorem Holds.give {C : rd.Contract} {h : Heap ρ} {used : Nat} {P : Nat → Nat → Prop} {fs : Nat → Flat} (H : Holds C h used P fs) (b size next : Nat) (hsize : 4096 ≤ size)
    (hb : b < next) (hn : h.next ≤ next) :
    Holds C ⟨h.raws, upd h.bufs b ⟨size, [], none, .raw used⟩, next⟩ (used + 1) (fun a i => (P a i ∧ a ≠ b) ∨ (a = b ∧ i = used))
      (upd fs used ⟨size, (fs used).bytes, (fs used).fin⟩) := by
  obtain ⟨f1, f2⟩ := H.fresh used (Nat.le_refl _)
  refine ⟨?_, ?_, ?_, ?_, ?_, ?_, ?_, ?_, ?_, ?_⟩
  · rintro a i (⟨p, _⟩ | ⟨rfl, rfl⟩)
    · exact Nat.lt_of_lt_of_le (H.addr a i p) hn
    · exact hb
  · rintro a i (⟨p, _⟩ | ⟨rfl, rfl⟩)
    · have := H.lt a i p; omega
    · omega
  · rintro a i (⟨p, hne⟩ | ⟨rfl, rfl⟩)
    · simp only [upd_other _ _ hne]; exact H.size a i p
    · simp only [upd_same]; exact hsize
  · rintro a i (⟨p, hne⟩ | ⟨rfl, rfl⟩)
    · simp only [upd_other _ _ hne]; exact H.src a i p
    · simp only [upd_same]
  · rintro a i (⟨p, hne⟩ | ⟨rfl, rfl⟩)
    · exact H.ok a i p
    · exact f1
  · rintro a i (⟨p, hne⟩ | ⟨rfl, rfl⟩)
    · simp only [upd_other _ _ hne]; exact H.le a i p
    · simp only [upd_same]; exact Nat.zero_le _
  · rintro a i (⟨p, hne⟩ | ⟨rfl, rfl⟩)
    · simp only [upd_other _ _ hne]; exact H.err a i p
    · simp only [upd_same]; intro e he; cases he
  · rintro a i (⟨p, hne⟩ | ⟨rfl, rfl⟩)
    · have : i ≠ used := by have := H.lt a i p; omega
      simp only [upd_other _ _ hne, upd_other _ _ this]; exact H.same a i p
    · simp only [upd_same, f2]; rfl
  · rintro a a' i (⟨p, _⟩ | ⟨rfl, rfl⟩) (⟨p', _⟩ | ⟨rfl, h2⟩)
    · exact H.inj a a' i p p'
    · have := H.lt a i p; omega
    · have := H.lt a' _ p'; omega
    · rfl
  · intro i hi
    have : i ≠ used := by omega
    simp only [upd_other _ _ this]
    exact H.fresh i (by omega)

/-- A `*bufio.Reader` not in use may be changed. -/
theorem Holds.clobber {C : rd.Contract} {h : Heap ρ} {used : Nat} {P : Nat → Nat → Prop} {fs : Nat → Flat} (H : Holds C h used P fs) (b : Nat) (cell : BCell)
    (hb : ∀ a i, P a i → a ≠ b) : Holds C ⟨h.raws, upd h.bufs b cell, h.next⟩ used P fs := by
  refine ⟨H.addr, H.lt, ?_, ?_, H.ok, ?_, ?_, ?_, H.inj, H.fresh⟩
  all_goals intro a i p; simp only [upd_other _ _ (hb a i p)]
  · exact H.size a i p
  · exact H.src a i p
  · exact H.le a i p
  · exact H.err a i p
  · exact H.same a i p

theorem runOn_spec {C : rd.Contract} {h : Heap ρ} {used : Nat} {P : Nat → Nat → Prop} {fs : Nat → Flat} (H : Holds C h used P fs) {a i : Nat} (hp : P a i) {α : Type}
    (p : BProg α) : OutRel (fun x y => x.1 = y.1 ∧ Holds C x.2 used P (upd fs i y.2) ∧ ∀ j, (upd fs i y.2 j).size = (fs j).size) (runOn rd a p h) (p.run (fs i)) := by
  have hsrc := H.src a i hp
  have hsz := H.size a i hp
  have hst := H.same a i hp
  have hsim : GSim (rawContract C h.next i h) (load a h) (fs i) := by
    rw [hst]
    exact ⟨rfl, by show 0 < (h.bufs a).size; omega, rfl, rfl, H.le a i hp, ⟨H.ok a i hp, rfl, rfl, fun _ _ => rfl⟩, H.err a i hp⟩
  rw [runOn, hsrc]
  have hrun := BProg.runG_sim p (load a h) (fs i) hsim
  have hkeep := BProg.run_keeps p (fs i)
  generalize hx : p.runG (readSrc rd h.next (.raw i)) (load a h) = x at hrun
  generalize hy : p.run (fs i) = y at hrun hkeep
  cases x <;> cases y <;> try exact hrun
  rename_i x y
  obtain ⟨r, g⟩ := x
  obtain ⟨r', f'⟩ := y
  obtain ⟨h1, h2⟩ := hrun
  obtain ⟨k1, k2⟩ := hkeep r' f' rfl
  obtain ⟨o1, o2, o3, o4⟩ := h2.ok
  dsimp only at o1 o2 o3 o4 h1 h2
  -- any other one in use is on another transport
  have hne : ∀ b j, P b j → b ≠ a → j ≠ i := fun b j q hb hj => hb (H.inj b a i (hj ▸ q) hp)
  have hsame : ∀ j, P a j → j = i := fun j q => by
    have := H.src a j q
    rw [hsrc] at this
    exact (RSrc.raw.inj this).symm
  refine ⟨h1, ⟨?_, H.lt, ?_, ?_, ?_, ?_, ?_, ?_, H.inj, ?_⟩, fun j => by
    by_cases hj : j = i
    · subst hj; rw [upd_same]; exact k1
    · rw [upd_other _ _ hj]⟩
  · intro b j q
    simp only [store, o3]; exact H.addr b j q
  · intro b j q
    by_cases hb : b = a
    · subst hb
      simp only [store, upd_same]
      have := h2.size
      rw [hst] at k1
      simp only at k1 this
      omega
    · simp only [store, upd_other _ _ hb, o2]; exact H.size b j q
  · intro b j q
    by_cases hb : b = a
    · subst hb; simp only [store, upd_same, o2]; exact H.src b j q
    · simp only [store, upd_other _ _ hb, o2]; exact H.src b j q
  · intro b j q
    by_cases hb : b = a
    · subst hb; rw [hsame j q]; exact o1
    · simp only [store, o4 j (hne b j q hb)]; exact H.ok b j q
  · intro b j q
    by_cases hb : b = a
    · subst hb; simp only [store, upd_same]; exact h2.le
    · simp only [store, upd_other _ _ hb, o2]; exact H.le b j q
  · intro b j q
    by_cases hb : b = a
    · subst hb; rw [hsame j q]; simp only [store, upd_same]; exact h2.err
    · simp only [store, upd_other _ _ hb, o2, o4 j (hne b j q hb)]; exact H.err b j q
  · intro b j q
    by_cases hb : b = a
    · subst hb
      rw [hsame j q]
      simp only [store, upd_same]
      have e1 := h2.size
      have e2 := h2.bytes
      have e3 := h2.fin
      cases f'
      simp only at e1 e2 e3
      rw [e1, e2, e3]
      rfl
    · simp only [store, upd_other _ _ hb, upd_other _ _ (hne b j q hb), o2, o4 j (hne b j q hb)]; exact H.same b j q
  · intro j hj
    have : j ≠ i := by have := H.lt a i hp; omega
    simp only [store, upd_other _ _ this, o4 j this]
    exact H.fresh j hj

theorem impl_run (st : PState) (o : ROp) (f : Flat) : (st.impl o).run f = st.step o f := by
  cases st with
  | binary strict =>
    simp only [PState.impl, PState.step, BProg.run_bind, Binary.reader]
    show ((Binary.impl strict o ()).run f).bind _ = (((Binary.impl strict o).run () f).bind _).bind _
    rw [Out.bind_assoc]
    rfl
  | compact c =>
    simp only [PState.impl, PState.step, BProg.run_bind, Compact.reader]
    show ((Compact.impl o c).run f).bind _ = (((Compact.impl o).run c f).bind _).bind _
    rw [Out.bind_assoc]
    rfl

theorem upd_id (fs : Nat → Flat) (j : Nat) : upd fs j (fs j) = fs := by
  funext i
  by_cases h : i = j
  · subst h; rw [upd_same]
  · rw [upd_other _ _ h]

theorem Each.get {α β : Type} {R : α → β → Prop} {l : List α} {m : List β} (h : Each R l m) :
    ∀ i : Nat, (l[i]? = none ∧ m[i]? = none) ∨ ∃ a b, l[i]? = some a ∧ m[i]? = some b ∧ R a b := by
  induction h with
  | nil => intro i; exact .inl ⟨rfl, rfl⟩
  | @cons a b as bs hr _ ih =>
    intro i
    cases i with
    | zero => exact .inr ⟨a, b, rfl, rfl, hr⟩
    | succ i => simpa using ih i

theorem Each.set {α β : Type} {R : α → β → Prop} {l : List α} {m : List β} (h : Each R l m) {a : α} {b : β} (hr : R a b) : ∀ i, Each R (l.set i a) (m.set i b) := by
  induction h with
  | nil => intro i; exact .nil
  | @cons a' b' as bs hr' hs ih =>
    intro i
    cases i with
    | zero => exact .cons hr hs
    | succ i => exact .cons hr' (ih i)

theorem Each.snoc {α β : Type} {R : α → β → Prop} {l : List α} {m : List β} (h : Each R l m) {a : α} {b : β} (hr : R a b) : Each R (l ++ [a]) (m ++ [b]) := by
  induction h with
  | nil => exact .cons hr .nil
  | cons hr' _ ih => exact .cons hr' ih

theorem Each.of_get {α β : Type} {R : α → β → Prop} : ∀ {l : List α} {m : List β},
    (∀ i : Nat, (l[i]? = none ∧ m[i]? = none) ∨ ∃ a b, l[i]? = some a ∧ m[i]? = some b ∧ R a b) → Each R l m
  | [], [], _ => .nil
  | [], _ :: _, h => by rcases h 0 with h | ⟨_, _, h, _⟩ <;> simp at h
  | _ :: _, [], h => by rcases h 0 with h | ⟨_, _, _, h, _⟩ <;> simp at h
  | a :: l, b :: m, h => by
    rcases h 0 with h0 | ⟨a', b', h1, h2, h3⟩
    · simp at h0
    · cases h1; cases h2
      exact .cons h3 (Each.of_get fun i => by simpa using h (i + 1))

/-- The `*bufio.Reader`s in use: the caller's, and those of protocol readers made from transports. -/
inductive InUse (bs bs' : List Nat) (os : List PRd) (os' : List SRd) : Nat → Nat → Prop
  | caller {a i k : Nat} : bs[k]? = some a → bs'[k]? = some i → InUse bs bs' os os' a i
  | own {x : PRd} {y : SRd} {k : Nat} : os[k]? = some x → os'[k]? = some y → InUse bs bs' os os' x.buf y.src

/-- The real world and the ideal one. -/
structure WSim (C : rd.Contract) (w : World ρ) (v : Streams) : Prop where
  used : w.used = v.used
  holds : Holds C w.heap w.used (InUse w.bs v.bs w.os v.os) v.fs
  bs : Each (fun _ _ => True) w.bs v.bs
  rs : Each (fun x y => x.st = y.st ∧ ∃ k : Nat, w.bs[k]? = some x.buf ∧ v.bs[k]? = some y.src) w.rs v.rs
  os : Each (fun x y => x.st = y.st) w.os v.os
  apart : ∀ (k k' : Nat) x x', w.os[k]? = some x → w.os[k']? = some x' → x.buf = x'.buf → k = k'
  apart' : ∀ (k k' : Nat) a x, w.bs[k]? = some a → w.os[k']? = some x → a ≠ x.buf
  own : ∀ (k : Nat) y, v.os[k]? = some y → (v.fs y.src).size = 4096

theorem getElem?_snoc {α : Type} {l : List α} {a b : α} {k : Nat} (h : (l ++ [a])[k]? = some b) : l[k]? = some b ∨ (k = l.length ∧ b = a) := by
  rw [List.getElem?_append] at h
  split at h
  · exact .inl h
  · rename_i hk
    rcases Nat.lt_or_ge l.length k with hlt | hge
    · rw [List.getElem?_eq_none (by simp; omega)] at h; cases h
    · have : k = l.length := by omega
      subst this
      rw [Nat.sub_self] at h
      exact .inr ⟨rfl, by simpa using h.symm⟩

theorem Each.length {α β : Type} {R : α → β → Prop} {l : List α} {m : List β} (h : Each R l m) : l.length = m.length := by
  induction h with
  | nil => rfl
  | cons _ _ ih => simp [ih]

theorem Each.imp {α β : Type} {R S : α → β → Prop} {l : List α} {m : List β} (h : Each R l m) (hs : ∀ a b, R a b → S a b) : Each S l m := by
  induction h with
  | nil => exact .nil
  | cons hr _ ih => exact .cons (hs _ _ hr) ih

/-- Something is done with the `*bufio.Reader` at `a`. -/
theorem WSim.after {C : rd.Contract} {w : World ρ} {v : Streams} (H : WSim C w v) {h' : Heap ρ} {fs' : Nat → Flat}
    (hh : Holds C h' w.used (InUse w.bs v.bs w.os v.os) fs' ∧ ∀ j, (fs' j).size = (v.fs j).size) :
    WSim C ⟨h', w.used, w.bs, w.rs, w.os⟩ ⟨fs', v.used, v.bs, v.rs, v.os⟩ :=
  ⟨H.used, hh.1, H.bs, H.rs, H.os, H.apart, H.apart', fun k y h => (hh.2 y.src).trans (H.own k y h)⟩

/-- A reader made from a `*bufio.Reader` changes its fields. -/
theorem WSim.setShared {C : rd.Contract} {w : World ρ} {v : Streams} (H : WSim C w v) {i : Nat} {x : PRd} {y : SRd} (hx : w.rs[i]? = some x) (hy : v.rs[i]? = some y)
    (st : PState) : WSim C ⟨w.heap, w.used, w.bs, w.rs.set i ⟨x.buf, st⟩, w.os⟩ ⟨v.fs, v.used, v.bs, v.rs.set i ⟨y.src, st⟩, v.os⟩ := by
  refine ⟨H.used, H.holds, H.bs, H.rs.set ⟨rfl, ?_⟩ i, H.os, H.apart, H.apart', H.own⟩
  rcases H.rs.get i with ⟨h, _⟩ | ⟨x', y', hx', hy', h⟩
  · rw [hx] at h; cases h
  · rw [hx] at hx'; rw [hy] at hy'
    cases hx'; cases hy'
    exact h.2

/-- A reader made from a transport changes its fields. -/
theorem WSim.setOwn {C : rd.Contract} {w : World ρ} {v : Streams} (H : WSim C w v) {i : Nat} {x : PRd} {y : SRd} (hx : w.os[i]? = some x) (hy : v.os[i]? = some y)
    (st : PState) : WSim C ⟨w.heap, w.used, w.bs, w.rs, w.os.set i ⟨x.buf, st⟩⟩ ⟨v.fs, v.used, v.bs, v.rs, v.os.set i ⟨y.src, st⟩⟩ := by
  have hlx : i < w.os.length := (List.getElem?_eq_some_iff.1 hx).1
  have hly : i < v.os.length := (List.getElem?_eq_some_iff.1 hy).1
  have hbuf : ∀ (k : Nat) z, (w.os.set i ⟨x.buf, st⟩)[k]? = some z → ∃ z', w.os[k]? = some z' ∧ z'.buf = z.buf := by
    intro k z hz
    rw [List.getElem?_set] at hz
    split at hz
    · rename_i hk; subst hk
      cases hz
      exact ⟨x, hx, rfl⟩
    · exact ⟨z, hz, rfl⟩
  have hsrc : ∀ (k : Nat) z, (v.os.set i ⟨y.src, st⟩)[k]? = some z → ∃ z', v.os[k]? = some z' ∧ z'.src = z.src := by
    intro k z hz
    rw [List.getElem?_set] at hz
    split at hz
    · rename_i hk; subst hk
      cases hz
      exact ⟨y, hy, rfl⟩
    · exact ⟨z, hz, rfl⟩
  refine ⟨H.used, H.holds.mono ?_, H.bs, H.rs, H.os.set rfl i, ?_, ?_, ?_⟩
  · rintro a j (⟨h1, h2⟩ | ⟨h1, h2⟩)
    · exact .caller h1 h2
    · obtain ⟨z, g1, g2⟩ := hbuf _ _ h1
      obtain ⟨z', g3, g4⟩ := hsrc _ _ h2
      rw [← g2, ← g4]
      exact .own g1 g3
  · intro k k' z z' h1 h2 he
    obtain ⟨u, g1, g2⟩ := hbuf _ _ h1
    obtain ⟨u', g3, g4⟩ := hbuf _ _ h2
    exact H.apart k k' u u' g1 g3 (by rw [g2, g4, he])
  · intro k k' a z h1 h2
    obtain ⟨u, g1, g2⟩ := hbuf _ _ h2
    rw [← g2]
    exact H.apart' k k' a u h1 g1
  · intro k z h1
    obtain ⟨u, g1, g2⟩ := hsrc _ _ h1
    rw [← g2]
    exact H.own k u g1

theorem WSim.src_lt {C : rd.Contract} {w : World ρ} {v : Streams} (H : WSim C w v) (k : Nat) (y : SRd) (hy : v.os[k]? = some y) : y.src < w.used := by
  rcases H.os.get k with ⟨_, g⟩ | ⟨x, y', g1, g2, _⟩
  · rw [hy] at g; cases g
  · rw [hy] at g2; cases g2; exact H.holds.lt _ _ (.own g1 hy)

/-- A reader made from a transport is given the next transport; its `*bufio.Reader` is then the one at `b`. -/
theorem WSim.giveOwn {C : rd.Contract} {w : World ρ} {v : Streams} (H : WSim C w v) {i : Nat} {x : PRd} {y : SRd} (hx : w.os[i]? = some x) (hy : v.os[i]? = some y)
    (st : PState) (h' : Heap ρ) (b : Nat) (fs' : Nat → Flat) (hb : b = x.buf ∨ b = w.heap.next)
    (hh : Holds C h' (w.used + 1) (fun a j => (InUse w.bs v.bs w.os v.os a j ∧ a ≠ x.buf ∧ a ≠ b) ∨ (a = b ∧ j = w.used)) fs') (hfs : ∀ j, j < w.used → fs' j = v.fs j) (hsz : (fs' w.used).size = 4096) :
    WSim C ⟨h', w.used + 1, w.bs, w.rs, w.os.set i ⟨b, st⟩⟩ ⟨fs', v.used + 1, v.bs, v.rs, v.os.set i ⟨v.used, st⟩⟩ := by
  have hlx : i < w.os.length := (List.getElem?_eq_some_iff.1 hx).1
  have hly : i < v.os.length := (List.getElem?_eq_some_iff.1 hy).1
  -- no one else has the one at `b`
  have hno : ∀ a j, InUse w.bs v.bs w.os v.os a j → a ≠ x.buf → a ≠ b := by
    intro a j q hne
    rcases hb with rfl | rfl
    · exact hne
    · have := H.holds.addr a j q; omega
  have hset : ∀ (k : Nat) z, (w.os.set i ⟨b, st⟩)[k]? = some z → (k = i ∧ z = ⟨b, st⟩) ∨ (k ≠ i ∧ w.os[k]? = some z) := by
    intro k z hz
    rw [List.getElem?_set] at hz
    split at hz
    · rename_i hk; subst hk
      cases hz
      exact .inl ⟨rfl, rfl⟩
    · rename_i hk; exact .inr ⟨fun h => hk h.symm, hz⟩
  have hset' : ∀ (k : Nat) z, (v.os.set i ⟨v.used, st⟩)[k]? = some z → (k = i ∧ z = ⟨v.used, st⟩) ∨ (k ≠ i ∧ v.os[k]? = some z) := by
    intro k z hz
    rw [List.getElem?_set] at hz
    split at hz
    · rename_i hk; subst hk
      cases hz
      exact .inl ⟨rfl, rfl⟩
    · rename_i hk; exact .inr ⟨fun h => hk h.symm, hz⟩
  have hother : ∀ (k : Nat) z, k ≠ i → w.os[k]? = some z → z.buf ≠ x.buf := fun k z hk hz he => hk (H.apart k i z x hz hx he)
  have hin : ∀ (k : Nat) z, w.os[k]? = some z → ∃ j, InUse w.bs v.bs w.os v.os z.buf j := by
    intro k z hz
    rcases H.os.get k with ⟨g, _⟩ | ⟨z', u, g1, g2, _⟩
    · rw [hz] at g; cases g
    · rw [hz] at g1; cases g1; exact ⟨_, .own hz g2⟩
  have hinb : ∀ (k : Nat) a, w.bs[k]? = some a → ∃ j, InUse w.bs v.bs w.os v.os a j := by
    intro k a hz
    rcases H.bs.get k with ⟨g, _⟩ | ⟨z', u, g1, g2, _⟩
    · rw [hz] at g; cases g
    · rw [hz] at g1; cases g1; exact ⟨_, .caller hz g2⟩
  refine ⟨by rw [H.used], hh.mono ?_, H.bs, H.rs, H.os.set rfl i, ?_, ?_, fun k z hz => ?_⟩
  rotate_right
  · rcases hset' _ _ hz with ⟨_, rfl⟩ | ⟨_, g⟩
    · rw [← H.used]; exact hsz
    · exact (congrArg Flat.size (hfs _ (H.src_lt k z g))).trans (H.own k z g)
  · rintro a j (⟨h1, h2⟩ | ⟨h1, h2⟩)
    · have hne := H.apart' _ _ _ _ h1 hx
      exact .inl ⟨.caller h1 h2, hne, hno _ _ (.caller h1 h2) hne⟩
    · rcases hset _ _ h1 with ⟨rfl, rfl⟩ | ⟨hk, g1⟩
      · rcases hset' _ _ h2 with ⟨_, rfl⟩ | ⟨hk, _⟩
        · exact .inr ⟨rfl, H.used.symm⟩
        · exact absurd rfl hk
      · rcases hset' _ _ h2 with ⟨hk', _⟩ | ⟨_, g2⟩
        · exact absurd hk' hk
        · have hne := hother _ _ hk g1
          exact .inl ⟨.own g1 g2, hne, hno _ _ (.own g1 g2) hne⟩
  · intro k k' z z' h1 h2 he
    rcases hset _ _ h1 with ⟨rfl, rfl⟩ | ⟨hk, g1⟩ <;> rcases hset _ _ h2 with ⟨rfl, rfl⟩ | ⟨hk', g2⟩
    · rfl
    · obtain ⟨j, q⟩ := hin _ _ g2
      exact absurd he.symm (hno _ _ q (hother _ _ hk' g2))
    · obtain ⟨j, q⟩ := hin _ _ g1
      exact absurd he (hno _ _ q (hother _ _ hk g1))
    · exact H.apart k k' z z' g1 g2 he
  · intro k k' a z h1 h2
    rcases hset _ _ h2 with ⟨rfl, rfl⟩ | ⟨hk, g1⟩
    · obtain ⟨j, q⟩ := hinb _ _ h1
      exact hno _ _ q (H.apart' _ _ _ _ h1 hx)
    · exact H.apart' k k' a z h1 g1

/-- The caller makes a `*bufio.Reader`. -/
theorem WSim.addBuf {C : rd.Contract} {w : World ρ} {v : Streams} (H : WSim C w v) {h' : Heap ρ} {fs' : Nat → Flat}
    (hh : Holds C h' (w.used + 1) (fun a j => (InUse w.bs v.bs w.os v.os a j ∧ a ≠ w.heap.next) ∨ (a = w.heap.next ∧ j = w.used)) fs') (hfs : ∀ j, j < w.used → fs' j = v.fs j) :
    WSim C ⟨h', w.used + 1, w.bs ++ [w.heap.next], w.rs, w.os⟩ ⟨fs', v.used + 1, v.bs ++ [v.used], v.rs, v.os⟩ := by
  have hlen := H.bs.length
  have hin : ∀ (k : Nat) z, w.os[k]? = some z → ∃ j, InUse w.bs v.bs w.os v.os z.buf j := by
    intro k z hz
    rcases H.os.get k with ⟨g, _⟩ | ⟨z', u, g1, g2, _⟩
    · rw [hz] at g; cases g
    · rw [hz] at g1; cases g1; exact ⟨_, .own hz g2⟩
  have hold : ∀ a j, InUse w.bs v.bs w.os v.os a j → a ≠ w.heap.next := fun a j q => by have := H.holds.addr a j q; omega
  refine ⟨by rw [H.used], hh.mono ?_, H.bs.snoc trivial, H.rs.imp ?_, H.os, H.apart, ?_, fun k y hy => (congrArg Flat.size (hfs _ (H.src_lt k y hy))).trans (H.own k y hy)⟩
  · rintro a j (⟨h1, h2⟩ | ⟨h1, h2⟩)
    · rcases getElem?_snoc h1 with h1 | ⟨hk, rfl⟩
      · rcases getElem?_snoc h2 with h2 | ⟨hk, rfl⟩
        · exact .inl ⟨.caller h1 h2, hold _ _ (.caller h1 h2)⟩
        · have := (List.getElem?_eq_some_iff.1 h1).1; omega
      · rcases getElem?_snoc h2 with h2 | ⟨hk', rfl⟩
        · have := (List.getElem?_eq_some_iff.1 h2).1; omega
        · exact .inr ⟨rfl, H.used.symm⟩
    · exact .inl ⟨.own h1 h2, hold _ _ (.own h1 h2)⟩
  · rintro x y ⟨h1, k, h2, h3⟩
    refine ⟨h1, k, ?_, ?_⟩
    · rw [List.getElem?_append_left (List.getElem?_eq_some_iff.1 h2).1]; exact h2
    · rw [List.getElem?_append_left (List.getElem?_eq_some_iff.1 h3).1]; exact h3
  · intro k k' a x h1 h2
    rcases getElem?_snoc h1 with h1 | ⟨hk, rfl⟩
    · exact H.apart' k k' a x h1 h2
    · obtain ⟨j, q⟩ := hin _ _ h2
      exact fun he => hold _ _ q he.symm

/-- A reader is made from a transport. -/
theorem WSim.addOwn {C : rd.Contract} {w : World ρ} {v : Streams} (H : WSim C w v) (st : PState) {h' : Heap ρ} {fs' : Nat → Flat}
    (hh : Holds C h' (w.used + 1) (fun a j => (InUse w.bs v.bs w.os v.os a j ∧ a ≠ w.heap.next) ∨ (a = w.heap.next ∧ j = w.used)) fs') (hfs : ∀ j, j < w.used → fs' j = v.fs j) (hsz : (fs' w.used).size = 4096) :
    WSim C ⟨h', w.used + 1, w.bs, w.rs, w.os ++ [⟨w.heap.next, st⟩]⟩ ⟨fs', v.used + 1, v.bs, v.rs, v.os ++ [⟨v.used, st⟩]⟩ := by
  have hlen := H.os.length
  have hin : ∀ (k : Nat) z, w.os[k]? = some z → ∃ j, InUse w.bs v.bs w.os v.os z.buf j := by
    intro k z hz
    rcases H.os.get k with ⟨g, _⟩ | ⟨z', u, g1, g2, _⟩
    · rw [hz] at g; cases g
    · rw [hz] at g1; cases g1; exact ⟨_, .own hz g2⟩
  have hinb : ∀ (k : Nat) a, w.bs[k]? = some a → ∃ j, InUse w.bs v.bs w.os v.os a j := by
    intro k a hz
    rcases H.bs.get k with ⟨g, _⟩ | ⟨z', u, g1, g2, _⟩
    · rw [hz] at g; cases g
    · rw [hz] at g1; cases g1; exact ⟨_, .caller hz g2⟩
  have hold : ∀ a j, InUse w.bs v.bs w.os v.os a j → a ≠ w.heap.next := fun a j q => by have := H.holds.addr a j q; omega
  refine ⟨by rw [H.used], hh.mono ?_, H.bs, H.rs, H.os.snoc rfl, ?_, ?_, fun k z hz => ?_⟩
  rotate_right
  · rcases getElem?_snoc hz with g | ⟨_, rfl⟩
    · exact (congrArg Flat.size (hfs _ (H.src_lt k z g))).trans (H.own k z g)
    · rw [← H.used]; exact hsz
  · rintro a j (⟨h1, h2⟩ | ⟨h1, h2⟩)
    · exact .inl ⟨.caller h1 h2, hold _ _ (.caller h1 h2)⟩
    · rcases getElem?_snoc h1 with h1 | ⟨hk, rfl⟩
      · rcases getElem?_snoc h2 with h2 | ⟨hk, rfl⟩
        · exact .inl ⟨.own h1 h2, hold _ _ (.own h1 h2)⟩
        · have := (List.getElem?_eq_some_iff.1 h1).1; omega
      · rcases getElem?_snoc h2 with h2 | ⟨hk', rfl⟩
        · have := (List.getElem?_eq_some_iff.1 h2).1; omega
        · exact .inr ⟨rfl, H.used.symm⟩
  · intro k k' x x' h1 h2 he
    rcases getElem?_snoc h1 with h1 | ⟨hk, rfl⟩ <;> rcases getElem?_snoc h2 with h2 | ⟨hk', rfl⟩
    · exact H.apart k k' x x' h1 h2 he
    · obtain ⟨j, q⟩ := hin _ _ h1
      exact absurd he (hold _ _ q)
    · obtain ⟨j, q⟩ := hin _ _ h2
      exact absurd he.symm (hold _ _ q)
    · omega
  · intro k k' a x h1 h2
    rcases getElem?_snoc h2 with h2 | ⟨hk, rfl⟩
    · exact H.apart' k k' a x h1 h2
    · obtain ⟨j, q⟩ := hinb _ _ h1
      exact hold _ _ q

/-- `bufio.NewReader` of a large `*bufio.Reader` is that. -/
theorem newReader_large (a : Nat) (h : Heap ρ) (hs : 4096 ≤ (h.bufs a).size) : newReader (.buf a) h = (a, h) := by
  rw [newReader, newReaderSize]
  rw [if_pos hs]

theorem run_sim {C : rd.Contract} {α : Type} (c : Client α) : ∀ (w : World ρ) (v : Streams), WSim C w v →
    OutRel (fun x y => x.1 = y.1 ∧ WSim C x.2 y.2) (c.run rd w) (c.ideal v) := by
  induction c with
  | ret a => intro w v h; exact ⟨rfl, h⟩
  | diverge => intro w v h; trivial
  | panic => intro w v h; trivial
  | openBuf n k ih =>
    intro w v h
    rw [Client.run, Client.ideal]
    refine ih _ _ ?_
    have := h.addBuf (h.holds.give w.heap.next (max (4096 + n) 16) (w.heap.next + 1) (by omega) (by omega) (by omega)) fun j hj => upd_other _ _ (by omega)
    rw [h.used, show max (4096 + n) 16 = 4096 + n by omega] at this
    simp only [newReaderSize]
    rw [h.used, show max (4096 + n) 16 = 4096 + n by omega]
    exact this
  | new p j k ih =>
    intro w v h
    rw [Client.run, Client.ideal]
    rcases h.bs.get j with ⟨h1, h2⟩ | ⟨a, s, h1, h2, _⟩
    · rw [h1, h2]; trivial
    · rw [h1, h2]
      simp only [newPRd, newReader_large a _ (h.holds.size a s (.caller h1 h2))]
      exact ih _ _ ⟨h.used, h.holds, h.bs, h.rs.snoc ⟨rfl, j, h1, h2⟩, h.os, h.apart, h.apart', h.own⟩
  | reset i k ih =>
    intro w v h
    rw [Client.run, Client.ideal]
    rcases h.rs.get i with ⟨h1, h2⟩ | ⟨x, y, h1, h2, h3, j, h4, h5⟩
    · rw [h1, h2]; trivial
    · rw [h1, h2]
      have : resetPRd x (.buf x.buf) w.heap = (⟨x.buf, x.st.again⟩, w.heap) := by
        unfold resetPRd
        cases hst : x.st with
        | binary strict => simp only [bufReset, if_true]
        | compact c => simp only [bufReset, if_true, newReader_large _ _ (h.holds.size _ _ (.caller h4 h5))]
      have hag : x.st.again = x.st.proto.start := by cases x.st <;> rfl
      simp only [this, ← h3, hag]
      exact ih _ _ (h.setShared h1 h2 _)
  | call i o k ih =>
    intro w v h
    rw [Client.run, Client.ideal]
    rcases h.rs.get i with ⟨h1, h2⟩ | ⟨x, y, h1, h2, h3, j, h4, h5⟩
    · rw [h1, h2]; trivial
    · rw [h1, h2]
      dsimp only
      rw [← impl_run, ← h3]
      refine OutRel.bind (runOn_spec h.holds (.caller h4 h5) _) ?_
      rintro ⟨a, h'⟩ ⟨b, f'⟩ ⟨e1, e2⟩
      dsimp only at e1 e2 ⊢
      subst e1
      exact ih _ _ _ ((h.after e2).setShared h1 h2 _)
  | openOwn p k ih =>
    intro w v h
    rw [Client.run, Client.ideal]
    refine ih _ _ ?_
    have := h.addOwn p.start (h.holds.give w.heap.next 4096 (w.heap.next + 1) (by omega) (by omega) (by omega)) (fun j hj => upd_other _ _ (by omega)) (by rw [upd_same])
    have hf : upd v.fs w.used ⟨4096, (v.fs w.used).bytes, (v.fs w.used).fin⟩ = v.fs := by
      have := upd_id v.fs w.used
      have h2 := (h.holds.fresh w.used (Nat.le_refl _)).2
      rw [show (⟨4096, (v.fs w.used).bytes, (v.fs w.used).fin⟩ : Flat) = v.fs w.used by rw [h2]]
      exact this
    rw [hf] at this
    exact this
  | resetOwn i k ih =>
    intro w v h
    rw [Client.run, Client.ideal]
    rcases h.os.get i with ⟨h1, h2⟩ | ⟨x, y, h1, h2, h3⟩
    · rw [h1, h2]; trivial
    · rw [h1, h2]
      dsimp only
      have hf : upd v.fs w.used ⟨4096, (v.fs w.used).bytes, (v.fs w.used).fin⟩ = v.fs := by
        have := upd_id v.fs w.used
        have h2 := (h.holds.fresh w.used (Nat.le_refl _)).2
        rw [show (⟨4096, (v.fs w.used).bytes, (v.fs w.used).fin⟩ : Flat) = v.fs w.used by rw [h2]]
        exact this
      refine ih _ _ ?_
      have hxu : InUse w.bs v.bs w.os v.os x.buf y.src := .own h1 h2
      have hsz : (w.heap.bufs x.buf).size = 4096 := by have := h.own i y h2; rw [h.holds.same _ _ hxu] at this; exact this
      have ha := h.holds.addr _ _ hxu
      unfold resetPRd
      cases hst : x.st with
      | binary strict =>
        rw [hst] at h3
        rw [← h3]
        have := h.giveOwn h1 h2 (.binary strict) _ x.buf _ (.inl rfl)
          ((h.holds.give x.buf 4096 w.heap.next (Nat.le_refl _) ha (Nat.le_refl _)).mono fun a j => by rintro (⟨q, q1, q2⟩ | q) <;> simp_all) (fun j hj => upd_other _ _ (by omega)) (by rw [upd_same])
        rw [hf] at this
        simp only [PState.again, PState.proto, Proto.start, bufReset, if_neg (show RSrc.raw w.used ≠ RSrc.buf x.buf from nofun), hsz]
        exact this
      | compact c =>
        rw [hst] at h3
        rw [← h3]
        have hm : Holds C w.heap w.used (fun a j => InUse w.bs v.bs w.os v.os a j ∧ a ≠ x.buf) v.fs := h.holds.mono fun a j q => q.1
        have hc := (hm.clobber x.buf ⟨4096, [], none, .raw w.used⟩ fun a j q => q.2).give w.heap.next 4096 (w.heap.next + 1) (Nat.le_refl _) (by omega) (Nat.le_succ _)
        have := h.giveOwn h1 h2 (.compact { ids := [] }) _ w.heap.next _ (.inr rfl) (hc.mono fun a j => by rintro (⟨q, q1, q2⟩ | q) <;> simp_all)
          (fun j hj => upd_other _ _ (by omega)) (by rw [upd_same])
        rw [hf] at this
        simp only [PState.again, PState.proto, Proto.start, bufReset, if_neg (show RSrc.raw w.used ≠ RSrc.buf x.buf from nofun), hsz, newReader, newReaderSize]
        exact this
  | callOwn i o k ih =>
    intro w v h
    rw [Client.run, Client.ideal]
    rcases h.os.get i with ⟨h1, h2⟩ | ⟨x, y, h1, h2, h3⟩
    · rw [h1, h2]; trivial
    · rw [h1, h2]
      dsimp only
      rw [← impl_run, ← h3]
      refine OutRel.bind (runOn_spec h.holds (.own h1 h2) _) ?_
      rintro ⟨a, h'⟩ ⟨b, f'⟩ ⟨e1, e2⟩
      dsimp only at e1 e2 ⊢
      subst e1
      exact ih _ _ _ ((h.after e2).setOwn h1 h2 _)
  | peek j m k ih =>
    intro w v h
    rw [Client.run, Client.ideal]
    rcases h.bs.get j with ⟨h1, h2⟩ | ⟨a, s, h1, h2, _⟩
    · rw [h1, h2]; trivial
    · rw [h1, h2]
      dsimp only
      have : ((v.fs s).peek m).bind (fun r => (k r.1 r.2).ideal v) =
          ((BProg.peek m fun b e => .ret (b, e)).run (v.fs s)).bind fun r => (k r.1.1 r.1.2).ideal ⟨upd v.fs s r.2, v.used, v.bs, v.rs, v.os⟩ := by
        rw [BProg.run, Out.bind_assoc]
        congr 1
        funext r
        rw [BProg.run, Out.bind_done, upd_id]
      rw [this]
      refine OutRel.bind (runOn_spec h.holds (.caller h1 h2) _) ?_
      rintro ⟨a, h'⟩ ⟨b, f'⟩ ⟨e1, e2⟩
      dsimp only at e1 e2 ⊢
      subst e1
      exact ih _ _ _ _ (h.after e2)
  | discard j m k ih =>
    intro w v h
    rw [Client.run, Client.ideal]
    rcases h.bs.get j with ⟨h1, h2⟩ | ⟨a, s, h1, h2, _⟩
    · rw [h1, h2]; trivial
    · rw [h1, h2]
      dsimp only
      have : (v.fs s).discard m = (BProg.discard m .ret).run (v.fs s) := by
        rw [BProg.run]; exact (Out.bind_id _).symm
      rw [this]
      refine OutRel.bind (runOn_spec h.holds (.caller h1 h2) _) ?_
      rintro ⟨a, h'⟩ ⟨b, f'⟩ ⟨e1, e2⟩
      dsimp only at e1 e2 ⊢
      subst e1
      exact ih _ _ _ (h.after e2)
  | readByte j k ih =>
    intro w v h
    rw [Client.run, Client.ideal]
    rcases h.bs.get j with ⟨h1, h2⟩ | ⟨a, s, h1, h2, _⟩
    · rw [h1, h2]; trivial
    · rw [h1, h2]
      dsimp only
      have : (v.fs s).readByte = (BProg.readByte .ret).run (v.fs s) := by
        rw [BProg.run]; exact (Out.bind_id _).symm
      rw [this]
      refine OutRel.bind (runOn_spec h.holds (.caller h1 h2) _) ?_
      rintro ⟨a, h'⟩ ⟨b, f'⟩ ⟨e1, e2⟩
      dsimp only at e1 e2 ⊢
      subst e1
      exact ih _ _ _ (h.after e2)
  | readFull j m k ih =>
    intro w v h
    rw [Client.run, Client.ideal]
    rcases h.bs.get j with ⟨h1, h2⟩ | ⟨a, s, h1, h2, _⟩
    · rw [h1, h2]; trivial
    · rw [h1, h2]
      dsimp only
      have : (v.fs s).readFull m = (BProg.readFull m fun b e => .ret (b, e)).run (v.fs s) := by
        rw [BProg.run]; exact (Out.bind_id _).symm
      rw [this]
      refine OutRel.bind (runOn_spec h.holds (.caller h1 h2) _) ?_
      rintro ⟨a, h'⟩ ⟨b, f'⟩ ⟨e1, e2⟩
      dsimp only at e1 e2 ⊢
      subst e1
      exact ih _ _ _ _ (h.after e2)

/-- At the beginning. -/
theorem WSim.start (C : rd.Contract) (raws : Nat → ρ) (h : ∀ i, C.ok (raws i)) : WSim C (World.start raws) (Streams.start C raws) := by
  have hno : ∀ a i, ¬InUse [] [] [] [] a i := by rintro a i (⟨h, _⟩ | ⟨h, _⟩) <;> cases h
  refine ⟨rfl, ⟨?_, ?_, ?_, ?_, ?_, ?_, ?_, ?_, ?_, fun i _ => ⟨h i, rfl⟩⟩, .nil, .nil, .nil, (fun _ _ _ _ h => nomatch h), (fun _ _ _ _ h => nomatch h), fun _ _ h => nomatch h⟩
  all_goals intro a
  · exact fun i p => (hno a i p).elim
  · exact fun i p => (hno a i p).elim
  · exact fun i p => (hno a i p).elim
  · exact fun i p => (hno a i p).elim
  · exact fun i p => (hno a i p).elim
  · exact fun i p => (hno a i p).elim
  · exact fun i p => (hno a i p).elim
  · exact fun i p => (hno a i p).elim
  · exact fun a' i p => (hno a i p).elim

theorem WSim.agree {C : rd.Contract} {w : World ρ} {v : Streams} (H : WSim C w v) : Agree C w v := by
  have key : ∀ a i, InUse w.bs v.bs w.os v.os a i → unread C w.heap a = (v.fs i).bytes := by
    intro a i q
    rw [H.holds.same a i q, unread, H.holds.src a i q]
  refine ⟨H.used, .of_get fun k => ?_, H.rs.imp fun x y h => ⟨h.1, ?_⟩, .of_get fun k => ?_⟩
  · rcases H.bs.get k with h | ⟨a, b, h1, h2, _⟩
    · exact .inl h
    · exact .inr ⟨a, b, h1, h2, key _ _ (.caller h1 h2)⟩
  · obtain ⟨_, k, h1, h2⟩ := h
    exact key _ _ (.caller h1 h2)
  · rcases H.os.get k with h | ⟨a, b, h1, h2, h3⟩
    · exact .inl h
    · exact .inr ⟨a, b, h1, h2, h3, key _ _ (.own h1 h2)⟩

/-! ## Streams of mixed content -/

theorem set_self {l : List SRd} {i : Nat} {a : SRd} (h : l[i]? = some a) : l.set i a = l := by
  apply List.ext_getElem?
  intro m
  rw [List.getElem?_set]
  split
  · rename_i hm; subst hm
    split
    · exact h.symm
    · rename_i hl; rw [List.getElem?_eq_none (by omega)]
  · rfl

theorem ideal_prog_binary {α β : Type} (strict : Bool) (i j : Nat) (p : RProg β) (k : β → Client α) : ∀ (v : Streams), v.rs[i]? = some ⟨j, .binary strict⟩ →
    (Client.prog i p k).ideal v = (p.run (Binary.reader strict) ((), v.fs j)).bind fun r => (k r.1).ideal ⟨upd v.fs j r.2.2, v.used, v.bs, v.rs, v.os⟩ := by
  induction p with
  | ret b => intro v h; rw [Client.prog, RProg.run, Out.bind_done, upd_id]
  | diverge => intro v h; rfl
  | panic => intro v h; rfl
  | call o c ih =>
    intro v h
    rw [Client.prog, Client.ideal, h, RProg.run, Out.bind_assoc]
    simp only [PState.step]
    rw [Out.bind_assoc]
    congr 1
    funext r
    rw [Out.bind_done]
    simp only [set_self h]
    rw [ih r.1 ⟨upd v.fs j r.2.2, v.used, v.bs, v.rs, v.os⟩ h]
    simp only [upd_same]
    congr 1
    funext q
    congr 2
    funext m
    by_cases hm : m = j
    · subst hm; rw [upd_same, upd_same]
    · rw [upd_other _ _ hm, upd_other _ _ hm, upd_other _ _ hm]

theorem ideal_prog_compact {α β : Type} (i j : Nat) (p : RProg β) (k : β → Client α) : ∀ (v : Streams) (c : Compact.RState), v.rs[i]? = some ⟨j, .compact c⟩ →
    (Client.prog i p k).ideal v =
      (p.run Compact.reader (c, v.fs j)).bind fun r => (k r.1).ideal ⟨upd v.fs j r.2.2, v.used, v.bs, v.rs.set i ⟨j, .compact r.2.1⟩, v.os⟩ := by
  induction p with
  | ret b =>
    intro v c h
    rw [Client.prog, RProg.run, Out.bind_done, upd_id]
    simp only [set_self h]
  | diverge => intro v c h; rfl
  | panic => intro v c h; rfl
  | call o q ih =>
    intro v c h
    rw [Client.prog, Client.ideal, h, RProg.run, Out.bind_assoc]
    simp only [PState.step]
    rw [Out.bind_assoc]
    congr 1
    funext r
    rw [Out.bind_done]
    have hi : i < v.rs.length := (List.getElem?_eq_some_iff.1 h).1
    dsimp only
    rw [ih r.1 ⟨upd v.fs j r.2.2, v.used, v.bs, v.rs.set i ⟨j, .compact r.2.1⟩, v.os⟩ r.2.1 (by rw [List.getElem?_set, if_pos rfl, if_pos hi])]
    simp only [upd_same, List.set_set]
    congr 1
    funext q
    congr 2
    funext m
    by_cases hm : m = j
    · subst hm; rw [upd_same, upd_same]
    · rw [upd_other _ _ hm, upd_other _ _ hm, upd_other _ _ hm]

end Share

end GoThrift
