import Verif.Spec.Wait
import Verif.Proof.Message
import Verif.Proof.Holds

/-!
# Readers that wait in the middle of a value
-/

namespace GoThrift

open Spec Spec.TVal

mutual
/-- The reader is positioned at the value, and waits before it has read all of it: at a string. -/
def Stuck {S : Type} (r : Rdr S) : TVal → S → Prop
  | .str _ _, s => r.step .string s = .blocked ∧ (∀ buf, r.step (.bytes buf) s = .blocked) ∧ r.step .skipString s = .blocked
  | .struct _ fs, s => ∃ n s1, Gives r .structBegin s n s1 ∧ StuckFields r fs s1
  | .map kt vt es, s => ∃ h s1, Gives r .mapBegin s h s1 ∧ loopCount h.size = es.length ∧ h.key = kt ∧ h.value = vt ∧ StuckEntries r kt vt es s1
  | .set et es, s => ∃ h s1, Gives r .setBegin s h s1 ∧ loopCount h.size = es.length ∧ h.element = et ∧ StuckElems r et es s1
  | .list et es, s => ∃ h s1, Gives r .listBegin s h s1 ∧ loopCount h.size = es.length ∧ h.element = et ∧ StuckElems r et es s1
  | _, _ => False
/-- See `Stuck`. -/
def StuckFields {S : Type} (r : Rdr S) : List (Bytes × BitVec 16 × TVal) → S → Prop
  | [], _ => False
  | (_, id, v) :: fs, s => ∃ n s1, Gives r .fieldBegin s ⟨n, v.ty, id⟩ s1 ∧
      (Stuck r v s1 ∨ ∃ s2 s3, Holds r v s1 s2 ∧ Gives r .fieldEnd s2 () s3 ∧ StuckFields r fs s3)
/-- See `Stuck`. -/
def StuckEntries {S : Type} (r : Rdr S) (kt vt : WType) : List (TVal × TVal) → S → Prop
  | [], _ => False
  | (k, v) :: es, s => k.ty = kt ∧ v.ty = vt ∧ (Stuck r k s ∨ ∃ s1, Holds r k s s1 ∧ (Stuck r v s1 ∨ ∃ s2, Holds r v s1 s2 ∧ StuckEntries r kt vt es s2))
/-- See `Stuck`. -/
def StuckElems {S : Type} (r : Rdr S) (et : WType) : List TVal → S → Prop
  | [], _ => False
  | v :: es, s => v.ty = et ∧ (Stuck r v s ∨ ∃ s1, Holds r v s s1 ∧ StuckElems r et es s1)
end

section
variable {S : Type} {r : Rdr S}

theorem andThen_blocked {p q : RProg (Option Err)} {s : S} (h : p.run r s = .blocked) : (p.andThen q).run r s = .blocked := by
  simp [RProg.andThen, RProg.run_bind, h, Out.bind]

/-- The induction statement of `skip_stuck`. -/
def SkipStuck (r : Rdr S) (t : TVal) : Prop := ∀ (fuel : Nat), fuelOf t ≤ fuel → ∀ (s : S), Stuck r t s → (skip fuel t.ty).run r s = .blocked

theorem skipElems_stuck (et : WType) (es : List TVal) (hall : ∀ e ∈ es, SkipStuck r e) (fuel : Nat) (hf : fuelOfElems es ≤ fuel)
    (q : RProg (Option Err)) (s : S) (h : StuckElems r et es s) : (RProg.loop es.length (skip fuel et) q).run r s = .blocked := by
  induction es generalizing s with
  | nil => exact h.elim
  | cons e es ih =>
    simp only [StuckElems] at h
    simp only [fuelOfElems] at hf
    obtain ⟨rfl, h⟩ := h
    rw [List.length_cons, RProg.loop]
    rcases h with h | ⟨s1, h1, h2⟩
    · exact andThen_blocked (hall e (by simp) fuel (by omega) s h)
    · rw [run_andThen (skip_holds e fuel (by omega) s s1 h1)]
      exact ih (fun e he => hall e (by simp [he])) (by omega) s1 h2

theorem skipEntries_stuck (kt vt : WType) (es : List (TVal × TVal)) (hall : ∀ e ∈ es, SkipStuck r e.1 ∧ SkipStuck r e.2) (fuel : Nat) (hf : fuelOfEntries es ≤ fuel)
    (q : RProg (Option Err)) (s : S) (h : StuckEntries r kt vt es s) : (RProg.loop es.length ((skip fuel kt).andThen (skip fuel vt)) q).run r s = .blocked := by
  induction es generalizing s with
  | nil => exact h.elim
  | cons e es ih =>
    obtain ⟨k, v⟩ := e
    simp only [StuckEntries] at h
    simp only [fuelOfEntries] at hf
    obtain ⟨rfl, rfl, h⟩ := h
    obtain ⟨ihk, ihv⟩ := hall (k, v) (by simp)
    rw [List.length_cons, RProg.loop]
    rcases h with h | ⟨s1, h1, h | ⟨s2, h2, h3⟩⟩
    · exact andThen_blocked (andThen_blocked (ihk fuel (by show fuelOf k ≤ fuel; omega) s h))
    · refine andThen_blocked ?_
      rw [run_andThen (skip_holds k fuel (by omega) s s1 h1)]
      exact ihv fuel (by show fuelOf v ≤ fuel; omega) s1 h
    · rw [run_andThen ((run_andThen (skip_holds k fuel (by omega) s s1 h1)).trans (skip_holds v fuel (by omega) s1 s2 h2))]
      exact ih (fun e he => hall e (by simp [he])) (by omega) s2 h3

theorem skipFields_stuck (fs : List (Bytes × BitVec 16 × TVal)) (hall : ∀ f ∈ fs, SkipStuck r f.2.2) (fuel : Nat) (hf : fuelOfFields fs ≤ fuel) (s : S) (h : StuckFields r fs s) :
    (skipFields fuel).run r s = .blocked := by
  induction fs generalizing s fuel with
  | nil => exact h.elim
  | cons f fs ih =>
    obtain ⟨fn, id, v⟩ := f
    simp only [StuckFields] at h
    obtain ⟨n, s1, hb, h⟩ := h
    simp only [fuelOfFields] at hf
    obtain ⟨fuel, rfl⟩ := Nat.exists_eq_add_of_le' (Nat.le_trans (Nat.le_add_left 1 _) hf)
    rw [skipFields, run_try' hb, if_neg (ty_ne_stop v)]
    rcases h with h | ⟨s2, s3, h1, h2, h3⟩
    · exact andThen_blocked (hall (fn, id, v) (by simp) fuel (by show fuelOf v ≤ fuel; omega) s1 h)
    · rw [run_andThen (skip_holds v fuel (by omega) s1 s2 h1), run_try' h2]
      exact ih (fun f hf => hall f (by simp [hf])) fuel (by omega) s3 h3

theorem last_blocked {o : ROp} {s : S} (h : r.step o s = .blocked) : (RProg.last o).run r s = .blocked := by
  simp [RProg.last, RProg.run, h, Out.bind]

/-- Skip waits where the reader does. -/
theorem skip_stuck (t : TVal) : SkipStuck r t := by
  induction t using TVal.ind with
  | hstr raw v => intro fuel hf s h; obtain ⟨fuel, rfl⟩ := Nat.exists_eq_add_of_le' hf; exact last_blocked h.2.2
  | hstruct n fs hall =>
    intro fuel hf s h
    simp only [fuelOf] at hf
    obtain ⟨fuel, rfl⟩ := Nat.exists_eq_add_of_le' (Nat.le_trans (Nat.le_add_left 1 _) hf)
    obtain ⟨n', s1, h1, h2⟩ := h
    exact (run_try' h1 _).trans (skipFields_stuck fs hall fuel (by omega) s1 h2)
  | hmap kt vt es hall =>
    intro fuel hf s h
    simp only [fuelOf] at hf
    obtain ⟨fuel, rfl⟩ := Nat.exists_eq_add_of_le' (Nat.le_trans (Nat.le_add_left 1 _) hf)
    obtain ⟨h, s1, h1, h2, rfl, rfl, h4⟩ := h
    refine (run_try' h1 _).trans ?_
    rw [h2]
    exact skipEntries_stuck _ _ es hall fuel (by omega) _ s1 h4
  | hset et es hall =>
    intro fuel hf s h
    simp only [fuelOf] at hf
    obtain ⟨fuel, rfl⟩ := Nat.exists_eq_add_of_le' (Nat.le_trans (Nat.le_add_left 1 _) hf)
    obtain ⟨h, s1, h1, h2, rfl, h4⟩ := h
    refine (run_try' h1 _).trans ?_
    rw [h2]
    exact skipElems_stuck _ es hall fuel (by omega) _ s1 h4
  | hlist et es hall =>
    intro fuel hf s h
    simp only [fuelOf] at hf
    obtain ⟨fuel, rfl⟩ := Nat.exists_eq_add_of_le' (Nat.le_trans (Nat.le_add_left 1 _) hf)
    obtain ⟨h, s1, h1, h2, rfl, h4⟩ := h
    refine (run_try' h1 _).trans ?_
    rw [h2]
    exact skipElems_stuck _ es hall fuel (by omega) _ s1 h4
  | _ => intro fuel hf s h; exact h.elim

end

namespace Compact

variable {hdr : Byte → BitVec 16 → BitVec 16 → Bytes} {sz : Nat}

theorem readString_waits (hsz : 16 ≤ sz) (c : RState) (bytes : Bytes) (h : bytes.length < 10) : readString.run c ⟨sz, bytes, .block⟩ = .blocked := by
  simp only [readString, RM.bind_eq, RM.run_bind, readStringSize]
  rw [readUvarint_waits _ _ hsz _ h]; rfl

theorem readBytes_waits (hsz : 16 ≤ sz) (c : RState) (buf bytes : Bytes) (h : bytes.length < 10) : (readBytes buf).run c ⟨sz, bytes, .block⟩ = .blocked := by
  simp only [readBytes, RM.bind_eq, RM.run_bind, readStringSize]
  rw [readUvarint_waits _ _ hsz _ h]; rfl

theorem skipString_waits (hsz : 16 ≤ sz) (c : RState) (bytes : Bytes) (h : bytes.length < 10) : skipString.run c ⟨sz, bytes, .block⟩ = .blocked := by
  simp only [skipString, RM.bind_eq, RM.run_bind, readStringSize]
  rw [readUvarint_waits _ _ hsz _ h]; rfl

theorem step_waits {o : ROp} {c : RState} {f : Flat} (h : (impl o).run c f = .blocked) : reader.step o (c, f) = .blocked := by
  simp [reader, h, Out.bind]

/-- What has to be shown for each value. -/
def Waits (hdr : Byte → BitVec 16 → BitVec 16 → Bytes) (sz : Nat) (t : TVal) : Prop :=
  WF (2 ^ 63 - 1) t → TypesOK t → ∀ (c : RState) (rest : Bytes), c.boolField = .none →
    ¬ FitWith hdr rest.length t → Stuck reader t (c, ⟨sz, encWith hdr t ++ rest, .block⟩)

theorem elems_wait (hh : HdrOK hdr) (hsz : 16 ≤ sz) (et : WType) (es : List TVal) (hall : ∀ e ∈ es, Waits hdr sz e) (hw : WFElems (2 ^ 63 - 1) et es) (ht : TypesOKElems es) (c : RState) (rest : Bytes) (hc : c.boolField = .none)
    (hs : ¬ FitWithElems hdr rest.length es) : StuckElems reader et es (c, ⟨sz, encWithElems hdr es ++ rest, .block⟩) := by
  induction es with
  | nil => exact hs trivial
  | cons e es ih =>
    simp only [WFElems] at hw
    simp only [TypesOKElems] at ht
    simp only [StuckElems, encWithElems, List.append_assoc]
    refine ⟨hw.1, ?_⟩
    by_cases h1 : FitWith hdr (encWithElems hdr es ++ rest).length e
    · exact .inr ⟨_, holdsFit hh sz hsz .block e hw.2.1 ht.1 c _ hc (.inr h1), ih (fun e he => hall e (by simp [he])) hw.2.2 ht.2 fun h2 => hs ⟨by rw [← List.length_append]; exact h1, h2⟩⟩
    · exact .inl (hall e (by simp) hw.2.1 ht.1 c _ hc h1)

theorem entries_wait (hh : HdrOK hdr) (hsz : 16 ≤ sz) (kt vt : WType) (es : List (TVal × TVal)) (hall : ∀ e ∈ es, Waits hdr sz e.1 ∧ Waits hdr sz e.2) (hw : WFEntries (2 ^ 63 - 1) kt vt es) (ht : TypesOKEntries es)
    (c : RState) (rest : Bytes) (hc : c.boolField = .none) (hs : ¬ FitWithEntries hdr rest.length es) : StuckEntries reader kt vt es (c, ⟨sz, encWithEntries hdr es ++ rest, .block⟩) := by
  induction es with
  | nil => exact hs trivial
  | cons e es ih =>
    obtain ⟨k, v⟩ := e
    simp only [WFEntries] at hw
    simp only [TypesOKEntries] at ht
    simp only [StuckEntries, encWithEntries, List.append_assoc]
    obtain ⟨hk, hv⟩ := hall (k, v) (by simp)
    refine ⟨hw.1, hw.2.1, ?_⟩
    by_cases h1 : FitWith hdr (encWith hdr v ++ (encWithEntries hdr es ++ rest)).length k
    · refine .inr ⟨_, holdsFit hh sz hsz .block k hw.2.2.1 ht.1 c _ hc (.inr h1), ?_⟩
      by_cases h2 : FitWith hdr (encWithEntries hdr es ++ rest).length v
      · exact .inr ⟨_, holdsFit hh sz hsz .block v hw.2.2.2.1 ht.2.1 c _ hc (.inr h2), ih (fun e he => hall e (by simp [he])) hw.2.2.2.2 ht.2.2 fun h3 =>
          hs ⟨by rw [← List.length_append, List.append_assoc]; exact h1, by rw [← List.length_append]; exact h2, h3⟩⟩
      · exact .inl (hv hw.2.2.2.1 ht.2.1 c _ hc h2)
    · exact .inl (hk hw.2.2.1 ht.1 c _ hc h1)

theorem fields_wait (hh : HdrOK hdr) (hsz : 16 ≤ sz) (fs : List (Bytes × BitVec 16 × TVal)) (hall : ∀ f ∈ fs, Waits hdr sz f.2.2) (hw : WFFields (2 ^ 63 - 1) fs) (ht : TypesOKFields fs) (ids : List (BitVec 16))
    (rest : Bytes) (hs : ¬ FitWithFields hdr rest.length fs) : ∀ last, StuckFields reader fs (⟨ids, last, .none⟩, ⟨sz, encWithFields hdr last fs ++ rest, .block⟩) := by
  induction fs with
  | nil => exact fun _ => hs trivial
  | cons f fs ih =>
    obtain ⟨n, id, v⟩ := f
    intro last
    simp only [WFFields] at hw
    simp only [TypesOKFields] at ht
    simp only [StuckFields, encWithFields, List.append_assoc]
    obtain ⟨w1, w2⟩ := fieldCode_spec v
    have hb := hh sz ((if v.ty = Ty.bool then [] else encWith hdr v) ++ (encWithFields hdr id fs ++ rest)) .block
      ⟨ids, last, .none⟩ (compactFieldCode v) v.ty w1 (ty_ne_stop v) w2 id
    refine ⟨[], _, gives hb, ?_⟩
    by_cases hv : v.ty = Ty.bool
    · cases v with
      | bool b =>
        rw [if_pos hv, List.nil_append] at hb ⊢
        refine .inr ⟨(⟨ids, id, .none⟩, ⟨sz, encWithFields hdr id fs ++ rest, .block⟩), _, ?_, gives rfl, ih (fun f hf => hall f (by simp [hf])) hw.2 ht.2 (fun h => hs ⟨trivial, h⟩) id⟩
        apply gives
        cases b <;> rfl
      | _ => exact absurd hv (by simp only [ty]; decide)
    · rw [if_neg hv] at hb ⊢
      rw [setBy_ne_bool v hv] at hb ⊢
      by_cases h1 : FitWith hdr (encWithFields hdr id fs ++ rest).length v
      · exact .inr ⟨_, _, holdsFit hh sz hsz .block v hw.1 ht.1 _ _ rfl (.inr h1), gives rfl, ih (fun f hf => hall f (by simp [hf])) hw.2 ht.2 (fun h => hs ⟨by rw [← List.length_append]; exact h1, h⟩) id⟩
      · exact .inl (hall (n, id, v) (by simp) hw.1 ht.1 _ _ rfl h1)

/-- If some string is too close to the end of what has arrived, the reader waits. -/
theorem waits (hh : HdrOK hdr) (hsz : 16 ≤ sz) (t : TVal) : Waits hdr sz t := by
  induction t using TVal.ind with
  | hstr raw v =>
    intro _ _ c rest hc hs
    have h : (leb v.length ++ v ++ rest).length < 10 := by
      rw [List.length_append]; exact Nat.not_le.1 hs
    exact ⟨step_waits (readString_waits hsz c _ h), fun buf => step_waits (readBytes_waits hsz c buf _ h), step_waits (skipString_waits hsz c _ h)⟩
  | hstruct n fs hall =>
    intro hw ht c rest hc hs
    obtain ⟨ids, last, b⟩ := c
    obtain rfl : b = .none := hc
    exact ⟨[], (⟨last :: ids, 0, .none⟩, ⟨sz, encWithFields hdr 0 fs ++ rest, .block⟩), gives rfl, fields_wait hh hsz fs hall hw ht (last :: ids) rest hs 0⟩
  | hmap kt vt es hall =>
    intro hw ht c rest hc hs
    simp only [WF] at hw
    simp only [Stuck, encWith]
    rw [List.append_assoc]
    have hne : es.length ≠ 0 := fun h => hs (by rw [List.length_eq_zero_iff.1 h]; trivial)
    refine ⟨_, _, gives (readMapBegin_run sz (encWithEntries hdr es ++ rest) .block c kt vt es.length (entries_types _ kt vt es hw.2) (by omega)),
      loopCount_ofNat _ (by omega), ?_, ?_, entries_wait hh hsz kt vt es hall hw.2 ht c rest hc hs⟩
    · simp only [if_neg hne]
    · simp only [if_neg hne]
  | hset et es hall =>
    intro hw ht c rest hc hs
    simp only [WF] at hw
    simp only [TypesOK] at ht
    simp only [Stuck, encWith]
    rw [List.append_assoc]
    exact ⟨⟨et, BitVec.ofNat 64 es.length⟩, _, gives (readSetBegin_run sz (encWithElems hdr es ++ rest) .block c et es.length ht.1 (by omega)), loopCount_ofNat _ (by omega),
      rfl, elems_wait hh hsz et es hall hw.2 ht.2 c rest hc hs⟩
  | hlist et es hall =>
    intro hw ht c rest hc hs
    simp only [WF] at hw
    simp only [TypesOK] at ht
    simp only [Stuck, encWith]
    rw [List.append_assoc]
    exact ⟨⟨et, BitVec.ofNat 64 es.length⟩, _, gives (readSetBegin_run sz (encWithElems hdr es ++ rest) .block c et es.length ht.1 (by omega)), loopCount_ofNat _ (by omega),
      rfl, elems_wait hh hsz et es hall hw.2 ht.2 c rest hc hs⟩
  | _ => intro _ _ c rest hc hs; exact hs trivial

theorem hdrSpec_ok : HdrOK compactFieldHeader := fun sz rest fin c code t h1 h2 h3 id => readFieldBegin_spec sz rest fin c code t h1 h2 h3 id

/-- `FitWith` for the headers of the specification. -/
theorem fit_iff (n : Nat) (t : TVal) : FitWith compactFieldHeader n t ↔ TenFromEachString n t := by
  have encF : ∀ id fs, encWithFields compactFieldHeader id fs = encCompactFields id fs := fun id fs => encWithFields_spec fs (fun f _ => encWith_spec f.2.2) id
  have encE : ∀ es, encWithElems compactFieldHeader es = encCompactElems es := fun es => encWithElems_spec es (fun e _ => encWith_spec e)
  have encM : ∀ es, encWithEntries compactFieldHeader es = encCompactEntries es := fun es => encWithEntries_spec es (fun e _ => ⟨encWith_spec e.1, encWith_spec e.2⟩)
  induction t using TVal.ind generalizing n with
  | hstruct nm fs hall =>
    simp only [FitWith, TenFromEachString]
    induction fs with
    | nil => rfl
    | cons f fs ih =>
      obtain ⟨fn, id, v⟩ := f
      have ih := ih (fun f hf => hall f (by simp [hf]))
      simp only [FitWithFields, TenFields, encF]
      exact and_congr (hall (fn, id, v) (by simp) _) ih
  | hmap kt vt es hall =>
    simp only [FitWith, TenFromEachString]
    induction es with
    | nil => rfl
    | cons e es ih =>
      obtain ⟨k, v⟩ := e
      obtain ⟨hk, hv⟩ := hall (k, v) (by simp)
      have ih := ih (fun f hf => hall f (by simp [hf]))
      simp only [FitWithEntries, TenEntries, List.length_append, encM, encWith_spec]
      exact and_congr (hk _) (and_congr (hv _) ih)
  | hset et es hall =>
    simp only [FitWith, TenFromEachString]
    induction es with
    | nil => rfl
    | cons e es ih =>
      have ih := ih (fun f hf => hall f (by simp [hf]))
      simp only [FitWithElems, TenElems, encE]
      exact and_congr (hall e (by simp) _) ih
  | hlist et es hall =>
    simp only [FitWith, TenFromEachString]
    induction es with
    | nil => rfl
    | cons e es ih =>
      have ih := ih (fun f hf => hall f (by simp [hf]))
      simp only [FitWithElems, TenElems, encE]
      exact and_congr (hall e (by simp) _) ih
  | _ => simp [FitWith, TenFromEachString, encCompact]

theorem message_waits (hsz : 16 ≤ sz) (rest : Bytes) (c : RState) (h : MessageHeader) (ht : h.type.toNat < 8) (hs : (leb h.name.length ++ h.name ++ rest).length < 10) :
    readMessageBegin.run c ⟨sz, encCompactMessage h ++ rest, .block⟩ = .blocked := by
  obtain ⟨h1, h2, h3⟩ := message_byte h.type ht
  rw [encCompactMessage, ← h1]
  simp only [readMessageBegin, RM.bind_eq, RM.run_bind, List.cons_append, List.nil_append, readByte_run, Out.bind_done]
  rw [if_neg (by decide)]
  simp only [RM.run_bind, readByte_run, Out.bind_done, h2, ne_eq, not_true_eq_false, if_false, List.append_assoc]
  rw [leb_eq_put _ (by have := h.id.isLt; omega)]
  by_cases hr : 10 ≤ (putUvarint (BitVec.ofNat 64 h.id.toNat) ++ (leb h.name.length ++ (h.name ++ rest))).length
  · rw [readUvarint_run _ _ _ _ hsz _ (.inr (by rw [List.length_append] at hr; exact hr))]
    simp only [Out.bind_done]
    rw [readString_waits hsz c _ (by rw [← List.append_assoc]; exact hs)]
    rfl
  · rw [readUvarint_waits _ _ hsz _ (by omega)]
    rfl

end Compact

end GoThrift
