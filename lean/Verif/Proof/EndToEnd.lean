import Verif.Proof.Top
import Verif.Proof.Message
import Verif.Proof.BufWriter
import Verif.Proof.Bufio
import Verif.Spec.Session
import Verif.Model.Stream

/-!
# From writer to reader: lemmas
-/

namespace GoThrift

open Spec Spec.TVal

namespace PW
variable {C σ : Type} {T : Transport σ} {impl : WOp → WM C Unit}

/-- Once the transport has failed it stays so. -/
theorem step_err (hT : T.Honest) {o : WOp} {x x' : PW C σ} {s : C × Bytes} (h : Tracks x s) {a : Option Err} (hs : (PW.wtr T impl).step o x = .done (a, x'))
    (hn : x'.b.err = none) : x.b.err = none := by
  obtain ⟨e, x1, h1, _, _, _, _, h6⟩ := op_spec (impl := impl) hT o h
  cases h1.symm.trans hs
  cases hb : x.b.err with
  | none => rfl
  | some e' => rw [h6 e' hb, hb] at hn; cases hn

/-- A step that succeeds, the transport still working, is one of the ideal writer. -/
theorem step_ideal (hT : T.Honest) {o : WOp} {x x' : PW C σ} {s : C × Bytes} (h : Tracks x s) (hs : (PW.wtr T impl).step o x = .done (none, x'))
    (hn : x'.b.err = none) : ∃ s', (idealWtr impl).step o s = .done (none, s') ∧ Tracks x' s' := by
  obtain ⟨e, x1, h1, h2, _, _, h5, _⟩ := op_spec (impl := impl) hT o h
  cases h1.symm.trans hs
  exact ⟨_, by simp only [idealWtr]; rw [← h5 hn], h2⟩

/-- A step keeps track. -/
theorem step_tracks (hT : T.Honest) {o : WOp} {x x' : PW C σ} {s : C × Bytes} (h : Tracks x s) {a : Option Err} (hs : (PW.wtr T impl).step o x = .done (a, x')) :
    ∃ s', Tracks x' s' := by
  obtain ⟨e, x1, h1, h2, _⟩ := op_spec (impl := impl) hT o h
  cases h1.symm.trans hs
  exact ⟨_, h2⟩

theorem _root_.GoThrift.Writes.cons_inv {S : Type} {w : Wtr S} {o : WOp} {l : List WOp} {s s' : S} (h : Writes w (o :: l) s s') :
    ∃ s1, w.step o s = .done (none, s1) ∧ Writes w l s1 s' := by
  simp only [Writes, WProg.ofCalls, WProg.run] at h
  cases hs : w.step o s with
  | done x =>
    obtain ⟨e, s1⟩ := x
    rw [hs] at h
    cases e with
    | none => exact ⟨s1, rfl, h⟩
    | some e => cases h
  | blocked => rw [hs] at h; cases h
  | diverged => rw [hs] at h; cases h
  | panicked => rw [hs] at h; cases h

theorem writes_tracks (hT : T.Honest) (cs : List WOp) {x x' : PW C σ} {s : C × Bytes} (h : Tracks x s) (hw : Writes (PW.wtr T impl) cs x x') :
    (∃ s', Tracks x' s') ∧ (x'.b.err = none → x.b.err = none) := by
  induction cs generalizing x s with
  | nil => cases hw; exact ⟨⟨s, h⟩, id⟩
  | cons o cs ih =>
    obtain ⟨x1, h1, h2⟩ := hw.cons_inv
    obtain ⟨s1, h3⟩ := step_tracks hT h h1
    obtain ⟨h4, h5⟩ := ih h3 h2
    exact ⟨h4, fun hn => step_err hT h h1 (h5 hn)⟩

/-- Calls that succeed, the transport still working afterwards, succeed with the ideal writer. -/
theorem writes_ideal (hT : T.Honest) (cs : List WOp) {x x' : PW C σ} {s : C × Bytes} (h : Tracks x s) (hw : Writes (PW.wtr T impl) cs x x')
    (hn : x'.b.err = none) : ∃ s', Writes (idealWtr impl) cs s s' ∧ Tracks x' s' := by
  induction cs generalizing x s with
  | nil => cases hw; exact ⟨s, .nil _, h⟩
  | cons o cs ih =>
    obtain ⟨x1, h1, h2⟩ := hw.cons_inv
    obtain ⟨_, h3⟩ := step_tracks hT h h1
    obtain ⟨s1, h4, h5⟩ := step_ideal hT h h1 ((writes_tracks hT cs h3 h2).2 hn)
    obtain ⟨s', h6, h7⟩ := ih h5 h2
    exact ⟨s', .cons h4 h6, h7⟩

end PW

/-- What a protocol must do for messages to get through: `P` and `Q` say which states of writer and reader and which rests of the stream are fine, `M` and `V` which headers and values. -/
structure Codec {C R : Type} (w : Wtr (C × Bytes)) (r : Rdr (R × Flat)) (P : C → Prop) (rs : R) (size : Nat) (fin : End) (Q : Bytes → Prop) (M : MessageHeader → Prop) (V : TVal → Prop) where
  encM : MessageHeader → Bytes
  enc : TVal → Bytes
  mono : ∀ a rest, Q rest → Q (a ++ rest)
  msgW : ∀ h c b, P c → M h → w.step (.messageBegin h) (c, b) = .done (none, (c, b ++ encM h))
  endW : ∀ s, w.step .messageEnd s = .done (none, s)
  valW : ∀ tv c b, P c → V tv → ∃ c', P c' ∧ Writes w (calls tv) (c, b) (c', b ++ enc tv)
  msgR : ∀ h rest, M h → Q rest → Gives r .messageBegin (rs, ⟨size, encM h ++ rest, fin⟩) h (rs, ⟨size, rest, fin⟩)
  endR : ∀ s, Gives r .messageEnd s () s
  valR : ∀ tv rest, V tv → Q rest → Holds r tv (rs, ⟨size, enc tv ++ rest, fin⟩) (rs, ⟨size, rest, fin⟩)

/-- Sending keeps track, and a failed transport stays so. -/
theorem Sends.tracks {C σ : Type} {T : Transport σ} (hT : T.Honest) {impl : WOp → WM C Unit} {env : Env} {lim : Nat} (ms : List Msg) (hok : ∀ m ∈ ms, m.OK env lim) {x x' : PW C σ}
    {s : C × Bytes} (htr : PW.Tracks x s) (h : Sends env (PW.wtr T impl) (ms.map fun m => (m.h, m.x)) x x') :
    (∃ s', PW.Tracks x' s') ∧ (x'.b.err = none → x.b.err = none) := by
  induction ms generalizing x s with
  | nil => cases h; exact ⟨⟨s, htr⟩, id⟩
  | cons m ms ih =>
    have hm := hok m (by simp)
    obtain ⟨x1, x2, x3, h1, h2, h3, h4⟩ := h
    obtain ⟨_, _, hw, _⟩ := h2.rep hm.passes hm.hasType
    obtain ⟨_, t1⟩ := PW.step_tracks hT htr h1
    obtain ⟨⟨_, t2⟩, k2⟩ := PW.writes_tracks hT _ t1 hw
    obtain ⟨_, t3⟩ := PW.step_tracks hT t2 h3
    obtain ⟨g1, g2⟩ := ih (fun m hm => hok m (by simp [hm])) t3 h4
    exact ⟨g1, fun hn => PW.step_err hT htr h1 (k2 (PW.step_err hT t2 h3 (g2 hn)))⟩

/-- The messages of a working connection arrive. The bytes and values depend on the writer's part of the codec only. -/
theorem sends_ideal {C σ R : Type} {T : Transport σ} (hT : T.Honest) {impl : WOp → WM C Unit} {r : Rdr (R × Flat)} {P : C → Prop} {M : MessageHeader → Prop} {V : TVal → Prop}
    {I : Type} {rs : I → R} {size : I → Nat} {fin : I → End} {Q : I → Bytes → Prop}
    (cd : ∀ i, Codec (idealWtr impl) r P (rs i) (size i) (fin i) (Q i) M V) (encM : MessageHeader → Bytes) (enc : TVal → Bytes) (he : ∀ i, (cd i).encM = encM ∧ (cd i).enc = enc) (i0 : I)
    {env : Env} {lim : Nat} (hV : ∀ t v tv, Rep env t v tv → HasType env t v → SizesAtMost env lim t v → V tv)
    (ms : List Msg) (hok : ∀ m ∈ ms, m.OK env lim ∧ M m.h) {x x' : PW C σ} {c : C} {b : Bytes} (htr : PW.Tracks x (c, b)) (hP : P c)
    (h : Sends env (PW.wtr T impl) (ms.map fun m => (m.h, m.x)) x x') (hn : x'.b.err = none) :
    ∃ out vs c', PW.Tracks x' (c', b ++ out) ∧ P c' ∧ SameValues env ms vs ∧
      ∀ i rest, Q i rest → Receives env r (List.zipWith (Msg.into env) ms vs) (rs i, ⟨size i, out ++ rest, fin i⟩) (rs i, ⟨size i, rest, fin i⟩) := by
  induction ms generalizing x c b with
  | nil => cases h; exact ⟨[], [], c, by rw [List.append_nil]; exact htr, hP, trivial, fun _ _ _ => rfl⟩
  | cons m ms ih =>
    obtain ⟨hm, hM⟩ := hok m (by simp)
    obtain ⟨x1, x2, x3, h1, h2, h3, h4⟩ := h
    obtain ⟨tv, hr, hw, n, a, hl, hty⟩ := h2.rep hm.passes hm.hasType
    have hv := hV _ _ _ hr hm.hasType hm.sizes
    -- the transport works all the time
    obtain ⟨_, t1⟩ := PW.step_tracks hT htr h1
    obtain ⟨⟨_, t2⟩, k2⟩ := PW.writes_tracks hT _ t1 hw
    obtain ⟨_, t3⟩ := PW.step_tracks hT t2 h3
    have n3 : x3.b.err = none := (Sends.tracks hT ms (fun m hm => (hok m (by simp [hm])).1) t3 h4).2 hn
    have n2 := PW.step_err hT t2 h3 n3
    have n1 := k2 n2
    -- so it does what the ideal writer does
    obtain ⟨s1, w1, r1⟩ := PW.step_ideal hT htr h1 n1
    cases w1.symm.trans ((cd i0).msgW m.h c b hP hM)
    obtain ⟨s2, w2, r2⟩ := PW.writes_ideal hT _ r1 hw n2
    obtain ⟨c', hP', w2'⟩ := (cd i0).valW tv c (b ++ (cd i0).encM m.h) hP hv
    cases w2.unique w2'
    obtain ⟨s3, w3, r3⟩ := PW.step_ideal hT r2 h3 n3
    cases w3.symm.trans ((cd i0).endW _)
    obtain ⟨out, vs, c'', j1, j2, j3, j4⟩ := ih (fun m hm => hok m (by simp [hm])) r3 hP' h4
    obtain ⟨v', hv1, hv2⟩ := hr.unmarshals hm.keys hm.distinct hl hty (S := R × Flat)
    refine ⟨encM m.h ++ (enc tv ++ out), v' :: vs, c'', ?_, j2, ⟨hv1, j3⟩, fun i rest hq => ⟨(rs i, ⟨size i, enc tv ++ (out ++ rest), fin i⟩), _, _, ?_, ?_, (cd i).endR _, j4 i rest hq⟩⟩
    · have := j1
      rw [(he i0).1, (he i0).2] at this
      simpa only [List.append_assoc] using this
    · have := (cd i).msgR m.h (enc tv ++ (out ++ rest)) hM ((cd i).mono _ _ ((cd i).mono _ _ hq))
      rw [(he i).1] at this
      simpa only [List.append_assoc] using this
    · have := (cd i).valR tv (out ++ rest) hv ((cd i).mono _ _ hq)
      rw [(he i).2] at this
      exact hv2 r m.p _ _ hm.ptr this

/-- Receiving through a simulation. -/
theorem Receives.sim {S S' : Type} {env : Env} {r : Rdr S} {r' : Rdr S'} {R : S → S' → Prop}
    (hstep : ∀ o s t, R s t → OutRel (fun x y => x.1 = y.1 ∧ R x.2 y.2) (r.step o s) (r'.step o t)) {ms : List (MessageHeader × AnyVal × AnyVal)} {s : S} {t t' : S'} (hR : R s t)
    (h : Receives env r' ms t t') : ∃ s', Receives env r ms s s' ∧ R s' t' := by
  induction ms generalizing s t with
  | nil => cases h; exact ⟨s, rfl, hR⟩
  | cons m ms ih =>
    obtain ⟨hd, y, y'⟩ := m
    obtain ⟨t1, t2, t3, h1, ⟨n, h2⟩, h3, h4⟩ := h
    have done : ∀ {α : Type} {p : Out (α × S)} {a : α} {u : S'}, OutRel (fun x y => x.1 = y.1 ∧ R x.2 y.2) p (.done (a, u)) → ∃ s', p = .done (a, s') ∧ R s' u := by
      intro α p a u hp
      cases p with
      | done q => obtain ⟨q1, q2⟩ := q; obtain ⟨g1, g2⟩ := hp; cases g1; exact ⟨q2, rfl, g2⟩
      | blocked => cases hp
      | diverged => cases hp
      | panicked => cases hp
    have e1 := hstep .messageBegin s t hR
    rw [h1] at e1
    obtain ⟨s1, g1, R1⟩ := done e1
    have e2 := RProg.run_sim hstep (Unmarshal env n y) s1 t1 R1
    rw [h2 n (Nat.le_refl _)] at e2
    obtain ⟨s2, g2, R2⟩ := done e2
    have e3 := hstep .messageEnd s2 t2 R2
    rw [h3] at e3
    obtain ⟨s3, g3, R3⟩ := done e3
    obtain ⟨s', g4, R4⟩ := ih R3 h4
    exact ⟨s', ⟨s1, s2, s3, g1, ⟨n, fun fuel hf => ((Unmarshal_le env n fuel hf y).run _ _).done g2⟩, g3, g4⟩, R4⟩

end GoThrift
