import Verif.Proof.Discipline
import Verif.Spec.Holds
import Verif.Proof.Table

/-!
# A reader that answers every call that the wire types ask for holds a value
-/

namespace GoThrift

open Spec Spec.TVal

/-- `n` calls, all allowed and all successful, that lead from what is to be read, and the reader's state, to what is to be read then, and the state then. -/
inductive Path {S : Type} (r : Rdr S) : Nat → List Want → S → List Want → S → Prop
  | done {l s} : Path r 0 l s l s
  | step {n l s o a s1 l' s'} : allowed l o = true → Gives r o s a s1 → Path r n (afterCall o a l.tail) s1 l' s' → Path r (n + 1) l s l' s'

/-- After a failed call no call is made: a run that ends with something left to be read made no call that failed. -/
theorem run_path {α S : Type} {Q : α → List Want → Prop} {p : RProg α} (r : Rdr S) {l : List Want} (h : Wp watch Q p l) (s s' : S) (a : α)
    (hr : p.run r s = .done (a, s')) : ∃ l', Q a l' ∧ (l' ≠ [] → ∃ n, Path r n l s l' s') := by
  induction p generalizing l s with
  | ret b => cases hr; exact ⟨l, h, fun _ => ⟨0, .done⟩⟩
  | diverge => cases hr
  | panic => cases hr
  | call o k ih =>
    rw [RProg.run] at hr
    have hpre : allowed l o = true := h.1
    cases hs : r.step o s with
    | done x =>
      rw [hs] at hr
      simp only [Out.bind_done] at hr
      cases x with
      | mk x s1 =>
        cases x with
        | ok b =>
          obtain ⟨l', hq, hp⟩ := ih _ (h.2.1 b trivial) s1 hr
          exact ⟨l', hq, fun hl => (hp hl).elim fun n hn => ⟨n + 1, .step hpre hs hn⟩⟩
        | error e =>
          obtain ⟨l', hq, hp⟩ := ih _ (h.2.2 e) s1 hr
          refine ⟨l', hq, fun hl => ?_⟩
          obtain ⟨n, hn⟩ := hp hl
          cases hn with
          | done => exact absurd rfl hl
          | step ha => cases ha
    | blocked => rw [hs] at hr; cases hr
    | diverged => rw [hs] at hr; cases hr
    | panicked => rw [hs] at hr; cases hr

/-- What is needed to know of a reader: the three ways of reading a string agree, and so do the two of reading a UUID; sizes are at most `lim`. -/
structure Coherent {S : Type} (lim : Nat) (r : Rdr S) (ok : S → Prop) : Prop where
  keeps : ∀ {o s a s'}, ok s → Gives r o s a s' → ok s'
  string : ∀ {s v s'}, ok s → Gives r .string s v s' → v.length ≤ lim ∧ (∀ buf, Gives r (.bytes buf) s (buf ++ v) s') ∧ Gives r .skipString s () s'
  bytes : ∀ {s buf v s'}, ok s → Gives r (.bytes buf) s v s' → ∃ v', Gives r .string s v' s'
  skipString : ∀ {s a s'}, ok s → Gives r .skipString s a s' → ∃ v', Gives r .string s v' s'
  uuid : ∀ {s v s'}, ok s → Gives r .uuid s v s' → v.length = 16 ∧ Gives r .skipUUID s () s'
  skipUUID : ∀ {s a s'}, ok s → Gives r .skipUUID s a s' → ∃ v', Gives r .uuid s v' s'
  map : ∀ {s h s'}, ok s → Gives r .mapBegin s h s' → loopCount h.size ≤ lim
  set : ∀ {s h s'}, ok s → Gives r .setBegin s h s' → loopCount h.size ≤ lim
  list : ∀ {s h s'}, ok s → Gives r .listBegin s h s' → loopCount h.size ≤ lim

namespace Path

variable {S : Type} {r : Rdr S} {lim : Nat} {ok : S → Prop}

/-- A path that gets to the end of a value consists of one that reads the value, and the rest. -/
def Splits (r : Rdr S) (lim : Nat) (ok : S → Prop) (n : Nat) : Prop :=
  ∀ t l s l' s', l'.length ≤ l.length → ok s → Path r n (.value t :: l) s l' s' → ∃ tv s1 m, m < n ∧ tv.ty = t ∧ Holds r tv s s1 ∧ WF lim tv ∧ ok s1 ∧ Path r m l s1 l' s'

theorem elems (N : Nat) (ih : ∀ m, m ≤ N → Splits r lim ok m) (t : WType) (k : Nat) : ∀ n l s l' s', n ≤ N → l'.length ≤ l.length → ok s → Path r n (List.replicate k (.value t) ++ l) s l' s' →
    ∃ es s1 m, m ≤ n ∧ es.length = k ∧ HoldsElems r t es s s1 ∧ WFElems lim t es ∧ ok s1 ∧ Path r m l s1 l' s' := by
  induction k with
  | zero => intro n l s l' s' hn _ hok hp; exact ⟨[], s, n, Nat.le_refl _, rfl, rfl, trivial, hok, hp⟩
  | succ k ihk =>
    intro n l s l' s' hn hl hok hp
    rw [List.replicate_succ, List.cons_append] at hp
    obtain ⟨tv, s1, m, hm, h1, h2, h3, h4, h5⟩ := ih n hn _ _ _ _ _ (by rw [List.length_append]; omega) hok hp
    obtain ⟨es, s2, m', hm', h6, h7, h8, h9, h10⟩ := ihk m l s1 l' s' (by omega) hl h4 h5
    exact ⟨tv :: es, s2, m', by omega, by rw [List.length_cons, h6], ⟨h1, s1, h2, h7⟩, ⟨h1, h3, h8⟩, h9, h10⟩

theorem entries (N : Nat) (ih : ∀ m, m ≤ N → Splits r lim ok m) (kt vt : WType) (k : Nat) : ∀ n l s l' s', n ≤ N → l'.length ≤ l.length → ok s →
    Path r n ((List.replicate k [Want.value kt, .value vt]).flatten ++ l) s l' s' →
    ∃ es s1 m, m ≤ n ∧ es.length = k ∧ HoldsEntries r kt vt es s s1 ∧ WFEntries lim kt vt es ∧ ok s1 ∧ Path r m l s1 l' s' := by
  induction k with
  | zero => intro n l s l' s' hn _ hok hp; exact ⟨[], s, n, Nat.le_refl _, rfl, rfl, trivial, hok, hp⟩
  | succ k ihk =>
    intro n l s l' s' hn hl hok hp
    rw [List.replicate_succ, List.flatten_cons, List.append_assoc] at hp
    obtain ⟨kv, s1, m, hm, h1, h2, h3, h4, h5⟩ := ih n hn _ _ _ _ _ (by simp; omega) hok hp
    obtain ⟨tv, s2, m2, hm2, g1, g2, g3, g4, g5⟩ := ih m (by omega) _ _ _ _ _ (by simp; omega) h4 h5
    obtain ⟨es, s3, m', hm', h6, h7, h8, h9, h10⟩ := ihk m2 l s2 l' s' (by omega) hl g4 g5
    exact ⟨(kv, tv) :: es, s3, m', by omega, by rw [List.length_cons, h6], ⟨h1, g1, s1, s2, h2, g2, h7⟩, ⟨h1, g1, h3, g3, h8⟩, h9, h10⟩

theorem fields (hc : Coherent lim r ok) (N : Nat) (ih : ∀ m, m ≤ N → Splits r lim ok m) : ∀ n l s l' s', n ≤ N → l'.length ≤ l.length → ok s → Path r n (.fieldHeader :: l) s l' s' →
    ∃ fs s1 s2 m, m < n ∧ HoldsFields r fs s s1 ∧ WFFields lim fs ∧ Gives r .structEnd s1 () s2 ∧ ok s2 ∧ Path r m l s2 l' s' := by
  intro n
  induction n using Nat.strongRecOn with
  | _ n ihn =>
    intro l s l' s' hn hl hok hp
    cases hp with
    | done => simp only [List.length_cons] at hl; omega
    | @step n _ _ o a s1 _ _ ha hg hp =>
      simp only [allowed] at ha
      obtain rfl : o = .fieldBegin := by simpa using ha
      obtain ⟨nm, ty, id⟩ := a
      simp only [afterCall, List.tail_cons] at hp
      have hok1 := hc.keeps hok hg
      split at hp
      · rename_i hs
        cases hp with
        | done => simp only [List.length_cons] at hl; omega
        | @step n _ _ o b s2 _ _ ha2 hg2 hp2 =>
          simp only [allowed] at ha2
          obtain rfl : o = .structEnd := by simpa using ha2
          exact ⟨[], s1, s2, n, by omega, ⟨_, hg, hs⟩, trivial, hg2, hc.keeps hok1 hg2, hp2⟩
      · obtain ⟨tv, s2, m, hm, h1, h2, h3, h4, h5⟩ := ih n (by omega) _ _ _ _ _ (by simp only [List.length_cons]; omega) hok1 hp
        cases h5 with
        | done => simp only [List.length_cons] at hl; omega
        | @step n2 _ _ o b s3 _ _ ha2 hg2 hp2 =>
          simp only [allowed] at ha2
          obtain rfl : o = .fieldEnd := by simpa using ha2
          obtain ⟨fs, s4, s5, m5, g1, g2, g3, g4, g5, g6⟩ := ihn n2 (by omega) l s3 l' s' (by omega) hl (hc.keeps h4 hg2) hp2
          refine ⟨(nm, id, tv) :: fs, s4, s5, m5, by omega, ⟨nm, s1, s2, s3, ?_, h2, hg2, g2⟩, ⟨h3, g3⟩, g4, g5, g6⟩
          rw [h1]; exact hg

theorem value_end {n : Nat} {l : List Want} {s : S} {l' : List Want} {s' : S} {e : ROp} (hl : l'.length ≤ l.length) (hp : Path r n (.exactly e :: l) s l' s') :
    ∃ a s1 m, m < n ∧ Gives r e s a s1 ∧ Path r m (afterCall e a l) s1 l' s' := by
  cases hp with
  | done => simp only [List.length_cons] at hl; omega
  | @step n _ _ o b s1 _ _ ha hg hp =>
    simp only [allowed] at ha
    obtain rfl : o = e := by simpa using ha
    exact ⟨b, s1, n, by omega, hg, hp⟩

theorem splits (hc : Coherent lim r ok) (n : Nat) : Splits r lim ok n := by
  induction n using Nat.strongRecOn with
  | _ n ih =>
    intro t l s l' s' hl hok hp
    cases hp with
    | done => simp only [List.length_cons] at hl; omega
    | @step n _ _ o a s1 _ _ ha hg hp =>
      have hok1 := hc.keeps hok hg
      have ih' : ∀ m, m ≤ n → Splits r lim ok m := fun m hm => ih m (by omega)
      cases o <;> simp only [allowed, readsValue, Bool.false_eq_true, beq_iff_eq] at ha <;> subst ha <;> simp only [afterCall, List.tail_cons] at hp
      case structBegin =>
        obtain ⟨fs, s2, s3, m, h1, h2, h3, h4, h5, h6⟩ := fields hc n ih' n l s1 l' s' (Nat.le_refl _) hl hok1 hp
        exact ⟨.struct [] fs, s3, m, by omega, rfl, ⟨a, s1, s2, hg, h2, h4⟩, h3, h5, h6⟩
      case mapBegin =>
        obtain ⟨es, s2, m, h1, h2, h3, h4, h5, h6⟩ := entries n ih' _ _ _ n _ s1 l' s' (Nat.le_refl _) (by simp only [List.length_cons]; omega) hok1 hp
        obtain ⟨b, s3, m3, hm3, g1, g2⟩ := value_end hl h6
        exact ⟨.map a.key a.value es, s3, m3, by omega, rfl, ⟨a, s1, s2, hg, h2.symm, fun _ => ⟨rfl, rfl⟩, h3, g1⟩, ⟨h2 ▸ hc.map hok hg, h4⟩, hc.keeps h5 g1, g2⟩
      case setBegin =>
        obtain ⟨es, s2, m, h1, h2, h3, h4, h5, h6⟩ := elems n ih' _ _ n _ s1 l' s' (Nat.le_refl _) (by simp only [List.length_cons]; omega) hok1 hp
        obtain ⟨b, s3, m3, hm3, g1, g2⟩ := value_end hl h6
        exact ⟨.set a.element es, s3, m3, by omega, rfl, ⟨a, s1, s2, hg, h2.symm, rfl, h3, g1⟩, ⟨h2 ▸ hc.set hok hg, h4⟩, hc.keeps h5 g1, g2⟩
      case listBegin =>
        obtain ⟨es, s2, m, h1, h2, h3, h4, h5, h6⟩ := elems n ih' _ _ n _ s1 l' s' (Nat.le_refl _) (by simp only [List.length_cons]; omega) hok1 hp
        obtain ⟨b, s3, m3, hm3, g1, g2⟩ := value_end hl h6
        exact ⟨.list a.element es, s3, m3, by omega, rfl, ⟨a, s1, s2, hg, h2.symm, rfl, h3, g1⟩, ⟨h2 ▸ hc.list hok hg, h4⟩, hc.keeps h5 g1, g2⟩
      case bool => exact ⟨.bool a, s1, n, by omega, rfl, hg, trivial, hok1, hp⟩
      case byte => exact ⟨.byte a, s1, n, by omega, rfl, hg, trivial, hok1, hp⟩
      case double => exact ⟨.double a, s1, n, by omega, rfl, hg, trivial, hok1, hp⟩
      case i16 => exact ⟨.i16 a, s1, n, by omega, rfl, hg, trivial, hok1, hp⟩
      case i32 => exact ⟨.i32 a, s1, n, by omega, rfl, hg, trivial, hok1, hp⟩
      case i64 => exact ⟨.i64 a, s1, n, by omega, rfl, hg, trivial, hok1, hp⟩
      case string => exact ⟨.str false a, s1, n, by omega, rfl, ⟨hg, (hc.string hok hg).2⟩, (hc.string hok hg).1, hok1, hp⟩
      case bytes buf =>
        obtain ⟨v, hv⟩ := hc.bytes hok hg
        exact ⟨.str false v, s1, n, by omega, rfl, ⟨hv, (hc.string hok hv).2⟩, (hc.string hok hv).1, hok1, hp⟩
      case skipString =>
        obtain ⟨v, hv⟩ := hc.skipString hok hg
        exact ⟨.str false v, s1, n, by omega, rfl, ⟨hv, (hc.string hok hv).2⟩, (hc.string hok hv).1, hok1, hp⟩
      case uuid => exact ⟨.uuid a, s1, n, by omega, rfl, ⟨hg, (hc.uuid hok hg).2⟩, (hc.uuid hok hg).1, hok1, hp⟩
      case skipUUID =>
        obtain ⟨v, hv⟩ := hc.skipUUID hok hg
        exact ⟨.uuid v, s1, n, by omega, rfl, ⟨hv, (hc.uuid hok hv).2⟩, (hc.uuid hok hv).1, hok1, hp⟩

end Path

/-- A run that reads a value of type `t` without error, by the monitor's account, has read one. (What is to be read afterwards is chosen such that no path leads from it back to it.) -/
theorem Coherent.of_run {α S : Type} {lim : Nat} {r : Rdr S} {ok : S → Prop} (hc : Coherent lim r ok) {p : RProg α} {t : WType} {Q : α → List Want → Prop}
    (hw : Wp watch Q p [.value t, .exactly .messageEnd]) {a : α} (hq : ∀ l', Q a l' → l' = [.exactly .messageEnd]) {s s' : S} (hs : ok s) (hr : p.run r s = .done (a, s')) :
    ∃ tv, tv.ty = t ∧ Holds r tv s s' ∧ WF lim tv := by
  obtain ⟨l', h1, h2⟩ := run_path r hw s s' a hr
  obtain rfl := hq l' h1
  obtain ⟨n, hn⟩ := h2 (by simp)
  obtain ⟨tv, s1, m, _, h3, h4, h5, _, h6⟩ := Path.splits hc n _ _ _ _ _ (Nat.le_refl _) hs hn
  cases h6 with
  | done => exact ⟨tv, h3, h4, h5⟩
  | @step n _ _ o b s2 _ _ ha _ hp =>
    simp only [allowed] at ha
    obtain rfl : o = .messageEnd := by simpa using ha
    cases hp with
    | step ha => cases ha

/-- Skip returns nil only if there is a value of the type. -/
theorem Coherent.skip {S : Type} {lim : Nat} {r : Rdr S} {ok : S → Prop} (hc : Coherent lim r ok) {t : WType} {s s' : S} (hs : ok s) (h : SkipReturns r t s none s') :
    ∃ tv, tv.ty = t ∧ Holds r tv s s' ∧ WF lim tv := by
  obtain ⟨n, h⟩ := h
  exact hc.of_run ((wp_skip n).1 t _) (fun l' hl => hl rfl) hs (h n (Nat.le_refl _))

/-- Unmarshal returns nil only if there is a value of the wire type of the Go type. -/
theorem Coherent.unmarshal {S : Type} {lim : Nat} {r : Rdr S} {ok : S → Prop} (hc : Coherent lim r ok) {env : Env} {p t : TypeId} (hp : (env.type p).kind = .ptr t) {w : WType}
    (hw : WireTypeOf env t w) {old : GoVal} {x' : AnyVal} {s s' : S} (hs : ok s) (h : UnmarshalReturns env r (.val p (.ptr old)) s none x' s') :
    ∃ tv, tv.ty = w ∧ Holds r tv s s' ∧ WF lim tv := by
  obtain ⟨n, h⟩ := h
  have he : env.elem? p = some t := by simp [Env.elem?, hp]
  have hwp : Wp watch (Leaves [.exactly .messageEnd]) (Unmarshal env n (.val p (.ptr old))) [.value w, .exactly .messageEnd] := by
    simp only [Unmarshal, he, GoVal.pointee?]
    refine Wp.elim (.inr trivial) fun a ha => ?_
    rw [hw.lookup ha]
    exact Wp.andThen ((wp_unmarshal env n n).1 a old w _) (fun _ _ hg _ => hg rfl) fun _ _ _ _ h => by cases h
  exact hc.of_run hwp (fun l' hl => hl rfl) hs (h n (Nat.le_refl _))

end GoThrift
