import Verif.Proof.Mismatch

/-!
# Wire values that differ only in undeclared fields are decoded alike
-/

namespace GoThrift

open Spec Spec.TVal

theorem Dec.andThen_done {α β : Type} {p : Dec α} {fail : α → β} {k : α → Dec β} {y : β × Option Err} (h : p.andThen fail k = .done y) :
    (∃ x, p = .done (x, none) ∧ k x = .done y) ∨ ∃ x e, p = .done (x, some e) ∧ y = (fail x, some e) := by
  cases p with
  | done r =>
    obtain ⟨x, e⟩ := r
    cases e with
    | none => exact .inl ⟨x, rfl, h⟩
    | some e => cases h; exact .inr ⟨x, e, rfl, rfl⟩
  | blocked => cases h
  | diverged => cases h
  | panicked => cases h

/-- Whatever decoding `tv` gives with `u`, decoding `tv'` gives with the family `u'`. -/
def Follows (u : GoVal → TVal → Dec GoVal) (u' : Nat → GoVal → TVal → Dec GoVal) (tv tv' : TVal) : Prop := ∀ old x, u old tv = .done x → ∃ m, u' m old tv' = .done x

theorem decLoop_follows {u : GoVal → TVal → Dec GoVal} {u' : Nat → GoVal → TVal → Dec GoVal} (hm : Mono u') {zero : GoVal} {grow : Nat → Nat} (tvs tvs' : List TVal)
    (hlen : tvs.length = tvs'.length) (h : ∀ (i : Nat) tv tv', tvs[i]? = some tv → tvs'[i]? = some tv' → Follows u u' tv tv') (done rest : List GoVal) (mz : Bool)
    (x : (List GoVal × List GoVal) × Option Err) (hx : decLoop u zero grow tvs done rest mz = .done x) : ∃ m, decLoop (u' m) zero grow tvs' done rest mz = .done x := by
  induction tvs generalizing tvs' done rest mz with
  | nil =>
    cases tvs' with
    | nil => exact ⟨0, hx⟩
    | cons _ _ => cases hlen
  | cons tv tvs ih =>
    cases tvs' with
    | nil => cases hlen
    | cons tv' tvs' =>
      rw [decLoop] at hx
      cases hr : (if rest.isEmpty = true then List.replicate (max 1 (grow done.length - done.length)) zero else rest) with
      | nil => simp only [hr] at hx; exact ⟨0, by rw [decLoop]; simp only [hr]; exact hx⟩
      | cons r0 rest' =>
        simp only [hr] at hx
        rcases Dec.andThen_done hx with ⟨y, h1, h2⟩ | ⟨y, e, h1, h2⟩
        · obtain ⟨m1, h1⟩ := h 0 tv tv' rfl rfl _ _ h1
          obtain ⟨m2, h2⟩ := ih tvs' (by simpa using hlen) (fun i => h (i + 1)) _ _ _ h2
          refine ⟨max m1 m2, ?_⟩
          rw [decLoop]
          simp only [hr]
          rw [hm.done (Nat.le_max_left _ _) h1]
          exact (decLoop_le (fun v tv => hm m2 _ v tv (Nat.le_max_right _ _)) _ _ _ _ _ _).done h2
        · obtain ⟨m1, h1⟩ := h 0 tv tv' rfl rfl _ _ h1
          refine ⟨m1, ?_⟩
          rw [decLoop]
          simp only [hr]
          rw [h1, h2]
          rfl

theorem decEntries_follows {uk uv : GoVal → TVal → Dec GoVal} {uk' uv' : Nat → GoVal → TVal → Dec GoVal} (hmk : Mono uk') (hmv : Mono uv') {zk zv : GoVal} (tes tes' : List (TVal × TVal))
    (hlen : tes.length = tes'.length) (hk : ∀ (i : Nat) te te', tes[i]? = some te → tes'[i]? = some te' → Follows uk uk' te.1 te'.1)
    (hv : ∀ (i : Nat) te te', tes[i]? = some te → tes'[i]? = some te' → Follows uv uv' te.2 te'.2) (es : List (GoVal × GoVal)) (x : List (GoVal × GoVal) × Option Err)
    (hx : decEntries uk uv zk zv tes es = .done x) : ∃ m, decEntries (uk' m) (uv' m) zk zv tes' es = .done x := by
  induction tes generalizing tes' es with
  | nil =>
    cases tes' with
    | nil => exact ⟨0, hx⟩
    | cons _ _ => cases hlen
  | cons te tes ih =>
    cases tes' with
    | nil => cases hlen
    | cons te' tes' =>
      rw [decEntries] at hx
      rcases Dec.andThen_done hx with ⟨y, h1, hx⟩ | ⟨y, e, h1, h2⟩
      · obtain ⟨m1, h1⟩ := hk 0 te te' rfl rfl _ _ h1
        rcases Dec.andThen_done hx with ⟨v, h2, hx⟩ | ⟨v, e, h2, h3⟩
        · obtain ⟨m2, h2⟩ := hv 0 te te' rfl rfl _ _ h2
          obtain ⟨m3, h3⟩ := ih tes' (by simpa using hlen) (fun i => hk (i + 1)) (fun i => hv (i + 1)) _ hx
          refine ⟨max (max m1 m2) m3, ?_⟩
          rw [decEntries, hmk.done (show m1 ≤ _ by omega) h1, Dec.andThen_none, hmv.done (show m2 ≤ max (max m1 m2) m3 by omega) h2]
          exact (decEntries_le (fun v tv => hmk m3 _ v tv (by omega)) (fun v tv => hmv m3 _ v tv (by omega)) _ _ _ _).done h3
        · obtain ⟨m2, h2⟩ := hv 0 te te' rfl rfl _ _ h2
          refine ⟨max m1 m2, ?_⟩
          rw [decEntries, hmk.done (Nat.le_max_left m1 m2) h1, Dec.andThen_none, hmv.done (Nat.le_max_right m1 m2) h2, h3]
          rfl
      · obtain ⟨m1, h1⟩ := hk 0 te te' rfl rfl _ _ h1
        exact ⟨m1, by rw [decEntries, h1, h2]; rfl⟩

theorem Spec.Alike.ty {env : Env} {t : TypeId} {tv tv' : TVal} (h : Alike env t tv tv') : tv.ty = tv'.ty := by
  have key : ∀ (h : Alike env t tv tv'), tv.ty = tv'.ty := by
    apply Alike.rec (motive_1 := fun _ tv tv' _ => tv.ty = tv'.ty) (motive_2 := fun _ _ _ _ => True)
    case ptr => intros; assumption
    all_goals intros; first | rfl | trivial
  exact key h

theorem Table.byID_declares {env : Env} {fuel : Nat} {t : TypeId} {fs : List SField} (h : Table env fuel t fs) {id : BitVec 16} {sf : SField} (hb : GoThrift.byID fs id = some sf) :
    ∃ d, (env.fields t)[sf.index]? = some d ∧ Declares env d id sf.required ∧ lookupArshaler env fuel d.typ = .done sf.a := by
  obtain ⟨hsf, rfl⟩ := byID_some hb
  obtain ⟨d, d1, d2, d3, d4, d5⟩ := h.mem sf hsf
  exact ⟨d, d1, d2, d5⟩

theorem Table.byID_undeclared {env : Env} {fuel : Nat} {t : TypeId} {fs : List SField} (h : Table env fuel t fs) {id : BitVec 16}
    (hu : ∀ f ∈ env.fields t, ∀ required, ¬ Declares env f id required) : GoThrift.byID fs id = none := by
  cases hb : GoThrift.byID fs id with
  | none => rfl
  | some sf =>
    obtain ⟨d, h1, h2, _⟩ := h.byID_declares hb
    exact absurd h2 (hu d (List.mem_of_getElem? h1) _)

theorem alike_follows_both (env : Env) (fuel : Nat) :
    (∀ n t a tv tv', lookupArshaler env n t = .done a → Alike env t tv tv' → Follows (fun v tv => dec env fuel a v tv) (fun m v tv => dec env m a v tv) tv tv') ∧
    (∀ n t fs tfs tfs' vs x, Table env n t fs → AlikeFields env (env.fields t) tfs tfs' → decFields env fuel t fs vs tfs = .done x → ∃ m, decFields env m t fs vs tfs' = .done x) := by
  induction fuel with
  | zero => exact ⟨fun n t a tv tv' _ _ old x h => (by simp only [dec] at h; cases h), fun n t fs tfs tfs' vs x _ _ h => (by simp only [decFields] at h; cases h)⟩
  | succ fuel ih =>
    constructor
    · intro n t a tv tv' hl ha old x hx
      dsimp only at hx ⊢
      cases n with
      | zero => cases hl
      | succ n =>
      have hc := lookup_cases hl
      cases ha with
      | refl => exact ⟨_, hx⟩
      | ptr hk ha =>
        rw [hk] at hc
        obtain ⟨ea, hle, rfl⟩ := hc
        rw [dec] at hx
        cases hd : old.deref? (env.zero ea.typ) with
        | none => rw [hd] at hx; cases hx
        | some v0 =>
          rw [hd] at hx
          dsimp only at hx
          rcases Dec.andThen_done hx with ⟨y, h1, h2⟩ | ⟨y, e, h1, h2⟩
          · obtain ⟨m, h1⟩ := ih.1 n _ ea _ _ hle ha _ _ h1
            dsimp only at h1
            exact ⟨m + 1, by rw [dec, hd]; dsimp only; rw [h1]; exact h2⟩
          · obtain ⟨m, h1⟩ := ih.1 n _ ea _ _ hle ha _ _ h1
            dsimp only at h1
            exact ⟨m + 1, by rw [dec, hd]; dsimp only; rw [h1, h2]; rfl⟩
      | @set _ e w tvs tvs' hk hs hlen hall =>
        rw [hk] at hc
        rcases hc with ⟨hb, _⟩ | ⟨hb, ea, hle, rfl⟩
        · simp [GoType.asBytes, hs] at hb
        · rw [hs] at hx ⊢
          simp only [dec, decSeq] at hx ⊢
          cases ho : old.elems?.isNone with
          | true => rw [ho] at hx; cases hx
          | false =>
            simp only [ho, Bool.false_eq_true, if_false] at hx ⊢
            by_cases hne : tvs = []
            · subst hne
              have : tvs' = [] := List.length_eq_zero_iff.1 hlen.symm
              subst this
              exact ⟨1, by rw [dec, decSeq]; simp only [ho, Bool.false_eq_true, if_false]; exact hx⟩
            · have hne' : tvs' ≠ [] := fun h => hne (List.length_eq_zero_iff.1 (by rw [hlen, h]; rfl))
              rw [if_pos hne] at hx
              rcases Dec.andThen_done hx with ⟨y, h1, h2⟩ | ⟨y, er, h1, h2⟩
              all_goals
                obtain ⟨m, h1⟩ := decLoop_follows (mono_dec env ea) tvs tvs' hlen (fun i tv tv' hi hi' => ih.1 n e ea tv tv' hle (hall i tv tv' hi hi')) _ _ _ _ h1
                refine ⟨m + 1, ?_⟩
                rw [dec, decSeq]
                simp only [ho, Bool.false_eq_true, if_false]
                rw [if_pos hne', h1]
                first | exact h2 | (rw [h2]; rfl)
      | @list _ e w tvs tvs' hk hb hlen hall =>
        rw [hk] at hc
        rcases hc with ⟨hb', _⟩ | ⟨_, ea, hle, rfl⟩
        · rw [hb] at hb'; cases hb'
        · cases hs : (env.type t).isSet with
          | true =>
            refine ⟨1, ?_⟩
            rw [hs] at hx
            simp only [dec, decSeq] at hx ⊢
            exact hx
          | false =>
          rw [hs] at hx
          simp only [dec, decSeq] at hx ⊢
          cases ho : old.elems?.isNone with
          | true => rw [ho] at hx; cases hx
          | false =>
            simp only [ho, Bool.false_eq_true, if_false] at hx ⊢
            by_cases hne : tvs = []
            · subst hne
              have : tvs' = [] := List.length_eq_zero_iff.1 hlen.symm
              subst this
              exact ⟨1, by rw [dec, decSeq]; simp only [ho, Bool.false_eq_true, if_false]; exact hx⟩
            · have hne' : tvs' ≠ [] := fun h => hne (List.length_eq_zero_iff.1 (by rw [hlen, h]; rfl))
              rw [if_pos hne] at hx
              rcases Dec.andThen_done hx with ⟨y, h1, h2⟩ | ⟨y, er, h1, h2⟩
              all_goals
                obtain ⟨m, h1⟩ := decLoop_follows (mono_dec env ea) tvs tvs' hlen (fun i tv tv' hi hi' => ih.1 n e ea tv tv' hle (hall i tv tv' hi hi')) _ _ _ _ h1
                refine ⟨m + 1, ?_⟩
                rw [dec, decSeq]
                simp only [ho, Bool.false_eq_true, if_false]
                rw [if_pos hne', h1]
                first | exact h2 | (rw [h2]; rfl)
      | @map _ k e kw ew tes tes' hk hlen hkeys hvals =>
        rw [hk] at hc
        obtain ⟨ka, ea, hlk, hle, rfl⟩ := hc
        simp only [dec, decMap] at hx
        cases ho : old.entries? with
        | none => rw [ho] at hx; cases hx
        | some es =>
          simp only [ho] at hx
          by_cases hne : tes = []
          · subst hne
            have : tes' = [] := List.length_eq_zero_iff.1 hlen.symm
            subst this
            exact ⟨1, by rw [dec, decMap]; simp only [ho]; exact hx⟩
          · have hne' : tes' ≠ [] := fun h => hne (List.length_eq_zero_iff.1 (by rw [hlen, h]; rfl))
            rw [if_pos hne] at hx
            rcases Dec.andThen_done hx with ⟨y, h1, h2⟩ | ⟨y, er, h1, h2⟩
            all_goals
              obtain ⟨m, h1⟩ := decEntries_follows (mono_dec env ka) (mono_dec env ea) tes tes' hlen (fun i te te' hi hi' => ih.1 n k ka _ _ hlk (hkeys i te te' hi hi'))
                (fun i te te' hi hi' => ih.1 n e ea _ _ hle (hvals i te te' hi hi')) _ _ h1
              refine ⟨m + 1, ?_⟩
              rw [dec, decMap]
              simp only [ho]
              rw [if_pos hne', h1]
              first | exact h2 | (rw [h2]; rfl)
      | @struct _ fs nm nm' tfs tfs' hk ha =>
        rw [hk] at hc
        subst hc
        rw [dec] at hx
        cases hmk : makeStructFields env fuel t with
        | done r =>
          rw [hmk] at hx
          cases r with
          | error e => exact ⟨fuel + 1, by rw [dec, hmk]; exact hx⟩
          | ok sfs =>
            simp only [Out.elim] at hx
            cases ho : old.fields? with
            | none => rw [ho] at hx; cases hx
            | some vs =>
              simp only [ho] at hx
              obtain ⟨m, h1⟩ := ih.2 fuel t sfs tfs tfs' vs x (makeStructFields_table _ _ _ _ hmk) (fields_struct hk ▸ ha) hx
              refine ⟨max fuel m + 1, ?_⟩
              rw [dec, (makeStructFields_le env _ _ (Nat.le_max_left fuel m) t).done hmk]
              simp only [Out.elim, ho]
              exact ((dec_le_both env m _ (Nat.le_max_right fuel m)).2 _ _ _ _).done h1
        | blocked => rw [hmk] at hx; cases hx
        | diverged => rw [hmk] at hx; cases hx
        | panicked => rw [hmk] at hx; cases hx
    · intro n t fs tfs tfs' vs x htab ha hx
      induction tfs' generalizing tfs with
      | nil =>
        cases ha with
        | nil => exact ⟨_, hx⟩
        | left nm id v hu ha =>
          rw [decFields, htab.byID_undeclared hu] at hx
          exact ih.2 n t fs _ [] vs x htab ha hx
      | cons tf' tfs' ih' =>
        cases ha with
        | both nm nm' id hall ha =>
          rename_i tfs v v'
          rw [decFields] at hx
          cases hb : byID fs id with
          | none =>
            rw [hb] at hx
            obtain ⟨m, h1⟩ := ih.2 n t fs _ tfs' vs x htab ha hx
            exact ⟨m + 1, by rw [decFields, hb]; exact h1⟩
          | some sf =>
            rw [hb] at hx
            dsimp only at hx
            cases hv : vs[sf.index]? with
            | none => rw [hv] at hx; cases hx
            | some v0 =>
              rw [hv] at hx
              obtain ⟨d, d1, d2, d3⟩ := htab.byID_declares hb
              have hal := hall d (List.mem_of_getElem? d1) _ d2
              rcases Dec.andThen_done hx with ⟨y, h1, h2⟩ | ⟨y, e, h1, h2⟩
              · obtain ⟨m1, h1⟩ := ih.1 n d.typ sf.a v v' d3 hal _ _ h1
                obtain ⟨m2, h2⟩ := ih.2 n t fs tfs tfs' _ x htab ha h2
                refine ⟨max m1 m2 + 1, ?_⟩
                rw [decFields, hb]
                dsimp only at h1 ⊢
                rw [hv]
                dsimp only
                rw [(dec_le env (Nat.le_max_left m1 m2) _ _ _).done h1]
                exact ((dec_le_both env m2 _ (Nat.le_max_right m1 m2)).2 _ _ _ _).done h2
              · obtain ⟨m1, h1⟩ := ih.1 n d.typ sf.a v v' d3 hal _ _ h1
                refine ⟨m1 + 1, ?_⟩
                rw [decFields, hb]
                dsimp only at h1 ⊢
                rw [hv]
                dsimp only
                rw [h1, h2]
                rfl
        | left nm id v hu ha =>
          rw [decFields, htab.byID_undeclared hu] at hx
          exact ih.2 n t fs _ _ vs x htab ha hx
        | right nm id v hu ha =>
          obtain ⟨m, h1⟩ := ih' tfs ha hx
          exact ⟨m + 1, by rw [decFields, htab.byID_undeclared hu]; exact h1⟩

end GoThrift
