import Verif.Proof.Memo
import Verif.Proof.Decode
import Verif.Proof.Top

/-!
# Unmarshal from a Reader that tells strings from byte slices

A Memo's Reader answers ReadString only where WriteString was called, and ReadBytes only where WriteBytes was. `HoldsS` is `Holds` for such Readers.
-/

namespace GoThrift

open Spec Spec.TVal

mutual
/-- As `Holds`, but strings are read with ReadString or ReadBytes, as they were written, and nothing is skipped. -/
def HoldsS {S : Type} (r : Rdr S) : TVal → S → S → Prop
  | .bool v, s, s' => Gives r .bool s v s'
  | .byte v, s, s' => Gives r .byte s v s'
  | .double v, s, s' => Gives r .double s v s'
  | .i16 v, s, s' => Gives r .i16 s v s'
  | .i32 v, s, s' => Gives r .i32 s v s'
  | .i64 v, s, s' => Gives r .i64 s v s'
  | .str false v, s, s' => Gives r .string s v s'
  | .str true v, s, s' => Gives r (.bytes []) s v s'
  | .uuid v, s, s' => Gives r .uuid s v s'
  | .struct _ fs, s, s' => ∃ n s1 s2, Gives r .structBegin s n s1 ∧ HoldsSFields r fs s1 s2 ∧ Gives r .structEnd s2 () s'
  | .map kt vt es, s, s' => ∃ h s1 s2, Gives r .mapBegin s h s1 ∧ loopCount h.size = es.length ∧ h.key = kt ∧ h.value = vt ∧ HoldsSEntries r kt vt es s1 s2 ∧ Gives r .mapEnd s2 () s'
  | .set et es, s, s' => ∃ h s1 s2, Gives r .setBegin s h s1 ∧ loopCount h.size = es.length ∧ h.element = et ∧ HoldsSElems r et es s1 s2 ∧ Gives r .setEnd s2 () s'
  | .list et es, s, s' => ∃ h s1 s2, Gives r .listBegin s h s1 ∧ loopCount h.size = es.length ∧ h.element = et ∧ HoldsSElems r et es s1 s2 ∧ Gives r .listEnd s2 () s'
/-- The fields and the stop header. -/
def HoldsSFields {S : Type} (r : Rdr S) : List (Bytes × BitVec 16 × TVal) → S → S → Prop
  | [], s, s' => ∃ h, Gives r .fieldBegin s h s' ∧ h.type = Ty.stop
  | (_, id, v) :: fs, s, s' => ∃ n s1 s2 s3, Gives r .fieldBegin s ⟨n, v.ty, id⟩ s1 ∧ HoldsS r v s1 s2 ∧ Gives r .fieldEnd s2 () s3 ∧ HoldsSFields r fs s3 s'
/-- Map entries. -/
def HoldsSEntries {S : Type} (r : Rdr S) (kt vt : WType) : List (TVal × TVal) → S → S → Prop
  | [], s, s' => s' = s
  | (k, v) :: es, s, s' => k.ty = kt ∧ v.ty = vt ∧ ∃ s1 s2, HoldsS r k s s1 ∧ HoldsS r v s1 s2 ∧ HoldsSEntries r kt vt es s2 s'
/-- List and set elements. -/
def HoldsSElems {S : Type} (r : Rdr S) (et : WType) : List TVal → S → S → Prop
  | [], s, s' => s' = s
  | v :: es, s, s' => v.ty = et ∧ ∃ s1, HoldsS r v s s1 ∧ HoldsSElems r et es s1 s'
end

section
variable {S : Type} {r : Rdr S}

/-! ## From answers -/

theorem answers_append {as bs : List Answer} {s s' : S} (h : Answers r (as ++ bs) s s') : ∃ s1, Answers r as s s1 ∧ Answers r bs s1 s' := by
  induction as generalizing s with
  | nil => exact ⟨s, rfl, h⟩
  | cons a as ih =>
    obtain ⟨s1, h1, h2⟩ := h
    obtain ⟨s2, h3, h4⟩ := ih h2
    exact ⟨s2, ⟨s1, h1, h3⟩, h4⟩

theorem answers_one {a : Answer} {s s' : S} (h : Answers r [a] s s') : Gives r a.1 s a.2 s' := by
  obtain ⟨s1, h1, rfl⟩ := h
  exact h1

theorem loopCount_ofNat {n : Nat} (h : n ≤ 2 ^ 63 - 1) : loopCount (BitVec.ofNat 64 n) = n := by
  rw [loopCount, BitVec.toInt_eq_toNat_of_lt (by simp; omega)]
  simp
  omega

/-- A Reader that gives back what the calls for a value have put holds the value. -/
theorem holdsS_answers (tv : TVal) (hwf : WF (2 ^ 63 - 1) tv) (s s' : S) (h : Answers r (takeAll (calls tv)) s s') : HoldsS r tv s s' := by
  induction tv using TVal.ind generalizing s s' with
  | hbool v => exact answers_one h
  | hbyte v => exact answers_one h
  | hdouble v => exact answers_one h
  | hi16 v => exact answers_one h
  | hi32 v => exact answers_one h
  | hi64 v => exact answers_one h
  | hstr raw v => cases raw <;> exact answers_one h
  | huuid v => exact answers_one h
  | hstruct n fs hall =>
    simp only [calls, takeAll, List.flatMap_append] at h
    obtain ⟨s3, h, h3⟩ := answers_append h
    obtain ⟨s1, h1, h2⟩ := answers_append h
    obtain ⟨s2, h4, h5⟩ : ∃ s2, Gives r .fieldBegin s3 ⟨[], Ty.stop, 0⟩ s2 ∧ Gives r .structEnd s2 () s' := by
      obtain ⟨s2, h4, s3, h5, h6⟩ := h3
      cases h6
      exact ⟨s2, h4, h5⟩
    have main : ∀ fs, (∀ f ∈ fs, WF (2 ^ 63 - 1) f.2.2 → ∀ s s', Answers r (takeAll (calls f.2.2)) s s' → HoldsS r f.2.2 s s') → WFFields (2 ^ 63 - 1) fs → ∀ s1,
        Answers r ((callsFields fs).flatMap takeBack) s1 s3 → HoldsSFields r fs s1 s2 := by
      intro fs
      induction fs with
      | nil => intro _ _ s1 h; cases h; exact ⟨_, h4, rfl⟩
      | cons f fs ih =>
        obtain ⟨fn, id, v⟩ := f
        intro hall hwf s1 h
        simp only [callsFields, List.flatMap_append] at h
        obtain ⟨s5, h, h8⟩ := answers_append h
        obtain ⟨s6, h, h9⟩ := answers_append h
        obtain ⟨s7, h10, h11⟩ := answers_append h
        simp only [HoldsSFields]
        exact ⟨fn, s7, s6, s5, answers_one h10, hall (fn, id, v) (by simp) hwf.1 _ _ h11, answers_one h9, ih (fun f hf => hall f (by simp [hf])) hwf.2 _ h8⟩
    simp only [HoldsS]
    exact ⟨n, s1, s2, answers_one h1, main fs hall hwf s1 h2, h5⟩
  | hmap kt vt es hall =>
    simp only [calls, takeAll, List.flatMap_append] at h
    obtain ⟨s3, h, h3⟩ := answers_append h
    obtain ⟨s1, h1, h2⟩ := answers_append h
    have main : ∀ es, (∀ e ∈ es, (WF (2 ^ 63 - 1) e.1 → ∀ s s', Answers r (takeAll (calls e.1)) s s' → HoldsS r e.1 s s') ∧
        (WF (2 ^ 63 - 1) e.2 → ∀ s s', Answers r (takeAll (calls e.2)) s s' → HoldsS r e.2 s s')) → WFEntries (2 ^ 63 - 1) kt vt es → ∀ s1,
        Answers r ((callsEntries es).flatMap takeBack) s1 s3 → HoldsSEntries r kt vt es s1 s3 := by
      intro es
      induction es with
      | nil => intro _ _ s1 h; exact h
      | cons e es ih =>
        obtain ⟨k, v⟩ := e
        intro hall hwf s1 h
        simp only [callsEntries, List.flatMap_append] at h
        obtain ⟨s5, h, h8⟩ := answers_append h
        obtain ⟨s6, h9, h10⟩ := answers_append h
        obtain ⟨w1, w2, w3, w4, w5⟩ := hwf
        simp only [HoldsSEntries]
        exact ⟨w1, w2, s6, s5, (hall (k, v) (by simp)).1 w3 _ _ h9, (hall (k, v) (by simp)).2 w4 _ _ h10, ih (fun e he => hall e (by simp [he])) w5 _ h8⟩
    simp only [HoldsS]
    exact ⟨_, s1, s3, answers_one h1, loopCount_ofNat hwf.1, rfl, rfl, main es hall hwf.2 s1 h2, answers_one h3⟩
  | hset et es hall =>
    simp only [calls, takeAll, List.flatMap_append] at h
    obtain ⟨s3, h, h3⟩ := answers_append h
    obtain ⟨s1, h1, h2⟩ := answers_append h
    simp only [HoldsS]
    exact ⟨_, s1, s3, answers_one h1, loopCount_ofNat hwf.1, rfl, elems et s3 es hall hwf.2 s1 h2, answers_one h3⟩
  | hlist et es hall =>
    simp only [calls, takeAll, List.flatMap_append] at h
    obtain ⟨s3, h, h3⟩ := answers_append h
    obtain ⟨s1, h1, h2⟩ := answers_append h
    simp only [HoldsS]
    exact ⟨_, s1, s3, answers_one h1, loopCount_ofNat hwf.1, rfl, elems et s3 es hall hwf.2 s1 h2, answers_one h3⟩
where
  elems (et : WType) (s3 : S) : ∀ es : List TVal, (∀ e ∈ es, WF (2 ^ 63 - 1) e → ∀ s s', Answers r (takeAll (calls e)) s s' → HoldsS r e s s') → WFElems (2 ^ 63 - 1) et es → ∀ s1,
      Answers r ((callsElems es).flatMap takeBack) s1 s3 → HoldsSElems r et es s1 s3 := by
    intro es
    induction es with
    | nil => intro _ _ s1 h; exact h
    | cons e es ih =>
      intro hall hwf s1 h
      simp only [callsElems, List.flatMap_append] at h
      obtain ⟨s5, h9, h8⟩ := answers_append h
      obtain ⟨w1, w2, w3⟩ := hwf
      simp only [HoldsSElems]
      exact ⟨w1, s5, hall e (by simp) w2 _ _ h9, ih (fun e he => hall e (by simp [he])) w3 _ h8⟩

/-! ## Values whose strings are of the type they land in -/

/-- Strings inside `tv` are marked as byte slices exactly where `t` has byte slices, and the types match. -/
inductive Marked (env : Env) : TypeId → TVal → Prop where
  | leaf {t : TypeId} {tv : TVal} : (match tv with | .bool _ | .byte _ | .double _ | .i16 _ | .i32 _ | .i64 _ => True | _ => False) → Marked env t tv
  | str {t : TypeId} {b : Bytes} : (env.type t).kind = .string → Marked env t (.str false b)
  | uuid {t : TypeId} {b : Bytes} : (env.type t).kind = .uuid → Marked env t (.uuid b)
  | bytes {t e : TypeId} {b : Bytes} : (env.type t).kind = .slice e → (env.type t).asBytes = true → Marked env t (.str true b)
  | ptr {t e : TypeId} {tv : TVal} : (env.type t).kind = .ptr e → Marked env e tv → Marked env t tv
  | set {t e : TypeId} {w : WType} {tvs : List TVal} : (env.type t).kind = .slice e → (env.type t).asBytes = false → (env.type t).isSet = true → (∀ x ∈ tvs, Marked env e x) → Marked env t (.set w tvs)
  | list {t e : TypeId} {w : WType} {tvs : List TVal} : (env.type t).kind = .slice e → (env.type t).asBytes = false → (env.type t).isSet = false → (∀ x ∈ tvs, Marked env e x) → Marked env t (.list w tvs)
  | map {t k e : TypeId} {kw ew : WType} {tes : List (TVal × TVal)} : (env.type t).kind = .map k e → (∀ x ∈ tes, Marked env k x.1) → (∀ x ∈ tes, Marked env e x.2) → Marked env t (.map kw ew tes)
  | struct {t : TypeId} {fs : List FieldDecl} {n : Bytes} {tfs : List (Bytes × BitVec 16 × TVal)} (decl : Bytes × BitVec 16 × TVal → FieldDecl) : (env.type t).kind = .struct fs →
      (∀ x ∈ tfs, decl x ∈ fs ∧ ∃ required, Declares env (decl x) x.2.1 required) → (∀ x ∈ tfs, Marked env (decl x).typ x.2.2) → Marked env t (.struct n tfs)

theorem Spec.Rep.marked {env : Env} {t : TypeId} {v : GoVal} {tv : TVal} (h : Rep env t v tv) : Marked env t tv := by
  have pick : ∀ {α β : Type} {as : List α} {bs : List β}, as.length = bs.length → ∀ a ∈ as, ∃ (i : Nat) (b : β), as[i]? = some a ∧ bs[i]? = some b := by
    intro α β as bs hl a ha
    obtain ⟨i, hi⟩ := List.mem_iff_getElem?.1 ha
    have : i < bs.length := by
      have := (List.getElem?_eq_some_iff.1 hi).1
      omega
    exact ⟨i, _, hi, List.getElem?_eq_getElem this⟩
  induction h with
  | leaf h => cases h <;> first | exact .leaf trivial | exact .str ‹_› | exact .uuid ‹_› | exact .bytes ‹_› ‹_›
  | ptr hk _ ih => exact .ptr hk ih
  | ptrNil hk _ ih => exact .ptr hk ih
  | @set t e w v tvs hk hs hv hw hlen h ih =>
    refine .set hk (by simp [GoType.asBytes, hs]) hs fun x hx => ?_
    obtain ⟨i, y, h1, h2⟩ := pick hlen x hx
    exact ih i y x h2 h1
  | @list t e w v tvs hk hs hb hv hw hlen h ih =>
    refine .list hk hb hs fun x hx => ?_
    obtain ⟨i, y, h1, h2⟩ := pick hlen x hx
    exact ih i y x h2 h1
  | @map t k e kw ew v tes hk hv hkw hew hlen h1 h2 ih1 ih2 =>
    refine .map hk (fun x hx => ?_) fun x hx => ?_
    all_goals obtain ⟨i, y, h1, h2⟩ := pick hlen x hx
    · exact ih1 i y x h2 h1
    · exact ih2 i y x h2 h1
  | @struct t fs vs tfs order hk hlen hfs hacc htag hnd hord hsort hlen' hname hrep ih =>
    have hex : ∀ x : Bytes × BitVec 16 × TVal, ∃ f : FieldDecl, x ∈ tfs → (f ∈ fs ∧ ∃ required, Declares env f x.2.1 required) ∧ Marked env f.typ x.2.2 := by
      intro x
      by_cases hx : x ∈ tfs
      · obtain ⟨j, i, h1, h2⟩ := pick hlen' x hx
        obtain ⟨f, v, h3, h4, _⟩ := (hord i).1 (List.mem_of_getElem? h2)
        exact ⟨f, fun _ => ⟨⟨List.mem_of_getElem? h3, (hname j i x f h2 h1 h3).2⟩, ih j i x f v h2 h1 h3 h4⟩⟩
      · exact ⟨⟨[], false, none, t⟩, fun h => absurd h hx⟩
    exact .struct (fun x => Classical.choose (hex x)) hk (fun x hx => (Classical.choose_spec (hex x) hx).1) fun x hx => (Classical.choose_spec (hex x) hx).2

/-! ## Unmarshal -/

theorem decLoop_strict {u : GoVal → UProg GoVal} {du : GoVal → TVal → Dec GoVal} (zero : GoVal) (grow : Nat → Nat) (et : WType) (es : List TVal)
    (hu : ∀ tv ∈ es, ∀ v (s s' : S), tv.ty = et → HoldsS r tv s s' → Matches ((u v).run r s) (du v tv) s')
    (done rest : List GoVal) (mz : Bool) (s s' : S) (h : HoldsSElems r et es s s') :
    Matches ((seqLoop u zero grow es.length done rest mz).run r s) (decLoop du zero grow es done rest mz) s' := by
  induction es generalizing done rest mz s with
  | nil => simp only [HoldsSElems] at h; subst h; exact .ret _ _
  | cons e es ih =>
    simp only [HoldsSElems] at h
    obtain ⟨ht, s1, h1, h2⟩ := h
    rw [List.length_cons, seqLoop, decLoop]
    generalize (if rest.isEmpty = true then List.replicate (max 1 (grow done.length - done.length)) zero else rest) = rest'
    cases rest' with
    | nil => rfl
    | cons v rest' => exact (hu e (by simp) _ s s1 ht h1).andThen _ fun v' => ih (fun tv htv => hu tv (by simp [htv])) _ _ _ s1 h2

theorem seqBody_strict (env : Env) (t et : TypeId) {u : WType → GoVal → UProg GoVal} {du : GoVal → TVal → Dec GoVal} (es : List TVal) (old : GoVal) (h : SetHeader)
    {fin : GoVal → UProg GoVal} (s1 s2 s' : S)
    (hu : ∀ tv ∈ es, ∀ v (s s' : S), tv.ty = h.element → HoldsS r tv s s' → Matches ((u h.element v).run r s) (du v tv) s')
    (hsize : loopCount h.size = es.length) (hes : HoldsSElems r h.element es s1 s2)
    (hfin : ∀ v, Matches ((fin v).run r s2) (.done (v, none)) s') :
    Matches ((seqBody env t et u old h fin).run r s1)
      (if es ≠ [] then (decLoop du (env.zero et) (env.grow t) es [] old.slots true).andThen (fun p => .slice p.1 p.2) fun p => .done (.slice p.1 p.2, none)
       else .done (old.cleared, none)) s' := by
  rw [seqBody]
  by_cases he : es = []
  · subst he
    simp only [HoldsSElems] at hes
    subst hes
    rw [if_neg (by rw [loopCount] at hsize; simp only [List.length_nil] at hsize; omega), if_neg (by simp)]
    exact hfin _
  · have : 0 < es.length := List.length_pos_iff.2 he
    rw [if_pos (by rw [loopCount] at hsize; omega), if_pos he, hsize]
    exact (decLoop_strict _ _ _ es hu _ _ _ s1 s2 hes).andThen _ fun p => hfin _

theorem decEntries_strict {uk : UProg GoVal} {uv : GoVal → UProg GoVal} {duk duv : GoVal → TVal → Dec GoVal} (zeroK zeroV : GoVal) (kt vt : WType)
    (tes : List (TVal × TVal))
    (hk : ∀ e ∈ tes, ∀ (s s' : S), e.1.ty = kt → HoldsS r e.1 s s' → Matches (uk.run r s) (duk zeroK e.1) s')
    (hv : ∀ e ∈ tes, ∀ v (s s' : S), e.2.ty = vt → HoldsS r e.2 s s' → Matches ((uv v).run r s) (duv v e.2) s')
    (es : List (GoVal × GoVal)) (s s' : S) (h : HoldsSEntries r kt vt tes s s') :
    Matches ((mapLoop uk uv zeroV tes.length es).run r s) (decEntries duk duv zeroK zeroV tes es) s' := by
  induction tes generalizing es s with
  | nil => simp only [HoldsSEntries] at h; subst h; exact .ret _ _
  | cons e tes ih =>
    obtain ⟨k, v⟩ := e
    simp only [HoldsSEntries] at h
    obtain ⟨h1, h2, s3, s4, h3, h4, h5⟩ := h
    rw [List.length_cons, mapLoop, decEntries]
    refine (hk (k, v) (by simp) s s3 h1 h3).andThen _ fun k' => ?_
    refine (hv (k, v) (by simp) _ s3 s4 h2 h4).andThen _ fun v' => ?_
    exact ih (fun e he => hk e (by simp [he])) (fun e he => hv e (by simp [he])) _ s4 h5

/-- With distinct ids, the field of the table for a declared id is the one declared. -/
theorem Table.byID_declared {env : Env} {fuel : Nat} {t : TypeId} {fs : List SField} (h : Table env fuel t fs) (hd : DistinctIds env t) {d : FieldDecl} (hm : d ∈ env.fields t) {id : BitVec 16}
    {required : Bool} (hdec : Declares env d id required) : ∃ sf, GoThrift.byID fs id = some sf ∧ lookupArshaler env fuel d.typ = .done sf.a := by
  cases hb : GoThrift.byID fs id with
  | none => exact absurd hdec (h.byID_none hb d hm required)
  | some sf =>
    obtain ⟨h1, rfl⟩ := byID_some hb
    obtain ⟨d', h2, h3, _, _, h4⟩ := h.mem sf h1
    obtain ⟨i, hi⟩ := List.mem_iff_getElem?.1 hm
    obtain rfl := hd _ _ d d' _ _ _ hi h2 hdec h3
    rw [hi] at h2
    cases h2
    exact ⟨sf, rfl, h4⟩

/-- Unmarshalling a scalar never skips. -/
theorem unmarshal_scalar (env : Env) (sk sk' fuel : Nat) (a : Arsh) (old : GoVal) {w : WType} (h1 : w ≠ Ty.struct) (h2 : w ≠ Ty.map) (h3 : w ≠ Ty.set) (h4 : w ≠ Ty.list) :
    unmarshal env sk fuel a old w = unmarshal env sk' fuel a old w := by
  induction fuel generalizing a old with
  | zero => rw [unmarshal, unmarshal]
  | succ fuel ih =>
    cases a with
    | leaf t l => rw [unmarshal, unmarshal]
    | struct t =>
      rw [unmarshal, unmarshal]
      congr 1
      funext r
      cases r with
      | error e => rfl
      | ok fs => dsimp only; rw [if_pos h1, if_pos h1]
    | map t ka ea => rw [unmarshal, unmarshal, unmarshalMap, unmarshalMap, if_pos h2, if_pos h2]
    | seq t isSet ea =>
      rw [unmarshal, unmarshal, unmarshalSeq, unmarshalSeq]
      cases isSet
      · simp only [Bool.false_eq_true, if_false]; rw [if_pos h4, if_pos h4]
      · simp only [if_true]; rw [if_pos h3, if_pos h3]
    | ptr t ea => rw [unmarshal, unmarshal]; simp only [ih]
    | invalid t => rw [unmarshal, unmarshal]

/-- Unmarshalling at a wire value does what `dec` says, also from a Reader that tells strings from byte slices, if these are where the type has them. -/
theorem unmarshal_strict (env : Env) (sk : Nat) (fuel : Nat) :
    (∀ n t a old tv (s s' : S), lookupArshaler env n t = .done a → Marked env t tv → (∀ t', Within env t' t → DistinctIds env t') → HoldsS r tv s s' →
      Matches ((unmarshal env sk fuel a old tv.ty).run r s) (dec env fuel a old tv) s') ∧
    (∀ n t fs vals tfs (s s1 s' : S) (decl : Bytes × BitVec 16 × TVal → FieldDecl), Table env n t fs → (∀ x ∈ tfs, decl x ∈ env.fields t ∧ ∃ required, Declares env (decl x) x.2.1 required) →
      (∀ x ∈ tfs, Marked env (decl x).typ x.2.2) → (∀ t', Within env t' t → DistinctIds env t') → HoldsSFields r tfs s s1 → Gives r .structEnd s1 () s' →
      Matches ((unmarshalFields env sk fuel t fs vals).run r s) (decFields env fuel t fs vals tfs) s') := by
  have part : ∀ {t e : TypeId}, (∀ t', Within env t' t → DistinctIds env t') → PartOf env e t → ∀ t', Within env t' e → DistinctIds env t' :=
    fun hd hp t' hw => hd t' (.step hw hp)
  induction fuel with
  | zero =>
    exact ⟨fun _ _ _ _ _ _ _ _ _ _ _ => by rw [unmarshal, dec]; rfl, fun _ _ _ _ _ _ _ _ _ _ _ _ _ _ _ => by rw [unmarshalFields, decFields]; rfl⟩
  | succ fuel ih =>
    obtain ⟨ih1, ih2⟩ := ih
    constructor
    · intro n t a old tv s s' hl hm hd h
      obtain ⟨n, hl⟩ := lookup_succ hl
      have hc := lookup_cases hl
      cases hm with
      | leaf h1 =>
        rw [unmarshal_scalar env sk 1 (fuel + 1) a old (by cases tv <;> first | exact h1.elim | (simp only [TVal.ty]; decide)) (by cases tv <;> first | exact h1.elim | (simp only [TVal.ty]; decide))
          (by cases tv <;> first | exact h1.elim | (simp only [TVal.ty]; decide)) (by cases tv <;> first | exact h1.elim | (simp only [TVal.ty]; decide))]
        refine unmarshal_holds env 1 (fuel + 1) a old tv s s' ?_ ?_
        · cases tv <;> first | exact Nat.le_refl 1 | exact h1.elim
        · cases tv <;> first | exact h1.elim | exact h
      | str hk =>
        rw [hk] at hc
        subst hc
        rw [unmarshal, dec, unmarshalLeaf, decLeaf, if_neg (fun hn => hn rfl), if_neg (fun hn => hn rfl)]
        rw [run_rcall (show Gives r .string s _ s' from h)]
        rfl
      | uuid hk =>
        rw [hk] at hc
        subst hc
        rw [unmarshal, dec, unmarshalLeaf, decLeaf, if_neg (fun hn => hn rfl), if_neg (fun hn => hn rfl)]
        rw [run_rcall (show Gives r .uuid s _ s' from h)]
        rfl
      | bytes hk hb =>
        rw [hk] at hc
        rcases hc with ⟨_, rfl⟩ | ⟨hb', _⟩
        · cases old with
          | bytes b =>
            rw [unmarshal, dec, unmarshalLeaf, decLeaf, if_neg (fun hn => hn rfl), if_neg (fun hn => hn rfl)]
            rw [run_rcall (show Gives r (.bytes []) s _ s' from h)]
            rfl
          | _ => rw [unmarshal, dec, unmarshalLeaf, decLeaf, if_neg (fun hn => hn rfl), if_neg (fun hn => hn rfl)] <;> first | rfl | (intro b hb; cases hb)
        · rw [hb] at hb'; cases hb'
      | ptr hk hm =>
        rw [hk] at hc
        obtain ⟨ea, hle, rfl⟩ := hc
        rw [unmarshal, dec]
        cases old.deref? (env.zero ea.typ) with
        | none => rfl
        | some v => exact (ih1 n _ ea v tv s s' hle hm (part hd (by simp [PartOf, hk])) h).andThen _ fun v => .ret _ _
      | @set _ e w tvs hk hb hs hm =>
        rw [hk] at hc
        rcases hc with ⟨hb', _⟩ | ⟨_, ea, hle, rfl⟩
        · rw [hb] at hb'; cases hb'
        rw [hs, unmarshal, dec, unmarshalSeq, decSeq]
        dsimp only
        rw [if_neg (fun hn => hn rfl)]
        by_cases ho : old.elems?.isNone = true
        · rw [if_pos ho, if_pos ho]; rfl
        · rw [if_neg ho, if_neg ho, if_pos rfl]
          simp only [HoldsS] at h
          obtain ⟨h, s1, s2, h1, h2, rfl, h4, h5⟩ := h
          rw [run_rcall h1]
          refine seqBody_strict env t _ tvs old h s1 s2 s' (fun tv htv v s s' hty hh => ?_) h2 h4 fun v => ?_
          · rw [← hty]; exact ih1 n e ea v tv s s' hle (hm tv htv) (part hd (by simp [PartOf, hk, hb])) hh
          · rw [run_rcall h5]; exact .ret _ _
      | @list _ e w tvs hk hb hs hm =>
        rw [hk] at hc
        rcases hc with ⟨hb', _⟩ | ⟨_, ea, hle, rfl⟩
        · rw [hb] at hb'; cases hb'
        rw [hs, unmarshal, dec, unmarshalSeq, decSeq]
        dsimp only
        rw [if_neg (fun hn => hn rfl)]
        by_cases ho : old.elems?.isNone = true
        · rw [if_pos ho, if_pos ho]; rfl
        · rw [if_neg ho, if_neg ho, if_neg (by simp)]
          simp only [HoldsS] at h
          obtain ⟨h, s1, s2, h1, h2, rfl, h4, h5⟩ := h
          rw [run_rcall h1]
          refine seqBody_strict env t _ tvs old h s1 s2 s' (fun tv htv v s s' hty hh => ?_) h2 h4 fun v => ?_
          · rw [← hty]; exact ih1 n e ea v tv s s' hle (hm tv htv) (part hd (by simp [PartOf, hk, hb])) hh
          · rw [run_rcall h5]; exact .ret _ _
      | @map _ k e kw ew tes hk hm1 hm2 =>
        rw [hk] at hc
        obtain ⟨ka, ea, hlk, hle, rfl⟩ := hc
        rw [unmarshal, dec, unmarshalMap, decMap, if_neg (fun hn => hn rfl)]
        cases ho : old.entries? with
        | none => rfl
        | some es =>
          simp only [HoldsS] at h
          obtain ⟨h, s1, s2, h1, h2, rfl, rfl, h4, h5⟩ := h
          dsimp only
          rw [run_rcall h1]
          have hfin : ∀ v, Matches ((rcall "ReadMapEnd" Ty.map t .mapEnd v fun _ => .ret (v, none) : UProg GoVal).run r s2) (.done (v, none)) s' := by
            intro v; rw [run_rcall h5]; exact .ret _ _
          by_cases he : tes = []
          · subst he
            simp only [HoldsSEntries] at h4
            subst h4
            rw [if_neg (by rw [loopCount] at h2; simp only [List.length_nil] at h2; omega), if_neg (by simp)]
            exact hfin _
          · have : 0 < tes.length := List.length_pos_iff.2 he
            rw [if_pos (by rw [loopCount] at h2; omega), if_pos he, h2]
            refine (decEntries_strict _ _ h.key h.value tes (fun e he s s' hty hh => ?_) (fun e he v s s' hty hh => ?_) es s1 s2 h4).andThen _ fun es => hfin _
            · rw [← hty]; exact ih1 n k ka _ e.1 s s' hlk (hm1 e he) (part hd (by simp [PartOf, hk])) hh
            · rw [← hty]; exact ih1 n _ ea _ e.2 s s' hle (hm2 e he) (part hd (by simp [PartOf, hk])) hh
      | @struct _ fs nm tfs decl hk hdecl hm =>
        rw [hk] at hc
        subst hc
        rw [unmarshal, dec]
        cases hmk : makeStructFields env fuel t with
        | done x =>
          simp only [Out.elim]
          cases x with
          | error e => exact ⟨s, rfl⟩
          | ok sfs =>
            dsimp only
            rw [if_neg (fun hn => hn rfl)]
            cases old.fields? with
            | none => rfl
            | some vals =>
              simp only [HoldsS] at h
              obtain ⟨n', s1, s2, h1, h2, h3⟩ := h
              dsimp only
              rw [run_rcall h1]
              exact ih2 fuel t sfs vals tfs s1 s2 s' decl (makeStructFields_table env fuel t sfs hmk) (by rw [fields_struct hk]; exact hdecl) hm hd h2 h3
        | _ => rfl
    · intro n t fs vals tfs s s1 s' decl htab hdecl hm hd h hend
      cases tfs with
      | nil =>
        simp only [HoldsSFields] at h
        obtain ⟨h, h2, ht⟩ := h
        rw [unmarshalFields, decFields, run_rcall h2, if_pos ht, run_rcall hend]
        exact .ret _ _
      | cons f tfs =>
        have hf := hdecl f (by simp)
        have hmf := hm f (by simp)
        obtain ⟨fn, id, v⟩ := f
        simp only [HoldsSFields] at h
        obtain ⟨n', s3, s4, s5, hb, hv, he, hr⟩ := h
        rw [unmarshalFields, decFields, run_rcall hb, if_neg (ty_ne_stop v)]
        have next : ∀ vals, Matches ((rcall "ReadFieldEnd" Ty.struct t .fieldEnd (GoVal.struct vals) fun _ => unmarshalFields env sk fuel t fs vals).run r s4)
            (decFields env fuel t fs vals tfs) s' := by
          intro vals
          rw [run_rcall he]
          exact ih2 n t fs vals tfs s5 s1 s' decl htab (fun x hx => hdecl x (by simp [hx])) (fun x hx => hm x (by simp [hx])) hd hr hend
        obtain ⟨hf1, req, hf2⟩ := hf
        obtain ⟨sf, hsf, hla⟩ := htab.byID_declared (hd t (.refl t)) hf1 hf2
        dsimp only at hsf ⊢
        rw [hsf]
        dsimp only
        cases vals[sf.index]? with
        | none => rfl
        | some v0 =>
          refine (ih1 n _ sf.a v0 v s3 s4 hla hmf (part hd ?_) hv).andThen _ fun v' => next _
          rw [PartOf]
          have hf1 := hf1
          rw [Env.fields] at hf1
          split at hf1
          · next heq => rw [heq]; exact ⟨_, hf1, rfl⟩
          · cases hf1

end

end GoThrift
