import Verif.Proof.ThriftTable
import Verif.Props.EndToEnd

/-!
# C71: `TestProtocol` passes
-/

namespace GoThrift

open Spec Spec.TVal ThriftTest

/-- What the test relies on, for the binary protocol. -/
def Binary.works (strict : Bool) : Works (ThriftTest.binary strict) (Binary.reader strict) (fun _ => True) () () (2 ^ 31 - 1) (fun _ => True) (fun h => h.name.length < 2 ^ 31) (fun tv => WF (2 ^ 31 - 1) tv) where
  codec := Binary.codec strict strict (.inl rfl) 4096 (by decide) (.err .eof)
  rest _ := trivial
  msg h hn _ := Nat.lt_of_le_of_lt hn (by decide)
  val env t v tv hr ht hs := (rep_wf hr _ ht hs).1
  sim := Binary.bufReader_sim strict
  clean o := Binary.step_clean strict (by decide) o
  newR _ := rfl
  resetR x s hx := by rw [← hx]; rfl
  newW _ := by show 0 < 4096; decide
  resetW x b hx := ⟨⟨PW.tracks_new _ hx _ _ _, rfl⟩, rfl⟩
  start := trivial

/-- What the test relies on, for the compact protocol. -/
def Compact.works : Works ThriftTest.compact Compact.reader (fun c => c.boolField.type = Ty.stop) {} {} (2 ^ 63 - 1) (fun rest => (∃ e, End.err .eof = .err e) ∨ 9 ≤ rest.length)
    (fun h => h.name.length < 2 ^ 63 ∧ h.type.toNat < 8) (fun tv => WF (2 ^ 63 - 1) tv ∧ TypesOK tv) where
  codec := Compact.codec 4096 (by decide) (.err .eof) {} rfl
  rest _ := .inl ⟨_, rfl⟩
  msg h hn ht := ⟨Nat.lt_of_le_of_lt hn (by decide), by omega⟩
  val env t v tv hr ht hs := ⟨(rep_wf hr _ ht hs).1, (rep_wf hr _ ht hs).2.1⟩
  sim := Compact.bufReader_sim
  clean o := Compact.step_clean (by decide) o
  newR _ := rfl
  resetR x s hx := rfl
  newW _ := by show 0 < 4096; decide
  resetW x b hx := ⟨⟨PW.tracks_new _ hx _ _ _, rfl⟩, rfl⟩
  start := rfl

/-- **C71** binary: TestProtocol passes, with any table of values that come back as they were, in whatever order maps are iterated by each Marshal. Elements marked hasUUID need only be fine if UUIDs are tested. -/
theorem C71_binary (env : Env) (strict : Bool) (ord : Nat → GoVal → GoVal) (hord : ∀ n v, SameValue false v (ord n v)) (uuid : Bool) (table : List Case)
    (hc : ∀ tt ∈ table, (tt.hasUUID = true → uuid = true) → CaseOK env (2 ^ 31 - 1) tt) :
    ∃ n, ∀ fuel, n ≤ fuel → testProtocol (ThriftTest.binary strict) env ord fuel uuid table = .done true :=
  testProtocol_passes (Binary.works strict) hord table hc

/-- **C71** compact. -/
theorem C71_compact (env : Env) (ord : Nat → GoVal → GoVal) (hord : ∀ n v, SameValue false v (ord n v)) (uuid : Bool) (table : List Case)
    (hc : ∀ tt ∈ table, (tt.hasUUID = true → uuid = true) → CaseOK env (2 ^ 63 - 1) tt) :
    ∃ n, ∀ fuel, n ≤ fuel → testProtocol ThriftTest.compact env ord fuel uuid table = .done true :=
  testProtocol_passes Compact.works hord table hc

/-- The elements of the table are fine. -/
theorem table_ok {env : Env} (hp : TestProgram env) (lim : Nat) (hl : 100 ≤ lim) : ∀ tt ∈ ThriftTest.table, CaseOK env lim tt := by
  have hstr : ∀ s : Bytes, s.length ≤ 100 → Good env lim 16 (.str s) := fun s hs => good_str (by rw [hp.kind (by decide)]; rfl) (Nat.le_trans hs hl)
  obtain ⟨w16, hw16⟩ := hp.wire (t := 16) (by decide) (by decide)
  obtain ⟨w10, hw10⟩ := hp.wire (t := 10) (by decide) (by decide)
  have hbool : ∀ b, Good env lim 10 (.bool b) := fun b => good_bool (by rw [hp.kind (by decide)]; rfl) b
  have hhello : ∀ t, t < 40 → (ThriftTest.type t).kind = .slice 16 → (ThriftTest.type t).asBytes = false → Good env lim t hello := fun t ht hk ha => by
    refine good_slice (by rw [hp.kind ht]; exact hk) (by rw [hp.asBytes ht]; exact ha) hw16 (by simp) (Nat.le_trans (by decide) hl) fun x hx => ?_
    simp only [List.mem_cons, List.not_mem_nil, or_false] at hx
    rcases hx with rfl | rfl
    · exact hstr _ (by decide)
    · exact hstr _ (by decide)
  have hmany : ∀ t, t < 40 → (ThriftTest.type t).kind = .slice 10 → (ThriftTest.type t).asBytes = false → Good env lim t (.slice (List.replicate 64 (.bool false)) []) := fun t ht hk ha => by
    refine good_slice (by rw [hp.kind ht]; exact hk) (by rw [hp.asBytes ht]; exact ha) hw10 (by decide) (Nat.le_trans (by decide) hl) fun x hx => ?_
    rw [(List.mem_replicate.1 hx).2]
    exact hbool _
  have hzero : env.zero 33 = .ptrNil := by rw [env.zero_eq, hp.types 33 (by decide)]; rfl
  have hinner : GoodField env (ThriftTest.fld "Struct" "1" 33) 1 false := hp.plain (by decide) (by decide)
  have hrest : ∀ n : String, (ascii n).length ≤ 100 → ascii n ≠ [] →
      GoodFields env lim [ThriftTest.fld "String" "2" 16, ThriftTest.fld "Bytes" "3" 18] [.str (ascii n), .bytes (some (ascii n))] [2, 3] := fun n hn hne => by
    refine .written (hp.plain (by decide) (by decide)) (hstr _ hn) (.inr ?_) (.written (hp.plain (by decide) (by decide)) (good_bytes (by rw [show (ThriftTest.fld "Bytes" "3" 18).typ = 18 from rfl, hp.kind (by decide)]; rfl)
      (by rw [show (ThriftTest.fld "Bytes" "3" 18).typ = 18 from rfl, hp.asBytes (by decide)]; rfl) (Nat.le_trans hn hl) hne) (.inr ?_) .nil)
    · rw [show (ThriftTest.fld "String" "2" 16).typ = 16 from rfl, hp.reports (by decide)]
      simp [GoVal.isZero, hne]
    · rw [show (ThriftTest.fld "Bytes" "3" 18).typ = 18 from rfl, hp.reports (by decide)]
      rfl
  have hnest : ∀ (n : String) (v : GoVal), (ascii n).length ≤ 100 → ascii n ≠ [] → Good env lim 3 v → Good env lim 3 (nested n (.ptr v)) := fun n v hn hne hv => by
    refine good_struct (ids := [1, 2, 3]) (by rw [hp.kind (by decide)]; rfl) (by simp) (.written hinner (good_ptr (e := 3) (by rw [show (ThriftTest.fld "Struct" "1" 33).typ = 33 from rfl, hp.kind (by decide)]; rfl) hv) (.inr ?_)
      (hrest n hn hne))
    rw [show (ThriftTest.fld "Struct" "1" 33).typ = 33 from rfl, hp.reports (by decide)]
    rfl
  have hlast : Good env lim 3 (nested "3" .ptrNil) := by
    refine good_struct (ids := [1, 2, 3]) (by rw [hp.kind (by decide)]; rfl) (by simp) ?_
    have h := GoodFields.omitted (lim := lim) hinner (by
        rw [show (ThriftTest.fld "Struct" "1" 33).typ = 33 from rfl, hzero]
        simp [HasType, Everywhere, Shape, hp.types 33 (by decide), ThriftTest.type]) (by rw [show (ThriftTest.fld "Struct" "1" 33).typ = 33 from rfl, hzero]; trivial)
      (by rw [show (ThriftTest.fld "Struct" "1" 33).typ = 33 from rfl, hzero]; trivial)
      (by rw [show (ThriftTest.fld "Struct" "1" 33).typ = 33 from rfl, hzero, hp.reports (by decide)]; rfl) (hrest "3" (by decide) (by decide))
    rw [show (ThriftTest.fld "Struct" "1" 33).typ = 33 from rfl, hzero] at h
    exact h
  have hletters : Good env lim 25 letters := by
    refine good_map (by rw [hp.kind (by decide)]; rfl) hw16 hw10 (by decide) (Nat.le_trans (by decide) hl) (fun x hx => ?_) (fun i j x y hij hx hy => ?_)
    · obtain ⟨i, _, rfl⟩ := List.mem_map.1 hx
      exact ⟨hstr _ (by simp), hbool _⟩
    · rw [List.getElem?_map] at hx hy
      obtain ⟨a, ha, rfl⟩ := Option.map_eq_some_iff.1 hx
      obtain ⟨b, hb, rfl⟩ := Option.map_eq_some_iff.1 hy
      rw [List.getElem?_range (by have := (List.getElem?_eq_some_iff.1 ha).1; simpa using this)] at ha
      have hj : j < 26 := by have := (List.getElem?_eq_some_iff.1 hb).1; simpa using this
      rw [List.getElem?_range hj] at hb
      cases ha
      cases hb
      refine ⟨by simp [PlainKey], by simp [PlainKey], ?_⟩
      have key : ∀ j : Nat, j < 26 → ∀ i : Nat, i < j → (GoVal.str [BitVec.ofNat 8 (0x41 + j)]).keyEq (.str [BitVec.ofNat 8 (0x41 + i)]) = false := by decide +kernel
      exact key j hj i hij
  have one : ∀ {t : Nat} {name : String} {ft : Nat} {v : GoVal}, t < 40 → (ThriftTest.type t).kind = .struct [ThriftTest.fld name "1,required" ft] → (ft < 40 ∧ (ft < 26 ∨ ft = 33)) → Good env lim ft v →
      Good env lim t (.struct [v]) := fun ht hk hft hv => good_struct (ids := [1]) (by rw [hp.kind ht]; exact hk) (by simp) (.written (hp.required hft) hv (.inl rfl) .nil)
  have floats : ∀ x y, env.narrow (env.widen x) = x → x ≠ 0 → x ≠ 0x80000000 → y ≠ 0 → y ≠ 0x8000000000000000 → Good env lim 1 (.struct [.f32 x, .f64 y]) := fun x y h h1 h2 h3 h4 => by
    refine good_struct (ids := [1, 2]) (by rw [hp.kind (by decide)]; rfl) (by simp) (.written (hp.plain (by decide) (by decide)) (good_f32 (by rw [show (ThriftTest.fld "Float32" "1" 11).typ = 11 from rfl, hp.kind (by decide)]; rfl) h) (.inr ?_)
      (.written (hp.plain (by decide) (by decide)) (good_f64 (by rw [show (ThriftTest.fld "Float64" "2" 12).typ = 12 from rfl, hp.kind (by decide)]; rfl) _) (.inr ?_) .nil))
    · rw [show (ThriftTest.fld "Float32" "1" 11).typ = 11 from rfl, hp.reports (by decide)]
      rw [GoVal.isZero, f32IsZero, beq_eq_false_iff_ne.2 h1, beq_eq_false_iff_ne.2 h2, Bool.and_false]; rfl
    · rw [show (ThriftTest.fld "Float64" "2" 12).typ = 12 from rfl, hp.reports (by decide)]
      rw [GoVal.isZero, f64IsZero, beq_eq_false_iff_ne.2 h3, beq_eq_false_iff_ne.2 h4, Bool.and_false]; rfl
  have ints : ∀ x y z, x ≠ 0 → y ≠ 0 → z ≠ 0 → Good env lim 2 (.struct [.i16 x, .i32 y, .i64 z]) := fun x y z h1 h2 h3 => by
    refine good_struct (ids := [1, 2, 3]) (by rw [hp.kind (by decide)]; rfl) (by simp) (.written (hp.plain (by decide) (by decide)) (good_i16 (by rw [show (ThriftTest.fld "Int16" "1" 13).typ = 13 from rfl, hp.kind (by decide)]; rfl) _) (.inr ?_)
      (.written (hp.plain (by decide) (by decide)) (good_i32 (by rw [show (ThriftTest.fld "Int32" "2" 14).typ = 14 from rfl, hp.kind (by decide)]; rfl) _) (.inr ?_)
        (.written (hp.plain (by decide) (by decide)) (good_i64 (by rw [show (ThriftTest.fld "Int64" "3" 15).typ = 15 from rfl, hp.kind (by decide)]; rfl) _) (.inr ?_) .nil)))
    · rw [show (ThriftTest.fld "Int16" "1" 13).typ = 13 from rfl, hp.reports (by decide)]; exact beq_eq_false_iff_ne.2 h1
    · rw [show (ThriftTest.fld "Int32" "2" 14).typ = 14 from rfl, hp.reports (by decide)]; exact beq_eq_false_iff_ne.2 h2
    · rw [show (ThriftTest.fld "Int64" "3" 15).typ = 15 from rfl, hp.reports (by decide)]; exact beq_eq_false_iff_ne.2 h3
  intro tt htt
  simp only [ThriftTest.table, List.mem_cons, List.not_mem_nil, or_false] at htt
  have nm : ∀ n : Bytes, n.length ≤ 100 → n.length ≤ lim := fun n h => Nat.le_trans h hl
  rcases htt with rfl | rfl | rfl | rfl | rfl | rfl | rfl | rfl | rfl | rfl | rfl | rfl | rfl | rfl | rfl | rfl
  · exact hp.caseOK (by decide) rfl (by decide) (by decide) ⟨_, rfl⟩ (one (by decide) rfl (by decide) (hbool _)) (nm _ (by decide)) (fun _ => by simp [SmallMaps, SmallMapsAll])
  · exact hp.caseOK (by decide) rfl (by decide) (by decide) ⟨_, rfl⟩ (one (by decide) rfl (by decide) (hbool _)) (nm _ (by decide)) (fun _ => by simp [SmallMaps, SmallMapsAll])
  · exact hp.caseOK (by decide) rfl (by decide) (by decide) ⟨_, rfl⟩ (floats _ _ hp.float_min (by decide) (by decide) (by decide) (by decide)) (nm _ (by decide)) (fun _ => by simp [SmallMaps, SmallMapsAll])
  · exact hp.caseOK (by decide) rfl (by decide) (by decide) ⟨_, rfl⟩ (floats _ _ hp.float_max (by decide) (by decide) (by decide) (by decide)) (nm _ (by decide)) (fun _ => by simp [SmallMaps, SmallMapsAll])
  · exact hp.caseOK (by decide) rfl (by decide) (by decide) ⟨_, rfl⟩ (ints _ _ _ (by decide) (by decide) (by decide)) (nm _ (by decide)) (fun _ => by simp [SmallMaps, SmallMapsAll])
  · exact hp.caseOK (by decide) rfl (by decide) (by decide) ⟨_, rfl⟩ (ints _ _ _ (by decide) (by decide) (by decide)) (nm _ (by decide)) (fun _ => by simp [SmallMaps, SmallMapsAll])
  · exact hp.caseOK (by decide) rfl (by decide) (by decide) ⟨_, rfl⟩ (one (ft := 19) (by decide) rfl (by decide) (good_mapNil (by rw [hp.kind (by decide)]; rfl) hw16 hw16)) (nm _ (by decide)) (fun _ => by simp [SmallMaps, SmallMapsAll])
  · refine hp.caseOK (by decide) rfl (by decide) (by decide) ⟨_, rfl⟩ (one (ft := 19) (by decide) rfl (by decide) (good_map (by rw [hp.kind (by decide)]; rfl) hw16 hw16 (by simp) (Nat.le_trans (by simp) hl) (fun x hx => ?_)
      (fun i j x y hij hx hy => ?_))) (nm _ (by decide)) (fun _ => by simp [SmallMaps, SmallMapsAll, SmallMapsEntries])
    · rw [List.mem_singleton] at hx
      subst hx
      exact ⟨hstr _ (by decide), hstr _ (by decide)⟩
    · have := (List.getElem?_eq_some_iff.1 hy).1
      simp at this
      omega
  · exact hp.caseOK (by decide) rfl (by decide) (by decide) ⟨_, rfl⟩ (one (ft := 20) (by decide) rfl (by decide) (good_sliceNil (by rw [hp.kind (by decide)]; rfl) (by rw [hp.asBytes (by decide)]; rfl) hw16)) (nm _ (by decide))
      (fun _ => by simp [SmallMaps, SmallMapsAll])
  · exact hp.caseOK (by decide) rfl (by decide) (by decide) ⟨_, rfl⟩ (one (ft := 20) (by decide) rfl (by decide) (hhello 20 (by decide) rfl rfl)) (nm _ (by decide)) (fun _ => by simp [SmallMaps, SmallMapsAll, hello])
  · exact hp.caseOK (by decide) rfl (by decide) (by decide) ⟨_, rfl⟩ (one (ft := 21) (by decide) rfl (by decide) (good_sliceNil (by rw [hp.kind (by decide)]; rfl) (by rw [hp.asBytes (by decide)]; rfl) hw16)) (nm _ (by decide))
      (fun _ => by simp [SmallMaps, SmallMapsAll])
  · exact hp.caseOK (by decide) rfl (by decide) (by decide) ⟨_, rfl⟩ (one (ft := 21) (by decide) rfl (by decide) (hhello 21 (by decide) rfl rfl)) (nm _ (by decide)) (fun _ => by simp [SmallMaps, SmallMapsAll, hello])
  · exact hp.caseOK (by decide) rfl (by decide) (by decide) ⟨_, rfl⟩ (one (ft := 22) (by decide) rfl (by decide) (good_uuid (by rw [hp.kind (by decide)]; rfl) (by simp))) (nm _ (by decide)) (fun _ => by simp [SmallMaps, SmallMapsAll])
  · exact hp.caseOK (by decide) rfl (by decide) (by decide) ⟨_, rfl⟩ (hnest _ _ (by decide) (by decide) (hnest _ _ (by decide) (by decide) hlast)) (nm _ (by decide)) (fun _ => by simp [SmallMaps, SmallMapsAll, nested])
  · refine hp.caseOK (by decide) rfl (by decide) (by decide) ⟨_, rfl⟩ (good_struct (ids := [32, 64]) (by rw [hp.kind (by decide)]; rfl) (by simp) (.written (hp.plain (by decide) (by decide)) (hmany 23 (by decide) rfl rfl) (.inr ?_)
      (.written (hp.plain (by decide) (by decide)) (hmany 24 (by decide) rfl rfl) (.inr ?_) .nil))) (nm _ (by decide)) (fun _ => ?_)
    · rw [show (ThriftTest.fld "Set" "32" 23).typ = 23 from rfl, hp.reports (by decide)]; rfl
    · rw [show (ThriftTest.fld "List" "64" 24).typ = 24 from rfl, hp.reports (by decide)]; rfl
    · have : SmallMapsAll (List.replicate 64 (.bool false)) := smallMapsAll_iff.2 fun x hx => by rw [(List.mem_replicate.1 hx).2]; trivial
      exact ⟨this, this, trivial⟩
  · refine hp.caseOK (by decide) rfl (by decide) (by decide) ⟨_, rfl⟩ (good_struct (ids := [0]) (by rw [hp.kind (by decide)]; rfl) (by simp) (.written (hp.plain (by decide) (by decide)) hletters (.inr ?_) .nil)) (nm _ (by decide))
      (fun h => by cases h)
    rw [show (ThriftTest.fld "Map" "0" 25).typ = 25 from rfl, hp.reports (by decide)]; rfl

/-- **C71** with the table of the repository: TestProtocol passes for the binary protocol, strict or not, and for the compact protocol, with and without UUIDs. -/
theorem C71_table (env : Env) (hp : TestProgram env) (ord : Nat → GoVal → GoVal) (hord : ∀ n v, SameValue false v (ord n v)) (uuid : Bool) :
    ∃ n, ∀ fuel, n ≤ fuel → (∀ strict, testProtocol (ThriftTest.binary strict) env ord fuel uuid ThriftTest.table = .done true) ∧
      testProtocol ThriftTest.compact env ord fuel uuid ThriftTest.table = .done true := by
  obtain ⟨n1, h1⟩ := C71_binary env true ord hord uuid _ fun tt h _ => table_ok hp _ (by decide) tt h
  obtain ⟨n2, h2⟩ := C71_binary env false ord hord uuid _ fun tt h _ => table_ok hp _ (by decide) tt h
  obtain ⟨n3, h3⟩ := C71_compact env ord hord uuid _ fun tt h _ => table_ok hp _ (by decide) tt h
  refine ⟨max n1 (max n2 n3), fun fuel hf => ⟨fun strict => ?_, h3 fuel (by omega)⟩⟩
  cases strict with
  | true => exact h1 fuel (by omega)
  | false => exact h2 fuel (by omega)

/-! ## Examples -/

/-- The zero values of the types of the table. -/
def TestEx.zero : TypeId → GoVal
  | 0 => .struct [.bool false]
  | 1 => .struct [.f32 0, .f64 0]
  | 2 => .struct [.i16 0, .i32 0, .i64 0]
  | 3 => .struct [.ptrNil, .str [], .bytes none]
  | 4 => .struct [.mapNil]
  | 5 | 6 => .struct [.sliceNil]
  | 7 => .struct [.uuid (List.replicate 16 0)]
  | 8 => .struct [.sliceNil, .sliceNil]
  | 9 => .struct [.mapNil]
  | 10 => .bool false
  | 11 => .f32 0
  | 12 => .f64 0
  | 13 => .i16 0
  | 14 => .i32 0
  | 15 => .i64 0
  | 16 => .str []
  | 17 => .i8 0
  | 18 => .bytes none
  | 19 | 25 => .mapNil
  | 20 | 21 | 23 | 24 => .sliceNil
  | 22 => .uuid (List.replicate 16 0)
  | 30 | 31 | 32 | 33 | 34 | 35 | 36 | 37 | 38 | 39 => .ptrNil
  | _ => .other 0

/-- A program that consists of the types of the table. (Its conversions between floats are not those of Go, but good enough.) -/
def TestEx.env : Env where
  type := ThriftTest.type
  zero := TestEx.zero
  zero_eq t := by
    match t with
    | 0 | 1 | 2 | 3 | 4 | 5 | 6 | 7 | 8 | 9 | 10 | 11 | 12 | 13 | 14 | 15 | 16 | 17 | 18 | 19 | 20 | 21 | 22 | 23 | 24 | 25 | 26 | 27 | 28 | 29 | 30 | 31 | 32 | 33 | 34 | 35 | 36 | 37 | 38 | 39 => rfl
    | t + 40 => rfl
  isZero _ := none
  negZero _ := false
  widen x := x.zeroExtend 64
  narrow x := x.truncate 32
  grow _ n := 2 * n
  sort := Ex.sortBy
  sort_perm := Ex.sortBy_perm
  sort_sorted := Ex.sortBy_sorted
  sort_map := Ex.sortBy_map
  unicode := asciiUnicode

theorem TestEx.program : TestProgram TestEx.env := ⟨fun _ _ => rfl, fun _ _ => rfl, by decide, by decide, by decide⟩

/-- The hypotheses of C71: the table is fine in this program; maps iterate in the order of their entries. -/
example : (∀ tt ∈ ThriftTest.table, CaseOK TestEx.env (2 ^ 31 - 1) tt) ∧ ∀ (_n : Nat) v, SameValue false v v := ⟨table_ok TestEx.program _ (by decide), fun _ v => .refl v⟩

/-- The test passes there. -/
example : ∃ n, ∀ fuel, n ≤ fuel → testProtocol ThriftTest.compact TestEx.env (fun _ v => v) fuel true ThriftTest.table = .done true :=
  C71_compact _ _ (fun _ v => .refl v) _ _ fun tt h _ => table_ok TestEx.program _ (by decide) tt h

/-- The test can fail. With maps that iterate in another order each time, an element with two entries must be marked hasMap: -/
example : let ord (n : Nat) : GoVal → GoVal
      | .struct [.map es] => .struct [.map (if n % 2 = 0 then es else es.reverse)]
      | .ptr (.struct [.map es]) => .ptr (.struct [.map (if n % 2 = 0 then es else es.reverse)])
      | v => v
    let tt : Case := { name := [], t := 4, p := 34, val := .struct [.map [(.str [1], .str []), (.str [2], .str [])]] }
    testProtocol (ThriftTest.binary true) TestEx.env ord 20 true [tt] = .done false ∧ testProtocol (ThriftTest.binary true) TestEx.env ord 20 true [{ tt with hasMap := true }] = .done true := by
  decide +kernel

/-- a value that does not come back as it was (the set is empty, not nil, and not required) fails, -/
example : testProtocol ThriftTest.compact TestEx.env (fun _ v => v) 20 true [{ name := [], t := 8, p := 38, val := .struct [.slice [] [], .sliceNil] }] = .done false := by decide +kernel

/-- and a protocol fails if, say, its reader forgets what it has read ahead, the compact writer does not close structs, or the header is not that of the message. -/
example : testProtocol { ThriftTest.binary true with rdr := ⟨fun o x => (Binary.bufReader true).step o (x.1, { x.2 with unread := [] })⟩ } TestEx.env (fun _ v => v) 20 true ThriftTest.table = .done false ∧
    testProtocol { ThriftTest.compact with wimpl := fun o => if o = .structEnd then pure () else Compact.wimpl o } TestEx.env (fun _ v => v) 20 true ThriftTest.table = .done false ∧
    testProtocol { ThriftTest.binary false with wimpl := fun o => match o with
      | .messageBegin h => Binary.wimpl false (.messageBegin { h with id := 7 })
      | o => Binary.wimpl false o } TestEx.env (fun _ v => v) 20 true ThriftTest.table = .done false := by
  decide +kernel

/-- A writer that forgets what it is told to write: every bool is true, every number 1, every string "x". -/
def TestEx.forgetful (wimpl : WOp → WM C Unit) : WOp → WM C Unit
  | .bool _ => wimpl (.bool true)
  | .byte _ => wimpl (.byte 1)
  | .double _ => wimpl (.double 1)
  | .i16 _ => wimpl (.i16 1)
  | .i32 _ => wimpl (.i32 1)
  | .i64 _ => wimpl (.i64 1)
  | .string _ => wimpl (.string [0x78])
  | .bytes _ => wimpl (.bytes [0x78])
  | .uuid _ => wimpl (.uuid (List.replicate 16 1))
  | o => wimpl o

/-- **C71** TestProtocol does not see everything: it marshals what was read once more and compares bytes, but never compares what was read with what was written. A protocol passes whose writer writes the same
for all numbers, bools and strings. -/
theorem C71_test_is_lenient :
    testProtocol { ThriftTest.binary true with wimpl := TestEx.forgetful (Binary.wimpl true) } TestEx.env (fun _ v => v) 20 true ThriftTest.table = .done true ∧
    testProtocol { ThriftTest.compact with wimpl := TestEx.forgetful Compact.wimpl } TestEx.env (fun _ v => v) 20 true ThriftTest.table = .done true := by
  decide +kernel

end GoThrift
