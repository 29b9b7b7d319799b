import Verif.Proof.CompactRead
import Verif.Proof.BE
import Verif.Proof.Message

/-!
# Lengths of the two encodings of a value
-/

namespace GoThrift

open Spec Spec.TVal

theorem zigzag_lt_pow {w : Nat} (v : BitVec (w + 1)) : Spec.zigzag v.toInt < 2 ^ (w + 1) := by
  have h1 := BitVec.toInt_lt (x := v)
  have h2 := BitVec.le_toInt (x := v)
  simp only [Nat.add_sub_cancel] at h1 h2
  have : (2 : Int) ^ w = ((2 ^ w : Nat) : Int) := by simp
  rw [this] at h1 h2
  have h3 : 2 ^ (w + 1) = 2 * 2 ^ w := by rw [Nat.pow_succ]; omega
  unfold Spec.zigzag
  split <;> omega

theorem leb_pos (n : Nat) : 1 ≤ (leb n).length := Compact.leb_length_pos n

theorem listHeader_length (et : WType) (n : Nat) (h : n ≤ 2 ^ 31 - 1) : 1 ≤ (compactListHeader et n).length ∧ (compactListHeader et n).length ≤ 6 := by
  have := leb_length_le 4 n (by omega)
  unfold compactListHeader
  split <;> simp <;> omega

theorem mapHeader_length (kt vt : WType) (n : Nat) (h : n ≤ 2 ^ 31 - 1) : 1 ≤ (compactMapHeader kt vt n).length ∧ (compactMapHeader kt vt n).length ≤ 6 := by
  have := leb_length_le 4 n (by omega)
  unfold compactMapHeader
  split <;> simp <;> omega

theorem fieldHeader_length (code : Byte) (last id : BitVec 16) : 1 ≤ (compactFieldHeader code last id).length ∧ (compactFieldHeader code last id).length ≤ 4 := by
  have := leb_length_le 2 _ (Nat.lt_of_lt_of_le (zigzag_lt_pow id) (by decide))
  unfold compactFieldHeader
  split <;> simp <;> omega

theorem leb_length_ge (k : Nat) : ∀ v, 128 ^ k ≤ v → k + 1 ≤ (leb v).length := by
  induction k with
  | zero => intro v _; exact leb_pos v
  | succ k ih =>
    intro v h
    rw [leb, if_neg (by rw [Nat.pow_succ] at h; have := Nat.pow_pos (n := k) (show 0 < 128 by decide); omega)]
    simp only [List.length_cons]
    have := ih (v / 128) (by rw [Nat.pow_succ] at h; omega)
    omega

/-- Between 2/3 and 8 times as long. -/
def Ratio (bin compact : Bytes) : Prop := 2 * compact.length ≤ 3 * bin.length ∧ bin.length ≤ 8 * compact.length

theorem Ratio.append {b1 b2 c1 c2 : Bytes} (h1 : Ratio b1 c1) (h2 : Ratio b2 c2) : Ratio (b1 ++ b2) (c1 ++ c2) := by
  unfold Ratio at *
  simp only [List.length_append]
  omega

theorem int_between {w k : Nat} (v : BitVec (w + 1)) (n : Nat) (h : 2 ^ (w + 1) ≤ 128 ^ (k + 1)) (h1 : 2 * (k + 1) ≤ 3 * n) (h2 : n ≤ 8) (x : Nat) : Ratio (be n x) (leb (Spec.zigzag v.toInt)) := by
  have := leb_length_le k _ (Nat.lt_of_lt_of_le (zigzag_lt_pow v) h)
  have := leb_pos (Spec.zigzag v.toInt)
  unfold Ratio
  rw [be_length]
  omega

mutual
theorem between_value : ∀ tv : TVal, WF (2 ^ 31 - 1) tv → Ratio (encBin tv) (encCompact tv)
  | .bool v, _ => by simp [Ratio, encBin, encCompact]
  | .byte v, _ => by simp [Ratio, encBin, encCompact]
  | .double v, _ => by simp [Ratio, encBin, encCompact, be_length]
  | .i16 v, _ => by rw [encBin, encCompact]; exact int_between (k := 2) v 2 (by decide) (by decide) (by decide) _
  | .i32 v, _ => by rw [encBin, encCompact]; exact int_between (k := 4) v 4 (by decide) (by decide) (by decide) _
  | .i64 v, _ => by rw [encBin, encCompact]; exact int_between (k := 9) v 8 (by decide) (by decide) (by decide) _
  | .str _ v, h => by
    simp only [WF] at h
    rw [encBin, encCompact]
    have := leb_length_le 4 v.length (by omega)
    have := leb_pos v.length
    simp only [Ratio, List.length_append, be_length]
    omega
  | .uuid v, _ => by rw [encBin, encCompact, Ratio]; omega
  | .struct _ fs, h => by rw [encBin, encCompact]; simp only [WF] at h; exact between_fields fs 0 h
  | .map kt vt es, h => by
    simp only [WF] at h
    rw [encBin, encCompact]
    refine .append ?_ (between_entries es kt vt h.2)
    have := mapHeader_length kt vt es.length h.1
    simp only [Ratio, List.length_append, be_length, List.length_cons, List.length_nil]
    omega
  | .set et es, h => by
    simp only [WF] at h
    rw [encBin, encCompact]
    refine .append ?_ (between_elems es et h.2)
    have := listHeader_length et es.length h.1
    simp only [Ratio, List.length_append, be_length, List.length_cons, List.length_nil]
    omega
  | .list et es, h => by
    simp only [WF] at h
    rw [encBin, encCompact]
    refine .append ?_ (between_elems es et h.2)
    have := listHeader_length et es.length h.1
    simp only [Ratio, List.length_append, be_length, List.length_cons, List.length_nil]
    omega
theorem between_fields : ∀ (fs : List (Bytes × BitVec 16 × TVal)) (last : BitVec 16), WFFields (2 ^ 31 - 1) fs → Ratio (encBinFields fs) (encCompactFields last fs)
  | [], _, _ => by simp [Ratio, encBinFields, encCompactFields]
  | (_, id, v) :: fs, last, h => by
    simp only [WFFields] at h
    have hv := between_value v h.1
    rw [encBinFields, encCompactFields]
    refine .append ?_ (between_fields fs id h.2)
    have := fieldHeader_length (compactFieldCode v) last id
    by_cases hb : v.ty = Ty.bool
    · rw [if_pos hb]
      have : (encBin v).length = 1 := by
        cases v with
        | bool b => rfl
        | _ => exact absurd hb (by simp only [ty]; decide)
      simp only [Ratio, List.length_append, be_length, List.length_cons, List.length_nil]
      omega
    · rw [if_neg hb]
      unfold Ratio at *
      simp only [List.length_append, be_length, List.length_cons, List.length_nil]
      omega
theorem between_entries : ∀ (es : List (TVal × TVal)) (kt vt : WType), WFEntries (2 ^ 31 - 1) kt vt es → Ratio (encBinEntries es) (encCompactEntries es)
  | [], _, _, _ => by simp [Ratio, encBinEntries, encCompactEntries]
  | (k, v) :: es, kt, vt, h => by
    simp only [WFEntries] at h
    rw [encBinEntries, encCompactEntries]
    exact ((between_value k h.2.2.1).append (between_value v h.2.2.2.1)).append (between_entries es kt vt h.2.2.2.2)
theorem between_elems : ∀ (es : List TVal) (et : WType), WFElems (2 ^ 31 - 1) et es → Ratio (encBinElems es) (encCompactElems es)
  | [], _, _ => by simp [Ratio, encBinElems, encCompactElems]
  | v :: es, et, h => by
    simp only [WFElems] at h
    rw [encBinElems, encCompactElems]
    exact (between_value v h.2.1).append (between_elems es et h.2.2)
end

mutual
theorem wf_mono {m n : Nat} (hmn : m ≤ n) : ∀ tv : TVal, WF m tv → WF n tv
  | .bool _, _ | .byte _, _ | .double _, _ | .i16 _, _ | .i32 _, _ | .i64 _, _ => trivial
  | .str _ _, h => Nat.le_trans h hmn
  | .uuid _, h => h
  | .struct _ fs, h => by rw [WF] at *; exact wfFields_mono hmn fs h
  | .map kt vt es, h => by rw [WF] at *; exact ⟨Nat.le_trans h.1 hmn, wfEntries_mono hmn kt vt es h.2⟩
  | .set et es, h => by rw [WF] at *; exact ⟨Nat.le_trans h.1 hmn, wfElems_mono hmn et es h.2⟩
  | .list et es, h => by rw [WF] at *; exact ⟨Nat.le_trans h.1 hmn, wfElems_mono hmn et es h.2⟩
theorem wfFields_mono {m n : Nat} (hmn : m ≤ n) : ∀ fs : List (Bytes × BitVec 16 × TVal), WFFields m fs → WFFields n fs
  | [], _ => trivial
  | (_, _, v) :: fs, h => by rw [WFFields] at *; exact ⟨wf_mono hmn v h.1, wfFields_mono hmn fs h.2⟩
theorem wfEntries_mono {m n : Nat} (hmn : m ≤ n) (kt vt : WType) : ∀ es : List (TVal × TVal), WFEntries m kt vt es → WFEntries n kt vt es
  | [], _ => trivial
  | (k, v) :: es, h => by rw [WFEntries] at *; exact ⟨h.1, h.2.1, wf_mono hmn k h.2.2.1, wf_mono hmn v h.2.2.2.1, wfEntries_mono hmn kt vt es h.2.2.2.2⟩
theorem wfElems_mono {m n : Nat} (hmn : m ≤ n) (et : WType) : ∀ es : List TVal, WFElems m et es → WFElems n et es
  | [], _ => trivial
  | v :: es, h => by rw [WFElems] at *; exact ⟨h.1, wf_mono hmn v h.2.1, wfElems_mono hmn et es h.2.2⟩
end

/-- The length of a compact message header as written. -/
theorem msgW_length (h : MessageHeader) : (Compact.msgW h).length = 2 + (leb (h.id.signExtend 64).toNat).length + (leb h.name.length).length + h.name.length := by
  simp [Compact.msgW, putUvarint_eq_leb]
  omega

theorem msgW_id (h : MessageHeader) : (0 ≤ h.id.toInt → (leb (h.id.signExtend 64).toNat).length ≤ 5) ∧ (h.id.toInt < 0 → (leb (h.id.signExtend 64).toNat).length = 10) := by
  have h1 : (h.id.signExtend 64).toInt = h.id.toInt := BitVec.toInt_signExtend_of_le (by omega)
  have h2 := BitVec.toInt_eq_toNat_cond (h.id.signExtend 64)
  have h3 := (h.id.signExtend 64).isLt
  have h4 := BitVec.toInt_lt (x := h.id)
  have h5 := BitVec.le_toInt (x := h.id)
  constructor
  · intro h0
    refine leb_length_le 4 _ ?_
    split at h2 <;> omega
  · intro h0
    have := leb_length_le 9 (h.id.signExtend 64).toNat (by omega)
    have := leb_length_ge 9 (h.id.signExtend 64).toNat (by split at h2 <;> omega)
    omega

end GoThrift
