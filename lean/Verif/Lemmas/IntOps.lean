import Verif.Spec.IntOps
import Verif.Model.IntOps
import Verif.Props.Overflow
import Mathlib.Data.Nat.Bitwise

/-! # The integer operators: numbers and bits -/

namespace Verif

namespace Word

variable {W : Word}

theorem size_eq (hw : 0 < W.width) : W.hi - W.lo + 1 = 2 ^ W.width := by
  unfold hi lo
  obtain ⟨n, hn⟩ : ∃ n, W.width = n + 1 := ⟨W.width - 1, by omega⟩
  rw [hn]
  split
  · simp only [Nat.add_sub_cancel]; rw [pow_succ]; ring
  · ring

theorem num_has (hw : 0 < W.width) (b : BitVec W.width) : W.Has (W.num b) := by
  unfold Has num lo hi
  split
  · have h1 := BitVec.le_toInt b
    have h2 := BitVec.toInt_lt (x := b)
    exact ⟨h1, by omega⟩
  · have h2 : (b.toNat : Int) < 2 ^ W.width := by exact_mod_cast b.isLt
    exact ⟨by positivity, by omega⟩

/-- A number and its bits, read without sign, agree modulo the number of values. -/
theorem num_mod (b : BitVec W.width) : ∃ k : Int, W.num b = b.toNat + k * 2 ^ W.width := by
  unfold num
  split
  · rw [BitVec.toInt_eq_toNat_cond]
    split
    · exact ⟨0, by ring⟩
    · exact ⟨-1, by push_cast; ring⟩
  · exact ⟨0, by ring⟩

theorem bits_mod (x : Int) : ∃ k : Int, ((W.bits x).toNat : Int) = x + k * 2 ^ W.width := by
  unfold bits
  rw [BitVec.toNat_ofInt]
  have hp : (0 : Int) < ((2 ^ W.width : Nat) : Int) := by positivity
  rw [Int.toNat_of_nonneg (Int.emod_nonneg _ hp.ne')]
  refine ⟨-(x / ((2 ^ W.width : Nat) : Int)), ?_⟩
  have := Int.mul_ediv_add_emod x ((2 ^ W.width : Nat) : Int)
  push_cast at this ⊢
  linarith

/-- Only one number of the type has given bits. -/
theorem num_bits (hw : 0 < W.width) {x : Int} (hx : W.Has x) : W.num (W.bits x) = x := by
  refine residue_unique (num_has hw _) hx ?_
  rw [size_eq hw]
  obtain ⟨k, hk⟩ := num_mod (W.bits x)
  obtain ⟨l, hl⟩ := bits_mod (W := W) x
  rw [hk, hl]
  refine (Int.emod_emod_of_dvd _ (dvd_refl _)).symm.trans ?_
  rw [Int.emod_emod_of_dvd _ (dvd_refl _), add_assoc, ← add_mul, Int.add_mul_emod_self_right]

theorem bitAt_nat (n i : Nat) : bitAt (n : Int) i ↔ n.testBit i = true := by
  unfold bitAt
  rw [Nat.testBit_eq_decide_div_mod_eq, decide_eq_true_iff]
  constructor <;> intro h <;> exact_mod_cast h

theorem bitAt_add_mul (z k : Int) {i w : Nat} (h : i < w) : bitAt (z + k * 2 ^ w) i ↔ bitAt z i := by
  unfold bitAt
  obtain ⟨n, rfl⟩ : ∃ n, w = i + (n + 1) := ⟨w - i - 1, by omega⟩
  have : z + k * 2 ^ (i + (n + 1)) = z + (k * 2 ^ n * 2) * 2 ^ i := by ring
  rw [this, Int.add_mul_ediv_right _ _ (by positivity), Int.add_mul_emod_self_right]

theorem bitAt_num (b : BitVec W.width) {i : Nat} (h : i < W.width) : bitAt (W.num b) i ↔ b.getLsbD i = true := by
  obtain ⟨k, hk⟩ := num_mod b
  rw [hk, bitAt_add_mul _ _ h, bitAt_nat]
  rfl

/-- Beyond the width: the sign bit, or zeros. -/
theorem bitAt_high (hw : 0 < W.width) {z : Int} (hz : W.Has z) {i : Nat} (h : W.width ≤ i) :
    bitAt z i ↔ W.signed = true ∧ bitAt z (W.width - 1) := by
  have hpi : (2 : Int) ^ W.width ≤ 2 ^ i := pow_le_pow_right₀ (by norm_num) h
  have hpw : (2 : Int) ^ (W.width - 1) ≤ 2 ^ W.width := pow_le_pow_right₀ (by norm_num) (by omega)
  have hp1 : (0 : Int) < 2 ^ (W.width - 1) := by positivity
  unfold Has lo hi at hz
  unfold bitAt
  rcases hs : W.signed with _ | _
  · simp only [hs, Bool.false_eq_true, if_false] at hz
    rw [Int.ediv_eq_zero_of_lt hz.1 (by omega)]
    simp
  · simp only [hs, if_true] at hz
    simp only [true_and]
    rcases lt_or_ge z 0 with h0 | h0
    · have e : ∀ m : Int, 0 < m → -m ≤ z → z / m = -1 := fun m hm hl => by
        rw [Int.ediv_eq_iff_of_pos hm]; constructor <;> omega
      rw [e _ (by positivity) (by omega), e _ hp1 hz.1]
    · rw [Int.ediv_eq_zero_of_lt h0 (by omega), Int.ediv_eq_zero_of_lt h0 (by omega)]

theorem bitAt_bits (hw : 0 < W.width) {x : Int} (hx : W.Has x) {i : Nat} (h : i < W.width) :
    (W.bits x).getLsbD i = true ↔ bitAt x i := by
  rw [← bitAt_num _ h, num_bits hw hx]

/-- An operation on the bits is one on all bits of the numbers. -/
theorem bitAt_op (hw : 0 < W.width) {op : Prop → Prop → Prop} (h0 : ¬ op False False) {x y : Int} (hx : W.Has x) (hy : W.Has y)
    {b : BitVec W.width} (hb : ∀ i < W.width, b.getLsbD i = true ↔ op ((W.bits x).getLsbD i = true) ((W.bits y).getLsbD i = true))
    (i : Nat) : bitAt (W.num b) i ↔ op (bitAt x i) (bitAt y i) := by
  have key : ∀ i < W.width, bitAt (W.num b) i ↔ op (bitAt x i) (bitAt y i) := fun i hi => by
    rw [bitAt_num _ hi, hb i hi, propext (bitAt_bits hw hx hi), propext (bitAt_bits hw hy hi)]
  rcases lt_or_ge i W.width with hi | hi
  · exact key i hi
  · rw [bitAt_high hw (num_has hw b) hi, propext (bitAt_high hw hx hi), propext (bitAt_high hw hy hi)]
    rcases W.signed with _ | _
    · simpa using h0
    · simpa using key _ (by omega)

theorem shl_wraps (hw : 0 < W.width) (x : Int) (n : Nat) : IsWrapped W.lo W.hi (W.num (W.bits x <<< n)) (x * 2 ^ n) := by
  refine ⟨(num_has hw _).1, (num_has hw _).2, ?_⟩
  rw [size_eq hw]
  obtain ⟨k, hk⟩ := num_mod (W.bits x <<< n)
  obtain ⟨l, hl⟩ := bits_mod (W := W) x
  rw [hk, BitVec.toNat_shiftLeft, Nat.shiftLeft_eq]
  push_cast
  rw [hl]
  show _ % _ = _ % _
  rw [Int.add_mul_emod_self_right, Int.emod_emod_of_dvd _ (dvd_refl _), add_mul, mul_right_comm,
    Int.add_mul_emod_self_right]

theorem shr_div (hw : 0 < W.width) {x : Int} (hx : W.Has x) (n : Nat) :
    W.num (if W.signed then (W.bits x).sshiftRight n else W.bits x >>> n) = x / 2 ^ n := by
  have h := num_bits hw hx
  unfold num at h ⊢
  rcases hs : W.signed with _ | _
  · simp only [hs, Bool.false_eq_true, if_false] at h ⊢
    rw [BitVec.toNat_ushiftRight, Nat.shiftRight_eq_div_pow]
    push_cast
    rw [h]
  · simp only [hs, if_true] at h ⊢
    rw [BitVec.toInt_sshiftRight, h, Int.shiftRight_eq_div_pow]
    push_cast; rfl

theorem tmod_isRemainder {x y : Int} (hy : y ≠ 0) : IsRemainder (x.tmod y) x y := by
  refine ⟨?_, ?_, ?_⟩
  · have h := Int.natAbs_tmod x y
    have := Nat.mod_lt x.natAbs (Int.natAbs_pos.2 hy)
    rw [Int.abs_eq_natAbs, Int.abs_eq_natAbs, h]
    exact_mod_cast this
  · refine ⟨x.tdiv y, ?_⟩
    have := Int.mul_tdiv_add_tmod x y
    linarith
  · rcases le_total 0 x with h | h
    · exact mul_nonneg (Int.tmod_nonneg y h) h
    · have := Int.tmod_nonneg y (show 0 ≤ -x by omega)
      rw [Int.neg_tmod] at this
      exact mul_nonneg_of_nonpos_of_nonpos (by omega) h

/-- Between 0 and the dividend there are only numbers of the type. -/
theorem remainder_has (hw : 0 < W.width) {v x y : Int} (hx : W.Has x) (h : IsRemainder v x y) (hv : |v| ≤ |x|) : W.Has v := by
  have h0 : W.lo ≤ 0 ∧ 0 ≤ W.hi := by
    have hp1 : (0 : Int) < 2 ^ (W.width - 1) := by positivity
    have hp2 : (0 : Int) < 2 ^ W.width := by positivity
    unfold lo hi
    split <;> constructor <;> omega
  have h1 := h.2.2
  unfold Has at *
  rcases lt_trichotomy x 0 with hn | hn | hn
  · have : v ≤ 0 := by
      by_contra hc
      have := mul_neg_of_pos_of_neg (not_le.1 hc) hn
      omega
    rw [abs_of_neg hn, abs_of_nonpos this] at hv
    constructor <;> omega
  · rw [hn, abs_zero] at hv
    have := abs_nonpos_iff.1 hv
    rw [this]; exact h0
  · have : 0 ≤ v := by
      by_contra hc
      have := mul_neg_of_neg_of_pos (not_le.1 hc) hn
      omega
    rw [abs_of_pos hn, abs_of_nonneg this] at hv
    constructor <;> omega

theorem tmod_abs_le (x y : Int) : |x.tmod y| ≤ |x| := by
  rw [Int.abs_eq_natAbs, Int.abs_eq_natAbs, Int.natAbs_tmod]
  exact_mod_cast Nat.mod_le _ _

end Word

end Verif
