import Verif.Spec.Rounding
import Mathlib.Tactic.Linarith
import Mathlib.Tactic.Positivity
import Mathlib.Tactic.FieldSimp
import Mathlib.Tactic.Ring

/-! # Lemmas about rounding -/

namespace Verif

theorem le_roundEven {x : ℚ} {k : ℤ} (h : (k : ℚ) ≤ x) : k ≤ roundEven x := by
  have := Int.le_floor.2 h
  unfold roundEven
  split_ifs <;> omega

theorem abs_sub_roundEven (x : ℚ) : |x - roundEven x| ≤ 1 / 2 := by
  have h := Int.floor_add_fract x
  have h0 := Int.fract_nonneg x
  have h1 := Int.fract_lt_one x
  unfold roundEven
  rw [abs_le]
  split_ifs <;> push_cast <;> constructor <;> linarith

theorem roundEven_le {x : ℚ} {k : ℤ} (h : x ≤ (k : ℚ)) : roundEven x ≤ k := by
  rcases eq_or_lt_of_le h with rfl | h
  · simp [roundEven]
  · have := Int.floor_lt.2 h
    unfold roundEven
    split_ifs <;> omega

theorem roundEven_int (k : ℤ) : roundEven (k : ℚ) = k := le_antisymm (roundEven_le le_rfl) (le_roundEven le_rfl)

theorem roundEven_neg (x : ℚ) : roundEven (-x) = -roundEven x := by
  by_cases hx : Int.fract x = 0
  · obtain ⟨z, hz⟩ := Int.fract_eq_zero_iff.1 hx
    rw [← hz, ← Int.cast_neg, roundEven_int, roundEven_int]
  · have hf := Int.fract_neg hx
    have hfl : ⌊-x⌋ = -⌊x⌋ - 1 := by
      have h1 := Int.floor_add_fract x
      have h2 := Int.floor_add_fract (-x)
      have : ((⌊-x⌋ : ℤ) : ℚ) = ((-⌊x⌋ - 1 : ℤ) : ℚ) := by push_cast; linarith
      exact_mod_cast this
    have h0 := Int.fract_nonneg x
    unfold roundEven
    rw [hf, hfl]
    split_ifs <;> first | omega | (exfalso; linarith)

theorem ulp_pos (p : Nat) (x : ℚ) : 0 < ulp p x := zpow_pos (by norm_num) _

theorem ulp_neg (p : Nat) (x : ℚ) : ulp p (-x) = ulp p x := by unfold ulp; rw [abs_neg]

theorem rnd_neg (p : Nat) (x : ℚ) : rnd p (-x) = -rnd p x := by
  unfold rnd; rw [ulp_neg, neg_div, roundEven_neg]; push_cast; ring

theorem rnd_zero (p : Nat) : rnd p 0 = 0 := by
  unfold rnd; rw [zero_div]; rw [show (0 : ℚ) = ((0 : ℤ) : ℚ) by simp, roundEven_int]; simp

theorem ulp_of {p : Nat} {x : ℚ} {e : ℤ} (h1 : (2 : ℚ) ^ e ≤ x) (h2 : x < 2 ^ (e + 1)) : ulp p x = 2 ^ (e + 1 - (p : ℤ)) := by
  have hx : 0 < x := lt_of_lt_of_le (zpow_pos (by norm_num) _) h1
  unfold ulp
  rw [abs_of_pos hx]
  have a := (Int.zpow_le_iff_le_log (b := 2) (by norm_num) hx).1 (by exact_mod_cast h1)
  have b := (Int.lt_zpow_iff_log_lt (b := 2) (by norm_num) hx).1 (by exact_mod_cast h2)
  have : Int.log 2 x = e := by omega
  rw [this]

/-- Rounding, computed from the exponent. -/
theorem rnd_of {p : Nat} {x : ℚ} {e : ℤ} {m : ℤ} (h1 : (2 : ℚ) ^ e ≤ x) (h2 : x < 2 ^ (e + 1))
    (hm : roundEven (x / 2 ^ (e + 1 - (p : ℤ))) = m) : rnd p x = m * 2 ^ (e + 1 - (p : ℤ)) := by
  unfold rnd; rw [ulp_of h1 h2, hm]

theorem roundEven_of {x : ℚ} {m : ℤ} (h1 : (m : ℚ) - 1 / 2 < x) (h2 : x < m + 1 / 2) : roundEven x = m := by
  have h := abs_le.1 (abs_sub_roundEven x)
  have a : ((roundEven x : ℤ) : ℚ) < ((m + 1 : ℤ) : ℚ) := by push_cast; linarith
  have b : ((m - 1 : ℤ) : ℚ) < ((roundEven x : ℤ) : ℚ) := by push_cast; linarith
  have a' : roundEven x < m + 1 := by exact_mod_cast a
  have b' : m - 1 < roundEven x := by exact_mod_cast b
  omega

/-- Relative error. -/
theorem abs_sub_rnd (p : Nat) (x : ℚ) : |x - rnd p x| ≤ ulp p x / 2 := by
  have hu := ulp_pos p x
  have h := abs_sub_roundEven (x / ulp p x)
  have : x - rnd p x = (x / ulp p x - roundEven (x / ulp p x)) * ulp p x := by
    unfold rnd; field_simp
  rw [this, abs_mul, abs_of_pos hu]
  nlinarith

theorem zpow_log_le {x : ℚ} (hx : 0 < x) : (2 : ℚ) ^ Int.log 2 x ≤ x := by
  have := Int.zpow_log_le_self (b := 2) (by norm_num) hx
  exact_mod_cast this

theorem lt_zpow_log {x : ℚ} : x < (2 : ℚ) ^ (Int.log 2 x + 1) := by
  have := Int.lt_zpow_succ_log_self (b := 2) (by norm_num) x
  exact_mod_cast this

/-- A natural number is a multiple of the unit in the last place of numbers of at most `2 ^ p`. -/
theorem nat_div_ulp {p : Nat} {x : ℚ} (hx : 0 < x) (hp : x < 2 ^ p) (k : Nat) : ∃ z : ℤ, (k : ℚ) / ulp p x = z := by
  have hlog : Int.log 2 x + 1 ≤ p := by
    have h1 := zpow_log_le hx
    have h2 : (2 : ℚ) ^ Int.log 2 x < 2 ^ (p : ℤ) := by
      rw [zpow_natCast]; exact lt_of_le_of_lt h1 hp
    have := (zpow_lt_zpow_iff_right₀ (by norm_num : (1 : ℚ) < 2)).1 h2
    omega
  obtain ⟨j, hj⟩ : ∃ j : ℕ, (j : ℤ) = p - (Int.log 2 x + 1) := ⟨((p : ℤ) - (Int.log 2 x + 1)).toNat, by omega⟩
  refine ⟨(k : ℤ) * 2 ^ j, ?_⟩
  unfold ulp
  rw [abs_of_pos hx, show Int.log 2 x + 1 - (p : ℤ) = -(j : ℤ) by omega, zpow_neg, zpow_natCast]
  push_cast
  field_simp

theorem rnd_two_pow (p : Nat) (hp : 0 < p) : rnd p (2 ^ p) = 2 ^ p := by
  obtain ⟨q, rfl⟩ : ∃ q, p = q + 1 := ⟨p - 1, by omega⟩
  rw [rnd_of (e := ((q + 1 : ℕ) : ℤ)) (m := 2 ^ q) (by rw [zpow_natCast])
    (by rw [show ((q + 1 : ℕ) : ℤ) + 1 = ((q + 2 : ℕ) : ℤ) by push_cast; ring, zpow_natCast]
        exact pow_lt_pow_right₀ (by norm_num) (by omega))]
  · push_cast
    rw [show ((q : ℤ) + 1 + 1 - (q + 1)) = ((1 : ℕ) : ℤ) by push_cast; ring, zpow_natCast]
    ring
  · rw [show ((q + 1 : ℕ) : ℤ) + 1 - ((q + 1 : ℕ) : ℤ) = ((1 : ℕ) : ℤ) by push_cast; ring, zpow_natCast]
    rw [show (2 : ℚ) ^ (q + 1) / 2 ^ 1 = (((2 : ℤ) ^ q : ℤ) : ℚ) by push_cast; rw [pow_succ]; ring]
    exact roundEven_int _

theorem rnd_le_nat {p : Nat} (hp : 0 < p) {x : ℚ} {k : Nat} (hx : 0 < x) (hxk : x ≤ k) (hk : (k : ℚ) ≤ 2 ^ p) : rnd p x ≤ k := by
  rcases lt_or_eq_of_le (hxk.trans hk) with h | h
  · obtain ⟨z, hz⟩ := nat_div_ulp hx h k
    have hu := ulp_pos p x
    have h1 : roundEven (x / ulp p x) ≤ z := roundEven_le (by rw [← hz]; gcongr)
    have h2 : ((roundEven (x / ulp p x) : ℤ) : ℚ) ≤ z := by exact_mod_cast h1
    unfold rnd
    rw [← hz, le_div_iff₀ hu] at h2
    exact h2
  · have hk' : (k : ℚ) = 2 ^ p := le_antisymm hk (h ▸ hxk)
    rw [h, hk', rnd_two_pow p hp]

theorem nat_le_rnd {p : Nat} (hp : 0 < p) {x : ℚ} {k : Nat} (hx : 0 < x) (hxk : k ≤ x) (hk : x ≤ 2 ^ p) : k ≤ rnd p x := by
  rcases lt_or_eq_of_le hk with h | h
  · obtain ⟨z, hz⟩ := nat_div_ulp hx h k
    have hu := ulp_pos p x
    have h1 : z ≤ roundEven (x / ulp p x) := le_roundEven (by rw [← hz]; gcongr)
    have h2 : (z : ℚ) ≤ (roundEven (x / ulp p x) : ℤ) := by exact_mod_cast h1
    unfold rnd
    rw [← hz, div_le_iff₀ hu] at h2
    exact h2
  · rw [h, rnd_two_pow p hp, ← h]; exact hxk

theorem rnd_nat {p : Nat} (hp : 0 < p) {k : Nat} (hk : k ≤ 2 ^ p) : rnd p (k : ℚ) = k := by
  rcases Nat.eq_zero_or_pos k with rfl | h0
  · simpa using rnd_zero p
  · have hx : (0 : ℚ) < k := by exact_mod_cast h0
    have hk' : (k : ℚ) ≤ 2 ^ p := by exact_mod_cast hk
    exact le_antisymm (rnd_le_nat hp hx le_rfl hk') (nat_le_rnd hp hx le_rfl hk')

theorem rnd_int {p : Nat} (hp : 0 < p) {k : ℤ} (hk : |k| ≤ 2 ^ p) : rnd p (k : ℚ) = k := by
  rcases le_total 0 k with h | h
  · obtain ⟨n, rfl⟩ := Int.eq_ofNat_of_zero_le h
    rw [abs_of_nonneg h] at hk
    exact_mod_cast rnd_nat hp (by exact_mod_cast hk)
  · obtain ⟨n, hn⟩ := Int.eq_ofNat_of_zero_le (neg_nonneg.2 h)
    obtain rfl : k = -(n : ℤ) := by omega
    rw [abs_neg, abs_of_nonneg (by positivity)] at hk
    push_cast
    rw [rnd_neg, rnd_nat hp (by exact_mod_cast hk)]

theorem rnd_pos {p : Nat} (hp : 0 < p) {x : ℚ} (hx : 0 < x) : 0 < rnd p x := by
  have hu := ulp_pos p x
  unfold rnd
  refine mul_pos ?_ hu
  have h1 : ((1 : ℤ) : ℚ) ≤ x / ulp p x := by
    rw [le_div_iff₀ hu]
    push_cast
    rw [one_mul]
    refine le_trans ?_ (zpow_log_le hx)
    unfold ulp
    rw [abs_of_pos hx]
    exact zpow_le_zpow_right₀ (by norm_num) (by omega)
  have := le_roundEven h1
  exact_mod_cast (by omega : 0 < roundEven (x / ulp p x))

/-- Rounding does not make a positive fraction smaller than a power of two below it. -/
theorem two_pow_le_rnd {p : Nat} {x : ℚ} {e : ℤ} (h : (2 : ℚ) ^ e ≤ x) (hp : 0 < p) : (2 : ℚ) ^ e ≤ rnd p x := by
  have hx : 0 < x := lt_of_lt_of_le (zpow_pos (by norm_num) _) h
  have hlog : e ≤ Int.log 2 x := (Int.zpow_le_iff_le_log (b := 2) (by norm_num) hx).1 (by exact_mod_cast h)
  refine le_trans (zpow_le_zpow_right₀ (by norm_num) hlog) ?_
  have hu := ulp_pos p x
  obtain ⟨q, rfl⟩ : ∃ q, p = q + 1 := ⟨p - 1, by omega⟩
  have hpow : (2 : ℚ) ^ Int.log 2 x = ((2 ^ q : ℤ) : ℚ) * ulp (q + 1) x := by
    unfold ulp
    rw [abs_of_pos hx]
    push_cast
    rw [← zpow_natCast, ← zpow_add₀ (by norm_num)]
    congr 1; ring
  have h1 : (((2 : ℤ) ^ q : ℤ) : ℚ) ≤ x / ulp (q + 1) x := by
    rw [le_div_iff₀ hu, ← hpow]; exact zpow_log_le hx
  have h2 := le_roundEven h1
  have h3 : (((2 : ℤ) ^ q : ℤ) : ℚ) ≤ ((roundEven (x / ulp (q + 1) x) : ℤ) : ℚ) := by exact_mod_cast h2
  unfold rnd
  rw [hpow]
  gcongr

/-- The number of steps computed from a rounded quotient is exact, as long as the dividend has at most `p` bits. -/
theorem ceil_rnd_div {p : Nat} (hp : 0 < p) {a b : Nat} (ha : 0 < a) (hap : a ≤ 2 ^ p) (hb : 0 < b) :
    ⌈rnd p ((a : ℚ) / b)⌉ = ⌈(a : ℚ) / b⌉ := by
  have hb' : (0 : ℚ) < b := by exact_mod_cast hb
  have ha' : (0 : ℚ) < a := by exact_mod_cast ha
  have hx : 0 < (a : ℚ) / b := by positivity
  have hap' : (a : ℚ) ≤ 2 ^ p := by exact_mod_cast hap
  have hb1 : (1 : ℚ) ≤ b := by exact_mod_cast hb
  have hxa : (a : ℚ) / b ≤ a := div_le_self ha'.le hb1
  obtain ⟨z, hz⟩ : ∃ z : ℕ, ⌈(a : ℚ) / b⌉ = ((z + 1 : ℕ) : ℤ) := by
    have : 0 < ⌈(a : ℚ) / b⌉ := Int.ceil_pos.2 hx
    exact ⟨(⌈(a : ℚ) / b⌉ - 1).toNat, by omega⟩
  rw [hz, Int.ceil_eq_iff]
  rw [Int.ceil_eq_iff] at hz
  obtain ⟨h1, h2⟩ := hz
  push_cast at h1 h2 ⊢
  have hza : ((z + 1 : ℕ) : ℚ) ≤ a := by
    have : ⌈(a : ℚ) / b⌉ ≤ (a : ℤ) := Int.ceil_le.2 (by exact_mod_cast hxa)
    have hz' : ⌈(a : ℚ) / b⌉ = ((z + 1 : ℕ) : ℤ) := by rw [Int.ceil_eq_iff]; push_cast; exact ⟨h1, h2⟩
    rw [hz'] at this
    exact_mod_cast this
  constructor
  · by_contra hle
    rw [not_lt] at hle
    have hzlt : (z : ℚ) < (a : ℚ) / b := by linarith
    rcases Nat.eq_zero_or_pos z with rfl | hz0
    · have := rnd_pos hp hx
      push_cast at hle
      linarith
    · have herr := abs_le.1 (abs_sub_rnd p ((a : ℚ) / b))
      have hdiff : (a : ℚ) / b - z ≤ ulp p ((a : ℚ) / b) / 2 := by linarith [herr.2]
      have h1b : 1 / (b : ℚ) ≤ (a : ℚ) / b - z := by
        have : z * b + 1 ≤ a := by
          have : (z : ℚ) * b < a := by rwa [lt_div_iff₀ hb'] at hzlt
          have : z * b < a := by exact_mod_cast this
          omega
        have h' : (z : ℚ) * b + 1 ≤ a := by exact_mod_cast this
        rw [div_le_iff₀ hb', sub_mul, div_mul_cancel₀ _ (ne_of_gt hb')]
        linarith
      have hulp : ulp p ((a : ℚ) / b) / 2 = 2 ^ Int.log 2 ((a : ℚ) / b) / 2 ^ p := by
        unfold ulp
        rw [abs_of_pos hx, show Int.log 2 ((a : ℚ) / b) + 1 - (p : ℤ) = Int.log 2 ((a : ℚ) / b) + (1 - (p : ℤ)) by ring,
          zpow_add₀ (by norm_num), zpow_sub₀ (by norm_num), zpow_natCast]
        field_simp
      have hzlog : (2 : ℚ) ^ Int.log 2 ((a : ℚ) / b) ≤ z := by
        have hlog0 : 0 ≤ Int.log 2 ((a : ℚ) / b) := by
          have h1x : ((2 : ℕ) : ℚ) ^ (0 : ℤ) ≤ (a : ℚ) / b := by
            have : (1 : ℚ) ≤ z := by exact_mod_cast hz0
            simp; linarith
          exact (Int.zpow_le_iff_le_log (by norm_num) hx).1 h1x
        obtain ⟨e, he⟩ := Int.eq_ofNat_of_zero_le hlog0
        have hle' := zpow_log_le hx
        rw [he, zpow_natCast] at hle' ⊢
        have : ((2 ^ e : ℕ) : ℚ) < ((z + 1 + 1 : ℕ) : ℚ) := by push_cast; linarith
        have : 2 ^ e < z + 1 + 1 := by exact_mod_cast this
        rcases Nat.lt_or_ge (2 ^ e) (z + 1) with h | h
        · have : 2 ^ e ≤ z := by omega
          exact_mod_cast this
        · have hez : 2 ^ e = z + 1 := by omega
          have : ((z : ℚ) + 1) ≤ (a : ℚ) / b := by
            have : ((2 ^ e : ℕ) : ℚ) = ((z + 1 : ℕ) : ℚ) := by rw [hez]
            push_cast at this
            linarith
          -- then the quotient is a power of two and rounding is exact
          have hq : (a : ℚ) / b = ((z + 1 : ℕ) : ℚ) := by push_cast; linarith
          exfalso
          have hr : rnd p ((a : ℚ) / b) = ((z + 1 : ℕ) : ℚ) := by
            rw [hq]; exact rnd_nat hp (by
              have : ((z + 1 : ℕ) : ℚ) ≤ 2 ^ p := le_trans hza hap'
              exact_mod_cast this)
          rw [hr] at hle
          push_cast at hle
          linarith
      have h2p : (0 : ℚ) < 2 ^ p := by positivity
      have hchain : 1 / (b : ℚ) ≤ (z : ℚ) / 2 ^ p := by
        calc 1 / (b : ℚ) ≤ (a : ℚ) / b - z := h1b
          _ ≤ _ := hdiff
          _ = _ := hulp
          _ ≤ _ := by gcongr
      rw [div_le_div_iff₀ hb' h2p] at hchain
      rw [lt_div_iff₀ hb'] at hzlt
      linarith
  · have := rnd_le_nat hp hx (k := z + 1) (by push_cast; exact h2) (le_trans hza hap')
    push_cast at this
    exact this

theorem ulp_scale {p : Nat} {x : ℚ} (hx : x ≠ 0) (e : ℤ) : ulp p (x * 2 ^ e) = ulp p x * 2 ^ e := by
  have he : (0 : ℚ) < 2 ^ e := zpow_pos (by norm_num) _
  have ha : 0 < |x| := abs_pos.2 hx
  have hl : Int.log 2 (|x| * 2 ^ e) = Int.log 2 |x| + e := by
    have h0 : 0 < |x| * 2 ^ e := mul_pos ha he
    have h1 := Int.zpow_log_le_self (b := 2) (by norm_num) ha
    have h2 := Int.lt_zpow_succ_log_self (b := 2) (by norm_num) |x|
    have a := (Int.zpow_le_iff_le_log (b := 2) (x := Int.log 2 |x| + e) (by norm_num) h0).1 (by
      rw [zpow_add₀ (by norm_num)]
      push_cast at h1 ⊢
      exact mul_le_mul_of_nonneg_right h1 he.le)
    have b := (Int.lt_zpow_iff_log_lt (b := 2) (x := Int.log 2 |x| + 1 + e) (by norm_num) h0).1 (by
      rw [zpow_add₀ (by norm_num)]
      push_cast at h2 ⊢
      exact mul_lt_mul_of_pos_right h2 he)
    omega
  unfold ulp
  rw [abs_mul, abs_of_pos he, hl, ← zpow_add₀ (by norm_num)]
  congr 1; ring

/-- Rounding commutes with multiplication by powers of two. -/
theorem rnd_scale (p : Nat) (x : ℚ) (e : ℤ) : rnd p (x * 2 ^ e) = rnd p x * 2 ^ e := by
  rcases eq_or_ne x 0 with rfl | hx
  · rw [zero_mul, rnd_zero, zero_mul]
  · have he : (2 : ℚ) ^ e ≠ 0 := (zpow_pos (by norm_num) _).ne'
    unfold rnd
    rw [ulp_scale hx, mul_div_mul_right _ _ he, mul_assoc]

/-- Multiples of a power of two are floating-point numbers. -/
theorem rnd_grid {p : Nat} (hp : 0 < p) {k : ℤ} (hk : |k| ≤ 2 ^ p) (e : ℤ) : rnd p (k * 2 ^ e) = k * 2 ^ e := by
  rw [rnd_scale, rnd_int hp hk]

end Verif
