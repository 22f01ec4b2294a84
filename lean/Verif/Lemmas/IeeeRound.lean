import Verif.Spec.Ieee
import Verif.Model.FloatArith

/-! # Rounding to a format with subnormal numbers -/

namespace Verif

variable {p emax : Nat}

theorem OnGrid.mono {q r : ℤ} {x : ℚ} (h : OnGrid q x) (hqr : q ≤ r) : OnGrid r x := by
  obtain ⟨k, rfl⟩ := h
  obtain ⟨n, hn⟩ := Int.le.dest hqr
  refine ⟨k * 2 ^ n, ?_⟩
  push_cast
  rw [mul_assoc, ← zpow_natCast, ← zpow_add₀ (by norm_num), ← hn]
  congr 2
  ring

theorem OnGrid.add {q : ℤ} {x y : ℚ} (h : OnGrid q x) (h' : OnGrid q y) : OnGrid q (x + y) := by
  obtain ⟨k, rfl⟩ := h
  obtain ⟨l, rfl⟩ := h'
  exact ⟨k + l, by push_cast; ring⟩

theorem OnGrid.mul {q r : ℤ} {x y : ℚ} (h : OnGrid q x) (h' : OnGrid r y) : OnGrid (q + r) (x * y) := by
  obtain ⟨k, rfl⟩ := h
  obtain ⟨l, rfl⟩ := h'
  refine ⟨k * l, ?_⟩
  rw [neg_add, zpow_add₀ (by norm_num)]
  push_cast; ring

theorem OnGrid.neg {q : ℤ} {x : ℚ} (h : OnGrid q x) : OnGrid q (-x) := by
  obtain ⟨k, rfl⟩ := h
  exact ⟨-k, by push_cast; ring⟩

theorem onGrid_zero (q : ℤ) : OnGrid q 0 := ⟨0, by simp⟩

theorem onGrid_int {x : ℚ} (h : IsInt x) : OnGrid 0 x := by
  obtain ⟨k, rfl⟩ := h
  exact ⟨k, by simp⟩

theorem ulp_eq (p : Nat) (x : ℚ) : ulp p x = 2 ^ (Int.log 2 |x| + 1 - (p : ℤ)) := rfl

theorem rnd_eq (p : Nat) (x : ℚ) : rnd p x = roundEven (x / ulp p x) * ulp p x := rfl

/-- On a grid coarser than the spacing nothing is lost. -/
theorem rnd_onGrid_of_le {q : ℤ} {x : ℚ} (h : OnGrid q x) (hu : ulp p x ≤ 2 ^ (-q)) : rnd p x = x := by
  obtain ⟨k, hk⟩ := h
  rw [ulp_eq] at hu
  have he := (zpow_le_zpow_iff_right₀ (by norm_num : (1 : ℚ) < 2)).1 hu
  obtain ⟨n, hn⟩ := Int.le.dest he
  have hx : x = ((k * 2 ^ n : ℤ) : ℚ) * ulp p x := by
    rw [ulp_eq]
    push_cast
    rw [mul_assoc, ← zpow_natCast, ← zpow_add₀ (by norm_num), add_comm (n : ℤ), hn]
    exact hk
  have hd : x / ulp p x = ((k * 2 ^ n : ℤ) : ℚ) := (div_eq_iff (ulp_pos p _).ne').2 hx
  rw [rnd_eq, hd, roundEven_int, ← hx]

/-- Rounding stays on the grid. -/
theorem OnGrid.rnd {q : ℤ} {x : ℚ} (h : OnGrid q x) : OnGrid q (rnd p x) := by
  by_cases hu : ulp p x ≤ 2 ^ (-q)
  · rw [rnd_onGrid_of_le h hu]; exact h
  · have hu' : (2 : ℚ) ^ (-q) ≤ 2 ^ (Int.log 2 |x| + 1 - (p : ℤ)) := (not_le.1 hu).le
    have he := (zpow_le_zpow_iff_right₀ (by norm_num : (1 : ℚ) < 2)).1 hu'
    have h1 : OnGrid (-(Int.log 2 |x| + 1 - (p : ℤ))) (Verif.rnd p x) := ⟨_, by rw [neg_neg]; exact rnd_eq p x⟩
    exact h1.mono (by omega)

/-- Numbers on the grid of the format are rounded as if there were no least exponent. -/
theorem rndTiny_of_grid {x : ℚ} (h : OnGrid (-tiny p emax) x) : rndTiny p emax x = rnd p x := by
  unfold rndTiny
  by_cases hu : ulp p x ≤ 2 ^ tiny p emax
  · rw [max_eq_right hu, rnd_onGrid_of_le h (by rwa [neg_neg])]
    obtain ⟨k, hk⟩ := h
    rw [neg_neg] at hk
    have : x / 2 ^ tiny p emax = (k : ℚ) := (div_eq_iff (zpow_pos (by norm_num) _).ne').2 hk
    rw [this, roundEven_int, ← hk]
  · rw [max_eq_left (not_le.1 hu).le]; rfl

theorem rndTiny_grid (x : ℚ) : OnGrid (-tiny p emax) (rndTiny p emax x) := by
  unfold rndTiny
  by_cases hu : ulp p x ≤ 2 ^ tiny p emax
  · rw [max_eq_right hu]; exact ⟨_, by rw [neg_neg]⟩
  · have hu' := (not_le.1 hu).le
    rw [max_eq_left hu']
    have he := (zpow_le_zpow_iff_right₀ (by norm_num : (1 : ℚ) < 2)).1 (show (2 : ℚ) ^ tiny p emax ≤ _ from hu')
    have h1 : OnGrid (-(Int.log 2 |x| + 1 - (p : ℤ))) ((roundEven (x / ulp p x) : ℚ) * ulp p x) := ⟨_, by rw [neg_neg]; rfl⟩
    exact h1.mono (by omega)

theorem rndTiny_bits (hp : 0 < p) (x : ℚ) : rnd p (rndTiny p emax x) = rndTiny p emax x := by
  unfold rndTiny
  by_cases hu : ulp p x ≤ 2 ^ tiny p emax
  · rw [max_eq_right hu]
    refine rnd_grid hp ?_ _
    have h0 : |x / 2 ^ tiny p emax| ≤ (2 : ℚ) ^ p := by
      rw [abs_div, abs_of_pos (zpow_pos (by norm_num) _ : (0 : ℚ) < 2 ^ tiny p emax), div_le_iff₀ (zpow_pos (by norm_num) _)]
      refine (lt_zpow_log (x := |x|)).le.trans ?_
      have : (2 : ℚ) ^ (Int.log 2 |x| + 1) = 2 ^ p * ulp p x := by
        rw [ulp_eq, ← zpow_natCast, ← zpow_add₀ (by norm_num)]; congr 1; ring
      rw [this]
      exact mul_le_mul_of_nonneg_left hu (by positivity)
    have h := abs_le.1 h0
    rw [abs_le]
    exact ⟨le_roundEven (by push_cast; exact h.1), roundEven_le (by push_cast; exact h.2)⟩
  · rw [max_eq_left (not_le.1 hu).le]
    exact rnd_rnd hp x

theorem rndTiny_neg (x : ℚ) : rndTiny p emax (-x) = -rndTiny p emax x := by
  unfold rndTiny
  rw [ulp_neg, neg_div, roundEven_neg]
  push_cast; ring

theorem rndTiny_zero : rndTiny p emax 0 = 0 := by
  rw [rndTiny_of_grid (onGrid_zero _), rnd_zero]

theorem rndTiny_nonneg {x : ℚ} (h : 0 ≤ x) : 0 ≤ rndTiny p emax x := by
  unfold rndTiny
  have hm : 0 < max (ulp p x) (2 ^ tiny p emax) := lt_max_of_lt_left (ulp_pos p x)
  refine mul_nonneg ?_ hm.le
  have : (0 : ℤ) ≤ roundEven (x / max (ulp p x) (2 ^ tiny p emax)) := le_roundEven (by push_cast; exact div_nonneg h hm.le)
  exact_mod_cast this

end Verif
