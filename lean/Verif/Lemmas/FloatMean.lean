import Verif.Lemmas.FloatExact

/-!
# Division by a converted count
-/

namespace Verif

variable {p : Nat}

theorem abs_sub_roundEven_le (y : ℚ) (k : ℤ) : |y - roundEven y| ≤ |y - k| := by
  rcases le_or_gt (1 / 2) |y - k| with h | h
  · exact (abs_sub_roundEven y).trans h
  · have := abs_lt.1 h
    rw [roundEven_of (m := k) (by linarith) (by linarith)]

/-- Rounding to nearest changes a positive number by at most `u / (1 + u)` of it. -/
theorem abs_rnd_sub_le' (hp : 0 < p) {x : ℚ} (hx : 0 < x) : (1 + unitRoundoff p) * |rnd p x - x| ≤ unitRoundoff p * x := by
  have hu := unitRoundoff_pos p
  have hul := ulp_pos p x
  have hax : |x| = x := abs_of_pos hx
  have h2 : (2 : ℚ) ^ Int.log 2 x ≤ x := zpow_log_le hx
  have e : ulp p x = 2 * unitRoundoff p * 2 ^ Int.log 2 x := by
    unfold ulp unitRoundoff
    rw [hax, show Int.log 2 x + 1 - (p : ℤ) = Int.log 2 x + 1 + -(p : ℤ) by ring, zpow_add₀ (by norm_num),
      zpow_add₀ (by norm_num), zpow_neg, zpow_natCast, zpow_one]
    field_simp
  rcases le_or_gt ((1 + unitRoundoff p) * 2 ^ Int.log 2 x) x with h | h
  · have h1 := abs_sub_rnd p x
    rw [abs_sub_comm, e] at h1
    have : |rnd p x - x| ≤ unitRoundoff p * 2 ^ Int.log 2 x := by linarith
    calc (1 + unitRoundoff p) * |rnd p x - x| ≤ (1 + unitRoundoff p) * (unitRoundoff p * 2 ^ Int.log 2 x) :=
          mul_le_mul_of_nonneg_left this (by linarith)
      _ = unitRoundoff p * ((1 + unitRoundoff p) * 2 ^ Int.log 2 x) := by ring
      _ ≤ _ := mul_le_mul_of_nonneg_left h hu.le
  · have hk : (2 : ℚ) ^ Int.log 2 x / ulp p x = ((2 ^ (p - 1) : ℤ) : ℚ) := by
      rw [e]
      unfold unitRoundoff
      obtain ⟨q, rfl⟩ : ∃ q, p = q + 1 := ⟨p - 1, by omega⟩
      have : (2 : ℚ) ^ Int.log 2 x ≠ 0 := zpow_ne_zero _ (by norm_num)
      rw [Nat.add_sub_cancel]
      push_cast
      field_simp
      ring
    have h3 := abs_sub_roundEven_le (x / ulp p x) (2 ^ (p - 1))
    rw [← hk, ← sub_div] at h3
    have h4 : |rnd p x - x| ≤ |x - 2 ^ Int.log 2 x| := by
      have e1 : rnd p x - x = -((x / ulp p x - roundEven (x / ulp p x)) * ulp p x) := by unfold rnd; field_simp; ring
      rw [e1, abs_neg, abs_mul, abs_of_pos hul]
      rw [abs_div, abs_of_pos hul, le_div_iff₀ hul] at h3
      exact h3
    rw [abs_of_nonneg (show 0 ≤ x - 2 ^ Int.log 2 x by linarith)] at h4
    nlinarith

/-- The reciprocal of a converted count. -/
theorem near_recip (hp : 0 < p) {n : ℚ} (hn : 0 < n) : Near p 1 (1 / rnd p n) (1 / n) (1 / n) := by
  have hu := unitRoundoff_pos p
  have h := abs_rnd_sub_le' hp hn
  have hr : 0 < rnd p n := rnd_pos hp hn
  refine ⟨le_of_eq (abs_of_pos (by positivity)), ?_⟩
  have e : 1 / rnd p n - 1 / n = -(rnd p n - n) / (rnd p n * n) := by field_simp; ring
  rw [pow_one, add_sub_cancel_left, e, abs_div, abs_neg, abs_of_pos (mul_pos hr hn), div_le_iff₀ (mul_pos hr hn)]
  have e2 : unitRoundoff p * (1 / n) * (rnd p n * n) = unitRoundoff p * rnd p n := by field_simp
  rw [e2]
  have h1 : n - rnd p n ≤ |rnd p n - n| := by rw [abs_sub_comm]; exact le_abs_self _
  nlinarith [abs_nonneg (rnd p n - n)]

/-- Division of a result by a converted count. -/
theorem near_mean (hp : 0 < p) {m : Nat} {x e b : ℚ} (h : Near p m x e b) {n : Nat} (hn : 0 < n) :
    Near p (m + if n ≤ 2 ^ p then 1 else 2) (rnd p (x / rnd p n)) (e / n) (b / n) := by
  have hq : (0 : ℚ) < n := by exact_mod_cast hn
  split
  · rename_i hle
    rw [rnd_nat hp hle]
    have := h.mul (near_self (p := p) (x := 1 / n) (b := 1 / n) 0 (le_of_eq (abs_of_pos (by positivity))))
    simpa [div_eq_mul_inv] using this.rnd
  · have := (h.mul (near_recip hp hq)).rnd
    simpa [div_eq_mul_inv] using this

end Verif
