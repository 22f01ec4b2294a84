import Verif.Spec.IntOps
import Verif.Model.IeeeRem
import Verif.Lemmas.IeeeNearest

/-! # The remainder of two floats is a float -/

namespace Verif

variable {p emax : Nat}

/-- `x - k y` is a number of the format if it is below `y`. -/
theorem isNumber_rem {x y : ℚ} (hp : 0 < p) (hx : IsNumber p emax x) (hy : IsNumber p emax y) (h0 : 0 ≤ x) (hy0 : 0 < y) :
    IsNumber p emax (x - ⌊x / y⌋ * y) := by
  rcases lt_or_ge x y with hlt | h1
  · have : ⌊x / y⌋ = 0 := Int.floor_eq_zero_iff.2 ⟨by positivity, (div_lt_one hy0).2 hlt⟩
    rw [this]; simpa using hx
  have hfl : (⌊x / y⌋ : ℚ) * y ≤ x := (le_div_iff₀ hy0).1 (Int.floor_le _)
  have hfu : x < (⌊x / y⌋ : ℚ) * y + y := by
    have := (div_lt_iff₀ hy0).1 (Int.lt_floor_add_one (x / y))
    linarith
  generalize ⌊x / y⌋ = n at *
  have hl : (2 : ℚ) ^ Int.log 2 |y| ≤ y := by rw [abs_of_pos hy0]; exact zpow_log_le hy0
  obtain ⟨k, hk⟩ := multiple_of_ulp hx.bits (lt_of_lt_of_le hy0 h1) (hl.trans h1)
  obtain ⟨j, hj⟩ := multiple_of_ulp hy.bits hy0 hl
  have hu := ulp_pos p y
  refine ⟨?_, ?_, ?_⟩
  · have e : x - n * y = ((k - n * j : ℤ) : ℚ) * 2 ^ (Int.log 2 |y| + 1 - (p : ℤ)) := by
      push_cast
      rw [sub_mul, ← ulp_eq, mul_assoc, ← hj, ← hk]
    have hlt : y < 2 ^ p * ulp p y := by
      rw [ulp_eq, ← zpow_natCast, ← zpow_add₀ (by norm_num)]
      have := lt_zpow_log (x := y)
      rw [abs_of_pos hy0]
      convert this using 2
      omega
    rw [e]
    refine rnd_grid hp ?_ _
    have h3 : ((k - n * j : ℤ) : ℚ) * ulp p y ≤ 2 ^ p * ulp p y := by
      rw [ulp_eq, ← e, ← ulp_eq]; linarith
    have h4 : (0 : ℚ) ≤ ((k - n * j : ℤ) : ℚ) * ulp p y := by rw [ulp_eq, ← e]; linarith
    have h5 : ((k - n * j : ℤ) : ℚ) ≤ 2 ^ p := le_of_mul_le_mul_right h3 hu
    have h6 : (0 : ℚ) ≤ ((k - n * j : ℤ) : ℚ) := nonneg_of_mul_nonneg_left h4 hu
    rw [abs_of_nonneg (by exact_mod_cast h6)]
    exact_mod_cast h5
  · obtain ⟨a, ha⟩ := hx.grid
    obtain ⟨b, hb⟩ := hy.grid
    exact ⟨a - n * b, by push_cast; rw [sub_mul, mul_assoc, ← hb, ← ha]⟩
  · rw [abs_of_nonneg (by linarith)]
    have := hy.range
    rw [abs_of_pos hy0] at this
    linarith

variable [NeZero p]

/-- `x % y` on finite numbers is exact. -/
theorem Ieee.rem_exact {x y : Ieee p emax} (hx : x.Finite) (hy : y.Finite) (h0 : y.val ≠ 0) :
    (x.rem y).Finite ∧ IsRemainderQ (x.rem y).val x.val y.val := by
  cases x with
  | nan => exact hx.elim
  | inf => exact hx.elim
  | num s x hx0 hxn =>
  cases y with
  | nan => exact hy.elim
  | inf => exact hy.elim
  | num t y hy0 hyn =>
  have hy1 : y ≠ 0 := by
    rintro rfl
    exact h0 (show signed t 0 = 0 by unfold signed; split <;> simp)
  have hyp : 0 < y := lt_of_le_of_ne hy0 (Ne.symm hy1)
  have hfl : (⌊x / y⌋ : ℚ) * y ≤ x := (le_div_iff₀ hyp).1 (Int.floor_le _)
  have hfu : x < (⌊x / y⌋ : ℚ) * y + y := by
    have := (div_lt_iff₀ hyp).1 (Int.lt_floor_add_one (x / y))
    linarith
  have e : (num s x hx0 hxn : Ieee p emax).rem (num t y hy0 hyn) =
      num s (x - ⌊x / y⌋ * y) (by linarith) (isNumber_rem (Nat.pos_of_neZero p) hxn hyn hx0 hyp) := by
    unfold Ieee.rem
    simp only [if_neg hy1]
    exact pack_self _ _
  rw [e]
  refine ⟨trivial, ?_⟩
  show IsRemainderQ (signed s (x - ⌊x / y⌋ * y)) (signed s x) (signed t y)
  unfold signed
  clear e
  generalize ⌊x / y⌋ = n at *
  have h1 : (0 : ℚ) ≤ x - n * y := by linarith
  refine ⟨?_, ⟨if s = t then n else -n, ?_⟩, ?_⟩
  · have ha : ∀ (b : Bool) (z : ℚ), |if b = true then -z else z| = |z| := fun b z => by cases b <;> simp
    rw [ha, ha, abs_of_nonneg h1, abs_of_pos hyp]
    linarith
  · cases s <;> cases t <;> simp <;> ring
  · have := mul_nonneg h1 hx0
    cases s <;> simp <;> linarith

end Verif
