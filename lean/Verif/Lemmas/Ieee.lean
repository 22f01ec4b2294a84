import Verif.Model.Ieee

/-! # Values of IEEE operations -/

namespace Verif.Ieee

variable {p emax : Nat}

theorem signed_abs (s : Bool) (m : ℚ) : |signed s m| = |m| := by cases s <;> simp [signed]

theorem signed_mul (s t : Bool) (x y : ℚ) : signed s x * signed t y = signed (s ^^ t) (x * y) := by
  cases s <;> cases t <;> simp [signed]

theorem isNumber_neg {x : ℚ} (h : IsNumber p emax x) : IsNumber p emax (-x) :=
  ⟨by rw [rnd_neg, h.bits], h.grid.neg, by rw [abs_neg]; exact h.range⟩

theorem isNumber_val (x : Ieee p emax) : IsNumber p emax x.val := by
  cases x with
  | nan => exact isNumber_zero
  | inf _ => exact isNumber_zero
  | num s m h h' =>
    cases s
    · exact h'
    · exact isNumber_neg h'

variable [NeZero p]

theorem num_congr {s : Bool} {x y : ℚ} {h : 0 ≤ x} {h' : IsNumber p emax x} {k : 0 ≤ y} {k' : IsNumber p emax y} (e : x = y) :
    (num s x h h' : Ieee p emax) = num s y k k' := by
  subst e; rfl

/-- Rounding a number of magnitude `v` on the grid of the format. -/
theorem pack_val {v : ℚ} (s : Bool) (hg : OnGrid (-tiny p emax) v) (hr : |rnd p v| < 2 ^ (emax + 1)) (h0 : 0 ≤ v) :
    (pack s v : Ieee p emax).Finite ∧ (pack s v : Ieee p emax).val = signed s (rnd p v) := by
  have e : rndTiny p emax |v| = rnd p v := by rw [abs_of_nonneg h0, rndTiny_of_grid hg]
  unfold pack
  rw [dif_pos (by rw [e]; exact (le_abs_self _).trans_lt hr)]
  exact ⟨trivial, by show signed s (rndTiny p emax |v|) = _; rw [e]⟩

/-- Rounding with the number's own sign. -/
theorem packSum_val {v : ℚ} (b : Bool) (hg : OnGrid (-tiny p emax) v) (hr : |rnd p v| < 2 ^ (emax + 1)) :
    (packSum b v : Ieee p emax).Finite ∧ (packSum b v : Ieee p emax).val = rnd p v := by
  unfold packSum
  by_cases h0 : v = 0
  · rw [if_pos h0, h0, rnd_zero]
    exact ⟨trivial, by cases b <;> simp [zero, val, signed]⟩
  · rw [if_neg h0]
    rcases lt_or_gt_of_ne h0 with h | h
    · have e : (pack (decide (v < 0)) v : Ieee p emax) = pack true (-v) := by
        rw [decide_eq_true h]; unfold pack; simp only [abs_neg]
      have := pack_val (p := p) (emax := emax) true hg.neg (by rw [rnd_neg, abs_neg]; exact hr) (by linarith)
      rw [e]
      exact ⟨this.1, by rw [this.2, rnd_neg]; simp [signed]⟩
    · have e : (pack (decide (v < 0)) v : Ieee p emax) = pack false v := by
        rw [decide_eq_false (by linarith)]
      have := pack_val (p := p) (emax := emax) false hg hr h.le
      rw [e]
      exact ⟨this.1, by rw [this.2]; simp [signed]⟩

theorem add_val {x y : Ieee p emax} (hx : x.Finite) (hy : y.Finite) (hr : |rnd p (x.val + y.val)| < 2 ^ (emax + 1)) :
    (x + y).Finite ∧ (x + y).val = rnd p (x.val + y.val) := by
  have gx := (isNumber_val x).grid
  have gy := (isNumber_val y).grid
  match x, y, hx, hy with
  | num s a _ _, num t b _ _, _, _ => exact packSum_val _ (gx.add gy) hr

theorem mul_val {x y : Ieee p emax} (hx : x.Finite) (hy : y.Finite) (hg : OnGrid (-tiny p emax) (x.val * y.val))
    (hr : |rnd p (x.val * y.val)| < 2 ^ (emax + 1)) : (x * y).Finite ∧ (x * y).val = rnd p (x.val * y.val) := by
  match x, y, hx, hy with
  | num s a h _, num t b k _, _, _ =>
    have e : (num s a h ‹_› : Ieee p emax).val * (num t b k ‹_› : Ieee p emax).val = signed (s ^^ t) (a * b) := signed_mul s t a b
    rw [e] at hg hr ⊢
    have hg' : OnGrid (-tiny p emax) (a * b) := by
      cases hb : (s ^^ t) <;> rw [hb] at hg
      · exact hg
      · simpa [signed] using hg.neg
    have hr' : rnd p (signed (s ^^ t) (a * b)) = signed (s ^^ t) (rnd p (a * b)) := by
      cases (s ^^ t)
      · rfl
      · exact rnd_neg p _
    rw [hr'] at hr ⊢
    exact pack_val _ hg' (by rwa [signed_abs] at hr) (mul_nonneg h k)

theorem mulAdd_val {x y z : Ieee p emax} (hx : x.Finite) (hy : y.Finite) (hz : z.Finite)
    (hg : OnGrid (-tiny p emax) (x.val * y.val + z.val)) (hr : |rnd p (x.val * y.val + z.val)| < 2 ^ (emax + 1)) :
    (mulAdd x y z).Finite ∧ (mulAdd x y z).val = rnd p (x.val * y.val + z.val) := by
  match x, y, z, hx, hy, hz with
  | num .., num .., num .., _, _, _ => exact packSum_val _ hg hr

theorem zero_finite : (0 : Ieee p emax).Finite := trivial
theorem zero_val : (0 : Ieee p emax).val = 0 := rfl

theorem rnd_val_self (x : Ieee p emax) : rnd p x.val = x.val := (isNumber_val x).bits

/-- Adding the initial zero changes nothing but the sign of zero. -/
theorem zero_add_val {x : Ieee p emax} (hx : x.Finite) : (0 + x).Finite ∧ (0 + x).val = x.val := by
  have := add_val (x := 0) zero_finite hx (by rw [zero_val, zero_add, rnd_val_self]; exact (isNumber_val x).range)
  rwa [zero_val, zero_add, rnd_val_self] at this

theorem add_zero_val {x : Ieee p emax} (hx : x.Finite) : (x + 0).Finite ∧ (x + 0).val = x.val := by
  have := add_val (y := 0) hx zero_finite (by rw [zero_val, add_zero, rnd_val_self]; exact (isNumber_val x).range)
  rwa [zero_val, add_zero, rnd_val_self] at this

/-- Numbers of the format are packed as they are. -/
theorem pack_self {s : Bool} {m : ℚ} (h : 0 ≤ m) (h' : IsNumber p emax m) : (pack s m : Ieee p emax) = num s m h h' := by
  have e : rndTiny p emax |m| = m := by rw [abs_of_nonneg h, rndTiny_of_grid h'.grid, h'.bits]
  unfold pack
  rw [dif_pos (by rw [e]; exact (le_abs_self m).trans_lt h'.range)]
  exact num_congr e

theorem zero_add_zero : (0 + 0 : Ieee p emax) = 0 := by
  show packSum (false && false) (signed false 0 + signed false 0) = zero false
  simp [packSum, signed]

theorem add_nan (x : Ieee p emax) : x + nan = nan := by cases x <;> rfl
theorem nan_add (x : Ieee p emax) : nan + x = nan := rfl
theorem mul_nan (x : Ieee p emax) : x * nan = nan := by cases x <;> rfl
theorem nan_mul (x : Ieee p emax) : nan * x = nan := rfl

theorem nan_mulAdd (y z : Ieee p emax) : mulAdd nan y z = nan := by cases y <;> cases z <;> rfl
theorem mulAdd_nan_mid (x z : Ieee p emax) : mulAdd x nan z = nan := by
  cases x <;> cases z <;> rfl
theorem mulAdd_nan (x y : Ieee p emax) : mulAdd x y nan = nan := by
  cases x <;> cases y <;> first | rfl | exact add_nan _

theorem not_finite_iff {x : Ieee p emax} : ¬ x.Finite ↔ x = nan ∨ ∃ s, x = inf s := by
  cases x <;> simp [Finite]

theorem inf_add (s : Bool) (x : Ieee p emax) : ¬ (inf s + x).Finite := by
  cases x with
  | nan => exact id
  | inf t =>
    show ¬ (if s = t then (inf s : Ieee p emax) else nan).Finite
    split <;> exact id
  | num => exact id

theorem add_inf (x : Ieee p emax) (t : Bool) : ¬ (x + inf t).Finite := by
  cases x with
  | nan => exact id
  | inf s =>
    show ¬ (if s = t then (inf s : Ieee p emax) else nan).Finite
    split <;> exact id
  | num => exact id

theorem inf_mul (s : Bool) (x : Ieee p emax) : ¬ (inf s * x).Finite := by
  cases x with
  | nan => exact id
  | inf t => exact id
  | num t y =>
    show ¬ (if y = 0 then (nan : Ieee p emax) else inf (s ^^ t)).Finite
    split <;> exact id

theorem mul_inf (x : Ieee p emax) (t : Bool) : ¬ (x * inf t).Finite := by
  cases x with
  | nan => exact id
  | inf s => exact id
  | num s y =>
    show ¬ (if y = 0 then (nan : Ieee p emax) else inf (s ^^ t)).Finite
    split <;> exact id

theorem add_not_finite {x y : Ieee p emax} (h : ¬ x.Finite ∨ ¬ y.Finite) : ¬ (x + y).Finite := by
  rcases h with h | h
  · rcases not_finite_iff.1 h with rfl | ⟨s, rfl⟩
    · exact id
    · exact inf_add s y
  · rcases not_finite_iff.1 h with rfl | ⟨s, rfl⟩
    · rw [add_nan]; exact id
    · exact add_inf x s

theorem mul_not_finite {x y : Ieee p emax} (h : ¬ x.Finite ∨ ¬ y.Finite) : ¬ (x * y).Finite := by
  rcases h with h | h
  · rcases not_finite_iff.1 h with rfl | ⟨s, rfl⟩
    · exact id
    · exact inf_mul s y
  · rcases not_finite_iff.1 h with rfl | ⟨s, rfl⟩
    · rw [mul_nan]; exact id
    · exact mul_inf x s

theorem mulAdd_not_finite {x y z : Ieee p emax} (h : ¬ x.Finite ∨ ¬ y.Finite ∨ ¬ z.Finite) : ¬ (mulAdd x y z).Finite := by
  match x, y, z, h with
  | num .., num .., num .., h => simp [Finite] at h
  | num .., num .., inf _, _ => exact id
  | num .., num .., nan, _ => exact id
  | nan, _, _, _ => rw [nan_mulAdd]; exact id
  | inf s, y, z, _ =>
    have : mulAdd (inf s) y z = inf s * y + z := by cases y <;> cases z <;> rfl
    rw [this]
    exact add_not_finite (.inl (inf_mul s y))
  | num .., nan, _, _ => rw [mulAdd_nan_mid]; exact id
  | num s x _ _, inf t, z, _ =>
    have : mulAdd (num s x ‹_› ‹_›) (inf t) z = num s x ‹_› ‹_› * inf t + z := by cases z <;> rfl
    rw [this]
    exact add_not_finite (.inl (mul_inf _ t))

variable [NeZero emax]

theorem one_finite : (1 : Ieee p emax).Finite := trivial
theorem one_val : (1 : Ieee p emax).val = 1 := rfl

theorem one_mul_eq (x : Ieee p emax) : 1 * x = x := by
  cases x with
  | nan => rfl
  | inf t =>
    show (if (1 : ℚ) = 0 then (nan : Ieee p emax) else inf (false ^^ t)) = _
    simp
  | num t y h h' =>
    show (pack (false ^^ t) (1 * y) : Ieee p emax) = _
    rw [one_mul, Bool.false_xor]
    exact pack_self h h'

theorem mul_one_eq (x : Ieee p emax) : x * 1 = x := by
  cases x with
  | nan => rfl
  | inf t =>
    show (if (1 : ℚ) = 0 then (nan : Ieee p emax) else inf (t ^^ false)) = _
    simp
  | num t y h h' =>
    show (pack (t ^^ false) (y * 1) : Ieee p emax) = _
    rw [mul_one, Bool.xor_false]
    exact pack_self h h'

theorem zero_add_one : (0 + 1 : Ieee p emax) = 1 := by
  show packSum (false && false) (signed false 0 + signed false 1) = num false 1 _ _
  have : signed false 0 + signed false 1 = 1 := by simp [signed]
  rw [this, packSum, if_neg one_ne_zero, decide_eq_false (by norm_num)]
  exact pack_self _ _

theorem one_add_zero : (1 + 0 : Ieee p emax) = 1 := by
  show packSum (false && false) (signed false 1 + signed false 0) = num false 1 _ _
  have : signed false 1 + signed false 0 = 1 := by simp [signed]
  rw [this, packSum, if_neg one_ne_zero, decide_eq_false (by norm_num)]
  exact pack_self _ _

theorem mulAdd_one_left (y z : Ieee p emax) : mulAdd 1 y z = y + z := by
  cases y with
  | nan => rw [mulAdd_nan_mid, nan_add]
  | inf t => show (1 * inf t + z : Ieee p emax) = _; rw [one_mul_eq]
  | num t y _ _ =>
    cases z with
    | nan => rfl
    | inf _ => rfl
    | num w z h h' =>
      show packSum ((false ^^ t) && w) (signed false 1 * signed t y + signed w z) = packSum (t && w) (signed t y + signed w z)
      simp [signed]

theorem mulAdd_one_right (x z : Ieee p emax) : mulAdd x 1 z = x + z := by
  cases x with
  | nan => rw [nan_mulAdd, nan_add]
  | inf t => show (inf t * 1 + z : Ieee p emax) = _; rw [mul_one_eq]
  | num t y _ _ =>
    cases z with
    | nan => rfl
    | inf _ => rfl
    | num w z h h' =>
      show packSum ((t ^^ false) && w) (signed t y * signed false 1 + signed w z) = packSum (t && w) (signed t y + signed w z)
      simp [signed]

end Verif.Ieee
