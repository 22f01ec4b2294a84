import Verif.Lemmas.Nearest
import Verif.Lemmas.Ieee
import Verif.Spec.Nearest

/-!
# The operations of the IEEE model round correctly
-/

namespace Verif

namespace Ieee

variable {p emax : Nat} [NeZero p] [NeZero emax]

omit [NeZero p] [NeZero emax] in
theorem signed_rndTiny (s : Bool) (m : ℚ) : signed s (rndTiny p emax m) = rndTiny p emax (signed s m) := by
  cases s
  · rfl
  · exact (rndTiny_neg m).symm

theorem pack_of_lt (s : Bool) {m : ℚ} (hm : 0 ≤ m) (h : m < (2 - 1 / 2 ^ p) * 2 ^ emax) :
    ∃ h1 h2, (pack s m : Ieee p emax) = num s (rndTiny p emax m) h1 h2 := by
  have hl := (rndTiny_lt_iff (Nat.pos_of_neZero p) (Nat.pos_of_neZero emax)).2 h
  unfold pack
  simp only [abs_of_nonneg hm]
  rw [dif_pos hl]
  exact ⟨rndTiny_nonneg hm, ⟨rndTiny_bits (Nat.pos_of_neZero p) _, rndTiny_grid _, by rwa [abs_of_nonneg (rndTiny_nonneg hm)]⟩, rfl⟩

theorem pack_of_ge (s : Bool) {m : ℚ} (hm : 0 ≤ m) (h : ¬ m < (2 - 1 / 2 ^ p) * 2 ^ emax) : (pack s m : Ieee p emax) = inf s := by
  have hl := mt (rndTiny_lt_iff (Nat.pos_of_neZero p) (Nat.pos_of_neZero emax)).1 h
  unfold pack
  simp only [abs_of_nonneg hm]
  rw [dif_neg hl]

omit [NeZero emax] in
theorem threshold_pos : (0 : ℚ) < (2 - 1 / 2 ^ p) * 2 ^ emax := by
  have h1p : (2 : ℚ) ≤ 2 ^ p := by
    calc (2 : ℚ) = 2 ^ 1 := by norm_num
      _ ≤ 2 ^ p := pow_le_pow_right₀ (by norm_num) (Nat.pos_of_neZero p)
  have hinv : 1 / (2 : ℚ) ^ p ≤ 1 / 2 := one_div_le_one_div_of_le (by norm_num) h1p
  have : (0 : ℚ) < 2 ^ emax := by positivity
  exact mul_pos (by linarith) this

theorem pack_correct (s : Bool) {m : ℚ} (hm : 0 ≤ m) : CorrectlyRounded (pack s m : Ieee p emax) (signed s m) := by
  have hp := Nat.pos_of_neZero p
  unfold CorrectlyRounded
  rw [signed_abs, abs_of_nonneg hm]
  by_cases h : m < (2 - 1 / 2 ^ p) * 2 ^ emax
  · rw [if_pos h]
    obtain ⟨h1, h2, e⟩ := pack_of_lt (p := p) (emax := emax) s hm h
    rw [e]
    have hv : (num s (rndTiny p emax m) h1 h2 : Ieee p emax).val = rndTiny p emax (signed s m) := signed_rndTiny s m
    refine ⟨trivial, fun y _ => ?_⟩
    have hy := isNumber_val y
    rw [hv]
    refine ⟨rndTiny_nearest hp hy.bits hy.grid, fun ht => ?_⟩
    by_cases hne : y.val = rndTiny p emax (signed s m)
    · exact .inl hne
    · exact .inr (rndTiny_tie hp hy.bits hy.grid ht hne)
  · rw [if_neg h, pack_of_ge s hm h]
    have h0 : 0 < m := lt_of_lt_of_le threshold_pos (not_lt.1 h)
    cases s
    · rw [signed, if_neg (by simp), decide_eq_false (not_lt.2 hm)]
    · rw [signed, if_pos rfl, decide_eq_true (by linarith)]

omit [NeZero p] [NeZero emax] in
theorem signed_abs_self (v : ℚ) : signed (decide (v < 0)) |v| = v := by
  by_cases h : v < 0
  · simp [signed, h, abs_of_neg h]
  · simp [signed, h, abs_of_nonneg (not_lt.1 h)]

omit [NeZero emax] in
theorem pack_abs (s : Bool) (v : ℚ) : (pack s v : Ieee p emax) = pack s |v| := by
  unfold pack; simp only [abs_abs]

theorem packSum_correct (b : Bool) (v : ℚ) : CorrectlyRounded (packSum b v : Ieee p emax) v := by
  unfold packSum
  by_cases h : v = 0
  · rw [if_pos h]
    have := pack_correct (p := p) (emax := emax) b (le_refl (0 : ℚ))
    rw [pack_self le_rfl isNumber_zero] at this
    have e : signed b 0 = v := by cases b <;> simp [signed, h]
    rw [e] at this
    exact this
  · rw [if_neg h, pack_abs]
    have := pack_correct (p := p) (emax := emax) (decide (v < 0)) (abs_nonneg v)
    rwa [signed_abs_self] at this

theorem add_correct {x y : Ieee p emax} (hx : x.Finite) (hy : y.Finite) : CorrectlyRounded (x + y) (x.val + y.val) := by
  match x, y, hx, hy with
  | num s a _ _, num t b _ _, _, _ => exact packSum_correct _ _

omit [NeZero p] [NeZero emax] in
theorem neg_val (x : Ieee p emax) : (-x).val = -x.val := by
  match x with
  | nan => show (0 : ℚ) = -0; simp
  | inf _ => show (0 : ℚ) = -0; simp
  | num s a _ _ => show signed (!s) a = -signed s a; cases s <;> simp [signed]

omit [NeZero p] [NeZero emax] in
theorem neg_finite {x : Ieee p emax} : (-x).Finite ↔ x.Finite := by
  match x with
  | nan => exact Iff.rfl
  | inf _ => exact Iff.rfl
  | num .. => exact Iff.rfl

theorem sub_correct {x y : Ieee p emax} (hx : x.Finite) (hy : y.Finite) : CorrectlyRounded (x - y) (x.val - y.val) := by
  have := add_correct hx (neg_finite.2 hy)
  rw [neg_val, ← sub_eq_add_neg] at this
  exact this

theorem mul_correct {x y : Ieee p emax} (hx : x.Finite) (hy : y.Finite) : CorrectlyRounded (x * y) (x.val * y.val) := by
  match x, y, hx, hy with
  | num s a ha _, num t b hb _, _, _ =>
    show CorrectlyRounded (pack (s ^^ t) (a * b)) (signed s a * signed t b)
    rw [signed_mul]
    exact pack_correct _ (mul_nonneg ha hb)

omit [NeZero p] [NeZero emax] in
theorem signed_div (s t : Bool) (x y : ℚ) : signed s x / signed t y = signed (s ^^ t) (x / y) := by
  cases s <;> cases t <;> simp [signed, neg_div, div_neg]

theorem div_correct {x y : Ieee p emax} (hx : x.Finite) (hy : y.Finite) (h0 : y.val ≠ 0) : CorrectlyRounded (x / y) (x.val / y.val) := by
  match x, y, hx, hy, h0 with
  | num s a ha _, num t b hb _, _, _, h0 =>
    have hb0 : b ≠ 0 := fun e => h0 (by show signed t b = 0; rw [e]; cases t <;> simp [signed])
    show CorrectlyRounded (if b = 0 then (if a = 0 then nan else inf (s ^^ t)) else pack (s ^^ t) (a / b)) (signed s a / signed t b)
    rw [if_neg hb0, signed_div]
    exact pack_correct _ (div_nonneg ha hb)

theorem mulAdd_correct {x y z : Ieee p emax} (hx : x.Finite) (hy : y.Finite) (hz : z.Finite) :
    CorrectlyRounded (mulAdd x y z) (x.val * y.val + z.val) := by
  match x, y, z, hx, hy, hz with
  | num s a _ _, num t b _ _, num w c _ _, _, _, _ => exact packSum_correct _ _

end Ieee

end Verif

namespace Verif

variable {p emax : Nat}

/-- The correctly rounded result is unique, up to the sign of a zero. -/
theorem correctlyRounded_unique {x y : Ieee p emax} {v : ℚ} (hx : CorrectlyRounded x v) (hy : CorrectlyRounded y v) :
    (x.Finite ↔ y.Finite) ∧ x.val = y.val := by
  unfold CorrectlyRounded at hx hy
  split_ifs at hx hy
  · refine ⟨⟨fun _ => hy.1, fun _ => hx.1⟩, ?_⟩
    have h1 := hx.2 y hy.1
    have h2 := hy.2 x hx.1
    have he := le_antisymm h1.1 h2.1
    by_contra hne
    obtain ⟨k, hk⟩ := (h1.2 he).resolve_left (Ne.symm hne)
    obtain ⟨j, hj⟩ := (h2.2 he.symm).resolve_left hne
    rw [abs_sub_comm] at hj
    have hd : 0 < |x.val - y.val| := abs_pos.2 (sub_ne_zero.2 hne)
    have h3 : x.val - y.val = 2 * (k - j) * |x.val - y.val| := by linarith
    have h4 : |2 * ((k : ℚ) - j)| = 1 := by
      have h5 : |x.val - y.val| = |2 * ((k : ℚ) - j)| * |x.val - y.val| := by
        conv_lhs => rw [h3]
        rw [abs_mul, abs_abs]
      have h6 : (|2 * ((k : ℚ) - j)| - 1) * |x.val - y.val| = 0 := by linarith
      have h7 := (mul_eq_zero.1 h6).resolve_right hd.ne'
      linarith
    have h5 : |2 * (k - j)| = (1 : ℤ) := by exact_mod_cast h4
    rcases abs_choice (2 * (k - j)) with h | h <;> omega
  · rw [hx, hy]; exact ⟨Iff.rfl, rfl⟩

/-- If the exact value is a number of the format, it is the result. -/
theorem correctlyRounded_exact {x : Ieee p emax} {v : ℚ} (hx : CorrectlyRounded x v) (hp : 0 < p) (he : 0 < emax)
    (hv : IsNumber p emax v) : x.Finite ∧ x.val = v := by
  have hv' : IsNumber p emax |v| := by
    rcases abs_choice v with h | h <;> rw [h]
    · exact hv
    · exact Ieee.isNumber_neg hv
  have ht : |v| < (2 - 1 / 2 ^ p) * 2 ^ emax := by
    rw [← rndTiny_lt_iff hp he, rndTiny_self hv'.bits hv'.grid]
    exact hv.range
  unfold CorrectlyRounded at hx
  rw [if_pos ht] at hx
  refine ⟨hx.1, ?_⟩
  have h1 := (hx.2 (.num (decide (v < 0)) |v| (abs_nonneg v) hv') trivial).1
  have e : (Ieee.num (decide (v < 0)) |v| (abs_nonneg v) hv' : Ieee p emax).val = v := Ieee.signed_abs_self v
  rw [e, sub_self, abs_zero] at h1
  exact (sub_eq_zero.1 (abs_nonpos_iff.1 h1)).symm

/-- Sterbenz: the difference of two numbers at most a factor two apart is a number of the format. -/
theorem isNumber_sub {x y : ℚ} (hp : 0 < p) (hx : IsNumber p emax x) (hy : IsNumber p emax y) (h0 : 0 < y) (h1 : y ≤ x)
    (h2 : x ≤ 2 * y) : IsNumber p emax (x - y) := by
  have hl : (2 : ℚ) ^ Int.log 2 |y| ≤ y := by rw [abs_of_pos h0]; exact zpow_log_le h0
  obtain ⟨k, hk⟩ := multiple_of_ulp hx.bits (lt_of_lt_of_le h0 h1) (hl.trans h1)
  obtain ⟨j, hj⟩ := multiple_of_ulp hy.bits h0 hl
  have hu := ulp_pos p y
  refine ⟨?_, by rw [sub_eq_add_neg]; exact hx.grid.add hy.grid.neg, ?_⟩
  · have e : x - y = ((k - j : ℤ) : ℚ) * 2 ^ (Int.log 2 |y| + 1 - (p : ℤ)) := by
      push_cast
      rw [sub_mul, ← ulp_eq, ← hj, ← hk]
    have hlt : y < 2 ^ p * ulp p y := by
      rw [ulp_eq, ← zpow_natCast, ← zpow_add₀ (by norm_num)]
      have := lt_zpow_log (x := y)
      rw [abs_of_pos h0]
      convert this using 2
      omega
    rw [e]
    refine rnd_grid hp ?_ _
    have h3 : ((k - j : ℤ) : ℚ) * ulp p y ≤ 2 ^ p * ulp p y := by
      rw [ulp_eq, ← e, ← ulp_eq]; linarith
    have h4 : (0 : ℚ) ≤ ((k - j : ℤ) : ℚ) * ulp p y := by rw [ulp_eq, ← e]; linarith
    have h5 : ((k - j : ℤ) : ℚ) ≤ 2 ^ p := le_of_mul_le_mul_right h3 hu
    have h6 : (0 : ℚ) ≤ ((k - j : ℤ) : ℚ) := nonneg_of_mul_nonneg_left h4 hu
    rw [abs_of_nonneg (by exact_mod_cast h6)]
    exact_mod_cast h5
  · rw [abs_of_nonneg (by linarith)]
    have := hx.range
    rw [abs_of_pos (by linarith)] at this
    linarith

end Verif
