import Verif.Props.Ranges
import Verif.Lemmas.FloatError

/-!
# C80: the lengths of rounded ranges are off by at most one

`arange_with_step`, `linspace` and `linspace_exclusive` on `f32`, `f64` and on integers of any size, with IEEE rounding
(exponents unbounded). `arange_with_step` rounds the distance and the step to `f32` before it divides them (dtype.rs 52-54), so
`2^-24` is the accuracy of the quotient for every type.
-/

namespace Verif

/-! ### relative errors -/

theorem rnd_rel (p : Nat) (x : ℚ) : ∃ δ, |δ| ≤ unitRoundoff p ∧ rnd p x = x * (1 + δ) := by
  rcases eq_or_ne x 0 with rfl | hx
  · exact ⟨0, by simp [unitRoundoff], by simp [rnd_zero]⟩
  · refine ⟨(rnd p x - x) / x, ?_, by field_simp; ring⟩
    rw [abs_div, div_le_iff₀ (abs_pos.2 hx)]
    exact abs_rnd_sub_le p x

theorem unitRoundoff_le {p : Nat} (hp : 24 ≤ p) : unitRoundoff p ≤ 1 / 2 ^ 24 := by
  unfold unitRoundoff
  exact one_div_le_one_div_of_le (by norm_num) (pow_le_pow_right₀ (by norm_num) hp)

/-- The same, with the coarser accuracy. -/
theorem rnd_rel24 {p : Nat} (hp : 24 ≤ p) (x : ℚ) : ∃ δ, |δ| ≤ 1 / 2 ^ 24 ∧ rnd p x = x * (1 + δ) := by
  obtain ⟨δ, h, e⟩ := rnd_rel p x
  exact ⟨δ, h.trans (unitRoundoff_le hp), e⟩

theorem one_add_pos {δ : ℚ} (h : |δ| ≤ 1 / 2 ^ 24) : 0 < 1 + δ := by
  have := (abs_le.1 h).1
  norm_num at this ⊢; linarith

/-- Products of factors near 1. -/
theorem rel_mul {a b m n : ℚ} (hm : 0 ≤ m) (ha : |a - 1| ≤ m) (hb : |b - 1| ≤ n) : |a * b - 1| ≤ m + n + m * n := by
  have e : a * b - 1 = (a - 1) * (b - 1) + (a - 1) + (b - 1) := by ring
  rw [e]
  have h1 : |(a - 1) * (b - 1)| ≤ m * n := by
    rw [abs_mul]; exact mul_le_mul ha hb (abs_nonneg _) hm
  have h2 := abs_add_le ((a - 1) * (b - 1) + (a - 1)) (b - 1)
  have h3 := abs_add_le ((a - 1) * (b - 1)) (a - 1)
  linarith

theorem rel_inv {a m : ℚ} (hm : m < 1) (ha : |a - 1| ≤ m) : |a⁻¹ - 1| ≤ m / (1 - m) := by
  have h := abs_le.1 ha
  have ha0 : 0 < a := by linarith
  have e : a⁻¹ - 1 = (1 - a) / a := by field_simp
  rw [e, abs_div, abs_of_pos ha0, abs_sub_comm]
  have hm0 : 0 ≤ m := (abs_nonneg _).trans ha
  rw [div_le_div_iff₀ ha0 (by linarith)]
  nlinarith

theorem rel_one {δ : ℚ} (h : |δ| ≤ 1 / 2 ^ 24) : |(1 + δ) - 1| ≤ 1 / 2 ^ 24 := by simpa using h

/-- Three rounded factors over one. -/
theorem rel4 {a b c d : ℚ} (ha : |a| ≤ 1 / 2 ^ 24) (hb : |b| ≤ 1 / 2 ^ 24) (hc : |c| ≤ 1 / 2 ^ 24) (hd : |d| ≤ 1 / 2 ^ 24) :
    |(1 + a) * (1 + b) * (1 + c) * (1 + d)⁻¹ - 1| ≤ 5 / 2 ^ 24 := by
  have h1 := rel_mul (by norm_num) (rel_one ha) (rel_one hb)
  have h2 := rel_mul (by norm_num) h1 (rel_one hc)
  have h3 := rel_mul (by norm_num) h2 (rel_inv (by norm_num) (rel_one hd))
  exact h3.trans (by norm_num)

/-! ### the quotient -/

/-- The number of elements that `arange_with_step` computes from the distance `D` (already rounded by a factor `1 + a`). -/
theorem quotient_rel {p : Nat} (hp : 24 ≤ p) {D s a : ℚ} (ha : |a| ≤ 1 / 2 ^ 24) :
    ∃ θ, |θ| ≤ 5 / 2 ^ 24 ∧ rnd p (rnd 24 (D * (1 + a)) / rnd 24 s) = D / s * (1 + θ) := by
  obtain ⟨b, hb, eb⟩ := rnd_rel24 le_rfl (D * (1 + a))
  obtain ⟨d, hd, ed⟩ := rnd_rel24 le_rfl s
  obtain ⟨c, hc, ec⟩ := rnd_rel24 hp (rnd 24 (D * (1 + a)) / rnd 24 s)
  refine ⟨_, rel4 ha hb hc hd, ?_⟩
  rw [ec, eb, ed]
  have := one_add_pos hd
  rcases eq_or_ne s 0 with rfl | hs
  · simp
  · field_simp; ring

theorem ceil_near {X q : ℚ} (h : |q - X| ≤ 1) : ⌈X⌉ - 1 ≤ ⌈q⌉ ∧ ⌈q⌉ ≤ ⌈X⌉ + 1 := by
  have h := abs_le.1 h
  constructor
  · have : ⌈X⌉ ≤ ⌈q⌉ + 1 := Int.ceil_le.2 (by push_cast; linarith [Int.le_ceil q])
    omega
  · exact Int.ceil_le.2 (by push_cast; linarith [Int.le_ceil X])

theorem ceil_far {X q e : ℚ} (h : |q - X| ≤ e) (hf : ∀ k : ℤ, e < |X - k|) : ⌈q⌉ = ⌈X⌉ := by
  have h := abs_le.1 h
  rw [Int.ceil_eq_iff]
  have h1 := hf (⌈X⌉ - 1)
  have h2 := hf ⌈X⌉
  have c1 := Int.le_ceil X
  have c2 := Int.ceil_lt_add_one X
  push_cast at h1 h2 ⊢
  rw [abs_of_nonneg (by linarith)] at h1
  rw [abs_of_nonpos (by linarith)] at h2
  constructor <;> linarith

/-! ### arange_with_step on floats -/

/-- The value at position `i` of a float range. -/
theorem range_value {p : Nat} {start step : ℚ} {i : Nat} (hp : 0 < p) (hi : i ≤ 2 ^ p) :
    AccurateTo p 2 (rnd p (rnd p (rnd p (i : ℚ) * step) + start)) (start + i * step) (|start| + |i * step|) := by
  unfold AccurateTo
  rw [rnd_nat hp hi]
  obtain ⟨a, ha, ea⟩ := rnd_rel p (i * step)
  obtain ⟨b, hb, eb⟩ := rnd_rel p (rnd p (i * step) + start)
  rw [eb, ea]
  have e : (i * step * (1 + a) + start) * (1 + b) - (start + i * step) = b * start + (a + b + a * b) * (i * step) := by ring
  rw [e]
  set u := unitRoundoff p
  have hu : 0 ≤ u := (abs_nonneg _).trans ha
  have h1 : |b * start| ≤ u * |start| := by rw [abs_mul]; exact mul_le_mul_of_nonneg_right hb (abs_nonneg _)
  have h2 : |(a + b + a * b) * (i * step)| ≤ (u + u + u * u) * |i * step| := by
    rw [abs_mul]
    refine mul_le_mul_of_nonneg_right ?_ (abs_nonneg _)
    have := abs_add_le (a + b) (a * b)
    have := abs_add_le a b
    have : |a * b| ≤ u * u := by rw [abs_mul]; exact mul_le_mul ha hb (abs_nonneg _) hu
    linarith
  have h3 := abs_add_le (b * start) ((a + b + a * b) * (i * step))
  have h4 : 0 ≤ (u + u * u) * |start| := by positivity
  calc _ ≤ u * |start| + (u + u + u * u) * |i * step| := by linarith
    _ ≤ ((1 + u) ^ 2 - 1) * (|start| + |i * step|) := by nlinarith

theorem float_range {p : Nat} (hp : 24 ≤ p) {start stop step : ℚ} (hs : step ≠ 0) (h0 : 0 ≤ (stop - start) / step) :
    ∃ (r : Arr ℚ) (n : Nat) (q : ℚ), arangeWithStep (floatTy p) start stop step = .ok r ∧
      r.Denotes [n] (fun idx => rnd p (rnd p (rnd p (idx.headD 0 : Nat) * step) + start)) ∧
      (n : ℤ) = ⌈q⌉ ∧ 0 ≤ q ∧ |q - (stop - start) / step| ≤ 5 / 2 ^ 24 * ((stop - start) / step) := by
  obtain ⟨a, ha, ea⟩ := rnd_rel24 hp (stop - start)
  obtain ⟨θ, hθ, eθ⟩ := quotient_rel hp (D := stop - start) (s := step) ha
  have hsf : rnd 24 step ≠ 0 := by
    obtain ⟨d, hd, ed⟩ := rnd_rel24 le_rfl step
    rw [ed]; exact mul_ne_zero hs (one_add_pos hd).ne'
  have hq0 : 0 ≤ (stop - start) / step * (1 + θ) := by
    refine mul_nonneg h0 ?_
    have := (abs_le.1 hθ).1
    norm_num at this ⊢; linarith
  have hc : 0 ≤ ⌈(stop - start) / step * (1 + θ)⌉ := Int.ceil_nonneg hq0
  obtain ⟨r, hr, hden⟩ := float_arange (p := p) (start := start) (stop := stop) (step := step) rfl rfl rfl hsf rfl
    (n := ⌈(stop - start) / step * (1 + θ)⌉.toNat) (by rw [ea, eθ]; omega)
  refine ⟨r, _, _, hr, hden, by omega, hq0, ?_⟩
  rw [show (stop - start) / step * (1 + θ) - (stop - start) / step = (stop - start) / step * θ by ring, abs_mul, abs_of_nonneg h0,
    mul_comm]
  exact mul_le_mul_of_nonneg_right hθ h0

/-- **C80**, `arange_with_step` on `f32` (`p = 24`) and `f64` (`p = 53`), upwards and downwards: with `X = (stop - start) / step`
between 0 and `2^24 / 5` the number of elements differs from the exact one, `⌈X⌉`, by at most one, and every element is, up to
two roundings, `start + i * step`. -/
theorem C80_arange {p : Nat} (hp : 24 ≤ p) {start stop step : ℚ} (hs : step ≠ 0) (h0 : 0 ≤ (stop - start) / step)
    (h1 : 5 * ((stop - start) / step) ≤ 2 ^ 24) :
    ∃ (r : Arr ℚ) (n : Nat) (g : Nat → ℚ), arangeWithStep (floatTy p) start stop step = .ok r ∧
      r.Denotes [n] (fun idx => g (idx.headD 0)) ∧ ⌈(stop - start) / step⌉ - 1 ≤ n ∧ n ≤ ⌈(stop - start) / step⌉ + 1 ∧
      ∀ i < n, AccurateTo p 2 (g i) (start + i * step) (|start| + |i * step|) := by
  obtain ⟨r, n, q, hr, hden, hn, hq0, hq⟩ := float_range hp hs h0
  have hnear := ceil_near (hq.trans (by norm_num at h1 ⊢; linarith))
  refine ⟨r, n, _, hr, hden, by omega, by omega, fun i hi => range_value (by omega) ?_⟩
  have hX : ⌈(stop - start) / step⌉ ≤ 2 ^ 22 := Int.ceil_le.2 (by norm_num at h1 ⊢; linarith)
  have : (2 : ℕ) ^ 24 ≤ 2 ^ p := Nat.pow_le_pow_right (by norm_num) hp
  norm_num at hX this ⊢
  omega

example := C80_arange (p := 24) (by decide) (start := 0) (stop := 1) (step := 1 / 10) (by norm_num) (by norm_num) (by norm_num)

/-- **C80**, the exact length: it is right whenever `(stop - start) / step` is further from every integer than `5 / 2^24` of
itself, whatever its size. -/
theorem C80_arange_exact {p : Nat} (hp : 24 ≤ p) {start stop step : ℚ} (hs : step ≠ 0) (h0 : 0 ≤ (stop - start) / step)
    (hf : ∀ k : ℤ, 5 / 2 ^ 24 * ((stop - start) / step) < |(stop - start) / step - k|) :
    ∃ r : Arr ℚ, arangeWithStep (floatTy p) start stop step = .ok r ∧ r.shape = [⌈(stop - start) / step⌉.toNat] := by
  obtain ⟨r, n, q, hr, hden, hn, hq0, hq⟩ := float_range hp hs h0
  refine ⟨r, hr, ?_⟩
  rw [hden.1, ← ceil_far hq hf, ← hn]; rfl

example : (1 / 10 : ℚ) ≠ 0 ∧ 0 ≤ ((1 : ℚ) - 0) / (1 / 10) ∧ 5 * (((1 : ℚ) - 0) / (1 / 10)) ≤ 2 ^ 24 := by norm_num
/-- A range whose length is certainly right: 0, 0.3, .., 0.9 below 1. -/
example : ∀ k : ℤ, 5 / 2 ^ 24 * (((1 : ℚ) - 0) / (3 / 10)) < |((1 : ℚ) - 0) / (3 / 10) - k| := by
  intro k
  rcases le_or_gt k 3 with h | h
  · have : (k : ℚ) ≤ 3 := by exact_mod_cast h
    rw [abs_of_nonneg (by norm_num; linarith)]; norm_num; linarith
  · have : (4 : ℚ) ≤ k := by exact_mod_cast h
    rw [abs_of_nonpos (by norm_num; linarith)]; norm_num; linarith

/-! ### linspace_exclusive on floats -/

/-- The step that `linspace` and `linspace_exclusive` compute. -/
theorem step_rel {p : Nat} (hp : 24 ≤ p) (D m : ℚ) :
    ∃ η, |η| ≤ (1 + unitRoundoff p) ^ 2 - 1 ∧ |η| ≤ 2 / 2 ^ 24 + 1 / 2 ^ 48 ∧ rnd p (rnd p D / m) = D / m * (1 + η) := by
  obtain ⟨a, ha, ea⟩ := rnd_rel p D
  obtain ⟨b, hb, eb⟩ := rnd_rel p (rnd p D / m)
  have hu := unitRoundoff_le hp
  have h : |(1 + a) * (1 + b) - 1| ≤ unitRoundoff p + unitRoundoff p + unitRoundoff p * unitRoundoff p :=
    rel_mul ((abs_nonneg _).trans ha) (by simpa using ha) (by simpa using hb)
  have hu0 : 0 ≤ unitRoundoff p := (abs_nonneg _).trans ha
  refine ⟨(1 + a) * (1 + b) - 1, h.trans (by nlinarith), h.trans ?_, ?_⟩
  · have : unitRoundoff p * unitRoundoff p ≤ 1 / 2 ^ 24 * (1 / 2 ^ 24) := mul_le_mul hu hu hu0 (by norm_num)
    norm_num at this hu ⊢; linarith
  · rw [eb, ea]; ring

/-- Values of a range with a computed step. -/
theorem range_value_step {p : Nat} {start s η : ℚ} {i : Nat} (hp : 0 < p) (hi : i ≤ 2 ^ p)
    (hη : |η| ≤ (1 + unitRoundoff p) ^ 2 - 1) :
    AccurateTo p 4 (rnd p (rnd p (rnd p (i : ℚ) * (s * (1 + η))) + start)) (start + i * s) (|start| + |i * s|) := by
  have h := range_value (start := start) (step := s * (1 + η)) hp hi
  unfold AccurateTo at h ⊢
  set v := rnd p (rnd p (rnd p (i : ℚ) * (s * (1 + η))) + start)
  set u := unitRoundoff p
  have hu : 0 ≤ u := by simp only [u, unitRoundoff]; positivity
  have e : v - (start + i * s) = (v - (start + i * (s * (1 + η)))) + η * (i * s) := by ring
  have h1 : |η * (i * s)| ≤ ((1 + u) ^ 2 - 1) * |i * s| := by
    rw [abs_mul]; exact mul_le_mul_of_nonneg_right hη (abs_nonneg _)
  have h2 : |(i : ℚ) * (s * (1 + η))| ≤ (1 + u) ^ 2 * |i * s| := by
    rw [show (i : ℚ) * (s * (1 + η)) = (i * s) + η * (i * s) by ring]
    have := abs_add_le (i * s) (η * (i * s))
    linarith
  have h3 := abs_add_le (v - (start + i * (s * (1 + η)))) (η * (i * s))
  have h4 : 0 ≤ (1 + u) ^ 2 - 1 := by nlinarith
  have h5 : ((1 + u) ^ 2 - 1) * (|start| + |(i : ℚ) * (s * (1 + η))|) ≤
      ((1 + u) ^ 2 - 1) * (|start| + (1 + u) ^ 2 * |i * s|) := mul_le_mul_of_nonneg_left (by linarith) h4
  have h6 : 0 ≤ ((1 + u) ^ 4 - (1 + u) ^ 2) * |start| := by
    refine mul_nonneg ?_ (abs_nonneg _)
    nlinarith [sq_nonneg (1 + u)]
  rw [e]
  calc _ ≤ ((1 + u) ^ 2 - 1) * (|start| + (1 + u) ^ 2 * |i * s|) + ((1 + u) ^ 2 - 1) * |i * s| := by linarith
    _ ≤ ((1 + u) ^ 4 - 1) * (|start| + |i * s|) := by nlinarith

theorem rel_step_inv {η : ℚ} (h : |η| ≤ 2 / 2 ^ 24 + 1 / 2 ^ 48) :
    0 < 1 + η ∧ |(1 + η)⁻¹ - 1| ≤ 9 / 4 / 2 ^ 24 := by
  refine ⟨?_, (rel_inv (m := 2 / 2 ^ 24 + 1 / 2 ^ 48) (by norm_num) (by simpa using h)).trans (by norm_num)⟩
  have := (abs_le.1 h).1
  norm_num at this ⊢; linarith

theorem nat_ceil_between {n num : Nat} {q : ℚ} (hn : (n : ℤ) = ⌈q⌉) (h : |q - num| < 1) : n = num ∨ n = num + 1 := by
  have h := abs_lt.1 h
  have h1 : (num : ℤ) - 1 < ⌈q⌉ := Int.lt_ceil.2 (by push_cast; linarith)
  have h2 : ⌈q⌉ ≤ (num : ℤ) + 1 := Int.ceil_le.2 (by push_cast; linarith)
  omega

/-- **C80**, `linspace_exclusive` on `f32` and `f64`, upwards and downwards, up to two million elements: `num` or `num + 1`
elements, never fewer, and every element is, up to four roundings, `start + i * (stop - start) / num`. -/
theorem C80_linspace_exclusive {p : Nat} (hp : 24 ≤ p) {start stop : ℚ} {num : Nat} (h2 : 2 ≤ num) (hnum : num ≤ 2 ^ 21)
    (h : start ≠ stop) :
    ∃ (r : Arr ℚ) (n : Nat) (g : Nat → ℚ), linspaceExclusive (floatTy p) start stop num = .ok r ∧
      r.Denotes [n] (fun idx => g (idx.headD 0)) ∧ (n = num ∨ n = num + 1) ∧
      ∀ i < n, AccurateTo p 4 (g i) (start + i * ((stop - start) / num)) (|start| + |i * ((stop - start) / num)|) := by
  have hpow : (2 : ℕ) ^ 24 ≤ 2 ^ p := Nat.pow_le_pow_right (by norm_num) hp
  have hn0 : (0 : ℚ) < num := by exact_mod_cast (by omega : 0 < num)
  have hD : stop - start ≠ 0 := sub_ne_zero.2 h.symm
  obtain ⟨η, hη, hη', eη⟩ := step_rel hp (stop - start) (num : ℚ)
  obtain ⟨hpos, hinv⟩ := rel_step_inv hη'
  have hX : (stop - start) / ((stop - start) / num * (1 + η)) = num * (1 + η)⁻¹ := by field_simp
  obtain ⟨r, n, q, hr, hden, hn, hq0, hq⟩ := float_range hp (start := start) (stop := stop)
    (step := (stop - start) / num * (1 + η)) (mul_ne_zero (div_ne_zero hD hn0.ne') hpos.ne') (by rw [hX]; positivity)
  rw [hX] at hq
  have hle : (num : ℚ) ≤ 2 ^ 21 := by exact_mod_cast hnum
  have hI := abs_le.1 hinv
  have hn' := nat_ceil_between (num := num) hn (by
    have hq := abs_le.1 hq
    have a1 : (num : ℚ) * (1 + η)⁻¹ ≤ num * (1 + 9 / 4 / 2 ^ 24) := mul_le_mul_of_nonneg_left (by linarith) hn0.le
    have a2 : (num : ℚ) * (1 - 9 / 4 / 2 ^ 24) ≤ num * (1 + η)⁻¹ := mul_le_mul_of_nonneg_left (by linarith) hn0.le
    norm_num at a1 a2 hq
    have hle' : (num : ℚ) ≤ 2097152 := by norm_num at hle; exact_mod_cast hle
    rw [abs_lt]; constructor <;> linarith)
  refine ⟨r, n, _, float_linspace_exclusive h2 (rnd_nat (by omega) (by omega)) rfl eη hr, hden, hn', fun i hi =>
    range_value_step (by omega) (by omega) hη⟩

example : (2 : ℕ) ≤ 10 ∧ (10 : ℕ) ≤ 2 ^ 21 ∧ (3 / 10 : ℚ) ≠ 1 / 10 := by norm_num

/-! ### linspace on floats -/

/-- **C80**, `linspace` on `f32` and `f64`, upwards and downwards, up to a million elements: `num` or `num + 1` elements if
`stop` is at most `2^(p-2)` times the spacing, and every element is, up to four roundings,
`start + i * (stop - start) / (num - 1)`. Without the condition there can be fewer (`C80_short_false`). -/
theorem C80_linspace {p : Nat} (hp : 24 ≤ p) {start stop : ℚ} {num : Nat} (h2 : 2 ≤ num) (hnum : num ≤ 2 ^ 20)
    (h : start ≠ stop) (hstop : 4 * |stop| * (num - 1 : ℚ) ≤ 2 ^ p * |stop - start|) :
    ∃ (r : Arr ℚ) (n : Nat) (g : Nat → ℚ), linspace (floatTy p) start stop num = .ok r ∧
      r.Denotes [n] (fun idx => g (idx.headD 0)) ∧ (n = num ∨ n = num + 1) ∧
      ∀ i < n, AccurateTo p 4 (g i) (start + i * ((stop - start) / (num - 1 : ℚ)))
        (|start| + |i * ((stop - start) / (num - 1 : ℚ))|) := by
  have hpow : (2 : ℕ) ^ 24 ≤ 2 ^ p := Nat.pow_le_pow_right (by norm_num) hp
  obtain ⟨m, rfl⟩ : ∃ m, num = m + 1 := ⟨num - 1, by omega⟩
  have em : ((m + 1 : ℕ) : ℚ) - 1 = m := by push_cast; ring
  rw [em] at hstop ⊢
  have hm0 : (0 : ℚ) < m := by exact_mod_cast (by omega : 0 < m)
  have hm1 : (1 : ℚ) ≤ m := by exact_mod_cast (by omega : 1 ≤ m)
  have hmle : (m : ℚ) + 1 ≤ 2 ^ 20 := by exact_mod_cast hnum
  have hD : stop - start ≠ 0 := sub_ne_zero.2 h.symm
  obtain ⟨η, hη, hη', eη⟩ := step_rel hp (stop - start) (m : ℚ)
  obtain ⟨hpos, hinv⟩ := rel_step_inv hη'
  set step := (stop - start) / m * (1 + η) with hstep
  have hs0 : step ≠ 0 := mul_ne_zero (div_ne_zero hD hm0.ne') hpos.ne'
  obtain ⟨ε, hε, eε⟩ := rnd_rel p (stop + step)
  set κ := ε * (stop + step) / step with hκ
  have eX : (rnd p (stop + step) - start) / step = m * (1 + η)⁻¹ + 1 + κ := by
    have e1 : (stop - start) / step = m * (1 + η)⁻¹ := by rw [hstep]; field_simp
    rw [eε, show (stop + step) * (1 + ε) - start = (stop - start) + step + ε * (stop + step) by ring, add_div, add_div, e1,
      div_self hs0]
  -- the rounding of `stop + step`, in steps
  have hu := unitRoundoff_le hp
  have hu0 : 0 ≤ unitRoundoff p := (abs_nonneg _).trans hε
  have hI := abs_le.1 hinv
  have hκle : |κ| ≤ 3 / 10 := by
    have hsa : 0 < |step| := abs_pos.2 hs0
    have hsv : |step| = |stop - start| / m * (1 + η) := by rw [hstep, abs_mul, abs_div, abs_of_pos hm0, abs_of_pos hpos]
    have h1 : unitRoundoff p * |stop| ≤ |stop - start| / m / 4 := by
      unfold unitRoundoff
      rw [one_div, inv_mul_le_iff₀ (by positivity), div_div, mul_div_assoc', le_div_iff₀ (by positivity)]
      linarith
    have h2 : |stop - start| / m = |step| * (1 + η)⁻¹ := by rw [hsv]; field_simp
    have h3 : |step| * (1 + η)⁻¹ ≤ |step| * (1 + 9 / 4 / 2 ^ 24) := mul_le_mul_of_nonneg_left (by linarith) hsa.le
    have h4 : unitRoundoff p * |step| ≤ 1 / 2 ^ 24 * |step| := mul_le_mul_of_nonneg_right hu hsa.le
    have h5 : |ε * (stop + step)| ≤ unitRoundoff p * (|stop| + |step|) := by
      rw [abs_mul]; exact mul_le_mul hε (abs_add_le _ _) (abs_nonneg _) hu0
    rw [hκ, abs_div, div_le_iff₀ hsa]
    rw [h2] at h1
    norm_num at h3 h4
    linarith
  have hK := abs_le.1 hκle
  have a1 : (m : ℚ) * (1 + η)⁻¹ ≤ m * (1 + 9 / 4 / 2 ^ 24) := mul_le_mul_of_nonneg_left (by linarith) hm0.le
  have a2 : (m : ℚ) * (1 - 9 / 4 / 2 ^ 24) ≤ m * (1 + η)⁻¹ := mul_le_mul_of_nonneg_left (by linarith) hm0.le
  norm_num at a1 a2
  obtain ⟨r, n, q, hr, hden, hn, hq0, hq⟩ := float_range hp (start := start) (stop := rnd p (stop + step))
    (step := step) hs0 (by rw [eX]; linarith)
  rw [eX] at hq
  have hn' := nat_ceil_between (num := m + 1) hn (by
    have hq := abs_le.1 hq
    norm_num at hq hmle
    rw [abs_lt]; push_cast; constructor <;> linarith)
  refine ⟨r, n, _, float_linspace h2 (rnd_nat (by omega) (by omega)) (by rw [em]; exact rnd_nat (by omega) (by omega)) rfl eη rfl hr,
    hden, hn', fun i hi => range_value_step (by omega) (by omega) hη⟩

/-- `linspace(0f32, 5.0, 7)`, which has 8 elements (`C55_f32_false`). -/
example : (2 : ℕ) ≤ 7 ∧ (7 : ℕ) ≤ 2 ^ 20 ∧ (0 : ℚ) ≠ 5 ∧ 4 * |(5 : ℚ)| * ((7 : ℕ) - 1 : ℚ) ≤ 2 ^ 24 * |(5 : ℚ) - 0| := by
  norm_num [abs_of_pos]

/-- **`linspace` can have too few elements**: `linspace(16777216f32, 16777218.0, 5)` has 4. `stop + step` rounds to `stop`. -/
theorem C80_short_false : ∃ r, linspace f32Ty 16777216 16777218 5 = .ok r ∧ r.shape = [4] := by
  obtain ⟨r, hr, hden⟩ := float_arange (p := 24) (start := 16777216) (stop := 16777218) (step := 1 / 2)
    (d := 2) (n := 4) (q := 4) (df := 2) (sf := 1 / 2)
    (rnd_eval 1 8388608 (by norm_num) (by norm_num) (by norm_num) (by norm_num) (by norm_num))
    (rnd_eval 1 8388608 (by norm_num) (by norm_num) (by norm_num) (by norm_num) (by norm_num))
    (rnd_eval (-1) 8388608 (by norm_num) (by norm_num) (by norm_num) (by norm_num) (by norm_num))
    (by norm_num)
    (rnd_eval 2 8388608 (by norm_num) (by norm_num) (by norm_num) (by norm_num) (by norm_num))
    (by rw [Int.ceil_eq_iff]; norm_num)
  refine ⟨r, float_linspace (c := 5) (m := 4) (d := 2) (by norm_num) ?_ ?_ ?_ ?_ ?_ hr, hden.1⟩
  · exact rnd_eval 2 10485760 (by norm_num) (by norm_num) (by norm_num) (by norm_num) (by norm_num)
  · exact rnd_eval 2 8388608 (by norm_num) (by norm_num) (by norm_num) (by norm_num) (by norm_num)
  · exact rnd_eval 1 8388608 (by norm_num) (by norm_num) (by norm_num) (by norm_num) (by norm_num)
  · exact rnd_eval (-1) 8388608 (by norm_num) (by norm_num) (by norm_num) (by norm_num) (by norm_num)
  · exact rnd_eval 24 8388609 (by norm_num) (by norm_num) (by norm_num) (by norm_num) (by norm_num)

/-! ### integers -/

/-- **C80**, `arange_with_step` on integers of any size, upwards: if two values past `stop` fit the type and at most `2^24 / 5`
elements are asked for, the number of elements is off by at most one, and the elements are exactly `start + i * step`. -/
theorem C80_int {checks : Bool} {lo hi : Int} {p : Nat} (hp : 24 ≤ p) {start stop step : Int} (hlo : lo ≤ 0)
    (hstart : lo ≤ start) (hstep : 0 < step) (h : start ≤ stop) (hstop : stop + step ≤ hi) (hfit : stop - start + step ≤ hi)
    (hbits : 5 * (stop - start) ≤ 2 ^ 24 * step) :
    ∃ (r : Arr Int) (n : Nat), arangeWithStep (intTy checks lo hi p) start stop step = .ok r ∧
      r.Denotes [n] (fun idx => start + (idx.headD 0 : Nat) * step) ∧
      ⌈((stop - start : Int) : ℚ) / step⌉ - 1 ≤ n ∧ n ≤ ⌈((stop - start : Int) : ℚ) / step⌉ + 1 := by
  have hs : (0 : ℚ) < step := by exact_mod_cast hstep
  have hD : (0 : ℚ) ≤ ((stop - start : Int) : ℚ) := by exact_mod_cast (by omega : 0 ≤ stop - start)
  set X : ℚ := ((stop - start : Int) : ℚ) / step with hX
  have hX0 : 0 ≤ X := div_nonneg hD hs.le
  obtain ⟨θ, hθ, eθ⟩ := quotient_rel hp (D := ((stop - start : Int) : ℚ)) (s := step) (a := 0) (by norm_num)
  rw [add_zero, mul_one, ← hX] at eθ
  have hq0 : 0 ≤ X * (1 + θ) := by
    refine mul_nonneg hX0 ?_
    have := (abs_le.1 hθ).1
    norm_num at this ⊢; linarith
  have hXle : 5 * X ≤ 2 ^ 24 := by
    rw [hX, mul_div_assoc', div_le_iff₀ hs]; exact_mod_cast hbits
  have hnear : ⌈X⌉ - 1 ≤ ⌈X * (1 + θ)⌉ ∧ ⌈X * (1 + θ)⌉ ≤ ⌈X⌉ + 1 := ceil_near (by
    rw [show X * (1 + θ) - X = X * θ by ring, abs_mul, abs_of_nonneg hX0]
    have := mul_le_mul_of_nonneg_left hθ hX0
    norm_num at this hXle ⊢; linarith)
  have hc := Int.ceil_nonneg hq0
  have hXs : ⌈X⌉ * step < stop - start + step := by
    have := Int.ceil_lt_add_one X
    have h1 : (⌈X⌉ : ℚ) * step < (X + 1) * step := mul_lt_mul_of_pos_right this hs
    have h2 : (X + 1) * step = ((stop - start + step : Int) : ℚ) := by
      rw [add_mul, hX, div_mul_cancel₀ _ hs.ne', one_mul]; push_cast; ring
    rw [h2] at h1
    generalize ⌈X⌉ = c at h1 ⊢
    exact_mod_cast h1
  have hrs : rnd 24 (step : ℚ) ≠ 0 := (rnd_pos (by norm_num) hs).ne'
  obtain ⟨r, hr, hden⟩ := arange_ok (T := intTy checks lo hi p) (start := start) (stop := stop) (step := step)
    (d := stop - start) (n := ⌈X * (1 + θ)⌉.toNat) (g := fun i => (i : Int) * step + start)
    (by show intResult checks lo hi (stop - start) = _; exact intResult_ok ⟨by omega, by omega⟩)
    (by simp only [intTy]; rw [if_neg hrs, eθ]; simp only [ceilToUsize]; rw [if_pos hc])
    (fun i hi' => by
      have hi1 : (i : Int) ≤ ⌈X⌉ := by omega
      have hi2 : (i : Int) * step ≤ ⌈X⌉ * step := mul_le_mul_of_nonneg_right hi1 hstep.le
      have hi3 : (i : Int) ≤ i * step := le_mul_of_one_le_right (by omega) (by omega)
      have hi4 : (0 : Int) ≤ i * step := by positivity
      simp only [intTy]
      rw [if_pos (by omega)]
      simp only [unwrap, ok_bind]
      rw [intResult_ok ⟨by omega, by omega⟩]
      simp only [ok_bind]
      rw [intResult_ok ⟨by omega, by omega⟩])
  refine ⟨r, ⌈X * (1 + θ)⌉.toNat, hr, ?_, by omega, by omega⟩
  simpa only [add_comm] using hden

/-- `arange_with_step(0i64, 10^15, 10^9)`: a million elements, give or take one. -/
example : (5 : Int) * (10 ^ 15 - 0) ≤ 2 ^ 24 * 10 ^ 9 ∧ (10 : Int) ^ 15 - 0 + 10 ^ 9 ≤ 2 ^ 63 - 1 := by norm_num

end Verif
