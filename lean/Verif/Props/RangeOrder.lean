import Verif.Props.RangeLength
import Verif.Lemmas.Nearest

/-!
# C83: float ranges are in order and begin at their start

The length of a rounded range can be wrong (C55, C80); here its elements: they begin with `start`, never go back, and are distinct as
long as the spacing is not below the accuracy of the numbers. The other end is not reliable: `arange` can contain `stop`, `linspace` can
miss it.
-/

namespace Verif

/-- The elements of a float range that is returned, whatever its arguments. -/
theorem float_arange_inv {p : Nat} {start stop step : ℚ} {r : Arr ℚ} (h : arangeWithStep (floatTy p) start stop step = .ok r) :
    ∃ n, r.Denotes [n] (fun idx => rnd p (rnd p (rnd p (idx.headD 0 : Nat) * step) + start)) := by
  by_cases hs : rnd 24 step = 0
  · simp [arangeWithStep, floatTy, hs, ceilToUsize, unwrap] at h
  · by_cases hc : 0 ≤ ⌈rnd p (rnd 24 (rnd p (stop - start)) / rnd 24 step)⌉
    · obtain ⟨r', h1, h2⟩ := float_arange (p := p) (start := start) (stop := stop) (step := step) rfl rfl rfl hs rfl
        (n := ⌈rnd p (rnd 24 (rnd p (stop - start)) / rnd 24 step)⌉.toNat) (by omega)
      rw [h] at h1
      cases h1
      exact ⟨_, h2⟩
    · simp [arangeWithStep, floatTy, hs, ceilToUsize, unwrap, hc] at h

/-- The values of a range in order: the first is `start`, the others follow in the direction of the step. -/
structure InOrder (start step : ℚ) (n : Nat) (g : Nat → ℚ) : Prop where
  first : 0 < n → g 0 = start
  up : 0 < step → ∀ i j, i ≤ j → j < n → g i ≤ g j
  down : step < 0 → ∀ i j, i ≤ j → j < n → g j ≤ g i

theorem range_values_order {p : Nat} (hp : 0 < p) {start step : ℚ} (hst : rnd p start = start) (n : Nat) :
    InOrder start step n (fun i => rnd p (rnd p (rnd p (i : ℚ) * step) + start)) where
  first _ := by simp [rnd_zero, hst]
  up hs i j hij _ := by
    have h1 : rnd p (i : ℚ) ≤ rnd p (j : ℚ) := rnd_mono hp (by exact_mod_cast hij)
    exact rnd_mono hp (by linarith [rnd_mono hp (mul_le_mul_of_nonneg_right h1 hs.le)])
  down hs i j hij _ := by
    have h1 : rnd p (i : ℚ) ≤ rnd p (j : ℚ) := rnd_mono hp (by exact_mod_cast hij)
    exact rnd_mono hp (by linarith [rnd_mono hp (mul_le_mul_of_nonpos_right h1 hs.le)])

/-- **C83**, `arange_with_step` on `f32` (`p = 24`) and `f64` (`p = 53`): whatever the arguments, an array that is returned begins
with `start` and never goes back. -/
theorem C83_arange {p : Nat} (hp : 0 < p) {start stop step : ℚ} (hst : rnd p start = start) {r : Arr ℚ}
    (h : arangeWithStep (floatTy p) start stop step = .ok r) :
    ∃ (n : Nat) (g : Nat → ℚ), r.Denotes [n] (fun idx => g (idx.headD 0)) ∧ InOrder start step n g := by
  obtain ⟨n, hn⟩ := float_arange_inv h
  exact ⟨n, _, hn, range_values_order hp hst n⟩

/-- `arange_with_step(0f32, 1.0, 0.1)` -/
example : ∃ (r : Arr ℚ) (n : Nat) (g : Nat → ℚ), arangeWithStep (floatTy 24) 0 1 (1 / 10) = .ok r ∧
    r.Denotes [n] (fun idx => g (idx.headD 0)) ∧ InOrder 0 (1 / 10) n g := by
  obtain ⟨r, _, _, h, _⟩ := C80_arange (p := 24) (by decide) (start := 0) (stop := 1) (step := 1 / 10) (by norm_num) (by norm_num)
    (by norm_num)
  obtain ⟨n, g, h1, h2⟩ := C83_arange (by decide) (rnd_zero 24) h
  exact ⟨r, n, g, h, h1, h2⟩

theorem rnd_sign {p : Nat} (hp : 0 < p) (x : ℚ) : (0 ≤ x → 0 ≤ rnd p x) ∧ (x ≤ 0 → rnd p x ≤ 0) :=
  ⟨fun h => by have := rnd_mono hp h; rwa [rnd_zero] at this, fun h => by have := rnd_mono hp h; rwa [rnd_zero] at this⟩

theorem rnd_ne_zero {p : Nat} (hp : 0 < p) {x : ℚ} (hx : x ≠ 0) : rnd p x ≠ 0 := by
  obtain ⟨δ, h1, h2⟩ := rnd_rel p x
  rw [h2]
  refine mul_ne_zero hx fun h => ?_
  have h3 : δ = -1 := by linarith
  rw [h3] at h1
  have : unitRoundoff p ≤ 1 / 2 := by
    unfold unitRoundoff
    exact one_div_le_one_div_of_le (by norm_num) (by simpa using pow_le_pow_right₀ (by norm_num : (1 : ℚ) ≤ 2) hp)
  norm_num at h1
  linarith

theorem rnd_neg' {p : Nat} (hp : 0 < p) {x : ℚ} (hx : x < 0) : rnd p x < 0 :=
  lt_of_le_of_ne ((rnd_sign hp x).2 hx.le) (rnd_ne_zero hp hx.ne)

/-- The rounded spacing of `linspace` and `linspace_exclusive` points from `start` to `stop`. -/
theorem step_sign {p : Nat} (hp : 0 < p) {start stop m : ℚ} (hm : 0 < m) :
    (start < stop → 0 < rnd p (rnd p (stop - start) / m)) ∧ (stop < start → rnd p (rnd p (stop - start) / m) < 0) :=
  ⟨fun h => rnd_pos hp (div_pos (rnd_pos hp (by linarith)) hm), fun h => rnd_neg' hp (div_neg_of_neg_of_pos (rnd_neg' hp (by linarith)) hm)⟩

theorem single_denotes (start : ℚ) : (Arr.fromContiguousOwnedBuffer [1] [start]).Denotes [1] (fun _ => start) :=
  denotes_fromContiguous (s := [1]) (f := fun _ => start)

theorem InOrder.of_step {start stop step : ℚ} {n : Nat} {g : Nat → ℚ} (h : InOrder start step n g) (h1 : start < stop → 0 < step)
    (h2 : stop < start → step < 0) : InOrder start (stop - start) n g :=
  ⟨h.first, fun hs => h.up (h1 (by linarith)), fun hs => h.down (h2 (by linarith))⟩

/-- **C83**, `linspace` on floats: whatever the arguments, an array that is returned begins with `start` and its elements follow in
the direction of `stop`. -/
theorem C83_linspace {p : Nat} (hp : 0 < p) {start stop : ℚ} {num : Nat} (hst : rnd p start = start) {r : Arr ℚ}
    (h : linspace (floatTy p) start stop num = .ok r) :
    ∃ (n : Nat) (g : Nat → ℚ), r.Denotes [n] (fun idx => g (idx.headD 0)) ∧ InOrder start (stop - start) n g := by
  have hlin := h
  unfold linspace at h
  obtain ⟨_, h0, h⟩ := bind_eq_ok.1 h
  have hnum : 0 < num := by
    by_contra hc
    simp [show num = 0 by omega, assert] at h0
  split at h
  · cases h
    exact ⟨1, fun _ => start, single_denotes start, fun _ => rfl, fun _ _ _ _ _ => le_rfl, fun _ _ _ _ _ => le_rfl⟩
  · rename_i h1
    have h' : arangeWithStep (floatTy p) start (rnd p (stop + rnd p (rnd p (stop - start) / rnd p (rnd p num - 1))))
        (rnd p (rnd p (stop - start) / rnd p (rnd p num - 1))) = .ok r := by
      have e := linspace_of (T := floatTy p) (start := start) (stop := stop) (num := num) (c := rnd p num) (m := rnd p (rnd p num - 1))
        (d := rnd p (stop - start)) (step := rnd p (rnd p (stop - start) / rnd p (rnd p num - 1))) (by omega) rfl rfl rfl rfl rfl
      rw [hlin] at e
      exact e.symm
    obtain ⟨n, g, h2, h3⟩ := C83_arange hp hst h'
    have hm : 0 ≤ rnd p (rnd p num - 1) := by
      refine (rnd_sign hp _).1 ?_
      have : rnd p (1 : ℕ) ≤ rnd p num := rnd_mono hp (by exact_mod_cast hnum)
      rw [rnd_nat hp (Nat.one_le_two_pow)] at this
      push_cast at this
      linarith
    rcases hm.lt_or_eq with hm | hm
    · exact ⟨n, g, h2, h3.of_step (step_sign hp hm).1 (step_sign hp hm).2⟩
    · rw [← hm] at h'
      simp [arangeWithStep, floatTy, rnd_zero, ceilToUsize, unwrap] at h'

example : ∃ (r : Arr ℚ) (n : Nat) (g : Nat → ℚ), linspace (floatTy 24) 0 1 42 = .ok r ∧
    r.Denotes [n] (fun idx => g (idx.headD 0)) ∧ InOrder 0 (1 - 0) n g := by
  obtain ⟨r, _, _, h, _⟩ := C80_linspace (p := 24) (by decide) (start := 0) (stop := 1) (num := 42) (by decide) (by decide) (by decide)
    (by norm_num)
  obtain ⟨n, g, h1, h2⟩ := C83_linspace (by decide) (rnd_zero 24) h
  exact ⟨r, n, g, h, h1, h2⟩

/-- **C83**, `linspace_exclusive`. -/
theorem C83_linspace_exclusive {p : Nat} (hp : 0 < p) {start stop : ℚ} {num : Nat} (hst : rnd p start = start) {r : Arr ℚ}
    (h : linspaceExclusive (floatTy p) start stop num = .ok r) :
    ∃ (n : Nat) (g : Nat → ℚ), r.Denotes [n] (fun idx => g (idx.headD 0)) ∧ InOrder start (stop - start) n g := by
  unfold linspaceExclusive at h
  obtain ⟨_, h0, h⟩ := bind_eq_ok.1 h
  have hnum : 0 < num := by
    by_contra hc
    simp [show num = 0 by omega, assert] at h0
  split at h
  · cases h
    exact ⟨1, fun _ => start, single_denotes start, fun _ => rfl, fun _ _ _ _ _ => le_rfl, fun _ _ _ _ _ => le_rfl⟩
  · have h' : arangeWithStep (floatTy p) start stop (rnd p (rnd p (stop - start) / rnd p num)) = .ok r := h
    obtain ⟨n, g, h2, h3⟩ := C83_arange hp hst h'
    have hm : 0 < rnd p (num : ℚ) := rnd_pos hp (by exact_mod_cast hnum)
    exact ⟨n, g, h2, h3.of_step (step_sign hp hm).1 (step_sign hp hm).2⟩

example : ∃ (r : Arr ℚ) (n : Nat) (g : Nat → ℚ), linspaceExclusive (floatTy 24) 0 (-1) 10 = .ok r ∧
    r.Denotes [n] (fun idx => g (idx.headD 0)) ∧ InOrder 0 (-1 - 0) n g := by
  obtain ⟨r, _, _, h, _⟩ := C80_linspace_exclusive (p := 24) (by decide) (start := 0) (stop := -1) (num := 10) (by decide) (by decide)
    (by decide)
  obtain ⟨n, g, h1, h2⟩ := C83_linspace_exclusive (by decide) (rnd_zero 24) h
  exact ⟨r, n, g, h, h1, h2⟩

/-- **C83**, distinct elements: if the step is at least `5 * 2^-p` times `|start| + n |step|`, a bound for all values, then the elements
of a returned range of at most `n` elements increase (decrease) strictly. -/
theorem C83_distinct {p : Nat} (hp : 0 < p) {start stop step : ℚ} {r : Arr ℚ} (h : arangeWithStep (floatTy p) start stop step = .ok r)
    (hfine : 5 * (|start| + numel r.shape * |step|) < 2 ^ p * |step|) :
    ∃ (n : Nat) (g : Nat → ℚ), r.Denotes [n] (fun idx => g (idx.headD 0)) ∧
      ∀ i j, i < j → j < n → (0 < step → g i < g j) ∧ (step < 0 → g j < g i) := by
  obtain ⟨n, hn⟩ := float_arange_inv h
  rw [hn.1, numel_cons, numel_nil, Nat.mul_one] at hfine
  have hs0 : 0 < |step| := by
    rcases (abs_nonneg step).lt_or_eq with h | h
    · exact h
    · rw [← h] at hfine
      simp at hfine
      linarith [abs_nonneg start]
  have hnp : n < 2 ^ p := by
    have h1 : (n : ℚ) * |step| < 2 ^ p * |step| := by
      have := abs_nonneg start
      have : 0 ≤ (n : ℚ) * |step| := by positivity
      linarith
    exact_mod_cast lt_of_mul_lt_mul_right h1 hs0.le
  have hP : (2 : ℚ) ≤ 2 ^ p := by simpa using pow_le_pow_right₀ (by norm_num : (1 : ℚ) ≤ 2) hp
  have hacc : ∀ i, i < n → |rnd p (rnd p (rnd p (i : ℚ) * step) + start) - (start + i * step)| < |step| / 2 := fun i hi => by
    have h1 := range_value (start := start) (step := step) hp (show i ≤ 2 ^ p by omega)
    unfold AccurateTo unitRoundoff at h1
    have h2 : |(i : ℚ) * step| ≤ n * |step| := by
      rw [abs_mul, Nat.abs_cast]
      exact mul_le_mul_of_nonneg_right (by exact_mod_cast hi.le) hs0.le
    have h3 : (1 + 1 / (2 : ℚ) ^ p) ^ 2 - 1 ≤ 5 / 2 / 2 ^ p := by
      have h4 : (1 : ℚ) / 2 ^ p ≤ 1 / 2 := one_div_le_one_div_of_le (by norm_num) hP
      have h5 : (0 : ℚ) < 1 / 2 ^ p := by positivity
      rw [show (5 / 2 / 2 ^ p : ℚ) = 5 / 2 * (1 / 2 ^ p) by ring]
      nlinarith
    have h4 : 5 / 2 / 2 ^ p * (|start| + n * |step|) < |step| / 2 := by
      rw [div_mul_eq_mul_div, div_lt_iff₀ (by positivity)]
      linarith
    have h5 : ((1 + 1 / (2 : ℚ) ^ p) ^ 2 - 1) * (|start| + |(i : ℚ) * step|) ≤ 5 / 2 / 2 ^ p * (|start| + n * |step|) :=
      mul_le_mul h3 (by linarith) (by positivity) (by positivity)
    linarith
  refine ⟨n, fun i => rnd p (rnd p (rnd p (i : ℚ) * step) + start), hn, fun i j hij hj => ?_⟩
  have h1 := abs_lt.1 (hacc i (by omega))
  have h2 := abs_lt.1 (hacc j hj)
  have h3 : (1 : ℚ) ≤ (j : ℚ) - i := by
    have : ((i + 1 : ℕ) : ℚ) ≤ j := by exact_mod_cast hij
    push_cast at this
    linarith
  constructor
  · intro hs
    rw [abs_of_pos hs] at h1 h2
    nlinarith
  · intro hs
    rw [abs_of_neg hs] at h1 h2
    nlinarith

example : ∃ (r : Arr ℚ) (n : Nat) (g : Nat → ℚ), arangeWithStep (floatTy 24) 0 1 (1 / 10) = .ok r ∧
    r.Denotes [n] (fun idx => g (idx.headD 0)) ∧ ∀ i j, i < j → j < n → g i < g j := by
  obtain ⟨r, n, _, h, hd, _, hn, _⟩ := C80_arange (p := 24) (by decide) (start := 0) (stop := 1) (step := 1 / 10) (by norm_num)
    (by norm_num) (by norm_num)
  have hn' : (n : ℚ) ≤ 11 := by
    have : ⌈((1 : ℚ) - 0) / (1 / 10)⌉ = 10 := by rw [Int.ceil_eq_iff]; norm_num
    rw [this] at hn
    exact_mod_cast hn
  obtain ⟨n, g, h1, h2⟩ := C83_distinct (by decide) h (by
    rw [hd.1, numel_cons, numel_nil, Nat.mul_one, abs_zero, abs_of_pos (by norm_num)]
    norm_num
    linarith)
  exact ⟨r, n, g, h, h1, fun i j hij hj => (h2 i j hij hj).1 (by norm_num)⟩

/-- **C83**, the far end: with `X = (stop - start) / step` between 0 and `2^24 / 5` no element is further than one step and two
roundings beyond `stop`, and none lies before `start`. -/
theorem C83_far_end {p : Nat} (hp : 24 ≤ p) {start stop step : ℚ} (hst : rnd p start = start) (hs : step ≠ 0)
    (h0 : 0 ≤ (stop - start) / step) (h1 : 5 * ((stop - start) / step) ≤ 2 ^ 24) :
    ∃ (r : Arr ℚ) (n : Nat) (g : Nat → ℚ), arangeWithStep (floatTy p) start stop step = .ok r ∧
      r.Denotes [n] (fun idx => g (idx.headD 0)) ∧ ∀ i < n, ∃ e, AccurateTo p 2 (g i) e (|start| + |e - start|) ∧
        (0 < step → start ≤ g i ∧ start ≤ e ∧ e < stop + step) ∧ (step < 0 → g i ≤ start ∧ e ≤ start ∧ stop + step < e) := by
  obtain ⟨r, n, g, hr, hden, _, hn, hacc⟩ := C80_arange hp hs h0 h1
  obtain ⟨n', g', hden', hord⟩ := C83_arange (by omega) hst hr
  have hnn : n' = n := by
    have := hden'.1.symm.trans hden.1
    simpa using this
  subst hnn
  have hgg : ∀ i < n', g i = g' i := fun i hi => by
    have e1 := hden.2.2 [i] (by simpa using hi)
    have e2 := hden'.2.2 [i] (by simpa using hi)
    rw [e1] at e2
    simpa using e2
  refine ⟨r, n', g, hr, hden, fun i hi => ⟨start + i * step, ?_, ?_, ?_⟩⟩
  · rw [show start + i * step - start = i * step by ring]
    exact hacc i hi
  all_goals
    intro hsg
    have hX : (i : ℚ) < (stop - start) / step + 1 := by
      have h2 : (i : ℤ) ≤ ⌈(stop - start) / step⌉ := by omega
      have h3 : (i : ℚ) ≤ ⌈(stop - start) / step⌉ := by exact_mod_cast h2
      exact lt_of_le_of_lt h3 (Int.ceil_lt_add_one _)
    have hi0 : (0 : ℚ) ≤ i := Nat.cast_nonneg i
    have hmul : (stop - start) / step * step = stop - start := div_mul_cancel₀ _ hs
    have hfirst := hord.first (by omega)
  · have hg := hord.up hsg 0 i (by omega) hi
    rw [hgg i hi]
    refine ⟨by linarith, by nlinarith, ?_⟩
    have := mul_lt_mul_of_pos_right hX hsg
    linarith
  · have hg := hord.down hsg 0 i (by omega) hi
    rw [hgg i hi]
    refine ⟨by linarith, by nlinarith, ?_⟩
    have := mul_lt_mul_of_neg_right hX hsg
    linarith

example := C83_far_end (p := 24) (by decide) (start := 0) (stop := 1) (step := 1 / 10) (rnd_zero 24) (by norm_num) (by norm_num)
  (by norm_num)

/-- **C83 is false for the far end of `arange`**: `arange(33554432f32, 33554436.0)` contains `stop` itself, and its first two elements
are equal. -/
theorem C83_stop_false : ∃ (r : Arr ℚ) (g : Nat → ℚ), arange f32Ty 33554432 33554436 = .ok r ∧
    r.Denotes [4] (fun idx => g (idx.headD 0)) ∧ g 3 = 33554436 ∧ g 1 = g 0 := by
  obtain ⟨r, hr, hden⟩ := float_arange (p := 24) (start := 33554432) (stop := 33554436) (step := 1)
    (d := 4) (n := 4) (q := 4) (df := 4) (sf := 1)
    (rnd_eval 2 8388608 (by norm_num) (by norm_num) (by norm_num) (by norm_num) (by norm_num))
    (rnd_eval 2 8388608 (by norm_num) (by norm_num) (by norm_num) (by norm_num) (by norm_num))
    (rnd_eval 0 8388608 (by norm_num) (by norm_num) (by norm_num) (by norm_num) (by norm_num))
    (by norm_num)
    (rnd_eval 2 8388608 (by norm_num) (by norm_num) (by norm_num) (by norm_num) (by norm_num))
    (by rw [Int.ceil_eq_iff]; norm_num)
  have hv : ∀ i : Nat, i ≤ 2 ^ 24 → rnd 24 (rnd 24 (rnd 24 (i : ℚ) * 1) + 33554432) = rnd 24 ((i : ℚ) + 33554432) := fun i hi => by
    rw [rnd_nat (by norm_num) hi, mul_one, rnd_nat (by norm_num) hi]
  refine ⟨r, fun i => rnd 24 (rnd 24 (rnd 24 (i : ℚ) * 1) + 33554432), hr, hden, ?_, ?_⟩
  · simp only
    rw [hv 3 (by norm_num)]
    exact rnd_eval 25 8388609 (by norm_num) (by norm_num) (by norm_num) (by norm_num) (by norm_num)
  · simp only
    rw [hv 1 (by norm_num), hv 0 (by norm_num)]
    rw [rnd_eval (p := 24) (y := 33554432) 25 8388608 (by norm_num) (by norm_num) (by norm_num) (by norm_num) (by norm_num),
      rnd_eval (p := 24) (y := 33554432) 25 8388608 (by norm_num) (by norm_num) (by norm_num) (by norm_num) (by norm_num)]

/-- **C83 is false for the far end of `linspace`**: the last of the 42 elements of `linspace(0f32, 1.0, 42)` is `1 - 2^-24`. -/
theorem C83_end_false : ∃ (r : Arr ℚ) (g : Nat → ℚ), linspace f32Ty 0 1 42 = .ok r ∧
    r.Denotes [42] (fun idx => g (idx.headD 0)) ∧ g 41 = 1 - 1 / 2 ^ 24 := by
  obtain ⟨r, hr, hden⟩ := float_arange (p := 24) (start := 0) (stop := 1074151 / 1048576) (step := 3273603 / 134217728)
    (d := 1074151 / 1048576) (n := 42) (q := 42) (df := 1074151 / 1048576) (sf := 3273603 / 134217728)
    (rnd_eval 0 8593208 (by norm_num) (by norm_num) (by norm_num) (by norm_num) (by norm_num))
    (rnd_eval 0 8593208 (by norm_num) (by norm_num) (by norm_num) (by norm_num) (by norm_num))
    (rnd_eval (-6) 13094412 (by norm_num) (by norm_num) (by norm_num) (by norm_num) (by norm_num))
    (by norm_num)
    (rnd_eval 5 11010048 (by norm_num) (by norm_num) (by norm_num) (by norm_num) (by norm_num))
    (by rw [Int.ceil_eq_iff]; norm_num)
  refine ⟨r, fun i => rnd 24 (rnd 24 (rnd 24 (i : ℚ) * (3273603 / 134217728)) + 0),
    float_linspace (c := 42) (m := 41) (d := 1) (by norm_num) ?_ ?_ ?_ ?_ ?_ hr, hden, ?_⟩
  · exact rnd_eval 5 11010048 (by norm_num) (by norm_num) (by norm_num) (by norm_num) (by norm_num)
  · exact rnd_eval 5 10747904 (by norm_num) (by norm_num) (by norm_num) (by norm_num) (by norm_num)
  · exact rnd_eval 0 8388608 (by norm_num) (by norm_num) (by norm_num) (by norm_num) (by norm_num)
  · exact rnd_eval (-6) 13094412 (by norm_num) (by norm_num) (by norm_num) (by norm_num) (by norm_num)
  · exact rnd_eval 0 8593208 (by norm_num) (by norm_num) (by norm_num) (by norm_num) (by norm_num)
  · simp only
    rw [add_zero, rnd_rnd (by norm_num), rnd_nat (by norm_num) (by norm_num)]
    exact rnd_eval (-1) 16777215 (by norm_num) (by norm_num) (by norm_num) (by norm_num) (by norm_num)

end Verif
