import Verif.Lemmas.IeeeRound

/-!
# Rounding returns a nearest number, and is monotone
-/

namespace Verif

variable {p emax : Nat}

/-- No integer multiple of `q` is closer to `x`. -/
theorem roundEven_nearest {x q : ℚ} (hq : 0 < q) (k : ℤ) : |x - roundEven (x / q) * q| ≤ |x - k * q| := by
  have key : |x / q - roundEven (x / q)| ≤ |x / q - k| := by
    by_cases h : k = roundEven (x / q)
    · rw [h]
    · have h1 := abs_sub_roundEven (x / q)
      have h2 : (1 : ℚ) ≤ |(k : ℚ) - roundEven (x / q)| := by
        have : (1 : ℤ) ≤ |k - roundEven (x / q)| := Int.one_le_abs (sub_ne_zero.2 h)
        exact_mod_cast this
      have h3 : |(k : ℚ) - roundEven (x / q)| ≤ |x / q - roundEven (x / q)| + |x / q - k| := by
        have := abs_sub_le (k : ℚ) (x / q) (roundEven (x / q))
        rw [abs_sub_comm (k : ℚ) (x / q)] at this
        linarith
      linarith
  have e : ∀ m : ℤ, |x - m * q| = |x / q - m| * q := by
    intro m
    rw [← abs_of_pos hq, ← abs_mul, abs_of_pos hq, sub_mul, div_mul_cancel₀ _ hq.ne']
  rw [e, e]
  exact mul_le_mul_of_nonneg_right key hq.le

/-- A number with `p` significant bits that is not below the binade of `x` is a multiple of the last place of `x`. -/
theorem multiple_of_ulp {x y : ℚ} (hy : rnd p y = y) (hy0 : 0 < y) (h : (2 : ℚ) ^ Int.log 2 |x| ≤ y) : ∃ k : ℤ, y = k * ulp p x := by
  have hl : Int.log 2 |x| ≤ Int.log 2 |y| := by
    rw [abs_of_pos hy0]
    exact (Int.zpow_le_iff_le_log (b := 2) (by norm_num) hy0).1 (by exact_mod_cast h)
  have h1 : OnGrid (-(Int.log 2 |y| + 1 - (p : ℤ))) y := ⟨_, by rw [neg_neg]; exact hy.symm.trans (rnd_eq p y)⟩
  obtain ⟨k, hk⟩ := h1.mono (show _ ≤ -(Int.log 2 |x| + 1 - (p : ℤ)) by omega)
  exact ⟨k, by rw [hk, neg_neg]; rfl⟩

/-- If two multiples of `q` are nearest, the even one is taken. -/
theorem roundEven_tie {x q : ℚ} (hq : 0 < q) {k : ℤ} (h : |x - roundEven (x / q) * q| = |x - k * q|) (hk : k ≠ roundEven (x / q)) :
    ∃ m : ℤ, roundEven (x / q) * q = 2 * m * |roundEven (x / q) * q - k * q| := by
  have e : ∀ m : ℤ, |x - m * q| = |x / q - m| * q := by
    intro m
    rw [← abs_of_pos hq, ← abs_mul, abs_of_pos hq, sub_mul, div_mul_cancel₀ _ hq.ne']
  rw [e, e] at h
  have h := mul_right_cancel₀ hq.ne' h
  generalize x / q = z at *
  have h1 := abs_sub_roundEven z
  have h2 : (1 : ℚ) ≤ |(roundEven z : ℚ) - k| := by
    have : (1 : ℤ) ≤ |roundEven z - k| := Int.one_le_abs (sub_ne_zero.2 (Ne.symm hk))
    exact_mod_cast this
  have h3 : |(roundEven z : ℚ) - k| ≤ |z - roundEven z| + |z - k| := by
    have := abs_sub_le (roundEven z : ℚ) z k
    rw [abs_sub_comm (roundEven z : ℚ) z] at this
    linarith
  have h4 : |z - roundEven z| = 1 / 2 := by linarith
  have h5 : |(roundEven z : ℚ) - k| = 1 := by linarith
  have h6 : roundEven z % 2 = 0 := by
    have hf := Int.floor_add_fract z
    have h0 := Int.fract_nonneg z
    have h1' := Int.fract_lt_one z
    unfold roundEven at h4 ⊢
    split_ifs at h4 ⊢ with c1 c2 c3
    · exfalso
      rw [show z - (⌊z⌋ : ℚ) = Int.fract z by linarith, abs_of_nonneg h0] at h4
      linarith
    · exfalso
      push_cast at h4
      rw [show z - ((⌊z⌋ : ℚ) + 1) = -(1 - Int.fract z) by linarith, abs_neg, abs_of_nonneg (by linarith)] at h4
      linarith
    · exact c3
    · omega
  obtain ⟨m, hm⟩ : ∃ m, roundEven z = 2 * m := ⟨roundEven z / 2, by omega⟩
  refine ⟨m, ?_⟩
  rw [← sub_mul, abs_mul, h5, abs_of_pos hq, one_mul, hm]
  push_cast
  ring

theorem rnd_nearest_pos (hp : 0 < p) {x y : ℚ} (hx : 0 < x) (hy : rnd p y = y) : |x - rnd p x| ≤ |x - y| := by
  by_cases h : (2 : ℚ) ^ Int.log 2 |x| ≤ y
  · obtain ⟨k, hk⟩ := multiple_of_ulp hy (lt_of_lt_of_le (zpow_pos (by norm_num) _) h) h
    rw [hk]
    exact roundEven_nearest (ulp_pos p x) k
  · have h1 : (2 : ℚ) ^ Int.log 2 |x| ≤ x := by rw [abs_of_pos hx]; exact zpow_log_le hx
    have h2 : (2 : ℚ) ^ Int.log 2 |x| = ((2 ^ (p - 1) : ℤ) : ℚ) * ulp p x := by
      rw [ulp_eq]
      push_cast
      rw [← zpow_natCast, ← zpow_add₀ (by norm_num)]
      congr 1
      omega
    have h3 := roundEven_nearest (x := x) (ulp_pos p x) (2 ^ (p - 1))
    rw [← h2] at h3
    have h4 := not_le.1 h
    rw [abs_of_nonneg (sub_nonneg.2 h1)] at h3
    rw [abs_of_nonneg (show 0 ≤ x - y by linarith)]
    exact h3.trans (by linarith)

/-- No number with `p` significant bits is closer to `x` than `rnd p x`. -/
theorem rnd_nearest (hp : 0 < p) {x y : ℚ} (hy : rnd p y = y) : |x - rnd p x| ≤ |x - y| := by
  rcases lt_trichotomy x 0 with h | h | h
  · have := rnd_nearest_pos hp (x := -x) (y := -y) (by linarith) (by rw [rnd_neg, hy])
    rw [rnd_neg] at this
    have e : ∀ a b : ℚ, |-a - -b| = |a - b| := fun a b => by rw [neg_sub_neg, abs_sub_comm]
    rwa [e, e] at this
  · subst h; rw [rnd_zero, sub_zero, abs_zero]; exact abs_nonneg _
  · exact rnd_nearest_pos hp h hy

/-- No number of the format is closer to `x` than `rndTiny p emax x`. -/
theorem rndTiny_nearest (hp : 0 < p) {x y : ℚ} (hy : rnd p y = y) (hg : OnGrid (-tiny p emax) y) :
    |x - rndTiny p emax x| ≤ |x - y| := by
  unfold rndTiny
  by_cases hu : ulp p x ≤ 2 ^ tiny p emax
  · rw [max_eq_right hu]
    obtain ⟨k, hk⟩ := hg
    rw [hk, neg_neg]
    exact roundEven_nearest (zpow_pos (by norm_num) _) k
  · rw [max_eq_left (not_le.1 hu).le]
    exact rnd_nearest hp hy

theorem rnd_tie_pos (hp : 0 < p) {x y : ℚ} (hx : 0 < x) (hy : rnd p y = y) (h : |x - rnd p x| = |x - y|) (hne : y ≠ rnd p x) :
    ∃ m : ℤ, rnd p x = 2 * m * |rnd p x - y| := by
  by_cases hb : (2 : ℚ) ^ Int.log 2 |x| ≤ y
  · obtain ⟨k, hk⟩ := multiple_of_ulp hy (lt_of_lt_of_le (zpow_pos (by norm_num) _) hb) hb
    rw [hk] at h ⊢
    refine roundEven_tie (ulp_pos p x) h fun e => hne ?_
    rw [hk, e]; rfl
  · exfalso
    have h1 : (2 : ℚ) ^ Int.log 2 |x| ≤ x := by rw [abs_of_pos hx]; exact zpow_log_le hx
    have h2 : rnd p ((2 : ℚ) ^ Int.log 2 |x|) = 2 ^ Int.log 2 |x| := by
      have := rnd_grid hp (k := 1) (by simpa using one_le_pow₀ (by norm_num : (1 : ℤ) ≤ 2)) (Int.log 2 |x|)
      simpa using this
    have h3 := rnd_nearest_pos hp hx h2
    have h4 := not_le.1 hb
    rw [abs_of_nonneg (sub_nonneg.2 h1)] at h3
    rw [abs_of_nonneg (show 0 ≤ x - y by linarith)] at h
    linarith

theorem rnd_tie (hp : 0 < p) {x y : ℚ} (hy : rnd p y = y) (h : |x - rnd p x| = |x - y|) (hne : y ≠ rnd p x) :
    ∃ m : ℤ, rnd p x = 2 * m * |rnd p x - y| := by
  have e : ∀ a b : ℚ, |-a - -b| = |a - b| := fun a b => by rw [neg_sub_neg, abs_sub_comm]
  rcases lt_trichotomy x 0 with hx | hx | hx
  · obtain ⟨m, hm⟩ := rnd_tie_pos hp (x := -x) (y := -y) (by linarith) (by rw [rnd_neg, hy]) (by rw [rnd_neg, e, e, h])
      (by rw [rnd_neg]; exact fun h => hne (neg_injective h))
    refine ⟨-m, ?_⟩
    rw [rnd_neg, e] at hm
    push_cast
    linarith
  · subst hx
    rw [rnd_zero, sub_zero, abs_zero, zero_sub, abs_neg] at h
    rw [rnd_zero] at hne
    exact absurd (abs_eq_zero.1 h.symm) hne
  · exact rnd_tie_pos hp hx hy h hne

/-- If another number of the format is as close, the result is an even multiple of the distance of the two. -/
theorem rndTiny_tie (hp : 0 < p) {x y : ℚ} (hy : rnd p y = y) (hg : OnGrid (-tiny p emax) y)
    (h : |x - rndTiny p emax x| = |x - y|) (hne : y ≠ rndTiny p emax x) :
    ∃ m : ℤ, rndTiny p emax x = 2 * m * |rndTiny p emax x - y| := by
  unfold rndTiny at *
  by_cases hu : ulp p x ≤ 2 ^ tiny p emax
  · rw [max_eq_right hu] at *
    obtain ⟨k, hk⟩ := hg
    rw [neg_neg] at hk
    rw [hk] at h hne ⊢
    exact roundEven_tie (zpow_pos (by norm_num) _) h fun e => hne (by rw [e])
  · rw [max_eq_left (not_le.1 hu).le] at *
    exact rnd_tie hp hy h hne

/-- Rounding to nearest is monotone, whatever it does with ties. -/
theorem monotone_of_nearest {F : ℚ → Prop} {r : ℚ → ℚ} (hr : ∀ x, F (r x)) (hn : ∀ x y, F y → |x - r x| ≤ |x - y|) : Monotone r := by
  intro x y h
  rcases eq_or_lt_of_le h with rfl | h
  · exact le_rfl
  by_contra hc
  have hc := not_le.1 hc
  have h1 := hn x _ (hr y)
  have h2 := hn y _ (hr x)
  rcases abs_cases (x - r x) with ⟨a, a'⟩ | ⟨a, a'⟩ <;> rcases abs_cases (x - r y) with ⟨b, b'⟩ | ⟨b, b'⟩ <;>
    rcases abs_cases (y - r x) with ⟨c, c'⟩ | ⟨c, c'⟩ <;> rcases abs_cases (y - r y) with ⟨d, d'⟩ | ⟨d, d'⟩ <;> linarith

theorem rnd_mono (hp : 0 < p) : Monotone (rnd p) :=
  monotone_of_nearest (F := fun y => rnd p y = y) (rnd_rnd hp) fun _ _ => rnd_nearest hp

theorem rndTiny_mono (hp : 0 < p) : Monotone (rndTiny p emax) :=
  monotone_of_nearest (F := fun y => rnd p y = y ∧ OnGrid (-tiny p emax) y) (fun x => ⟨rndTiny_bits hp x, rndTiny_grid x⟩)
    fun _ _ h => rndTiny_nearest hp h.1 h.2

theorem rndTiny_self {x : ℚ} (hb : rnd p x = x) (hg : OnGrid (-tiny p emax) x) : rndTiny p emax x = x := by
  rw [rndTiny_of_grid hg, hb]

/-- The overflow threshold: half a unit above the largest number. -/
theorem rndTiny_threshold (hp : 0 < p) (he : 0 < emax) : rndTiny p emax ((2 - 1 / 2 ^ p) * 2 ^ emax) = 2 ^ (emax + 1) := by
  have hpp : (0 : ℚ) < 2 ^ p := by positivity
  have h1p : (2 : ℚ) ≤ 2 ^ p := by
    calc (2 : ℚ) = 2 ^ 1 := by norm_num
      _ ≤ 2 ^ p := pow_le_pow_right₀ (by norm_num) hp
  have hinv : 1 / (2 : ℚ) ^ p ≤ 1 / 2 := one_div_le_one_div_of_le (by norm_num) h1p
  have hu : ulp p ((2 - 1 / 2 ^ p) * 2 ^ emax) = 2 ^ ((emax : ℤ) + 1 - (p : ℤ)) := by
    refine ulp_of ?_ ?_
    · rw [zpow_natCast]
      have : (0 : ℚ) < 2 ^ emax := by positivity
      nlinarith
    · rw [show ((emax : ℤ) + 1) = ((emax + 1 : ℕ) : ℤ) by push_cast; ring, zpow_natCast, pow_succ]
      have h1 : (0 : ℚ) < 2 ^ emax := by positivity
      have h2 : (0 : ℚ) < 1 / 2 ^ p := by positivity
      nlinarith
  have ht : (2 : ℚ) ^ tiny p emax ≤ 2 ^ ((emax : ℤ) + 1 - (p : ℤ)) :=
    zpow_le_zpow_right₀ (by norm_num) (by unfold tiny; omega)
  have hz : (2 : ℚ) ^ ((emax : ℤ) + 1 - (p : ℤ)) = 2 ^ (emax + 1) / 2 ^ p := by
    rw [zpow_sub₀ (by norm_num), zpow_natCast, show ((emax : ℤ) + 1) = ((emax + 1 : ℕ) : ℤ) by push_cast; ring, zpow_natCast]
  unfold rndTiny
  rw [hu, max_eq_left ht, hz]
  have hq : (2 - 1 / 2 ^ p) * 2 ^ emax / (2 ^ (emax + 1) / 2 ^ p) = ((2 ^ p - 1 : ℤ) : ℚ) + 1 / 2 := by
    push_cast
    rw [pow_succ]
    field_simp
    ring
  rw [hq]
  have hfl : ⌊((2 ^ p - 1 : ℤ) : ℚ) + 1 / 2⌋ = 2 ^ p - 1 := by
    rw [Int.floor_eq_iff]; constructor <;> linarith
  have hfr : Int.fract (((2 ^ p - 1 : ℤ) : ℚ) + 1 / 2) = 1 / 2 := by
    unfold Int.fract; rw [hfl]; ring
  have hodd : ¬ ((2 ^ p - 1 : ℤ) % 2 = 0) := by
    obtain ⟨m, rfl⟩ : ∃ m, p = m + 1 := ⟨p - 1, by omega⟩
    rw [pow_succ]; omega
  have : roundEven (((2 ^ p - 1 : ℤ) : ℚ) + 1 / 2) = 2 ^ p := by
    unfold roundEven
    rw [hfr, hfl, if_neg (lt_irrefl _), if_neg (lt_irrefl _), if_neg hodd]; ring
  rw [this]
  push_cast
  field_simp

/-- The largest number. -/
theorem fits_largest (hp : 0 < p) (he : 0 < emax) : rnd p ((2 - 2 / 2 ^ p) * 2 ^ emax) = (2 - 2 / 2 ^ p) * 2 ^ emax ∧
    OnGrid (-tiny p emax) ((2 - 2 / 2 ^ p) * 2 ^ emax) := by
  have hz : (2 : ℚ) ^ ((emax : ℤ) + 1 - (p : ℤ)) = 2 ^ (emax + 1) / 2 ^ p := by
    rw [zpow_sub₀ (by norm_num), zpow_natCast, show ((emax : ℤ) + 1) = ((emax + 1 : ℕ) : ℤ) by push_cast; ring, zpow_natCast]
  have e : (2 - 2 / 2 ^ p) * 2 ^ emax = ((2 ^ p - 1 : ℤ) : ℚ) * 2 ^ ((emax : ℤ) + 1 - (p : ℤ)) := by
    rw [hz]; push_cast; rw [pow_succ]; field_simp
  have h1 : (1 : ℤ) ≤ 2 ^ p := one_le_pow₀ (by norm_num)
  refine ⟨?_, ?_⟩
  · rw [e]
    exact rnd_grid hp (by rw [abs_of_nonneg (by omega)]; omega) _
  · have : OnGrid (-((emax : ℤ) + 1 - (p : ℤ))) ((2 - 2 / 2 ^ p) * 2 ^ emax) := ⟨_, by rw [neg_neg]; exact e⟩
    exact this.mono (by unfold tiny; omega)

/-- A number is rounded to a finite one just below the threshold. -/
theorem rndTiny_lt_iff (hp : 0 < p) (he : 0 < emax) {v : ℚ} :
    rndTiny p emax v < 2 ^ (emax + 1) ↔ v < (2 - 1 / 2 ^ p) * 2 ^ emax := by
  constructor
  · intro h
    by_contra hc
    have := rndTiny_mono (emax := emax) hp (not_lt.1 hc)
    rw [rndTiny_threshold hp he] at this
    linarith
  · intro h
    by_contra hc
    obtain ⟨m1, m2⟩ := fits_largest hp he
    have hn := rndTiny_nearest (x := v) hp m1 m2
    have hc := not_lt.1 hc
    have hpp : (0 : ℚ) < 2 ^ emax / 2 ^ p := by positivity
    have e1 : (2 - 1 / (2 : ℚ) ^ p) * 2 ^ emax = 2 ^ (emax + 1) - 2 ^ emax / 2 ^ p := by rw [pow_succ]; field_simp
    have e2 : (2 - 2 / (2 : ℚ) ^ p) * 2 ^ emax = 2 ^ (emax + 1) - 2 * (2 ^ emax / 2 ^ p) := by rw [pow_succ]; field_simp
    rw [e1] at h
    rw [e2] at hn
    rcases le_or_gt v ((2 - 2 / (2 : ℚ) ^ p) * 2 ^ emax) with hv | hv
    · have := rndTiny_mono (emax := emax) hp hv
      rw [rndTiny_self m1 m2, e2] at this
      linarith
    · rw [e2] at hv
      rw [abs_of_nonneg (show 0 ≤ v - (2 ^ (emax + 1) - 2 * (2 ^ emax / 2 ^ p)) by linarith), abs_sub_comm, abs_of_nonneg (by linarith)] at hn
      linarith

end Verif
