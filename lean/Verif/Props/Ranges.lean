import Verif.Lemmas.Basics
import Verif.Lemmas.Rounding
import Verif.Lemmas.Nearest
import Verif.Model.Ranges
import Mathlib.Tactic.LinearCombination

set_option linter.unusedSimpArgs false

/-! # C38 arange, C39 linspace, C47 randint, C55 linspace with rounding -/

namespace Verif

variable {α K : Type} [Field K] [LinearOrder K] [FloorRing K]

/-! ## helper lemmas -/

theorem elements_vec (n : Nat) (g : Nat → α) : (List.range n).map g = elements [n] (fun idx => g (idx.headD 0)) := by
  simp only [elements, indices, List.map_flatMap, List.map_map, List.map_cons, List.map_nil, List.headD_cons,
    Function.comp_def]
  induction List.range n with
  | nil => rfl
  | cons a l ih => simp [ih]

theorem arange_ok {T : NumTy α K} {start stop step d : α} {n : Nat} {g : Nat → α} (hd : T.sub stop start = .ok d)
    (hn : ceilToUsize (T.fdiv (T.toFloat d) (T.toFloat step)) = some n)
    (hg : ∀ i < n, (do
      let c ← unwrap (T.ofUsize i)
      let m ← T.mul c step
      T.add m start) = .ok (g i)) :
    ∃ r, arangeWithStep T start stop step = .ok r ∧ r.Denotes [n] (fun idx => g (idx.headD 0)) := by
  refine ⟨Arr.fromContiguousOwnedBuffer [n] ((List.range n).map g), ?_, ?_⟩
  · unfold arangeWithStep
    rw [hd]
    simp only [ok_bind]
    rw [hn]
    simp only [show unwrap (some n) = .ok n from rfl, ok_bind]
    rw [mapM_ok (g := g) (fun i hi => hg i (List.mem_range.1 hi))]
    simp
  · rw [elements_vec]; exact denotes_fromContiguous

theorem arange_panics {T : NumTy α K} {start stop step d : α} (hd : T.sub stop start = .ok d)
    (hn : ceilToUsize (T.fdiv (T.toFloat d) (T.toFloat step)) = none) :
    arangeWithStep T start stop step = .error .panic := by
  unfold arangeWithStep
  rw [hd]
  simp only [ok_bind, hn]; rfl

/-! ## C38 -/

section exact
set_option linter.unusedSectionVars false
variable [IsStrictOrderedRing K]

/-- **C38**, exact arithmetic, either direction: if `stop - start` has the sign of `step`, then
`arange_with_step(start, stop, step)` has `⌈(stop - start) / step⌉` elements, the `k`-th being `start + k * step`. -/
theorem C38_exact_length {start stop step : K} (hs : step ≠ 0) (h : 0 ≤ (stop - start) / step) :
    ∃ r, arangeWithStep (exactTy K) start stop step = .ok r ∧
      r.Denotes [⌈(stop - start) / step⌉.toNat] (fun idx => start + (idx.headD 0 : Nat) * step) := by
  have hc : 0 ≤ ⌈(stop - start) / step⌉ := Int.ceil_nonneg h
  obtain ⟨r, hr, hden⟩ := arange_ok (T := exactTy K) (start := start) (stop := stop) (step := step)
    (d := stop - start) (n := ⌈(stop - start) / step⌉.toNat) (g := fun i => (i : K) * step + start) rfl
    (by simp [exactTy, hs, ceilToUsize, hc]) (fun i _ => rfl)
  exact ⟨r, hr, hden.congr fun idx _ => by ring⟩

example := C38_exact_length (start := (1 : ℚ)) (stop := 13 / 5) (step := 1 / 2) (by norm_num) (by norm_num)

/-- **C38** (exact arithmetic). For `step > 0` and `start ≤ stop`, `arange_with_step(start, stop, step)` is the 1-D array of
the numbers `start + k * step` below `stop`: the indices `k` of the array are exactly those with `start + k * step < stop`,
and their number is `⌈(stop - start) / step⌉`. -/
theorem C38_exact {start stop step : K} (hs : 0 < step) (h : start ≤ stop) :
    ∃ (r : Arr K) (n : Nat), arangeWithStep (exactTy K) start stop step = .ok r ∧
      r.Denotes [n] (fun idx => start + (idx.headD 0 : Nat) * step) ∧
      (∀ k : Nat, k < n ↔ start + k * step < stop) ∧ (n : Int) = ⌈(stop - start) / step⌉ := by
  have h0 : 0 ≤ (stop - start) / step := div_nonneg (by linarith) hs.le
  have hc : 0 ≤ ⌈(stop - start) / step⌉ := Int.ceil_nonneg h0
  obtain ⟨r, hr, hden⟩ := C38_exact_length hs.ne' h0
  refine ⟨r, _, hr, hden, fun k => ?_, by omega⟩
  rw [show (k < ⌈(stop - start) / step⌉.toNat ↔ (k : Int) < ⌈(stop - start) / step⌉) by omega, Int.lt_ceil,
    lt_div_iff₀ hs]
  push_cast
  constructor <;> intro h <;> linarith

example := C38_exact (start := (1 : ℚ)) (stop := 13 / 5) (step := 1 / 2) (by norm_num) (by norm_num)

/-- **C38** (exact arithmetic): `arange(start, stop)`. -/
theorem C38_exact_arange {start stop : K} (h : start ≤ stop) :
    ∃ (r : Arr K) (n : Nat), arange (exactTy K) start stop = .ok r ∧
      r.Denotes [n] (fun idx => start + (idx.headD 0 : Nat)) ∧ ∀ k : Nat, k < n ↔ start + k < stop := by
  obtain ⟨r, n, hr, hden, hn, _⟩ := C38_exact (step := 1) one_pos h
  refine ⟨r, n, hr, hden.congr fun idx _ => by rw [mul_one], fun k => ?_⟩
  rw [hn, mul_one]

example := C38_exact_arange (start := (1 : ℚ)) (stop := 13 / 5) (by norm_num)

/-- **C38** (exact arithmetic): a range that runs the wrong way by a whole step or more, and a step of 0, are refused. -/
theorem C38_exact_refused {start stop step : K} (h : step = 0 ∨ (stop - start) / step ≤ -1) :
    arangeWithStep (exactTy K) start stop step = .error .panic := by
  apply arange_panics (d := stop - start) rfl
  by_cases hs : step = 0
  · simp [exactTy, hs, ceilToUsize]
  · have h := h.resolve_left hs
    have : ⌈(stop - start) / step⌉ ≤ -1 := Int.ceil_le.2 (by push_cast; exact h)
    simp only [exactTy, hs, ceilToUsize, if_false]
    rw [if_neg (by omega)]

end exact

example : (0 : ℚ) < 1 / 2 ∧ (1 : ℚ) ≤ 13 / 5 := by norm_num
/-- A concrete range: 1, 3/2, 2, 5/2 are the numbers below 13/5. -/
example : ⌈((13 / 5 - 1) / (1 / 2) : ℚ)⌉ = 4 := by rw [Int.ceil_eq_iff]; norm_num

theorem intResult_ok {checks : Bool} {lo hi z : Int} (h : lo ≤ z ∧ z ≤ hi) : intResult checks lo hi z = .ok z := by
  simp [intResult, h]

/-- The number of elements computed for a difference of `a ≤ 2^24` and a step of `b`: the least `n` with `n * b ≥ a`. -/
theorem int_length {p : Nat} (hp : 24 ≤ p) {a b : Nat} (hapow : a ≤ 2 ^ 24) (hb0 : 0 < b) :
    ∃ n : Nat, ceilToUsize (some (rnd p ((a : ℚ) / rnd 24 (b : ℚ)))) = some n ∧ ∀ k : Nat, k < n ↔ k * b < a := by
  have hb' : (0 : ℚ) < b := by exact_mod_cast hb0
  have hrb : 0 < rnd 24 (b : ℚ) := rnd_pos (by norm_num) hb'
  rcases Nat.eq_zero_or_pos a with rfl | ha0
  · refine ⟨0, ?_, fun k => by simp⟩
    rw [Nat.cast_zero, zero_div, rnd_zero]
    simp [ceilToUsize]
  · by_cases hbb : b ≤ 2 ^ 24
    · have hfb : rnd 24 (b : ℚ) = b := by
        exact_mod_cast rnd_nat (p := 24) (by norm_num) hbb
      have hpos : (0 : ℚ) < (a : ℚ) / b := by have : (0 : ℚ) < a := by exact_mod_cast ha0
                                              positivity
      refine ⟨⌈(a : ℚ) / b⌉.toNat, ?_, fun k => ?_⟩
      · rw [hfb]
        simp only [ceilToUsize]
        rw [ceil_rnd_div (by omega) ha0 (hapow.trans (Nat.pow_le_pow_right (by norm_num) hp)) hb0]
        rw [if_pos (Int.ceil_nonneg hpos.le)]
      · rw [show (k < ⌈(a : ℚ) / b⌉.toNat ↔ (k : Int) < ⌈(a : ℚ) / b⌉) by omega, Int.lt_ceil, lt_div_iff₀ hb']
        push_cast
        exact_mod_cast Iff.rfl
    · have hbig : (2 : ℚ) ^ (24 : ℤ) ≤ rnd 24 (b : ℚ) := by
        apply two_pow_le_rnd _ (by norm_num)
        have : (2 : ℕ) ^ 24 ≤ b := by omega
        have : ((2 ^ 24 : ℕ) : ℚ) ≤ b := by exact_mod_cast this
        norm_num at this ⊢
        exact this
      have ha1 : (0 : ℚ) < a := by exact_mod_cast ha0
      have ha2 : (a : ℚ) ≤ rnd 24 (b : ℚ) := by
        refine le_trans ?_ hbig
        have : ((a : ℕ) : ℚ) ≤ ((2 ^ 24 : ℕ) : ℚ) := by exact_mod_cast hapow
        norm_num at this ⊢
        exact this
      have hq0 : 0 < (a : ℚ) / rnd 24 (b : ℚ) := div_pos ha1 hrb
      have hq1 : (a : ℚ) / rnd 24 (b : ℚ) ≤ ((1 : ℕ) : ℚ) := by
        rw [div_le_iff₀ hrb]; push_cast; linarith
      have hr0 := rnd_pos (p := p) (by omega) hq0
      have hr1 := rnd_le_nat (p := p) (by omega) hq0 hq1 (by push_cast; exact one_le_pow₀ (by norm_num))
      refine ⟨1, ?_, fun k => ?_⟩
      · have : ⌈rnd p ((a : ℚ) / rnd 24 (b : ℚ))⌉ = 1 := by
          rw [Int.ceil_eq_iff]; push_cast at hr1 ⊢; exact ⟨by linarith, hr1⟩
        simp [ceilToUsize, this]
      · rw [Nat.lt_one_iff]
        constructor
        · rintro rfl; omega
        · intro hk
          by_contra hk0
          have : b ≤ k * b := Nat.le_mul_of_pos_left _ (by omega)
          omega

/-- **C38**, machine integers (partial). For an integer type with values `lo..=hi`, in debug and release builds:
`arange_with_step(start, stop, step)` with `step ≥ 1` and `start ≤ stop` is the 1-D array of the numbers `start + k * step`
below `stop`, provided `stop - start` fits the type and is at most 2^24. Missing: larger ranges, where it is false
(`C38_int_false`), and differences that overflow (`C38_int_overflow_false`). The length is computed in floating point with
at least 24 bits. -/
theorem C38_int_partial {checks : Bool} {lo hi : Int} {p : Nat} (hp : 24 ≤ p) {start stop step : Int} (hlo : lo ≤ 0)
    (hstart : lo ≤ start) (hstop : stop ≤ hi) (hstep : 0 < step) (h : start ≤ stop) (hfit : stop - start ≤ hi)
    (hbits : stop - start ≤ 2 ^ 24) :
    ∃ (r : Arr Int) (n : Nat), arangeWithStep (intTy checks lo hi p) start stop step = .ok r ∧
      r.Denotes [n] (fun idx => start + (idx.headD 0 : Nat) * step) ∧
      (∀ k : Nat, k < n ↔ start + k * step < stop) := by
  obtain ⟨a, ha⟩ := Int.eq_ofNat_of_zero_le (show 0 ≤ stop - start by omega)
  obtain ⟨b, hb⟩ := Int.eq_ofNat_of_zero_le hstep.le
  have hb0 : 0 < b := by omega
  have hapow : a ≤ 2 ^ 24 := by have := ha ▸ hbits; exact_mod_cast this
  have hsub : (intTy checks lo hi p).sub stop start = .ok (a : Int) := by
    show intResult checks lo hi (stop - start) = _
    rw [intResult_ok ⟨by omega, hfit⟩, ha]
  -- the computed number of elements
  have hlen : ∃ n : Nat, ceilToUsize ((intTy checks lo hi p).fdiv ((intTy checks lo hi p).toFloat (a : Int))
      ((intTy checks lo hi p).toFloat step)) = some n ∧ ∀ k : Nat, k < n ↔ k * b < a := by
    have hfa : rnd 24 ((a : Int) : ℚ) = a := by
      have := rnd_nat (p := 24) (by norm_num) hapow
      exact_mod_cast this
    have hrb : 0 < rnd 24 ((step : Int) : ℚ) := rnd_pos (by norm_num) (by exact_mod_cast hstep)
    have hval : ceilToUsize ((intTy checks lo hi p).fdiv ((intTy checks lo hi p).toFloat (a : Int))
        ((intTy checks lo hi p).toFloat step)) =
        ceilToUsize (some (rnd p ((a : ℚ) / rnd 24 (b : ℚ)))) := by
      simp only [intTy, hfa]
      rw [if_neg hrb.ne', hb, Int.cast_natCast]
    rw [hval]
    exact int_length hp hapow hb0
  obtain ⟨n, hn, hiff⟩ := hlen
  have hiff' : ∀ k : Nat, k < n ↔ start + k * step < stop := by
    intro k
    rw [hiff k, hb]
    constructor
    · intro h
      have : ((k * b : ℕ) : ℤ) < a := by exact_mod_cast h
      push_cast at this; omega
    · intro h
      have : ((k * b : ℕ) : ℤ) < a := by push_cast; omega
      exact_mod_cast this
  obtain ⟨r, hr, hden⟩ := arange_ok (g := fun i => (i : Int) * step + start) hsub hn (fun i hi' => by
    have hlt := (hiff i).1 hi'
    have hib : i ≤ i * b := Nat.le_mul_of_pos_right _ hb0
    have h1 : (i : Int) * step = ((i * b : ℕ) : ℤ) := by rw [hb]; push_cast; rfl
    have e1 : (intTy checks lo hi p).ofUsize i = some (i : Int) := by
      simp only [intTy]; rw [if_pos (by omega)]
    have e2 : (intTy checks lo hi p).mul (i : Int) step = .ok ((i : Int) * step) := intResult_ok (by omega)
    have e3 : (intTy checks lo hi p).add ((i : Int) * step) start = .ok ((i : Int) * step + start) :=
      intResult_ok (by omega)
    simp only [e1, unwrap, ok_bind, e2, e3])
  exact ⟨r, n, hr, hden.congr fun idx _ => by ring, hiff'⟩

example := C38_int_partial (checks := true) (lo := -2 ^ 31) (hi := 2 ^ 31 - 1) (p := 24) (by decide) (start := -7) (stop := 90) (step := 3)
  (by decide) (by decide) (by decide) (by decide) (by decide) (by decide) (by decide)

/-- **C38**, machine integers, downwards (partial). With `step ≤ -1` and `stop ≤ start` it is the array of the numbers
`start + k * step` above `stop`, provided `stop - start` fits the type and is at least -2^24. The type has at most one more
negative than positive value; up to `hi + 1` values can be returned. -/
theorem C38_int_down_partial {checks : Bool} {lo hi : Int} {p : Nat} (hp : 24 ≤ p) {start stop step : Int} (hhi : -lo ≤ hi + 1)
    (hhi0 : 0 ≤ hi) (hstart : start ≤ hi) (hstop : lo ≤ stop) (hstep : step < 0) (h : stop ≤ start) (hfit : lo ≤ stop - start)
    (hbits : start - stop ≤ 2 ^ 24) :
    ∃ (r : Arr Int) (n : Nat), arangeWithStep (intTy checks lo hi p) start stop step = .ok r ∧
      r.Denotes [n] (fun idx => start + (idx.headD 0 : Nat) * step) ∧
      (∀ k : Nat, k < n ↔ stop < start + k * step) := by
  obtain ⟨a, ha⟩ := Int.eq_ofNat_of_zero_le (show 0 ≤ start - stop by omega)
  obtain ⟨b, hb⟩ := Int.eq_ofNat_of_zero_le (show 0 ≤ -step by omega)
  have hb0 : 0 < b := by omega
  have hapow : a ≤ 2 ^ 24 := by have := ha ▸ hbits; exact_mod_cast this
  have hsub : (intTy checks lo hi p).sub stop start = .ok (-(a : Int)) := by
    show intResult checks lo hi (stop - start) = _
    rw [intResult_ok ⟨hfit, by omega⟩]; congr 1; omega
  have hfa : rnd 24 ((a : ℕ) : ℚ) = a := rnd_nat (p := 24) (by norm_num) hapow
  have hrb : 0 < rnd 24 (b : ℚ) := rnd_pos (by norm_num) (by exact_mod_cast hb0)
  obtain ⟨n, hn, hiff⟩ := int_length hp hapow hb0
  have hval : ceilToUsize ((intTy checks lo hi p).fdiv ((intTy checks lo hi p).toFloat (-(a : Int)))
      ((intTy checks lo hi p).toFloat step)) = some n := by
    rw [← hn]
    obtain rfl : step = -(b : Int) := by omega
    simp only [intTy, Int.cast_neg, Int.cast_natCast, rnd_neg, hfa]
    rw [if_neg (neg_ne_zero.2 hrb.ne'), neg_div_neg_eq]
  have hkb : ∀ k : Nat, (k : Int) * step = -((k * b : ℕ) : ℤ) := fun k => by
    rw [show step = -(b : Int) by omega]; push_cast; ring
  obtain ⟨r, hr, hden⟩ := arange_ok (g := fun i => (i : Int) * step + start) hsub hval (fun i hi' => by
    have hlt := (hiff i).1 hi'
    have hib : i ≤ i * b := Nat.le_mul_of_pos_right _ hb0
    have h1 := hkb i
    have e1 : (intTy checks lo hi p).ofUsize i = some (i : Int) := by
      simp only [intTy]; rw [if_pos (by omega)]
    have e2 : (intTy checks lo hi p).mul (i : Int) step = .ok ((i : Int) * step) := intResult_ok (by omega)
    have e3 : (intTy checks lo hi p).add ((i : Int) * step) start = .ok ((i : Int) * step + start) :=
      intResult_ok (by omega)
    simp only [e1, unwrap, ok_bind, e2, e3])
  refine ⟨r, n, hr, hden.congr fun idx _ => by ring, fun k => ?_⟩
  rw [hiff k, hkb k]
  omega

example := C38_int_down_partial (checks := true) (lo := -2 ^ 31) (hi := 2 ^ 31 - 1) (p := 24) (by decide) (start := 90) (stop := -7)
  (step := -3) (by decide) (by decide) (by decide) (by decide) (by decide) (by decide) (by decide) (by decide)

/-- The range runs away from `stop`: the computed number of elements, for a difference of `a < 2^24` against the step `b`. -/
theorem int_length_away {p : Nat} (hp : 24 ≤ p) {a b : Nat} (hapow : a < 2 ^ 24) (hb0 : 0 < b) :
    ceilToUsize (some (-rnd p ((a : ℚ) / rnd 24 (b : ℚ)))) = if a < b then some 0 else none := by
  have hb' : (0 : ℚ) < b := by exact_mod_cast hb0
  have hrb : 0 < rnd 24 (b : ℚ) := rnd_pos (by norm_num) hb'
  have key : ∀ x : ℚ, ceilToUsize (some (-x)) = if x < 1 then (if 0 ≤ ⌈-x⌉ then some ⌈-x⌉.toNat else none) else none := by
    intro x
    simp only [ceilToUsize]
    by_cases hx : x < 1
    · rw [if_pos hx]
    · rw [if_neg hx, if_neg]
      have : ⌈-x⌉ ≤ -1 := Int.ceil_le.2 (by push_cast; linarith)
      omega
  have key0 : ∀ x : ℚ, 0 ≤ x → x < 1 → ⌈-x⌉ = 0 := by
    intro x h0 h1
    rw [Int.ceil_eq_iff]; push_cast
    constructor <;> linarith
  have ha1 : (0 : ℚ) ≤ a := Nat.cast_nonneg _
  rw [key]
  have hlt : rnd p ((a : ℚ) / rnd 24 (b : ℚ)) < 1 ↔ a < b := by
    have hgrid : rnd p (1 - 1 / 2 ^ 24) = 1 - 1 / 2 ^ 24 := by
      have := rnd_grid (p := p) (by omega) (k := 2 ^ 24 - 1)
        (by rw [abs_of_nonneg (by norm_num)]; exact le_trans (by norm_num) (pow_le_pow_right₀ (by norm_num : (1 : ℤ) ≤ 2) hp)) (-24)
      have e : (((2 : ℤ) ^ 24 - 1 : ℤ) : ℚ) * 2 ^ (-24 : ℤ) = 1 - 1 / 2 ^ 24 := by norm_num
      rwa [e] at this
    have ha24 : (a : ℚ) ≤ 2 ^ 24 - 1 := by
      have : ((a + 1 : ℕ) : ℚ) ≤ ((2 ^ 24 : ℕ) : ℚ) := by exact_mod_cast hapow
      push_cast at this; linarith
    constructor
    · intro h
      by_contra hab
      have hb24 : b ≤ 2 ^ 24 := by omega
      rw [rnd_nat (by norm_num) hb24] at h
      have hba : (b : ℚ) ≤ a := by exact_mod_cast not_lt.1 hab
      have hle := nat_le_rnd (p := p) (by omega) (k := 1) (x := (a : ℚ) / b) (by rw [lt_div_iff₀ hb']; linarith)
        (by rw [le_div_iff₀ hb']; push_cast; linarith)
        (by
          refine (div_le_self ha1 (by exact_mod_cast hb0)).trans (le_trans (b := 2 ^ 24) (by linarith) ?_)
          exact pow_le_pow_right₀ (by norm_num) hp)
      push_cast at hle; linarith
    · intro hab
      refine lt_of_le_of_lt (rnd_mono (p := p) (by omega) (b := 1 - 1 / 2 ^ 24) ?_) (by rw [hgrid]; norm_num)
      rw [div_le_iff₀ hrb]
      by_cases hb24 : b ≤ 2 ^ 24
      · rw [rnd_nat (by norm_num) hb24]
        have h1 : (a : ℚ) + 1 ≤ b := by exact_mod_cast hab
        have h2 : (b : ℚ) ≤ 2 ^ 24 := by exact_mod_cast hb24
        have h3 : (1 / 2 ^ 24 : ℚ) * b ≤ 1 := by rw [one_div, inv_mul_le_iff₀ (by positivity)]; linarith
        linarith
      · have h2 : (2 : ℚ) ^ (24 : ℤ) ≤ rnd 24 (b : ℚ) := by
          apply two_pow_le_rnd _ (by norm_num)
          have : ((2 ^ 24 : ℕ) : ℚ) ≤ b := by exact_mod_cast (not_le.1 hb24).le
          norm_num at this ⊢
          exact this
        have h3 : (2 : ℚ) ^ (24 : ℤ) = 2 ^ 24 := by norm_num
        rw [h3] at h2
        calc (a : ℚ) ≤ 2 ^ 24 - 1 := ha24
          _ = (1 - 1 / 2 ^ 24) * 2 ^ 24 := by norm_num
          _ ≤ _ := by gcongr
  have h0 : 0 ≤ rnd p ((a : ℚ) / rnd 24 (b : ℚ)) := by
    rcases Nat.eq_zero_or_pos a with rfl | ha0
    · simp [rnd_zero]
    · exact (rnd_pos (by omega) (div_pos (by exact_mod_cast ha0) hrb)).le
  by_cases hab : a < b
  · rw [if_pos (hlt.2 hab), if_pos hab, key0 _ h0 (hlt.2 hab)]; rfl
  · rw [if_neg (mt hlt.1 hab), if_neg hab]

/-- **C38**, machine integers: a step of 0 always panics, in debug and release builds. -/
theorem C38_int_zero_step {checks : Bool} {lo hi : Int} {p : Nat} {start stop : Int} :
    arangeWithStep (intTy checks lo hi p) start stop 0 = .error .panic := by
  rcases hd : (intTy checks lo hi p).sub stop start with e | d
  · have : e = .panic := by
      simp only [intTy, intResult] at hd
      split_ifs at hd
      exact (Except.error.inj hd).symm
    unfold arangeWithStep
    rw [hd, this]; rfl
  · exact arange_panics hd (by simp [intTy, rnd_zero, ceilToUsize])

/-- **C38**, machine integers: what happens if `step` leads away from `stop`, for differences below 2^24 that fit the type. A
step longer than the difference gives an empty array, any other a panic. -/
theorem C38_int_away {checks : Bool} {lo hi : Int} {p : Nat} (hp : 24 ≤ p) {start stop step : Int}
    (hsign : (0 < step ∧ stop < start) ∨ (step < 0 ∧ start < stop)) (hfit : lo ≤ stop - start ∧ stop - start ≤ hi)
    (hbits : |stop - start| < 2 ^ 24) :
    (|stop - start| < |step| → ∃ r, arangeWithStep (intTy checks lo hi p) start stop step = .ok r ∧ r.Denotes [0] (fun _ => 0)) ∧
    (|step| ≤ |stop - start| → arangeWithStep (intTy checks lo hi p) start stop step = .error .panic) := by
  obtain ⟨a, ha⟩ := Int.eq_ofNat_of_zero_le (abs_nonneg (stop - start))
  obtain ⟨b, hb⟩ := Int.eq_ofNat_of_zero_le (abs_nonneg step)
  have hb0 : 0 < b := by
    have : 0 < |step| := abs_pos.2 (by omega)
    omega
  have hapow : a < 2 ^ 24 := by have := ha ▸ hbits; exact_mod_cast this
  have hsub : (intTy checks lo hi p).sub stop start = .ok (stop - start) := intResult_ok hfit
  have hfa : rnd 24 ((a : ℕ) : ℚ) = a := rnd_nat (p := 24) (by norm_num) hapow.le
  have hrb : rnd 24 (b : ℚ) ≠ 0 := (rnd_pos (by norm_num) (by exact_mod_cast hb0)).ne'
  have hval : ceilToUsize ((intTy checks lo hi p).fdiv ((intTy checks lo hi p).toFloat (stop - start))
      ((intTy checks lo hi p).toFloat step)) = if a < b then some 0 else none := by
    rw [← int_length_away hp hapow hb0]
    rcases hsign with ⟨h1, h2⟩ | ⟨h1, h2⟩
    · rw [abs_of_neg (by omega)] at ha
      rw [abs_of_pos h1] at hb
      rw [show stop - start = -(a : Int) by omega, hb]
      simp only [intTy, Int.cast_neg, Int.cast_natCast, rnd_neg, hfa]
      rw [if_neg hrb, neg_div, rnd_neg]
    · rw [abs_of_pos (by omega)] at ha
      rw [abs_of_neg h1] at hb
      rw [ha, show step = -(b : Int) by omega]
      simp only [intTy, Int.cast_neg, Int.cast_natCast, rnd_neg, hfa]
      rw [if_neg (neg_ne_zero.2 hrb), div_neg, rnd_neg]
  rw [ha, hb]
  constructor
  · intro h
    rw [if_pos (by exact_mod_cast h)] at hval
    exact arange_ok (g := fun _ => 0) hsub hval (fun i hi => absurd hi (by omega))
  · intro h
    rw [if_neg (by have : b ≤ a := by exact_mod_cast h
                   omega)] at hval
    exact arange_panics hsub hval

example := C38_int_away (checks := true) (lo := -2 ^ 31) (hi := 2 ^ 31 - 1) (p := 24) (by decide) (start := 90) (stop := -7) (step := 3)
  (.inl (by decide)) (by decide) (by decide)

/-- `i32`: 24-bit floats. -/
def i32Ty (checks : Bool) : NumTy Int ℚ := intTy checks (-2 ^ 31) (2 ^ 31 - 1) 24
/-- `i64`: the length is computed in `f64`, from numbers rounded to `f32`. -/
def i64Ty (checks : Bool) : NumTy Int ℚ := intTy checks (-2 ^ 63) (2 ^ 63 - 1) 53
/-- `i8` -/
def i8Ty (checks : Bool) : NumTy Int ℚ := intTy checks (-2 ^ 7) (2 ^ 7 - 1) 24

example : (24 ≤ 53) ∧ (-2 ^ 63 : Int) ≤ 0 ∧ (-2 ^ 63 : Int) ≤ 5 ∧ (1000 : Int) ≤ 2 ^ 63 - 1 ∧ (0 : Int) < 3 ∧ (5 : Int) ≤ 1000 ∧
    (1000 - 5 : Int) ≤ 2 ^ 63 - 1 ∧ (1000 - 5 : Int) ≤ 2 ^ 24 := by norm_num

/-- Downwards, the largest number of elements: `arange_with_step(0i8, -128, -1)` is `0, -1, .., -127`. -/
example (checks : Bool) : ∃ r, arangeWithStep (i8Ty checks) 0 (-128) (-1) = .ok r ∧
    r.Denotes [128] (fun idx => -((idx.headD 0 : Nat) : Int)) := by
  obtain ⟨r, n, hr, hden, hn⟩ := C38_int_down_partial (checks := checks) (lo := -2 ^ 7) (hi := 2 ^ 7 - 1) (p := 24) le_rfl
    (start := 0) (stop := -128) (step := -1) (by norm_num) (by norm_num) (by norm_num) (by norm_num) (by norm_num) (by norm_num)
    (by norm_num) (by norm_num)
  obtain rfl : n = 128 := by
    have h1 := hn 127
    have h2 := hn 128
    push_cast at h1 h2
    have := h1.2 (by norm_num)
    have : ¬ 128 < n := fun h => by have := h2.1 h; omega
    omega
  exact ⟨r, hr, hden.congr fun idx _ => by ring⟩
/-- `arange_with_step(0i32, -3, 5)` is empty, `arange(5i32, 3)` panics. -/
example (checks : Bool) : (∃ r, arangeWithStep (i32Ty checks) 0 (-3) 5 = .ok r ∧ r.Denotes [0] (fun _ => 0)) ∧
    arange (i32Ty checks) 5 3 = .error .panic :=
  ⟨(C38_int_away le_rfl (by norm_num) (by norm_num) (by norm_num)).1 (by norm_num),
    (C38_int_away (step := 1) le_rfl (by norm_num) (by norm_num) (by norm_num)).2 (by norm_num)⟩

theorem rnd24_boundary : rnd 24 ((2 : ℚ) ^ 24 + 1) = 2 ^ 24 := by
  rw [rnd_of (e := 24) (m := 2 ^ 23) (by norm_num) (by norm_num)]
  · norm_num
  · unfold roundEven
    have hx : ((2 : ℚ) ^ 24 + 1) / 2 ^ ((24 : ℤ) + 1 - ((24 : ℕ) : ℤ)) = 8388608 + 1 / 2 := by norm_num
    rw [hx]
    have hfl : ⌊(8388608 + 1 / 2 : ℚ)⌋ = 8388608 := by rw [Int.floor_eq_iff]; norm_num
    have hfr : Int.fract (8388608 + 1 / 2 : ℚ) = 1 / 2 := by rw [Int.fract, hfl]; norm_num
    rw [hfr, hfl]; norm_num

/-- **C38 is false of the code**: for `i32`, `i64` and every other integer type of at least 32 bits, `arange(0, 2^24 + 1)` has
only `2^24` elements; the last number, `2^24`, is missing. -/
theorem C38_int_false {checks : Bool} {lo hi : Int} {p : Nat} (hp : 24 ≤ p) (hlo : lo ≤ 0) (hhi : 2 ^ 24 + 1 ≤ hi) :
    ∃ r, arange (intTy checks lo hi p) 0 (2 ^ 24 + 1) = .ok r ∧ r.shape = [2 ^ 24] ∧
      ¬ ∃ g, r.Denotes [2 ^ 24 + 1] g := by
  obtain ⟨r, hr, hden⟩ := arange_ok (T := intTy checks lo hi p) (start := 0) (stop := 2 ^ 24 + 1) (step := 1)
    (d := 2 ^ 24 + 1) (n := 2 ^ 24) (g := fun i => (i : Int))
    (by show intResult _ _ _ _ = _; rw [sub_zero, intResult_ok (by constructor <;> omega)])
    (by
      have h1 : rnd 24 ((1 : Int) : ℚ) = 1 := by
        have := rnd_int (p := 24) (by norm_num) (k := 1) (by norm_num)
        exact_mod_cast this
      have h2 : rnd 24 (((2 ^ 24 + 1 : Int)) : ℚ) = 2 ^ 24 := by
        rw [Int.cast_add, Int.cast_pow]; exact_mod_cast rnd24_boundary
      simp only [intTy, h1, h2, one_ne_zero, if_false, div_one]
      have h3 : rnd p ((2 : ℚ) ^ 24) = 2 ^ 24 := by
        have := rnd_nat (p := p) (by omega) (k := 2 ^ 24) (Nat.pow_le_pow_right (by norm_num) hp)
        push_cast at this
        exact this
      rw [h3]
      simp only [ceilToUsize]
      have : ⌈(2 : ℚ) ^ 24⌉ = 2 ^ 24 := by
        rw [Int.ceil_eq_iff]; norm_num
      rw [this, if_pos (by norm_num), show (2 ^ 24 : ℤ) = ((2 ^ 24 : ℕ) : ℤ) by norm_num, Int.toNat_natCast])
    (fun i hi' => by
      have e1 : (intTy checks lo hi p).ofUsize i = some (i : Int) := by
        simp only [intTy]; rw [if_pos (by have : (i : Int) < 2 ^ 24 := by exact_mod_cast hi'
                                          omega)]
      have hi2 : (i : Int) < 2 ^ 24 := by exact_mod_cast hi'
      have e2 : (intTy checks lo hi p).mul (i : Int) 1 = .ok (i : Int) := by
        show intResult _ _ _ _ = _; rw [mul_one, intResult_ok (by constructor <;> omega)]
      have e3 : (intTy checks lo hi p).add (i : Int) 0 = .ok (i : Int) := by
        show intResult _ _ _ _ = _; rw [add_zero, intResult_ok (by constructor <;> omega)]
      simp only [e1, unwrap, ok_bind, e2, e3])
  refine ⟨r, hr, hden.1, ?_⟩
  rintro ⟨g, hg⟩
  have h1 := hden.1
  rw [hg.1] at h1
  norm_num at h1

example : ∃ r, arange (i32Ty false) 0 (2 ^ 24 + 1) = .ok r ∧ r.shape = [2 ^ 24] ∧ ¬ ∃ g, r.Denotes [2 ^ 24 + 1] g :=
  C38_int_false (by norm_num) (by norm_num) (by norm_num)
example : ∃ r, arange (i64Ty true) 0 (2 ^ 24 + 1) = .ok r ∧ r.shape = [2 ^ 24] ∧ ¬ ∃ g, r.Denotes [2 ^ 24 + 1] g :=
  C38_int_false (by norm_num) (by norm_num) (by norm_num)

/-- **C38 is false of the code** for small signed types: `arange(-100i8, 100)` panics, in debug builds because `100 - -100`
overflows, in release builds because the wrapped difference is negative. -/
theorem C38_int_overflow_false (checks : Bool) : arange (i8Ty checks) (-100) 100 = .error .panic := by
  cases checks
  · apply arange_panics (d := -56)
    · show intResult false (-2 ^ 7) (2 ^ 7 - 1) (100 - -100) = _
      rfl
    · have h1 : rnd 24 ((1 : Int) : ℚ) = 1 := by
        have := rnd_int (p := 24) (by norm_num) (k := 1) (by norm_num)
        exact_mod_cast this
      have h2 : rnd 24 ((-56 : Int) : ℚ) = -56 := by
        have := rnd_int (p := 24) (by norm_num) (k := -56) (by norm_num)
        exact_mod_cast this
      have h3 : rnd 24 (-56 : ℚ) = -56 := by
        have := rnd_int (p := 24) (by norm_num) (k := -56) (by norm_num)
        exact_mod_cast this
      simp only [i8Ty, intTy, h1, h2, one_ne_zero, if_false, div_one, h3]
      simp only [ceilToUsize]
      have : ⌈(-56 : ℚ)⌉ = -56 := by rw [Int.ceil_eq_iff]; norm_num
      rw [this]; norm_num
  · rfl

/-! ## C39 -/

section exact
variable [IsStrictOrderedRing K]

/-- **C39** (exact arithmetic). For `start ≠ stop` and `num ≥ 2`, `linspace(start, stop, num)` has exactly `num` elements, the
`k`-th being `start + k * (stop - start) / (num - 1)`; the first is `start`, the last is `stop`. -/
theorem C39_linspace_partial {start stop : K} {num : Nat} (hne : start ≠ stop) (hn : 2 ≤ num) :
    ∃ (r : Arr K) (f : List Nat → K), linspace (exactTy K) start stop num = .ok r ∧ r.Denotes [num] f ∧
      (∀ k : Nat, f [k] = start + k * ((stop - start) / (num - 1))) ∧ f [0] = start ∧ f [num - 1] = stop := by
  have hn1 : ((num : K) - 1) ≠ 0 := by
    have : (2 : K) ≤ num := by exact_mod_cast hn
    have : (0 : K) < (num : K) - 1 := by linarith
    exact this.ne'
  have hd : stop - start ≠ 0 := sub_ne_zero.2 (Ne.symm hne)
  have hstep : (stop - start) / ((num : K) - 1) ≠ 0 := div_ne_zero hd hn1
  have hq : (stop + (stop - start) / ((num : K) - 1) - start) / ((stop - start) / ((num : K) - 1)) = num := by
    field_simp; ring
  obtain ⟨r, hr, hden⟩ := C38_exact_length (start := start) (stop := stop + (stop - start) / ((num : K) - 1)) hstep
    (by rw [hq]; positivity)
  rw [hq, Int.ceil_natCast, Int.toNat_natCast] at hden
  refine ⟨r, _, ?_, hden, fun k => rfl, by simp, ?_⟩
  · unfold linspace
    rw [assert_ok (by simp; omega)]
    simp only [ok_bind]
    rw [if_neg (by omega)]
    exact hr
  · have : ((num - 1 : ℕ) : K) = (num : K) - 1 := by rw [Nat.cast_sub (by omega)]; simp
    simp only [List.headD_cons, this]
    field_simp; ring

example := C39_linspace_partial (start := (3 : ℚ)) (stop := -1) (num := 5) (by norm_num) (by decide)

/-- **C39** (exact arithmetic). For `start ≠ stop` and `num ≥ 2`, `linspace_exclusive(start, stop, num)` has exactly `num`
elements, the `k`-th being `start + k * (stop - start) / num`; the first is `start`, none is `stop`. -/
theorem C39_linspace_exclusive_partial {start stop : K} {num : Nat} (hne : start ≠ stop) (hn : 2 ≤ num) :
    ∃ (r : Arr K) (f : List Nat → K), linspaceExclusive (exactTy K) start stop num = .ok r ∧ r.Denotes [num] f ∧
      (∀ k : Nat, f [k] = start + k * ((stop - start) / num)) ∧ f [0] = start ∧
      ∀ k < num, f [k] ≠ stop := by
  have hn1 : (num : K) ≠ 0 := by
    have : (2 : K) ≤ num := by exact_mod_cast hn
    have : (0 : K) < (num : K) := by linarith
    exact this.ne'
  have hd : stop - start ≠ 0 := sub_ne_zero.2 (Ne.symm hne)
  have hstep : (stop - start) / (num : K) ≠ 0 := div_ne_zero hd hn1
  have hq : (stop - start) / ((stop - start) / (num : K)) = num := by field_simp
  obtain ⟨r, hr, hden⟩ := C38_exact_length (start := start) (stop := stop) hstep (by rw [hq]; positivity)
  rw [hq, Int.ceil_natCast, Int.toNat_natCast] at hden
  refine ⟨r, _, ?_, hden, fun k => rfl, by simp, ?_⟩
  · unfold linspaceExclusive
    rw [assert_ok (by simp; omega)]
    simp only [ok_bind]
    rw [if_neg (by omega)]
    exact hr
  · intro k hk heq
    simp only [List.headD_cons] at heq
    have h1 : (k : K) * ((stop - start) / num) = stop - start := by linear_combination heq
    have h2 : (k : K) = num := by
      field_simp at h1
      exact h1
    have : k = num := by exact_mod_cast h2
    omega

example := C39_linspace_exclusive_partial (start := (3 : ℚ)) (stop := -1) (num := 5) (by norm_num) (by decide)

/-- **C39 is false of the code** for `start = stop`: instead of `num` equal values, both functions panic for every `num ≥ 2`
(the number of steps is `0 / 0`). -/
theorem C39_constant_false (start : K) {num : Nat} (hn : 2 ≤ num) :
    linspace (exactTy K) start start num = .error .panic ∧ linspaceExclusive (exactTy K) start start num = .error .panic := by
  constructor
  · unfold linspace
    rw [assert_ok (by simp; omega)]
    simp only [ok_bind]
    rw [if_neg (by omega)]
    show arangeWithStep (exactTy K) start (start + (start - start) / ((num : K) - 1)) ((start - start) / ((num : K) - 1)) = _
    exact C38_exact_refused (.inl (by simp))
  · unfold linspaceExclusive
    rw [assert_ok (by simp; omega)]
    simp only [ok_bind]
    rw [if_neg (by omega)]
    show arangeWithStep (exactTy K) start start ((start - start) / (num : K)) = _
    exact C38_exact_refused (.inl (by simp))

end exact

/-- **C39**: `num = 0` panics and `num = 1` gives the array `[start]`, for every element type. -/
theorem C39_zero_one (T : NumTy α K) (start stop : α) :
    linspace T start stop 0 = .error .panic ∧ linspaceExclusive T start stop 0 = .error .panic ∧
    ∃ r, linspace T start stop 1 = .ok r ∧ linspaceExclusive T start stop 1 = .ok r ∧ r.Denotes [1] (fun _ => start) := by
  refine ⟨rfl, rfl, _, rfl, rfl, ?_⟩
  exact denotes_fromContiguous (s := [1]) (f := fun _ => start)

example : (0 : ℚ) ≠ 1 ∧ 2 ≤ 5 := by norm_num

/-! ## C55: linspace with rounded arithmetic -/

/-- A rounding computed from exponent and significand. -/
theorem rnd_eval {p : Nat} {x : ℚ} (e m : ℤ) {y : ℚ} (h1 : (2 : ℚ) ^ e ≤ x) (h2 : x < 2 ^ (e + 1))
    (h3 : ((m : ℚ) - 1 / 2) * 2 ^ (e + 1 - (p : ℤ)) < x) (h4 : x < ((m : ℚ) + 1 / 2) * 2 ^ (e + 1 - (p : ℤ)))
    (hy : (m : ℚ) * 2 ^ (e + 1 - (p : ℤ)) = y) : rnd p x = y := by
  have hu : (0 : ℚ) < 2 ^ (e + 1 - (p : ℤ)) := zpow_pos (by norm_num) _
  rw [← hy]
  exact rnd_of h1 h2 (roundEven_of (by rwa [lt_div_iff₀ hu]) (by rwa [div_lt_iff₀ hu]))

theorem float_arange {p : Nat} {start stop step d q df sf : ℚ} {n : Nat} (hd : rnd p (stop - start) = d) (hdf : rnd 24 d = df)
    (hsf : rnd 24 step = sf) (hs0 : sf ≠ 0) (hq : rnd p (df / sf) = q) (hn : ⌈q⌉ = n) :
    ∃ r, arangeWithStep (floatTy p) start stop step = .ok r ∧
      r.Denotes [n] (fun idx => rnd p (rnd p (rnd p (idx.headD 0 : Nat) * step) + start)) := by
  refine arange_ok (T := floatTy p) (d := d) (g := fun i => rnd p (rnd p (rnd p (i : Nat) * step) + start))
    (by show Except.ok _ = _; rw [hd]) ?_ (fun i _ => rfl)
  simp only [floatTy, hdf, hsf, hs0, if_false, hq, ceilToUsize, hn]
  simp

/-- `f32` -/
def f32Ty : NumTy ℚ ℚ := floatTy 24
/-- `f64` -/
def f64Ty : NumTy ℚ ℚ := floatTy 53

theorem linspace_of {T : NumTy α K} {start stop c m d step stop' : α} {num : Nat} (h2 : 2 ≤ num)
    (e1 : T.ofUsize num = some c) (e2 : T.sub c T.one = .ok m) (e3 : T.sub stop start = .ok d) (e4 : T.div d m = .ok step)
    (e5 : T.add stop step = .ok stop') : linspace T start stop num = arangeWithStep T start stop' step := by
  unfold linspace
  rw [assert_ok (by simp; omega)]
  simp only [ok_bind]
  rw [if_neg (by omega)]
  simp only [e1, unwrap, ok_bind, e2, e3, e4, e5]

theorem float_linspace {p : Nat} {start stop c m d step stop' : ℚ} {num : Nat} {r : Arr ℚ} (h2 : 2 ≤ num) (hc : rnd p num = c)
    (hm : rnd p (c - 1) = m) (hd : rnd p (stop - start) = d) (hstep : rnd p (d / m) = step)
    (hstop : rnd p (stop + step) = stop') (hr : arangeWithStep (floatTy p) start stop' step = .ok r) :
    linspace (floatTy p) start stop num = .ok r := by
  rw [linspace_of (T := floatTy p) h2 (c := c) (m := m) (d := d) (step := step) (stop' := stop') _ _ _ _ _]
  · exact hr
  · show some _ = _; rw [hc]
  · show Except.ok (rnd p (c - (floatTy p).one)) = _; rw [show (floatTy p).one = (1 : ℚ) from rfl, hm]
  · show Except.ok _ = _;  rw [hd]
  · show Except.ok _ = _;  rw [hstep]
  · show Except.ok _ = _;  rw [hstop]

theorem linspace_exclusive_of {T : NumTy α K} {start stop c d step : α} {num : Nat} (h2 : 2 ≤ num)
    (e1 : T.ofUsize num = some c) (e3 : T.sub stop start = .ok d) (e4 : T.div d c = .ok step) :
    linspaceExclusive T start stop num = arangeWithStep T start stop step := by
  unfold linspaceExclusive
  rw [assert_ok (by simp; omega)]
  simp only [ok_bind]
  rw [if_neg (by omega)]
  simp only [e1, unwrap, ok_bind, e3, e4]

theorem float_linspace_exclusive {p : Nat} {start stop c d step : ℚ} {num : Nat} {r : Arr ℚ} (h2 : 2 ≤ num) (hc : rnd p num = c)
    (hd : rnd p (stop - start) = d) (hstep : rnd p (d / c) = step)
    (hr : arangeWithStep (floatTy p) start stop step = .ok r) :
    linspaceExclusive (floatTy p) start stop num = .ok r := by
  rw [linspace_exclusive_of (T := floatTy p) h2 (c := c) (d := d) (step := step) _ _ _]
  · exact hr
  · show some _ = _; rw [hc]
  · show Except.ok _ = _;  rw [hd]
  · show Except.ok _ = _;  rw [hstep]

/-- **C55 is false of the code**: `linspace(0f32, 5.0, 7)` has 8 elements. -/
theorem C55_f32_false : ∃ r, linspace f32Ty 0 5 7 = .ok r ∧ r.shape = [8] := by
  obtain ⟨r, hr, hden⟩ := float_arange (p := 24) (start := 0) (stop := 12233387 / 2097152) (step := 13981013 / 16777216)
    (d := 12233387 / 2097152) (n := 8) (q := 14680065 / 2097152) (df := 12233387 / 2097152) (sf := 13981013 / 16777216)
    (rnd_eval 2 12233387 (by norm_num) (by norm_num) (by norm_num) (by norm_num) (by norm_num))
    (rnd_eval 2 12233387 (by norm_num) (by norm_num) (by norm_num) (by norm_num) (by norm_num))
    (rnd_eval (-1) 13981013 (by norm_num) (by norm_num) (by norm_num) (by norm_num) (by norm_num))
    (by norm_num)
    (rnd_eval 2 14680065 (by norm_num) (by norm_num) (by norm_num) (by norm_num) (by norm_num))
    (by rw [Int.ceil_eq_iff]; norm_num)
  refine ⟨r, float_linspace (c := 7) (m := 6) (d := 5) (by norm_num) ?_ ?_ ?_ ?_ ?_ hr, hden.1⟩
  · exact rnd_eval 2 14680064 (by norm_num) (by norm_num) (by norm_num) (by norm_num) (by norm_num)
  · exact rnd_eval 2 12582912 (by norm_num) (by norm_num) (by norm_num) (by norm_num) (by norm_num)
  · exact rnd_eval 2 10485760 (by norm_num) (by norm_num) (by norm_num) (by norm_num) (by norm_num)
  · exact rnd_eval (-1) 13981013 (by norm_num) (by norm_num) (by norm_num) (by norm_num) (by norm_num)
  · exact rnd_eval 2 12233387 (by norm_num) (by norm_num) (by norm_num) (by norm_num) (by norm_num)

/-- **C55 is false of the code**: `linspace(0f64, 1.0, 6)` has 7 elements. -/
theorem C55_f64_false : ∃ r, linspace f64Ty 0 1 6 = .ok r ∧ r.shape = [7] := by
  obtain ⟨r, hr, hden⟩ := float_arange (p := 53) (start := 0) (stop := 5404319552844595 / 4503599627370496)
    (step := 3602879701896397 / 18014398509481984)
    (d := 5404319552844595 / 4503599627370496) (n := 7) (q := 3377699804413951 / 562949953421312) (df := 5033165 / 4194304)
    (sf := 13421773 / 67108864)
    (rnd_eval 0 5404319552844595 (by norm_num) (by norm_num) (by norm_num) (by norm_num) (by norm_num))
    (rnd_eval 0 10066330 (by norm_num) (by norm_num) (by norm_num) (by norm_num) (by norm_num))
    (rnd_eval (-3) 13421773 (by norm_num) (by norm_num) (by norm_num) (by norm_num) (by norm_num))
    (by norm_num)
    (rnd_eval 2 6755399608827902 (by norm_num) (by norm_num) (by norm_num) (by norm_num) (by norm_num))
    (by rw [Int.ceil_eq_iff]; norm_num)
  refine ⟨r, float_linspace (c := 6) (m := 5) (d := 1) (by norm_num) ?_ ?_ ?_ ?_ ?_ hr, hden.1⟩
  · exact rnd_eval 2 6755399441055744 (by norm_num) (by norm_num) (by norm_num) (by norm_num) (by norm_num)
  · exact rnd_eval 2 5629499534213120 (by norm_num) (by norm_num) (by norm_num) (by norm_num) (by norm_num)
  · exact rnd_eval 0 4503599627370496 (by norm_num) (by norm_num) (by norm_num) (by norm_num) (by norm_num)
  · exact rnd_eval (-3) 7205759403792794 (by norm_num) (by norm_num) (by norm_num) (by norm_num) (by norm_num)
  · exact rnd_eval 0 5404319552844595 (by norm_num) (by norm_num) (by norm_num) (by norm_num) (by norm_num)

/-- **C55 is false of the code**: `linspace_exclusive(0f32, 7.0, 23)` has 24 elements. -/
theorem C55_exclusive_f32_false : ∃ r, linspaceExclusive f32Ty 0 7 23 = .ok r ∧ r.shape = [24] := by
  obtain ⟨r, hr, hden⟩ := float_arange (p := 24) (start := 0) (stop := 7) (step := 5106109 / 16777216)
    (d := 7) (n := 24) (q := 12058625 / 524288) (df := 7) (sf := 5106109 / 16777216)
    (rnd_eval 2 14680064 (by norm_num) (by norm_num) (by norm_num) (by norm_num) (by norm_num))
    (rnd_eval 2 14680064 (by norm_num) (by norm_num) (by norm_num) (by norm_num) (by norm_num))
    (rnd_eval (-2) 10212218 (by norm_num) (by norm_num) (by norm_num) (by norm_num) (by norm_num))
    (by norm_num)
    (rnd_eval 4 12058625 (by norm_num) (by norm_num) (by norm_num) (by norm_num) (by norm_num))
    (by rw [Int.ceil_eq_iff]; norm_num)
  refine ⟨r, float_linspace_exclusive (c := 23) (d := 7) (by norm_num) ?_ ?_ ?_ hr, hden.1⟩
  · exact rnd_eval 4 12058624 (by norm_num) (by norm_num) (by norm_num) (by norm_num) (by norm_num)
  · exact rnd_eval 2 14680064 (by norm_num) (by norm_num) (by norm_num) (by norm_num) (by norm_num)
  · exact rnd_eval (-2) 10212218 (by norm_num) (by norm_num) (by norm_num) (by norm_num) (by norm_num)

/-- **C55 is false of the code**: `linspace_exclusive(0f64, 1.0, 25)` has 26 elements. -/
theorem C55_exclusive_f64_false : ∃ r, linspaceExclusive f64Ty 0 1 25 = .ok r ∧ r.shape = [26] := by
  obtain ⟨r, hr, hden⟩ := float_arange (p := 53) (start := 0) (stop := 1) (step := 5764607523034235 / 144115188075855872)
    (d := 1) (n := 26) (q := 1759218643763201 / 70368744177664) (df := 1) (sf := 5368709 / 134217728)
    (rnd_eval 0 4503599627370496 (by norm_num) (by norm_num) (by norm_num) (by norm_num) (by norm_num))
    (rnd_eval 0 8388608 (by norm_num) (by norm_num) (by norm_num) (by norm_num) (by norm_num))
    (rnd_eval (-5) 10737418 (by norm_num) (by norm_num) (by norm_num) (by norm_num) (by norm_num))
    (by norm_num)
    (rnd_eval 4 7036874575052804 (by norm_num) (by norm_num) (by norm_num) (by norm_num) (by norm_num))
    (by rw [Int.ceil_eq_iff]; norm_num)
  refine ⟨r, float_linspace_exclusive (c := 25) (d := 1) (by norm_num) ?_ ?_ ?_ hr, hden.1⟩
  · exact rnd_eval 4 7036874417766400 (by norm_num) (by norm_num) (by norm_num) (by norm_num) (by norm_num)
  · exact rnd_eval 0 4503599627370496 (by norm_num) (by norm_num) (by norm_num) (by norm_num) (by norm_num)
  · exact rnd_eval (-5) 5764607523034235 (by norm_num) (by norm_num) (by norm_num) (by norm_num) (by norm_num)

/-- **C38 is false of the code** for `f64`: `arange(0.0, 1.0 + 2^-30)` has one element, although `1.0` is also below the stop;
the numbers are rounded to `f32` before they are divided. -/
theorem C38_f64_false : ∃ r, arange f64Ty 0 (1 + 1 / 2 ^ 30) = .ok r ∧ r.shape = [1] := by
  obtain ⟨r, hr, hden⟩ := float_arange (p := 53) (start := 0) (stop := 1 + 1 / 2 ^ 30) (step := 1)
    (d := 1 + 1 / 2 ^ 30) (n := 1) (q := 1) (df := 1) (sf := 1)
    (rnd_eval 0 4503599631564800 (by norm_num) (by norm_num) (by norm_num) (by norm_num) (by norm_num))
    (rnd_eval 0 8388608 (by norm_num) (by norm_num) (by norm_num) (by norm_num) (by norm_num))
    (rnd_eval 0 8388608 (by norm_num) (by norm_num) (by norm_num) (by norm_num) (by norm_num))
    (by norm_num)
    (rnd_eval 0 4503599627370496 (by norm_num) (by norm_num) (by norm_num) (by norm_num) (by norm_num))
    (by rw [Int.ceil_eq_iff]; norm_num)
  exact ⟨r, hr, hden.1⟩

/-! ### numbers on a common grid: no rounding happens -/

/-- **C38**, floating point (partial). If `start`, `stop`, `step` are multiples `a, b, s` of a power of two with `a ≤ b`, `s > 0`,
`b - a ≤ 2^24`, `s ≤ 2^24` and `|a|, |b| ≤ 2^24`, then on `f32` and `f64` `arange_with_step(start, stop, step)` is, without any
rounding error, the array of the numbers `start + k * step` below `stop`. -/
theorem C38_float_partial {p : Nat} (hp : 24 ≤ p) {a b s : ℤ} (e : ℤ) (hab : a ≤ b) (hs : 0 < s) (hd : b - a ≤ 2 ^ 24)
    (hs24 : s ≤ 2 ^ 24) (ha : |a| ≤ 2 ^ 24) (hb : |b| ≤ 2 ^ 24) :
    ∃ (r : Arr ℚ) (n : Nat), arangeWithStep (floatTy p) (a * 2 ^ e) (b * 2 ^ e) (s * 2 ^ e) = .ok r ∧
      r.Denotes [n] (fun idx => (a + (idx.headD 0 : Nat) * s) * 2 ^ e) ∧ ∀ k : Nat, k < n ↔ a + k * s < b := by
  have he : (0 : ℚ) < 2 ^ e := zpow_pos (by norm_num) _
  have hpow : (2 : ℤ) ^ 24 ≤ 2 ^ p := by gcongr; norm_num
  have habs : ∀ z : ℤ, |z| ≤ 2 ^ 24 → |z| ≤ 2 ^ p := fun z h => h.trans hpow
  obtain ⟨m, hm⟩ := Int.eq_ofNat_of_zero_le (show 0 ≤ b - a by omega)
  obtain ⟨t, ht⟩ := Int.eq_ofNat_of_zero_le hs.le
  have ht0 : 0 < t := by omega
  have hd' : |b - a| ≤ 2 ^ 24 := by rw [abs_of_nonneg (by omega)]; exact hd
  have hs' : |s| ≤ 2 ^ 24 := by rw [abs_of_nonneg hs.le]; exact hs24
  have e1 : rnd p ((b : ℚ) * 2 ^ e - a * 2 ^ e) = ((b - a : ℤ) : ℚ) * 2 ^ e := by
    rw [show (b : ℚ) * 2 ^ e - a * 2 ^ e = ((b - a : ℤ) : ℚ) * 2 ^ e by push_cast; ring, rnd_grid (by omega) (habs _ hd')]
  have e2 : rnd 24 (((b - a : ℤ) : ℚ) * 2 ^ e) = ((b - a : ℤ) : ℚ) * 2 ^ e := rnd_grid (by omega) hd' e
  have e3 : rnd 24 ((s : ℚ) * 2 ^ e) = (s : ℚ) * 2 ^ e := rnd_grid (by omega) hs' e
  have hsq : (0 : ℚ) < s := by exact_mod_cast hs
  have ht' : (0 : ℚ) < t := by exact_mod_cast ht0
  have hdiv : ((b - a : ℤ) : ℚ) * 2 ^ e / ((s : ℚ) * 2 ^ e) = (m : ℚ) / t := by
    rw [mul_div_mul_right _ _ he.ne', hm, ht]; push_cast; rfl
  have hq0 : 0 ≤ (m : ℚ) / t := by positivity
  have hc : ⌈rnd p ((m : ℚ) / t)⌉ = ⌈(m : ℚ) / t⌉ := by
    rcases Nat.eq_zero_or_pos m with rfl | hm0
    · simp [rnd_zero]
    · refine ceil_rnd_div (by omega) hm0 ?_ ht0
      have : (m : ℤ) ≤ 2 ^ p := by omega
      exact_mod_cast this
  have hiff : ∀ k : Nat, k < ⌈(m : ℚ) / t⌉.toNat ↔ a + k * s < b := by
    intro k
    rw [show (k < ⌈(m : ℚ) / t⌉.toNat ↔ (k : Int) < ⌈(m : ℚ) / t⌉) by omega, Int.lt_ceil, lt_div_iff₀ ht']
    rw [show ((k : ℤ) : ℚ) * t < m ↔ (k : ℤ) * (t : ℤ) < (m : ℤ) by exact_mod_cast Iff.rfl, ← hm, ← ht]
    constructor <;> intro h <;> omega
  obtain ⟨r, hr, hden⟩ := float_arange (p := p) e1 e2 e3 (mul_pos hsq he).ne' rfl
    (by rw [hdiv, hc]; exact (Int.toNat_of_nonneg (Int.ceil_nonneg hq0)).symm)
  refine ⟨r, _, hr, hden.congr fun idx hidx => ?_, hiff⟩
  obtain ⟨k, rfl⟩ : ∃ k, idx = [k] := by
    rcases idx with _ | ⟨k, _ | ⟨l, t⟩⟩
    · simp [InB] at hidx
    · exact ⟨k, rfl⟩
    · simp [InB] at hidx
  have hk : k < ⌈(m : ℚ) / t⌉.toNat := by simpa [InB] using hidx
  have hk' := (hiff k).1 hk
  have hks : (k : ℤ) ≤ k * s := le_mul_of_one_le_right (by omega) (by omega)
  have hkn : k ≤ 2 ^ p := by have : (k : ℤ) ≤ 2 ^ p := by omega
                             exact_mod_cast this
  simp only [List.headD_cons]
  rw [rnd_nat (by omega) hkn]
  have f1 : (k : ℚ) * ((s : ℚ) * 2 ^ e) = ((k * s : ℤ) : ℚ) * 2 ^ e := by push_cast; ring
  rw [f1, rnd_grid (by omega) (by rw [abs_of_nonneg (by omega)]; omega)]
  have f2 : ((k * s : ℤ) : ℚ) * 2 ^ e + a * 2 ^ e = ((a + k * s : ℤ) : ℚ) * 2 ^ e := by push_cast; ring
  rw [f2, rnd_grid (by omega)]
  · push_cast; ring
  · rw [abs_le] at ha hb ⊢
    constructor <;> omega

example : (24 ≤ 53) ∧ (-7 : ℤ) ≤ 90 ∧ (0 : ℤ) < 3 ∧ (90 - -7 : ℤ) ≤ 2 ^ 24 ∧ (3 : ℤ) ≤ 2 ^ 24 ∧ |(-7 : ℤ)| ≤ 2 ^ 24 ∧ |(90 : ℤ)| ≤ 2 ^ 24 := by
  norm_num

/-- **C55** (partial). If `start = a * 2^e` and the exact step is `s * 2^e > 0` with `|a| + num * s ≤ 2^24`, no rounding happens and
`linspace(start, stop, num)` has exactly `num` elements, the `k`-th being exactly `start + k * step`, on `f32` and `f64`.
Missing: steps that have to be rounded, where it is false (`C55_f32_false`, `C55_f64_false`). -/
theorem C55_linspace_partial {p : Nat} (hp : 24 ≤ p) {a s : ℤ} (e : ℤ) {num : Nat} (hn : 2 ≤ num) (hs : 0 < s)
    (hfit : |a| + num * s ≤ 2 ^ 24) :
    ∃ r : Arr ℚ, linspace (floatTy p) (a * 2 ^ e) ((a + (num - 1) * s) * 2 ^ e) num = .ok r ∧
      r.Denotes [num] (fun idx => (a + (idx.headD 0 : Nat) * s) * 2 ^ e) := by
  have he : (0 : ℚ) < 2 ^ e := zpow_pos (by norm_num) _
  have hpow : (2 : ℤ) ^ 24 ≤ 2 ^ p := by gcongr; norm_num
  have hns : (num : ℤ) ≤ num * s := le_mul_of_one_le_right (by omega) (by omega)
  have hs1 : s ≤ num * s := le_mul_of_one_le_left (by omega) (by omega)
  have ha := abs_le.1 (le_refl |a|)
  have ha0 := abs_nonneg a
  have hsq : (0 : ℚ) < s := by exact_mod_cast hs
  have hnq : (2 : ℚ) ≤ num := by exact_mod_cast hn
  obtain ⟨r, n, hr, hden, hiff⟩ := C38_float_partial (p := p) hp (a := a) (b := a + num * s) (s := s) e (by omega) hs
    (by omega) (by omega) (by omega) (by rw [abs_le]; constructor <;> omega)
  have hnn : n = num := by
    have h1 := hiff num
    have h2 := hiff (num - 1)
    have h3 : ((num - 1 : ℕ) : ℤ) * s = num * s - s := by rw [Nat.cast_sub (by omega)]; push_cast; ring
    rw [h3] at h2
    have : num - 1 < n := h2.2 (by omega)
    have : ¬ num < n := fun h => by have := h1.1 h; omega
    omega
  subst hnn
  refine ⟨r, float_linspace (c := (n : ℚ)) (m := (n : ℚ) - 1) (d := (((n - 1) * s : ℤ) : ℚ) * 2 ^ e)
    (step := (s : ℚ) * 2 ^ e) (stop' := ((a + n * s : ℤ) : ℚ) * 2 ^ e) hn ?_ ?_ ?_ ?_ ?_ hr, hden⟩
  · apply rnd_nat (by omega)
    have : (n : ℤ) ≤ 2 ^ p := by omega
    exact_mod_cast this
  · have h := rnd_int (p := p) (by omega) (k := (n : ℤ) - 1) (by rw [abs_of_nonneg (by omega)]; omega)
    push_cast at h; exact h
  · rw [show ((a : ℚ) + (n - 1) * s) * 2 ^ e - a * 2 ^ e = (((n - 1) * s : ℤ) : ℚ) * 2 ^ e by push_cast; ring]
    refine rnd_grid (by omega) ?_ e
    have : ((n : ℤ) - 1) * s = n * s - s := by ring
    rw [this, abs_of_nonneg (by omega)]; omega
  · have : (((n - 1) * s : ℤ) : ℚ) * 2 ^ e / ((n : ℚ) - 1) = (s : ℚ) * 2 ^ e := by
      have : (n : ℚ) - 1 ≠ 0 := by have : (0 : ℚ) < n - 1 := by linarith
                                   exact this.ne'
      push_cast; field_simp
    rw [this]
    exact rnd_grid (by omega) (by rw [abs_of_nonneg (by omega)]; omega) e
  · rw [show ((a : ℚ) + (n - 1) * s) * 2 ^ e + s * 2 ^ e = ((a + n * s : ℤ) : ℚ) * 2 ^ e by push_cast; ring]
    refine rnd_grid (by omega) ?_ e
    rw [abs_le]; constructor <;> omega

example := C55_linspace_partial (p := 24) (by decide) (a := -7) (s := 3) (-2) (num := 9) (by decide) (by decide) (by decide)

/-- **C55** (partial): the same for `linspace_exclusive`. -/
theorem C55_linspace_exclusive_partial {p : Nat} (hp : 24 ≤ p) {a s : ℤ} (e : ℤ) {num : Nat} (hn : 2 ≤ num) (hs : 0 < s)
    (hfit : |a| + num * s ≤ 2 ^ 24) :
    ∃ r : Arr ℚ, linspaceExclusive (floatTy p) (a * 2 ^ e) ((a + num * s : ℤ) * 2 ^ e) num = .ok r ∧
      r.Denotes [num] (fun idx => (a + (idx.headD 0 : Nat) * s) * 2 ^ e) := by
  have hpow : (2 : ℤ) ^ 24 ≤ 2 ^ p := by gcongr; norm_num
  have hns : (num : ℤ) ≤ num * s := le_mul_of_one_le_right (by omega) (by omega)
  have hs1 : s ≤ num * s := le_mul_of_one_le_left (by omega) (by omega)
  have ha := abs_le.1 (le_refl |a|)
  have ha0 := abs_nonneg a
  have hnq : (2 : ℚ) ≤ num := by exact_mod_cast hn
  obtain ⟨r, n, hr, hden, hiff⟩ := C38_float_partial (p := p) hp (a := a) (b := a + num * s) (s := s) e (by omega) hs
    (by omega) (by omega) (by omega) (by rw [abs_le]; constructor <;> omega)
  have hnn : n = num := by
    have h1 := hiff num
    have h2 := hiff (num - 1)
    have h3 : ((num - 1 : ℕ) : ℤ) * s = num * s - s := by rw [Nat.cast_sub (by omega)]; push_cast; ring
    rw [h3] at h2
    have : num - 1 < n := h2.2 (by omega)
    have : ¬ num < n := fun h => by have := h1.1 h; omega
    omega
  subst hnn
  refine ⟨r, float_linspace_exclusive (c := (n : ℚ)) (d := ((n * s : ℤ) : ℚ) * 2 ^ e)
    (step := (s : ℚ) * 2 ^ e) hn ?_ ?_ ?_ hr, hden⟩
  · apply rnd_nat (by omega)
    have : (n : ℤ) ≤ 2 ^ p := by omega
    exact_mod_cast this
  · rw [show ((a + n * s : ℤ) : ℚ) * 2 ^ e - a * 2 ^ e = ((n * s : ℤ) : ℚ) * 2 ^ e by push_cast; ring]
    refine rnd_grid (by omega) ?_ e
    rw [abs_of_nonneg (by omega)]; omega
  · have : ((n * s : ℤ) : ℚ) * 2 ^ e / (n : ℚ) = (s : ℚ) * 2 ^ e := by
      have : (n : ℚ) ≠ 0 := by have : (0 : ℚ) < n := by linarith
                               exact this.ne'
      push_cast; field_simp
    rw [this]
    exact rnd_grid (by omega) (by rw [abs_of_nonneg (by omega)]; omega) e

example : (24 ≤ 53) ∧ (2 ≤ 5) ∧ (0 : ℤ) < 1 ∧ |(0 : ℤ)| + (5 : ℕ) * 1 ≤ 2 ^ 24 := by norm_num

/-! ## C47 -/

theorem roundAway_nonneg {x : K} (h : 0 ≤ x) : roundAway x = ⌊x + 1 / 2⌋ := if_pos h

theorem roundAway_neg_of_neg [IsStrictOrderedRing K] {x : K} (h : x < 0) : roundAway x = -⌊-x + 1 / 2⌋ := if_neg (not_le.2 h)

/-- The nearest integer lies between integers that enclose the number. -/
theorem roundAway_mem [IsStrictOrderedRing K] {x : K} {a b : Int} (ha : (a : K) ≤ x) (hb : x < b) : a ≤ roundAway x ∧ roundAway x ≤ b := by
  rcases le_or_gt 0 x with h | h
  · rw [roundAway_nonneg h]
    constructor
    · rw [Int.le_floor]; linarith
    · have : ⌊x + 1 / 2⌋ < b + 1 := by rw [Int.floor_lt]; push_cast; linarith
      omega
  · rw [roundAway_neg_of_neg h]
    constructor
    · have : ⌊-x + 1 / 2⌋ < -a + 1 := by rw [Int.floor_lt]; push_cast; linarith
      omega
    · have : -b ≤ ⌊-x + 1 / 2⌋ := by rw [Int.le_floor]; push_cast; linarith
      omega

/-- The upper bound itself is returned exactly for the draws in the last half unit. -/
theorem roundAway_eq_top [IsStrictOrderedRing K] {x : K} {b : Int} (hx : x < b) :
    roundAway x = b ↔ ((0 ≤ x ∧ (b : K) - 1 / 2 ≤ x) ∨ (x < 0 ∧ (b : K) - 1 / 2 < x)) := by
  rcases le_or_gt 0 x with h | h
  · rw [roundAway_nonneg h, Int.floor_eq_iff]
    constructor
    · rintro ⟨h1, h2⟩; exact .inl ⟨h, by linarith⟩
    · rintro (⟨_, h1⟩ | ⟨h1, _⟩)
      · exact ⟨by linarith, by linarith⟩
      · exact absurd h1 (not_lt.2 h)
  · rw [roundAway_neg_of_neg h, neg_eq_iff_eq_neg, Int.floor_eq_iff]
    push_cast
    constructor
    · rintro ⟨h1, h2⟩; exact .inr ⟨h, by linarith⟩
    · rintro (⟨h1, _⟩ | ⟨_, h1⟩)
      · exact absurd h (not_lt.2 h1)
      · exact ⟨by linarith, by linarith⟩

/-- **C47**: `randint` panics unless `low < high`. -/
theorem C47_refused (T : NumTy α K) (draw : Nat → K) (shape : List Nat) {low high : α} (h : T.lt low high = false) :
    randint T draw shape low high = .error .panic := by
  unfold randint
  rw [assert_fail (by simp [h])]; rfl

example : randint (exactTy ℚ) (fun _ => 5) [2] 7 7 = .error .panic := C47_refused (exactTy ℚ) _ _ (by decide)

/-- **C47** (partial). For integers of every type with `low < high`, both in range and of absolute value at most 2^24, and for
every stream of draws from the half-open interval, `randint(shape, low, high)` is an array of the given shape whose elements
are integers `r` with `low ≤ r ≤ high`; `r = high` happens only for draws in the last half unit before `high`. Missing: `r < high`,
which is false (`C47_high_false`); float bounds, where `low ≤ r` is false (`C47_low_false`). -/
theorem C47_int_partial {checks : Bool} {lo hi : Int} {p : Nat} {low high : Int} {draw : Nat → ℚ} {shape : List Nat}
    (hlt : low < high) (hlo : lo ≤ low) (hhi : high ≤ hi) (hl : |low| ≤ 2 ^ 24) (hh : |high| ≤ 2 ^ 24)
    (hdraw : ∀ i, (low : ℚ) ≤ draw i ∧ draw i < high) :
    ∃ (r : Arr Int) (f : List Nat → Int), randint (intTy checks lo hi p) draw shape low high = .ok r ∧ r.Denotes shape f ∧
      (∀ idx, InB idx shape → low ≤ f idx ∧ f idx ≤ high) ∧
      ∀ idx, InB idx shape → f idx = high → (high : ℚ) - 1 / 2 ≤ draw (rank idx shape) := by
  have hmem : ∀ i, low ≤ roundAway (draw i) ∧ roundAway (draw i) ≤ high := fun i => roundAway_mem (hdraw i).1 (hdraw i).2
  have hel : (List.range (numel shape)).map (fun i => roundAway (draw i)) =
      elements shape (fun idx => roundAway (draw (rank idx shape))) := by
    apply List.ext_getElem?
    intro k
    by_cases hk : k < numel shape
    · rw [getElem?_elements hk, rank_unrank hk]; simp [hk]
    · rw [List.getElem?_eq_none (by simpa using hk), List.getElem?_eq_none (by simpa [length_elements] using hk)]
  refine ⟨_, fun idx => roundAway (draw (rank idx shape)), ?_, denotes_fromContiguous, fun idx _ => hmem _, ?_⟩
  · unfold randint
    have e1 : (intTy checks lo hi p).toFloat low = low := rnd_int (by norm_num) hl
    have e2 : (intTy checks lo hi p).toFloat high = high := rnd_int (by norm_num) hh
    rw [assert_ok (by simp [intTy, hlt]), e1, e2, assert_ok (by simpa using hlt)]
    simp only [ok_bind]
    rw [mapM_ok (g := fun i => roundAway (draw i)) (fun i _ => by
      simp only [intTy]
      rw [if_pos ⟨by have := hmem i; omega, by have := hmem i; omega⟩]; rfl)]
    rw [hel]; rfl
  · intro idx _ heq
    rcases (roundAway_eq_top (hdraw _).2).1 heq with ⟨_, h⟩ | ⟨_, h⟩ <;> linarith

example : (0 : Int) < 3 ∧ (-2 ^ 31 : Int) ≤ 0 ∧ (3 : Int) ≤ 2 ^ 31 - 1 ∧ |(0 : Int)| ≤ 2 ^ 24 ∧ |(3 : Int)| ≤ 2 ^ 24 ∧
    ∀ i : Nat, ((0 : Int) : ℚ) ≤ (fun _ => 27 / 10 : Nat → ℚ) i ∧ (fun _ => 27 / 10 : Nat → ℚ) i < ((3 : Int) : ℚ) := by
  norm_num

/-- **C47 is false of the code**: a draw of 2.7 from `[0, 3)` makes `randint([1], 0i32, 3)` return the excluded bound 3. -/
theorem C47_high_false : ∃ r, randint (i32Ty false) (fun _ => 27 / 10) [1] 0 3 = .ok r ∧ r.Denotes [1] (fun _ => 3) := by
  have e1 : (i32Ty false).toFloat 0 = ((0 : Int) : ℚ) := rnd_int (by norm_num) (by norm_num)
  have e2 : (i32Ty false).toFloat 3 = ((3 : Int) : ℚ) := rnd_int (by norm_num) (by norm_num)
  have e3 : roundAway (27 / 10 : ℚ) = 3 := by
    rw [roundAway_nonneg (by norm_num), Int.floor_eq_iff]; norm_num
  refine ⟨Arr.fromContiguousOwnedBuffer [1] [3], ?_, denotes_fromContiguous (s := [1]) (f := fun _ => 3)⟩
  unfold randint
  rw [assert_ok (by rfl), e1, e2, assert_ok (by norm_num)]
  simp only [ok_bind, e3]
  rfl

/-- **C47 is false of the code** for floats: a draw of 0.3 from `[0.2, 0.4)` makes `randint([1], 0.2, 0.4)` return 0, below the
lower bound (exact arithmetic). -/
theorem C47_low_false : ∃ r, randint (exactTy ℚ) (fun _ => 3 / 10) [1] (1 / 5) (2 / 5) = .ok r ∧ r.Denotes [1] (fun _ => 0) := by
  have e3 : roundAway (3 / 10 : ℚ) = 0 := by
    rw [roundAway_nonneg (by norm_num), Int.floor_eq_iff]; norm_num
  refine ⟨Arr.fromContiguousOwnedBuffer [1] [0], ?_, denotes_fromContiguous (s := [1]) (f := fun _ => 0)⟩
  unfold randint
  rw [assert_ok (by simp [exactTy]; norm_num), assert_ok (by simp [exactTy]; norm_num)]
  simp only [ok_bind, e3, exactTy]
  simp [numel, unwrap]

end Verif
