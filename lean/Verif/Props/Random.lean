import Verif.Model.Random
import Verif.Lemmas.IeeeNearest
import Verif.Props.Elementwise

/-!
# C70 rand, uniform and randn
-/

namespace Verif

variable {p emax q fmax : Nat}

/-- a source of random numbers that always draws a third -/
def thirds (_ : Nat) : F64 := .ofRat (1 / 3)

theorem thirds_unit (i : Nat) : (thirds i).Finite ∧ 0 ≤ (thirds i).val ∧ (thirds i).val < 1 :=
  (by decide +kernel : (Ieee.ofRat (1 / 3) : F64).Finite ∧ 0 ≤ (Ieee.ofRat (1 / 3) : F64).val ∧ (Ieee.ofRat (1 / 3) : F64).val < 1)

theorem range_elements {α : Type} (g : Nat → α) (shape : List Nat) :
    (List.range (numel shape)).map g = elements shape fun idx => g (rank idx shape) := by
  apply List.ext_getElem?
  intro k
  by_cases hk : k < numel shape
  · rw [getElem?_elements hk, rank_unrank hk]; simp [hk]
  · rw [List.getElem?_eq_none (by simpa using hk), List.getElem?_eq_none (by simpa [length_elements] using hk)]

theorem convert_self [NeZero p] [NeZero emax] (x : Ieee p emax) : (x.convert : Ieee p emax) = x := by
  match x with
  | .nan => rfl
  | .inf _ => rfl
  | .num s m h h' => exact Ieee.pack_self h h'

theorem convert_correct [NeZero q] [NeZero fmax] {x : Ieee p emax} (hx : x.Finite) :
    CorrectlyRounded (x.convert : Ieee q fmax) x.val := by
  match x, hx with
  | .num s m h _, _ => exact Ieee.pack_correct s h

/-- A number below 1 is at most `1 - 2^-q`. -/
theorem number_lt_one (hq : 0 < q) {r : ℚ} (hr : rnd q r = r) (h1 : r < 1) : r ≤ 1 - 1 / 2 ^ q := by
  have h2q : (2 : ℚ) ≤ 2 ^ q := by
    calc (2 : ℚ) = 2 ^ 1 := by norm_num
      _ ≤ 2 ^ q := pow_le_pow_right₀ (by norm_num) hq
  have hinv : 1 / (2 : ℚ) ^ q ≤ 1 / 2 := one_div_le_one_div_of_le (by norm_num) h2q
  by_cases h0 : 0 < r
  · obtain ⟨k, hk⟩ := multiple_of_ulp hr h0 (by rw [abs_of_pos h0]; exact zpow_log_le h0)
    have hlog : Int.log 2 r + 1 ≤ 0 := by
      by_contra hc
      have h3 : (0 : ℤ) ≤ Int.log 2 r := by omega
      have h4 : (2 : ℚ) ^ (0 : ℤ) ≤ 2 ^ Int.log 2 r := zpow_le_zpow_right₀ (by norm_num) h3
      have := zpow_log_le h0
      rw [zpow_zero] at h4
      linarith
    have hE : (2 : ℚ) ^ (Int.log 2 r + 1) ≤ 1 := by
      have := zpow_le_zpow_right₀ (a := (2 : ℚ)) (by norm_num) hlog
      rwa [zpow_zero] at this
    have hlt := lt_zpow_log (x := r)
    have hu : ulp q r = 2 ^ (Int.log 2 r + 1) / 2 ^ q := by
      rw [ulp_eq, abs_of_pos h0, zpow_sub₀ (by norm_num), zpow_natCast]
    have hEp : (0 : ℚ) < 2 ^ (Int.log 2 r + 1) := zpow_pos (by norm_num) _
    generalize (2 : ℚ) ^ (Int.log 2 r + 1) = E at *
    have hk2 : (k : ℚ) < 2 ^ q := by
      have : (k : ℚ) * (E / 2 ^ q) < 2 ^ q * (E / 2 ^ q) := by
        rw [← hu, ← hk, hu, mul_div_cancel₀]
        · exact hlt
        · positivity
      exact lt_of_mul_lt_mul_right this (by positivity)
    have hk3 : k ≤ 2 ^ q - 1 := by
      have : k < 2 ^ q := by exact_mod_cast hk2
      omega
    have hk4 : (k : ℚ) ≤ 2 ^ q - 1 := by exact_mod_cast hk3
    have e : r = (k / 2 ^ q) * E := by rw [hk, hu]; ring
    have h5 : (k : ℚ) / 2 ^ q ≤ 1 - 1 / 2 ^ q := by
      rw [div_le_iff₀ (by positivity), sub_mul, one_mul, div_mul_cancel₀ _ (by positivity)]
      exact hk4
    rw [e]
    calc (k / 2 ^ q) * E ≤ (1 - 1 / 2 ^ q) * E := mul_le_mul_of_nonneg_right h5 hEp.le
      _ ≤ (1 - 1 / 2 ^ q) * 1 := mul_le_mul_of_nonneg_left hE (by linarith)
      _ = _ := mul_one _
  · linarith [not_lt.1 h0]

/-- A value of `[0, 1)` is rounded to 1 if and only if it is in the last half unit. -/
theorem rounded_lt_one [NeZero q] [NeZero fmax] {x : Ieee q fmax} {v : ℚ} (hf2 : 2 ≤ fmax) (hx : CorrectlyRounded x v) (h0 : 0 ≤ v)
    (h1 : v < 1) :
    x.Finite ∧ 0 ≤ x.val ∧ x.val ≤ 1 ∧ (x.val < 1 ↔ v < 1 - 1 / 2 ^ (q + 1)) := by
  have hq := Nat.pos_of_neZero q
  have he := Nat.pos_of_neZero fmax
  have h2q : (2 : ℚ) ≤ 2 ^ q := by
    calc (2 : ℚ) = 2 ^ 1 := by norm_num
      _ ≤ 2 ^ q := pow_le_pow_right₀ (by norm_num) hq
  have hinv : 1 / (2 : ℚ) ^ q ≤ 1 / 2 := one_div_le_one_div_of_le (by norm_num) h2q
  have hpos : 0 < 1 / (2 : ℚ) ^ q := by positivity
  have hE : (1 : ℚ) ≤ 2 ^ fmax := one_le_pow₀ (by norm_num)
  have ht : |v| < (2 - 1 / 2 ^ q) * 2 ^ fmax := by
    rw [abs_of_nonneg h0]
    nlinarith
  unfold CorrectlyRounded at hx
  rw [if_pos ht] at hx
  obtain ⟨hf, hn⟩ := hx
  have hx0 := (hn 0 trivial).1
  have hx1 := hn 1 trivial
  rw [Ieee.zero_val, sub_zero, abs_of_nonneg h0] at hx0
  rw [Ieee.one_val, abs_of_neg (show v - 1 < 0 by linarith)] at hx1
  have g0 : 0 ≤ x.val := by
    by_contra hc
    have hc := not_le.1 hc
    have := le_abs_self (v - x.val)
    linarith
  have g1 : x.val ≤ 1 := by
    by_contra hc
    have hc := not_le.1 hc
    have := neg_abs_le (v - x.val)
    linarith [hx1.1]
  refine ⟨hf, g0, g1, ?_⟩
  have ehalf : 1 / (2 : ℚ) ^ (q + 1) = 1 / 2 ^ q / 2 := by rw [pow_succ]; field_simp
  rw [ehalf]
  constructor
  · intro hlt
    have hle := number_lt_one hq (Ieee.isNumber_val x).bits hlt
    by_contra hc
    have hc := not_lt.1 hc
    have h3 := le_abs_self (v - x.val)
    have h4 : v - x.val = -(v - 1) := by linarith [hx1.1]
    have h5 : x.val = 1 - 1 / 2 ^ q := by linarith
    have h6 : |v - x.val| = -(v - 1) := by rw [h4, abs_of_nonneg]; linarith
    obtain ⟨k, hk⟩ := (hx1.2 h6).resolve_left (by intro h; linarith)
    rw [h5, abs_of_neg (by linarith)] at hk
    have h7 : (2 : ℚ) ^ q - 1 = 2 * k := by
      have : (1 - 1 / (2 : ℚ) ^ q) * 2 ^ q = 2 * k * -(1 - 1 / 2 ^ q - 1) * 2 ^ q := by rw [← hk]
      field_simp at this
      linarith
    have h8 : (2 : ℤ) ^ q - 1 = 2 * k := by exact_mod_cast h7
    have h9 : (2 : ℤ) ^ q = 2 * 2 ^ (q - 1) := by rw [← pow_succ']; congr 1; omega
    omega
  · intro hlt
    have hnum : IsNumber q fmax (1 - 1 / 2 ^ q) := by
      have e : 1 - 1 / (2 : ℚ) ^ q = ((2 ^ q - 1 : ℤ) : ℚ) * 2 ^ (-(q : ℤ)) := by
        push_cast
        rw [zpow_neg, zpow_natCast]
        field_simp
      refine ⟨?_, ?_, ?_⟩
      · rw [e]
        refine rnd_grid hq ?_ _
        have : (1 : ℤ) ≤ 2 ^ q := one_le_pow₀ (by norm_num)
        rw [abs_of_nonneg (by omega)]
        omega
      · exact OnGrid.mono ⟨_, e⟩ (by unfold tiny; omega)
      · rw [abs_of_nonneg (by linarith), pow_succ]
        linarith
    have h3 := (hn (.num false _ (by linarith) hnum) trivial).1
    have e : (Ieee.num false _ (by linarith) hnum : Ieee q fmax).val = 1 - 1 / 2 ^ q := rfl
    rw [e] at h3
    by_contra hc
    have h4 : x.val = 1 := le_antisymm g1 (not_lt.1 hc)
    rw [h4, abs_of_neg (show v - 1 < 0 by linarith)] at h3
    rcases abs_choice (v - (1 - 1 / 2 ^ q)) with h | h <;> rw [h] at h3 <;> linarith

/-- **C70** (part): `rand`, for every element type and every stream of draws from `[0, 1)`. Missing: elements below 1, which is false
(`C70_rand_false`); they are where the draw is not within half a unit of 1. -/
theorem C70_rand_partial [NeZero q] [NeZero fmax] (hf2 : 2 ≤ fmax) {draw : Nat → F64} (shape : List Nat)
    (hd : ∀ i, (draw i).Finite ∧ 0 ≤ (draw i).val ∧ (draw i).val < 1) :
    ∃ f, (rand draw shape : Arr (Ieee q fmax)).Denotes shape f ∧ ∀ idx, InB idx shape →
      (f idx).Finite ∧ 0 ≤ (f idx).val ∧ (f idx).val ≤ 1 ∧
      ((f idx).val < 1 ↔ (draw (rank idx shape)).val < 1 - 1 / 2 ^ (q + 1)) := by
  refine ⟨fun idx => (draw (rank idx shape)).convert, ?_, fun idx _ => ?_⟩
  · unfold rand; rw [range_elements]; exact denotes_fromContiguous
  · exact rounded_lt_one hf2 (convert_correct (hd _).1) (hd _).2.1 (hd _).2.2

example := C70_rand_partial (q := 24) (fmax := 127) (by decide) [2, 3] thirds_unit

/-- **C70**: `rand` over `f64` returns the draws, all below 1. -/
theorem C70_rand_f64 {draw : Nat → F64} (shape : List Nat)
    (hd : ∀ i, (draw i).Finite ∧ 0 ≤ (draw i).val ∧ (draw i).val < 1) :
    ∃ f, (rand draw shape : Arr F64).Denotes shape f ∧ ∀ idx, InB idx shape →
      (f idx).Finite ∧ 0 ≤ (f idx).val ∧ (f idx).val < 1 := by
  refine ⟨fun idx => draw (rank idx shape), ?_, fun idx _ => hd _⟩
  unfold rand; rw [range_elements]
  have e : (fun idx => (draw (rank idx shape)).convert : List Nat → F64) = fun idx => draw (rank idx shape) :=
    funext fun idx => convert_self _
  rw [e]
  exact denotes_fromContiguous

example := C70_rand_f64 [2, 3] thirds_unit

/-- **C70 is false of the code** for `f32`: the largest `f64` below 1 is rounded to 1, which `[0, 1)` excludes. The generator's draws are
the multiples of `2^-52`, the last `2^27` of them give 1. -/
theorem C70_rand_false : (Ieee.ofRat (1 - 1 / 2 ^ 52) : F64).val = 1 - 1 / 2 ^ 52 ∧
    (rand (fun _ => Ieee.ofRat (1 - 1 / 2 ^ 52)) [1] : Arr F32).buf = [1] := by decide +kernel

/-- **C70**: `randn` has the given shape and its elements are the draws, rounded to the element type. -/
theorem C70_randn [NeZero q] [NeZero fmax] {draw : Nat → F64} (shape : List Nat) (hd : ∀ i, (draw i).Finite) :
    ∃ f, (randn draw shape : Arr (Ieee q fmax)).Denotes shape f ∧ ∀ idx, InB idx shape →
      CorrectlyRounded (f idx) (draw (rank idx shape)).val := by
  refine ⟨fun idx => (draw (rank idx shape)).convert, ?_, fun idx _ => convert_correct (hd _)⟩
  unfold randn; rw [range_elements]; exact denotes_fromContiguous

example := C70_randn (q := 24) (fmax := 127) [2, 3] fun i => (thirds_unit i).1

theorem lt_iff {x y : Ieee p emax} (hx : x.Finite) (hy : y.Finite) : x.lt y = true ↔ x.val < y.val := by
  match x, y, hx, hy with
  | .num s m _ _, .num t n _ _, _, _ => exact decide_eq_true_iff

/-- **C70**: `uniform` refuses bounds that are not in order, and NaN. -/
theorem C70_uniform_refused [NeZero p] {draw : Nat → Ieee p emax} (shape : List Nat) {low high : Ieee p emax}
    (h : low.IsNaN ∨ high.IsNaN ∨ (low.Finite ∧ high.Finite ∧ high.val ≤ low.val)) :
    uniform draw shape low high = .error .panic := by
  unfold uniform
  rw [assert_fail ?_]
  · rfl
  · rcases h with h | h | ⟨h1, h2, h3⟩
    · match low, h with
      | .nan, _ => simp [Ieee.lt]
    · match low, high, h with
      | .nan, .nan, _ => simp [Ieee.lt]
      | .inf _, .nan, _ => simp [Ieee.lt]
      | .num .., .nan, _ => simp [Ieee.lt]
    · rw [Bool.eq_false_iff]
      intro hc
      exact absurd ((lt_iff h1 h2).1 hc) (not_lt.2 h3)

example : uniform thirds [2] (.ofRat 3) (.ofRat 3) = .error .panic :=
  C70_uniform_refused [2] (.inr (.inr ⟨by decide +kernel, by decide +kernel, le_rfl⟩))

/-- **C70**: `uniform(low, high)` with `low < high` and a range that does not overflow: the elements are the draws, so what the generator
promises about them holds of the array. -/
theorem C70_uniform [NeZero p] [NeZero emax] {draw : Nat → Ieee p emax} (shape : List Nat) {low high : Ieee p emax}
    (hl : low.Finite) (hh : high.Finite) (hlt : low.val < high.val) (hr : (high - low).Finite)
    (hd : ∀ i, (draw i).Finite ∧ low.val ≤ (draw i).val ∧ (draw i).val < high.val) :
    ∃ r f, uniform draw shape low high = .ok r ∧ r.Denotes shape f ∧ ∀ idx, InB idx shape →
      (f idx).Finite ∧ low.val ≤ (f idx).val ∧ (f idx).val < high.val := by
  refine ⟨_, fun idx => draw (rank idx shape), ?_, denotes_fromContiguous, fun idx _ => hd _⟩
  unfold uniform
  rw [assert_ok ((lt_iff hl hh).2 hlt), assert_ok (decide_eq_true hr), ← range_elements]
  simp only [ok_bind, convert_self]
  rfl

example : (∀ i : Nat, ((fun _ => Ieee.ofRat (1 / 3) : Nat → F64) i).Finite ∧ 0 ≤ ((fun _ => Ieee.ofRat (1 / 3) : Nat → F64) i).val ∧
    ((fun _ => Ieee.ofRat (1 / 3) : Nat → F64) i).val < 1) := fun _ => by
  show (Ieee.ofRat (1 / 3) : F64).Finite ∧ 0 ≤ (Ieee.ofRat (1 / 3) : F64).val ∧ (Ieee.ofRat (1 / 3) : F64).val < 1
  decide +kernel
example : (rand (fun i => Ieee.ofRat (i / 3)) [3, 1] : Arr F32).buf = [0, .ofRat (1 / 3), .ofRat (2 / 3)] := by decide +kernel
example : (Ieee.ofRat (-5) : F64).Finite ∧ (Ieee.ofRat 3 : F64).Finite ∧ (Ieee.ofRat (-5) : F64).val < (Ieee.ofRat 3 : F64).val ∧
    (Ieee.ofRat 3 - Ieee.ofRat (-5) : F64).Finite := by decide +kernel
example : (do
      let r ← uniform (fun i => (Ieee.ofRat (i - 5) : F64)) [2, 2] (.ofRat (-5)) (.ofRat 3)
      return r.buf.map Ieee.val) = .ok [-5, -4, -3, -2] := by decide +kernel
example : (do
      let r ← uniform (fun _ => (0 : F64)) [1] (.ofRat 3) (.ofRat 3)
      return r.buf.map Ieee.val) = .error .panic := by decide +kernel

end Verif
