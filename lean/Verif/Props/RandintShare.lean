import Verif.Props.Ranges
import Verif.Props.Random
import Mathlib.MeasureTheory.Measure.Lebesgue.Basic

/-!
# C81: how likely each value of `randint` is
-/

namespace Verif

section
variable {K : Type} [Field K] [LinearOrder K] [IsStrictOrderedRing K] [FloorRing K]

/-- The numbers nearest to `k` round to `k`. -/
theorem roundAway_of_near {x : K} {k : ℤ} (h : |x - k| < 1 / 2) : roundAway x = k := by
  obtain ⟨h1, h2⟩ := abs_lt.1 h
  unfold roundAway
  split
  · rw [Int.floor_eq_iff]; constructor <;> linarith
  · rw [neg_eq_iff_eq_neg, Int.floor_eq_iff]; push_cast; constructor <;> linarith

theorem near_of_roundAway {x : K} {k : ℤ} (h : roundAway x = k) : |x - k| ≤ 1 / 2 := by
  unfold roundAway at h
  split at h
  · rw [Int.floor_eq_iff] at h
    exact abs_le.2 ⟨by linarith, by linarith⟩
  · rw [neg_eq_iff_eq_neg, Int.floor_eq_iff] at h
    push_cast at h
    exact abs_le.2 ⟨by linarith, by linarith⟩

end

/-- **C81** (part). Each element of `randint(shape, low, high)` is the integer nearest to its draw, for integers of every type, both
bounds in range and of absolute value at most 2^24. -/
theorem C81_nearest {checks : Bool} {lo hi : Int} {p : Nat} {low high : Int} {draw : Nat → ℚ} {shape : List Nat}
    (hlt : low < high) (hlo : lo ≤ low) (hhi : high ≤ hi) (hl : |low| ≤ 2 ^ 24) (hh : |high| ≤ 2 ^ 24)
    (hdraw : ∀ i, (low : ℚ) ≤ draw i ∧ draw i < high) :
    ∃ (r : Arr Int) (f : List Nat → Int), randint (intTy checks lo hi p) draw shape low high = .ok r ∧ r.Denotes shape f ∧
      ∀ idx, InB idx shape → ∀ k : Int,
        (|draw (rank idx shape) - k| < 1 / 2 → f idx = k) ∧ (f idx = k → |draw (rank idx shape) - k| ≤ 1 / 2) := by
  have hmem : ∀ i, low ≤ roundAway (draw i) ∧ roundAway (draw i) ≤ high := fun i => roundAway_mem (hdraw i).1 (hdraw i).2
  refine ⟨_, fun idx => roundAway (draw (rank idx shape)), ?_, denotes_fromContiguous, fun idx _ k =>
    ⟨roundAway_of_near, near_of_roundAway⟩⟩
  unfold randint
  have e1 : (intTy checks lo hi p).toFloat low = low := rnd_int (by norm_num) hl
  have e2 : (intTy checks lo hi p).toFloat high = high := rnd_int (by norm_num) hh
  rw [assert_ok (by simp [intTy, hlt]), e1, e2, assert_ok (by simpa using hlt)]
  simp only [ok_bind]
  rw [mapM_ok (g := fun i => roundAway (draw i)) (fun i _ => by
    simp only [intTy]
    rw [if_pos ⟨by have := hmem i; omega, by have := hmem i; omega⟩]; rfl), range_elements]
  rfl

example : (-5 : Int) < 3 ∧ |(-5 : Int)| ≤ 2 ^ 24 ∧ |(3 : Int)| ≤ 2 ^ 24 ∧
    ∀ i : Nat, ((-5 : Int) : ℚ) ≤ (fun _ => -9 / 2 : Nat → ℚ) i ∧ (fun _ => -9 / 2 : Nat → ℚ) i < ((3 : Int) : ℚ) := by
  norm_num [abs_of_neg]

/-- One element of `randint`, over the reals (no rounding). -/
theorem randint_one {low high : ℤ} (h : low < high) (x : ℝ) (k : ℤ) :
    (∃ r : Arr ℝ, randint (exactTy ℝ) (fun _ => x) [1] low high = .ok r ∧ r.Denotes [1] fun _ => (k : ℝ)) ↔ roundAway x = k := by
  have hlt : (low : ℝ) < high := by exact_mod_cast h
  have e : randint (exactTy ℝ) (fun _ => x) [1] (low : ℝ) high = .ok (Arr.fromContiguousOwnedBuffer [1] [((roundAway x : ℤ) : ℝ)]) := by
    unfold randint
    rw [assert_ok (by simp [exactTy, h]), assert_ok (by simp [exactTy, h])]
    rfl
  have hden : (Arr.fromContiguousOwnedBuffer [1] [((roundAway x : ℤ) : ℝ)]).Denotes [1] fun _ => ((roundAway x : ℤ) : ℝ) :=
    denotes_fromContiguous (s := [1]) (f := fun _ => ((roundAway x : ℤ) : ℝ))
  constructor
  · rintro ⟨r, hr, hd⟩
    rw [e] at hr; cases hr
    have h1 := hd.flatiter (by simp [maxDims])
    have h2 := hden.flatiter (by simp [maxDims])
    rw [h1] at h2
    have : ((k : ℤ) : ℝ) = roundAway x := by simpa [elements, indices] using h2
    exact_mod_cast this.symm
  · intro hk
    rw [hk] at e hden
    exact ⟨_, e, hden⟩

/-- **C81 is false of the code**, and what is true instead: of draws spread evenly over `[low, high)`, a value strictly between the
bounds gets those of a unit of length, each of the bounds, also the excluded `high`, half as many (exact arithmetic). -/
theorem C81_share_false {low high : ℤ} (h : low < high) (k : ℤ) :
    MeasureTheory.volume {x : ℝ | (low : ℝ) ≤ x ∧ x < high ∧
        ∃ r : Arr ℝ, randint (exactTy ℝ) (fun _ => x) [1] low high = .ok r ∧ r.Denotes [1] fun _ => (k : ℝ)} =
      if low < k ∧ k < high then 1 else if k = low ∨ k = high then 1 / 2 else 0 := by
  simp only [randint_one h]
  set S := {x : ℝ | (low : ℝ) ≤ x ∧ x < high ∧ roundAway x = k} with hS
  set a : ℝ := max low (k - 1 / 2) with ha
  set b : ℝ := min high (k + 1 / 2) with hb
  have h1 : Set.Ioo a b ⊆ S := fun x hx => by
    obtain ⟨h1, h2⟩ := max_lt_iff.1 hx.1
    obtain ⟨h3, h4⟩ := lt_min_iff.1 hx.2
    exact ⟨h1.le, h3, roundAway_of_near (abs_lt.2 ⟨by linarith, by linarith⟩)⟩
  have h2 : S ⊆ Set.Icc a b := fun x hx => by
    obtain ⟨h3, h4⟩ := abs_le.1 (near_of_roundAway hx.2.2)
    exact ⟨max_le hx.1 (by linarith), le_min hx.2.1.le (by linarith)⟩
  have hv : MeasureTheory.volume S = ENNReal.ofReal (b - a) := by
    apply le_antisymm
    · exact (MeasureTheory.measure_mono h2).trans (by rw [Real.volume_Icc])
    · rw [← Real.volume_Ioo]; exact MeasureTheory.measure_mono h1
  rw [hv]
  have hlt : (low : ℝ) + 1 ≤ high := by exact_mod_cast h
  split
  · rename_i hk
    have c1 : (low : ℝ) + 1 ≤ k := by exact_mod_cast hk.1
    have c2 : (k : ℝ) + 1 ≤ high := by exact_mod_cast hk.2
    rw [ha, hb, max_eq_right (by linarith), min_eq_right (by linarith)]
    rw [show (k : ℝ) + 1 / 2 - (k - 1 / 2) = 1 by ring, ENNReal.ofReal_one]
  · split
    · rename_i hk
      have half : ENNReal.ofReal (1 / 2) = 1 / 2 := by
        rw [ENNReal.ofReal_div_of_pos (by norm_num)]; simp
      rcases hk with rfl | rfl
      · rw [ha, hb, max_eq_left (by linarith), min_eq_right (by linarith), ← half]; congr 1; ring
      · rw [ha, hb, max_eq_right (by linarith), min_eq_left (by linarith), ← half]; congr 1; ring
    · rename_i hk1 hk2
      rw [ENNReal.ofReal_eq_zero]
      push Not at hk1 hk2
      rcases lt_or_ge k low with c | c
      · have c1 : (k : ℝ) + 1 ≤ low := by exact_mod_cast c
        linarith [le_max_left (low : ℝ) (k - 1 / 2), min_le_right (high : ℝ) (k + 1 / 2)]
      · have c' := hk1 (lt_of_le_of_ne c (Ne.symm hk2.1))
        have c1 : (high : ℝ) + 1 ≤ k := by exact_mod_cast lt_of_le_of_ne c' (Ne.symm hk2.2)
        linarith [le_max_right (low : ℝ) (k - 1 / 2), min_le_left (high : ℝ) (k + 1 / 2)]

end Verif
