import Verif.Lemmas.Tagged
import Verif.Lemmas.Ieee
import Verif.Spec.IeeeRange

/-!
# IEEE expressions that stay in range

Two relations: within the error bound of C63, and exact on integers. Both carry a bound for the magnitude of every intermediate
value: the expression evaluated on `max 1 |x|`.
-/

namespace Verif

open Polynomial

variable {p emax : Nat} [NeZero p] [NeZero emax]

/-! ### counting -/

theorem eval_mono_add (P Q : ℕ[X]) : P.eval 1 ≤ (P + Q).eval 1 := by rw [eval_add]; omega

theorem roundings_le_add (P Q : ℕ[X]) : roundings P ≤ roundings (P + Q) := by
  have h1 := eval_mono_add P Q
  have h2 := natDegree_le_add P Q
  unfold roundings
  split <;> split <;> omega

theorem roundings_le_mul {P Q : ℕ[X]} (hP : P ≠ 0) (hQ : Q ≠ 0) : roundings P ≤ roundings (P * Q) := by
  have h1 : P.eval 1 ≤ (P * Q).eval 1 := by rw [eval_mul]; exact Nat.le_mul_of_pos_right _ (one_le_eval hQ)
  have h2 := natDegree_mul hP hQ
  unfold roundings
  split <;> split <;> omega

/-! ### within the error bound -/

/-- Exact value, value on the absolute values, value on `max 1 |x|`, counting polynomial. -/
abbrev Budget := ℚ × ℚ × ℚ × ℕ[X]

structure Budget.Pos (s : Budget) : Prop where
  le : |s.1| ≤ s.2.1
  le' : s.2.1 ≤ s.2.2.1
  one_le : 1 ≤ s.2.2.1
  ne : s.2.2.2 ≠ 0

/-- No intermediate value overflows; `q` fractional bits per factor do not underflow. -/
def Budget.InRange (p emax q : Nat) (s : Budget) : Prop :=
  s.2.2.1 * (1 + unitRoundoff p) ^ roundings s.2.2.2 < 2 ^ (emax + 1) ∧ (q * s.2.2.2.natDegree : ℤ) ≤ -tiny p emax

/-- The number computed for an expression in range. -/
def Within (q : Nat) (x : Ieee p emax) (s : Budget) : Prop :=
  s.InRange p emax q → ∃ y : Fl p, x.Finite ∧ x.val = y.val ∧ Approx p y (s.1, s.2.1, s.2.2.2) ∧
    OnGrid (q * s.2.2.2.natDegree) y.val

namespace Budget

theorem Pos.add {s t : Budget} (hs : s.Pos) (ht : t.Pos) : (s + t).Pos where
  le := (abs_add_le _ _).trans (add_le_add hs.le ht.le)
  le' := add_le_add hs.le' ht.le'
  one_le := by
    show 1 ≤ s.2.2.1 + t.2.2.1
    linarith [hs.one_le, ht.one_le]
  ne h := hs.ne (add_eq_zero_poly h).1

theorem Pos.nonneg {s : Budget} (hs : s.Pos) : 0 ≤ s.2.1 := (abs_nonneg _).trans hs.le

theorem Pos.mul {s t : Budget} (hs : s.Pos) (ht : t.Pos) : (s * t).Pos where
  le := abs_mul_le' hs.le ht.le
  le' := mul_le_mul hs.le' ht.le' ht.nonneg (by linarith [hs.one_le])
  one_le := by
    show 1 ≤ s.2.2.1 * t.2.2.1
    nlinarith [hs.one_le, ht.one_le]
  ne := mul_ne_zero hs.ne ht.ne

variable {q : Nat}

theorem InRange.of_le {s t : Budget} (h : t.InRange p emax q) (hw : s.2.2.1 ≤ t.2.2.1) (h0 : 0 ≤ s.2.2.1)
    (hr : roundings s.2.2.2 ≤ roundings t.2.2.2) (hd : s.2.2.2.natDegree ≤ t.2.2.2.natDegree) : s.InRange p emax q := by
  refine ⟨lt_of_le_of_lt ?_ h.1, le_trans ?_ h.2⟩
  · refine mul_le_mul hw (pow_le_pow_right₀ ?_ hr) ?_ (h0.trans hw)
    · linarith [unitRoundoff_pos p]
    · linarith [one_le_pow_u p (roundings s.2.2.2)]
  · exact mul_le_mul_of_nonneg_left (by exact_mod_cast hd) (by positivity)

theorem InRange.left {s t : Budget} (hs : s.Pos) (ht : t.Pos) (h : (s + t).InRange p emax q) : s.InRange p emax q := by
  refine h.of_le ?_ (by linarith [hs.one_le]) (roundings_le_add _ _) (natDegree_le_add _ _)
  show s.2.2.1 ≤ s.2.2.1 + t.2.2.1
  linarith [ht.one_le]

theorem InRange.right {s t : Budget} (hs : s.Pos) (ht : t.Pos) (h : (s + t).InRange p emax q) : t.InRange p emax q :=
  InRange.left ht hs (by rwa [add_comm])

theorem InRange.mul_left {s t : Budget} (hs : s.Pos) (ht : t.Pos) (h : (s * t).InRange p emax q) : s.InRange p emax q := by
  refine h.of_le ?_ (by linarith [hs.one_le]) (roundings_le_mul hs.ne ht.ne) ?_
  · show s.2.2.1 ≤ s.2.2.1 * t.2.2.1
    nlinarith [hs.one_le, ht.one_le]
  · show _ ≤ (s.2.2.2 * t.2.2.2).natDegree
    rw [natDegree_mul hs.ne ht.ne]; omega

theorem InRange.mul_right {s t : Budget} (hs : s.Pos) (ht : t.Pos) (h : (s * t).InRange p emax q) : t.InRange p emax q :=
  InRange.mul_left ht hs (by rwa [mul_comm])

omit [NeZero emax] in
/-- The result is below the overflow threshold. -/
theorem InRange.lt {s : Budget} (hs : s.Pos) (h : s.InRange p emax q) {y : Fl p} (hy : Approx p y (s.1, s.2.1, s.2.2.2)) :
    |y.val| < 2 ^ (emax + 1) := by
  refine lt_of_le_of_lt ?_ h.1
  obtain ⟨h1, h2⟩ := hy.near
  have h1' : |s.1| ≤ s.2.1 := h1
  have h2' : |y.val - s.1| ≤ ((1 + unitRoundoff p) ^ roundings s.2.2.2 - 1) * s.2.1 := h2
  have h3 : |y.val| ≤ |y.val - s.1| + |s.1| := by simpa using abs_add_le (y.val - s.1) s.1
  have h4 := one_le_pow_u p (roundings s.2.2.2)
  have h5 : s.2.1 * (1 + unitRoundoff p) ^ roundings s.2.2.2 ≤ s.2.2.1 * (1 + unitRoundoff p) ^ roundings s.2.2.2 :=
    mul_le_mul_of_nonneg_right hs.le' (by linarith)
  linarith

end Budget

open Budget in
instance within_closed (q : Nat) : TagClosed (M := Ieee p emax) Budget.Pos (Within q) where
  zero_add_zero := Ieee.zero_add_zero
  zero_add_one := Ieee.zero_add_one
  one_add_zero := Ieee.one_add_zero
  one_mul := Ieee.one_mul_eq
  mul_one := Ieee.mul_one_eq
  mulAdd_one_left := Ieee.mulAdd_one_left
  mulAdd_one_right := Ieee.mulAdd_one_right
  pos_add := Pos.add
  pos_mul := Pos.mul
  zero_add {x s} h hr := by
    obtain ⟨y, h1, h2, h3⟩ := h hr
    obtain ⟨g1, g2⟩ := Ieee.zero_add_val h1
    exact ⟨y, g1, g2.trans h2, h3⟩
  add_zero {x s} h hr := by
    obtain ⟨y, h1, h2, h3⟩ := h hr
    obtain ⟨g1, g2⟩ := Ieee.add_zero_val h1
    exact ⟨y, g1, g2.trans h2, h3⟩
  add {x y s t} hs ht hx hy hr := by
    obtain ⟨x', f1, v1, a1, g1⟩ := hx (hr.left hs ht)
    obtain ⟨y', f2, v2, a2, g2⟩ := hy (hr.right hs ht)
    have ha : Approx p (x' + y') ((s + t).1, (s + t).2.1, (s + t).2.2.2) := approx_add a1 a2
    have hlt := hr.lt (hs.add ht) ha
    obtain ⟨h1, h2⟩ := Ieee.add_val f1 f2 (by rw [v1, v2]; exact hlt)
    refine ⟨x' + y', h1, by rw [h2, v1, v2]; rfl, ha, OnGrid.rnd ?_⟩
    have d1 := natDegree_le_add s.2.2.2 t.2.2.2
    have d2 := natDegree_le_add t.2.2.2 s.2.2.2
    rw [add_comm] at d2
    exact (g1.mono (mul_le_mul_of_nonneg_left (by exact_mod_cast d1) (by positivity))).add
      (g2.mono (mul_le_mul_of_nonneg_left (by exact_mod_cast d2) (by positivity)))
  mul {x y s t} hs ht hx hy hr := by
    obtain ⟨x', f1, v1, a1, g1⟩ := hx (hr.mul_left hs ht)
    obtain ⟨y', f2, v2, a2, g2⟩ := hy (hr.mul_right hs ht)
    have ha : Approx p (x' * y') ((s * t).1, (s * t).2.1, (s * t).2.2.2) := approx_mul a1 a2
    have hlt := hr.lt (hs.mul ht) ha
    have hg : OnGrid (q * (s * t).2.2.2.natDegree) (x'.val * y'.val) := by
      have e : (s * t).2.2.2.natDegree = s.2.2.2.natDegree + t.2.2.2.natDegree := natDegree_mul hs.ne ht.ne
      rw [e]
      push_cast
      rw [mul_add]
      exact g1.mul g2
    obtain ⟨h1, h2⟩ := Ieee.mul_val f1 f2 (by rw [v1, v2]; exact hg.mono hr.2) (by rw [v1, v2]; exact hlt)
    exact ⟨x' * y', h1, by rw [h2, v1, v2]; rfl, ha, hg.rnd⟩
  mulAdd_fresh {x y s t} hs ht hx hy hr := by
    obtain ⟨x', f1, v1, a1, g1⟩ := hx (hr.mul_left hs ht)
    obtain ⟨y', f2, v2, a2, g2⟩ := hy (hr.mul_right hs ht)
    have ha : Approx p (mulAdd x' y' 0) ((s * t).1, (s * t).2.1, (s * t).2.2.2) := by
      have := approx_mulAdd a1 a2 (inferInstance : Closed (Approx p)).zero
      rwa [add_zero] at this
    have hlt := hr.lt (hs.mul ht) ha
    have hg : OnGrid (q * (s * t).2.2.2.natDegree) (x'.val * y'.val + 0) := by
      have e : (s * t).2.2.2.natDegree = s.2.2.2.natDegree + t.2.2.2.natDegree := natDegree_mul hs.ne ht.ne
      rw [e, add_zero]
      push_cast
      rw [mul_add]
      exact g1.mul g2
    obtain ⟨h1, h2⟩ := Ieee.mulAdd_val f1 f2 (z := 0) Ieee.zero_finite (by rw [v1, v2]; exact hg.mono hr.2) (by rw [v1, v2]; exact hlt)
    exact ⟨mulAdd x' y' 0, h1, by rw [h2, v1, v2]; rfl, ha, hg.rnd⟩
  mulAdd {x y z s t w} hs ht hw hx hy hz hr := by
    obtain ⟨x', f1, v1, a1, g1⟩ := hx ((hr.left (hs.mul ht) hw).mul_left hs ht)
    obtain ⟨y', f2, v2, a2, g2⟩ := hy ((hr.left (hs.mul ht) hw).mul_right hs ht)
    obtain ⟨z', f3, v3, a3, g3⟩ := hz (hr.right (hs.mul ht) hw)
    have ha : Approx p (mulAdd x' y' z') ((s * t + w).1, (s * t + w).2.1, (s * t + w).2.2.2) := approx_mulAdd a1 a2 a3
    have hlt := hr.lt ((hs.mul ht).add hw) ha
    have hg : OnGrid (q * (s * t + w).2.2.2.natDegree) (x'.val * y'.val + z'.val) := by
      have e : (s * t).2.2.2.natDegree = s.2.2.2.natDegree + t.2.2.2.natDegree := natDegree_mul hs.ne ht.ne
      have d1 := natDegree_le_add (s * t).2.2.2 w.2.2.2
      have d2 := natDegree_le_add w.2.2.2 (s * t).2.2.2
      rw [add_comm] at d2
      refine OnGrid.add (OnGrid.mono (g1.mul g2) ?_)
        (g3.mono (mul_le_mul_of_nonneg_left (by exact_mod_cast d2) (by positivity)))
      rw [← mul_add]
      refine mul_le_mul_of_nonneg_left ?_ (by positivity)
      rw [e] at d1
      exact_mod_cast d1
    obtain ⟨h1, h2⟩ := Ieee.mulAdd_val f1 f2 f3 (by rw [v1, v2, v3]; exact hg.mono hr.2) (by rw [v1, v2, v3]; exact hlt)
    exact ⟨mulAdd x' y' z', h1, by rw [h2, v1, v2, v3]; rfl, ha, hg.rnd⟩

open Classical in
noncomputable def budgetLeaf (q : Nat) (x : Ieee p emax) : Budget :=
  if Moderate q x then (x.val, |x.val|, max 1 |x.val|, X) else (0, 0, 2 ^ (emax + 1), X)

theorem budget_pos (q : Nat) (x : Ieee p emax) : (budgetLeaf q x).Pos := by
  unfold budgetLeaf
  split
  · exact ⟨le_rfl, le_max_right _ _, le_max_left _ _, X_ne_zero⟩
  · exact ⟨by simp, by positivity, one_le_pow₀ (by norm_num), X_ne_zero⟩

theorem within_leaf (q : Nat) (x : Ieee p emax) : Tagged.Rel Budget.Pos (Within q) x (.live (budgetLeaf q x)) := by
  refine ⟨budget_pos q x, ?_⟩
  unfold budgetLeaf
  split
  · rename_i h
    intro _
    refine ⟨⟨x.val, Ieee.rnd_val_self x⟩, h.1, rfl, approx_leaf (p := p) ⟨x.val, Ieee.rnd_val_self x⟩, ?_⟩
    show OnGrid (q * (X : ℕ[X]).natDegree) x.val
    rw [natDegree_X]
    simpa using h.2
  · intro h
    have := h.1
    have h1 := one_le_pow_u p (roundings (X : ℕ[X]))
    have h2 : (2 : ℚ) ^ (emax + 1) * (1 + unitRoundoff p) ^ roundings (X : ℕ[X]) < 2 ^ (emax + 1) := this
    have : (0 : ℚ) < 2 ^ (emax + 1) := by positivity
    nlinarith

theorem budgetLeaf_moderate {q : Nat} {x : Ieee p emax} (h : Moderate q x) : budgetLeaf q x = (x.val, |x.val|, max 1 |x.val|, X) := if_pos h

/-! ### exact on integers -/

/-- Exact value, value on `max 1 |x|`. -/
structure IntPos (s : ℚ × ℚ) : Prop where
  int : IsInt s.1
  le : |s.1| ≤ s.2
  one_le : 1 ≤ s.2

def IntExact (x : Ieee p emax) (s : ℚ × ℚ) : Prop := s.2 ≤ 2 ^ p → x.Finite ∧ x.val = s.1

theorem int_onGrid {x : ℚ} (h : IsInt x) : OnGrid (-tiny p emax) x :=
  (onGrid_int h).mono (by
    have := Nat.pos_of_neZero p
    have := Nat.pos_of_neZero emax
    unfold tiny; omega)

theorem IntPos.add {s t : ℚ × ℚ} (hs : IntPos s) (ht : IntPos t) : IntPos (s + t) :=
  ⟨hs.int.add ht.int, (abs_add_le _ _).trans (add_le_add hs.le ht.le), by
    show 1 ≤ s.2 + t.2
    linarith [hs.one_le, ht.one_le]⟩

theorem IntPos.mul {s t : ℚ × ℚ} (hs : IntPos s) (ht : IntPos t) : IntPos (s * t) :=
  ⟨hs.int.mul ht.int, abs_mul_le' hs.le ht.le, by
    show 1 ≤ s.2 * t.2
    nlinarith [hs.one_le, ht.one_le]⟩

theorem intExact_rnd (hpe : p ≤ emax) {s : ℚ × ℚ} (hs : IntPos s) (hr : s.2 ≤ 2 ^ p) :
    rnd p s.1 = s.1 ∧ |rnd p s.1| < 2 ^ (emax + 1) := by
  have e := rnd_isInt hs.int (hs.le.trans hr)
  refine ⟨e, ?_⟩
  rw [e]
  exact (hs.le.trans hr).trans_lt (pow_lt_pow_right₀ (by norm_num) (by omega))

instance intExact_closed [hpe : Fact (p ≤ emax)] : TagClosed (M := Ieee p emax) IntPos IntExact where
  zero_add_zero := Ieee.zero_add_zero
  zero_add_one := Ieee.zero_add_one
  one_add_zero := Ieee.one_add_zero
  one_mul := Ieee.one_mul_eq
  mul_one := Ieee.mul_one_eq
  mulAdd_one_left := Ieee.mulAdd_one_left
  mulAdd_one_right := Ieee.mulAdd_one_right
  pos_add := IntPos.add
  pos_mul := IntPos.mul
  zero_add {x s} h hr := by
    obtain ⟨h1, h2⟩ := h hr
    obtain ⟨g1, g2⟩ := Ieee.zero_add_val h1
    exact ⟨g1, g2.trans h2⟩
  add_zero {x s} h hr := by
    obtain ⟨h1, h2⟩ := h hr
    obtain ⟨g1, g2⟩ := Ieee.add_zero_val h1
    exact ⟨g1, g2.trans h2⟩
  add {x y s t} hs ht hx hy hr := by
    have hr' : s.2 + t.2 ≤ 2 ^ p := hr
    obtain ⟨f1, v1⟩ := hx (by linarith [ht.one_le])
    obtain ⟨f2, v2⟩ := hy (by linarith [hs.one_le])
    obtain ⟨e1, e2⟩ := intExact_rnd hpe.out (hs.add ht) hr
    obtain ⟨h1, h2⟩ := Ieee.add_val f1 f2 (by rw [v1, v2]; exact e2)
    exact ⟨h1, by rw [h2, v1, v2]; exact e1⟩
  mul {x y s t} hs ht hx hy hr := by
    have hr' : s.2 * t.2 ≤ 2 ^ p := hr
    obtain ⟨f1, v1⟩ := hx (by nlinarith [ht.one_le, hs.one_le])
    obtain ⟨f2, v2⟩ := hy (by nlinarith [ht.one_le, hs.one_le])
    obtain ⟨e1, e2⟩ := intExact_rnd hpe.out (hs.mul ht) hr
    obtain ⟨h1, h2⟩ := Ieee.mul_val f1 f2 (by rw [v1, v2]; exact int_onGrid (hs.mul ht).int) (by rw [v1, v2]; exact e2)
    exact ⟨h1, by rw [h2, v1, v2]; exact e1⟩
  mulAdd_fresh {x y s t} hs ht hx hy hr := by
    have hr' : s.2 * t.2 ≤ 2 ^ p := hr
    obtain ⟨f1, v1⟩ := hx (by nlinarith [ht.one_le, hs.one_le])
    obtain ⟨f2, v2⟩ := hy (by nlinarith [ht.one_le, hs.one_le])
    obtain ⟨e1, e2⟩ := intExact_rnd hpe.out (hs.mul ht) hr
    obtain ⟨h1, h2⟩ := Ieee.mulAdd_val f1 f2 (z := 0) Ieee.zero_finite
      (by rw [v1, v2, Ieee.zero_val, add_zero]; exact int_onGrid (hs.mul ht).int)
      (by rw [v1, v2, Ieee.zero_val, add_zero]; exact e2)
    exact ⟨h1, by rw [h2, v1, v2, Ieee.zero_val, add_zero]; exact e1⟩
  mulAdd {x y z s t w} hs ht hw hx hy hz hr := by
    have hr' : s.2 * t.2 + w.2 ≤ 2 ^ p := hr
    obtain ⟨f1, v1⟩ := hx (by nlinarith [ht.one_le, hs.one_le, hw.one_le])
    obtain ⟨f2, v2⟩ := hy (by nlinarith [ht.one_le, hs.one_le, hw.one_le])
    obtain ⟨f3, v3⟩ := hz (by nlinarith [ht.one_le, hs.one_le, hw.one_le])
    obtain ⟨e1, e2⟩ := intExact_rnd hpe.out ((hs.mul ht).add hw) hr
    obtain ⟨h1, h2⟩ := Ieee.mulAdd_val f1 f2 f3
      (by rw [v1, v2, v3]; exact int_onGrid ((hs.mul ht).add hw).int) (by rw [v1, v2, v3]; exact e2)
    exact ⟨h1, by rw [h2, v1, v2, v3]; exact e1⟩

open Classical in
noncomputable def wholeLeaf (x : Ieee p emax) : ℚ × ℚ := if Whole x then (x.val, max 1 |x.val|) else (0, 2 ^ p + 1)

theorem whole_leaf (x : Ieee p emax) : Tagged.Rel IntPos IntExact x (.live (wholeLeaf x)) := by
  unfold wholeLeaf
  split
  · rename_i h
    exact ⟨⟨h.2, le_max_right _ _, le_max_left _ _⟩, fun _ => ⟨h.1, rfl⟩⟩
  · refine ⟨⟨⟨0, by simp⟩, by simp; positivity, ?_⟩, fun h => absurd h (by simp)⟩
    show (1 : ℚ) ≤ 2 ^ p + 1
    have : (0 : ℚ) < 2 ^ p := by positivity
    linarith

theorem wholeLeaf_whole {x : Ieee p emax} (h : Whole x) : wholeLeaf x = (x.val, max 1 |x.val|) := if_pos h

end Verif
