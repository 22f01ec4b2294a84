import Verif.Model.FloatArith
import Verif.Lemmas.Related
import Mathlib.Algebra.Polynomial.Eval.Degree
import Mathlib.Algebra.Polynomial.Degree.Domain
import Mathlib.Algebra.Ring.Prod
import Mathlib.Tactic.Linarith
import Mathlib.Tactic.Positivity

/-!
# Error bounds of floating-point expressions

The counting polynomial of an expression: elements count as `X`, 0 and 1 as themselves. For a sum of `m` products of `n` elements
it is `m X^n`, in whatever order the operations are done.
-/

namespace Verif

open Polynomial

theorem unitRoundoff_pos (p : Nat) : 0 < unitRoundoff p := by unfold unitRoundoff; positivity

/-- Rounding changes a number by at most a fraction `u` of it. -/
theorem abs_rnd_sub_le (p : Nat) (x : ℚ) : |rnd p x - x| ≤ unitRoundoff p * |x| := by
  by_cases hx : x = 0
  · subst hx; rw [rnd_zero]; simp
  · rw [abs_sub_comm]
    refine (abs_sub_rnd p x).trans ?_
    have hp : 0 < |x| := abs_pos.2 hx
    have h := zpow_log_le hp
    have e : ulp p x / 2 = unitRoundoff p * 2 ^ Int.log 2 |x| := by
      unfold ulp unitRoundoff
      rw [show Int.log 2 |x| + 1 - (p : ℤ) = Int.log 2 |x| + 1 + -(p : ℤ) by ring, zpow_add₀ (by norm_num),
        zpow_add₀ (by norm_num), zpow_neg, zpow_natCast, zpow_one]
      field_simp
    rw [e]
    exact mul_le_mul_of_nonneg_left h (unitRoundoff_pos p).le

/-- `x` approximates `e` with an error of at most `(1+u)^m - 1` times `b`, where `b` bounds `e`. -/
def Near (p m : Nat) (x e b : ℚ) : Prop := |e| ≤ b ∧ |x - e| ≤ ((1 + unitRoundoff p) ^ m - 1) * b

section
variable {p : Nat}

theorem one_le_pow_u (p m : Nat) : 1 ≤ (1 + unitRoundoff p) ^ m :=
  one_le_pow₀ (by have := unitRoundoff_pos p; linarith)

theorem Near.mono {m n : Nat} {x e b : ℚ} (h : Near p m x e b) (hmn : m ≤ n) : Near p n x e b := by
  refine ⟨h.1, h.2.trans (mul_le_mul_of_nonneg_right ?_ ((abs_nonneg e).trans h.1))⟩
  have : (1 + unitRoundoff p) ^ m ≤ (1 + unitRoundoff p) ^ n :=
    pow_le_pow_right₀ (by have := unitRoundoff_pos p; linarith) hmn
  linarith

theorem near_self {x b : ℚ} (m : Nat) (h : |x| ≤ b) : Near p m x x b := by
  refine ⟨h, ?_⟩
  rw [sub_self, abs_zero]
  exact mul_nonneg (by have := one_le_pow_u p m; linarith) ((abs_nonneg x).trans h)

theorem Near.rnd {m : Nat} {x e b : ℚ} (h : Near p m x e b) : Near p (m + 1) (rnd p x) e b := by
  refine ⟨h.1, ?_⟩
  have hu := unitRoundoff_pos p
  have h1 : |Verif.rnd p x - e| ≤ |Verif.rnd p x - x| + |x - e| := abs_sub_le _ _ _
  have h2 := abs_rnd_sub_le p x
  have h3 : |x| ≤ |x - e| + |e| := by simpa using abs_add_le (x - e) e
  have h4 : |x| ≤ (1 + unitRoundoff p) ^ m * b := by linarith [h.1, h.2]
  have h5 := mul_le_mul_of_nonneg_left h4 hu.le
  rw [pow_succ]
  nlinarith [h.2]

theorem Near.add {m : Nat} {x e b y f c : ℚ} (h : Near p m x e b) (h' : Near p m y f c) : Near p m (x + y) (e + f) (b + c) := by
  refine ⟨(abs_add_le e f).trans (add_le_add h.1 h'.1), ?_⟩
  have : |x + y - (e + f)| ≤ |x - e| + |y - f| := by
    rw [show x + y - (e + f) = (x - e) + (y - f) by ring]; exact abs_add_le _ _
  nlinarith [h.2, h'.2]

theorem Near.mul {m n : Nat} {x e b y f c : ℚ} (h : Near p m x e b) (h' : Near p n y f c) :
    Near p (m + n) (x * y) (e * f) (b * c) := by
  have hb : 0 ≤ b := (abs_nonneg e).trans h.1
  have hc : 0 ≤ c := (abs_nonneg f).trans h'.1
  refine ⟨by rw [abs_mul]; exact mul_le_mul h.1 h'.1 (abs_nonneg f) hb, ?_⟩
  have h1 : |x * y - e * f| ≤ |x - e| * |y| + |e| * |y - f| := by
    rw [show x * y - e * f = (x - e) * y + e * (y - f) by ring, ← abs_mul, ← abs_mul]; exact abs_add_le _ _
  have h3 : |y| ≤ |y - f| + |f| := by simpa using abs_add_le (y - f) f
  have hA := one_le_pow_u p m
  have hC := one_le_pow_u p n
  have h4 : |y| ≤ (1 + unitRoundoff p) ^ n * c := by linarith [h'.1, h'.2]
  have h5 : |x - e| * |y| ≤ (((1 + unitRoundoff p) ^ m - 1) * b) * ((1 + unitRoundoff p) ^ n * c) :=
    mul_le_mul h.2 h4 (abs_nonneg y) (mul_nonneg (by linarith) hb)
  have h6 : |e| * |y - f| ≤ b * (((1 + unitRoundoff p) ^ n - 1) * c) := mul_le_mul h.1 h'.2 (abs_nonneg _) hb
  rw [pow_add]
  calc _ ≤ _ := h1
    _ ≤ _ := add_le_add h5 h6
    _ = _ := by ring

end

/-! ### counting -/

/-- The number of roundings an expression with counting polynomial `P` is charged. -/
noncomputable def roundings (P : ℕ[X]) : ℕ :=
  if P.natDegree = 0 then P.eval 1 - 2 else P.eval 1 - 1 + (P.natDegree - 1)

theorem one_le_eval {P : ℕ[X]} (h : P ≠ 0) : 1 ≤ P.eval 1 := by
  rw [eval_eq_sum_range]
  have h1 : P.coeff P.natDegree ≠ 0 := leadingCoeff_ne_zero.2 h
  have h2 := Finset.single_le_sum (f := fun i => P.coeff i * 1 ^ i) (s := Finset.range (P.natDegree + 1))
    (fun _ _ => Nat.zero_le _) (Finset.mem_range.2 (Nat.lt_succ_self P.natDegree))
  simp only [one_pow, mul_one] at h2 ⊢
  omega

theorem eval_of_deg_zero {P : ℕ[X]} (h : P.natDegree = 0) : P = C (P.eval 1) := by
  have := eq_C_of_natDegree_eq_zero h
  rw [this, eval_C]

theorem natDegree_le_add (P Q : ℕ[X]) : P.natDegree ≤ (P + Q).natDegree := by
  by_cases h : P = 0
  · simp [h]
  · apply le_natDegree_of_ne_zero
    rw [coeff_add]
    have : P.coeff P.natDegree ≠ 0 := leadingCoeff_ne_zero.2 h
    omega

theorem two_le_eval {P : ℕ[X]} (hd : P.natDegree = 0) (h0 : P ≠ 0) (h1 : P ≠ 1) : 2 ≤ P.eval 1 := by
  have := one_le_eval h0
  rcases Nat.lt_or_ge 1 (P.eval 1) with h | h
  · exact h
  · have e : P.eval 1 = 1 := by omega
    exact absurd (by rw [eval_of_deg_zero hd, e, C_1]) h1

theorem roundings_add {P Q : ℕ[X]} (hQ : Q ≠ 0) (h : ¬ (P = 1 ∧ Q = 1)) : roundings P + 1 ≤ roundings (P + Q) ∨ P = 0 := by
  by_cases hP : P = 0
  · exact .inr hP
  refine .inl ?_
  have e1 := one_le_eval hP
  have e2 := one_le_eval hQ
  have d1 := natDegree_le_add P Q
  have d2 : Q.natDegree ≤ (P + Q).natDegree := by rw [add_comm]; exact natDegree_le_add Q P
  have d3 := natDegree_add_le P Q
  unfold roundings
  rw [eval_add]
  by_cases hp0 : P.natDegree = 0
  · by_cases hq0 : Q.natDegree = 0
    · have : (P + Q).natDegree = 0 := by rw [hp0, hq0] at d3; simpa using d3
      rw [if_pos hp0, if_pos this]
      by_cases hp1 : P = 1
      · have := two_le_eval hq0 hQ (fun e => h ⟨hp1, e⟩)
        omega
      · have := two_le_eval hp0 hP hp1
        omega
    · rw [if_pos hp0, if_neg (by omega)]
      omega
  · rw [if_neg hp0, if_neg (by omega)]
    omega

theorem roundings_mul {P Q : ℕ[X]} (hP : P ≠ 0) (hP1 : P ≠ 1) (hQ : Q ≠ 0) (hQ1 : Q ≠ 1) :
    roundings P + roundings Q + 1 ≤ roundings (P * Q) := by
  have e1 := one_le_eval hP
  have e2 := one_le_eval hQ
  unfold roundings
  rw [eval_mul, natDegree_mul hP hQ]
  obtain ⟨c, hc⟩ : ∃ c, P.eval 1 = c + 1 := ⟨_, (Nat.sub_add_cancel e1).symm⟩
  obtain ⟨d, hd⟩ : ∃ d, Q.eval 1 = d + 1 := ⟨_, (Nat.sub_add_cancel e2).symm⟩
  rw [hc, hd, show (c + 1) * (d + 1) = c * d + c + d + 1 by ring]
  by_cases hp0 : P.natDegree = 0
  · have := two_le_eval hp0 hP hP1
    by_cases hq0 : Q.natDegree = 0
    · have := two_le_eval hq0 hQ hQ1
      have : 1 ≤ c * d := Nat.mul_pos (by omega) (by omega)
      rw [if_pos hp0, if_pos hq0, if_pos (by omega)]
      omega
    · rw [if_pos hp0, if_neg hq0, if_neg (by omega)]
      omega
  · by_cases hq0 : Q.natDegree = 0
    · have := two_le_eval hq0 hQ hQ1
      rw [if_neg hp0, if_pos hq0, if_neg (by omega)]
      omega
    · rw [if_neg hp0, if_neg hq0, if_neg (by omega)]
      omega

/-! ### the relation -/

/-- `x` was computed for an expression with exact value `t.1`, value `t.2.1` on the absolute values and counting polynomial `t.2.2`. -/
structure Approx (p : Nat) [NeZero p] (x : Fl p) (t : ℚ × ℚ × ℕ[X]) : Prop where
  zero : t.2.2 = 0 → x = 0 ∧ t.1 = 0
  one : t.2.2 = 1 → x = 1 ∧ t.1 = 1
  near : Near p (roundings t.2.2) x.val t.1 t.2.1

section
variable {p : Nat} [NeZero p]

theorem rnd_val (x : Fl p) : rnd p x.val = x.val := x.isFloat

theorem add_eq_zero_poly {P Q : ℕ[X]} (h : P + Q = 0) : P = 0 ∧ Q = 0 := by
  constructor <;> ext n <;>
  · have := congrArg (fun R => R.coeff n) h
    simp only [coeff_add, coeff_zero] at this ⊢
    omega

theorem add_eq_one_poly {P Q : ℕ[X]} (h : P + Q = 1) : (P = 1 ∧ Q = 0) ∨ (P = 0 ∧ Q = 1) := by
  have hd : P.natDegree = 0 := by have := natDegree_le_add P Q; rw [h, natDegree_one] at this; omega
  have hd' : Q.natDegree = 0 := by have := natDegree_le_add Q P; rw [add_comm, h, natDegree_one] at this; omega
  have he := congrArg (eval 1) h
  rw [eval_add, eval_one] at he
  rw [eval_of_deg_zero hd, eval_of_deg_zero hd']
  rcases Nat.eq_zero_or_pos (P.eval 1) with h0 | h0
  · right; rw [show Q.eval 1 = 1 by omega, h0]; simp
  · left; rw [show P.eval 1 = 1 by omega, show Q.eval 1 = 0 by omega]; simp

theorem mul_eq_one_poly {P Q : ℕ[X]} (h : P * Q = 1) : P = 1 ∧ Q = 1 := by
  have hP : P ≠ 0 := by rintro rfl; simp at h
  have hQ : Q ≠ 0 := by rintro rfl; simp at h
  have hd := natDegree_mul hP hQ
  rw [h, natDegree_one] at hd
  have he := congrArg (eval 1) h
  rw [eval_mul, eval_one] at he
  have := Nat.eq_one_of_mul_eq_one_right he
  have := Nat.eq_one_of_mul_eq_one_left he
  rw [eval_of_deg_zero (P := P) (by omega), eval_of_deg_zero (P := Q) (by omega)]
  constructor <;> simp [*]

theorem approx_zero_left {x : Fl p} {t : ℚ × ℚ × ℕ[X]} (h : Approx p x t) (h0 : t.2.2 = 0) : x.val = 0 ∧ t.1 = 0 := by
  obtain ⟨rfl, e⟩ := h.zero h0
  exact ⟨rfl, e⟩

theorem val_eq {x y : Fl p} (h : x.val = y.val) : x = y := Fl.ext' h

theorem two_exact : rnd p (1 + 1) = 2 := by
  have hp : 0 < p := Nat.pos_of_neZero p
  have := rnd_nat hp (k := 2) (by calc 2 = 2 ^ 1 := rfl
    _ ≤ 2 ^ p := Nat.pow_le_pow_right (by norm_num) hp)
  norm_num at this ⊢
  exact this

/-- Adding rounded once, when the summands themselves may be unrounded (`near` is all that is known of them). -/
theorem near_add_rnd {P Q : ℕ[X]} {x e b y f c : ℚ} {j k : Nat} (hj : j + 1 ≤ roundings (P + Q)) (hk : k + 1 ≤ roundings (P + Q))
    (h : Near p j x e b) (h' : Near p k y f c) : Near p (roundings (P + Q)) (rnd p (x + y)) (e + f) (b + c) := by
  have := ((h.mono (le_max_left j k)).add (h'.mono (le_max_right j k))).rnd
  exact this.mono (by omega)

theorem Near.weaken {m : Nat} {x e b c : ℚ} (h : Near p m x e b) (hbc : b ≤ c) : Near p m x e c :=
  ⟨h.1.trans hbc, h.2.trans (mul_le_mul_of_nonneg_left hbc (by have := one_le_pow_u p m; linarith))⟩

theorem approx_add {x y : Fl p} {s t : ℚ × ℚ × ℕ[X]} (h : Approx p x s) (h' : Approx p y t) : Approx p (x + y) (s + t) := by
  obtain ⟨e, b, P⟩ := s
  obtain ⟨f, c, Q⟩ := t
  have hb : 0 ≤ b := (abs_nonneg _).trans h.near.1
  have hc : 0 ≤ c := (abs_nonneg _).trans h'.near.1
  have z1 : P = 0 → x + y = y ∧ e = 0 := fun h0 => by
    obtain ⟨a1, a2⟩ := approx_zero_left h h0
    exact ⟨val_eq (by rw [Fl.val_add, a1, zero_add, rnd_val]), a2⟩
  have z2 : Q = 0 → x + y = x ∧ f = 0 := fun h0 => by
    obtain ⟨a1, a2⟩ := approx_zero_left h' h0
    exact ⟨val_eq (by rw [Fl.val_add, a1, add_zero, rnd_val]), a2⟩
  refine ⟨fun h0 => ?_, fun h1 => ?_, ?_⟩
  · obtain ⟨hp, hq⟩ := add_eq_zero_poly (P := P) (Q := Q) h0
    obtain ⟨a1, a2⟩ := z1 hp
    obtain ⟨b1, b2⟩ := h'.zero hq
    exact ⟨a1.trans b1, by show e + f = 0; rw [a2, show f = 0 from b2, add_zero]⟩
  · rcases add_eq_one_poly (P := P) (Q := Q) h1 with ⟨hp, hq⟩ | ⟨hp, hq⟩
    · obtain ⟨a1, a2⟩ := z2 hq
      obtain ⟨b1, b2⟩ := h.one hp
      exact ⟨a1.trans b1, by show e + f = 1; rw [a2, show e = 1 from b2, add_zero]⟩
    · obtain ⟨a1, a2⟩ := z1 hp
      obtain ⟨b1, b2⟩ := h'.one hq
      exact ⟨a1.trans b1, by show e + f = 1; rw [a2, show f = 1 from b2, zero_add]⟩
  · show Near p (roundings (P + Q)) (x + y).val (e + f) (b + c)
    by_cases hp : P = 0
    · obtain ⟨a1, a2⟩ := z1 hp
      rw [a1, a2, zero_add, hp, zero_add]
      exact Near.weaken h'.near (by show c ≤ b + c; linarith)
    by_cases hq : Q = 0
    · obtain ⟨a1, a2⟩ := z2 hq
      rw [a1, a2, add_zero, hq, add_zero]
      exact Near.weaken h.near (by show b ≤ b + c; linarith)
    by_cases h11 : P = 1 ∧ Q = 1
    · obtain ⟨a1, a2⟩ := h.one h11.1
      obtain ⟨b1, b2⟩ := h'.one h11.2
      have : (x + y).val = e + f := by
        rw [Fl.val_add, a1, b1, show e = 1 from a2, show f = 1 from b2, Fl.val_one, two_exact]; norm_num
      rw [this]
      exact near_self _ ((abs_add_le e f).trans (add_le_add h.near.1 h'.near.1))
    · exact near_add_rnd ((roundings_add hq h11).resolve_right hp)
        (by rw [add_comm P]; exact (roundings_add hp (fun e => h11 ⟨e.2, e.1⟩)).resolve_right hq) h.near h'.near

theorem approx_mul {x y : Fl p} {s t : ℚ × ℚ × ℕ[X]} (h : Approx p x s) (h' : Approx p y t) : Approx p (x * y) (s * t) := by
  obtain ⟨e, b, P⟩ := s
  obtain ⟨f, c, Q⟩ := t
  have hb : |e| ≤ b := h.near.1
  have hc : |f| ≤ c := h'.near.1
  have hbc : |e * f| ≤ b * c := by rw [abs_mul]; exact mul_le_mul hb hc (abs_nonneg f) ((abs_nonneg e).trans hb)
  have z1 : P = 0 → x * y = 0 ∧ e * f = 0 := fun h0 => by
    obtain ⟨a1, a2⟩ := approx_zero_left h h0
    exact ⟨val_eq (by rw [Fl.val_mul, a1, zero_mul, rnd_zero, Fl.val_zero]), by rw [show e = 0 from a2, zero_mul]⟩
  have z2 : Q = 0 → x * y = 0 ∧ e * f = 0 := fun h0 => by
    obtain ⟨a1, a2⟩ := approx_zero_left h' h0
    exact ⟨val_eq (by rw [Fl.val_mul, a1, mul_zero, rnd_zero, Fl.val_zero]), by rw [show f = 0 from a2, mul_zero]⟩
  have o1 : P = 1 → x * y = y ∧ e = 1 := fun h1 => by
    obtain ⟨a1, a2⟩ := h.one h1
    exact ⟨val_eq (by rw [Fl.val_mul, a1, Fl.val_one, one_mul, rnd_val]), a2⟩
  have o2 : Q = 1 → x * y = x ∧ f = 1 := fun h1 => by
    obtain ⟨a1, a2⟩ := h'.one h1
    exact ⟨val_eq (by rw [Fl.val_mul, a1, Fl.val_one, mul_one, rnd_val]), a2⟩
  refine ⟨fun h0 => ?_, fun h1 => ?_, ?_⟩
  · rcases mul_eq_zero.1 (show P * Q = 0 from h0) with hp | hq
    · exact z1 hp
    · exact z2 hq
  · obtain ⟨hp, hq⟩ := mul_eq_one_poly (P := P) (Q := Q) h1
    obtain ⟨a1, a2⟩ := o1 hp
    obtain ⟨b1, b2⟩ := h'.one hq
    exact ⟨a1.trans b1, by show e * f = 1; rw [a2, show f = 1 from b2, one_mul]⟩
  · show Near p (roundings (P * Q)) (x * y).val (e * f) (b * c)
    by_cases hp : P = 0
    · obtain ⟨a1, a2⟩ := z1 hp
      rw [a1, a2, Fl.val_zero]
      exact near_self _ (by rw [← a2]; exact hbc)
    by_cases hq : Q = 0
    · obtain ⟨a1, a2⟩ := z2 hq
      rw [a1, a2, Fl.val_zero]
      exact near_self _ (by rw [← a2]; exact hbc)
    by_cases hp1 : P = 1
    · obtain ⟨a1, a2⟩ := o1 hp1
      rw [a1, a2, one_mul, hp1, one_mul]
      have : 1 ≤ b := by rw [a2, abs_one] at hb; exact hb
      exact Near.weaken h'.near (by show c ≤ b * c; nlinarith [(abs_nonneg f).trans hc])
    by_cases hq1 : Q = 1
    · obtain ⟨a1, a2⟩ := o2 hq1
      rw [a1, a2, mul_one, hq1, mul_one]
      have : 1 ≤ c := by rw [a2, abs_one] at hc; exact hc
      exact Near.weaken h.near (by show b ≤ b * c; nlinarith [(abs_nonneg e).trans hb])
    exact ((h.near.mul h'.near).rnd).mono (roundings_mul hp hp1 hq hq1)

theorem approx_mulAdd {x y z : Fl p} {s t w : ℚ × ℚ × ℕ[X]} (h : Approx p x s) (h' : Approx p y t) (h'' : Approx p z w) :
    Approx p (mulAdd x y z) (s * t + w) := by
  -- when the product is exact, this is a rounded sum
  have exact_case : (x * y).val = x.val * y.val → Approx p (mulAdd x y z) (s * t + w) := fun he => by
    have : mulAdd x y z = x * y + z := val_eq (by rw [Fl.val_mulAdd, Fl.val_add, he])
    rw [this]
    exact approx_add (approx_mul h h') h''
  have hm := approx_mul h h'
  obtain ⟨e, b, P⟩ := s
  obtain ⟨f, c, Q⟩ := t
  obtain ⟨g, d, W⟩ := w
  by_cases hp : P = 0
  · obtain ⟨a1, _⟩ := approx_zero_left h hp
    exact exact_case (by rw [Fl.val_mul, a1, zero_mul, rnd_zero])
  by_cases hq : Q = 0
  · obtain ⟨a1, _⟩ := approx_zero_left h' hq
    exact exact_case (by rw [Fl.val_mul, a1, mul_zero, rnd_zero])
  by_cases hp1 : P = 1
  · obtain ⟨a1, _⟩ := h.one hp1
    exact exact_case (by rw [Fl.val_mul, a1, Fl.val_one, one_mul, rnd_val])
  by_cases hq1 : Q = 1
  · obtain ⟨a1, _⟩ := h'.one hq1
    exact exact_case (by rw [Fl.val_mul, a1, Fl.val_one, mul_one, rnd_val])
  have hpq : P * Q ≠ 0 := mul_ne_zero hp hq
  have hpq1 : P * Q ≠ 1 := fun e => hp1 (mul_eq_one_poly e).1
  by_cases hw : W = 0
  · obtain ⟨a1, a2⟩ := approx_zero_left h'' hw
    have : mulAdd x y z = x * y := val_eq (by rw [Fl.val_mulAdd, Fl.val_mul, a1, add_zero])
    have hz : (x * y) + z = x * y := val_eq (by rw [Fl.val_add, a1, add_zero, rnd_val])
    rw [this, ← hz]
    exact approx_add hm h''
  have hr := roundings_mul hp hp1 hq hq1
  have hA := (roundings_add (P := P * Q) hw (fun e => hpq1 e.1)).resolve_right hpq
  have hB : roundings W + 1 ≤ roundings (P * Q + W) := by
    rw [add_comm (P * Q)]
    exact (roundings_add hpq (fun e => hpq1 e.2)).resolve_right hw
  refine ⟨fun h0 => absurd (add_eq_zero_poly (P := P * Q) (Q := W) h0).1 hpq, fun h1 => ?_, ?_⟩
  · rcases add_eq_one_poly (P := P * Q) (Q := W) h1 with ⟨h1, _⟩ | ⟨h1, _⟩
    · exact absurd h1 hpq1
    · exact absurd h1 hpq
  · exact near_add_rnd (P := P * Q) (Q := W) (by
      show roundings P + roundings Q + 1 ≤ _
      omega) hB (h.near.mul h'.near) h''.near

instance : Closed (Approx p) where
  zero := ⟨fun _ => ⟨rfl, rfl⟩, fun h => absurd (show (0 : ℕ[X]) = 1 from h) zero_ne_one, near_self _ (by simp [Fl.val_zero])⟩
  one := ⟨fun h => absurd (show (1 : ℕ[X]) = 0 from h) one_ne_zero, fun _ => ⟨rfl, rfl⟩, near_self _ (by simp [Fl.val_one])⟩
  add := approx_add
  mul := approx_mul
  mulAdd := approx_mulAdd

/-- An element: exact, its absolute value, one factor. -/
noncomputable def floatLeaf (x : Fl p) : ℚ × ℚ × ℕ[X] := (x.val, |x.val|, X)

theorem approx_leaf (x : Fl p) : Approx p x (floatLeaf x) :=
  ⟨fun h => absurd h X_ne_zero, fun h => absurd (congrArg natDegree (show (X : ℕ[X]) = 1 from h)) (by simp), near_self _ le_rfl⟩

end

end Verif
