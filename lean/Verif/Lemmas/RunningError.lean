import Verif.Spec.RunningError
import Verif.Lemmas.FloatExact
import Mathlib.Tactic.FieldSimp

/-!
# Floats satisfy the rules for error propagation
-/

namespace Verif

/-- `x` is `e` times a factor between `(1+u)^-k` and `(1+u)^k`. -/
def Ratio (p k : Nat) (x e : ℚ) : Prop :=
  ∃ t, ((1 + unitRoundoff p) ^ k)⁻¹ ≤ t ∧ t ≤ (1 + unitRoundoff p) ^ k ∧ x = e * t

section
variable {p : Nat}

theorem pow_u_pos (p k : Nat) : 0 < (1 + unitRoundoff p) ^ k := by have := unitRoundoff_pos p; positivity

theorem inv_pow_u_le (p k : Nat) : ((1 + unitRoundoff p) ^ k)⁻¹ ≤ 1 := inv_le_one_of_one_le₀ (one_le_pow_u p k)

theorem Ratio.refl (k : Nat) (x : ℚ) : Ratio p k x x := ⟨1, inv_pow_u_le p k, one_le_pow_u p k, by ring⟩

theorem Ratio.mono {k l : Nat} {x e : ℚ} (h : Ratio p k x e) (hkl : k ≤ l) : Ratio p l x e := by
  obtain ⟨t, h1, h2, h3⟩ := h
  have hp : (1 + unitRoundoff p) ^ k ≤ (1 + unitRoundoff p) ^ l :=
    pow_le_pow_right₀ (by have := unitRoundoff_pos p; linarith) hkl
  exact ⟨t, (inv_anti₀ (pow_u_pos p k) hp).trans h1, h2.trans hp, h3⟩

theorem Ratio.mul {k l : Nat} {x e y f : ℚ} (h : Ratio p k x e) (h' : Ratio p l y f) : Ratio p (k + l) (x * y) (e * f) := by
  obtain ⟨t, h1, h2, h3⟩ := h
  obtain ⟨s, g1, g2, g3⟩ := h'
  have ht : 0 < t := lt_of_lt_of_le (inv_pos.2 (pow_u_pos p k)) h1
  have hs : 0 < s := lt_of_lt_of_le (inv_pos.2 (pow_u_pos p l)) g1
  refine ⟨t * s, ?_, ?_, by rw [h3, g3]; ring⟩
  · rw [pow_add, mul_inv]
    exact mul_le_mul h1 g1 (inv_pos.2 (pow_u_pos p l)).le ht.le
  · rw [pow_add]
    exact mul_le_mul h2 g2 hs.le (pow_u_pos p k).le

theorem Ratio.inv {k : Nat} {x e : ℚ} (h : Ratio p k x e) : Ratio p k x⁻¹ e⁻¹ := by
  obtain ⟨t, h1, h2, h3⟩ := h
  have ht : 0 < t := lt_of_lt_of_le (inv_pos.2 (pow_u_pos p k)) h1
  refine ⟨t⁻¹, inv_anti₀ ht h2, ?_, by rw [h3, mul_inv]⟩
  have := inv_anti₀ (inv_pos.2 (pow_u_pos p k)) h1
  rwa [inv_inv] at this

theorem Ratio.neg {k : Nat} {x e : ℚ} : Ratio p k x e → Ratio p k (-x) (-e)
  | ⟨t, h1, h2, h3⟩ => ⟨t, h1, h2, by rw [h3]; ring⟩

theorem Ratio.add_nonneg {k : Nat} {x e y f : ℚ} (h : Ratio p k x e) (h' : Ratio p k y f) (he : 0 ≤ e) (hf : 0 ≤ f) :
    Ratio p k (x + y) (e + f) := by
  obtain ⟨t, h1, h2, h3⟩ := h
  obtain ⟨s, g1, g2, g3⟩ := h'
  rcases eq_or_lt_of_le (_root_.add_nonneg he hf) with h0 | h0
  · have e0 : e = 0 := by linarith
    have f0 : f = 0 := by linarith
    rw [h3, g3, e0, f0]
    simpa using Ratio.refl (p := p) k 0
  · refine ⟨(e * t + f * s) / (e + f), ?_, ?_, ?_⟩
    · rw [le_div_iff₀ h0]; nlinarith [mul_le_mul_of_nonneg_left h1 he, mul_le_mul_of_nonneg_left g1 hf]
    · rw [div_le_iff₀ h0]; nlinarith [mul_le_mul_of_nonneg_left h2 he, mul_le_mul_of_nonneg_left g2 hf]
    · rw [h3, g3]; field_simp

theorem Ratio.add {k : Nat} {x e y f : ℚ} (h : Ratio p k x e) (h' : Ratio p k y f) (hs : |e + f| = |e| + |f|) :
    Ratio p k (x + y) (e + f) := by
  rcases (abs_add_eq_add_abs_iff e f).1 hs with ⟨a, b⟩ | ⟨a, b⟩
  · exact h.add_nonneg h' a b
  · have := (h.neg.add_nonneg h'.neg (by linarith) (by linarith)).neg
    rwa [show -(-x + -y) = x + y by ring, show -(-e + -f) = e + f by ring] at this

theorem rnd_ratio (hp : 0 < p) (x : ℚ) : Ratio p 1 (rnd p x) x := by
  have main : ∀ x : ℚ, 0 < x → Ratio p 1 (rnd p x) x := by
    intro x hx
    have hu := unitRoundoff_pos p
    have h1 := abs_rnd_sub_le p x
    rw [abs_of_pos hx] at h1
    have hl : x - rnd p x ≤ unitRoundoff p * rnd p x := by
      have h2 := (le_abs_self _).trans (abs_sub_rnd p x)
      have e : ulp p x / 2 = unitRoundoff p * 2 ^ Int.log 2 x := by
        unfold ulp unitRoundoff
        rw [abs_of_pos hx, show Int.log 2 x + 1 - (p : ℤ) = Int.log 2 x + 1 + -(p : ℤ) by ring, zpow_add₀ (by norm_num),
          zpow_add₀ (by norm_num), zpow_neg, zpow_natCast, zpow_one]
        field_simp
      rw [e] at h2
      exact h2.trans (mul_le_mul_of_nonneg_left (two_pow_le_rnd (zpow_log_le hx) hp) hu.le)
    refine ⟨rnd p x / x, ?_, ?_, by field_simp⟩
    · rw [pow_one, le_div_iff₀ hx, inv_mul_le_iff₀ (by linarith)]; linarith
    · rw [pow_one, div_le_iff₀ hx]; linarith [(le_abs_self _).trans h1]
  rcases lt_trichotomy x 0 with h | h | h
  · have := (main (-x) (by linarith)).neg
    rwa [rnd_neg, neg_neg, neg_neg] at this
  · subst h; rw [rnd_zero]; exact Ratio.refl 1 0
  · exact main x h

theorem Ratio.rnd (hp : 0 < p) {k : Nat} {x e : ℚ} (h : Ratio p k x e) : Ratio p (k + 1) (rnd p x) e := by
  obtain ⟨t, h1, h2, h3⟩ := h.mul (rnd_ratio hp 1)
  obtain ⟨s, g1, g2, g3⟩ := rnd_ratio hp x
  obtain ⟨t, h1, h2, h3⟩ := h
  have := Ratio.mul (p := p) (k := k) (l := 1) (x := x) (e := e) (y := s) (f := 1) ⟨t, h1, h2, h3⟩ ⟨s, g1, g2, by ring⟩
  rw [mul_one] at this
  rwa [g3]

theorem Near.div {k l : Nat} {x e b y f : ℚ} (h : Near p k x e b) (h' : Ratio p l y f) (hf : f ≠ 0) :
    Near p (k + l) (x / y) (e / f) (b / |f|) := by
  obtain ⟨t, h1, h2, h3⟩ := h'.inv
  have hfa : 0 < |f| := abs_pos.2 hf
  have hb : 0 ≤ b := (abs_nonneg e).trans h.1
  have ht : 0 < t := lt_of_lt_of_le (inv_pos.2 (pow_u_pos p l)) h1
  refine ⟨by rw [abs_div]; exact div_le_div_of_nonneg_right h.1 hfa.le, ?_⟩
  rw [div_eq_mul_inv x y, h3]
  have e1 : x * (f⁻¹ * t) - e / f = ((x - e) * t + e * (t - 1)) / f := by field_simp; ring
  rw [e1, abs_div, mul_div_assoc']
  refine div_le_div_of_nonneg_right ?_ hfa.le
  have a1 : |(x - e) * t + e * (t - 1)| ≤ |x - e| * t + |e| * |t - 1| := by
    refine (abs_add_le _ _).trans ?_
    rw [abs_mul, abs_mul, abs_of_pos ht]
  have hC := one_le_pow_u p l
  have a2 : |t - 1| ≤ (1 + unitRoundoff p) ^ l - 1 := by
    rw [abs_le]
    refine ⟨?_, by linarith⟩
    have : 1 - ((1 + unitRoundoff p) ^ l)⁻¹ ≤ (1 + unitRoundoff p) ^ l - 1 := by
      have hC0 := pow_u_pos p l
      have : ((1 + unitRoundoff p) ^ l) * ((1 + unitRoundoff p) ^ l)⁻¹ = 1 := mul_inv_cancel₀ hC0.ne'
      nlinarith [inv_pos.2 hC0, sq_nonneg ((1 + unitRoundoff p) ^ l - 1)]
    linarith
  have a3 : |x - e| * t ≤ (((1 + unitRoundoff p) ^ k - 1) * b) * (1 + unitRoundoff p) ^ l :=
    mul_le_mul h.2 h2 ht.le ((abs_nonneg _).trans h.2)
  have a4 : |e| * |t - 1| ≤ b * ((1 + unitRoundoff p) ^ l - 1) := mul_le_mul h.1 a2 (abs_nonneg _) hb
  rw [pow_add]
  calc _ ≤ _ := a1
    _ ≤ _ := add_le_add a3 a4
    _ = _ := by ring

end

/-- What is known about a float `x` when the computation that led to it is repeated with `Est`. -/
structure Est.Holds (p : Nat) [NeZero p] (x : Fl p) (t : Est) : Prop where
  le : |t.exact| ≤ t.size
  near : ∀ k, t.steps = some k → Near p k x.val t.exact t.size
  ratio : ∀ k, t.steps = some k → t.size = |t.exact| → Ratio p k x.val t.exact
  int : t.whole = true → IsInt t.exact ∧ IsInt t.size
  eq : t.whole = true → t.size ≤ 2 ^ p → x.val = t.exact

section
variable {p : Nat} [NeZero p]

theorem isInt_den {x : ℚ} (h : x.den = 1) : IsInt x := ⟨x.num, (Rat.coe_int_num_of_den_eq_one h).symm⟩

theorem Est.Holds.leaf (x : Fl p) : (Est.ofRat x.val).Holds p x where
  le := le_rfl
  near k _ := near_self k le_rfl
  ratio k _ _ := Ratio.refl k _
  int h := ⟨isInt_den (of_decide_eq_true h), (isInt_den (of_decide_eq_true h)).abs⟩
  eq _ _ := rfl

theorem oneMore_some {f : Nat → Nat → Nat} {a b : Option Nat} {k : Nat} (h : Est.oneMore f a b = some k) :
    ∃ i j, a = some i ∧ b = some j ∧ k = f i j + 1 := by
  match a, b with
  | some i, some j => exact ⟨i, j, rfl, rfl, (Option.some.inj h).symm⟩
  | none, _ => cases h
  | some _, none => cases h

theorem Est.Holds.neg {x : Fl p} {t : Est} (h : t.Holds p x) : (-t).Holds p (-x) where
  le := by show |(-t.exact)| ≤ _; rw [abs_neg]; exact h.le
  near k hk := by
    have := h.near k hk
    refine ⟨by show |(-t.exact)| ≤ _; rw [abs_neg]; exact h.le, ?_⟩
    show |(-x.val) - -t.exact| ≤ _
    rw [show -x.val - -t.exact = -(x.val - t.exact) by ring, abs_neg]
    exact this.2
  ratio k hk hs := (h.ratio k hk (by rwa [show (-t).exact = -t.exact from rfl, abs_neg] at hs)).neg
  int hw := ⟨by obtain ⟨a, ha⟩ := (h.int hw).1; exact ⟨-a, by show -t.exact = _; rw [ha]; push_cast; rfl⟩, (h.int hw).2⟩
  eq hw hs := by show -x.val = -t.exact; rw [h.eq hw hs]

theorem Est.Holds.add {x y : Fl p} {s t : Est} (h : s.Holds p x) (h' : t.Holds p y) : (s + t).Holds p (x + y) where
  le := (abs_add_le _ _).trans (add_le_add h.le h'.le)
  near k hk := by
    obtain ⟨i, j, hi, hj, rfl⟩ := oneMore_some hk
    exact (((h.near i hi).mono (le_max_left i j)).add ((h'.near j hj).mono (le_max_right i j))).rnd
  ratio k hk hs := by
    obtain ⟨i, j, hi, hj, rfl⟩ := oneMore_some hk
    have hs : s.size + t.size = |s.exact + t.exact| := hs
    have a := abs_add_le s.exact t.exact
    have b := h.le
    have c := h'.le
    refine (Ratio.add ((h.ratio i hi ?_).mono (le_max_left i j)) ((h'.ratio j hj ?_).mono (le_max_right i j)) ?_).rnd
      (Nat.pos_of_neZero p)
    all_goals linarith
  int hw := by
    obtain ⟨a, b⟩ := Bool.and_eq_true_iff.1 hw
    exact ⟨(h.int a).1.add (h'.int b).1, (h.int a).2.add (h'.int b).2⟩
  eq hw hs := by
    obtain ⟨a, b⟩ := Bool.and_eq_true_iff.1 hw
    have hs : s.size + t.size ≤ 2 ^ p := hs
    have hle : |s.exact + t.exact| ≤ s.size + t.size := (abs_add_le _ _).trans (add_le_add h.le h'.le)
    show rnd p (x.val + y.val) = s.exact + t.exact
    rw [h.eq a (by linarith [(abs_nonneg _).trans h'.le]), h'.eq b (by linarith [(abs_nonneg _).trans h.le])]
    exact rnd_isInt ((h.int a).1.add (h'.int b).1) (hle.trans hs)

theorem Est.Holds.sub {x y : Fl p} {s t : Est} (h : s.Holds p x) (h' : t.Holds p y) : (s - t).Holds p (x - y) := by
  have := h.add h'.neg
  have e1 : x + -y = x - y := Fl.ext' (by show rnd p (x.val + -y.val) = rnd p (x.val - y.val); rw [sub_eq_add_neg])
  have e2 : s + -t = s - t := by
    show Est.mk (s.exact + -t.exact) _ _ _ = Est.mk (s.exact - t.exact) _ _ _
    rw [← sub_eq_add_neg]; rfl
  rwa [e1, e2] at this

theorem both_some {a b : Option Nat} {k : Nat} (h : Est.both a b = some k) : ∃ i j, a = some i ∧ b = some j ∧ k = i + j := by
  match a, b with
  | some i, some j => exact ⟨i, j, rfl, rfl, (Option.some.inj h).symm⟩
  | none, _ => cases h
  | some _, none => cases h

theorem Est.Holds.ratio_mul {x y : Fl p} {s t : Est} (h : s.Holds p x) (h' : t.Holds p y) {i j : Nat} (hi : s.steps = some i)
    (hj : t.steps = some j) (hs : s.size * t.size = |s.exact * t.exact|) : Ratio p (i + j) (x.val * y.val) (s.exact * t.exact) := by
  have zero : ∀ {x : Fl p} {s : Est} {i : Nat}, s.Holds p x → s.steps = some i → s.size = 0 → x.val = 0 ∧ s.exact = 0 := by
    intro x s i h hi h0
    have e : s.exact = 0 := abs_nonpos_iff.1 (by have := h.le; rwa [h0] at this)
    have := (h.near i hi).2
    rw [h0, e, mul_zero, sub_zero] at this
    exact ⟨abs_nonpos_iff.1 this, e⟩
  by_cases s0 : s.size = 0
  · obtain ⟨a, b⟩ := zero h hi s0
    have := Ratio.refl (p := p) (i + j) 0
    simpa [a, b] using this
  by_cases t0 : t.size = 0
  · obtain ⟨a, b⟩ := zero h' hj t0
    have := Ratio.refl (p := p) (i + j) 0
    simpa [a, b] using this
  have sp : 0 < s.size := lt_of_le_of_ne ((abs_nonneg _).trans h.le) (Ne.symm s0)
  have tp : 0 < t.size := lt_of_le_of_ne ((abs_nonneg _).trans h'.le) (Ne.symm t0)
  rw [abs_mul] at hs
  refine (h.ratio i hi ?_).mul (h'.ratio j hj ?_)
  · by_contra hne
    have hlt : |s.exact| < s.size := lt_of_le_of_ne h.le (Ne.symm hne)
    have : |s.exact| * |t.exact| < s.size * t.size := mul_lt_mul hlt h'.le (abs_pos.2 fun e => ?_) sp.le
    · linarith
    · rw [e, abs_zero, mul_zero] at hs
      exact (mul_pos sp tp).ne' hs
  · by_contra hne
    have hlt : |t.exact| < t.size := lt_of_le_of_ne h'.le (Ne.symm hne)
    have : |s.exact| * |t.exact| < s.size * t.size := mul_lt_mul' h.le hlt (abs_nonneg _) sp
    linarith

theorem Est.Holds.mul {x y : Fl p} {s t : Est} (h : s.Holds p x) (h' : t.Holds p y) : (s * t).Holds p (x * y) where
  le := abs_mul_le' h.le h'.le
  near k hk := by
    obtain ⟨i, j, hi, hj, rfl⟩ := oneMore_some hk
    exact ((h.near i hi).mul (h'.near j hj)).rnd
  ratio k hk hs := by
    obtain ⟨i, j, hi, hj, rfl⟩ := oneMore_some hk
    exact (h.ratio_mul h' hi hj hs).rnd (Nat.pos_of_neZero p)
  int hw := by
    obtain ⟨a, b⟩ := Bool.and_eq_true_iff.1 hw
    exact ⟨(h.int a).1.mul (h'.int b).1, (h.int a).2.mul (h'.int b).2⟩
  eq hw hs := by
    obtain ⟨a, b⟩ := Bool.and_eq_true_iff.1 hw
    have ex : Exact p x (s.exact, s.size) := ⟨(h.int a).1, (h.int a).2, h.le, h.eq a⟩
    have ey : Exact p y (t.exact, t.size) := ⟨(h'.int b).1, (h'.int b).2, h'.le, h'.eq b⟩
    exact (Closed.mul ex ey).eq hs

theorem Est.Holds.mulAdd {x y z : Fl p} {s t w : Est} (h : s.Holds p x) (h' : t.Holds p y) (h'' : w.Holds p z) :
    (Verif.mulAdd s t w).Holds p (Verif.mulAdd x y z) where
  le := (abs_add_le _ _).trans (add_le_add (abs_mul_le' h.le h'.le) h''.le)
  near k hk := by
    obtain ⟨i, j, hi, hj, rfl⟩ := oneMore_some hk
    obtain ⟨i, i', hi₀, hi', rfl⟩ := both_some hi
    exact ((((h.near i hi₀).mul (h'.near i' hi')).mono (le_max_left _ j)).add ((h''.near j hj).mono (le_max_right _ j))).rnd
  ratio k hk hs := by
    obtain ⟨i, j, hi, hj, rfl⟩ := oneMore_some hk
    obtain ⟨i, i', hi₀, hi', rfl⟩ := both_some hi
    have hs : s.size * t.size + w.size = |s.exact * t.exact + w.exact| := hs
    have a := abs_add_le (s.exact * t.exact) w.exact
    have b := abs_mul_le' h.le h'.le
    have c := h''.le
    refine (Ratio.add ((h.ratio_mul h' hi₀ hi' ?_).mono (le_max_left _ j)) ((h''.ratio j hj ?_).mono (le_max_right _ j)) ?_).rnd
      (Nat.pos_of_neZero p)
    all_goals linarith
  int hw := by
    obtain ⟨ab, c⟩ := Bool.and_eq_true_iff.1 hw
    obtain ⟨a, b⟩ := Bool.and_eq_true_iff.1 ab
    exact ⟨((h.int a).1.mul (h'.int b).1).add (h''.int c).1, ((h.int a).2.mul (h'.int b).2).add (h''.int c).2⟩
  eq hw hs := by
    obtain ⟨ab, c⟩ := Bool.and_eq_true_iff.1 hw
    obtain ⟨a, b⟩ := Bool.and_eq_true_iff.1 ab
    have ex : Exact p x (s.exact, s.size) := ⟨(h.int a).1, (h.int a).2, h.le, h.eq a⟩
    have ey : Exact p y (t.exact, t.size) := ⟨(h'.int b).1, (h'.int b).2, h'.le, h'.eq b⟩
    have ez : Exact p z (w.exact, w.size) := ⟨(h''.int c).1, (h''.int c).2, h''.le, h''.eq c⟩
    exact (Closed.mulAdd ex ey ez).eq hs

theorem Est.Holds.div {x y : Fl p} {s t : Est} (h : s.Holds p x) (h' : t.Holds p y) : (s / t).Holds p (x / y) where
  le := by
    show |s.exact / t.exact| ≤ s.size / |t.exact|
    rw [abs_div]
    exact div_le_div_of_nonneg_right h.le (abs_nonneg _)
  near k hk := by
    change (if t.exact ≠ 0 ∧ t.size = |t.exact| then _ else _) = _ at hk
    split at hk
    · rename_i hc
      obtain ⟨i, j, hi, hj, rfl⟩ := oneMore_some hk
      exact ((h.near i hi).div (h'.ratio j hj hc.2) hc.1).rnd
    · cases hk
  ratio k hk hs := by
    change (if t.exact ≠ 0 ∧ t.size = |t.exact| then _ else _) = _ at hk
    split at hk
    · rename_i hc
      obtain ⟨i, j, hi, hj, rfl⟩ := oneMore_some hk
      have hs : s.size / |t.exact| = |s.exact / t.exact| := hs
      rw [abs_div, div_left_inj' (abs_ne_zero.2 hc.1)] at hs
      have := (h.ratio i hi hs).mul (h'.ratio j hj hc.2).inv
      exact this.rnd (Nat.pos_of_neZero p)
    · cases hk
  int hw := by cases hw
  eq hw := by cases hw

end

end Verif
