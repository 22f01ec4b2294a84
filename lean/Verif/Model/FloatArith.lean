import Verif.Model.SumOfProducts
import Verif.Lemmas.Rounding

/-!
# Floating-point numbers with rounding

The element types `f32` (`p = 24`) and `f64` (`p = 53`) of src/util/dtype.rs 113-156, as far as rounding goes: the numbers with `p`
significant bits, every operation followed by rounding to nearest-even. Simplification: the exponent range is unbounded, so
there is no overflow to infinity and no loss in subnormal numbers; there is one zero and no NaN (`Model/Floats.lean` has NaN).
-/

namespace Verif

theorem rnd_mem_grid {p : Nat} (x : ℚ) : |roundEven (x / ulp p x)| ≤ 2 ^ p := by
  have h0 : |x / ulp p x| ≤ (2 : ℚ) ^ p := by
    have hu := ulp_pos p x
    rw [abs_div, abs_of_pos hu, div_le_iff₀ hu]
    unfold ulp
    rw [← zpow_natCast, ← zpow_add₀ (by norm_num), show (p : ℤ) + (Int.log 2 |x| + 1 - p) = Int.log 2 |x| + 1 by ring]
    exact lt_zpow_log.le
  have h := abs_le.1 h0
  rw [abs_le]
  constructor
  · exact le_roundEven (by push_cast; exact h.1)
  · exact roundEven_le (by push_cast; exact h.2)

/-- Rounded numbers stay as they are. -/
theorem rnd_rnd {p : Nat} (hp : 0 < p) (x : ℚ) : rnd p (rnd p x) = rnd p x := by
  have h : rnd p x = ((roundEven (x / ulp p x) : ℤ) : ℚ) * 2 ^ (Int.log 2 |x| + 1 - (p : ℤ)) := rfl
  rw [h]
  exact rnd_grid hp (rnd_mem_grid x) _

/-- The numbers with `p` significant bits. -/
structure Fl (p : Nat) where
  val : ℚ
  isFloat : rnd p val = val

namespace Fl

variable {p : Nat}

theorem ext' {x y : Fl p} (h : x.val = y.val) : x = y := by
  cases x; cases y; cases h; rfl

instance : DecidableEq (Fl p) := fun x y => decidable_of_iff (x.val = y.val) ⟨ext', fun h => by rw [h]⟩

variable [NeZero p]

/-- The float nearest to a number. -/
def round (x : ℚ) : Fl p := ⟨rnd p x, rnd_rnd (Nat.pos_of_neZero p) x⟩

instance : Zero (Fl p) := ⟨⟨0, rnd_zero p⟩⟩
instance : One (Fl p) := ⟨⟨1, by
  have := rnd_nat (Nat.pos_of_neZero p) (k := 1) (Nat.one_le_two_pow)
  simpa using this⟩⟩
instance : Add (Fl p) := ⟨fun x y => round (x.val + y.val)⟩
instance : Sub (Fl p) := ⟨fun x y => round (x.val - y.val)⟩
instance : Mul (Fl p) := ⟨fun x y => round (x.val * y.val)⟩
/-- Division by zero gives 0 here (an infinity or NaN in the code). -/
instance : Div (Fl p) := ⟨fun x y => round (x.val / y.val)⟩
instance : Neg (Fl p) := ⟨fun x => ⟨-x.val, by rw [rnd_neg, x.isFloat]⟩⟩
/-- `f32::mul_add`, `vfmaq_f32`: rounded once. -/
instance : MulAdd (Fl p) := ⟨fun x y z => round (x.val * y.val + z.val)⟩

omit [NeZero p] in
theorem val_zero : (0 : Fl p).val = 0 := rfl
theorem val_one : (1 : Fl p).val = 1 := rfl
theorem val_add (x y : Fl p) : (x + y).val = rnd p (x.val + y.val) := rfl
theorem val_sub (x y : Fl p) : (x - y).val = rnd p (x.val - y.val) := rfl
theorem val_mul (x y : Fl p) : (x * y).val = rnd p (x.val * y.val) := rfl
theorem val_div (x y : Fl p) : (x / y).val = rnd p (x.val / y.val) := rfl
omit [NeZero p] in
theorem val_neg (x : Fl p) : (-x).val = -x.val := rfl
theorem val_mulAdd (x y z : Fl p) : (mulAdd x y z).val = rnd p (x.val * y.val + z.val) := rfl

end Fl

end Verif
