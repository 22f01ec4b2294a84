import Verif.Lemmas.IeeeRound

/-!
# IEEE 754 numbers

The element types `f32` (`p = 24`, `emax = 127`) and `f64` (`p = 53`, `emax = 1023`) of src/util/dtype.rs 113-156 with everything the
arithmetic operators of IEEE 754 prescribe: rounding to nearest-even, subnormal numbers, overflow to infinity, signed zeros, NaN.
Simplification: NaNs are not distinguished (sign and payload).
-/

namespace Verif

/-- A floating-point number: sign and magnitude. -/
inductive Ieee (p emax : Nat) where
  | nan
  | inf (neg : Bool)
  | num (neg : Bool) (mag : ℚ) (nonneg : 0 ≤ mag) (ok : IsNumber p emax mag)
deriving DecidableEq

namespace Ieee

variable {p emax : Nat}

/-- The number with sign `neg` and magnitude `m`. -/
def signed (neg : Bool) (m : ℚ) : ℚ := if neg then -m else m

/-- The number denoted; 0 stands for NaN and the infinities. -/
def val : Ieee p emax → ℚ
  | num s m _ _ => signed s m
  | _ => 0

/-- `is_nan` -/
def IsNaN (x : Ieee p emax) : Prop := x = nan

/-- `is_finite` -/
def Finite : Ieee p emax → Prop
  | num .. => True
  | _ => False

instance : DecidablePred (IsNaN (p := p) (emax := emax)) := fun x => inferInstanceAs (Decidable (x = nan))
instance : DecidablePred (Finite (p := p) (emax := emax))
  | num .. => isTrue trivial
  | nan => isFalse id
  | inf _ => isFalse id

theorem isNumber_zero : IsNumber p emax 0 := ⟨rnd_zero p, onGrid_zero _, by simp⟩

/-- A zero with a sign. -/
def zero (neg : Bool) : Ieee p emax := num neg 0 le_rfl isNumber_zero

/-- `-x`: flips the sign. -/
instance : Neg (Ieee p emax) := ⟨fun
  | nan => nan
  | inf s => inf (!s)
  | num s m h h' => num (!s) m h h'⟩

variable [NeZero p]

/-- Rounding of a number `±|v|` with the sign given. -/
def pack (neg : Bool) (v : ℚ) : Ieee p emax :=
  if h : rndTiny p emax |v| < 2 ^ (emax + 1) then
    num neg (rndTiny p emax |v|) (rndTiny_nonneg (abs_nonneg v))
      ⟨rndTiny_bits (Nat.pos_of_neZero p) _, rndTiny_grid _, by rwa [abs_of_nonneg (rndTiny_nonneg (abs_nonneg v))]⟩
  else inf neg

/-- The result of an addition: `v` is the exact sum; an exact zero is negative only if both summands are. -/
def packSum (bothNeg : Bool) (v : ℚ) : Ieee p emax := if v = 0 then zero bothNeg else pack (decide (v < 0)) v

/-- The float nearest to a number. -/
def ofRat (v : ℚ) : Ieee p emax := pack (decide (v < 0)) v

instance : Add (Ieee p emax) := ⟨fun
  | nan, _ => nan
  | inf _, nan => nan
  | inf s, inf t => if s = t then inf s else nan
  | inf s, num .. => inf s
  | num .., nan => nan
  | num .., inf t => inf t
  | num s x _ _, num t y _ _ => packSum (s && t) (signed s x + signed t y)⟩

instance : Sub (Ieee p emax) := ⟨fun x y => x + -y⟩

instance : Mul (Ieee p emax) := ⟨fun
  | nan, _ => nan
  | inf _, nan => nan
  | inf s, inf t => inf (s ^^ t)
  | inf s, num t y _ _ => if y = 0 then nan else inf (s ^^ t)
  | num .., nan => nan
  | num s x _ _, inf t => if x = 0 then nan else inf (s ^^ t)
  | num s x _ _, num t y _ _ => pack (s ^^ t) (x * y)⟩

instance : Div (Ieee p emax) := ⟨fun
  | nan, _ => nan
  | inf _, nan => nan
  | inf _, inf _ => nan
  | inf s, num t _ _ _ => inf (s ^^ t)
  | num .., nan => nan
  | num s _ _ _, inf t => zero (s ^^ t)
  | num s x _ _, num t y _ _ => if y = 0 then (if x = 0 then nan else inf (s ^^ t)) else pack (s ^^ t) (x / y)⟩

/-- `f32::mul_add`, `vfmaq_f32`: rounded once. -/
instance : MulAdd (Ieee p emax) := ⟨fun x y z => match x, y, z with
  | num s x _ _, num t y _ _, num w z _ _ => packSum ((s ^^ t) && w) (signed s x * signed t y + signed w z)
  | num .., num .., inf w => inf w
  | num .., num .., nan => nan
  | x, y, z => x * y + z⟩

instance : Zero (Ieee p emax) := ⟨zero false⟩

theorem isNumber_one [NeZero emax] : IsNumber p emax 1 where
  bits := by
    have := rnd_nat (Nat.pos_of_neZero p) (k := 1) (Nat.one_le_two_pow)
    simpa using this
  grid := (onGrid_int ⟨1, by simp⟩).mono (by
    have := Nat.pos_of_neZero p
    have := Nat.pos_of_neZero emax
    unfold tiny; omega)
  range := by
    rw [abs_one]
    exact one_lt_pow₀ (by norm_num) (by omega)

instance [NeZero emax] : One (Ieee p emax) := ⟨num false 1 (by norm_num) isNumber_one⟩

end Ieee

/-- `f32`, `f64` -/
abbrev F32 := Ieee 24 127
abbrev F64 := Ieee 53 1023

end Verif
