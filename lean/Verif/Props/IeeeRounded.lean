import Verif.Lemmas.IeeeNearest
import Verif.Props.Simd

/-!
# C71 Elementwise float arithmetic is correctly rounded

`Ieee p emax` is the model of `f32` (24, 127) and `f64` (53, 1023).
-/

namespace Verif

variable {p emax : Nat} [NeZero p] [NeZero emax]

/-- **C71**: what is correctly rounded is determined, up to the sign of a zero. -/
theorem C71_unique {x y : Ieee p emax} {v : ℚ} (hx : CorrectlyRounded x v) (hy : CorrectlyRounded y v) :
    (x.Finite ↔ y.Finite) ∧ x.val = y.val :=
  correctlyRounded_unique hx hy

example := C71_unique (Ieee.div_correct (x := (Ieee.ofRat 1 : F32)) (y := Ieee.ofRat 3) (by decide +kernel) (by decide +kernel) (by decide +kernel))
  (Ieee.div_correct (x := (Ieee.ofRat 1 : F32)) (y := Ieee.ofRat 3) (by decide +kernel) (by decide +kernel) (by decide +kernel))

/-- **C71**: the four operators on finite numbers, with a divisor that is not zero. -/
theorem C71_ops {x y : Ieee p emax} (hx : x.Finite) (hy : y.Finite) :
    CorrectlyRounded (x + y) (x.val + y.val) ∧ CorrectlyRounded (x - y) (x.val - y.val) ∧
      CorrectlyRounded (x * y) (x.val * y.val) ∧ (y.val ≠ 0 → CorrectlyRounded (x / y) (x.val / y.val)) :=
  ⟨Ieee.add_correct hx hy, Ieee.sub_correct hx hy, Ieee.mul_correct hx hy, Ieee.div_correct hx hy⟩

example := C71_ops (x := (Ieee.ofRat 1 : F32)) (y := Ieee.ofRat 3) (by decide +kernel) (by decide +kernel)

/-- **C71**: `a op b`. `op` is any of `+`, `-`, `*`, `/`, `exact` the same on numbers, `dom` says which pairs of elements are meant
(`C71_ops`). -/
theorem C71_elementwise {op : Ieee p emax → Ieee p emax → Ieee p emax} {exact : ℚ → ℚ → ℚ} {dom : Ieee p emax → Ieee p emax → Prop}
    (hop : ∀ x y, dom x y → CorrectlyRounded (op x y) (exact x.val y.val)) (dflt : Ieee p emax) {a b : Arr (Ieee p emax)}
    {s t r : List Nat} {fa fb : List Nat → Ieee p emax} (ha : a.Denotes s fa) (hb : b.Denotes t fb) (hc : Compatible s t)
    (hj : IsJoint s t r) (hd : r.length ≤ 32) :
    ∃ c fc, a.binOp (fun x y => .ok (op x y)) (portableKernels fun x y => .ok (op x y)) dflt b = .ok c ∧ c.Denotes r fc ∧
      ∀ idx, InB idx r → dom (fa (broadcastIndex s idx)) (fb (broadcastIndex t idx)) →
        CorrectlyRounded (fc idx) (exact (fa (broadcastIndex s idx)).val (fb (broadcastIndex t idx)).val) := by
  obtain ⟨c, h1, h2⟩ := C05_elementwise (fun x y => .ok (op x y)) dflt ha hb hc hj hd (fun _ _ => rfl)
  exact ⟨c, _, h1, h2, fun idx _ h => hop _ _ h⟩

example := C71_elementwise (op := fun x y : F32 => x + y) (dom := fun x y => x.Finite ∧ y.Finite) (fun _ _ h => (C71_ops h.1 h.2).1) 0
  (denotes_fromContiguous (s := [2, 3]) (f := fun _ => Ieee.ofRat 7)) (denotes_fromContiguous (s := [3]) (f := fun _ => Ieee.ofRat 7))
  (r := [2, 3]) (compatible_of_ok rfl) (joint_of_ok rfl) (by decide)

/-- **C71** (part): the same with the vector kernels. Missing: empty results of arrays that were
not reached without `broadcast_to` (as in C49). -/
theorem C71_elementwise_simd_partial {op : Ieee p emax → Ieee p emax → Ieee p emax} {exact : ℚ → ℚ → ℚ}
    {dom : Ieee p emax → Ieee p emax → Prop} (hop : ∀ x y, dom x y → CorrectlyRounded (op x y) (exact x.val y.val)) (L : Nat)
    (dflt : Ieee p emax) {a b : Arr (Ieee p emax)} {s t r : List Nat} {fa fb : List Nat → Ieee p emax} (ha : a.Denotes s fa)
    (hb : b.Denotes t fb) (hc : Compatible s t) (hj : IsJoint s t r) (hd : r.length ≤ 32)
    (hn : numel r ≠ 0 ∨ Reached a ∧ Reached b) :
    ∃ c fc, a.binOp (fun x y => .ok (op x y)) (simdKernels op L) dflt b = .ok c ∧ c.Denotes r fc ∧
      ∀ idx, InB idx r → dom (fa (broadcastIndex s idx)) (fb (broadcastIndex t idx)) →
        CorrectlyRounded (fc idx) (exact (fa (broadcastIndex s idx)).val (fb (broadcastIndex t idx)).val) := by
  rw [C49_binary_partial op L dflt ha hb hc hj hd hn]
  exact C71_elementwise hop dflt ha hb hc hj hd

example := C71_elementwise_simd_partial (op := fun x y : F32 => x + y) (dom := fun x y => x.Finite ∧ y.Finite)
  (fun _ _ h => (C71_ops h.1 h.2).1) 4 0 (denotes_fromContiguous (s := [2, 3]) (f := fun _ => Ieee.ofRat 7))
  (denotes_fromContiguous (s := [3]) (f := fun _ => Ieee.ofRat 7)) (r := [2, 3]) (compatible_of_ok rfl) (joint_of_ok rfl) (by decide)
  (.inl (by decide))

/-- **C71**: `a op s` with a scalar. -/
theorem C71_scalar {op : Ieee p emax → Ieee p emax → Ieee p emax} {exact : ℚ → ℚ → ℚ} {dom : Ieee p emax → Ieee p emax → Prop}
    (hop : ∀ x y, dom x y → CorrectlyRounded (op x y) (exact x.val y.val)) (dflt v : Ieee p emax) {a : Arr (Ieee p emax)}
    {s : List Nat} {fa : List Nat → Ieee p emax} (ha : a.Denotes s fa) (hd : s.length ≤ 32) :
    ∃ c fc, a.binOpScalar (fun x y => .ok (op x y)) (portableKernels fun x y => .ok (op x y)) dflt v = .ok c ∧ c.Denotes s fc ∧
      ∀ idx, InB idx s → dom (fa idx) v → CorrectlyRounded (fc idx) (exact (fa idx).val v.val) := by
  obtain ⟨c, h1, h2⟩ := C06_scalar (fun x y => .ok (op x y)) dflt v ha hd (fun _ _ => rfl)
  exact ⟨c, _, h1, h2, fun idx _ h => hop _ _ h⟩

example := C71_scalar (op := fun x y : F32 => x + y) (dom := fun x y => x.Finite ∧ y.Finite) (fun _ _ h => (C71_ops h.1 h.2).1) 0
  (Ieee.ofRat 3) (denotes_fromContiguous (s := [2, 3]) (f := fun _ => Ieee.ofRat 7)) (by decide)

/-- **C71**: a result that is a number of the format is not rounded at all. -/
theorem C71_exact {x : Ieee p emax} {v : ℚ} (hx : CorrectlyRounded x v) (hv : ∃ y : Ieee p emax, y.Finite ∧ y.val = v) :
    x.Finite ∧ x.val = v := by
  obtain ⟨y, _, rfl⟩ := hv
  exact correctlyRounded_exact hx (Nat.pos_of_neZero p) (Nat.pos_of_neZero emax) (Ieee.isNumber_val y)

example := C71_exact (Ieee.add_correct (x := (Ieee.ofRat 7 : F32)) (y := Ieee.ofRat 2) (by decide +kernel) (by decide +kernel))
  ⟨Ieee.ofRat 9, by decide +kernel, by decide +kernel⟩

/-- **C71**: `a - b` is exact where the elements are at most a factor two apart. -/
theorem C71_sub_exact (dflt : Ieee p emax) {a b : Arr (Ieee p emax)} {s t r : List Nat} {fa fb : List Nat → Ieee p emax}
    (ha : a.Denotes s fa) (hb : b.Denotes t fb) (hc : Compatible s t) (hj : IsJoint s t r) (hd : r.length ≤ 32) :
    ∃ c fc, a.binOp (fun x y => .ok (x - y)) (portableKernels fun x y => .ok (x - y)) dflt b = .ok c ∧ c.Denotes r fc ∧
      ∀ idx, InB idx r → ∀ x y, fa (broadcastIndex s idx) = x → fb (broadcastIndex t idx) = y → x.Finite → y.Finite →
        0 < y.val → y.val / 2 ≤ x.val → x.val ≤ 2 * y.val → (fc idx).Finite ∧ (fc idx).val = x.val - y.val := by
  obtain ⟨c, fc, h1, h2, h3⟩ := C71_elementwise (op := fun x y => x - y) (exact := fun x y => x - y)
    (dom := fun x y => x.Finite ∧ y.Finite) (fun x y h => Ieee.sub_correct h.1 h.2) dflt ha hb hc hj hd
  refine ⟨c, fc, h1, h2, fun idx hi x y ex ey hx hy h0 hl hu => ?_⟩
  subst ex; subst ey
  refine correctlyRounded_exact (h3 idx hi ⟨hx, hy⟩) (Nat.pos_of_neZero p) (Nat.pos_of_neZero emax) ?_
  generalize fa (broadcastIndex s idx) = x at *
  generalize fb (broadcastIndex t idx) = y at *
  rcases le_total y.val x.val with h | h
  · exact isNumber_sub (Nat.pos_of_neZero p) (Ieee.isNumber_val x) (Ieee.isNumber_val y) h0 h hu
  · rw [← neg_sub]
    exact Ieee.isNumber_neg (isNumber_sub (Nat.pos_of_neZero p) (Ieee.isNumber_val y) (Ieee.isNumber_val x) (by linarith) h (by linarith))

example := C71_sub_exact (0 : F32) (denotes_fromContiguous (s := [2, 3]) (f := fun _ => Ieee.ofRat 7))
  (denotes_fromContiguous (s := [3]) (f := fun _ => Ieee.ofRat 5)) (r := [2, 3]) (compatible_of_ok rfl) (joint_of_ok rfl) (by decide)

/-- **C71**: the entries of `a - b` that are zero are those where the elements are equal: differences do not underflow. -/
theorem C71_sub_zero (dflt : Ieee p emax) {a b : Arr (Ieee p emax)} {s t r : List Nat} {fa fb : List Nat → Ieee p emax}
    (ha : a.Denotes s fa) (hb : b.Denotes t fb) (hc : Compatible s t) (hj : IsJoint s t r) (hd : r.length ≤ 32) :
    ∃ c fc, a.binOp (fun x y => .ok (x - y)) (portableKernels fun x y => .ok (x - y)) dflt b = .ok c ∧ c.Denotes r fc ∧
      ∀ idx, InB idx r → ∀ x y, fa (broadcastIndex s idx) = x → fb (broadcastIndex t idx) = y → x.Finite → y.Finite →
        ((fc idx).Finite ∧ (fc idx).val = 0 ↔ x.val = y.val) := by
  obtain ⟨c, fc, h1, h2, h3⟩ := C71_elementwise (op := fun x y => x - y) (exact := fun x y => x - y)
    (dom := fun x y => x.Finite ∧ y.Finite) (fun x y h => Ieee.sub_correct h.1 h.2) dflt ha hb hc hj hd
  refine ⟨c, fc, h1, h2, fun idx hi x y ex ey hx hy => ?_⟩
  subst ex; subst ey
  have hcr := h3 idx hi ⟨hx, hy⟩
  generalize fa (broadcastIndex s idx) = x at *
  generalize fb (broadcastIndex t idx) = y at *
  generalize fc idx = z at *
  have hp := Nat.pos_of_neZero p
  have he := Nat.pos_of_neZero emax
  constructor
  · intro ⟨hz, hz0⟩
    by_contra hne
    have hv : x.val - y.val ≠ 0 := sub_ne_zero.2 hne
    have hg : OnGrid (-tiny p emax) (x.val - y.val) := by
      rw [sub_eq_add_neg]; exact (Ieee.isNumber_val x).grid.add (Ieee.isNumber_val y).grid.neg
    obtain ⟨k, hk⟩ := hg
    rw [neg_neg] at hk
    have hk0 : k ≠ 0 := fun h => hv (by rw [hk, h]; simp)
    have htp : (0 : ℚ) < 2 ^ tiny p emax := zpow_pos (by norm_num) _
    have hnum : IsNumber p emax (2 ^ tiny p emax) := by
      refine ⟨?_, ⟨1, by simp⟩, ?_⟩
      · have := rnd_grid hp (k := 1) (by rw [abs_one]; exact_mod_cast Nat.one_le_two_pow) (tiny p emax)
        simpa using this
      · rw [abs_of_pos htp, ← zpow_natCast]
        refine zpow_lt_zpow_right₀ (by norm_num) ?_
        unfold tiny; push_cast; omega
    unfold CorrectlyRounded at hcr
    split_ifs at hcr
    · have h4 := (hcr.2 (.num (decide (x.val - y.val < 0)) _ htp.le hnum) trivial).1
      have e : (Ieee.num (decide (x.val - y.val < 0)) _ htp.le hnum : Ieee p emax).val =
          Ieee.signed (decide (x.val - y.val < 0)) (2 ^ tiny p emax) := rfl
      rw [e, hz0, sub_zero] at h4
      have hka : (1 : ℚ) ≤ |(k : ℚ)| := by exact_mod_cast Int.one_le_abs hk0
      rcases lt_or_gt_of_ne hv with h | h
      · rw [decide_eq_true h, Ieee.signed, if_pos rfl, abs_of_neg h] at h4
        have hle : x.val - y.val ≤ -2 ^ tiny p emax := by
          have : |x.val - y.val| = |(k : ℚ)| * 2 ^ tiny p emax := by rw [hk, abs_mul, abs_of_pos htp]
          rw [abs_of_neg h] at this
          nlinarith
        rw [abs_of_nonpos (by linarith)] at h4
        linarith
      · rw [decide_eq_false (not_lt.2 h.le), Ieee.signed, if_neg (by simp), abs_of_pos h] at h4
        have hle : 2 ^ tiny p emax ≤ x.val - y.val := by
          have : |x.val - y.val| = |(k : ℚ)| * 2 ^ tiny p emax := by rw [hk, abs_mul, abs_of_pos htp]
          rw [abs_of_pos h] at this
          nlinarith
        rw [abs_of_nonneg (by linarith)] at h4
        linarith
    · rw [hcr] at hz; exact hz
  · intro h
    rw [h, sub_self] at hcr
    exact correctlyRounded_exact hcr hp he Ieee.isNumber_zero

example := C71_sub_zero (0 : F32) (denotes_fromContiguous (s := [2, 3]) (f := fun _ => Ieee.ofRat 7))
  (denotes_fromContiguous (s := [3]) (f := fun _ => Ieee.ofRat 5)) (r := [2, 3]) (compatible_of_ok rfl) (joint_of_ok rfl) (by decide)

/-- Unlike differences, products of numbers other than zero can be zero: `2^-100 * 2^-100` in `f32`. -/
theorem C71_mul_zero_false : ¬ ∀ x y : F32, x.Finite → y.Finite → (x * y).val = 0 → x.val = 0 ∨ y.val = 0 := fun h => by
  have h1 : ((Ieee.ofRat (1 / 2 ^ 100) : F32) * Ieee.ofRat (1 / 2 ^ 100)).val = 0 := by decide +kernel
  have h2 : (Ieee.ofRat (1 / 2 ^ 100) : F32).val ≠ 0 := by decide +kernel
  rcases h _ _ (by decide +kernel) (by decide +kernel) h1 with h | h <;> exact h2 h

/-! `f32`: a tie goes to the even neighbour, `1 / 3` to `11184811 / 2^25`, twice the largest number to infinity, and the difference of
neighbours in the smallest binade is exact. -/

def roundA : Arr F32 := .fromContiguousOwnedBuffer [4] [.ofRat 16777216, .ofRat 16777218, .ofRat 1, .ofRat (2 ^ 127)]
def roundB : Arr F32 := .fromContiguousOwnedBuffer [4] [.ofRat 1, .ofRat 1, .ofRat 3, .ofRat (2 ^ 127)]

example : (do
      let c ← roundA.binOp (fun x y => .ok (x + y)) (simdKernels (fun x y => x + y) 4) 0 roundB
      return c.buf) = .ok [.ofRat 16777216, .ofRat 16777220, .ofRat 4, .inf false] := by decide +kernel
example : (do
      let c ← roundA.binOp (fun x y => .ok (x / y)) (portableKernels fun x y => .ok (x / y)) 0 roundB
      return c.buf.map Ieee.val) = .ok [16777216, 16777218, 11184811 / 33554432, 1] := by decide +kernel
example : roundA.Denotes [4] fun idx => roundA.buf[idx.headD 0]?.getD 0 := by
  have := denotes_fromContiguous (s := [4]) (f := fun idx => roundA.buf[idx.headD 0]?.getD 0)
  exact this
example : (Ieee.ofRat (3 / 2 ^ 149) - Ieee.ofRat (2 / 2 ^ 149) : F32).val = 1 / 2 ^ 149 := by decide +kernel
example : ((Ieee.ofRat (1 / 2 ^ 149) : F32).Finite ∧ (Ieee.ofRat (1 / 2 ^ 149) : F32).val / 2 ≤ (Ieee.ofRat (1 / 2 ^ 149) : F32).val) := by
  decide +kernel

end Verif
