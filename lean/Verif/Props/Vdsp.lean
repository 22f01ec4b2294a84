import Verif.Props.Simd
import Verif.Lemmas.Vdsp

/-!
# C57 The vDSP kernels agree with the portable kernels

Builds for Apple hardware replace kernels for `f32` and `f64` (and addition of `i32` and `u32`) by routines of the Accelerate
framework, which are taken by their documentation.
-/

namespace Verif

variable {α : Type}

/-! ## elementwise operators -/

/-- **C57, addition and multiplication** (any commutative operation): `a op b` is the same array with `vDSP_vadd`,
`vDSP_vsadd` and with the portable loops, for all layouts and compatible shapes, empty ones included. -/
theorem C57_add {f : α → α → α} (hf : ∀ x y, f x y = f y x) (dflt : α) {a b : Arr α} {s t r : List Nat}
    {fa fb : List Nat → α} (ha : a.Denotes s fa) (hb : b.Denotes t fb) (hc : Compatible s t) (hj : IsJoint s t r)
    (hd : r.length ≤ 32) :
    a.binOp (fun x y => .ok (f x y)) (vdspAddKernels f) dflt b =
      a.binOp (fun x y => .ok (f x y)) (portableKernels fun x y => .ok (f x y)) dflt b := by
  rw [binOp_eq (vdspAdd_correct hf) dflt ha hb hc hj hd trivial, binOp_eq (portable_correct _) dflt ha hb hc hj hd trivial]

example := C57_add Nat.add_comm 0 (r := [3, 2]) demoT_denotes (denotes_fromContiguous (s := [2]) (f := fun i => i.getD 0 0))
  (compatible_of_ok rfl) (joint_of_ok rfl) (by decide)

/-- **C57, subtraction** (`vDSP_vsub` takes its operands in the other order): any operation. -/
theorem C57_sub (f : α → α → α) (dflt : α) {a b : Arr α} {s t r : List Nat}
    {fa fb : List Nat → α} (ha : a.Denotes s fa) (hb : b.Denotes t fb) (hc : Compatible s t) (hj : IsJoint s t r)
    (hd : r.length ≤ 32) :
    a.binOp (fun x y => .ok (f x y)) (vdspSubKernels f) dflt b =
      a.binOp (fun x y => .ok (f x y)) (portableKernels fun x y => .ok (f x y)) dflt b := by
  rw [binOp_eq (vdspSub_correct f) dflt ha hb hc hj hd trivial, binOp_eq (portable_correct _) dflt ha hb hc hj hd trivial]

example := C57_sub (fun x y => x - y) 0 (r := [3, 2]) demoT_denotes (denotes_fromContiguous (s := [2]) (f := fun i => i.getD 0 0))
  (compatible_of_ok rfl) (joint_of_ok rfl) (by decide)

/-- **C57, division**: any operation. -/
theorem C57_div (f : α → α → α) (dflt : α) {a b : Arr α} {s t r : List Nat}
    {fa fb : List Nat → α} (ha : a.Denotes s fa) (hb : b.Denotes t fb) (hc : Compatible s t) (hj : IsJoint s t r)
    (hd : r.length ≤ 32) :
    a.binOp (fun x y => .ok (f x y)) (vdspDivKernels f) dflt b =
      a.binOp (fun x y => .ok (f x y)) (portableKernels fun x y => .ok (f x y)) dflt b := by
  rw [binOp_eq (vdspDiv_correct f) dflt ha hb hc hj hd trivial, binOp_eq (portable_correct _) dflt ha hb hc hj hd trivial]

example := C57_div (fun x y => x / y) 0 (r := [3, 2]) demoT_denotes (denotes_fromContiguous (s := [2]) (f := fun i => i.getD 0 0 + 1))
  (compatible_of_ok rfl) (joint_of_ok rfl) (by decide)

/-- **C57, array-scalar operators.** -/
theorem C57_scalar (f g : α → α → α) (hf : ∀ x y, f x y = f y x) (dflt : α) {a : Arr α} {s : List Nat}
    {fa : List Nat → α} (v : α) (ha : a.Denotes s fa) (hd : s.length ≤ 32) :
    a.binOpScalar (fun x y => .ok (f x y)) (vdspAddKernels f) dflt v =
      a.binOpScalar (fun x y => .ok (f x y)) (portableKernels fun x y => .ok (f x y)) dflt v ∧
    a.binOpScalar (fun x y => .ok (g x y)) (vdspSubKernels g) dflt v =
      a.binOpScalar (fun x y => .ok (g x y)) (portableKernels fun x y => .ok (g x y)) dflt v ∧
    a.binOpScalar (fun x y => .ok (g x y)) (vdspDivKernels g) dflt v =
      a.binOpScalar (fun x y => .ok (g x y)) (portableKernels fun x y => .ok (g x y)) dflt v := by
  refine ⟨?_, ?_, ?_⟩
  · rw [binOpScalar_eq (vdspAdd_correct hf) dflt ha v hd trivial, binOpScalar_eq (portable_correct _) dflt ha v hd trivial]
  · rw [binOpScalar_eq (vdspSub_correct g) dflt ha v hd trivial, binOpScalar_eq (portable_correct _) dflt ha v hd trivial]
  · rw [binOpScalar_eq (vdspDiv_correct g) dflt ha v hd trivial, binOpScalar_eq (portable_correct _) dflt ha v hd trivial]

example := C57_scalar (fun x y => x + y) (fun x y => x - y) Nat.add_comm 0 5 demoT_denotes (by decide)

/-- **C57, compound assignment** to a contiguous array, right-hand side stored elsewhere. Missing: overlapping operands,
where the vDSP documentation gives no answer, and the targets excluded from C08. -/
theorem C57_assign_partial (f g : α → α → α) (hf : ∀ x y, f x y = f y x) {o a b : Arr α} {t : List Nat}
    {fa fb : List Nat → α} (ho : Fresh o)
    (hh : History NoBroadcast o a) (hc : a.isContiguous = true) (hw : a.flags.writeable = true)
    (ha : a.Denotes a.shape fa) (hb : b.Denotes t fb) (hbt : BroadcastsTo t a.shape) (hd : a.shape.length ≤ 32) :
    (∃ buf', a.opAssign (fun x y => .ok (f x y)) (vdspAddKernels f) false b = .ok buf' ∧
      UpdatedTo a buf' fun idx => f (fa idx) (fb (broadcastIndex t idx))) ∧
    (∃ buf', a.opAssign (fun x y => .ok (g x y)) (vdspSubKernels g) false b = .ok buf' ∧
      UpdatedTo a buf' fun idx => g (fa idx) (fb (broadcastIndex t idx))) ∧
    ∃ buf', a.opAssign (fun x y => .ok (g x y)) (vdspDivKernels g) false b = .ok buf' ∧
      UpdatedTo a buf' fun idx => g (fa idx) (fb (broadcastIndex t idx)) :=
  ⟨assign_of_correct (vdspAdd_correct hf) ho hh hc hw ha hb hbt hd trivial fun _ _ => rfl,
    assign_of_correct (vdspSub_correct g) ho hh hc hw ha hb hbt hd trivial fun _ _ => rfl,
    assign_of_correct (vdspDiv_correct g) ho hh hc hw ha hb hbt hd trivial fun _ _ => rfl⟩

example := C57_assign_partial (fun x y => x + y) (fun x y => x - y) Nat.add_comm demo_fresh .refl rfl rfl demo_denotes
  (denotes_fromContiguous (s := [3]) (f := fun i => i.getD 0 0)) (by decide) (by decide)

/-- a column minus a row: both operands strided or constant in turn -/
example : (do
      let v ← (Arr.fromContiguousOwnedBuffer [3, 2] ([1, 2, 3, 4, 5, 6] : List Int)).slice [.range 0 3, .at 1]
      let c ← v.binOp (fun x y => .ok (x - y)) (vdspSubKernels fun x y => x - y) 0
        (Arr.fromContiguousOwnedBuffer [3] [10, 20, 30])
      c.flatiter) = .ok [-8, -16, -24] := by decide +kernel
example : (do
      let c ← (Arr.fromContiguousOwnedBuffer [1] ([100] : List Int)).binOp (fun x y => .ok (x + y))
        (vdspAddKernels fun x y => x + y) 0 (Arr.fromContiguousOwnedBuffer [3] [10, 20, 30])
      c.flatiter) = .ok [110, 120, 130] := by decide +kernel

/-! ### addition of 32-bit integers -/

/-- **C57, addition of `i32`.** If no sum leaves the range of the type, both builds give the sums.

Missing (and false, see `C57_i32_false`): sums that overflow. -/
theorem C57_i32_partial {a b : Arr Int} {s t r : List Nat} {fa fb : List Nat → Int} (ha : a.Denotes s fa) (hb : b.Denotes t fb)
    (hc : Compatible s t) (hj : IsJoint s t r) (hd : r.length ≤ 32)
    (hfit : ∀ idx, InB idx r → -2147483648 ≤ fa (broadcastIndex s idx) + fb (broadcastIndex t idx) ∧
      fa (broadcastIndex s idx) + fb (broadcastIndex t idx) < 2147483648) :
    a.binOp (fun x y => .ok (addI32 x y)) (vdspAddKernels addI32) 0 b =
      a.binOp checkedAddI32 (portableKernels checkedAddI32) 0 b := by
  rw [binOp_eq (vdspAdd_correct addI32_comm) 0 ha hb hc hj hd trivial, binOp_eq (portable_correct _) 0 ha hb hc hj hd trivial]
  congr 2
  unfold elements
  apply List.map_congr_left
  intro idx hidx
  have h := hfit idx ((mem_indices ..).1 hidx)
  rw [addI32_of_fits h, checkedAddI32, if_pos h]

example := C57_i32_partial (denotes_fromContiguous (s := [2, 3]) (f := fun _ => 2147483646))
  (denotes_fromContiguous (s := [3]) (f := fun _ => 1)) (r := [2, 3]) (compatible_of_ok rfl) (joint_of_ok rfl) (by decide)
  fun _ _ => by decide

/-- **C57, addition of `u32`**: through `i32`, the sum modulo 2³². -/
theorem C57_u32 (x y : Nat) : addU32 x y = (x + y) % 2 ^ 32 := addU32_eq x y

/-- **C57 is false for sums that overflow**: the portable loop panics (in a debug build), vDSP wraps around. -/
theorem C57_i32_false :
    (Arr.fromContiguousOwnedBuffer [2] ([2147483647, 1] : List Int)).binOp checkedAddI32 (portableKernels checkedAddI32) 0
      (Arr.fromContiguousOwnedBuffer [2] [1, 1]) = .error .overflow ∧
    (do
      let c ← (Arr.fromContiguousOwnedBuffer [2] ([2147483647, 1] : List Int)).binOp (fun x y => .ok (addI32 x y))
        (vdspAddKernels addI32) 0 (Arr.fromContiguousOwnedBuffer [2] [1, 1])
      c.flatiter) = .ok [-2147483648, 2] := by decide +kernel

/-! ## fill -/

/-- **C57, fill**: on every buffer, for every count and stride. -/
theorem C57_fill (v : α) (c : List α) (p ic n : Nat) : vdspVfill v c p ic n = fillUniformStride n c p ic v :=
  vdspVfill_eq ..

example : vdspVfill 9 [0, 0, 0, 0, 0] 1 2 2 = .ok [0, 9, 0, 9, 0] := by decide +kernel

/-! ## reductions -/

/-- **C57, sum** of any array. -/
theorem C57_sum [Add α] [Zero α] (a : Arr α) :
    a.reduceAll (fun v acc => acc + v) 0 (vdspRed (fun v acc => acc + v) 0) = a.sum := by
  rw [vdspRed_eq]; rfl

/-- **C57, max**: `vDSP_maxv` starts from `ninf`, the portable loop from the least finite number `bot`. They agree on non-empty
arrays of numbers that are not below `bot`.

Missing (and false, see `C57_max_false`, `C57_max_empty_false`): -∞ and empty arrays; NaN is not modelled. -/
theorem C57_max_partial [LinearOrder α] {ninf bot : α} (hb : ninf ≤ bot) {a : Arr α} (hn : numel a.shape ≠ 0)
    (h : ∀ x ∈ a.buf, bot ≤ x) :
    a.reduceAll (partialMax ltb) bot (vdspRed (partialMax ltb) ninf) = a.max ltb bot := by
  refine reduceAll_start (fun x hx => ?_) hn
  rw [max_step, max_step, max_eq_left (h x hx), max_eq_left (hb.trans (h x hx))]

example := C57_max_partial (ninf := -1000) (bot := -100) (by decide) (a := Arr.fromContiguousOwnedBuffer [2] ([3, -7] : List Int))
  (by decide) (by decide)

/-- **C57, min.** Missing: +∞ and empty arrays, as for `max`. -/
theorem C57_min_partial [LinearOrder α] {inf top : α} (hb : top ≤ inf) {a : Arr α} (hn : numel a.shape ≠ 0)
    (h : ∀ x ∈ a.buf, x ≤ top) :
    a.reduceAll (partialMin ltb) top (vdspRed (partialMin ltb) inf) = a.min ltb top := by
  refine reduceAll_start (fun x hx => ?_) hn
  rw [min_step, min_step, min_eq_left (h x hx), min_eq_left ((h x hx).trans hb)]

example := C57_min_partial (inf := 1000) (top := 100) (by decide) (a := Arr.fromContiguousOwnedBuffer [2] ([3, -7] : List Int))
  (by decide) (by decide)

/-- **C57, max_magnitude**: any non-empty array, including infinities. Missing: empty arrays, where the results are 0 and `bot`. -/
theorem C57_max_magnitude_partial [LinearOrder α] [Zero α] {abs : α → α} (habs : ∀ x, 0 ≤ abs x) {bot : α} (hb : bot ≤ 0)
    {a : Arr α} (hn : numel a.shape ≠ 0) :
    a.reduceAll (partialMaxMagnitude ltb abs) bot (vdspRed (partialMaxMagnitude ltb abs) 0) = a.maxMagnitude ltb abs bot := by
  refine reduceAll_start (fun x _ => ?_) hn
  rw [maxMag_step, maxMag_step, max_eq_left (habs x), max_eq_left (hb.trans (habs x))]

example := C57_max_magnitude_partial (abs := fun x : Int => |x|) (fun x => abs_nonneg x) (bot := -100) (by decide)
  (a := Arr.fromContiguousOwnedBuffer [2] [3, -7]) (by decide)

/-- **C57, min_magnitude.** Missing: infinities and empty arrays, as for `max`. -/
theorem C57_min_magnitude_partial [LinearOrder α] {abs : α → α} {inf top : α} (hb : top ≤ inf) {a : Arr α}
    (hn : numel a.shape ≠ 0) (h : ∀ x ∈ a.buf, abs x ≤ top) :
    a.reduceAll (partialMinMagnitude ltb abs) top (vdspRed (partialMinMagnitude ltb abs) inf) = a.minMagnitude ltb abs top := by
  refine reduceAll_start (fun x hx => ?_) hn
  rw [minMag_step, minMag_step, min_eq_left (h x hx), min_eq_left ((h x hx).trans hb)]

example := C57_min_magnitude_partial (abs := fun x : Int => |x|) (inf := 1000) (top := 100) (by decide)
  (a := Arr.fromContiguousOwnedBuffer [2] [3, -7]) (by decide) (by decide)

/-- **C57 is false for infinities**: with -1000 in the role of -∞ and -100 in that of the least finite number, the greatest
element of `[-∞]` is -∞ with vDSP, but the least finite number with the portable loop. -/
theorem C57_max_false :
    (do let r ← (Arr.fromContiguousOwnedBuffer [1] ([-1000] : List Int)).reduceAll (partialMax ltb) (-100)
          (vdspRed (partialMax ltb) (-1000))
        r.value) = .ok (-1000) ∧
    (do let r ← (Arr.fromContiguousOwnedBuffer [1] ([-1000] : List Int)).max ltb (-100)
        r.value) = .ok (-100) := by decide +kernel

/-- **C57 is false for empty arrays**: -∞ and the least finite number. -/
theorem C57_max_empty_false :
    (do let r ← (Arr.fromContiguousOwnedBuffer [0] ([] : List Int)).reduceAll (partialMax ltb) (-100)
          (vdspRed (partialMax ltb) (-1000))
        r.value) = .ok (-1000) ∧
    (do let r ← (Arr.fromContiguousOwnedBuffer [0] ([] : List Int)).max ltb (-100)
        r.value) = .ok (-100) := by decide +kernel

/-- every second element of a buffer -/
example : (do
      let v ← (Arr.fromContiguousOwnedBuffer [3, 2] ([1, 20, 3, -40, 5, 6] : List Int)).slice [.range 0 3, .at 1]
      let r ← v.reduceAll (partialMax ltb) (-100) (vdspRed (partialMax ltb) (-1000))
      r.value) = .ok 20 := by decide +kernel
example : ∀ x ∈ ([1, 20, 3, -40, 5, 6] : List Int), -100 ≤ x := by decide

/-! ## dot products -/

/-- **C57, strided dot product**: all strides, operands inside their buffers. -/
theorem C57_dot [CommSemiring α] {a b : Src α} {sa sb count : Nat} {dst : List α} {q : Nat}
    (h1 : ∀ k < count, a.2 + k * sa < a.1.length) (h2 : ∀ k < count, b.2 + k * sb < b.1.length) (hq : q < dst.length) :
    vdspDot a b sa sb count dst q = sopNN0 a b sa sb count dst q := by
  have e1 : ∀ k < count, a.1[a.2 + k * sa]? = some (a.1.getD (a.2 + k * sa) 0) := fun k hk => by simp [h1 k hk]
  have e2 : ∀ k < count, b.1[b.2 + k * sb]? = some (b.1.getD (b.2 + k * sb) 0) := fun k hk => by simp [h2 k hk]
  rw [vdspDot_ok e1 e2 hq, sopNN0_ok e1 e2 hq]

example := C57_dot (a := ([1, 2, 3, 4, 5], 0)) (b := ([10, 20, 30], 0)) (sa := 2) (sb := 1) (count := 3) (dst := [7]) (q := 0)
  (by decide) (by decide) (by decide)

/-- **C57, einsum**: with `vDSP_dotpr` beside the portable or the vector kernels, einsum computes the Einstein sum.
Missing: what `C28_einsum_partial` lacks. -/
theorem C57_einsum_partial [CommSemiring α] {L : Nat} (hL : L = 2 ∨ L = 4) {K : SopKernels α}
    (hK : K = portableSop ∨ K = simdSop L) {ops : List (Arr α)}
    {fs : List (Factor α)} {out rest : List Char} {dim : Char → Nat} (hw : WellFormed fs out rest dim)
    (hd : List.Forall₂ (fun a f => a.Denotes (f.letters.map dim) f.elem) ops fs) (hargs : ops.length < 16)
    (hdims : ∀ f ∈ fs, f.letters.length ≤ 32) (htot : (out ++ rest).length ≤ 32) (hne : out ++ rest ≠ []) :
    ∃ r, einsum (withVdspDot K) ops (fs.map (·.letters)) out = .ok r ∧ r.Denotes (out.map dim) (einsteinSum out rest dim fs) :=
  C28_einsum_partial (withVdspDot_correct (by
    rcases hK with rfl | rfl
    · exact portableSop_correct
    · exact simdSop_correct hL)) hw hd hargs hdims htot hne

example := C57_einsum_partial (L := 4) (.inr rfl) (.inr rfl) (ein_wellFormed (fun i => (i.headD 0 : Int)) fun i => i.headD 0)
  (.cons (denotes_fromContiguous (s := [2, 3])) (.cons (denotes_fromContiguous (s := [3, 2])) .nil))
  (by simp) (by decide) (by decide) (by decide)

/-- **C57, matmul** of non-empty matrices. Missing: what `C30_matmul_partial` lacks. -/
theorem C57_matmul_partial [CommSemiring α] {L : Nat} (hL : L = 2 ∨ L = 4) {K : SopKernels α}
    (hK : K = portableSop ∨ K = simdSop L) {a b : Arr α} {m k n : Nat}
    {f g : List Nat → α} (ha : a.Denotes [m, k] f) (hb : b.Denotes [k, n] g) (hm : 0 < m) (hk : 0 < k) (hn : 0 < n) :
    ∃ r, a.matmul (withVdspDot K) b = .ok r ∧ r.Denotes [m, n]
      (fun idx => innerProduct k (fun t => f [idx.getD 0 0, t]) (fun t => g [t, idx.getD 1 0])) :=
  C30_matmul_partial (withVdspDot_correct (by
    rcases hK with rfl | rfl
    · exact portableSop_correct
    · exact simdSop_correct hL)) ha hb hm hk hn

example := C57_matmul_partial (L := 4) (.inr rfl) (.inr rfl) (denotes_fromContiguous (s := [2, 3]) (f := fun i => (i.getD 0 0 : Int)))
  (denotes_fromContiguous (s := [3, 4]) (f := fun _ => 2)) (by decide) (by decide) (by decide)

example : vdspDot ([1, 2, 3, 4, 5], 0) ([10, 20, 30], 0) 2 1 3 [7] 0 = .ok [227] := by decide +kernel
example : (withVdspDot portableSop).dot [1, 2, 3] 0 [4, 5, 6] 0 [1] 0 3 = .ok [33] := by decide +kernel

end Verif
