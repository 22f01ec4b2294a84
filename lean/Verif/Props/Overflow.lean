import Verif.Lemmas.Overflow
import Verif.Props.Elementwise
import Verif.Props.Reduce
import Verif.Props.MatrixOps
import Mathlib.Data.ZMod.Defs

set_option linter.unusedSimpArgs false

/-!
# C59 integer results are exact whenever they fit

A type has the values `lo..=hi`; `checks` is true in a debug build. In a release build the result is the number of the type
that is congruent to the exact result modulo the number `hi - lo + 1` of values (`2^w`), of which there is only one
(`residue_unique`).
-/

namespace Verif

variable {lo hi : Int}

/-- `v` is what a type with the values `lo..=hi` makes of the number `z` without overflow checks. -/
def IsWrapped (lo hi v z : Int) : Prop := lo ≤ v ∧ v ≤ hi ∧ v ≡ z [ZMOD hi - lo + 1]

/-- A number of the type is wrapped to itself: nothing else is congruent to it. -/
theorem IsWrapped.eq {v z : Int} (h : IsWrapped lo hi v z) (hz : lo ≤ z ∧ z ≤ hi) : v = z :=
  residue_unique ⟨h.1, h.2.1⟩ hz h.2.2

/-! ### elementwise -/

/-- **C59.** `a op b` in a release build: every element is the exact one, wrapped. -/
theorem C59_elementwise_release (op : Int → Int → Int) (hr : lo ≤ hi) (dflt : Int) {a b : Arr Int} {s t r : List Nat}
    {fa fb : List Nat → Int} (ha : a.Denotes s fa) (hb : b.Denotes t fb) (hc : Compatible s t) (hj : IsJoint s t r)
    (hd : r.length ≤ 32) :
    ∃ c h, a.binOp (fun x y => intResult false lo hi (op x y)) (portableKernels fun x y => intResult false lo hi (op x y)) dflt b = .ok c ∧
      c.Denotes r h ∧ ∀ idx, InB idx r → IsWrapped lo hi (h idx) (op (fa (broadcastIndex s idx)) (fb (broadcastIndex t idx))) := by
  choose w hw1 hw2 using fun z : Int => intResult_wraps hr z
  obtain ⟨c, h1, h2⟩ := C05_elementwise (fun x y => intResult false lo hi (op x y)) dflt ha hb hc hj hd
    (h := fun idx => w (op (fa (broadcastIndex s idx)) (fb (broadcastIndex t idx)))) (fun idx _ => hw1 _)
  exact ⟨c, _, h1, h2, fun idx _ => hw2 _⟩

example := C59_elementwise_release (lo := -128) (hi := 127) (fun x y => x * y) (by decide) 0
  (denotes_fromContiguous (s := [2, 3]) (f := fun _ => 100)) (denotes_fromContiguous (s := [3]) (f := fun i => (i.getD 0 0 : Int)))
  (r := [2, 3]) (compatible_of_ok rfl) (joint_of_ok rfl) (by decide)

/-- **C59.** `a op b` in either build, if every exact result fits: the exact results. -/
theorem C59_elementwise_fits (checks : Bool) (op : Int → Int → Int) (dflt : Int) {a b : Arr Int} {s t r : List Nat}
    {fa fb : List Nat → Int} (ha : a.Denotes s fa) (hb : b.Denotes t fb) (hc : Compatible s t) (hj : IsJoint s t r)
    (hd : r.length ≤ 32)
    (hf : ∀ idx, InB idx r → lo ≤ op (fa (broadcastIndex s idx)) (fb (broadcastIndex t idx)) ∧
      op (fa (broadcastIndex s idx)) (fb (broadcastIndex t idx)) ≤ hi) :
    ∃ c, a.binOp (fun x y => intResult checks lo hi (op x y)) (portableKernels fun x y => intResult checks lo hi (op x y)) dflt b = .ok c ∧
      c.Denotes r (fun idx => op (fa (broadcastIndex s idx)) (fb (broadcastIndex t idx))) :=
  C05_elementwise _ dflt ha hb hc hj hd (fun idx hi' => intResult_fits checks (hf idx hi'))

example := C59_elementwise_fits (lo := -128) (hi := 127) true (fun x y => x + y) 0
  (denotes_fromContiguous (s := [2, 3]) (f := fun _ => 100)) (denotes_fromContiguous (s := [3]) (f := fun _ => 27))
  (r := [2, 3]) (compatible_of_ok rfl) (joint_of_ok rfl) (by decide) fun _ _ => by decide

/-- **C59.** `a op b` in a debug build, if some exact result does not fit: a panic. -/
theorem C59_elementwise_panics (op : Int → Int → Int) (dflt : Int) {a b : Arr Int} {s t r : List Nat}
    {fa fb : List Nat → Int} (ha : a.Denotes s fa) (hb : b.Denotes t fb) (hc : Compatible s t) (hj : IsJoint s t r)
    (hd : r.length ≤ 32)
    (hf : ∃ idx, InB idx r ∧ ¬ (lo ≤ op (fa (broadcastIndex s idx)) (fb (broadcastIndex t idx)) ∧
      op (fa (broadcastIndex s idx)) (fb (broadcastIndex t idx)) ≤ hi)) :
    a.binOp (fun x y => intResult true lo hi (op x y)) (portableKernels fun x y => intResult true lo hi (op x y)) dflt b = .error .panic := by
  obtain ⟨idx, hi', hn⟩ := hf
  exact C05_operator_panics _ dflt ha hb hc hj hd (fun _ _ _ h => intResult_errors _ h) ⟨idx, .panic, hi', intResult_panic hn⟩

example := C59_elementwise_panics (lo := -128) (hi := 127) (fun x y => x + y) 0
  (denotes_fromContiguous (s := [2, 3]) (f := fun _ => 100)) (denotes_fromContiguous (s := [3]) (f := fun _ => 28))
  (r := [2, 3]) (compatible_of_ok rfl) (joint_of_ok rfl) (by decide) ⟨[0, 1], by decide, by decide⟩

/-! ### sums and products of whole arrays -/

theorem foldl_add_sum (vs : List Int) : vs.foldl (· + ·) 0 = vs.sum := List.sum_eq_foldl.symm
theorem foldl_mul_prod (vs : List Int) : vs.foldl (· * ·) 1 = vs.prod := List.prod_eq_foldl.symm

/-- **C59** (part). `sum` in a release build: the exact sum, wrapped; in particular the exact sum whenever that fits, however
large the intermediate sums. Missing (here and below): the broadcast views excluded in C09. -/
theorem C59_sum_release_partial (h0 : lo ≤ 0 ∧ 0 ≤ hi) {a : Arr Int} {s : List Nat} {f : List Nat → Int} (ha : a.Denotes s f)
    (hd : s.length ≤ 32) (hg : Reducible s a.stride) :
    ∃ r v, a.sumInt false lo hi = .ok r ∧ r.Denotes [] (fun _ => v) ∧ IsWrapped lo hi v (elements s f).sum := by
  obtain ⟨v, h1, h2, h3, h4⟩ := fold_wraps (· + ·) (le_trans h0.1 h0.2) (fun x y v h => h.add_right v) (elements s f) 0 0 h0 (.refl _)
  obtain ⟨r, hr, hrd⟩ := denotes_scalar v
  refine ⟨r, v, ?_, hrd, h2, h3, by rwa [foldl_add_sum] at h4⟩
  unfold Arr.sumInt
  rw [reduceAllM_eq _ _ ha hd hg]
  unfold addStep
  rw [h1, ok_bind, hr]

example := C59_sum_release_partial (lo := -128) (hi := 127) (by decide) (denotes_fromContiguous (s := [2, 3]) (f := fun _ => 100)) (by decide)
  (.inr (by decide))

/-- **C59** (part). `product` in a release build. -/
theorem C59_product_release_partial (h1' : lo ≤ 1 ∧ 1 ≤ hi) {a : Arr Int} {s : List Nat} {f : List Nat → Int} (ha : a.Denotes s f)
    (hd : s.length ≤ 32) (hg : Reducible s a.stride) :
    ∃ r v, a.productInt false lo hi = .ok r ∧ r.Denotes [] (fun _ => v) ∧ IsWrapped lo hi v (elements s f).prod := by
  obtain ⟨v, h1, h2, h3, h4⟩ := fold_wraps (· * ·) (le_trans h1'.1 h1'.2) (fun x y v h => h.mul_right v) (elements s f) 1 1 h1' (.refl _)
  obtain ⟨r, hr, hrd⟩ := denotes_scalar v
  refine ⟨r, v, ?_, hrd, h2, h3, by rwa [foldl_mul_prod] at h4⟩
  unfold Arr.productInt
  rw [reduceAllM_eq _ _ ha hd hg]
  unfold mulStep
  rw [h1, ok_bind, hr]

example := C59_product_release_partial (lo := -128) (hi := 127) (by decide) (denotes_fromContiguous (s := [2, 3]) (f := fun _ => 100))
  (by decide) (.inr (by decide))

/-- **C59** (part). `sum` in either build, if the sums of all initial segments of the elements in row-major order fit: the exact
sum. -/
theorem C59_sum_fits_partial (checks : Bool) {a : Arr Int} {s : List Nat} {f : List Nat → Int} (ha : a.Denotes s f)
    (hd : s.length ≤ 32) (hg : Reducible s a.stride)
    (hf : ∀ k, 0 < k → k ≤ numel s → lo ≤ ((elements s f).take k).sum ∧ ((elements s f).take k).sum ≤ hi) :
    ∃ r, a.sumInt checks lo hi = .ok r ∧ r.Denotes [] (fun _ => (elements s f).sum) := by
  obtain ⟨r, hr, hrd⟩ := denotes_scalar (elements s f).sum
  refine ⟨r, ?_, hrd⟩
  unfold Arr.sumInt
  rw [reduceAllM_eq _ _ ha hd hg]
  unfold addStep
  rw [fold_fits checks (· + ·) (elements s f) 0 (fun k h1 h2 => by rw [foldl_add_sum]; exact hf k h1 (by rwa [length_elements] at h2)),
    ok_bind, foldl_add_sum, hr]

example := C59_sum_fits_partial (lo := -128) (hi := 127) true (denotes_fromContiguous (s := [2]) (f := fun _ => 60)) (by decide)
  (.inr (by decide)) fun k h h' => by revert h; revert k; decide

/-- **C59** (part). `sum` in a debug build, if the sum of some initial segment does not fit: a panic. -/
theorem C59_sum_panics_partial {a : Arr Int} {s : List Nat} {f : List Nat → Int} (ha : a.Denotes s f)
    (hd : s.length ≤ 32) (hg : Reducible s a.stride)
    (hf : ∃ k, 0 < k ∧ k ≤ numel s ∧ ¬ (lo ≤ ((elements s f).take k).sum ∧ ((elements s f).take k).sum ≤ hi)) :
    a.sumInt true lo hi = .error .panic := by
  unfold Arr.sumInt
  rw [reduceAllM_eq _ _ ha hd hg]
  unfold addStep
  obtain ⟨k, h1, h2, h3⟩ := hf
  rw [fold_panics (· + ·) (elements s f) 0 ⟨k, h1, by rwa [length_elements], by rwa [foldl_add_sum]⟩]; rfl

example := C59_sum_panics_partial (lo := -128) (hi := 127) (denotes_fromContiguous (s := [2, 2]) (f := fun _ => 60)) (by decide)
  (.inr (by decide)) ⟨3, by decide, by decide, by decide⟩

/-- **C59** (part). `product` in either build, if the products of all initial segments fit: the exact product. -/
theorem C59_product_fits_partial (checks : Bool) {a : Arr Int} {s : List Nat} {f : List Nat → Int} (ha : a.Denotes s f)
    (hd : s.length ≤ 32) (hg : Reducible s a.stride)
    (hf : ∀ k, 0 < k → k ≤ numel s → lo ≤ ((elements s f).take k).prod ∧ ((elements s f).take k).prod ≤ hi) :
    ∃ r, a.productInt checks lo hi = .ok r ∧ r.Denotes [] (fun _ => (elements s f).prod) := by
  obtain ⟨r, hr, hrd⟩ := denotes_scalar (elements s f).prod
  refine ⟨r, ?_, hrd⟩
  unfold Arr.productInt
  rw [reduceAllM_eq _ _ ha hd hg]
  unfold mulStep
  rw [fold_fits checks (· * ·) (elements s f) 1 (fun k h1 h2 => by rw [foldl_mul_prod]; exact hf k h1 (by rwa [length_elements] at h2)),
    ok_bind, foldl_mul_prod, hr]

example := C59_product_fits_partial (lo := -128) (hi := 127) true (denotes_fromContiguous (s := [2]) (f := fun _ => 11)) (by decide)
  (.inr (by decide)) fun k h h' => by revert h; revert k; decide

/-- **C59** (part). `product` in a debug build, if the product of some initial segment does not fit: a panic. -/
theorem C59_product_panics_partial {a : Arr Int} {s : List Nat} {f : List Nat → Int} (ha : a.Denotes s f)
    (hd : s.length ≤ 32) (hg : Reducible s a.stride)
    (hf : ∃ k, 0 < k ∧ k ≤ numel s ∧ ¬ (lo ≤ ((elements s f).take k).prod ∧ ((elements s f).take k).prod ≤ hi)) :
    a.productInt true lo hi = .error .panic := by
  unfold Arr.productInt
  rw [reduceAllM_eq _ _ ha hd hg]
  unfold mulStep
  obtain ⟨k, h1, h2, h3⟩ := hf
  rw [fold_panics (· * ·) (elements s f) 1 ⟨k, h1, by rwa [length_elements], by rwa [foldl_mul_prod]⟩]; rfl

example := C59_product_panics_partial (lo := -128) (hi := 127) (denotes_fromContiguous (s := [2, 2]) (f := fun _ => 11)) (by decide)
  (.inr (by decide)) ⟨3, by decide, by decide, by decide⟩

theorem list_sum_nonneg {vs : List Int} (h : ∀ v ∈ vs, 0 ≤ v) : 0 ≤ vs.sum := by
  induction vs with
  | nil => simp
  | cons v vs ih =>
    have h1 := h v (by simp)
    have h2 := ih fun w hw => h w (by simp [hw])
    rw [List.sum_cons]; omega

theorem sum_take_le {vs : List Int} (h : ∀ v ∈ vs, 0 ≤ v) (k : Nat) : 0 ≤ (vs.take k).sum ∧ (vs.take k).sum ≤ vs.sum := by
  have h1 : 0 ≤ (vs.take k).sum := list_sum_nonneg fun v hv => h v (List.mem_of_mem_take hv)
  have h2 : 0 ≤ (vs.drop k).sum := list_sum_nonneg fun v hv => h v (List.mem_of_mem_drop hv)
  have h3 : (vs.take k).sum + (vs.drop k).sum = vs.sum := by rw [← List.sum_append, List.take_append_drop]
  omega

/-- **C59** (part). `sum` of non-negative numbers (all unsigned types) in either build: exact whenever it fits. -/
theorem C59_sum_unsigned_partial (checks : Bool) (h0 : lo ≤ 0) {a : Arr Int} {s : List Nat} {f : List Nat → Int} (ha : a.Denotes s f)
    (hd : s.length ≤ 32) (hg : Reducible s a.stride) (hn : ∀ idx, InB idx s → 0 ≤ f idx) (hf : (elements s f).sum ≤ hi) :
    ∃ r, a.sumInt checks lo hi = .ok r ∧ r.Denotes [] (fun _ => (elements s f).sum) := by
  apply C59_sum_fits_partial checks ha hd hg
  intro k _ _
  have := sum_take_le (vs := elements s f) (fun v hv => by
    obtain ⟨idx, hi', rfl⟩ := mem_elements.1 hv
    exact hn idx hi') k
  omega

example := C59_sum_unsigned_partial (lo := 0) (hi := 255) true (by decide) (denotes_fromContiguous (s := [2, 2]) (f := fun _ => 60)) (by decide)
  (.inr (by decide)) (fun _ _ => by decide) (by decide)

/-- **C59** (part). `sum` of non-negative numbers in a debug build: a panic whenever it does not fit. -/
theorem C59_sum_unsigned_panics_partial {a : Arr Int} {s : List Nat} {f : List Nat → Int} (ha : a.Denotes s f)
    (hd : s.length ≤ 32) (hg : Reducible s a.stride) (hs : numel s ≠ 0) (hf : hi < (elements s f).sum) :
    a.sumInt true lo hi = .error .panic := by
  apply C59_sum_panics_partial ha hd hg
  refine ⟨numel s, Nat.pos_of_ne_zero hs, Nat.le_refl _, ?_⟩
  rw [List.take_of_length_le (by rw [length_elements])]
  omega

example := C59_sum_unsigned_panics_partial (lo := 0) (hi := 255) (denotes_fromContiguous (s := [2, 2]) (f := fun _ => 70)) (by decide)
  (.inr (by decide)) (by decide) (by decide)

/-- **C59 is false** in debug builds: the sum of `[100, 100, -100]` in `i8` is 100, but `sum` panics on the way; and the product
of `[100, 2, 0]` is 0, but `product` panics. -/
theorem C59_false : (Arr.fromContiguousOwnedBuffer [3] [(100 : Int), 100, -100]).sumInt true (-128) 127 = .error .panic ∧
    (Arr.fromContiguousOwnedBuffer [3] [(100 : Int), 2, 0]).productInt true (-128) 127 = .error .panic := by decide

/-- in a release build the same sum is right, and 100 + 100 comes out as -56 -/
example : ∃ r, (Arr.fromContiguousOwnedBuffer [3] [(100 : Int), 100, -100]).sumInt false (-128) 127 = .ok r ∧ r.value = .ok 100 :=
  ⟨_, rfl, rfl⟩
example : ∃ r, (Arr.fromContiguousOwnedBuffer [2] [(100 : Int), 100]).sumInt false (-128) 127 = .ok r ∧ r.value = .ok (-56) :=
  ⟨_, rfl, rfl⟩
example : IsWrapped (-128) 127 (-56) 200 := ⟨by decide, by decide, by decide⟩
example : ∃ c, (Arr.fromContiguousOwnedBuffer [2] [(250 : Int), 3]).binOp (fun x y => intResult false 0 255 (x + y))
    (portableKernels fun x y => intResult false 0 255 (x + y)) 0 (Arr.fromContiguousOwnedBuffer [1] [10]) = .ok c ∧
    c.flatiter = .ok [4, 13] := ⟨_, rfl, rfl⟩

/-! ### along axes -/

/-- **C59.** `sum_along` in a release build: every element is the exact sum of its fibre, wrapped; every layout. -/
theorem C59_sum_along_release (h0 : lo ≤ 0 ∧ 0 ≤ hi) {a : Arr Int} {s : List Nat} {f : List Nat → Int} (ha : a.Denotes s f)
    (hd : s.length ≤ 32) {axes : List Int} {ks : List Nat} (hax : AxesAre axes s.length ks) (hnd : ks.Nodup) :
    ∃ r h, a.sumAlongInt false lo hi axes = .ok r ∧ r.Denotes (dropAxes ks s) h ∧
      ∀ J, IsWrapped lo hi (h J) ((fibre ks s J).map f).sum := by
  choose w hw1 hw2 using fun J => fold_wraps (· + ·) (le_trans h0.1 h0.2) (fun x y v h => h.add_right v) ((fibre ks s J).map f) 0 0 h0 (.refl _)
  refine ⟨Arr.fromContiguousOwnedBuffer (dropAxes ks s) (elements _ w), w, ?_, denotes_fromContiguous, fun J => by
    have := hw2 J
    rw [foldl_add_sum] at this
    exact this⟩
  unfold Arr.sumAlongInt
  rw [reduceAlongM_eq (addStep _ lo hi) (fun v x e h => intResult_errors _ h) ha hd hax hnd]
  unfold addStep
  rw [mapM_id_elements (h := w) (fun J _ => hw1 J)]; rfl

example := C59_sum_along_release (lo := -128) (hi := 127) (by decide) (denotes_fromContiguous (s := [2, 3]) (f := fun _ => 100)) (by decide)
  (axes := [-1]) (ks := [1]) ⟨⟨by decide, by decide⟩, trivial⟩ (by decide)

/-- **C59.** `product_along` in a release build. -/
theorem C59_product_along_release (h1' : lo ≤ 1 ∧ 1 ≤ hi) {a : Arr Int} {s : List Nat} {f : List Nat → Int} (ha : a.Denotes s f)
    (hd : s.length ≤ 32) {axes : List Int} {ks : List Nat} (hax : AxesAre axes s.length ks) (hnd : ks.Nodup) :
    ∃ r h, a.productAlongInt false lo hi axes = .ok r ∧ r.Denotes (dropAxes ks s) h ∧
      ∀ J, IsWrapped lo hi (h J) ((fibre ks s J).map f).prod := by
  choose w hw1 hw2 using fun J => fold_wraps (· * ·) (le_trans h1'.1 h1'.2) (fun x y v h => h.mul_right v) ((fibre ks s J).map f) 1 1 h1' (.refl _)
  refine ⟨Arr.fromContiguousOwnedBuffer (dropAxes ks s) (elements _ w), w, ?_, denotes_fromContiguous, fun J => by
    have := hw2 J
    rw [foldl_mul_prod] at this
    exact this⟩
  unfold Arr.productAlongInt
  rw [reduceAlongM_eq (mulStep _ lo hi) (fun v x e h => intResult_errors _ h) ha hd hax hnd]
  unfold mulStep
  rw [mapM_id_elements (h := w) (fun J _ => hw1 J)]; rfl

example := C59_product_along_release (lo := -128) (hi := 127) (by decide) (denotes_fromContiguous (s := [2, 3]) (f := fun _ => 100)) (by decide)
  (axes := [-1]) (ks := [1]) ⟨⟨by decide, by decide⟩, trivial⟩ (by decide)

/-- **C59.** `sum_along` in either build, if the sums of all initial segments of every fibre fit: exact. -/
theorem C59_sum_along_fits (checks : Bool) {a : Arr Int} {s : List Nat} {f : List Nat → Int} (ha : a.Denotes s f)
    (hd : s.length ≤ 32) {axes : List Int} {ks : List Nat} (hax : AxesAre axes s.length ks) (hnd : ks.Nodup)
    (hf : ∀ J, InB J (dropAxes ks s) → ∀ k, 0 < k → k ≤ (fibre ks s J).length →
      lo ≤ (((fibre ks s J).map f).take k).sum ∧ (((fibre ks s J).map f).take k).sum ≤ hi) :
    ∃ r, a.sumAlongInt checks lo hi axes = .ok r ∧ r.Denotes (dropAxes ks s) (fun J => ((fibre ks s J).map f).sum) := by
  refine ⟨Arr.fromContiguousOwnedBuffer (dropAxes ks s) (elements _ fun J => ((fibre ks s J).map f).sum), ?_, denotes_fromContiguous⟩
  unfold Arr.sumAlongInt
  rw [reduceAlongM_eq (addStep _ lo hi) (fun v x e h => intResult_errors _ h) ha hd hax hnd]
  unfold addStep
  rw [mapM_id_elements (h := fun J => ((fibre ks s J).map f).sum) (fun J hJ => by
    rw [fold_fits checks (· + ·) _ 0 (fun k h1 h2 => by rw [foldl_add_sum]; exact hf J hJ k h1 (by simpa using h2)), foldl_add_sum])]; rfl

example := C59_sum_along_fits (lo := -128) (hi := 127) true (denotes_fromContiguous (s := [2]) (f := fun _ => 60)) (by decide)
  (axes := [0]) (ks := [0]) ⟨⟨by decide, by decide⟩, trivial⟩ (by decide) fun J hJ k h h' => by
    match J, hJ with
    | [], _ => revert h; revert k; decide

/-- **C59.** `sum_along` in a debug build, if the sum of some initial segment of a fibre does not fit: a panic. -/
theorem C59_sum_along_panics {a : Arr Int} {s : List Nat} {f : List Nat → Int} (ha : a.Denotes s f)
    (hd : s.length ≤ 32) {axes : List Int} {ks : List Nat} (hax : AxesAre axes s.length ks) (hnd : ks.Nodup)
    (hf : ∃ J k, InB J (dropAxes ks s) ∧ 0 < k ∧ k ≤ (fibre ks s J).length ∧
      ¬ (lo ≤ (((fibre ks s J).map f).take k).sum ∧ (((fibre ks s J).map f).take k).sum ≤ hi)) :
    a.sumAlongInt true lo hi axes = .error .panic := by
  obtain ⟨J, k, hJ, h1, h2, h3⟩ := hf
  unfold Arr.sumAlongInt
  rw [reduceAlongM_eq (addStep _ lo hi) (fun v x e h => intResult_errors _ h) ha hd hax hnd]
  unfold addStep
  rw [mapM_id_panic]
  · rfl
  · exact ⟨.panic, mem_elements.2 ⟨J, hJ, fold_panics (· + ·) _ 0 ⟨k, h1, by simpa using h2, by rwa [foldl_add_sum]⟩⟩⟩
  · intro e he
    obtain ⟨J', _, h'⟩ := mem_elements.1 he
    exact fold_errors (· + ·) _ _ _ _ h'

example := C59_sum_along_panics (lo := -128) (hi := 127) (denotes_fromContiguous (s := [2, 3]) (f := fun _ => 60)) (by decide)
  (axes := [-1]) (ks := [1]) ⟨⟨by decide, by decide⟩, trivial⟩ (by decide) ⟨[1], 3, by decide, by decide, by decide, by decide⟩

/-- **C59.** `product_along` in either build, if the products of all initial segments of every fibre fit: exact. -/
theorem C59_product_along_fits (checks : Bool) {a : Arr Int} {s : List Nat} {f : List Nat → Int} (ha : a.Denotes s f)
    (hd : s.length ≤ 32) {axes : List Int} {ks : List Nat} (hax : AxesAre axes s.length ks) (hnd : ks.Nodup)
    (hf : ∀ J, InB J (dropAxes ks s) → ∀ k, 0 < k → k ≤ (fibre ks s J).length →
      lo ≤ (((fibre ks s J).map f).take k).prod ∧ (((fibre ks s J).map f).take k).prod ≤ hi) :
    ∃ r, a.productAlongInt checks lo hi axes = .ok r ∧ r.Denotes (dropAxes ks s) (fun J => ((fibre ks s J).map f).prod) := by
  refine ⟨Arr.fromContiguousOwnedBuffer (dropAxes ks s) (elements _ fun J => ((fibre ks s J).map f).prod), ?_, denotes_fromContiguous⟩
  unfold Arr.productAlongInt
  rw [reduceAlongM_eq (mulStep _ lo hi) (fun v x e h => intResult_errors _ h) ha hd hax hnd]
  unfold mulStep
  rw [mapM_id_elements (h := fun J => ((fibre ks s J).map f).prod) (fun J hJ => by
    rw [fold_fits checks (· * ·) _ 1 (fun k h1 h2 => by rw [foldl_mul_prod]; exact hf J hJ k h1 (by simpa using h2)), foldl_mul_prod])]; rfl

example := C59_product_along_fits (lo := -128) (hi := 127) true (denotes_fromContiguous (s := [2]) (f := fun _ => 11)) (by decide)
  (axes := [0]) (ks := [0]) ⟨⟨by decide, by decide⟩, trivial⟩ (by decide) fun J hJ k h h' => by
    match J, hJ with
    | [], _ => revert h; revert k; decide

/-- **C59.** `product_along` in a debug build, if the product of some initial segment of a fibre does not fit: a panic. -/
theorem C59_product_along_panics {a : Arr Int} {s : List Nat} {f : List Nat → Int} (ha : a.Denotes s f)
    (hd : s.length ≤ 32) {axes : List Int} {ks : List Nat} (hax : AxesAre axes s.length ks) (hnd : ks.Nodup)
    (hf : ∃ J k, InB J (dropAxes ks s) ∧ 0 < k ∧ k ≤ (fibre ks s J).length ∧
      ¬ (lo ≤ (((fibre ks s J).map f).take k).prod ∧ (((fibre ks s J).map f).take k).prod ≤ hi)) :
    a.productAlongInt true lo hi axes = .error .panic := by
  obtain ⟨J, k, hJ, h1, h2, h3⟩ := hf
  unfold Arr.productAlongInt
  rw [reduceAlongM_eq (mulStep _ lo hi) (fun v x e h => intResult_errors _ h) ha hd hax hnd]
  unfold mulStep
  rw [mapM_id_panic]
  · rfl
  · exact ⟨.panic, mem_elements.2 ⟨J, hJ, fold_panics (· * ·) _ 1 ⟨k, h1, by simpa using h2, by rwa [foldl_mul_prod]⟩⟩⟩
  · intro e he
    obtain ⟨J', _, h'⟩ := mem_elements.1 he
    exact fold_errors (· * ·) _ _ _ _ h'

example := C59_product_along_panics (lo := -128) (hi := 127) (denotes_fromContiguous (s := [2, 3]) (f := fun _ => 11)) (by decide)
  (axes := [-1]) (ks := [1]) ⟨⟨by decide, by decide⟩, trivial⟩ (by decide) ⟨[1], 3, by decide, by decide, by decide, by decide⟩

example : ∃ r, (Arr.fromContiguousOwnedBuffer [2, 2] [(100 : Int), 1, 100, 2]).sumAlongInt false (-128) 127 [0] = .ok r ∧
    r.flatiter = .ok [-56, 3] := ⟨_, rfl, rfl⟩
example : (Arr.fromContiguousOwnedBuffer [2, 2] [(100 : Int), 1, 100, 2]).sumAlongInt true (-128) 127 [0] = .error .panic := by decide
example : ∃ r, (Arr.fromContiguousOwnedBuffer [2, 2] [(100 : Int), 1, 100, 2]).sumAlongInt true (-128) 127 [1] = .ok r ∧
    r.flatiter = .ok [101, 102] := ⟨_, rfl, rfl⟩

/-! ### magnitudes -/

theorem foldlM_of_ok {α : Type} {step : α → α → Res α} {g : α → α → α} {vs : List α} (h : ∀ v ∈ vs, ∀ acc, step v acc = .ok (g v acc)) (acc : α) :
    vs.foldlM (fun acc v => step v acc) acc = Except.ok (vs.foldl (fun acc v => g v acc) acc) := by
  induction vs generalizing acc with
  | nil => rfl
  | cons v vs ih =>
    rw [List.foldlM_cons, h v (by simp), ok_bind, List.foldl_cons]
    exact ih (fun w hw => h w (by simp [hw])) _

theorem absInt_ok (checks : Bool) {x : Int} (h0 : lo ≤ 0) (h : -hi ≤ x) : absInt checks lo hi x = .ok |x| := by
  unfold absInt
  split
  · rename_i hx
    rw [abs_of_neg hx]
    exact intResult_fits checks (by omega)
  · rename_i hx
    rw [abs_of_nonneg (by omega)]

/-- **C59** (part). `max_magnitude` of integers without the least number of a signed type: the greatest absolute value. Missing:
arrays containing that number (false: `C59_magnitude_false`), and the views of C09. -/
theorem C59_max_magnitude_partial (checks : Bool) (h0 : lo ≤ 0) {a : Arr Int} {s : List Nat} {f : List Nat → Int} (ha : a.Denotes s f)
    (hd : s.length ≤ 32) (hg : Reducible s a.stride) (hf : ∀ idx, InB idx s → -hi ≤ f idx) :
    ∃ r v, a.maxMagnitudeInt checks lo hi = .ok r ∧ r.Denotes [] (fun _ => v) ∧
      IsGreatestOf v lo (fun idx => |f idx|) (indices s) := by
  obtain ⟨r, hr, hrd⟩ := denotes_scalar (foldOver (fun v acc => max |v| acc) lo f (indices s))
  refine ⟨r, _, ?_, hrd, isGreatestOf_fold _ abs (fun _ _ => rfl) lo f _⟩
  unfold Arr.maxMagnitudeInt
  rw [reduceAllM_eq _ _ ha hd hg, foldlM_of_ok (g := fun v acc => max |v| acc)]
  · exact hr
  · intro v hv acc
    obtain ⟨idx, hi', rfl⟩ := mem_elements.1 hv
    unfold maxMagStep
    rw [absInt_ok checks h0 (hf idx hi'), ok_bind, pure_res]
    congr 1
    split
    · rename_i h; simp at h; rw [max_eq_right (le_of_lt h)]
    · rename_i h; simp at h; rw [max_eq_left h]

example := C59_max_magnitude_partial (lo := -128) (hi := 127) true (by decide) (denotes_fromContiguous (s := [2, 2]) (f := fun _ => -127))
  (by decide) (.inr (by decide)) fun _ _ => by decide

/-- **C59** (part). `min_magnitude` likewise. -/
theorem C59_min_magnitude_partial (checks : Bool) (h0 : lo ≤ 0) {a : Arr Int} {s : List Nat} {f : List Nat → Int} (ha : a.Denotes s f)
    (hd : s.length ≤ 32) (hg : Reducible s a.stride) (hf : ∀ idx, InB idx s → -hi ≤ f idx) :
    ∃ r v, a.minMagnitudeInt checks lo hi = .ok r ∧ r.Denotes [] (fun _ => v) ∧
      IsLeastOf v hi (fun idx => |f idx|) (indices s) := by
  obtain ⟨r, hr, hrd⟩ := denotes_scalar (foldOver (fun v acc => min |v| acc) hi f (indices s))
  refine ⟨r, _, ?_, hrd, isLeastOf_fold _ abs (fun _ _ => rfl) hi f _⟩
  unfold Arr.minMagnitudeInt
  rw [reduceAllM_eq _ _ ha hd hg, foldlM_of_ok (g := fun v acc => min |v| acc)]
  · exact hr
  · intro v hv acc
    obtain ⟨idx, hi', rfl⟩ := mem_elements.1 hv
    unfold minMagStep
    rw [absInt_ok checks h0 (hf idx hi'), ok_bind, pure_res]
    congr 1
    split
    · rename_i h; simp at h; rw [min_eq_right (le_of_lt h)]
    · rename_i h; simp at h; rw [min_eq_left h]

example := C59_min_magnitude_partial (lo := -128) (hi := 127) true (by decide) (denotes_fromContiguous (s := [2, 2]) (f := fun _ => -127))
  (by decide) (.inr (by decide)) fun _ _ => by decide

/-- **C59 is false** for magnitudes: with `i8`, the least magnitude of `[-128, 5]` is 5, but `min_magnitude` panics in a debug
build and returns -128 in a release build. -/
theorem C59_magnitude_false :
    (Arr.fromContiguousOwnedBuffer [2] [(-128 : Int), 5]).minMagnitudeInt true (-128) 127 = .error .panic ∧
    ∃ r, (Arr.fromContiguousOwnedBuffer [2] [(-128 : Int), 5]).minMagnitudeInt false (-128) 127 = .ok r ∧ r.value = .ok (-128) :=
  ⟨by decide, _, rfl, rfl⟩

example : ∃ r, (Arr.fromContiguousOwnedBuffer [3] [(-127 : Int), 5, 6]).maxMagnitudeInt true (-128) 127 = .ok r ∧ r.value = .ok 127 :=
  ⟨_, rfl, rfl⟩

/-! ### matrix products

In a release build integers are the ring of residues modulo the number of values of the type. -/

theorem cast_innerProduct (n k : Nat) (u v : Nat → Int) :
    innerProduct k (fun t => ((u t : Int) : ZMod n)) (fun t => ((v t : Int) : ZMod n)) = ((innerProduct k u v : Int) : ZMod n) := by
  unfold innerProduct
  rw [show ((((List.range k).map fun t => u t * v t).sum : Int) : ZMod n) = Int.castRingHom (ZMod n) ((List.range k).map fun t => u t * v t).sum from rfl,
    map_list_sum, List.map_map]
  congr 1
  apply List.map_congr_left
  intro t _
  simp

/-- **C59** (part). The dot product of integers in a release build is the exact one modulo `n`, the number of values of the
type. -/
theorem C59_dot_release {n : Nat} {a b : Arr (ZMod n)} {k : Nat} {f g : List Nat → Int} (ha : a.Denotes [k] fun i => (f i : ZMod n))
    (hb : b.Denotes [k] fun i => (g i : ZMod n)) :
    ∃ r, a.dot b = .ok r ∧ r.Denotes [] (fun _ => ((innerProduct k (fun i => f [i]) (fun i => g [i]) : Int) : ZMod n)) := by
  obtain ⟨r, h1, h2⟩ := C32_dot ha hb
  exact ⟨r, h1, h2.congr fun _ _ => cast_innerProduct n k _ _⟩

example := C59_dot_release (n := 256) (denotes_fromContiguous (s := [3]) (f := fun i => ((100 * i.getD 0 0 : Int) : ZMod 256)))
  (denotes_fromContiguous (s := [3]) (f := fun _ => ((7 : Int) : ZMod 256)))

/-- **C59** (part). The matrix product of integers in a release build is the exact one modulo `n`. Missing: extents 0 (as in
C30), and debug builds, where intermediate sums can panic. -/
theorem C59_matmul_release_partial {n : Nat} {a b : Arr (ZMod n)} {m k l : Nat} {f g : List Nat → Int}
    (ha : a.Denotes [m, k] fun i => (f i : ZMod n)) (hb : b.Denotes [k, l] fun i => (g i : ZMod n)) (hm : 0 < m) (hk : 0 < k) (hl : 0 < l) :
    ∃ r, a.matmul portableSop b = .ok r ∧ r.Denotes [m, l] (fun idx =>
      ((innerProduct k (fun t => f [idx.getD 0 0, t]) (fun t => g [t, idx.getD 1 0]) : Int) : ZMod n)) := by
  obtain ⟨r, h1, h2⟩ := C30_matmul_partial portableSop_correct ha hb hm hk hl
  exact ⟨r, h1, h2.congr fun _ _ => cast_innerProduct n k _ _⟩

example := C59_matmul_release_partial (n := 256) (denotes_fromContiguous (s := [2, 3]) (f := fun i => ((100 * i.getD 0 0 : Int) : ZMod 256)))
  (denotes_fromContiguous (s := [3, 2]) (f := fun _ => ((7 : Int) : ZMod 256))) (by decide) (by decide) (by decide)

example : ∃ r, (Arr.fromContiguousOwnedBuffer [2] [(20 : ZMod 256), 30]).dot (Arr.fromContiguousOwnedBuffer [2] [10, 2]) = .ok r ∧
    r.value = .ok 4 := ⟨_, rfl, rfl⟩

end Verif
