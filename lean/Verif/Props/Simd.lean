import Verif.Props.Elementwise
import Verif.Props.Reduce
import Verif.Props.Einsum
import Verif.Props.MatrixOps
import Verif.Lemmas.SimdReduce
import Verif.Lemmas.SimdEmpty

/-!
# C49 The NEON kernels agree with the portable kernels

`L` is the number of lanes, 4 for `f32` and 2 for `f64`. The elementwise results need no law of arithmetic and any `L`, the
reductions need associativity and commutativity.
-/

namespace Verif

variable {α : Type}

/-! ## elementwise operators -/

/-- **C49, binary operators.** On arrays of any layout and any compatible shapes `a op b` is the same array whether the vector
kernels or the portable loops are used: every length, every pair of strides, every `L`. Missing: empty results of arrays that
were not reached without `broadcast_to` (the vector kernels read a constant operand even if there is nothing to compute). -/
theorem C49_binary_partial (f : α → α → α) (L : Nat) (dflt : α) {a b : Arr α} {s t r : List Nat} {fa fb : List Nat → α}
    (ha : a.Denotes s fa) (hb : b.Denotes t fb) (hc : Compatible s t) (hj : IsJoint s t r) (hd : r.length ≤ 32)
    (hn : numel r ≠ 0 ∨ Reached a ∧ Reached b) :
    a.binOp (fun x y => .ok (f x y)) (simdKernels f L) dflt b =
      a.binOp (fun x y => .ok (f x y)) (portableKernels fun x y => .ok (f x y)) dflt b := by
  by_cases h0 : numel r = 0
  · obtain ⟨h1, h2⟩ := hn.resolve_left (fun h => h h0)
    obtain ⟨rfl, hla, _⟩ := ha
    obtain ⟨rfl, hlb, _⟩ := hb
    exact binOp_empty f L dflt hla hlb hj hc h0 h1.pointed h2.pointed
  · rw [binOp_eq (simd_correct f L) dflt ha hb hc hj hd h0, binOp_eq (portable_correct _) dflt ha hb hc hj hd trivial]

example := C49_binary_partial (fun x y => x + y) 4 0 (r := [3, 2]) demoT_denotes (denotes_fromContiguous (s := [2]) (f := fun i => i.getD 0 0))
  (compatible_of_ok rfl) (joint_of_ok rfl) (by decide) (.inl (by decide))

/-- **C49, binary operators.** The elements of the result. -/
theorem C49_binary_value_partial (f : α → α → α) (L : Nat) (dflt : α) {a b : Arr α} {s t r : List Nat}
    {fa fb : List Nat → α} (ha : a.Denotes s fa) (hb : b.Denotes t fb) (hc : Compatible s t) (hj : IsJoint s t r)
    (hd : r.length ≤ 32) (hn : numel r ≠ 0 ∨ Reached a ∧ Reached b) :
    ∃ c, a.binOp (fun x y => .ok (f x y)) (simdKernels f L) dflt b = .ok c ∧
      c.Denotes r fun idx => f (fa (broadcastIndex s idx)) (fb (broadcastIndex t idx)) := by
  rw [C49_binary_partial f L dflt ha hb hc hj hd hn]
  exact C05_elementwise _ dflt ha hb hc hj hd fun _ _ => rfl

example := C49_binary_value_partial (fun x y => x + y) 4 0 (r := [3, 2]) demoT_denotes
  (denotes_fromContiguous (s := [2]) (f := fun i => i.getD 0 0)) (compatible_of_ok rfl) (joint_of_ok rfl) (by decide) (.inl (by decide))

/-- **C49, binary operators.** Incompatible shapes are rejected alike. -/
theorem C49_binary_incompatible (f : α → α → α) (L : Nat) (dflt : α) {a b : Arr α} (h : ¬ Compatible a.shape b.shape) :
    a.binOp (fun x y => .ok (f x y)) (simdKernels f L) dflt b = .error .panic := C05_incompatible _ _ dflt h

example := C49_binary_incompatible (fun x y => x + y) 4 0 (a := demo) (b := demoT) fun h => absurd (h 0) (by decide)

/-- **C49, array-scalar operators**, on arrays of any layout and size. -/
theorem C49_scalar (f : α → α → α) (L : Nat) (dflt : α) {a : Arr α} {s : List Nat} {fa : List Nat → α} (v : α)
    (ha : a.Denotes s fa) (hd : s.length ≤ 32) :
    a.binOpScalar (fun x y => .ok (f x y)) (simdKernels f L) dflt v =
      a.binOpScalar (fun x y => .ok (f x y)) (portableKernels fun x y => .ok (f x y)) dflt v := by
  by_cases h0 : numel s = 0
  · obtain ⟨rfl, hla, _⟩ := ha
    unfold Arr.binOpScalar
    rw [binScalarKernel_empty f L hla.symm h0 _ ⟨v, rfl⟩]
  · rw [binOpScalar_eq (simd_correct f L) dflt ha v hd h0, binOpScalar_eq (portable_correct _) dflt ha v hd trivial]

example := C49_scalar (fun x y => x + y) 4 0 5 demoT_denotes (by decide)

/-- **C49, negation**, of arrays of any layout and size. -/
theorem C49_neg (g : α → α) (L : Nat) (dflt : α) {a : Arr α} {s : List Nat} {fa : List Nat → α}
    (ha : a.Denotes s fa) (hd : s.length ≤ 32) :
    a.neg (fun x => .ok (g x)) (simdNegKernels g L) dflt =
      a.neg (fun x => .ok (g x)) (portableNeg fun x => .ok (g x)) dflt := by
  by_cases h0 : numel s = 0
  · obtain ⟨rfl, hla, _⟩ := ha
    unfold Arr.neg
    rw [negKernel_empty g L hla.symm h0]
  · rw [neg_eq (simdNeg_correct g L) dflt ha hd h0, neg_eq (portableNeg_correct _) dflt ha hd trivial]

example := C49_neg (fun x => 100 - x) 4 0 demoT_denotes (by decide)

/-- **C49, compound assignment.** `a op= b` with the vector kernels updates a contiguous array as the portable loops do, for
any `b` stored elsewhere. -/
theorem C49_assign_partial (f : α → α → α) (L : Nat) {o a b : Arr α} {t : List Nat} {fa fb : List Nat → α} (ho : Fresh o)
    (hh : History NoBroadcast o a) (hc : a.isContiguous = true) (hw : a.flags.writeable = true)
    (ha : a.Denotes a.shape fa) (hb : b.Denotes t fb) (hbt : BroadcastsTo t a.shape) (hd : a.shape.length ≤ 32)
    (hn : numel a.shape ≠ 0 ∨ Reached b) :
    ∃ buf', a.opAssign (fun x y => .ok (f x y)) (simdKernels f L) false b = .ok buf' ∧
      UpdatedTo a buf' fun idx => f (fa idx) (fb (broadcastIndex t idx)) := by
  by_cases h0 : numel a.shape = 0
  · rw [opAssign_empty f L ha.2.1 (by rw [hb.2.1, hb.1]) (fun _ => by rw [hb.1]; exact hbt) h0 ⟨o, ho, hh⟩
      (hn.resolve_left fun h => h h0) (fun h => by cases h)]
    exact assign_of_correct (portable_correct _) ho hh hc hw ha hb hbt hd trivial fun _ _ => rfl
  · exact assign_of_correct (simd_correct f L) ho hh hc hw ha hb hbt hd h0 fun _ _ => rfl

example := C49_assign_partial (fun x y => x + y) 4 demo_fresh .refl rfl rfl demo_denotes
  (denotes_fromContiguous (s := [3]) (f := fun i => i.getD 0 0)) (by decide) (by decide) (.inl (by decide))

/-- **C49, compound assignment**, right-hand side in the same allocation: no element of `b` may lie in a cell of `a` that
precedes the cell updated with it. -/
theorem C49_assign_shared_partial (f : α → α → α) (L : Nat) {o a b : Arr α} {fa fb : List Nat → α} (ho : Fresh o)
    (hh : History NoBroadcast o a) (hc : a.isContiguous = true) (hw : a.flags.writeable = true)
    (ha : a.Denotes a.shape fa) (hb : b.Denotes a.shape fb) (hbuf : b.buf = a.buf) (hd : a.shape.length ≤ 32)
    (hn : numel a.shape ≠ 0 ∨ Reached b)
    (hsep : ∀ i j, InB i a.shape → InB j a.shape → rank j a.shape < rank i a.shape →
      b.off + offset i b.stride ≠ a.off + offset j a.stride) :
    ∃ buf', a.opAssign (fun x y => .ok (f x y)) (simdKernels f L) true b = .ok buf' ∧
      UpdatedTo a buf' fun idx => f (fa idx) (fb idx) := by
  by_cases h0 : numel a.shape = 0
  · rw [opAssign_empty f L ha.2.1 (by rw [hb.2.1, hb.1]) (fun h => absurd hb.1 h) h0 ⟨o, ho, hh⟩
      (hn.resolve_left fun h => h h0) (fun _ => hbuf)]
    exact assign_shared_of_correct (portable_correct _) ho hh hc hw ha hb hbuf hd hsep trivial fun _ _ => rfl
  · exact assign_shared_of_correct (simd_correct f L) ho hh hc hw ha hb hbuf hd hsep h0 fun _ _ => rfl

example := C49_assign_shared_partial (fun x y => x + y) 4 demo_fresh .refl rfl rfl demo_denotes demo_denotes rfl (by decide)
  (.inl (by decide)) fun i j hi hj h => by
    rw [show demo.stride = strideFromShape [2, 3] from rfl, show demo.shape = [2, 3] from rfl] at *
    rw [offset_strideFromShape hi.length, offset_strideFromShape hj.length]; omega

/-- **C49, compound assignment**, scalar right-hand side. -/
theorem C49_assign_scalar_partial (f : α → α → α) (L : Nat) {o a : Arr α} {fa : List Nat → α} (v : α) (ho : Fresh o)
    (hh : History NoBroadcast o a) (hc : a.isContiguous = true) (hw : a.flags.writeable = true)
    (ha : a.Denotes a.shape fa) (hd : a.shape.length ≤ 32) :
    ∃ buf', a.opAssignScalar (fun x y => .ok (f x y)) (simdKernels f L) v = .ok buf' ∧
      UpdatedTo a buf' fun idx => f (fa idx) v := by
  by_cases h0 : numel a.shape = 0
  · have : a.opAssignScalar (fun x y => .ok (f x y)) (simdKernels f L) v =
        a.opAssignScalar (fun x y => .ok (f x y)) (portableKernels fun x y => .ok (f x y)) v := by
      unfold Arr.opAssignScalar
      rw [binScalarKernel_empty f L ha.2.1.symm h0 _ ⟨v, rfl⟩]
    rw [this]
    exact assign_scalar_of_correct (portable_correct _) v ho hh hc hw ha hd trivial fun _ _ => rfl
  · exact assign_scalar_of_correct (simd_correct f L) v ho hh hc hw ha hd h0 fun _ _ => rfl

example := C49_assign_scalar_partial (fun x y => x + y) 4 5 demo_fresh .refl rfl rfl demo_denotes (by decide)

/-- **C49 for arbitrary empty layouts is false**: the vector kernel for a constant would read an empty array of stride 0 that points
to no memory. No view operation makes such an array. -/
theorem C49_binary_unreached_false : ∃ a b : Arr Nat, a.Denotes [0] (fun _ => 0) ∧ b.Denotes [0] (fun _ => 0) ∧
    a.binOp addOp (simdKernels (fun x y => x + y) 2) 0 b = .error .oob ∧
    (a.binOp addOp (portableKernels addOp) 0 b).isOk = true :=
  ⟨{ Arr.fromContiguousOwnedBuffer [0] [] with stride := [0] },
    { Arr.fromContiguousOwnedBuffer [0] [] with stride := [0] },
    ⟨rfl, rfl, fun idx h => by have := h.pos; simp at this⟩, ⟨rfl, rfl, fun idx h => by have := h.pos; simp at this⟩,
    by decide +kernel, by decide +kernel⟩

/-- **C49 is false for overlapping views.** `x` and `y` are the last and the first eight of nine ones; `x += y` gives running
sums with the portable loop, but twos with the vector kernel for `f64`, which reads four vectors before it writes. -/
theorem C49_overlap_false : ∃ x y : Arr Nat,
    (Arr.fromContiguousOwnedBuffer [9] [1, 1, 1, 1, 1, 1, 1, 1, 1]).slice [.range 1 9] = .ok x ∧
    (Arr.fromContiguousOwnedBuffer [9] [1, 1, 1, 1, 1, 1, 1, 1, 1]).slice [.range 0 8] = .ok y ∧
    x.opAssign addOp (portableKernels addOp) true y = .ok [1, 2, 3, 4, 5, 6, 7, 8, 9] ∧
    x.opAssign addOp (simdKernels (fun x y => x + y) 2) true y = .ok [1, 2, 2, 2, 2, 2, 2, 2, 2] :=
  ⟨_, _, rfl, rfl, rfl, by decide +kernel⟩

/-- empty operands: a transposed one, and one that is broadcast along the empty axis -/
example : (do
      let v ← (Arr.fromContiguousOwnedBuffer [3, 0] ([] : List Nat)).transpose 0 1
      let c ← v.binOp addOp (simdKernels (fun x y => x + y) 2) 0 (Arr.fromContiguousOwnedBuffer [3] [1, 2, 3])
      return (c.shape, c.buf)) = .ok ([0, 3], []) := by decide +kernel
example : Reached (Arr.fromContiguousOwnedBuffer [3, 0] ([] : List Nat)) := ⟨_, ⟨[3, 0], [], rfl, rfl⟩, .refl⟩

/-- nine elements, a block of eight and a tail of one; a strided and a broadcast operand -/
example : (do
      let c ← (Arr.fromContiguousOwnedBuffer [9] [1, 2, 3, 4, 5, 6, 7, 8, 9]).binOp addOp (simdKernels (fun x y => x + y) 2) 0
        (Arr.fromContiguousOwnedBuffer [9] [10, 20, 30, 40, 50, 60, 70, 80, 90])
      c.flatiter) = .ok [11, 22, 33, 44, 55, 66, 77, 88, 99] := by decide +kernel
example : (do
      let v ← (Arr.fromContiguousOwnedBuffer [9, 2] (List.range 18)).slice [.range 0 9, .at 1]
      let c ← v.binOp addOp (simdKernels (fun x y => x + y) 2) 0 (Arr.fromContiguousOwnedBuffer [1] [100])
      c.flatiter) = .ok [101, 103, 105, 107, 109, 111, 113, 115, 117] := by decide +kernel

/-! ## reductions -/

/-- **C49, sum** of any array, for `f32` and `f64`. -/
theorem C49_sum [AddCommMonoid α] {L : Nat} (hL : L = 2 ∨ L = 4) (a : Arr α) :
    a.reduceAll (fun v acc => acc + v) 0 (simdRed (fun v acc => acc + v) (fun x y => x + y) 0 L) = a.sum := by
  have : Std.Associative (fun x y : α => x + y) := ⟨add_assoc⟩
  have : Std.Commutative (fun x y : α => x + y) := ⟨add_comm⟩
  rw [simdRed_eq (op := fun x y : α => x + y) (fun _ _ => rfl) (add_zero 0) hL]; rfl

example := C49_sum (L := 4) (.inr rfl) demo

/-- The kernels of `/` in the portable build and in the vector builds. -/
def StockDiv {α : Type} [Div α] (B : BinKernels α) : Prop :=
  B = portableKernels (fun x y => .ok (x / y)) ∨ ∃ L, B = simdKernels (fun x y => x / y) L

/-- Dividing by a number is the same in all builds. -/
theorem stockDiv_eq {α : Type} [Div α] {B : BinKernels α} (hB : StockDiv B) (dflt : α) {a : Arr α} {s : List Nat} {fa : List Nat → α} (v : α)
    (ha : a.Denotes s fa) (hd : s.length ≤ 32) :
    a.binOpScalar (fun x y => .ok (x / y)) B dflt v = a.binOpScalar (fun x y => .ok (x / y)) (portableKernels fun x y => .ok (x / y)) dflt v := by
  rcases hB with rfl | ⟨L, rfl⟩
  · rfl
  · exact C49_scalar _ L dflt v ha hd

/-- **C49** (part): `mean` is the same in all builds, for arrays which are in fact summed up in full. Missing: as in C12. -/
theorem C49_mean_partial {α : Type} [DivisionRing α] {L : Nat} (hL : L = 2 ∨ L = 4) (L' : Nat) (dflt : α) {a : Arr α} {s : List Nat} {f : List Nat → α}
    (ha : a.Denotes s f) (hd : s.length ≤ 32) (hg : Reducible s a.stride) (cast : Nat → α) :
    a.meanWith (simdRed (fun v acc => acc + v) (fun x y => x + y) 0 L) (simdKernels (fun x y => x / y) L') cast dflt = a.mean cast dflt := by
  obtain ⟨r, h1, h2⟩ := C09_sum_partial ha hd hg
  unfold Arr.mean Arr.meanWith
  rw [C49_sum hL a, show a.reduceAll (fun v acc => acc + v) 0 (portableRed (fun v acc => acc + v) 0) = _ from h1, h1, ok_bind, ok_bind]
  exact C49_scalar _ L' dflt _ h2 (by simp)

example := C49_mean_partial (L := 4) (.inr rfl) 4 0 (denotes_fromContiguous (s := [2, 5]) (f := fun i => (i.getD 1 0 : ℚ))) (by decide)
  (.inr (by decide)) fun n => n

example : (Arr.fromContiguousOwnedBuffer [2, 5] ([1, 2, 3, 4, 5, 6, 7, 8, 9, 10] : List Rat)).meanWith
    (simdRed (fun v acc => acc + v) (fun x y => x + y) 0 2) (simdKernels (fun x y => x / y) 2) (fun n => (n : Rat)) 0 =
    .ok (Arr.fromContiguousOwnedBuffer [] [11 / 2]) := by decide +kernel

/-- **C49**: `mean_along` is the same in all builds. -/
theorem C49_mean_along {α : Type} [AddCommMonoid α] [Div α] {B : BinKernels α} (hB : StockDiv B) (dflt : α) {a : Arr α} {s : List Nat} {f : List Nat → α}
    (ha : a.Denotes s f) (hd : s.length ≤ 32) {ks : List Nat} (hr : ∀ k ∈ ks, k < s.length) (hnd : ks.Nodup) (cast : Nat → α) :
    a.meanAlongWith B cast dflt (ks.map Int.ofNat) = a.meanAlong cast dflt (ks.map Int.ofNat) := by
  obtain ⟨r, h1, h2⟩ := C10_sum_along ha hd (axesAre_ofNat hr) hnd
  have hlen : (dropAxes ks s).length ≤ 32 := by
    have : (dropAxes ks s).length ≤ s.length := by
      unfold dropAxes
      rw [List.length_map]
      exact le_trans (List.length_filter_le _ _) (by simp)
    omega
  unfold Arr.meanAlong Arr.meanAlongWith
  have hcount := meanCount_ok (s := s) (axes := ks.map Int.ofNat) rfl hr [] (by simpa using hnd)
  rw [maskProd_nil, List.nil_append] at hcount
  rw [ha.1, hcount, ok_bind, ok_bind, h1, ok_bind, ok_bind]
  exact stockDiv_eq hB dflt _ h2 hlen

example := C49_mean_along (B := simdKernels (fun x y => x / y) 4) (.inr ⟨4, rfl⟩) 0
  (denotes_fromContiguous (s := [2, 5]) (f := fun i => (i.getD 1 0 : ℚ))) (by decide) (ks := [1]) (by decide) (by decide) fun n => n

/-- **C49, product** of any array. -/
theorem C49_product [CommMonoid α] {L : Nat} (hL : L = 2 ∨ L = 4) (a : Arr α) :
    a.reduceAll (fun v acc => acc * v) 1 (simdProduct (fun v acc => acc * v) (fun x y => x * y) 1 L) = a.product := by
  have : Std.Associative (fun x y : α => x * y) := ⟨mul_assoc⟩
  have : Std.Commutative (fun x y : α => x * y) := ⟨mul_comm⟩
  rw [simdProduct_eq (op := fun x y : α => x * y) (fun _ _ => rfl) (mul_one 1) hL]; rfl

example := C49_product (L := 4) (.inr rfl) demo

/-- **C49, min** of any array over a linear order. -/
theorem C49_min [LinearOrder α] {L : Nat} (hL : L = 2 ∨ L = 4) (top : α) (a : Arr α) :
    a.reduceAll (partialMin ltb) top (simdRed (partialMin ltb) min top L) = a.min ltb top := by
  rw [simdRed_eq (fun v acc => by rw [min_step, min_comm]) (min_self top) hL]; rfl

example := C49_min (L := 4) (.inr rfl) 255 demo

/-- **C49, max** of any array over a linear order. -/
theorem C49_max [LinearOrder α] {L : Nat} (hL : L = 2 ∨ L = 4) (bot : α) (a : Arr α) :
    a.reduceAll (partialMax ltb) bot (simdRed (partialMax ltb) max bot L) = a.max ltb bot := by
  rw [simdRed_eq (fun v acc => by rw [max_step, max_comm]) (max_self bot) hL]; rfl

example := C49_max (L := 4) (.inr rfl) 0 demo

/-- seventeen elements: two blocks of eight and a tail -/
example : (do
      let r ← (Arr.fromContiguousOwnedBuffer [17] (List.range 17)).reduceAll (fun v acc => acc + v) 0
        (simdRed (fun v acc => acc + v) (fun x y => x + y) 0 2)
      r.value) = .ok 136 := by decide +kernel

/-- Numbers with a NaN (`none`), which is not comparable with anything. -/
def nanLt : Option Int → Option Int → Bool
  | some x, some y => decide (x < y)
  | _, _ => false

/-- `vminq` returns NaN if one of the lanes is NaN. -/
def nanMin : Option Int → Option Int → Option Int
  | some x, some y => some (min x y)
  | _, _ => none

/-- **C49 does not extend to NaN**: the portable `min` skips it, the vector instruction returns it. -/
theorem C49_nan_false :
    (do let r ← (Arr.fromContiguousOwnedBuffer [8] [some 5, none, some 3, some 4, some 5, some 6, some 7, some 8]).min nanLt
          (some 100)
        r.value) = .ok (some 3) ∧
    (do let r ← (Arr.fromContiguousOwnedBuffer [8] [some 5, none, some 3, some 4, some 5, some 6, some 7, some 8]).reduceAll
          (partialMin nanLt) (some 100) (simdRed (partialMin nanLt) nanMin (some 100) 2)
        r.value) = .ok none := by decide +kernel

/-! ## sums of products -/

/-- **C49, sums of products.** The vector versions of `sum_of_products_muladd`, `sum_of_scaled_array` and `dot_product`
leave the destination as the portable ones do, for every count; the only requirement is that the operands lie inside their
buffers. -/
theorem C49_sop [CommSemiring α] {L : Nat} (hL : L = 2 ∨ L = 4) {data data' dst : List α} {c : α} {p p' q n : Nat} (hn : 0 < n)
    (h1 : p + n ≤ data.length) (h2 : p' + n ≤ data'.length) (h3 : q + n ≤ dst.length) :
    (simdSop L).muladd c data p dst q n = portableSop.muladd c data p dst q n ∧
    (simdSop L).scaledArray c data p dst q n = portableSop.scaledArray c data p dst q n ∧
    (simdSop L).dot data p data' p' dst q n = portableSop.dot data p data' p' dst q n := by
  have hS := simdSop_correct (α := α) hL
  have hP := portableSop_correct (α := α)
  exact ⟨(hS.muladd hn h1 h3).trans (hP.muladd hn h1 h3).symm,
    (hS.scaledArray hn h1 (by omega)).trans (hP.scaledArray hn h1 (by omega)).symm,
    (hS.dot hn h1 h2 (by omega)).trans (hP.dot hn h1 h2 (by omega)).symm⟩

example := C49_sop (L := 4) (.inr rfl) (data := List.range 21) (data' := List.range 21) (dst := List.replicate 21 1) (c := 2) (p := 0)
  (p' := 0) (q := 0) (n := 21) (by decide) (by decide) (by decide) (by decide)

/-- **C49, einsum.** With the vector kernels einsum computes the Einstein sum; with `C28_einsum_partial` for the portable
kernels, the two builds agree. -/
theorem C49_einsum_partial [CommSemiring α] {L : Nat} (hL : L = 2 ∨ L = 4) {ops : List (Arr α)}
    {fs : List (Factor α)} {out rest : List Char} {dim : Char → Nat} (hw : WellFormed fs out rest dim)
    (hd : List.Forall₂ (fun a f => a.Denotes (f.letters.map dim) f.elem) ops fs) (hargs : ops.length < 16)
    (hdims : ∀ f ∈ fs, f.letters.length ≤ 32) (htot : (out ++ rest).length ≤ 32) (hne : out ++ rest ≠ []) :
    ∃ r, einsum (simdSop L) ops (fs.map (·.letters)) out = .ok r ∧ r.Denotes (out.map dim) (einsteinSum out rest dim fs) :=
  C28_einsum_partial (simdSop_correct hL) hw hd hargs hdims htot hne

example := C49_einsum_partial (L := 4) (.inr rfl) (ein_wellFormed (fun i => (i.headD 0 : Int)) fun i => i.headD 0)
  (.cons (denotes_fromContiguous (s := [2, 3])) (.cons (denotes_fromContiguous (s := [3, 2])) .nil))
  (by simp) (by decide) (by decide) (by decide)

/-- **C49, matmul** of non-empty matrices. -/
theorem C49_matmul_partial [CommSemiring α] {L : Nat} (hL : L = 2 ∨ L = 4) {a b : Arr α} {m k n : Nat}
    {f g : List Nat → α} (ha : a.Denotes [m, k] f) (hb : b.Denotes [k, n] g) (hm : 0 < m) (hk : 0 < k) (hn : 0 < n) :
    ∃ r, a.matmul (simdSop L) b = .ok r ∧ r.Denotes [m, n]
      (fun idx => innerProduct k (fun t => f [idx.getD 0 0, t]) (fun t => g [t, idx.getD 1 0])) :=
  C30_matmul_partial (simdSop_correct hL) ha hb hm hk hn

example := C49_matmul_partial (L := 4) (.inr rfl) (denotes_fromContiguous (s := [2, 3]) (f := fun i => (i.getD 0 0 : Int)))
  (denotes_fromContiguous (s := [3, 4]) (f := fun _ => 2)) (by decide) (by decide) (by decide)

/-- eleven products: a block of eight, one vector of two, a tail of one -/
example : (simdSop 2).dot (List.range 11) 0 (List.range 11) 0 [7] 0 11 = .ok [392] := by decide +kernel
example : (simdSop 2).muladd 10 (List.range 11) 0 (List.replicate 11 1) 0 11 =
    .ok [1, 11, 21, 31, 41, 51, 61, 71, 81, 91, 101] := by decide +kernel
example : (simdSop 4).scaledArray 2 (List.range 21) 0 [5] 0 21 = .ok [425] := by decide +kernel

end Verif
