import Verif.Lemmas.IeeeOrder
import Verif.Props.IeeeExact

/-!
# C72 Float reductions of elements that are not negative
-/

namespace Verif

variable {p emax : Nat} [NeZero p] [NeZero emax]

/-! ## sums are not NaN and not below any of their terms -/

/-- **C72** (part): `sum`, portable and vector kernels. Missing: the broadcast views excluded in C09. -/
theorem C72_sum_partial {K : RedKernels (Ieee p emax)} (hK : StockSum K) {a : Arr (Ieee p emax)} {s : List Nat}
    {f : List Nat → Ieee p emax} (ha : a.Denotes s f) (hd : s.length ≤ 32) (hg : Reducible s a.stride)
    (hf : ∀ idx, InB idx s → NonNegative (f idx)) :
    ∃ r v, a.reduceAll (fun v acc => acc + v) 0 K = .ok r ∧ r.Denotes [] (fun _ => v) ∧ NonNegative v ∧
      ∀ idx, InB idx s → AtLeast v (f idx) := by
  obtain ⟨r, f', h1, h2, h3⟩ := transfer_sum bound_leaf hK ha hd hg
  obtain ⟨g1, g2⟩ := bound_sum h3 fun i hi => hf i (mem_indices.1 hi)
  exact ⟨r, f' [], h1, denotes_nil h2, g1, fun idx hi => g2 idx (mem_indices.2 hi)⟩

example := C72_sum_partial (K := simdRed (fun v acc => acc + v) (fun x y => x + y) 0 4) (.inr (.inr rfl))
  (denotes_fromContiguous (s := [3, 2]) (f := fun _ => (Ieee.ofRat 7 : F32))) (by decide) (.inr (by decide)) (fun _ _ => (by unfold NonNegative; decide +kernel : NonNegative (Ieee.ofRat 7 : F32)))

/-- **C72**: `sum_along`. -/
theorem C72_sum_along {a : Arr (Ieee p emax)} {s : List Nat} {f : List Nat → Ieee p emax} (ha : a.Denotes s f)
    (hd : s.length ≤ 32) {axes : List Int} {ks : List Nat} (hax : AxesAre axes s.length ks) (hnd : ks.Nodup) :
    ∃ r f', a.sumAlong axes = .ok r ∧ r.Denotes (dropAxes ks s) f' ∧ ∀ J, InB J (dropAxes ks s) →
      (∀ i ∈ fibre ks s J, NonNegative (f i)) → NonNegative (f' J) ∧ ∀ i ∈ fibre ks s J, AtLeast (f' J) (f i) := by
  obtain ⟨r, f', h1, h2, h3⟩ := transfer_sumAlong bound_leaf ha hd hax hnd
  exact ⟨r, f', h1, h2, fun J hJ hf => bound_sum (h3 J hJ) hf⟩

example := C72_sum_along (denotes_fromContiguous (s := [3, 2]) (f := fun _ => (Ieee.ofRat 7 : F32))) (by decide) (axes := [-1]) (ks := [1])
  ⟨⟨by decide, by decide⟩, trivial⟩ (by decide)

/-- **C72**: traces. -/
theorem C72_trace_along {a : Arr (Ieee p emax)} {s : List Nat} {f : List Nat → Ieee p emax} (ha : a.Denotes s f)
    (hd : s.length ≤ 32) {o ax1 ax2 : Int} {i j n1 n2 : Nat} (h1 : AxisIs ax1 s.length i) (h2 : AxisIs ax2 s.length j)
    (hij : i ≠ j) (hn1 : s[i]? = some n1) (hn2 : s[j]? = some n2) (ho1 : -o < n1 ∨ 0 ≤ o) (ho2 : o < n2 ∨ o < 0) :
    ∃ r f', a.offsetTraceAlong o ax1 ax2 = .ok r ∧ r.Denotes (others i j s) f' ∧ ∀ J, InB J (others i j s) →
      (∀ k < min (n1 - (-o).toNat) (n2 - o.toNat), NonNegative (f (putTwo i (k + (-o).toNat) j (k + o.toNat) s.length 0 J))) →
      NonNegative (f' J) ∧ ∀ k < min (n1 - (-o).toNat) (n2 - o.toNat),
        AtLeast (f' J) (f (putTwo i (k + (-o).toNat) j (k + o.toNat) s.length 0 J)) := by
  obtain ⟨r, f', g1, g2, g3⟩ := transfer_traceAlong bound_leaf ha hd h1 h2 hij hn1 hn2 ho1 ho2
  refine ⟨r, f', g1, g2, fun J hJ hf => ?_⟩
  obtain ⟨k1, k2⟩ := bound_sum (g3 J hJ) fun k hk => hf k (List.mem_range.1 hk)
  exact ⟨k1, fun k hk => k2 k (List.mem_range.2 hk)⟩

example := C72_trace_along (denotes_fromContiguous (s := [3, 2]) (f := fun _ => (Ieee.ofRat 7 : F32))) (by decide) (o := -1) (ax1 := 0) (ax2 := -1) (i := 0) (j := 1)
  (n1 := 3) (n2 := 2) ⟨by decide, by decide⟩ ⟨by decide, by decide⟩ (by decide) rfl rfl (by decide) (by decide)

/-! ## products and sums of products are not negative -/

theorem one_notNegative : NotNegative (1 : Ieee p emax) :=
  ⟨by simp [show (1 : Ieee p emax) = .num false 1 (by norm_num) Ieee.isNumber_one from rfl], by rw [Ieee.one_val]; norm_num⟩

/-- **C72** (part): `product`. Missing: as for `sum`. -/
theorem C72_product_partial {K : RedKernels (Ieee p emax)} (hK : StockProduct K) {a : Arr (Ieee p emax)} {s : List Nat}
    {f : List Nat → Ieee p emax} (ha : a.Denotes s f) (hd : s.length ≤ 32) (hg : Reducible s a.stride)
    (hf : ∀ idx, InB idx s → NotNegative (f idx)) :
    ∃ r v, a.reduceAll (fun v acc => acc * v) 1 K = .ok r ∧ r.Denotes [] (fun _ => v) ∧ NotNegative v := by
  obtain ⟨r, f', h1, h2, h3⟩ := transfer_product (count_leaf NotNegative) hK ha hd hg
  exact ⟨r, f' [], h1, denotes_nil h2, good_prod one_notNegative h3 fun i hi => hf i (mem_indices.1 hi)⟩

example := C72_product_partial (K := simdProduct (fun v acc => acc * v) (fun x y => x * y) 1 4) (.inr (.inr rfl))
  (denotes_fromContiguous (s := [3, 2]) (f := fun _ => (Ieee.ofRat 7 : F32))) (by decide) (.inr (by decide)) (fun _ _ => (by unfold NotNegative; decide +kernel : NotNegative (Ieee.ofRat 7 : F32)))

/-- **C72**: `product_along`. -/
theorem C72_product_along {a : Arr (Ieee p emax)} {s : List Nat} {f : List Nat → Ieee p emax} (ha : a.Denotes s f)
    (hd : s.length ≤ 32) {axes : List Int} {ks : List Nat} (hax : AxesAre axes s.length ks) (hnd : ks.Nodup) :
    ∃ r f', a.productAlong axes = .ok r ∧ r.Denotes (dropAxes ks s) f' ∧ ∀ J, InB J (dropAxes ks s) →
      (∀ i ∈ fibre ks s J, NotNegative (f i)) → NotNegative (f' J) := by
  obtain ⟨r, f', h1, h2, h3⟩ := transfer_productAlong (count_leaf NotNegative) ha hd hax hnd
  exact ⟨r, f', h1, h2, fun J hJ hf => good_prod one_notNegative (h3 J hJ) hf⟩

example := C72_product_along (denotes_fromContiguous (s := [3, 2]) (f := fun _ => (Ieee.ofRat 7 : F32))) (by decide) (axes := [-1]) (ks := [1])
  ⟨⟨by decide, by decide⟩, trivial⟩ (by decide)

/-- **C72**: `dot`. -/
theorem C72_dot {a b : Arr (Ieee p emax)} {n : Nat} {f g : List Nat → Ieee p emax} (ha : a.Denotes [n] f) (hb : b.Denotes [n] g)
    (hf : ∀ i < n, NotNegative (f [i])) (hg : ∀ i < n, NotNegative (g [i])) :
    ∃ r v, a.dot b = .ok r ∧ r.Denotes [] (fun _ => v) ∧ NotNegative v := by
  obtain ⟨r, f', h1, h2, h3⟩ := transfer_dot (count_leaf NotNegative) ha hb
  exact ⟨r, f' [], h1, denotes_nil h2, good_inner h3 hf hg⟩

example := C72_dot (denotes_fromContiguous (s := [3]) (f := fun _ => (Ieee.ofRat 7 : F32))) (denotes_fromContiguous (s := [3]) (f := fun _ => (Ieee.ofRat 7 : F32)))
  (fun _ _ => (by unfold NotNegative; decide +kernel : NotNegative (Ieee.ofRat 7 : F32))) (fun _ _ => (by unfold NotNegative; decide +kernel : NotNegative (Ieee.ofRat 7 : F32)))

/-- **C72**: matrix x vector. -/
theorem C72_matvec {K : SopKernels (Ieee p emax)} (hK : StockSop K) {a b : Arr (Ieee p emax)} {m k : Nat}
    {f g : List Nat → Ieee p emax} (ha : a.Denotes [m, k] f) (hb : b.Denotes [k] g) :
    ∃ r f', a.matmul K b = .ok r ∧ r.Denotes [m] f' ∧ ∀ i < m,
      (∀ t < k, NotNegative (f [i, t])) → (∀ t < k, NotNegative (g [t])) → NotNegative (f' [i]) := by
  obtain ⟨r, f', h1, h2, h3⟩ := transfer_matvec (count_leaf NotNegative) hK ha hb
  exact ⟨r, f', h1, h2, fun i hi hf hg => good_inner (h3 [i] ⟨hi, trivial⟩) hf hg⟩

example := C72_matvec (K := simdSop 4) (.inr (.inr rfl)) (denotes_fromContiguous (s := [2, 3]) (f := fun _ => (Ieee.ofRat 7 : F32))) (denotes_fromContiguous (s := [3]) (f := fun _ => (Ieee.ofRat 7 : F32)))

/-- **C72** (part): matrix x matrix. Missing: extents 0. -/
theorem C72_matmul_partial {K : SopKernels (Ieee p emax)} (hK : StockSop K) {a b : Arr (Ieee p emax)} {m k n : Nat}
    {f g : List Nat → Ieee p emax} (ha : a.Denotes [m, k] f) (hb : b.Denotes [k, n] g) (hm : 0 < m) (hk : 0 < k) (hn : 0 < n) :
    ∃ r f', a.matmul K b = .ok r ∧ r.Denotes [m, n] f' ∧ ∀ i < m, ∀ j < n,
      (∀ t < k, NotNegative (f [i, t])) → (∀ t < k, NotNegative (g [t, j])) → NotNegative (f' [i, j]) := by
  obtain ⟨r, f', h1, h2, h3⟩ := transfer_matmul (count_leaf NotNegative) hK ha hb hm hk hn fun x => Tagged.live_live _
  exact ⟨r, f', h1, h2, fun i hi j hj hf hg => good_inner (h3 [i, j] ⟨hi, hj, trivial⟩) hf hg⟩

example := C72_matmul_partial (K := simdSop 4) (.inr (.inr rfl)) (denotes_fromContiguous (s := [2, 3]) (f := fun _ => (Ieee.ofRat 7 : F32)))
  (denotes_fromContiguous (s := [3, 2]) (f := fun _ => (Ieee.ofRat 7 : F32))) (by decide) (by decide) (by decide)

/-- **C72** (part): batches of matrix products. Missing: extents 0. -/
theorem C72_bmm_partial {K : SopKernels (Ieee p emax)} (hK : StockSop K) {a b : Arr (Ieee p emax)} {B m k n : Nat}
    {f g : List Nat → Ieee p emax} (ha : a.Denotes [B, m, k] f) (hb : b.Denotes [B, k, n] g) (hB : 0 < B) (hm : 0 < m)
    (hk : 0 < k) (hn : 0 < n) :
    ∃ r f', a.bmm K b = .ok r ∧ r.Denotes [B, m, n] f' ∧ ∀ x < B, ∀ i < m, ∀ j < n,
      (∀ t < k, NotNegative (f [x, i, t])) → (∀ t < k, NotNegative (g [x, t, j])) → NotNegative (f' [x, i, j]) := by
  obtain ⟨r, f', h1, h2, h3⟩ := transfer_bmm (count_leaf NotNegative) hK ha hb hB hm hk hn fun x => Tagged.live_live _
  exact ⟨r, f', h1, h2, fun x hx i hi j hj hf hg => good_inner (h3 [x, i, j] ⟨hx, hi, hj, trivial⟩) hf hg⟩

example := C72_bmm_partial (K := simdSop 4) (.inr (.inr rfl)) (denotes_fromContiguous (s := [2, 2, 3]) (f := fun _ => (Ieee.ofRat 7 : F32)))
  (denotes_fromContiguous (s := [2, 3, 2]) (f := fun _ => (Ieee.ofRat 7 : F32))) (by decide) (by decide) (by decide) (by decide)

/-- **C72** (part): `einsum`. Missing: what `C28_einsum_partial` leaves out (extents 0, no letters at all). -/
theorem C72_einsum_partial {K : SopKernels (Ieee p emax)} (hK : StockSop K) {ops : List (Arr (Ieee p emax))}
    {fs : List (Factor (Ieee p emax))} {out rest : List Char} {dim : Char → Nat} (hw : WellFormed fs out rest dim)
    (hd : List.Forall₂ (fun a f => a.Denotes (f.letters.map dim) f.elem) ops fs) (hargs : ops.length < 16)
    (hdims : ∀ f ∈ fs, f.letters.length ≤ 32) (htot : (out ++ rest).length ≤ 32) (hne : out ++ rest ≠ []) :
    ∃ r f', einsum K ops (fs.map (·.letters)) out = .ok r ∧ r.Denotes (out.map dim) f' ∧ ∀ idx, InB idx (out.map dim) →
      (∀ x ∈ entering out rest dim fs idx, NotNegative x) → NotNegative (f' idx) := by
  obtain ⟨r, f', h1, h2, h3⟩ := transfer_einsum (count_leaf NotNegative) hK hw hd hargs hdims htot hne fun x => Tagged.live_live _
  refine ⟨r, f', h1, h2, fun idx hi hm => ?_⟩
  obtain ⟨n1, n2⟩ := wellFormed_nonempty hw hne
  have h := h3 idx hi
  have e : fs.map (Factor.map fun x => Tagged.live (countLeaf NotNegative x)) =
      (fs.map (Factor.map (countLeaf NotNegative))).map (Factor.map .live) := by
    rw [List.map_map]; rfl
  rw [e, Tagged.einsteinSum_live (by simpa using n1) n2, einsteinSum_congr fun x hx => countLeaf_good (hm x hx)] at h
  refine h.2 ?_
  have e1 := proj_einsteinSum (RingHom.fst ℕ ℕ) out rest dim (fs.map (Factor.map fun _ => (1, 1))) idx
  have e2 := proj_einsteinSum (RingHom.snd ℕ ℕ) out rest dim (fs.map (Factor.map fun _ => (1, 1))) idx
  rw [List.map_map] at e1 e2
  exact e2.trans e1.symm

example := C72_einsum_partial (K := simdSop 4) (.inr (.inr rfl)) (ein_wellFormed (fun _ => (Ieee.ofRat 7 : F32)) (fun _ => (Ieee.ofRat 7 : F32)))
  (.cons (denotes_fromContiguous (s := [2, 3])) (.cons (denotes_fromContiguous (s := [3, 2])) .nil))
  (by simp) (by decide) (by decide) (by decide)

/-! ## what does not hold -/

/-- Sums of products of numbers that are not negative can be NaN: in `f32`, `2^127 * 2 * 0` is infinity times zero. -/
theorem C72_nan_false : (do
      let r ← (Arr.fromContiguousOwnedBuffer [3] [(.ofRat (2 ^ 127) : F32), .ofRat 2, 0]).product
      r.value) = .ok .nan := by decide +kernel

/-- The mean of ten copies of the `f64` nearest to 0.1 is below that number. -/
theorem C72_mean_false : (do
      let r ← (Arr.fromContiguousOwnedBuffer [10] (List.replicate 10 (.ofRat (1 / 10) : F64))).mean (fun n => Ieee.ofRat n) 0
      let v ← r.value
      return decide (v.val < (.ofRat (1 / 10) : F64).val)) = .ok true := by decide +kernel

/-! Cases that meet the hypotheses. -/

example : NonNegative (.ofRat (1 / 10) : F64) ∧ NonNegative (.inf false : F64) ∧ NonNegative (0 : F64) := by
  refine ⟨.inr ?_, .inl rfl, .inr ⟨trivial, le_rfl⟩⟩
  decide +kernel
example : NotNegative (.zero true : F64) ∧ NotNegative (.nan : F64) ∧ NotNegative (.ofRat (1 / 10) : F64) := by
  unfold NotNegative
  decide +kernel
example : ¬ NotNegative (.ofRat (-1 / 10) : F64) ∧ ¬ NonNegative (.nan : F64) := by
  unfold NotNegative NonNegative
  decide +kernel
example : (do
      let r ← (Arr.fromContiguousOwnedBuffer [3] ([16777216, 1, 1].map fun q => (.ofRat q : F32))).sum
      let v ← r.value
      return v.val) = .ok 16777216 := by decide +kernel

end Verif
