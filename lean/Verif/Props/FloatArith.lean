import Verif.Lemmas.FloatMean
import Mathlib.Algebra.Order.Ring.Pow

/-!
# C63 error bounds of floating-point reductions and products, C64 exactness on integers

The same model as everywhere else, run on floating-point numbers with `p` significant bits. `StockSum`, `StockProduct`, `StockSop`:
the kernels of the portable build and of the NEON build, for `f64` and for `f32`.
-/

namespace Verif

open Polynomial

variable {p : Nat} [NeZero p]

/-- elements of precision 24 that are rounded on input, and whose sums and products are rounded again -/
def flDemo (i : List Nat) : Fl 24 := Fl.round (i.getD 0 0 + 1 / 10)

/-- The exact value of the expression, its value on the absolute values, and its counting polynomial. -/
theorem approx_accurate {x : Fl p} {t : ℚ × ℚ × ℕ[X]} (h : Approx p x t) {e b : ℚ} {m n : Nat} (he : t.1 = e) (hb : t.2.1 = b)
    (hc : t.2.2 = C m * X ^ n) : Near p (m - 1 + (n - 1)) x.val e b := by
  rw [← he, ← hb]
  exact h.near.mono (by rw [hc]; exact roundings_le m n)

/-- `(1 + u)^k - 1` is at most `k u / (1 - k u)`, the form in which the bound is usually quoted. -/
theorem C63_gamma {p k : Nat} {x e b : ℚ} (hb : 0 ≤ b) (hk : k * unitRoundoff p < 1) (h : AccurateTo p k x e b) :
    |x - e| ≤ k * unitRoundoff p / (1 - k * unitRoundoff p) * b := by
  refine h.trans (mul_le_mul_of_nonneg_right ?_ hb)
  have hu := unitRoundoff_pos p
  have hu1 : unitRoundoff p ≤ 1 := by
    unfold unitRoundoff
    rw [div_le_one (by positivity)]
    exact one_le_pow₀ (by norm_num)
  rw [le_div_iff₀ (by linarith)]
  have h1 : 1 - k * unitRoundoff p ≤ (1 - unitRoundoff p) ^ k := by
    have := one_add_mul_le_pow (a := -unitRoundoff p) (by linarith) k
    simpa [sub_eq_add_neg] using this
  have h2 : (1 + unitRoundoff p) ^ k * (1 - unitRoundoff p) ^ k ≤ 1 := by
    rw [← mul_pow]
    exact pow_le_one₀ (by nlinarith) (by nlinarith)
  have h3 := one_le_pow_u p k
  nlinarith [mul_le_mul_of_nonneg_left h1 (by linarith : (0 : ℚ) ≤ (1 + unitRoundoff p) ^ k)]

example := C63_gamma (p := 24) (k := 3) (x := 16777217 / 16777216) (e := 1) (b := 1) (by decide +kernel) (by decide +kernel)
  (by unfold AccurateTo; decide +kernel)

/-! ## C63 -/

omit [NeZero p] in
/-- The three components of a sum of elements. -/
theorem leaf_sum {ι : Type} (l : List ι) (h : ι → Fl p) :
    ((l.map fun i => floatLeaf (h i)).sum).1 = (l.map fun i => (h i).val).sum ∧
    ((l.map fun i => floatLeaf (h i)).sum).2.1 = (l.map fun i => |(h i).val|).sum ∧
    ((l.map fun i => floatLeaf (h i)).sum).2.2 = C l.length * X ^ 1 :=
  ⟨proj_sum (RingHom.fst ℚ (ℚ × ℕ[X])) l _, proj_sum ((RingHom.fst ℚ ℕ[X]).comp (RingHom.snd ℚ (ℚ × ℕ[X]))) l _,
    (proj_sum ((RingHom.snd ℚ ℕ[X]).comp (RingHom.snd ℚ (ℚ × ℕ[X]))) l _).trans (count_sum l)⟩

omit [NeZero p] in
theorem leaf_prod {ι : Type} (l : List ι) (h : ι → Fl p) :
    ((l.map fun i => floatLeaf (h i)).prod).1 = (l.map fun i => (h i).val).prod ∧
    ((l.map fun i => floatLeaf (h i)).prod).2.1 = (l.map fun i => |(h i).val|).prod ∧
    ((l.map fun i => floatLeaf (h i)).prod).2.2 = C 1 * X ^ l.length :=
  ⟨proj_prod (RingHom.fst ℚ (ℚ × ℕ[X])) l _, proj_prod ((RingHom.fst ℚ ℕ[X]).comp (RingHom.snd ℚ (ℚ × ℕ[X]))) l _,
    (proj_prod ((RingHom.snd ℚ ℕ[X]).comp (RingHom.snd ℚ (ℚ × ℕ[X]))) l _).trans (count_prod l)⟩

omit [NeZero p] in
theorem leaf_inner (k : Nat) (u v : Nat → Fl p) :
    (innerProduct k (fun t => floatLeaf (u t)) fun t => floatLeaf (v t)).1 =
      innerProduct k (fun t => (u t).val) (fun t => (v t).val) ∧
    (innerProduct k (fun t => floatLeaf (u t)) fun t => floatLeaf (v t)).2.1 =
      innerProduct k (fun t => |(u t).val|) (fun t => |(v t).val|) ∧
    (innerProduct k (fun t => floatLeaf (u t)) fun t => floatLeaf (v t)).2.2 = C k * X ^ 2 :=
  ⟨proj_innerProduct (RingHom.fst ℚ (ℚ × ℕ[X])) k _ _,
    proj_innerProduct ((RingHom.fst ℚ ℕ[X]).comp (RingHom.snd ℚ (ℚ × ℕ[X]))) k _ _,
    (proj_innerProduct ((RingHom.snd ℚ ℕ[X]).comp (RingHom.snd ℚ (ℚ × ℕ[X]))) k _ _).trans (count_innerProduct k)⟩

/-- Inner products: one rounding per term. -/
theorem accurate_inner {x : Fl p} {k : Nat} {u v : Nat → Fl p}
    (h : Approx p x (innerProduct k (fun t => floatLeaf (u t)) fun t => floatLeaf (v t))) :
    AccurateTo p k x.val (innerProduct k (fun t => (u t).val) fun t => (v t).val)
      (innerProduct k (fun t => |(u t).val|) fun t => |(v t).val|) := by
  obtain ⟨e1, e2, e3⟩ := leaf_inner k u v
  by_cases hk : k = 0
  · subst hk
    have := approx_accurate h e1 e2 e3
    exact (this.mono (n := 1) (by simp)).2.trans (by simp [innerProduct])
  · exact ((approx_accurate h e1 e2 e3).mono (by omega)).2

/-- **C63** (part): `sum` of `n` floats is off by at most `(1+u)^(n-1) - 1` times the sum of the absolute values, with the portable
and with the vector kernels. Missing: the broadcast views excluded in C09; overflow and underflow are not modelled. -/
theorem C63_sum_partial {K : RedKernels (Fl p)} (hK : StockSum K) {a : Arr (Fl p)} {s : List Nat} {f : List Nat → Fl p}
    (ha : a.Denotes s f) (hd : s.length ≤ 32) (hg : Reducible s a.stride) :
    ∃ r v, a.reduceAll (fun v acc => acc + v) 0 K = .ok r ∧ r.Denotes [] (fun _ => v) ∧
      AccurateTo p (numel s - 1) v.val (elements s fun i => (f i).val).sum (elements s fun i => |(f i).val|).sum := by
  obtain ⟨r, f', h1, h2, h3⟩ := transfer_sum (approx_leaf (p := p)) hK ha hd hg
  obtain ⟨e1, e2, e3⟩ := leaf_sum (indices s) f
  refine ⟨r, f' [], h1, h2.congr fun idx hi => ?_, ?_⟩
  · cases idx with
    | nil => rfl
    | cons => exact hi.elim
  · have := approx_accurate h3 e1 e2 e3
    rw [length_indices] at this
    exact this.2

example := C63_sum_partial (K := simdRed (fun v acc => acc + v) (fun x y => x + y) 0 4) (.inr (.inr rfl))
  (denotes_fromContiguous (s := [3, 2]) (f := flDemo)) (by decide) (.inr (by decide))

/-- **C63** (part): `product` of `n` floats: `n - 1` roundings. Missing: as for `sum`. -/
theorem C63_product_partial {K : RedKernels (Fl p)} (hK : StockProduct K) {a : Arr (Fl p)} {s : List Nat} {f : List Nat → Fl p}
    (ha : a.Denotes s f) (hd : s.length ≤ 32) (hg : Reducible s a.stride) :
    ∃ r v, a.reduceAll (fun v acc => acc * v) 1 K = .ok r ∧ r.Denotes [] (fun _ => v) ∧
      AccurateTo p (numel s - 1) v.val (elements s fun i => (f i).val).prod (elements s fun i => |(f i).val|).prod := by
  obtain ⟨r, f', h1, h2, h3⟩ := transfer_product (approx_leaf (p := p)) hK ha hd hg
  obtain ⟨e1, e2, e3⟩ := leaf_prod (indices s) f
  refine ⟨r, f' [], h1, h2.congr fun idx hi => ?_, ?_⟩
  · cases idx with
    | nil => rfl
    | cons => exact hi.elim
  · have := approx_accurate h3 e1 e2 e3
    rw [length_indices] at this
    exact (this.mono (by omega)).2

example := C63_product_partial (K := simdProduct (fun v acc => acc * v) (fun x y => x * y) 1 4) (.inr (.inr rfl))
  (denotes_fromContiguous (s := [3, 2]) (f := flDemo)) (by decide) (.inr (by decide))

/-- **C63**: `sum_along`, every layout and every list of distinct axes. -/
theorem C63_sum_along {a : Arr (Fl p)} {s : List Nat} {f : List Nat → Fl p} (ha : a.Denotes s f) (hd : s.length ≤ 32)
    {axes : List Int} {ks : List Nat} (hax : AxesAre axes s.length ks) (hnd : ks.Nodup) :
    ∃ r f', a.sumAlong axes = .ok r ∧ r.Denotes (dropAxes ks s) f' ∧ ∀ J, InB J (dropAxes ks s) →
      AccurateTo p ((fibre ks s J).length - 1) (f' J).val ((fibre ks s J).map fun i => (f i).val).sum
        ((fibre ks s J).map fun i => |(f i).val|).sum := by
  obtain ⟨r, f', h1, h2, h3⟩ := transfer_sumAlong (approx_leaf (p := p)) ha hd hax hnd
  refine ⟨r, f', h1, h2, fun J hJ => ?_⟩
  obtain ⟨e1, e2, e3⟩ := leaf_sum (fibre ks s J) f
  exact (approx_accurate (h3 J hJ) e1 e2 e3).2

example := C63_sum_along (denotes_fromContiguous (s := [3, 2]) (f := flDemo)) (by decide) (axes := [-1]) (ks := [1])
  ⟨⟨by decide, by decide⟩, trivial⟩ (by decide)

/-- **C63**: `product_along`. -/
theorem C63_product_along {a : Arr (Fl p)} {s : List Nat} {f : List Nat → Fl p} (ha : a.Denotes s f) (hd : s.length ≤ 32)
    {axes : List Int} {ks : List Nat} (hax : AxesAre axes s.length ks) (hnd : ks.Nodup) :
    ∃ r f', a.productAlong axes = .ok r ∧ r.Denotes (dropAxes ks s) f' ∧ ∀ J, InB J (dropAxes ks s) →
      AccurateTo p ((fibre ks s J).length - 1) (f' J).val ((fibre ks s J).map fun i => (f i).val).prod
        ((fibre ks s J).map fun i => |(f i).val|).prod := by
  obtain ⟨r, f', h1, h2, h3⟩ := transfer_productAlong (approx_leaf (p := p)) ha hd hax hnd
  refine ⟨r, f', h1, h2, fun J hJ => ?_⟩
  obtain ⟨e1, e2, e3⟩ := leaf_prod (fibre ks s J) f
  exact ((approx_accurate (h3 J hJ) e1 e2 e3).mono (by omega)).2

example := C63_product_along (denotes_fromContiguous (s := [3, 2]) (f := flDemo)) (by decide) (axes := [-1]) (ks := [1])
  ⟨⟨by decide, by decide⟩, trivial⟩ (by decide)

/-- **C63**: traces. -/
theorem C63_trace_along {a : Arr (Fl p)} {s : List Nat} {f : List Nat → Fl p} (ha : a.Denotes s f) (hd : s.length ≤ 32)
    {o ax1 ax2 : Int} {i j n1 n2 : Nat} (h1 : AxisIs ax1 s.length i) (h2 : AxisIs ax2 s.length j) (hij : i ≠ j)
    (hn1 : s[i]? = some n1) (hn2 : s[j]? = some n2) (ho1 : -o < n1 ∨ 0 ≤ o) (ho2 : o < n2 ∨ o < 0) :
    ∃ r f', a.offsetTraceAlong o ax1 ax2 = .ok r ∧ r.Denotes (others i j s) f' ∧ ∀ J, InB J (others i j s) →
      AccurateTo p (min (n1 - (-o).toNat) (n2 - o.toNat) - 1) (f' J).val
        ((List.range (min (n1 - (-o).toNat) (n2 - o.toNat))).map fun k =>
          (f (putTwo i (k + (-o).toNat) j (k + o.toNat) s.length 0 J)).val).sum
        ((List.range (min (n1 - (-o).toNat) (n2 - o.toNat))).map fun k =>
          |(f (putTwo i (k + (-o).toNat) j (k + o.toNat) s.length 0 J)).val|).sum := by
  obtain ⟨r, f', g1, g2, g3⟩ := transfer_traceAlong (approx_leaf (p := p)) ha hd h1 h2 hij hn1 hn2 ho1 ho2
  refine ⟨r, f', g1, g2, fun J hJ => ?_⟩
  obtain ⟨e1, e2, e3⟩ := leaf_sum (List.range (min (n1 - (-o).toNat) (n2 - o.toNat)))
    (fun k => f (putTwo i (k + (-o).toNat) j (k + o.toNat) s.length 0 J))
  rw [List.length_range] at e3
  exact (approx_accurate (g3 J hJ) e1 e2 e3).2

example := C63_trace_along (denotes_fromContiguous (s := [3, 2]) (f := flDemo)) (by decide) (o := -1) (ax1 := 0) (ax2 := -1) (i := 0) (j := 1)
  (n1 := 3) (n2 := 2) ⟨by decide, by decide⟩ ⟨by decide, by decide⟩ (by decide) rfl rfl (by decide) (by decide)

/-- **C63** (part): `mean` of `n > 0` floats: one rounding more than `sum`, two if `n` itself must be rounded. Missing: as for `sum`.
-/
theorem C63_mean_partial {K : RedKernels (Fl p)} (hK : StockSum K) {B : BinKernels (Fl p)} (hB : StockDiv B) (dflt : Fl p) {a : Arr (Fl p)} {s : List Nat} {f : List Nat → Fl p} (ha : a.Denotes s f)
    (hd : s.length ≤ 32) (hg : Reducible s a.stride) (hn : numel s ≠ 0) :
    ∃ r v, a.meanWith K B (fun n => Fl.round n) dflt = .ok r ∧ r.Denotes [] (fun _ => v) ∧
      AccurateTo p (numel s + if numel s ≤ 2 ^ p then 0 else 1) v.val ((elements s fun i => (f i).val).sum / numel s)
        ((elements s fun i => |(f i).val|).sum / numel s) := by
  obtain ⟨r, f', h1, h2, h3⟩ := transfer_sum (approx_leaf (p := p)) hK ha hd hg
  obtain ⟨e1, e2, e3⟩ := leaf_sum (indices s) f
  have hnear := approx_accurate h3 e1 e2 e3
  rw [length_indices] at hnear
  obtain ⟨c, hc1, hc2⟩ := C06_scalar (fun x y : Fl p => .ok (x / y)) dflt (h := fun _ => f' [] / Fl.round (numel s : ℚ))
    (Fl.round (numel s : ℚ)) h2 (by simp) (fun idx hi => by
      cases idx with
      | nil => rfl
      | cons => exact hi.elim)
  refine ⟨c, f' [] / Fl.round (numel s : ℚ), ?_, hc2, ?_⟩
  · unfold Arr.meanWith
    rw [h1, ok_bind, Arr.size, ha.1, stockDiv_eq hB dflt _ h2 (by simp)]
    exact hc1
  · have := near_mean (Nat.pos_of_neZero p) hnear (Nat.pos_of_ne_zero hn)
    exact (this.mono (by split <;> omega)).2

example := C63_mean_partial (K := portableRed (fun v acc => acc + v) 0) (.inl rfl) (B := portableKernels fun x y => .ok (x / y)) (.inl rfl) 0
  (denotes_fromContiguous (s := [3, 2]) (f := flDemo)) (by decide) (.inr (by decide)) (by decide)

/-- **C63**: `mean_along`. -/
theorem C63_mean_along {B : BinKernels (Fl p)} (hB : StockDiv B) (dflt : Fl p) {a : Arr (Fl p)} {s : List Nat} {f : List Nat → Fl p} (ha : a.Denotes s f)
    (hd : s.length ≤ 32) {ks : List Nat} (hr : ∀ k ∈ ks, k < s.length) (hnd : ks.Nodup) :
    ∃ r f', a.meanAlongWith B (fun n => Fl.round n) dflt (ks.map Int.ofNat) = .ok r ∧ r.Denotes (dropAxes ks s) f' ∧
      ∀ J, InB J (dropAxes ks s) → ∀ n, (fibre ks s J).length = n → n ≠ 0 → AccurateTo p (n + if n ≤ 2 ^ p then 0 else 1) (f' J).val
        (((fibre ks s J).map fun i => (f i).val).sum / n) (((fibre ks s J).map fun i => |(f i).val|).sum / n) := by
  obtain ⟨r, f', h1, h2, h3⟩ := transfer_sumAlong (approx_leaf (p := p)) ha hd (axesAre_ofNat hr) hnd
  have hlen : (dropAxes ks s).length ≤ 32 := by
    have : (dropAxes ks s).length ≤ s.length := by
      unfold dropAxes
      rw [List.length_map]
      exact le_trans (List.length_filter_le _ _) (by simp)
    omega
  have hcount := meanCount_ok (s := s) (axes := ks.map Int.ofNat) rfl hr [] (by simpa using hnd)
  rw [maskProd_nil, List.nil_append] at hcount
  obtain ⟨c, hc1, hc2⟩ := C06_scalar (fun x y : Fl p => .ok (x / y)) dflt (h := fun J => f' J / Fl.round _) _ h2 hlen
    (fun _ _ => rfl)
  refine ⟨c, _, ?_, hc2, fun J hJ n hn h0 => ?_⟩
  · unfold Arr.meanAlongWith
    rw [ha.1, hcount, ok_bind, h1, ok_bind, stockDiv_eq hB dflt _ h2 hlen]
    exact hc1
  · obtain ⟨e1, e2, e3⟩ := leaf_sum (fibre ks s J) f
    have hnear := approx_accurate (h3 J hJ) e1 e2 e3
    rw [length_fibre hJ] at hn hnear
    subst hn
    have := near_mean (Nat.pos_of_neZero p) hnear (Nat.pos_of_ne_zero h0)
    exact (this.mono (by split <;> omega)).2

example := C63_mean_along (B := portableKernels fun x y => .ok (x / y)) (.inl rfl) 0
  (denotes_fromContiguous (s := [3, 2]) (f := flDemo)) (by decide) (ks := [0]) (by decide) (by decide)

/-- **C63**: `dot` of vectors of length `n`, any strides. -/
theorem C63_dot {a b : Arr (Fl p)} {n : Nat} {f g : List Nat → Fl p} (ha : a.Denotes [n] f) (hb : b.Denotes [n] g) :
    ∃ r v, a.dot b = .ok r ∧ r.Denotes [] (fun _ => v) ∧
      AccurateTo p n v.val (innerProduct n (fun i => (f [i]).val) fun i => (g [i]).val)
        (innerProduct n (fun i => |(f [i]).val|) fun i => |(g [i]).val|) := by
  obtain ⟨r, f', h1, h2, h3⟩ := transfer_dot (approx_leaf (p := p)) ha hb
  refine ⟨r, f' [], h1, h2.congr fun idx hi => ?_, accurate_inner h3⟩
  cases idx with
  | nil => rfl
  | cons => exact hi.elim

example := C63_dot (denotes_fromContiguous (s := [3]) (f := flDemo)) (denotes_fromContiguous (s := [3]) (f := flDemo))

/-- **C63**: matrix x vector. -/
theorem C63_matvec {K : SopKernels (Fl p)} (hK : StockSop K) {a b : Arr (Fl p)} {m k : Nat} {f g : List Nat → Fl p}
    (ha : a.Denotes [m, k] f) (hb : b.Denotes [k] g) :
    ∃ r f', a.matmul K b = .ok r ∧ r.Denotes [m] f' ∧ ∀ i < m,
      AccurateTo p k (f' [i]).val (innerProduct k (fun t => (f [i, t]).val) fun t => (g [t]).val)
        (innerProduct k (fun t => |(f [i, t]).val|) fun t => |(g [t]).val|) := by
  obtain ⟨r, f', h1, h2, h3⟩ := transfer_matvec (approx_leaf (p := p)) hK ha hb
  exact ⟨r, f', h1, h2, fun i hi => accurate_inner (h3 [i] ⟨hi, trivial⟩)⟩

example := C63_matvec (K := simdSop 4) (.inr (.inr rfl)) (denotes_fromContiguous (s := [2, 3]) (f := flDemo))
  (denotes_fromContiguous (s := [3]) (f := flDemo))

/-- **C63** (part): matrix x matrix. Missing: extents 0 (`C30_empty_false`). -/
theorem C63_matmul_partial {K : SopKernels (Fl p)} (hK : StockSop K) {a b : Arr (Fl p)} {m k n : Nat} {f g : List Nat → Fl p}
    (ha : a.Denotes [m, k] f) (hb : b.Denotes [k, n] g) (hm : 0 < m) (hk : 0 < k) (hn : 0 < n) :
    ∃ r f', a.matmul K b = .ok r ∧ r.Denotes [m, n] f' ∧ ∀ i < m, ∀ j < n,
      AccurateTo p k (f' [i, j]).val (innerProduct k (fun t => (f [i, t]).val) fun t => (g [t, j]).val)
        (innerProduct k (fun t => |(f [i, t]).val|) fun t => |(g [t, j]).val|) := by
  obtain ⟨r, f', h1, h2, h3⟩ := transfer_matmul (approx_leaf (p := p)) hK ha hb hm hk hn
  exact ⟨r, f', h1, h2, fun i hi j hj => accurate_inner (h3 [i, j] ⟨hi, hj, trivial⟩)⟩

example := C63_matmul_partial (K := simdSop 4) (.inr (.inr rfl)) (denotes_fromContiguous (s := [2, 3]) (f := flDemo))
  (denotes_fromContiguous (s := [3, 2]) (f := flDemo)) (by decide) (by decide) (by decide)

/-- **C63** (part): batches of matrix products. Missing: extents 0. -/
theorem C63_bmm_partial {K : SopKernels (Fl p)} (hK : StockSop K) {a b : Arr (Fl p)} {B m k n : Nat} {f g : List Nat → Fl p}
    (ha : a.Denotes [B, m, k] f) (hb : b.Denotes [B, k, n] g) (hB : 0 < B) (hm : 0 < m) (hk : 0 < k) (hn : 0 < n) :
    ∃ r f', a.bmm K b = .ok r ∧ r.Denotes [B, m, n] f' ∧ ∀ x < B, ∀ i < m, ∀ j < n,
      AccurateTo p k (f' [x, i, j]).val (innerProduct k (fun t => (f [x, i, t]).val) fun t => (g [x, t, j]).val)
        (innerProduct k (fun t => |(f [x, i, t]).val|) fun t => |(g [x, t, j]).val|) := by
  obtain ⟨r, f', h1, h2, h3⟩ := transfer_bmm (approx_leaf (p := p)) hK ha hb hB hm hk hn
  exact ⟨r, f', h1, h2, fun x hx i hi j hj => accurate_inner (h3 [x, i, j] ⟨hx, hi, hj, trivial⟩)⟩

example := C63_bmm_partial (K := simdSop 4) (.inr (.inr rfl)) (denotes_fromContiguous (s := [2, 2, 3]) (f := flDemo))
  (denotes_fromContiguous (s := [2, 3, 2]) (f := flDemo)) (by decide) (by decide) (by decide) (by decide)

/-- **C63** (part): `einsum` with `N` operands and `M` summed terms: `M - 1 + N - 1` roundings. Missing: what `C28_einsum_partial` leaves
out (extents 0, no letters at all). -/
theorem C63_einsum_partial {K : SopKernels (Fl p)} (hK : StockSop K) {ops : List (Arr (Fl p))} {fs : List (Factor (Fl p))}
    {out rest : List Char} {dim : Char → Nat} (hw : WellFormed fs out rest dim)
    (hd : List.Forall₂ (fun a f => a.Denotes (f.letters.map dim) f.elem) ops fs) (hargs : ops.length < 16)
    (hdims : ∀ f ∈ fs, f.letters.length ≤ 32) (htot : (out ++ rest).length ≤ 32) (hne : out ++ rest ≠ []) :
    ∃ r f', einsum K ops (fs.map (·.letters)) out = .ok r ∧ r.Denotes (out.map dim) f' ∧ ∀ idx, InB idx (out.map dim) →
      AccurateTo p (numel (rest.map dim) - 1 + (fs.length - 1)) (f' idx).val
        (einsteinSum out rest dim (fs.map (Factor.map Fl.val)) idx)
        (einsteinSum out rest dim (fs.map (Factor.map fun x => |x.val|)) idx) := by
  obtain ⟨r, f', h1, h2, h3⟩ := transfer_einsum (approx_leaf (p := p)) hK hw hd hargs hdims htot hne
  refine ⟨r, f', h1, h2, fun idx hi => (approx_accurate (h3 idx hi) ?_ ?_ ?_).2⟩
  · refine (proj_einsteinSum (RingHom.fst ℚ (ℚ × ℕ[X])) out rest dim _ idx).trans ?_
    rw [List.map_map]; rfl
  · refine (proj_einsteinSum ((RingHom.fst ℚ ℕ[X]).comp (RingHom.snd ℚ (ℚ × ℕ[X]))) out rest dim _ idx).trans ?_
    rw [List.map_map]; rfl
  · refine (proj_einsteinSum ((RingHom.snd ℚ ℕ[X]).comp (RingHom.snd ℚ (ℚ × ℕ[X]))) out rest dim _ idx).trans ?_
    rw [List.map_map]
    exact count_einsteinSum out rest dim fs idx

example := C63_einsum_partial (K := simdSop 4) (.inr (.inr rfl)) (ein_wellFormed flDemo flDemo)
  (.cons (denotes_fromContiguous (s := [2, 3])) (.cons (denotes_fromContiguous (s := [3, 2])) .nil))
  (by simp) (by decide) (by decide) (by decide)

/-- **C63**: elementwise operators, one rounding. `op` is any of `+`, `-`, `*`, `/` (`C63_ops`), `exact` the same on numbers. -/
theorem C63_elementwise {op : Fl p → Fl p → Fl p} {exact : ℚ → ℚ → ℚ} (hop : ∀ x y, (op x y).val = rnd p (exact x.val y.val))
    (dflt : Fl p) {a b : Arr (Fl p)} {s t r : List Nat} {fa fb : List Nat → Fl p} (ha : a.Denotes s fa) (hb : b.Denotes t fb)
    (hc : Compatible s t) (hj : IsJoint s t r) (hd : r.length ≤ 32) :
    ∃ c fc, a.binOp (fun x y => .ok (op x y)) (portableKernels fun x y => .ok (op x y)) dflt b = .ok c ∧ c.Denotes r fc ∧
      ∀ idx, InB idx r → AccurateTo p 1 (fc idx).val (exact (fa (broadcastIndex s idx)).val (fb (broadcastIndex t idx)).val)
        |exact (fa (broadcastIndex s idx)).val (fb (broadcastIndex t idx)).val| := by
  obtain ⟨c, h1, h2⟩ := C05_elementwise (fun x y => .ok (op x y)) dflt ha hb hc hj hd (fun _ _ => rfl)
  refine ⟨c, _, h1, h2, fun idx _ => ?_⟩
  unfold AccurateTo
  rw [hop, pow_one, add_sub_cancel_left]
  exact abs_rnd_sub_le p _

theorem C63_ops : (∀ x y : Fl p, (x + y).val = rnd p (x.val + y.val)) ∧ (∀ x y : Fl p, (x - y).val = rnd p (x.val - y.val)) ∧
    (∀ x y : Fl p, (x * y).val = rnd p (x.val * y.val)) ∧ (∀ x y : Fl p, (x / y).val = rnd p (x.val / y.val)) :=
  ⟨fun _ _ => rfl, fun _ _ => rfl, fun _ _ => rfl, fun _ _ => rfl⟩

example := C63_elementwise (op := fun x y => x / y) C63_ops.2.2.2 0 (denotes_fromContiguous (s := [2, 3]) (f := flDemo))
  (denotes_fromContiguous (s := [3]) (f := flDemo)) (r := [2, 3]) (compatible_of_ok rfl) (joint_of_ok rfl) (by decide)

/-- **C63** (part): elementwise operators with the vector kernels. Missing: empty results of arrays that were
not reached without `broadcast_to` (as in C49). -/
theorem C63_elementwise_simd_partial {op : Fl p → Fl p → Fl p} {exact : ℚ → ℚ → ℚ}
    (hop : ∀ x y, (op x y).val = rnd p (exact x.val y.val)) (L : Nat)
    (dflt : Fl p) {a b : Arr (Fl p)} {s t r : List Nat} {fa fb : List Nat → Fl p} (ha : a.Denotes s fa) (hb : b.Denotes t fb)
    (hc : Compatible s t) (hj : IsJoint s t r) (hd : r.length ≤ 32)
    (hn : numel r ≠ 0 ∨ Reached a ∧ Reached b) :
    ∃ c fc, a.binOp (fun x y => .ok (op x y)) (simdKernels op L) dflt b = .ok c ∧ c.Denotes r fc ∧
      ∀ idx, InB idx r → AccurateTo p 1 (fc idx).val (exact (fa (broadcastIndex s idx)).val (fb (broadcastIndex t idx)).val)
        |exact (fa (broadcastIndex s idx)).val (fb (broadcastIndex t idx)).val| := by
  rw [C49_binary_partial op L dflt ha hb hc hj hd hn]
  exact C63_elementwise hop dflt ha hb hc hj hd

example := C63_elementwise_simd_partial (op := fun x y => x / y) C63_ops.2.2.2 4 0 (denotes_fromContiguous (s := [2, 3]) (f := flDemo))
  (denotes_fromContiguous (s := [3]) (f := flDemo)) (r := [2, 3]) (compatible_of_ok rfl) (joint_of_ok rfl) (by decide) (.inl (by decide))

/-- The bounds are not vacuous: four significant bits, `1 + 1/16 + ... + 1/16` (nine terms) is 1.5, but every small term is rounded
away by the portable loop. -/
example : (do
      let r ← (Arr.fromContiguousOwnedBuffer [9] ((Fl.round 1 : Fl 4) :: List.replicate 8 (Fl.round (1 / 16)))).sum
      r.value) = .ok (Fl.round 1 : Fl 4) := by decide +kernel
example : Reducible [9] (Arr.fromContiguousOwnedBuffer [9] (List.replicate 9 (0 : Fl 4))).stride := .inr (by decide)
example : (do
      let r ← (Arr.fromContiguousOwnedBuffer [2, 2] ([1, 2, 3, 5].map fun q => (Fl.round q : Fl 3))).matmul (simdSop 2)
        (Arr.fromContiguousOwnedBuffer [2, 2] ([1, 2, 3, 3].map fun q => (Fl.round q : Fl 3)))
      return r.buf.map Fl.val) = .ok [7, 8, 16, 20] := by decide +kernel

/-- **C49 needs exact arithmetic.** In `f32` (24 bits) `2^24 + 1 + ... + 1` (sixteen terms) is `2^24` with the portable loop, which adds
the ones one at a time, but `2^24 + 14` with the vector kernel, which adds them in four lanes. Both results obey C63. -/
theorem C63_order_matters_false :
    (do
      let r ← (Arr.fromContiguousOwnedBuffer [16] ((Fl.round 16777216 : Fl 24) :: List.replicate 15 1)).sum
      r.value) = .ok (Fl.round 16777216) ∧
    (do
      let r ← (Arr.fromContiguousOwnedBuffer [16] ((Fl.round 16777216 : Fl 24) :: List.replicate 15 1)).reduceAll
        (fun v acc => acc + v) 0 (simdRed (fun v acc => acc + v) (fun x y => x + y) 0 4)
      r.value) = .ok (Fl.round 16777230) := by decide +kernel

/-! ## C64 -/

theorem int_sum {ι : Type} {l : List ι} {h : ι → Fl p} (hi : ∀ i ∈ l, IsInt (h i).val) :
    (l.map fun i => intLeaf (h i)).sum = ((l.map fun i => (h i).val).sum, (l.map fun i => |(h i).val|).sum) := by
  rw [List.map_congr_left fun i hm => intLeaf_int (hi i hm)]
  exact Prod.ext (proj_sum (RingHom.fst ℚ ℚ) l _) (proj_sum (RingHom.snd ℚ ℚ) l _)

theorem int_prod {ι : Type} {l : List ι} {h : ι → Fl p} (hi : ∀ i ∈ l, IsInt (h i).val) :
    (l.map fun i => intLeaf (h i)).prod = ((l.map fun i => (h i).val).prod, (l.map fun i => |(h i).val|).prod) := by
  rw [List.map_congr_left fun i hm => intLeaf_int (hi i hm)]
  exact Prod.ext (proj_prod (RingHom.fst ℚ ℚ) l _) (proj_prod (RingHom.snd ℚ ℚ) l _)

theorem int_inner {k : Nat} {u v : Nat → Fl p} (hu : ∀ t < k, IsInt (u t).val) (hv : ∀ t < k, IsInt (v t).val) :
    innerProduct k (fun t => intLeaf (u t)) (fun t => intLeaf (v t)) =
      (innerProduct k (fun t => (u t).val) fun t => (v t).val, innerProduct k (fun t => |(u t).val|) fun t => |(v t).val|) := by
  have e : innerProduct k (fun t => intLeaf (u t)) (fun t => intLeaf (v t)) =
      innerProduct k (fun t => ((u t).val, |(u t).val|)) fun t => ((v t).val, |(v t).val|) := by
    unfold innerProduct
    rw [List.map_congr_left fun t hm => ?_]
    have ht := List.mem_range.1 hm
    change intLeaf (u t) * intLeaf (v t) = _
    rw [intLeaf_int (hu t ht), intLeaf_int (hv t ht)]
  rw [e]
  exact Prod.ext (proj_innerProduct (RingHom.fst ℚ ℚ) k _ _) (proj_innerProduct (RingHom.snd ℚ ℚ) k _ _)

/-- **C64** (part): `sum` of integers whose absolute values add up to at most `2^p` is exact, with the portable and with the vector
kernels. Missing: the broadcast views excluded in C09. -/
theorem C64_sum_partial {K : RedKernels (Fl p)} (hK : StockSum K) {a : Arr (Fl p)} {s : List Nat} {f : List Nat → Fl p}
    (ha : a.Denotes s f) (hd : s.length ≤ 32) (hg : Reducible s a.stride) (hi : ∀ idx, InB idx s → IsInt (f idx).val)
    (hb : (elements s fun i => |(f i).val|).sum ≤ 2 ^ p) :
    ∃ r v, a.reduceAll (fun v acc => acc + v) 0 K = .ok r ∧ r.Denotes [] (fun _ => v) ∧
      v.val = (elements s fun i => (f i).val).sum := by
  obtain ⟨r, f', h1, h2, h3⟩ := transfer_sum (exact_leaf (p := p)) hK ha hd hg
  unfold elements at h3
  rw [int_sum fun i hm => hi i (mem_indices.1 hm)] at h3
  refine ⟨r, f' [], h1, h2.congr fun idx hi => ?_, h3.eq hb⟩
  cases idx with
  | nil => rfl
  | cons => exact hi.elim

example := C64_sum_partial (p := 24) (K := simdRed (fun v acc => acc + v) (fun x y => x + y) 0 4) (.inr (.inr rfl))
  (denotes_fromContiguous (s := [3, 2]) (f := fun _ => Fl.round 7)) (by decide) (.inr (by decide)) (fun _ _ => ⟨7, by decide +kernel⟩)
  (by decide +kernel)

/-- **C64** (part): `product`. Missing: as for `sum`. -/
theorem C64_product_partial {K : RedKernels (Fl p)} (hK : StockProduct K) {a : Arr (Fl p)} {s : List Nat} {f : List Nat → Fl p}
    (ha : a.Denotes s f) (hd : s.length ≤ 32) (hg : Reducible s a.stride) (hi : ∀ idx, InB idx s → IsInt (f idx).val)
    (hb : (elements s fun i => |(f i).val|).prod ≤ 2 ^ p) :
    ∃ r v, a.reduceAll (fun v acc => acc * v) 1 K = .ok r ∧ r.Denotes [] (fun _ => v) ∧
      v.val = (elements s fun i => (f i).val).prod := by
  obtain ⟨r, f', h1, h2, h3⟩ := transfer_product (exact_leaf (p := p)) hK ha hd hg
  unfold elements at h3
  rw [int_prod fun i hm => hi i (mem_indices.1 hm)] at h3
  refine ⟨r, f' [], h1, h2.congr fun idx hi => ?_, h3.eq hb⟩
  cases idx with
  | nil => rfl
  | cons => exact hi.elim

example := C64_product_partial (p := 24) (K := simdProduct (fun v acc => acc * v) (fun x y => x * y) 1 4) (.inr (.inr rfl))
  (denotes_fromContiguous (s := [3, 2]) (f := fun _ => Fl.round 7)) (by decide) (.inr (by decide)) (fun _ _ => ⟨7, by decide +kernel⟩)
  (by decide +kernel)

theorem mem_fibre_inB {ks s J idx : List Nat} (h : idx ∈ fibre ks s J) : InB idx s :=
  mem_indices.1 (List.mem_of_mem_filter h)

/-- **C64**: `sum_along`; an entry is exact if its own fibre is within the bound. -/
theorem C64_sum_along {a : Arr (Fl p)} {s : List Nat} {f : List Nat → Fl p} (ha : a.Denotes s f) (hd : s.length ≤ 32)
    {axes : List Int} {ks : List Nat} (hax : AxesAre axes s.length ks) (hnd : ks.Nodup)
    (hi : ∀ idx, InB idx s → IsInt (f idx).val) :
    ∃ r f', a.sumAlong axes = .ok r ∧ r.Denotes (dropAxes ks s) f' ∧ ∀ J, InB J (dropAxes ks s) →
      ((fibre ks s J).map fun i => |(f i).val|).sum ≤ 2 ^ p → (f' J).val = ((fibre ks s J).map fun i => (f i).val).sum := by
  obtain ⟨r, f', h1, h2, h3⟩ := transfer_sumAlong (exact_leaf (p := p)) ha hd hax hnd
  refine ⟨r, f', h1, h2, fun J hJ hb => ?_⟩
  have := h3 J hJ
  rw [int_sum fun i hm => hi i (mem_fibre_inB hm)] at this
  exact this.eq hb

example := C64_sum_along (p := 24) (denotes_fromContiguous (s := [3, 2]) (f := fun _ => Fl.round 7)) (by decide) (axes := [-1]) (ks := [1])
  ⟨⟨by decide, by decide⟩, trivial⟩ (by decide) (fun _ _ => ⟨7, by decide +kernel⟩)

/-- **C64**: `product_along`. -/
theorem C64_product_along {a : Arr (Fl p)} {s : List Nat} {f : List Nat → Fl p} (ha : a.Denotes s f) (hd : s.length ≤ 32)
    {axes : List Int} {ks : List Nat} (hax : AxesAre axes s.length ks) (hnd : ks.Nodup)
    (hi : ∀ idx, InB idx s → IsInt (f idx).val) :
    ∃ r f', a.productAlong axes = .ok r ∧ r.Denotes (dropAxes ks s) f' ∧ ∀ J, InB J (dropAxes ks s) →
      ((fibre ks s J).map fun i => |(f i).val|).prod ≤ 2 ^ p → (f' J).val = ((fibre ks s J).map fun i => (f i).val).prod := by
  obtain ⟨r, f', h1, h2, h3⟩ := transfer_productAlong (exact_leaf (p := p)) ha hd hax hnd
  refine ⟨r, f', h1, h2, fun J hJ hb => ?_⟩
  have := h3 J hJ
  rw [int_prod fun i hm => hi i (mem_fibre_inB hm)] at this
  exact this.eq hb

example := C64_product_along (p := 24) (denotes_fromContiguous (s := [3, 2]) (f := fun _ => Fl.round 7)) (by decide) (axes := [-1]) (ks := [1])
  ⟨⟨by decide, by decide⟩, trivial⟩ (by decide) (fun _ _ => ⟨7, by decide +kernel⟩)

/-- **C64**: `trace` of a matrix. -/
theorem C64_trace {a : Arr (Fl p)} {n m : Nat} {f : List Nat → Fl p} (ha : a.Denotes [n, m] f) (hm : m ≠ 0)
    (hi : ∀ k < min n m, IsInt (f [k, k]).val) (hb : ((List.range (min n m)).map fun k => |(f [k, k]).val|).sum ≤ 2 ^ p) :
    ∃ r v, a.trace = .ok r ∧ r.Denotes [] (fun _ => v) ∧ v.val = ((List.range (min n m)).map fun k => (f [k, k]).val).sum := by
  obtain ⟨r, f', h1, h2, h3⟩ := transfer_traceAlong (exact_leaf (p := p)) ha (by simp) (o := 0) (ax1 := 0) (ax2 := 1) (i := 0)
    (j := 1) (n1 := n) (n2 := m) ⟨by simp, by simp⟩ ⟨by simp, by simp⟩ (by simp) rfl rfl (by simp) (by left; omega)
  have h4 := h3 [] (by simp [others])
  simp only [neg_zero, Int.toNat_zero, Nat.sub_zero, Nat.add_zero] at h4
  have e : ∀ k, putTwo 0 k 1 k [n, m].length 0 [] = [k, k] := fun k => by simp [putTwo]
  simp only [e] at h4
  rw [int_sum fun k hk => hi k (List.mem_range.1 hk)] at h4
  refine ⟨r, f' [], h1, ?_, h4.eq hb⟩
  have h5 : r.Denotes [] f' := by simpa [others] using h2
  refine h5.congr fun idx hi => ?_
  cases idx with
  | nil => rfl
  | cons => exact hi.elim

example := C64_trace (p := 24) (denotes_fromContiguous (s := [3, 2]) (f := fun _ => Fl.round 7)) (by decide)
  (fun _ _ => ⟨7, by decide +kernel⟩) (by decide +kernel)

/-- **C64**: `dot`. -/
theorem C64_dot {a b : Arr (Fl p)} {n : Nat} {f g : List Nat → Fl p} (ha : a.Denotes [n] f) (hb : b.Denotes [n] g)
    (hf : ∀ i < n, IsInt (f [i]).val) (hg : ∀ i < n, IsInt (g [i]).val)
    (hle : innerProduct n (fun i => |(f [i]).val|) (fun i => |(g [i]).val|) ≤ 2 ^ p) :
    ∃ r v, a.dot b = .ok r ∧ r.Denotes [] (fun _ => v) ∧
      v.val = innerProduct n (fun i => (f [i]).val) fun i => (g [i]).val := by
  obtain ⟨r, f', h1, h2, h3⟩ := transfer_dot (exact_leaf (p := p)) ha hb
  rw [int_inner hf hg] at h3
  refine ⟨r, f' [], h1, h2.congr fun idx hi => ?_, h3.eq hle⟩
  cases idx with
  | nil => rfl
  | cons => exact hi.elim

example := C64_dot (p := 24) (denotes_fromContiguous (s := [3]) (f := fun _ => Fl.round 7)) (denotes_fromContiguous (s := [3]) (f := fun _ => Fl.round 7))
  (fun _ _ => ⟨7, by decide +kernel⟩) (fun _ _ => ⟨7, by decide +kernel⟩) (by decide +kernel)

/-- **C64**: matrix x vector. -/
theorem C64_matvec {K : SopKernels (Fl p)} (hK : StockSop K) {a b : Arr (Fl p)} {m k : Nat} {f g : List Nat → Fl p}
    (ha : a.Denotes [m, k] f) (hb : b.Denotes [k] g) (hf : ∀ i < m, ∀ t < k, IsInt (f [i, t]).val)
    (hg : ∀ t < k, IsInt (g [t]).val) :
    ∃ r f', a.matmul K b = .ok r ∧ r.Denotes [m] f' ∧ ∀ i < m,
      innerProduct k (fun t => |(f [i, t]).val|) (fun t => |(g [t]).val|) ≤ 2 ^ p →
      (f' [i]).val = innerProduct k (fun t => (f [i, t]).val) fun t => (g [t]).val := by
  obtain ⟨r, f', h1, h2, h3⟩ := transfer_matvec (exact_leaf (p := p)) hK ha hb
  refine ⟨r, f', h1, h2, fun i hi hle => ?_⟩
  have : Exact p (f' [i]) (innerProduct k (fun t => intLeaf (f [i, t])) fun t => intLeaf (g [t])) := h3 [i] ⟨hi, trivial⟩
  rw [int_inner (hf i hi) hg] at this
  exact this.eq hle

example := C64_matvec (p := 24) (K := simdSop 4) (.inr (.inr rfl)) (denotes_fromContiguous (s := [2, 3]) (f := fun _ => Fl.round 7))
  (denotes_fromContiguous (s := [3]) (f := fun _ => Fl.round 7)) (fun _ _ _ _ => ⟨7, by decide +kernel⟩) (fun _ _ => ⟨7, by decide +kernel⟩)

/-- **C64** (part): matrix x matrix. Missing: extents 0. -/
theorem C64_matmul_partial {K : SopKernels (Fl p)} (hK : StockSop K) {a b : Arr (Fl p)} {m k n : Nat} {f g : List Nat → Fl p}
    (ha : a.Denotes [m, k] f) (hb : b.Denotes [k, n] g) (hm : 0 < m) (hk : 0 < k) (hn : 0 < n)
    (hf : ∀ i < m, ∀ t < k, IsInt (f [i, t]).val) (hg : ∀ t < k, ∀ j < n, IsInt (g [t, j]).val) :
    ∃ r f', a.matmul K b = .ok r ∧ r.Denotes [m, n] f' ∧ ∀ i < m, ∀ j < n,
      innerProduct k (fun t => |(f [i, t]).val|) (fun t => |(g [t, j]).val|) ≤ 2 ^ p →
      (f' [i, j]).val = innerProduct k (fun t => (f [i, t]).val) fun t => (g [t, j]).val := by
  obtain ⟨r, f', h1, h2, h3⟩ := transfer_matmul (exact_leaf (p := p)) hK ha hb hm hk hn
  refine ⟨r, f', h1, h2, fun i hi j hj hle => ?_⟩
  have : Exact p (f' [i, j]) (innerProduct k (fun t => intLeaf (f [i, t])) fun t => intLeaf (g [t, j])) :=
    h3 [i, j] ⟨hi, hj, trivial⟩
  rw [int_inner (hf i hi) (fun t ht => hg t ht j hj)] at this
  exact this.eq hle

example := C64_matmul_partial (p := 24) (K := simdSop 4) (.inr (.inr rfl)) (denotes_fromContiguous (s := [2, 3]) (f := fun _ => Fl.round 7))
  (denotes_fromContiguous (s := [3, 2]) (f := fun _ => Fl.round 7)) (by decide) (by decide) (by decide)
  (fun _ _ _ _ => ⟨7, by decide +kernel⟩) (fun _ _ _ _ => ⟨7, by decide +kernel⟩)

/-- **C64** (part): batches of matrix products. Missing: extents 0. -/
theorem C64_bmm_partial {K : SopKernels (Fl p)} (hK : StockSop K) {a b : Arr (Fl p)} {B m k n : Nat} {f g : List Nat → Fl p}
    (ha : a.Denotes [B, m, k] f) (hb : b.Denotes [B, k, n] g) (hB : 0 < B) (hm : 0 < m) (hk : 0 < k) (hn : 0 < n)
    (hf : ∀ x < B, ∀ i < m, ∀ t < k, IsInt (f [x, i, t]).val) (hg : ∀ x < B, ∀ t < k, ∀ j < n, IsInt (g [x, t, j]).val) :
    ∃ r f', a.bmm K b = .ok r ∧ r.Denotes [B, m, n] f' ∧ ∀ x < B, ∀ i < m, ∀ j < n,
      innerProduct k (fun t => |(f [x, i, t]).val|) (fun t => |(g [x, t, j]).val|) ≤ 2 ^ p →
      (f' [x, i, j]).val = innerProduct k (fun t => (f [x, i, t]).val) fun t => (g [x, t, j]).val := by
  obtain ⟨r, f', h1, h2, h3⟩ := transfer_bmm (exact_leaf (p := p)) hK ha hb hB hm hk hn
  refine ⟨r, f', h1, h2, fun x hx i hi j hj hle => ?_⟩
  have : Exact p (f' [x, i, j]) (innerProduct k (fun t => intLeaf (f [x, i, t])) fun t => intLeaf (g [x, t, j])) :=
    h3 [x, i, j] ⟨hx, hi, hj, trivial⟩
  rw [int_inner (hf x hx i hi) (fun t ht => hg x hx t ht j hj)] at this
  exact this.eq hle

example := C64_bmm_partial (p := 24) (K := simdSop 4) (.inr (.inr rfl)) (denotes_fromContiguous (s := [2, 2, 3]) (f := fun _ => Fl.round 7))
  (denotes_fromContiguous (s := [2, 3, 2]) (f := fun _ => Fl.round 7)) (by decide) (by decide) (by decide) (by decide)
  (fun _ _ _ _ _ _ => ⟨7, by decide +kernel⟩) (fun _ _ _ _ _ _ => ⟨7, by decide +kernel⟩)

/-- **C64** (part): `einsum`. Missing: what `C28_einsum_partial` leaves out. -/
theorem C64_einsum_partial {K : SopKernels (Fl p)} (hK : StockSop K) {ops : List (Arr (Fl p))} {fs : List (Factor (Fl p))}
    {out rest : List Char} {dim : Char → Nat} (hw : WellFormed fs out rest dim)
    (hd : List.Forall₂ (fun a f => a.Denotes (f.letters.map dim) f.elem) ops fs) (hargs : ops.length < 16)
    (hdims : ∀ f ∈ fs, f.letters.length ≤ 32) (htot : (out ++ rest).length ≤ 32) (hne : out ++ rest ≠ [])
    (hi : ∀ f ∈ fs, ∀ idx, InB idx (f.letters.map dim) → IsInt (f.elem idx).val) :
    ∃ r f', einsum K ops (fs.map (·.letters)) out = .ok r ∧ r.Denotes (out.map dim) f' ∧ ∀ idx, InB idx (out.map dim) →
      einsteinSum out rest dim (fs.map (Factor.map fun x => |x.val|)) idx ≤ 2 ^ p →
      (f' idx).val = einsteinSum out rest dim (fs.map (Factor.map Fl.val)) idx := by
  obtain ⟨r, f', h1, h2, h3⟩ := transfer_einsum (exact_leaf (p := p)) hK hw hd hargs hdims htot hne
  refine ⟨r, f', h1, h2, fun idx hidx hle => ?_⟩
  have e : einsteinSum out rest dim (fs.map (Factor.map intLeaf)) idx =
      einsteinSum out rest dim (fs.map (Factor.map fun x => (x.val, |x.val|))) idx := by
    unfold einsteinSum
    rw [List.map_congr_left fun r hr => ?_]
    rw [List.map_map, List.map_map, List.map_congr_left fun f hf => ?_]
    have hor : InB (idx ++ r) ((out ++ rest).map dim) := by
      rw [List.map_append]
      exact (InB_append hidx.length).2 ⟨hidx, mem_indices.1 hr⟩
    have hmem : ∀ c ∈ f.letters, c ∈ out ++ rest := fun c hc => by
      by_cases h : c ∈ out
      · exact List.mem_append_left _ h
      · exact List.mem_append_right _ ((hw.rest_mem c).2 ⟨⟨f, hf, hc⟩, h⟩)
    exact intLeaf_int (hi f hf _ (InB_map_valueOf hor hmem))
  have h4 := h3 idx hidx
  rw [e] at h4
  have e1 := proj_einsteinSum (RingHom.fst ℚ ℚ) out rest dim (fs.map (Factor.map fun x => (x.val, |x.val|))) idx
  have e2 := proj_einsteinSum (RingHom.snd ℚ ℚ) out rest dim (fs.map (Factor.map fun x => (x.val, |x.val|))) idx
  rw [List.map_map] at e1 e2
  exact (h4.eq (e2.le.trans hle)).trans e1

example := C64_einsum_partial (p := 24) (K := simdSop 4) (.inr (.inr rfl)) (ein_wellFormed (fun _ => Fl.round 7) fun _ => Fl.round 7)
  (.cons (denotes_fromContiguous (s := [2, 3])) (.cons (denotes_fromContiguous (s := [3, 2])) .nil))
  (by simp) (by decide) (by decide) (by decide)
  (fun f hf idx h => by
    simp only [List.mem_cons, List.not_mem_nil, or_false] at hf
    rcases hf with rfl | rfl <;> exact ⟨7, show (Fl.round 7 : Fl 24).val = (7 : ℤ) by decide +kernel⟩)

/-- the bound is sharp: `2^p + 1` is not representable -/
theorem C64_bound_sharp_false : (do
      let r ← (Arr.fromContiguousOwnedBuffer [2] [(Fl.round 16777216 : Fl 24), 1]).sum
      return r.buf.map Fl.val) = .ok [16777216] := by decide +kernel

example : IsInt (Fl.round 7 : Fl 3).val := ⟨7, by decide +kernel⟩
example : (elements [3] fun i => |(Fl.round (i.headD 0) : Fl 3).val|).sum ≤ 2 ^ 3 := by decide +kernel
example : (do
      let r ← (Arr.fromContiguousOwnedBuffer [9] (List.replicate 9 (Fl.round 3 : Fl 5))).reduceAll
        (fun v acc => acc + v) 0 (simdRed (fun v acc => acc + v) (fun x y => x + y) 0 2)
      return r.buf.map Fl.val) = .ok [27] := by decide +kernel

end Verif
