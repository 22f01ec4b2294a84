import Verif.Props.IeeeRange

/-!
# C69 exact results on integers, with IEEE numbers

`p ≤ emax` holds for `f32` (24, 127) and `f64` (53, 1023).
-/

namespace Verif

variable {p emax : Nat} [NeZero p] [NeZero emax]

theorem whole_sum {ι : Type} {l : List ι} {g : ι → Ieee p emax} (hl : ∀ i ∈ l, Whole (g i)) :
    (l.map fun i => wholeLeaf (g i)).sum = ((l.map fun i => (g i).val).sum, (l.map fun i => max 1 |(g i).val|).sum) := by
  rw [List.map_congr_left fun i hm => wholeLeaf_whole (hl i hm)]
  exact Prod.ext (proj_sum (RingHom.fst ℚ ℚ) l _) (proj_sum (RingHom.snd ℚ ℚ) l _)

theorem whole_prod {ι : Type} {l : List ι} {g : ι → Ieee p emax} (hl : ∀ i ∈ l, Whole (g i)) :
    (l.map fun i => wholeLeaf (g i)).prod = ((l.map fun i => (g i).val).prod, (l.map fun i => max 1 |(g i).val|).prod) := by
  rw [List.map_congr_left fun i hm => wholeLeaf_whole (hl i hm)]
  exact Prod.ext (proj_prod (RingHom.fst ℚ ℚ) l _) (proj_prod (RingHom.snd ℚ ℚ) l _)

theorem whole_inner {k : Nat} {a b : Nat → Ieee p emax} (ha : ∀ t < k, Whole (a t)) (hb : ∀ t < k, Whole (b t)) :
    innerProduct k (fun t => wholeLeaf (a t)) (fun t => wholeLeaf (b t)) =
      (innerProduct k (fun t => (a t).val) (fun t => (b t).val),
        innerProduct k (fun t => max 1 |(a t).val|) fun t => max 1 |(b t).val|) := by
  have e : innerProduct k (fun t => wholeLeaf (a t)) (fun t => wholeLeaf (b t)) =
      innerProduct k (fun t => ((a t).val, max 1 |(a t).val|)) fun t => ((b t).val, max 1 |(b t).val|) := by
    unfold innerProduct
    rw [List.map_congr_left fun t hm => ?_]
    have ht := List.mem_range.1 hm
    change wholeLeaf (a t) * wholeLeaf (b t) = _
    rw [wholeLeaf_whole (ha t ht), wholeLeaf_whole (hb t ht)]
  rw [e]
  exact Prod.ext (proj_innerProduct (RingHom.fst ℚ ℚ) k _ _) (proj_innerProduct (RingHom.snd ℚ ℚ) k _ _)

theorem exact_sum {ι : Type} {l : List ι} {g : ι → Ieee p emax} {v : Ieee p emax}
    (h : Tagged.Rel IntPos IntExact v (l.map fun i => .live (wholeLeaf (g i))).sum) (hl : ∀ i ∈ l, Whole (g i))
    (hr : (l.map fun i => max 1 |(g i).val|).sum ≤ 2 ^ p) : v.Finite ∧ v.val = (l.map fun i => (g i).val).sum := by
  by_cases h0 : l = []
  · subst h0
    have : v = 0 := h
    subst this
    exact ⟨trivial, rfl⟩
  · rw [Tagged.sum_live h0, whole_sum hl] at h
    exact h.2 hr

theorem exact_product {ι : Type} {l : List ι} {g : ι → Ieee p emax} {v : Ieee p emax}
    (h : Tagged.Rel IntPos IntExact v (l.map fun i => .live (wholeLeaf (g i))).prod) (hl : ∀ i ∈ l, Whole (g i))
    (hr : (l.map fun i => max 1 |(g i).val|).prod ≤ 2 ^ p) : v.Finite ∧ v.val = (l.map fun i => (g i).val).prod := by
  by_cases h0 : l = []
  · subst h0
    have : v = 1 := h
    subst this
    exact ⟨trivial, rfl⟩
  · rw [Tagged.prod_live h0, whole_prod hl] at h
    exact h.2 hr

theorem exact_inner {k : Nat} {a b : Nat → Ieee p emax} {v : Ieee p emax}
    (h : Tagged.Rel IntPos IntExact v (innerProduct k (fun t => .live (wholeLeaf (a t))) fun t => .live (wholeLeaf (b t))))
    (ha : ∀ t < k, Whole (a t)) (hb : ∀ t < k, Whole (b t))
    (hr : innerProduct k (fun t => max 1 |(a t).val|) (fun t => max 1 |(b t).val|) ≤ 2 ^ p) :
    v.Finite ∧ v.val = innerProduct k (fun t => (a t).val) fun t => (b t).val := by
  rcases Nat.eq_zero_or_pos k with h0 | h0
  · subst h0
    have : v = 0 := h
    subst this
    exact ⟨trivial, rfl⟩
  · rw [Tagged.inner_live h0, whole_inner ha hb] at h
    exact h.2 hr

/-- **C69** (part): `sum` of integers is exact. Missing: the broadcast views excluded in C09. -/
theorem C69_exact_sum_partial (hpe : p ≤ emax) {K : RedKernels (Ieee p emax)} (hK : StockSum K) {a : Arr (Ieee p emax)} {s : List Nat}
    {f : List Nat → Ieee p emax} (ha : a.Denotes s f) (hd : s.length ≤ 32) (hg : Reducible s a.stride)
    (hf : ∀ idx, InB idx s → Whole (f idx)) (hr : (elements s fun i => max 1 |(f i).val|).sum ≤ 2 ^ p) :
    ∃ r v, a.reduceAll (fun v acc => acc + v) 0 K = .ok r ∧ r.Denotes [] (fun _ => v) ∧ v.Finite ∧
      v.val = (elements s fun i => (f i).val).sum := by
  have := Fact.mk hpe
  obtain ⟨r, f', h1, h2, h3⟩ := transfer_sum whole_leaf hK ha hd hg
  exact ⟨r, f' [], h1, denotes_nil h2, exact_sum h3 (fun i hi => hf i (mem_indices.1 hi)) hr⟩

example := C69_exact_sum_partial (p := 24) (emax := 127) (by decide) (K := simdRed (fun v acc => acc + v) (fun x y => x + y) 0 4) (.inr (.inr rfl))
  (denotes_fromContiguous (s := [3, 2]) (f := fun _ => (Ieee.ofRat 7 : F32))) (by decide) (.inr (by decide)) (fun _ _ => ⟨by decide +kernel, 7, by decide +kernel⟩) (by decide +kernel)

/-- **C69** (part): `product` of integers. Missing: as for `sum`. -/
theorem C69_exact_product_partial (hpe : p ≤ emax) {K : RedKernels (Ieee p emax)} (hK : StockProduct K) {a : Arr (Ieee p emax)}
    {s : List Nat} {f : List Nat → Ieee p emax} (ha : a.Denotes s f) (hd : s.length ≤ 32) (hg : Reducible s a.stride)
    (hf : ∀ idx, InB idx s → Whole (f idx)) (hr : (elements s fun i => max 1 |(f i).val|).prod ≤ 2 ^ p) :
    ∃ r v, a.reduceAll (fun v acc => acc * v) 1 K = .ok r ∧ r.Denotes [] (fun _ => v) ∧ v.Finite ∧
      v.val = (elements s fun i => (f i).val).prod := by
  have := Fact.mk hpe
  obtain ⟨r, f', h1, h2, h3⟩ := transfer_product whole_leaf hK ha hd hg
  exact ⟨r, f' [], h1, denotes_nil h2, exact_product h3 (fun i hi => hf i (mem_indices.1 hi)) hr⟩

example := C69_exact_product_partial (p := 24) (emax := 127) (by decide) (K := simdProduct (fun v acc => acc * v) (fun x y => x * y) 1 4) (.inr (.inr rfl))
  (denotes_fromContiguous (s := [3, 2]) (f := fun _ => (Ieee.ofRat 7 : F32))) (by decide) (.inr (by decide)) (fun _ _ => ⟨by decide +kernel, 7, by decide +kernel⟩) (by decide +kernel)

/-- **C69**: `sum_along` of integers. -/
theorem C69_exact_sum_along (hpe : p ≤ emax) {a : Arr (Ieee p emax)} {s : List Nat} {f : List Nat → Ieee p emax}
    (ha : a.Denotes s f) (hd : s.length ≤ 32) {axes : List Int} {ks : List Nat} (hax : AxesAre axes s.length ks) (hnd : ks.Nodup) :
    ∃ r f', a.sumAlong axes = .ok r ∧ r.Denotes (dropAxes ks s) f' ∧ ∀ J, InB J (dropAxes ks s) →
      (∀ i ∈ fibre ks s J, Whole (f i)) → ((fibre ks s J).map fun i => max 1 |(f i).val|).sum ≤ 2 ^ p →
      (f' J).Finite ∧ (f' J).val = ((fibre ks s J).map fun i => (f i).val).sum := by
  have := Fact.mk hpe
  obtain ⟨r, f', h1, h2, h3⟩ := transfer_sumAlong whole_leaf ha hd hax hnd
  exact ⟨r, f', h1, h2, fun J hJ hf hr => exact_sum (h3 J hJ) hf hr⟩

example := C69_exact_sum_along (p := 24) (emax := 127) (by decide) (denotes_fromContiguous (s := [3, 2]) (f := fun _ => (Ieee.ofRat 7 : F32))) (by decide) (axes := [-1]) (ks := [1])
  ⟨⟨by decide, by decide⟩, trivial⟩ (by decide)

/-- **C69**: `product_along` of integers. -/
theorem C69_exact_product_along (hpe : p ≤ emax) {a : Arr (Ieee p emax)} {s : List Nat} {f : List Nat → Ieee p emax}
    (ha : a.Denotes s f) (hd : s.length ≤ 32) {axes : List Int} {ks : List Nat} (hax : AxesAre axes s.length ks) (hnd : ks.Nodup) :
    ∃ r f', a.productAlong axes = .ok r ∧ r.Denotes (dropAxes ks s) f' ∧ ∀ J, InB J (dropAxes ks s) →
      (∀ i ∈ fibre ks s J, Whole (f i)) → ((fibre ks s J).map fun i => max 1 |(f i).val|).prod ≤ 2 ^ p →
      (f' J).Finite ∧ (f' J).val = ((fibre ks s J).map fun i => (f i).val).prod := by
  have := Fact.mk hpe
  obtain ⟨r, f', h1, h2, h3⟩ := transfer_productAlong whole_leaf ha hd hax hnd
  exact ⟨r, f', h1, h2, fun J hJ hf hr => exact_product (h3 J hJ) hf hr⟩

example := C69_exact_product_along (p := 24) (emax := 127) (by decide) (denotes_fromContiguous (s := [3, 2]) (f := fun _ => (Ieee.ofRat 7 : F32))) (by decide) (axes := [-1]) (ks := [1])
  ⟨⟨by decide, by decide⟩, trivial⟩ (by decide)

/-- **C69**: `trace` of a matrix of integers. -/
theorem C69_exact_trace (hpe : p ≤ emax) {a : Arr (Ieee p emax)} {n m : Nat} {f : List Nat → Ieee p emax} (ha : a.Denotes [n, m] f)
    (hm : m ≠ 0) (hf : ∀ k < min n m, Whole (f [k, k]))
    (hr : ((List.range (min n m)).map fun k => max 1 |(f [k, k]).val|).sum ≤ 2 ^ p) :
    ∃ r v, a.trace = .ok r ∧ r.Denotes [] (fun _ => v) ∧ v.Finite ∧
      v.val = ((List.range (min n m)).map fun k => (f [k, k]).val).sum := by
  have := Fact.mk hpe
  obtain ⟨r, f', h1, h2, h3⟩ := transfer_traceAlong whole_leaf ha (by simp) (o := 0) (ax1 := 0) (ax2 := 1) (i := 0)
    (j := 1) (n1 := n) (n2 := m) ⟨by simp, by simp⟩ ⟨by simp, by simp⟩ (by simp) rfl rfl (by simp) (by left; omega)
  have h4 := h3 [] (by simp [others])
  simp only [neg_zero, Int.toNat_zero, Nat.sub_zero, Nat.add_zero] at h4
  have e : ∀ k, putTwo 0 k 1 k [n, m].length 0 [] = [k, k] := fun k => by simp [putTwo]
  simp only [e] at h4
  have h5 : r.Denotes [] f' := by simpa [others] using h2
  exact ⟨r, f' [], h1, denotes_nil h5, exact_sum h4 (fun k hk => hf k (List.mem_range.1 hk)) hr⟩

example := C69_exact_trace (p := 24) (emax := 127) (by decide) (denotes_fromContiguous (s := [3, 2]) (f := fun _ => (Ieee.ofRat 7 : F32))) (by decide)
  (fun _ _ => ⟨by decide +kernel, 7, by decide +kernel⟩) (by decide +kernel)

/-- **C69**: `dot` of integers. -/
theorem C69_exact_dot (hpe : p ≤ emax) {a b : Arr (Ieee p emax)} {n : Nat} {f g : List Nat → Ieee p emax} (ha : a.Denotes [n] f)
    (hb : b.Denotes [n] g) (hf : ∀ i < n, Whole (f [i])) (hg : ∀ i < n, Whole (g [i]))
    (hr : innerProduct n (fun i => max 1 |(f [i]).val|) (fun i => max 1 |(g [i]).val|) ≤ 2 ^ p) :
    ∃ r v, a.dot b = .ok r ∧ r.Denotes [] (fun _ => v) ∧ v.Finite ∧
      v.val = innerProduct n (fun i => (f [i]).val) fun i => (g [i]).val := by
  have := Fact.mk hpe
  obtain ⟨r, f', h1, h2, h3⟩ := transfer_dot whole_leaf ha hb
  exact ⟨r, f' [], h1, denotes_nil h2, exact_inner h3 hf hg hr⟩

example := C69_exact_dot (p := 24) (emax := 127) (by decide) (denotes_fromContiguous (s := [3]) (f := fun _ => (Ieee.ofRat 7 : F32))) (denotes_fromContiguous (s := [3]) (f := fun _ => (Ieee.ofRat 7 : F32)))
  (fun _ _ => ⟨by decide +kernel, 7, by decide +kernel⟩) (fun _ _ => ⟨by decide +kernel, 7, by decide +kernel⟩) (by decide +kernel)

/-- **C69**: matrix x vector, integers. -/
theorem C69_exact_matvec (hpe : p ≤ emax) {K : SopKernels (Ieee p emax)} (hK : StockSop K) {a b : Arr (Ieee p emax)} {m k : Nat}
    {f g : List Nat → Ieee p emax} (ha : a.Denotes [m, k] f) (hb : b.Denotes [k] g) :
    ∃ r f', a.matmul K b = .ok r ∧ r.Denotes [m] f' ∧ ∀ i < m,
      (∀ t < k, Whole (f [i, t])) → (∀ t < k, Whole (g [t])) →
      innerProduct k (fun t => max 1 |(f [i, t]).val|) (fun t => max 1 |(g [t]).val|) ≤ 2 ^ p →
      (f' [i]).Finite ∧ (f' [i]).val = innerProduct k (fun t => (f [i, t]).val) fun t => (g [t]).val := by
  have := Fact.mk hpe
  obtain ⟨r, f', h1, h2, h3⟩ := transfer_matvec whole_leaf hK ha hb
  exact ⟨r, f', h1, h2, fun i hi hf hg hr => exact_inner (h3 [i] ⟨hi, trivial⟩) hf hg hr⟩

example := C69_exact_matvec (p := 24) (emax := 127) (by decide) (K := simdSop 4) (.inr (.inr rfl)) (denotes_fromContiguous (s := [2, 3]) (f := fun _ => (Ieee.ofRat 7 : F32)))
  (denotes_fromContiguous (s := [3]) (f := fun _ => (Ieee.ofRat 7 : F32)))

/-- **C69** (part): matrix x matrix, integers. Missing: extents 0. -/
theorem C69_exact_matmul_partial (hpe : p ≤ emax) {K : SopKernels (Ieee p emax)} (hK : StockSop K) {a b : Arr (Ieee p emax)}
    {m k n : Nat} {f g : List Nat → Ieee p emax} (ha : a.Denotes [m, k] f) (hb : b.Denotes [k, n] g) (hm : 0 < m) (hk : 0 < k)
    (hn : 0 < n) :
    ∃ r f', a.matmul K b = .ok r ∧ r.Denotes [m, n] f' ∧ ∀ i < m, ∀ j < n,
      (∀ t < k, Whole (f [i, t])) → (∀ t < k, Whole (g [t, j])) →
      innerProduct k (fun t => max 1 |(f [i, t]).val|) (fun t => max 1 |(g [t, j]).val|) ≤ 2 ^ p →
      (f' [i, j]).Finite ∧ (f' [i, j]).val = innerProduct k (fun t => (f [i, t]).val) fun t => (g [t, j]).val := by
  have := Fact.mk hpe
  obtain ⟨r, f', h1, h2, h3⟩ := transfer_matmul whole_leaf hK ha hb hm hk hn fun x => Tagged.live_live _
  exact ⟨r, f', h1, h2, fun i hi j hj hf hg hr => exact_inner (h3 [i, j] ⟨hi, hj, trivial⟩) hf hg hr⟩

example := C69_exact_matmul_partial (p := 24) (emax := 127) (by decide) (K := simdSop 4) (.inr (.inr rfl)) (denotes_fromContiguous (s := [2, 3]) (f := fun _ => (Ieee.ofRat 7 : F32)))
  (denotes_fromContiguous (s := [3, 2]) (f := fun _ => (Ieee.ofRat 7 : F32))) (by decide) (by decide) (by decide)

/-- **C69** (part): batches of matrix products, integers. Missing: extents 0. -/
theorem C69_exact_bmm_partial (hpe : p ≤ emax) {K : SopKernels (Ieee p emax)} (hK : StockSop K) {a b : Arr (Ieee p emax)}
    {B m k n : Nat} {f g : List Nat → Ieee p emax} (ha : a.Denotes [B, m, k] f) (hb : b.Denotes [B, k, n] g) (hB : 0 < B)
    (hm : 0 < m) (hk : 0 < k) (hn : 0 < n) :
    ∃ r f', a.bmm K b = .ok r ∧ r.Denotes [B, m, n] f' ∧ ∀ x < B, ∀ i < m, ∀ j < n,
      (∀ t < k, Whole (f [x, i, t])) → (∀ t < k, Whole (g [x, t, j])) →
      innerProduct k (fun t => max 1 |(f [x, i, t]).val|) (fun t => max 1 |(g [x, t, j]).val|) ≤ 2 ^ p →
      (f' [x, i, j]).Finite ∧ (f' [x, i, j]).val = innerProduct k (fun t => (f [x, i, t]).val) fun t => (g [x, t, j]).val := by
  have := Fact.mk hpe
  obtain ⟨r, f', h1, h2, h3⟩ := transfer_bmm whole_leaf hK ha hb hB hm hk hn fun x => Tagged.live_live _
  exact ⟨r, f', h1, h2, fun x hx i hi j hj hf hg hr => exact_inner (h3 [x, i, j] ⟨hx, hi, hj, trivial⟩) hf hg hr⟩

example := C69_exact_bmm_partial (p := 24) (emax := 127) (by decide) (K := simdSop 4) (.inr (.inr rfl)) (denotes_fromContiguous (s := [2, 2, 3]) (f := fun _ => (Ieee.ofRat 7 : F32)))
  (denotes_fromContiguous (s := [2, 3, 2]) (f := fun _ => (Ieee.ofRat 7 : F32))) (by decide) (by decide) (by decide) (by decide)

/-- **C69** (part): `einsum` of integers. Missing: what `C28_einsum_partial` leaves out. -/
theorem C69_exact_einsum_partial (hpe : p ≤ emax) {K : SopKernels (Ieee p emax)} (hK : StockSop K) {ops : List (Arr (Ieee p emax))}
    {fs : List (Factor (Ieee p emax))} {out rest : List Char} {dim : Char → Nat} (hw : WellFormed fs out rest dim)
    (hd : List.Forall₂ (fun a f => a.Denotes (f.letters.map dim) f.elem) ops fs) (hargs : ops.length < 16)
    (hdims : ∀ f ∈ fs, f.letters.length ≤ 32) (htot : (out ++ rest).length ≤ 32) (hne : out ++ rest ≠ []) :
    ∃ r f', einsum K ops (fs.map (·.letters)) out = .ok r ∧ r.Denotes (out.map dim) f' ∧ ∀ idx, InB idx (out.map dim) →
      (∀ x ∈ entering out rest dim fs idx, Whole x) →
      einsteinSum out rest dim (fs.map (Factor.map fun x => max 1 |x.val|)) idx ≤ 2 ^ p →
      (f' idx).Finite ∧ (f' idx).val = einsteinSum out rest dim (fs.map (Factor.map Ieee.val)) idx := by
  have := Fact.mk hpe
  obtain ⟨r, f', h1, h2, h3⟩ := transfer_einsum whole_leaf hK hw hd hargs hdims htot hne fun x => Tagged.live_live _
  refine ⟨r, f', h1, h2, fun idx hi hm hr => ?_⟩
  obtain ⟨n1, n2⟩ := wellFormed_nonempty hw hne
  have h := h3 idx hi
  have e : fs.map (Factor.map fun x => Tagged.live (wholeLeaf x)) = (fs.map (Factor.map wholeLeaf)).map (Factor.map .live) := by
    rw [List.map_map]; rfl
  rw [e, Tagged.einsteinSum_live (by simpa using n1) n2, einsteinSum_congr fun x hx => wholeLeaf_whole (hm x hx)] at h
  have e1 := proj_einsteinSum (RingHom.fst ℚ ℚ) out rest dim (fs.map (Factor.map fun x => (x.val, max 1 |x.val|))) idx
  have e2 := proj_einsteinSum (RingHom.snd ℚ ℚ) out rest dim (fs.map (Factor.map fun x => (x.val, max 1 |x.val|))) idx
  rw [List.map_map] at e1 e2
  obtain ⟨g1, g2⟩ := h.2 (e2.le.trans hr)
  exact ⟨g1, g2.trans e1⟩

/-! Cases that meet the hypotheses: `f32` and `f64`, fractions and integers. -/

example : (24 : Nat) ≤ 127 ∧ (53 : Nat) ≤ 1023 := by decide
example : Moderate 2 (Ieee.ofRat (-13 / 4) : F32) := ⟨by decide +kernel, -13, by decide +kernel⟩
example : Whole (Ieee.ofRat (-7) : F64) := ⟨by decide +kernel, -7, by decide +kernel⟩
example : (2 * 60 : ℤ) ≤ -tiny 24 127 ∧ (2 * 500 : ℤ) ≤ -tiny 53 1023 := by decide
example : (elements [3] fun i => max 1 |(Ieee.ofRat (2 ^ 100 + i.headD 0) : F32).val|).sum * (1 + unitRoundoff 24) ^ 2 < 2 ^ (127 + 1) := by
  decide +kernel
example : innerProduct 2 (fun t => max 1 |(Ieee.ofRat (t + 3 / 2) : F32).val|) (fun t => max 1 |(Ieee.ofRat (2 - t) : F32).val|) *
    (1 + unitRoundoff 24) ^ 2 < 2 ^ (127 + 1) := by decide +kernel
example : (do
      let r ← (Arr.fromContiguousOwnedBuffer [2, 2] ([1, 2, 3, 5].map fun q => (Ieee.ofRat q : F32))).matmul (simdSop 4)
        (Arr.fromContiguousOwnedBuffer [2, 2] ([1 / 2, -2, 3, 0].map fun q => (Ieee.ofRat q : F32)))
      return r.buf.map Ieee.val) = .ok [13 / 2, -2, 33 / 2, -6] := by decide +kernel

/-- **The bound on the absolute values alone is not enough.** The product of `2^100, 2^100, 0` is 0, also on the absolute values, but
`f32` overflows on the way and returns NaN. -/
theorem C69_zero_false : (do
      let r ← (Arr.fromContiguousOwnedBuffer [3] [(Ieee.ofRat (2 ^ 100) : F32), Ieee.ofRat (2 ^ 100), 0]).product
      return r.buf) = .ok [.nan] := by decide +kernel

/-- **Underflow.** The product of `2^-100, 2^-100` and `2^100` is `2^-100`, but in `f32` the first two underflow to 0. -/
theorem C69_underflow_false : (do
      let r ← (Arr.fromContiguousOwnedBuffer [3] [(Ieee.ofRat (1 / 2 ^ 100) : F32), Ieee.ofRat (1 / 2 ^ 100), Ieee.ofRat (2 ^ 100)]).product
      return r.buf) = .ok [0] := by decide +kernel

end Verif
