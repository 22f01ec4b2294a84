import Verif.Props.Blas
import Verif.Props.Views

/-!
# C74 gradients of matrix products through BLAS

The backward pass of a matrix product multiplies with the transpose of the other operand. The transpose of a column `[k, 1]` is
a row `[1, k]` both of whose strides are 1, which the code hands to BLAS with a leading dimension that is too small.
-/

namespace Verif

variable {α : Type} [CommSemiring α]

omit [CommSemiring α] in
theorem T_layout {a : Arr α} {m n x y : Nat} {f : List Nat → α} (ha : a.Denotes [m, n] f) (hs : a.stride = [x, y]) :
    ∃ r, a.T = .ok r ∧ r.Denotes [n, m] (fun idx => f [idx.getD 1 0, idx.getD 0 0]) ∧ r.stride = [y, x] := by
  obtain ⟨r, hr, hden⟩ := C14_T ha
  refine ⟨r, hr, hden.congr fun idx h => ?_, ?_⟩
  · match idx, h with
    | [i, j], _ => rfl
  · have e : a.T = .ok (a.reshapedView [n, m] [y, x]) := by
      unfold Arr.T Arr.transpose Arr.transposeLayout Arr.ndims
      rw [ha.1, hs]
      rfl
    rw [e] at hr
    cases hr
    rfl

omit [CommSemiring α] in
theorem transpose12_layout {a : Arr α} {B m n w x y : Nat} {f : List Nat → α} (ha : a.Denotes [B, m, n] f)
    (hs : a.stride = [w, x, y]) :
    ∃ r, a.transpose 1 2 = .ok r ∧ r.Denotes [B, n, m] (fun idx => f [idx.getD 0 0, idx.getD 2 0, idx.getD 1 0]) ∧
      r.stride = [w, y, x] := by
  obtain ⟨⟨r, hr, _, hden⟩, _⟩ := C14_transpose ha (ax1 := 1) (ax2 := 2) (i := 1) (j := 2)
    ⟨by simp, by simp⟩ ⟨by simp, by simp⟩
  refine ⟨r, hr, ?_, ?_⟩
  · have : exchange 1 2 [B, m, n] = [B, n, m] := by
      rw [exchange_eq_set (by simp) (by simp)]; rfl
    rw [this] at hden
    refine hden.congr fun idx h => ?_
    match idx, h with
    | [i, j, l], _ => rfl
  · have e : a.transpose 1 2 = .ok (a.reshapedView [B, n, m] [w, y, x]) := by
      unfold Arr.transpose Arr.transposeLayout Arr.ndims
      rw [ha.1, hs]
      rfl
    rw [e] at hr
    cases hr
    rfl

/-- **C74, gradient of the first factor.** For `a : [m, k]`, `b : [k, n]` row-major and a row-major gradient `g : [m, n]`, with
positive extents below `2^31`: with BLAS `g.matmul(b.T())` is `Σ_t g[i,t] * b[j,t]` unless `n = 1` and `k ≥ 2`; in that case the
contract of `gemm` is violated. -/
theorem C74_matmul_lhs_partial {neon : Bool} {K : SopKernels α} (hK : K.Correct) {g b : Arr α} {m k n : Nat} {γ β : List Nat → α}
    (hg : g.Denotes [m, n] γ) (hgs : g.stride = [n, 1]) (hb : b.Denotes [k, n] β) (hbs : b.stride = [n, 1])
    (hm : 0 < m) (hk : 0 < k) (hn : 0 < n) (hmx : m < 2147483648) (hkx : k < 2147483648) (hnx : n < 2147483648) :
    (n ≠ 1 ∨ k = 1 → ∃ r, matmulTransposedBlas neon K g b = .ok r ∧
      r.Denotes [m, k] (fun idx => innerProduct n (fun t => γ [idx.getD 0 0, t]) (fun t => β [idx.getD 1 0, t]))) ∧
    (n = 1 → 2 ≤ k → matmulTransposedBlas neon K g b = .error .ub) := by
  obtain ⟨t, ht, hden, hst⟩ := T_layout hb hbs
  have e : matmulTransposedBlas neon K g b = g.matmulBlas neon K t := by
    unfold matmulTransposedBlas; rw [ht]; rfl
  rw [e]
  constructor
  · intro h
    exact C56_matmul_partial hK hg hden hm hn hk hmx hnx hkx fun d e' h1 h2 => by
      rw [hgs] at h1
      rw [hst] at h2
      simp only [List.cons.injEq, and_true] at h1 h2
      omega
  · rintro rfl h2
    exact C56_matmul_ub hg.1 hden.1 hm hk hmx hnx hkx hgs hst (by norm_num) (by norm_num) (.inr (by omega))

example := C74_matmul_lhs_partial (neon := false) portableSop_correct
  (denotes_fromContiguous (s := [2, 3]) (f := fun i => (i.getD 0 0 : Int))) rfl
  (denotes_fromContiguous (s := [4, 3]) (f := fun i => (i.getD 1 0 : Int))) rfl (by decide) (by decide) (by decide) (by decide) (by decide)
  (by decide)

/-- **C74, gradient of the second factor.** With BLAS `a.T().matmul(g)` is `Σ_t a[t,i] * g[t,j]` unless `k = 1` and `m ≥ 2`; in
that case the contract of `gemm` is violated. -/
theorem C74_matmul_rhs_partial {neon : Bool} {K : SopKernels α} (hK : K.Correct) {a g : Arr α} {m k n : Nat} {A γ : List Nat → α}
    (ha : a.Denotes [m, k] A) (has : a.stride = [k, 1]) (hg : g.Denotes [m, n] γ) (hgs : g.stride = [n, 1])
    (hm : 0 < m) (hk : 0 < k) (hn : 0 < n) (hmx : m < 2147483648) (hkx : k < 2147483648) (hnx : n < 2147483648) :
    (k ≠ 1 ∨ m = 1 → ∃ r, transposedMatmulBlas neon K a g = .ok r ∧
      r.Denotes [k, n] (fun idx => innerProduct m (fun t => A [t, idx.getD 0 0]) (fun t => γ [t, idx.getD 1 0]))) ∧
    (k = 1 → 2 ≤ m → transposedMatmulBlas neon K a g = .error .ub) := by
  obtain ⟨t, ht, hden, hst⟩ := T_layout ha has
  have e : transposedMatmulBlas neon K a g = t.matmulBlas neon K g := by
    unfold transposedMatmulBlas; rw [ht]; rfl
  rw [e]
  constructor
  · intro h
    exact C56_matmul_partial hK hden hg hk hm hn hkx hmx hnx fun d e' h1 h2 => by
      rw [hst] at h1
      rw [hgs] at h2
      simp only [List.cons.injEq, and_true] at h1 h2
      omega
  · rintro rfl h2
    exact C56_matmul_ub hden.1 hg.1 hk hn hkx hmx hnx hst hgs (by norm_num) hnx (.inl (by omega))

example := C74_matmul_rhs_partial (neon := false) portableSop_correct
  (denotes_fromContiguous (s := [2, 3]) (f := fun i => (i.getD 0 0 : Int))) rfl
  (denotes_fromContiguous (s := [2, 4]) (f := fun i => (i.getD 1 0 : Int))) rfl (by decide) (by decide) (by decide) (by decide) (by decide)
  (by decide)

/-- **C74, gradient of the vector in a matrix-vector product.** With NEON `matrix.T().matmul(g)` is always
`Σ_t a[t,i] * g[t]`; with BLAS and without NEON unless `k = 1` and `m ≥ 2`, when the contract of `gemv` is violated. -/
theorem C74_mat_vec_partial {neon : Bool} {K : SopKernels α} (hK : K.Correct) {a g : Arr α} {m k : Nat} {A γ : List Nat → α}
    (ha : a.Denotes [m, k] A) (has : a.stride = [k, 1]) (hg : g.Denotes [m] γ) (hgs : g.stride = [1])
    (hm : 0 < m) (hk : 0 < k) (hmx : m < 2147483648) (hkx : k < 2147483648) :
    (neon = true ∨ k ≠ 1 ∨ m = 1 → ∃ r, transposedMatmulBlas neon K a g = .ok r ∧
      r.Denotes [k] (fun idx => innerProduct m (fun t => A [t, idx.headD 0]) (fun t => γ [t]))) ∧
    (neon = false → k = 1 → 2 ≤ m → transposedMatmulBlas neon K a g = .error .ub) := by
  obtain ⟨t, ht, hden, hst⟩ := T_layout ha has
  have e : transposedMatmulBlas neon K a g = t.matmulBlas neon K g := by
    unfold transposedMatmulBlas; rw [ht]; rfl
  rw [e]
  constructor
  · intro h
    cases neon with
    | true => exact C56_mat_vec_neon hden hg
    | false =>
      refine C56_mat_vec_partial hK hden hg hk hm hkx hmx (fun d h1 => ?_) (fun d h1 => ?_)
      · rw [hst] at h1
        simp only [List.cons.injEq, and_true] at h1
        simp only [Bool.false_eq_true, false_or] at h
        omega
      · rw [hgs] at h1
        simp only [List.cons.injEq, and_true] at h1
        omega
  · rintro rfl rfl h2
    exact C56_mat_vec_ub hden.1 hg.1 hkx hmx hst hgs (by norm_num) (by norm_num) (.inl (by omega))

example := C74_mat_vec_partial (neon := false) portableSop_correct
  (denotes_fromContiguous (s := [2, 3]) (f := fun i => (i.getD 0 0 : Int))) rfl
  (denotes_fromContiguous (s := [2]) (f := fun i => (i.getD 0 0 : Int))) rfl (by decide) (by decide) (by decide) (by decide)

/-- **C74, batches, first factor.** As `C74_matmul_lhs_partial`, for `grad.bmm(b.transpose(1, 2))`. -/
theorem C74_bmm_lhs_partial {K : SopKernels α} (hK : K.Correct) {g b : Arr α} {B m k n : Nat} {γ β : List Nat → α}
    (hg : g.Denotes [B, m, n] γ) (hgs : g.stride = [m * n, n, 1]) (hb : b.Denotes [B, k, n] β) (hbs : b.stride = [k * n, n, 1])
    (hB : 0 < B) (hm : 0 < m) (hk : 0 < k) (hn : 0 < n) (hmx : m < 2147483648) (hkx : k < 2147483648) (hnx : n < 2147483648) :
    (n ≠ 1 ∨ k = 1 → ∃ r, bmmTransposedBlas K g b = .ok r ∧ r.Denotes [B, m, k] (fun idx => innerProduct n
      (fun t => γ [idx.getD 0 0, idx.getD 1 0, t]) (fun t => β [idx.getD 0 0, idx.getD 2 0, t]))) ∧
    (n = 1 → 2 ≤ k → bmmTransposedBlas K g b = .error .ub) := by
  obtain ⟨t, ht, hden, hst⟩ := transpose12_layout hb hbs
  have e : bmmTransposedBlas K g b = g.bmmBlas K t := by
    unfold bmmTransposedBlas; rw [ht]; rfl
  rw [e]
  constructor
  · intro h
    exact C56_bmm_partial hK hg hden hB hm hn hk hmx hnx hkx fun d e' h1 h2 => by
      rw [hgs] at h1
      rw [hst] at h2
      simp only [List.drop_succ_cons, List.drop_zero, List.cons.injEq, and_true] at h1 h2
      omega
  · rintro rfl h2
    exact C56_bmm_ub hg hden hB hm hn hk hmx hnx hkx hgs hst (by norm_num) (by norm_num) (.inr (by omega))

example := C74_bmm_lhs_partial portableSop_correct
  (denotes_fromContiguous (s := [2, 2, 3]) (f := fun i => (i.getD 0 0 : Int))) rfl
  (denotes_fromContiguous (s := [2, 4, 3]) (f := fun i => (i.getD 1 0 : Int))) rfl (by decide) (by decide) (by decide) (by decide)
  (by decide) (by decide) (by decide)

/-- **C74, batches, second factor.** As `C74_matmul_rhs_partial`, for `a.transpose(1, 2).bmm(grad)`. -/
theorem C74_bmm_rhs_partial {K : SopKernels α} (hK : K.Correct) {a g : Arr α} {B m k n : Nat} {A γ : List Nat → α}
    (ha : a.Denotes [B, m, k] A) (has : a.stride = [m * k, k, 1]) (hg : g.Denotes [B, m, n] γ) (hgs : g.stride = [m * n, n, 1])
    (hB : 0 < B) (hm : 0 < m) (hk : 0 < k) (hn : 0 < n) (hmx : m < 2147483648) (hkx : k < 2147483648) (hnx : n < 2147483648) :
    (k ≠ 1 ∨ m = 1 → ∃ r, transposedBmmBlas K a g = .ok r ∧ r.Denotes [B, k, n] (fun idx => innerProduct m
      (fun t => A [idx.getD 0 0, t, idx.getD 1 0]) (fun t => γ [idx.getD 0 0, t, idx.getD 2 0]))) ∧
    (k = 1 → 2 ≤ m → transposedBmmBlas K a g = .error .ub) := by
  obtain ⟨t, ht, hden, hst⟩ := transpose12_layout ha has
  have e : transposedBmmBlas K a g = t.bmmBlas K g := by
    unfold transposedBmmBlas; rw [ht]; rfl
  rw [e]
  constructor
  · intro h
    exact C56_bmm_partial hK hden hg hB hk hm hn hkx hmx hnx fun d e' h1 h2 => by
      rw [hst] at h1
      rw [hgs] at h2
      simp only [List.drop_succ_cons, List.drop_zero, List.cons.injEq, and_true] at h1 h2
      omega
  · rintro rfl h2
    exact C56_bmm_ub hden hg hB hk hm hn hkx hmx hnx hst hgs (by norm_num) hnx (.inl (by omega))

example := C74_bmm_rhs_partial portableSop_correct
  (denotes_fromContiguous (s := [2, 2, 3]) (f := fun i => (i.getD 0 0 : Int))) rfl
  (denotes_fromContiguous (s := [2, 2, 4]) (f := fun i => (i.getD 1 0 : Int))) rfl (by decide) (by decide) (by decide) (by decide)
  (by decide) (by decide) (by decide)

/-! ### an output layer with one unit -/

/-- Hidden activations `[2, 3]`, weights `[3, 1]`, gradient `[2, 1]`. -/
def hidden : Arr Int := Arr.fromContiguousOwnedBuffer [2, 3] [1, 2, 3, 4, 5, 6]
def outWeights : Arr Int := Arr.fromContiguousOwnedBuffer [3, 1] [1, 0, 2]
def outGrad : Arr Int := Arr.fromContiguousOwnedBuffer [2, 1] [1, 10]

/-- The hypotheses hold for arrays as they are created. -/
example : ∃ β γ, outWeights.Denotes [3, 1] β ∧ outWeights.stride = [1, 1] ∧ outGrad.Denotes [2, 1] γ ∧ outGrad.stride = [1, 1] :=
  ⟨_, _, denotes_fromContiguous_getD rfl 0, rfl, denotes_fromContiguous_getD rfl 0, rfl⟩

set_option maxRecDepth 10000 in
/-- **C74, negation.** The product of activations `[2, 3]` with weights `[3, 1]` is right with BLAS, and so is the gradient of the
weights; the gradient of the activations is not computed, because `gemm` is called with `ldb = 1 < 3`. The portable build computes
it. -/
theorem C74_output_layer_false (neon : Bool) :
    (hidden.matmulBlas neon portableSop outWeights).map (·.buf) = .ok [7, 16] ∧
    (transposedMatmulBlas neon portableSop hidden outGrad).map (·.buf) = .ok [41, 52, 63] ∧
    matmulTransposedBlas neon portableSop outGrad outWeights = .error .ub ∧
    (outWeights.T >>= fun t => (outGrad.matmul portableSop t).map (·.buf)) = .ok [1, 0, 2, 10, 0, 20] := by
  cases neon <;> decide +kernel

end Verif
