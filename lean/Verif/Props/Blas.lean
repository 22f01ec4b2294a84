import Verif.Props.MatrixOps
import Verif.Props.Einsum
import Verif.Lemmas.Blas

/-!
# C56 matrix products through BLAS

With `--cfg blas` the products of `f32`/`f64` matrices call third-party routines. They agree with the portable loops when
the rows of each operand do not overlap; the code only checks that the elements of a row are adjacent.
-/

namespace Verif

variable {α : Type}

/-- A matrix is fit for BLAS: its rows are not made of adjacent elements (the code then does not use BLAS), or a row
starts no earlier than the one above ends. -/
def RowsApart (cols : Nat) (stride : List Nat) : Prop :=
  ∀ d, stride = [d, 1] → cols ≤ d ∧ d < 2147483648

/-- Two matrices are fit for BLAS: if the rows of both are made of adjacent elements (else the code does not use BLAS), then
the rows of both are apart. -/
def BlasFit (k n : Nat) (sa sb : List Nat) : Prop :=
  ∀ d e, sa = [d, 1] → sb = [e, 1] → (k ≤ d ∧ d < 2147483648) ∧ (n ≤ e ∧ e < 2147483648)

theorem RowsApart.fit {k n : Nat} {sa sb : List Nat} (ha : RowsApart k sa) (hb : RowsApart n sb) : BlasFit k n sa sb :=
  fun d e h1 h2 => ⟨ha d h1, hb e h2⟩

theorem matrixMatrixProductBlas_ok [CommSemiring α] {K : SopKernels α} (hK : K.Correct) {a b : Arr α} {m k n : Nat}
    {f g : List Nat → α} (ha : a.Denotes [m, k] f) (hb : b.Denotes [k, n] g) (hm : 0 < m) (hk : 0 < k) (hn : 0 < n)
    (hmx : m < 2147483648) (hkx : k < 2147483648) (hnx : n < 2147483648) (hfit : BlasFit k n a.stride b.stride)
    {dst : List α} {q : Nat} (hq : q + m * n ≤ dst.length) :
    ∃ dst', matrixMatrixProductBlas K a b [n, 1] dst q = .ok dst' ∧ dst'.length = dst.length ∧
      (∀ i < m, ∀ j < n, dst'[q + (i * n + j)]? = some (innerProduct k (fun t => f [i, t]) (fun t => g [t, j]))) ∧
      ∀ p, (p < q ∨ q + m * n ≤ p) → dst'[p]? = dst[p]? := by
  obtain ⟨d0, d1, hd, ea⟩ := denotes2 ha
  obtain ⟨e0, e1, he, eb⟩ := denotes2 hb
  have hi : ∀ x < 2147483648, asI32 x = x := fun _ => asI32_small
  unfold matrixMatrixProductBlas
  generalize asI32 = I at hi ⊢
  rw [hd, he, ha.1, hb.1]
  rw [show getChecked [d0, d1] 1 = .ok d1 from rfl, ok_bind]
  by_cases h1 : d1 = 1
  swap
  · rw [if_pos h1, ok_bind]
    beta_reduce
    rw [if_pos (Or.inl h1)]
    exact matrixMatrixProduct_ok hK ha hb hm hk hn hq (fun _ _ => trivial) fun _ _ => trivial
  rw [if_neg (by simpa using h1), show getChecked [e0, e1] 1 = .ok e1 from rfl, ok_bind]
  beta_reduce
  by_cases h2 : e1 = 1
  swap
  · rw [if_pos (Or.inr h2)]
    exact matrixMatrixProduct_ok hK ha hb hm hk hn hq (fun _ _ => trivial) fun _ _ => trivial
  rw [if_neg (by simp [h1, h2])]
  subst h1 h2
  obtain ⟨⟨la, lx⟩, lb, ly⟩ := hfit d0 e0 hd he
  rw [show getChecked [m, k] 0 = .ok m from rfl, ok_bind, show getChecked [k, n] 1 = .ok n from rfl, ok_bind,
    show getChecked [m, k] 1 = .ok k from rfl, ok_bind, show getChecked [d0, 1] 0 = .ok d0 from rfl, ok_bind,
    show getChecked [e0, 1] 0 = .ok e0 from rfl, ok_bind, hi m hmx, hi n hnx, hi k hkx, hi d0 lx, hi e0 ly]
  exact gemm_ok (by simpa using ea) (by simpa using eb) hn hk la lb hq

/-- **C56, matrix x matrix.** With BLAS, `a.matmul(b)` of matrices with positive extents (below `2^31`) is the matrix
product, the same as without BLAS (`C30_matmul_partial`), unless the rows of both operands have adjacent elements and those of
one of them overlap.

Missing (and false, see `C56_matmul_ub` and `C56_false`): such operands. -/
theorem C56_matmul_partial [CommSemiring α] {neon : Bool} {K : SopKernels α} (hK : K.Correct) {a b : Arr α} {m k n : Nat}
    {f g : List Nat → α} (ha : a.Denotes [m, k] f) (hb : b.Denotes [k, n] g) (hm : 0 < m) (hk : 0 < k) (hn : 0 < n)
    (hmx : m < 2147483648) (hkx : k < 2147483648) (hnx : n < 2147483648) (hfit : BlasFit k n a.stride b.stride) :
    ∃ r, a.matmulBlas neon K b = .ok r ∧ r.Denotes [m, n]
      (fun idx => innerProduct k (fun t => f [idx.getD 0 0, t]) (fun t => g [t, idx.getD 1 0])) := by
  have hpos : 0 < m * n := Nat.mul_pos hm hn
  obtain ⟨z, hz, hsh, hst, hbuf, hoff⟩ : ∃ z : Arr α, Arr.zeros [m, n] = .ok z ∧ z.shape = [m, n] ∧ z.stride = [n, 1] ∧
      z.buf = List.replicate (m * n) 0 ∧ z.off = 0 := by
    refine ⟨Arr.fromContiguousOwnedBuffer [m, n] (List.replicate (m * n) 0), ?_, rfl, ?_, rfl, rfl⟩
    · show (assert _ >>= fun _ => _) = _
      rw [assert_ok (by simp; omega)]
      simp
    · simp [Arr.fromContiguousOwnedBuffer]
  obtain ⟨dst, e, hl, hv, _⟩ := matrixMatrixProductBlas_ok hK ha hb hm hk hn hmx hkx hnx hfit
    (dst := List.replicate (m * n) 0) (q := 0) (by simp)
  refine ⟨{ z with buf := dst }, ?_, hsh, by rw [hst]; rfl, ?_⟩
  · simp only [Arr.matmulBlas, ha.1, hb.1]
    rw [assert_ok (by simp), hz]
    have e' : matrixMatrixProductBlas K a b z.stride z.buf z.off = .ok dst := by rw [hst, hbuf, hoff]; exact e
    show (matrixMatrixProductBlas K a b z.stride z.buf z.off >>= fun data => _) = _
    rw [e']
    rfl
  · intro idx h
    match idx, h with
    | [i, j], h =>
      have := hv i h.1 j h.2.1
      simpa [hst, hoff, offset, Nat.add_comm] using this

example := C56_matmul_partial (neon := true) portableSop_correct (denotes_fromContiguous (s := [2, 3]) (f := fun i => (i.getD 0 0 : Int)))
  (denotes_fromContiguous (s := [3, 2]) (f := fun i => (i.getD 1 0 : Int))) (by decide) (by decide) (by decide) (by decide) (by decide)
  (by decide) fun d e h1 h2 => by cases h1; cases h2; decide

theorem matrixMatrixProductBlas_ub [CommSemiring α] {K : SopKernels α} {a b : Arr α} {m k n d e : Nat} {rs dst : List _} {q : Nat}
    (ha : a.shape = [m, k]) (hb : b.shape = [k, n]) (hmx : m < 2147483648) (hkx : k < 2147483648) (hnx : n < 2147483648)
    (hd : a.stride = [d, 1]) (he : b.stride = [e, 1]) (hdx : d < 2147483648) (hex : e < 2147483648) (h : d < k ∨ e < n) :
    matrixMatrixProductBlas K a b rs (dst : List α) q = .error .ub := by
  have hi : ∀ x < 2147483648, asI32 x = x := fun _ => asI32_small
  unfold matrixMatrixProductBlas
  generalize asI32 = I at hi ⊢
  rw [hd, he, ha, hb, show getChecked [d, 1] 1 = .ok 1 from rfl, ok_bind, if_neg (by simp),
    show getChecked [e, 1] 1 = .ok 1 from rfl, ok_bind]
  beta_reduce
  rw [if_neg (by simp), show getChecked [m, k] 0 = .ok m from rfl, ok_bind, show getChecked [k, n] 1 = .ok n from rfl, ok_bind,
    show getChecked [m, k] 1 = .ok k from rfl, ok_bind, show getChecked [d, 1] 0 = .ok d from rfl, ok_bind,
    show getChecked [e, 1] 0 = .ok e from rfl, ok_bind, hi m hmx, hi n hnx, hi k hkx, hi d hdx, hi e hex]
  unfold gemm
  rw [if_pos (by omega)]

/-- **C56, the rest.** If the rows of both operands have adjacent elements and those of one of them overlap, the contract of
the routine is always violated. With `C56_matmul_partial` this says what happens for all layouts with strides below `2^31`. -/
theorem C56_matmul_ub [CommSemiring α] {neon : Bool} {K : SopKernels α} {a b : Arr α} {m k n d e : Nat}
    (ha : a.shape = [m, k]) (hb : b.shape = [k, n]) (hm : 0 < m) (hn : 0 < n) (hmx : m < 2147483648) (hkx : k < 2147483648)
    (hnx : n < 2147483648) (hd : a.stride = [d, 1]) (he : b.stride = [e, 1]) (hdx : d < 2147483648) (hex : e < 2147483648)
    (h : d < k ∨ e < n) : a.matmulBlas neon K b = .error .ub := by
  have hpos : 0 < m * n := Nat.mul_pos hm hn
  simp only [Arr.matmulBlas, ha, hb]
  rw [assert_ok (by simp)]
  have hz : (Arr.zeros [m, n] : Res (Arr α)) = .ok (Arr.fromContiguousOwnedBuffer [m, n] (List.replicate (m * n) 0)) := by
    show (assert _ >>= fun _ => _) = _
    rw [assert_ok (by simp; omega)]
    simp
  rw [hz]
  show (matrixMatrixProductBlas K a b _ _ _ >>= fun data => _) = _
  rw [matrixMatrixProductBlas_ub ha hb hmx hkx hnx hd he hdx hex h]
  rfl

/-- a row broadcast to two rows -/
example : ∃ a, (Arr.fromContiguousOwnedBuffer [3] [(1 : Int), 2, 3]).broadcastTo [2, 3] = .ok a ∧
    a.matmulBlas true portableSop (Arr.fromContiguousOwnedBuffer [3, 2] [1, 2, 3, 4, 5, 6]) = .error .ub :=
  ⟨_, rfl, C56_matmul_ub (m := 2) (k := 3) (n := 2) (d := 0) (e := 2) rfl rfl (by decide) (by decide) (by decide) (by decide) (by decide)
    rfl rfl (by decide) (by decide) (.inl (by decide))⟩

/-- rows of a contiguous matrix are apart -/
theorem rowsApart_contiguous {m k : Nat} (hk : k < 2147483648) : RowsApart k (strideFromShape [m, k]) := by
  intro d h
  simp at h
  subst h
  exact ⟨le_rfl, hk⟩

/-- rows of a matrix with overlapping rows of non-adjacent elements, such as the transpose of a contiguous matrix, do not
matter -/
theorem rowsApart_strided {d e : Nat} (k : Nat) (he : e ≠ 1) : RowsApart k [d, e] := by
  intro d' h
  simp at h
  exact (he h.2).elim

theorem wellFormed_matvec {m k : Nat} (hm : 0 < m) (hk : 0 < k) (f g : List Nat → α) :
    WellFormed [⟨['i', 'j'], f⟩, ⟨['j'], g⟩] ['i'] ['j'] (fun c => if c = 'i' then m else k) :=
  ⟨by simp, by decide, by simp, by
    intro c
    simp only [List.mem_cons, List.not_mem_nil, or_false, exists_eq_or_imp, exists_eq_left]
    constructor
    · rintro rfl; decide
    · rintro ⟨h | h, h1⟩
      · rcases h with h | h
        · exact (h1 h).elim
        · exact h
      · exact h, by
    intro f _ c _
    show 0 < if c = 'i' then m else k
    split
    · exact hm
    · exact hk⟩

theorem einsteinSum_matvec [CommSemiring α] (m k : Nat) (f g : List Nat → α) (i : Nat) :
    einsteinSum ['i'] ['j'] (fun c => if c = 'i' then m else k)
      [⟨['i', 'j'], f⟩, ⟨['j'], g⟩] [i] = innerProduct k (fun t => f [i, t]) (fun t => g [t]) := by
  have e : (['j'].map fun c => if c = 'i' then m else k) = [k] := by simp
  rw [einsteinSum, e, indices_one, List.map_map, innerProduct]
  congr 1
  apply List.map_congr_left
  intro t _
  simp [valueOf]

/-- **C56, matrix x vector** (BLAS without NEON), positive extents; the vector's stride is positive, as `gemv` requires.

Missing (and false, see `C56_false`): overlapping rows, and vectors of stride 0 (broadcast ones). -/
theorem C56_mat_vec_partial [CommSemiring α] {K : SopKernels α} (hK : K.Correct) {a b : Arr α} {m k : Nat}
    {f g : List Nat → α} (ha : a.Denotes [m, k] f) (hb : b.Denotes [k] g) (hm : 0 < m) (hk : 0 < k)
    (hmx : m < 2147483648) (hkx : k < 2147483648) (hra : RowsApart k a.stride)
    (hsv : ∀ d, b.stride = [d] → 0 < d ∧ d < 2147483648) :
    ∃ r, a.matmulBlas false K b = .ok r ∧
      r.Denotes [m] (fun idx => innerProduct k (fun t => f [idx.headD 0, t]) (fun t => g [t])) := by
  obtain ⟨d0, d1, hd, ea⟩ := denotes2 ha
  obtain ⟨dv, hdv, eb⟩ := denotes1 hb
  simp only [Arr.matmulBlas, ha.1, hb.1]
  rw [assert_ok (by simp)]
  show ∃ r, matrixVectorProductBlas K a b = .ok r ∧ _
  have hi : ∀ x < 2147483648, asI32 x = x := fun _ => asI32_small
  unfold matrixVectorProductBlas
  generalize asI32 = I at hi ⊢
  rw [hd, hdv, ha.1]
  rw [show getChecked [d0, d1] 1 = .ok d1 from rfl, ok_bind]
  by_cases h1 : d1 = 1
  · rw [if_neg (by simpa using h1)]
    subst h1
    obtain ⟨la, lx⟩ := hra d0 hd
    obtain ⟨vp, vx⟩ := hsv dv hdv
    rw [show getChecked [m, k] 0 = .ok m from rfl, ok_bind, show getChecked [m, k] 1 = .ok k from rfl, ok_bind,
      show getChecked [d0, 1] 0 = .ok d0 from rfl, ok_bind, show getChecked [dv] 0 = .ok dv from rfl, ok_bind,
      hi m hmx, hi k hkx, hi d0 lx, hi dv vx,
      gemv_ok (f := f) (g := g) (by simpa using ea) eb hk la vp (by simp)]
    refine ⟨_, rfl, ?_⟩
    have : ((List.range m).map fun i => innerProduct k (fun t => f [i, t]) (fun t => g [t])) =
        elements [m] (fun idx => innerProduct k (fun t => f [idx.headD 0, t]) (fun t => g [t])) := by
      rw [elements, indices_one, List.map_map]
      rfl
    rw [this]
    exact denotes_fromContiguous
  · rw [if_pos h1]
    obtain ⟨r, er, hr⟩ := C28_einsum_partial hK (ops := [a, b]) (wellFormed_matvec hm hk f g)
      (.cons (by simpa using ha) (.cons (by simpa using hb) .nil)) (by simp)
      (by intro f hf; simp at hf; rcases hf with rfl | rfl <;> simp) (by simp) (by simp)
    refine ⟨r, er, ?_⟩
    have e : (['i'].map fun c => if c = 'i' then m else k) = [m] := by simp
    rw [e] at hr
    refine ⟨hr.1, hr.2.1, fun idx h => ?_⟩
    rw [hr.2.2 idx h]
    match idx, h with
    | [i], h => rw [einsteinSum_matvec]; rfl

example := C56_mat_vec_partial portableSop_correct (denotes_fromContiguous (s := [2, 3]) (f := fun i => (i.getD 0 0 : Int)))
  (denotes_fromContiguous (s := [3]) (f := fun i => (i.getD 0 0 : Int))) (by decide) (by decide) (by decide) (by decide)
  (rowsApart_contiguous (m := 2) (by decide)) fun d h => by cases h; decide

/-- **C56, matrix x vector, the rest** (BLAS without NEON). A matrix whose rows have adjacent elements and overlap, or a broadcast
vector, always violates the contract of `gemv`. -/
theorem C56_mat_vec_ub [CommSemiring α] {K : SopKernels α} {a b : Arr α} {m k d e : Nat} (ha : a.shape = [m, k]) (hb : b.shape = [k])
    (hmx : m < 2147483648) (hkx : k < 2147483648) (hd : a.stride = [d, 1]) (he : b.stride = [e]) (hdx : d < 2147483648)
    (hex : e < 2147483648) (h : d < k ∨ e = 0) : a.matmulBlas false K b = .error .ub := by
  have hi : ∀ x < 2147483648, asI32 x = x := fun _ => asI32_small
  simp only [Arr.matmulBlas, ha, hb]
  rw [assert_ok (by simp)]
  show matrixVectorProductBlas K a b = _
  unfold matrixVectorProductBlas
  generalize asI32 = I at hi ⊢
  rw [hd, he, ha, show getChecked [d, 1] 1 = .ok 1 from rfl, ok_bind, if_neg (by simp)]
  rw [show getChecked [m, k] 0 = .ok m from rfl, ok_bind, show getChecked [m, k] 1 = .ok k from rfl, ok_bind,
    show getChecked [d, 1] 0 = .ok d from rfl, ok_bind, show getChecked [e] 0 = .ok e from rfl, ok_bind, hi m hmx, hi k hkx,
    hi d hdx, hi e hex]
  unfold gemv
  rw [if_pos (by omega)]
  rfl

/-- a number broadcast to a vector -/
example : ∃ b, (Arr.fromContiguousOwnedBuffer [1] [(2 : Int)]).broadcastTo [3] = .ok b ∧
    (Arr.fromContiguousOwnedBuffer [2, 3] [1, 2, 3, 4, 5, 6]).matmulBlas false portableSop b = .error .ub :=
  ⟨_, rfl, C56_mat_vec_ub (m := 2) (k := 3) (d := 3) (e := 0) rfl rfl (by decide) (by decide) rfl rfl (by decide) (by decide) (.inr rfl)⟩

/-- **C56, matrix x vector with NEON**: not overridden, so as in `C30_matmul_mat_vec` (all sizes, all layouts). -/
theorem C56_mat_vec_neon [CommSemiring α] {K : SopKernels α} {a b : Arr α} {m k : Nat} {f g : List Nat → α}
    (ha : a.Denotes [m, k] f) (hb : b.Denotes [k] g) :
    ∃ r, a.matmulBlas true K b = .ok r ∧
      r.Denotes [m] (fun idx => innerProduct k (fun t => f [idx.headD 0, t]) (fun t => g [t])) := by
  have : a.matmulBlas true K b = a.matmul K b := by simp only [Arr.matmulBlas, Arr.matmul, ha.1, hb.1, if_true]
  rw [this]
  exact C30_matmul_mat_vec ha hb

example := C56_mat_vec_neon (K := portableSop) (denotes_fromContiguous (s := [2, 3]) (f := fun i => (i.getD 0 0 : Int)))
  (denotes_fromContiguous (s := [3]) (f := fun i => (i.getD 0 0 : Int)))

theorem bmmLoopBlas_ok [CommSemiring α] {K : SopKernels α} (hK : K.Correct) {m k n ls rs : Nat} (hm : 0 < m) (hk : 0 < k)
    (hn : 0 < n) (hmx : m < 2147483648) (hkx : k < 2147483648) (hnx : n < 2147483648) :
    ∀ {B : Nat} {l r : Arr α} {dst : List α} {q : Nat} {f g : Nat → List Nat → α},
    BlasFit k n l.stride r.stride →
    (∀ x < B, ({ l with off := l.off + x * ls } : Arr α).Denotes [m, k] (f x)) →
    (∀ x < B, ({ r with off := r.off + x * rs } : Arr α).Denotes [k, n] (g x)) → q + B * (m * n) ≤ dst.length →
    ∃ dst', bmmLoopBlas K ls rs (m * n) [n, 1] B l r dst q = .ok dst' ∧ dst'.length = dst.length ∧
      (∀ x < B, ∀ i < m, ∀ j < n, dst'[q + (x * (m * n) + (i * n + j))]? =
        some (innerProduct k (fun t => f x [i, t]) (fun t => g x [t, j]))) ∧
      ∀ p, p < q → dst'[p]? = dst[p]? := by
  intro B
  induction B with
  | zero => intro l r dst q f g _ _ _ _; exact ⟨dst, rfl, rfl, fun x hx => by omega, fun _ _ => rfl⟩
  | succ B ih =>
    intro l r dst q f g hfit hl hr hq
    rw [Nat.add_mul] at hq
    have hl0 := hl 0 (by omega)
    have hr0 := hr 0 (by omega)
    simp only [Nat.zero_mul, Nat.add_zero] at hl0 hr0
    obtain ⟨d1, e1, len1, v1, o1⟩ := matrixMatrixProductBlas_ok hK hl0 hr0 hm hk hn hmx hkx hnx hfit (dst := dst) (q := q)
      (by omega)
    obtain ⟨d2, e2, len2, v2, o2⟩ := ih (l := { l with off := l.off + ls }) (r := { r with off := r.off + rs }) (dst := d1)
      (q := q + m * n) (f := fun x => f (x + 1)) (g := fun x => g (x + 1)) hfit
      (by
        intro x hx
        have := hl (x + 1) (by omega)
        rw [Nat.add_mul, Nat.one_mul, Nat.add_comm (x * ls), ← Nat.add_assoc] at this
        exact this)
      (by
        intro x hx
        have := hr (x + 1) (by omega)
        rw [Nat.add_mul, Nat.one_mul, Nat.add_comm (x * rs), ← Nat.add_assoc] at this
        exact this) (by omega)
    refine ⟨d2, ?_, by omega, ?_, ?_⟩
    · simp only [bmmLoopBlas, e1]
      exact e2
    · intro x hx i hi j hj
      have hlt : i * n + j < m * n := by
        have : (i + 1) * n ≤ m * n := Nat.mul_le_mul_right _ hi
        rw [Nat.add_mul] at this; omega
      cases x with
      | zero =>
        rw [o2 _ (by omega), Nat.zero_mul, Nat.zero_add]
        exact v1 i hi j hj
      | succ x =>
        rw [← v2 x (by omega) i hi j hj]
        congr 1
        rw [Nat.add_mul]
        omega
    · intro p hp
      rw [o2 p (by omega), o1 p (by omega)]

theorem sliceAlong0_stride {c s : Arr α} {B x y : Nat} {h : List Nat → α} (hc : c.Denotes [B, x, y] h) (hx : 0 < x) (hy : 0 < y)
    (e : c.sliceAlong 0 (.at 0) = .ok s) : s.stride = c.stride.drop 1 ∧ s.shape = [x, y] := by
  obtain ⟨d0, d1, d2, hd⟩ := List.length_eq_three.1 (hc.2.1 : c.stride.length = 3)
  have hk' : asAbsolute 0 c.ndims = .ok 0 := asAbsolute_ok (k := 0) ⟨by simp [Arr.ndims, hc.1], .inl rfl⟩
  unfold Arr.sliceAlong at e
  rw [hk', hc.1, hd] at e
  have e : c.sliceResult [x, y] [d1, d2] (d0 * 0) true = .ok s := e
  unfold Arr.sliceResult at e
  rw [calculateStridedBufferLength_ok (by simp [numel]; omega)] at e
  have e := Except.ok.inj e
  rw [← e, hd]
  exact ⟨rfl, rfl⟩

/-- **C56, batches.** With BLAS, `a.bmm(b)` for `a : [B,m,k]`, `b : [B,k,n]` with positive extents is the batch of
products, unless the rows of the matrices of both operands have adjacent elements and those of one of them overlap (the batches
themselves may be broadcast).

Missing (and false, see `C56_bmm_ub`, `C56_false` and `C56_bmm_oob_false`): such operands, and the rejection of unequal inner extents. -/
theorem C56_bmm_partial [CommSemiring α] {K : SopKernels α} (hK : K.Correct) {a b : Arr α} {B m k n : Nat}
    {f g : List Nat → α} (ha : a.Denotes [B, m, k] f) (hb : b.Denotes [B, k, n] g) (hB : 0 < B) (hm : 0 < m)
    (hk : 0 < k) (hn : 0 < n) (hmx : m < 2147483648) (hkx : k < 2147483648) (hnx : n < 2147483648)
    (hfit : BlasFit k n (a.stride.drop 1) (b.stride.drop 1)) :
    ∃ r, a.bmmBlas K b = .ok r ∧ r.Denotes [B, m, n] (fun idx =>
      innerProduct k (fun t => f [idx.getD 0 0, idx.getD 1 0, t]) (fun t => g [idx.getD 0 0, t, idx.getD 2 0])) := by
  obtain ⟨l, ls, el, els, _, hl⟩ := denotes_slice0 ha hB hm hk
  obtain ⟨r, rs, er, ers, _, hr⟩ := denotes_slice0 hb hB hk hn
  rw [← (sliceAlong0_stride ha hm hk el).1, ← (sliceAlong0_stride hb hk hn er).1] at hfit
  have hpos : 0 < B * (m * n) := Nat.mul_pos hB (Nat.mul_pos hm hn)
  obtain ⟨z, hz, hsh, hst, hbuf, hoff⟩ := zeros3 (α := α) hB hm hn
  obtain ⟨dst, e, hlen, hv, _⟩ := bmmLoopBlas_ok hK hm hk hn hmx hkx hnx (B := B) (l := l) (r := r) (ls := ls) (rs := rs)
    (dst := List.replicate (B * (m * n)) 0) (q := 0) hfit hl hr (by simp)
  refine ⟨{ z with buf := dst }, ?_, hsh, by rw [hst]; rfl, ?_⟩
  · have hbm : batchMatrixMatrixProductBlas K a b z.stride z.buf z.off = .ok dst := by
      rw [hst, hbuf, hoff]
      unfold batchMatrixMatrixProductBlas
      rw [el, er]
      simp only [getChecked, els, ers, bind, Except.bind, List.getElem?_cons_zero]
      rw [show a.lenMethod = B by simp [Arr.lenMethod, ha.1]]
      exact e
    unfold Arr.bmmBlas
    rw [assert_ok (by simp [Arr.ndims, ha.1]), assert_ok (by simp [Arr.ndims, hb.1]),
      assert_ok (by simp [Arr.lenMethod, ha.1, hb.1]), show a.lenMethod = B by simp [Arr.lenMethod, ha.1], ha.1, hb.1]
    show ((Arr.zeros [B, m, n] : Res (Arr α)) >>= fun r => _) = _
    rw [hz]
    show (batchMatrixMatrixProductBlas K a b z.stride z.buf z.off >>= fun data => _) = _
    rw [hbm]
    rfl
  · intro idx h
    match idx, h with
    | [x, i, j], h =>
      have := hv x h.1 i h.2.1 j h.2.2.1
      simpa [hst, hoff, offset, Nat.add_comm, Nat.add_assoc, Nat.add_left_comm] using this

example := C56_bmm_partial portableSop_correct (denotes_fromContiguous (s := [2, 2, 3]) (f := fun i => (i.getD 0 0 : Int)))
  (denotes_fromContiguous (s := [2, 3, 2]) (f := fun i => (i.getD 1 0 : Int))) (by decide) (by decide) (by decide) (by decide)
  (by decide) (by decide) (by decide) fun d e h1 h2 => by cases h1; cases h2; decide

/-- **C56, batches, the rest.** If the rows of the matrices of both operands have adjacent elements and those of one of them
overlap, the contract of the routine is always violated. -/
theorem C56_bmm_ub [CommSemiring α] {K : SopKernels α} {a b : Arr α} {B m k n x y d e : Nat} {f g : List Nat → α}
    (ha : a.Denotes [B, m, k] f) (hb : b.Denotes [B, k, n] g) (hB : 0 < B) (hm : 0 < m) (hk : 0 < k) (hn : 0 < n)
    (hmx : m < 2147483648) (hkx : k < 2147483648) (hnx : n < 2147483648) (hd : a.stride = [x, d, 1]) (he : b.stride = [y, e, 1])
    (hdx : d < 2147483648) (hex : e < 2147483648) (h : d < k ∨ e < n) : a.bmmBlas K b = .error .ub := by
  obtain ⟨l, ls, el, els, _, hl⟩ := denotes_slice0 ha hB hm hk
  obtain ⟨r, rs, er, ers, _, hr⟩ := denotes_slice0 hb hB hk hn
  obtain ⟨hl1, hl2⟩ := sliceAlong0_stride ha hm hk el
  obtain ⟨hr1, hr2⟩ := sliceAlong0_stride hb hk hn er
  rw [hd] at hl1
  rw [he] at hr1
  obtain ⟨z, hz, hsh, hst, hbuf, hoff⟩ := zeros3 (α := α) hB hm hn
  obtain ⟨B', rfl⟩ : ∃ B', B = B' + 1 := ⟨B - 1, by omega⟩
  have hbm : batchMatrixMatrixProductBlas K a b z.stride z.buf z.off = .error .ub := by
    rw [hst]
    unfold batchMatrixMatrixProductBlas
    rw [el, er]
    simp only [getChecked, els, ers, bind, Except.bind, List.getElem?_cons_zero]
    rw [show a.lenMethod = B' + 1 by simp [Arr.lenMethod, ha.1]]
    simp only [bmmLoopBlas]
    rw [matrixMatrixProductBlas_ub hl2 hr2 hmx hkx hnx hl1 hr1 hdx hex h]
    rfl
  unfold Arr.bmmBlas
  rw [assert_ok (by simp [Arr.ndims, ha.1]), assert_ok (by simp [Arr.ndims, hb.1]),
    assert_ok (by simp [Arr.lenMethod, ha.1, hb.1]), show a.lenMethod = B' + 1 by simp [Arr.lenMethod, ha.1], ha.1, hb.1]
  show ((Arr.zeros [B' + 1, m, n] : Res (Arr α)) >>= fun r => _) = _
  rw [hz]
  show (batchMatrixMatrixProductBlas K a b z.stride z.buf z.off >>= fun data => _) = _
  rw [hbm]
  rfl

/-- every matrix of the batch has one row, broadcast to two -/
example : ({ Arr.fromContiguousOwnedBuffer [2, 1, 3] [(0 : Int), 1, 2, 0, 1, 2] with shape := [2, 2, 3], stride := [3, 0, 1] } : Arr Int).bmmBlas
    portableSop (Arr.fromContiguousOwnedBuffer [2, 3, 2] ((indices [2, 3, 2]).map fun i => (i.getD 0 0 : Int))) = .error .ub := by
  refine C56_bmm_ub (B := 2) (m := 2) (k := 3) (n := 2) (x := 3) (y := 6) (d := 0) (e := 2) (f := fun i => (i.getD 2 0 : Int))
    ⟨rfl, rfl, fun idx h => ?_⟩ (denotes_fromContiguous (s := [2, 3, 2]) (f := fun i => (i.getD 0 0 : Int)))
    (by decide) (by decide) (by decide) (by decide) (by decide) (by decide) (by decide) rfl rfl (by decide) (by decide) (.inl (by decide))
  show ([0, 1, 2, 0, 1, 2] : List Int)[0 + offset idx [3, 0, 1]]? = some (idx.getD 2 0 : Int)
  rw [show (0 : Nat) + offset idx [3, 0, 1] = offset idx [3, 0, 1] from Nat.zero_add _]
  exact (by decide : ∀ idx ∈ indices [2, 2, 3], ([0, 1, 2, 0, 1, 2] : List Int)[offset idx [3, 0, 1]]? = some (idx.getD 2 0 : Int)) idx
    (mem_indices.2 h)

/-- **C56, dot product.** `strided_dot_product` by `cblas_sdot` is the portable loop, also for count 0 and strides 0. -/
theorem C56_dot [CommSemiring α] {x y : Src α} {s0 s1 count : Nat} {dst : List α} {q : Nat}
    (h1 : ∀ t < count, x.2 + t * s0 < x.1.length) (h2 : ∀ t < count, y.2 + t * s1 < y.1.length) (hq : q < dst.length)
    (hc : count < 2147483648) (hs0 : s0 < 2147483648) (hs1 : s1 < 2147483648) :
    dotBlas x y s0 s1 count dst q = sopNN0 x y s0 s1 count dst q := by
  have e1 : ∀ t < count, x.1[x.2 + t * s0]? = some ((fun t => x.1.getD (x.2 + t * s0) 0) t) := by
    intro t ht
    simp [h1 t ht]
  have e2 : ∀ t < count, y.1[y.2 + t * s1]? = some ((fun t => y.1.getD (y.2 + t * s1) 0) t) := by
    intro t ht
    simp [h2 t ht]
  rw [sopNN0_ok e1 e2 hq]
  unfold dotBlas
  rw [asI32_small hc, asI32_small hs0, asI32_small hs1, blasDot_ok e1 e2]
  refine Eq.trans ?_ (bufAdd_ok _ hq)
  show (bufLoad dst q >>= fun v => bufStore dst q (v + _)) = _
  rw [bufLoad_ok (List.getElem?_eq_getElem hq)]
  show bufStore dst q (dst[q] + _) = _
  rw [bufStore, if_pos hq, bufAdd, List.getElem?_eq_getElem hq]

example := C56_dot (x := ([(1 : Int), 0, 2, 0, 3], 0)) (y := ([4, 5, 6], 0)) (s0 := 2) (s1 := 1) (count := 3) (dst := [7]) (q := 0)
  (by decide) (by decide) (by decide) (by decide) (by decide) (by decide)

/-- a window of a 2x4 matrix times the transpose of a contiguous matrix, through the fallback; and times a contiguous
matrix, through `gemm` -/
def window : Arr Int := { Arr.fromContiguousOwnedBuffer [2, 4] [9, 1, 2, 3, 9, 4, 5, 6] with off := 1, shape := [2, 3], stride := [4, 1] }

example : window.Denotes [2, 3] (fun idx => (3 * idx.getD 0 0 + idx.getD 1 0 + 1 : Int)) ∧ RowsApart 3 window.stride
    ∧ RowsApart 2 matBt.stride := by
  refine ⟨⟨rfl, rfl, fun idx h => ?_⟩, ?_, ?_⟩
  · match idx, h with
    | [0, 0], _ => rfl
    | [0, 1], _ => rfl
    | [0, 2], _ => rfl
    | [1, 0], _ => rfl
    | [1, 1], _ => rfl
    | [1, 2], _ => rfl
    | [_, n + 3], h => exact absurd h.2.1 (by omega)
    | [n + 2, _], h => exact absurd h.1 (by omega)
  · intro d h
    simp [window] at h
    omega
  · exact rowsApart_strided _ (by decide)

set_option maxRecDepth 10000 in
example : (window.matmulBlas true portableSop matBt).map (fun r => (r.shape, r.buf)) = .ok ([2, 2], [7, 17, 16, 35])
    ∧ (window.matmulBlas true portableSop (Arr.fromContiguousOwnedBuffer [3, 2] [1, 0, 0, 1, 2, 5])).map
        (fun r => (r.shape, r.buf)) = .ok ([2, 2], [7, 17, 16, 35])
    ∧ (window.matmulBlas false portableSop evenView).map (fun r => (r.shape, r.buf)) = .ok ([2], [14, 32])
    ∧ (batA.bmmBlas portableSop batB).map (fun r => (r.shape, r.buf)) = .ok ([2, 1, 1], [19, 50]) := by decide +kernel

/-- Layouts to which the `_ub` theorems apply: the transpose of a 3x1 column, a row broadcast to 2x3, a broadcast vector. -/
example : ((Arr.fromContiguousOwnedBuffer [3, 1] [(1 : Int), 2, 3]).T.map fun a => (a.shape, a.stride)) = .ok ([1, 3], [1, 1]) ∧
    (((Arr.fromContiguousOwnedBuffer [3] [(1 : Int), 2, 3]).broadcastTo [2, 3]).map fun a => (a.shape, a.stride)) =
      .ok ([2, 3], [0, 1]) ∧
    (((Arr.fromContiguousOwnedBuffer [1] [(2 : Int)]).broadcastTo [3]).map fun a => (a.shape, a.stride)) = .ok ([3], [0]) := by
  decide +kernel

set_option maxRecDepth 10000 in
/-- **C56, negation.** With BLAS the following violate the contract of the routine called; each is an ordinary product that
the portable build computes. A transposed 3x1 column times a 3x2 matrix (`lda = 1 < 3`); a row broadcast to a 2x3 matrix
times a 3x2 matrix (`lda = 0`); a matrix times a broadcast vector without NEON (`incX = 0`). -/
theorem C56_false :
    ((Arr.fromContiguousOwnedBuffer [3, 1] [(1 : Int), 2, 3]).T >>= fun a =>
        a.matmulBlas true portableSop (Arr.fromContiguousOwnedBuffer [3, 2] [1, 2, 3, 4, 5, 6])) = .error .ub ∧
    ((Arr.fromContiguousOwnedBuffer [3, 1] [(1 : Int), 2, 3]).T >>= fun a =>
        (a.matmul portableSop (Arr.fromContiguousOwnedBuffer [3, 2] [1, 2, 3, 4, 5, 6])).map (·.buf)) = .ok [22, 28] ∧
    ((Arr.fromContiguousOwnedBuffer [3] [(1 : Int), 2, 3]).broadcastTo [2, 3] >>= fun a =>
        a.matmulBlas true portableSop (Arr.fromContiguousOwnedBuffer [3, 2] [1, 2, 3, 4, 5, 6])) = .error .ub ∧
    ((Arr.fromContiguousOwnedBuffer [3] [(1 : Int), 2, 3]).broadcastTo [2, 3] >>= fun a =>
        (a.matmul portableSop (Arr.fromContiguousOwnedBuffer [3, 2] [1, 2, 3, 4, 5, 6])).map (·.buf)) = .ok [22, 28, 22, 28] ∧
    ((Arr.fromContiguousOwnedBuffer [1] [(2 : Int)]).broadcastTo [3] >>= fun v => matA.matmulBlas false portableSop v) =
      .error .ub ∧
    ((Arr.fromContiguousOwnedBuffer [1] [(2 : Int)]).broadcastTo [3] >>= fun v =>
        (matA.matmul portableSop v).map (·.buf)) = .ok [12, 30] := by
  decide +kernel

set_option maxRecDepth 10000 in
/-- **C56, negation: `bmm` does not compare the inner extents.** The portable build panics inside `einsum`; with BLAS the
product of a 1x2x3 and a 1x2x2 batch reads past the end of the second operand, and the product of a 1x2x2 and a 1x3x2 batch
returns numbers. -/
theorem C56_bmm_oob_false :
    (Arr.fromContiguousOwnedBuffer [1, 2, 3] [(1 : Int), 2, 3, 4, 5, 6]).bmmBlas portableSop
      (Arr.fromContiguousOwnedBuffer [1, 2, 2] [1, 2, 3, 4]) = .error .oob ∧
    (Arr.fromContiguousOwnedBuffer [1, 2, 3] [(1 : Int), 2, 3, 4, 5, 6]).bmm portableSop
      (Arr.fromContiguousOwnedBuffer [1, 2, 2] [1, 2, 3, 4]) = .error .panic ∧
    ((Arr.fromContiguousOwnedBuffer [1, 2, 2] [(1 : Int), 2, 3, 4]).bmmBlas portableSop
      (Arr.fromContiguousOwnedBuffer [1, 3, 2] [1, 2, 3, 4, 5, 6])).map (·.buf) = .ok [7, 10, 15, 22] ∧
    (Arr.fromContiguousOwnedBuffer [1, 2, 2] [(1 : Int), 2, 3, 4]).bmm portableSop
      (Arr.fromContiguousOwnedBuffer [1, 3, 2] [1, 2, 3, 4, 5, 6]) = .error .panic := by
  decide +kernel

/-! ## rejected operands -/

/-- **C56.** With BLAS `matmul` rejects mismatched inner extents and other ranks before any routine is called. -/
theorem C56_matmul_rejects [CommSemiring α] {neon : Bool} {K : SopKernels α} {a b : Arr α}
    (h : ¬ ((a.shape.length = 1 ∧ b.shape.length = 1) ∨ (a.shape.length = 2 ∧ b.shape.length = 1) ∨
        (a.shape.length = 2 ∧ b.shape.length = 2)) ∨ a.shape.getLast? ≠ b.shape.head?) :
    a.matmulBlas neon K b = .error .panic := by
  match ha : a.shape, hb : b.shape with
  | [n], [n'] =>
    simp only [Arr.matmulBlas, ha, hb]
    apply C32_dot_rejects
    rcases h with h | h
    · simp [ha, hb] at h
    · right; right
      simpa [ha, hb] using h
  | [m, k], [k'] =>
    simp only [Arr.matmulBlas, ha, hb]
    rcases h with h | h
    · simp [ha, hb] at h
    · rw [assert_fail (by simpa [ha, hb] using h)]; rfl
  | [m, k], [k', n] =>
    simp only [Arr.matmulBlas, ha, hb]
    rcases h with h | h
    · simp [ha, hb] at h
    · rw [assert_fail (by simpa [ha, hb] using h)]; rfl
  | [], _ => simp only [Arr.matmulBlas, ha]
  | [_], [] => simp only [Arr.matmulBlas, ha, hb]
  | [_], _ :: _ :: _ => simp only [Arr.matmulBlas, ha, hb]
  | [_, _], [] => simp only [Arr.matmulBlas, ha, hb]
  | [_, _], _ :: _ :: _ :: _ => simp only [Arr.matmulBlas, ha, hb]
  | _ :: _ :: _ :: _, _ => simp only [Arr.matmulBlas, ha]

example : (Arr.fromContiguousOwnedBuffer [2, 3] [(1 : Int), 2, 3, 4, 5, 6]).matmulBlas true portableSop
    (Arr.fromContiguousOwnedBuffer [2, 3] [1, 2, 3, 4, 5, 6]) = .error .panic := C56_matmul_rejects (.inr (by decide))

/-- **C56.** With BLAS `bmm` rejects other ranks and different batch sizes.

Missing (and false, see `C56_bmm_oob_false`): mismatched inner extents. -/
theorem C56_bmm_rejects_partial [CommSemiring α] {K : SopKernels α} {a b : Arr α}
    (h : a.shape.length ≠ 3 ∨ b.shape.length ≠ 3 ∨ a.shape[0]? ≠ b.shape[0]?) : a.bmmBlas K b = .error .panic := by
  unfold Arr.bmmBlas
  by_cases h1 : a.ndims = 3
  swap
  · rw [assert_fail (decide_eq_false h1)]; rfl
  rw [assert_ok (decide_eq_true h1)]
  by_cases h2 : b.ndims = 3
  swap
  · rw [assert_fail (decide_eq_false h2)]; rfl
  rw [assert_ok (decide_eq_true h2)]
  obtain ⟨B, m, k, hs⟩ := List.length_eq_three.1 h1
  obtain ⟨B', k', n, hs'⟩ := List.length_eq_three.1 h2
  rw [show a.lenMethod = B by simp [Arr.lenMethod, hs], show b.lenMethod = B' by simp [Arr.lenMethod, hs']]
  have h3 : B ≠ B' := by simpa [hs, hs'] using h
  rw [assert_fail (by simpa using h3)]; rfl

example : ¬ (([2, 3] : List Nat).getLast? = ([2, 2] : List Nat).head?) := by decide
example : ([2, 1, 3] : List Nat)[0]? ≠ ([3, 3, 1] : List Nat)[0]? := by decide

end Verif
