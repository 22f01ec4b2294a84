import Verif.Lemmas.MatrixOps

/-!
# C30 matmul, C31 bmm, C32 dot
-/

namespace Verif

variable {α : Type}

/-! ## C32 dot -/

/-- **C32.** `a.dot(b)` of 1-D arrays of equal length (possibly 0), with any strides, is the scalar `Σ a[i] * b[i]`.
(`SumProduct`: every commutative semiring is one.) -/
theorem C32_dot [SumProduct α] {a b : Arr α} {n : Nat} {f g : List Nat → α} (ha : a.Denotes [n] f) (hb : b.Denotes [n] g) :
    ∃ r, a.dot b = .ok r ∧ r.Denotes [] (fun _ => innerProduct n (fun i => f [i]) (fun i => g [i])) := by
  obtain ⟨da, hda, ea⟩ := denotes1 ha
  obtain ⟨db, hdb, eb⟩ := denotes1 hb
  have e : (sopNN0 (a.buf, a.off) (b.buf, b.off) da db n [0] 0 : Res (List α)) = _ := sopNN0_ok ea eb (by simp)
  refine ⟨Arr.fromContiguousOwnedBuffer [] [innerProduct n (fun i => f [i]) (fun i => g [i])], ?_, rfl, rfl, ?_⟩
  · unfold Arr.dot
    rw [assert_ok (by simp [Arr.ndims, ha.1]), assert_ok (by simp [Arr.ndims, hb.1]),
      assert_ok (by simp [Arr.lenMethod, ha.1, hb.1])]
    have hs : (Arr.scalar (0 : α)) = .ok (Arr.fromContiguousOwnedBuffer [] [0]) := rfl
    rw [hs, hda, hdb, show a.lenMethod = n by simp [Arr.lenMethod, ha.1]]
    show (sopNN0 (a.buf, a.off) (b.buf, b.off) da db n [0] 0 >>= fun data => _) = _
    rw [e]
    show Except.ok _ = _
    simp [addFn, hit, Arr.fromContiguousOwnedBuffer]
  · intro idx h
    cases idx with
    | nil => rfl
    | cons => exact h.elim

example := C32_dot (denotes_fromContiguous (s := [3]) (f := fun i => (i.getD 0 0 : Int))) (denotes_fromContiguous (s := [3]) (f := fun _ => 2))

/-- **C32.** Other ranks and different lengths are rejected. -/
theorem C32_dot_rejects [CommSemiring α] {a b : Arr α}
    (h : a.shape.length ≠ 1 ∨ b.shape.length ≠ 1 ∨ a.shape ≠ b.shape) : a.dot b = .error .panic := by
  unfold Arr.dot
  by_cases h1 : a.ndims = 1
  · rw [assert_ok (decide_eq_true h1)]
    by_cases h2 : b.ndims = 1
    · rw [assert_ok (decide_eq_true h2)]
      obtain ⟨n, hn⟩ := List.length_eq_one_iff.1 h1
      obtain ⟨m, hm⟩ := List.length_eq_one_iff.1 h2
      have hne : n ≠ m := by
        rintro rfl
        rcases h with h | h | h
        · exact h h1
        · exact h h2
        · exact h (hn.trans hm.symm)
      rw [assert_fail (by simp [Arr.lenMethod, hn, hm, hne])]
      rfl
    · rw [assert_fail (decide_eq_false h2)]; rfl
  · rw [assert_fail (decide_eq_false h1)]; rfl

example := C32_dot_rejects (a := Arr.fromContiguousOwnedBuffer [2] [(1 : Int), 2]) (b := Arr.fromContiguousOwnedBuffer [1] [3])
  (.inr (.inr (by decide)))

/-- a reversed-stride-like view: every second element of a buffer -/
def evenView : Arr Int := { Arr.fromContiguousOwnedBuffer [6] [1, 0, 2, 0, 3, 0] with shape := [3], stride := [2] }

example : evenView.Denotes [3] (fun idx => (idx.headD 0 : Int) + 1) := by
  refine ⟨rfl, rfl, fun idx h => ?_⟩
  match idx, h with
  | [0], _ => rfl
  | [1], _ => rfl
  | [2], _ => rfl
  | [n + 3], h => exact absurd h.1 (by omega)

example : (evenView.dot (Arr.fromContiguousOwnedBuffer [3] [10, 100, 1000])).map (·.buf) = .ok [3210]
    ∧ evenView.dot (Arr.fromContiguousOwnedBuffer [2] [10, 100]) = .error .panic := by decide +kernel

/-! ## C30 matmul -/

/-- **C30, vector x vector** (all lengths, all strides). -/
theorem C30_matmul_vec_vec [CommSemiring α] {K : SopKernels α} {a b : Arr α} {n : Nat} {f g : List Nat → α}
    (ha : a.Denotes [n] f) (hb : b.Denotes [n] g) :
    ∃ r, a.matmul K b = .ok r ∧ r.Denotes [] (fun _ => innerProduct n (fun i => f [i]) (fun i => g [i])) := by
  have : a.matmul K b = a.dot b := by simp only [Arr.matmul, ha.1, hb.1]
  rw [this]
  exact C32_dot ha hb

example := C30_matmul_vec_vec (K := portableSop) (denotes_fromContiguous (s := [3]) (f := fun i => (i.getD 0 0 : Int)))
  (denotes_fromContiguous (s := [3]) (f := fun _ => 2))

theorem matmul_mat_vec_eq [SumProduct α] {K : SopKernels α} {a b : Arr α} {m k : Nat} {f g : List Nat → α}
    (ha : a.Denotes [m, k] f) (hb : b.Denotes [k] g) :
    a.matmul K b = .ok (Arr.fromContiguousOwnedBuffer [m]
      (elements [m] fun idx => innerProduct k (fun t => f [idx.headD 0, t]) (fun t => g [t]))) := by
  obtain ⟨d0, d1, hd, ea⟩ := denotes2 ha
  obtain ⟨dv, hdv, eb⟩ := denotes1 hb
  have e := matVecLoop_ok (m := a.buf) (v := (b.buf, b.off)) (s0 := d0) (s1 := d1) (sv := dv) (n := m) (p := a.off)
    (dst := List.replicate m 0) (q := 0) (f := fun i j => f [i, j]) (g := fun j => g [j]) m eb ea (by simp) (by simp)
  simp only [Arr.matmul, ha.1, hb.1]
  rw [assert_ok (by simp)]
  show matrixVectorProduct a b = _
  have main : matrixVectorProduct a b =
      (matVecLoop a.buf (b.buf, b.off) d0 d1 dv k m a.off (List.replicate m 0) 0 >>= fun data =>
        .ok (Arr.fromContiguousOwnedBuffer [m] data)) := by
    unfold matrixVectorProduct
    rw [ha.1, hd, hdv]
    by_cases h0 : m = 0
    · subst h0; rfl
    · simp only [getChecked, List.getElem?_cons_zero, List.getElem?_cons_succ, bind, Except.bind, if_neg h0, pure, Except.pure]
  rw [main, e]
  show Except.ok _ = _
  congr 2
  apply List.ext_getElem?
  intro p
  rw [getElem?_addFn, elements, indices_one, List.map_map, List.getElem?_map]
  by_cases hp : p < m
  · simp [hp, List.getElem?_replicate]
  · rw [List.getElem?_eq_none (by simpa using hp), List.getElem?_eq_none (by simpa using hp)]
    rfl

/-- **C30, matrix x vector** (all sizes, also 0, all layouts). -/
theorem C30_matmul_mat_vec [SumProduct α] {K : SopKernels α} {a b : Arr α} {m k : Nat} {f g : List Nat → α}
    (ha : a.Denotes [m, k] f) (hb : b.Denotes [k] g) :
    ∃ r, a.matmul K b = .ok r ∧ r.Denotes [m] (fun idx => innerProduct k (fun t => f [idx.headD 0, t]) (fun t => g [t])) :=
  ⟨_, matmul_mat_vec_eq ha hb, denotes_fromContiguous⟩

example := C30_matmul_mat_vec (K := portableSop) (denotes_fromContiguous (s := [2, 3]) (f := fun i => (i.getD 0 0 : Int)))
  (denotes_fromContiguous (s := [3]) (f := fun _ => 2))

theorem matmul_live [SumProduct α] {K : SopKernels α} (hK : K.Correct) {a b : Arr α} {m k n : Nat}
    {f g : List Nat → α} (ha : a.Denotes [m, k] f) (hb : b.Denotes [k, n] g) (hm : 0 < m) (hk : 0 < k) (hn : 0 < n)
    (hla : LiveBuf a.buf) (hlb : LiveBuf b.buf) :
    ∃ r, a.matmul K b = .ok r ∧ r.Denotes [m, n]
      (fun idx => innerProduct k (fun t => f [idx.getD 0 0, t]) (fun t => g [t, idx.getD 1 0])) := by
  obtain ⟨z, hz, hsh, hst, hbuf, hoff⟩ : ∃ z : Arr α, Arr.zeros [m, n] = .ok z ∧ z.shape = [m, n] ∧ z.stride = [n, 1] ∧
      z.buf = List.replicate (m * n) 0 ∧ z.off = 0 := by
    have : 0 < m * n := Nat.mul_pos hm hn
    refine ⟨Arr.fromContiguousOwnedBuffer [m, n] (List.replicate (m * n) 0), ?_, rfl, ?_, rfl, rfl⟩
    · show (assert _ >>= fun _ => _) = _
      rw [assert_ok (by simp; omega)]
      simp
    · simp [Arr.fromContiguousOwnedBuffer]
  obtain ⟨dst, e, hl, hv, _⟩ := matrixMatrixProduct_ok hK ha hb hm hk hn (dst := List.replicate (m * n) 0) (q := 0) (by simp) hla hlb
  refine ⟨{ z with buf := dst }, ?_, hsh, by rw [hst]; rfl, ?_⟩
  · simp only [Arr.matmul, ha.1, hb.1]
    rw [assert_ok (by simp), hz]
    have e' : matrixMatrixProduct K a b z.stride z.buf z.off = .ok dst := by rw [hst, hbuf, hoff]; exact e
    show (matrixMatrixProduct K a b z.stride z.buf z.off >>= fun data => _) = _
    rw [e']
    rfl
  · intro idx h
    match idx, h with
    | [i, j], h =>
      have := hv i h.1 j h.2.1
      simpa [hst, hoff, offset, Nat.add_comm] using this

/-- **C30, matrix x matrix** (all positive sizes, all layouts): entry `(i, j)` is `Σ_t a[i,t] * b[t,j]`.

Missing (and false, see `C30_empty_false`): extents 0. -/
theorem C30_matmul_partial [CommSemiring α] {K : SopKernels α} (hK : K.Correct) {a b : Arr α} {m k n : Nat}
    {f g : List Nat → α} (ha : a.Denotes [m, k] f) (hb : b.Denotes [k, n] g) (hm : 0 < m) (hk : 0 < k) (hn : 0 < n) :
    ∃ r, a.matmul K b = .ok r ∧ r.Denotes [m, n]
      (fun idx => innerProduct k (fun t => f [idx.getD 0 0, t]) (fun t => g [t, idx.getD 1 0])) :=
  matmul_live hK ha hb hm hk hn (fun _ _ => trivial) fun _ _ => trivial

example := C30_matmul_partial portableSop_correct (denotes_fromContiguous (s := [2, 3]) (f := fun i => (i.getD 0 0 : Int)))
  (denotes_fromContiguous (s := [3, 4]) (f := fun _ => 2)) (by decide) (by decide) (by decide)

/-- **C30.** Mismatched inner extents and other ranks are rejected. -/
theorem C30_matmul_rejects [CommSemiring α] {K : SopKernels α} {a b : Arr α}
    (h : ¬ ((a.shape.length = 1 ∧ b.shape.length = 1) ∨ (a.shape.length = 2 ∧ b.shape.length = 1) ∨
        (a.shape.length = 2 ∧ b.shape.length = 2)) ∨ a.shape.getLast? ≠ b.shape.head?) : a.matmul K b = .error .panic := by
  match ha : a.shape, hb : b.shape with
  | [n], [n'] =>
    simp only [Arr.matmul, ha, hb]
    apply C32_dot_rejects
    rcases h with h | h
    · simp [ha, hb] at h
    · right; right
      simpa [ha, hb] using h
  | [m, k], [k'] =>
    simp only [Arr.matmul, ha, hb]
    rcases h with h | h
    · simp [ha, hb] at h
    · rw [assert_fail (by simpa [ha, hb] using h)]; rfl
  | [m, k], [k', n] =>
    simp only [Arr.matmul, ha, hb]
    rcases h with h | h
    · simp [ha, hb] at h
    · rw [assert_fail (by simpa [ha, hb] using h)]; rfl
  | [], _ => simp only [Arr.matmul, ha]
  | [_], [] => simp only [Arr.matmul, ha, hb]
  | [_], _ :: _ :: _ => simp only [Arr.matmul, ha, hb]
  | [_, _], [] => simp only [Arr.matmul, ha, hb]
  | [_, _], _ :: _ :: _ :: _ => simp only [Arr.matmul, ha, hb]
  | _ :: _ :: _ :: _, _ => simp only [Arr.matmul, ha]

example := C30_matmul_rejects (K := portableSop) (a := Arr.fromContiguousOwnedBuffer [1, 2] [(1 : Int), 2])
  (b := Arr.fromContiguousOwnedBuffer [1, 2] [3, 4]) (.inr (by decide))

/-- a 2x3 matrix and the transposed view of another 2x3 matrix -/
def matA : Arr Int := Arr.fromContiguousOwnedBuffer [2, 3] [1, 2, 3, 4, 5, 6]
def matBt : Arr Int := { Arr.fromContiguousOwnedBuffer [2, 3] [1, 0, 2, 0, 1, 5] with shape := [3, 2], stride := [1, 3] }

set_option maxRecDepth 10000 in
example : (matA.matmul portableSop matBt).map (fun r => (r.shape, r.buf)) = .ok ([2, 2], [7, 17, 16, 35])
    ∧ (matA.matmul portableSop evenView).map (fun r => (r.shape, r.buf)) = .ok ([2], [14, 32])
    ∧ matA.matmul portableSop matA = .error .panic := by decide +kernel

set_option maxRecDepth 10000 in
/-- **C30, negation for extent 0.** The product of a 2x0 and a 0x2 matrix is the 2x2 zero matrix; the code executes
`assert_unchecked(false)` (undefined behaviour). The product of a 2x2 and a 2x0 matrix is the empty 2x0 matrix; the
code panics. -/
theorem C30_empty_false :
    (Arr.fromContiguousOwnedBuffer [2, 0] ([] : List Int)).matmul portableSop (Arr.fromContiguousOwnedBuffer [0, 2] []) =
      .error .ub ∧
    (Arr.fromContiguousOwnedBuffer [2, 2] [(1 : Int), 2, 3, 4]).matmul portableSop (Arr.fromContiguousOwnedBuffer [2, 0] []) =
      .error .panic := by decide +kernel

/-! ## C31 bmm -/

theorem zeros3 [SumProduct α] {B m n : Nat} (hB : 0 < B) (hm : 0 < m) (hn : 0 < n) :
    ∃ z : Arr α, Arr.zeros [B, m, n] = .ok z ∧ z.shape = [B, m, n] ∧ z.stride = [m * n, n, 1] ∧
      z.buf = List.replicate (B * (m * n)) 0 ∧ z.off = 0 := by
  have hpos : 0 < B * (m * n) := Nat.mul_pos hB (Nat.mul_pos hm hn)
  refine ⟨Arr.fromContiguousOwnedBuffer [B, m, n] (List.replicate (B * (m * n)) 0), ?_, rfl, ?_, rfl, rfl⟩
  · show (assert _ >>= fun _ => _) = _
    rw [assert_ok (by simp; omega)]
    simp
  · simp [Arr.fromContiguousOwnedBuffer]

theorem denotes_slice0 {a : Arr α} {B m k : Nat} {f : List Nat → α} (ha : a.Denotes [B, m, k] f) (hB : 0 < B)
    (hm : 0 < m) (hk : 0 < k) : ∃ l d0, a.sliceAlong 0 (.at 0) = .ok l ∧ a.stride[0]? = some d0 ∧ l.buf = a.buf ∧
      ∀ x < B, ({ l with off := l.off + x * d0 } : Arr α).Denotes [m, k] (fun J => f (x :: J)) := by
  obtain ⟨d0, d1, d2, hd⟩ := List.length_eq_three.1 (ha.2.1 : a.stride.length = 3)
  have hlen : ∃ len, calculateStridedBufferLength [m, k] [d1, d2] = .ok len :=
    ⟨_, calculateStridedBufferLength_ok (by simp [numel]; omega)⟩
  obtain ⟨len, hlen⟩ := hlen
  refine ⟨{ buf := a.buf, off := a.off + 0, len := len, cap := len, shape := [m, k], stride := [d1, d2], flags := { updateFlagsWithContiguity a.flags [m, k] [d1, d2] with owned := false, userCreated := false } }, d0, ?_, by simp [hd], rfl, ?_⟩
  · have hk' : asAbsolute 0 a.ndims = .ok 0 := asAbsolute_ok (k := 0) ⟨by simp [Arr.ndims, ha.1], .inl rfl⟩
    unfold Arr.sliceAlong
    rw [hk', ha.1, hd]
    show a.sliceResult [m, k] [d1, d2] (d0 * 0) true = _
    unfold Arr.sliceResult
    rw [hlen]
    rfl
  · intro x hx
    refine ⟨rfl, rfl, fun J hJ => ?_⟩
    have := ha.2.2 (x :: J) ⟨hx, hJ⟩
    rw [hd] at this
    rw [← this]
    show a.buf[a.off + 0 + x * d0 + offset J [d1, d2]]? = _
    simp [offset, Nat.add_assoc]

theorem bmm_live [SumProduct α] {K : SopKernels α} (hK : K.Correct) {a b : Arr α} {B m k n : Nat}
    {f g : List Nat → α} (ha : a.Denotes [B, m, k] f) (hb : b.Denotes [B, k, n] g) (hB : 0 < B) (hm : 0 < m)
    (hk : 0 < k) (hn : 0 < n) (hla : LiveBuf a.buf) (hlb : LiveBuf b.buf) :
    ∃ r, a.bmm K b = .ok r ∧ r.Denotes [B, m, n] (fun idx =>
      innerProduct k (fun t => f [idx.getD 0 0, idx.getD 1 0, t]) (fun t => g [idx.getD 0 0, t, idx.getD 2 0])) := by
  obtain ⟨l, ls, el, els, bl, hl⟩ := denotes_slice0 ha hB hm hk
  obtain ⟨r, rs, er, ers, br, hr⟩ := denotes_slice0 hb hB hk hn
  have hpos : 0 < B * (m * n) := Nat.mul_pos hB (Nat.mul_pos hm hn)
  obtain ⟨z, hz, hsh, hst, hbuf, hoff⟩ := zeros3 (α := α) hB hm hn
  obtain ⟨dst, e, hlen, hv, _⟩ := bmmLoop_ok hK hm hk hn (B := B) (l := l) (r := r) (ls := ls) (rs := rs)
    (dst := List.replicate (B * (m * n)) 0) (q := 0) hl hr (by simp) (by rw [bl]; exact hla) (by rw [br]; exact hlb)
  refine ⟨{ z with buf := dst }, ?_, hsh, by rw [hst]; rfl, ?_⟩
  · have hbm : batchMatrixMatrixProduct K a b z.stride z.buf z.off = .ok dst := by
      rw [hst, hbuf, hoff]
      unfold batchMatrixMatrixProduct
      rw [el, er]
      simp only [getChecked, els, ers, bind, Except.bind, List.getElem?_cons_zero]
      rw [show a.lenMethod = B by simp [Arr.lenMethod, ha.1]]
      exact e
    unfold Arr.bmm
    rw [assert_ok (by simp [Arr.ndims, ha.1]), assert_ok (by simp [Arr.ndims, hb.1]),
      assert_ok (by simp [Arr.lenMethod, ha.1, hb.1]), show a.lenMethod = B by simp [Arr.lenMethod, ha.1], ha.1, hb.1]
    show ((Arr.zeros [B, m, n] : Res (Arr α)) >>= fun r => _) = _
    rw [hz]
    show (batchMatrixMatrixProduct K a b z.stride z.buf z.off >>= fun data => _) = _
    rw [hbm]
    rfl
  · intro idx h
    match idx, h with
    | [x, i, j], h =>
      have := hv x h.1 i h.2.1 j h.2.2.1
      simpa [hst, hoff, offset, Nat.add_comm, Nat.add_assoc, Nat.add_left_comm] using this

/-- **C31.** `a.bmm(b)` for `a : [B,m,k]`, `b : [B,k,n]`, all positive sizes and all layouts: entry `(x, i, j)` is
`Σ_t a[x,i,t] * b[x,t,j]`.

Missing (and false, see `C31_empty_false`): extents 0. -/
theorem C31_bmm_partial [CommSemiring α] {K : SopKernels α} (hK : K.Correct) {a b : Arr α} {B m k n : Nat}
    {f g : List Nat → α} (ha : a.Denotes [B, m, k] f) (hb : b.Denotes [B, k, n] g) (hB : 0 < B) (hm : 0 < m)
    (hk : 0 < k) (hn : 0 < n) :
    ∃ r, a.bmm K b = .ok r ∧ r.Denotes [B, m, n] (fun idx =>
      innerProduct k (fun t => f [idx.getD 0 0, idx.getD 1 0, t]) (fun t => g [idx.getD 0 0, t, idx.getD 2 0])) :=
  bmm_live hK ha hb hB hm hk hn (fun _ _ => trivial) fun _ _ => trivial

example := C31_bmm_partial portableSop_correct (denotes_fromContiguous (s := [2, 2, 3]) (f := fun i => (i.getD 0 0 : Int)))
  (denotes_fromContiguous (s := [2, 3, 4]) (f := fun _ => 2)) (by decide) (by decide) (by decide) (by decide)

/-- **C31.** Other ranks, different batch sizes and mismatched inner extents are rejected. -/
theorem C31_bmm_rejects [CommSemiring α] {K : SopKernels α} {a b : Arr α} (hla : a.stride.length = a.shape.length)
    (hlb : b.stride.length = b.shape.length) (hpa : 0 ∉ a.shape) (hpb : 0 ∉ b.shape)
    (h : a.shape.length ≠ 3 ∨ b.shape.length ≠ 3 ∨ a.shape[0]? ≠ b.shape[0]? ∨ a.shape[2]? ≠ b.shape[1]?) :
    a.bmm K b = .error .panic := by
  unfold Arr.bmm
  by_cases h1 : a.ndims = 3
  swap
  · rw [assert_fail (decide_eq_false h1)]; rfl
  rw [assert_ok (decide_eq_true h1)]
  by_cases h2 : b.ndims = 3
  swap
  · rw [assert_fail (decide_eq_false h2)]; rfl
  rw [assert_ok (decide_eq_true h2)]
  obtain ⟨B, m, k, hs⟩ := List.length_eq_three.1 h1
  obtain ⟨B', k', n, hs'⟩ := List.length_eq_three.1 h2
  obtain ⟨d0, d1, d2, hd⟩ := List.length_eq_three.1 (hla.trans h1)
  obtain ⟨e0, e1, e2, he⟩ := List.length_eq_three.1 (hlb.trans h2)
  rw [show a.lenMethod = B by simp [Arr.lenMethod, hs], show b.lenMethod = B' by simp [Arr.lenMethod, hs']]
  by_cases h3 : B = B'
  swap
  · rw [assert_fail (by simpa using h3)]; rfl
  subst h3
  rw [assert_ok (by simp)]
  have hk : k ≠ k' := by
    rintro rfl
    simp [hs, hs'] at h
  simp [hs] at hpa
  simp [hs'] at hpb
  obtain ⟨z, hz, hsh, hst, hbuf, hoff⟩ := zeros3 (α := α) (B := B) (m := m) (n := n) (by omega) (by omega) (by omega)
  have slice : ∀ (c : Arr α) (x y d d' d'' : Nat), c.shape = [B, x, y] → c.stride = [d, d', d''] → 0 ≠ x → 0 ≠ y →
      ∃ l, c.sliceAlong 0 (.at 0) = .ok l ∧ l.shape = [x, y] := by
    intro c x y d d' d'' hc hc' hx hy
    obtain ⟨len, hlen⟩ : ∃ len, calculateStridedBufferLength [x, y] [d', d''] = .ok len :=
      ⟨_, calculateStridedBufferLength_ok (by simp [numel]; omega)⟩
    have hk' : asAbsolute 0 c.ndims = .ok 0 := asAbsolute_ok (k := 0) ⟨by simp [Arr.ndims, hc], .inl rfl⟩
    refine ⟨{ buf := c.buf, off := c.off + d * 0, len := len, cap := len, shape := [x, y], stride := [d', d''], flags := { updateFlagsWithContiguity c.flags [x, y] [d', d''] with owned := false, userCreated := false } }, ?_, rfl⟩
    unfold Arr.sliceAlong
    rw [hk', hc, hc']
    show c.sliceResult [x, y] [d', d''] (d * 0) true = _
    unfold Arr.sliceResult
    rw [hlen]
    rfl
  obtain ⟨l, el, hl⟩ := slice a m k d0 d1 d2 hs hd (by omega) (by omega)
  obtain ⟨r, er, hr⟩ := slice b k' n e0 e1 e2 hs' he (by omega) (by omega)
  have hmm : ∀ dst q, matrixMatrixProduct K l r [n, 1] dst q = .error .panic := by
    intro dst q
    have hp : prepareEinsum [l, r] [['i', 'j'], ['j', 'k']] ['i', 'k'] = .error .panic := by
      have hinv := parseOperands_inv (ts := [(['i', 'j'], [m, k]), (['j', 'k'], [k', n])]) (t := Tables.empty) (by simp)
      unfold prepareEinsum
      rw [assert_ok (decide_eq_true (by show 2 < 16; decide))]
      show (parseOperands [['i', 'j'], ['j', 'k']] [l.shape, r.shape] Tables.empty 0 >>= fun p => _) = _
      rw [hl, hr]
      rcases hinv.1 with ⟨x, hx⟩ | hx
      · exfalso
        obtain ⟨hsh, _⟩ := hinv.2 x hx
        have a1 := hsh (['i', 'j'], [m, k]) (by simp)
        have a2 := hsh (['j', 'k'], [k', n]) (by simp)
        simp [codes] at a1 a2
        exact hk (a1.2.trans a2.1.symm)
      · rw [show parseOperands [['i', 'j'], ['j', 'k']] [[m, k], [k', n]] Tables.empty 0 = _ from hx]; rfl
    unfold matrixMatrixProduct einsumIntoPtr
    rw [hp]
    rfl
  rw [hs, hs']
  show ((Arr.zeros [B, m, n] : Res (Arr α)) >>= fun r => _) = _
  rw [hz]
  show (batchMatrixMatrixProduct K a b z.stride z.buf z.off >>= fun data => _) = _
  have hb : batchMatrixMatrixProduct K a b z.stride z.buf z.off = .error .panic := by
    rw [hst]
    unfold batchMatrixMatrixProduct
    rw [el, er]
    simp only [getChecked, hd, he, bind, Except.bind, List.getElem?_cons_zero]
    rw [show a.lenMethod = B by simp [Arr.lenMethod, hs]]
    cases B with
    | zero => simp at hpa
    | succ B =>
      simp only [bmmLoop, List.drop_one, List.tail_cons, hmm]
      rfl
  rw [hb]
  rfl

example := C31_bmm_rejects (K := portableSop) (a := Arr.fromContiguousOwnedBuffer [1, 1, 2] [(1 : Int), 2])
  (b := Arr.fromContiguousOwnedBuffer [1, 1, 2] [3, 4]) rfl rfl (by decide) (by decide) (.inr (.inr (.inr (by decide))))

/-- batches of 1x2 and 2x1 matrices; the second operand is a permuted view -/
def batA : Arr Int := Arr.fromContiguousOwnedBuffer [2, 1, 2] [1, 2, 3, 4]
def batB : Arr Int := { Arr.fromContiguousOwnedBuffer [2, 2, 1] [5, 6, 7, 8] with stride := [1, 2, 1] }

set_option maxRecDepth 10000 in
example : (batA.bmm portableSop batB).map (fun r => (r.shape, r.buf)) = .ok ([2, 1, 1], [19, 50])
    ∧ batA.bmm portableSop batA = .error .panic := by decide +kernel

set_option maxRecDepth 10000 in
/-- **C31, negation for extent 0**: with inner extent 0 the result should be zeros; the slice taken of each operand
already underflows in `calculate_strided_buffer_length` (a panic with overflow checks, a wrap without). -/
theorem C31_empty_false : (Arr.fromContiguousOwnedBuffer [1, 2, 0] ([] : List Int)).bmm portableSop
      (Arr.fromContiguousOwnedBuffer [1, 0, 2] []) = .error .overflow := by decide +kernel

end Verif
