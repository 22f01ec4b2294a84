import Verif.Props.Laws

/-!
# C66 products, transposes and traces obey the laws of linear algebra

Products are the modelled `matmul`, `bmm`, `dot` with arbitrary correct leaf kernels; `+` is the portable elementwise
operator. Missing throughout: extents 0 where matrix products are involved (false, see `C30_empty_false`).
-/

namespace Verif

variable {α : Type}

/-- elementwise `a + b` -/
def Arr.plus [Add α] [Zero α] (a b : Arr α) : Res (Arr α) :=
  a.binOp (fun x y => .ok (x + y)) (portableKernels fun x y => .ok (x + y)) 0 b

section
variable [CommSemiring α] [BEq α] [LawfulBEq α] {K : SopKernels α}

/-- **C66.** `(AB)C = A(BC)`. -/
theorem C66_assoc_partial (hK : K.Correct) {a b c : Arr α} {m k l n : Nat} {f g h : List Nat → α} (ha : a.Denotes [m, k] f)
    (hb : b.Denotes [k, l] g) (hc : c.Denotes [l, n] h) (hm : 0 < m) (hk : 0 < k) (hl : 0 < l) (hn : 0 < n) :
    SameArray (a.matmul K b >>= fun ab => ab.matmul K c) (b.matmul K c >>= fun bc => a.matmul K bc) := by
  obtain ⟨ab, e1, h1⟩ := C30_matmul_partial hK ha hb hm hk hl
  obtain ⟨r, e2, h2⟩ := C30_matmul_partial hK h1 hc hm hl hn
  obtain ⟨bc, e3, h3⟩ := C30_matmul_partial hK hb hc hk hl hn
  obtain ⟨r', e4, h4⟩ := C30_matmul_partial hK ha h3 hm hk hn
  refine same_of_denotes (by rw [e1]; exact e2) h2 (by rw [e3]; exact e4) h4 (by simp) fun idx _ => ?_
  simp only [innerProduct_finset, List.getD_cons_zero, List.getD_cons_succ, Finset.sum_mul, Finset.mul_sum]
  rw [Finset.sum_comm]
  simp only [mul_assoc]

/-- **C66.** `(AB)v = A(Bv)`. -/
theorem C66_assoc_vec_partial (hK : K.Correct) {a b v : Arr α} {m k l : Nat} {f g h : List Nat → α} (ha : a.Denotes [m, k] f)
    (hb : b.Denotes [k, l] g) (hv : v.Denotes [l] h) (hm : 0 < m) (hk : 0 < k) (hl : 0 < l) :
    SameArray (a.matmul K b >>= fun ab => ab.matmul K v) (b.matmul K v >>= fun bv => a.matmul K bv) := by
  obtain ⟨ab, e1, h1⟩ := C30_matmul_partial hK ha hb hm hk hl
  obtain ⟨r, e2, h2⟩ := C30_matmul_mat_vec (K := K) h1 hv
  obtain ⟨bv, e3, h3⟩ := C30_matmul_mat_vec (K := K) hb hv
  obtain ⟨r', e4, h4⟩ := C30_matmul_mat_vec (K := K) ha h3
  refine same_of_denotes (by rw [e1]; exact e2) h2 (by rw [e3]; exact e4) h4 (by simp) fun idx _ => ?_
  simp only [innerProduct_finset, List.getD_cons_zero, List.getD_cons_succ, List.headD_cons, Finset.sum_mul, Finset.mul_sum]
  rw [Finset.sum_comm]
  simp only [mul_assoc]

/-- **C66.** `A(B + C) = AB + AC`. -/
theorem C66_left_distrib_partial (hK : K.Correct) {a b c : Arr α} {m k n : Nat} {f g h : List Nat → α} (ha : a.Denotes [m, k] f)
    (hb : b.Denotes [k, n] g) (hc : c.Denotes [k, n] h) (hm : 0 < m) (hk : 0 < k) (hn : 0 < n) :
    SameArray (b.plus c >>= fun s => a.matmul K s)
      (a.matmul K b >>= fun ab => a.matmul K c >>= fun ac => ab.plus ac) := by
  obtain ⟨s, e1, h1⟩ := binOp_same_shape (· + ·) 0 hb hc (by simp)
  obtain ⟨r, e2, h2⟩ := C30_matmul_partial hK ha h1 hm hk hn
  obtain ⟨ab, e3, h3⟩ := C30_matmul_partial hK ha hb hm hk hn
  obtain ⟨ac, e4, h4⟩ := C30_matmul_partial hK ha hc hm hk hn
  obtain ⟨r', e5, h5⟩ := binOp_same_shape (· + ·) 0 h3 h4 (by simp)
  refine same_of_denotes (by rw [Arr.plus, e1]; exact e2) h2 (by rw [e3, ok_bind, e4]; exact e5) h5 (by simp) fun idx _ => ?_
  simp only [innerProduct_finset, mul_add, Finset.sum_add_distrib]

/-- **C66.** `(A + B)C = AC + BC`. -/
theorem C66_right_distrib_partial (hK : K.Correct) {a b c : Arr α} {m k n : Nat} {f g h : List Nat → α} (ha : a.Denotes [m, k] f)
    (hb : b.Denotes [m, k] g) (hc : c.Denotes [k, n] h) (hm : 0 < m) (hk : 0 < k) (hn : 0 < n) :
    SameArray (a.plus b >>= fun s => s.matmul K c)
      (a.matmul K c >>= fun ac => b.matmul K c >>= fun bc => ac.plus bc) := by
  obtain ⟨s, e1, h1⟩ := binOp_same_shape (· + ·) 0 ha hb (by simp)
  obtain ⟨r, e2, h2⟩ := C30_matmul_partial hK h1 hc hm hk hn
  obtain ⟨ac, e3, h3⟩ := C30_matmul_partial hK ha hc hm hk hn
  obtain ⟨bc, e4, h4⟩ := C30_matmul_partial hK hb hc hm hk hn
  obtain ⟨r', e5, h5⟩ := binOp_same_shape (· + ·) 0 h3 h4 (by simp)
  refine same_of_denotes (by rw [Arr.plus, e1]; exact e2) h2 (by rw [e3, ok_bind, e4]; exact e5) h5 (by simp) fun idx _ => ?_
  simp only [innerProduct_finset, add_mul, Finset.sum_add_distrib]

/-- **C66.** `(AB)ᵀ = Bᵀ Aᵀ`. -/
theorem C66_transpose_partial (hK : K.Correct) {a b : Arr α} {m k n : Nat} {f g : List Nat → α} (ha : a.Denotes [m, k] f)
    (hb : b.Denotes [k, n] g) (hm : 0 < m) (hk : 0 < k) (hn : 0 < n) :
    SameArray (a.matmul K b >>= fun ab => ab.T) (b.T >>= fun bt => a.T >>= fun at' => bt.matmul K at') := by
  obtain ⟨ab, e1, h1⟩ := C30_matmul_partial hK ha hb hm hk hn
  obtain ⟨r, e2, h2⟩ := C14_T h1
  obtain ⟨bt, e3, h3⟩ := C14_T hb
  obtain ⟨at', e4, h4⟩ := C14_T ha
  obtain ⟨r', e5, h5⟩ := C30_matmul_partial hK h3 h4 hn hk hm
  refine same_of_denotes (by rw [e1]; exact e2) h2 (by rw [e3, ok_bind, e4]; exact e5) h5 (by simp) fun idx hidx => ?_
  match idx, hidx with
  | [x, y], _ =>
    simp [innerProduct_finset, exchange, List.mapIdx_cons, mul_comm]

/-- **C66.** `tr(AB) = tr(BA)`, also for rectangular matrices. -/
theorem C66_trace_comm_partial (hK : K.Correct) {a b : Arr α} {m k : Nat} {f g : List Nat → α} (ha : a.Denotes [m, k] f)
    (hb : b.Denotes [k, m] g) (hm : 0 < m) (hk : 0 < k) :
    SameArray (a.matmul K b >>= fun ab => ab.trace) (b.matmul K a >>= fun ba => ba.trace) := by
  obtain ⟨ab, e1, h1⟩ := C30_matmul_partial hK ha hb hm hk hm
  obtain ⟨r, e2, h2⟩ := C34_trace h1 (by omega)
  obtain ⟨ba, e3, h3⟩ := C30_matmul_partial hK hb ha hk hm hk
  obtain ⟨r', e4, h4⟩ := C34_trace h3 (by omega)
  refine same_of_denotes (by rw [e1]; exact e2) h2 (by rw [e3]; exact e4) h4 (by simp) fun idx _ => ?_
  simp only [Nat.min_self, list_sum_range, innerProduct_finset, List.getD_cons_zero, List.getD_cons_succ]
  rw [Finset.sum_comm]
  simp only [mul_comm]

/-- **C66.** `tr(Aᵀ) = tr(A)`, for every matrix with at least one row and column. -/
theorem C66_trace_transpose_partial {a : Arr α} {m n : Nat} {f : List Nat → α} (ha : a.Denotes [m, n] f) (hm : 0 < m) (hn : 0 < n) :
    SameArray (a.T >>= fun t => t.trace) a.trace := by
  obtain ⟨t, e1, h1⟩ := C14_T ha
  obtain ⟨r, e2, h2⟩ := C34_trace h1 (by omega)
  obtain ⟨r', e3, h3⟩ := C34_trace ha (by omega)
  refine same_of_denotes (by rw [e1]; exact e2) h2 e3 h3 (by simp) fun idx _ => ?_
  simp [exchange, List.mapIdx_cons, Nat.min_comm]

/-- **C66.** `dot` is symmetric (all lengths). -/
theorem C66_dot_comm {a b : Arr α} {n : Nat} {f g : List Nat → α} (ha : a.Denotes [n] f) (hb : b.Denotes [n] g) :
    SameArray (a.dot b) (b.dot a) := by
  obtain ⟨r, e, h⟩ := C32_dot ha hb
  obtain ⟨r', e', h'⟩ := C32_dot hb ha
  exact same_of_denotes e h e' h' (by simp) fun idx _ => by simp only [innerProduct_finset, mul_comm]

/-- **C66.** `u · (Av) = (Aᵀu) · v` (all sizes). -/
theorem C66_adjoint {a u v : Arr α} {m n : Nat} {f g h : List Nat → α} (ha : a.Denotes [m, n] f) (hu : u.Denotes [m] g)
    (hv : v.Denotes [n] h) :
    SameArray (a.matmul K v >>= fun av => u.dot av) (a.T >>= fun t => t.matmul K u >>= fun w => w.dot v) := by
  obtain ⟨av, e1, h1⟩ := C30_matmul_mat_vec (K := K) ha hv
  obtain ⟨r, e2, h2⟩ := C32_dot hu h1
  obtain ⟨t, e3, h3⟩ := C14_T ha
  obtain ⟨w, e4, h4⟩ := C30_matmul_mat_vec (K := K) h3 hu
  obtain ⟨r', e5, h5⟩ := C32_dot h4 hv
  refine same_of_denotes (by rw [e1]; exact e2) h2 (by rw [e3, ok_bind, e4]; exact e5) h5 (by simp) fun idx _ => ?_
  simp only [innerProduct_finset, List.headD_cons, exchange, List.mapIdx_cons, List.mapIdx_nil, Finset.mul_sum, Finset.sum_mul]
  rw [Finset.sum_comm]
  refine Finset.sum_congr rfl fun i _ => Finset.sum_congr rfl fun j _ => ?_
  simp
  ring

/-- **C66.** Slice `x` of `bmm(a, b)` is the `matmul` of the slices `x`. -/
theorem C66_bmm_slices_partial (hK : K.Correct) {a b : Arr α} {B m k n : Nat} {f g : List Nat → α} (ha : a.Denotes [B, m, k] f)
    (hb : b.Denotes [B, k, n] g) (hm : 0 < m) (hk : 0 < k) (hn : 0 < n) {x : Nat} (hx : x < B) :
    SameArray (a.bmm K b >>= fun c => c.slice [.at x])
      (a.slice [.at x] >>= fun ax => b.slice [.at x] >>= fun bx => ax.matmul K bx) := by
  obtain ⟨c, e1, h1⟩ := C31_bmm_partial hK ha hb (by omega) hm hk hn
  have sl : ∀ {d : Arr α} {p q : Nat} {w : List Nat → α}, d.Denotes [B, p, q] w → 0 < p → 0 < q →
      ∃ r, d.slice [.at x] = .ok r ∧ r.Denotes [p, q] (fun J => w (x :: J)) := by
    intro d p q w hd hp hq
    obtain ⟨r, e, _, h, _⟩ := C16_slice_partial hd (ixs := [.at x]) ⟨⟨trivial, hx⟩, trivial⟩
      (by simp [sels, Indexer.sel, selectShape, numel]; omega)
    exact ⟨r, e, h⟩
  obtain ⟨r, e2, h2⟩ := sl h1 hm hn
  obtain ⟨ax, e3, h3⟩ := sl ha hm hk
  obtain ⟨bx, e4, h4⟩ := sl hb hk hn
  obtain ⟨r', e5, h5⟩ := C30_matmul_partial hK h3 h4 hm hk hn
  exact same_of_denotes (by rw [e1]; exact e2) h2 (by rw [e3, ok_bind, e4]; exact e5) h5 (by simp) fun idx _ => by
    simp [innerProduct_finset]

end

/-! ### the hypotheses are satisfiable: rectangular and transposed operands -/

example : SameArray (matA.matmul portableSop matBt >>= fun ab => ab.matmul portableSop squareT)
    (matBt.matmul portableSop squareT >>= fun bc => matA.matmul portableSop bc) :=
  C66_assoc_partial (m := 2) (k := 3) (l := 2) (n := 2) portableSop_correct (denotes_reads 0 rfl (by decide))
    (denotes_reads 0 rfl (by decide)) (denotes_reads 0 rfl (by decide)) (by decide) (by decide) (by decide) (by decide)
example : SameArray (squareT.matmul portableSop matA >>= fun ab => ab.matmul portableSop evenView)
    (matA.matmul portableSop evenView >>= fun bv => squareT.matmul portableSop bv) :=
  C66_assoc_vec_partial (m := 2) (k := 2) (l := 3) portableSop_correct (denotes_reads 0 rfl (by decide))
    (denotes_reads 0 rfl (by decide)) (denotes_reads 0 rfl (by decide)) (by decide) (by decide) (by decide)
example : SameArray (matA.plus matA >>= fun s => squareT.matmul portableSop s)
    (squareT.matmul portableSop matA >>= fun ab => squareT.matmul portableSop matA >>= fun ac => ab.plus ac) :=
  C66_left_distrib_partial (m := 2) (k := 2) (n := 3) portableSop_correct (denotes_reads 0 rfl (by decide))
    (denotes_reads 0 rfl (by decide)) (denotes_reads 0 rfl (by decide)) (by decide) (by decide) (by decide)
example : SameArray (squareT.plus squareT >>= fun s => s.matmul portableSop matA)
    (squareT.matmul portableSop matA >>= fun ac => squareT.matmul portableSop matA >>= fun bc => ac.plus bc) :=
  C66_right_distrib_partial (m := 2) (k := 2) (n := 3) portableSop_correct (denotes_reads 0 rfl (by decide))
    (denotes_reads 0 rfl (by decide)) (denotes_reads 0 rfl (by decide)) (by decide) (by decide) (by decide)
example : SameArray (matA.matmul portableSop matBt >>= fun ab => ab.T)
    (matBt.T >>= fun bt => matA.T >>= fun at' => bt.matmul portableSop at') :=
  C66_transpose_partial (m := 2) (k := 3) (n := 2) portableSop_correct (denotes_reads 0 rfl (by decide))
    (denotes_reads 0 rfl (by decide)) (by decide) (by decide) (by decide)
example : SameArray (matA.matmul portableSop matBt >>= fun ab => ab.trace) (matBt.matmul portableSop matA >>= fun ba => ba.trace) :=
  C66_trace_comm_partial (m := 2) (k := 3) portableSop_correct (denotes_reads 0 rfl (by decide))
    (denotes_reads 0 rfl (by decide)) (by decide) (by decide)
example : SameArray (matA.T >>= fun t => t.trace) matA.trace :=
  C66_trace_transpose_partial (m := 2) (n := 3) (denotes_reads 0 rfl (by decide)) (by decide) (by decide)
example : SameArray (evenView.dot (Arr.fromContiguousOwnedBuffer [3] [10, 100, 1000]))
    ((Arr.fromContiguousOwnedBuffer [3] [10, 100, 1000]).dot evenView) :=
  C66_dot_comm (n := 3) (denotes_reads 0 rfl (by decide)) (denotes_reads 0 rfl (by decide))
example : SameArray (matBt.matmul portableSop (Arr.fromContiguousOwnedBuffer [2] [1, -1]) >>= fun av => evenView.dot av)
    (matBt.T >>= fun t => t.matmul portableSop evenView >>= fun w => w.dot (Arr.fromContiguousOwnedBuffer [2] [1, -1])) :=
  C66_adjoint (m := 3) (n := 2) (denotes_reads 0 rfl (by decide)) (denotes_reads 0 rfl (by decide)) (denotes_reads 0 rfl (by decide))
example : SameArray (batchA.bmm portableSop batchB >>= fun c => c.slice [.at 1])
    (batchA.slice [.at 1] >>= fun ax => batchB.slice [.at 1] >>= fun bx => ax.matmul portableSop bx) :=
  C66_bmm_slices_partial (B := 2) (m := 1) (k := 3) (n := 2) portableSop_correct (denotes_reads 0 rfl (by decide))
    (denotes_reads 0 rfl (by decide)) (by decide) (by decide) (by decide) (by decide)

end Verif
