import Verif.Props.Passes
import Mathlib.Algebra.Order.BigOperators.Ring.Finset
import Mathlib.Tactic.Linarith

/-!
# C93, C95: fitting a linear model

`r = x.matmul(&w) - &y; loss = (&r).dot(&r); loss.backward()`: the gradient of `w` is that of the squared error, it vanishes only at a minimum, and
a step against it does not increase the error (C93). Repeated steps approach the least error at the usual rate (C95).
-/

namespace Verif

/-- The numbers `x w - y`, for a matrix with rows of length `n`. -/
def fitError {α : Type} [Field α] (n : Nat) (x y w : List α) (i : Nat) : α :=
  (∑ j ∈ Finset.range n, x.getD (i * n + j) 0 * w.getD j 0) - y.getD i 0

/-- The sum of their squares. -/
def squaredError {α : Type} [Field α] (m n : Nat) (x y w : List α) : α := ∑ i ∈ Finset.range m, fitError n x y w i ^ 2

section field
variable {α : Type} [Field α]

/-- `x`: a matrix of shape `[m, n]`, `y`: a vector with `m`, `w`: one with `n` elements; `w` requires gradient. -/
def fitHeader (m n : Nat) (x y w : List α) : List (Instr α) := [.leaf [n] w, .leaf [m, n] x, .leaf [m] y, .setReq 0 true]

/-- `r = x.matmul(&w) - &y; loss = (&r).dot(&r)` -/
def fitForward : List (Instr α) := [.matmul 1 0, .bin .sub 3 2, .dot 4 4]

/-- The whole program, then `loss.backward()`. -/
def fitSession (m n : Nat) (x y w : List α) : List (Cmd α) := (fitHeader m n x y w).map .op ++ (fitForward.map .op ++ [.backward 5])

omit [Field α] in
theorem fit_shaped {m n : Nat} (hm : 0 < m) (hn : 0 < n) {x y w : List α} (hx : x.length = m * n) (hy : y.length = m) (hw : w.length = n) :
    WellShaped [] [] (fitHeader m n x y w ++ fitForward) [[n], [m, n], [m], [m], [m], []] := by
  have hb : BroadcastsTo [m] [m] := ⟨by simp, by simp [StretchTo]⟩
  exact ⟨[n], ⟨by simpa [numel] using hw, rfl⟩, by simp; omega, by simp, rfl, [m, n], ⟨by simpa [numel] using hx, rfl⟩, by simp; omega, by simp, rfl,
    [m], ⟨by simpa [numel] using hy, rfl⟩, by simp; omega, by simp, rfl, [n], rfl, by simp; omega, by simp, rfl,
    [m], .inr (.inl ⟨m, n, rfl, rfl, rfl⟩), by simp; omega, by simp, rfl, [m], ⟨[m], [m], rfl, rfl, hb.compatible, hb.joint⟩, by simp; omega, by simp, rfl,
    [], ⟨m, rfl, rfl, rfl⟩, by simp, by simp, rfl, rfl⟩

theorem fit_tensor {β : Type} [Add β] [Sub β] [Mul β] [Div β] [Neg β] [Zero β] (I : Interp α β) (m n : Nat) (x y w : List α) :
    ((specRun I 0 (fitHeader m n x y w ++ fitForward)).get 5).1 = MT.dot
      (MT.zip SOp.sub.run (MT.matmul ⟨[m, n], fun idx => I.const (x.getD (rank idx [m, n]) 0)⟩ ⟨[n], fun idx => I.var 0 idx (I.const (w.getD (rank idx [n]) 0))⟩)
        ⟨[m], fun idx => I.const (y.getD (rank idx [m]) 0)⟩)
      (MT.zip SOp.sub.run (MT.matmul ⟨[m, n], fun idx => I.const (x.getD (rank idx [m, n]) 0)⟩ ⟨[n], fun idx => I.var 0 idx (I.const (w.getD (rank idx [n]) 0))⟩)
        ⟨[m], fun idx => I.const (y.getD (rank idx [m]) 0)⟩) := rfl

theorem fit_elem {β : Type} [Add β] [Sub β] [Mul β] [Div β] [Neg β] [Zero β] (I : Interp α β) (m n : Nat) (x y w : List α) (idx : List Nat) :
    ((specRun I 0 (fitHeader m n x y w ++ fitForward)).get 5).1.elem idx =
      innerProduct m (fun i => innerProduct n (fun j => I.const (x.getD (i * n + j) 0)) (fun j => I.var 0 [j] (I.const (w.getD j 0))) - I.const (y.getD i 0))
        (fun i => innerProduct n (fun j => I.const (x.getD (i * n + j) 0)) (fun j => I.var 0 [j] (I.const (w.getD j 0))) - I.const (y.getD i 0)) := by
  rw [fit_tensor]
  have h2 : ∀ i, i < m → broadcastIndex [m] [i] = [i] := fun i hi => broadcastIndex_last hi []
  simp only [MT.dot, MT.zip, MT.matmul, jointShape_one, List.headD]
  unfold innerProduct
  congr 1
  refine List.map_congr_left fun i hi => ?_
  simp [SOp.run, h2 i (List.mem_range.1 hi), rank, numel]

theorem fit_value (m n : Nat) (x y w : List α) (idx : List Nat) :
    (tensorOf (fitHeader m n x y w ++ fitForward) 5).elem idx = squaredError m n x y w := by
  have e : ∀ i, innerProduct n (fun j => x.getD (i * n + j) 0) (fun j => w.getD j 0) - y.getD i 0 = fitError n x y w i := fun i => by
    unfold innerProduct fitError
    rw [sum_range_map]
  refine (fit_elem Interp.value m n x y w idx).trans ?_
  show innerProduct m (fun i => innerProduct n (fun j => x.getD (i * n + j) 0) (fun j => w.getD j 0) - y.getD i 0)
    (fun i => innerProduct n (fun j => x.getD (i * n + j) 0) (fun j => w.getD j 0) - y.getD i 0) = _
  simp only [e]
  unfold innerProduct squaredError
  rw [sum_range_map]
  exact Finset.sum_congr rfl fun i _ => (pow_two _).symm

theorem fit_dual (v : Nat → List Nat → α) (n : Nat) (x y w : List α) (i : Nat) :
    innerProduct n (fun j => (Dual.interp v).const (x.getD (i * n + j) 0)) (fun j => (Dual.interp v).var 0 [j] ((Dual.interp v).const (w.getD j 0))) -
      (Dual.interp v).const (y.getD i 0) = ⟨fitError n x y w i, ∑ j ∈ Finset.range n, x.getD (i * n + j) 0 * v 0 [j]⟩ := by
  rw [dual_innerProduct]
  refine congrArg₂ Dual.mk (?_ : innerProduct n (fun t => x.getD (i * n + t) 0) (fun t => w.getD t 0) - y.getD i 0 = _)
    (?_ : (∑ t ∈ Finset.range n, (x.getD (i * n + t) 0 * v 0 [t] + 0 * w.getD t 0)) - 0 = _)
  · unfold innerProduct fitError
    rw [sum_range_map]
  · simp

theorem fit_eps (v : Nat → List Nat → α) (m n : Nat) (x y w : List α) (idx : List Nat) :
    (((specRun (Dual.interp v) 0 (fitHeader m n x y w ++ fitForward)).get 5).1.elem idx).eps =
      2 * ∑ i ∈ Finset.range m, fitError n x y w i * ∑ j ∈ Finset.range n, x.getD (i * n + j) 0 * v 0 [j] := by
  rw [fit_elem]
  simp only [fit_dual]
  rw [dual_innerProduct]
  show ∑ i ∈ Finset.range m, _ = _
  rw [Finset.mul_sum]
  exact Finset.sum_congr rfl fun i _ => by ring

variable [Build]

/-- **C93.** For all sizes and elements: the loss is the sum of the squares of `x w - y`, and the gradient of `w` after
`loss.backward()` is `2 xᵀ (x w - y)`. -/
theorem C93_gradient {m n : Nat} (hm : 0 < m) (hn : 0 < n) {x y w : List α} (hx : x.length = m * n) (hy : y.length = m) (hw : w.length = n) :
    ∃ (σ : RunState α) (tw loss : Tensor α) (g : Arr α), runSession (fitSession m n x y w) = .ok σ ∧ σ.env[0]? = some tw ∧ σ.env[5]? = some loss ∧
      loss.arr.Denotes [] (fun _ => squaredError m n x y w) ∧ tw.gradient σ.store = some g ∧
      g.Denotes [n] (fun J => 2 * ∑ i ∈ Finset.range m, x.getD (i * n + J.getD 0 0) 0 * fitError n x y w i) := by
  have hprog : program (fitForward.map Cmd.op ++ [.backward 5] : List (Cmd α)) = fitForward := rfl
  have main := C91_loop (p₀ := fitHeader m n x y w) (body := fitForward.map Cmd.op ++ [Cmd.backward 5]) (Γ := [[n], [m, n], [m], [m], [m], []])
  rw [hprog] at main
  have legal : ∀ C, Legal C [[n], [m, n], [m], [m], [m], []] 3 ([.op (.matmul 1 0), .op (.bin .sub 3 2), .op (.dot 4 4), .backward 5] : List (Cmd α)) := fun C =>
    ⟨(by intro _ _ h; cases h), (by intro _ _ h; cases h), (by intro _ _ h; cases h), show 5 < 6 by decide, trivial⟩
  replace main := (main (fit_shaped hm hn hx hy hw) (legal _)).1
    (by simp [Cmd.passes, Passes, Instr.flow, Flow.takes, Flow.receives, KeepsAxis, evenStrides, rowStrides, numel, fitHeader, fitForward])
  obtain ⟨σ, h1, h2, h3, h4⟩ := main
  obtain ⟨tw, k, g, a1, a2, a3, a4⟩ := h4 0 rfl rfl
  have hl : σ.env.length = 6 := by rw [← List.length_map (f := fun t : Tensor α => t.arr.shape), h2]; rfl
  have e1 : (tensorOf (fitHeader m n x y w ++ fitForward) 0).shape = [n] := rfl
  have e5 : (tensorOf (fitHeader m n x y w ++ fitForward) 5).shape = [] := rfl
  obtain rfl : k = 0 := isVariable_unique (by rw [e1]; simp; omega) a2 (by intro v idx _; rfl)
  have h5 := List.getElem?_eq_getElem (l := σ.env) (i := 5) (by omega)
  have h3 := h3 5 _ h5
  rw [e5] at h3
  rw [e1] at a4
  refine ⟨σ, tw, _, g, h1, a1, h5, h3.congr fun J _ => fit_value m n x y w J, a3, a4.congr fun J hJ => ?_⟩
  obtain ⟨j, hj, rfl⟩ := inB_one hJ
  show 0 + pair [] _ _ = _
  rw [zero_add, pair_nil, one_mul]
  refine (fit_eps _ m n x y w []).trans ?_
  congr 1
  refine Finset.sum_congr rfl fun i _ => ?_
  rw [mul_comm]
  congr 1
  rw [Finset.sum_eq_single j]
  · simp [unitDir]
  · intro b _ hb; simp [unitDir, hb]
  · intro h; exact absurd (Finset.mem_range.2 hj) h

end field

section ordered
variable {α : Type} [Field α] [LinearOrder α] [IsStrictOrderedRing α]

omit [LinearOrder α] [IsStrictOrderedRing α] in
/-- Moving `w` by `d`. -/
theorem squaredError_move {m n : Nat} {x y w v : List α} {d : Nat → α} (hv : ∀ j, j < n → v.getD j 0 = w.getD j 0 + d j) :
    squaredError m n x y v = squaredError m n x y w + (∑ j ∈ Finset.range n, d j * (2 * ∑ i ∈ Finset.range m, x.getD (i * n + j) 0 * fitError n x y w i)) +
      ∑ i ∈ Finset.range m, (∑ j ∈ Finset.range n, x.getD (i * n + j) 0 * d j) ^ 2 := by
  have e : ∀ i, fitError n x y v i = fitError n x y w i + ∑ j ∈ Finset.range n, x.getD (i * n + j) 0 * d j := by
    intro i
    unfold fitError
    rw [Finset.sum_congr rfl fun j hj => by rw [hv j (Finset.mem_range.1 hj), mul_add], Finset.sum_add_distrib]
    ring
  unfold squaredError
  simp only [e, add_sq, Finset.sum_add_distrib]
  congr 2
  simp only [Finset.mul_sum]
  rw [Finset.sum_comm]
  refine Finset.sum_congr rfl fun j _ => Finset.sum_congr rfl fun i _ => ?_
  ring

variable [Build]

/-- **C93.** If the gradient of `w` is zero, no other `v` has a smaller loss: the loss of the same program with `v` is not less. -/
theorem C93_minimum {m n : Nat} (hm : 0 < m) (hn : 0 < n) {x y w v : List α} (hx : x.length = m * n) (hy : y.length = m) (hw : w.length = n)
    (hv : v.length = n) : ∃ (σ τ : RunState α) (tw loss loss' : Tensor α) (g : Arr α) (a b : α),
      runSession (fitSession m n x y w) = .ok σ ∧ σ.env[0]? = some tw ∧ tw.gradient σ.store = some g ∧ σ.env[5]? = some loss ∧
      loss.arr.Denotes [] (fun _ => a) ∧ runSession (fitSession m n x y v) = .ok τ ∧ τ.env[5]? = some loss' ∧ loss'.arr.Denotes [] (fun _ => b) ∧
      (g.Denotes [n] (fun _ => 0) → a ≤ b) := by
  obtain ⟨σ, tw, loss, g, h1, h2, h3, h4, h5, h6⟩ := C93_gradient hm hn hx hy hw
  obtain ⟨τ, _, loss', _, g1, _, g3, g4, _, _⟩ := C93_gradient hm hn hx hy hv
  refine ⟨σ, τ, tw, loss, loss', g, _, _, h1, h2, h5, h3, h4, g1, g3, g4, fun h0 => ?_⟩
  rw [squaredError_move (w := w) (v := v) (d := fun j => v.getD j 0 - w.getD j 0) (fun j _ => by ring)]
  have hz : ∀ j ∈ Finset.range n, (v.getD j 0 - w.getD j 0) * (2 * ∑ i ∈ Finset.range m, x.getD (i * n + j) 0 * fitError n x y w i) = 0 := by
    intro j hj
    have := (h6.2.2 [j] ⟨Finset.mem_range.1 hj, trivial⟩).symm.trans (h0.2.2 [j] ⟨Finset.mem_range.1 hj, trivial⟩)
    rw [show (2 * ∑ i ∈ Finset.range m, x.getD (i * n + j) 0 * fitError n x y w i) = 0 from Option.some.inj this, mul_zero]
  rw [Finset.sum_eq_zero hz, add_zero]
  exact le_add_of_nonneg_right (Finset.sum_nonneg fun i _ => sq_nonneg _)

/-- **C93.** A step `w - η · w.gradient()` does not increase the loss, if `0 ≤ η` and `η` times the sum of the squares of `x` is at most 1. -/
theorem C93_descent {m n : Nat} (hm : 0 < m) (hn : 0 < n) {x y w : List α} (hx : x.length = m * n) (hy : y.length = m) (hw : w.length = n)
    {η : α} (h0 : 0 ≤ η) (h1 : η * (∑ i ∈ Finset.range m, ∑ j ∈ Finset.range n, x.getD (i * n + j) 0 ^ 2) ≤ 1) :
    ∃ (σ τ : RunState α) (tw loss loss' : Tensor α) (g : Arr α) (f : List Nat → α) (a b : α),
      runSession (fitSession m n x y w) = .ok σ ∧ σ.env[0]? = some tw ∧ tw.gradient σ.store = some g ∧ g.Denotes [n] f ∧
      σ.env[5]? = some loss ∧ loss.arr.Denotes [] (fun _ => a) ∧
      runSession (fitSession m n x y ((List.range n).map fun j => w.getD j 0 - η * f [j])) = .ok τ ∧ τ.env[5]? = some loss' ∧
      loss'.arr.Denotes [] (fun _ => b) ∧ b ≤ a := by
  obtain ⟨σ, tw, loss, g, e1, e2, e3, e4, e5, e6⟩ := C93_gradient hm hn hx hy hw
  obtain ⟨τ, _, loss', _, g1, _, g3, g4, _, _⟩ := C93_gradient hm hn hx hy
    (w := (List.range n).map fun j => w.getD j 0 - η * (2 * ∑ i ∈ Finset.range m, x.getD (i * n + j) 0 * fitError n x y w i)) (by simp)
  refine ⟨σ, τ, tw, loss, loss', g, _, _, _, e1, e2, e5, e6, e3, e4, g1, g3, g4, ?_⟩
  set q : Nat → α := fun j => ∑ i ∈ Finset.range m, x.getD (i * n + j) 0 * fitError n x y w i with hq
  rw [squaredError_move (w := w) (d := fun j => -(2 * η) * q j) (fun j hj => by
    rw [List.getD_eq_getElem?_getD, List.getElem?_map, List.getElem?_range hj]
    show w.getD j 0 - η * (2 * q j) = _
    ring)]
  have s1 : ∑ j ∈ Finset.range n, -(2 * η) * q j * (2 * q j) = -(4 * η) * ∑ j ∈ Finset.range n, q j ^ 2 := by
    rw [Finset.mul_sum]; exact Finset.sum_congr rfl fun j _ => by ring
  have s2 : ∑ i ∈ Finset.range m, (∑ j ∈ Finset.range n, x.getD (i * n + j) 0 * (-(2 * η) * q j)) ^ 2 =
      4 * η * (η * ∑ i ∈ Finset.range m, (∑ j ∈ Finset.range n, x.getD (i * n + j) 0 * q j) ^ 2) := by
    rw [Finset.mul_sum, Finset.mul_sum]
    refine Finset.sum_congr rfl fun i _ => ?_
    rw [show (∑ j ∈ Finset.range n, x.getD (i * n + j) 0 * (-(2 * η) * q j)) = -(2 * η) * ∑ j ∈ Finset.range n, x.getD (i * n + j) 0 * q j by
      rw [Finset.mul_sum]; exact Finset.sum_congr rfl fun j _ => by ring]
    ring
  have s3 : ∑ i ∈ Finset.range m, (∑ j ∈ Finset.range n, x.getD (i * n + j) 0 * q j) ^ 2 ≤
      (∑ i ∈ Finset.range m, ∑ j ∈ Finset.range n, x.getD (i * n + j) 0 ^ 2) * ∑ j ∈ Finset.range n, q j ^ 2 := by
    rw [Finset.sum_mul]
    exact Finset.sum_le_sum fun i _ => Finset.sum_mul_sq_le_sq_mul_sq _ _ _
  have hQ : 0 ≤ ∑ j ∈ Finset.range n, q j ^ 2 := Finset.sum_nonneg fun j _ => sq_nonneg _
  have s4 : η * ∑ i ∈ Finset.range m, (∑ j ∈ Finset.range n, x.getD (i * n + j) 0 * q j) ^ 2 ≤ ∑ j ∈ Finset.range n, q j ^ 2 := by
    refine (mul_le_mul_of_nonneg_left s3 h0).trans ?_
    rw [← mul_assoc]
    exact mul_le_of_le_one_left hQ h1
  have s5 := mul_le_mul_of_nonneg_left s4 (show 0 ≤ 4 * η by linarith)
  show squaredError m n x y w + ∑ j ∈ Finset.range n, -(2 * η) * q j * (2 * q j) + _ ≤ _
  rw [s1, s2]
  linarith

/-- One step of training: the program is run with the weights `w`, and the new weights are `w - η · w.gradient()`. -/
def TrainingStep (m n : Nat) (x y : List α) (η : α) (w w' : List α) : Prop :=
  ∃ (σ : RunState α) (tw : Tensor α) (g : Arr α) (f : List Nat → α), runSession (fitSession m n x y w) = .ok σ ∧ σ.env[0]? = some tw ∧
    tw.gradient σ.store = some g ∧ g.Denotes [n] f ∧ w' = (List.range n).map fun j => w.getD j 0 - η * f [j]

/-- The program, run with the weights `w`, completes with the loss `a`. -/
def LossIs (m n : Nat) (x y w : List α) (a : α) : Prop :=
  ∃ (σ : RunState α) (loss : Tensor α), runSession (fitSession m n x y w) = .ok σ ∧ σ.env[5]? = some loss ∧ loss.arr.Denotes [] (fun _ => a)

omit [LinearOrder α] [IsStrictOrderedRing α] in
theorem LossIs.eq {m n : Nat} (hm : 0 < m) (hn : 0 < n) {x y w : List α} (hx : x.length = m * n) (hy : y.length = m) (hw : w.length = n)
    {a : α} (h : LossIs m n x y w a) : a = squaredError m n x y w := by
  obtain ⟨σ, loss, e1, e2, e3⟩ := h
  obtain ⟨σ', _, loss', _, g1, _, g3, g4, _, _⟩ := C93_gradient hm hn hx hy hw
  obtain rfl : σ = σ' := Except.ok.inj (e1.symm.trans g1)
  obtain rfl : loss = loss' := Option.some.inj (e2.symm.trans g3)
  exact Option.some.inj ((e3.2.2 [] trivial).symm.trans (g4.2.2 [] trivial))

omit [LinearOrder α] [IsStrictOrderedRing α] in
theorem TrainingStep.eq {m n : Nat} (hm : 0 < m) (hn : 0 < n) {x y w w' : List α} (hx : x.length = m * n) (hy : y.length = m) (hw : w.length = n)
    {η : α} (h : TrainingStep m n x y η w w') : w'.length = n ∧
      ∀ j, j < n → w'.getD j 0 = w.getD j 0 - η * (2 * ∑ i ∈ Finset.range m, x.getD (i * n + j) 0 * fitError n x y w i) := by
  obtain ⟨σ, tw, g, f, e1, e2, e3, e4, rfl⟩ := h
  obtain ⟨σ', tw', _, g', g1, g2, _, _, g5, g6⟩ := C93_gradient hm hn hx hy hw
  obtain rfl : σ = σ' := Except.ok.inj (e1.symm.trans g1)
  obtain rfl : tw = tw' := Option.some.inj (e2.symm.trans g2)
  obtain rfl : g = g' := Option.some.inj (e3.symm.trans g5)
  refine ⟨by simp, fun j hj => ?_⟩
  have hf : f [j] = _ := Option.some.inj ((e4.2.2 [j] ⟨hj, trivial⟩).symm.trans (g6.2.2 [j] ⟨hj, trivial⟩))
  rw [List.getD_eq_getElem?_getD, List.getElem?_map, List.getElem?_range hj]
  show w.getD j 0 - η * f [j] = _
  rw [hf]
  rfl

omit [Build] in
/-- What a step gains against any other weights `v`. -/
theorem squaredError_step {m n : Nat} {x y w w' : List α} {η : α} (h0 : 0 ≤ η)
    (h1 : 2 * (η * ∑ i ∈ Finset.range m, ∑ j ∈ Finset.range n, x.getD (i * n + j) 0 ^ 2) ≤ 1)
    (hw' : ∀ j, j < n → w'.getD j 0 = w.getD j 0 - η * (2 * ∑ i ∈ Finset.range m, x.getD (i * n + j) 0 * fitError n x y w i)) :
    squaredError m n x y w' ≤ squaredError m n x y w ∧ ∀ v : List α,
      2 * η * (squaredError m n x y w' - squaredError m n x y v) + ∑ j ∈ Finset.range n, (w'.getD j 0 - v.getD j 0) ^ 2 ≤
        ∑ j ∈ Finset.range n, (w.getD j 0 - v.getD j 0) ^ 2 := by
  set q : Nat → α := fun j => 2 * ∑ i ∈ Finset.range m, x.getD (i * n + j) 0 * fitError n x y w i with hq
  set S := ∑ i ∈ Finset.range m, ∑ j ∈ Finset.range n, x.getD (i * n + j) 0 ^ 2 with hS
  set Q := ∑ j ∈ Finset.range n, q j ^ 2 with hQ
  have hQ0 : 0 ≤ Q := Finset.sum_nonneg fun j _ => sq_nonneg _
  have s1 : ∑ j ∈ Finset.range n, -η * q j * q j = -η * Q := by
    rw [hQ, Finset.mul_sum]; exact Finset.sum_congr rfl fun j _ => by ring
  have s2 : ∑ i ∈ Finset.range m, (∑ j ∈ Finset.range n, x.getD (i * n + j) 0 * (-η * q j)) ^ 2 ≤ η * (η * S) * Q := by
    have : ∀ i, (∑ j ∈ Finset.range n, x.getD (i * n + j) 0 * (-η * q j)) ^ 2 = η ^ 2 * (∑ j ∈ Finset.range n, x.getD (i * n + j) 0 * q j) ^ 2 := by
      intro i
      rw [show (∑ j ∈ Finset.range n, x.getD (i * n + j) 0 * (-η * q j)) = -η * ∑ j ∈ Finset.range n, x.getD (i * n + j) 0 * q j by
        rw [Finset.mul_sum]; exact Finset.sum_congr rfl fun j _ => by ring]
      ring
    simp only [this]
    rw [← Finset.mul_sum, show η * (η * S) * Q = η ^ 2 * (S * Q) by ring, hS, Finset.sum_mul]
    exact mul_le_mul_of_nonneg_left (Finset.sum_le_sum fun i _ => Finset.sum_mul_sq_le_sq_mul_sq _ _ _) (sq_nonneg _)
  have hstep : squaredError m n x y w' ≤ squaredError m n x y w - η * Q + η * (η * S) * Q := by
    rw [squaredError_move (w := w) (v := w') (d := fun j => -η * q j) (fun j hj => by rw [hw' j hj]; ring)]
    have : ∑ j ∈ Finset.range n, -η * q j * (2 * ∑ i ∈ Finset.range m, x.getD (i * n + j) 0 * fitError n x y w i) = -η * Q := s1
    rw [this]
    linarith
  have hhalf : 2 * (η * (η * S) * Q) ≤ η * Q := by
    have := mul_le_mul_of_nonneg_right h1 (mul_nonneg h0 hQ0)
    linarith [this, show 2 * (η * S) * (η * Q) = 2 * (η * (η * S) * Q) by ring]
  have hηQ : 0 ≤ η * Q := mul_nonneg h0 hQ0
  refine ⟨by linarith, fun v => ?_⟩
  have hv := squaredError_move (m := m) (x := x) (y := y) (w := w) (v := v) (d := fun j => v.getD j 0 - w.getD j 0) (n := n) (fun j _ => by ring)
  have hv0 : 0 ≤ ∑ i ∈ Finset.range m, (∑ j ∈ Finset.range n, x.getD (i * n + j) 0 * (v.getD j 0 - w.getD j 0)) ^ 2 :=
    Finset.sum_nonneg fun i _ => sq_nonneg _
  have hd : ∑ j ∈ Finset.range n, (w'.getD j 0 - v.getD j 0) ^ 2 = ∑ j ∈ Finset.range n, (w.getD j 0 - v.getD j 0) ^ 2 +
      2 * η * (∑ j ∈ Finset.range n, (v.getD j 0 - w.getD j 0) * q j) + η ^ 2 * Q := by
    rw [hQ, Finset.mul_sum, Finset.mul_sum, ← Finset.sum_add_distrib, ← Finset.sum_add_distrib]
    refine Finset.sum_congr rfl fun j hj => ?_
    rw [hw' j (Finset.mem_range.1 hj)]
    show (w.getD j 0 - η * q j - v.getD j 0) ^ 2 = _
    ring
  have hv1 : squaredError m n x y w + ∑ j ∈ Finset.range n, (v.getD j 0 - w.getD j 0) * q j ≤ squaredError m n x y v := by
    rw [hv]
    exact le_add_of_nonneg_right hv0
  have k1 : squaredError m n x y w' - squaredError m n x y v ≤ -(∑ j ∈ Finset.range n, (v.getD j 0 - w.getD j 0) * q j) - η * Q + η * (η * S) * Q := by
    linarith
  have k2 := mul_le_mul_of_nonneg_left k1 (show 0 ≤ 2 * η by linarith)
  have k3 := mul_le_mul_of_nonneg_left hhalf h0
  rw [hd]
  nlinarith [k2, k3]

/-- **C95.** Training: whatever the data, the initial weights and the number of steps `N`, each step `w - η · w.gradient()` does not increase the loss,
and the last loss exceeds that of any other weights `v`, in particular the best, by at most `‖w₀ - v‖² / (2 η N)`; if `0 ≤ η` and `2 η` times the
sum of the squares of `x` is at most 1. -/
theorem C95_training {m n : Nat} (hm : 0 < m) (hn : 0 < n) {x y : List α} (hx : x.length = m * n) (hy : y.length = m) {η : α} (h0 : 0 ≤ η)
    (h1 : 2 * (η * ∑ i ∈ Finset.range m, ∑ j ∈ Finset.range n, x.getD (i * n + j) 0 ^ 2) ≤ 1)
    {w : Nat → List α} (hw : (w 0).length = n) (hs : ∀ k, TrainingStep m n x y η (w k) (w (k + 1))) {a : Nat → α} (ha : ∀ k, LossIs m n x y (w k) (a k)) :
    (∀ k, a (k + 1) ≤ a k) ∧ ∀ (v : List α) (b : α), v.length = n → LossIs m n x y v b → ∀ N : Nat,
      2 * η * N * (a N - b) ≤ ∑ j ∈ Finset.range n, ((w 0).getD j 0 - v.getD j 0) ^ 2 := by
  have hlen : ∀ k, (w k).length = n := by
    intro k
    induction k with
    | zero => exact hw
    | succ k ih => exact ((hs k).eq hm hn hx hy ih).1
  have hL : ∀ k, a k = squaredError m n x y (w k) := fun k => (ha k).eq hm hn hx hy (hlen k)
  have st := fun k => squaredError_step h0 h1 ((hs k).eq hm hn hx hy (hlen k)).2
  have mono : ∀ k, a (k + 1) ≤ a k := fun k => by rw [hL, hL]; exact (st k).1
  refine ⟨mono, fun v b hv hb N => ?_⟩
  obtain rfl := hb.eq hm hn hx hy hv
  have key : ∀ N : Nat, 2 * η * N * (a N - squaredError m n x y v) + ∑ j ∈ Finset.range n, ((w N).getD j 0 - v.getD j 0) ^ 2 ≤
      ∑ j ∈ Finset.range n, ((w 0).getD j 0 - v.getD j 0) ^ 2 := by
    intro N
    induction N with
    | zero => simp
    | succ N ih =>
      have h2 := (st N).2 v
      rw [← hL] at h2
      have h3 : 2 * η * N * (a (N + 1) - squaredError m n x y v) ≤ 2 * η * N * (a N - squaredError m n x y v) :=
        mul_le_mul_of_nonneg_left (by linarith [mono N]) (mul_nonneg (by linarith) (Nat.cast_nonneg _))
      push_cast
      linarith [show 2 * η * (N + 1) * (a (N + 1) - squaredError m n x y v) =
        2 * η * N * (a (N + 1) - squaredError m n x y v) + 2 * η * (a (N + 1) - squaredError m n x y v) by ring]
  have hpos : 0 ≤ ∑ j ∈ Finset.range n, ((w N).getD j 0 - v.getD j 0) ^ 2 := Finset.sum_nonneg fun j _ => sq_nonneg _
  linarith [key N]

omit [LinearOrder α] [IsStrictOrderedRing α] in
/-- **C95.** Training never panics: from any weights of the right length there is such a sequence, and it is unique. -/
theorem C95_runs {m n : Nat} (hm : 0 < m) (hn : 0 < n) {x y : List α} (hx : x.length = m * n) (hy : y.length = m) (η : α)
    {w₀ : List α} (hw : w₀.length = n) :
    ∃! w : Nat → List α, w 0 = w₀ ∧ (∀ k, TrainingStep m n x y η (w k) (w (k + 1))) ∧ ∀ k, ∃ a, LossIs m n x y (w k) a := by
  let next : List α → List α := fun w => (List.range n).map fun j => w.getD j 0 -
    η * (2 * ∑ i ∈ Finset.range m, x.getD (i * n + j) 0 * fitError n x y w i)
  let seq : Nat → List α := fun k => Nat.rec w₀ (fun _ w => next w) k
  have hlen : ∀ k, (seq k).length = n := by
    intro k
    cases k with
    | zero => exact hw
    | succ k => simp [seq, next]
  have hstep : ∀ k, TrainingStep m n x y η (seq k) (seq (k + 1)) := by
    intro k
    obtain ⟨σ, tw, _, g, e1, e2, _, _, e5, e6⟩ := C93_gradient hm hn hx hy (hlen k)
    exact ⟨σ, tw, g, _, e1, e2, e5, e6, rfl⟩
  refine ⟨seq, ⟨rfl, hstep, fun k => ?_⟩, ?_⟩
  · obtain ⟨σ, _, loss, _, e1, _, e3, e4, _⟩ := C93_gradient hm hn hx hy (hlen k)
    exact ⟨_, σ, loss, e1, e3, e4⟩
  · rintro w ⟨hw0, hws, _⟩
    funext k
    induction k with
    | zero => exact hw0
    | succ k ih =>
      obtain ⟨l1, g1⟩ := (hws k).eq hm hn hx hy (by rw [ih]; exact hlen k)
      obtain ⟨l2, g2⟩ := (hstep k).eq hm hn hx hy (hlen k)
      refine List.ext_getElem (l1.trans l2.symm) fun j h h' => ?_
      have := (g1 j (by omega)).trans (ih ▸ (g2 j (by omega)).symm)
      simpa [List.getD_eq_getElem?_getD, h, h'] using this

/-- Two observations, two features. -/
example : ∃ (x y w : List ℚ) (η : ℚ), x.length = 2 * 2 ∧ y.length = 2 ∧ w.length = 2 ∧ 0 ≤ η ∧
    η * (∑ i ∈ Finset.range 2, ∑ j ∈ Finset.range 2, x.getD (i * 2 + j) 0 ^ 2) ≤ 1 :=
  ⟨[1, 2, 3, 4], [1, -1], [0, 5], 1 / 30, rfl, rfl, rfl, by norm_num, by simp [Finset.sum_range_succ]; norm_num⟩

/-- The same data and half the step: after 100 steps the loss exceeds the best by at most `3 / 10` of the squared distance to the best weights. -/
example : ∃ w : Nat → List ℚ, w 0 = [0, 5] ∧ (∀ k, TrainingStep 2 2 [1, 2, 3, 4] [1, -1] (1 / 60) (w k) (w (k + 1))) ∧
    ∀ a b : ℚ, LossIs 2 2 [1, 2, 3, 4] [1, -1] (w 100) a → LossIs 2 2 [1, 2, 3, 4] [1, -1] [-3, 2] b →
      10 * (a - b) ≤ 3 * ∑ j ∈ Finset.range 2, (([0, 5] : List ℚ).getD j 0 - ([-3, 2] : List ℚ).getD j 0) ^ 2 := by
  obtain ⟨w, ⟨h0, h1, h2⟩, _⟩ := C95_runs (m := 2) (n := 2) (by decide) (by decide) (x := [1, 2, 3, 4]) (y := ([1, -1] : List ℚ)) rfl rfl (1 / 60)
    (w₀ := [0, 5]) rfl
  choose l hl using h2
  refine ⟨w, h0, h1, fun a b ha hb => ?_⟩
  have main := (C95_training (m := 2) (n := 2) (by decide) (by decide) (x := [1, 2, 3, 4]) (y := [1, -1]) rfl rfl (η := (1 / 60 : ℚ)) (by norm_num)
    (by simp [Finset.sum_range_succ]; norm_num) (by rw [h0]; rfl) h1 hl).2 [-3, 2] b rfl hb 100
  have hlen : ∀ k, (w k).length = 2 := by
    intro k
    cases k with
    | zero => rw [h0]; rfl
    | succ k => obtain ⟨_, _, _, _, _, _, _, _, h⟩ := h1 k; rw [h]; simp
  have e : ∀ c, LossIs 2 2 [1, 2, 3, 4] [1, -1] (w 100) c → c = squaredError 2 2 [1, 2, 3, 4] [1, -1] (w 100) := fun c h =>
    LossIs.eq (m := 2) (n := 2) (by decide) (by decide) rfl rfl (hlen 100) h
  rw [e _ (hl 100), ← e _ ha, h0] at main
  push_cast at main
  linarith

end ordered

end Verif
