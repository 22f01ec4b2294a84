import Verif.Props.LossSum
import Verif.Props.LeastSquares

/-!
# C98: data in batches

Least squares (C93) with the rows of the data in batches: one loss and one call of `backward` per batch leave the gradient that the loss over all rows gives.
-/

namespace Verif

section any
variable {α : Type}

/-- One batch: `m` rows `x` and their targets `y`. -/
structure Batch (α : Type) where
  m : Nat
  x : List α
  y : List α

/-- `x = Tensor(..); y = Tensor(..); r = x.matmul(&w) - &y; loss = (&r).dot(&r)`, with `N` tensors so far; `w` is the first of them. -/
def Batch.ops (n N : Nat) (b : Batch α) : List (Instr α) :=
  [.leaf [b.m, n] b.x, .leaf [b.m] b.y, .matmul N 0, .bin .sub (N + 2) (N + 1), .dot (N + 3) (N + 3)]

/-- One batch after the other, each with `loss.backward()`. -/
def batchCmds (n : Nat) : Nat → List (Batch α) → List (Cmd α)
  | _, [] => []
  | N, b :: bs => (b.ops n N).map .op ++ ([Cmd.backward (N + 4)] ++ batchCmds n (N + 5) bs)

/-- `w`, which requires gradient. -/
def weights (n : Nat) (w : List α) : List (Instr α) := [.leaf [n] w, .setReq 0 true]

def Batch.OK (n : Nat) (b : Batch α) : Prop := 0 < b.m ∧ b.x.length = b.m * n ∧ b.y.length = b.m

def Batch.shapes (n : Nat) (b : Batch α) : List (List Nat) := [[b.m, n], [b.m], [b.m], [b.m], []]

theorem Batch.ops_no_setReq (n N : Nat) (b : Batch α) : ∀ x ∈ b.ops n N, ∀ i c, x ≠ .setReq i c := by
  intro x hx i c e
  subst e
  simp [Batch.ops] at hx

theorem batch_program (n N : Nat) (b : Batch α) (bs : List (Batch α)) :
    program (batchCmds n N (b :: bs)) = b.ops n N ++ program (batchCmds n (N + 5) bs) := by
  show program ((b.ops n N).map .op ++ ([Cmd.backward (N + 4)] ++ batchCmds n (N + 5) bs)) = _
  rw [program_append, program_append, program_ops]
  rfl

theorem batches_no_setReq (n : Nat) (bs : List (Batch α)) : ∀ N, ∀ x ∈ program (batchCmds n N bs), ∀ i c, x ≠ .setReq i c := by
  induction bs with
  | nil => intro N x hx; cases hx
  | cons b bs ih =>
    intro N x hx
    rw [batch_program] at hx
    rcases List.mem_append.1 hx with hx | hx
    · exact b.ops_no_setReq n N x hx
    · exact ih _ x hx

theorem batch_shaped {p : List (Instr α)} {Γ : List (List Nat)} (h : WellShaped [] [] p Γ) {n : Nat} (hn : 0 < n) (h0 : Γ[0]? = some [n]) {b : Batch α}
    (hb : b.OK n) : WellShaped [] [] (p ++ b.ops n Γ.length) (Γ ++ b.shapes n) := by
  obtain ⟨hm, hx, hy⟩ := hb
  have lt : 0 < Γ.length := (List.getElem?_eq_some_iff.1 h0).1
  have hbr := BroadcastsTo.refl [b.m]
  have h1 := wellShaped_snoc h (x := .leaf [b.m, n] b.x) (r := [b.m, n]) (fun e => ⟨by simpa [numel] using hx, rfl⟩) (by simp; omega) (by simp) (fun B => rfl)
  have h2 := wellShaped_snoc h1 (x := .leaf [b.m] b.y) (r := [b.m]) (fun e => ⟨by simpa [numel] using hy, rfl⟩) (by simp; omega) (by simp) (fun B => rfl)
  have h3 := wellShaped_snoc h2 (x := .matmul Γ.length 0) (r := [b.m]) (fun e => .inr (.inl ⟨b.m, n, by
    show (Γ ++ [[b.m, n]] ++ [[b.m]])[Γ.length]? = _
    simp, by
    show (Γ ++ [[b.m, n]] ++ [[b.m]])[0]? = _
    rw [List.append_assoc, List.getElem?_append_left lt]; exact h0, rfl⟩)) (by simp; omega) (by simp) (fun B => rfl)
  have h4 := wellShaped_snoc h3 (x := .bin .sub (Γ.length + 2) (Γ.length + 1)) (r := [b.m]) (fun e => ⟨[b.m], [b.m], by
    show (Γ ++ [[b.m, n]] ++ [[b.m]] ++ [[b.m]])[Γ.length + 2]? = _
    simp, by
    show (Γ ++ [[b.m, n]] ++ [[b.m]] ++ [[b.m]])[Γ.length + 1]? = _
    simp, hbr.compatible, hbr.joint⟩) (by simp; omega) (by simp) (fun B => rfl)
  have h5 := wellShaped_snoc h4 (x := .dot (Γ.length + 3) (Γ.length + 3)) (r := []) (fun e => ⟨b.m, by
    show (Γ ++ [[b.m, n]] ++ [[b.m]] ++ [[b.m]] ++ [[b.m]])[Γ.length + 3]? = _
    simp, by
    show (Γ ++ [[b.m, n]] ++ [[b.m]] ++ [[b.m]] ++ [[b.m]])[Γ.length + 3]? = _
    simp, rfl⟩) (by simp) (by simp) (fun B => rfl)
  simpa [Instr.extend, Batch.ops, Batch.shapes] using h5

theorem batches_shaped {n : Nat} (hn : 0 < n) {bs : List (Batch α)} (hb : ∀ b ∈ bs, b.OK n) {p : List (Instr α)} {Γ : List (List Nat)}
    (h : WellShaped [] [] p Γ) (h0 : Γ[0]? = some [n]) :
    WellShaped [] [] (p ++ program (batchCmds n Γ.length bs)) (Γ ++ bs.flatMap (Batch.shapes n)) := by
  induction bs generalizing p Γ with
  | nil => simpa [batchCmds, program] using h
  | cons b bs ih =>
    have lt : 0 < Γ.length := (List.getElem?_eq_some_iff.1 h0).1
    have := ih (fun b hb' => hb b (by simp [hb'])) (batch_shaped h hn h0 (hb b (by simp))) (by rw [List.getElem?_append_left lt]; exact h0)
    have e : (Γ ++ b.shapes n).length = Γ.length + 5 := by simp [Batch.shapes]
    rw [e, List.append_assoc, ← batch_program, List.append_assoc] at this
    exact this

theorem batches_legal {C : List Bool} {Γ : List (List Nat)} (n : Nat) (bs : List (Batch α)) (N : Nat) : Legal C Γ N (batchCmds n N bs) := by
  induction bs generalizing N with
  | nil => trivial
  | cons b bs ih =>
    refine legal_append (legal_ops (b.ops_no_setReq n N) N) ?_
    rw [program_ops]
    exact ⟨show N + 4 < N + 5 by omega, ih (N + 5)⟩

/-- `backward` gets through from tensor `i` whatever the strides of its gradient. -/
def PassesAll (Γ : List (List Nat)) (p : List (Instr α)) (i : Nat) : Prop := ∀ d, Passes Γ p i d

theorem passesAll_old {Γ : List (List Nat)} {p : List (Instr α)} {i : Nat} {x : Instr α} (hx : ∀ i b, x ≠ .setReq i b) (hi : i < (constructed p).length)
    (h : PassesAll Γ p i) : PassesAll Γ (p ++ [x]) i := fun d =>
  (passes_prefix (fun y hy => by rw [List.mem_singleton.1 hy]; exact hx) hi d).2 (h d)

theorem passesAll_new {Γ : List (List Nat)} {p : List (Instr α)} {x : Instr α} {N : Nat} (hN : (constructed p).length = N) {f : Flow}
    (hx : x.flow Γ (p.foldl (Instr.flow Γ) []) = p.foldl (Instr.flow Γ) [] ++ [f]) (hf : ∀ d, f.takes d) : PassesAll Γ (p ++ [x]) N := by
  intro d
  unfold Passes
  rw [List.foldl_append, List.foldl_cons, List.foldl_nil, hx, List.getD_eq_getElem?_getD, ← hN, ← flow_length Γ p,
    List.getElem?_append_right (Nat.le_refl _), Nat.sub_self]
  exact hf d

theorem batch_passes {Γ : List (List Nat)} {p : List (Instr α)} {n N : Nat} (hN : (constructed p).length = N) (h0 : 0 < N) (hp : PassesAll Γ p 0) (b : Batch α)
    (hg : Γ.getD (N + 1) [] = [b.m] ∧ Γ.getD (N + 2) [] = [b.m] ∧ Γ.getD (N + 3) [] = [b.m]) : PassesAll Γ (p ++ b.ops n N) (N + 4) := by
  obtain ⟨g1, g2, g3⟩ := hg
  have c1 : (constructed (p ++ [.leaf [b.m, n] b.x])).length = N + 1 := by rw [constructed_snoc p (by intro _ _ h; cases h), List.length_append, hN]; rfl
  have c2 : (constructed (p ++ [.leaf [b.m, n] b.x] ++ [.leaf [b.m] b.y])).length = N + 2 := by
    rw [constructed_snoc _ (by intro _ _ h; cases h), List.length_append, c1]; rfl
  have c3 : (constructed (p ++ [.leaf [b.m, n] b.x] ++ [.leaf [b.m] b.y] ++ [.matmul N 0])).length = N + 3 := by
    rw [constructed_snoc _ (by intro _ _ h; cases h), List.length_append, c2]; rfl
  have c4 : (constructed (p ++ [.leaf [b.m, n] b.x] ++ [.leaf [b.m] b.y] ++ [.matmul N 0] ++ [.bin .sub (N + 2) (N + 1)])).length = N + 4 := by
    rw [constructed_snoc _ (by intro _ _ h; cases h), List.length_append, c3]; rfl
  have hx0 : PassesAll Γ (p ++ [.leaf [b.m, n] b.x]) N := passesAll_new hN rfl (by intro d h; cases h)
  have hx := passesAll_old (x := .leaf [b.m] b.y) (by intro _ _ h; cases h) (by omega) hx0
  have hw := passesAll_old (x := .leaf [b.m] b.y) (by intro _ _ h; cases h) (by omega)
    (passesAll_old (x := .leaf [b.m, n] b.x) (by intro _ _ h; cases h) (by omega) hp)
  have hy0 : PassesAll Γ (p ++ [.leaf [b.m, n] b.x] ++ [.leaf [b.m] b.y]) (N + 1) := passesAll_new c1 rfl (by intro d h; cases h)
  have hm : PassesAll Γ (p ++ [.leaf [b.m, n] b.x] ++ [.leaf [b.m] b.y] ++ [.matmul N 0]) (N + 2) :=
    passesAll_new c2 rfl fun d _ => ⟨hx _, hw _⟩
  have hy := passesAll_old (x := .matmul N 0) (by intro _ _ h; cases h) (by omega) hy0
  have hr : PassesAll Γ (p ++ [.leaf [b.m, n] b.x] ++ [.leaf [b.m] b.y] ++ [.matmul N 0] ++ [.bin .sub (N + 2) (N + 1)]) (N + 3) := by
    refine passesAll_new c3 rfl fun d _ => ⟨fun hq => ⟨?_, hm _ hq⟩, fun hq => ⟨?_, hy _ hq⟩⟩
    · rw [flow_length, c3]; dsimp only; rw [g2, g3]; exact .inl rfl
    · rw [flow_length, c3]; dsimp only; rw [g1, g3]; exact .inl rfl
  have hd : PassesAll Γ (p ++ [.leaf [b.m, n] b.x] ++ [.leaf [b.m] b.y] ++ [.matmul N 0] ++ [.bin .sub (N + 2) (N + 1)] ++ [.dot (N + 3) (N + 3)]) (N + 4) :=
    passesAll_new c4 rfl fun d _ => ⟨hr _, hr _⟩
  simpa [Batch.ops] using hd

theorem ops_constructed (p : List (Instr α)) (n N : Nat) (b : Batch α) : (constructed (p ++ b.ops n N)).length = (constructed p).length + 5 := by
  have := legal_constructed (α := α) (p₀ := p) (c := (b.ops n N).map .op) (C := []) (Γ := []) (legal_ops (b.ops_no_setReq n N) _)
  rw [program_ops] at this
  exact this

theorem batches_pass {Γ : List (List Nat)} {n : Nat} {bs : List (Batch α)} {p : List (Instr α)} {N : Nat} (hN : (constructed p).length = N) (h0 : 0 < N)
    (hp : PassesAll Γ p 0) {Γ₀ : List (List Nat)} (hl : Γ₀.length = N) (hΓ : Γ = Γ₀ ++ bs.flatMap (Batch.shapes n)) :
    ∀ c ∈ batchCmds n N bs, c.passes Γ (p ++ program (batchCmds n N bs)) := by
  induction bs generalizing p N Γ₀ with
  | nil => intro c hc; cases hc
  | cons b bs ih =>
    have hg : ∀ i, i < 5 → Γ.getD (N + i) [] = (b.shapes n).getD i [] := by
      intro i hi
      rw [hΓ, List.flatMap_cons, List.getD_eq_getElem?_getD, List.getElem?_append_right (by omega), hl, Nat.add_sub_cancel_left,
        List.getElem?_append_left (by simpa [Batch.shapes] using hi), ← List.getD_eq_getElem?_getD]
    have hb := batch_passes (n := n) hN h0 hp b ⟨hg 1 (by decide), hg 2 (by decide), hg 3 (by decide)⟩
    have hlen : (constructed (p ++ b.ops n N)).length = N + 5 := by rw [ops_constructed, hN]
    have hp' : PassesAll Γ (p ++ b.ops n N) 0 := fun d => (passes_prefix (b.ops_no_setReq n N) (by omega) d).2 (hp d)
    have rest := ih hlen (by omega) hp' (Γ₀ := Γ₀ ++ b.shapes n) (by simp [Batch.shapes, hl]) (by rw [hΓ, List.flatMap_cons, List.append_assoc])
    rw [batch_program, ← List.append_assoc]
    intro c hc
    rcases List.mem_append.1 hc with hc | hc
    · obtain ⟨x, _, rfl⟩ := List.mem_map.1 hc
      trivial
    rcases List.mem_append.1 hc with hc | hc
    · rw [List.mem_singleton.1 hc]
      exact (passes_prefix (batches_no_setReq n bs (N + 5)) (by omega) _).2 (hb _)
    · exact rest c hc

end any

section field
variable {α : Type} [Field α]

/-! ### the gradient of each loss -/

section spec
variable {β : Type} [Zero β]

theorem push_get_last {σ : SpecState β} {i : Nat} (h : σ.env.length = i) (t : MT β) (d : Bool) : (σ.push t d).get i = (t, d) := by
  show (σ.env ++ [(t, d)]).getD i _ = _
  rw [List.getD_eq_getElem?_getD, ← h, List.getElem?_append_right (Nat.le_refl _), Nat.sub_self]
  rfl

theorem push_get_old {σ : SpecState β} {i : Nat} (h : i < σ.env.length) (t : MT β) (d : Bool) : (σ.push t d).get i = σ.get i := by
  show (σ.env ++ [(t, d)]).getD i _ = σ.env.getD i _
  rw [List.getD_eq_getElem?_getD, List.getElem?_append_left h, List.getD_eq_getElem?_getD]

omit [Zero β] in
theorem push_length (σ : SpecState β) (t : MT β) (d : Bool) : (σ.push t d).env.length = σ.env.length + 1 := by
  show (σ.env ++ [(t, d)]).length = _
  simp

variable [Add β] [Sub β] [Mul β] [Div β] [Neg β]

theorem batch_elem (I : Interp α β) {σ : SpecState β} {n N : Nat} (hl : σ.env.length = N) (h0 : 0 < N) {w : List α}
    (hw : (σ.get 0).1 = ⟨[n], fun idx => I.var 0 idx (I.const (w.getD (rank idx [n]) 0))⟩) (b : Batch α) (idx : List Nat) :
    (((b.ops n N).foldl (SpecState.step I 0) σ).get (N + 4)).1.elem idx =
      innerProduct b.m (fun i => innerProduct n (fun j => I.const (b.x.getD (i * n + j) 0)) (fun j => I.var 0 [j] (I.const (w.getD j 0))) - I.const (b.y.getD i 0))
        (fun i => innerProduct n (fun j => I.const (b.x.getD (i * n + j) 0)) (fun j => I.var 0 [j] (I.const (w.getD j 0))) - I.const (b.y.getD i 0)) := by
  refine Eq.trans ?_ (fit_elem I b.m n b.x b.y w idx)
  rw [fit_tensor]
  refine congrArg (fun t : MT β => t.elem idx) ?_
  simp only [Batch.ops, List.foldl_cons, List.foldl_nil, SpecState.step]
  set σ1 := σ.push ⟨[b.m, n], fun idx => I.const (b.x.getD (rank idx [b.m, n]) 0)⟩ false with e1
  have l1 : σ1.env.length = N + 1 := by rw [e1, push_length, hl]
  set σ2 := σ1.push ⟨[b.m], fun idx => I.const (b.y.getD (rank idx [b.m]) 0)⟩ false with e2
  have l2 : σ2.env.length = N + 2 := by rw [e2, push_length, l1]
  have g0 : (σ2.get 0).1 = ⟨[n], fun idx => I.var 0 idx (I.const (w.getD (rank idx [n]) 0))⟩ := by
    rw [e2, push_get_old (by omega), e1, push_get_old (by omega), hw]
  have gx : (σ2.get N).1 = ⟨[b.m, n], fun idx => I.const (b.x.getD (rank idx [b.m, n]) 0)⟩ := by
    rw [e2, push_get_old (by omega), e1, push_get_last hl]
  have gy : (σ2.get (N + 1)).1 = ⟨[b.m], fun idx => I.const (b.y.getD (rank idx [b.m]) 0)⟩ := by rw [e2, push_get_last l1]
  have gy' : ∀ (t : MT β) (d : Bool), ((σ2.push t d).get (N + 1)).1 = ⟨[b.m], fun idx => I.const (b.y.getD (rank idx [b.m]) 0)⟩ := fun t d => by
    rw [push_get_old (by omega), gy]
  rw [push_get_last (by rw [push_length, push_length, l2])]
  dsimp only
  rw [push_get_last (by rw [push_length, l2])]
  dsimp only
  rw [push_get_last l2, gy']
  dsimp only
  rw [gx, g0]

end spec

theorem batch_eps {v : Nat → List Nat → α} {p : List (Instr α)} {n N : Nat} (hl : (constructed p).length = N) (h0 : 0 < N) {w : List α}
    (hw : ((specRun (Dual.interp v) 0 p).get 0).1 = ⟨[n], fun idx => (Dual.interp v).var 0 idx ((Dual.interp v).const (w.getD (rank idx [n]) 0))⟩)
    (b : Batch α) (idx : List Nat) :
    (((specRun (Dual.interp v) 0 (p ++ b.ops n N)).get (N + 4)).1.elem idx).eps =
      2 * ∑ i ∈ Finset.range b.m, fitError n b.x b.y w i * ∑ j ∈ Finset.range n, b.x.getD (i * n + j) 0 * v 0 [j] := by
  have e : specRun (Dual.interp v) 0 (p ++ b.ops n N) = (b.ops n N).foldl (SpecState.step (Dual.interp v) 0) (specRun (Dual.interp v) 0 p) := by
    unfold specRun
    rw [List.foldl_append]
  rw [e, batch_elem (Dual.interp v) (by rw [spec_length, hl]) h0 hw]
  simp only [fit_dual]
  rw [dual_innerProduct]
  show ∑ i ∈ Finset.range b.m, _ = _
  rw [Finset.mul_sum]
  exact Finset.sum_congr rfl fun i _ => by ring

/-- Entry `j` of `xᵀ (x w - y)`. -/
def fitSlope (n : Nat) (w : List α) (j m : Nat) (x y : List α) : α := ∑ i ∈ Finset.range m, x.getD (i * n + j) 0 * fitError n x y w i

omit [Field α] in
theorem getD_left {l l' : List α} {i : Nat} {d : α} (h : i < l.length) : (l ++ l').getD i d = l.getD i d := by
  rw [List.getD_eq_getElem?_getD, List.getElem?_append_left h, List.getD_eq_getElem?_getD]

omit [Field α] in
theorem getD_right {l l' : List α} {i : Nat} {d : α} (h : l.length ≤ i) : (l ++ l').getD i d = l'.getD (i - l.length) d := by
  rw [List.getD_eq_getElem?_getD, List.getElem?_append_right h, List.getD_eq_getElem?_getD]

theorem fitError_append_left {n m : Nat} {x y : List α} (hx : x.length = m * n) (hy : y.length = m) (X Y w : List α) {i : Nat} (hi : i < m) :
    fitError n (x ++ X) (y ++ Y) w i = fitError n x y w i := by
  unfold fitError
  rw [getD_left (by omega)]
  congr 1
  refine Finset.sum_congr rfl fun j hj => ?_
  have hj := Finset.mem_range.1 hj
  rw [getD_left (by rw [hx]; nlinarith [Nat.mul_le_mul_right n (Nat.succ_le_of_lt hi)])]

theorem fitError_append_right {n m : Nat} {x y : List α} (hx : x.length = m * n) (hy : y.length = m) (X Y w : List α) (i : Nat) :
    fitError n (x ++ X) (y ++ Y) w (m + i) = fitError n X Y w i := by
  unfold fitError
  rw [getD_right (by omega), hy, Nat.add_sub_cancel_left]
  congr 1
  refine Finset.sum_congr rfl fun j hj => ?_
  have e : (m + i) * n + j = m * n + (i * n + j) := by ring
  rw [e, getD_right (by omega), hx, Nat.add_sub_cancel_left]

theorem fitSlope_append {n m : Nat} {x y : List α} (hx : x.length = m * n) (hy : y.length = m) (w : List α) {j : Nat} (hj : j < n) (M : Nat) (X Y : List α) :
    fitSlope n w j (m + M) (x ++ X) (y ++ Y) = fitSlope n w j m x y + fitSlope n w j M X Y := by
  unfold fitSlope
  rw [Finset.sum_range_add]
  congr 1
  · refine Finset.sum_congr rfl fun i hi => ?_
    have hi := Finset.mem_range.1 hi
    rw [fitError_append_left hx hy X Y w hi, getD_left (by rw [hx]; nlinarith [Nat.mul_le_mul_right n (Nat.succ_le_of_lt hi)])]
  · refine Finset.sum_congr rfl fun i _ => ?_
    have e : (m + i) * n + j = m * n + (i * n + j) := by ring
    rw [fitError_append_right hx hy X Y w i, e, getD_right (by omega), hx, Nat.add_sub_cancel_left]

/-- All rows, and all targets. -/
def Batch.join : List (Batch α) → Batch α
  | [] => ⟨0, [], []⟩
  | b :: bs => ⟨b.m + (Batch.join bs).m, b.x ++ (Batch.join bs).x, b.y ++ (Batch.join bs).y⟩

omit [Field α] in
theorem Batch.join_ok {n : Nat} {bs : List (Batch α)} (h : ∀ b ∈ bs, b.OK n) :
    (Batch.join bs).x.length = (Batch.join bs).m * n ∧ (Batch.join bs).y.length = (Batch.join bs).m := by
  induction bs with
  | nil => simp [Batch.join]
  | cons b bs ih =>
    obtain ⟨h1, h2⟩ := ih fun b hb => h b (by simp [hb])
    obtain ⟨_, h3, h4⟩ := h b (by simp)
    simp [Batch.join, h1, h2, h3, h4, Nat.add_mul]

theorem Batch.join_slope {n : Nat} {bs : List (Batch α)} (h : ∀ b ∈ bs, b.OK n) (w : List α) {j : Nat} (hj : j < n) :
    fitSlope n w j (Batch.join bs).m (Batch.join bs).x (Batch.join bs).y = (bs.map fun b => fitSlope n w j b.m b.x b.y).sum := by
  induction bs with
  | nil => simp [Batch.join, fitSlope]
  | cons b bs ih =>
    rw [List.map_cons, List.sum_cons, ← ih fun b hb => h b (by simp [hb])]
    exact fitSlope_append (h b (by simp)).2.1 (h b (by simp)).2.2 w hj _ _ _

variable [Build]

theorem batch_collected {n : Nat} {w : List α} {bs : List (Batch α)} {p : List (Instr α)} {N : Nat} (hl : (constructed p).length = N) (h0 : 0 < N)
    (hw : ∀ v, ((specRun (Dual.interp v) 0 p).get 0).1 = ⟨[n], fun idx => (Dual.interp v).var 0 idx ((Dual.interp v).const (w.getD (rank idx [n]) 0))⟩)
    {Γ : List (List Nat)} (hΓ : Γ.length = N) (h : WellShaped [] [] p Γ) (hb : ∀ b ∈ bs, b.OK n) (hn : 0 < n) (hΓ0 : Γ[0]? = some [n]) {j : Nat} (hj : j < n) (F : α) :
    collected (p ++ program (batchCmds n N bs)) 0 0 [j] F (batchCmds n N bs) = F + 2 * (bs.map fun b => fitSlope n w j b.m b.x b.y).sum := by
  induction bs generalizing p N F Γ with
  | nil => simp [batchCmds, collected]
  | cons b bs ih =>
    have hops := b.ops_no_setReq n N
    have hrest := batches_no_setReq n bs (N + 5)
    have hlen : (constructed (p ++ b.ops n N)).length = N + 5 := by rw [ops_constructed, hl]
    have h' : WellShaped [] [] (p ++ b.ops n N) (Γ ++ b.shapes n) := by rw [← hΓ]; exact batch_shaped h hn hΓ0 (hb b (by simp))
    rw [batch_program, ← List.append_assoc]
    show collected _ 0 0 [j] F ((b.ops n N).map .op ++ ([Cmd.backward (N + 4)] ++ batchCmds n (N + 5) bs)) = _
    rw [collected_append, collected_append, collected_ops]
    have e : collected (p ++ b.ops n N ++ program (batchCmds n (N + 5) bs)) 0 0 [j] F [Cmd.backward (N + 4)] = F + 2 * fitSlope n w j b.m b.x b.y := by
      rw [collected_extend hrest 0 0 [j] F (c := [Cmd.backward (N + 4)]) (fun y hy => by
        rcases hy with hy | ⟨g, hy⟩
        · have := List.mem_singleton.1 hy; cases this; omega
        · have := List.mem_singleton.1 hy; cases this)]
      show F + pair _ _ _ = _
      rw [shaped_tensor h' (s := []) (by rw [List.getElem?_append_right (by omega), hΓ, Nat.add_sub_cancel_left]; rfl), pair_nil, one_mul]
      congr 1
      refine (batch_eps hl h0 (hw _) b []).trans ?_
      congr 1
      refine Finset.sum_congr rfl fun i _ => ?_
      rw [mul_comm]
      congr 1
      rw [Finset.sum_eq_single j]
      · simp [unitDir]
      · intro b _ hb; simp [unitDir, hb]
      · intro h; exact absurd (Finset.mem_range.2 hj) h
    rw [e, ih hlen (by omega) (fun v => by rw [spec_get_append _ _ _ hops (by omega)]; exact hw v) (Γ := Γ ++ b.shapes n) (by simp [Batch.shapes, hΓ]) h'
      (fun b hb' => hb b (by simp [hb'])) (by rw [List.getElem?_append_left (by omega)]; exact hΓ0), List.map_cons, List.sum_cons]
    ring

/-- **C98.** Fitting `w` to data in any number of batches of any sizes: after one `loss.backward()` per batch, the gradient of `w` is that after
`loss.backward()` on the loss over all rows at once (C93). -/
theorem C98_batches {n : Nat} (hn : 0 < n) {w : List α} (hw : w.length = n) {bs : List (Batch α)} (hne : bs ≠ []) (hb : ∀ b ∈ bs, b.OK n) :
    ∃ (σ τ : RunState α) (t u : Tensor α) (g g' : Arr α) (f : List Nat → α),
      runSession ((weights n w).map .op ++ batchCmds n 1 bs) = .ok σ ∧
      runSession (fitSession (Batch.join bs).m n (Batch.join bs).x (Batch.join bs).y w) = .ok τ ∧
      σ.env[0]? = some t ∧ τ.env[0]? = some u ∧ t.gradient σ.store = some g ∧ u.gradient τ.store = some g' ∧ g.Denotes [n] f ∧ g'.Denotes [n] f := by
  have hm : 0 < (Batch.join bs).m := by
    cases bs with
    | nil => exact absurd rfl hne
    | cons b bs => have := (hb b (by simp)).1; simp only [Batch.join]; omega
  obtain ⟨jx, jy⟩ := Batch.join_ok hb
  obtain ⟨τ, u, loss, g', t1, t2, _, _, t5, t6⟩ := C93_gradient hm hn jx jy hw
  have h0 : WellShaped [] [] (weights n w) [[n]] :=
    ⟨[n], ⟨by simpa [numel] using hw, rfl⟩, by simp; omega, by simp, rfl, [n], rfl, by simp; omega, by simp, rfl, rfl⟩
  have hsh := batches_shaped hn hb h0 rfl
  have hc : (constructed (weights n w)).length = 1 := rfl
  have hpass := batches_pass (Γ := [[n]] ++ bs.flatMap (Batch.shapes n)) (n := n) (bs := bs) (p := weights n w) hc (by decide)
    (by intro d; simp [weights, Passes, Instr.flow, Flow.takes]) (Γ₀ := [[n]]) rfl rfl
  obtain ⟨σ, s1, s2, s3, s4⟩ := (C91_loop (p₀ := weights n w) (body := batchCmds n 1 bs) hsh (batches_legal n bs _)).1 hpass
  have hnos := batches_no_setReq n bs 1
  have hget : ∀ {β : Type} [Add β] [Sub β] [Mul β] [Div β] [Neg β] [Zero β] (I : Interp α β),
      (specRun I 0 (weights n w ++ program (batchCmds n 1 bs))).get 0 = (specRun I 0 (weights n w)).get 0 := fun I => spec_get_append I 0 _ hnos (by rw [hc]; decide)
  obtain ⟨t, k, g, a1, a2, a3, a4⟩ := s4 0 (by rw [prefix_get (constructed_append _ _) (by rw [hc]; decide)]; rfl)
    (by unfold requiresOf; rw [hget]; rfl)
  have e1 : (tensorOf (weights n w ++ program (batchCmds n 1 bs)) 0).shape = [n] := by unfold tensorOf; rw [hget]; rfl
  obtain rfl : k = 0 := isVariable_unique (by rw [e1]; simp; omega) a2 (by intro v idx _; rw [hget]; rfl)
  rw [e1] at a4
  refine ⟨σ, τ, t, u, g, g', _, s1, t1, a1, t2, a3, t5, a4, t6.congr fun J hJ => ?_⟩
  obtain ⟨j, hj, rfl⟩ := inB_one hJ
  have := batch_collected (n := n) (w := w) (bs := bs) (p := weights n w) hc (by decide) (fun v => rfl) rfl h0 hb hn rfl hj 0
  rw [this, zero_add, ← Batch.join_slope hb w hj]
  rfl

/-- **C98.** The order of the batches does not matter. -/
theorem C98_order {n : Nat} (hn : 0 < n) {w : List α} (hw : w.length = n) {bs bs' : List (Batch α)} (hne : bs ≠ []) (hb : ∀ b ∈ bs, b.OK n) (hp : bs.Perm bs') :
    ∃ (σ τ : RunState α) (t u : Tensor α) (g g' : Arr α) (f : List Nat → α),
      runSession ((weights n w).map .op ++ batchCmds n 1 bs) = .ok σ ∧ runSession ((weights n w).map .op ++ batchCmds n 1 bs') = .ok τ ∧
      σ.env[0]? = some t ∧ τ.env[0]? = some u ∧ t.gradient σ.store = some g ∧ u.gradient τ.store = some g' ∧ g.Denotes [n] f ∧ g'.Denotes [n] f := by
  have hb' : ∀ b ∈ bs', b.OK n := fun b h => hb b (hp.mem_iff.2 h)
  have hne' : bs' ≠ [] := fun e => hne (by rw [e] at hp; exact hp.eq_nil)
  have hm : ∀ {bs : List (Batch α)}, bs ≠ [] → (∀ b ∈ bs, b.OK n) → 0 < (Batch.join bs).m := by
    intro bs hne hb
    cases bs with
    | nil => exact absurd rfl hne
    | cons b bs => have := (hb b (by simp)).1; simp only [Batch.join]; omega
  obtain ⟨σ, ρ, t, r, g, q, f, a1, a2, a3, a4, a5, a6, a7, a8⟩ := C98_batches hn hw hne hb
  obtain ⟨τ, ρ', u, r', g', q', f', b1, b2, b3, b4, b5, b6, b7, b8⟩ := C98_batches hn hw hne' hb'
  obtain ⟨_, _, _, _, c1, c2, _, _, c5, c6⟩ := C93_gradient (hm hne hb) hn (Batch.join_ok hb).1 (Batch.join_ok hb).2 hw
  obtain ⟨_, _, _, _, d1, d2, _, _, d5, d6⟩ := C93_gradient (hm hne' hb') hn (Batch.join_ok hb').1 (Batch.join_ok hb').2 hw
  rw [a2] at c1; cases c1
  rw [b2] at d1; cases d1
  rw [a4] at c2; cases c2
  rw [b4] at d2; cases d2
  rw [a6] at c5; cases c5
  rw [b6] at d5; cases d5
  refine ⟨σ, τ, t, u, g, g', f, a1, b1, a3, b3, a5, b5, a7, b7.congr fun J hJ => ?_⟩
  have e1 := Option.some.inj ((a8.2.2 J hJ).symm.trans (c6.2.2 J hJ))
  have e2 := Option.some.inj ((b8.2.2 J hJ).symm.trans (d6.2.2 J hJ))
  rw [e1, e2]
  obtain ⟨j, hj, rfl⟩ := inB_one hJ
  show 2 * fitSlope n w j _ _ _ = 2 * fitSlope n w j _ _ _
  rw [Batch.join_slope hb w hj, Batch.join_slope hb' w hj, (hp.map _).sum_eq]

omit [Field α] in
/-- **C98, elements of any type**, so the floats as well: the session with the batches completes, and so does the one with all rows. -/
theorem C98_completes [Zero α] [One α] [Add α] [Sub α] [Mul α] [Div α] [Neg α] [MulAdd α] {n : Nat} (hn : 0 < n) {w : List α} (hw : w.length = n) {bs : List (Batch α)}
    (hb : ∀ b ∈ bs, b.OK n) : ∃ σ, runSession ((weights n w).map .op ++ batchCmds n 1 bs) = .ok σ := by
  have h0 : WellShaped [] [] (weights n w) [[n]] :=
    ⟨[n], ⟨by simpa [numel] using hw, rfl⟩, by simp; omega, by simp, rfl, [n], rfl, by simp; omega, by simp, rfl, rfl⟩
  exact (C91_any (p₀ := weights n w) (body := batchCmds n 1 bs) (batches_shaped hn hb h0 rfl) (batches_legal n bs _)).1.2
    (batches_pass (Γ := [[n]] ++ bs.flatMap (Batch.shapes n)) (n := n) (bs := bs) (p := weights n w) rfl (by decide)
      (by intro d; simp [weights, Passes, Instr.flow, Flow.takes]) (Γ₀ := [[n]]) rfl rfl)

omit [Field α] in
/-- **C93, elements of any type**: the session completes. -/
theorem C93_completes [Zero α] [One α] [Add α] [Sub α] [Mul α] [Div α] [Neg α] [MulAdd α] {m n : Nat} (hm : 0 < m) (hn : 0 < n) {x y w : List α} (hx : x.length = m * n)
    (hy : y.length = m) (hw : w.length = n) : ∃ σ, runSession (fitSession m n x y w) = .ok σ := by
  have hprog : program (fitForward.map Cmd.op ++ [.backward 5] : List (Cmd α)) = fitForward := rfl
  have main := C91_any (p₀ := fitHeader m n x y w) (body := fitForward.map Cmd.op ++ [Cmd.backward 5]) (Γ := [[n], [m, n], [m], [m], [m], []])
  rw [hprog] at main
  have legal : ∀ C, Legal C [[n], [m, n], [m], [m], [m], []] 3 ([.op (.matmul 1 0), .op (.bin .sub 3 2), .op (.dot 4 4), .backward 5] : List (Cmd α)) := fun C =>
    ⟨(by intro _ _ h; cases h), (by intro _ _ h; cases h), (by intro _ _ h; cases h), show 5 < 6 by decide, trivial⟩
  exact (main (fit_shaped hm hn hx hy hw) (legal _)).1.2
    (by simp [Cmd.passes, Passes, Instr.flow, Flow.takes, Flow.receives, KeepsAxis, evenStrides, rowStrides, numel, fitHeader, fitForward])

/-- Two rows and one row, with two columns. -/
example : (0 : Nat) < 2 ∧ [(1 : ℚ), 0].length = 2 ∧ [(⟨2, [1, 2, 3, 4], [1, 1]⟩ : Batch ℚ), ⟨1, [5, 6], [0]⟩] ≠ [] ∧
    (∀ b ∈ [(⟨2, [1, 2, 3, 4], [1, 1]⟩ : Batch ℚ), ⟨1, [5, 6], [0]⟩], b.OK 2) ∧
    Batch.join [(⟨2, [1, 2, 3, 4], [1, 1]⟩ : Batch ℚ), ⟨1, [5, 6], [0]⟩] = ⟨3, [1, 2, 3, 4, 5, 6], [1, 1, 0]⟩ :=
  ⟨by decide, rfl, by simp, by simp [Batch.OK], rfl⟩

end field

end Verif
