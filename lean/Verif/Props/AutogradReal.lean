import Verif.Props.Autograd
import Verif.Spec.Curves

/-! # C40 over the reals: gradients are derivatives in the sense of analysis -/

namespace Verif

theorem sim_curve (v : Nat → List Nat → ℝ) :
    Sim (fun (d : Dual ℝ) (c : Curve) => c.f 0 = d.re ∧ (c.ok → HasDerivAt c.f d.eps 0)) (Dual.interp v) (Curve.interp v) where
  zero := ⟨rfl, fun _ => hasDerivAt_const _ _⟩
  add := by
    rintro x y x' y' ⟨h1, h2⟩ ⟨h3, h4⟩
    exact ⟨congrArg₂ (· + ·) h1 h3, fun h => (h2 h.1).add (h4 h.2)⟩
  sub := by
    rintro x y x' y' ⟨h1, h2⟩ ⟨h3, h4⟩
    exact ⟨congrArg₂ (· - ·) h1 h3, fun h => (h2 h.1).sub (h4 h.2)⟩
  mul := by
    rintro x y x' y' ⟨h1, h2⟩ ⟨h3, h4⟩
    refine ⟨congrArg₂ (· * ·) h1 h3, fun h => ?_⟩
    have := (h2 h.1).mul (h4 h.2)
    rw [h1, h3, add_comm] at this
    exact this
  div := by
    rintro x y x' y' ⟨h1, h2⟩ ⟨h3, h4⟩
    refine ⟨congrArg₂ (· / ·) h1 h3, fun h => ?_⟩
    have := (h2 h.1.1).div (h4 h.1.2) h.2
    rw [h1, h3, pow_two] at this
    exact this
  neg := by
    rintro x x' ⟨h1, h2⟩
    exact ⟨congrArg (- ·) h1, fun h => (h2 h).neg⟩
  const := fun c => ⟨rfl, fun _ => hasDerivAt_const _ _⟩
  var := by
    rintro k idx x x' ⟨h1, _⟩
    refine ⟨?_, fun _ => ?_⟩
    · show x'.f 0 + 0 * v k idx = x.re
      rw [zero_mul, add_zero, h1]
    · have := ((hasDerivAt_id (0 : ℝ)).mul_const (v k idx)).const_add (x'.f 0)
      rw [one_mul] at this
      exact this
  cut := fun x x' h => ⟨h.1, fun _ => hasDerivAt_const _ _⟩

/-- Whether a division by zero occurs does not depend on the direction. -/
theorem sim_ok (v : Nat → List Nat → ℝ) :
    Sim (fun (a b : Curve) => a.f 0 = b.f 0 ∧ (a.ok ↔ b.ok)) (Curve.interp v) (Curve.interp fun _ _ => 0) where
  zero := ⟨rfl, Iff.rfl⟩
  add := by rintro x y x' y' ⟨h1, h2⟩ ⟨h3, h4⟩; exact ⟨congrArg₂ (· + ·) h1 h3, and_congr h2 h4⟩
  sub := by rintro x y x' y' ⟨h1, h2⟩ ⟨h3, h4⟩; exact ⟨congrArg₂ (· - ·) h1 h3, and_congr h2 h4⟩
  mul := by rintro x y x' y' ⟨h1, h2⟩ ⟨h3, h4⟩; exact ⟨congrArg₂ (· * ·) h1 h3, and_congr h2 h4⟩
  div := by
    rintro x y x' y' ⟨h1, h2⟩ ⟨h3, h4⟩
    exact ⟨congrArg₂ (· / ·) h1 h3, and_congr (and_congr h2 h4) (by rw [h3])⟩
  neg := by rintro x x' ⟨h1, h2⟩; exact ⟨congrArg (- ·) h1, h2⟩
  const := fun _ => ⟨rfl, Iff.rfl⟩
  var := by
    rintro k idx x x' ⟨h1, h2⟩
    refine ⟨?_, h2⟩
    show x.f 0 + 0 * v k idx = x'.f 0 + 0 * 0
    rw [zero_mul, zero_mul, h1]
  cut := fun x x' h => ⟨h.1, h.2⟩

/-- The formal Jacobian is the derivative. -/
theorem jacobian_hasDerivAt {p : List (Instr ℝ)} {y k : Nat} {J idx : List Nat} (h : Defined p y idx) :
    HasDerivAt (movedElement p y k J idx) (jacobian p y k J idx) 0 := by
  have hok := ((((sim_ok (unitDir k J)).run 0 p).2.2 y).2.2 idx).2.2 h
  exact ((((sim_curve (unitDir k J)).run 0 p).2.2 y).2.2 idx).2 hok

/-- At `τ = 0` the moved element is the element. -/
theorem movedElement_zero (p : List (Instr ℝ)) (y k : Nat) (J idx : List Nat) : movedElement p y k J idx 0 = (tensorOf p y).elem idx := by
  have h := ((((sim_curve (unitDir k J)).run 0 p).2.2 y).2.2 idx).1
  exact h.trans ((dual_value p (unitDir k J) y).2.2 idx)

/-- **C40** over the reals. After any session without division by zero, if `y.backward_with(g)` completes then element `J` of
the gradient of a tensor `x` (variable `k` of the program) increases by `Σ_idx g[idx] * ∂y[idx]/∂x[J]`, where the
partial derivative is the limit of difference quotients. -/
theorem C40_analytic_partial [Build] {c : List (Cmd ℝ)} {σ σ' : RunState ℝ} (hc : ∀ x ∈ c, x.Fine σ.env) (hr : runSession c = .ok σ)
    {y : Nat} {t : Tensor ℝ} (ht : σ.env[y]? = some t) {g : Arr ℝ} {G : List Nat → ℝ} (hw : g.WF)
    (hg : g.Denotes t.arr.shape G) (hdef : ∀ idx, InB idx t.arr.shape → Defined (program c) y idx)
    (hb : σ.exec (.backwardWith y g) = .ok σ')
    {i : Nat} {x : Tensor ℝ} (hx : σ.env[i]? = some x) {gx : Arr ℝ} (hgx : x.gradient σ.store = some gx) :
    ∃ k gx' F, IsVariable (program c) i k ∧ x.gradient σ'.store = some gx' ∧ gx.Denotes x.arr.shape F ∧
      gx'.Denotes x.arr.shape (fun J => F J + pair t.arr.shape G (fun idx => deriv (movedElement (program c) y k J idx) 0)) := by
  obtain ⟨k, gx', F, h1, h2, h3, h4⟩ := C40_vjp_partial hc hr ht hw hg hb hx hgx
  refine ⟨k, gx', F, h1, h2, h3, h4.congr fun J _ => ?_⟩
  rw [pair_congr (fun _ _ => rfl) fun idx hi => (jacobian_hasDerivAt (J := J) (hdef idx hi)).deriv]

/-! `y = x / w` with `x = [1, 2]`, `w = [3, 4]`: all elements are defined. -/

example : Defined [.leaf [2] [1, 2], .setReq 0 true, .leaf [2] [3, 4], .bin .div 0 1] 2 [1] := by
  show ((True ∧ True) ∧ (4 : ℝ) ≠ 0)
  norm_num

example (τ : ℝ) : movedElement [.leaf [2] [1, 2], .setReq 0 true, .leaf [2] [3, 4], .bin .div 0 1] 2 0 [1] [1] τ = (2 + τ * 1) / 4 := rfl

end Verif
