import Verif.Props.GradientStatus

/-!
# C46: whose gradient a computed tensor reports

`C46_computed_partial` names the operations whose results report no gradient. The results of the others, scalar `+` and `-`, `view` and
`reshape` to the present shape, report the gradient of their operand, and `zero_gradient` on them resets that (`C46_identity_exact`).
Both together determine whose gradient any computed tensor reports.
-/

namespace Verif

variable {α : Type} [Field α] [Build]

/-- **C46, exactly.** After any session, the results of scalar `+` and `-`, of `view` and of `reshape` to the present shape report the
gradient of their operand (none, if it has none), now and after anything that is done to the gradients later; and `zero_gradient` does
to all gradients what it does on the operand. -/
theorem C46_identity_exact {c : List (Cmd α)} {σ : RunState α} (hr : runSession c = .ok σ) {a r : Tensor α} (ha : a ∈ σ.env) {op : SOp}
    {v : SView} {x : α} {shared : Bool}
    (h : ((op = .add ∨ op = .sub) ∧ Tensor.binScalar op a x = .ok r) ∨
      ((v = .view ∨ v = .reshape a.arr.shape) ∧ (a.viewOp v = .ok r ∨ a.intoViewOp shared v = .ok r))) (st : Store α) :
    r.gradient st = a.gradient st ∧ r.zeroGradient st = a.zeroGradient st := by
  have hg : r.gradFn = a.gradFn := by
    have hmk : ∀ b : Arr α, (Tensor.mk' b a.requiresGrad a.gradFn).gradFn = a.gradFn := fun b => by
      unfold Tensor.mk'
      cases hq : a.requiresGrad with
      | true => rfl
      | false => rw [(leaf_session hr a ha).2.2 hq]; rfl
    have hv : (v = .view ∨ v = .reshape a.arr.shape) → v.node a = a.gradFn := by
      rintro (rfl | rfl)
      · rfl
      · simp [SView.node]
    rcases h with ⟨h1, h⟩ | ⟨h1, h | h⟩
    · obtain ⟨b, _, h⟩ := bind_eq_ok.1 h
      cases h
      rcases h1 with rfl | rfl <;> exact hmk b
    · obtain ⟨b, _, h⟩ := bind_eq_ok.1 h
      cases h
      rw [hv h1]
      exact hmk b
    · obtain ⟨_, _, h⟩ := bind_eq_ok.1 h
      obtain ⟨b, _, h⟩ := bind_eq_ok.1 h
      cases h
      rw [hv h1]
      exact hmk b
  unfold Tensor.gradient Tensor.zeroGradient
  rw [hg]
  exact ⟨rfl, rfl⟩

omit [Build] in
example [k : Build] : ∃ (σ : RunState ℚ) (x r : Tensor ℚ), runSession smallSession = .ok σ ∧ σ.env[0]? = some x ∧
    Tensor.binScalar .add x 1 = .ok r ∧ r.gradient σ.store = x.gradient σ.store := by
  have ⟨σ, x, r, h1, h2, h3⟩ : ∃ (σ : RunState ℚ) (x r : Tensor ℚ), runSession smallSession = .ok σ ∧ σ.env[0]? = some x ∧
      Tensor.binScalar .add x 1 = .ok r := by
    obtain ⟨l⟩ := k
    cases l <;> with_unfolding_all exact ⟨_, _, _, rfl, rfl, rfl⟩
  exact ⟨σ, x, r, h1, h2, h3, (C46_identity_exact (v := .view) (shared := false) h1 (List.mem_of_getElem? h2) (.inl ⟨.inl rfl, h3⟩) _).1⟩

end Verif
