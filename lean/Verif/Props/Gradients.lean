import Verif.Props.Autograd

/-!
# C41–C44, C46: gradients over sessions

The hypotheses are those of C40, see Verif/Props/Autograd.lean.
-/

namespace Verif

variable {α : Type} [Field α] [Build]

/-! ## C41 -/

/-- **C41.** After any session, the gradient of a tensor has the shape of the tensor. -/
theorem C41_shape_partial {c : List (Cmd α)} {σ : RunState α} (hc : ∀ x ∈ c, x.Fine σ.env) (hr : runSession c = .ok σ)
    {i : Nat} {x : Tensor α} (hx : σ.env[i]? = some x) {gx : Arr α} (hgx : x.gradient σ.store = some gx) :
    gx.shape = x.arr.shape ∧ ∃ F, gx.Denotes x.arr.shape F := by
  obtain ⟨sh, h⟩ := Weak.session_inv hc hr
  obtain ⟨k, a, hk, ha, rfl⟩ := gradient_some hgx
  obtain ⟨hsk, _⟩ := Weak.acc_inv h hx hk
  have hsh : a.shape = x.arr.shape := by
    have := (h.store.2 k a ha).2
    rw [hsk] at this; exact (Option.some.inj this).symm
  obtain ⟨F, hF⟩ := h.store.denotes ha
  have := h.store.view ha hF
  rw [hsh] at this
  exact ⟨this.1, F, this⟩

/-! `x : [2, 1]`, `w : [3]`, `y = x * w` has shape `[2, 3]`; the gradients have the operands' shapes. -/

omit [Build] in
example [k : Build] : ∃ σ : RunState ℚ, runSession [.op (.leaf [2, 1] [1, 2]), .op (.setReq 0 true), .op (.leaf [3] [3, 4, 5]), .op (.setReq 1 true),
    .op (.bin .mul 0 1), .backward 2, .backward 2, .zeroGradient 1] = .ok σ ∧ SmallEnv σ.env ∧
    σ.env.map (fun t => (t.gradient σ.store).map (·.shape)) = [some [2, 1], some [3], none] := by
  obtain ⟨l⟩ := k
  cases l <;> with_unfolding_all exact ⟨_, rfl, by unfold SmallEnv SmallShape; decide, rfl⟩

/-! ## C42 -/

omit [Build] in
/-- Freshly allocated arrays with the same elements are the same. -/
theorem fresh_unique {a b : Arr α} (ha : Fresh a) (hb : Fresh b) {F : List Nat → α} (hsh : b.shape = a.shape) (h1 : a.Denotes a.shape F)
    (h2 : b.Denotes a.shape F) : a = b := by
  obtain ⟨s, data, hl, rfl⟩ := ha
  obtain ⟨s', data', hl', rfl⟩ := hb
  obtain rfl : s' = s := hsh
  have e : data = data' := by
    apply List.ext_getElem?
    intro k
    by_cases hk : k < numel s'
    · have hi : InB (unrank s' k) s' := InB_unrank hk
      have d1 := denotes_unique (denotes_fromContiguous_getD hl (0 : α)) h1 hi
      have d2 := denotes_unique (denotes_fromContiguous_getD hl' (0 : α)) h2 hi
      rw [rank_unrank hk, List.getD_eq_getElem?_getD] at d1 d2
      rw [← d2] at d1
      rw [List.getElem?_eq_getElem (by omega), List.getElem?_eq_getElem (by omega)] at d1 ⊢
      exact congrArg some d1
    · rw [List.getElem?_eq_none (by omega), List.getElem?_eq_none (by omega)]
  rw [e]

omit [Build] in
/-- The accumulators after a step are determined by the increments. -/
theorem adds_unique {sh : List (List Nat)} {st st₁ st₂ : Store α} {D₁ D₂ : Nat → List Nat → α} (hst : StoreOK sh st) (h₁ : Adds sh st st₁ D₁)
    (h₂ : Adds sh st st₂ D₂) (h : ∀ (k : Nat) (s J : List Nat), sh[k]? = some s → InB J s → D₁ k J = D₂ k J) : st₁ = st₂ := by
  apply List.ext_getElem?
  intro k
  by_cases hk : k < sh.length
  · obtain ⟨a, ha⟩ : ∃ a, st[k]? = some a := ⟨_, List.getElem?_eq_getElem (by rw [hst.1]; exact hk)⟩
    obtain ⟨b₁, F₁, e₁, f₁, g₁⟩ := h₁.2 k a ha
    obtain ⟨b₂, F₂, e₂, f₂, g₂⟩ := h₂.2 k a ha
    rw [e₁, e₂]
    congr 1
    have hs := (hst.2 k a ha).2
    have hs₁ := g₁.1
    have hs₂ := g₂.1
    refine fresh_unique (F := fun i => F₁ i + D₁ k i) (h₁.1.2 k _ e₁).1 (h₂.1.2 k _ e₂).1 (by rw [hs₁, hs₂]) (by rw [hs₁]; exact g₁) ?_
    rw [hs₁]
    exact g₂.congr fun i hi => by rw [denotes_unique f₂ f₁ hi, h k _ i hs hi]
  · rw [List.getElem?_eq_none (by rw [h₁.1.1]; omega), List.getElem?_eq_none (by rw [h₂.1.1]; omega)]

/-- `backward_with` as a function of the accumulators. -/
theorem exec_cases {c : List (Cmd α)} {σ : RunState α} {sh : List (List Nat)} (h : RunInv sh σ fun v => specRun (Dual.interp v) 0 (program c))
    (y : Nat) {g : Arr α} (hw : g.WF) :
    (∀ st, StoreOK sh st → RunState.exec { σ with store := st } (.backwardWith y g) = .error .panic) ∨
    ∃ D, ∀ st, StoreOK sh st → ∃ st', RunState.exec { σ with store := st } (.backwardWith y g) = .ok { σ with store := st' } ∧ Adds sh st st' D := by
  cases ht : σ.env[y]? with
  | none =>
    left
    intro st _
    show (getT σ.env y >>= fun _ => _) = _
    have : getT σ.env y = .error .panic := by unfold getT; rw [ht]
    rw [this]; rfl
  | some t =>
    have hget : getT σ.env y = .ok t := by unfold getT; rw [ht]
    have e0 : ∀ st, RunState.exec { σ with store := st } (.backwardWith y g) =
        RunState.withStore { σ with store := st } (t.backwardWith ⟨g, none⟩ st) := by
      intro st
      show (getT σ.env y >>= fun _ => _) = _
      rw [hget]; rfl
    by_cases hsh : g.shape = t.arr.shape
    · obtain ⟨G, hG⟩ := hw.denotesD
      rw [hsh] at hG
      rcases backwardWith_cases h ht hw.laid hG with ⟨hp, _⟩ | ⟨_, hp⟩
      · left; intro st hst; rw [e0, hp st hst]; rfl
      · right
        refine ⟨fun k J => pair t.arr.shape G (jacobian (program c) y k J), fun st hst => ?_⟩
        obtain ⟨st', e, ha⟩ := hp st hst
        exact ⟨st', by rw [e0, e]; rfl, ha⟩
    · left
      intro st hst
      have : t.backwardWith ⟨g, none⟩ st = .error .panic := by
        show (assert (decide (g.shape = t.arr.shape)) >>= fun _ => _) = _
        rw [assert_fail (decide_eq_false hsh)]; rfl
      rw [e0, this]; rfl

/-- **C42.** Two backward passes give the same result in either order (either both orders panic, or all gradients agree). -/
theorem C42_order_partial {c : List (Cmd α)} {σ : RunState α} (hc : ∀ x ∈ c, x.Fine σ.env) (hr : runSession c = .ok σ)
    (hs : SmallEnv σ.env) (y₁ y₂ : Nat) {g₁ g₂ : Arr α} (hw₁ : g₁.WF) (hw₂ : g₂.WF) :
    (σ.exec (.backwardWith y₁ g₁) >>= fun τ => τ.exec (.backwardWith y₂ g₂)) =
      (σ.exec (.backwardWith y₂ g₂) >>= fun τ => τ.exec (.backwardWith y₁ g₁)) := by
  obtain ⟨sh, h⟩ := session_inv hc hr hs
  rcases exec_cases h y₁ hw₁ with p₁ | ⟨D₁, p₁⟩ <;> rcases exec_cases h y₂ hw₂ with p₂ | ⟨D₂, p₂⟩
  · rw [show σ.exec (.backwardWith y₁ g₁) = _ from p₁ _ h.store, show σ.exec (.backwardWith y₂ g₂) = _ from p₂ _ h.store]
    rfl
  · obtain ⟨st', e, ha⟩ := p₂ _ h.store
    rw [show σ.exec (.backwardWith y₁ g₁) = _ from p₁ _ h.store, show σ.exec (.backwardWith y₂ g₂) = _ from e]
    exact (p₁ st' ha.1).symm
  · obtain ⟨st', e, ha⟩ := p₁ _ h.store
    rw [show σ.exec (.backwardWith y₂ g₂) = _ from p₂ _ h.store, show σ.exec (.backwardWith y₁ g₁) = _ from e]
    exact p₂ st' ha.1
  · obtain ⟨s₁, e₁, a₁⟩ := p₁ _ h.store
    obtain ⟨s₂, e₂, a₂⟩ := p₂ _ h.store
    obtain ⟨s₁₂, e₁₂, a₁₂⟩ := p₂ _ a₁.1
    obtain ⟨s₂₁, e₂₁, a₂₁⟩ := p₁ _ a₂.1
    rw [show σ.exec (.backwardWith y₁ g₁) = _ from e₁, show σ.exec (.backwardWith y₂ g₂) = _ from e₂]
    refine (show RunState.exec { σ with store := s₁ } (.backwardWith y₂ g₂) = RunState.exec { σ with store := s₂ } (.backwardWith y₁ g₁) from ?_)
    rw [e₁₂, e₂₁, adds_unique h.store (a₁.trans a₁₂) (a₂.trans a₂₁) fun _ _ _ _ _ => add_comm _ _]

omit [Build] in
example [Build] : ∃ σ : RunState ℚ, runSession smallSession = .ok σ ∧
    (σ.exec (.backwardWith 2 (smallSeed 5)) >>= fun τ => τ.exec (.backwardWith 0 (smallSeed 7))) =
      (σ.exec (.backwardWith 0 (smallSeed 7)) >>= fun τ => τ.exec (.backwardWith 2 (smallSeed 5))) :=
  have ⟨σ, _, _, _, hc, hr, hs, _⟩ := smallSession_runs
  ⟨σ, hr, C42_order_partial hc hr hs 2 0 (smallSeed_wf 5) (smallSeed_wf 7)⟩

/-- **C42.** Two backward passes add the sum of the two vector-Jacobian products. -/
theorem C42_sum_partial {c : List (Cmd α)} {σ σ₁ σ₂ : RunState α} (hc : ∀ x ∈ c, x.Fine σ.env) (hr : runSession c = .ok σ)
    {y₁ y₂ : Nat} {t₁ t₂ : Tensor α} (ht₁ : σ.env[y₁]? = some t₁) (ht₂ : σ.env[y₂]? = some t₂)
    {g₁ g₂ : Arr α} {G₁ G₂ : List Nat → α} (hw₁ : g₁.WF) (hw₂ : g₂.WF)
    (hg₁ : g₁.Denotes t₁.arr.shape G₁) (hg₂ : g₂.Denotes t₂.arr.shape G₂)
    (h₁ : σ.exec (.backwardWith y₁ g₁) = .ok σ₁) (h₂ : σ₁.exec (.backwardWith y₂ g₂) = .ok σ₂)
    {i : Nat} {x : Tensor α} (hx : σ.env[i]? = some x) {gx : Arr α} (hgx : x.gradient σ.store = some gx) :
    ∃ k gx' F, IsVariable (program c) i k ∧ x.gradient σ₂.store = some gx' ∧ gx.Denotes x.arr.shape F ∧
      gx'.Denotes x.arr.shape (fun J => F J + (pair t₁.arr.shape G₁ (jacobian (program c) y₁ k J) +
        pair t₂.arr.shape G₂ (jacobian (program c) y₂ k J))) := by
  obtain ⟨sh, h⟩ := Weak.session_inv hc hr
  obtain ⟨t', ht', h₁⟩ := bind_eq_ok.1 h₁
  have ht' := getT_ok ht'
  rw [ht₁] at ht'
  cases ht'
  obtain ⟨s₁, e₁, rfl⟩ := withStore_ok h₁
  obtain ⟨t', ht', h₂⟩ := bind_eq_ok.1 h₂
  have ht' := getT_ok ht'
  rw [show (⟨σ.env, s₁⟩ : RunState α).env = σ.env from rfl, ht₂] at ht'
  cases ht'
  obtain ⟨s₂, e₂, rfl⟩ := withStore_ok h₂
  have a₁ := Weak.backwardWith_incr h ht₁ hw₁ hg₁ h.store e₁
  have a₂ := Weak.backwardWith_incr h ht₂ hw₂ hg₂ a₁.1 e₂
  obtain ⟨k, a, hk, ha, rfl⟩ := gradient_some hgx
  obtain ⟨hsk, hvar⟩ := Weak.acc_inv h hx hk
  obtain ⟨a', F, q1, q2, q3⟩ := (a₁.trans a₂).2 k a ha
  have hsh : a.shape = x.arr.shape := by
    have := (h.store.2 k a ha).2
    rw [hsk] at this; exact (Option.some.inj this).symm
  rw [hsh] at q2 q3
  exact ⟨k, a'.view, F, fun v idx hi => hvar v idx (by rwa [Weak.tensorOf_shape h hx] at hi), gradient_acc hk q1,
    h.store.view ha q2, a₂.1.view q1 q3⟩

omit [Build] in
example [Build] : ∃ (σ σ₁ σ₂ : RunState ℚ) (x : Tensor ℚ) (gx gx' : Arr ℚ) (k : Nat) (F : List Nat → ℚ), runSession smallSession = .ok σ ∧
    σ.exec (.backwardWith 2 (smallSeed 5)) = .ok σ₁ ∧ σ₁.exec (.backwardWith 2 (smallSeed 7)) = .ok σ₂ ∧ σ.env[0]? = some x ∧
    x.gradient σ.store = some gx ∧ x.gradient σ₂.store = some gx' ∧ gx.Denotes x.arr.shape F ∧
    gx'.Denotes x.arr.shape (fun J => F J + (pair [2] (fun _ => 5) (jacobian (program smallSession) 2 k J) +
      pair [2] (fun _ => 7) (jacobian (program smallSession) 2 k J))) := by
  obtain ⟨σ, x, y, gx, hc, hr, hs, hx, _, _, hgx, hy, e, _, hb⟩ := smallSession_runs
  obtain ⟨σ₁, σ₂, h₁, h₂⟩ := hb 5 7
  obtain ⟨k, gx', F, _, h3, h4, h5⟩ := C42_sum_partial hc hr hy hy (smallSeed_wf 5) (smallSeed_wf 7) (e ▸ smallSeed_denotes 5)
    (e ▸ smallSeed_denotes 7) h₁ h₂ hx hgx
  exact ⟨σ, σ₁, σ₂, x, gx, gx', k, F, hr, h₁, h₂, hx, hgx, h3, h4, e ▸ h5⟩

/-- **C42.** The increment is linear in the seed: with `G = c₁ * G₁ + G₂`, the increments satisfy `D = c₁ * D₁ + D₂`. -/
theorem C42_linear_partial {c : List (Cmd α)} {σ σ' σ₁ σ₂ : RunState α} (hc : ∀ x ∈ c, x.Fine σ.env) (hr : runSession c = .ok σ)
    {y : Nat} {t : Tensor α} (ht : σ.env[y]? = some t)
    {g g₁ g₂ : Arr α} {G₁ G₂ : List Nat → α} (c₁ : α) (hw : g.WF) (hw₁ : g₁.WF) (hw₂ : g₂.WF)
    (hg : g.Denotes t.arr.shape fun i => c₁ * G₁ i + G₂ i) (hg₁ : g₁.Denotes t.arr.shape G₁) (hg₂ : g₂.Denotes t.arr.shape G₂)
    (h' : σ.exec (.backwardWith y g) = .ok σ') (h₁ : σ.exec (.backwardWith y g₁) = .ok σ₁) (h₂ : σ.exec (.backwardWith y g₂) = .ok σ₂)
    {i : Nat} {x : Tensor α} (hx : σ.env[i]? = some x) {gx : Arr α} (hgx : x.gradient σ.store = some gx) :
    ∃ (gx' gx₁ gx₂ : Arr α) (F D₁ D₂ : List Nat → α), x.gradient σ'.store = some gx' ∧ x.gradient σ₁.store = some gx₁ ∧ x.gradient σ₂.store = some gx₂ ∧
      gx.Denotes x.arr.shape F ∧ gx₁.Denotes x.arr.shape (fun J => F J + D₁ J) ∧ gx₂.Denotes x.arr.shape (fun J => F J + D₂ J) ∧
      gx'.Denotes x.arr.shape (fun J => F J + (c₁ * D₁ J + D₂ J)) := by
  obtain ⟨k, gx', F, v1, e1, f1, d1⟩ := C40_vjp_partial hc hr ht hw hg h' hx hgx
  obtain ⟨k₁, gx₁, F₁, v2, e2, f2, d2⟩ := C40_vjp_partial hc hr ht hw₁ hg₁ h₁ hx hgx
  obtain ⟨k₂, gx₂, F₂, v3, e3, f3, d3⟩ := C40_vjp_partial hc hr ht hw₂ hg₂ h₂ hx hgx
  obtain ⟨sh, h⟩ := Weak.session_inv hc hr
  -- the variable is the same
  have hvar : ∀ {k k' : Nat} {J : List Nat}, IsVariable (program c) i k → IsVariable (program c) i k' → InB J x.arr.shape → k = k' := by
    intro k k' J hk hk' hJ
    have hJ' : InB J (tensorOf (program c) i).shape := by rw [Weak.tensorOf_shape h hx]; exact hJ
    have := (hk (fun j _ => if j = k then 1 else 0) J hJ').symm.trans (hk' (fun j _ => if j = k then 1 else 0) J hJ')
    by_contra hne
    simp [Ne.symm hne] at this
  refine ⟨gx', gx₁, gx₂, F, fun J => pair t.arr.shape G₁ (jacobian (program c) y k J), fun J => pair t.arr.shape G₂ (jacobian (program c) y k J),
    e1, e2, e3, f1, d2.congr fun J hJ => ?_, d3.congr fun J hJ => ?_, d1.congr fun J hJ => ?_⟩
  · rw [denotes_unique f2 f1 hJ, hvar v2 v1 hJ]
  · rw [denotes_unique f3 f1 hJ, hvar v3 v1 hJ]
  · rw [pair_add_left, pair_smul_left]

omit [Build] in
/-- seeds of 5s, of 7s, and of `2 * 5 + 7` -/
example [Build] : ∃ (σ σ' σ₁ σ₂ : RunState ℚ) (x : Tensor ℚ) (gx' gx₁ gx₂ : Arr ℚ) (F D₁ D₂ : List Nat → ℚ), runSession smallSession = .ok σ ∧
    σ.exec (.backwardWith 2 (smallSeed (2 * 5 + 7))) = .ok σ' ∧ σ.exec (.backwardWith 2 (smallSeed 5)) = .ok σ₁ ∧
    σ.exec (.backwardWith 2 (smallSeed 7)) = .ok σ₂ ∧ x.gradient σ'.store = some gx' ∧ x.gradient σ₁.store = some gx₁ ∧
    x.gradient σ₂.store = some gx₂ ∧ gx₁.Denotes x.arr.shape (fun J => F J + D₁ J) ∧ gx₂.Denotes x.arr.shape (fun J => F J + D₂ J) ∧
    gx'.Denotes x.arr.shape (fun J => F J + (2 * D₁ J + D₂ J)) := by
  obtain ⟨σ, x, y, gx, hc, hr, hs, hx, _, _, hgx, hy, e, _, hb⟩ := smallSession_runs
  obtain ⟨σ', _, h', _⟩ := hb (2 * 5 + 7) 0
  obtain ⟨σ₁, _, h₁, _⟩ := hb 5 0
  obtain ⟨σ₂, _, h₂, _⟩ := hb 7 0
  obtain ⟨gx', gx₁, gx₂, F, D₁, D₂, a1, a2, a3, _, a5, a6, a7⟩ := C42_linear_partial hc hr hy 2 (smallSeed_wf _) (smallSeed_wf 5)
    (smallSeed_wf 7) (e ▸ smallSeed_denotes (2 * 5 + 7)) (G₁ := fun _ => 5) (G₂ := fun _ => 7) (e ▸ smallSeed_denotes 5)
    (e ▸ smallSeed_denotes 7) h' h₁ h₂ hx hgx
  exact ⟨σ, σ', σ₁, σ₂, x, gx', gx₁, gx₂, F, D₁, D₂, hr, h', h₁, h₂, a1, a2, a3, a5, a6, a7⟩

/-- **C42.** `zero_gradient` resets the gradient of its tensor to 0 and keeps all other accumulators. -/
theorem C42_zero_partial {c : List (Cmd α)} {σ : RunState α} (hc : ∀ x ∈ c, x.Fine σ.env) (hr : runSession c = .ok σ)
    {i : Nat} {x : Tensor α} (hx : σ.env[i]? = some x) {gx : Arr α} (hgx : x.gradient σ.store = some gx) :
    ∃ σ' gx', σ.exec (.zeroGradient i) = .ok σ' ∧ x.gradient σ'.store = some gx' ∧ gx'.Denotes x.arr.shape (fun _ => 0) ∧
      σ'.env = σ.env ∧ ∀ t : Tensor α, t.gradFn ≠ x.gradFn → t.gradient σ'.store = t.gradient σ.store := by
  obtain ⟨sh, h⟩ := Weak.session_inv hc hr
  obtain ⟨k, a, hk, ha, rfl⟩ := gradient_some hgx
  obtain ⟨hsk, _⟩ := Weak.acc_inv h hx hk
  have hsh : a.shape = x.arr.shape := by
    have := (h.store.2 k a ha).2
    rw [hsk] at this; exact (Option.some.inj this).symm
  obtain ⟨buf, e, d, f⟩ := zeroGradient_acc h.store hk ha
  have hlt := (List.getElem?_eq_some_iff.1 ha).1
  have hset : (σ.store.set k { a with buf := buf })[k]? = some { a with buf := buf } := by
    rw [List.getElem?_set, if_pos rfl, if_pos hlt]
  have hst' := zeroGradient_store h.store e
  have hget : getT σ.env i = .ok x := by unfold getT; rw [hx]
  refine ⟨{ σ with store := σ.store.set k { a with buf := buf } }, _, ?_, gradient_acc hk hset, ?_, rfl, fun t ht => ?_⟩
  · show (getT σ.env i >>= fun _ => _) = _
    rw [hget]
    show (x.zeroGradient σ.store >>= fun _ => _) = _
    rw [e]; rfl
  · rw [← hsh]; exact hst'.view hset d
  · unfold Tensor.gradient
    split
    · rename_i j hj
      have hne : k ≠ j := fun e => ht (by rw [hj, hk, e])
      show Option.map Arr.view (σ.store.set k { a with buf := buf })[j]? = _
      rw [List.getElem?_set, if_neg hne]
    · rfl

omit [Build] in
example [Build] : ∃ (σ σ' : RunState ℚ) (x : Tensor ℚ) (gx' : Arr ℚ), runSession smallSession = .ok σ ∧ σ.env[0]? = some x ∧
    σ.exec (.zeroGradient 0) = .ok σ' ∧ x.gradient σ'.store = some gx' ∧ gx'.Denotes x.arr.shape (fun _ => 0) := by
  obtain ⟨σ, x, _, _, hc, hr, hs, hx, _, _, hgx, _⟩ := smallSession_runs
  obtain ⟨σ', gx', h1, h2, h3, _⟩ := C42_zero_partial hc hr hx hgx
  exact ⟨σ, σ', x, gx', hr, hx, h1, h2, h3⟩

omit [Build] in
/-- **C42 is false** when the seed is the gradient of a tensor of the graph, passed as the view that `gradient()` returns:
`y = x + x`, whose gradient is 2 after one pass. `y.backward_with(x.gradient())` should add `2 * 2`; the seed is
changed during the pass and the result is 8 instead of 6. With a copy of the gradient it is 6. -/
theorem C42_alias_false [k : Build] : ∃ (σ : RunState ℚ) (x y : Tensor ℚ) (g : Arr ℚ) (st st' : Store ℚ),
    runSession [.op (.leaf [1] [1]), .op (.setReq 0 true), .op (.bin .add 0 0), .backward 1] = .ok σ ∧
    σ.env = [x, y] ∧ x.gradient σ.store = some g ∧
    y.backwardWith ⟨g, some 0⟩ σ.store = .ok st ∧ st.map (·.buf) = [[8]] ∧
    y.backwardWith ⟨g, none⟩ σ.store = .ok st' ∧ st'.map (·.buf) = [[6]] := by
  have h8 : [[(0 + 1 + 1 + (0 + 1 + 1) + (0 + 1 + 1 + (0 + 1 + 1)) : ℚ)]] = [[8]] := by norm_num
  have h6 : [[(0 + 1 + 1 + (0 + 1 + 1) + (0 + 1 + 1) : ℚ)]] = [[6]] := by norm_num
  obtain ⟨l⟩ := k
  cases l <;> with_unfolding_all exact ⟨_, _, _, _, _, _, rfl, rfl, rfl, rfl, h8, rfl, h6⟩

omit [Build] in
/-- The same through a reshape and through a transposition: the gradient handed on is still a view of the accumulator. -/
theorem C42_alias_view_false [k : Build] : ∃ (σ σ' : RunState ℚ) (x y z x' y' z' : Tensor ℚ) (g g' : Arr ℚ) (st st' : Store ℚ),
    runSession [.op (.leaf [1] [1]), .op (.setReq 0 true), .op (.bin .add 0 0), .op (.view (.reshape [1, 1]) 1), .backward 2] = .ok σ ∧
    σ.env = [x, y, z] ∧ x.gradient σ.store = some g ∧
    z.backwardWith ⟨g.reshapedView [1, 1] [1, 1], some 0⟩ σ.store = .ok st ∧ st.map (·.buf) = [[8]] ∧
    runSession [.op (.leaf [1, 1] [1]), .op (.setReq 0 true), .op (.bin .add 0 0), .op (.view (.transpose 0 1) 1), .backward 2] = .ok σ' ∧
    σ'.env = [x', y', z'] ∧ x'.gradient σ'.store = some g' ∧
    z'.backwardWith ⟨g', some 0⟩ σ'.store = .ok st' ∧ st'.map (·.buf) = [[8]] := by
  have h8 : [[(0 + 1 + 1 + (0 + 1 + 1) + (0 + 1 + 1 + (0 + 1 + 1)) : ℚ)]] = [[8]] := by norm_num
  obtain ⟨l⟩ := k
  cases l <;> with_unfolding_all exact ⟨_, _, _, _, _, _, _, _, _, _, _, _, rfl, rfl, rfl, rfl, h8, rfl, rfl, rfl, rfl, h8⟩

end Verif
