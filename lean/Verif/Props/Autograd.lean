import Verif.Lemmas.Completes
import Verif.Lemmas.WeakSession
import Mathlib.Tactic.NormNum

/-!
# C40–C44, C46: automatic differentiation

A session (`Cmd`) is any sequence of tensor operations, `backward`, `backward_with` and `zero_gradient` calls.
`program c` are its tensor operations. Elements are taken from an arbitrary field.

The hypotheses of the positive theorems:
* `Cmd.Fine`: a consuming `reshape`/`squeeze`/`unsqueeze` of a tensor whose array has other owners is applied only if the array
  lies row by row in memory, as all do but transposed ones (false otherwise: `C40_shared_false`); seeds are arrays reachable without `broadcast_to` (`WF`; false otherwise: `C40_seed_false`).
* `SmallEnv`, only where the theorem says which calls complete: all tensors have rank at most 32 (`MAX_DIMS`) and no extent 0.
-/

namespace Verif

variable {α : Type} [Field α] [Build]

/-! A session whose hypotheses are shown to hold beside each theorem: `x : [2]`, `w : [2, 2]`, `y = w @ x`, and a seed for `y`. -/

def smallSession : List (Cmd ℚ) :=
  [.op (.leaf [2] [1, 2]), .op (.setReq 0 true), .op (.leaf [2, 2] [1, 2, 3, 4]), .op (.setReq 1 true), .op (.matmul 1 0)]

def smallSeed (v : ℚ) : Arr ℚ := .fromContiguousOwnedBuffer [2] [v, v]

theorem smallSeed_wf (v : ℚ) : (smallSeed v).WF := Arr.WF.fromContiguous rfl

theorem smallSeed_denotes (v : ℚ) : (smallSeed v).Denotes [2] (fun _ => v) := denotes_fromContiguous (s := [2]) (f := fun _ => v)

omit [Build] in
theorem smallSession_runs [k : Build] : ∃ (σ : RunState ℚ) (x y : Tensor ℚ) (gx : Arr ℚ), (∀ x ∈ smallSession, x.Fine σ.env) ∧
    runSession smallSession = .ok σ ∧ SmallEnv σ.env ∧ σ.env[0]? = some x ∧ x.requiresGrad = true ∧ x.isLeaf = true ∧
    x.gradient σ.store = some gx ∧ σ.env[2]? = some y ∧ y.arr.shape = [2] ∧ (∃ σ', σ.exec (.backward 2) = .ok σ') ∧
    ∀ v w, ∃ σ₁ σ₂, σ.exec (.backwardWith 2 (smallSeed v)) = .ok σ₁ ∧ σ₁.exec (.backwardWith 2 (smallSeed w)) = .ok σ₂ := by
  obtain ⟨l⟩ := k
  cases l <;> with_unfolding_all exact ⟨_, _, _, _, by simp [smallSession, Cmd.Fine, Instr.Plain], rfl,
    by unfold SmallEnv SmallShape; decide, rfl, rfl, rfl, rfl, rfl, rfl, ⟨_, rfl⟩, fun _ _ => ⟨_, _, rfl, rfl⟩⟩

theorem tensorOf_shape {sh : List (List Nat)} {σ : RunState α} {p : List (Instr α)} (h : RunInv sh σ fun v => specRun (Dual.interp v) 0 p)
    {y : Nat} {t : Tensor α} (ht : σ.env[y]? = some t) : (tensorOf p y).shape = t.arr.shape := by
  obtain ⟨F, E, _, _, _, _, hm⟩ := h.tok y t ht
  rw [← (hm fun _ _ => 0).2.1]
  exact (dual_value p (fun _ _ => 0) y).2.1.symm

theorem Weak.tensorOf_shape {sh : List (List Nat)} {σ : RunState α} {p : List (Instr α)}
    (h : Weak.RunInv sh σ fun v => specRun (Dual.interp v) 0 p)
    {y : Nat} {t : Tensor α} (ht : σ.env[y]? = some t) : (tensorOf p y).shape = t.arr.shape := by
  obtain ⟨F, E, _, _, _, _, hm⟩ := h.tok y t ht
  rw [← (hm fun _ _ => 0).2.1]
  exact (dual_value p (fun _ _ => 0) y).2.1.symm

omit [Build] in
theorem gradient_some {x : Tensor α} {st : Store α} {gx : Arr α} (h : x.gradient st = some gx) :
    ∃ k a, x.gradFn = .acc k ∧ st[k]? = some a ∧ gx = a.view := by
  unfold Tensor.gradient at h
  split at h
  · rename_i k hk
    obtain ⟨a, ha, e⟩ := Option.map_eq_some_iff.1 h
    exact ⟨k, a, hk, ha, e.symm⟩
  · cases h

omit [Build] in
theorem gradient_acc {x : Tensor α} {st : Store α} {k : Nat} {a : Arr α} (h : x.gradFn = .acc k) (ha : st[k]? = some a) :
    x.gradient st = some a.view := by
  unfold Tensor.gradient
  rw [h]
  show st[k]?.map Arr.view = _
  rw [ha]; rfl

omit [Build] in
theorem StoreOK.view {sh : List (List Nat)} {st : Store α} (h : StoreOK sh st) {k : Nat} {a : Arr α} (hk : st[k]? = some a)
    {s : List Nat} {F : List Nat → α} (hF : a.Denotes s F) : a.view.Denotes s F := by
  obtain ⟨_, e, _, d⟩ := (gives_view (h.2 k a hk).1.wf hF).1
  cases e
  exact d

/-! ## C40 -/

/-- **C40** (forward part): every tensor holds the elements that the operations define mathematically. -/
theorem C40_forward_partial {c : List (Cmd α)} {σ : RunState α} (hc : ∀ x ∈ c, x.Fine σ.env) (hr : runSession c = .ok σ)
    {y : Nat} {t : Tensor α} (ht : σ.env[y]? = some t) :
    t.arr.Denotes (tensorOf (program c) y).shape (tensorOf (program c) y).elem := by
  obtain ⟨sh, h⟩ := Weak.session_inv hc hr
  have hsh := Weak.tensorOf_shape h ht
  obtain ⟨F, E, hw, ha, _, _, hm⟩ := h.tok y t ht
  rw [hsh]
  refine ha.congr fun idx hi => ?_
  rw [← (dual_value (program c) (fun _ _ => 0) y).2.2 idx, (hm _).2.2 idx hi]

omit [Build] in
example [Build] : ∃ (σ : RunState ℚ) (y : Tensor ℚ), runSession smallSession = .ok σ ∧ σ.env[2]? = some y ∧
    y.arr.Denotes (tensorOf (program smallSession) 2).shape (tensorOf (program smallSession) 2).elem :=
  have ⟨σ, _, y, _, hc, hr, hs, _, _, _, _, hy, _⟩ := smallSession_runs
  ⟨σ, y, hr, hy, C40_forward_partial hc hr hy⟩

/-- **C40.** After any session, if `y.backward_with(g)` completes, then the gradient of every tensor `x` that has one
increases by exactly the vector-Jacobian product: `x` is some variable `k` of the program, and its gradient's element
`J` increases by `Σ_idx g[idx] * ∂y[idx]/∂x_k[J]`. Missing: see the hypotheses at the top of this file. -/
theorem C40_vjp_partial {c : List (Cmd α)} {σ σ' : RunState α} (hc : ∀ x ∈ c, x.Fine σ.env) (hr : runSession c = .ok σ)
    {y : Nat} {t : Tensor α} (ht : σ.env[y]? = some t) {g : Arr α} {G : List Nat → α} (hw : g.WF)
    (hg : g.Denotes t.arr.shape G) (hb : σ.exec (.backwardWith y g) = .ok σ')
    {i : Nat} {x : Tensor α} (hx : σ.env[i]? = some x) {gx : Arr α} (hgx : x.gradient σ.store = some gx) :
    ∃ k gx' F, IsVariable (program c) i k ∧ x.gradient σ'.store = some gx' ∧ gx.Denotes x.arr.shape F ∧
      gx'.Denotes x.arr.shape (fun J => F J + pair t.arr.shape G (jacobian (program c) y k J)) := by
  obtain ⟨sh, h⟩ := Weak.session_inv hc hr
  obtain ⟨t', ht', hb⟩ := bind_eq_ok.1 hb
  have ht' := getT_ok ht'
  rw [ht] at ht'
  cases ht'
  obtain ⟨st', e, rfl⟩ := withStore_ok hb
  have hadd := Weak.backwardWith_incr h ht hw hg h.store e
  obtain ⟨k, a, hk, ha, rfl⟩ := gradient_some hgx
  obtain ⟨hsk, hvar⟩ := Weak.acc_inv h hx hk
  obtain ⟨a', F, h1, h2, h3⟩ := hadd.2 k a ha
  have hsh : a.shape = x.arr.shape := by
    have := (h.store.2 k a ha).2
    rw [hsk] at this; exact (Option.some.inj this).symm
  rw [hsh] at h2 h3
  exact ⟨k, a'.view, F, fun v idx hi => hvar v idx (by rwa [Weak.tensorOf_shape h hx] at hi), gradient_acc hk h1,
    h.store.view ha h2, hadd.1.view h1 h3⟩

omit [Build] in
example [Build] : ∃ (σ σ' : RunState ℚ) (x : Tensor ℚ) (gx gx' : Arr ℚ) (k : Nat) (F : List Nat → ℚ),
    runSession smallSession = .ok σ ∧ σ.exec (.backwardWith 2 (smallSeed 5)) = .ok σ' ∧ σ.env[0]? = some x ∧
    x.gradient σ.store = some gx ∧ x.gradient σ'.store = some gx' ∧
    gx'.Denotes x.arr.shape (fun J => F J + pair [2] (fun _ => 5) (jacobian (program smallSession) 2 k J)) := by
  obtain ⟨σ, x, y, gx, hc, hr, hs, hx, _, _, hgx, hy, e, _, hb⟩ := smallSession_runs
  obtain ⟨σ', _, hb, _⟩ := hb 5 5
  obtain ⟨k, gx', F, _, h1, _, h2⟩ := C40_vjp_partial hc hr hy (smallSeed_wf 5) (e ▸ smallSeed_denotes 5) hb hx hgx
  exact ⟨σ, σ', x, gx, gx', k, F, hr, hb, hx, hgx, h1, e ▸ h2⟩

/-- **C40.** The same for `y.backward()`, whose seed is 1 everywhere. -/
theorem C40_backward_partial {c : List (Cmd α)} {σ σ' : RunState α} (hc : ∀ x ∈ c, x.Fine σ.env) (hr : runSession c = .ok σ)
    {y : Nat} {t : Tensor α} (ht : σ.env[y]? = some t) (hb : σ.exec (.backward y) = .ok σ')
    {i : Nat} {x : Tensor α} (hx : σ.env[i]? = some x) {gx : Arr α} (hgx : x.gradient σ.store = some gx) :
    ∃ k gx' F, IsVariable (program c) i k ∧ x.gradient σ'.store = some gx' ∧ gx.Denotes x.arr.shape F ∧
      gx'.Denotes x.arr.shape (fun J => F J + pair t.arr.shape (fun _ => 1) (jacobian (program c) y k J)) := by
  obtain ⟨t', ht', hb⟩ := bind_eq_ok.1 hb
  have hte := getT_ok ht'
  rw [ht] at hte
  cases hte
  obtain ⟨st', e, rfl⟩ := withStore_ok hb
  obtain ⟨one, h1, e⟩ := backward_inv e
  have hone := ones_inv h1
  refine C40_vjp_partial (σ' := { σ with store := st' }) (g := one) hc hr ht ?_ ?_ ?_ hx hgx
  · rw [hone]; exact Arr.WF.fromContiguous (by simp)
  · obtain ⟨r, e1, e2⟩ := (C50_full (1 : α) t.arr.shape).1 fun h0 => by
      have : Arr.ones t.arr.shape = .error .panic := (C50_full (1 : α) t.arr.shape).2 h0
      rw [h1] at this
      cases this
    have : Arr.ones t.arr.shape = .ok r := e1
    rw [h1] at this
    cases this
    exact e2
  · show (getT σ.env y >>= fun _ => _) = _
    rw [ht']
    show (t.backwardWith ⟨one, none⟩ σ.store >>= fun _ => _) = _
    rw [e]; rfl

omit [Build] in
example [Build] : ∃ (σ σ' : RunState ℚ) (x : Tensor ℚ) (gx gx' : Arr ℚ) (k : Nat) (F : List Nat → ℚ),
    runSession smallSession = .ok σ ∧ σ.exec (.backward 2) = .ok σ' ∧ σ.env[0]? = some x ∧
    x.gradient σ.store = some gx ∧ x.gradient σ'.store = some gx' ∧
    gx'.Denotes x.arr.shape (fun J => F J + pair [2] (fun _ => 1) (jacobian (program smallSession) 2 k J)) := by
  obtain ⟨σ, x, y, gx, hc, hr, hs, hx, _, _, hgx, hy, e, ⟨σ', hb⟩, _⟩ := smallSession_runs
  obtain ⟨k, gx', F, _, h1, _, h2⟩ := C40_backward_partial hc hr hy hb hx hgx
  exact ⟨σ, σ', x, gx, gx', k, F, hr, hb, hx, hgx, h1, e ▸ h2⟩

/-- **C40.** `backward_with` either completes or panics; whether it does is independent of the gradients accumulated so
far. In particular it never reads or writes outside its buffers. -/
theorem C40_outcome_partial {c : List (Cmd α)} {σ : RunState α} (hc : ∀ x ∈ c, x.Fine σ.env) (hr : runSession c = .ok σ)
    (hs : SmallEnv σ.env) {y : Nat} {t : Tensor α} (ht : σ.env[y]? = some t) {g : Arr α} (hw : g.WF) :
    (∃ σ', σ.exec (.backwardWith y g) = .ok σ') ∨ σ.exec (.backwardWith y g) = .error .panic := by
  obtain ⟨sh, h⟩ := session_inv hc hr hs
  have hget : getT σ.env y = .ok t := by unfold getT; rw [ht]
  have e0 : σ.exec (.backwardWith y g) = σ.withStore (t.backwardWith ⟨g, none⟩ σ.store) := by
    show (getT σ.env y >>= fun _ => _) = _
    rw [hget]; rfl
  rw [e0]
  by_cases hsh : g.shape = t.arr.shape
  · obtain ⟨G, hG⟩ := hw.denotesD
    rw [hsh] at hG
    rcases backwardWith_cases h ht hw.laid hG with ⟨hp, _⟩ | ⟨_, hp⟩
    · right; rw [hp _ h.store]; rfl
    · left
      obtain ⟨st', e, _⟩ := hp _ h.store
      rw [e]; exact ⟨_, rfl⟩
  · right
    have : t.backwardWith ⟨g, none⟩ σ.store = .error .panic := by
      show (assert (decide (g.shape = t.arr.shape)) >>= fun _ => _) = _
      rw [assert_fail (decide_eq_false hsh)]; rfl
    rw [this]; rfl

omit [Build] in
/-- a seed of the wrong shape -/
example [Build] : ∃ σ : RunState ℚ, runSession smallSession = .ok σ ∧
    ((∃ σ', σ.exec (.backwardWith 2 (.fromContiguousOwnedBuffer [3] [1, 2, 3])) = .ok σ') ∨
      σ.exec (.backwardWith 2 (.fromContiguousOwnedBuffer [3] [1, 2, 3])) = .error .panic) :=
  have ⟨σ, _, _, _, hc, hr, hs, _, _, _, _, hy, _⟩ := smallSession_runs
  ⟨σ, hr, C40_outcome_partial hc hr hs hy (Arr.WF.fromContiguous rfl)⟩

/-! A worked example: `x : [2]`, `w : [2, 2]`, `y = (w @ x) * (w @ x) / (x + 3)`, two backward passes. -/

def demoSession : List (Cmd ℚ) :=
  [.op (.leaf [2] [1, 2]), .op (.leaf [2, 2] [1, 2, 3, 4]), .op (.setReq 0 true), .op (.setReq 1 true),
    .op (.matmul 1 0), .op (.bin .mul 2 2), .op (.scal .add 0 3), .op (.bin .div 3 4), .backward 5]

def storeOf (r : Res (RunState ℚ)) : Res (List (List ℚ)) := r >>= fun σ => .ok (σ.store.map (·.buf))

example [k : Build] : ∃ l, storeOf (runSession demoSession) = .ok l ∧ l = [[1131 / 80, 444 / 25], [5 / 2, 5, 22 / 5, 44 / 5]] := by
  obtain ⟨l⟩ := k
  cases l <;> with_unfolding_all refine ⟨_, rfl, ?_⟩ <;> simp only [SOp.run] <;> norm_num <;> exact ⟨rfl, rfl⟩

example [k : Build] : ∃ σ, (∀ x ∈ demoSession, x.Fine σ.env) ∧ runSession demoSession = .ok σ ∧ SmallEnv σ.env := by
  obtain ⟨l⟩ := k
  cases l <;> with_unfolding_all exact ⟨_, by simp [demoSession, Cmd.Fine, Instr.Plain], rfl, by unfold SmallEnv SmallShape; decide⟩

/-! The product `x * x` owns the array of `x` too, so the consuming `x.reshape([2, 2])` works on a copy; the hypotheses hold, as the
array of `x` lies row by row. -/

def sharedSession : List (Cmd ℚ) :=
  [.op (.leaf [4] [1, 2, 3, 4]), .op (.setReq 0 true), .op (.bin .mul 0 0), .op (.into (.reshape [2, 2]) true 0), .op (.matmul 2 2),
    .backward 3]

example [k : Build] : ∃ σ, (∀ x ∈ sharedSession, x.Fine σ.env) ∧ runSession sharedSession = .ok σ ∧ SmallEnv σ.env := by
  obtain ⟨l⟩ := k
  cases l <;> with_unfolding_all exact ⟨_, by
    simp only [sharedSession, List.mem_cons, List.not_mem_nil, or_false, forall_eq_or_imp, forall_eq, Cmd.Fine, Instr.Plain, true_and, and_true]
    intro _ _ t ht
    cases ht
    rfl, rfl, by unfold SmallEnv SmallShape; decide⟩

omit [Build] in
/-- **C40 is false** for consuming `unsqueeze`, `squeeze` and `reshape` of a tensor whose array has another owner (here the
node of `t * t`) and is not contiguous: `into_ndarray` clones the array into a contiguous buffer, but the strides are
those of the original. Element `[0, 0, 1]` of `t.unsqueeze(0)` should be `t[0][1] = 4`, it is 5. -/
theorem C40_shared_false [k : Build] : ∃ (σ : RunState ℚ) (t : Tensor ℚ),
    runSession [.op (.leaf [2, 3] [1, 2, 3, 4, 5, 6]), .op (.setReq 0 true), .op (.view (.transpose 0 1) 0), .op (.bin .mul 1 1),
      .op (.into (.unsqueeze 0) true 1)] = .ok σ ∧ σ.env[3]? = some t ∧ t.arr.shape = [1, 3, 2] ∧
    (tensorOf [.leaf [2, 3] [1, 2, 3, 4, 5, 6], .setReq 0 true, .view (.transpose 0 1) 0, .bin .mul 1 1,
      .into (.unsqueeze 0) true 1] 3 : MT ℚ).elem [0, 0, 1] = 4 ∧
    t.arr.buf[t.arr.off + offset [0, 0, 1] t.arr.stride]? = some 5 := by
  obtain ⟨l⟩ := k
  cases l <;> with_unfolding_all exact ⟨_, _, rfl, rfl, rfl, rfl, rfl⟩

omit [Build] in
/-- **C40 is false** for seeds that are broadcast views: `y = x.reshape([2, 2])`, `y.backward_with([1, 2].broadcast_to([2, 2]))`
reads behind the end of the two-element buffer (the gradient should be `[1, 2, 1, 2]`). -/
theorem C40_seed_false [k : Build] : ∃ (σ : RunState ℚ) (g : Arr ℚ),
    runSession [.op (.leaf [4] [5, 6, 7, 8]), .op (.setReq 0 true), .op (.view (.reshape [2, 2]) 0)] = .ok σ ∧
    (Arr.fromContiguousOwnedBuffer [2] [1, 2]).broadcastTo [2, 2] = .ok g ∧
    σ.exec (.backwardWith 1 g) = .error .oob := by
  obtain ⟨l⟩ := k
  cases l <;> with_unfolding_all exact ⟨_, _, rfl, rfl, rfl⟩

end Verif
