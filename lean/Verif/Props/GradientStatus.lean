import Verif.Props.Gradients
import Verif.Lemmas.Leaves

/-!
# C43, C44, C46: who receives gradients, and when backward completes

The hypotheses of the theorems about sessions are those of C40, see Verif/Props/Autograd.lean.
-/

namespace Verif

variable {α : Type} [Field α] [Build]

omit [Build] in
theorem isNone_eq {g : GradFn α} (h : g.isNone = true) : g = .none := by
  cases g <;> first | rfl | cases h

/-! ## C43 -/

/-- **C43.** Unary operations: the result requires gradient exactly when the operand does. -/
theorem C43_unary {t r : Tensor α} {op : SOp} {v : SView} {c : α} {shared : Bool}
    (h : t.neg = .ok r ∨ Tensor.binScalar op t c = .ok r ∨ t.viewOp v = .ok r ∨ t.intoViewOp shared v = .ok r) :
    r.requiresGrad = t.requiresGrad := by
  rcases h with h | h | h | h
  · obtain ⟨_, _, h⟩ := bind_eq_ok.1 h; cases h; rfl
  · obtain ⟨_, _, h⟩ := bind_eq_ok.1 h; cases h; rfl
  · obtain ⟨_, _, h⟩ := bind_eq_ok.1 h; cases h; rfl
  · obtain ⟨_, _, h⟩ := bind_eq_ok.1 h
    obtain ⟨_, _, h⟩ := bind_eq_ok.1 h; cases h; rfl

omit [Build] in
example [k : Build] : ∃ (σ : RunState ℚ) (x r : Tensor ℚ), runSession smallSession = .ok σ ∧ σ.env[0]? = some x ∧ x.neg = .ok r ∧
    r.requiresGrad = x.requiresGrad := by
  have ⟨σ, x, r, h1, h2, h3⟩ : ∃ (σ : RunState ℚ) (x r : Tensor ℚ), runSession smallSession = .ok σ ∧ σ.env[0]? = some x ∧
      x.neg = .ok r := by
    obtain ⟨l⟩ := k
    cases l <;> with_unfolding_all exact ⟨_, _, _, rfl, rfl, rfl⟩
  exact ⟨σ, x, r, h1, h2, h3, C43_unary (op := .add) (v := .squeeze) (c := 0) (shared := false) (.inl h3)⟩

/-- **C43.** Binary operations: the result requires gradient exactly when one of the operands does. -/
theorem C43_binary {a b r : Tensor α} {op : SOp} (h : Tensor.bin op a b = .ok r ∨ a.dot b = .ok r ∨ a.matmul b = .ok r ∨ a.bmm b = .ok r) :
    r.requiresGrad = true ↔ a.requiresGrad = true ∨ b.requiresGrad = true := by
  rw [← Bool.or_eq_true]
  rcases h with h | h | h | h
  · obtain ⟨_, _, h⟩ := bind_eq_ok.1 h; cases h; rfl
  · obtain ⟨_, _, h⟩ := bind_eq_ok.1 h; cases h; rfl
  · unfold Tensor.matmul at h
    split at h
    · obtain ⟨_, _, h⟩ := bind_eq_ok.1 h; cases h; rfl
    · obtain ⟨_, _, h⟩ := bind_eq_ok.1 h
      simp only at h
      split at h
      · cases h; rfl
      · split at h
        · cases h; rfl
        · split at h
          · cases h
          · cases h; rfl
  · obtain ⟨_, _, h⟩ := bind_eq_ok.1 h; cases h; rfl

omit [Build] in
example [k : Build] : ∃ (σ : RunState ℚ) (x w r : Tensor ℚ), runSession smallSession = .ok σ ∧ σ.env[0]? = some x ∧ σ.env[1]? = some w ∧
    w.matmul x = .ok r ∧ (r.requiresGrad = true ↔ w.requiresGrad = true ∨ x.requiresGrad = true) := by
  have ⟨σ, x, w, r, h1, h2, h3, h4⟩ : ∃ (σ : RunState ℚ) (x w r : Tensor ℚ), runSession smallSession = .ok σ ∧ σ.env[0]? = some x ∧
      σ.env[1]? = some w ∧ w.matmul x = .ok r := by
    obtain ⟨l⟩ := k
    cases l <;> with_unfolding_all exact ⟨_, _, _, _, rfl, rfl, rfl, rfl⟩
  exact ⟨σ, x, w, r, h1, h2, h3, h4, C43_binary (op := .add) (.inr (.inr (.inl h4)))⟩

/-- **C43.** Over a whole session: a tensor requires gradient exactly when `set_requires_grad(true)` was called for it
or for something it was computed from (and not revoked). -/
theorem C43_requires_partial {c : List (Cmd α)} {σ : RunState α} (hc : ∀ x ∈ c, x.Fine σ.env) (hr : runSession c = .ok σ)
    {y : Nat} {t : Tensor α} (ht : σ.env[y]? = some t) : t.requiresGrad = requiresOf (program c) y := by
  obtain ⟨sh, h⟩ := Weak.session_inv hc hr
  obtain ⟨F, E, _, _, _, _, hm⟩ := h.tok y t ht
  rw [← (hm fun _ _ => 0).1, ← (dual_value (program c) (fun _ _ => 0) y).1]

omit [Build] in
example [Build] : ∃ (σ : RunState ℚ) (y : Tensor ℚ), runSession smallSession = .ok σ ∧ σ.env[2]? = some y ∧
    y.requiresGrad = requiresOf (program smallSession) 2 :=
  have ⟨σ, _, y, _, hc, hr, hs, _, _, _, _, hy, _⟩ := smallSession_runs
  ⟨σ, y, hr, hy, C43_requires_partial hc hr hy⟩

/-- **C43.** `backward_with` leaves all tensors as they are; only gradients change. -/
theorem C43_tensors_kept {σ σ' : RunState α} {y : Nat} {g : Arr α} (h : σ.exec (.backwardWith y g) = .ok σ' ∨ σ.exec (.backward y) = .ok σ') :
    σ'.env = σ.env := by
  rcases h with h | h <;> exact exec_grad h rfl

omit [Build] in
example [Build] : ∃ σ σ' : RunState ℚ, runSession smallSession = .ok σ ∧ σ.exec (.backward 2) = .ok σ' ∧ σ'.env = σ.env :=
  have ⟨σ, _, _, _, _, hr, _, _, _, _, _, _, _, ⟨σ', hb⟩, _⟩ := smallSession_runs
  ⟨σ, σ', hr, hb, C43_tensors_kept (g := smallSeed 1) (.inr hb)⟩

/-- **C43.** A tensor that does not require gradient has none, and its `backward_with` changes no gradient. -/
theorem C43_not_required_partial {c : List (Cmd α)} {σ : RunState α} (hc : ∀ x ∈ c, x.Fine σ.env) (hr : runSession c = .ok σ)
    {y : Nat} {t : Tensor α} (ht : σ.env[y]? = some t) (hq : t.requiresGrad = false) :
    t.gradient σ.store = none ∧ ∀ g σ', σ.exec (.backwardWith y g) = .ok σ' → σ'.store = σ.store := by
  obtain ⟨sh, h⟩ := Weak.session_inv hc hr
  obtain ⟨F, E, _, _, hn, _, _⟩ := h.tok y t ht
  have hg : t.gradFn = .none := isNone_eq (isNone_of hn hq)
  refine ⟨by unfold Tensor.gradient; rw [hg], fun g σ' hb => ?_⟩
  obtain ⟨t', ht', hb⟩ := bind_eq_ok.1 hb
  have ht' := getT_ok ht'
  rw [ht] at ht'
  cases ht'
  obtain ⟨st', e, rfl⟩ := withStore_ok hb
  obtain ⟨_, _, e⟩ := bind_eq_ok.1 e
  rw [hg] at e
  unfold backward at e
  cases e; rfl

def unrequired : List (Cmd ℚ) := [.op (.leaf [2] [1, 2]), .op (.neg 0)]

omit [Build] in
theorem unrequired_runs [k : Build] : ∃ (σ : RunState ℚ) (t : Tensor ℚ), (∀ x ∈ unrequired, x.Fine σ.env) ∧ runSession unrequired = .ok σ ∧
    SmallEnv σ.env ∧ σ.env[1]? = some t ∧ t.requiresGrad = false := by
  obtain ⟨l⟩ := k
  cases l <;> with_unfolding_all exact ⟨_, _, by simp [unrequired, Cmd.Fine, Instr.Plain], rfl,
    by unfold SmallEnv SmallShape; decide, rfl, rfl⟩

omit [Build] in
example [Build] : ∃ (σ : RunState ℚ) (t : Tensor ℚ), runSession unrequired = .ok σ ∧ σ.env[1]? = some t ∧ t.gradient σ.store = none :=
  have ⟨σ, t, hc, hr, hs, ht, hq⟩ := unrequired_runs
  ⟨σ, t, hr, ht, (C43_not_required_partial hc hr ht hq).1⟩

/-- **C43.** Element `J` of the gradient of a tensor `x` (variable `k`) from which no element of `y` is computed keeps its
value during `y.backward_with(g)`. -/
theorem C43_unreached_partial {c : List (Cmd α)} {σ σ' : RunState α} (hc : ∀ x ∈ c, x.Fine σ.env) (hr : runSession c = .ok σ)
    {y : Nat} {t : Tensor α} (ht : σ.env[y]? = some t) {g : Arr α} (hw : g.WF)
    (hb : σ.exec (.backwardWith y g) = .ok σ')
    {i : Nat} {x : Tensor α} (hx : σ.env[i]? = some x) {gx : Arr α} (hgx : x.gradient σ.store = some gx) :
    ∃ k gx' F F', IsVariable (program c) i k ∧ x.gradient σ'.store = some gx' ∧ gx.Denotes x.arr.shape F ∧ gx'.Denotes x.arr.shape F' ∧
      ∀ J, (∀ idx, InB idx t.arr.shape → ¬ Reaches (program c) k J y idx) → F' J = F J := by
  obtain ⟨G, hG⟩ := hw.denotesD
  have hsh : g.shape = t.arr.shape := by
    obtain ⟨t', ht', hb⟩ := bind_eq_ok.1 hb
    have ht' := getT_ok ht'
    rw [ht] at ht'
    cases ht'
    obtain ⟨st', e, rfl⟩ := withStore_ok hb
    obtain ⟨_, e, _⟩ := bind_eq_ok.1 e
    by_contra hne
    rw [assert_fail (decide_eq_false hne)] at e; cases e
  rw [hsh] at hG
  obtain ⟨k, gx', F, h1, h2, h3, h4⟩ := C40_vjp_partial hc hr ht hw hG hb hx hgx
  refine ⟨k, gx', F, _, h1, h2, h3, h4, fun J hJ => ?_⟩
  rw [pair_zero_right _ fun idx hi => jacobian_deps (hJ idx hi), add_zero]

omit [Build] in
example [Build] : ∃ (σ σ' : RunState ℚ) (x : Tensor ℚ) (gx gx' : Arr ℚ) (k : Nat) (F F' : List Nat → ℚ), runSession smallSession = .ok σ ∧
    σ.exec (.backwardWith 2 (smallSeed 5)) = .ok σ' ∧ σ.env[0]? = some x ∧ x.gradient σ.store = some gx ∧
    x.gradient σ'.store = some gx' ∧ gx.Denotes x.arr.shape F ∧ gx'.Denotes x.arr.shape F' ∧
    ∀ J, (∀ idx, InB idx [2] → ¬ Reaches (program smallSession) k J 2 idx) → F' J = F J := by
  obtain ⟨σ, x, y, gx, hc, hr, hs, hx, _, _, hgx, hy, e, _, hb⟩ := smallSession_runs
  obtain ⟨σ', _, hb, _⟩ := hb 5 5
  obtain ⟨k, gx', F, F', _, h1, h2, h3, h4⟩ := C43_unreached_partial hc hr hy (smallSeed_wf 5) hb hx hgx
  exact ⟨σ, σ', x, gx, gx', k, F, F', hr, hb, hx, hgx, h1, h2, h3, e ▸ h4⟩

/-- **C43.** `detach()` gives a copy with the same elements. (It is an `NdArray`, so it has no gradient.) -/
theorem C43_detach_partial {c : List (Cmd α)} {σ : RunState α} (hc : ∀ x ∈ c, x.Fine σ.env) (hr : runSession c = .ok σ)
    (hs : SmallEnv σ.env) {y : Nat} {t : Tensor α} (ht : σ.env[y]? = some t) :
    ∃ r, t.detach = .ok r ∧ Fresh r ∧ r.Denotes (tensorOf (program c) y).shape (tensorOf (program c) y).elem := by
  have hd := C40_forward_partial hc hr ht
  obtain ⟨sh, h⟩ := session_inv hc hr hs
  obtain ⟨F, E, hw, _⟩ := h.tok y t ht
  have hsm := hs t (List.mem_of_getElem? ht)
  refine ⟨_, ?_, ⟨(tensorOf (program c) y).shape, elements _ (tensorOf (program c) y).elem, length_elements _ _, rfl⟩, denotes_fromContiguous⟩
  unfold Tensor.detach Arr.clone
  rw [cloneData_ok hd hw.cloneOK hw.flags (by rw [tensorOf_shape h ht]; exact hsm.2), hd.1]; rfl

/-! `x` and `w` require gradient, `b` does not; `y = x * b` does not depend on `w`. -/

example [k : Build] : ∃ σ : RunState ℚ, runSession [.op (.leaf [2] [1, 2]), .op (.setReq 0 true), .op (.leaf [2] [3, 4]), .op (.setReq 1 true),
    .op (.leaf [2] [5, 6]), .op (.bin .mul 0 2), .op (.bin .add 2 2), .backward 3] = .ok σ ∧
    σ.env.map (·.requiresGrad) = [true, true, false, true, false] ∧
    σ.env.map (fun t => (t.gradient σ.store).isSome) = [true, true, false, false, false] ∧
    (∀ x ∈ σ.store.drop 1, x.buf = [0, 0]) := by
  obtain ⟨l⟩ := k
  cases l <;> with_unfolding_all exact ⟨_, rfl, rfl, rfl, by decide⟩

/-! ## C44 -/

/-- **C44** (exact). After every session, `y.backward_with(g)` completes exactly when `Safe` holds of the recorded graph
and of the strides of `g`, and panics otherwise; likewise `y.backward()`, whose seed is contiguous. `Safe` follows the
shape and the strides of the gradient through the graph and asks that each reduction and each reshape on the way be
possible. -/
theorem C44_exact {c : List (Cmd α)} {σ : RunState α} (hc : ∀ x ∈ c, x.Fine σ.env) (hr : runSession c = .ok σ)
    (hs : SmallEnv σ.env) {y : Nat} {t : Tensor α} (ht : σ.env[y]? = some t) :
    (((∃ σ', σ.exec (.backward y) = .ok σ') ↔ Safe t.gradFn t.arr.shape (strideFromShape t.arr.shape)) ∧
      ((∃ σ', σ.exec (.backward y) = .ok σ') ∨ σ.exec (.backward y) = .error .panic)) ∧
    ∀ g : Arr α, g.WF → g.shape = t.arr.shape →
      ((∃ σ', σ.exec (.backwardWith y g) = .ok σ') ↔ Safe t.gradFn t.arr.shape g.stride) ∧
      ((∃ σ', σ.exec (.backwardWith y g) = .ok σ') ∨ σ.exec (.backwardWith y g) = .error .panic) := by
  obtain ⟨sh, h⟩ := session_inv hc hr hs
  have hget : getT σ.env y = .ok t := by unfold getT; rw [ht]
  have key : ∀ g : Arr α, g.WF → g.shape = t.arr.shape →
      ((∃ σ', σ.exec (.backwardWith y g) = .ok σ') ↔ Safe t.gradFn t.arr.shape g.stride) ∧
      ((∃ σ', σ.exec (.backwardWith y g) = .ok σ') ∨ σ.exec (.backwardWith y g) = .error .panic) := by
    intro g hw hsh
    obtain ⟨G, hG⟩ := hw.denotesD
    rw [hsh] at hG
    have e : σ.exec (.backwardWith y g) = σ.withStore (t.backwardWith ⟨g, none⟩ σ.store) := by
      show (getT σ.env y >>= fun _ => _) = _
      rw [hget]; rfl
    rw [e]
    rcases backwardWith_cases h ht hw.laid hG with ⟨hp, hn⟩ | ⟨hsafe, hp⟩
    · rw [hp _ h.store]
      exact ⟨⟨fun ⟨_, h⟩ => (by cases h), fun h => absurd h hn⟩, .inr rfl⟩
    · obtain ⟨st', e', _⟩ := hp _ h.store
      rw [e']
      exact ⟨⟨fun _ => hsafe, fun _ => ⟨_, rfl⟩⟩, .inl ⟨_, rfl⟩⟩
  refine ⟨?_, key⟩
  obtain ⟨r, e1, e2⟩ := (C50_full (1 : α) t.arr.shape).1 (hs t (List.mem_of_getElem? ht)).1
  have e1 : Arr.ones t.arr.shape = .ok r := e1
  have hone := ones_inv e1
  have hw : r.Ready (some (strideFromShape t.arr.shape)) := by rw [hone]; exact ready_fresh (by simp)
  have e : σ.exec (.backward y) = σ.exec (.backwardWith y r) := by
    show (getT σ.env y >>= fun _ => _) = (getT σ.env y >>= fun _ => _)
    rw [hget]
    show ((Arr.ones t.arr.shape >>= fun one => t.backwardWith ⟨one, none⟩ σ.store) >>= fun _ => _) = _
    rw [e1]
    rfl
  rw [e, ← hw.strides _ rfl]
  exact key r hw.wf e2.1

/-! A session with `reshape` and `transpose` whose backward pass completes, as the product in between makes a new
contiguous gradient; without it the pass would panic (`C44_transpose_false`). -/

def demoRT : List (Cmd ℚ) :=
  [.op (.leaf [6] [1, 2, 3, 4, 5, 6]), .op (.setReq 0 true), .op (.view (.reshape [2, 3]) 0), .op (.scal .mul 1 2),
    .op (.view (.transpose 0 1) 2)]

example [k : Build] : ∃ (σ : RunState ℚ) (t : Tensor ℚ), (∀ x ∈ demoRT, x.Fine σ.env) ∧ runSession demoRT = .ok σ ∧ SmallEnv σ.env ∧
    σ.env[3]? = some t ∧ Safe t.gradFn t.arr.shape (strideFromShape t.arr.shape) ∧ ∃ σ', σ.exec (.backward 3) = .ok σ' := by
  obtain ⟨l⟩ := k
  cases l <;> with_unfolding_all exact ⟨_, _, by simp [demoRT, Cmd.Fine, Instr.Plain], rfl, by unfold SmallEnv SmallShape; decide, rfl,
    ⟨fun _ => .inr ⟨rfl, by decide⟩, trivial⟩, _, rfl⟩

theorem backward_safe {c : List (Cmd α)} {σ : RunState α} (hc : ∀ x ∈ c, x.Fine σ.env) (hr : runSession c = .ok σ)
    (hs : SmallEnv σ.env) {y : Nat} {t : Tensor α} (ht : σ.env[y]? = some t)
    (hsafe : Safe t.gradFn t.arr.shape (strideFromShape t.arr.shape)) :
    ∃ σ', σ.exec (.backward y) = .ok σ' := (C44_exact hc hr hs ht).1.1.2 hsafe

/-- **C44** (part). `y.backward()` completes after every session without `transpose`, or without `reshape`, `squeeze` and
`unsqueeze`, provided (`Tame`) operands were not broadcast in all their axes at once and nothing of rank 0 was made by
reshaping. Without these restrictions it is false, see below. -/
theorem C44_completes_partial {c : List (Cmd α)} {σ : RunState α} (hc : ∀ x ∈ c, x.Fine σ.env) (hr : runSession c = .ok σ)
    (hs : SmallEnv σ.env) (hkind : (∀ x ∈ program c, x.transposes = false) ∨ (∀ x ∈ program c, x.reshapes = false))
    (htm : ∀ x ∈ program c, x.Tame σ.env) {y : Nat} {t : Tensor α} (ht : σ.env[y]? = some t) :
    ∃ σ', σ.exec (.backward y) = .ok σ' := by
  have h0 : RunInv [] (⟨[], []⟩ : RunState α) (fun _ => ⟨[], 0⟩) := ⟨⟨rfl, fun k a h => by simp at h⟩, fun _ => rfl, fun _ => rfl,
    fun i t h => by simp at h⟩
  have hmem := List.mem_of_getElem? ht
  refine backward_safe hc hr hs ht ?_
  rcases hkind with hk | hk
  · refine safe_session (A := fun s d => (hasUniformStride s d).isSome = true) (fun s => ?_) h0 hc hr hs (fun x hx hx' => ?_)
      (fun _ _ _ s d hd => ⟨hd, fun ns => ?_⟩) htm (by intro t ht; cases ht) t hmem _ ?_
    · obtain ⟨e, _, h⟩ := hasUniformStride_strideFromShape s
      simp_all
    · rw [hk x hx] at hx'; cases hx'
    · unfold viewStride
      split
      · subst ns; exact hd
      · obtain ⟨e, he⟩ := hasUniformStride_scale ns ((hasUniformStride s d).getD 0)
        rw [he]; rfl
    · obtain ⟨e, _, h⟩ := hasUniformStride_strideFromShape t.arr.shape
      simp_all
  · refine safe_session (A := fun _ _ => True) (fun _ => trivial) h0 hc hr hs (fun _ _ _ _ _ _ _ _ => trivial) (fun x hx hx' => ?_) htm
      (by intro t ht; cases ht) t hmem _ trivial
    rw [hk x hx] at hx'; cases hx'

/-! A session with broadcasting, `matmul` and `reshape` that meets the hypotheses. -/

def demoTame : List (Cmd ℚ) :=
  [.op (.leaf [2, 3] [1, 2, 3, 4, 5, 6]), .op (.setReq 0 true), .op (.leaf [3] [1, 0, 2]), .op (.setReq 1 true), .op (.bin .mul 0 1),
    .op (.view (.reshape [3, 2]) 2), .op (.matmul 3 0)]

example [k : Build] : (∀ x ∈ program demoTame, x.transposes = false) ∧
    ∃ σ, (∀ x ∈ demoTame, x.Fine σ.env) ∧ runSession demoTame = .ok σ ∧ SmallEnv σ.env ∧ (∀ x ∈ program demoTame, x.Tame σ.env) := by
  refine ⟨by decide, ?_⟩
  obtain ⟨l⟩ := k
  cases l
  all_goals
  with_unfolding_all refine ⟨_, by simp [demoTame, Cmd.Fine, Instr.Plain], rfl, by unfold SmallEnv SmallShape; decide, ?_⟩
  intro x hx
  simp only [program, demoTame, List.filterMap_cons, Cmd.instr, List.filterMap_nil, List.mem_cons, List.not_mem_nil, or_false] at hx
  rcases hx with rfl | rfl | rfl | rfl | rfl | rfl | rfl <;> try exact trivial
  · intro a b ha hb
    cases ha; cases hb
    exact ⟨.inr (.inr ⟨0, by decide, by decide⟩), .inr (.inr ⟨0, by decide, by decide⟩)⟩
  · intro t ht _
    exact List.cons_ne_nil _ _

omit [Build] in
/-- **C44 is false** (1): `x.reshape([2, 3]).transpose(0, 1).backward()` with `x : [6]` panics: the gradient arrives at the
node of `reshape` transposed, so it has no uniform stride, and `reshape` refuses it. -/
theorem C44_transpose_false [k : Build] : ∃ (σ : RunState ℚ) (t : Tensor ℚ),
    runSession [.op (.leaf [6] [1, 2, 3, 4, 5, 6]), .op (.setReq 0 true), .op (.view (.reshape [2, 3]) 0), .op (.view (.transpose 0 1) 1)] = .ok σ ∧
    SmallEnv σ.env ∧ σ.env[2]? = some t ∧ t.requiresGrad = true ∧ σ.exec (.backward 2) = .error .panic := by
  obtain ⟨l⟩ := k
  cases l <;> with_unfolding_all exact ⟨_, _, rfl, by unfold SmallEnv SmallShape; decide, rfl, rfl, rfl⟩

omit [Build] in
/-- **C44 is false** (2): `(a + b).backward()` with `a : [1]`, `b : [3]` panics: the gradient of `a` is summed to a scalar,
which cannot be reshaped to `[1]`. -/
theorem C44_broadcast_false [k : Build] : ∃ (σ : RunState ℚ) (t : Tensor ℚ),
    runSession [.op (.leaf [1] [1]), .op (.setReq 0 true), .op (.leaf [3] [1, 2, 3]), .op (.bin .add 0 1)] = .ok σ ∧
    SmallEnv σ.env ∧ σ.env[2]? = some t ∧ t.requiresGrad = true ∧ σ.exec (.backward 2) = .error .panic := by
  obtain ⟨l⟩ := k
  cases l <;> with_unfolding_all exact ⟨_, _, rfl, by unfold SmallEnv SmallShape; decide, rfl, rfl, rfl⟩

omit [Build] in
/-- **C44 is false** (3): `a.squeeze().backward()` with `a : [1]` panics for the same reason. -/
theorem C44_squeeze_false [k : Build] : ∃ (σ : RunState ℚ) (t : Tensor ℚ),
    runSession [.op (.leaf [1] [1]), .op (.setReq 0 true), .op (.view .squeeze 0)] = .ok σ ∧
    SmallEnv σ.env ∧ σ.env[1]? = some t ∧ t.requiresGrad = true ∧ σ.exec (.backward 1) = .error .panic := by
  obtain ⟨l⟩ := k
  cases l <;> with_unfolding_all exact ⟨_, _, rfl, by unfold SmallEnv SmallShape; decide, rfl, rfl, rfl⟩

omit [Field α] [Build] in
theorem full_empty (v : α) {s : List Nat} (h : 0 ∈ s) : Arr.full v s = .error .panic := by
  unfold Arr.full
  rw [numel_eq_zero.2 h]; rfl

/-- **C44**, arrays with an extent 0 (there are constructors and operations that make them): `y.backward()` panics on them,
and `set_requires_grad(true)` too, since the gradient of ones and the gradient of zeros cannot be made. -/
theorem C44_empty_panics {σ : RunState α} {y : Nat} {t : Tensor α} (ht : σ.env[y]? = some t) (h0 : 0 ∈ t.arr.shape) :
    σ.exec (.backward y) = .error .panic ∧ (t.requiresGrad = false → σ.exec (.op (.setReq y true)) = .error .panic) := by
  have hget : getT σ.env y = .ok t := by unfold getT; rw [ht]
  constructor
  · show (getT σ.env y >>= fun _ => _) = _
    rw [hget]
    show ((Arr.ones t.arr.shape >>= fun one => t.backwardWith ⟨one, none⟩ σ.store) >>= fun _ => _) = _
    rw [show (Arr.ones t.arr.shape : Res (Arr α)) = .error .panic from full_empty 1 h0]; rfl
  · intro hq
    show (getT σ.env y >>= fun _ => _) = _
    rw [hget]
    show (t.setRequiresGrad true σ.store >>= fun _ => _) = _
    unfold Tensor.setRequiresGrad
    rw [hq]
    show ((Arr.zeros t.arr.shape >>= fun _ => _) >>= fun _ => _) = _
    rw [show (Arr.zeros t.arr.shape : Res (Arr α)) = .error .panic from full_empty 0 h0]; rfl

omit [Build] in
example [k : Build] : ∃ σ : RunState ℚ, runSession [.op (.leaf [2, 0] [])] = .ok σ ∧ σ.exec (.backward 0) = .error .panic := by
  have ⟨σ, t, h1, h2, h3⟩ : ∃ (σ : RunState ℚ) (t : Tensor ℚ), runSession [.op (.leaf [2, 0] [])] = .ok σ ∧ σ.env[0]? = some t ∧
      t.arr.shape = [2, 0] := by
    obtain ⟨l⟩ := k
    cases l <;> with_unfolding_all exact ⟨_, _, rfl, rfl, rfl⟩
  exact ⟨σ, h1, (C44_empty_panics h2 (by rw [h3]; decide)).1⟩

omit [Build] in
/-- **C44 is false** (4): `(a * e).dot(e).backward()` with `a : [1]`, `e : [0]` panics: `a` was stretched to extent 0, an axis that
`get_broadcasted_axes` does not recognise, so its gradient is not summed and `[0]` cannot be reshaped to `[1]`. -/
theorem C44_empty_false [k : Build] : ∃ (σ : RunState ℚ) (t : Tensor ℚ),
    runSession [.op (.leaf [1] [1]), .op (.setReq 0 true), .op (.leaf [0] []), .op (.bin .mul 0 1), .op (.dot 2 1)] = .ok σ ∧
    σ.env[3]? = some t ∧ t.arr.shape = [] ∧ t.requiresGrad = true ∧ σ.exec (.backward 3) = .error .panic := by
  obtain ⟨l⟩ := k
  cases l <;> with_unfolding_all exact ⟨_, _, rfl, rfl, rfl, rfl, rfl⟩

/-! ## C46 -/

/-- **C46** (part). A leaf that requires gradient has one, after any session. -/
theorem C46_leaf {c : List (Cmd α)} {σ : RunState α} (hr : runSession c = .ok σ) {t : Tensor α} (ht : t ∈ σ.env) (hl : t.isLeaf = true)
    (hq : t.requiresGrad = true) : (t.gradient σ.store).isSome = true := by
  obtain ⟨h1, h2, _⟩ := leaf_session hr t ht
  have hu : t.userCreated = true := by unfold Tensor.isLeaf at hl; rw [hq] at hl; exact hl
  obtain ⟨k, hk⟩ := h2 hu hq
  have hlt := h1 k hk
  rw [gradient_acc hk (List.getElem?_eq_getElem hlt)]; rfl

omit [Build] in
example [Build] : ∃ (σ : RunState ℚ) (x : Tensor ℚ), runSession smallSession = .ok σ ∧ σ.env[0]? = some x ∧
    (x.gradient σ.store).isSome = true :=
  have ⟨σ, x, _, _, _, hr, _, hx, hq, hl, _⟩ := smallSession_runs
  ⟨σ, x, hr, hx, C46_leaf hr (List.mem_of_getElem? hx) hl hq⟩

/-- **C46** (part). A tensor that does not require gradient has none, and `zero_gradient` on it changes nothing. -/
theorem C46_not_required {c : List (Cmd α)} {σ : RunState α} (hr : runSession c = .ok σ) {t : Tensor α} (ht : t ∈ σ.env)
    (hq : t.requiresGrad = false) : t.gradient σ.store = none ∧ t.zeroGradient σ.store = .ok σ.store := by
  have hg := (leaf_session hr t ht).2.2 hq
  exact ⟨by unfold Tensor.gradient; rw [hg], zeroGradient_other fun k hk => by rw [hg] at hk; cases hk⟩

omit [Build] in
example [Build] : ∃ (σ : RunState ℚ) (t : Tensor ℚ), runSession unrequired = .ok σ ∧ σ.env[1]? = some t ∧ t.gradient σ.store = none :=
  have ⟨σ, t, _, hr, _, ht, hq⟩ := unrequired_runs
  ⟨σ, t, hr, ht, (C46_not_required hr (List.mem_of_getElem? ht) hq).1⟩

omit [Build] in
theorem gradient_other {t : Tensor α} (st : Store α) (hg : ∀ k, t.gradFn ≠ .acc k) : t.gradient st = none ∧ t.zeroGradient st = .ok st := by
  refine ⟨?_, zeroGradient_other hg⟩
  unfold Tensor.gradient
  split
  · rename_i h; exact absurd h (hg _)
  · rfl

omit [Build] in
theorem mk_not_acc {a : Arr α} {q : Bool} {node : GradFn α} (h : ∀ k, node ≠ .acc k) : ∀ k, (Tensor.mk' a q node).gradFn ≠ .acc k := by
  intro k hk
  cases q with
  | true => exact h k hk
  | false => cases hk

/-- **C46** (part). The results of negation, the binary operators, scalar `*` and `/`, `dot`, `matmul`, `bmm`, `squeeze`,
`unsqueeze`, `transpose` and of `reshape` to another shape report no gradient, and `zero_gradient` on them changes
nothing. Missing: scalar `+` and `-`, `view`, and `reshape` to the present shape, for which it is false. -/
theorem C46_computed_partial {a b r : Tensor α} {op : SOp} {v : SView} {c : α} {shared : Bool} (st : Store α)
    (h : a.neg = .ok r ∨ Tensor.bin op a b = .ok r ∨ ((op = .mul ∨ op = .div) ∧ Tensor.binScalar op a c = .ok r) ∨ a.dot b = .ok r ∨
      a.matmul b = .ok r ∨ a.bmm b = .ok r ∨
      ((v ≠ .view ∧ v ≠ .reshape a.arr.shape) ∧ (a.viewOp v = .ok r ∨ a.intoViewOp shared v = .ok r))) :
    r.gradient st = none ∧ r.zeroGradient st = .ok st := by
  refine gradient_other st ?_
  have hv : (v ≠ .view ∧ v ≠ .reshape a.arr.shape) → ∀ k, v.node a ≠ .acc k := by
    rintro ⟨h1, h2⟩ k hk
    cases v with
    | view => exact h1 rfl
    | reshape s =>
      have hs : s ≠ a.arr.shape := fun e => h2 (by rw [e])
      simp only [SView.node, if_neg hs] at hk
      cases hk
    | squeeze => cases hk
    | unsqueeze _ => cases hk
    | transpose _ _ => cases hk
  rcases h with h | h | ⟨h1, h⟩ | h | h | h | ⟨h1, h | h⟩
  · obtain ⟨_, _, h⟩ := bind_eq_ok.1 h; cases h
    exact mk_not_acc fun k hk => by cases hk
  · obtain ⟨_, _, h⟩ := bind_eq_ok.1 h; cases h
    exact mk_not_acc fun k hk => by cases op <;> cases hk
  · obtain ⟨_, _, h⟩ := bind_eq_ok.1 h; cases h
    exact mk_not_acc fun k hk => by rcases h1 with rfl | rfl <;> cases hk
  · obtain ⟨_, _, h⟩ := bind_eq_ok.1 h; cases h
    exact mk_not_acc fun k hk => by cases hk
  · intro k hk
    exact Nat.not_lt_zero k ((leaf_matmul (n := 0) h).1 k hk)
  · obtain ⟨_, _, h⟩ := bind_eq_ok.1 h; cases h
    exact mk_not_acc fun k hk => by cases hk
  · obtain ⟨_, _, h⟩ := bind_eq_ok.1 h; cases h
    exact mk_not_acc (hv h1)
  · obtain ⟨_, _, h⟩ := bind_eq_ok.1 h
    obtain ⟨_, _, h⟩ := bind_eq_ok.1 h; cases h
    exact mk_not_acc (hv h1)

example [k : Build] : ∃ σ : RunState ℚ, runSession [.op (.leaf [2] [1, 2]), .op (.setReq 0 true), .op (.neg 0), .op (.scal .mul 1 3), .backward 2] = .ok σ ∧
    σ.env.map (·.isLeaf) = [true, false, false] ∧ σ.env.map (fun t => (t.gradient σ.store).isSome) = [true, false, false] := by
  obtain ⟨l⟩ := k
  cases l <;> with_unfolding_all exact ⟨_, rfl, rfl, rfl⟩

omit [Build] in
/-- **C46 is false** (1): `z = x + 1.0` and `v = (&x).view()` are not leaves but report the gradient of `x`, and
`zero_gradient` on them resets it. -/
theorem C46_identity_false [k : Build] : ∃ (σ σ₁ σ₂ : RunState ℚ) (x z v : Tensor ℚ),
    runSession [.op (.leaf [1] [5]), .op (.setReq 0 true), .op (.scal .add 0 1), .op (.view .view 0), .backwardWith 0 (.fromContiguousOwnedBuffer [1] [7])] = .ok σ ∧
    σ.env = [x, z, v] ∧ z.isLeaf = false ∧ v.isLeaf = false ∧ (z.gradient σ.store).isSome = true ∧
    z.gradient σ.store = x.gradient σ.store ∧ v.gradient σ.store = x.gradient σ.store ∧ σ.store.map (·.buf) = [[7]] ∧
    σ.exec (.zeroGradient 1) = .ok σ₁ ∧ σ₁.store.map (·.buf) = [[0]] ∧
    σ.exec (.zeroGradient 2) = .ok σ₂ ∧ σ₂.store.map (·.buf) = [[0]] := by
  have h7 : [[(0 + 7 : ℚ)]] = [[7]] := by norm_num
  obtain ⟨l⟩ := k
  cases l <;> with_unfolding_all exact ⟨_, _, _, _, _, _, rfl, rfl, rfl, rfl, rfl, rfl, rfl, h7, rfl, rfl, rfl, rfl⟩

omit [Build] in
/-- **C46 is false** (2): a computed tensor on which `set_requires_grad(true)` is called is not a leaf, but has a gradient. -/
theorem C46_set_false [k : Build] : ∃ (σ : RunState ℚ) (x z : Tensor ℚ),
    runSession [.op (.leaf [1] [5]), .op (.neg 0), .op (.setReq 1 true)] = .ok σ ∧ σ.env = [x, z] ∧ z.isLeaf = false ∧
    (z.gradient σ.store).isSome = true := by
  obtain ⟨l⟩ := k
  cases l <;> with_unfolding_all exact ⟨_, _, _, rfl, rfl, rfl, rfl⟩

end Verif
