import Verif.Lemmas.Jacobian

/-! # When backward passes complete -/

namespace Verif

variable {α : Type} [Field α] [Build]

def Instr.transposes : Instr α → Bool
  | .view (.transpose _ _) _ => true
  | .into (.transpose _ _) _ _ => true
  | _ => false

def SView.reshapes : SView → Bool
  | .reshape _ => true
  | .squeeze => true
  | .unsqueeze _ => true
  | _ => false

/-- `reshape`, `squeeze` or `unsqueeze`. -/
def Instr.reshapes : Instr α → Bool
  | .view op _ => op.reshapes
  | .into op _ _ => op.reshapes
  | _ => false

/-- The shapes of the operands allow the gradient to be passed back: gradients of operands that were broadcast can be
reduced, and no tensor is reshaped to a scalar. -/
def Instr.Tame (env : List (Tensor α)) : Instr α → Prop
  | .bin _ i j => ∀ a b, env[i]? = some a → env[j]? = some b → CanReduce a.arr.shape (jointShape a.arr.shape b.arr.shape) ∧
      CanReduce b.arr.shape (jointShape a.arr.shape b.arr.shape)
  | .view op i => ∀ t, env[i]? = some t → op.reshapes = true → (op.out t.arr.shape).1 ≠ []
  | .into op _ i => ∀ t, env[i]? = some t → op.reshapes = true → (op.out t.arr.shape).1 ≠ []
  | _ => True

/-- All tensors can pass gradients back; `A s d`: gradients with shape `s` and strides `d` occur. -/
def AllSafe (A : List Nat → List Nat → Prop) (env : List (Tensor α)) : Prop :=
  ∀ t ∈ env, ∀ u, A t.arr.shape u → Safe t.gradFn t.arr.shape u

omit [Build] in
theorem AllSafe.push {A : List Nat → List Nat → Prop} {env : List (Tensor α)} (h : AllSafe A env) {r : Tensor α}
    (hr : ∀ u, A r.arr.shape u → Safe r.gradFn r.arr.shape u) : AllSafe A (env ++ [r]) := by
  intro t ht
  rcases List.mem_append.1 ht with ht | ht
  · exact h t ht
  · simp only [List.mem_singleton] at ht; subst ht; exact hr

omit [Build] in
theorem safe_ite {n : GradFn α} {q : Bool} {s u : List Nat} (h : q = true → Safe n s u) : Safe (if q then n else .none) s u := by
  cases q with
  | true => exact h rfl
  | false => exact trivial

omit [Build] in
theorem A_fit {A : List Nat → List Nat → Prop} (hA : ∀ s, A s (strideFromShape s)) {s r u : List Nat} (hu : A r u) : A s (fitStride u s r) := by
  unfold fitStride
  split
  · subst s; exact hu
  · exact hA s

/-- The strides `A` can be transposed. -/
def Swaps (A : List Nat → List Nat → Prop) : Prop := ∀ s d i j, A s d → A (exchange i j s) (exchange i j d)

/-- The strides `A` are uniform. -/
def Uniform (A : List Nat → List Nat → Prop) : Prop :=
  ∀ s d, A s d → (hasUniformStride s d).isSome = true ∧ ∀ ns, A ns (viewStride s ns d)

theorem shape_last {sh : List (List Nat)} {σ : RunState α} {S : (Nat → List Nat → α) → SpecState (Dual α)} {r : Tensor α} {m : MT (Dual α)} {d : Bool}
    {v : Nat → List Nat → α} (hl : (S v).env.length = σ.env.length) {S' : (Nat → List Nat → α) → SpecState (Dual α)}
    (h : RunInv sh { σ with env := σ.env ++ [r] } S') (hS : S' v = (S v).push m d) : r.arr.shape = m.shape := by
  obtain ⟨F, E, _, _, _, _, hm⟩ := h.tok σ.env.length r (by simp)
  have := (hm v).2.1
  rw [← this]
  show ((S' v).get σ.env.length).1.shape = _
  rw [hS]
  unfold SpecState.get SpecState.push
  simp only [List.getD_eq_getElem?_getD]
  rw [← hl]
  simp

omit [Build] in
theorem exchange_safe {op1 op2 : Int} {s : List Nat} (h : (SView.transpose op1 op2).Applies s) :
    let o := ((SView.transpose op1 op2).out s).1
    exchange (axisNat op1 o.length) (axisNat op2 o.length) o = s := by
  obtain ⟨⟨i, h1⟩, ⟨j, h2⟩⟩ := h
  simp only [SView.out, length_exchange, axisNat_of h1, axisNat_of h2]
  exact exchange_exchange i j s h1.1 h2.1

omit [Build] in
theorem safe_view {A : List Nat → List Nat → Prop} {t r : Tensor α} {op : SView} (ht : ∀ u, A t.arr.shape u → Safe t.gradFn t.arr.shape u)
    (hap : op.Applies t.arr.shape) (hg : r.gradFn = if t.requiresGrad then op.node t else .none) (hsh : r.arr.shape = (op.out t.arr.shape).1)
    (hT : ∀ a b, op = .transpose a b → Swaps A) (hR : op.reshapes = true → Uniform A)
    (hne : op.reshapes = true → (op.out t.arr.shape).1 ≠ []) : ∀ u, A r.arr.shape u → Safe r.gradFn r.arr.shape u := by
  intro u hu
  rw [hg]
  refine safe_ite fun _ => ?_
  rw [hsh] at hu ⊢
  have hre : ∀ {s : List Nat}, A s u → op.reshapes = true → s ≠ [] →
      Safe (.reshape t.gradFn t.arr.shape) s u := fun hu hr hne =>
    ⟨fun _ => .inr ⟨(hR hr _ _ hu).1, hne⟩, ht _ ((hR hr _ _ hu).2 _)⟩
  cases op with
  | view => exact ht u hu
  | reshape ns =>
    unfold SView.node
    by_cases hs : ns = t.arr.shape
    · simp only [if_pos hs, SView.out] at hu ⊢
      rw [hs] at hu ⊢
      exact ht u hu
    · simp only [if_neg hs]
      exact hre hu rfl (hne rfl)
  | squeeze => exact hre hu rfl (hne rfl)
  | unsqueeze ax => exact hre hu rfl (hne rfl)
  | transpose a b =>
    have hs := hT a b rfl _ _ (axisNat a ((SView.transpose a b).out t.arr.shape).1.length) (axisNat b ((SView.transpose a b).out t.arr.shape).1.length) hu
    show Safe t.gradFn (exchange _ _ _) (exchange _ _ u)
    have e := exchange_safe hap
    simp only at e
    rw [e] at hs ⊢
    exact ht _ hs

omit [Build] in
theorem safe_bin {A : List Nat → List Nat → Prop} (hA : ∀ s, A s (strideFromShape s)) {a b r : Tensor α} {op : SOp} {q : Bool} (ha : ∀ u, A a.arr.shape u → Safe a.gradFn a.arr.shape u)
    (hb : ∀ u, A b.arr.shape u → Safe b.gradFn b.arr.shape u) {s : List Nat} (h1 : CanReduce a.arr.shape s) (h2 : CanReduce b.arr.shape s)
    (hg : r.gradFn = if q then op.node a b else .none) (hs : r.arr.shape = s) : ∀ u, A r.arr.shape u → Safe r.gradFn r.arr.shape u := by
  intro u hu
  rw [hs] at hu
  rw [hg, hs]
  refine safe_ite fun _ => ?_
  cases op with
  | add => exact ⟨⟨fun _ => h1, ha _ (A_fit hA hu)⟩, fun _ => h2, hb _ (A_fit hA hu)⟩
  | sub => exact ⟨⟨fun _ => h1, ha _ (A_fit hA hu)⟩, fun _ => h2, hb _ (hA _)⟩
  | mul => exact ⟨⟨fun _ => h1, ha _ (hA _)⟩, fun _ => h2, hb _ (hA _)⟩
  | div => exact ⟨⟨fun _ => h1, ha _ (hA _)⟩, fun _ => h2, hb _ (hA _)⟩

theorem safe_step {A : List Nat → List Nat → Prop} (hA : ∀ s, A s (strideFromShape s)) {sh sh' : List (List Nat)} {σ σ' : RunState α}
    {S : (Nat → List Nat → α) → SpecState (Dual α)} (h : RunInv sh σ S) {x : Instr α}
    (hs : SmallEnv σ.env) (hx : x.Plain σ.env) (h' : RunInv sh' σ' (fun v => (S v).step (Dual.interp v) 0 x)) (hr : σ.step x = .ok σ')
    (hT : x.transposes = true → Swaps A) (hR : x.reshapes = true → Uniform A) (htm : x.Tame σ.env)
    (hsafe : AllSafe A σ.env) : AllSafe A σ'.env := by
  have hsh : ∀ {i : Nat} {t : Tensor α}, σ.env[i]? = some t → ((S fun _ _ => 0).get i).1.shape = t.arr.shape := by
    intro i t ht
    obtain ⟨F, E, _, _, _, _, hm⟩ := h.tok i t ht
    exact (hm _).2.1
  have hsf : ∀ {i : Nat} {t : Tensor α}, σ.env[i]? = some t → ∀ u, A t.arr.shape u → Safe t.gradFn t.arr.shape u :=
    fun ht => hsafe _ (List.mem_of_getElem? ht)
  have hl := h.len fun _ _ => 0
  cases x with
  | leaf s data =>
    obtain ⟨_, _, hr⟩ := bind_eq_ok.1 hr
    obtain ⟨r, e, rfl⟩ := push_ok hr
    cases e
    exact hsafe.push fun _ _ => trivial
  | setReq i b =>
    obtain ⟨t, ht, hr⟩ := bind_eq_ok.1 hr
    obtain ⟨⟨t', st'⟩, hq, hr⟩ := bind_eq_ok.1 hr
    cases hr
    intro t₀ ht₀ u hu
    rcases List.mem_or_eq_of_mem_set ht₀ with h1 | rfl
    · exact hsafe _ h1 u hu
    · have hold := hsf (getT_ok ht) u
      unfold Tensor.setRequiresGrad at hq
      split at hq
      · obtain ⟨z, _, hq⟩ := bind_eq_ok.1 hq
        cases hq; exact trivial
      · split at hq <;> cases hq
        · exact trivial
        · exact hold hu
  | neg i =>
    obtain ⟨t, ht, hr⟩ := bind_eq_ok.1 hr
    have ht := getT_ok ht
    obtain ⟨r, e, rfl⟩ := push_ok hr
    have e1 := shape_last hl h' rfl
    obtain ⟨_, _, e⟩ := bind_eq_ok.1 e
    cases e
    refine hsafe.push fun u hu => safe_ite fun _ => ?_
    rw [e1]
    show Safe t.gradFn _ (strideFromShape _)
    rw [show (MT.map (- ·) ((S fun _ _ => 0).get i).1).shape = _ from hsh ht]
    exact hsf ht _ (hA _)
  | bin op i j =>
    obtain ⟨a, ha, hr⟩ := bind_eq_ok.1 hr
    obtain ⟨b, hb, hr⟩ := bind_eq_ok.1 hr
    obtain ⟨r, e, rfl⟩ := push_ok hr
    have ha := getT_ok ha
    have hb := getT_ok hb
    have e1 := shape_last hl h' rfl
    obtain ⟨_, _, e⟩ := bind_eq_ok.1 e
    have hc := htm a b ha hb
    refine hsafe.push (safe_bin hA (hsf ha) (hsf hb) hc.1 hc.2 (q := a.requiresGrad || b.requiresGrad) (op := op) (by cases e; rfl) ?_)
    rw [e1]
    show jointShape _ _ = _
    rw [hsh ha, hsh hb]
  | scal op i c =>
    obtain ⟨t, ht, hr⟩ := bind_eq_ok.1 hr
    have ht := getT_ok ht
    obtain ⟨r, e, rfl⟩ := push_ok hr
    have e1 := shape_last hl h' rfl
    obtain ⟨_, _, e⟩ := bind_eq_ok.1 e
    cases e
    refine hsafe.push fun u hu => safe_ite fun _ => ?_
    rw [e1, show (MT.map (fun x => op.run x ((Dual.interp fun _ _ => 0).const c)) ((S fun _ _ => 0).get i).1).shape = _ from hsh ht] at hu
    rw [e1, show (MT.map (fun x => op.run x ((Dual.interp fun _ _ => 0).const c)) ((S fun _ _ => 0).get i).1).shape = _ from hsh ht]
    cases op with
    | add => exact hsf ht u hu
    | sub => exact hsf ht u hu
    | mul => exact hsf ht _ (hA _)
    | div => exact hsf ht _ (hA _)
  | dot i j =>
    obtain ⟨a, ha, hr⟩ := bind_eq_ok.1 hr
    obtain ⟨b, hb, hr⟩ := bind_eq_ok.1 hr
    obtain ⟨r, e, rfl⟩ := push_ok hr
    obtain ⟨_, _, e⟩ := bind_eq_ok.1 e
    cases e
    exact hsafe.push fun u hu => safe_ite fun _ => ⟨hsf (getT_ok ha) _ (hA _), hsf (getT_ok hb) _ (hA _)⟩
  | matmul i j =>
    obtain ⟨a, ha, hr⟩ := bind_eq_ok.1 hr
    obtain ⟨b, hb, hr⟩ := bind_eq_ok.1 hr
    obtain ⟨r, e, rfl⟩ := push_ok hr
    have key : ∀ u, A r.arr.shape u → Safe r.gradFn r.arr.shape u := by
      intro u hu
      unfold Tensor.matmul at e
      split at e
      · obtain ⟨_, _, e⟩ := bind_eq_ok.1 e
        cases e
        exact safe_ite fun _ => ⟨hsf (getT_ok ha) _ (hA _), hsf (getT_ok hb) _ (hA _)⟩
      · obtain ⟨_, _, e⟩ := bind_eq_ok.1 e
        simp only at e
        split at e
        · cases e
          exact safe_ite fun _ => ⟨hsf (getT_ok ha) _ (hA _), hsf (getT_ok hb) _ (hA _)⟩
        · split at e
          · cases e
            exact safe_ite fun _ => ⟨hsf (getT_ok ha) _ (hA _), hsf (getT_ok hb) _ (hA _)⟩
          · split at e
            · cases e
            · cases e
              exact safe_ite fun _ => trivial
    exact hsafe.push key
  | bmm i j =>
    obtain ⟨a, ha, hr⟩ := bind_eq_ok.1 hr
    obtain ⟨b, hb, hr⟩ := bind_eq_ok.1 hr
    obtain ⟨r, e, rfl⟩ := push_ok hr
    obtain ⟨_, _, e⟩ := bind_eq_ok.1 e
    cases e
    exact hsafe.push fun u hu => safe_ite fun _ => ⟨hsf (getT_ok ha) _ (hA _), hsf (getT_ok hb) _ (hA _)⟩
  | view op i =>
    obtain ⟨t, ht, hr⟩ := bind_eq_ok.1 hr
    have ht := getT_ok ht
    obtain ⟨r, e, rfl⟩ := push_ok hr
    have e1 := shape_last hl h' rfl
    obtain ⟨_, hap, _, hg⟩ := tok_view op (h.tok i t ht) e
    rw [reshaped_eq] at e1
    simp only [hsh ht] at e1
    exact hsafe.push (safe_view (hsf ht) hap hg e1 (fun a b hab => hT (by rw [hab]; rfl)) hR (htm t ht))
  | into op shared i =>
    obtain ⟨t, ht, hr⟩ := bind_eq_ok.1 hr
    have ht := getT_ok ht
    obtain ⟨r, e, rfl⟩ := push_ok hr
    have e1 := shape_last hl h' rfl
    obtain ⟨_, hap, _, hg⟩ := tok_into op (fun h1 h2 => hx h1 h2 t ht) (hs t (List.mem_of_getElem? ht)) (h.tok i t ht) e
    rw [reshaped_eq] at e1
    simp only [hsh ht] at e1
    exact hsafe.push (safe_view (hsf ht) hap hg e1 (fun a b hab => hT (by rw [hab]; rfl)) hR (htm t ht))

omit [Build] in
theorem Instr.Tame.mono {env env' : List (Tensor α)} (h : ∀ (i : Nat) (t : Tensor α), env[i]? = some t → ∃ t', env'[i]? = some t' ∧ t'.arr = t.arr)
    {x : Instr α} (hx : x.Tame env') : x.Tame env := by
  cases x with
  | bin op i j =>
    intro a b ha hb
    obtain ⟨a', ha', ea⟩ := h i a ha
    obtain ⟨b', hb', eb⟩ := h j b hb
    rw [← ea, ← eb]
    exact hx a' b' ha' hb'
  | view op i =>
    intro t ht
    obtain ⟨t', ht', e⟩ := h i t ht
    rw [← e]
    exact hx t' ht'
  | into op _ i =>
    intro t ht
    obtain ⟨t', ht', e⟩ := h i t ht
    rw [← e]
    exact hx t' ht'
  | _ => exact trivial

theorem safe_session {A : List Nat → List Nat → Prop} (hA : ∀ s, A s (strideFromShape s)) {c : List (Cmd α)} {sh : List (List Nat)} {σ σ' : RunState α}
    {S : (Nat → List Nat → α) → SpecState (Dual α)}
    (h : RunInv sh σ S) (hp : ∀ x ∈ c, x.Fine σ'.env) (hr : c.foldlM RunState.exec σ = .ok σ') (hs : SmallEnv σ'.env)
    (hT : ∀ x ∈ program c, x.transposes = true → Swaps A) (hR : ∀ x ∈ program c, x.reshapes = true → Uniform A)
    (htm : ∀ x ∈ program c, x.Tame σ'.env) (hsafe : AllSafe A σ.env) : AllSafe A σ'.env := by
  induction c generalizing sh σ S with
  | nil => cases hr; exact hsafe
  | cons y p ih =>
    rw [List.foldlM_cons] at hr
    obtain ⟨σ₁, h1, hr₂⟩ := bind_eq_ok.1 hr
    have hsm : SmallEnv σ₁.env := smallEnv_of_session hr₂ hs
    have hs0 := smallEnv_of_exec h1 hsm
    rw [program_cons] at hT hR htm
    have hall : (y :: p).foldlM RunState.exec σ = .ok σ' := by rw [List.foldlM_cons, h1]; exact hr₂
    have hfy : y.Fine σ.env := (hp y (by simp)).mono fun i t ht => session_env hall i t ht
    have hsafe₁ : AllSafe A σ₁.env := by
      cases y with
      | op x =>
        obtain ⟨sh', _, h'⟩ := run_step h hs0 hsm hfy h1
        have hmem : x ∈ program [Cmd.op x] ++ program p := by simp [program, Cmd.instr]
        exact safe_step hA h hs0 hfy h' h1 (hT x hmem) (hR x hmem)
          ((htm x hmem).mono fun i t ht => by
            obtain ⟨t₁, ht₁, e₁⟩ := exec_env h1 i t ht
            obtain ⟨t₂, ht₂, e₂⟩ := session_env hr₂ i t₁ ht₁
            exact ⟨t₂, ht₂, by rw [e₂, e₁]⟩) hsafe
      | backward _ => rw [exec_grad h1 rfl]; exact hsafe
      | backwardWith _ _ => rw [exec_grad h1 rfl]; exact hsafe
      | zeroGradient _ => rw [exec_grad h1 rfl]; exact hsafe
    obtain ⟨sh₁, hi⟩ := run_exec h hs0 hsm hfy h1
    exact ih hi (fun z hz => hp z (by simp [hz])) hr₂ (fun x hx => hT x (by simp [hx])) (fun x hx => hR x (by simp [hx]))
      (fun x hx => htm x (by simp [hx])) hsafe₁

end Verif
