import Verif.Props.Backprop
import Verif.Lemmas.Flow

/-!
# C89, C91: operations and calls of `backward` and `zero_gradient` in any order

C91 says exactly which sessions run to their end. C89 is the case in which that is seen from the operations.
-/

namespace Verif

variable {α : Type}

/-- What a loop over iterations consists of, in a session of a program that makes `n` tensors so far: operations, calls of `backward` on tensors
that exist, calls of `backward_with` with contiguous arrays of the tensor's shape (`Γ`: the shapes), calls of `zero_gradient` on constructed
tensors (`C`: which tensors are). -/
def LoopOK (C : List Bool) (Γ : List (List Nat)) : Nat → List (Cmd α) → Prop
  | _, [] => True
  | n, .op x :: c => (∀ i b, x ≠ .setReq i b) ∧ LoopOK C Γ (n + 1) c
  | n, .backward y :: c => y < n ∧ LoopOK C Γ n c
  | n, .zeroGradient i :: c => i < n ∧ C[i]? = some true ∧ LoopOK C Γ n c
  | n, .backwardWith y g :: c => y < n ∧ (Γ[y]? = some g.shape ∧ g.WF ∧ g.stride = strideFromShape g.shape) ∧ LoopOK C Γ n c

/-- The same for `backward_with` with arrays of any layout. -/
def Legal (C : List Bool) (Γ : List (List Nat)) : Nat → List (Cmd α) → Prop
  | _, [] => True
  | n, .op x :: c => (∀ i b, x ≠ .setReq i b) ∧ Legal C Γ (n + 1) c
  | n, .backward y :: c => y < n ∧ Legal C Γ n c
  | n, .zeroGradient i :: c => i < n ∧ C[i]? = some true ∧ Legal C Γ n c
  | n, .backwardWith y g :: c => y < n ∧ (Γ[y]? = some g.shape ∧ g.WF) ∧ Legal C Γ n c

theorem LoopOK.legal {C : List Bool} {Γ : List (List Nat)} {c : List (Cmd α)} {n : Nat} (h : LoopOK C Γ n c) : Legal C Γ n c := by
  induction c generalizing n with
  | nil => trivial
  | cons x c ih =>
    cases x with
    | op x => exact ⟨h.1, ih h.2⟩
    | backward y => exact ⟨h.1, ih h.2⟩
    | zeroGradient i => exact ⟨h.1, h.2.1, ih h.2.2⟩
    | backwardWith y g => exact ⟨h.1, ⟨h.2.1.1, h.2.1.2.1⟩, ih h.2.2⟩

/-- A call of `backward` or `backward_with` gets through, in a program `p` with tensors of shapes `Γ`. -/
def Cmd.passes (Γ : List (List Nat)) (p : List (Instr α)) : Cmd α → Prop
  | .backward y => Passes Γ p y (rowStrides (Γ.getD y []))
  | .backwardWith y g => Passes Γ p y g.stride
  | _ => True

variable [Field α] [Build]

/-- The element of an array at an index. -/
def Arr.elemAt (g : Arr α) (idx : List Nat) : α := (g.buf[g.off + offset idx g.stride]?).getD 0

omit [Build] in
theorem Arr.WF.denotes_elemAt {g : Arr α} (h : g.WF) : g.Denotes g.shape g.elemAt := by
  obtain ⟨F, hF⟩ := h.denotesD
  refine hF.congr fun idx hi => ?_
  unfold Arr.elemAt
  rw [hF.2.2 idx hi]; rfl

/-- The gradient of variable `k`, tensor `i`: the sum of the derivatives of the tensors on which `backward` was called since the last
`zero_gradient` of tensor `i`. -/
def collected (p : List (Instr α)) (i k : Nat) (J : List Nat) (F : α) (c : List (Cmd α)) : α :=
  c.foldl (fun F x => match x with
    | .backward y => F + pair (tensorOf p y).shape (fun _ => 1) (jacobian p y k J)
    | .backwardWith y g => F + pair (tensorOf p y).shape g.elemAt (jacobian p y k J)
    | .zeroGradient j => if j = i then 0 else F
    | .op _ => F) F

omit [Field α] [Build] in
theorem wellShaped_append {p q : List (Instr α)} {Γ Γ' : List (List Nat)} {B : List Bool} (h : WellShaped Γ B (p ++ q) Γ') :
    ∃ Γm, WellShaped Γ B p Γm ∧ Γm <+: Γ' := by
  induction p generalizing Γ B with
  | nil => exact ⟨Γ, rfl, (wellShaped_mem h).1⟩
  | cons x p ih =>
    obtain ⟨r, h1, h2, h3, h4, h⟩ := h
    obtain ⟨Γm, h5, h6⟩ := ih h
    exact ⟨Γm, ⟨r, h1, h2, h3, h4, h5⟩, h6⟩

omit [Field α] [Build] in
theorem TameAt.prefix {x : Instr α} {Γ Γ' : List (List Nat)} (h : x.TameAt Γ') (hp : Γ <+: Γ') : x.TameAt Γ := by
  have key : ∀ {i : Nat} {s : List Nat}, Γ[i]? = some s → Γ'[i]? = some s := by
    obtain ⟨l, rfl⟩ := hp
    intro i s hi
    rw [List.getElem?_append_left (List.getElem?_eq_some_iff.1 hi).1, hi]
  cases x with
  | bin op i j => exact fun s t hs ht => h s t (key hs) (key ht)
  | view op i =>
    cases op with
    | squeeze => exact fun s hs => h s (key hs)
    | _ => exact h
  | into op b i =>
    cases op with
    | squeeze => exact fun s hs => h s (key hs)
    | _ => exact h
  | _ => trivial

section
omit [Field α] [Build]
variable {β : Type} [Add β] [Sub β] [Mul β] [Div β] [Neg β] [Zero β]

theorem spec_step_length (I : Interp α β) (d : α) (σ : SpecState β) (x : Instr α) (L : List Bool) (b : Bool) (h : σ.env.length = L.length) :
    (σ.step I d x).env.length = (x.extend L b).length := by
  cases x with
  | setReq i b =>
    cases b
    · simp [SpecState.step, Instr.extend, h]
    · simp only [SpecState.step, Instr.extend]
      split
      · exact h
      · simp [h]
  | _ => simp [SpecState.step, SpecState.push, Instr.extend, h]

theorem spec_length (I : Interp α β) (d : α) (p : List (Instr α)) : (specRun I d p).env.length = (constructed p).length := by
  have key : ∀ (p : List (Instr α)) (σ : SpecState β) (L : List Bool), σ.env.length = L.length →
      (p.foldl (SpecState.step I d) σ).env.length = (p.foldl (fun L x => x.extend L x.isLeafInstr) L).length := by
    intro p
    induction p with
    | nil => exact fun σ L h => h
    | cons x p ih => exact fun σ L h => ih _ _ (spec_step_length I d σ x L _ h)
  exact key p _ _ rfl

theorem spec_get_append (I : Interp α β) (d : α) (p : List (Instr α)) {q : List (Instr α)} (hq : ∀ x ∈ q, ∀ i b, x ≠ .setReq i b) {y : Nat}
    (hy : y < (constructed p).length) : (specRun I d (p ++ q)).get y = (specRun I d p).get y := by
  have key : ∀ (q : List (Instr α)) (σ : SpecState β), (∀ x ∈ q, ∀ i b, x ≠ .setReq i b) → y < σ.env.length →
      (q.foldl (SpecState.step I d) σ).get y = σ.get y := by
    intro q
    induction q with
    | nil => exact fun σ _ _ => rfl
    | cons x q ih =>
      intro σ hq hy
      obtain ⟨u, b, e⟩ : ∃ u b, σ.step I d x = σ.push u b := by
        cases x with
        | setReq i b => exact absurd rfl (hq _ (by simp) i b)
        | _ => exact ⟨_, _, rfl⟩
      rw [List.foldl_cons, e, ih _ (fun x hx => hq x (by simp [hx])) (by simp [SpecState.push]; omega)]
      simp only [SpecState.get, SpecState.push, List.getD_eq_getElem?_getD, List.getElem?_append_left hy]
  unfold specRun at *
  rw [List.foldl_append]
  exact key q _ hq (by rw [← spec_length I d p] at hy; exact hy)

end

/-- An operation other than `set_requires_grad` looks at the tensors only, and leaves the gradients alone. -/
theorem step_transport {σ τ τ' : RunState α} {x : Instr α} (hx : ∀ i b, x ≠ .setReq i b) (h : σ.env = τ.env) (ht : τ.step x = .ok τ') :
    σ.step x = .ok ⟨τ'.env, σ.store⟩ := by
  have hst : ∀ u : Res (Tensor α), τ.push u = .ok τ' → σ.push u = .ok ⟨τ'.env, σ.store⟩ := by
    intro u hu
    obtain ⟨t, rfl, hu⟩ := bind_eq_ok.1 hu
    cases hu
    show Except.ok _ = _
    rw [h]
  have hget : ∀ i, getT σ.env i = getT τ.env i := fun i => by rw [h]
  cases x with
  | setReq i b => exact absurd rfl (hx i b)
  | leaf s data =>
    obtain ⟨a, ha, ht⟩ := bind_eq_ok.1 ht
    cases ht
    show (_ >>= _) = _
    rw [ha]
    show Except.ok _ = _
    rw [h]
  | neg i =>
    obtain ⟨t, e, ht⟩ := bind_eq_ok.1 ht
    show (getT σ.env i >>= _) = _
    rw [hget, e]; exact hst _ ht
  | scal op i c =>
    obtain ⟨t, e, ht⟩ := bind_eq_ok.1 ht
    show (getT σ.env i >>= _) = _
    rw [hget, e]; exact hst _ ht
  | view op i =>
    obtain ⟨t, e, ht⟩ := bind_eq_ok.1 ht
    show (getT σ.env i >>= _) = _
    rw [hget, e]; exact hst _ ht
  | into op b i =>
    obtain ⟨t, e, ht⟩ := bind_eq_ok.1 ht
    show (getT σ.env i >>= _) = _
    rw [hget, e]; exact hst _ ht
  | bin op i j =>
    obtain ⟨t, e, ht⟩ := bind_eq_ok.1 ht
    obtain ⟨u, e', ht⟩ := bind_eq_ok.1 ht
    show (getT σ.env i >>= fun t => getT σ.env j >>= _) = _
    rw [hget, hget, e, e']; exact hst _ ht
  | dot i j =>
    obtain ⟨t, e, ht⟩ := bind_eq_ok.1 ht
    obtain ⟨u, e', ht⟩ := bind_eq_ok.1 ht
    show (getT σ.env i >>= fun t => getT σ.env j >>= _) = _
    rw [hget, hget, e, e']; exact hst _ ht
  | matmul i j =>
    obtain ⟨t, e, ht⟩ := bind_eq_ok.1 ht
    obtain ⟨u, e', ht⟩ := bind_eq_ok.1 ht
    show (getT σ.env i >>= fun t => getT σ.env j >>= _) = _
    rw [hget, hget, e, e']; exact hst _ ht
  | bmm i j =>
    obtain ⟨t, e, ht⟩ := bind_eq_ok.1 ht
    obtain ⟨u, e', ht⟩ := bind_eq_ok.1 ht
    show (getT σ.env i >>= fun t => getT σ.env j >>= _) = _
    rw [hget, hget, e, e']; exact hst _ ht

omit [Field α] [Build] in
theorem constructed_append (q r : List (Instr α)) : constructed q <+: constructed (q ++ r) := by
  have key : ∀ (r : List (Instr α)) (L : List Bool), L <+: r.foldl (fun L x => x.extend L x.isLeafInstr) L := by
    intro r
    induction r with
    | nil => exact fun L => List.prefix_rfl
    | cons x r ih =>
      intro L
      refine List.IsPrefix.trans ?_ (ih _)
      cases x <;> first | exact List.prefix_rfl | exact List.prefix_append _ _
  unfold constructed
  rw [List.foldl_append]
  exact key r _

omit [Field α] [Build] in
theorem constructed_snoc (q : List (Instr α)) {x : Instr α} (hx : ∀ i b, x ≠ .setReq i b) : constructed (q ++ [x]) = constructed q ++ [x.isLeafInstr] := by
  unfold constructed
  rw [List.foldl_append]
  cases x with
  | setReq i b => exact absurd rfl (hx i b)
  | _ => rfl

omit [Field α] [Build] in
theorem prefix_get {γ : Type} {l l' : List γ} (h : l <+: l') {i : Nat} (hi : i < l.length) : l'[i]? = l[i]? := by
  obtain ⟨m, rfl⟩ := h
  exact List.getElem?_append_left hi

omit [Field α] [Build] in
theorem loop_no_setReq {C : List Bool} {Γ : List (List Nat)} {c : List (Cmd α)} {n : Nat} (h : Legal C Γ n c) : ∀ x ∈ program c, ∀ i b, x ≠ .setReq i b := by
  induction c generalizing n with
  | nil => intro x hx; cases hx
  | cons y c ih =>
    cases y with
    | op z =>
      intro x hx
      rcases List.mem_cons.1 (show x ∈ z :: program c from hx) with rfl | hx
      · exact h.1
      · exact ih h.2 x hx
    | backward y => exact ih h.2
    | zeroGradient i => exact ih h.2.2
    | backwardWith _ _ => exact ih h.2.2

omit [Field α] [Build] in
theorem loop_seeds {C : List Bool} {Γ : List (List Nat)} {c : List (Cmd α)} {n : Nat} (h : Legal C Γ n c) :
    ∀ y g, Cmd.backwardWith y g ∈ c → g.WF := by
  induction c generalizing n with
  | nil => intro y g hx; cases hx
  | cons z c ih =>
    intro y g hx
    cases z with
    | op z =>
      rcases List.mem_cons.1 hx with e | hx
      · cases e
      · exact ih h.2 y g hx
    | backward z =>
      rcases List.mem_cons.1 hx with e | hx
      · cases e
      · exact ih h.2 y g hx
    | zeroGradient i =>
      rcases List.mem_cons.1 hx with e | hx
      · cases e
      · exact ih h.2.2 y g hx
    | backwardWith _ _ =>
      rcases List.mem_cons.1 hx with e | hx
      · cases e; exact h.2.1.2
      · exact ih h.2.2 y g hx

omit [Field α] [Build] in
theorem fine_of {env : List (Tensor α)} {c : List (Cmd α)} (hp : ∀ x ∈ program c, x.Plain env) (hg : ∀ y g, Cmd.backwardWith y g ∈ c → g.WF) :
    ∀ x ∈ c, x.Fine env := by
  intro x hx
  cases x with
  | op z => exact hp z (List.mem_filterMap.2 ⟨_, hx, rfl⟩)
  | backwardWith y g => exact hg y g hx
  | _ => trivial

omit [Field α] [Build] in
theorem program_append (c d : List (Cmd α)) : program (c ++ d) = program c ++ program d := List.filterMap_append

omit [Field α] [Build] in
theorem program_ops (p : List (Instr α)) : program (p.map Cmd.op) = p := by
  have := program_calls p []
  rwa [List.map_nil, List.append_nil] at this

/-- What is known of the tensors after the operations `q`, when more operations `r` follow. -/
theorem prefix_facts {P q r : List (Instr α)} {Γ : List (List Nat)} (h : WellShaped [] [] P Γ) (hP : P = q ++ r) :
    ∃ τ, runSession (q.map .op) = .ok τ ∧ SmallEnv τ.env ∧ (∀ x ∈ q, x.Plain τ.env) ∧ Apart τ.env ∧ τ.env.map (fun t => t.userCreated) = constructed q ∧
      τ.env.map (fun t => t.arr.shape) <+: Γ := by
  subst hP
  obtain ⟨Γq, hq, hpre⟩ := wellShaped_append h
  obtain ⟨τ, hτ, hs⟩ := C87_program hq
  obtain ⟨_, hu, ha⟩ := program_facts hτ
  exact ⟨τ, hτ, fun t ht => wellShaped_small hq (fun s hs => by cases hs) _ (by rw [← hs]; exact List.mem_map_of_mem ht),
    program_plain hq hτ, ha, hu, by rw [hs]; exact hpre⟩

omit [Field α] [Build] in
theorem flow_length (Γ : List (List Nat)) (p : List (Instr α)) : (p.foldl (Instr.flow Γ) []).length = (constructed p).length := by
  have key : ∀ (p : List (Instr α)) (F : List Flow) (L : List Bool), F.length = L.length →
      (p.foldl (Instr.flow Γ) F).length = (p.foldl (fun L x => x.extend L x.isLeafInstr) L).length := by
    intro p
    induction p with
    | nil => exact fun F L h => h
    | cons x p ih =>
      refine fun F L h => ih _ _ ?_
      cases x <;> simp [Instr.flow, Instr.extend, h]
  exact key p _ _ rfl

omit [Field α] [Build] in
/-- Later operations do not matter. -/
theorem passes_prefix {Γ : List (List Nat)} {p q : List (Instr α)} (hq : ∀ x ∈ q, ∀ i b, x ≠ .setReq i b) {y : Nat} (hy : y < (constructed p).length)
    (d : List Nat) : Passes Γ (p ++ q) y d ↔ Passes Γ p y d := by
  have key : ∀ (q : List (Instr α)) (F : List Flow), (∀ x ∈ q, ∀ i b, x ≠ .setReq i b) → F <+: q.foldl (Instr.flow Γ) F := by
    intro q
    induction q with
    | nil => exact fun F _ => List.prefix_rfl
    | cons x q ih =>
      intro F hq
      refine List.IsPrefix.trans ?_ (ih _ fun x hx => hq x (by simp [hx]))
      cases x with
      | setReq i b => exact absurd rfl (hq _ (by simp) i b)
      | _ => exact List.prefix_append _ _
  unfold Passes
  rw [List.foldl_append, List.getD_eq_getElem?_getD, List.getD_eq_getElem?_getD,
    prefix_get (key q _ hq) (by rw [flow_length]; exact hy)]

/-- What is known of a constructed tensor `i` with gradient, at some point of the session: its gradient is `F i k`. -/
def TrackedIn (q : List (Instr α)) (σ : RunState α) (F : Nat → Nat → List Nat → α) : Prop :=
  ∀ (i : Nat) (x : Tensor α), σ.env[i]? = some x → x.userCreated = true → x.requiresGrad = true → ∃ k gx, IsVariable q i k ∧
    x.gradient σ.store = some gx ∧ gx.Denotes (tensorOf q i).shape (F i k)

/-- After a program whose shapes check out, the gradients are zero. -/
theorem start_facts {p : List (Instr α)} {Γ : List (List Nat)} (h : WellShaped [] [] p Γ) {σ : RunState α} (hr : runSession (p.map .op) = .ok σ) :
    TrackedIn p σ fun _ _ _ => 0 := by
  obtain ⟨hzero, _, _⟩ := program_facts hr
  obtain ⟨τ, hτ, hΓ⟩ := C87_program h
  rw [hr] at hτ
  cases hτ
  have hs : SmallEnv σ.env := fun t ht => wellShaped_small h (fun s hs => by cases hs) _ (by rw [← hΓ]; exact List.mem_map_of_mem ht)
  have hfi : ∀ x ∈ p.map Cmd.op, x.Fine σ.env := fine_of (by rw [program_ops]; exact program_plain h hr) fun y g hg => by
    obtain ⟨_, _, hg⟩ := List.mem_map.1 hg
    cases hg
  intro i x hx hxu hxr
  have hl : x.isLeaf = true := by unfold Tensor.isLeaf; rw [hxr, hxu]; rfl
  obtain ⟨gx, hgx⟩ := Option.isSome_iff_exists.1 (C46_leaf hr (List.mem_of_getElem? hx) hl hxr)
  obtain ⟨q, a, hq, ha, rfl⟩ := gradient_some hgx
  obtain ⟨σ₁, hb⟩ := (C44_exact hfi hr hs hx).1.1.2 (by rw [hq]; trivial)
  obtain ⟨k, _, F, hv, _, hF, _⟩ := C40_backward_partial hfi hr hx hb hx hgx
  have hfor := C40_forward_partial hfi hr hx
  rw [program_ops] at hv hfor
  rw [hfor.1] at hF
  refine ⟨k, _, hv, hgx, hF.congr fun J hJ => ?_⟩
  obtain ⟨s, rfl⟩ := hzero a (List.mem_of_getElem? ha)
  exact List.eq_of_mem_replicate (List.mem_of_getElem? (hF.2.2 J hJ))

/-- **C91.** A program that makes some tensors and decides which require gradient, followed by operations (`set_requires_grad` excepted), calls
of `backward`, of `backward_with` with seeds of any layout, and of `zero_gradient` on constructed tensors, in any order. If the shapes of the whole
check out, it runs to its end if and only if every call of `backward` and `backward_with` gets through (`Passes`), and panics otherwise. If it runs,
each constructed tensor `x` that requires gradient ends up with the
sum of `Σ_idx g[idx] · ∂y[idx]/∂x[J]` over the calls `y.backward_with(g)` (`g` is 1 for `y.backward()`) since its last `zero_gradient`. -/
theorem C91_loop {p₀ : List (Instr α)} {body : List (Cmd α)} {Γ : List (List Nat)} (h : WellShaped [] [] (p₀ ++ program body) Γ)
    (hb : Legal (constructed (p₀ ++ program body)) Γ (constructed p₀).length body) :
    ((∀ c ∈ body, c.passes Γ (p₀ ++ program body)) → ∃ σ, runSession (p₀.map .op ++ body) = .ok σ ∧ σ.env.map (fun t => t.arr.shape) = Γ ∧
      (∀ (i : Nat) (t : Tensor α), σ.env[i]? = some t → t.arr.Denotes (tensorOf (p₀ ++ program body) i).shape (tensorOf (p₀ ++ program body) i).elem) ∧
      ∀ i, (constructed (p₀ ++ program body))[i]? = some true → requiresOf (p₀ ++ program body) i = true →
        ∃ x k gx, σ.env[i]? = some x ∧ IsVariable (p₀ ++ program body) i k ∧ x.gradient σ.store = some gx ∧
          gx.Denotes (tensorOf (p₀ ++ program body) i).shape (fun J => collected (p₀ ++ program body) i k J 0 body)) ∧
    ((¬ ∀ c ∈ body, c.passes Γ (p₀ ++ program body)) → runSession (p₀.map .op ++ body) = .error .panic) := by
  generalize hP : p₀ ++ program body = P at *
  have hfine : ∀ (env : List (Tensor α)) done rest, body = done ++ rest → (∀ x ∈ p₀ ++ program done, x.Plain env) → ∀ x ∈ p₀.map .op ++ done, x.Fine env := by
    intro env done rest e hpl
    refine fine_of (by rw [program_append, program_ops]; exact hpl) fun y g hg => ?_
    rcases List.mem_append.1 hg with hg | hg
    · obtain ⟨_, _, hg⟩ := List.mem_map.1 hg
      cases hg
    · exact loop_seeds hb y g (by rw [e]; simp [hg])
  -- along the session
  have key : ∀ (rest done : List (Cmd α)) (σ τ : RunState α) (F : Nat → Nat → List Nat → α), body = done ++ rest →
      Legal (constructed P) Γ (constructed (p₀ ++ program done)).length rest →
      runSession (p₀.map .op ++ done) = .ok σ → runSession ((p₀ ++ program done).map .op) = .ok τ → σ.env = τ.env →
      TrackedIn (p₀ ++ program done) σ F →
      ((∀ c ∈ rest, c.passes Γ P) ∧ ∃ σ' τ', runSession (p₀.map .op ++ body) = .ok σ' ∧ runSession (P.map .op) = .ok τ' ∧ σ'.env = τ'.env ∧
        TrackedIn P σ' (fun i k J => collected P i k J (F i k J) rest)) ∨
      ((¬ ∀ c ∈ rest, c.passes Γ P) ∧ runSession (p₀.map .op ++ body) = .error .panic) := by
    intro rest
    induction rest with
    | nil =>
      intro done σ τ F e _ hσ hτ he hF
      rw [List.append_nil] at e
      subst e
      rw [hP] at hτ hF
      exact .inl ⟨fun c hc => (by cases hc), σ, τ, hσ, hτ, he, hF⟩
    | cons c rest ih =>
      intro done σ τ F e hl hσ hτ he hF
      have hsplit : P = (p₀ ++ program done) ++ program (c :: rest) := by rw [← hP, e, program_append, List.append_assoc]
      have hno := loop_no_setReq hl
      obtain ⟨τq, hτq, hsmall, hplain, hap, hu, hshp⟩ := prefix_facts h hsplit
      rw [hτ] at hτq
      cases hτq
      rw [← he] at hsmall hplain hap hu hshp
      have hprog : program (p₀.map .op ++ done) = p₀ ++ program done := by rw [program_append, program_ops]
      have hfi := hfine σ.env done _ e hplain
      have hlen : (constructed (p₀ ++ program done)).length = σ.env.length := by rw [← hu, List.length_map]
      have hfor : ∀ (i : Nat) (t : Tensor α), σ.env[i]? = some t → t.arr.Denotes (tensorOf (p₀ ++ program done) i).shape (tensorOf (p₀ ++ program done) i).elem := by
        intro i t hi
        have := C40_forward_partial hfi hσ hi
        rwa [hprog] at this
      have next : ∀ σ₁, σ.exec c = .ok σ₁ → runSession (p₀.map .op ++ (done ++ [c])) = .ok σ₁ := by
        intro σ₁ e1
        unfold runSession at hσ ⊢
        rw [← List.append_assoc, List.foldlM_append, hσ]
        show (σ.exec c >>= fun s => pure s) = _
        rw [e1]; rfl
      have hbody : body = (done ++ [c]) ++ rest := by rw [e, List.append_assoc]; rfl
      have crash : σ.exec c = .error .panic → runSession (p₀.map .op ++ body) = .error .panic := by
        intro e1
        unfold runSession at hσ ⊢
        rw [e, ← List.append_assoc, List.foldlM_append, hσ]
        show (σ.exec c >>= fun s => _) = _
        rw [e1]; rfl
      -- one command more
      have more : ∀ {F' : Nat → Nat → List Nat → α}, c.passes Γ P → (∀ i k J, collected P i k J (F i k J) (c :: rest) = collected P i k J (F' i k J) rest) →
          (((∀ c ∈ rest, c.passes Γ P) ∧ ∃ σ' τ', runSession (p₀.map .op ++ body) = .ok σ' ∧ runSession (P.map .op) = .ok τ' ∧ σ'.env = τ'.env ∧
            TrackedIn P σ' (fun i k J => collected P i k J (F' i k J) rest)) ∨
            ((¬ ∀ c ∈ rest, c.passes Γ P) ∧ runSession (p₀.map .op ++ body) = .error .panic)) →
          (((∀ c' ∈ c :: rest, c'.passes Γ P) ∧ ∃ σ' τ', runSession (p₀.map .op ++ body) = .ok σ' ∧ runSession (P.map .op) = .ok τ' ∧ σ'.env = τ'.env ∧
            TrackedIn P σ' (fun i k J => collected P i k J (F i k J) (c :: rest))) ∨
            ((¬ ∀ c' ∈ c :: rest, c'.passes Γ P) ∧ runSession (p₀.map .op ++ body) = .error .panic)) := by
        intro F' hp hF' hh
        simp only [hF']
        rcases hh with ⟨h1, h2⟩ | ⟨h1, h2⟩
        · exact .inl ⟨fun c' hc' => by rcases List.mem_cons.1 hc' with rfl | hc'; exact hp; exact h1 c' hc', h2⟩
        · exact .inr ⟨fun hall => h1 fun c' hc' => hall c' (by simp [hc']), h2⟩
      -- whether a gradient gets through
      have hshape : ∀ (i : Nat) (t : Tensor α), σ.env[i]? = some t → Γ[i]? = some t.arr.shape := by
        intro i t hi
        rw [prefix_get hshp (by rw [List.length_map]; exact (List.getElem?_eq_some_iff.1 hi).1), List.getElem?_map, hi]; rfl
      have hpass : ∀ {y : Nat} {t : Tensor α}, σ.env[y]? = some t → ∀ {d : List Nat}, GoodStrides t.arr.shape d →
          (Safe t.gradFn t.arr.shape d ↔ Passes Γ P y d) := by
        intro y t hy d hd
        rw [passes_safe hfi hσ hsmall hshape hy hd, hprog, hsplit, passes_prefix hno]
        rw [hlen]; exact (List.getElem?_eq_some_iff.1 hy).1
      -- the meaning of tensor `y` does not change any more
      have hget : ∀ {β : Type} [Add β] [Sub β] [Mul β] [Div β] [Neg β] [Zero β] (I : Interp α β) {y : Nat}, y < σ.env.length →
          (specRun I 0 P).get y = (specRun I 0 (p₀ ++ program done)).get y := by
        intro β _ _ _ _ _ _ I y hy
        rw [hsplit]
        exact spec_get_append I 0 _ hno (by rw [hlen]; exact hy)
      cases c with
      | op x =>
        have hx : ∀ i b, x ≠ .setReq i b := hl.1
        have hq' : p₀ ++ program (done ++ [.op x]) = (p₀ ++ program done) ++ [x] := by rw [program_append, List.append_assoc]; rfl
        obtain ⟨τ', hτ', _⟩ := prefix_facts (q := (p₀ ++ program done) ++ [x]) (r := program rest) h (by rw [hsplit, List.append_assoc (p₀ ++ program done)]; rfl)
        have hstep : τ.step x = .ok τ' := by
          unfold runSession at hτ hτ'
          rw [List.map_append, List.foldlM_append, hτ] at hτ'
          obtain ⟨_, h3, h4⟩ := bind_eq_ok.1 (show (τ.step x >>= fun s => .ok s) = .ok τ' from hτ')
          cases h4; exact h3
        have hs' := step_transport hx he hstep
        have hσ' := next _ hs'
        refine more trivial (fun _ _ _ => rfl) (ih (done ++ [.op x]) ⟨τ'.env, σ.store⟩ τ' F hbody ?_ hσ' (by rw [hq']; exact hτ') rfl ?_)
        · rw [hq', constructed_snoc _ hx, List.length_append]
          exact hl.2
        · rw [hq']
          rcases step_made hs' with ⟨t, _, e1, htc, htk⟩ | ⟨i, b, _, _, _, e1, _⟩
          · have henv : τ'.env = σ.env ++ [t] := congrArg RunState.env e1
            have hget1 : ∀ {β : Type} [Add β] [Sub β] [Mul β] [Div β] [Neg β] [Zero β] (I : Interp α β) {y : Nat}, y < σ.env.length →
                (specRun I 0 ((p₀ ++ program done) ++ [x])).get y = (specRun I 0 (p₀ ++ program done)).get y := by
              intro β _ _ _ _ _ _ I y hy
              exact spec_get_append I 0 _ (fun z hz => by rw [List.mem_singleton.1 hz]; exact hx) (by rw [hlen]; exact hy)
            intro i z hi hzc hzr
            have hi : (σ.env ++ [t])[i]? = some z := by rw [← henv]; exact hi
            by_cases hlt : i < σ.env.length
            · rw [List.getElem?_append_left hlt] at hi
              obtain ⟨k, gx, hv, hg, hd⟩ := hF i z hi hzc hzr
              have hto : tensorOf ((p₀ ++ program done) ++ [x]) i = tensorOf (p₀ ++ program done) i := by
                unfold tensorOf; rw [hget1 _ hlt]
              refine ⟨k, gx, ?_, hg, by rw [hto]; exact hd⟩
              intro v idx hidx
              rw [hto] at hidx
              rw [hget1 _ hlt]
              exact hv v idx hidx
            · rw [List.getElem?_append_right (by omega)] at hi
              have hzt := List.mem_singleton.1 (List.mem_of_getElem? hi)
              subst hzt
              obtain ⟨k, hk⟩ := (leaf_session hσ' z (by show z ∈ τ'.env; rw [henv]; simp)).2.1 hzc hzr
              exact absurd hk (htk hzc k)
          · exact absurd e1 (hx i b)
      | backward y =>
        have hyσ : y < σ.env.length := by rw [← hlen]; exact hl.1
        have hy := List.getElem?_eq_getElem hyσ
        have hsy : Γ.getD y [] = σ.env[y].arr.shape := by rw [List.getD_eq_getElem?_getD, hshape y _ hy]; rfl
        have hex := C44_exact hfi hσ hsmall hy
        have hps := hpass hy (goodStrides_even (hsmall _ (List.mem_of_getElem? hy)).1 (Nat.lt_add_one 0))
        rw [Nat.zero_add, evenStrides_one] at hps
        have hpb : (Cmd.backward y).passes Γ P ↔ Passes Γ P y (strideFromShape σ.env[y].arr.shape) := by
          show Passes Γ P y (rowStrides (Γ.getD y [])) ↔ _
          rw [hsy, rowStrides_eq]
        by_cases hcp : (Cmd.backward y).passes Γ P
        swap
        · refine .inr ⟨fun hall => hcp (hall _ (by simp)), crash (hex.1.2.resolve_left fun hok => hcp ?_)⟩
          exact hpb.2 (hps.1 (hex.1.1.1 hok))
        obtain ⟨σ₁, hbw⟩ := hex.1.1.2 (hps.2 (hpb.1 hcp))
        have hq' : p₀ ++ program (done ++ [.backward y]) = p₀ ++ program done := by rw [program_append]; simp [program, Cmd.instr]
        have henv := exec_grad hbw rfl
        refine more hcp (fun _ _ _ => rfl) (ih (done ++ [.backward y]) σ₁ τ (fun i k J => F i k J + pair (tensorOf P y).shape (fun _ => 1) (jacobian P y k J)) hbody
          (by rw [hq']; exact hl.2) (next _ hbw) (by rw [hq']; exact hτ) (henv.trans he) ?_)
        rw [hq']
        intro i x hx hxu hxr
        rw [henv] at hx
        obtain ⟨k, gx, hv, hgx, hd⟩ := hF i x hx hxu hxr
        obtain ⟨k', gx', F₀, hv', hg', hF₀, hd'⟩ := C40_backward_partial hfi hσ (List.getElem?_eq_getElem hyσ) hbw hx hgx
        rw [hprog] at hv' hd'
        have hn0 : 0 ∉ (tensorOf (p₀ ++ program done) i).shape := by
          rw [← (hfor i x hx).1]
          exact (hsmall x (List.mem_of_getElem? hx)).1
        obtain rfl := isVariable_unique hn0 hv hv'
        have hys := (hfor y σ.env[y] (List.getElem?_eq_getElem hyσ)).1
        refine ⟨k, gx', hv, hg', ?_⟩
        rw [hys] at hd'
        rw [(hfor i x hx).1] at hd' hF₀
        refine hd'.congr fun J hJ => ?_
        rw [denotes_unique hF₀ hd hJ]
        have e1 : tensorOf P y = tensorOf (p₀ ++ program done) y := by unfold tensorOf; rw [hget _ hyσ]
        have e2 : jacobian P y k J = jacobian (p₀ ++ program done) y k J := by
          funext idx; unfold jacobian; rw [hget _ hyσ]
        simp only [e1, e2]
      | backwardWith y g =>
        have hyσ : y < σ.env.length := by rw [← hlen]; exact hl.1
        obtain ⟨hgy, hgw⟩ := hl.2.1
        have hy := List.getElem?_eq_getElem hyσ
        have hgs : g.shape = σ.env[y].arr.shape := Option.some.inj (hgy.symm.trans (hshape y _ hy))
        have hex := (C44_exact hfi hσ hsmall hy).2 g hgw hgs
        have hgd : GoodStrides σ.env[y].arr.shape g.stride := by
          refine ⟨by rw [hgw.valid.1, hgs], ?_⟩
          rcases hgw.pos with h0 | h0
          · exact absurd (numel_eq_zero.1 (hgs ▸ h0)) (hsmall _ (List.mem_of_getElem? hy)).1
          · exact h0
        have hps := hpass hy hgd
        by_cases hcp : (Cmd.backwardWith y g).passes Γ P
        swap
        · exact .inr ⟨fun hall => hcp (hall _ (by simp)), crash (hex.2.resolve_left fun hok => hcp (hps.1 (hex.1.1 hok)))⟩
        obtain ⟨σ₁, hbw⟩ := hex.1.2 (hps.2 hcp)
        have hq' : p₀ ++ program (done ++ [.backwardWith y g]) = p₀ ++ program done := by rw [program_append]; simp [program, Cmd.instr]
        have henv := exec_grad hbw rfl
        refine more hcp (fun _ _ _ => rfl) (ih (done ++ [.backwardWith y g]) σ₁ τ (fun i k J => F i k J + pair (tensorOf P y).shape g.elemAt (jacobian P y k J)) hbody
          (by rw [hq']; exact hl.2.2) (next _ hbw) (by rw [hq']; exact hτ) (henv.trans he) ?_)
        rw [hq']
        intro i x hx hxu hxr
        rw [henv] at hx
        obtain ⟨k, gx, hv, hgx, hd⟩ := hF i x hx hxu hxr
        obtain ⟨k', gx', F₀, hv', hg', hF₀, hd'⟩ := C40_vjp_partial hfi hσ (List.getElem?_eq_getElem hyσ) hgw (by rw [← hgs]; exact hgw.denotes_elemAt) hbw hx hgx
        rw [hprog] at hv' hd'
        have hn0 : 0 ∉ (tensorOf (p₀ ++ program done) i).shape := by
          rw [← (hfor i x hx).1]
          exact (hsmall x (List.mem_of_getElem? hx)).1
        obtain rfl := isVariable_unique hn0 hv hv'
        have hys := (hfor y σ.env[y] (List.getElem?_eq_getElem hyσ)).1
        refine ⟨k, gx', hv, hg', ?_⟩
        rw [hys] at hd'
        rw [(hfor i x hx).1] at hd' hF₀
        refine hd'.congr fun J hJ => ?_
        rw [denotes_unique hF₀ hd hJ]
        have e1 : tensorOf P y = tensorOf (p₀ ++ program done) y := by unfold tensorOf; rw [hget _ hyσ]
        have e2 : jacobian P y k J = jacobian (p₀ ++ program done) y k J := by
          funext idx; unfold jacobian; rw [hget _ hyσ]
        simp only [e1, e2]
      | zeroGradient j =>
        have hq' : p₀ ++ program (done ++ [.zeroGradient j]) = p₀ ++ program done := by rw [program_append]; simp [program, Cmd.instr]
        have hjσ : j < σ.env.length := by rw [← hlen]; exact hl.1
        have hcon : (constructed (p₀ ++ program done))[j]? = some true := by
          rw [← prefix_get (l' := constructed P) (by rw [hsplit]; exact constructed_append _ _) (by rw [hlen]; exact hjσ)]
          exact hl.2.1
        obtain ⟨u, hu', huc⟩ : ∃ u : Tensor α, σ.env[j]? = some u ∧ u.userCreated = true := by
          rw [← hu, List.getElem?_map] at hcon
          obtain ⟨u, h1, h2⟩ := Option.map_eq_some_iff.1 hcon
          exact ⟨u, h1, h2⟩
        by_cases hur : u.requiresGrad = true
        · obtain ⟨k, gx, hv, hgx, hd⟩ := hF j u hu' huc hur
          obtain ⟨σ₁, gu, ez, hgu, hdu, henv, hoth⟩ := C42_zero_partial hfi hσ hu' hgx
          refine more trivial (fun _ _ _ => rfl) (ih (done ++ [.zeroGradient j]) σ₁ τ (fun i k J => if j = i then 0 else F i k J) hbody
            (by rw [hq']; exact hl.2.2) (next _ ez) (by rw [hq']; exact hτ) (henv.trans he) ?_)
          rw [hq']
          intro i x hx hxu hxr
          rw [henv] at hx
          by_cases hij : j = i
          · subst hij
            rw [hu'] at hx
            cases hx
            refine ⟨k, gu, hv, hgu, ?_⟩
            rw [(hfor j u hu').1] at hdu
            exact hdu.congr fun J _ => by simp
          · obtain ⟨k', gx', hv', hg', hd'⟩ := hF i x hx hxu hxr
            refine ⟨k', gx', hv', ?_, hd'.congr fun J _ => (if_neg hij).symm⟩
            rw [hoth x fun e => ?_, hg']
            obtain ⟨q, a, hq, _⟩ := gradient_some hgx
            exact hij (hap j i u x q hu' hx huc hxu hq (e.trans hq))
        · have hur' : u.requiresGrad = false := by simpa using hur
          have e0 : u.zeroGradient σ.store = .ok σ.store := by
            have := (leaf_session hσ u (List.mem_of_getElem? hu')).2.2 hur'
            exact zeroGradient_other fun k hk => by rw [this] at hk; cases hk
          have ez : σ.exec (.zeroGradient j) = .ok σ := by
            have hg : getT σ.env j = .ok u := by unfold getT; rw [hu']
            show (getT σ.env j >>= fun _ => _) = _
            rw [hg]
            show σ.withStore (u.zeroGradient σ.store) = _
            rw [e0]; rfl
          refine more trivial (fun _ _ _ => rfl) (ih (done ++ [.zeroGradient j]) σ τ (fun i k J => if j = i then 0 else F i k J) hbody
            (by rw [hq']; exact hl.2.2) (next _ ez) (by rw [hq']; exact hτ) he ?_)
          rw [hq']
          intro i x hx hxu hxr
          obtain ⟨k', gx', hv', hg', hd'⟩ := hF i x hx hxu hxr
          refine ⟨k', gx', hv', hg', hd'.congr fun J _ => ?_⟩
          refine (if_neg ?_).symm
          rintro rfl
          rw [hu'] at hx
          cases hx
          exact hur hxr
  -- the start
  have hw₀ : ∃ Γ₀, WellShaped [] [] p₀ Γ₀ ∧ Γ₀ <+: Γ := wellShaped_append (q := program body) (by rw [hP]; exact h)
  obtain ⟨Γ₀, hw₀, hpre⟩ := hw₀
  obtain ⟨σ₀, hr₀, _⟩ := C87_program hw₀
  have e0 : p₀ ++ program ([] : List (Cmd α)) = p₀ := List.append_nil _
  rcases key body [] σ₀ σ₀ (fun _ _ _ => 0) rfl (by rw [e0]; exact hb) (by simpa using hr₀) (by rw [e0]; exact hr₀) rfl
    (by rw [e0]; exact start_facts hw₀ hr₀) with ⟨hall, σ, τ, hσ, hτ, he, hF⟩ | ⟨hno, hpan⟩
  swap
  · exact ⟨fun hall => absurd hall hno, fun _ => hpan⟩
  refine ⟨fun _ => ?_, fun hno => absurd hall hno⟩
  obtain ⟨τ', hτ', hΓ⟩ := C87_program h
  rw [hτ] at hτ'
  cases hτ'
  obtain ⟨_, hu, _⟩ := program_facts hτ
  have hfb := hfine σ.env body [] (List.append_nil _).symm (by rw [hP, he]; exact program_plain h hτ)
  have hprog : program (p₀.map .op ++ body) = P := by rw [program_append, program_ops, hP]
  refine ⟨σ, hσ, by rw [he]; exact hΓ, fun i t hi => ?_, fun i hi hq => ?_⟩
  · have := C40_forward_partial hfb hσ hi
    rwa [hprog] at this
  · rw [← hu, ← he, List.getElem?_map] at hi
    obtain ⟨x, hx, hxu⟩ := Option.map_eq_some_iff.1 hi
    have hxr : x.requiresGrad = true := by
      rw [C43_requires_partial hfb hσ hx, hprog]; exact hq
    obtain ⟨k, gx, h1, h2, h3⟩ := hF i x hx hxu hxr
    exact ⟨x, k, gx, hx, h1, h2, h3⟩

/-- The condition of C44 suffices for contiguous gradients. -/
theorem passes_tame {P : List (Instr α)} {Γ : List (List Nat)} (h : WellShaped [] [] P Γ)
    (hk : (∀ x ∈ P, x.transposes = false) ∨ (∀ x ∈ P, x.reshapes = false)) (ht : ∀ x ∈ P, x.TameAt Γ) {y : Nat} {s : List Nat} (hy : Γ[y]? = some s) :
    Passes Γ P y (rowStrides s) := by
  obtain ⟨τ, hτ, hΓ⟩ := C87_program h
  have hs : SmallEnv τ.env := fun t ht => wellShaped_small h (fun s hs => by cases hs) _ (by rw [← hΓ]; exact List.mem_map_of_mem ht)
  have hfi : ∀ x ∈ P.map Cmd.op, x.Fine τ.env := fine_of (by rw [program_ops]; exact program_plain h hτ) fun y g hg => by
    obtain ⟨_, _, hg⟩ := List.mem_map.1 hg
    cases hg
  rw [← hΓ, List.getElem?_map] at hy
  obtain ⟨t, hyt, rfl⟩ := Option.map_eq_some_iff.1 hy
  clear hy
  have hsafe := (C44_exact hfi hτ hs hyt).1.1.1 (C44_completes_partial hfi hτ hs (by rw [program_ops]; exact hk) (by rw [program_ops]; exact tame_of_shapes h ht hΓ) hyt)
  have := passes_safe (Γ := Γ) hfi hτ hs (fun i t hi => by rw [← hΓ, List.getElem?_map, hi]; rfl) hyt
    (goodStrides_even (hs _ (List.mem_of_getElem? hyt)).1 (Nat.lt_add_one 0))
  rw [program_ops, Nat.zero_add, evenStrides_one] at this
  rw [rowStrides_eq]
  exact this.1 hsafe

theorem loop_length {p₀ : List (Instr α)} {body : List (Cmd α)} {Γ : List (List Nat)} (h : WellShaped [] [] (p₀ ++ program body) Γ)
    {C : List Bool} {n : Nat} (hb : Legal C Γ n body) : (constructed p₀).length + (program body).length ≤ Γ.length := by
  have hno := loop_no_setReq hb
  obtain ⟨τ, hτ, hΓ⟩ := C87_program h
  obtain ⟨_, hu, _⟩ := program_facts hτ
  have e : Γ.length = (constructed (p₀ ++ program body)).length := by
    rw [← hΓ, ← hu, List.length_map, List.length_map]
  have key : ∀ (q : List (Instr α)) (p : List (Instr α)), (∀ x ∈ q, ∀ i b, x ≠ .setReq i b) → (constructed (p ++ q)).length = (constructed p).length + q.length := by
    intro q
    induction q with
    | nil => intro p _; simp
    | cons x q ih =>
      intro p hq
      rw [show p ++ x :: q = (p ++ [x]) ++ q by simp, ih _ fun x hx => hq x (by simp [hx]), constructed_snoc _ (hq x (by simp))]
      simp; omega
  rw [e, key _ _ hno]

theorem LoopOK.passes {P : List (Instr α)} {Γ : List (List Nat)} (h : WellShaped [] [] P Γ)
    (hk : (∀ x ∈ P, x.transposes = false) ∨ (∀ x ∈ P, x.reshapes = false)) (ht : ∀ x ∈ P, x.TameAt Γ) {C : List Bool} {n : Nat} {c : List (Cmd α)}
    (hl : LoopOK C Γ n c) (hn : n + (program c).length ≤ Γ.length) : ∀ x ∈ c, x.passes Γ P := by
  induction c generalizing n with
  | nil => intro x hx; cases hx
  | cons z c ih =>
    intro x hx
    have hlen : (program (z :: c)).length = (program [z]).length + (program c).length := by
      rw [show z :: c = [z] ++ c from rfl, program_append, List.length_append]
    have hΓ : ∀ y, y < n → ∃ s, Γ[y]? = some s ∧ Γ.getD y [] = s := fun y hy => by
      have : y < Γ.length := by omega
      exact ⟨_, List.getElem?_eq_getElem this, by rw [List.getD_eq_getElem?_getD, List.getElem?_eq_getElem this]; rfl⟩
    cases z with
    | op z =>
      rcases List.mem_cons.1 hx with rfl | hx
      · trivial
      · exact ih hl.2 (by simp [program, Cmd.instr] at hn ⊢; omega) x hx
    | backward y =>
      rcases List.mem_cons.1 hx with rfl | hx
      · obtain ⟨s, h1, h2⟩ := hΓ y hl.1
        show Passes Γ P y (rowStrides (Γ.getD y []))
        rw [h2]
        exact passes_tame h hk ht h1
      · exact ih hl.2 (by rw [hlen] at hn; exact (show n + (0 + _) ≤ _ from hn).trans' (by omega)) x hx
    | zeroGradient i =>
      rcases List.mem_cons.1 hx with rfl | hx
      · trivial
      · exact ih hl.2.2 (by rw [hlen] at hn; exact (show n + (0 + _) ≤ _ from hn).trans' (by omega)) x hx
    | backwardWith y g =>
      rcases List.mem_cons.1 hx with rfl | hx
      · obtain ⟨h1, _, h3⟩ := hl.2.1
        show Passes Γ P y g.stride
        rw [h3, ← rowStrides_eq]
        exact passes_tame h hk ht h1
      · exact ih hl.2.2 (by rw [hlen] at hn; exact (show n + (0 + _) ≤ _ from hn).trans' (by omega)) x hx

/-- **C89.** A program that makes some tensors and decides which require gradient, followed by operations (`set_requires_grad` excepted), calls
of `backward`, of `backward_with` with contiguous seeds, and of `zero_gradient` on constructed tensors, in any order. If the shapes of the whole
check out (and so on as in C88) it runs to its end, however long it is; and each constructed tensor `x` that requires gradient ends up with the
sum of `Σ_idx g[idx] · ∂y[idx]/∂x[J]` over the calls `y.backward_with(g)` (`g` is 1 for `y.backward()`) since its last `zero_gradient`. -/
theorem C89_loop {p₀ : List (Instr α)} {body : List (Cmd α)} {Γ : List (List Nat)} (h : WellShaped [] [] (p₀ ++ program body) Γ)
    (hk : (∀ x ∈ p₀ ++ program body, x.transposes = false) ∨ (∀ x ∈ p₀ ++ program body, x.reshapes = false))
    (ht : ∀ x ∈ p₀ ++ program body, x.TameAt Γ) (hb : LoopOK (constructed (p₀ ++ program body)) Γ (constructed p₀).length body) :
    ∃ σ, runSession (p₀.map .op ++ body) = .ok σ ∧ σ.env.map (fun t => t.arr.shape) = Γ ∧
      (∀ (i : Nat) (t : Tensor α), σ.env[i]? = some t → t.arr.Denotes (tensorOf (p₀ ++ program body) i).shape (tensorOf (p₀ ++ program body) i).elem) ∧
      ∀ i, (constructed (p₀ ++ program body))[i]? = some true → requiresOf (p₀ ++ program body) i = true →
        ∃ x k gx, σ.env[i]? = some x ∧ IsVariable (p₀ ++ program body) i k ∧ x.gradient σ.store = some gx ∧
          gx.Denotes (tensorOf (p₀ ++ program body) i).shape (fun J => collected (p₀ ++ program body) i k J 0 body) := by
  exact (C91_loop h hb.legal).1 (hb.passes h hk ht (loop_length h hb.legal))

/-- Operations between calls: `y = &x * &x; y.backward(); x.zero_gradient(); z = &y * &x; z.backward(); y.backward()`. More in
`Props/Benchmarks.lean`. -/
example (a b : α) : ∃ σ, runSession ([Instr.leaf [2] [a, b], .setReq 0 true].map .op ++
    [.op (.bin .mul 0 0), .backward 1, .zeroGradient 0, .op (.bin .mul 1 0), .backward 2, .backward 1]) = .ok σ ∧
    σ.env.map (fun t => t.arr.shape) = [[2], [2], [2]] := by
  have hb : BroadcastsTo [2] [2] := ⟨by simp, by simp [StretchTo]⟩
  obtain ⟨σ, h1, h2, _⟩ := C89_loop (p₀ := [Instr.leaf [2] [a, b], .setReq 0 true]) (Γ := [[2], [2], [2]])
    (body := [.op (.bin .mul 0 0), .backward 1, .zeroGradient 0, .op (.bin .mul 1 0), .backward 2, .backward 1])
    ⟨[2], ⟨rfl, rfl⟩, by simp, by simp, rfl, [2], rfl, by simp, by simp, rfl,
      [2], ⟨[2], [2], rfl, rfl, hb.compatible, hb.joint⟩, by simp, by simp, rfl,
      [2], ⟨[2], [2], rfl, rfl, hb.compatible, hb.joint⟩, by simp, by simp, rfl, rfl⟩
    (.inl (by simp [program, Cmd.instr, Instr.transposes]))
    (by
      intro x hx
      simp only [program, Cmd.instr, List.filterMap_cons, List.filterMap_nil, List.cons_append, List.nil_append, List.mem_cons, List.not_mem_nil, or_false] at hx
      rcases hx with rfl | rfl | rfl | rfl <;> first | trivial | skip
      all_goals
        intro s t hs ht
        cases hs; cases ht
        rw [jointShape_one]
        exact ⟨.inl rfl, .inl rfl⟩)
    ⟨(by intro _ _ h; cases h), (show 1 < 2 by decide), (show 0 < 2 by decide), rfl, (by intro _ _ h; cases h), (show 2 < 3 by decide), (show 1 < 3 by decide), trivial⟩
  exact ⟨σ, h1, h2⟩

end Verif
