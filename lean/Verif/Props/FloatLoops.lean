import Verif.Props.Benchmarks
import Verif.Props.GradientIeee

/-!
# C90: training loops in floating point

C91 over the elements of a field says what the gradients are. On floats the same loops run too (C85), and C73 bounds their rounding errors.
-/

namespace Verif

section any
variable {α β : Type}

/-- The hypotheses of C91, for elements of any type. -/
structure GoodLoop (p₀ : List (Instr α)) (body : List (Cmd α)) (Γ : List (List Nat)) : Prop where
  shaped : WellShaped [] [] (p₀ ++ program body) Γ
  calls : Legal (constructed (p₀ ++ program body)) Γ (constructed p₀).length body
  passes : ∀ c ∈ body, c.passes Γ (p₀ ++ program body)

theorem flow_map (φ : α → β) (Γ : List (List Nat)) (F : List Flow) (x : Instr α) : (x.map φ).flow Γ F = x.flow Γ F := by
  cases x <;> rfl

theorem passes_map (φ : α → β) (Γ : List (List Nat)) (p : List (Instr α)) (y : Nat) (d : List Nat) :
    Passes Γ (p.map (Instr.map φ)) y d ↔ Passes Γ p y d := by
  unfold Passes
  rw [List.foldl_map]
  simp only [flow_map]

theorem Cmd.passes_map (φ : α → β) (Γ : List (List Nat)) (p : List (Instr α)) (c : Cmd α) :
    (c.map φ).passes Γ (p.map (Instr.map φ)) ↔ c.passes Γ p := by
  cases c with
  | backward y => exact Verif.passes_map φ Γ p y _
  | backwardWith y g => exact Verif.passes_map φ Γ p y _
  | _ => exact Iff.rfl

theorem constructed_map (φ : α → β) (p : List (Instr α)) : constructed (p.map (Instr.map φ)) = constructed p := by
  unfold constructed
  rw [List.foldl_map]
  congr 1
  funext L x
  rw [Instr.extend_map]
  cases x <;> rfl

theorem legal_map (φ : α → β) {C : List Bool} {Γ : List (List Nat)} {n : Nat} {c : List (Cmd α)} (h : Legal C Γ n c) :
    Legal C Γ n (c.map (Cmd.map φ)) := by
  induction c generalizing n with
  | nil => trivial
  | cons x c ih =>
    cases x with
    | op x =>
      refine ⟨fun i b e => ?_, ih h.2⟩
      cases x <;> first | exact h.1 _ _ rfl | cases e
    | backward y => exact ⟨h.1, ih h.2⟩
    | zeroGradient i => exact ⟨h.1, h.2.1, ih h.2.2⟩
    | backwardWith y g => exact ⟨h.1, ⟨h.2.1.1, arrWF_map φ h.2.1.2⟩, ih h.2.2⟩

theorem loop_map (φ : α → β) (p₀ : List (Instr α)) (body : List (Cmd α)) :
    p₀.map (Instr.map φ) ++ program (body.map (Cmd.map φ)) = (p₀ ++ program body).map (Instr.map φ) := by
  rw [program_map, List.map_append]

theorem GoodLoop.map (φ : α → β) {p₀ : List (Instr α)} {body : List (Cmd α)} {Γ : List (List Nat)} (h : GoodLoop p₀ body Γ) :
    GoodLoop (p₀.map (Instr.map φ)) (body.map (Cmd.map φ)) Γ := by
  have e := loop_map φ p₀ body
  refine ⟨by rw [e]; exact h.shaped.map φ, ?_, fun c hc => ?_⟩
  · rw [e, constructed_map, constructed_map]
    exact legal_map φ h.calls
  · obtain ⟨z, hz, rfl⟩ := List.mem_map.1 hc
    rw [e]
    exact (Cmd.passes_map φ Γ _ z).2 (h.passes z hz)

/-- The hypotheses of C89 suffice. -/
theorem GoodLoop.tame [Field α] [Build] {p₀ : List (Instr α)} {body : List (Cmd α)} {Γ : List (List Nat)} (h : WellShaped [] [] (p₀ ++ program body) Γ)
    (hk : (∀ x ∈ p₀ ++ program body, x.transposes = false) ∨ (∀ x ∈ p₀ ++ program body, x.reshapes = false))
    (ht : ∀ x ∈ p₀ ++ program body, x.TameAt Γ) (hb : LoopOK (constructed (p₀ ++ program body)) Γ (constructed p₀).length body) :
    GoodLoop p₀ body Γ := ⟨h, hb.legal, hb.passes h hk ht (loop_length h hb.legal)⟩

theorem same_map (φ : α → β) (c : List (Cmd α)) : SameButValues c (c.map (Cmd.map φ)) :=
  (cmdsMap_comp (hide : β → Hidden) φ c).symm

theorem ops_map (φ : α → β) (p₀ : List (Instr α)) (body : List (Cmd α)) :
    (p₀.map Cmd.op ++ body).map (Cmd.map φ) = (p₀.map (Instr.map φ)).map .op ++ body.map (Cmd.map φ) := by
  rw [List.map_append, List.map_map, List.map_map]
  rfl

end any

section floats
variable {p : Nat} [NeZero p] [Build]

/-- **C90.** A training loop as in C91 on floats of any precision (rounded to nearest, unbounded exponents). It runs to its end; repeating
it with the numbers `Est`, every element of a tensor is within its error bound of the value that the operations define without rounding, and
every element of the gradient of a constructed tensor `x` that requires gradient is within its error bound of the sum of
`Σ_idx g[idx] · ∂y[idx]/∂x[J]` over the calls `y.backward_with(g)` since the last `x.zero_gradient()`. -/
theorem C90_float {p₀ : List (Instr (Fl p))} {body : List (Cmd (Fl p))} {Γ : List (List Nat)} (h : GoodLoop p₀ body Γ)
    {P : List (Instr ℚ)} (hP : P = (p₀ ++ program body).map (Instr.map Fl.val)) :
    ∃ (σ : RunState (Fl p)) (τ : RunState Est), runSession (p₀.map Cmd.op ++ body) = .ok σ ∧
      runSession ((p₀.map Cmd.op ++ body).map (Cmd.map fun x => Est.ofRat x.val)) = .ok τ ∧ σ.env.map (fun t => t.arr.shape) = Γ ∧
      (∀ (i : Nat) (x : Tensor (Fl p)), σ.env[i]? = some x → ∃ y f e, τ.env[i]? = some y ∧ x.arr.Denotes (tensorOf P i).shape f ∧
        y.arr.Denotes (tensorOf P i).shape e ∧
        ∀ idx, InB idx (tensorOf P i).shape → (e idx).Bounds p (f idx).val ∧ (e idx).exact = (tensorOf P i).elem idx) ∧
      ∀ i, (constructed P)[i]? = some true → requiresOf P i = true → ∃ x y k gx gy f e, σ.env[i]? = some x ∧ τ.env[i]? = some y ∧
        IsVariable P i k ∧ x.gradient σ.store = some gx ∧ y.gradient τ.store = some gy ∧ gx.Denotes (tensorOf P i).shape f ∧
        gy.Denotes (tensorOf P i).shape e ∧ ∀ J, InB J (tensorOf P i).shape →
          (e J).Bounds p (f J).val ∧ (e J).exact = collected P i k J 0 (body.map (Cmd.map Fl.val)) := by
  have hq := h.map Fl.val
  have eP : p₀.map (Instr.map Fl.val) ++ program (body.map (Cmd.map Fl.val)) = P := by
    rw [program_map, ← List.map_append, hP]
  obtain ⟨ω, hω, hΓ, hfor, hgr⟩ := (C91_loop hq.shaped hq.calls).1 hq.passes
  rw [eP] at hfor hgr
  rw [← ops_map] at hω
  obtain ⟨σ, hσ, hsame⟩ := (C85_session (same_map Fl.val (p₀.map Cmd.op ++ body)).symm).ok hω
  have hshapes := hsame.shapes.1
  obtain ⟨ρ, rfl, h2⟩ := session_joint_ok (R := fun (x : Fl p) t => Est.Holds p x t) (leaf := fun x => Est.ofRat x.val)
    Est.Holds.leaf hσ
  have h3 : runSession ((p₀.map Cmd.op ++ body).map (Cmd.map Fl.val)) = .ok ((ρ.map Joint.snd).map Est.exact) := by
    have := session_map exactHom ((p₀.map Cmd.op ++ body).map (Cmd.map fun x => Est.ofRat x.val))
    rw [h2, cmdsMap_comp] at this
    exact this
  rw [hω] at h3
  obtain rfl := Except.ok.inj h3
  -- an array on the pairs
  have key : ∀ (a : Arr (Joint fun (x : Fl p) t => Est.Holds p x t)) s F, ((a.mapBuf Joint.snd).mapBuf Est.exact).Denotes s F →
      ∃ f e, (a.mapBuf Joint.fst).Denotes s f ∧ (a.mapBuf Joint.snd).Denotes s e ∧
        ∀ idx, InB idx s → (e idx).Bounds p (f idx).val ∧ (e idx).exact = F idx := by
    intro a s F hF
    obtain ⟨e, he, e1⟩ := denotes_unmap hF
    obtain ⟨q, hq, e2⟩ := denotes_unmap he
    exact ⟨_, e, denotes_mapBuf hq, he, fun idx hi => ⟨by rw [← e2 idx hi]; exact (q idx).rel.bounds, e1 idx hi⟩⟩
  refine ⟨_, _, hσ, h2, ?_, fun i x hx => ?_, fun i hi hr => ?_⟩
  · rw [← hΓ]
    have : (ρ.map Joint.fst).shapes = ((ρ.map Joint.snd).map Est.exact).shapes := hshapes.symm
    simpa [RunState.shapes, RunState.arrs, Function.comp_def] using this
  · obtain ⟨q, hq, rfl⟩ := env_map hx
    obtain ⟨f, e, hf, he, hfe⟩ := key q.arr _ _ (hfor i _ (env_map' Est.exact (env_map' Joint.snd hq)))
    exact ⟨_, f, e, env_map' Joint.snd hq, hf, he, hfe⟩
  · obtain ⟨x, k, gx, hx, hv, hg, hd⟩ := hgr i hi hr
    obtain ⟨x₁, hx₁, rfl⟩ := env_map hx
    obtain ⟨q, hq, rfl⟩ := env_map hx₁
    obtain ⟨g₁, hg₁, rfl⟩ := grad_map hg
    obtain ⟨g, hg₂, rfl⟩ := grad_map hg₁
    obtain ⟨f, e, hf, he, hfe⟩ := key g _ _ hd
    exact ⟨_, _, k, _, _, f, e, env_map' Joint.fst hq, env_map' Joint.snd hq, hv, grad_map' Joint.fst hg₂, grad_map' Joint.snd hg₂, hf, he, hfe⟩

end floats

section ieee
variable {p emax : Nat} [NeZero p] [NeZero emax] [Build]

/-- **C90.** The same on `f32` and `f64`: it runs to its end, and wherever no operation that contributes to an element overflows, underflows
or divides by zero (`clean`), that element is finite and within its error bound. -/
theorem C90_ieee {p₀ : List (Instr (Ieee p emax))} {body : List (Cmd (Ieee p emax))} {Γ : List (List Nat)} (h : GoodLoop p₀ body Γ)
    {P : List (Instr ℚ)} (hP : P = (p₀ ++ program body).map (Instr.map Ieee.val)) :
    ∃ (σ : RunState (Ieee p emax)) (υ : RunState (Flagged p emax)) (τ : RunState Est), runSession (p₀.map Cmd.op ++ body) = .ok σ ∧
      runSession ((p₀.map Cmd.op ++ body).map (Cmd.map Flagged.ofIeee)) = .ok υ ∧
      runSession ((p₀.map Cmd.op ++ body).map (Cmd.map fun x => Est.ofRat x.val)) = .ok τ ∧ σ.env.map (fun t => t.arr.shape) = Γ ∧
      (∀ (i : Nat) (x : Tensor (Ieee p emax)), σ.env[i]? = some x → ∃ y z f w e, υ.env[i]? = some y ∧ τ.env[i]? = some z ∧
        x.arr.Denotes (tensorOf P i).shape f ∧ y.arr.Denotes (tensorOf P i).shape w ∧ z.arr.Denotes (tensorOf P i).shape e ∧
        ∀ idx, InB idx (tensorOf P i).shape → ((w idx).clean = true → (f idx).Finite ∧ (e idx).Bounds p (f idx).val) ∧
          (e idx).exact = (tensorOf P i).elem idx) ∧
      ∀ i, (constructed P)[i]? = some true → requiresOf P i = true → ∃ x y z k gx gy gz f w e, σ.env[i]? = some x ∧ υ.env[i]? = some y ∧
        τ.env[i]? = some z ∧ IsVariable P i k ∧ x.gradient σ.store = some gx ∧ y.gradient υ.store = some gy ∧
        z.gradient τ.store = some gz ∧ gx.Denotes (tensorOf P i).shape f ∧ gy.Denotes (tensorOf P i).shape w ∧
        gz.Denotes (tensorOf P i).shape e ∧ ∀ J, InB J (tensorOf P i).shape →
          ((w J).clean = true → (f J).Finite ∧ (e J).Bounds p (f J).val) ∧
          (e J).exact = collected P i k J 0 (body.map (Cmd.map Ieee.val)) := by
  have hq := h.map (fun x => (Flagged.ofIeee x).val)
  have eP : P = (p₀.map (Instr.map fun x => (Flagged.ofIeee x).val) ++ program (body.map (Cmd.map fun x => (Flagged.ofIeee x).val))).map
      (Instr.map Fl.val) := by
    have e2 := congrArg program (cmdsMap_comp Fl.val (fun x : Ieee p emax => (Flagged.ofIeee x).val) (p₀.map Cmd.op ++ body))
    rw [program_map, program_map, program_map, program_append, program_ops] at e2
    rw [program_map, ← List.map_append, e2, hP]
    rfl
  obtain ⟨φ, τ, hφ, hτ, hΓ, hfor, hgr⟩ := C90_float hq eP
  rw [← ops_map] at hφ hτ
  rw [cmdsMap_comp] at hτ hgr
  obtain ⟨σ, hσ, hsame⟩ := (C85_session (same_map (fun x : Ieee p emax => (Flagged.ofIeee x).val) (p₀.map Cmd.op ++ body)).symm).ok hφ
  have hshapes := hsame.shapes.1
  obtain ⟨ρ, rfl, h2⟩ := session_joint_ok (R := Flagged.Agree) Flagged.agree_leaf hσ
  have h3 : runSession ((p₀.map Cmd.op ++ body).map (Cmd.map fun x => (Flagged.ofIeee x).val)) = .ok ((ρ.map Joint.snd).map Flagged.val) := by
    have := session_map Flagged.valHom ((p₀.map Cmd.op ++ body).map (Cmd.map Flagged.ofIeee))
    rw [h2, cmdsMap_comp] at this
    exact this
  rw [hφ] at h3
  obtain rfl := Except.ok.inj h3
  have key : ∀ (a : Arr (Joint (Flagged.Agree (p := p) (emax := emax)))) s F, ((a.mapBuf Joint.snd).mapBuf Flagged.val).Denotes s F →
      ∃ f w, (a.mapBuf Joint.fst).Denotes s f ∧ (a.mapBuf Joint.snd).Denotes s w ∧
        ∀ idx, InB idx s → (w idx).clean = true → (f idx).Finite ∧ (f idx).val = (F idx).val := by
    intro a s F hF
    obtain ⟨w, hw, e1⟩ := denotes_unmap hF
    obtain ⟨q, hq, e2⟩ := denotes_unmap hw
    refine ⟨_, w, denotes_mapBuf hq, hw, fun idx hi hc => ?_⟩
    rw [← e2 idx hi] at hc
    obtain ⟨a1, a2⟩ := (q idx).rel hc
    exact ⟨a1, by rw [← e1 idx hi, ← e2 idx hi]; exact a2⟩
  refine ⟨_, _, _, hσ, h2, hτ, ?_, fun i x hx => ?_, fun i hi hr => ?_⟩
  · rw [← hΓ]
    have : (ρ.map Joint.fst).shapes = ((ρ.map Joint.snd).map Flagged.val).shapes := hshapes.symm
    simpa [RunState.shapes, RunState.arrs, Function.comp_def] using this
  · obtain ⟨q, hq, rfl⟩ := env_map hx
    obtain ⟨z, F, e, hz, hF, he, hFe⟩ := hfor i _ (env_map' Flagged.val (env_map' Joint.snd hq))
    obtain ⟨f, w, hf, hw, hfw⟩ := key q.arr _ _ hF
    exact ⟨_, z, f, w, e, env_map' Joint.snd hq, hz, hf, hw, he, fun idx hi => ⟨fun hc => ⟨(hfw idx hi hc).1, by
      rw [(hfw idx hi hc).2]; exact (hFe idx hi).1⟩, (hFe idx hi).2⟩⟩
  · obtain ⟨x, z, k, gx, gz, F, e, hx, hz, hv, hg, hgz, hF, he, hFe⟩ := hgr i hi hr
    obtain ⟨x₁, hx₁, rfl⟩ := env_map hx
    obtain ⟨q, hq, rfl⟩ := env_map hx₁
    obtain ⟨g₁, hg₁, rfl⟩ := grad_map hg
    obtain ⟨g, hg₂, rfl⟩ := grad_map hg₁
    obtain ⟨f, w, hf, hw, hfw⟩ := key g _ _ hF
    exact ⟨_, _, z, k, _, _, gz, f, w, e, env_map' Joint.fst hq, env_map' Joint.snd hq, hz, hv, grad_map' Joint.fst hg₂, grad_map' Joint.snd hg₂,
      hgz, hf, hw, he, fun J hJ => ⟨fun hc => ⟨(hfw J hJ hc).1, by rw [(hfw J hJ hc).2]; exact (hFe J hJ).1⟩, (hFe J hJ).2⟩⟩

end ieee

/-! The first benchmark in `f32`, for all sizes, numbers of iterations and elements. -/

theorem ratio_good {α : Type} [Field α] [Build] {n : Nat} (hn : 0 < n) {a b c : List α} (ha : a.length = n) (hb : b.length = n) (hc : c.length = n)
    {g : Arr α} (hg : g.WF) (hs : g.shape = [n]) (hgc : g.stride = strideFromShape g.shape) (M : Nat) :
    GoodLoop (ratioHeader n a b c) (ratioLoop g M 3) (List.replicate (3 + 3 * M) [n]) := by
  have hops : ∀ x ∈ ratioHeader n a b c ++ program (ratioLoop g M 3), x.transposes = false ∧ ∀ N n, x.TameAt (List.replicate N [n]) := by
    intro x hx
    rcases List.mem_append.1 hx with hx | hx
    · exact (ratioHeader_ops n a b c x hx).2
    · obtain ⟨k, hk⟩ := ratioLoop_ops g M 3 x hx
      obtain ⟨_, h2, _, h3⟩ := ratioForward_ops k x hk
      exact ⟨h2, h3⟩
  have hcon : ∀ i, i < 3 → (constructed (ratioHeader n a b c ++ program (ratioLoop g M 3)))[i]? = some true := by
    intro i hi
    rw [prefix_get (constructed_append _ _) (show i < (constructed (ratioHeader n a b c)).length from hi)]
    match i, hi with
    | 0, _ | 1, _ | 2, _ => rfl
  refine .tame (wellShaped_then (ratioHeader_shaped hn ha hb hc) (fun B => ratioLoop_shaped hn g M (Nat.le_refl 3) B)) (.inl fun x hx => (hops x hx).1)
    (fun x hx => (hops x hx).2 _ _) ?_
  have := ratioLoop_ok (N := 3 + 3 * M) _ (hcon 0 (by omega)) (hcon 1 (by omega)) (hcon 2 (by omega)) hg hs hgc M (m := 3) (Nat.le_refl _) (rest := []) trivial
  rwa [List.append_nil] at this

example [Build] {n : Nat} (hn : 0 < n) {a b c : List ℚ} (ha : a.length = n) (hb : b.length = n) (hc : c.length = n) (M : Nat) :
    ∃ σ : RunState F32, runSession (((ratioHeader n a b c).map Cmd.op ++
      ratioLoop (.fromContiguousOwnedBuffer [n] (List.replicate n 1)) M 3).map (Cmd.map Ieee.ofRat)) = .ok σ ∧
      σ.env.map (fun t => t.arr.shape) = List.replicate (3 + 3 * M) [n] := by
  obtain ⟨σ, _, _, h1, _, _, h2, _⟩ := C90_ieee ((ratio_good hn ha hb hc (g := .fromContiguousOwnedBuffer [n] (List.replicate n 1))
    (Arr.WF.fromContiguous (by simp [numel])) rfl rfl M).map (Ieee.ofRat : ℚ → F32)) rfl
  rw [← ops_map] at h1
  exact ⟨σ, h1, h2⟩

end Verif
