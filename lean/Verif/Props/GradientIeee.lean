import Verif.Props.GradientRounding
import Verif.Lemmas.NoFlags

/-!
# C73: values and gradients in a session with tensors of IEEE numbers

`Flagged` (`Spec/NoFlags.lean`) remembers whether an operation overflowed, underflowed or divided by zero.
-/

namespace Verif

variable {p emax : Nat} [NeZero p] [NeZero emax]

/-- **C73.** While no flag of IEEE 754 is raised, the values and gradients of a session with `f32` or `f64` tensors are finite, and those
of the session with floats of unbounded exponents, to which `C73_session` and `C73_vjp_partial` apply. -/
theorem C73_ieee_session [Build] {c : List (Cmd (Ieee p emax))} {σ : RunState (Ieee p emax)} (hr : runSession c = .ok σ) :
    ∃ τ : RunState (Flagged p emax), runSession (c.map (Cmd.map Flagged.ofIeee)) = .ok τ ∧
      runSession (c.map (Cmd.map fun x => (Flagged.ofIeee x).val)) = .ok (τ.map Flagged.val) ∧
      ∀ (i : Nat) (x : Tensor (Ieee p emax)), σ.env[i]? = some x → ∃ y : Tensor (Flagged p emax), τ.env[i]? = some y ∧
        (∀ s f, x.arr.Denotes s f → ∃ e, y.arr.Denotes s e ∧ ∀ idx, InB idx s → (e idx).clean = true →
          (f idx).Finite ∧ (f idx).val = (e idx).val.val) ∧
        ∀ gx, x.gradient σ.store = some gx → ∃ gy, y.gradient τ.store = some gy ∧
          ∀ s f, gx.Denotes s f → ∃ e, gy.Denotes s e ∧ ∀ idx, InB idx s → (e idx).clean = true →
            (f idx).Finite ∧ (f idx).val = (e idx).val.val := by
  obtain ⟨ρ, rfl, h2⟩ := session_joint_ok (R := Flagged.Agree) Flagged.agree_leaf hr
  have key : ∀ (a : Arr (Joint (Flagged.Agree (p := p) (emax := emax)))) s f, (a.mapBuf Joint.fst).Denotes s f →
      ∃ e, (a.mapBuf Joint.snd).Denotes s e ∧ ∀ idx, InB idx s → (e idx).clean = true →
        (f idx).Finite ∧ (f idx).val = (e idx).val.val := by
    intro a s f hf
    obtain ⟨q, hq, e⟩ := denotes_unmap hf
    exact ⟨_, denotes_mapBuf hq, fun idx hi hc => by rw [← e idx hi]; exact (q idx).rel hc⟩
  refine ⟨_, h2, ?_, fun i x hx => ?_⟩
  · have := session_map Flagged.valHom (c.map (Cmd.map Flagged.ofIeee))
    rw [h2, cmdsMap_comp] at this
    exact this
  · obtain ⟨q, hq, rfl⟩ := env_map hx
    refine ⟨_, env_map' Joint.snd hq, key _, fun gx hgx => ?_⟩
    obtain ⟨g₀, hg₀, rfl⟩ := grad_map hgx
    exact ⟨_, grad_map' Joint.snd hg₀, key _⟩

/-! The worked example of `Props/Autograd.lean` in `f32`: no flag. With `x = 2^100` an element of the gradient overflows. -/

/-- The examples use the NEON loops of `f32`. -/
local instance : Build := ⟨.neon32⟩

def demoIeee : List (Cmd F32) := demoSession.map (Cmd.map Ieee.ofRat)

example : (runSession demoIeee).map (fun σ => σ.store.map (·.buf.map Ieee.val)) =
    .ok [[3706061 / 262144, 9311355 / 524288], [5 / 2, 5, 9227469 / 2097152, 9227469 / 1048576]] := by decide +kernel

example : (runSession (demoIeee.map (Cmd.map Flagged.ofIeee))).map (fun σ => σ.store.map (·.buf.map (·.clean))) =
    .ok [[true, true], [true, true, true, true]] := by decide +kernel

example : (runSession (([.op (.leaf [2] [2 ^ 100, 3]), .op (.setReq 0 true), .op (.bin .mul 0 0), .op (.bin .mul 1 0), .backward 2] :
      List (Cmd ℚ)).map (Cmd.map fun x => Flagged.ofIeee (Ieee.ofRat x : F32)))).map
    (fun σ => σ.store.map (·.buf.map (·.clean))) = .ok [[false, true]] := by decide +kernel

/-- **C73.** The gradient of IEEE numbers against the derivative: wherever no flag is raised it is finite and within the error bound of
`F J + Σ_idx g[idx] * ∂y[idx]/∂x[J]`, where `F` is the gradient before the call, computed without rounding. Missing: as in C40. -/
theorem C73_ieee_vjp_partial [Build] {c : List (Cmd (Ieee p emax))} {σ σ' : RunState (Ieee p emax)} (hc : ∀ x ∈ c, x.Fine σ.env)
    (hr : runSession c = .ok σ) {y : Nat} {t : Tensor (Ieee p emax)} (ht : σ.env[y]? = some t)
    {g : Arr (Ieee p emax)} {G : List Nat → Ieee p emax} (hw : g.WF) (hg : g.Denotes t.arr.shape G)
    (hb : σ.exec (.backwardWith y g) = .ok σ') {i : Nat} {x : Tensor (Ieee p emax)} (hx : σ.env[i]? = some x)
    {gx : Arr (Ieee p emax)} (hgx : x.gradient σ.store = some gx) :
    ∃ (gx' : Arr (Ieee p emax)) (f : List Nat → Ieee p emax) (υ υ' : RunState (Flagged p emax)) (x₂ : Tensor (Flagged p emax))
      (g₂ : Arr (Flagged p emax)) (w : List Nat → Flagged p emax) (τ τ' : RunState Est) (x₁ : Tensor Est) (g₀ g₁ : Arr Est)
      (F e : List Nat → Est) (k : Nat),
      x.gradient σ'.store = some gx' ∧ gx'.Denotes x.arr.shape f ∧
      -- the session on `Flagged`
      runSession (c.map (Cmd.map Flagged.ofIeee)) = .ok υ ∧ υ.exec (.backwardWith y (g.mapBuf Flagged.ofIeee)) = .ok υ' ∧
      υ.env[i]? = some x₂ ∧ x₂.gradient υ'.store = some g₂ ∧ g₂.Denotes x.arr.shape w ∧
      -- the session on `Est`
      runSession (c.map (Cmd.map fun x => Est.ofRat x.val)) = .ok τ ∧
      τ.exec (.backwardWith y (g.mapBuf fun x => Est.ofRat x.val)) = .ok τ' ∧ τ.env[i]? = some x₁ ∧
      x₁.gradient τ.store = some g₀ ∧ g₀.Denotes x.arr.shape F ∧ x₁.gradient τ'.store = some g₁ ∧ g₁.Denotes x.arr.shape e ∧
      IsVariable (program (c.map (Cmd.map Ieee.val))) i k ∧
      ∀ J, InB J x.arr.shape →
        ((w J).clean = true → (f J).Finite ∧ (e J).Bounds p (f J).val) ∧ (e J).exact = (F J).exact +
          pair t.arr.shape (fun idx => (G idx).val) (jacobian (program (c.map (Cmd.map Ieee.val))) y k J) := by
  obtain ⟨ρ, rfl, h2⟩ := session_joint_ok (R := Flagged.Agree) Flagged.agree_leaf hr
  -- the call of `backward_with` on the pairs
  let l : Ieee p emax → Joint (Flagged.Agree (p := p) (emax := emax)) := fun x => ⟨x, Flagged.ofIeee x, Flagged.agree_leaf x⟩
  have e1 := exec_map (φ := Joint.fst) joint_fst ρ (.backwardWith y (g.mapBuf l))
  have e2 := exec_map (φ := Joint.snd) joint_snd ρ (.backwardWith y (g.mapBuf l))
  simp only [Cmd.map, mapBuf_comp] at e1 e2
  rw [show (g.mapBuf fun x => Joint.fst (l x)) = g from mapBuf_id g, hb] at e1
  cases hρ : ρ.exec (.backwardWith y (g.mapBuf l)) with
  | error e => rw [hρ] at e1; cases e1
  | ok ρ' =>
    rw [hρ] at e1 e2
    obtain rfl : σ' = ρ'.map Joint.fst := Except.ok.inj e1
    have e2 : (ρ.map Joint.snd).exec (.backwardWith y (g.mapBuf Flagged.ofIeee)) = .ok (ρ'.map Joint.snd) := e2
    -- unbounded exponents
    have r3 := session_map Flagged.valHom (c.map (Cmd.map Flagged.ofIeee))
    rw [h2, cmdsMap_comp] at r3
    have e3 := exec_map Flagged.valHom (ρ.map Joint.snd) (.backwardWith y (g.mapBuf Flagged.ofIeee))
    simp only [Cmd.map, mapBuf_comp] at e3
    rw [e2] at e3
    obtain ⟨q, hq, rfl⟩ := env_map hx
    obtain ⟨u, hu, rfl⟩ := env_map ht
    obtain ⟨gq, hgq, rfl⟩ := grad_map hgx
    have hc' : ∀ x ∈ c.map (Cmd.map fun x => (Flagged.ofIeee x).val), x.Fine ((ρ.map Joint.snd).map Flagged.val).env := by
      intro x hx
      obtain ⟨x', hx', rfl⟩ := List.mem_map.1 hx
      refine fine_map _ (fun i t' ht' => ?_) (hc x' hx')
      obtain ⟨t₁, ht₁, rfl⟩ := env_map ht'
      obtain ⟨t₂, ht₂, rfl⟩ := env_map ht₁
      exact ⟨_, env_map' Joint.fst ht₂, rfl, rfl⟩
    obtain ⟨gx', f, τ, τ', x₁, g₀, g₁, F, e, k, b1, b2, b3, b4, b5, b6, b7, b8, b9, b10, b11⟩ :=
      C73_vjp_partial hc' r3 (env_map' Flagged.val (env_map' Joint.snd hu)) (arrWF_map (fun x => (Flagged.ofIeee x).val) hw)
        (denotes_mapBuf hg) e3 (env_map' Flagged.val (env_map' Joint.snd hq)) (grad_map' Flagged.val (grad_map' Joint.snd hgq))
    obtain ⟨ga, hga, rfl⟩ := grad_map b1
    obtain ⟨gb, hgb, rfl⟩ := grad_map hga
    rw [mapBuf_comp] at b2
    obtain ⟨f₀, hf₀, ef⟩ := denotes_unmap b2
    rw [cmdsMap_comp] at b3 b10 b11
    rw [mapBuf_comp] at b4
    refine ⟨gb.mapBuf Joint.fst, fun J => (f₀ J).fst, _, _, _, _, fun J => (f₀ J).snd, τ, τ', x₁, g₀, g₁, F, e, k, grad_map' _ hgb,
      denotes_mapBuf hf₀, h2, e2, env_map' Joint.snd hq, grad_map' Joint.snd hgb, denotes_mapBuf hf₀, b3, b4, b5, b6, b7, b8, b9, b10,
      fun J hJ => ⟨fun hcl => ?_, (b11 J hJ).2⟩⟩
    obtain ⟨a1, a2⟩ := (f₀ J).rel hcl
    refine ⟨a1, ?_⟩
    have := (b11 J hJ).1
    rw [← ef J hJ] at this
    show (e J).Bounds p (f₀ J).fst.val
    rw [a2]
    exact this

/-- The hypotheses are met. -/
def demoSeedIeee : Arr F32 := .fromContiguousOwnedBuffer [2] [.ofRat 1, .ofRat (1 / 3)]

example : ∃ σ σ' t x gx, (∀ x ∈ demoIeee, x.Fine σ.env) ∧ runSession demoIeee = .ok σ ∧ SmallEnv σ.env ∧ σ.env[5]? = some t ∧
    demoSeedIeee.WF ∧ t.arr.shape = [2] ∧ demoSeedIeee.Denotes [2] (fun idx => [.ofRat 1, .ofRat (1 / 3)].getD (rank idx [2]) 0) ∧
    σ.exec (.backwardWith 5 demoSeedIeee) = .ok σ' ∧ σ.env[0]? = some x ∧ x.gradient σ.store = some gx := by
  with_unfolding_all exact ⟨_, _, _, _, _, by simp [demoIeee, demoSession, Cmd.map, Instr.map, Cmd.Fine, Instr.Plain], rfl, by unfold SmallEnv SmallShape; decide, rfl, Arr.WF.fromContiguous rfl, rfl,
    denotes_fromContiguous_getD rfl 0, rfl, rfl, rfl⟩

end Verif
