import Verif.Lemmas.RelatedSession
import Verif.Lemmas.RunningError
import Verif.Props.Autograd

/-!
# C73: rounding errors of values and gradients in a session with tensors

Floats are `Fl p`: correctly rounded to `p` bits, exponents unbounded. `Est` (`Spec/RunningError.lean`) carries the exact result of a
computation and what the textbook rules for error propagation say about the rounded one.
-/

namespace Verif

variable {p : Nat} [NeZero p]

instance : GradClosed (fun (x : Fl p) t => Est.Holds p x t) where
  zero := Est.Holds.leaf 0
  one := Est.Holds.leaf 1
  add := Est.Holds.add
  sub := Est.Holds.sub
  mul := Est.Holds.mul
  div := Est.Holds.div
  neg := Est.Holds.neg
  mulAdd := Est.Holds.mulAdd

theorem exactHom : GradHom Est.exact :=
  ⟨rfl, rfl, fun _ _ => rfl, fun _ _ => rfl, fun _ _ => rfl, fun _ _ => rfl, fun _ => rfl, fun _ _ _ => rfl⟩

theorem Est.Holds.bounds {x : Fl p} {t : Est} (h : t.Holds p x) : t.Bounds p x.val :=
  ⟨fun k hk => (h.near k hk).2, h.eq⟩

/-- **C73.** Repeating a session in floating point with the numbers `Est` gives, for every tensor and for every gradient, a tensor or
gradient of the same shape that bounds the rounding errors element by element; its `exact` parts are the values and gradients of the
session without rounding. -/
theorem C73_session [Build] {c : List (Cmd (Fl p))} {σ : RunState (Fl p)} (hr : runSession c = .ok σ) :
    ∃ τ : RunState Est, runSession (c.map (Cmd.map fun x => Est.ofRat x.val)) = .ok τ ∧
      runSession (c.map (Cmd.map Fl.val)) = .ok (τ.map Est.exact) ∧
      ∀ (i : Nat) (x : Tensor (Fl p)), σ.env[i]? = some x → ∃ y : Tensor Est, τ.env[i]? = some y ∧
        (∀ s f, x.arr.Denotes s f → ∃ e, y.arr.Denotes s e ∧ ∀ idx, InB idx s → (e idx).Bounds p (f idx).val) ∧
        ∀ gx, x.gradient σ.store = some gx → ∃ gy, y.gradient τ.store = some gy ∧
          ∀ s f, gx.Denotes s f → ∃ e, gy.Denotes s e ∧ ∀ idx, InB idx s → (e idx).Bounds p (f idx).val := by
  obtain ⟨ρ, rfl, h2⟩ := session_joint_ok (R := fun (x : Fl p) t => Est.Holds p x t) (leaf := fun x => Est.ofRat x.val)
    Est.Holds.leaf hr
  have key : ∀ (a : Arr (Joint fun (x : Fl p) t => Est.Holds p x t)) s f, (a.mapBuf Joint.fst).Denotes s f →
      ∃ e, (a.mapBuf Joint.snd).Denotes s e ∧ ∀ idx, InB idx s → (e idx).Bounds p (f idx).val := by
    intro a s f hf
    obtain ⟨q, hq, e⟩ := denotes_unmap hf
    exact ⟨_, denotes_mapBuf hq, fun idx hi => by rw [← e idx hi]; exact (q idx).rel.bounds⟩
  refine ⟨_, h2, ?_, fun i x hx => ?_⟩
  · have := session_map exactHom (c.map (Cmd.map fun x => Est.ofRat x.val))
    rw [h2, cmdsMap_comp] at this
    exact this
  · obtain ⟨q, hq, rfl⟩ := env_map hx
    refine ⟨_, env_map' Joint.snd hq, key _, fun gx hgx => ?_⟩
    obtain ⟨g₀, hg₀, rfl⟩ := grad_map hgx
    exact ⟨_, grad_map' Joint.snd hg₀, key _⟩

/-! The worked example of `Props/Autograd.lean` in `f32`: the gradient of `x` is rounded, but within 16 roundings; that of the integer
session `(w @ x) * (w @ x)` is exact. -/

/-- The examples use the NEON loops of `f32`. -/
local instance : Build := ⟨.neon32⟩

def demoFloat : List (Cmd (Fl 24)) := demoSession.map (Cmd.map Fl.round)

example : (runSession demoFloat).map (fun σ => σ.store.map (·.buf.map Fl.val)) =
    .ok [[3706061 / 262144, 9311355 / 524288], [5 / 2, 5, 9227469 / 2097152, 9227469 / 1048576]] := by decide +kernel

example : (runSession (demoFloat.map (Cmd.map fun x => Est.ofRat x.val))).map (fun σ => σ.store.map (·.buf)) =
    .ok [[⟨1131 / 80, 1381 / 80, some 16, false⟩, ⟨444 / 25, 686 / 25, some 16, false⟩],
      [⟨5 / 2, 5 / 2, some 11, false⟩, ⟨5, 5, some 11, false⟩, ⟨22 / 5, 22 / 5, some 11, false⟩, ⟨44 / 5, 44 / 5, some 11, false⟩]] := by
  decide +kernel

example : (runSession ((demoFloat.take 6 ++ [.backward 3] : List (Cmd (Fl 24))).map (Cmd.map fun x => Est.ofRat x.val))).map (fun σ => σ.store.map (·.buf)) =
    .ok [[⟨76, 76, some 11, true⟩, ⟨108, 108, some 11, true⟩],
      [⟨10, 10, some 8, true⟩, ⟨20, 20, some 8, true⟩, ⟨22, 22, some 8, true⟩, ⟨44, 44, some 8, true⟩]] := by decide +kernel

/-! The products of `matmul` are not rounded before they are added (`mul_add`): two roundings, not three. -/

example : (runSession (([.op (.leaf [2, 2] [9 / 8, 11, 1, 2]), .op (.leaf [2, 2] [13 / 8, 11 / 8, 1, 13]), .op (.matmul 0 1)] :
      List (Cmd ℚ)).map (Cmd.map Est.ofRat))).map (fun σ => (σ.env.drop 2).map (·.arr.buf)) =
    .ok [[⟨821 / 64, 821 / 64, some 2, false⟩, ⟨9251 / 64, 9251 / 64, some 2, false⟩, ⟨29 / 8, 29 / 8, some 2, false⟩,
      ⟨219 / 8, 219 / 8, some 2, false⟩]] := by decide +kernel

/-- **C73.** Gradients in floating point against the derivative. After any session, `y.backward_with(g)` leaves in the gradient of every
tensor `x` that has one, at each `J`, a float `f J` within the error bound of `F J + Σ_idx g[idx] * ∂y[idx]/∂x[J]`, where `F` is the
gradient before the call, computed without rounding. Missing: as in C40 (the hypotheses at the top of `Props/Autograd.lean`). -/
theorem C73_vjp_partial [Build] {c : List (Cmd (Fl p))} {σ σ' : RunState (Fl p)} (hc : ∀ x ∈ c, x.Fine σ.env) (hr : runSession c = .ok σ)
    {y : Nat} {t : Tensor (Fl p)} (ht : σ.env[y]? = some t) {g : Arr (Fl p)} {G : List Nat → Fl p} (hw : g.WF)
    (hg : g.Denotes t.arr.shape G) (hb : σ.exec (.backwardWith y g) = .ok σ')
    {i : Nat} {x : Tensor (Fl p)} (hx : σ.env[i]? = some x) {gx : Arr (Fl p)} (hgx : x.gradient σ.store = some gx) :
    ∃ (gx' : Arr (Fl p)) (f : List Nat → Fl p) (τ τ' : RunState Est) (x₁ : Tensor Est) (g₀ g₁ : Arr Est) (F e : List Nat → Est) (k : Nat),
      x.gradient σ'.store = some gx' ∧ gx'.Denotes x.arr.shape f ∧
      runSession (c.map (Cmd.map fun x => Est.ofRat x.val)) = .ok τ ∧
      τ.exec (.backwardWith y (g.mapBuf fun x => Est.ofRat x.val)) = .ok τ' ∧ τ.env[i]? = some x₁ ∧
      x₁.gradient τ.store = some g₀ ∧ g₀.Denotes x.arr.shape F ∧ x₁.gradient τ'.store = some g₁ ∧ g₁.Denotes x.arr.shape e ∧
      IsVariable (program (c.map (Cmd.map Fl.val))) i k ∧
      ∀ J, InB J x.arr.shape → (e J).Bounds p (f J).val ∧ (e J).exact = (F J).exact +
        pair t.arr.shape (fun idx => (G idx).val) (jacobian (program (c.map (Cmd.map Fl.val))) y k J) := by
  obtain ⟨ρ, rfl, h2⟩ := session_joint_ok (R := fun (x : Fl p) t => Est.Holds p x t) (leaf := fun x => Est.ofRat x.val)
    Est.Holds.leaf hr
  -- the call of `backward_with` on the pairs
  let l : Fl p → Joint fun (x : Fl p) t => Est.Holds p x t := fun x => ⟨x, Est.ofRat x.val, Est.Holds.leaf x⟩
  have e1 := exec_map (φ := Joint.fst) joint_fst ρ (.backwardWith y (g.mapBuf l))
  have e2 := exec_map (φ := Joint.snd) joint_snd ρ (.backwardWith y (g.mapBuf l))
  simp only [Cmd.map, mapBuf_comp] at e1 e2
  rw [show (g.mapBuf fun x => Joint.fst (l x)) = g from mapBuf_id g, hb] at e1
  cases hρ : ρ.exec (.backwardWith y (g.mapBuf l)) with
  | error e => rw [hρ] at e1; cases e1
  | ok ρ' =>
    rw [hρ] at e1 e2
    obtain rfl : σ' = ρ'.map Joint.fst := Except.ok.inj e1
    have e2 : (ρ.map Joint.snd).exec (.backwardWith y (g.mapBuf fun x => Est.ofRat x.val)) = .ok (ρ'.map Joint.snd) := e2
    -- without rounding
    have r3 := session_map exactHom (c.map (Cmd.map fun x => Est.ofRat x.val))
    rw [h2, cmdsMap_comp] at r3
    have e3 := exec_map exactHom (ρ.map Joint.snd) (.backwardWith y (g.mapBuf fun x => Est.ofRat x.val))
    simp only [Cmd.map, mapBuf_comp] at e3
    rw [e2] at e3
    -- the tensors and the gradient before
    obtain ⟨q, hq, rfl⟩ := env_map hx
    obtain ⟨u, hu, rfl⟩ := env_map ht
    obtain ⟨gq, hgq, rfl⟩ := grad_map hgx
    have hc' : ∀ x ∈ c.map (Cmd.map Fl.val), x.Fine ((ρ.map Joint.snd).map Est.exact).env := by
      intro x hx
      obtain ⟨x', hx', rfl⟩ := List.mem_map.1 hx
      refine fine_map _ (fun i t' ht' => ?_) (hc x' hx')
      obtain ⟨t₁, ht₁, rfl⟩ := env_map ht'
      obtain ⟨t₂, ht₂, rfl⟩ := env_map ht₁
      exact ⟨_, env_map' Joint.fst ht₂, rfl, rfl⟩
    obtain ⟨k, gx', F, hv, hx', hF, hF'⟩ := C40_vjp_partial hc' r3 (env_map' Est.exact (env_map' Joint.snd hu)) (arrWF_map Fl.val hw)
      (denotes_mapBuf hg) e3 (env_map' Est.exact (env_map' Joint.snd hq)) (grad_map' Est.exact (grad_map' Joint.snd hgq))
    obtain ⟨g₁, hg₁, rfl⟩ := grad_map hx'
    obtain ⟨g₂, hg₂, rfl⟩ := grad_map hg₁
    rw [mapBuf_comp] at hF hF'
    obtain ⟨F₀, hF₀, eF⟩ := denotes_unmap hF
    obtain ⟨f₀, hf₀, ef⟩ := denotes_unmap hF'
    refine ⟨g₂.mapBuf Joint.fst, fun J => (f₀ J).fst, _, _, _, _, _, fun J => (F₀ J).snd, fun J => (f₀ J).snd, k, grad_map' _ hg₂,
      denotes_mapBuf hf₀, h2, e2, env_map' Joint.snd hq, grad_map' Joint.snd hgq, denotes_mapBuf hF₀, grad_map' Joint.snd hg₂,
      denotes_mapBuf hf₀, hv, fun J hJ => ⟨(f₀ J).rel.bounds, ?_⟩⟩
    rw [ef J hJ, eF J hJ]
    rfl

/-- The hypotheses are met. -/
def demoSeed : Arr (Fl 24) := .fromContiguousOwnedBuffer [2] [Fl.round 1, Fl.round (1 / 3)]

example : ∃ σ σ' t x gx, (∀ x ∈ demoFloat, x.Fine σ.env) ∧ runSession demoFloat = .ok σ ∧ SmallEnv σ.env ∧ σ.env[5]? = some t ∧
    demoSeed.WF ∧ t.arr.shape = [2] ∧ demoSeed.Denotes [2] (fun idx => [Fl.round 1, Fl.round (1 / 3)].getD (rank idx [2]) 0) ∧
    σ.exec (.backwardWith 5 demoSeed) = .ok σ' ∧ σ.env[0]? = some x ∧ x.gradient σ.store = some gx := by
  with_unfolding_all exact ⟨_, _, _, _, _, by simp [demoFloat, demoSession, Cmd.map, Instr.map, Cmd.Fine, Instr.Plain], rfl, by unfold SmallEnv SmallShape; decide, rfl, Arr.WF.fromContiguous rfl, rfl,
    denotes_fromContiguous_getD rfl 0, rfl, rfl, rfl⟩

end Verif
