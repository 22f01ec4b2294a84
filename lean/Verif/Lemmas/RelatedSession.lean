import Verif.Lemmas.TransferSession
import Verif.Lemmas.Session

/-!
# Running a session with tensors on two element types at once
-/

namespace Verif

section
variable {M S : Type} [Add M] [Sub M] [Mul M] [Div M] [Neg M] [Zero M] [One M] [MulAdd M]
  [Add S] [Sub S] [Mul S] [Div S] [Neg S] [Zero S] [One S] [MulAdd S]

/-- `R` is preserved by the arithmetic that tensors use. -/
class GradClosed (R : M → S → Prop) : Prop where
  zero : R 0 0
  one : R 1 1
  add : ∀ {x y s t}, R x s → R y t → R (x + y) (s + t)
  sub : ∀ {x y s t}, R x s → R y t → R (x - y) (s - t)
  mul : ∀ {x y s t}, R x s → R y t → R (x * y) (s * t)
  div : ∀ {x y s t}, R x s → R y t → R (x / y) (s / t)
  neg : ∀ {x s}, R x s → R (-x) (-s)
  mulAdd : ∀ {x y z s t u}, R x s → R y t → R z u → R (mulAdd x y z) (mulAdd s t u)

/-- Related elements. -/
structure Joint (R : M → S → Prop) where
  fst : M
  snd : S
  rel : R fst snd

variable {R : M → S → Prop} [hR : GradClosed R]

namespace Joint
instance : Zero (Joint R) := ⟨⟨0, 0, hR.zero⟩⟩
instance : One (Joint R) := ⟨⟨1, 1, hR.one⟩⟩
instance : Add (Joint R) := ⟨fun x y => ⟨x.fst + y.fst, x.snd + y.snd, hR.add x.rel y.rel⟩⟩
instance : Sub (Joint R) := ⟨fun x y => ⟨x.fst - y.fst, x.snd - y.snd, hR.sub x.rel y.rel⟩⟩
instance : Mul (Joint R) := ⟨fun x y => ⟨x.fst * y.fst, x.snd * y.snd, hR.mul x.rel y.rel⟩⟩
instance : Div (Joint R) := ⟨fun x y => ⟨x.fst / y.fst, x.snd / y.snd, hR.div x.rel y.rel⟩⟩
instance : Neg (Joint R) := ⟨fun x => ⟨-x.fst, -x.snd, hR.neg x.rel⟩⟩
instance : MulAdd (Joint R) := ⟨fun x y z => ⟨mulAdd x.fst y.fst z.fst, mulAdd x.snd y.snd z.snd, hR.mulAdd x.rel y.rel z.rel⟩⟩
end Joint

theorem joint_fst : GradHom (Joint.fst : Joint R → M) :=
  ⟨rfl, rfl, fun _ _ => rfl, fun _ _ => rfl, fun _ _ => rfl, fun _ _ => rfl, fun _ => rfl, fun _ _ _ => rfl⟩
theorem joint_snd : GradHom (Joint.snd : Joint R → S) :=
  ⟨rfl, rfl, fun _ _ => rfl, fun _ _ => rfl, fun _ _ => rfl, fun _ _ => rfl, fun _ => rfl, fun _ _ _ => rfl⟩

end

/-! ### images under composed maps -/

section
variable {α β γ : Type} (f : β → γ) (g : α → β)

theorem mapBuf_comp (a : Arr α) : (a.mapBuf g).mapBuf f = a.mapBuf fun x => f (g x) := by
  cases a; simp [Arr.mapBuf, Function.comp_def]

theorem mapBuf_id (a : Arr α) : (a.mapBuf fun x => x) = a := by
  cases a; simp [Arr.mapBuf]

theorem cmdMap_comp (c : Cmd α) : (c.map g).map f = c.map fun x => f (g x) := by
  cases c with
  | op x => cases x <;> simp [Cmd.map, Instr.map, Function.comp_def]
  | backwardWith y a => simp [Cmd.map, mapBuf_comp]
  | _ => rfl

theorem cmdMap_id (c : Cmd α) : (c.map fun x => x) = c := by
  cases c with
  | op x => cases x <;> simp [Cmd.map, Instr.map]
  | backwardWith y a => simp [Cmd.map, mapBuf_id]
  | _ => rfl

theorem cmdsMap_comp (c : List (Cmd α)) : (c.map (Cmd.map g)).map (Cmd.map f) = c.map (Cmd.map fun x => f (g x)) := by
  rw [List.map_map]
  exact List.map_congr_left fun x _ => cmdMap_comp f g x

theorem cmdsMap_id (c : List (Cmd α)) : (c.map (Cmd.map fun x => x)) = c := by
  have : c.map (Cmd.map fun x => x) = c.map id := List.map_congr_left fun x _ => cmdMap_id x
  rw [this, List.map_id]

theorem arrWF_map {a : Arr α} (h : a.WF) : (a.mapBuf g).WF :=
  ⟨⟨h.valid.1, fun idx hi => by
    show a.off + offset idx a.stride < (a.buf.map g).length
    rw [List.length_map]; exact h.valid.2 idx hi⟩, h.flags, h.pos, h.len⟩

theorem fine_map {env : List (Tensor α)} {env' : List (Tensor β)} (hE : ∀ (i : Nat) (t' : Tensor β), env'[i]? = some t' →
      ∃ t, env[i]? = some t ∧ t.arr.stride = t'.arr.stride ∧ t.arr.shape = t'.arr.shape) {c : Cmd α} (h : c.Fine env) : (c.map g).Fine env' := by
  cases c with
  | op x =>
    cases x with
    | into op shared i =>
      intro h1 h2 t' ht'
      obtain ⟨t, ht, e1, e2⟩ := hE i t' ht'
      rw [← e1, ← e2]
      exact h h1 h2 t ht
    | _ => trivial
  | backwardWith y a => exact arrWF_map g h
  | _ => trivial

theorem smallEnv_map {env : List (Tensor α)} (h : SmallEnv env) : SmallEnv (env.map (Tensor.map g)) := by
  intro t ht
  obtain ⟨t', ht', rfl⟩ := List.mem_map.1 ht
  exact h t' ht'

theorem program_map (c : List (Cmd α)) : program (c.map (Cmd.map g)) = (program c).map (Instr.map g) := by
  unfold program
  induction c with
  | nil => rfl
  | cons x c ih => cases x <;> simp [Cmd.map, Cmd.instr, List.filterMap_cons, ih]

end

/-! ### related runs -/

section
variable {M S : Type} [Add M] [Sub M] [Mul M] [Div M] [Neg M] [Zero M] [One M] [MulAdd M] [Build]
  [Add S] [Sub S] [Mul S] [Div S] [Neg S] [Zero S] [One S] [MulAdd S]
  {R : M → S → Prop} [hR : GradClosed R]

/-- The session on pairs. -/
theorem session_joint {leaf : M → S} (hl : ∀ x, R x (leaf x)) (c : List (Cmd M)) :
    runSession c = RunState.map Joint.fst <$> runSession (c.map (Cmd.map fun x => (⟨x, leaf x, hl x⟩ : Joint R))) ∧
    runSession (c.map (Cmd.map leaf)) =
      RunState.map Joint.snd <$> runSession (c.map (Cmd.map fun x => (⟨x, leaf x, hl x⟩ : Joint R))) := by
  rw [← session_map (joint_fst (R := R)), ← session_map (joint_snd (R := R)), cmdsMap_comp, cmdsMap_comp]
  exact ⟨by rw [cmdsMap_id], rfl⟩

theorem session_joint_ok {leaf : M → S} (hl : ∀ x, R x (leaf x)) {c : List (Cmd M)} {σ : RunState M} (h : runSession c = .ok σ) :
    ∃ ρ : RunState (Joint R), ρ.map Joint.fst = σ ∧ runSession (c.map (Cmd.map leaf)) = .ok (ρ.map Joint.snd) := by
  obtain ⟨h1, h2⟩ := session_joint hl c
  rw [h] at h1
  cases hr : runSession (c.map (Cmd.map fun x => (⟨x, leaf x, hl x⟩ : Joint R))) with
  | error e => rw [hr] at h1; cases h1
  | ok ρ =>
    rw [hr] at h1 h2
    exact ⟨ρ, (Except.ok.inj h1).symm, h2⟩

omit [Build] in
/-- The elements of an array, from those of its image. -/
theorem denotes_unmap {α β : Type} [Zero α] {φ : α → β} {a : Arr α} {s : List Nat} {g : List Nat → β} (h : (a.mapBuf φ).Denotes s g) :
    ∃ f, a.Denotes s f ∧ ∀ idx, InB idx s → φ (f idx) = g idx := by
  refine ⟨fun idx => (a.buf[a.off + offset idx a.stride]?).getD 0, ⟨h.1, h.2.1, fun idx hi => ?_⟩, fun idx hi => ?_⟩ <;>
  · have h1 := h.2.2 idx hi
    change (a.buf.map φ)[a.off + offset idx a.stride]? = _ at h1
    rw [List.getElem?_map] at h1
    obtain ⟨v, hv, e⟩ := Option.map_eq_some_iff.1 h1
    simp only [hv, Option.getD_some]
    try exact e

omit [Build] in
theorem env_map {α β : Type} {φ : α → β} {σ : RunState α} {i : Nat} {x : Tensor β} (h : (σ.map φ).env[i]? = some x) :
    ∃ q, σ.env[i]? = some q ∧ x = q.map φ := by
  change (σ.env.map (Tensor.map φ))[i]? = _ at h
  rw [List.getElem?_map] at h
  obtain ⟨q, hq, e⟩ := Option.map_eq_some_iff.1 h
  exact ⟨q, hq, e.symm⟩

omit [Build] in
theorem env_map' {α β : Type} (φ : α → β) {σ : RunState α} {i : Nat} {q : Tensor α} (h : σ.env[i]? = some q) :
    (σ.map φ).env[i]? = some (q.map φ) := by
  show (σ.env.map (Tensor.map φ))[i]? = _
  rw [List.getElem?_map, h]; rfl

omit [Build] in
theorem grad_map {α β : Type} {φ : α → β} {q : Tensor α} {σ : RunState α} {g : Arr β} (h : (q.map φ).gradient (σ.map φ).store = some g) :
    ∃ g₀, q.gradient σ.store = some g₀ ∧ g = g₀.mapBuf φ := by
  have := gradient_map (φ := φ) q σ.store
  change (q.map φ).gradient (mapStore φ σ.store) = some g at h
  rw [h] at this
  obtain ⟨g₀, h1, h2⟩ := Option.map_eq_some_iff.1 this.symm
  exact ⟨g₀, h1, h2.symm⟩

omit [Build] in
theorem grad_map' {α β : Type} (φ : α → β) {q : Tensor α} {σ : RunState α} {g : Arr α} (h : q.gradient σ.store = some g) :
    (q.map φ).gradient (σ.map φ).store = some (g.mapBuf φ) := by
  have := gradient_map (φ := φ) q σ.store
  rw [h] at this
  exact this

end

end Verif
