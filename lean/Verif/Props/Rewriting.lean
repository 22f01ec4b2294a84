import Verif.Props.Freezing
import Verif.Props.Weighted

/-!
# C100: gradients do not depend on how a formula is written

Two ends of a session that compute the same function in two ways give the same gradients; for the usual laws of arithmetic also the same answer to whether `backward` completes.
-/

namespace Verif

section any
variable {α : Type}

theorem wellShaped_unique {p : List (Instr α)} {Γ Γ₁ Γ₂ : List (List Nat)} {B : List Bool} (h₁ : WellShaped Γ B p Γ₁) (h₂ : WellShaped Γ B p Γ₂) : Γ₁ = Γ₂ := by
  induction p generalizing Γ B with
  | nil => exact Eq.trans h₁ (Eq.symm h₂)
  | cons x p ih =>
    obtain ⟨r, a, _, _, _, h₁⟩ := h₁
    obtain ⟨r', b, _, _, _, h₂⟩ := h₂
    obtain rfl := C87_unique a b
    exact ih h₁ h₂

theorem wellShaped_prefix {p q : List (Instr α)} {Γ Γ' : List (List Nat)} (h : WellShaped [] [] p Γ) (h' : WellShaped [] [] (p ++ q) Γ') : Γ <+: Γ' := by
  obtain ⟨Γm, h1, h2⟩ := wellShaped_append h'
  rw [wellShaped_unique h h1]; exact h2

/-- The operations `q`, then `backward` on tensor `y`. -/
def ending (q : List (Instr α)) (y : Nat) : List (Cmd α) := q.map .op ++ [.backward y]

theorem ending_program (q : List (Instr α)) (y : Nat) : program (ending q y) = q := by
  unfold ending
  rw [program_append, program_ops]
  exact List.append_nil q

theorem ending_legal {p₀ q : List (Instr α)} {body : List (Cmd α)} {Γ Γ' : List (List Nat)} {y : Nat} (h : WellShaped [] [] (p₀ ++ program body) Γ)
    (hb : Legal (constructed (p₀ ++ program body)) Γ (constructed p₀).length body) (hq : ∀ x ∈ q, ∀ i b, x ≠ .setReq i b)
    (h' : WellShaped [] [] (p₀ ++ program body ++ q) Γ') (hy : y < Γ'.length) :
    Legal (constructed (p₀ ++ program body ++ q)) Γ' (constructed p₀).length (body ++ ending q y) := by
  refine legal_append (legal_mono (constructed_append _ _) (wellShaped_prefix h h') hb) (legal_append (legal_ops hq _) ⟨?_, trivial⟩)
  have e := legal_constructed (p₀ := p₀ ++ program body) (c := q.map .op) (C := []) (Γ := []) (legal_ops hq _)
  rw [program_ops] at e ⊢
  rw [← legal_constructed hb, ← e, constructed_length h']
  exact hy

theorem ending_passes {p₀ q : List (Instr α)} {body : List (Cmd α)} {Γ Γ' : List (List Nat)} {y : Nat} {s : List Nat} (h : WellShaped [] [] (p₀ ++ program body) Γ)
    (hb : Legal (constructed (p₀ ++ program body)) Γ (constructed p₀).length body) (hq : ∀ x ∈ q, ∀ i b, x ≠ .setReq i b)
    (h' : WellShaped [] [] (p₀ ++ program body ++ q) Γ') (hy : Γ'[y]? = some s) :
    (∀ c ∈ body ++ ending q y, c.passes Γ' (p₀ ++ program body ++ q)) ↔
      (∀ c ∈ body, c.passes Γ (p₀ ++ program body)) ∧ Passes Γ' (p₀ ++ program body ++ q) y (rowStrides s) := by
  rw [List.forall_mem_append, body_passes h hb hq (wellShaped_prefix h h')]
  refine and_congr_right fun _ => ?_
  have e : Γ'.getD y [] = s := by rw [List.getD_eq_getElem?_getD, hy]; rfl
  constructor
  · intro H
    have := H (.backward y) (by simp [ending])
    rwa [show Cmd.passes Γ' (p₀ ++ program body ++ q) (.backward y) = Passes Γ' (p₀ ++ program body ++ q) y (rowStrides (Γ'.getD y [])) from rfl, e] at this
  · intro H c hc
    rcases List.mem_append.1 hc with hc | hc
    · obtain ⟨x, _, rfl⟩ := List.mem_map.1 hc
      trivial
    · rw [List.mem_singleton.1 hc]
      show Passes Γ' _ y (rowStrides (Γ'.getD y []))
      rw [e]; exact H

end any

section field
variable {α : Type} [Field α]

/-- Two tensors of shape `s`, of two programs, that have the same derivatives: their elements move alike, however the variables move. -/
def SameSlope (s : List Nat) (p : List (Instr α)) (y : Nat) (p' : List (Instr α)) (y' : Nat) : Prop :=
  ∀ v idx, InB idx s → (((specRun (Dual.interp v) 0 p).get y).1.elem idx).eps = (((specRun (Dual.interp v) 0 p').get y').1.elem idx).eps

variable [Build]

/-- **C100.** Two sessions that begin alike (`p₀`, `body`), then compute `y` by the operations `q`, and `y'` by the operations `q'`; `y` and `y'` have
the same shape and the same derivatives. If both sessions complete, they leave the same gradients: these depend on the function only. -/
theorem C100_same {p₀ : List (Instr α)} {body : List (Cmd α)} {Γ₀ Γ Γ' : List (List Nat)} (h : WellShaped [] [] (p₀ ++ program body) Γ₀)
    (hb : Legal (constructed (p₀ ++ program body)) Γ₀ (constructed p₀).length body) {q q' : List (Instr α)} (hq : ∀ x ∈ q, ∀ i b, x ≠ .setReq i b)
    (hq' : ∀ x ∈ q', ∀ i b, x ≠ .setReq i b) (h₁ : WellShaped [] [] (p₀ ++ program body ++ q) Γ) (h₂ : WellShaped [] [] (p₀ ++ program body ++ q') Γ')
    {y y' : Nat} {s : List Nat} (hy : Γ[y]? = some s) (hy' : Γ'[y']? = some s)
    (hs : SameSlope s (p₀ ++ program body ++ q) y (p₀ ++ program body ++ q') y') {σ τ : RunState α}
    (hσ : runSession (p₀.map .op ++ (body ++ ending q y)) = .ok σ) (hτ : runSession (p₀.map .op ++ (body ++ ending q' y')) = .ok τ) :
    ∀ i, (constructed (p₀ ++ program body))[i]? = some true → requiresOf (p₀ ++ program body) i = true →
      ∃ (t u : Tensor α) (g g' : Arr α) (r : List Nat) (f : List Nat → α), σ.env[i]? = some t ∧ τ.env[i]? = some u ∧
        t.gradient σ.store = some g ∧ u.gradient τ.store = some g' ∧ g.Denotes r f ∧ g'.Denotes r f := by
  have eA : p₀ ++ program (body ++ ending q y) = p₀ ++ program body ++ q := by rw [program_append, ending_program, List.append_assoc]
  have eB : p₀ ++ program (body ++ ending q' y') = p₀ ++ program body ++ q' := by rw [program_append, ending_program, List.append_assoc]
  have hA := C91_loop (p₀ := p₀) (body := body ++ ending q y) (Γ := Γ) (by rw [eA]; exact h₁)
    (by rw [eA]; exact ending_legal h hb hq h₁ (List.getElem?_eq_some_iff.1 hy).1)
  have hB := C91_loop (p₀ := p₀) (body := body ++ ending q' y') (Γ := Γ') (by rw [eB]; exact h₂)
    (by rw [eB]; exact ending_legal h hb hq' h₂ (List.getElem?_eq_some_iff.1 hy').1)
  rw [eA] at hA
  rw [eB] at hB
  obtain ⟨σ', a1, a2, a3, a4⟩ := hA.1 (Classical.byContradiction fun hn => by rw [hA.2 hn] at hσ; cases hσ)
  obtain ⟨τ', b1, b2, b3, b4⟩ := hB.1 (Classical.byContradiction fun hn => by rw [hB.2 hn] at hτ; cases hτ)
  obtain rfl : σ' = σ := Except.ok.inj (a1.symm.trans hσ)
  obtain rfl : τ' = τ := Except.ok.inj (b1.symm.trans hτ)
  have hc := constructed_length h
  intro i hi hreq
  have hlt : i < (constructed (p₀ ++ program body)).length := (List.getElem?_eq_some_iff.1 hi).1
  have req : ∀ {q : List (Instr α)}, (∀ x ∈ q, ∀ i b, x ≠ .setReq i b) → requiresOf (p₀ ++ program body ++ q) i = true := fun hq => by
    unfold requiresOf; rw [spec_get_append _ _ _ hq hlt]; exact hreq
  have ten : ∀ {q : List (Instr α)}, (∀ x ∈ q, ∀ i b, x ≠ .setReq i b) → tensorOf (p₀ ++ program body ++ q) i = tensorOf (p₀ ++ program body) i := fun hq => by
    unfold tensorOf; rw [spec_get_append _ _ _ hq hlt]
  have var : ∀ {q : List (Instr α)} {k : Nat}, (∀ x ∈ q, ∀ i b, x ≠ .setReq i b) → IsVariable (p₀ ++ program body ++ q) i k → IsVariable (p₀ ++ program body) i k :=
    fun hq hv v idx hidx => by
      have := hv v idx (by rw [ten hq]; exact hidx)
      rwa [spec_get_append _ _ _ hq hlt] at this
  obtain ⟨t, k, g, hti, hv, hg, hd⟩ := a4 i ((prefix_get (constructed_append _ _) hlt).trans hi) (req hq)
  obtain ⟨u, k', g', hui, hv', hg', hd'⟩ := b4 i ((prefix_get (constructed_append _ _) hlt).trans hi) (req hq')
  have h0 : 0 ∉ (tensorOf (p₀ ++ program body) i).shape := by
    rw [← ten hq, ← (a3 i t hti).1]
    exact (wellShaped_small h₁ (fun s hs => by cases hs) _ (by rw [← a2]; exact List.mem_map_of_mem (List.mem_of_getElem? hti))).1
  obtain rfl := isVariable_unique h0 (var hq hv) (var hq' hv')
  rw [ten hq] at hd
  rw [ten hq'] at hd'
  refine ⟨t, u, g, g', _, _, hti, hui, hg, hg', hd, hd'.congr fun J _ => ?_⟩
  have hlt' : ∀ z, Cmd.backward z ∈ body ∨ (∃ g, Cmd.backwardWith z g ∈ body) → z < (constructed (p₀ ++ program body)).length := fun z hz => by
    rw [legal_constructed hb]; exact legal_lt hb z hz
  unfold ending
  rw [collected_append, collected_append, collected_append, collected_append, collected_ops, collected_ops, collected_extend hq _ _ _ _ hlt',
    collected_extend hq' _ _ _ _ hlt']
  show _ + pair _ _ _ = _ + pair _ _ _
  rw [shaped_tensor h₁ hy, shaped_tensor h₂ hy']
  congr 1
  unfold pair
  congr 1
  refine List.map_congr_left fun idx hidx => ?_
  rw [show jacobian (p₀ ++ program body ++ q) y k J idx = jacobian (p₀ ++ program body ++ q') y' k J idx from hs _ idx (mem_indices.1 hidx)]

/-- Two sessions that begin alike (`p₀`, `body`) and end with `q` and `backward` on `y`, or with `q'` and `backward` on `y'`: either both panic, or both complete, with
the same elements of `y` and `y'`, and the same gradients. -/
def Alike (p₀ : List (Instr α)) (body : List (Cmd α)) (q : List (Instr α)) (y : Nat) (q' : List (Instr α)) (y' : Nat) : Prop :=
  (runSession (p₀.map .op ++ (body ++ ending q y)) = .error .panic ∧ runSession (p₀.map .op ++ (body ++ ending q' y')) = .error .panic) ∨
  ∃ σ τ, runSession (p₀.map .op ++ (body ++ ending q y)) = .ok σ ∧ runSession (p₀.map .op ++ (body ++ ending q' y')) = .ok τ ∧
    (∃ (t u : Tensor α) (r : List Nat) (f : List Nat → α), σ.env[y]? = some t ∧ τ.env[y']? = some u ∧ t.arr.Denotes r f ∧ u.arr.Denotes r f) ∧
    ∀ i, (constructed (p₀ ++ program body))[i]? = some true → requiresOf (p₀ ++ program body) i = true →
      ∃ (t u : Tensor α) (g g' : Arr α) (r : List Nat) (f : List Nat → α), σ.env[i]? = some t ∧ τ.env[i]? = some u ∧
        t.gradient σ.store = some g ∧ u.gradient τ.store = some g' ∧ g.Denotes r f ∧ g'.Denotes r f

theorem alike {p₀ : List (Instr α)} {body : List (Cmd α)} {Γ₀ Γ Γ' : List (List Nat)} (h : WellShaped [] [] (p₀ ++ program body) Γ₀)
    (hb : Legal (constructed (p₀ ++ program body)) Γ₀ (constructed p₀).length body) {q q' : List (Instr α)} (hq : ∀ x ∈ q, ∀ i b, x ≠ .setReq i b)
    (hq' : ∀ x ∈ q', ∀ i b, x ≠ .setReq i b) (h₁ : WellShaped [] [] (p₀ ++ program body ++ q) Γ) (h₂ : WellShaped [] [] (p₀ ++ program body ++ q') Γ')
    {y y' : Nat} {s : List Nat} (hy : Γ[y]? = some s) (hy' : Γ'[y']? = some s)
    (hp : Passes Γ (p₀ ++ program body ++ q) y (rowStrides s) ↔ Passes Γ' (p₀ ++ program body ++ q') y' (rowStrides s))
    (hs : ∀ v idx, InB idx s → ((specRun (Dual.interp v) 0 (p₀ ++ program body ++ q)).get y).1.elem idx =
      ((specRun (Dual.interp v) 0 (p₀ ++ program body ++ q')).get y').1.elem idx) : Alike p₀ body q y q' y' := by
  have eA : p₀ ++ program (body ++ ending q y) = p₀ ++ program body ++ q := by rw [program_append, ending_program, List.append_assoc]
  have eB : p₀ ++ program (body ++ ending q' y') = p₀ ++ program body ++ q' := by rw [program_append, ending_program, List.append_assoc]
  have hA := C91_loop (p₀ := p₀) (body := body ++ ending q y) (Γ := Γ) (by rw [eA]; exact h₁)
    (by rw [eA]; exact ending_legal h hb hq h₁ (List.getElem?_eq_some_iff.1 hy).1)
  have hB := C91_loop (p₀ := p₀) (body := body ++ ending q' y') (Γ := Γ') (by rw [eB]; exact h₂)
    (by rw [eB]; exact ending_legal h hb hq' h₂ (List.getElem?_eq_some_iff.1 hy').1)
  rw [eA, ending_passes h hb hq h₁ hy] at hA
  rw [eB, ending_passes h hb hq' h₂ hy', ← hp] at hB
  by_cases hall : (∀ c ∈ body, c.passes Γ₀ (p₀ ++ program body)) ∧ Passes Γ (p₀ ++ program body ++ q) y (rowStrides s)
  · obtain ⟨σ, a1, a2, a3, _⟩ := hA.1 hall
    obtain ⟨τ, b1, b2, b3, _⟩ := hB.1 hall
    refine .inr ⟨σ, τ, a1, b1, ?_, C100_same h hb hq hq' h₁ h₂ hy hy' (fun v idx hi => by rw [hs v idx hi]) a1 b1⟩
    have hy2 := hy
    have hy2' := hy'
    rw [← a2, List.getElem?_map, Option.map_eq_some_iff] at hy2
    rw [← b2, List.getElem?_map, Option.map_eq_some_iff] at hy2'
    obtain ⟨t, ht, rt⟩ := hy2
    obtain ⟨u, hu, ru⟩ := hy2'
    have d1 := a3 y t ht
    have d2 := b3 y' u hu
    rw [shaped_tensor h₁ hy] at d1
    rw [shaped_tensor h₂ hy'] at d2
    refine ⟨t, u, s, _, ht, hu, d1, d2.congr fun idx hi => ?_⟩
    rw [← (dual_value _ (fun _ _ => 0) y).2.2 idx, ← (dual_value _ (fun _ _ => 0) y').2.2 idx, hs _ idx hi]
  · exact .inl ⟨hA.2 hall, hB.2 hall⟩

end field

/-! ### the laws -/

section any
variable {α : Type}

theorem wellShaped_last {p : List (Instr α)} {x : Instr α} {Γ Γ' : List (List Nat)} {B : List Bool} (h : WellShaped Γ B (p ++ [x]) Γ') :
    ∃ Γ₀ r e, WellShaped Γ B p Γ₀ ∧ x.HasShape e Γ₀ r ∧ 0 ∉ r ∧ r.length ≤ 32 ∧ Γ' = x.extend Γ₀ r := by
  induction p generalizing Γ B with
  | nil =>
    obtain ⟨r, h1, h2, h3, _, h⟩ := h
    exact ⟨Γ, r, _, rfl, h1, h2, h3, h⟩
  | cons y p ih =>
    obtain ⟨r, h1, h2, h3, h4, h⟩ := h
    obtain ⟨Γ₀, r', e, k1, k2⟩ := ih h
    exact ⟨Γ₀, r', e, ⟨r, h1, h2, h3, h4, k1⟩, k2⟩

theorem flows_push (F : List Flow) (f : Flow) (i : Nat) : (F ++ [f]).getD i noFlow = if i = F.length then f else F.getD i noFlow := by
  rw [List.getD_eq_getElem?_getD, List.getD_eq_getElem?_getD]
  split
  · next e => rw [e, List.getElem?_append_right (Nat.le_refl _), Nat.sub_self]; rfl
  · next e =>
    by_cases hi : i < F.length
    · rw [List.getElem?_append_left hi]
    · rw [List.getElem?_eq_none (by simp; omega), List.getElem?_eq_none (by omega)]

theorem passes_one {p : List (Instr α)} {Γ Γ' : List (List Nat)} (h : WellShaped [] [] p Γ) (hpre : Γ <+: Γ') {x : Instr α} {f : Flow}
    (hx : x.flow Γ' (p.foldl (Instr.flow Γ) []) = p.foldl (Instr.flow Γ) [] ++ [f]) (d : List Nat) : Passes Γ' (p ++ [x]) Γ.length d ↔ f.takes d := by
  have hl : (p.foldl (Instr.flow Γ) []).length = Γ.length := by rw [flow_length, constructed_length h]
  unfold Passes
  rw [List.foldl_append, flow_congr h hpre [] rfl, List.foldl_cons, List.foldl_nil, hx]
  show (List.getD _ _ noFlow).takes d ↔ _
  rw [flows_push, if_pos hl.symm]

end any

section field
variable {α : Type} [Field α] [Build]

/-- **C100, commutativity.** `&a + &b` and `&b + &a`, `&a * &b` and `&b * &a`, with broadcasting. -/
theorem C100_commute {p₀ : List (Instr α)} {body : List (Cmd α)} {Γ₀ Γ : List (List Nat)} (h : WellShaped [] [] (p₀ ++ program body) Γ₀)
    (hb : Legal (constructed (p₀ ++ program body)) Γ₀ (constructed p₀).length body) {op : SOp} (hop : op = .add ∨ op = .mul) {a b : Nat}
    (h₁ : WellShaped [] [] (p₀ ++ program body ++ [.bin op a b]) Γ) : Alike p₀ body [.bin op a b] Γ₀.length [.bin op b a] Γ₀.length := by
  obtain ⟨Γ₀', r, e, k1, ⟨s, t, ks, kt, kc, kj⟩, k3, k4, rfl⟩ := wellShaped_last h₁
  obtain rfl := wellShaped_unique h k1
  have h₂ : WellShaped [] [] (p₀ ++ program body ++ [.bin op b a]) (Γ₀ ++ [r]) :=
    wellShaped_snoc h (x := .bin op b a) (fun e => ⟨t, s, kt, ks, kc.symm, kj.symm kc⟩) k3 k4 (fun _ => rfl)
  have hn : ∀ i j, ∀ x ∈ ([.bin op i j] : List (Instr α)), ∀ i b, x ≠ .setReq i b := by
    intro i j x hx; rw [List.mem_singleton.1 hx]; intro _ _ h; cases h
  have hpre : Γ₀ <+: Γ₀ ++ [r] := List.prefix_append _ _
  refine alike h hb (hn _ _) (hn _ _) h₁ h₂ (s := r) (by simp [Instr.extend]) (by simp) ?_ fun v idx _ => ?_
  · show Passes (Γ₀ ++ [r]) _ _ _ ↔ _
    rw [passes_one h hpre (x := .bin op a b) rfl, passes_one h hpre (x := .bin op b a) rfl]
    unfold Flow.takes
    dsimp only
    rw [Bool.or_comm]
    refine imp_congr Iff.rfl ?_
    rcases hop with rfl | rfl <;> exact and_comm
  · have e : ∀ x : Instr α, specRun (Dual.interp v) 0 (p₀ ++ program body ++ [x]) = (specRun (Dual.interp v) 0 (p₀ ++ program body)).step (Dual.interp v) 0 x :=
      fun x => by unfold specRun; rw [List.foldl_append]; rfl
    have hl : (specRun (Dual.interp v) 0 (p₀ ++ program body)).env.length = Γ₀.length := by rw [spec_length, constructed_length h]
    rw [e, e]
    show ((SpecState.push _ _ _).get _).1.elem idx = ((SpecState.push _ _ _).get _).1.elem idx
    rw [push_get_last hl, push_get_last hl]
    show op.run _ _ = op.run _ _
    rcases hop with rfl | rfl
    · exact congrArg₂ Dual.mk (add_comm _ _) (add_comm _ _)
    · exact congrArg₂ Dual.mk (mul_comm _ _) (by rw [add_comm, mul_comm, mul_comm (Dual.eps _)])

/-- **C100.** `dot` and `matmul` of vectors. -/
theorem C100_dot {p₀ : List (Instr α)} {body : List (Cmd α)} {Γ₀ Γ : List (List Nat)} (h : WellShaped [] [] (p₀ ++ program body) Γ₀)
    (hb : Legal (constructed (p₀ ++ program body)) Γ₀ (constructed p₀).length body) {a b : Nat}
    (h₁ : WellShaped [] [] (p₀ ++ program body ++ [.dot a b]) Γ) : Alike p₀ body [.dot a b] Γ₀.length [.matmul a b] Γ₀.length := by
  obtain ⟨Γ₀', r, e, k1, ⟨n, ks, kt, rfl⟩, k3, k4, rfl⟩ := wellShaped_last h₁
  obtain rfl := wellShaped_unique h k1
  have h₂ : WellShaped [] [] (p₀ ++ program body ++ [.matmul a b]) (Γ₀ ++ [[]]) :=
    wellShaped_snoc h (x := .matmul a b) (fun e => .inl ⟨n, ks, kt, rfl⟩) k3 k4 (fun _ => rfl)
  have hpre : Γ₀ <+: Γ₀ ++ [[]] := List.prefix_append _ _
  refine alike h hb (by intro x hx; rw [List.mem_singleton.1 hx]; intro _ _ h; cases h) (by intro x hx; rw [List.mem_singleton.1 hx]; intro _ _ h; cases h) h₁ h₂
    (s := []) (by simp [Instr.extend]) (by simp) ?_ fun v idx _ => ?_
  · show Passes (Γ₀ ++ [[]]) _ _ _ ↔ _
    rw [passes_one h hpre (x := .dot a b) rfl, passes_one h hpre (x := .matmul a b) rfl]
  · have e : ∀ x : Instr α, specRun (Dual.interp v) 0 (p₀ ++ program body ++ [x]) = (specRun (Dual.interp v) 0 (p₀ ++ program body)).step (Dual.interp v) 0 x :=
      fun x => by unfold specRun; rw [List.foldl_append]; rfl
    have hl : (specRun (Dual.interp v) 0 (p₀ ++ program body)).env.length = Γ₀.length := by rw [spec_length, constructed_length h]
    have sa : ((specRun (Dual.interp v) 0 (p₀ ++ program body)).get a).1.shape = [n] := by rw [(dual_value _ v _).2.1, shaped_tensor h ks]
    rw [e, e]
    show ((SpecState.push _ _ _).get _).1.elem idx = ((SpecState.push _ _ _).get _).1.elem idx
    rw [push_get_last hl, push_get_last hl]
    show _ = (MT.matmul _ _).elem idx
    unfold MT.matmul
    rw [sa]

/-- **C100.** `&a - &b` and `&a + &(-&b)`, with broadcasting. -/
theorem C100_sub {p₀ : List (Instr α)} {body : List (Cmd α)} {Γ₀ Γ : List (List Nat)} (h : WellShaped [] [] (p₀ ++ program body) Γ₀)
    (hb : Legal (constructed (p₀ ++ program body)) Γ₀ (constructed p₀).length body) {a b : Nat}
    (h₁ : WellShaped [] [] (p₀ ++ program body ++ [.bin .sub a b]) Γ) :
    Alike p₀ body [.bin .sub a b] Γ₀.length [.neg b, .bin .add a Γ₀.length] (Γ₀.length + 1) := by
  obtain ⟨Γ₀', r, e, k1, ⟨s, t, ks, kt, kc, kj⟩, k3, k4, rfl⟩ := wellShaped_last h₁
  obtain rfl := wellShaped_unique h k1
  have la : a < Γ₀.length := (List.getElem?_eq_some_iff.1 ks).1
  have lb : b < Γ₀.length := (List.getElem?_eq_some_iff.1 kt).1
  obtain ⟨t0, t1⟩ := wellShaped_small h (fun s hs => by cases hs) t (List.mem_of_getElem? kt)
  have hm : WellShaped [] [] (p₀ ++ program body ++ [.neg b]) (Γ₀ ++ [t]) := wellShaped_snoc h (x := .neg b) (fun e => kt) t0 t1 (fun _ => rfl)
  have h₂ : WellShaped [] [] (p₀ ++ program body ++ [.neg b] ++ [.bin .add a Γ₀.length]) (Γ₀ ++ [t] ++ [r]) :=
    wellShaped_snoc hm (x := .bin .add a Γ₀.length) (fun e => ⟨s, t, by rw [List.getElem?_append_left la]; exact ks, by simp, kc, kj⟩) k3 k4 (fun _ => rfl)
  have hpre : Γ₀ <+: Γ₀ ++ [t] := List.prefix_append _ _
  have hl0 : ((p₀ ++ program body).foldl (Instr.flow Γ₀) []).length = Γ₀.length := by rw [flow_length, constructed_length h]
  have g : ∀ {Γ : List (List Nat)} {i : Nat} {s : List Nat}, Γ₀ <+: Γ → Γ₀[i]? = some s → Γ.getD i [] = s := fun hp hi => by
    rw [List.getD_eq_getElem?_getD, prefix_get hp (List.getElem?_eq_some_iff.1 hi).1, hi]; rfl
  refine alike h hb (q' := [.neg b, .bin .add a Γ₀.length]) (Γ' := Γ₀ ++ [t] ++ [r]) (by intro x hx; rw [List.mem_singleton.1 hx]; intro _ _ h; cases h)
    (by intro x hx; simp at hx; rcases hx with rfl | rfl <;> (intro _ _ h; cases h)) h₁
    (by rw [List.append_assoc (p₀ ++ program body)] at h₂; exact h₂) (s := r) (by simp [Instr.extend]) (by simp) ?_ fun v idx _ => ?_
  · have pre2 : Γ₀ <+: Γ₀ ++ [t] ++ [r] := by rw [List.append_assoc]; exact List.prefix_append _ _
    show Passes (Γ₀ ++ [r]) _ _ _ ↔ Passes (Γ₀ ++ [t] ++ [r]) _ _ _
    rw [passes_one h (List.prefix_append _ _) (x := .bin .sub a b) rfl]
    rw [show (p₀ ++ program body ++ [.neg b, .bin .add a Γ₀.length]) = p₀ ++ program body ++ [.neg b] ++ [.bin .add a Γ₀.length] by simp,
      show Γ₀.length + 1 = (Γ₀ ++ [t]).length by simp, passes_one hm (List.prefix_append _ _) (x := .bin .add a Γ₀.length) rfl]
    have eF : (p₀ ++ program body ++ [Instr.neg b]).foldl (Instr.flow (Γ₀ ++ [t])) [] =
        Instr.flow (Γ₀ ++ [t]) ((p₀ ++ program body).foldl (Instr.flow Γ₀) []) (.neg b : Instr α) := by
      rw [List.foldl_append (l := p₀ ++ program body), flow_congr h hpre [] rfl]; rfl
    rw [eF]
    generalize (p₀ ++ program body).foldl (Instr.flow Γ₀) [] = F at hl0
    have e1 : Instr.flow (Γ₀ ++ [t]) F (.neg b : Instr α) = F ++ [⟨(F.getD b noFlow).req, fun _ => (F.getD b noFlow).ok (evenStrides t 1)⟩] := by
      show F ++ [⟨_, fun _ => (F.getD b noFlow).ok (evenStrides ((Γ₀ ++ [t]).getD b []) 1)⟩] = _
      rw [g hpre kt]; rfl
    rw [e1]
    dsimp only
    rw [show (⟨false, fun _ => True⟩ : Flow) = noFlow from rfl]
    rw [flows_push _ _ a, flows_push _ _ Γ₀.length, if_pos hl0.symm, if_neg (by omega)]
    rw [g (List.prefix_append _ _) ks, g (List.prefix_append _ _) kt, g pre2 ks, hl0,
      show (F ++ [(⟨(F.getD b noFlow).req, fun _ => (F.getD b noFlow).ok (evenStrides t 1)⟩ : Flow)]).length = (Γ₀ ++ [t]).length by simp [hl0],
      show (Γ₀ ++ [r]).getD Γ₀.length [] = r by simp, show (Γ₀ ++ [t] ++ [r]).getD (Γ₀ ++ [t]).length [] = r by simp,
      show (Γ₀ ++ [t] ++ [r]).getD Γ₀.length [] = t by simp]
    unfold Flow.takes Flow.receives
    simp
  · have e : specRun (Dual.interp v) 0 (p₀ ++ program body ++ [.bin .sub a b]) = (specRun (Dual.interp v) 0 (p₀ ++ program body)).step (Dual.interp v) 0 (.bin .sub a b) := by
      unfold specRun; rw [List.foldl_append]; rfl
    have e' : specRun (Dual.interp v) 0 (p₀ ++ program body ++ [.neg b, .bin .add a Γ₀.length]) =
        ((specRun (Dual.interp v) 0 (p₀ ++ program body)).step (Dual.interp v) 0 (.neg b)).step (Dual.interp v) 0 (.bin .add a Γ₀.length) := by
      unfold specRun; rw [List.foldl_append]; rfl
    have hl : (specRun (Dual.interp v) 0 (p₀ ++ program body)).env.length = Γ₀.length := by rw [spec_length, constructed_length h]
    rw [e, e']
    generalize specRun (Dual.interp v) 0 (p₀ ++ program body) = σ at hl
    have g1 : (σ.step (Dual.interp v) 0 (.neg b)).get Γ₀.length = ((σ.get b).1.map (- ·), (σ.get b).2) := push_get_last hl _ _
    have g2 : (σ.step (Dual.interp v) 0 (.neg b)).get a = σ.get a := push_get_old (by omega) _ _
    show ((σ.push _ _).get _).1.elem idx = ((SpecState.push (σ.step (Dual.interp v) 0 (.neg b)) _ _).get _).1.elem idx
    rw [push_get_last hl, push_get_last (by show (σ.push _ _).env.length = _; rw [push_length, hl]), g1, g2]
    exact congrArg₂ Dual.mk (sub_eq_add_neg _ _) (sub_eq_add_neg _ _)

omit [Field α] [Build] in
theorem flows_snoc {p : List (Instr α)} {Γ Γ' : List (List Nat)} (h : WellShaped [] [] p Γ) (hpre : Γ <+: Γ') (x : Instr α) :
    (p ++ [x]).foldl (Instr.flow Γ') [] = x.flow Γ' (p.foldl (Instr.flow Γ) []) := by
  rw [List.foldl_append, flow_congr h hpre [] rfl]; rfl

/-- What an elementwise operation on tensors of the same shape `s` does with gradients. -/
def Flow.pairing (s : List Nat) (k k' : Bool) (f f' : Flow) : Flow := ⟨f.req || f'.req, fun d => f.receives k s s d ∧ f'.receives k' s s d⟩

omit [Build] in
theorem distribute_flow (s : List Nat) (a b c : Flow) :
    (Flow.pairing s false false a (Flow.pairing s true true b c)).takes (rowStrides s) ↔
      (Flow.pairing s true true (Flow.pairing s false false a b) (Flow.pairing s false false a c)).takes (rowStrides s) := by
  have e1 : rowStrides s = evenStrides s 1 := by rw [rowStrides_eq, evenStrides_one]
  obtain ⟨a, fa⟩ := a
  obtain ⟨b, fb⟩ := b
  obtain ⟨c, fc⟩ := c
  cases a <;> cases b <;> cases c <;> simp [Flow.pairing, Flow.takes, Flow.receives, KeepsAxis, e1] <;> tauto

omit [Field α] [Build] in
theorem flow_bin {Γ : List (List Nat)} {F : List Flow} {op : SOp} {i j : Nat} {s : List Nat} (hi : Γ.getD i [] = s) (hj : Γ.getD j [] = s) (hn : Γ.getD F.length [] = s)
    (hop : op = .add ∨ op = .mul) :
    Instr.flow Γ F (.bin op i j : Instr α) = F ++ [Flow.pairing s (op = .add) (op = .add) (F.getD i noFlow) (F.getD j noFlow)] := by
  unfold Instr.flow Flow.pairing
  dsimp only
  rw [show (⟨false, fun _ => True⟩ : Flow) = noFlow from rfl, hi, hj, hn]
  rcases hop with rfl | rfl <;> rfl

omit [Build] in
theorem dual_distribute (x y z : Dual α) : SOp.mul.run x (SOp.add.run y z) = SOp.add.run (SOp.mul.run x y) (SOp.mul.run x z) := by
  obtain ⟨a, a'⟩ := x
  obtain ⟨b, b'⟩ := y
  obtain ⟨c, c'⟩ := z
  refine congrArg₂ Dual.mk (mul_add a b c) ?_
  show a * (b' + c') + a' * (b + c) = (a * b' + a' * b) + (a * c' + a' * c)
  ring

/-- **C100, distributivity.** `&a * (&b + &c)` and `&a * &b + &a * &c`, for tensors of the same shape. -/
theorem C100_distribute {p₀ : List (Instr α)} {body : List (Cmd α)} {Γ : List (List Nat)} (h : WellShaped [] [] (p₀ ++ program body) Γ)
    (hb : Legal (constructed (p₀ ++ program body)) Γ (constructed p₀).length body) {a b c : Nat} {s : List Nat} (ha : Γ[a]? = some s) (hB : Γ[b]? = some s)
    (hC : Γ[c]? = some s) :
    Alike p₀ body [.bin .add b c, .bin .mul a Γ.length] (Γ.length + 1) [.bin .mul a b, .bin .mul a c, .bin .add Γ.length (Γ.length + 1)] (Γ.length + 2) := by
  obtain ⟨s0, s1⟩ := wellShaped_small h (fun s hs => by cases hs) s (List.mem_of_getElem? ha)
  have bc := BroadcastsTo.refl s
  have la : a < Γ.length := (List.getElem?_eq_some_iff.1 ha).1
  have lb : b < Γ.length := (List.getElem?_eq_some_iff.1 hB).1
  have lc : c < Γ.length := (List.getElem?_eq_some_iff.1 hC).1
  generalize eP : p₀ ++ program body = P at *
  have snoc : ∀ {p : List (Instr α)} {Γ' : List (List Nat)} {op : SOp} {i j : Nat}, WellShaped [] [] p Γ' → Γ'[i]? = some s → Γ'[j]? = some s →
      WellShaped [] [] (p ++ [.bin op i j]) (Γ' ++ [s]) := fun {p Γ' op i j} h hi hj =>
    wellShaped_snoc h (x := .bin op i j) (fun e => ⟨s, s, hi, hj, bc.compatible, bc.joint⟩) s0 s1 (fun _ => rfl)
  have up : ∀ {Γ' : List (List Nat)} {i : Nat}, Γ'[i]? = some s → (Γ' ++ [s])[i]? = some s := fun {Γ' i} hi => by
    rw [List.getElem?_append_left (List.getElem?_eq_some_iff.1 hi).1]; exact hi
  have gd : ∀ {Γ' : List (List Nat)} {i : Nat}, Γ'[i]? = some s → Γ'.getD i [] = s := fun hi => by rw [List.getD_eq_getElem?_getD, hi]; rfl
  have new : ∀ {Γ' : List (List Nat)}, (Γ' ++ [s])[Γ'.length]? = some s := by intro Γ'; simp
  have n1 : (Γ ++ [s] ++ [s])[Γ.length + 1]? = some s := by simp
  have n2 : (Γ ++ [s] ++ [s] ++ [s])[Γ.length + 2]? = some s := by simp
  have a1 := snoc (op := .add) h hB hC
  have a2 := snoc (op := .mul) a1 (up ha) new
  have b1 := snoc (op := .mul) h ha hB
  have b2 := snoc (op := .mul) b1 (up ha) (up hC)
  have b3 := snoc (op := .add) b2 (up new) n1
  have hpre : ∀ Γ' : List (List Nat), Γ' <+: Γ' ++ [s] := fun Γ' => List.prefix_append _ _
  have hl0 : (P.foldl (Instr.flow Γ) []).length = Γ.length := by rw [flow_length, constructed_length h]
  subst eP
  refine alike h hb (q := [.bin .add b c, .bin .mul a Γ.length]) (q' := [.bin .mul a b, .bin .mul a c, .bin .add Γ.length (Γ.length + 1)])
    (Γ := Γ ++ [s] ++ [s]) (Γ' := Γ ++ [s] ++ [s] ++ [s]) (by intro x hx; simp at hx; rcases hx with rfl | rfl <;> (intro _ _ h; cases h))
    (by intro x hx; simp at hx; rcases hx with rfl | rfl | rfl <;> (intro _ _ h; cases h)) (by simpa [List.append_assoc] using a2)
    (by simpa [List.append_assoc] using b3) n1 n2 ?_ fun v idx hidx => ?_
  · rw [show (p₀ ++ program body ++ [.bin .add b c, .bin .mul a Γ.length]) = p₀ ++ program body ++ [.bin .add b c] ++ [.bin .mul a Γ.length] by simp,
      show (p₀ ++ program body ++ [.bin .mul a b, .bin .mul a c, .bin .add Γ.length (Γ.length + 1)]) =
        p₀ ++ program body ++ [.bin .mul a b] ++ [.bin .mul a c] ++ [.bin .add Γ.length (Γ.length + 1)] by simp]
    unfold Passes
    rw [flows_snoc a1 (hpre _), flows_snoc h (hpre _), flows_snoc b2 (hpre _), flows_snoc b1 (hpre _), flows_snoc h (hpre _)]
    generalize (p₀ ++ program body).foldl (Instr.flow Γ) [] = F at hl0
    rw [flow_bin (s := s) (op := .add) (i := b) (j := c) (gd (up hB)) (gd (up hC)) (by rw [hl0]; exact gd new) (.inl rfl),
      flow_bin (s := s) (op := .mul) (i := a) (j := b) (gd (up ha)) (gd (up hB)) (by rw [hl0]; exact gd new) (.inr rfl),
      flow_bin (s := s) (op := .mul) (i := a) (j := Γ.length) (gd (up (up ha))) (gd (up new)) (by simp [hl0]) (.inr rfl),
      flow_bin (s := s) (op := .mul) (i := a) (j := c) (gd (up (up ha))) (gd (up (up hC))) (by simp [hl0]) (.inr rfl),
      flow_bin (s := s) (op := .add) (i := Γ.length) (j := Γ.length + 1) (gd (up (up new))) (gd (up n1)) (by simp [hl0]) (.inl rfl)]
    rw [show (⟨false, fun _ => True⟩ : Flow) = noFlow from rfl]
    have o1 : ¬ a = F.length := by omega
    have o2 : ¬ c = F.length := by omega
    have o3 : ¬ F.length = F.length + 1 := by omega
    simp only [flows_push, List.length_append, List.length_singleton, o1, o2, o3, hl0.symm, if_true, if_false]
    exact distribute_flow s _ _ _
  · have e : ∀ q : List (Instr α), specRun (Dual.interp v) 0 (p₀ ++ program body ++ q) = q.foldl (SpecState.step (Dual.interp v) 0) (specRun (Dual.interp v) 0 (p₀ ++ program body)) :=
      fun q => by unfold specRun; rw [List.foldl_append]
    have hl : (specRun (Dual.interp v) 0 (p₀ ++ program body)).env.length = Γ.length := by rw [spec_length, constructed_length h]
    have sh : ∀ {i}, Γ[i]? = some s → ((specRun (Dual.interp v) 0 (p₀ ++ program body)).get i).1.shape = s := fun hi => by
      rw [(dual_value _ v _).2.1, shaped_tensor h hi]
    have sa := sh ha
    have sb := sh hB
    have sc := sh hC
    rw [e, e]
    generalize specRun (Dual.interp v) 0 (p₀ ++ program body) = σ at hl sa sb sc
    have bi := broadcastIndex_self hidx
    have js : jointShape s s = s := (isJoint_jointShape s s).unique bc.joint
    have o1 : ¬ a = σ.env.length := by omega
    have o2 : ¬ c = σ.env.length := by omega
    have o3 : ¬ σ.env.length = σ.env.length + 1 := by omega
    simp only [List.foldl_cons, List.foldl_nil, SpecState.step, ← hl, get_push, push_length, o1, o2, o3, if_true, if_false, MT.zip, sa, sb, sc, bi, js]
    exact dual_distribute _ _ _

/-- Two vectors of two elements, the first requiring a gradient, and their product differentiated: a beginning on which all of the above applies. -/
example : (WellShaped [] [] ([.leaf [2] [1, 2], .leaf [2] [3, 4], .setReq 0 true] ++ program [.op (.bin .mul 0 1), .backward 2] : List (Instr ℚ)) [[2], [2], [2]]) ∧
    (Legal (constructed ([.leaf [2] [1, 2], .leaf [2] [3, 4], .setReq 0 true] ++ program [.op (.bin .mul 0 1), .backward 2] : List (Instr ℚ))) [[2], [2], [2]]
      (constructed ([.leaf [2] [1, 2], .leaf [2] [3, 4], .setReq 0 true] : List (Instr ℚ))).length ([.op (.bin .mul 0 1), .backward 2] : List (Cmd ℚ))) ∧
    ([[2], [2], [2]] : List (List Nat))[0]? = some [2] ∧ ([[2], [2], [2]] : List (List Nat))[1]? = some [2] ∧
    (WellShaped [] [] ([.leaf [2] [1, 2], .leaf [2] [3, 4], .setReq 0 true] ++ program [.op (.bin .mul 0 1), .backward 2] ++ [.bin .sub 0 1] : List (Instr ℚ))
      [[2], [2], [2], [2]]) ∧
    (WellShaped [] [] ([.leaf [2] [1, 2], .leaf [2] [3, 4], .setReq 0 true] ++ program [.op (.bin .mul 0 1), .backward 2] ++ [.dot 0 1] : List (Instr ℚ))
      [[2], [2], [2], []]) ∧
    ∃ σ, runSession (([.leaf [2] [1, 2], .leaf [2] [3, 4], .setReq 0 true] : List (Instr ℚ)).map .op ++
      ([.op (.bin .mul 0 1), .backward 2] ++ ending [.bin .add 0 1, .bin .mul 0 3] 4)) = .ok σ := by
  have hc := BroadcastsTo.refl [2]
  have h : WellShaped [] [] ([.leaf [2] [1, 2], .leaf [2] [3, 4], .setReq 0 true] ++ program [.op (.bin .mul 0 1), .backward 2] : List (Instr ℚ)) [[2], [2], [2]] :=
    ⟨[2], ⟨rfl, rfl⟩, by simp, by simp, rfl, [2], ⟨rfl, rfl⟩, by simp, by simp, rfl, [2], rfl, by simp, by simp, rfl,
      [2], ⟨[2], [2], rfl, rfl, hc.compatible, hc.joint⟩, by simp, by simp, rfl, rfl⟩
  have h' : WellShaped [] [] ([.leaf [2] [1, 2], .leaf [2] [3, 4], .setReq 0 true] ++ program ([.op (.bin .mul 0 1), .backward 2] ++
      ending [.bin .add 0 1, .bin .mul 0 3] 4) : List (Instr ℚ)) [[2], [2], [2], [2], [2]] :=
    ⟨[2], ⟨rfl, rfl⟩, by simp, by simp, rfl, [2], ⟨rfl, rfl⟩, by simp, by simp, rfl, [2], rfl, by simp, by simp, rfl,
      [2], ⟨[2], [2], rfl, rfl, hc.compatible, hc.joint⟩, by simp, by simp, rfl, [2], ⟨[2], [2], rfl, rfl, hc.compatible, hc.joint⟩, by simp, by simp, rfl,
      [2], ⟨[2], [2], rfl, rfl, hc.compatible, hc.joint⟩, by simp, by simp, rfl, rfl⟩
  refine ⟨h, ⟨(by intro _ _ h; cases h), by decide, trivial⟩, rfl, rfl,
    wellShaped_snoc h (x := .bin .sub 0 1) (fun e => ⟨[2], [2], rfl, rfl, hc.compatible, hc.joint⟩) (by simp) (by simp) (fun _ => rfl),
    wellShaped_snoc h (x := .dot 0 1) (fun e => ⟨2, rfl, rfl, rfl⟩) (by simp) (by simp) (fun _ => rfl),
    (C91_any h' ⟨(by intro _ _ h; cases h), by decide, (by intro _ _ h; cases h), (by intro _ _ h; cases h), by decide, trivial⟩).1.2 ?_⟩
  simp [Cmd.passes, Passes, Instr.flow, Flow.takes, Flow.receives, KeepsAxis, evenStrides, rowStrides, numel, program, Cmd.instr, ending, List.filterMap_cons,
    List.filterMap_nil]

end field

end Verif
