import Verif.Props.LossSum

/-!
# C97: weighted losses

`y.backward_with(g)` gives the gradients of `&y * &g`, with `g` as a tensor that does not require gradient.
-/

namespace Verif

section any
variable {α : Type}

theorem passes_times {Γ : List (List Nat)} {p : List (Instr α)} {y : Nat} {s : List Nat} (d : List α) (hy : Γ.getD y [] = s) (hl : y < (constructed p).length)
    (hn : Γ.getD ((constructed p).length + 1) [] = s) (e : List Nat) :
    Passes Γ (p ++ [.leaf s d, .bin .mul y (constructed p).length]) ((constructed p).length + 1) e ↔ Passes Γ p y (rowStrides s) := by
  unfold Passes
  rw [List.foldl_append]
  have hlen := flow_length Γ p
  generalize p.foldl (Instr.flow Γ) [] = F at hlen ⊢
  rw [← hlen] at hn hl ⊢
  have e1 : rowStrides s = evenStrides s 1 := by rw [rowStrides_eq, evenStrides_one]
  rw [List.getD_eq_getElem?_getD] at hn hy
  simp only [List.foldl_cons, List.foldl_nil, Instr.flow, List.getD_eq_getElem?_getD, List.length_append, List.length_singleton,
    List.getElem?_append_left hl, List.getElem?_append_right (Nat.le_refl F.length), Nat.sub_self, List.getElem?_cons_zero, Option.getD_some]
  rw [show F.length + 1 = (F ++ [(⟨false, fun _ => True⟩ : Flow)]).length by simp, List.getElem?_append_right (Nat.le_refl _), Nat.sub_self]
  simp only [List.getElem?_cons_zero, Option.getD_some, List.length_append, List.length_singleton, hy, hn, e1]
  generalize F[y]?.getD _ = f
  obtain ⟨a, f⟩ := f
  cases a <;> simp [Flow.takes, Flow.receives, KeepsAxis]

theorem passes_scaled {Γ : List (List Nat)} {p : List (Instr α)} {y : Nat} {s : List Nat} (c : α) (hy : Γ.getD y [] = s) (e : List Nat) :
    Passes Γ (p ++ [.scal .mul y c]) (constructed p).length e ↔ Passes Γ p y (rowStrides s) := by
  unfold Passes
  rw [List.foldl_append]
  have hlen := flow_length Γ p
  generalize p.foldl (Instr.flow Γ) [] = F at hlen ⊢
  rw [← hlen]
  have e1 : rowStrides s = evenStrides s 1 := by rw [rowStrides_eq, evenStrides_one]
  rw [List.getD_eq_getElem?_getD] at hy
  simp only [List.foldl_cons, List.foldl_nil, Instr.flow, List.getD_eq_getElem?_getD, List.getElem?_append_right (Nat.le_refl F.length), Nat.sub_self,
    List.getElem?_cons_zero, Option.getD_some, hy, e1]
  generalize F[y]?.getD _ = f
  obtain ⟨a, f⟩ := f
  cases a <;> simp [Flow.takes]

/-- Whether the commands so far get through is not changed by operations that follow. -/
theorem body_passes {p₀ : List (Instr α)} {body : List (Cmd α)} {Γ Γ' : List (List Nat)} {S : List (Instr α)} (h : WellShaped [] [] (p₀ ++ program body) Γ)
    (hb : Legal (constructed (p₀ ++ program body)) Γ (constructed p₀).length body) (hS : ∀ x ∈ S, ∀ i b, x ≠ .setReq i b) (hpre : Γ <+: Γ') :
    (∀ c ∈ body, c.passes Γ' (p₀ ++ program body ++ S)) ↔ ∀ c ∈ body, c.passes Γ (p₀ ++ program body) := by
  have hc := constructed_length h
  have hlt := fun y hy => legal_lt hb y hy
  rw [← legal_constructed hb, hc] at hlt
  have old : ∀ {y : Nat} (d : List Nat), y < Γ.length → (Passes Γ' (p₀ ++ program body ++ S) y d ↔ Passes Γ (p₀ ++ program body) y d) := fun {y} d hy => by
    rw [passes_prefix hS (by rw [hc]; exact hy), passes_extend h hpre]
  refine forall₂_congr fun c hcb => ?_
  cases c with
  | op x => exact Iff.rfl
  | zeroGradient i => exact Iff.rfl
  | backward y =>
    have := hlt y (.inl hcb)
    have e : Γ'.getD y [] = Γ.getD y [] := by rw [List.getD_eq_getElem?_getD, List.getD_eq_getElem?_getD, prefix_get hpre this]
    simp only [Cmd.passes, e, old _ this]
  | backwardWith y g => exact old _ (hlt y (.inr ⟨g, hcb⟩))

theorem times_shaped {p : List (Instr α)} {Γ : List (List Nat)} (h : WellShaped [] [] p Γ) {y : Nat} {s : List Nat} (hy : Γ[y]? = some s) {d : List α}
    (hd : d.length = numel s) : WellShaped [] [] (p ++ [.leaf s d, .bin .mul y Γ.length]) (Γ ++ [s] ++ [s]) := by
  have hsmall := wellShaped_small h (fun s hs => by cases hs) s (List.mem_of_getElem? hy)
  have hb := BroadcastsTo.refl s
  have h1 := wellShaped_snoc h (x := .leaf s d) (r := s) (fun e => ⟨hd, rfl⟩) hsmall.1 hsmall.2 (fun B => rfl)
  have h2 := wellShaped_snoc h1 (x := .bin .mul y Γ.length) (r := s)
    (fun e => ⟨s, s, by
      show (Γ ++ [s])[y]? = some s
      rw [List.getElem?_append_left (List.getElem?_eq_some_iff.1 hy).1]; exact hy, by
      show (Γ ++ [s])[Γ.length]? = some s
      simp, hb.compatible, hb.joint⟩) hsmall.1 hsmall.2 (fun B => rfl)
  rw [List.append_assoc] at h2
  exact h2

theorem scaled_shaped {p : List (Instr α)} {Γ : List (List Nat)} (h : WellShaped [] [] p Γ) {y : Nat} {s : List Nat} (hy : Γ[y]? = some s) (c : α) :
    WellShaped [] [] (p ++ [.scal .mul y c]) (Γ ++ [s]) := by
  have hsmall := wellShaped_small h (fun s hs => by cases hs) s (List.mem_of_getElem? hy)
  exact wellShaped_snoc h (x := .scal .mul y c) (r := s) (fun e => hy) hsmall.1 hsmall.2 (fun B => rfl)

theorem times_no_setReq (s : List Nat) (d : List α) (y n : Nat) : ∀ x ∈ [Instr.leaf s d, .bin .mul y n], ∀ i b, x ≠ .setReq i b := by
  intro x hx i b e
  rcases List.mem_cons.1 hx with rfl | hx
  · cases e
  · rw [List.mem_singleton.1 hx] at e; cases e

theorem scaled_no_setReq (y : Nat) (c : α) : ∀ x ∈ [Instr.scal .mul y c], ∀ i b, x ≠ .setReq i b := by
  intro x hx i b e
  rw [List.mem_singleton.1 hx] at e
  cases e

/-- `y.backward_with(g)` and `w = Tensor of g; (&y * &w).backward()`, as ends of a session. -/
theorem times_legal {p₀ : List (Instr α)} {body : List (Cmd α)} {Γ : List (List Nat)} {y : Nat} {g : Arr α}
    (h : WellShaped [] [] (p₀ ++ program body) Γ) (hb : Legal (constructed (p₀ ++ program body)) Γ (constructed p₀).length body)
    (hy : Γ[y]? = some g.shape) (hg : g.WF) (d : List α) :
    Legal (constructed (p₀ ++ program body)) Γ (constructed p₀).length (body ++ [Cmd.backwardWith y g]) ∧
    Legal (constructed (p₀ ++ program body ++ [.leaf g.shape d, .bin .mul y Γ.length])) (Γ ++ [g.shape] ++ [g.shape]) (constructed p₀).length
      (body ++ [Cmd.op (.leaf g.shape d), .op (.bin .mul y Γ.length), .backward (Γ.length + 1)]) := by
  have hc := constructed_length h
  have hlen := legal_constructed hb
  refine ⟨legal_append hb ?_, legal_append (legal_mono (constructed_append _ _) (by rw [List.append_assoc]; exact List.prefix_append _ _) hb) ?_⟩
  · rw [← hlen, hc]
    exact ⟨(List.getElem?_eq_some_iff.1 hy).1, ⟨hy, hg⟩, trivial⟩
  · rw [← hlen, hc]
    exact ⟨(by intro _ _ h; cases h), (by intro _ _ h; cases h), Nat.lt_succ_self _, trivial⟩

theorem times_passes {p₀ : List (Instr α)} {body : List (Cmd α)} {Γ : List (List Nat)} {y : Nat} {g : Arr α}
    (h : WellShaped [] [] (p₀ ++ program body) Γ) (hb : Legal (constructed (p₀ ++ program body)) Γ (constructed p₀).length body)
    (hy : Γ[y]? = some g.shape) (hst : g.stride = rowStrides g.shape) (d : List α) :
    (∀ c ∈ body ++ [Cmd.op (.leaf g.shape d), .op (.bin .mul y Γ.length), .backward (Γ.length + 1)],
      c.passes (Γ ++ [g.shape] ++ [g.shape]) (p₀ ++ program body ++ [.leaf g.shape d, .bin .mul y Γ.length])) ↔
    ∀ c ∈ body ++ [Cmd.backwardWith y g], c.passes Γ (p₀ ++ program body) := by
  have hlt := (List.getElem?_eq_some_iff.1 hy).1
  have hpre : Γ <+: Γ ++ [g.shape] ++ [g.shape] := by rw [List.append_assoc]; exact List.prefix_append _ _
  have hc := constructed_length h
  have hb' := body_passes h hb (times_no_setReq g.shape d y Γ.length) hpre
  have e1 : (Γ ++ [g.shape] ++ [g.shape]).getD y [] = g.shape := by rw [List.getD_eq_getElem?_getD, prefix_get hpre hlt, hy]; rfl
  have e2 : (Γ ++ [g.shape] ++ [g.shape]).getD (Γ.length + 1) [] = g.shape := by
    rw [List.getD_eq_getElem?_getD, List.getElem?_append_right (by simp)]; simp
  have key := passes_times (Γ := Γ ++ [g.shape] ++ [g.shape]) (p := p₀ ++ program body) (y := y) (s := g.shape) d e1 (by rw [hc]; exact hlt)
    (by rw [hc]; exact e2) (rowStrides g.shape)
  rw [hc, passes_extend h hpre] at key
  rw [List.forall_mem_append, List.forall_mem_append, hb']
  refine and_congr_right fun _ => ?_
  simp only [List.forall_mem_cons, Cmd.passes, e2, key, hst]
  simp

theorem scaled_legal {p₀ : List (Instr α)} {body : List (Cmd α)} {Γ : List (List Nat)} {y : Nat} {g : Arr α}
    (h : WellShaped [] [] (p₀ ++ program body) Γ) (hb : Legal (constructed (p₀ ++ program body)) Γ (constructed p₀).length body)
    (c : α) :
    Legal (constructed (p₀ ++ program body ++ [.scal .mul y c])) (Γ ++ [g.shape]) (constructed p₀).length
      (body ++ [Cmd.op (.scal .mul y c), .backward Γ.length]) := by
  have hc := constructed_length h
  refine legal_append (legal_mono (constructed_append _ _) (List.prefix_append _ _) hb) ?_
  rw [← legal_constructed hb, hc]
  exact ⟨(by intro _ _ h; cases h), Nat.lt_succ_self _, trivial⟩

theorem scaled_passes {p₀ : List (Instr α)} {body : List (Cmd α)} {Γ : List (List Nat)} {y : Nat} {g : Arr α}
    (h : WellShaped [] [] (p₀ ++ program body) Γ) (hb : Legal (constructed (p₀ ++ program body)) Γ (constructed p₀).length body)
    (hy : Γ[y]? = some g.shape) (hst : g.stride = rowStrides g.shape) (c : α) :
    (∀ x ∈ body ++ [Cmd.op (.scal .mul y c), .backward Γ.length], x.passes (Γ ++ [g.shape]) (p₀ ++ program body ++ [.scal .mul y c])) ↔
    ∀ x ∈ body ++ [Cmd.backwardWith y g], x.passes Γ (p₀ ++ program body) := by
  have hlt := (List.getElem?_eq_some_iff.1 hy).1
  have hpre : Γ <+: Γ ++ [g.shape] := List.prefix_append _ _
  have hc := constructed_length h
  have hb' := body_passes h hb (scaled_no_setReq y c) hpre
  have e1 : (Γ ++ [g.shape]).getD y [] = g.shape := by rw [List.getD_eq_getElem?_getD, prefix_get hpre hlt, hy]; rfl
  have e2 : (Γ ++ [g.shape]).getD Γ.length [] = g.shape := by simp
  have key := passes_scaled (Γ := Γ ++ [g.shape]) (p := p₀ ++ program body) (y := y) (s := g.shape) c e1 (rowStrides g.shape)
  rw [hc, passes_extend h hpre] at key
  rw [List.forall_mem_append, List.forall_mem_append, hb']
  refine and_congr_right fun _ => ?_
  simp only [List.forall_mem_cons, Cmd.passes, e2, key, hst]
  simp

end any

section field
variable {α : Type} [Field α] [Build]

/-- Two ends of a session that get through alike and collect the same gradients. The second makes further tensors, by the operations `S`. -/
theorem compare_ends {p₀ : List (Instr α)} {body cA cB : List (Cmd α)} {Γ Γ' : List (List Nat)} {S : List (Instr α)}
    (h : WellShaped [] [] (p₀ ++ program body) Γ) (h' : WellShaped [] [] (p₀ ++ program body ++ S) Γ') (hS : ∀ x ∈ S, ∀ i b, x ≠ .setReq i b)
    (eA : program cA = []) (eB : program cB = S) (lA : Legal (constructed (p₀ ++ program body)) Γ (constructed p₀).length (body ++ cA))
    (lB : Legal (constructed (p₀ ++ program body ++ S)) Γ' (constructed p₀).length (body ++ cB))
    (hp : (∀ c ∈ body ++ cB, c.passes Γ' (p₀ ++ program body ++ S)) ↔ ∀ c ∈ body ++ cA, c.passes Γ (p₀ ++ program body))
    (hcol : ∀ i k J, collected (p₀ ++ program body ++ S) i k J 0 (body ++ cB) = collected (p₀ ++ program body) i k J 0 (body ++ cA)) :
    (runSession (p₀.map .op ++ (body ++ cA)) = .error .panic ∧ runSession (p₀.map .op ++ (body ++ cB)) = .error .panic) ∨
    ∃ σ τ, runSession (p₀.map .op ++ (body ++ cA)) = .ok σ ∧ runSession (p₀.map .op ++ (body ++ cB)) = .ok τ ∧
      σ.env.map (fun t => t.arr.shape) = Γ ∧ τ.env.map (fun t => t.arr.shape) = Γ' ∧
      (∀ (i : Nat) (t u : Tensor α), σ.env[i]? = some t → τ.env[i]? = some u → ∃ s f, t.arr.Denotes s f ∧ u.arr.Denotes s f) ∧
      ∀ i, (constructed (p₀ ++ program body))[i]? = some true → requiresOf (p₀ ++ program body) i = true →
        ∃ (t u : Tensor α) (g g' : Arr α) (s : List Nat) (f : List Nat → α), σ.env[i]? = some t ∧ τ.env[i]? = some u ∧
          t.gradient σ.store = some g ∧ u.gradient τ.store = some g' ∧ g.Denotes s f ∧ g'.Denotes s f := by
  have pA : p₀ ++ program (body ++ cA) = p₀ ++ program body := by rw [program_append, eA, List.append_nil]
  have pB : p₀ ++ program (body ++ cB) = p₀ ++ program body ++ S := by rw [program_append, eB, List.append_assoc]
  have hc := constructed_length h
  have hA := C91_loop (p₀ := p₀) (body := body ++ cA) (Γ := Γ) (by rw [pA]; exact h) (by rw [pA]; exact lA)
  have hB := C91_loop (p₀ := p₀) (body := body ++ cB) (Γ := Γ') (by rw [pB]; exact h') (by rw [pB]; exact lB)
  rw [pB, hp] at hB
  rw [pA] at hA
  by_cases hall : ∀ c ∈ body ++ cA, c.passes Γ (p₀ ++ program body)
  · obtain ⟨σ, h1, h2, h3, h4⟩ := hA.1 hall
    obtain ⟨τ, g1, g2, g3, g4⟩ := hB.1 hall
    have hσ : σ.env.length = Γ.length := by rw [← h2, List.length_map]
    have ht : ∀ {y}, y < Γ.length → tensorOf (p₀ ++ program body ++ S) y = tensorOf (p₀ ++ program body) y := fun hy => by
      unfold tensorOf; rw [spec_get_append _ _ _ hS (by rw [hc]; exact hy)]
    refine .inr ⟨σ, τ, h1, g1, h2, g2, fun i t u hti hui => ?_, fun i hi hq => ?_⟩
    · have hlt : i < Γ.length := by rw [← hσ]; exact (List.getElem?_eq_some_iff.1 hti).1
      have := g3 i u hui
      rw [ht hlt] at this
      exact ⟨_, _, h3 i t hti, this⟩
    · have hlt : i < Γ.length := by rw [← hc]; exact (List.getElem?_eq_some_iff.1 hi).1
      obtain ⟨t, k, g, hti, hv, hg, hd⟩ := h4 i hi hq
      obtain ⟨u, k', g', hui, hv', hg', hd'⟩ := g4 i ((prefix_get (constructed_append _ _) (by rw [hc]; exact hlt)).trans hi)
        (by unfold requiresOf; rw [spec_get_append _ _ _ hS (by rw [hc]; exact hlt)]; exact hq)
      have h0 : 0 ∉ (tensorOf (p₀ ++ program body) i).shape := by
        rw [← (h3 i t hti).1]
        exact (wellShaped_small h (fun s hs => by cases hs) _ (by rw [← h2]; exact List.mem_map_of_mem (List.mem_of_getElem? hti))).1
      have hv'' : IsVariable (p₀ ++ program body) i k' := fun v idx hidx => by
        have := hv' v idx (by rw [ht hlt]; exact hidx)
        rwa [spec_get_append _ _ _ hS (by rw [hc]; exact hlt)] at this
      obtain rfl := isVariable_unique h0 hv hv''
      rw [ht hlt] at hd'
      exact ⟨t, u, g, g', _, _, hti, hui, hg, hg', hd, hd'.congr fun J _ => hcol i k J⟩
  · exact .inl ⟨hA.2 hall, hB.2 hall⟩

theorem jacobian_times {p : List (Instr α)} {Γ : List (List Nat)} (h : WellShaped [] [] p Γ) {y : Nat} {s : List Nat} (hy : Γ[y]? = some s) (d : List α)
    (k : Nat) (J : List Nat) {idx : List Nat} (hi : InB idx s) :
    jacobian (p ++ [.leaf s d, .bin .mul y Γ.length]) (Γ.length + 1) k J idx = d.getD (rank idx s) 0 * jacobian p y k J idx := by
  unfold jacobian
  set v := unitDir (α := α) k J
  have hc := constructed_length h
  have hlt : y < Γ.length := (List.getElem?_eq_some_iff.1 hy).1
  have hl : (specRun (Dual.interp v) 0 p).env.length = Γ.length := by rw [spec_length, hc]
  have hs : ((specRun (Dual.interp v) 0 p).get y).1.shape = s := by rw [(dual_value p v _).2.1, shaped_tensor h hy]
  have e : specRun (Dual.interp v) 0 (p ++ [.leaf s d, .bin .mul y Γ.length]) =
      SpecState.step (Dual.interp v) 0 (SpecState.step (Dual.interp v) 0 (specRun (Dual.interp v) 0 p) (.leaf s d)) (.bin .mul y Γ.length) := by
    unfold specRun
    rw [List.foldl_append]; rfl
  rw [e]
  generalize specRun (Dual.interp v) 0 p = σ at hl hs ⊢
  have g1 : (SpecState.step (Dual.interp v) 0 σ (.leaf s d)).get y = σ.get y := by
    show (σ.env ++ [_]).getD y _ = σ.env.getD y _
    rw [List.getD_eq_getElem?_getD, List.getElem?_append_left (by omega), List.getD_eq_getElem?_getD]
  have g2 : (SpecState.step (Dual.interp v) 0 σ (.leaf s d)).get Γ.length = (⟨s, fun idx => (Dual.interp v).const (d.getD (rank idx s) 0)⟩, false) := by
    show (σ.env ++ [_]).getD Γ.length _ = _
    rw [List.getD_eq_getElem?_getD, ← hl, List.getElem?_append_right (Nat.le_refl _), Nat.sub_self]
    rfl
  have hl' : (SpecState.step (Dual.interp v) 0 σ (.leaf s d)).env.length = Γ.length + 1 := by
    show (σ.env ++ [_]).length = _
    simp [hl]
  generalize SpecState.step (Dual.interp v) 0 σ (.leaf s d) = σ' at g1 g2 hl' ⊢
  show ((SpecState.get ⟨σ'.env ++ [((σ'.get y).1.zip SOp.mul.run (σ'.get Γ.length).1, _)], _⟩ (Γ.length + 1)).1.elem idx).eps = _
  rw [g1, g2]
  simp only [SpecState.get]
  rw [List.getD_eq_getElem?_getD, ← hl', List.getElem?_append_right (Nat.le_refl _), Nat.sub_self]
  show (((σ.get y).1.elem (broadcastIndex (σ.get y).1.shape idx)) * (Dual.interp v).const (d.getD (rank (broadcastIndex s idx) s) 0)).eps = _
  rw [hs, broadcastIndex_self hi]
  show _ * 0 + _ * _ = _
  rw [mul_zero, zero_add, mul_comm]
  rfl

omit [Build] in
theorem jacobian_scaled {p : List (Instr α)} {n : Nat} (hn : (constructed p).length = n) (y : Nat) (c : α) (k : Nat) (J idx : List Nat) :
    jacobian (p ++ [.scal .mul y c]) n k J idx = c * jacobian p y k J idx := by
  unfold jacobian
  set v := unitDir (α := α) k J
  have hl : (specRun (Dual.interp v) 0 p).env.length = n := by rw [spec_length, hn]
  have e : specRun (Dual.interp v) 0 (p ++ [.scal .mul y c]) = SpecState.step (Dual.interp v) 0 (specRun (Dual.interp v) 0 p) (.scal .mul y c) := by
    unfold specRun
    rw [List.foldl_append]; rfl
  rw [e]
  generalize specRun (Dual.interp v) 0 p = σ at hl ⊢
  show ((SpecState.get ⟨σ.env ++ [((σ.get y).1.map fun x => SOp.mul.run x ((Dual.interp v).const c), _)], _⟩ n).1.elem idx).eps = _
  conv_lhs => simp only [SpecState.get]
  rw [List.getD_eq_getElem?_getD, ← hl, List.getElem?_append_right (Nat.le_refl _), Nat.sub_self]
  show (((σ.get y).1.elem idx) * (Dual.interp v).const c).eps = _
  show _ * 0 + _ * _ = _
  rw [mul_zero, zero_add, mul_comm]
  rfl

/-- **C97.** At any point of a session as in C91, let `g` be an array of the shape of `y` with its elements in row-major order. Then
`y.backward_with(&g)` and `w = Tensor::new(g's elements); (&y * &w).backward()` either both panic, or both complete; then every tensor has the same
elements either way, and so has the gradient of every constructed tensor that requires gradient. -/
theorem C97_weights {p₀ : List (Instr α)} {body : List (Cmd α)} {Γ : List (List Nat)} {y : Nat} {g : Arr α}
    (h : WellShaped [] [] (p₀ ++ program body) Γ) (hb : Legal (constructed (p₀ ++ program body)) Γ (constructed p₀).length body)
    (hy : Γ[y]? = some g.shape) (hg : g.WF) (hst : g.stride = rowStrides g.shape) {d : List α} (hd : d = elements g.shape g.elemAt) :
    (runSession (p₀.map .op ++ (body ++ [Cmd.backwardWith y g])) = .error .panic ∧
      runSession (p₀.map .op ++ (body ++ [Cmd.op (.leaf g.shape d), .op (.bin .mul y Γ.length), .backward (Γ.length + 1)])) = .error .panic) ∨
    ∃ σ τ, runSession (p₀.map .op ++ (body ++ [Cmd.backwardWith y g])) = .ok σ ∧
      runSession (p₀.map .op ++ (body ++ [Cmd.op (.leaf g.shape d), .op (.bin .mul y Γ.length), .backward (Γ.length + 1)])) = .ok τ ∧
      σ.env.map (fun t => t.arr.shape) = Γ ∧ τ.env.map (fun t => t.arr.shape) = Γ ++ [g.shape] ++ [g.shape] ∧
      (∀ (i : Nat) (t u : Tensor α), σ.env[i]? = some t → τ.env[i]? = some u → ∃ s f, t.arr.Denotes s f ∧ u.arr.Denotes s f) ∧
      ∀ i, (constructed (p₀ ++ program body))[i]? = some true → requiresOf (p₀ ++ program body) i = true →
        ∃ (t u : Tensor α) (g g' : Arr α) (s : List Nat) (f : List Nat → α), σ.env[i]? = some t ∧ τ.env[i]? = some u ∧
          t.gradient σ.store = some g ∧ u.gradient τ.store = some g' ∧ g.Denotes s f ∧ g'.Denotes s f := by
  have hlen : d.length = numel g.shape := by rw [hd]; simp [elements, length_indices]
  have hS := times_no_setReq g.shape d y Γ.length
  have h' := times_shaped h hy hlen
  obtain ⟨lA, lB⟩ := times_legal h hb hy hg d
  refine compare_ends h h' hS (by simp [program, Cmd.instr]) (by simp [program, Cmd.instr]) lA lB (times_passes h hb hy hst d) fun i k J => ?_
  rw [collected_append, collected_append, collected_extend hS i k J 0 fun y hy => by rw [legal_constructed hb]; exact legal_lt hb y hy]
  show collected _ i k J 0 body + pair _ _ _ = collected _ i k J 0 body + pair _ _ _
  have e1 : (tensorOf (p₀ ++ program body) y).shape = g.shape := shaped_tensor h hy
  have e2 : (tensorOf (p₀ ++ program body ++ [.leaf g.shape d, .bin .mul y Γ.length]) (Γ.length + 1)).shape = g.shape :=
    shaped_tensor h' (by rw [List.getElem?_append_right (by simp)]; simp)
  rw [e1, e2]
  congr 1
  unfold pair
  refine congrArg List.sum (List.map_congr_left fun idx hidx => ?_)
  have hi := mem_indices.1 hidx
  rw [jacobian_times h hy d k J hi, one_mul, hd, List.getD_eq_getElem?_getD]
  congr 1
  unfold elements
  rw [List.getElem?_map, C02_order hi]
  rfl

/-- **C97.** The same for a number `c` in place of the weights: `y.backward_with(&NdArray::full(c, y.shape()))` and `(&y * c).backward()`. -/
theorem C97_scaled {p₀ : List (Instr α)} {body : List (Cmd α)} {Γ : List (List Nat)} {y : Nat} {g : Arr α} {c : α}
    (h : WellShaped [] [] (p₀ ++ program body) Γ) (hb : Legal (constructed (p₀ ++ program body)) Γ (constructed p₀).length body)
    (hy : Γ[y]? = some g.shape) (hg : g.WF) (hst : g.stride = rowStrides g.shape) (hd : g.Denotes g.shape fun _ => c) :
    (runSession (p₀.map .op ++ (body ++ [Cmd.backwardWith y g])) = .error .panic ∧
      runSession (p₀.map .op ++ (body ++ [Cmd.op (.scal .mul y c), .backward Γ.length])) = .error .panic) ∨
    ∃ σ τ, runSession (p₀.map .op ++ (body ++ [Cmd.backwardWith y g])) = .ok σ ∧
      runSession (p₀.map .op ++ (body ++ [Cmd.op (.scal .mul y c), .backward Γ.length])) = .ok τ ∧
      σ.env.map (fun t => t.arr.shape) = Γ ∧ τ.env.map (fun t => t.arr.shape) = Γ ++ [g.shape] ∧
      (∀ (i : Nat) (t u : Tensor α), σ.env[i]? = some t → τ.env[i]? = some u → ∃ s f, t.arr.Denotes s f ∧ u.arr.Denotes s f) ∧
      ∀ i, (constructed (p₀ ++ program body))[i]? = some true → requiresOf (p₀ ++ program body) i = true →
        ∃ (t u : Tensor α) (g g' : Arr α) (s : List Nat) (f : List Nat → α), σ.env[i]? = some t ∧ τ.env[i]? = some u ∧
          t.gradient σ.store = some g ∧ u.gradient τ.store = some g' ∧ g.Denotes s f ∧ g'.Denotes s f := by
  have hS := scaled_no_setReq y c
  have h' := scaled_shaped h hy c
  refine compare_ends h h' hS (by simp [program, Cmd.instr]) (by simp [program, Cmd.instr]) (times_legal h hb hy hg []).1 (scaled_legal h hb c)
    (scaled_passes h hb hy hst c) fun i k J => ?_
  rw [collected_append, collected_append, collected_extend hS i k J 0 fun y hy => by rw [legal_constructed hb]; exact legal_lt hb y hy]
  show collected _ i k J 0 body + pair _ _ _ = collected _ i k J 0 body + pair _ _ _
  have e1 : (tensorOf (p₀ ++ program body) y).shape = g.shape := shaped_tensor h hy
  have e2 : (tensorOf (p₀ ++ program body ++ [.scal .mul y c]) Γ.length).shape = g.shape := shaped_tensor h' (by simp)
  rw [e1, e2]
  congr 1
  unfold pair
  refine congrArg List.sum (List.map_congr_left fun idx hidx => ?_)
  have hi := mem_indices.1 hidx
  rw [jacobian_scaled (constructed_length h) y c, one_mul]
  congr 1
  unfold Arr.elemAt
  rw [hd.2.2 idx hi]
  rfl

/-- `u = x * x` of shape `[2]`; `u.backward_with(&g)` with `g = [5, 5]`, or `u * [5, 5]`, or `u * 5`. -/
example : ∃ (Γ : List (List Nat)) (g : Arr ℚ), WellShaped [] [] ([Instr.leaf [2] [1, 2], .setReq 0 true] ++ program [Cmd.op (.bin .mul 0 0), .backward 1]) Γ ∧
    Legal (constructed ([Instr.leaf [2] [1, 2], .setReq 0 true] ++ program [Cmd.op (.bin .mul 0 0), .backward (α := ℚ) 1])) Γ 1
      [Cmd.op (.bin .mul 0 0), .backward (α := ℚ) 1] ∧ Γ[1]? = some g.shape ∧ g.WF ∧ g.stride = rowStrides g.shape ∧
    elements g.shape g.elemAt = [5, 5] ∧ g.Denotes g.shape (fun _ => 5) ∧
    ∀ c ∈ [Cmd.op (.bin .mul 0 0), .backward (α := ℚ) 1] ++ [Cmd.backwardWith 1 g],
      c.passes Γ ([Instr.leaf [2] [1, 2], .setReq 0 true] ++ program [Cmd.op (.bin .mul 0 0), .backward (α := ℚ) 1]) := by
  have hb := BroadcastsTo.refl [2]
  have hg : (Arr.fromContiguousOwnedBuffer [2] [(5 : ℚ), 5]).WF := Arr.WF.fromContiguous rfl
  refine ⟨[[2], [2]], Arr.fromContiguousOwnedBuffer [2] [5, 5], ⟨[2], ⟨rfl, rfl⟩, by simp, by simp, rfl, [2], rfl, by simp, by simp, rfl,
    [2], ⟨[2], [2], rfl, rfl, hb.compatible, hb.joint⟩, by simp, by simp, rfl, rfl⟩,
    ⟨(by intro _ _ h; cases h), (show 1 < 2 by decide), trivial⟩, rfl, hg, rfl, rfl, ⟨rfl, rfl, ?_⟩, ?_⟩
  · intro idx hidx
    have := mem_indices.2 hidx
    have : idx = [0] ∨ idx = [1] := by
      simpa [Arr.fromContiguousOwnedBuffer, indices, List.range, List.range.loop] using this
    rcases this with rfl | rfl <;> rfl
  · simp [Cmd.passes, Passes, Instr.flow, Flow.takes, Flow.receives, KeepsAxis, evenStrides, rowStrides, numel, program, Cmd.instr,
      List.filterMap_cons, List.filterMap_nil]

end field

section values
variable {α : Type} [Add α] [Sub α] [Mul α] [Div α] [Neg α] [Zero α] [One α] [MulAdd α] [Build]

/-- **C97.** On elements of any type, floats in particular, all three sessions complete or none does. -/
theorem C97_any {p₀ : List (Instr α)} {body : List (Cmd α)} {Γ : List (List Nat)} {y : Nat} {g : Arr α}
    (h : WellShaped [] [] (p₀ ++ program body) Γ) (hb : Legal (constructed (p₀ ++ program body)) Γ (constructed p₀).length body)
    (hy : Γ[y]? = some g.shape) (hg : g.WF) (hst : g.stride = rowStrides g.shape) {d : List α} (hd : d.length = numel g.shape) (c : α) :
    ((∃ σ, runSession (p₀.map .op ++ (body ++ [Cmd.backwardWith y g])) = .ok σ) ↔
      ∃ τ, runSession (p₀.map .op ++ (body ++ [Cmd.op (.leaf g.shape d), .op (.bin .mul y Γ.length), .backward (Γ.length + 1)])) = .ok τ) ∧
    ((∃ σ, runSession (p₀.map .op ++ (body ++ [Cmd.backwardWith y g])) = .ok σ) ↔
      ∃ τ, runSession (p₀.map .op ++ (body ++ [Cmd.op (.scal .mul y c), .backward Γ.length])) = .ok τ) := by
  obtain ⟨lA, lB⟩ := times_legal h hb hy hg d
  have pA : p₀ ++ program (body ++ [Cmd.backwardWith y g]) = p₀ ++ program body := by rw [program_append]; simp [program, Cmd.instr]
  have pB : p₀ ++ program (body ++ [Cmd.op (.leaf g.shape d), .op (.bin .mul y Γ.length), .backward (Γ.length + 1)]) =
      p₀ ++ program body ++ [.leaf g.shape d, .bin .mul y Γ.length] := by rw [program_append]; simp [program, Cmd.instr]
  have pC : p₀ ++ program (body ++ [Cmd.op (.scal .mul y c), .backward Γ.length]) = p₀ ++ program body ++ [.scal .mul y c] := by
    rw [program_append]; simp [program, Cmd.instr]
  have hA := (C91_any (p₀ := p₀) (body := body ++ [Cmd.backwardWith y g]) (Γ := Γ) (by rw [pA]; exact h) (by rw [pA]; exact lA)).1
  have hB := (C91_any (p₀ := p₀) (body := body ++ [Cmd.op (.leaf g.shape d), .op (.bin .mul y Γ.length), .backward (Γ.length + 1)])
    (Γ := Γ ++ [g.shape] ++ [g.shape]) (by rw [pB]; exact times_shaped h hy hd) (by rw [pB]; exact lB)).1
  have hC := (C91_any (p₀ := p₀) (body := body ++ [Cmd.op (.scal .mul y c), .backward Γ.length])
    (Γ := Γ ++ [g.shape]) (by rw [pC]; exact scaled_shaped h hy c) (by rw [pC]; exact scaled_legal h hb c)).1
  rw [pB, times_passes h hb hy hst] at hB
  rw [pC, scaled_passes h hb hy hst] at hC
  rw [pA] at hA
  exact ⟨hA.trans hB.symm, hA.trans hC.symm⟩

end values

end Verif
