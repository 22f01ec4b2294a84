import Verif.Props.Shapes
import Verif.Spec.Passes
import Verif.Props.GradientStatus
import Mathlib.Tactic.FieldSimp

/-!
# C88: programs whose shapes check out compute their gradients

Nothing is assumed to complete here: whether it does follows from the shapes.
-/

namespace Verif

variable {α : Type}

def Instr.isLeafInstr : Instr α → Bool
  | .leaf _ _ => true
  | _ => false

/-- For each tensor of a program, whether it was made by a constructor. -/
def constructed (p : List (Instr α)) : List Bool := p.foldl (fun L x => x.extend L x.isLeafInstr) []

/-- An operation on tensors of shapes `Γ` through which `backward` completes (C44): broadcast operands keep an axis or have none, and
nothing is reshaped or squeezed to a scalar. -/
def Instr.TameAt (Γ : List (List Nat)) : Instr α → Prop
  | .bin _ i j => ∀ s t, Γ[i]? = some s → Γ[j]? = some t → KeepsAxis s (jointShape s t) ∧ KeepsAxis t (jointShape s t)
  | .view (.reshape s) _ => s ≠ []
  | .into (.reshape s) _ _ => s ≠ []
  | .view .squeeze i => ∀ s, Γ[i]? = some s → ∃ n ∈ s, n ≠ 1
  | .into .squeeze _ i => ∀ s, Γ[i]? = some s → ∃ n ∈ s, n ≠ 1
  | _ => True

variable [Field α] [Build]

theorem step_made {σ σ' : RunState α} {x : Instr α} (h : σ.step x = .ok σ') :
    (∃ t, x.extend ([] : List Bool) true = [true] ∧ σ' = ⟨σ.env ++ [t], σ.store⟩ ∧ t.userCreated = x.isLeafInstr ∧
      (t.userCreated = true → ∀ k, t.gradFn ≠ .acc k)) ∨
    ∃ i b t t' st', x = .setReq i b ∧ σ.env[i]? = some t ∧ t.setRequiresGrad b σ.store = .ok (t', st') ∧ σ' = ⟨σ.env.set i t', st'⟩ := by
  have key : ∀ {u : Res (Tensor α)}, σ.push u = .ok σ' → (∀ t, u = .ok t → t.userCreated = false) →
      ∃ t, σ' = ⟨σ.env ++ [t], σ.store⟩ ∧ t.userCreated = false := by
    intro u h hu
    obtain ⟨t, ht, h⟩ := bind_eq_ok.1 h
    cases h
    exact ⟨t, rfl, hu t ht⟩
  have one : ∀ {u : Res (Arr α)} {f : Arr α → Tensor α}, (∀ a, (f a).userCreated = false) → ∀ t, (u >>= fun a => .ok (f a)) = .ok t → t.userCreated = false := by
    intro u f hf t h
    obtain ⟨a, _, h⟩ := bind_eq_ok.1 h
    cases h
    exact hf a
  cases x with
  | leaf s data =>
    obtain ⟨_, _, h⟩ := bind_eq_ok.1 h
    cases h
    exact .inl ⟨_, rfl, rfl, rfl, fun _ k hk => by cases hk⟩
  | setReq i b =>
    obtain ⟨t, ht, h⟩ := bind_eq_ok.1 h
    obtain ⟨⟨t', st'⟩, hq, h⟩ := bind_eq_ok.1 h
    cases h
    exact .inr ⟨i, b, t, t', st', rfl, getT_ok ht, hq, rfl⟩
  | neg i =>
    obtain ⟨t, ht, h⟩ := bind_eq_ok.1 h
    obtain ⟨r, e, hr⟩ := key h (one fun _ => rfl)
    exact .inl ⟨r, rfl, e, hr, fun h => by rw [hr] at h; cases h⟩
  | scal op i c =>
    obtain ⟨t, ht, h⟩ := bind_eq_ok.1 h
    obtain ⟨r, e, hr⟩ := key h (one fun _ => rfl)
    exact .inl ⟨r, rfl, e, hr, fun h => by rw [hr] at h; cases h⟩
  | bin op i j =>
    obtain ⟨t, ht, h⟩ := bind_eq_ok.1 h
    obtain ⟨t', ht', h⟩ := bind_eq_ok.1 h
    obtain ⟨r, e, hr⟩ := key h (one fun _ => rfl)
    exact .inl ⟨r, rfl, e, hr, fun h => by rw [hr] at h; cases h⟩
  | dot i j =>
    obtain ⟨t, ht, h⟩ := bind_eq_ok.1 h
    obtain ⟨t', ht', h⟩ := bind_eq_ok.1 h
    obtain ⟨r, e, hr⟩ := key h (one fun _ => rfl)
    exact .inl ⟨r, rfl, e, hr, fun h => by rw [hr] at h; cases h⟩
  | bmm i j =>
    obtain ⟨t, ht, h⟩ := bind_eq_ok.1 h
    obtain ⟨t', ht', h⟩ := bind_eq_ok.1 h
    obtain ⟨r, e, hr⟩ := key h (one fun _ => rfl)
    exact .inl ⟨r, rfl, e, hr, fun h => by rw [hr] at h; cases h⟩
  | matmul i j =>
    obtain ⟨t, ht, h⟩ := bind_eq_ok.1 h
    obtain ⟨t', ht', h⟩ := bind_eq_ok.1 h
    obtain ⟨r, e, hr⟩ := key h fun q hq => by
      unfold Tensor.matmul at hq
      split at hq
      · exact one (fun _ => rfl) q hq
      · obtain ⟨a, _, hq⟩ := bind_eq_ok.1 hq
        simp only at hq
        split at hq
        · cases hq; rfl
        · split at hq
          · cases hq; rfl
          · split at hq
            · cases hq
            · cases hq; rfl
    exact .inl ⟨r, rfl, e, hr, fun h => by rw [hr] at h; cases h⟩
  | view op i =>
    obtain ⟨t, ht, h⟩ := bind_eq_ok.1 h
    obtain ⟨r, e, hr⟩ := key h (one fun _ => rfl)
    exact .inl ⟨r, rfl, e, hr, fun h => by rw [hr] at h; cases h⟩
  | into op b i =>
    obtain ⟨t, ht, h⟩ := bind_eq_ok.1 h
    obtain ⟨r, e, hr⟩ := key h fun q hq => by
      obtain ⟨_, _, hq⟩ := bind_eq_ok.1 hq
      exact one (fun _ => rfl) q hq
    exact .inl ⟨r, rfl, e, hr, fun h => by rw [hr] at h; cases h⟩

/-- A gradient that nothing was added to yet. -/
def ZeroArr (a : Arr α) : Prop := ∃ s, a = Arr.fromContiguousOwnedBuffer s (List.replicate (numel s) 0)

omit [Build] in
theorem setReq_facts {t t' : Tensor α} {b : Bool} {st st' : Store α} (h : t.setRequiresGrad b st = .ok (t', st')) (hz : ∀ a ∈ st, ZeroArr a) :
    t'.userCreated = t.userCreated ∧ (∀ a ∈ st', ZeroArr a) ∧ ∀ k, t'.gradFn = .acc k → k = st.length ∨ t.gradFn = .acc k := by
  unfold Tensor.setRequiresGrad at h
  split at h
  · obtain ⟨z, e, h⟩ := bind_eq_ok.1 h
    cases h
    refine ⟨rfl, fun a ha => ?_, fun k hk => .inl (GradFn.acc.inj hk).symm⟩
    rcases List.mem_append.1 ha with ha | ha
    · exact hz a ha
    · rw [List.mem_singleton.1 ha]
      exact ⟨_, zeros_inv e⟩
  · split at h
    · cases h; exact ⟨rfl, hz, fun k hk => by cases hk⟩
    · cases h; exact ⟨rfl, hz, fun k hk => .inr hk⟩

/-- Constructed tensors do not share gradients. -/
def Apart (env : List (Tensor α)) : Prop := ∀ (i j : Nat) (t u : Tensor α) (k : Nat), env[i]? = some t → env[j]? = some u → t.userCreated = true → u.userCreated = true →
  t.gradFn = .acc k → u.gradFn = .acc k → i = j

theorem program_facts {p : List (Instr α)} {σ : RunState α} (h : runSession (p.map .op) = .ok σ) :
    (∀ a ∈ σ.store, ZeroArr a) ∧ σ.env.map (fun t => t.userCreated) = constructed p ∧ Apart σ.env := by
  have key : ∀ (p : List (Instr α)) (σ σ' : RunState α) (L : List Bool), (p.map Cmd.op).foldlM RunState.exec σ = .ok σ' → LeafInv σ →
      (∀ a ∈ σ.store, ZeroArr a) → σ.env.map (fun t => t.userCreated) = L → Apart σ.env →
      (∀ a ∈ σ'.store, ZeroArr a) ∧ σ'.env.map (fun t => t.userCreated) = p.foldl (fun L x => x.extend L x.isLeafInstr) L ∧ Apart σ'.env := by
    intro p
    induction p with
    | nil => intro σ σ' L h _ h1 h2 h3; cases h; exact ⟨h1, h2, h3⟩
    | cons x p ih =>
      intro σ σ' L h hl h1 h2 ha
      rw [List.map_cons, List.foldlM_cons] at h
      obtain ⟨σ₁, e, h⟩ := bind_eq_ok.1 h
      have hl' := leaf_exec hl e
      rw [List.foldl_cons]
      rcases step_made (show σ.step x = _ from e) with ⟨t, hx, rfl, ht, hk⟩ | ⟨i, b, t, t', st', rfl, hi, hq, rfl⟩
      · refine ih _ _ _ h hl' h1 ?_ ?_
        · have : x.extend L x.isLeafInstr = L ++ [x.isLeafInstr] := by cases x <;> first | rfl | cases hx
          rw [this, List.map_append, h2]
          simp [ht]
        · have old : ∀ (i : Nat) (u : Tensor α) (k : Nat), (σ.env ++ [t])[i]? = some u → u.userCreated = true → u.gradFn = .acc k → σ.env[i]? = some u := by
            intro i u k hi hu hg
            by_cases hlt : i < σ.env.length
            · rwa [List.getElem?_append_left hlt] at hi
            · rw [List.getElem?_append_right (by omega)] at hi
              have := List.mem_singleton.1 (List.mem_of_getElem? hi)
              subst this
              exact absurd hg (hk hu k)
          intro i j u v k hi hj hu hv gu gv
          exact ha i j u v k (old i u k hi hu gu) (old j v k hj hv gv) hu hv gu gv
      · obtain ⟨h3, h4, h5⟩ := setReq_facts hq h1
        have hlt := (List.getElem?_eq_some_iff.1 hi).1
        refine ih _ _ _ h hl' h4 ?_ ?_
        · show (σ.env.set i t').map _ = L
          rw [List.map_set, h3, ← h2]
          apply List.ext_getElem?
          intro j
          rw [List.getElem?_set]
          split
          · rename_i hij
            subst hij
            rw [if_pos (by simpa using hlt), List.getElem?_map, hi]; rfl
          · rfl
        · -- a tensor other than number `i` is as before
          have old : ∀ (j : Nat) (u : Tensor α), (σ.env.set i t')[j]? = some u → j = i ∧ u = t' ∨ j ≠ i ∧ σ.env[j]? = some u := by
            intro j u hj
            rw [List.getElem?_set] at hj
            split at hj
            · rename_i hij
              exact .inl ⟨hij.symm, (Option.some.inj hj).symm⟩
            · rename_i hij
              exact .inr ⟨fun e => hij e.symm, hj⟩
          have new : ∀ (j : Nat) (u : Tensor α) (k : Nat), σ.env[j]? = some u → u.userCreated = true → t'.userCreated = true → u.gradFn = .acc k → t'.gradFn = .acc k → j = i := by
            intro j u k hj hu ht' gu gt
            rcases h5 k gt with rfl | gt
            · exact absurd ((hl u (List.mem_of_getElem? hj)).1 _ gu) (by omega)
            · exact ha j i u t k hj hi hu (h3 ▸ ht') gu gt
          intro j j' u v k hj hj' hu hv gu gv
          rcases old j u hj with ⟨e1, e2⟩ | ⟨e1, e2⟩ <;> rcases old j' v hj' with ⟨e3, e4⟩ | ⟨e3, e4⟩
          · rw [e1, e3]
          · subst e2; exact absurd (new j' v k e4 hv hu gv gu) e3
          · subst e4; exact absurd (new j u k e2 hu hv gu gv) e1
          · exact ha j j' u v k e2 e4 hu hv gu gv
  exact key p _ _ [] h (fun t ht => by cases ht) (by simp) rfl (fun i j t u k hi => by simp at hi)

omit [Build] in
theorem isVariable_unique {p : List (Instr α)} {i k k' : Nat} (h0 : 0 ∉ (tensorOf p i).shape) (h : IsVariable p i k) (h' : IsVariable p i k') : k = k' := by
  obtain ⟨idx, hi⟩ : ∃ idx, InB idx (tensorOf p i).shape := ⟨_, exists_inB h0⟩
  have e1 := h (unitDir k idx) idx hi
  have e2 := h' (unitDir k idx) idx hi
  rw [e1] at e2
  by_contra hne
  simp [unitDir, Ne.symm hne] at e2

omit [Field α] [Build] in
theorem wellShaped_small {p : List (Instr α)} {Γ Γ' : List (List Nat)} {B : List Bool} (h : WellShaped Γ B p Γ') (hs : ∀ s ∈ Γ, SmallShape s) :
    ∀ s ∈ Γ', SmallShape s := by
  induction p generalizing Γ B with
  | nil => cases h; exact hs
  | cons x p ih =>
    obtain ⟨r, _, h0, h32, _, h⟩ := h
    refine ih h fun s hm => ?_
    cases x <;> first | exact hs s hm | (rcases List.mem_append.1 hm with hm | hm; exact hs s hm; rw [List.mem_singleton.1 hm]; exact ⟨h0, h32⟩)

omit [Field α] [Build] in
theorem wellShaped_mem {p : List (Instr α)} {Γ Γ' : List (List Nat)} {B : List Bool} (h : WellShaped Γ B p Γ') :
    Γ <+: Γ' ∧ ∀ x ∈ p, ∃ Γ₀ e r, Γ₀ <+: Γ' ∧ x.HasShape e Γ₀ r := by
  induction p generalizing Γ B with
  | nil => cases h; exact ⟨List.prefix_rfl, by simp⟩
  | cons x p ih =>
    obtain ⟨r, hx, _, _, _, h⟩ := h
    obtain ⟨h1, h2⟩ := ih h
    have hp : Γ <+: Γ' := by
      cases x <;> first | exact h1 | exact (List.prefix_append _ _).trans h1
    refine ⟨hp, fun z hz => ?_⟩
    rcases List.mem_cons.1 hz with rfl | hz
    · exact ⟨Γ, _, r, hp, hx⟩
    · exact h2 z hz

omit [Field α] [Build] in
theorem unsqueeze_ne_nil {ax : Int} {s : List Nat} {k : Nat} (h : AxisIs ax (s.length + 1) k) : ((SView.unsqueeze ax).out s).1 ≠ [] := by
  have hk : axisNat ax (s.length + 1) = k := by
    obtain ⟨h1, h2⟩ := h
    unfold axisNat
    split <;> omega
  have := h.1
  intro e
  have hl := congrArg List.length e
  simp only [SView.out, hk] at hl
  rw [List.length_insertIdx_of_le_length (by omega)] at hl
  simp at hl

omit [Field α] [Build] in
theorem wellShaped_unsqueeze {p : List (Instr α)} {Γ : List (List Nat)} (h : WellShaped [] [] p Γ) {ax : Int} {i : Nat} {s : List Nat}
    (hx : .view (.unsqueeze ax) i ∈ p ∨ ∃ b, .into (.unsqueeze ax) b i ∈ p) (hs : Γ[i]? = some s) : ((SView.unsqueeze ax).out s).1 ≠ [] := by
  have key : ∀ Γ₀ : List (List Nat), Γ₀ <+: Γ → ∀ s', Γ₀[i]? = some s' → s' = s := by
    rintro Γ₀ ⟨l, rfl⟩ s' hs'
    rw [List.getElem?_append_left (List.getElem?_eq_some_iff.1 hs').1, hs'] at hs
    exact Option.some.inj hs
  rcases hx with hx | ⟨b, hx⟩
  · obtain ⟨Γ₀, e, r, hp, s', hs', k, hk, _⟩ := (wellShaped_mem h).2 _ hx
    obtain rfl := key Γ₀ hp s' hs'
    exact unsqueeze_ne_nil hk
  · obtain ⟨Γ₀, e, r, hp, s', hs', k, hk, _⟩ := (wellShaped_mem h).2 _ hx
    obtain rfl := key Γ₀ hp s' hs'
    exact unsqueeze_ne_nil hk

omit [Field α] [Build] in
theorem tame_of_shapes {p : List (Instr α)} {Γ : List (List Nat)} (h : WellShaped [] [] p Γ) (ht : ∀ x ∈ p, x.TameAt Γ) {env : List (Tensor α)}
    (hΓ : env.map (fun t => t.arr.shape) = Γ) : ∀ x ∈ p, x.Tame env := by
  intro x hx
  have hsh : ∀ {i : Nat} {t : Tensor α}, env[i]? = some t → Γ[i]? = some t.arr.shape := fun {i t} e => by
    rw [← hΓ, List.getElem?_map, e]; rfl
  have := ht x hx
  cases x with
  | bin op i j => exact fun a b ha hb => this _ _ (hsh ha) (hsh hb)
  | view op i =>
    intro a ha _
    cases op with
    | reshape s => exact this
    | squeeze => obtain ⟨n, hn, h1⟩ := this _ (hsh ha); exact List.ne_nil_of_mem (List.mem_filter.2 ⟨hn, by simpa using h1⟩)
    | unsqueeze ax => exact wellShaped_unsqueeze h (.inl hx) (hsh ha)
    | _ => contradiction
  | into op b i =>
    intro a ha _
    cases op with
    | reshape s => exact this
    | squeeze => obtain ⟨n, hn, h1⟩ := this _ (hsh ha); exact List.ne_nil_of_mem (List.mem_filter.2 ⟨hn, by simpa using h1⟩)
    | unsqueeze ax => exact wellShaped_unsqueeze h (.inr ⟨b, hx⟩) (hsh ha)
    | _ => contradiction
  | _ => trivial

/-- A call of `backward` or `zero_gradient`. -/
inductive Call where
  | backward (y : Nat)
  | zero (i : Nat)

def Call.cmd : Call → Cmd α
  | .backward y => .backward y
  | .zero i => .zeroGradient i

/-- The gradient of variable `k`, tensor `i` of the program, after some calls: the sum of the derivatives of the tensors on which `backward`
was called since its last `zero_gradient`. -/
def accumulated (p : List (Instr α)) (i k : Nat) (J : List Nat) (F : α) (calls : List Call) : α :=
  calls.foldl (fun F c => match c with
    | .backward y => F + pair (tensorOf p y).shape (fun _ => 1) (jacobian p y k J)
    | .zero j => if j = i then 0 else F) F

omit [Field α] [Build] in
theorem program_calls (p : List (Instr α)) (calls : List Call) : program (p.map .op ++ calls.map Call.cmd) = p := by
  have h1 : program (p.map .op) = p := by
    unfold program
    rw [List.filterMap_map]
    exact (List.filterMap_congr (fun x _ => rfl)).trans (List.filterMap_some (l := p))
  have h2 : program (calls.map (Call.cmd (α := α))) = [] := by
    unfold program
    rw [List.filterMap_eq_nil_iff]
    intro x hx
    obtain ⟨c, _, rfl⟩ := List.mem_map.1 hx
    cases c <;> rfl
  unfold program at h1 h2 ⊢
  rw [List.filterMap_append, h1, h2, List.append_nil]

/-- The hypothesis of the theorems about sessions, from the shapes. -/
theorem program_plain {p : List (Instr α)} {Γ : List (List Nat)} (h : WellShaped [] [] p Γ) {σ : RunState α} (hr : runSession (p.map .op) = .ok σ) :
    ∀ x ∈ p, x.Plain σ.env := by
  obtain ⟨τ, e, _, hp⟩ := program_shapes (σ := (⟨[], []⟩ : RunState α)) (B := []) (by simp [RunState.arrs]) (by simp [RunState.arrs]) rfl
    (fun i a h => by simp at h) h
  have key : ∀ (p : List (Instr α)) (σ : RunState α), (p.map Cmd.op).foldlM RunState.exec σ = p.foldlM RunState.step σ := by
    intro p
    induction p with
    | nil => intro σ; rfl
    | cons x p ih => intro σ; rw [List.map_cons, List.foldlM_cons, List.foldlM_cons]; simp only [ih]; rfl
  have hr : (p.map Cmd.op).foldlM RunState.exec _ = .ok σ := hr
  rw [key, e] at hr
  cases hr
  exact hp

/-- **C88.** Take a program (over a field) whose shapes check out, with `transpose` only if it does not reshape, and without the cases in
which `backward` fails (C44). It runs, followed by any calls of `backward` on its tensors and of `zero_gradient` on constructed tensors;
every tensor has the elements that its operations define; and each constructed tensor `x` that requires gradient has a gradient:
the sum of `Σ_idx ∂y[idx]/∂x[J]` over the calls `y.backward()` since its last `zero_gradient`. -/
theorem C88_calls {p : List (Instr α)} {Γ : List (List Nat)} (h : WellShaped [] [] p Γ)
    (hk : (∀ x ∈ p, x.transposes = false) ∨ (∀ x ∈ p, x.reshapes = false)) (ht : ∀ x ∈ p, x.TameAt Γ)
    {calls : List Call} (hy : ∀ y, .backward y ∈ calls → y < Γ.length) (hz : ∀ i, .zero i ∈ calls → (constructed p)[i]? = some true) :
    ∃ σ, runSession (p.map .op ++ calls.map Call.cmd) = .ok σ ∧ σ.env.map (fun t => t.arr.shape) = Γ ∧
      (∀ (i : Nat) (t : Tensor α), σ.env[i]? = some t → t.arr.Denotes (tensorOf p i).shape (tensorOf p i).elem) ∧
      ∀ i, (constructed p)[i]? = some true → requiresOf p i = true → ∃ x k gx, σ.env[i]? = some x ∧ IsVariable p i k ∧
        x.gradient σ.store = some gx ∧ gx.Denotes (tensorOf p i).shape (fun J => accumulated p i k J 0 calls) := by
  obtain ⟨σ₀, hr₀, hΓ⟩ := C87_program h
  obtain ⟨hzero, hu, hap⟩ := program_facts hr₀
  have hs₀ : SmallEnv σ₀.env := fun t ht => wellShaped_small h (fun s hs => by cases hs) _ (by rw [← hΓ]; exact List.mem_map_of_mem ht)
  have htm := tame_of_shapes h ht hΓ
  have hfine : ∀ (done : List Call) (σ : RunState α), σ.env = σ₀.env → ∀ x ∈ p.map .op ++ done.map Call.cmd, x.Fine σ.env := by
    intro done σ he x hx
    rcases List.mem_append.1 hx with hx | hx
    · obtain ⟨z, hz, rfl⟩ := List.mem_map.1 hx
      rw [he]
      exact program_plain h hr₀ z hz
    · obtain ⟨z, hz, rfl⟩ := List.mem_map.1 hx
      cases z <;> trivial
  -- a constructed tensor
  have hcon : ∀ i : Nat, (constructed p)[i]? = some true → ∃ x : Tensor α, σ₀.env[i]? = some x ∧ x.userCreated = true := by
    intro i hi
    rw [← hu, List.getElem?_map] at hi
    obtain ⟨x, hx, e⟩ := Option.map_eq_some_iff.1 hi
    exact ⟨x, hx, e⟩
  have hreq : ∀ (i : Nat) (x : Tensor α), σ₀.env[i]? = some x → x.requiresGrad = requiresOf p i := by
    intro i x hx
    have := C43_requires_partial (hfine [] σ₀ rfl) (by simpa using hr₀) hx
    rwa [program_calls] at this
  have hfor : ∀ (i : Nat) (t : Tensor α), σ₀.env[i]? = some t → t.arr.Denotes (tensorOf p i).shape (tensorOf p i).elem := by
    intro i t hi
    have := C40_forward_partial (hfine [] σ₀ rfl) (by simpa using hr₀) hi
    rwa [program_calls] at this
  have hn0 : ∀ (i : Nat) (t : Tensor α), σ₀.env[i]? = some t → 0 ∉ (tensorOf p i).shape := by
    intro i t hi
    rw [← (hfor i t hi).1]
    exact (hs₀ t (List.mem_of_getElem? hi)).1
  -- the invariant
  have key : ∀ (calls done : List Call) (σ : RunState α) (F : Nat → Nat → List Nat → α), (∀ y, .backward y ∈ calls → y < Γ.length) →
      (∀ i, .zero i ∈ calls → (constructed p)[i]? = some true) → runSession (p.map .op ++ done.map Call.cmd) = .ok σ → σ.env = σ₀.env →
      (∀ (i : Nat) (x : Tensor α), σ₀.env[i]? = some x → x.userCreated = true → x.requiresGrad = true → ∃ k gx, IsVariable p i k ∧ x.gradient σ.store = some gx ∧
        gx.Denotes (tensorOf p i).shape (F i k)) →
      ∃ σ', runSession (p.map .op ++ (done ++ calls).map Call.cmd) = .ok σ' ∧ σ'.env = σ₀.env ∧
        ∀ (i : Nat) (x : Tensor α), σ₀.env[i]? = some x → x.userCreated = true → x.requiresGrad = true → ∃ k gx, IsVariable p i k ∧ x.gradient σ'.store = some gx ∧
          gx.Denotes (tensorOf p i).shape (fun J => accumulated p i k J (F i k J) calls) := by
    intro calls
    induction calls with
    | nil =>
      intro done σ F _ _ hr he hF
      exact ⟨σ, by rwa [List.append_nil], he, hF⟩
    | cons c calls ih =>
      intro done σ F hy hz hr he hF
      have next : ∀ σ₁, σ.exec c.cmd = .ok σ₁ → runSession (p.map .op ++ (done ++ [c]).map Call.cmd) = .ok σ₁ := by
        intro σ₁ e
        unfold runSession at hr ⊢
        rw [List.map_append, ← List.append_assoc, List.foldlM_append, hr]
        show (σ.exec c.cmd >>= fun s => pure s) = _
        rw [e]; rfl
      have fin : ∀ σ₁ (F' : Nat → Nat → List Nat → α), σ.exec c.cmd = .ok σ₁ → σ₁.env = σ₀.env →
          (∀ (i : Nat) (x : Tensor α), σ₀.env[i]? = some x → x.userCreated = true → x.requiresGrad = true → ∃ k gx, IsVariable p i k ∧ x.gradient σ₁.store = some gx ∧
            gx.Denotes (tensorOf p i).shape (F' i k)) →
          ∃ σ', runSession (p.map .op ++ (done ++ c :: calls).map Call.cmd) = .ok σ' ∧ σ'.env = σ₀.env ∧
            ∀ (i : Nat) (x : Tensor α), σ₀.env[i]? = some x → x.userCreated = true → x.requiresGrad = true → ∃ k gx, IsVariable p i k ∧ x.gradient σ'.store = some gx ∧
              gx.Denotes (tensorOf p i).shape (fun J => accumulated p i k J (F' i k J) calls) := by
        intro σ₁ F' e he' hF'
        have := ih (done ++ [c]) σ₁ F' (fun y hy' => hy y (List.mem_cons_of_mem _ hy')) (fun i hi => hz i (List.mem_cons_of_mem _ hi)) (next σ₁ e) he' hF'
        rwa [List.append_assoc] at this
      cases c with
      | backward y =>
        have hyσ : y < σ.env.length := by
          have := hy y (by simp)
          rw [← hΓ, List.length_map] at this
          rwa [he]
        obtain ⟨σ₁, hb⟩ := C44_completes_partial (hfine done σ he) hr (he ▸ hs₀) (by rw [program_calls]; exact hk) (by rw [program_calls, he]; exact htm)
          (List.getElem?_eq_getElem hyσ)
        refine fin σ₁ (fun i k J => F i k J + pair (tensorOf p y).shape (fun _ => 1) (jacobian p y k J)) hb ((exec_grad hb rfl).trans he) fun i x hx hxu hxr => ?_
        obtain ⟨k, gx, hv, hgx, hd⟩ := hF i x hx hxu hxr
        obtain ⟨k', gx', F₀, hv', hg', hF₀, hd'⟩ := C40_backward_partial (hfine done σ he) hr (List.getElem?_eq_getElem hyσ) hb (he ▸ hx) hgx
        rw [program_calls] at hv' hd'
        obtain rfl := isVariable_unique (hn0 i x hx) hv hv'
        have hys := (hfor y σ.env[y] (by rw [← he]; exact List.getElem?_eq_getElem hyσ)).1
        have hxs := (hfor i x hx).1
        refine ⟨k, gx', hv, hg', ?_⟩
        rw [hys] at hd'
        rw [hxs] at hd' hF₀
        exact hd'.congr fun J hJ => by rw [denotes_unique hF₀ hd hJ]
      | zero j =>
        obtain ⟨u, hu', huc⟩ := hcon j (hz j (by simp))
        by_cases hur : u.requiresGrad = true
        · obtain ⟨k, gx, hv, hgx, hd⟩ := hF j u hu' huc hur
          obtain ⟨σ₁, gu, e, hgu, hdu, he', hoth⟩ := C42_zero_partial (hfine done σ he) hr (he ▸ hu') hgx
          refine fin σ₁ (fun i k J => if j = i then 0 else F i k J) e (he'.trans he) fun i x hx hxu hxr => ?_
          by_cases hij : j = i
          · subst hij
            rw [hu'] at hx
            cases hx
            refine ⟨k, gu, hv, hgu, ?_⟩
            rw [(hfor j u hu').1] at hdu
            exact hdu.congr fun J _ => by simp
          · obtain ⟨k', gx', hv', hg', hd'⟩ := hF i x hx hxu hxr
            refine ⟨k', gx', hv', ?_, hd'.congr fun J _ => by rw [if_neg hij]⟩
            rw [hoth x fun e => ?_, hg']
            obtain ⟨q, a, hq, _⟩ := gradient_some hgx
            exact hij (hap j i u x q hu' hx huc hxu hq (e.trans hq))
        · have hur' : u.requiresGrad = false := by simpa using hur
          have e0 : u.zeroGradient σ.store = .ok σ.store := by
            have := (leaf_session hr u (by rw [he]; exact List.mem_of_getElem? hu')).2.2 hur'
            exact zeroGradient_other fun k hk => by rw [this] at hk; cases hk
          have e : σ.exec (.zeroGradient j) = .ok σ := by
            have hget : getT σ.env j = .ok u := by unfold getT; rw [he, hu']
            show (getT σ.env j >>= fun _ => _) = _
            rw [hget]
            show σ.withStore (u.zeroGradient σ.store) = _
            rw [e0]; rfl
          refine fin σ (fun i k J => if j = i then 0 else F i k J) e he fun i x hx hxu hxr => ?_
          obtain ⟨k', gx', hv', hg', hd'⟩ := hF i x hx hxu hxr
          refine ⟨k', gx', hv', hg', hd'.congr fun J _ => ?_⟩
          rw [if_neg]
          rintro rfl
          rw [hu'] at hx
          cases hx
          exact hur hxr
  obtain ⟨σ, hr, he, hF⟩ := key calls [] σ₀ (fun _ _ _ => 0) hy hz (by simpa using hr₀) rfl fun i x hx hxu hxr => by
    have hl : x.isLeaf = true := by unfold Tensor.isLeaf; rw [hxr, hxu]; rfl
    obtain ⟨gx, hgx⟩ := Option.isSome_iff_exists.1 (C46_leaf hr₀ (List.mem_of_getElem? hx) hl hxr)
    have hr' : runSession (p.map .op ++ ([] : List Call).map Call.cmd) = .ok σ₀ := by simpa using hr₀
    obtain ⟨σ₁, hb⟩ := C44_completes_partial (hfine [] σ₀ rfl) hr' hs₀ (by rw [program_calls]; exact hk) (by rw [program_calls]; exact htm) hx
    obtain ⟨k, _, F, hv, _, hF, _⟩ := C40_backward_partial (hfine [] σ₀ rfl) hr' hx hb hx hgx
    rw [program_calls] at hv
    rw [(hfor i x hx).1] at hF
    refine ⟨k, gx, hv, hgx, hF.congr fun J hJ => ?_⟩
    obtain ⟨_, a, _, ha, rfl⟩ := gradient_some hgx
    obtain ⟨s, rfl⟩ := hzero a (List.mem_of_getElem? ha)
    exact List.eq_of_mem_replicate (List.mem_of_getElem? (hF.2.2 J hJ))
  refine ⟨σ, by simpa using hr, by rw [he]; exact hΓ, by rw [he]; exact hfor, fun i hi hq => ?_⟩
  obtain ⟨x, hx, hxu⟩ := hcon i hi
  obtain ⟨k, gx, h1, h2, h3⟩ := hF i x hx hxu (by rw [hreq i x hx]; exact hq)
  exact ⟨x, k, gx, by rw [he]; exact hx, h1, h2, h3⟩

/-- **C88.** The case of one call: `y.backward()` completes, and leaves `Σ_idx ∂y[idx]/∂x[J]` in the gradient of each constructed tensor `x`
that requires gradient. -/
theorem C88_backprop {p : List (Instr α)} {Γ : List (List Nat)} (h : WellShaped [] [] p Γ)
    (hk : (∀ x ∈ p, x.transposes = false) ∨ (∀ x ∈ p, x.reshapes = false)) (ht : ∀ x ∈ p, x.TameAt Γ) {y : Nat} (hy : y < Γ.length) :
    ∃ σ σ', runSession (p.map .op) = .ok σ ∧ σ.exec (.backward y) = .ok σ' ∧
      (∀ (i : Nat) (t : Tensor α), σ.env[i]? = some t → t.arr.Denotes (tensorOf p i).shape (tensorOf p i).elem) ∧
      ∀ i, (constructed p)[i]? = some true → requiresOf p i = true → ∃ x k gx, σ'.env[i]? = some x ∧ IsVariable p i k ∧
        x.gradient σ'.store = some gx ∧
        gx.Denotes (tensorOf p i).shape (fun J => pair (tensorOf p y).shape (fun _ => 1) (jacobian p y k J)) := by
  obtain ⟨σ', hr, _, hfor, hg⟩ := C88_calls h hk ht (calls := [.backward y]) (fun z hz => by cases hz with | head => exact hy | tail _ h => cases h)
    (fun i hi => by cases hi with | tail _ h => cases h)
  unfold runSession at hr
  rw [List.foldlM_append] at hr
  obtain ⟨σ, h1, h2⟩ := bind_eq_ok.1 hr
  have h2 : σ.exec (.backward y) = .ok σ' := by
    obtain ⟨τ, h3, h4⟩ := bind_eq_ok.1 (show (σ.exec (.backward y) >>= fun s => .ok s) = .ok σ' from h2)
    cases h4; exact h3
  refine ⟨σ, σ', h1, h2, by rw [← exec_grad h2 rfl]; exact hfor, fun i hi hq => ?_⟩
  obtain ⟨x, k, gx, a1, a2, a3, a4⟩ := hg i hi hq
  exact ⟨x, k, gx, a1, a2, a3, a4.congr fun J _ => by simp [accumulated]⟩

/-- `-a.unsqueeze(1)`, for all sizes -/
example {m : Nat} (hm : 0 < m) {a : List ℚ} (ha : a.length = m) :
    ∃ σ σ', runSession (([.leaf [m] a, .setReq 0 true, .view (.unsqueeze 1) 0, .neg 1] : List (Instr ℚ)).map .op) = .ok σ ∧ σ.exec (.backward 2) = .ok σ' := by
  obtain ⟨σ, σ', h1, h2, _⟩ := C88_backprop (α := ℚ) (p := [.leaf [m] a, .setReq 0 true, .view (.unsqueeze 1) 0, .neg 1]) (Γ := [[m], [m, 1], [m, 1]]) (y := 2)
    ⟨[m], ⟨by simpa [numel] using ha, rfl⟩, by simp; omega, by simp, rfl, [m], rfl, by simp; omega, by simp, rfl,
      [m, 1], ⟨[m], rfl, 1, ⟨by simp, .inl rfl⟩, rfl⟩, by simp; omega, by simp, rfl, [m, 1], rfl, by simp; omega, by simp, rfl, rfl⟩
    (.inl (by simp [Instr.transposes])) (by
      intro x hx
      simp only [List.mem_cons, List.not_mem_nil, or_false] at hx
      rcases hx with rfl | rfl | rfl | rfl <;> trivial) (by simp)
  exact ⟨σ, σ', h1, h2⟩

/-- `y = -&a`, then the consuming `a.unsqueeze(1)`, while the graph of `y` owns the array of `a` too -/
example {m : Nat} (hm : 0 < m) {a : List ℚ} (ha : a.length = m) :
    ∃ σ σ', runSession (([.leaf [m] a, .setReq 0 true, .neg 0, .into (.unsqueeze 1) true 0, .neg 2] : List (Instr ℚ)).map .op) = .ok σ ∧ σ.exec (.backward 3) = .ok σ' := by
  obtain ⟨σ, σ', h1, h2, _⟩ := C88_backprop (α := ℚ) (p := [.leaf [m] a, .setReq 0 true, .neg 0, .into (.unsqueeze 1) true 0, .neg 2]) (Γ := [[m], [m], [m, 1], [m, 1]]) (y := 3)
    ⟨[m], ⟨by simpa [numel] using ha, rfl⟩, by simp; omega, by simp, rfl, [m], rfl, by simp; omega, by simp, rfl, [m], rfl, by simp; omega, by simp, rfl,
      [m, 1], ⟨[m], rfl, 1, ⟨by simp, .inl rfl⟩, rfl⟩, by simp; omega, by simp, rfl, [m, 1], rfl, by simp; omega, by simp, rfl, rfl⟩
    (.inl (by simp [Instr.transposes])) (by
      intro x hx
      simp only [List.mem_cons, List.not_mem_nil, or_false] at hx
      rcases hx with rfl | rfl | rfl | rfl | rfl <;> trivial) (by simp)
  exact ⟨σ, σ', h1, h2⟩

/-! ### least squares -/

/-- `X`, `w` (requires gradient), `t`; then `d = X.matmul(&w) - &t` and `d.dot(&d)` -/
def leastSquares (m n : Nat) (X w t : List α) : List (Instr α) :=
  [.leaf [m, n] X, .leaf [n] w, .setReq 1 true, .leaf [m] t, .matmul 0 1, .bin .sub 3 2, .dot 4 4]

/-- `Σ_j X[i, j] w[j] - t[i]` -/
def residual (n : Nat) (X w t : List α) (i : Nat) : α := ∑ j ∈ Finset.range n, X.getD (i * n + j) 0 * w.getD j 0 - t.getD i 0

omit [Field α] [Build] in
theorem leastSquares_shaped {m n : Nat} (hm : 0 < m) (hn : 0 < n) {X w t : List α} (hX : X.length = m * n) (hw : w.length = n) (ht : t.length = m) :
    WellShaped [] [] (leastSquares m n X w t) [[m, n], [n], [m], [m], [m], []] := by
  have hb : BroadcastsTo [m] [m] := ⟨by simp, by simp [StretchTo]⟩
  refine ⟨[m, n], ⟨by simpa [numel] using hX, rfl⟩, by simp; omega, by simp, rfl, [n], ⟨by simpa [numel] using hw, rfl⟩, by simp; omega, by simp, rfl,
    [n], rfl, by simp; omega, by simp, rfl, [m], ⟨by simpa [numel] using ht, rfl⟩, by simp; omega, by simp, rfl,
    [m], .inr (.inl ⟨m, n, rfl, rfl, rfl⟩), by simp; omega, by simp, rfl,
    [m], ⟨[m], [m], rfl, rfl, hb.compatible, hb.joint⟩, by simp; omega, by simp, rfl,
    [], ⟨m, rfl, rfl, rfl⟩, by simp, by simp, rfl, rfl⟩

omit [Build] [Field α] in
theorem jointShape_one (m : Nat) : jointShape [m] [m] = [m] := by
  simp [jointShape, extentFromRight]

omit [Build] [Field α] in
theorem broadcastIndex_last {n j : Nat} (hj : j < n) (I : List Nat) : broadcastIndex [n] (I ++ [j]) = [j] := by
  simp [broadcastIndex, clamp]; omega

omit [Build] in
theorem leastSquares_loss {β : Type} [Add β] [Sub β] [Mul β] [Div β] [Neg β] [Zero β] (I : Interp α β) (m n : Nat) (X w t : List α) (idx : List Nat) :
    ((specRun I 0 (leastSquares m n X w t)).get 5).1.elem idx = innerProduct m
      (fun i => innerProduct n (fun j => I.const (X.getD (i * n + j) 0)) (fun j => I.var 0 [j] (I.const (w.getD j 0))) - I.const (t.getD i 0))
      (fun i => innerProduct n (fun j => I.const (X.getD (i * n + j) 0)) (fun j => I.var 0 [j] (I.const (w.getD j 0))) - I.const (t.getD i 0)) := by
  have e : ((specRun I 0 (leastSquares m n X w t)).get 5).1 = MT.dot
      (MT.zip SOp.sub.run (MT.matmul ⟨[m, n], fun idx => I.const (X.getD (rank idx [m, n]) 0)⟩ ⟨[n], fun idx => I.var 0 idx (I.const (w.getD (rank idx [n]) 0))⟩)
        ⟨[m], fun idx => I.const (t.getD (rank idx [m]) 0)⟩)
      (MT.zip SOp.sub.run (MT.matmul ⟨[m, n], fun idx => I.const (X.getD (rank idx [m, n]) 0)⟩ ⟨[n], fun idx => I.var 0 idx (I.const (w.getD (rank idx [n]) 0))⟩)
        ⟨[m], fun idx => I.const (t.getD (rank idx [m]) 0)⟩) := rfl
  rw [e]
  simp only [MT.dot, MT.zip, MT.matmul, jointShape_one, List.headD_cons]
  have hd : ∀ i, i < m → SOp.sub.run (innerProduct n (fun j => I.const (X.getD (rank [(broadcastIndex [m] [i]).getD 0 0, j] [m, n]) 0))
      (fun j => I.var 0 [j] (I.const (w.getD (rank [j] [n]) 0)))) (I.const (t.getD (rank (broadcastIndex [m] [i]) [m]) 0)) =
      innerProduct n (fun j => I.const (X.getD (i * n + j) 0)) (fun j => I.var 0 [j] (I.const (w.getD j 0))) - I.const (t.getD i 0) := by
    intro i hi
    rw [show broadcastIndex [m] [i] = [i] from broadcastIndex_last hi []]
    simp [rank, numel, SOp.run]
  exact innerProduct_congr hd hd

omit [Field α] [Build] in
theorem leastSquares_tame (m n : Nat) (X w t : List α) : ∀ x ∈ leastSquares m n X w t, x.TameAt [[m, n], [n], [m], [m], [m], []] := by
  intro x hx
  simp only [leastSquares, List.mem_cons, List.not_mem_nil, or_false] at hx
  rcases hx with rfl | rfl | rfl | rfl | rfl | rfl | rfl <;> first | trivial | skip
  intro s t hs ht
  cases hs; cases ht
  rw [jointShape_one]
  exact ⟨.inl rfl, .inl rfl⟩

/-- The hypotheses of `C88_calls` are met: the gradient of the weights is the sum over the last two calls. -/
example {m n : Nat} (hm : 0 < m) (hn : 0 < n) {X w t : List α} (hX : X.length = m * n) (hw : w.length = n) (ht : t.length = m) :
    ∃ σ x k gx, runSession ((leastSquares m n X w t).map .op ++ [.backward 5, .zeroGradient 1, .backward 5, .backward 4]) = .ok σ ∧
      σ.env[1]? = some x ∧ IsVariable (leastSquares m n X w t) 1 k ∧ x.gradient σ.store = some gx ∧ gx.Denotes [n] fun J =>
        pair (tensorOf (leastSquares m n X w t) 5).shape (fun _ => 1) (jacobian (leastSquares m n X w t) 5 k J) +
          pair (tensorOf (leastSquares m n X w t) 4).shape (fun _ => 1) (jacobian (leastSquares m n X w t) 4 k J) := by
  obtain ⟨σ, h1, _, _, h4⟩ := C88_calls (leastSquares_shaped hm hn hX hw ht)
    (.inl (by simp [leastSquares, Instr.transposes])) (leastSquares_tame m n X w t) (calls := [.backward 5, .zero 1, .backward 5, .backward 4])
    (by simp) (by simp; rfl)
  obtain ⟨x, k, gx, a1, a2, a3, a4⟩ := h4 1 rfl rfl
  exact ⟨σ, x, k, gx, h1, a1, a2, a3, a4.congr fun J _ => by simp [accumulated]⟩

/-- **C88.** Least squares, for all sizes, data, targets and weights: the program runs, `d.dot(&d)` is the sum of the squared
residuals, `backward` completes, and the gradient of the weights is `2 Xᵀ (X w - t)`. -/
theorem C88_least_squares {m n : Nat} (hm : 0 < m) (hn : 0 < n) {X w t : List α} (hX : X.length = m * n) (hw : w.length = n) (ht : t.length = m) :
    ∃ σ σ' loss weights gw, runSession ((leastSquares m n X w t).map .op) = .ok σ ∧ σ.env[5]? = some loss ∧
      loss.arr.Denotes [] (fun _ => ∑ i ∈ Finset.range m, residual n X w t i ^ 2) ∧
      σ.exec (.backward 5) = .ok σ' ∧ σ'.env[1]? = some weights ∧ weights.gradient σ'.store = some gw ∧
      gw.Denotes [n] (fun J => 2 * ∑ i ∈ Finset.range m, X.getD (i * n + J.getD 0 0) 0 * residual n X w t i) := by
  obtain ⟨σ, σ', h1, h2, h3, h4⟩ := C88_backprop (y := 5) (leastSquares_shaped hm hn hX hw ht)
    (.inl (by simp [leastSquares, Instr.transposes])) (leastSquares_tame m n X w t) (by simp)
  obtain ⟨x, k, gx, h5, h6, h7, h8⟩ := h4 1 rfl rfl
  have hk : k = 0 := isVariable_unique (by show 0 ∉ [n]; simp; omega) h6 (fun v idx _ => rfl)
  subst hk
  have hlen : σ.env.length = 6 := by
    have := congrArg List.length (program_facts h1).2.1
    rwa [List.length_map] at this
  refine ⟨σ, σ', σ.env[5], x, gx, h1, List.getElem?_eq_getElem _, ?_, h2, h5, h7, ?_⟩
  · refine (h3 5 _ (List.getElem?_eq_getElem (by omega))).congr fun idx _ => ?_
    unfold tensorOf
    rw [leastSquares_loss, innerProduct_sum]
    refine Finset.sum_congr rfl fun i _ => ?_
    rw [innerProduct_sum, sq]
    rfl
  · refine h8.congr fun J hJ => ?_
    obtain ⟨j, rfl⟩ : ∃ j, J = [j] := by
      match J, hJ with
      | [j], _ => exact ⟨j, rfl⟩
    have hj : j < n := hJ.1
    show pair [] _ _ = _
    rw [pair_nil, one_mul]
    unfold jacobian
    have hd : ∀ i, innerProduct n (fun j' => (Dual.interp (unitDir 0 [j])).const (X.getD (i * n + j') 0))
        (fun j' => (Dual.interp (unitDir 0 [j])).var 0 [j'] ((Dual.interp (unitDir 0 [j])).const (w.getD j' 0))) -
        (Dual.interp (unitDir 0 [j])).const (t.getD i 0) = ⟨residual n X w t i, X.getD (i * n + j) 0⟩ := by
      intro i
      rw [dual_innerProduct]
      refine (Dual.mk.injEq ..).mpr ⟨by rw [innerProduct_sum]; rfl, ?_⟩
      simp [Dual.interp, unitDir, hj]
    rw [leastSquares_loss, funext hd, dual_innerProduct]
    show ∑ i ∈ Finset.range m, _ = _
    rw [Finset.mul_sum]
    refine Finset.sum_congr rfl fun i _ => ?_
    simp only [List.getD_cons_zero]
    ring

/-- two points on the line through the origin of slope 1, and one off it -/
example : ∃ σ σ' loss weights gw, runSession ((leastSquares 3 1 [1, 2, 3] [1] [1, 2, 7] : List (Instr ℚ)).map .op) = .ok σ ∧ σ.env[5]? = some loss ∧
    loss.arr.Denotes [] (fun _ => 16) ∧ σ.exec (.backward 5) = .ok σ' ∧ σ'.env[1]? = some weights ∧ weights.gradient σ'.store = some gw ∧
    gw.Denotes [1] (fun _ => -24) := by
  obtain ⟨σ, σ', l, w, g, h1, h2, h3, h4, h5, h6, h7⟩ := C88_least_squares (α := ℚ) (m := 3) (n := 1) (X := [1, 2, 3]) (w := [1]) (t := [1, 2, 7])
    (by omega) (by omega) rfl rfl rfl
  refine ⟨σ, σ', l, w, g, h1, h2, h3.congr fun _ _ => ?_, h4, h5, h6, h7.congr fun J hJ => ?_⟩
  · norm_num [Finset.sum_range_succ, residual]
  · match J, hJ with
    | [0], _ => norm_num [Finset.sum_range_succ, residual]

/-! ### the program of the README -/

/-- README.md 157-173: `a` and `b` require gradients; `((&a / &b) * (c + 5.0)).matmul(&b)` -/
def readmeProgram (m n : Nat) (A b : List α) (c : α) : List (Instr α) :=
  [.leaf [m, n] A, .leaf [n] b, .leaf [] [c], .setReq 0 true, .setReq 1 true, .bin .div 0 1, .scal .add 2 5, .bin .mul 3 4, .matmul 5 1]

omit [Build] in
theorem readme_shaped {m n : Nat} (hm : 0 < m) (hn : 0 < n) {A b : List α} (hA : A.length = m * n) (hb : b.length = n) (c : α) :
    WellShaped [] [] (readmeProgram m n A b c) [[m, n], [n], [], [m, n], [], [m, n], [m]] := by
  have h1 : BroadcastsTo [n] [m, n] := ⟨by simp, by simp [StretchTo]⟩
  have h2 : BroadcastsTo [] [m, n] := ⟨by simp, by simp [StretchTo]⟩
  refine ⟨[m, n], ⟨by simpa [numel] using hA, rfl⟩, by simp; omega, by simp, rfl, [n], ⟨by simpa [numel] using hb, rfl⟩, by simp; omega, by simp, rfl,
    [], ⟨rfl, rfl⟩, by simp, by simp, rfl, [m, n], rfl, by simp; omega, by simp, rfl, [n], rfl, by simp; omega, by simp, rfl,
    [m, n], ⟨[m, n], [n], rfl, rfl, h1.compatible.symm, h1.joint.symm h1.compatible⟩, by simp; omega, by simp, rfl,
    [], rfl, by simp, by simp, rfl,
    [m, n], ⟨[m, n], [], rfl, rfl, h2.compatible.symm, h2.joint.symm h2.compatible⟩, by simp; omega, by simp, rfl,
    [m], .inr (.inl ⟨m, n, rfl, rfl, rfl⟩), by simp; omega, by simp, rfl, rfl⟩

omit [Build] [Field α] in
theorem jointShape_row (m n : Nat) : jointShape [m, n] [n] = [m, n] := by
  simp [jointShape, extentFromRight, List.range_succ]
  omega

omit [Build] [Field α] in
theorem jointShape_scalar (m n : Nat) : jointShape [m, n] [] = [m, n] := by
  simp [jointShape, extentFromRight, List.range_succ]
  omega

omit [Build] in
theorem readme_tensor {β : Type} [Add β] [Sub β] [Mul β] [Div β] [Neg β] [Zero β] (I : Interp α β) (m n : Nat) (A b : List α) (c : α) :
    ((specRun I 0 (readmeProgram m n A b c)).get 6).1 = MT.matmul
      (MT.zip SOp.mul.run (MT.zip SOp.div.run ⟨[m, n], fun idx => I.var 0 idx (I.const (A.getD (rank idx [m, n]) 0))⟩
        ⟨[n], fun idx => I.var 1 idx (I.const (b.getD (rank idx [n]) 0))⟩)
        (MT.map (fun x => SOp.add.run x (I.const 5)) ⟨[], fun idx => I.const ([c].getD (rank idx []) 0)⟩))
      ⟨[n], fun idx => I.var 1 idx (I.const (b.getD (rank idx [n]) 0))⟩ := by
  simp only [specRun, readmeProgram, List.foldl_cons, List.foldl_nil, SpecState.step, SpecState.push, SpecState.get, List.nil_append, List.cons_append,
    List.getD_cons_zero, List.getD_cons_succ, List.set_cons_zero, List.set_cons_succ, if_false, Bool.false_eq_true]

omit [Build] in
theorem readme_result {β : Type} [Add β] [Sub β] [Mul β] [Div β] [Neg β] [Zero β] (I : Interp α β) {m n : Nat} (A b : List α) (c : α) {i : Nat} (hi : i < m) :
    ((specRun I 0 (readmeProgram m n A b c)).get 6).1.elem [i] = innerProduct n
      (fun j => I.var 0 [i, j] (I.const (A.getD (i * n + j) 0)) / I.var 1 [j] (I.const (b.getD j 0)) * (I.const c + I.const 5))
      (fun j => I.var 1 [j] (I.const (b.getD j 0))) := by
  rw [readme_tensor]
  simp only [MT.zip, MT.map, jointShape_row, jointShape_scalar, MT.matmul]
  refine innerProduct_congr (fun j hj => ?_) (fun j hj => by simp [rank, numel])
  have hin : InB [i, j] [m, n] := ⟨hi, hj, trivial⟩
  have h2 : broadcastIndex [n] [i, j] = [j] := broadcastIndex_last hj [i]
  simp [SOp.run, broadcastIndex_self hin, h2, rank, numel]

omit [Build] in
theorem readme_eps (v : Nat → List Nat → α) {m n : Nat} (A : List α) {b : List α} (hb : ∀ j, j < n → b.getD j 0 ≠ 0) (c : α) {i : Nat} (hi : i < m) :
    (((specRun (Dual.interp v) 0 (readmeProgram m n A b c)).get 6).1.elem [i]).eps = ∑ j ∈ Finset.range n, (c + 5) * v 0 [i, j] := by
  rw [readme_result _ _ _ _ hi, dual_innerProduct]
  show ∑ j ∈ Finset.range n, _ = _
  refine Finset.sum_congr rfl fun j hj => ?_
  have h0 := hb j (Finset.mem_range.1 hj)
  generalize b.getD j 0 = y at h0
  generalize A.getD (i * n + j) 0 = x
  show x / y * (c + 5) * v 1 [j] + (x / y * (0 + 0) + (v 0 [i, j] * y - x * v 1 [j]) / (y * y) * (c + 5)) * y = _
  field_simp
  ring

omit [Field α] [Build] in
theorem inB_one {m : Nat} {I : List Nat} (h : InB I [m]) : ∃ i, i < m ∧ I = [i] := by
  match I, h with
  | [i], h => exact ⟨i, h.1, rfl⟩

omit [Build] in
theorem readme_jacobian_a {m n : Nat} (A : List α) {b : List α} (hb : ∀ j, j < n → b.getD j 0 ≠ 0) (c : α) {i j : Nat} (hj : j < n) :
    ∀ I, InB I [m] → jacobian (readmeProgram m n A b c) 6 0 [i, j] I = (c + 5) * if I = [i] then 1 else 0 := by
  intro I hI
  obtain ⟨i', hi', rfl⟩ := inB_one hI
  refine (readme_eps _ _ hb _ hi').trans ?_
  rw [← Finset.mul_sum]
  congr 1
  by_cases h : i' = i
  · subst h; simp [unitDir, hj]
  · simp [unitDir, h]

omit [Build] in
theorem readme_jacobian_b {m n : Nat} (A : List α) {b : List α} (hb : ∀ j, j < n → b.getD j 0 ≠ 0) (c : α) (J : List Nat) :
    ∀ I, InB I [m] → jacobian (readmeProgram m n A b c) 6 1 J I = 0 := by
  intro I hI
  obtain ⟨i', hi', rfl⟩ := inB_one hI
  refine (readme_eps _ _ hb _ hi').trans (Finset.sum_eq_zero fun j' _ => ?_)
  simp [unitDir]

/-- **C88.** The README's program for all sizes and elements (no element of `b` is 0): it runs, the result is `(c + 5) Σ_j a[i, j]`,
`backward` completes, every element of the gradient of `a` is `c + 5`, and the gradient of `b` is 0. -/
theorem C88_readme {m n : Nat} (hm : 0 < m) (hn : 0 < n) {A b : List α} (hA : A.length = m * n) (hb : b.length = n) (h0 : 0 ∉ b) (c : α) :
    ∃ σ σ' r a' b' ga gb, runSession ((readmeProgram m n A b c).map .op) = .ok σ ∧ σ.env[6]? = some r ∧
      r.arr.Denotes [m] (fun I => (c + 5) * ∑ j ∈ Finset.range n, A.getD (I.getD 0 0 * n + j) 0) ∧
      σ.exec (.backward 6) = .ok σ' ∧ σ'.env[0]? = some a' ∧ σ'.env[1]? = some b' ∧
      a'.gradient σ'.store = some ga ∧ ga.Denotes [m, n] (fun _ => c + 5) ∧
      b'.gradient σ'.store = some gb ∧ gb.Denotes [n] (fun _ => 0) := by
  have hb0 : ∀ j, j < n → b.getD j 0 ≠ 0 := by
    intro j hj e
    rw [List.getD_eq_getElem?_getD, List.getElem?_eq_getElem (by omega)] at e
    exact h0 (e ▸ List.getElem_mem (by omega : j < b.length))
  obtain ⟨σ, σ', h1, h2, h3, h4⟩ := C88_backprop (y := 6) (readme_shaped hm hn hA hb c)
    (.inl (by simp [readmeProgram, Instr.transposes])) (by
      intro x hx
      simp only [readmeProgram, List.mem_cons, List.not_mem_nil, or_false] at hx
      rcases hx with rfl | rfl | rfl | rfl | rfl | rfl | rfl | rfl | rfl <;> first | trivial | skip
      · intro s t hs ht
        cases hs; cases ht
        rw [jointShape_row]
        exact ⟨.inl rfl, .inr (.inr ⟨0, by simp, rfl⟩)⟩
      · intro s t hs ht
        cases hs; cases ht
        rw [jointShape_scalar]
        exact ⟨.inl rfl, .inr (.inl rfl)⟩) (by simp)
  have hsh : (tensorOf (readmeProgram m n A b c) 6).shape = [m] := by
    unfold tensorOf
    rw [readme_tensor]
    simp only [MT.zip, MT.map, jointShape_row, jointShape_scalar, MT.matmul]
  obtain ⟨xa, ka, ga, a1, a2, a3, a4⟩ := h4 0 rfl rfl
  obtain ⟨xb, kb, gb, b1, b2, b3, b4⟩ := h4 1 rfl rfl
  obtain rfl : ka = 0 := isVariable_unique (by show 0 ∉ [m, n]; simp; omega) a2 (fun v idx _ => rfl)
  obtain rfl : kb = 1 := isVariable_unique (by show 0 ∉ [n]; simp; omega) b2 (fun v idx _ => rfl)
  have hlen : σ.env.length = 7 := by
    have := congrArg List.length (program_facts h1).2.1
    rwa [List.length_map] at this
  have hr := h3 6 _ (List.getElem?_eq_getElem (by omega))
  have hsa : (tensorOf (readmeProgram m n A b c) 0).shape = [m, n] := rfl
  have hsb : (tensorOf (readmeProgram m n A b c) 1).shape = [n] := rfl
  rw [hsh] at hr
  rw [hsh, hsa] at a4
  rw [hsh, hsb] at b4
  refine ⟨σ, σ', σ.env[6], xa, xb, ga, gb, h1, List.getElem?_eq_getElem _, ?_, h2, a1, b1, a3, a4.congr ?_, b3, b4.congr ?_⟩
  · refine hr.congr fun idx hi => ?_
    obtain ⟨i, hlt, rfl⟩ := inB_one hi
    unfold tensorOf
    rw [readme_result _ _ _ _ hlt, innerProduct_sum, Finset.mul_sum]
    refine Finset.sum_congr rfl fun j hj => ?_
    have := hb0 j (Finset.mem_range.1 hj)
    simp only [Interp.value, List.getD_cons_zero]
    field_simp
  · intro J hJ
    obtain ⟨i, j, rfl⟩ : ∃ i j, J = [i, j] := by
      match J, hJ with
      | [i, j], _ => exact ⟨i, j, rfl⟩
    have hj : j < n := hJ.2.1
    rw [pair_congr (fun _ _ => rfl) (readme_jacobian_a A hb0 c hj), pair_mul, pair_single _ (show InB [i] [m] from ⟨hJ.1, trivial⟩), mul_one]
  · exact fun J hJ => pair_zero_right _ (readme_jacobian_b A hb0 c J)

/-- with the numbers of the README -/
example : ∃ σ σ' r a' b' ga gb, runSession ((readmeProgram 2 2 [15/2, 12, 5, 25/4] [1/2, -2] 10 : List (Instr ℚ)).map .op) = .ok σ ∧ σ.env[6]? = some r ∧
    r.arr.Denotes [2] (fun I => [585/2, 675/4].getD (I.getD 0 0) 0) ∧ σ.exec (.backward 6) = .ok σ' ∧ σ'.env[0]? = some a' ∧ σ'.env[1]? = some b' ∧
    a'.gradient σ'.store = some ga ∧ ga.Denotes [2, 2] (fun _ => 15) ∧ b'.gradient σ'.store = some gb ∧ gb.Denotes [2] (fun _ => 0) := by
  obtain ⟨σ, σ', r, a, b, ga, gb, h1, h2, h3, h4, h5, h6, h7, h8, h9, h10⟩ := C88_readme (α := ℚ) (m := 2) (n := 2) (A := [15/2, 12, 5, 25/4]) (b := [1/2, -2])
    (by omega) (by omega) rfl rfl (by norm_num) 10
  refine ⟨σ, σ', r, a, b, ga, gb, h1, h2, h3.congr fun I hI => ?_, h4, h5, h6, h7, h8.congr fun _ _ => by norm_num, h9, h10⟩
  match I, hI with
  | [0], _ => norm_num [Finset.sum_range_succ]
  | [1], _ => norm_num [Finset.sum_range_succ]

end Verif
