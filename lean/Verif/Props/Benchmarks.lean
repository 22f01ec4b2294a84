import Verif.Props.TrainingLoop

/-!
# C89: the loops of the benchmark of `backward` (src/bin/backwards.rs)
-/

namespace Verif

variable {α : Type} [Field α] [Build]

omit [Field α] [Build] in
theorem wellShaped_then {p q : List (Instr α)} {Γ Γ₁ Γ₂ : List (List Nat)} {B : List Bool} (h : WellShaped Γ B p Γ₁)
    (h' : ∀ B', WellShaped Γ₁ B' q Γ₂) : WellShaped Γ B (p ++ q) Γ₂ := by
  induction p generalizing Γ B with
  | nil => obtain rfl := h; exact h' B
  | cons x p ih =>
    obtain ⟨r, h1, h2, h3, h4, h⟩ := h
    exact ⟨r, h1, h2, h3, h4, ih h⟩

omit [Build] in
theorem spec_get_last {β : Type} [Zero β] [Add β] [Sub β] [Mul β] [Div β] [Neg β] {σ : SpecState β} {m : Nat} (h : σ.env.length = m) (u : MT β) (b : Bool) :
    (σ.push u b).get m = (u, b) := by
  subst h
  simp [SpecState.get, SpecState.push]

omit [Build] in
theorem spec_get_old {β : Type} [Zero β] [Add β] [Sub β] [Mul β] [Div β] [Neg β] {σ : SpecState β} {y : Nat} (h : y < σ.env.length) (u : MT β) (b : Bool) :
    (σ.push u b).get y = σ.get y := by
  simp only [SpecState.get, SpecState.push, List.getD_eq_getElem?_getD, List.getElem?_append_left h]

/-! ### `(&a * &b) / (&c + 1.0)` -/

/-- src/bin/backwards.rs 13-19 -/
def ratioHeader (n : Nat) (a b c : List α) : List (Instr α) :=
  [.leaf [n] a, .leaf [n] b, .leaf [n] c, .setReq 0 true, .setReq 1 true, .setReq 2 true]

/-- src/bin/backwards.rs 25, when there are `m` tensors already -/
def ratioForward (m : Nat) : List (Instr α) := [.bin .mul 0 1, .scal .add 2 1, .bin .div m (m + 1)]

/-- src/bin/backwards.rs 25-30 -/
def ratioIteration (g : Arr α) (m : Nat) : List (Cmd α) :=
  (ratioForward m).map .op ++ [.backwardWith (m + 2) g, .zeroGradient 0, .zeroGradient 1, .zeroGradient 2]

/-- src/bin/backwards.rs 24-31 -/
def ratioLoop (g : Arr α) : Nat → Nat → List (Cmd α)
  | 0, _ => []
  | M + 1, m => ratioIteration g m ++ ratioLoop g M (m + 3)

omit [Build] in
theorem ratioForward_shaped {n : Nat} (hn : 0 < n) {m : Nat} (hm : 3 ≤ m) (B : List Bool) :
    WellShaped (List.replicate m [n]) B (ratioForward m : List (Instr α)) (List.replicate (m + 3) [n]) := by
  have hb : BroadcastsTo [n] [n] := ⟨by simp, by simp [StretchTo]⟩
  have e : ∀ k, List.replicate k [n] ++ [[n]] = List.replicate (k + 1) [n] := fun k => (List.replicate_succ' ..).symm
  have hr : ∀ {k i : Nat}, i < k → (List.replicate k [n])[i]? = some [n] := fun h => by simp [h]
  refine ⟨[n], ⟨[n], [n], hr (by omega), hr (by omega), hb.compatible, hb.joint⟩, by simp; omega, by simp, rfl, ?_⟩
  simp only [Instr.extend, e]
  refine ⟨[n], hr (by omega), by simp; omega, by simp, rfl, ?_⟩
  simp only [Instr.extend, e]
  refine ⟨[n], ⟨[n], [n], hr (by omega), hr (by omega), hb.compatible, hb.joint⟩, by simp; omega, by simp, rfl, ?_⟩
  simp only [Instr.extend, e]
  rfl

omit [Build] in
theorem program_ratioIteration (g : Arr α) (m : Nat) : program (ratioIteration g m) = ratioForward m := by
  rw [ratioIteration, program_append, program_ops]
  exact List.append_nil _

omit [Build] in
theorem ratioLoop_shaped {n : Nat} (hn : 0 < n) (g : Arr α) (M : Nat) {m : Nat} (hm : 3 ≤ m) (B : List Bool) :
    WellShaped (List.replicate m [n]) B (program (ratioLoop g M m)) (List.replicate (m + 3 * M) [n]) := by
  induction M generalizing m B with
  | zero => rfl
  | succ M ih =>
    rw [ratioLoop, program_append, program_ratioIteration, show m + 3 * (M + 1) = (m + 3) + 3 * M by omega]
    exact wellShaped_then (ratioForward_shaped hn hm B) (fun B' => ih (by omega) B')

omit [Field α] [Build] in
theorem ratioHeader_shaped {n : Nat} (hn : 0 < n) {a b c : List α} (ha : a.length = n) (hb : b.length = n) (hc : c.length = n) :
    WellShaped [] [] (ratioHeader n a b c) (List.replicate 3 [n]) :=
  ⟨[n], ⟨by simpa [numel] using ha, rfl⟩, by simp; omega, by simp, rfl, [n], ⟨by simpa [numel] using hb, rfl⟩, by simp; omega, by simp, rfl,
    [n], ⟨by simpa [numel] using hc, rfl⟩, by simp; omega, by simp, rfl, [n], rfl, by simp; omega, by simp, rfl,
    [n], rfl, by simp; omega, by simp, rfl, [n], rfl, by simp; omega, by simp, rfl, rfl⟩

omit [Field α] [Build] in
theorem constructed_length_append (p q : List (Instr α)) (hq : ∀ x ∈ q, ∀ i b, x ≠ .setReq i b) :
    (constructed (p ++ q)).length = (constructed p).length + q.length := by
  induction q generalizing p with
  | nil => simp
  | cons x q ih =>
    rw [show p ++ x :: q = (p ++ [x]) ++ q by simp, ih _ (fun y hy => hq y (by simp [hy])), constructed_snoc p (hq x (by simp))]
    simp; omega

omit [Build] in
theorem ratioLoop_ops (g : Arr α) (M m : Nat) : ∀ x ∈ program (ratioLoop g M m), ∃ k, x ∈ (ratioForward k : List (Instr α)) := by
  induction M generalizing m with
  | zero => intro x hx; cases hx
  | succ M ih =>
    intro x hx
    rw [ratioLoop, program_append, program_ratioIteration] at hx
    rcases List.mem_append.1 hx with hx | hx
    · exact ⟨m, hx⟩
    · exact ih _ x hx

omit [Build] in
theorem ratioLoop_ok {n N : Nat} (C : List Bool) (h0 : C[0]? = some true) (h1 : C[1]? = some true) (h2 : C[2]? = some true)
    {g : Arr α} (hg : g.WF) (hs : g.shape = [n]) (hc : g.stride = strideFromShape g.shape) (M : Nat) {m : Nat} (hN : m + 3 * M ≤ N)
    {rest : List (Cmd α)} (hr : LoopOK C (List.replicate N [n]) (m + 3 * M) rest) : LoopOK C (List.replicate N [n]) m (ratioLoop g M m ++ rest) := by
  induction M generalizing m with
  | zero => exact hr
  | succ M ih =>
    refine ⟨(by intro _ _ h; cases h), (by intro _ _ h; cases h), (by intro _ _ h; cases h), by omega, ⟨?_, hg, hc⟩, by omega, h0, by omega, h1, by omega, h2, ih (m := m + 3) (by omega) ?_⟩
    · show (List.replicate N [n])[m + 2]? = some g.shape
      rw [hs, List.getElem?_replicate, if_pos (by omega)]
    · rwa [show m + 3 + 3 * M = m + 3 * (M + 1) by omega]

omit [Build] in
theorem collected_append (p : List (Instr α)) (i k : Nat) (J : List Nat) (F : α) (c d : List (Cmd α)) :
    collected p i k J F (c ++ d) = collected p i k J (collected p i k J F c) d := by
  unfold collected
  rw [List.foldl_append]

omit [Build] in
theorem ratioLoop_collected (p : List (Instr α)) {i : Nat} (hi : i < 3) (k : Nat) (J : List Nat) (g : Arr α) (M m : Nat) :
    collected p i k J 0 (ratioLoop g M m) = 0 := by
  induction M generalizing m with
  | zero => rfl
  | succ M ih =>
    rw [ratioLoop, collected_append]
    have : collected p i k J 0 (ratioIteration g m) = 0 := by
      match i, hi with
      | 0, _ | 1, _ | 2, _ => simp [collected, ratioIteration, ratioForward]
    rw [this, ih]

omit [Build] in
theorem ratioForward_ops (m : Nat) : ∀ x ∈ (ratioForward m : List (Instr α)), x.plain = true ∧ x.transposes = false ∧ (∀ i b, x ≠ .setReq i b) ∧
    ∀ N n, x.TameAt (List.replicate N [n]) := by
  have ht : ∀ op i j N n, (Instr.bin op i j : Instr α).TameAt (List.replicate N [n]) := by
    intro op i j N n s t hs ht
    have e1 := List.eq_of_mem_replicate (List.mem_of_getElem? hs)
    have e2 := List.eq_of_mem_replicate (List.mem_of_getElem? ht)
    subst e1 e2
    rw [jointShape_one]
    exact ⟨.inl rfl, .inl rfl⟩
  intro x hx
  simp only [ratioForward, List.mem_cons, List.not_mem_nil, or_false] at hx
  rcases hx with rfl | rfl | rfl
  · exact ⟨rfl, rfl, (by intro _ _ h; cases h), ht _ _ _⟩
  · exact ⟨rfl, rfl, (by intro _ _ h; cases h), fun _ _ => trivial⟩
  · exact ⟨rfl, rfl, (by intro _ _ h; cases h), ht _ _ _⟩

omit [Field α] [Build] in
theorem ratioHeader_ops (n : Nat) (a b c : List α) : ∀ x ∈ ratioHeader n a b c, x.plain = true ∧ x.transposes = false ∧ ∀ N n, x.TameAt (List.replicate N [n]) := by
  intro x hx
  simp only [ratioHeader, List.mem_cons, List.not_mem_nil, or_false] at hx
  rcases hx with rfl | rfl | rfl | rfl | rfl | rfl <;> exact ⟨rfl, rfl, fun _ _ => trivial⟩

omit [Build] in
theorem ratioLoop_no_setReq (g : Arr α) (M m : Nat) : ∀ x ∈ program (ratioLoop g M m), ∀ i b, x ≠ .setReq i b := fun x hx =>
  let ⟨k, hk⟩ := ratioLoop_ops g M m x hx
  (ratioForward_ops k x hk).2.2.1

omit [Build] in
theorem ratioLoop_program_length (g : Arr α) (M m : Nat) : (program (ratioLoop g M m)).length = 3 * M := by
  induction M generalizing m with
  | zero => rfl
  | succ M ih =>
    rw [ratioLoop, program_append, program_ratioIteration, List.length_append, ih]
    simp [ratioForward]; omega

omit [Build] in
theorem ratio_tensor {β : Type} [Add β] [Sub β] [Mul β] [Div β] [Neg β] [Zero β] (I : Interp α β) (n : Nat) (a b c : List α) (g : Arr α) (M : Nat) :
    ((specRun I 0 (ratioHeader n a b c ++ (program (ratioLoop g M 3) ++ ratioForward (3 + 3 * M)))).get (3 + 3 * M + 2)).1 = MT.zip SOp.div.run
      (MT.zip SOp.mul.run ⟨[n], fun idx => I.var 0 idx (I.const (a.getD (rank idx [n]) 0))⟩ ⟨[n], fun idx => I.var 1 idx (I.const (b.getD (rank idx [n]) 0))⟩)
      (MT.map (fun x => SOp.add.run x (I.const 1)) ⟨[n], fun idx => I.var 2 idx (I.const (c.getD (rank idx [n]) 0))⟩) := by
  have hq := ratioLoop_no_setReq g M 3
  have h0 : ∀ y, y < 3 → (specRun I 0 (ratioHeader n a b c ++ program (ratioLoop g M 3))).get y = (specRun I 0 (ratioHeader n a b c)).get y :=
    fun y hy => spec_get_append I 0 _ hq hy
  have hl : (specRun I 0 (ratioHeader n a b c ++ program (ratioLoop g M 3))).env.length = 3 + 3 * M := by
    rw [spec_length, constructed_length_append _ _ hq, ratioLoop_program_length]; rfl
  rw [← List.append_assoc]
  generalize hp : ratioHeader n a b c ++ program (ratioLoop g M 3) = p at h0 hl
  have e : specRun I 0 (p ++ ratioForward (3 + 3 * M)) = (ratioForward (3 + 3 * M)).foldl (SpecState.step I 0) (specRun I 0 p) := List.foldl_append ..
  rw [e]
  generalize specRun I 0 p = S at h0 hl
  have hm : 3 ≤ 3 + 3 * M := by omega
  generalize 3 + 3 * M = m at hl hm
  have hp1 : ∀ (S : SpecState β) u b, (S.push u b).env.length = S.env.length + 1 := fun S u b => by simp [SpecState.push]
  simp only [ratioForward, List.foldl_cons, List.foldl_nil, SpecState.step]
  rw [spec_get_last (m := m + 2) (by simp [hp1, hl])]
  rw [spec_get_last (m := m + 1) (by simp [hp1, hl])]
  rw [spec_get_old (y := m) (by rw [hp1]; omega), spec_get_last (m := m) hl]
  rw [spec_get_old (y := 2) (by omega), h0 0 (by omega), h0 1 (by omega), h0 2 (by omega)]
  rfl

omit [Build] in
theorem ratio_elem {β : Type} [Add β] [Sub β] [Mul β] [Div β] [Neg β] [Zero β] (I : Interp α β) {n : Nat} (a b c : List α) (g : Arr α) (M : Nat) {j : Nat} (hj : j < n) :
    ((specRun I 0 (ratioHeader n a b c ++ (program (ratioLoop g M 3) ++ ratioForward (3 + 3 * M)))).get (3 + 3 * M + 2)).1.elem [j] =
      I.var 0 [j] (I.const (a.getD j 0)) * I.var 1 [j] (I.const (b.getD j 0)) / (I.var 2 [j] (I.const (c.getD j 0)) + I.const 1) := by
  rw [ratio_tensor]
  have h2 : broadcastIndex [n] [j] = [j] := broadcastIndex_last hj []
  simp only [MT.zip, MT.map, jointShape_one]
  simp [SOp.run, h2, rank, numel]

omit [Build] in
/-- `∂/∂v ((a * b) / (c + 1))`, in any direction `v` -/
theorem ratio_eps (v : Nat → List Nat → α) {n : Nat} (a b c : List α) (g : Arr α) (M : Nat) {j : Nat} (hj : j < n) :
    (((specRun (Dual.interp v) 0 (ratioHeader n a b c ++ (program (ratioLoop g M 3) ++ ratioForward (3 + 3 * M)))).get (3 + 3 * M + 2)).1.elem [j]).eps =
      b.getD j 0 / (c.getD j 0 + 1) * v 0 [j] + a.getD j 0 / (c.getD j 0 + 1) * v 1 [j] -
        a.getD j 0 * b.getD j 0 / (c.getD j 0 + 1) ^ 2 * v 2 [j] := by
  rw [ratio_elem _ _ _ _ _ _ hj]
  generalize a.getD j 0 = x
  generalize b.getD j 0 = y
  generalize c.getD j 0 = z
  show ((x * v 1 [j] + v 0 [j] * y) * (z + 1) - x * y * (v 2 [j] + 0)) / ((z + 1) * (z + 1)) = _
  by_cases h0 : z + 1 = 0
  · simp [h0]
  · field_simp
    ring

/-- **C89.** The first benchmark, for all sizes, elements and numbers of iterations `M`, with any contiguous seed `g`: after `M`
iterations the gradients of `a`, `b`, `c` are 0; -/
theorem C89_ratio_zero {n : Nat} (hn : 0 < n) {a b c : List α} (ha : a.length = n) (hb : b.length = n) (hc : c.length = n)
    {g : Arr α} (hg : g.WF) (hs : g.shape = [n]) (hgc : g.stride = strideFromShape g.shape) (M : Nat) :
    ∃ σ, runSession ((ratioHeader n a b c).map .op ++ ratioLoop g M 3) = .ok σ ∧ ∀ i, i < 3 → ∃ x gx, σ.env[i]? = some x ∧
      x.gradient σ.store = some gx ∧ gx.Denotes [n] (fun _ => 0) := by
  have hq := ratioLoop_no_setReq g M 3
  have hops : ∀ x ∈ ratioHeader n a b c ++ program (ratioLoop g M 3), x.plain = true ∧ x.transposes = false ∧ ∀ N n, x.TameAt (List.replicate N [n]) := by
    intro x hx
    rcases List.mem_append.1 hx with hx | hx
    · exact ratioHeader_ops n a b c x hx
    · obtain ⟨k, hk⟩ := ratioLoop_ops g M 3 x hx
      obtain ⟨h1, h2, _, h3⟩ := ratioForward_ops k x hk
      exact ⟨h1, h2, h3⟩
  have hcon : ∀ i, i < 3 → (constructed (ratioHeader n a b c ++ program (ratioLoop g M 3)))[i]? = some true := by
    intro i hi
    rw [prefix_get (constructed_append _ _) (show i < (constructed (ratioHeader n a b c)).length from hi)]
    match i, hi with
    | 0, _ | 1, _ | 2, _ => rfl
  obtain ⟨σ, h1, _, _, h4⟩ := C89_loop (wellShaped_then (ratioHeader_shaped hn ha hb hc) (fun B => ratioLoop_shaped hn g M (Nat.le_refl 3) B))
    (.inl fun x hx => (hops x hx).2.1) (fun x hx => (hops x hx).2.2 _ _)
    (by
      have := ratioLoop_ok (N := 3 + 3 * M) _ (hcon 0 (by omega)) (hcon 1 (by omega)) (hcon 2 (by omega)) hg hs hgc M (m := 3) (Nat.le_refl _) (rest := []) trivial
      rwa [List.append_nil] at this)
  refine ⟨σ, h1, fun i hi => ?_⟩
  have hget := fun {β : Type} [Add β] [Sub β] [Mul β] [Div β] [Neg β] [Zero β] (I : Interp α β) =>
    spec_get_append I 0 (ratioHeader n a b c) hq (y := i) hi
  obtain ⟨x, k, gx, a1, _, a3, a4⟩ := h4 i (hcon i hi) (by
    unfold requiresOf
    rw [hget]
    match i, hi with
    | 0, _ | 1, _ | 2, _ => rfl)
  refine ⟨x, gx, a1, a3, ?_⟩
  have e : (tensorOf (ratioHeader n a b c ++ program (ratioLoop g M 3)) i).shape = [n] := by
    unfold tensorOf
    rw [hget]
    match i, hi with
    | 0, _ | 1, _ | 2, _ => rfl
  rw [e] at a4
  exact a4.congr fun J _ => ratioLoop_collected _ hi k J g M 3

/-- **C89.** (continued) and after the `backward_with` of the next iteration they are the derivatives of `(a * b) / (c + 1)`, as in the first. -/
theorem C89_ratio {n : Nat} (hn : 0 < n) {a b c : List α} (ha : a.length = n) (hb : b.length = n) (hc : c.length = n)
    {g : Arr α} (hg : g.WF) (hs : g.shape = [n]) (hgc : g.stride = strideFromShape g.shape) (M : Nat) :
    ∃ σ xa xb xc ga gb gc, runSession ((ratioHeader n a b c).map .op ++
        (ratioLoop g M 3 ++ ((ratioForward (3 + 3 * M)).map .op ++ [.backwardWith (3 + 3 * M + 2) g]))) = .ok σ ∧
      σ.env[0]? = some xa ∧ σ.env[1]? = some xb ∧ σ.env[2]? = some xc ∧
      xa.gradient σ.store = some ga ∧ ga.Denotes [n] (fun J => g.elemAt J * (b.getD (J.getD 0 0) 0 / (c.getD (J.getD 0 0) 0 + 1))) ∧
      xb.gradient σ.store = some gb ∧ gb.Denotes [n] (fun J => g.elemAt J * (a.getD (J.getD 0 0) 0 / (c.getD (J.getD 0 0) 0 + 1))) ∧
      xc.gradient σ.store = some gc ∧
        gc.Denotes [n] (fun J => g.elemAt J * -(a.getD (J.getD 0 0) 0 * b.getD (J.getD 0 0) 0 / (c.getD (J.getD 0 0) 0 + 1) ^ 2)) := by
  have hprog : program (ratioLoop g M 3 ++ ((ratioForward (3 + 3 * M)).map .op ++ [.backwardWith (3 + 3 * M + 2) g])) =
      program (ratioLoop g M 3) ++ ratioForward (3 + 3 * M) := by
    rw [program_append, program_append, program_ops]
    exact congrArg _ (List.append_nil _)
  have hq : ∀ x ∈ program (ratioLoop g M 3) ++ ratioForward (3 + 3 * M), ∀ i b, x ≠ .setReq i b := by
    intro x hx
    rcases List.mem_append.1 hx with hx | hx
    · exact ratioLoop_no_setReq g M 3 x hx
    · exact (ratioForward_ops _ x hx).2.2.1
  have hops : ∀ x ∈ ratioHeader n a b c ++ (program (ratioLoop g M 3) ++ ratioForward (3 + 3 * M)), x.plain = true ∧ x.transposes = false ∧
      ∀ N n, x.TameAt (List.replicate N [n]) := by
    intro x hx
    rcases List.mem_append.1 hx with hx | hx
    · exact ratioHeader_ops n a b c x hx
    · obtain ⟨k, hk⟩ : ∃ k, x ∈ (ratioForward k : List (Instr α)) := by
        rcases List.mem_append.1 hx with hx | hx
        · exact ratioLoop_ops g M 3 x hx
        · exact ⟨_, hx⟩
      obtain ⟨h1, h2, _, h3⟩ := ratioForward_ops k x hk
      exact ⟨h1, h2, h3⟩
  have hcon : ∀ i, i < 3 → (constructed (ratioHeader n a b c ++ (program (ratioLoop g M 3) ++ ratioForward (3 + 3 * M))))[i]? = some true := by
    intro i hi
    rw [prefix_get (constructed_append _ _) (show i < (constructed (ratioHeader n a b c)).length from hi)]
    match i, hi with
    | 0, _ | 1, _ | 2, _ => rfl
  have main := C89_loop (p₀ := ratioHeader n a b c)
    (body := ratioLoop g M 3 ++ ((ratioForward (3 + 3 * M)).map .op ++ [.backwardWith (3 + 3 * M + 2) g])) (Γ := List.replicate (3 + 3 * M + 3) [n])
  rw [hprog] at main
  obtain ⟨σ, h1, _, _, h4⟩ := main (wellShaped_then (ratioHeader_shaped hn ha hb hc) fun B => wellShaped_then (ratioLoop_shaped hn g M (Nat.le_refl 3) B)
      fun B => ratioForward_shaped hn (by omega) B)
    (.inl fun x hx => (hops x hx).2.1) (fun x hx => (hops x hx).2.2 _ _)
    (ratioLoop_ok (N := 3 + 3 * M + 3) _ (hcon 0 (by omega)) (hcon 1 (by omega)) (hcon 2 (by omega)) hg hs hgc M (m := 3) (by omega)
      ⟨(by intro _ _ h; cases h), (by intro _ _ h; cases h), (by intro _ _ h; cases h), by omega,
        ⟨by rw [hs, List.getElem?_replicate, if_pos (by omega)], hg, hgc⟩, trivial⟩)
  have hget := fun {β : Type} [Add β] [Sub β] [Mul β] [Div β] [Neg β] [Zero β] (I : Interp α β) {i : Nat} (hi : i < 3) =>
    spec_get_append I 0 (ratioHeader n a b c) hq (y := i) hi
  have hshape : (tensorOf (ratioHeader n a b c ++ (program (ratioLoop g M 3) ++ ratioForward (3 + 3 * M))) (3 + 3 * M + 2)).shape = [n] := by
    unfold tensorOf
    rw [ratio_tensor]
    simp only [MT.zip, MT.map, jointShape_one]
  -- the gradient of each of the three
  have key : ∀ i, i < 3 → ∃ x gx, σ.env[i]? = some x ∧ x.gradient σ.store = some gx ∧ gx.Denotes [n] fun J => pair [n] g.elemAt
      (jacobian (ratioHeader n a b c ++ (program (ratioLoop g M 3) ++ ratioForward (3 + 3 * M))) (3 + 3 * M + 2) i J) := by
    intro i hi
    obtain ⟨x, k, gx, a1, a2, a3, a4⟩ := h4 i (hcon i hi) (by
      unfold requiresOf
      rw [hget _ hi]
      match i, hi with
      | 0, _ | 1, _ | 2, _ => rfl)
    have e : (tensorOf (ratioHeader n a b c ++ (program (ratioLoop g M 3) ++ ratioForward (3 + 3 * M))) i).shape = [n] := by
      unfold tensorOf
      rw [hget _ hi]
      match i, hi with
      | 0, _ | 1, _ | 2, _ => rfl
    obtain rfl : k = i := isVariable_unique (by rw [e]; simp; omega) a2 (by
      intro v idx _
      rw [hget _ hi]
      match i, hi with
      | 0, _ | 1, _ | 2, _ => rfl)
    refine ⟨x, gx, a1, a3, ?_⟩
    rw [e] at a4
    refine a4.congr fun J _ => ?_
    rw [collected_append, ratioLoop_collected _ hi]
    show 0 + pair _ _ _ = _
    rw [zero_add, hshape]
  -- its elements
  have hpair : ∀ (i : Nat) (w : Nat → α), (∀ j j', j < n → jacobian (ratioHeader n a b c ++ (program (ratioLoop g M 3) ++ ratioForward (3 + 3 * M)))
      (3 + 3 * M + 2) i [j'] [j] = w j * if [j] = [j'] then 1 else 0) → ∀ J, InB J [n] → pair [n] g.elemAt
      (jacobian (ratioHeader n a b c ++ (program (ratioLoop g M 3) ++ ratioForward (3 + 3 * M))) (3 + 3 * M + 2) i J) = g.elemAt J * w (J.getD 0 0) := by
    intro i w hw J hJ
    obtain ⟨j', hj', rfl⟩ := inB_one hJ
    rw [pair_congr (g' := fun I => w (I.getD 0 0) * if I = [j'] then 1 else 0) (fun _ _ => rfl) (fun I hI => by
      obtain ⟨j, hj, rfl⟩ := inB_one hI
      exact hw j j' hj), pair_mul, pair_single _ hJ, mul_comm]
  obtain ⟨xa, ga, a1, a2, a3⟩ := key 0 (by omega)
  obtain ⟨xb, gb, b1, b2, b3⟩ := key 1 (by omega)
  obtain ⟨xc, gc, c1, c2, c3⟩ := key 2 (by omega)
  refine ⟨σ, xa, xb, xc, ga, gb, gc, h1, a1, b1, c1, a2, a3.congr (hpair 0 (fun j => b.getD j 0 / (c.getD j 0 + 1)) fun j j' hj => ?_), b2, b3.congr (hpair 1 (fun j => a.getD j 0 / (c.getD j 0 + 1)) fun j j' hj => ?_),
    c2, c3.congr (hpair 2 (fun j => -(a.getD j 0 * b.getD j 0 / (c.getD j 0 + 1) ^ 2)) fun j j' hj => ?_)⟩
  · exact (ratio_eps _ a b c g M hj).trans (by simp [unitDir])
  · exact (ratio_eps _ a b c g M hj).trans (by simp [unitDir])
  · exact (ratio_eps _ a b c g M hj).trans (by by_cases h : j = j' <;> simp [unitDir, h])

/-- 100 iterations, as in the benchmark, with `ones` as seed -/
example : ∃ (σ : RunState ℚ) (xc : Tensor ℚ) (gc : Arr ℚ), runSession ((ratioHeader 2 [1, 2] [3, 4] [1, 3]).map .op ++
    (ratioLoop (Arr.fromContiguousOwnedBuffer [2] [1, 1]) 100 3 ++ ((ratioForward 303).map .op ++
      [.backwardWith 305 (Arr.fromContiguousOwnedBuffer [2] [1, 1])]))) = .ok σ ∧
    σ.env[2]? = some xc ∧ xc.gradient σ.store = some gc ∧ gc.Denotes [2] (fun J => [-3/4, -1/2].getD (J.getD 0 0) 0) := by
  obtain ⟨σ, xa, xb, xc, ga, gb, gc, h1, _, _, h2, _, _, _, _, h3, h4⟩ := C89_ratio (α := ℚ) (n := 2) (by omega) (a := [1, 2]) (b := [3, 4]) (c := [1, 3]) rfl rfl rfl
    (g := Arr.fromContiguousOwnedBuffer [2] [1, 1]) (Arr.WF.fromContiguous rfl) rfl rfl 100
  refine ⟨σ, xc, gc, h1, h2, h3, h4.congr fun J hJ => ?_⟩
  match J, hJ with
  | [0], _ =>
    show (1 : ℚ) * _ = _
    norm_num
  | [1], _ =>
    show (1 : ℚ) * _ = _
    norm_num

/-! ### `a.matmul(&x) + &b` -/

/-- src/bin/backwards.rs 40-45 -/
def affineHeader (p q : Nat) (x a b : List α) : List (Instr α) := [.leaf [q] x, .leaf [p, q] a, .leaf [p] b, .setReq 1 true, .setReq 2 true]

/-- src/bin/backwards.rs 51, when there are `m` tensors already -/
def affineForward (m : Nat) : List (Instr α) := [.matmul 1 0, .bin .add m 2]

/-- src/bin/backwards.rs 51-55 -/
def affineIteration (g : Arr α) (m : Nat) : List (Cmd α) :=
  (affineForward m).map .op ++ [.backwardWith (m + 1) g, .zeroGradient 1, .zeroGradient 2]

/-- src/bin/backwards.rs 50-56 -/
def affineLoop (g : Arr α) : Nat → Nat → List (Cmd α)
  | 0, _ => []
  | M + 1, m => affineIteration g m ++ affineLoop g M (m + 2)

/-- the shapes: `x`, `a`, `b`, and `k` results -/
def affineShapes (p q k : Nat) : List (List Nat) := [[q], [p, q], [p]] ++ List.replicate k [p]

omit [Build] in
theorem affineShapes_get {p q k i : Nat} (h : 2 ≤ i) (h' : i < 3 + k) : (affineShapes p q k)[i]? = some [p] := by
  match i, h with
  | 2, _ => rfl
  | i + 3, _ =>
    show (List.replicate k [p])[i]? = _
    rw [List.getElem?_replicate, if_pos (by omega)]

omit [Build] in
theorem affineShapes_snoc (p q k : Nat) : affineShapes p q k ++ [[p]] = affineShapes p q (k + 1) := by
  unfold affineShapes
  rw [List.append_assoc, ← List.replicate_succ']

omit [Field α] [Build] in
theorem affineForward_shaped {p q : Nat} (hp : 0 < p) (k : Nat) (B : List Bool) :
    WellShaped (affineShapes p q k) B (affineForward (3 + k) : List (Instr α)) (affineShapes p q (k + 2)) := by
  have hb : BroadcastsTo [p] [p] := ⟨by simp, by simp [StretchTo]⟩
  refine ⟨[p], .inr (.inl ⟨p, q, rfl, rfl, rfl⟩), by simp; omega, by simp, rfl, ?_⟩
  simp only [Instr.extend, affineShapes_snoc]
  refine ⟨[p], ⟨[p], [p], affineShapes_get (by omega) (by omega), rfl, hb.compatible, hb.joint⟩, by simp; omega, by simp, rfl, ?_⟩
  simp only [Instr.extend, affineShapes_snoc]
  rfl

omit [Field α] [Build] in
theorem program_affineIteration (g : Arr α) (m : Nat) : program (affineIteration g m) = affineForward m := by
  rw [affineIteration, program_append, program_ops]
  exact List.append_nil _

omit [Field α] [Build] in
theorem affineLoop_shaped {p q : Nat} (hp : 0 < p) (g : Arr α) (M k : Nat) (B : List Bool) :
    WellShaped (affineShapes p q k) B (program (affineLoop g M (3 + k))) (affineShapes p q (k + 2 * M)) := by
  induction M generalizing k B with
  | zero => rfl
  | succ M ih =>
    rw [affineLoop, program_append, program_affineIteration, show k + 2 * (M + 1) = (k + 2) + 2 * M by omega]
    exact wellShaped_then (affineForward_shaped hp k B) (fun B' => ih (k + 2) B')

omit [Field α] [Build] in
theorem affineHeader_shaped {p q : Nat} (hp : 0 < p) (hq : 0 < q) {x a b : List α} (hx : x.length = q) (ha : a.length = p * q) (hb : b.length = p) :
    WellShaped [] [] (affineHeader p q x a b) (affineShapes p q 0) :=
  ⟨[q], ⟨by simpa [numel] using hx, rfl⟩, by simp; omega, by simp, rfl, [p, q], ⟨by simpa [numel] using ha, rfl⟩, by simp; omega, by simp, rfl,
    [p], ⟨by simpa [numel] using hb, rfl⟩, by simp; omega, by simp, rfl, [p, q], rfl, by simp; omega, by simp, rfl,
    [p], rfl, by simp; omega, by simp, rfl, rfl⟩

omit [Field α] [Build] in
theorem affineLoop_ops (g : Arr α) (M m : Nat) (hm : 3 ≤ m) : ∀ x ∈ program (affineLoop g M m), ∃ k, 3 ≤ k ∧ k + 2 ≤ m + 2 * M ∧ x ∈ (affineForward k : List (Instr α)) := by
  induction M generalizing m with
  | zero => intro x hx; cases hx
  | succ M ih =>
    intro x hx
    rw [affineLoop, program_append, program_affineIteration] at hx
    rcases List.mem_append.1 hx with hx | hx
    · exact ⟨m, hm, by omega, hx⟩
    · obtain ⟨k, h1, h2, h3⟩ := ih _ (by omega) x hx
      exact ⟨k, h1, by omega, h3⟩

omit [Field α] [Build] in
theorem affineForward_ops {m : Nat} (hm : 3 ≤ m) : ∀ x ∈ (affineForward m : List (Instr α)), x.plain = true ∧ x.transposes = false ∧ (∀ i b, x ≠ .setReq i b) ∧
    ∀ p q k, m < 3 + k → x.TameAt (affineShapes p q k) := by
  intro x hx
  simp only [affineForward, List.mem_cons, List.not_mem_nil, or_false] at hx
  rcases hx with rfl | rfl
  · exact ⟨rfl, rfl, (by intro _ _ h; cases h), fun _ _ _ _ => trivial⟩
  · refine ⟨rfl, rfl, (by intro _ _ h; cases h), fun p q k hk s t hs ht => ?_⟩
    rw [affineShapes_get (by omega) (by omega)] at hs ht
    cases hs; cases ht
    rw [jointShape_one]
    exact ⟨.inl rfl, .inl rfl⟩

omit [Field α] [Build] in
theorem affineHeader_ops (p q : Nat) (x a b : List α) : ∀ z ∈ affineHeader p q x a b, z.plain = true ∧ z.transposes = false ∧ ∀ Γ, z.TameAt Γ := by
  intro x hx
  simp only [affineHeader, List.mem_cons, List.not_mem_nil, or_false] at hx
  rcases hx with rfl | rfl | rfl | rfl | rfl <;> exact ⟨rfl, rfl, fun _ => trivial⟩

omit [Field α] [Build] in
theorem affineLoop_program_length (g : Arr α) (M m : Nat) : (program (affineLoop g M m)).length = 2 * M := by
  induction M generalizing m with
  | zero => rfl
  | succ M ih =>
    rw [affineLoop, program_append, program_affineIteration, List.length_append, ih]
    simp [affineForward]; omega

omit [Field α] [Build] in
theorem affineLoop_ok {p q N : Nat} (C : List Bool) (h1 : C[1]? = some true) (h2 : C[2]? = some true)
    {g : Arr α} (hg : g.WF) (hs : g.shape = [p]) (hc : g.stride = strideFromShape g.shape) (M : Nat) {m : Nat} (hm : 3 ≤ m) (hN : m + 2 * M ≤ 3 + N)
    {rest : List (Cmd α)} (hr : LoopOK C (affineShapes p q N) (m + 2 * M) rest) : LoopOK C (affineShapes p q N) m (affineLoop g M m ++ rest) := by
  induction M generalizing m with
  | zero => exact hr
  | succ M ih =>
    refine ⟨(by intro _ _ h; cases h), (by intro _ _ h; cases h), by omega, ⟨?_, hg, hc⟩, by omega, h1, by omega, h2, ih (m := m + 2) (by omega) (by omega) ?_⟩
    · rw [hs, affineShapes_get (by omega) (by omega)]
    · rwa [show m + 2 + 2 * M = m + 2 * (M + 1) by omega]

omit [Build] in
theorem affineLoop_collected (P : List (Instr α)) {i : Nat} (hi : i = 1 ∨ i = 2) (k : Nat) (J : List Nat) (g : Arr α) (M m : Nat) :
    collected P i k J 0 (affineLoop g M m) = 0 := by
  induction M generalizing m with
  | zero => rfl
  | succ M ih =>
    rw [affineLoop, collected_append]
    have : collected P i k J 0 (affineIteration g m) = 0 := by
      rcases hi with rfl | rfl <;> simp [collected, affineIteration, affineForward]
    rw [this, ih]

omit [Build] in
theorem affine_tensor {β : Type} [Add β] [Sub β] [Mul β] [Div β] [Neg β] [Zero β] (I : Interp α β) (p q : Nat) (x a b : List α) (g : Arr α) (M : Nat) :
    ((specRun I 0 (affineHeader p q x a b ++ (program (affineLoop g M 3) ++ affineForward (3 + 2 * M)))).get (3 + 2 * M + 1)).1 = MT.zip SOp.add.run
      (MT.matmul ⟨[p, q], fun idx => I.var 0 idx (I.const (a.getD (rank idx [p, q]) 0))⟩ ⟨[q], fun idx => I.const (x.getD (rank idx [q]) 0)⟩)
      ⟨[p], fun idx => I.var 1 idx (I.const (b.getD (rank idx [p]) 0))⟩ := by
  have hq : ∀ z ∈ program (affineLoop g M 3), ∀ i b, z ≠ .setReq i b := fun z hz =>
    let ⟨_, h3, _, hk⟩ := affineLoop_ops g M 3 (Nat.le_refl 3) z hz
    (affineForward_ops h3 z hk).2.2.1
  have h0 : ∀ y, y < 3 → (specRun I 0 (affineHeader p q x a b ++ program (affineLoop g M 3))).get y = (specRun I 0 (affineHeader p q x a b)).get y :=
    fun y hy => spec_get_append I 0 _ hq hy
  have hl : (specRun I 0 (affineHeader p q x a b ++ program (affineLoop g M 3))).env.length = 3 + 2 * M := by
    rw [spec_length, constructed_length_append _ _ hq, affineLoop_program_length]; rfl
  rw [← List.append_assoc]
  generalize hp : affineHeader p q x a b ++ program (affineLoop g M 3) = P at h0 hl
  have e : specRun I 0 (P ++ affineForward (3 + 2 * M)) = (affineForward (3 + 2 * M)).foldl (SpecState.step I 0) (specRun I 0 P) := List.foldl_append ..
  rw [e]
  generalize specRun I 0 P = S at h0 hl
  have hm : 3 ≤ 3 + 2 * M := by omega
  generalize 3 + 2 * M = m at hl hm
  have hp1 : ∀ (S : SpecState β) u b, (S.push u b).env.length = S.env.length + 1 := fun S u b => by simp [SpecState.push]
  simp only [affineForward, List.foldl_cons, List.foldl_nil, SpecState.step]
  rw [spec_get_last (m := m + 1) (by simp [hp1, hl])]
  rw [spec_get_last (m := m) hl]
  rw [spec_get_old (y := 2) (by omega), h0 0 (by omega), h0 1 (by omega), h0 2 (by omega)]
  rfl

omit [Build] in
theorem affine_elem {β : Type} [Add β] [Sub β] [Mul β] [Div β] [Neg β] [Zero β] (I : Interp α β) {p q : Nat} (x a b : List α) (g : Arr α) (M : Nat) {i : Nat} (hi : i < p) :
    ((specRun I 0 (affineHeader p q x a b ++ (program (affineLoop g M 3) ++ affineForward (3 + 2 * M)))).get (3 + 2 * M + 1)).1.elem [i] =
      innerProduct q (fun j => I.var 0 [i, j] (I.const (a.getD (i * q + j) 0))) (fun j => I.const (x.getD j 0)) + I.var 1 [i] (I.const (b.getD i 0)) := by
  rw [affine_tensor]
  have h2 : broadcastIndex [p] [i] = [i] := broadcastIndex_last hi []
  simp only [MT.zip, MT.matmul, jointShape_one]
  simp [SOp.run, h2, rank, numel]

omit [Build] in
theorem affine_eps (v : Nat → List Nat → α) {p q : Nat} (x a b : List α) (g : Arr α) (M : Nat) {i : Nat} (hi : i < p) :
    (((specRun (Dual.interp v) 0 (affineHeader p q x a b ++ (program (affineLoop g M 3) ++ affineForward (3 + 2 * M)))).get (3 + 2 * M + 1)).1.elem [i]).eps =
      (∑ j ∈ Finset.range q, v 0 [i, j] * x.getD j 0) + v 1 [i] := by
  rw [affine_elem _ _ _ _ _ _ hi, dual_innerProduct]
  show (∑ j ∈ Finset.range q, _) + v 1 [i] = _
  congr 1
  refine Finset.sum_congr rfl fun j _ => ?_
  show _ * 0 + v 0 [i, j] * _ = _
  simp [Dual.interp]

/-- **C89.** The second benchmark, for all sizes, elements, numbers of iterations `M` and contiguous seeds `g`: in every iteration,
`backward_with` makes the gradient of `a` the outer product of `g` and `x`, and that of `b` equal to `g`. -/
theorem C89_affine {p q : Nat} (hp : 0 < p) (hq : 0 < q) {x a b : List α} (hx : x.length = q) (ha : a.length = p * q) (hb : b.length = p)
    {g : Arr α} (hg : g.WF) (hs : g.shape = [p]) (hgc : g.stride = strideFromShape g.shape) (M : Nat) :
    ∃ σ xa xb ga gb, runSession ((affineHeader p q x a b).map .op ++
        (affineLoop g M 3 ++ ((affineForward (3 + 2 * M)).map .op ++ [.backwardWith (3 + 2 * M + 1) g]))) = .ok σ ∧
      σ.env[1]? = some xa ∧ σ.env[2]? = some xb ∧
      xa.gradient σ.store = some ga ∧ ga.Denotes [p, q] (fun J => g.elemAt [J.getD 0 0] * x.getD (J.getD 1 0) 0) ∧
      xb.gradient σ.store = some gb ∧ gb.Denotes [p] g.elemAt := by
  have hprog : program (affineLoop g M 3 ++ ((affineForward (3 + 2 * M)).map .op ++ [.backwardWith (3 + 2 * M + 1) g])) =
      program (affineLoop g M 3) ++ affineForward (3 + 2 * M) := by
    rw [program_append, program_append, program_ops]
    exact congrArg _ (List.append_nil _)
  have hfrom : ∀ z ∈ program (affineLoop g M 3) ++ affineForward (3 + 2 * M), ∃ k, 3 ≤ k ∧ k + 2 ≤ 3 + (2 * M + 2) ∧ z ∈ (affineForward k : List (Instr α)) := by
    intro z hz
    rcases List.mem_append.1 hz with hz | hz
    · obtain ⟨k, h1, h2, h3⟩ := affineLoop_ops g M 3 (Nat.le_refl 3) z hz
      exact ⟨k, h1, by omega, h3⟩
    · exact ⟨_, by omega, by omega, hz⟩
  have hno : ∀ z ∈ program (affineLoop g M 3) ++ affineForward (3 + 2 * M), ∀ i b, z ≠ .setReq i b := fun z hz =>
    let ⟨_, h3, _, hk⟩ := hfrom z hz
    (affineForward_ops h3 z hk).2.2.1
  have hops : ∀ z ∈ affineHeader p q x a b ++ (program (affineLoop g M 3) ++ affineForward (3 + 2 * M)), z.plain = true ∧ z.transposes = false ∧
      z.TameAt (affineShapes p q (2 * M + 2)) := by
    intro z hz
    rcases List.mem_append.1 hz with hz | hz
    · obtain ⟨h1, h2, h3⟩ := affineHeader_ops p q x a b z hz
      exact ⟨h1, h2, h3 _⟩
    · obtain ⟨k, h3, h4, hk⟩ := hfrom z hz
      obtain ⟨h1, h2, _, h5⟩ := affineForward_ops h3 z hk
      exact ⟨h1, h2, h5 _ _ _ (by omega)⟩
  have hcon : ∀ i, i < 3 → (constructed (affineHeader p q x a b ++ (program (affineLoop g M 3) ++ affineForward (3 + 2 * M))))[i]? = some true := by
    intro i hi
    rw [prefix_get (constructed_append _ _) (show i < (constructed (affineHeader p q x a b)).length from hi)]
    match i, hi with
    | 0, _ | 1, _ | 2, _ => rfl
  have main := C89_loop (p₀ := affineHeader p q x a b)
    (body := affineLoop g M 3 ++ ((affineForward (3 + 2 * M)).map .op ++ [.backwardWith (3 + 2 * M + 1) g])) (Γ := affineShapes p q (2 * M + 2))
  rw [hprog] at main
  obtain ⟨σ, h1, _, _, h4⟩ := main (wellShaped_then (affineHeader_shaped hp hq hx ha hb) fun B => by
      have := affineLoop_shaped (q := q) hp g M 0 B
      rw [Nat.zero_add] at this
      exact wellShaped_then this fun B => affineForward_shaped hp (2 * M) B)
    (.inl fun x hx => (hops x hx).2.1) (fun x hx => (hops x hx).2.2)
    (affineLoop_ok (N := 2 * M + 2) _ (hcon 1 (by omega)) (hcon 2 (by omega)) hg hs hgc M (m := 3) (by omega) (by omega)
      ⟨(by intro _ _ h; cases h), (by intro _ _ h; cases h), by omega,
        ⟨by rw [hs, affineShapes_get (by omega) (by omega)], hg, hgc⟩, trivial⟩)
  have hget := fun {β : Type} [Add β] [Sub β] [Mul β] [Div β] [Neg β] [Zero β] (I : Interp α β) {i : Nat} (hi : i < 3) =>
    spec_get_append I 0 (affineHeader p q x a b) hno (y := i) hi
  have hshape : (tensorOf (affineHeader p q x a b ++ (program (affineLoop g M 3) ++ affineForward (3 + 2 * M))) (3 + 2 * M + 1)).shape = [p] := by
    unfold tensorOf
    rw [affine_tensor]
    simp only [MT.zip, MT.matmul, jointShape_one]
  have hca : ∀ (i k : Nat), i = 1 ∨ i = 2 → ∀ J, collected (affineHeader p q x a b ++ (program (affineLoop g M 3) ++ affineForward (3 + 2 * M))) i k J 0
      (affineLoop g M 3 ++ ((affineForward (3 + 2 * M)).map .op ++ [.backwardWith (3 + 2 * M + 1) g])) = pair [p] g.elemAt
        (jacobian (affineHeader p q x a b ++ (program (affineLoop g M 3) ++ affineForward (3 + 2 * M))) (3 + 2 * M + 1) k J) := by
    intro i k hi J
    rw [collected_append, affineLoop_collected _ hi]
    show 0 + pair _ _ _ = _
    rw [zero_add, hshape]
  have hreq : ∀ i, i = 1 ∨ i = 2 → requiresOf (affineHeader p q x a b ++ (program (affineLoop g M 3) ++ affineForward (3 + 2 * M))) i = true := by
    intro i hi
    unfold requiresOf
    rw [hget _ (by omega)]
    rcases hi with rfl | rfl <;> rfl
  have e1 : (tensorOf (affineHeader p q x a b ++ (program (affineLoop g M 3) ++ affineForward (3 + 2 * M))) 1).shape = [p, q] := by
    unfold tensorOf
    rw [hget _ (by omega)]; rfl
  have e2 : (tensorOf (affineHeader p q x a b ++ (program (affineLoop g M 3) ++ affineForward (3 + 2 * M))) 2).shape = [p] := by
    unfold tensorOf
    rw [hget _ (by omega)]; rfl
  obtain ⟨xa, ka, ga, a1, a2, a3, a4⟩ := h4 1 (hcon 1 (by omega)) (hreq 1 (.inl rfl))
  obtain ⟨xb, kb, gb, b1, b2, b3, b4⟩ := h4 2 (hcon 2 (by omega)) (hreq 2 (.inr rfl))
  obtain rfl : ka = 0 := isVariable_unique (by rw [e1]; simp; omega) a2 (by
    intro v idx _
    rw [hget _ (by omega)]; rfl)
  obtain rfl : kb = 1 := isVariable_unique (by rw [e2]; simp; omega) b2 (by
    intro v idx _
    rw [hget _ (by omega)]; rfl)
  rw [e1] at a4
  rw [e2] at b4
  refine ⟨σ, xa, xb, ga, gb, h1, a1, b1, a3, a4.congr fun J hJ => ?_, b3, b4.congr fun J hJ => ?_⟩
  · obtain ⟨i, j, rfl⟩ : ∃ i j, J = [i, j] := by
      match J, hJ with
      | [i, j], _ => exact ⟨i, j, rfl⟩
    have hj : j < q := hJ.2.1
    rw [hca _ _ (.inl rfl), pair_congr (g' := fun I => x.getD j 0 * if I = [i] then 1 else 0) (fun _ _ => rfl) (fun I hI => by
      obtain ⟨i', hi', rfl⟩ := inB_one hI
      refine (affine_eps _ x a b g M hi').trans ?_
      by_cases h : i' = i
      · subst h; simp [unitDir, hj]
      · simp [unitDir, h]), pair_mul, pair_single _ (show InB [i] [p] from ⟨hJ.1, trivial⟩)]
    exact mul_comm _ _
  · obtain ⟨i, hi, rfl⟩ := inB_one hJ
    rw [hca _ _ (.inr rfl), pair_congr (g' := fun I => if I = [i] then 1 else 0) (fun _ _ => rfl) (fun I hI => by
      obtain ⟨i', hi', rfl⟩ := inB_one hI
      refine (affine_eps _ x a b g M hi').trans ?_
      simp [unitDir]), pair_single _ hJ]

example : ∃ (σ : RunState ℚ) (xa : Tensor ℚ) (ga : Arr ℚ), runSession ((affineHeader 2 2 [5, 7] [1, 2, 3, 4] [1, 3]).map .op ++
    (affineLoop (Arr.fromContiguousOwnedBuffer [2] [1, 2]) 100 3 ++ ((affineForward 203).map .op ++
      [.backwardWith 204 (Arr.fromContiguousOwnedBuffer [2] [1, 2])]))) = .ok σ ∧
    σ.env[1]? = some xa ∧ xa.gradient σ.store = some ga ∧ ga.Denotes [2, 2] (fun J => [5, 7, 10, 14].getD (rank J [2, 2]) 0) := by
  obtain ⟨σ, xa, xb, ga, gb, h1, h2, _, h3, h4, _, _⟩ := C89_affine (α := ℚ) (p := 2) (q := 2) (by omega) (by omega) (x := [5, 7]) (a := [1, 2, 3, 4]) (b := [1, 3])
    rfl rfl rfl (g := Arr.fromContiguousOwnedBuffer [2] [1, 2]) (Arr.WF.fromContiguous rfl) rfl rfl 100
  refine ⟨σ, xa, ga, h1, h2, h3, h4.congr fun J hJ => ?_⟩
  match J, hJ with
  | [0, 0], _ => show (1 : ℚ) * 5 = 5; norm_num
  | [0, 1], _ => show (1 : ℚ) * 7 = 7; norm_num
  | [1, 0], _ => show (2 : ℚ) * 5 = 10; norm_num
  | [1, 1], _ => show (2 : ℚ) * 7 = 14; norm_num

end Verif
