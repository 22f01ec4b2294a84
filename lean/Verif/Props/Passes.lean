import Verif.Props.FloatLoops

/-!
# C91: when `backward` completes, in terms of shapes

`C91_loop` (in `Props/TrainingLoop.lean`) is about sessions over a field. Here the same for single calls and for elements of any type.
-/

namespace Verif

section field
variable {α : Type} [Field α] [Build]

/-- **C91.** After a session, `y.backward()` completes if and only if a gradient with the strides of a row-major array gets through the
operations (`Passes`), and `y.backward_with(g)` if and only if one with the strides of `g` does; otherwise they panic. -/
theorem C91_exact {c : List (Cmd α)} {σ : RunState α} (hc : ∀ x ∈ c, x.Fine σ.env) (hr : runSession c = .ok σ) (hs : SmallEnv σ.env)
    {y : Nat} {t : Tensor α} (ht : σ.env[y]? = some t) :
    (((∃ σ', σ.exec (.backward y) = .ok σ') ↔ Passes (σ.env.map fun t => t.arr.shape) (program c) y (rowStrides t.arr.shape)) ∧
      ((∃ σ', σ.exec (.backward y) = .ok σ') ∨ σ.exec (.backward y) = .error .panic)) ∧
    ∀ g : Arr α, g.WF → g.shape = t.arr.shape →
      ((∃ σ', σ.exec (.backwardWith y g) = .ok σ') ↔ Passes (σ.env.map fun t => t.arr.shape) (program c) y g.stride) ∧
      ((∃ σ', σ.exec (.backwardWith y g) = .ok σ') ∨ σ.exec (.backwardWith y g) = .error .panic) := by
  have hΓ : ∀ (i : Nat) (t : Tensor α), σ.env[i]? = some t → (σ.env.map fun t => t.arr.shape)[i]? = some t.arr.shape := fun i t hi => by
    rw [List.getElem?_map, hi]; rfl
  have h0 := (hs t (List.mem_of_getElem? ht)).1
  obtain ⟨h1, h2⟩ := C44_exact hc hr hs ht
  refine ⟨⟨h1.1.trans ?_, h1.2⟩, fun g hg hgs => ⟨(h2 g hg hgs).1.trans (passes_safe hc hr hs hΓ ht ⟨by rw [hg.valid.1, hgs], ?_⟩), (h2 g hg hgs).2⟩⟩
  · have := passes_safe hc hr hs hΓ ht (goodStrides_even h0 (Nat.lt_add_one 0))
    rw [Nat.zero_add, evenStrides_one] at this
    rw [rowStrides_eq]
    exact this
  · rcases hg.pos with h | h
    · exact absurd (numel_eq_zero.1 (hgs ▸ h)) h0
    · exact h

end field

/-- A program that reshapes and transposes. -/
example [k : Build] : ∃ (σ : RunState ℚ) (t : Tensor ℚ), (∀ x ∈ demoRT, x.Fine σ.env) ∧ runSession demoRT = .ok σ ∧ SmallEnv σ.env ∧ σ.env[3]? = some t := by
  obtain ⟨l⟩ := k
  cases l <;> with_unfolding_all exact ⟨_, _, by simp [demoRT, Cmd.Fine, Instr.Plain], rfl, by unfold SmallEnv SmallShape; decide, rfl⟩

section any
variable {α : Type} [Add α] [Sub α] [Mul α] [Div α] [Neg α] [Zero α] [One α] [MulAdd α] [Build]

/-- **C91.** Whether a session as in `C91_loop` completes does not depend on its elements: on elements of any type, floats in particular, it completes
if and only if every call of `backward` and `backward_with` gets through (`Passes`), and panics otherwise. -/
theorem C91_any {p₀ : List (Instr α)} {body : List (Cmd α)} {Γ : List (List Nat)} (h : WellShaped [] [] (p₀ ++ program body) Γ)
    (hb : Legal (constructed (p₀ ++ program body)) Γ (constructed p₀).length body) :
    ((∃ σ, runSession (p₀.map .op ++ body) = .ok σ) ↔ ∀ c ∈ body, c.passes Γ (p₀ ++ program body)) ∧
    ((∃ σ, runSession (p₀.map .op ++ body) = .ok σ ∧ σ.env.map (fun t => t.arr.shape) = Γ) ∨ runSession (p₀.map .op ++ body) = .error .panic) := by
  have e := loop_map (fun _ : α => (0 : ℚ)) p₀ body
  have hh := C91_loop (p₀ := p₀.map (Instr.map fun _ => (0 : ℚ))) (body := body.map (Cmd.map fun _ => (0 : ℚ))) (Γ := Γ) (by rw [e]; exact h.map _)
    (by rw [e, constructed_map, constructed_map]; exact legal_map _ hb)
  have hp : (∀ c ∈ body.map (Cmd.map fun _ => (0 : ℚ)), c.passes Γ (p₀.map (Instr.map fun _ => (0 : ℚ)) ++ program (body.map (Cmd.map fun _ => (0 : ℚ))))) ↔
      ∀ c ∈ body, c.passes Γ (p₀ ++ program body) := by
    rw [e]
    constructor
    · exact fun H c hc => (Cmd.passes_map _ Γ _ c).1 (H _ (List.mem_map_of_mem hc))
    · intro H c hc
      obtain ⟨z, hz, rfl⟩ := List.mem_map.1 hc
      exact (Cmd.passes_map _ Γ _ z).2 (H z hz)
  rw [hp, ← ops_map] at hh
  have hsame := C85_session (same_map (fun _ : α => (0 : ℚ)) (p₀.map Cmd.op ++ body))
  by_cases hall : ∀ c ∈ body, c.passes Γ (p₀ ++ program body)
  · obtain ⟨τ, hτ, hs, _⟩ := hh.1 hall
    rw [hτ] at hsame
    cases hσ : runSession (p₀.map Cmd.op ++ body) with
    | error e => rw [hσ] at hsame; exact hsame.elim
    | ok σ =>
      rw [hσ] at hsame
      have : σ.shapes = τ.shapes := RunState.SameButValues.shapes hsame |>.1
      exact ⟨⟨fun _ => hall, fun _ => ⟨σ, rfl⟩⟩, .inl ⟨σ, rfl, by rw [← hs]; simpa [RunState.shapes, RunState.arrs, Function.comp_def] using this⟩⟩
  · have hpan := hh.2 hall
    rw [hpan] at hsame
    cases hσ : runSession (p₀.map Cmd.op ++ body) with
    | ok σ => rw [hσ] at hsame; exact hsame.elim
    | error e =>
      rw [hσ] at hsame
      obtain rfl : e = .panic := hsame
      exact ⟨⟨fun ⟨_, h⟩ => (by cases h), fun h => absurd h hall⟩, .inr rfl⟩

omit [Add α] [Sub α] [Mul α] [Div α] [Neg α] [Zero α] [One α] [MulAdd α] [Build] in
theorem reshape_transpose_shaped {n m : Nat} (hn : 0 < n) (hm : 0 < m) {data : List α} (hd : data.length = n * m) :
    WellShaped [] [] [.leaf [n * m] data, .setReq 0 true, .view (.reshape [n, m]) 0, .view (.transpose 0 1) 1] [[n * m], [n, m], [m, n]] := by
  have hnm : 0 < n * m := Nat.mul_pos hn hm
  exact ⟨[n * m], ⟨by simp [numel, hd], rfl⟩, by simp; omega, by simp, rfl, [n * m], rfl, by simp; omega, by simp, rfl,
    [n, m], ⟨[n * m], rfl, rfl, .inr ⟨by simp [numel], by simp, rfl⟩⟩, by simp; omega, by simp, rfl,
    [m, n], ⟨[n, m], rfl, 0, 1, ⟨by simp, .inl rfl⟩, ⟨by simp, .inl rfl⟩, rfl⟩, by simp; omega, by simp, rfl, rfl⟩

/-- **C91.** For instance `y = x.reshape([n, m]); z = (&y).transpose(0, 1)`, and a call of `z.backward_with(g)`. It completes exactly if the
elements of `g` lie in column-major order, at equal distances. -/
theorem C91_reshape_transpose {n m : Nat} (hn : 0 < n) (hm : 0 < m) {data : List α} (hd : data.length = n * m) {g : Arr α}
    (hg : g.WF) (hs : g.shape = [m, n]) :
    (∃ σ, runSession ([.leaf [n * m] data, .setReq 0 true, .view (.reshape [n, m]) 0, .view (.transpose 0 1) 1].map .op ++ [.backwardWith 2 g]) = .ok σ) ↔
      ∃ e, g.stride = [e, m * e] := by
  have hnm : 0 < n * m := Nat.mul_pos hn hm
  have hh := C91_any (p₀ := [.leaf [n * m] data, .setReq 0 true, .view (.reshape [n, m]) 0, .view (.transpose 0 1) 1]) (body := [.backwardWith 2 g])
    (Γ := [[n * m], [n, m], [m, n]])
    (reshape_transpose_shaped hn hm hd)
    ⟨show 2 < 3 by decide, ⟨by rw [hs]; rfl, hg⟩, trivial⟩
  refine hh.1.trans ?_
  obtain ⟨d₀, d₁, hst⟩ : ∃ d₀ d₁, g.stride = [d₀, d₁] := by
    have hl := hg.valid.1
    rw [hs] at hl
    match g.stride, hl with
    | [d₀, d₁], _ => exact ⟨d₀, d₁, rfl⟩
  simp [Cmd.passes, Passes, Instr.flow, Flow.takes, Flow.through, evenStrides, rowStrides, numel, axisNat, exchange, program, Cmd.instr, List.filterMap_cons, List.filterMap_nil, hst]

/-- A transposed array is such a gradient. -/
example : ∃ g : Arr ℚ, g.WF ∧ g.shape = [3, 2] ∧ ∃ e, g.stride = [e, 3 * e] :=
  ⟨_, (wf_transpose (a := .fromContiguousOwnedBuffer [2, 3] [1, 2, 3, 4, 5, 6]) (Arr.WF.fromContiguous rfl) (ax1 := 0) (ax2 := 1) (l := ([3, 2], [1, 3])) rfl).1, rfl, 1, rfl⟩

/-- **C91.** `z.backward()` of the same `z` panics, unless `x` has a single element. -/
theorem C91_reshape_transpose_ones {n m : Nat} (hn : 0 < n) (hm : 0 < m) {data : List α} (hd : data.length = n * m) (h : n * m ≠ 1) :
    runSession ([.leaf [n * m] data, .setReq 0 true, .view (.reshape [n, m]) 0, .view (.transpose 0 1) 1].map .op ++ [.backward 2]) = .error .panic := by
  have hnm : 0 < n * m := Nat.mul_pos hn hm
  have hh := C91_any (p₀ := [.leaf [n * m] data, .setReq 0 true, .view (.reshape [n, m]) 0, .view (.transpose 0 1) 1]) (body := [.backward 2])
    (Γ := [[n * m], [n, m], [m, n]]) (reshape_transpose_shaped hn hm hd) ⟨show 2 < 3 by decide, trivial⟩
  rcases hh.2 with ⟨σ, hσ, _⟩ | hp
  · exfalso
    have := hh.1.1 ⟨σ, hσ⟩
    simp [Cmd.passes, Passes, Instr.flow, Flow.takes, Flow.through, evenStrides, rowStrides, numel, axisNat, exchange, program, Cmd.instr,
      List.filterMap_cons, List.filterMap_nil] at this
    exact h (by rw [Nat.mul_comm]; exact this.symm)
  · exact hp

example : runSession ([.leaf [2 * 3] [1, 2, 3, 4, 5, 6], .setReq 0 true, .view (.reshape [2, 3]) 0, .view (.transpose 0 1) 1].map .op ++
    [Cmd.backward (α := ℚ) 2]) = .error .panic := C91_reshape_transpose_ones (by decide) (by decide) rfl (by decide)

/-- With an operation in between that makes a new gradient, it completes: `z = (&(&y * c)).transpose(0, 1)`. -/
theorem C91_reshape_scale_transpose {n m : Nat} (hn : 0 < n) (hm : 0 < m) {data : List α} (hd : data.length = n * m) (c : α) {g : Arr α}
    (hg : g.WF) (hs : g.shape = [m, n]) :
    ∃ σ, runSession ([.leaf [n * m] data, .setReq 0 true, .view (.reshape [n, m]) 0, .scal .mul 1 c, .view (.transpose 0 1) 2].map .op ++
      [.backwardWith 3 g, .backward 3]) = .ok σ := by
  have hnm : 0 < n * m := Nat.mul_pos hn hm
  refine (C91_any (p₀ := [.leaf [n * m] data, .setReq 0 true, .view (.reshape [n, m]) 0, .scal .mul 1 c, .view (.transpose 0 1) 2])
    (body := [.backwardWith 3 g, .backward 3]) (Γ := [[n * m], [n, m], [n, m], [m, n]])
    ⟨[n * m], ⟨by simp [numel, hd], rfl⟩, by simp; omega, by simp, rfl, [n * m], rfl, by simp; omega, by simp, rfl,
      [n, m], ⟨[n * m], rfl, rfl, .inr ⟨by simp [numel], by simp, rfl⟩⟩, by simp; omega, by simp, rfl, [n, m], rfl, by simp; omega, by simp, rfl,
      [m, n], ⟨[n, m], rfl, 0, 1, ⟨by simp, .inl rfl⟩, ⟨by simp, .inl rfl⟩, rfl⟩, by simp; omega, by simp, rfl, rfl⟩
    ⟨show 3 < 4 by decide, ⟨by rw [hs]; rfl, hg⟩, show 3 < 4 by decide, trivial⟩).1.2 ?_
  simp [Cmd.passes, Passes, Instr.flow, Flow.takes, Flow.through, evenStrides, rowStrides, numel, axisNat, exchange, program, Cmd.instr,
    List.filterMap_cons, List.filterMap_nil]

example : ∃ g : Arr ℚ, g.WF ∧ g.shape = [3, 2] :=
  ⟨.fromContiguousOwnedBuffer [3, 2] [1, 2, 3, 4, 5, 6], Arr.WF.fromContiguous rfl, rfl⟩

/-- **C91.** `z = &x op &y` of any two tensors whose shapes broadcast to `r`, with gradients required of both: `z.backward()` completes if and only if neither
was stretched in all its axes at once, tensors without axes excepted. -/
theorem C91_binary (op : SOp) {s t r : List Nat} {x y : List α} (hx : x.length = numel s) (hy : y.length = numel t) (hc : Compatible s t) (hj : IsJoint s t r)
    (hs : 0 ∉ s) (ht : 0 ∉ t) (hr : 0 ∉ r) (hs' : s.length ≤ 32) (ht' : t.length ≤ 32) (hr' : r.length ≤ 32) :
    ((∃ σ, runSession ([.leaf s x, .leaf t y, .setReq 0 true, .setReq 1 true, .bin op 0 1].map .op ++ [.backward 2]) = .ok σ) ↔ KeepsAxis s r ∧ KeepsAxis t r) ∧
    ((∃ σ, runSession ([.leaf s x, .leaf t y, .setReq 0 true, .setReq 1 true, .bin op 0 1].map .op ++ [.backward 2]) = .ok σ) ∨
      runSession ([.leaf s x, .leaf t y, .setReq 0 true, .setReq 1 true, .bin op 0 1].map .op ++ [.backward 2]) = .error .panic) := by
  obtain ⟨h1, h2⟩ := C91_any (p₀ := [.leaf s x, .leaf t y, .setReq 0 true, .setReq 1 true, .bin op 0 1]) (body := [.backward 2]) (Γ := [s, t, r])
    ⟨s, ⟨hx, rfl⟩, hs, hs', rfl, t, ⟨hy, rfl⟩, ht, ht', rfl, s, rfl, hs, hs', rfl, t, rfl, ht, ht', rfl, r, ⟨s, t, rfl, rfl, hc, hj⟩, hr, hr', rfl, rfl⟩
    ⟨show 2 < 3 by decide, trivial⟩
  refine ⟨h1.trans ?_, h2.imp_left fun ⟨σ, h, _⟩ => ⟨σ, h⟩⟩
  simp [Cmd.passes, Passes, Instr.flow, Flow.takes, Flow.receives, program, Cmd.instr, List.filterMap_cons, List.filterMap_nil]

/-- A bias of shape `[1]`, added to a vector with `n ≥ 2` elements, cannot be trained: `backward` panics. -/
theorem C91_bias (op : SOp) {n : Nat} (hn : 2 ≤ n) {x : List α} (hx : x.length = n) (b : α) :
    runSession ([.leaf [n] x, .leaf [1] [b], .setReq 0 true, .setReq 1 true, .bin op 0 1].map .op ++ [.backward 2]) = .error .panic := by
  have hb : BroadcastsTo [1] [n] := ⟨by simp, by simp [StretchTo]⟩
  have hc : Compatible [n] [1] := hb.compatible.symm
  obtain ⟨h1, h2⟩ := C91_binary op (s := [n]) (t := [1]) (r := [n]) (x := x) (y := [b]) (by simp [numel, hx]) rfl hc (hb.joint.symm hb.compatible)
    (by simp; omega) (by simp) (by simp; omega) (by simp) (by simp) (by simp)
  refine h2.resolve_left fun h => ?_
  obtain ⟨_, h | h | ⟨k, hk, h⟩⟩ := h1.1 h
  · simp at h; omega
  · simp at h
  · obtain rfl : k = 0 := by simpa using hk
    simp [extentFromRight] at h; omega

example : ∃ (s t r : List Nat) (x y : List ℚ), x.length = numel s ∧ y.length = numel t ∧ Compatible s t ∧ IsJoint s t r ∧ 0 ∉ s ∧ 0 ∉ t ∧ 0 ∉ r ∧
    KeepsAxis s r ∧ KeepsAxis t r := by
  have hb : BroadcastsTo [2] [3, 2] := ⟨by simp, by simp [StretchTo]⟩
  exact ⟨[2], [3, 2], [3, 2], [1, 2], [1, 2, 3, 4, 5, 6], rfl, rfl, hb.compatible, hb.joint, by simp, by simp, by simp, .inr (.inr ⟨0, by simp, rfl⟩), .inl rfl⟩

end any

end Verif
