import Verif.Props.Passes

/-!
# C92: consuming and borrowing forms of the shape-changing operations are interchangeable
-/

namespace Verif

section any
variable {α : Type}

/-- `t.reshape(s)` becomes `(&t).reshape(s)`, and so on. -/
def Instr.borrowed : Instr α → Instr α
  | .into op _ i => .view op i
  | x => x

/-- The same for a command. -/
def Cmd.borrowed : Cmd α → Cmd α
  | .op x => .op x.borrowed
  | c => c

theorem flow_borrowed (Γ : List (List Nat)) (F : List Flow) (x : Instr α) : x.borrowed.flow Γ F = x.flow Γ F := by
  cases x <;> rfl

theorem passes_borrowed (Γ : List (List Nat)) (p : List (Instr α)) (y : Nat) (d : List Nat) : Passes Γ (p.map Instr.borrowed) y d ↔ Passes Γ p y d := by
  unfold Passes
  rw [List.foldl_map]
  simp only [flow_borrowed]

theorem Cmd.passes_borrowed (Γ : List (List Nat)) (p : List (Instr α)) (c : Cmd α) : c.borrowed.passes Γ (p.map Instr.borrowed) ↔ c.passes Γ p := by
  cases c with
  | backward y => exact Verif.passes_borrowed Γ p y _
  | backwardWith y g => exact Verif.passes_borrowed Γ p y _
  | _ => exact Iff.rfl

theorem constructed_borrowed (p : List (Instr α)) : constructed (p.map Instr.borrowed) = constructed p := by
  unfold constructed
  rw [List.foldl_map]
  congr 1
  funext L x
  cases x <;> rfl

theorem wellShaped_borrowed {Γ Γ' : List (List Nat)} {B : List Bool} {p : List (Instr α)} (h : WellShaped Γ B p Γ') :
    WellShaped Γ B (p.map Instr.borrowed) Γ' := by
  induction p generalizing Γ B with
  | nil => exact h
  | cons x p ih =>
    obtain ⟨r, h1, h2, h3, h4, h5⟩ := h
    have e1 : ∀ {γ : Type} (Γ : List γ) (r : γ), x.borrowed.extend Γ r = x.extend Γ r := by intro γ Γ r; cases x <;> rfl
    have e2 : x.borrowed.straight B = x.straight B := by
      cases x with
      | into op b i => cases op <;> rfl
      | _ => rfl
    refine ⟨r, by cases x <;> exact h1, h2, h3, ?_, ?_⟩
    · cases x <;> rfl
    · rw [e1, e1, e2]; exact ih h5

theorem legal_borrowed {C : List Bool} {Γ : List (List Nat)} {n : Nat} {c : List (Cmd α)} (h : Legal C Γ n c) : Legal C Γ n (c.map Cmd.borrowed) := by
  induction c generalizing n with
  | nil => trivial
  | cons x c ih =>
    cases x with
    | op x =>
      refine ⟨fun i b e => ?_, ih h.2⟩
      cases x <;> first | exact h.1 _ _ rfl | cases e
    | backward y => exact ⟨h.1, ih h.2⟩
    | zeroGradient i => exact ⟨h.1, h.2.1, ih h.2.2⟩
    | backwardWith y g => exact ⟨h.1, h.2.1, ih h.2.2⟩

theorem program_borrowed (c : List (Cmd α)) : program (c.map Cmd.borrowed) = (program c).map Instr.borrowed := by
  induction c with
  | nil => rfl
  | cons x c ih =>
    rw [List.map_cons, show x.borrowed :: c.map Cmd.borrowed = [x.borrowed] ++ c.map Cmd.borrowed from rfl, show x :: c = [x] ++ c from rfl, program_append,
      program_append, List.map_append, ih]
    cases x <;> rfl

theorem loop_borrowed (p₀ : List (Instr α)) (body : List (Cmd α)) :
    p₀.map Instr.borrowed ++ program (body.map Cmd.borrowed) = (p₀ ++ program body).map Instr.borrowed := by
  rw [program_borrowed, List.map_append]

theorem specRun_borrowed {β : Type} [Add β] [Sub β] [Mul β] [Div β] [Neg β] [Zero β] (I : Interp α β) (dflt : α) (p : List (Instr α)) :
    specRun I dflt (p.map Instr.borrowed) = specRun I dflt p := by
  unfold specRun
  rw [List.foldl_map]
  congr 1
  funext S x
  cases x <;> rfl

end any

section field
variable {α : Type} [Field α] [Build]

omit [Build] in
theorem collected_borrowed (P : List (Instr α)) (i k : Nat) (J : List Nat) (F : α) (c : List (Cmd α)) :
    collected (P.map Instr.borrowed) i k J F (c.map Cmd.borrowed) = collected P i k J F c := by
  unfold collected
  rw [List.foldl_map]
  congr 1
  funext F x
  have e1 : ∀ y, tensorOf (P.map Instr.borrowed) y = tensorOf P y := fun y => by unfold tensorOf; rw [specRun_borrowed]
  have e2 : ∀ y, jacobian (P.map Instr.borrowed) y k J = jacobian P y k J := fun y => by
    funext idx; unfold jacobian; rw [specRun_borrowed]
  cases x <;> simp only [Cmd.borrowed, e1, e2]

/-- **C92.** In a session as in C91, replace every consuming shape change `t.reshape(s)`, `t.transpose(a, b)`, ... by its borrowing form
`(&t).reshape(s)`, `(&t).transpose(a, b)`, ... Then either both sessions panic, or both complete, every tensor has the same shape and elements in
both, and so has the gradient of every constructed tensor that requires gradient. -/
theorem C92_loop {p₀ : List (Instr α)} {body : List (Cmd α)} {Γ : List (List Nat)} (h : WellShaped [] [] (p₀ ++ program body) Γ)
    (hb : Legal (constructed (p₀ ++ program body)) Γ (constructed p₀).length body) :
    (runSession (p₀.map .op ++ body) = .error .panic ∧ runSession ((p₀.map Cmd.op ++ body).map Cmd.borrowed) = .error .panic) ∨
    ∃ σ τ, runSession (p₀.map .op ++ body) = .ok σ ∧ runSession ((p₀.map Cmd.op ++ body).map Cmd.borrowed) = .ok τ ∧
      σ.env.map (fun t => t.arr.shape) = Γ ∧ τ.env.map (fun t => t.arr.shape) = Γ ∧
      (∀ (i : Nat) (t u : Tensor α), σ.env[i]? = some t → τ.env[i]? = some u → ∃ s f, t.arr.Denotes s f ∧ u.arr.Denotes s f) ∧
      ∀ i, (constructed (p₀ ++ program body))[i]? = some true → requiresOf (p₀ ++ program body) i = true →
        ∃ (t u : Tensor α) (g g' : Arr α) (s : List Nat) (f : List Nat → α), σ.env[i]? = some t ∧ τ.env[i]? = some u ∧
          t.gradient σ.store = some g ∧ u.gradient τ.store = some g' ∧ g.Denotes s f ∧ g'.Denotes s f := by
  have e := loop_borrowed p₀ body
  have hA := C91_loop h hb
  have hB := C91_loop (p₀ := p₀.map Instr.borrowed) (body := body.map Cmd.borrowed) (Γ := Γ) (by rw [e]; exact wellShaped_borrowed h)
    (by rw [e, constructed_borrowed, constructed_borrowed]; exact legal_borrowed hb)
  have hp : (∀ c ∈ body.map Cmd.borrowed, c.passes Γ (p₀.map Instr.borrowed ++ program (body.map Cmd.borrowed))) ↔
      ∀ c ∈ body, c.passes Γ (p₀ ++ program body) := by
    rw [e]
    constructor
    · exact fun H c hc => (Cmd.passes_borrowed Γ _ c).1 (H _ (List.mem_map_of_mem hc))
    · intro H c hc
      obtain ⟨z, hz, rfl⟩ := List.mem_map.1 hc
      exact (Cmd.passes_borrowed Γ _ z).2 (H z hz)
  have hc : (p₀.map Cmd.op ++ body).map Cmd.borrowed = (p₀.map Instr.borrowed).map .op ++ body.map Cmd.borrowed := by
    rw [List.map_append, List.map_map, List.map_map]; rfl
  rw [hp, ← hc, e] at hB
  have e1 : ∀ y, tensorOf ((p₀ ++ program body).map Instr.borrowed) y = tensorOf (p₀ ++ program body) y := fun y => by unfold tensorOf; rw [specRun_borrowed]
  have e2 : ∀ y, requiresOf ((p₀ ++ program body).map Instr.borrowed) y = requiresOf (p₀ ++ program body) y := fun y => by
    unfold requiresOf; rw [specRun_borrowed]
  have e3 : ∀ i k, IsVariable ((p₀ ++ program body).map Instr.borrowed) i k ↔ IsVariable (p₀ ++ program body) i k := fun i k => by
    unfold IsVariable; simp only [specRun_borrowed, e1]
  simp only [constructed_borrowed, e1, e2, e3, collected_borrowed] at hB
  by_cases hall : ∀ c ∈ body, c.passes Γ (p₀ ++ program body)
  · obtain ⟨σ, h1, h2, h3, h4⟩ := hA.1 hall
    obtain ⟨τ, g1, g2, g3, g4⟩ := hB.1 hall
    refine .inr ⟨σ, τ, h1, g1, h2, g2, fun i t u ht hu => ⟨_, _, h3 i t ht, g3 i u hu⟩, fun i hi hq => ?_⟩
    obtain ⟨t, k, g, ht, hv, hg, hd⟩ := h4 i hi hq
    obtain ⟨u, k', g', hu, hv', hg', hd'⟩ := g4 i hi hq
    have h0 : 0 ∉ (tensorOf (p₀ ++ program body) i).shape := by
      rw [← (h3 i t ht).1]
      exact (wellShaped_small h (fun s hs => by cases hs) _ (by rw [← h2]; exact List.mem_map_of_mem (List.mem_of_getElem? ht))).1
    obtain rfl := isVariable_unique h0 hv hv'
    exact ⟨t, u, g, g', _, _, ht, hu, hg, hg', hd, hd'⟩
  · exact .inl ⟨hA.2 hall, hB.2 hall⟩

/-- `y = x.reshape([3, 2])` of a tensor that is still in use, `z = y * y`, and `z.backward()`. -/
example : ∃ Γ : List (List Nat), WellShaped [] [] ([Instr.leaf [2, 3] [1, 2, 3, 4, 5, 6], .setReq 0 true] ++
      program [Cmd.op (.into (.reshape [3, 2]) true 0), .op (.bin .mul 1 1), .backward (α := ℚ) 2]) Γ ∧
    Legal (constructed ([Instr.leaf [2, 3] [1, 2, 3, 4, 5, 6], .setReq 0 true] ++
      program [Cmd.op (.into (.reshape [3, 2]) true 0), .op (.bin .mul 1 1), .backward (α := ℚ) 2])) Γ 1
      [Cmd.op (.into (.reshape [3, 2]) true 0), .op (.bin .mul 1 1), .backward (α := ℚ) 2] ∧
    ∀ c ∈ [Cmd.op (.into (.reshape [3, 2]) true 0), .op (.bin .mul 1 1), .backward (α := ℚ) 2], c.passes Γ ([Instr.leaf [2, 3] [1, 2, 3, 4, 5, 6], .setReq 0 true] ++
      program [Cmd.op (.into (.reshape [3, 2]) true 0), .op (.bin .mul 1 1), .backward (α := ℚ) 2]) := by
  have hb : BroadcastsTo [3, 2] [3, 2] := ⟨by simp, by simp [StretchTo]⟩
  refine ⟨[[2, 3], [3, 2], [3, 2]], ⟨[2, 3], ⟨rfl, rfl⟩, by simp, by simp, rfl, [2, 3], rfl, by simp, by simp, rfl,
    [3, 2], ⟨[2, 3], rfl, rfl, .inr ⟨by simp [numel], by simp, rfl⟩⟩, by simp, by simp, rfl,
    [3, 2], ⟨[3, 2], [3, 2], rfl, rfl, hb.compatible, hb.joint⟩, by simp, by simp, rfl, rfl⟩,
    ⟨(by intro _ _ h; cases h), (by intro _ _ h; cases h), (show 2 < 3 by decide), trivial⟩, ?_⟩
  simp [Cmd.passes, Passes, Instr.flow, Flow.takes, Flow.receives, KeepsAxis, Flow.through, evenStrides, rowStrides, numel, program, Cmd.instr,
    List.filterMap_cons, List.filterMap_nil]

end field

section values
variable {α : Type} [Add α] [Sub α] [Mul α] [Div α] [Neg α] [Zero α] [One α] [MulAdd α] [Build]

/-- **C92.** On elements of any type, floats in particular, both sessions complete with tensors of the same shapes, or both panic. -/
theorem C92_any {p₀ : List (Instr α)} {body : List (Cmd α)} {Γ : List (List Nat)} (h : WellShaped [] [] (p₀ ++ program body) Γ)
    (hb : Legal (constructed (p₀ ++ program body)) Γ (constructed p₀).length body) :
    (runSession (p₀.map .op ++ body) = .error .panic ∧ runSession ((p₀.map Cmd.op ++ body).map Cmd.borrowed) = .error .panic) ∨
    ∃ σ τ, runSession (p₀.map .op ++ body) = .ok σ ∧ runSession ((p₀.map Cmd.op ++ body).map Cmd.borrowed) = .ok τ ∧
      σ.env.map (fun t => t.arr.shape) = Γ ∧ τ.env.map (fun t => t.arr.shape) = Γ := by
  have e := loop_borrowed p₀ body
  have hA := C91_any h hb
  have hB := C91_any (p₀ := p₀.map Instr.borrowed) (body := body.map Cmd.borrowed) (Γ := Γ) (by rw [e]; exact wellShaped_borrowed h)
    (by rw [e, constructed_borrowed, constructed_borrowed]; exact legal_borrowed hb)
  have hp : (∀ c ∈ body.map Cmd.borrowed, c.passes Γ (p₀.map Instr.borrowed ++ program (body.map Cmd.borrowed))) ↔
      ∀ c ∈ body, c.passes Γ (p₀ ++ program body) := by
    rw [e]
    constructor
    · exact fun H c hc => (Cmd.passes_borrowed Γ _ c).1 (H _ (List.mem_map_of_mem hc))
    · intro H c hc
      obtain ⟨z, hz, rfl⟩ := List.mem_map.1 hc
      exact (Cmd.passes_borrowed Γ _ z).2 (H z hz)
  have hc : (p₀.map Cmd.op ++ body).map Cmd.borrowed = (p₀.map Instr.borrowed).map .op ++ body.map Cmd.borrowed := by
    rw [List.map_append, List.map_map, List.map_map]; rfl
  rw [hp, ← hc] at hB
  rcases hA.2 with ⟨σ, h1, h2⟩ | h1
  · rcases hB.2 with ⟨τ, g1, g2⟩ | g1
    · exact .inr ⟨σ, τ, h1, g1, h2, g2⟩
    · obtain ⟨τ, g⟩ := hB.1.2 (hA.1.1 ⟨σ, h1⟩)
      rw [g1] at g; cases g
  · rcases hB.2 with ⟨τ, g1, g2⟩ | g1
    · obtain ⟨σ, g⟩ := hA.1.2 (hB.1.1 ⟨τ, g1⟩)
      rw [h1] at g; cases g
    · exact .inl ⟨h1, g1⟩

end values

end Verif
