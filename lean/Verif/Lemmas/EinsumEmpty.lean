import Verif.Lemmas.EinsumFinal

/-! Lemmas: einsum with letters of extent 0. -/

namespace Verif

variable {α : Type}

theorem assume_false {β : Type} {c : Bool} (h : c = false) (f : Unit → Res β) : (assume c >>= f) = .error .ub := by
  rw [h]; rfl

/-- An extent 0 outside the innermost loop: nothing is done. -/
theorem einsumUnspecialized_skip [Mul α] [One α] [Add α] [Zero α] {ops : List (Src α)} {plan : EinsumPlan} {dst : List α} {q : Nat}
    (hl : plan.strides.length = plan.iterShape.length) (hops : ops.length < maxArgs) (hdims : plan.iterShape.length ≤ maxDims)
    (h : 0 ∈ plan.iterShape.tail) : einsumUnspecialized ops plan dst q = .ok dst := by
  obtain ⟨strides, iterShape, outShape⟩ := plan
  match iterShape, strides, hl with
  | [], _, _ => cases h
  | n :: shape, inner :: strides, hl =>
    have hz : numel shape = 0 := numel_eq_zero.2 h
    simp only [einsumUnspecialized, MultiGen.from]
    rw [assert_ok (by simpa using hl), assert_ok (by simpa using hops), assert_ok (by simp at hdims; simp; omega), hz]
    rfl

/-- Only the innermost loop is empty: the kernel is called with count 0. -/
theorem einsumUnspecialized_ub [Mul α] [One α] [Add α] [Zero α] {ops : List (Src α)} {plan : EinsumPlan} {dst : List α} {q : Nat}
    (hl : plan.strides.length = plan.iterShape.length) (hops : ops.length < maxArgs) (hdims : plan.iterShape.length ≤ maxDims)
    (h0 : plan.iterShape.head? = some 0) (h : 0 ∉ plan.iterShape.tail) : einsumUnspecialized ops plan dst q = .error .ub := by
  obtain ⟨strides, iterShape, outShape⟩ := plan
  match iterShape, strides, hl with
  | [], _, _ => cases h0
  | n :: shape, inner :: strides, hl =>
    obtain rfl : n = 0 := by simpa using h0
    have hz : 0 < numel shape := numel_pos fun m hm => Nat.pos_of_ne_zero fun e => h (e ▸ hm)
    obtain ⟨k, hk⟩ : ∃ k, numel shape = k + 1 := ⟨numel shape - 1, by omega⟩
    simp only [einsumUnspecialized, MultiGen.from]
    rw [assert_ok (by simpa using hl), assert_ok (by simpa using hops), assert_ok (by simp at hdims; simp; omega), hk]
    simp only [ok_bind, pure_res, einsumLoop, getSopGeneric]
    split <;> rfl

/-- The specialised loops have undefined behaviour with any extent 0. -/
theorem einsumRun_ub [Mul α] [One α] [Add α] [Zero α] {K : SopKernels α} {ops : List (Src α)} {plan : EinsumPlan} {dst : List α} {q : Nat}
    (hl : plan.strides.length = plan.iterShape.length) (hops : ops.length = 1 ∨ ops.length = 2)
    (hdims : plan.iterShape.length = 2 ∨ plan.iterShape.length = 3) (h : 0 ∈ plan.iterShape) :
    einsumRun K ops plan dst q = .error .ub := by
  unfold einsumRun
  rw [if_pos hops]
  obtain ⟨strides, iterShape, outShape⟩ := plan
  match iterShape, strides, hl, hdims with
  | [n0, n1], [s0, s1], _, _ =>
    show einsum2labels _ _ _ _ _ _ _ _ = _
    unfold einsum2labels
    by_cases h0 : n0 = 0
    · exact assume_false (by simp [h0]) _
    · rw [assume_bind (by simpa using Nat.pos_of_ne_zero h0)]
      have : n1 = 0 := by simp only [List.mem_cons, List.not_mem_nil, or_false] at h; omega
      exact assume_false (by simp [this]) _
  | [n0, n1, n2], [s0, s1, s2], _, _ =>
    show einsum3labels _ _ _ _ _ _ _ _ _ _ = _
    unfold einsum3labels
    by_cases h0 : n0 = 0
    · exact assume_false (by simp [h0]) _
    · rw [assume_bind (by simpa using Nat.pos_of_ne_zero h0)]
      by_cases h1 : n1 = 0
      · exact assume_false (by simp [h1]) _
      · rw [assume_bind (by simpa using Nat.pos_of_ne_zero h1)]
        have : n2 = 0 := by simp only [List.mem_cons, List.not_mem_nil, or_false] at h; omega
        exact assume_false (by simp [this]) _

/-- All other requests go to the general loop. -/
theorem einsumRun_unspecialized [Mul α] [One α] [Add α] [Zero α] {K : SopKernels α} {ops : List (Src α)} {plan : EinsumPlan}
    {dst : List α} {q : Nat} (h : ¬ ((ops.length = 1 ∨ ops.length = 2) ∧ (plan.iterShape.length = 2 ∨ plan.iterShape.length = 3))) :
    einsumRun K ops plan dst q = einsumUnspecialized ops plan dst q := by
  unfold einsumRun
  split
  · next hops =>
    have hd := fun hd => h ⟨hops, hd⟩
    split
    · next e _ => exact (hd (by rw [e]; simp)).elim
    · next e _ => exact (hd (by rw [e]; simp)).elim
    · rfl
  · rfl

/-- The plan of well-formed subscripts. -/
theorem prepareEinsum_subscripts {ops : List (Arr α)} {fs : List (Factor α)}
    {out rest : List Char} {dim : Char → Nat} (hw : Subscripts fs out rest)
    (hd : List.Forall₂ (fun a f => a.Denotes (f.letters.map dim) f.elem) ops fs) (hargs : ops.length < maxArgs)
    (hdims : ∀ f ∈ fs, f.letters.length ≤ maxDims) (htot : (out ++ rest).length ≤ maxDims) :
    ∃ plan, prepareEinsum ops (fs.map (·.letters)) out = .ok plan ∧ plan.outShape = out.map dim ∧
      plan.strides.length = plan.iterShape.length ∧ plan.iterShape.Perm ((out ++ rest).map dim) := by
  obtain ⟨ts, rfl, rfl, hd'⟩ := forall2_terms hd
  obtain ⟨I, hI, e⟩ := prepareEinsum_ok (planHyp hw hd' (by simpa using hargs)
    (fun t ht => hdims _ (List.mem_map.2 ⟨t, ht, rfl⟩)) htot)
  have e1 : (ts.map Term.sub).map (·.1) = ts.map (·.1) := by simp [Term.sub, Function.comp_def]
  have e2 : (ts.map Term.sub).map (·.2) = (ts.map (·.2)).map (·.letters) := by simp [Term.sub, Function.comp_def]
  rw [e1, e2] at e
  refine ⟨_, e, ?_, by simp, ?_⟩
  · simp [codes, Function.comp_def]
  · have := hI.map fun l => dim (Char.ofNat l)
    refine this.trans (List.Perm.of_eq ?_)
    simp [codes, Function.comp_def]

theorem einsteinSum_empty [Mul α] [One α] [Add α] [Zero α] {out rest : List Char} {dim : Char → Nat} {fs : List (Factor α)} {o : List Nat}
    (h : 0 ∈ (out ++ rest).map dim) (ho : InB o (out.map dim)) : einsteinSum out rest dim fs o = 0 := by
  rw [List.map_append, List.mem_append] at h
  rcases h with h | h
  · have := numel_eq_zero.2 h
    have h2 := rank_lt ho
    omega
  · have : indices (rest.map dim) = [] := List.length_eq_zero_iff.1 (by rw [length_indices, numel_eq_zero.2 h])
    rw [einsteinSum, this]
    rfl

end Verif
