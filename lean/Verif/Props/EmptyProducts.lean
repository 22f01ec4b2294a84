import Verif.Lemmas.EinsumEmpty
import Verif.Props.Empty

/-!
# C28, C30, C31, C54: products with axes of extent 0

`C28_einsum_partial` and its companions leave out axes of extent 0 and requests without letters. The theorems here
say what happens then: einsum gives the right result or has undefined behaviour (`C28_empty`), never a wrong
result, and `C28_empty_ub` and `C28_empty_ok` say which; without letters it panics (`C28_letterless`).
`matmul` and `bmm` of matrices with an extent 0 never return (`C30_empty`, `C31_empty`).
-/

namespace Verif

variable {α : Type}

/-! ## C28 -/

section
variable [CommSemiring α] {K : SopKernels α} {ops : List (Arr α)} {fs : List (Factor α)} {out rest : List Char}
  {dim : Char → Nat} (hw : Subscripts fs out rest)
  (hd : List.Forall₂ (fun a f => a.Denotes (f.letters.map dim) f.elem) ops fs) (hargs : ops.length < 16)
  (hdims : ∀ f ∈ fs, f.letters.length ≤ 32) (htot : (out ++ rest).length ≤ 32)
include hw hd hargs hdims htot

/-- **C28, undefined behaviour.** With one or two operands and two or three letters in all, any axis of extent 0
makes einsum run into `assert_unchecked(false)`. So it does with a single letter. -/
theorem C28_empty_ub (h0 : ∃ c ∈ out ++ rest, dim c = 0)
    (hn : (ops.length = 1 ∨ ops.length = 2) ∧ ((out ++ rest).length = 2 ∨ (out ++ rest).length = 3) ∨
      (out ++ rest).length = 1) :
    einsum K ops (fs.map (·.letters)) out = .error .ub := by
  obtain ⟨plan, e, es, hl, hp⟩ := prepareEinsum_subscripts hw hd hargs hdims htot
  have hlen : plan.iterShape.length = (out ++ rest).length := by rw [hp.length_eq, List.length_map]
  have hz : 0 ∈ plan.iterShape := by
    obtain ⟨c, hc, e0⟩ := h0
    exact hp.mem_iff.2 (List.mem_map.2 ⟨c, hc, e0⟩)
  unfold einsum
  rw [e]
  simp only [ok_bind]
  rcases hn with ⟨h1, h2⟩ | h1
  · rw [einsumRun_ub hl (by simpa [srcs] using h1) (by omega) hz]
    rfl
  · rw [einsumRun_unspecialized (by omega)]
    match ei : plan.iterShape with
    | [] => rw [ei] at hz; cases hz
    | [n] =>
      obtain rfl : n = 0 := by rw [ei] at hz; exact (List.mem_singleton.1 hz).symm
      rw [einsumUnspecialized_ub hl (by simpa [srcs, maxArgs] using hargs) (by simp [ei, maxDims]) (by simp [ei]) (by simp [ei])]
      rfl
    | _ :: _ :: _ => rw [ei] at hlen; simp at hlen; simp at h1; omega

/-- `"ij->i"` of a 2x0 matrix -/
example : einsum portableSop [Arr.fromContiguousOwnedBuffer [2, 0] ([] : List Int)] [['i', 'j']] ['i'] = .error .ub :=
  C28_empty_ub (fs := [⟨['i', 'j'], fun _ => 1⟩]) (out := ['i']) (rest := ['j']) (dim := fun c => if c = 'i' then 2 else 0)
    ⟨by decide, by decide, by decide, fun c => by
      simp only [List.mem_cons, List.not_mem_nil, or_false, exists_eq_left]
      exact ⟨fun h => by subst h; decide, fun ⟨h, h'⟩ => by tauto⟩⟩
    (.cons (denotes_of_zero rfl (by simp [Arr.fromContiguousOwnedBuffer]) _) .nil) (by decide) (by decide) (by decide)
    ⟨'j', by decide, rfl⟩ (.inl (by decide))

omit hw hd hargs hdims htot in
/-- what einsum returns when it does nothing: the right result -/
theorem einsum_skip {plan : EinsumPlan} (h0 : ∃ c ∈ out ++ rest, dim c = 0)
    (es : plan.outShape = out.map dim) (e : prepareEinsum ops (fs.map (·.letters)) out = .ok plan)
    (hr : einsumRun K (srcs ops) plan (List.replicate (numel plan.outShape) 0) 0 =
      .ok (List.replicate (numel plan.outShape) 0)) :
    ∃ r, einsum K ops (fs.map (·.letters)) out = .ok r ∧ r.Denotes (out.map dim) (einsteinSum out rest dim fs) := by
  have hz : 0 ∈ (out ++ rest).map dim := by
    obtain ⟨c, hc, e0⟩ := h0
    exact List.mem_map.2 ⟨c, hc, e0⟩
  have hel : List.replicate (numel plan.outShape) 0 = elements (out.map dim) (einsteinSum out rest dim fs) := by
    symm
    rw [List.eq_replicate_iff]
    refine ⟨by rw [length_elements, es], fun x hx => ?_⟩
    obtain ⟨o, ho, rfl⟩ := List.mem_map.1 hx
    exact einsteinSum_empty hz (mem_indices.1 ho)
  unfold einsum
  rw [e]
  simp only [ok_bind]
  rw [hr]
  refine ⟨_, rfl, ?_⟩
  rw [hel, es]
  exact denotes_fromContiguous

/-- **C28, axes of extent 0.** If a letter stands for an axis of extent 0, then einsum returns the Einstein sum
(an empty array, or zeros) or has undefined behaviour; it never returns anything else. -/
theorem C28_empty (h0 : ∃ c ∈ out ++ rest, dim c = 0) :
    einsum K ops (fs.map (·.letters)) out = .error .ub ∨
    ∃ r, einsum K ops (fs.map (·.letters)) out = .ok r ∧ r.Denotes (out.map dim) (einsteinSum out rest dim fs) := by
  by_cases hn : (ops.length = 1 ∨ ops.length = 2) ∧ ((out ++ rest).length = 2 ∨ (out ++ rest).length = 3)
  · exact .inl (C28_empty_ub hw hd hargs hdims htot h0 (.inl hn))
  obtain ⟨plan, e, es, hl, hp⟩ := prepareEinsum_subscripts hw hd hargs hdims htot
  have hlen : plan.iterShape.length = (out ++ rest).length := by rw [hp.length_eq, List.length_map]
  have hz : 0 ∈ plan.iterShape := by
    obtain ⟨c, hc, e0⟩ := h0
    exact hp.mem_iff.2 (List.mem_map.2 ⟨c, hc, e0⟩)
  have hrun := fun dst => einsumRun_unspecialized (K := K) (ops := srcs ops) (plan := plan) (dst := dst) (q := 0)
    (by rw [hlen]; simpa [srcs] using hn)
  by_cases ht : 0 ∈ plan.iterShape.tail
  · refine .inr (einsum_skip h0 es e ?_)
    rw [hrun, einsumUnspecialized_skip hl (by simpa [srcs, maxArgs] using hargs) (by rw [hlen]; exact htot) ht]
  · left
    unfold einsum
    rw [e]
    simp only [ok_bind]
    rw [hrun, einsumUnspecialized_ub hl (by simpa [srcs, maxArgs] using hargs) (by rw [hlen]; exact htot) ?_ ht]
    · rfl
    · match ei : plan.iterShape with
      | [] => rw [ei] at hz; cases hz
      | n :: _ =>
        rw [ei] at hz ht
        rcases List.mem_cons.1 hz with h | h
        · rw [h]; rfl
        · exact (ht h).elim

example : einsum portableSop [Arr.fromContiguousOwnedBuffer [2, 0] ([] : List Int)] [['i', 'j']] ['i'] = .error .ub ∨
    ∃ r, einsum portableSop [Arr.fromContiguousOwnedBuffer [2, 0] ([] : List Int)] [['i', 'j']] ['i'] = .ok r ∧
      r.Denotes [2] (einsteinSum ['i'] ['j'] (fun c => if c = 'i' then 2 else 0) [⟨['i', 'j'], fun _ => 1⟩]) :=
  C28_empty (fs := [⟨['i', 'j'], fun _ => 1⟩]) (out := ['i']) (rest := ['j']) (dim := fun c => if c = 'i' then 2 else 0)
    ⟨by decide, by decide, by decide, fun c => by
      simp only [List.mem_cons, List.not_mem_nil, or_false, exists_eq_left]
      exact ⟨fun h => by subst h; decide, fun ⟨h, h'⟩ => by tauto⟩⟩
    (.cons (denotes_of_zero rfl (by simp [Arr.fromContiguousOwnedBuffer]) _) .nil) (by decide) (by decide) (by decide)
    ⟨'j', by decide, rfl⟩

/-- **C28, the empty sums that work.** With three or more operands, or four or more letters, einsum returns the
Einstein sum whenever two letters stand for axes of extent 0. -/
theorem C28_empty_ok {c d : Char} (hc : c ∈ out ++ rest) (hd' : d ∈ out ++ rest) (hcd : c ≠ d) (hc0 : dim c = 0)
    (hd0 : dim d = 0) (hn : 2 < ops.length ∨ 3 < (out ++ rest).length) :
    ∃ r, einsum K ops (fs.map (·.letters)) out = .ok r ∧ r.Denotes (out.map dim) (einsteinSum out rest dim fs) := by
  obtain ⟨plan, e, es, hl, hp⟩ := prepareEinsum_subscripts hw hd hargs hdims htot
  have hlen : plan.iterShape.length = (out ++ rest).length := by rw [hp.length_eq, List.length_map]
  refine einsum_skip ⟨c, hc, hc0⟩ es e ?_
  rw [einsumRun_unspecialized (by rw [hlen]; simp only [srcs, List.length_map]; omega),
    einsumUnspecialized_skip hl (by simpa [srcs, maxArgs] using hargs) (by rw [hlen]; exact htot)]
  have hcount : 2 ≤ plan.iterShape.count 0 := by
    rw [hp.count_eq, List.count_eq_countP, List.countP_map, List.countP_eq_length_filter]
    have hsub : [c, d].Subperm ((out ++ rest).filter ((fun x => x == 0) ∘ dim)) := by
      refine List.subperm_of_subset (by simp [hcd]) ?_
      intro x hx
      simp only [List.mem_cons, List.not_mem_nil, or_false] at hx
      rcases hx with rfl | rfl
      · exact List.mem_filter.2 ⟨hc, by simp [hc0]⟩
      · exact List.mem_filter.2 ⟨hd', by simp [hd0]⟩
    exact hsub.length_le
  match ei : plan.iterShape with
  | [] => rw [ei] at hcount; simp at hcount
  | n :: t =>
    rw [ei, List.count_cons] at hcount
    refine List.count_pos_iff.1 ?_
    show 0 < t.count 0
    split at hcount <;> omega

end

/-- The hypotheses of the four theorems can be met: `"ij,jk,kl->il"` with `j` and `k` of extent 0. -/
example : ∃ (ops : List (Arr Int)) (fs : List (Factor Int)) (dim : Char → Nat), Subscripts fs ['i', 'l'] ['j', 'k'] ∧
    List.Forall₂ (fun a f => a.Denotes (f.letters.map dim) f.elem) ops fs ∧ dim 'j' = 0 ∧ dim 'k' = 0 ∧ ops.length = 3 ∧
    (einsum portableSop ops (fs.map (·.letters)) ['i', 'l']).map (fun r => (r.shape, r.buf)) =
      .ok ([2, 3], [0, 0, 0, 0, 0, 0]) := by
  refine ⟨[Arr.fromContiguousOwnedBuffer [2, 0] [], Arr.fromContiguousOwnedBuffer [0, 0] [],
      Arr.fromContiguousOwnedBuffer [0, 3] []],
    [⟨['i', 'j'], fun _ => 1⟩, ⟨['j', 'k'], fun _ => 1⟩, ⟨['k', 'l'], fun _ => 1⟩],
    fun c => if c = 'i' then 2 else if c = 'l' then 3 else 0, ⟨?_, ?_, ?_, ?_⟩, ?_, rfl, rfl, rfl, ?_⟩
  · decide
  · decide
  · decide
  · intro c
    simp only [List.mem_cons, List.not_mem_nil, or_false, exists_eq_or_imp, exists_eq_left]
    constructor
    · rintro (rfl | rfl) <;> decide
    · rintro ⟨h, h2⟩
      tauto
  · exact .cons (denotes_of_zero rfl (by simp [Arr.fromContiguousOwnedBuffer]) _) (.cons (denotes_of_zero rfl
      (by simp [Arr.fromContiguousOwnedBuffer]) _) (.cons (denotes_of_zero rfl (by simp [Arr.fromContiguousOwnedBuffer]) _) .nil))
  · decide +kernel

/-- One empty letter among four: the outcome depends on the order of the loops. Here the empty axis is an outer
loop and the result is right, or the innermost one and the behaviour is undefined. -/
example : (einsum portableSop [Arr.fromContiguousOwnedBuffer [0, 1, 1, 2] ([] : List Int)] [['a', 'b', 'c', 'd']] ['d']).map (·.buf) =
      .ok [0, 0] ∧
    einsum portableSop [Arr.fromContiguousOwnedBuffer [2, 1, 1, 0] ([] : List Int)] [['a', 'b', 'c', 'd']] ['d'] = .error .ub ∧
    einsum portableSop [Arr.fromContiguousOwnedBuffer [0] ([] : List Int)] [['a']] [] = .error .ub := by decide +kernel

/-- **C28, requests without letters.** The product of any number of scalars is refused: the code asks for the strides
of the innermost letter, and there is none. -/
theorem C28_letterless [CommSemiring α] {K : SopKernels α} {ops : List (Arr α)}
    (h : ∀ a ∈ ops, ∃ v, a.Denotes [] (fun _ => v)) : einsum K ops (ops.map fun _ => []) [] = .error .panic := by
  by_cases hargs : ops.length < 16
  swap
  · unfold einsum prepareEinsum
    rw [assert_fail (decide_eq_false (p := ops.length < maxArgs) hargs)]
    rfl
  have hd : List.Forall₂ (fun a f => Arr.Denotes a (f.letters.map fun _ => 1) f.elem) ops
      (ops.map fun a => (⟨[], fun _ => a.buf[a.off]?.getD 0⟩ : Factor α)) := by
    rw [List.forall₂_map_right_iff]
    refine List.forall₂_same.2 fun a ha => ?_
    obtain ⟨v, hv⟩ := h a ha
    have e := hv.2.2 [] trivial
    refine ⟨hv.1, hv.2.1, fun idx hi => ?_⟩
    match idx, hi with
    | [], _ =>
      rw [e]
      have : a.buf[a.off]? = some v := by simpa [offset] using e
      simp [this]
  obtain ⟨plan, e, es, hl, hp⟩ := prepareEinsum_subscripts (out := []) (rest := []) (dim := fun _ => 1)
    ⟨by simp, by simp, by simp, by simp⟩ hd hargs (by simp) (by simp)
  have ei : plan.iterShape = [] := List.length_eq_zero_iff.1 (by rw [hp.length_eq]; rfl)
  unfold einsum
  rw [List.map_map] at e
  rw [show (ops.map fun _ => []) = ops.map ((fun f : Factor α => f.letters) ∘ fun a => ⟨[], fun _ => a.buf[a.off]?.getD 0⟩)
    from rfl, e]
  simp only [ok_bind]
  rw [einsumRun_unspecialized (by simp [ei])]
  simp only [einsumUnspecialized, ei]
  rfl

example : ∃ a : Arr Int, a.Denotes [] (fun _ => 5) := ⟨Arr.fromContiguousOwnedBuffer [] [5], rfl, rfl, fun idx hi => by
  match idx, hi with
  | [], _ => rfl⟩

/-! ## C30 -/

theorem zeros_empty [Zero α] {s : List Nat} (h : 0 ∈ s) : (Arr.zeros s : Res (Arr α)) = .error .panic := by
  show (assert _ >>= fun _ => _) = _
  rw [numel_eq_zero.2 h, assert_fail (by simp)]
  rfl

/-- **C30, extents 0.** The product of an `m × k` and a `k × n` matrix, in any layout: if it has no entries, `matmul`
panics; if it has entries and `k = 0`, `matmul` has undefined behaviour (the result should be zeros). -/
theorem C30_empty [CommSemiring α] {K : SopKernels α} {a b : Arr α} {m k n : Nat} {f g : List Nat → α}
    (ha : a.Denotes [m, k] f) (hb : b.Denotes [k, n] g) :
    (m = 0 ∨ n = 0 → a.matmul K b = .error .panic) ∧ (0 < m → 0 < n → k = 0 → a.matmul K b = .error .ub) := by
  constructor
  · intro h
    simp only [Arr.matmul, ha.1, hb.1]
    rw [assert_ok (by simp), zeros_empty (by rcases h with rfl | rfl <;> simp)]
    rfl
  · rintro hm hn rfl
    have hpos : 0 < m * n := Nat.mul_pos hm hn
    have hz : (Arr.zeros [m, n] : Res (Arr α)) = .ok (Arr.fromContiguousOwnedBuffer [m, n] (List.replicate (m * n) 0)) := by
      show (assert _ >>= fun _ => _) = _
      rw [assert_ok (by simp; omega)]
      simp
    have hw := (wellFormed_matmul hm Nat.one_pos hn f g).subscripts
    obtain ⟨plan, e, es, hl, hp⟩ := prepareEinsum_subscripts (ops := [a, b])
      (dim := fun c => if c = 'i' then m else if c = 'j' then 0 else n) hw
      (.cons (by simpa using ha) (.cons (by simpa using hb) .nil)) (by simp [maxArgs]) (by simp [maxDims]) (by simp [maxDims])
    have eo : (['i', 'k'].map fun c => if c = 'i' then m else if c = 'j' then 0 else n) = [m, n] := by simp
    rw [eo] at es
    have hu : hasUniformStride [m, n] [n, 1] = some 1 := by simp [hasUniformStride]
    have hst : strideFromShape [m, n] = [n, 1] := by simp
    have hoff : offsets [m, n] [n, 1] = List.range (m * n) := by
      rw [← hst, offsets_strideFromShape]; simp
    have hfill : fillPtr [m, n] [n, 1] (numel [m, n]) 0 (List.replicate (m * n) (0 : α)) 0 =
        .ok (setAll (List.replicate (m * n) 0) ((List.range (m * n)).map (0 + ·)) 0) := by
      rw [fillPtr_ok (s := [m, n]) (st := [n, 1]) rfl (by rw [← hst]; exact posStride_strideFromShape _) (fun _ => rfl), hoff]
      rw [hoff]
      intro o ho
      have := List.mem_range.1 ho
      simpa using this
    have hrun : ∀ dst, einsumRun K (srcs [a, b]) plan dst 0 = .error .ub := fun dst =>
      einsumRun_ub hl (.inr rfl) (.inr (by rw [hp.length_eq]; rfl)) (hp.mem_iff.2 (by simp))
    have hmm : matrixMatrixProduct K a b [n, 1] (List.replicate (m * n) 0) 0 = .error .ub := by
      show einsumIntoPtr _ _ _ _ _ _ _ = _
      unfold einsumIntoPtr
      rw [show prepareEinsum [a, b] [['i', 'j'], ['j', 'k']] ['i', 'k'] = .ok plan from e]
      simp only [bind, Except.bind, es, hu, hfill]
      exact hrun _
    simp only [Arr.matmul, ha.1, hb.1]
    rw [assert_ok (by simp), hz]
    show (matrixMatrixProduct K a b (strideFromShape [m, n]) (List.replicate (m * n) 0) 0 >>= fun data => _) = _
    rw [hst, hmm]
    rfl

example (l r : List Nat → Int) : (Arr.fromContiguousOwnedBuffer [2, 0] ([] : List Int)).Denotes [2, 0] l ∧
    (Arr.fromContiguousOwnedBuffer [0, 3] ([] : List Int)).Denotes [0, 3] r :=
  ⟨denotes_of_zero rfl (by simp [Arr.fromContiguousOwnedBuffer]) l, denotes_of_zero rfl (by simp [Arr.fromContiguousOwnedBuffer]) r⟩

/-! ## C31 -/

/-- **C31, extents 0.** The batched product of a `B × m × k` and a `B × k × n` array, in any layout: if it has no
entries, `bmm` panics; if it has entries and `k = 0`, a length computation underflows (the result should be zeros). -/
theorem C31_empty [CommSemiring α] {K : SopKernels α} {a b : Arr α} {B m k n : Nat} {f g : List Nat → α}
    (ha : a.Denotes [B, m, k] f) (hb : b.Denotes [B, k, n] g) :
    (B = 0 ∨ m = 0 ∨ n = 0 → a.bmm K b = .error .panic) ∧
    (0 < B → 0 < m → 0 < n → k = 0 → a.bmm K b = .error .overflow) := by
  have hB : a.lenMethod = B := by simp [Arr.lenMethod, ha.1]
  have hun : a.bmm K b = ((Arr.zeros [B, m, n] : Res (Arr α)) >>= fun r => do
      let data ← batchMatrixMatrixProduct K a b r.stride r.buf r.off
      return { r with buf := data }) := by
    unfold Arr.bmm
    rw [assert_ok (by simp [Arr.ndims, ha.1]), assert_ok (by simp [Arr.ndims, hb.1]),
      assert_ok (by simp [Arr.lenMethod, ha.1, hb.1]), hB, ha.1, hb.1]
    rfl
  rw [hun]
  constructor
  · intro h
    rw [zeros_empty (by rcases h with rfl | rfl | rfl <;> simp)]
    rfl
  · rintro hB hm hn rfl
    obtain ⟨z, hz, hsh, hst, hbuf, hoff⟩ := zeros3 (α := α) hB hm hn
    obtain ⟨d0, d1, d2, hd⟩ := List.length_eq_three.1 (ha.2.1 : a.stride.length = 3)
    have hs : a.sliceAlong 0 (.at 0) = .error .overflow := by
      have hk' : asAbsolute 0 a.ndims = .ok 0 := asAbsolute_ok (k := 0) ⟨by simp [Arr.ndims, ha.1], .inl rfl⟩
      unfold Arr.sliceAlong
      rw [hk', ha.1, hd]
      show a.sliceResult [m, 0] [d1, d2] (d0 * 0) true = _
      unfold Arr.sliceResult
      rw [bufferLength_of_zero (s := [m, 0]) (st := [d1, d2]) rfl (by simp)]
      rfl
    rw [hz]
    simp only [ok_bind]
    unfold batchMatrixMatrixProduct
    rw [hs]
    rfl

example : (Arr.fromContiguousOwnedBuffer [2, 1, 0] ([] : List Int)).bmm portableSop (Arr.fromContiguousOwnedBuffer [2, 0, 3] []) =
    .error .overflow :=
  (C31_empty (B := 2) (m := 1) (k := 0) (n := 3) (f := fun _ => 0) (g := fun _ => 0)
    (denotes_of_zero rfl (by simp [Arr.fromContiguousOwnedBuffer]) _)
    (denotes_of_zero rfl (by simp [Arr.fromContiguousOwnedBuffer]) _)).2 (by decide) (by decide) (by decide) rfl

end Verif
