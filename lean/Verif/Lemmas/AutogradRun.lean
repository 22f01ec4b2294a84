import Verif.Lemmas.AutogradView

/-! # Programs: the tensors of a run and their derivatives -/

namespace Verif

variable {α : Type} [Field α] [Build]

omit [Build] in
theorem isJoint_jointShape (s t : List Nat) : IsJoint s t (jointShape s t) := by
  refine ⟨by simp [jointShape], fun k => ?_⟩
  by_cases hk : k < max s.length t.length
  · conv_lhs => unfold extentFromRight jointShape
    rw [List.reverse_reverse, List.getD_eq_getElem?_getD, List.getElem?_map, List.getElem?_range hk]
    rfl
  · rw [extentFromRight_ge (by simpa [jointShape] using hk), extentFromRight_ge (l := s) (by omega),
      extentFromRight_ge (l := t) (by omega)]
    rfl

/-- The tensor `t` of a run and the dual-number tensors that the specification gives for it. -/
def TOK (sh : List (List Nat)) (t : Tensor α) (m : (Nat → List Nat → α) → MT (Dual α) × Bool) : Prop :=
  ∃ F E, t.arr.WF ∧ t.arr.Denotes t.arr.shape F ∧ t.gradFn.isNone = !t.requiresGrad ∧ Diff sh t.gradFn t.arr.shape E ∧
    ∀ v, (m v).2 = t.requiresGrad ∧ (m v).1.shape = t.arr.shape ∧
      ∀ idx, InB idx t.arr.shape → (m v).1.elem idx = ⟨F idx, E v idx⟩

/-- Shapes to which the theorems apply: no extent 0, and rank at most 32 (`MAX_DIMS`). -/
def SmallShape (s : List Nat) : Prop := 0 ∉ s ∧ s.length ≤ 32

theorem tok_mk {sh : List (List Nat)} {r : Arr α} {s : List Nat} {F : List Nat → α} {E : (Nat → List Nat → α) → List Nat → α}
    {node : GradFn α} {req : Bool} {m : (Nat → List Nat → α) → MT (Dual α) × Bool}
    (hw : r.WF) (hd : r.Denotes s F) (hn : Diff sh node s E) (h1 : req = true → node.isNone = false)
    (h2 : req = false → ∀ v i, InB i s → E v i = 0)
    (hm : ∀ v, (m v).2 = req ∧ (m v).1.shape = s ∧ ∀ idx, InB idx s → (m v).1.elem idx = ⟨F idx, E v idx⟩) :
    TOK sh (Tensor.mk' r req node) m := by
  have hs := hd.1
  subst hs
  refine ⟨F, E, hw, hd, ?_, ?_, hm⟩
  · cases req with
    | true => simpa [Tensor.mk'] using h1 rfl
    | false => rfl
  · cases req with
    | true => exact hn
    | false => exact diff_none sh _ (h2 rfl)

omit [Build] in
theorem isNone_of {t : Tensor α} (h : t.gradFn.isNone = !t.requiresGrad) (hr : t.requiresGrad = false) : t.gradFn.isNone = true := by
  rw [h, hr]; rfl

theorem tok_neg {sh : List (List Nat)} {t r : Tensor α} {m : (Nat → List Nat → α) → MT (Dual α) × Bool} (h : TOK sh t m)
    (hd : SmallShape t.arr.shape) (hr : t.neg = .ok r) : TOK sh r (fun v => ((m v).1.map (- ·), (m v).2)) := by
  obtain ⟨F, E, hw, ha, hn, hdf, hm⟩ := h
  obtain ⟨a, e1, w, d⟩ := gives_neg ha hd.2 hd.1
  unfold Tensor.neg at hr
  rw [e1] at hr
  cases hr
  refine tok_mk w.wf d (diff_neg hdf hd.2 hd.1) (fun _ => rfl) (fun hq v i hi => ?_) fun v => ?_
  · rw [hdf.zero (isNone_of hn hq) v i hi, neg_zero]
  · obtain ⟨k1, k2, k3⟩ := hm v
    refine ⟨k1, k2, fun idx hi => ?_⟩
    show - (m v).1.elem idx = _
    rw [k3 idx hi]; rfl

theorem tok_bin {sh : List (List Nat)} {a b r : Tensor α} {ma mb : (Nat → List Nat → α) → MT (Dual α) × Bool} (op : SOp)
    (h : TOK sh a ma) (h' : TOK sh b mb) (hr : Tensor.bin op a b = .ok r) (hd : SmallShape r.arr.shape) :
    TOK sh r (fun v => ((ma v).1.zip op.run (mb v).1, (ma v).2 || (mb v).2)) := by
  obtain ⟨F, E, hw, ha, hn, hdf, hm⟩ := h
  obtain ⟨F', E', hw', ha', hn', hdf', hm'⟩ := h'
  by_cases hc : Compatible a.arr.shape b.arr.shape
  swap
  · unfold Tensor.bin SOp.arr at hr
    rw [C05_incompatible _ _ _ hc] at hr
    cases hr
  have hj := isJoint_jointShape a.arr.shape b.arr.shape
  obtain ⟨hs, ht⟩ := IsJoint.broadcastsTo hc hj
  have hbin := hr
  unfold Tensor.bin at hbin
  obtain ⟨r', hr', hbin⟩ := bind_eq_ok.1 hbin
  have hshape : r'.shape = jointShape a.arr.shape b.arr.shape := by
    obtain ⟨q, hq, hq'⟩ := bind_eq_ok.1 hr'
    obtain ⟨j, hj1, hj2⟩ := (broadcastShapes_spec a.arr.shape b.arr.shape).1 hc
    rw [hj1] at hq; cases hq
    rw [← hj2.unique hj]
    obtain ⟨_, _, hq'⟩ := bind_eq_ok.1 hq'
    obtain ⟨_, _, hq'⟩ := bind_eq_ok.1 hq'
    obtain ⟨_, _, hq'⟩ := bind_eq_ok.1 hq'
    obtain ⟨_, _, hq'⟩ := bind_eq_ok.1 hq'
    cases hq'
    rfl
  cases hbin
  have hd' : SmallShape (jointShape a.arr.shape b.arr.shape) := by rw [← hshape]; exact hd
  obtain ⟨q, e1, w, d⟩ := gives_bin op ha ha' hc hj hd'.2 hd'.1
  rw [e1] at hr'
  cases hr'
  have hnode : Diff sh (op.node a b) (jointShape a.arr.shape b.arr.shape) (fun v i =>
      (op.run (⟨F (broadcastIndex a.arr.shape i), E v (broadcastIndex a.arr.shape i)⟩ : Dual α)
        ⟨F' (broadcastIndex b.arr.shape i), E' v (broadcastIndex b.arr.shape i)⟩).eps) := by
    cases op with
    | add => exact diff_add hdf hdf' hs ht hd'.1 hd'.2
    | sub => exact diff_sub hdf hdf' hs ht hd'.1 hd'.2
    | mul => exact diff_mul hdf hdf' ha ha' hs ht hd'.1 hd'.2
    | div => exact diff_div hdf hdf' ha ha' hs ht hd'.1 hd'.2
  refine tok_mk w.wf d hnode (fun _ => by cases op <;> rfl) (fun hq v i hi => ?_) fun v => ?_
  · rw [Bool.or_eq_false_iff] at hq
    have z1 := hdf.zero (isNone_of hn hq.1) v _ (InB_broadcastIndex hs hi)
    have z2 := hdf'.zero (isNone_of hn' hq.2) v _ (InB_broadcastIndex ht hi)
    rw [z1, z2]
    cases op
    · show (0 : α) + 0 = 0; simp
    · show (0 : α) - 0 = 0; simp
    · show _ * (0 : α) + 0 * _ = 0; simp
    · show ((0 : α) * _ - _ * 0) / _ = 0; simp
  · obtain ⟨k1, k2, k3⟩ := hm v
    obtain ⟨k1', k2', k3'⟩ := hm' v
    refine ⟨by simp only [k1, k1'], by simp only [MT.zip, k2, k2'], fun idx hi => ?_⟩
    simp only [MT.zip, k2, k2']
    rw [k3 _ (InB_broadcastIndex hs hi), k3' _ (InB_broadcastIndex ht hi)]
    cases op <;> rfl

theorem tok_scal {sh : List (List Nat)} {t r : Tensor α} {m : (Nat → List Nat → α) → MT (Dual α) × Bool} (op : SOp) (c : α)
    (h : TOK sh t m) (hd : SmallShape t.arr.shape) (hr : Tensor.binScalar op t c = .ok r) :
    TOK sh r (fun v => ((m v).1.map fun x => op.run x (⟨c, 0⟩ : Dual α), (m v).2)) := by
  obtain ⟨F, E, hw, ha, hn, hdf, hm⟩ := h
  obtain ⟨a, e1, w, d⟩ := gives_scalar op ha c hd.2 hd.1
  unfold Tensor.binScalar at hr
  rw [e1] at hr
  cases hr
  have hnode : Diff sh (op.nodeScalar t c) t.arr.shape (fun v i => (op.run (⟨F i, E v i⟩ : Dual α) ⟨c, 0⟩).eps) := by
    cases op with
    | add => exact hdf.congr fun v i _ => (add_zero _).symm
    | sub => exact hdf.congr fun v i _ => (sub_zero _).symm
    | mul => exact (diff_mulScalar hdf c hd.2 hd.1).congr fun v i _ => by show _ = F i * 0 + E v i * c; ring
    | div =>
      refine (diff_divScalar hdf c hd.2 hd.1).congr fun v i _ => ?_
      show _ = (E v i * c - F i * 0) / (c * c)
      rw [mul_zero, sub_zero, mul_div_assoc, div_self_mul]; ring
  refine tok_mk w.wf d hnode (fun hq => ?_) (fun hq v i hi => ?_) fun v => ?_
  · cases op
    · show t.gradFn.isNone = _; rw [hn, hq]; rfl
    · show t.gradFn.isNone = _; rw [hn, hq]; rfl
    · rfl
    · rfl
  · rw [hdf.zero (isNone_of hn hq) v i hi]
    cases op
    · show (0 : α) + 0 = 0; simp
    · show (0 : α) - 0 = 0; simp
    · show _ * (0 : α) + 0 * _ = 0; simp
    · show ((0 : α) * _ - _ * 0) / _ = 0; simp
  · obtain ⟨k1, k2, k3⟩ := hm v
    refine ⟨k1, k2, fun idx hi => ?_⟩
    show op.run ((m v).1.elem idx) _ = _
    rw [k3 idx hi]
    cases op <;> rfl

/-! ### products -/

omit [Build] in
theorem dual_sum (l : List Nat) (u : Nat → Dual α) :
    (l.map u).sum = ⟨(l.map fun t => (u t).re).sum, (l.map fun t => (u t).eps).sum⟩ := by
  induction l with
  | nil => rfl
  | cons x l ih => rw [List.map_cons, List.sum_cons, ih]; rfl

omit [Build] in
theorem dual_innerProduct (k : Nat) (u w : Nat → Dual α) :
    innerProduct k u w = ⟨innerProduct k (fun t => (u t).re) (fun t => (w t).re),
      ∑ t ∈ Finset.range k, ((u t).re * (w t).eps + (u t).eps * (w t).re)⟩ := by
  rw [← sum_range_map]
  exact dual_sum _ _

omit [Build] in
theorem innerProduct_congr {β : Type} [Mul β] [Add β] [Zero β] {k : Nat} {u u' w w' : Nat → β} (hu : ∀ t, t < k → u t = u' t)
    (hw : ∀ t, t < k → w t = w' t) : innerProduct k u w = innerProduct k u' w' := by
  unfold innerProduct
  congr 1
  exact List.map_congr_left fun t ht => by rw [hu t (List.mem_range.1 ht), hw t (List.mem_range.1 ht)]

theorem tok_dot {sh : List (List Nat)} {a b r : Tensor α} {ma mb : (Nat → List Nat → α) → MT (Dual α) × Bool}
    (h : TOK sh a ma) (h' : TOK sh b mb) (hs : SmallShape a.arr.shape) (hr : a.dot b = .ok r) :
    TOK sh r (fun v => ((ma v).1.dot (mb v).1, (ma v).2 || (mb v).2)) := by
  obtain ⟨F, E, hw, ha, hn, hdf, hm⟩ := h
  obtain ⟨F', E', hw', ha', hn', hdf', hm'⟩ := h'
  unfold Tensor.dot at hr
  obtain ⟨k, hk, hk'⟩ : ∃ k, a.arr.shape = [k] ∧ b.arr.shape = [k] := by
    by_contra hc
    rw [C32_dot_rejects] at hr
    · cases hr
    · by_contra hcc
      simp only [not_or, not_not] at hcc
      obtain ⟨k, hk⟩ := List.length_eq_one_iff.1 hcc.1
      exact hc ⟨k, hk, by rw [← hcc.2.2, hk]⟩
  have h0 : 0 < k := Nat.pos_of_ne_zero fun h => hs.1 (by rw [hk, h]; simp)
  rw [hk] at ha hdf hm
  rw [hk'] at ha' hdf' hm'
  obtain ⟨q, e1, w, d⟩ := gives_dot ha ha'
  rw [e1] at hr
  cases hr
  refine tok_mk w.wf d (diff_dot hdf hdf' ha ha' h0) (fun _ => rfl) (fun hq v i hi => ?_) fun v => ?_
  · rw [Bool.or_eq_false_iff] at hq
    refine Finset.sum_eq_zero fun t ht => ?_
    have ht : InB [t] [k] := ⟨Finset.mem_range.1 ht, trivial⟩
    rw [hdf.zero (isNone_of hn hq.1) v _ ht, hdf'.zero (isNone_of hn' hq.2) v _ ht]; simp
  · obtain ⟨k1, k2, k3⟩ := hm v
    obtain ⟨k1', k2', k3'⟩ := hm' v
    refine ⟨by simp only [k1, k1'], rfl, fun idx hi => ?_⟩
    simp only [MT.dot, k2, List.headD_cons]
    rw [innerProduct_congr (fun t ht => k3 [t] ⟨ht, trivial⟩) (fun t ht => k3' [t] ⟨ht, trivial⟩), dual_innerProduct]

theorem tok_matmul {sh : List (List Nat)} {a b r : Tensor α} {ma mb : (Nat → List Nat → α) → MT (Dual α) × Bool}
    (h : TOK sh a ma) (h' : TOK sh b mb) (hs : SmallShape a.arr.shape) (hs' : SmallShape b.arr.shape) (hr : a.matmul b = .ok r) :
    TOK sh r (fun v => ((ma v).1.matmul (mb v).1, (ma v).2 || (mb v).2)) := by
  unfold Tensor.matmul at hr
  by_cases h11 : a.arr.ndims = 1 ∧ b.arr.ndims = 1
  · rw [if_pos h11] at hr
    have hdot := tok_dot h h' hs hr
    obtain ⟨_, _, _, _, _, _, hm⟩ := h
    obtain ⟨_, _, _, _, _, _, hm'⟩ := h'
    obtain ⟨n, hn⟩ := List.length_eq_one_iff.1 h11.1
    obtain ⟨n', hn'⟩ := List.length_eq_one_iff.1 h11.2
    have : (fun v => ((ma v).1.matmul (mb v).1, (ma v).2 || (mb v).2)) =
        (fun v => ((ma v).1.dot (mb v).1, (ma v).2 || (mb v).2)) := by
      funext v
      have e1 := (hm v).2.1
      have e2 := (hm' v).2.1
      rw [hn] at e1
      rw [hn'] at e2
      simp only [MT.matmul, e1, e2]
    rw [this]
    exact hdot
  rw [if_neg h11] at hr
  obtain ⟨F, E, hw, ha, hn, hdf, hm⟩ := h
  obtain ⟨F', E', hw', ha', hn', hdf', hm'⟩ := h'
  have hrej : ((a.arr.shape.length = 2 ∧ b.arr.shape.length = 1) ∨ (a.arr.shape.length = 2 ∧ b.arr.shape.length = 2)) ∧
      a.arr.shape.getLast? = b.arr.shape.head? := by
    by_contra hc
    rw [C30_matmul_rejects] at hr
    · cases hr
    · unfold Arr.ndims at h11
      tauto
  match hka : a.arr.shape, hkb : b.arr.shape, hrej with
  | [m, k], [k'], hrej =>
    obtain rfl : k = k' := by
      have := hrej.2
      simpa using this
    rw [hka] at ha hdf hm
    rw [hkb] at ha' hdf' hm'
    obtain ⟨q, e1, w, d⟩ := gives_matvec ha ha'
    rw [e1] at hr
    have c1 : a.arr.ndims = 2 ∧ b.arr.ndims = 1 := by unfold Arr.ndims; rw [hka, hkb]; exact ⟨rfl, rfl⟩
    have hr : (.ok (Tensor.mk' q (a.requiresGrad || b.requiresGrad) (.matVec a.gradFn b.gradFn a.arr b.arr)) : Res (Tensor α)) = .ok r := by
      rw [← hr, ok_bind, if_pos c1]; rfl
    cases hr
    refine tok_mk w.wf d (diff_matVec hdf hdf' hw ha ha' (Nat.pos_of_ne_zero fun h => hs.1 (by rw [hka, h]; simp))
      (Nat.pos_of_ne_zero fun h => hs.1 (by rw [hka, h]; simp))) (fun _ => rfl) (fun hq v i hi => ?_) fun v => ?_
    · rw [Bool.or_eq_false_iff] at hq
      match i, hi with
      | [i], hi =>
        refine Finset.sum_eq_zero fun t ht => ?_
        have ht := Finset.mem_range.1 ht
        simp only [List.getD_cons_zero, List.getD_cons_succ]
        rw [hdf.zero (isNone_of hn hq.1) v [i, t] ⟨hi.1, ht, trivial⟩, hdf'.zero (isNone_of hn' hq.2) v [t] ⟨ht, trivial⟩]; simp
    · obtain ⟨k1, k2, k3⟩ := hm v
      obtain ⟨k1', k2', k3'⟩ := hm' v
      refine ⟨by simp only [k1, k1'], by simp only [MT.matmul, k2, k2'], fun idx hi => ?_⟩
      match idx, hi with
      | [i], hi =>
        simp only [MT.matmul, k2, k2', List.getD_cons_zero]
        rw [innerProduct_congr (fun t ht => k3 [i, t] ⟨hi.1, ht, trivial⟩) (fun t ht => k3' [t] ⟨ht, trivial⟩), dual_innerProduct]
  | [m, k], [k', n], hrej =>
    obtain rfl : k = k' := by
      have := hrej.2
      simpa using this
    rw [hka] at ha hdf hm hs
    rw [hkb] at ha' hdf' hm' hs'
    obtain ⟨hm0, hk0, hn0⟩ : 0 < m ∧ 0 < k ∧ 0 < n := by
      have h1 := hs.1
      have h2 := hs'.1
      simp at h1 h2
      omega
    obtain ⟨q, e1, w, d⟩ := gives_matmul ha ha' hm0 hk0 hn0
    rw [e1] at hr
    have c1 : ¬ (a.arr.ndims = 2 ∧ b.arr.ndims = 1) := fun hh => by have := hh.2; unfold Arr.ndims at this; rw [hkb] at this; simp at this
    have c2 : a.arr.ndims = 2 ∧ b.arr.ndims = 2 := by unfold Arr.ndims; rw [hka, hkb]; exact ⟨rfl, rfl⟩
    have hr : (.ok (Tensor.mk' q (a.requiresGrad || b.requiresGrad) (.matMul a.gradFn b.gradFn a.arr b.arr)) : Res (Tensor α)) = .ok r := by
      rw [← hr, ok_bind, if_neg c1, if_pos c2]; rfl
    cases hr
    refine tok_mk w.wf d (diff_matMul hdf hdf' hw hw' ha ha' hm0 hk0 hn0) (fun _ => rfl) (fun hq v i hi => ?_) fun v => ?_
    · rw [Bool.or_eq_false_iff] at hq
      match i, hi with
      | [i, j], hi =>
        refine Finset.sum_eq_zero fun t ht => ?_
        have ht := Finset.mem_range.1 ht
        simp only [List.getD_cons_zero, List.getD_cons_succ]
        rw [hdf.zero (isNone_of hn hq.1) v [i, t] ⟨hi.1, ht, trivial⟩, hdf'.zero (isNone_of hn' hq.2) v [t, j] ⟨ht, hi.2.1, trivial⟩]; simp
    · obtain ⟨k1, k2, k3⟩ := hm v
      obtain ⟨k1', k2', k3'⟩ := hm' v
      refine ⟨by simp only [k1, k1'], by simp only [MT.matmul, k2, k2'], fun idx hi => ?_⟩
      match idx, hi with
      | [i, j], hi =>
        simp only [MT.matmul, k2, k2', List.getD_cons_zero, List.getD_cons_succ]
        rw [innerProduct_congr (fun t ht => k3 [i, t] ⟨hi.1, ht, trivial⟩) (fun t ht => k3' [t, j] ⟨ht, hi.2.1, trivial⟩), dual_innerProduct]

theorem tok_bmm {sh : List (List Nat)} {a b r : Tensor α} {ma mb : (Nat → List Nat → α) → MT (Dual α) × Bool}
    (h : TOK sh a ma) (h' : TOK sh b mb) (hs : SmallShape a.arr.shape) (hs' : SmallShape b.arr.shape) (hr : a.bmm b = .ok r) :
    TOK sh r (fun v => ((ma v).1.bmm (mb v).1, (ma v).2 || (mb v).2)) := by
  obtain ⟨F, E, hw, ha, hn, hdf, hm⟩ := h
  obtain ⟨F', E', hw', ha', hn', hdf', hm'⟩ := h'
  unfold Tensor.bmm at hr
  have hrej : a.arr.shape.length = 3 ∧ b.arr.shape.length = 3 ∧ a.arr.shape[0]? = b.arr.shape[0]? ∧ a.arr.shape[2]? = b.arr.shape[1]? := by
    by_contra hc
    rw [C31_bmm_rejects hw.valid.1 hw'.valid.1 hs.1 hs'.1] at hr
    · cases hr
    · tauto
  match hka : a.arr.shape, hkb : b.arr.shape, hrej with
  | [B, m, k], [B', k', n], hrej =>
    obtain ⟨rfl, rfl⟩ : B = B' ∧ k = k' := by
      have := hrej.2.2
      simpa using this
    rw [hka] at ha hdf hm hs
    rw [hkb] at ha' hdf' hm' hs'
    obtain ⟨hB0, hm0, hk0, hn0⟩ : 0 < B ∧ 0 < m ∧ 0 < k ∧ 0 < n := by
      have h1 := hs.1
      have h2 := hs'.1
      simp at h1 h2
      omega
    obtain ⟨q, e1, w, d⟩ := gives_bmm ha ha' hB0 hm0 hk0 hn0
    rw [e1] at hr
    cases hr
    refine tok_mk w.wf d (diff_bmm hdf hdf' hw hw' ha ha' hB0 hm0 hk0 hn0) (fun _ => rfl) (fun hq v i hi => ?_) fun v => ?_
    · rw [Bool.or_eq_false_iff] at hq
      match i, hi with
      | [x, i, j], hi =>
        refine Finset.sum_eq_zero fun t ht => ?_
        have ht := Finset.mem_range.1 ht
        simp only [List.getD_cons_zero, List.getD_cons_succ]
        rw [hdf.zero (isNone_of hn hq.1) v [x, i, t] ⟨hi.1, hi.2.1, ht, trivial⟩, hdf'.zero (isNone_of hn' hq.2) v [x, t, j] ⟨hi.1, ht, hi.2.2.1, trivial⟩]; simp
    · obtain ⟨k1, k2, k3⟩ := hm v
      obtain ⟨k1', k2', k3'⟩ := hm' v
      refine ⟨by simp only [k1, k1'], by simp only [MT.bmm, k2, k2']; rfl, fun idx hi => ?_⟩
      match idx, hi with
      | [x, i, j], hi =>
        simp only [MT.bmm, k2, List.getD_cons_zero, List.getD_cons_succ]
        rw [innerProduct_congr (fun t ht => k3 [x, i, t] ⟨hi.1, hi.2.1, ht, trivial⟩)
          (fun t ht => k3' [x, t, j] ⟨hi.1, ht, hi.2.2.1, trivial⟩), dual_innerProduct]

end Verif
