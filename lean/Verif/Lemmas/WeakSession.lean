import Verif.Lemmas.WeakGradient
import Verif.Lemmas.Jacobian

/-!
# Sessions with tensors of any rank, with or without elements

As Lemmas/AutogradRun.lean, AutogradProg.lean, Session.lean and Jacobian.lean, for calls that complete.
-/

namespace Verif.Weak

variable {α : Type} [Field α] [Build]

/-- The tensor `t` of a run and the dual-number tensors that the specification gives for it. -/
def TOK (sh : List (List Nat)) (t : Tensor α) (m : (Nat → List Nat → α) → MT (Dual α) × Bool) : Prop :=
  ∃ F E, t.arr.WF ∧ t.arr.Denotes t.arr.shape F ∧ t.gradFn.isNone = !t.requiresGrad ∧ Diff sh t.gradFn t.arr.shape E ∧
    ∀ v, (m v).2 = t.requiresGrad ∧ (m v).1.shape = t.arr.shape ∧
      ∀ idx, InB idx t.arr.shape → (m v).1.elem idx = ⟨F idx, E v idx⟩

theorem tok_mk {sh : List (List Nat)} {r : Arr α} {s : List Nat} {F : List Nat → α} {E : (Nat → List Nat → α) → List Nat → α}
    {node : GradFn α} {req : Bool} {m : (Nat → List Nat → α) → MT (Dual α) × Bool}
    (hw : r.WF) (hd : r.Denotes s F) (hn : Diff sh node s E) (h1 : req = true → node.isNone = false)
    (h2 : req = false → ∀ v i, InB i s → E v i = 0)
    (hm : ∀ v, (m v).2 = req ∧ (m v).1.shape = s ∧ ∀ idx, InB idx s → (m v).1.elem idx = ⟨F idx, E v idx⟩) :
    TOK sh (Tensor.mk' r req node) m := by
  have hs := hd.1
  subst hs
  refine ⟨F, E, hw, hd, ?_, ?_, hm⟩
  · cases req with
    | true => simpa [Tensor.mk'] using h1 rfl
    | false => rfl
  · cases req with
    | true => exact hn
    | false => exact diff_none sh _ (h2 rfl)

theorem tok_neg {sh : List (List Nat)} {t r : Tensor α} {m : (Nat → List Nat → α) → MT (Dual α) × Bool} (h : TOK sh t m)
    (hr : t.neg = .ok r) : TOK sh r (fun v => ((m v).1.map (- ·), (m v).2)) := by
  obtain ⟨F, E, hw, ha, hn, hdf, hm⟩ := h
  obtain ⟨a, e1, hr⟩ := bind_eq_ok.1 hr
  obtain ⟨w, d⟩ := (gives_neg ha).of_ok a e1
  cases hr
  refine tok_mk w d (diff_neg hdf) (fun _ => rfl) (fun hq v i hi => ?_) fun v => ?_
  · rw [hdf.zero (isNone_of hn hq) v i hi, neg_zero]
  · obtain ⟨k1, k2, k3⟩ := hm v
    refine ⟨k1, k2, fun idx hi => ?_⟩
    show - (m v).1.elem idx = _
    rw [k3 idx hi]; rfl

theorem tok_bin {sh : List (List Nat)} {a b r : Tensor α} {ma mb : (Nat → List Nat → α) → MT (Dual α) × Bool} (op : SOp)
    (h : TOK sh a ma) (h' : TOK sh b mb) (hr : Tensor.bin op a b = .ok r) :
    TOK sh r (fun v => ((ma v).1.zip op.run (mb v).1, (ma v).2 || (mb v).2)) := by
  obtain ⟨F, E, hw, ha, hn, hdf, hm⟩ := h
  obtain ⟨F', E', hw', ha', hn', hdf', hm'⟩ := h'
  by_cases hc : Compatible a.arr.shape b.arr.shape
  swap
  · unfold Tensor.bin SOp.arr at hr
    rw [C05_incompatible _ _ _ hc] at hr
    cases hr
  have hj := isJoint_jointShape a.arr.shape b.arr.shape
  obtain ⟨hs, ht⟩ := IsJoint.broadcastsTo hc hj
  obtain ⟨q, e1, hr⟩ := bind_eq_ok.1 hr
  obtain ⟨w, d⟩ := (gives_bin op ha ha' hc hj).of_ok q e1
  cases hr
  have hnode : Diff sh (op.node a b) (jointShape a.arr.shape b.arr.shape) (fun v i =>
      (op.run (⟨F (broadcastIndex a.arr.shape i), E v (broadcastIndex a.arr.shape i)⟩ : Dual α)
        ⟨F' (broadcastIndex b.arr.shape i), E' v (broadcastIndex b.arr.shape i)⟩).eps) := by
    cases op with
    | add => exact diff_add hdf hdf' hs ht
    | sub => exact diff_sub hdf hdf' hs ht
    | mul => exact diff_mul hdf hdf' ha ha' hs ht
    | div => exact diff_div hdf hdf' ha ha' hs ht
  refine tok_mk w d hnode (fun _ => by cases op <;> rfl) (fun hq v i hi => ?_) fun v => ?_
  · rw [Bool.or_eq_false_iff] at hq
    have z1 := hdf.zero (isNone_of hn hq.1) v _ (InB_broadcastIndex hs hi)
    have z2 := hdf'.zero (isNone_of hn' hq.2) v _ (InB_broadcastIndex ht hi)
    rw [z1, z2]
    cases op
    · show (0 : α) + 0 = 0; simp
    · show (0 : α) - 0 = 0; simp
    · show _ * (0 : α) + 0 * _ = 0; simp
    · show ((0 : α) * _ - _ * 0) / _ = 0; simp
  · obtain ⟨k1, k2, k3⟩ := hm v
    obtain ⟨k1', k2', k3'⟩ := hm' v
    refine ⟨by simp only [k1, k1'], by simp only [MT.zip, k2, k2'], fun idx hi => ?_⟩
    simp only [MT.zip, k2, k2']
    rw [k3 _ (InB_broadcastIndex hs hi), k3' _ (InB_broadcastIndex ht hi)]
    cases op <;> rfl

theorem tok_scal {sh : List (List Nat)} {t r : Tensor α} {m : (Nat → List Nat → α) → MT (Dual α) × Bool} (op : SOp) (c : α)
    (h : TOK sh t m) (hr : Tensor.binScalar op t c = .ok r) :
    TOK sh r (fun v => ((m v).1.map fun x => op.run x (⟨c, 0⟩ : Dual α), (m v).2)) := by
  obtain ⟨F, E, hw, ha, hn, hdf, hm⟩ := h
  obtain ⟨a, e1, hr⟩ := bind_eq_ok.1 hr
  obtain ⟨w, d⟩ := (gives_scalar op ha c).of_ok a e1
  cases hr
  have hnode : Diff sh (op.nodeScalar t c) t.arr.shape (fun v i => (op.run (⟨F i, E v i⟩ : Dual α) ⟨c, 0⟩).eps) := by
    cases op with
    | add => exact hdf.congr fun v i _ => (add_zero _).symm
    | sub => exact hdf.congr fun v i _ => (sub_zero _).symm
    | mul => exact (diff_mulScalar hdf c).congr fun v i _ => by show _ = F i * 0 + E v i * c; ring
    | div =>
      refine (diff_divScalar hdf c).congr fun v i _ => ?_
      show _ = (E v i * c - F i * 0) / (c * c)
      rw [mul_zero, sub_zero, mul_div_assoc, div_self_mul]; ring
  refine tok_mk w d hnode (fun hq => ?_) (fun hq v i hi => ?_) fun v => ?_
  · cases op
    · show t.gradFn.isNone = _; rw [hn, hq]; rfl
    · show t.gradFn.isNone = _; rw [hn, hq]; rfl
    · rfl
    · rfl
  · rw [hdf.zero (isNone_of hn hq) v i hi]
    cases op
    · show (0 : α) + 0 = 0; simp
    · show (0 : α) - 0 = 0; simp
    · show _ * (0 : α) + 0 * _ = 0; simp
    · show ((0 : α) * _ - _ * 0) / _ = 0; simp
  · obtain ⟨k1, k2, k3⟩ := hm v
    refine ⟨k1, k2, fun idx hi => ?_⟩
    show op.run ((m v).1.elem idx) _ = _
    rw [k3 idx hi]
    cases op <;> rfl

theorem tok_dot {sh : List (List Nat)} {a b r : Tensor α} {ma mb : (Nat → List Nat → α) → MT (Dual α) × Bool}
    (h : TOK sh a ma) (h' : TOK sh b mb) (hr : a.dot b = .ok r) :
    TOK sh r (fun v => ((ma v).1.dot (mb v).1, (ma v).2 || (mb v).2)) := by
  obtain ⟨F, E, hw, ha, hn, hdf, hm⟩ := h
  obtain ⟨F', E', hw', ha', hn', hdf', hm'⟩ := h'
  unfold Tensor.dot at hr
  obtain ⟨k, hk, hk'⟩ : ∃ k, a.arr.shape = [k] ∧ b.arr.shape = [k] := by
    by_contra hc
    rw [C32_dot_rejects] at hr
    · cases hr
    · by_contra hcc
      simp only [not_or, not_not] at hcc
      obtain ⟨k, hk⟩ := List.length_eq_one_iff.1 hcc.1
      exact hc ⟨k, hk, by rw [← hcc.2.2, hk]⟩
  rw [hk] at ha hdf hm
  rw [hk'] at ha' hdf' hm'
  obtain ⟨q, e1, w, d⟩ := gives_dot ha ha'
  rw [e1] at hr
  cases hr
  refine tok_mk w.wf d (diff_dot hdf hdf' ha ha') (fun _ => rfl) (fun hq v i hi => ?_) fun v => ?_
  · rw [Bool.or_eq_false_iff] at hq
    refine Finset.sum_eq_zero fun t ht => ?_
    have ht : InB [t] [k] := ⟨Finset.mem_range.1 ht, trivial⟩
    rw [hdf.zero (isNone_of hn hq.1) v _ ht, hdf'.zero (isNone_of hn' hq.2) v _ ht]; simp
  · obtain ⟨k1, k2, k3⟩ := hm v
    obtain ⟨k1', k2', k3'⟩ := hm' v
    refine ⟨by simp only [k1, k1'], rfl, fun idx hi => ?_⟩
    simp only [MT.dot, k2, List.headD_cons]
    rw [innerProduct_congr (fun t ht => k3 [t] ⟨ht, trivial⟩) (fun t ht => k3' [t] ⟨ht, trivial⟩), dual_innerProduct]

theorem tok_matmul {sh : List (List Nat)} {a b r : Tensor α} {ma mb : (Nat → List Nat → α) → MT (Dual α) × Bool}
    (h : TOK sh a ma) (h' : TOK sh b mb) (hr : a.matmul b = .ok r) :
    TOK sh r (fun v => ((ma v).1.matmul (mb v).1, (ma v).2 || (mb v).2)) := by
  unfold Tensor.matmul at hr
  by_cases h11 : a.arr.ndims = 1 ∧ b.arr.ndims = 1
  · rw [if_pos h11] at hr
    have hdot := tok_dot h h' hr
    obtain ⟨_, _, _, _, _, _, hm⟩ := h
    obtain ⟨_, _, _, _, _, _, hm'⟩ := h'
    obtain ⟨n, hn⟩ := List.length_eq_one_iff.1 h11.1
    obtain ⟨n', hn'⟩ := List.length_eq_one_iff.1 h11.2
    have : (fun v => ((ma v).1.matmul (mb v).1, (ma v).2 || (mb v).2)) =
        (fun v => ((ma v).1.dot (mb v).1, (ma v).2 || (mb v).2)) := by
      funext v
      have e1 := (hm v).2.1
      have e2 := (hm' v).2.1
      rw [hn] at e1
      rw [hn'] at e2
      simp only [MT.matmul, e1, e2]
    rw [this]
    exact hdot
  rw [if_neg h11] at hr
  obtain ⟨F, E, hw, ha, hn, hdf, hm⟩ := h
  obtain ⟨F', E', hw', ha', hn', hdf', hm'⟩ := h'
  have hrej : ((a.arr.shape.length = 2 ∧ b.arr.shape.length = 1) ∨ (a.arr.shape.length = 2 ∧ b.arr.shape.length = 2)) ∧
      a.arr.shape.getLast? = b.arr.shape.head? := by
    by_contra hc
    rw [C30_matmul_rejects] at hr
    · cases hr
    · unfold Arr.ndims at h11
      tauto
  match hka : a.arr.shape, hkb : b.arr.shape, hrej with
  | [m, k], [k'], hrej =>
    obtain rfl : k = k' := by
      have := hrej.2
      simpa using this
    rw [hka] at ha hdf hm
    rw [hkb] at ha' hdf' hm'
    obtain ⟨q, e1, w, d⟩ := gives_matvec ha ha'
    rw [e1] at hr
    have c1 : a.arr.ndims = 2 ∧ b.arr.ndims = 1 := by unfold Arr.ndims; rw [hka, hkb]; exact ⟨rfl, rfl⟩
    have hr : (.ok (Tensor.mk' q (a.requiresGrad || b.requiresGrad) (.matVec a.gradFn b.gradFn a.arr b.arr)) : Res (Tensor α)) = .ok r := by
      rw [← hr, ok_bind, if_pos c1]; rfl
    cases hr
    refine tok_mk w.wf d (diff_matVec hdf hdf' hw ha ha') (fun _ => rfl) (fun hq v i hi => ?_) fun v => ?_
    · rw [Bool.or_eq_false_iff] at hq
      match i, hi with
      | [i], hi =>
        refine Finset.sum_eq_zero fun t ht => ?_
        have ht := Finset.mem_range.1 ht
        simp only [List.getD_cons_zero, List.getD_cons_succ]
        rw [hdf.zero (isNone_of hn hq.1) v [i, t] ⟨hi.1, ht, trivial⟩, hdf'.zero (isNone_of hn' hq.2) v [t] ⟨ht, trivial⟩]; simp
    · obtain ⟨k1, k2, k3⟩ := hm v
      obtain ⟨k1', k2', k3'⟩ := hm' v
      refine ⟨by simp only [k1, k1'], by simp only [MT.matmul, k2, k2'], fun idx hi => ?_⟩
      match idx, hi with
      | [i], hi =>
        simp only [MT.matmul, k2, k2', List.getD_cons_zero]
        rw [innerProduct_congr (fun t ht => k3 [i, t] ⟨hi.1, ht, trivial⟩) (fun t ht => k3' [t] ⟨ht, trivial⟩), dual_innerProduct]
  | [m, k], [k', n], hrej =>
    obtain rfl : k = k' := by
      have := hrej.2
      simpa using this
    rw [hka] at ha hdf hm
    rw [hkb] at ha' hdf' hm'
    obtain ⟨q, e1, hr⟩ := bind_eq_ok.1 hr
    obtain ⟨w, d⟩ := (gives_matmul ha ha').of_ok q e1
    have c1 : ¬ (a.arr.ndims = 2 ∧ b.arr.ndims = 1) := fun hh => by have := hh.2; unfold Arr.ndims at this; rw [hkb] at this; simp at this
    have c2 : a.arr.ndims = 2 ∧ b.arr.ndims = 2 := by unfold Arr.ndims; rw [hka, hkb]; exact ⟨rfl, rfl⟩
    have hr : (.ok (Tensor.mk' q (a.requiresGrad || b.requiresGrad) (.matMul a.gradFn b.gradFn a.arr b.arr)) : Res (Tensor α)) = .ok r := by
      rw [← hr, if_neg c1, if_pos c2]; rfl
    cases hr
    refine tok_mk w d (diff_matMul hdf hdf' hw hw' ha ha') (fun _ => rfl) (fun hq v i hi => ?_) fun v => ?_
    · rw [Bool.or_eq_false_iff] at hq
      match i, hi with
      | [i, j], hi =>
        refine Finset.sum_eq_zero fun t ht => ?_
        have ht := Finset.mem_range.1 ht
        simp only [List.getD_cons_zero, List.getD_cons_succ]
        rw [hdf.zero (isNone_of hn hq.1) v [i, t] ⟨hi.1, ht, trivial⟩, hdf'.zero (isNone_of hn' hq.2) v [t, j] ⟨ht, hi.2.1, trivial⟩]; simp
    · obtain ⟨k1, k2, k3⟩ := hm v
      obtain ⟨k1', k2', k3'⟩ := hm' v
      refine ⟨by simp only [k1, k1'], by simp only [MT.matmul, k2, k2'], fun idx hi => ?_⟩
      match idx, hi with
      | [i, j], hi =>
        simp only [MT.matmul, k2, k2', List.getD_cons_zero, List.getD_cons_succ]
        rw [innerProduct_congr (fun t ht => k3 [i, t] ⟨hi.1, ht, trivial⟩) (fun t ht => k3' [t, j] ⟨ht, hi.2.1, trivial⟩), dual_innerProduct]

theorem tok_bmm {sh : List (List Nat)} {a b r : Tensor α} {ma mb : (Nat → List Nat → α) → MT (Dual α) × Bool}
    (h : TOK sh a ma) (h' : TOK sh b mb) (hr : a.bmm b = .ok r) :
    TOK sh r (fun v => ((ma v).1.bmm (mb v).1, (ma v).2 || (mb v).2)) := by
  obtain ⟨F, E, hw, ha, hn, hdf, hm⟩ := h
  obtain ⟨F', E', hw', ha', hn', hdf', hm'⟩ := h'
  obtain ⟨q, e1, hr⟩ := bind_eq_ok.1 hr
  obtain ⟨B, m, k, n, hka, hkb⟩ := bmm_matches hw.valid.1 hw'.valid.1 e1
  rw [hka] at ha hdf hm
  rw [hkb] at ha' hdf' hm'
  obtain ⟨w, d⟩ := (gives_bmm ha ha').of_ok q e1
  cases hr
  refine tok_mk w d (diff_bmm hdf hdf' hw hw' ha ha') (fun _ => rfl) (fun hq v i hi => ?_) fun v => ?_
  · rw [Bool.or_eq_false_iff] at hq
    match i, hi with
    | [x, i, j], hi =>
      refine Finset.sum_eq_zero fun t ht => ?_
      have ht := Finset.mem_range.1 ht
      simp only [List.getD_cons_zero, List.getD_cons_succ]
      rw [hdf.zero (isNone_of hn hq.1) v [x, i, t] ⟨hi.1, hi.2.1, ht, trivial⟩, hdf'.zero (isNone_of hn' hq.2) v [x, t, j] ⟨hi.1, ht, hi.2.2.1, trivial⟩]; simp
  · obtain ⟨k1, k2, k3⟩ := hm v
    obtain ⟨k1', k2', k3'⟩ := hm' v
    refine ⟨by simp only [k1, k1'], by simp only [MT.bmm, k2, k2']; rfl, fun idx hi => ?_⟩
    match idx, hi with
    | [x, i, j], hi =>
      simp only [MT.bmm, k2, List.getD_cons_zero, List.getD_cons_succ]
      rw [innerProduct_congr (fun t ht => k3 [x, i, t] ⟨hi.1, hi.2.1, ht, trivial⟩)
        (fun t ht => k3' [x, t, j] ⟨hi.1, ht, hi.2.2.1, trivial⟩), dual_innerProduct]

theorem tok_ofArr {sh : List (List Nat)} {t : Tensor α} {m : (Nat → List Nat → α) → MT (Dual α) × Bool} (op : SView)
    {F : List Nat → α} {E : (Nat → List Nat → α) → List Nat → α} (hn : t.gradFn.isNone = !t.requiresGrad)
    (hdf : Diff sh t.gradFn t.arr.shape E) (hm : ∀ v, (m v).2 = t.requiresGrad ∧ (m v).1.shape = t.arr.shape ∧
      ∀ idx, InB idx t.arr.shape → (m v).1.elem idx = ⟨F idx, E v idx⟩) {r : Arr α} (ho : op.Applies t.arr.shape)
    (hw : r.WF) (hd : r.Denotes (op.out t.arr.shape).1 (fun i => F ((op.out t.arr.shape).2 i))) :
    TOK sh (.mk' r t.requiresGrad (op.node t)) (fun v => ((m v).1.reshaped op, (m v).2)) := by
  refine tok_mk hw hd (diff_view op hdf ho) (fun hq => ?_) (fun hq v i hi => ?_) fun v => ?_
  · rw [hq] at hn
    cases op with
    | view => exact hn
    | reshape ns =>
      unfold SView.node
      by_cases hs : ns = t.arr.shape
      · simp only [if_pos hs]; exact hn
      · simp only [if_neg hs]; rfl
    | _ => rfl
  · exact hdf.zero (isNone_of hn hq) v _ (SView.inB ho hi)
  · obtain ⟨k1, k2, k3⟩ := hm v
    rw [reshaped_eq, k2]
    exact ⟨k1, rfl, fun idx hi => k3 _ (SView.inB ho hi)⟩

theorem tok_view {sh : List (List Nat)} {t r : Tensor α} {m : (Nat → List Nat → α) → MT (Dual α) × Bool} (op : SView)
    (h : TOK sh t m) (hr : t.viewOp op = .ok r) :
    TOK sh r (fun v => ((m v).1.reshaped op, (m v).2)) ∧ op.Applies t.arr.shape ∧ r.requiresGrad = t.requiresGrad ∧
      r.gradFn = if t.requiresGrad then op.node t else .none := by
  obtain ⟨F, E, hw, ha, hn, hdf, hm⟩ := h
  unfold Tensor.viewOp at hr
  rcases gives_viewOp hw ha op with ⟨h, _⟩ | ⟨ho, ⟨q, e, w, d⟩, _⟩
  · rw [h] at hr; cases hr
  · rw [e] at hr
    cases hr
    exact ⟨tok_ofArr op hn hdf hm ho w.wf d, ho, rfl, rfl⟩

theorem tok_into {sh : List (List Nat)} {t r : Tensor α} {m : (Nat → List Nat → α) → MT (Dual α) × Bool} (op : SView)
    {shared : Bool} (hp : shared = true → op.takesLayout = true → t.arr.stride = strideFromShape t.arr.shape)
    (h : TOK sh t m) (hr : t.intoViewOp shared op = .ok r) :
    TOK sh r (fun v => ((m v).1.reshaped op, (m v).2)) ∧ op.Applies t.arr.shape ∧ r.requiresGrad = t.requiresGrad ∧
      r.gradFn = if t.requiresGrad then op.node t else .none := by
  obtain ⟨F, E, hw, ha, hn, hdf, hm⟩ := h
  unfold Tensor.intoViewOp at hr
  obtain ⟨b, hb, hr⟩ := bind_eq_ok.1 hr
  obtain ⟨hwb, hdb, hbs⟩ : b.WF ∧ b.Denotes t.arr.shape F ∧ (shared = true → b.stride = strideFromShape t.arr.shape) := by
    unfold Tensor.intoNdarray at hb
    cases shared with
    | false => cases hb; exact ⟨hw, ha, fun h => by cases h⟩
    | true =>
      simp only [if_true] at hb
      unfold Arr.clone at hb
      rcases cloneData_or ha hw.cloneOK hw.flags with e | ⟨_, _, e⟩
      swap
      · rw [e] at hb; cases hb
      rw [e] at hb
      cases hb
      exact ⟨Arr.WF.fromContiguous (length_elements _ _), denotes_fromContiguous, fun _ => rfl⟩
  have hsame : op.intoArr t.arr b = op.intoArr b b := by
    cases shared with
    | false => cases hb; rfl
    | true => exact intoArr_plain (hp rfl) hdb.1 (hbs rfl) hw hwb
  rw [hsame] at hr
  rcases gives_viewOp hwb hdb op with ⟨_, h⟩ | ⟨ho, _, ⟨q, e, w, d⟩⟩
  · rw [h] at hr; cases hr
  · rw [e] at hr
    cases hr
    exact ⟨tok_ofArr op hn hdf hm ho w.wf d, ho, rfl, rfl⟩

theorem TOK.mono {sh sh' : List (List Nat)} {t : Tensor α} {m : (Nat → List Nat → α) → MT (Dual α) × Bool} (h : TOK sh t m)
    (hp : sh <+: sh') : TOK sh' t m := by
  obtain ⟨F, E, hw, ha, hn, hdf, hm⟩ := h
  exact ⟨F, E, hw, ha, hn, hdf.mono hp, hm⟩

theorem tok_leaf (sh : List (List Nat)) {s : List Nat} {data : List α} (hl : data.length = numel s) :
    TOK sh (Tensor.fromContiguousOwnedBuffer s data)
      (fun _ => (⟨s, fun idx => (⟨data.getD (rank idx s) 0, 0⟩ : Dual α)⟩, false)) :=
  ⟨fun idx => data.getD (rank idx s) 0, fun _ _ => 0, Arr.WF.fromContiguous hl, denotes_fromContiguous_getD hl 0, rfl,
    diff_none sh _ fun _ _ _ => rfl, fun _ => ⟨rfl, rfl, fun _ _ => rfl⟩⟩

/-- The state of a run and the states of the specification, one for each direction. -/
structure RunInv (sh : List (List Nat)) (σ : RunState α) (S : (Nat → List Nat → α) → SpecState (Dual α)) : Prop where
  store : StoreOK sh σ.store
  vars : ∀ v, (S v).vars = sh.length
  len : ∀ v, (S v).env.length = σ.env.length
  tok : ∀ (i : Nat) (t : Tensor α), σ.env[i]? = some t → TOK sh t (fun v => (S v).get i)

theorem RunInv.push {sh : List (List Nat)} {σ : RunState α} {S : (Nat → List Nat → α) → SpecState (Dual α)} (h : RunInv sh σ S)
    {r : Tensor α} {m : (Nat → List Nat → α) → MT (Dual α) × Bool} (hr : TOK sh r m) :
    RunInv sh { σ with env := σ.env ++ [r] } (fun v => (S v).push (m v).1 (m v).2) := by
  refine ⟨h.store, h.vars, fun v => by simp [SpecState.push, h.len v], fun i t hi => ?_⟩
  have hget : ∀ v, ((S v).push (m v).1 (m v).2).get i = if i < σ.env.length then (S v).get i else
      if i = σ.env.length then m v else (⟨[], fun _ => 0⟩, false) := by
    intro v
    unfold SpecState.get SpecState.push
    simp only [List.getD_eq_getElem?_getD]
    rw [← h.len v]
    by_cases h1 : i < (S v).env.length
    · rw [if_pos h1, List.getElem?_append_left h1]
    · rw [if_neg h1, List.getElem?_append_right (by omega)]
      by_cases h2 : i = (S v).env.length
      · rw [if_pos h2, h2]; simp
      · rw [if_neg h2, List.getElem?_eq_none (by simp; omega)]; rfl
  simp only [hget]
  by_cases h1 : i < σ.env.length
  · simp only [if_pos h1]
    rw [List.getElem?_append_left h1] at hi
    exact h.tok i t hi
  · have h2 : i = σ.env.length := by
      have := (List.getElem?_eq_some_iff.1 hi).1
      simp at this; omega
    subst h2
    simp at hi
    subst hi
    simpa using hr

theorem RunInv.set {sh sh' : List (List Nat)} {σ : RunState α} {S : (Nat → List Nat → α) → SpecState (Dual α)} (h : RunInv sh σ S)
    {r : Tensor α} {m : (Nat → List Nat → α) → MT (Dual α) × Bool} {st : Store α} {i : Nat} (hp : sh <+: sh')
    (hst : StoreOK sh' st) (hr : TOK sh' r m) (hi : i < σ.env.length) :
    RunInv sh' { env := σ.env.set i r, store := st } (fun v => { env := (S v).env.set i (m v), vars := sh'.length }) := by
  refine ⟨hst, fun _ => rfl, fun v => by simp [h.len v], fun j t hj => ?_⟩
  have hget : ∀ v, (⟨(S v).env.set i (m v), sh'.length⟩ : SpecState (Dual α)).get j = if i = j then m v else (S v).get j := by
    intro v
    unfold SpecState.get
    simp only [List.getD_eq_getElem?_getD]
    rw [List.getElem?_set]
    by_cases h1 : i = j
    · rw [if_pos h1, if_pos h1, if_pos (by rw [h.len v]; exact hi)]; rfl
    · rw [if_neg h1, if_neg h1]
  simp only [hget]
  rw [List.getElem?_set] at hj
  by_cases h1 : i = j
  · rw [if_pos h1, if_pos (h1 ▸ hi)] at hj
    cases hj
    simpa [h1] using hr
  · rw [if_neg h1] at hj
    simp only [if_neg h1]
    exact (h.tok j t hj).mono hp

theorem run_setReq {sh : List (List Nat)} {σ σ' : RunState α} {S : (Nat → List Nat → α) → SpecState (Dual α)} (h : RunInv sh σ S)
    {i : Nat} {b : Bool} (hr : σ.step (.setReq i b) = .ok σ') :
    ∃ sh', sh <+: sh' ∧ RunInv sh' σ' (fun v => (S v).step (Dual.interp v) 0 (.setReq i b)) := by
  obtain ⟨t, ht, hr⟩ := bind_eq_ok.1 hr
  have ht := getT_ok ht
  have hi := (List.getElem?_eq_some_iff.1 ht).1
  have htok := h.tok i t ht
  obtain ⟨F, E, hw, ha, hn, hdf, hm⟩ := htok
  obtain ⟨⟨t', st'⟩, hq, hr⟩ := bind_eq_ok.1 hr
  cases hr
  unfold Tensor.setRequiresGrad at hq
  cases b with
  | true =>
    by_cases hreq : t.requiresGrad = true
    · -- already required
      rw [hreq] at hq
      simp at hq
      obtain ⟨rfl, rfl⟩ := hq
      refine ⟨sh, List.prefix_refl _, ?_⟩
      have e : ({ t with requiresGrad := true } : Tensor α) = t := by cases t; simp_all
      have hset : σ.env.set i t = σ.env := by
        apply List.ext_getElem?
        intro j
        rw [List.getElem?_set]
        by_cases hj : i = j
        · subst hj; rw [if_pos rfl, if_pos hi, ht]
        · rw [if_neg hj]
      rw [e, hset]
      have hstep : (fun v => (S v).step (Dual.interp v) 0 (.setReq i true)) = S := by
        funext v
        show (if ((S v).get i).2 then S v else _) = S v
        rw [(hm v).1, hreq]; rfl
      rw [hstep]
      exact ⟨h.store, h.vars, h.len, h.tok⟩
    · rw [Bool.not_eq_true] at hreq
      rw [hreq] at hq
      simp only [Bool.not_false, Bool.and_self, if_true] at hq
      obtain ⟨z, hz, hq⟩ := bind_eq_ok.1 hq
      cases hq
      have hz' := zeros_inv hz
      have hts : 0 ∉ t.arr.shape := fun h0 => by rw [zeros_empty h0] at hz; cases hz
      have hzs : z.shape = t.arr.shape := by rw [hz']; rfl
      have hfz : Fresh z := ⟨_, _, by simp, hz'⟩
      have hst' := storeOK_snoc h.store hfz
      rw [hzs] at hst'
      refine ⟨sh ++ [t.arr.shape], List.prefix_append _ _, ?_⟩
      have key := h.set (m := fun v => (⟨((S v).get i).1.shape, fun idx => (Dual.interp v).var sh.length idx (((S v).get i).1.elem idx)⟩, true))
        (r := ⟨t.arr, true, t.userCreated, .acc σ.store.length⟩) (List.prefix_append sh [t.arr.shape]) hst' ?_ hi
      · have hstep : (fun v => (S v).step (Dual.interp v) 0 (.setReq i true)) = (fun v =>
            { env := (S v).env.set i (⟨((S v).get i).1.shape, fun idx => (Dual.interp v).var sh.length idx (((S v).get i).1.elem idx)⟩, true),
              vars := (sh ++ [t.arr.shape]).length }) := by
          funext v
          show (if ((S v).get i).2 then S v else _) = _
          rw [(hm v).1, hreq, h.vars v]
          simp
        rw [hstep]
        exact key
      · refine ⟨F, fun v => v sh.length, hw, ha, rfl, ?_, fun v => ?_⟩
        · rw [h.store.1]
          exact diff_acc (by simp) hts
        · obtain ⟨k1, k2, k3⟩ := hm v
          refine ⟨rfl, k2, fun idx hidx => ?_⟩
          show (⟨(((S v).get i).1.elem idx).re, v sh.length idx⟩ : Dual α) = _
          rw [k3 idx hidx]
  | false =>
    have hq' : t' = { t with requiresGrad := false, gradFn := .none } ∧ st' = σ.store := by
      cases hreq : t.requiresGrad with
      | true => rw [hreq] at hq; simp at hq; exact ⟨hq.1.symm, hq.2.symm⟩
      | false =>
        rw [hreq] at hq
        simp at hq
        refine ⟨?_, hq.2.symm⟩
        rw [← hq.1]
        have : t.gradFn = .none := by
          rw [hreq] at hn
          cases hg : t.gradFn <;> rw [hg] at hn <;> first | rfl | cases hn
        cases t; simp_all
    obtain ⟨rfl, rfl⟩ := hq'
    refine ⟨sh, List.prefix_refl _, ?_⟩
    have key := h.set (m := fun v => (((S v).get i).1.map (Dual.interp v).cut, false))
        (r := { t with requiresGrad := false, gradFn := .none }) (List.prefix_refl sh) h.store ?_ hi
    · have hstep : (fun v => (S v).step (Dual.interp v) 0 (.setReq i false)) = (fun v =>
            { env := (S v).env.set i (((S v).get i).1.map (Dual.interp v).cut, false), vars := sh.length }) := by
        funext v
        show (⟨_, (S v).vars⟩ : SpecState (Dual α)) = _
        rw [h.vars v]
      rw [hstep]
      exact key
    · refine ⟨F, fun _ _ => 0, hw, ha, rfl, diff_none _ _ fun _ _ _ => rfl, fun v => ?_⟩
      obtain ⟨k1, k2, k3⟩ := hm v
      refine ⟨rfl, k2, fun idx hidx => ?_⟩
      show (⟨(((S v).get i).1.elem idx).re, 0⟩ : Dual α) = _
      rw [k3 idx hidx]

theorem run_step {sh : List (List Nat)} {σ σ' : RunState α} {S : (Nat → List Nat → α) → SpecState (Dual α)} (h : RunInv sh σ S)
    {x : Instr α} (hx : x.Plain σ.env) (hr : σ.step x = .ok σ') :
    ∃ sh', sh <+: sh' ∧ RunInv sh' σ' (fun v => (S v).step (Dual.interp v) 0 x) := by
  cases x with
  | leaf s data =>
    refine ⟨sh, List.prefix_refl _, ?_⟩
    obtain ⟨_, ha, hr⟩ := bind_eq_ok.1 hr
    obtain ⟨r, e, rfl⟩ := push_ok hr
    cases e
    have hl : data.length = numel s := by
      by_contra hc
      rw [assert_fail (decide_eq_false hc)] at ha; cases ha
    exact h.push (tok_leaf sh hl)
  | setReq i b => exact run_setReq h hr
  | neg i =>
    refine ⟨sh, List.prefix_refl _, ?_⟩
    obtain ⟨t, ht, hr⟩ := bind_eq_ok.1 hr
    have ht := getT_ok ht
    obtain ⟨r, e, rfl⟩ := push_ok hr
    exact h.push (tok_neg (h.tok i t ht) e)
  | bin op i j =>
    refine ⟨sh, List.prefix_refl _, ?_⟩
    obtain ⟨a, ha, hr⟩ := bind_eq_ok.1 hr
    obtain ⟨b, hb, hr⟩ := bind_eq_ok.1 hr
    obtain ⟨r, e, rfl⟩ := push_ok hr
    exact h.push (tok_bin op (h.tok i a (getT_ok ha)) (h.tok j b (getT_ok hb)) e)
  | scal op i c =>
    refine ⟨sh, List.prefix_refl _, ?_⟩
    obtain ⟨t, ht, hr⟩ := bind_eq_ok.1 hr
    have ht := getT_ok ht
    obtain ⟨r, e, rfl⟩ := push_ok hr
    exact h.push (tok_scal op c (h.tok i t ht) e)
  | dot i j =>
    refine ⟨sh, List.prefix_refl _, ?_⟩
    obtain ⟨a, ha, hr⟩ := bind_eq_ok.1 hr
    obtain ⟨b, hb, hr⟩ := bind_eq_ok.1 hr
    obtain ⟨r, e, rfl⟩ := push_ok hr
    exact h.push (tok_dot (h.tok i a (getT_ok ha)) (h.tok j b (getT_ok hb)) e)
  | matmul i j =>
    refine ⟨sh, List.prefix_refl _, ?_⟩
    obtain ⟨a, ha, hr⟩ := bind_eq_ok.1 hr
    obtain ⟨b, hb, hr⟩ := bind_eq_ok.1 hr
    obtain ⟨r, e, rfl⟩ := push_ok hr
    exact h.push (tok_matmul (h.tok i a (getT_ok ha)) (h.tok j b (getT_ok hb)) e)
  | bmm i j =>
    refine ⟨sh, List.prefix_refl _, ?_⟩
    obtain ⟨a, ha, hr⟩ := bind_eq_ok.1 hr
    obtain ⟨b, hb, hr⟩ := bind_eq_ok.1 hr
    obtain ⟨r, e, rfl⟩ := push_ok hr
    exact h.push (tok_bmm (h.tok i a (getT_ok ha)) (h.tok j b (getT_ok hb)) e)
  | view op i =>
    refine ⟨sh, List.prefix_refl _, ?_⟩
    obtain ⟨t, ht, hr⟩ := bind_eq_ok.1 hr
    obtain ⟨r, e, rfl⟩ := push_ok hr
    exact h.push (tok_view op (h.tok i t (getT_ok ht)) e).1
  | into op shared i =>
    refine ⟨sh, List.prefix_refl _, ?_⟩
    obtain ⟨t, ht, hr⟩ := bind_eq_ok.1 hr
    obtain ⟨r, e, rfl⟩ := push_ok hr
    exact h.push (tok_into op (fun h1 h2 => hx h1 h2 t (getT_ok ht)) (h.tok i t (getT_ok ht)) e).1

/-- The outcome of `backward_with` on a tensor. -/
theorem backwardWith_ok {sh : List (List Nat)} {σ : RunState α} {S : (Nat → List Nat → α) → SpecState (Dual α)} (h : RunInv sh σ S)
    {y : Nat} {t : Tensor α} (ht : σ.env[y]? = some t) {g : Arr α} {G : List Nat → α} (hw : g.WF) (hg : g.Denotes t.arr.shape G)
    : CallOK sh (t.backwardWith ⟨g, none⟩) t.arr.shape G
      (fun v idx => (((S v).get y).1.elem idx).eps) := by
  obtain ⟨F, E, _, _, _, hdf, hm⟩ := h.tok y t ht
  have e : t.backwardWith ⟨g, none⟩ = backward t.gradFn ⟨g, none⟩ := by
    funext st
    show (assert (decide (g.shape = t.arr.shape)) >>= fun _ => _) = _
    rw [assert_ok (decide_eq_true hg.1)]; rfl
  rw [e]
  exact (hdf.congr fun v i hi => by rw [(hm v).2.2 i hi]).adj sh (List.prefix_refl _) g G hw hg

theorem backwardWith_store {sh : List (List Nat)} {σ : RunState α} {S : (Nat → List Nat → α) → SpecState (Dual α)} (h : RunInv sh σ S)
    {y : Nat} {t : Tensor α} (ht : σ.env[y]? = some t) {g : Arr α} (hw : g.WF) {st st' : Store α} (hst : StoreOK sh st)
    (hr : t.backwardWith ⟨g, none⟩ st = .ok st') : StoreOK sh st' := by
  obtain ⟨G, hG⟩ := hw.denotesD
  have hs : g.shape = t.arr.shape := by
    obtain ⟨_, ha, _⟩ := bind_eq_ok.1 hr
    by_contra hc
    rw [assert_fail (decide_eq_false hc)] at ha; cases ha
  rw [hs] at hG
  obtain ⟨D, ha, _⟩ := (backwardWith_ok h ht hw hG).of_ok st st' hst hr
  exact ha.1

theorem RunInv.withStore {sh : List (List Nat)} {σ : RunState α} {S : (Nat → List Nat → α) → SpecState (Dual α)} (h : RunInv sh σ S)
    {st : Store α} (hst : StoreOK sh st) : RunInv sh { σ with store := st } S := ⟨hst, h.vars, h.len, h.tok⟩

theorem run_exec {sh : List (List Nat)} {σ σ' : RunState α} {S : (Nat → List Nat → α) → SpecState (Dual α)} (h : RunInv sh σ S)
    {c : Cmd α} (hc : c.Fine σ.env) (hr : σ.exec c = .ok σ') :
    ∃ sh', RunInv sh' σ' (fun v => (program [c]).foldl (SpecState.step (Dual.interp v) 0) (S v)) := by
  cases c with
  | op x =>
    obtain ⟨sh', _, h'⟩ := run_step h hc hr
    exact ⟨sh', h'⟩
  | backward y =>
    obtain ⟨t, ht, hr⟩ := bind_eq_ok.1 hr
    obtain ⟨st, e, rfl⟩ := withStore_ok hr
    obtain ⟨one, h1, e⟩ := backward_inv e
    have hone := ones_inv h1
    exact ⟨sh, h.withStore (backwardWith_store h (getT_ok ht) (by rw [hone]; exact Arr.WF.fromContiguous (by simp)) h.store e)⟩
  | backwardWith y g =>
    obtain ⟨t, ht, hr⟩ := bind_eq_ok.1 hr
    obtain ⟨st, e, rfl⟩ := withStore_ok hr
    exact ⟨sh, h.withStore (backwardWith_store h (getT_ok ht) hc h.store e)⟩
  | zeroGradient i =>
    obtain ⟨t, ht, hr⟩ := bind_eq_ok.1 hr
    obtain ⟨st, e, rfl⟩ := withStore_ok hr
    exact ⟨sh, h.withStore (zeroGradient_store h.store e)⟩

theorem session_fold {c : List (Cmd α)} {sh : List (List Nat)} {σ σ' : RunState α} {S : (Nat → List Nat → α) → SpecState (Dual α)}
    (h : RunInv sh σ S) (hp : ∀ x ∈ c, x.Fine σ'.env) (hr : c.foldlM RunState.exec σ = .ok σ') :
    ∃ sh', RunInv sh' σ' (fun v => (program c).foldl (SpecState.step (Dual.interp v) 0) (S v)) := by
  induction c generalizing sh σ S with
  | nil => cases hr; exact ⟨sh, h⟩
  | cons x p ih =>
    rw [List.foldlM_cons] at hr
    obtain ⟨σ₁, h1, hr⟩ := bind_eq_ok.1 hr
    obtain ⟨sh₁, hi⟩ := run_exec h ((hp x (by simp)).mono fun i t ht => session_env (c := x :: p) (by rw [List.foldlM_cons, h1]; exact hr) i t ht) h1
    obtain ⟨sh', hfin⟩ := ih hi (fun y hy => hp y (by simp [hy])) hr
    refine ⟨sh', ?_⟩
    simp only [program_cons x p, List.foldl_append]
    exact hfin

theorem session_inv {c : List (Cmd α)} {σ : RunState α} (hp : ∀ x ∈ c, x.Fine σ.env) (hr : runSession c = .ok σ) : ∃ sh, RunInv sh σ (fun v => specRun (Dual.interp v) 0 (program c)) :=
  session_fold (sh := []) (S := fun _ => ⟨[], 0⟩) ⟨⟨rfl, fun k a h => by simp at h⟩, fun _ => rfl, fun _ => rfl,
    fun i t h => by simp at h⟩ hp hr

/-- What accumulator `k` of a tensor says about the tensor. -/
theorem acc_inv {sh : List (List Nat)} {σ : RunState α} {S : (Nat → List Nat → α) → SpecState (Dual α)} (h : RunInv sh σ S)
    {i k : Nat} {t : Tensor α} (ht : σ.env[i]? = some t) (hg : t.gradFn = .acc k) :
    sh[k]? = some t.arr.shape ∧ ∀ v idx, InB idx t.arr.shape → (((S v).get i).1.elem idx).eps = v k idx := by
  obtain ⟨F, E, hw, _, _, hdf, hm⟩ := h.tok i t ht
  obtain ⟨h1, h2⟩ := hdf.acc k hg
  refine ⟨h1, fun v idx hi => ?_⟩
  rw [(hm v).2.2 idx hi]
  exact h2 v idx hi

/-- The increments of a completed backward pass are the vector-Jacobian products. -/
theorem backwardWith_incr {sh : List (List Nat)} {σ : RunState α} {p : List (Instr α)}
    (h : RunInv sh σ fun v => specRun (Dual.interp v) 0 p) {y : Nat} {t : Tensor α} (ht : σ.env[y]? = some t) {g : Arr α} {G : List Nat → α}
    (hw : g.WF) (hg : g.Denotes t.arr.shape G) {st st' : Store α} (hst : StoreOK sh st) (hr : t.backwardWith ⟨g, none⟩ st = .ok st') :
    Adds sh st st' (fun k J => pair t.arr.shape G (jacobian p y k J)) := by
  obtain ⟨D, ha, hv⟩ := (backwardWith_ok h ht hw hg).of_ok st st' hst hr
  refine ⟨ha.1, fun k a hk => ?_⟩
  obtain ⟨a', F, h1, h2, h3⟩ := ha.2 k a hk
  refine ⟨a', F, h1, h2, h3.congr fun J hJ => ?_⟩
  have := hv (unitDir k J)
  rw [total_unit D (hst.2 k a hk).2 hJ] at this
  rw [← this]
  rfl

end Verif.Weak
