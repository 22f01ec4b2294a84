import Verif.Lemmas.BackwardNodes

/-! # Shape-changing operations on tensors, forwards and backwards -/

namespace Verif

variable {α : Type}

/-- Resulting shape, and for every index of the result the index of the operand. -/
def SView.out (s : List Nat) : SView → List Nat × (List Nat → List Nat)
  | .view => (s, id)
  | .reshape ns => (ns, fun idx => unrank s (rank idx ns))
  | .squeeze => (s.filter (· ≠ 1), fun J => withUnits s J)
  | .unsqueeze ax => (s.insertIdx (axisNat ax (s.length + 1)) 1, fun idx => idx.eraseIdx (axisNat ax (s.length + 1)))
  | .transpose ax1 ax2 => (exchange (axisNat ax1 s.length) (axisNat ax2 s.length) s,
      fun idx => exchange (axisNat ax1 s.length) (axisNat ax2 s.length) idx)

theorem reshaped_eq {β : Type} (m : MT β) (op : SView) :
    m.reshaped op = ⟨(op.out m.shape).1, fun idx => m.elem ((op.out m.shape).2 idx)⟩ := by cases op <;> rfl

/-- The operation applies to tensors of this shape. -/
def SView.Applies (s : List Nat) : SView → Prop
  | .view => True
  | .reshape ns => numel ns = numel s
  | .squeeze => True
  | .unsqueeze ax => ∃ k, AxisIs ax (s.length + 1) k
  | .transpose ax1 ax2 => (∃ i, AxisIs ax1 s.length i) ∧ ∃ j, AxisIs ax2 s.length j

theorem indices_insertIdx {s : List Nat} {k : Nat} (hk : k ≤ s.length) :
    (indices (s.insertIdx k 1)).map (fun idx => idx.eraseIdx k) = indices s := by
  induction k generalizing s with
  | zero =>
    simp [indices]
    exact List.map_id' _ 
  | succ k ih =>
    cases s with
    | nil => simp at hk
    | cons n s =>
      have hk' : k ≤ s.length := by simpa using hk
      rw [List.insertIdx_succ_cons, indices, indices, List.map_flatMap]
      congr 1
      funext i
      rw [List.map_map, ← ih hk', List.map_map]
      rfl

theorem elements_unsqueeze {s : List Nat} {k : Nat} (hk : k ≤ s.length) (f : List Nat → α) :
    elements (s.insertIdx k 1) (fun idx => f (idx.eraseIdx k)) = elements s f := by
  unfold elements
  rw [← indices_insertIdx hk, List.map_map]
  rfl

theorem SView.inB {s : List Nat} {op : SView} (h : op.Applies s) {i : List Nat} (hi : InB i (op.out s).1) :
    InB ((op.out s).2 i) s := by
  cases op with
  | view => exact hi
  | reshape ns =>
    refine InB_unrank ?_
    rw [← show numel ns = numel s from h]
    exact rank_lt hi
  | squeeze => exact InB_withUnits hi
  | unsqueeze ax =>
    obtain ⟨k, hk⟩ := h
    have e := axisNat_of hk
    simp only [SView.out, e] at hi ⊢
    have h2 := mem_indices.2 hi
    have h3 := List.mem_map_of_mem (f := fun idx : List Nat => idx.eraseIdx k) h2
    rw [indices_insertIdx (by have := hk.1; omega)] at h3
    exact mem_indices.1 h3
  | transpose ax1 ax2 =>
    obtain ⟨⟨i, h1⟩, ⟨j, h2⟩⟩ := h
    simp only [SView.out, axisNat_of h1, axisNat_of h2] at hi ⊢
    exact InB_exchange h1.1 h2.1 hi

theorem gives_view {a : Arr α} (hw : a.WF) {s : List Nat} {f : List Nat → α} (ha : a.Denotes s f) :
    Gives none (.ok a.view) s f ∧ Gives none (.ok a.intoView) s f := by
  have hs := ha.1
  subst hs
  have hid : (a.reshapedView a.shape a.stride).Reindexes a id := ⟨rfl, hw.valid.1, fun _ h => h, fun _ _ => rfl⟩
  have h := hw.layout hid hw.pos rfl (fun _ => rfl)
  exact ⟨⟨_, rfl, h.1.ready, hid.denotes ha⟩, ⟨_, rfl, h.2.ready, (into_reindexes hid).denotes ha⟩⟩

/-- The borrowing and the consuming form, on the array itself. -/
theorem gives_viewOp {a : Arr α} (hw : a.WF) {s : List Nat} {f : List Nat → α} (ha : a.Denotes s f) (op : SView) :
    (op.arr a = .error .panic ∧ op.intoArr a a = .error .panic) ∨
    (op.Applies s ∧ Gives none (op.arr a) (op.out s).1 (fun i => f ((op.out s).2 i)) ∧
      Gives none (op.intoArr a a) (op.out s).1 (fun i => f ((op.out s).2 i))) := by
  have hs := ha.1
  cases op with
  | view => exact .inr ⟨trivial, gives_view hw ha⟩
  | reshape ns =>
    have hinto : SView.intoArr a a (.reshape ns) = a.intoReshape ns := by
      show (if ns = a.shape then _ else _) = (a.reshapeLayout ns >>= fun _ => _)
      by_cases h : ns = a.shape
      · rw [if_pos h]
        unfold Arr.reshapeLayout
        rw [if_pos h]
        rfl
      · rw [if_neg h]
    rw [hinto]
    show (a.reshape ns = _ ∧ _) ∨ _ ∧ Gives none (a.reshape ns) _ _ ∧ _
    rcases gives_reshape hw ha (ns := ns) with ⟨h, _⟩ | ⟨⟨h, _⟩, h1, h2⟩
    · exact .inl h
    · exact .inr ⟨h, h1.weak, h2.weak⟩
  | squeeze =>
    obtain ⟨d1, _, d2, _⟩ := C15_squeeze ha
    have := wf_squeeze hw
    exact .inr ⟨trivial, ⟨_, rfl, this.1.ready, d1⟩, ⟨_, rfl, this.2.ready, d2⟩⟩
  | unsqueeze ax =>
    show (a.unsqueeze ax = _ ∧ a.intoUnsqueeze ax = _) ∨ _ ∧ Gives none (a.unsqueeze ax) _ _ ∧ Gives none (a.intoUnsqueeze ax) _ _
    by_cases h : ∃ k, AxisIs ax (s.length + 1) k
    · refine .inr ⟨h, ?_⟩
      obtain ⟨k, hk⟩ := h
      simp only [SView.out, axisNat_of hk]
      refine ⟨gives_unsqueeze hw ha hk, ?_⟩
      obtain ⟨_, ⟨r, e, _, d⟩⟩ := C15_unsqueeze ha hk
      refine ⟨r, e, ?_, d⟩
      obtain ⟨l, hl, e⟩ := bind_eq_ok.1 e
      cases e
      exact (wf_unsqueeze hw hl).2.ready
    · rw [not_exists, ← hs] at h
      left
      unfold Arr.unsqueeze Arr.intoUnsqueeze Arr.unsqueezeLayout
      rw [asAbsolute_error (n := a.ndims + 1) h]; exact ⟨rfl, rfl⟩
  | transpose ax1 ax2 =>
    show (a.transpose ax1 ax2 = _ ∧ a.intoTranspose ax1 ax2 = _) ∨ _ ∧ Gives none (a.transpose ax1 ax2) _ _ ∧
      Gives none (a.intoTranspose ax1 ax2) _ _
    by_cases h : (∃ i, AxisIs ax1 s.length i) ∧ ∃ j, AxisIs ax2 s.length j
    · refine .inr ⟨h, ?_⟩
      obtain ⟨⟨i, h1⟩, ⟨j, h2⟩⟩ := h
      simp only [SView.out, axisNat_of h1, axisNat_of h2]
      refine ⟨(gives_transpose hw ha h1 h2).weak, ?_⟩
      obtain ⟨_, ⟨r, e, _, d⟩⟩ := C14_transpose ha h1 h2
      refine ⟨r, e, ?_, d⟩
      obtain ⟨l, hl, e⟩ := bind_eq_ok.1 e
      cases e
      exact (wf_transpose hw hl).2.ready
    · left
      have hc : (∀ k, ¬ AxisIs ax1 a.ndims k) ∨ (∀ k, ¬ AxisIs ax2 a.ndims k) := by
        rw [not_and_or, not_exists, not_exists, ← hs] at h
        exact h
      have h1 := C14_transpose_rejects hc
      refine ⟨h1, ?_⟩
      unfold Arr.transpose at h1
      unfold Arr.intoTranspose
      cases hl : a.transposeLayout ax1 ax2 with
      | error e => rw [hl] at h1; cases h1; rfl
      | ok l => rw [hl] at h1; cases h1

variable [Field α] [Build]

theorem diff_view {sh₀ : List (List Nat)} {t : Tensor α} {el : (Nat → List Nat → α) → List Nat → α} (op : SView)
    (h : Diff sh₀ t.gradFn t.arr.shape el) (ho : op.Applies t.arr.shape) :
    Diff sh₀ (op.node t) (op.out t.arr.shape).1 fun v i => el v ((op.out t.arr.shape).2 i) := by
  cases op with
  | view => exact h
  | reshape ns =>
    unfold SView.node
    by_cases hs : ns = t.arr.shape
    · subst hs
      simp only [if_pos]
      exact h.congr fun v i hi => by simp only [SView.out]; rw [unrank_rank hi]
    · simp only [if_neg hs]
      exact diff_reshape h fun v => elements_relayout ho _
  | squeeze => exact diff_reshape h fun v => C15_squeeze_order _ _
  | unsqueeze ax =>
    obtain ⟨k, hk⟩ := ho
    simp only [SView.out, axisNat_of hk]
    exact diff_reshape h fun v => elements_unsqueeze (by have := hk.1; omega) _
  | transpose ax1 ax2 =>
    obtain ⟨⟨i, h1⟩, ⟨j, h2⟩⟩ := ho
    simp only [SView.out, axisNat_of h1, axisNat_of h2]
    exact diff_transpose h h1 h2

end Verif
