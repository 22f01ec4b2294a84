import Verif.Lemmas.History
import Mathlib.Data.List.Nodup
import Mathlib.Data.List.Perm.Subperm

set_option linter.unusedSimpArgs false

/-!
# Distinct elements of a view reached without `broadcast_to` are distinct memory cells
-/

namespace Verif

variable {α : Type}

/-- Different multi-indices are different cells. -/
def Arr.Inj (a : Arr α) : Prop :=
  ∀ i j, InB i a.shape → InB j a.shape → offset i a.stride = offset j a.stride → i = j

theorem Arr.Reindexes.inj {r a : Arr α} {g : List Nat → List Nat} (h : r.Reindexes a g) (ha : a.Inj)
    (hg : ∀ i j, InB i r.shape → InB j r.shape → g i = g j → i = j) : r.Inj := by
  intro i j hi hj he
  apply hg i j hi hj
  apply ha _ _ (h.inb i hi) (h.inb j hj)
  have h1 := h.pos i hi
  have h2 := h.pos j hj
  omega

theorem withUnits_inj {s J K : List Nat} (h : InB J (s.filter (· ≠ 1))) (h' : InB K (s.filter (· ≠ 1)))
    (he : withUnits s J = withUnits s K) : J = K := by
  induction s generalizing J K with
  | nil => cases J <;> cases K <;> simp_all
  | cons n s ih =>
    by_cases hn : n = 1
    · simp [hn, withUnits] at h h' he
      exact ih (by simpa using h) (by simpa using h') he
    · cases J with
      | nil => simp [hn] at h
      | cons j J => cases K with
        | nil => simp [hn] at h'
        | cons k K =>
          simp [hn, withUnits] at h h' he
          rw [he.1, ih (by simpa using h.2) (by simpa using h'.2) he.2]

theorem eraseIdx_inj {i j : List Nat} {k : Nat} (hi : i[k]? = some 0) (hj : j[k]? = some 0)
    (h : i.eraseIdx k = j.eraseIdx k) : i = j := by
  induction k generalizing i j with
  | zero => cases i <;> cases j <;> simp_all
  | succ k ih =>
    cases i with
    | nil => simp at hi
    | cons x i => cases j with
      | nil => simp at hj
      | cons y j =>
        simp at hi hj h
        rw [h.1, ih hi hj h.2]

theorem selectIndex_inj {xs : List Select} {s J K : List Nat} (hf : SelectFits xs s) (h : InB J (selectShape xs s))
    (h' : InB K (selectShape xs s)) (he : selectIndex xs J = selectIndex xs K) : J = K := by
  induction xs generalizing s J K with
  | nil => simpa [selectIndex] using he
  | cons x xs ih => cases s with
    | nil => exact hf.elim
    | cons n s => cases x with
      | fix i =>
        simp only [selectIndex, List.cons.injEq, true_and] at he
        exact ih hf.2 h h' he
      | keep a b =>
        cases J with
        | nil => simp [selectShape] at h
        | cons j J => cases K with
          | nil => simp [selectShape] at h'
          | cons k K =>
            simp [selectShape] at h h'
            simp [selectIndex] at he
            rw [he.1, ih hf.2 h.2 h'.2 he.2]

theorem putTwo_inj {i x y j x' y' n k : Nat} {J K : List Nat} (s : List Nat) (hs : s.length = n)
    (hJ : J.length = (dropTwo i j k s).length) (hK : K.length = (dropTwo i j k s).length)
    (h : putTwo i x j y n k J = putTwo i x' j y' n k K) : J = K := by
  induction s generalizing n k J K with
  | nil =>
    simp [dropTwo] at hJ hK
    rw [hJ, hK]
  | cons m s ih =>
    subst hs
    simp only [List.length_cons, putTwo] at h
    simp only [dropTwo] at hJ hK
    by_cases h1 : k = i
    · rw [if_pos (.inl h1)] at hJ hK
      rw [if_pos h1, if_pos h1] at h
      exact ih rfl hJ hK (List.cons.inj h).2
    · by_cases h2 : k = j
      · rw [if_pos (.inr h2)] at hJ hK
        rw [if_neg h1, if_neg h1, if_pos h2, if_pos h2] at h
        exact ih rfl hJ hK (List.cons.inj h).2
      · rw [if_neg (by tauto)] at hJ hK
        rw [if_neg h1, if_neg h1, if_neg h2, if_neg h2] at h
        cases J with
        | nil => simp at hJ
        | cons a J => cases K with
          | nil => simp at hK
          | cons b K =>
            simp at h hJ hK
            rw [h.1, ih rfl hJ hK h.2]

theorem inj_into {a : Arr α} {s st : List Nat} (h : (a.reshapedView s st).Inj) : (a.intoReshapedView s st).Inj := h

theorem inj_transpose {a : Arr α} (hl : a.stride.length = a.shape.length) (ha : a.Inj) {ax1 ax2 : Int} {l : List Nat × List Nat}
    (h : a.transposeLayout ax1 ax2 = .ok l) : (a.reshapedView l.1 l.2).Inj := by
  obtain ⟨i, h1⟩ : ∃ i, AxisIs ax1 a.ndims i := by
    by_contra hc
    rw [not_exists] at hc
    rw [Arr.transposeLayout, asAbsolute_error hc] at h; cases h
  obtain ⟨j, h2⟩ : ∃ i, AxisIs ax2 a.ndims i := by
    by_contra hc
    rw [not_exists] at hc
    rw [Arr.transposeLayout, asAbsolute_ok h1, asAbsolute_error hc] at h; cases h
  obtain ⟨e, hr⟩ := transpose_reindexes hl h1 h2
  rw [e] at h; cases h
  have hi' : i < a.shape.length := h1.1
  have hj' : j < a.shape.length := h2.1
  refine hr.inj ha fun p q hp hq he => ?_
  have hp' := hp.length
  have hq' := hq.length
  simp [Arr.reshapedView, length_exchange] at hp' hq'
  rw [← exchange_exchange i j p (by omega) (by omega), he, exchange_exchange i j q (by omega) (by omega)]

theorem inj_squeeze {a : Arr α} (hl : a.stride.length = a.shape.length) (ha : a.Inj) :
    (a.reshapedView a.squeezeLayout.1 a.squeezeLayout.2).Inj := by
  obtain ⟨e, hr⟩ := squeeze_reindexes hl
  refine hr.inj ha fun p q hp hq he => ?_
  simp only [Arr.reshapedView, e] at hp hq
  exact withUnits_inj hp hq he

theorem inj_unsqueeze {a : Arr α} (hl : a.stride.length = a.shape.length) (ha : a.Inj) {axis : Int} {l : List Nat × List Nat}
    (h : a.unsqueezeLayout axis = .ok l) : (a.reshapedView l.1 l.2).Inj := by
  obtain ⟨k, hk⟩ : ∃ i, AxisIs axis (a.ndims + 1) i := by
    by_contra hc
    rw [not_exists] at hc
    rw [Arr.unsqueezeLayout, asAbsolute_error hc] at h; cases h
  obtain ⟨d, e, hr⟩ := unsqueeze_reindexes hl hk
  have hk' : k ≤ a.shape.length := by have := hk.1; unfold Arr.ndims at this; omega
  rw [e] at h; cases h
  refine hr.inj ha fun p q hp hq he => ?_
  exact eraseIdx_inj (InB_eraseIdx hk' hp).2 (InB_eraseIdx hk' hq).2 he

theorem inj_reshape {a : Arr α} (hw : a.WF) (ha : a.Inj) {ns : List Nat} {l : List Nat × List Nat}
    (h : a.reshapeLayout ns = .ok l) : (a.reshapedView l.1 l.2).Inj := by
  have hl := hw.valid.1
  rcases reshapeLayout_ok h with ⟨_, rfl⟩ | ⟨hs, hu, hn, hne⟩
  · exact ha
  · obtain ⟨e, he⟩ := hw.flags.uniform hu
    have hne' : a.shape ≠ [] := by
      intro h0; rw [h0] at hl; exact hne (List.length_eq_zero_iff.1 hl)
    obtain ⟨st, e1, hr, e2, _⟩ := reshape_reindexes hl hw.pos.good he hu hn hne'
    rw [e1] at h; cases h
    refine hr.inj ha fun p q hp hq he => ?_
    have hp' : InB p ns := hp
    have hq' : InB q ns := hq
    have h1 := rank_lt hp'
    have h2 := rank_lt hq'
    have := congrArg (rank · a.shape) he
    rw [rank_unrank (by omega), rank_unrank (by omega)] at this
    rw [← unrank_rank hp', this, unrank_rank hq']

theorem inj_sliceResult {a r : Arr α} (hl : a.stride.length = a.shape.length) (ha : a.Inj) {xs : List Select} {c : Bool}
    (hf : SelectFits xs a.shape)
    (h : a.sliceResult (selectShape xs a.shape) (selectStride xs a.stride) (selectOffset xs a.stride) c = .ok r) :
    r.Inj := by
  obtain ⟨h0, h1, h2, h3, h4, h5, _⟩ := sliceResult_inv hl hf h
  refine h4.inj ha fun p q hp hq he => ?_
  rw [h2] at hp hq
  exact selectIndex_inj hf hp hq he

theorem inj_diagonal {a r : Arr α} (hl : a.stride.length = a.shape.length) (ha : a.Inj) {o ax1 ax2 : Int}
    (h : a.offsetDiagonalAlong o ax1 ax2 = .ok r) : r.Inj := by
  obtain ⟨i, j, o1, o2, len, n1, n2, d1, d2, hij, e1, e2, e3, e4, h1, h2, rfl⟩ := diagonal_inv hl h
  obtain ⟨hi, rfl⟩ := List.getElem?_eq_some_iff.1 e1
  obtain ⟨hj, rfl⟩ := List.getElem?_eq_some_iff.1 e2
  obtain ⟨hi', rfl⟩ := List.getElem?_eq_some_iff.1 e3
  obtain ⟨hj', rfl⟩ := List.getElem?_eq_some_iff.1 e4
  have hr := diag_reindexes hl hi hj hij h1 h2
  rw [← others_eq_dropTwo, ← others_eq_dropTwo] at hr
  refine hr.inj ha fun p q hp hq he => ?_
  have key : ∀ idx, InB idx (dropTwo i j 0 a.shape ++ [len]) →
      ∃ J k, idx = J ++ [k] ∧ J.length = (dropTwo i j 0 a.shape).length := by
    intro idx h
    have hlen := h.length
    rcases List.eq_nil_or_concat idx with rfl | ⟨J, k, rfl⟩
    · simp at hlen
    · simp at hlen
      exact ⟨J, k, by simp, hlen⟩
  obtain ⟨P, x, rfl, hP⟩ := key p hp
  obtain ⟨Q, y, rfl, hQ⟩ := key q hq
  simp only [List.dropLast_concat, List.getLastD_concat] at he
  have hPQ := putTwo_inj a.shape rfl hP hQ he
  have : x = y := by
    -- the entry at position `i`
    have gen : ∀ (s : List Nat) (k u v : Nat) (J : List Nat), k ≤ i → i - k < s.length →
        J.length = (dropTwo i j k s).length → (putTwo i u j v s.length k J)[i - k]? = some u := by
      intro s
      induction s with
      | nil => intro k u v J hk h; simp at h
      | cons m s ih =>
        intro k u v J hk hlt hJ
        simp only [List.length_cons, putTwo]
        by_cases c1 : k = i
        · rw [if_pos c1]; simp [c1]
        · have e : i - k = (i - (k + 1)) + 1 := by omega
          rw [if_neg c1]
          simp only [dropTwo] at hJ
          simp only [List.length_cons] at hlt
          by_cases c2 : k = j
          · rw [if_pos c2, e, List.getElem?_cons_succ]
            rw [if_pos (.inr c2)] at hJ
            exact ih (k + 1) u v J (by omega) (by omega) hJ
          · rw [if_neg c2]
            rw [if_neg (by tauto)] at hJ
            cases J with
            | nil => simp at hJ
            | cons b J =>
              simp only
              rw [e, List.getElem?_cons_succ]
              exact ih (k + 1) u v J (by omega) (by omega) (by simpa using hJ)
    have g1 := gen a.shape 0 (x + o1) (x + o2) P (by omega) (by omega) hP
    have g2 := gen a.shape 0 (y + o1) (y + o2) Q (by omega) (by omega) hQ
    rw [he, g2] at g1
    simp at g1; omega
  rw [hPQ, this]

theorem Arr.WF.run_inj {a r : Arr α} (hw : a.WF) (ha : a.Inj) {op : ViewOp} (hop : NoBroadcast op) (hin : op.InRange a)
    (h : op.run a = .ok r) : r.Inj := by
  have hl := hw.valid.1
  cases op with
  | view => cases h; exact ha
  | intoView => cases h; exact ha
  | squeeze => cases h; exact inj_squeeze hl ha
  | intoSqueeze => cases h; exact inj_squeeze hl ha
  | reshape s => obtain ⟨l, h1, h2⟩ := bind_eq_ok.1 h; cases h2; exact inj_reshape hw ha h1
  | intoReshape s => obtain ⟨l, h1, h2⟩ := bind_eq_ok.1 h; cases h2; exact inj_reshape hw ha h1
  | unsqueeze ax => obtain ⟨l, h1, h2⟩ := bind_eq_ok.1 h; cases h2; exact inj_unsqueeze hl ha h1
  | intoUnsqueeze ax => obtain ⟨l, h1, h2⟩ := bind_eq_ok.1 h; cases h2; exact inj_unsqueeze hl ha h1
  | transpose x y => obtain ⟨l, h1, h2⟩ := bind_eq_ok.1 h; cases h2; exact inj_transpose hl ha h1
  | intoTranspose x y => obtain ⟨l, h1, h2⟩ := bind_eq_ok.1 h; cases h2; exact inj_transpose hl ha h1
  | slice ixs =>
    have hin' : IndexersInRange ixs a.shape := hin
    simp only [ViewOp.run] at h
    rw [slice_ok hl hin'] at h
    exact inj_sliceResult hl ha hin'.fits h
  | sliceAlong ax ix =>
    obtain ⟨xs, hf, h⟩ := sliceAlong_inv hl hin h
    exact inj_sliceResult hl ha hf h
  | broadcastTo s => cases hop
  | diagonal o x y => exact inj_diagonal hl ha h

theorem inj_fromContiguous (s : List Nat) (data : List α) : (Arr.fromContiguousOwnedBuffer s data).Inj := by
  intro i j hi hj he
  have hi' : InB i s := hi
  have hj' : InB j s := hj
  simp only [Arr.fromContiguousOwnedBuffer] at he
  rw [offset_strideFromShape hi'.length, offset_strideFromShape hj'.length] at he
  rw [← unrank_rank hi', he, unrank_rank hj']

theorem Fresh.inj {a : Arr α} (h : Fresh a) : a.Inj := by
  obtain ⟨s, data, _, rfl⟩ := h
  exact inj_fromContiguous s data

theorem inj_history {a b : Arr α} (hw : a.WF) (ha : a.Inj) (h : History NoBroadcast a b) : b.Inj := by
  suffices b.WF ∧ b.Inj from this.2
  induction h with
  | refl => exact ⟨hw, ha⟩
  | step op _ hop hin hrun ih => exact ⟨ih.1.run hop hin hrun, ih.1.run_inj ih.2 hop hin hrun⟩

/-- offsets of an injective layout are pairwise distinct -/
theorem Arr.Inj.nodup {a : Arr α} (h : a.Inj) : (offsets a.shape a.stride).Nodup := by
  unfold offsets
  refine (List.nodup_map_iff_inj_on (indices_nodup _)).2 ?_
  intro i hi j hj he
  exact h i j (mem_indices.1 hi) (mem_indices.1 hj) he

theorem Arr.Inj.numel_le_span {a : Arr α} (h : a.Inj) (hl : a.stride.length = a.shape.length) :
    numel a.shape ≤ span a.shape a.stride + 1 := by
  rw [← length_offsets a.shape a.stride, ← List.length_range (n := span a.shape a.stride + 1)]
  apply List.Subperm.length_le
  apply h.nodup.subperm
  intro x hx
  obtain ⟨idx, hi, rfl⟩ := List.mem_map.1 hx
  rw [List.mem_range]
  exact offset_lt_bufferLength (mem_indices.1 hi) hl.symm

end Verif
