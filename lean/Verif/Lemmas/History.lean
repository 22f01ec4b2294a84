import Verif.Lemmas.ViewOps
import Verif.Lemmas.Broadcast
import Verif.Spec.History

set_option linter.unusedSimpArgs false

/-!
# The invariant of arrays reached without `broadcast_to`
-/

namespace Verif

variable {α : Type}

/-- distance from the first to the last element -/
def span (s st : List Nat) : Nat := ((s.zip st).map fun p => p.2 * (p.1 - 1)).sum

@[simp] theorem span_nil (st : List Nat) : span [] st = 0 := rfl
@[simp] theorem span_cons (n d : Nat) (s st : List Nat) : span (n :: s) (d :: st) = d * (n - 1) + span s st := by
  simp [span]

/-- no zero strides, or empty -/
def PosStride (s st : List Nat) : Prop := numel s = 0 ∨ ∀ d ∈ st, 0 < d

theorem PosStride.noZero {s st : List Nat} (h : PosStride s st) : NoZero s st := by
  rcases h with h | h
  · exact .inl h
  · refine .inr fun p hp h0 => ?_
    have := h p.2 (List.of_mem_zip (a := p.1) (b := p.2) (by simpa using hp)).2
    omega

theorem PosStride.good {s st : List Nat} (h : PosStride s st) : Good s st := .inl h.noZero

/-- Invariant of all arrays reached without `broadcast_to`. -/
structure Arr.WF (a : Arr α) : Prop where
  valid : a.Valid
  flags : a.FlagsExact
  pos : PosStride a.shape a.stride
  len : a.len = numel a.shape ∨ (numel a.shape ≠ 0 ∧ a.len = span a.shape a.stride + 1)

theorem numel_ne_zero {s : List Nat} : numel s ≠ 0 ↔ ∀ n ∈ s, n ≠ 0 := by
  rw [Ne, numel_eq_zero]
  constructor
  · intro h n hn h0; exact h (h0 ▸ hn)
  · intro h h0; exact h 0 h0 rfl

theorem posStride_strideFromShape (s : List Nat) : PosStride s (strideFromShape s) := by
  by_cases h : numel s = 0
  · exact .inl h
  · right
    induction s with
    | nil => simp
    | cons n s ih =>
      have h2 : numel s ≠ 0 := by intro h0; apply h; simp [h0]
      rw [strideFromShape_cons]
      intro d hd
      rcases List.mem_cons.1 hd with rfl | hd
      · omega
      · exact ih h2 d hd

theorem span_strideFromShape (s : List Nat) (e : Nat) (h : numel s ≠ 0) :
    span s ((strideFromShape s).map (· * e)) = (numel s - 1) * e := by
  induction s with
  | nil => simp
  | cons n s ih =>
    have h2 : numel s ≠ 0 := by intro h0; apply h; simp [h0]
    have hn : n ≠ 0 := by rintro rfl; simp at h
    rw [strideFromShape_cons, List.map_cons, span_cons, ih h2, numel_cons]
    obtain ⟨m, rfl⟩ := Nat.exists_eq_succ_of_ne_zero hn
    obtain ⟨k, hk⟩ := Nat.exists_eq_succ_of_ne_zero h2
    rw [hk]
    simp only [Nat.succ_eq_add_one, Nat.add_sub_cancel]
    have : (m + 1) * (k + 1) - 1 = m * (k + 1) + k := by
      rw [Nat.succ_mul]; omega
    rw [this]; ring

theorem Arr.WF.fromContiguous {s : List Nat} {data : List α} (h : data.length = numel s) :
    (Arr.fromContiguousOwnedBuffer s data).WF where
  valid := by
    refine ⟨by simp [Arr.fromContiguousOwnedBuffer], fun idx hi => ?_⟩
    simp only [Arr.fromContiguousOwnedBuffer] at hi ⊢
    rw [offset_strideFromShape hi.length, h]
    have := rank_lt hi; omega
  flags := flagsExact_fromContiguous s data
  pos := posStride_strideFromShape s
  len := .inl h

theorem Fresh.wf {a : Arr α} (h : Fresh a) : a.WF := by
  obtain ⟨s, data, hl, rfl⟩ := h
  exact Arr.WF.fromContiguous hl

/-! ### layouts -/

/-- A new layout over the same elements keeps the invariant. -/
theorem Arr.WF.layout {a : Arr α} (ha : a.WF) {s st : List Nat} {g : List Nat → List Nat}
    (hr : (a.reshapedView s st).Reindexes a g) (hp : PosStride s st) (hn : numel s = numel a.shape)
    (hs : numel s ≠ 0 → span s st = span a.shape a.stride) :
    (a.reshapedView s st).WF ∧ (a.intoReshapedView s st).WF := by
  refine ⟨⟨hr.valid ha.valid, flagsExact_update, hp, .inl rfl⟩,
    ⟨(show (a.intoReshapedView s st).Reindexes a g from ⟨hr.buf, hr.len, hr.inb, hr.pos⟩).valid ha.valid,
      flagsExact_update, hp, ?_⟩⟩
  simp only [Arr.intoReshapedView]
  rcases ha.len with h | ⟨h0, h⟩
  · left; omega
  · right; exact ⟨by omega, by rw [hs (by omega)]; exact h⟩

theorem span_exchange {i j : Nat} {s st : List Nat} (hl : s.length = st.length) (hi : i < s.length) (hj : j < s.length) :
    span (exchange i j s) (exchange i j st) = span s st := by
  unfold span
  rw [zip_exchange hl hi hj]
  exact ((exchange_perm (by simp; omega) (by simp; omega)).map _).sum_eq

theorem mem_exchange {i j : Nat} {l : List α} (hi : i < l.length) (hj : j < l.length) {x : α} :
    x ∈ exchange i j l ↔ x ∈ l := (exchange_perm hi hj).mem_iff

theorem wf_transpose {a : Arr α} (ha : a.WF) {ax1 ax2 : Int} {l : List Nat × List Nat}
    (h : a.transposeLayout ax1 ax2 = .ok l) : (a.reshapedView l.1 l.2).WF ∧ (a.intoReshapedView l.1 l.2).WF := by
  have hl := ha.valid.1
  obtain ⟨i, h1⟩ : ∃ i, AxisIs ax1 a.ndims i := by
    by_contra hc
    rw [not_exists] at hc
    rw [Arr.transposeLayout, asAbsolute_error hc] at h; cases h
  obtain ⟨j, h2⟩ : ∃ i, AxisIs ax2 a.ndims i := by
    by_contra hc
    rw [not_exists] at hc
    rw [Arr.transposeLayout, asAbsolute_ok h1, asAbsolute_error hc] at h; cases h
  obtain ⟨e, hr⟩ := transpose_reindexes hl h1 h2
  rw [e] at h; cases h
  have hi : i < a.shape.length := h1.1
  have hj : j < a.shape.length := h2.1
  refine ha.layout hr ?_ (numel_exchange hi hj) (fun _ => span_exchange hl.symm hi hj)
  rcases ha.pos with hp | hp
  · left; simp only [numel_exchange hi hj]; exact hp
  · right; intro d hd; exact hp d ((mem_exchange (by omega) (by omega)).1 hd)

theorem span_sqz {s st : List Nat} (hl : s.length = st.length) : span (sqz s st).1 (sqz s st).2 = span s st := by
  induction s generalizing st with
  | nil => cases st <;> simp_all [sqz]
  | cons n s ih => cases st with
    | nil => simp at hl
    | cons d st =>
      have := ih (st := st) (by simpa using hl)
      rw [sqz_cons]
      by_cases hn : n = 1
      · simp [hn, this]
      · simp [hn, this]

theorem mem_sqz {s st : List Nat} {d : Nat} (h : d ∈ (sqz s st).2) : d ∈ st := by
  unfold sqz at h
  simp [List.unzip_eq_map] at h
  obtain ⟨a, ha, _⟩ := h
  exact (List.of_mem_zip ha).2

theorem wf_squeeze {a : Arr α} (ha : a.WF) :
    (a.reshapedView a.squeezeLayout.1 a.squeezeLayout.2).WF ∧
    (a.intoReshapedView a.squeezeLayout.1 a.squeezeLayout.2).WF := by
  have hl := ha.valid.1
  obtain ⟨e, hr⟩ := squeeze_reindexes hl
  have hn : numel a.squeezeLayout.1 = numel a.shape := by rw [e, numel_filter_one]
  refine ha.layout hr ?_ hn (fun _ => span_sqz hl.symm)
  rcases ha.pos with hp | hp
  · left; omega
  · right; intro d hd; exact hp d (mem_sqz hd)

theorem span_insert {s st : List Nat} {k d : Nat} (hl : s.length = st.length) (hk : k ≤ s.length) :
    span (s.insertIdx k 1) (st.insertIdx k d) = span s st := by
  induction s generalizing st k with
  | nil =>
    cases st with
    | cons => simp at hl
    | nil => simp at hk; subst hk; simp
  | cons n s ih => cases st with
    | nil => simp at hl
    | cons c st => cases k with
      | zero => simp
      | succ k => simp [ih (st := st) (k := k) (by simpa using hl) (by simpa using hk)]

theorem wf_unsqueeze {a : Arr α} (ha : a.WF) {axis : Int} {l : List Nat × List Nat}
    (h : a.unsqueezeLayout axis = .ok l) : (a.reshapedView l.1 l.2).WF ∧ (a.intoReshapedView l.1 l.2).WF := by
  have hl := ha.valid.1
  obtain ⟨k, hk⟩ : ∃ i, AxisIs axis (a.ndims + 1) i := by
    by_contra hc
    rw [not_exists] at hc
    rw [Arr.unsqueezeLayout, asAbsolute_error hc] at h; cases h
  obtain ⟨d, e, hr⟩ := unsqueeze_reindexes hl hk
  have hk' : k ≤ a.shape.length := by have := hk.1; unfold Arr.ndims at this; omega
  have hnum := numel_insertIdx_one hk'
  have hd : numel a.shape = 0 ∨ (∀ x ∈ a.stride, 0 < x) ∧ 0 < d := by
    rcases ha.pos with hp | hp
    · exact .inl hp
    · by_cases h0 : numel a.shape = 0
      · exact .inl h0
      · refine .inr ⟨hp, ?_⟩
        unfold Arr.unsqueezeLayout at e
        rw [asAbsolute_ok hk] at e
        simp only [ok_bind] at e
        by_cases hkn : k = a.ndims
        · rw [if_pos hkn] at e
          simp only [pure_res, Except.ok.injEq, Prod.mk.injEq] at e
          have : d ∈ a.stride ++ [1] := by
            rw [e.2]; exact (List.mem_insertIdx (by omega)).2 (.inl rfl)
          simp at this
          rcases this with h | h
          · exact hp d h
          · omega
        · rw [if_neg hkn] at e
          have hlt : k < a.shape.length := by unfold Arr.ndims at hkn; omega
          simp only [List.getElem?_eq_getElem hlt, List.getElem?_eq_getElem (show k < a.stride.length by omega),
            pure_res, Except.ok.injEq, Prod.mk.injEq] at e
          have h1 := congrArg (fun l => l[k]?) e.2
          have hkl : k ≤ a.stride.length := by omega
          simp only [List.getElem?_insertIdx_self, if_pos hkl, Option.some.injEq] at h1
          rw [← h1]
          exact Nat.mul_pos (hp _ (List.getElem_mem _)) (Nat.pos_of_ne_zero (numel_ne_zero.1 h0 _ (List.getElem_mem _)))
  rw [e] at h; cases h
  refine ha.layout hr ?_ hnum (fun _ => span_insert hl.symm hk')
  rcases hd with h0 | ⟨h1, h2⟩
  · left; simp only [hnum]; exact h0
  · right
    intro x hx
    rcases (List.mem_insertIdx (by omega)).1 hx with rfl | hx
    · exact h2
    · exact h1 x hx

/-- with positive strides, uniform means row-major times a positive step -/
theorem uniform_strides {s st : List Nat} {e : Nat} (hl : s.length = st.length) (hp : ∀ d ∈ st, 0 < d)
    (hu : hasUniformStride s st = some e) (hne : s ≠ []) : st = (strideFromShape s).map (· * e) ∧ e ≠ 0 := by
  cases s with
  | nil => simp at hne
  | cons n s => cases st with
    | nil => simp at hl
    | cons d st =>
      exact hasUniformStride_ne_zero (by simpa using hl) hu (by have := hp d (by simp); omega)

theorem reshapeLayout_ok {a : Arr α} {ns : List Nat} {l : List Nat × List Nat} (h : a.reshapeLayout ns = .ok l) :
    (ns = a.shape ∧ l = (a.shape, a.stride)) ∨
    (ns ≠ a.shape ∧ a.isUniformlyStrided = true ∧ numel ns = numel a.shape ∧ a.stride ≠ []) := by
  unfold Arr.reshapeLayout at h
  by_cases hs : ns = a.shape
  · rw [if_pos hs] at h
    left; cases h; exact ⟨hs, rfl⟩
  · right
    rw [if_neg hs] at h
    by_cases hu : a.isUniformlyStrided = true
    · rw [assert_ok hu] at h
      simp only [ok_bind] at h
      by_cases hz : a.size ≠ numel ns
      · rw [if_pos hz] at h; cases h
      · rw [if_neg hz] at h
        refine ⟨hs, hu, ?_, ?_⟩
        · unfold Arr.size at hz; omega
        · intro h0; rw [h0] at h; cases h
    · rw [assert_fail (by simpa using hu)] at h; cases h

theorem wf_reshape {a : Arr α} (ha : a.WF) {ns : List Nat} {l : List Nat × List Nat}
    (h : a.reshapeLayout ns = .ok l) : (a.reshapedView l.1 l.2).WF ∧ (a.intoReshapedView l.1 l.2).WF := by
  have hl := ha.valid.1
  rcases reshapeLayout_ok h with ⟨_, rfl⟩ | ⟨hs, hu, hn, hne⟩
  · have hr : (a.reshapedView a.shape a.stride).Reindexes a id := ⟨rfl, hl, fun _ h => h, fun _ _ => rfl⟩
    exact ha.layout hr ha.pos rfl (fun _ => rfl)
  · obtain ⟨e, he⟩ := ha.flags.uniform hu
    have hne' : a.shape ≠ [] := by
      intro h0; rw [h0] at hl; exact hne (List.length_eq_zero_iff.1 hl)
    obtain ⟨st, e1, hr, e2, _⟩ := reshape_reindexes hl ha.pos.good he hu hn hne'
    rw [e1] at h; cases h
    obtain rfl := e2 hs
    refine ha.layout hr ?_ hn (fun h0 => ?_)
    · rcases ha.pos with hp | hp
      · left; simp only; omega
      · obtain ⟨_, h2⟩ := uniform_strides hl.symm hp he hne'
        rcases posStride_strideFromShape ns with h | h
        · exact .inl h
        · right
          intro d hd
          obtain ⟨x, hx, rfl⟩ := List.mem_map.1 hd
          exact Nat.mul_pos (h x hx) (Nat.pos_of_ne_zero h2)
    · have h0' : numel ns ≠ 0 := h0
      rcases ha.pos with hp | hp
      · omega
      · obtain ⟨h1, h2⟩ := uniform_strides hl.symm hp he hne'
        rw [h1]
        show span ns _ = _
        rw [span_strideFromShape _ _ h0', span_strideFromShape _ _ (by omega), hn]

/-! ### slices -/

theorem calculateStridedBufferLength_eq_ok {s st : List Nat} {n : Nat} (hl : s.length = st.length)
    (h : calculateStridedBufferLength s st = .ok n) : numel s ≠ 0 ∧ n = span s st + 1 := by
  have h0 : numel s ≠ 0 := by
    intro h0
    rw [numel_eq_zero] at h0
    unfold calculateStridedBufferLength at h
    obtain ⟨k, hk, e⟩ := List.getElem_of_mem h0
    have hp : ((s.zip st)[k]'(by simp; omega)) ∈ s.zip st := List.getElem_mem _
    obtain ⟨e', he⟩ := mapM_error (f := fun p : Nat × Nat => do let m ← usub p.1 1; return p.2 * m) (e := .overflow) hp
      (by rw [List.getElem_zip]; simp only [e]; rfl)
    simp only [he] at h
    cases h
  rw [calculateStridedBufferLength_ok h0] at h
  cases h
  exact ⟨h0, rfl⟩

theorem mem_selectStride {xs : List Select} {st : List Nat} {d : Nat} (h : d ∈ selectStride xs st) : d ∈ st := by
  induction xs generalizing st with
  | nil => simpa [selectStride] using h
  | cons x xs ih => cases st with
    | nil => cases x <;> simpa [selectStride] using h
    | cons c st =>
      cases x with
      | fix i => exact List.mem_cons_of_mem _ (ih h)
      | keep a b =>
        simp only [selectStride] at h
        rcases List.mem_cons.1 h with rfl | h
        · simp
        · exact List.mem_cons_of_mem _ (ih h)

theorem numel_selectShape {xs : List Select} {s : List Nat} (hf : SelectFits xs s)
    (h : numel (selectShape xs s) ≠ 0) : numel s ≠ 0 := by
  induction xs generalizing s with
  | nil => simpa [selectShape] using h
  | cons x xs ih => cases s with
    | nil => exact hf.elim
    | cons n s =>
      cases x with
      | fix i =>
        have h1 := ih hf.2 h
        have h2 : i < n := hf.1
        simp; omega
      | keep a b =>
        simp only [selectShape, numel_cons] at h
        have h1 : numel (selectShape xs s) ≠ 0 := by intro h0; apply h; simp [h0]
        have h2 : a + b ≤ n := hf.1
        have h3 : b ≠ 0 := by rintro rfl; simp at h
        have := ih hf.2 h1
        simp; omega

theorem sliceResult_inv {a r : Arr α} {xs : List Select} {c : Bool} (hl : a.stride.length = a.shape.length)
    (hf : SelectFits xs a.shape)
    (h : a.sliceResult (selectShape xs a.shape) (selectStride xs a.stride) (selectOffset xs a.stride) c = .ok r) :
    numel r.shape ≠ 0 ∧ r.len = span r.shape r.stride + 1 ∧ r.shape = selectShape xs a.shape ∧
      r.stride = selectStride xs a.stride ∧ r.Reindexes a (selectIndex xs) ∧ r.FlagsExact ∧
      r.flags.writeable = a.flags.writeable := by
  have hls : (selectShape xs a.shape).length = (selectStride xs a.stride).length := (length_selectStride hl.symm).symm
  obtain ⟨len, h1, h2⟩ := bind_eq_ok.1 h
  obtain ⟨h0, hlen⟩ := calculateStridedBufferLength_eq_ok hls h1
  obtain ⟨r', e1, e2, e3, e4, e5, e6, _⟩ := sliceResult_reindexes hl hf h0 c
  rw [h] at e1; cases e1
  refine ⟨by rw [e2]; exact h0, ?_, e2, e3, e4, e5, e6⟩
  cases h2; exact hlen

theorem wf_sliceResult {a r : Arr α} (ha : a.WF) {xs : List Select} {c : Bool} (hf : SelectFits xs a.shape)
    (h : a.sliceResult (selectShape xs a.shape) (selectStride xs a.stride) (selectOffset xs a.stride) c = .ok r) :
    r.WF := by
  obtain ⟨h0, h1, h2, h3, h4, h5, _⟩ := sliceResult_inv ha.valid.1 hf h
  refine ⟨h4.valid ha.valid, h5, ?_, .inr ⟨h0, h1⟩⟩
  rcases ha.pos with hp | hp
  · exact absurd hp (numel_selectShape hf (by rw [← h2]; exact h0))
  · right; intro d hd; rw [h3] at hd; exact hp d (mem_selectStride hd)

/-- inversion of `slice_along` -/
theorem sliceAlong_inv {a r : Arr α} {axis : Int} {ix : Indexer} (hl : a.stride.length = a.shape.length)
    (hin : (ViewOp.sliceAlong axis ix).InRange a) (h : a.sliceAlong axis ix = .ok r) :
    ∃ xs, SelectFits xs a.shape ∧
      a.sliceResult (selectShape xs a.shape) (selectStride xs a.stride) (selectOffset xs a.stride) true = .ok r := by
  obtain ⟨k, hk⟩ : ∃ i, AxisIs axis a.ndims i := by
    by_contra hc
    rw [not_exists] at hc
    rw [Arr.sliceAlong, asAbsolute_error hc] at h; cases h
  have hlt : k < a.shape.length := hk.1
  have hn := List.getElem?_eq_getElem hlt
  obtain ⟨hf, e⟩ := sliceAlong_ok hl hk hn (hin k _ hk hn)
  exact ⟨_, hf, e ▸ h⟩

/-! ### diagonals -/

theorem mem_dropTwo {i j k : Nat} {l : List α} {x : α} (h : x ∈ dropTwo i j k l) : x ∈ l := by
  induction l generalizing k with
  | nil => simp [dropTwo] at h
  | cons y l ih =>
    simp only [dropTwo] at h
    split at h
    · exact List.mem_cons_of_mem _ (ih h)
    · rcases List.mem_cons.1 h with rfl | h
      · simp
      · exact List.mem_cons_of_mem _ (ih h)

/-- if all axes except `i` and `j` have positive extents, and these two as well, the array is not empty -/
theorem mem_of_dropTwo {i j k : Nat} {s : List Nat} (h : ∀ n ∈ dropTwo i j k s, n ≠ 0)
    (hi : ∀ n, k ≤ i → s[i - k]? = some n → n ≠ 0) (hj : ∀ n, k ≤ j → s[j - k]? = some n → n ≠ 0) : ∀ n ∈ s, n ≠ 0 := by
  induction s generalizing k with
  | nil => simp
  | cons m s ih =>
    have step : ∀ x, (∀ n, k ≤ x → (m :: s)[x - k]? = some n → n ≠ 0) → ∀ n, k + 1 ≤ x → s[x - (k + 1)]? = some n → n ≠ 0 := by
      intro x hx n hk he
      apply hx n (by omega)
      rw [show x - k = (x - (k + 1)) + 1 by omega]; simpa using he
    intro n hn
    simp only [dropTwo] at h
    split at h
    · rename_i hc
      rcases List.mem_cons.1 hn with rfl | hn
      · rcases hc with rfl | rfl
        · exact hi n (by omega) (by simp)
        · exact hj n (by omega) (by simp)
      · exact ih h (step i hi) (step j hj) n hn
    · rcases List.mem_cons.1 hn with rfl | hn
      · exact h n (by simp)
      · exact ih (fun n hn => h n (List.mem_cons_of_mem _ hn)) (step i hi) (step j hj) n hn

/-- inversion of `offset_diagonal_along` -/
theorem diagonal_inv {a r : Arr α} {o ax1 ax2 : Int} (hl : a.stride.length = a.shape.length)
    (h : a.offsetDiagonalAlong o ax1 ax2 = .ok r) :
    ∃ (i j o1 o2 len : Nat) (n1 n2 d1 d2 : Nat), i ≠ j ∧ a.shape[i]? = some n1 ∧ a.shape[j]? = some n2 ∧
      a.stride[i]? = some d1 ∧ a.stride[j]? = some d2 ∧
      len + o1 ≤ n1 ∧ len + o2 ≤ n2 ∧
      r = a.reshapedViewWithOffset (o1 * d1 + o2 * d2) (dropTwo i j 0 a.shape ++ [len]) (dropTwo i j 0 a.stride ++ [d1 + d2]) := by
  unfold Arr.offsetDiagonalAlong at h
  obtain ⟨_, _, h⟩ := bind_eq_ok.1 h
  obtain ⟨i, hi, h⟩ := bind_eq_ok.1 h
  obtain ⟨j, hj, h⟩ := bind_eq_ok.1 h
  obtain ⟨_, hij, h⟩ := bind_eq_ok.1 h
  rw [assert_eq_ok] at hij
  have hij : i ≠ j := by simpa using hij
  have hi' : i < a.shape.length := (asAbsolute_eq_ok.1 hi).1
  have hj' : j < a.shape.length := (asAbsolute_eq_ok.1 hj).1
  have e1 := List.getElem?_eq_getElem hi'
  have e2 := List.getElem?_eq_getElem hj'
  have e3 := List.getElem?_eq_getElem (show i < a.stride.length by omega)
  have e4 := List.getElem?_eq_getElem (show j < a.stride.length by omega)
  generalize a.shape[i] = n1 at e1
  generalize a.shape[j] = n2 at e2
  generalize a.stride[i] = d1 at e3
  generalize a.stride[j] = d2 at e4
  rw [e1, e2, e3, e4] at h
  simp only at h
  split at h
  · split at h
    · cases h
    · rename_i hk
      cases h
      exact ⟨i, j, 0, o.toNat, min n1 (n2 - o.toNat), n1, n2, d1, d2, hij, e1, e2, e3, e4, by omega, by omega, by simp⟩
  · split at h
    · cases h
    · rename_i hk
      cases h
      exact ⟨i, j, (-o).toNat, 0, min (n1 - (-o).toNat) n2, n1, n2, d1, d2, hij, e1, e2, e3, e4, by omega, by omega, by simp⟩

theorem diagonal_reindexes_inv {a r : Arr α} {o ax1 ax2 : Int} (hl : a.stride.length = a.shape.length)
    (h : a.offsetDiagonalAlong o ax1 ax2 = .ok r) : ∃ g, r.Reindexes a g := by
  obtain ⟨i, j, o1, o2, len, n1, n2, d1, d2, hij, e1, e2, e3, e4, h1, h2, rfl⟩ := diagonal_inv hl h
  obtain ⟨hi, rfl⟩ := List.getElem?_eq_some_iff.1 e1
  obtain ⟨hj, rfl⟩ := List.getElem?_eq_some_iff.1 e2
  obtain ⟨hi', rfl⟩ := List.getElem?_eq_some_iff.1 e3
  obtain ⟨hj', rfl⟩ := List.getElem?_eq_some_iff.1 e4
  have := diag_reindexes hl hi hj hij h1 h2
  rw [← others_eq_dropTwo, ← others_eq_dropTwo] at this
  exact ⟨_, this⟩

theorem wf_diagonal {a r : Arr α} (ha : a.WF) {o ax1 ax2 : Int} (h : a.offsetDiagonalAlong o ax1 ax2 = .ok r) : r.WF := by
  obtain ⟨g, hr⟩ := diagonal_reindexes_inv ha.valid.1 h
  obtain ⟨i, j, o1, o2, len, n1, n2, d1, d2, hij, e1, e2, e3, e4, h1, h2, rfl⟩ := diagonal_inv ha.valid.1 h
  refine ⟨hr.valid ha.valid, flagsExact_update, ?_, .inl rfl⟩
  by_cases h0 : numel (dropTwo i j 0 a.shape ++ [len]) = 0
  · exact .inl h0
  · right
    have h0' : ∀ n ∈ dropTwo i j 0 a.shape ++ [len], n ≠ 0 := numel_ne_zero.1 h0
    have hlen : len ≠ 0 := h0' len (by simp)
    have hne : numel a.shape ≠ 0 := by
      rw [numel_ne_zero]
      refine mem_of_dropTwo (i := i) (j := j) (k := 0) (fun n hn => h0' n (by simp [hn])) ?_ ?_
      · intro n _ hn; simp [e1] at hn; omega
      · intro n _ hn; simp [e2] at hn; omega
    rcases ha.pos with hp | hp
    · exact absurd hp hne
    · intro d hd
      simp only [Arr.reshapedViewWithOffset, List.mem_append, List.mem_singleton] at hd
      rcases hd with hd | rfl
      · exact hp d (mem_dropTwo hd)
      · have := hp d1 (List.mem_of_getElem? e3); omega

/-! ### all operations -/

/-- The invariant is preserved by every operation except `broadcast_to`. -/
theorem Arr.WF.run {a r : Arr α} (ha : a.WF) {op : ViewOp} (hop : NoBroadcast op) (hin : op.InRange a)
    (h : op.run a = .ok r) : r.WF := by
  have hl := ha.valid.1
  have hid : (a.reshapedView a.shape a.stride).Reindexes a id := ⟨rfl, hl, fun _ h => h, fun _ _ => rfl⟩
  cases op with
  | view => cases h; exact (ha.layout hid ha.pos rfl (fun _ => rfl)).1
  | intoView => cases h; exact (ha.layout hid ha.pos rfl (fun _ => rfl)).2
  | squeeze => cases h; exact (wf_squeeze ha).1
  | intoSqueeze => cases h; exact (wf_squeeze ha).2
  | reshape s => obtain ⟨l, h1, h2⟩ := bind_eq_ok.1 h; cases h2; exact (wf_reshape ha h1).1
  | intoReshape s => obtain ⟨l, h1, h2⟩ := bind_eq_ok.1 h; cases h2; exact (wf_reshape ha h1).2
  | unsqueeze ax => obtain ⟨l, h1, h2⟩ := bind_eq_ok.1 h; cases h2; exact (wf_unsqueeze ha h1).1
  | intoUnsqueeze ax => obtain ⟨l, h1, h2⟩ := bind_eq_ok.1 h; cases h2; exact (wf_unsqueeze ha h1).2
  | transpose x y => obtain ⟨l, h1, h2⟩ := bind_eq_ok.1 h; cases h2; exact (wf_transpose ha h1).1
  | intoTranspose x y => obtain ⟨l, h1, h2⟩ := bind_eq_ok.1 h; cases h2; exact (wf_transpose ha h1).2
  | slice ixs =>
    have hin' : IndexersInRange ixs a.shape := hin
    simp only [ViewOp.run] at h
    rw [slice_ok hl hin'] at h
    exact wf_sliceResult ha hin'.fits h
  | sliceAlong ax ix =>
    obtain ⟨xs, hf, h⟩ := sliceAlong_inv hl hin h
    exact wf_sliceResult ha hf h
  | broadcastTo s => cases hop
  | diagonal o x y => exact wf_diagonal ha h

/-- Every operation except `reshape` re-indexes, for arbitrary strides. -/
theorem run_reindexes {a r : Arr α} (hl : a.stride.length = a.shape.length) {op : ViewOp} (hop : NoReshape op)
    (hin : op.InRange a) (h : op.run a = .ok r) : ∃ g, r.Reindexes a g := by
  have into : ∀ {s st : List Nat} {g}, (a.reshapedView s st).Reindexes a g → (a.intoReshapedView s st).Reindexes a g :=
    fun h => ⟨h.buf, h.len, h.inb, h.pos⟩
  have hid : (a.reshapedView a.shape a.stride).Reindexes a id := ⟨rfl, hl, fun _ h => h, fun _ _ => rfl⟩
  have htr : ∀ {x y l}, a.transposeLayout x y = .ok l → ∃ g, (a.reshapedView l.1 l.2).Reindexes a g := by
    intro ax1 ax2 l h
    obtain ⟨i, h1⟩ : ∃ i, AxisIs ax1 a.ndims i := by
      by_contra hc
      rw [not_exists] at hc
      rw [Arr.transposeLayout, asAbsolute_error hc] at h; cases h
    obtain ⟨j, h2⟩ : ∃ i, AxisIs ax2 a.ndims i := by
      by_contra hc
      rw [not_exists] at hc
      rw [Arr.transposeLayout, asAbsolute_ok h1, asAbsolute_error hc] at h; cases h
    obtain ⟨e, hr⟩ := transpose_reindexes hl h1 h2
    rw [e] at h; cases h
    exact ⟨_, hr⟩
  have hun : ∀ {x l}, a.unsqueezeLayout x = .ok l → ∃ g, (a.reshapedView l.1 l.2).Reindexes a g := by
    intro ax l h
    obtain ⟨k, hk⟩ : ∃ i, AxisIs ax (a.ndims + 1) i := by
      by_contra hc
      rw [not_exists] at hc
      rw [Arr.unsqueezeLayout, asAbsolute_error hc] at h; cases h
    obtain ⟨d, e, hr⟩ := unsqueeze_reindexes hl hk
    rw [e] at h; cases h
    exact ⟨_, hr⟩
  cases op with
  | view => cases h; exact ⟨_, hid⟩
  | intoView => cases h; exact ⟨_, into hid⟩
  | squeeze => cases h; exact ⟨_, (squeeze_reindexes hl).2⟩
  | intoSqueeze => cases h; exact ⟨_, into (squeeze_reindexes hl).2⟩
  | reshape s => cases hop
  | intoReshape s => cases hop
  | unsqueeze ax => obtain ⟨l, h1, h2⟩ := bind_eq_ok.1 h; cases h2; exact hun h1
  | intoUnsqueeze ax => obtain ⟨l, h1, h2⟩ := bind_eq_ok.1 h; cases h2; exact (hun h1).imp fun _ => into
  | transpose x y => obtain ⟨l, h1, h2⟩ := bind_eq_ok.1 h; cases h2; exact htr h1
  | intoTranspose x y => obtain ⟨l, h1, h2⟩ := bind_eq_ok.1 h; cases h2; exact (htr h1).imp fun _ => into
  | slice ixs =>
    have hin' : IndexersInRange ixs a.shape := hin
    simp only [ViewOp.run] at h
    rw [slice_ok hl hin'] at h
    exact ⟨_, (sliceResult_inv hl hin'.fits h).2.2.2.2.1⟩
  | sliceAlong ax ix =>
    obtain ⟨xs, hf, h⟩ := sliceAlong_inv hl hin h
    exact ⟨_, (sliceResult_inv hl hf h).2.2.2.2.1⟩
  | broadcastTo s =>
    simp only [ViewOp.run] at h
    by_cases hb : BroadcastsTo a.shape s
    · obtain ⟨r', h1, _, h3, _⟩ := broadcastTo_ok hl hb
      rw [h] at h1; cases h1
      exact ⟨_, h3⟩
    · rw [broadcastTo_error hb] at h; cases h
  | diagonal o x y => exact diagonal_reindexes_inv hl h

/-- No operation makes a read-only array writeable. -/
theorem run_writeable {a r : Arr α} {op : ViewOp} (h : op.run a = .ok r) (hw : a.flags.writeable = false) :
    r.flags.writeable = false := by
  cases op with
  | view => cases h; simpa [Arr.view, Arr.reshapedView] using hw
  | intoView => cases h; simpa [Arr.intoView, Arr.intoReshapedView] using hw
  | squeeze => cases h; simpa [Arr.squeeze, Arr.reshapedView] using hw
  | intoSqueeze => cases h; simpa [Arr.intoSqueeze, Arr.intoReshapedView] using hw
  | reshape s => obtain ⟨l, h1, h2⟩ := bind_eq_ok.1 h; cases h2; simpa [Arr.reshapedView] using hw
  | intoReshape s => obtain ⟨l, h1, h2⟩ := bind_eq_ok.1 h; cases h2; simpa [Arr.intoReshapedView] using hw
  | unsqueeze ax => obtain ⟨l, h1, h2⟩ := bind_eq_ok.1 h; cases h2; simpa [Arr.reshapedView] using hw
  | intoUnsqueeze ax => obtain ⟨l, h1, h2⟩ := bind_eq_ok.1 h; cases h2; simpa [Arr.intoReshapedView] using hw
  | transpose x y => obtain ⟨l, h1, h2⟩ := bind_eq_ok.1 h; cases h2; simpa [Arr.reshapedView] using hw
  | intoTranspose x y => obtain ⟨l, h1, h2⟩ := bind_eq_ok.1 h; cases h2; simpa [Arr.intoReshapedView] using hw
  | slice ixs =>
    obtain ⟨l, h1, h2⟩ := bind_eq_ok.1 h
    obtain ⟨n, h3, h4⟩ := bind_eq_ok.1 h2
    cases h4; simpa using hw
  | sliceAlong ax ix =>
    have key : ∀ {s st o c}, a.sliceResult s st o c = .ok r → r.flags.writeable = false := by
      intro s st o c h2
      obtain ⟨n, h3, h4⟩ := bind_eq_ok.1 h2
      cases h4; simpa using hw
    obtain ⟨l, h1, h2⟩ := bind_eq_ok.1 h
    split at h2
    · split at h2
      · exact key h2
      · obtain ⟨n, h3, h4⟩ := bind_eq_ok.1 h2
        exact key h4
    · cases h2
  | broadcastTo s =>
    obtain ⟨l, h1, h2⟩ := bind_eq_ok.1 h
    obtain ⟨l', h3, h4⟩ := bind_eq_ok.1 h2
    cases h4; rfl
  | diagonal o x y =>
    simp only [ViewOp.run] at h
    unfold Arr.offsetDiagonalAlong at h
    obtain ⟨_, _, h⟩ := bind_eq_ok.1 h
    obtain ⟨i, hi, h⟩ := bind_eq_ok.1 h
    obtain ⟨j, hj, h⟩ := bind_eq_ok.1 h
    obtain ⟨_, hij, h⟩ := bind_eq_ok.1 h
    split at h
    · simp only at h
      split at h
      · split at h
        · cases h
        · cases h; simpa [Arr.reshapedViewWithOffset] using hw
      · split at h
        · cases h
        · cases h; simpa [Arr.reshapedViewWithOffset] using hw
    · cases h

theorem wf_history {a b : Arr α} (ha : a.WF) (h : History NoBroadcast a b) : b.WF := by
  induction h with
  | refl => exact ha
  | step op _ hop hin hrun ih => exact ih.run hop hin hrun

theorem valid_history {a b : Arr α} (ha : a.Valid) (h : History NoReshape a b) : b.Valid := by
  induction h with
  | refl => exact ha
  | step op _ hop hin hrun ih =>
    obtain ⟨g, hg⟩ := run_reindexes ih.1 hop hin hrun
    exact hg.valid ih

end Verif
