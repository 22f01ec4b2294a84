import Verif.Lemmas.Views

set_option linter.unusedSimpArgs false

/-!
# Each view operation re-indexes its base
-/

namespace Verif

variable {α : Type}

/-- Every element of `r` is the element of `a` at the re-indexed position. -/
structure Arr.Reindexes (r a : Arr α) (g : List Nat → List Nat) : Prop where
  buf : r.buf = a.buf
  len : r.stride.length = r.shape.length
  inb : ∀ idx, InB idx r.shape → InB (g idx) a.shape
  pos : ∀ idx, InB idx r.shape → r.off + offset idx r.stride = a.off + offset (g idx) a.stride

theorem Arr.Reindexes.denotes {r a : Arr α} {g : List Nat → List Nat} {s : List Nat} {f : List Nat → α}
    (h : r.Reindexes a g) (ha : a.Denotes s f) : r.Denotes r.shape (fun idx => f (g idx)) := by
  obtain ⟨rfl, _, ha⟩ := ha
  exact ⟨rfl, h.len, fun idx hi => by rw [h.buf, h.pos idx hi]; exact ha _ (h.inb idx hi)⟩

theorem Arr.Reindexes.valid {r a : Arr α} {g : List Nat → List Nat} (h : r.Reindexes a g) (ha : a.Valid) :
    r.Valid :=
  ⟨h.len, fun idx hi => by rw [h.buf, h.pos idx hi]; exact ha.2 _ (h.inb idx hi)⟩

/-- Flags computed from the layout. -/
def Arr.FlagsExact (a : Arr α) : Prop :=
  a.flags.uniformStride = (hasUniformStride a.shape a.stride).isSome ∧
  a.flags.contiguous = decide (∃ e ∈ hasUniformStride a.shape a.stride, e ≤ 1)

theorem flagsExact_update {fl : Flags} {s st : List Nat} :
    (updateFlagsWithContiguity fl s st).uniformStride = (hasUniformStride s st).isSome ∧
    (updateFlagsWithContiguity fl s st).contiguous = decide (∃ e ∈ hasUniformStride s st, e ≤ 1) := by
  unfold updateFlagsWithContiguity
  cases h : hasUniformStride s st <;> simp

@[simp] theorem update_writeable {fl : Flags} {s st : List Nat} :
    (updateFlagsWithContiguity fl s st).writeable = fl.writeable := by
  unfold updateFlagsWithContiguity; split <;> rfl
@[simp] theorem update_owned {fl : Flags} {s st : List Nat} :
    (updateFlagsWithContiguity fl s st).owned = fl.owned := by
  unfold updateFlagsWithContiguity; split <;> rfl
@[simp] theorem update_userCreated {fl : Flags} {s st : List Nat} :
    (updateFlagsWithContiguity fl s st).userCreated = fl.userCreated := by
  unfold updateFlagsWithContiguity; split <;> rfl

theorem flagsExact_fromContiguous (s : List Nat) (data : List α) :
    (Arr.fromContiguousOwnedBuffer s data).FlagsExact := by
  obtain ⟨e, he, h⟩ := hasUniformStride_strideFromShape s
  simp [Arr.FlagsExact, Arr.fromContiguousOwnedBuffer, h, he]

theorem Arr.FlagsExact.uniform {a : Arr α} (h : a.FlagsExact) (hu : a.isUniformlyStrided = true) :
    ∃ e, hasUniformStride a.shape a.stride = some e := by
  have := h.1
  rw [Arr.isUniformlyStrided] at hu
  rw [hu] at this
  exact Option.isSome_iff_exists.1 this.symm

theorem Arr.FlagsExact.contiguous {a : Arr α} (h : a.FlagsExact) (hu : a.isContiguous = true) :
    ∃ e, hasUniformStride a.shape a.stride = some e ∧ e ≤ 1 := by
  have := h.2
  rw [Arr.isContiguous] at hu
  rw [hu] at this
  obtain ⟨e, he, h1⟩ := of_decide_eq_true this.symm
  exact ⟨e, he, h1⟩

/-! ### transpose -/

theorem transpose_reindexes {a : Arr α} {ax1 ax2 : Int} {i j : Nat} (hl : a.stride.length = a.shape.length)
    (h1 : AxisIs ax1 a.ndims i) (h2 : AxisIs ax2 a.ndims j) :
    a.transposeLayout ax1 ax2 = .ok (exchange i j a.shape, exchange i j a.stride) ∧
    (a.reshapedView (exchange i j a.shape) (exchange i j a.stride)).Reindexes a (exchange i j) := by
  have hi : i < a.shape.length := h1.1
  have hj : j < a.shape.length := h2.1
  constructor
  · unfold Arr.transposeLayout
    rw [asAbsolute_ok h1, asAbsolute_ok h2]
    simp only [ok_bind]
    rw [swapAt_ok hi hj, swapAt_ok (by omega) (by omega)]
    rfl
  · refine ⟨rfl, by simp [Arr.reshapedView, length_exchange, hl], ?_, ?_⟩
    · intro idx h
      exact InB_exchange hi hj h
    · intro idx h
      have hlen := h.length
      simp [Arr.reshapedView, length_exchange] at hlen
      simp only [Arr.reshapedView]
      rw [← offset_exchange (idx := exchange i j idx) (st := a.stride) (i := i) (j := j)
        (by rw [length_exchange]; omega) (by omega) (by omega),
        exchange_exchange i j idx (by omega) (by omega)]

/-! ### squeeze, unsqueeze -/

theorem squeeze_reindexes {a : Arr α} (hl : a.stride.length = a.shape.length) :
    a.squeezeLayout.1 = a.shape.filter (· ≠ 1) ∧
    (a.reshapedView a.squeezeLayout.1 a.squeezeLayout.2).Reindexes a (withUnits a.shape) := by
  have h1 : a.squeezeLayout = sqz a.shape a.stride := rfl
  rw [h1]
  have hs := sqz_shape (s := a.shape) (st := a.stride) hl.symm
  refine ⟨hs, rfl, sqz_length _ _, fun idx h => ?_, fun idx h => ?_⟩
  · simp only [Arr.reshapedView, hs] at h
    exact InB_withUnits h
  · simp only [Arr.reshapedView, hs] at h ⊢
    rw [offset_withUnits hl.symm h]

theorem unsqueeze_reindexes {a : Arr α} {axis : Int} {k : Nat} (hl : a.stride.length = a.shape.length)
    (hk : AxisIs axis (a.ndims + 1) k) :
    ∃ d, a.unsqueezeLayout axis = .ok (a.shape.insertIdx k 1, a.stride.insertIdx k d) ∧
    (a.reshapedView (a.shape.insertIdx k 1) (a.stride.insertIdx k d)).Reindexes a (·.eraseIdx k) := by
  have hk' : k ≤ a.shape.length := by have := hk.1; unfold Arr.ndims at this; omega
  have hre : ∀ d, (a.reshapedView (a.shape.insertIdx k 1) (a.stride.insertIdx k d)).Reindexes a (·.eraseIdx k) := by
    intro d
    refine ⟨rfl, ?_, fun idx h => ?_, fun idx h => ?_⟩
    · simp only [Arr.reshapedView]
      rw [List.length_insertIdx_of_le_length (by omega), List.length_insertIdx_of_le_length (by omega)]; omega
    · exact (InB_eraseIdx hk' h).1
    · simp only [Arr.reshapedView]
      rw [offset_eraseIdx (by omega) (InB_eraseIdx hk' h).2]
  unfold Arr.unsqueezeLayout
  rw [asAbsolute_ok hk]
  simp only [ok_bind]
  by_cases hkn : k = a.ndims
  · refine ⟨1, ?_, hre 1⟩
    have hkn' : k = a.shape.length := hkn
    rw [if_pos hkn]
    have h1 : a.shape.insertIdx k 1 = a.shape ++ [1] := by
      rw [hkn']; exact List.insertIdx_length_self ..
    have h2 : a.stride.insertIdx k 1 = a.stride ++ [1] := by
      rw [hkn', ← hl]; exact List.insertIdx_length_self ..
    rw [h1, h2]; rfl
  · have hlt : k < a.shape.length := by unfold Arr.ndims at hkn; omega
    refine ⟨a.stride[k] * a.shape[k], ?_, hre _⟩
    rw [if_neg hkn]
    simp [hlt, hl]

/-! ### reshape -/

theorem offset_scaled {idx s : List Nat} (d : Nat) (h : idx.length = s.length) :
    offset idx ((strideFromShape s).map (· * d)) = rank idx s * d := by
  rw [offset_map_mul, offset_strideFromShape h]

/-- the last stride is the uniform stride -/
theorem hasUniformStride_getLast {s st : List Nat} {e : Nat} (hl : s.length = st.length)
    (h : hasUniformStride s st = some e) (hne : s ≠ []) : st.getLast? = some e := by
  induction s generalizing st with
  | nil => simp at hne
  | cons n s ih => cases st with
    | nil => simp at hl
    | cons d st =>
      cases s with
      | nil => cases st with
        | nil => simpa [hasUniformStride] using h
        | cons => simp at hl
      | cons m s => cases st with
        | nil => simp at hl
        | cons c st =>
          simp only [hasUniformStride] at h
          split at h
          · cases h
          · have := ih (by simpa using hl) h (by simp)
            rw [List.getLast?_cons_cons]; exact this

theorem reshape_reindexes {a : Arr α} {ns : List Nat} (hl : a.stride.length = a.shape.length)
    (hg : Good a.shape a.stride) {e : Nat} (hu : hasUniformStride a.shape a.stride = some e)
    (hfl : a.isUniformlyStrided = true)
    (hsz : numel ns = numel a.shape) (hne : a.shape ≠ []) :
    ∃ st, a.reshapeLayout ns = .ok (ns, st) ∧
      (a.reshapedView ns st).Reindexes a (fun idx => unrank a.shape (rank idx ns)) ∧
      (ns ≠ a.shape → st = (strideFromShape ns).map (· * e)) ∧ (ns = a.shape → st = a.stride) := by
  unfold Arr.reshapeLayout
  by_cases hs : ns = a.shape
  · refine ⟨a.stride, ?_, ?_, fun h => absurd hs h, fun _ => rfl⟩
    · rw [if_pos hs, hs]; rfl
    · subst hs
      refine ⟨rfl, hl, fun idx h => ?_, fun idx h => ?_⟩
      · exact (unrank_rank (s := a.shape) h).symm ▸ h
      · simp only [Arr.reshapedView]
        rw [unrank_rank (s := a.shape) h]
  · refine ⟨(strideFromShape ns).map (· * e), ?_, ?_, fun _ => rfl, fun h => absurd h hs⟩
    · rw [if_neg hs]
      rw [assert_ok hfl]
      simp only [ok_bind]
      rw [if_neg (show ¬ (a.size ≠ numel ns) by simp [hsz, Arr.size]), hasUniformStride_getLast hl.symm hu hne]
      simp [reshapeStrides_eq]
    · refine ⟨rfl, by simp [Arr.reshapedView, length_strideFromShape], fun idx h => ?_, fun idx h => ?_⟩
      · exact InB_unrank (by rw [← hsz]; exact rank_lt h)
      · simp only [Arr.reshapedView] at h ⊢
        have hr := rank_lt h
        rw [offset_scaled e h.length, offset_uniform hl.symm hg hu (InB_unrank (by omega)), rank_unrank (by omega)]

/-! ### slices -/

theorem IndexersInRange.fits {ixs : List Indexer} {s : List Nat} (h : IndexersInRange ixs s) :
    SelectFits (sels ixs s) s := by
  induction ixs generalizing s with
  | nil => cases s <;> trivial
  | cons ix ixs ih => cases s with
    | nil => exact h.elim
    | cons n s => exact ⟨h.1.2, ih h.2⟩

/-- new stride and offset of a selection -/
def selectStride : List Select → List Nat → List Nat
  | .fix _ :: xs, _ :: st => selectStride xs st
  | .keep _ _ :: xs, d :: st => d :: selectStride xs st
  | _, st => st

def selectOffset : List Select → List Nat → Nat
  | .fix i :: xs, d :: st => d * i + selectOffset xs st
  | .keep a _ :: xs, d :: st => d * a + selectOffset xs st
  | _, _ => 0

theorem Indexer.sel_cases {ix : Indexer} {n : Nat} (h : ix.Ordered n) :
    (ix.collapse = true ∧ ix.sel n = .fix ix.first ∧ ix.indexedLength n = .ok 1) ∨
    (∃ len, ix.collapse = false ∧ ix.sel n = .keep ix.first len ∧ ix.indexedLength n = .ok len) := by
  cases ix with
  | «at» i => exact .inl ⟨rfl, rfl, rfl⟩
  | range a b => exact .inr ⟨b - a, rfl, rfl, usub_ok h⟩
  | rangeFrom a => exact .inr ⟨n - a, rfl, rfl, usub_ok h⟩
  | full => exact .inr ⟨n, rfl, rfl, rfl⟩
  | rangeIncl a b =>
    refine .inr ⟨b - a + 1, rfl, rfl, ?_⟩
    simp only [Indexer.indexedLength]
    rw [usub_ok h]; rfl
  | rangeTo b => exact .inr ⟨b, rfl, rfl, rfl⟩
  | rangeToIncl b => exact .inr ⟨b + 1, rfl, rfl, rfl⟩

theorem sliceLoop_ok {ixs : List Indexer} {s st : List Nat} (hl : s.length = st.length) (h : IndexersInRange ixs s) :
    sliceLoop ixs s st = .ok (selectShape (sels ixs s) s, selectStride (sels ixs s) st, selectOffset (sels ixs s) st) := by
  induction ixs generalizing s st with
  | nil => cases s <;> cases st <;> simp [sliceLoop, sels, selectShape, selectStride, selectOffset]
  | cons ix ixs ih =>
    cases s with
    | nil => exact h.elim
    | cons n s => cases st with
      | nil => simp at hl
      | cons d st =>
        have ih := ih (s := s) (st := st) (by simpa using hl) h.2
        simp only [sliceLoop, sels]
        rcases Indexer.sel_cases h.1.1 with ⟨h1, h2, h3⟩ | ⟨len, h1, h2, h3⟩
        · rw [h1, h2, h3, ih]; rfl
        · rw [h1, h2, h3, ih]; rfl

theorem offset_selectIndex {xs : List Select} {s st J : List Nat} (hl : s.length = st.length)
    (hf : SelectFits xs s) (h : InB J (selectShape xs s)) :
    offset (selectIndex xs J) st = selectOffset xs st + offset J (selectStride xs st) := by
  induction xs generalizing s st J with
  | nil => cases st <;> simp [selectIndex, selectOffset, selectStride]
  | cons x xs ih =>
    cases s with
    | nil => exact hf.elim
    | cons n s => cases st with
      | nil => simp at hl
      | cons d st =>
        cases x with
        | fix i =>
          simp only [selectIndex, selectOffset, selectStride, offset_cons]
          rw [ih (s := s) (by simpa using hl) hf.2 (by simpa [selectShape] using h)]
          ring
        | keep a len =>
          cases J with
          | nil => simp [selectShape] at h
          | cons j J =>
            simp [selectShape] at h
            simp only [selectIndex, selectOffset, selectStride, offset_cons]
            rw [ih (s := s) (by simpa using hl) hf.2 h.2]
            ring

theorem length_selectStride {xs : List Select} {s st : List Nat} (hl : s.length = st.length) :
    (selectStride xs st).length = (selectShape xs s).length := by
  induction xs generalizing s st with
  | nil => cases s <;> cases st <;> simp_all [selectShape, selectStride]
  | cons x xs ih => cases s with
    | nil => cases st with
      | nil => cases x <;> rfl
      | cons => simp at hl
    | cons n s => cases st with
      | nil => simp at hl
      | cons d st => cases x <;> simp [selectShape, selectStride, ih (s := s) (st := st) (by simpa using hl)]

theorem calculateStridedBufferLength_ok {s st : List Nat} (h : numel s ≠ 0) :
    calculateStridedBufferLength s st = .ok (((s.zip st).map fun p => p.2 * (p.1 - 1)).sum + 1) := by
  unfold calculateStridedBufferLength
  rw [mapM_ok (g := fun p => p.2 * (p.1 - 1))]
  · rfl
  · intro p hp
    have h0 : p.1 ≠ 0 := by
      intro h0
      apply h
      rw [numel_eq_zero]
      have := List.of_mem_zip (a := p.1) (b := p.2) (by simpa using hp)
      rw [← h0]; exact this.1
    rw [usub_ok (by omega)]; rfl

theorem offset_lt_bufferLength {s st idx : List Nat} (h : InB idx s) (hl : s.length = st.length) :
    offset idx st < ((s.zip st).map fun p => p.2 * (p.1 - 1)).sum + 1 := by
  induction s generalizing idx st with
  | nil => cases idx <;> simp_all
  | cons n s ih => cases idx with
    | nil => simp at h
    | cons i idx => cases st with
      | nil => simp at hl
      | cons d st =>
        simp at h
        have := ih h.2 (by simpa using hl)
        have h2 : i * d ≤ d * (n - 1) := by rw [Nat.mul_comm]; exact Nat.mul_le_mul_left _ (by omega)
        simp
        omega

/-- The view built by `slice`/`slice_along` once the selection is known. -/
theorem sliceResult_reindexes {a : Arr α} {xs : List Select} (hl : a.stride.length = a.shape.length)
    (hf : SelectFits xs a.shape) (hne : numel (selectShape xs a.shape) ≠ 0) (c : Bool) :
    ∃ r, a.sliceResult (selectShape xs a.shape) (selectStride xs a.stride) (selectOffset xs a.stride) c = .ok r ∧
      r.shape = selectShape xs a.shape ∧ r.stride = selectStride xs a.stride ∧
      r.Reindexes a (selectIndex xs) ∧ r.FlagsExact ∧ r.flags.writeable = a.flags.writeable ∧
      (∀ idx, InB idx r.shape → offset idx r.stride < r.len) ∧ r.flags.owned = false := by
  unfold Arr.sliceResult
  rw [calculateStridedBufferLength_ok hne]
  refine ⟨_, rfl, rfl, rfl, ⟨rfl, length_selectStride hl.symm, fun idx h => InB_selectIndex hf h, fun idx h => ?_⟩,
    flagsExact_update, ?_, fun idx h => ?_, rfl⟩
  · show a.off + selectOffset xs a.stride + offset idx (selectStride xs a.stride) = _
    rw [offset_selectIndex hl.symm hf h]; omega
  · exact update_writeable
  · exact offset_lt_bufferLength h (length_selectStride hl.symm).symm

theorem slice_ok {a : Arr α} {ixs : List Indexer} (hl : a.stride.length = a.shape.length)
    (h : IndexersInRange ixs a.shape) :
    a.slice ixs = a.sliceResult (selectShape (sels ixs a.shape) a.shape) (selectStride (sels ixs a.shape) a.stride)
      (selectOffset (sels ixs a.shape) a.stride) false := by
  unfold Arr.slice
  rw [sliceLoop_ok hl.symm h]; rfl

/-- selection that keeps the first `k` axes and applies `x` to the next -/
def selectAt (s : List Nat) (k : Nat) (x : Select) : List Select :=
  (s.take k).map (fun n => Select.keep 0 n) ++ [x]

theorem selectAt_fix {s st : List Nat} {k i n d : Nat} (hl : s.length = st.length) (hn : s[k]? = some n)
    (hd : st[k]? = some d) (hx : i < n) :
    SelectFits (selectAt s k (.fix i)) s ∧
    selectShape (selectAt s k (.fix i)) s = s.eraseIdx k ∧
    selectStride (selectAt s k (.fix i)) st = st.eraseIdx k ∧
    selectOffset (selectAt s k (.fix i)) st = d * i := by
  induction s generalizing st k with
  | nil => simp at hn
  | cons m s ih =>
    cases st with
    | nil => simp at hl
    | cons c st =>
      cases k with
      | zero =>
        simp at hn hd
        simp [selectAt, SelectFits, selectShape, selectStride, selectOffset, hx, hn, hd, Select.Fits]
      | succ k =>
        have := ih (st := st) (k := k) (by simpa using hl) (by simpa using hn) (by simpa using hd)
        have he : selectAt (m :: s) (k + 1) (.fix i) = .keep 0 m :: selectAt s k (.fix i) := by simp [selectAt]
        rw [he]
        simp [SelectFits, selectShape, selectStride, selectOffset, this, Select.Fits]

theorem selectAt_keep {s st : List Nat} {k i len n d : Nat} (hl : s.length = st.length) (hn : s[k]? = some n)
    (hd : st[k]? = some d) (hx : i + len ≤ n) :
    SelectFits (selectAt s k (.keep i len)) s ∧
    selectShape (selectAt s k (.keep i len)) s = s.set k len ∧
    selectStride (selectAt s k (.keep i len)) st = st ∧
    selectOffset (selectAt s k (.keep i len)) st = d * i := by
  induction s generalizing st k with
  | nil => simp at hn
  | cons m s ih =>
    cases st with
    | nil => simp at hl
    | cons c st =>
      cases k with
      | zero =>
        simp at hn hd
        simp [selectAt, SelectFits, selectShape, selectStride, selectOffset, hx, hn, hd, Select.Fits]
      | succ k =>
        have := ih (st := st) (k := k) (by simpa using hl) (by simpa using hn) (by simpa using hd)
        have he : selectAt (m :: s) (k + 1) (.keep i len) = .keep 0 m :: selectAt s k (.keep i len) := by
          simp [selectAt]
        rw [he]
        simp [SelectFits, selectShape, selectStride, selectOffset, this, Select.Fits]

theorem sliceAlong_ok {a : Arr α} {axis : Int} {k n : Nat} {ix : Indexer} (hl : a.stride.length = a.shape.length)
    (hk : AxisIs axis a.ndims k) (hn : a.shape[k]? = some n) (hr : ix.InRange n) :
    SelectFits (selectAt a.shape k (ix.sel n)) a.shape ∧
    a.sliceAlong axis ix =
      a.sliceResult (selectShape (selectAt a.shape k (ix.sel n)) a.shape)
        (selectStride (selectAt a.shape k (ix.sel n)) a.stride)
        (selectOffset (selectAt a.shape k (ix.sel n)) a.stride) true := by
  have hk1 : k < a.shape.length := hk.1
  have hd : a.stride[k]? = some (a.stride[k]'(by omega)) := List.getElem?_eq_getElem (by omega)
  generalize a.stride[k]'(by omega) = d at hd
  unfold Arr.sliceAlong
  rw [asAbsolute_ok hk]
  simp only [ok_bind]
  rw [hn, hd]
  have hf := hr.2
  rcases Indexer.sel_cases hr.1 with ⟨h1, h2, h3⟩ | ⟨len, h1, h2, h3⟩
  · rw [h2] at hf ⊢
    obtain ⟨hf', e2, e3, e4⟩ := selectAt_fix hl.symm hn hd hf
    refine ⟨hf', ?_⟩
    rw [e2, e3, e4]; simp only [h1, if_true]
  · rw [h2] at hf ⊢
    obtain ⟨hf', e2, e3, e4⟩ := selectAt_keep hl.symm hn hd hf
    refine ⟨hf', ?_⟩
    rw [e2, e3, e4]; simp [h1, h3]

/-! ### diagonals -/

theorem contrib_zero {i x : Nat} {st : List Nat} {d : Nat} (h : st[i]? = some d) : contrib i x 0 st = x * d := by
  simp [contrib, List.getD_eq_getElem?_getD, h]

theorem diag_reindexes {a : Arr α} {i j o1 o2 len : Nat} (hl : a.stride.length = a.shape.length)
    (hi : i < a.shape.length) (hj : j < a.shape.length) (hij : i ≠ j)
    (h1 : len + o1 ≤ a.shape[i]) (h2 : len + o2 ≤ a.shape[j]) :
    (a.reshapedViewWithOffset (o1 * (a.stride[i]'(by omega)) + o2 * (a.stride[j]'(by omega)))
      (others i j a.shape ++ [len])
      (others i j a.stride ++ [(a.stride[i]'(by omega)) + (a.stride[j]'(by omega))])).Reindexes a
      (fun idx => putTwo i (idx.getLastD 0 + o1) j (idx.getLastD 0 + o2) a.shape.length 0 idx.dropLast) := by
  have hi' : i < a.stride.length := by omega
  have hj' : j < a.stride.length := by omega
  have key : ∀ idx, InB idx (others i j a.shape ++ [len]) →
      ∃ J k, idx = J ++ [k] ∧ InB J (others i j a.shape) ∧ k < len := by
    intro idx h
    have hlen := h.length
    rcases List.eq_nil_or_concat idx with rfl | ⟨J, k, rfl⟩
    · simp at hlen
    · simp at hlen
      rw [List.concat_eq_append] at h
      rw [InB_append hlen] at h
      exact ⟨J, k, by simp, h.1, by simpa using h.2⟩
  refine ⟨rfl, ?_, fun idx h => ?_, fun idx h => ?_⟩
  · simp only [Arr.reshapedViewWithOffset, List.length_append, List.length_singleton]
    rw [← others_eq_dropTwo, ← others_eq_dropTwo, length_dropTwo_eq hl]
  · obtain ⟨J, k, rfl, hJ, hk⟩ := key idx h
    simp only [List.dropLast_concat, List.getLastD_concat]
    apply InB_putTwo hij
    · rw [others_eq_dropTwo]; exact hJ
    · intro _ n hn
      simp [hi] at hn
      omega
    · intro _ n hn
      simp [hj] at hn
      omega
  · obtain ⟨J, k, rfl, hJ, hk⟩ := key idx h
    simp only [List.dropLast_concat, List.getLastD_concat, Arr.reshapedViewWithOffset]
    rw [← hl, offset_putTwo hij]
    · rw [contrib_zero (List.getElem?_eq_getElem hi'), contrib_zero (List.getElem?_eq_getElem hj'),
        others_eq_dropTwo, offset_append]
      · simp; ring
      · rw [hJ.length, ← others_eq_dropTwo, ← others_eq_dropTwo, length_dropTwo_eq hl]
    · rw [hJ.length, ← others_eq_dropTwo, length_dropTwo_eq hl]

end Verif
