import Verif.Props.Views
import Verif.Lemmas.History

/-!
# C17, exactly: which slices are accepted, and what an accepted slice shows
-/

namespace Verif

variable {α : Type}

theorem IndexersInRange.ordered : {ixs : List Indexer} → {s : List Nat} → IndexersInRange ixs s → IndexersOrdered ixs s
  | [], _, _ => trivial
  | _ :: _, _ :: _, h => ⟨h.1.1, h.2.ordered⟩
  | _ :: _, [], h => h.elim

theorem Indexer.ordered_of_length {ix : Indexer} {n m : Nat} (h : ix.indexedLength n = .ok m) : ix.Ordered n := by
  cases ix <;> simp only [Indexer.indexedLength, usub, Indexer.Ordered] at h ⊢ <;> (try trivial)
  all_goals
    by_contra hc
    rw [if_neg hc] at h
    cases h

theorem sliceLoop_ordered {ixs : List Indexer} {s st : List Nat} (hl : s.length = st.length) (h : IndexersOrdered ixs s) :
    sliceLoop ixs s st = .ok (selectShape (sels ixs s) s, selectStride (sels ixs s) st, selectOffset (sels ixs s) st) := by
  induction ixs generalizing s st with
  | nil => cases s <;> cases st <;> simp [sliceLoop, sels, selectShape, selectStride, selectOffset]
  | cons ix ixs ih =>
    cases s with
    | nil => exact h.elim
    | cons n s => cases st with
      | nil => simp at hl
      | cons d st =>
        have ih := ih (s := s) (st := st) (by simpa using hl) h.2
        simp only [sliceLoop, sels]
        rcases Indexer.sel_cases h.1 with ⟨h1, h2, h3⟩ | ⟨len, h1, h2, h3⟩
        · rw [h1, h2, h3, ih]; rfl
        · rw [h1, h2, h3, ih]; rfl

theorem ordered_of_sliceLoop {ixs : List Indexer} {s st : List Nat} {r : List Nat × List Nat × Nat}
    (h : sliceLoop ixs s st = .ok r) : IndexersOrdered ixs s := by
  induction ixs generalizing s st r with
  | nil => trivial
  | cons ix ixs ih =>
    cases s with
    | nil => cases h
    | cons n s => cases st with
      | nil => cases h
      | cons d st =>
        obtain ⟨len, h1, h⟩ := bind_eq_ok.1 h
        obtain ⟨r', h2, h⟩ := bind_eq_ok.1 h
        exact ⟨Indexer.ordered_of_length h1, ih h2⟩

theorem length_sels_le : (ixs : List Indexer) → (s : List Nat) → (sels ixs s).length ≤ s.length
  | [], _ => by simp [sels]
  | _ :: _, [] => by simp [sels]
  | _ :: ixs, _ :: s => by simpa [sels] using length_sels_le ixs s

/-- `offset_selectIndex` also for selections that leave the array. -/
theorem offset_selectIndex' {xs : List Select} {s st J : List Nat} (hl : s.length = st.length)
    (hx : xs.length ≤ s.length) (h : InB J (selectShape xs s)) :
    offset (selectIndex xs J) st = selectOffset xs st + offset J (selectStride xs st) := by
  induction xs generalizing s st J with
  | nil => cases st <;> simp [selectIndex, selectOffset, selectStride]
  | cons x xs ih =>
    cases s with
    | nil => simp at hx
    | cons n s => cases st with
      | nil => simp at hl
      | cons d st =>
        have hx' : xs.length ≤ s.length := by simpa using hx
        cases x with
        | fix i =>
          simp only [selectIndex, selectOffset, selectStride, offset_cons]
          rw [ih (s := s) (by simpa using hl) hx' (by simpa [selectShape] using h)]
          ring
        | keep a len =>
          cases J with
          | nil => simp [selectShape] at h
          | cons j J =>
            simp [selectShape] at h
            simp only [selectIndex, selectOffset, selectStride, offset_cons]
            rw [ih (s := s) (by simpa using hl) hx' h.2]
            ring

theorem slice_ordered {a : Arr α} {ixs : List Indexer} (hl : a.stride.length = a.shape.length)
    (h : IndexersOrdered ixs a.shape) :
    a.slice ixs = a.sliceResult (selectShape (sels ixs a.shape) a.shape) (selectStride (sels ixs a.shape) a.stride)
      (selectOffset (sels ixs a.shape) a.stride) false := by
  unfold Arr.slice
  rw [sliceLoop_ordered hl.symm h]; rfl

/-- **C17, exactly: which slices are accepted.** `slice` returns a view if and only if there are not more indexers than axes, no
range ends before its start, and the result has elements. The extents of the axes play no part, save for `a..`. -/
theorem C17_accepted_exact {a : Arr α} (hl : a.stride.length = a.shape.length) (ixs : List Indexer) :
    (∃ r, a.slice ixs = .ok r) ↔
      IndexersOrdered ixs a.shape ∧ numel (selectShape (sels ixs a.shape) a.shape) ≠ 0 := by
  constructor
  · rintro ⟨r, h⟩
    obtain ⟨l, h1, _⟩ := bind_eq_ok.1 h
    have ho := ordered_of_sliceLoop h1
    refine ⟨ho, ?_⟩
    rw [slice_ordered hl ho] at h
    obtain ⟨len, h2, _⟩ := bind_eq_ok.1 h
    exact (calculateStridedBufferLength_eq_ok (length_selectStride hl.symm).symm h2).1
  · rintro ⟨ho, hne⟩
    rw [slice_ordered hl ho]
    unfold Arr.sliceResult
    rw [calculateStridedBufferLength_ok hne]
    exact ⟨_, rfl⟩

example := C17_accepted_exact (a := demo) rfl [.range 1 5]

/-- **C17, exactly: what an accepted slice shows.** The shape asked for, and at index `J` the cell that the strides give to the
selected index, whether or not that index lies in the array. -/
theorem C17_cells_exact {a r : Arr α} (hl : a.stride.length = a.shape.length) {ixs : List Indexer} (h : a.slice ixs = .ok r) :
    r.buf = a.buf ∧ r.shape = selectShape (sels ixs a.shape) a.shape ∧ r.stride.length = r.shape.length ∧
      ∀ J, InB J r.shape → r.off + offset J r.stride = a.off + offset (selectIndex (sels ixs a.shape) J) a.stride := by
  obtain ⟨ho, hne⟩ := (C17_accepted_exact hl ixs).1 ⟨r, h⟩
  rw [slice_ordered hl ho] at h
  unfold Arr.sliceResult at h
  rw [calculateStridedBufferLength_ok hne] at h
  cases h
  refine ⟨rfl, rfl, length_selectStride hl.symm, fun J hJ => ?_⟩
  show a.off + selectOffset _ a.stride + offset J (selectStride _ a.stride) = _
  rw [offset_selectIndex' hl.symm (length_sels_le _ _) hJ, Nat.add_assoc]

example := C17_cells_exact (a := demo) rfl (ixs := [.range 0 2, .range 1 5]) rfl

theorem inRange_of_selectIndex {ixs : List Indexer} {s : List Nat} (ho : IndexersOrdered ixs s)
    (hne : numel (selectShape (sels ixs s) s) ≠ 0)
    (h : ∀ J, InB J (selectShape (sels ixs s) s) → InB (selectIndex (sels ixs s) J) s) : IndexersInRange ixs s := by
  induction ixs generalizing s with
  | nil => trivial
  | cons ix ixs ih =>
    cases s with
    | nil => exact ho.elim
    | cons n s =>
      simp only [sels] at h hne
      rcases Indexer.sel_cases ho.1 with ⟨_, h2, _⟩ | ⟨len, _, h2, _⟩
      · rw [h2] at h hne
        simp only [selectShape, selectIndex, InB_cons] at h hne
        refine ⟨⟨ho.1, ?_⟩, ih ho.2 hne fun J hJ => (h J hJ).2⟩
        rw [h2]
        exact (h _ (InB_unrank (Nat.pos_of_ne_zero hne))).1
      · rw [h2] at h hne
        simp only [selectShape, numel_cons] at h hne
        have h3 : numel (selectShape (sels ixs s) s) ≠ 0 := fun h0 => hne (by rw [h0, Nat.mul_zero])
        have h4 : 0 < len := Nat.pos_of_ne_zero fun h0 => hne (by rw [h0, Nat.zero_mul])
        have key : ∀ j J, j < len → InB J (selectShape (sels ixs s) s) →
            ix.first + j < n ∧ InB (selectIndex (sels ixs s) J) s := fun j J hj hJ => by
          have := h (j :: J) (InB_cons.2 ⟨hj, hJ⟩)
          simpa only [selectIndex, InB_cons] using this
        refine ⟨⟨ho.1, ?_⟩, ih ho.2 h3 fun J hJ => (key 0 J h4 hJ).2⟩
        rw [h2]
        have := (key (len - 1) _ (by omega) (InB_unrank (Nat.pos_of_ne_zero h3))).1
        show ix.first + len ≤ n
        omega

/-- **C17, exactly: which accepted slices stay in the array.** Every selected index is an index of the array if and only if the
indexers are in range; otherwise the slice is accepted and shows something else. -/
theorem C17_in_array_exact {a r : Arr α} (hl : a.stride.length = a.shape.length) {ixs : List Indexer} (h : a.slice ixs = .ok r) :
    (∀ J, InB J r.shape → InB (selectIndex (sels ixs a.shape) J) a.shape) ↔ IndexersInRange ixs a.shape := by
  obtain ⟨ho, hne⟩ := (C17_accepted_exact hl ixs).1 ⟨r, h⟩
  rw [(C17_cells_exact hl h).2.1]
  exact ⟨inRange_of_selectIndex ho hne, fun hi J hJ => InB_selectIndex hi.fits hJ⟩

example := C17_in_array_exact (a := demo) rfl (ixs := [.range 0 2, .range 1 5]) rfl

/-- **C17, negation for every array.** If the first indexer of an accepted slice leaves the first axis of a fresh array, then the
slice has an element outside the buffer of the array. -/
theorem C17_leaves_buffer {s : List Nat} {data : List α} (hd : data.length = numel s) {ix : Indexer} {ixs : List Indexer}
    {n : Nat} (hn : s[0]? = some n) (hout : ¬ (ix.sel n).Fits n) {r : Arr α}
    (h : (Arr.fromContiguousOwnedBuffer s data).slice (ix :: ixs) = .ok r) :
    ∃ J, InB J r.shape ∧ r.buf[r.off + offset J r.stride]? = none := by
  have hl : (Arr.fromContiguousOwnedBuffer s data).stride.length = (Arr.fromContiguousOwnedBuffer s data).shape.length :=
    length_strideFromShape s
  obtain ⟨ho, hne⟩ := (C17_accepted_exact hl _).1 ⟨r, h⟩
  obtain ⟨h1, h2, _, h4⟩ := C17_cells_exact hl h
  cases s with
  | nil => cases hn
  | cons m s =>
    cases hn
    have hstride : (Arr.fromContiguousOwnedBuffer (n :: s) data).stride = numel s :: strideFromShape s := strideFromShape_cons n s
    have hshape : (Arr.fromContiguousOwnedBuffer (n :: s) data).shape = n :: s := rfl
    rw [hshape] at h2 h4 hne
    rw [hstride] at h4
    simp only [sels] at h2 h4 hne
    have hout' : ∀ c J', n ≤ c → data[0 + offset (c :: J') (numel s :: strideFromShape s)]? = none := fun c J' hc => by
      rw [List.getElem?_eq_none]
      rw [hd, numel_cons, offset_cons]
      have := Nat.mul_le_mul_right (numel s) hc
      omega
    rcases Indexer.sel_cases ho.1 with ⟨_, e, _⟩ | ⟨len, _, e, _⟩
    · rw [e] at h2 h4 hne hout
      have hlt : n ≤ ix.first := Nat.not_lt.1 hout
      have hJ : InB (unrank r.shape 0) r.shape := InB_unrank (by rw [h2]; exact Nat.pos_of_ne_zero hne)
      refine ⟨_, hJ, ?_⟩
      rw [h4 _ hJ, h1]
      exact hout' _ _ hlt
    · rw [e] at h2 h4 hne hout
      have hlt : n < ix.first + len := Nat.not_le.1 hout
      simp only [selectShape, numel_cons] at h2 hne
      have h5 : numel (selectShape (sels ixs s) s) ≠ 0 := fun h0 => hne (by rw [h0, Nat.mul_zero])
      have h6 : 0 < len := Nat.pos_of_ne_zero fun h0 => hne (by rw [h0, Nat.zero_mul])
      have hJ : InB ((len - 1) :: unrank (selectShape (sels ixs s) s) 0) r.shape := by
        rw [h2, InB_cons]
        exact ⟨by omega, InB_unrank (Nat.pos_of_ne_zero h5)⟩
      refine ⟨_, hJ, ?_⟩
      rw [h4 _ hJ, h1]
      exact hout' _ _ (by omega)

example := C17_leaves_buffer (s := [2, 3]) (data := [10, 11, 12, 13, 14, 15]) rfl (ix := .range 1 5) (ixs := []) (n := 2) rfl (by decide) rfl

/-- A slice that is accepted and leaves the array, one that is accepted and stays, and two that are refused. -/
example : (IndexersOrdered [.range 1 5] [2, 3] ∧ numel (selectShape (sels [.range 1 5] [2, 3]) [2, 3]) ≠ 0 ∧
      ¬ IndexersInRange [.range 1 5] [2, 3] ∧ ¬ (Indexer.sel (.range 1 5) 2).Fits 2) ∧
    (IndexersInRange [.full, .rangeFrom 1] [2, 3] ∧ numel (selectShape (sels [.full, .rangeFrom 1] [2, 3]) [2, 3]) ≠ 0) ∧
    (¬ IndexersOrdered [.range 2 1] [2, 3]) ∧ numel (selectShape (sels [.full, .rangeFrom 3] [2, 3]) [2, 3]) = 0 := by
  refine ⟨⟨?_, by decide, by decide, by decide⟩, ⟨by decide, by decide⟩, ?_, by decide⟩
  · exact ⟨show 1 ≤ 5 by omega, trivial⟩
  · rintro ⟨h, _⟩
    exact absurd (show 2 ≤ 1 from h) (by omega)

end Verif
