import Verif.Lemmas.ViewOps

/-!
# C13 reshape, C14 transpose, C15 squeeze/unsqueeze, C16/C17 slices, C33 diagonals, C37 axis numbers

Every theorem says: if the array denotes the tensor `(s, f)` (`Arr.Denotes`, Model/Core.lean) then the
operation succeeds and its result denotes the expected tensor. The borrowing (`(&a).op()`) and the
consuming (`a.op()`) forms are both covered.
-/

namespace Verif

variable {α : Type}

/-- A 2x3 example array used to show that hypotheses are satisfiable. -/
def demo : Arr Nat := Arr.fromContiguousOwnedBuffer [2, 3] [10, 11, 12, 13, 14, 15]
/-- The tensor it denotes. -/
def demoFn (idx : List Nat) : Nat := [10, 11, 12, 13, 14, 15].getD (rank idx [2, 3]) 0
theorem demo_denotes : demo.Denotes [2, 3] demoFn := denotes_fromContiguous_getD rfl 0

/-- A non-contiguous view of `demo`: its transpose, shape 3x2, strides 1 and 3. -/
def demoT : Arr Nat := demo.reshapedView [3, 2] [1, 3]

/-! ## C37: axis numbers -/

/-- **C37.** An axis argument is accepted exactly when it is in `-n ≤ axis < n`, and then denotes axis
`axis`, or `n + axis` if negative. -/
theorem C37_axis (axis : Int) (n : Nat) :
    asAbsolute axis n =
      if 0 ≤ axis ∧ axis < n then .ok axis.toNat
      else if -(n : Int) ≤ axis ∧ axis < 0 then .ok (n + axis).toNat
      else .error .panic := by
  unfold asAbsolute
  by_cases h1 : 0 ≤ axis ∧ axis < n
  · rw [if_pos h1, if_neg (by omega), if_neg (by omega)]
  · rw [if_neg h1]
    by_cases h2 : -(n : Int) ≤ axis ∧ axis < 0
    · rw [if_pos h2, if_neg (by omega), if_pos (by omega)]
      congr 2; omega
    · rw [if_neg h2, if_pos (by omega)]

/-- **C37**, in terms of the specification predicate `AxisIs`: accepted iff it denotes some axis. -/
theorem C37_axis_iff (axis : Int) (n k : Nat) : asAbsolute axis n = .ok k ↔ AxisIs axis n k := asAbsolute_eq_ok

example : asAbsolute (-1) 3 = .ok 2 ∧ asAbsolute 2 3 = .ok 2 ∧ asAbsolute 3 3 = .error .panic
    ∧ asAbsolute (-4) 3 = .error .panic := by decide

/-! ## C14: transpose -/

theorem into_reindexes {a : Arr α} {s st : List Nat} {g : List Nat → List Nat}
    (h : (a.reshapedView s st).Reindexes a g) : (a.intoReshapedView s st).Reindexes a g :=
  ⟨h.buf, h.len, h.inb, h.pos⟩

/-- **C14.** `transpose(i, j)` exchanges axes `i` and `j` of shape and index (negative axis numbers count
from the end); the memory is shared. -/
theorem C14_transpose {a : Arr α} {s : List Nat} {f : List Nat → α} (ha : a.Denotes s f)
    {ax1 ax2 : Int} {i j : Nat} (h1 : AxisIs ax1 s.length i) (h2 : AxisIs ax2 s.length j) :
    (∃ r, a.transpose ax1 ax2 = .ok r ∧ r.buf = a.buf ∧
      r.Denotes (exchange i j s) (fun idx => f (exchange i j idx))) ∧
    (∃ r, a.intoTranspose ax1 ax2 = .ok r ∧ r.buf = a.buf ∧
      r.Denotes (exchange i j s) (fun idx => f (exchange i j idx))) := by
  have hs := ha.1
  subst hs
  obtain ⟨hl, hr⟩ := transpose_reindexes ha.2.1 h1 h2
  refine ⟨⟨_, ?_, ?_, hr.denotes ha⟩, ⟨_, ?_, ?_, (into_reindexes hr).denotes ha⟩⟩
  · simp [Arr.transpose, hl]
  · rfl
  · simp [Arr.intoTranspose, hl]
  · rfl

example := C14_transpose (a := demo) (f := demoFn) demo_denotes (ax1 := 0) (ax2 := -1) (i := 0) (j := 1) (by decide) (by decide)

/-- **C14.** Out-of-range axes panic. -/
theorem C14_transpose_rejects {a : Arr α} {ax1 ax2 : Int}
    (h : (∀ k, ¬ AxisIs ax1 a.ndims k) ∨ (∀ k, ¬ AxisIs ax2 a.ndims k)) :
    a.transpose ax1 ax2 = .error .panic := by
  unfold Arr.transpose Arr.transposeLayout
  rcases h with h | h
  · rw [asAbsolute_error h]; rfl
  · rw [asAbsolute_error h]
    cases h1 : asAbsolute ax1 a.ndims with
    | ok k => rfl
    | error e =>
      unfold asAbsolute at h1
      split at h1
      · cases h1; rfl
      · cases h1

example := C14_transpose_rejects (a := demo) (ax1 := 2) (ax2 := 0) (.inl fun k h => by have := h.2; simp [demo, Arr.ndims, Arr.fromContiguousOwnedBuffer, AxisIs] at h; omega)

/-- **C14.** `T()` exchanges the first two axes. -/
theorem C14_T {a : Arr α} {n m : Nat} {s : List Nat} {f : List Nat → α} (ha : a.Denotes (n :: m :: s) f) :
    ∃ r, a.T = .ok r ∧ r.Denotes (m :: n :: s) (fun idx => f (exchange 0 1 idx)) := by
  obtain ⟨⟨r, h1, _, h2⟩, _⟩ := C14_transpose ha (ax1 := 0) (ax2 := 1) (i := 0) (j := 1)
    ⟨by simp, by simp⟩ ⟨by simp, by simp⟩
  refine ⟨r, h1, ?_⟩
  have : exchange 0 1 (n :: m :: s) = m :: n :: s := by
    rw [exchange_eq_set (by simp) (by simp)]; rfl
  rwa [this] at h2

example := C14_T (a := demo) (f := demoFn) demo_denotes

/-- **C14.** Transposing twice gives back the same tensor. -/
theorem C14_transpose_twice {a : Arr α} {s : List Nat} {f : List Nat → α} (ha : a.Denotes s f)
    {ax1 ax2 : Int} {i j : Nat} (h1 : AxisIs ax1 s.length i) (h2 : AxisIs ax2 s.length j) :
    ∃ r r', a.transpose ax1 ax2 = .ok r ∧ r.transpose ax1 ax2 = .ok r' ∧ r'.Denotes s f := by
  obtain ⟨⟨r, e1, _, d1⟩, _⟩ := C14_transpose ha h1 h2
  obtain ⟨⟨r', e2, _, d2⟩, _⟩ := C14_transpose d1 (by rwa [length_exchange]) (by rwa [length_exchange]) (i := i) (j := j)
  refine ⟨r, r', e1, e2, ?_⟩
  rw [exchange_exchange i j s h1.1 h2.1] at d2
  refine d2.congr fun idx hi => ?_
  rw [exchange_exchange i j idx (by rw [hi.length]; exact h1.1) (by rw [hi.length]; exact h2.1)]

example : demo.Denotes [2, 3] demoFn ∧ AxisIs 0 2 0 ∧ AxisIs (-1) 2 1 :=
  ⟨demo_denotes, by decide, by decide⟩
example : demo.transpose 0 (-1) = .ok demoT := by decide
/-- The transposed example denotes the transposed tensor. -/
theorem demoT_denotes : demoT.Denotes [3, 2] (fun idx => demoFn (exchange 0 1 idx)) := by
  obtain ⟨⟨r, h1, _, h2⟩, _⟩ := C14_transpose demo_denotes (ax1 := 0) (ax2 := -1) (i := 0) (j := 1)
    (by decide) (by decide)
  have : demo.transpose 0 (-1) = .ok demoT := by decide
  rw [this] at h1
  cases h1
  exact h2

/-! ## C15: squeeze and unsqueeze -/

/-- **C15.** `squeeze()` removes exactly the axes of extent 1. -/
theorem C15_squeeze {a : Arr α} {s : List Nat} {f : List Nat → α} (ha : a.Denotes s f) :
    a.squeeze.Denotes (s.filter (· ≠ 1)) (fun J => f (withUnits s J)) ∧ a.squeeze.buf = a.buf ∧
    a.intoSqueeze.Denotes (s.filter (· ≠ 1)) (fun J => f (withUnits s J)) ∧ a.intoSqueeze.buf = a.buf := by
  have hs := ha.1
  subst hs
  obtain ⟨h1, h2⟩ := squeeze_reindexes ha.2.1
  have e1 := h2.denotes ha
  have e2 := (into_reindexes h2).denotes ha
  have h1' : (a.intoReshapedView a.squeezeLayout.1 a.squeezeLayout.2).shape = a.shape.filter (· ≠ 1) := h1
  have h1'' : (a.reshapedView a.squeezeLayout.1 a.squeezeLayout.2).shape = a.shape.filter (· ≠ 1) := h1
  rw [h1''] at e1
  rw [h1'] at e2
  exact ⟨e1, rfl, e2, rfl⟩

example := C15_squeeze (denotes_fromContiguous (s := [2, 1, 3]) (f := fun i => i.sum))

/-- **C15.** The row-major sequence of elements is unchanged by `squeeze()`. -/
theorem C15_squeeze_order (s : List Nat) (f : List Nat → α) :
    elements (s.filter (· ≠ 1)) (fun J => f (withUnits s J)) = elements s f := by
  apply List.ext_getElem?
  intro k
  by_cases hk : k < numel s
  · have hk' : k < numel (s.filter (· ≠ 1)) := by rw [numel_filter_one]; exact hk
    rw [getElem?_elements hk', getElem?_elements hk]
    have hr := rank_withUnits (InB_unrank hk')
    rw [rank_unrank hk'] at hr
    rw [← unrank_rank (InB_withUnits (InB_unrank hk')), hr]
  · rw [List.getElem?_eq_none (by rw [length_elements, numel_filter_one]; omega),
      List.getElem?_eq_none (by rw [length_elements]; omega)]

/-- **C15.** `unsqueeze(axis)` inserts an axis of extent 1 at the given position. -/
theorem C15_unsqueeze {a : Arr α} {s : List Nat} {f : List Nat → α} (ha : a.Denotes s f) {axis : Int} {k : Nat}
    (hk : AxisIs axis (s.length + 1) k) :
    (∃ r, a.unsqueeze axis = .ok r ∧ r.buf = a.buf ∧
      r.Denotes (s.insertIdx k 1) (fun idx => f (idx.eraseIdx k))) ∧
    (∃ r, a.intoUnsqueeze axis = .ok r ∧ r.buf = a.buf ∧
      r.Denotes (s.insertIdx k 1) (fun idx => f (idx.eraseIdx k))) := by
  have hs := ha.1
  subst hs
  obtain ⟨d, h1, h2⟩ := unsqueeze_reindexes ha.2.1 hk
  refine ⟨⟨_, ?_, ?_, h2.denotes ha⟩, ⟨_, ?_, ?_, (into_reindexes h2).denotes ha⟩⟩
  · simp [Arr.unsqueeze, h1]
  · rfl
  · simp [Arr.intoUnsqueeze, h1]
  · rfl

example := C15_unsqueeze (a := demo) (f := demoFn) demo_denotes (axis := -1) (k := 2) (by decide)

/-- **C15.** An axis position outside `-(n+1) .. n` panics. -/
theorem C15_unsqueeze_rejects {a : Arr α} {axis : Int} (h : ∀ k, ¬ AxisIs axis (a.ndims + 1) k) :
    a.unsqueeze axis = .error .panic := by
  unfold Arr.unsqueeze Arr.unsqueezeLayout
  rw [asAbsolute_error h]; rfl

example := C15_unsqueeze_rejects (a := demo) (axis := 3) (fun k h => by simp [demo, Arr.ndims, Arr.fromContiguousOwnedBuffer, AxisIs] at h; omega)

/-- **C15.** Squeezing an unsqueezed array without unit axes gives back the same tensor. -/
theorem C15_squeeze_unsqueeze {a : Arr α} {s : List Nat} {f : List Nat → α} (ha : a.Denotes s f) (h1 : 1 ∉ s)
    {axis : Int} {k : Nat} (hk : AxisIs axis (s.length + 1) k) :
    ∃ r, a.unsqueeze axis = .ok r ∧ r.squeeze.Denotes s f := by
  obtain ⟨⟨r, e1, _, d1⟩, _⟩ := C15_unsqueeze ha hk
  refine ⟨r, e1, ?_⟩
  have d2 := (C15_squeeze d1).1
  have hk' : k ≤ s.length := by have := hk.1; omega
  have key : ∀ (s : List Nat) (k : Nat), 1 ∉ s → k ≤ s.length → (s.insertIdx k 1).filter (· ≠ 1) = s ∧
      ∀ J, J.length = s.length → (withUnits (s.insertIdx k 1) J).eraseIdx k = J := by
    intro s
    induction s with
    | nil =>
      intro k h1 hk
      simp at hk; subst hk
      refine ⟨rfl, fun J hJ => ?_⟩
      have : J = [] := List.length_eq_zero_iff.1 hJ
      subst this; rfl
    | cons n s ih =>
      intro k h1 hk
      simp at h1
      have hw : ∀ (t J : List Nat), 1 ∉ t → J.length = t.length → withUnits t J = J := by
        intro t
        induction t with
        | nil => intro J _ hJ; have := List.length_eq_zero_iff.1 hJ; subst this; rfl
        | cons m t iht =>
          intro J hm hJ
          simp at hm
          cases J with
          | nil => simp at hJ
          | cons j J =>
            simp only [withUnits, Ne.symm hm.1, if_false]
            rw [iht J hm.2 (by simpa using hJ)]
      cases k with
      | zero =>
        refine ⟨?_, fun J hJ => ?_⟩
        · simp only [List.insertIdx_zero]
          rw [List.filter_cons_of_neg (by simp), List.filter_eq_self]
          intro x hx
          simp
          rintro rfl
          exact absurd hx (by simp; exact ⟨h1.1, h1.2⟩)
        · simp only [List.insertIdx_zero, withUnits, if_true]
          have := hw (n :: s) J (by simp; exact ⟨h1.1, h1.2⟩) hJ
          simp only [withUnits] at this
          simpa using this
      | succ k =>
        simp at hk
        obtain ⟨i1, i2⟩ := ih k h1.2 hk
        refine ⟨?_, fun J hJ => ?_⟩
        · simp only [List.insertIdx_succ_cons]
          rw [List.filter_cons_of_pos (by simpa using Ne.symm h1.1), i1]
        · cases J with
          | nil => simp at hJ
          | cons j J =>
            simp only [List.insertIdx_succ_cons, withUnits, Ne.symm h1.1, if_false, List.eraseIdx_cons_succ]
            rw [i2 J (by simpa using hJ)]
  obtain ⟨k1, k2⟩ := key s k h1 hk'
  rw [k1] at d2
  exact d2.congr fun idx hi => by rw [k2 idx hi.length]

example : demo.Denotes [2, 3] demoFn ∧ AxisIs (-1) ([2, 3].length + 1) 2 ∧ 1 ∉ [2, 3] :=
  ⟨demo_denotes, by decide, by decide⟩
example : (Arr.fromContiguousOwnedBuffer [2, 1, 3, 1] [1, 2, 3, 4, 5, 6]).squeeze.shape = [2, 3] := by decide
example : (demo.unsqueeze 1).map (·.shape) = .ok [2, 1, 3] := by decide

/-! ## C13: reshape -/

/-- **C13 (partial).** `reshape` of a uniformly strided array keeps the row-major sequence of elements and
shares the memory. Hypotheses: the array's flags describe its layout (`FlagsExact`, established for every
array the library builds in C26), no axis of extent > 1 has stride 0 unless all strides are 0 (`Good`; see
`C13_broadcast_false` for why), and the array has at least one axis or keeps its shape
(`C13_scalar_panics`). -/
theorem C13_reshape_partial {a : Arr α} {s ns : List Nat} {f : List Nat → α} (ha : a.Denotes s f)
    (hf : a.FlagsExact) (hg : Good s a.stride) (hu : a.isUniformlyStrided = true)
    (hsz : numel ns = numel s) (hne : s ≠ []) :
    (∃ r g, a.reshape ns = .ok r ∧ r.buf = a.buf ∧ r.Denotes ns g ∧ elements ns g = elements s f) ∧
    (∃ r g, a.intoReshape ns = .ok r ∧ r.buf = a.buf ∧ r.Denotes ns g ∧ elements ns g = elements s f) := by
  have hs := ha.1
  subst hs
  obtain ⟨e, he⟩ := hf.uniform hu
  obtain ⟨st, h1, h2, _, _⟩ := reshape_reindexes ha.2.1 hg he hu hsz hne
  have hel : elements ns (fun idx => f (unrank a.shape (rank idx ns))) = elements a.shape f := by
    apply List.ext_getElem?
    intro k
    by_cases hk : k < numel ns
    · rw [getElem?_elements hk, getElem?_elements (by omega), rank_unrank hk]
    · rw [List.getElem?_eq_none (by rw [length_elements]; omega),
        List.getElem?_eq_none (by rw [length_elements]; omega)]
  refine ⟨⟨_, _, ?_, ?_, h2.denotes ha, hel⟩, ⟨_, _, ?_, ?_, (into_reindexes h2).denotes ha, hel⟩⟩
  · simp [Arr.reshape, h1]
  · rfl
  · simp [Arr.intoReshape, h1]
  · rfl

example := C13_reshape_partial (a := demo) (f := demoFn) (ns := [3, 2]) demo_denotes (flagsExact_fromContiguous _ _) (by decide) rfl rfl (by simp)

/-- **C13.** Exactly when `reshape` succeeds: the shape is unchanged, or the array reports a uniform stride,
the numbers of elements agree and the array has rank at least 1; otherwise it panics. -/
theorem C13_reshape_accepts (a : Arr α) (ns : List Nat) (hl : a.stride.length = a.shape.length) :
    ((∃ r, a.reshape ns = .ok r) ↔
      ns = a.shape ∨ (a.isUniformlyStrided = true ∧ numel ns = numel a.shape ∧ a.shape ≠ [])) ∧
    ((∃ r, a.reshape ns = .ok r) ∨ a.reshape ns = .error .panic) := by
  unfold Arr.reshape Arr.reshapeLayout
  by_cases h0 : ns = a.shape
  · simp [h0]
  · rw [if_neg h0]
    cases hu : a.isUniformlyStrided with
    | false => simp [assert, h0]
    | true =>
      simp only [assert, if_true, ok_bind]
      by_cases hsz : a.size = numel ns
      · rw [if_neg (by simpa using hsz)]
        cases hgl : a.stride.getLast? with
        | none =>
          have : a.shape = [] := by
            rw [List.getLast?_eq_none_iff] at hgl
            rw [hgl] at hl
            exact List.length_eq_zero_iff.1 hl.symm
          simp [this, h0]
          intro h
          exact absurd (h.trans this.symm) h0
        | some d =>
          have : a.shape ≠ [] := by
            intro h
            rw [h] at hl
            have := List.length_eq_zero_iff.1 hl
            rw [this] at hgl
            simp at hgl
          have h3 : numel ns = numel a.shape := hsz.symm
          simp [this, h3]
      · rw [if_pos (by simpa using hsz)]
        have h3 : ¬ numel ns = numel a.shape := fun h => hsz h.symm
        simp [h0, h3]

example := C13_reshape_accepts demo [3, 2] rfl

/-- **C13, negation 1.** Reshaping a broadcast view is wrong: `[7, 8]` broadcast to `[2, 2]` and reshaped to
`[4]` has four elements over a buffer of two; iterating it reads outside the buffer. -/
theorem C13_broadcast_false :
    ∃ a b r, a = Arr.fromContiguousOwnedBuffer [2] [7, 8] ∧ a.broadcastTo [2, 2] = .ok b ∧
      b.flatiter = .ok [7, 8, 7, 8] ∧ b.reshape [4] = .ok r ∧ r.flatiter = .error .oob :=
  ⟨_, (Arr.fromContiguousOwnedBuffer [2] [7, 8]).broadcastTo [2, 2] |>.toOption.get (by decide),
    (((Arr.fromContiguousOwnedBuffer [2] [7, 8]).broadcastTo [2, 2] |>.toOption.get (by decide)).reshape [4]).toOption.get
      (by decide), rfl, by decide, by decide, by decide, by decide⟩

/-- **C13, negation 2.** A rank-0 array cannot be reshaped to `[1]`, although it has one element. -/
theorem C13_scalar_panics (v : α) : (Arr.fromContiguousOwnedBuffer [] [v]).reshape [1] = .error .panic := rfl

/-- **C13, negation 3.** A view whose elements are consecutive cells may still be refused: rows 0..1 and
columns 0..3 of a 2x4 array are cells 0, 1, 2, but `reshape([3])` panics. -/
theorem C13_uniform_rejected :
    ∃ a v, a = Arr.fromContiguousOwnedBuffer [2, 4] [0, 1, 2, 3, 4, 5, 6, 7] ∧
      a.slice [.range 0 1, .range 0 3] = .ok v ∧ v.shape = [1, 3] ∧ offsets v.shape v.stride = [0, 1, 2] ∧
      v.reshape [3] = .error .panic :=
  ⟨_, (Arr.fromContiguousOwnedBuffer [2, 4] [0, 1, 2, 3, 4, 5, 6, 7]).slice [.range 0 1, .range 0 3]
    |>.toOption.get (by decide), rfl, by decide, by decide, by decide, by decide⟩

example : demo.Denotes [2, 3] demoFn ∧ demo.FlagsExact ∧ Good [2, 3] demo.stride ∧ demo.isUniformlyStrided = true
    ∧ numel [3, 2] = numel [2, 3] ∧ ([2, 3] : List Nat) ≠ [] :=
  ⟨demo_denotes, flagsExact_fromContiguous _ _, by decide, rfl, rfl, by decide⟩

/-! ## C16, C17: slices -/

/-- **C16 (partial).** A slice with in-range indexers and a non-empty result selects exactly the requested
box. Missing: slices with an empty result, see `C16_empty_slice`. -/
theorem C16_slice_partial {a : Arr α} {s : List Nat} {f : List Nat → α} (ha : a.Denotes s f) {ixs : List Indexer}
    (h : IndexersInRange ixs s) (hne : numel (selectShape (sels ixs s) s) ≠ 0) :
    ∃ r, a.slice ixs = .ok r ∧ r.buf = a.buf ∧
      r.Denotes (selectShape (sels ixs s) s) (fun J => f (selectIndex (sels ixs s) J)) ∧
      ∀ J, InB J (selectShape (sels ixs s) s) → InB (selectIndex (sels ixs s) J) s := by
  have hs := ha.1
  subst hs
  obtain ⟨r, h1, h2, _, h3, _⟩ := sliceResult_reindexes ha.2.1 h.fits hne false
  refine ⟨r, by rw [slice_ok ha.2.1 h, h1], h3.buf, ?_, fun J hJ => InB_selectIndex h.fits hJ⟩
  have := h3.denotes ha
  rwa [h2] at this

example := C16_slice_partial (a := demo) (f := demoFn) demo_denotes (ixs := [.at 1, .range 1 3]) (by decide) (by decide)

/-- **C16 (partial).** `slice_along(axis, ix)`: all other axes are kept. -/
theorem C16_sliceAlong_partial {a : Arr α} {s : List Nat} {f : List Nat → α} (ha : a.Denotes s f) {axis : Int}
    {k n : Nat} {ix : Indexer} (hk : AxisIs axis s.length k) (hn : s[k]? = some n) (hr : ix.InRange n)
    (hne : numel (selectShape (selectAt s k (ix.sel n)) s) ≠ 0) :
    ∃ r, a.sliceAlong axis ix = .ok r ∧ r.buf = a.buf ∧
      r.Denotes (selectShape (selectAt s k (ix.sel n)) s) (fun J => f (selectIndex (selectAt s k (ix.sel n)) J)) := by
  have hs := ha.1
  subst hs
  obtain ⟨hf, he⟩ := sliceAlong_ok ha.2.1 hk hn hr
  obtain ⟨r, h1, h2, _, h3, _⟩ := sliceResult_reindexes ha.2.1 hf hne true
  refine ⟨r, by rw [he, h1], h3.buf, ?_⟩
  have := h3.denotes ha
  rwa [h2] at this

example := C16_sliceAlong_partial (a := demo) (f := demoFn) demo_denotes (axis := -1) (k := 1) (n := 3) (ix := .rangeFrom 1) (by decide) rfl (by decide) (by decide)

/-- Doing selection `ys` after selection `xs`, as one selection. -/
def composeSel : List Select → List Select → List Select
  | .fix i :: xs, ys => .fix i :: composeSel xs ys
  | .keep a _ :: xs, .fix j :: ys => .fix (a + j) :: composeSel xs ys
  | .keep a _ :: xs, .keep b m :: ys => .keep (a + b) m :: composeSel xs ys
  | .keep a n :: xs, [] => .keep a n :: xs
  | [], ys => ys

/-- **C16.** Selecting from a selection is one selection with composed ranges: same shape, same elements. -/
theorem C16_compose (xs ys : List Select) (s J : List Nat) (hx : SelectFits xs s)
    (hy : SelectFits ys (selectShape xs s)) (hJ : InB J (selectShape ys (selectShape xs s))) :
    selectShape ys (selectShape xs s) = selectShape (composeSel xs ys) s ∧
    selectIndex xs (selectIndex ys J) = selectIndex (composeSel xs ys) J ∧
    SelectFits (composeSel xs ys) s := by
  induction xs generalizing ys s J with
  | nil =>
    have h0 : selectShape [] s = s := by cases s <;> rfl
    rw [h0] at hy hJ ⊢
    exact ⟨rfl, rfl, hy⟩
  | cons x xs ih =>
    cases s with
    | nil => exact hx.elim
    | cons n s =>
      cases x with
      | fix i =>
        obtain ⟨h1, h2, h3⟩ := ih ys s J hx.2 hy hJ
        exact ⟨h1, by simp only [composeSel, selectIndex, h2], hx.1, h3⟩
      | keep a len =>
        simp only [selectShape] at hy hJ ⊢
        cases ys with
        | nil => exact ⟨rfl, rfl, hx.1, hx.2⟩
        | cons y ys =>
          have hxl : a + len ≤ n := hx.1
          cases y with
          | fix j =>
            obtain ⟨h1, h2, h3⟩ := ih ys s J hx.2 hy.2 hJ
            refine ⟨h1, by simp only [composeSel, selectIndex, h2], ?_, h3⟩
            have := hy.1
            simp [Select.Fits] at this ⊢
            omega
          | keep b m =>
            cases J with
            | nil => simp [selectShape] at hJ
            | cons j J =>
              simp only [selectShape] at hJ ⊢
              obtain ⟨h1, h2, h3⟩ := ih ys s J hx.2 hy.2 hJ.2
              refine ⟨by simp only [composeSel, selectShape, h1], ?_, ?_, h3⟩
              · simp only [composeSel, selectIndex, h2]
                rw [Nat.add_assoc]
              · have := hy.1
                simp [Select.Fits] at this ⊢
                omega

example := C16_compose [.keep 1 2, .keep 0 3] [.fix 1, .keep 1 2] [4, 3] [1] ⟨by decide, by decide, trivial⟩ ⟨by decide, by decide, trivial⟩ (by decide)

/-- **C16.** Slicing a slice. -/
theorem C16_slice_slice_partial {a : Arr α} {s : List Nat} {f : List Nat → α} (ha : a.Denotes s f)
    {ixs jxs : List Indexer} (h : IndexersInRange ixs s) (h' : IndexersInRange jxs (selectShape (sels ixs s) s))
    (hne : numel (selectShape (sels jxs (selectShape (sels ixs s) s)) (selectShape (sels ixs s) s)) ≠ 0)
    (hne' : numel (selectShape (sels ixs s) s) ≠ 0) :
    ∃ r r', a.slice ixs = .ok r ∧ r.slice jxs = .ok r' ∧
      r'.Denotes (selectShape (composeSel (sels ixs s) (sels jxs (selectShape (sels ixs s) s))) s)
        (fun J => f (selectIndex (composeSel (sels ixs s) (sels jxs (selectShape (sels ixs s) s))) J)) := by
  obtain ⟨r, e1, _, d1, _⟩ := C16_slice_partial ha h hne'
  obtain ⟨r', e2, _, d2, _⟩ := C16_slice_partial d1 h' hne
  refine ⟨r, r', e1, e2, ?_⟩
  obtain ⟨J0, hJ0⟩ : ∃ J, InB J (selectShape (sels jxs (selectShape (sels ixs s) s)) (selectShape (sels ixs s) s)) :=
    ⟨_, InB_unrank (Nat.pos_of_ne_zero hne)⟩
  rw [← (C16_compose _ _ s J0 h.fits h'.fits hJ0).1]
  exact d2.congr fun J hJ => by rw [(C16_compose _ _ s J h.fits h'.fits hJ).2.1]

example : demo.Denotes [2, 3] demoFn ∧ IndexersInRange [.at 1, .range 1 3] [2, 3] ∧
    numel (selectShape (sels [.at 1, .range 1 3] [2, 3]) [2, 3]) ≠ 0 := ⟨demo_denotes, by decide, by decide⟩
example : ((demo.slice [.at 1, .range 1 3]) >>= Arr.flatiter) = .ok [14, 15] := by decide
example : ((demo.sliceAlong (-1) (.rangeFrom 1)) >>= Arr.flatiter) = .ok [11, 12, 14, 15] := by decide
example : ∃ r, demo.slice [.range 0 2, .rangeTo 2] = .ok r ∧ (r.slice [.at 1, .rangeFrom 1] >>= Arr.flatiter) = .ok [14] :=
  ⟨(demo.slice [.range 0 2, .rangeTo 2]).toOption.get (by decide), by decide, by decide⟩

/-- **C16, excluded case.** A slice with an empty result does not return an empty view: computing its buffer
length underflows (a panic in debug builds, wrap-around in release builds). -/
theorem C16_empty_slice : demo.slice [.full, .range 1 1] = .error .overflow := by decide

/-- **C17 (partial).** What is rejected: more indexers than axes never produce a view, and neither does a
range whose end lies before its start (an arithmetic overflow: panic in debug builds). -/
theorem C17_too_many_partial {a : Arr α} {ixs : List Indexer} (h : a.ndims < ixs.length) : ∃ e, a.slice ixs = .error e := by
  have key : ∀ (ixs : List Indexer) (s st : List Nat), s.length < ixs.length → ∃ e, sliceLoop ixs s st = .error e := by
    intro ixs
    induction ixs with
    | nil => intro s st h; simp at h
    | cons ix ixs ih =>
      intro s st h
      cases s with
      | nil => exact ⟨.panic, by simp [sliceLoop]⟩
      | cons n s => cases st with
        | nil => exact ⟨.panic, by simp [sliceLoop]⟩
        | cons d st =>
          obtain ⟨e, he⟩ := ih s st (by simpa using h)
          simp only [sliceLoop, he]
          cases ix.indexedLength n with
          | ok v => exact ⟨e, rfl⟩
          | error e' => exact ⟨e', rfl⟩
  obtain ⟨e, he⟩ := key ixs a.shape a.stride h
  exact ⟨e, by unfold Arr.slice; rw [he]; rfl⟩

example := C17_too_many_partial (a := demo) (ixs := [.full, .full, .full]) (by decide)

theorem C17_reversed_partial {a : Arr α} {axis : Int} {b c : Nat} (h : c < b) :
    ∃ e, a.sliceAlong axis (.range b c) = .error e := by
  unfold Arr.sliceAlong
  cases h1 : asAbsolute axis a.ndims with
  | error e => exact ⟨e, rfl⟩
  | ok k =>
    simp only [ok_bind]
    split
    · refine ⟨.overflow, ?_⟩
      simp [Indexer.collapse, Indexer.indexedLength, usub, Nat.not_le.2 h]
    · exact ⟨_, rfl⟩

example : demo.ndims < [Indexer.full, .full, .full].length := by decide

/-- **C17, negation.** A range end or index beyond the axis is accepted: `slice_along(0, 1..5)` of a 2x3
array returns a 4x3 view reaching 9 elements past the end of the buffer, and `slice([2])` returns a row
that lies entirely outside. -/
theorem C17_false :
    (∃ r, demo.sliceAlong 0 (.range 1 5) = .ok r ∧ r.shape = [4, 3] ∧ r.flatiter = .error .oob) ∧
    (∃ r, demo.slice [.at 2] = .ok r ∧ r.shape = [3] ∧ r.flatiter = .error .oob) :=
  ⟨⟨(demo.sliceAlong 0 (.range 1 5)).toOption.get (by decide), by decide, by decide, by decide⟩,
   ⟨(demo.slice [.at 2]).toOption.get (by decide), by decide, by decide, by decide⟩⟩

/-! ## C33: diagonals -/

/-- **C33.** `offset_diagonal_along(o, axis1, axis2)`: the remaining axes first, then the diagonal; its
element at `J ++ [k]` is the element with coordinate `k + max(-o,0)` on `axis1` and `k + max(o,0)` on
`axis2`. -/
theorem C33_diagonal {a : Arr α} {s : List Nat} {f : List Nat → α} (ha : a.Denotes s f) {o ax1 ax2 : Int}
    {i j n1 n2 : Nat} (h1 : AxisIs ax1 s.length i) (h2 : AxisIs ax2 s.length j) (hij : i ≠ j)
    (hn1 : s[i]? = some n1) (hn2 : s[j]? = some n2) (ho1 : -o < n1 ∨ 0 ≤ o) (ho2 : o < n2 ∨ o < 0) :
    ∃ r, a.offsetDiagonalAlong o ax1 ax2 = .ok r ∧ r.buf = a.buf ∧
      r.Denotes (others i j s ++ [min (n1 - (-o).toNat) (n2 - o.toNat)])
        (fun idx => f (putTwo i (idx.getLastD 0 + (-o).toNat) j (idx.getLastD 0 + o.toNat) s.length 0 idx.dropLast)) := by
  have hs := ha.1
  subst hs
  have hl := ha.2.1
  have hi : i < a.shape.length := h1.1
  have hj : j < a.shape.length := h2.1
  have hn1' : a.shape[i] = n1 := by rw [List.getElem?_eq_getElem hi] at hn1; simpa using hn1
  have hn2' : a.shape[j] = n2 := by rw [List.getElem?_eq_getElem hj] at hn2; simpa using hn2
  have hi' : i < a.stride.length := by omega
  have hj' : j < a.stride.length := by omega
  have hre := diag_reindexes (a := a) (i := i) (j := j) (o1 := (-o).toNat) (o2 := o.toNat)
    (len := min (n1 - (-o).toNat) (n2 - o.toNat)) hl hi hj hij (by omega) (by omega)
  unfold Arr.offsetDiagonalAlong
  have h1' : AxisIs ax1 a.ndims i := h1
  have h2' : AxisIs ax2 a.ndims j := h2
  rw [assert_ok (by unfold Arr.ndims; simp; omega), asAbsolute_ok h1', asAbsolute_ok h2', ok_bind, ok_bind, ok_bind,
    assert_ok (by simpa using hij), ok_bind]
  rw [hn1, hn2, List.getElem?_eq_getElem hi', List.getElem?_eq_getElem hj']
  simp only [others_eq_dropTwo]
  by_cases ho : o ≥ 0
  · rw [if_pos ho, if_neg (by omega)]
    have hz : (-o).toNat = 0 := by omega
    refine ⟨_, rfl, rfl, ?_⟩
    have := hre.denotes ha
    simpa [hz, Arr.reshapedViewWithOffset] using this
  · rw [if_neg ho, if_neg (by omega)]
    have hz : o.toNat = 0 := by omega
    refine ⟨_, rfl, rfl, ?_⟩
    have := hre.denotes ha
    simpa [hz, Arr.reshapedViewWithOffset] using this

example := C33_diagonal (a := demo) (f := demoFn) demo_denotes (o := 1) (ax1 := 0) (ax2 := -1) (i := 0) (j := 1) (n1 := 2) (n2 := 3) (by decide) (by decide) (by simp) rfl rfl (by simp) (by simp)

/-- **C33.** `diagonal()` of a matrix. -/
theorem C33_matrix_diagonal {a : Arr α} {n m : Nat} {f : List Nat → α} (ha : a.Denotes [n, m] f)
    (hm : m ≠ 0) :
    ∃ r, a.diagonal = .ok r ∧ r.Denotes [min n m] (fun idx => f [idx.getLastD 0, idx.getLastD 0]) := by
  obtain ⟨r, h1, _, h2⟩ := C33_diagonal ha (o := 0) (ax1 := 0) (ax2 := 1) (i := 0) (j := 1) (n1 := n) (n2 := m)
    ⟨by simp, by simp⟩ ⟨by simp, by simp⟩ (by simp) rfl rfl (by simp) (by left; omega)
  exact ⟨r, h1, by simpa [others, putTwo] using h2⟩

example := C33_matrix_diagonal (a := demo) (f := demoFn) demo_denotes (by simp)

/-- **C33.** It panics for fewer than two axes, equal axes, or an offset past the edge. -/
theorem C33_diagonal_rejects (a : Arr α) (o ax1 ax2 : Int) {i j n1 n2 : Nat}
    (h : a.ndims < 2 ∨
      (AxisIs ax1 a.ndims i ∧ AxisIs ax2 a.ndims j ∧ a.shape[i]? = some n1 ∧ a.shape[j]? = some n2 ∧
        a.stride.length = a.shape.length ∧
        (i = j ∨ (0 ≤ o ∧ (n2 : Int) ≤ o) ∨ (o < 0 ∧ (n1 : Int) ≤ -o)))) :
    a.offsetDiagonalAlong o ax1 ax2 = .error .panic := by
  unfold Arr.offsetDiagonalAlong
  by_cases hnd : a.ndims < 2
  · rw [assert_fail (by simpa using hnd)]; rfl
  · rcases h with h | ⟨h1, h2, h3, h4, hl, h5⟩
    · exact absurd h hnd
    rw [assert_ok (by simpa using hnd), asAbsolute_ok h1, asAbsolute_ok h2]
    by_cases hij : i = j
    · simp [hij, assert]
    · simp only [ok_bind]
      rw [assert_ok (by simpa using hij)]
      have hi : i < a.stride.length := by rw [hl]; exact h1.1
      have hj : j < a.stride.length := by rw [hl]; exact h2.1
      rw [h3, h4, List.getElem?_eq_getElem hi, List.getElem?_eq_getElem hj]
      simp only [ok_bind]
      rcases h5 with h | ⟨ho, h⟩ | ⟨ho, h⟩
      · exact absurd h hij
      · rw [if_pos (by omega), if_pos (by omega)]; rfl
      · rw [if_neg (by omega), if_pos (by omega)]; rfl

example : demo.Denotes [2, 3] demoFn ∧ AxisIs 0 2 0 ∧ AxisIs (-1) 2 1 ∧ (1 : Int) < 3 := by
  exact ⟨demo_denotes, by decide, by decide, by decide⟩
example : ((demo.offsetDiagonal 1) >>= Arr.flatiter) = .ok [11, 15] := by decide
example : ((demo.offsetDiagonal (-1)) >>= Arr.flatiter) = .ok [13] := by decide
example : ((Arr.fromContiguousOwnedBuffer [2, 3, 2] (List.range 12)).offsetDiagonalAlong 0 2 0 >>= Arr.flatiter) =
    .ok [0, 7, 2, 9, 4, 11] := by decide

end Verif
