import Verif.Props.History
import Verif.Lemmas.Iter

set_option linter.unusedSimpArgs false

/-!
# C35 iter / iter_along, C36 nditer

The iterators yield deep copies of the sub-arrays (`self.result.clone()`), so "the `k`-th item is the view"
means: it has the shape and the elements of that view.
-/

namespace Verif

variable {α : Type}

/-! ## C36 -/

/-- **C36** (part). If the strides of the selected axes form a row-major chain (each is the next one times its
extent; always so for a single axis) and no remaining axis of extent > 1 has stride 0, then `nditer(axes)` yields,
for each assignment of the selected coordinates in row-major order, exactly the sub-array with those coordinates
fixed: element `idx` of `a` is found in the item of rank `keepAxes idx`, at index `dropAxes idx`.
Missing: other axis sets (false: `C36_false`, `C36_false_oob`) and broadcast remaining axes (`C35_false`). -/
theorem C36_nditer_partial {a : Arr α} {s : List Nat} {f : List Nat → α} (ha : a.Denotes s f) (hd : s.length ≤ 32)
    {ks : List Nat} (hr : ∀ k ∈ ks, k < s.length) (hnd : ks.Nodup) {q : Nat}
    (hc : keepAxes ks a.stride = chainStride q (keepAxes ks s))
    (hz : numel (keepAxes ks s) ≠ 0 → NoZero (dropAxes ks s) (dropAxes ks a.stride)) :
    ∃ rs, a.nditer ks = .ok rs ∧ rs.length = numel (keepAxes ks s) ∧
      ∀ idx, InB idx s → ∃ r g, rs[rank (keepAxes ks idx) (keepAxes ks s)]? = some r ∧
        r.Denotes (dropAxes ks s) g ∧ g (dropAxes ks idx) = f idx := by
  obtain ⟨rs, h1, h2, h3⟩ := nditer_ok ha hd hr hnd hc hz
  refine ⟨rs, h1, h2, fun idx hi => ?_⟩
  have hk := InB_keepAxes (ks := ks) hi
  obtain ⟨r, h4, h5⟩ := h3 _ (rank_lt hk)
  refine ⟨r, _, h4, h5, ?_⟩
  rw [unrank_rank hk, ← hi.length, ← keepMask_maskOf, ← dropMask_maskOf, weave_split (length_maskOf _ _)]

example := C36_nditer_partial demo_denotes (by decide) (ks := [0]) (by decide) (by decide) (q := 3) rfl
  (fun _ => by decide)

/-- **C36** (part). In particular `nditer` over the first `m` axes of a freshly created array is right. -/
theorem C36_leading_partial {a : Arr α} {f : List Nat → α} (hfr : Fresh a) (ha : a.Denotes a.shape f)
    (hd : a.shape.length ≤ 32) {m : Nat} (hm : m ≤ a.shape.length) :
    ∃ rs, a.nditer (List.range m) = .ok rs ∧ rs.length = numel (a.shape.take m) ∧
      ∀ idx, InB idx a.shape → ∃ r g, rs[rank (idx.take m) (a.shape.take m)]? = some r ∧
        r.Denotes (dropAxes (List.range m) a.shape) g ∧ g (dropAxes (List.range m) idx) = f idx := by
  have hst : a.stride = strideFromShape a.shape := by
    obtain ⟨s, data, _, rfl⟩ := hfr; rfl
  have := C36_nditer_partial ha hd (ks := List.range m) (by simp; omega) List.nodup_range
    (q := numel (a.shape.drop m)) (by rw [keepAxes_range, keepAxes_range, hst, take_strideFromShape])
    (fun h0 => hfr.wf.pos.dropAxes h0)
  simpa only [keepAxes_range] using this

example := C36_leading_partial demo_fresh demo_denotes (by decide) (m := 1) (by decide)

/-- **C36.** Selecting an axis twice, or one that does not exist, panics. -/
theorem C36_bad_axes (a : Arr α) {ks : List Nat} (h : ¬ ((∀ k ∈ ks, k < a.shape.length) ∧ ks.Nodup)) :
    a.nditer ks = .error .panic := by
  unfold Arr.nditer NdIter.from
  rw [splitByIndices_error h]; rfl

example := C36_bad_axes demo (ks := [0, 0]) (by decide)

/-- **C36 is false** in general: iterating over axes 0 and 2 of the 2x2x2 array 0..7 yields `[2, 4]` as third
item; the sub-array at (1, ., 0) is `[4, 6]`. -/
theorem C36_false : ∃ rs : List (Arr Nat), (Arr.fromContiguousOwnedBuffer [2, 2, 2] (List.range 8)).nditer [0, 2] = .ok rs ∧
    rs.map (·.buf) = [[0, 2], [1, 3], [2, 4], [5, 7]] := ⟨_, rfl, rfl⟩

/-- **C36 is false** (2): over both axes of a transposed 2x3 array, `nditer` reads outside the buffer. -/
theorem C36_false_oob : demoT.nditer [0, 1] = .error .oob := rfl

/-- two leading axes of a 2x2x2 array -/
example : ∃ rs : List (Arr Nat), (Arr.fromContiguousOwnedBuffer [2, 2, 2] (List.range 8)).nditer [0, 1] = .ok rs ∧
    rs.map (·.buf) = [[0, 1], [2, 3], [4, 5], [6, 7]] := ⟨_, rfl, rfl⟩
example : keepAxes [0, 1] [4, 2, 1] = chainStride 2 (keepAxes [0, 1] [2, 2, 2]) := rfl
/-- two trailing axes: the remaining axis has stride 4 -/
example : keepAxes [1, 2] [4, 2, 1] = chainStride 1 (keepAxes [1, 2] [2, 2, 2]) ∧ NoZero (dropAxes [1, 2] [2, 2, 2]) (dropAxes [1, 2] [4, 2, 1]) :=
  ⟨rfl, by decide⟩

/-! ## C35 -/

theorem insertIdx_InB {J s : List Nat} {k i n : Nat} (hk : s[k]? = some n) (hi : i < n) (hJ : InB J (s.eraseIdx k)) :
    InB (J.insertIdx k i) s ∧ (J.insertIdx k i)[k]? = some i ∧ (J.insertIdx k i).eraseIdx k = J := by
  induction s generalizing J k with
  | nil => simp at hk
  | cons m s ih => cases k with
    | zero =>
      simp at hk; subst hk
      simp only [List.eraseIdx_cons_zero] at hJ
      simp [hi, hJ]
    | succ k => cases J with
      | nil => simp at hJ
      | cons j J =>
        simp only [List.eraseIdx_cons_succ, InB_cons] at hJ
        obtain ⟨h1, h2, h3⟩ := ih (by simpa using hk) hJ.2
        simp [hJ.1, h1, h2, h3]

/-- **C35** (part). `iter_along(axis)` yields exactly as many items as the axis has entries, the `i`-th being the
sub-array with that coordinate fixed to `i`; for every array or view reached without `broadcast_to`, and any axis
number, negative ones included. Missing: broadcast views (false: `C35_false`). -/
theorem C35_iter_along_partial {o a : Arr α} (ho : Fresh o) (hh : History NoBroadcast o a) {s : List Nat} {f : List Nat → α}
    (ha : a.Denotes s f) (hd : s.length ≤ 32) {axis : Int} {k n : Nat} (hax : AxisIs axis s.length k) (hn : s[k]? = some n) :
    ∃ rs, a.iterAlong axis = .ok rs ∧ rs.length = n ∧
      ∀ i < n, ∃ r, rs[i]? = some r ∧ r.Denotes (s.eraseIdx k) (fun J => f (J.insertIdx k i)) := by
  have hw := wf_history ho.wf hh
  have hs := ha.1
  have hl := ha.2.1
  have hk : k < s.length := hax.1
  obtain ⟨d, hdk⟩ : ∃ d, a.stride[k]? = some d := ⟨_, List.getElem?_eq_getElem (by rw [hl]; exact hk)⟩
  have hpos := hw.pos
  rw [hs] at hpos
  obtain ⟨rs, h1, h2, h3⟩ := C36_nditer_partial ha hd (ks := [k]) (by simpa using hk) (by simp) (q := d)
    (by rw [keepAxes_single hdk, keepAxes_single hn]; simp [chainStride])
    (fun h0 => hpos.dropAxes h0)
  rw [keepAxes_single hn] at h2 h3
  obtain ⟨rs', h4, _, h6⟩ := nditer_ok ha hd (ks := [k]) (by simpa using hk) (by simp) (q := d)
    (by rw [keepAxes_single hdk, keepAxes_single hn]; simp [chainStride])
    (fun h0 => hpos.dropAxes h0)
  rw [h1] at h4; cases h4
  rw [keepAxes_single hn] at h6
  refine ⟨rs, ?_, by simpa using h2, fun i hi => ?_⟩
  · unfold Arr.iterAlong
    rw [show a.ndims = s.length by rw [Arr.ndims, hs], asAbsolute_ok hax]; exact h1
  · obtain ⟨r, h7, h8⟩ := h6 i (by simpa using hi)
    rw [dropAxes_single] at h8
    refine ⟨r, h7, h8.congr fun J hJ => ?_⟩
    obtain ⟨e1, e2, e3⟩ := insertIdx_InB hn hi hJ
    have := weave_split (mask := maskOf s.length [k]) (idx := J.insertIdx k i) (by rw [length_maskOf, e1.length])
    rw [← e1.length, keepMask_maskOf, dropMask_maskOf, keepAxes_single e2, dropAxes_single, e3, e1.length] at this
    rw [show unrank [n] i = [i] by simp [unrank]]
    rw [this]

example := C35_iter_along_partial demo_fresh demoT_history demoT_denotes (by decide) (axis := -1) (k := 1) (n := 2)
  ⟨by decide, by decide⟩ rfl

/-- **C35** (part). `iter()` is iteration along axis 0. -/
theorem C35_iter_partial {o a : Arr α} (ho : Fresh o) (hh : History NoBroadcast o a) {n : Nat} {s : List Nat} {f : List Nat → α}
    (ha : a.Denotes (n :: s) f) (hd : (n :: s).length ≤ 32) :
    ∃ rs, a.iter = .ok rs ∧ rs.length = n ∧ ∀ i < n, ∃ r, rs[i]? = some r ∧ r.Denotes s (fun J => f (i :: J)) := by
  have hax : AxisIs 0 (n :: s).length 0 := ⟨by simp, .inl rfl⟩
  obtain ⟨rs, h1, h2, h3⟩ := C35_iter_along_partial ho hh ha hd hax rfl
  refine ⟨rs, ?_, h2, fun i hi => ?_⟩
  · unfold Arr.iterAlong at h1
    rw [show a.ndims = (n :: s).length by rw [Arr.ndims, ha.1], asAbsolute_ok hax] at h1
    exact h1
  · obtain ⟨r, h4, h5⟩ := h3 i hi
    exact ⟨r, h4, by simpa using h5⟩

example := C35_iter_partial demo_fresh demoT_history (n := 3) (s := [2]) demoT_denotes (by decide)

/-- **C35.** An axis that does not exist panics; a scalar cannot be iterated. -/
theorem C35_bad_axis (a : Arr α) {axis : Int} (h : ∀ k, ¬ AxisIs axis a.ndims k) : a.iterAlong axis = .error .panic := by
  unfold Arr.iterAlong; rw [asAbsolute_error h]; rfl

example := C35_bad_axis demo (axis := 2) fun k h => by
  have := h.1; have := h.2; simp [demo, Arr.ndims, Arr.fromContiguousOwnedBuffer] at *; omega

/-- **C35.** A scalar cannot be iterated: `iter()` panics. -/
theorem C35_scalar (a : Arr α) (h : a.shape = []) : a.iter = .error .panic :=
  C36_bad_axes a (by simp [h])

example := C35_scalar (Arr.fromContiguousOwnedBuffer [] [7]) rfl

/-- **C35 is false** for broadcast views: the columns of the 3x2 array with rows `[1, 2]` are `[1, 1, 1]` and
`[2, 2, 2]`, but iterating over them reads three consecutive cells of a two-element buffer. -/
theorem C35_false : ∃ a : Arr Nat, (Arr.fromContiguousOwnedBuffer [2] [1, 2]).broadcastTo [3, 2] = .ok a ∧
    a.iterAlong 1 = .error .oob := ⟨_, rfl, rfl⟩

/-- columns of a 2x3 array, by a negative axis; rows of its transpose -/
example : ∃ rs, demo.iterAlong (-1) = .ok rs ∧ rs.map (·.buf) = [[10, 13], [11, 14], [12, 15]] := ⟨_, rfl, rfl⟩
example : ∃ rs, demoT.iter = .ok rs ∧ rs.map (·.buf) = [[10, 13], [11, 14], [12, 15]] := ⟨_, rfl, rfl⟩

end Verif
