import Verif.Props.Construct
import Verif.Props.Elementwise
import Verif.Props.Reduce
import Verif.Props.Einsum
import Verif.Props.MatrixOps
import Verif.Props.Views

/-!
# C54 zero-sized inputs

Full statement: for an array with an axis of extent 0, every operation yields the empty (or neutral) result or
panics; none has undefined behaviour. It is false (`C54_false`): products of matrices with an empty common axis
reach `assert_unchecked(false)`, and indexing an empty axis makes a view of memory that does not exist. The
theorems ending in `_partial` cover the operations for which it holds, for every empty array and every layout.
-/

namespace Verif

variable {α : Type}

theorem not_InB_of_zero {s idx : List Nat} (h0 : 0 ∈ s) : ¬ InB idx s := by
  intro h
  have hm := mem_indices.2 h
  rw [List.eq_nil_of_length_eq_zero (l := indices s) (by rw [length_indices]; exact numel_eq_zero.2 h0)] at hm
  cases hm

theorem indices_of_zero {s : List Nat} (h0 : 0 ∈ s) : indices s = [] :=
  List.eq_nil_of_length_eq_zero (by rw [length_indices]; exact numel_eq_zero.2 h0)

theorem elements_of_zero {s : List Nat} (h0 : 0 ∈ s) (f : List Nat → α) : elements s f = [] := by
  unfold elements; rw [indices_of_zero h0]; rfl

/-- An empty array represents every function. -/
theorem denotes_of_zero {a : Arr α} (hl : a.stride.length = a.shape.length) (h0 : 0 ∈ a.shape) (f : List Nat → α) :
    a.Denotes a.shape f := ⟨rfl, hl, fun _ hi => absurd hi (not_InB_of_zero h0)⟩

/-- Computing the length of an empty view underflows. -/
theorem bufferLength_of_zero {s st : List Nat} (hls : s.length = st.length) (hz : 0 ∈ s) :
    calculateStridedBufferLength s st = .error .overflow := by
  have key : (s.zip st).mapM (fun p : Nat × Nat => do
      let m ← usub p.1 1
      return p.2 * m) = (.error .overflow : Res (List Nat)) := by
    induction s generalizing st with
    | nil => cases hz
    | cons n s ih =>
      cases st with
      | nil => simp at hls
      | cons d st =>
        rw [List.zip_cons_cons, List.mapM_cons]
        by_cases hn : n = 0
        · subst hn; rfl
        · rw [ih (by simpa using hls) (by rcases List.mem_cons.1 hz with h | h <;> [exact absurd h.symm hn; exact h])]
          show (usub n 1 >>= _) >>= _ = _
          rw [usub_ok (by omega)]; rfl
  unfold calculateStridedBufferLength
  rw [key]; rfl

section views
variable {o a : Arr α} (ho : Fresh o) (hh : History NoBroadcast o a) (h0 : 0 ∈ a.shape) (hd : a.shape.length ≤ 32)
include ho hh h0 hd

/-- **C54** (part). Iterating an empty array yields nothing; its clone has the same shape and no elements; so
has its flattening, of shape `[0]`. `dflt` merely says that the element type is inhabited. -/
theorem C54_copies_partial (dflt : α) :
    a.flatiter = .ok [] ∧ (∃ r, a.clone = .ok r ∧ r.shape = a.shape ∧ r.buf = []) ∧
    (∃ r, a.flatten = .ok r ∧ r.shape = [0] ∧ r.buf = []) := by
  have hv := (wf_history ho.wf hh).valid
  have ha := denotes_of_zero hv.1 h0 (fun _ => dflt)
  refine ⟨?_, ?_, ?_⟩
  · rw [ha.flatiter hd, elements_of_zero h0]
  · obtain ⟨r, e, h1, h2, _⟩ := C20_clone_partial ho hh ha hd
    exact ⟨r, e, h1.1, by rw [h2, elements_of_zero h0]⟩
  · obtain ⟨r, e, h1, h2⟩ := C21_flatten_partial ho hh ha hd
    exact ⟨r, e, by rw [h1.1, numel_eq_zero.2 h0], by rw [h2, elements_of_zero h0]⟩

/-- a new 0x3 matrix, and its transpose -/
example : ∃ a : Arr Int, (Arr.fromContiguousOwnedBuffer [0, 3] ([] : List Int)).transpose 0 1 = .ok a ∧ a.flatiter = .ok [] :=
  ⟨_, rfl, (C54_copies_partial (o := Arr.fromContiguousOwnedBuffer [0, 3] []) ⟨[0, 3], [], rfl, rfl⟩
    (.step (.transpose 0 1) .refl rfl trivial rfl) (by decide) (by decide) 0).1⟩

omit hd in
/-- **C54** (part). Filling an empty view writes nothing, whatever buffer it points into. -/
theorem C54_fill_partial (v : α) : a.fill v = .ok a.buf := by
  obtain ⟨buf', e, _, _, h⟩ := C24_fill_partial ho hh v
  rw [e]
  congr 1
  exact List.ext_getElem? fun i => h i fun idx hi => absurd hi (not_InB_of_zero h0)

example : (Arr.fromContiguousOwnedBuffer [0, 3] ([] : List Int)).fill 7 = .ok [] :=
  C54_fill_partial (o := Arr.fromContiguousOwnedBuffer [0, 3] []) ⟨[0, 3], [], rfl, rfl⟩ .refl (by decide) 7

/-- **C54** (part). Every whole-array reduction of an empty array is its start value (sum 0, product 1). -/
theorem C54_reduce_partial (step : α → α → α) (init : α) :
    ∃ r, a.reduceAll step init (portableRed step init) = .ok r ∧ r.Denotes [] (fun _ => init) := by
  have hv := (wf_history ho.wf hh).valid
  obtain ⟨r, e, h⟩ := C09_history_partial step init ho hh (denotes_of_zero hv.1 h0 (fun _ => init)) hd
  rw [indices_of_zero h0] at h
  exact ⟨r, e, h⟩

example : ∃ r, (Arr.fromContiguousOwnedBuffer [0, 3] ([] : List Int)).reduceAll (· * ·) 1 (portableRed (· * ·) 1) = .ok r ∧
    r.Denotes [] (fun _ => 1) :=
  C54_reduce_partial (o := Arr.fromContiguousOwnedBuffer [0, 3] []) ⟨[0, 3], [], rfl, rfl⟩ .refl (by decide) (by decide) _ _

/-- **C54** (part). Compound assignment to an empty view (of whatever buffer) writes nothing. -/
theorem C54_assign_partial (f : α → α → Res α) {b : Arr α} {t : List Nat} {fb : List Nat → α}
    (hc : a.isContiguous = true) (hw : a.flags.writeable = true)
    (hb : b.Denotes t fb) (hbt : BroadcastsTo t a.shape) : a.opAssign f (portableKernels f) false b = .ok a.buf := by
  have hv := (wf_history ho.wf hh).valid
  have fa : List Nat → α := fun idx => fb idx
  obtain ⟨buf', e, h⟩ := C08_assign_partial f (h := fa) ho hh hc hw (denotes_of_zero hv.1 h0 fa) hb hbt hd
    (fun idx hi => absurd hi (not_InB_of_zero h0))
  rw [e]
  congr 1
  exact List.ext_getElem? fun i => h.2.2 i fun idx hi => absurd hi (not_InB_of_zero h0)

example (f : Int → Int → Res Int) :
    (Arr.fromContiguousOwnedBuffer [0, 3] ([] : List Int)).opAssign f (portableKernels f) false
      (Arr.fromContiguousOwnedBuffer [3] ((indices [3]).map fun idx => (idx.headD 0 : Int) + 1)) = .ok [] :=
  C54_assign_partial (o := Arr.fromContiguousOwnedBuffer [0, 3] []) ⟨[0, 3], [], rfl, rfl⟩ .refl (by decide) (by decide) f
    rfl rfl (denotes_fromContiguous (s := [3]) (f := fun idx => (idx.headD 0 : Int) + 1)) (by decide)

end views

/-- **C54** (part). Reducing an empty array along axes gives the start value in every position of the remaining
shape (there is no position if another axis is empty). -/
theorem C54_reduce_along_partial (func : α → α → α) {a : Arr α} (hl : a.stride.length = a.shape.length)
    (h0 : 0 ∈ a.shape) (hd : a.shape.length ≤ 32) {axes : List Int} {ks : List Nat}
    (hax : AxesAre axes a.shape.length ks) (hnd : ks.Nodup) (init : α) :
    ∃ r, a.reduceAlong func axes init = .ok r ∧ r.Denotes (dropAxes ks a.shape) (fun _ => init) := by
  obtain ⟨r, e, h⟩ := C10_reduce_along func (denotes_of_zero hl h0 (fun _ => init)) hd hax hnd init
  refine ⟨r, e, h.congr fun J _ => ?_⟩
  unfold fibre; rw [indices_of_zero h0]; rfl

example : ∃ r, (Arr.fromContiguousOwnedBuffer [2, 0] ([] : List Int)).reduceAlong (· + ·) [-1] 0 = .ok r ∧
    r.Denotes [2] (fun _ => 0) :=
  C54_reduce_along_partial (· + ·) (a := Arr.fromContiguousOwnedBuffer [2, 0] []) rfl (by decide) (by decide)
    (axes := [-1]) (ks := [1]) ⟨⟨by decide, by decide⟩, trivial⟩ (by decide) 0

/-- **C54** (part). Two empty arrays are equal exactly if they have the same shape. -/
theorem C54_eq_partial [BEq α] (dflt : α) {a b : Arr α} (hl : a.stride.length = a.shape.length)
    (hl' : b.stride.length = b.shape.length) (h0 : 0 ∈ a.shape) (h0' : 0 ∈ b.shape) (hd : a.shape.length ≤ 32) :
    a.eq b = .ok (decide (a.shape = b.shape)) := by
  obtain ⟨r, e, h⟩ := C22_eq (denotes_of_zero hl h0 (fun _ => dflt)) (denotes_of_zero hl' h0' (fun _ => dflt)) hd
  rw [e]
  congr 1
  by_cases hs : a.shape = b.shape
  · rw [decide_eq_true hs, h.2 ⟨hs, fun idx hi => absurd hi (not_InB_of_zero h0)⟩]
  · rw [decide_eq_false hs]
    cases hr : r
    · rfl
    · exact absurd (h.1 hr).1 hs

example : (Arr.fromContiguousOwnedBuffer [2, 0] ([] : List Int)).eq (Arr.fromContiguousOwnedBuffer [0, 2] []) = .ok false :=
  C54_eq_partial 0 (a := Arr.fromContiguousOwnedBuffer [2, 0] []) (b := Arr.fromContiguousOwnedBuffer [0, 2] [])
    rfl rfl (by decide) (by decide) (by decide)

/-- **C54** (part). Elementwise operators whose joint shape is empty give an empty result of that shape, even if
the operator would panic on every pair of elements (integer division). -/
theorem C54_elementwise_partial (f : α → α → Res α) (dflt : α) {a b : Arr α} {s t r : List Nat} {fa fb : List Nat → α}
    (ha : a.Denotes s fa) (hb : b.Denotes t fb) (hc : Compatible s t) (hj : IsJoint s t r) (hd : r.length ≤ 32)
    (h0 : 0 ∈ r) : ∃ c, a.binOp f (portableKernels f) dflt b = .ok c ∧ c.Denotes r (fun _ => dflt) :=
  C05_elementwise f dflt ha hb hc hj hd fun _ hi => absurd hi (not_InB_of_zero h0)

example (f : Int → Int → Res Int) (g : List Nat → Int) : ∃ c, (Arr.fromContiguousOwnedBuffer [0, 1] ([] : List Int)).binOp f
    (portableKernels f) 0 (Arr.fromContiguousOwnedBuffer [3] ((indices [3]).map fun idx => (idx.headD 0 : Int) + 1)) = .ok c ∧ c.Denotes [0, 3] (fun _ => 0) :=
  C54_elementwise_partial f 0 (denotes_of_zero (a := Arr.fromContiguousOwnedBuffer [0, 1] []) rfl (by decide) g)
    (denotes_fromContiguous (s := [3]) (f := fun idx => (idx.headD 0 : Int) + 1)) (compatible_of_ok (r := [0, 3]) rfl)
    (joint_of_ok (s := [0, 1]) (t := [3]) rfl)
    (by decide) (by decide)

/-- **C54** (part). Likewise an operator with a scalar, and negation. -/
theorem C54_scalar_partial (f : α → α → Res α) (g : α → Res α) (dflt v : α) {a : Arr α}
    (hl : a.stride.length = a.shape.length) (h0 : 0 ∈ a.shape) (hd : a.shape.length ≤ 32) :
    (∃ c, a.binOpScalar f (portableKernels f) dflt v = .ok c ∧ c.Denotes a.shape (fun _ => dflt)) ∧
    (∃ c, a.neg g (portableNeg g) dflt = .ok c ∧ c.Denotes a.shape (fun _ => dflt)) :=
  ⟨C06_scalar f dflt v (denotes_of_zero hl h0 (fun _ => dflt)) hd fun _ hi => absurd hi (not_InB_of_zero h0),
   C07_neg g dflt (denotes_of_zero hl h0 (fun _ => dflt)) hd fun _ hi => absurd hi (not_InB_of_zero h0)⟩

example (f : Int → Int → Res Int) (g : Int → Res Int) :
    ∃ c, (Arr.fromContiguousOwnedBuffer [2, 0] ([] : List Int)).binOpScalar f (portableKernels f) 0 5 = .ok c ∧
      c.Denotes [2, 0] (fun _ => 0) :=
  (C54_scalar_partial f g 0 5 (a := Arr.fromContiguousOwnedBuffer [2, 0] []) rfl (by decide) (by decide)).1

/-- **C54** (part). The dot product of two empty vectors is 0. -/
theorem C54_dot_partial [CommSemiring α] {a b : Arr α} (ha : a.shape = [0]) (hb : b.shape = [0])
    (hla : a.stride.length = 1) (hlb : b.stride.length = 1) :
    ∃ r, a.dot b = .ok r ∧ r.Denotes [] (fun _ => 0) := by
  have da := denotes_of_zero (by rw [hla, ha]; rfl) (by simp [ha]) (fun _ => (0 : α))
  have db := denotes_of_zero (by rw [hlb, hb]; rfl) (by simp [hb]) (fun _ => (0 : α))
  rw [ha] at da; rw [hb] at db
  obtain ⟨r, e, h⟩ := C32_dot da db
  exact ⟨r, e, h.congr fun _ _ => by simp [innerProduct]⟩

example : ∃ r, (Arr.fromContiguousOwnedBuffer [0] ([] : List Int)).dot (Arr.fromContiguousOwnedBuffer [0] []) = .ok r ∧
    r.Denotes [] (fun _ => 0) := C54_dot_partial rfl rfl rfl rfl

/-- **C54** (part). A slice that would be empty is never returned: the computation of its length underflows (a
panic in debug builds; in release builds the length field wraps around). -/
theorem C54_empty_slice_partial {a : Arr α} {ixs : List Indexer} (hl : a.stride.length = a.shape.length)
    (h : IndexersInRange ixs a.shape) (h0 : 0 ∈ selectShape (sels ixs a.shape) a.shape) :
    a.slice ixs = .error .overflow := by
  rw [slice_ok hl h]
  unfold Arr.sliceResult
  rw [bufferLength_of_zero (length_selectStride hl.symm).symm h0]; rfl

example : demo.slice [.full, .range 1 1] = .error .overflow := C54_empty_slice_partial rfl (by decide) (by decide)

/-- **C54** fails. Multiplying a 2×0 by a 0×2 matrix, which is the 2×2 zero matrix, reaches
`assert_unchecked(false)` (likewise by `einsum`); taking entry 0 of an empty vector succeeds and reading it is
out of bounds, as is reading row 0 of a 0×2 matrix. -/
theorem C54_false :
    (Arr.fromContiguousOwnedBuffer [2, 0] ([] : List Int)).matmul portableSop (Arr.fromContiguousOwnedBuffer [0, 2] []) =
      .error .ub ∧
    einsum portableSop [Arr.fromContiguousOwnedBuffer [2, 0] ([] : List Int), Arr.fromContiguousOwnedBuffer [0, 2] []]
      [['i', 'j'], ['j', 'k']] ['i', 'k'] = .error .ub ∧
    (∃ v, (Arr.fromContiguousOwnedBuffer [0] ([] : List Int)).slice [.at 0] = .ok v ∧ v.value = .error .oob) ∧
    (∃ v, (Arr.fromContiguousOwnedBuffer [0, 2] ([] : List Int)).slice [.at 0] = .ok v ∧ v.shape = [2] ∧
      v.flatiter = .error .oob) :=
  ⟨C30_empty_false.1, C28_empty_false.1, ⟨_, rfl, rfl⟩, ⟨_, rfl, rfl, rfl⟩⟩

/-! ### the hypotheses can be met -/

/-- an empty matrix and its transpose -/
example : ∃ (o a : Arr Int), Fresh o ∧ History NoBroadcast o a ∧ 0 ∈ a.shape ∧ a.shape.length ≤ 32 ∧ a.shape = [3, 0] ∧
    a.isContiguous = false ∧ a.flatiter = .ok [] :=
  ⟨Arr.fromContiguousOwnedBuffer [0, 3] [], _, ⟨[0, 3], [], rfl, rfl⟩, .step (.transpose 0 1) .refl rfl trivial rfl,
    by decide, by decide, rfl, by decide, rfl⟩

example : ∃ r, (Arr.fromContiguousOwnedBuffer [2, 0] ([] : List Nat)).sumAlong [1] = .ok r ∧ r.flatiter = .ok [0, 0] :=
  ⟨_, rfl, rfl⟩

/-- an empty array combined with one of extent 1 -/
example : IsJoint [0] [1] [0] ∧ ∃ c, (Arr.fromContiguousOwnedBuffer [0] ([] : List Nat)).binOp (fun _ _ => .error .panic)
    (portableKernels fun _ _ => .error .panic) 0 (Arr.fromContiguousOwnedBuffer [1] [7]) = .ok c ∧ c.shape = [0] := by
  refine ⟨⟨rfl, fun k => ?_⟩, _, rfl, rfl⟩
  cases k <;> simp [extentFromRight]

example : IndexersInRange [.full, .range 1 1] [2, 3] ∧ 0 ∈ selectShape (sels [.full, .range 1 1] [2, 3]) [2, 3] := by
  decide

end Verif
