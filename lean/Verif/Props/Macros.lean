import Verif.Model.Macros
import Verif.Props.Construct
import Verif.Props.Elementwise
import Verif.Props.Reduce
import Verif.Lemmas.Pair
import Mathlib.Algebra.Order.Group.Unbundled.Abs
import Mathlib.Algebra.Order.Group.Int

set_option linter.unusedSimpArgs false

/-!
# C58 `assert_almost_eq!`, C60 `data_slice` and `into_data_vector`
-/

namespace Verif

/-! ## C58 -/

section almost
variable {α : Type} [AddCommGroup α] [LinearOrder α] [IsOrderedAddMonoid α]

/-- The macro for exact arithmetic. -/
abbrev almostEq (dflt bot tol : α) (a b : Arr α) : Res Unit :=
  assertAlmostEq (fun x y => .ok (x - y)) dflt ltb bot (fun x => decide (tol < |x|)) a b

omit [IsOrderedAddMonoid α] in
/-- What the macro does for arrays of equal shape: with `v` the greatest difference, it passes iff `|v| ≤ tol` or the arrays
are equal, else it panics. -/
theorem almostEq_eq (dflt bot tol : α) {a b : Arr α} {s : List Nat} {f g : List Nat → α} (ha : a.Denotes s f)
    (hb : b.Denotes s g) (hd : s.length ≤ 32) :
    ∃ v, IsGreatestOf v bot (fun idx => f idx - g idx) (indices s) ∧
      (|v| ≤ tol ∨ (∀ idx, InB idx s → f idx = g idx) → almostEq dflt bot tol a b = .ok ()) ∧
      (¬ (|v| ≤ tol ∨ ∀ idx, InB idx s → f idx = g idx) → almostEq dflt bot tol a b = .error .panic) := by
  set h : List Nat → α := fun idx => f idx - g idx with hh
  have hj : IsJoint s s s := ⟨by simp, fun k => by split <;> rfl⟩
  have hbin : a.binOp (fun x y => .ok (x - y)) (portableKernels fun x y => .ok (x - y)) dflt b =
      .ok (Arr.fromContiguousOwnedBuffer s (elements s h)) := by
    rw [binOp_eq (portable_correct _) dflt ha hb (fun k => .inl rfl) hj hd trivial, mapM_id_elements (h := h)]
    · rfl
    · intro idx hi; rw [broadcastIndex_self hi]
  have hfr : Fresh (Arr.fromContiguousOwnedBuffer s (elements s h)) := ⟨s, _, length_elements _ _, rfl⟩
  obtain ⟨m, v, hm, hmd, hv⟩ := C11_max_partial bot (denotes_fromContiguous (s := s) (f := h)) hd (reducible_history hfr .refl)
  obtain ⟨e, he, heq⟩ := C22_eq ha hb hd
  have hfi : m.flatiter = .ok [v] := hmd.flatiter (by simp [maxDims])
  have key : almostEq dflt bot tol a b = if decide (tol < |v|) then assert e else .ok () := by
    unfold almostEq assertAlmostEq
    rw [hbin, ok_bind, hm, ok_bind, hfi, ok_bind]
    simp only [List.head?_cons, he, ok_bind]
    rfl
  refine ⟨v, hv, fun hc => ?_, fun hc => ?_⟩
  · rw [key]
    split
    · rename_i hlt
      have he : e = true := heq.2 ⟨rfl, fun idx hi => by
        rcases hc with hc | hc
        · exact absurd (lt_of_lt_of_le (of_decide_eq_true hlt) hc) (lt_irrefl _)
        · simp [hc idx hi]⟩
      rw [he]; rfl
    · rfl
  · rw [not_or] at hc
    have he : e = false := by
      cases e
      · rfl
      · exact absurd (fun idx hi => by simpa using (heq.1 rfl).2 idx hi) hc.2
    rw [key, if_pos (by simpa using hc.1), he]; rfl

/-- **C58** (part). Arrays of the same shape whose elements differ by at most `tol` are accepted (`bot`, the least number of
the type, is not above all differences). -/
theorem C58_accepts (dflt bot tol : α) {a b : Arr α} {s : List Nat} {f g : List Nat → α} (ha : a.Denotes s f)
    (hb : b.Denotes s g) (hd : s.length ≤ 32) (hbot : ∀ idx, InB idx s → bot ≤ f idx - g idx)
    (h : ∀ idx, InB idx s → |f idx - g idx| ≤ tol) : almostEq dflt bot tol a b = .ok () := by
  obtain ⟨v, hv, h1, -⟩ := almostEq_eq dflt bot tol ha hb hd
  apply h1
  by_cases hex : ∃ idx, InB idx s
  · obtain ⟨i0, hi0⟩ := hex
    obtain ⟨idx, hi, rfl⟩ := hv.2 ⟨i0, mem_indices.2 hi0, hbot i0 hi0⟩
    exact .inl (h idx (mem_indices.1 hi))
  · exact .inr fun idx hi => absurd ⟨idx, hi⟩ hex

example : almostEq 0 (-1000) 1 (Arr.fromContiguousOwnedBuffer [2] ((indices [2]).map fun idx => (idx.headD 0 : Int) + 5))
    (Arr.fromContiguousOwnedBuffer [2] ((indices [2]).map fun idx => (2 * idx.headD 0 : Int) + 5)) = .ok () :=
  C58_accepts 0 (-1000) 1 (denotes_fromContiguous (s := [2]) (f := fun idx => (idx.headD 0 : Int) + 5))
    (denotes_fromContiguous (s := [2]) (f := fun idx => (2 * idx.headD 0 : Int) + 5)) (by decide)
    (fun idx hi => (by decide : ∀ idx ∈ indices [2], (-1000 : Int) ≤ (idx.headD 0 : Int) + 5 - (2 * idx.headD 0 + 5)) idx (mem_indices.2 hi))
    (fun idx hi => (by decide : ∀ idx ∈ indices [2], |(idx.headD 0 : Int) + 5 - (2 * idx.headD 0 + 5)| ≤ 1) idx (mem_indices.2 hi))

/-- **C58** (part). If some element of the left array exceeds that of the right one by more than `tol`, the macro panics.
Missing: elements of the left array that are *below* those of the right one (false: `C58_false`) and arrays of different
shape (false: `C58_shape_false`). -/
theorem C58_rejects_partial (dflt bot tol : α) (ht : 0 ≤ tol) {a b : Arr α} {s : List Nat} {f g : List Nat → α}
    (ha : a.Denotes s f) (hb : b.Denotes s g) (hd : s.length ≤ 32) {idx : List Nat} (hi : InB idx s) (h : tol < f idx - g idx) :
    almostEq dflt bot tol a b = .error .panic := by
  obtain ⟨v, hv, -, h2⟩ := almostEq_eq dflt bot tol ha hb hd
  apply h2
  have h3 := hv.1 idx (mem_indices.2 hi)
  rintro (hc | hc)
  · exact absurd (lt_of_lt_of_le h (le_trans (le_trans h3 (le_abs_self v)) hc)) (lt_irrefl _)
  · rw [hc idx hi, sub_self] at h
    exact absurd (lt_of_lt_of_le h ht) (lt_irrefl _)

example : almostEq 0 (-1000) 1 (Arr.fromContiguousOwnedBuffer [2] ((indices [2]).map fun idx => (4 * idx.headD 0 : Int)))
    (Arr.fromContiguousOwnedBuffer [2] ((indices [2]).map fun _ => 0)) = .error .panic :=
  C58_rejects_partial 0 (-1000) 1 (by decide) (denotes_fromContiguous (s := [2]) (f := fun idx => (4 * idx.headD 0 : Int)))
    (denotes_fromContiguous (s := [2]) (f := fun _ => 0)) (by decide) (idx := [1]) (by decide) (by decide)

/-- **C58** (part). It also panics if *every* element of the left array is below that of the right one by more than `tol`. -/
theorem C58_rejects_below_partial (dflt bot tol : α) (ht : 0 ≤ tol) {a b : Arr α} {s : List Nat} {f g : List Nat → α}
    (ha : a.Denotes s f) (hb : b.Denotes s g) (hd : s.length ≤ 32) (hn : ∃ idx, InB idx s)
    (hbot : ∀ idx, InB idx s → bot ≤ f idx - g idx) (h : ∀ idx, InB idx s → f idx - g idx < -tol) :
    almostEq dflt bot tol a b = .error .panic := by
  obtain ⟨v, hv, -, h2⟩ := almostEq_eq dflt bot tol ha hb hd
  apply h2
  obtain ⟨i0, hi0⟩ := hn
  obtain ⟨idx, hi, rfl⟩ := hv.2 ⟨i0, mem_indices.2 hi0, hbot i0 hi0⟩
  have h4 := h idx (mem_indices.1 hi)
  rintro (hc | hc)
  · have := lt_of_lt_of_le (lt_neg.1 h4) (le_trans (neg_le_abs _) hc)
    exact absurd this (lt_irrefl _)
  · rw [hc idx (mem_indices.1 hi), sub_self, neg_pos] at h4
    exact absurd (lt_of_lt_of_le h4 ht) (lt_irrefl _)

example : almostEq 0 (-1000) 1 (Arr.fromContiguousOwnedBuffer [2] ((indices [2]).map fun idx => (idx.headD 0 : Int)))
    (Arr.fromContiguousOwnedBuffer [2] ((indices [2]).map fun _ => 5)) = .error .panic :=
  C58_rejects_below_partial 0 (-1000) 1 (by decide) (denotes_fromContiguous (s := [2]) (f := fun idx => (idx.headD 0 : Int)))
    (denotes_fromContiguous (s := [2]) (f := fun _ => 5)) (by decide) ⟨[0], by decide⟩
    (fun idx hi => (by decide : ∀ idx ∈ indices [2], (-1000 : Int) ≤ (idx.headD 0 : Int) - 5) idx (mem_indices.2 hi))
    (fun idx hi => (by decide : ∀ idx ∈ indices [2], (idx.headD 0 : Int) - 5 < -1) idx (mem_indices.2 hi))

/-- **C58** (part). What a passing assertion does guarantee for arrays of equal shape: no element of the left array exceeds
that of the right one by more than `tol`. -/
theorem C58_passes_partial (dflt bot tol : α) (ht : 0 ≤ tol) {a b : Arr α} {s : List Nat} {f g : List Nat → α}
    (ha : a.Denotes s f) (hb : b.Denotes s g) (hd : s.length ≤ 32) (h : almostEq dflt bot tol a b = .ok ()) :
    ∀ idx, InB idx s → f idx - g idx ≤ tol := fun idx hi => by
  by_contra hc
  rw [C58_rejects_partial dflt bot tol ht ha hb hd hi (not_le.1 hc)] at h
  cases h

example : ∀ idx, InB idx [2] → (idx.headD 0 : Int) - 1 ≤ 1 :=
  C58_passes_partial 0 (-1000) 1 (by decide) (denotes_fromContiguous (s := [2]) (f := fun idx => (idx.headD 0 : Int)))
    (denotes_fromContiguous (s := [2]) (f := fun _ => 1)) (by decide) (by decide)

omit [IsOrderedAddMonoid α] in
/-- **C58.** Shapes that do not broadcast are rejected. -/
theorem C58_incompatible (dflt bot tol : α) {a b : Arr α} (h : ¬ Compatible a.shape b.shape) :
    almostEq dflt bot tol a b = .error .panic := by
  unfold almostEq assertAlmostEq
  rw [C05_incompatible _ _ dflt h]; rfl

example (f : List Nat → Int) : almostEq 0 (-1000) 1 (Arr.fromContiguousOwnedBuffer [2, 3] ((indices [2, 3]).map f))
    (Arr.fromContiguousOwnedBuffer [3, 2] ((indices [3, 2]).map f)) = .error .panic :=
  C58_incompatible 0 (-1000) 1 fun h => by
    have := h 0
    simp [extentFromRight, Arr.fromContiguousOwnedBuffer] at this

end almost

/-- **C58 is false**: `assert_almost_eq!([0, -100], [0, 0], 1)` passes, because only the greatest signed difference is
looked at. -/
theorem C58_false : almostEq 0 (-1000000) 1 (Arr.fromContiguousOwnedBuffer [2] [(0 : Int), -100])
    (Arr.fromContiguousOwnedBuffer [2] [0, 0]) = .ok () := by decide

/-- **C58 is false** (2): arrays of different shape pass, because the difference broadcasts. -/
theorem C58_shape_false : almostEq 0 (-1000000) 1 (Arr.fromContiguousOwnedBuffer [2, 3] (List.replicate 6 (1 : Int)))
    (Arr.fromContiguousOwnedBuffer [3] [1, 1, 1]) = .ok () := by decide

/-- **C58 is false** (3): for unsigned numbers a difference below zero panics with overflow checks, although the arrays agree
within the tolerance. -/
theorem C58_unsigned_false : assertAlmostEq (fun x y : Nat => if y ≤ x then .ok (x - y) else .error .panic) 0 ltb 0
    (fun x => decide (5 < x)) (Arr.fromContiguousOwnedBuffer [1] [1]) (Arr.fromContiguousOwnedBuffer [1] [2]) = .error .panic := by
  decide

example : almostEq 0 (-1000000) 1 (Arr.fromContiguousOwnedBuffer [2] [(5 : Int), 7])
    (Arr.fromContiguousOwnedBuffer [2] [4, 8]) = .ok () := by decide
example : almostEq 0 (-1000000) 1 (Arr.fromContiguousOwnedBuffer [2] [(5 : Int), 7])
    (Arr.fromContiguousOwnedBuffer [2] [4, 5]) = .error .panic := by decide
example : almostEq 0 (-1000000) 1 (Arr.fromContiguousOwnedBuffer [2] [(5 : Int), 7])
    (Arr.fromContiguousOwnedBuffer [2] [9, 12]) = .error .panic := by decide
/-- the hypotheses of `C58_accepts` for a transposed left operand -/
example : ∃ a : Arr Int, (Arr.fromContiguousOwnedBuffer [2, 2] [(1 : Int), 2, 3, 4]).transpose 0 1 = .ok a ∧
    almostEq 0 (-1000000) 1 a (Arr.fromContiguousOwnedBuffer [2, 2] [2, 2, 2, 4]) = .ok () := ⟨_, rfl, by decide⟩

/-! ## C60 -/

section data
variable {α : Type}

/-- **C60** (part). After any history of view operations without `broadcast_to`, `data_slice` of an array that reports itself
contiguous is the list of its elements in row-major order. Missing: broadcast views (false: `C60_false`). -/
theorem C60_data_slice_partial {a b : Arr α} (ha : Fresh a) (hh : History NoBroadcast a b) {s : List Nat} {f : List Nat → α}
    (hb : b.Denotes s f) (hc : b.isContiguous = true) : b.dataSlice = .ok (elements s f) := by
  obtain ⟨h1, h2⟩ := (wf_history ha.wf hh).cloneOK hc
  rw [hb.1] at h1 h2
  have := cloneContiguous_ok hb h1 h2
  unfold Arr.cloneDataContiguous Arr.readRun at this
  simp only [Nat.zero_add] at this
  unfold Arr.dataSlice
  rw [hc]
  exact this

example : demo.dataSlice = .ok (elements [2, 3] demoFn) := C60_data_slice_partial demo_fresh .refl demo_denotes rfl

/-- **C60.** An array that does not report itself contiguous has no data slice. -/
theorem C60_not_contiguous {b : Arr α} (hc : b.isContiguous = false) : b.dataSlice = .error .panic := by
  unfold Arr.dataSlice; rw [hc]; rfl

example : demoT.dataSlice = .error .panic := C60_not_contiguous rfl

/-- **C60** (part). `into_data_vector` of a fresh array is the list of its elements, whatever spare capacity `c` its vector
came with. Missing: arrays after a consuming reshape or transpose, whose vector is made with capacity 0 (false:
`C60_into_false`). -/
theorem C60_into_data_vector_partial {a : Arr α} (ha : Fresh a) {s : List Nat} {f : List Nat → α} (h : a.Denotes s f) {c : Nat}
    (hc : a.len ≤ c) : ({ a with cap := c } : Arr α).intoDataVector = .ok (elements s f) := by
  have h1 := C60_data_slice_partial ha .refl h (by obtain ⟨_, _, _, rfl⟩ := ha; rfl)
  obtain ⟨s', d, hd, rfl⟩ := ha
  unfold Arr.intoDataVector
  rw [if_pos ⟨rfl, hc⟩]
  exact h1

/-- a vector of six elements with room for ten -/
example : ({ demo with cap := 10 } : Arr Nat).intoDataVector = .ok (elements [2, 3] demoFn) :=
  C60_into_data_vector_partial demo_fresh demo_denotes (by decide)

/-- **C60.** A view gives no data vector. -/
theorem C60_view_refused {b : Arr α} (ho : b.flags.owned = false) : b.intoDataVector = .error .panic := by
  unfold Arr.intoDataVector; rw [ho]; rfl

example : demoT.intoDataVector = .error .panic := C60_view_refused rfl

/-- **C60.** Nor does an owner that does not report itself contiguous. -/
theorem C60_into_not_contiguous {b : Arr α} (hc : b.isContiguous = false) : b.intoDataVector = .error .panic := by
  unfold Arr.intoDataVector; rw [hc]; cases b.flags.owned <;> rfl

example : demoT.intoDataVector = .error .panic := C60_into_not_contiguous rfl

/-- **C60 is false** for broadcast views, which report themselves contiguous: the slice of `[1, 2]` broadcast to 3x2 extends
over six cells, only two of which exist. -/
theorem C60_false : ∃ r : Arr Nat, (Arr.fromContiguousOwnedBuffer [2] [1, 2]).broadcastTo [3, 2] = .ok r ∧
    r.dataSlice = .error .oob := ⟨_, rfl, by decide⟩

/-- **C60 is false** (2): without leaving the buffer, the slice of a broadcast view shows other elements. -/
theorem C60_false_values : ∃ v r : Arr Nat, (Arr.fromContiguousOwnedBuffer [4] [1, 2, 3, 4]).slice [.range 0 2] = .ok v ∧
    v.broadcastTo [2, 2] = .ok r ∧ r.flatiter = .ok [1, 2, 1, 2] ∧ r.dataSlice = .ok [1, 2, 3, 4] := ⟨_, _, rfl, rfl, rfl, rfl⟩

/-- **C60 is false** (3): an owned array reshaped by value gives a vector of length 4 with capacity 0. -/
theorem C60_into_false : ∃ r : Arr Nat, (Arr.fromContiguousOwnedBuffer [4] [1, 2, 3, 4]).intoReshape [2, 2] = .ok r ∧
    r.flags.owned = true ∧ r.isContiguous = true ∧ r.intoDataVector = .error .ub := ⟨_, rfl, rfl, rfl, by decide⟩

/-- the second row of a 2x3 array, reached by a slice -/
example : ∃ v : Arr Nat, demo.sliceAlong 0 (.at 1) = .ok v ∧ v.isContiguous = true ∧ v.dataSlice = .ok [13, 14, 15] :=
  ⟨_, rfl, rfl, rfl⟩
example : demoT.isContiguous = false ∧ demoT.dataSlice = .error .panic := ⟨rfl, rfl⟩
example : (Arr.fromContiguousOwnedBuffer [2, 2] [50, 60, 5, 10]).intoDataVector = .ok [50, 60, 5, 10] := rfl
/-- a vector with spare capacity -/
example : ({ Arr.fromContiguousOwnedBuffer [2, 2] [50, 60, 5, 10] with cap := 7 } : Arr Nat).intoDataVector =
    .ok [50, 60, 5, 10] := rfl

end data

end Verif
