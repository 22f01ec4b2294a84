import Verif.Props.History
import Verif.Lemmas.Reduce
import Mathlib.Algebra.Field.Defs
import Mathlib.Data.Rat.Defs
import Mathlib.Tactic.NormNum

set_option linter.unusedSimpArgs false

/-!
# C09 whole-array reductions, C10 reductions along axes, C11 extremal values, C12 mean
-/

namespace Verif

variable {α : Type}

/-! ## C09 -/

/-- The layouts for which whole-array reductions are right: the code finds no common stride, or no axis of
extent > 1 has stride 0, or all strides are 0, or there are no elements. -/
def Reducible (s st : List Nat) : Prop := hasUniformStride s st = none ∨ Good s st

/-- Views that were never broadcast have such a layout. -/
theorem reducible_history {o a : Arr α} (ho : Fresh o) (hh : History NoBroadcast o a) : Reducible a.shape a.stride :=
  .inr (wf_history ho.wf hh).pos.good

/-- **C09** (part). A whole-array reduction equals the left fold, in row-major order, over exactly the view's
elements. Missing: broadcast views whose mixture of zero and non-zero strides the code takes for a uniform
stride (false: `C09_false`). -/
theorem C09_reduce_partial (step : α → α → α) (init : α) {a : Arr α} {s : List Nat} {f : List Nat → α} (ha : a.Denotes s f)
    (hd : s.length ≤ 32) (hg : Reducible s a.stride) :
    ∃ r, a.reduceAll step init (portableRed step init) = .ok r ∧ r.Denotes [] (fun _ => foldOver step init f (indices s)) :=
  reduceAll_ok (portableRed_correct step init) ha hd hg

example := C09_reduce_partial (fun x y => 2 * x + y) 0 demoT_denotes (by decide) (.inl rfl)

/-- **C09** (part). The same for every view obtained from a fresh array without `broadcast_to`. -/
theorem C09_history_partial (step : α → α → α) (init : α) {o a : Arr α} {f : List Nat → α} (ho : Fresh o)
    (hh : History NoBroadcast o a) (ha : a.Denotes a.shape f) (hd : a.shape.length ≤ 32) :
    ∃ r, a.reduceAll step init (portableRed step init) = .ok r ∧
      r.Denotes [] (fun _ => foldOver step init f (indices a.shape)) :=
  C09_reduce_partial step init ha hd (reducible_history ho hh)

example := C09_history_partial (fun x y => 2 * x + y) 0 demo_fresh demoT_history demoT_denotes (by decide)

/-- **C09** (part): `sum` is the sum of all elements. -/
theorem C09_sum_partial [AddCommMonoid α] {a : Arr α} {s : List Nat} {f : List Nat → α} (ha : a.Denotes s f)
    (hd : s.length ≤ 32) (hg : Reducible s a.stride) :
    ∃ r, a.sum = .ok r ∧ r.Denotes [] (fun _ => (elements s f).sum) := by
  obtain ⟨r, h1, h2⟩ := C09_reduce_partial (fun v acc => acc + v) 0 ha hd hg
  rw [foldOver_add] at h2
  exact ⟨r, h1, h2⟩

example := C09_sum_partial demoT_denotes (by decide) (.inl rfl)

/-- **C09** (part): `product` is the product of all elements. -/
theorem C09_product_partial [CommMonoid α] {a : Arr α} {s : List Nat} {f : List Nat → α} (ha : a.Denotes s f)
    (hd : s.length ≤ 32) (hg : Reducible s a.stride) :
    ∃ r, a.product = .ok r ∧ r.Denotes [] (fun _ => (elements s f).prod) := by
  obtain ⟨r, h1, h2⟩ := C09_reduce_partial (fun v acc => acc * v) 1 ha hd hg
  rw [foldOver_mul] at h2
  exact ⟨r, h1, h2⟩

example := C09_product_partial demoT_denotes (by decide) (.inl rfl)

/-- **C09** fails for broadcast views: the row `[1, 2]` broadcast to `[3, 2]` has a sum of 9, but `sum` walks
six consecutive cells of a two-element buffer. -/
theorem C09_false : ∃ a : Arr Nat, Arr.broadcastTo (Arr.fromContiguousOwnedBuffer [2] [1, 2]) [3, 2] = .ok a ∧
    a.Denotes [3, 2] (fun idx => if idx.getD 1 0 = 0 then 1 else 2) ∧ a.sum = .error .oob := by
  refine ⟨_, rfl, ⟨rfl, rfl, fun idx hi => ?_⟩, rfl⟩
  rw [← mem_indices] at hi
  revert idx
  decide

/-- **C09** fails for broadcast views without any out-of-bounds access: the first half of `[1, 2, 3, 4]`
broadcast to `[2, 2]` has the elements 1, 2, 1, 2, but `sum` returns 10. -/
theorem C09_false_values : ∃ v a r : Arr Nat,
    (Arr.fromContiguousOwnedBuffer [4] [1, 2, 3, 4]).slice [.range 0 2] = .ok v ∧ v.broadcastTo [2, 2] = .ok a ∧
    a.flatiter = .ok [1, 2, 1, 2] ∧ a.sum = .ok r ∧ r.value = .ok 10 := ⟨_, _, _, rfl, rfl, rfl, rfl, rfl⟩

/-- transposed view: the "no uniform stride" branch; every second row: the strided branch -/
example : ∃ r, demoT.sum = .ok r ∧ r.value = .ok 75 := ⟨_, rfl, rfl⟩
example : Reducible [3, 2] demoT.stride := .inl rfl
example : Reducible [2, 3] demo.stride := .inr (by decide)
example : hasUniformStride [3] [2] = some 2 := rfl
example : ∃ v r : Arr Nat, (Arr.fromContiguousOwnedBuffer [3, 2] [1, 2, 3, 4, 5, 6]).slice [.range 0 3, .at 1] = .ok v ∧
    v.stride = [2] ∧ v.product = .ok r ∧ r.value = .ok 48 := ⟨_, _, rfl, rfl, rfl, rfl⟩
/-- an empty view gives the start value -/
example : ∃ r, (Arr.fromContiguousOwnedBuffer [0, 3] ([] : List Nat)).product = .ok r ∧ r.value = .ok 1 := ⟨_, rfl, rfl⟩

/-! ## C10 -/

/-- **C10.** Reduction along axes: the shape is the input shape without those axes, the element at `J` is the
fold, in row-major order, over exactly the elements whose remaining coordinates are `J`; for every layout,
every list of distinct axes (negative numbers allowed) and every accumulator function. -/
theorem C10_reduce_along (func : α → α → α) {a : Arr α} {s : List Nat} {f : List Nat → α} (ha : a.Denotes s f)
    (hd : s.length ≤ 32) {axes : List Int} {ks : List Nat} (hax : AxesAre axes s.length ks) (hnd : ks.Nodup) (init : α) :
    ∃ r, a.reduceAlong func axes init = .ok r ∧
      r.Denotes (dropAxes ks s) (fun J => foldOver func init f (fibre ks s J)) :=
  reduceAlong_ok func ha hd hax hnd init

example := C10_reduce_along (fun x y => 2 * x + y) demoT_denotes (by decide) (axes := [-1]) (ks := [1]) ⟨⟨by decide, by decide⟩, trivial⟩
  (by decide) 0

/-- **C10.** Naming an axis twice panics. -/
theorem C10_duplicate (func : α → α → α) (a : Arr α) {axes : List Int} {ks : List Nat}
    (hax : AxesAre axes a.shape.length ks) (hnd : ¬ ks.Nodup) (init : α) :
    a.reduceAlong func axes init = .error .panic := by
  unfold Arr.reduceAlong; rw [reducedShapeAndStride_dup hax hnd]; rfl

example := C10_duplicate (fun x y => x + y) demo (axes := [0, -2]) (ks := [0, 0])
  ⟨⟨by decide, by decide⟩, ⟨by decide, by decide⟩, trivial⟩ (by decide) 0

/-- **C10.** An axis that does not exist panics. -/
theorem C10_out_of_range (func : α → α → α) (a : Arr α) {axes : List Int}
    (hax : ∃ ax ∈ axes, ∀ k, ¬ AxisIs ax a.shape.length k) (init : α) : a.reduceAlong func axes init = .error .panic := by
  unfold Arr.reduceAlong; rw [reducedShapeAndStride_range hax]; rfl

example := C10_out_of_range (fun x y => x + y) demo (axes := [0, 2])
  ⟨2, by decide, fun k h => by have := h.1; have := h.2; simp [demo, Arr.fromContiguousOwnedBuffer] at *; omega⟩ 0

/-- **C10.** `sum_along`: the sum of each fibre. -/
theorem C10_sum_along [AddCommMonoid α] {a : Arr α} {s : List Nat} {f : List Nat → α} (ha : a.Denotes s f)
    (hd : s.length ≤ 32) {axes : List Int} {ks : List Nat} (hax : AxesAre axes s.length ks) (hnd : ks.Nodup) :
    ∃ r, a.sumAlong axes = .ok r ∧ r.Denotes (dropAxes ks s) (fun J => ((fibre ks s J).map f).sum) := by
  obtain ⟨r, h1, h2⟩ := C10_reduce_along (fun v acc => acc + v) ha hd hax hnd 0
  exact ⟨r, h1, h2.congr fun J _ => foldOver_add f _⟩

example := C10_sum_along demoT_denotes (by decide) (axes := [-1]) (ks := [1]) ⟨⟨by decide, by decide⟩, trivial⟩ (by decide)

/-- **C10.** `product_along`: the product of each fibre. -/
theorem C10_product_along [CommMonoid α] {a : Arr α} {s : List Nat} {f : List Nat → α} (ha : a.Denotes s f)
    (hd : s.length ≤ 32) {axes : List Int} {ks : List Nat} (hax : AxesAre axes s.length ks) (hnd : ks.Nodup) :
    ∃ r, a.productAlong axes = .ok r ∧ r.Denotes (dropAxes ks s) (fun J => ((fibre ks s J).map f).prod) := by
  obtain ⟨r, h1, h2⟩ := C10_reduce_along (fun v acc => acc * v) ha hd hax hnd 1
  exact ⟨r, h1, h2.congr fun J _ => foldOver_mul f _⟩

example := C10_product_along demoT_denotes (by decide) (axes := [-1]) (ks := [1]) ⟨⟨by decide, by decide⟩, trivial⟩ (by decide)

/-- summing the rows of a transposed view, by a negative axis -/
example : ∃ r, demoT.sumAlong [-1] = .ok r ∧ r.shape = [3] ∧ r.flatiter = .ok [23, 25, 27] := ⟨_, rfl, rfl, rfl⟩
example : AxesAre [-1, 0] 3 [2, 0] ∧ [2, 0].Nodup := ⟨⟨⟨by decide, by decide⟩, ⟨by decide, by decide⟩, trivial⟩, by decide⟩
example : dropAxes [2, 0] [7, 8, 9] = [8] ∧ fibre [0] [2, 3] [1] = [[0, 1], [1, 1]] := ⟨rfl, rfl⟩
example : demo.sumAlong [0, -2] = .error .panic := rfl
example : demo.sumAlong [2] = .error .panic := rfl
/-- a broadcast view is reduced correctly along axes (compare `C09_false`) -/
example : ∃ a r : Arr Nat, Arr.broadcastTo (Arr.fromContiguousOwnedBuffer [2] [1, 2]) [3, 2] = .ok a ∧
    a.sumAlong [0, 1] = .ok r ∧ r.value = .ok 9 := ⟨_, _, rfl, rfl, rfl⟩

/-! ## C11 -/

section order
variable [LinearOrder α]

/-- `<` of a linear order as the code's comparison. -/
def ltb (x y : α) : Bool := decide (x < y)

theorem max_step (v acc : α) : partialMax ltb v acc = max v acc := by
  unfold partialMax ltb
  rcases lt_or_ge acc v with h | h
  · simp [h, max_eq_left (le_of_lt h)]
  · simp [not_lt.2 h, max_eq_right h]

theorem min_step (v acc : α) : partialMin ltb v acc = min v acc := by
  unfold partialMin ltb
  rcases lt_or_ge v acc with h | h
  · simp [h, min_eq_left (le_of_lt h)]
  · simp [not_lt.2 h, min_eq_right h]

theorem maxMag_step (abs : α → α) (v acc : α) : partialMaxMagnitude ltb abs v acc = max (abs v) acc := by
  unfold partialMaxMagnitude ltb
  rcases lt_or_ge (abs v) acc with h | h
  · simp [h, max_eq_right (le_of_lt h)]
  · simp [not_lt.2 h, max_eq_left h]

theorem minMag_step (abs : α → α) (v acc : α) : partialMinMagnitude ltb abs v acc = min (abs v) acc := by
  unfold partialMinMagnitude ltb
  rcases lt_or_ge acc (abs v) with h | h
  · simp [h, min_eq_right (le_of_lt h)]
  · simp [not_lt.2 h, min_eq_left h]

/-- `r` is the greatest of the values of `g` on `l`, if the start value is not beyond them; in any case it
bounds them. -/
def IsGreatestOf (r start : α) (g : List Nat → α) (l : List (List Nat)) : Prop :=
  (∀ idx ∈ l, g idx ≤ r) ∧ ((∃ idx ∈ l, start ≤ g idx) → ∃ idx ∈ l, r = g idx)

/-- `r` is the least of the values of `g` on `l`, if the start value is not beyond them; in any case it
bounds them. -/
def IsLeastOf (r start : α) (g : List Nat → α) (l : List (List Nat)) : Prop :=
  (∀ idx ∈ l, r ≤ g idx) ∧ ((∃ idx ∈ l, g idx ≤ start) → ∃ idx ∈ l, r = g idx)

theorem isGreatestOf_fold (step : α → α → α) (abs : α → α) (hstep : ∀ v acc, step v acc = max (abs v) acc) (start : α)
    (f : List Nat → α) (l : List (List Nat)) : IsGreatestOf (foldOver step start f l) start (fun idx => abs (f idx)) l := by
  obtain ⟨h1, h2, h3⟩ := foldl_extremal (fun x y : α => y ≤ x) (fun _ => le_refl _) (fun _ _ _ h h' => le_trans h' h) step abs
    (fun v acc => by rw [hstep]; exact ⟨le_max_right _ _, le_max_left _ _, (max_choice _ _).symm⟩) (l.map f) start
  refine ⟨fun idx hi => h2 _ (List.mem_map_of_mem hi), ?_⟩
  rintro ⟨i0, hi0, hs⟩
  rcases h3 with h3 | ⟨v, hv, h3⟩
  · refine ⟨i0, hi0, le_antisymm ?_ (h2 _ (List.mem_map_of_mem hi0))⟩
    show (l.map f).foldl _ _ ≤ _
    rw [h3]; exact hs
  · obtain ⟨idx, hi, rfl⟩ := List.mem_map.1 hv
    exact ⟨idx, hi, h3⟩

theorem isLeastOf_fold (step : α → α → α) (abs : α → α) (hstep : ∀ v acc, step v acc = min (abs v) acc) (start : α)
    (f : List Nat → α) (l : List (List Nat)) : IsLeastOf (foldOver step start f l) start (fun idx => abs (f idx)) l := by
  obtain ⟨h1, h2, h3⟩ := foldl_extremal (fun x y : α => x ≤ y) (fun _ => le_refl _) (fun _ _ _ h h' => le_trans h h') step abs
    (fun v acc => by rw [hstep]; exact ⟨min_le_right _ _, min_le_left _ _, (min_choice _ _).symm⟩) (l.map f) start
  refine ⟨fun idx hi => h2 _ (List.mem_map_of_mem hi), ?_⟩
  rintro ⟨i0, hi0, hs⟩
  rcases h3 with h3 | ⟨v, hv, h3⟩
  · refine ⟨i0, hi0, le_antisymm (h2 _ (List.mem_map_of_mem hi0)) ?_⟩
    show _ ≤ (l.map f).foldl _ _
    rw [h3]; exact hs
  · obtain ⟨idx, hi, rfl⟩ := List.mem_map.1 hv
    exact ⟨idx, hi, h3⟩

/-- **C11** (part). `max()` bounds every element from above and is one of them unless all lie below the start
value. Missing (here and below): the broadcast views excluded in C09. -/
theorem C11_max_partial (bot : α) {a : Arr α} {s : List Nat} {f : List Nat → α} (ha : a.Denotes s f)
    (hd : s.length ≤ 32) (hg : Reducible s a.stride) :
    ∃ r v, a.max ltb bot = .ok r ∧ r.Denotes [] (fun _ => v) ∧ IsGreatestOf v bot f (indices s) := by
  obtain ⟨r, h1, h2⟩ := C09_reduce_partial (partialMax ltb) bot ha hd hg
  exact ⟨r, _, h1, h2, isGreatestOf_fold _ id max_step bot f _⟩

example := C11_max_partial 0 demoT_denotes (by decide) (.inl rfl)

/-- **C11** (part). `min()`. -/
theorem C11_min_partial (top : α) {a : Arr α} {s : List Nat} {f : List Nat → α} (ha : a.Denotes s f)
    (hd : s.length ≤ 32) (hg : Reducible s a.stride) :
    ∃ r v, a.min ltb top = .ok r ∧ r.Denotes [] (fun _ => v) ∧ IsLeastOf v top f (indices s) := by
  obtain ⟨r, h1, h2⟩ := C09_reduce_partial (partialMin ltb) top ha hd hg
  exact ⟨r, _, h1, h2, isLeastOf_fold _ id min_step top f _⟩

example := C11_min_partial 255 demoT_denotes (by decide) (.inl rfl)

/-- **C11** (part). `max_magnitude()`. -/
theorem C11_max_magnitude_partial (abs : α → α) (bot : α) {a : Arr α} {s : List Nat} {f : List Nat → α} (ha : a.Denotes s f)
    (hd : s.length ≤ 32) (hg : Reducible s a.stride) :
    ∃ r v, a.maxMagnitude ltb abs bot = .ok r ∧ r.Denotes [] (fun _ => v) ∧
      IsGreatestOf v bot (fun idx => abs (f idx)) (indices s) := by
  obtain ⟨r, h1, h2⟩ := C09_reduce_partial (partialMaxMagnitude ltb abs) bot ha hd hg
  exact ⟨r, _, h1, h2, isGreatestOf_fold _ abs (maxMag_step abs) bot f _⟩

example := C11_max_magnitude_partial (fun x => |x|) (-128) (denotes_fromContiguous (s := [2, 2]) (f := fun i => (i.getD 0 0 : Int) - 1))
  (by decide) (.inr (by decide))

/-- **C11** (part). `min_magnitude()`. -/
theorem C11_min_magnitude_partial (abs : α → α) (top : α) {a : Arr α} {s : List Nat} {f : List Nat → α} (ha : a.Denotes s f)
    (hd : s.length ≤ 32) (hg : Reducible s a.stride) :
    ∃ r v, a.minMagnitude ltb abs top = .ok r ∧ r.Denotes [] (fun _ => v) ∧
      IsLeastOf v top (fun idx => abs (f idx)) (indices s) := by
  obtain ⟨r, h1, h2⟩ := C09_reduce_partial (partialMinMagnitude ltb abs) top ha hd hg
  exact ⟨r, _, h1, h2, isLeastOf_fold _ abs (minMag_step abs) top f _⟩

example := C11_min_magnitude_partial (fun x => |x|) 127 (denotes_fromContiguous (s := [2, 2]) (f := fun i => (i.getD 0 0 : Int) - 1))
  (by decide) (.inr (by decide))

/-- **C11.** `max_along`: the greatest element of each fibre, for every layout. -/
theorem C11_max_along (bot : α) {a : Arr α} {s : List Nat} {f : List Nat → α} (ha : a.Denotes s f)
    (hd : s.length ≤ 32) {axes : List Int} {ks : List Nat} (hax : AxesAre axes s.length ks) (hnd : ks.Nodup) :
    ∃ r g, a.maxAlong ltb bot axes = .ok r ∧ r.Denotes (dropAxes ks s) g ∧ ∀ J, IsGreatestOf (g J) bot f (fibre ks s J) := by
  obtain ⟨r, h1, h2⟩ := C10_reduce_along (partialMax ltb) ha hd hax hnd bot
  exact ⟨r, _, h1, h2, fun J => isGreatestOf_fold _ id max_step bot f _⟩

example := C11_max_along 0 demoT_denotes (by decide) (axes := [-1]) (ks := [1]) ⟨⟨by decide, by decide⟩, trivial⟩ (by decide)

/-- **C11.** `min_along`. -/
theorem C11_min_along (top : α) {a : Arr α} {s : List Nat} {f : List Nat → α} (ha : a.Denotes s f)
    (hd : s.length ≤ 32) {axes : List Int} {ks : List Nat} (hax : AxesAre axes s.length ks) (hnd : ks.Nodup) :
    ∃ r g, a.minAlong ltb top axes = .ok r ∧ r.Denotes (dropAxes ks s) g ∧ ∀ J, IsLeastOf (g J) top f (fibre ks s J) := by
  obtain ⟨r, h1, h2⟩ := C10_reduce_along (partialMin ltb) ha hd hax hnd top
  exact ⟨r, _, h1, h2, fun J => isLeastOf_fold _ id min_step top f _⟩

example := C11_min_along 255 demoT_denotes (by decide) (axes := [-1]) (ks := [1]) ⟨⟨by decide, by decide⟩, trivial⟩ (by decide)

/-- **C11.** `max_magnitude_along` (start value zero). -/
theorem C11_max_magnitude_along [Zero α] (abs : α → α) {a : Arr α} {s : List Nat} {f : List Nat → α} (ha : a.Denotes s f)
    (hd : s.length ≤ 32) {axes : List Int} {ks : List Nat} (hax : AxesAre axes s.length ks) (hnd : ks.Nodup) :
    ∃ r g, a.maxMagnitudeAlong ltb abs axes = .ok r ∧ r.Denotes (dropAxes ks s) g ∧
      ∀ J, IsGreatestOf (g J) 0 (fun idx => abs (f idx)) (fibre ks s J) := by
  obtain ⟨r, h1, h2⟩ := C10_reduce_along (partialMaxMagnitude ltb abs) ha hd hax hnd 0
  exact ⟨r, _, h1, h2, fun J => isGreatestOf_fold _ abs (maxMag_step abs) 0 f _⟩

example := C11_max_magnitude_along (fun x => |x|) (denotes_fromContiguous (s := [2, 2]) (f := fun i => (i.getD 0 0 : Int) - 1))
  (by decide) (axes := [-1]) (ks := [1]) ⟨⟨by decide, by decide⟩, trivial⟩ (by decide)

/-- **C11.** `min_magnitude_along`. -/
theorem C11_min_magnitude_along (abs : α → α) (top : α) {a : Arr α} {s : List Nat} {f : List Nat → α} (ha : a.Denotes s f)
    (hd : s.length ≤ 32) {axes : List Int} {ks : List Nat} (hax : AxesAre axes s.length ks) (hnd : ks.Nodup) :
    ∃ r g, a.minMagnitudeAlong ltb abs top axes = .ok r ∧ r.Denotes (dropAxes ks s) g ∧
      ∀ J, IsLeastOf (g J) top (fun idx => abs (f idx)) (fibre ks s J) := by
  obtain ⟨r, h1, h2⟩ := C10_reduce_along (partialMinMagnitude ltb abs) ha hd hax hnd top
  exact ⟨r, _, h1, h2, fun J => isLeastOf_fold _ abs (minMag_step abs) top f _⟩

example := C11_min_magnitude_along (fun x => |x|) 127 (denotes_fromContiguous (s := [2, 2]) (f := fun i => (i.getD 0 0 : Int) - 1))
  (by decide) (axes := [-1]) (ks := [1]) ⟨⟨by decide, by decide⟩, trivial⟩ (by decide)

end order

/-- **C11** fails for a broadcast view: the maximum of 1, 2, 1, 2 comes out as 4. -/
theorem C11_false : ∃ v a r : Arr Nat,
    (Arr.fromContiguousOwnedBuffer [4] [1, 2, 3, 4]).slice [.range 0 2] = .ok v ∧ v.broadcastTo [2, 2] = .ok a ∧
    a.flatiter = .ok [1, 2, 1, 2] ∧ a.max ltb 0 = .ok r ∧ r.value = .ok 4 := ⟨_, _, _, rfl, rfl, rfl, rfl, rfl⟩

example : ∃ r, demoT.max ltb 0 = .ok r ∧ r.value = .ok 15 := ⟨_, rfl, rfl⟩
example : ∃ r, (Arr.fromContiguousOwnedBuffer [2, 2] [3, -7, 5, -2]).maxMagnitude ltb (fun x : Int => if x < 0 then -x else x) (-128) = .ok r ∧
    r.value = .ok 7 := ⟨_, rfl, rfl⟩
example : ∃ r, demoT.minAlong ltb 255 [0] = .ok r ∧ r.flatiter = .ok [10, 13] := ⟨_, rfl, rfl⟩
/-- a start value beyond all elements is returned as the "minimum" -/
example : ∃ r, (Arr.fromContiguousOwnedBuffer [2] [300, 400]).min ltb 255 = .ok r ∧ r.value = .ok 255 := ⟨_, rfl, rfl⟩

/-! ## C12 -/

/-- **C12** (part). `mean()` is the sum of all elements divided by their number. Missing: the broadcast views
excluded in C09 (false: `C12_false`). -/
theorem C12_mean_partial [DivisionRing α] (dflt : α) {a : Arr α} {s : List Nat} {f : List Nat → α} (ha : a.Denotes s f)
    (hd : s.length ≤ 32) (hg : Reducible s a.stride) :
    ∃ r, a.mean (fun n => (n : α)) dflt = .ok r ∧
      r.Denotes [] (fun _ => (elements s f).sum / ((elements s f).length : α)) := by
  obtain ⟨r, h1, h2⟩ := C09_sum_partial ha hd hg
  refine ⟨Arr.fromContiguousOwnedBuffer [] (elements [] fun _ => (elements s f).sum / ((elements s f).length : α)), ?_,
    denotes_fromContiguous⟩
  unfold Arr.mean Arr.meanWith
  rw [show a.reduceAll (fun v acc => acc + v) 0 (portableRed (fun v acc => acc + v) 0) = _ from h1, ok_bind, binOpScalar_eq (portable_correct _) dflt h2 _ (by simp [maxDims]) trivial,
    mapM_id_elements (h := fun _ => (elements s f).sum / ((elements s f).length : α))]
  · rfl
  · intro idx _
    rw [length_elements, Arr.size, ha.1]

example := C12_mean_partial 0 (denotes_fromContiguous (s := [2, 2]) (f := fun i => (i.getD 0 0 : Rat))) (by decide) (.inr (by decide))

/-- **C12.** `mean_along(axes)` at `J` is the sum of `J`'s fibre divided by the number of its elements, for
every layout and every list of distinct non-negative axes. -/
theorem C12_mean_along [DivisionRing α] (dflt : α) {a : Arr α} {s : List Nat} {f : List Nat → α} (ha : a.Denotes s f)
    (hd : s.length ≤ 32) {ks : List Nat} (hr : ∀ k ∈ ks, k < s.length) (hnd : ks.Nodup) :
    ∃ r, a.meanAlong (fun n => (n : α)) dflt (ks.map Int.ofNat) = .ok r ∧
      r.Denotes (dropAxes ks s) (fun J => ((fibre ks s J).map f).sum / ((fibre ks s J).length : α)) := by
  obtain ⟨r, h1, h2⟩ := C10_sum_along ha hd (axesAre_ofNat hr) hnd
  have hlen : (dropAxes ks s).length ≤ maxDims := by
    have : (dropAxes ks s).length ≤ s.length := by
      unfold dropAxes
      rw [List.length_map]
      exact le_trans (List.length_filter_le _ _) (by simp)
    simp only [maxDims]; omega
  refine ⟨Arr.fromContiguousOwnedBuffer (dropAxes ks s) (elements (dropAxes ks s)
    fun J => ((fibre ks s J).map f).sum / ((fibre ks s J).length : α)), ?_, denotes_fromContiguous⟩
  have hcount := meanCount_ok (s := s) (axes := ks.map Int.ofNat) rfl hr [] (by simpa using hnd)
  rw [maskProd_nil, List.nil_append] at hcount
  unfold Arr.meanAlong Arr.meanAlongWith
  rw [ha.1, hcount, ok_bind, h1, ok_bind, binOpScalar_eq (portable_correct _) dflt h2 _ hlen trivial,
    mapM_id_elements (h := fun J => ((fibre ks s J).map f).sum / ((fibre ks s J).length : α))]
  · rfl
  · intro J hJ
    rw [length_fibre hJ]

example := C12_mean_along 0 (denotes_fromContiguous (s := [2, 2]) (f := fun i => (i.getD 0 0 : Rat))) (by decide) (ks := [1])
  (by decide) (by decide)

/-- **C12.** Negative axes are rejected. -/
theorem C12_negative [Add α] [Zero α] [Div α] (cast : Nat → α) (dflt : α) (a : Arr α) {axes : List Int} (h : ∃ ax ∈ axes, ax < 0) :
    a.meanAlong cast dflt axes = .error .panic := by
  unfold Arr.meanAlong Arr.meanAlongWith; rw [meanCount_neg h]; rfl

example := C12_negative (fun n => (n : Rat)) 0 (Arr.fromContiguousOwnedBuffer [2] [1, 2]) (axes := [-1]) ⟨-1, by decide, by decide⟩

/-- **C12** fails for a broadcast view: the mean of 1, 2, 1, 2 comes out as 10/4. -/
theorem C12_false : ∃ v a r : Arr Rat,
    (Arr.fromContiguousOwnedBuffer [4] [1, 2, 3, 4]).slice [.range 0 2] = .ok v ∧ v.broadcastTo [2, 2] = .ok a ∧
    a.flatiter = .ok [1, 2, 1, 2] ∧ a.mean (fun n => (n : Rat)) 0 = .ok r ∧ r.value = .ok (5 / 2) :=
  ⟨_, _, _, rfl, rfl, rfl, rfl, by
    show Except.ok ((0 + 1 + 2 + 3 + 4 : Rat) / ((4 : Nat) : Rat)) = _
    norm_num⟩

example : ∃ r, (Arr.fromContiguousOwnedBuffer [2, 3] ([1, 2, 3, 4, 5, 6] : List Rat)).meanAlong (fun n => (n : Rat)) 0 [1] = .ok r ∧
    r.flatiter = .ok [2, 5] := ⟨_, rfl, by
    show Except.ok [(0 + 1 + 2 + 3 : Rat) / ((1 * 3 : Nat) : Rat), (0 + 4 + 5 + 6 : Rat) / ((1 * 3 : Nat) : Rat)] = _
    norm_num⟩
example : ∀ k ∈ [0, 2], k < [2, 3, 4].length := by decide

end Verif
