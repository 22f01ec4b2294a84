import Verif.Model.Advance
import Verif.Lemmas.Layout

/-!
# C84: skipping elements of a flat iterator

`advance_by` keeps count of the elements skipped (`C84_count`), and moves the multi-dimensional index to the right place
(`C84_indices`), but not the position in memory (`C84_stuck`): it is right exactly when the element skipped to lies in the same cell as
the present one (`C84_exact`).
-/

namespace Verif

theorem advanceLoop_flat : ∀ (s st idx : List Nat) (flat carry : Nat), (advanceLoop s st idx flat carry).2.1 = flat
  | n :: s, d :: st, i :: idx, flat, carry => by
    simp only [advanceLoop, Nat.sub_self, Nat.mul_zero, Nat.add_zero]
    exact advanceLoop_flat s st idx flat carry
  | [], _, _, _, _ => by simp [advanceLoop]
  | _ :: _, [], _, _, _ => by simp [advanceLoop]
  | _ :: _, _ :: _, [], _, _ => by simp [advanceLoop]

/-- The index after `n` steps, and how often the whole array was passed. -/
theorem advanceLoop_indices : ∀ {s st idx : List Nat} (flat n : Nat), s.length = st.length → InB idx s →
    (advanceLoop s st idx flat n).1 = unrank s ((rank idx s + n) % numel s) ∧
      (advanceLoop s st idx flat n).2.2 = (rank idx s + n) / numel s
  | [], [], [], flat, n, _, _ => by simp [advanceLoop, unrank, rank]
  | m :: s, d :: st, i :: idx, flat, n, hl, h => by
    obtain ⟨h1, h2⟩ := advanceLoop_indices flat n (Nat.succ.inj hl) h.2
    have hpos : 0 < numel s := Nat.lt_of_le_of_lt (Nat.zero_le _) (rank_lt h.2)
    simp only [advanceLoop, rank, numel_cons, unrank]
    rw [h1, h2]
    have e : i * numel s + rank idx s + n = numel s * i + (rank idx s + n) := by rw [Nat.mul_comm]; omega
    have e1 : (i * numel s + rank idx s + n) / numel s = i + (rank idx s + n) / numel s := by
      rw [e, Nat.mul_add_div hpos]
    have e2 : (i * numel s + rank idx s + n) % (m * numel s) / numel s = (i + (rank idx s + n) / numel s) % m := by
      rw [Nat.mul_comm m, Nat.mod_mul_right_div_self, e1]
    have e3 : (i * numel s + rank idx s + n) % (m * numel s) % numel s = (rank idx s + n) % numel s := by
      rw [Nat.mod_mul_left_mod, e, Nat.mul_add_mod]
    refine ⟨by rw [e2, e3], ?_⟩
    rw [Nat.mul_comm m, ← Nat.div_div_eq_div_mul, e1]

theorem FlatGen.after_stateAt {s st : List Nat} (hl : s.length = st.length) : ∀ (j k : Nat), k + j ≤ numel s →
    FlatGen.after j (FlatGen.stateAt s st k) = some (FlatGen.stateAt s st (k + j))
  | 0, _, _ => rfl
  | j + 1, k, h => by
    rw [FlatGen.after, FlatGen.next_stateAt hl (by omega)]
    simp only
    rw [FlatGen.after_stateAt hl j (k + 1) (by omega)]
    congr 2
    omega

/-- A generator of a shape and strides after `k` calls of `next` that yielded an element. -/
theorem FlatGen.after_mk' {s st : List Nat} {g g' : FlatGen} {k : Nat} (hl : s.length = st.length) (hg : FlatGen.mk' s st = .ok g)
    (hk : k ≤ numel s) (hg' : g.after k = some g') :
    g' = FlatGen.stateAt (collapseToUniformStride s st).1 (collapseToUniformStride s st).2 k := by
  have hf : AxesFit s st := by
    refine Decidable.byContradiction fun hf => ?_
    rw [FlatGen.mk'_panic hf] at hg
    cases hg
  rw [FlatGen.mk'_fits hf] at hg
  obtain rfl := Except.ok.inj hg
  rw [FlatGen.after_stateAt (length_collapse s st).1 k 0 (by rw [numel_collapse hl]; omega)] at hg'
  rw [← Option.some.inj hg', Nat.zero_add]

/-- **C84.** After `advance_by(n)` the iterator has `n` elements less to yield (none, if fewer were left): the next call of `next`
yields something exactly when an element is left. -/
theorem C84_count {s st : List Nat} {g g' : FlatGen} {k n : Nat} (hl : s.length = st.length) (hg : FlatGen.mk' s st = .ok g)
    (hk : k ≤ numel s) (hg' : g.after k = some g') :
    (g'.advanceBy n).size - (g'.advanceBy n).iteratorIndex = numel s - k - n ∧
      ((g'.advanceBy n).next.isSome ↔ k + n < numel s) := by
  obtain rfl := FlatGen.after_mk' hl hg hk hg'
  have h : ((FlatGen.stateAt (collapseToUniformStride s st).1 (collapseToUniformStride s st).2 k).advanceBy n).size = numel s ∧
      ((FlatGen.stateAt (collapseToUniformStride s st).1 (collapseToUniformStride s st).2 k).advanceBy n).iteratorIndex
        = k + min n (numel s - k) := by
    simp only [FlatGen.advanceBy, FlatGen.stateAt, numel_collapse hl]
    split <;> simp_all
  refine ⟨by rw [h.1, h.2]; omega, ?_⟩
  simp only [FlatGen.next]
  rw [h.1, h.2]
  split <;> simp <;> omega

/-- **C84.** The multi-dimensional index (of the merged axes) is right. -/
theorem C84_indices {s st : List Nat} {g g' : FlatGen} {k n : Nat} (hl : s.length = st.length) (hg : FlatGen.mk' s st = .ok g)
    (hk : k + n < numel s) (hg' : g.after k = some g') : some (g'.advanceBy n).indices = (g'.after n).map (·.indices) := by
  obtain rfl := FlatGen.after_mk' hl hg (by omega) hg'
  have hlen := (length_collapse s st).1
  have hn := numel_collapse hl
  rw [FlatGen.after_stateAt hlen n k (by omega)]
  by_cases h0 : n = 0
  · subst h0
    simp [FlatGen.advanceBy, FlatGen.stateAt]
  have hmin : min n (numel s - k) = n := by omega
  simp only [FlatGen.advanceBy, FlatGen.stateAt, hn, hmin, if_neg h0, Option.map_some]
  rw [if_pos hk, if_pos (show k < numel s by omega), (advanceLoop_indices _ n hlen (InB_unrank (by omega))).1,
    rank_unrank (by omega), Nat.mod_eq_of_lt (by omega)]

/-- **C84.** The position in memory is not moved: `next` yields what it would have yielded without `advance_by`, as long as elements are
left. -/
theorem C84_stuck (g : FlatGen) (n : Nat) (h : n < g.size - g.iteratorIndex) :
    (g.advanceBy n).next.map Prod.fst = g.next.map Prod.fst := by
  have h1 : (g.advanceBy n).flatIndex = g.flatIndex := by
    unfold FlatGen.advanceBy
    simp only
    split
    · rfl
    · exact advanceLoop_flat ..
  have h2 : (g.advanceBy n).size = g.size ∧ (g.advanceBy n).iteratorIndex = g.iteratorIndex + n := by
    unfold FlatGen.advanceBy
    simp only [Nat.min_eq_left (Nat.le_of_lt h)]
    split <;> simp_all
  simp only [FlatGen.next]
  rw [h1, h2.1, h2.2, if_neg (by omega), if_neg (by omega)]
  rfl

/-- **C84, exactly.** With elements left, `advance_by(n)` is followed by the right element if and only if the element `n` places further
on lies in the same cell as the next one. -/
theorem C84_exact {s st : List Nat} {g g' : FlatGen} {k n : Nat} (hl : s.length = st.length) (hg : FlatGen.mk' s st = .ok g)
    (hk : k + n < numel s) (hg' : g.after k = some g') :
    (g'.advanceBy n).next.map Prod.fst = (offsets s st)[k + n]? ↔ (offsets s st)[k + n]? = (offsets s st)[k]? := by
  have hn := numel_collapse hl
  have ho : ∀ j, j < numel s → (FlatGen.stateAt (collapseToUniformStride s st).1 (collapseToUniformStride s st).2 j).next.map
      Prod.fst = (offsets s st)[j]? := fun j hj => by
    rw [FlatGen.next_stateAt (length_collapse s st).1 (by omega), ← offsets_collapse hl, offsets_eq_range]
    simp [hn, hj]
  obtain rfl := FlatGen.after_mk' hl hg (by omega) hg'
  rw [C84_stuck _ _ (by simp only [FlatGen.stateAt]; omega), ho k (by omega)]
  exact eq_comm

/-- **C84 is false of the code**: `[0, 1, 2]` after `advance_by(1)` continues with element 0. -/
theorem C84_false : ¬ ∀ (s st : List Nat) (g : FlatGen) (n : Nat), s.length = st.length → FlatGen.mk' s st = .ok g →
    n < numel s → (g.advanceBy n).next.map Prod.fst = (offsets s st)[n]? := fun h => by
  have := h [3] [1] (FlatGen.stateAt [3] [1] 0) 1 rfl rfl (by decide)
  revert this
  decide

/-- **C84 is false of the code** in debug builds also for what follows: after `advance_by(1)` on three elements the last call of `next`
panics. -/
theorem C84_panics_false : ∃ g g' : FlatGen, FlatGen.mk' [3] [1] = .ok g ∧
    (g.advanceBy 1).nextDebug = .ok (some (0, g')) ∧ g'.nextDebug = .error .overflow :=
  ⟨_, _, rfl, rfl, rfl⟩

/-- Without `advance_by` the subtraction is never negative, so `next` is the same in both builds. -/
theorem odometerDebug_eq : ∀ {s st idx : List Nat} {base : Nat}, s.length = st.length → InB idx s →
    odometerDebug s st idx (base + offset idx st) = .ok (odometer s st idx (base + offset idx st))
  | [], [], [], base, _, _ => rfl
  | n :: s, d :: st, i :: idx, base, hl, h => by
    have ho := odometer_spec (base := base + i * d) (Nat.succ.inj hl) h.2
    have ih := odometerDebug_eq (base := base + i * d) (Nat.succ.inj hl) h.2
    simp only [odometerDebug, odometer, offset_cons]
    rw [← Nat.add_assoc, ih, ho]
    have hi : i < n := h.1
    by_cases h1 : rank idx s + 1 < numel s
    · rw [if_pos h1]
      rfl
    rw [if_neg h1]
    simp only [bind, Except.bind]
    by_cases h2 : i + 1 < n
    · rw [if_pos h2, if_pos h2]
      rfl
    have h3 : ¬ base + i * d < d * (n - 1) := by
      have : n - 1 = i := by omega
      rw [this, Nat.mul_comm]
      omega
    rw [if_neg h2, if_neg h2, if_neg h3]
    rfl

/-- **C02/C84.** In a debug build no call of `next` panics on a generator that was not advanced otherwise. -/
theorem C84_next_debug {s st : List Nat} {g g' : FlatGen} {k : Nat} (hl : s.length = st.length) (hg : FlatGen.mk' s st = .ok g)
    (hk : k ≤ numel s) (hg' : g.after k = some g') : g'.nextDebug = .ok g'.next := by
  obtain rfl := FlatGen.after_mk' hl hg hk hg'
  by_cases h : k = numel s
  · simp [FlatGen.nextDebug, FlatGen.next, FlatGen.stateAt, numel_collapse hl, h, pure, Except.pure]
  have hk' : k < numel (collapseToUniformStride s st).1 := by rw [numel_collapse hl]; omega
  have := odometerDebug_eq (base := 0) (length_collapse s st).1 (InB_unrank hk')
  rw [Nat.zero_add] at this
  simp only [FlatGen.nextDebug, FlatGen.next, FlatGen.stateAt, if_pos hk', if_neg (Nat.ne_of_lt hk'), this]
  rfl

/-! A transposed array with two axes that cannot be merged, in its second element. -/

example := C84_count (n := 3) (s := [2, 3]) (st := [1, 2]) rfl rfl (by decide) (show FlatGen.after 1 _ = _ from rfl)
example := C84_indices (n := 3) (s := [2, 3]) (st := [1, 2]) rfl rfl (by decide) (show FlatGen.after 1 _ = _ from rfl)
example := C84_stuck (FlatGen.stateAt [2, 3] [1, 2] 1) 3 (by decide)
example := C84_exact (n := 3) (s := [2, 3]) (st := [1, 2]) rfl rfl (by decide) (show FlatGen.after 1 _ = _ from rfl)
example := C84_next_debug (s := [2, 3]) (st := [1, 2]) rfl rfl (by decide) (show FlatGen.after 1 _ = _ from rfl)

end Verif
