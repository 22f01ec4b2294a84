import Verif.Props.Exact

/-!
# C11, C12 and C19, exactly

The layouts for which `max`, `min`, `max_magnitude`, `min_magnitude` and `mean` are right, and the arrays for which indexed
assignment changes one element only.
-/

namespace Verif

variable {α : Type}

/-! ### C11 -/

/-- What the portable loop of an idempotent step returns on contents with one cell `x`, if it returns and visits that cell. -/
theorem redUniform_spike_idem {step : α → α → α} {b z z' x w : α} (h1 : step z b = z') (h2 : step z z' = z') (h3 : step x b = w)
    (h4 : step x z' = w) (h5 : step z w = w) (h6 : step x w = w) {e n c : Nat} :
    ∀ (N p : Nat) (acc r : α), redUniform step e N (spike n c x z) p acc = .ok r →
      (acc = w ∨ (acc = b ∨ acc = z') ∧ ∃ i < N, c = p + i * e) → r = w
  | 0, p, acc, r, h, hc => by
    cases h
    rcases hc with hc | ⟨_, i, hi, _⟩
    · exact hc
    · omega
  | N + 1, p, acc, r, h, hc => by
    unfold redUniform bufLoad at h
    rw [getElem?_spike] at h
    by_cases hp : p < n
    · rw [if_pos hp] at h
      refine redUniform_spike_idem h1 h2 h3 h4 h5 h6 N (p + e) _ r h ?_
      by_cases hpc : p = c
      · rw [if_pos hpc]
        left
        rcases hc with rfl | ⟨rfl | rfl, _⟩
        · exact h6
        · exact h3
        · exact h4
      · rw [if_neg hpc]
        rcases hc with rfl | ⟨ha, i, hi, e2⟩
        · exact .inl h5
        · refine .inr ⟨.inr ?_, ?_⟩
          · rcases ha with rfl | rfl
            · exact h1
            · exact h2
          · cases i with
            | zero => simp at e2; omega
            | succ i => exact ⟨i, by omega, by rw [e2]; ring⟩
    · rw [if_neg hp] at h
      cases h

/-- If the layout is not `Reducible`, there are contents in which all elements are `z` and the result is not that of `z`. -/
theorem reduceAll_not_reducible {step : α → α → α} {b z z' x w : α} (h1 : step z b = z') (h2 : step z z' = z') (h3 : step x b = w)
    (h4 : step x z' = w) (h5 : step z w = w) (h6 : step x w = w) {a : Arr α} (hv : a.Valid) (hr : ¬ Reducible a.shape a.stride) :
    numel a.shape ≠ 0 ∧ ∃ (buf : List α) (f : List Nat → α), buf.length = a.buf.length ∧ (a.over buf).Denotes a.shape f ∧
      (∀ idx, InB idx a.shape → f idx = z) ∧
      ∀ r v, (a.over buf).reduceAll step b (portableRed step b) = .ok r → r.Denotes [] (fun _ => v) → v = w := by
  unfold Reducible at hr
  push Not at hr
  obtain ⟨h7, hg⟩ := hr
  obtain ⟨e, he⟩ := Option.ne_none_iff_exists'.1 h7
  obtain ⟨he0, i, hi, hni⟩ := exists_foreign hv.1.symm he hg
  refine ⟨by omega, spike a.buf.length (a.off + i * e) x z, _, by simp [spike], denotes_spike hv _ x z, fun idx hidx =>
    if_neg fun hc => hni ?_, fun r v hr hden => ?_⟩
  · rw [← Nat.add_left_cancel hc]
    exact List.mem_map.2 ⟨idx, mem_indices.2 hidx, rfl⟩
  unfold Arr.reduceAll redKernel at hr
  have hsh : (a.over (spike a.buf.length (a.off + i * e) x z)).shape = a.shape := rfl
  have hst : (a.over (spike a.buf.length (a.off + i * e) x z)).stride = a.stride := rfl
  rw [hsh, hst, he] at hr
  simp only [portableRed] at hr
  have hr' : (redUniform step e (numel a.shape) (spike a.buf.length (a.off + i * e) x z) a.off b >>= Arr.scalar) = .ok r := by
    by_cases h1 : e = 1
    · subst h1; exact hr
    · rw [if_neg h1] at hr; exact hr
  obtain ⟨y, hrun, hr''⟩ := bind_eq_ok.1 hr'
  obtain ⟨r', hr1, hr2⟩ := denotes_scalar y
  rw [hr1] at hr''
  cases hr''
  have e1 := hden.2.2 [] trivial
  have e2 := hr2.2.2 [] trivial
  rw [e1] at e2
  cases e2
  exact redUniform_spike_idem h1 h2 h3 h4 h5 h6 _ _ _ _ hrun (.inr ⟨.inl rfl, i, hi, rfl⟩)

section order
variable [LinearOrder α]

theorem max_exact_aux (step : α → α → α) (abs : α → α) (hstep : ∀ v acc, step v acc = max (abs v) acc) {bot z x : α}
    (hbz : bot ≤ abs z) (hzx : abs z < abs x) {a : Arr α} (hv : a.Valid) (hd : a.shape.length ≤ 32) :
    (∀ (buf : List α) (f : List Nat → α), buf.length = a.buf.length → (a.over buf).Denotes a.shape f →
      ∃ r v, (a.over buf).reduceAll step bot (portableRed step bot) = .ok r ∧ r.Denotes [] (fun _ => v) ∧
        IsGreatestOf v bot (fun idx => abs (f idx)) (indices a.shape)) ↔ Reducible a.shape a.stride := by
  constructor
  · intro h
    by_contra hr
    obtain ⟨h0, buf, f, e1, e2, e3, e4⟩ := reduceAll_not_reducible (step := step) (b := bot) (z := z) (z' := abs z) (x := x)
      (w := abs x) (by rw [hstep, max_eq_left hbz]) (by rw [hstep, max_self])
      (by rw [hstep, max_eq_left (hbz.trans hzx.le)]) (by rw [hstep, max_eq_left hzx.le]) (by rw [hstep, max_eq_right hzx.le])
      (by rw [hstep, max_self]) hv hr
    obtain ⟨r, v, q1, q2, q3⟩ := h buf f e1 e2
    have hi : InB (unrank a.shape 0) a.shape := InB_unrank (Nat.pos_of_ne_zero h0)
    obtain ⟨idx, q4, q5⟩ := q3.2 ⟨_, mem_indices.2 hi, by simp only [e3 _ hi]; exact hbz⟩
    simp only [e3 _ (mem_indices.1 q4), e4 r v q1 q2] at q5
    exact hzx.ne' q5
  · intro hr buf f _ hden
    obtain ⟨r, q1, q2⟩ := C09_reduce_partial step bot hden hd hr
    exact ⟨r, _, q1, q2, isGreatestOf_fold _ abs hstep bot f _⟩

theorem min_exact_aux (step : α → α → α) (abs : α → α) (hstep : ∀ v acc, step v acc = min (abs v) acc) {top z x : α}
    (hbz : abs z ≤ top) (hzx : abs x < abs z) {a : Arr α} (hv : a.Valid) (hd : a.shape.length ≤ 32) :
    (∀ (buf : List α) (f : List Nat → α), buf.length = a.buf.length → (a.over buf).Denotes a.shape f →
      ∃ r v, (a.over buf).reduceAll step top (portableRed step top) = .ok r ∧ r.Denotes [] (fun _ => v) ∧
        IsLeastOf v top (fun idx => abs (f idx)) (indices a.shape)) ↔ Reducible a.shape a.stride := by
  constructor
  · intro h
    by_contra hr
    obtain ⟨h0, buf, f, e1, e2, e3, e4⟩ := reduceAll_not_reducible (step := step) (b := top) (z := z) (z' := abs z) (x := x)
      (w := abs x) (by rw [hstep, min_eq_left hbz]) (by rw [hstep, min_self])
      (by rw [hstep, min_eq_left (hzx.le.trans hbz)]) (by rw [hstep, min_eq_left hzx.le]) (by rw [hstep, min_eq_right hzx.le])
      (by rw [hstep, min_self]) hv hr
    obtain ⟨r, v, q1, q2, q3⟩ := h buf f e1 e2
    have hi : InB (unrank a.shape 0) a.shape := InB_unrank (Nat.pos_of_ne_zero h0)
    obtain ⟨idx, q4, q5⟩ := q3.2 ⟨_, mem_indices.2 hi, by simp only [e3 _ hi]; exact hbz⟩
    simp only [e3 _ (mem_indices.1 q4), e4 r v q1 q2] at q5
    exact hzx.ne q5
  · intro hr buf f _ hden
    obtain ⟨r, q1, q2⟩ := C09_reduce_partial step top hden hd hr
    exact ⟨r, _, q1, q2, isLeastOf_fold _ abs hstep top f _⟩

/-- **C11, exactly.** If two values lie from the start value on, `max` is right for all contents if and only if the layout is
`Reducible`. -/
theorem C11_max_exact {bot z x : α} (hbz : bot ≤ z) (hzx : z < x) {a : Arr α} (hv : a.Valid) (hd : a.shape.length ≤ 32) :
    (∀ (buf : List α) (f : List Nat → α), buf.length = a.buf.length → (a.over buf).Denotes a.shape f →
      ∃ r v, (a.over buf).max ltb bot = .ok r ∧ r.Denotes [] (fun _ => v) ∧ IsGreatestOf v bot f (indices a.shape)) ↔
    Reducible a.shape a.stride :=
  max_exact_aux _ id max_step hbz hzx hv hd

example := C11_max_exact (bot := 0) (z := 0) (x := 1) (by decide) (by decide) (wf_history demo_fresh.wf demoT_history).valid (by decide)

/-- **C11, exactly.** `min`. -/
theorem C11_min_exact {top z x : α} (hbz : z ≤ top) (hzx : x < z) {a : Arr α} (hv : a.Valid) (hd : a.shape.length ≤ 32) :
    (∀ (buf : List α) (f : List Nat → α), buf.length = a.buf.length → (a.over buf).Denotes a.shape f →
      ∃ r v, (a.over buf).min ltb top = .ok r ∧ r.Denotes [] (fun _ => v) ∧ IsLeastOf v top f (indices a.shape)) ↔
    Reducible a.shape a.stride :=
  min_exact_aux _ id min_step hbz hzx hv hd

example := C11_min_exact (top := 255) (z := 1) (x := 0) (by decide) (by decide) (wf_history demo_fresh.wf demoT_history).valid (by decide)

/-- **C11, exactly.** `max_magnitude`. -/
theorem C11_max_magnitude_exact (abs : α → α) {bot z x : α} (hbz : bot ≤ abs z) (hzx : abs z < abs x) {a : Arr α} (hv : a.Valid)
    (hd : a.shape.length ≤ 32) :
    (∀ (buf : List α) (f : List Nat → α), buf.length = a.buf.length → (a.over buf).Denotes a.shape f →
      ∃ r v, (a.over buf).maxMagnitude ltb abs bot = .ok r ∧ r.Denotes [] (fun _ => v) ∧
        IsGreatestOf v bot (fun idx => abs (f idx)) (indices a.shape)) ↔ Reducible a.shape a.stride :=
  max_exact_aux _ abs (maxMag_step abs) hbz hzx hv hd

example := C11_max_magnitude_exact id (bot := 0) (z := 0) (x := 1) (by decide) (by decide)
  (wf_history demo_fresh.wf demoT_history).valid (by decide)

/-- **C11, exactly.** `min_magnitude`. -/
theorem C11_min_magnitude_exact (abs : α → α) {top z x : α} (hbz : abs z ≤ top) (hzx : abs x < abs z) {a : Arr α} (hv : a.Valid)
    (hd : a.shape.length ≤ 32) :
    (∀ (buf : List α) (f : List Nat → α), buf.length = a.buf.length → (a.over buf).Denotes a.shape f →
      ∃ r v, (a.over buf).minMagnitude ltb abs top = .ok r ∧ r.Denotes [] (fun _ => v) ∧
        IsLeastOf v top (fun idx => abs (f idx)) (indices a.shape)) ↔ Reducible a.shape a.stride :=
  min_exact_aux _ abs (minMag_step abs) hbz hzx hv hd

example := C11_min_magnitude_exact id (top := 255) (z := 1) (x := 0) (by decide) (by decide)
  (wf_history demo_fresh.wf demoT_history).valid (by decide)

end order

/-- The hypotheses hold for `i32`: start values `-2^31` and `2^31 - 1`, absolute values. -/
example : ((-2147483648 : Int) ≤ 0 ∧ (0 : Int) < 1) ∧ ((0 : Int) ≤ 2147483647 ∧ (-1 : Int) < 0) ∧
    ((-2147483648 : Int) ≤ |0| ∧ |(0 : Int)| < |1|) ∧ (|(1 : Int)| ≤ 2147483647 ∧ |(0 : Int)| < |1|) := by decide

/-! ### C12 -/

/-- **C12, exactly.** `mean` is right for all contents if and only if the layout is `Reducible` (numbers in which the number of
elements is not zero: any field of characteristic 0). -/
theorem C12_mean_exact [Field α] [CharZero α] (dflt : α) {a : Arr α} (hv : a.Valid) (hd : a.shape.length ≤ 32) :
    (∀ (buf : List α) (f : List Nat → α), buf.length = a.buf.length → (a.over buf).Denotes a.shape f →
      ∃ r, (a.over buf).mean (fun n => (n : α)) dflt = .ok r ∧
        r.Denotes [] (fun _ => (elements a.shape f).sum / ((elements a.shape f).length : α))) ↔ Reducible a.shape a.stride := by
  constructor
  · intro h
    by_contra hr
    have h0 : (numel a.shape : α) ≠ 0 := by
      rw [Nat.cast_ne_zero]
      intro h0
      refine hr (.inr (.inl (.inl h0)))
    refine hr ((C09_sum_exact hv hd).1 fun buf f hl hden => ?_)
    obtain ⟨r, e1, e2⟩ := h buf f hl hden
    obtain ⟨s, e3, e4⟩ := bind_eq_ok.1 e1
    refine ⟨s, e3, ?_⟩
    have e3' := e3
    unfold Arr.sum Arr.reduceAll at e3'
    obtain ⟨y, hy, e6⟩ := bind_eq_ok.1 e3'
    obtain ⟨s', e7, e8⟩ := denotes_scalar y
    rw [e7] at e6
    cases e6
    rw [binOpScalar_eq (portable_correct _) dflt e8 _ (by simp [maxDims]) trivial,
      mapM_id_elements (h := fun _ => y / ((a.over buf).size : α)) (fun _ _ => rfl)] at e4
    cases e4
    have e5 := e2.2.2 [] trivial
    have e9 : some (y / (numel a.shape : α)) = some ((elements a.shape f).sum / ((elements a.shape f).length : α)) := e5
    rw [length_elements, Option.some.injEq, div_left_inj' h0] at e9
    rw [← e9]
    exact e8
  · intro hr buf f _ hden
    exact C12_mean_partial dflt hden hd hr

example := C12_mean_exact (0 : ℚ) (a := Arr.fromContiguousOwnedBuffer [2, 2] [1, 2, 3, 4]) (Fresh.wf ⟨[2, 2], _, rfl, rfl⟩).valid (by decide)

/-- A repeated row is a valid view with more than one element and not `Reducible`. -/
example : ∃ row r : Arr ℚ, (Arr.fromContiguousOwnedBuffer [2, 2] [1, 2, 3, 4]).sliceAlong 0 (.at 0) = .ok row ∧
    row.broadcastTo [2, 2] = .ok r ∧ r.shape = [2, 2] ∧ r.stride = [0, 1] ∧ ¬ Reducible [2, 2] [0, 1] :=
  ⟨_, _, rfl, rfl, rfl, rfl, by unfold Reducible; decide⟩

/-! ### C19 -/

theorem indexSet_ok {a : Arr α} {idx : List Nat} (hl : idx.length = a.shape.length) (v : α) (h1 : offset idx a.stride < a.len)
    (h2 : a.off + offset idx a.stride < a.buf.length) :
    a.indexSet idx v = .ok (a.buf.set (a.off + offset idx a.stride) v) := by
  unfold Arr.indexSet
  rw [assert_ok (by simp [Arr.ndims, hl])]
  simp only [ok_bind]
  rw [assert_ok (decide_eq_true h1)]
  simp only [ok_bind]
  rw [if_pos h2]
  rfl

theorem indexSet_panic {a : Arr α} {idx : List Nat} (hl : idx.length = a.shape.length) (v : α) (h1 : ¬ offset idx a.stride < a.len) :
    a.indexSet idx v = .error .panic := by
  unfold Arr.indexSet
  rw [assert_ok (by simp [Arr.ndims, hl])]
  simp only [ok_bind]
  rw [assert_fail (decide_eq_false h1)]
  rfl

/-- **C19, exactly.** For any array and any index in range: `a[idx] = v` is right for all contents and all `v` if and only if the
strided position of `idx` is below the length recorded with the array, and no other element lies in the same cell. -/
theorem C19_write_exact [Nontrivial α] {a : Arr α} (hv : a.Valid) {idx : List Nat} (hi : InB idx a.shape) :
    (∀ (buf : List α) (f : List Nat → α) (v : α), buf.length = a.buf.length → (a.over buf).Denotes a.shape f →
      ∃ buf', (a.over buf).indexSet idx v = .ok buf' ∧ (a.over buf').Denotes a.shape (fun j => if j = idx then v else f j) ∧
        (∀ i, i ≠ a.off + offset idx a.stride → buf'[i]? = buf[i]?) ∧ buf'.length = buf.length) ↔
    offset idx a.stride < a.len ∧ ∀ j, InB j a.shape → offset j a.stride = offset idx a.stride → j = idx := by
  obtain ⟨x, z, hxz⟩ := exists_pair_ne α
  have hin := hv.2 idx hi
  constructor
  · intro h
    obtain ⟨buf', h1, h2, _⟩ := h _ _ z (by simp [spike]) (denotes_spike hv (a.off + offset idx a.stride) x z)
    refine ⟨?_, fun j hj he => ?_⟩
    · by_contra hc
      rw [indexSet_panic (a := a.over (spike a.buf.length (a.off + offset idx a.stride) x z)) hi.length z hc] at h1
      cases h1
    · by_contra hne
      have h3 := h2.2.2 j hj
      have h4 := h2.2.2 idx hi
      simp only [if_neg hne, if_pos, he, Arr.over] at h3 h4
      rw [h3] at h4
      cases h4
      exact hxz rfl
  · rintro ⟨hlt, hone⟩ buf f v hl hden
    refine ⟨buf.set (a.off + offset idx a.stride) v, ?_, ⟨rfl, hv.1, fun j hj => ?_⟩, fun i hne => ?_, by simp⟩
    · exact indexSet_ok (a := a.over buf) hi.length v hlt (show a.off + offset idx a.stride < buf.length by omega)
    · simp only [Arr.over]
      by_cases hji : j = idx
      · subst hji
        rw [if_pos rfl, List.getElem?_set_self (by omega)]
      · rw [if_neg hji, List.getElem?_set_ne]
        · exact hden.2.2 j hj
        · intro he
          exact hji (hone j hj (by omega))
    · rw [List.getElem?_set_ne (Ne.symm hne)]

example := C19_write_exact (wf_history demo_fresh.wf demoT_history).valid (idx := [2, 1]) (by decide)

/-- In a repeated row no element has a cell of its own, in a diagonal each has. -/
example : (¬ ∀ j, InB j [2, 3] → offset j [0, 1] = offset [0, 1] [0, 1] → j = [0, 1]) ∧
    ∀ j, InB j [3] → offset j [4] = offset [1] [4] → j = [1] := by
  constructor
  · intro h
    have := h [1, 1] (by decide) (by decide)
    simp at this
  · intro j hj he
    rw [← mem_indices] at hj
    revert j
    decide

end Verif
