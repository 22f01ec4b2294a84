import Verif.Props.Exact

/-!
# Iteration over several axes: exactly which axes are handled right

The odometer of `NdIterator::next` (src/ndarray/iterator/tensor_iterator.rs 57-66) lets every digit run up to the extent of its axis,
one too far. That does not matter if and only if the strides of the chosen axes are those of one row-major block.
-/

namespace Verif

variable {α : Type}

/-! ### the first element of a clone -/

theorem readRun_head {a : Arr α} {i n : Nat} {vs : List α} (h : a.readRun i (n + 1) = .ok vs) :
    ∃ v, vs[0]? = some v ∧ a.read i = .ok v := by
  obtain ⟨_, h2⟩ := mapM_res_ok h
  obtain ⟨v, h3, h4⟩ := h2 0 0 (by simp)
  exact ⟨v, h3, by simpa using h4⟩

theorem clone_head {a r : Arr α} (h0 : numel a.shape ≠ 0) (hlen : a.len = numel a.shape) (hl : a.stride.length = a.shape.length)
    (hd : a.shape.length ≤ maxDims) (h : a.clone = .ok r) :
    ∃ data v, r = Arr.fromContiguousOwnedBuffer a.shape data ∧ data[0]? = some v ∧ a.read 0 = .ok v := by
  unfold Arr.clone at h
  obtain ⟨data, h1, h2⟩ := bind_eq_ok.1 h
  cases h2
  refine ⟨data, ?_⟩
  unfold Arr.cloneData at h1
  split at h1
  · unfold Arr.cloneDataContiguous at h1
    rw [hlen] at h1
    obtain ⟨n, hn⟩ := Nat.exists_eq_succ_of_ne_zero h0
    rw [hn] at h1
    obtain ⟨v, h3, h4⟩ := readRun_head h1
    exact ⟨v, rfl, h3, h4⟩
  · unfold Arr.cloneDataNonContiguous at h1
    obtain ⟨c1, c2⟩ := length_collapse a.shape a.stride
    generalize collapseToUniformStride a.shape a.stride = c at h1 c1 c2
    simp only at h1
    split at h1
    · cases h1
    · rename_i d hdl
      -- the axes that are walked
      generalize hs' : (if d = 1 then c.1.dropLast else c.1) = s' at h1
      generalize hst' : (if d = 1 then c.2.dropLast else c.2) = st' at h1
      generalize (if d = 1 then c.1.getLastD 0 else 1) = run at h1
      have hll : s'.length = st'.length := by
        rw [← hs', ← hst']
        split <;> simp [c1]
      have hdd : s'.length ≤ maxDims := by
        rw [← hs']
        split
        · rw [List.length_dropLast]; omega
        · omega
      obtain ⟨g, hg1, hg2⟩ := FlatGen.toList_mk' hll hdd
      rw [hg1, ok_bind, hg2] at h1
      obtain ⟨runs, h3, h4⟩ := bind_eq_ok.1 h1
      split at h4
      · rename_i hsz
        cases h4
        have hne : runs.flatten ≠ [] := fun he => by
          rw [he] at hsz
          exact h0 hsz.symm
        obtain ⟨h5, h6⟩ := mapM_res_ok h3
        by_cases hn : numel s' = 0
        · rw [length_offsets, hn] at h5
          rw [List.length_eq_zero_iff.1 h5] at hne
          exact absurd rfl hne
        · have hhead : (offsets s' st')[0]? = some 0 := by
            rw [getElem?_offsets (by omega), unrank_zero, offset_replicate_zero]
          obtain ⟨vs, h7, h8⟩ := h6 0 0 hhead
          cases run with
          | zero =>
            exfalso
            apply hne
            rw [List.flatten_eq_nil_iff]
            intro l hl'
            obtain ⟨i, hi, rfl⟩ := List.getElem_of_mem hl'
            obtain ⟨o, ho⟩ : ∃ o, (offsets s' st')[i]? = some o := ⟨_, List.getElem?_eq_getElem (by omega)⟩
            obtain ⟨ws, h9, h10⟩ := h6 i o ho
            rw [List.getElem?_eq_getElem hi] at h9
            cases h9
            have := (mapM_res_ok h10).1
            simpa using this
          | succ run =>
            obtain ⟨v, h9, h10⟩ := readRun_head h8
            refine ⟨v, rfl, ?_, h10⟩
            cases runs with
            | nil => simp at h7
            | cons w ws =>
              simp at h7
              subst h7
              cases w with
              | nil => simp at h9
              | cons y w => simpa using h9
      · cases h4

/-! ### the odometer -/

/-- digits and displacement after `k` steps -/
def ndRun (s st : List Nat) : Nat → List Nat × Int
  | 0 => (List.replicate s.length 0, 0)
  | k + 1 => ((ndAdvance s st (ndRun s st k).1).1, (ndRun s st k).2 + (ndAdvance s st (ndRun s st k).1).2.1)

theorem ndRun_chain (q : Nat) {s : List Nat} (hne : s ≠ []) (hpos : ∀ n ∈ s, 0 < n) : ∀ k, k ≤ numel s →
    DigitsLe (ndRun s (chainStride q s) k).1 s ∧ odo (ndRun s (chainStride q s) k).1 s = k ∧
    (ndRun s (chainStride q s) k).2 = k * q ∧
    (∀ j < k, (ndAdvance s (chainStride q s) (ndRun s (chainStride q s) j).1).2.2 = false)
  | 0, _ => ⟨digitsLe_zero s, odo_zero s _, by simp [ndRun], fun j hj => by omega⟩
  | k + 1, hk => by
    obtain ⟨h1, h2, h3, h4⟩ := ndRun_chain q hne hpos k (by omega)
    obtain ⟨s1, s2, s3⟩ := ndAdvance_spec q h1 hpos
    have hfl : (ndAdvance s (chainStride q s) (ndRun s (chainStride q s) k).1).2.2 = false := by
      by_contra hc
      obtain ⟨h5, _⟩ := s3 (by simpa using hc)
      have := numel_lt_succ hne
      omega
    obtain ⟨h5, h6⟩ := s2 hfl
    refine ⟨s1, by simp only [ndRun]; rw [h5, h2], ?_, fun j hj => ?_⟩
    · simp only [ndRun]
      rw [h6, h3]; push_cast; ring
    · rcases Nat.lt_succ_iff_lt_or_eq.1 hj with h | rfl
      · exact h4 j h
      · exact hfl

theorem ndRun_cons {n d : Nat} {s st : List Nat} : ∀ k, (∀ j < k, (ndAdvance s st (ndRun s st j).1).2.2 = false) →
    ndRun (n :: s) (d :: st) k = (0 :: (ndRun s st k).1, (ndRun s st k).2)
  | 0, _ => rfl
  | k + 1, h => by
    have ih := ndRun_cons (n := n) (d := d) k (fun j hj => h j (by omega))
    simp only [ndRun]
    rw [ih]
    simp only [ndAdvance]
    rw [h k (by omega)]
    simp

/-- The digits do not depend on the strides. -/
theorem ndAdvance_digits {s st st' : List Nat} (hl : s.length = st.length) (hl' : s.length = st'.length) (idx : List Nat) :
    (ndAdvance s st idx).1 = (ndAdvance s st' idx).1 ∧ (ndAdvance s st idx).2.2 = (ndAdvance s st' idx).2.2 := by
  induction s generalizing st st' idx with
  | nil => simp [ndAdvance]
  | cons n s ih =>
    cases st with
    | nil => simp at hl
    | cons d st => cases st' with
      | nil => simp at hl'
      | cons d' st' => cases idx with
        | nil => simp [ndAdvance]
        | cons i idx =>
          obtain ⟨h1, h2⟩ := ih (st := st) (st' := st') (by simpa using hl) (by simpa using hl') idx
          simp only [ndAdvance, h1, h2]
          split
          · split <;> simp
          · simp

theorem ndRun_digits {s st st' : List Nat} (hl : s.length = st.length) (hl' : s.length = st'.length) :
    ∀ k, (ndRun s st k).1 = (ndRun s st' k).1
  | 0 => rfl
  | k + 1 => by
    simp only [ndRun]
    rw [ndRun_digits hl hl' k, (ndAdvance_digits hl hl' _).1]

theorem length_chainStride (q : Nat) (s : List Nat) : (chainStride q s).length = s.length := by
  induction s with
  | nil => rfl
  | cons n s ih => simp [chainStride, ih]

/-- If every item is where it should be, the axes form a row-major block. -/
theorem chain_of_ndRun {s st : List Nat} (hl : s.length = st.length) (h2 : ∀ n ∈ s, 2 ≤ n)
    (h : ∀ k < numel s, (ndRun s st k).2 = offset (unrank s k) st) : ∃ q, st = chainStride q s := by
  induction s generalizing st with
  | nil => exact ⟨0, by simpa [chainStride] using hl.symm⟩
  | cons n s ih =>
    cases st with
    | nil => simp at hl
    | cons d st =>
      by_cases hs : s = []
      · subst hs
        have : st = [] := by simpa using hl.symm
        subst this
        exact ⟨d, by simp [chainStride]⟩
      · have hn := h2 n (by simp)
        have hpos : ∀ m ∈ s, 0 < m := fun m hm => by have := h2 m (by simp [hm]); omega
        have hN : 0 < numel s := Nat.pos_of_ne_zero fun h0 => by
          have := hpos _ (numel_eq_zero.1 h0)
          omega
        have hnum : numel s < numel (n :: s) := by
          rw [numel_cons]
          calc numel s < 2 * numel s := by omega
            _ ≤ n * numel s := Nat.mul_le_mul_right _ hn
        have hls : s.length = st.length := by simpa using hl
        -- the odometer of the inner axes does not run through
        have hflag : ∀ j < numel s, (ndAdvance s st (ndRun s st j).1).2.2 = false := fun j hj => by
          rw [(ndAdvance_digits hls (length_chainStride 0 s).symm _).2, ndRun_digits hls (length_chainStride 0 s).symm j]
          exact (ndRun_chain 0 hs hpos (numel s) (Nat.le_refl _)).2.2.2 j hj
        have hrun : ∀ k ≤ numel s, (ndRun (n :: s) (d :: st) k).2 = (ndRun s st k).2 := fun k hk => by
          rw [ndRun_cons k fun j hj => hflag j (by omega)]
        obtain ⟨q, rfl⟩ := ih hls (fun m hm => h2 m (by simp [hm])) fun k hk => by
          rw [← hrun k (by omega), h k (by omega)]
          simp only [unrank, offset_cons]
          rw [Nat.div_eq_of_lt hk, Nat.mod_eq_of_lt hk]
          simp
        refine ⟨q, ?_⟩
        have h3 := h (numel s) hnum
        rw [hrun _ (Nat.le_refl _), (ndRun_chain q hs hpos _ (Nat.le_refl _)).2.2.1] at h3
        simp only [unrank, offset_cons] at h3
        rw [Nat.div_self hN, Nat.mod_self, unrank_zero, offset_replicate_zero] at h3
        simp only [chainStride]
        congr 1
        have h4 : numel s * q = 1 * d + 0 := by exact_mod_cast h3
        rw [Nat.mul_comm q]
        omega

theorem weave_unweave {mask : List Bool} {s I J : List Nat} (hm : mask.length = s.length)
    (hI : InB I (keepMask mask s)) (hJ : InB J (dropMask mask s)) :
    keepMask mask (weave mask I J) = I ∧ dropMask mask (weave mask I J) = J := by
  induction mask generalizing s I J with
  | nil =>
    cases s with
    | nil =>
      cases I with
      | nil => cases J with
        | nil => simp [keepMask, dropMask]
        | cons => simp [dropMask] at hJ
      | cons => simp [keepMask] at hI
    | cons => cases hm
  | cons b mask ih => cases s with
    | nil => cases hm
    | cons n s =>
      cases b with
      | true => cases I with
        | nil => simp [keepMask] at hI
        | cons i I =>
          simp only [keepMask, if_true, InB_cons] at hI
          obtain ⟨h1, h2⟩ := ih (by simpa using hm) hI.2 (by simpa [dropMask] using hJ)
          simp [weave, keepMask, dropMask, h1, h2]
      | false => cases J with
        | nil => simp [dropMask] at hJ
        | cons j J =>
          simp only [dropMask, Bool.false_eq_true, if_false, InB_cons] at hJ
          obtain ⟨h1, h2⟩ := ih (by simpa using hm) (by simpa [keepMask] using hI) hJ.2
          simp [weave, keepMask, dropMask, h1, h2]

/-- The index with given coordinates on the chosen and on the other axes. -/
theorem exists_index {ks s st I J : List Nat} (hst : st.length = s.length) (hI : InB I (keepAxes ks s))
    (hJ : InB J (dropAxes ks s)) :
    ∃ idx, InB idx s ∧ keepAxes ks idx = I ∧ dropAxes ks idx = J ∧
      offset idx st = offset I (keepAxes ks st) + offset J (dropAxes ks st) := by
  rw [← keepMask_maskOf] at hI
  rw [← dropMask_maskOf] at hJ
  obtain ⟨h1, h2⟩ := weave_facts (length_maskOf _ _) hst hI hJ
  obtain ⟨h3, h4⟩ := weave_unweave (length_maskOf _ _) hI hJ
  refine ⟨_, h1, ?_, ?_, ?_⟩
  · have := keepMask_maskOf ks (weave (maskOf s.length ks) I J)
    rw [h1.length] at this
    rw [← this, h3]
  · have := dropMask_maskOf ks (weave (maskOf s.length ks) I J)
    rw [h1.length] at this
    rw [← this, h4]
  · rw [h2, ← hst, keepMask_maskOf, dropMask_maskOf]

/-- What the iterator returns, if it returns. -/
theorem collect_items {s st : List Nat} {view : Arr α} {N : Nat} : ∀ (fuel k : Nat) (rs : List (Arr α)),
    NdIter.collect fuel ⟨view, (ndRun s st k).2, s, st, (ndRun s st k).1, k, N⟩ = .ok rs →
    ∀ j, k + j < N → j < fuel → ∃ r, rs[j]? = some r ∧ (view.offsetPtr (ndRun s st (k + j)).2 >>= Arr.clone) = .ok r
  | 0, _, _, _, j, _, hj => by omega
  | fuel + 1, k, rs, h, j, hjN, hj => by
    unfold NdIter.collect NdIter.next at h
    rw [if_neg (by simp only; omega)] at h
    simp only at h
    obtain ⟨x, h1, h⟩ := bind_eq_ok.1 h
    obtain ⟨xs, h2, h⟩ := bind_eq_ok.1 h
    cases h
    cases j with
    | zero => exact ⟨x, rfl, h1⟩
    | succ j =>
      have := collect_items fuel (k + 1) xs h2 j (by omega) (by omega)
      rw [show k + 1 + j = k + (j + 1) by omega] at this
      simpa using this

theorem nditer_items {a : Arr α} {ks : List Nat} (hl : a.stride.length = a.shape.length) (hr : ∀ k ∈ ks, k < a.shape.length)
    (hnd : ks.Nodup) {rs : List (Arr α)} (h : a.nditer ks = .ok rs) {k : Nat} (hk : k < numel (keepAxes ks a.shape)) :
    ∃ r, rs[k]? = some r ∧ ((a.reshapedView (dropAxes ks a.shape) (dropAxes ks a.stride)).offsetPtr
      (ndRun (keepAxes ks a.shape) (keepAxes ks a.stride) k).2 >>= Arr.clone) = .ok r := by
  unfold Arr.nditer NdIter.from at h
  rw [splitByIndices_ok hr hnd, ok_bind, splitByIndices_ok (by rw [hl]; exact hr) hnd, ok_bind] at h
  have h' : NdIter.collect (numel (keepAxes ks a.shape) + 1) ⟨a.reshapedView (dropAxes ks a.shape) (dropAxes ks a.stride),
      (ndRun (keepAxes ks a.shape) (keepAxes ks a.stride) 0).2, keepAxes ks a.shape, keepAxes ks a.stride,
      (ndRun (keepAxes ks a.shape) (keepAxes ks a.stride) 0).1, 0, numel (keepAxes ks a.shape)⟩ = .ok rs := by
    rw [← h]
    simp only [ndRun, length_keepAxes hnd hr rfl]
    rfl
  have := collect_items _ 0 rs h' k (by omega) (by omega)
  rwa [Nat.zero_add] at this

/-- **C36, exactly.** Let every chosen axis have extent 2 or more and the sub-arrays have elements. Then `nditer` is right for all
contents if and only if the strides of the chosen axes are those of a row-major block (each stride is the next stride times the next
extent), and the sub-arrays do not report themselves contiguous or are packed. -/
theorem C36_nditer_exact [Nontrivial α] {a : Arr α} (hv : a.Valid) (hd : a.shape.length ≤ 32) {ks : List Nat}
    (hr : ∀ k ∈ ks, k < a.shape.length) (hnd : ks.Nodup) (h2 : ∀ n ∈ keepAxes ks a.shape, 2 ≤ n)
    (h0 : numel (dropAxes ks a.shape) ≠ 0) :
    (∀ (buf : List α) (f : List Nat → α), buf.length = a.buf.length → (a.over buf).Denotes a.shape f →
      ∃ rs, (a.over buf).nditer ks = .ok rs ∧ rs.length = numel (keepAxes ks a.shape) ∧
        ∀ idx, InB idx a.shape → ∃ r g, rs[rank (keepAxes ks idx) (keepAxes ks a.shape)]? = some r ∧
          r.Denotes (dropAxes ks a.shape) g ∧ g (dropAxes ks idx) = f idx) ↔
    (∃ q, keepAxes ks a.stride = chainStride q (keepAxes ks a.shape)) ∧
      ((a.reshapedView (dropAxes ks a.shape) (dropAxes ks a.stride)).isContiguous = true →
        (a.reshapedView (dropAxes ks a.shape) (dropAxes ks a.stride)).Packed) := by
  have hl := hv.1
  have hlk : (keepAxes ks a.shape).length = (keepAxes ks a.stride).length := by
    rw [length_keepAxes hnd hr rfl, length_keepAxes hnd hr hl]
  have hld : (dropAxes ks a.stride).length = (dropAxes ks a.shape).length := length_dropAxes_eq ks hl
  have hdd : (dropAxes ks a.shape).length ≤ maxDims := by
    have : (dropAxes ks a.shape).length ≤ a.shape.length := by
      unfold dropAxes
      rw [List.length_map]
      exact le_trans (List.length_filter_le _ _) (by simp)
    exact le_trans this hd
  have hJ0 : InB (unrank (dropAxes ks a.shape) 0) (dropAxes ks a.shape) := InB_unrank (by omega)
  have hoff0 : ∀ st, offset (unrank (dropAxes ks a.shape) 0) st = 0 := fun st => by
    rw [unrank_zero, offset_replicate_zero]
  have hN : numel (keepAxes ks a.shape) ≠ 0 := fun h => by
    have := h2 0 (numel_eq_zero.1 h)
    omega
  constructor
  · intro h
    obtain ⟨x, z, hxz⟩ := exists_pair_ne α
    refine ⟨chain_of_ndRun hlk h2 fun k hk => ?_, fun hc => packed_of_run hxz fun c => ?_⟩
    · obtain ⟨idx, hi1, hi2, hi3, hi4⟩ := exists_index hl (InB_unrank hk) hJ0
      rw [hoff0, Nat.add_zero] at hi4
      obtain ⟨rs, e1, _, e3⟩ := h _ _ (by simp [spike]) (denotes_spike hv (a.off + offset idx a.stride) x z)
      obtain ⟨r, g, e4, e5, e6⟩ := e3 idx hi1
      rw [hi2, rank_unrank hk] at e4
      rw [hi3, if_pos rfl] at e6
      obtain ⟨r', e7, e8⟩ := nditer_items (a := a.over (spike a.buf.length (a.off + offset idx a.stride) x z)) hl hr hnd e1 hk
      rw [e4] at e7
      cases e7
      obtain ⟨w, e9, e10⟩ := bind_eq_ok.1 e8
      simp only [Arr.offsetPtr] at e9
      split at e9
      · rename_i hge
        cases e9
        obtain ⟨data, v, q1, q2, q3⟩ := clone_head h0 rfl hld hdd e10
        have e11 := e5.2.2 _ hJ0
        rw [e6, q1] at e11
        simp only [Arr.fromContiguousOwnedBuffer, hoff0, Nat.add_zero] at e11
        rw [q2] at e11
        cases e11
        simp only [Arr.read, Arr.reshapedView, Arr.over, Nat.add_zero, getElem?_spike] at q3 hge
        by_contra hne
        rw [hi4, if_neg (c := ((a.off : Int) + _).toNat = _) (by omega)] at q3
        split at q3
        · rename_i _ _ hy
          split at hy
          · cases hy
            cases q3
            exact hxz rfl
          · cases hy
        · cases q3
      · cases e9
    · have hk : 0 < numel (keepAxes ks a.shape) := by omega
      obtain ⟨rs, e1, _, e3⟩ := h _ _ (by simp [spike]) (denotes_spike hv c x z)
      obtain ⟨r, e7, e8⟩ := nditer_items (a := a.over (spike a.buf.length c x z)) hl hr hnd e1 hk
      have hitem : ∀ J, InB J (dropAxes ks a.shape) → ∃ g, r.Denotes (dropAxes ks a.shape) g ∧
          g J = if a.off + offset J (dropAxes ks a.stride) = c then x else z := by
        intro J hJ
        obtain ⟨idx, hi1, hi2, hi3, hi4⟩ := exists_index hl (InB_unrank hk) hJ
        rw [unrank_zero, offset_replicate_zero, Nat.zero_add] at hi4
        obtain ⟨r', g, e4, e5, e6⟩ := e3 idx hi1
        rw [hi2, rank_unrank hk, e7] at e4
        cases e4
        rw [hi3, hi4] at e6
        exact ⟨g, e5, e6⟩
      have hptr : ((a.over (spike a.buf.length c x z)).reshapedView (dropAxes ks a.shape) (dropAxes ks a.stride)).offsetPtr
          (ndRun (keepAxes ks a.shape) (keepAxes ks a.stride) 0).2 =
          .ok ((a.over (spike a.buf.length c x z)).reshapedView (dropAxes ks a.shape) (dropAxes ks a.stride)) := by
        rw [show (ndRun (keepAxes ks a.shape) (keepAxes ks a.stride) 0).2 = 0 from rfl]
        unfold Arr.offsetPtr
        rw [if_pos (by omega)]
        simp
      have e8 : (((a.over (spike a.buf.length c x z)).reshapedView (dropAxes ks a.shape) (dropAxes ks a.stride)).offsetPtr
          (ndRun (keepAxes ks a.shape) (keepAxes ks a.stride) 0).2 >>= Arr.clone) = .ok r := e8
      rw [hptr, ok_bind] at e8
      unfold Arr.clone Arr.cloneData at e8
      rw [if_pos (show ((a.over (spike a.buf.length c x z)).reshapedView (dropAxes ks a.shape)
        (dropAxes ks a.stride)).isContiguous = true from hc)] at e8
      unfold Arr.cloneDataContiguous Arr.readRun at e8
      simp only [Nat.zero_add] at e8
      show (List.range (numel (dropAxes ks a.shape))).mapM
        ((a.over (spike a.buf.length c x z)).reshapedView (dropAxes ks a.shape) (dropAxes ks a.stride)).read = _
      obtain ⟨data, e9, e10⟩ := bind_eq_ok.1 e8
      cases e10
      refine Eq.trans e9 ?_
      congr 1
      obtain ⟨g0, hg0, _⟩ := hitem _ hJ0
      have hlen := (mapM_res_ok e9).1
      rw [List.length_range] at hlen
      rw [fromContiguous_denotes_inv hlen hg0]
      refine List.map_congr_left fun J hJ => ?_
      obtain ⟨g, hg1, hg2⟩ := hitem J (mem_indices.1 hJ)
      have q1 := hg0.2.2 J (mem_indices.1 hJ)
      have q2 := hg1.2.2 J (mem_indices.1 hJ)
      rw [q1, Option.some.injEq] at q2
      rw [q2, hg2]
      rfl
  · rintro ⟨⟨q, hq⟩, hp⟩ buf f _ ha
    obtain ⟨rs, h4, h5, h6⟩ := nditer_clone_ok (a := a.over buf) ha hd hr hnd (q := q) hq (fun _ => hp)
    refine ⟨rs, h4, h5, fun idx hi => ?_⟩
    have hk := InB_keepAxes (ks := ks) hi
    obtain ⟨r, h7, h8⟩ := h6 _ (rank_lt hk)
    refine ⟨r, _, h7, h8, ?_⟩
    rw [unrank_rank hk, ← hi.length, ← keepMask_maskOf, ← dropMask_maskOf, weave_split (length_maskOf _ _)]

example := C36_nditer_exact demo_fresh.wf.valid (by decide) (ks := [0]) (by decide) (by decide) (by decide) (by decide)

/-- Axes 0 and 1 of a 2x2x2 array form a block, axes 0 and 2 do not. -/
example : (∃ q, keepAxes [0, 1] [4, 2, 1] = chainStride q (keepAxes [0, 1] [2, 2, 2])) ∧
    ¬ ∃ q, keepAxes [0, 2] [4, 2, 1] = chainStride q (keepAxes [0, 2] [2, 2, 2]) := by
  refine ⟨⟨2, rfl⟩, ?_⟩
  rintro ⟨q, h⟩
  have h' : [4, 1] = [q * 2, q * 1] := h
  simp at h'
  omega

end Verif
