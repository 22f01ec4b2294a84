import Verif.Props.LinearAlgebra

/-!
# C67 sums do not depend on how they are taken
-/

namespace Verif

variable {α : Type}

/-! ## dropping axes -/

theorem dropAxes_congr {β : Type} {ks ks' : List Nat} (h : ∀ k, k ∈ ks ↔ k ∈ ks') (l : List β) : dropAxes ks l = dropAxes ks' l := by
  unfold dropAxes
  congr 1
  apply List.filter_congr
  intro p _
  rw [decide_eq_decide]
  exact not_congr (h p.2)

theorem remaining_succ (ks : List Nat) (j : Nat) :
    remaining ks (j + 1) = remaining ks j + if j ∈ ks then 0 else 1 := by
  unfold remaining
  rw [List.range_succ, List.filter_append, List.length_append]
  by_cases h : j ∈ ks <;> simp [h]

theorem remaining_mono (ks : List Nat) {i j : Nat} (h : i ≤ j) : remaining ks i ≤ remaining ks j := by
  induction h with
  | refl => exact Nat.le_refl _
  | step _ ih => rw [remaining_succ]; omega

theorem remaining_inj {ks : List Nat} {i j : Nat} (hi : i ∉ ks) (hj : j ∉ ks) (h : remaining ks i = remaining ks j) : i = j := by
  rcases Nat.lt_trichotomy i j with hl | hl | hl
  · have h1 := remaining_mono ks (show i + 1 ≤ j from hl)
    rw [remaining_succ, if_neg hi] at h1
    omega
  · exact hl
  · have h1 := remaining_mono ks (show j + 1 ≤ i from hl)
    rw [remaining_succ, if_neg hj] at h1
    omega

theorem dropAxes_dropAxes {β : Type} {ks ms : List Nat} (hd : ∀ m ∈ ms, m ∉ ks) (l : List β) :
    dropAxes (ms.map (remaining ks)) (dropAxes ks l) = dropAxes (ks ++ ms) l := by
  have key : ∀ (l : List β) (j : Nat),
      (((((l.zipIdx j).filter fun p => p.2 ∉ ks).map (·.1)).zipIdx (remaining ks j)).filter
        fun p => p.2 ∉ ms.map (remaining ks)).map (·.1) =
      ((l.zipIdx j).filter fun p => p.2 ∉ ks ++ ms).map (·.1) := by
    intro l
    induction l with
    | nil => intro j; simp
    | cons x l ih =>
      intro j
      have e := ih (j + 1)
      rw [remaining_succ] at e
      by_cases h1 : j ∈ ks
      · simp only [h1, if_true, Nat.add_zero] at e
        simpa [List.zipIdx_cons, h1] using e
      · simp only [h1, if_false] at e
        by_cases h2 : j ∈ ms
        · have : ∃ a ∈ ms, remaining ks a = remaining ks j := ⟨j, h2, rfl⟩
          simpa [List.zipIdx_cons, h1, h2, this] using e
        · have : ¬ ∃ a ∈ ms, remaining ks a = remaining ks j := by
            rintro ⟨a, ha, hr⟩
            exact h2 (remaining_inj (hd a ha) h1 hr ▸ ha)
          have h3 : ∀ a ∈ ms, ¬ remaining ks a = remaining ks j := fun a ha hr => this ⟨a, ha, hr⟩
          have h4 : decide (∀ a ∈ ms, ¬ remaining ks a = remaining ks j) = true := by simpa using h3
          simpa [List.zipIdx_cons, h1, h2, List.filter_cons, h4] using e
  have := key l 0
  simpa [dropAxes, remaining] using this

theorem dropAxes_all {β : Type} {ks : List Nat} (l : List β) (h : ∀ k < l.length, k ∈ ks) : dropAxes ks l = [] := by
  unfold dropAxes
  rw [List.map_eq_nil_iff, List.filter_eq_nil_iff]
  rintro ⟨x, k⟩ hk
  have := (List.mem_zipIdx_iff_getElem?.1 hk)
  have hk' : k < l.length := (List.getElem?_eq_some_iff.1 this).1
  simpa using h k hk'

/-- the sum over a shape, cut in two along axis `k` -/
theorem split_sum [AddCommMonoid α] (f : List Nat → α) {s : List Nat} {k n c : Nat} (hn : s[k]? = some n) (hc : c < n) :
    selectShape (selectAt s k (.keep 0 c)) s = s.set k c ∧ selectShape (selectAt s k (.keep c (n - c))) s = s.set k (n - c) ∧
    (elements (selectShape (selectAt s k (.keep 0 c)) s) fun J => f (selectIndex (selectAt s k (.keep 0 c)) J)).sum +
      (elements (selectShape (selectAt s k (.keep c (n - c))) s) fun J => f (selectIndex (selectAt s k (.keep c (n - c))) J)).sum =
      (elements s f).sum := by
  induction s generalizing k f with
  | nil => simp at hn
  | cons m s ih =>
    have hsum : ∀ (l : Nat) (t : List Nat) (g : List Nat → α), (elements (l :: t) g).sum =
        ((List.range l).map fun i => (elements t fun J => g (i :: J)).sum).sum := by
      intro l t g
      simp only [elements, indices]
      induction List.range l with
      | nil => simp
      | cons i L ih =>
        rw [List.flatMap_cons, List.map_append, List.sum_append, ih]
        simp [Function.comp_def]
    cases k with
    | zero =>
      simp only [List.getElem?_cons_zero, Option.some.injEq] at hn
      subst hn
      refine ⟨rfl, rfl, ?_⟩
      show (elements (c :: s) fun J => f (selectIndex [.keep 0 c] J)).sum +
        (elements ((m - c) :: s) fun J => f (selectIndex [.keep c (m - c)] J)).sum = _
      simp only [hsum, selectIndex, Nat.zero_add]
      conv_rhs => rw [show m = c + (m - c) by omega, List.range_add, List.map_append, List.sum_append, List.map_map]
      rfl
    | succ k =>
      rw [List.getElem?_cons_succ] at hn
      have e : ∀ x, selectAt (m :: s) (k + 1) x = .keep 0 m :: selectAt s k x := fun x => rfl
      obtain ⟨h1, h2, -⟩ := ih f hn
      refine ⟨by rw [e]; simp [selectShape, h1], by rw [e]; simp [selectShape, h2], ?_⟩
      rw [e, e]
      simp only [selectShape, selectIndex, hsum, Nat.zero_add]
      rw [← List.sum_map_add]
      congr 1
      apply List.map_congr_left
      intro i _
      exact (ih (fun J => f (i :: J)) hn).2.2

section
variable [CommSemiring α] [BEq α] [LawfulBEq α]

/-- **C67.** The order in which the axes are listed does not matter (any layout, also extents 0). -/
theorem C67_axis_order {a : Arr α} {s : List Nat} {f : List Nat → α} (ha : a.Denotes s f) (hd : s.length ≤ 32)
    {axes axes' : List Int} {ks ks' : List Nat} (hax : AxesAre axes s.length ks) (hax' : AxesAre axes' s.length ks')
    (hks : ks.Nodup) (hp : ks.Perm ks') : SameArray (a.sumAlong axes) (a.sumAlong axes') := by
  obtain ⟨r, e, h⟩ := C10_sum_along ha hd hax hks
  obtain ⟨r', e', h'⟩ := C10_sum_along ha hd hax' (hp.nodup_iff.1 hks)
  have hdr : ∀ l : List Nat, dropAxes ks l = dropAxes ks' l := dropAxes_congr fun k => hp.mem_iff
  rw [← hdr] at h'
  refine same_of_denotes e h e' h' (Nat.le_trans (dropAxes_sublist ks s).length_le hd) fun J _ => ?_
  simp only [fibre, hdr]

/-- **C67.** Summing along some axes and then along others (whose numbers are now their positions among the remaining
axes) is summing along all of them (any layout, also extents 0). -/
theorem C67_one_by_one {a : Arr α} {s : List Nat} {f : List Nat → α} (ha : a.Denotes s f) (hd : s.length ≤ 32)
    {axes axes' axes'' : List Int} {ks ms : List Nat} (hax : AxesAre axes s.length ks)
    (hax' : AxesAre axes' (dropAxes ks s).length (ms.map (remaining ks))) (hax'' : AxesAre axes'' s.length (ks ++ ms))
    (hn : (ks ++ ms).Nodup) :
    SameArray (a.sumAlong axes >>= fun b => b.sumAlong axes') (a.sumAlong axes'') := by
  have hnk := (List.nodup_append.1 hn).1
  have hdis : ∀ m ∈ ms, m ∉ ks := fun m hm hk => (List.nodup_append.1 hn).2.2 m hk m hm rfl
  have hnm : (ms.map (remaining ks)).Nodup := (List.nodup_append.1 hn).2.1.map_on
    fun x hx y hy h => remaining_inj (hdis x hx) (hdis y hy) h
  have hd' : (dropAxes ks s).length ≤ 32 := Nat.le_trans (dropAxes_sublist ks s).length_le hd
  obtain ⟨b, e1, h1⟩ := C10_sum_along ha hd hax hnk
  obtain ⟨r, e2, h2⟩ := C10_sum_along h1 hd' hax' hnm
  obtain ⟨r', e3, h3⟩ := C10_sum_along ha hd hax'' hn
  rw [dropAxes_dropAxes hdis] at h2
  refine same_of_denotes (by rw [e1]; exact e2) h2 e3 h3 (Nat.le_trans (dropAxes_sublist _ s).length_le hd) fun J _ => ?_
  simp only [fibre]
  rw [sum_fibres fun x hx => mem_indices.2 (InB_dropAxes (mem_indices.1 hx))]
  · congr 2
    apply List.filter_congr
    intro x _
    rw [dropAxes_dropAxes hdis]
  · exact indices_nodup _

omit [BEq α] [LawfulBEq α] in
theorem sum_of_history {o a : Arr α} (ho : Fresh o) (hh : History NoBroadcast o a) {s : List Nat} {f : List Nat → α}
    (ha : a.Denotes s f) (hd : s.length ≤ 32) : ∃ r, a.sum = .ok r ∧ r.Denotes [] (fun _ => (elements s f).sum) := by
  have := reducible_history ho hh
  rw [ha.1] at this
  exact C09_sum_partial ha hd this

/-- **C67.** `sum_along` over all axes, in any order, equals `sum`, for every view that was never broadcast (and in
general for every layout `sum` is right on). Missing (and false, see `C67_broadcast_false`): broadcast views. -/
theorem C67_all_axes_partial {o a : Arr α} (ho : Fresh o) (hh : History NoBroadcast o a) {s : List Nat} {f : List Nat → α}
    (ha : a.Denotes s f) (hd : s.length ≤ 32) {axes : List Int} {ks : List Nat} (hax : AxesAre axes s.length ks)
    (hp : ks.Perm (List.range s.length)) : SameArray (a.sumAlong axes) a.sum := by
  obtain ⟨r, e, h⟩ := C10_sum_along ha hd hax (hp.nodup_iff.2 List.nodup_range)
  obtain ⟨r', e', h'⟩ := sum_of_history ho hh ha hd
  have hall : ∀ l : List Nat, l.length = s.length → dropAxes ks l = [] := fun l hl =>
    dropAxes_all l fun k hk => hp.mem_iff.2 (by rw [List.mem_range]; omega)
  rw [hall s rfl] at h
  refine same_of_denotes e h e' h' (by simp) fun J hJ => ?_
  match J, hJ with
  | [], _ =>
    unfold fibre elements
    rw [List.filter_eq_self.2]
    intro x hx
    simpa using hall x (mem_indices.1 hx).length

/-- **C67.** Transposing first does not change the sum. -/
theorem C67_transpose_partial {o a : Arr α} (ho : Fresh o) (hh : History NoBroadcast o a) {s : List Nat} {f : List Nat → α}
    (ha : a.Denotes s f) (hd : s.length ≤ 32) {ax1 ax2 : Int} {i j : Nat} (h1 : AxisIs ax1 s.length i)
    (h2 : AxisIs ax2 s.length j) : SameArray (a.transpose ax1 ax2 >>= fun t => t.sum) a.sum := by
  obtain ⟨⟨t, e1, _, d1⟩, _⟩ := C14_transpose ha h1 h2
  obtain ⟨r, e2, d2⟩ := sum_of_history ho (hh.step (.transpose ax1 ax2) rfl trivial e1) d1 (by rw [length_exchange]; exact hd)
  obtain ⟨r', e3, d3⟩ := sum_of_history ho hh ha hd
  refine same_of_denotes (by rw [e1]; exact e2) d2 e3 d3 (by simp) fun _ _ => ?_
  unfold elements
  rw [show ((indices (exchange i j s)).map fun idx => f (exchange i j idx)) = ((indices (exchange i j s)).map (exchange i j)).map f by
    simp [Function.comp_def]]
  refine List.Perm.sum_eq (List.Perm.map f ?_)
  have hx : ∀ x : List Nat, x.length = s.length → exchange i j (exchange i j x) = x := fun x hl =>
    exchange_exchange i j x (by rw [hl]; exact h1.1) (by rw [hl]; exact h2.1)
  rw [List.perm_ext_iff_of_nodup _ (indices_nodup _)]
  · intro x
    simp only [List.mem_map, mem_indices]
    constructor
    · rintro ⟨y, hy, rfl⟩
      exact InB_exchange h1.1 h2.1 hy
    · intro hx'
      refine ⟨exchange i j x, ?_, hx x hx'.length⟩
      have := InB_exchange (s := exchange i j s) (idx := x) (i := i) (j := j) (by rw [length_exchange]; exact h1.1)
        (by rw [length_exchange]; exact h2.1) (by rwa [hx s rfl])
      exact this
  · refine List.Nodup.map_on ?_ (indices_nodup _)
    intro x hx' y hy h
    rw [mem_indices] at hx' hy
    have := congrArg (exchange i j) h
    rwa [hx x (by rw [hx'.length, length_exchange]), hx y (by rw [hy.length, length_exchange])] at this

omit [BEq α] [LawfulBEq α] in
theorem plus_fresh {a b : Arr α} {s : List Nat} {f g : List Nat → α} (ha : a.Denotes s f) (hb : b.Denotes s g) (hd : s.length ≤ 32) :
    a.plus b = .ok (Arr.fromContiguousOwnedBuffer s (elements s fun idx => f idx + g idx)) := by
  unfold Arr.plus
  rw [binOp_eq (portable_correct _) 0 ha hb (broadcastsTo_self s).compatible (broadcastsTo_self s).joint hd trivial,
    mapM_id_elements (h := fun idx => f idx + g idx) fun idx hi => by rw [broadcastIndex_same hi]]
  rfl

/-- **C67.** `sum(a + b) = sum(a) + sum(b)`. -/
theorem C67_add_partial {o a o' b : Arr α} (ho : Fresh o) (hh : History NoBroadcast o a) (ho' : Fresh o')
    (hh' : History NoBroadcast o' b) {s : List Nat} {f g : List Nat → α} (ha : a.Denotes s f) (hb : b.Denotes s g)
    (hd : s.length ≤ 32) :
    SameArray (a.plus b >>= fun c => c.sum) (a.sum >>= fun x => b.sum >>= fun y => x.plus y) := by
  have e1 := plus_fresh ha hb hd
  have hf : Fresh (Arr.fromContiguousOwnedBuffer s (elements s fun idx => f idx + g idx)) := ⟨s, _, length_elements _ _, rfl⟩
  obtain ⟨r, e2, d2⟩ := sum_of_history hf .refl denotes_fromContiguous hd
  obtain ⟨x, e3, d3⟩ := sum_of_history ho hh ha hd
  obtain ⟨y, e4, d4⟩ := sum_of_history ho' hh' hb hd
  have e5 := plus_fresh d3 d4 (by simp)
  refine same_of_denotes (by rw [e1]; exact e2) d2 (by rw [e3, ok_bind, e4]; exact e5) denotes_fromContiguous (by simp) fun _ _ => ?_
  simp [elements, List.sum_map_add]

/-- **C67.** `sum(a * c) = sum(a) * c` for a scalar `c`. -/
theorem C67_scale_partial {o a : Arr α} (ho : Fresh o) (hh : History NoBroadcast o a) {s : List Nat} {f : List Nat → α}
    (ha : a.Denotes s f) (hd : s.length ≤ 32) (c : α) :
    SameArray (a.binOpScalar (fun x y => .ok (x * y)) (portableKernels fun x y => .ok (x * y)) 0 c >>= fun b => b.sum)
      (a.sum >>= fun x => x.binOpScalar (fun x y => .ok (x * y)) (portableKernels fun x y => .ok (x * y)) 0 c) := by
  have key : ∀ {b : Arr α} {t : List Nat} {g : List Nat → α}, b.Denotes t g → t.length ≤ 32 →
      b.binOpScalar (fun x y => .ok (x * y)) (portableKernels fun x y => .ok (x * y)) 0 c =
        .ok (Arr.fromContiguousOwnedBuffer t (elements t fun idx => g idx * c)) := by
    intro b t g hb ht
    rw [binOpScalar_eq (portable_correct _) 0 hb c ht trivial, mapM_id_elements (h := fun idx => g idx * c) fun _ _ => rfl]
    rfl
  have e1 := key ha hd
  have hf : Fresh (Arr.fromContiguousOwnedBuffer s (elements s fun idx => f idx * c)) := ⟨s, _, length_elements _ _, rfl⟩
  obtain ⟨r, e2, d2⟩ := sum_of_history hf .refl denotes_fromContiguous hd
  obtain ⟨x, e3, d3⟩ := sum_of_history ho hh ha hd
  have e4 := key d3 (by simp)
  refine same_of_denotes (by rw [e1]; exact e2) d2 (by rw [e3]; exact e4) denotes_fromContiguous (by simp) fun _ _ => ?_
  simp only [elements]
  rw [List.sum_map_mul_right]

/-- **C67.** Cutting an axis in two at `c`: the sums of the two slices add up to the sum. -/
theorem C67_split_partial {o a : Arr α} (ho : Fresh o) (hh : History NoBroadcast o a) {s : List Nat} {f : List Nat → α}
    (ha : a.Denotes s f) (hd : s.length ≤ 32) (h0 : 0 ∉ s) {axis : Int} {k n c : Nat} (hk : AxisIs axis s.length k)
    (hn : s[k]? = some n) (hc : 0 < c) (hcn : c < n) :
    SameArray (a.sliceAlong axis (.rangeTo c) >>= fun u => a.sliceAlong axis (.rangeFrom c) >>= fun v =>
      u.sum >>= fun x => v.sum >>= fun y => x.plus y) a.sum := by
  have hr1 : (Indexer.rangeTo c).InRange n := ⟨trivial, by show 0 + c ≤ n; omega⟩
  have hr2 : (Indexer.rangeFrom c).InRange n := ⟨by show c ≤ n; omega, by show c + (n - c) ≤ n; omega⟩
  obtain ⟨hs1, hs2, hsum⟩ := split_sum f hn hcn
  have hne : ∀ m, 0 < m → numel (s.set k m) ≠ 0 := by
    intro m hm h
    rw [numel_eq_zero] at h
    rcases List.mem_or_eq_of_mem_set h with h | h
    · exact h0 h
    · omega
  obtain ⟨u, e1, b1, d1⟩ := C16_sliceAlong_partial ha hk hn hr1 (by rw [show Indexer.sel (.rangeTo c) n = .keep 0 c from rfl, hs1]; exact hne c hc)
  obtain ⟨v, e2, b2, d2⟩ := C16_sliceAlong_partial ha hk hn hr2
    (by rw [show Indexer.sel (.rangeFrom c) n = .keep c (n - c) from rfl, hs2]; exact hne _ (by omega))
  have hin : ∀ ix : Indexer, ix.InRange n → (ViewOp.sliceAlong axis ix).InRange a := by
    intro ix hix k' n' hk' hn'
    rw [show a.ndims = s.length by rw [Arr.ndims, ha.1]] at hk'
    rw [ha.1] at hn'
    have : k' = k := by have h1 := hk'.1; have h2 := hk.1; rcases hk'.2 with h | h <;> rcases hk.2 with h' | h' <;> omega
    subst this
    rw [hn] at hn'
    cases hn'
    exact hix
  rw [show Indexer.sel (.rangeTo c) n = .keep 0 c from rfl] at d1
  rw [show Indexer.sel (.rangeFrom c) n = .keep c (n - c) from rfl] at d2
  obtain ⟨x, e3, d3⟩ := sum_of_history ho (hh.step (.sliceAlong axis (.rangeTo c)) rfl (hin _ hr1) e1) d1 (by rw [hs1]; simpa using hd)
  obtain ⟨y, e4, d4⟩ := sum_of_history ho (hh.step (.sliceAlong axis (.rangeFrom c)) rfl (hin _ hr2) e2) d2 (by rw [hs2]; simpa using hd)
  have e5 := plus_fresh d3 d4 (by simp)
  obtain ⟨r, e6, d6⟩ := sum_of_history ho hh ha hd
  refine same_of_denotes (by rw [e1, ok_bind, e2, ok_bind, e3, ok_bind, e4]; exact e5) denotes_fromContiguous e6 d6 (by simp) fun _ _ => ?_
  exact hsum

end

/-- **C67** fails for broadcast views: `[1, 2]` broadcast to `[3, 2]` sums to 9 along both axes, while `sum` reads past
the end of the two-element buffer; the first half of `[1, 2, 3, 4]` broadcast to `[2, 2]` sums to 6, but `sum` is 10. -/
theorem C67_broadcast_false : (∃ a : Arr Nat, (Arr.fromContiguousOwnedBuffer [2] [1, 2]).broadcastTo [3, 2] = .ok a ∧
      (∃ r, a.sumAlong [0, 1] = .ok r ∧ r.value = .ok 9) ∧ a.sum = .error .oob) ∧
    ∃ v a r r' : Arr Nat, (Arr.fromContiguousOwnedBuffer [4] [1, 2, 3, 4]).slice [.range 0 2] = .ok v ∧ v.broadcastTo [2, 2] = .ok a ∧
      a.sumAlong [0, 1] = .ok r ∧ a.sum = .ok r' ∧ r.eq r' = .ok false :=
  ⟨⟨_, rfl, ⟨_, rfl, rfl⟩, rfl⟩, ⟨_, _, _, _, rfl, rfl, rfl, rfl, rfl⟩⟩

/-! ### the hypotheses are satisfiable -/

/-- a 2x3x2 array with two axes exchanged -/
def cubeO : Arr Int := Arr.fromContiguousOwnedBuffer [2, 3, 2] [1, 2, 3, 4, 5, 6, 7, 8, 9, 10, 11, 12]
def cube : Arr Int := (cubeO.transpose 0 1).toOption.getD cubeO
theorem cubeO_fresh : Fresh cubeO := ⟨_, _, rfl, rfl⟩
theorem cube_history : History NoBroadcast cubeO cube := .step (.transpose 0 1) .refl rfl trivial rfl
theorem cube_denotes : cube.Denotes [3, 2, 2] (fun idx => cube.buf.getD (cube.off + offset idx cube.stride) 0) :=
  denotes_reads 0 rfl (by decide)

example : SameArray (cube.sumAlong [-1, 0]) (cube.sumAlong [0, 2]) :=
  C67_axis_order (axes := [-1, 0]) (axes' := [0, 2]) (ks := [2, 0]) (ks' := [0, 2]) cube_denotes (by decide)
    ⟨by decide, by decide, trivial⟩ ⟨by decide, by decide, trivial⟩ (by decide) (by decide)
/-- axis 2 is axis 1 (the last) once axis 0 is gone -/
example : SameArray (cube.sumAlong [0] >>= fun b => b.sumAlong [-1]) (cube.sumAlong [0, 2]) :=
  C67_one_by_one (axes := [0]) (axes' := [-1]) (axes'' := [0, 2]) (ks := [0]) (ms := [2]) cube_denotes (by decide)
    ⟨by decide, trivial⟩ ⟨by decide, trivial⟩ ⟨by decide, by decide, trivial⟩ (by decide)
example : SameArray (cube.sumAlong [1, 0, -1]) cube.sum :=
  C67_all_axes_partial (axes := [1, 0, -1]) (ks := [1, 0, 2]) cubeO_fresh cube_history cube_denotes (by decide)
    ⟨by decide, by decide, by decide, trivial⟩ (by decide)
example : SameArray (cube.transpose 0 (-1) >>= fun t => t.sum) cube.sum :=
  C67_transpose_partial (i := 0) (j := 2) cubeO_fresh cube_history cube_denotes (by decide) (by decide) (by decide)
example : SameArray (cube.plus cube >>= fun c => c.sum) (cube.sum >>= fun x => cube.sum >>= fun y => x.plus y) :=
  C67_add_partial cubeO_fresh cube_history cubeO_fresh cube_history cube_denotes cube_denotes (by decide)
example : SameArray (cube.binOpScalar (fun x y => .ok (x * y)) (portableKernels fun x y => .ok (x * y)) 0 7 >>= fun b => b.sum)
    (cube.sum >>= fun x => x.binOpScalar (fun x y => .ok (x * y)) (portableKernels fun x y => .ok (x * y)) 0 7) :=
  C67_scale_partial cubeO_fresh cube_history cube_denotes (by decide) 7
example : SameArray (cube.sliceAlong 0 (.rangeTo 1) >>= fun u => cube.sliceAlong 0 (.rangeFrom 1) >>= fun v =>
    u.sum >>= fun x => v.sum >>= fun y => x.plus y) cube.sum :=
  C67_split_partial (k := 0) (n := 3) cubeO_fresh cube_history cube_denotes (by decide) (by decide) (by decide) rfl (by decide) (by decide)
example : ∃ r, cube.sum = .ok r ∧ r.value = .ok 78 := ⟨_, rfl, rfl⟩

end Verif
