import Verif.Lemmas.Simd
import Verif.Lemmas.History

set_option linter.unusedSimpArgs false

/-!
# Empty operands of the vector kernels

The kernels for a constant operand read it even if there is nothing to compute. They are chosen only if all strides of the
operand are 0, and an empty array that was not broadcast has an axis of extent 0 with a positive stride.
-/

namespace Verif

variable {α : Type}

/-- Some axis of extent 0 has a positive stride. -/
def ZeroMoves (s st : List Nat) : Prop := ∃ d, (0, d) ∈ s.zip st ∧ d ≠ 0

/-! ### which arrays have such an axis -/

theorem zeroMoves_strideFromShape {s : List Nat} (h : numel s = 0) (e : Nat) (he : e ≠ 0) :
    ZeroMoves s ((strideFromShape s).map (· * e)) := by
  induction s with
  | nil => simp at h
  | cons n s ih =>
    rw [strideFromShape_cons, List.map_cons]
    by_cases h2 : numel s = 0
    · obtain ⟨d, h3, h4⟩ := ih h2
      exact ⟨d, by rw [List.zip_cons_cons]; exact List.mem_cons_of_mem _ h3, h4⟩
    · have hn : n = 0 := by
        rw [numel_cons] at h
        rcases Nat.mul_eq_zero.1 h with h | h
        · exact h
        · exact absurd h h2
      subst hn
      exact ⟨numel s * e, by simp, Nat.mul_ne_zero h2 he⟩

theorem ZeroMoves.getElem? {s st : List Nat} (h : ZeroMoves s st) :
    ∃ k d : Nat, s[k]? = some 0 ∧ st[k]? = some d ∧ d ≠ 0 := by
  obtain ⟨d, h1, h2⟩ := h
  obtain ⟨k, hk⟩ := List.mem_iff_getElem?.1 h1
  rw [List.getElem?_zip_eq_some] at hk
  exact ⟨k, d, hk.1, hk.2, h2⟩

theorem zeroMoves_of_getElem? {s st : List Nat} {k d : Nat} (h1 : s[k]? = some 0) (h2 : st[k]? = some d) (h3 : d ≠ 0) :
    ZeroMoves s st := ⟨d, List.mem_iff_getElem?.2 ⟨k, List.getElem?_zip_eq_some.2 ⟨h1, h2⟩⟩, h3⟩

theorem ZeroMoves.dropTwo {i j k m d : Nat} {s st : List Nat} (h1 : s[m]? = some 0) (h2 : st[m]? = some d) (h3 : d ≠ 0)
    (hi : m + k ≠ i) (hj : m + k ≠ j) : ZeroMoves (dropTwo i j k s) (dropTwo i j k st) := by
  induction s generalizing st k m with
  | nil => simp at h1
  | cons n s ih => cases st with
    | nil => simp at h2
    | cons c st => cases m with
      | zero =>
        simp only [List.getElem?_cons_zero, Option.some.injEq] at h1 h2
        subst h1; subst h2
        simp only [Verif.dropTwo, if_neg (show ¬ (k = i ∨ k = j) by omega)]
        exact ⟨c, by simp, h3⟩
      | succ m =>
        simp only [List.getElem?_cons_succ] at h1 h2
        obtain ⟨e, g1, g2⟩ := ih h1 h2 (k := k + 1) (by omega) (by omega)
        simp only [Verif.dropTwo]
        split
        · exact ⟨e, g1, g2⟩
        · exact ⟨e, by rw [List.zip_cons_cons]; exact List.mem_cons_of_mem _ g1, g2⟩

/-- A diagonal of a non-empty array is not empty. -/
theorem numel_diagonal {a r : Arr α} {o ax1 ax2 : Int} (h : a.offsetDiagonalAlong o ax1 ax2 = .ok r)
    (h0 : numel a.shape ≠ 0) : numel r.shape ≠ 0 := by
  rw [numel_ne_zero] at h0 ⊢
  unfold Arr.offsetDiagonalAlong at h
  obtain ⟨_, _, h⟩ := bind_eq_ok.1 h
  obtain ⟨i, hi, h⟩ := bind_eq_ok.1 h
  obtain ⟨j, hj, h⟩ := bind_eq_ok.1 h
  obtain ⟨_, hij, h⟩ := bind_eq_ok.1 h
  split at h
  · rename_i n1 n2 d1 d2 e1 e2 e3 e4
    have p1 := h0 n1 (List.mem_of_getElem? e1)
    have p2 := h0 n2 (List.mem_of_getElem? e2)
    split at h <;> simp only at h <;> split at h
    · cases h
    · cases h
      intro n hn
      simp only [Arr.reshapedViewWithOffset, List.mem_append, List.mem_singleton] at hn
      rcases hn with hn | rfl
      · exact h0 n (mem_dropTwo hn)
      · omega
    · cases h
    · cases h
      intro n hn
      simp only [Arr.reshapedViewWithOffset, List.mem_append, List.mem_singleton] at hn
      rcases hn with hn | rfl
      · exact h0 n (mem_dropTwo hn)
      · omega
  · cases h

theorem zeroMoves_diagonal {a r : Arr α} {o ax1 ax2 : Int} (hl : a.stride.length = a.shape.length)
    (h : a.offsetDiagonalAlong o ax1 ax2 = .ok r) (ha : ZeroMoves a.shape a.stride) : ZeroMoves r.shape r.stride := by
  obtain ⟨i, j, o1, o2, len, n1, n2, d1, d2, hij, e1, e2, e3, e4, h1, h2, rfl⟩ := diagonal_inv hl h
  obtain ⟨k, d, g1, g2, g3⟩ := ha.getElem?
  simp only [Arr.reshapedViewWithOffset]
  have hlen : (Verif.dropTwo i j 0 a.shape).length = (Verif.dropTwo i j 0 a.stride).length := by
    rw [length_dropTwo_eq hl]
  rw [ZeroMoves, List.zip_append hlen]
  have last : len = 0 → d1 + d2 ≠ 0 → ∃ e, (0, e) ∈
      (Verif.dropTwo i j 0 a.shape).zip (Verif.dropTwo i j 0 a.stride) ++ [len].zip [d1 + d2] ∧ e ≠ 0 := by
    rintro rfl hne
    exact ⟨d1 + d2, by simp, hne⟩
  by_cases hi : k = i
  · subst hi
    rw [e1] at g1; cases g1
    rw [e3] at g2; cases g2
    exact last (by omega) (by omega)
  · by_cases hj : k = j
    · subst hj
      rw [e2] at g1; cases g1
      rw [e4] at g2; cases g2
      exact last (by omega) (by omega)
    · obtain ⟨e, q1, q2⟩ := ZeroMoves.dropTwo g1 g2 g3 (k := 0) hi hj
      exact ⟨e, List.mem_append_left _ q1, q2⟩

theorem zeroMoves_sqz {s st : List Nat} (h : ZeroMoves s st) : ZeroMoves (sqz s st).1 (sqz s st).2 := by
  obtain ⟨d, h1, h2⟩ := h
  refine ⟨d, ?_, h2⟩
  unfold sqz
  rw [List.zip_unzip]
  exact List.mem_filter.2 ⟨h1, rfl⟩

theorem zip_insertIdx {s st : List Nat} {k n d : Nat} (hl : s.length = st.length) :
    (s.insertIdx k n).zip (st.insertIdx k d) = (s.zip st).insertIdx k (n, d) := by
  induction s generalizing st k with
  | nil => cases st with
    | nil => cases k <;> simp
    | cons => simp at hl
  | cons a s ih => cases st with
    | nil => simp at hl
    | cons b st => cases k with
      | zero => simp
      | succ k => simp [ih (st := st) (k := k) (by simpa using hl)]

theorem zeroMoves_insertIdx {s st : List Nat} {k n d : Nat} (hl : s.length = st.length) (hk : k ≤ s.length)
    (h : ZeroMoves s st) : ZeroMoves (s.insertIdx k n) (st.insertIdx k d) := by
  obtain ⟨e, h1, h2⟩ := h
  refine ⟨e, ?_, h2⟩
  rw [zip_insertIdx hl]
  exact (List.mem_insertIdx (by simp; omega)).2 (.inr h1)

theorem zeroMoves_reshape {a : Arr α} (ha : a.WF) {ns : List Nat} {l : List Nat × List Nat}
    (h : a.reshapeLayout ns = .ok l) (hz : ZeroMoves a.shape a.stride) (h0 : numel l.1 = 0) : ZeroMoves l.1 l.2 := by
  have hl := ha.valid.1
  rcases reshapeLayout_ok h with ⟨_, rfl⟩ | ⟨hs, hu, hn, hne⟩
  · exact hz
  · obtain ⟨e, he⟩ := ha.flags.uniform hu
    have hne' : a.shape ≠ [] := by
      intro h0; rw [h0] at hl; exact hne (List.length_eq_zero_iff.1 hl)
    obtain ⟨st, e1, hr, e2, _⟩ := reshape_reindexes hl ha.pos.good he hu hn hne'
    rw [e1] at h; cases h
    obtain rfl := e2 hs
    refine zeroMoves_strideFromShape h0 e ?_
    rintro rfl
    obtain ⟨d, h1, h2⟩ := hz
    exact h2 (hasUniformStride_zero hl.symm he d (List.of_mem_zip h1).2)

theorem numel_reshapeLayout {a : Arr α} {ns : List Nat} {l : List Nat × List Nat} (h : a.reshapeLayout ns = .ok l) :
    numel l.1 = numel a.shape := by
  unfold Arr.reshapeLayout at h
  split at h
  · cases h; rfl
  · obtain ⟨_, _, h⟩ := bind_eq_ok.1 h
    by_cases hz : a.size ≠ numel ns
    · rw [if_pos hz] at h; cases h
    · rw [if_neg hz] at h
      split at h
      · cases h
      · cases h
        exact (not_ne_iff.1 hz).symm

theorem zeroMoves_transpose {a : Arr α} {ax1 ax2 : Int} {l : List Nat × List Nat} (hl : a.stride.length = a.shape.length)
    (h : a.transposeLayout ax1 ax2 = .ok l) (ha : numel a.shape = 0 → ZeroMoves a.shape a.stride) (h0 : numel l.1 = 0) :
    ZeroMoves l.1 l.2 := by
  obtain ⟨i, h1⟩ : ∃ i, AxisIs ax1 a.ndims i := by
    by_contra hc
    rw [not_exists] at hc
    rw [Arr.transposeLayout, asAbsolute_error hc] at h; cases h
  obtain ⟨j, h2⟩ : ∃ i, AxisIs ax2 a.ndims i := by
    by_contra hc
    rw [not_exists] at hc
    rw [Arr.transposeLayout, asAbsolute_ok h1, asAbsolute_error hc] at h; cases h
  obtain ⟨e, _⟩ := transpose_reindexes hl h1 h2
  rw [e] at h; cases h
  have hi : i < a.shape.length := h1.1
  have hj : j < a.shape.length := h2.1
  simp only [numel_exchange hi hj] at h0
  obtain ⟨d, q1, q2⟩ := ha h0
  refine ⟨d, ?_, q2⟩
  simp only
  rw [zip_exchange hl.symm hi hj]
  exact (mem_exchange (by simp; omega) (by simp; omega)).2 q1

theorem zeroMoves_unsqueeze {a : Arr α} {ax : Int} {l : List Nat × List Nat} (hl : a.stride.length = a.shape.length)
    (h : a.unsqueezeLayout ax = .ok l) (ha : numel a.shape = 0 → ZeroMoves a.shape a.stride) (h0 : numel l.1 = 0) :
    ZeroMoves l.1 l.2 := by
  obtain ⟨k, hk⟩ : ∃ i, AxisIs ax (a.ndims + 1) i := by
    by_contra hc
    rw [not_exists] at hc
    rw [Arr.unsqueezeLayout, asAbsolute_error hc] at h; cases h
  obtain ⟨d, e, hr⟩ := unsqueeze_reindexes hl hk
  have hk' : k ≤ a.shape.length := by have := hk.1; unfold Arr.ndims at this; omega
  rw [e] at h; cases h
  simp only [numel_insertIdx_one hk'] at h0
  exact zeroMoves_insertIdx hl.symm hk' (ha h0)

/-- An empty array reached without `broadcast_to` has an axis of extent 0 with a positive stride. -/
theorem zeroMoves_history {o a : Arr α} (ho : Fresh o) (hh : History NoBroadcast o a) (h0 : numel a.shape = 0) :
    ZeroMoves a.shape a.stride := by
  induction hh with
  | refl =>
    obtain ⟨s, data, hl, rfl⟩ := ho
    have := zeroMoves_strideFromShape (s := s) h0 1 (by simp)
    simpa [Arr.fromContiguousOwnedBuffer] using this
  | @step b c op hb hop hin hrun ih =>
    have hw := wf_history ho.wf hb
    have hl := hw.valid.1
    cases op with
    | view => cases hrun; exact ih h0
    | intoView => cases hrun; exact ih h0
    | squeeze =>
      cases hrun
      have hn : numel b.squeezeLayout.1 = numel b.shape := by rw [(squeeze_reindexes hl).1, numel_filter_one]
      exact zeroMoves_sqz (ih (hn ▸ h0))
    | intoSqueeze =>
      cases hrun
      have hn : numel b.squeezeLayout.1 = numel b.shape := by rw [(squeeze_reindexes hl).1, numel_filter_one]
      exact zeroMoves_sqz (ih (hn ▸ h0))
    | reshape s =>
      obtain ⟨l, h1, h2⟩ := bind_eq_ok.1 hrun; cases h2
      exact zeroMoves_reshape hw h1 (ih (numel_reshapeLayout h1 ▸ h0)) h0
    | intoReshape s =>
      obtain ⟨l, h1, h2⟩ := bind_eq_ok.1 hrun; cases h2
      exact zeroMoves_reshape hw h1 (ih (numel_reshapeLayout h1 ▸ h0)) h0
    | unsqueeze ax => obtain ⟨l, h1, h2⟩ := bind_eq_ok.1 hrun; cases h2; exact zeroMoves_unsqueeze hl h1 ih h0
    | intoUnsqueeze ax => obtain ⟨l, h1, h2⟩ := bind_eq_ok.1 hrun; cases h2; exact zeroMoves_unsqueeze hl h1 ih h0
    | transpose x y => obtain ⟨l, h1, h2⟩ := bind_eq_ok.1 hrun; cases h2; exact zeroMoves_transpose hl h1 ih h0
    | intoTranspose x y => obtain ⟨l, h1, h2⟩ := bind_eq_ok.1 hrun; cases h2; exact zeroMoves_transpose hl h1 ih h0
    | slice ixs =>
      have hin' : IndexersInRange ixs b.shape := hin
      simp only [ViewOp.run] at hrun
      rw [slice_ok hl hin'] at hrun
      exact absurd h0 (sliceResult_inv hl hin'.fits hrun).1
    | sliceAlong ax ix =>
      obtain ⟨xs, hf, h⟩ := sliceAlong_inv hl hin hrun
      exact absurd h0 (sliceResult_inv hl hf h).1
    | broadcastTo s => cases hop
    | diagonal q x y =>
      by_cases hb0 : numel b.shape = 0
      · exact zeroMoves_diagonal hl hrun (ih hb0)
      · exact absurd h0 (numel_diagonal hrun hb0)

/-! ### when the kernels for constants are chosen -/

theorem collapseAux_zero {cn cd n : Nat} {s st : List Nat} (hl : s.length = st.length)
    (h : collapseAux cn cd s st = ([n], [0])) : cd = 0 ∧ ∀ d ∈ st, d = 0 := by
  induction s generalizing cn cd st with
  | nil => cases st with
    | cons => simp at hl
    | nil => simp only [collapseAux, Prod.mk.injEq, List.cons.injEq, and_true] at h; simp [h.2]
  | cons m s ih => cases st with
    | nil => simp at hl
    | cons e st =>
      simp only [collapseAux] at h
      split at h
      · rename_i hc
        obtain ⟨h1, h2⟩ := ih (by simpa using hl) h
        subst h1
        refine ⟨?_, ?_⟩
        · rcases hc with hc | hc
          · simpa using hc
          · exact hc.1
        · intro d hd
          rcases List.mem_cons.1 hd with rfl | hd
          · rfl
          · exact h2 d hd
      · exfalso
        simp only [Prod.mk.injEq, List.cons.injEq] at h
        have := (length_collapseAux m e s st).1
        have hne : (collapseAux m e s st).1 ≠ [] := by
          have := (collapse_facts (s := m :: s) (st := e :: st) (by simpa using hl) (by simp)).2.1
          exact this
        exact hne h.1.2

theorem collapse_zero {n : Nat} {s st : List Nat} (hl : s.length = st.length)
    (h : collapseToUniformStride s st = ([n], [0])) : ∀ d ∈ st, d = 0 := by
  cases s with
  | nil => cases st <;> simp_all
  | cons m s => cases st with
    | nil => simp at hl
    | cons e st =>
      obtain ⟨h1, h2⟩ := collapseAux_zero (by simpa using hl) h
      intro d hd
      rcases List.mem_cons.1 hd with rfl | hd
      · exact h1
      · exact h2 d hd

/-- Broadcasting keeps a moving axis of extent 0. -/
theorem broadcastStrideLoop_moves {s t st r : List Nat} (h : broadcastStrideLoop st t s = .ok r) (hl : st.length = s.length)
    (ht : t.length = s.length) (hz : ZeroMoves s st) : ∃ d ∈ r, d ≠ 0 := by
  induction s generalizing t st r with
  | nil => obtain ⟨d, h1, _⟩ := hz; simp at h1
  | cons n s ih => cases st with
    | nil => simp at hl
    | cons e st => cases t with
      | nil => simp at ht
      | cons b t =>
        obtain ⟨d, h1, h2⟩ := hz
        rw [List.zip_cons_cons] at h1
        simp only [broadcastStrideLoop] at h
        have rest : (0, d) ∈ s.zip st → ∀ r', broadcastStrideLoop st t s = .ok r' → ∃ x ∈ r', x ≠ 0 :=
          fun hm r' hr => ih hr (by simpa using hl) (by simpa using ht) ⟨d, hm, h2⟩
        split at h
        · rename_i hn
          obtain ⟨r', g1, g2⟩ := bind_eq_ok.1 h
          cases g2
          rcases List.mem_cons.1 h1 with h1 | h1
          · cases h1; cases hn
          · obtain ⟨x, hx, hx0⟩ := rest h1 r' g1
            exact ⟨x, List.mem_cons_of_mem _ hx, hx0⟩
        · split at h
          · obtain ⟨r', g1, g2⟩ := bind_eq_ok.1 h
            cases g2
            rcases List.mem_cons.1 h1 with h1 | h1
            · cases h1; exact ⟨e, by simp, h2⟩
            · obtain ⟨x, hx, hx0⟩ := rest h1 r' g1
              exact ⟨x, List.mem_cons_of_mem _ hx, hx0⟩
          · cases h

theorem broadcastStride_moves {s t st r : List Nat} (h : broadcastStride st t s = .ok r) (hl : st.length = s.length)
    (hz : ZeroMoves s st) : ∃ d ∈ r, d ≠ 0 := by
  unfold broadcastStride at h
  by_cases hc : t.length < s.length
  · rw [if_pos hc] at h; cases h
  · rw [if_neg hc] at h
    obtain ⟨r', g1, g2⟩ := bind_eq_ok.1 h
    cases g2
    obtain ⟨d, h1, h2⟩ := broadcastStrideLoop_moves g1 hl (by simp; omega) hz
    exact ⟨d, List.mem_append_right _ h1, h2⟩

/-! ### the dispatch, when there is nothing to compute -/

theorem simdBin_zero (f : α → α → α) (L : Nat) (A B : Operand α) (lhs rhs dst : Ptr) (m : Mem α) :
    simdBin f L A B 0 lhs rhs dst m = .ok m := by
  unfold simdBin
  rw [dif_neg (by omega)]; rfl

/-- With an empty shape the vector kernels do what the portable loops do, if an operand all of whose strides are 0 is readable. -/
theorem binKernel_empty (f : α → α → α) (L : Nat) {shape lst rst : List Nat} (hl : shape.length = lst.length)
    (hr : shape.length = rst.length) (h0 : numel shape = 0) {m : Mem α} {lhs rhs : Ptr} (dst : Ptr)
    (hL : (∀ d ∈ lst, d = 0) → ∃ v, m.load lhs = .ok v) (hR : (∀ d ∈ rst, d = 0) → ∃ v, m.load rhs = .ok v) :
    binKernel (fun x y => .ok (f x y)) (simdKernels f L) lhs lst rhs rst dst shape m =
      binKernel (fun x y => .ok (f x y)) (portableKernels fun x y => .ok (f x y)) lhs lst rhs rst dst shape m := by
  unfold binKernel
  have he : shape ≠ [] := by rintro rfl; simp at h0
  have hlne : lst ≠ [] := by rintro rfl; exact he (List.length_eq_zero_iff.1 hl)
  rw [if_neg (by simp [hlne]), if_neg (by simp [hlne])]
  have zl := collapse_zero (n := 0) hl
  have zr := collapse_zero (n := 0) hr
  obtain ⟨l1, l2, l3, l4, l5, l6⟩ := collapse_facts hl he
  obtain ⟨r1, r2, r3, r4, r5, r6⟩ := collapse_facts hr he
  clear l5 r5
  simp only
  generalize collapseToUniformStride shape lst = l at *
  generalize collapseToUniformStride shape rst = r at *
  by_cases hLR : l.1.length = 1 ∧ r.1.length = 1
  · obtain ⟨n, d, rfl⟩ := uniform_facts l1 hLR.1
    obtain ⟨n', d', rfl⟩ := uniform_facts r1 hLR.2
    obtain rfl : n = 0 := by simpa [h0] using l6
    obtain rfl : n' = 0 := by simpa [h0] using r6
    simp only [innerOf, firstOf, List.getLast?_singleton, List.head?_cons, ok_bind, List.length_singleton, and_self, if_true,
      simdKernels, portableKernels, simdBin_zero, strideNN]
    by_cases c1 : d' = 0
    · subst c1
      obtain ⟨v, hv⟩ := hR (zr rfl)
      simp only [hv, ok_bind, if_true, ite_self]
    · rw [if_neg c1, if_neg c1]
      by_cases c2 : d = 0
      · subst c2
        obtain ⟨v, hv⟩ := hL (zl rfl)
        simp only [hv, ok_bind, if_true, ite_self]
      · rw [if_neg c2, if_neg c2]
  · simp only [if_neg hLR]

/-- `a op b` with an empty result. -/
theorem binOp_empty (f : α → α → α) (L : Nat) (dflt : α) {a b : Arr α} {r : List Nat}
    (hla : a.stride.length = a.shape.length) (hlb : b.stride.length = b.shape.length)
    (hj : IsJoint a.shape b.shape r) (hc : Compatible a.shape b.shape) (h0 : numel r = 0)
    (hA : a.off < a.buf.length ∨ ZeroMoves a.shape a.stride) (hB : b.off < b.buf.length ∨ ZeroMoves b.shape b.stride) :
    a.binOp (fun x y => .ok (f x y)) (simdKernels f L) dflt b =
      a.binOp (fun x y => .ok (f x y)) (portableKernels fun x y => .ok (f x y)) dflt b := by
  obtain ⟨r', h1, h2⟩ := (broadcastShapes_spec _ _).1 hc
  have : r' = r := h2.unique hj
  subst this
  obtain ⟨hba, hbb⟩ := hj.broadcastsTo hc
  obtain ⟨lst, e1, e2, e3⟩ := broadcastStride_ok hla hba
  obtain ⟨rst, g1, g2, g3⟩ := broadcastStride_ok hlb hbb
  unfold Arr.binOp
  rw [h1]
  simp only [ok_bind]
  rw [e1, g1]
  simp only [ok_bind]
  rw [binKernel_empty f L e2.symm g2.symm h0]
  · intro hz
    rcases hA with hA | hA
    · exact ⟨a.buf[a.off], Mem.load_ok (r := a.buf) (by rfl) (List.getElem?_eq_getElem hA)⟩
    · obtain ⟨d, q1, q2⟩ := broadcastStride_moves e1 hla hA
      exact absurd (hz d q1) q2
  · intro hz
    rcases hB with hB | hB
    · exact ⟨b.buf[b.off], Mem.load_ok (r := b.buf) (by rfl) (List.getElem?_eq_getElem hB)⟩
    · obtain ⟨d, q1, q2⟩ := broadcastStride_moves g1 hlb hB
      exact absurd (hz d q1) q2

theorem binScalarKernel_empty (f : α → α → α) (L : Nat) {shape st : List Nat} (hl : shape.length = st.length)
    (h0 : numel shape = 0) {m : Mem α} {lhs rhs : Ptr} (dst : Ptr) (hR : ∃ v, m.load rhs = .ok v) :
    binScalarKernel (fun x y => .ok (f x y)) (simdKernels f L) lhs shape st rhs dst m =
      binScalarKernel (fun x y => .ok (f x y)) (portableKernels fun x y => .ok (f x y)) lhs shape st rhs dst m := by
  unfold binScalarKernel
  have he : shape ≠ [] := by rintro rfl; simp at h0
  have hlne : st ≠ [] := by rintro rfl; exact he (List.length_eq_zero_iff.1 hl)
  rw [if_neg (by simp [hlne]), if_neg (by simp [hlne])]
  obtain ⟨l1, l2, l3, l4, l5, l6⟩ := collapse_facts hl he
  simp only
  generalize collapseToUniformStride shape st = l at *
  by_cases hL : l.1.length = 1
  · obtain ⟨n, d, rfl⟩ := uniform_facts l1 hL
    obtain rfl : n = 0 := by simpa [h0] using l6
    obtain ⟨v, hv⟩ := hR
    simp only [innerOf, firstOf, List.getLast?_singleton, List.head?_cons, ok_bind, List.length_singleton, if_true,
      simdKernels, portableKernels, simdBin_zero, strideNN, hv]
  · simp only [if_neg hL]

theorem simdNeg_zero (g : α → α) (L : Nat) (A : Operand α) (src dst : Ptr) (m : Mem α) :
    simdNeg g L A 0 src dst m = .ok m := by
  unfold simdNeg
  rw [dif_neg (by omega)]; rfl

theorem negKernel_empty (g : α → α) (L : Nat) {shape st : List Nat} (hl : shape.length = st.length)
    (h0 : numel shape = 0) {m : Mem α} (src dst : Ptr) :
    negKernel (fun x => .ok (g x)) (simdNegKernels g L) src shape st dst m =
      negKernel (fun x => .ok (g x)) (portableNeg fun x => .ok (g x)) src shape st dst m := by
  unfold negKernel
  have he : shape ≠ [] := by rintro rfl; simp at h0
  have hb : shape.isEmpty = false := by simpa using he
  simp only [hb, Bool.false_eq_true, if_false]
  obtain ⟨l1, l2, l3, l4, l5, l6⟩ := collapse_facts hl he
  generalize collapseToUniformStride shape st = l at *
  by_cases hL : l.1.length = 1
  · obtain ⟨n, d, rfl⟩ := uniform_facts l1 hL
    obtain rfl : n = 0 := by simpa [h0] using l6
    simp only [firstOf, List.head?_cons, ok_bind, List.length_singleton, if_true,
      simdNegKernels, portableNeg, simdNeg_zero, negStrideN, ite_self]
  · simp only [if_neg hL]

/-- The pointer of a reached array is readable, or some stride is positive. -/
theorem Reached.pointed {a : Arr α} (h : Reached a) : a.off < a.buf.length ∨ ZeroMoves a.shape a.stride := by
  obtain ⟨o, ho, hh⟩ := h
  by_cases h0 : numel a.shape = 0
  · exact .inr (zeroMoves_history ho hh h0)
  · left
    have := (wf_history ho.wf hh).valid.2 _ (InB_unrank (s := a.shape) (k := 0) (by omega))
    omega

/-- `a op= b` on an empty array. -/
theorem opAssign_empty (f : α → α → α) (L : Nat) {shared : Bool} {a b : Arr α} (hla : a.stride.length = a.shape.length)
    (hlb : b.stride.length = b.shape.length) (hbt : b.shape ≠ a.shape → BroadcastsTo b.shape a.shape)
    (h0 : numel a.shape = 0) (hA : Reached a)
    (hB : Reached b) (hbuf : shared = true → b.buf = a.buf) :
    a.opAssign (fun x y => .ok (f x y)) (simdKernels f L) shared b =
      a.opAssign (fun x y => .ok (f x y)) (portableKernels fun x y => .ok (f x y)) shared b := by
  have key : ∀ b' : Arr α, b'.buf = b.buf → b'.off = b.off → b'.stride.length = a.shape.length →
      (ZeroMoves b.shape b.stride → ∃ d ∈ b'.stride, d ≠ 0) →
      binKernel (fun x y => .ok (f x y)) (simdKernels f L) ⟨0, a.off⟩ a.stride ⟨if shared then 0 else 1, b'.off⟩ b'.stride
        ⟨0, a.off⟩ a.shape [a.buf, b'.buf] =
      binKernel (fun x y => .ok (f x y)) (portableKernels fun x y => .ok (f x y)) ⟨0, a.off⟩ a.stride
        ⟨if shared then 0 else 1, b'.off⟩ b'.stride ⟨0, a.off⟩ a.shape [a.buf, b'.buf] := by
    intro b' e1 e2 e3 e4
    refine binKernel_empty f L hla.symm e3.symm h0 _ (fun hz => ?_) (fun hz => ?_)
    · rcases hA.pointed with h | ⟨d, h1, h2⟩
      · exact ⟨a.buf[a.off], Mem.load_ok (r := a.buf) (by rfl) (List.getElem?_eq_getElem h)⟩
      · exact absurd (hz d (List.of_mem_zip h1).2) h2
    · rcases hB.pointed with h | h
      · refine ⟨b.buf[b.off], Mem.load_ok (r := b.buf) ?_ (by rw [e2]; exact List.getElem?_eq_getElem h)⟩
        cases shared
        · simp [e1]
        · simp [hbuf rfl]
      · obtain ⟨d, h1, h2⟩ := e4 h
        exact absurd (hz d h1) h2
  unfold Arr.opAssign
  congr 1
  funext _
  by_cases hs : b.shape = a.shape
  · simp only [if_pos hs, pure_res, ok_bind]
    rw [key b rfl rfl (by rw [hlb, hs]) (fun ⟨d, h1, h2⟩ => ⟨d, (List.of_mem_zip h1).2, h2⟩)]
  · simp only [if_neg hs]
    obtain ⟨st, e1, e2, e3⟩ := broadcastStride_ok hlb (hbt hs)
    cases hb : b.broadcastTo a.shape with
    | error e => rfl
    | ok b' =>
      simp only [ok_bind]
      obtain ⟨bs, g1, g2⟩ := bind_eq_ok.1 hb
      have : bs = a.shape := by
        unfold broadcastShape at g1
        split at g1
        · cases g1
        · split at g1
          · cases g1; rfl
          · cases g1
      subst this
      rw [e1] at g2
      simp only [ok_bind, pure_res, Except.ok.injEq] at g2
      have q1 : b'.buf = b.buf := by rw [← g2]; rfl
      have q2 : b'.off = b.off := by rw [← g2]; rfl
      have q3 : b'.stride = st := by rw [← g2]; rfl
      rw [key b' q1 q2 (by rw [q3]; exact e2) (fun h => by rw [q3]; exact broadcastStride_moves e1 hlb h)]

end Verif
