import Verif.Props.Views
import Verif.Lemmas.History

/-!
# C25 view histories stay inside the buffer, C26 flags tell the truth
-/

namespace Verif

variable {α : Type}

theorem demo_fresh : Fresh demo := ⟨[2, 3], [10, 11, 12, 13, 14, 15], rfl, rfl⟩

theorem demoT_history : History NoBroadcast demo demoT := .step (.transpose 0 1) .refl rfl trivial rfl

/-! ## C25 -/

/-- **C25** (part). Start from a fresh array, apply any finite sequence of view operations other than
`broadcast_to`, then any finite sequence of view operations other than `reshape` (slices in range): every
element of the result lies inside the original buffer.
Missing: a `reshape` after a `broadcast_to`; there the property is false, see `C25_false`. -/
theorem C25_in_buffer_partial {a b c : Arr α} (ha : Fresh a) (h1 : History NoBroadcast a b)
    (h2 : History NoReshape b c) : c.Valid :=
  valid_history (wf_history ha.wf h1).valid h2

example := C25_in_buffer_partial demo_fresh demoT_history (.step (.broadcastTo [5, 3, 2]) .refl rfl trivial rfl)

theorem history_buf {P : ViewOp → Prop} {a b : Arr α} (h : History P a b) : b.buf = a.buf := by
  induction h with
  | refl => rfl
  | @step b c op _ _ _ hrun ih =>
    rw [← ih]
    cases op with
    | view => cases hrun; rfl
    | intoView => cases hrun; rfl
    | squeeze => cases hrun; rfl
    | intoSqueeze => cases hrun; rfl
    | reshape s => obtain ⟨l, h1, h2⟩ := bind_eq_ok.1 hrun; cases h2; rfl
    | intoReshape s => obtain ⟨l, h1, h2⟩ := bind_eq_ok.1 hrun; cases h2; rfl
    | unsqueeze ax => obtain ⟨l, h1, h2⟩ := bind_eq_ok.1 hrun; cases h2; rfl
    | intoUnsqueeze ax => obtain ⟨l, h1, h2⟩ := bind_eq_ok.1 hrun; cases h2; rfl
    | transpose x y => obtain ⟨l, h1, h2⟩ := bind_eq_ok.1 hrun; cases h2; rfl
    | intoTranspose x y => obtain ⟨l, h1, h2⟩ := bind_eq_ok.1 hrun; cases h2; rfl
    | slice ixs =>
      obtain ⟨l, h1, h2⟩ := bind_eq_ok.1 hrun
      obtain ⟨n, h3, h4⟩ := bind_eq_ok.1 h2
      cases h4; rfl
    | sliceAlong ax ix =>
      have key : ∀ {s st o cc}, b.sliceResult s st o cc = .ok c → c.buf = b.buf := by
        intro s st o cc h2
        obtain ⟨n, h3, h4⟩ := bind_eq_ok.1 h2
        cases h4; rfl
      obtain ⟨l, h1, h2⟩ := bind_eq_ok.1 hrun
      split at h2
      · split at h2
        · exact key h2
        · obtain ⟨n, h3, h4⟩ := bind_eq_ok.1 h2
          exact key h4
      · cases h2
    | broadcastTo s =>
      obtain ⟨l, h1, h2⟩ := bind_eq_ok.1 hrun
      obtain ⟨l', h3, h4⟩ := bind_eq_ok.1 h2
      cases h4; rfl
    | diagonal o x y =>
      simp only [ViewOp.run] at hrun
      unfold Arr.offsetDiagonalAlong at hrun
      obtain ⟨_, _, h⟩ := bind_eq_ok.1 hrun
      obtain ⟨i, hi, h⟩ := bind_eq_ok.1 h
      obtain ⟨j, hj, h⟩ := bind_eq_ok.1 h
      obtain ⟨_, hij, h⟩ := bind_eq_ok.1 h
      split at h
      · simp only at h
        split at h
        · split at h
          · cases h
          · cases h; rfl
        · split at h
          · cases h
          · cases h; rfl
      · cases h

/-- **C25**, spelled out: every in-range multi-index of the final view addresses a cell of the *original*
buffer. -/
theorem C25_reads_original_partial {a b c : Arr α} (ha : Fresh a) (h1 : History NoBroadcast a b)
    (h2 : History NoReshape b c) (idx : List Nat) (hi : InB idx c.shape) :
    ∃ v, a.buf[c.off + offset idx c.stride]? = some v := by
  have := (C25_in_buffer_partial ha h1 h2).2 idx hi
  rw [history_buf h2, history_buf h1] at this
  exact ⟨_, List.getElem?_eq_getElem this⟩

example := C25_reads_original_partial demo_fresh demoT_history (.step (.broadcastTo [5, 3, 2]) .refl rfl trivial rfl) [4, 2, 1] (by decide)

/-- A history with a slice, a transposition, a diagonal and a broadcast. -/
def demoOps : List ViewOp := [.transpose 0 1, .slice [.range 1 3], .unsqueeze (-1), .diagonal 0 0 1]
example : ∃ b, runOps demo demoOps = .ok b ∧ b.shape = [1, 2] ∧ b.off = 1 ∧ b.stride = [1, 4] := ⟨_, rfl, rfl, rfl, rfl⟩
example : ∃ b c : Arr Nat, History NoBroadcast demo b ∧ History NoReshape b c ∧ c.shape = [5, 3, 2] := by
  refine ⟨demo.reshapedView [3, 2] [1, 3], _, .step (.transpose 0 1) .refl rfl trivial rfl,
    .step (.broadcastTo [5, 3, 2]) .refl rfl trivial rfl, rfl⟩

/-- **C25 is false** as stated: `[1, 2].broadcast_to([3, 2]).reshape([6])` is accepted without a panic and
its last element lies outside the two-element buffer. -/
theorem C25_false : ∃ a b c : Arr Nat, Fresh a ∧ History (fun _ => True) a b ∧ History (fun _ => True) b c ∧ ¬ c.Valid := by
  refine ⟨Arr.fromContiguousOwnedBuffer [2] [1, 2], _, _, ⟨[2], [1, 2], rfl, rfl⟩,
    .step (.broadcastTo [3, 2]) .refl trivial trivial rfl, .step (.reshape [6]) .refl trivial trivial rfl, ?_⟩
  intro h
  have := h.2 [5] (by decide)
  revert this
  decide

/-! ## C26 -/

/-- **C26** (part). After any history of view operations without `broadcast_to`, an array that reports
itself contiguous has its elements, in row-major order, in consecutive memory cells. -/
theorem C26_contiguous_partial {a b : Arr α} (ha : Fresh a) (h : History NoBroadcast a b)
    (hc : b.isContiguous = true) : offsets b.shape b.stride = List.range (numel b.shape) := by
  have hb := wf_history ha.wf h
  obtain ⟨e, he, h1⟩ := hb.flags.contiguous hc
  exact offsets_contiguous hb.valid.1.symm hb.pos.noZero he h1

example := C26_contiguous_partial demo_fresh (.step (.reshape [6]) .refl rfl trivial rfl) rfl

/-- **C26** (part): an array that reports a uniform stride has its `k`-th element `k` strides from the
first. -/
theorem C26_uniform_partial {a b : Arr α} (ha : Fresh a) (h : History NoBroadcast a b)
    (hc : b.isUniformlyStrided = true) :
    ∃ e, hasUniformStride b.shape b.stride = some e ∧ offsets b.shape b.stride = (List.range (numel b.shape)).map (· * e) := by
  have hb := wf_history ha.wf h
  obtain ⟨e, he⟩ := hb.flags.uniform hc
  exact ⟨e, he, offsets_uniform hb.valid.1.symm hb.pos.good he⟩

example := C26_uniform_partial demo_fresh (.step (.slice [.full, .at 1]) .refl rfl ⟨by decide, by decide, trivial⟩ rfl) rfl

/-- **C26** (converse): a view reported non-uniform really is: no single step relates its elements,
provided no axis has extent 1 or 0 (an axis of extent 1 has an irrelevant stride that the code still
compares, see `C26_unit_axis`). -/
theorem C26_nonuniform_partial {s st : List Nat} (hl : s.length = st.length) (h1 : ∀ n ∈ s, 2 ≤ n)
    (h : hasUniformStride s st = none) : ¬ ∃ e, offsets s st = (List.range (numel s)).map (· * e) := by
  rintro ⟨e, he⟩
  have hpos : numel s ≠ 0 := numel_ne_zero.2 fun n hn => by have := h1 n hn; omega
  have hall : ∀ idx, InB idx s → offset idx st = rank idx s * e := by
    intro idx hi
    have h2 : (offsets s st)[rank idx s]? = some (offset idx st) := by
      unfold offsets
      rw [List.getElem?_map, getElem?_indices (rank_lt hi), unrank_rank hi]; rfl
    rw [he] at h2
    simp [List.getElem?_map, List.getElem?_range, rank_lt hi] at h2
    exact h2.symm
  clear he
  suffices hsuff : st = (strideFromShape s).map (· * e) by
    have : hasUniformStride s st ≠ none := by
      rw [hsuff]
      clear h hl hall hsuff hpos
      cases s with
      | nil => simp [hasUniformStride]
      | cons n s =>
        have : ∀ (n : Nat) (s : List Nat), hasUniformStride (n :: s) ((strideFromShape (n :: s)).map (· * e)) ≠ none := by
          intro n s
          induction s generalizing n with
          | nil => simp [hasUniformStride, strideFromShape_cons]
          | cons m s ih =>
            have := ih m
            rw [strideFromShape_cons, strideFromShape_cons] at *
            simp only [List.map_cons, hasUniformStride] at *
            rw [if_neg]
            · exact this
            · simp [numel_cons, Nat.mul_assoc]
        exact this n s
    exact this h
  clear h
  induction s generalizing st with
  | nil => cases st <;> simp_all
  | cons n s ih => cases st with
    | nil => simp at hl
    | cons d st =>
      have hpos' : numel s ≠ 0 := by intro h0; apply hpos; simp [h0]
      have hn := h1 n (by simp)
      rw [strideFromShape_cons, List.map_cons]
      congr 1
      · have h0 : InB (unrank s 0) s := InB_unrank (by omega)
        have := hall (1 :: unrank s 0) ⟨by omega, h0⟩
        rw [unrank_zero] at this
        have hr : rank (List.replicate s.length 0) s = 0 := by
          rw [← unrank_zero, rank_unrank (by omega)]
        simp only [offset_cons, offset_replicate_zero, rank, hr, Nat.one_mul, Nat.add_zero] at this
        exact this
      · refine ih (by simpa using hl) (fun n hn => h1 n (List.mem_cons_of_mem _ hn)) hpos' fun idx hi => ?_
        have := hall (0 :: idx) ⟨by omega, hi⟩
        simpa [rank] using this

example := C26_nonuniform_partial (s := [3, 2]) (st := [1, 3]) rfl (by decide) rfl

example : demoT.isContiguous = false ∧ (demo.reshapedView [6] [1]).isContiguous = true := by decide

/-- The code also compares the (irrelevant) stride of extent-1 axes: this `3x1` column of a `3x2` array is
uniformly strided (elements 0, 2, 4) and reported so, but the `1x2` piece with strides 5, 1 is consecutive
and reported as not uniform. -/
theorem C26_unit_axis : hasUniformStride [1, 2] [5, 1] = none ∧ offsets [1, 2] [5, 1] = [0, 1] := by decide

/-- **C26 is false** with `broadcast_to`: `[1, 2].broadcast_to([3, 2])` reports itself contiguous, but its
elements are at positions 0,1,0,1,0,1. -/
theorem C26_false : ∃ a b : Arr Nat, Fresh a ∧ History (fun _ => True) a b ∧ b.isContiguous = true ∧
    b.isUniformlyStrided = true ∧
    (¬ ∃ e, offsets b.shape b.stride = (List.range (numel b.shape)).map (· * e)) := by
  refine ⟨Arr.fromContiguousOwnedBuffer [2] [1, 2], _, ⟨[2], [1, 2], rfl, rfl⟩,
    .step (.broadcastTo [3, 2]) .refl trivial trivial rfl, by decide, by decide, ?_⟩
  rintro ⟨e, he⟩
  have h1 : [0, 1, 0, 1, 0, 1] = (List.range 6).map (· * e) := he
  have h2 := congrArg (·[1]?) h1
  have h3 := congrArg (·[2]?) h1
  simp at h2 h3
  omega

end Verif
