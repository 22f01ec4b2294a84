import Verif.Props.Reduce
import Verif.Lemmas.Iter

/-!
# C34 traces
-/

namespace Verif

variable {α : Type}

theorem InB_snoc {J t : List Nat} {k n : Nat} : InB (J ++ [k]) (t ++ [n]) ↔ InB J t ∧ k < n := by
  induction t generalizing J with
  | nil => cases J with
    | nil => simp
    | cons j J => cases J <;> simp
  | cons m t ih => cases J with
    | nil => cases t <;> simp
    | cons j J => simp [ih, and_assoc]

/-- The fibre over the last axis. -/
theorem fibre_last {t J : List Nat} {n : Nat} (hJ : InB J t) :
    (fibre [t.length] (t ++ [n]) J).Perm ((List.range n).map fun k => J ++ [k]) := by
  rw [List.perm_ext_iff_of_nodup]
  · intro idx
    simp only [fibre, List.mem_filter, mem_indices, dropAxes_single, decide_eq_true_eq, List.mem_map, List.mem_range]
    constructor
    · rintro ⟨h1, h2⟩
      have hl := h1.length
      simp only [List.length_append, List.length_singleton] at hl
      have hne : idx ≠ [] := by rintro rfl; simp at hl
      have e : idx = J ++ [idx.getLast hne] := by
        conv_lhs => rw [← List.dropLast_append_getLast hne]
        rw [← h2, List.dropLast_eq_eraseIdx (i := t.length) (by omega)]
      rw [e, InB_snoc] at h1
      exact ⟨_, h1.2, e.symm⟩
    · rintro ⟨k, hk, rfl⟩
      refine ⟨InB_snoc.2 ⟨hJ, hk⟩, ?_⟩
      rw [← hJ.length, List.eraseIdx_append_of_length_le (by simp)]
      simp
  · exact (indices_nodup _).filter _
  · exact List.nodup_range.map fun i j h => by simpa using h

/-- **C34.** `offset_trace_along(o, axis1, axis2)`: at each index `J` of the remaining axes, the sum of the elements
on the selected diagonal: coordinate `k + max(-o,0)` on `axis1`, `k + max(o,0)` on `axis2`. For every layout. -/
theorem C34_trace_along [AddCommMonoid α] {a : Arr α} {s : List Nat} {f : List Nat → α} (ha : a.Denotes s f) (hd : s.length ≤ 32)
    {o ax1 ax2 : Int} {i j n1 n2 : Nat} (h1 : AxisIs ax1 s.length i) (h2 : AxisIs ax2 s.length j) (hij : i ≠ j)
    (hn1 : s[i]? = some n1) (hn2 : s[j]? = some n2) (ho1 : -o < n1 ∨ 0 ≤ o) (ho2 : o < n2 ∨ o < 0) :
    ∃ r, a.offsetTraceAlong o ax1 ax2 = .ok r ∧ r.Denotes (others i j s) (fun J =>
      ((List.range (min (n1 - (-o).toNat) (n2 - o.toNat))).map fun k =>
        f (putTwo i (k + (-o).toNat) j (k + o.toNat) s.length 0 J)).sum) := by
  obtain ⟨d, hd1, _, hd2⟩ := C33_diagonal ha h1 h2 hij hn1 hn2 ho1 ho2
  generalize hn : min (n1 - (-o).toNat) (n2 - o.toNat) = n at hd2
  have hol : (others i j s).length + 1 ≤ s.length := by
    have hi := h1.1
    unfold others
    rw [List.length_map, ← List.countP_eq_length_filter]
    have e := List.length_eq_countP_add_countP (fun p : Nat × Nat => decide (p.2 ≠ i ∧ p.2 ≠ j)) (l := s.zipIdx)
    rw [List.length_zipIdx] at e
    have : 0 < List.countP (fun p : Nat × Nat => decide ¬ (decide (p.2 ≠ i ∧ p.2 ≠ j)) = true) s.zipIdx := by
      rw [List.countP_pos_iff]
      refine ⟨(s[i], i), ?_, by simp⟩
      rw [List.mem_zipIdx_iff_getElem?]
      exact List.getElem?_eq_getElem hi
    omega
  have hax : AxesAre [-1] (others i j s ++ [n]).length [(others i j s).length] :=
    ⟨⟨by simp, .inr (by simp)⟩, trivial⟩
  obtain ⟨r, hr1, hr2⟩ := C10_sum_along hd2 (by simp; omega) hax (by simp)
  refine ⟨r, ?_, ?_⟩
  · unfold Arr.offsetTraceAlong; rw [hd1]; exact hr1
  · have e : dropAxes [(others i j s).length] (others i j s ++ [n]) = others i j s := by
      rw [dropAxes_single, List.eraseIdx_append_of_length_le (by simp)]; simp
    rw [e] at hr2
    refine hr2.congr fun J hJ => ?_
    rw [((fibre_last hJ).map _).sum_eq, List.map_map]
    congr 1
    apply List.map_congr_left
    intro k _
    simp

example := C34_trace_along demoT_denotes (by decide) (o := -1) (ax1 := 0) (ax2 := -1) (i := 0) (j := 1) (n1 := 3) (n2 := 2)
  ⟨by decide, by decide⟩ ⟨by decide, by decide⟩ (by decide) rfl rfl (by decide) (by decide)

/-- **C34.** `trace()` of a matrix is the sum of its main diagonal. -/
theorem C34_trace [AddCommMonoid α] {a : Arr α} {n m : Nat} {f : List Nat → α} (ha : a.Denotes [n, m] f) (hm : m ≠ 0) :
    ∃ r, a.trace = .ok r ∧ r.Denotes [] (fun _ => ((List.range (min n m)).map fun k => f [k, k]).sum) := by
  obtain ⟨r, h1, h2⟩ := C34_trace_along ha (by simp) (o := 0) (ax1 := 0) (ax2 := 1) (i := 0) (j := 1) (n1 := n) (n2 := m)
    ⟨by simp, by simp⟩ ⟨by simp, by simp⟩ (by simp) rfl rfl (by simp) (by left; omega)
  exact ⟨r, h1, by simpa [others, putTwo] using h2⟩

example := C34_trace demoT_denotes (by decide)

/-- **C34.** The trace panics whenever the diagonal does. -/
theorem C34_rejects [Add α] [Zero α] (a : Arr α) (o ax1 ax2 : Int) (h : a.offsetDiagonalAlong o ax1 ax2 = .error .panic) :
    a.offsetTraceAlong o ax1 ax2 = .error .panic := by
  unfold Arr.offsetTraceAlong; rw [h]; rfl

example : ∃ r, demo.trace = .ok r ∧ r.value = .ok 24 := ⟨_, rfl, rfl⟩
example : ∃ r, demo.offsetTrace 1 = .ok r ∧ r.value = .ok 26 := ⟨_, rfl, rfl⟩
example : ∃ r, demoT.offsetTrace (-1) = .ok r ∧ r.value = .ok 26 := ⟨_, rfl, rfl⟩
/-- a batch of traces over the last two axes -/
example : ∃ r, (Arr.fromContiguousOwnedBuffer [2, 2, 2] (List.range 8)).traceAlong 1 2 = .ok r ∧ r.flatiter = .ok [3, 11] := ⟨_, rfl, rfl⟩

end Verif
