import Verif.Lemmas.Laws

/-!
# C65 einsum agrees with the named operations
-/

namespace Verif

variable {α : Type}

section
variable [CommSemiring α] [BEq α] [LawfulBEq α] {K : SopKernels α}

theorem einsum_ij_jk {a b : Arr α} {m k n : Nat} {f g : List Nat → α} (hK : K.Correct) (ha : a.Denotes [m, k] f)
    (hb : b.Denotes [k, n] g) (hm : 0 < m) (hk : 0 < k) (hn : 0 < n) {i j l : Char} (hi : i.isAlpha) (hj : j.isAlpha)
    (hl : l.isAlpha) (hij : i ≠ j) (hil : i ≠ l) (hjl : j ≠ l) :
    ∃ r, einsum K [a, b] [[i, j], [j, l]] [i, l] = .ok r ∧ r.Denotes [m, n]
      (fun idx => innerProduct k (fun t => f [idx.getD 0 0, t]) (fun t => g [t, idx.getD 1 0])) := by
  have hw : WellFormed [⟨[i, j], f⟩, ⟨[j, l], g⟩] [i, l] [j] (fun c => if c = i then m else if c = j then k else n) := by
    refine ⟨?_, ?_, ?_, ?_, ?_⟩
    · simp [hi, hj, hl]
    · simp [hij, hil, hjl, hjl.symm]
    · simp
    · intro c; simp; grind
    · simp; grind
  obtain ⟨r, e, h⟩ := C28_einsum_partial (ops := [a, b]) hK hw
    (.cons (by simpa [hij, hij.symm] using ha) (.cons (by simpa [hij.symm, hil.symm, hjl.symm] using hb) .nil))
    (by simp) (by simp) (by simp) (by simp)
  refine ⟨r, e, ?_⟩
  have hs : [i, l].map (fun c => if c = i then m else if c = j then k else n) = [m, n] := by simp [hil.symm, hjl.symm]
  rw [hs] at h
  refine h.congr fun idx hidx => ?_
  match idx, hidx with
  | [x, y], _ =>
    simp [einsteinSum, indices_one, valueOf, innerProduct, Function.comp_def, hij, hij.symm, hil.symm, hjl, hjl.symm]

/-- **C65.** `einsum("ij,jk->ik", a, b) == a.matmul(b)`, for all layouts, positive sizes and letters. Missing in this
and the following theorems: extents 0 (false, see `C65_empty_false`). -/
theorem C65_matmul_partial (hK : K.Correct) {a b : Arr α} {m k n : Nat} {f g : List Nat → α} (ha : a.Denotes [m, k] f)
    (hb : b.Denotes [k, n] g) (hm : 0 < m) (hk : 0 < k) (hn : 0 < n) {i j l : Char} (hi : i.isAlpha) (hj : j.isAlpha)
    (hl : l.isAlpha) (hij : i ≠ j) (hil : i ≠ l) (hjl : j ≠ l) :
    SameArray (einsum K [a, b] [[i, j], [j, l]] [i, l]) (a.matmul K b) := by
  obtain ⟨r, e, h⟩ := einsum_ij_jk hK ha hb hm hk hn hi hj hl hij hil hjl
  obtain ⟨r', e', h'⟩ := C30_matmul_partial hK ha hb hm hk hn
  exact same_of_denotes e h e' h' (by simp) fun _ _ => rfl

/-- **C65.** `einsum("ij,j->i", a, v) == a.matmul(v)`. -/
theorem C65_matvec_partial (hK : K.Correct) {a b : Arr α} {m k : Nat} {f g : List Nat → α} (ha : a.Denotes [m, k] f)
    (hb : b.Denotes [k] g) (hm : 0 < m) (hk : 0 < k) {i j : Char} (hi : i.isAlpha) (hj : j.isAlpha) (hij : i ≠ j) :
    SameArray (einsum K [a, b] [[i, j], [j]] [i]) (a.matmul K b) := by
  have hw : WellFormed [⟨[i, j], f⟩, ⟨[j], g⟩] [i] [j] (fun c => if c = i then m else k) :=
    ⟨by simp [hi, hj], by simp [hij], by simp, by intro c; simp; grind, by simp; grind⟩
  obtain ⟨r, e, h⟩ := C28_einsum_partial (ops := [a, b]) hK hw
    (.cons (by simpa [hij.symm] using ha) (.cons (by simpa [hij.symm] using hb) .nil)) (by simp) (by simp) (by simp) (by simp)
  obtain ⟨r', e', h'⟩ := C30_matmul_mat_vec (K := K) ha hb
  refine same_of_denotes e h e' (by simpa using h') (by simp) fun idx hidx => ?_
  match idx, hidx with
  | [x], _ => simp [einsteinSum, indices_one, valueOf, innerProduct, Function.comp_def, hij.symm]

/-- **C65.** `einsum("i,i->", a, b) == a.dot(b)`. -/
theorem C65_dot_partial (hK : K.Correct) {a b : Arr α} {n : Nat} {f g : List Nat → α} (ha : a.Denotes [n] f)
    (hb : b.Denotes [n] g) (hn : 0 < n) {i : Char} (hi : i.isAlpha) :
    SameArray (einsum K [a, b] [[i], [i]] []) (a.dot b) := by
  have hw : WellFormed [⟨[i], f⟩, ⟨[i], g⟩] [] [i] (fun _ => n) :=
    ⟨by simp [hi], by simp, by simp, by intro c; simp, by simp; grind⟩
  obtain ⟨r, e, h⟩ := C28_einsum_partial (ops := [a, b]) hK hw
    (.cons (by simpa using ha) (.cons (by simpa using hb) .nil)) (by simp) (by simp) (by simp) (by simp)
  obtain ⟨r', e', h'⟩ := C32_dot ha hb
  refine same_of_denotes e h e' (by simpa using h') (by simp) fun idx hidx => ?_
  match idx, hidx with
  | [], _ => simp [einsteinSum, indices_one, valueOf, innerProduct, Function.comp_def]

/-- **C65.** `einsum("bij,bjk->bik", a, b) == a.bmm(b)`. -/
theorem C65_bmm_partial (hK : K.Correct) {a b : Arr α} {B m k n : Nat} {f g : List Nat → α} (ha : a.Denotes [B, m, k] f)
    (hb : b.Denotes [B, k, n] g) (hB : 0 < B) (hm : 0 < m) (hk : 0 < k) (hn : 0 < n) {c i j l : Char} (hc : c.isAlpha)
    (hi : i.isAlpha) (hj : j.isAlpha) (hl : l.isAlpha) (hci : c ≠ i) (hcj : c ≠ j) (hcl : c ≠ l) (hij : i ≠ j) (hil : i ≠ l)
    (hjl : j ≠ l) :
    SameArray (einsum K [a, b] [[c, i, j], [c, j, l]] [c, i, l]) (a.bmm K b) := by
  have hw : WellFormed [⟨[c, i, j], f⟩, ⟨[c, j, l], g⟩] [c, i, l] [j]
      (fun x => if x = c then B else if x = i then m else if x = j then k else n) :=
    ⟨by simp [hc, hi, hj, hl], by simp [hci, hcj, hcl, hij, hil, hjl.symm], by simp, by intro c; simp; grind, by simp; grind⟩
  obtain ⟨r, e, h⟩ := C28_einsum_partial (ops := [a, b]) hK hw
    (.cons (by simpa [hci.symm, hcj.symm, hij.symm] using ha)
      (.cons (by simpa [hcj.symm, hcl.symm, hij.symm, hil.symm, hjl.symm] using hb) .nil))
    (by simp) (by simp) (by simp) (by simp)
  obtain ⟨r', e', h'⟩ := C31_bmm_partial hK ha hb hB hm hk hn
  have hs : [c, i, l].map (fun x => if x = c then B else if x = i then m else if x = j then k else n) = [B, m, n] := by
    simp [hci.symm, hcl.symm, hil.symm, hjl.symm]
  rw [hs] at h
  refine same_of_denotes e h e' h' (by simp) fun idx hidx => ?_
  match idx, hidx with
  | [x, y, z], _ =>
    simp [einsteinSum, indices_one, valueOf, innerProduct, Function.comp_def, hci.symm, hcj.symm, hcl.symm, hij.symm,
      hil.symm, hjl, hjl.symm]

/-- **C65.** `einsum("ii->i", a) == a.diagonal()` for a square matrix. -/
theorem C65_diagonal_partial (hK : K.Correct) {a : Arr α} {n : Nat} {f : List Nat → α} (ha : a.Denotes [n, n] f) (hn : 0 < n)
    {i : Char} (hi : i.isAlpha) : SameArray (einsum K [a] [[i, i]] [i]) a.diagonal := by
  have hw : WellFormed [⟨[i, i], f⟩] [i] [] (fun _ => n) :=
    ⟨by simp [hi], by simp, by simp, by intro c; simp, by simp; grind⟩
  obtain ⟨r, e, h⟩ := C28_einsum_partial (ops := [a]) hK hw (.cons (by simpa using ha) .nil) (by simp) (by simp) (by simp) (by simp)
  obtain ⟨r', e', h'⟩ := C33_matrix_diagonal ha (by omega)
  refine same_of_denotes e h e' (by simpa using h') (by simp) fun idx hidx => ?_
  match idx, hidx with
  | [x], _ => simp [einsteinSum, indices, valueOf]

/-- **C65.** `einsum("ii->", a) == a.trace()` for a square matrix. -/
theorem C65_trace_partial (hK : K.Correct) {a : Arr α} {n : Nat} {f : List Nat → α} (ha : a.Denotes [n, n] f) (hn : 0 < n)
    {i : Char} (hi : i.isAlpha) : SameArray (einsum K [a] [[i, i]] []) a.trace := by
  have hw : WellFormed [⟨[i, i], f⟩] [] [i] (fun _ => n) :=
    ⟨by simp [hi], by simp, by simp, by intro c; simp, by simp; grind⟩
  obtain ⟨r, e, h⟩ := C28_einsum_partial (ops := [a]) hK hw (.cons (by simpa using ha) .nil) (by simp) (by simp) (by simp) (by simp)
  obtain ⟨r', e', h'⟩ := C34_trace ha (by omega)
  refine same_of_denotes e h e' (by simpa using h') (by simp) fun idx hidx => ?_
  match idx, hidx with
  | [], _ => simp [einsteinSum, indices_one, valueOf, Function.comp_def]

/-- **C65.** `einsum("ij->ji", a) == a.T()`, and for any number of axes: exchanging two letters is `transpose`. -/
theorem C65_transpose_partial (hK : K.Correct) {a : Arr α} {s : List Nat} {f : List Nat → α} (ha : a.Denotes s f) (h0 : 0 ∉ s)
    (hd : s.length ≤ 32) {ax1 ax2 : Int} {p q : Nat} (h1 : AxisIs ax1 s.length p) (h2 : AxisIs ax2 s.length q)
    {ls : List Char} (hl : ls.length = s.length) (hal : ∀ c ∈ ls, c.isAlpha) (hn : ls.Nodup) :
    SameArray (einsum K [a] [ls] (exchange p q ls)) (a.transpose ax1 ax2) := by
  have hperm : (exchange p q ls).Perm ls := exchange_perm (by rw [hl]; exact h1.1) (by rw [hl]; exact h2.1)
  have hmap : ∀ x : List Nat, x.length = s.length → (exchange p q ls).map (valueOf ls x) = exchange p q x := by
    intro x hx
    rw [map_exchange (by rw [hl]; exact h1.1) (by rw [hl]; exact h2.1), map_valueOf_self hn (by rw [hx, hl])]
  obtain ⟨r, e, h⟩ := einsum_one hK ha h0 hd (by rintro rfl; exact absurd h1.1 (by simp)) hl hal hn
    (hperm.nodup_iff.2 hn) fun c hc => hperm.mem_iff.1 hc
  rw [hmap s rfl] at h
  obtain ⟨⟨r', e', _, h'⟩, _⟩ := C14_transpose ha h1 h2
  refine same_of_denotes e h e' h' (by rw [length_exchange]; exact hd) fun idx hi => ?_
  have hx : InB (exchange p q idx) s := InB_exchange h1.1 h2.1 hi
  rw [filter_indices_eq hx]
  · simp
  · intro x hx'
    rw [hmap x hx'.length, decide_eq_true_eq]
    constructor
    · rintro rfl
      rw [exchange_exchange p q x (by rw [hx'.length]; exact h1.1) (by rw [hx'.length]; exact h2.1)]
    · rintro rfl
      have hil : idx.length = s.length := by rw [hi.length, length_exchange]
      rw [exchange_exchange p q idx (by rw [hil]; exact h1.1) (by rw [hil]; exact h2.1)]

/-- **C65.** Leaving out letters is `sum_along` their axes, for any number of axes: `einsum("ij->i", a) == a.sum_along(1)`. -/
theorem C65_sum_along_partial (hK : K.Correct) {a : Arr α} {s : List Nat} {f : List Nat → α} (ha : a.Denotes s f) (h0 : 0 ∉ s)
    (hd : s.length ≤ 32) (hne : s ≠ []) {axes : List Int} {ks : List Nat} (hax : AxesAre axes s.length ks) (hks : ks.Nodup)
    {ls : List Char} (hl : ls.length = s.length) (hal : ∀ c ∈ ls, c.isAlpha) (hn : ls.Nodup) :
    SameArray (einsum K [a] [ls] (dropAxes ks ls)) (a.sumAlong axes) := by
  have hsub := dropAxes_sublist ks ls
  have hmap : ∀ x : List Nat, x.length = s.length → (dropAxes ks ls).map (valueOf ls x) = dropAxes ks x := by
    intro x hx
    rw [map_dropAxes, map_valueOf_self hn (by rw [hx, hl])]
  obtain ⟨r, e, h⟩ := einsum_one hK ha h0 hd hne hl hal hn (hn.sublist hsub) fun c hc => hsub.subset hc
  rw [hmap s rfl] at h
  obtain ⟨r', e', h'⟩ := C10_sum_along ha hd hax hks
  refine same_of_denotes e h e' h' ?_ fun J _ => ?_
  · exact Nat.le_trans (dropAxes_sublist ks s).length_le hd
  · unfold fibre
    congr 2
    apply List.filter_congr
    intro x hx
    rw [hmap x (mem_indices.1 hx).length]

/-- **C65.** `einsum("ij,ij->ij", a, b) == a * b`, for any number of axes. -/
theorem C65_mul_partial (hK : K.Correct) (dflt : α) {a b : Arr α} {s : List Nat} {f g : List Nat → α} (ha : a.Denotes s f)
    (hb : b.Denotes s g) (h0 : 0 ∉ s) (hd : s.length ≤ 32) (hne : s ≠ []) {ls : List Char} (hl : ls.length = s.length)
    (hal : ∀ c ∈ ls, c.isAlpha) (hn : ls.Nodup) :
    SameArray (einsum K [a, b] [ls, ls] ls)
      (a.binOp (fun x y => .ok (x * y)) (portableKernels fun x y => .ok (x * y)) dflt b) := by
  have hself := map_valueOf_self hn (idx := s) hl.symm
  have hw1 := wellFormed_one (f := f) hl hal hn (fun c hc => hc) hn h0
  have hrest : ls.filter (· ∉ ls) = [] := by simp
  rw [hrest] at hw1
  have hw : WellFormed [⟨ls, f⟩, ⟨ls, g⟩] ls [] (valueOf ls s) :=
    ⟨by simpa using hal, by simpa using hn, by simp, by simp, by
      have := hw1.pos
      simp at this ⊢
      exact this⟩
  obtain ⟨r, e, h⟩ := C28_einsum_partial (ops := [a, b]) hK hw
    (.cons (by rw [hself]; exact ha) (.cons (by rw [hself]; exact hb) .nil)) (by simp) (by simp; omega)
    (by simp; omega) (by simp; rintro rfl; exact hne (List.length_eq_zero_iff.1 hl.symm))
  rw [hself] at h
  obtain ⟨r', e', h'⟩ := binOp_same_shape (· * ·) dflt ha hb hd
  refine same_of_denotes e h e' h' hd fun idx hi => ?_
  simp [einsteinSum, indices, map_valueOf_self hn (show idx.length = ls.length by rw [hi.length, hl])]

/-- **C65.** `einsum("i,j->ij", a, b)` is the product of `a` as a column (`unsqueeze(-1)`) with the row `b`. -/
theorem C65_outer_partial (hK : K.Correct) (dflt : α) {a b : Arr α} {m n : Nat} {f g : List Nat → α} (ha : a.Denotes [m] f)
    (hb : b.Denotes [n] g) (hm : 0 < m) (hn : 0 < n) {i j : Char} (hi : i.isAlpha) (hj : j.isAlpha) (hij : i ≠ j) :
    SameArray (einsum K [a, b] [[i], [j]] [i, j])
      (a.unsqueeze (-1) >>= fun c => c.binOp (fun x y => .ok (x * y)) (portableKernels fun x y => .ok (x * y)) dflt b) := by
  have hw : WellFormed [⟨[i], f⟩, ⟨[j], g⟩] [i, j] [] (fun c => if c = i then m else n) :=
    ⟨by simp [hi, hj], by simp [hij], by simp, by intro c; simp; grind, by simp; grind⟩
  obtain ⟨r, e, h⟩ := C28_einsum_partial (ops := [a, b]) hK hw
    (.cons (by simpa using ha) (.cons (by simpa [hij.symm] using hb) .nil)) (by simp) (by simp) (by simp) (by simp)
  have hs : [i, j].map (fun c => if c = i then m else n) = [m, n] := by simp [hij.symm]
  rw [hs] at h
  obtain ⟨⟨c, ec, _, hc⟩, _⟩ := C15_unsqueeze ha (axis := -1) (k := 1) ⟨by simp, by simp⟩
  obtain ⟨hcp, hjt⟩ : Compatible [m, 1] [n] ∧ IsJoint [m, 1] [n] [m, n] := by
    refine ⟨fun k => ?_, rfl, fun k => ?_⟩ <;> rcases k with _ | _ | k <;> simp [extentFromRight]
  obtain ⟨r', e', h'⟩ := C05_elementwise (h := fun idx => f [idx.getD 0 0] * g [idx.getD 1 0]) (fun x y => .ok (x * y)) dflt hc hb hcp hjt (by simp) (by
    intro idx hidx
    match idx, hidx with
    | [x, y], hidx =>
      have h1 : x < m := hidx.1
      have h2 : y < n := hidx.2.1
      have e1 : (if m = 1 then 0 else x) = x := by split <;> omega
      have e2 : (if n = 1 then 0 else y) = y := by split <;> omega
      simp [broadcastIndex, clamp, e1, e2])
  refine same_of_denotes e h (by rw [ec]; exact e') h' (by simp) fun idx hidx => ?_
  match idx, hidx with
  | [x, y], _ => simp [einsteinSum, valueOf, hij.symm]

end

/-! ### the hypotheses are satisfiable, and the excluded case -/

/-- transposed views, other letters than in the statement -/
example : SameArray (einsum portableSop [matA, matBt] [['x', 'B'], ['B', 'a']] ['x', 'a']) (matA.matmul portableSop matBt) :=
  C65_matmul_partial (m := 2) (k := 3) (n := 2) portableSop_correct (denotes_reads 0 rfl (by decide)) (denotes_reads 0 rfl (by decide))
    (by decide) (by decide) (by decide) (by decide) (by decide) (by decide) (by decide) (by decide) (by decide)
example : SameArray (einsum portableSop [matBt, Arr.fromContiguousOwnedBuffer [2] [1, -1]] [['i', 'j'], ['j']] ['i'])
    (matBt.matmul portableSop (Arr.fromContiguousOwnedBuffer [2] [1, -1])) :=
  C65_matvec_partial (m := 3) (k := 2) portableSop_correct (denotes_reads 0 rfl (by decide)) (denotes_reads 0 rfl (by decide))
    (by decide) (by decide) (by decide) (by decide) (by decide)
example : SameArray (einsum portableSop [evenView, evenView] [['i'], ['i']] []) (evenView.dot evenView) :=
  C65_dot_partial (n := 3) portableSop_correct (denotes_reads 0 rfl (by decide)) (denotes_reads 0 rfl (by decide)) (by decide) (by decide)
def batchA : Arr Int := Arr.fromContiguousOwnedBuffer [2, 1, 3] [1, 2, 3, 4, 5, 6]
def batchB : Arr Int := { Arr.fromContiguousOwnedBuffer [2, 2, 3] [1, 0, 2, 0, 1, 5, 7, 8, 9, 1, 2, 3] with shape := [2, 3, 2], stride := [6, 1, 3] }
example : SameArray (einsum portableSop [batchA, batchB] [['b', 'i', 'j'], ['b', 'j', 'k']] ['b', 'i', 'k']) (batchA.bmm portableSop batchB) :=
  C65_bmm_partial (B := 2) (m := 1) (k := 3) (n := 2) portableSop_correct (denotes_reads 0 rfl (by decide))
    (denotes_reads 0 rfl (by decide)) (by decide) (by decide) (by decide) (by decide) (by decide) (by decide) (by decide) (by decide)
    (by decide) (by decide) (by decide) (by decide) (by decide) (by decide)
/-- a square matrix, read column by column -/
def squareT : Arr Int := { Arr.fromContiguousOwnedBuffer [2, 2] [1, 2, 3, 4] with stride := [1, 2] }
example : SameArray (einsum portableSop [squareT] [['i', 'i']] ['i']) squareT.diagonal ∧
    SameArray (einsum portableSop [squareT] [['i', 'i']] []) squareT.trace :=
  ⟨C65_diagonal_partial (n := 2) portableSop_correct (denotes_reads 0 rfl (by decide)) (by decide) (by decide),
    C65_trace_partial (n := 2) portableSop_correct (denotes_reads 0 rfl (by decide)) (by decide) (by decide)⟩
example : SameArray (einsum portableSop [batchB] [['i', 'j', 'k']] ['k', 'j', 'i']) (batchB.transpose 0 (-1)) :=
  C65_transpose_partial (s := [2, 3, 2]) (p := 0) (q := 2) portableSop_correct (denotes_reads 0 rfl (by decide)) (by decide) (by decide)
    (by decide) (by decide) rfl (by decide) (by decide)
example : SameArray (einsum portableSop [batchB] [['i', 'j', 'k']] ['j']) (batchB.sumAlong [-1, 0]) :=
  C65_sum_along_partial (s := [2, 3, 2]) (axes := [-1, 0]) (ks := [2, 0]) portableSop_correct (denotes_reads 0 rfl (by decide)) (by decide) (by decide)
    (by decide) ⟨by decide, by decide, trivial⟩ (by decide) rfl (by decide) (by decide)
example : SameArray (einsum portableSop [squareT, squareT] [['i', 'j'], ['i', 'j']] ['i', 'j'])
    (squareT.binOp (fun x y => .ok (x * y)) (portableKernels fun x y => .ok (x * y)) 0 squareT) :=
  C65_mul_partial (s := [2, 2]) portableSop_correct 0 (denotes_reads 0 rfl (by decide)) (denotes_reads 0 rfl (by decide)) (by decide)
    (by decide) (by decide) rfl (by decide) (by decide)
example : SameArray (einsum portableSop [evenView, evenView] [['i'], ['j']] ['i', 'j']) (evenView.unsqueeze (-1) >>= fun c =>
    c.binOp (fun x y => .ok (x * y)) (portableKernels fun x y => .ok (x * y)) 0 evenView) :=
  C65_outer_partial (m := 3) (n := 3) portableSop_correct 0 (denotes_reads 0 rfl (by decide)) (denotes_reads 0 rfl (by decide)) (by decide)
    (by decide) (by decide) (by decide) (by decide)

set_option maxRecDepth 10000 in
/-- **C65, negation for extent 0.** The sum of an empty vector is 0; `einsum("i->")` of it does not return. -/
theorem C65_empty_false : ¬ SameArray (einsum portableSop [Arr.fromContiguousOwnedBuffer [0] ([] : List Int)] [['i']] [])
    ((Arr.fromContiguousOwnedBuffer [0] ([] : List Int)).sumAlong [0]) := by
  rintro ⟨r, r', h, -⟩
  have : einsum portableSop [Arr.fromContiguousOwnedBuffer [0] ([] : List Int)] [['i']] [] = .error .ub := by decide +kernel
  rw [this] at h
  cases h

end Verif
