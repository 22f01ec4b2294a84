import Verif.Lemmas.CheckedInt
import Verif.Props.Overflow

/-!
# C59 for sums of products: trace, dot, matrix products and einsum on integers

Debug builds: `Arr (Chk lo hi)`, where a cell of the result without a number means that the program panicked. Release builds: the
ring of residues, as in `Props/Overflow.lean`.
-/

namespace Verif

variable {lo hi : Int}

/-! ### debug builds are never wrong -/

/-- The content of a cell of the result: none (the program panicked), or the exact number, which is then in range. -/
def NeverWrong (x : Chk lo hi) (e : Int) : Prop := x.value = none ∨ (x.value = some e ∧ lo ≤ e ∧ e ≤ hi)

theorem Right.neverWrong (h0 : lo ≤ 0 ∧ 0 ≤ hi) {x : Chk lo hi} {e : Int} (h : Right x e) : NeverWrong x e := by
  rcases h with rfl | ⟨h, rfl⟩ | ⟨rfl, rfl⟩
  · exact .inl rfl
  · exact .inr ⟨rfl, h⟩
  · exact .inr ⟨rfl, h0⟩

/-- **C59.** `trace` in a debug build. -/
theorem C59_trace_never_wrong (h0 : lo ≤ 0 ∧ 0 ≤ hi) {a : Arr (Chk lo hi)} {s : List Nat} {u : List Nat → Int}
    {hu : ∀ i, lo ≤ u i ∧ u i ≤ hi} (ha : a.Denotes s fun i => .int (u i) (hu i)) (hd : s.length ≤ 32)
    {o ax1 ax2 : Int} {i j n1 n2 : Nat} (h1 : AxisIs ax1 s.length i) (h2 : AxisIs ax2 s.length j) (hij : i ≠ j)
    (hn1 : s[i]? = some n1) (hn2 : s[j]? = some n2) (ho1 : -o < n1 ∨ 0 ≤ o) (ho2 : o < n2 ∨ o < 0) :
    ∃ r f', a.offsetTraceAlong o ax1 ax2 = .ok r ∧ r.Denotes (others i j s) f' ∧ ∀ J, InB J (others i j s) → NeverWrong (f' J)
      ((List.range (min (n1 - (-o).toNat) (n2 - o.toNat))).map fun k =>
        u (putTwo i (k + (-o).toNat) j (k + o.toNat) s.length 0 J)).sum := by
  have := closed_right (lo := lo) (hi := hi)
  obtain ⟨r, f', e1, e2, e3⟩ := transfer_traceAlong right_leaf ha hd h1 h2 hij hn1 hn2 ho1 ho2
  exact ⟨r, f', e1, e2, fun J hJ => (e3 J hJ).neverWrong h0⟩

example := C59_trace_never_wrong (lo := -128) (hi := 127) (by decide) (u := fun _ => 100) (hu := fun _ => by decide)
  (denotes_fromContiguous (s := [3, 2])) (by decide) (o := -1) (ax1 := 0) (ax2 := -1) (i := 0) (j := 1)
  (n1 := 3) (n2 := 2) ⟨by decide, by decide⟩ ⟨by decide, by decide⟩ (by decide) rfl rfl (by decide) (by decide)

/-- **C59.** `dot` in a debug build. -/
theorem C59_dot_never_wrong (h0 : lo ≤ 0 ∧ 0 ≤ hi) {a b : Arr (Chk lo hi)} {k : Nat} {u v : List Nat → Int}
    {hu : ∀ i, lo ≤ u i ∧ u i ≤ hi} {hv : ∀ i, lo ≤ v i ∧ v i ≤ hi} (ha : a.Denotes [k] fun i => .int (u i) (hu i))
    (hb : b.Denotes [k] fun i => .int (v i) (hv i)) :
    ∃ r x, a.dot b = .ok r ∧ r.Denotes [] (fun _ => x) ∧ NeverWrong x (innerProduct k (fun t => u [t]) fun t => v [t]) := by
  have := closed_right (lo := lo) (hi := hi)
  obtain ⟨r, f', e1, e2, e3⟩ := transfer_dot right_leaf ha hb
  refine ⟨r, f' [], e1, e2.congr fun idx hi => ?_, e3.neverWrong h0⟩
  cases idx with
  | nil => rfl
  | cons => exact hi.elim

example := C59_dot_never_wrong (lo := -128) (hi := 127) (by decide) (u := fun _ => 100) (v := fun _ => 3) (hu := fun _ => by decide)
  (hv := fun _ => by decide) (denotes_fromContiguous (s := [3])) (denotes_fromContiguous (s := [3]))

/-- **C59.** Matrix x vector in a debug build. -/
theorem C59_matvec_never_wrong (h0 : lo ≤ 0 ∧ 0 ≤ hi) {a b : Arr (Chk lo hi)} {m k : Nat} {u v : List Nat → Int}
    {hu : ∀ i, lo ≤ u i ∧ u i ≤ hi} {hv : ∀ i, lo ≤ v i ∧ v i ≤ hi} (ha : a.Denotes [m, k] fun i => .int (u i) (hu i))
    (hb : b.Denotes [k] fun i => .int (v i) (hv i)) :
    ∃ r f', a.matmul portableSop b = .ok r ∧ r.Denotes [m] f' ∧
      ∀ i < m, NeverWrong (f' [i]) (innerProduct k (fun t => u [i, t]) fun t => v [t]) := by
  have := closed_right (lo := lo) (hi := hi)
  obtain ⟨r, f', e1, e2, e3⟩ := transfer_matvec right_leaf (.inl rfl) ha hb
  exact ⟨r, f', e1, e2, fun i hi => (e3 [i] ⟨hi, trivial⟩).neverWrong h0⟩

example := C59_matvec_never_wrong (lo := -128) (hi := 127) (by decide) (u := fun _ => 100) (v := fun _ => 3) (hu := fun _ => by decide)
  (hv := fun _ => by decide) (denotes_fromContiguous (s := [2, 3])) (denotes_fromContiguous (s := [3]))

/-- **C59** (part). Matrix x matrix in a debug build. Missing (here and below): extents 0. -/
theorem C59_matmul_never_wrong_partial (h0 : lo ≤ 0 ∧ 0 ≤ hi) {a b : Arr (Chk lo hi)} {m k n : Nat} {u v : List Nat → Int}
    {hu : ∀ i, lo ≤ u i ∧ u i ≤ hi} {hv : ∀ i, lo ≤ v i ∧ v i ≤ hi} (ha : a.Denotes [m, k] fun i => .int (u i) (hu i))
    (hb : b.Denotes [k, n] fun i => .int (v i) (hv i)) (hm : 0 < m) (hk : 0 < k) (hn : 0 < n) :
    ∃ r f', a.matmul portableSop b = .ok r ∧ r.Denotes [m, n] f' ∧
      ∀ i < m, ∀ j < n, NeverWrong (f' [i, j]) (innerProduct k (fun t => u [i, t]) fun t => v [t, j]) := by
  have := closed_right (lo := lo) (hi := hi)
  obtain ⟨r, f', e1, e2, e3⟩ := transfer_matmul right_leaf (.inl rfl) ha hb hm hk hn
  exact ⟨r, f', e1, e2, fun i hi j hj => (e3 [i, j] ⟨hi, hj, trivial⟩).neverWrong h0⟩

example := C59_matmul_never_wrong_partial (lo := -128) (hi := 127) (by decide) (u := fun _ => 100) (v := fun _ => 3) (hu := fun _ => by decide)
  (hv := fun _ => by decide) (denotes_fromContiguous (s := [2, 3])) (denotes_fromContiguous (s := [3, 2])) (by decide) (by decide) (by decide)

/-- **C59** (part). `bmm` in a debug build. -/
theorem C59_bmm_never_wrong_partial (h0 : lo ≤ 0 ∧ 0 ≤ hi) {a b : Arr (Chk lo hi)} {B m k n : Nat} {u v : List Nat → Int}
    {hu : ∀ i, lo ≤ u i ∧ u i ≤ hi} {hv : ∀ i, lo ≤ v i ∧ v i ≤ hi} (ha : a.Denotes [B, m, k] fun i => .int (u i) (hu i))
    (hb : b.Denotes [B, k, n] fun i => .int (v i) (hv i)) (hB : 0 < B) (hm : 0 < m) (hk : 0 < k) (hn : 0 < n) :
    ∃ r f', a.bmm portableSop b = .ok r ∧ r.Denotes [B, m, n] f' ∧
      ∀ x < B, ∀ i < m, ∀ j < n, NeverWrong (f' [x, i, j]) (innerProduct k (fun t => u [x, i, t]) fun t => v [x, t, j]) := by
  have := closed_right (lo := lo) (hi := hi)
  obtain ⟨r, f', e1, e2, e3⟩ := transfer_bmm right_leaf (.inl rfl) ha hb hB hm hk hn
  exact ⟨r, f', e1, e2, fun x hx i hi j hj => (e3 [x, i, j] ⟨hx, hi, hj, trivial⟩).neverWrong h0⟩

example := C59_bmm_never_wrong_partial (lo := -128) (hi := 127) (by decide) (u := fun _ => 100) (v := fun _ => 3) (hu := fun _ => by decide)
  (hv := fun _ => by decide) (denotes_fromContiguous (s := [2, 2, 3])) (denotes_fromContiguous (s := [2, 3, 2])) (by decide) (by decide)
  (by decide) (by decide)

/-- **C59** (part). `einsum` in a debug build, of at most 15 operands; every element a number of the type. Missing: what
`C28_einsum_partial` leaves out. -/
theorem C59_einsum_never_wrong_partial (h0 : lo ≤ 0 ∧ 0 ≤ hi) {ops : List (Arr (Chk lo hi))} {fs : List (Factor Int)}
    {out rest : List Char} {dim : Char → Nat} (hw : WellFormed fs out rest dim)
    (hf : ∀ f ∈ fs, ∀ i, lo ≤ f.elem i ∧ f.elem i ≤ hi)
    (hd : List.Forall₂ (fun a f => a.Denotes (f.letters.map dim) fun i => .check (f.elem i)) ops fs) (hargs : ops.length < 16)
    (hdims : ∀ f ∈ fs, f.letters.length ≤ 32) (htot : (out ++ rest).length ≤ 32) (hne : out ++ rest ≠ []) :
    ∃ r f', einsum portableSop ops (fs.map (·.letters)) out = .ok r ∧ r.Denotes (out.map dim) f' ∧
      ∀ idx, InB idx (out.map dim) → NeverWrong (f' idx) (einsteinSum out rest dim fs idx) := by
  have := closed_right (lo := lo) (hi := hi)
  have hd' : List.Forall₂ (fun a (f : Factor (Chk lo hi)) => a.Denotes (f.letters.map dim) f.elem) ops
      (fs.map (Factor.map Chk.check)) := by
    rw [List.forall₂_map_right_iff]
    exact hd.imp fun a f h => h
  obtain ⟨r, f', e1, e2, e3⟩ := transfer_einsum right_leaf (.inl rfl) (wellFormed_map hw) hd' hargs
    (fun f hf => by obtain ⟨g, hg, rfl⟩ := List.mem_map.1 hf; exact hdims g hg) htot hne
  have el : (fs.map (Factor.map (Chk.check : Int → Chk lo hi))).map (Factor.map rightLeaf) = fs := by
    rw [List.map_map]
    conv_rhs => rw [← List.map_id fs]
    refine List.map_congr_left fun f hm => ?_
    cases f with
    | mk letters elem =>
      show Factor.mk letters _ = Factor.mk letters elem
      congr 1
      funext i
      show rightLeaf (Chk.check (elem i)) = elem i
      unfold Chk.check
      rw [dif_pos (hf _ hm i)]; rfl
  have ll : (fs.map (Factor.map (Chk.check : Int → Chk lo hi))).map (·.letters) = fs.map (·.letters) := by
    rw [List.map_map]; rfl
  rw [ll] at e1
  refine ⟨r, f', e1, e2, fun idx hi => ?_⟩
  have := e3 idx hi
  rw [el] at this
  exact this.neverWrong h0

example := C59_einsum_never_wrong_partial (lo := -128) (hi := 127) (by decide) (ein_wellFormed (fun _ => 100) fun _ => 3)
  (fun f hf i => by
    simp only [List.mem_cons, List.not_mem_nil, or_false] at hf
    rcases hf with rfl | rfl
    · exact show (-128 : Int) ≤ 100 ∧ (100 : Int) ≤ 127 by decide
    · exact show (-128 : Int) ≤ 3 ∧ (3 : Int) ≤ 127 by decide)
  (.cons (denotes_fromContiguous (s := [2, 3])) (.cons (denotes_fromContiguous (s := [3, 2])) .nil))
  (by simp) (by decide) (by decide) (by decide)

/-! ### debug builds do not panic when there is room

The condition bounds the sum of products of magnitudes, zeros counted as 1. -/

theorem FitsInt.value {B : Nat} {neg : Bool} {x : Chk lo hi} {t : Int × Nat} (h : FitsInt lo hi B neg x t) (hb : t.2 ≤ B) :
    x.value = some t.1 := by
  by_cases h0 : t.2 = 0
  · have h1 := h.le
    rw [h.fresh h0]
    show some 0 = some t.1
    congr 1
    omega
  · obtain ⟨i, hi⟩ := h.int h0 hb
    rw [hi]; rfl

theorem sign_cases {B : Nat} {P : Prop} (h : lo ≤ -(B : Int) ∨ lo ≤ 0 ∧ P) :
    ∃ neg : Bool, (if neg then lo ≤ -(B : Int) else lo ≤ 0) ∧ (neg = true ∨ P) := by
  rcases h with h | ⟨h, hp⟩
  · exact ⟨true, by simpa using h, .inl rfl⟩
  · exact ⟨false, by simpa using h, .inr hp⟩

theorem pair_inner (k : Nat) (u v : Nat → Int × Nat) : innerProduct k u v =
    (innerProduct k (fun t => (u t).1) (fun t => (v t).1), innerProduct k (fun t => (u t).2) fun t => (v t).2) :=
  Prod.ext (proj_innerProduct (RingHom.fst Int Nat) k u v) (proj_innerProduct (RingHom.snd Int Nat) k u v)

theorem fits_inner {B k : Nat} {neg : Bool} {x : Chk lo hi} {u v : Nat → Int} {hu : ∀ i, lo ≤ u i ∧ u i ≤ hi}
    {hv : ∀ i, lo ≤ v i ∧ v i ≤ hi} (h : FitsInt lo hi B neg x (innerProduct k (fun t => fitsLeaf B neg (.int (u t) (hu t) : Chk lo hi))
      fun t => fitsLeaf B neg (.int (v t) (hv t) : Chk lo hi))) (hs : neg = true ∨ (∀ t, 0 ≤ u t) ∧ ∀ t, 0 ≤ v t)
    (hb : innerProduct k (fun t => max 1 (u t).natAbs) (fun t => max 1 (v t).natAbs) ≤ B) :
    x.value = some (innerProduct k u v) := by
  have eu : ∀ t, fitsLeaf B neg (.int (u t) (hu t) : Chk lo hi) = (u t, max 1 (u t).natAbs) :=
    fun t => fitsLeaf_int (hs.imp id fun h => h.1 t)
  have ev : ∀ t, fitsLeaf B neg (.int (v t) (hv t) : Chk lo hi) = (v t, max 1 (v t).natAbs) :=
    fun t => fitsLeaf_int (hs.imp id fun h => h.2 t)
  simp only [eu, ev] at h
  rw [pair_inner] at h
  exact h.value hb

/-- **C59.** `dot` in a debug build: exact if the products of the magnitudes add up to at most `B`, where `-B..=B` belongs to the type,
or just `0..=B` if no element is negative. -/
theorem C59_dot_fits (h1 : lo ≤ 1 ∧ 1 ≤ hi) {B : Nat} (hhi : (B : Int) ≤ hi) {a b : Arr (Chk lo hi)} {k : Nat} {u v : List Nat → Int}
    (hlo : lo ≤ -(B : Int) ∨ lo ≤ 0 ∧ (∀ i, 0 ≤ u i) ∧ ∀ i, 0 ≤ v i)
    {hu : ∀ i, lo ≤ u i ∧ u i ≤ hi} {hv : ∀ i, lo ≤ v i ∧ v i ≤ hi} (ha : a.Denotes [k] fun i => .int (u i) (hu i))
    (hb : b.Denotes [k] fun i => .int (v i) (hv i))
    (hB : innerProduct k (fun t => max 1 (u [t]).natAbs) (fun t => max 1 (v [t]).natAbs) ≤ B) :
    ∃ r x, a.dot b = .ok r ∧ r.Denotes [] (fun _ => x) ∧ x.value = some (innerProduct k (fun t => u [t]) fun t => v [t]) := by
  obtain ⟨neg, hl, hs⟩ := sign_cases hlo
  have := closed_fits (neg := neg) h1 hhi hl
  obtain ⟨r, f', e1, e2, e3⟩ := transfer_dot (fits_leaf B neg) ha hb
  refine ⟨r, f' [], e1, e2.congr fun idx hi => ?_,
    fits_inner e3 (hs.imp id fun h => ⟨fun t => h.1 _, fun t => h.2 _⟩) hB⟩
  cases idx with
  | nil => rfl
  | cons => exact hi.elim

example := C59_dot_fits (lo := -128) (hi := 127) (by decide) (B := 127) (by decide) (u := fun _ => -10) (v := fun _ => 4) (.inl (by decide))
  (hu := fun _ => by decide) (hv := fun _ => by decide) (denotes_fromContiguous (s := [3])) (denotes_fromContiguous (s := [3])) (by decide)

/-- **C59.** Matrix x vector in a debug build. -/
theorem C59_matvec_fits (h1 : lo ≤ 1 ∧ 1 ≤ hi) {B : Nat} (hhi : (B : Int) ≤ hi) {a b : Arr (Chk lo hi)} {m k : Nat}
    {u v : List Nat → Int} (hlo : lo ≤ -(B : Int) ∨ lo ≤ 0 ∧ (∀ i, 0 ≤ u i) ∧ ∀ i, 0 ≤ v i)
    {hu : ∀ i, lo ≤ u i ∧ u i ≤ hi} {hv : ∀ i, lo ≤ v i ∧ v i ≤ hi} (ha : a.Denotes [m, k] fun i => .int (u i) (hu i))
    (hb : b.Denotes [k] fun i => .int (v i) (hv i))
    (hB : ∀ i < m, innerProduct k (fun t => max 1 (u [i, t]).natAbs) (fun t => max 1 (v [t]).natAbs) ≤ B) :
    ∃ r f', a.matmul portableSop b = .ok r ∧ r.Denotes [m] f' ∧
      ∀ i < m, (f' [i]).value = some (innerProduct k (fun t => u [i, t]) fun t => v [t]) := by
  obtain ⟨neg, hl, hs⟩ := sign_cases hlo
  have := closed_fits (neg := neg) h1 hhi hl
  obtain ⟨r, f', e1, e2, e3⟩ := transfer_matvec (fits_leaf B neg) (.inl rfl) ha hb
  exact ⟨r, f', e1, e2, fun i hi => fits_inner (u := fun t => u [i, t]) (v := fun t => v [t]) (e3 [i] ⟨hi, trivial⟩)
    (hs.imp id fun h => ⟨fun t => h.1 _, fun t => h.2 _⟩) (hB i hi)⟩

example := C59_matvec_fits (lo := -128) (hi := 127) (by decide) (B := 127) (by decide) (u := fun _ => -10) (v := fun _ => 4) (.inl (by decide))
  (hu := fun _ => by decide) (hv := fun _ => by decide) (denotes_fromContiguous (s := [2, 3])) (denotes_fromContiguous (s := [3])) (by decide)

/-- **C59** (part). Matrix x matrix in a debug build. -/
theorem C59_matmul_fits_partial (h1 : lo ≤ 1 ∧ 1 ≤ hi) {B : Nat} (hhi : (B : Int) ≤ hi) {a b : Arr (Chk lo hi)} {m k n : Nat}
    {u v : List Nat → Int} (hlo : lo ≤ -(B : Int) ∨ lo ≤ 0 ∧ (∀ i, 0 ≤ u i) ∧ ∀ i, 0 ≤ v i)
    {hu : ∀ i, lo ≤ u i ∧ u i ≤ hi} {hv : ∀ i, lo ≤ v i ∧ v i ≤ hi} (ha : a.Denotes [m, k] fun i => .int (u i) (hu i))
    (hb : b.Denotes [k, n] fun i => .int (v i) (hv i)) (hm : 0 < m) (hk : 0 < k) (hn : 0 < n)
    (hB : ∀ i < m, ∀ j < n, innerProduct k (fun t => max 1 (u [i, t]).natAbs) (fun t => max 1 (v [t, j]).natAbs) ≤ B) :
    ∃ r f', a.matmul portableSop b = .ok r ∧ r.Denotes [m, n] f' ∧
      ∀ i < m, ∀ j < n, (f' [i, j]).value = some (innerProduct k (fun t => u [i, t]) fun t => v [t, j]) := by
  obtain ⟨neg, hl, hs⟩ := sign_cases hlo
  have := closed_fits (neg := neg) h1 hhi hl
  obtain ⟨r, f', e1, e2, e3⟩ := transfer_matmul (fits_leaf B neg) (.inl rfl) ha hb hm hk hn
  exact ⟨r, f', e1, e2, fun i hi j hj => fits_inner (u := fun t => u [i, t]) (v := fun t => v [t, j])
    (e3 [i, j] ⟨hi, hj, trivial⟩) (hs.imp id fun h => ⟨fun t => h.1 _, fun t => h.2 _⟩) (hB i hi j hj)⟩

example := C59_matmul_fits_partial (lo := 0) (hi := 255) (by decide) (B := 255) (by decide) (u := fun _ => 10) (v := fun _ => 4)
  (.inr ⟨by decide, fun _ => by decide, fun _ => by decide⟩) (hu := fun _ => by decide) (hv := fun _ => by decide)
  (denotes_fromContiguous (s := [2, 3])) (denotes_fromContiguous (s := [3, 2])) (by decide) (by decide) (by decide) (by decide)

/-- **C59** (part). `bmm` in a debug build. -/
theorem C59_bmm_fits_partial (h1 : lo ≤ 1 ∧ 1 ≤ hi) {B : Nat} (hhi : (B : Int) ≤ hi) {a b : Arr (Chk lo hi)} {N m k n : Nat}
    {u v : List Nat → Int} (hlo : lo ≤ -(B : Int) ∨ lo ≤ 0 ∧ (∀ i, 0 ≤ u i) ∧ ∀ i, 0 ≤ v i)
    {hu : ∀ i, lo ≤ u i ∧ u i ≤ hi} {hv : ∀ i, lo ≤ v i ∧ v i ≤ hi} (ha : a.Denotes [N, m, k] fun i => .int (u i) (hu i))
    (hb : b.Denotes [N, k, n] fun i => .int (v i) (hv i)) (hN : 0 < N) (hm : 0 < m) (hk : 0 < k) (hn : 0 < n)
    (hB : ∀ x < N, ∀ i < m, ∀ j < n,
      innerProduct k (fun t => max 1 (u [x, i, t]).natAbs) (fun t => max 1 (v [x, t, j]).natAbs) ≤ B) :
    ∃ r f', a.bmm portableSop b = .ok r ∧ r.Denotes [N, m, n] f' ∧ ∀ x < N, ∀ i < m, ∀ j < n,
      (f' [x, i, j]).value = some (innerProduct k (fun t => u [x, i, t]) fun t => v [x, t, j]) := by
  obtain ⟨neg, hl, hs⟩ := sign_cases hlo
  have := closed_fits (neg := neg) h1 hhi hl
  obtain ⟨r, f', e1, e2, e3⟩ := transfer_bmm (fits_leaf B neg) (.inl rfl) ha hb hN hm hk hn
  exact ⟨r, f', e1, e2, fun x hx i hi j hj => fits_inner (u := fun t => u [x, i, t]) (v := fun t => v [x, t, j])
    (e3 [x, i, j] ⟨hx, hi, hj, trivial⟩) (hs.imp id fun h => ⟨fun t => h.1 _, fun t => h.2 _⟩) (hB x hx i hi j hj)⟩

example := C59_bmm_fits_partial (lo := 0) (hi := 255) (by decide) (B := 255) (by decide) (u := fun _ => 10) (v := fun _ => 4)
  (.inr ⟨by decide, fun _ => by decide, fun _ => by decide⟩) (hu := fun _ => by decide) (hv := fun _ => by decide)
  (denotes_fromContiguous (s := [2, 2, 3])) (denotes_fromContiguous (s := [2, 3, 2])) (by decide) (by decide) (by decide) (by decide)
  (by decide)

/-- **C59** (part). `einsum` in a debug build. -/
theorem C59_einsum_fits_partial (h1 : lo ≤ 1 ∧ 1 ≤ hi) {B : Nat} (hhi : (B : Int) ≤ hi) {ops : List (Arr (Chk lo hi))}
    {fs : List (Factor Int)} (hlo : lo ≤ -(B : Int) ∨ lo ≤ 0 ∧ ∀ f ∈ fs, ∀ i, 0 ≤ f.elem i)
    {out rest : List Char} {dim : Char → Nat} (hw : WellFormed fs out rest dim)
    (hf : ∀ f ∈ fs, ∀ i, lo ≤ f.elem i ∧ f.elem i ≤ hi)
    (hd : List.Forall₂ (fun a f => a.Denotes (f.letters.map dim) fun i => .check (f.elem i)) ops fs) (hargs : ops.length < 16)
    (hdims : ∀ f ∈ fs, f.letters.length ≤ 32) (htot : (out ++ rest).length ≤ 32) (hne : out ++ rest ≠ [])
    (hB : ∀ idx, InB idx (out.map dim) → einsteinSum out rest dim (fs.map (Factor.map fun z => max 1 z.natAbs)) idx ≤ B) :
    ∃ r f', einsum portableSop ops (fs.map (·.letters)) out = .ok r ∧ r.Denotes (out.map dim) f' ∧
      ∀ idx, InB idx (out.map dim) → (f' idx).value = some (einsteinSum out rest dim fs idx) := by
  obtain ⟨neg, hl, hs⟩ := sign_cases hlo
  have := closed_fits (neg := neg) h1 hhi hl
  have hd' : List.Forall₂ (fun a (f : Factor (Chk lo hi)) => a.Denotes (f.letters.map dim) f.elem) ops
      (fs.map (Factor.map Chk.check)) := by
    rw [List.forall₂_map_right_iff]
    exact hd.imp fun a f h => h
  obtain ⟨r, f', e1, e2, e3⟩ := transfer_einsum (fits_leaf B neg) (.inl rfl) (wellFormed_map hw) hd' hargs
    (fun f hf => by obtain ⟨g, hg, rfl⟩ := List.mem_map.1 hf; exact hdims g hg) htot hne
  have el : (fs.map (Factor.map (Chk.check : Int → Chk lo hi))).map (Factor.map (fitsLeaf B neg)) =
      fs.map (Factor.map fun z => (z, max 1 z.natAbs)) := by
    rw [List.map_map]
    refine List.map_congr_left fun f hm => ?_
    cases f with
    | mk letters elem =>
      show Factor.mk letters _ = Factor.mk letters _
      congr 1
      funext i
      show fitsLeaf B neg (Chk.check (elem i)) = _
      unfold Chk.check
      rw [dif_pos (hf _ hm i)]
      exact fitsLeaf_int (hs.imp id fun h => h _ hm i)
  have ll : (fs.map (Factor.map (Chk.check : Int → Chk lo hi))).map (·.letters) = fs.map (·.letters) := by
    rw [List.map_map]; rfl
  rw [ll] at e1
  refine ⟨r, f', e1, e2, fun idx hi => ?_⟩
  have h4 := e3 idx hi
  rw [el] at h4
  have p1 := proj_einsteinSum (RingHom.fst Int Nat) out rest dim (fs.map (Factor.map fun z => (z, max 1 z.natAbs))) idx
  have p2 := proj_einsteinSum (RingHom.snd Int Nat) out rest dim (fs.map (Factor.map fun z => (z, max 1 z.natAbs))) idx
  rw [List.map_map] at p1 p2
  have hid : fs.map (Factor.map (RingHom.fst Int Nat) ∘ Factor.map fun z => (z, max 1 z.natAbs)) = fs := by
    conv_rhs => rw [← List.map_id fs]
    exact List.map_congr_left fun f _ => rfl
  rw [hid] at p1
  have h5 := h4.value (p2.le.trans (hB idx hi))
  rw [h5]
  exact congrArg some p1

example := C59_einsum_fits_partial (lo := -128) (hi := 127) (by decide) (B := 127) (by decide) (.inl (by decide))
  (ein_wellFormed (fun _ => -10) fun _ => 4)
  (fun f hf i => by
    simp only [List.mem_cons, List.not_mem_nil, or_false] at hf
    rcases hf with rfl | rfl
    · exact show (-128 : Int) ≤ -10 ∧ (-10 : Int) ≤ 127 by decide
    · exact show (-128 : Int) ≤ 4 ∧ (4 : Int) ≤ 127 by decide)
  (.cons (denotes_fromContiguous (s := [2, 3])) (.cons (denotes_fromContiguous (s := [3, 2])) .nil))
  (by simp) (by decide) (by decide) (by decide)
  (fun idx _ => (show _ = 120 from rfl).trans_le (by decide))

/-- **C59 is false** of products with a broadcast operand in a debug build: in `i8`, rows of broadcast zeros times rows `[100, 100]` are 0,
but the sum of the second operand's row is formed first and overflows. -/
theorem C59_scaled_false :
    (do
      let z ← (Arr.fromContiguousOwnedBuffer [1] [(.int 0 (by decide) : Chk (-128) 127)]).broadcastTo [2, 2]
      let r ← einsum portableSop [z, Arr.fromContiguousOwnedBuffer [2, 2] (List.replicate 4 (.int 100 (by decide)))]
        [['i', 'j'], ['i', 'j']] ['i']
      return r.buf.map Chk.value) = .ok [none, none] := by decide

example : (do
      let r ← (Arr.fromContiguousOwnedBuffer [2, 2] [(.int 5 (by decide) : Chk (-128) 127), .int 7 (by decide), .int 0 (by decide),
        .int (-9) (by decide)]).matmul portableSop (Arr.fromContiguousOwnedBuffer [2, 2] [.int 3 (by decide), .int 8 (by decide),
        .int 2 (by decide), .int 12 (by decide)])
      return r.buf.map Chk.value) = .ok [some 29, some 124, some (-18), some (-108)] := by decide
example : innerProduct 2 (fun t => max 1 ([5, 7].getD t 0 : Int).natAbs) (fun t => max 1 ([8, 12].getD t 0 : Int).natAbs) ≤ 127 := by decide
example : ((127 : Nat) : Int) ≤ 127 ∧ (-128 : Int) ≤ -((127 : Nat) : Int) := by decide

/-! ### release builds -/

/-- **C59** (part). `trace` in a release build: exact modulo the number `n` of values of the type. -/
theorem C59_trace_release {n : Nat} {a : Arr (ZMod n)} {s : List Nat} {u : List Nat → Int}
    (ha : a.Denotes s fun i => (u i : ZMod n)) (hd : s.length ≤ 32)
    {o ax1 ax2 : Int} {i j n1 n2 : Nat} (h1 : AxisIs ax1 s.length i) (h2 : AxisIs ax2 s.length j) (hij : i ≠ j)
    (hn1 : s[i]? = some n1) (hn2 : s[j]? = some n2) (ho1 : -o < n1 ∨ 0 ≤ o) (ho2 : o < n2 ∨ o < 0) :
    ∃ r, a.offsetTraceAlong o ax1 ax2 = .ok r ∧ r.Denotes (others i j s) fun J =>
      ((((List.range (min (n1 - (-o).toNat) (n2 - o.toNat))).map fun k =>
        u (putTwo i (k + (-o).toNat) j (k + o.toNat) s.length 0 J)).sum : Int) : ZMod n) := by
  obtain ⟨r, e1, e2⟩ := C34_trace_along ha hd h1 h2 hij hn1 hn2 ho1 ho2
  exact ⟨r, e1, e2.congr fun J _ => (proj_sum (Int.castRingHom (ZMod n)) _ _).symm⟩

example := C59_trace_release (n := 256) (denotes_fromContiguous (s := [3, 2]) (f := fun i => ((100 * i.getD 0 0 : Int) : ZMod 256)))
  (by decide) (o := -1) (ax1 := 0) (ax2 := -1) (i := 0) (j := 1)
  (n1 := 3) (n2 := 2) ⟨by decide, by decide⟩ ⟨by decide, by decide⟩ (by decide) rfl rfl (by decide) (by decide)

/-- **C59** (part). `bmm` in a release build. -/
theorem C59_bmm_release_partial {N : Nat} {a b : Arr (ZMod N)} {B m k n : Nat} {u v : List Nat → Int}
    (ha : a.Denotes [B, m, k] fun i => (u i : ZMod N)) (hb : b.Denotes [B, k, n] fun i => (v i : ZMod N)) (hB : 0 < B) (hm : 0 < m)
    (hk : 0 < k) (hn : 0 < n) :
    ∃ r, a.bmm portableSop b = .ok r ∧ r.Denotes [B, m, n] fun idx =>
      ((innerProduct k (fun t => u [idx.getD 0 0, idx.getD 1 0, t]) (fun t => v [idx.getD 0 0, t, idx.getD 2 0]) : Int) : ZMod N) := by
  obtain ⟨r, e1, e2⟩ := C31_bmm_partial portableSop_correct ha hb hB hm hk hn
  exact ⟨r, e1, e2.congr fun _ _ => cast_innerProduct N k _ _⟩

example := C59_bmm_release_partial (N := 256) (denotes_fromContiguous (s := [2, 2, 3]) (f := fun i => ((100 * i.getD 0 0 : Int) : ZMod 256)))
  (denotes_fromContiguous (s := [2, 3, 2]) (f := fun _ => ((7 : Int) : ZMod 256))) (by decide) (by decide) (by decide) (by decide)

/-- **C59** (part). `einsum` in a release build. -/
theorem C59_einsum_release_partial {N : Nat} {ops : List (Arr (ZMod N))} {fs : List (Factor Int)} {out rest : List Char}
    {dim : Char → Nat} (hw : WellFormed fs out rest dim)
    (hd : List.Forall₂ (fun a f => a.Denotes (f.letters.map dim) fun i => (f.elem i : ZMod N)) ops fs) (hargs : ops.length < 16)
    (hdims : ∀ f ∈ fs, f.letters.length ≤ 32) (htot : (out ++ rest).length ≤ 32) (hne : out ++ rest ≠ []) :
    ∃ r, einsum portableSop ops (fs.map (·.letters)) out = .ok r ∧
      r.Denotes (out.map dim) fun idx => ((einsteinSum out rest dim fs idx : Int) : ZMod N) := by
  have hd' : List.Forall₂ (fun a (f : Factor (ZMod N)) => a.Denotes (f.letters.map dim) f.elem) ops
      (fs.map (Factor.map (Int.castRingHom (ZMod N)))) := by
    rw [List.forall₂_map_right_iff]
    exact hd.imp fun a f h => h
  obtain ⟨r, e1, e2⟩ := C28_einsum_partial portableSop_correct (wellFormed_map hw) hd' hargs
    (fun f hf => by obtain ⟨g, hg, rfl⟩ := List.mem_map.1 hf; exact hdims g hg) htot hne
  have ll : (fs.map (Factor.map (Int.castRingHom (ZMod N)))).map (·.letters) = fs.map (·.letters) := by
    rw [List.map_map]; rfl
  rw [ll] at e1
  exact ⟨r, e1, e2.congr fun idx _ => (proj_einsteinSum (Int.castRingHom (ZMod N)) out rest dim fs idx).symm⟩

example := C59_einsum_release_partial (N := 256) (ein_wellFormed (fun i => (100 * i.getD 0 0 : Int)) fun _ => 7)
  (.cons (denotes_fromContiguous (s := [2, 3])) (.cons (denotes_fromContiguous (s := [3, 2])) .nil))
  (by simp) (by decide) (by decide) (by decide)

end Verif
