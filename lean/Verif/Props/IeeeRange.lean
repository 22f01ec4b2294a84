import Verif.Lemmas.IeeeRange
import Verif.Props.Ieee

/-!
# C69 no spurious overflow or underflow

IEEE numbers again. `Moderate q x`: `x` is finite and a multiple of `2^-q`. `Whole x`: `x` is a finite integer. The magnitude of every
intermediate value is bounded by the expression on `max 1 |x|`; `-tiny p emax` is 149 for `f32` and 1074 for `f64`.
-/

namespace Verif

open Polynomial

variable {p emax : Nat} [NeZero p] [NeZero emax] {q : Nat}

theorem within_finish {x : Ieee p emax} {s : Budget} (h : Tagged.Rel Budget.Pos (Within q) x (.live s)) {e b w : ℚ} {m n : Nat}
    (hs : s = (e, b, w, C m * X ^ n)) (hm : m ≠ 0) (hr : w * (1 + unitRoundoff p) ^ (m - 1 + (n - 1)) < 2 ^ (emax + 1))
    (hq : (q * n : ℤ) ≤ -tiny p emax) : x.Finite ∧ AccurateTo p (m - 1 + (n - 1)) x.val e b := by
  subst hs
  have hin : Budget.InRange p emax q (e, b, w, C m * X ^ n) := by
    refine ⟨lt_of_le_of_lt ?_ hr, ?_⟩
    · refine mul_le_mul_of_nonneg_left (pow_le_pow_right₀ (by linarith [unitRoundoff_pos p]) (roundings_le m n)) ?_
      have := h.1.one_le
      change 1 ≤ w at this
      linarith
    · show (q * (C m * X ^ n : ℕ[X]).natDegree : ℤ) ≤ _
      rw [natDegree_C_mul_X_pow n m hm]; exact hq
  obtain ⟨y, h1, h2, h3, _⟩ := h.2 hin
  exact ⟨h1, by rw [h2]; exact (approx_accurate h3 rfl rfl rfl).2⟩

theorem budget_sum {ι : Type} {l : List ι} {g : ι → Ieee p emax} (hl : ∀ i ∈ l, Moderate q (g i)) :
    (l.map fun i => budgetLeaf q (g i)).sum =
      ((l.map fun i => (g i).val).sum, (l.map fun i => |(g i).val|).sum, (l.map fun i => max 1 |(g i).val|).sum,
        C l.length * X ^ 1) := by
  rw [List.map_congr_left fun i hi => budgetLeaf_moderate (hl i hi)]
  refine Prod.ext (proj_sum (RingHom.fst ℚ (ℚ × ℚ × ℕ[X])) l _) (Prod.ext ?_ (Prod.ext ?_ ?_))
  · exact proj_sum ((RingHom.fst ℚ (ℚ × ℕ[X])).comp (RingHom.snd ℚ (ℚ × ℚ × ℕ[X]))) l _
  · exact proj_sum ((RingHom.fst ℚ ℕ[X]).comp ((RingHom.snd ℚ (ℚ × ℕ[X])).comp (RingHom.snd ℚ (ℚ × ℚ × ℕ[X])))) l _
  · exact (proj_sum ((RingHom.snd ℚ ℕ[X]).comp ((RingHom.snd ℚ (ℚ × ℕ[X])).comp (RingHom.snd ℚ (ℚ × ℚ × ℕ[X])))) l _).trans
      (count_sum l)

theorem budget_prod {ι : Type} {l : List ι} {g : ι → Ieee p emax} (hl : ∀ i ∈ l, Moderate q (g i)) :
    (l.map fun i => budgetLeaf q (g i)).prod =
      ((l.map fun i => (g i).val).prod, (l.map fun i => |(g i).val|).prod, (l.map fun i => max 1 |(g i).val|).prod,
        C 1 * X ^ l.length) := by
  rw [List.map_congr_left fun i hi => budgetLeaf_moderate (hl i hi)]
  refine Prod.ext (proj_prod (RingHom.fst ℚ (ℚ × ℚ × ℕ[X])) l _) (Prod.ext ?_ (Prod.ext ?_ ?_))
  · exact proj_prod ((RingHom.fst ℚ (ℚ × ℕ[X])).comp (RingHom.snd ℚ (ℚ × ℚ × ℕ[X]))) l _
  · exact proj_prod ((RingHom.fst ℚ ℕ[X]).comp ((RingHom.snd ℚ (ℚ × ℕ[X])).comp (RingHom.snd ℚ (ℚ × ℚ × ℕ[X])))) l _
  · exact (proj_prod ((RingHom.snd ℚ ℕ[X]).comp ((RingHom.snd ℚ (ℚ × ℕ[X])).comp (RingHom.snd ℚ (ℚ × ℚ × ℕ[X])))) l _).trans
      (count_prod l)

theorem budget_inner {k : Nat} {a b : Nat → Ieee p emax} (ha : ∀ t < k, Moderate q (a t)) (hb : ∀ t < k, Moderate q (b t)) :
    innerProduct k (fun t => budgetLeaf q (a t)) (fun t => budgetLeaf q (b t)) =
      (innerProduct k (fun t => (a t).val) (fun t => (b t).val), innerProduct k (fun t => |(a t).val|) (fun t => |(b t).val|),
        innerProduct k (fun t => max 1 |(a t).val|) (fun t => max 1 |(b t).val|), C k * X ^ 2) := by
  have e : innerProduct k (fun t => budgetLeaf q (a t)) (fun t => budgetLeaf q (b t)) =
      innerProduct k (fun t => ((a t).val, |(a t).val|, max 1 |(a t).val|, (X : ℕ[X])))
        fun t => ((b t).val, |(b t).val|, max 1 |(b t).val|, (X : ℕ[X])) := by
    unfold innerProduct
    rw [List.map_congr_left fun t hm => ?_]
    have ht := List.mem_range.1 hm
    change budgetLeaf q (a t) * budgetLeaf q (b t) = _
    rw [budgetLeaf_moderate (ha t ht), budgetLeaf_moderate (hb t ht)]
  rw [e]
  refine Prod.ext (proj_innerProduct (RingHom.fst ℚ (ℚ × ℚ × ℕ[X])) k _ _) (Prod.ext ?_ (Prod.ext ?_ ?_))
  · exact proj_innerProduct ((RingHom.fst ℚ (ℚ × ℕ[X])).comp (RingHom.snd ℚ (ℚ × ℚ × ℕ[X]))) k _ _
  · exact proj_innerProduct ((RingHom.fst ℚ ℕ[X]).comp ((RingHom.snd ℚ (ℚ × ℕ[X])).comp (RingHom.snd ℚ (ℚ × ℚ × ℕ[X])))) k _ _
  · exact (proj_innerProduct ((RingHom.snd ℚ ℕ[X]).comp ((RingHom.snd ℚ (ℚ × ℕ[X])).comp (RingHom.snd ℚ (ℚ × ℚ × ℕ[X])))) k _ _).trans
      (count_innerProduct k)

theorem einsteinSum_congr {α β : Type} [Mul β] [One β] [Add β] [Zero β] {φ ψ : α → β} {out rest : List Char} {dim : Char → Nat}
    {fs : List (Factor α)} {o : List Nat} (h : ∀ x ∈ entering out rest dim fs o, φ x = ψ x) :
    einsteinSum out rest dim (fs.map (Factor.map φ)) o = einsteinSum out rest dim (fs.map (Factor.map ψ)) o := by
  unfold einsteinSum
  rw [List.map_congr_left fun r hr => ?_]
  rw [List.map_map, List.map_map, List.map_congr_left fun f hf => ?_]
  exact h _ (List.mem_flatMap.2 ⟨r, hr, List.mem_map_of_mem hf⟩)

theorem budget_einsteinSum {out rest : List Char} {dim : Char → Nat} {fs : List (Factor (Ieee p emax))} {o : List Nat}
    (h : ∀ x ∈ entering out rest dim fs o, Moderate q x) :
    einsteinSum out rest dim (fs.map (Factor.map (budgetLeaf q))) o =
      (einsteinSum out rest dim (fs.map (Factor.map Ieee.val)) o, einsteinSum out rest dim (fs.map (Factor.map fun x => |x.val|)) o,
        einsteinSum out rest dim (fs.map (Factor.map fun x => max 1 |x.val|)) o, C (numel (rest.map dim)) * X ^ fs.length) := by
  rw [einsteinSum_congr fun x hx => budgetLeaf_moderate (h x hx)]
  refine Prod.ext ?_ (Prod.ext ?_ (Prod.ext ?_ ?_))
  · refine (proj_einsteinSum (RingHom.fst ℚ (ℚ × ℚ × ℕ[X])) out rest dim _ o).trans ?_
    rw [List.map_map]; rfl
  · refine (proj_einsteinSum ((RingHom.fst ℚ (ℚ × ℕ[X])).comp (RingHom.snd ℚ (ℚ × ℚ × ℕ[X]))) out rest dim _ o).trans ?_
    rw [List.map_map]; rfl
  · refine (proj_einsteinSum ((RingHom.fst ℚ ℕ[X]).comp ((RingHom.snd ℚ (ℚ × ℕ[X])).comp (RingHom.snd ℚ (ℚ × ℚ × ℕ[X])))) out rest
      dim _ o).trans ?_
    rw [List.map_map]; rfl
  · refine (proj_einsteinSum ((RingHom.snd ℚ ℕ[X]).comp ((RingHom.snd ℚ (ℚ × ℕ[X])).comp (RingHom.snd ℚ (ℚ × ℚ × ℕ[X])))) out rest
      dim _ o).trans ?_
    rw [List.map_map]
    exact count_einsteinSum out rest dim fs o

/-- An element of a format is a multiple of the least positive number. -/
theorem moderate_of_finite {x : Ieee p emax} (h : x.Finite) : Moderate (emax + p - 2) x := by
  refine ⟨h, (Ieee.isNumber_val x).grid.mono ?_⟩
  have := Nat.pos_of_neZero p
  have := Nat.pos_of_neZero emax
  unfold tiny; omega

theorem range_sum {ι : Type} {l : List ι} {g : ι → Ieee p emax} {v : Ieee p emax}
    (h : Tagged.Rel Budget.Pos (Within (emax + p - 2)) v (l.map fun i => .live (budgetLeaf (emax + p - 2) (g i))).sum)
    (hl : ∀ i ∈ l, (g i).Finite) (hr : (l.map fun i => max 1 |(g i).val|).sum * (1 + unitRoundoff p) ^ (l.length - 1) < 2 ^ (emax + 1)) :
    v.Finite ∧ AccurateTo p (l.length - 1) v.val (l.map fun i => (g i).val).sum (l.map fun i => |(g i).val|).sum := by
  by_cases h0 : l = []
  · subst h0
    have : v = 0 := h
    subst this
    exact ⟨trivial, by simp [AccurateTo, Ieee.zero_val]⟩
  · rw [Tagged.sum_live h0, budget_sum fun i hi => moderate_of_finite (hl i hi)] at h
    have := within_finish h rfl (by simpa using h0) (by simpa using hr) (by
      have := Nat.pos_of_neZero p
      have := Nat.pos_of_neZero emax
      unfold tiny; omega)
    simpa using this

theorem range_prod {ι : Type} {l : List ι} {g : ι → Ieee p emax} {v : Ieee p emax}
    (h : Tagged.Rel Budget.Pos (Within q) v (l.map fun i => .live (budgetLeaf q (g i))).prod)
    (hl : ∀ i ∈ l, Moderate q (g i)) (hr : (l.map fun i => max 1 |(g i).val|).prod * (1 + unitRoundoff p) ^ (l.length - 1) < 2 ^ (emax + 1))
    (hq : (q * l.length : ℤ) ≤ -tiny p emax) :
    v.Finite ∧ AccurateTo p (l.length - 1) v.val (l.map fun i => (g i).val).prod (l.map fun i => |(g i).val|).prod := by
  by_cases h0 : l = []
  · subst h0
    have : v = 1 := h
    subst this
    exact ⟨trivial, by simp [AccurateTo, Ieee.one_val]⟩
  · rw [Tagged.prod_live h0, budget_prod hl] at h
    have := within_finish h rfl one_ne_zero (by simpa using hr) (by simpa using hq)
    simpa using this

theorem range_inner {k : Nat} {a b : Nat → Ieee p emax} {v : Ieee p emax}
    (h : Tagged.Rel Budget.Pos (Within q) v (innerProduct k (fun t => .live (budgetLeaf q (a t))) fun t => .live (budgetLeaf q (b t))))
    (ha : ∀ t < k, Moderate q (a t)) (hb : ∀ t < k, Moderate q (b t))
    (hr : innerProduct k (fun t => max 1 |(a t).val|) (fun t => max 1 |(b t).val|) * (1 + unitRoundoff p) ^ k < 2 ^ (emax + 1))
    (hq : (2 * q : ℤ) ≤ -tiny p emax) :
    v.Finite ∧ AccurateTo p k v.val (innerProduct k (fun t => (a t).val) fun t => (b t).val)
      (innerProduct k (fun t => |(a t).val|) fun t => |(b t).val|) := by
  rcases Nat.eq_zero_or_pos k with h0 | h0
  · subst h0
    have : v = 0 := h
    subst this
    exact ⟨trivial, by simp [AccurateTo, Ieee.zero_val, innerProduct]⟩
  · rw [Tagged.inner_live h0, budget_inner ha hb] at h
    have e : k - 1 + (2 - 1) = k := by omega
    have := within_finish h rfl (by omega) (by rw [e]; exact hr) (by push_cast; linarith)
    rwa [e] at this

/-- **C69** (part): `sum` of finite numbers, portable and vector kernels. Missing: the broadcast views excluded in C09. -/
theorem C69_sum_partial {K : RedKernels (Ieee p emax)} (hK : StockSum K) {a : Arr (Ieee p emax)} {s : List Nat}
    {f : List Nat → Ieee p emax} (ha : a.Denotes s f) (hd : s.length ≤ 32) (hg : Reducible s a.stride)
    (hf : ∀ idx, InB idx s → (f idx).Finite)
    (hr : (elements s fun i => max 1 |(f i).val|).sum * (1 + unitRoundoff p) ^ (numel s - 1) < 2 ^ (emax + 1)) :
    ∃ r v, a.reduceAll (fun v acc => acc + v) 0 K = .ok r ∧ r.Denotes [] (fun _ => v) ∧ v.Finite ∧
      AccurateTo p (numel s - 1) v.val (elements s fun i => (f i).val).sum (elements s fun i => |(f i).val|).sum := by
  obtain ⟨r, f', h1, h2, h3⟩ := transfer_sum (within_leaf (emax + p - 2)) hK ha hd hg
  refine ⟨r, f' [], h1, denotes_nil h2, ?_⟩
  have := range_sum h3 (fun i hi => hf i (mem_indices.1 hi)) (by rw [length_indices]; exact hr)
  rwa [length_indices] at this

example := C69_sum_partial (K := simdRed (fun v acc => acc + v) (fun x y => x + y) 0 4) (.inr (.inr rfl))
  (denotes_fromContiguous (s := [3, 2]) (f := fun _ => (Ieee.ofRat 7 : F32))) (by decide) (.inr (by decide)) (fun _ _ => by decide +kernel) (by decide +kernel)

/-- **C69** (part): `product`. Missing: as for `sum`. -/
theorem C69_product_partial {K : RedKernels (Ieee p emax)} (hK : StockProduct K) {a : Arr (Ieee p emax)} {s : List Nat}
    {f : List Nat → Ieee p emax} (ha : a.Denotes s f) (hd : s.length ≤ 32) (hg : Reducible s a.stride)
    (hf : ∀ idx, InB idx s → Moderate q (f idx)) (hq : (q * numel s : ℤ) ≤ -tiny p emax)
    (hr : (elements s fun i => max 1 |(f i).val|).prod * (1 + unitRoundoff p) ^ (numel s - 1) < 2 ^ (emax + 1)) :
    ∃ r v, a.reduceAll (fun v acc => acc * v) 1 K = .ok r ∧ r.Denotes [] (fun _ => v) ∧ v.Finite ∧
      AccurateTo p (numel s - 1) v.val (elements s fun i => (f i).val).prod (elements s fun i => |(f i).val|).prod := by
  obtain ⟨r, f', h1, h2, h3⟩ := transfer_product (within_leaf q) hK ha hd hg
  refine ⟨r, f' [], h1, denotes_nil h2, ?_⟩
  have := range_prod h3 (fun i hi => hf i (mem_indices.1 hi)) (by rw [length_indices]; exact hr) (by rw [length_indices]; exact hq)
  rwa [length_indices] at this

example := C69_product_partial (q := 3) (K := simdProduct (fun v acc => acc * v) (fun x y => x * y) 1 4) (.inr (.inr rfl))
  (denotes_fromContiguous (s := [3, 2]) (f := fun _ => (Ieee.ofRat 7 : F32))) (by decide) (.inr (by decide)) (fun _ _ => ⟨by decide +kernel, 7 * 2 ^ 3, by decide +kernel⟩) (by decide) (by decide +kernel)

/-- **C69**: `sum_along`: only the fibre of the entry matters. -/
theorem C69_sum_along {a : Arr (Ieee p emax)} {s : List Nat} {f : List Nat → Ieee p emax} (ha : a.Denotes s f)
    (hd : s.length ≤ 32) {axes : List Int} {ks : List Nat} (hax : AxesAre axes s.length ks) (hnd : ks.Nodup) :
    ∃ r f', a.sumAlong axes = .ok r ∧ r.Denotes (dropAxes ks s) f' ∧ ∀ J, InB J (dropAxes ks s) →
      (∀ i ∈ fibre ks s J, (f i).Finite) →
      ((fibre ks s J).map fun i => max 1 |(f i).val|).sum * (1 + unitRoundoff p) ^ ((fibre ks s J).length - 1) < 2 ^ (emax + 1) →
      (f' J).Finite ∧ AccurateTo p ((fibre ks s J).length - 1) (f' J).val ((fibre ks s J).map fun i => (f i).val).sum
        ((fibre ks s J).map fun i => |(f i).val|).sum := by
  obtain ⟨r, f', h1, h2, h3⟩ := transfer_sumAlong (within_leaf (emax + p - 2)) ha hd hax hnd
  exact ⟨r, f', h1, h2, fun J hJ hf hr => range_sum (h3 J hJ) hf hr⟩

example := C69_sum_along (denotes_fromContiguous (s := [3, 2]) (f := fun _ => (Ieee.ofRat 7 : F32))) (by decide) (axes := [-1]) (ks := [1])
  ⟨⟨by decide, by decide⟩, trivial⟩ (by decide)

/-- **C69**: `product_along`. -/
theorem C69_product_along (q : Nat) {a : Arr (Ieee p emax)} {s : List Nat} {f : List Nat → Ieee p emax} (ha : a.Denotes s f)
    (hd : s.length ≤ 32) {axes : List Int} {ks : List Nat} (hax : AxesAre axes s.length ks) (hnd : ks.Nodup) :
    ∃ r f', a.productAlong axes = .ok r ∧ r.Denotes (dropAxes ks s) f' ∧ ∀ J, InB J (dropAxes ks s) →
      (∀ i ∈ fibre ks s J, Moderate q (f i)) → (q * (fibre ks s J).length : ℤ) ≤ -tiny p emax →
      ((fibre ks s J).map fun i => max 1 |(f i).val|).prod * (1 + unitRoundoff p) ^ ((fibre ks s J).length - 1) < 2 ^ (emax + 1) →
      (f' J).Finite ∧ AccurateTo p ((fibre ks s J).length - 1) (f' J).val ((fibre ks s J).map fun i => (f i).val).prod
        ((fibre ks s J).map fun i => |(f i).val|).prod := by
  obtain ⟨r, f', h1, h2, h3⟩ := transfer_productAlong (within_leaf q) ha hd hax hnd
  exact ⟨r, f', h1, h2, fun J hJ hf hq hr => range_prod (h3 J hJ) hf hr hq⟩

example := C69_product_along 3 (denotes_fromContiguous (s := [3, 2]) (f := fun _ => (Ieee.ofRat 7 : F32))) (by decide) (axes := [-1]) (ks := [1])
  ⟨⟨by decide, by decide⟩, trivial⟩ (by decide)

/-- **C69**: traces. -/
theorem C69_trace_along {a : Arr (Ieee p emax)} {s : List Nat} {f : List Nat → Ieee p emax} (ha : a.Denotes s f)
    (hd : s.length ≤ 32) {o ax1 ax2 : Int} {i j n1 n2 : Nat} (h1 : AxisIs ax1 s.length i) (h2 : AxisIs ax2 s.length j)
    (hij : i ≠ j) (hn1 : s[i]? = some n1) (hn2 : s[j]? = some n2) (ho1 : -o < n1 ∨ 0 ≤ o) (ho2 : o < n2 ∨ o < 0) :
    ∃ r f', a.offsetTraceAlong o ax1 ax2 = .ok r ∧ r.Denotes (others i j s) f' ∧ ∀ J, InB J (others i j s) →
      ∀ n, n = min (n1 - (-o).toNat) (n2 - o.toNat) → ∀ d : Nat → Ieee p emax,
      (∀ k, d k = f (putTwo i (k + (-o).toNat) j (k + o.toNat) s.length 0 J)) → (∀ k < n, (d k).Finite) →
      ((List.range n).map fun k => max 1 |(d k).val|).sum * (1 + unitRoundoff p) ^ (n - 1) < 2 ^ (emax + 1) →
      (f' J).Finite ∧ AccurateTo p (n - 1) (f' J).val ((List.range n).map fun k => (d k).val).sum
        ((List.range n).map fun k => |(d k).val|).sum := by
  obtain ⟨r, f', g1, g2, g3⟩ := transfer_traceAlong (within_leaf (emax + p - 2)) ha hd h1 h2 hij hn1 hn2 ho1 ho2
  refine ⟨r, f', g1, g2, fun J hJ n hn d hdd hf hr => ?_⟩
  have h := g3 J hJ
  simp only [← hdd, ← hn] at h
  have := range_sum h (fun k hk => hf k (List.mem_range.1 hk)) (by rw [List.length_range]; exact hr)
  rwa [List.length_range] at this

example := C69_trace_along (denotes_fromContiguous (s := [3, 2]) (f := fun _ => (Ieee.ofRat 7 : F32))) (by decide) (o := -1) (ax1 := 0) (ax2 := -1) (i := 0) (j := 1)
  (n1 := 3) (n2 := 2) ⟨by decide, by decide⟩ ⟨by decide, by decide⟩ (by decide) rfl rfl (by decide) (by decide)

/-- **C69**: `dot`. -/
theorem C69_dot {a b : Arr (Ieee p emax)} {n : Nat} {f g : List Nat → Ieee p emax} (ha : a.Denotes [n] f) (hb : b.Denotes [n] g)
    (hf : ∀ i < n, Moderate q (f [i])) (hg : ∀ i < n, Moderate q (g [i])) (hq : (2 * q : ℤ) ≤ -tiny p emax)
    (hr : innerProduct n (fun i => max 1 |(f [i]).val|) (fun i => max 1 |(g [i]).val|) * (1 + unitRoundoff p) ^ n < 2 ^ (emax + 1)) :
    ∃ r v, a.dot b = .ok r ∧ r.Denotes [] (fun _ => v) ∧ v.Finite ∧
      AccurateTo p n v.val (innerProduct n (fun i => (f [i]).val) fun i => (g [i]).val)
        (innerProduct n (fun i => |(f [i]).val|) fun i => |(g [i]).val|) := by
  obtain ⟨r, f', h1, h2, h3⟩ := transfer_dot (within_leaf q) ha hb
  exact ⟨r, f' [], h1, denotes_nil h2, range_inner h3 hf hg hr hq⟩

example := C69_dot (q := 3) (denotes_fromContiguous (s := [3]) (f := fun _ => (Ieee.ofRat 7 : F32))) (denotes_fromContiguous (s := [3]) (f := fun _ => (Ieee.ofRat 7 : F32)))
  (fun _ _ => ⟨by decide +kernel, 7 * 2 ^ 3, by decide +kernel⟩) (fun _ _ => ⟨by decide +kernel, 7 * 2 ^ 3, by decide +kernel⟩) (by decide) (by decide +kernel)

/-- **C69**: matrix x vector: only the row of the entry matters. -/
theorem C69_matvec {K : SopKernels (Ieee p emax)} (hK : StockSop K) {a b : Arr (Ieee p emax)} {m k : Nat}
    {f g : List Nat → Ieee p emax} (ha : a.Denotes [m, k] f) (hb : b.Denotes [k] g) (hq : (2 * q : ℤ) ≤ -tiny p emax) :
    ∃ r f', a.matmul K b = .ok r ∧ r.Denotes [m] f' ∧ ∀ i < m,
      (∀ t < k, Moderate q (f [i, t])) → (∀ t < k, Moderate q (g [t])) →
      innerProduct k (fun t => max 1 |(f [i, t]).val|) (fun t => max 1 |(g [t]).val|) * (1 + unitRoundoff p) ^ k < 2 ^ (emax + 1) →
      (f' [i]).Finite ∧ AccurateTo p k (f' [i]).val (innerProduct k (fun t => (f [i, t]).val) fun t => (g [t]).val)
        (innerProduct k (fun t => |(f [i, t]).val|) fun t => |(g [t]).val|) := by
  obtain ⟨r, f', h1, h2, h3⟩ := transfer_matvec (within_leaf q) hK ha hb
  exact ⟨r, f', h1, h2, fun i hi hf hg hr => range_inner (h3 [i] ⟨hi, trivial⟩) hf hg hr hq⟩

example := C69_matvec (q := 3) (K := simdSop 4) (.inr (.inr rfl)) (denotes_fromContiguous (s := [2, 3]) (f := fun _ => (Ieee.ofRat 7 : F32)))
  (denotes_fromContiguous (s := [3]) (f := fun _ => (Ieee.ofRat 7 : F32))) (by decide)

/-- **C69** (part): matrix x matrix. Missing: extents 0. -/
theorem C69_matmul_partial {K : SopKernels (Ieee p emax)} (hK : StockSop K) {a b : Arr (Ieee p emax)} {m k n : Nat}
    {f g : List Nat → Ieee p emax} (ha : a.Denotes [m, k] f) (hb : b.Denotes [k, n] g) (hm : 0 < m) (hk : 0 < k) (hn : 0 < n)
    (hq : (2 * q : ℤ) ≤ -tiny p emax) :
    ∃ r f', a.matmul K b = .ok r ∧ r.Denotes [m, n] f' ∧ ∀ i < m, ∀ j < n,
      (∀ t < k, Moderate q (f [i, t])) → (∀ t < k, Moderate q (g [t, j])) →
      innerProduct k (fun t => max 1 |(f [i, t]).val|) (fun t => max 1 |(g [t, j]).val|) * (1 + unitRoundoff p) ^ k < 2 ^ (emax + 1) →
      (f' [i, j]).Finite ∧ AccurateTo p k (f' [i, j]).val (innerProduct k (fun t => (f [i, t]).val) fun t => (g [t, j]).val)
        (innerProduct k (fun t => |(f [i, t]).val|) fun t => |(g [t, j]).val|) := by
  obtain ⟨r, f', h1, h2, h3⟩ := transfer_matmul (within_leaf q) hK ha hb hm hk hn fun x => Tagged.live_live _
  exact ⟨r, f', h1, h2, fun i hi j hj hf hg hr => range_inner (h3 [i, j] ⟨hi, hj, trivial⟩) hf hg hr hq⟩

example := C69_matmul_partial (q := 3) (K := simdSop 4) (.inr (.inr rfl)) (denotes_fromContiguous (s := [2, 3]) (f := fun _ => (Ieee.ofRat 7 : F32)))
  (denotes_fromContiguous (s := [3, 2]) (f := fun _ => (Ieee.ofRat 7 : F32))) (by decide) (by decide) (by decide) (by decide)

/-- **C69** (part): batches of matrix products. Missing: extents 0. -/
theorem C69_bmm_partial {K : SopKernels (Ieee p emax)} (hK : StockSop K) {a b : Arr (Ieee p emax)} {B m k n : Nat}
    {f g : List Nat → Ieee p emax} (ha : a.Denotes [B, m, k] f) (hb : b.Denotes [B, k, n] g) (hB : 0 < B) (hm : 0 < m)
    (hk : 0 < k) (hn : 0 < n) (hq : (2 * q : ℤ) ≤ -tiny p emax) :
    ∃ r f', a.bmm K b = .ok r ∧ r.Denotes [B, m, n] f' ∧ ∀ x < B, ∀ i < m, ∀ j < n,
      (∀ t < k, Moderate q (f [x, i, t])) → (∀ t < k, Moderate q (g [x, t, j])) →
      innerProduct k (fun t => max 1 |(f [x, i, t]).val|) (fun t => max 1 |(g [x, t, j]).val|) * (1 + unitRoundoff p) ^ k <
        2 ^ (emax + 1) →
      (f' [x, i, j]).Finite ∧
      AccurateTo p k (f' [x, i, j]).val (innerProduct k (fun t => (f [x, i, t]).val) fun t => (g [x, t, j]).val)
        (innerProduct k (fun t => |(f [x, i, t]).val|) fun t => |(g [x, t, j]).val|) := by
  obtain ⟨r, f', h1, h2, h3⟩ := transfer_bmm (within_leaf q) hK ha hb hB hm hk hn fun x => Tagged.live_live _
  exact ⟨r, f', h1, h2, fun x hx i hi j hj hf hg hr => range_inner (h3 [x, i, j] ⟨hx, hi, hj, trivial⟩) hf hg hr hq⟩

example := C69_bmm_partial (q := 3) (K := simdSop 4) (.inr (.inr rfl)) (denotes_fromContiguous (s := [2, 2, 3]) (f := fun _ => (Ieee.ofRat 7 : F32)))
  (denotes_fromContiguous (s := [2, 3, 2]) (f := fun _ => (Ieee.ofRat 7 : F32))) (by decide) (by decide) (by decide) (by decide) (by decide)

theorem wellFormed_nonempty {α : Type} {fs : List (Factor α)} {out rest : List Char} {dim : Char → Nat}
    (hw : WellFormed fs out rest dim) (hne : out ++ rest ≠ []) : fs ≠ [] ∧ numel (rest.map dim) ≠ 0 := by
  constructor
  · rintro rfl
    cases out with
    | cons c out =>
      obtain ⟨f, hf, _⟩ := hw.out_mem c (by simp)
      simp at hf
    | nil =>
      cases rest with
      | nil => exact hne rfl
      | cons c rest =>
        obtain ⟨⟨f, hf, _⟩, _⟩ := (hw.rest_mem c).1 (by simp)
        simp at hf
  · have : ∀ l : List Char, (∀ c ∈ l, 0 < dim c) → numel (l.map dim) ≠ 0 := by
      intro l hl
      induction l with
      | nil => simp [numel]
      | cons c l ih =>
        have h1 := hl c (by simp)
        have h2 := ih fun c hc => hl c (by simp [hc])
        simp only [List.map_cons, numel, ne_eq, Nat.mul_eq_zero, not_or] at h2 ⊢
        exact ⟨by omega, h2⟩
    refine this rest fun c hc => ?_
    obtain ⟨⟨f, hf, hm⟩, _⟩ := (hw.rest_mem c).1 hc
    exact Nat.pos_of_ne_zero (by have := hw.pos f hf c hm; omega)

/-- **C69** (part): `einsum`. Missing: what `C28_einsum_partial` leaves out (extents 0, no letters at all). -/
theorem C69_einsum_partial {K : SopKernels (Ieee p emax)} (hK : StockSop K) {ops : List (Arr (Ieee p emax))}
    {fs : List (Factor (Ieee p emax))} {out rest : List Char} {dim : Char → Nat} (hw : WellFormed fs out rest dim)
    (hd : List.Forall₂ (fun a f => a.Denotes (f.letters.map dim) f.elem) ops fs) (hargs : ops.length < 16)
    (hdims : ∀ f ∈ fs, f.letters.length ≤ 32) (htot : (out ++ rest).length ≤ 32) (hne : out ++ rest ≠ [])
    (hq : (q * fs.length : ℤ) ≤ -tiny p emax) :
    ∃ r f', einsum K ops (fs.map (·.letters)) out = .ok r ∧ r.Denotes (out.map dim) f' ∧ ∀ idx, InB idx (out.map dim) →
      (∀ x ∈ entering out rest dim fs idx, Moderate q x) →
      einsteinSum out rest dim (fs.map (Factor.map fun x => max 1 |x.val|)) idx *
        (1 + unitRoundoff p) ^ (numel (rest.map dim) - 1 + (fs.length - 1)) < 2 ^ (emax + 1) →
      (f' idx).Finite ∧ AccurateTo p (numel (rest.map dim) - 1 + (fs.length - 1)) (f' idx).val
        (einsteinSum out rest dim (fs.map (Factor.map Ieee.val)) idx)
        (einsteinSum out rest dim (fs.map (Factor.map fun x => |x.val|)) idx) := by
  obtain ⟨r, f', h1, h2, h3⟩ := transfer_einsum (within_leaf q) hK hw hd hargs hdims htot hne fun x => Tagged.live_live _
  refine ⟨r, f', h1, h2, fun idx hi hm hr => ?_⟩
  obtain ⟨n1, n2⟩ := wellFormed_nonempty hw hne
  have h := h3 idx hi
  have e : fs.map (Factor.map fun x => Tagged.live (budgetLeaf q x)) = (fs.map (Factor.map (budgetLeaf q))).map (Factor.map .live) := by
    rw [List.map_map]; rfl
  rw [e, Tagged.einsteinSum_live (by simpa using n1) n2, budget_einsteinSum hm] at h
  exact within_finish h rfl n2 hr hq

example := C69_einsum_partial (q := 3) (K := simdSop 4) (.inr (.inr rfl)) (ein_wellFormed (fun _ => (Ieee.ofRat 7 : F32)) (fun _ => (Ieee.ofRat 7 : F32)))
  (.cons (denotes_fromContiguous (s := [2, 3])) (.cons (denotes_fromContiguous (s := [3, 2])) .nil))
  (by simp) (by decide) (by decide) (by decide) (by decide)

end Verif
