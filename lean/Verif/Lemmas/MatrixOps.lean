import Verif.Model.MatrixOps
import Verif.Spec.Matrix
import Verif.Lemmas.EinsumReject
import Verif.Lemmas.Basics
import Verif.Lemmas.ViewOps

/-! Lemmas: matrix products. -/

namespace Verif

variable {α : Type}

theorem innerProduct_eq [SumProduct α] (k : Nat) (u v : Nat → α) :
    innerProduct k u v = ∑ t ∈ Finset.range k, u t * v t := by
  induction k with
  | zero => rfl
  | succ k ih =>
    rw [Finset.sum_range_succ, ← ih]
    simp [innerProduct, List.range_succ]

theorem sopNN0_ok [SumProduct α] {a b : Src α} {sa sb count : Nat} {dst : List α} {q : Nat} {u v : Nat → α}
    (h1 : ∀ k < count, a.1[a.2 + k * sa]? = some (u k)) (h2 : ∀ k < count, b.1[b.2 + k * sb]? = some (v k))
    (hq : q < dst.length) : sopNN0 a b sa sb count dst q = .ok (addFn dst (hit q (innerProduct count u v))) := by
  unfold sopNN0
  rw [dotLoop_ok (fun k hk => (List.getElem?_eq_some_iff.1 (h1 k hk)).1) (fun k hk => (List.getElem?_eq_some_iff.1 (h2 k hk)).1)]
  show bufAdd dst q _ = _
  refine (bufAdd_ok _ hq).trans ?_
  rw [innerProduct_eq, zero_add]
  congr 3
  refine Finset.sum_congr rfl fun k hk => ?_
  have hk : k < count := by simpa using hk
  simp [h1 k hk, h2 k hk]

theorem denotes1 {a : Arr α} {n : Nat} {f : List Nat → α} (h : a.Denotes [n] f) :
    ∃ d, a.stride = [d] ∧ ∀ i < n, a.buf[a.off + i * d]? = some (f [i]) := by
  obtain ⟨d, hd⟩ := List.length_eq_one_iff.1 (h.2.1 : a.stride.length = 1)
  refine ⟨d, hd, fun i hi => ?_⟩
  have := h.2.2 [i] ⟨hi, trivial⟩
  rw [hd] at this
  simpa [offset] using this

theorem denotes2 {a : Arr α} {m n : Nat} {f : List Nat → α} (h : a.Denotes [m, n] f) :
    ∃ d e, a.stride = [d, e] ∧ ∀ i < m, ∀ j < n, a.buf[a.off + i * d + j * e]? = some (f [i, j]) := by
  obtain ⟨d, e, hd⟩ := List.length_eq_two.1 (h.2.1 : a.stride.length = 2)
  refine ⟨d, e, hd, fun i hi j hj => ?_⟩
  have := h.2.2 [i, j] ⟨hi, hj, trivial⟩
  rw [hd] at this
  simpa [offset, Nat.add_assoc] using this

theorem matVecLoop_ok [SumProduct α] {m : List α} {v : Src α} {s0 s1 sv cols : Nat} {g : Nat → α} (L : Nat)
    (hv : ∀ j < cols, v.1[v.2 + j * sv]? = some (g j)) :
    ∀ {n p : Nat} {dst : List α} {q : Nat} {f : Nat → Nat → α},
    (∀ i < n, ∀ j < cols, m[p + i * s0 + j * s1]? = some (f i j)) → q + n ≤ dst.length → dst.length = L →
    matVecLoop m v s0 s1 sv cols n p dst q =
      .ok (addFn dst (fun x => if q ≤ x ∧ x < q + n then innerProduct cols (f (x - q)) g else 0)) := by
  intro n
  induction n with
  | zero =>
    intro p dst q f _ _ _
    have : (fun x => if q ≤ x ∧ x < q + 0 then innerProduct cols (f (x - q)) g else 0) = (0 : Nat → α) := by
      funext x; rw [if_neg (by omega)]; rfl
    rw [this, addFn_zero]
    rfl
  | succ n ih =>
    intro p dst q f hm hq hL
    have h0 : sopNN0 (m, p) v s1 sv cols dst q = _ := sopNN0_ok (u := f 0) (v := g) (by
      intro k hk
      have := hm 0 (by omega) k hk
      simpa using this) hv (by omega)
    simp only [matVecLoop, h0]
    show matVecLoop m v s0 s1 sv cols n (p + s0) (addFn dst _) (q + 1) = _
    rw [ih (f := fun i => f (i + 1)) (by
      intro i hi j hj
      have := hm (i + 1) (by omega) j hj
      rw [← this]
      congr 1
      ring) (by simp; omega) (by simpa using hL), addFn_addFn]
    congr 2
    funext x
    simp only [hit, Pi.add_apply]
    by_cases e : q = x
    · subst e
      rw [if_pos rfl, if_neg (by omega), if_pos (by omega)]
      simp
    · rw [if_neg e, zero_add]
      by_cases h : q + 1 ≤ x ∧ x < q + 1 + n
      · rw [if_pos h, if_pos (by omega), show x - (q + 1) + 1 = x - q by omega]
      · rw [if_neg h, if_neg (by omega)]

theorem wellFormed_matmul {m k n : Nat} (hm : 0 < m) (hk : 0 < k) (hn : 0 < n) (f g : List Nat → α) :
    WellFormed [⟨['i', 'j'], f⟩, ⟨['j', 'k'], g⟩] ['i', 'k'] ['j'] (fun c => if c = 'i' then m else if c = 'j' then k else n) :=
  ⟨by simp, by decide, by simp, by
    intro c
    simp only [List.mem_cons, List.not_mem_nil, or_false, exists_eq_or_imp, exists_eq_left, not_or]
    constructor
    · rintro rfl; decide
    · rintro ⟨h | h, h1, h2⟩
      · rcases h with h | h
        · exact (h1 h).elim
        · exact h
      · rcases h with h | h
        · exact h
        · exact (h2 h).elim, by
    intro f _ c _
    show 0 < if c = 'i' then m else if c = 'j' then k else n
    split
    · exact hm
    · split
      · exact hk
      · exact hn⟩

theorem indices_one (n : Nat) : indices [n] = (List.range n).map fun i => [i] := by
  rw [indices]
  simp [indices, List.flatMap_singleton']
  induction List.range n with
  | nil => rfl
  | cons x l ih => simp [ih]

theorem einsteinSum_matmul [SumProduct α] (m k n : Nat) (f g : List Nat → α) (i j : Nat) :
    einsteinSum ['i', 'k'] ['j'] (fun c => if c = 'i' then m else if c = 'j' then k else n)
      [⟨['i', 'j'], f⟩, ⟨['j', 'k'], g⟩] [i, j] = innerProduct k (fun t => f [i, t]) (fun t => g [t, j]) := by
  have e : (['j'].map fun c => if c = 'i' then m else if c = 'j' then k else n) = [k] := by simp
  rw [einsteinSum, e, indices_one, List.map_map, innerProduct]
  congr 1
  apply List.map_congr_left
  intro t _
  simp [valueOf]

/-- What the product kernel does: it overwrites `m * n` entries from `q` on with the matrix product. -/
theorem matrixMatrixProduct_ok [SumProduct α] {K : SopKernels α} (hK : K.Correct) {a b : Arr α} {m k n : Nat}
    {f g : List Nat → α} (ha : a.Denotes [m, k] f) (hb : b.Denotes [k, n] g) (hm : 0 < m) (hk : 0 < k) (hn : 0 < n)
    {dst : List α} {q : Nat} (hq : q + m * n ≤ dst.length) (hla : LiveBuf a.buf) (hlb : LiveBuf b.buf) :
    ∃ dst', matrixMatrixProduct K a b [n, 1] dst q = .ok dst' ∧ dst'.length = dst.length ∧
      (∀ i < m, ∀ j < n, dst'[q + (i * n + j)]? = some (innerProduct k (fun t => f [i, t]) (fun t => g [t, j]))) ∧
      ∀ p, (p < q ∨ q + m * n ≤ p) → dst'[p]? = dst[p]? := by
  have hw := wellFormed_matmul hm hk hn f g
  obtain ⟨plan, e, es, h⟩ := einsumRun_plan hK (ts := [(a, ⟨['i', 'j'], f⟩), (b, ⟨['j', 'k'], g⟩)]) hw (by
    intro t ht
    simp only [List.mem_cons, List.not_mem_nil, or_false] at ht
    rcases ht with rfl | rfl
    · exact ha
    · exact hb) (show 2 < 16 by decide) (by
    intro t ht
    simp only [List.mem_cons, List.not_mem_nil, or_false] at ht
    rcases ht with rfl | rfl <;> exact (show 2 ≤ 32 by decide)) (by decide) (by simp) (by
    intro t ht
    simp only [List.mem_cons, List.not_mem_nil, or_false] at ht
    rcases ht with rfl | rfl
    · exact hla
    · exact hlb)
  have eo : (['i', 'k'].map fun c => if c = 'i' then m else if c = 'j' then k else n) = [m, n] := by simp
  rw [eo] at es h
  have hu : hasUniformStride [m, n] [n, 1] = some 1 := by simp [hasUniformStride]
  have hst : strideFromShape [m, n] = [n, 1] := by simp
  have hoff : offsets [m, n] [n, 1] = List.range (m * n) := by
    rw [← hst, offsets_strideFromShape]; simp
  have hfill : fillPtr [m, n] [n, 1] (numel [m, n]) 0 dst q = .ok (setAll dst ((List.range (m * n)).map (q + ·)) 0) := by
    rw [fillPtr_ok (s := [m, n]) (st := [n, 1]) rfl (by rw [← hst]; exact posStride_strideFromShape _) (fun _ => rfl), hoff]
    rw [hoff]
    intro o ho
    have := List.mem_range.1 ho
    omega
  obtain ⟨c, er, hc, hz⟩ := h (setAll dst ((List.range (m * n)).map (q + ·)) 0) q (by simpa using hq)
  refine ⟨addFn (setAll dst ((List.range (m * n)).map (q + ·)) 0) c, ?_, ?_, ?_, ?_⟩
  rotate_left
  · exact (length_addFn _ c).trans (length_setAll _ _ _)
  · intro i hi j hj
    have hlt : i * n + j < m * n := by
      have : (i + 1) * n ≤ m * n := Nat.mul_le_mul_right _ hi
      rw [Nat.add_mul] at this; omega
    have hr : rank [i, j] [m, n] = i * n + j := by simp [rank]
    have := hc [i, j] ⟨hi, hj, trivial⟩
    rw [hr] at this
    rw [getElem?_addFn, this, getElem?_setAll (by omega), if_pos (List.mem_map.2 ⟨i * n + j, List.mem_range.2 hlt, rfl⟩)]
    simp only [List.map_cons, List.map_nil, Option.map_some, zero_add]
    rw [einsteinSum_matmul]
  · intro p hp
    rw [getElem?_addFn, hz p (by simpa using hp)]
    by_cases hpl : p < dst.length
    · rw [getElem?_setAll hpl, if_neg]
      · cases dst[p]? <;> simp
      · rintro hmem
        obtain ⟨x, hx, rfl⟩ := List.mem_map.1 hmem
        have := List.mem_range.1 hx
        omega
    · rw [List.getElem?_eq_none (by simpa using hpl), List.getElem?_eq_none (by omega)]
      rfl
  · show einsumIntoPtr _ _ _ _ _ _ _ = _
    unfold einsumIntoPtr
    show (prepareEinsum [a, b] [['i', 'j'], ['j', 'k']] ['i', 'k'] >>= fun plan => _) = _
    rw [show prepareEinsum [a, b] [['i', 'j'], ['j', 'k']] ['i', 'k'] = .ok plan from e]
    simp only [bind, Except.bind, es, hu, hfill]
    exact er

theorem bmmLoop_ok [SumProduct α] {K : SopKernels α} (hK : K.Correct) {m k n ls rs : Nat} (hm : 0 < m) (hk : 0 < k)
    (hn : 0 < n) : ∀ {B : Nat} {l r : Arr α} {dst : List α} {q : Nat} {f g : Nat → List Nat → α},
    (∀ x < B, ({ l with off := l.off + x * ls } : Arr α).Denotes [m, k] (f x)) →
    (∀ x < B, ({ r with off := r.off + x * rs } : Arr α).Denotes [k, n] (g x)) → q + B * (m * n) ≤ dst.length → LiveBuf l.buf → LiveBuf r.buf →
    ∃ dst', bmmLoop K ls rs (m * n) [n, 1] B l r dst q = .ok dst' ∧ dst'.length = dst.length ∧
      (∀ x < B, ∀ i < m, ∀ j < n, dst'[q + (x * (m * n) + (i * n + j))]? =
        some (innerProduct k (fun t => f x [i, t]) (fun t => g x [t, j]))) ∧
      ∀ p, p < q → dst'[p]? = dst[p]? := by
  intro B
  induction B with
  | zero => intro l r dst q f g _ _ _ _ _; exact ⟨dst, rfl, rfl, fun x hx => by omega, fun _ _ => rfl⟩
  | succ B ih =>
    intro l r dst q f g hl hr hq bl br
    rw [Nat.add_mul] at hq
    have hl0 := hl 0 (by omega)
    have hr0 := hr 0 (by omega)
    simp only [Nat.zero_mul, Nat.add_zero] at hl0 hr0
    obtain ⟨d1, e1, len1, v1, o1⟩ := matrixMatrixProduct_ok hK hl0 hr0 hm hk hn (dst := dst) (q := q) (by omega) bl br
    obtain ⟨d2, e2, len2, v2, o2⟩ := ih (l := { l with off := l.off + ls }) (r := { r with off := r.off + rs }) (dst := d1)
      (q := q + m * n) (f := fun x => f (x + 1)) (g := fun x => g (x + 1))
      (by
        intro x hx
        have := hl (x + 1) (by omega)
        rw [Nat.add_mul, Nat.one_mul, Nat.add_comm (x * ls), ← Nat.add_assoc] at this
        exact this)
      (by
        intro x hx
        have := hr (x + 1) (by omega)
        rw [Nat.add_mul, Nat.one_mul, Nat.add_comm (x * rs), ← Nat.add_assoc] at this
        exact this) (by omega) bl br
    refine ⟨d2, ?_, by omega, ?_, ?_⟩
    · simp only [bmmLoop, e1]
      exact e2
    · intro x hx i hi j hj
      have hlt : i * n + j < m * n := by
        have : (i + 1) * n ≤ m * n := Nat.mul_le_mul_right _ hi
        rw [Nat.add_mul] at this; omega
      cases x with
      | zero =>
        rw [o2 _ (by omega), Nat.zero_mul, Nat.zero_add]
        exact v1 i hi j hj
      | succ x =>
        rw [← v2 x (by omega) i hi j hj]
        congr 1
        rw [Nat.add_mul]
        omega
    · intro p hp
      rw [o2 p (by omega), o1 p (by omega)]

end Verif
