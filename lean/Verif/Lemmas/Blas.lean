import Verif.Lemmas.MatrixOps
import Verif.Lemmas.Reduce
import Verif.Model.Blas

/-!
# The BLAS routines compute what the loops compute
-/

namespace Verif

variable {α : Type}

theorem asI32_small {n : Nat} (h : n < 2147483648) : asI32 n = n := by
  unfold asI32
  rw [Int.bmod_eq_of_le] <;> omega

theorem foldlM_range_succ {β : Type} (f : β → Nat → Res β) (n : Nat) (b : β) :
    (List.range (n + 1)).foldlM f b = (List.range n).foldlM f b >>= fun c => f c n := by
  rw [List.range_succ, List.foldlM_append]
  congr 1
  funext c
  show (f c n >>= fun init => .ok init) = _
  cases f c n <;> rfl

/-- storing `v 0, …, v (n-1)` from position `p` on -/
theorem storeLoop_ok {e : Nat → Res α} {v : Nat → α} {p : Nat} {c : List α} : ∀ {n : Nat}, (∀ j < n, e j = .ok (v j)) →
    p + n ≤ c.length →
    ∃ c', (List.range n).foldlM (fun c j => do let x ← e j; bufStore c (p + j) x) c = .ok c' ∧ c'.length = c.length ∧
      (∀ j < n, c'[p + j]? = some (v j)) ∧ ∀ x, (x < p ∨ p + n ≤ x) → c'[x]? = c[x]? := by
  intro n
  induction n with
  | zero => intro _ _; exact ⟨c, rfl, rfl, fun j hj => by omega, fun _ _ => rfl⟩
  | succ n ih =>
    intro he hl
    obtain ⟨c1, e1, l1, v1, o1⟩ := ih (fun j hj => he j (by omega)) (by omega)
    refine ⟨c1.set (p + n) (v n), ?_, by simp [l1], ?_, ?_⟩
    · rw [foldlM_range_succ, e1]
      show (e n >>= fun x => bufStore c1 (p + n) x) = _
      rw [he n (by omega)]
      show bufStore c1 (p + n) (v n) = _
      rw [bufStore, if_pos (by omega)]
    · intro j hj
      by_cases h : j = n
      · subst h
        rw [List.getElem?_set_self (by omega)]
      · rw [List.getElem?_set_ne (by omega)]
        exact v1 j (by omega)
    · intro x hx
      rw [List.getElem?_set_ne (by omega)]
      exact o1 x (by omega)

theorem products_ok [Mul α] [Add α] [Zero α] {a b : List α} {p q : Nat → Nat} {k : Nat} {u v : Nat → α}
    (ha : ∀ t < k, a[p t]? = some (u t)) (hb : ∀ t < k, b[q t]? = some (v t)) :
    ((List.range k).mapM fun t => do
      let x ← bufLoad a (p t)
      let y ← bufLoad b (q t)
      return x * y) = (.ok ((List.range k).map fun t => u t * v t) : Res (List α)) := by
  apply mapM_ok
  intro t ht
  have := List.mem_range.1 ht
  rw [bufLoad_ok (ha t this), bufLoad_ok (hb t this)]
  rfl

theorem gemmEntry_ok [Mul α] [Add α] [Zero α] {a b : List α} {pa lda pb ldb k i j : Nat} {u v : Nat → α}
    (ha : ∀ t < k, a[pa + i * lda + t]? = some (u t)) (hb : ∀ t < k, b[pb + t * ldb + j]? = some (v t)) :
    gemmEntry a pa lda b pb ldb k i j = .ok (innerProduct k u v) := by
  unfold gemmEntry
  rw [products_ok (p := fun t => pa + i * lda + t) (q := fun t => pb + t * ldb + j) ha hb]
  rfl

/-- `gemm` on extents and strides that satisfy its contract. -/
theorem gemm_ok [Mul α] [Add α] [Zero α] {a b : List α} {m n k pa lda pb ldb pc : Nat} {f g : List Nat → α}
    (ha : ∀ i < m, ∀ t < k, a[pa + i * lda + t]? = some (f [i, t]))
    (hb : ∀ t < k, ∀ j < n, b[pb + t * ldb + j]? = some (g [t, j])) (hn : 0 < n) (hk : 0 < k) (hla : k ≤ lda)
    (hlb : n ≤ ldb) {c : List α} (hc : pc + m * n ≤ c.length) :
    ∃ c', gemm m n k a pa lda b pb ldb c pc n = .ok c' ∧ c'.length = c.length ∧
      (∀ i < m, ∀ j < n, c'[pc + (i * n + j)]? = some (innerProduct k (fun t => f [i, t]) (fun t => g [t, j]))) ∧
      ∀ x, (x < pc ∨ pc + m * n ≤ x) → c'[x]? = c[x]? := by
  have hg : gemm m n k a pa lda b pb ldb c pc n =
      (List.range m).foldlM (fun c i => gemmRow a pa lda b pb ldb k i pc n n c) c := by
    unfold gemm
    rw [if_neg (by omega)]
    rfl
  rw [hg]
  clear hg
  induction m with
  | zero => exact ⟨c, rfl, rfl, fun i hi => by omega, fun _ _ => rfl⟩
  | succ m ih =>
    rw [Nat.add_mul, Nat.one_mul] at hc
    obtain ⟨c1, e1, l1, v1, o1⟩ := ih (fun i hi => ha i (by omega)) (by omega)
    obtain ⟨c2, e2, l2, v2, o2⟩ := storeLoop_ok (e := fun j => gemmEntry a pa lda b pb ldb k m j)
      (v := fun j => innerProduct k (fun t => f [m, t]) (fun t => g [t, j])) (p := pc + m * n) (c := c1) (n := n)
      (fun j hj => gemmEntry_ok (ha m (by omega)) (fun t ht => hb t ht j hj)) (by omega)
    refine ⟨c2, ?_, by omega, ?_, ?_⟩
    · rw [foldlM_range_succ, e1]
      exact e2
    · intro i hi j hj
      by_cases h : i = m
      · subst h
        rw [← Nat.add_assoc]
        exact v2 j hj
      · have : (i + 1) * n ≤ m * n := Nat.mul_le_mul_right _ (by omega)
        rw [Nat.add_mul, Nat.one_mul] at this
        rw [o2 _ (by omega)]
        exact v1 i (by omega) j hj
    · intro x hx
      rw [Nat.add_mul, Nat.one_mul] at hx
      rw [o2 x (by omega), o1 x (by omega)]

/-- the vector-valued routine -/
theorem gemv_ok [Mul α] [Add α] [Zero α] {a b : List α} {m k pa lda pb sv : Nat} {f g : List Nat → α}
    (ha : ∀ i < m, ∀ t < k, a[pa + i * lda + t]? = some (f [i, t])) (hb : ∀ t < k, b[pb + t * sv]? = some (g [t]))
    (hk : 0 < k) (hla : k ≤ lda) (hsv : 0 < sv) {y : List α} (hy : y.length = m) :
    gemv m k a pa lda b pb sv y 0 = .ok ((List.range m).map fun i => innerProduct k (fun t => f [i, t]) (fun t => g [t])) := by
  have hg : gemv m k a pa lda b pb sv y 0 = (List.range m).foldlM (fun y i => do
      let v ← gemmEntry a pa lda b pb sv k i 0
      bufStore y (0 + i) v) y := by
    unfold gemv
    rw [if_neg (by omega)]
    rfl
  obtain ⟨y', e, l, v, _⟩ := storeLoop_ok (e := fun i => gemmEntry a pa lda b pb sv k i 0)
      (v := fun i => innerProduct k (fun t => f [i, t]) (fun t => g [t])) (p := 0) (c := y) (n := m)
      (fun i hi => gemmEntry_ok (ha i hi) (by simpa using hb)) (by omega)
  rw [hg, e]
  congr 1
  apply List.ext_getElem?
  intro i
  by_cases hi : i < m
  · have := v i hi
    rw [Nat.zero_add] at this
    rw [this]
    simp [hi]
  · rw [List.getElem?_eq_none (by omega), List.getElem?_eq_none (by simpa using hi)]

theorem blasDot_ok [Mul α] [Add α] [Zero α] {x y : List α} {n px sx py sy : Nat} {u v : Nat → α}
    (hx : ∀ t < n, x[px + t * sx]? = some (u t)) (hy : ∀ t < n, y[py + t * sy]? = some (v t)) :
    blasDot n x px sx y py sy = .ok (innerProduct n u v) := by
  unfold blasDot
  rw [if_neg (by omega)]
  show ((List.range n).mapM (fun t => do
    let u ← bufLoad x (px + t * sx)
    let v ← bufLoad y (py + t * sy)
    return u * v) >>= fun ts => (return ts.sum : Res α)) = _
  rw [products_ok (p := fun t => px + t * sx) (q := fun t => py + t * sy) hx hy]
  rfl

end Verif
