import Verif.Model.Einsum
import Verif.Lemmas.Basic
import Verif.Lemmas.SumProduct
import Mathlib.Algebra.BigOperators.Group.Finset.Basic
import Mathlib.Algebra.BigOperators.Ring.Finset
import Mathlib.Algebra.BigOperators.Pi
import Mathlib.Algebra.BigOperators.Intervals

/-! Lemmas: the sum-of-products kernels add up products. -/

namespace Verif

open Finset

variable {α : Type}

/-! ### adding a function of the position to a buffer -/

/-- the buffer with `c p` added to position `p` -/
def addFn [Add α] (dst : List α) (c : Nat → α) : List α := dst.mapIdx fun p x => x + c p

/-- the function that is `v` at `q` and zero elsewhere -/
def hit [Zero α] (q : Nat) (v : α) : Nat → α := fun p => if q = p then v else 0

@[simp] theorem length_addFn [Add α] (dst : List α) (c : Nat → α) : (addFn dst c).length = dst.length := by
  simp [addFn]

theorem getElem?_addFn [Add α] (dst : List α) (c : Nat → α) (p : Nat) :
    (addFn dst c)[p]? = (dst[p]?).map (· + c p) := by
  simp [addFn]

theorem addFn_addFn [AddCommMonoid α] (dst : List α) (c d : Nat → α) :
    addFn (addFn dst c) d = addFn dst (c + d) := by
  apply List.ext_getElem?
  intro p
  simp only [getElem?_addFn, Option.map_map]
  cases dst[p]? <;> simp [add_assoc]

@[simp] theorem addFn_zero [AddCommMonoid α] (dst : List α) : addFn dst (0 : Nat → α) = dst := by
  apply List.ext_getElem?
  intro p
  rw [getElem?_addFn]
  cases dst[p]? <;> simp

theorem set_eq_addFn [AddCommMonoid α] {dst : List α} {q : Nat} {x v : α} (h : dst[q]? = some x) :
    dst.set q (x + v) = addFn dst (hit q v) := by
  apply List.ext_getElem?
  intro p
  rw [getElem?_addFn, List.getElem?_set]
  have hl : q < dst.length := (List.getElem?_eq_some_iff.1 h).1
  by_cases hp : q = p
  · subst hp; rw [h, if_pos rfl, if_pos hl]; simp [hit]
  · simp only [hp, if_false, hit]
    cases dst[p]? <;> simp

theorem bufAdd_ok [AddCommMonoid α] {dst : List α} {q : Nat} (v : α) (h : q < dst.length) :
    bufAdd dst q v = .ok (addFn dst (hit q v)) := by
  have h' : dst[q]? = some dst[q] := List.getElem?_eq_getElem h
  simp only [bufAdd, h']
  rw [set_eq_addFn h']

theorem hit_sum [AddCommMonoid α] (q : Nat) (s : Finset Nat) (f : Nat → α) :
    hit q (∑ k ∈ s, f k) = ∑ k ∈ s, hit q (f k) := by
  funext p
  rw [Finset.sum_apply]
  simp only [hit]
  split
  · rfl
  · simp

theorem hit_add [AddCommMonoid α] (q : Nat) (x y : α) : hit q (x + y) = hit q x + hit q y := by
  funext p
  simp only [hit, Pi.add_apply]
  split <;> simp

theorem bufLoad_getD [Zero α] {b : List α} {i : Nat} (h : i < b.length) : bufLoad b i = .ok (b.getD i 0) := by
  simp [bufLoad, List.getElem?_eq_getElem h, List.getD_eq_getElem?_getD]

/-- a loop whose bodies each add a function adds the sum of these functions -/
theorem foldlM_addFn [AddCommMonoid α] {body : List α → Nat → Res (List α)} {C : Nat → Nat → α} {n m : Nat}
    (hb : ∀ (dst : List α) i, i < n → dst.length = m → body dst i = .ok (addFn dst (C i)))
    (dst : List α) (hd : dst.length = m) :
    (List.range n).foldlM body dst = .ok (addFn dst (∑ i ∈ range n, C i)) := by
  induction n with
  | zero => simp
  | succ n ih =>
    rw [List.range_succ, List.foldlM_append, ih (fun dst i hi => hb dst i (by omega))]
    show ([n].foldlM body (addFn dst _)) = _
    simp only [List.foldlM_cons, List.foldlM_nil]
    rw [hb _ n (by omega) (by simpa using hd), Finset.sum_range_succ, ← addFn_addFn]
    rfl

/-! ### products of the operands' elements -/

/-- product of the elements at offset `v i` from the pointer of operand `i` -/
def prodF [Mul α] [One α] [Zero α] : List (Src α) → (Nat → Nat) → α
  | [], _ => 1
  | (b, p) :: ops, v => b.getD (p + v 0) 0 * prodF ops (fun i => v (i + 1))

/-- the offsets lie in the buffers -/
def InV : List (Src α) → (Nat → Nat) → Prop
  | [], _ => True
  | (b, p) :: ops, v => p + v 0 < b.length ∧ InV ops (fun i => v (i + 1))

/-- the entries of a list of strides as a function of the operand's number -/
def fn (s : List Nat) : Nat → Nat := fun i => s.getD i 0

@[simp] theorem fn_cons_zero (d : Nat) (s : List Nat) : fn (d :: s) 0 = d := rfl
@[simp] theorem fn_cons_succ (d : Nat) (s : List Nat) (i : Nat) : fn (d :: s) (i + 1) = fn s i := by simp [fn]

variable [SumProduct α]

theorem prodAt_ok {ops : List (Src α)} {s : List Nat} {k : Nat} (hs : ops.length ≤ s.length)
    (h : InV ops (fun i => k * fn s i)) (acc : α) :
    prodAt k ops s acc = .ok (acc * prodF ops (fun i => k * fn s i)) := by
  induction ops generalizing s acc with
  | nil => simp [prodAt, prodF]
  | cons o ops ih =>
    obtain ⟨b, p⟩ := o
    cases s with
    | nil => simp at hs
    | cons d s =>
      simp only [InV, fn_cons_zero, fn_cons_succ] at h
      simp only [prodAt, bufLoad_getD h.1, prodF, fn_cons_zero, fn_cons_succ]
      show prodAt k ops s _ = _
      rw [ih (by simpa using hs) h.2, mul_assoc]

theorem prodF_congr {ops : List (Src α)} {v w : Nat → Nat} (h : ∀ i < ops.length, v i = w i) :
    prodF ops v = prodF ops w := by
  induction ops generalizing v w with
  | nil => rfl
  | cons o ops ih =>
    simp only [prodF]
    rw [h 0 (by simp), ih (fun i hi => h (i + 1) (by simpa using hi))]

omit [SumProduct α] in
theorem InV_congr {ops : List (Src α)} {v w : Nat → Nat} (h : ∀ i < ops.length, v i = w i) :
    InV ops v ↔ InV ops w := by
  induction ops generalizing v w with
  | nil => rfl
  | cons o ops ih =>
    simp only [InV]
    rw [h 0 (by simp), ih (fun i hi => h (i + 1) (by simpa using hi))]

theorem prodF_shift {ops : List (Src α)} {d : List Nat} (hd : ops.length ≤ d.length) (v : Nat → Nat) :
    prodF (shiftOps ops d) v = prodF ops (fun i => fn d i + v i) := by
  induction ops generalizing d v with
  | nil => simp [shiftOps, prodF]
  | cons o ops ih =>
    cases d with
    | nil => simp at hd
    | cons x d =>
      simp only [shiftOps, List.zipWith_cons_cons, prodF, fn_cons_zero, fn_cons_succ]
      rw [Nat.add_assoc]
      congr 1
      exact ih (by simpa using hd) _

omit [SumProduct α] in
theorem InV_shift {ops : List (Src α)} {d : List Nat} (hd : ops.length ≤ d.length) (v : Nat → Nat) :
    InV (shiftOps ops d) v ↔ InV ops (fun i => fn d i + v i) := by
  induction ops generalizing d v with
  | nil => simp [shiftOps, InV]
  | cons o ops ih =>
    cases d with
    | nil => simp at hd
    | cons x d =>
      simp only [shiftOps, List.zipWith_cons_cons, InV, fn_cons_zero, fn_cons_succ]
      rw [Nat.add_assoc]
      exact and_congr Iff.rfl (ih (by simpa using hd) _)

omit [SumProduct α] in
theorem length_shiftOps {ops : List (Src α)} {d : List Nat} (hd : ops.length ≤ d.length) :
    (shiftOps ops d).length = ops.length := by
  simp [shiftOps, hd]

/-! ### the kernels -/

theorem sopGenericLoop_ok {ops : List (Src α)} {s : List Nat} {so q : Nat} (hs : ops.length ≤ s.length) :
    ∀ {n : Nat} {dst : List α}, (∀ k < n, InV ops (fun i => k * fn s i)) → (∀ k < n, q + k * so < dst.length) →
    sopGenericLoop ops s so q n dst =
      .ok (addFn dst (∑ k ∈ range n, hit (q + k * so) (prodF ops (fun i => k * fn s i)))) := by
  intro n
  induction n with
  | zero => intro dst _ _; simp [sopGenericLoop]
  | succ n ih =>
    intro dst h1 h2
    simp only [sopGenericLoop]
    rw [prodAt_ok hs (h1 n (by omega))]
    show (bufAdd dst _ _ >>= fun dst' => sopGenericLoop ops s so q n dst') = _
    rw [bufAdd_ok _ (h2 n (by omega))]
    show sopGenericLoop ops s so q n _ = _
    rw [ih (fun k hk => h1 k (by omega)) (fun k hk => by simpa using h2 k (by omega)), addFn_addFn,
      Finset.sum_range_succ, add_comm, one_mul]

theorem sopSumLoop_ok {ops : List (Src α)} {s : List Nat} (hs : ops.length ≤ s.length) :
    ∀ {n : Nat} {acc : α}, (∀ k < n, InV ops (fun i => k * fn s i)) →
    sopSumLoop ops s n acc = .ok (acc + ∑ k ∈ range n, prodF ops (fun i => k * fn s i)) := by
  intro n
  induction n with
  | zero => intro acc _; simp [sopSumLoop]
  | succ n ih =>
    intro acc h1
    simp only [sopSumLoop]
    rw [prodAt_ok hs (h1 n (by omega))]
    show sopSumLoop ops s n _ = _
    rw [ih (fun k hk => h1 k (by omega)), Finset.sum_range_succ, one_mul, add_assoc, add_comm (prodF _ _)]

/-- the value a sum-of-products kernel has to add -/
def sopValue (ops : List (Src α)) (s : List Nat) (count q : Nat) : Nat → α :=
  ∑ k ∈ range count, hit (q + k * fn s ops.length) (prodF ops (fun i => k * fn s i))

theorem sopGeneric_ok {ops : List (Src α)} {s : List Nat} {count q : Nat} {dst : List α}
    (hs : s.length = ops.length + 1) (hc : 0 < count) (h1 : ∀ k < count, InV ops (fun i => k * fn s i))
    (h2 : ∀ k < count, q + k * fn s ops.length < dst.length) :
    sopGeneric ops s count dst q = .ok (addFn dst (sopValue ops s count q)) := by
  show (assume (decide (0 < count)) >>= fun _ => _) = _
  simp only [assume, decide_eq_true hc, if_true]
  exact sopGenericLoop_ok (by omega) h1 h2

theorem sopOutStride0_ok {ops : List (Src α)} {s : List Nat} {count q : Nat} {dst : List α}
    (hs : s.length = ops.length + 1) (h0 : fn s ops.length = 0) (hc : 0 < count)
    (h1 : ∀ k < count, InV ops (fun i => k * fn s i))
    (h2 : ∀ k < count, q + k * fn s ops.length < dst.length) :
    sopOutStride0 ops s count dst q = .ok (addFn dst (sopValue ops s count q)) := by
  show (assume (decide (0 < count)) >>= fun _ => _) = _
  simp only [assume, decide_eq_true hc, if_true]
  show (assume (decide (fn s ops.length = 0)) >>= fun _ => _) = _
  simp only [assume, decide_eq_true h0, if_true]
  show (sopSumLoop ops s count 0 >>= fun sum => bufAdd dst q sum) = _
  rw [sopSumLoop_ok (by omega) h1]
  show bufAdd dst q _ = _
  have := h2 0 hc
  rw [bufAdd_ok _ (by omega), zero_add, hit_sum]
  simp [sopValue, h0]

/-- What the replaceable loops have to do. -/
structure SopKernels.Correct (K : SopKernels α) : Prop where
  muladd : ∀ {c : α} {data dst : List α} {p q count : Nat}, 0 < count → p + count ≤ data.length →
    q + count ≤ dst.length →
    K.muladd c data p dst q count = .ok (addFn dst (∑ k ∈ range count, hit (q + k) (c * data.getD (p + k) 0)))
  scaledArray : ∀ {c : α} {data dst : List α} {p q count : Nat}, 0 < count → p + count ≤ data.length →
    q < dst.length →
    K.scaledArray c data p dst q count = .ok (addFn dst (hit q (c * ∑ k ∈ range count, data.getD (p + k) 0)))
  dot : ∀ {a b dst : List α} {p p' q count : Nat}, 0 < count → p + count ≤ a.length → p' + count ≤ b.length →
    q < dst.length →
    K.dot a p b p' dst q count =
      .ok (addFn dst (hit q (∑ k ∈ range count, a.getD (p + k) 0 * b.getD (p' + k) 0)))

theorem muladdLoop_ok {c : α} {data : List α} : ∀ {count p q : Nat} {dst : List α}, p + count ≤ data.length →
    q + count ≤ dst.length → muladdLoop c data count p dst q =
      .ok (addFn dst (∑ k ∈ range count, hit (q + k) (c * data.getD (p + k) 0))) := by
  intro count
  induction count with
  | zero => intro p q dst _ _; simp [muladdLoop]
  | succ n ih =>
    intro p q dst h1 h2
    have hq : q < dst.length := by omega
    simp only [muladdLoop]
    rw [bufLoad_getD (by omega), bufLoad_getD hq]
    show muladdLoop c data n (p + 1) _ (q + 1) = _
    have hx : dst[q]? = some (dst.getD q 0) := by simp [List.getElem?_eq_getElem hq]
    rw [mulAdd_def, add_comm (c * _), set_eq_addFn hx, ih (by omega) (by simp; omega), addFn_addFn,
      Finset.sum_range_succ' _ n, add_comm]
    simp only [Nat.add_zero, show ∀ a k, a + 1 + k = a + (k + 1) from fun a k => by omega]

theorem sumLoop_ok {data : List α} : ∀ {count p : Nat} {acc : α}, p + count ≤ data.length →
    sumLoop data count p acc = .ok (acc + ∑ k ∈ range count, data.getD (p + k) 0) := by
  intro count
  induction count with
  | zero => intro p acc _; simp [sumLoop]
  | succ n ih =>
    intro p acc h
    simp only [sumLoop]
    rw [bufLoad_getD (by omega)]
    show sumLoop data n (p + 1) _ = _
    rw [ih (by omega), Finset.sum_range_succ' _ n, add_assoc, add_comm (data.getD p 0)]
    simp only [Nat.add_zero, show ∀ a k, a + 1 + k = a + (k + 1) from fun a k => by omega]

theorem dotLoop_ok {a b : List α} {sa sb : Nat} : ∀ {count p p' : Nat} {acc : α},
    (∀ k < count, p + k * sa < a.length) → (∀ k < count, p' + k * sb < b.length) →
    dotLoop a b sa sb count p p' acc =
      .ok (acc + ∑ k ∈ range count, a.getD (p + k * sa) 0 * b.getD (p' + k * sb) 0) := by
  intro count
  induction count with
  | zero => intro p p' acc _ _; simp [dotLoop]
  | succ n ih =>
    intro p p' acc h1 h2
    simp only [dotLoop]
    rw [bufLoad_getD (by simpa using h1 0 (by omega)), bufLoad_getD (by simpa using h2 0 (by omega))]
    show dotLoop a b sa sb n (p + sa) (p' + sb) _ = _
    have e : ∀ x k s : Nat, x + s + k * s = x + (k + 1) * s := fun x k s => by ring
    rw [ih (fun k hk => by rw [e]; exact h1 (k + 1) (by omega))
      (fun k hk => by rw [e]; exact h2 (k + 1) (by omega)), Finset.sum_range_succ' _ n, add_assoc]
    simp only [e, Nat.zero_mul, Nat.add_zero]
    rw [add_comm (a.getD p 0 * _)]

theorem portableSop_correct : (portableSop : SopKernels α).Correct where
  muladd hc h1 h2 := by
    show (assume (decide _) >>= fun _ => _) = _
    simp only [assume, decide_eq_true hc, if_true]
    exact muladdLoop_ok h1 h2
  scaledArray {c data dst p q count} hc h1 h2 := by
    show (assume (decide _) >>= fun _ => _) = _
    simp only [assume, decide_eq_true hc, if_true]
    show (sumLoop data count p 0 >>= fun sum => bufLoad dst q >>= fun x => bufStore dst q (c * sum + x)) = _
    rw [sumLoop_ok h1, bufLoad_getD h2]
    show bufStore dst q _ = _
    have hx : dst[q]? = some (dst.getD q 0) := by simp [List.getElem?_eq_getElem h2]
    simp only [bufStore, h2, if_true, zero_add]
    rw [add_comm (c * _), set_eq_addFn hx]
  dot {a b dst p p' q count} _ h1 h2 h3 := by
    show (dotLoop a b 1 1 count p p' 0 >>= fun sum => bufAdd dst q sum) = _
    rw [dotLoop_ok (fun k hk => by omega) (fun k hk => by omega)]
    show bufAdd dst q _ = _
    rw [bufAdd_ok _ h3]
    simp

theorem sop111Loop_ok {a b : List α} : ∀ {count p p' q : Nat} {dst : List α}, p + count ≤ a.length →
    p' + count ≤ b.length → q + count ≤ dst.length → sop111Loop a b count p p' dst q =
      .ok (addFn dst (∑ k ∈ range count, hit (q + k) (a.getD (p + k) 0 * b.getD (p' + k) 0))) := by
  intro count
  induction count with
  | zero => intro p p' q dst _ _ _; simp [sop111Loop]
  | succ n ih =>
    intro p p' q dst h1 h2 h3
    simp only [sop111Loop]
    rw [bufLoad_getD (by omega), bufLoad_getD (by omega)]
    show (bufAdd dst q _ >>= fun dst' => sop111Loop a b n (p + 1) (p' + 1) dst' (q + 1)) = _
    rw [bufAdd_ok _ (by omega)]
    show sop111Loop a b n (p + 1) (p' + 1) _ (q + 1) = _
    rw [ih (by omega) (by omega) (by simp; omega), addFn_addFn, Finset.sum_range_succ' _ n, add_comm]
    simp only [Nat.add_zero, show ∀ a k, a + 1 + k = a + (k + 1) from fun a k => by omega]

end Verif
