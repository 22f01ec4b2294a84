import Mathlib.Algebra.BigOperators.Group.Finset.Basic
import Mathlib.Algebra.Ring.Defs

/-!
# The algebra the sums of products rely on

The proofs about matmul, bmm and einsum use less than a commutative semiring: addition and multiplication are commutative monoids,
and products distribute over sums of *live* elements. In a commutative semiring every element is live. That 0 times anything is 0
is not used: the code multiplies only elements and sums of elements, never the 0 it starts from. This matters for IEEE numbers,
where 0 times infinity is NaN.
-/

namespace Verif

class SumProduct (α : Type) extends AddCommMonoid α, CommMonoid α where
  Live : α → Prop
  live_add : ∀ {x y : α}, Live x → Live y → Live (x + y)
  mul_add_of_live : ∀ {x y z : α}, Live y → Live z → x * (y + z) = x * y + x * z

instance (priority := low) CommSemiring.toSumProduct {α : Type} [CommSemiring α] : SumProduct α where
  Live _ := True
  live_add _ _ := trivial
  mul_add_of_live _ _ := mul_add _ _ _

variable {α : Type} [SumProduct α]

/-- All elements of a buffer are live. -/
def LiveBuf (b : List α) : Prop := ∀ x ∈ b, SumProduct.Live x

theorem LiveBuf.getD {b : List α} (h : LiveBuf b) {i : Nat} (hi : i < b.length) : SumProduct.Live (b.getD i 0) := by
  rw [List.getD_eq_getElem?_getD, List.getElem?_eq_getElem hi]
  exact h _ (List.getElem_mem hi)

theorem mul_sum_live {c : α} {f : Nat → α} {n : Nat} (hn : 0 < n) (h : ∀ k < n, SumProduct.Live (f k)) :
    c * ∑ k ∈ Finset.range n, f k = ∑ k ∈ Finset.range n, c * f k ∧ SumProduct.Live (∑ k ∈ Finset.range n, f k) := by
  induction n with
  | zero => omega
  | succ n ih =>
    rcases Nat.eq_zero_or_pos n with rfl | h0
    · simpa using h 0 (by omega)
    · obtain ⟨e, hl⟩ := ih h0 fun k hk => h k (by omega)
      rw [Finset.sum_range_succ, Finset.sum_range_succ, SumProduct.mul_add_of_live hl (h n (by omega)), e]
      exact ⟨rfl, SumProduct.live_add hl (h n (by omega))⟩

end Verif
