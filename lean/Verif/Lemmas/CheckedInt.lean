import Verif.Model.CheckedInt
import Verif.Lemmas.FloatExact

/-!
# Integer arithmetic with overflow checks: never wrong, and right when there is room
-/

namespace Verif

variable {lo hi : Int}

namespace Chk

theorem fresh_add (y : Chk lo hi) : fresh + y = y := rfl
theorem add_fresh (x : Chk lo hi) : x + fresh = x := by cases x <;> rfl
theorem int_add (x y : Int) (hx hy) : (int x hx + int y hy : Chk lo hi) = check (x + y) := rfl
theorem overflow_add (y : Chk lo hi) : overflow + y = overflow := by cases y <;> rfl
theorem add_overflow (x : Chk lo hi) : x + overflow = overflow := by cases x <;> rfl
theorem fresh_mul (y : Chk lo hi) : fresh * y = fresh := rfl
theorem mul_fresh (x : Chk lo hi) : x * fresh = fresh := by cases x <;> rfl
theorem int_mul (x y : Int) (hx hy) : (int x hx * int y hy : Chk lo hi) = check (x * y) := rfl

end Chk

open Chk

/-- A cell is marked, or holds the exact number. -/
def Right (x : Chk lo hi) (e : Int) : Prop :=
  x = overflow ∨ (∃ h, x = int e h) ∨ (x = fresh ∧ e = 0)

theorem right_check (z : Int) : Right (check z : Chk lo hi) z := by
  unfold check
  split
  · rename_i h; exact .inr (.inl ⟨h, rfl⟩)
  · exact .inl rfl

theorem right_add {x y : Chk lo hi} {s t : Int} (h : Right x s) (h' : Right y t) : Right (x + y) (s + t) := by
  rcases h with rfl | ⟨h1, rfl⟩ | ⟨rfl, rfl⟩
  · rw [overflow_add]; exact .inl rfl
  · rcases h' with rfl | ⟨h2, rfl⟩ | ⟨rfl, rfl⟩
    · rw [add_overflow]; exact .inl rfl
    · exact right_check _
    · rw [add_fresh, add_zero]; exact .inr (.inl ⟨h1, rfl⟩)
  · rw [fresh_add, zero_add]; exact h'

theorem right_mul {x y : Chk lo hi} {s t : Int} (h : Right x s) (h' : Right y t) : Right (x * y) (s * t) := by
  rcases h with rfl | ⟨h1, rfl⟩ | ⟨rfl, rfl⟩
  · rcases h' with rfl | ⟨_, rfl⟩ | ⟨rfl, rfl⟩
    · exact .inl rfl
    · exact .inl rfl
    · rw [mul_fresh, mul_zero]; exact .inr (.inr ⟨rfl, rfl⟩)
  · rcases h' with rfl | ⟨h2, rfl⟩ | ⟨rfl, rfl⟩
    · exact .inl rfl
    · exact right_check _
    · rw [mul_fresh, mul_zero]; exact .inr (.inr ⟨rfl, rfl⟩)
  · rw [fresh_mul, zero_mul]; exact .inr (.inr ⟨rfl, rfl⟩)

theorem closed_right : Closed (Right : Chk lo hi → Int → Prop) where
  zero := .inr (.inr ⟨rfl, rfl⟩)
  one := right_check 1
  add := right_add
  mul := right_mul
  mulAdd h h' h'' := right_add (right_mul h h') h''

/-- What is known of an element. -/
def rightLeaf : Chk lo hi → Int
  | int z _ => z
  | _ => 0

theorem right_leaf (x : Chk lo hi) : Right x (rightLeaf x) := by
  cases x with
  | fresh => exact .inr (.inr ⟨rfl, rfl⟩)
  | int z h => exact .inr (.inl ⟨h, rfl⟩)
  | overflow => exact .inl rfl

/-- `x` was computed for an expression with value `t.1`; `t.2` is its value on magnitudes (at least 1 each). If the latter is at most
`B`, nothing overflowed. With `neg` false all numbers are non-negative. -/
structure FitsInt (lo hi : Int) (B : Nat) (neg : Bool) (x : Chk lo hi) (t : Int × Nat) : Prop where
  nonneg : neg = false → 0 ≤ t.1
  le : t.1.natAbs ≤ t.2
  fresh : t.2 = 0 → x = .fresh
  int : t.2 ≠ 0 → t.2 ≤ B → ∃ h, x = .int t.1 h

theorem FitsInt.check {B : Nat} {neg : Bool} (hhi : (B : Int) ≤ hi) (hlo : if neg then lo ≤ -B else lo ≤ 0) {z : Int} {b : Nat}
    (hn : neg = false → 0 ≤ z) (hz : z.natAbs ≤ b) (hb : b ≤ B) : ∃ h, (Chk.check z : Chk lo hi) = .int z h := by
  have h : lo ≤ z ∧ z ≤ hi := by
    cases neg with
    | false => have := hn rfl; simp at hlo; omega
    | true => simp at hlo; omega
  exact ⟨h, dif_pos h⟩

theorem fits_add {B : Nat} {neg : Bool} (hhi : (B : Int) ≤ hi) (hlo : if neg then lo ≤ -B else lo ≤ 0) {x y : Chk lo hi}
    {s t : Int × Nat} (h : FitsInt lo hi B neg x s) (h' : FitsInt lo hi B neg y t) : FitsInt lo hi B neg (x + y) (s + t) := by
  obtain ⟨e, b⟩ := s
  obtain ⟨e', b'⟩ := t
  have l1 := h.le
  have l2 := h'.le
  simp only at l1 l2
  refine ⟨fun hn => ?_, ?_, fun h0 => ?_, fun h0 hb => ?_⟩
  · have := h.nonneg hn; have := h'.nonneg hn; show 0 ≤ e + e'; simp_all; omega
  · show (e + e').natAbs ≤ b + b'; omega
  · change b + b' = 0 at h0
    rw [h.fresh (by show b = 0; omega), h'.fresh (by show b' = 0; omega)]; rfl
  · change b + b' ≠ 0 at h0
    change b + b' ≤ B at hb
    show ∃ h, x + y = .int (e + e') h
    by_cases hb1 : b = 0
    · obtain ⟨i, hi⟩ := h'.int (by show b' ≠ 0; omega) (by show b' ≤ B; omega)
      have e0 : e + e' = e' := by omega
      rw [h.fresh hb1, hi, fresh_add, e0]
      exact ⟨i, rfl⟩
    · by_cases hb2 : b' = 0
      · obtain ⟨i, hi⟩ := h.int hb1 (by show b ≤ B; omega)
        have e0 : e + e' = e := by omega
        rw [h'.fresh hb2, hi, add_fresh, e0]
        exact ⟨i, rfl⟩
      · obtain ⟨i, hi⟩ := h.int hb1 (by show b ≤ B; omega)
        obtain ⟨i', hi'⟩ := h'.int hb2 (by show b' ≤ B; omega)
        rw [hi, hi', int_add]
        exact FitsInt.check (b := b + b') hhi hlo (fun hn => by
          have := h.nonneg hn; have := h'.nonneg hn; simp_all; omega) (by show (e + e').natAbs ≤ _; omega) hb

theorem fits_mul {B : Nat} {neg : Bool} (hhi : (B : Int) ≤ hi) (hlo : if neg then lo ≤ -B else lo ≤ 0) {x y : Chk lo hi}
    {s t : Int × Nat} (h : FitsInt lo hi B neg x s) (h' : FitsInt lo hi B neg y t) : FitsInt lo hi B neg (x * y) (s * t) := by
  obtain ⟨e, b⟩ := s
  obtain ⟨e', b'⟩ := t
  have l1 : e.natAbs ≤ b := h.le
  have l2 : e'.natAbs ≤ b' := h'.le
  have hle : (e * e').natAbs ≤ b * b' := by rw [Int.natAbs_mul]; exact Nat.mul_le_mul l1 l2
  have hnn : neg = false → 0 ≤ e * e' := fun hn => mul_nonneg (h.nonneg hn) (h'.nonneg hn)
  refine ⟨hnn, hle, fun h0 => ?_, fun h0 hb => ?_⟩
  · rcases Nat.mul_eq_zero.1 (h0 : b * b' = 0) with h1 | h1
    · rw [h.fresh h1]; rfl
    · rw [h'.fresh h1, mul_fresh]
  · change b * b' ≠ 0 at h0
    change b * b' ≤ B at hb
    have hb1 : b ≠ 0 := fun h => h0 (by rw [h, Nat.zero_mul])
    have hb2 : b' ≠ 0 := fun h => h0 (by rw [h, Nat.mul_zero])
    have m1 : b ≤ b * b' := Nat.le_mul_of_pos_right _ (Nat.pos_of_ne_zero hb2)
    have m2 : b' ≤ b * b' := Nat.le_mul_of_pos_left _ (Nat.pos_of_ne_zero hb1)
    obtain ⟨i, hi⟩ := h.int hb1 (m1.trans hb)
    obtain ⟨i', hi'⟩ := h'.int hb2 (m2.trans hb)
    rw [hi, hi', int_mul]
    exact FitsInt.check hhi hlo hnn hle hb

theorem closed_fits {B : Nat} {neg : Bool} (h1 : lo ≤ 1 ∧ 1 ≤ hi) (hhi : (B : Int) ≤ hi)
    (hlo : if neg then lo ≤ -B else lo ≤ 0) : Closed (FitsInt lo hi B neg) where
  zero := ⟨fun _ => le_rfl, le_rfl, fun _ => rfl, fun h => absurd rfl h⟩
  one := ⟨fun _ => by show (0 : Int) ≤ 1; omega, le_rfl, fun h => absurd h Nat.one_ne_zero, fun _ _ => ⟨h1, dif_pos h1⟩⟩
  add := fits_add hhi hlo
  mul := fits_mul hhi hlo
  mulAdd h h' h'' := fits_add hhi hlo (fits_mul hhi hlo h h') h''

/-- The magnitude of a factor: at least 1. -/
def magnitude (z : Int) : Nat := max 1 z.natAbs

/-- An element and its magnitude. -/
def fitsLeaf (B : Nat) (neg : Bool) : Chk lo hi → Int × Nat
  | .fresh => (0, 0)
  | .int z _ => if neg = true ∨ 0 ≤ z then (z, magnitude z) else (0, B + 1)
  | .overflow => (0, B + 1)

theorem fits_leaf (B : Nat) (neg : Bool) (x : Chk lo hi) : FitsInt lo hi B neg x (fitsLeaf B neg x) := by
  cases x with
  | fresh => exact ⟨fun _ => le_rfl, le_rfl, fun _ => rfl, fun h => absurd rfl h⟩
  | overflow => exact ⟨fun _ => le_rfl, by simp [fitsLeaf], fun h => by simp [fitsLeaf] at h, fun _ h => by simp [fitsLeaf] at h⟩
  | int z hz =>
    unfold fitsLeaf
    simp only
    split
    · rename_i h
      refine ⟨fun hn => h.resolve_left (by simp [hn]), Nat.le_max_right _ _, fun h0 => ?_, fun _ _ => ⟨hz, rfl⟩⟩
      have : 1 ≤ magnitude z := Nat.le_max_left _ _
      simp only at h0; omega
    · exact ⟨fun _ => le_rfl, by simp, fun h => by simp at h, fun _ h => by simp at h⟩

theorem fitsLeaf_int {B : Nat} {neg : Bool} {z : Int} {hz} (h : neg = true ∨ 0 ≤ z) :
    fitsLeaf B neg (.int z hz : Chk lo hi) = (z, magnitude z) := if_pos h

end Verif
