import Verif.Lemmas.FloatError

/-!
# Floating-point expressions over integers
-/

namespace Verif

open Polynomial

theorem IsInt.add {x y : ℚ} : IsInt x → IsInt y → IsInt (x + y)
  | ⟨a, ha⟩, ⟨b, hb⟩ => ⟨a + b, by rw [ha, hb]; push_cast; rfl⟩

theorem IsInt.mul {x y : ℚ} : IsInt x → IsInt y → IsInt (x * y)
  | ⟨a, ha⟩, ⟨b, hb⟩ => ⟨a * b, by rw [ha, hb]; push_cast; rfl⟩

theorem IsInt.abs {x : ℚ} : IsInt x → IsInt |x|
  | ⟨a, ha⟩ => ⟨|a|, by rw [ha]; push_cast; rfl⟩

theorem IsInt.one_le {x : ℚ} (h : IsInt x) (h0 : 0 ≤ x) (h1 : x ≠ 0) : 1 ≤ x := by
  obtain ⟨a, rfl⟩ := h
  have h2 : (0 : ℤ) ≤ a := by exact_mod_cast h0
  have h3 : a ≠ 0 := by rintro rfl; exact h1 (by norm_num)
  have : 1 ≤ a := by omega
  exact_mod_cast this

section
variable {p : Nat} [NeZero p]

theorem rnd_isInt {x : ℚ} (h : IsInt x) (hx : |x| ≤ 2 ^ p) : rnd p x = x := by
  obtain ⟨a, rfl⟩ := h
  exact rnd_int (Nat.pos_of_neZero p) (by exact_mod_cast hx)

/-- `x` was computed for an expression with the integer value `t.1` and value `t.2` on the absolute values; it is exact if the latter
is at most `2 ^ p`. -/
structure Exact (p : Nat) [NeZero p] (x : Fl p) (t : ℚ × ℚ) : Prop where
  int : IsInt t.1
  int' : IsInt t.2
  le : |t.1| ≤ t.2
  eq : t.2 ≤ 2 ^ p → x.val = t.1

theorem Exact.nonneg {x : Fl p} {t : ℚ × ℚ} (h : Exact p x t) : 0 ≤ t.2 := (abs_nonneg _).trans h.le

/-- The unrounded product. -/
theorem exact_prod {x y : Fl p} {s t : ℚ × ℚ} (h : Exact p x s) (h' : Exact p y t) (hb : s.2 * t.2 ≤ 2 ^ p) :
    x.val * y.val = s.1 * t.1 := by
  by_cases h0 : s.2 = 0
  · have e : s.1 = 0 := abs_nonpos_iff.1 (by have := h.le; rwa [h0] at this)
    rw [h.eq (by rw [h0]; positivity), e, zero_mul, zero_mul]
  by_cases h1 : t.2 = 0
  · have e : t.1 = 0 := abs_nonpos_iff.1 (by have := h'.le; rwa [h1] at this)
    rw [h'.eq (by rw [h1]; positivity), e, mul_zero, mul_zero]
  have a := h.int'.one_le h.nonneg h0
  have b := h'.int'.one_le h'.nonneg h1
  rw [h.eq (by nlinarith), h'.eq (by nlinarith)]

theorem abs_mul_le' {a b c d : ℚ} (h : |a| ≤ c) (h' : |b| ≤ d) : |a * b| ≤ c * d := by
  rw [abs_mul]; exact mul_le_mul h h' (abs_nonneg b) ((abs_nonneg a).trans h)

instance : Closed (Exact p) where
  zero := ⟨⟨0, by simp⟩, ⟨0, by simp⟩, by simp, fun _ => rfl⟩
  one := ⟨⟨1, by simp⟩, ⟨1, by simp⟩, by simp, fun _ => rfl⟩
  add {x y s t} h h' := by
    have hle : |s.1 + t.1| ≤ s.2 + t.2 := (abs_add_le _ _).trans (add_le_add h.le h'.le)
    refine ⟨h.int.add h'.int, h.int'.add h'.int', hle, fun hb => ?_⟩
    have hb' : s.2 + t.2 ≤ 2 ^ p := hb
    have e1 := h.eq (by linarith [h'.nonneg])
    have e2 := h'.eq (by linarith [h.nonneg])
    show rnd p (x.val + y.val) = s.1 + t.1
    rw [e1, e2]
    exact rnd_isInt (h.int.add h'.int) (hle.trans hb')
  mul {x y s t} h h' := by
    have hle : |s.1 * t.1| ≤ s.2 * t.2 := abs_mul_le' h.le h'.le
    refine ⟨h.int.mul h'.int, h.int'.mul h'.int', hle, fun hb => ?_⟩
    show rnd p (x.val * y.val) = s.1 * t.1
    rw [exact_prod h h' hb]
    exact rnd_isInt (h.int.mul h'.int) (hle.trans hb)
  mulAdd {x y z s t w} h h' h'' := by
    have hle : |s.1 * t.1 + w.1| ≤ s.2 * t.2 + w.2 := (abs_add_le _ _).trans (add_le_add (abs_mul_le' h.le h'.le) h''.le)
    refine ⟨(h.int.mul h'.int).add h''.int, (h.int'.mul h'.int').add h''.int', hle, fun hb => ?_⟩
    have hb' : s.2 * t.2 + w.2 ≤ 2 ^ p := hb
    have := mul_nonneg h.nonneg h'.nonneg
    show rnd p (x.val * y.val + z.val) = s.1 * t.1 + w.1
    rw [exact_prod h h' (by linarith [h''.nonneg]), h''.eq (by linarith)]
    exact rnd_isInt ((h.int.mul h'.int).add h''.int) (hle.trans hb')

open Classical in
/-- An element: itself and its absolute value, if it is an integer. -/
noncomputable def intLeaf (x : Fl p) : ℚ × ℚ := if IsInt x.val then (x.val, |x.val|) else (0, 2 ^ p + 1)

theorem exact_leaf (x : Fl p) : Exact p x (intLeaf x) := by
  unfold intLeaf
  split
  · rename_i h
    exact ⟨h, h.abs, le_rfl, fun _ => rfl⟩
  · refine ⟨⟨0, by simp⟩, ⟨2 ^ p + 1, by push_cast; rfl⟩, by simp; positivity, fun h => absurd h ?_⟩
    simp

theorem intLeaf_int {x : Fl p} (h : IsInt x.val) : intLeaf x = (x.val, |x.val|) := if_pos h

end

/-! ### projections of specifications -/

section proj
variable {S T : Type} [CommSemiring S] [CommSemiring T] (π : S →+* T)

theorem proj_sum {ι : Type} (l : List ι) (g : ι → S) : π (l.map g).sum = (l.map fun i => π (g i)).sum := by
  rw [map_list_sum, List.map_map]; rfl

theorem proj_prod {ι : Type} (l : List ι) (g : ι → S) : π (l.map g).prod = (l.map fun i => π (g i)).prod := by
  rw [map_list_prod, List.map_map]; rfl

theorem proj_innerProduct (k : Nat) (u v : Nat → S) :
    π (innerProduct k u v) = innerProduct k (fun t => π (u t)) fun t => π (v t) := by
  unfold innerProduct
  rw [proj_sum]
  simp only [map_mul]

theorem proj_einsteinSum (out rest : List Char) (dim : Char → Nat) (fs : List (Factor S)) (o : List Nat) :
    π (einsteinSum out rest dim fs o) = einsteinSum out rest dim (fs.map (Factor.map π)) o := by
  unfold einsteinSum
  rw [proj_sum]
  simp only [proj_prod, List.map_map]
  rfl

end proj

/-! ### counting polynomials -/

theorem roundings_le (m n : Nat) : roundings (C m * X ^ n : ℕ[X]) ≤ m - 1 + (n - 1) := by
  unfold roundings
  have hev : (C m * X ^ n : ℕ[X]).eval 1 = m := by simp
  rw [hev]
  by_cases hm : m = 0
  · subst hm; simp
  · rw [natDegree_C_mul_X_pow n m hm]
    split <;> omega

theorem count_sum {ι : Type} (l : List ι) : (l.map fun _ => (X : ℕ[X])).sum = C l.length * X ^ 1 := by
  simp

theorem count_prod {ι : Type} (l : List ι) : (l.map fun _ => (X : ℕ[X])).prod = C 1 * X ^ l.length := by
  simp

theorem count_innerProduct (k : Nat) : innerProduct k (fun _ => (X : ℕ[X])) (fun _ => X) = C k * X ^ 2 := by
  simp [innerProduct, pow_two]

theorem count_einsteinSum {α : Type} (out rest : List Char) (dim : Char → Nat) (fs : List (Factor α)) (o : List Nat) :
    einsteinSum out rest dim (fs.map (Factor.map fun _ => (X : ℕ[X]))) o = C (numel (rest.map dim)) * X ^ fs.length := by
  have : (fun r => ((fs.map (Factor.map fun _ => (X : ℕ[X]))).map fun f =>
      f.elem (f.letters.map (valueOf (out ++ rest) (o ++ r)))).prod) = fun _ => (X : ℕ[X]) ^ fs.length := by
    funext r
    simp [Factor.map, Function.comp_def]
  unfold einsteinSum
  rw [this]
  simp [length_indices]

end Verif
