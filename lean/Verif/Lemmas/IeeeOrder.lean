import Verif.Lemmas.Tagged
import Verif.Lemmas.IeeeNearest
import Verif.Spec.IeeeOrder
import Mathlib.Data.Set.Semiring

/-!
# Predicates that IEEE operations preserve, and lower bounds for sums
-/

namespace Verif

open Polynomial

variable {p emax : Nat} [NeZero p] [NeZero emax]

/-! ### preserved predicates -/

/-- All operations preserve `Good`. -/
class Hereditary (Good : Ieee p emax → Prop) : Prop where
  zero : Good 0
  add : ∀ {x y}, Good x → Good y → Good (x + y)
  mul : ∀ {x y}, Good x → Good y → Good (x * y)
  mulAdd : ∀ {x y z}, Good x → Good y → Good z → Good (mulAdd x y z)

/-- The number of terms and of terms made of good elements. -/
structure CountPos (s : ℕ × ℕ) : Prop where
  pos : 0 < s.1
  le : s.2 ≤ s.1

def CountGood (Good : Ieee p emax → Prop) (x : Ieee p emax) (s : ℕ × ℕ) : Prop := s.2 = s.1 → Good x

theorem count_mul {s t : ℕ × ℕ} (hs : CountPos s) (ht : CountPos t) (h : (s * t).2 = (s * t).1) : s.2 = s.1 ∧ t.2 = t.1 := by
  have h' : s.2 * t.2 = s.1 * t.1 := h
  have h1 := hs.le
  have h2 := ht.le
  have h3 := hs.pos
  have h4 := ht.pos
  constructor
  · by_contra hne
    have : s.2 + 1 ≤ s.1 := by omega
    nlinarith
  · by_contra hne
    have : t.2 + 1 ≤ t.1 := by omega
    nlinarith

theorem count_add {s t : ℕ × ℕ} (hs : CountPos s) (ht : CountPos t) (h : (s + t).2 = (s + t).1) : s.2 = s.1 ∧ t.2 = t.1 := by
  have h' : s.2 + t.2 = s.1 + t.1 := h
  have h1 := hs.le
  have h2 := ht.le
  omega

theorem CountPos.add {s t : ℕ × ℕ} (hs : CountPos s) (ht : CountPos t) : CountPos (s + t) :=
  ⟨Nat.add_pos_left hs.pos _, Nat.add_le_add hs.le ht.le⟩

theorem CountPos.mul {s t : ℕ × ℕ} (hs : CountPos s) (ht : CountPos t) : CountPos (s * t) :=
  ⟨Nat.mul_pos hs.pos ht.pos, Nat.mul_le_mul hs.le ht.le⟩

instance hereditary_closed {Good : Ieee p emax → Prop} [H : Hereditary Good] : TagClosed CountPos (CountGood Good) where
  zero_add_zero := Ieee.zero_add_zero
  zero_add_one := Ieee.zero_add_one
  one_add_zero := Ieee.one_add_zero
  one_mul := Ieee.one_mul_eq
  mul_one := Ieee.mul_one_eq
  mulAdd_one_left := Ieee.mulAdd_one_left
  mulAdd_one_right := Ieee.mulAdd_one_right
  pos_add := CountPos.add
  pos_mul := CountPos.mul
  zero_add h e := H.add H.zero (h e)
  add_zero h e := H.add (h e) H.zero
  add hs ht hx hy e := H.add (hx (count_add hs ht e).1) (hy (count_add hs ht e).2)
  mul hs ht hx hy e := H.mul (hx (count_mul hs ht e).1) (hy (count_mul hs ht e).2)
  mulAdd_fresh hs ht hx hy e := H.mulAdd (hx (count_mul hs ht e).1) (hy (count_mul hs ht e).2) H.zero
  mulAdd hs ht hw hx hy hz e := by
    obtain ⟨e1, e2⟩ := count_add (hs.mul ht) hw e
    exact H.mulAdd (hx (count_mul hs ht e1).1) (hy (count_mul hs ht e1).2) (hz e2)

open Classical in
noncomputable def countLeaf (Good : Ieee p emax → Prop) (x : Ieee p emax) : ℕ × ℕ := (1, if Good x then 1 else 0)

omit [NeZero p] [NeZero emax] in
theorem countLeaf_good {Good : Ieee p emax → Prop} {x : Ieee p emax} (h : Good x) : countLeaf Good x = (1, 1) := by
  unfold countLeaf; rw [if_pos h]

theorem count_leaf (Good : Ieee p emax → Prop) (x : Ieee p emax) :
    Tagged.Rel CountPos (CountGood Good) x (.live (countLeaf Good x)) := by
  unfold countLeaf
  by_cases h : Good x
  · rw [if_pos h]; exact ⟨⟨Nat.one_pos, le_rfl⟩, fun _ => h⟩
  · rw [if_neg h]; exact ⟨⟨Nat.one_pos, Nat.zero_le _⟩, fun e => absurd e (by simp)⟩

/-! ### signs -/

theorem correctlyRounded_ge {x y : Ieee p emax} {v : ℚ} (hx : CorrectlyRounded x v) (h0 : 0 ≤ v) (hy : y.Finite) (hyv : y.val ≤ v) :
    x = .inf false ∨ x.Finite ∧ y.val ≤ x.val := by
  unfold CorrectlyRounded at hx
  split_ifs at hx
  · refine .inr ⟨hx.1, ?_⟩
    have h1 := (hx.2 y hy).1
    rw [abs_of_nonneg (show 0 ≤ v - y.val by linarith)] at h1
    have := le_abs_self (v - x.val)
    linarith
  · left; rw [hx, decide_eq_false (not_lt.2 h0)]

theorem correctlyRounded_notNegative {x : Ieee p emax} {v : ℚ} (hx : CorrectlyRounded x v) (h0 : 0 ≤ v) : NotNegative x := by
  rcases correctlyRounded_ge hx h0 (y := 0) trivial h0 with rfl | ⟨hf, h⟩
  · exact ⟨by simp, le_rfl⟩
  · exact ⟨fun e => by rw [e] at hf; exact hf, h⟩

omit [NeZero p] [NeZero emax] in
theorem nan_notNegative : NotNegative (.nan : Ieee p emax) := ⟨by simp, le_rfl⟩

omit [NeZero p] [NeZero emax] in
theorem inf_notNegative : NotNegative (.inf false : Ieee p emax) := ⟨by simp, le_rfl⟩

theorem notNegative_add {x y : Ieee p emax} (hx : NotNegative x) (hy : NotNegative y) : NotNegative (x + y) := by
  match x, y with
  | .nan, _ => exact nan_notNegative
  | .inf _, .nan => exact nan_notNegative
  | .num .., .nan => exact nan_notNegative
  | .inf true, .inf _ => exact absurd rfl hx.1
  | .inf false, .inf true => exact absurd rfl hy.1
  | .inf false, .inf false => exact inf_notNegative
  | .inf true, .num .. => exact absurd rfl hx.1
  | .inf false, .num .. => exact inf_notNegative
  | .num .., .inf true => exact absurd rfl hy.1
  | .num .., .inf false => exact inf_notNegative
  | .num s a h h', .num t b k k' =>
    exact correctlyRounded_notNegative (Ieee.add_correct (x := .num s a h h') (y := .num t b k k') trivial trivial)
      (add_nonneg hx.2 hy.2)

theorem inf_mul_notNegative {s t : Bool} {b : ℚ} {k : 0 ≤ b} {k' : IsNumber p emax b} (hs : s = false)
    (hy : NotNegative (.num t b k k' : Ieee p emax)) : NotNegative (if b = 0 then .nan else .inf (s ^^ t) : Ieee p emax) := by
  subst hs
  by_cases hb : b = 0
  · rw [if_pos hb]; exact nan_notNegative
  · rw [if_neg hb]
    cases t with
    | false => exact inf_notNegative
    | true =>
      have h2 : 0 ≤ -b := hy.2
      exact absurd (le_antisymm (by linarith) k) hb

theorem notNegative_mul {x y : Ieee p emax} (hx : NotNegative x) (hy : NotNegative y) : NotNegative (x * y) := by
  match x, y with
  | .nan, _ => exact nan_notNegative
  | .inf _, .nan => exact nan_notNegative
  | .num .., .nan => exact nan_notNegative
  | .inf true, .inf _ => exact absurd rfl hx.1
  | .inf false, .inf true => exact absurd rfl hy.1
  | .inf false, .inf false => exact inf_notNegative
  | .inf true, .num .. => exact absurd rfl hx.1
  | .inf false, .num t b k k' => exact inf_mul_notNegative rfl hy
  | .num .., .inf true => exact absurd rfl hy.1
  | .num s a h h', .inf false =>
    have := inf_mul_notNegative (s := false) rfl hx
    rw [Bool.false_xor] at this
    show NotNegative (if a = 0 then .nan else .inf (s ^^ false))
    rwa [Bool.xor_false]
  | .num s a h h', .num t b k k' =>
    exact correctlyRounded_notNegative (Ieee.mul_correct (x := .num s a h h') (y := .num t b k k') trivial trivial)
      (mul_nonneg hx.2 hy.2)

theorem notNegative_mulAdd {x y z : Ieee p emax} (hx : NotNegative x) (hy : NotNegative y) (hz : NotNegative z) :
    NotNegative (mulAdd x y z) := by
  match x, y, z with
  | .num s a h h', .num t b k k', .num w c l l' =>
    exact correctlyRounded_notNegative
      (Ieee.mulAdd_correct (x := .num s a h h') (y := .num t b k k') (z := .num w c l l') trivial trivial trivial)
      (add_nonneg (mul_nonneg hx.2 hy.2) hz.2)
  | .num .., .num .., .inf true => exact absurd rfl hz.1
  | .num .., .num .., .inf false => exact inf_notNegative
  | .num .., .num .., .nan => exact nan_notNegative
  | .nan, y, z => rw [Ieee.nan_mulAdd]; exact nan_notNegative
  | .inf s, y, z => exact notNegative_add (notNegative_mul hx hy) hz
  | .num .., .nan, z => rw [Ieee.mulAdd_nan_mid]; exact nan_notNegative
  | .num .., .inf _, z => exact notNegative_add (notNegative_mul hx hy) hz

instance : Hereditary (p := p) (emax := emax) NotNegative where
  zero := ⟨by simp [show (0 : Ieee p emax) = .num false 0 le_rfl Ieee.isNumber_zero from rfl], le_rfl⟩
  add := notNegative_add
  mul := notNegative_mul
  mulAdd := notNegative_mulAdd

/-! ### lower bounds for sums -/

/-- The values that are summed, with a 0 beside infinities and a 1 beside numbers, and a polynomial whose degree tells sums from
products. -/
abbrev Summands := SetSemiring (ℚ × ℕ) × ℕ[X]

structure Summands.Pos (s : Summands) : Prop where
  deg : 1 ≤ s.2.natDegree
  ne : s.1.down.Nonempty

def LowerBound (x : Ieee p emax) (s : Summands) : Prop :=
  s.2.natDegree ≤ 1 → (∀ v ∈ s.1.down, 0 ≤ v.1) → x = .inf false ∨ x.Finite ∧ ∀ v ∈ s.1.down, v.2 = 1 ∧ v.1 ≤ x.val

namespace Summands

theorem Pos.nz {s : Summands} (h : s.Pos) : s.2 ≠ 0 := fun e => by have := h.deg; rw [e] at this; simp at this

theorem Pos.add {s t : Summands} (hs : s.Pos) (ht : t.Pos) : (s + t).Pos :=
  ⟨hs.deg.trans (natDegree_le_add _ _), hs.ne.mono fun _ h => .inl h⟩

theorem Pos.mul {s t : Summands} (hs : s.Pos) (ht : t.Pos) : (s * t).Pos where
  deg := by
    show 1 ≤ (s.2 * t.2).natDegree
    rw [natDegree_mul hs.nz ht.nz]
    have := hs.deg
    omega
  ne := Set.Nonempty.mul hs.ne ht.ne

theorem mul_deg {s t : Summands} (hs : s.Pos) (ht : t.Pos) : ¬ (s * t).2.natDegree ≤ 1 := by
  show ¬ (s.2 * t.2).natDegree ≤ 1
  rw [natDegree_mul hs.nz ht.nz]
  have := hs.deg
  have := ht.deg
  omega

end Summands

open Summands in
instance lowerBound_closed : TagClosed (M := Ieee p emax) Summands.Pos LowerBound where
  zero_add_zero := Ieee.zero_add_zero
  zero_add_one := Ieee.zero_add_one
  one_add_zero := Ieee.one_add_zero
  one_mul := Ieee.one_mul_eq
  mul_one := Ieee.mul_one_eq
  mulAdd_one_left := Ieee.mulAdd_one_left
  mulAdd_one_right := Ieee.mulAdd_one_right
  pos_add := Pos.add
  pos_mul := Pos.mul
  zero_add h hd hv := by
    rcases h hd hv with rfl | ⟨hf, h⟩
    · exact .inl rfl
    · obtain ⟨g1, g2⟩ := Ieee.zero_add_val hf
      exact .inr ⟨g1, by rw [g2]; exact h⟩
  add_zero h hd hv := by
    rcases h hd hv with rfl | ⟨hf, h⟩
    · exact .inl rfl
    · obtain ⟨g1, g2⟩ := Ieee.add_zero_val hf
      exact .inr ⟨g1, by rw [g2]; exact h⟩
  add {x y s t} hs ht hx hy hd hv := by
    have d1 := (natDegree_le_add s.2 t.2).trans hd
    have d2 : t.2.natDegree ≤ 1 := (natDegree_le_add t.2 s.2).trans (by rw [add_comm]; exact hd)
    have v1 : ∀ v ∈ s.1.down, 0 ≤ v.1 := fun v h => hv v (.inl h)
    have v2 : ∀ v ∈ t.1.down, 0 ≤ v.1 := fun v h => hv v (.inr h)
    obtain ⟨a, ha⟩ := hs.ne
    obtain ⟨b, hb⟩ := ht.ne
    rcases hx d1 v1 with rfl | ⟨fx, hx⟩ <;> rcases hy d2 v2 with rfl | ⟨fy, hy⟩
    · exact .inl rfl
    · left
      match y, fy with
      | .num .., _ => rfl
    · left
      match x, fx with
      | .num .., _ => rfl
    · have x0 : 0 ≤ x.val := (v1 a ha).trans (hx a ha).2
      have y0 : 0 ≤ y.val := (v2 b hb).trans (hy b hb).2
      have hc := Ieee.add_correct fx fy
      have h0 := add_nonneg x0 y0
      rcases correctlyRounded_ge hc h0 fx (by linarith) with h | ⟨hf, h1⟩
      · exact .inl h
      · rcases correctlyRounded_ge hc h0 fy (by linarith) with h | ⟨_, h2⟩
        · exact .inl h
        · refine .inr ⟨hf, fun v h => ?_⟩
          rcases h with h | h
          · exact ⟨(hx v h).1, (hx v h).2.trans h1⟩
          · exact ⟨(hy v h).1, (hy v h).2.trans h2⟩
  mul hs ht _ _ hd := absurd hd (mul_deg hs ht)
  mulAdd_fresh hs ht _ _ hd := absurd hd (mul_deg hs ht)
  mulAdd {x y z s t w} hs ht _ _ _ _ hd := absurd ((natDegree_le_add _ w.2).trans hd) (mul_deg hs ht)

open Classical in
/-- The mark of a float: its value and whether it is finite. -/
noncomputable def boundMark (x : Ieee p emax) : ℚ × ℕ := if NonNegative x then (x.val, if x.Finite then 1 else 0) else (-1, 1)

noncomputable def boundLeaf (x : Ieee p emax) : Summands := (({boundMark x} : Set (ℚ × ℕ)).up, X)

theorem bound_leaf (x : Ieee p emax) : Tagged.Rel Summands.Pos LowerBound x (.live (boundLeaf x)) := by
  refine ⟨⟨by simp [boundLeaf], ⟨boundMark x, rfl⟩⟩, fun _ hv => ?_⟩
  by_cases h : NonNegative x
  · rcases id h with h' | ⟨h', _⟩
    · exact .inl h'
    · refine .inr ⟨h', fun v hv => ?_⟩
      rw [show v = boundMark x from hv, boundMark, if_pos h, if_pos h']
      exact ⟨rfl, le_rfl⟩
  · have : 0 ≤ (boundMark x).1 := hv _ rfl
    rw [boundMark, if_neg h] at this
    norm_num at this

theorem down_sum {ι : Type} (l : List ι) (g : ι → Summands) : (l.map g).sum.1.down = {v | ∃ i ∈ l, v ∈ (g i).1.down} := by
  induction l with
  | nil => ext; simp [SetSemiring.down_zero]
  | cons a l ih =>
    rw [List.map_cons, List.sum_cons, Prod.fst_add, SetSemiring.down_add, ih]
    ext; simp

omit [NeZero p] [NeZero emax] in
theorem deg_sum {ι : Type} (l : List ι) (g : ι → Ieee p emax) : (l.map fun i => boundLeaf (g i)).sum.2.natDegree ≤ 1 := by
  induction l with
  | nil => simp
  | cons a l ih =>
    rw [List.map_cons, List.sum_cons, Prod.snd_add]
    exact natDegree_add_le_of_degree_le natDegree_X_le ih

/-- What is computed by a sum of elements that are not negative. -/
theorem bound_sum {ι : Type} {l : List ι} {g : ι → Ieee p emax} {v : Ieee p emax}
    (h : Tagged.Rel Summands.Pos LowerBound v (l.map fun i => .live (boundLeaf (g i))).sum) (hl : ∀ i ∈ l, NonNegative (g i)) :
    NonNegative v ∧ ∀ i ∈ l, AtLeast v (g i) := by
  have hnn : ∀ i ∈ l, 0 ≤ (g i).val := fun i hi => by
    rcases hl i hi with h | h
    · rw [h]; exact le_rfl
    · exact h.2
  by_cases h0 : l = []
  · subst h0
    have : v = 0 := h
    subst this
    exact ⟨.inr ⟨trivial, le_rfl⟩, by simp⟩
  · rw [Tagged.sum_live h0] at h
    obtain ⟨i0, hi0⟩ := List.exists_mem_of_ne_nil _ h0
    rcases h.2 (deg_sum l g) (by
      rw [down_sum]
      rintro w ⟨i, hi, hw⟩
      rw [show w = boundMark (g i) from hw, boundMark, if_pos (hl i hi)]
      exact hnn i hi) with h | ⟨hf, h⟩
    · exact ⟨.inl h, fun i _ => .inl h⟩
    · have key : ∀ i ∈ l, (g i).Finite ∧ (g i).val ≤ v.val := fun i hi => by
        have := h (boundMark (g i)) (by rw [down_sum]; exact ⟨i, hi, rfl⟩)
        rw [boundMark, if_pos (hl i hi)] at this
        refine ⟨?_, this.2⟩
        by_contra hc
        rw [if_neg hc] at this
        exact absurd this.1 (by norm_num)
      exact ⟨.inr ⟨hf, (hnn i0 hi0).trans (key i0 hi0).2⟩, fun i hi => .inr ⟨(key i hi).1, hf, (key i hi).2⟩⟩

/-! ### expressions in good elements -/

section

variable {Good : Ieee p emax → Prop} [Hereditary Good]

theorem good_sum {ι : Type} {l : List ι} {g : ι → Ieee p emax} {v : Ieee p emax}
    (h : Tagged.Rel CountPos (CountGood Good) v (l.map fun i => .live (countLeaf Good (g i))).sum) (hl : ∀ i ∈ l, Good (g i)) : Good v := by
  by_cases h0 : l = []
  · subst h0
    have : v = 0 := h
    subst this
    exact Hereditary.zero
  · rw [Tagged.sum_live h0, List.map_congr_left fun i hi => countLeaf_good (hl i hi)] at h
    exact h.2 ((proj_sum (RingHom.snd ℕ ℕ) l _).trans (proj_sum (RingHom.fst ℕ ℕ) l fun _ => (1, 1)).symm)

theorem good_prod {ι : Type} {l : List ι} {g : ι → Ieee p emax} {v : Ieee p emax} (h1 : Good 1)
    (h : Tagged.Rel CountPos (CountGood Good) v (l.map fun i => .live (countLeaf Good (g i))).prod) (hl : ∀ i ∈ l, Good (g i)) : Good v := by
  by_cases h0 : l = []
  · subst h0
    have : v = 1 := h
    subst this
    exact h1
  · rw [Tagged.prod_live h0, List.map_congr_left fun i hi => countLeaf_good (hl i hi)] at h
    exact h.2 ((proj_prod (RingHom.snd ℕ ℕ) l _).trans (proj_prod (RingHom.fst ℕ ℕ) l fun _ => (1, 1)).symm)

theorem good_inner {k : Nat} {a b : Nat → Ieee p emax} {v : Ieee p emax}
    (h : Tagged.Rel CountPos (CountGood Good) v
      (innerProduct k (fun t => .live (countLeaf Good (a t))) fun t => .live (countLeaf Good (b t))))
    (ha : ∀ t < k, Good (a t)) (hb : ∀ t < k, Good (b t)) : Good v := by
  rcases Nat.eq_zero_or_pos k with h0 | h0
  · subst h0
    have : v = 0 := h
    subst this
    exact Hereditary.zero
  · have e : innerProduct k (fun t => countLeaf Good (a t)) (fun t => countLeaf Good (b t)) =
        innerProduct k (fun _ => (1, 1)) fun _ => (1, 1) := by
      unfold innerProduct
      rw [List.map_congr_left fun t hm => ?_]
      have ht := List.mem_range.1 hm
      change countLeaf Good (a t) * countLeaf Good (b t) = _
      rw [countLeaf_good (ha t ht), countLeaf_good (hb t ht)]
    rw [Tagged.inner_live h0, e] at h
    exact h.2 ((proj_innerProduct (RingHom.snd ℕ ℕ) k _ _).trans (proj_innerProduct (RingHom.fst ℕ ℕ) k (fun _ => (1, 1)) fun _ => (1, 1)).symm)

end

end Verif
