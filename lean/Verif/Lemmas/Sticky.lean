import Verif.Lemmas.Related
import Mathlib.Algebra.Ring.Prod
import Mathlib.Algebra.Ring.Nat

/-!
# Values that cannot be lost

`Bad` elements make every sum and product they enter bad (NaN, for instance). An expression is counted twice: over all terms, and
over the terms without a bad factor. If the counts differ, the result is bad.
-/

namespace Verif

variable {M : Type} [Zero M] [One M] [Add M] [Mul M] [MulAdd M]

class Absorbing (Bad : M → Prop) : Prop where
  add : ∀ {x y}, Bad x ∨ Bad y → Bad (x + y)
  mul : ∀ {x y}, Bad x ∨ Bad y → Bad (x * y)
  mulAdd : ∀ {x y z}, Bad x ∨ Bad y ∨ Bad z → Bad (mulAdd x y z)

/-- `t.1` terms, `t.2` of them without a bad factor. -/
def Sticky (Bad : M → Prop) (x : M) (t : ℕ × ℕ) : Prop := t.2 ≤ t.1 ∧ (t.2 < t.1 → Bad x)

instance {Bad : M → Prop} [h : Absorbing Bad] : Closed (Sticky Bad) where
  zero := ⟨le_rfl, fun h => absurd h (lt_irrefl _)⟩
  one := ⟨le_rfl, fun h => absurd h (lt_irrefl _)⟩
  add {x y s t} hs ht := by
    refine ⟨Nat.add_le_add hs.1 ht.1, fun hlt => h.add ?_⟩
    have hlt' : s.2 + t.2 < s.1 + t.1 := hlt
    by_cases h1 : s.2 < s.1
    · exact .inl (hs.2 h1)
    · exact .inr (ht.2 (by omega))
  mul {x y s t} hs ht := by
    refine ⟨Nat.mul_le_mul hs.1 ht.1, fun hlt => h.mul ?_⟩
    have hlt' : s.2 * t.2 < s.1 * t.1 := hlt
    by_cases h1 : s.2 < s.1
    · exact .inl (hs.2 h1)
    · refine .inr (ht.2 ?_)
      have e : s.2 = s.1 := by have := hs.1; omega
      rw [e] at hlt'
      exact Nat.lt_of_mul_lt_mul_left hlt'
  mulAdd {x y z s t w} hs ht hw := by
    refine ⟨Nat.add_le_add (Nat.mul_le_mul hs.1 ht.1) hw.1, fun hlt => h.mulAdd ?_⟩
    have hlt' : s.2 * t.2 + w.2 < s.1 * t.1 + w.1 := hlt
    by_cases h1 : s.2 < s.1
    · exact .inl (hs.2 h1)
    by_cases h2 : t.2 < t.1
    · exact .inr (.inl (ht.2 h2))
    refine .inr (.inr (hw.2 ?_))
    have e : s.2 = s.1 := by have := hs.1; omega
    have e' : t.2 = t.1 := by have := ht.1; omega
    rw [e, e'] at hlt'
    omega

/-- Two relations at once. -/
def Both {S T : Type} (R : M → S → Prop) (R' : M → T → Prop) (x : M) (t : S × T) : Prop := R x t.1 ∧ R' x t.2

instance {S T : Type} [CommSemiring S] [CommSemiring T] {R : M → S → Prop} {R' : M → T → Prop} [h : Closed R] [h' : Closed R'] :
    Closed (Both R R') where
  zero := ⟨h.zero, h'.zero⟩
  one := ⟨h.one, h'.one⟩
  add a b := ⟨h.add a.1 b.1, h'.add a.2 b.2⟩
  mul a b := ⟨h.mul a.1 b.1, h'.mul a.2 b.2⟩
  mulAdd a b c := ⟨h.mulAdd a.1 b.1 c.1, h'.mulAdd a.2 b.2 c.2⟩

omit [Zero M] [One M] [Add M] [Mul M] [MulAdd M]

open Classical in
noncomputable def stickyLeaf (Bad : M → Prop) (x : M) : ℕ × ℕ := (1, if Bad x then 0 else 1)

theorem sticky_leaf (Bad : M → Prop) (x : M) : Sticky Bad x (stickyLeaf Bad x) := by
  unfold Sticky stickyLeaf
  split
  · rename_i h
    exact ⟨by simp, fun _ => h⟩
  · exact ⟨le_rfl, fun h => absurd h (lt_irrefl _)⟩

theorem sticky_fst (Bad : M → Prop) (x : M) : (stickyLeaf Bad x).1 = 1 := rfl
theorem sticky_le (Bad : M → Prop) (x : M) : (stickyLeaf Bad x).2 ≤ 1 := by unfold stickyLeaf; dsimp only; split <;> omega
theorem sticky_bad {Bad : M → Prop} {x : M} (h : Bad x) : (stickyLeaf Bad x).2 = 0 := if_pos h

/-- A sum in which one of the terms has lost. -/
theorem sticky_sum_lt {ι : Type} {l : List ι} {g : ι → ℕ × ℕ} (hle : ∀ i ∈ l, (g i).2 ≤ (g i).1) (h : ∃ i ∈ l, (g i).2 < (g i).1) :
    (l.map g).sum.2 < (l.map g).sum.1 := by
  have le : ∀ l : List ι, (∀ i ∈ l, (g i).2 ≤ (g i).1) → (l.map g).sum.2 ≤ (l.map g).sum.1 := by
    intro l hl
    induction l with
    | nil => exact le_rfl
    | cons a l ih => exact Nat.add_le_add (hl a (by simp)) (ih fun i hi => hl i (by simp [hi]))
  induction l with
  | nil => obtain ⟨_, hm, _⟩ := h; simp at hm
  | cons a l ih =>
    show (g a).2 + (l.map g).sum.2 < (g a).1 + (l.map g).sum.1
    obtain ⟨i, hm, hi⟩ := h
    have ha := hle a (by simp)
    have hl := le l fun i hi => hle i (by simp [hi])
    rcases List.mem_cons.1 hm with rfl | hm
    · omega
    · have := ih (fun i hi => hle i (by simp [hi])) ⟨i, hm, hi⟩
      omega

/-- A product of elements one of which is bad. -/
theorem sticky_prod {ι : Type} (Bad : M → Prop) (l : List ι) (g : ι → M) :
    ((l.map fun i => stickyLeaf Bad (g i)).prod).1 = 1 ∧ ((l.map fun i => stickyLeaf Bad (g i)).prod).2 ≤ 1 ∧
      ((∃ i ∈ l, Bad (g i)) → ((l.map fun i => stickyLeaf Bad (g i)).prod).2 = 0) := by
  induction l with
  | nil => exact ⟨rfl, le_rfl, by simp⟩
  | cons a l ih =>
    obtain ⟨h1, h2, h3⟩ := ih
    have e : ∀ l' : List ι, ((a :: l').map fun i => stickyLeaf Bad (g i)).prod =
        stickyLeaf Bad (g a) * (l'.map fun i => stickyLeaf Bad (g i)).prod := fun _ => by simp
    rw [e]
    refine ⟨by rw [Prod.fst_mul, sticky_fst, h1], ?_, ?_⟩
    · rw [Prod.snd_mul]
      exact Nat.mul_le_mul (sticky_le Bad (g a)) h2
    · rintro ⟨i, hm, hi⟩
      rw [Prod.snd_mul]
      rcases List.mem_cons.1 hm with rfl | hm
      · rw [sticky_bad hi, zero_mul]
      · rw [h3 ⟨i, hm, hi⟩, mul_zero]

theorem Sticky.of_sum {Bad : M → Prop} {v : M} {ι : Type} {l : List ι} {g : ι → M}
    (h : Sticky Bad v (l.map fun i => stickyLeaf Bad (g i)).sum) (hb : ∃ i ∈ l, Bad (g i)) : Bad v := by
  obtain ⟨i, hm, hi⟩ := hb
  exact h.2 (sticky_sum_lt (fun i _ => sticky_le Bad (g i)) ⟨i, hm, by rw [sticky_bad hi, sticky_fst]; omega⟩)

theorem Sticky.of_prod {Bad : M → Prop} {v : M} {ι : Type} {l : List ι} {g : ι → M}
    (h : Sticky Bad v (l.map fun i => stickyLeaf Bad (g i)).prod) (hb : ∃ i ∈ l, Bad (g i)) : Bad v := by
  obtain ⟨h1, _, h3⟩ := sticky_prod Bad l g
  exact h.2 (by rw [h1, h3 hb]; omega)

theorem Sticky.of_inner {Bad : M → Prop} {v : M} {k : Nat} {a b : Nat → M}
    (h : Sticky Bad v (innerProduct k (fun t => stickyLeaf Bad (a t)) fun t => stickyLeaf Bad (b t)))
    (hb : ∃ t < k, Bad (a t) ∨ Bad (b t)) : Bad v := by
  obtain ⟨t, ht, hbad⟩ := hb
  refine h.2 (sticky_sum_lt (fun i _ => ?_) ⟨t, List.mem_range.2 ht, ?_⟩)
  · exact Nat.mul_le_mul (sticky_le Bad (a i)) (sticky_le Bad (b i))
  · show (stickyLeaf Bad (a t)).2 * (stickyLeaf Bad (b t)).2 < 1 * 1
    rcases hbad with hbad | hbad <;> rw [sticky_bad hbad] <;> simp

theorem Sticky.of_einsteinSum {Bad : M → Prop} {v : M} {out rest : List Char} {dim : Char → Nat} {fs : List (Factor M)} {o : List Nat}
    (h : Sticky Bad v (einsteinSum out rest dim (fs.map (Factor.map (stickyLeaf Bad))) o))
    (hb : ∃ x ∈ entering out rest dim fs o, Bad x) : Bad v := by
  obtain ⟨x, hx, hbad⟩ := hb
  obtain ⟨r, hr, hx⟩ := List.mem_flatMap.1 hx
  obtain ⟨f, hf, rfl⟩ := List.mem_map.1 hx
  have e : ∀ r, ((fs.map (Factor.map (stickyLeaf Bad))).map fun f => f.elem (f.letters.map (valueOf (out ++ rest) (o ++ r)))).prod =
      (fs.map fun f => stickyLeaf Bad (f.elem (f.letters.map (valueOf (out ++ rest) (o ++ r))))).prod := fun r => by
    rw [List.map_map]; rfl
  unfold einsteinSum at h
  simp only [e] at h
  refine h.2 (sticky_sum_lt (fun i _ => ?_) ⟨r, hr, ?_⟩)
  · obtain ⟨h1, h2, _⟩ := sticky_prod Bad fs fun f => f.elem (f.letters.map (valueOf (out ++ rest) (o ++ i)))
    rw [h1]; exact h2
  · obtain ⟨h1, _, h3⟩ := sticky_prod Bad fs fun f => f.elem (f.letters.map (valueOf (out ++ rest) (o ++ r)))
    rw [h1, h3 ⟨f, hf, hbad⟩]; omega

end Verif
