import Verif.Lemmas.Related
import Verif.Lemmas.FloatExact

/-!
# Telling the initial values from elements

`Tagged S` is `S` with two more elements: `fresh`, the 0 a sum starts from, and `unit`, the 1 a product starts from. A product with
`fresh` and a sum with `unit` is `junk`, about which nothing is known: the code never computes one.
-/

namespace Verif

inductive Tagged (S : Type) where
  | fresh
  | unit
  | live (s : S)
  | junk

namespace Tagged

variable {S : Type} [CommSemiring S]

instance : Zero (Tagged S) := ⟨fresh⟩
instance : One (Tagged S) := ⟨unit⟩

instance : Add (Tagged S) := ⟨fun
  | fresh, y => y
  | x, fresh => x
  | junk, _ => junk
  | _, junk => junk
  | unit, _ => junk
  | _, unit => junk
  | live s, live t => live (s + t)⟩

instance : Mul (Tagged S) := ⟨fun
  | unit, y => y
  | x, unit => x
  | live s, live t => live (s * t)
  | _, _ => junk⟩

theorem zero_def : (0 : Tagged S) = fresh := rfl
theorem one_def : (1 : Tagged S) = unit := rfl

instance : SumProduct (Tagged S) where
  zero_add x := by cases x <;> rfl
  add_zero x := by cases x <;> rfl
  add_assoc x y z := by
    cases x <;> cases y <;> cases z <;> first | rfl | exact congrArg live (add_assoc _ _ _)
  add_comm x y := by
    cases x <;> cases y <;> first | rfl | exact congrArg live (add_comm _ _)
  nsmul := nsmulRec
  one_mul x := by cases x <;> rfl
  mul_one x := by cases x <;> rfl
  mul_assoc x y z := by
    cases x <;> cases y <;> cases z <;> first | rfl | exact congrArg live (mul_assoc _ _ _)
  mul_comm x y := by
    cases x <;> cases y <;> first | rfl | exact congrArg live (mul_comm _ _)
  Live x := ∃ s, x = live s
  live_add := by
    rintro _ _ ⟨s, rfl⟩ ⟨t, rfl⟩
    exact ⟨s + t, rfl⟩
  mul_add_of_live := by
    rintro x _ _ ⟨s, rfl⟩ ⟨t, rfl⟩
    cases x <;> first | rfl | exact congrArg live (mul_add _ _ _)

theorem live_live (s : S) : SumProduct.Live (live s) := ⟨s, rfl⟩

theorem live_add_live (s t : S) : live s + live t = live (s + t) := rfl
theorem live_mul_live (s t : S) : live s * live t = live (s * t) := rfl

theorem sum_live {ι : Type} {l : List ι} (hl : l ≠ []) (g : ι → S) : (l.map fun i => live (g i)).sum = live (l.map g).sum := by
  induction l with
  | nil => exact absurd rfl hl
  | cons a l ih =>
    cases l with
    | nil => simp
    | cons b l =>
      rw [List.map_cons, List.sum_cons, ih (by simp), live_add_live, ← List.sum_cons, ← List.map_cons]

theorem prod_live {ι : Type} {l : List ι} (hl : l ≠ []) (g : ι → S) : (l.map fun i => live (g i)).prod = live (l.map g).prod := by
  induction l with
  | nil => exact absurd rfl hl
  | cons a l ih =>
    cases l with
    | nil => simp
    | cons b l =>
      rw [List.map_cons, List.prod_cons, ih (by simp), live_mul_live, ← List.prod_cons, ← List.map_cons]

theorem inner_live {k : Nat} (hk : 0 < k) (u v : Nat → S) :
    innerProduct k (fun t => live (u t)) (fun t => live (v t)) = live (innerProduct k u v) :=
  sum_live (by intro h; have := List.range_eq_nil.1 h; omega) fun t => u t * v t

theorem einsteinSum_live {out rest : List Char} {dim : Char → Nat} {fs : List (Factor S)} (hfs : fs ≠ [])
    (hr : numel (rest.map dim) ≠ 0) (o : List Nat) :
    einsteinSum out rest dim (fs.map (Factor.map live)) o = live (einsteinSum out rest dim fs o) := by
  unfold einsteinSum
  have e : ∀ r, ((fs.map (Factor.map live)).map fun f => f.elem (f.letters.map (valueOf (out ++ rest) (o ++ r)))).prod =
      live ((fs.map fun f => f.elem (f.letters.map (valueOf (out ++ rest) (o ++ r)))).prod) := fun r => by
    rw [List.map_map]
    exact prod_live hfs fun f => f.elem (f.letters.map (valueOf (out ++ rest) (o ++ r)))
  simp only [e]
  exact sum_live (by intro h; apply hr; rw [← length_indices, h]; rfl) _

end Tagged

variable {M S : Type} [Zero M] [One M] [Add M] [Mul M] [MulAdd M] [CommSemiring S]

/-- What a relation `G`, restricted to `Pos`, must satisfy for `Tagged.Rel` to be preserved. -/
class TagClosed (Pos : S → Prop) (G : M → S → Prop) : Prop where
  zero_add_zero : (0 + 0 : M) = 0
  zero_add_one : (0 + 1 : M) = 1
  one_add_zero : (1 + 0 : M) = 1
  one_mul : ∀ x : M, 1 * x = x
  mul_one : ∀ x : M, x * 1 = x
  mulAdd_one_left : ∀ y z : M, mulAdd 1 y z = y + z
  mulAdd_one_right : ∀ x z : M, mulAdd x 1 z = x + z
  pos_add : ∀ {s t}, Pos s → Pos t → Pos (s + t)
  pos_mul : ∀ {s t}, Pos s → Pos t → Pos (s * t)
  zero_add : ∀ {x s}, G x s → G (0 + x) s
  add_zero : ∀ {x s}, G x s → G (x + 0) s
  add : ∀ {x y s t}, Pos s → Pos t → G x s → G y t → G (x + y) (s + t)
  mul : ∀ {x y s t}, Pos s → Pos t → G x s → G y t → G (x * y) (s * t)
  mulAdd_fresh : ∀ {x y s t}, Pos s → Pos t → G x s → G y t → G (mulAdd x y 0) (s * t)
  mulAdd : ∀ {x y z s t w}, Pos s → Pos t → Pos w → G x s → G y t → G z w → G (mulAdd x y z) (s * t + w)

/-- `G` on elements; the initial values are known exactly. -/
def Tagged.Rel (Pos : S → Prop) (G : M → S → Prop) (x : M) : Tagged S → Prop
  | .fresh => x = 0
  | .unit => x = 1
  | .live s => Pos s ∧ G x s
  | .junk => True

namespace Tagged

variable {Pos : S → Prop} {G : M → S → Prop} [h : TagClosed Pos G]

theorem rel_add {x y : M} {s t : Tagged S} (hx : Rel Pos G x s) (hy : Rel Pos G y t) : Rel Pos G (x + y) (s + t) := by
  match s, t, hx, hy with
  | .fresh, .fresh, hx, hy => cases hx; cases hy; exact h.zero_add_zero
  | .fresh, .unit, hx, hy => cases hx; cases hy; exact h.zero_add_one
  | .fresh, .live t, hx, hy => cases hx; exact ⟨hy.1, h.zero_add hy.2⟩
  | .fresh, .junk, _, _ => trivial
  | .unit, .fresh, hx, hy => cases hx; cases hy; exact h.one_add_zero
  | .live s, .fresh, hx, hy => cases hy; exact ⟨hx.1, h.add_zero hx.2⟩
  | .junk, .fresh, _, _ => trivial
  | .junk, .unit, _, _ => trivial
  | .junk, .live _, _, _ => trivial
  | .junk, .junk, _, _ => trivial
  | .unit, .junk, _, _ => trivial
  | .live _, .junk, _, _ => trivial
  | .unit, .unit, _, _ => trivial
  | .unit, .live _, _, _ => trivial
  | .live _, .unit, _, _ => trivial
  | .live s, .live t, hx, hy => exact ⟨h.pos_add hx.1 hy.1, h.add hx.1 hy.1 hx.2 hy.2⟩

instance : Closed (Rel Pos G) where
  zero := rfl
  one := rfl
  add := rel_add
  mul {x y s t} hx hy := by
    match s, t, hx, hy with
    | .unit, t, hx, hy =>
      cases hx
      rw [h.one_mul, ← one_def, one_mul]; exact hy
    | .fresh, .unit, hx, hy => cases hy; rw [h.mul_one, ← one_def, mul_one]; exact hx
    | .live _, .unit, hx, hy => cases hy; rw [h.mul_one, ← one_def, mul_one]; exact hx
    | .junk, .unit, hx, hy => trivial
    | .live s, .live t, hx, hy => exact ⟨h.pos_mul hx.1 hy.1, h.mul hx.1 hy.1 hx.2 hy.2⟩
    | .fresh, .fresh, _, _ => trivial
    | .fresh, .live _, _, _ => trivial
    | .fresh, .junk, _, _ => trivial
    | .live _, .fresh, _, _ => trivial
    | .live _, .junk, _, _ => trivial
    | .junk, .fresh, _, _ => trivial
    | .junk, .live _, _, _ => trivial
    | .junk, .junk, _, _ => trivial
  mulAdd {x y z s t w} hx hy hz := by
    have junkAdd : Rel Pos G (Verif.mulAdd x y z) (.junk + w) := by cases w <;> trivial
    -- the product is that of two elements
    have main : ∀ s' t', Pos s' → Pos t' → G x s' → G y t' → Rel Pos G (Verif.mulAdd x y z) (.live (s' * t') + w) :=
      fun s' t' ps pt gs gt => by
        match w, hz with
        | .fresh, hz => cases hz; exact ⟨h.pos_mul ps pt, h.mulAdd_fresh ps pt gs gt⟩
        | .unit, _ => trivial
        | .live w, hz => exact ⟨h.pos_add (h.pos_mul ps pt) hz.1, h.mulAdd ps pt hz.1 gs gt hz.2⟩
        | .junk, _ => trivial
    match s, t, hx, hy with
    | .unit, t, hx, hy =>
      cases hx
      rw [h.mulAdd_one_left, ← one_def, _root_.one_mul]
      exact rel_add hy hz
    | .fresh, .unit, hx, hy =>
      cases hy
      rw [h.mulAdd_one_right, ← one_def, _root_.mul_one]
      exact rel_add hx hz
    | .live _, .unit, hx, hy =>
      cases hy
      rw [h.mulAdd_one_right, ← one_def, _root_.mul_one]
      exact rel_add hx hz
    | .junk, .unit, hx, hy => exact junkAdd
    | .live s, .live t, hx, hy => exact main s t hx.1 hy.1 hx.2 hy.2
    | .fresh, .fresh, _, _ => exact junkAdd
    | .fresh, .live _, _, _ => exact junkAdd
    | .fresh, .junk, _, _ => exact junkAdd
    | .live _, .fresh, _, _ => exact junkAdd
    | .live _, .junk, _, _ => exact junkAdd
    | .junk, .fresh, _, _ => exact junkAdd
    | .junk, .live _, _, _ => exact junkAdd
    | .junk, .junk, _, _ => exact junkAdd

end Tagged

end Verif
