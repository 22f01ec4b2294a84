import Verif.Lemmas.Basics
import Mathlib.Data.List.Induction

/-!
# C02: merging the contiguous axes

`collapse_contiguous` (src/ndarray/iterator/collapse_contiguous.rs 3-30) merges the trailing axes that lie contiguously into one.
-/

namespace Verif

theorem offsets_tail {s t u st tt ut : List Nat} (hl : s.length = st.length) (h : offsets t tt = offsets u ut) :
    offsets (s ++ t) (st ++ tt) = offsets (s ++ u) (st ++ ut) := by
  rw [offsets_append hl, offsets_append hl, h]

theorem collapseContiguousLoop_ok (R : List (Nat × Nat)) (acc : Nat) : (collapseContiguousLoop R acc R.length).1 ≤ R.length ∧
    offsets ((R.reverse.map Prod.fst).take (collapseContiguousLoop R acc R.length).1 ++ [(collapseContiguousLoop R acc R.length).2])
        ((R.reverse.map Prod.snd).take (collapseContiguousLoop R acc R.length).1 ++ [1]) =
      offsets (R.reverse.map Prod.fst ++ [acc]) (R.reverse.map Prod.snd ++ [1]) := by
  induction R generalizing acc with
  | nil => exact ⟨Nat.le_refl _, rfl⟩
  | cons x rest ih =>
    obtain ⟨n, d⟩ := x
    unfold collapseContiguousLoop
    split
    · refine ⟨Nat.le_refl _, ?_⟩
      rw [List.take_of_length_le (by simp), List.take_of_length_le (by simp)]
    · rename_i h
      obtain rfl : acc = d := Classical.not_not.1 h
      obtain ⟨h1, h2⟩ := ih (acc * n)
      rw [List.length_cons, Nat.add_sub_cancel]
      refine ⟨by omega, ?_⟩
      rw [List.reverse_cons, List.map_append, List.map_append, List.take_append_of_le_length (by simpa using h1),
        List.take_append_of_le_length (by simpa using h1), h2, List.append_assoc, List.append_assoc]
      refine offsets_tail (by simp) ?_
      have := offsets_merge n acc 1 [] []
      rw [Nat.mul_one] at this
      exact (by rw [Nat.mul_comm] : offsets [acc * n] [1] = offsets [n * acc] [1]).trans this.symm

/-- **C02.** `collapse_contiguous` does not change which elements come in which order, whatever the shape and the strides. -/
theorem C02_collapse_contiguous {s st : List Nat} (h : s.length = st.length) :
    offsets (collapseContiguous s st).1 (collapseContiguous s st).2 = offsets s st := by
  unfold collapseContiguous
  split
  · rfl
  dsimp only
  split
  · rfl
  have hl : s.length = (s.zip st).reverse.length := by simp [h]
  have := (collapseContiguousLoop_ok (s.zip st).reverse 1).2
  rw [← hl, List.reverse_reverse, List.map_fst_zip (by omega), List.map_snd_zip (by omega)] at this
  refine this.trans ?_
  have e := offsets_tail (s := s) (t := [1]) (u := []) (st := st) (tt := [1]) (ut := []) h (by simp [offsets, indices, offset])
  rwa [List.append_nil, List.append_nil] at e

/-- **C02.** The axes of an array stored in row-major order become one. -/
theorem C02_collapse_new {s : List Nat} (h : numel s ≠ 1) : collapseContiguous s (strideFromShape s) = ([numel s], [1]) := by
  have key : ∀ t u : List Nat, collapseContiguousLoop ((t ++ u).zip (strideFromShape (t ++ u)) |>.take t.length).reverse (numel u) t.length =
      (0, numel (t ++ u)) := by
    intro t
    induction t using List.reverseRecOn with
    | nil => intro u; rfl
    | append_singleton t n ih =>
      intro u
      have := ih (n :: u)
      rw [List.append_assoc, List.singleton_append, List.length_append, List.length_singleton]
      have e : ((t ++ n :: u).zip (strideFromShape (t ++ n :: u))).take (t.length + 1) =
          ((t ++ n :: u).zip (strideFromShape (t ++ n :: u))).take t.length ++ [(n, numel u)] := by
        rw [List.take_add_one]
        congr 1
        have : (strideFromShape (t ++ n :: u))[t.length]? = some (numel u) := by
          clear ih this
          induction t with
          | nil => simp
          | cons m t ih => simpa using ih
        rw [List.getElem?_zip_eq_some.2 ⟨(by simp : (t ++ n :: u)[t.length]? = some (n, numel u).1), this⟩]
        rfl
      rw [e, List.reverse_append, List.reverse_singleton, List.singleton_append, collapseContiguousLoop, if_neg (by simp), Nat.add_sub_cancel,
        Nat.mul_comm]
      exact this
  have hne : s ≠ [] := by rintro rfl; exact h rfl
  have hlast : (strideFromShape s).getLast? = some 1 := by
    clear key h
    induction s with
    | nil => exact absurd rfl hne
    | cons n s ih =>
      cases s with
      | nil => rfl
      | cons m s =>
        rw [strideFromShape_cons, List.getLast?_cons_of_ne_nil (by simp)]
        exact ih (by simp)
  have := key s []
  rw [List.append_nil, List.take_of_length_le (by simp)] at this
  have e : numel [] = 1 := rfl
  rw [e] at this
  unfold collapseContiguous
  rw [if_neg (by simp [hlast])]
  dsimp only
  rw [this, if_neg h]
  rfl

/-- The examples of the unit test (src/ndarray/iterator/collapse_contiguous.rs 96-122): `a` of shape `[3, 2, 3]`, `a.slice(s![.., 0])` and
`a.slice(s![..2, 1, 1..])`. -/
example : collapseContiguous [3, 2, 3] [6, 3, 1] = ([18], [1]) ∧ collapseContiguous [3, 3] [6, 1] = ([3, 3], [6, 1]) ∧
    collapseContiguous [2, 2] [6, 1] = ([2, 2], [6, 1]) ∧ numel [3, 2, 3] ≠ 1 ∧ offsets [3, 3] [6, 1] = [0, 1, 2, 6, 7, 8, 12, 13, 14] := by decide

end Verif
