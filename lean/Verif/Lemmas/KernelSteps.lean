import Verif.Lemmas.Kernels

/-!
# What the portable kernels do, for every layout and every overlap

`binKernel_ok` and `binScalarKernel_ok` describe the result when no step disturbs a later one. Here the kernels are shown to be a
sequence of steps in row-major order, without any assumption.
-/

namespace Verif

variable {α : Type}

theorem binKernel_steps (f : α → α → Res α) {shape lst rst : List Nat} (hl : shape.length = lst.length)
    (hr : shape.length = rst.length) (hd : shape.length ≤ maxDims) (m : Mem α) (lhs rhs dst : Ptr) :
    binKernel f (portableKernels f) lhs lst rhs rst dst shape m =
      runPairs f (steps lhs rhs (offsets shape lst) (offsets shape rst)) dst m := by
  unfold binKernel
  by_cases he : shape = []
  · subst he
    have h1 : lst = [] := List.length_eq_zero_iff.1 hl.symm
    have h2 : rst = [] := List.length_eq_zero_iff.1 hr.symm
    subst h1; subst h2
    simp only [offsets_nil, steps, List.zip_cons_cons, List.zip_nil_left, List.map_cons, List.map_nil, runPairs,
      Ptr.add_zero, List.isEmpty_nil, Bool.and_self, if_true]
    cases binStep f lhs rhs dst m <;> rfl
  · have hlne : lst ≠ [] := by rintro rfl; exact he (List.length_eq_zero_iff.1 hl)
    rw [if_neg (by simp [hlne])]
    obtain ⟨l1, l2, l3, l4, l5, l6⟩ := collapse_facts hl he
    obtain ⟨r1, r2, r3, r4, r5, r6⟩ := collapse_facts hr he
    rw [← l5, ← r5]
    have r6' := r6.trans l6.symm
    clear l5 r5 l6 r6
    simp only
    generalize collapseToUniformStride shape lst = l at *
    generalize collapseToUniformStride shape rst = r at *
    by_cases hL : l.1.length = 1
    · obtain ⟨n, d, rfl⟩ := uniform_facts l1 hL
      have hln : numel [n] = n := by simp
      simp only [hln] at r6'
      by_cases hR : r.1.length = 1
      · obtain ⟨n', d', rfl⟩ := uniform_facts r1 hR
        have : n' = n := by simpa using r6'
        subst this
        simp only [offsets_one]
        simp only [innerOf, firstOf, List.getLast?_singleton, List.head?_cons, ok_bind, List.length_singleton,
          and_self, if_true, portableKernels]
        split
        · rename_i c1
          subst c1
          split
          · rename_i c2; subst c2; exact strideNN_eq ..
          · exact strideNN_eq ..
        · split
          · rename_i c2
            subst c2
            split
            · rename_i c3; subst c3; exact strideNN_eq ..
            · exact strideNN_eq ..
          · split
            · rename_i c3; obtain ⟨rfl, rfl⟩ := c3; exact strideNN_eq ..
            · split
              · rename_i c4; subst c4; exact strideNN_eq ..
              · split
                · rename_i c5; subst c5; exact strideNN_eq ..
                · exact strideNN_eq ..
      · obtain ⟨ri, hri⟩ := innerOf_ok r3
        obtain ⟨rn, hrn⟩ := firstOf_ok r2
        rw [hri, hrn]
        simp only [innerOf, firstOf, List.getLast?_singleton, List.head?_cons, ok_bind, List.length_singleton,
          hR, false_and, and_false, true_and, if_false, if_true]
        rw [offsets_one]
        have hdd : r.1.length ≤ maxDims := by omega
        have key : ∀ e, e = d → nNonunif f lhs e rhs r.1 r.2 dst n m =
            runPairs f (steps lhs rhs (multiples n d) (offsets r.1 r.2)) dst m := by
          rintro e rfl
          rw [← r6']
          exact nNonunif_eq f lhs r1 hdd rhs _ dst m
        split
        · rename_i c; exact key 0 c.symm
        · split
          · rename_i c; exact key 1 c.symm
          · exact key d rfl
    · obtain ⟨li, hli⟩ := innerOf_ok l3
      obtain ⟨ln, hln⟩ := firstOf_ok l2
      rw [hli, hln]
      have hdl : l.1.length ≤ maxDims := by omega
      have hdr : r.1.length ≤ maxDims := by omega
      by_cases hR : r.1.length = 1
      · obtain ⟨n', d', rfl⟩ := uniform_facts r1 hR
        have hrn : numel [n'] = n' := by simp
        rw [hrn] at r6'
        simp only [innerOf, firstOf, List.getLast?_singleton, List.head?_cons, ok_bind, List.length_singleton,
          hL, false_and, and_false, true_and, if_false, if_true]
        rw [offsets_one]
        have key : ∀ e, e = d' → nonunifN f lhs l.1 l.2 rhs e dst n' m =
            runPairs f (steps lhs rhs (offsets l.1 l.2) (multiples n' d')) dst m := by
          rintro e rfl
          rw [r6']
          exact nonunifN_eq f lhs l1 hdl rhs _ dst m
        split
        · rename_i c; exact key 0 c.symm
        · split
          · rename_i c; exact key 1 c.symm
          · exact key d' rfl
      · obtain ⟨ri, hri⟩ := innerOf_ok r3
        obtain ⟨rn, hrn⟩ := firstOf_ok r2
        rw [hri, hrn]
        simp only [ok_bind, hL, hR, false_and, and_false, if_false]
        rw [binUnspecialized_eq f lhs l1 hdl r1 hdr]

theorem binScalarKernel_steps (f : α → α → Res α) {shape lst : List Nat} (hl : shape.length = lst.length)
    (hd : shape.length ≤ maxDims) (m : Mem α) (lhs rhs dst : Ptr) :
    binScalarKernel f (portableKernels f) lhs shape lst rhs dst m =
      runPairs f (steps lhs rhs (offsets shape lst) (multiples (numel shape) 0)) dst m := by
  unfold binScalarKernel
  by_cases he : shape = []
  · subst he
    have h1 : lst = [] := List.length_eq_zero_iff.1 hl.symm
    subst h1
    simp only [offsets_nil, steps, numel, multiples, List.range_one, List.map_cons, List.map_nil,
      List.zip_cons_cons, List.zip_nil_left, List.map_cons, List.map_nil, runPairs, Nat.zero_mul,
      Ptr.add_zero, List.isEmpty_nil, if_true]
    cases binStep f lhs rhs dst m <;> rfl
  · have hlne : lst ≠ [] := by rintro rfl; exact he (List.length_eq_zero_iff.1 hl)
    rw [if_neg (by simp [hlne])]
    obtain ⟨l1, l2, l3, l4, l5, l6⟩ := collapse_facts hl he
    rw [← l5, ← l6]
    clear l5 l6
    simp only
    generalize collapseToUniformStride shape lst = l at *
    by_cases hL : l.1.length = 1
    · obtain ⟨n, d, rfl⟩ := uniform_facts l1 hL
      have hln : numel [n] = n := by simp
      rw [hln]
      simp only [innerOf, firstOf, List.getLast?_singleton, List.head?_cons, ok_bind, List.length_singleton, if_true,
        portableKernels]
      rw [offsets_one]
      split
      · rename_i c; subst c; exact strideNN_eq ..
      · exact strideNN_eq ..
    · obtain ⟨li, hli⟩ := innerOf_ok l3
      rw [hli]
      simp only [ok_bind, hL, if_false, nonunif0]
      exact nonunifN_eq f lhs l1 (by omega) rhs 0 dst m

end Verif
