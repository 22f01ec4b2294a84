import Verif.Lemmas.Basic

set_option linter.unusedSimpArgs false

/-!
# What `has_uniform_stride` means

`Good s st`: the layout has no axis of extent > 1 with stride 0, or all its strides are 0, or it is empty.
`NoZero s st`: the layout has no axis of extent > 1 with stride 0, or it is empty.
-/

namespace Verif

variable {α : Type}

def NoZero (s st : List Nat) : Prop := numel s = 0 ∨ ∀ p ∈ s.zip st, p.2 = 0 → p.1 ≤ 1

def Good (s st : List Nat) : Prop := NoZero s st ∨ ∀ d ∈ st, d = 0

instance (s st : List Nat) : Decidable (NoZero s st) := by unfold NoZero; infer_instance
instance (s st : List Nat) : Decidable (Good s st) := by unfold Good; infer_instance

theorem hasUniformStride_ne_zero {n d : Nat} {s st : List Nat} {e : Nat} (hl : s.length = st.length)
    (h : hasUniformStride (n :: s) (d :: st) = some e) (hd : d ≠ 0) :
    d :: st = (strideFromShape (n :: s)).map (· * e) ∧ e ≠ 0 := by
  induction s generalizing n d st with
  | nil =>
    cases st with
    | nil => simp [hasUniformStride] at h; subst h; simp [strideFromShape_cons, strideFromShape_nil, hd]
    | cons => simp at hl
  | cons m s ih =>
    cases st with
    | nil => simp at hl
    | cons c st =>
      simp only [hasUniformStride] at h
      split at h
      · cases h
      · rename_i hc
        have hc' : d = m * c := by
          by_contra hne; exact hc ⟨hd, hne⟩
        have hc0 : c ≠ 0 := by
          rintro rfl; simp at hc'; exact hd hc'
        obtain ⟨h1, h2⟩ := ih (by simpa using hl) h hc0
        refine ⟨?_, h2⟩
        rw [strideFromShape_cons, List.map_cons, ← h1]
        rw [strideFromShape_cons] at h1
        simp at h1
        rw [hc', numel_cons, h1.1, Nat.mul_assoc]

theorem hasUniformStride_zero {s st : List Nat} (hl : s.length = st.length)
    (h : hasUniformStride s st = some 0) : ∀ d ∈ st, d = 0 := by
  induction s generalizing st with
  | nil => cases st <;> simp_all
  | cons n s ih =>
    cases st with
    | nil => simp
    | cons d st =>
      by_cases hd : d = 0
      · subst hd
        cases s with
        | nil => cases st <;> simp_all
        | cons m s => cases st with
          | nil => simp at hl
          | cons c st =>
            simp only [hasUniformStride] at h
            split at h
            · cases h
            · have := ih (by simpa using hl) h
              intro x hx
              rcases List.mem_cons.1 hx with rfl | hx
              · rfl
              · exact this x hx
      · exact absurd rfl (hasUniformStride_ne_zero (by simpa using hl) h hd).2

theorem offset_map_mul (idx st : List Nat) (e : Nat) : offset idx (st.map (· * e)) = offset idx st * e := by
  induction st generalizing idx with
  | nil => cases idx <;> simp
  | cons d st ih => cases idx <;> simp [ih, Nat.add_mul, Nat.mul_assoc]

theorem offsets_map_mul (s st : List Nat) (e : Nat) : offsets s (st.map (· * e)) = (offsets s st).map (· * e) := by
  simp [offsets, offset_map_mul]

theorem offset_zero {st : List Nat} (h : ∀ d ∈ st, d = 0) (idx : List Nat) : offset idx st = 0 := by
  induction st generalizing idx with
  | nil => cases idx <;> simp
  | cons d st ih =>
    cases idx with
    | nil => simp
    | cons i idx => simp [ih (fun x hx => h x (by simp [hx])), h d (by simp)]

theorem offsets_zero {s st : List Nat} (h : ∀ d ∈ st, d = 0) : offsets s st = (List.range (numel s)).map (· * 0) := by
  rw [offsets_eq_range]
  simp [offset_zero h]

theorem offsets_uniform_noZero {s st : List Nat} {e : Nat} (hl : s.length = st.length)
    (hz : ∀ p ∈ s.zip st, p.2 = 0 → p.1 ≤ 1) (h : hasUniformStride s st = some e) :
    offsets s st = (List.range (numel s)).map (· * e) := by
  induction s generalizing st with
  | nil => simp [offsets_nil, List.range_one]
  | cons n s ih =>
    cases st with
    | nil => simp at hl
    | cons d st =>
      by_cases hd : d = 0
      · subst hd
        have hn : n ≤ 1 := hz (n, 0) (by simp) rfl
        rcases Nat.le_one_iff_eq_zero_or_eq_one.1 hn with rfl | rfl
        · simp [offsets_cons]
        · cases s with
          | nil => cases st with
            | nil => simp [hasUniformStride] at h; subst h; simp [offsets_cons, offsets_nil]
            | cons => simp at hl
          | cons m s => cases st with
            | nil => simp at hl
            | cons c st =>
              simp only [hasUniformStride] at h
              split at h
              · cases h
              · have := ih (by simpa using hl) (fun p hp => hz p (by simp at hp ⊢; tauto)) h
                rw [offsets_cons, numel_cons, Nat.one_mul, ← this]
                simp [List.range_one]
      · obtain ⟨h1, _⟩ := hasUniformStride_ne_zero (by simpa using hl) h hd
        rw [h1, offsets_map_mul, offsets_strideFromShape]

theorem offsets_of_numel_zero {s st : List Nat} (h : numel s = 0) : offsets s st = [] := by
  rw [offsets, indices_eq_nil.2 h]; rfl

/-- If the code finds a uniform stride, the `k`-th element is `k` strides from the first. -/
theorem offsets_uniform {s st : List Nat} {e : Nat} (hl : s.length = st.length)
    (hg : Good s st) (h : hasUniformStride s st = some e) :
    offsets s st = (List.range (numel s)).map (· * e) := by
  rcases hg with (h0 | hz) | hz
  · rw [offsets_of_numel_zero h0, h0]; rfl
  · exact offsets_uniform_noZero hl hz h
  · by_cases he : e = 0
    · rw [he]; exact offsets_zero hz
    · cases s with
      | nil => cases st with
        | nil => simp [hasUniformStride] at h; exact absurd h.symm he
        | cons => simp at hl
      | cons n s => cases st with
        | nil => simp at hl
        | cons d st =>
          exfalso
          clear hl
          induction s generalizing n d st with
          | nil => cases st with
            | nil => simp [hasUniformStride] at h; exact he (by rw [← h]; exact hz d (by simp))
            | cons => simp [hasUniformStride] at h; exact he h.symm
          | cons m s ih => cases st with
            | nil => simp [hasUniformStride] at h; exact he h.symm
            | cons c st =>
              simp only [hasUniformStride] at h
              split at h
              · cases h
              · exact ih m c st (fun x hx => hz x (by simp at hx ⊢; tauto)) h

theorem offset_uniform {s st : List Nat} {e : Nat} (hl : s.length = st.length) (hg : Good s st)
    (h : hasUniformStride s st = some e) {idx : List Nat} (hi : InB idx s) : offset idx st = rank idx s * e := by
  have h1 := offsets_uniform hl hg h
  have h2 : (offsets s st)[rank idx s]? = some (offset idx st) := by
    have := elements_getElem?_rank (f := (offset · st)) hi
    exact this
  rw [h1] at h2
  simp [rank_lt hi] at h2
  exact h2.symm

/-- Contiguous layouts. -/
theorem offsets_contiguous {s st : List Nat} {e : Nat} (hl : s.length = st.length)
    (hg : NoZero s st) (h : hasUniformStride s st = some e) (he : e ≤ 1) :
    offsets s st = List.range (numel s) := by
  have h1 := offsets_uniform hl (.inl hg) h
  rcases Nat.le_one_iff_eq_zero_or_eq_one.1 he with rfl | rfl
  · rcases hg with h0 | hz
    · rw [offsets_of_numel_zero h0, h0]; rfl
    · have hall := hasUniformStride_zero hl h
      have : numel s ≤ 1 := by
        clear h h1
        induction s generalizing st with
        | nil => simp
        | cons n s ih => cases st with
          | nil => simp at hl
          | cons d st =>
            have h1 := ih (st := st) (by simpa using hl) (fun p hp => hz p (by simp at hp ⊢; tauto))
              (fun x hx => hall x (by simp [hx]))
            have h2 : n ≤ 1 := hz (n, d) (by simp) (hall d (by simp))
            rw [numel_cons]
            exact Nat.mul_le_mul h2 h1
      rw [h1]
      rcases Nat.le_one_iff_eq_zero_or_eq_one.1 this with h | h <;> simp [h, List.range_one]
  · simpa using h1

theorem NoZero.strideFromShape (s : List Nat) : NoZero s (strideFromShape s) := by
  by_cases h : numel s = 0
  · exact .inl h
  · right
    induction s with
    | nil => simp
    | cons n s ih =>
      rw [numel_cons] at h
      have h2 : numel s ≠ 0 := fun h0 => h (by simp [h0])
      rw [strideFromShape_cons]
      intro p hp hp0
      simp at hp
      rcases hp with rfl | hp
      · exact absurd hp0 h2
      · exact ih h2 p hp hp0

theorem hasUniformStride_strideFromShape (s : List Nat) :
    ∃ e, e ≤ 1 ∧ hasUniformStride s (strideFromShape s) = some e := by
  cases s with
  | nil => exact ⟨0, by simp, rfl⟩
  | cons n s =>
    refine ⟨1, by simp, ?_⟩
    induction s generalizing n with
    | nil => simp [strideFromShape_cons, strideFromShape_nil, hasUniformStride]
    | cons m s ih =>
      have := ih m
      rw [strideFromShape_cons] at this ⊢
      rw [strideFromShape_cons]
      simp only [hasUniformStride]
      rw [if_neg (by simp)]
      exact this

end Verif
