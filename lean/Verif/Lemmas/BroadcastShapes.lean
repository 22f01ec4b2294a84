import Verif.Lemmas.Broadcast

set_option linter.unusedSimpArgs false

namespace Verif

theorem extentFromRight_cons (x : Nat) (l : List Nat) (k : Nat) :
    extentFromRight (x :: l) k = if k < l.length then extentFromRight l k else if k = l.length then x else 1 := by
  unfold extentFromRight
  simp only [List.reverse_cons, List.getD_eq_getElem?_getD]
  by_cases h : k < l.length
  · rw [if_pos h, List.getElem?_append_left (by simpa using h)]
  · rw [if_neg h, List.getElem?_append_right (by simpa using h)]
    by_cases h2 : k = l.length
    · simp [h2]
    · rw [if_neg h2, List.getElem?_eq_none (by simp; omega)]; rfl

theorem extentFromRight_ge {l : List Nat} {k : Nat} (h : l.length ≤ k) : extentFromRight l k = 1 := by
  unfold extentFromRight
  rw [List.getD_eq_getElem?_getD, List.getElem?_eq_none (by simpa using h)]; rfl

theorem extentFromRight_pad (l : List Nat) (n k : Nat) : extentFromRight (pad l 1 n) k = extentFromRight l k := by
  unfold extentFromRight pad
  rw [List.reverse_append, List.reverse_replicate, List.getD_eq_getElem?_getD, List.getD_eq_getElem?_getD]
  by_cases h : k < l.length
  · rw [List.getElem?_append_left (by simpa using h)]
  · rw [List.getElem?_append_right (by simpa using h), List.getElem?_eq_none (l := l.reverse) (by simp; omega)]
    rw [List.getElem?_replicate]
    split <;> rfl

theorem compatible_cons {x y : Nat} {s t : List Nat} (hl : s.length = t.length) :
    Compatible (x :: s) (y :: t) ↔ (x = y ∨ x = 1 ∨ y = 1) ∧ Compatible s t := by
  unfold Compatible
  constructor
  · intro h
    refine ⟨?_, fun k => ?_⟩
    · have := h s.length
      rw [extentFromRight_cons, extentFromRight_cons] at this
      simpa [hl] using this
    · by_cases hk : k < s.length
      · have := h k
        rw [extentFromRight_cons, extentFromRight_cons, if_pos hk, if_pos (by omega)] at this
        exact this
      · left
        rw [extentFromRight_ge (by omega), extentFromRight_ge (by omega)]
  · rintro ⟨h1, h2⟩ k
    simp only [extentFromRight_cons, ← hl]
    by_cases hk : k < s.length
    · simp only [hk, if_true]; exact h2 k
    · by_cases hk2 : k = s.length
      · simp only [hk2, Nat.lt_irrefl, if_false, if_true]; exact h1
      · simp only [hk, hk2, if_false]; left; trivial

theorem isJoint_cons {x y z : Nat} {s t r : List Nat} (hl : s.length = t.length) (h : IsJoint s t r)
    (hz : z = if x = 1 then y else x) : IsJoint (x :: s) (y :: t) (z :: r) := by
  obtain ⟨h1, h2⟩ := h
  refine ⟨by simp; omega, fun k => ?_⟩
  have hr : r.length = s.length := by omega
  simp only [extentFromRight_cons, ← hl, hr]
  by_cases hk : k < s.length
  · simp only [hk, if_true]; exact h2 k
  · by_cases hk2 : k = s.length
    · simp only [hk2, Nat.lt_irrefl, if_false, if_true]; exact hz
    · simp only [hk, hk2, if_false, if_true]

theorem broadcastShapesLoop_spec {s t : List Nat} (hl : s.length = t.length) :
    (Compatible s t → ∃ r, broadcastShapesLoop s t = .ok r ∧ IsJoint s t r) ∧
    (¬ Compatible s t → broadcastShapesLoop s t = .error .panic) := by
  induction s generalizing t with
  | nil =>
    cases t with
    | cons => simp at hl
    | nil =>
      refine ⟨fun _ => ⟨[], rfl, rfl, fun k => ?_⟩, fun h => absurd (fun k => .inl rfl) h⟩
      split <;> rfl
  | cons x s ih => cases t with
    | nil => simp at hl
    | cons y t =>
      have hl' : s.length = t.length := by simpa using hl
      obtain ⟨i1, i2⟩ := ih hl'
      rw [compatible_cons hl']
      refine ⟨fun ⟨h1, h2⟩ => ?_, fun h => ?_⟩
      · obtain ⟨r, e1, e2⟩ := i1 h2
        refine ⟨(if x = 1 then y else x) :: r, ?_, isJoint_cons hl' e2 rfl⟩
        simp only [broadcastShapesLoop]
        by_cases hx : x = 1
        · rw [if_pos hx, e1, if_pos hx]; rfl
        · rw [if_neg hx, if_neg hx]
          by_cases hy : y = 1
          · rw [if_pos hy, e1]; rfl
          · rw [if_neg hy, if_neg (by tauto), e1]; rfl
      · simp only [broadcastShapesLoop]
        by_cases h1 : x = y ∨ x = 1 ∨ y = 1
        · have := i2 (fun h2 => h ⟨h1, h2⟩)
          by_cases hx : x = 1
          · rw [if_pos hx, this]; rfl
          · rw [if_neg hx]
            by_cases hy : y = 1
            · rw [if_pos hy, this]; rfl
            · rw [if_neg hy, if_neg (by tauto), this]; rfl
        · rw [if_neg (by tauto), if_neg (by tauto), if_pos (by tauto)]

theorem Compatible.symm {s t : List Nat} (h : Compatible s t) : Compatible t s := fun k => by
  have := h k; tauto

theorem IsJoint.symm {s t r : List Nat} (hc : Compatible s t) (h : IsJoint s t r) : IsJoint t s r := by
  refine ⟨by rw [h.1, Nat.max_comm], fun k => ?_⟩
  rw [h.2 k]
  have := hc k
  split <;> split <;> omega

theorem length_pad {l : List Nat} {v n : Nat} (h : l.length ≤ n) : (pad l v n).length = n := by
  simp [pad]; omega

theorem broadcastShapes_spec (s t : List Nat) :
    (Compatible s t → ∃ r, broadcastShapes s t = .ok r ∧ IsJoint s t r) ∧
    (¬ Compatible s t → broadcastShapes s t = .error .panic) := by
  unfold broadcastShapes
  by_cases h : s.length > t.length
  · rw [if_pos h]
    have hp : (pad t 1 s.length).length = s.length := length_pad (by omega)
    obtain ⟨h1, h2⟩ := broadcastShapesLoop_spec hp
    have hc : Compatible (pad t 1 s.length) s ↔ Compatible s t := by
      constructor
      · intro h k; have := h k; rw [extentFromRight_pad] at this; tauto
      · intro h k; have := h k; rw [extentFromRight_pad]; tauto
    rw [hc] at h1 h2
    refine ⟨fun hst => ?_, h2⟩
    obtain ⟨r, e1, e2⟩ := h1 hst
    refine ⟨r, e1, IsJoint.symm hst.symm ⟨?_, fun k => ?_⟩⟩
    · rw [e2.1, hp]; omega
    · rw [e2.2 k, extentFromRight_pad]
  · rw [if_neg h]
    have hp : (pad s 1 t.length).length = t.length := length_pad (by omega)
    obtain ⟨h1, h2⟩ := broadcastShapesLoop_spec hp
    have hc : Compatible (pad s 1 t.length) t ↔ Compatible s t := by
      constructor
      · intro h k; have := h k; rw [extentFromRight_pad] at this; exact this
      · intro h k; have := h k; rw [extentFromRight_pad]; exact this
    rw [hc] at h1 h2
    refine ⟨fun hst => ?_, h2⟩
    obtain ⟨r, e1, e2⟩ := h1 hst
    refine ⟨r, e1, ?_, fun k => ?_⟩
    · rw [e2.1, hp]; omega
    · rw [e2.2 k, extentFromRight_pad]

/-- The joint shape is unique. -/
theorem IsJoint.unique {s t r r' : List Nat} (h : IsJoint s t r) (h' : IsJoint s t r') : r = r' := by
  have hl : r.length = r'.length := by rw [h.1, h'.1]
  have : r.reverse = r'.reverse := by
    apply List.ext_getElem (by simpa using hl)
    intro k h1 h2
    have e := (h.2 k).trans (h'.2 k).symm
    unfold extentFromRight at e
    rw [List.getD_eq_getElem?_getD, List.getD_eq_getElem?_getD, List.getElem?_eq_getElem h1,
      List.getElem?_eq_getElem h2] at e
    simpa using e
  exact List.reverse_inj.1 this

/-- extents determine a shape of known length -/
theorem stretch_iff_ext {s t : List Nat} (hl : s.length = t.length) :
    StretchTo s t ↔ ∀ k, k < s.length → extentFromRight s k = 1 ∨ extentFromRight s k = extentFromRight t k := by
  induction s generalizing t with
  | nil => cases t <;> simp_all [StretchTo]
  | cons x s ih => cases t with
    | nil => simp at hl
    | cons y t =>
      have hl' : s.length = t.length := by simpa using hl
      simp only [StretchTo]
      rw [ih hl']
      constructor
      · rintro ⟨h1, h2⟩ k hk
        simp only [extentFromRight_cons, ← hl']
        by_cases hk1 : k < s.length
        · simp only [hk1, if_true]; exact h2 k hk1
        · simp at hk
          have hk2 : k = s.length := by omega
          simp only [hk2, Nat.lt_irrefl, if_false, if_true]; exact h1
      · intro h
        refine ⟨?_, fun k hk => ?_⟩
        · have := h s.length (by simp)
          rw [extentFromRight_cons, extentFromRight_cons] at this
          simpa [hl'] using this
        · have := h k (by simp; omega)
          rw [extentFromRight_cons, extentFromRight_cons, if_pos hk, if_pos (by omega)] at this
          exact this

theorem extentFromRight_drop {t : List Nat} {m k : Nat} (h : k < t.length - m) :
    extentFromRight (t.drop m) k = extentFromRight t k := by
  unfold extentFromRight
  rw [List.getD_eq_getElem?_getD, List.getD_eq_getElem?_getD]
  congr 1
  rw [List.getElem?_reverse (by simpa using h), List.getElem?_reverse (by omega), List.getElem?_drop]
  congr 1
  simp
  omega

theorem broadcastsTo_iff_ext (s t : List Nat) :
    BroadcastsTo s t ↔ s.length ≤ t.length ∧
      ∀ k, k < s.length → extentFromRight s k = 1 ∨ extentFromRight s k = extentFromRight t k := by
  unfold BroadcastsTo
  constructor
  · rintro ⟨h1, h2⟩
    refine ⟨h1, fun k hk => ?_⟩
    rw [stretch_iff_ext (by simp; omega)] at h2
    have := h2 k hk
    rwa [extentFromRight_drop (by omega)] at this
  · rintro ⟨h1, h2⟩
    refine ⟨h1, ?_⟩
    rw [stretch_iff_ext (by simp; omega)]
    intro k hk
    rw [extentFromRight_drop (by omega)]
    exact h2 k hk

/-- Both operands broadcast to the joint shape. -/
theorem IsJoint.broadcastsTo {s t r : List Nat} (hc : Compatible s t) (h : IsJoint s t r) :
    BroadcastsTo s r ∧ BroadcastsTo t r := by
  rw [broadcastsTo_iff_ext, broadcastsTo_iff_ext]
  obtain ⟨h1, h2⟩ := h
  refine ⟨⟨by omega, fun k hk => ?_⟩, ⟨by omega, fun k hk => ?_⟩⟩
  · rw [h2 k]; split <;> tauto
  · rw [h2 k]; have := hc k; split <;> omega

theorem compatible_of_ok {s t r : List Nat} (h : broadcastShapes s t = .ok r) : Compatible s t := by
  by_contra hc
  rw [(broadcastShapes_spec s t).2 hc] at h
  cases h

theorem joint_of_ok {s t r : List Nat} (h : broadcastShapes s t = .ok r) : IsJoint s t r := by
  obtain ⟨r', e, j⟩ := (broadcastShapes_spec s t).1 (compatible_of_ok h)
  rw [h] at e
  cases e
  exact j

end Verif
