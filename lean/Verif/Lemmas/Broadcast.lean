import Verif.Lemmas.ViewOps
import Verif.Spec.Broadcast

set_option linter.unusedSimpArgs false

/-!
# Broadcasting
-/

namespace Verif

variable {α : Type}

theorem StretchTo.length {s t : List Nat} (h : StretchTo s t) : s.length = t.length := by
  induction s generalizing t with
  | nil => cases t with
    | nil => rfl
    | cons => exact h.elim
  | cons n s ih => cases t with
    | nil => exact h.elim
    | cons m t => simp [ih h.2]

theorem stretch_all {s t : List Nat} (hl : s.length = t.length) :
    (s.zip t).all (fun p => p.1 == 1 || p.1 == p.2) = true ↔ StretchTo s t := by
  induction s generalizing t with
  | nil => cases t <;> simp_all [StretchTo]
  | cons n s ih => cases t with
    | nil => simp at hl
    | cons m t => simp [StretchTo, ← ih (t := t) (by simpa using hl)]

theorem broadcastStrideLoop_ok {s t st : List Nat} (hl : st.length = s.length) (h : StretchTo s t) :
    ∃ r, broadcastStrideLoop st t s = .ok r ∧ r.length = s.length ∧
      (∀ idx, InB idx t → InB (clamp s idx) s ∧ offset idx r = offset (clamp s idx) st) := by
  induction s generalizing t st with
  | nil =>
    cases t with
    | cons => exact h.elim
    | nil =>
      cases st with
      | cons => simp at hl
      | nil =>
        refine ⟨[], rfl, rfl, fun idx hi => ?_⟩
        cases idx <;> simp_all [clamp]
  | cons n s ih =>
    cases t with
    | nil => exact h.elim
    | cons m t =>
      cases st with
      | nil => simp at hl
      | cons d st =>
        obtain ⟨r, h1, h2, h3⟩ := ih (st := st) (by simpa using hl) h.2
        by_cases hn : n = 1
        · refine ⟨0 :: r, by simp [broadcastStrideLoop, hn, h1], by simp [h2], fun idx hi => ?_⟩
          cases idx with
          | nil => exact hi.elim
          | cons i idx =>
            obtain ⟨e1, e2⟩ := h3 idx hi.2
            simp [clamp, hn, e1, e2]
        · have hm : n = m := h.1.resolve_left hn
          refine ⟨d :: r, by simp only [broadcastStrideLoop]; rw [if_neg hn, if_pos hm, h1]; rfl, by simp [h2], fun idx hi => ?_⟩
          cases idx with
          | nil => exact hi.elim
          | cons i idx =>
            obtain ⟨e1, e2⟩ := h3 idx hi.2
            have := hi.1
            simp [clamp, hn, e1, e2]
            omega

theorem offset_replicate_zero_left (k : Nat) (idx r : List Nat) (hk : k ≤ idx.length) :
    offset idx (List.replicate k 0 ++ r) = offset (idx.drop k) r := by
  induction k generalizing idx with
  | zero => simp
  | succ k ih => cases idx with
    | nil => simp at hk
    | cons i idx => simp [List.replicate_succ, ih idx (by simpa using hk)]

theorem InB_drop {idx s : List Nat} (h : InB idx s) (k : Nat) : InB (idx.drop k) (s.drop k) := by
  induction k generalizing idx s with
  | zero => simpa
  | succ k ih => cases idx with
    | nil => cases s with
      | nil => simp
      | cons => exact h.elim
    | cons i idx => cases s with
      | nil => exact h.elim
      | cons n s => simpa using ih h.2

theorem broadcastStride_ok {s t st : List Nat} (hl : st.length = s.length) (h : BroadcastsTo s t) :
    ∃ r, broadcastStride st t s = .ok r ∧ r.length = t.length ∧
      (∀ idx, InB idx t → InB (broadcastIndex s idx) s ∧ offset idx r = offset (broadcastIndex s idx) st) := by
  obtain ⟨h0, h1⟩ := h
  obtain ⟨r, e1, e2, e3⟩ := broadcastStrideLoop_ok hl h1
  refine ⟨List.replicate (t.length - s.length) 0 ++ r, ?_, by simp [e2]; omega, fun idx hi => ?_⟩
  · unfold broadcastStride
    rw [if_neg (by omega)]
    simp [e1]
  · obtain ⟨e4, e5⟩ := e3 _ (InB_drop hi (t.length - s.length))
    have hlen := hi.length
    unfold broadcastIndex
    rw [hlen]
    refine ⟨e4, ?_⟩
    rw [offset_replicate_zero_left _ _ _ (by omega), e5]

theorem broadcastShape_ok {s t : List Nat} (h : BroadcastsTo s t) : broadcastShape s t = .ok t := by
  unfold broadcastShape
  rw [if_neg (by have := h.1; omega), if_pos]
  rw [stretch_all (by simp; have := h.1; omega)]
  exact h.2

theorem broadcastShape_error {s t : List Nat} (h : ¬ BroadcastsTo s t) : broadcastShape s t = .error .panic := by
  unfold broadcastShape
  split
  · rfl
  · rename_i h1
    rw [if_neg]
    rw [stretch_all (by simp; omega)]
    intro h2
    exact h ⟨by omega, h2⟩

theorem broadcastTo_ok {a : Arr α} {t : List Nat} (hl : a.stride.length = a.shape.length)
    (h : BroadcastsTo a.shape t) :
    ∃ r, a.broadcastTo t = .ok r ∧ r.shape = t ∧ r.Reindexes a (broadcastIndex a.shape) ∧
      r.flags.writeable = false ∧ r.FlagsExact ∧ r.len = numel t ∧ r.off = a.off ∧
      broadcastStride a.stride t a.shape = .ok r.stride := by
  obtain ⟨st, h1, h2, h3⟩ := broadcastStride_ok hl h
  refine ⟨{ a.reshapedView t st with flags := { (a.reshapedView t st).flags with writeable := false } }, ?_,
    rfl, ⟨rfl, h2, fun idx hi => (h3 idx hi).1, fun idx hi => ?_⟩, rfl, flagsExact_update, rfl, rfl, h1⟩
  · unfold Arr.broadcastTo
    rw [broadcastShape_ok h]
    simp only [ok_bind]
    rw [h1]; rfl
  · simp only [Arr.reshapedView]
    rw [(h3 idx hi).2]

theorem broadcastTo_error {a : Arr α} {t : List Nat} (h : ¬ BroadcastsTo a.shape t) :
    a.broadcastTo t = .error .panic := by
  unfold Arr.broadcastTo; rw [broadcastShape_error h]; rfl

end Verif
