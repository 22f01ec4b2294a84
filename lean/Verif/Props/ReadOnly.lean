import Verif.Props.Elementwise

/-!
# C27: what writing to a read-only view does
-/

namespace Verif

variable {α : Type}

/-- `fill`, `zero` and indexed writes never look at the flags of an array, so they treat a read-only view as any other. -/
theorem C27_flags_ignored (a : Arr α) (fl : Flags) (v : α) (idx : List Nat) :
    ({ a with flags := fl } : Arr α).fill v = a.fill v ∧ ({ a with flags := fl } : Arr α).indexSet idx v = a.indexSet idx v := ⟨rfl, rfl⟩

example : ∃ r : Arr Nat, (Arr.fromContiguousOwnedBuffer [2, 1] [1, 2]).broadcastTo [2, 2] = .ok r ∧ r.flags.writeable = false ∧
    r.fill 9 = ({ r with flags := { r.flags with writeable := true } } : Arr Nat).fill 9 :=
  ⟨_, rfl, rfl, (C27_flags_ignored _ _ 9 []).1.symm⟩

theorem numel_le_of_stretch : {s t : List Nat} → StretchTo s t → numel t ≠ 0 → numel s ≤ numel t
  | [], [], _, _ => le_rfl
  | n :: s, m :: t, h, h0 => by
    have hm : m ≠ 0 := fun e => h0 (by simp [numel, e])
    have ht : numel t ≠ 0 := fun e => h0 (by simp [numel, e])
    have ih := numel_le_of_stretch h.2 ht
    refine Nat.mul_le_mul ?_ ih
    rcases h.1 with rfl | rfl <;> omega

theorem numel_le_of_broadcasts {s t : List Nat} (h : BroadcastsTo s t) (h0 : numel t ≠ 0) : numel s ≤ numel t := by
  rw [← List.take_append_drop (t.length - s.length) t, numel_append] at h0 ⊢
  exact (numel_le_of_stretch h.2 (right_ne_zero_of_mul h0)).trans
    (Nat.le_mul_of_pos_left _ (Nat.pos_of_ne_zero (left_ne_zero_of_mul h0)))

/-- **C27 is false for every array**: whatever is broadcast to whatever shape, writing any element through the read-only view
is accepted, and it changes the element of the base array that is shown there, and no other. -/
theorem C27_write_reaches_base {s t : List Nat} {f : List Nat → α} {r : Arr α}
    (h : (Arr.fromContiguousOwnedBuffer s (elements s f)).broadcastTo t = .ok r) {idx : List Nat} (hi : InB idx t) (v : α) :
    r.flags.writeable = false ∧ ∃ buf', r.indexSet idx v = .ok buf' ∧
      ({ Arr.fromContiguousOwnedBuffer s (elements s f) with buf := buf' } : Arr α).Denotes s
        (fun j => if j = broadcastIndex s idx then v else f j) := by
  set a := Arr.fromContiguousOwnedBuffer s (elements s f) with ha
  have hfr : Fresh a := ⟨s, elements s f, length_elements _ _, rfl⟩
  have hden : a.Denotes s f := denotes_fromContiguous
  have hb : BroadcastsTo a.shape t := by
    by_contra hn
    rw [broadcastTo_error hn] at h
    cases h
  obtain ⟨r', e, hsh, hre, hw, _, hlen, hoff, _⟩ := broadcastTo_ok (a := a) (t := t) hden.2.1 hb
  rw [h] at e
  cases e
  have hj : InB (broadcastIndex s idx) s := hre.inb idx (hsh ▸ hi)
  have hpos : offset idx r.stride = offset (broadcastIndex s idx) a.stride := by
    have := hre.pos idx (hsh ▸ hi)
    rw [hoff] at this
    exact Nat.add_left_cancel this
  have hlt : offset (broadcastIndex s idx) a.stride < numel s := by
    have := rank_lt hj
    rwa [← offset_strideFromShape hj.length] at this
  have hlt' : offset idx r.stride < r.len := by
    rw [hpos, hlen]
    exact hlt.trans_le (numel_le_of_broadcasts hb hi.pos.ne')
  obtain ⟨buf', e1, e2, _⟩ := C19_write_partial hfr .refl hden hj (v := v) (index_ok hden hj (by
    rw [show a.len = numel s from length_elements _ _]; exact hlt))
  refine ⟨hw, buf', ?_, e2⟩
  rw [← e1]
  unfold Arr.indexSet
  rw [assert_ok (by simp [Arr.ndims, hsh, hi.length]), assert_ok (c := decide (_ ≤ a.ndims)) (decide_eq_true hj.length.le)]
  simp only [ok_bind]
  rw [assert_ok (by simpa using hlt'), assert_ok (by rw [show a.len = numel s from length_elements _ _]; simpa using hlt)]
  simp only [ok_bind]
  rw [hpos, hoff, hre.buf]

/-- The row [1, 2] shown in three rows: writing in the last row changes the base. -/
example : ∃ r : Arr Nat, (Arr.fromContiguousOwnedBuffer [2] (elements [2] fun i => i.sum + 1)).broadcastTo [3, 2] = .ok r ∧
    ∃ buf', r.indexSet [2, 1] 9 = .ok buf' ∧
      ({ Arr.fromContiguousOwnedBuffer [2] (elements [2] fun i => i.sum + 1) with buf := buf' } : Arr Nat).Denotes [2]
        (fun j => if j = [1] then 9 else j.sum + 1) :=
  ⟨_, rfl, (C27_write_reaches_base (s := [2]) (t := [3, 2]) rfl (idx := [2, 1]) (by decide) 9).2⟩

end Verif
