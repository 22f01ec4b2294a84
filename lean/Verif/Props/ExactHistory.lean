import Verif.Props.History
import Mathlib.Data.List.Induction

/-!
# C25: exactly which histories of view operations stay inside the buffer

Only a reshape can lead out of the buffer. Which one does is determined by where the last of its elements would lie, counted from the
first in steps of the last stride.
-/

namespace Verif

variable {α : Type}

/-- A reshape to another shape finds the last of its elements, counted in steps of the last stride, inside the buffer; nothing is asked
of other operations. -/
def ViewOp.Fits (a : Arr α) : ViewOp → Prop
  | .reshape s => s = a.shape ∨ 0 ∈ s ∨ ∃ d, a.stride.getLast? = some d ∧ a.off + (numel s - 1) * d < a.buf.length
  | .intoReshape s => s = a.shape ∨ 0 ∈ s ∨ ∃ d, a.stride.getLast? = some d ∧ a.off + (numel s - 1) * d < a.buf.length
  | _ => True

theorem reshape_layout_valid {a : Arr α} (hv : a.Valid) {s : List Nat} {l : List Nat × List Nat} (h : a.reshapeLayout s = .ok l) :
    (l.2.length = l.1.length ∧ ∀ idx, InB idx l.1 → a.off + offset idx l.2 < a.buf.length) ↔
      (s = a.shape ∨ 0 ∈ s ∨ ∃ d, a.stride.getLast? = some d ∧ a.off + (numel s - 1) * d < a.buf.length) := by
  unfold Arr.reshapeLayout at h
  split at h
  · rename_i he
    cases h
    exact ⟨fun _ => .inl he, fun _ => hv⟩
  · rename_i he
    obtain ⟨_, _, h⟩ := bind_eq_ok.1 h
    by_cases hsz : a.size ≠ numel s
    · rw [if_pos hsz] at h
      cases h
    · rw [if_neg hsz] at h
      cases hd : a.stride.getLast? with
      | none =>
        rw [hd] at h
        cases h
      | some d =>
        rw [hd] at h
        cases h
        rw [reshapeStrides_eq]
        simp only
        constructor
        · rintro ⟨_, hb⟩
          by_cases h0 : 0 ∈ s
          · exact .inr (.inl h0)
          · have hN : numel s ≠ 0 := fun h => h0 (numel_eq_zero.1 h)
            have hk : numel s - 1 < numel s := by omega
            have := hb _ (InB_unrank hk)
            rw [offset_scaled d (InB_unrank hk).length, rank_unrank hk] at this
            exact .inr (.inr ⟨d, rfl, this⟩)
        · intro hf
          refine ⟨by simp, fun idx hi => ?_⟩
          rw [offset_scaled d hi.length]
          have hr := rank_lt hi
          rcases hf with h | h | ⟨e, h1, h2⟩
          · exact absurd h he
          · exact absurd (numel_eq_zero.2 h) (by omega)
          · cases h1
            have := Nat.mul_le_mul_right d (show rank idx s ≤ numel s - 1 by omega)
            omega

/-- **C25, exactly, for one operation.** Of a view inside its buffer, every view operation that does not panic gives a view inside the
buffer, except a reshape the last of whose elements, counted from the first in steps of the last stride, lies outside. -/
theorem C25_step_exact {a b : Arr α} (hv : a.Valid) {op : ViewOp} (hin : op.InRange a) (h : op.run a = .ok b) :
    b.Valid ↔ op.Fits a := by
  have other : NoReshape op → b.Valid := fun hop => by
    obtain ⟨g, hg⟩ := run_reindexes hv.1 hop hin h
    exact hg.valid hv
  cases op with
  | reshape s =>
    obtain ⟨l, h1, h2⟩ := bind_eq_ok.1 h
    cases h2
    exact reshape_layout_valid hv h1
  | intoReshape s =>
    obtain ⟨l, h1, h2⟩ := bind_eq_ok.1 h
    cases h2
    exact reshape_layout_valid hv h1
  | _ => exact ⟨fun _ => trivial, fun _ => other rfl⟩

theorem runOps_append {a : Arr α} (pre post : List ViewOp) : runOps a (pre ++ post) = runOps a pre >>= fun b => runOps b post := by
  induction pre generalizing a with
  | nil => rfl
  | cons op pre ih =>
    show (op.run a >>= fun b => runOps b (pre ++ post)) = (op.run a >>= fun b => runOps b pre) >>= _
    cases op.run a with
    | error e => rfl
    | ok b => exact ih

/-- **C25, exactly.** Let a sequence of view operations run on a view inside its buffer (for example a new array) without a panic, the
slices being in range. Then every view on the way lies inside the buffer if and only if no reshape on the way leads out of it. -/
theorem C25_exact {a c : Arr α} (hv : a.Valid) {ops : List ViewOp} (hr : runOps a ops = .ok c)
    (hin : ∀ pre op post b, ops = pre ++ op :: post → runOps a pre = .ok b → op.InRange b) :
    (∀ pre post b, ops = pre ++ post → runOps a pre = .ok b → b.Valid) ↔
      (∀ pre op post b, ops = pre ++ op :: post → runOps a pre = .ok b → op.Fits b) := by
  constructor
  · intro h pre op post b he hb
    have h1 := hr
    rw [he, runOps_append, hb, ok_bind] at h1
    obtain ⟨b', h2, _⟩ := bind_eq_ok.1 h1
    refine (C25_step_exact (h pre (op :: post) b he hb) (hin pre op post b he hb) h2).1 (h (pre ++ [op]) post b' (by simp [he]) ?_)
    rw [runOps_append, hb, ok_bind]
    show (op.run b >>= fun x => Except.ok x) = _
    rw [h2]
    rfl
  · intro h pre
    induction pre using List.reverseRecOn with
    | nil =>
      intro post b _ hb
      cases hb
      exact hv
    | append_singleton pre op ih =>
      intro post b he hb
      rw [runOps_append] at hb
      obtain ⟨b', h1, h2⟩ := bind_eq_ok.1 hb
      obtain ⟨b'', h3, h4⟩ := bind_eq_ok.1 h2
      cases h4
      have he' : ops = pre ++ op :: post := by simp [he]
      exact (C25_step_exact (ih (op :: post) b' he' h1) (hin pre op post b' he' h1) h3).2 (h pre op post b' he' h1)

/-- A broadcast view of two elements in a buffer of four, reshaped: inside for 2x2 elements, outside for 3x2. -/
example : ∃ b : Arr Nat, runOps (Arr.fromContiguousOwnedBuffer [4] [1, 2, 3, 4]) [.slice [.range 0 2], .broadcastTo [2, 2]] = .ok b ∧
    b.Valid ∧ (ViewOp.reshape [4]).Fits b ∧ ∃ c, (ViewOp.reshape [4]).run b = .ok c ∧ c.Valid := by
  have hv : (Arr.fromContiguousOwnedBuffer [4] [1, 2, 3, 4]).Valid := (Fresh.wf ⟨[4], [1, 2, 3, 4], rfl, rfl⟩).valid
  have h1 : ∃ b, runOps (Arr.fromContiguousOwnedBuffer [4] [1, 2, 3, 4]) [.slice [.range 0 2], .broadcastTo [2, 2]] = .ok b ∧
      b.stride = [0, 1] ∧ b.shape = [2, 2] ∧ b.off = 0 ∧ b.buf = [1, 2, 3, 4] ∧ ∃ c, (ViewOp.reshape [4]).run b = .ok c :=
    ⟨_, rfl, rfl, rfl, rfl, rfl, _, rfl⟩
  obtain ⟨b, e1, e2, e3, e4, e5, c, e6⟩ := h1
  have hb : b.Valid := by
    refine ⟨by rw [e2, e3]; rfl, ?_⟩
    rw [e2, e3, e4, e5]
    intro idx hi
    rcases idx with _ | ⟨i, _ | ⟨j, _ | ⟨k, l⟩⟩⟩ <;> simp [InB, offset] at hi ⊢
    omega
  have hf : (ViewOp.reshape [4]).Fits b := .inr (.inr ⟨1, by rw [e2]; rfl, by rw [e4, e5]; decide⟩)
  exact ⟨b, e1, hb, hf, c, e6, (C25_step_exact (op := .reshape [4]) hb trivial e6).2 hf⟩

example : ∃ b : Arr Nat, runOps (Arr.fromContiguousOwnedBuffer [2] [1, 2]) [.broadcastTo [3, 2]] = .ok b ∧
    ¬ (ViewOp.reshape [6]).Fits b := ⟨_, rfl, by
  rintro (h | h | ⟨d, h1, h2⟩)
  · exact absurd h (by decide)
  · exact absurd h (by decide)
  · cases h1
    exact absurd h2 (by decide)⟩

example := C25_exact (c := demoT) demo_fresh.wf.valid (ops := [.transpose 0 1]) rfl (fun pre op post b he _ => by
  cases pre with
  | nil =>
    cases he
    trivial
  | cons x pre => simp at he)

end Verif
