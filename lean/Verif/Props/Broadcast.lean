import Verif.Props.Views
import Verif.Lemmas.BroadcastShapes

/-!
# C03 joint broadcast shapes, C04 `broadcast_to`
-/

namespace Verif

variable {α : Type}

/-! ## C03 -/

/-- **C03.** The joint shape of two shapes is computed exactly when they are compatible (right-aligned,
each pair of extents equal or containing a 1); it has the rank of the longer one and on each axis the
extent that is not 1. Otherwise the library panics. -/
theorem C03_broadcast_shapes (s t : List Nat) :
    (Compatible s t → ∃ r, broadcastShapes s t = .ok r ∧ IsJoint s t r) ∧
    (¬ Compatible s t → broadcastShapes s t = .error .panic) := broadcastShapes_spec s t

example : broadcastShapes [2, 1, 4] [3, 1] = .ok [2, 3, 4] ∧ broadcastShapes [3, 1] [2, 1, 4] = .ok [2, 3, 4]
    ∧ broadcastShapes [2, 3] [3, 2] = .error .panic := by decide
example : Compatible [2, 1, 4] [3, 1] := fun k => by
  match k with
  | 0 => decide
  | 1 => decide
  | 2 => decide
  | k + 3 => left; rfl

/-- **C03**: the joint shape is the only one with these extents, so the description is complete. -/
theorem C03_unique {s t r r' : List Nat} (h : IsJoint s t r) (h' : IsJoint s t r') : r = r' := h.unique h'

example : IsJoint [2, 1] [1, 3] [2, 3] := ⟨rfl, fun k => by
  match k with
  | 0 => decide
  | 1 => decide
  | k + 2 => rfl⟩

/-- **C03**: the rule is symmetric in its operands. -/
theorem C03_symmetric (s t : List Nat) : broadcastShapes s t = broadcastShapes t s := by
  by_cases h : Compatible s t
  · obtain ⟨r, e1, j1⟩ := (broadcastShapes_spec s t).1 h
    obtain ⟨r', e2, j2⟩ := (broadcastShapes_spec t s).1 h.symm
    rw [e1, e2, (j1.symm h).unique j2]
  · rw [(broadcastShapes_spec s t).2 h, (broadcastShapes_spec t s).2 (fun h' => h h'.symm)]

/-- **C03**: `[]` is the identity. -/
theorem C03_identity (s : List Nat) : broadcastShapes [] s = .ok s ∧ broadcastShapes s [] = .ok s := by
  have hc : Compatible [] s := fun k => .inr (.inl (by rfl))
  obtain ⟨r, e, j⟩ := (broadcastShapes_spec [] s).1 hc
  have : r = s := j.unique ⟨by simp, fun k => by rw [if_pos (by rfl)]⟩
  rw [C03_symmetric s, e, this]
  simp

/-- **C03**: the rule is idempotent. -/
theorem C03_idempotent (s : List Nat) : broadcastShapes s s = .ok s := by
  obtain ⟨r, e, j⟩ := (broadcastShapes_spec s s).1 (fun k => .inl rfl)
  have : IsJoint s s s := ⟨by simp, fun k => by split <;> rfl⟩
  rw [e, j.unique this]

/-- **C03**: both operands broadcast to the joint shape. -/
theorem C03_both_broadcast {s t r : List Nat} (h : broadcastShapes s t = .ok r) :
    BroadcastsTo s r ∧ BroadcastsTo t r := by
  by_cases hc : Compatible s t
  · obtain ⟨r', e, j⟩ := (broadcastShapes_spec s t).1 hc
    rw [h] at e; cases e
    exact j.broadcastsTo hc
  · rw [(broadcastShapes_spec s t).2 hc] at h; cases h

example := C03_both_broadcast (s := [2, 1, 4]) (t := [3, 1]) (r := [2, 3, 4]) rfl

/-! ## C04 -/

/-- **C04.** If the shape of `a` broadcasts to `t`, `a.broadcast_to(t)` is a view (same memory) of shape
`t` whose element at `idx` is the element of `a` at `broadcastIndex`: leading new axes dropped,
coordinate 0 on axes of extent 1. -/
theorem C04_broadcast_to {a : Arr α} {s t : List Nat} {f : List Nat → α} (ha : a.Denotes s f)
    (h : BroadcastsTo s t) :
    ∃ r, a.broadcastTo t = .ok r ∧ r.buf = a.buf ∧ r.Denotes t (fun idx => f (broadcastIndex s idx)) := by
  obtain ⟨rfl, hl, hd⟩ := ha
  obtain ⟨r, h1, h2, h3, _⟩ := broadcastTo_ok hl h
  refine ⟨r, h1, h3.buf, ?_⟩
  have := h3.denotes (s := a.shape) (f := f) ⟨rfl, hl, hd⟩
  rwa [h2] at this

example := C04_broadcast_to (a := demo) (f := demoFn) (t := [4, 2, 3]) demo_denotes (by decide)

/-- **C04**: otherwise it panics. -/
theorem C04_rejects (a : Arr α) (t : List Nat) (h : ¬ BroadcastsTo a.shape t) :
    a.broadcastTo t = .error .panic := broadcastTo_error h

example := C04_rejects demo [2, 4] (by decide)

/-- **C04**: only positions `a` itself may read are read by the broadcast view: each of its elements sits
at the memory position of an element of `a`. -/
theorem C04_reads_only {a r : Arr α} {t : List Nat} (hl : a.stride.length = a.shape.length)
    (h : a.broadcastTo t = .ok r) :
    ∀ idx, InB idx t → ∃ idx', InB idx' a.shape ∧ r.off + offset idx r.stride = a.off + offset idx' a.stride := by
  by_cases hb : BroadcastsTo a.shape t
  · obtain ⟨r', h1, h2, h3, _⟩ := broadcastTo_ok hl hb
    rw [h] at h1; cases h1
    intro idx hi
    exact ⟨_, h3.inb idx (h2 ▸ hi), h3.pos idx (h2 ▸ hi)⟩
  · rw [broadcastTo_error hb] at h; cases h

example := C04_reads_only (a := demo) (t := [4, 2, 3]) rfl rfl

example : BroadcastsTo [2, 3] [4, 2, 3] ∧ BroadcastsTo [3, 1] [2, 3, 5] ∧ ¬ BroadcastsTo [2, 3] [2, 4]
    ∧ ¬ BroadcastsTo [2, 3] [3] ∧ broadcastIndex [3, 1] [1, 2, 4] = [2, 0] := by decide
example : ∃ r, demo.broadcastTo [4, 2, 3] = .ok r ∧ r.index [3, 1, 2] = .ok 15 := ⟨_, rfl, rfl⟩

end Verif
