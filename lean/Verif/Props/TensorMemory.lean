import Verif.Lemmas.TensorMemory

/-!
# C45: backward reads only live memory

Full statement: in every state reached by a history the borrow checker admits, whatever an operation reads
(`Reads`; for `backward`, the arrays kept by the gradient functions it runs) has not been freed (`Freed`).

It is false: a gradient function keeps the array of a *view* of a tensor, and that array does not own the
buffer (`C45_false`). It holds if no such product is taken of views and views are not reshaped by value
(`C45_partial`).
-/

namespace Verif.TMem

open State

/-- `let y = { let x = leaf; let v = (&x).view(); &v * &b }; y.backward()`: both `x` and `v` are gone when
`backward` runs, the array kept by the gradient function of `y` points into the buffer of `x`, and that buffer
has been freed. -/
theorem C45_false : ∃ (os : List Op) (s : State) (i a : Nat) (b : Box), Run State.init os s ∧
    Step s (.backward i) s ∧ Reads s (.backward i) a ∧ s.boxes[a]? = some b ∧ s.Freed b.ptr := by
  refine ⟨[.leaf 4, .requireGrad 0 true, .leaf 4, .view 0 true, .binary 2 1 4 true, .drop 2, .drop 0],
    ⟨[⟨0, 4, true⟩, ⟨1, 4, true⟩, ⟨0, 0, false⟩, ⟨3, 4, true⟩],
     [⟨[], []⟩, ⟨[], []⟩, ⟨[], []⟩, ⟨[2, 1], [1, 2]⟩],
     [none, some ⟨1, 2, false, none⟩, none, some ⟨3, 3, true, none⟩]⟩, 3, 2, ⟨0, 0, false⟩, ?_, ?_, ?_, rfl, ?_⟩
  · refine .cons .leaf (.cons (.requireGrad (t := ⟨0, 0, false, none⟩) rfl ?_ (by simp)) (.cons .leaf
      (.cons (.view (t := ⟨0, 1, true, none⟩) (b := ⟨0, 4, true⟩) rfl rfl)
        (.cons (.binary (t := ⟨2, 1, true, some 0⟩) (u := ⟨1, 2, false, none⟩) rfl rfl)
          (.cons (.drop (t := ⟨2, 1, true, some 0⟩) rfl ?_) (.cons (.drop (t := ⟨0, 1, true, none⟩) rfl ?_)
            (.nil _)))))))
    · rintro ⟨j, t, hj, hl⟩
      match j, hj with
      | 0, hj => cases hj; cases hl
      | j + 1, hj => simp [Has, State.add, State.init] at hj
    · rintro ⟨j, t, hj, hl⟩
      match j, hj with
      | 0, hj => cases hj; cases hl
      | 1, hj => cases hj; cases hl
      | 2, hj => cases hj; cases hl
      | 3, hj => cases hj; cases hl
      | j + 4, hj => simp [Has, State.add, State.init, Ten.grad] at hj
    · rintro ⟨j, t, hj, hl⟩
      match j, hj with
      | 0, hj => cases hj; cases hl
      | 1, hj => cases hj; cases hl
      | 2, hj => cases hj
      | 3, hj => cases hj; cases hl
      | j + 4, hj => simp [Has, State.add, State.init, Ten.grad, State.remove] at hj
  · exact .backward (t := ⟨3, 3, true, none⟩) rfl
  · exact .backward (t := ⟨3, 3, true, none⟩) (n := 3) (nd := ⟨[2, 1], [1, 2]⟩) rfl (.refl 3) rfl (by simp)
  · refine ⟨0, ⟨0, 4, true⟩, rfl, rfl, rfl, by simp, ?_⟩
    rintro (⟨j, t, hj, ha⟩ | ⟨j, t, n, nd, hj, hr, hn, ha⟩)
    · match j, hj with
      | 0, hj => cases hj
      | 1, hj => cases hj; cases ha
      | 2, hj => cases hj
      | 3, hj => cases hj; cases ha
      | j + 4, hj => simp [Has] at hj
    · match n, hn with
      | 0, hn => cases hn; simp at ha
      | 1, hn => cases hn; simp at ha
      | 2, hn => cases hn; simp at ha
      | 3, hn => cases hn; simp at ha
      | n + 4, hn => simp at hn

theorem TameRun.good {s t : State} {os : List Op} (h : TameRun s os t) (hG : s.Good) : t.Good := by
  induction h with
  | nil s => exact hG
  | cons ht h _ ih => exact ih (hG.step ht h)

/-- If no view is reshaped by value and products (quotients, dot and matrix products) whose gradient is wanted
are not taken of views, no operation, in particular no `backward`, reads a buffer that has been freed.
Missing: the full statement is false (`C45_false`). -/
theorem C45_partial (os : List Op) (s : State) (h : TameRun State.init os s) (o : Op) (a : Nat)
    (hr : Reads s o a) : ∃ b, s.boxes[a]? = some b ∧ ¬ s.Freed b.ptr :=
  (h.good Good.init).reads hr

/-- A history that keeps to the discipline, drops both operands of a product and a view, and after which
`backward` does read something. -/
example : ∃ (os : List Op) (s : State) (a : Nat), TameRun State.init os s ∧ os.length = 7 ∧
    Reads s (.backward 3) a := by
  refine ⟨[.leaf 4, .requireGrad 0 true, .leaf 4, .view 0 true, .binary 0 1 4 true, .drop 2, .drop 0],
    ⟨[⟨0, 4, true⟩, ⟨1, 4, true⟩, ⟨0, 0, false⟩, ⟨3, 4, true⟩],
     [⟨[], []⟩, ⟨[], []⟩, ⟨[], []⟩, ⟨[0, 1], [1, 2]⟩],
     [none, some ⟨1, 2, false, none⟩, none, some ⟨3, 3, true, none⟩]⟩, 0, ?_, rfl, ?_⟩
  · refine .cons trivial .leaf (.cons trivial (.requireGrad (t := ⟨0, 0, false, none⟩) rfl ?_ (by simp))
      (.cons trivial .leaf (.cons trivial (.view (t := ⟨0, 1, true, none⟩) (b := ⟨0, 4, true⟩) rfl rfl)
        (.cons ?_ (.binary (t := ⟨0, 1, true, none⟩) (u := ⟨1, 2, false, none⟩) rfl rfl)
          (.cons trivial (.drop (t := ⟨2, 1, true, some 0⟩) rfl ?_)
            (.cons trivial (.drop (t := ⟨0, 1, true, none⟩) rfl ?_) (.nil _)))))))
    · rintro ⟨j, t, hj, hl⟩
      match j, hj with
      | 0, hj => cases hj; cases hl
      | j + 1, hj => simp [Has, State.add, State.init] at hj
    · rintro _ t u ht hu _
      cases ht
      cases hu
      exact ⟨⟨⟨0, 4, true⟩, rfl, rfl⟩, ⟨⟨1, 4, true⟩, rfl, rfl⟩⟩
    · rintro ⟨j, t, hj, hl⟩
      match j, hj with
      | 0, hj => cases hj; cases hl
      | 1, hj => cases hj; cases hl
      | 2, hj => cases hj; cases hl
      | 3, hj => cases hj; cases hl
      | j + 4, hj => simp [Has, State.add, State.init, Ten.grad] at hj
    · rintro ⟨j, t, hj, hl⟩
      match j, hj with
      | 0, hj => cases hj; cases hl
      | 1, hj => cases hj; cases hl
      | 2, hj => cases hj
      | 3, hj => cases hj; cases hl
      | j + 4, hj => simp [Has, State.add, State.init, Ten.grad, State.remove] at hj
  · exact .backward (t := ⟨3, 3, true, none⟩) (n := 3) (nd := ⟨[0, 1], [1, 2]⟩) rfl (.refl 3) rfl (by simp)

/-- `Freed` is what it should be: in any history at all, what has been freed stays freed. -/
theorem C45_freed_stays {s t : State} {os os' : List Op} (h : Run State.init os s) (h' : Run s os' t)
    {p : Nat} (hp : s.Freed p) : t.Freed p := by
  have wf : ∀ {s t : State} {os : List Op}, Run s os t → s.WF → t.WF := by
    intro s t os h
    induction h with
    | nil => exact id
    | cons h _ ih => exact fun hW => ih (hW.step h)
  have hW := wf h WF.init
  clear h
  induction h' with
  | nil => exact hp
  | cons h _ ih => exact ih (hp.step hW h) (hW.step h)

end Verif.TMem
