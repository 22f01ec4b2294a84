import Verif.Lemmas.Ownership

/-!
# C23: each buffer is freed exactly once

Histories are lists of operations executed from the empty state by `State.run`. A history that the borrow
checker refuses ends in `Stop.rejected`; a use after free, a double free and a free with a wrong address or
capacity end in `Stop.fault`.

Full statement: no history ends in a fault, and after every history a buffer is live exactly if the program
still holds an owner of it. It is false in three ways (`C23_leak_false`, `C23_laundered_view_false`,
`C23_data_slice_false`). What is true of all histories is that nothing is freed twice or with a wrong layout
(`C23_never_freed_twice`); the rest holds for the histories described by `Tame` (`C23_partial`).
-/

namespace Verif.Own

open State

/-- No history, of whatever operations, frees a buffer twice or with another address or capacity than it
was allocated with. -/
theorem C23_never_freed_twice (os : List Op) :
    State.init.run os ≠ .error (.fault .doubleFree) ∧ State.init.run os ≠ .error (.fault .wrongLayout) := by
  rcases Inv.init.run os with ⟨s, h, _⟩ | h | h <;> rw [h] <;> simp

/-- A history with every kind of operation; it ends in a state, not in a rejection. -/
example : (State.init.run [.make [] 4 4, .view 0 .reshaped 0 4 true, .make [0, 1] 4 8, .dataSlice 1, .use 3,
    .drop 3, .drop 1, .consume 2 true, .intoVec 0, .drop 5, .drop 4]).toOption.isSome = true := by decide

/-- If only arrays that borrow from nobody are reshaped by value, and the result of `data_slice` is used only
while the array exists, no history has a fault of any kind. -/
theorem C23_no_use_after_free_partial (os : List Op) (ht : Along Tame State.init os) (f : Fault) :
    State.init.run os ≠ .error (.fault f) := by
  rcases Safe.init.run os ht with ⟨s, h, _⟩ | h <;> rw [h] <;> simp

/-- If in addition nothing is reshaped by value, then after every history
* everything the program holds an array or a vector for is live,
* a buffer is live exactly if the program still holds an owner of it, and
* there is only one owner, which records the start and the capacity of the buffer. -/
theorem C23_partial (os : List Op) (ht : Along Tame State.init os)
    (hnc : ∀ x c, Op.consume x c ∉ os) (s : State) (hs : State.init.run os = .ok s) :
    (∀ i v, s.Has i v → v.kind ≠ .slice → s.Live v.ptr) ∧
    (∀ p b, s.blocks[p]? = some b → 0 < b.cap →
      (b.live = true ↔ ∃ i v, s.Has i v ∧ v.owned = true ∧ v.ptr = p)) ∧
    (∀ i v j w, s.Has i v → s.Has j w → v.owned = true → w.owned = true → v.ptr = w.ptr → i = j) ∧
    (∀ i v b, s.Has i v → v.owned = true → s.blocks[v.ptr]? = some b →
      v.cap = b.cap ∧ (0 < b.cap → v.off = 0)) := by
  rcases Tight.init.run os ht (fun o ho x c h => hnc x c (h ▸ ho)) with ⟨s', h, hT⟩ | h
  · rw [hs] at h
    obtain rfl : s = s' := by simpa using h
    refine ⟨?_, ?_, ?_, ?_⟩
    · intro i v hv hk
      cases hk' : v.kind with
      | array => exact hT.live_array hv hk'
      | vector => exact hT.live i v hv (hT.vec i v hv hk')
      | slice => exact absurd hk' hk
    · intro p b hb hpos
      refine ⟨fun hl => hT.owner p b hb hl hpos, ?_⟩
      rintro ⟨i, v, hv, ho, rfl⟩
      have := hT.cap i v hv ho
      rw [hb] at this
      simp only [Option.some.injEq] at this
      rw [this]
    · intro i v j w hv hw hvo hwo hp
      exact hT.uniq i j v w hv hw hvo hwo hp
    · intro i v b hv ho hb
      have := hT.cap i v hv ho
      rw [hb] at this
      simp only [Option.some.injEq] at this
      subst this
      exact ⟨rfl, fun hpos => (hT.block i v hv ho (by simp at hpos; omega)).1⟩
  · rw [hs] at h
    cases h

/-- Once everything is dropped, every buffer has been freed. -/
theorem C23_all_freed_partial (os : List Op) (ht : Along Tame State.init os)
    (hnc : ∀ x c, Op.consume x c ∉ os) (s : State) (hs : State.init.run os = .ok s)
    (hend : ∀ i v, ¬ s.Has i v) : ∀ (p : Nat) (b : Block), s.blocks[p]? = some b → 0 < b.cap → b.live = false := by
  intro p b hb hpos
  cases hl : b.live with
  | false => rfl
  | true =>
    obtain ⟨i, v, hv, _⟩ := ((C23_partial os ht hnc s hs).2.1 p b hb hpos).mp hl
    exact absurd hv (hend i v)

/-- A history that meets the hypotheses: two arrays, a view of a view, a slice of the view used while the view
exists, extraction of a data vector, and everything dropped. -/
def C23_history : List Op :=
  [.make [] 4 6, .view 0 .reshaped 0 4 true, .view 1 .sliceAlong 2 2 true, .dataSlice 2, .use 3,
    .make [0, 2] 4 4, .drop 3, .drop 2, .drop 1, .intoVec 0, .use 5, .drop 5, .drop 4]

example : State.init.run C23_history =
    .ok ⟨[⟨6, false⟩, ⟨4, false⟩], [none, none, none, none, none, none]⟩ := rfl

example : Along Tame State.init C23_history := by
  have tame : ∀ (s : State) (o : Op), (∀ x c, o ≠ .consume x c) →
      (∀ x ∈ o.reads, ∀ v, s.Has x v → v.kind = .slice → ∀ y, v.src = some y → ∃ u, s.Has y u) →
      s.Tame o := fun s o h1 h2 => ⟨fun x c h => absurd h (h1 x c), fun x hx v y hv hk hy => h2 x hx v hv hk y hy⟩
  unfold C23_history
  iterate 13
    refine ⟨tame _ _ (by simp) (by simp [Op.reads, Has, State.push, State.init]), ?_⟩
    rintro _ ⟨⟩
  trivial

/-! ## The three ways in which the full statement fails -/

/-- An array that is reshaped by value is never freed: the result has the flag `Owned` but capacity 0, and
dropping it frees nothing. -/
theorem C23_leak_false : ∃ (os : List Op) (s : State), State.init.run os = .ok s ∧
    (∀ i v, ¬ s.Has i v) ∧ s.blocks = [⟨4, true⟩] := by
  refine ⟨[.make [] 4 4, .consume 0 true, .drop 1], ⟨[⟨4, true⟩], [none, none]⟩, rfl, ?_, rfl⟩
  intro i v h
  unfold Has at h
  match i, h with
  | 0, h => simp at h
  | 1, h => simp at h
  | i + 2, h => simp at h

/-- More generally: whatever the program does afterwards, the buffer of an array that was reshaped by value
is never freed. -/
theorem C23_consumed_never_freed (os : List Op) (s : State) (hs : State.init.run os = .ok s)
    (x : Nat) (v : Val) (c : Bool) (hx : s.Has x v) (ho : v.owned = true) (hl : s.Live v.ptr) (s' : State)
    (hs' : s.step (.consume x c) = .ok s') (os' : List Op) (t : State) (ht : s'.run os' = .ok t) :
    t.Live v.ptr := by
  rcases Inv.init.run os with ⟨s₁, h, hI⟩ | h | h
  · rw [hs] at h
    obtain rfl : s = s₁ := by simpa using h
    rcases hI.step (.consume x c) with ⟨s₂, h₂, he⟩ | h₂ | ⟨h₂, _⟩
    · rw [hs'] at h₂
      obtain rfl : s' = s₂ := by simpa using h₂
      have hI' := hI.effect he
      refine (Lost.run (p := v.ptr) { hI' with alive := ?_, zero := ?_ } ht).alive
      · cases he with
        | consume h' _ _ => exact hl
      · cases he with
        | @consume _ _ w h' _ _ =>
          obtain rfl := hx.unique h'
          intro i u hi huo hp
          rcases has_push.mp hi with h1 | ⟨_, rfl⟩
          · obtain ⟨hne, h1⟩ := has_remove.mp h1
            exact absurd (hI.uniq i x u v h1 hx huo ho hp) hne
          · rfl
    · rw [hs'] at h₂; cases h₂
    · rw [hs'] at h₂; cases h₂
  · rw [hs] at h; cases h
  · rw [hs] at h; cases h

example : ∃ s s' v, State.init.run [.make [] 4 4] = .ok s ∧ s.Has 0 v ∧ v.owned = true ∧ s.Live v.ptr ∧
    s.step (.consume 0 true) = .ok s' ∧ (s'.run [.make [1] 4 4, .drop 1]).toOption.isSome = true :=
  ⟨_, _, _, rfl, rfl, rfl, ⟨⟨4, true⟩, rfl, rfl⟩, rfl, by decide⟩

/-- `into_data_vector` after a reshape by value returns a vector whose capacity (0) is not that of its
allocation (4). -/
theorem C23_capacity_false : ∃ (os : List Op) (s : State) (v : Val), State.init.run os = .ok s ∧
    s.Has 2 v ∧ v.kind = .vector ∧ v.len = 4 ∧ v.cap = 0 ∧ s.blocks[v.ptr]? = some ⟨4, true⟩ :=
  ⟨[.make [] 4 4, .consume 0 true, .intoVec 1], _, _, rfl, rfl, rfl, rfl, rfl, rfl⟩

/-- Reshaping a borrowed view by value gives a view with lifetime `'static`; the owner can then be dropped,
and the view reads freed memory. -/
theorem C23_laundered_view_false : ∃ os : List Op,
    State.init.run os = .error (.fault .useAfterFree) :=
  ⟨[.make [] 4 4, .view 0 .reshaped 0 4 true, .consume 1 true, .drop 0, .use 2], rfl⟩

/-- The slice returned by `data_slice` may outlive the array. -/
theorem C23_data_slice_false : ∃ os : List Op,
    State.init.run os = .error (.fault .useAfterFree) :=
  ⟨[.make [] 4 4, .dataSlice 0, .drop 0, .use 1], rfl⟩

/-- The borrow checker of the model is not idle: the same history without laundering is refused. -/
example : State.init.run [.make [] 4 4, .view 0 .reshaped 0 4 true, .drop 0] = .error .rejected := rfl

end Verif.Own
