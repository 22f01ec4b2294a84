import Verif.Props.Exact
import Verif.Props.Elementwise
import Verif.Lemmas.KernelSteps

/-!
# Compound assignment: exactly which layouts are handled right

Compound assignment reads the elements of its target through the strides and writes the results into consecutive cells
(src/ndarray/assign_ops.rs 33-60). So it is right for all contents if and only if the elements lie in consecutive cells.
-/

namespace Verif

variable {α : Type}

theorem runPairs_outside {f : α → α → Res α} : ∀ {l : List (Ptr × Ptr)} {p : Nat} {buf : List α} {rb : Mem α} {m' : Mem α},
    runPairs f l ⟨0, p⟩ (buf :: rb) = .ok m' →
      ∃ buf', m' = buf' :: rb ∧ buf'.length = buf.length ∧ ∀ i < p, buf'[i]? = buf[i]?
  | [], p, buf, rb, m', h => by
    cases h
    exact ⟨buf, rfl, rfl, fun _ _ => rfl⟩
  | (u, v) :: l, p, buf, rb, m', h => by
    unfold runPairs at h
    obtain ⟨m1, h1, h2⟩ := bind_eq_ok.1 h
    unfold binStep at h1
    obtain ⟨x, _, h1⟩ := bind_eq_ok.1 h1
    obtain ⟨y, _, h1⟩ := bind_eq_ok.1 h1
    obtain ⟨z, _, h1⟩ := bind_eq_ok.1 h1
    simp only [Mem.store, List.getElem?_cons_zero] at h1
    split at h1
    · simp only [List.set_cons_zero, Except.ok.injEq] at h1
      subst h1
      obtain ⟨buf', e1, e2, e3⟩ := runPairs_outside (p := p + 1) h2
      refine ⟨buf', e1, by simpa using e2, fun i hi => ?_⟩
      rw [e3 i (by omega), List.getElem?_set_ne (by omega)]
    · cases h1

/-- If some element is not in the cell its result is written to, some contents are not preserved by a neutral operand. -/
theorem runPairs_shift {f : α → α → Res α} {v0 : α} (hf : ∀ u, f u v0 = .ok u) {off boff n : Nat} {rb : List α} {x z : α} :
    ∀ {LO RO : List Nat} {p : Nat}, LO.length = RO.length → (∀ y ∈ RO, rb[boff + y]? = some v0) →
      (∃ k c : Nat, LO[k]? = some c ∧ off + c ≠ p + k) →
      ∃ k c : Nat, LO[k]? = some c ∧ off + c ≠ p + k ∧
        ∀ m', runPairs f (steps ⟨0, off⟩ ⟨1, boff⟩ LO RO) ⟨0, p⟩ [spike n (off + c) x z, rb] = .ok m' →
          ∃ buf', m' = [buf', rb] ∧ buf'[p + k]? = some x ∧ p + k < n
  | [], RO, p, _, _, h => by obtain ⟨k, c, h, _⟩ := h; simp at h
  | c0 :: LO, [], p, hl, _, _ => by simp at hl
  | c0 :: LO, y0 :: RO, p, hl, hR, h => by
    have hstep : ∀ c, off + c0 < n → p < n → ∃ w, (spike n c x z)[off + c0]? = some w ∧
        binStep f (Ptr.add ⟨0, off⟩ c0) (Ptr.add ⟨1, boff⟩ y0) ⟨0, p⟩ [spike n c x z, rb] =
          .ok [(spike n c x z).set p w, rb] := by
      intro c h1 h2
      refine ⟨_, by rw [getElem?_spike, if_pos h1], ?_⟩
      simp only [binStep, Mem.load, Ptr.add, List.getElem?_cons_zero, List.getElem?_cons_succ, getElem?_spike, if_pos h1,
        hR y0 (by simp), ok_bind, hf, Mem.store]
      rw [if_pos (by simpa [spike] using h2)]
      rfl
    have hfail : ∀ c m', runPairs f (steps ⟨0, off⟩ ⟨1, boff⟩ (c0 :: LO) (y0 :: RO)) ⟨0, p⟩ [spike n c x z, rb] = .ok m' →
        off + c0 < n ∧ p < n := by
      intro c m' h
      rw [steps_cons] at h
      unfold runPairs at h
      obtain ⟨m1, h1, _⟩ := bind_eq_ok.1 h
      unfold binStep at h1
      obtain ⟨x, h3, h1⟩ := bind_eq_ok.1 h1
      obtain ⟨y, _, h1⟩ := bind_eq_ok.1 h1
      obtain ⟨z, _, h1⟩ := bind_eq_ok.1 h1
      refine ⟨?_, ?_⟩
      · by_contra hc
        simp [Mem.load, Ptr.add, getElem?_spike, hc] at h3
      · by_contra hc
        simp [Mem.store, spike, hc] at h1
    by_cases hp : off + c0 = p
    · obtain ⟨k, c, h1, h2⟩ := h
      cases k with
      | zero => simp at h1; omega
      | succ k =>
        obtain ⟨k', c', e1, e2, e3⟩ := runPairs_shift (p := p + 1) hf (off := off) (boff := boff) (n := n) (rb := rb) (x := x) (z := z)
          (by simpa using hl) (fun y hy => hR y (by simp [hy])) ⟨k, c, by simpa using h1, by omega⟩
        refine ⟨k' + 1, c', by simpa using e1, by omega, fun m' hm => ?_⟩
        obtain ⟨g1, g2⟩ := hfail _ _ hm
        obtain ⟨w, w1, w2⟩ := hstep (off + c') g1 g2
        rw [steps_cons] at hm
        unfold runPairs at hm
        rw [w2, ok_bind] at hm
        have hid : (spike n (off + c') x z).set p w = spike n (off + c') x z := by
          apply List.ext_getElem?
          intro i
          rw [List.getElem?_set]
          split
          · rename_i hi
            subst hi
            rw [← hp, w1, if_pos (by simpa [spike] using g1)]
          · rfl
        rw [hid] at hm
        obtain ⟨buf', q1, q2, q3⟩ := e3 m' hm
        exact ⟨buf', q1, by rw [show p + (k' + 1) = p + 1 + k' by omega]; exact q2, by omega⟩
    · refine ⟨0, c0, rfl, by omega, fun m' hm => ?_⟩
      obtain ⟨g1, g2⟩ := hfail _ _ hm
      obtain ⟨w, w1, w2⟩ := hstep (off + c0) g1 g2
      rw [getElem?_spike, if_pos g1, if_pos rfl] at w1
      cases w1
      rw [steps_cons] at hm
      unfold runPairs at hm
      rw [w2, ok_bind] at hm
      obtain ⟨buf', q1, q2, q3⟩ := runPairs_outside (p := p + 1) hm
      refine ⟨buf', q1, ?_, by omega⟩
      rw [Nat.add_zero, q3 p (by omega), List.getElem?_set_self (by simpa [spike] using g2)]

theorem exists_offset_ne {s st : List Nat} (h : offsets s st ≠ List.range (numel s)) (off : Nat) :
    ∃ k c : Nat, (offsets s st)[k]? = some c ∧ off + c ≠ off + k := by
  by_contra hcon
  push Not at hcon
  apply h
  apply List.ext_getElem?
  intro k
  by_cases hk : k < numel s
  · obtain ⟨c, hc⟩ : ∃ c, (offsets s st)[k]? = some c := ⟨_, getElem?_offsets hk⟩
    rw [hc, List.getElem?_range hk]
    have := hcon k c hc
    congr 1; omega
  · rw [List.getElem?_eq_none (by rw [length_offsets]; omega), List.getElem?_eq_none (by simp; omega)]

/-- An update by a neutral operand leaves every cell as it was. -/
theorem updatedTo_self {a : Arr α} {fa : List Nat → α} {buf' : List α} (ha : a.Denotes a.shape fa) (h : UpdatedTo a buf' fa)
    (i : Nat) : buf'[i]? = a.buf[i]? := by
  by_cases hi : ∃ idx, InB idx a.shape ∧ i = a.off + offset idx a.stride
  · obtain ⟨idx, h1, rfl⟩ := hi
    rw [ha.2.2 idx h1]
    exact h.1.2.2 idx h1
  · push Not at hi
    exact h.2.2 i hi

/-- **C08, exactly**, scalar right-hand side. Let `f` be an operation with a neutral right operand `v0` (0 for `+=` and `-=`, 1
for `*=` and `/=`). Then `a op= v` on a writeable view is right for all contents and all `v` if and only if the elements of the
view lie in consecutive cells, in row-major order. -/
theorem C08_assign_scalar_exact [Nontrivial α] {f : α → α → Res α} {v0 : α} (hf : ∀ u, f u v0 = .ok u) {a : Arr α} (hv : a.Valid)
    (hw : a.flags.writeable = true) (hd : a.shape.length ≤ 32) :
    (∀ (buf : List α) (fa h : List Nat → α) (v : α), buf.length = a.buf.length → (a.over buf).Denotes a.shape fa →
      (∀ idx, InB idx a.shape → f (fa idx) v = .ok (h idx)) →
      ∃ buf', (a.over buf).opAssignScalar f (portableKernels f) v = .ok buf' ∧ UpdatedTo (a.over buf) buf' h) ↔
    offsets a.shape a.stride = List.range (numel a.shape) := by
  constructor
  · intro h
    by_contra hne
    obtain ⟨x, z, hxz⟩ := exists_pair_ne α
    obtain ⟨k, c, h1, h2, h3⟩ := runPairs_shift hf (off := a.off) (boff := 0) (n := a.buf.length) (rb := [v0]) (x := x) (z := z)
      (RO := multiples (numel a.shape) 0) (p := a.off) (by rw [length_offsets, length_multiples])
      (fun y hy => by
        obtain ⟨i, _, rfl⟩ := List.mem_map.1 hy
        simp) (exists_offset_ne hne a.off)
    have hden := denotes_spike hv (a.off + c) x z
    obtain ⟨buf', e1, e2⟩ := h _ _ _ v0 (by simp [spike]) hden (fun idx _ => hf _)
    unfold Arr.opAssignScalar at e1
    rw [assert_ok (show (a.over (spike a.buf.length (a.off + c) x z)).flags.writeable = true from hw), ok_bind] at e1
    simp only [Arr.over] at e1
    rw [binScalarKernel_steps f hv.1.symm hd] at e1
    obtain ⟨m', g1, g2⟩ := bind_eq_ok.1 e1
    obtain ⟨b2, q1, q2, q3⟩ := h3 m' g1
    rw [q1] at g2
    cases g2
    have := updatedTo_self hden e2 (a.off + k)
    rw [q2] at this
    simp only [Arr.over, getElem?_spike, if_pos q3] at this
    rw [if_neg (by omega)] at this
    simp only [Option.some.injEq] at this
    exact hxz this
  · intro hr buf fa h v hl ha hh
    exact assign_scalar_of_range (portable_correct f) v (show offsets a.shape (a.over buf).stride = _ from hr) hw ha hd trivial hh

example := C08_assign_scalar_exact (f := addOp) (v0 := 0) (fun _ => rfl) (wf_history demo_fresh.wf demoT_history).valid rfl (by decide)

/-- **C08, exactly**, for a right-hand side of another allocation that broadcasts to the target. -/
theorem C08_assign_exact [Nontrivial α] {f : α → α → Res α} {v0 : α} (hf : ∀ u, f u v0 = .ok u) {a b : Arr α} (hv : a.Valid)
    (hb : b.Valid) (hbt : BroadcastsTo b.shape a.shape) (hw : a.flags.writeable = true) (hd : a.shape.length ≤ 32) :
    (∀ (buf bufb : List α) (fa fb h : List Nat → α), buf.length = a.buf.length → bufb.length = b.buf.length →
      (a.over buf).Denotes a.shape fa → (b.over bufb).Denotes b.shape fb →
      (∀ idx, InB idx a.shape → f (fa idx) (fb (broadcastIndex b.shape idx)) = .ok (h idx)) →
      ∃ buf', (a.over buf).opAssign f (portableKernels f) false (b.over bufb) = .ok buf' ∧ UpdatedTo (a.over buf) buf' h) ↔
    offsets a.shape a.stride = List.range (numel a.shape) := by
  constructor
  · intro h
    by_contra hne
    obtain ⟨x, z, hxz⟩ := exists_pair_ne α
    have hbden : (b.over (List.replicate b.buf.length v0)).Denotes b.shape (fun _ => v0) := ⟨rfl, hb.1, fun idx hi => by
      have := hb.2 idx hi
      simp [Arr.over, this]⟩
    -- the operand as the kernel sees it
    obtain ⟨b', hb', hs', hbuf', hl', hden'⟩ : ∃ b' : Arr α,
        (if b.shape = a.shape then pure (b.over (List.replicate b.buf.length v0))
          else (b.over (List.replicate b.buf.length v0)).broadcastTo a.shape) = .ok b' ∧ b'.shape = a.shape ∧
        b'.buf = List.replicate b.buf.length v0 ∧ a.shape.length = b'.stride.length ∧ b'.Denotes a.shape (fun _ => v0) := by
      by_cases hs : b.shape = a.shape
      · rw [if_pos hs]
        exact ⟨_, rfl, hs, rfl, by rw [← hs]; exact hb.1.symm, by rw [← hs]; exact hbden⟩
      · rw [if_neg hs]
        obtain ⟨b', e1, e2, e3, e4, e5, e6, e7, e8⟩ := broadcastTo_ok (a := b.over (List.replicate b.buf.length v0)) hb.1 hbt
        have hden := e3.denotes hbden
        rw [e2] at hden
        exact ⟨b', e1, e2, e3.1, hden.2.1.symm, hden⟩
    obtain ⟨k, c, h1, h2, h3⟩ := runPairs_shift hf (off := a.off) (boff := b'.off) (n := a.buf.length)
      (rb := List.replicate b.buf.length v0) (x := x) (z := z)
      (RO := offsets a.shape b'.stride) (p := a.off) (by rw [length_offsets, length_offsets])
      (fun y hy => by
        obtain ⟨i, hi, rfl⟩ := List.mem_map.1 hy
        rw [← hbuf']
        exact hden'.2.2 i (mem_indices.1 hi)) (exists_offset_ne hne a.off)
    have hden := denotes_spike hv (a.off + c) x z
    obtain ⟨buf', e1, e2⟩ := h _ _ _ _ _ (by simp [spike]) (by simp) hden hbden (fun idx _ => hf _)
    unfold Arr.opAssign at e1
    rw [assert_ok (show (a.over (spike a.buf.length (a.off + c) x z)).flags.writeable = true from hw), ok_bind] at e1
    have e1 : ((if b.shape = a.shape then pure (b.over (List.replicate b.buf.length v0))
          else (b.over (List.replicate b.buf.length v0)).broadcastTo a.shape) >>= fun b' =>
        binKernel f (portableKernels f) ⟨0, a.off⟩ a.stride ⟨1, b'.off⟩ b'.stride ⟨0, a.off⟩ a.shape
          [spike a.buf.length (a.off + c) x z, b'.buf] >>= fun m => m.region 0) = .ok buf' := by
      rw [← e1]
      by_cases hs : b.shape = a.shape
      · rw [if_pos hs]
        exact (if_pos (c := b.shape = a.shape) hs).symm
      · rw [if_neg hs]
        exact (if_neg (c := b.shape = a.shape) hs).symm
    rw [hb', ok_bind, hbuf', binKernel_steps f hv.1.symm hl' hd] at e1
    obtain ⟨m', g1, g2⟩ := bind_eq_ok.1 e1
    obtain ⟨b2, q1, q2, q3⟩ := h3 m' g1
    rw [q1] at g2
    cases g2
    have := updatedTo_self hden e2 (a.off + k)
    rw [q2] at this
    simp only [Arr.over, getElem?_spike, if_pos q3] at this
    rw [if_neg (by omega)] at this
    simp only [Option.some.injEq] at this
    exact hxz this
  · intro hr buf bufb fa fb h hl hlb ha hb' hh
    exact assign_of_range (portable_correct f) (show offsets a.shape (a.over buf).stride = _ from hr) hw ha hb' hbt hd trivial hh

example := C08_assign_exact (f := addOp) (v0 := 0) (fun _ => rfl) demo_fresh.wf.valid
  (b := Arr.fromContiguousOwnedBuffer [3] [1, 2, 3]) (Fresh.wf ⟨[3], _, rfl, rfl⟩).valid (by decide) rfl (by decide)

/-- The rows of a matrix lie in consecutive cells, its columns do not; both are writeable. -/
example : ∃ row col : Arr Nat, demo.slice [.at 1] = .ok row ∧ demo.slice [.full, .at 0] = .ok col ∧
    row.stride.length = row.shape.length ∧ (∀ i ∈ indices row.shape, row.off + offset i row.stride < row.buf.length) ∧
    col.stride.length = col.shape.length ∧ (∀ i ∈ indices col.shape, col.off + offset i col.stride < col.buf.length) ∧
    row.flags.writeable = true ∧ col.flags.writeable = true ∧
    offsets row.shape row.stride = List.range (numel row.shape) ∧ offsets col.shape col.stride ≠ List.range (numel col.shape) :=
  ⟨_, _, rfl, rfl, rfl, by decide +kernel, rfl, by decide +kernel, rfl, rfl, rfl, by decide⟩
example : ∀ u : Nat, addOp u 0 = .ok u := fun _ => rfl

end Verif
