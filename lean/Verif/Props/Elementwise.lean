import Verif.Props.Construct
import Verif.Lemmas.Elementwise

set_option linter.unusedSimpArgs false

/-!
# C05 binary operators, C06 array-scalar operators, C07 negation, C08 compound assignment, C27 read-only views
-/

namespace Verif

variable {α : Type}

/-- `+` on natural numbers as an operator that never fails. -/
def addOp (x y : Nat) : Res Nat := .ok (x + y)
/-- Integer division, which panics on a zero divisor. -/
def divOp (x y : Nat) : Res Nat := if y = 0 then .error .panic else .ok (x / y)

/-! ## C05 -/

/-- **C05.** For compatible shapes, `a op b` has the joint broadcast shape and at every multi-index the
operator applied to the two (broadcast) elements, for every pair of layouts. -/
theorem C05_elementwise (f : α → α → Res α) (dflt : α) {a b : Arr α} {s t r : List Nat} {fa fb h : List Nat → α}
    (ha : a.Denotes s fa) (hb : b.Denotes t fb) (hc : Compatible s t) (hj : IsJoint s t r) (hd : r.length ≤ 32)
    (hf : ∀ idx, InB idx r → f (fa (broadcastIndex s idx)) (fb (broadcastIndex t idx)) = .ok (h idx)) :
    ∃ c, a.binOp f (portableKernels f) dflt b = .ok c ∧ c.Denotes r h := by
  refine ⟨Arr.fromContiguousOwnedBuffer r (elements r h), ?_, denotes_fromContiguous⟩
  rw [binOp_eq (portable_correct f) dflt ha hb hc hj hd trivial, mapM_id_elements hf]; rfl

example := C05_elementwise addOp 0 (r := [3, 2]) demoT_denotes (denotes_fromContiguous (s := [2]) (f := fun i => i.getD 0 0))
  (compatible_of_ok rfl) (joint_of_ok rfl) (by decide) fun _ _ => rfl

/-- **C05.** If the operator panics on some pair of elements (integer division by zero), so does `a op b`. -/
theorem C05_operator_panics (f : α → α → Res α) (dflt : α) {a b : Arr α} {s t r : List Nat} {fa fb : List Nat → α}
    (ha : a.Denotes s fa) (hb : b.Denotes t fb) (hc : Compatible s t) (hj : IsJoint s t r) (hd : r.length ≤ 32)
    (hp : ∀ x y e, f x y = .error e → e = .panic)
    (he : ∃ idx e, InB idx r ∧ f (fa (broadcastIndex s idx)) (fb (broadcastIndex t idx)) = .error e) :
    a.binOp f (portableKernels f) dflt b = .error .panic := by
  obtain ⟨idx, e, hi, h⟩ := he
  rw [binOp_eq (portable_correct f) dflt ha hb hc hj hd trivial, mapM_id_panic ⟨e, mem_elements.2 ⟨idx, hi, h⟩⟩]
  · rfl
  · intro e' he'
    obtain ⟨_, _, h'⟩ := mem_elements.1 he'
    exact hp _ _ _ h'

example := C05_operator_panics divOp 0 (r := [3, 2]) demoT_denotes (denotes_fromContiguous (s := [2]) (f := fun i => i.getD 0 0))
  (compatible_of_ok rfl) (joint_of_ok rfl) (by decide)
  (fun x y e h => by unfold divOp at h; split at h <;> simp_all) ⟨[2, 0], .panic, by decide, rfl⟩

/-- **C05.** Shapes that do not broadcast are rejected with a panic. -/
theorem C05_incompatible (f : α → α → Res α) (K : BinKernels α) (dflt : α) {a b : Arr α}
    (h : ¬ Compatible a.shape b.shape) : a.binOp f K dflt b = .error .panic := by
  unfold Arr.binOp
  rw [(broadcastShapes_spec _ _).2 h]; rfl

example := C05_incompatible addOp (portableKernels addOp) 0 (a := demo) (b := demoT) fun h => absurd (h 0) (by decide)

/-- a transposed 3x2 view plus a broadcast row: the dispatch takes the "no uniform stride" branch -/
example : ∃ c, demoT.binOp addOp (portableKernels addOp) 0 (Arr.fromContiguousOwnedBuffer [2] [100, 200]) = .ok c ∧
    c.flatiter = .ok [110, 213, 111, 214, 112, 215] := ⟨_, rfl, rfl⟩
/-- two transposed views -/
example : ∃ c, demoT.binOp addOp (portableKernels addOp) 0 demoT = .ok c ∧
    c.flatiter = .ok [20, 26, 22, 28, 24, 30] := ⟨_, rfl, rfl⟩
example : demo.binOp divOp (portableKernels divOp) 0 (Arr.fromContiguousOwnedBuffer [3] [1, 0, 2]) = .error .panic := rfl
example : demo.binOp addOp (portableKernels addOp) 0 (Arr.fromContiguousOwnedBuffer [2] [1, 0]) = .error .panic := rfl
example : Compatible [3, 2] [2] ∧ IsJoint [3, 2] [2] [3, 2] := by
  have h : ∀ k, extentFromRight [3, 2] k = if k = 0 then 2 else if k = 1 then 3 else 1 := by
    intro k; rcases k with _ | _ | k <;> simp [extentFromRight]
  have h' : ∀ k, extentFromRight [2] k = if k = 0 then 2 else 1 := by
    intro k; rcases k with _ | k <;> simp [extentFromRight]
  refine ⟨fun k => ?_, rfl, fun k => ?_⟩ <;> simp only [h, h'] <;> split <;> simp_all

/-! ## C06 -/

/-- **C06.** `a op s` has `a`'s shape and the operator applied to each element and `s`, for any layout. -/
theorem C06_scalar (f : α → α → Res α) (dflt : α) {a : Arr α} {s : List Nat} {fa h : List Nat → α} (v : α)
    (ha : a.Denotes s fa) (hd : s.length ≤ 32) (hf : ∀ idx, InB idx s → f (fa idx) v = .ok (h idx)) :
    ∃ c, a.binOpScalar f (portableKernels f) dflt v = .ok c ∧ c.Denotes s h := by
  refine ⟨Arr.fromContiguousOwnedBuffer s (elements s h), ?_, denotes_fromContiguous⟩
  rw [binOpScalar_eq (portable_correct f) dflt ha v hd trivial, mapM_id_elements hf]; rfl

example := C06_scalar addOp 0 5 demoT_denotes (by decide) fun _ _ => rfl

/-- **C06.** If the operator panics on some element, so does `a op s`. -/
theorem C06_operator_panics (f : α → α → Res α) (dflt : α) {a : Arr α} {s : List Nat} {fa : List Nat → α} (v : α)
    (ha : a.Denotes s fa) (hd : s.length ≤ 32) (hp : ∀ x y e, f x y = .error e → e = .panic)
    (he : ∃ idx e, InB idx s ∧ f (fa idx) v = .error e) :
    a.binOpScalar f (portableKernels f) dflt v = .error .panic := by
  obtain ⟨idx, e, hi, h⟩ := he
  rw [binOpScalar_eq (portable_correct f) dflt ha v hd trivial, mapM_id_panic ⟨e, mem_elements.2 ⟨idx, hi, h⟩⟩]
  · rfl
  · intro e' he'
    obtain ⟨_, _, h'⟩ := mem_elements.1 he'
    exact hp _ _ _ h'

example := C06_operator_panics divOp 0 0 demoT_denotes (by decide)
  (fun x y e h => by unfold divOp at h; split at h <;> simp_all) ⟨[2, 0], .panic, by decide, rfl⟩

example : ∃ c, demoT.binOpScalar addOp (portableKernels addOp) 0 5 = .ok c ∧
    c.flatiter = .ok [15, 18, 16, 19, 17, 20] := ⟨_, rfl, rfl⟩

/-! ## C07 -/

/-- **C07.** `-a` has `a`'s shape and the negation of each element, for any layout. -/
theorem C07_neg (g : α → Res α) (dflt : α) {a : Arr α} {s : List Nat} {fa h : List Nat → α}
    (ha : a.Denotes s fa) (hd : s.length ≤ 32) (hg : ∀ idx, InB idx s → g (fa idx) = .ok (h idx)) :
    ∃ c, a.neg g (portableNeg g) dflt = .ok c ∧ c.Denotes s h := by
  refine ⟨Arr.fromContiguousOwnedBuffer s (elements s h), ?_, denotes_fromContiguous⟩
  rw [neg_eq (portableNeg_correct g) dflt ha hd trivial, mapM_id_elements hg]; rfl

example := C07_neg (fun x => .ok (100 - x)) 0 demoT_denotes (by decide) fun _ _ => rfl

example : ∃ c, demoT.neg (fun x => .ok (100 - x)) (portableNeg fun x => .ok (100 - x)) 0 = .ok c ∧
    c.flatiter = .ok [90, 87, 89, 86, 88, 85] := ⟨_, rfl, rfl⟩

/-! ## C08 -/

/-- Summary of the effect of a compound assignment: the new buffer contents `buf'` represent `h` on `a`'s
shape, and cells that are not elements of `a` are unchanged. -/
def UpdatedTo (a : Arr α) (buf' : List α) (h : List Nat → α) : Prop :=
  ({ a with buf := buf' } : Arr α).Denotes a.shape h ∧ buf'.length = a.buf.length ∧
    ∀ i, (∀ idx, InB idx a.shape → i ≠ a.off + offset idx a.stride) → buf'[i]? = a.buf[i]?

/-- For any correct kernels, and elements in consecutive cells. -/
theorem assign_of_range_or {f : α → α → Res α} {K : BinKernels α} {P : Nat → Prop} (hK : K.Correct f P) {a b : Arr α} {t : List Nat} {fa fb h : List Nat → α}
    (hcont : offsets a.shape a.stride = List.range (numel a.shape)) (hw : a.flags.writeable = true)
    (ha : a.Denotes a.shape fa) (hb : b.Denotes t fb) (hbt : BroadcastsTo t a.shape)
    (hP : P (numel a.shape))
    (hf : ∀ idx, InB idx a.shape → f (fa idx) (fb (broadcastIndex t idx)) = .ok (h idx)) :
    (∃ buf', a.opAssign f K false b = .ok buf' ∧ UpdatedTo a buf' h) ∨
      ((¬ a.shape.length ≤ 32 ∧ (t = a.shape → ¬ (AxesFit a.shape a.stride ∧ AxesFit a.shape b.stride))) ∧
        a.opAssign f K false b = .error .panic) := by
  refine Or.imp_left (fun e => ⟨_, e, writeAt_contiguous ha.valid hcont h⟩) ?_
  unfold Arr.opAssign
  rw [assert_ok hw]
  simp only [ok_bind]
  obtain ⟨rfl, hbl, hfb⟩ := hb
  have hfin : ∀ fb' : List Nat → α, (∀ idx, InB idx a.shape → fb' idx = fb (broadcastIndex b.shape idx)) →
      (elements a.shape fun idx => f (fa idx) (fb' idx)).mapM id = .ok (elements a.shape h) := by
    intro fb' e
    apply mapM_id_elements
    intro idx hi; rw [e idx hi]; exact hf idx hi
  by_cases hs : b.shape = a.shape
  · rw [if_pos hs]
    simp only [pure_res, ok_bind, Bool.false_eq_true, if_false]
    have hid : ∀ idx, InB idx a.shape → broadcastIndex b.shape idx = idx := by
      intro idx hi
      rw [hs]
      have : ∀ s j : List Nat, InB j s → clamp s j = j := by
        intro s
        induction s with
        | nil => intro j hj; cases j with
          | nil => rfl
          | cons => simp at hj
        | cons n s ih => intro j hj; cases j with
          | nil => simp at hj
          | cons i j =>
            simp only [InB_cons] at hj
            simp only [clamp, ih j hj.2]
            congr 1
            split
            · omega
            · rfl
      unfold broadcastIndex
      rw [hi.length, Nat.sub_self, List.drop_zero]
      exact this _ _ hi
    rcases opAssign_or hK ha hcont hP (reg := 1) rfl (hs ▸ hbl) (fun idx hi => hfb idx (hs ▸ hi))
      (by intro h1; omega) with e | ⟨e1, e2⟩
    · rw [e, hfin fb (fun idx hi => by rw [hid idx hi])]
      exact .inl rfl
    · exact .inr ⟨⟨fun hd => e1 ⟨axesFit_of_rank hd, axesFit_of_rank hd⟩, fun _ => e1⟩, e2⟩
  · rw [if_neg hs]
    obtain ⟨b', e1, e2, e3, e4, e5, e6, e7, e8⟩ := broadcastTo_ok hbl hbt
    rw [e1]
    simp only [ok_bind, Bool.false_eq_true, if_false]
    have hden := e3.denotes ⟨rfl, hbl, hfb⟩
    rcases opAssign_or hK ha hcont hP (reg := 1) rfl (by rw [hden.2.1, e2])
      (fun idx hi => hden.2.2 idx (e2 ▸ hi)) (by intro h1; omega) with e | ⟨p1, p2⟩
    · rw [e, hfin (fun idx => fb (broadcastIndex b.shape idx)) (fun idx _ => rfl)]
      exact .inl rfl
    · exact .inr ⟨⟨fun hd => p1 ⟨axesFit_of_rank hd, axesFit_of_rank hd⟩, fun h => absurd h hs⟩, p2⟩

theorem assign_of_range {f : α → α → Res α} {K : BinKernels α} {P : Nat → Prop} (hK : K.Correct f P) {a b : Arr α} {t : List Nat} {fa fb h : List Nat → α}
    (hcont : offsets a.shape a.stride = List.range (numel a.shape)) (hw : a.flags.writeable = true)
    (ha : a.Denotes a.shape fa) (hb : b.Denotes t fb) (hbt : BroadcastsTo t a.shape) (hd : a.shape.length ≤ 32)
    (hP : P (numel a.shape))
    (hf : ∀ idx, InB idx a.shape → f (fa idx) (fb (broadcastIndex t idx)) = .ok (h idx)) :
    ∃ buf', a.opAssign f K false b = .ok buf' ∧ UpdatedTo a buf' h :=
  (assign_of_range_or hK hcont hw ha hb hbt hP hf).resolve_right fun c => c.1.1 hd

/-- `C08_assign_partial` for any correct kernels. -/
theorem assign_of_correct {f : α → α → Res α} {K : BinKernels α} {P : Nat → Prop} (hK : K.Correct f P) {o a b : Arr α} {t : List Nat} {fa fb h : List Nat → α} (ho : Fresh o)
    (hh : History NoBroadcast o a) (hc : a.isContiguous = true) (hw : a.flags.writeable = true)
    (ha : a.Denotes a.shape fa) (hb : b.Denotes t fb) (hbt : BroadcastsTo t a.shape) (hd : a.shape.length ≤ 32)
    (hP : P (numel a.shape))
    (hf : ∀ idx, InB idx a.shape → f (fa idx) (fb (broadcastIndex t idx)) = .ok (h idx)) :
    ∃ buf', a.opAssign f K false b = .ok buf' ∧ UpdatedTo a buf' h :=
  assign_of_range hK (C26_contiguous_partial ho hh hc) hw ha hb hbt hd hP hf

/-- `C08_assign_scalar_partial` for any correct kernels. -/
theorem assign_scalar_of_range_or {f : α → α → Res α} {K : BinKernels α} {P : Nat → Prop} (hK : K.Correct f P) {a : Arr α} {fa h : List Nat → α} (v : α)
    (hcont : offsets a.shape a.stride = List.range (numel a.shape)) (hw : a.flags.writeable = true)
    (ha : a.Denotes a.shape fa)
    (hP : P (numel a.shape))
    (hf : ∀ idx, InB idx a.shape → f (fa idx) v = .ok (h idx)) :
    (∃ buf', a.opAssignScalar f K v = .ok buf' ∧ UpdatedTo a buf' h) ∨
      (¬ AxesFit a.shape a.stride ∧ a.opAssignScalar f K v = .error .panic) := by
  have hva := ha.valid
  refine Or.imp_left (fun e => ⟨_, e, writeAt_contiguous hva hcont h⟩) ?_
  unfold Arr.opAssignScalar
  rw [assert_ok hw]
  simp only [ok_bind]
  have hroom : numel a.shape ≠ 0 → a.off + numel a.shape ≤ a.buf.length := by
    intro h0
    have hi := InB_unrank (s := a.shape) (k := numel a.shape - 1) (by omega)
    have h1 := hva.2 _ hi
    have h2 := getElem?_offsets (st := a.stride) (show numel a.shape - 1 < numel a.shape by omega)
    rw [hcont, List.getElem?_range (by omega)] at h2
    simp only [Option.some.injEq] at h2
    omega
  have hready : Ready f [a.buf, [v]] ⟨0, a.off⟩ ⟨1, 0⟩ ⟨0, a.off⟩
      (offsets a.shape a.stride) (multiples (numel a.shape) 0) (elements a.shape fun idx => f (fa idx) v) := by
    refine ⟨by rw [length_offsets, length_elements], by rw [length_multiples, length_elements],
      fun hne => ⟨_, rfl, by
        rw [length_elements]
        exact hroom (fun h0 => hne (List.length_eq_zero_iff.1 (by rw [length_elements]; exact h0)))⟩, ?_, ?_, ?_⟩
    · intro k x y hx hy
      have hk := lt_of_offsets hx
      rw [getElem?_multiples hk] at hy
      cases hy
      exact ⟨_, v, load_offsets (buf := a.buf) (g := fa) rfl ha.2.2 hx, rfl, getElem?_elements hk⟩
    · intro j k x hjk hx h
      have hk := lt_of_offsets hx
      rw [hcont, List.getElem?_range hk] at hx
      have := congrArg Ptr.off h
      simp only [Ptr.add, Option.some.injEq] at this hx
      omega
    · intro j k x _ _ h
      have := congrArg Ptr.reg h
      simp [Ptr.add] at this
  rcases binScalarKernel_or hK hva.1.symm hP hready with hk | ⟨hk1, hk2⟩
  rotate_left
  · rw [hk2]
    exact .inr ⟨hk1, rfl⟩
  left
  rw [hk]
  unfold finish
  rw [mapM_id_elements hf]
  simp only [ok_bind, pure_res]
  rw [Mem.write_of (r := a.buf) (by rfl)]
  rfl

theorem assign_scalar_of_range {f : α → α → Res α} {K : BinKernels α} {P : Nat → Prop} (hK : K.Correct f P) {a : Arr α} {fa h : List Nat → α} (v : α)
    (hcont : offsets a.shape a.stride = List.range (numel a.shape)) (hw : a.flags.writeable = true)
    (ha : a.Denotes a.shape fa) (hd : a.shape.length ≤ 32)
    (hP : P (numel a.shape))
    (hf : ∀ idx, InB idx a.shape → f (fa idx) v = .ok (h idx)) :
    ∃ buf', a.opAssignScalar f K v = .ok buf' ∧ UpdatedTo a buf' h :=
  (assign_scalar_of_range_or hK v hcont hw ha hP hf).resolve_right fun c => c.1 (axesFit_of_rank hd)

/-- `C08_assign_scalar_partial` for any correct kernels. -/
theorem assign_scalar_of_correct {f : α → α → Res α} {K : BinKernels α} {P : Nat → Prop} (hK : K.Correct f P) {o a : Arr α} {fa h : List Nat → α} (v : α) (ho : Fresh o)
    (hh : History NoBroadcast o a) (hc : a.isContiguous = true) (hw : a.flags.writeable = true)
    (ha : a.Denotes a.shape fa) (hd : a.shape.length ≤ 32)
    (hP : P (numel a.shape))
    (hf : ∀ idx, InB idx a.shape → f (fa idx) v = .ok (h idx)) :
    ∃ buf', a.opAssignScalar f K v = .ok buf' ∧ UpdatedTo a buf' h :=
  assign_scalar_of_range hK v (C26_contiguous_partial ho hh hc) hw ha hd hP hf

/-- `C08_shared_partial` for any correct kernels. -/
theorem assign_shared_of_correct {f : α → α → Res α} {K : BinKernels α} {P : Nat → Prop} (hK : K.Correct f P) {o a b : Arr α} {fa fb h : List Nat → α} (ho : Fresh o)
    (hh : History NoBroadcast o a) (hc : a.isContiguous = true) (hw : a.flags.writeable = true)
    (ha : a.Denotes a.shape fa) (hb : b.Denotes a.shape fb) (hbuf : b.buf = a.buf) (hd : a.shape.length ≤ 32)
    (hsep : ∀ i j, InB i a.shape → InB j a.shape → rank j a.shape < rank i a.shape →
      b.off + offset i b.stride ≠ a.off + offset j a.stride)
    (hP : P (numel a.shape))
    (hf : ∀ idx, InB idx a.shape → f (fa idx) (fb idx) = .ok (h idx)) :
    ∃ buf', a.opAssign f K true b = .ok buf' ∧ UpdatedTo a buf' h := by
  have hcont := C26_contiguous_partial ho hh hc
  refine ⟨_, ?_, writeAt_contiguous ha.valid hcont h⟩
  unfold Arr.opAssign
  rw [assert_ok hw]
  simp only [ok_bind]
  rw [if_pos hb.1]
  simp only [pure_res, ok_bind, if_true]
  rw [opAssign_eq hK ha hcont hd hP (reg := 0) (by rw [hbuf]; rfl) hb.2.1 hb.2.2 (fun _ => hsep),
    mapM_id_elements hf]
  rfl

/-- **C08** (part). `a op= b` for a writeable contiguous array `a` reached without `broadcast_to`, and any
`b` (any layout, stored elsewhere) that broadcasts to its shape: every element of `a` is replaced by the
operator applied to it and `b`'s element, no other memory changes.
Missing: non-contiguous `a` (false: `C08_false`), `b` overlapping `a` (see `C08_shared_partial` and
`C08_overlap_false`). -/
theorem C08_assign_partial (f : α → α → Res α) {o a b : Arr α} {t : List Nat} {fa fb h : List Nat → α} (ho : Fresh o)
    (hh : History NoBroadcast o a) (hc : a.isContiguous = true) (hw : a.flags.writeable = true)
    (ha : a.Denotes a.shape fa) (hb : b.Denotes t fb) (hbt : BroadcastsTo t a.shape) (hd : a.shape.length ≤ 32)
    (hf : ∀ idx, InB idx a.shape → f (fa idx) (fb (broadcastIndex t idx)) = .ok (h idx)) :
    ∃ buf', a.opAssign f (portableKernels f) false b = .ok buf' ∧ UpdatedTo a buf' h :=
  assign_of_correct (portable_correct f) ho hh hc hw ha hb hbt hd trivial hf

example := C08_assign_partial addOp demo_fresh .refl rfl rfl demo_denotes
  (denotes_fromContiguous (s := [3]) (f := fun i => i.getD 0 0)) (by decide) (by decide) fun _ _ => rfl

/-- **C08** (part), scalar right-hand side. -/
theorem C08_assign_scalar_partial (f : α → α → Res α) {o a : Arr α} {fa h : List Nat → α} (v : α) (ho : Fresh o)
    (hh : History NoBroadcast o a) (hc : a.isContiguous = true) (hw : a.flags.writeable = true)
    (ha : a.Denotes a.shape fa) (hd : a.shape.length ≤ 32)
    (hf : ∀ idx, InB idx a.shape → f (fa idx) v = .ok (h idx)) :
    ∃ buf', a.opAssignScalar f (portableKernels f) v = .ok buf' ∧ UpdatedTo a buf' h :=
  assign_scalar_of_correct (portable_correct f) v ho hh hc hw ha hd trivial hf

example := C08_assign_scalar_partial addOp 5 demo_fresh .refl rfl rfl demo_denotes (by decide) fun _ _ => rfl

/-- **C08** (part): the right-hand side may be a view of the same allocation, provided none of its
elements lies in a cell of `a` that precedes (in row-major order) the cell being updated with it. This
covers disjoint views and identical views. -/
theorem C08_shared_partial (f : α → α → Res α) {o a b : Arr α} {fa fb h : List Nat → α} (ho : Fresh o)
    (hh : History NoBroadcast o a) (hc : a.isContiguous = true) (hw : a.flags.writeable = true)
    (ha : a.Denotes a.shape fa) (hb : b.Denotes a.shape fb) (hbuf : b.buf = a.buf) (hd : a.shape.length ≤ 32)
    (hsep : ∀ i j, InB i a.shape → InB j a.shape → rank j a.shape < rank i a.shape →
      b.off + offset i b.stride ≠ a.off + offset j a.stride)
    (hf : ∀ idx, InB idx a.shape → f (fa idx) (fb idx) = .ok (h idx)) :
    ∃ buf', a.opAssign f (portableKernels f) true b = .ok buf' ∧ UpdatedTo a buf' h :=
  assign_shared_of_correct (portable_correct f) ho hh hc hw ha hb hbuf hd hsep trivial hf

example := C08_shared_partial addOp demo_fresh .refl rfl rfl demo_denotes demo_denotes rfl (by decide)
  (fun i j hi hj h => by
    rw [show demo.stride = strideFromShape [2, 3] from rfl, show demo.shape = [2, 3] from rfl] at *
    rw [offset_strideFromShape hi.length, offset_strideFromShape hj.length]; omega) fun _ _ => rfl

/-- **C08**: a read-only target is refused with a panic. -/
theorem C08_readonly (f : α → α → Res α) (K : BinKernels α) {a b : Arr α} (v : α) (sh : Bool)
    (h : a.flags.writeable = false) :
    a.opAssign f K sh b = .error .panic ∧ a.opAssignScalar f K v = .error .panic := by
  unfold Arr.opAssign Arr.opAssignScalar
  rw [assert_fail h]; exact ⟨rfl, rfl⟩

example := C08_readonly addOp (portableKernels addOp) (a := { demo with flags := { demo.flags with writeable := false } })
  (b := demo) 5 false rfl

/-- **C08**: a right-hand side that does not broadcast to the target's shape is refused with a panic. -/
theorem C08_incompatible (f : α → α → Res α) (K : BinKernels α) {a b : Arr α} (sh : Bool)
    (h : ¬ BroadcastsTo b.shape a.shape) : a.opAssign f K sh b = .error .panic := by
  unfold Arr.opAssign
  cases hw : a.flags.writeable with
  | false => rfl
  | true =>
    simp only [assert, if_true, ok_bind]
    rw [if_neg, broadcastTo_error h]; rfl
    intro he
    apply h
    rw [he]
    refine ⟨Nat.le_refl _, ?_⟩
    rw [Nat.sub_self, List.drop_zero]
    generalize a.shape = s
    induction s with
    | nil => trivial
    | cons n s ih => exact ⟨.inr rfl, ih⟩

example := C08_incompatible addOp (portableKernels addOp) (a := demo) (b := demoT) false (by decide)

example : demo.opAssign addOp (portableKernels addOp) false (Arr.fromContiguousOwnedBuffer [3] [1, 2, 3]) =
    .ok [11, 13, 15, 14, 16, 18] := rfl

/-- **C08 is false** for a non-contiguous target: adding 100 to the first column of a 2x3 array changes
cells 0 and 1 (elements `[0,0]` and `[0,1]`) instead of cells 0 and 3. -/
theorem C08_false : ∃ col : Arr Nat, demo.slice [.full, .at 0] = .ok col ∧ col.flags.writeable = true ∧
    col.opAssign addOp (portableKernels addOp) false (Arr.fromContiguousOwnedBuffer [2] [100, 200]) =
      .ok [110, 213, 12, 13, 14, 15] ∧
    col.opAssignScalar addOp (portableKernels addOp) 100 = .ok [110, 113, 12, 13, 14, 15] :=
  ⟨_, rfl, rfl, rfl, rfl⟩

/-- **C08 is false** when the right-hand side is an overlapping view of the same buffer: with `x = [1, 2, 3]`,
`x[1..3] += x[0..2]` gives `[1, 3, 6]`, not `[1, 3, 5]`. -/
theorem C08_overlap_false : ∃ x y : Arr Nat,
    (Arr.fromContiguousOwnedBuffer [3] [1, 2, 3]).slice [.range 1 3] = .ok x ∧
    (Arr.fromContiguousOwnedBuffer [3] [1, 2, 3]).slice [.range 0 2] = .ok y ∧
    x.opAssign addOp (portableKernels addOp) true y = .ok [1, 3, 6] := ⟨_, _, rfl, rfl, rfl⟩

/-! ## C27 -/

/-- **C27** (part). A view obtained by `broadcast_to` from anything, and everything derived from it by any
sequence of view operations, refuses compound assignment.
Missing: `fill` and indexed writes, which are not refused (`C27_false`). -/
theorem C27_assign_partial (f : α → α → Res α) (K : BinKernels α) {o a c b : Arr α} {t : List Nat} (v : α) (sh : Bool)
    (h : o.broadcastTo t = .ok a) (hh : History (fun _ => True) a c) :
    c.opAssign f K sh b = .error .panic ∧ c.opAssignScalar f K v = .error .panic := by
  apply C08_readonly
  have ha : a.flags.writeable = false := by
    obtain ⟨_, _, h⟩ := bind_eq_ok.1 h
    obtain ⟨_, _, h⟩ := bind_eq_ok.1 h
    cases h; rfl
  induction hh with
  | refl => exact ha
  | step op _ _ _ h2 ih => exact run_writeable h2 ih

example := C27_assign_partial addOp (portableKernels addOp) (b := demo) 5 false
  (show (Arr.fromContiguousOwnedBuffer [3] [1, 2, 3]).broadcastTo [2, 3] = .ok _ from rfl)
  (.step (.transpose 0 1) .refl trivial trivial rfl)

/-- **C27 is false**: `fill` and indexed writes modify a read-only view and, through it, the base array. -/
theorem C27_false : ∃ r : Arr Nat, (Arr.fromContiguousOwnedBuffer [2, 1] [1, 2]).broadcastTo [2, 2] = .ok r ∧
    r.fill 9 = .ok [9, 9] ∧ r.indexSet [0, 1] 9 = .ok [9, 2] ∧
    r.opAssignScalar addOp (portableKernels addOp) 1 = .error .panic := ⟨_, rfl, by decide, by decide, rfl⟩

end Verif
