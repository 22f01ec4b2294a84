import Verif.Props.IntOps
import Verif.Props.Overflow
import Verif.Props.IeeeRounded
import Verif.Lemmas.Pair

/-!
# Compound assignment in machine arithmetic

C08 says which elements `a op= b` changes, for an arbitrary operator; here the operators are those of machine integers (C59, C77) and of
IEEE floats (C71). What the memory holds after a panic inside the loop is not part of the model.
-/

namespace Verif

/-- **C08** (part). If the operator panics on some pair of elements, so does `a op= b`. -/
theorem C08_operator_panics_partial (f : α → α → Res α) {o a b : Arr α} {t : List Nat} {fa fb : List Nat → α} (ho : Fresh o)
    (hh : History NoBroadcast o a) (hc : a.isContiguous = true)
    (ha : a.Denotes a.shape fa) (hb : b.Denotes t fb) (hbt : BroadcastsTo t a.shape) (hd : a.shape.length ≤ 32)
    (hp : ∀ idx e, InB idx a.shape → f (fa idx) (fb (broadcastIndex t idx)) = .error e → e = .panic)
    (he : ∃ idx e, InB idx a.shape ∧ f (fa idx) (fb (broadcastIndex t idx)) = .error e) :
    a.opAssign f (portableKernels f) false b = .error .panic := by
  have hcont := C26_contiguous_partial ho hh hc
  cases hw : a.flags.writeable with
  | false => exact (C08_readonly f (portableKernels f) (fa []) false hw).1
  | true =>
    obtain ⟨hbs, hbl, hfb⟩ := hb
    subst hbs
    unfold Arr.opAssign
    rw [assert_ok hw]
    simp only [ok_bind]
    have hfin : ∀ g : List Nat → α, (∀ idx, InB idx a.shape → g idx = fb (broadcastIndex b.shape idx)) →
        (elements a.shape fun idx => f (fa idx) (g idx)).mapM id = .error .panic := by
      intro g hg
      obtain ⟨idx, e, hi, h⟩ := he
      refine mapM_id_panic ⟨e, mem_elements.2 ⟨idx, hi, by rw [hg idx hi]; exact h⟩⟩ fun e' he' => ?_
      obtain ⟨j, hj, h'⟩ := mem_elements.1 he'
      rw [hg j hj] at h'
      exact hp j e' hj h'
    by_cases hs : b.shape = a.shape
    · rw [if_pos hs]
      simp only [pure_res, ok_bind, Bool.false_eq_true, if_false]
      rw [opAssign_eq (portable_correct f) ha hcont hd trivial (reg := 1) rfl (hbl.trans (congrArg _ hs))
        (fun idx hi => hfb idx (hs ▸ hi)) (by intro h1; omega), hfin fb fun idx hi => by
          rw [broadcastIndex_self (hs ▸ hi)]]
      rfl
    · rw [if_neg hs]
      obtain ⟨b', e1, e2, e3, e4, e5, e6, e7, e8⟩ := broadcastTo_ok hbl hbt
      rw [e1]
      simp only [ok_bind, Bool.false_eq_true, if_false]
      have hden := e3.denotes ⟨rfl, hbl, hfb⟩
      rw [opAssign_eq (portable_correct f) ha hcont hd trivial (reg := 1) rfl (by rw [hden.2.1, e2])
        (fun idx hi => hden.2.2 idx (e2 ▸ hi)) (by intro h1; omega), hfin _ fun idx _ => rfl]
      rfl

example := C08_operator_panics_partial divOp demo_fresh .refl rfl demo_denotes
  (denotes_fromContiguous (s := [3]) (f := fun i => i.getD 0 0)) (by decide) (by decide)
  (fun _ e _ h => by unfold divOp at h; split at h <;> simp_all) ⟨[1, 0], .panic, by decide, rfl⟩

/-- `a op= v` for a contiguous, writeable `a`: the operator on every element, the first panic if there is one. -/
theorem opAssignScalar_eq (f : α → α → Res α) {a : Arr α} {fa : List Nat → α} (v : α)
    (hcont : offsets a.shape a.stride = List.range (numel a.shape)) (hw : a.flags.writeable = true)
    (ha : a.Denotes a.shape fa) (hd : a.shape.length ≤ 32) :
    a.opAssignScalar f (portableKernels f) v = (do
      let data ← (elements a.shape fun idx => f (fa idx) v).mapM id
      return writeAt a.buf a.off data) := by
  have hva := ha.valid
  unfold Arr.opAssignScalar
  rw [assert_ok hw]
  simp only [ok_bind]
  have hroom : numel a.shape ≠ 0 → a.off + numel a.shape ≤ a.buf.length := by
    intro h0
    have hi := InB_unrank (s := a.shape) (k := numel a.shape - 1) (by omega)
    have h1 := hva.2 _ hi
    have h2 := getElem?_offsets (st := a.stride) (show numel a.shape - 1 < numel a.shape by omega)
    rw [hcont, List.getElem?_range (by omega)] at h2
    simp only [Option.some.injEq] at h2
    omega
  have hready : Ready f [a.buf, [v]] ⟨0, a.off⟩ ⟨1, 0⟩ ⟨0, a.off⟩
      (offsets a.shape a.stride) (multiples (numel a.shape) 0) (elements a.shape fun idx => f (fa idx) v) := by
    refine ⟨by rw [length_offsets, length_elements], by rw [length_multiples, length_elements],
      fun hne => ⟨_, rfl, by
        rw [length_elements]
        exact hroom (fun h0 => hne (List.length_eq_zero_iff.1 (by rw [length_elements]; exact h0)))⟩, ?_, ?_, ?_⟩
    · intro k x y hx hy
      have hk := lt_of_offsets hx
      rw [getElem?_multiples hk] at hy
      cases hy
      exact ⟨_, v, load_offsets (buf := a.buf) (g := fa) rfl ha.2.2 hx, rfl, getElem?_elements hk⟩
    · intro j k x hjk hx h
      have hk := lt_of_offsets hx
      rw [hcont, List.getElem?_range hk] at hx
      have := congrArg Ptr.off h
      simp only [Ptr.add, Option.some.injEq] at this hx
      omega
    · intro j k x _ _ h
      have := congrArg Ptr.reg h
      simp [Ptr.add] at this
  rcases binScalarKernel_or (portable_correct f) hva.1.symm trivial hready with hk | ⟨hk1, hk2⟩
  · rw [hk]
    unfold finish
    generalize (elements a.shape fun idx => f (fa idx) v).mapM id = r
    cases r with
    | error e => rfl
    | ok data =>
      simp only [ok_bind, pure_res]
      rw [Mem.write_of (r := a.buf) (by rfl)]
      rfl
  · exact absurd (axesFit_of_rank hd) hk1

example := opAssignScalar_eq addOp 5 (by decide) rfl demo_denotes (by decide)

/-- **C08** (part). The same with a scalar on the right. -/
theorem C08_operator_panics_scalar_partial (f : α → α → Res α) {o a : Arr α} {fa : List Nat → α} (v : α) (ho : Fresh o)
    (hh : History NoBroadcast o a) (hc : a.isContiguous = true) (ha : a.Denotes a.shape fa) (hd : a.shape.length ≤ 32)
    (hp : ∀ idx e, InB idx a.shape → f (fa idx) v = .error e → e = .panic)
    (he : ∃ idx e, InB idx a.shape ∧ f (fa idx) v = .error e) :
    a.opAssignScalar f (portableKernels f) v = .error .panic := by
  cases hw : a.flags.writeable with
  | false => exact (C08_readonly f (portableKernels f) (b := a) v false hw).2
  | true =>
    obtain ⟨idx, e, hi, h⟩ := he
    rw [opAssignScalar_eq f v (C26_contiguous_partial ho hh hc) hw ha hd, mapM_id_panic ⟨e, mem_elements.2 ⟨idx, hi, h⟩⟩]
    · rfl
    · intro e' he'
      obtain ⟨j, hj, h'⟩ := mem_elements.1 he'
      exact hp j e' hj h'

example := C08_operator_panics_scalar_partial divOp 0 demo_fresh .refl rfl demo_denotes (by decide)
  (fun _ e _ h => by unfold divOp at h; split at h <;> simp_all) ⟨[1, 0], .panic, by decide, rfl⟩

/-! ### C59 -/

variable {lo hi : Int}

/-- **C59.** `a op= b` in a release build: every element becomes the exact result, wrapped, and no other memory changes. -/
theorem C59_assign_release_partial (op : Int → Int → Int) (hr : lo ≤ hi) {o a b : Arr Int} {t : List Nat} {fa fb : List Nat → Int}
    (ho : Fresh o) (hh : History NoBroadcast o a) (hc : a.isContiguous = true) (hw : a.flags.writeable = true)
    (ha : a.Denotes a.shape fa) (hb : b.Denotes t fb) (hbt : BroadcastsTo t a.shape) (hd : a.shape.length ≤ 32) :
    ∃ buf' h, a.opAssign (fun x y => intResult false lo hi (op x y)) (portableKernels fun x y => intResult false lo hi (op x y)) false b =
        .ok buf' ∧ UpdatedTo a buf' h ∧
      ∀ idx, InB idx a.shape → IsWrapped lo hi (h idx) (op (fa idx) (fb (broadcastIndex t idx))) := by
  choose w hw1 hw2 using fun z : Int => intResult_wraps hr z
  obtain ⟨buf', h1, h2⟩ := C08_assign_partial (fun x y => intResult false lo hi (op x y)) ho hh hc hw ha hb hbt hd
    (h := fun idx => w (op (fa idx) (fb (broadcastIndex t idx)))) (fun idx _ => hw1 _)
  exact ⟨buf', _, h1, h2, fun idx _ => hw2 _⟩

/-- 100, 101, …, 105 as `i8` -/
def smallInts : Arr Int := .fromContiguousOwnedBuffer [2, 3] (elements [2, 3] fun i => 100 + (rank i [2, 3] : Int))
theorem smallInts_denotes : smallInts.Denotes smallInts.shape (fun i => 100 + (rank i [2, 3] : Int)) :=
  denotes_fromContiguous (s := [2, 3]) (f := fun i => 100 + (rank i [2, 3] : Int))

example := C59_assign_release_partial (lo := -128) (hi := 127) (fun x y => x * y) (by decide) ⟨[2, 3], _, rfl, rfl⟩ .refl rfl rfl smallInts_denotes
  (denotes_fromContiguous (s := [3]) (f := fun i => (i.getD 0 0 : Int))) (by decide) (by decide)

/-- **C59.** `a op= b` in either build, if every exact result fits: the exact results. -/
theorem C59_assign_fits_partial (checks : Bool) (op : Int → Int → Int) {o a b : Arr Int} {t : List Nat} {fa fb : List Nat → Int}
    (ho : Fresh o) (hh : History NoBroadcast o a) (hc : a.isContiguous = true) (hw : a.flags.writeable = true)
    (ha : a.Denotes a.shape fa) (hb : b.Denotes t fb) (hbt : BroadcastsTo t a.shape) (hd : a.shape.length ≤ 32)
    (hf : ∀ idx, InB idx a.shape → lo ≤ op (fa idx) (fb (broadcastIndex t idx)) ∧ op (fa idx) (fb (broadcastIndex t idx)) ≤ hi) :
    ∃ buf', a.opAssign (fun x y => intResult checks lo hi (op x y)) (portableKernels fun x y => intResult checks lo hi (op x y)) false b =
        .ok buf' ∧ UpdatedTo a buf' fun idx => op (fa idx) (fb (broadcastIndex t idx)) :=
  C08_assign_partial _ ho hh hc hw ha hb hbt hd fun idx hi' => intResult_fits checks (hf idx hi')

example := C59_assign_fits_partial (lo := -128) (hi := 127) true (fun x y => x + y) ⟨[2, 3], _, rfl, rfl⟩ .refl rfl rfl smallInts_denotes
  (denotes_fromContiguous (s := [3]) (f := fun _ => (22 : Int))) (by decide) (by decide) fun idx hi => by
    have : rank idx [2, 3] < 6 := rank_lt hi
    constructor <;> omega

/-- **C59.** `a op= b` in a debug build, if some exact result does not fit: a panic. -/
theorem C59_assign_panics_partial (op : Int → Int → Int) {o a b : Arr Int} {t : List Nat} {fa fb : List Nat → Int}
    (ho : Fresh o) (hh : History NoBroadcast o a) (hc : a.isContiguous = true)
    (ha : a.Denotes a.shape fa) (hb : b.Denotes t fb) (hbt : BroadcastsTo t a.shape) (hd : a.shape.length ≤ 32)
    (hf : ∃ idx, InB idx a.shape ∧
      ¬ (lo ≤ op (fa idx) (fb (broadcastIndex t idx)) ∧ op (fa idx) (fb (broadcastIndex t idx)) ≤ hi)) :
    a.opAssign (fun x y => intResult true lo hi (op x y)) (portableKernels fun x y => intResult true lo hi (op x y)) false b =
      .error .panic := by
  obtain ⟨idx, hi', hn⟩ := hf
  exact C08_operator_panics_partial _ ho hh hc ha hb hbt hd (fun _ _ _ h => intResult_errors _ h) ⟨idx, .panic, hi', intResult_panic hn⟩

example := C59_assign_panics_partial (lo := -128) (hi := 127) (fun x y => x + y) ⟨[2, 3], _, rfl, rfl⟩ .refl rfl smallInts_denotes
  (denotes_fromContiguous (s := [3]) (f := fun _ => (23 : Int))) (by decide) (by decide) ⟨[1, 2], by decide, by decide⟩

/-! ### C77 -/

/-- `a op= b` and `a op= v` with the operator `f` of the element type, on contiguous arrays of numbers of the type `W`: if all pairs of
elements that meet are allowed, every element of `a` becomes a number of the type related to the two by `result`, and nothing else
changes; otherwise a panic. -/
def AssignBehaves (W : Word) (f : Int → Int → Res Int) (allowed : Int → Int → Prop) (result : Int → Int → Int → Prop) : Prop :=
  ∀ (o a : Arr Int) (fa : List Nat → Int), Fresh o → History NoBroadcast o a → a.isContiguous = true → a.flags.writeable = true →
    a.Denotes a.shape fa → a.shape.length ≤ 32 → (∀ idx, InB idx a.shape → W.Has (fa idx)) →
    (∀ (b : Arr Int) (t : List Nat) (fb : List Nat → Int), b.Denotes t fb → BroadcastsTo t a.shape →
      (∀ idx, InB idx a.shape → W.Has (fb (broadcastIndex t idx))) →
      ((∀ idx, InB idx a.shape → allowed (fa idx) (fb (broadcastIndex t idx))) →
        ∃ buf' h, a.opAssign f (portableKernels f) false b = .ok buf' ∧ UpdatedTo a buf' h ∧
          ∀ idx, InB idx a.shape → W.Has (h idx) ∧ result (fa idx) (fb (broadcastIndex t idx)) (h idx)) ∧
      ((∃ idx, InB idx a.shape ∧ ¬ allowed (fa idx) (fb (broadcastIndex t idx))) →
        a.opAssign f (portableKernels f) false b = .error .panic)) ∧
    ∀ v, W.Has v →
      ((∀ idx, InB idx a.shape → allowed (fa idx) v) →
        ∃ buf' h, a.opAssignScalar f (portableKernels f) v = .ok buf' ∧ UpdatedTo a buf' h ∧
          ∀ idx, InB idx a.shape → W.Has (h idx) ∧ result (fa idx) v (h idx)) ∧
      ((∃ idx, InB idx a.shape ∧ ¬ allowed (fa idx) v) → a.opAssignScalar f (portableKernels f) v = .error .panic)

variable {W : Word}

/-- What an operator does on arrays determines what it does on numbers. -/
theorem Behaves.point {f : Int → Int → Res Int} {al : Int → Int → Prop} {re : Int → Int → Int → Prop} (h : Behaves W f al re) {x y : Int}
    (hx : W.Has x) (hy : W.Has y) :
    (al x y → ∃ v, f x y = .ok v ∧ W.Has v ∧ re x y v) ∧ (¬ al x y → f x y = .error .panic) := by
  have hd := denotes_fromContiguous (s := [1]) (f := fun _ => x)
  obtain ⟨h1, h2⟩ := h.2 0 y _ [1] _ hd (by decide) (fun _ => hx) hy
  have e0 : InB [0] [1] := by decide
  constructor
  · intro ha
    obtain ⟨c, g, e1, e2, e3⟩ := h1 fun _ _ => ha
    cases hf : f x y with
    | error e =>
      rw [binOpScalar_eq (portable_correct f) 0 hd y (by decide) trivial] at e1
      simp [elements, indices, hf] at e1
    | ok v =>
      obtain ⟨c', k1, k2⟩ := C06_scalar f 0 y hd (by decide) (h := fun _ => v) fun _ _ => hf
      rw [e1] at k1
      cases k1
      have := (e2.2.2 [0] e0).symm.trans (k2.2.2 [0] e0)
      cases this
      exact ⟨_, rfl, e3 [0] e0⟩
  · intro ha
    have e1 := h2 ⟨[0], e0, ha⟩
    cases hf : f x y with
    | ok v =>
      obtain ⟨c', k1, _⟩ := C06_scalar f 0 y hd (by decide) (h := fun _ => v) fun _ _ => hf
      rw [e1] at k1
      cases k1
    | error e =>
      rw [binOpScalar_eq (portable_correct f) 0 hd y (by decide) trivial] at e1
      simp [elements, indices, hf] at e1
      rw [e1]

example := (C77_rem (W := ⟨8, true⟩) (by decide)).point (x := -7) (y := 3) (by decide) (by decide)

/-- **C77.** `%=`, `&=`, `|=`, `<<=`, `>>=`: what holds of `a op b` (`C77_rem`, `C77_and`, `C77_or`, `C77_shl_debug`, `C77_shl_release`,
`C77_shr_debug`, `C77_shr_release`) holds of `a op= b`, for a contiguous `a` that was not broadcast. -/
theorem C77_assign_partial {f : Int → Int → Res Int} {al : Int → Int → Prop} {re : Int → Int → Int → Prop} (h : Behaves W f al re) :
    AssignBehaves W f al re := by
  have pick : ∀ x y, ∃ v, W.Has x → W.Has y → al x y → f x y = .ok v ∧ W.Has v ∧ re x y v := fun x y => by
    by_cases hh : W.Has x ∧ W.Has y ∧ al x y
    · obtain ⟨v, hv⟩ := (h.point hh.1 hh.2.1).1 hh.2.2
      exact ⟨v, fun _ _ _ => hv⟩
    · exact ⟨0, fun h1 h2 h3 => (hh ⟨h1, h2, h3⟩).elim⟩
  choose g hg using pick
  have hpan : ∀ {x y e}, W.Has x → W.Has y → f x y = .error e → e = .panic := fun {x y e} hx hy he => by
    by_cases ha : al x y
    · obtain ⟨v, hv, _⟩ := (h.point hx hy).1 ha
      rw [hv] at he
      cases he
    · rw [(h.point hx hy).2 ha] at he
      cases he
      rfl
  intro o a fa ho hh hc hw ha hd hra
  refine ⟨fun b t fb hb hbt hrb => ⟨fun hall => ?_, fun ⟨idx, hi, hn⟩ => ?_⟩, fun v hv => ⟨fun hall => ?_, fun ⟨idx, hi, hn⟩ => ?_⟩⟩
  · obtain ⟨buf', h1, h2⟩ := C08_assign_partial f ho hh hc hw ha hb hbt hd (h := fun idx => g (fa idx) (fb (broadcastIndex t idx)))
      fun idx hi => (hg _ _ (hra _ hi) (hrb _ hi) (hall idx hi)).1
    exact ⟨buf', _, h1, h2, fun idx hi => (hg _ _ (hra _ hi) (hrb _ hi) (hall idx hi)).2⟩
  · exact C08_operator_panics_partial f ho hh hc ha hb hbt hd (fun j e hj he => hpan (hra _ hj) (hrb _ hj) he)
      ⟨idx, _, hi, (h.point (hra _ hi) (hrb _ hi)).2 hn⟩
  · obtain ⟨buf', h1, h2⟩ := C08_assign_scalar_partial f v ho hh hc hw ha hd (h := fun idx => g (fa idx) v)
      fun idx hi => (hg _ _ (hra _ hi) hv (hall idx hi)).1
    exact ⟨buf', _, h1, h2, fun idx hi => (hg _ _ (hra _ hi) hv (hall idx hi)).2⟩
  · exact C08_operator_panics_scalar_partial f v ho hh hc ha hd (fun j e hj he => hpan (hra _ hj) hv he)
      ⟨idx, _, hi, (h.point (hra _ hi) hv).2 hn⟩

example := C77_assign_partial (C77_rem (W := ⟨8, true⟩) (by decide)) _ _ _ ⟨[2, 3], _, rfl, rfl⟩ .refl rfl rfl smallInts_denotes (by decide)

/-! ### C71 -/

variable {p emax : Nat}

/-- **C71.** `a op= b` with the portable loops: every element becomes the correctly rounded result. -/
theorem C71_assign_partial {op : Ieee p emax → Ieee p emax → Ieee p emax} {exact : ℚ → ℚ → ℚ} {dom : Ieee p emax → Ieee p emax → Prop}
    (hop : ∀ x y, dom x y → CorrectlyRounded (op x y) (exact x.val y.val)) {o a b : Arr (Ieee p emax)} {t : List Nat}
    {fa fb : List Nat → Ieee p emax} (ho : Fresh o) (hh : History NoBroadcast o a) (hc : a.isContiguous = true)
    (hw : a.flags.writeable = true) (ha : a.Denotes a.shape fa) (hb : b.Denotes t fb) (hbt : BroadcastsTo t a.shape)
    (hd : a.shape.length ≤ 32) :
    ∃ buf' h, a.opAssign (fun x y => .ok (op x y)) (portableKernels fun x y => .ok (op x y)) false b = .ok buf' ∧ UpdatedTo a buf' h ∧
      ∀ idx, InB idx a.shape → dom (fa idx) (fb (broadcastIndex t idx)) →
        CorrectlyRounded (h idx) (exact (fa idx).val (fb (broadcastIndex t idx)).val) := by
  obtain ⟨buf', h1, h2⟩ := C08_assign_partial (fun x y => .ok (op x y)) ho hh hc hw ha hb hbt hd fun _ _ => rfl
  exact ⟨buf', _, h1, h2, fun idx _ h => hop _ _ h⟩

example := C71_assign_partial (op := fun x y : F32 => x + y) (dom := fun x y => x.Finite ∧ y.Finite) (fun _ _ h => (C71_ops h.1 h.2).1)
  ⟨[4], _, rfl, rfl⟩ .refl rfl rfl (denotes_fromContiguous (s := [4]) (f := fun _ => Ieee.ofRat 16777216))
  (denotes_fromContiguous (s := [1]) (f := fun _ => Ieee.ofRat 3)) (by decide) (by decide)

/-- **C71.** The same with vectors of `L` lanes. -/
theorem C71_assign_simd_partial {op : Ieee p emax → Ieee p emax → Ieee p emax} {exact : ℚ → ℚ → ℚ}
    {dom : Ieee p emax → Ieee p emax → Prop} (hop : ∀ x y, dom x y → CorrectlyRounded (op x y) (exact x.val y.val)) (L : Nat)
    {o a b : Arr (Ieee p emax)} {t : List Nat} {fa fb : List Nat → Ieee p emax} (ho : Fresh o) (hh : History NoBroadcast o a)
    (hc : a.isContiguous = true) (hw : a.flags.writeable = true) (ha : a.Denotes a.shape fa) (hb : b.Denotes t fb)
    (hbt : BroadcastsTo t a.shape) (hd : a.shape.length ≤ 32) (hn : numel a.shape ≠ 0 ∨ Reached b) :
    ∃ buf' h, a.opAssign (fun x y => .ok (op x y)) (simdKernels op L) false b = .ok buf' ∧ UpdatedTo a buf' h ∧
      ∀ idx, InB idx a.shape → dom (fa idx) (fb (broadcastIndex t idx)) →
        CorrectlyRounded (h idx) (exact (fa idx).val (fb (broadcastIndex t idx)).val) := by
  obtain ⟨buf', h1, h2⟩ := C49_assign_partial op L ho hh hc hw ha hb hbt hd hn
  exact ⟨buf', _, h1, h2, fun idx _ h => hop _ _ h⟩

example := C71_assign_simd_partial (op := fun x y : F32 => x + y) (dom := fun x y => x.Finite ∧ y.Finite) (fun _ _ h => (C71_ops h.1 h.2).1) 4
  ⟨[4], _, rfl, rfl⟩ .refl rfl rfl (denotes_fromContiguous (s := [4]) (f := fun _ => Ieee.ofRat 16777216))
  (denotes_fromContiguous (s := [1]) (f := fun _ => Ieee.ofRat 3)) (by decide) (by decide) (.inl (by decide))

/-- **C71.** `a op= v`, with the portable loops and with vectors. -/
theorem C71_assign_scalar_partial {op : Ieee p emax → Ieee p emax → Ieee p emax} {exact : ℚ → ℚ → ℚ}
    {dom : Ieee p emax → Ieee p emax → Prop} (hop : ∀ x y, dom x y → CorrectlyRounded (op x y) (exact x.val y.val)) (L : Nat)
    (v : Ieee p emax) {o a : Arr (Ieee p emax)} {fa : List Nat → Ieee p emax} (ho : Fresh o) (hh : History NoBroadcast o a)
    (hc : a.isContiguous = true) (hw : a.flags.writeable = true) (ha : a.Denotes a.shape fa) (hd : a.shape.length ≤ 32) :
    ∃ buf' h, a.opAssignScalar (fun x y => .ok (op x y)) (portableKernels fun x y => .ok (op x y)) v = .ok buf' ∧
      (∃ buf'', a.opAssignScalar (fun x y => .ok (op x y)) (simdKernels op L) v = .ok buf'' ∧ UpdatedTo a buf'' h) ∧ UpdatedTo a buf' h ∧
      ∀ idx, InB idx a.shape → dom (fa idx) v → CorrectlyRounded (h idx) (exact (fa idx).val v.val) := by
  obtain ⟨buf', h1, h2⟩ := C08_assign_scalar_partial (fun x y => .ok (op x y)) v ho hh hc hw ha hd fun _ _ => rfl
  exact ⟨buf', _, h1, C49_assign_scalar_partial op L v ho hh hc hw ha hd, h2, fun idx _ h => hop _ _ h⟩

example := C71_assign_scalar_partial (op := fun x y : F32 => x + y) (dom := fun x y => x.Finite ∧ y.Finite) (fun _ _ h => (C71_ops h.1 h.2).1) 4
  (Ieee.ofRat 3) ⟨[4], _, rfl, rfl⟩ .refl rfl rfl (denotes_fromContiguous (s := [4]) (f := fun _ => Ieee.ofRat 16777216)) (by decide)

end Verif
