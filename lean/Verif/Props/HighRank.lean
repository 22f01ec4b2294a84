import Verif.Props.Broadcast
import Verif.Props.Elementwise
import Verif.Props.Reduce
import Verif.Props.Print
import Verif.Lemmas.Pair

/-!
# C79: arrays of more than 32 axes

The iterator copies the axes that remain after merging neighbours into arrays of length 32. Everything that uses it is right, or panics
before it has read or written anything; new arrays, of any rank, never make it panic.
-/

namespace Verif

variable {α β : Type}

/-- Four elements in a new array of 37 axes. -/
def tall : Arr Nat := Arr.fromContiguousOwnedBuffer (List.replicate 18 1 ++ [4] ++ List.replicate 18 1) [10, 11, 12, 13]

def tallFn (idx : List Nat) : Nat := 10 + idx.getD 18 0

theorem tall_fresh : Fresh tall := ⟨_, _, by decide +kernel, rfl⟩

theorem tall_denotes : tall.Denotes tall.shape tallFn :=
  denotes_fromContiguous (s := List.replicate 18 1 ++ [4] ++ List.replicate 18 1) (f := tallFn)

/-! ### the axes of a new array are merged into one -/

theorem length_collapse_fresh (cn : Nat) (s : List Nat) : (collapseAux cn (numel s) s (strideFromShape s)).1.length = 1 := by
  induction s generalizing cn with
  | nil => simp [collapseAux]
  | cons m s ih =>
    rw [strideFromShape_cons, collapseAux, if_pos (.inl (by simp))]
    exact ih _

theorem axesFit_fresh (s : List Nat) : AxesFit s (strideFromShape s) := by
  unfold AxesFit
  cases s with
  | nil => decide
  | cons n s =>
    rw [strideFromShape_cons]
    show (collapseAux n (numel s) s (strideFromShape s)).1.length ≤ maxDims
    rw [length_collapse_fresh]
    decide

theorem Fresh.axesFit {a : Arr α} (h : Fresh a) : AxesFit a.shape a.stride := by
  obtain ⟨s, data, _, rfl⟩ := h
  exact axesFit_fresh s

theorem Fresh.offsets_eq {a : Arr α} (h : Fresh a) : offsets a.shape a.stride = List.range (numel a.shape) := by
  obtain ⟨s, data, _, rfl⟩ := h
  exact offsets_strideFromShape s

theorem flatiter_panic {a : Arr α} (h : ¬ AxesFit a.shape a.stride) : a.flatiter = .error .panic := by
  unfold Arr.flatiter
  rw [FlatGen.mk'_panic h]; rfl

/-! ### right or a panic -/

/-- **C79**: `flatiter()` yields the elements in row-major order or panics; new arrays of any rank are iterated. -/
theorem C79_flatiter {a : Arr α} {s : List Nat} {f : List Nat → α} (ha : a.Denotes s f) :
    (a.flatiter = .ok (elements s f) ∨ (32 < s.length ∧ a.flatiter = .error .panic)) ∧
      (Fresh a → a.flatiter = .ok (elements s f)) := by
  constructor
  · by_cases h : AxesFit s a.stride
    · exact .inl (ha.flatiter_fits h)
    · exact .inr ⟨not_le.1 fun c => h (axesFit_of_rank c), flatiter_panic (by rwa [ha.1])⟩
  · intro h
    exact ha.flatiter_fits (ha.1 ▸ h.axesFit)

example : tall.flatiter = .ok (elements tall.shape tallFn) := (C79_flatiter tall_denotes).2 tall_fresh

/-- **C79**: `==` is the comparison of C22 or panics. -/
theorem C79_eq [BEq α] {a b : Arr α} {s t : List Nat} {f g : List Nat → α} (ha : a.Denotes s f) (hb : b.Denotes t g) :
    ((∃ r, a.eq b = .ok r ∧ (r = true ↔ s = t ∧ ∀ idx, InB idx s → (f idx == g idx) = true)) ∨
      (32 < s.length ∧ a.eq b = .error .panic)) ∧
    (Fresh a → Fresh b → ∃ r, a.eq b = .ok r ∧ (r = true ↔ s = t ∧ ∀ idx, InB idx s → (f idx == g idx) = true)) := by
  refine ⟨?_, fun h1 h2 => eq_of_flatiter ha hb ((C79_flatiter ha).2 h1) ((C79_flatiter hb).2 h2)⟩
  by_cases hst : s = t
  · subst hst
    rcases (C79_flatiter ha).1 with h1 | ⟨h0, h1⟩
    · rcases (C79_flatiter hb).1 with h2 | ⟨h0, h2⟩
      · exact .inl (eq_of_flatiter ha hb h1 h2)
      · refine .inr ⟨h0, ?_⟩
        unfold Arr.eq
        rw [if_neg (by simp [ha.1, hb.1]), h1, h2]; rfl
    · refine .inr ⟨h0, ?_⟩
      unfold Arr.eq
      rw [if_neg (by simp [ha.1, hb.1]), h1]; rfl
  · refine .inl ⟨false, ?_, by simp [hst]⟩
    unfold Arr.eq
    rw [if_pos (by rw [ha.1, hb.1]; exact hst)]

example : ∃ r, tall.eq tall = .ok r ∧ (r = true ↔ tall.shape = tall.shape ∧ ∀ idx, InB idx tall.shape → (tallFn idx == tallFn idx) = true) :=
  (C79_eq tall_denotes tall_denotes).2 tall_fresh tall_fresh

/-- **C79**: `astype` converts every element, or panics. -/
theorem C79_astype {a : Arr α} {s : List Nat} {f : List Nat → α} (ha : a.Denotes s f) (cast : α → Option β) (dflt : β)
    {g : List Nat → β} (hg : ∀ idx, InB idx s → cast (f idx) = some (g idx)) :
    ((∃ r, a.astype cast dflt = .ok r ∧ r.Denotes s g) ∨ (32 < s.length ∧ a.astype cast dflt = .error .panic)) ∧
      (Fresh a → ∃ r, a.astype cast dflt = .ok r ∧ r.Denotes s g) := by
  refine ⟨?_, fun h => (astype_of_flatiter ha ((C79_flatiter ha).2 h) cast dflt).1 g hg⟩
  rcases (C79_flatiter ha).1 with h | ⟨h0, h⟩
  · exact .inl ((astype_of_flatiter ha h cast dflt).1 g hg)
  · refine .inr ⟨h0, ?_⟩
    unfold Arr.astype
    rw [h]; rfl

example : ∃ r, tall.astype (fun n : Nat => some (n : Int)) 0 = .ok r ∧ r.Denotes tall.shape (fun idx => (tallFn idx : Int)) :=
  (C79_astype tall_denotes (fun n : Nat => some (n : Int)) 0 fun _ _ => rfl).2 tall_fresh

/-- **C79**: printing writes the nested rendering of C51, or panics. -/
theorem C79_debug {a : Arr α} {s : List Nat} {f : List Nat → α} (ha : a.Denotes s f) :
    ((∃ ts, a.debugTokens = .ok ts ∧ ts.filter Tok.notSpace = nested s f) ∨ (32 < s.length ∧ a.debugTokens = .error .panic)) ∧
      (Fresh a → ∃ ts, a.debugTokens = .ok ts ∧ ts.filter Tok.notSpace = nested s f) := by
  refine ⟨?_, fun h => debug_of_flatiter ha ((C79_flatiter ha).2 h)⟩
  rcases (C79_flatiter ha).1 with h | ⟨h0, h⟩
  · exact .inl (debug_of_flatiter ha h)
  · refine .inr ⟨h0, ?_⟩
    unfold Arr.debugTokens
    rw [h]; rfl

example : ∃ ts, tall.debugTokens = .ok ts ∧ ts.filter Tok.notSpace = nested tall.shape tallFn := (C79_debug tall_denotes).2 tall_fresh

/-- **C79**: `clone` of every view made without `broadcast_to` copies the elements, or panics; contiguous views of any rank are
cloned. -/
theorem C79_clone {o a : Arr α} (ho : Fresh o) (hh : History NoBroadcast o a) {s : List Nat} {f : List Nat → α}
    (ha : a.Denotes s f) :
    ((∃ r, a.clone = .ok r ∧ r.Denotes s f) ∨ (32 < s.length ∧ a.isContiguous = false ∧ a.clone = .error .panic)) := by
  have hw := wf_history ho.wf hh
  unfold Arr.clone
  rcases cloneData_or ha hw.cloneOK hw.flags with h | ⟨h1, h2, h3⟩
  · refine .inl ⟨Arr.fromContiguousOwnedBuffer s (elements s f), ?_, denotes_fromContiguous⟩
    rw [h, ha.1]; rfl
  · refine .inr ⟨not_le.1 fun c => h2 (axesFit_of_rank c), h1, ?_⟩
    rw [h3]; rfl

example : (∃ r, tall.clone = .ok r ∧ r.Denotes tall.shape tallFn) ∨
    (32 < tall.shape.length ∧ tall.isContiguous = false ∧ tall.clone = .error .panic) :=
  C79_clone tall_fresh .refl tall_denotes

theorem broadcastStrideLoop_self {st s : List Nat} (hl : st.length = s.length) (h1 : 1 ∉ s) : broadcastStrideLoop st s s = .ok st := by
  induction s generalizing st with
  | nil =>
    cases st with
    | nil => rfl
    | cons => simp at hl
  | cons n s ih =>
    cases st with
    | nil => simp at hl
    | cons d st =>
      simp only [List.mem_cons, not_or] at h1
      rw [broadcastStrideLoop, if_neg (fun e => h1.1 e.symm), if_pos rfl, ih (by simpa using hl) h1.2]; rfl

theorem broadcastStride_self {st s : List Nat} (hl : st.length = s.length) (h1 : 1 ∉ s) : broadcastStride st s s = .ok st := by
  unfold broadcastStride
  rw [if_neg (by omega), Nat.sub_self]
  show (do
    let r ← broadcastStrideLoop st s s
    return [] ++ r) = Except.ok st
  rw [broadcastStrideLoop_self hl h1]; rfl

/-- **C79**: `a op b` is right for every index of the joint shape, or panics; new arrays of the same shape without extents of 1 are
combined whatever their rank. -/
theorem C79_binary {f : α → α → Res α} {K : BinKernels α} {P : Nat → Prop} (hK : K.Correct f P) (dflt : α) {a b : Arr α}
    {s t r : List Nat} {fa fb h : List Nat → α} (ha : a.Denotes s fa) (hb : b.Denotes t fb) (hc : Compatible s t) (hj : IsJoint s t r)
    (hP : P (numel r)) (hf : ∀ idx, InB idx r → f (fa (broadcastIndex s idx)) (fb (broadcastIndex t idx)) = .ok (h idx)) :
    ((∃ c, a.binOp f K dflt b = .ok c ∧ c.Denotes r h) ∨ (32 < r.length ∧ a.binOp f K dflt b = .error .panic)) ∧
      (Fresh a → Fresh b → s = t → 1 ∉ s → ∃ c, a.binOp f K dflt b = .ok c ∧ c.Denotes r h) := by
  rcases binOp_or hK dflt ha hb hc hj hP with e | ⟨⟨lst, rst, e1, e2, e3⟩, e⟩
  · have : ∃ c, a.binOp f K dflt b = .ok c ∧ c.Denotes r h := by
      refine ⟨Arr.fromContiguousOwnedBuffer r (elements r h), ?_, denotes_fromContiguous⟩
      rw [e, mapM_id_elements hf]; rfl
    exact ⟨.inl this, fun _ _ _ _ => this⟩
  · refine ⟨.inr ⟨not_le.1 fun c => e3 ⟨axesFit_of_rank c, axesFit_of_rank c⟩, e⟩, fun h1 h2 hst hs => ?_⟩
    subst hst
    have hr : r = s := hj.unique (by
      have := C03_idempotent s
      obtain ⟨r', p1, p2⟩ := (broadcastShapes_spec s s).1 hc
      rw [this] at p1
      cases p1
      exact p2)
    subst hr
    rw [broadcastStride_self ha.2.1 hs] at e1
    rw [broadcastStride_self hb.2.1 hs] at e2
    cases e1; cases e2
    exact absurd ⟨ha.1 ▸ h1.axesFit, hb.1 ▸ h2.axesFit⟩ e3

/-- two new arrays of shape 2x2x…x2 with 34 axes would be large; one of them empty is not -/
example (f : Nat → Nat → Res Nat) : ∃ c, (Arr.fromContiguousOwnedBuffer (0 :: List.replicate 36 2) ([] : List Nat)).binOp f
    (portableKernels f) 0 (Arr.fromContiguousOwnedBuffer (0 :: List.replicate 36 2) []) = .ok c ∧
    c.Denotes (0 :: List.replicate 36 2) (fun _ => 0) :=
  have hd : (Arr.fromContiguousOwnedBuffer (0 :: List.replicate 36 2) ([] : List Nat)).Denotes (0 :: List.replicate 36 2) (fun _ => 0) :=
    denotes_fromContiguous (s := 0 :: List.replicate 36 2) (f := fun _ => 0)
  (C79_binary (portable_correct f) 0 hd hd (compatible_of_ok (r := 0 :: List.replicate 36 2) (by decide +kernel))
    (joint_of_ok (by decide +kernel)) trivial (fun idx hi => match idx, hi with | _ :: _, h => absurd h.1 (by omega))).2
    ⟨_, _, by decide +kernel, rfl⟩ ⟨_, _, by decide +kernel, rfl⟩ rfl (by decide)

/-- **C79**: `a op v` with a scalar. -/
theorem C79_scalar {f : α → α → Res α} {K : BinKernels α} {P : Nat → Prop} (hK : K.Correct f P) (dflt : α) {a : Arr α}
    {s : List Nat} {fa h : List Nat → α} (v : α) (ha : a.Denotes s fa) (hP : P (numel s))
    (hf : ∀ idx, InB idx s → f (fa idx) v = .ok (h idx)) :
    ((∃ c, a.binOpScalar f K dflt v = .ok c ∧ c.Denotes s h) ∨ (32 < s.length ∧ a.binOpScalar f K dflt v = .error .panic)) ∧
      (Fresh a → ∃ c, a.binOpScalar f K dflt v = .ok c ∧ c.Denotes s h) := by
  rcases binOpScalar_or hK dflt ha v hP with e | ⟨e1, e⟩
  · have : ∃ c, a.binOpScalar f K dflt v = .ok c ∧ c.Denotes s h := by
      refine ⟨Arr.fromContiguousOwnedBuffer s (elements s h), ?_, denotes_fromContiguous⟩
      rw [e, mapM_id_elements hf]; rfl
    exact ⟨.inl this, fun _ => this⟩
  · exact ⟨.inr ⟨not_le.1 fun c => e1 (axesFit_of_rank c), e⟩, fun hfr => absurd (ha.1 ▸ hfr.axesFit) e1⟩

example : ∃ c, tall.binOpScalar (fun x y => .ok (x + y)) (portableKernels fun x y => .ok (x + y)) 0 5 = .ok c ∧
    c.Denotes tall.shape (fun idx => tallFn idx + 5) :=
  (C79_scalar (portable_correct _) 0 5 tall_denotes trivial fun _ _ => rfl).2 tall_fresh

/-- **C79**: `-a`. -/
theorem C79_neg {g : α → Res α} {K : UnKernels α} {P : Nat → Prop} (hK : K.Correct g P) (dflt : α) {a : Arr α}
    {s : List Nat} {fa h : List Nat → α} (ha : a.Denotes s fa) (hP : P (numel s)) (hg : ∀ idx, InB idx s → g (fa idx) = .ok (h idx)) :
    ((∃ c, a.neg g K dflt = .ok c ∧ c.Denotes s h) ∨ (32 < s.length ∧ a.neg g K dflt = .error .panic)) ∧
      (Fresh a → ∃ c, a.neg g K dflt = .ok c ∧ c.Denotes s h) := by
  rcases neg_or hK dflt ha hP with e | ⟨e1, e⟩
  · have : ∃ c, a.neg g K dflt = .ok c ∧ c.Denotes s h := by
      refine ⟨Arr.fromContiguousOwnedBuffer s (elements s h), ?_, denotes_fromContiguous⟩
      rw [e, mapM_id_elements hg]; rfl
    exact ⟨.inl this, fun _ => this⟩
  · exact ⟨.inr ⟨not_le.1 fun c => e1 (axesFit_of_rank c), e⟩, fun hfr => absurd (ha.1 ▸ hfr.axesFit) e1⟩

example : ∃ c, tall.neg (fun x => .ok (x + 1)) (portableNeg fun x => .ok (x + 1)) 0 = .ok c ∧
    c.Denotes tall.shape (fun idx => tallFn idx + 1) :=
  (C79_neg (portableNeg_correct fun x => .ok (x + 1)) 0 tall_denotes trivial fun _ _ => rfl).2 tall_fresh

/-- **C79**: `a op= b` on a contiguous array updates every element and nothing else, or panics. -/
theorem C79_assign {f : α → α → Res α} {K : BinKernels α} {P : Nat → Prop} (hK : K.Correct f P) {a b : Arr α} {t : List Nat}
    {fa fb h : List Nat → α} (hcont : offsets a.shape a.stride = List.range (numel a.shape)) (hw : a.flags.writeable = true)
    (ha : a.Denotes a.shape fa) (hb : b.Denotes t fb) (hbt : BroadcastsTo t a.shape) (hP : P (numel a.shape))
    (hf : ∀ idx, InB idx a.shape → f (fa idx) (fb (broadcastIndex t idx)) = .ok (h idx)) :
    ((∃ buf', a.opAssign f K false b = .ok buf' ∧ UpdatedTo a buf' h) ∨
      (32 < a.shape.length ∧ a.opAssign f K false b = .error .panic)) ∧
    (Fresh a → Fresh b → t = a.shape → ∃ buf', a.opAssign f K false b = .ok buf' ∧ UpdatedTo a buf' h) := by
  rcases assign_of_range_or hK hcont hw ha hb hbt hP hf with e | ⟨⟨e1, e2⟩, e⟩
  · exact ⟨.inl e, fun _ _ _ => e⟩
  · refine ⟨.inr ⟨not_le.1 e1, e⟩, fun h1 h2 ht => absurd ⟨h1.axesFit, ?_⟩ (e2 ht)⟩
    have := h2.axesFit
    rwa [hb.1, ht] at this

example : ∃ buf, tall.opAssign (fun x y => .ok (x + y)) (portableKernels fun x y => .ok (x + y)) false tall = .ok buf ∧
    UpdatedTo tall buf (fun idx => tallFn idx + tallFn idx) :=
  (C79_assign (portable_correct _) (by decide +kernel) rfl tall_denotes tall_denotes (by decide +kernel) trivial
    fun idx hi => by rw [broadcastIndex_self hi]).2 tall_fresh tall_fresh rfl

/-- **C79**: `a op= v` with a scalar. -/
theorem C79_assign_scalar {f : α → α → Res α} {K : BinKernels α} {P : Nat → Prop} (hK : K.Correct f P) {a : Arr α}
    {fa h : List Nat → α} (v : α) (hcont : offsets a.shape a.stride = List.range (numel a.shape)) (hw : a.flags.writeable = true)
    (ha : a.Denotes a.shape fa) (hP : P (numel a.shape)) (hf : ∀ idx, InB idx a.shape → f (fa idx) v = .ok (h idx)) :
    ((∃ buf', a.opAssignScalar f K v = .ok buf' ∧ UpdatedTo a buf' h) ∨
      (32 < a.shape.length ∧ a.opAssignScalar f K v = .error .panic)) ∧
    (Fresh a → ∃ buf', a.opAssignScalar f K v = .ok buf' ∧ UpdatedTo a buf' h) := by
  rcases assign_scalar_of_range_or hK v hcont hw ha hP hf with e | ⟨e1, e⟩
  · exact ⟨.inl e, fun _ => e⟩
  · exact ⟨.inr ⟨not_le.1 fun c => e1 (axesFit_of_rank c), e⟩, fun h1 => absurd h1.axesFit e1⟩

example : ∃ buf, tall.opAssignScalar (fun x y => .ok (x + y)) (portableKernels fun x y => .ok (x + y)) 5 = .ok buf ∧
    UpdatedTo tall buf (fun idx => tallFn idx + 5) :=
  (C79_assign_scalar (portable_correct _) 5 (by decide +kernel) rfl tall_denotes trivial fun _ _ => rfl).2 tall_fresh

/-- **C79**: reductions over all elements of a view made without `broadcast_to`. -/
theorem C79_reduce {step : α → α → α} {init : α} {K : RedKernels α} (hK : K.Correct step init) {o a : Arr α} (ho : Fresh o)
    (hh : History NoBroadcast o a) {f : List Nat → α} (ha : a.Denotes a.shape f) :
    ((∃ r, a.reduceAll step init K = .ok r ∧ r.Denotes [] (fun _ => foldOver step init f (indices a.shape))) ∨
      (32 < a.shape.length ∧ a.reduceAll step init K = .error .panic)) ∧
    (Fresh a → ∃ r, a.reduceAll step init K = .ok r ∧ r.Denotes [] (fun _ => foldOver step init f (indices a.shape))) := by
  rcases reduceAll_or hK ha (reducible_history ho hh) with e | ⟨_, e1, e⟩
  · exact ⟨.inl e, fun _ => e⟩
  · exact ⟨.inr ⟨not_le.1 fun c => e1 (axesFit_of_rank c), e⟩, fun h1 => absurd h1.axesFit e1⟩

example : ∃ r, tall.reduceAll (· + ·) 0 (portableRed (· + ·) 0) = .ok r ∧
    r.Denotes [] (fun _ => foldOver (· + ·) 0 tallFn (indices tall.shape)) :=
  (C79_reduce (portableRed_correct _ _) tall_fresh .refl tall_denotes).2 tall_fresh

/-- **C79**: reductions along axes, in any layout. -/
theorem C79_reduce_along (func : α → α → α) {a : Arr α} {s : List Nat} {f : List Nat → α} (ha : a.Denotes s f) {axes : List Int}
    {ks : List Nat} (hax : AxesAre axes s.length ks) (hnd : ks.Nodup) (init : α) :
    (∃ r, a.reduceAlong func axes init = .ok r ∧ r.Denotes (dropAxes ks s) (fun J => foldOver func init f (fibre ks s J))) ∨
      (32 < s.length ∧ a.reduceAlong func axes init = .error .panic) := by
  rcases reduceAlong_or func ha hax hnd init with e | ⟨e1, e⟩
  · exact .inl ⟨_, e, denotes_fromContiguous⟩
  · exact .inr ⟨not_le.1 e1, e⟩

example : (∃ r, tall.reduceAlong (· + ·) [18] 0 = .ok r ∧
      r.Denotes (dropAxes [18] tall.shape) (fun J => foldOver (· + ·) 0 tallFn (fibre [18] tall.shape J))) ∨
    (32 < tall.shape.length ∧ tall.reduceAlong (· + ·) [18] 0 = .error .panic) :=
  C79_reduce_along (· + ·) tall_denotes (axes := [18]) (ks := [18]) ⟨⟨by decide +kernel, .inl rfl⟩, trivial⟩ (by decide) 0

/-! ### both outcomes occur -/

/-- a new array of 37 axes -/
example : Fresh tall ∧ tall.shape.length = 37 ∧ tall.flatiter = .ok [10, 11, 12, 13] :=
  ⟨⟨_, _, by decide +kernel, rfl⟩, by decide +kernel, by decide +kernel⟩

/-- what the theorems say about it -/
example : tall.Denotes tall.shape (fun idx => 10 + idx.getD 18 0) ∧ offsets tall.shape tall.stride = List.range (numel tall.shape) ∧
    tall.flags.writeable = true ∧ (do let c ← tall.sum; return c.buf) = .ok [46] ∧ tall.eq tall = .ok true ∧
    (do let c ← tall.sumAlong [18]; return (c.shape.length, c.buf)) = .ok (36, [46]) ∧
    tall.opAssign (fun x y => .ok (x + y)) (portableKernels fun x y => .ok (x + y)) false tall = .ok [20, 22, 24, 26] ∧
    AxesAre [18] tall.shape.length [18] := by
  refine ⟨denotes_fromContiguous (s := List.replicate 18 1 ++ [4] ++ List.replicate 18 1) (f := fun idx => 10 + idx.getD 18 0), ?_⟩
  refine ⟨by decide +kernel, rfl, by decide +kernel, by decide +kernel, by decide +kernel, by decide +kernel, ?_⟩
  exact ⟨⟨by decide +kernel, .inl rfl⟩, trivial⟩

/-- **C79**: the panic occurs. Swapping axes of extent 1 of a new array of four elements and 37 axes leaves 37 axes that cannot be
merged; then iterating, comparing, cloning, printing, negating, adding a number and summing panic, but adding two arrays does not (it
gives axes of extent 1 the stride 0 first). -/
theorem C79_panics : ∃ a : Arr Nat, History NoBroadcast tall a ∧ a.shape = tall.shape ∧ a.flatiter = .error .panic ∧
    a.eq a = .error .panic ∧ a.clone = .error .panic ∧ a.debugTokens = .error .panic ∧
    a.neg .ok (portableNeg .ok) 0 = .error .panic ∧
    a.binOpScalar (fun x y => .ok (x + y)) (portableKernels fun x y => .ok (x + y)) 0 1 = .error .panic ∧
    (∃ c, a.binOp (fun x y => .ok (x + y)) (portableKernels fun x y => .ok (x + y)) 0 a = .ok c ∧ c.buf = [20, 22, 24, 26]) ∧
    a.sum = .error .panic ∧ a.sumAlong [0] = .error .panic := by
  refine ⟨_, .step (.transpose 17 35) (.step (.transpose 15 33) (.step (.transpose 13 31) (.step (.transpose 11 29) (.step
    (.transpose 9 27) (.step (.transpose 7 25) (.step (.transpose 5 23) (.step (.transpose 3 21) (.step (.transpose 1 19) .refl
    rfl trivial rfl) rfl trivial rfl) rfl trivial rfl) rfl trivial rfl) rfl trivial rfl) rfl trivial rfl) rfl trivial rfl) rfl
    trivial rfl) rfl trivial rfl, ?_⟩
  refine ⟨by decide +kernel, by decide +kernel, by decide +kernel, by decide +kernel, by decide +kernel, by decide +kernel,
    by decide +kernel, ⟨_, rfl, by decide +kernel⟩, by decide +kernel, by decide +kernel⟩

end Verif
