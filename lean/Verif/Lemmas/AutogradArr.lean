import Verif.Model.Autograd
import Verif.Lemmas.Pair
import Verif.Lemmas.SimdReduce
import Verif.Props.MatrixOps
import Verif.Props.Elementwise
import Verif.Props.Reduce
import Verif.Props.Construct
import Verif.Props.Views

/-! # The array operations used in backward passes -/

namespace Verif

variable {α : Type}

/-- A well-formed array, with the given strides if any are given. -/
structure Arr.Ready (u : Option (List Nat)) (a : Arr α) : Prop where
  wf : a.WF
  strides : ∀ d, u = some d → a.stride = d

theorem Arr.WF.ready {a : Arr α} (h : a.WF) : a.Ready none := ⟨h, fun _ h => by cases h⟩

theorem Arr.WF.laid {a : Arr α} (h : a.WF) : a.Ready (some a.stride) := ⟨h, fun _ h => Option.some.inj h⟩

theorem ready_fresh {s : List Nat} {data : List α} (hl : data.length = numel s) :
    (Arr.fromContiguousOwnedBuffer s data).Ready (some (strideFromShape s)) :=
  ⟨Arr.WF.fromContiguous hl, fun _ h => Option.some.inj h⟩

/-- An operation that can only fail by panicking, and whose result otherwise is a well-formed array denoting the
given tensor. -/
def Gives (u : Option (List Nat)) (x : Res (Arr α)) (s : List Nat) (f : List Nat → α) : Prop := ∃ r, x = .ok r ∧ r.Ready u ∧ r.Denotes s f

theorem Gives.congr {u : Option (List Nat)} {x : Res (Arr α)} {s : List Nat} {f g : List Nat → α} (h : Gives u x s f) (hfg : ∀ i, InB i s → f i = g i) :
    Gives u x s g := by
  obtain ⟨r, h1, h2, h3⟩ := h
  exact ⟨r, h1, h2, h3.congr hfg⟩

theorem Gives.weak {u : Option (List Nat)} {x : Res (Arr α)} {s : List Nat} {f : List Nat → α} (h : Gives u x s f) : Gives none x s f := by
  obtain ⟨r, h1, h2, h3⟩ := h
  exact ⟨r, h1, h2.wf.ready, h3⟩

theorem Gives.bind {u u' : Option (List Nat)} {x : Res (Arr α)} {s t : List Nat} {f g : List Nat → α} {k : Arr α → Res (Arr α)} (h : Gives u x s f)
    (hk : ∀ r : Arr α, r.Ready u → r.Denotes s f → Gives u' (k r) t g) : Gives u' (x >>= k) t g := by
  obtain ⟨r, h1, h2, h3⟩ := h
  rw [h1]
  exact hk r h2 h3

theorem gives_fresh (s : List Nat) (f : List Nat → α) : Gives (some (strideFromShape s)) (.ok (Arr.fromContiguousOwnedBuffer s (elements s f))) s f :=
  ⟨_, rfl, ready_fresh (length_elements _ _), denotes_fromContiguous⟩

theorem BroadcastsTo.refl (s : List Nat) : BroadcastsTo s s := by
  refine ⟨le_refl _, ?_⟩
  rw [Nat.sub_self, List.drop_zero]
  induction s with
  | nil => trivial
  | cons n s ih => exact ⟨.inr rfl, ih⟩

theorem BroadcastsTo.nil (s : List Nat) : BroadcastsTo [] s := ⟨Nat.zero_le _, by simp [StretchTo]⟩

theorem BroadcastsTo.compatible {s r : List Nat} (h : BroadcastsTo s r) : Compatible s r := by
  intro k
  by_cases hk : k < s.length
  · rcases ((broadcastsTo_iff_ext s r).1 h).2 k hk with h | h
    · exact .inr (.inl h)
    · exact .inl h
  · exact .inr (.inl (extentFromRight_ge (by omega)))

theorem BroadcastsTo.nonzero {s r : List Nat} (h : BroadcastsTo s r) (h0 : 0 ∉ r) : 0 ∉ s := by
  have key : ∀ s r : List Nat, StretchTo s r → 0 ∉ r → 0 ∉ s := by
    intro s
    induction s with
    | nil => simp
    | cons n s ih =>
      intro r
      cases r with
      | nil => intro h; cases h
      | cons m r =>
        rintro ⟨h1, h2⟩ h0
        rw [List.mem_cons, not_or] at h0 ⊢
        exact ⟨by omega, ih r h2 h0.2⟩
  exact key _ _ h.2 fun hm => h0 (List.mem_of_mem_drop hm)

theorem BroadcastsTo.joint {s r : List Nat} (h : BroadcastsTo s r) : IsJoint s r r := by
  refine ⟨(Nat.max_eq_right h.1).symm, fun k => ?_⟩
  by_cases hk : k < s.length
  · rcases ((broadcastsTo_iff_ext s r).1 h).2 k hk with h | h
    · rw [if_pos h]
    · rw [h]; simp
  · rw [if_pos (extentFromRight_ge (by omega))]

section
variable [Field α] [Build]

omit [Field α] [Build] in
theorem BinKernels.Correct.mono {f : α → α → Res α} {K : BinKernels α} {P Q : Nat → Prop} (h : K.Correct f P) (hq : ∀ n, Q n → P n) :
    K.Correct f Q where
  s01 _ _ _ _ n _ hn := h.s01 _ _ _ _ _ _ (hq n hn)
  s10 _ _ _ _ n _ hn := h.s10 _ _ _ _ _ _ (hq n hn)
  sn0 _ _ _ _ _ n _ hn := h.sn0 _ _ _ _ _ _ _ (hq n hn)
  s0n _ _ _ _ _ n _ hn := h.s0n _ _ _ _ _ _ _ (hq n hn)
  s11 _ _ _ _ n _ hn := h.s11 _ _ _ _ _ _ (hq n hn)
  sn1 _ _ _ _ _ n _ hn := h.sn1 _ _ _ _ _ _ _ (hq n hn)
  s1n _ _ _ _ _ n _ hn := h.s1n _ _ _ _ _ _ _ (hq n hn)
  snn _ _ _ _ _ _ n _ hn := h.snn _ _ _ _ _ _ _ _ (hq n hn)

omit [Field α] [Build] in
theorem UnKernels.Correct.mono {g : α → Res α} {K : UnKernels α} {P Q : Nat → Prop} (h : K.Correct g P) (hq : ∀ n, Q n → P n) :
    K.Correct g Q where
  s0 _ _ _ n _ hn := h.s0 _ _ _ _ _ (hq n hn)
  s1 _ _ _ n _ hn := h.s1 _ _ _ _ _ (hq n hn)
  sn _ _ _ _ n _ hn := h.sn _ _ _ _ _ _ (hq n hn)

theorem binLoops_correct (f : α → α → α) : (binLoops f).Correct (fun x y => .ok (f x y)) (· ≠ 0) := by
  unfold binLoops
  split
  · exact (portable_correct _).mono fun _ _ => trivial
  · exact simd_correct f 2
  · exact simd_correct f 4

theorem negLoops_correct (f : α → α) : (negLoops f).Correct (fun x => .ok (f x)) (· ≠ 0) := by
  unfold negLoops
  split
  · exact (portableNeg_correct _).mono fun _ _ => trivial
  · exact simdNeg_correct f 2
  · exact simdNeg_correct f 4

theorem sopLoops_correct : (sopLoops : SopKernels α).Correct := by
  unfold sopLoops
  split
  · exact portableSop_correct
  · exact simdSop_correct (.inl rfl)
  · exact simdSop_correct (.inr rfl)

theorem gives_bin (op : SOp) {a b : Arr α} {s t r : List Nat} {fa fb : List Nat → α} (ha : a.Denotes s fa)
    (hb : b.Denotes t fb) (hc : Compatible s t) (hj : IsJoint s t r) (hd : r.length ≤ 32)
    (h0 : 0 ∉ r) : Gives (some (strideFromShape r)) (op.arr a b) r (fun i => op.run (fa (broadcastIndex s i)) (fb (broadcastIndex t i))) := by
  unfold SOp.arr
  rw [binOp_eq (binLoops_correct _) 0 ha hb hc hj hd (mt numel_eq_zero.1 h0), mapM_id_elements (fun _ _ => rfl)]
  exact gives_fresh _ _

theorem mulA_eq (a b : Arr α) : a.mulA b = SOp.mul.arr a b := rfl
theorem divA_eq (a b : Arr α) : a.divA b = SOp.div.arr a b := rfl

/-- the right operand has the shape of the result -/
theorem gives_left (op : SOp) {a b : Arr α} {s r : List Nat} {fa fb : List Nat → α} (ha : a.Denotes s fa)
    (hb : b.Denotes r fb) (h : BroadcastsTo s r) (hd : r.length ≤ 32)
    (h0 : 0 ∉ r) : Gives (some (strideFromShape r)) (op.arr a b) r (fun i => op.run (fa (broadcastIndex s i)) (fb i)) :=
  (gives_bin op ha hb h.compatible h.joint hd h0).congr fun i hi => by rw [broadcastIndex_self hi]

/-- the left operand has the shape of the result -/
theorem gives_right (op : SOp) {a b : Arr α} {s r : List Nat} {fa fb : List Nat → α} (ha : a.Denotes r fa)
    (hb : b.Denotes s fb) (h : BroadcastsTo s r) (hd : r.length ≤ 32)
    (h0 : 0 ∉ r) : Gives (some (strideFromShape r)) (op.arr a b) r (fun i => op.run (fa i) (fb (broadcastIndex s i))) :=
  (gives_bin op ha hb h.compatible.symm (h.joint.symm h.compatible) hd h0).congr fun i hi => by rw [broadcastIndex_self hi]

theorem gives_scalar (op : SOp) {a : Arr α} {s : List Nat} {fa : List Nat → α} (ha : a.Denotes s fa) (c : α)
    (hd : s.length ≤ 32) (h0 : 0 ∉ s) : Gives (some (strideFromShape s)) (op.arrScalar a c) s (fun i => op.run (fa i) c) := by
  unfold SOp.arrScalar
  rw [binOpScalar_eq (binLoops_correct _) 0 ha c hd (mt numel_eq_zero.1 h0), mapM_id_elements (fun _ _ => rfl)]
  exact gives_fresh _ _

theorem gives_neg {a : Arr α} {s : List Nat} {fa : List Nat → α} (ha : a.Denotes s fa) (hd : s.length ≤ 32) (h0 : 0 ∉ s) :
    Gives (some (strideFromShape s)) a.negA s (fun i => - fa i) := by
  unfold Arr.negA
  rw [neg_eq (negLoops_correct _) 0 ha hd (mt numel_eq_zero.1 h0), mapM_id_elements (fun _ _ => rfl)]
  exact gives_fresh _ _

omit [Build] in
theorem gives_one : Gives (some []) (Arr.scalar (1 : α)) [] (fun _ => 1) := gives_fresh [] fun _ => (1 : α)

omit [Build] in
theorem gives_sumAlong {a : Arr α} {s : List Nat} {f : List Nat → α} (ha : a.Denotes s f) (hd : s.length ≤ 32)
    {axes : List Int} {ks : List Nat} (hax : AxesAre axes s.length ks) (hnd : ks.Nodup) :
    Gives (some (strideFromShape (dropAxes ks s))) (a.sumAlong axes) (dropAxes ks s) (fun J => ((fibre ks s J).map f).sum) := by
  unfold Arr.sumAlong
  refine Gives.congr ⟨_, reduceAlong_eq _ ha hd hax hnd 0, ?_, denotes_fromContiguous⟩ fun J _ => foldOver_add f _
  exact ready_fresh (length_elements _ _)

/-! ### matrix products -/

omit [Build] in
theorem zeros_inv {s : List Nat} {z : Arr α} (h : Arr.zeros s = .ok z) :
    z = Arr.fromContiguousOwnedBuffer s (List.replicate (numel s) 0) := by
  obtain ⟨_, _, h⟩ := bind_eq_ok.1 h
  cases h; rfl

omit [Build] in
theorem ready_of_layout {s : List Nat} {data data' : List α} (hl : data.length = numel s) {f : List Nat → α}
    (h : ({ Arr.fromContiguousOwnedBuffer s data with buf := data' } : Arr α).Denotes s f) :
    ({ Arr.fromContiguousOwnedBuffer s data with buf := data' } : Arr α).Ready (some (strideFromShape s)) :=
  ⟨⟨h.valid, (Arr.WF.fromContiguous hl).flags, (Arr.WF.fromContiguous hl).pos, (Arr.WF.fromContiguous hl).len⟩, fun _ h => Option.some.inj h⟩

theorem gives_matmul {a b : Arr α} {m k n : Nat} {f g : List Nat → α} (ha : a.Denotes [m, k] f) (hb : b.Denotes [k, n] g)
    (hm : 0 < m) (hk : 0 < k) (hn : 0 < n) : Gives (some (strideFromShape [m, n])) (a.matmul sopLoops b) [m, n]
      (fun idx => innerProduct k (fun t => f [idx.getD 0 0, t]) (fun t => g [t, idx.getD 1 0])) := by
  obtain ⟨r, h1, h2⟩ := C30_matmul_partial sopLoops_correct ha hb hm hk hn
  refine ⟨r, h1, ?_, h2⟩
  simp only [Arr.matmul, ha.1, hb.1] at h1
  obtain ⟨_, _, h1⟩ := bind_eq_ok.1 h1
  obtain ⟨z, hz, h1⟩ := bind_eq_ok.1 h1
  obtain ⟨data, _, h1⟩ := bind_eq_ok.1 h1
  cases h1
  rw [zeros_inv hz] at h2 ⊢
  exact ready_of_layout (by simp) h2

theorem gives_matvec {a b : Arr α} {m k : Nat} {f g : List Nat → α} (ha : a.Denotes [m, k] f) (hb : b.Denotes [k] g) :
    Gives (some (strideFromShape [m])) (a.matmul sopLoops b) [m] (fun idx => innerProduct k (fun t => f [idx.getD 0 0, t]) (fun t => g [t])) := by
  rw [matmul_mat_vec_eq ha hb]
  refine (gives_fresh _ _).congr fun idx hi => ?_
  cases idx <;> rfl

omit [Build] in
theorem gives_dot {a b : Arr α} {n : Nat} {f g : List Nat → α} (ha : a.Denotes [n] f) (hb : b.Denotes [n] g) :
    Gives (some []) (a.dot b) [] (fun _ => innerProduct n (fun i => f [i]) (fun i => g [i])) := by
  obtain ⟨r, h1, h2⟩ := C32_dot ha hb
  refine ⟨r, h1, ?_, h2⟩
  obtain ⟨_, _, h1⟩ := bind_eq_ok.1 h1
  obtain ⟨_, _, h1⟩ := bind_eq_ok.1 h1
  obtain ⟨_, _, h1⟩ := bind_eq_ok.1 h1
  obtain ⟨z, hz, h1⟩ := bind_eq_ok.1 h1
  obtain ⟨_, _, h1⟩ := bind_eq_ok.1 h1
  obtain ⟨_, _, h1⟩ := bind_eq_ok.1 h1
  obtain ⟨_, _, h1⟩ := bind_eq_ok.1 h1
  cases h1
  obtain rfl : Arr.fromContiguousOwnedBuffer [] [0] = z := by cases hz; rfl
  exact ready_of_layout rfl h2

theorem gives_bmm {a b : Arr α} {B m k n : Nat} {f g : List Nat → α} (ha : a.Denotes [B, m, k] f) (hb : b.Denotes [B, k, n] g)
    (hB : 0 < B) (hm : 0 < m) (hk : 0 < k) (hn : 0 < n) : Gives (some (strideFromShape [B, m, n])) (a.bmm sopLoops b) [B, m, n] (fun idx =>
      innerProduct k (fun t => f [idx.getD 0 0, idx.getD 1 0, t]) (fun t => g [idx.getD 0 0, t, idx.getD 2 0])) := by
  obtain ⟨r, h1, h2⟩ := C31_bmm_partial sopLoops_correct ha hb hB hm hk hn
  refine ⟨r, h1, ?_, h2⟩
  obtain ⟨_, _, h1⟩ := bind_eq_ok.1 h1
  obtain ⟨_, _, h1⟩ := bind_eq_ok.1 h1
  obtain ⟨_, _, h1⟩ := bind_eq_ok.1 h1
  obtain ⟨m', hm', h1⟩ := bind_eq_ok.1 h1
  obtain ⟨n', hn', h1⟩ := bind_eq_ok.1 h1
  obtain ⟨z, hz, h1⟩ := bind_eq_ok.1 h1
  obtain ⟨_, _, h1⟩ := bind_eq_ok.1 h1
  cases h1
  have hz' := zeros_inv hz
  have hs : [a.lenMethod, m', n'] = [B, m, n] := by
    have := h2.1
    rw [hz'] at this
    exact this
  rw [hs] at hz'
  rw [hz'] at h2 ⊢
  exact ready_of_layout (by simp) h2

end

/-! ### views -/

theorem gives_transpose {a : Arr α} (hw : a.WF) {s : List Nat} {f : List Nat → α} (ha : a.Denotes s f) {ax1 ax2 : Int}
    {i j : Nat} (h1 : AxisIs ax1 s.length i) (h2 : AxisIs ax2 s.length j) :
    Gives (some (exchange i j a.stride)) (a.transpose ax1 ax2) (exchange i j s) (fun idx => f (exchange i j idx)) := by
  obtain ⟨⟨r, e, _, d⟩, _⟩ := C14_transpose ha h1 h2
  refine ⟨r, e, ?_, d⟩
  obtain ⟨l, hl, e⟩ := bind_eq_ok.1 e
  cases e
  refine ⟨(wf_transpose hw hl).1, fun d hd => ?_⟩
  rw [← ha.1] at h1 h2
  rw [(transpose_reindexes hw.valid.1 h1 h2).1] at hl
  cases hl
  exact Option.some.inj hd

theorem gives_unsqueeze {a : Arr α} (hw : a.WF) {s : List Nat} {f : List Nat → α} (ha : a.Denotes s f) {axis : Int}
    {k : Nat} (hk : AxisIs axis (s.length + 1) k) :
    Gives none (a.unsqueeze axis) (s.insertIdx k 1) (fun idx => f (idx.eraseIdx k)) := by
  obtain ⟨⟨r, e, _, d⟩, _⟩ := C15_unsqueeze ha hk
  refine ⟨r, e, ?_, d⟩
  obtain ⟨l, hl, e⟩ := bind_eq_ok.1 e
  cases e
  exact (wf_unsqueeze hw hl).1.ready

theorem hasUniformStride_scale (s : List Nat) (e : Nat) :
    ∃ e', hasUniformStride s ((strideFromShape s).map (· * e)) = some e' := by
  induction s with
  | nil => exact ⟨_, rfl⟩
  | cons n s ih =>
    cases s with
    | nil => exact ⟨_, rfl⟩
    | cons m s =>
      obtain ⟨e', he⟩ := ih
      refine ⟨e', ?_⟩
      rw [← he]
      have h1 : strideFromShape (n :: m :: s) = numel (m :: s) :: strideFromShape (m :: s) := strideFromShape_cons _ _
      have h2 : strideFromShape (m :: s) = numel s :: strideFromShape s := strideFromShape_cons _ _
      rw [h1, h2, List.map_cons, List.map_cons]
      show (if numel (m :: s) * e ≠ 0 ∧ numel (m :: s) * e ≠ m * (numel s * e) then none else _) = _
      rw [if_neg]
      rintro ⟨_, h⟩
      exact h (by show m * numel s * e = _; ring)

theorem updateFlags_uniform (fl : Flags) (s st : List Nat) :
    (updateFlagsWithContiguity fl s st).uniformStride = (hasUniformStride s st).isSome := by
  unfold updateFlagsWithContiguity
  cases hasUniformStride s st <;> rfl

theorem hasUniformStride_fresh {s : List Nat} (hs : s ≠ []) : hasUniformStride s (strideFromShape s) = some 1 := by
  induction s with
  | nil => exact absurd rfl hs
  | cons n s ih =>
    cases s with
    | nil => rfl
    | cons m s =>
      rw [← ih (by simp)]
      have h1 : strideFromShape (n :: m :: s) = numel (m :: s) :: strideFromShape (m :: s) := strideFromShape_cons _ _
      have h2 : strideFromShape (m :: s) = numel s :: strideFromShape s := strideFromShape_cons _ _
      rw [h1, h2]
      show (if numel (m :: s) ≠ 0 ∧ numel (m :: s) ≠ m * numel s then none else _) = _
      rw [if_neg]
      rintro ⟨_, h⟩
      exact h rfl

/-- The strides of a view with shape `ns` of an array with shape `s` and strides `d`. -/
def viewStride (s ns d : List Nat) : List Nat :=
  if ns = s then d else (strideFromShape ns).map (· * (hasUniformStride s d).getD 0)

theorem viewStride_fresh {s ns : List Nat} (hs : ns = s ∨ s ≠ []) : viewStride s ns (strideFromShape s) = strideFromShape ns := by
  unfold viewStride
  split
  · subst ns; rfl
  · rename_i h
    rw [hasUniformStride_fresh (hs.resolve_left h)]
    simp

/-- Arrays with shape `s` and strides `d` can be viewed with shape `ns`, given that the numbers of elements agree. -/
def CanView (s ns d : List Nat) : Prop := ns = s ∨ ((hasUniformStride s d).isSome = true ∧ s ≠ [])

/-- `reshape` panics or gives the tensor with the same row-major elements. -/
theorem gives_reshape {a : Arr α} (hw : a.WF) {s ns : List Nat} {f : List Nat → α} (ha : a.Denotes s f) :
    ((a.reshape ns = .error .panic ∧ a.intoReshape ns = .error .panic) ∧ ¬ (numel ns = numel s ∧ CanView s ns a.stride)) ∨
    ((numel ns = numel s ∧ CanView s ns a.stride) ∧
      Gives (some (viewStride s ns a.stride)) (a.reshape ns) ns (fun idx => f (unrank s (rank idx ns))) ∧
      Gives (some (viewStride s ns a.stride)) (a.intoReshape ns) ns (fun idx => f (unrank s (rank idx ns)))) := by
  have hl := hw.valid.1
  have hs := ha.1
  subst hs
  have hsame : ∀ l, a.reshapeLayout ns = .ok l →
      (a.reshapedView l.1 l.2).WF ∧ (a.intoReshapedView l.1 l.2).WF := fun l h => wf_reshape hw h
  cases h : a.reshapeLayout ns with
  | error e =>
    left
    have hno : ¬ ∃ r, a.reshape ns = .ok r := by
      rintro ⟨r, hr⟩
      unfold Arr.reshape at hr; rw [h] at hr; cases hr
    have he : e = .panic := by
      rcases (C13_reshape_accepts a ns hl).2 with hr | hr
      · exact absurd hr hno
      · unfold Arr.reshape at hr; rw [h] at hr; cases hr; rfl
    subst he
    refine ⟨?_, ?_⟩
    · unfold Arr.reshape Arr.intoReshape
      rw [h]; exact ⟨rfl, rfl⟩
    · rintro ⟨hn, hn' | ⟨hu, hne⟩⟩
      · exact hno ((C13_reshape_accepts a ns hl).1.2 (.inl hn'))
      · exact hno ((C13_reshape_accepts a ns hl).1.2 (.inr ⟨by rw [Arr.isUniformlyStrided, hw.flags.1]; exact hu, hn, hne⟩))
  | ok l =>
    right
    obtain ⟨w1, w2⟩ := hsame l h
    have key : (numel ns = numel a.shape ∧ CanView a.shape ns a.stride) ∧ l.1 = ns ∧
        (a.reshapedView l.1 l.2).Reindexes a (fun idx => unrank a.shape (rank idx ns)) ∧
        l.2 = viewStride a.shape ns a.stride := by
      rcases reshapeLayout_ok h with ⟨h1, h2⟩ | ⟨h1, hu, hn, hne⟩
      · subst h1
        subst h2
        have hu : ∀ idx, InB idx a.shape → unrank a.shape (rank idx a.shape) = idx := fun idx hi => unrank_rank hi
        refine ⟨⟨rfl, .inl rfl⟩, rfl, ⟨rfl, hl, fun idx hi => by rw [hu idx hi]; exact hi,
          fun idx hi => by rw [hu idx hi]; rfl⟩, ?_⟩
        unfold viewStride
        rw [if_pos rfl]
      · obtain ⟨e, he⟩ := hw.flags.uniform hu
        have hne' : a.shape ≠ [] := by
          intro h0; rw [h0] at hl; exact hne (List.length_eq_zero_iff.1 hl)
        obtain ⟨st, e1, e2, e3, _⟩ := reshape_reindexes hl hw.pos.good he hu hn hne'
        rw [h] at e1
        cases e1
        refine ⟨⟨hn, .inr ⟨by rw [he]; rfl, hne'⟩⟩, rfl, e2, ?_⟩
        unfold viewStride
        rw [if_neg h1, he]
        exact e3 h1
    obtain ⟨k1, k2, k3, k4⟩ := key
    have d1 := k3.denotes ha
    have d2 := (into_reindexes k3).denotes ha
    have e1 : (a.reshapedView l.1 l.2).shape = ns := k2
    have e2 : (a.intoReshapedView l.1 l.2).shape = ns := k2
    rw [e1] at d1
    rw [e2] at d2
    have hst : ∀ d, some (viewStride a.shape ns a.stride) = some d → l.2 = d := fun d hd => k4.trans (Option.some.inj hd)
    refine ⟨k1, ⟨_, ?_, ⟨w1, hst⟩, d1⟩, ⟨_, ?_, ⟨w2, hst⟩, d2⟩⟩
    · unfold Arr.reshape; rw [h]; rfl
    · unfold Arr.intoReshape; rw [h]; rfl

end Verif
