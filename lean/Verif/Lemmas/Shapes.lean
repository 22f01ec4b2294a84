import Verif.Spec.Shapes
import Verif.Lemmas.Session

/-! Whether the operations of a tensor program are accepted, from the shapes of their operands. -/

namespace Verif

section arr
variable {α : Type} [Zero α]

theorem view_shape {a : Arr α} (hw : a.WF) (op : SView) :
    (∃ r, op.HasShape (a.isUniformlyStrided = true) a.shape r ∧ (∃ q, op.arr a = .ok q ∧ q.shape = r) ∧
      ∃ q, op.intoArr a a = .ok q ∧ q.shape = r) ∨
    ((∀ r, ¬ op.HasShape (a.isUniformlyStrided = true) a.shape r) ∧ op.arr a = .error .panic ∧ op.intoArr a a = .error .panic) := by
  let : Inhabited α := ⟨0⟩
  obtain ⟨f, ha⟩ : ∃ f, a.Denotes a.shape f := ⟨_, hw.valid.denotes⟩
  rcases gives_viewOp hw ha op with ⟨h1, h2⟩ | ⟨ho, ⟨q, e, _, d⟩, ⟨q', e', _, d'⟩⟩
  · refine .inr ⟨fun r hr => ?_, h1, h2⟩
    cases op with
    | view => cases h1
    | squeeze => cases h1
    | reshape ns =>
      have := (C13_reshape_accepts a ns hw.valid.1).1.2 (by
        rcases hr.2 with h | ⟨h, h', h''⟩
        · exact .inl h
        · exact .inr ⟨h'', h, h'⟩)
      obtain ⟨_, e⟩ := this
      rw [show a.reshape ns = _ from h1] at e; cases e
    | unsqueeze ax =>
      obtain ⟨k, hk, _⟩ := hr
      obtain ⟨⟨_, e, _⟩, _⟩ := C15_unsqueeze ha hk
      rw [show a.unsqueeze ax = _ from h1] at e; cases e
    | transpose ax1 ax2 =>
      obtain ⟨i, j, hi, hj, _⟩ := hr
      obtain ⟨⟨_, e, _⟩, _⟩ := C14_transpose ha hi hj
      rw [show a.transpose ax1 ax2 = _ from h1] at e; cases e
  · refine .inl ⟨_, ?_, ⟨q, e, d.1⟩, ⟨q', e', d'.1⟩⟩
    cases op with
    | view => rfl
    | squeeze => rfl
    | reshape ns =>
      refine ⟨rfl, ?_⟩
      rcases (C13_reshape_accepts a ns hw.valid.1).1.1 ⟨q, e⟩ with h | ⟨h, h', h''⟩
      · exact .inl h
      · exact .inr ⟨h', h'', h⟩
    | unsqueeze ax =>
      obtain ⟨k, hk⟩ := ho
      exact ⟨k, hk, by simp only [SView.out, axisNat_of hk]⟩
    | transpose ax1 ax2 =>
      obtain ⟨⟨i, hi⟩, ⟨j, hj⟩⟩ := ho
      exact ⟨i, j, hi, hj, by simp only [SView.out, axisNat_of hi, axisNat_of hj]⟩

theorem AxisIs.eq {ax : Int} {n i j : Nat} (h : AxisIs ax n i) (h' : AxisIs ax n j) : i = j := by
  rw [← axisNat_of h, axisNat_of h']

theorem SView.HasShape.unique {op : SView} {e e' : Prop} {s r r' : List Nat} (h : op.HasShape e s r) (h' : op.HasShape e' s r') : r = r' := by
  cases op with
  | view => exact Eq.trans h h'.symm
  | squeeze => exact Eq.trans h h'.symm
  | reshape ns => exact h.1.trans h'.1.symm
  | unsqueeze ax =>
    obtain ⟨k, h1, rfl⟩ := h
    obtain ⟨k', h2, rfl⟩ := h'
    rw [h1.eq h2]
  | transpose ax1 ax2 =>
    obtain ⟨i, j, h1, h2, rfl⟩ := h
    obtain ⟨i', j', h3, h4, rfl⟩ := h'
    rw [h1.eq h3, h2.eq h4]

omit [Zero α] in
theorem Instr.HasShape.unique {x : Instr α} {e e' : Nat → Prop} {Γ : List (List Nat)} {r r' : List Nat} (h : x.HasShape e Γ r)
    (h' : x.HasShape e' Γ r') : r = r' := by
  cases x with
  | leaf s data => exact h.2.trans h'.2.symm
  | setReq i b => exact Option.some.inj (Eq.trans (Eq.symm h) h')
  | neg i => exact Option.some.inj (Eq.trans (Eq.symm h) h')
  | scal op i c => exact Option.some.inj (Eq.trans (Eq.symm h) h')
  | bin op i j =>
    obtain ⟨s, t, h1, h2, _, h3⟩ := h
    obtain ⟨s', t', h1', h2', _, h3'⟩ := h'
    rw [h1] at h1'; rw [h2] at h2'
    cases h1'; cases h2'
    exact h3.unique h3'
  | dot i j =>
    obtain ⟨_, _, _, rfl⟩ := h
    obtain ⟨_, _, _, rfl⟩ := h'
    rfl
  | matmul i j =>
    rcases h with ⟨n, h1, h2, rfl⟩ | ⟨m, k, h1, h2, rfl⟩ | ⟨m, k, n, h1, h2, rfl⟩ <;>
      rcases h' with ⟨n', h1', h2', rfl⟩ | ⟨m', k', h1', h2', rfl⟩ | ⟨m', k', n', h1', h2', rfl⟩ <;>
      rw [h1] at h1' <;> rw [h2] at h2' <;> simp_all
  | bmm i j =>
    obtain ⟨_, _, _, _, h1, h2, rfl⟩ := h
    obtain ⟨_, _, _, _, h1', h2', rfl⟩ := h'
    rw [h1] at h1'; rw [h2] at h2'
    cases h1'; cases h2'; rfl
  | view op i =>
    obtain ⟨s, h1, h2⟩ := h
    obtain ⟨s', h1', h2'⟩ := h'
    rw [h1] at h1'; cases h1'
    exact h2.unique h2'
  | into op b i =>
    obtain ⟨s, h1, h2⟩ := h
    obtain ⟨s', h1', h2'⟩ := h'
    rw [h1] at h1'; cases h1'
    exact h2.unique h2'

theorem SView.HasShape.mono {op : SView} {e e' : Prop} {s r : List Nat} (h : op.HasShape e s r) (he : e → e') : op.HasShape e' s r := by
  cases op with
  | reshape ns => exact ⟨h.1, h.2.imp id fun h => ⟨h.1, h.2.1, he h.2.2⟩⟩
  | _ => exact h

omit [Zero α] in
theorem Instr.HasShape.mono {x : Instr α} {e e' : Nat → Prop} {Γ : List (List Nat)} {r : List Nat} (h : x.HasShape e Γ r)
    (he : ∀ i, e i → e' i) : x.HasShape e' Γ r := by
  cases x with
  | view op i =>
    obtain ⟨s, h1, h2⟩ := h
    exact ⟨s, h1, h2.mono (he i)⟩
  | into op b i =>
    obtain ⟨s, h1, h2⟩ := h
    exact ⟨s, h1, h2.mono (he i)⟩
  | _ => exact h

/-! ### layouts -/

theorem squeeze_straight (s : List Nat) :
    (((s.zip (strideFromShape s)).filter fun p => p.1 != 1).unzip).2 = strideFromShape (((s.zip (strideFromShape s)).filter fun p => p.1 != 1).unzip).1 := by
  have key : ∀ s : List Nat, ((s.zip (strideFromShape s)).filter fun p => p.1 != 1).unzip = (s.filter (· ≠ 1), strideFromShape (s.filter (· ≠ 1))) := by
    intro s
    induction s with
    | nil => rfl
    | cons n s ih =>
      rw [strideFromShape_cons, List.zip_cons_cons, List.filter_cons, List.filter_cons]
      by_cases h : n = 1
      · subst h
        simpa using ih
      · have h1 : (n != 1) = true := by simpa using h
        simp only [h1, if_true, h, ne_eq, not_false_eq_true, decide_true, List.unzip_cons, strideFromShape_cons, numel_filter_one]
        have ih' := ih
        simp only [ne_eq] at ih'
        rw [ih']
  rw [key]

theorem strideFromShape_insertIdx (s : List Nat) : ∀ k, k ≤ s.length →
    strideFromShape (s.insertIdx k 1) = (strideFromShape s).insertIdx k (numel (s.drop k)) ∧ numel (s.insertIdx k 1) = numel s := by
  induction s with
  | nil =>
    intro k hk
    have : k = 0 := by simpa using hk
    subst this
    exact ⟨rfl, rfl⟩
  | cons n s ih =>
    intro k hk
    cases k with
    | zero => simp
    | succ k =>
      obtain ⟨h1, h2⟩ := ih k (by simpa using hk)
      simp [h1, h2]

theorem stride_mul_extent (s : List Nat) : ∀ (k d n : Nat), (strideFromShape s)[k]? = some d → s[k]? = some n → d * n = numel (s.drop k) := by
  induction s with
  | nil => intro k d n h; simp at h
  | cons m s ih =>
    intro k d n h1 h2
    cases k with
    | zero =>
      simp at h1 h2
      subst h1; subst h2
      simp [Nat.mul_comm]
    | succ k =>
      simp at h1 h2
      simpa using ih k d n h1 h2

omit [Zero α] in
theorem unsqueeze_straight {a : Arr α} {ax : Int} {l : List Nat × List Nat} (hs : a.stride = strideFromShape a.shape)
    (h : a.unsqueezeLayout ax = .ok l) : l.2 = strideFromShape l.1 := by
  unfold Arr.unsqueezeLayout at h
  obtain ⟨k, hk, h⟩ := bind_eq_ok.1 h
  split at h
  · cases h
    rename_i e
    have := (strideFromShape_insertIdx a.shape a.shape.length le_rfl).1
    rw [hs]
    simp only
    rw [List.insertIdx_length_self] at this
    rw [this]
    conv_rhs => rw [← length_strideFromShape a.shape, List.insertIdx_length_self, length_strideFromShape]
    simp
  · split at h
    · rename_i d n h1 h2
      cases h
      rw [hs] at h1
      have hlt := (List.getElem?_eq_some_iff.1 h2).1
      simp only [hs, (strideFromShape_insertIdx a.shape k hlt.le).1, stride_mul_extent _ _ _ _ h1 h2]
    · cases h

/-- `view`, `reshape`, `squeeze`, `unsqueeze` -/
def SView.keeps : SView → Bool
  | .transpose _ _ => false
  | _ => true

theorem arr_straight {a : Arr α} (hw : a.WF) (hs : a.stride = strideFromShape a.shape) {op : SView} (hop : op.keeps = true) {q : Arr α}
    (h : op.arr a = .ok q) : q.stride = strideFromShape q.shape := by
  cases op with
  | view => cases h; exact hs
  | squeeze =>
    cases h
    show a.squeezeLayout.2 = strideFromShape a.squeezeLayout.1
    unfold Arr.squeezeLayout
    rw [hs]
    exact squeeze_straight _
  | unsqueeze ax =>
    obtain ⟨l, hl, h⟩ := bind_eq_ok.1 h
    cases h
    exact unsqueeze_straight hs hl
  | transpose _ _ => cases hop
  | reshape ns =>
    obtain ⟨f, ha⟩ : ∃ f, a.Denotes a.shape f := (let : Inhabited α := ⟨0⟩; ⟨_, hw.valid.denotes⟩)
    rcases gives_reshape (ns := ns) hw ha with ⟨⟨e, _⟩, _⟩ | ⟨⟨_, hv⟩, ⟨r, e, hr, d⟩, _⟩
    · rw [show a.reshape ns = _ from h] at e; cases e
    · rw [show a.reshape ns = _ from h] at e; cases e
      rw [hr.strides _ rfl, d.1, hs, viewStride_fresh (hv.imp id And.right)]

omit [Zero α] in
theorem into_of_arr {a : Arr α} {op : SView} (hop : op.keeps = true) {q : Arr α} (h : op.arr a = .ok q) :
    op.intoArr a a = .ok (a.intoReshapedView q.shape q.stride) := by
  cases op with
  | view => cases h; rfl
  | squeeze => cases h; rfl
  | unsqueeze ax =>
    obtain ⟨l, hl, h⟩ := bind_eq_ok.1 h
    cases h
    show (a.unsqueezeLayout ax >>= _) = _
    rw [hl]; rfl
  | transpose _ _ => cases hop
  | reshape ns =>
    obtain ⟨l, hl, h⟩ := bind_eq_ok.1 h
    cases h
    show (if ns = a.shape then _ else _) = _
    split
    · rename_i e
      unfold Arr.reshapeLayout at hl
      rw [if_pos e] at hl
      cases hl; rfl
    · rw [hl]; rfl

theorem into_straight {a : Arr α} (hw : a.WF) (hs : a.stride = strideFromShape a.shape) {op : SView} (hop : op.keeps = true) {q : Arr α}
    (h : op.intoArr a a = .ok q) : q.stride = strideFromShape q.shape := by
  rcases view_shape hw op with ⟨r, _, ⟨q', e, _⟩, _⟩ | ⟨_, _, e⟩
  · have := arr_straight hw hs hop e
    rw [into_of_arr hop e] at h
    cases h
    exact this
  · rw [h] at e; cases e

/-- The consuming form on a copy. -/
theorem into_shape {a b : Arr α} (hw : a.WF) (hwb : b.WF) (hb : b.shape = a.shape) (op : SView) :
    (∃ q, op.HasShape (a.isUniformlyStrided = true) a.shape q.shape ∧ op.intoArr a b = .ok q) ∨
    ((∀ r, ¬ op.HasShape (a.isUniformlyStrided = true) a.shape r) ∧ op.intoArr a b = .error .panic) := by
  have key : ∀ (L : Res (List Nat × List Nat)), op.arr a = (L >>= fun l => .ok (a.reshapedView l.1 l.2)) →
      op.intoArr a b = (L >>= fun l => .ok (b.intoReshapedView l.1 l.2)) →
      (∃ q, op.HasShape (a.isUniformlyStrided = true) a.shape q.shape ∧ op.intoArr a b = .ok q) ∨
      ((∀ r, ¬ op.HasShape (a.isUniformlyStrided = true) a.shape r) ∧ op.intoArr a b = .error .panic) := by
    intro L h1 h2
    cases L with
    | ok l =>
      rcases view_shape hw op with ⟨r, hr, ⟨q, e, rfl⟩, _⟩ | ⟨_, e, _⟩
      · rw [h1] at e
        cases e
        exact .inl ⟨b.intoReshapedView l.1 l.2, hr, h2⟩
      · rw [h1] at e; cases e
    | error e' =>
      rcases view_shape hw op with ⟨r, hr, ⟨q, e, rfl⟩, _⟩ | ⟨hn, e, _⟩
      · rw [h1] at e; cases e
      · rw [h1] at e
        cases e
        exact .inr ⟨hn, h2⟩
  cases op with
  | view => exact .inl ⟨b.intoView, hb, rfl⟩
  | transpose ax1 ax2 =>
    rcases view_shape hwb (.transpose ax1 ax2) with ⟨r, hr, _, ⟨q, e, rfl⟩⟩ | ⟨hn, _, e⟩
    · rw [hb] at hr
      exact .inl ⟨q, hr, e⟩
    · rw [hb] at hn
      exact .inr ⟨hn, e⟩
  | squeeze => exact key (.ok a.squeezeLayout) rfl rfl
  | unsqueeze ax => exact key (a.unsqueezeLayout ax) rfl rfl
  | reshape ns =>
    by_cases h : ns = a.shape
    · exact .inl ⟨b.intoView, ⟨hb.trans h.symm, .inl h⟩, if_pos h⟩
    · exact key (a.reshapeLayout ns) rfl (if_neg h)

end arr

/-! ### one operation -/

section step
variable {α : Type} [Field α] [Build]

/-- The arrays of a state. -/
def RunState.arrs (σ : RunState α) : List (Arr α) := σ.env.map (·.arr)

theorem step_push {σ : RunState α} {x : Instr α} {u : Res (Tensor α)} {t : Tensor α} (h : σ.step x = σ.push u) (hu : u = .ok t)
    (hx : ∀ {γ : Type} (Γ : List γ) (r : γ), x.extend Γ r = Γ ++ [r]) :
    ∃ σ', σ.step x = .ok σ' ∧ σ'.arrs = x.extend σ.arrs t.arr :=
  ⟨⟨σ.env ++ [t], σ.store⟩, by rw [h, hu]; rfl, by rw [hx]; simp [RunState.arrs]⟩

omit [Field α] [Build] in
theorem joint_small {s t r : List Nat} (hj : IsJoint s t r) (hs : SmallShape s) (ht : SmallShape t) : SmallShape r := by
  refine ⟨fun h0 => ?_, by rw [hj.1]; exact max_le hs.2 ht.2⟩
  have key : ∀ {l : List Nat} {k : Nat}, 0 ∉ l → extentFromRight l k ≠ 0 := by
    intro l k hl h
    unfold extentFromRight at h
    rw [List.getD_eq_getElem?_getD] at h
    cases e : l.reverse[k]? with
    | none => rw [e] at h; cases h
    | some v =>
      rw [e] at h
      have : v ∈ l.reverse := List.mem_of_getElem? e
      simp at h
      subst h
      exact hl (List.mem_reverse.1 this)
  obtain ⟨k, hk, e⟩ := List.getElem_of_mem (List.mem_reverse.2 h0)
  have h1 : extentFromRight r k = 0 := by
    unfold extentFromRight
    rw [List.getD_eq_getElem?_getD, List.getElem?_eq_getElem hk, e]; rfl
  rw [hj.2 k] at h1
  split at h1
  · exact key ht.1 h1
  · exact key hs.1 h1

def RunState.shapes (σ : RunState α) : List (List Nat) := σ.arrs.map (·.shape)

/-- The elements of tensor `i` lie at equal distances. -/
def RunState.even (σ : RunState α) (i : Nat) : Prop := ∃ a, σ.arrs[i]? = some a ∧ a.isUniformlyStrided = true

omit [Build] in
theorem env_cases {σ : RunState α} (hw : ∀ a ∈ σ.arrs, a.WF) (hs : ∀ a ∈ σ.arrs, SmallShape a.shape) (i : Nat) :
    (getT σ.env i = .error .panic ∧ σ.shapes[i]? = none) ∨
    ∃ t F, σ.env[i]? = some t ∧ getT σ.env i = .ok t ∧ σ.shapes[i]? = some t.arr.shape ∧ σ.arrs[i]? = some t.arr ∧ t.arr.WF ∧
      SmallShape t.arr.shape ∧ t.arr.Denotes t.arr.shape F := by
  cases h : σ.env[i]? with
  | none => exact .inl ⟨by simp [getT, h], by simp [RunState.shapes, RunState.arrs, h]⟩
  | some t =>
    have ha : σ.arrs[i]? = some t.arr := by simp [RunState.arrs, h]
    have hm := List.mem_of_getElem? ha
    obtain ⟨F, hF⟩ := (hw _ hm).denotesD
    exact .inr ⟨t, F, rfl, by simp [getT, h], by simp [RunState.shapes, ha], ha, hw _ hm, hs _ hm, hF⟩

/-- What an operation does, given what its operands are. -/
def Outcome (σ : RunState α) (B : List Bool) (x : Instr α) : Prop :=
  (∃ q σ', x.HasShape σ.even σ.shapes q.shape ∧ σ.step x = .ok σ' ∧ σ'.arrs = x.extend σ.arrs q ∧
    (x.safe B = true → q.WF) ∧ (x.straight B = true → q.stride = strideFromShape q.shape)) ∨
  ((∀ r, ¬ x.HasShape σ.even σ.shapes r) ∧ σ.step x = .error .panic)

/-- An operation that makes a new array. -/
theorem outcome_gives {σ : RunState α} {B : List Bool} {x : Instr α} {u : Res (Arr α)} {req : Bool} {node : GradFn α} {r : List Nat}
    {f : List Nat → α} (hu : Gives (some (strideFromShape r)) u r f) (hr : x.HasShape σ.even σ.shapes r)
    (h : σ.step x = σ.push (u >>= fun a => .ok (.mk' a req node)))
    (hx : ∀ {γ : Type} (Γ : List γ) (r : γ), x.extend Γ r = Γ ++ [r]) : Outcome σ B x := by
  obtain ⟨q, e, hq, d⟩ := hu
  obtain ⟨σ', e1, e2⟩ := step_push (t := .mk' q req node) h (by rw [e]; rfl) hx
  exact .inl ⟨q, σ', by rw [d.1]; exact hr, e1, e2, fun _ => hq.wf, fun _ => by rw [hq.strides _ rfl, d.1]⟩

theorem step_bin_eq {σ : RunState α} {op : SOp} {i j : Nat} {a b : Tensor α} (ha : getT σ.env i = .ok a) (hb : getT σ.env j = .ok b) :
    σ.step (.bin op i j) = σ.push (Tensor.bin op a b) := by
  show (getT σ.env i >>= fun a => getT σ.env j >>= fun b => σ.push (Tensor.bin op a b)) = _
  rw [ha]
  show (getT σ.env j >>= fun b => σ.push (Tensor.bin op a b)) = _
  rw [hb]; rfl

theorem step_shape {σ : RunState α} {B : List Bool} (hw : ∀ a ∈ σ.arrs, a.WF) (hs : ∀ a ∈ σ.arrs, SmallShape a.shape)
    (hB : ∀ i a, B.getD i false = true → σ.arrs[i]? = some a → a.stride = strideFromShape a.shape) (x : Instr α) : Outcome σ B x := by
  have hpanic : ∀ u : Res (Tensor α), u = .error .panic → σ.push u = .error .panic := fun u h => by rw [h]; rfl
  cases x with
  | leaf s data =>
    by_cases h : data.length = numel s
    · have e : σ.step (.leaf s data) = σ.push (.ok (Tensor.fromContiguousOwnedBuffer s data)) := by
        show (assert _ >>= fun _ => _) = _
        rw [assert_ok (decide_eq_true h)]; rfl
      obtain ⟨σ', e1, e2⟩ := step_push e rfl (fun _ _ => rfl)
      exact .inl ⟨_, σ', ⟨h, rfl⟩, e1, e2, fun _ => Arr.WF.fromContiguous h, fun _ => rfl⟩
    · refine .inr ⟨fun r hr => h hr.1, ?_⟩
      show (assert _ >>= fun _ => _) = _
      rw [assert_fail (decide_eq_false h)]; rfl
  | setReq i b =>
    rcases env_cases hw hs i with ⟨e, hn⟩ | ⟨t, F, ht, e, hsh, hta, htw, hts, hF⟩
    · refine .inr ⟨fun r (hr : _ = _) => (by rw [hn] at hr; cases hr), ?_⟩
      show (getT σ.env i >>= fun _ => _) = _
      rw [e]; rfl
    · have key : ∃ t' st, t.setRequiresGrad b σ.store = .ok (t', st) ∧ t'.arr = t.arr := by
        unfold Tensor.setRequiresGrad
        split
        · obtain ⟨z, hz⟩ : ∃ z, Arr.zeros (α := α) t.arr.shape = .ok z := by
            have h : (!(List.replicate (numel t.arr.shape) (0 : α)).isEmpty) = true := by simpa using mt numel_eq_zero.1 hts.1
            refine ⟨Arr.fromContiguousOwnedBuffer t.arr.shape (List.replicate (numel t.arr.shape) 0), ?_⟩
            show (assert _ >>= fun _ => _) = _
            rw [assert_ok h]; rfl
          rw [hz]; exact ⟨_, _, rfl, rfl⟩
        · split
          · exact ⟨_, _, rfl, rfl⟩
          · exact ⟨_, _, rfl, rfl⟩
      obtain ⟨t', st, e', ea⟩ := key
      refine .inl ⟨t.arr, ⟨σ.env.set i t', st⟩, hsh, ?_, ?_, fun _ => htw, fun h => hB i _ h hta⟩
      · show (getT σ.env i >>= fun _ => _) = _
        rw [e]
        show (t.setRequiresGrad b σ.store >>= fun _ => _) = _
        rw [e']; rfl
      · show (σ.env.set i t').map (·.arr) = σ.env.map (·.arr)
        rw [List.map_set, ea]
        apply List.ext_getElem?
        intro j
        rw [List.getElem?_set]
        split
        · rename_i hij
          subst hij
          split
          · exact hta.symm
          · rename_i hlt
            have := (List.getElem?_eq_some_iff.1 ht).1
            simp at hlt; omega
        · rfl
  | neg i =>
    rcases env_cases hw hs i with ⟨e, hn⟩ | ⟨t, F, ht, e, hsh, hta, htw, hts, hF⟩
    · refine .inr ⟨fun r (hr : _ = _) => (by rw [hn] at hr; cases hr), ?_⟩
      show (getT σ.env i >>= fun _ => _) = _
      rw [e]; rfl
    · refine outcome_gives (req := t.requiresGrad) (node := .neg t.gradFn t.arr.shape) (gives_neg hF hts.2 hts.1) hsh ?_ (fun _ _ => rfl)
      show (getT σ.env i >>= fun _ => _) = _
      rw [e]; rfl
  | scal op i c =>
    rcases env_cases hw hs i with ⟨e, hn⟩ | ⟨t, F, ht, e, hsh, hta, htw, hts, hF⟩
    · refine .inr ⟨fun r (hr : _ = _) => (by rw [hn] at hr; cases hr), ?_⟩
      show (getT σ.env i >>= fun _ => _) = _
      rw [e]; rfl
    · refine outcome_gives (req := t.requiresGrad) (node := op.nodeScalar t c) (gives_scalar op hF c hts.2 hts.1) hsh ?_ (fun _ _ => rfl)
      show (getT σ.env i >>= fun _ => _) = _
      rw [e]; rfl
  | bin op i j =>
    rcases env_cases hw hs i with ⟨e, hn⟩ | ⟨t, F, ht, e, hsh, hta, htw, hts, hF⟩
    · refine .inr ⟨fun r hr => ?_, ?_⟩
      · obtain ⟨_, _, h, _⟩ := hr; rw [hn] at h; cases h
      · show (getT σ.env i >>= fun _ => _) = _
        rw [e]; rfl
    rcases env_cases hw hs j with ⟨e', hn⟩ | ⟨t', F', ht', e', hsh', hta', htw', hts', hF'⟩
    · refine .inr ⟨fun r hr => ?_, ?_⟩
      · obtain ⟨_, _, _, h, _⟩ := hr; rw [hn] at h; cases h
      · show (getT σ.env i >>= fun _ => getT σ.env j >>= fun _ => _) = _
        rw [e, e']; rfl
    have hstep : σ.step (.bin op i j) = σ.push (Tensor.bin op t t') := by
      show (getT σ.env i >>= fun _ => getT σ.env j >>= fun _ => _) = _
      rw [e, e']; rfl
    by_cases hc : Compatible t.arr.shape t'.arr.shape
    · have hj := isJoint_jointShape t.arr.shape t'.arr.shape
      have hsm := joint_small hj hts hts'
      exact outcome_gives (req := t.requiresGrad || t'.requiresGrad) (node := op.node t t') (gives_bin op hF hF' hc hj hsm.2 hsm.1)
        ⟨_, _, hsh, hsh', hc, hj⟩ hstep (fun _ _ => rfl)
    · refine .inr ⟨fun r ⟨s, u, h1, h2, h3, _⟩ => ?_, ?_⟩
      · rw [hsh] at h1; rw [hsh'] at h2
        cases h1; cases h2
        exact hc h3
      · rw [hstep]
        refine hpanic _ ?_
        unfold Tensor.bin SOp.arr
        rw [C05_incompatible _ _ _ hc]; rfl
  | dot i j =>
    rcases env_cases hw hs i with ⟨e, hn⟩ | ⟨t, F, ht, e, hsh, hta, htw, hts, hF⟩
    · refine .inr ⟨fun r hr => ?_, ?_⟩
      · obtain ⟨_, h, _⟩ := hr; rw [hn] at h; cases h
      · show (getT σ.env i >>= fun _ => _) = _
        rw [e]; rfl
    rcases env_cases hw hs j with ⟨e', hn⟩ | ⟨t', F', ht', e', hsh', hta', htw', hts', hF'⟩
    · refine .inr ⟨fun r hr => ?_, ?_⟩
      · obtain ⟨_, _, h, _⟩ := hr; rw [hn] at h; cases h
      · show (getT σ.env i >>= fun _ => getT σ.env j >>= fun _ => _) = _
        rw [e, e']; rfl
    have hstep : σ.step (.dot i j) = σ.push (t.dot t') := by
      show (getT σ.env i >>= fun _ => getT σ.env j >>= fun _ => _) = _
      rw [e, e']; rfl
    by_cases hc : t.arr.shape.length ≠ 1 ∨ t'.arr.shape.length ≠ 1 ∨ t.arr.shape ≠ t'.arr.shape
    · refine .inr ⟨fun r ⟨n, h1, h2, _⟩ => ?_, ?_⟩
      · rw [hsh] at h1; rw [hsh'] at h2
        rw [Option.some.inj h1, Option.some.inj h2] at hc
        simp at hc
      · rw [hstep]
        refine hpanic _ ?_
        unfold Tensor.dot
        rw [C32_dot_rejects hc]; rfl
    · push Not at hc
      obtain ⟨n, hn⟩ := List.length_eq_one_iff.1 hc.1
      have hn' := hc.2.2.symm.trans hn
      rw [hn] at hF hsh
      rw [hn'] at hF' hsh'
      exact outcome_gives (req := t.requiresGrad || t'.requiresGrad) (node := .dot t.gradFn t'.gradFn t.arr t'.arr) (r := []) (gives_dot hF hF')
        ⟨n, hsh, hsh', rfl⟩ hstep (fun _ _ => rfl)
  | matmul i j =>
    rcases env_cases hw hs i with ⟨e, hn⟩ | ⟨t, F, ht, e, hsh, hta, htw, hts, hF⟩
    · refine .inr ⟨fun r hr => ?_, ?_⟩
      · rcases hr with ⟨_, h, _⟩ | ⟨_, _, h, _⟩ | ⟨_, _, _, h, _⟩ <;> · rw [hn] at h; cases h
      · show (getT σ.env i >>= fun _ => _) = _
        rw [e]; rfl
    rcases env_cases hw hs j with ⟨e', hn⟩ | ⟨t', F', ht', e', hsh', hta', htw', hts', hF'⟩
    · refine .inr ⟨fun r hr => ?_, ?_⟩
      · rcases hr with ⟨_, _, h, _⟩ | ⟨_, _, _, h, _⟩ | ⟨_, _, _, _, h, _⟩ <;> · rw [hn] at h; cases h
      · show (getT σ.env i >>= fun _ => getT σ.env j >>= fun _ => _) = _
        rw [e, e']; rfl
    have hstep : σ.step (.matmul i j) = σ.push (t.matmul t') := by
      show (getT σ.env i >>= fun _ => getT σ.env j >>= fun _ => _) = _
      rw [e, e']; rfl
    by_cases hc : ¬ ((t.arr.shape.length = 1 ∧ t'.arr.shape.length = 1) ∨ (t.arr.shape.length = 2 ∧ t'.arr.shape.length = 1) ∨
        (t.arr.shape.length = 2 ∧ t'.arr.shape.length = 2)) ∨ t.arr.shape.getLast? ≠ t'.arr.shape.head?
    · refine .inr ⟨fun r hr => ?_, ?_⟩
      · rcases hr with ⟨n, h1, h2, _⟩ | ⟨m, k, h1, h2, _⟩ | ⟨m, k, n, h1, h2, _⟩ <;>
        · rw [hsh] at h1; rw [hsh'] at h2
          rw [Option.some.inj h1, Option.some.inj h2] at hc
          simp at hc
      · rw [hstep]
        refine hpanic _ ?_
        unfold Tensor.matmul
        split
        · rename_i h
          unfold Tensor.dot
          rw [C32_dot_rejects]
          · rfl
          · right; right
            intro he
            rcases hc with hc | hc
            · exact hc (.inl h)
            · obtain ⟨n, hn⟩ := List.length_eq_one_iff.1 (show t.arr.shape.length = 1 from h.1)
              rw [← he, hn] at hc
              exact hc rfl
        · rw [C30_matmul_rejects hc]; rfl
    · push Not at hc
      obtain ⟨hc | hc | hc, hk⟩ := hc
      · obtain ⟨n, h1⟩ := List.length_eq_one_iff.1 hc.1
        obtain ⟨n', h2⟩ := List.length_eq_one_iff.1 hc.2
        rw [h1, h2] at hk
        have : n = n' := by simpa using hk
        subst this
        rw [h1] at hF hsh
        rw [h2] at hF' hsh'
        refine outcome_gives (req := t.requiresGrad || t'.requiresGrad) (node := .dot t.gradFn t'.gradFn t.arr t'.arr) (r := []) (gives_dot hF hF')
          (.inl ⟨n, hsh, hsh', rfl⟩) (hstep.trans ?_) (fun _ _ => rfl)
        unfold Tensor.matmul
        rw [if_pos (show t.arr.ndims = 1 ∧ t'.arr.ndims = 1 from hc)]; rfl
      · obtain ⟨m, k, h1⟩ := List.length_eq_two.1 hc.1
        obtain ⟨n', h2⟩ := List.length_eq_one_iff.1 hc.2
        rw [h1, h2] at hk
        have : k = n' := by simpa using hk
        subst this
        rw [h1] at hF hsh
        rw [h2] at hF' hsh'
        refine outcome_gives (req := t.requiresGrad || t'.requiresGrad) (node := .matVec t.gradFn t'.gradFn t.arr t'.arr) (r := [m]) (gives_matvec hF hF')
          (.inr (.inl ⟨m, k, hsh, hsh', rfl⟩)) (hstep.trans ?_) (fun _ _ => rfl)
        unfold Tensor.matmul
        rw [if_neg (by rw [Arr.ndims, h1]; simp)]
        simp only [Arr.ndims, h1, h2]
        rfl
      · obtain ⟨m, k, h1⟩ := List.length_eq_two.1 hc.1
        obtain ⟨k', n, h2⟩ := List.length_eq_two.1 hc.2
        rw [h1, h2] at hk
        have : k = k' := by simpa using hk
        subst this
        rw [h1] at hF hsh hts
        rw [h2] at hF' hsh' hts'
        have p1 := hts.1
        have p2 := hts'.1
        simp only [List.mem_cons, List.not_mem_nil, or_false, not_or] at p1 p2
        refine outcome_gives (req := t.requiresGrad || t'.requiresGrad) (node := .matMul t.gradFn t'.gradFn t.arr t'.arr) (r := [m, n])
          (gives_matmul hF hF' (by omega) (by omega) (by omega))
          (.inr (.inr ⟨m, k, n, hsh, hsh', rfl⟩)) (hstep.trans ?_) (fun _ _ => rfl)
        unfold Tensor.matmul
        rw [if_neg (by rw [Arr.ndims, h1]; simp)]
        simp only [Arr.ndims, h1, h2]
        rfl
  | bmm i j =>
    rcases env_cases hw hs i with ⟨e, hn⟩ | ⟨t, F, ht, e, hsh, hta, htw, hts, hF⟩
    · refine .inr ⟨fun r hr => ?_, ?_⟩
      · obtain ⟨_, _, _, _, h, _⟩ := hr; rw [hn] at h; cases h
      · show (getT σ.env i >>= fun _ => _) = _
        rw [e]; rfl
    rcases env_cases hw hs j with ⟨e', hn⟩ | ⟨t', F', ht', e', hsh', hta', htw', hts', hF'⟩
    · refine .inr ⟨fun r hr => ?_, ?_⟩
      · obtain ⟨_, _, _, _, _, h, _⟩ := hr; rw [hn] at h; cases h
      · show (getT σ.env i >>= fun _ => getT σ.env j >>= fun _ => _) = _
        rw [e, e']; rfl
    have hstep : σ.step (.bmm i j) = σ.push (t.bmm t') := by
      show (getT σ.env i >>= fun _ => getT σ.env j >>= fun _ => _) = _
      rw [e, e']; rfl
    by_cases hc : t.arr.shape.length ≠ 3 ∨ t'.arr.shape.length ≠ 3 ∨ t.arr.shape[0]? ≠ t'.arr.shape[0]? ∨ t.arr.shape[2]? ≠ t'.arr.shape[1]?
    · refine .inr ⟨fun r ⟨b, m, k, n, h1, h2, _⟩ => ?_, ?_⟩
      · rw [hsh] at h1; rw [hsh'] at h2
        rw [Option.some.inj h1, Option.some.inj h2] at hc
        simp at hc
      · rw [hstep]
        refine hpanic _ ?_
        unfold Tensor.bmm
        rw [C31_bmm_rejects htw.valid.1 htw'.valid.1 hts.1 hts'.1 hc]; rfl
    · push Not at hc
      obtain ⟨c1, c2, c3, c4⟩ := hc
      obtain ⟨b, m, k, h1⟩ := List.length_eq_three.1 c1
      obtain ⟨b', k', n, h2⟩ := List.length_eq_three.1 c2
      rw [h1, h2] at c3 c4
      have e1 : b = b' := by simpa using c3
      have e2 : k = k' := by simpa using c4
      subst e1; subst e2
      rw [h1] at hF hsh hts
      rw [h2] at hF' hsh' hts'
      have p1 := hts.1
      have p2 := hts'.1
      simp only [List.mem_cons, List.not_mem_nil, or_false, not_or] at p1 p2
      exact outcome_gives (req := t.requiresGrad || t'.requiresGrad) (node := .bmm t.gradFn t'.gradFn t.arr t'.arr) (r := [b, m, n])
        (gives_bmm hF hF' (by omega) (by omega) (by omega) (by omega)) ⟨b, m, k, n, hsh, hsh', rfl⟩ hstep (fun _ _ => rfl)
  | view op i =>
    rcases env_cases hw hs i with ⟨e, hn⟩ | ⟨t, F, ht, e, hsh, hta, htw, hts, hF⟩
    · refine .inr ⟨fun r ⟨s, hr, _⟩ => (by rw [hn] at hr; cases hr), ?_⟩
      show (getT σ.env i >>= fun _ => _) = _
      rw [e]; rfl
    have hstep : σ.step (.view op i) = σ.push (t.viewOp op) := by
      show (getT σ.env i >>= fun _ => _) = _
      rw [e]; rfl
    have hev : σ.even i = (t.arr.isUniformlyStrided = true) := by
      unfold RunState.even
      rw [hta]
      exact propext ⟨fun ⟨a, h, h'⟩ => Option.some.inj h ▸ h', fun h => ⟨_, rfl, h⟩⟩
    rcases view_shape htw op with ⟨r, hr, ⟨q, eq, rfl⟩, _⟩ | ⟨hno, ep, _⟩
    · obtain ⟨σ', e1, e2⟩ := step_push (t := .mk' q t.requiresGrad (op.node t)) hstep (by unfold Tensor.viewOp; rw [eq]; rfl) (fun _ _ => rfl)
      refine .inl ⟨q, σ', ⟨_, hsh, by rw [hev]; exact hr⟩, e1, e2, fun _ => ?_, fun h => ?_⟩
      · rcases gives_viewOp htw hF op with ⟨h, _⟩ | ⟨_, ⟨q', e', w, _⟩, _⟩
        · rw [eq] at h; cases h
        · rw [eq] at e'; cases e'
          exact w.wf
      · cases op with
        | transpose _ _ => cases h
        | _ => exact arr_straight htw (hB i _ h hta) rfl eq
    · refine .inr ⟨fun r ⟨s, h1, h2⟩ => ?_, ?_⟩
      · rw [hsh] at h1
        cases h1
        rw [hev] at h2
        exact hno r h2
      · rw [hstep]
        refine hpanic _ ?_
        unfold Tensor.viewOp
        rw [ep]; rfl
  | into op b i =>
    rcases env_cases hw hs i with ⟨e, hn⟩ | ⟨t, F, ht, e, hsh, hta, htw, hts, hF⟩
    · refine .inr ⟨fun r ⟨s, hr, _⟩ => (by rw [hn] at hr; cases hr), ?_⟩
      show (getT σ.env i >>= fun _ => _) = _
      rw [e]; rfl
    have hstep : σ.step (.into op b i) = σ.push (t.intoViewOp b op) := by
      show (getT σ.env i >>= fun _ => _) = _
      rw [e]; rfl
    have hev : σ.even i = (t.arr.isUniformlyStrided = true) := by
      unfold RunState.even
      rw [hta]
      exact propext ⟨fun ⟨a, h, h'⟩ => Option.some.inj h ▸ h', fun h => ⟨_, rfl, h⟩⟩
    obtain ⟨c, ec, hcw, hcs, hst⟩ : ∃ c, t.intoNdarray b = .ok c ∧ c.WF ∧ c.shape = t.arr.shape ∧
        (c = t.arr ∨ b = true ∧ c.stride = strideFromShape c.shape) := by
      unfold Tensor.intoNdarray
      cases b with
      | false => exact ⟨_, rfl, htw, rfl, .inl rfl⟩
      | true =>
        refine ⟨Arr.fromContiguousOwnedBuffer t.arr.shape (elements t.arr.shape F), ?_, Arr.WF.fromContiguous (length_elements _ _), rfl, .inr ⟨rfl, rfl⟩⟩
        simp only [if_true]
        unfold Arr.clone
        rw [cloneData_ok hF htw.cloneOK htw.flags hts.2]; rfl
    have hsame : (.into op b i : Instr α).safe B = true → op.intoArr t.arr c = op.intoArr c c := by
      intro h
      rcases hst with rfl | ⟨rfl, hst⟩
      · rfl
      · cases op with
        | view => rfl
        | transpose _ _ => rfl
        | _ => exact intoArr_congr hcs (by rw [hst, hcs, hB i _ h hta]) htw hcw _
    rcases into_shape htw hcw hcs op with ⟨q, hr, eq⟩ | ⟨hno, ep⟩
    · obtain ⟨σ', e1, e2⟩ := step_push (t := .mk' q t.requiresGrad (op.node t)) hstep (by unfold Tensor.intoViewOp; rw [ec]; show (op.intoArr t.arr c >>= _) = _; rw [eq]; rfl) (fun _ _ => rfl)
      refine .inl ⟨q, σ', ⟨_, hsh, by rw [hev]; exact hr⟩, e1, e2, fun h => ?_, fun h => ?_⟩
      · rw [hsame h] at eq
        obtain ⟨F', hF'⟩ := hcw.denotesD
        rcases gives_viewOp hcw hF' op with ⟨_, h⟩ | ⟨_, _, ⟨q', e', w, _⟩⟩
        · rw [eq] at h; cases h
        · rw [eq] at e'; cases e'
          exact w.wf
      · have hk : op.keeps = true := by
          cases op with
          | transpose _ _ => cases h
          | _ => rfl
        have hg : B.getD i false = true := by
          cases op with
          | transpose _ _ => cases h
          | _ => exact h
        have hcst : c.stride = strideFromShape c.shape := by
          rcases hst with rfl | ⟨_, h⟩
          · exact hB i _ hg hta
          · exact h
        rw [intoArr_congr hcs (by rw [hcst, hcs, hB i _ hg hta]) htw hcw] at eq
        exact into_straight hcw hcst hk eq
    · refine .inr ⟨fun r ⟨s, h1, h2⟩ => ?_, ?_⟩
      · rw [hsh] at h1
        cases h1
        rw [hev] at h2
        exact hno r h2
      · rw [hstep]
        refine hpanic _ ?_
        unfold Tensor.intoViewOp
        rw [ec]
        show (op.intoArr t.arr c >>= _) = _
        rw [ep]; rfl

end step

end Verif
