import Verif.Lemmas.ReduceGradient

/-! # Every backward node computes the adjoint of its operation -/

namespace Verif

variable {α : Type} [Field α] [Build]

/-- The accumulators have the given shapes. -/
def StoreOK (sh : List (List Nat)) (st : Store α) : Prop :=
  st.length = sh.length ∧ ∀ (k : Nat) (a : Arr α), st[k]? = some a → Fresh a ∧ sh[k]? = some a.shape

/-- The step from `st` to `st'` adds `D k` to accumulator `k`. -/
def Adds (sh : List (List Nat)) (st st' : Store α) (D : Nat → List Nat → α) : Prop :=
  StoreOK sh st' ∧ ∀ (k : Nat) (a : Arr α), st[k]? = some a → ∃ (a' : Arr α) (F : List Nat → α), st'[k]? = some a' ∧ a.Denotes a.shape F ∧
    a'.Denotes a.shape (fun i => F i + D k i)

/-- `Σ_k Σ_idx D k idx * v k idx` -/
def total (sh : List (List Nat)) (D v : Nat → List Nat → α) : α :=
  ∑ k ∈ Finset.range sh.length, pair (sh.getD k []) (D k) (v k)

omit [Build] in
theorem total_zero (sh : List (List Nat)) (v : Nat → List Nat → α) : total sh (fun _ _ => 0) v = 0 :=
  Finset.sum_eq_zero fun _ _ => pair_zero_left _ fun _ _ => rfl

omit [Build] in
theorem total_add (sh : List (List Nat)) (D D' v : Nat → List Nat → α) :
    total sh (fun k i => D k i + D' k i) v = total sh D v + total sh D' v := by
  unfold total
  simp only [pair_add_left, Finset.sum_add_distrib]

omit [Build] in
theorem StoreOK.denotes {sh : List (List Nat)} {st : Store α} (h : StoreOK sh st) {k : Nat} {a : Arr α} (hk : st[k]? = some a) :
    ∃ F, a.Denotes a.shape F := by
  obtain ⟨⟨s, data, hl, rfl⟩, _⟩ := h.2 k a hk
  exact ⟨_, denotes_fromContiguous_getD hl 0⟩

omit [Build] in
theorem Adds.refl {sh : List (List Nat)} {st : Store α} (h : StoreOK sh st) : Adds sh st st (fun _ _ => 0) := by
  refine ⟨h, fun k a hk => ?_⟩
  obtain ⟨F, hF⟩ := h.denotes hk
  exact ⟨a, F, hk, hF, hF.congr fun i _ => (add_zero _).symm⟩

omit [Build] in
theorem denotes_unique {a : Arr α} {s : List Nat} {f g : List Nat → α} (hf : a.Denotes s f) (hg : a.Denotes s g)
    {i : List Nat} (hi : InB i s) : f i = g i := by
  have h1 := hf.2.2 i hi
  have h2 := hg.2.2 i hi
  rw [h1] at h2
  exact Option.some.inj h2

omit [Build] in
theorem Adds.trans {sh : List (List Nat)} {st st' st'' : Store α} {D D' : Nat → List Nat → α} (h : Adds sh st st' D)
    (h' : Adds sh st' st'' D') : Adds sh st st'' (fun k i => D k i + D' k i) := by
  refine ⟨h'.1, fun k a hk => ?_⟩
  obtain ⟨a', F, h1, h2, h3⟩ := h.2 k a hk
  obtain ⟨a'', F', h4, h5, h6⟩ := h'.2 k a' h1
  have hs : a'.shape = a.shape := h3.1
  rw [hs] at h5 h6
  refine ⟨a'', F, h4, h2, h6.congr fun i hi => ?_⟩
  rw [denotes_unique h5 h3 hi, add_assoc]

/-- Exactly when the backward pass of `gf`, given a gradient with shape `s` and strides `d`, does not panic: wherever
a gradient is passed on, it can be reduced to the operand's shape, and viewed with it if the operation was a reshape. The
gradient keeps its strides under `add` and on the left of `sub` unless it is reduced; transposing exchanges them; all
other operations produce new arrays. -/
def Safe : GradFn α → List Nat → List Nat → Prop
  | .none, _, _ => True
  | .acc _, _, _ => True
  | .add l r ls rs, s, d => ((l.isNone = false → CanReduce ls s) ∧ Safe l ls (fitStride d ls s)) ∧
      (r.isNone = false → CanReduce rs s) ∧ Safe r rs (fitStride d rs s)
  | .sub l r ls rs, s, d => ((l.isNone = false → CanReduce ls s) ∧ Safe l ls (fitStride d ls s)) ∧
      (r.isNone = false → CanReduce rs s) ∧ Safe r rs (strideFromShape rs)
  | .mul l r a b, s, _ => ((l.isNone = false → CanReduce a.shape s) ∧ Safe l a.shape (strideFromShape a.shape)) ∧
      (r.isNone = false → CanReduce b.shape s) ∧ Safe r b.shape (strideFromShape b.shape)
  | .mulScalar n _ _, s, _ => Safe n s (strideFromShape s)
  | .div l r a b, s, _ => ((l.isNone = false → CanReduce a.shape s) ∧ Safe l a.shape (strideFromShape a.shape)) ∧
      (r.isNone = false → CanReduce b.shape s) ∧ Safe r b.shape (strideFromShape b.shape)
  | .divScalar n _ _, s, _ => Safe n s (strideFromShape s)
  | .neg n _, s, _ => Safe n s (strideFromShape s)
  | .dot l r a b, _, _ => Safe l a.shape (strideFromShape a.shape) ∧ Safe r b.shape (strideFromShape b.shape)
  | .matVec l r a b, _, _ => Safe l a.shape (strideFromShape a.shape) ∧ Safe r b.shape (strideFromShape b.shape)
  | .matMul l r a b, _, _ => Safe l a.shape (strideFromShape a.shape) ∧ Safe r b.shape (strideFromShape b.shape)
  | .bmm l r a b, _, _ => Safe l a.shape (strideFromShape a.shape) ∧ Safe r b.shape (strideFromShape b.shape)
  | .reshape n shape, s, d => (n.isNone = false → CanView s shape d) ∧ Safe n shape (viewStride s shape d)
  | .transpose n ax1 ax2, s, d => Safe n (exchange (axisNat ax1 s.length) (axisNat ax2 s.length) s)
      (exchange (axisNat ax1 s.length) (axisNat ax2 s.length) d)

omit [Field α] [Build] in
theorem safe_none {n : GradFn α} (h : n.isNone = true) (s d : List Nat) : Safe n s d := by
  cases n <;> first | trivial | cases h

/-- The outcome of (a part of) a backward pass that receives the gradient `G` of a tensor with shape `s` whose elements
move as `e v` when the variables move as `v`, whatever the accumulators contain: it panics (exactly when not `safe`), or
it adds to the accumulators increments `D` with `Σ G * e v = Σ D * v`. -/
def CallOK (sh : List (List Nat)) (x : Store α → Res (Store α)) (s : List Nat) (G : List Nat → α)
    (e : (Nat → List Nat → α) → List Nat → α) (safe : Prop) : Prop :=
  ((∀ st, StoreOK sh st → x st = .error .panic) ∧ ¬ safe) ∨
    (safe ∧ ∃ D, (∀ st, StoreOK sh st → ∃ st', x st = .ok st' ∧ Adds sh st st' D) ∧ ∀ v, pair s G (e v) = total sh D v)

/-- `gf` propagates gradients of a tensor of shape `s` whose elements move as `e v` when the variables move as `v`. -/
structure Diff (sh₀ : List (List Nat)) (gf : GradFn α) (s : List Nat) (e : (Nat → List Nat → α) → List Nat → α) : Prop where
  adj : ∀ (sh : List (List Nat)), sh₀ <+: sh → ∀ (u : List Nat) (g : Arr α) (G : List Nat → α), g.Ready (some u) →
    g.Denotes s G → CallOK sh (backward gf ⟨g, none⟩) s G e (Safe gf s u)
  zero : gf.isNone = true → ∀ v i, InB i s → e v i = 0

theorem Diff.mono {sh₀ sh₁ : List (List Nat)} {gf : GradFn α} {s : List Nat} {e : (Nat → List Nat → α) → List Nat → α}
    (h : Diff sh₀ gf s e) (hp : sh₀ <+: sh₁) : Diff sh₁ gf s e :=
  ⟨fun sh hs => h.adj sh (hp.trans hs), h.zero⟩

theorem Diff.congr {sh₀ : List (List Nat)} {gf : GradFn α} {s : List Nat} {e e' : (Nat → List Nat → α) → List Nat → α}
    (h : Diff sh₀ gf s e) (he : ∀ v i, InB i s → e v i = e' v i) : Diff sh₀ gf s e' := by
  refine ⟨fun sh hs u g G hw hg => ?_, fun hn v i hi => by rw [← he v i hi, h.zero hn v i hi]⟩
  rcases h.adj sh hs u g G hw hg with hp | ⟨h1, D, h2, h3⟩
  · exact .inl hp
  · exact .inr ⟨h1, D, h2, fun v => by rw [← h3 v]; exact pair_congr (fun _ _ => rfl) fun i hi => (he v i hi).symm⟩

/-- A tensor that requires no gradient. -/
theorem diff_none (sh₀ : List (List Nat)) (s : List Nat) {e : (Nat → List Nat → α) → List Nat → α}
    (he : ∀ v i, InB i s → e v i = 0) : Diff sh₀ GradFn.none s e :=
  ⟨fun sh _ _ g G _ _ => .inr ⟨trivial, _, fun st hst => ⟨st, rfl, Adds.refl hst⟩, fun v => by
    rw [total_zero, pair_zero_right G (he v)]⟩, fun _ => he⟩

theorem callNext_ok {sh₀ sh : List (List Nat)} (hp : sh₀ <+: sh) {n : GradFn α} {s : List Nat}
    {e : (Nat → List Nat → α) → List Nat → α} (h : Diff sh₀ n s e) {grad : Store α → Res (GradArr α)} {G : List Nat → α}
    {u : List Nat} {P : Prop}
    (hg : ((∀ st, grad st = .error .panic) ∧ ¬ P) ∨ (P ∧ ∃ g', (∀ st, grad st = .ok ⟨g', none⟩) ∧ g'.Ready (some u) ∧ g'.Denotes s G)) :
    CallOK sh (fun st => callNext n.isNone st (grad st) fun g => backward n g st) s G e ((n.isNone = false → P) ∧ Safe n s u) := by
  unfold callNext
  by_cases hn : n.isNone = true
  · simp only [if_pos hn]
    exact .inr ⟨⟨fun h => (by rw [hn] at h; cases h), safe_none hn _ _⟩, _, fun st hst => ⟨st, rfl, Adds.refl hst⟩,
      fun v => by rw [total_zero, pair_zero_right G (h.zero hn v)]⟩
  · simp only [if_neg hn]
    have hn' : n.isNone = false := by simpa using hn
    rcases hg with ⟨hg, hs⟩ | ⟨hP, g', hg, hw, hd⟩
    · simp only [hg]; exact .inl ⟨fun _ _ => rfl, fun h => hs (h.1 hn')⟩
    · simp only [hg]
      rcases h.adj sh hp u g' G hw hd with ⟨h1, h2⟩ | ⟨h1, h'⟩
      · exact .inl ⟨h1, fun h => h2 h.2⟩
      · exact .inr ⟨⟨fun _ => hP, h1⟩, h'⟩

omit [Build] in
theorem CallOK.iff {sh : List (List Nat)} {x : Store α → Res (Store α)} {s : List Nat}
    {G : List Nat → α} {e : (Nat → List Nat → α) → List Nat → α} {P Q : Prop} (hx : CallOK sh x s G e P) (hPQ : P ↔ Q) :
    CallOK sh x s G e Q := by
  rwa [CallOK, ← hPQ]

/-- A gradient computed without reduction. -/
theorem callNext_fresh {sh₀ sh : List (List Nat)} (hp : sh₀ <+: sh) {n : GradFn α} {s : List Nat}
    {e : (Nat → List Nat → α) → List Nat → α} (h : Diff sh₀ n s e) {x : Res (Arr α)} {G : List Nat → α}
    (hg : Gives (some (strideFromShape s)) x s G) :
    CallOK sh (fun st => callNext n.isNone st (fresh x) fun g => backward n g st) s G e (Safe n s (strideFromShape s)) := by
  obtain ⟨g, e1, w, d⟩ := hg
  exact (callNext_ok (grad := fun _ => fresh x) hp h (P := True)
    (.inr ⟨trivial, g, fun _ => by rw [e1]; rfl, w, d⟩)).iff ⟨fun h => h.2, fun h => ⟨fun _ => trivial, h⟩⟩

omit [Build] in
theorem CallOK.two {sh : List (List Nat)} {x y : Store α → Res (Store α)} {s t r : List Nat}
    {Gs Gt G : List Nat → α} {es et e : (Nat → List Nat → α) → List Nat → α} {P Q : Prop} (hx : CallOK sh x s Gs es P)
    (hy : CallOK sh y t Gt et Q)
    (hsum : ∀ v, pair r G (e v) = pair s Gs (es v) + pair t Gt (et v)) : CallOK sh (fun st => x st >>= y) r G e (P ∧ Q) := by
  rcases hx with ⟨hx, hs⟩ | ⟨hP, D, hx, hv⟩
  · exact .inl ⟨fun st hst => by show (x st >>= y) = _; rw [hx st hst]; rfl, fun h => hs h.1⟩
  · rcases hy with ⟨hy, hs⟩ | ⟨hQ, D', hy, hv'⟩
    · refine .inl ⟨fun st hst => ?_, fun h => hs h.2⟩
      obtain ⟨st', e1, ha⟩ := hx st hst
      show (x st >>= y) = _
      rw [e1]
      exact hy st' ha.1
    · refine .inr ⟨⟨hP, hQ⟩, _, fun st hst => ?_, fun v => by rw [hsum v, hv v, hv' v, ← total_add]⟩
      obtain ⟨st', e1, ha⟩ := hx st hst
      obtain ⟨st'', e2, ha'⟩ := hy st' ha.1
      exact ⟨st'', by show (x st >>= y) = _; rw [e1]; exact e2, ha.trans ha'⟩

omit [Build] in
theorem CallOK.one {sh : List (List Nat)} {x : Store α → Res (Store α)} {s r : List Nat}
    {Gs G : List Nat → α} {es e : (Nat → List Nat → α) → List Nat → α} {P Q : Prop} (hx : CallOK sh x s Gs es P)
    (hsum : ∀ v, pair r G (e v) = pair s Gs (es v)) (hPQ : Q ↔ P) : CallOK sh x r G e Q := by
  rcases hx with ⟨hx, hs⟩ | ⟨hP, D, hx, hv⟩
  · exact .inl ⟨hx, fun h => hs (hPQ.1 h)⟩
  · exact .inr ⟨hPQ.2 hP, D, hx, fun v => by rw [hsum v, hv v]⟩

omit [Build] in
theorem total_acc {sh : List (List Nat)} {k : Nat} {s : List Nat} (hks : sh[k]? = some s) (G : List Nat → α) (v : Nat → List Nat → α) :
    pair s G (v k) = total sh (fun j => if j = k then G else fun _ => 0) v := by
  unfold total
  rw [Finset.sum_eq_single k]
  · simp [List.getD_eq_getElem?_getD, hks]
  · intro j _ hj
    show pair _ (if j = k then G else fun _ => 0) _ = 0
    rw [if_neg hj]
    exact pair_zero_left _ fun _ _ => rfl
  · intro h; exact absurd (Finset.mem_range.2 (List.getElem?_eq_some_iff.1 hks).1) h

/-- A requiring leaf: accumulator `k`. -/
theorem diff_acc {sh₀ : List (List Nat)} {k : Nat} {s : List Nat} (hk : sh₀[k]? = some s) (hd : s.length ≤ 32) (h0 : 0 ∉ s) :
    Diff (α := α) sh₀ (.acc k) s (fun v => v k) := by
  refine ⟨fun sh hs u g G hw hg => ?_, fun h => by cases h⟩
  have hks : sh[k]? = some s := by
    obtain ⟨u, rfl⟩ := hs
    rw [List.getElem?_append_left (List.getElem?_eq_some_iff.1 hk).1]; exact hk
  have hlt : k < sh.length := (List.getElem?_eq_some_iff.1 hks).1
  refine .inr ⟨trivial, fun j => if j = k then G else fun _ => 0, fun st hst => ?_, fun v => ?_⟩
  case refine_2 => exact total_acc hks G v
  obtain ⟨a, ha⟩ : ∃ a, st[k]? = some a := ⟨_, List.getElem?_eq_getElem (by rw [hst.1]; exact hlt)⟩
  obtain ⟨hfr, hsh⟩ := hst.2 k a ha
  have hshape : a.shape = s := by rw [hks] at hsh; exact (Option.some.inj hsh).symm
  obtain ⟨F, hF⟩ := hst.denotes ha
  have hgs := hg
  rw [← hshape] at hgs
  obtain ⟨s', data, hl, rfl⟩ := hfr
  obtain rfl : s' = s := hshape
  obtain ⟨buf, e1, e2, e3, _⟩ := assign_of_correct (binLoops_correct fun x y : α => x + y) ⟨s', data, hl, rfl⟩ .refl rfl rfl hF hgs
    (BroadcastsTo.refl _) (show s'.length ≤ 32 from hd) (mt numel_eq_zero.1 h0) (h := fun i => F i + G i)
    (fun i hi => by rw [broadcastIndex_self hi])
  have hb : backward (.acc k) ⟨g, none⟩ st =
      .ok (st.set k { Arr.fromContiguousOwnedBuffer s' data with buf := buf }) := by
    show accumulate k ⟨g, none⟩ st = _
    unfold accumulate
    rw [ha]
    have hass : assume (decide ((Arr.fromContiguousOwnedBuffer s' data).shape = g.shape)) = .ok () := by
      unfold assume
      rw [if_pos (decide_eq_true hgs.1.symm)]
    show (assume (decide ((Arr.fromContiguousOwnedBuffer s' data).shape = g.shape)) >>= fun _ => _) = _
    rw [hass]
    show (Arr.opAssign (fun x y => .ok (x + y)) (binLoops fun x y => x + y) false (Arr.fromContiguousOwnedBuffer s' data) g >>= fun _ => _) = _
    rw [e1]
    rfl
  have hfresh : ({ Arr.fromContiguousOwnedBuffer s' data with buf := buf } : Arr α) = Arr.fromContiguousOwnedBuffer s' buf := by
    have : buf.length = data.length := e3
    simp [Arr.fromContiguousOwnedBuffer, this]
  refine ⟨_, hb, ⟨⟨by rw [List.length_set, hst.1], fun j b hb => ?_⟩, fun j b hb => ?_⟩⟩
  · rw [List.getElem?_set] at hb
    by_cases hjk : k = j
    · subst hjk
      simp only [if_true] at hb
      rw [hst.1, if_pos hlt] at hb
      cases hb
      exact ⟨⟨s', buf, by rw [show buf.length = data.length from e3, hl], hfresh⟩, hks⟩
    · rw [if_neg hjk] at hb
      exact hst.2 j b hb
  · by_cases hjk : k = j
    · subst hjk
      rw [ha] at hb
      cases hb
      refine ⟨_, F, by rw [List.getElem?_set]; simp [hst.1, hlt], hF, e2.congr fun i _ => by simp⟩
    · obtain ⟨F', hF'⟩ := hst.denotes hb
      refine ⟨b, F', by rw [List.getElem?_set, if_neg hjk]; exact hb, hF', hF'.congr fun i _ => ?_⟩
      show F' i = F' i + (if j = k then G else fun _ => 0) i
      rw [if_neg (Ne.symm hjk), add_zero]

end Verif
