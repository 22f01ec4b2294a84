import Verif.Lemmas.Backward

/-! # The nodes of the backward graph, one by one -/

namespace Verif

variable {α : Type} [Field α] [Build]

omit [Build] in
theorem pair_split {r : List Nat} {f g f' g' f'' g'' : List Nat → α}
    (h : ∀ i, InB i r → f i * g i = f' i * g' i + f'' i * g'' i) : pair r f g = pair r f' g' + pair r f'' g'' := by
  simp only [pair_eq]
  rw [← Finset.sum_add_distrib]
  exact Finset.sum_congr rfl fun i hi => h i (mem_indices.1 (List.mem_toFinset.1 hi))

omit [Build] in
theorem pair_same {r : List Nat} {f g f' g' : List Nat → α} (h : ∀ i, InB i r → f i * g i = f' i * g' i) :
    pair r f g = pair r f' g' := by
  simp only [pair_eq]
  exact Finset.sum_congr rfl fun i hi => h i (mem_indices.1 (List.mem_toFinset.1 hi))

section
variable {sh₀ : List (List Nat)} {l r n : GradFn α} {s t o : List Nat} {el er : (Nat → List Nat → α) → List Nat → α}

theorem diff_add (hl : Diff sh₀ l s el) (hr : Diff sh₀ r t er) (hs : BroadcastsTo s o) (ht : BroadcastsTo t o)
    (h0 : 0 ∉ o) (hd : o.length ≤ 32) :
    Diff sh₀ (.add l r s t) o fun v i => el v (broadcastIndex s i) + er v (broadcastIndex t i) := by
  refine ⟨fun sh hp u g G hw hg => ?_, fun h => by cases h⟩
  refine CallOK.two (callNext_ok hp hl (fit_ok hw hg hs h0 hd))
    (callNext_ok hp hr (fit_ok hw hg ht h0 hd)) fun v => ?_
  rw [pair_add_right, pair_broadcast hs, pair_broadcast ht]

theorem diff_sub (hl : Diff sh₀ l s el) (hr : Diff sh₀ r t er) (hs : BroadcastsTo s o) (ht : BroadcastsTo t o)
    (h0 : 0 ∉ o) (hd : o.length ≤ 32) :
    Diff sh₀ (.sub l r s t) o fun v i => el v (broadcastIndex s i) - er v (broadcastIndex t i) := by
  refine ⟨fun sh hp u g G hw hg => ?_, fun h => by cases h⟩
  refine CallOK.two (callNext_ok hp hl (fit_ok hw hg hs h0 hd))
    (callNext_ok hp hr (freshFit_ok (gives_neg hg hd h0) ht h0 hd)) fun v => ?_
  rw [← pair_broadcast hs, ← pair_broadcast ht]
  exact pair_split fun i _ => by ring

theorem diff_mul (hl : Diff sh₀ l s el) (hr : Diff sh₀ r t er) {a b : Arr α} {fa fb : List Nat → α} (ha : a.Denotes s fa)
    (hb : b.Denotes t fb) (hs : BroadcastsTo s o) (ht : BroadcastsTo t o) (h0 : 0 ∉ o) (hd : o.length ≤ 32) :
    Diff sh₀ (.mul l r a b) o fun v i =>
      fa (broadcastIndex s i) * er v (broadcastIndex t i) + el v (broadcastIndex s i) * fb (broadcastIndex t i) := by
  refine ⟨fun sh hp u g G hw hg => ?_, fun h => by cases h⟩
  have hsa := ha.1
  have hsb := hb.1
  subst hsa hsb
  refine CallOK.two (callNext_ok hp hl (freshFit_ok (gives_left .mul hb hg ht hd h0) hs h0 hd))
    (callNext_ok hp hr (freshFit_ok (gives_left .mul ha hg hs hd h0) ht h0 hd)) fun v => ?_
  rw [← pair_broadcast hs, ← pair_broadcast ht]
  exact pair_split fun i _ => by simp only [SOp.run]; ring

theorem gives_divRightOnly {g a b : Arr α} {G fa fb : List Nat → α} (hg : g.Denotes o G) (ha : a.Denotes s fa)
    (hb : b.Denotes t fb) (hs : BroadcastsTo s o) (ht : BroadcastsTo t o) (hd : o.length ≤ 32)
    (h0 : 0 ∉ o) : Gives (some (strideFromShape o)) (divRightOnly g a b) o (fun i =>
      G i * -fa (broadcastIndex s i) / (fb (broadcastIndex t i) * fb (broadcastIndex t i))) := by
  have hds : s.length ≤ 32 := hs.1.trans hd
  have hdt : t.length ≤ 32 := ht.1.trans hd
  refine (gives_neg ha hds (hs.nonzero h0)).bind fun na _ hna => ?_
  refine (gives_right .mul hg hna hs hd h0).bind fun n _ hn => ?_
  refine (gives_right .mul hb hb (BroadcastsTo.refl t) hdt (ht.nonzero h0)).bind fun d _ hdd => ?_
  refine (gives_right .div hn hdd ht hd h0).congr fun i hi => ?_
  rw [broadcastIndex_self (InB_broadcastIndex ht hi)]
  rfl

theorem gives_divLeft {g b : Arr α} {G fb : List Nat → α} (hg : g.Denotes o G)
    (hb : b.Denotes t fb) (ht : BroadcastsTo t o) (hd : o.length ≤ 32)
    (h0 : 0 ∉ o) : Gives (some (strideFromShape o)) (divLeft g b) o (fun i => G i * (1 / fb (broadcastIndex t i))) := by
  refine gives_one.bind fun one _ ho => ?_
  refine (gives_left .div ho hb (BroadcastsTo.nil t) (ht.1.trans hd) (ht.nonzero h0)).bind fun inv _ hi => ?_
  exact gives_right .mul hg hi ht hd h0

theorem gives_divRight {g a b : Arr α} {G fa fb : List Nat → α} (hg : g.Denotes o G) (ha : a.Denotes s fa)
    (hb : b.Denotes t fb) (hs : BroadcastsTo s o) (ht : BroadcastsTo t o) (hd : o.length ≤ 32)
    (h0 : 0 ∉ o) : Gives (some (strideFromShape o)) (divRight g a b) o (fun i => G i / fb (broadcastIndex t i) * -fa (broadcastIndex s i)) := by
  refine (gives_right .div hg hb ht hd h0).bind fun q _ hq => ?_
  refine (gives_neg ha (hs.1.trans hd) (hs.nonzero h0)).bind fun na _ hna => ?_
  exact gives_right .mul hq hna hs hd h0

omit [Build] in
theorem div_self_mul (x : α) : x / (x * x) = 1 / x := by
  by_cases h : x = 0
  · simp [h]
  · rw [div_mul_eq_div_div, div_self h]

theorem diff_div (hl : Diff sh₀ l s el) (hr : Diff sh₀ r t er) {a b : Arr α} {fa fb : List Nat → α} (ha : a.Denotes s fa)
    (hb : b.Denotes t fb) (hs : BroadcastsTo s o) (ht : BroadcastsTo t o) (h0 : 0 ∉ o) (hd : o.length ≤ 32) :
    Diff sh₀ (.div l r a b) o fun v i =>
      (el v (broadcastIndex s i) * fb (broadcastIndex t i) - fa (broadcastIndex s i) * er v (broadcastIndex t i)) /
        (fb (broadcastIndex t i) * fb (broadcastIndex t i)) := by
  refine ⟨fun sh hp u g G hw hg => ?_, fun h => by cases h⟩
  have hsa := ha.1
  have hsb := hb.1
  subst hsa hsb
  show CallOK sh (fun st => backward (.div l r a b) ⟨g, none⟩ st) _ _ _ _
  unfold backward
  by_cases hn : l.isNone = true
  · simp only [if_pos hn]
    refine CallOK.one (callNext_ok hp hr (freshFit_ok (gives_divRightOnly hg ha hb hs ht hd h0) ht h0 hd))
      (fun v => ?_) ⟨fun h => h.2, fun h => ⟨⟨fun h => (by rw [hn] at h; cases h), safe_none hn _ _⟩, h⟩⟩
    rw [← pair_broadcast ht]
    refine pair_same fun i hi => ?_
    rw [hl.zero hn v _ (InB_broadcastIndex hs hi)]
    ring
  · simp only [if_neg hn]
    obtain ⟨lg, e1, w1, d1⟩ := gives_divLeft hg hb ht hd h0
    show CallOK sh (fun st => divLeft g b >>= fun lg => (callNext l.isNone st (fit ⟨lg, .none⟩ st a.shape) fun g => backward l g st) >>=
      fun st => callNext r.isNone st (freshFit (divRight lg a b) st b.shape) fun g => backward r g st) _ _ _ _
    rw [e1]
    refine CallOK.two (callNext_ok hp hl (fitStride_fresh a.shape o ▸ fit_ok w1 d1 hs h0 hd))
      (callNext_ok hp hr (freshFit_ok (gives_divRight d1 ha hb hs ht hd h0) ht h0 hd)) fun v => ?_
    rw [← pair_broadcast hs, ← pair_broadcast ht]
    refine pair_split fun i _ => ?_
    rw [← div_self_mul]
    generalize fb (broadcastIndex b.shape i) = x
    have := div_self_mul x
    rw [sub_div, mul_div_assoc]
    have h2 : ∀ y : α, G i * (x / (x * x)) / x * -y = - (G i * y / (x * x)) := by
      intro y
      rw [this]; ring
    rw [h2]; ring

/-- The gradient of an operation that keeps the shape. -/
theorem callNext_same {sh : List (List Nat)} (hp : sh₀ <+: sh) (h : Diff sh₀ n s el) {x : Res (Arr α)} {G : List Nat → α}
    (hg : Gives (some (strideFromShape s)) x s G) :
    CallOK sh (fun st => callNext n.isNone st (freshFit x st s) fun g => backward n g st) s G el (Safe n s (strideFromShape s)) := by
  obtain ⟨g, e1, w, d⟩ := hg
  have : ∀ st, freshFit x st s = .ok ⟨g, none⟩ := by
    intro st
    unfold freshFit
    rw [e1]
    show fit ⟨g, none⟩ st s = _
    unfold fit
    rw [if_pos d.1.symm]
  exact (callNext_ok hp h (P := True) (.inr ⟨trivial, g, this, w, d⟩)).iff ⟨fun h => h.2, fun h => ⟨fun _ => trivial, h⟩⟩

theorem diff_mulScalar (h : Diff sh₀ n s el) (c : α) (hd : s.length ≤ 32) (h0 : 0 ∉ s) :
    Diff sh₀ (.mulScalar n s c) s fun v i => el v i * c := by
  refine ⟨fun sh hp u g G hw hg => ?_, fun h => by cases h⟩
  refine CallOK.one (callNext_same hp h (gives_scalar .mul hg c hd h0)) (fun v => ?_) Iff.rfl
  exact pair_same fun i _ => by simp only [SOp.run]; ring

theorem diff_divScalar (h : Diff sh₀ n s el) (c : α) (hd : s.length ≤ 32) (h0 : 0 ∉ s) :
    Diff sh₀ (.divScalar n s (1 / c)) s fun v i => el v i / c := by
  refine ⟨fun sh hp u g G hw hg => ?_, fun h => by cases h⟩
  obtain ⟨g', e1, w, d⟩ := gives_scalar .mul hg (1 / c) hd h0
  show CallOK sh (fun st => SOp.mul.arrScalar g (1 / c) >>= fun g' => callNext n.isNone st (fit ⟨g', .none⟩ st s) fun g => backward n g st) _ _ _ _
  rw [e1]
  refine CallOK.one (callNext_same hp h ⟨g', rfl, w, d⟩) (fun v => ?_) Iff.rfl
  exact pair_same fun i _ => by simp only [SOp.run]; ring

theorem diff_neg (h : Diff sh₀ n s el) (hd : s.length ≤ 32) (h0 : 0 ∉ s) : Diff sh₀ (.neg n s) s fun v i => - el v i := by
  refine ⟨fun sh hp u g G hw hg => ?_, fun h => by cases h⟩
  refine CallOK.one (callNext_same hp h (gives_neg hg hd h0)) (fun v => ?_) Iff.rfl
  exact pair_same fun i _ => by ring

end

/-! ### products -/

section
variable {sh₀ : List (List Nat)} {l r : GradFn α} {el er : (Nat → List Nat → α) → List Nat → α}

omit [Build] in
theorem broadcastIndex_nil (i : List Nat) : broadcastIndex [] i = [] := by
  unfold broadcastIndex clamp
  rfl

theorem diff_dot {k : Nat} (hl : Diff sh₀ l [k] el) (hr : Diff sh₀ r [k] er) {a b : Arr α} {fa fb : List Nat → α}
    (ha : a.Denotes [k] fa) (hb : b.Denotes [k] fb) (hk : 0 < k) :
    Diff sh₀ (.dot l r a b) [] fun v _ => ∑ t ∈ Finset.range k, (fa [t] * er v [t] + el v [t] * fb [t]) := by
  refine ⟨fun sh hp u g G hw hg => ?_, fun h => by cases h⟩
  have h1 : (1 : Nat) ≤ 32 := by decide
  have h0 : 0 ∉ [k] := by simp; omega
  refine CallOK.one (CallOK.two (callNext_fresh hp hl (gives_right .mul hb hg (BroadcastsTo.nil _) h1 h0))
    (callNext_fresh hp hr (gives_right .mul ha hg (BroadcastsTo.nil _) h1 h0)) fun v => ?_) (fun _ => rfl) ?_
  · simp only [pair_nil, pair1, broadcastIndex_nil, SOp.run, Finset.mul_sum]
    rw [← Finset.sum_add_distrib]
    exact Finset.sum_congr rfl fun i _ => by ring
  · simp only [Safe]
    rw [ha.1, hb.1]

theorem gives_matVecLeft {m k : Nat} {g v : Arr α} (hw : g.WF) {G fb : List Nat → α} (hg : g.Denotes [m] G) (hv : v.Denotes [k] fb)
    (hm : 0 < m) (hk : 0 < k) : Gives (some (strideFromShape [m, k])) (matVecLeft g v) [m, k] (fun idx => G [idx.getD 0 0] * fb [idx.getD 1 0]) := by
  refine (gives_unsqueeze hw hg (axis := 1) (k := 1) ⟨by simp, .inl rfl⟩).bind fun u _ hu => ?_
  have hj : IsJoint [m, 1] [k] [m, k] := by
    refine ⟨rfl, fun x => ?_⟩
    match x with
    | 0 => rfl
    | 1 =>
      show m = if m = 1 then 1 else m
      split <;> simp_all
    | x + 2 => rfl
  have hc : Compatible [m, 1] [k] := by
    intro x
    match x with
    | 0 => exact .inr (.inl rfl)
    | 1 => exact .inr (.inr rfl)
    | x + 2 => exact .inl rfl
  refine (gives_bin .mul hu hv hc hj (by simp) (by simp; omega)).congr fun idx hi => ?_
  match idx, hi with
  | [i, j], hi =>
    simp only [InB] at hi
    simp only [SOp.run, broadcastIndex, List.length_cons, List.length_nil, List.insertIdx, clamp]
    have e1 : (if m = 1 then 0 else i) = i := by split <;> omega
    have e2 : (if k = 1 then 0 else j) = j := by split <;> omega
    show G [if m = 1 then 0 else i] * fb [if k = 1 then 0 else j] = G [i] * fb [j]
    rw [e1, e2]

omit [Build] in
theorem gives_transpose2 {m k : Nat} {a : Arr α} (hw : a.WF) {f : List Nat → α} (ha : a.Denotes [m, k] f) :
    Gives none a.T [k, m] (fun idx => f [idx.getD 1 0, idx.getD 0 0]) := by
  refine (gives_transpose hw ha (ax1 := 0) (ax2 := 1) (i := 0) (j := 1) ⟨by simp, .inl rfl⟩ ⟨by simp, .inl rfl⟩).weak.congr
    fun idx hi => ?_
  match idx, hi with
  | [i, j], hi => rfl

omit [Build] in
theorem gives_transpose3 {B m k : Nat} {a : Arr α} (hw : a.WF) {f : List Nat → α} (ha : a.Denotes [B, m, k] f) :
    Gives none (a.transpose 1 2) [B, k, m] (fun idx => f [idx.getD 0 0, idx.getD 2 0, idx.getD 1 0]) := by
  refine (gives_transpose hw ha (ax1 := 1) (ax2 := 2) (i := 1) (j := 2) ⟨by simp, .inl rfl⟩ ⟨by simp, .inl rfl⟩).weak.congr
    fun idx hi => ?_
  match idx, hi with
  | [x, i, j], hi => rfl

theorem diff_matVec {m k : Nat} (hl : Diff sh₀ l [m, k] el) (hr : Diff sh₀ r [k] er) {a b : Arr α} {fa fb : List Nat → α}
    (hwa : a.WF) (ha : a.Denotes [m, k] fa) (hb : b.Denotes [k] fb) (hm : 0 < m) (hk : 0 < k) :
    Diff sh₀ (.matVec l r a b) [m] fun v i =>
      ∑ t ∈ Finset.range k, (fa [i.getD 0 0, t] * er v [t] + el v [i.getD 0 0, t] * fb [t]) := by
  refine ⟨fun sh hp u g G hw hg => ?_, fun h => by cases h⟩
  have hT : Gives (some (strideFromShape [k])) (transposedMatmul a g) [k] _ :=
    (gives_transpose2 hwa ha).bind fun t _ ht => gives_matvec ht hg
  refine CallOK.one (CallOK.two (callNext_fresh hp hl (gives_matVecLeft hw.wf hg hb hm hk))
    (callNext_fresh hp hr hT) fun v => ?_) (fun _ => rfl) ?_
  · simp only [pair1, pair2, innerProduct_sum, List.getD_cons_zero, List.getD_cons_succ, Finset.mul_sum, Finset.sum_mul]
    rw [Finset.sum_comm (s := Finset.range k), ← Finset.sum_add_distrib]
    refine Finset.sum_congr rfl fun i _ => ?_
    rw [← Finset.sum_add_distrib]
    exact Finset.sum_congr rfl fun t _ => by ring
  · simp only [Safe]
    rw [ha.1, hb.1]

theorem diff_matMul {m k n : Nat} (hl : Diff sh₀ l [m, k] el) (hr : Diff sh₀ r [k, n] er) {a b : Arr α}
    {fa fb : List Nat → α} (hwa : a.WF) (hwb : b.WF) (ha : a.Denotes [m, k] fa) (hb : b.Denotes [k, n] fb)
    (hm : 0 < m) (hk : 0 < k) (hn : 0 < n) :
    Diff sh₀ (.matMul l r a b) [m, n] fun v i => ∑ t ∈ Finset.range k,
      (fa [i.getD 0 0, t] * er v [t, i.getD 1 0] + el v [i.getD 0 0, t] * fb [t, i.getD 1 0]) := by
  refine ⟨fun sh hp u g G hw hg => ?_, fun h => by cases h⟩
  have hL : Gives (some (strideFromShape [m, k])) (matmulTransposed g b) [m, k] _ :=
    (gives_transpose2 hwb hb).bind fun t _ ht => gives_matmul hg ht hm hn hk
  have hR : Gives (some (strideFromShape [k, n])) (transposedMatmul a g) [k, n] _ :=
    (gives_transpose2 hwa ha).bind fun t _ ht => gives_matmul ht hg hk hm hn
  refine CallOK.one (CallOK.two (callNext_fresh hp hl hL)
    (callNext_fresh hp hr hR) fun v => ?_) (fun _ => rfl) ?_
  · simp only [pair2, innerProduct_sum, List.getD_cons_zero, List.getD_cons_succ, Finset.sum_add_distrib, mul_add]
    rw [add_comm, sum3_adj m k n (fun i t => el v [i, t]) (fun t j => fb [t, j]) (fun i j => G [i, j]),
      sum3_adj' m k n (fun i t => fa [i, t]) (fun t j => er v [t, j]) (fun i j => G [i, j])]
  · simp only [Safe]
    rw [ha.1, hb.1]

theorem diff_bmm {B m k n : Nat} (hl : Diff sh₀ l [B, m, k] el) (hr : Diff sh₀ r [B, k, n] er) {a b : Arr α}
    {fa fb : List Nat → α} (hwa : a.WF) (hwb : b.WF) (ha : a.Denotes [B, m, k] fa) (hb : b.Denotes [B, k, n] fb)
    (hB : 0 < B) (hm : 0 < m) (hk : 0 < k) (hn : 0 < n) :
    Diff sh₀ (.bmm l r a b) [B, m, n] fun v i => ∑ t ∈ Finset.range k,
      (fa [i.getD 0 0, i.getD 1 0, t] * er v [i.getD 0 0, t, i.getD 2 0] +
        el v [i.getD 0 0, i.getD 1 0, t] * fb [i.getD 0 0, t, i.getD 2 0]) := by
  refine ⟨fun sh hp u g G hw hg => ?_, fun h => by cases h⟩
  have hL : Gives (some (strideFromShape [B, m, k])) (bmmTransposed g b) [B, m, k] _ :=
    (gives_transpose3 hwb hb).bind fun t _ ht => gives_bmm hg ht hB hm hn hk
  have hR : Gives (some (strideFromShape [B, k, n])) (transposedBmm a g) [B, k, n] _ :=
    (gives_transpose3 hwa ha).bind fun t _ ht => gives_bmm ht hg hB hk hm hn
  refine CallOK.one (CallOK.two (callNext_fresh hp hl hL)
    (callNext_fresh hp hr hR) fun v => ?_) (fun _ => rfl) ?_
  · simp only [pair3, innerProduct_sum, List.getD_cons_zero, List.getD_cons_succ]
    rw [← Finset.sum_add_distrib]
    refine Finset.sum_congr rfl fun x _ => ?_
    simp only [Finset.sum_add_distrib, mul_add]
    rw [add_comm, sum3_adj m k n (fun i t => el v [x, i, t]) (fun t j => fb [x, t, j]) (fun i j => G [x, i, j]),
      sum3_adj' m k n (fun i t => fa [x, i, t]) (fun t j => er v [x, t, j]) (fun i j => G [x, i, j])]
  · simp only [Safe]
    rw [ha.1, hb.1]

end

/-! ### views -/

omit [Build] in
theorem elements_relayout {s t : List Nat} (h : numel t = numel s) (f : List Nat → α) :
    elements t (fun idx => f (unrank s (rank idx t))) = elements s f := by
  apply List.ext_getElem?
  intro k
  by_cases hk : k < numel t
  · rw [getElem?_elements hk, getElem?_elements (h ▸ hk), rank_unrank hk]
  · rw [List.getElem?_eq_none (by rw [length_elements]; omega), List.getElem?_eq_none (by rw [length_elements]; omega)]

section
variable {sh₀ : List (List Nat)} {n : GradFn α} {s o : List Nat} {el e : (Nat → List Nat → α) → List Nat → α}

theorem diff_reshape (h : Diff sh₀ n s el) (he : ∀ v, elements o (e v) = elements s (el v)) : Diff sh₀ (.reshape n s) o e := by
  refine ⟨fun sh hp u g G hw hg => ?_, fun h => by cases h⟩
  have hnum : numel s = numel o := by
    have := congrArg List.length (he fun _ _ => 0)
    simpa [length_elements] using this.symm
  refine CallOK.one (callNext_ok (P := CanView o s u) (u := viewStride o s u) (G := fun idx => G (unrank o (rank idx s))) hp h ?_)
    (fun v => ?_) Iff.rfl
  · rcases gives_reshape hw.wf hg (ns := s) with ⟨⟨h1, _⟩, h2⟩ | ⟨⟨_, h2⟩, ⟨r, e1, w, d⟩, _⟩
    · left
      rw [hw.strides _ rfl] at h2
      refine ⟨fun st => ?_, fun hv => h2 ⟨hnum, hv⟩⟩
      show (g.reshape s >>= fun _ => _) = _
      rw [h1]; rfl
    · right
      rw [hw.strides _ rfl] at h2 w
      refine ⟨h2, r, fun st => ?_, w, d⟩
      show (g.reshape s >>= fun _ => _) = _
      rw [e1]; rfl
  · exact pair_elements (elements_relayout hnum G).symm (he v)

omit [Build] in
theorem axisNat_of {axis : Int} {n k : Nat} (h : AxisIs axis n k) : axisNat axis n = k := by
  obtain ⟨hk, h | h⟩ := h <;> subst h <;> unfold axisNat <;> split <;> omega

theorem diff_transpose (h : Diff sh₀ n s el) {ax1 ax2 : Int} {i j : Nat} (h1 : AxisIs ax1 s.length i) (h2 : AxisIs ax2 s.length j) :
    Diff sh₀ (.transpose n ax1 ax2) (exchange i j s) fun v idx => el v (exchange i j idx) := by
  refine ⟨fun sh hp u g G hw hg => ?_, fun h => by cases h⟩
  have hle := length_exchange i j s
  rw [← hle] at h1 h2
  obtain ⟨r, e1, w, d⟩ := gives_transpose hw.wf hg h1 h2
  rw [exchange_exchange i j s (hle ▸ h1.1) (hle ▸ h2.1)] at d
  rw [hw.strides _ rfl] at w
  refine CallOK.one (callNext_ok (P := True) hp h (.inr ⟨trivial, r, fun st => ?_, w, d⟩)) (fun v => ?_) ?_
  · show (g.transpose ax1 ax2 >>= fun _ => _) = _
    rw [e1]; rfl
  · exact pair_exchange (hle ▸ h1.1) (hle ▸ h2.1) _ _
  · simp only [Safe]
    rw [axisNat_of h1, axisNat_of h2, exchange_exchange i j s (hle ▸ h1.1) (hle ▸ h2.1)]
    exact ⟨fun h => ⟨fun _ => trivial, h⟩, fun h => h.2⟩

end

end Verif
