import Verif.Lemmas.WeakArr

/-!
# Backward passes that complete, for tensors of any rank, with or without elements

As Lemmas/Backward.lean and Lemmas/BackwardNodes.lean.
-/

namespace Verif.Weak

variable {α : Type} [Field α] [Build]

/-- If (a part of) a backward pass that receives the gradient `G` of a tensor with shape `s` whose elements move as `e v`
when the variables move as `v` completes, then it adds to the accumulators increments `D` with `Σ G * e v = Σ D * v`. -/
structure CallOK (sh : List (List Nat)) (x : Store α → Res (Store α)) (s : List Nat) (G : List Nat → α)
    (e : (Nat → List Nat → α) → List Nat → α) : Prop where
  of_ok : ∀ st st', StoreOK sh st → x st = .ok st' → ∃ D, Adds sh st st' D ∧ ∀ v, pair s G (e v) = total sh D v

/-- `gf` propagates gradients of a tensor of shape `s` whose elements move as `e v` when the variables move as `v`. -/
structure Diff (sh₀ : List (List Nat)) (gf : GradFn α) (s : List Nat) (e : (Nat → List Nat → α) → List Nat → α) : Prop where
  adj : ∀ (sh : List (List Nat)), sh₀ <+: sh → ∀ (g : Arr α) (G : List Nat → α), g.WF →
    g.Denotes s G → CallOK sh (backward gf ⟨g, none⟩) s G e
  zero : gf.isNone = true → ∀ v i, InB i s → e v i = 0
  acc : ∀ k, gf = .acc k → sh₀[k]? = some s ∧ ∀ v i, InB i s → e v i = v k i

theorem Diff.mono {sh₀ sh₁ : List (List Nat)} {gf : GradFn α} {s : List Nat} {e : (Nat → List Nat → α) → List Nat → α}
    (h : Diff sh₀ gf s e) (hp : sh₀ <+: sh₁) : Diff sh₁ gf s e := by
  refine ⟨fun sh hs => h.adj sh (hp.trans hs), h.zero, fun k hk => ⟨?_, (h.acc k hk).2⟩⟩
  have h1 := (h.acc k hk).1
  obtain ⟨u, rfl⟩ := hp
  rw [List.getElem?_append_left (List.getElem?_eq_some_iff.1 h1).1]
  exact h1

theorem Diff.congr {sh₀ : List (List Nat)} {gf : GradFn α} {s : List Nat} {e e' : (Nat → List Nat → α) → List Nat → α}
    (h : Diff sh₀ gf s e) (he : ∀ v i, InB i s → e v i = e' v i) : Diff sh₀ gf s e' := by
  refine ⟨fun sh hs g G hw hg => ⟨fun st st' hst hr => ?_⟩, fun hn v i hi => by rw [← he v i hi, h.zero hn v i hi],
    fun k hk => ⟨(h.acc k hk).1, fun v i hi => by rw [← he v i hi, (h.acc k hk).2 v i hi]⟩⟩
  obtain ⟨D, h2, h3⟩ := (h.adj sh hs g G hw hg).of_ok st st' hst hr
  exact ⟨D, h2, fun v => by rw [← h3 v]; exact pair_congr (fun _ _ => rfl) fun i hi => (he v i hi).symm⟩

/-- A tensor that requires no gradient. -/
theorem diff_none (sh₀ : List (List Nat)) (s : List Nat) {e : (Nat → List Nat → α) → List Nat → α}
    (he : ∀ v i, InB i s → e v i = 0) : Diff sh₀ GradFn.none s e :=
  ⟨fun sh _ g G _ _ => ⟨fun st st' hst hr => by
    cases hr
    exact ⟨_, Adds.refl hst, fun v => by rw [total_zero, pair_zero_right G (he v)]⟩⟩, fun _ => he, fun _ h => by cases h⟩

theorem callNext_ok {sh₀ sh : List (List Nat)} (hp : sh₀ <+: sh) {n : GradFn α} {s : List Nat}
    {e : (Nat → List Nat → α) → List Nat → α} (h : Diff sh₀ n s e) {grad : Store α → Res (GradArr α)} {G : List Nat → α}
    (hg : Passes grad s G) : CallOK sh (fun st => callNext n.isNone st (grad st) fun g => backward n g st) s G e := by
  refine ⟨fun st st' hst hr => ?_⟩
  unfold callNext at hr
  by_cases hn : n.isNone = true
  · simp only [if_pos hn] at hr
    cases hr
    exact ⟨_, Adds.refl hst, fun v => by rw [total_zero, pair_zero_right G (h.zero hn v)]⟩
  · simp only [if_neg hn] at hr
    obtain ⟨q, hq, hr⟩ := bind_eq_ok.1 hr
    obtain ⟨g, rfl, hw, hd⟩ := hg.of_ok st q hq
    exact (h.adj sh hp g G hw hd).of_ok st st' hst hr

/-- A gradient computed without reduction. -/
theorem callNext_fresh {sh₀ sh : List (List Nat)} (hp : sh₀ <+: sh) {n : GradFn α} {s : List Nat}
    {e : (Nat → List Nat → α) → List Nat → α} (h : Diff sh₀ n s e) {x : Res (Arr α)} {G : List Nat → α} (hg : Gives x s G) :
    CallOK sh (fun st => callNext n.isNone st (fresh x) fun g => backward n g st) s G e :=
  callNext_ok (grad := fun _ => fresh x) hp h hg.passes

omit [Build] in
theorem CallOK.two {sh : List (List Nat)} {x y : Store α → Res (Store α)} {s t r : List Nat}
    {Gs Gt G : List Nat → α} {es et e : (Nat → List Nat → α) → List Nat → α} (hx : CallOK sh x s Gs es)
    (hy : CallOK sh y t Gt et)
    (hsum : ∀ v, pair r G (e v) = pair s Gs (es v) + pair t Gt (et v)) : CallOK sh (fun st => x st >>= y) r G e := by
  refine ⟨fun st st'' hst hr => ?_⟩
  obtain ⟨st', h1, h2⟩ := bind_eq_ok.1 hr
  obtain ⟨D, ha, hv⟩ := hx.of_ok st st' hst h1
  obtain ⟨D', ha', hv'⟩ := hy.of_ok st' st'' ha.1 h2
  exact ⟨_, ha.trans ha', fun v => by rw [hsum v, hv v, hv' v, ← total_add]⟩

omit [Build] in
theorem CallOK.one {sh : List (List Nat)} {x : Store α → Res (Store α)} {s r : List Nat}
    {Gs G : List Nat → α} {es e : (Nat → List Nat → α) → List Nat → α} (hx : CallOK sh x s Gs es)
    (hsum : ∀ v, pair r G (e v) = pair s Gs (es v)) : CallOK sh x r G e := by
  refine ⟨fun st st' hst hr => ?_⟩
  obtain ⟨D, ha, hv⟩ := hx.of_ok st st' hst hr
  exact ⟨D, ha, fun v => by rw [hsum v, hv v]⟩

omit [Build] in
/-- A step before that does not touch the accumulators. -/
theorem CallOK.after {β : Type} {sh : List (List Nat)} {x : Res β} {k : β → Store α → Res (Store α)} {s : List Nat}
    {G : List Nat → α} {e : (Nat → List Nat → α) → List Nat → α} (h : ∀ q, x = .ok q → CallOK sh (k q) s G e) :
    CallOK sh (fun st => x >>= fun q => k q st) s G e := by
  refine ⟨fun st st' hst hr => ?_⟩
  obtain ⟨q, h1, h2⟩ := bind_eq_ok.1 hr
  exact (h q h1).of_ok st st' hst h2

/-- A requiring leaf: accumulator `k`. -/
theorem diff_acc {sh₀ : List (List Nat)} {k : Nat} {s : List Nat} (hk : sh₀[k]? = some s) (h0 : 0 ∉ s) :
    Diff (α := α) sh₀ (.acc k) s (fun v => v k) := by
  refine ⟨fun sh hs g G hw hg => ⟨fun st st' hst hr => ?_⟩, (fun h => by cases h), fun j h => by cases h; exact ⟨hk, fun _ _ _ => rfl⟩⟩
  have hks : sh[k]? = some s := by
    obtain ⟨u, rfl⟩ := hs
    rw [List.getElem?_append_left (List.getElem?_eq_some_iff.1 hk).1]; exact hk
  have hlt : k < sh.length := (List.getElem?_eq_some_iff.1 hks).1
  refine ⟨fun j => if j = k then G else fun _ => 0, ?_, fun v => total_acc hks G v⟩
  obtain ⟨a, ha⟩ : ∃ a, st[k]? = some a := ⟨_, List.getElem?_eq_getElem (by rw [hst.1]; exact hlt)⟩
  obtain ⟨hfr, hsh⟩ := hst.2 k a ha
  have hshape : a.shape = s := by rw [hks] at hsh; exact (Option.some.inj hsh).symm
  obtain ⟨F, hF⟩ := hst.denotes ha
  have hgs := hg
  rw [← hshape] at hgs
  obtain ⟨s', data, hl, rfl⟩ := hfr
  obtain rfl : s' = s := hshape
  have hb : backward (.acc k) ⟨g, none⟩ st =
      (Arr.opAssign (fun x y => .ok (x + y)) (binLoops fun x y => x + y) false (Arr.fromContiguousOwnedBuffer s' data) g >>= fun buf =>
        .ok (st.set k { Arr.fromContiguousOwnedBuffer s' data with buf := buf })) := by
    show accumulate k ⟨g, none⟩ st = _
    unfold accumulate
    rw [ha]
    have hass : assume (decide ((Arr.fromContiguousOwnedBuffer s' data).shape = g.shape)) = .ok () := by
      unfold assume
      rw [if_pos (decide_eq_true hgs.1.symm)]
    show (assume (decide ((Arr.fromContiguousOwnedBuffer s' data).shape = g.shape)) >>= fun _ => _) = _
    rw [hass]
    rfl
  rcases assign_of_range_or (binLoops_correct fun x y : α => x + y)
    (C26_contiguous_partial ⟨s', data, hl, rfl⟩ .refl rfl) rfl hF hgs
    (BroadcastsTo.refl _) (mt numel_eq_zero.1 h0) (h := fun i => F i + G i)
    (fun i hi => by rw [broadcastIndex_self hi]) with ⟨buf, e1, e2, e3, _⟩ | ⟨_, e1⟩
  swap
  · rw [hb, e1] at hr; cases hr
  rw [hb, e1] at hr
  cases hr
  have hfresh : ({ Arr.fromContiguousOwnedBuffer s' data with buf := buf } : Arr α) = Arr.fromContiguousOwnedBuffer s' buf := by
    have : buf.length = data.length := e3
    simp [Arr.fromContiguousOwnedBuffer, this]
  refine ⟨⟨by rw [List.length_set, hst.1], fun j b hb => ?_⟩, fun j b hb => ?_⟩
  · rw [List.getElem?_set] at hb
    by_cases hjk : k = j
    · subst hjk
      simp only [if_true] at hb
      rw [hst.1, if_pos hlt] at hb
      cases hb
      exact ⟨⟨s', buf, by rw [show buf.length = data.length from e3, hl], hfresh⟩, hks⟩
    · rw [if_neg hjk] at hb
      exact hst.2 j b hb
  · by_cases hjk : k = j
    · subst hjk
      rw [ha] at hb
      cases hb
      refine ⟨_, F, by rw [List.getElem?_set]; simp [hst.1, hlt], hF, e2.congr fun i _ => by simp⟩
    · obtain ⟨F', hF'⟩ := hst.denotes hb
      refine ⟨b, F', by rw [List.getElem?_set, if_neg hjk]; exact hb, hF', hF'.congr fun i _ => ?_⟩
      show F' i = F' i + (if j = k then G else fun _ => 0) i
      rw [if_neg (Ne.symm hjk), add_zero]

section
variable {sh₀ : List (List Nat)} {l r n : GradFn α} {s t o : List Nat} {el er : (Nat → List Nat → α) → List Nat → α}

theorem diff_add (hl : Diff sh₀ l s el) (hr : Diff sh₀ r t er) (hs : BroadcastsTo s o) (ht : BroadcastsTo t o) :
    Diff sh₀ (.add l r s t) o fun v i => el v (broadcastIndex s i) + er v (broadcastIndex t i) := by
  refine ⟨fun sh hp g G hw hg => ?_, (fun h => by cases h), fun _ h => by cases h⟩
  refine CallOK.two (callNext_ok hp hl (fit_ok hw hg hs))
    (callNext_ok hp hr (fit_ok hw hg ht)) fun v => ?_
  rw [pair_add_right, pair_broadcast hs, pair_broadcast ht]

theorem diff_sub (hl : Diff sh₀ l s el) (hr : Diff sh₀ r t er) (hs : BroadcastsTo s o) (ht : BroadcastsTo t o) :
    Diff sh₀ (.sub l r s t) o fun v i => el v (broadcastIndex s i) - er v (broadcastIndex t i) := by
  refine ⟨fun sh hp g G hw hg => ?_, (fun h => by cases h), fun _ h => by cases h⟩
  refine CallOK.two (callNext_ok hp hl (fit_ok hw hg hs))
    (callNext_ok hp hr (freshFit_ok (gives_neg hg) ht)) fun v => ?_
  rw [← pair_broadcast hs, ← pair_broadcast ht]
  exact pair_split fun i _ => by ring

theorem diff_mul (hl : Diff sh₀ l s el) (hr : Diff sh₀ r t er) {a b : Arr α} {fa fb : List Nat → α} (ha : a.Denotes s fa)
    (hb : b.Denotes t fb) (hs : BroadcastsTo s o) (ht : BroadcastsTo t o) :
    Diff sh₀ (.mul l r a b) o fun v i =>
      fa (broadcastIndex s i) * er v (broadcastIndex t i) + el v (broadcastIndex s i) * fb (broadcastIndex t i) := by
  refine ⟨fun sh hp g G hw hg => ?_, (fun h => by cases h), fun _ h => by cases h⟩
  have hsa := ha.1
  have hsb := hb.1
  subst hsa hsb
  refine CallOK.two (callNext_ok hp hl (freshFit_ok (gives_left .mul hb hg ht) hs))
    (callNext_ok hp hr (freshFit_ok (gives_left .mul ha hg hs) ht)) fun v => ?_
  rw [← pair_broadcast hs, ← pair_broadcast ht]
  exact pair_split fun i _ => by simp only [SOp.run]; ring

theorem gives_divRightOnly {g a b : Arr α} {G fa fb : List Nat → α} (hg : g.Denotes o G) (ha : a.Denotes s fa)
    (hb : b.Denotes t fb) (hs : BroadcastsTo s o) (ht : BroadcastsTo t o) : Gives (divRightOnly g a b) o (fun i =>
      G i * -fa (broadcastIndex s i) / (fb (broadcastIndex t i) * fb (broadcastIndex t i))) := by
  refine (gives_neg ha).bind fun na _ hna => ?_
  refine (gives_right .mul hg hna hs).bind fun n _ hn => ?_
  refine (gives_right .mul hb hb (BroadcastsTo.refl t)).bind fun d _ hdd => ?_
  refine (gives_right .div hn hdd ht).congr fun i hi => ?_
  rw [broadcastIndex_self (InB_broadcastIndex ht hi)]
  rfl

theorem gives_divLeft {g b : Arr α} {G fb : List Nat → α} (hg : g.Denotes o G)
    (hb : b.Denotes t fb) (ht : BroadcastsTo t o) : Gives (divLeft g b) o (fun i => G i * (1 / fb (broadcastIndex t i))) := by
  refine gives_one.bind fun one _ ho => ?_
  refine (gives_left .div ho hb (BroadcastsTo.nil t)).bind fun inv _ hi => ?_
  exact gives_right .mul hg hi ht

theorem gives_divRight {g a b : Arr α} {G fa fb : List Nat → α} (hg : g.Denotes o G) (ha : a.Denotes s fa)
    (hb : b.Denotes t fb) (hs : BroadcastsTo s o) (ht : BroadcastsTo t o) : Gives (divRight g a b) o (fun i => G i / fb (broadcastIndex t i) * -fa (broadcastIndex s i)) := by
  refine (gives_right .div hg hb ht).bind fun q _ hq => ?_
  refine (gives_neg ha).bind fun na _ hna => ?_
  exact gives_right .mul hq hna hs

theorem diff_mulScalar (h : Diff sh₀ n s el) (c : α) :
    Diff sh₀ (.mulScalar n s c) s fun v i => el v i * c := by
  refine ⟨fun sh hp g G hw hg => ?_, (fun h => by cases h), fun _ h => by cases h⟩
  refine CallOK.one (callNext_ok hp h (freshFit_same (gives_scalar .mul hg c))) (fun v => ?_)
  exact pair_same fun i _ => by simp only [SOp.run]; ring

theorem diff_neg (h : Diff sh₀ n s el) : Diff sh₀ (.neg n s) s fun v i => - el v i := by
  refine ⟨fun sh hp g G hw hg => ?_, (fun h => by cases h), fun _ h => by cases h⟩
  refine CallOK.one (callNext_ok hp h (freshFit_same (gives_neg hg))) (fun v => ?_)
  exact pair_same fun i _ => by ring

theorem diff_div (hl : Diff sh₀ l s el) (hr : Diff sh₀ r t er) {a b : Arr α} {fa fb : List Nat → α} (ha : a.Denotes s fa)
    (hb : b.Denotes t fb) (hs : BroadcastsTo s o) (ht : BroadcastsTo t o) :
    Diff sh₀ (.div l r a b) o fun v i =>
      (el v (broadcastIndex s i) * fb (broadcastIndex t i) - fa (broadcastIndex s i) * er v (broadcastIndex t i)) /
        (fb (broadcastIndex t i) * fb (broadcastIndex t i)) := by
  refine ⟨fun sh hp g G hw hg => ?_, (fun h => by cases h), fun _ h => by cases h⟩
  have hsa := ha.1
  have hsb := hb.1
  subst hsa hsb
  show CallOK sh (fun st => backward (.div l r a b) ⟨g, none⟩ st) _ _ _
  unfold backward
  by_cases hn : l.isNone = true
  · simp only [if_pos hn]
    refine CallOK.one (callNext_ok hp hr (freshFit_ok (gives_divRightOnly hg ha hb hs ht) ht)) (fun v => ?_)
    rw [← pair_broadcast ht]
    refine pair_same fun i hi => ?_
    rw [hl.zero hn v _ (InB_broadcastIndex hs hi)]
    ring
  · simp only [if_neg hn]
    show CallOK sh (fun st => divLeft g b >>= fun lg => (callNext l.isNone st (fit ⟨lg, .none⟩ st a.shape) fun g => backward l g st) >>=
      fun st => callNext r.isNone st (freshFit (divRight lg a b) st b.shape) fun g => backward r g st) _ _ _
    refine CallOK.after fun lg e1 => ?_
    obtain ⟨w1, d1⟩ := (gives_divLeft hg hb ht).of_ok lg e1
    refine CallOK.two (callNext_ok hp hl (fit_ok w1 d1 hs))
      (callNext_ok hp hr (freshFit_ok (gives_divRight d1 ha hb hs ht) ht)) fun v => ?_
    rw [← pair_broadcast hs, ← pair_broadcast ht]
    refine pair_split fun i _ => ?_
    rw [← div_self_mul]
    generalize fb (broadcastIndex b.shape i) = x
    have := div_self_mul x
    rw [sub_div, mul_div_assoc]
    have h2 : ∀ y : α, G i * (x / (x * x)) / x * -y = - (G i * y / (x * x)) := by
      intro y
      rw [this]; ring
    rw [h2]; ring

theorem diff_divScalar (h : Diff sh₀ n s el) (c : α) : Diff sh₀ (.divScalar n s (1 / c)) s fun v i => el v i / c := by
  refine ⟨fun sh hp g G hw hg => ?_, (fun h => by cases h), fun _ h => by cases h⟩
  show CallOK sh (fun st => SOp.mul.arrScalar g (1 / c) >>= fun g' => callNext n.isNone st (fit ⟨g', .none⟩ st s) fun g => backward n g st) _ _ _
  refine CallOK.after fun g' e1 => ?_
  obtain ⟨w, d⟩ := (gives_scalar .mul hg (1 / c)).of_ok g' e1
  refine CallOK.one (callNext_ok hp h (fit_ok w d (BroadcastsTo.refl s))) (fun v => ?_)
  rw [← pair_broadcast (BroadcastsTo.refl s)]
  exact pair_same fun i hi => by rw [broadcastIndex_self hi]; simp only [SOp.run]; ring

end

/-! ### products -/

section
variable {sh₀ : List (List Nat)} {l r : GradFn α} {el er : (Nat → List Nat → α) → List Nat → α}

theorem diff_dot {k : Nat} (hl : Diff sh₀ l [k] el) (hr : Diff sh₀ r [k] er) {a b : Arr α} {fa fb : List Nat → α}
    (ha : a.Denotes [k] fa) (hb : b.Denotes [k] fb) :
    Diff sh₀ (.dot l r a b) [] fun v _ => ∑ t ∈ Finset.range k, (fa [t] * er v [t] + el v [t] * fb [t]) := by
  refine ⟨fun sh hp g G hw hg => ?_, (fun h => by cases h), fun _ h => by cases h⟩
  refine CallOK.two (callNext_fresh hp hl (gives_right .mul hb hg (BroadcastsTo.nil _)))
    (callNext_fresh hp hr (gives_right .mul ha hg (BroadcastsTo.nil _))) fun v => ?_
  simp only [pair_nil, pair1, broadcastIndex_nil, SOp.run, Finset.mul_sum]
  rw [← Finset.sum_add_distrib]
  exact Finset.sum_congr rfl fun i _ => by ring

theorem gives_matVecLeft {m k : Nat} {g v : Arr α} (hw : g.WF) {G fb : List Nat → α} (hg : g.Denotes [m] G) (hv : v.Denotes [k] fb) :
    Gives (matVecLeft g v) [m, k] (fun idx => G [idx.getD 0 0] * fb [idx.getD 1 0]) := by
  refine (Gives.of (gives_unsqueeze hw hg (axis := 1) (k := 1) ⟨by simp, .inl rfl⟩)).bind fun u _ hu => ?_
  have hj : IsJoint [m, 1] [k] [m, k] := by
    refine ⟨rfl, fun x => ?_⟩
    match x with
    | 0 => rfl
    | 1 =>
      show m = if m = 1 then 1 else m
      split <;> simp_all
    | x + 2 => rfl
  have hc : Compatible [m, 1] [k] := by
    intro x
    match x with
    | 0 => exact .inr (.inl rfl)
    | 1 => exact .inr (.inr rfl)
    | x + 2 => exact .inl rfl
  refine (gives_bin .mul hu hv hc hj).congr fun idx hi => ?_
  match idx, hi with
  | [i, j], hi =>
    simp only [InB] at hi
    simp only [SOp.run, broadcastIndex, List.length_cons, List.length_nil, List.insertIdx, clamp]
    have e1 : (if m = 1 then 0 else i) = i := by split <;> omega
    have e2 : (if k = 1 then 0 else j) = j := by split <;> omega
    show G [if m = 1 then 0 else i] * fb [if k = 1 then 0 else j] = G [i] * fb [j]
    rw [e1, e2]

theorem diff_matVec {m k : Nat} (hl : Diff sh₀ l [m, k] el) (hr : Diff sh₀ r [k] er) {a b : Arr α} {fa fb : List Nat → α}
    (hwa : a.WF) (ha : a.Denotes [m, k] fa) (hb : b.Denotes [k] fb) :
    Diff sh₀ (.matVec l r a b) [m] fun v i =>
      ∑ t ∈ Finset.range k, (fa [i.getD 0 0, t] * er v [t] + el v [i.getD 0 0, t] * fb [t]) := by
  refine ⟨fun sh hp g G hw hg => ?_, (fun h => by cases h), fun _ h => by cases h⟩
  have hT : Gives (transposedMatmul a g) [k] _ :=
    (Gives.of (gives_transpose2 hwa ha)).bind fun t _ ht => .of (gives_matvec ht hg)
  refine CallOK.two (callNext_fresh hp hl (gives_matVecLeft hw hg hb)) (callNext_fresh hp hr hT) fun v => ?_
  simp only [pair1, pair2, innerProduct_sum, List.getD_cons_zero, List.getD_cons_succ, Finset.mul_sum, Finset.sum_mul]
  rw [Finset.sum_comm (s := Finset.range k), ← Finset.sum_add_distrib]
  refine Finset.sum_congr rfl fun i _ => ?_
  rw [← Finset.sum_add_distrib]
  exact Finset.sum_congr rfl fun t _ => by ring

theorem diff_matMul {m k n : Nat} (hl : Diff sh₀ l [m, k] el) (hr : Diff sh₀ r [k, n] er) {a b : Arr α}
    {fa fb : List Nat → α} (hwa : a.WF) (hwb : b.WF) (ha : a.Denotes [m, k] fa) (hb : b.Denotes [k, n] fb) :
    Diff sh₀ (.matMul l r a b) [m, n] fun v i => ∑ t ∈ Finset.range k,
      (fa [i.getD 0 0, t] * er v [t, i.getD 1 0] + el v [i.getD 0 0, t] * fb [t, i.getD 1 0]) := by
  refine ⟨fun sh hp g G hw hg => ?_, (fun h => by cases h), fun _ h => by cases h⟩
  have hL : Gives (matmulTransposed g b) [m, k] _ :=
    (Gives.of (gives_transpose2 hwb hb)).bind fun t _ ht => gives_matmul hg ht
  have hR : Gives (transposedMatmul a g) [k, n] _ :=
    (Gives.of (gives_transpose2 hwa ha)).bind fun t _ ht => gives_matmul ht hg
  refine CallOK.two (callNext_fresh hp hl hL) (callNext_fresh hp hr hR) fun v => ?_
  simp only [pair2, innerProduct_sum, List.getD_cons_zero, List.getD_cons_succ, Finset.sum_add_distrib, mul_add]
  rw [add_comm, sum3_adj m k n (fun i t => el v [i, t]) (fun t j => fb [t, j]) (fun i j => G [i, j]),
    sum3_adj' m k n (fun i t => fa [i, t]) (fun t j => er v [t, j]) (fun i j => G [i, j])]

theorem diff_bmm {B m k n : Nat} (hl : Diff sh₀ l [B, m, k] el) (hr : Diff sh₀ r [B, k, n] er) {a b : Arr α}
    {fa fb : List Nat → α} (hwa : a.WF) (hwb : b.WF) (ha : a.Denotes [B, m, k] fa) (hb : b.Denotes [B, k, n] fb) :
    Diff sh₀ (.bmm l r a b) [B, m, n] fun v i => ∑ t ∈ Finset.range k,
      (fa [i.getD 0 0, i.getD 1 0, t] * er v [i.getD 0 0, t, i.getD 2 0] +
        el v [i.getD 0 0, i.getD 1 0, t] * fb [i.getD 0 0, t, i.getD 2 0]) := by
  refine ⟨fun sh hp g G hw hg => ?_, (fun h => by cases h), fun _ h => by cases h⟩
  have hL : Gives (bmmTransposed g b) [B, m, k] _ :=
    (Gives.of (gives_transpose3 hwb hb)).bind fun t _ ht => gives_bmm hg ht
  have hR : Gives (transposedBmm a g) [B, k, n] _ :=
    (Gives.of (gives_transpose3 hwa ha)).bind fun t _ ht => gives_bmm ht hg
  refine CallOK.two (callNext_fresh hp hl hL) (callNext_fresh hp hr hR) fun v => ?_
  simp only [pair3, innerProduct_sum, List.getD_cons_zero, List.getD_cons_succ]
  rw [← Finset.sum_add_distrib]
  refine Finset.sum_congr rfl fun x _ => ?_
  simp only [Finset.sum_add_distrib, mul_add]
  rw [add_comm, sum3_adj m k n (fun i t => el v [x, i, t]) (fun t j => fb [x, t, j]) (fun i j => G [x, i, j]),
    sum3_adj' m k n (fun i t => fa [x, i, t]) (fun t j => er v [x, t, j]) (fun i j => G [x, i, j])]

end

/-! ### views -/

section
variable {sh₀ : List (List Nat)} {n : GradFn α} {s o : List Nat} {el e : (Nat → List Nat → α) → List Nat → α}

theorem diff_reshape (h : Diff sh₀ n s el) (he : ∀ v, elements o (e v) = elements s (el v)) : Diff sh₀ (.reshape n s) o e := by
  refine ⟨fun sh hp g G hw hg => ?_, (fun h => by cases h), fun _ h => by cases h⟩
  have hnum : numel s = numel o := by
    have := congrArg List.length (he fun _ _ => 0)
    simpa [length_elements] using this.symm
  refine CallOK.one (callNext_ok (G := fun idx => G (unrank o (rank idx s))) hp h ⟨fun st q hq => ?_⟩) (fun v => ?_)
  · have hq : (g.reshape s >>= fun r => (.ok ⟨r, none⟩ : Res (GradArr α))) = .ok q := hq
    rcases gives_reshape hw hg (ns := s) with ⟨⟨h1, _⟩, h2⟩ | ⟨_, hgv, _⟩
    · rw [h1] at hq; cases hq
    · obtain ⟨r, e1, e2⟩ := bind_eq_ok.1 hq
      cases e2
      exact ⟨r, rfl, (Gives.of hgv).of_ok r e1⟩
  · exact pair_elements (elements_relayout hnum G).symm (he v)

theorem diff_transpose (h : Diff sh₀ n s el) {ax1 ax2 : Int} {i j : Nat} (h1 : AxisIs ax1 s.length i) (h2 : AxisIs ax2 s.length j) :
    Diff sh₀ (.transpose n ax1 ax2) (exchange i j s) fun v idx => el v (exchange i j idx) := by
  refine ⟨fun sh hp g G hw hg => ?_, (fun h => by cases h), fun _ h => by cases h⟩
  have hle := length_exchange i j s
  rw [← hle] at h1 h2
  refine CallOK.one (callNext_ok (G := fun idx => G (exchange i j idx)) hp h ⟨fun st q hq => ?_⟩) (fun v => ?_)
  · have hq : (g.transpose ax1 ax2 >>= fun r => (.ok ⟨r, none⟩ : Res (GradArr α))) = .ok q := hq
    obtain ⟨r, e1, e2⟩ := bind_eq_ok.1 hq
    cases e2
    obtain ⟨w, d⟩ := (Gives.of (gives_transpose hw hg h1 h2)).of_ok r e1
    rw [exchange_exchange i j s (hle ▸ h1.1) (hle ▸ h2.1)] at d
    exact ⟨r, rfl, w, d⟩
  · exact pair_exchange (hle ▸ h1.1) (hle ▸ h2.1) _ _

theorem diff_view {t : Tensor α} (op : SView) (h : Diff sh₀ t.gradFn t.arr.shape el) (ho : op.Applies t.arr.shape) :
    Diff sh₀ (op.node t) (op.out t.arr.shape).1 fun v i => el v ((op.out t.arr.shape).2 i) := by
  cases op with
  | view => exact h
  | reshape ns =>
    unfold SView.node
    by_cases hs : ns = t.arr.shape
    · subst hs
      simp only [if_pos]
      exact h.congr fun v i hi => by simp only [SView.out]; rw [unrank_rank hi]
    · simp only [if_neg hs]
      exact diff_reshape h fun v => elements_relayout ho _
  | squeeze => exact diff_reshape h fun v => C15_squeeze_order _ _
  | unsqueeze ax =>
    obtain ⟨k, hk⟩ := ho
    simp only [SView.out, axisNat_of hk]
    exact diff_reshape h fun v => elements_unsqueeze (by have := hk.1; omega) _
  | transpose ax1 ax2 =>
    obtain ⟨⟨i, h1⟩, ⟨j, h2⟩⟩ := ho
    simp only [SView.out, axisNat_of h1, axisNat_of h2]
    exact diff_transpose h h1 h2

end

end Verif.Weak
