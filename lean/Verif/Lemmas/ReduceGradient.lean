import Verif.Lemmas.AutogradArr

/-! # `reduce_gradient` is the adjoint of broadcasting -/

namespace Verif

variable {α : Type}

/-- Axis by axis: is the axis summed? -/
def stretched (s t : List Nat) : List Bool := List.zipWith (fun n m => n == 1 && decide (1 < m)) s t

theorem dropMask_replicate (d : Nat) (mask : List Bool) (l : List Nat) (h : d ≤ l.length) :
    dropMask (List.replicate d true ++ mask) l = dropMask mask (l.drop d) := by
  induction d generalizing l with
  | zero => rfl
  | succ d ih =>
    cases l with
    | nil => simp at h
    | cons x l => simpa [List.replicate_succ, dropMask] using ih l (by simpa using h)

theorem stretched_spec {s t idx : List Nat} (h : StretchTo s t) (h0 : 0 ∉ t) (hi : InB idx t) :
    numel (dropMask (stretched s t) t) = numel s ∧
    rank (dropMask (stretched s t) idx) (dropMask (stretched s t) t) = rank (clamp s idx) s := by
  induction s generalizing t idx with
  | nil =>
    cases t with
    | nil => cases idx <;> simp_all [stretched, dropMask, clamp, InB]
    | cons m t => simp [StretchTo] at h
  | cons n s ih =>
    cases t with
    | nil => simp [StretchTo] at h
    | cons m t =>
      cases idx with
      | nil => simp [InB] at hi
      | cons i idx =>
        simp only [StretchTo] at h
        simp only [InB] at hi
        simp only [List.mem_cons, not_or] at h0
        obtain ⟨e1, e2⟩ := ih h.2 h0.2 hi.2
        have hst : stretched (n :: s) (m :: t) = (n == 1 && decide (1 < m)) :: stretched s t := rfl
        rw [hst]
        by_cases hn : n = 1
        · subst hn
          by_cases hm : 1 < m
          · simp [dropMask, hm, clamp, rank, e1, e2]
          · have : i = 0 := by omega
            have : m = 1 := by omega
            subst this
            simp [dropMask, clamp, rank, e1, e2]
            omega
        · have hnm : n = m := by rcases h.1 with h | h <;> omega
          subst hnm
          simp [dropMask, hn, clamp, rank, e1, e2]

/-- No axis is summed completely away unless all are. -/
theorem dropMask_stretched {s t : List Nat} (h : StretchTo s t) (h0 : 0 ∉ t) (hd : dropMask (stretched s t) t = []) :
    ∀ k, k < s.length → s.getD k 0 ≠ t.getD k 0 := by
  induction s generalizing t with
  | nil => intro k hk; simp at hk
  | cons n s ih =>
    cases t with
    | nil => simp [StretchTo] at h
    | cons m t =>
      simp only [StretchTo] at h
      simp only [List.mem_cons, not_or] at h0
      have hst : stretched (n :: s) (m :: t) = (n == 1 && decide (1 < m)) :: stretched s t := rfl
      rw [hst] at hd
      by_cases hb : (n == 1 && decide (1 < m)) = true
      · rw [hb] at hd
        intro k hk
        cases k with
        | zero =>
          simp only [Bool.and_eq_true, beq_iff_eq, decide_eq_true_eq] at hb
          show n ≠ m
          omega
        | succ k => exact ih h.2 h0.2 hd k (by simpa using hk)
      · rw [Bool.not_eq_true] at hb
        rw [hb] at hd
        simp [dropMask] at hd

/-- Some axis is kept if anything is left. -/
theorem dropMask_kept {s t : List Nat} (h : StretchTo s t) (h0 : 0 ∉ t) (hd : dropMask (stretched s t) t ≠ []) :
    ∃ k, k < s.length ∧ s.getD k 0 = t.getD k 0 := by
  induction s generalizing t with
  | nil => cases t <;> simp_all [StretchTo, stretched, dropMask]
  | cons n s ih =>
    cases t with
    | nil => simp [StretchTo] at h
    | cons m t =>
      simp only [StretchTo] at h
      simp only [List.mem_cons, not_or] at h0
      have hst : stretched (n :: s) (m :: t) = (n == 1 && decide (1 < m)) :: stretched s t := rfl
      rw [hst] at hd
      by_cases hb : (n == 1 && decide (1 < m)) = true
      · rw [hb] at hd
        obtain ⟨k, hk, e⟩ := ih h.2 h0.2 hd
        exact ⟨k + 1, by simpa using hk, e⟩
      · refine ⟨0, by simp, ?_⟩
        simp only [Bool.and_eq_true, beq_iff_eq, decide_eq_true_eq] at hb
        show n = m
        rcases h.1 with h1 | h1 <;> omega

/-- A gradient of shape `r` can be reduced to shape `s`: nothing to do, or a scalar is wanted, or some axis is
kept. -/
def CanReduce (s r : List Nat) : Prop := s = r ∨ s = [] ∨ ∃ k, k < s.length ∧ extentFromRight s k = extentFromRight r k

theorem getBroadcastedAxes_ok {s r : List Nat} (h : BroadcastsTo s r) (h0 : 0 ∉ r) :
    ∃ ks : List Nat, getBroadcastedAxes r s = .ok (ks.map Int.ofNat) ∧ ks.Nodup ∧ (∀ k ∈ ks, k < r.length) ∧
      ∀ idx, InB idx r → numel (dropAxes ks r) = numel s ∧ InB (dropAxes ks idx) (dropAxes ks r) ∧
        rank (dropAxes ks idx) (dropAxes ks r) = rank (broadcastIndex s idx) s ∧
        (dropAxes ks r = [] ↔ ∀ k, k < s.length → extentFromRight s k ≠ extentFromRight r k) := by
  obtain ⟨hl, hs⟩ := h
  set p : Nat → Bool := fun i =>
    ((if i < r.length - s.length then 1 else s.getD (i - (r.length - s.length)) 0) == 1 && decide (1 < r.getD i 0)) ||
      decide (i < r.length - s.length) with hp
  refine ⟨(List.range r.length).filter p, ?_, List.nodup_range.filter _, fun k hk => ?_, fun idx hi => ?_⟩
  · unfold getBroadcastedAxes
    rw [if_neg (by omega)]
  · exact List.mem_range.1 (List.mem_filter.1 hk).1
  · have hmask : maskOf r.length ((List.range r.length).filter p) =
        List.replicate (r.length - s.length) true ++ stretched s (r.drop (r.length - s.length)) := by
      apply List.ext_getElem?
      intro i
      by_cases hi : i < r.length
      · have e1 : (maskOf r.length ((List.range r.length).filter p))[i]? = some (p i) := by
          simp [maskOf, hi]
        rw [e1]
        by_cases hd : i < r.length - s.length
        · rw [List.getElem?_append_left (by simpa using hd)]
          simp [hp, hd]
        · rw [List.getElem?_append_right (by simpa using hd), List.length_replicate]
          have h1 : i - (r.length - s.length) < s.length := by omega
          have h2 : r.length - s.length + (i - (r.length - s.length)) = i := by omega
          simp [stretched, hp, hd, List.getElem?_zipWith, List.getElem?_drop, h1, h2, hi]
      · rw [List.getElem?_eq_none (by simpa [length_maskOf] using hi), List.getElem?_eq_none]
        simp [stretched]
        omega
    have e1 : dropAxes ((List.range r.length).filter p) r = dropMask (stretched s (r.drop (r.length - s.length))) (r.drop (r.length - s.length)) := by
      rw [← dropMask_maskOf, hmask, dropMask_replicate _ _ _ (by omega)]
    have e2 : dropAxes ((List.range r.length).filter p) idx = dropMask (stretched s (r.drop (r.length - s.length))) (idx.drop (r.length - s.length)) := by
      rw [← dropMask_maskOf, hi.length, hmask, dropMask_replicate _ _ _ (by rw [hi.length]; omega)]
    have hid := InB_drop hi (r.length - s.length)
    have key := stretched_spec hs (fun hm => h0 (List.mem_of_mem_drop hm)) hid
    rw [e1, e2]
    have e : ∀ (l : List Nat) (k : Nat), k < l.length → extentFromRight l k = l.getD (l.length - 1 - k) 0 := by
      intro l k hl
      unfold extentFromRight
      rw [List.getD_eq_getElem?_getD, List.getD_eq_getElem?_getD, List.getElem?_reverse hl,
        List.getElem?_eq_getElem (by omega)]; rfl
    have e' : ∀ k, k < s.length → (r.drop (r.length - s.length)).getD (s.length - 1 - k) 0 = r.getD (r.length - 1 - k) 0 := by
      intro k hk
      rw [List.getD_eq_getElem?_getD, List.getD_eq_getElem?_getD, List.getElem?_drop,
        show r.length - s.length + (s.length - 1 - k) = r.length - 1 - k by omega]
    refine ⟨key.1, InB_dropMask hid, by rw [key.2, broadcastIndex, hi.length], fun he k hk hh => ?_, fun he => ?_⟩
    · refine dropMask_stretched hs (fun hm => h0 (List.mem_of_mem_drop hm)) he (s.length - 1 - k) (by omega) ?_
      rw [e s k hk, e r k (by omega)] at hh
      rw [hh, e' k hk]
    · by_contra hne
      obtain ⟨k, hk, hh⟩ := dropMask_kept hs (fun hm => h0 (List.mem_of_mem_drop hm)) hne
      refine he (s.length - 1 - k) (by omega) ?_
      have hk' : s.length - 1 - (s.length - 1 - k) = k := by omega
      have h2 := e' (s.length - 1 - k) (by omega)
      rw [hk'] at h2
      rw [e s _ (by omega), e r _ (by omega), hk', hh, h2]

variable [Field α] [Build]

omit [Build] in
theorem exists_inB {r : List Nat} (h0 : 0 ∉ r) : InB (unrank r 0) r :=
  InB_unrank (Nat.pos_of_ne_zero fun h => h0 (numel_eq_zero.1 h))

omit [Build] in
theorem reduceGradient_ok {g : Arr α} (hw : g.WF) {s r : List Nat} {G : List Nat → α} (hg : g.Denotes r G)
    (h : BroadcastsTo s r) (h0 : 0 ∉ r) (hd : r.length ≤ 32) (hne : s ≠ r) :
    (reduceGradient g s = .error .panic ∧ ¬ CanReduce s r) ∨
      (CanReduce s r ∧ Gives (some (strideFromShape s)) (reduceGradient g s) s (collect s r G)) := by
  unfold reduceGradient
  have he : ¬ g.shape = s := fun he => hne (he ▸ hg.1)
  rw [if_neg he]
  obtain ⟨ks, h1, h2, h3, h4⟩ := getBroadcastedAxes_ok h h0
  rw [hg.1, h1, ok_bind]
  obtain ⟨q, e, w, d⟩ := gives_sumAlong hg hd (axesAre_ofNat h3) h2
  rw [e, ok_bind]
  obtain ⟨k0, _, _, k4⟩ := h4 _ (exists_inB h0)
  have hq := w.strides _ rfl
  have hview : CanView (dropAxes ks r) s (strideFromShape (dropAxes ks r)) ↔ CanReduce s r := by
    unfold CanView CanReduce
    by_cases hnil : dropAxes ks r = []
    · have hk := k4.1 hnil
      rw [hnil]
      constructor
      · rintro (h | ⟨_, h⟩)
        · exact .inr (.inl h)
        · exact absurd rfl h
      · rintro (h | h | ⟨k, h, h'⟩)
        · exact absurd h hne
        · exact .inl h
        · exact absurd h' (hk k h)
    · refine ⟨fun _ => ?_, fun _ => .inr ⟨by rw [hasUniformStride_fresh hnil]; rfl, hnil⟩⟩
      have hk := mt k4.2 hnil
      push Not at hk
      exact .inr (.inr hk)
  rcases gives_reshape w.wf d (ns := s) with ⟨hp, hp1⟩ | ⟨⟨hn, hcv⟩, _, hgv⟩
  · rw [hq] at hp1
    exact .inl ⟨hp.2, fun hc => hp1 ⟨k0.symm, hview.2 hc⟩⟩
  · right
    rw [hq] at hgv hcv
    rw [viewStride_fresh (hcv.imp_right And.right)] at hgv
    refine ⟨hview.1 hcv, ?_⟩
    refine hgv.congr fun J hJ => ?_
    unfold collect fibre
    congr 2
    refine List.filter_congr fun idx hi => ?_
    have hi := mem_indices.1 hi
    obtain ⟨_, k2, k3, _⟩ := h4 idx hi
    have hlt : rank J s < numel (dropAxes ks r) := by rw [← hn]; exact rank_lt hJ
    congr 1
    apply propext
    constructor
    · intro hh
      rw [hh, rank_unrank hlt] at k3
      rw [← unrank_rank hJ, ← unrank_rank (InB_broadcastIndex h hi), k3]
    · intro hh
      rw [← unrank_rank k2, k3, hh]

/-- The strides of the fitted gradient. -/
def fitStride (d s r : List Nat) : List Nat := if s = r then d else strideFromShape s

omit [Build] in
theorem fitStride_fresh (s r : List Nat) : fitStride (strideFromShape r) s r = strideFromShape s := by
  unfold fitStride
  split
  · subst s; rfl
  · rfl

omit [Build] in
/-- A gradient of shape `r`, as `fit` passes it on to an operand of shape `s`. -/
theorem fit_ok₀ {g : Arr α} {u : List Nat} (hw : g.Ready (some u)) {s r : List Nat} {G : List Nat → α} (hg : g.Denotes r G)
    (h : BroadcastsTo s r) (h0 : 0 ∉ r) (hd : r.length ≤ 32) (st : Store α) :
    (fit ⟨g, none⟩ st s = .error .panic ∧ ¬ CanReduce s r) ∨
      (CanReduce s r ∧ ∃ g', fit ⟨g, none⟩ st s = .ok ⟨g', none⟩ ∧ g'.Ready (some (fitStride u s r)) ∧ g'.Denotes s (collect s r G)) := by
  unfold fit fitStride
  by_cases he : s = g.shape
  · right
    rw [if_pos he]
    have : s = r := by rw [he, hg.1]
    subst this
    rw [if_pos rfl]
    exact ⟨.inl rfl, g, rfl, hw, hg.congr fun J hJ => (collect_self G hJ).symm⟩
  · rw [if_neg he]
    have hne : s ≠ r := by rw [hg.1] at he; exact he
    rw [if_neg hne]
    rcases reduceGradient_ok hw.wf hg h h0 hd hne with ⟨hp, hp'⟩ | ⟨hc, g', e, w, d⟩
    · refine .inl ⟨?_, hp'⟩
      show fresh (reduceGradient g s) = _
      rw [hp]; rfl
    · right
      refine ⟨hc, g', ?_, w, d⟩
      show fresh (reduceGradient g s) = _
      rw [e]; rfl

omit [Build] in
theorem fit_ok {g : Arr α} {u : List Nat} (hw : g.Ready (some u)) {s r : List Nat} {G : List Nat → α} (hg : g.Denotes r G)
    (h : BroadcastsTo s r) (h0 : 0 ∉ r) (hd : r.length ≤ 32) :
    ((∀ st, fit ⟨g, none⟩ st s = .error .panic) ∧ ¬ CanReduce s r) ∨
      (CanReduce s r ∧ ∃ g', (∀ st, fit ⟨g, none⟩ st s = .ok ⟨g', none⟩) ∧ g'.Ready (some (fitStride u s r)) ∧ g'.Denotes s (collect s r G)) := by
  rcases fit_ok₀ hw hg h h0 hd [] with ⟨h1, h2⟩ | ⟨hc, g', h1, h2⟩
  · exact .inl ⟨fun _ => h1, h2⟩
  · exact .inr ⟨hc, g', fun _ => h1, h2⟩

omit [Build] in
theorem freshFit_ok {x : Res (Arr α)} {s r : List Nat} {G : List Nat → α} (hx : Gives (some (strideFromShape r)) x r G)
    (h : BroadcastsTo s r) (h0 : 0 ∉ r) (hd : r.length ≤ 32) :
    ((∀ st, freshFit x st s = .error .panic) ∧ ¬ CanReduce s r) ∨
      (CanReduce s r ∧ ∃ g', (∀ st, freshFit x st s = .ok ⟨g', none⟩) ∧ g'.Ready (some (strideFromShape s)) ∧ g'.Denotes s (collect s r G)) := by
  obtain ⟨g, e, w, d⟩ := hx
  unfold freshFit
  rw [e, ← fitStride_fresh s r]
  exact fit_ok w d h h0 hd

end Verif
