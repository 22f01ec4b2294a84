import Verif.Lemmas.KeepLengths
import Verif.Lemmas.AutogradView
import Verif.Props.EmptyProducts

/-!
# The array operations of backward passes on arrays of any rank, with or without elements

As Lemmas/AutogradArr.lean and Lemmas/BackwardNodes.lean, but only for operations that complete.
-/

namespace Verif.Weak

variable {α : Type}

/-- If the operation completes, then its result is a well-formed array denoting the given tensor. -/
structure Gives (x : Res (Arr α)) (s : List Nat) (f : List Nat → α) : Prop where
  of_ok : ∀ r, x = .ok r → r.WF ∧ r.Denotes s f

theorem Gives.of {u : Option (List Nat)} {x : Res (Arr α)} {s : List Nat} {f : List Nat → α} (h : Verif.Gives u x s f) : Gives x s f := by
  obtain ⟨r, h1, h2, h3⟩ := h
  exact ⟨fun r' e => by rw [h1] at e; cases e; exact ⟨h2.wf, h3⟩⟩

theorem Gives.error (e : Err) (s : List Nat) (f : List Nat → α) : Gives (.error e) s f := ⟨fun _ h => by cases h⟩

theorem Gives.congr {x : Res (Arr α)} {s : List Nat} {f g : List Nat → α} (h : Gives x s f) (hfg : ∀ i, InB i s → f i = g i) :
    Gives x s g := ⟨fun r e => ⟨(h.of_ok r e).1, (h.of_ok r e).2.congr hfg⟩⟩

theorem Gives.bind {x : Res (Arr α)} {s t : List Nat} {f g : List Nat → α} {k : Arr α → Res (Arr α)} (h : Gives x s f)
    (hk : ∀ r : Arr α, r.WF → r.Denotes s f → Gives (k r) t g) : Gives (x >>= k) t g := by
  refine ⟨fun r e => ?_⟩
  obtain ⟨q, h1, h2⟩ := bind_eq_ok.1 e
  exact (hk q (h.of_ok q h1).1 (h.of_ok q h1).2).of_ok r h2

theorem gives_fresh (s : List Nat) (f : List Nat → α) : Gives (.ok (Arr.fromContiguousOwnedBuffer s (elements s f))) s f :=
  .of (Verif.gives_fresh s f)

/-- A fresh array without elements. -/
theorem empty_fresh {s : List Nat} (h0 : numel s = 0) {data : List α} (hl : data.length = numel s) (f : List Nat → α) :
    (Arr.fromContiguousOwnedBuffer s data).WF ∧ (Arr.fromContiguousOwnedBuffer s data).Denotes s f :=
  ⟨Arr.WF.fromContiguous hl, denotes_of_zero (a := Arr.fromContiguousOwnedBuffer s data) (length_strideFromShape s) (numel_eq_zero.1 h0) f⟩

section
variable [Field α] [Build]

theorem gives_bin (op : SOp) {a b : Arr α} {s t r : List Nat} {fa fb : List Nat → α} (ha : a.Denotes s fa)
    (hb : b.Denotes t fb) (hc : Compatible s t) (hj : IsJoint s t r) :
    Gives (op.arr a b) r (fun i => op.run (fa (broadcastIndex s i)) (fb (broadcastIndex t i))) := by
  unfold SOp.arr
  by_cases h0 : numel r = 0
  · refine ⟨fun q hq => ?_⟩
    obtain ⟨s', data, hs, hl, rfl⟩ := binOp_fresh _ (binLoops_keep _) _ hq
    obtain ⟨r', e1, e2⟩ := (broadcastShapes_spec s t).1 hc
    rw [ha.1, hb.1, e1] at hs
    cases hs
    obtain rfl := e2.unique hj
    exact empty_fresh h0 hl _
  · rcases binOp_or (binLoops_correct op.run) 0 ha hb hc hj h0 with e | ⟨_, e⟩
    · rw [e, mapM_id_elements (fun _ _ => rfl)]
      exact gives_fresh _ _
    · rw [e]; exact .error _ _ _

/-- the right operand has the shape of the result -/
theorem gives_left (op : SOp) {a b : Arr α} {s r : List Nat} {fa fb : List Nat → α} (ha : a.Denotes s fa)
    (hb : b.Denotes r fb) (h : BroadcastsTo s r) : Gives (op.arr a b) r (fun i => op.run (fa (broadcastIndex s i)) (fb i)) :=
  (gives_bin op ha hb h.compatible h.joint).congr fun i hi => by rw [broadcastIndex_self hi]

/-- the left operand has the shape of the result -/
theorem gives_right (op : SOp) {a b : Arr α} {s r : List Nat} {fa fb : List Nat → α} (ha : a.Denotes r fa)
    (hb : b.Denotes s fb) (h : BroadcastsTo s r) : Gives (op.arr a b) r (fun i => op.run (fa i) (fb (broadcastIndex s i))) :=
  (gives_bin op ha hb h.compatible.symm (h.joint.symm h.compatible)).congr fun i hi => by rw [broadcastIndex_self hi]

theorem gives_scalar (op : SOp) {a : Arr α} {s : List Nat} {fa : List Nat → α} (ha : a.Denotes s fa) (c : α) :
    Gives (op.arrScalar a c) s (fun i => op.run (fa i) c) := by
  unfold SOp.arrScalar
  by_cases h0 : numel s = 0
  · refine ⟨fun q hq => ?_⟩
    obtain ⟨data, hl, rfl⟩ := binOpScalar_fresh _ (binLoops_keep _) _ hq
    rw [ha.1] at hl ⊢
    exact empty_fresh h0 hl _
  · rcases binOpScalar_or (binLoops_correct op.run) 0 ha c h0 with e | ⟨_, e⟩
    · rw [e, mapM_id_elements (fun _ _ => rfl)]
      exact gives_fresh _ _
    · rw [e]; exact .error _ _ _

theorem gives_neg {a : Arr α} {s : List Nat} {fa : List Nat → α} (ha : a.Denotes s fa) : Gives a.negA s (fun i => - fa i) := by
  unfold Arr.negA
  by_cases h0 : numel s = 0
  · refine ⟨fun q hq => ?_⟩
    obtain ⟨data, hl, rfl⟩ := neg_fresh _ (negLoops_keep _) _ hq
    rw [ha.1] at hl ⊢
    exact empty_fresh h0 hl _
  · rcases neg_or (negLoops_correct fun x : α => -x) 0 ha h0 with e | ⟨_, e⟩
    · rw [e, mapM_id_elements (fun _ _ => rfl)]
      exact gives_fresh _ _
    · rw [e]; exact .error _ _ _

omit [Build] in
theorem gives_one : Gives (Arr.scalar (1 : α)) [] (fun _ => 1) := .of Verif.gives_one

omit [Build] in
theorem gives_sumAlong {a : Arr α} {s : List Nat} {f : List Nat → α} (ha : a.Denotes s f)
    {axes : List Int} {ks : List Nat} (hax : AxesAre axes s.length ks) (hnd : ks.Nodup) :
    Gives (a.sumAlong axes) (dropAxes ks s) (fun J => ((fibre ks s J).map f).sum) := by
  unfold Arr.sumAlong
  rcases reduceAlong_or (fun v acc => acc + v) ha hax hnd 0 with e | ⟨_, e⟩
  · rw [e]
    exact (gives_fresh _ _).congr fun J _ => foldOver_add f _
  · rw [e]; exact .error _ _ _

theorem gives_matmul {a b : Arr α} {m k n : Nat} {f g : List Nat → α} (ha : a.Denotes [m, k] f) (hb : b.Denotes [k, n] g) :
    Gives (a.matmul sopLoops b) [m, n]
      (fun idx => innerProduct k (fun t => f [idx.getD 0 0, t]) (fun t => g [t, idx.getD 1 0])) := by
  have h := C30_empty (K := sopLoops) ha hb
  by_cases hmn : m = 0 ∨ n = 0
  · rw [h.1 hmn]; exact .error _ _ _
  · by_cases hk : k = 0
    · rw [h.2 (by omega) (by omega) hk]; exact .error _ _ _
    · exact .of (Verif.gives_matmul ha hb (by omega) (by omega) (by omega))

theorem gives_bmm {a b : Arr α} {B m k n : Nat} {f g : List Nat → α} (ha : a.Denotes [B, m, k] f) (hb : b.Denotes [B, k, n] g) :
    Gives (a.bmm sopLoops b) [B, m, n] (fun idx =>
      innerProduct k (fun t => f [idx.getD 0 0, idx.getD 1 0, t]) (fun t => g [idx.getD 0 0, t, idx.getD 2 0])) := by
  have h := C31_empty (K := sopLoops) ha hb
  by_cases hmn : B = 0 ∨ m = 0 ∨ n = 0
  · rw [h.1 hmn]; exact .error _ _ _
  · by_cases hk : k = 0
    · rw [h.2 (by omega) (by omega) (by omega) hk]; exact .error _ _ _
    · exact .of (Verif.gives_bmm ha hb (by omega) (by omega) (by omega) (by omega))

omit [Build] in
/-- A batched product of matrices that do not match, or with an extent 0, does not complete. -/
theorem bmm_matches {K : SopKernels α} {a b r : Arr α} (hla : a.stride.length = a.shape.length) (hlb : b.stride.length = b.shape.length)
    (h : a.bmm K b = .ok r) : ∃ B m k n, a.shape = [B, m, k] ∧ b.shape = [B, k, n] := by
  have hpos : 0 ∉ a.shape ∧ 0 ∉ b.shape := by
    unfold Arr.bmm at h
    obtain ⟨_, h1, h⟩ := bind_eq_ok.1 h
    obtain ⟨_, h2, h⟩ := bind_eq_ok.1 h
    obtain ⟨_, h3, h⟩ := bind_eq_ok.1 h
    have h1 : a.ndims = 3 := by
      by_contra hc; rw [assert_fail (decide_eq_false hc)] at h1; cases h1
    have h2 : b.ndims = 3 := by
      by_contra hc; rw [assert_fail (decide_eq_false hc)] at h2; cases h2
    have h3 : a.lenMethod = b.lenMethod := by
      by_contra hc; rw [assert_fail (decide_eq_false hc)] at h3; cases h3
    obtain ⟨B, m, k, hs⟩ := List.length_eq_three.1 h1
    obtain ⟨B', k', n, hs'⟩ := List.length_eq_three.1 h2
    obtain ⟨d0, d1, d2, hd⟩ := List.length_eq_three.1 (hla.trans h1)
    obtain ⟨e0, e1, e2, he⟩ := List.length_eq_three.1 (hlb.trans h2)
    rw [show a.lenMethod = B by simp [Arr.lenMethod, hs], show b.lenMethod = B' by simp [Arr.lenMethod, hs']] at h3
    subst h3
    obtain ⟨_, _, h⟩ := bind_eq_ok.1 h
    obtain ⟨_, _, h⟩ := bind_eq_ok.1 h
    obtain ⟨z, hz, h⟩ := bind_eq_ok.1 h
    obtain ⟨_, h, _⟩ := bind_eq_ok.1 h
    obtain ⟨_, hx, h⟩ := bind_eq_ok.1 h
    obtain ⟨_, hy, h⟩ := bind_eq_ok.1 h
    have slice : ∀ (c q : Arr α) (x y d d' d'' : Nat), c.shape = [B, x, y] → c.stride = [d, d', d''] → c.sliceAlong 0 (.at 0) = .ok q →
        0 ∉ [x, y] := by
      intro c q x y d d' d'' hc hc' hq hz
      have hk' : asAbsolute 0 c.ndims = .ok 0 := asAbsolute_ok (k := 0) ⟨by simp [Arr.ndims, hc], .inl rfl⟩
      unfold Arr.sliceAlong at hq
      rw [hk', hc, hc'] at hq
      have hq : c.sliceResult [x, y] [d', d''] (d * 0) true = .ok q := hq
      unfold Arr.sliceResult at hq
      rw [bufferLength_of_zero (s := [x, y]) (st := [d', d'']) rfl hz] at hq
      cases hq
    have hB : B ≠ 0 := by
      rintro rfl
      rw [show a.lenMethod = 0 by simp [Arr.lenMethod, hs], zeros_empty (by simp)] at hz
      cases hz
    have s1 := slice a _ m k d0 d1 d2 hs hd hx
    have s2 := slice b _ k' n e0 e1 e2 hs' he hy
    rw [hs, hs']
    refine ⟨fun h => ?_, fun h => ?_⟩
    · rcases List.mem_cons.1 h with h | h
      · exact hB h.symm
      · exact s1 h
    · rcases List.mem_cons.1 h with h | h
      · exact hB h.symm
      · exact s2 h
  by_contra hc
  rw [C31_bmm_rejects hla hlb hpos.1 hpos.2] at h
  · cases h
  · by_contra hn
    simp only [not_or, not_not] at hn
    obtain ⟨h1, h2, h3, h4⟩ := hn
    obtain ⟨B, m, k, hs⟩ := List.length_eq_three.1 h1
    obtain ⟨B', k', n, hs'⟩ := List.length_eq_three.1 h2
    rw [hs, hs'] at h3 h4
    simp at h3 h4
    subst h3 h4
    exact hc ⟨B, m, k, n, hs, hs'⟩

/-! ### gradients of broadcast operands -/

omit [Build] in
theorem reduceGradient_ok {g : Arr α} {s r : List Nat} {G : List Nat → α} (hg : g.Denotes r G)
    (h : BroadcastsTo s r) (hne : s ≠ r) : Gives (reduceGradient g s) s (collect s r G) := by
  unfold reduceGradient
  have he : ¬ g.shape = s := fun he => hne (he ▸ hg.1)
  rw [if_neg he]
  by_cases h0 : 0 ∈ r
  · have hidx : indices r = [] := by
      apply List.eq_nil_iff_forall_not_mem.2
      intro i hi
      exact not_InB_of_zero h0 (mem_indices.1 hi)
    have hax : ∃ ks : List Nat, getBroadcastedAxes r s = .ok (ks.map Int.ofNat) ∧ ks.Nodup ∧ ∀ k ∈ ks, k < r.length := by
      unfold getBroadcastedAxes
      rw [if_neg (by have := h.1; omega)]
      exact ⟨_, rfl, List.nodup_range.filter _, fun k hk => List.mem_range.1 (List.mem_filter.1 hk).1⟩
    obtain ⟨ks, h1, h2, h3⟩ := hax
    rw [hg.1, h1, ok_bind]
    refine (gives_sumAlong hg (axesAre_ofNat h3) h2).bind fun q w d => ?_
    rcases gives_reshape w d (ns := s) with ⟨hp, _⟩ | ⟨_, _, hgv⟩
    · rw [hp.2]; exact .error _ _ _
    · refine (Gives.of hgv).congr fun J _ => ?_
      unfold fibre collect
      rw [hidx]
      simp
  · obtain ⟨ks, h1, h2, h3, h4⟩ := getBroadcastedAxes_ok h h0
    rw [hg.1, h1, ok_bind]
    refine (gives_sumAlong hg (axesAre_ofNat h3) h2).bind fun q w d => ?_
    rcases gives_reshape w d (ns := s) with ⟨hp, _⟩ | ⟨⟨hn, _⟩, _, hgv⟩
    · rw [hp.2]; exact .error _ _ _
    · refine (Gives.of hgv).congr fun J hJ => ?_
      unfold collect fibre
      congr 2
      refine List.filter_congr fun idx hi => ?_
      have hi := mem_indices.1 hi
      obtain ⟨_, k2, k3, _⟩ := h4 idx hi
      have hlt : rank J s < numel (dropAxes ks r) := by rw [← hn]; exact rank_lt hJ
      congr 1
      apply propext
      constructor
      · intro hh
        rw [hh, rank_unrank hlt] at k3
        rw [← unrank_rank hJ, ← unrank_rank (InB_broadcastIndex h hi), k3]
      · intro hh
        rw [← unrank_rank k2, k3, hh]

/-- A gradient that is passed on. -/
structure Passes (x : Store α → Res (GradArr α)) (s : List Nat) (G : List Nat → α) : Prop where
  of_ok : ∀ st q, x st = .ok q → ∃ g, q = ⟨g, none⟩ ∧ g.WF ∧ g.Denotes s G

omit [Build] in
theorem Gives.passes {x : Res (Arr α)} {s : List Nat} {G : List Nat → α} (h : Gives x s G) : Passes (fun _ => fresh x) s G := by
  refine ⟨fun _ q hq => ?_⟩
  obtain ⟨g, hg, hq⟩ := bind_eq_ok.1 hq
  cases hq
  exact ⟨g, rfl, h.of_ok g hg⟩

omit [Build] in
theorem fit_ok {g : Arr α} (hw : g.WF) {s r : List Nat} {G : List Nat → α} (hg : g.Denotes r G)
    (h : BroadcastsTo s r) : Passes (fun st => fit ⟨g, none⟩ st s) s (collect s r G) := by
  refine ⟨fun st q hq => ?_⟩
  unfold fit at hq
  by_cases he : s = g.shape
  · rw [if_pos he] at hq
    cases hq
    have : s = r := by rw [he, hg.1]
    subst this
    exact ⟨g, rfl, hw, hg.congr fun J hJ => (collect_self G hJ).symm⟩
  · rw [if_neg he] at hq
    have hne : s ≠ r := by rw [hg.1] at he; exact he
    exact (reduceGradient_ok hg h hne).passes.of_ok st q hq

omit [Build] in
theorem freshFit_ok {x : Res (Arr α)} {s r : List Nat} {G : List Nat → α} (hx : Gives x r G)
    (h : BroadcastsTo s r) : Passes (fun st => freshFit x st s) s (collect s r G) := by
  refine ⟨fun st q hq => ?_⟩
  obtain ⟨g', hg', hq⟩ := bind_eq_ok.1 hq
  obtain ⟨g, rfl, hw, hd⟩ := hx.passes.of_ok st g' hg'
  exact (fit_ok hw hd h).of_ok st q hq

omit [Build] in
theorem freshFit_same {x : Res (Arr α)} {s : List Nat} {G : List Nat → α} (hx : Gives x s G) :
    Passes (fun st => freshFit x st s) s G := by
  refine ⟨fun st q hq => ?_⟩
  obtain ⟨g', hg', hq⟩ := bind_eq_ok.1 hq
  obtain ⟨g, rfl, hw, hd⟩ := hx.passes.of_ok st g' hg'
  unfold fit at hq
  rw [if_pos hd.1.symm] at hq
  cases hq
  exact ⟨g, rfl, hw, hd⟩

end

end Verif.Weak
