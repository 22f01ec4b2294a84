import Verif.Props.FloatArith
import Verif.Props.Views
import Verif.Lemmas.ReduceGradient

/-!
# C82: a linear layer `x.matmul(&w) + &b` in floating point, forwards and backwards

The layer is run as it is: `Tensor.matmul`, `Tensor.bin .add`, `Tensor.backwardWith` on floats of `p` bits (`Fl p`), with the loops of any of the
builds.
-/

namespace Verif

/-! ### the parts -/

section parts
variable {α : Type}

/-- What the accumulator of a leaf of shape `s` looks like between backward passes: rows one after the other, writeable, holding `F`. -/
def Holds (a : Arr α) (s : List Nat) (F : List Nat → α) : Prop :=
  a.Denotes s F ∧ a.stride = strideFromShape s ∧ a.flags.writeable = true

/-- A leaf: either it takes no part in differentiation, or its gradients are collected in an accumulator of `st`, which then is `i`. -/
def LeafAt (t : Tensor α) (st : Store α) (s : List Nat) (F : List Nat → α) : Prop :=
  t.requiresGrad = false ∧ t.gradFn = .none ∨
  t.requiresGrad = true ∧ ∃ i a, t.gradFn = .acc i ∧ st[i]? = some a ∧ Holds a s F

theorem loops_correct [Build] (f : α → α → α) : (binLoops f).Correct (fun x y => .ok (f x y)) (· ≠ 0) := by
  unfold binLoops
  split
  · exact ⟨fun _ _ _ _ _ _ _ => (portable_correct _).s01 _ _ _ _ _ _ trivial, fun _ _ _ _ _ _ _ => (portable_correct _).s10 _ _ _ _ _ _ trivial,
      fun _ _ _ _ _ _ _ _ => (portable_correct _).sn0 _ _ _ _ _ _ _ trivial, fun _ _ _ _ _ _ _ _ => (portable_correct _).s0n _ _ _ _ _ _ _ trivial,
      fun _ _ _ _ _ _ _ => (portable_correct _).s11 _ _ _ _ _ _ trivial, fun _ _ _ _ _ _ _ _ => (portable_correct _).sn1 _ _ _ _ _ _ _ trivial,
      fun _ _ _ _ _ _ _ _ => (portable_correct _).s1n _ _ _ _ _ _ _ trivial, fun _ _ _ _ _ _ _ _ _ => (portable_correct _).snn _ _ _ _ _ _ _ _ trivial⟩
  · exact simd_correct f 2
  · exact simd_correct f 4


/-- What the user sees of it. -/
theorem LeafAt.gradient {t : Tensor α} {st : Store α} {s : List Nat} {F : List Nat → α} (h : LeafAt t st s F) (hr : t.requiresGrad = true) :
    ∃ a, t.gradient st = some a ∧ a.Denotes s F := by
  rcases h with ⟨h, _⟩ | ⟨_, i, a, hi, ha, hF⟩
  · rw [h] at hr; cases hr
  · refine ⟨a.view, ?_, hF.1⟩
    unfold Tensor.gradient
    rw [hi]
    show st[i]?.map Arr.view = _
    rw [ha]; rfl

/-- Handing a gradient to a leaf: it is added to what its accumulator holds, and no other accumulator changes. -/
theorem push_leaf [Add α] [Sub α] [Mul α] [Div α] [Neg α] [Zero α] [One α] [MulAdd α] [Build] {t : Tensor α} {st : Store α} {s : List Nat}
    {F h : List Nat → α} {c : Arr α} (hl : LeafAt t st s F) (hc : c.Denotes s h) (hd : s.length ≤ 32) (h0 : numel s ≠ 0) :
    ∃ st', callNext t.gradFn.isNone st (.ok ⟨c, .none⟩) (fun g => backward t.gradFn g st) = .ok st' ∧ LeafAt t st' s (fun i => F i + h i) ∧
      ∀ j, t.gradFn ≠ .acc j → st'[j]? = st[j]? := by
  rcases hl with ⟨h1, h2⟩ | ⟨h1, i, a, h2, h3, ha, hst, hwr⟩
  · exact ⟨st, by rw [h2]; rfl, .inl ⟨h1, h2⟩, fun _ _ => rfl⟩
  · obtain ⟨buf', e, hu, _, _⟩ := assign_of_range (loops_correct fun x y : α => x + y) (a := a) (b := c) (t := s) (fa := F) (fb := h)
      (h := fun i => F i + h i) (by rw [ha.1, hst, offsets_strideFromShape]) hwr (by rw [ha.1]; exact ha) hc
      (by rw [ha.1]; exact BroadcastsTo.refl s) (by rw [ha.1]; exact hd) (by rw [ha.1]; exact h0)
      (fun idx hi => by rw [ha.1] at hi; rw [broadcastIndex_self hi])
    have hlt : i < st.length := by
      by_contra hn
      rw [List.getElem?_eq_none (by omega)] at h3; cases h3
    refine ⟨st.set i { a with buf := buf' }, ?_, .inr ⟨h1, i, { a with buf := buf' }, h2, ?_, ?_, hst, hwr⟩, fun j hj => ?_⟩
    · rw [h2]
      show accumulate i ⟨c, .none⟩ st = _
      unfold accumulate
      rw [h3]
      show (assume (decide (a.shape = c.shape)) >>= fun _ => _) = _
      rw [show decide (a.shape = c.shape) = true by rw [ha.1, hc.1]; simp]
      show (a.opAssign _ _ false c >>= fun _ => _) = _
      rw [e]; rfl
    · rw [List.getElem?_set_self hlt]
    · have hs := ha.1
      exact hs ▸ hu
    · rw [List.getElem?_set_ne]
      rintro rfl; exact hj h2

theorem LeafAt.of_eq {t : Tensor α} {st st' : Store α} {s : List Nat} {F : List Nat → α} (h : LeafAt t st s F)
    (he : ∀ j, t.gradFn = .acc j → st'[j]? = st[j]?) : LeafAt t st' s F := by
  rcases h with h | ⟨h1, i, a, h2, h3, h4⟩
  · exact .inl h
  · exact .inr ⟨h1, i, a, h2, (he i h2).trans h3, h4⟩

theorem fibre_rows (m n : Nat) {j : Nat} (hj : j < n) : fibre [0] [m, n] [j] = (List.range m).map fun i => [i, j] := by
  have hrow : ∀ i, ((indices [n]).map (i :: ·)).filter (fun idx => decide (dropAxes [0] idx = [j])) = [[i, j]] := by
    intro i
    rw [indices_one, List.map_map, List.filter_map]
    rw [show ((fun idx => decide (dropAxes [0] idx = [j])) ∘ ((fun x => i :: x) ∘ fun i => [i])) = fun t => decide (t = j) from by
      funext t
      show decide (dropAxes [0] [i, t] = [j]) = _
      rw [show dropAxes [0] [i, t] = [t] from rfl]; simp]
    rw [List.filter_eq, List.count_eq_one_of_mem List.nodup_range (List.mem_range.2 hj)]
    rfl
  unfold fibre
  rw [show indices [m, n] = (List.range m).flatMap fun i => (indices [n]).map (i :: ·) from rfl, List.filter_flatMap]
  simp only [hrow]
  rw [List.map_eq_flatMap]

theorem joint_row (m n : Nat) : Compatible [m, n] [n] ∧ IsJoint [m, n] [n] [m, n] := by
  refine ⟨fun k => ?_, rfl, fun k => ?_⟩
  · rcases k with _ | _ | k <;> simp [extentFromRight]
  · rcases k with _ | _ | k <;> simp [extentFromRight]

end parts

/-! ### C82 -/

variable {p : Nat} [NeZero p]

theorem stock_loops [Build] : StockSop (sopLoops : SopKernels (Fl p)) := by
  unfold sopLoops StockSop
  split <;> simp

/-- `grad.matmul(w.T())`. -/
theorem lhs_gradient [Build] {g w : Arr (Fl p)} {m k n : Nat} {G v : List Nat → Fl p} (hg : g.Denotes [m, n] G) (hw : w.Denotes [k, n] v)
    (hm : 0 < m) (hk : 0 < k) (hn : 0 < n) :
    ∃ r d, matmulTransposed g w = .ok r ∧ r.Denotes [m, k] d ∧ ∀ i < m, ∀ t < k,
      AccurateTo p n (d [i, t]).val (innerProduct n (fun j => (G [i, j]).val) fun j => (v [t, j]).val)
        (innerProduct n (fun j => |(G [i, j]).val|) fun j => |(v [t, j]).val|) := by
  obtain ⟨w', e1, h1⟩ := C14_T hw
  obtain ⟨r, d, e2, h2, h3⟩ := C63_matmul_partial stock_loops hg h1 hm hn hk
  refine ⟨r, d, ?_, h2, h3⟩
  unfold matmulTransposed
  rw [e1]; exact e2

/-- `x.T().matmul(grad)`. -/
theorem rhs_gradient [Build] {g x : Arr (Fl p)} {m k n : Nat} {G u : List Nat → Fl p} (hg : g.Denotes [m, n] G) (hx : x.Denotes [m, k] u)
    (hm : 0 < m) (hk : 0 < k) (hn : 0 < n) :
    ∃ r d, transposedMatmul x g = .ok r ∧ r.Denotes [k, n] d ∧ ∀ t < k, ∀ j < n,
      AccurateTo p m (d [t, j]).val (innerProduct m (fun i => (u [i, t]).val) fun i => (G [i, j]).val)
        (innerProduct m (fun i => |(u [i, t]).val|) fun i => |(G [i, j]).val|) := by
  obtain ⟨x', e1, h1⟩ := C14_T hx
  obtain ⟨r, d, e2, h2, h3⟩ := C63_matmul_partial stock_loops h1 hg hk hm hn
  refine ⟨r, d, ?_, h2, h3⟩
  unfold transposedMatmul
  rw [e1]; exact e2

/-- The gradient of a row that was stretched over `m` rows. -/
theorem row_gradient [Build] {g : Arr (Fl p)} {m n : Nat} {G : List Nat → Fl p} (hg : g.Denotes [m, n] G) (st : Store (Fl p)) :
    ∃ r d, fit ⟨g, .none⟩ st [n] = .ok ⟨r, .none⟩ ∧ r.Denotes [n] d ∧ ∀ j < n,
      AccurateTo p (m - 1) (d [j]).val ((List.range m).map fun i => (G [i, j]).val).sum ((List.range m).map fun i => |(G [i, j]).val|).sum := by
  obtain ⟨r, d, e, h1, h2⟩ := C63_sum_along hg (by simp) (axes := [0]) (ks := [0]) ⟨⟨by simp, by simp⟩, trivial⟩ (by simp)
  have hr : r.Denotes [n] d := h1
  refine ⟨r.intoReshapedView r.shape r.stride, d, ?_, hr, fun j hj => ?_⟩
  · unfold fit
    rw [if_neg (by rw [hg.1]; simp)]
    unfold reduceGradient GradArr.get
    rw [if_neg (by rw [hg.1]; simp)]
    rw [show getBroadcastedAxes g.shape [n] = .ok [0] by
      rw [hg.1]
      unfold getBroadcastedAxes
      rw [if_neg (by simp)]
      have h1 : ¬ (n = 1 ∧ 1 < n) := by omega
      simp [List.range_succ, h1]]
    rw [ok_bind, e, ok_bind]
    unfold Arr.intoReshape Arr.reshapeLayout
    rw [if_pos hr.1.symm]
    rfl
  · have := h2 [j] ⟨hj, trivial⟩
    rw [fibre_rows m n hj] at this
    simpa [List.map_map, Function.comp_def] using this

/-- **C82.** `z = x.matmul(&w) + &b` for leaves `x`, `w`, `b` (with or without gradients, in any layout, whatever their accumulators
hold) and `z.backward_with(g)`: neither can fail, the values are accurate to `k + 1` roundings, and what is added to the gradients
of `x`, `w` and `b` is accurate to `n`, `m` and `m - 1` roundings of `g wᵀ`, `xᵀ g` and the column sums of `g`. No other accumulator
changes, so passes can be repeated. -/
theorem C82_linear [Build] {X W b : Tensor (Fl p)} {m k n : Nat} {x w c FX FW Fb : List Nat → Fl p} {st : Store (Fl p)}
    (hX : X.arr.Denotes [m, k] x) (hW : W.arr.Denotes [k, n] w) (hb : b.arr.Denotes [n] c) (hm : 0 < m) (hk : 0 < k) (hn : 0 < n)
    (lX : LeafAt X st [m, k] FX) (lW : LeafAt W st [k, n] FW) (lb : LeafAt b st [n] Fb)
    (hXW : ∀ i, X.gradFn = .acc i → W.gradFn ≠ .acc i) (hXb : ∀ i, X.gradFn = .acc i → b.gradFn ≠ .acc i)
    (hWb : ∀ i, W.gradFn = .acc i → b.gradFn ≠ .acc i) :
    ∃ y z f, X.matmul W = .ok y ∧ y.bin .add b = .ok z ∧ z.arr.Denotes [m, n] f ∧
      (∀ i < m, ∀ j < n, AccurateTo p (k + 1) (f [i, j]).val (innerProduct k (fun t => (x [i, t]).val) (fun t => (w [t, j]).val) + (c [j]).val)
        (innerProduct k (fun t => |(x [i, t]).val|) (fun t => |(w [t, j]).val|) + |(c [j]).val|)) ∧
      ∀ g G, g.Denotes [m, n] G → ∃ st', ∃ dX dW db : List Nat → Fl p, z.backwardWith ⟨g, .none⟩ st = .ok st' ∧
        LeafAt X st' [m, k] (fun idx => FX idx + dX idx) ∧ LeafAt W st' [k, n] (fun idx => FW idx + dW idx) ∧
        LeafAt b st' [n] (fun idx => Fb idx + db idx) ∧
        (∀ i, X.gradFn ≠ .acc i → W.gradFn ≠ .acc i → b.gradFn ≠ .acc i → st'[i]? = st[i]?) ∧
        (∀ i < m, ∀ t < k, AccurateTo p n (dX [i, t]).val (innerProduct n (fun j => (G [i, j]).val) fun j => (w [t, j]).val)
          (innerProduct n (fun j => |(G [i, j]).val|) fun j => |(w [t, j]).val|)) ∧
        (∀ t < k, ∀ j < n, AccurateTo p m (dW [t, j]).val (innerProduct m (fun i => (x [i, t]).val) fun i => (G [i, j]).val)
          (innerProduct m (fun i => |(x [i, t]).val|) fun i => |(G [i, j]).val|)) ∧
        ∀ j < n, AccurateTo p (m - 1) (db [j]).val ((List.range m).map fun i => (G [i, j]).val).sum
          ((List.range m).map fun i => |(G [i, j]).val|).sum := by
  obtain ⟨r, v, e1, h1, a1⟩ := C63_matmul_partial stock_loops hX hW hm hk hn
  have e2 : X.matmul W = .ok (.mk' r (X.requiresGrad || W.requiresGrad) (.matMul X.gradFn W.gradFn X.arr W.arr)) := by
    have d1 : X.arr.ndims = 2 := by unfold Arr.ndims; rw [hX.1]; rfl
    have d2 : W.arr.ndims = 2 := by unfold Arr.ndims; rw [hW.1]; rfl
    unfold Tensor.matmul
    rw [if_neg (by rw [d1]; simp), e1, ok_bind]
    rw [if_neg (by rw [d2]; simp), if_pos ⟨d1, d2⟩]
    rfl
  set req := X.requiresGrad || W.requiresGrad with hreq
  set y : Tensor (Fl p) := .mk' r req (.matMul X.gradFn W.gradFn X.arr W.arr) with hy
  have e3 : SOp.add.arr r b.arr = .ok (Arr.fromContiguousOwnedBuffer [m, n] (elements [m, n] fun idx =>
      v (broadcastIndex [m, n] idx) + c (broadcastIndex [n] idx))) := by
    have h0 : numel [m, n] ≠ 0 := by simp [numel]; omega
    unfold SOp.arr
    rw [binOp_eq (loops_correct _) 0 h1 hb (joint_row m n).1 (joint_row m n).2 (by simp [maxDims]) h0, mapM_id_elements (fun _ _ => rfl)]
    rfl
  refine ⟨y, .mk' _ (req || b.requiresGrad) (.add y.gradFn b.gradFn [m, n] [n]),
    fun idx => v (broadcastIndex [m, n] idx) + c (broadcastIndex [n] idx), e2, ?_, denotes_fromContiguous, fun i hi j hj => ?_, fun g G hg => ?_⟩
  · unfold Tensor.bin
    rw [show y.arr = r from rfl, e3, ok_bind]
    show Except.ok (Tensor.mk' _ (y.requiresGrad || b.requiresGrad) (.add y.gradFn b.gradFn y.arr.shape b.arr.shape)) = _
    rw [show y.arr.shape = [m, n] from h1.1, hb.1]
    rfl
  · have ha := a1 i hi j hj
    have hin : InB [i, j] [m, n] := ⟨hi, hj, trivial⟩
    show AccurateTo p (k + 1) (v (broadcastIndex [m, n] [i, j]) + c (broadcastIndex [n] [i, j])).val _ _
    rw [broadcastIndex_self hin, show broadcastIndex [n] [i, j] = [j] from broadcastIndex_self (s := [n]) (idx := [j]) ⟨hj, trivial⟩]
    have hB : |innerProduct k (fun t => (x [i, t]).val) (fun t => (w [t, j]).val)| ≤
        innerProduct k (fun t => |(x [i, t]).val|) (fun t => |(w [t, j]).val|) := by
      unfold innerProduct
      generalize List.range k = l
      induction l with
      | nil => simp
      | cons t l ih =>
        simp only [List.map_cons, List.sum_cons]
        refine (abs_add_le _ _).trans (add_le_add (abs_mul _ _).le ih)
    exact ((Near.add ⟨hB, ha⟩ (near_self k le_rfl)).rnd).2
  · obtain ⟨rX, dX, eX, hdX, aX⟩ := lhs_gradient hg hW hm hk hn
    obtain ⟨rW, dW, eW, hdW, aW⟩ := rhs_gradient hg hX hm hk hn
    have hmid : ∃ st₂, callNext y.gradFn.isNone st (fit ⟨g, .none⟩ st [m, n]) (fun g => backward y.gradFn g st) = .ok st₂ ∧
        LeafAt X st₂ [m, k] (fun idx => FX idx + dX idx) ∧ LeafAt W st₂ [k, n] (fun idx => FW idx + dW idx) ∧
        ∀ i, X.gradFn ≠ .acc i → W.gradFn ≠ .acc i → st₂[i]? = st[i]? := by
      cases hq : req with
      | false =>
        rw [hq] at hreq
        obtain ⟨qX, qW⟩ := Bool.or_eq_false_iff.1 hreq.symm
        refine ⟨st, ?_, .inl ⟨qX, ?_⟩, .inl ⟨qW, ?_⟩, fun _ _ _ => rfl⟩
        · rw [hy, hq]; rfl
        · rcases lX with h | h
          · exact h.2
          · rw [h.1] at qX; cases qX
        · rcases lW with h | h
          · exact h.2
          · rw [h.1] at qW; cases qW
      | true =>
        obtain ⟨st₁, b1, l1, o1⟩ := push_leaf lX hdX (by simp) (by simp [numel]; omega)
        obtain ⟨st₂, b2, l2, o2⟩ := push_leaf (lW.of_eq (st' := st₁) fun j hj => o1 j fun h => hXW j h hj) hdW (by simp) (by simp [numel]; omega)
        refine ⟨st₂, ?_, l1.of_eq fun j hj => o2 j (hXW j hj), l2, fun j hj hj' => (o2 j hj').trans (o1 j hj)⟩
        rw [hy, hq]
        show (fit ⟨g, .none⟩ st [m, n] >>= fun g => backward (.matMul X.gradFn W.gradFn X.arr W.arr) g st) = _
        rw [show fit ⟨g, .none⟩ st [m, n] = .ok ⟨g, .none⟩ from if_pos hg.1.symm, ok_bind, backward]
        show (callNext _ _ (fresh (matmulTransposed g W.arr)) _ >>= fun st => callNext _ _ (fresh (transposedMatmul X.arr g)) _) = _
        rw [eX, eW]
        show (callNext _ _ (.ok ⟨rX, .none⟩) _ >>= fun st => callNext _ _ (.ok ⟨rW, .none⟩) _) = _
        rw [b1]
        exact b2
    obtain ⟨st₂, b2, lX2, lW2, o2⟩ := hmid
    obtain ⟨rb, db, eb, hdb, ab⟩ := row_gradient hg st₂
    obtain ⟨st₃, b3, lb3, o3⟩ := push_leaf (lb.of_eq (st' := st₂) fun j hj => o2 j (fun h => hXb j h hj) fun h => hWb j h hj) hdb (by simp)
      (by simp [numel]; omega)
    have hsh : g.shape = [m, n] := hg.1
    cases hq : req || b.requiresGrad with
    | false =>
      obtain ⟨q1, qb⟩ := Bool.or_eq_false_iff.1 hq
      rw [hreq] at q1
      obtain ⟨qX, qW⟩ := Bool.or_eq_false_iff.1 q1
      have none_of : ∀ {t : Tensor (Fl p)} {s F}, LeafAt t st s F → t.requiresGrad = false → t.gradFn = .none := by
        intro t s F h q
        rcases h with h | h
        · exact h.2
        · rw [h.1] at q; cases q
      refine ⟨st, dX, dW, db, ?_, .inl ⟨qX, none_of lX qX⟩, .inl ⟨qW, none_of lW qW⟩, .inl ⟨qb, none_of lb qb⟩, fun _ _ _ _ => rfl, aX, aW, ab⟩
      unfold Tensor.backwardWith
      show (assert (decide (g.shape = [m, n])) >>= fun _ => _) = _
      rw [assert_ok (decide_eq_true hsh)]
      rfl
    | true =>
      refine ⟨st₃, dX, dW, db, ?_, lX2.of_eq fun j hj => o3 j (hXb j hj), lW2.of_eq fun j hj => o3 j (hWb j hj), lb3,
        fun j h1 h2 h3 => (o3 j h3).trans (o2 j h1 h2), aX, aW, ab⟩
      unfold Tensor.backwardWith
      show (assert (decide (g.shape = [m, n])) >>= fun _ => _) = _
      rw [assert_ok (decide_eq_true hsh), ok_bind]
      show backward (.add y.gradFn b.gradFn [m, n] [n]) ⟨g, .none⟩ st = _
      rw [backward, b2, ok_bind, eb]
      exact b3

/-- The hypotheses hold right after the leaves are made: `x` of shape [2, 3] without gradients, `w` and `b` with new accumulators. -/
example [Build] : let w : Tensor (Fl 24) := .fromContiguousOwnedBuffer [3, 2] [1, 1, 1, 1, 1, 1]
    let b : Tensor (Fl 24) := .fromContiguousOwnedBuffer [2] [1, 1]
    ∃ w' b' st st', w.setRequiresGrad true [] = .ok (w', st) ∧ b.setRequiresGrad true st = .ok (b', st') ∧
      LeafAt (Tensor.fromContiguousOwnedBuffer [2, 3] [1, 1, 1, 1, 1, 1] : Tensor (Fl 24)) st' [2, 3] (fun _ => 0) ∧
      LeafAt w' st' [3, 2] (fun _ => 0) ∧ LeafAt b' st' [2] (fun _ => 0) ∧
      w'.requiresGrad = true ∧ b'.requiresGrad = true ∧ ∀ i, w'.gradFn = .acc i → b'.gradFn ≠ .acc i := by
  have hz : ∀ s, (Arr.fromContiguousOwnedBuffer s (List.replicate (numel s) (0 : Fl 24))).Denotes s (fun _ => 0) := by
    intro s
    have := denotes_fromContiguous (s := s) (f := fun _ => (0 : Fl 24))
    rwa [show elements s (fun _ => (0 : Fl 24)) = List.replicate (numel s) 0 from by
      unfold elements
      rw [List.map_const', length_indices]] at this
  refine ⟨_, _, _, _, rfl, rfl, .inl ⟨rfl, rfl⟩, .inr ⟨rfl, 0, _, rfl, rfl, hz [3, 2], rfl, rfl⟩, .inr ⟨rfl, 1, _, rfl, rfl, hz [2], rfl, rfl⟩,
    rfl, rfl, ?_⟩
  rintro i h h'
  cases h; cases h'

end Verif
