import Verif.Lemmas.Transfer

/-!
# The model commutes with maps that preserve the operations: einsum, matrix products, reductions, vector kernels
-/

namespace Verif

variable {α β : Type}

/-! ### vectors -/

theorem mapM_map_res {ι : Type} (φ : α → β) (f : ι → Res α) (g : ι → Res β) (h : ∀ i, g i = φ <$> f i) (l : List ι) :
    l.mapM g = List.map φ <$> l.mapM f := by
  induction l with
  | nil => rfl
  | cons i l ih =>
    simp only [List.mapM_cons, h, ih, map_bind, bind_map_left, map_pure, List.map_cons]

theorem bufVec_map (φ : α → β) (L : Nat) (b : List α) (p s : Nat) : bufVec L (b.map φ) p s = List.map φ <$> bufVec L b p s :=
  mapM_map_res φ _ _ (fun _ => bufLoad_map φ b _) _

theorem bufVecStore_map (φ : α → β) : ∀ (v : List α) (p : Nat) (b : List α),
    bufVecStore (v.map φ) p (b.map φ) = List.map φ <$> bufVecStore v p b
  | [], _, _ => rfl
  | x :: v, p, b => by
    simp only [List.map_cons, bufVecStore, bufStore_map, map_bind, bind_map_left]
    congr 1; funext b'
    exact bufVecStore_map φ v _ b'

theorem zipWith_map' {op : α → α → α} {op' : β → β → β} {φ : α → β} (h : ∀ x y, φ (op x y) = op' (φ x) (φ y)) (x y : List α) :
    List.zipWith op' (x.map φ) (y.map φ) = (List.zipWith op x y).map φ := by
  rw [List.zipWith_map, List.map_zipWith]
  simp only [h]

theorem horizontal_map {op : α → α → α} {op' : β → β → β} {φ : α → β} (h : ∀ x y, φ (op x y) = op' (φ x) (φ y)) (v : List α) :
    horizontal op' (v.map φ) = φ <$> horizontal op v := by
  match v with
  | [] => rfl
  | [_] => rfl
  | [a, b] => show Except.ok _ = Except.ok _; rw [h]
  | [_, _, _] => rfl
  | [a, b, c, d] => show Except.ok _ = Except.ok _; simp only [h]
  | _ :: _ :: _ :: _ :: _ :: _ => rfl

theorem horizontalMul_map {op : α → α → α} {op' : β → β → β} {φ : α → β} (h : ∀ x y, φ (op x y) = op' (φ x) (φ y))
    (v : List α) : horizontalMul op' (v.map φ) = φ <$> horizontalMul op v := by
  match v with
  | [] => rfl
  | [_] => rfl
  | [a, b] => show Except.ok _ = Except.ok _; rw [h]
  | [_, _, _] => rfl
  | [a, b, c, d] => show Except.ok _ = Except.ok _; simp only [h]
  | _ :: _ :: _ :: _ :: _ :: _ => rfl

/-! ### reductions -/

section red
variable {φ : α → β} {step : α → α → α} {step' : β → β → β}

theorem redUniform_map (h : ∀ v acc, φ (step v acc) = step' (φ v) (φ acc)) (st : Nat) : ∀ (n : Nat) (b : List α) (p : Nat)
    (acc : α), redUniform step' st n (b.map φ) p (φ acc) = φ <$> redUniform step st n b p acc
  | 0, _, _, _ => rfl
  | n + 1, b, p, acc => by
    simp only [redUniform, bufLoad_map, map_bind, bind_map_left, ← h]
    congr 1; funext v
    exact redUniform_map h st n b _ _

/-- Reduction kernels commute with `φ`. -/
structure RedNat (φ : α → β) (K : RedKernels α) (K' : RedKernels β) : Prop where
  contiguous : ∀ b p n, K'.contiguous (b.map φ) p n = φ <$> K.contiguous b p n
  uniform : ∀ b p n st, K'.uniform (b.map φ) p n st = φ <$> K.uniform b p n st

theorem portableRed_nat (h : ∀ v acc, φ (step v acc) = step' (φ v) (φ acc)) (init : α) :
    RedNat φ (portableRed step init) (portableRed step' (φ init)) :=
  ⟨fun b p n => redUniform_map h 1 n b p init, fun b p n st => redUniform_map h st n b p init⟩

theorem simdRedUniform_map (h : ∀ v acc, φ (step v acc) = step' (φ v) (φ acc)) {op : α → α → α} {op' : β → β → β}
    (ho : ∀ x y, φ (op x y) = op' (φ x) (φ y)) {hz : List α → Res α} {hz' : List β → Res β}
    (hh : ∀ v, hz' (v.map φ) = φ <$> hz v) (L : Nat) (b : List α) (st n p : Nat) (acc : List α) :
    simdRedUniform step' op' hz' L (b.map φ) st n p (acc.map φ) = φ <$> simdRedUniform step op hz L b st n p acc := by
  induction n using Nat.strongRecOn generalizing p acc with
  | ind n ih =>
    rw [simdRedUniform, simdRedUniform]
    split
    · rename_i hn
      simp only [bufVec_map, map_bind, bind_map_left, zipWith_map' ho]
      congr 1; funext v
      exact ih (n - L) (by omega) _ _
    · simp only [hh, map_bind, bind_map_left, redUniform_map h]

theorem simdRedContiguous_map (h : ∀ v acc, φ (step v acc) = step' (φ v) (φ acc)) {op : α → α → α} {op' : β → β → β}
    (ho : ∀ x y, φ (op x y) = op' (φ x) (φ y)) {hz : List α → Res α} {hz' : List β → Res β}
    (hh : ∀ v, hz' (v.map φ) = φ <$> hz v) (L : Nat) (b : List α) (n p : Nat) (acc : List α) :
    simdRedContiguous step' op' hz' L (b.map φ) n p (acc.map φ) = φ <$> simdRedContiguous step op hz L b n p acc := by
  induction n using Nat.strongRecOn generalizing p acc with
  | ind n ih =>
    rw [simdRedContiguous, simdRedContiguous]
    split
    · rename_i hn
      simp only [bufVec_map, map_bind, bind_map_left, zipWith_map' ho]
      congr 1; funext v
      congr 1; funext v
      congr 1; funext v
      congr 1; funext v
      exact ih (n - 4 * L) (by omega) _ _
    · simp only [hh, map_bind, bind_map_left, redUniform_map h]

theorem simdProductContiguous_map (h : ∀ v acc, φ (step v acc) = step' (φ v) (φ acc)) {op : α → α → α} {op' : β → β → β}
    (ho : ∀ x y, φ (op x y) = op' (φ x) (φ y)) (L : Nat) (b : List α) (n p : Nat) (acc : α) :
    simdProductContiguous step' op' L (b.map φ) n p (φ acc) = φ <$> simdProductContiguous step op L b n p acc := by
  induction n using Nat.strongRecOn generalizing p acc with
  | ind n ih =>
    rw [simdProductContiguous, simdProductContiguous]
    split
    · rename_i hn
      simp only [bufVec_map, map_bind, bind_map_left, zipWith_map' ho, horizontalMul_map ho, ← ho]
      congr 1; funext v
      congr 1; funext v
      congr 1; funext v
      congr 1; funext v
      congr 1; funext v
      exact ih (n - 4 * L) (by omega) _ _
    · exact redUniform_map h 1 n b p acc

theorem simdRed_nat (h : ∀ v acc, φ (step v acc) = step' (φ v) (φ acc)) {op : α → α → α} {op' : β → β → β}
    (ho : ∀ x y, φ (op x y) = op' (φ x) (φ y)) (init : α) (L : Nat) :
    RedNat φ (simdRed step op init L) (simdRed step' op' (φ init) L) where
  contiguous b p n := by
    have := simdRedContiguous_map h ho (horizontal_map ho) L b n p (List.replicate L init)
    rwa [List.map_replicate] at this
  uniform b p n st := by
    have := simdRedUniform_map h ho (horizontal_map ho) L b st n p (List.replicate L init)
    rwa [List.map_replicate] at this

theorem simdProduct_nat (h : ∀ v acc, φ (step v acc) = step' (φ v) (φ acc)) {op : α → α → α} {op' : β → β → β}
    (ho : ∀ x y, φ (op x y) = op' (φ x) (φ y)) (init : α) (L : Nat) :
    RedNat φ (simdProduct step op init L) (simdProduct step' op' (φ init) L) where
  contiguous b p n := simdProductContiguous_map h ho L b n p init
  uniform b p n st := by
    have := simdRedUniform_map h ho (horizontalMul_map ho) L b st n p (List.replicate L init)
    rwa [List.map_replicate] at this

theorem foldlM_map_res {ι : Type} {f : α → ι → Res α} {g : β → ι → Res β} (h : ∀ x i, g (φ x) i = φ <$> f x i) :
    ∀ (l : List ι) (x : α), l.foldlM g (φ x) = φ <$> l.foldlM f x
  | [], _ => rfl
  | i :: l, x => by
    simp only [List.foldlM_cons, h, map_bind, bind_map_left]
    congr 1; funext y
    exact foldlM_map_res h l y

theorem redKernel_map (h : ∀ v acc, φ (step v acc) = step' (φ v) (φ acc)) {init : α} {K : RedKernels α} {K' : RedKernels β}
    (hK : RedNat φ K K') (b : List α) (p : Nat) (s st : List Nat) :
    redKernel step' (φ init) K' (b.map φ) p s st = φ <$> redKernel step init K b p s st := by
  unfold redKernel
  cases hasUniformStride s st with
  | some d =>
    dsimp only
    split
    · exact hK.contiguous b p _
    · exact hK.uniform b p _ d
  | none =>
    simp only [map_bind]
    congr 1; funext g
    refine foldlM_map_res (fun x i => ?_) _ _
    simp only [bufLoad_map, map_bind, bind_map_left, map_pure, h]

theorem fromContiguous_mapBuf (s : List Nat) (d : List α) :
    Arr.fromContiguousOwnedBuffer s (d.map φ) = (Arr.fromContiguousOwnedBuffer s d).mapBuf φ := by
  simp [Arr.fromContiguousOwnedBuffer, Arr.mapBuf]

theorem scalar_map (v : α) : Arr.scalar (φ v) = Arr.mapBuf φ <$> Arr.scalar v := rfl

theorem reduceAll_map (h : ∀ v acc, φ (step v acc) = step' (φ v) (φ acc)) {init : α} {K : RedKernels α} {K' : RedKernels β}
    (hK : RedNat φ K K') (a : Arr α) :
    (a.mapBuf φ).reduceAll step' (φ init) K' = Arr.mapBuf φ <$> a.reduceAll step init K := by
  unfold Arr.reduceAll
  show (redKernel step' (φ init) K' (a.buf.map φ) a.off a.shape a.stride >>= fun v => Arr.scalar v) = _
  simp only [redKernel_map h hK, map_bind, bind_map_left, scalar_map]

theorem flatiter_map (a : Arr α) : (a.mapBuf φ).flatiter = List.map φ <$> a.flatiter := by
  unfold Arr.flatiter
  show (FlatGen.mk' a.shape a.stride >>= fun g => g.toList.mapM (a.mapBuf φ).read) = _
  simp only [map_bind]
  congr 1; funext g
  refine mapM_map_res φ _ _ (fun i => ?_) _
  show (match (a.buf.map φ)[a.off + i]? with | some v => Except.ok v | none => Except.error Err.oob) = _
  rw [List.getElem?_map]
  unfold Arr.read
  cases a.buf[a.off + i]? <;> rfl

theorem reduceLoop_map (h : ∀ v acc, φ (step v acc) = step' (φ v) (φ acc)) : ∀ (els : List α) (g : FlatGen) (out : List α),
    reduceLoop step' (els.map φ) g (out.map φ) = List.map φ <$> reduceLoop step els g out
  | [], _, _ => rfl
  | el :: els, g, out => by
    simp only [List.map_cons, reduceLoop]
    cases g.next with
    | none => rfl
    | some r =>
      obtain ⟨i, g'⟩ := r
      dsimp only
      rw [List.getElem?_map]
      cases out[i]? with
      | none => rfl
      | some acc =>
        simp only [Option.map_some, ← h, ← List.map_set]
        exact reduceLoop_map h els g' _

theorem reduceAlong_map (h : ∀ v acc, φ (step v acc) = step' (φ v) (φ acc)) {init : α} (a : Arr α) (axes : List Int) :
    (a.mapBuf φ).reduceAlong step' axes (φ init) = Arr.mapBuf φ <$> a.reduceAlong step axes init := by
  unfold Arr.reduceAlong
  rw [flatiter_map]
  show (reducedShapeAndStride axes a.shape >>= fun r =>
    FlatGen.mk' (collapseToUniformStride a.shape r.2).1 (collapseToUniformStride a.shape r.2).2 >>= fun g => _) = _
  simp only [map_bind, bind_map_left]
  congr 1; funext r
  congr 1; funext g
  congr 1; funext els
  rw [← List.map_replicate, reduceLoop_map h]
  simp only [bind_map_left, map_pure, fromContiguous_mapBuf]

end red

/-! ### vector kernels for sums of products -/

variable [Zero α] [One α] [Add α] [Mul α] [MulAdd α] [Zero β] [One β] [Add β] [Mul β] [MulAdd β] {φ : α → β}

theorem simdMuladd1_map (h : OpHom φ) (c : α) (L : Nat) (data : List α) (n p : Nat) (dst : List α) (q : Nat) :
    simdMuladd1 (φ c) L (data.map φ) n p (dst.map φ) q = List.map φ <$> simdMuladd1 c L data n p dst q := by
  induction n using Nat.strongRecOn generalizing p dst q with
  | ind n ih =>
    rw [simdMuladd1, simdMuladd1]
    split
    · rename_i hn
      simp only [bufVec_map, map_bind, bind_map_left,
        zipWith_map' (op := fun s v => mulAdd c v s) (op' := fun s v => mulAdd (φ c) v s) (fun x y => h.mulAdd c y x),
        bufVecStore_map]
      congr 1; funext v
      congr 1; funext v
      congr 1; funext v
      exact ih (n - L) (by omega) _ _ _
    · exact muladdLoop_map h c data n p dst q

theorem simdMuladd_map (h : OpHom φ) (c : α) (L : Nat) (data : List α) (n p : Nat) (dst : List α) (q : Nat) :
    simdMuladd (φ c) L (data.map φ) n p (dst.map φ) q = List.map φ <$> simdMuladd c L data n p dst q := by
  induction n using Nat.strongRecOn generalizing p dst q with
  | ind n ih =>
    rw [simdMuladd, simdMuladd]
    split
    · rename_i hn
      simp only [bufVec_map, map_bind, bind_map_left,
        zipWith_map' (op := fun s v => mulAdd c v s) (op' := fun s v => mulAdd (φ c) v s) (fun x y => h.mulAdd c y x),
        bufVecStore_map]
      iterate 12 (refine bind_congr fun v => ?_)
      exact ih (n - 4 * L) (by omega) _ _ _
    · exact simdMuladd1_map h c L data n p dst q

theorem simdScaled1_map (h : OpHom φ) (L : Nat) (data : List α) (n p : Nat) (acc : List α) :
    simdScaled1 L (data.map φ) n p (acc.map φ) = φ <$> simdScaled1 L data n p acc := by
  induction n using Nat.strongRecOn generalizing p acc with
  | ind n ih =>
    rw [simdScaled1, simdScaled1]
    split
    · rename_i hn
      simp only [bufVec_map, map_bind, bind_map_left, zipWith_map' h.add]
      congr 1; funext v
      exact ih (n - L) (by omega) _ _
    · simp only [horizontal_map h.add, map_bind, bind_map_left, sumLoop_map h]

theorem simdScaled_map (h : OpHom φ) (L : Nat) (data : List α) (n p : Nat) (acc : List α) :
    simdScaled L (data.map φ) n p (acc.map φ) = φ <$> simdScaled L data n p acc := by
  induction n using Nat.strongRecOn generalizing p acc with
  | ind n ih =>
    rw [simdScaled, simdScaled]
    split
    · rename_i hn
      simp only [bufVec_map, map_bind, bind_map_left, zipWith_map' h.add]
      iterate 4 (congr 1; funext v)
      exact ih (n - 4 * L) (by omega) _ _
    · exact simdScaled1_map h L data n p acc

theorem simdDotTail_map (h : OpHom φ) (a b : List α) : ∀ (n p q : Nat) (acc : α),
    simdDotTail (a.map φ) (b.map φ) n p q (φ acc) = φ <$> simdDotTail a b n p q acc
  | 0, _, _, _ => rfl
  | n + 1, p, q, acc => by
    simp only [simdDotTail, bufLoad_map, map_bind, bind_map_left, ← h.mulAdd]
    congr 1; funext x
    congr 1; funext y
    exact simdDotTail_map h a b n _ _ _

theorem zipMulAdd_map (h : OpHom φ) : ∀ (s x y : List α),
    List.zipWith (fun s v => mulAdd v.1 v.2 s) (s.map φ) ((x.map φ).zip (y.map φ)) =
      (List.zipWith (fun s v => mulAdd v.1 v.2 s) s (x.zip y)).map φ
  | [], _, _ => by simp
  | _ :: _, [], _ => by simp
  | _ :: _, _ :: _, [] => by simp
  | s :: ss, x :: xs, y :: ys => by
    simp only [List.map_cons, List.zip_cons_cons, List.zipWith_cons_cons, h.mulAdd]
    rw [zipMulAdd_map h ss xs ys]

theorem simdDot1_map (h : OpHom φ) (L : Nat) (a b : List α) (n p q : Nat) (acc : List α) :
    simdDot1 L (a.map φ) (b.map φ) n p q (acc.map φ) = φ <$> simdDot1 L a b n p q acc := by
  induction n using Nat.strongRecOn generalizing p q acc with
  | ind n ih =>
    rw [simdDot1, simdDot1]
    split
    · rename_i hn
      simp only [bufVec_map, map_bind, bind_map_left, zipMulAdd_map h]
      congr 1; funext v
      congr 1; funext v
      exact ih (n - L) (by omega) _ _ _
    · simp only [horizontal_map h.add, map_bind, bind_map_left, simdDotTail_map h]

theorem simdDot_map (h : OpHom φ) (L : Nat) (a b : List α) (n p q : Nat) (acc : List α) :
    simdDot L (a.map φ) (b.map φ) n p q (acc.map φ) = φ <$> simdDot L a b n p q acc := by
  induction n using Nat.strongRecOn generalizing p q acc with
  | ind n ih =>
    rw [simdDot, simdDot]
    split
    · rename_i hn
      simp only [bufVec_map, map_bind, bind_map_left, zipWith_map' h.add, zipWith_map' h.mul]
      iterate 8 (refine bind_congr fun v => ?_)
      exact ih (n - 4 * L) (by omega) _ _ _
    · exact simdDot1_map h L a b n p q acc

theorem simdSop_nat (h : OpHom φ) (L : Nat) : KNat φ (simdSop L : SopKernels α) (simdSop L) where
  muladd c data p dst q n := by
    simp only [simdSop, simdMuladd_map h, map_bind]
  scaledArray c data p dst q n := by
    simp only [simdSop, ← h.zero, ← List.map_replicate, simdScaled_map h, bufLoad_map, map_bind, bind_map_left, ← h.mulAdd,
      bufStore_map]
  dot a p b p' dst q n := by
    simp only [simdSop, ← h.zero, ← List.map_replicate, simdDot_map h, map_bind, bind_map_left, bufAdd_map h]

/-! ### einsum -/

section plan
omit [Zero α] [One α] [Add α] [Mul α] [MulAdd α] [Zero β] [One β] [Add β] [Mul β] [MulAdd β]

theorem warnCheck_map (ops : List (Arr α)) (labels : List (List Int)) (n : Nat) (out : List Int) :
    warnCheck (ops.map (Arr.mapBuf φ)) labels n out = warnCheck ops labels n out := by
  match ops, labels with
  | [], _ => rfl
  | [_], [] => rfl
  | [_], [_] => rfl
  | [_], _ :: _ :: _ => rfl
  | _ :: _ :: _, _ => rfl

theorem zip_mapM_shape {γ δ : Type} (k : List Nat → List Nat → γ → Res δ) : ∀ (ops : List (Arr α)) (ls : List γ),
    ((ops.map (Arr.mapBuf φ)).zip ls).mapM (fun p => k p.1.shape p.1.stride p.2) =
      (ops.zip ls).mapM (fun p => k p.1.shape p.1.stride p.2)
  | [], _ => rfl
  | _ :: _, [] => rfl
  | a :: ops, l :: ls => by
    simp only [List.map_cons, List.zip_cons_cons, List.mapM_cons]
    rw [zip_mapM_shape k ops ls]
    rfl

theorem prepareEinsum_map (ops : List (Arr α)) (subs : List (List Char)) (out : List Char) :
    prepareEinsum (ops.map (Arr.mapBuf φ)) subs out = prepareEinsum ops subs out := by
  have hs : (ops.map (Arr.mapBuf φ)).map (·.shape) = ops.map (·.shape) := by rw [List.map_map]; rfl
  unfold prepareEinsum
  rw [List.length_map, hs]
  simp only [warnCheck_map]
  congr 1; funext _
  congr 1; funext p
  congr 1; funext o
  congr 1; funext _
  congr 1; funext _
  unfold buildPlan
  rw [zip_mapM_shape (fun s st l => combineOperand s st l)]

theorem shiftOps_map : ∀ (ops : List (Src α)) (d : List Nat),
    shiftOps (ops.map (mapSrc φ)) d = (shiftOps ops d).map (mapSrc φ)
  | [], _ => by simp [shiftOps]
  | _ :: _, [] => by simp [shiftOps]
  | o :: ops, i :: d => by
    have := shiftOps_map ops d
    unfold shiftOps at this ⊢
    simp only [List.map_cons, List.zipWith_cons_cons, this]
    rfl

theorem srcs_map (ops : List (Arr α)) : srcs (ops.map (Arr.mapBuf φ)) = (srcs ops).map (mapSrc φ) := by
  simp [srcs, mapSrc, Arr.mapBuf]

theorem einsumLoop_map {k : SopKernel α} {k' : SopKernel β} (hk : SopNat φ k k') (ops : List (Src α)) (inner : List Nat)
    (count q : Nat) : ∀ (n : Nat) (g : MultiGen) (dst : List α),
    einsumLoop k' (ops.map (mapSrc φ)) inner count q n g (dst.map φ) = List.map φ <$> einsumLoop k ops inner count q n g dst
  | 0, _, _ => rfl
  | n + 1, g, dst => by
    simp only [einsumLoop, length_mapSrcs, shiftOps_map, hk _ _ _ _ _, map_bind, bind_map_left]
    congr 1; funext d
    congr 1; funext g'
    exact einsumLoop_map hk ops inner count q n g' d

end plan

theorem einsumUnspecialized_map (h : OpHom φ) (ops : List (Src α)) (plan : EinsumPlan) (dst : List α) (q : Nat) :
    einsumUnspecialized (ops.map (mapSrc φ)) plan (dst.map φ) q = List.map φ <$> einsumUnspecialized ops plan dst q := by
  unfold einsumUnspecialized
  split
  · simp only [length_mapSrcs, einsumLoop_map (getSopGeneric_nat h _), map_bind]
  · rfl

theorem einsum2labels_map (h : OpHom φ) {K : SopKernels α} {K' : SopKernels β} (hK : KNat φ K K') (ops : List (Src α))
    (s0 s1 : List Nat) (n0 n1 : Nat) (dst : List α) (q : Nat) :
    einsum2labels K' (ops.map (mapSrc φ)) s0 s1 n0 n1 (dst.map φ) q = List.map φ <$> einsum2labels K ops s0 s1 n0 n1 dst q := by
  unfold einsum2labels
  simp only [map_bind]
  congr 1; funext _
  congr 1; funext _
  refine foldlM_map_res (φ := List.map φ) (fun d i => ?_) _ _
  rw [shiftOps_map, length_mapSrcs]
  exact getSop_nat h hK s0 _ _ _ _ _

theorem einsum3labels_map (h : OpHom φ) {K : SopKernels α} {K' : SopKernels β} (hK : KNat φ K K') (ops : List (Src α))
    (s0 s1 s2 : List Nat) (n0 n1 n2 : Nat) (dst : List α) (q : Nat) :
    einsum3labels K' (ops.map (mapSrc φ)) s0 s1 s2 n0 n1 n2 (dst.map φ) q =
      List.map φ <$> einsum3labels K ops s0 s1 s2 n0 n1 n2 dst q := by
  unfold einsum3labels
  simp only [map_bind]
  congr 1; funext _
  congr 1; funext _
  congr 1; funext _
  refine foldlM_map_res (φ := List.map φ) (fun d i => ?_) _ _
  refine foldlM_map_res (φ := List.map φ) (fun d i => ?_) _ _
  rw [shiftOps_map, length_mapSrcs]
  exact getSop_nat h hK s0 _ _ _ _ _

theorem einsumRun_map (h : OpHom φ) {K : SopKernels α} {K' : SopKernels β} (hK : KNat φ K K') (ops : List (Src α))
    (plan : EinsumPlan) (dst : List α) (q : Nat) :
    einsumRun K' (ops.map (mapSrc φ)) plan (dst.map φ) q = List.map φ <$> einsumRun K ops plan dst q := by
  unfold einsumRun
  rw [length_mapSrcs]
  split
  · split
    · exact einsum2labels_map h hK ..
    · exact einsum3labels_map h hK ..
    · exact einsumUnspecialized_map h ..
  · exact einsumUnspecialized_map h ..

theorem einsum_map (h : OpHom φ) {K : SopKernels α} {K' : SopKernels β} (hK : KNat φ K K') (ops : List (Arr α))
    (subs : List (List Char)) (out : List Char) :
    einsum K' (ops.map (Arr.mapBuf φ)) subs out = Arr.mapBuf φ <$> einsum K ops subs out := by
  unfold einsum
  rw [prepareEinsum_map]
  simp only [map_bind]
  congr 1; funext plan
  rw [← h.zero, ← List.map_replicate, srcs_map, einsumRun_map h hK]
  simp only [bind_map_left, map_pure, fromContiguous_mapBuf]

omit [Zero α] [One α] [Add α] [Mul α] [MulAdd α] [Zero β] [One β] [Add β] [Mul β] [MulAdd β] in
theorem fillUniformStride_map (v : α) (d : Nat) : ∀ (n : Nat) (b : List α) (p : Nat),
    fillUniformStride n (b.map φ) p d (φ v) = List.map φ <$> fillUniformStride n b p d v
  | 0, _, _ => rfl
  | n + 1, b, p => by
    simp only [fillUniformStride, bufStore_map, map_bind, bind_map_left]
    congr 1; funext b'
    exact fillUniformStride_map v d n b' _

omit [Zero α] [One α] [Add α] [Mul α] [MulAdd α] [Zero β] [One β] [Add β] [Mul β] [MulAdd β] in
theorem fillLoop_map {body : List α → Nat → Res (List α)} {body' : List β → Nat → Res (List β)}
    (h : ∀ b p, body' (b.map φ) p = List.map φ <$> body b p) (d : Nat) : ∀ (n : Nat) (b : List α) (p : Nat),
    fillLoop body' d n (b.map φ) p = List.map φ <$> fillLoop body d n b p
  | 0, _, _ => rfl
  | n + 1, b, p => by
    simp only [fillLoop, h, map_bind, bind_map_left]
    congr 1; funext b'
    exact fillLoop_map h d n b' _

omit [Zero α] [One α] [Add α] [Mul α] [MulAdd α] [Zero β] [One β] [Add β] [Mul β] [MulAdd β] in
theorem fillPtr_map (v : α) : ∀ (s st : List Nat) (len : Nat) (b : List α) (p : Nat),
    fillPtr s st len (φ v) (b.map φ) p = List.map φ <$> fillPtr s st len v b p
  | [], _, len, b, p => by
    simp only [fillPtr]
    split
    · split
      · exact fillUniformStride_map v 1 _ b p
      · exact fillUniformStride_map v _ _ b p
    · rfl
  | n :: s, [], len, b, p => by
    simp only [fillPtr]
    split
    · split
      · exact fillUniformStride_map v 1 _ b p
      · exact fillUniformStride_map v _ _ b p
    · rfl
  | n :: s, d :: st, len, b, p => by
    simp only [fillPtr]
    split
    · split
      · exact fillUniformStride_map v 1 _ b p
      · exact fillUniformStride_map v _ _ b p
    · exact fillLoop_map (fun b p => fillPtr_map v s st _ b p) d n b p

theorem einsumIntoPtr_map (h : OpHom φ) {K : SopKernels α} {K' : SopKernels β} (hK : KNat φ K K') (ops : List (Arr α))
    (subs : List (List Char)) (out : List Char) (rs : List Nat) (dst : List α) (q : Nat) :
    einsumIntoPtr K' (ops.map (Arr.mapBuf φ)) subs out rs (dst.map φ) q =
      List.map φ <$> einsumIntoPtr K ops subs out rs dst q := by
  unfold einsumIntoPtr
  rw [prepareEinsum_map]
  simp only [← h.zero, fillPtr_map, srcs_map, einsumRun_map h hK, map_bind, bind_map_left]
  congr 1; funext plan
  cases hasUniformStride plan.outShape rs <;> simp only [map_bind, bind_map_left, einsumRun_map h hK]

/-! ### matrix products -/

theorem matrixMatrixProduct_map (h : OpHom φ) {K : SopKernels α} {K' : SopKernels β} (hK : KNat φ K K') (a b : Arr α)
    (rs : List Nat) (dst : List α) (q : Nat) : matrixMatrixProduct K' (a.mapBuf φ) (b.mapBuf φ) rs (dst.map φ) q =
      List.map φ <$> matrixMatrixProduct K a b rs dst q := einsumIntoPtr_map h hK [a, b] _ _ rs dst q

theorem bmmLoop_map (h : OpHom φ) {K : SopKernels α} {K' : SopKernels β} (hK : KNat φ K K') (ls rs ds : Nat) (st : List Nat) :
    ∀ (n : Nat) (a b : Arr α) (dst : List α) (q : Nat), bmmLoop K' ls rs ds st n (a.mapBuf φ) (b.mapBuf φ) (dst.map φ) q =
      List.map φ <$> bmmLoop K ls rs ds st n a b dst q
  | 0, _, _, _, _ => rfl
  | n + 1, a, b, dst, q => by
    simp only [bmmLoop, matrixMatrixProduct_map h hK, map_bind, bind_map_left]
    congr 1; funext d
    exact bmmLoop_map h hK ls rs ds st n { a with off := a.off + ls } { b with off := b.off + rs } d _

omit [Zero α] [One α] [Add α] [Mul α] [MulAdd α] [Zero β] [One β] [Add β] [Mul β] [MulAdd β] in
theorem sliceAlong_map (a : Arr α) (axis : Int) (ix : Indexer) :
    (a.mapBuf φ).sliceAlong axis ix = Arr.mapBuf φ <$> a.sliceAlong axis ix := by
  unfold Arr.sliceAlong Arr.sliceResult
  show (asAbsolute axis a.ndims >>= fun ax => _) = _
  simp only [map_bind]
  congr 1; funext ax
  show (match a.shape[ax]?, a.stride[ax]? with | some n, some d => _ | _, _ => _) = _
  cases a.shape[ax]? with
  | none => rfl
  | some n =>
    cases a.stride[ax]? with
    | none => rfl
    | some d =>
      dsimp only
      split
      · simp only [map_bind, map_pure]; rfl
      · simp only [map_bind, map_pure]; rfl

theorem batchMatrixMatrixProduct_map (h : OpHom φ) {K : SopKernels α} {K' : SopKernels β} (hK : KNat φ K K') (a b : Arr α)
    (rs : List Nat) (dst : List α) (q : Nat) : batchMatrixMatrixProduct K' (a.mapBuf φ) (b.mapBuf φ) rs (dst.map φ) q =
      List.map φ <$> batchMatrixMatrixProduct K a b rs dst q := by
  unfold batchMatrixMatrixProduct
  simp only [sliceAlong_map, map_bind, bind_map_left, bmmLoop_map h hK]
  rfl

theorem matVecLoop_map (h : OpHom φ) (m : List α) (v : Src α) (s0 s1 sv cols : Nat) : ∀ (n p : Nat) (dst : List α) (q : Nat),
    matVecLoop (m.map φ) (mapSrc φ v) s0 s1 sv cols n p (dst.map φ) q =
      List.map φ <$> matVecLoop m v s0 s1 sv cols n p dst q
  | 0, _, _, _ => rfl
  | n + 1, p, dst, q => by
    have := sopNN0_map h (m, p) v s1 sv cols dst q
    simp only [mapSrc] at this
    simp only [matVecLoop, mapSrc, this, map_bind, bind_map_left]
    congr 1; funext d
    exact matVecLoop_map h m v s0 s1 sv cols n _ d _

theorem matrixVectorProduct_map (h : OpHom φ) (m v : Arr α) :
    matrixVectorProduct (m.mapBuf φ) (v.mapBuf φ) = Arr.mapBuf φ <$> matrixVectorProduct m v := by
  unfold matrixVectorProduct
  have hz : ∀ n, List.replicate n (0 : β) = (List.replicate n (0 : α)).map φ := fun n => by
    rw [List.map_replicate, h.zero]
  simp only [hz, map_bind]
  show (getChecked m.shape 0 >>= fun rows => _) = _
  congr 1; funext rows
  show (getChecked m.shape 1 >>= fun cols => _) = _
  congr 1; funext cols
  show (getChecked m.stride 1 >>= fun s1 => _) = _
  congr 1; funext s1
  show (getChecked v.stride 0 >>= fun sv => _) = _
  congr 1; funext sv
  have key : ∀ s0, (matVecLoop (m.buf.map φ) (v.buf.map φ, v.off) s0 s1 sv cols rows m.off
      ((List.replicate rows (0 : α)).map φ) 0 >>= fun data => (pure (Arr.fromContiguousOwnedBuffer [rows] data) : Res (Arr β))) =
      matVecLoop m.buf (v.buf, v.off) s0 s1 sv cols rows m.off (List.replicate rows 0) 0 >>= fun data =>
        Arr.mapBuf φ <$> (pure (Arr.fromContiguousOwnedBuffer [rows] data) : Res (Arr α)) := by
    intro s0
    have := matVecLoop_map h m.buf (v.buf, v.off) s0 s1 sv cols rows m.off (List.replicate rows 0) 0
    simp only [mapSrc] at this
    rw [this]
    simp only [bind_map_left, map_pure, fromContiguous_mapBuf]
  by_cases h0 : rows = 0
  · simp only [if_pos h0]
    simp only [map_bind]
    exact key 0
  · simp only [if_neg h0]
    show (getChecked m.stride 0 >>= fun s0 => _) = _
    simp only [map_bind]
    congr 1; funext s0
    exact key s0

theorem dot_map (h : OpHom φ) (a b : Arr α) : (a.mapBuf φ).dot (b.mapBuf φ) = Arr.mapBuf φ <$> a.dot b := by
  unfold Arr.dot
  have hz : Arr.scalar (0 : β) = Arr.mapBuf φ <$> Arr.scalar (0 : α) := by rw [← scalar_map, h.zero]
  simp only [hz, map_bind, bind_map_left]
  congr 1; funext _
  congr 1; funext _
  congr 1; funext _
  congr 1; funext r
  show (getChecked a.stride 0 >>= fun sa => _) = _
  congr 1; funext sa
  show (getChecked b.stride 0 >>= fun sb => _) = _
  congr 1; funext sb
  have := sopNN0_map h (a.buf, a.off) (b.buf, b.off) sa sb a.lenMethod r.buf r.off
  simp only [mapSrc] at this
  show (sopNN0 (a.buf.map φ, a.off) (b.buf.map φ, b.off) sa sb a.lenMethod (r.buf.map φ) r.off >>= fun data => _) = _
  rw [this]
  simp only [bind_map_left, map_pure]
  rfl

theorem zeros_map (h : OpHom φ) (s : List Nat) : (Arr.zeros s : Res (Arr β)) = Arr.mapBuf φ <$> (Arr.zeros s : Res (Arr α)) := by
  unfold Arr.zeros Arr.full
  simp only [← h.zero, ← List.map_replicate, map_bind, map_pure, fromContiguous_mapBuf, List.isEmpty_map]

theorem matmul_map (h : OpHom φ) {K : SopKernels α} {K' : SopKernels β} (hK : KNat φ K K') (a b : Arr α) :
    (a.mapBuf φ).matmul K' (b.mapBuf φ) = Arr.mapBuf φ <$> a.matmul K b := by
  have hm : ∀ (m n : Nat), ((Arr.zeros [m, n] : Res (Arr β)) >>= fun r =>
      matrixMatrixProduct K' (a.mapBuf φ) (b.mapBuf φ) r.stride r.buf r.off >>= fun data => (pure { r with buf := data } : Res (Arr β))) =
      Arr.mapBuf φ <$> ((Arr.zeros [m, n] : Res (Arr α)) >>= fun r =>
      matrixMatrixProduct K a b r.stride r.buf r.off >>= fun data => (pure { r with buf := data } : Res (Arr α))) := by
    intro m n
    rw [zeros_map h]
    simp only [map_bind, bind_map_left, map_pure]
    congr 1; funext r
    have := matrixMatrixProduct_map h hK a b r.stride r.buf r.off
    show (matrixMatrixProduct K' (a.mapBuf φ) (b.mapBuf φ) r.stride (r.buf.map φ) r.off >>= fun data => _) = _
    rw [this]
    simp only [bind_map_left]
    rfl
  unfold Arr.matmul
  have hsa : (a.mapBuf φ).shape = a.shape := rfl
  have hsb : (b.mapBuf φ).shape = b.shape := rfl
  rw [hsa, hsb]
  generalize a.shape = s
  generalize b.shape = t
  split
  · exact dot_map h a b
  · simp only [matrixVectorProduct_map h, map_bind]
  · rw [map_bind]
    congr 1; funext _
    exact hm _ _
  · rfl

theorem bmm_map (h : OpHom φ) {K : SopKernels α} {K' : SopKernels β} (hK : KNat φ K K') (a b : Arr α) :
    (a.mapBuf φ).bmm K' (b.mapBuf φ) = Arr.mapBuf φ <$> a.bmm K b := by
  unfold Arr.bmm
  simp only [map_bind]
  congr 1; funext _
  congr 1; funext _
  congr 1; funext _
  show (getChecked a.shape 1 >>= fun m => _) = _
  congr 1; funext m
  show (getChecked b.shape 2 >>= fun n => _) = _
  congr 1; funext n
  rw [zeros_map h]
  simp only [bind_map_left]
  congr 1; funext r
  have := batchMatrixMatrixProduct_map h hK a b r.stride r.buf r.off
  show (batchMatrixMatrixProduct K' (a.mapBuf φ) (b.mapBuf φ) r.stride (r.buf.map φ) r.off >>= fun data => _) = _
  rw [this]
  simp only [bind_map_left, map_pure]
  rfl

end Verif
