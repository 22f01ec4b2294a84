import Verif.Lemmas.TransferRun
import Verif.Model.Autograd

/-!
# Elementwise operations, views and automatic differentiation commute with maps that preserve the operations

As `Lemmas/TransferRun.lean`, for the rest of the operations tensors use and for whole sessions.
-/

namespace Verif

variable {α β : Type} {φ : α → β}

/-! ### memory and elementwise kernels -/

/-- The image of a memory. -/
def mapMem (φ : α → β) (m : Mem α) : Mem β := m.map (List.map φ)

theorem load_map (m : Mem α) (p : Ptr) : Mem.load (mapMem φ m) p = φ <$> Mem.load m p := by
  unfold Mem.load mapMem
  rw [List.getElem?_map]
  cases m[p.reg]? with
  | none => rfl
  | some r =>
    simp only [Option.map_some, List.getElem?_map]
    cases r[p.off]? <;> rfl

theorem store_map (m : Mem α) (p : Ptr) (v : α) : Mem.store (mapMem φ m) p (φ v) = mapMem φ <$> Mem.store m p v := by
  unfold Mem.store mapMem
  rw [List.getElem?_map]
  cases m[p.reg]? with
  | none => rfl
  | some r =>
    simp only [Option.map_some, List.length_map]
    split
    · rw [← List.map_set, ← List.map_set]; rfl
    · rfl

theorem region_map (m : Mem α) (i : Nat) : Mem.region (mapMem φ m) i = List.map φ <$> Mem.region m i := by
  unfold Mem.region mapMem
  rw [List.getElem?_map]
  cases m[i]? <;> rfl

section kernels
variable {f : α → α → Res α} {f' : β → β → Res β} (h : ∀ x y, f' (φ x) (φ y) = φ <$> f x y)
include h

theorem binStep_map (l r d : Ptr) (m : Mem α) : binStep f' l r d (mapMem φ m) = mapMem φ <$> binStep f l r d m := by
  unfold binStep
  simp only [load_map, bind_map_left, h, store_map, map_bind]

theorem strideNN_map (ls rs : Nat) : ∀ (n : Nat) (l r d : Ptr) (m : Mem α),
    strideNN f' ls rs n l r d (mapMem φ m) = mapMem φ <$> strideNN f ls rs n l r d m
  | 0, _, _, _, _ => rfl
  | n + 1, l, r, d, m => by
    simp only [strideNN, binStep_map h, bind_map_left, map_bind]
    congr 1; funext m'
    exact strideNN_map ls rs n _ _ _ m'

theorem nonunifNLoop_map (l : Ptr) (rs : Nat) : ∀ (n : Nat) (g : FlatGen) (r d : Ptr) (m : Mem α),
    nonunifNLoop f' l rs n g r d (mapMem φ m) = mapMem φ <$> nonunifNLoop f l rs n g r d m
  | 0, _, _, _, _ => rfl
  | n + 1, g, r, d, m => by
    simp only [nonunifNLoop]
    cases g.next with
    | none => rfl
    | some q =>
      simp only [binStep_map h, bind_map_left, map_bind]
      congr 1; funext m'
      exact nonunifNLoop_map l rs n _ _ _ m'

theorem nNonunifLoop_map (ls : Nat) (r : Ptr) : ∀ (n : Nat) (g : FlatGen) (l d : Ptr) (m : Mem α),
    nNonunifLoop f' ls r n g l d (mapMem φ m) = mapMem φ <$> nNonunifLoop f ls r n g l d m
  | 0, _, _, _, _ => rfl
  | n + 1, g, l, d, m => by
    simp only [nNonunifLoop]
    cases g.next with
    | none => rfl
    | some q =>
      simp only [binStep_map h, bind_map_left, map_bind]
      congr 1; funext m'
      exact nNonunifLoop_map ls r n _ _ _ m'

theorem nonunifN_map (l : Ptr) (s st : List Nat) (r : Ptr) (rs : Nat) (d : Ptr) (n : Nat) (m : Mem α) :
    nonunifN f' l s st r rs d n (mapMem φ m) = mapMem φ <$> nonunifN f l s st r rs d n m := by
  simp only [nonunifN, nonunifNLoop_map h, map_bind]

theorem nNonunif_map (l : Ptr) (ls : Nat) (r : Ptr) (s st : List Nat) (d : Ptr) (n : Nat) (m : Mem α) :
    nNonunif f' l ls r s st d n (mapMem φ m) = mapMem φ <$> nNonunif f l ls r s st d n m := by
  simp only [nNonunif, nNonunifLoop_map h, map_bind]

theorem runPairs_map : ∀ (ps : List (Ptr × Ptr)) (d : Ptr) (m : Mem α),
    runPairs f' ps d (mapMem φ m) = mapMem φ <$> runPairs f ps d m
  | [], _, _ => rfl
  | (l, r) :: ps, d, m => by
    simp only [runPairs, binStep_map h, bind_map_left, map_bind]
    congr 1; funext m'
    exact runPairs_map ps _ m'

theorem binUnspecialized_map (l : Ptr) (ls lst : List Nat) (r : Ptr) (rs rst : List Nat) (d : Ptr) (m : Mem α) :
    binUnspecialized f' l ls lst r rs rst d (mapMem φ m) = mapMem φ <$> binUnspecialized f l ls lst r rs rst d m := by
  simp only [binUnspecialized, runPairs_map h, map_bind]

/-- A family of loops commutes with `φ`. -/
structure BinNat (φ : α → β) (K : BinKernels α) (K' : BinKernels β) : Prop where
  s01 : ∀ l r d n m, K'.s01 l r d n (mapMem φ m) = mapMem φ <$> K.s01 l r d n m
  s10 : ∀ l r d n m, K'.s10 l r d n (mapMem φ m) = mapMem φ <$> K.s10 l r d n m
  sn0 : ∀ l ls r d n m, K'.sn0 l ls r d n (mapMem φ m) = mapMem φ <$> K.sn0 l ls r d n m
  s0n : ∀ l r rs d n m, K'.s0n l r rs d n (mapMem φ m) = mapMem φ <$> K.s0n l r rs d n m
  s11 : ∀ l r d n m, K'.s11 l r d n (mapMem φ m) = mapMem φ <$> K.s11 l r d n m
  sn1 : ∀ l ls r d n m, K'.sn1 l ls r d n (mapMem φ m) = mapMem φ <$> K.sn1 l ls r d n m
  s1n : ∀ l r rs d n m, K'.s1n l r rs d n (mapMem φ m) = mapMem φ <$> K.s1n l r rs d n m
  snn : ∀ l ls r rs d n m, K'.snn l ls r rs d n (mapMem φ m) = mapMem φ <$> K.snn l ls r rs d n m

theorem portableKernels_nat : BinNat φ (portableKernels f) (portableKernels f') := by
  constructor <;> intros <;> exact strideNN_map h ..

variable {K : BinKernels α} {K' : BinKernels β} (hK : BinNat φ K K')
include hK

theorem binScalarKernel_map (l : Ptr) (s st : List Nat) (r d : Ptr) (m : Mem α) :
    binScalarKernel f' K' l s st r d (mapMem φ m) =
      mapMem φ <$> binScalarKernel f K l s st r d m := by
  unfold binScalarKernel
  split
  · exact binStep_map h ..
  · simp only [map_bind]
    congr 1; funext li
    split
    · simp only [map_bind]
      congr 1; funext n
      split
      all_goals first | exact hK.s10 .. | exact hK.sn0 ..
    · exact nonunifN_map h ..

theorem binKernel_map (l : Ptr) (lst : List Nat) (r : Ptr) (rst : List Nat) (d : Ptr) (s : List Nat) (m : Mem α) :
    binKernel f' K' l lst r rst d s (mapMem φ m) =
      mapMem φ <$> binKernel f K l lst r rst d s m := by
  unfold binKernel
  split
  · exact binStep_map h ..
  · simp only [map_bind]
    congr 1; funext li
    congr 1; funext ri
    congr 1; funext ln
    congr 1; funext rn
    repeat' split
    all_goals first
      | exact hK.s01 ..
      | exact hK.s10 ..
      | exact hK.sn0 ..
      | exact hK.s0n ..
      | exact hK.s11 ..
      | exact hK.sn1 ..
      | exact hK.s1n ..
      | exact hK.snn ..
      | exact nonunifN_map h ..
      | exact nNonunif_map h ..
      | exact binUnspecialized_map h ..

theorem binOp_map (z : α) (a b : Arr α) : (a.mapBuf φ).binOp f' K' (φ z) (b.mapBuf φ) =
    Arr.mapBuf φ <$> a.binOp f K z b := by
  unfold Arr.binOp
  simp only [map_bind]
  show (broadcastShapes a.shape b.shape >>= fun s => _) = _
  congr 1; funext s
  show (broadcastStride a.stride s a.shape >>= fun ls => _) = _
  congr 1; funext ls
  show (broadcastStride b.stride s b.shape >>= fun rs => _) = _
  congr 1; funext rs
  have := binKernel_map h hK ⟨0, a.off⟩ ls ⟨1, b.off⟩ rs ⟨2, 0⟩ s [a.buf, b.buf, List.replicate (numel s) z]
  simp only [mapMem, List.map_cons, List.map_nil, List.map_replicate] at this
  show (binKernel f' K' ⟨0, a.off⟩ ls ⟨1, b.off⟩ rs ⟨2, 0⟩ s
    [a.buf.map φ, b.buf.map φ, List.replicate (numel s) (φ z)] >>= fun m => _) = _
  rw [this, bind_map_left]
  congr 1; funext m
  show (Mem.region (mapMem φ m) 2 >>= fun d => _) = _
  rw [region_map, bind_map_left]
  congr 1; funext d
  simp only [fromContiguous_mapBuf, map_pure]

theorem binOpScalar_map (z : α) (a : Arr α) (c : α) : (a.mapBuf φ).binOpScalar f' K' (φ z) (φ c) =
    Arr.mapBuf φ <$> a.binOpScalar f K z c := by
  unfold Arr.binOpScalar
  simp only [map_bind]
  have := binScalarKernel_map h hK ⟨0, a.off⟩ a.shape a.stride ⟨1, 0⟩ ⟨2, 0⟩ [a.buf, [c], List.replicate a.size z]
  simp only [mapMem, List.map_cons, List.map_nil, List.map_replicate] at this
  show (binScalarKernel f' K' ⟨0, a.off⟩ a.shape a.stride ⟨1, 0⟩ ⟨2, 0⟩
    [a.buf.map φ, [φ c], List.replicate a.size (φ z)] >>= fun m => _) = _
  rw [this, bind_map_left]
  congr 1; funext m
  show (Mem.region (mapMem φ m) 2 >>= fun d => _) = _
  rw [region_map, bind_map_left]
  congr 1; funext d
  simp only [fromContiguous_mapBuf, map_pure]
  rfl

omit h hK in
theorem broadcastTo_map (a : Arr α) (s : List Nat) : (a.mapBuf φ).broadcastTo s = Arr.mapBuf φ <$> a.broadcastTo s := by
  unfold Arr.broadcastTo
  simp only [map_bind, map_pure]
  rfl

theorem opAssign_map (shared : Bool) (a b : Arr α) : (a.mapBuf φ).opAssign f' K' shared (b.mapBuf φ) =
    List.map φ <$> a.opAssign f K shared b := by
  unfold Arr.opAssign
  simp only [map_bind]
  show (assert a.flags.writeable >>= fun _ => _) = _
  congr 1; funext _
  have key : ∀ b' : Arr α, (binKernel f' K' ⟨0, a.off⟩ a.stride ⟨if shared then 0 else 1, b'.off⟩ b'.stride
      ⟨0, a.off⟩ a.shape [a.buf.map φ, b'.buf.map φ] >>= fun m => m.region 0) =
      List.map φ <$> (binKernel f K ⟨0, a.off⟩ a.stride ⟨if shared then 0 else 1, b'.off⟩ b'.stride
        ⟨0, a.off⟩ a.shape [a.buf, b'.buf] >>= fun m => m.region 0) := by
    intro b'
    have := binKernel_map h hK ⟨0, a.off⟩ a.stride ⟨if shared then 0 else 1, b'.off⟩ b'.stride ⟨0, a.off⟩ a.shape [a.buf, b'.buf]
    simp only [mapMem, List.map_cons, List.map_nil] at this
    rw [this, bind_map_left, map_bind]
    congr 1; funext m
    exact region_map m 0
  show (if b.shape = a.shape then _ else _) = _
  split
  · exact key b
  · rw [broadcastTo_map, bind_map_left, map_bind]
    congr 1; funext b'
    exact key b'

end kernels

section unary
variable {g : α → Res α} {g' : β → Res β} (h : ∀ x, g' (φ x) = φ <$> g x)
include h

theorem unStep_map (s d : Ptr) (m : Mem α) : unStep g' s d (mapMem φ m) = mapMem φ <$> unStep g s d m := by
  unfold unStep
  simp only [load_map, bind_map_left, h, store_map, map_bind]

theorem negStrideN_map (st : Nat) : ∀ (n : Nat) (s d : Ptr) (m : Mem α),
    negStrideN g' st n s d (mapMem φ m) = mapMem φ <$> negStrideN g st n s d m
  | 0, _, _, _ => rfl
  | n + 1, s, d, m => by
    simp only [negStrideN, unStep_map h, bind_map_left, map_bind]
    congr 1; funext m'
    exact negStrideN_map st n _ _ m'

theorem runUnary_map : ∀ (ps : List Ptr) (d : Ptr) (m : Mem α), runUnary g' ps d (mapMem φ m) = mapMem φ <$> runUnary g ps d m
  | [], _, _ => rfl
  | p :: ps, d, m => by
    simp only [runUnary, unStep_map h, bind_map_left, map_bind]
    congr 1; funext m'
    exact runUnary_map ps _ m'

/-- A family of loops commutes with `φ`. -/
structure UnNat (φ : α → β) (K : UnKernels α) (K' : UnKernels β) : Prop where
  s0 : ∀ s d n m, K'.s0 s d n (mapMem φ m) = mapMem φ <$> K.s0 s d n m
  s1 : ∀ s d n m, K'.s1 s d n (mapMem φ m) = mapMem φ <$> K.s1 s d n m
  sn : ∀ s st d n m, K'.sn s st d n (mapMem φ m) = mapMem φ <$> K.sn s st d n m

theorem portableNeg_nat : UnNat φ (portableNeg g) (portableNeg g') := by
  constructor <;> intros <;> exact negStrideN_map h ..

variable {K : UnKernels α} {K' : UnKernels β} (hK : UnNat φ K K')
include hK

theorem negKernel_map (p : Ptr) (s st : List Nat) (d : Ptr) (m : Mem α) :
    negKernel g' K' p s st d (mapMem φ m) = mapMem φ <$> negKernel g K p s st d m := by
  unfold negKernel
  split
  · exact unStep_map h ..
  · simp only
    split
    · simp only [map_bind]
      congr 1; funext e
      congr 1; funext n
      repeat' split
      all_goals first | exact hK.s0 .. | exact hK.s1 .. | exact hK.sn ..
    · simp only [map_bind]
      congr 1; funext gen
      exact runUnary_map h ..

theorem neg_map (z : α) (a : Arr α) : (a.mapBuf φ).neg g' K' (φ z) = Arr.mapBuf φ <$> a.neg g K z := by
  unfold Arr.neg
  simp only [map_bind]
  have := negKernel_map h hK ⟨0, a.off⟩ a.shape a.stride ⟨1, 0⟩ [a.buf, List.replicate a.size z]
  simp only [mapMem, List.map_cons, List.map_nil, List.map_replicate] at this
  show (negKernel g' K' ⟨0, a.off⟩ a.shape a.stride ⟨1, 0⟩
    [a.buf.map φ, List.replicate a.size (φ z)] >>= fun m => _) = _
  rw [this, bind_map_left]
  congr 1; funext m
  show (Mem.region (mapMem φ m) 1 >>= fun d => _) = _
  rw [region_map, bind_map_left]
  congr 1; funext d
  simp only [fromContiguous_mapBuf, map_pure]
  rfl

end unary

/-! ### the vector loops -/

theorem vecLoad_map (L : Nat) (m : Mem α) (p : Ptr) (s : Nat) : vecLoad L (mapMem φ m) p s = List.map φ <$> vecLoad L m p s :=
  mapM_map_res φ _ _ (fun _ => load_map m _) _

theorem vecStore_map : ∀ (v : List α) (p : Ptr) (m : Mem α),
    vecStore (v.map φ) p (mapMem φ m) = mapMem φ <$> vecStore v p m
  | [], _, _ => rfl
  | x :: v, p, m => by
    simp only [List.map_cons, vecStore, store_map, bind_map_left, map_bind]
    congr 1; funext m'
    exact vecStore_map v _ m'

/-- The image of an operand. -/
def Operand.map (φ : α → β) : Operand α → Operand β
  | .const v => .const (φ v)
  | .unit => .unit
  | .strided s => .strided s

theorem Operand.stride_map (A : Operand α) : (A.map φ).stride = A.stride := by cases A <;> rfl

theorem Operand.vec_map (L : Nat) (m : Mem α) (p : Ptr) (k : Nat) (A : Operand α) :
    (A.map φ).vec L (mapMem φ m) p k = List.map φ <$> A.vec L m p k := by
  cases A with
  | const v => simp only [Operand.map, Operand.vec, map_ok, List.map_replicate]
  | unit => exact vecLoad_map ..
  | strided s => exact vecLoad_map ..

section
variable {f : α → α → α} {f' : β → β → β} (h : ∀ x y, φ (f x y) = f' (φ x) (φ y))
include h

theorem simdBlock_map (L : Nat) (A B : Operand α) (l r d : Ptr) (m : Mem α) :
    simdBlock f' L (A.map φ) (B.map φ) l r d (mapMem φ m) = mapMem φ <$> simdBlock f L A B l r d m := by
  simp only [simdBlock, Operand.vec_map, bind_map_left, map_bind, zipWith_map' h, vecStore_map]

theorem simdBin_map (L : Nat) (A B : Operand α) (n : Nat) (l r d : Ptr) (m : Mem α) :
    simdBin f' L (A.map φ) (B.map φ) n l r d (mapMem φ m) = mapMem φ <$> simdBin f L A B n l r d m := by
  induction n using Nat.strong_induction_on generalizing l r d m with
  | _ n ih =>
    rw [simdBin, simdBin]
    split
    · simp only [simdBlock_map h, bind_map_left, map_bind, Operand.stride_map]
      congr 1; funext m'
      exact ih _ (by omega) _ _ _ m'
    · rw [Operand.stride_map, Operand.stride_map]
      exact strideNN_map (fun x y => congrArg Except.ok (h x y).symm) ..

theorem simdKernels_nat (L : Nat) : BinNat φ (simdKernels f L) (simdKernels f' L) := by
  constructor <;> intros <;> simp only [simdKernels, load_map, bind_map_left, map_bind]
  · congr 1; funext v
    exact simdBin_map h L (.const v) .unit ..
  · congr 1; funext v
    exact simdBin_map h L .unit (.const v) ..
  · congr 1; funext v
    exact simdBin_map h L (.strided _) (.const v) ..
  · congr 1; funext v
    exact simdBin_map h L (.const v) (.strided _) ..
  · exact simdBin_map h L .unit .unit ..
  · exact simdBin_map h L (.strided _) .unit ..
  · exact simdBin_map h L .unit (.strided _) ..
  · exact simdBin_map h L (.strided _) (.strided _) ..

/-- The loops of a build commute with `φ`. -/
theorem binLoops_nat [Build] : BinNat φ (binLoops f) (binLoops f') := by
  unfold binLoops
  cases Build.loops with
  | portable => exact portableKernels_nat fun x y => congrArg Except.ok (h x y).symm
  | neon64 => exact simdKernels_nat h 2
  | neon32 => exact simdKernels_nat h 4

end

section
variable {g : α → α} {g' : β → β} (h : ∀ x, φ (g x) = g' (φ x))
include h

theorem map_map' (v : List α) : (v.map φ).map g' = (v.map g).map φ := by
  rw [List.map_map, List.map_map]
  exact List.map_congr_left fun x _ => (h x).symm

theorem simdNegBlock_map (L : Nat) (A : Operand α) (s d : Ptr) (m : Mem α) :
    simdNegBlock g' L (A.map φ) s d (mapMem φ m) = mapMem φ <$> simdNegBlock g L A s d m := by
  simp only [simdNegBlock, Operand.vec_map, bind_map_left, map_bind, map_map' h, vecStore_map]

theorem simdNeg_map (L : Nat) (A : Operand α) (n : Nat) (s d : Ptr) (m : Mem α) :
    simdNeg g' L (A.map φ) n s d (mapMem φ m) = mapMem φ <$> simdNeg g L A n s d m := by
  induction n using Nat.strong_induction_on generalizing s d m with
  | _ n ih =>
    rw [simdNeg, simdNeg]
    split
    · simp only [simdNegBlock_map h, bind_map_left, map_bind, Operand.stride_map]
      congr 1; funext m'
      exact ih _ (by omega) _ _ m'
    · rw [Operand.stride_map]
      exact negStrideN_map (fun x => congrArg Except.ok (h x).symm) ..

theorem simdNegKernels_nat (L : Nat) : UnNat φ (simdNegKernels g L) (simdNegKernels g' L) := by
  constructor <;> intros
  · exact simdNeg_map h L (.strided 0) ..
  · exact simdNeg_map h L .unit ..
  · exact simdNeg_map h L (.strided _) ..

theorem negLoops_nat [Build] : UnNat φ (negLoops g) (negLoops g') := by
  unfold negLoops
  cases Build.loops with
  | portable => exact portableNeg_nat fun x => congrArg Except.ok (h x).symm
  | neon64 => exact simdNegKernels_nat h 2
  | neon32 => exact simdNegKernels_nat h 4

end

theorem sopLoops_nat [Zero α] [One α] [Add α] [Mul α] [MulAdd α] [Zero β] [One β] [Add β] [Mul β] [MulAdd β] (h : OpHom φ)
    [Build] : KNat φ (sopLoops : SopKernels α) sopLoops := by
  unfold sopLoops
  cases Build.loops with
  | portable => exact portableSop_nat h
  | neon64 => exact simdSop_nat h 2
  | neon32 => exact simdSop_nat h 4

/-! ### views and copies -/

theorem reshape_map (a : Arr α) (s : List Nat) : (a.mapBuf φ).reshape s = Arr.mapBuf φ <$> a.reshape s := by
  unfold Arr.reshape
  simp only [map_bind, map_pure]
  rfl

theorem intoReshape_map (a : Arr α) (s : List Nat) : (a.mapBuf φ).intoReshape s = Arr.mapBuf φ <$> a.intoReshape s := by
  unfold Arr.intoReshape
  simp only [map_bind, map_pure]
  rfl

theorem unsqueeze_map (a : Arr α) (ax : Int) : (a.mapBuf φ).unsqueeze ax = Arr.mapBuf φ <$> a.unsqueeze ax := by
  unfold Arr.unsqueeze
  simp only [map_bind, map_pure]
  rfl

theorem transpose_map (a : Arr α) (ax ax' : Int) : (a.mapBuf φ).transpose ax ax' = Arr.mapBuf φ <$> a.transpose ax ax' := by
  unfold Arr.transpose
  simp only [map_bind, map_pure]
  rfl

theorem intoTranspose_map (a : Arr α) (ax ax' : Int) :
    (a.mapBuf φ).intoTranspose ax ax' = Arr.mapBuf φ <$> a.intoTranspose ax ax' := by
  unfold Arr.intoTranspose
  simp only [map_bind, map_pure]
  rfl

theorem read_map (a : Arr α) (i : Nat) : (a.mapBuf φ).read i = φ <$> a.read i := by
  unfold Arr.read
  show (match (a.buf.map φ)[a.off + i]? with | some v => Except.ok v | none => .error Err.oob) = _
  rw [List.getElem?_map]
  cases a.buf[a.off + i]? <;> rfl

theorem readRun_map (a : Arr α) (i n : Nat) : (a.mapBuf φ).readRun i n = List.map φ <$> a.readRun i n :=
  mapM_map_res φ _ _ (fun _ => read_map a _) _

theorem clone_map (a : Arr α) : (a.mapBuf φ).clone = Arr.mapBuf φ <$> a.clone := by
  have hd : (a.mapBuf φ).cloneData = List.map φ <$> a.cloneData := by
    unfold Arr.cloneData
    show (if a.isContiguous then _ else _) = _
    split
    · exact readRun_map a 0 a.len
    · unfold Arr.cloneDataNonContiguous
      show (match (collapseToUniformStride a.shape a.stride).2.getLast? with
        | none => Except.error Err.panic
        | some d => _) = _
      simp only
      cases (collapseToUniformStride a.shape a.stride).2.getLast? with
      | none => rfl
      | some d =>
        simp only [map_bind]
        congr 1; funext g
        rw [mapM_map_res (List.map φ) (fun i => a.readRun i _) _ (fun i => readRun_map a i _) g.toList]
        rw [bind_map_left]
        congr 1; funext runs
        rw [show (runs.map (List.map φ)).flatten = runs.flatten.map φ from List.map_flatten.symm, List.length_map]
        show (if runs.flatten.length = a.size then _ else _) = _
        split <;> rfl
  unfold Arr.clone
  simp only [hd, bind_map_left, map_bind, fromContiguous_mapBuf, map_pure]
  rfl

end Verif
