import Verif.Model.MatrixOps
import Verif.Model.Simd

/-!
# The model commutes with maps that preserve the operations

The code touches elements only through the operations of their type. So running it on the images of the elements under a map that
preserves 0, 1, `+`, `*` and `mul_add` gives the images of the results.
-/

namespace Verif

variable {α β : Type}

/-- `φ` preserves the operations of the element type. -/
structure OpHom [Zero α] [One α] [Add α] [Mul α] [MulAdd α] [Zero β] [One β] [Add β] [Mul β] [MulAdd β] (φ : α → β) : Prop where
  zero : φ 0 = 0
  one : φ 1 = 1
  add : ∀ x y, φ (x + y) = φ x + φ y
  mul : ∀ x y, φ (x * y) = φ x * φ y
  mulAdd : ∀ x y z, φ (mulAdd x y z) = mulAdd (φ x) (φ y) (φ z)

/-- The array over the images of the elements. -/
def Arr.mapBuf (φ : α → β) (a : Arr α) : Arr β :=
  { buf := a.buf.map φ, off := a.off, len := a.len, cap := a.cap, shape := a.shape, stride := a.stride, flags := a.flags }

theorem denotes_mapBuf {φ : α → β} {a : Arr α} {s : List Nat} {f : List Nat → α} (h : a.Denotes s f) :
    (a.mapBuf φ).Denotes s (fun i => φ (f i)) :=
  ⟨h.1, h.2.1, fun idx hi => by
    show (a.buf.map φ)[a.off + offset idx a.stride]? = _
    rw [List.getElem?_map, h.2.2 idx hi]; rfl⟩

/-! ### buffers -/

theorem bufLoad_map (φ : α → β) (b : List α) (i : Nat) : bufLoad (b.map φ) i = φ <$> bufLoad b i := by
  unfold bufLoad
  rw [List.getElem?_map]
  cases b[i]? <;> rfl

theorem bufStore_map (φ : α → β) (b : List α) (i : Nat) (v : α) :
    bufStore (b.map φ) i (φ v) = List.map φ <$> bufStore b i v := by
  unfold bufStore
  rw [List.length_map]
  split
  · rw [← List.map_set]; rfl
  · rfl

theorem map_ok (φ : α → β) (x : α) : φ <$> (Except.ok x : Res α) = .ok (φ x) := rfl
theorem map_error (φ : α → β) (e : Err) : φ <$> (Except.error e : Res α) = .error e := rfl

variable [Zero α] [One α] [Add α] [Mul α] [MulAdd α] [Zero β] [One β] [Add β] [Mul β] [MulAdd β] {φ : α → β}

/-- The image of an operand pointer. -/
def mapSrc (φ : α → β) (s : Src α) : Src β := (s.1.map φ, s.2)

omit [Zero α] [One α] [Add α] [Mul α] [MulAdd α] [Zero β] [One β] [Add β] [Mul β] [MulAdd β] in
theorem length_mapSrcs (ops : List (Src α)) : (ops.map (mapSrc φ)).length = ops.length := List.length_map _

theorem bufAdd_map (h : OpHom φ) (b : List α) (i : Nat) (v : α) :
    bufAdd (b.map φ) i (φ v) = List.map φ <$> bufAdd b i v := by
  unfold bufAdd
  rw [List.getElem?_map]
  cases b[i]? with
  | none => rfl
  | some x =>
    show Except.ok _ = Except.ok _
    rw [List.map_set, h.add]

theorem prodAt_map (h : OpHom φ) (k : Nat) : ∀ (ops : List (Src α)) (strides : List Nat) (acc : α),
    prodAt k (ops.map (mapSrc φ)) strides (φ acc) = φ <$> prodAt k ops strides acc
  | [], _, _ => by simp only [List.map_nil, prodAt]; rfl
  | _ :: _, [], _ => by simp only [List.map_cons, prodAt]; rfl
  | o :: ops, s :: strides, acc => by
    simp only [List.map_cons, mapSrc, prodAt, bufLoad_map, map_bind, bind_map_left, ← h.mul]
    congr 1; funext v
    exact prodAt_map h k ops strides _

theorem sopGenericLoop_map (h : OpHom φ) (ops : List (Src α)) (strides : List Nat) (so q : Nat) : ∀ (n : Nat) (dst : List α),
    sopGenericLoop (ops.map (mapSrc φ)) strides so q n (dst.map φ) = List.map φ <$> sopGenericLoop ops strides so q n dst
  | 0, _ => rfl
  | n + 1, dst => by
    simp only [sopGenericLoop, ← h.one, prodAt_map h, map_bind, bind_map_left, bufAdd_map h]
    congr 1; funext v
    congr 1; funext d
    exact sopGenericLoop_map h ops strides so q n d

theorem sopSumLoop_map (h : OpHom φ) (ops : List (Src α)) (strides : List Nat) : ∀ (n : Nat) (acc : α),
    sopSumLoop (ops.map (mapSrc φ)) strides n (φ acc) = φ <$> sopSumLoop ops strides n acc
  | 0, _ => rfl
  | n + 1, acc => by
    simp only [sopSumLoop, ← h.one, prodAt_map h, map_bind, bind_map_left, ← h.add]
    congr 1; funext v
    exact sopSumLoop_map h ops strides n _

/-- A kernel commutes with `φ`. -/
def SopNat (φ : α → β) (k : SopKernel α) (k' : SopKernel β) : Prop :=
  ∀ ops strides count dst q, k' (ops.map (mapSrc φ)) strides count (dst.map φ) q = List.map φ <$> k ops strides count dst q

theorem sopGeneric_nat (h : OpHom φ) : SopNat φ sopGeneric sopGeneric := by
  intro ops strides count dst q
  simp only [sopGeneric, length_mapSrcs, sopGenericLoop_map h, map_bind]

theorem sopOutStride0_nat (h : OpHom φ) : SopNat φ sopOutStride0 sopOutStride0 := by
  intro ops strides count dst q
  simp only [sopOutStride0, length_mapSrcs, ← h.zero, sopSumLoop_map h, map_bind, bind_map_left, bufAdd_map h]

theorem muladdLoop_map (h : OpHom φ) (c : α) (data : List α) : ∀ (n p : Nat) (dst : List α) (q : Nat),
    muladdLoop (φ c) (data.map φ) n p (dst.map φ) q = List.map φ <$> muladdLoop c data n p dst q
  | 0, _, _, _ => rfl
  | n + 1, p, dst, q => by
    simp only [muladdLoop, bufLoad_map, map_bind, bind_map_left, ← h.mulAdd, ← List.map_set]
    congr 1; funext v
    congr 1; funext x
    exact muladdLoop_map h c data n _ _ _

theorem sumLoop_map (h : OpHom φ) (data : List α) : ∀ (n p : Nat) (acc : α),
    sumLoop (data.map φ) n p (φ acc) = φ <$> sumLoop data n p acc
  | 0, _, _ => rfl
  | n + 1, p, acc => by
    simp only [sumLoop, bufLoad_map, map_bind, bind_map_left, ← h.add]
    congr 1; funext v
    exact sumLoop_map h data n _ _

theorem dotLoop_map (h : OpHom φ) (a b : List α) (sa sb : Nat) : ∀ (n p q : Nat) (acc : α),
    dotLoop (a.map φ) (b.map φ) sa sb n p q (φ acc) = φ <$> dotLoop a b sa sb n p q acc
  | 0, _, _, _ => rfl
  | n + 1, p, q, acc => by
    simp only [dotLoop, bufLoad_map, map_bind, bind_map_left, ← h.add, ← h.mul]
    congr 1; funext x
    congr 1; funext y
    exact dotLoop_map h a b sa sb n _ _ _

/-- A family of leaf kernels commutes with `φ`. -/
structure KNat (φ : α → β) (K : SopKernels α) (K' : SopKernels β) : Prop where
  muladd : ∀ c data p dst q n, K'.muladd (φ c) (data.map φ) p (dst.map φ) q n = List.map φ <$> K.muladd c data p dst q n
  scaledArray : ∀ c data p dst q n,
    K'.scaledArray (φ c) (data.map φ) p (dst.map φ) q n = List.map φ <$> K.scaledArray c data p dst q n
  dot : ∀ a p b p' dst q n, K'.dot (a.map φ) p (b.map φ) p' (dst.map φ) q n = List.map φ <$> K.dot a p b p' dst q n

theorem portableSop_nat (h : OpHom φ) : KNat φ (portableSop : SopKernels α) portableSop where
  muladd c data p dst q n := by
    simp only [portableSop, muladdLoop_map h, map_bind]
  scaledArray c data p dst q n := by
    simp only [portableSop, ← h.zero, sumLoop_map h, bufLoad_map, map_bind, bind_map_left, ← h.mulAdd, bufStore_map]
  dot a p b p' dst q n := by
    simp only [portableSop, ← h.zero, dotLoop_map h, map_bind, bind_map_left, bufAdd_map h]

theorem sop111Loop_map (h : OpHom φ) (a b : List α) : ∀ (n p p' : Nat) (dst : List α) (q : Nat),
    sop111Loop (a.map φ) (b.map φ) n p p' (dst.map φ) q = List.map φ <$> sop111Loop a b n p p' dst q
  | 0, _, _, _, _ => rfl
  | n + 1, p, p', dst, q => by
    simp only [sop111Loop, bufLoad_map, map_bind, bind_map_left, ← h.mul, bufAdd_map h]
    congr 1; funext x
    congr 1; funext y
    congr 1; funext d
    exact sop111Loop_map h a b n _ _ _ _

omit [Zero α] [One α] [Add α] [Mul α] [MulAdd α] [Zero β] [One β] [Add β] [Mul β] [MulAdd β] in
theorem twoOps_nat {k : List Nat → Nat → List α → Nat → Src α → Src α → Res (List α)}
    {k' : List Nat → Nat → List β → Nat → Src β → Src β → Res (List β)}
    (hk : ∀ st n dst q a b, k' st n (dst.map φ) q (mapSrc φ a) (mapSrc φ b) = List.map φ <$> k st n dst q a b) :
    SopNat φ (fun ops st n dst q => twoOps ops (k st n dst q)) (fun ops st n dst q => twoOps ops (k' st n dst q)) := by
  intro ops st n dst q
  match ops with
  | [] => rfl
  | [_] => rfl
  | [a, b] => exact hk st n dst q a b
  | _ :: _ :: _ :: _ => rfl

theorem sop111_nat (h : OpHom φ) : SopNat φ sop111 sop111 := by
  refine twoOps_nat ?_
  intro st n dst q a b
  simp only [mapSrc, sop111Loop_map h, map_bind]

section
variable {K : SopKernels α} {K' : SopKernels β}

omit [Zero α] [One α] [Add α] [Mul α] [MulAdd α] [Zero β] [One β] [Add β] [Mul β] [MulAdd β]

theorem sop010_nat (hK : KNat φ K K') : SopNat φ (sop010 K) (sop010 K') := by
  refine twoOps_nat ?_
  intro st n dst q a b
  simp only [mapSrc, bufLoad_map, map_bind, bind_map_left, hK.scaledArray]

theorem sop011_nat (hK : KNat φ K K') : SopNat φ (sop011 K) (sop011 K') := by
  refine twoOps_nat ?_
  intro st n dst q a b
  simp only [mapSrc, bufLoad_map, map_bind, bind_map_left, hK.muladd]

theorem sop100_nat (hK : KNat φ K K') : SopNat φ (sop100 K) (sop100 K') := by
  refine twoOps_nat ?_
  intro st n dst q a b
  simp only [mapSrc, bufLoad_map, map_bind, bind_map_left, hK.scaledArray]

theorem sop101_nat (hK : KNat φ K K') : SopNat φ (sop101 K) (sop101 K') := by
  refine twoOps_nat ?_
  intro st n dst q a b
  simp only [mapSrc, bufLoad_map, map_bind, bind_map_left, hK.muladd]

theorem sop110_nat (hK : KNat φ K K') : SopNat φ (sop110 K) (sop110 K') := by
  refine twoOps_nat ?_
  intro st n dst q a b
  simp only [mapSrc, map_bind, hK.dot]

end

theorem sopNN0_map (h : OpHom φ) (a b : Src α) (sa sb n : Nat) (dst : List α) (q : Nat) :
    sopNN0 (mapSrc φ a) (mapSrc φ b) sa sb n (dst.map φ) q = List.map φ <$> sopNN0 a b sa sb n dst q := by
  simp only [sopNN0, mapSrc, ← h.zero, dotLoop_map h, map_bind, bind_map_left, bufAdd_map h]

theorem getSopGeneric_nat (h : OpHom φ) (st : List Nat) : SopNat φ (getSopGeneric st) (getSopGeneric st) := by
  unfold getSopGeneric
  split
  · exact sopOutStride0_nat h
  · exact sopGeneric_nat h

theorem getSop_nat (h : OpHom φ) {K : SopKernels α} {K' : SopKernels β} (hK : KNat φ K K') (st : List Nat) :
    SopNat φ (getSop K st) (getSop K' st) := by
  have hf : SopNat φ (if st.getLastD 0 = 0 then sopOutStride0 else sopGeneric)
      (if st.getLastD 0 = 0 then sopOutStride0 else sopGeneric) := getSopGeneric_nat h st
  unfold getSop
  dsimp only
  split
  · rename_i s0 s1 s2
    split
    · exact sop010_nat hK
    · exact sop011_nat hK
    · exact sop100_nat hK
    · exact sop101_nat hK
    · exact sop110_nat hK
    · exact sop111_nat h
    · exact hf
  · exact hf

end Verif
