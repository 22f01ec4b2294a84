import Verif.Lemmas.TransferGrad

/-!
# Whole sessions with tensors commute with maps that preserve the operations
-/

namespace Verif

variable {α β : Type}

/-! ### images of tensors, programs and sessions -/

def GradFn.map (φ : α → β) : GradFn α → GradFn β
  | .none => .none
  | .acc i => .acc i
  | .add l r ls rs => .add (l.map φ) (r.map φ) ls rs
  | .sub l r ls rs => .sub (l.map φ) (r.map φ) ls rs
  | .mul l r a b => .mul (l.map φ) (r.map φ) (a.mapBuf φ) (b.mapBuf φ)
  | .mulScalar n s c => .mulScalar (n.map φ) s (φ c)
  | .div l r a b => .div (l.map φ) (r.map φ) (a.mapBuf φ) (b.mapBuf φ)
  | .divScalar n s c => .divScalar (n.map φ) s (φ c)
  | .neg n s => .neg (n.map φ) s
  | .dot l r a b => .dot (l.map φ) (r.map φ) (a.mapBuf φ) (b.mapBuf φ)
  | .matVec l r a b => .matVec (l.map φ) (r.map φ) (a.mapBuf φ) (b.mapBuf φ)
  | .matMul l r a b => .matMul (l.map φ) (r.map φ) (a.mapBuf φ) (b.mapBuf φ)
  | .bmm l r a b => .bmm (l.map φ) (r.map φ) (a.mapBuf φ) (b.mapBuf φ)
  | .reshape n s => .reshape (n.map φ) s
  | .transpose n ax ax' => .transpose (n.map φ) ax ax'

def mapStore (φ : α → β) (st : Store α) : Store β := st.map (Arr.mapBuf φ)

def GradArr.map (φ : α → β) (g : GradArr α) : GradArr β := ⟨g.arr.mapBuf φ, g.src⟩

def Tensor.map (φ : α → β) (t : Tensor α) : Tensor β := ⟨t.arr.mapBuf φ, t.requiresGrad, t.userCreated, t.gradFn.map φ⟩

def RunState.map (φ : α → β) (σ : RunState α) : RunState β := ⟨σ.env.map (Tensor.map φ), mapStore φ σ.store⟩

/-- The same operation on the images of the elements. -/
def Instr.map (φ : α → β) : Instr α → Instr β
  | .leaf s data => .leaf s (data.map φ)
  | .setReq i b => .setReq i b
  | .neg i => .neg i
  | .bin op i j => .bin op i j
  | .scal op i c => .scal op i (φ c)
  | .dot i j => .dot i j
  | .matmul i j => .matmul i j
  | .bmm i j => .bmm i j
  | .view op i => .view op i
  | .into op shared i => .into op shared i

/-- The same command on the images of the elements. -/
def Cmd.map (φ : α → β) : Cmd α → Cmd β
  | .op x => .op (x.map φ)
  | .backward y => .backward y
  | .backwardWith y g => .backwardWith y (g.mapBuf φ)
  | .zeroGradient i => .zeroGradient i

/-- `φ` preserves the arithmetic that tensors use. -/
structure GradHom [Add α] [Sub α] [Mul α] [Div α] [Neg α] [Zero α] [One α] [MulAdd α]
    [Add β] [Sub β] [Mul β] [Div β] [Neg β] [Zero β] [One β] [MulAdd β]
    (φ : α → β) : Prop where
  zero : φ 0 = 0
  one : φ 1 = 1
  add : ∀ x y, φ (x + y) = φ x + φ y
  sub : ∀ x y, φ (x - y) = φ x - φ y
  mul : ∀ x y, φ (x * y) = φ x * φ y
  div : ∀ x y, φ (x / y) = φ x / φ y
  neg : ∀ x, φ (-x) = -φ x
  mulAdd : ∀ x y z, φ (mulAdd x y z) = mulAdd (φ x) (φ y) (φ z)

section
variable [Add α] [Sub α] [Mul α] [Div α] [Neg α] [Zero α] [One α] [MulAdd α] [Build]
  [Add β] [Sub β] [Mul β] [Div β] [Neg β] [Zero β] [One β] [MulAdd β]
  {φ : α → β} (h : GradHom φ)
include h

/-! ### the array operators -/

omit [Build] in
theorem GradHom.opHom : OpHom φ := ⟨h.zero, h.one, h.add, h.mul, h.mulAdd⟩

omit [Build] in
theorem opRun_map (op : SOp) (x y : α) : op.run (φ x) (φ y) = φ (op.run x y) := by
  cases op
  · exact (h.add x y).symm
  · exact (h.sub x y).symm
  · exact (h.mul x y).symm
  · exact (h.div x y).symm

theorem opArr_map (op : SOp) (a b : Arr α) : op.arr (a.mapBuf φ) (b.mapBuf φ) = Arr.mapBuf φ <$> op.arr a b := by
  unfold SOp.arr
  rw [← h.zero]
  exact binOp_map (f := fun x y => .ok (op.run x y)) (f' := fun x y => .ok (op.run x y))
    (fun x y => congrArg Except.ok (opRun_map h op x y)) (binLoops_nat (fun x y => (opRun_map h op x y).symm)) 0 a b

theorem opArrScalar_map (op : SOp) (a : Arr α) (c : α) :
    op.arrScalar (a.mapBuf φ) (φ c) = Arr.mapBuf φ <$> op.arrScalar a c := by
  unfold SOp.arrScalar
  rw [← h.zero]
  exact binOpScalar_map (f := fun x y => .ok (op.run x y)) (f' := fun x y => .ok (op.run x y))
    (fun x y => congrArg Except.ok (opRun_map h op x y)) (binLoops_nat (fun x y => (opRun_map h op x y).symm)) 0 a c

theorem mulA_map (a b : Arr α) : (a.mapBuf φ).mulA (b.mapBuf φ) = Arr.mapBuf φ <$> a.mulA b := opArr_map h .mul a b
theorem divA_map (a b : Arr α) : (a.mapBuf φ).divA (b.mapBuf φ) = Arr.mapBuf φ <$> a.divA b := opArr_map h .div a b

theorem negA_map (a : Arr α) : (a.mapBuf φ).negA = Arr.mapBuf φ <$> a.negA := by
  unfold Arr.negA
  rw [← h.zero]
  exact neg_map (g := fun x => .ok (-x)) (g' := fun x => .ok (-x)) (fun x => congrArg Except.ok (h.neg x).symm)
    (negLoops_nat h.neg) 0 a

omit [Build] in
theorem dotA_map (a b : Arr α) : (a.mapBuf φ).dot (b.mapBuf φ) = Arr.mapBuf φ <$> a.dot b :=
  dot_map h.opHom a b

theorem matmulA_map (a b : Arr α) :
    (a.mapBuf φ).matmul sopLoops (b.mapBuf φ) = Arr.mapBuf φ <$> a.matmul sopLoops b :=
  matmul_map h.opHom (sopLoops_nat h.opHom) a b

theorem bmmA_map (a b : Arr α) : (a.mapBuf φ).bmm sopLoops (b.mapBuf φ) = Arr.mapBuf φ <$> a.bmm sopLoops b :=
  bmm_map h.opHom (sopLoops_nat h.opHom) a b

omit [Build] in
theorem full_map (v : α) (s : List Nat) : (Arr.full (φ v) s : Res (Arr β)) = Arr.mapBuf φ <$> Arr.full v s := by
  unfold Arr.full
  simp only [← List.map_replicate, map_bind, map_pure, fromContiguous_mapBuf, List.isEmpty_map]

omit [Build] in
theorem zerosA_map (s : List Nat) : (Arr.zeros s : Res (Arr β)) = Arr.mapBuf φ <$> (Arr.zeros s : Res (Arr α)) := by
  unfold Arr.zeros; rw [← full_map h, h.zero]

omit [Build] in
theorem ones_map (s : List Nat) : (Arr.ones s : Res (Arr β)) = Arr.mapBuf φ <$> (Arr.ones s : Res (Arr α)) := by
  unfold Arr.ones; rw [← full_map h, h.one]

/-! ### gradients -/

omit [Build] h in
theorem gradGet_map (g : GradArr α) (st : Store α) : (g.map φ).get (mapStore φ st) = (g.get st).mapBuf φ := by
  obtain ⟨a, src⟩ := g
  cases src with
  | none => rfl
  | some i =>
    simp only [GradArr.get, GradArr.map, mapStore, List.getElem?_map]
    cases st[i]? <;> rfl

omit [Build] h in
theorem fresh_map {r : Res (Arr α)} {r' : Res (Arr β)} (e : r' = Arr.mapBuf φ <$> r) : fresh r' = GradArr.map φ <$> fresh r := by
  unfold fresh
  rw [e, bind_map_left, map_bind]
  rfl

omit [Build] in
theorem reduceGradient_map (g : Arr α) (s : List Nat) :
    reduceGradient (g.mapBuf φ) s = Arr.mapBuf φ <$> reduceGradient g s := by
  unfold reduceGradient
  show (if g.shape = s then _ else _) = _
  split
  · rfl
  · rw [map_bind]
    congr 1; funext axes
    have : (g.mapBuf φ).sumAlong axes = Arr.mapBuf φ <$> g.sumAlong axes := by
      unfold Arr.sumAlong
      rw [← h.zero]
      exact reduceAlong_map (step := fun v acc => acc + v) (step' := fun v acc => acc + v) (fun v acc => h.add acc v) g axes
    rw [this, bind_map_left, map_bind]
    congr 1; funext r
    exact intoReshape_map r s

omit [Build] in
theorem fit_map (g : GradArr α) (st : Store α) (s : List Nat) :
    fit (g.map φ) (mapStore φ st) s = GradArr.map φ <$> fit g st s := by
  unfold fit
  show (if s = g.arr.shape then _ else _) = _
  split
  · rfl
  · refine fresh_map ?_
    rw [gradGet_map]
    exact reduceGradient_map h _ s

omit [Build] in
theorem freshFit_map {r : Res (Arr α)} {r' : Res (Arr β)} (e : r' = Arr.mapBuf φ <$> r) (st : Store α) (s : List Nat) :
    freshFit r' (mapStore φ st) s = GradArr.map φ <$> freshFit r st s := by
  unfold freshFit
  rw [fresh_map e, bind_map_left, map_bind]
  congr 1; funext g
  exact fit_map h g st s

theorem accumulate_map (i : Nat) (g : GradArr α) (st : Store α) :
    accumulate i (g.map φ) (mapStore φ st) = mapStore φ <$> accumulate i g st := by
  unfold accumulate
  rw [show (mapStore φ st)[i]? = (st[i]?).map (Arr.mapBuf φ) from List.getElem?_map ..]
  cases st[i]? with
  | none => rfl
  | some a =>
    simp only [Option.map_some, map_bind]
    show (assume (decide (a.shape = g.arr.shape)) >>= fun _ => _) = _
    congr 1; funext _
    rw [gradGet_map]
    have := opAssign_map (φ := φ) (f := fun x y => .ok (x + y)) (f' := fun x y => .ok (x + y))
      (fun x y => congrArg Except.ok (h.add x y).symm) (binLoops_nat h.add) (g.src == some i) a (g.get st)
    show ((a.mapBuf φ).opAssign _ _ (g.src == some i) ((g.get st).mapBuf φ) >>= fun buf => _) = _
    rw [this, bind_map_left]
    congr 1; funext buf
    show Except.ok _ = Except.ok _
    simp only [mapStore, List.map_set]
    rfl

theorem divRightOnly_map (g a b : Arr α) :
    divRightOnly (g.mapBuf φ) (a.mapBuf φ) (b.mapBuf φ) = Arr.mapBuf φ <$> divRightOnly g a b := by
  simp only [divRightOnly, negA_map h, mulA_map h, divA_map h, bind_map_left, map_bind]

theorem divLeft_map (g b : Arr α) : divLeft (g.mapBuf φ) (b.mapBuf φ) = Arr.mapBuf φ <$> divLeft g b := by
  have h1 : Arr.scalar (1 : β) = Arr.mapBuf φ <$> Arr.scalar (1 : α) := by rw [← h.one]; rfl
  simp only [divLeft, h1, mulA_map h, divA_map h, bind_map_left, map_bind]

theorem divRight_map (g a b : Arr α) : divRight (g.mapBuf φ) (a.mapBuf φ) (b.mapBuf φ) = Arr.mapBuf φ <$> divRight g a b := by
  simp only [divRight, negA_map h, mulA_map h, divA_map h, bind_map_left, map_bind]

theorem matVecLeft_map (g v : Arr α) : matVecLeft (g.mapBuf φ) (v.mapBuf φ) = Arr.mapBuf φ <$> matVecLeft g v := by
  simp only [matVecLeft, unsqueeze_map, mulA_map h, bind_map_left, map_bind]

theorem transposedMatmul_map (m g : Arr α) :
    transposedMatmul (m.mapBuf φ) (g.mapBuf φ) = Arr.mapBuf φ <$> transposedMatmul m g := by
  simp only [transposedMatmul, Arr.T, transpose_map, matmulA_map h, bind_map_left, map_bind]

theorem matmulTransposed_map (g m : Arr α) :
    matmulTransposed (g.mapBuf φ) (m.mapBuf φ) = Arr.mapBuf φ <$> matmulTransposed g m := by
  simp only [matmulTransposed, Arr.T, transpose_map, matmulA_map h, bind_map_left, map_bind]

theorem bmmTransposed_map (g b : Arr α) : bmmTransposed (g.mapBuf φ) (b.mapBuf φ) = Arr.mapBuf φ <$> bmmTransposed g b := by
  simp only [bmmTransposed, transpose_map, bmmA_map h, bind_map_left, map_bind]

theorem transposedBmm_map (a g : Arr α) : transposedBmm (a.mapBuf φ) (g.mapBuf φ) = Arr.mapBuf φ <$> transposedBmm a g := by
  simp only [transposedBmm, transpose_map, bmmA_map h, bind_map_left, map_bind]

omit [Build] h in
theorem gradReshape_map (g : GradArr α) (st : Store α) (s : List Nat) :
    gradReshape (g.map φ) (mapStore φ st) s = GradArr.map φ <$> gradReshape g st s := by
  unfold gradReshape
  rw [gradGet_map, reshape_map, bind_map_left, map_bind]
  rfl

omit [Build] h in
theorem gradTranspose_map (g : GradArr α) (st : Store α) (ax ax' : Int) :
    gradTranspose (g.map φ) (mapStore φ st) ax ax' = GradArr.map φ <$> gradTranspose g st ax ax' := by
  unfold gradTranspose
  rw [gradGet_map, transpose_map, bind_map_left, map_bind]
  rfl

omit [Build] h in
theorem isNone_map (n : GradFn α) : (n.map φ).isNone = n.isNone := by cases n <;> rfl

omit [Build] h in
theorem callNext_map (b : Bool) (st : Store α) {grad : Res (GradArr α)} {grad' : Res (GradArr β)}
    (e : grad' = GradArr.map φ <$> grad) {next : GradArr α → Res (Store α)} {next' : GradArr β → Res (Store β)}
    (hn : ∀ g, next' (g.map φ) = mapStore φ <$> next g) :
    callNext b (mapStore φ st) grad' next' = mapStore φ <$> callNext b st grad next := by
  unfold callNext
  split
  · rfl
  · rw [e, bind_map_left, map_bind]
    congr 1; funext g
    exact hn g

theorem backward_map : ∀ (n : GradFn α) (g : GradArr α) (st : Store α),
    backward (n.map φ) (g.map φ) (mapStore φ st) = mapStore φ <$> backward n g st
  | .none, _, _ => rfl
  | .acc i, g, st => accumulate_map h i g st
  | .add l r ls rs, g, st => by
    simp only [backward, GradFn.map, isNone_map]
    rw [callNext_map l.isNone st (fit_map h g st ls) (fun g => backward_map l g st), bind_map_left, map_bind]
    congr 1; funext st
    exact callNext_map r.isNone st (fit_map h g st rs) (fun g => backward_map r g st)
  | .sub l r ls rs, g, st => by
    simp only [backward, GradFn.map, isNone_map]
    rw [callNext_map l.isNone st (fit_map h g st ls) (fun g => backward_map l g st), bind_map_left, map_bind]
    congr 1; funext st
    rw [gradGet_map]
    exact callNext_map r.isNone st (freshFit_map h (negA_map h _) st rs) (fun g => backward_map r g st)
  | .mul l r a b, g, st => by
    simp only [backward, GradFn.map, isNone_map]
    rw [gradGet_map, callNext_map l.isNone st (freshFit_map h (mulA_map h b (g.get st)) st (a.mapBuf φ).shape) (fun g => backward_map l g st),
      bind_map_left, map_bind]
    congr 1; funext st
    rw [gradGet_map]
    exact callNext_map r.isNone st (freshFit_map h (mulA_map h _ _) st b.shape) (fun g => backward_map r g st)
  | .mulScalar n s c, g, st => by
    simp only [backward, GradFn.map, isNone_map, gradGet_map]
    exact callNext_map n.isNone st (freshFit_map h (opArrScalar_map h .mul _ c) st s) (fun g => backward_map n g st)
  | .div l r a b, g, st => by
    simp only [backward, GradFn.map, isNone_map]
    split
    · rw [gradGet_map]
      exact callNext_map r.isNone st (freshFit_map h (divRightOnly_map h _ _ _) st b.shape) (fun g => backward_map r g st)
    · rw [gradGet_map, divLeft_map h, bind_map_left, map_bind]
      congr 1; funext lg
      have := callNext_map (φ := φ) l.isNone st (fit_map h ⟨lg, .none⟩ st a.shape) (next := fun g => backward l g st)
        (next' := fun g => backward (l.map φ) g (mapStore φ st)) (fun g => backward_map l g st)
      show (callNext l.isNone (mapStore φ st) (fit (GradArr.map φ ⟨lg, .none⟩) (mapStore φ st) a.shape) _ >>= fun st => _) = _
      rw [this, bind_map_left, map_bind]
      congr 1; funext st
      exact callNext_map r.isNone st (freshFit_map h (divRight_map h _ _ _) st b.shape) (fun g => backward_map r g st)
  | .divScalar n s c, g, st => by
    simp only [backward, GradFn.map, isNone_map]
    rw [gradGet_map, opArrScalar_map h, bind_map_left, map_bind]
    congr 1; funext g'
    exact callNext_map n.isNone st (fit_map h ⟨g', .none⟩ st s) (fun g => backward_map n g st)
  | .neg n s, g, st => by
    simp only [backward, GradFn.map, isNone_map, gradGet_map]
    exact callNext_map n.isNone st (freshFit_map h (negA_map h _) st s) (fun g => backward_map n g st)
  | .dot l r a b, g, st => by
    simp only [backward, GradFn.map, isNone_map]
    rw [gradGet_map, callNext_map l.isNone st (fresh_map (mulA_map h _ _)) (fun g => backward_map l g st), bind_map_left, map_bind]
    congr 1; funext st
    rw [gradGet_map]
    exact callNext_map r.isNone st (fresh_map (mulA_map h _ _)) (fun g => backward_map r g st)
  | .matVec l r a b, g, st => by
    simp only [backward, GradFn.map, isNone_map]
    rw [gradGet_map, callNext_map l.isNone st (fresh_map (matVecLeft_map h _ _)) (fun g => backward_map l g st), bind_map_left, map_bind]
    congr 1; funext st
    rw [gradGet_map]
    exact callNext_map r.isNone st (fresh_map (transposedMatmul_map h _ _)) (fun g => backward_map r g st)
  | .matMul l r a b, g, st => by
    simp only [backward, GradFn.map, isNone_map]
    rw [gradGet_map, callNext_map l.isNone st (fresh_map (matmulTransposed_map h _ _)) (fun g => backward_map l g st), bind_map_left,
      map_bind]
    congr 1; funext st
    rw [gradGet_map]
    exact callNext_map r.isNone st (fresh_map (transposedMatmul_map h _ _)) (fun g => backward_map r g st)
  | .bmm l r a b, g, st => by
    simp only [backward, GradFn.map, isNone_map]
    rw [gradGet_map, callNext_map l.isNone st (fresh_map (bmmTransposed_map h _ _)) (fun g => backward_map l g st), bind_map_left, map_bind]
    congr 1; funext st
    rw [gradGet_map]
    exact callNext_map r.isNone st (fresh_map (transposedBmm_map h _ _)) (fun g => backward_map r g st)
  | .reshape n s, g, st => by
    simp only [backward, GradFn.map, isNone_map]
    exact callNext_map n.isNone st (gradReshape_map g st s) (fun g => backward_map n g st)
  | .transpose n ax ax', g, st => by
    simp only [backward, GradFn.map, isNone_map]
    exact callNext_map n.isNone st (gradTranspose_map g st ax ax') (fun g => backward_map n g st)

/-! ### tensors -/

omit [Build] in
theorem setRequiresGrad_map (t : Tensor α) (b : Bool) (st : Store α) :
    (t.map φ).setRequiresGrad b (mapStore φ st) = (fun r => (r.1.map φ, mapStore φ r.2)) <$> t.setRequiresGrad b st := by
  unfold Tensor.setRequiresGrad
  show (if (!t.requiresGrad && b) = true then _ else if (t.requiresGrad && !b) = true then _ else _) = _
  split
  · show ((Arr.zeros t.arr.shape : Res (Arr β)) >>= fun z => _) = _
    rw [zerosA_map h, bind_map_left, map_bind]
    congr 1; funext z
    show Except.ok _ = Except.ok _
    simp only [mapStore, List.map_append, List.length_map, List.map_cons, List.map_nil]
    rfl
  · split <;> rfl

omit [Build] in
theorem zeroGradient_map (t : Tensor α) (st : Store α) :
    (t.map φ).zeroGradient (mapStore φ st) = mapStore φ <$> t.zeroGradient st := by
  unfold Tensor.zeroGradient
  show (match t.gradFn.map φ with | .acc i => _ | _ => _) = _
  cases t.gradFn with
  | acc i =>
    simp only [GradFn.map]
    rw [show (mapStore φ st)[i]? = (st[i]?).map (Arr.mapBuf φ) from List.getElem?_map ..]
    cases st[i]? with
    | none => rfl
    | some a =>
      simp only [Option.map_some, map_bind]
      have : (a.mapBuf φ).fill 0 = List.map φ <$> a.fill 0 := by
        rw [← h.zero]
        exact fillPtr_map 0 a.shape a.stride a.len a.buf a.off
      rw [this, bind_map_left]
      congr 1; funext buf
      show Except.ok _ = Except.ok _
      simp only [mapStore, List.map_set]
      rfl
  | _ => rfl

omit h [Add α] [Sub α] [Mul α] [Div α] [Neg α] [Zero α] [One α] [MulAdd α] [Build] [Add β] [Sub β] [Mul β] [Div β] [Neg β] [Zero β] [One β] [MulAdd β] in
theorem gradient_map (t : Tensor α) (st : Store α) :
    (t.map φ).gradient (mapStore φ st) = (t.gradient st).map (Arr.mapBuf φ) := by
  unfold Tensor.gradient
  show (match t.gradFn.map φ with | .acc i => _ | _ => _) = _
  cases t.gradFn with
  | acc i =>
    simp only [GradFn.map]
    rw [show (mapStore φ st)[i]? = (st[i]?).map (Arr.mapBuf φ) from List.getElem?_map ..]
    cases st[i]? <;> rfl
  | _ => rfl

theorem backwardWith_map (t : Tensor α) (g : GradArr α) (st : Store α) :
    (t.map φ).backwardWith (g.map φ) (mapStore φ st) = mapStore φ <$> t.backwardWith g st := by
  unfold Tensor.backwardWith
  show (assert (decide (g.arr.shape = t.arr.shape)) >>= fun _ => _) = _
  rw [map_bind]
  congr 1; funext _
  exact backward_map h _ g st

theorem tensorBackward_map (t : Tensor α) (st : Store α) : (t.map φ).backward (mapStore φ st) = mapStore φ <$> t.backward st := by
  unfold Tensor.backward
  show ((Arr.ones t.arr.shape : Res (Arr β)) >>= fun _ => _) = _
  rw [ones_map h, bind_map_left, map_bind]
  congr 1; funext one
  exact backwardWith_map h t ⟨one, .none⟩ st

omit [Build] h in
theorem mk'_map (a : Arr α) (b : Bool) (n : GradFn α) : (Tensor.mk' a b n).map φ = Tensor.mk' (a.mapBuf φ) b (n.map φ) := by
  cases b <;> rfl

theorem tensorNeg_map (t : Tensor α) : (t.map φ).neg = Tensor.map φ <$> t.neg := by
  unfold Tensor.neg
  show ((t.arr.mapBuf φ).negA >>= fun _ => _) = _
  rw [negA_map h, bind_map_left, map_bind]
  simp only [map_pure, mk'_map]
  rfl

theorem tensorBin_map (op : SOp) (l r : Tensor α) : Tensor.bin op (l.map φ) (r.map φ) = Tensor.map φ <$> Tensor.bin op l r := by
  unfold Tensor.bin
  show (op.arr (l.arr.mapBuf φ) (r.arr.mapBuf φ) >>= fun _ => _) = _
  rw [opArr_map h, bind_map_left, map_bind]
  simp only [map_pure, mk'_map]
  cases op <;> rfl

theorem tensorBinScalar_map (op : SOp) (t : Tensor α) (c : α) :
    Tensor.binScalar op (t.map φ) (φ c) = Tensor.map φ <$> Tensor.binScalar op t c := by
  unfold Tensor.binScalar
  show (op.arrScalar (t.arr.mapBuf φ) (φ c) >>= fun _ => _) = _
  rw [opArrScalar_map h, bind_map_left, map_bind]
  have hn : op.nodeScalar (t.map φ) (φ c) = (op.nodeScalar t c).map φ := by
    cases op
    · rfl
    · rfl
    · rfl
    · simp only [SOp.nodeScalar, GradFn.map, h.div, h.one]; rfl
  simp only [map_pure, mk'_map, hn]
  rfl

omit [Build] in
theorem tensorDot_map (l r : Tensor α) : (l.map φ).dot (r.map φ) = Tensor.map φ <$> l.dot r := by
  unfold Tensor.dot
  show ((l.arr.mapBuf φ).dot (r.arr.mapBuf φ) >>= fun _ => _) = _
  rw [dotA_map h, bind_map_left, map_bind]
  simp only [map_pure, mk'_map]
  rfl

theorem tensorMatmul_map (l r : Tensor α) : (l.map φ).matmul (r.map φ) = Tensor.map φ <$> l.matmul r := by
  unfold Tensor.matmul
  show (if l.arr.ndims = 1 ∧ r.arr.ndims = 1 then _ else _) = _
  split
  · exact tensorDot_map h l r
  · show ((l.arr.mapBuf φ).matmul sopLoops (r.arr.mapBuf φ) >>= fun _ => _) = _
    rw [matmulA_map h, bind_map_left, map_bind]
    congr 1; funext a
    have hm : ∀ n : GradFn α, (pure (Tensor.mk' (a.mapBuf φ) (l.requiresGrad || r.requiresGrad) (n.map φ)) : Res (Tensor β)) =
        Tensor.map φ <$> (pure (Tensor.mk' a (l.requiresGrad || r.requiresGrad) n) : Res (Tensor α)) := fun n => by
      rw [map_pure, mk'_map]
    by_cases h1 : l.arr.ndims = 2 ∧ r.arr.ndims = 1
    · rw [if_pos h1]
      exact (if_pos h1).trans (hm (.matVec l.gradFn r.gradFn l.arr r.arr))
    · rw [if_neg h1]
      refine (if_neg h1).trans ?_
      by_cases h2 : l.arr.ndims = 2 ∧ r.arr.ndims = 2
      · rw [if_pos h2]
        exact (if_pos h2).trans (hm (.matMul l.gradFn r.gradFn l.arr r.arr))
      · rw [if_neg h2]
        refine (if_neg h2).trans ?_
        by_cases h3 : (l.requiresGrad || r.requiresGrad) = true
        · simp only [if_pos h3]
          exact if_pos h3
        · simp only [if_neg h3]
          exact (if_neg h3).trans (hm .none)

theorem tensorBmm_map (l r : Tensor α) : (l.map φ).bmm (r.map φ) = Tensor.map φ <$> l.bmm r := by
  unfold Tensor.bmm
  show ((l.arr.mapBuf φ).bmm sopLoops (r.arr.mapBuf φ) >>= fun _ => _) = _
  rw [bmmA_map h, bind_map_left, map_bind]
  simp only [map_pure, mk'_map]
  rfl

omit [Build] h in
theorem viewArr_map (op : SView) (a : Arr α) : op.arr (a.mapBuf φ) = Arr.mapBuf φ <$> op.arr a := by
  cases op with
  | view => rfl
  | reshape s => exact reshape_map a s
  | squeeze => rfl
  | unsqueeze ax => exact unsqueeze_map a ax
  | transpose ax ax' => exact transpose_map a ax ax'

omit [Build] h in
theorem viewNode_map (op : SView) (t : Tensor α) : op.node (t.map φ) = (op.node t).map φ := by
  cases op with
  | reshape s =>
    simp only [SView.node]
    show (if s = t.arr.shape then _ else _) = _
    split <;> rfl
  | _ => rfl

omit [Build] h in
theorem viewOp_map (op : SView) (t : Tensor α) : (t.map φ).viewOp op = Tensor.map φ <$> t.viewOp op := by
  unfold Tensor.viewOp
  show (op.arr (t.arr.mapBuf φ) >>= fun _ => _) = _
  rw [viewArr_map, bind_map_left, map_bind]
  simp only [map_pure, mk'_map, viewNode_map]
  rfl

omit [Build] h in
theorem intoArr_map (op : SView) (a b : Arr α) : op.intoArr (a.mapBuf φ) (b.mapBuf φ) = Arr.mapBuf φ <$> op.intoArr a b := by
  cases op with
  | view => rfl
  | reshape s =>
    simp only [SView.intoArr]
    show (if s = a.shape then _ else _) = _
    split
    · rfl
    · simp only [map_bind, map_pure]; rfl
  | squeeze => rfl
  | unsqueeze ax => simp only [SView.intoArr, map_bind, map_pure]; rfl
  | transpose ax ax' => exact intoTranspose_map b ax ax'

omit [Build] h in
theorem intoViewOp_map (op : SView) (shared : Bool) (t : Tensor α) :
    (t.map φ).intoViewOp shared op = Tensor.map φ <$> t.intoViewOp shared op := by
  unfold Tensor.intoViewOp
  have : (t.map φ).intoNdarray shared = Arr.mapBuf φ <$> t.intoNdarray shared := by
    unfold Tensor.intoNdarray
    split
    · exact clone_map t.arr
    · rfl
  rw [this, bind_map_left, map_bind]
  congr 1; funext b
  show (op.intoArr (t.arr.mapBuf φ) (b.mapBuf φ) >>= fun _ => _) = _
  rw [intoArr_map, bind_map_left, map_bind]
  simp only [map_pure, mk'_map, viewNode_map]
  rfl

/-! ### sessions -/

omit [Build] h in
theorem getT_map (env : List (Tensor α)) (i : Nat) : getT (env.map (Tensor.map φ)) i = Tensor.map φ <$> getT env i := by
  unfold getT
  rw [List.getElem?_map]
  cases env[i]? <;> rfl

omit [Build] h in
theorem push_map (σ : RunState α) {r : Res (Tensor α)} {r' : Res (Tensor β)} (e : r' = Tensor.map φ <$> r) :
    (σ.map φ).push r' = RunState.map φ <$> σ.push r := by
  unfold RunState.push
  rw [e, bind_map_left, map_bind]
  congr 1; funext t
  simp [RunState.map]

theorem step_map (σ : RunState α) (x : Instr α) : (σ.map φ).step (x.map φ) = RunState.map φ <$> σ.step x := by
  cases x with
  | leaf s data =>
    simp only [Instr.map, RunState.step, List.length_map, map_bind]
    congr 1; funext _
    refine push_map σ ?_
    simp only [Tensor.fromContiguousOwnedBuffer, fromContiguous_mapBuf]
    rfl
  | setReq i b =>
    simp only [Instr.map, RunState.step]
    show (getT (σ.env.map (Tensor.map φ)) i >>= fun t => _) = _
    rw [getT_map, bind_map_left, map_bind]
    congr 1; funext t
    show ((t.map φ).setRequiresGrad b (mapStore φ σ.store) >>= fun r => _) = _
    rw [setRequiresGrad_map h, bind_map_left, map_bind]
    congr 1; funext r
    simp [RunState.map, List.map_set]
  | neg i =>
    simp only [Instr.map, RunState.step]
    show (getT (σ.env.map (Tensor.map φ)) i >>= fun t => _) = _
    rw [getT_map, bind_map_left, map_bind]
    congr 1; funext t
    exact push_map σ (tensorNeg_map h t)
  | bin op i j =>
    simp only [Instr.map, RunState.step]
    show (getT (σ.env.map (Tensor.map φ)) i >>= fun a => getT (σ.env.map (Tensor.map φ)) j >>= fun b => _) = _
    rw [getT_map, bind_map_left, map_bind]
    congr 1; funext a
    rw [getT_map, bind_map_left, map_bind]
    congr 1; funext b
    exact push_map σ (tensorBin_map h op a b)
  | scal op i c =>
    simp only [Instr.map, RunState.step]
    show (getT (σ.env.map (Tensor.map φ)) i >>= fun t => _) = _
    rw [getT_map, bind_map_left, map_bind]
    congr 1; funext t
    exact push_map σ (tensorBinScalar_map h op t c)
  | dot i j =>
    simp only [Instr.map, RunState.step]
    show (getT (σ.env.map (Tensor.map φ)) i >>= fun a => getT (σ.env.map (Tensor.map φ)) j >>= fun b => _) = _
    rw [getT_map, bind_map_left, map_bind]
    congr 1; funext a
    rw [getT_map, bind_map_left, map_bind]
    congr 1; funext b
    exact push_map σ (tensorDot_map h a b)
  | matmul i j =>
    simp only [Instr.map, RunState.step]
    show (getT (σ.env.map (Tensor.map φ)) i >>= fun a => getT (σ.env.map (Tensor.map φ)) j >>= fun b => _) = _
    rw [getT_map, bind_map_left, map_bind]
    congr 1; funext a
    rw [getT_map, bind_map_left, map_bind]
    congr 1; funext b
    exact push_map σ (tensorMatmul_map h a b)
  | bmm i j =>
    simp only [Instr.map, RunState.step]
    show (getT (σ.env.map (Tensor.map φ)) i >>= fun a => getT (σ.env.map (Tensor.map φ)) j >>= fun b => _) = _
    rw [getT_map, bind_map_left, map_bind]
    congr 1; funext a
    rw [getT_map, bind_map_left, map_bind]
    congr 1; funext b
    exact push_map σ (tensorBmm_map h a b)
  | view op i =>
    simp only [Instr.map, RunState.step]
    show (getT (σ.env.map (Tensor.map φ)) i >>= fun t => _) = _
    rw [getT_map, bind_map_left, map_bind]
    congr 1; funext t
    exact push_map σ (viewOp_map op t)
  | into op shared i =>
    simp only [Instr.map, RunState.step]
    show (getT (σ.env.map (Tensor.map φ)) i >>= fun t => _) = _
    rw [getT_map, bind_map_left, map_bind]
    congr 1; funext t
    exact push_map σ (intoViewOp_map op shared t)

omit [Build] h in
theorem withStore_map (σ : RunState α) {r : Res (Store α)} {r' : Res (Store β)} (e : r' = mapStore φ <$> r) :
    (σ.map φ).withStore r' = RunState.map φ <$> σ.withStore r := by
  unfold RunState.withStore
  rw [e, bind_map_left, map_bind]
  rfl

theorem exec_map (σ : RunState α) (c : Cmd α) : (σ.map φ).exec (c.map φ) = RunState.map φ <$> σ.exec c := by
  cases c with
  | op x => exact step_map h σ x
  | backward y =>
    simp only [Cmd.map, RunState.exec]
    show (getT (σ.env.map (Tensor.map φ)) y >>= fun t => _) = _
    rw [getT_map, bind_map_left, map_bind]
    congr 1; funext t
    exact withStore_map σ (tensorBackward_map h t σ.store)
  | backwardWith y g =>
    simp only [Cmd.map, RunState.exec]
    show (getT (σ.env.map (Tensor.map φ)) y >>= fun t => _) = _
    rw [getT_map, bind_map_left, map_bind]
    congr 1; funext t
    exact withStore_map σ (backwardWith_map h t ⟨g, .none⟩ σ.store)
  | zeroGradient i =>
    simp only [Cmd.map, RunState.exec]
    show (getT (σ.env.map (Tensor.map φ)) i >>= fun t => _) = _
    rw [getT_map, bind_map_left, map_bind]
    congr 1; funext t
    exact withStore_map σ (zeroGradient_map h t σ.store)

theorem session_map (c : List (Cmd α)) : runSession (c.map (Cmd.map φ)) = RunState.map φ <$> runSession c := by
  have key : ∀ (c : List (Cmd α)) (σ : RunState α),
      (c.map (Cmd.map φ)).foldlM RunState.exec (σ.map φ) = RunState.map φ <$> c.foldlM RunState.exec σ := by
    intro c
    induction c with
    | nil => intro _; rfl
    | cons x c ih =>
      intro σ
      simp only [List.map_cons, List.foldlM_cons, exec_map h, bind_map_left, map_bind]
      congr 1; funext σ'
      exact ih σ'
  exact key c ⟨[], []⟩

end

end Verif
