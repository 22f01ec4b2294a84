import Verif.Props.Unused
import Verif.Props.GradientFrame

/-!
# C102: no state is shared between computations

What was run before, with other tensors, has no influence: a session run after another one gives the same tensors and the same gradients as on its own, to the last
bit, and panics exactly when it does so on its own.
-/

namespace Verif

section moved
variable {α : Type}

/-- The same graph with accumulators numbered from `m` on. -/
def GradFn.moved (m : Nat) : GradFn α → GradFn α
  | .none => .none
  | .acc i => .acc (m + i)
  | .add l r ls rs => .add (l.moved m) (r.moved m) ls rs
  | .sub l r ls rs => .sub (l.moved m) (r.moved m) ls rs
  | .mul l r a b => .mul (l.moved m) (r.moved m) a b
  | .mulScalar n s c => .mulScalar (n.moved m) s c
  | .div l r a b => .div (l.moved m) (r.moved m) a b
  | .divScalar n s c => .divScalar (n.moved m) s c
  | .neg n s => .neg (n.moved m) s
  | .dot l r a b => .dot (l.moved m) (r.moved m) a b
  | .matVec l r a b => .matVec (l.moved m) (r.moved m) a b
  | .matMul l r a b => .matMul (l.moved m) (r.moved m) a b
  | .bmm l r a b => .bmm (l.moved m) (r.moved m) a b
  | .reshape n s => .reshape (n.moved m) s
  | .transpose n a b => .transpose (n.moved m) a b

/-- The same tensor with accumulators numbered from `m` on. -/
def Tensor.moved (m : Nat) (t : Tensor α) : Tensor α := { t with gradFn := t.gradFn.moved m }

def GradArr.moved (m : Nat) (g : GradArr α) : GradArr α := ⟨g.arr, g.src.map (m + ·)⟩

/-- A state after another one: first the tensors and accumulators of `σ`, then those of `τ`. -/
def RunState.after (σ τ : RunState α) : RunState α := ⟨σ.env ++ τ.env.map (Tensor.moved σ.store.length), σ.store ++ τ.store⟩

theorem isNone_moved (m : Nat) (n : GradFn α) : (n.moved m).isNone = n.isNone := by cases n <;> rfl

theorem get_moved (pre : Store α) (g : GradArr α) (st : Store α) : (g.moved pre.length).get (pre ++ st) = g.get st := by
  obtain ⟨a, s⟩ := g
  cases s with
  | none => rfl
  | some i =>
    simp only [GradArr.get, GradArr.moved, Option.map_some]
    rw [List.getElem?_append_right (Nat.le_add_right _ _), Nat.add_sub_cancel_left]

theorem callNext_moved {pre : Store α} (b : Bool) (st : Store α) {G G' : Res (GradArr α)} {next next' : GradArr α → Res (Store α)}
    (hG : G' = G.map (GradArr.moved pre.length)) (h : ∀ g, next' (g.moved pre.length) = (next g).map (pre ++ ·)) :
    callNext b (pre ++ st) G' next' = (callNext b st G next).map (pre ++ ·) := by
  unfold callNext
  cases b with
  | true => rfl
  | false =>
    rw [hG]
    cases G with
    | error e => rfl
    | ok g => exact h g

theorem bind_moved {pre : Store α} {R R' : Res (Store α)} {k k' : Store α → Res (Store α)} (hR : R' = R.map (pre ++ ·))
    (h : ∀ st, k' (pre ++ st) = (k st).map (pre ++ ·)) : (R' >>= k') = (R >>= k).map (pre ++ ·) := by
  rw [hR]
  cases R with
  | error e => rfl
  | ok st => exact h st

theorem fresh_moved (m : Nat) (r : Res (Arr α)) : fresh r = (fresh r).map (GradArr.moved m) := by cases r <;> rfl

end moved

section any
variable {α : Type} [Add α] [Sub α] [Mul α] [Div α] [Neg α] [Zero α] [One α] [MulAdd α] [Build]

omit [Sub α] [Mul α] [Div α] [Neg α] [One α] [MulAdd α] [Build] in
theorem fit_moved (pre : Store α) (g : GradArr α) (st : Store α) (s : List Nat) :
    fit (g.moved pre.length) (pre ++ st) s = (fit g st s).map (GradArr.moved pre.length) := by
  unfold fit
  rw [get_moved]
  show (if s = g.arr.shape then _ else _) = _
  split
  · rfl
  · exact fresh_moved _ _

omit [Sub α] [Mul α] [Div α] [Neg α] [One α] [MulAdd α] [Build] in
theorem freshFit_moved (pre : Store α) (r : Res (Arr α)) (st : Store α) (s : List Nat) :
    freshFit r (pre ++ st) s = (freshFit r st s).map (GradArr.moved pre.length) := by
  cases r with
  | error e => rfl
  | ok a => exact fit_moved pre ⟨a, .none⟩ st s

omit [Add α] [Sub α] [Mul α] [Div α] [Neg α] [Zero α] [One α] [MulAdd α] [Build] in
theorem gradReshape_moved (pre : Store α) (g : GradArr α) (st : Store α) (s : List Nat) :
    gradReshape (g.moved pre.length) (pre ++ st) s = (gradReshape g st s).map (GradArr.moved pre.length) := by
  unfold gradReshape
  rw [get_moved]
  cases (g.get st).reshape s <;> rfl

omit [Add α] [Sub α] [Mul α] [Div α] [Neg α] [Zero α] [One α] [MulAdd α] [Build] in
theorem gradTranspose_moved (pre : Store α) (g : GradArr α) (st : Store α) (a b : Int) :
    gradTranspose (g.moved pre.length) (pre ++ st) a b = (gradTranspose g st a b).map (GradArr.moved pre.length) := by
  unfold gradTranspose
  rw [get_moved]
  cases (g.get st).transpose a b <;> rfl

omit [Sub α] [Mul α] [Div α] [Neg α] [Zero α] [One α] [MulAdd α] in
theorem accumulate_moved (pre : Store α) (i : Nat) (g : GradArr α) (st : Store α) :
    accumulate (pre.length + i) (g.moved pre.length) (pre ++ st) = (accumulate i g st).map (pre ++ ·) := by
  unfold accumulate
  rw [List.getElem?_append_right (Nat.le_add_right _ _), Nat.add_sub_cancel_left, get_moved]
  have hs : ((g.moved pre.length).src == some (pre.length + i)) = (g.src == some i) := by
    obtain ⟨a, s⟩ := g
    cases s with
    | none => rfl
    | some j => simp [GradArr.moved]
  rw [hs]
  cases st[i]? with
  | none => rfl
  | some a =>
    show (assume (decide (a.shape = g.arr.shape)) >>= _) = Except.map _ (assume (decide (a.shape = g.arr.shape)) >>= _)
    cases assume (decide (a.shape = g.arr.shape)) with
    | error e => rfl
    | ok u =>
      show (Arr.opAssign _ _ _ _ _ >>= _) = Except.map _ (Arr.opAssign _ _ _ _ _ >>= _)
      cases a.opAssign (fun x y => .ok (x + y)) (binLoops fun x y => x + y) (g.src == some i) (g.get st) with
      | error e => rfl
      | ok buf =>
        show Except.ok ((pre ++ st).set (pre.length + i) _) = Except.ok (pre ++ st.set i _)
        rw [List.set_append_right _ _ (Nat.le_add_right _ _), Nat.add_sub_cancel_left]

theorem backward_moved (pre : Store α) : ∀ (n : GradFn α) (g : GradArr α) (st : Store α),
    backward (n.moved pre.length) (g.moved pre.length) (pre ++ st) = (backward n g st).map (pre ++ ·)
  | .none, _, _ => rfl
  | .acc i, g, st => accumulate_moved pre i g st
  | .add l r ls rs, g, st => by
    simp only [backward, GradFn.moved, isNone_moved]
    exact bind_moved (callNext_moved _ _ (fit_moved _ _ _ _) fun g => backward_moved pre l g _) fun st =>
      callNext_moved _ _ (fit_moved _ _ _ _) fun g => backward_moved pre r g _
  | .sub l r ls rs, g, st => by
    simp only [backward, GradFn.moved, isNone_moved]
    exact bind_moved (callNext_moved _ _ (fit_moved _ _ _ _) fun g => backward_moved pre l g _) fun st =>
      callNext_moved _ _ (by rw [get_moved]; exact freshFit_moved _ _ _ _) fun g => backward_moved pre r g _
  | .mul l r a b, g, st => by
    simp only [backward, GradFn.moved, isNone_moved]
    exact bind_moved (callNext_moved _ _ (by rw [get_moved]; exact freshFit_moved _ _ _ _) fun g => backward_moved pre l g _) fun st =>
      callNext_moved _ _ (by rw [get_moved]; exact freshFit_moved _ _ _ _) fun g => backward_moved pre r g _
  | .mulScalar n s c, g, st => by
    simp only [backward, GradFn.moved, isNone_moved]
    exact callNext_moved _ _ (by rw [get_moved]; exact freshFit_moved _ _ _ _) fun g => backward_moved pre n g _
  | .div l r a b, g, st => by
    simp only [backward, GradFn.moved, isNone_moved, get_moved]
    split
    · exact callNext_moved _ _ (freshFit_moved _ _ _ _) fun g => backward_moved pre r g _
    · cases divLeft (g.get st) b with
      | error e => rfl
      | ok lg =>
        exact bind_moved (callNext_moved _ _ (fit_moved pre ⟨lg, .none⟩ _ _) fun g => backward_moved pre l g _) fun st =>
          callNext_moved _ _ (freshFit_moved _ _ _ _) fun g => backward_moved pre r g _
  | .divScalar n s c, g, st => by
    simp only [backward, GradFn.moved, isNone_moved, get_moved]
    cases SOp.mul.arrScalar (g.get st) c with
    | error e => rfl
    | ok g' => exact callNext_moved _ _ (fit_moved pre ⟨g', .none⟩ _ _) fun g => backward_moved pre n g _
  | .neg n s, g, st => by
    simp only [backward, GradFn.moved, isNone_moved]
    exact callNext_moved _ _ (by rw [get_moved]; exact freshFit_moved _ _ _ _) fun g => backward_moved pre n g _
  | .dot l r a b, g, st => by
    simp only [backward, GradFn.moved, isNone_moved]
    exact bind_moved (callNext_moved _ _ (by rw [get_moved]; exact fresh_moved _ _) fun g => backward_moved pre l g _) fun st =>
      callNext_moved _ _ (by rw [get_moved]; exact fresh_moved _ _) fun g => backward_moved pre r g _
  | .matVec l r a b, g, st => by
    simp only [backward, GradFn.moved, isNone_moved]
    exact bind_moved (callNext_moved _ _ (by rw [get_moved]; exact fresh_moved _ _) fun g => backward_moved pre l g _) fun st =>
      callNext_moved _ _ (by rw [get_moved]; exact fresh_moved _ _) fun g => backward_moved pre r g _
  | .matMul l r a b, g, st => by
    simp only [backward, GradFn.moved, isNone_moved]
    exact bind_moved (callNext_moved _ _ (by rw [get_moved]; exact fresh_moved _ _) fun g => backward_moved pre l g _) fun st =>
      callNext_moved _ _ (by rw [get_moved]; exact fresh_moved _ _) fun g => backward_moved pre r g _
  | .bmm l r a b, g, st => by
    simp only [backward, GradFn.moved, isNone_moved]
    exact bind_moved (callNext_moved _ _ (by rw [get_moved]; exact fresh_moved _ _) fun g => backward_moved pre l g _) fun st =>
      callNext_moved _ _ (by rw [get_moved]; exact fresh_moved _ _) fun g => backward_moved pre r g _
  | .reshape n s, g, st => by
    simp only [backward, GradFn.moved, isNone_moved]
    exact callNext_moved _ _ (gradReshape_moved _ _ _ _) fun g => backward_moved pre n g _
  | .transpose n a b, g, st => by
    simp only [backward, GradFn.moved, isNone_moved]
    exact callNext_moved _ _ (gradTranspose_moved _ _ _ _ _) fun g => backward_moved pre n g _

omit [Add α] [Sub α] [Mul α] [Div α] [Neg α] [Zero α] [One α] [MulAdd α] [Build] in
theorem mk_moved (m : Nat) (a : Arr α) (r : Bool) (n : GradFn α) : Tensor.mk' a r (n.moved m) = (Tensor.mk' a r n).moved m := by cases r <;> rfl

omit [Add α] [Sub α] [Mul α] [Div α] [One α] [MulAdd α] in
theorem neg_moved (m : Nat) (t : Tensor α) : (t.moved m).neg = t.neg.map (Tensor.moved m) := by
  show (t.arr.negA >>= _) = Except.map _ (t.arr.negA >>= _)
  cases t.arr.negA with
  | error e => rfl
  | ok a => exact congrArg Except.ok (mk_moved m a _ (.neg t.gradFn t.arr.shape))

omit [Add α] [Sub α] [Mul α] [Div α] [Neg α] [Zero α] [One α] [MulAdd α] [Build] in
theorem node_moved (m : Nat) (op : SOp) (l r : Tensor α) : op.node (l.moved m) (r.moved m) = (op.node l r).moved m := by cases op <;> rfl

omit [Neg α] [One α] [MulAdd α] in
theorem bin_moved (m : Nat) (op : SOp) (l r : Tensor α) : Tensor.bin op (l.moved m) (r.moved m) = (Tensor.bin op l r).map (Tensor.moved m) := by
  show (op.arr l.arr r.arr >>= _) = Except.map _ (op.arr l.arr r.arr >>= _)
  cases op.arr l.arr r.arr with
  | error e => rfl
  | ok a =>
    refine congrArg Except.ok ?_
    rw [node_moved]
    exact mk_moved m a _ _

omit [Neg α] [MulAdd α] in
theorem scalar_moved (m : Nat) (op : SOp) (t : Tensor α) (c : α) : Tensor.binScalar op (t.moved m) c = (Tensor.binScalar op t c).map (Tensor.moved m) := by
  show (op.arrScalar t.arr c >>= _) = Except.map _ (op.arrScalar t.arr c >>= _)
  cases op.arrScalar t.arr c with
  | error e => rfl
  | ok a =>
    refine congrArg Except.ok ?_
    have : op.nodeScalar (t.moved m) c = (op.nodeScalar t c).moved m := by cases op <;> rfl
    rw [this]
    exact mk_moved m a _ _

omit [Sub α] [Div α] [Neg α] [One α] [MulAdd α] [Build] in
theorem dot_moved (m : Nat) (l r : Tensor α) : (l.moved m).dot (r.moved m) = (l.dot r).map (Tensor.moved m) := by
  show (l.arr.dot r.arr >>= _) = Except.map _ (l.arr.dot r.arr >>= _)
  cases l.arr.dot r.arr with
  | error e => rfl
  | ok a => exact congrArg Except.ok (mk_moved m a _ (.dot l.gradFn r.gradFn l.arr r.arr))

omit [Sub α] [Div α] [Neg α] in
theorem matmul_moved (m : Nat) (l r : Tensor α) : (l.moved m).matmul (r.moved m) = (l.matmul r).map (Tensor.moved m) := by
  unfold Tensor.matmul
  rw [dot_moved]
  show (if l.arr.ndims = 1 ∧ r.arr.ndims = 1 then _ else l.arr.matmul sopLoops r.arr >>= _) = _
  split
  · rfl
  · cases l.arr.matmul sopLoops r.arr with
    | error e => rfl
    | ok a =>
      show (if l.arr.ndims = 2 ∧ r.arr.ndims = 1 then _ else if l.arr.ndims = 2 ∧ r.arr.ndims = 2 then _ else _) =
        Except.map _ (if l.arr.ndims = 2 ∧ r.arr.ndims = 1 then _ else if l.arr.ndims = 2 ∧ r.arr.ndims = 2 then _ else _)
      split
      · exact congrArg Except.ok (mk_moved m a _ (.matVec l.gradFn r.gradFn l.arr r.arr))
      · split
        · exact congrArg Except.ok (mk_moved m a _ (.matMul l.gradFn r.gradFn l.arr r.arr))
        · show (if (l.requiresGrad || r.requiresGrad) = true then _ else _) = Except.map _ (if (l.requiresGrad || r.requiresGrad) = true then _ else _)
          split
          · rfl
          · exact congrArg Except.ok (mk_moved m a _ .none)

omit [Sub α] [Div α] [Neg α] in
theorem bmm_moved (m : Nat) (l r : Tensor α) : (l.moved m).bmm (r.moved m) = (l.bmm r).map (Tensor.moved m) := by
  show (l.arr.bmm sopLoops r.arr >>= _) = Except.map _ (l.arr.bmm sopLoops r.arr >>= _)
  cases l.arr.bmm sopLoops r.arr with
  | error e => rfl
  | ok a => exact congrArg Except.ok (mk_moved m a _ (.bmm l.gradFn r.gradFn l.arr r.arr))

omit [Add α] [Sub α] [Mul α] [Div α] [Neg α] [Zero α] [One α] [MulAdd α] [Build] in
theorem viewNode_moved (m : Nat) (op : SView) (t : Tensor α) : op.node (t.moved m) = (op.node t).moved m := by
  cases op with
  | reshape s =>
    show (if s = t.arr.shape then t.gradFn.moved m else .reshape (t.gradFn.moved m) t.arr.shape) = GradFn.moved m (if s = t.arr.shape then _ else _)
    split <;> rfl
  | _ => rfl

omit [Add α] [Sub α] [Mul α] [Div α] [Neg α] [Zero α] [One α] [MulAdd α] [Build] in
theorem view_moved (m : Nat) (t : Tensor α) (op : SView) : (t.moved m).viewOp op = (t.viewOp op).map (Tensor.moved m) := by
  show (op.arr t.arr >>= _) = Except.map _ (op.arr t.arr >>= _)
  cases op.arr t.arr with
  | error e => rfl
  | ok a =>
    refine congrArg Except.ok ?_
    rw [viewNode_moved]
    exact mk_moved m a _ _

omit [Add α] [Sub α] [Mul α] [Div α] [Neg α] [Zero α] [One α] [MulAdd α] [Build] in
theorem into_moved (m : Nat) (t : Tensor α) (sh : Bool) (op : SView) : (t.moved m).intoViewOp sh op = (t.intoViewOp sh op).map (Tensor.moved m) := by
  show (t.intoNdarray sh >>= _) = Except.map _ (t.intoNdarray sh >>= _)
  cases t.intoNdarray sh with
  | error e => rfl
  | ok b =>
    show (op.intoArr t.arr b >>= _) = Except.map _ (op.intoArr t.arr b >>= _)
    cases op.intoArr t.arr b with
    | error e => rfl
    | ok a =>
      refine congrArg Except.ok ?_
      rw [viewNode_moved]
      exact mk_moved m a _ _

theorem backwardWith_moved (pre : Store α) (t : Tensor α) (g : GradArr α) (st : Store α) :
    (t.moved pre.length).backwardWith (g.moved pre.length) (pre ++ st) = (t.backwardWith g st).map (pre ++ ·) := by
  show (assert (decide (g.arr.shape = t.arr.shape)) >>= fun _ => backward (t.gradFn.moved pre.length) _ _) =
    Except.map _ (assert (decide (g.arr.shape = t.arr.shape)) >>= fun _ => backward t.gradFn _ _)
  cases assert (decide (g.arr.shape = t.arr.shape)) with
  | error e => rfl
  | ok u => exact backward_moved pre t.gradFn g st

theorem backwardOne_moved (pre : Store α) (t : Tensor α) (st : Store α) : (t.moved pre.length).backward (pre ++ st) = (t.backward st).map (pre ++ ·) := by
  show (Arr.ones t.arr.shape >>= _) = Except.map _ (Arr.ones t.arr.shape >>= _)
  cases (Arr.ones t.arr.shape : Res (Arr α)) with
  | error e => rfl
  | ok a => exact backwardWith_moved pre t ⟨a, .none⟩ st

omit [Add α] [Sub α] [Mul α] [Div α] [Neg α] [One α] [MulAdd α] [Build] in
theorem zero_moved (pre : Store α) (t : Tensor α) (st : Store α) : (t.moved pre.length).zeroGradient (pre ++ st) = (t.zeroGradient st).map (pre ++ ·) := by
  obtain ⟨a, r, u, n⟩ := t
  cases n with
  | acc i =>
    simp only [Tensor.zeroGradient, Tensor.moved, GradFn.moved]
    rw [List.getElem?_append_right (Nat.le_add_right _ _), Nat.add_sub_cancel_left]
    cases st[i]? with
    | none => rfl
    | some a =>
      show (a.fill 0 >>= _) = Except.map _ (a.fill 0 >>= _)
      cases a.fill 0 with
      | error e => rfl
      | ok buf =>
        show Except.ok ((pre ++ st).set (pre.length + i) _) = Except.ok (pre ++ st.set i _)
        rw [List.set_append_right _ _ (Nat.le_add_right _ _), Nat.add_sub_cancel_left]
  | _ => rfl

omit [Add α] [Sub α] [Mul α] [Div α] [Neg α] [One α] [MulAdd α] [Build] in
theorem setRequires_moved (pre : Store α) (t : Tensor α) (b : Bool) (st : Store α) :
    (t.moved pre.length).setRequiresGrad b (pre ++ st) = (t.setRequiresGrad b st).map fun r => (r.1.moved pre.length, pre ++ r.2) := by
  unfold Tensor.setRequiresGrad
  show (if (!t.requiresGrad && b) = true then Arr.zeros t.arr.shape >>= _ else if (t.requiresGrad && !b) = true then _ else _) =
    Except.map _ (if (!t.requiresGrad && b) = true then Arr.zeros t.arr.shape >>= _ else if (t.requiresGrad && !b) = true then _ else _)
  split
  · cases (Arr.zeros t.arr.shape : Res (Arr α)) with
    | error e => rfl
    | ok z =>
      show Except.ok (({ t.moved pre.length with requiresGrad := b, gradFn := .acc (pre ++ st).length } : Tensor α), pre ++ st ++ [z]) =
        Except.ok (({ t with requiresGrad := b, gradFn := .acc (pre.length + st.length) } : Tensor α), pre ++ (st ++ [z]))
      rw [List.length_append, List.append_assoc]; rfl
  · split <;> rfl

omit [Add α] [Sub α] [Mul α] [Div α] [Neg α] [Zero α] [One α] [MulAdd α] [Build] in
theorem gradient_moved (pre : Store α) (t : Tensor α) (st : Store α) : (t.moved pre.length).gradient (pre ++ st) = t.gradient st := by
  obtain ⟨a, r, u, n⟩ := t
  cases n with
  | acc i =>
    simp only [Tensor.gradient, Tensor.moved, GradFn.moved]
    rw [List.getElem?_append_right (Nat.le_add_right _ _), Nat.add_sub_cancel_left]
  | _ => rfl

theorem exec_after (σ τ : RunState α) (c : Cmd α) : (σ.after τ).exec (c.rename (σ.env.length + ·)) = (τ.exec c).map σ.after := by
  have hg : ∀ i, getT (σ.after τ).env (σ.env.length + i) = (getT τ.env i).map (Tensor.moved σ.store.length) := fun i => by
    unfold getT RunState.after
    rw [List.getElem?_append_right (Nat.le_add_right _ _), Nat.add_sub_cancel_left, List.getElem?_map]
    cases τ.env[i]? <;> rfl
  have push : ∀ {r r' : Res (Tensor α)}, r' = r.map (Tensor.moved σ.store.length) → (σ.after τ).push r' = (τ.push r).map σ.after := fun {r r'} h => by
    rw [h]
    cases r with
    | error e => rfl
    | ok t =>
      show Except.ok (⟨σ.env ++ τ.env.map _ ++ [t.moved _], _⟩ : RunState α) = Except.ok ⟨σ.env ++ (τ.env ++ [t]).map _, _⟩
      rw [List.map_append, List.append_assoc]; rfl
  have one : ∀ (i : Nat) (k : Tensor α → Res (Tensor α)), (∀ t, k (t.moved σ.store.length) = (k t).map (Tensor.moved σ.store.length)) →
      (do let u ← getT (σ.after τ).env (σ.env.length + i); (σ.after τ).push (k u)) = Except.map σ.after (do let u ← getT τ.env i; τ.push (k u)) := fun i k hk => by
    rw [hg]
    cases getT τ.env i with
    | error e => rfl
    | ok u => exact push (hk u)
  have two : ∀ (i j : Nat) (k : Tensor α → Tensor α → Res (Tensor α)),
      (∀ t u, k (t.moved σ.store.length) (u.moved σ.store.length) = (k t u).map (Tensor.moved σ.store.length)) →
      (do let u ← getT (σ.after τ).env (σ.env.length + i); let v ← getT (σ.after τ).env (σ.env.length + j); (σ.after τ).push (k u v)) =
        Except.map σ.after (do let u ← getT τ.env i; let v ← getT τ.env j; τ.push (k u v)) := fun i j k hk => by
    rw [hg, hg]
    cases getT τ.env i with
    | error e => rfl
    | ok u =>
      cases getT τ.env j with
      | error e => rfl
      | ok v => exact push (hk u v)
  have st : ∀ (i : Nat) (k : Tensor α → Store α → Res (Store α)), (∀ t st, k (t.moved σ.store.length) (σ.store ++ st) = (k t st).map (σ.store ++ ·)) →
      (do let u ← getT (σ.after τ).env (σ.env.length + i); (σ.after τ).withStore (k u (σ.after τ).store)) =
        Except.map σ.after (do let u ← getT τ.env i; τ.withStore (k u τ.store)) := fun i k hk => by
    rw [hg]
    cases getT τ.env i with
    | error e => rfl
    | ok u =>
      show (σ.after τ).withStore (k (u.moved σ.store.length) (σ.store ++ τ.store)) = Except.map σ.after (τ.withStore (k u τ.store))
      rw [hk]
      cases k u τ.store <;> rfl
  cases c with
  | op x =>
    show (σ.after τ).step (x.rename _) = (τ.step x).map _
    cases x with
    | leaf s d =>
      simp only [Instr.rename, RunState.step]
      cases assert (decide (d.length = numel s)) with
      | error e => rfl
      | ok u => exact push (r := .ok (Tensor.fromContiguousOwnedBuffer s d)) rfl
    | setReq i b =>
      simp only [Instr.rename, RunState.step, hg]
      cases getT τ.env i with
      | error e => rfl
      | ok u =>
        show ((u.moved σ.store.length).setRequiresGrad b (σ.store ++ τ.store) >>= _) = Except.map _ (u.setRequiresGrad b τ.store >>= _)
        rw [setRequires_moved]
        cases u.setRequiresGrad b τ.store with
        | error e => rfl
        | ok r =>
          show Except.ok (⟨(σ.env ++ τ.env.map _).set (σ.env.length + i) (r.1.moved _), σ.store ++ r.2⟩ : RunState α) =
            Except.ok ⟨σ.env ++ (τ.env.set i r.1).map _, σ.store ++ r.2⟩
          rw [List.set_append_right _ _ (Nat.le_add_right _ _), Nat.add_sub_cancel_left, List.map_set]
    | neg i => exact one i _ (neg_moved _)
    | bin op i j => exact two i j _ (bin_moved _ op)
    | scal op i c => exact one i _ fun t => scalar_moved _ op t c
    | dot i j => exact two i j _ (dot_moved _)
    | matmul i j => exact two i j _ (matmul_moved _)
    | bmm i j => exact two i j _ (bmm_moved _)
    | view op i => exact one i _ fun t => view_moved _ t op
    | into op sh i => exact one i _ fun t => into_moved _ t sh op
  | backward y => exact st y (fun t s => t.backward s) (backwardOne_moved σ.store)
  | backwardWith y g => exact st y (fun t s => t.backwardWith ⟨g, .none⟩ s) fun t s => backwardWith_moved σ.store t ⟨g, .none⟩ s
  | zeroGradient i => exact st i (fun t s => t.zeroGradient s) (zero_moved σ.store)

/-- **C102.** One session after another: the tensors and accumulators of the first stay as they are, those of the second are as if it had been run alone (accumulators
numbered after those of the first), and it fails exactly if it fails alone, with the same error. -/
theorem C102_after {c d : List (Cmd α)} {σ : RunState α} (hc : runSession c = .ok σ) :
    runSession (c ++ d.map (Cmd.rename (σ.env.length + ·))) = (runSession d).map σ.after := by
  have key : ∀ (d : List (Cmd α)) (τ : RunState α), (d.map (Cmd.rename (σ.env.length + ·))).foldlM RunState.exec (σ.after τ) = (d.foldlM RunState.exec τ).map σ.after := by
    intro d
    induction d with
    | nil => intro τ; rfl
    | cons x d ih =>
      intro τ
      rw [List.map_cons, List.foldlM_cons, List.foldlM_cons, exec_after]
      cases τ.exec x with
      | error e => rfl
      | ok s => exact ih s
  unfold runSession at *
  rw [List.foldlM_append, hc, ← key]
  show List.foldlM _ σ _ = List.foldlM _ (σ.after ⟨[], []⟩) _
  rw [show σ.after ⟨[], []⟩ = σ by unfold RunState.after; rw [List.map_nil, List.append_nil, List.append_nil]]

/-- **C102.** What a user sees of it: the same elements, the same `requires_grad` and the same gradient of every tensor, in both parts. -/
theorem C102_observed {c d : List (Cmd α)} {σ τ : RunState α} (hc : runSession c = .ok σ) (hd : runSession d = .ok τ) :
    ∃ ρ, runSession (c ++ d.map (Cmd.rename (σ.env.length + ·))) = .ok ρ ∧
      (∀ (i : Nat) (t : Tensor α), σ.env[i]? = some t → ∃ u : Tensor α, ρ.env[i]? = some u ∧ u.arr = t.arr ∧ u.requiresGrad = t.requiresGrad ∧
        u.gradient ρ.store = t.gradient σ.store) ∧
      ∀ (i : Nat) (t : Tensor α), τ.env[i]? = some t → ∃ u : Tensor α, ρ.env[σ.env.length + i]? = some u ∧ u.arr = t.arr ∧ u.requiresGrad = t.requiresGrad ∧ u.gradient ρ.store = t.gradient τ.store := by
  have h := C102_after (d := d) hc
  rw [hd] at h
  refine ⟨_, h, fun i t ht => ⟨t, ?_, rfl, rfl, ?_⟩, fun i t ht => ⟨t.moved σ.store.length, ?_, rfl, rfl, gradient_moved σ.store t τ.store⟩⟩
  · show (σ.env ++ _)[i]? = _
    rw [List.getElem?_append_left (List.getElem?_eq_some_iff.1 ht).1, ht]
  · show t.gradient (σ.store ++ τ.store) = t.gradient σ.store
    unfold Tensor.gradient
    split
    · rename_i k e
      have hk := (((Done.of_session hc).tracked.all i t ht).acc k e).2
      rw [List.getElem?_append_left (by simpa using (List.getElem?_eq_some_iff.1 hk).1)]
    · rfl
  · show (σ.env ++ τ.env.map _)[σ.env.length + i]? = _
    rw [List.getElem?_append_right (Nat.le_add_right _ _), Nat.add_sub_cancel_left, List.getElem?_map, ht]; rfl

end any

/-- The session of `GradientFrame.lean`, run twice. -/
example [Build] : ∃ σ ρ : RunState ℚ, runSession twoVariables = .ok σ ∧ σ.env.length = 5 ∧ runSession (twoVariables ++ twoVariables.map (Cmd.rename (5 + ·))) = .ok ρ := by
  obtain ⟨σ, x, w, e, y, z, gx, st, hr, he, _⟩ := twoVariables_runs
  obtain ⟨ρ, h, _⟩ := C102_observed hr hr
  have hl : σ.env.length = 5 := by rw [he]; rfl
  rw [hl] at h
  exact ⟨σ, ρ, hr, hl, h⟩

end Verif
