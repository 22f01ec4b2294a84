import Verif.Props.ValueIndependence
import Verif.Model.Overflow

/-!
# C85 for arrays: which array operations complete does not depend on the values of the elements

For element types whose arithmetic never fails (the floats; integers in release builds, except division and remainder).
-/

namespace Verif

/-- Two arrays that differ at most in the values of elements. -/
def Arr.SameButValues {α β : Type} (a : Arr α) (b : Arr β) : Prop := a.mapBuf hide = b.mapBuf hide

/-- Two matrices over different types. -/
def sixRat : Arr ℚ := Arr.fromContiguousOwnedBuffer [2, 3] [1, 2, 3, 4, 5, 6]
def sixInt : Arr ℤ := Arr.fromContiguousOwnedBuffer [2, 3] [0, 0, -9, 0, 7, 0]

theorem six_same : sixRat.SameButValues sixInt := rfl

/-- Their transposes. -/
def sixRatT : Arr ℚ := { sixRat with shape := [3, 2], stride := [1, 3] }
def sixIntT : Arr ℤ := { sixInt with shape := [3, 2], stride := [1, 3] }

theorem sixT_same : sixRatT.SameButValues sixIntT := rfl

section

variable {α β : Type} [Add α] [Sub α] [Mul α] [Div α] [Neg α] [Zero α] [One α] [MulAdd α]
  [Add β] [Sub β] [Mul β] [Div β] [Neg β] [Zero β] [One β] [MulAdd β] [Build]
  {a b : Arr α} {a' b' : Arr β}

/-- **C85.** `+`, `-`, `*` and `/` of arrays. -/
theorem C85_elementwise (op : SOp) (h : a.SameButValues a') (h' : b.SameButValues b') :
    SameOutcome Arr.SameButValues (op.arr a b) (op.arr a' b') :=
  sameOutcome_of_map (by rw [← opArr_map hideHom, ← opArr_map hideHom, show a.mapBuf _ = _ from h, show b.mapBuf _ = _ from h'])

example : SameOutcome Arr.SameButValues (SOp.div.arr sixRat sixRat) (SOp.div.arr sixInt sixInt) := C85_elementwise .div six_same six_same

/-- **C85.** Arithmetic with a scalar, whatever it is. -/
theorem C85_scalar (op : SOp) (h : a.SameButValues a') (c : α) (c' : β) :
    SameOutcome Arr.SameButValues (op.arrScalar a c) (op.arrScalar a' c') :=
  sameOutcome_of_map (by
    rw [← opArrScalar_map hideHom, ← opArrScalar_map hideHom, show a.mapBuf _ = _ from h,
      show (hide c : Hidden) = hide c' from rfl])

example : SameOutcome Arr.SameButValues (SOp.div.arrScalar sixRat 2) (SOp.div.arrScalar sixInt 0) := C85_scalar .div six_same 2 0

/-- **C85.** Negation. -/
theorem C85_neg (h : a.SameButValues a') : SameOutcome Arr.SameButValues a.negA a'.negA :=
  sameOutcome_of_map (by rw [← negA_map hideHom, ← negA_map hideHom, show a.mapBuf _ = _ from h])

example : SameOutcome Arr.SameButValues sixRat.negA sixInt.negA := C85_neg six_same

omit [Build] in
/-- **C85.** `dot`. -/
theorem C85_dot (h : a.SameButValues a') (h' : b.SameButValues b') : SameOutcome Arr.SameButValues (a.dot b) (a'.dot b') :=
  sameOutcome_of_map (by rw [← dotA_map hideHom, ← dotA_map hideHom, show a.mapBuf _ = _ from h, show b.mapBuf _ = _ from h'])

example : SameOutcome Arr.SameButValues (sixRat.dot sixRat) (sixInt.dot sixInt) := C85_dot six_same six_same

/-- **C85.** `matmul`. -/
theorem C85_matmul (h : a.SameButValues a') (h' : b.SameButValues b') :
    SameOutcome Arr.SameButValues (a.matmul sopLoops b) (a'.matmul sopLoops b') :=
  sameOutcome_of_map (by rw [← matmulA_map hideHom, ← matmulA_map hideHom, show a.mapBuf _ = _ from h, show b.mapBuf _ = _ from h'])

example : SameOutcome Arr.SameButValues (sixRat.matmul sopLoops sixRatT) (sixInt.matmul sopLoops sixIntT) := by
  have h := C85_matmul (a := sixRat) (b := sixRatT) (a' := sixInt) (b' := sixIntT) six_same sixT_same
  with_reducible exact h

/-- **C85.** `bmm`. -/
theorem C85_bmm (h : a.SameButValues a') (h' : b.SameButValues b') :
    SameOutcome Arr.SameButValues (a.bmm sopLoops b) (a'.bmm sopLoops b') :=
  sameOutcome_of_map (by rw [← bmmA_map hideHom, ← bmmA_map hideHom, show a.mapBuf _ = _ from h, show b.mapBuf _ = _ from h'])

example : SameOutcome Arr.SameButValues
    ((Arr.fromContiguousOwnedBuffer [1, 2, 2] [(1 : ℚ), 2, 3, 4]).bmm sopLoops (Arr.fromContiguousOwnedBuffer [1, 2, 1] [1, 2]))
    ((Arr.fromContiguousOwnedBuffer [1, 2, 2] [(0 : ℤ), 0, 0, 4]).bmm sopLoops (Arr.fromContiguousOwnedBuffer [1, 2, 1] [0, 2])) :=
  C85_bmm rfl rfl

/-- **C85.** `einsum`, with any subscripts and any number of operands. -/
theorem C85_einsum {as : List (Arr α)} {bs : List (Arr β)} (h : as.map (Arr.mapBuf hide) = bs.map (Arr.mapBuf (hide : β → Hidden)))
    (subs : List (List Char)) (out : List Char) :
    SameOutcome Arr.SameButValues (einsum sopLoops as subs out) (einsum sopLoops bs subs out) :=
  sameOutcome_of_map (by
    rw [← einsum_map (GradHom.opHom hideHom) (sopLoops_nat (GradHom.opHom hideHom)),
      ← einsum_map (GradHom.opHom hideHom) (sopLoops_nat (GradHom.opHom hideHom)), h])

example : SameOutcome Arr.SameButValues (einsum sopLoops [sixRat, sixRat] ["ij".toList, "kj".toList] "ik".toList)
    (einsum sopLoops [sixInt, sixInt] ["ij".toList, "kj".toList] "ik".toList) := C85_einsum (as := [sixRat, sixRat]) (bs := [sixInt, sixInt]) rfl _ _

end

section

variable {α β : Type} {a : Arr α} {a' : Arr β}

/-- **C85.** Reductions of whole arrays (`sum`, `product`, `min`, `max` and the magnitudes), with the portable loops,
whatever is done with the elements. -/
theorem C85_reduce (step : α → α → α) (step' : β → β → β) (init : α) (init' : β) (h : a.SameButValues a') :
    SameOutcome Arr.SameButValues (a.reduceAll step init (portableRed step init)) (a'.reduceAll step' init' (portableRed step' init')) := by
  have key : ∀ {γ : Type} (step : γ → γ → γ) (init : γ) (a : Arr γ), Arr.mapBuf hide <$> a.reduceAll step init (portableRed step init) =
      (a.mapBuf hide).reduceAll (fun _ _ => Hidden.star) .star (portableRed (fun _ _ => .star) .star) :=
    fun step init a => (reduceAll_map (step' := fun _ _ => Hidden.star) (fun _ _ => rfl) (portableRed_nat (fun _ _ => rfl) init) a).symm
  exact sameOutcome_of_map (by rw [key, key, show a.mapBuf _ = _ from h])

example : SameOutcome Arr.SameButValues sixRat.sum sixInt.product := C85_reduce _ _ _ _ six_same

/-- **C85.** The same with the vector loops (of any width) that are used for floats on some machines. -/
theorem C85_reduce_simd (step op : α → α → α) (step' op' : β → β → β) (init : α) (init' : β) (L : Nat) (h : a.SameButValues a') :
    SameOutcome Arr.SameButValues (a.reduceAll step init (simdRed step op init L)) (a'.reduceAll step' init' (simdRed step' op' init' L)) := by
  have key : ∀ {γ : Type} (step op : γ → γ → γ) (init : γ) (a : Arr γ), Arr.mapBuf hide <$> a.reduceAll step init (simdRed step op init L) =
      (a.mapBuf hide).reduceAll (fun _ _ => Hidden.star) .star (simdRed (fun _ _ => .star) (fun _ _ => .star) .star L) :=
    fun step op init a => (reduceAll_map (step' := fun _ _ => Hidden.star) (fun _ _ => rfl) (simdRed_nat (fun _ _ => rfl) (fun _ _ => rfl) init L) a).symm
  exact sameOutcome_of_map (by rw [key, key, show a.mapBuf _ = _ from h])

example : SameOutcome Arr.SameButValues (sixRat.reduceAll (fun v acc => acc + v) 0 (simdRed (fun v acc => acc + v) (· + ·) 0 4))
    (sixInt.reduceAll (fun v acc => acc + v) 0 (simdRed (fun v acc => acc + v) (· + ·) 0 4)) := C85_reduce_simd _ _ _ _ _ _ _ six_same

/-- **C85.** Reductions along axes. -/
theorem C85_reduce_along (step : α → α → α) (step' : β → β → β) (init : α) (init' : β) (h : a.SameButValues a') (axes : List Int) :
    SameOutcome Arr.SameButValues (a.reduceAlong step axes init) (a'.reduceAlong step' axes init') := by
  have key : ∀ {γ : Type} (step : γ → γ → γ) (init : γ) (a : Arr γ), Arr.mapBuf hide <$> a.reduceAlong step axes init =
      (a.mapBuf hide).reduceAlong (fun _ _ => Hidden.star) axes .star :=
    fun step init a => (reduceAlong_map (step' := fun _ _ => Hidden.star) (fun _ _ => rfl) a axes).symm
  exact sameOutcome_of_map (by rw [key, key, show a.mapBuf _ = _ from h])

example : SameOutcome Arr.SameButValues (sixRat.sumAlong [-1]) (sixInt.productAlong [-1]) := C85_reduce_along _ _ _ _ six_same _

end

/-- **C85** is false for integers with overflow checks: whether a sum completes depends on the values. -/
theorem C85_overflow_false : ∃ a b : Arr Int, a.SameButValues b ∧
    ¬ SameOutcome Arr.SameButValues (a.sumInt true (-128) 127) (b.sumInt true (-128) 127) := by
  refine ⟨Arr.fromContiguousOwnedBuffer [2] [100, 100], Arr.fromContiguousOwnedBuffer [2] [1, 1], rfl, ?_⟩
  rw [show (Arr.fromContiguousOwnedBuffer [2] [(100 : Int), 100]).sumInt true (-128) 127 = .error .panic from rfl,
    show (Arr.fromContiguousOwnedBuffer [2] [(1 : Int), 1]).sumInt true (-128) 127 =
      .ok (Arr.fromContiguousOwnedBuffer [] [2]) from rfl]
  exact id

end Verif
