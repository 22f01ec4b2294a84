import Verif.Lemmas.TransferRun
import Verif.Props.Simd
import Verif.Props.Trace

/-!
# Running the code on two element types at once

If a relation between the elements of two types is preserved by the operations, then the results of the same program on related
inputs are related. The proof runs the program on pairs of related elements; both projections preserve the operations.
-/

namespace Verif

variable {M S : Type}

/-- `R` is preserved by the operations; on the second type `mul_add` is the exact `x * y + z`. -/
class Closed [Zero M] [One M] [Add M] [Mul M] [MulAdd M] [SumProduct S] (R : M → S → Prop) : Prop where
  zero : R 0 0
  one : R 1 1
  add : ∀ {x y s t}, R x s → R y t → R (x + y) (s + t)
  mul : ∀ {x y s t}, R x s → R y t → R (x * y) (s * t)
  mulAdd : ∀ {x y z s t w}, R x s → R y t → R z w → R (mulAdd x y z) (s * t + w)

/-- Related elements. -/
structure Pair (R : M → S → Prop) where
  fst : M
  snd : S
  rel : R fst snd

variable [Zero M] [One M] [Add M] [Mul M] [MulAdd M] [SumProduct S] {R : M → S → Prop} [hR : Closed R]

instance : Zero (Pair R) := ⟨⟨0, 0, hR.zero⟩⟩
instance : One (Pair R) := ⟨⟨1, 1, hR.one⟩⟩
instance : Add (Pair R) := ⟨fun x y => ⟨x.fst + y.fst, x.snd + y.snd, hR.add x.rel y.rel⟩⟩
instance : Mul (Pair R) := ⟨fun x y => ⟨x.fst * y.fst, x.snd * y.snd, hR.mul x.rel y.rel⟩⟩
instance instPairMulAdd : MulAdd (Pair R) :=
  ⟨fun x y z => ⟨mulAdd x.fst y.fst z.fst, x.snd * y.snd + z.snd, hR.mulAdd x.rel y.rel z.rel⟩⟩

theorem pair_fst : OpHom (Pair.fst : Pair R → M) := ⟨rfl, rfl, fun _ _ => rfl, fun _ _ => rfl, fun _ _ _ => rfl⟩
theorem pair_snd : OpHom (Pair.snd : Pair R → S) := ⟨rfl, rfl, fun _ _ => rfl, fun _ _ => rfl, fun _ _ _ => rfl⟩

/-- Every element with a related one. -/
def lift {leaf : M → S} (hl : ∀ x, R x (leaf x)) (x : M) : Pair R := ⟨x, leaf x, hl x⟩

omit [Zero M] [One M] [Add M] [Mul M] [MulAdd M] [SumProduct S] hR in
theorem mapBuf_lift_fst {leaf : M → S} (hl : ∀ x, R x (leaf x)) (a : Arr M) :
    (a.mapBuf (lift hl)).mapBuf Pair.fst = a := by
  cases a; simp [Arr.mapBuf, Function.comp_def, lift]

omit [Zero M] [One M] [Add M] [Mul M] [MulAdd M] [SumProduct S] hR in
theorem mapBuf_lift_snd {leaf : M → S} (hl : ∀ x, R x (leaf x)) (a : Arr M) :
    (a.mapBuf (lift hl)).mapBuf Pair.snd = a.mapBuf leaf := by
  cases a; simp [Arr.mapBuf, Function.comp_def, lift]

/-- If the run on the second type returns the array `rs` with elements `g`, the run on the first type returns an array of the same
shape with related elements. -/
theorem transfer {runM : Res (Arr M)} {runS : Res (Arr S)} {run : Res (Arr (Pair R))} (h1 : runM = Arr.mapBuf Pair.fst <$> run)
    (h2 : runS = Arr.mapBuf Pair.snd <$> run) {rs : Arr S} {s : List Nat} {g : List Nat → S} (e : runS = .ok rs)
    (hg : rs.Denotes s g) : ∃ r f, runM = .ok r ∧ r.Denotes s f ∧ ∀ idx, InB idx s → R (f idx) (g idx) := by
  cases run with
  | error _ => rw [h2] at e; cases e
  | ok x =>
    have hx : x.mapBuf Pair.snd = rs := by
      rw [h2] at e
      exact Except.ok.inj e
    subst hx
    have key : ∀ idx, InB idx s → ∃ q : Pair R, x.buf[x.off + offset idx x.stride]? = some q ∧ q.snd = g idx := by
      intro idx hi
      have := hg.2.2 idx hi
      change (x.buf.map Pair.snd)[x.off + offset idx x.stride]? = _ at this
      rw [List.getElem?_map] at this
      cases hq : x.buf[x.off + offset idx x.stride]? with
      | none => rw [hq] at this; cases this
      | some q => rw [hq] at this; exact ⟨q, rfl, Option.some.inj this⟩
    refine ⟨x.mapBuf Pair.fst, fun idx => ((x.buf[x.off + offset idx x.stride]?).getD 0).fst, h1, ⟨hg.1, hg.2.1, fun idx hi => ?_⟩,
      fun idx hi => ?_⟩
    · obtain ⟨q, hq, _⟩ := key idx hi
      show (x.buf.map Pair.fst)[x.off + offset idx x.stride]? = _
      simp only [List.getElem?_map, hq]; rfl
    · obtain ⟨q, hq, hs⟩ := key idx hi
      simp only [hq, ← hs]
      exact q.rel

/-- The kernels of the portable build and of the vector builds for `f64` and `f32`. -/
def StockSop {α : Type} [Zero α] [Add α] [Mul α] [MulAdd α] (K : SopKernels α) : Prop :=
  K = portableSop ∨ K = simdSop 2 ∨ K = simdSop 4

theorem stockSop_family {K : SopKernels M} (hK : StockSop K) (R : M → S → Prop) [Closed R] :
    ∃ (KP : SopKernels (Pair R)) (KS : SopKernels S), KNat Pair.fst KP K ∧ KNat Pair.snd KP KS ∧ KS.Correct := by
  rcases hK with rfl | rfl | rfl
  · exact ⟨portableSop, portableSop, portableSop_nat pair_fst, portableSop_nat pair_snd, portableSop_correct⟩
  · exact ⟨simdSop 2, simdSop 2, simdSop_nat pair_fst 2, simdSop_nat pair_snd 2, simdSop_correct (.inl rfl)⟩
  · exact ⟨simdSop 4, simdSop 4, simdSop_nat pair_fst 4, simdSop_nat pair_snd 4, simdSop_correct (.inr rfl)⟩

/-- The kernels of `sum` in the portable build and in the vector builds. -/
def StockSum {α : Type} [Zero α] [Add α] (K : RedKernels α) : Prop :=
  K = portableRed (fun v acc => acc + v) 0 ∨ K = simdRed (fun v acc => acc + v) (fun x y => x + y) 0 2 ∨
    K = simdRed (fun v acc => acc + v) (fun x y => x + y) 0 4

/-- The kernels of `product` in the portable build and in the vector builds. -/
def StockProduct {α : Type} [One α] [Mul α] (K : RedKernels α) : Prop :=
  K = portableRed (fun v acc => acc * v) 1 ∨ K = simdProduct (fun v acc => acc * v) (fun x y => x * y) 1 2 ∨
    K = simdProduct (fun v acc => acc * v) (fun x y => x * y) 1 4

variable {leaf : M → S} (hl : ∀ x, R x (leaf x))

omit [Zero M] [One M] [Add M] [Mul M] [MulAdd M] hR in
theorem live_mapBuf (hv : ∀ x, SumProduct.Live (leaf x)) (a : Arr M) : LiveBuf (a.mapBuf leaf).buf := by
  intro x hx
  obtain ⟨y, _, rfl⟩ := List.mem_map.1 hx
  exact hv y

include hl in
theorem transfer_sum {K : RedKernels M} (hK : StockSum K) {a : Arr M} {s : List Nat} {f : List Nat → M} (ha : a.Denotes s f)
    (hd : s.length ≤ 32) (hg : Reducible s a.stride) :
    ∃ r f', a.reduceAll (fun v acc => acc + v) 0 K = .ok r ∧ r.Denotes [] f' ∧ R (f' []) ((elements s fun i => leaf (f i)).sum) := by
  have fam : ∃ (KP : RedKernels (Pair R)) (KS : RedKernels S), RedNat Pair.fst KP K ∧ RedNat Pair.snd KP KS ∧
      ∀ b : Arr S, b.reduceAll (fun v acc => acc + v) 0 KS = b.sum := by
    rcases hK with rfl | rfl | rfl
    · exact ⟨_, _, portableRed_nat (step := fun v acc => acc + v) (fun _ _ => rfl) 0,
        portableRed_nat (step' := fun v acc => acc + v) (fun _ _ => rfl) 0, fun _ => rfl⟩
    · exact ⟨_, _, simdRed_nat (step := fun v acc => acc + v) (fun _ _ => rfl) (op := fun x y => x + y) (fun _ _ => rfl) 0 2,
        simdRed_nat (step' := fun v acc => acc + v) (fun _ _ => rfl) (op' := fun x y => x + y) (fun _ _ => rfl) 0 2,
        fun b => C49_sum (.inl rfl) b⟩
    · exact ⟨_, _, simdRed_nat (step := fun v acc => acc + v) (fun _ _ => rfl) (op := fun x y => x + y) (fun _ _ => rfl) 0 4,
        simdRed_nat (step' := fun v acc => acc + v) (fun _ _ => rfl) (op' := fun x y => x + y) (fun _ _ => rfl) 0 4,
        fun b => C49_sum (.inr rfl) b⟩
  obtain ⟨KP, KS, n1, n2, hs⟩ := fam
  have e1 := reduceAll_map (φ := (Pair.fst : Pair R → M)) (step := fun v acc => acc + v) (step' := fun v acc => acc + v)
    (fun _ _ => rfl) (init := 0) n1 (a.mapBuf (lift hl))
  have e2 := reduceAll_map (φ := (Pair.snd : Pair R → S)) (step := fun v acc => acc + v) (step' := fun v acc => acc + v)
    (fun _ _ => rfl) (init := 0) n2 (a.mapBuf (lift hl))
  rw [mapBuf_lift_fst] at e1
  rw [mapBuf_lift_snd] at e2
  obtain ⟨rs, er, hr⟩ := C09_sum_partial (denotes_mapBuf (φ := leaf) ha) hd hg
  obtain ⟨r, f', h1, h2, h3⟩ := transfer e1 e2 ((hs _).trans er) hr
  exact ⟨r, f', h1, h2, h3 [] trivial⟩

include hl in
theorem transfer_product {K : RedKernels M} (hK : StockProduct K) {a : Arr M} {s : List Nat} {f : List Nat → M}
    (ha : a.Denotes s f) (hd : s.length ≤ 32) (hg : Reducible s a.stride) :
    ∃ r f', a.reduceAll (fun v acc => acc * v) 1 K = .ok r ∧ r.Denotes [] f' ∧ R (f' []) ((elements s fun i => leaf (f i)).prod) := by
  have fam : ∃ (KP : RedKernels (Pair R)) (KS : RedKernels S), RedNat Pair.fst KP K ∧ RedNat Pair.snd KP KS ∧
      ∀ b : Arr S, b.reduceAll (fun v acc => acc * v) 1 KS = b.product := by
    rcases hK with rfl | rfl | rfl
    · exact ⟨_, _, portableRed_nat (step := fun v acc => acc * v) (fun _ _ => rfl) 1,
        portableRed_nat (step' := fun v acc => acc * v) (fun _ _ => rfl) 1, fun _ => rfl⟩
    · exact ⟨_, _, simdProduct_nat (step := fun v acc => acc * v) (fun _ _ => rfl) (op := fun x y => x * y) (fun _ _ => rfl) 1 2,
        simdProduct_nat (step' := fun v acc => acc * v) (fun _ _ => rfl) (op' := fun x y => x * y) (fun _ _ => rfl) 1 2,
        fun b => C49_product (.inl rfl) b⟩
    · exact ⟨_, _, simdProduct_nat (step := fun v acc => acc * v) (fun _ _ => rfl) (op := fun x y => x * y) (fun _ _ => rfl) 1 4,
        simdProduct_nat (step' := fun v acc => acc * v) (fun _ _ => rfl) (op' := fun x y => x * y) (fun _ _ => rfl) 1 4,
        fun b => C49_product (.inr rfl) b⟩
  obtain ⟨KP, KS, n1, n2, hs⟩ := fam
  have e1 := reduceAll_map (φ := (Pair.fst : Pair R → M)) (step := fun v acc => acc * v) (step' := fun v acc => acc * v)
    (fun _ _ => rfl) (init := 1) n1 (a.mapBuf (lift hl))
  have e2 := reduceAll_map (φ := (Pair.snd : Pair R → S)) (step := fun v acc => acc * v) (step' := fun v acc => acc * v)
    (fun _ _ => rfl) (init := 1) n2 (a.mapBuf (lift hl))
  rw [mapBuf_lift_fst] at e1
  rw [mapBuf_lift_snd] at e2
  obtain ⟨rs, er, hr⟩ := C09_product_partial (denotes_mapBuf (φ := leaf) ha) hd hg
  obtain ⟨r, f', h1, h2, h3⟩ := transfer e1 e2 ((hs _).trans er) hr
  exact ⟨r, f', h1, h2, h3 [] trivial⟩

include hl in
theorem transfer_sumAlong {a : Arr M} {s : List Nat} {f : List Nat → M} (ha : a.Denotes s f) (hd : s.length ≤ 32)
    {axes : List Int} {ks : List Nat} (hax : AxesAre axes s.length ks) (hnd : ks.Nodup) :
    ∃ r f', a.sumAlong axes = .ok r ∧ r.Denotes (dropAxes ks s) f' ∧
      ∀ J, InB J (dropAxes ks s) → R (f' J) (((fibre ks s J).map fun i => leaf (f i)).sum) := by
  have e1 := reduceAlong_map (φ := (Pair.fst : Pair R → M)) (step := fun v acc => acc + v) (step' := fun v acc => acc + v)
    (fun _ _ => rfl) (init := 0) (a.mapBuf (lift hl)) axes
  have e2 := reduceAlong_map (φ := (Pair.snd : Pair R → S)) (step := fun v acc => acc + v) (step' := fun v acc => acc + v)
    (fun _ _ => rfl) (init := 0) (a.mapBuf (lift hl)) axes
  rw [mapBuf_lift_fst] at e1
  rw [mapBuf_lift_snd] at e2
  obtain ⟨rs, er, hr⟩ := C10_sum_along (denotes_mapBuf (φ := leaf) ha) hd hax hnd
  exact transfer e1 e2 er hr

omit [Zero M] [One M] [Add M] [Mul M] [MulAdd M] [SumProduct S] hR hl in
theorem offsetDiagonalAlong_map {α β : Type} (φ : α → β) (a : Arr α) (o ax1 ax2 : Int) :
    (a.mapBuf φ).offsetDiagonalAlong o ax1 ax2 = Arr.mapBuf φ <$> a.offsetDiagonalAlong o ax1 ax2 := by
  unfold Arr.offsetDiagonalAlong
  simp only [map_bind]
  refine bind_congr fun _ => bind_congr fun i => bind_congr fun j => bind_congr fun _ => ?_
  have h1 : (a.mapBuf φ).shape = a.shape := rfl
  have h2 : (a.mapBuf φ).stride = a.stride := rfl
  rw [h1, h2]
  cases a.shape[i]? with
  | none => rfl
  | some n1 =>
    cases a.shape[j]? with
    | none => rfl
    | some n2 =>
      cases a.stride[i]? with
      | none => rfl
      | some d1 =>
        cases a.stride[j]? with
        | none => rfl
        | some d2 =>
          dsimp only
          by_cases ho : o ≥ 0
          · simp only [if_pos ho]
            by_cases hk : o.toNat ≥ n2
            · simp only [if_pos hk]; rfl
            · simp only [if_neg hk]; rfl
          · simp only [if_neg ho]
            by_cases hk : (-o).toNat ≥ n1
            · simp only [if_pos hk]; rfl
            · simp only [if_neg hk]; rfl

include hl in
theorem transfer_traceAlong {a : Arr M} {s : List Nat} {f : List Nat → M} (ha : a.Denotes s f) (hd : s.length ≤ 32)
    {o ax1 ax2 : Int} {i j n1 n2 : Nat} (h1 : AxisIs ax1 s.length i) (h2 : AxisIs ax2 s.length j) (hij : i ≠ j)
    (hn1 : s[i]? = some n1) (hn2 : s[j]? = some n2) (ho1 : -o < n1 ∨ 0 ≤ o) (ho2 : o < n2 ∨ o < 0) :
    ∃ r f', a.offsetTraceAlong o ax1 ax2 = .ok r ∧ r.Denotes (others i j s) f' ∧ ∀ J, InB J (others i j s) → R (f' J)
      ((List.range (min (n1 - (-o).toNat) (n2 - o.toNat))).map fun k =>
        leaf (f (putTwo i (k + (-o).toNat) j (k + o.toNat) s.length 0 J))).sum := by
  have e1 : a.offsetTraceAlong o ax1 ax2 = Arr.mapBuf Pair.fst <$> (a.mapBuf (lift hl)).offsetTraceAlong o ax1 ax2 := by
    conv_lhs => rw [← mapBuf_lift_fst hl a]
    unfold Arr.offsetTraceAlong
    rw [offsetDiagonalAlong_map]
    simp only [map_bind, bind_map_left]
    exact bind_congr fun d => reduceAlong_map (φ := (Pair.fst : Pair R → M)) (step := fun v acc => acc + v)
      (step' := fun v acc => acc + v) (fun _ _ => rfl) (init := 0) d [-1]
  have e2 : (a.mapBuf leaf).offsetTraceAlong o ax1 ax2 = Arr.mapBuf Pair.snd <$> (a.mapBuf (lift hl)).offsetTraceAlong o ax1 ax2 := by
    conv_lhs => rw [← mapBuf_lift_snd hl a]
    unfold Arr.offsetTraceAlong
    rw [offsetDiagonalAlong_map]
    simp only [map_bind, bind_map_left]
    exact bind_congr fun d => reduceAlong_map (φ := (Pair.snd : Pair R → S)) (step := fun v acc => acc + v)
      (step' := fun v acc => acc + v) (fun _ _ => rfl) (init := 0) d [-1]
  obtain ⟨rs, er, hr⟩ := C34_trace_along (denotes_mapBuf (φ := leaf) ha) hd h1 h2 hij hn1 hn2 ho1 ho2
  exact transfer e1 e2 er hr

include hl in
theorem transfer_productAlong {a : Arr M} {s : List Nat} {f : List Nat → M} (ha : a.Denotes s f) (hd : s.length ≤ 32)
    {axes : List Int} {ks : List Nat} (hax : AxesAre axes s.length ks) (hnd : ks.Nodup) :
    ∃ r f', a.productAlong axes = .ok r ∧ r.Denotes (dropAxes ks s) f' ∧
      ∀ J, InB J (dropAxes ks s) → R (f' J) (((fibre ks s J).map fun i => leaf (f i)).prod) := by
  have e1 := reduceAlong_map (φ := (Pair.fst : Pair R → M)) (step := fun v acc => acc * v) (step' := fun v acc => acc * v)
    (fun _ _ => rfl) (init := 1) (a.mapBuf (lift hl)) axes
  have e2 := reduceAlong_map (φ := (Pair.snd : Pair R → S)) (step := fun v acc => acc * v) (step' := fun v acc => acc * v)
    (fun _ _ => rfl) (init := 1) (a.mapBuf (lift hl)) axes
  rw [mapBuf_lift_fst] at e1
  rw [mapBuf_lift_snd] at e2
  obtain ⟨rs, er, hr⟩ := C10_product_along (denotes_mapBuf (φ := leaf) ha) hd hax hnd
  exact transfer e1 e2 er hr

include hl in
theorem transfer_dot {a b : Arr M} {n : Nat} {f g : List Nat → M} (ha : a.Denotes [n] f) (hb : b.Denotes [n] g) :
    ∃ r f', a.dot b = .ok r ∧ r.Denotes [] f' ∧ R (f' []) (innerProduct n (fun i => leaf (f [i])) fun i => leaf (g [i])) := by
  have e1 := dot_map (pair_fst (R := R)) (a.mapBuf (lift hl)) (b.mapBuf (lift hl))
  have e2 := dot_map (pair_snd (R := R)) (a.mapBuf (lift hl)) (b.mapBuf (lift hl))
  rw [mapBuf_lift_fst, mapBuf_lift_fst] at e1
  rw [mapBuf_lift_snd, mapBuf_lift_snd] at e2
  obtain ⟨rs, er, hr⟩ := C32_dot (denotes_mapBuf (φ := leaf) ha) (denotes_mapBuf (φ := leaf) hb)
  obtain ⟨r, f', h1, h2, h3⟩ := transfer e1 e2 er hr
  exact ⟨r, f', h1, h2, h3 [] trivial⟩

include hl in
theorem transfer_matvec {K : SopKernels M} (hK : StockSop K) {a b : Arr M} {m k : Nat} {f g : List Nat → M}
    (ha : a.Denotes [m, k] f) (hb : b.Denotes [k] g) :
    ∃ r f', a.matmul K b = .ok r ∧ r.Denotes [m] f' ∧ ∀ idx, InB idx [m] →
      R (f' idx) (innerProduct k (fun t => leaf (f [idx.headD 0, t])) fun t => leaf (g [t])) := by
  obtain ⟨KP, KS, n1, n2, _⟩ := stockSop_family hK R
  have e1 := matmul_map (pair_fst (R := R)) n1 (a.mapBuf (lift hl)) (b.mapBuf (lift hl))
  have e2 := matmul_map (pair_snd (R := R)) n2 (a.mapBuf (lift hl)) (b.mapBuf (lift hl))
  rw [mapBuf_lift_fst, mapBuf_lift_fst] at e1
  rw [mapBuf_lift_snd, mapBuf_lift_snd] at e2
  obtain ⟨rs, er, hr⟩ := C30_matmul_mat_vec (K := KS) (denotes_mapBuf (φ := leaf) ha) (denotes_mapBuf (φ := leaf) hb)
  exact transfer e1 e2 er hr

include hl in
theorem transfer_matmul {K : SopKernels M} (hK : StockSop K) {a b : Arr M} {m k n : Nat} {f g : List Nat → M}
    (ha : a.Denotes [m, k] f) (hb : b.Denotes [k, n] g) (hm : 0 < m) (hk : 0 < k) (hn : 0 < n)
    (hv : ∀ x, SumProduct.Live (leaf x) := by exact fun _ => trivial) :
    ∃ r f', a.matmul K b = .ok r ∧ r.Denotes [m, n] f' ∧ ∀ idx, InB idx [m, n] →
      R (f' idx) (innerProduct k (fun t => leaf (f [idx.getD 0 0, t])) fun t => leaf (g [t, idx.getD 1 0])) := by
  obtain ⟨KP, KS, n1, n2, hc⟩ := stockSop_family hK R
  have e1 := matmul_map (pair_fst (R := R)) n1 (a.mapBuf (lift hl)) (b.mapBuf (lift hl))
  have e2 := matmul_map (pair_snd (R := R)) n2 (a.mapBuf (lift hl)) (b.mapBuf (lift hl))
  rw [mapBuf_lift_fst, mapBuf_lift_fst] at e1
  rw [mapBuf_lift_snd, mapBuf_lift_snd] at e2
  obtain ⟨rs, er, hr⟩ := matmul_live hc (denotes_mapBuf (φ := leaf) ha) (denotes_mapBuf (φ := leaf) hb) hm hk hn
    (live_mapBuf hv a) (live_mapBuf hv b)
  exact transfer e1 e2 er hr

include hl in
theorem transfer_bmm {K : SopKernels M} (hK : StockSop K) {a b : Arr M} {B m k n : Nat} {f g : List Nat → M}
    (ha : a.Denotes [B, m, k] f) (hb : b.Denotes [B, k, n] g) (hB : 0 < B) (hm : 0 < m) (hk : 0 < k) (hn : 0 < n)
    (hv : ∀ x, SumProduct.Live (leaf x) := by exact fun _ => trivial) :
    ∃ r f', a.bmm K b = .ok r ∧ r.Denotes [B, m, n] f' ∧ ∀ idx, InB idx [B, m, n] →
      R (f' idx) (innerProduct k (fun t => leaf (f [idx.getD 0 0, idx.getD 1 0, t]))
        fun t => leaf (g [idx.getD 0 0, t, idx.getD 2 0])) := by
  obtain ⟨KP, KS, n1, n2, hc⟩ := stockSop_family hK R
  have e1 := bmm_map (pair_fst (R := R)) n1 (a.mapBuf (lift hl)) (b.mapBuf (lift hl))
  have e2 := bmm_map (pair_snd (R := R)) n2 (a.mapBuf (lift hl)) (b.mapBuf (lift hl))
  rw [mapBuf_lift_fst, mapBuf_lift_fst] at e1
  rw [mapBuf_lift_snd, mapBuf_lift_snd] at e2
  obtain ⟨rs, er, hr⟩ := bmm_live hc (denotes_mapBuf (φ := leaf) ha) (denotes_mapBuf (φ := leaf) hb) hB hm hk hn
    (live_mapBuf hv a) (live_mapBuf hv b)
  exact transfer e1 e2 er hr

theorem wellFormed_map {α β : Type} {φ : α → β} {fs : List (Factor α)} {out rest : List Char} {dim : Char → Nat}
    (h : WellFormed fs out rest dim) : WellFormed (fs.map (Factor.map φ)) out rest dim where
  alpha f hf := by
    obtain ⟨g, hg, rfl⟩ := List.mem_map.1 hf
    exact h.alpha g hg
  nodup := h.nodup
  out_mem c hc := by
    obtain ⟨f, hf, hm⟩ := h.out_mem c hc
    exact ⟨f.map φ, List.mem_map_of_mem hf, hm⟩
  rest_mem c := by
    rw [h.rest_mem c]
    constructor
    · rintro ⟨⟨f, hf, hm⟩, hc⟩
      exact ⟨⟨f.map φ, List.mem_map_of_mem hf, hm⟩, hc⟩
    · rintro ⟨⟨f, hf, hm⟩, hc⟩
      obtain ⟨g, hg, rfl⟩ := List.mem_map.1 hf
      exact ⟨⟨g, hg, hm⟩, hc⟩
  pos f hf := by
    obtain ⟨g, hg, rfl⟩ := List.mem_map.1 hf
    exact h.pos g hg

include hl in
theorem transfer_einsum {K : SopKernels M} (hK : StockSop K) {ops : List (Arr M)} {fs : List (Factor M)} {out rest : List Char}
    {dim : Char → Nat} (hw : WellFormed fs out rest dim)
    (hd : List.Forall₂ (fun a f => a.Denotes (f.letters.map dim) f.elem) ops fs) (hargs : ops.length < 16)
    (hdims : ∀ f ∈ fs, f.letters.length ≤ 32) (htot : (out ++ rest).length ≤ 32) (hne : out ++ rest ≠ [])
    (hv : ∀ x, SumProduct.Live (leaf x) := by exact fun _ => trivial) :
    ∃ r f', einsum K ops (fs.map (·.letters)) out = .ok r ∧ r.Denotes (out.map dim) f' ∧ ∀ idx, InB idx (out.map dim) →
      R (f' idx) (einsteinSum out rest dim (fs.map (Factor.map leaf)) idx) := by
  obtain ⟨KP, KS, n1, n2, hc⟩ := stockSop_family hK R
  have e1 := einsum_map (pair_fst (R := R)) n1 (ops.map (Arr.mapBuf (lift hl))) (fs.map (·.letters)) out
  have e2 := einsum_map (pair_snd (R := R)) n2 (ops.map (Arr.mapBuf (lift hl))) (fs.map (·.letters)) out
  simp only [List.map_map, Function.comp_def, mapBuf_lift_fst, mapBuf_lift_snd, List.map_id'] at e1 e2
  have hd' : List.Forall₂ (fun a f => Arr.Denotes a (f.letters.map dim) f.elem) (ops.map fun a => a.mapBuf leaf)
      (fs.map (Factor.map leaf)) := by
    rw [List.forall₂_map_left_iff, List.forall₂_map_right_iff]
    exact hd.imp fun a f h => denotes_mapBuf h
  obtain ⟨rs, er, hr⟩ := einsum_denotes hc (wellFormed_map (φ := leaf) hw) hd' (by rw [List.length_map]; exact hargs)
    (by
      intro f hf
      obtain ⟨g, hg, rfl⟩ := List.mem_map.1 hf
      exact hdims g hg) htot hne (by
      intro a ha
      obtain ⟨b, _, rfl⟩ := List.mem_map.1 ha
      exact live_mapBuf hv b)
  rw [List.map_map] at er
  exact transfer e1 e2 er hr

end Verif
