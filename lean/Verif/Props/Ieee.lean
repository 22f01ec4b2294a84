import Verif.Lemmas.Sticky
import Verif.Lemmas.Ieee
import Verif.Props.FloatArith

/-!
# C68 NaN and infinity are never lost

The same model as everywhere else, run on IEEE numbers (`F32 = Ieee 24 127`, `F64 = Ieee 53 1023`). `StockSum`, `StockProduct`,
`StockSop`: the kernels of the portable build and of the NEON build.
-/

namespace Verif

variable {p emax : Nat} [NeZero p] [NeZero emax]

/-- an array of `f32` with a nan, for the instances below -/
def ieeeDemo (idx : List Nat) : F32 := if idx.getD 0 0 = 1 then .nan else .ofRat (idx.getD 0 0 + 3 / 2)

/-- If a NaN is among `l`, `v` is NaN; if a NaN or an infinity is among `l`, so is `v`. -/
def KeepsSpecial (l : List (Ieee p emax)) (v : Ieee p emax) : Prop :=
  ((∃ x ∈ l, x.IsNaN) → v.IsNaN) ∧ ((∃ x ∈ l, ¬ x.Finite) → ¬ v.Finite)

omit [NeZero emax] in
instance : Absorbing (Ieee.IsNaN (p := p) (emax := emax)) where
  add h := by rcases h with h | h <;> cases h; exacts [rfl, Ieee.add_nan _]
  mul h := by rcases h with h | h <;> cases h; exacts [rfl, Ieee.mul_nan _]
  mulAdd h := by rcases h with h | h | h <;> cases h; exacts [Ieee.nan_mulAdd _ _, Ieee.mulAdd_nan_mid _ _, Ieee.mulAdd_nan _ _]

instance : Absorbing (fun x : Ieee p emax => ¬ x.Finite) where
  add := Ieee.add_not_finite
  mul := Ieee.mul_not_finite
  mulAdd := Ieee.mulAdd_not_finite

/-- The relation for NaN and for non-finite numbers. -/
abbrev Special : Ieee p emax → (ℕ × ℕ) × (ℕ × ℕ) → Prop := Both (Sticky Ieee.IsNaN) (Sticky fun x => ¬ x.Finite)

noncomputable def specialLeaf (x : Ieee p emax) : (ℕ × ℕ) × (ℕ × ℕ) := (stickyLeaf Ieee.IsNaN x, stickyLeaf (fun x => ¬ x.Finite) x)

omit [NeZero p] [NeZero emax] in
theorem special_leaf (x : Ieee p emax) : Special x (specialLeaf x) := ⟨sticky_leaf _ x, sticky_leaf _ x⟩

omit [NeZero p] [NeZero emax] in
theorem keeps_sum {ι : Type} {l : List ι} {g : ι → Ieee p emax} {v : Ieee p emax}
    (h : Special v (l.map fun i => specialLeaf (g i)).sum) : KeepsSpecial (l.map g) v := by
  have e1 := proj_sum (RingHom.fst (ℕ × ℕ) (ℕ × ℕ)) l fun i => specialLeaf (g i)
  have e2 := proj_sum (RingHom.snd (ℕ × ℕ) (ℕ × ℕ)) l fun i => specialLeaf (g i)
  constructor <;> rintro ⟨x, hx, hb⟩ <;> obtain ⟨i, hi, rfl⟩ := List.mem_map.1 hx
  · exact Sticky.of_sum (Bad := Ieee.IsNaN) (e1 ▸ h.1) ⟨i, hi, hb⟩
  · exact Sticky.of_sum (Bad := fun x : Ieee p emax => ¬ x.Finite) (e2 ▸ h.2) ⟨i, hi, hb⟩

omit [NeZero p] [NeZero emax] in
theorem keeps_prod {ι : Type} {l : List ι} {g : ι → Ieee p emax} {v : Ieee p emax}
    (h : Special v (l.map fun i => specialLeaf (g i)).prod) : KeepsSpecial (l.map g) v := by
  have e1 := proj_prod (RingHom.fst (ℕ × ℕ) (ℕ × ℕ)) l fun i => specialLeaf (g i)
  have e2 := proj_prod (RingHom.snd (ℕ × ℕ) (ℕ × ℕ)) l fun i => specialLeaf (g i)
  constructor <;> rintro ⟨x, hx, hb⟩ <;> obtain ⟨i, hi, rfl⟩ := List.mem_map.1 hx
  · exact Sticky.of_prod (Bad := Ieee.IsNaN) (e1 ▸ h.1) ⟨i, hi, hb⟩
  · exact Sticky.of_prod (Bad := fun x : Ieee p emax => ¬ x.Finite) (e2 ▸ h.2) ⟨i, hi, hb⟩

omit [NeZero p] [NeZero emax] in
theorem keeps_inner {k : Nat} {a b : Nat → Ieee p emax} {v : Ieee p emax}
    (h : Special v (innerProduct k (fun t => specialLeaf (a t)) fun t => specialLeaf (b t))) :
    KeepsSpecial ((List.range k).map a ++ (List.range k).map b) v := by
  have e1 := proj_innerProduct (RingHom.fst (ℕ × ℕ) (ℕ × ℕ)) k (fun t => specialLeaf (a t)) fun t => specialLeaf (b t)
  have e2 := proj_innerProduct (RingHom.snd (ℕ × ℕ) (ℕ × ℕ)) k (fun t => specialLeaf (a t)) fun t => specialLeaf (b t)
  have key : ∀ {Bad : Ieee p emax → Prop}, (∃ x ∈ (List.range k).map a ++ (List.range k).map b, Bad x) →
      ∃ t < k, Bad (a t) ∨ Bad (b t) := by
    rintro Bad ⟨x, hx, hb⟩
    rcases List.mem_append.1 hx with hx | hx <;> obtain ⟨t, ht, rfl⟩ := List.mem_map.1 hx
    · exact ⟨t, List.mem_range.1 ht, .inl hb⟩
    · exact ⟨t, List.mem_range.1 ht, .inr hb⟩
  constructor <;> intro hx
  · exact Sticky.of_inner (Bad := Ieee.IsNaN) (e1 ▸ h.1) (key hx)
  · exact Sticky.of_inner (Bad := fun x : Ieee p emax => ¬ x.Finite) (e2 ▸ h.2) (key hx)

omit [NeZero p] in
theorem denotes_nil {α : Type} {r : Arr α} {f : List Nat → α} (h : r.Denotes [] f) : r.Denotes [] fun _ => f [] :=
  h.congr fun idx hi => by
    cases idx with
    | nil => rfl
    | cons => exact hi.elim

/-- **C68** (part): `sum`, portable and vector kernels. Missing: the broadcast views excluded in C09. -/
theorem C68_sum_partial {K : RedKernels (Ieee p emax)} (hK : StockSum K) {a : Arr (Ieee p emax)} {s : List Nat}
    {f : List Nat → Ieee p emax} (ha : a.Denotes s f) (hd : s.length ≤ 32) (hg : Reducible s a.stride) :
    ∃ r v, a.reduceAll (fun v acc => acc + v) 0 K = .ok r ∧ r.Denotes [] (fun _ => v) ∧ KeepsSpecial (elements s f) v := by
  obtain ⟨r, f', h1, h2, h3⟩ := transfer_sum special_leaf hK ha hd hg
  exact ⟨r, f' [], h1, denotes_nil h2, keeps_sum h3⟩

example := C68_sum_partial (K := simdRed (fun v acc => acc + v) (fun x y => x + y) 0 4) (.inr (.inr rfl))
  (denotes_fromContiguous (s := [3, 2]) (f := ieeeDemo)) (by decide) (.inr (by decide))

/-- **C68** (part): `product`. Missing: as for `sum`. -/
theorem C68_product_partial {K : RedKernels (Ieee p emax)} (hK : StockProduct K) {a : Arr (Ieee p emax)} {s : List Nat}
    {f : List Nat → Ieee p emax} (ha : a.Denotes s f) (hd : s.length ≤ 32) (hg : Reducible s a.stride) :
    ∃ r v, a.reduceAll (fun v acc => acc * v) 1 K = .ok r ∧ r.Denotes [] (fun _ => v) ∧ KeepsSpecial (elements s f) v := by
  obtain ⟨r, f', h1, h2, h3⟩ := transfer_product special_leaf hK ha hd hg
  exact ⟨r, f' [], h1, denotes_nil h2, keeps_prod h3⟩

example := C68_product_partial (K := simdProduct (fun v acc => acc * v) (fun x y => x * y) 1 4) (.inr (.inr rfl))
  (denotes_fromContiguous (s := [3, 2]) (f := ieeeDemo)) (by decide) (.inr (by decide))

/-- **C68**: `sum_along`: an entry keeps what is in its own fibre. -/
theorem C68_sum_along {a : Arr (Ieee p emax)} {s : List Nat} {f : List Nat → Ieee p emax} (ha : a.Denotes s f)
    (hd : s.length ≤ 32) {axes : List Int} {ks : List Nat} (hax : AxesAre axes s.length ks) (hnd : ks.Nodup) :
    ∃ r f', a.sumAlong axes = .ok r ∧ r.Denotes (dropAxes ks s) f' ∧
      ∀ J, InB J (dropAxes ks s) → KeepsSpecial ((fibre ks s J).map f) (f' J) := by
  obtain ⟨r, f', h1, h2, h3⟩ := transfer_sumAlong special_leaf ha hd hax hnd
  exact ⟨r, f', h1, h2, fun J hJ => keeps_sum (h3 J hJ)⟩

example := C68_sum_along (denotes_fromContiguous (s := [3, 2]) (f := ieeeDemo)) (by decide) (axes := [-1]) (ks := [1])
  ⟨⟨by decide, by decide⟩, trivial⟩ (by decide)

/-- **C68**: `product_along`. -/
theorem C68_product_along {a : Arr (Ieee p emax)} {s : List Nat} {f : List Nat → Ieee p emax} (ha : a.Denotes s f)
    (hd : s.length ≤ 32) {axes : List Int} {ks : List Nat} (hax : AxesAre axes s.length ks) (hnd : ks.Nodup) :
    ∃ r f', a.productAlong axes = .ok r ∧ r.Denotes (dropAxes ks s) f' ∧
      ∀ J, InB J (dropAxes ks s) → KeepsSpecial ((fibre ks s J).map f) (f' J) := by
  obtain ⟨r, f', h1, h2, h3⟩ := transfer_productAlong special_leaf ha hd hax hnd
  exact ⟨r, f', h1, h2, fun J hJ => keeps_prod (h3 J hJ)⟩

example := C68_product_along (denotes_fromContiguous (s := [3, 2]) (f := ieeeDemo)) (by decide) (axes := [-1]) (ks := [1])
  ⟨⟨by decide, by decide⟩, trivial⟩ (by decide)

/-- **C68**: traces. -/
theorem C68_trace_along {a : Arr (Ieee p emax)} {s : List Nat} {f : List Nat → Ieee p emax} (ha : a.Denotes s f)
    (hd : s.length ≤ 32) {o ax1 ax2 : Int} {i j n1 n2 : Nat} (h1 : AxisIs ax1 s.length i) (h2 : AxisIs ax2 s.length j)
    (hij : i ≠ j) (hn1 : s[i]? = some n1) (hn2 : s[j]? = some n2) (ho1 : -o < n1 ∨ 0 ≤ o) (ho2 : o < n2 ∨ o < 0) :
    ∃ r f', a.offsetTraceAlong o ax1 ax2 = .ok r ∧ r.Denotes (others i j s) f' ∧ ∀ J, InB J (others i j s) →
      KeepsSpecial ((List.range (min (n1 - (-o).toNat) (n2 - o.toNat))).map fun k =>
        f (putTwo i (k + (-o).toNat) j (k + o.toNat) s.length 0 J)) (f' J) := by
  obtain ⟨r, f', g1, g2, g3⟩ := transfer_traceAlong special_leaf ha hd h1 h2 hij hn1 hn2 ho1 ho2
  exact ⟨r, f', g1, g2, fun J hJ => keeps_sum (g3 J hJ)⟩

example := C68_trace_along (denotes_fromContiguous (s := [3, 2]) (f := ieeeDemo)) (by decide) (o := -1) (ax1 := 0) (ax2 := -1) (i := 0) (j := 1)
  (n1 := 3) (n2 := 2) ⟨by decide, by decide⟩ ⟨by decide, by decide⟩ (by decide) rfl rfl (by decide) (by decide)

omit [NeZero emax] in
theorem keeps_div {l : List (Ieee p emax)} {v : Ieee p emax} (h : KeepsSpecial l v) (n : Ieee p emax) : KeepsSpecial l (v / n) := by
  constructor <;> intro hx
  · have : v = .nan := h.1 hx
    subst this; rfl
  · rcases Ieee.not_finite_iff.1 (h.2 hx) with e | ⟨s, e⟩
    · subst e; exact id
    · subst e; cases n <;> exact id

/-- **C68** (part): `mean`, whatever the conversion of the count. Missing: as for `sum`. -/
theorem C68_mean_partial {K : RedKernels (Ieee p emax)} (hK : StockSum K) {B : BinKernels (Ieee p emax)} (hB : StockDiv B) (cast : Nat → Ieee p emax) (dflt : Ieee p emax) {a : Arr (Ieee p emax)} {s : List Nat}
    {f : List Nat → Ieee p emax} (ha : a.Denotes s f) (hd : s.length ≤ 32) (hg : Reducible s a.stride) :
    ∃ r v, a.meanWith K B cast dflt = .ok r ∧ r.Denotes [] (fun _ => v) ∧ KeepsSpecial (elements s f) v := by
  obtain ⟨r, f', h1, h2, h3⟩ := transfer_sum special_leaf hK ha hd hg
  obtain ⟨c, hc1, hc2⟩ := C06_scalar (fun x y : Ieee p emax => .ok (x / y)) dflt (h := fun _ => f' [] / cast (numel s))
    (cast (numel s)) h2 (by simp) (fun idx hi => by
      cases idx with
      | nil => rfl
      | cons => exact hi.elim)
  refine ⟨c, _, ?_, hc2, keeps_div (keeps_sum h3) _⟩
  unfold Arr.meanWith
  rw [h1, ok_bind, Arr.size, ha.1, stockDiv_eq hB dflt _ h2 (by simp)]
  exact hc1

example := C68_mean_partial (K := portableRed (fun v acc => acc + v) 0) (.inl rfl) (B := portableKernels fun x y => .ok (x / y)) (.inl rfl)
  (fun n => Ieee.ofRat n) 0 (denotes_fromContiguous (s := [3, 2]) (f := ieeeDemo)) (by decide) (.inr (by decide))

/-- **C68**: `mean_along`. -/
theorem C68_mean_along {B : BinKernels (Ieee p emax)} (hB : StockDiv B) (cast : Nat → Ieee p emax) (dflt : Ieee p emax) {a : Arr (Ieee p emax)} {s : List Nat}
    {f : List Nat → Ieee p emax} (ha : a.Denotes s f) (hd : s.length ≤ 32) {ks : List Nat} (hr : ∀ k ∈ ks, k < s.length)
    (hnd : ks.Nodup) :
    ∃ r f', a.meanAlongWith B cast dflt (ks.map Int.ofNat) = .ok r ∧ r.Denotes (dropAxes ks s) f' ∧
      ∀ J, InB J (dropAxes ks s) → KeepsSpecial ((fibre ks s J).map f) (f' J) := by
  obtain ⟨r, f', h1, h2, h3⟩ := transfer_sumAlong special_leaf ha hd (axesAre_ofNat hr) hnd
  have hlen : (dropAxes ks s).length ≤ 32 := by
    have : (dropAxes ks s).length ≤ s.length := by
      unfold dropAxes
      rw [List.length_map]
      exact le_trans (List.length_filter_le _ _) (by simp)
    omega
  have hcount := meanCount_ok (s := s) (axes := ks.map Int.ofNat) rfl hr [] (by simpa using hnd)
  rw [maskProd_nil, List.nil_append] at hcount
  obtain ⟨c, hc1, hc2⟩ := C06_scalar (fun x y : Ieee p emax => .ok (x / y)) dflt (h := fun J => f' J / cast _) _ h2 hlen
    (fun _ _ => rfl)
  refine ⟨c, _, ?_, hc2, fun J hJ => keeps_div (keeps_sum (h3 J hJ)) _⟩
  unfold Arr.meanAlongWith
  rw [ha.1, hcount, ok_bind, h1, ok_bind, stockDiv_eq hB dflt _ h2 hlen]
  exact hc1

example := C68_mean_along (B := portableKernels fun x y => .ok (x / y)) (.inl rfl) (fun n => Ieee.ofRat n) 0
  (denotes_fromContiguous (s := [3, 2]) (f := ieeeDemo)) (by decide) (ks := [0]) (by decide) (by decide)

/-- **C68**: `dot`. -/
theorem C68_dot {a b : Arr (Ieee p emax)} {n : Nat} {f g : List Nat → Ieee p emax} (ha : a.Denotes [n] f) (hb : b.Denotes [n] g) :
    ∃ r v, a.dot b = .ok r ∧ r.Denotes [] (fun _ => v) ∧
      KeepsSpecial ((List.range n).map (fun i => f [i]) ++ (List.range n).map fun i => g [i]) v := by
  obtain ⟨r, f', h1, h2, h3⟩ := transfer_dot special_leaf ha hb
  exact ⟨r, f' [], h1, denotes_nil h2, keeps_inner h3⟩

example := C68_dot (denotes_fromContiguous (s := [3]) (f := ieeeDemo)) (denotes_fromContiguous (s := [3]) (f := ieeeDemo))

/-- **C68**: matrix x vector. -/
theorem C68_matvec {K : SopKernels (Ieee p emax)} (hK : StockSop K) {a b : Arr (Ieee p emax)} {m k : Nat}
    {f g : List Nat → Ieee p emax} (ha : a.Denotes [m, k] f) (hb : b.Denotes [k] g) :
    ∃ r f', a.matmul K b = .ok r ∧ r.Denotes [m] f' ∧ ∀ i < m,
      KeepsSpecial ((List.range k).map (fun t => f [i, t]) ++ (List.range k).map fun t => g [t]) (f' [i]) := by
  obtain ⟨r, f', h1, h2, h3⟩ := transfer_matvec special_leaf hK ha hb
  exact ⟨r, f', h1, h2, fun i hi => keeps_inner (h3 [i] ⟨hi, trivial⟩)⟩

example := C68_matvec (K := simdSop 4) (.inr (.inr rfl)) (denotes_fromContiguous (s := [2, 3]) (f := ieeeDemo)) (denotes_fromContiguous (s := [3]) (f := ieeeDemo))

/-- **C68** (part): matrix x matrix: entry `(i, j)` keeps what is in row `i` and column `j`. Missing: extents 0. -/
theorem C68_matmul_partial {K : SopKernels (Ieee p emax)} (hK : StockSop K) {a b : Arr (Ieee p emax)} {m k n : Nat}
    {f g : List Nat → Ieee p emax} (ha : a.Denotes [m, k] f) (hb : b.Denotes [k, n] g) (hm : 0 < m) (hk : 0 < k) (hn : 0 < n) :
    ∃ r f', a.matmul K b = .ok r ∧ r.Denotes [m, n] f' ∧ ∀ i < m, ∀ j < n,
      KeepsSpecial ((List.range k).map (fun t => f [i, t]) ++ (List.range k).map fun t => g [t, j]) (f' [i, j]) := by
  obtain ⟨r, f', h1, h2, h3⟩ := transfer_matmul special_leaf hK ha hb hm hk hn
  exact ⟨r, f', h1, h2, fun i hi j hj => keeps_inner (h3 [i, j] ⟨hi, hj, trivial⟩)⟩

example := C68_matmul_partial (K := simdSop 4) (.inr (.inr rfl)) (denotes_fromContiguous (s := [2, 3]) (f := ieeeDemo))
  (denotes_fromContiguous (s := [3, 2]) (f := ieeeDemo)) (by decide) (by decide) (by decide)

/-- **C68** (part): batches of matrix products. Missing: extents 0. -/
theorem C68_bmm_partial {K : SopKernels (Ieee p emax)} (hK : StockSop K) {a b : Arr (Ieee p emax)} {B m k n : Nat}
    {f g : List Nat → Ieee p emax} (ha : a.Denotes [B, m, k] f) (hb : b.Denotes [B, k, n] g) (hB : 0 < B) (hm : 0 < m)
    (hk : 0 < k) (hn : 0 < n) :
    ∃ r f', a.bmm K b = .ok r ∧ r.Denotes [B, m, n] f' ∧ ∀ x < B, ∀ i < m, ∀ j < n,
      KeepsSpecial ((List.range k).map (fun t => f [x, i, t]) ++ (List.range k).map fun t => g [x, t, j]) (f' [x, i, j]) := by
  obtain ⟨r, f', h1, h2, h3⟩ := transfer_bmm special_leaf hK ha hb hB hm hk hn
  exact ⟨r, f', h1, h2, fun x hx i hi j hj => keeps_inner (h3 [x, i, j] ⟨hx, hi, hj, trivial⟩)⟩

example := C68_bmm_partial (K := simdSop 4) (.inr (.inr rfl)) (denotes_fromContiguous (s := [2, 2, 3]) (f := ieeeDemo))
  (denotes_fromContiguous (s := [2, 3, 2]) (f := ieeeDemo)) (by decide) (by decide) (by decide) (by decide)

/-- **C68** (part): `einsum`. Missing: what `C28_einsum_partial` leaves out (extents 0, no letters at all). -/
theorem C68_einsum_partial {K : SopKernels (Ieee p emax)} (hK : StockSop K) {ops : List (Arr (Ieee p emax))}
    {fs : List (Factor (Ieee p emax))} {out rest : List Char} {dim : Char → Nat} (hw : WellFormed fs out rest dim)
    (hd : List.Forall₂ (fun a f => a.Denotes (f.letters.map dim) f.elem) ops fs) (hargs : ops.length < 16)
    (hdims : ∀ f ∈ fs, f.letters.length ≤ 32) (htot : (out ++ rest).length ≤ 32) (hne : out ++ rest ≠ []) :
    ∃ r f', einsum K ops (fs.map (·.letters)) out = .ok r ∧ r.Denotes (out.map dim) f' ∧ ∀ idx, InB idx (out.map dim) →
      KeepsSpecial (entering out rest dim fs idx) (f' idx) := by
  obtain ⟨r, f', h1, h2, h3⟩ := transfer_einsum special_leaf hK hw hd hargs hdims htot hne
  refine ⟨r, f', h1, h2, fun idx hi => ?_⟩
  have e1 := proj_einsteinSum (RingHom.fst (ℕ × ℕ) (ℕ × ℕ)) out rest dim (fs.map (Factor.map specialLeaf)) idx
  have e2 := proj_einsteinSum (RingHom.snd (ℕ × ℕ) (ℕ × ℕ)) out rest dim (fs.map (Factor.map specialLeaf)) idx
  rw [List.map_map] at e1 e2
  exact ⟨Sticky.of_einsteinSum (Bad := Ieee.IsNaN) (e1 ▸ (h3 idx hi).1),
    Sticky.of_einsteinSum (Bad := fun x : Ieee p emax => ¬ x.Finite) (e2 ▸ (h3 idx hi).2)⟩

/-- A zero does not hide an infinity: `[0, 1] . [inf, 2]` is NaN; with a zero row the vector kernels, too, return NaN. -/
example : (do
      let r ← (Arr.fromContiguousOwnedBuffer [2] [(0 : F32), 1]).dot (Arr.fromContiguousOwnedBuffer [2] [.inf false, Ieee.ofRat 2])
      return r.buf) = .ok [.nan] := by decide +kernel
example : (do
      let r ← (Arr.fromContiguousOwnedBuffer [2, 2] [(0 : F64), 0, 1, 1]).matmul (simdSop 2)
        (Arr.fromContiguousOwnedBuffer [2, 2] [.inf true, 1, 1, Ieee.ofRat 3])
      return r.buf) = .ok [.nan, 0, .inf true, Ieee.ofRat 4] := by decide +kernel
/-- `inf - inf` is NaN: an infinity may become NaN, but not finite -/
example : (do
      let r ← (Arr.fromContiguousOwnedBuffer [3] [(.inf false : F32), .inf true, 1]).sum
      return r.buf) = .ok [.nan] := by decide +kernel
example : ∃ x ∈ elements [3] (fun i => if i = [1] then (.nan : F32) else 1), x.IsNaN := by decide
example : Reducible [3] (Arr.fromContiguousOwnedBuffer [3] [(.inf false : F32), .inf true, 1]).stride := .inr (by decide)

end Verif
