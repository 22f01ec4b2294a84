import Verif.Props.Construct
import Verif.Lemmas.IeeeNearest
import Verif.Model.NumCast

/-! # C78: numeric conversions of arrays -/

namespace Verif

variable {p emax q emax' : Nat}

/-! ### one element -/

theorem word_cast {V : Word} {y z : Int} : V.cast y = some z ↔ y = z ∧ V.Has z := by
  unfold Word.cast
  split
  · rename_i h
    rw [Option.some_inj]
    exact ⟨fun e => ⟨e, e ▸ h⟩, fun e => e.1⟩
  · rename_i h
    exact ⟨fun e => (by cases e), fun e => absurd (e.1 ▸ e.2) h⟩

/-- The specification determines the integer. -/
theorem C78_truncated_unique {x : ℚ} {y z : ℤ} (hy : IsTruncated x y) (hz : IsTruncated x z) : y = z := by
  obtain ⟨a1, a2, a3⟩ := hy
  obtain ⟨b1, b2, b3⟩ := hz
  have h1 : |(y : ℚ)| < |(z : ℚ)| + 1 := a1.trans_lt b2
  have h2 : |(z : ℚ)| < |(y : ℚ)| + 1 := b1.trans_lt a2
  have h1' : |y| < |z| + 1 := by exact_mod_cast h1
  have h2' : |z| < |y| + 1 := by exact_mod_cast h2
  have h3 : |y| = |z| := by omega
  rcases abs_eq_abs.1 h3 with h | h
  · exact h
  · subst h
    by_cases h0 : z = 0
    · simp [h0]
    exfalso
    have hz0 : (z : ℚ) ≠ 0 := by exact_mod_cast h0
    have hx : x ≠ 0 := by
      rintro rfl
      rw [abs_zero] at b1
      exact hz0 (abs_nonpos_iff.1 b1)
    push_cast at a3
    have : (z : ℚ) * x = 0 := by linarith
    exact (mul_ne_zero hz0 hx) this

example : IsTruncated (-27 / 10) (-2) := by refine ⟨?_, ?_, ?_⟩ <;> norm_num [abs]

theorem truncated_floor {m : ℚ} (h : 0 ≤ m) (s : Bool) :
    IsTruncated (Ieee.signed s m) (if s then -⌊m⌋ else ⌊m⌋) := by
  have h0 : (0 : ℚ) ≤ ⌊m⌋ := by exact_mod_cast Int.floor_nonneg.2 h
  have h1 := Int.floor_le m
  have h2 := Int.lt_floor_add_one m
  unfold IsTruncated
  cases s <;> simp only [Ieee.signed, Bool.false_eq_true, if_false, if_true, Int.cast_neg, abs_neg, neg_mul_neg, abs_of_nonneg h, abs_of_nonneg h0] <;>
    exact ⟨h1, h2, mul_nonneg h0 h⟩

theorem castInt_some {V : Word} {x : Ieee p emax} {z : Int} :
    x.castInt V = some z ↔ x.Finite ∧ IsTruncated x.val z ∧ V.Has z := by
  cases x with
  | nan => simp [Ieee.castInt, Ieee.Finite]
  | inf s => simp [Ieee.castInt, Ieee.Finite]
  | num s m h h' =>
    have ht := truncated_floor h s
    simp only [Ieee.castInt, Ieee.Finite, Ieee.val, true_and]
    rw [word_cast]
    exact ⟨fun ⟨e, hV⟩ => ⟨e ▸ ht, hV⟩, fun ⟨hz, hV⟩ => ⟨C78_truncated_unique ht hz, hV⟩⟩

/-! ### arrays -/

/-- **C78**, integers to integers: if all elements are numbers of the target type, the same numbers; otherwise a panic. -/
theorem C78_int_int {a : Arr Int} {s : List Nat} {f : List Nat → Int} (ha : a.Denotes s f) (hs : s.length ≤ 32) (V : Word) :
    ((∀ idx, InB idx s → V.Has (f idx)) → ∃ r, a.astype V.cast 0 = .ok r ∧ r.Denotes s f) ∧
      ((∃ idx, InB idx s ∧ ¬ V.Has (f idx)) → a.astype V.cast 0 = .error .panic) := by
  obtain ⟨h1, h2⟩ := C48_astype ha hs V.cast 0
  exact ⟨fun h => h1 f fun idx hi => if_pos (h idx hi), fun ⟨idx, hi, h⟩ => h2 ⟨idx, hi, if_neg h⟩⟩

/-- `i32` to `u8` -/
example : (∃ r, (Arr.fromContiguousOwnedBuffer [2, 3] ((indices [2, 3]).map fun idx => (100 * idx.getD 0 0 : Int))).astype
      (Word.cast ⟨8, false⟩) 0 = .ok r ∧ r.Denotes [2, 3] (fun idx => 100 * idx.getD 0 0)) ∧
    (Arr.fromContiguousOwnedBuffer [2, 3] ((indices [2, 3]).map fun idx => (-100 * idx.getD 0 0 : Int))).astype
      (Word.cast ⟨8, false⟩) 0 = .error .panic :=
  ⟨(C78_int_int (denotes_fromContiguous (s := [2, 3]) (f := fun idx => (100 * idx.getD 0 0 : Int))) (by decide) ⟨8, false⟩).1
      (fun idx hi => (by decide : ∀ idx ∈ indices [2, 3], (⟨8, false⟩ : Word).Has (100 * idx.getD 0 0)) idx (mem_indices.2 hi)),
    (C78_int_int (denotes_fromContiguous (s := [2, 3]) (f := fun idx => (-100 * idx.getD 0 0 : Int))) (by decide) ⟨8, false⟩).2
      ⟨[1, 0], by decide, by decide⟩⟩

/-- **C78**, floats to integers: if all elements are finite and without their fractional part numbers of the target type, these;
otherwise (a NaN, an infinity, a number too large) a panic. -/
theorem C78_float_int {a : Arr (Ieee p emax)} {s : List Nat} {f : List Nat → Ieee p emax} (ha : a.Denotes s f) (hs : s.length ≤ 32)
    (V : Word) :
    (∀ g : List Nat → Int, (∀ idx, InB idx s → (f idx).Finite ∧ IsTruncated (f idx).val (g idx) ∧ V.Has (g idx)) →
      ∃ r, a.astype (Ieee.castInt V) 0 = .ok r ∧ r.Denotes s g) ∧
    ((∃ idx, InB idx s ∧ ¬ ∃ z, (f idx).Finite ∧ IsTruncated (f idx).val z ∧ V.Has z) →
      a.astype (Ieee.castInt V) 0 = .error .panic) := by
  obtain ⟨h1, h2⟩ := C48_astype ha hs (Ieee.castInt V) 0
  refine ⟨fun g h => h1 g fun idx hi => castInt_some.2 (h idx hi), fun ⟨idx, hi, h⟩ => h2 ⟨idx, hi, ?_⟩⟩
  cases e : (f idx).castInt V with
  | none => rfl
  | some z => exact absurd ⟨z, castInt_some.1 e⟩ h

/-- `[2.5, 2.5]`, `f32` to `i8`; and a nan -/
example : (∃ r, (Arr.fromContiguousOwnedBuffer [2] ((indices [2]).map fun _ => (Ieee.ofRat (5 / 2) : F32))).astype
      (Ieee.castInt ⟨8, true⟩) 0 = .ok r ∧ r.Denotes [2] (fun _ => 2)) ∧
    (Arr.fromContiguousOwnedBuffer [2] ((indices [2]).map fun _ => (.nan : F32))).astype (Ieee.castInt ⟨8, true⟩) 0 =
      .error .panic := by
  refine ⟨(C78_float_int (denotes_fromContiguous (s := [2]) (f := fun _ => (Ieee.ofRat (5 / 2) : F32))) (by decide) ⟨8, true⟩).1 _
      fun idx _ => ?_,
    (C78_float_int (denotes_fromContiguous (s := [2]) (f := fun _ => (.nan : F32))) (by decide) ⟨8, true⟩).2
      ⟨[0], by decide, fun ⟨_, h, _⟩ => h.elim⟩⟩
  have e : (Ieee.ofRat (5 / 2) : F32).Finite ∧ (Ieee.ofRat (5 / 2) : F32).val = 5 / 2 := by decide +kernel
  refine ⟨e.1, ?_, by decide⟩
  rw [e.2]
  refine ⟨?_, ?_, ?_⟩ <;> norm_num [abs]

theorem isNumber_int [NeZero p] [NeZero emax] (hpe : p ≤ emax) {z : ℤ} (hz : |z| ≤ 2 ^ p) : IsNumber p emax (z : ℚ) := by
  have hp := Nat.pos_of_neZero p
  refine ⟨rnd_int hp hz, (onGrid_int ⟨z, rfl⟩).mono ?_, ?_⟩
  · have := Nat.pos_of_neZero emax
    unfold tiny; omega
  · have : |(z : ℚ)| ≤ 2 ^ p := by exact_mod_cast hz
    exact this.trans_lt (pow_lt_pow_right₀ (by norm_num) (by omega))

theorem ofRat_correct [NeZero p] [NeZero emax] (v : ℚ) : CorrectlyRounded (Ieee.ofRat v : Ieee p emax) v := by
  have := Ieee.pack_correct (p := p) (emax := emax) (decide (v < 0)) (abs_nonneg v)
  rwa [← Ieee.pack_abs, Ieee.signed_abs_self] at this

/-- **C78**, integers to floats: never a panic, each element is the nearest float (infinity only beyond the largest), and exactly the
number if it has at most `p` bits. -/
theorem C78_int_float [NeZero p] [NeZero emax] (hpe : p ≤ emax) {a : Arr Int} {s : List Nat} {f : List Nat → Int} (ha : a.Denotes s f)
    (hs : s.length ≤ 32) :
    ∃ (r : Arr (Ieee p emax)) (g : List Nat → Ieee p emax), a.astype Ieee.castOfInt 0 = .ok r ∧ r.Denotes s g ∧
      ∀ idx, InB idx s → CorrectlyRounded (g idx) (f idx) ∧ (|f idx| ≤ 2 ^ p → (g idx).Finite ∧ (g idx).val = f idx) := by
  obtain ⟨r, h1, h2⟩ := (C48_astype ha hs (Ieee.castOfInt (p := p) (emax := emax)) 0).1 (fun idx => Ieee.ofRat (f idx)) fun _ _ => rfl
  exact ⟨r, _, h1, h2, fun idx _ => ⟨ofRat_correct _, fun hz =>
    correctlyRounded_exact (ofRat_correct _) (Nat.pos_of_neZero p) (Nat.pos_of_neZero emax) (isNumber_int hpe hz)⟩⟩

/-- `2^25 + 1` to `f32` -/
example : ∃ (r : Arr F32) (g : List Nat → F32), (Arr.fromContiguousOwnedBuffer [2] ((indices [2]).map fun _ => (2 ^ 25 + 1 : Int))).astype
    Ieee.castOfInt 0 = .ok r ∧ r.Denotes [2] g ∧ ∀ idx, InB idx [2] →
      CorrectlyRounded (g idx) ((2 ^ 25 + 1 : Int) : ℚ) ∧ (|(2 ^ 25 + 1 : Int)| ≤ 2 ^ 24 → (g idx).Finite ∧ (g idx).val = (2 ^ 25 + 1 : Int)) :=
  C78_int_float (by decide) (denotes_fromContiguous (s := [2]) (f := fun _ => (2 ^ 25 + 1 : Int))) (by decide)

/-- The numbers of a format are numbers of every larger one. -/
theorem isNumber_widen [NeZero p] [NeZero emax] (hp : p ≤ q) (he : emax ≤ emax') {x : ℚ} (hx : IsNumber p emax x) : IsNumber q emax' x := by
  refine ⟨?_, hx.grid.mono (by unfold tiny; omega), hx.range.trans_le (pow_le_pow_right₀ (by norm_num) (by omega))⟩
  have h1 : OnGrid (-(Int.log 2 |x| + 1 - (p : ℤ))) x := ⟨roundEven (x / ulp p x), by rw [neg_neg]; exact hx.bits.symm⟩
  refine rnd_onGrid_of_le h1 ?_
  rw [neg_neg, ulp_eq]
  exact zpow_le_zpow_right₀ (by norm_num) (by omega)

theorem castFloat_eq [NeZero q] (x : Ieee p emax) : ∃ y : Ieee q emax', x.castFloat = some y ∧
    (x = .nan → y = .nan) ∧ (∀ s, x = .inf s → y = .inf s) ∧ (∀ s, x = .zero s → y = .zero s) ∧
      ([NeZero emax'] → x.Finite → CorrectlyRounded y x.val) := by
  cases x with
  | nan => exact ⟨.nan, rfl, fun _ => rfl, fun s h => (by cases h), fun s h => (by cases h), fun h => h.elim⟩
  | inf t =>
    refine ⟨.inf t, rfl, fun h => (by cases h), fun s h => ?_, fun s h => (by cases h), fun h => h.elim⟩
    cases h; rfl
  | num t m h h' =>
    refine ⟨.pack t m, rfl, fun h => (by cases h), fun s h => (by cases h), fun s e => ?_, fun _ => Ieee.pack_correct t h⟩
    unfold Ieee.zero at e
    cases e
    exact Ieee.pack_self le_rfl Ieee.isNumber_zero

/-- **C78**, floats to floats: never a panic; NaN, infinities and signed zeros are kept, other numbers become the nearest float. -/
theorem C78_float_float [NeZero q] [NeZero emax'] {a : Arr (Ieee p emax)} {s : List Nat} {f : List Nat → Ieee p emax}
    (ha : a.Denotes s f) (hs : s.length ≤ 32) :
    ∃ (r : Arr (Ieee q emax')) (g : List Nat → Ieee q emax'), a.astype Ieee.castFloat 0 = .ok r ∧ r.Denotes s g ∧
      ∀ idx, InB idx s → (f idx = .nan → g idx = .nan) ∧ (∀ t, f idx = .inf t → g idx = .inf t) ∧
        (∀ t, f idx = .zero t → g idx = .zero t) ∧ ((f idx).Finite → CorrectlyRounded (g idx) (f idx).val) := by
  choose g hg using fun idx => castFloat_eq (q := q) (emax' := emax') (f idx)
  obtain ⟨r, h1, h2⟩ := (C48_astype ha hs (Ieee.castFloat (q := q) (emax' := emax')) 0).1 g fun idx _ => (hg idx).1
  exact ⟨r, g, h1, h2, fun idx _ => ⟨(hg idx).2.1, (hg idx).2.2.1, (hg idx).2.2.2.1, (hg idx).2.2.2.2⟩⟩

/-- `f64` to `f32` -/
example (x : F64) : ∃ (r : Arr F32) (g : List Nat → F32), (Arr.fromContiguousOwnedBuffer [2] ((indices [2]).map fun _ => x)).astype
    Ieee.castFloat 0 = .ok r ∧ r.Denotes [2] g ∧ ∀ idx, InB idx [2] → (x = .nan → g idx = .nan) ∧ (∀ t, x = .inf t → g idx = .inf t) ∧
      (∀ t, x = .zero t → g idx = .zero t) ∧ (x.Finite → CorrectlyRounded (g idx) x.val) :=
  C78_float_float (denotes_fromContiguous (s := [2]) (f := fun _ => x)) (by decide)

/-! ### there and back -/

/-- **C78**: to a larger format and back (`f32` to `f64` to `f32`) nothing changes. -/
theorem C78_widen_back [NeZero p] [NeZero emax] [NeZero q] [NeZero emax'] (hp : p ≤ q) (he : emax ≤ emax') {a : Arr (Ieee p emax)} {s : List Nat}
    {f : List Nat → Ieee p emax} (ha : a.Denotes s f) (hs : s.length ≤ 32) :
    ∃ (b : Arr (Ieee q emax')) (c : Arr (Ieee p emax)), a.astype Ieee.castFloat 0 = .ok b ∧ b.astype Ieee.castFloat 0 = .ok c ∧
      c.Denotes s f ∧ ∃ g, b.Denotes s g ∧ ∀ idx, InB idx s → (f idx).Finite → (g idx).Finite ∧ (g idx).val = (f idx).val := by
  let wide : Ieee p emax → Ieee q emax' := fun
    | .nan => .nan
    | .inf t => .inf t
    | .num t m h h' => .num t m h (isNumber_widen hp he h')
  have h1 : ∀ x, Ieee.castFloat x = some (wide x) := fun x => by
    cases x with
    | nan => rfl
    | inf t => rfl
    | num t m h h' => exact congrArg some (Ieee.pack_self h _)
  have h2 : ∀ x, Ieee.castFloat (wide x) = some x := fun x => by
    cases x with
    | nan => rfl
    | inf t => rfl
    | num t m h h' => exact congrArg some (Ieee.pack_self h h')
  obtain ⟨b, e1, d1⟩ := (C48_astype ha hs Ieee.castFloat 0).1 (fun idx => wide (f idx)) fun idx _ => h1 _
  obtain ⟨c, e2, d2⟩ := (C48_astype d1 hs Ieee.castFloat 0).1 f fun idx _ => h2 _
  refine ⟨b, c, e1, e2, d2, _, d1, fun idx _ hf => ?_⟩
  cases e : f idx with
  | nan => rw [e] at hf; exact hf.elim
  | inf t => rw [e] at hf; exact hf.elim
  | num t m h h' => exact ⟨trivial, rfl⟩

/-- `f32` to `f64` and back -/
example (f : List Nat → F32) : ∃ (b : Arr F64) (c : Arr F32),
    (Arr.fromContiguousOwnedBuffer [2, 2] ((indices [2, 2]).map f)).astype Ieee.castFloat 0 = .ok b ∧
      b.astype Ieee.castFloat 0 = .ok c ∧ c.Denotes [2, 2] f :=
  let ⟨b, c, h1, h2, h3, _⟩ := C78_widen_back (q := 53) (emax' := 1023) (by decide) (by decide)
    (denotes_fromContiguous (s := [2, 2]) (f := f)) (by decide)
  ⟨b, c, h1, h2, h3⟩

/-- **C78**: integers of at most `p` bits survive the way to a float and back. -/
theorem C78_int_back [NeZero p] [NeZero emax] (hpe : p ≤ emax) {a : Arr Int} {s : List Nat} {f : List Nat → Int} (ha : a.Denotes s f)
    (hs : s.length ≤ 32) (W : Word) (hf : ∀ idx, InB idx s → W.Has (f idx) ∧ |f idx| ≤ 2 ^ p) :
    ∃ (b : Arr (Ieee p emax)) (c : Arr Int), a.astype Ieee.castOfInt 0 = .ok b ∧ b.astype (Ieee.castInt W) 0 = .ok c ∧ c.Denotes s f := by
  obtain ⟨b, g, e1, d1, hg⟩ := C78_int_float (p := p) (emax := emax) hpe ha hs
  obtain ⟨c, e2, d2⟩ := (C78_float_int d1 hs W).1 f fun idx hi => by
    obtain ⟨h1, h2⟩ := (hg idx hi).2 (hf idx hi).2
    refine ⟨h1, ?_, (hf idx hi).1⟩
    rw [h2]
    exact ⟨le_rfl, by linarith, mul_self_nonneg _⟩
  exact ⟨b, c, e1, e2, d2⟩

/-- `i32` to `f32` and back -/
example : ∃ (b : Arr F32) (c : Arr Int), (Arr.fromContiguousOwnedBuffer [2] ((indices [2]).map fun idx => (-7 : Int) + idx.headD 0)).astype
    Ieee.castOfInt 0 = .ok b ∧ b.astype (Ieee.castInt ⟨32, true⟩) 0 = .ok c ∧ c.Denotes [2] (fun idx => -7 + idx.headD 0) :=
  C78_int_back (by decide) (denotes_fromContiguous (s := [2]) (f := fun idx => (-7 : Int) + idx.headD 0)) (by decide) ⟨32, true⟩
    fun idx hi => (by decide : ∀ idx ∈ indices [2], (⟨32, true⟩ : Word).Has ((-7 : Int) + idx.headD 0) ∧
      |(-7 : Int) + idx.headD 0| ≤ 2 ^ 24) idx (mem_indices.2 hi)

/-! `i32` to `f32` and back, `f32` to `i8` and `f64` to `f32` (element 2 overflows, 3 underflows, 4 is a tie). -/

def convI : Arr Int := .fromContiguousOwnedBuffer [3] [-128, 2 ^ 24, 7]
def convF : Arr F32 := .fromContiguousOwnedBuffer [2, 2] [.ofRat (27 / 10), .ofRat (-27 / 10), .ofRat (-1 / 2), .ofRat 127]
def convD : Arr F64 :=
  .fromContiguousOwnedBuffer [5] [.nan, .inf true, .ofRat (-2 ^ 200), .ofRat (1 / 2 ^ 200), .ofRat (2 ^ 24 + 1)]

example : convI.Denotes [3] (fun idx => convI.buf.getD (idx.headD 0) 0) ∧ (∀ z ∈ convI.buf, (⟨32, true⟩ : Word).Has z ∧ |z| ≤ 2 ^ 24) ∧
    convI.astype (Word.cast ⟨8, true⟩) 0 = .error .panic ∧
    (do let b : Arr F32 ← convI.astype Ieee.castOfInt 0; let c ← b.astype (Ieee.castInt ⟨32, true⟩) 0; return c.buf) = .ok convI.buf := by
  refine ⟨⟨rfl, rfl, fun idx hi => ?_⟩, by decide, by decide, by decide +kernel⟩
  match idx, hi with
  | [0], _ => rfl
  | [1], _ => rfl
  | [2], _ => rfl

example : (do let c ← convF.astype (Ieee.castInt ⟨8, true⟩) 0; return (c.shape, c.buf)) = .ok ([2, 2], [2, -2, 0, 127]) := by decide +kernel
example : convF.astype (Ieee.castInt ⟨8, false⟩) 0 = .error .panic := by decide +kernel
example : (do let c : Arr F32 ← convD.astype Ieee.castFloat 0; return c.buf) =
    .ok [.nan, .inf true, .inf true, .zero false, .ofRat (2 ^ 24)] := by decide +kernel
example : convD.astype (Ieee.castInt ⟨64, true⟩) 0 = .error .panic := by decide +kernel
example : IsTruncated (-27 / 10) (-2) := by refine ⟨?_, ?_, ?_⟩ <;> norm_num [abs]

/-- **C78**: the bound on the round trip is needed. `i32` to `f32` and back changes `2^24 + 1`, and panics for `i32::MAX`, which becomes
`2^31`. -/
theorem C78_int_back_false :
    (do let b : Arr F32 ← (Arr.fromContiguousOwnedBuffer [1] [2 ^ 24 + 1]).astype Ieee.castOfInt 0
        let c ← b.astype (Ieee.castInt ⟨32, true⟩) 0
        return c.buf) = .ok [2 ^ 24] ∧
    (do let b : Arr F32 ← (Arr.fromContiguousOwnedBuffer [1] [2 ^ 31 - 1]).astype Ieee.castOfInt 0
        b.astype (Ieee.castInt ⟨32, true⟩) 0) = .error .panic := by
  constructor <;> decide +kernel

end Verif
