import Verif.Lemmas.IntOps
import Verif.Lemmas.IeeeRem
import Verif.Props.Elementwise

/-!
# C77 Remainder, bitwise and shift operators and negation on arrays

`W : Word` is an integer type (`⟨8, true⟩` is `i8`, `⟨64, false⟩` is `u64`); `checks` is true in a debug build.
-/

namespace Verif

/-- `a op b` and `a op s` with the operator `f` of the element type, on arrays of numbers of the type `W`: if all pairs of elements that
meet are allowed, the result has in every position a number of the type related to the two by `result`; otherwise a panic. -/
def Behaves (W : Word) (f : Int → Int → Res Int) (allowed : Int → Int → Prop) (result : Int → Int → Int → Prop) : Prop :=
  (∀ (dflt : Int) (a b : Arr Int) (s t r : List Nat) (fa fb : List Nat → Int), a.Denotes s fa → b.Denotes t fb → Compatible s t →
    IsJoint s t r → r.length ≤ 32 → (∀ idx, W.Has (fa idx)) → (∀ idx, W.Has (fb idx)) →
    ((∀ idx, InB idx r → allowed (fa (broadcastIndex s idx)) (fb (broadcastIndex t idx))) →
      ∃ c h, a.binOp f (portableKernels f) dflt b = .ok c ∧ c.Denotes r h ∧
        ∀ idx, InB idx r → W.Has (h idx) ∧ result (fa (broadcastIndex s idx)) (fb (broadcastIndex t idx)) (h idx)) ∧
    ((∃ idx, InB idx r ∧ ¬ allowed (fa (broadcastIndex s idx)) (fb (broadcastIndex t idx))) →
      a.binOp f (portableKernels f) dflt b = .error .panic)) ∧
  ∀ (dflt v : Int) (a : Arr Int) (s : List Nat) (fa : List Nat → Int), a.Denotes s fa → s.length ≤ 32 → (∀ idx, W.Has (fa idx)) →
    W.Has v →
    ((∀ idx, InB idx s → allowed (fa idx) v) →
      ∃ c h, a.binOpScalar f (portableKernels f) dflt v = .ok c ∧ c.Denotes s h ∧
        ∀ idx, InB idx s → W.Has (h idx) ∧ result (fa idx) v (h idx)) ∧
    ((∃ idx, InB idx s ∧ ¬ allowed (fa idx) v) → a.binOpScalar f (portableKernels f) dflt v = .error .panic)

theorem behaves_of {W : Word} {f : Int → Int → Res Int} {allowed : Int → Int → Prop} {result : Int → Int → Int → Prop}
    (hok : ∀ x y, W.Has x → W.Has y → allowed x y → ∃ v, f x y = .ok v ∧ W.Has v ∧ result x y v)
    (herr : ∀ x y, W.Has x → W.Has y → ¬ allowed x y → f x y = .error .panic) (hp : ∀ x y e, f x y = .error e → e = .panic) :
    Behaves W f allowed result := by
  have pick : ∀ x y, ∃ v, W.Has x → W.Has y → allowed x y → f x y = .ok v ∧ W.Has v ∧ result x y v := fun x y => by
    by_cases h : W.Has x ∧ W.Has y ∧ allowed x y
    · obtain ⟨v, hv⟩ := hok x y h.1 h.2.1 h.2.2
      exact ⟨v, fun _ _ _ => hv⟩
    · exact ⟨0, fun h1 h2 h3 => (h ⟨h1, h2, h3⟩).elim⟩
  choose g hg using pick
  refine ⟨fun dflt a b s t r fa fb ha hb hc hj hd hra hrb => ⟨fun hall => ?_, fun ⟨idx, hi, hn⟩ => ?_⟩,
    fun dflt v a s fa ha hd hra hrv => ⟨fun hall => ?_, fun ⟨idx, hi, hn⟩ => ?_⟩⟩
  · obtain ⟨c, h1, h2⟩ := C05_elementwise f dflt ha hb hc hj hd
      (h := fun idx => g (fa (broadcastIndex s idx)) (fb (broadcastIndex t idx)))
      (fun idx hi => (hg _ _ (hra _) (hrb _) (hall idx hi)).1)
    exact ⟨c, _, h1, h2, fun idx hi => (hg _ _ (hra _) (hrb _) (hall idx hi)).2⟩
  · exact C05_operator_panics f dflt ha hb hc hj hd hp ⟨idx, _, hi, herr _ _ (hra _) (hrb _) hn⟩
  · obtain ⟨c, h1, h2⟩ := C06_scalar f dflt v ha hd (h := fun idx => g (fa idx) v)
      (fun idx hi => (hg _ _ (hra _) hrv (hall idx hi)).1)
    exact ⟨c, _, h1, h2, fun idx hi => (hg _ _ (hra _) hrv (hall idx hi)).2⟩
  · exact C06_operator_panics f dflt v ha hd hp ⟨idx, _, hi, herr _ _ (hra _) hrv hn⟩

variable {W : Word}

/-! ### remainder -/

/-- **C77.** `a % b`, in every build: the remainder with the sign of the dividend; a panic for divisors 0 and for `MIN % -1`. -/
theorem C77_rem (hw : 0 < W.width) :
    Behaves W W.rem (fun x y => y ≠ 0 ∧ ¬ (x = W.lo ∧ y = -1)) (fun x y v => IsRemainder v x y) := by
  refine behaves_of (fun x y hx hy ha => ?_) (fun x y hx hy hn => ?_) (fun x y e h => ?_)
  · refine ⟨x.tmod y, ?_, Word.remainder_has hw hx (Word.tmod_isRemainder ha.1) (Word.tmod_abs_le x y), Word.tmod_isRemainder ha.1⟩
    unfold Word.rem
    rw [if_neg ha.1, if_neg fun h => ha.2 h.2]
  · unfold Word.rem
    by_cases h0 : y = 0
    · rw [if_pos h0]
    · have h1 : x = W.lo ∧ y = -1 := by
        by_contra h
        exact hn ⟨h0, h⟩
      have hs : W.signed = true := by
        rcases hs : W.signed with _ | _
        · have := hy.1
          unfold Word.lo at this
          rw [hs] at this
          simp only [Bool.false_eq_true, if_false] at this
          omega
        · rfl
      rw [if_neg h0, if_pos ⟨hs, h1⟩]
  · unfold Word.rem at h
    split_ifs at h <;> cases h <;> rfl

example := C77_rem (W := ⟨8, true⟩) (by decide)

/-- **C77.** The remainder is determined by its description. -/
theorem C77_rem_unique {v v' x y : Int} (h : IsRemainder v x y) (h' : IsRemainder v' x y) : v = v' := by
  obtain ⟨a, b, c⟩ := h
  obtain ⟨a', b', c'⟩ := h'
  have hd : y ∣ v - v' := by
    have := Int.dvd_sub b' b
    rwa [show x - v' - (x - v) = v - v' by ring] at this
  have key : |v - v'| < |y| := by
    rcases lt_trichotomy x 0 with hx | hx | hx
    · have h1 : v ≤ 0 := by by_contra hc; have := mul_neg_of_pos_of_neg (not_le.1 hc) hx; omega
      have h2 : v' ≤ 0 := by by_contra hc; have := mul_neg_of_pos_of_neg (not_le.1 hc) hx; omega
      rw [abs_of_nonpos h1] at a
      rw [abs_of_nonpos h2] at a'
      rw [abs_lt]; constructor <;> omega
    · subst hx
      have e1 : v = 0 := by
        refine Int.eq_zero_of_abs_lt_dvd (m := |y|) ((abs_dvd y v).2 ?_) a
        rwa [zero_sub, dvd_neg] at b
      have e2 : v' = 0 := by
        refine Int.eq_zero_of_abs_lt_dvd (m := |y|) ((abs_dvd y v').2 ?_) a'
        rwa [zero_sub, dvd_neg] at b'
      rw [e1, e2, sub_zero, abs_zero]
      exact lt_of_le_of_lt (abs_nonneg v) a
    · have h1 : 0 ≤ v := by by_contra hc; have := mul_neg_of_neg_of_pos (not_le.1 hc) hx; omega
      have h2 : 0 ≤ v' := by by_contra hc; have := mul_neg_of_neg_of_pos (not_le.1 hc) hx; omega
      rw [abs_of_nonneg h1] at a
      rw [abs_of_nonneg h2] at a'
      rw [abs_lt]; constructor <;> omega
  have := Int.eq_zero_of_abs_lt_dvd (m := |y|) ((abs_dvd y _).2 hd) key
  omega

example := C77_rem_unique (v := -1) (v' := -1) (x := -7) (y := 3) (by unfold IsRemainder; decide) (by unfold IsRemainder; decide)

/-! ### bits -/

/-- **C77.** `a & b` -/
theorem C77_and (hw : 0 < W.width) :
    Behaves W W.and (fun _ _ => True) (fun x y v => ∀ i, bitAt v i ↔ bitAt x i ∧ bitAt y i) :=
  behaves_of (fun x y hx hy _ => ⟨_, rfl, Word.num_has hw _, Word.bitAt_op hw (op := And) (by simp) hx hy
    fun i _ => by rw [BitVec.getLsbD_and, Bool.and_eq_true]⟩) (fun _ _ _ _ h => (h trivial).elim) (fun _ _ _ h => by cases h)

example := C77_and (W := ⟨8, true⟩) (by decide)

/-- **C77.** `a | b` -/
theorem C77_or (hw : 0 < W.width) :
    Behaves W W.or (fun _ _ => True) (fun x y v => ∀ i, bitAt v i ↔ bitAt x i ∨ bitAt y i) :=
  behaves_of (fun x y hx hy _ => ⟨_, rfl, Word.num_has hw _, Word.bitAt_op hw (op := Or) (by simp) hx hy
    fun i _ => by rw [BitVec.getLsbD_or, Bool.or_eq_true]⟩) (fun _ _ _ _ h => (h trivial).elim) (fun _ _ _ h => by cases h)

example := C77_or (W := ⟨8, true⟩) (by decide)

/-- **C77.** A number is determined by its bits. -/
theorem C77_bits_unique {x y : Int} (h : ∀ i, bitAt x i ↔ bitAt y i) : x = y := by
  obtain ⟨n, hn⟩ : ∃ n : Nat, |x| + |y| < 2 ^ n :=
    ⟨(|x| + |y|).toNat, by
      have h0 : 0 ≤ |x| + |y| := by positivity
      have : (|x| + |y|).toNat < 2 ^ (|x| + |y|).toNat := Nat.lt_two_pow_self
      have h2 : (((|x| + |y|).toNat : Nat) : Int) < ((2 ^ (|x| + |y|).toNat : Nat) : Int) := by exact_mod_cast this
      rw [Int.toNat_of_nonneg h0] at h2
      push_cast at h2
      exact h2⟩
  let V : Word := ⟨n + 1, true⟩
  have hV : 0 < V.width := Nat.succ_pos n
  have has : ∀ z : Int, |z| ≤ |x| + |y| → V.Has z := fun z hz => by
    have h1 := abs_le.1 hz
    show -2 ^ (n + 1 - 1) ≤ z ∧ z ≤ 2 ^ (n + 1 - 1) - 1
    rw [Nat.add_sub_cancel]
    constructor <;> omega
  have hx := has x (le_add_of_nonneg_right (abs_nonneg y))
  have hy := has y (le_add_of_nonneg_left (abs_nonneg x))
  rw [← Word.num_bits hV hx, ← Word.num_bits hV hy]
  congr 1
  refine BitVec.eq_of_getLsbD_eq fun i hi => ?_
  rw [Bool.eq_iff_iff, Word.bitAt_bits hV hx hi, Word.bitAt_bits hV hy hi, h i]

/-! ### shifts -/

theorem Word.amount_cases (W : Word) (checks : Bool) (y : Int) :
    (W.amount checks y = .error .panic ∧ checks = true ∧ ¬ (0 ≤ y ∧ y < W.width)) ∨
      (W.amount checks y = .ok (y % W.width).toNat ∧ (checks = true → 0 ≤ y ∧ y < W.width)) := by
  unfold Word.amount
  by_cases h : 0 ≤ y ∧ y < W.width
  · rw [if_pos h, Int.emod_eq_of_lt h.1 h.2]; exact .inr ⟨rfl, fun _ => h⟩
  · rw [if_neg h]
    cases checks
    · exact .inr ⟨rfl, by simp⟩
    · exact .inl ⟨rfl, rfl, h⟩

/-- Shifts in both builds. -/
theorem shift_behaves (checks : Bool) {g : Int → Nat → Int} {f : Int → Int → Res Int}
    (hf : ∀ x y, f x y = (do let n ← W.amount checks y; return g x n)) (hg : ∀ x n, W.Has x → W.Has (g x n)) :
    Behaves W f (fun _ y => checks = true → 0 ≤ y ∧ y < W.width) (fun x y v => v = g x (y % W.width).toNat) := by
  refine behaves_of (fun x y hx _ ha => ?_) (fun x y _ _ hn => ?_) (fun x y e h => ?_)
  · rcases W.amount_cases checks y with ⟨_, h1, h2⟩ | ⟨h, _⟩
    · exact (h2 (ha h1)).elim
    · exact ⟨g x (y % W.width).toNat, by rw [hf, h]; rfl, hg _ _ hx, rfl⟩
  · rcases W.amount_cases checks y with ⟨h, _⟩ | ⟨_, h2⟩
    · rw [hf, h]; rfl
    · exact (hn h2).elim
  · rcases W.amount_cases checks y with ⟨h1, _⟩ | ⟨h1, _⟩
    · rw [hf, h1] at h; cases h; rfl
    · rw [hf, h1] at h; cases h

theorem Behaves.weaken {f : Int → Int → Res Int} {al al' : Int → Int → Prop} {re re' : Int → Int → Int → Prop} (h : Behaves W f al re)
    (ha : ∀ x y, al x y ↔ al' x y) (hr : ∀ x y v, W.Has x → W.Has y → al' x y → re x y v → re' x y v) : Behaves W f al' re' := by
  refine ⟨fun dflt a b s t r fa fb h1 h2 h3 h4 h5 h6 h7 => ?_, fun dflt v a s fa h1 h2 h3 h4 => ?_⟩
  · obtain ⟨k1, k2⟩ := h.1 dflt a b s t r fa fb h1 h2 h3 h4 h5 h6 h7
    refine ⟨fun hall => ?_, fun ⟨idx, hi, hn⟩ => k2 ⟨idx, hi, fun hc => hn ((ha _ _).1 hc)⟩⟩
    obtain ⟨c, g, e1, e2, e3⟩ := k1 fun idx hi => (ha _ _).2 (hall idx hi)
    exact ⟨c, g, e1, e2, fun idx hi => ⟨(e3 idx hi).1, hr _ _ _ (h6 _) (h7 _) (hall idx hi) (e3 idx hi).2⟩⟩
  · obtain ⟨k1, k2⟩ := h.2 dflt v a s fa h1 h2 h3 h4
    refine ⟨fun hall => ?_, fun ⟨idx, hi, hn⟩ => k2 ⟨idx, hi, fun hc => hn ((ha _ _).1 hc)⟩⟩
    obtain ⟨c, g, e1, e2, e3⟩ := k1 fun idx hi => (ha _ _).2 (hall idx hi)
    exact ⟨c, g, e1, e2, fun idx hi => ⟨(e3 idx hi).1, hr _ _ _ (h3 _) h4 (hall idx hi) (e3 idx hi).2⟩⟩

theorem shl_behaves (hw : 0 < W.width) (checks : Bool) :
    Behaves W (W.shl checks) (fun _ y => checks = true → 0 ≤ y ∧ y < W.width)
      (fun x y v => v = W.num (W.bits x <<< (y % W.width).toNat)) :=
  shift_behaves checks (fun _ _ => rfl) (fun _ _ _ => Word.num_has hw _)

theorem shr_behaves (hw : 0 < W.width) (checks : Bool) :
    Behaves W (W.shr checks) (fun _ y => checks = true → 0 ≤ y ∧ y < W.width)
      (fun x y v => v = W.num (if W.signed then (W.bits x).sshiftRight (y % W.width).toNat else W.bits x >>> (y % W.width).toNat)) :=
  shift_behaves checks (fun _ _ => rfl) (fun _ _ _ => Word.num_has hw _)

/-- **C77.** `a << b` in a debug build. -/
theorem C77_shl_debug (hw : 0 < W.width) :
    Behaves W (W.shl true) (fun _ y => 0 ≤ y ∧ y < W.width) (fun x y v => IsWrapped W.lo W.hi v (x * 2 ^ y.toNat)) :=
  (shl_behaves hw true).weaken (fun _ _ => by simp) fun x y v _ _ ha hv => by
    rw [hv, Int.emod_eq_of_lt ha.1 ha.2]; exact Word.shl_wraps hw x _

example := C77_shl_debug (W := ⟨8, true⟩) (by decide)

/-- **C77.** `a << b` in a release build: never a panic; the amount is taken modulo the width. -/
theorem C77_shl_release (hw : 0 < W.width) :
    Behaves W (W.shl false) (fun _ _ => True) (fun x y v => ∃ k : Nat, k < W.width ∧ (k : Int) ≡ y [ZMOD W.width] ∧
      IsWrapped W.lo W.hi v (x * 2 ^ k)) :=
  (shl_behaves hw false).weaken (fun _ _ => by simp) fun x y v _ _ _ hv => by
    have h0 := Int.emod_nonneg y (b := W.width) (by omega)
    have h1 := Int.emod_lt_of_pos y (b := W.width) (by omega)
    refine ⟨(y % W.width).toNat, by omega, ?_, by rw [hv]; exact Word.shl_wraps hw x _⟩
    rw [Int.toNat_of_nonneg h0]; exact Int.mod_modEq _ _

example := C77_shl_release (W := ⟨8, true⟩) (by decide)

/-- **C77.** `a >> b` in a debug build: the quotient by a power of two, rounded down. -/
theorem C77_shr_debug (hw : 0 < W.width) :
    Behaves W (W.shr true) (fun _ y => 0 ≤ y ∧ y < W.width) (fun x y v => 2 ^ y.toNat * v ≤ x ∧ x < 2 ^ y.toNat * (v + 1)) :=
  (shr_behaves hw true).weaken (fun _ _ => by simp) fun x y v hx _ ha hv => by
    rw [hv, Int.emod_eq_of_lt ha.1 ha.2, Word.shr_div hw hx]
    exact ⟨Int.mul_ediv_self_le (by positivity), by
      have := Int.lt_mul_ediv_self_add (x := x) (k := 2 ^ y.toNat) (by positivity)
      rw [mul_add, mul_one]; exact this⟩

example := C77_shr_debug (W := ⟨8, true⟩) (by decide)

/-- **C77.** `a >> b` in a release build. -/
theorem C77_shr_release (hw : 0 < W.width) :
    Behaves W (W.shr false) (fun _ _ => True) (fun x y v => ∃ k : Nat, k < W.width ∧ (k : Int) ≡ y [ZMOD W.width] ∧
      2 ^ k * v ≤ x ∧ x < 2 ^ k * (v + 1)) :=
  (shr_behaves hw false).weaken (fun _ _ => by simp) fun x y v hx _ _ hv => by
    have h0 := Int.emod_nonneg y (b := W.width) (by omega)
    have h1 := Int.emod_lt_of_pos y (b := W.width) (by omega)
    refine ⟨(y % W.width).toNat, by omega, ?_, ?_⟩
    · rw [Int.toNat_of_nonneg h0]; exact Int.mod_modEq _ _
    · rw [hv, Word.shr_div hw hx]
      exact ⟨Int.mul_ediv_self_le (by positivity), by
        have := Int.lt_mul_ediv_self_add (x := x) (k := 2 ^ (y % W.width).toNat) (by positivity)
        rw [mul_add, mul_one]; exact this⟩

example := C77_shr_release (W := ⟨8, true⟩) (by decide)

/-! ### negation -/

theorem Word.neg_fits (hs : W.signed = true) {x : Int} (hx : W.Has x) (hm : x ≠ W.lo) : W.Has (-x) := by
  unfold Has lo hi at *
  rw [hs] at *
  simp only [if_true] at *
  constructor <;> omega

theorem Word.neg_lo (hs : W.signed = true) : ¬ W.Has (-W.lo) := by
  unfold Has lo hi
  rw [hs]
  simp only [if_true]
  omega

/-- **C77.** `-a` of a signed type without `MIN` among the elements: the exact negations, in either build. -/
theorem C77_neg (hs : W.signed = true) (checks : Bool) (dflt : Int) {a : Arr Int} {s : List Nat}
    {fa : List Nat → Int} (ha : a.Denotes s fa) (hd : s.length ≤ 32) (hr : ∀ idx, W.Has (fa idx))
    (hm : ∀ idx, InB idx s → fa idx ≠ W.lo) :
    ∃ c, a.neg (W.neg checks) (portableNeg (W.neg checks)) dflt = .ok c ∧ c.Denotes s (fun idx => -fa idx) ∧
      ∀ idx, InB idx s → W.Has (-fa idx) := by
  have hf := fun idx hi => Word.neg_fits hs (hr idx) (hm idx hi)
  obtain ⟨c, h1, h2⟩ := C07_neg (W.neg checks) dflt ha hd (h := fun idx => -fa idx) (fun idx hi => intResult_fits checks (hf idx hi))
  exact ⟨c, h1, h2, hf⟩

example := C77_neg (W := ⟨8, true⟩) rfl true 0 (denotes_fromContiguous (s := [2, 3]) (f := fun i => if i.getD 0 0 = 0 then 127 else -127))
  (by decide) (fun i => by split <;> decide) (fun i _ => by split <;> decide)

/-- **C77.** `-a` with `MIN` among the elements, in a debug build: a panic. -/
theorem C77_neg_panics (hs : W.signed = true) (dflt : Int) {a : Arr Int} {s : List Nat} {fa : List Nat → Int} (ha : a.Denotes s fa)
    (hd : s.length ≤ 32) (hm : ∃ idx, InB idx s ∧ fa idx = W.lo) :
    a.neg (W.neg true) (portableNeg (W.neg true)) dflt = .error .panic := by
  obtain ⟨idx, hi, he⟩ := hm
  have hpanic : W.neg true (fa idx) = .error .panic := by
    rw [he]; exact intResult_panic (Word.neg_lo hs)
  rw [neg_eq (portableNeg_correct _) dflt ha hd trivial, mapM_id_panic ⟨.panic, mem_elements.2 ⟨idx, hi, hpanic⟩⟩]
  · rfl
  · intro e he'
    obtain ⟨_, _, h'⟩ := mem_elements.1 he'
    exact intResult_errors _ h'

example := C77_neg_panics (W := ⟨8, true⟩) rfl 0 (denotes_fromContiguous (s := [2, 3]) (f := fun i => if i.getD 0 0 = 0 then 127 else -128))
  (by decide) ⟨[1, 2], by decide, by decide⟩

/-- **C77.** `-a` in a release build: the exact negations, but `MIN` stays `MIN`. -/
theorem C77_neg_release (hw : 0 < W.width) (hs : W.signed = true) (dflt : Int) {a : Arr Int} {s : List Nat} {fa : List Nat → Int}
    (ha : a.Denotes s fa) (hd : s.length ≤ 32) (hr : ∀ idx, W.Has (fa idx)) :
    ∃ c, a.neg (W.neg false) (portableNeg (W.neg false)) dflt = .ok c ∧
      c.Denotes s (fun idx => if fa idx = W.lo then W.lo else -fa idx) := by
  refine C07_neg (W.neg false) dflt ha hd fun idx _ => ?_
  split
  · rename_i he
    rw [he]
    unfold Word.neg intResult
    rw [if_neg (show ¬ (W.lo ≤ -W.lo ∧ -W.lo ≤ W.hi) from Word.neg_lo hs)]
    have e : (-W.lo - W.lo) % (W.hi - W.lo + 1) = 0 := by
      rw [Word.size_eq hw]
      obtain ⟨n, hn⟩ : ∃ n, W.width = n + 1 := ⟨W.width - 1, by omega⟩
      unfold Word.lo
      rw [hs, hn]
      simp only [if_true, Nat.add_sub_cancel, neg_neg]
      rw [show (2 : Int) ^ n - -2 ^ n = 2 ^ (n + 1) by ring, Int.emod_self]
    rw [e]
    simp
  · rename_i he
    exact intResult_fits false (Word.neg_fits hs (hr idx) he)

example := C77_neg_release (W := ⟨8, true⟩) (by decide) rfl 0
  (denotes_fromContiguous (s := [2, 3]) (f := fun i => if i.getD 0 0 = 0 then 127 else -128)) (by decide)
  (fun i => by split <;> decide)

/-! ### `%` on floats -/

variable {p emax : Nat} [NeZero p]

/-- **C77.** `a % b` on float arrays: finite elements with a divisor that is not 0 have the exact remainder; it is never rounded. -/
theorem C77_float_rem (dflt : Ieee p emax) {a b : Arr (Ieee p emax)} {s t r : List Nat} {fa fb : List Nat → Ieee p emax}
    (ha : a.Denotes s fa) (hb : b.Denotes t fb) (hc : Compatible s t) (hj : IsJoint s t r) (hd : r.length ≤ 32) :
    ∃ c h, a.binOp (fun x y => .ok (x.rem y)) (portableKernels fun x y => .ok (x.rem y)) dflt b = .ok c ∧ c.Denotes r h ∧
      ∀ idx, InB idx r → ∀ x y, fa (broadcastIndex s idx) = x → fb (broadcastIndex t idx) = y → x.Finite → y.Finite → y.val ≠ 0 →
        (h idx).Finite ∧ IsRemainderQ (h idx).val x.val y.val := by
  obtain ⟨c, h1, h2⟩ := C05_elementwise (fun x y => .ok (Ieee.rem x y)) dflt ha hb hc hj hd (fun _ _ => rfl)
  refine ⟨c, _, h1, h2, fun idx _ x y ex ey hx hy h0 => ?_⟩
  subst ex; subst ey
  exact Ieee.rem_exact hx hy h0

example := C77_float_rem (p := 24) (emax := 127) .nan
  (denotes_fromContiguous (s := [2, 3]) (f := fun i => if i.getD 0 0 = 0 then Ieee.ofRat 7 else Ieee.inf true))
  (denotes_fromContiguous (s := [3]) (f := fun _ => Ieee.ofRat 2)) (r := [2, 3]) (compatible_of_ok rfl) (joint_of_ok rfl) (by decide)

/-- **C77.** The exceptional cases: NaN for infinite dividends and zero divisors, the dividend itself for infinite divisors. -/
theorem C77_float_rem_special (dflt : Ieee p emax) {a b : Arr (Ieee p emax)} {s t r : List Nat} {fa fb : List Nat → Ieee p emax}
    (ha : a.Denotes s fa) (hb : b.Denotes t fb) (hc : Compatible s t) (hj : IsJoint s t r) (hd : r.length ≤ 32) :
    ∃ c h, a.binOp (fun x y => .ok (x.rem y)) (portableKernels fun x y => .ok (x.rem y)) dflt b = .ok c ∧ c.Denotes r h ∧
      ∀ idx, InB idx r → ∀ x y, fa (broadcastIndex s idx) = x → fb (broadcastIndex t idx) = y →
        (¬ x.Finite ∨ y.IsNaN ∨ (y.Finite ∧ y.val = 0) → (h idx).IsNaN) ∧ (x.Finite → (∃ n, y = .inf n) → h idx = x) := by
  obtain ⟨c, h1, h2⟩ := C05_elementwise (fun x y => .ok (Ieee.rem x y)) dflt ha hb hc hj hd (fun _ _ => rfl)
  refine ⟨c, _, h1, h2, fun idx _ x y ex ey => ?_⟩
  subst ex; subst ey
  generalize fa (broadcastIndex s idx) = x
  generalize fb (broadcastIndex t idx) = y
  refine ⟨fun h => ?_, fun hx ⟨n, hy⟩ => ?_⟩
  · cases x with
    | nan => rfl
    | inf => rfl
    | num s x hx hx' =>
      cases y with
      | nan => rfl
      | inf n => rcases h with h | h | h
                 · exact (h trivial).elim
                 · cases h
                 · exact h.1.elim
      | num t y hy hy' =>
        rcases h with h | h | h
        · exact (h trivial).elim
        · cases h
        · have h0 : Ieee.signed t y = 0 := h.2
          have : y = 0 := by
            unfold Ieee.signed at h0
            split at h0
            · linarith
            · exact h0
          show (if y = 0 then Ieee.nan else _) = Ieee.nan
          rw [if_pos this]
  · subst hy
    cases x with
    | nan => exact hx.elim
    | inf => exact hx.elim
    | num => rfl

example := C77_float_rem_special (p := 24) (emax := 127) .nan
  (denotes_fromContiguous (s := [2, 3]) (f := fun i => if i.getD 0 0 = 0 then Ieee.ofRat 7 else Ieee.inf true))
  (denotes_fromContiguous (s := [3]) (f := fun _ => Ieee.ofRat 2)) (r := [2, 3]) (compatible_of_ok rfl) (joint_of_ok rfl) (by decide)

/-! ### examples -/

/-- `i8` -/
example : (Word.lo ⟨8, true⟩, Word.hi ⟨8, true⟩) = (-128, 127) := by decide
example : (Word.lo ⟨32, false⟩, Word.hi ⟨32, false⟩) = (0, 4294967295) := by decide
/-- `[-7, 7] % [3, -3]` -/
example : ∃ c, (Arr.fromContiguousOwnedBuffer [2] [-7, 7]).binOp (Word.rem ⟨8, true⟩) (portableKernels (Word.rem ⟨8, true⟩)) 0
    (Arr.fromContiguousOwnedBuffer [2] [3, -3]) = .ok c ∧ c.flatiter = .ok [-1, 1] := ⟨_, rfl, rfl⟩
example : IsRemainder (-1) (-7) 3 ∧ IsRemainder 1 7 (-3) := by unfold IsRemainder; decide
/-- `[-128] % [-1]` panics. -/
example : (Arr.fromContiguousOwnedBuffer [1] [-128]).binOp (Word.rem ⟨8, true⟩) (portableKernels (Word.rem ⟨8, true⟩)) 0
    (Arr.fromContiguousOwnedBuffer [1] [-1]) = .error .panic := rfl
/-- `[-127, 5] & -3`, `[-128, 4] | 3` -/
example : ∃ c, (Arr.fromContiguousOwnedBuffer [2] [-127, 5]).binOpScalar (Word.and ⟨8, true⟩) (portableKernels (Word.and ⟨8, true⟩)) 0
    (-3) = .ok c ∧ c.flatiter = .ok [-127, 5] := ⟨_, rfl, rfl⟩
example : ∃ c, (Arr.fromContiguousOwnedBuffer [2] [-128, 4]).binOpScalar (Word.or ⟨8, true⟩) (portableKernels (Word.or ⟨8, true⟩)) 0
    3 = .ok c ∧ c.flatiter = .ok [-125, 7] := ⟨_, rfl, rfl⟩
example : bitAt (-125) 1 ∧ ¬ bitAt (-125) 2 ∧ bitAt (-125) 100 := by unfold bitAt; decide
/-- `[100, -100] << 1`; shifting by 9 panics in a debug build and shifts by 1 in a release build. -/
example : ∃ c, (Arr.fromContiguousOwnedBuffer [2] [100, -100]).binOpScalar (Word.shl ⟨8, true⟩ true)
    (portableKernels (Word.shl ⟨8, true⟩ true)) 0 1 = .ok c ∧ c.flatiter = .ok [-56, 56] := ⟨_, rfl, rfl⟩
example : (Arr.fromContiguousOwnedBuffer [2] [100, -100]).binOpScalar (Word.shl ⟨8, true⟩ true)
    (portableKernels (Word.shl ⟨8, true⟩ true)) 0 9 = .error .panic := rfl
example : ∃ c, (Arr.fromContiguousOwnedBuffer [2] [100, -100]).binOpScalar (Word.shl ⟨8, true⟩ false)
    (portableKernels (Word.shl ⟨8, true⟩ false)) 0 9 = .ok c ∧ c.flatiter = .ok [-56, 56] := ⟨_, rfl, rfl⟩
/-- `[-7, 7] >> 1` -/
example : ∃ c, (Arr.fromContiguousOwnedBuffer [2] [-7, 7]).binOpScalar (Word.shr ⟨8, true⟩ true)
    (portableKernels (Word.shr ⟨8, true⟩ true)) 0 1 = .ok c ∧ c.flatiter = .ok [-4, 3] := ⟨_, rfl, rfl⟩
example : ∃ c, (Arr.fromContiguousOwnedBuffer [2] [-128, 7]).neg (Word.neg ⟨8, true⟩ false) (portableNeg (Word.neg ⟨8, true⟩ false)) 0 =
    .ok c ∧ c.flatiter = .ok [-128, -7] := ⟨_, rfl, rfl⟩
example : (Arr.fromContiguousOwnedBuffer [2] [-128, 7]).neg (Word.neg ⟨8, true⟩ true) (portableNeg (Word.neg ⟨8, true⟩ true)) 0 =
    .error .panic := rfl
example : IsRemainderQ (-1 / 2) (-7 / 2) (3 / 2) := by
  refine ⟨by norm_num, ⟨-2, by norm_num⟩, by norm_num⟩

end Verif
