import Verif.Model.FloatMacros
import Verif.Props.Macros
import Verif.Props.Random

/-!
# C58: exactly what `assert_almost_eq!` accepts, in exact arithmetic and for IEEE floats
-/

namespace Verif

section general
variable {α : Type}

/-- What the macro does, in general: `v` is the computed maximum of the differences. -/
theorem assertAlmostEq_eq [BEq α] (d : α → α → α) (dflt : α) (lt : α → α → Bool) (bot : α) (far : α → Bool) {a b : Arr α}
    {s t r : List Nat} {f g : List Nat → α} (ha : a.Denotes s f) (hb : b.Denotes t g) (hc : Compatible s t) (hj : IsJoint s t r)
    (hd : r.length ≤ 32) :
    let v := (elements r fun idx => d (f (broadcastIndex s idx)) (g (broadcastIndex t idx))).foldl
      (fun acc x => partialMax lt x acc) bot
    (far v = false ∨ (s = t ∧ ∀ idx, InB idx s → (f idx == g idx) = true) →
      assertAlmostEq (fun x y => .ok (d x y)) dflt lt bot far a b = .ok ()) ∧
    (¬ (far v = false ∨ (s = t ∧ ∀ idx, InB idx s → (f idx == g idx) = true)) →
      assertAlmostEq (fun x y => .ok (d x y)) dflt lt bot far a b = .error .panic) := by
  intro v
  set h : List Nat → α := fun idx => d (f (broadcastIndex s idx)) (g (broadcastIndex t idx)) with hh
  have hbin : a.binOp (fun x y => .ok (d x y)) (portableKernels fun x y => .ok (d x y)) dflt b =
      .ok (Arr.fromContiguousOwnedBuffer r (elements r h)) := by
    rw [binOp_eq (portable_correct _) dflt ha hb hc hj hd trivial, mapM_id_elements (h := h) (fun _ _ => rfl)]
    rfl
  have hfr : Fresh (Arr.fromContiguousOwnedBuffer r (elements r h)) := ⟨r, _, length_elements _ _, rfl⟩
  obtain ⟨m, hm, hmd⟩ := C09_reduce_partial (partialMax lt) bot (denotes_fromContiguous (s := r) (f := h)) hd
    (reducible_history hfr .refl)
  have hs : s.length ≤ 32 := by have := hj.1; omega
  obtain ⟨e, he, heq⟩ := C22_eq ha hb hs
  have hfi : m.flatiter = .ok [v] := hmd.flatiter (by simp [maxDims])
  have key : assertAlmostEq (fun x y => .ok (d x y)) dflt lt bot far a b = if far v then assert e else .ok () := by
    unfold assertAlmostEq
    rw [hbin, ok_bind, show (Arr.fromContiguousOwnedBuffer r (elements r h)).max lt bot = .ok m from hm, ok_bind, hfi, ok_bind]
    simp only [List.head?_cons, he, ok_bind]
    rfl
  rw [key]
  refine ⟨fun hc => ?_, fun hc => ?_⟩
  · rcases hc with hc | hc
    · rw [hc]; rfl
    · rw [heq.2 hc]; split <;> rfl
  · rw [not_or] at hc
    have : e = false := by
      cases e
      · rfl
      · exact absurd (heq.1 rfl) hc.2
    rw [if_pos (by simpa using hc.1), this]; rfl

/-- The running maximum for a comparison that need not be total. -/
theorem fold_partialMax {lt : α → α → Bool} (htr : ∀ x y z, lt x y = true → lt y z = true → lt x z = true)
    (hir : ∀ x, lt x x = false) (l : List α) (acc : α) :
    let r := l.foldl (fun acc x => partialMax lt x acc) acc
    (r = acc ∨ r ∈ l ∧ lt acc r = true) ∧ ∀ x, x = acc ∨ x ∈ l → lt r x = false := by
  induction l generalizing acc with
  | nil => exact ⟨.inl rfl, fun x hx => by rcases hx with rfl | hx; exacts [hir _, by simp at hx]⟩
  | cons y l ih =>
    intro r
    rcases hlt : lt acc y with _ | _
    · have e : r = l.foldl (fun acc x => partialMax lt x acc) acc := by simp [r, partialMax, hlt]
      obtain ⟨h1, h2⟩ := ih acc
      rw [← e] at h1 h2
      refine ⟨h1.imp id fun h => ⟨List.mem_cons_of_mem _ h.1, h.2⟩, fun x hx => ?_⟩
      rcases hx with rfl | hx
      · exact h2 _ (.inl rfl)
      · rcases List.mem_cons.1 hx with rfl | hx
        · rcases h1 with h1 | h1
          · rw [h1, hlt]
          · cases hrx : lt r x
            · rfl
            · rw [htr _ _ _ h1.2 hrx] at hlt; cases hlt
        · exact h2 _ (.inr hx)
    · have e : r = l.foldl (fun acc x => partialMax lt x acc) y := by simp [r, partialMax, hlt]
      obtain ⟨h1, h2⟩ := ih y
      rw [← e] at h1 h2
      refine ⟨.inr ?_, fun x hx => ?_⟩
      · rcases h1 with h1 | h1
        · rw [h1]; exact ⟨by simp, hlt⟩
        · exact ⟨List.mem_cons_of_mem _ h1.1, htr _ _ _ hlt h1.2⟩
      · rcases hx with rfl | hx
        · cases hrx : lt r x
          · rfl
          · have := h2 y (.inl rfl)
            rw [htr _ _ _ hrx hlt] at this; cases this
        · rcases List.mem_cons.1 hx with rfl | hx
          · exact h2 _ (.inl rfl)
          · exact h2 _ (.inr hx)

end general

section exact
variable {α : Type} [AddCommGroup α] [LinearOrder α] [IsOrderedAddMonoid α]

/-- **C58, exactly**: for arrays whose shapes broadcast to a shape `r` with elements, the macro passes iff no element of the
left array exceeds that of the right one by more than `tol`, and *some* element is not below by more than `tol`. Otherwise it
panics. (`bot`, the least number of the type, is below `-tol`.) -/
theorem C58_exact (dflt bot tol : α) (ht : 0 ≤ tol) (hbt : bot < -tol) {a b : Arr α} {s t r : List Nat} {f g : List Nat → α}
    (ha : a.Denotes s f) (hb : b.Denotes t g) (hc : Compatible s t) (hj : IsJoint s t r) (hd : r.length ≤ 32)
    (hn : ∃ idx, InB idx r) :
    let diff := fun idx => f (broadcastIndex s idx) - g (broadcastIndex t idx)
    let good := (∀ idx, InB idx r → diff idx ≤ tol) ∧ ∃ idx, InB idx r ∧ -tol ≤ diff idx
    (good → almostEq dflt bot tol a b = .ok ()) ∧ (¬ good → almostEq dflt bot tol a b = .error .panic) := by
  intro diff good
  have h := assertAlmostEq_eq (fun x y : α => x - y) dflt ltb bot (fun x => decide (tol < |x|)) ha hb hc hj hd
  obtain ⟨h1, h2⟩ := fold_partialMax (lt := (ltb : α → α → Bool))
    (fun x y z hxy hyz => by simp only [ltb, decide_eq_true_eq] at *; exact lt_trans hxy hyz) (fun x => by simp [ltb])
    (elements r diff) bot
  set v := (elements r diff).foldl (fun acc x => partialMax ltb x acc) bot with hv
  have hle : ∀ idx, InB idx r → diff idx ≤ v := fun idx hi => by
    have := h2 (diff idx) (.inr (mem_elements.2 ⟨idx, hi, rfl⟩))
    simpa [ltb] using this
  have hgood : good ↔ (decide (tol < |v|) = false ∨ (s = t ∧ ∀ idx, InB idx s → (f idx == g idx) = true)) := by
    constructor
    · rintro ⟨g1, idx, hi, g2⟩
      left
      simp only [decide_eq_false_iff_not, not_lt]
      have hv1 : -tol ≤ v := le_trans g2 (hle idx hi)
      refine abs_le.2 ⟨hv1, ?_⟩
      rcases h1 with h1 | h1
      · rw [h1] at hv1; exact absurd hv1 (not_le.2 hbt)
      · obtain ⟨i, hi, e⟩ := mem_elements.1 h1.1
        rw [← e]; exact g1 i hi
    · rintro (hf | ⟨rfl, hf⟩)
      · simp only [decide_eq_false_iff_not, not_lt] at hf
        obtain ⟨hl, hu⟩ := abs_le.1 hf
        refine ⟨fun idx hi => le_trans (hle idx hi) hu, ?_⟩
        rcases h1 with h1 | h1
        · rw [h1] at hl; exact absurd hl (not_le.2 hbt)
        · obtain ⟨i, hi, e⟩ := mem_elements.1 h1.1
          exact ⟨i, hi, by rw [e]; exact hl⟩
      · have er : r = s := by
          have hj' : IsJoint s s s := ⟨by simp, fun k => by split <;> rfl⟩
          exact hj.unique hj'
        subst er
        have hz : ∀ idx, InB idx r → diff idx = 0 := fun idx hi => by
          simp only [diff]; rw [broadcastIndex_self hi, show f idx = g idx by simpa using hf idx hi, sub_self]
        obtain ⟨i, hi⟩ := hn
        exact ⟨fun idx hi => by rw [hz idx hi]; exact ht, i, hi, by rw [hz i hi]; exact neg_nonpos.2 ht⟩
  rw [hgood]
  exact h

/-- `assert_almost_eq!([[0, -100], [1, 2]], [0, 0], 2)`: the shapes broadcast, and the -100 goes unnoticed. -/
example : Compatible [2, 2] [2] ∧ IsJoint [2, 2] [2] [2, 2] ∧
    almostEq 0 (-1000000) 2 (Arr.fromContiguousOwnedBuffer [2, 2] [(0 : Int), -100, 1, 2])
      (Arr.fromContiguousOwnedBuffer [2] [0, 0]) = .ok () := by
  refine ⟨fun k => ?_, ⟨rfl, fun k => ?_⟩, by decide⟩
  · rcases k with _ | _ | k <;> simp [extentFromRight]
  · rcases k with _ | _ | k <;> simp [extentFromRight]

end exact

/-! ### IEEE floats -/

section float
variable {p emax : Nat}

theorem Ieee.lt_trans' (x y z : Ieee p emax) (h1 : x.lt y = true) (h2 : y.lt z = true) : x.lt z = true := by
  match x, y, z with
  | .nan, _, _ => simp [Ieee.lt] at h1
  | .inf _, .nan, _ => simp [Ieee.lt] at h1
  | .num .., .nan, _ => simp [Ieee.lt] at h1
  | _, .inf _, .nan => simp [Ieee.lt] at h2
  | _, .num .., .nan => simp [Ieee.lt] at h2
  | .inf s, .inf t, .inf u => simp only [Ieee.lt, Bool.and_eq_true, Bool.not_eq_true'] at *; simp_all
  | .inf s, .inf t, .num .. => simp only [Ieee.lt, Bool.and_eq_true, Bool.not_eq_true'] at *; simp_all
  | .inf s, .num .., .inf u => simp only [Ieee.lt, Bool.and_eq_true, Bool.not_eq_true'] at *; simp_all
  | .inf s, .num .., .num .. => simp only [Ieee.lt] at *; exact h1
  | .num .., .inf t, .inf u => simp only [Ieee.lt, Bool.and_eq_true, Bool.not_eq_true'] at *; simp_all
  | .num .., .inf t, .num .. => simp only [Ieee.lt, Bool.not_eq_true'] at *; simp_all
  | .num .., .num .., .inf u => simp only [Ieee.lt] at *; exact h2
  | .num .., .num .., .num .. => simp only [Ieee.lt, decide_eq_true_eq] at *; exact lt_trans h1 h2

theorem Ieee.lt_irrefl' (x : Ieee p emax) : x.lt x = false := by
  match x with
  | .nan => rfl
  | .inf s => cases s <;> rfl
  | .num .. => simp [Ieee.lt]

/-- A difference that is too large: plus infinity, or a number above `tol`. -/
def TooLarge (tol : ℚ) (x : Ieee p emax) : Prop := x = .inf false ∨ x.Finite ∧ tol < x.val

theorem far_finite {tol : ℚ} {x : Ieee p emax} (hx : x.Finite) : x.far tol = false ↔ |x.val| ≤ tol := by
  match x, hx with
  | .num s m _ _, _ => simp [Ieee.far, Ieee.val]

/-- **C58 for `f32` and `f64`, exactly**, with rounding, NaN and infinities: the macro passes iff the arrays are equal (`==`,
of the same shape), or no computed difference is too large and *some* computed difference is a number not below `-tol`.
Differences that are NaN or negative go unnoticed as soon as one element agrees. Otherwise it panics. -/
theorem C58_float_exact [NeZero p] {bot : Ieee p emax} {tol : ℚ} (hb0 : bot.Finite) (hbt : bot.val < -tol)
    {a b : Arr (Ieee p emax)} {s t r : List Nat} {f g : List Nat → Ieee p emax} (ha : a.Denotes s f) (hb : b.Denotes t g)
    (hc : Compatible s t) (hj : IsJoint s t r) (hd : r.length ≤ 32) :
    let diff := fun idx => f (broadcastIndex s idx) - g (broadcastIndex t idx)
    let good := (s = t ∧ ∀ idx, InB idx s → (f idx).feq (g idx) = true) ∨
      (∀ idx, InB idx r → ¬ TooLarge tol (diff idx)) ∧ ∃ idx, InB idx r ∧ (diff idx).Finite ∧ -tol ≤ (diff idx).val
    (good → assertAlmostEqFloat bot tol a b = .ok ()) ∧ (¬ good → assertAlmostEqFloat bot tol a b = .error .panic) := by
  intro diff good
  have h := @assertAlmostEq_eq _ ⟨Ieee.feq⟩ (fun x y : Ieee p emax => x - y) 0 Ieee.lt bot (Ieee.far tol) _ _ _ _ _ _ _ ha hb hc hj hd
  obtain ⟨h1, h2⟩ := fold_partialMax (lt := Ieee.lt (p := p) (emax := emax)) Ieee.lt_trans' Ieee.lt_irrefl' (elements r diff) bot
  set v := (elements r diff).foldl (fun acc x => partialMax Ieee.lt x acc) bot with hv
  have hkey : v.far tol = false ↔
      (∀ idx, InB idx r → ¬ TooLarge tol (diff idx)) ∧ ∃ idx, InB idx r ∧ (diff idx).Finite ∧ -tol ≤ (diff idx).val := by
    -- the maximum is a number or plus infinity
    have hvk : v.Finite ∨ v = .inf false := by
      rcases h1 with h1 | ⟨-, h1⟩
      · exact .inl (h1 ▸ hb0)
      · match bot, hb0, v, h1 with
        | .num .., _, .num .., _ => exact .inl trivial
        | .num .., _, .inf false, _ => exact .inr rfl
    have hge : ∀ idx, InB idx r → (diff idx).Finite → v.Finite → (diff idx).val ≤ v.val := fun idx hi hf hvf => by
      have := h2 _ (.inr (mem_elements.2 ⟨idx, hi, rfl⟩))
      by_contra hlt
      rw [(lt_iff hvf hf).2 (not_le.1 hlt)] at this; cases this
    constructor
    · intro hf
      have hvf : v.Finite := hvk.resolve_right fun e => by rw [e] at hf; cases hf
      have hva := abs_le.1 ((far_finite hvf).1 hf)
      refine ⟨fun idx hi hT => ?_, ?_⟩
      · rcases hT with e | ⟨hf', hgt⟩
        · have := h2 _ (.inr (mem_elements.2 ⟨idx, hi, rfl⟩))
          rw [e] at this
          match v, hvf, this with
          | .num .., _, this => simp [Ieee.lt] at this
        · exact absurd (lt_of_lt_of_le hgt (hge idx hi hf' hvf)) (not_lt.2 hva.2)
      · rcases h1 with h1 | ⟨h1, -⟩
        · rw [h1] at hva; exact absurd hva.1 (not_le.2 hbt)
        · obtain ⟨i, hi, e⟩ := mem_elements.1 h1
          exact ⟨i, hi, by rw [e]; exact ⟨hvf, hva.1⟩⟩
    · rintro ⟨g1, idx, hi, hf, g2⟩
      have hmem : v = bot ∨ ∃ i, InB i r ∧ diff i = v := h1.imp id fun h => mem_elements.1 h.1
      have hvf : v.Finite := hvk.resolve_right fun e => by
        rcases hmem with hb' | ⟨i, hi, e'⟩
        · rw [hb'] at e; rw [e] at hb0; exact hb0
        · exact g1 i hi (.inl (e'.trans e))
      rw [far_finite hvf, abs_le]
      have hv1 := le_trans g2 (hge idx hi hf hvf)
      refine ⟨hv1, ?_⟩
      rcases hmem with hb' | ⟨i, hi, e'⟩
      · rw [hb'] at hv1; exact absurd hv1 (not_le.2 hbt)
      · by_contra hgt
        exact g1 i hi (.inr (by rw [e']; exact ⟨hvf, not_le.1 hgt⟩))
  have hgood : good ↔ (v.far tol = false ∨ (s = t ∧ ∀ idx, InB idx s → (f idx).feq (g idx) = true)) := by
    rw [hkey]; exact or_comm
  rw [hgood]
  exact h

example := C58_float_exact (p := 24) (emax := 127) (bot := .ofRat (-1000)) (tol := 1 / 100) (by decide +kernel) (by decide +kernel)
  (denotes_fromContiguous (s := [2, 3]) (f := fun _ => Ieee.ofRat 7)) (denotes_fromContiguous (s := [3]) (f := fun _ => (.nan : F32)))
  (r := [2, 3]) (compatible_of_ok rfl) (joint_of_ok rfl) (by decide)

/-- **C58 is false** (4): NaN is accepted, `assert_almost_eq!([NaN, 1.0], [1.0, 1.0])` passes. -/
theorem C58_nan_false : assertAlmostEqFloat (.ofRat (-(2 ^ 128 - 2 ^ 104)) : F32) (1 / 100000)
    (Arr.fromContiguousOwnedBuffer [2] [.nan, 1]) (Arr.fromContiguousOwnedBuffer [2] [1, 1]) = .ok () := by
  decide +kernel

/-- `f32::MIN` as `bot`, the default tolerance. -/
example : (.ofRat (-(2 ^ 128 - 2 ^ 104)) : F32).Finite ∧ (.ofRat (-(2 ^ 128 - 2 ^ 104)) : F32).val < -(1 / 100000) := by
  decide +kernel
/-- Two arrays with infinities in the same places are accepted only if they are equal. -/
example : assertAlmostEqFloat (.ofRat (-(2 ^ 128 - 2 ^ 104)) : F32) (1 / 100000)
    (Arr.fromContiguousOwnedBuffer [1] [.inf false]) (Arr.fromContiguousOwnedBuffer [1] [.inf false]) = .ok () := by
  decide +kernel
example : assertAlmostEqFloat (.ofRat (-(2 ^ 128 - 2 ^ 104)) : F32) (1 / 100000)
    (Arr.fromContiguousOwnedBuffer [1] [.nan]) (Arr.fromContiguousOwnedBuffer [1] [.nan]) = .error .panic := by
  decide +kernel

/-! ### `==` on floats (C22) -/

/-- **C22** for floats: equal iff the shapes are equal and so are all pairs of elements as floats. -/
theorem C22_float {a b : Arr (Ieee p emax)} {s t : List Nat} {f g : List Nat → Ieee p emax} (ha : a.Denotes s f)
    (hb : b.Denotes t g) (hs : s.length ≤ 32) :
    ∃ r, a.eqFloat b = .ok r ∧ (r = true ↔ s = t ∧ ∀ idx, InB idx s → (f idx).feq (g idx) = true) :=
  @C22_eq _ ⟨Ieee.feq⟩ _ _ _ _ _ _ ha hb hs

example := C22_float (p := 24) (emax := 127) (denotes_fromContiguous (s := [2, 3]) (f := fun _ => (.zero true : F32)))
  (denotes_fromContiguous (s := [2, 3]) (f := fun _ => (.zero false : F32))) (by decide)

/-- Two floats are equal iff neither is NaN and they are the same infinity or numbers of the same value. -/
theorem feq_iff {x y : Ieee p emax} :
    x.feq y = true ↔ (x.Finite ∧ y.Finite ∧ x.val = y.val) ∨ ∃ s, x = .inf s ∧ y = .inf s := by
  match x, y with
  | .nan, y => simp [Ieee.feq, Ieee.Finite]
  | .inf _, .nan => simp [Ieee.feq, Ieee.Finite]
  | .num .., .nan => simp [Ieee.feq, Ieee.Finite]
  | .inf s, .inf t => cases s <;> cases t <;> simp [Ieee.feq, Ieee.Finite]
  | .inf s, .num .. => simp [Ieee.feq, Ieee.Finite]
  | .num .., .inf t => simp [Ieee.feq, Ieee.Finite]
  | .num .., .num .. => simp [Ieee.feq, Ieee.Finite, Ieee.val]

/-- **C22**: an array is equal to itself iff it contains no NaN. -/
theorem C22_self {a : Arr (Ieee p emax)} {s : List Nat} {f : List Nat → Ieee p emax} (ha : a.Denotes s f) (hs : s.length ≤ 32) :
    ∃ r, a.eqFloat a = .ok r ∧ (r = true ↔ ∀ idx, InB idx s → ¬ (f idx).IsNaN) := by
  obtain ⟨r, h1, h2⟩ := C22_float ha ha hs
  refine ⟨r, h1, h2.trans ⟨fun h idx hi e => ?_, fun h => ⟨rfl, fun idx hi => ?_⟩⟩⟩
  · have := h.2 idx hi
    rw [show f idx = .nan from e] at this; cases this
  · have := h idx hi
    rw [feq_iff]
    match f idx, this with
    | .inf s, _ => exact .inr ⟨s, rfl, rfl⟩
    | .num .., _ => exact .inl ⟨trivial, trivial, rfl⟩
    | .nan, h => exact absurd rfl h

example := C22_self (p := 24) (emax := 127) (denotes_fromContiguous (s := [2, 3]) (f := fun _ => (.nan : F32))) (by decide)

end float

end Verif
