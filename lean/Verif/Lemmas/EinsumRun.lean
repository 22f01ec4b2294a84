import Verif.Lemmas.Sop
import Verif.Lemmas.Layout

/-! Lemmas: the einsum loops add up the products over the whole iteration space. -/

namespace Verif

open Finset

variable {α : Type}

/-! ### sums over an iteration space -/

/-- Sum of `g v` over all points of an iteration space given by its axes: extent and step of every operand. -/
def sumOver {M : Type} [AddCommMonoid M] : List (Nat × (Nat → Nat)) → ((Nat → Nat) → M) → M
  | [], g => g (fun _ => 0)
  | (n, s) :: axes, g => ∑ i ∈ range n, sumOver axes (fun v => g (fun o => i * s o + v o))

/-- `P v` at all points of an iteration space. -/
def allOver : List (Nat × (Nat → Nat)) → ((Nat → Nat) → Prop) → Prop
  | [], P => P (fun _ => 0)
  | (n, s) :: axes, P => ∀ i < n, allOver axes (fun v => P (fun o => i * s o + v o))

theorem sumOver_congr {M : Type} [AddCommMonoid M] {axes : List (Nat × (Nat → Nat))} {g h : (Nat → Nat) → M}
    (e : allOver axes (fun v => g v = h v)) : sumOver axes g = sumOver axes h := by
  induction axes generalizing g h with
  | nil => exact e
  | cons a axes ih =>
    obtain ⟨n, s⟩ := a
    exact Finset.sum_congr rfl fun i hi => ih (e i (by simpa using hi))

theorem allOver_mono {axes : List (Nat × (Nat → Nat))} {P Q : (Nat → Nat) → Prop} (h : ∀ v, P v → Q v)
    (e : allOver axes P) : allOver axes Q := by
  induction axes generalizing P Q with
  | nil => exact h _ e
  | cons a axes ih =>
    obtain ⟨n, s⟩ := a
    exact fun i hi => ih (fun v hv => h _ hv) (e i hi)

theorem allOver_and {axes : List (Nat × (Nat → Nat))} {P Q : (Nat → Nat) → Prop}
    (h : allOver axes P) (h' : allOver axes Q) : allOver axes (fun v => P v ∧ Q v) := by
  induction axes generalizing P Q with
  | nil => exact ⟨h, h'⟩
  | cons a axes ih =>
    obtain ⟨n, s⟩ := a
    exact fun i hi => ih (h i hi) (h' i hi)

theorem sumOver_perm {M : Type} [AddCommMonoid M] {axes axes' : List (Nat × (Nat → Nat))} (h : axes.Perm axes')
    (g : (Nat → Nat) → M) : sumOver axes g = sumOver axes' g := by
  induction h generalizing g with
  | nil => rfl
  | cons a _ ih =>
    obtain ⟨n, s⟩ := a
    exact Finset.sum_congr rfl fun i _ => ih _
  | swap a b l =>
    obtain ⟨n, s⟩ := a
    obtain ⟨m, t⟩ := b
    simp only [sumOver]
    rw [Finset.sum_comm]
    simp only [Nat.add_left_comm]
  | trans _ _ ih1 ih2 => rw [ih1, ih2]

theorem allOver_perm {axes axes' : List (Nat × (Nat → Nat))} (h : axes.Perm axes')
    (P : (Nat → Nat) → Prop) : allOver axes P ↔ allOver axes' P := by
  induction h generalizing P with
  | nil => rfl
  | cons a _ ih =>
    obtain ⟨n, s⟩ := a
    exact forall_congr' fun i => forall_congr' fun _ => ih _
  | swap a b l =>
    obtain ⟨n, s⟩ := a
    obtain ⟨m, t⟩ := b
    simp only [allOver]
    constructor
    · intro h i hi j hj
      have := h j hj i hi
      simpa only [Nat.add_left_comm] using this
    · intro h i hi j hj
      have := h j hj i hi
      simpa only [Nat.add_left_comm] using this
  | trans _ _ ih1 ih2 => rw [ih1, ih2]

/-- position vector of a multi-index -/
def vec : List Nat → List (Nat → Nat) → Nat → Nat
  | i :: idx, s :: ss => fun o => i * s o + vec idx ss o
  | _, _ => fun _ => 0

theorem sumOver_eq {M : Type} [AddCommMonoid M] {shape : List Nat} {ss : List (Nat → Nat)}
    (hl : ss.length = shape.length) (g : (Nat → Nat) → M) :
    sumOver (shape.zip ss) g = ((indices shape).map fun idx => g (vec idx ss)).sum := by
  induction shape generalizing ss g with
  | nil => cases ss <;> simp [sumOver, vec]
  | cons n shape ih =>
    cases ss with
    | nil => simp at hl
    | cons s ss =>
      simp only [List.zip_cons_cons, sumOver, indices]
      have key : ∀ (m : Nat), ∑ i ∈ range m, sumOver (shape.zip ss) (fun v => g (fun o => i * s o + v o)) =
          (((List.range m).flatMap fun i => (indices shape).map (i :: ·)).map fun idx => g (vec idx (s :: ss))).sum := by
        intro m
        induction m with
        | zero => simp
        | succ m ihm =>
          rw [Finset.sum_range_succ, ihm, List.range_succ, List.flatMap_append, List.map_append, List.sum_append,
            ih (by simpa using hl)]
          simp [List.map_map, Function.comp_def, vec]
      exact key n

theorem allOver_iff {shape : List Nat} {ss : List (Nat → Nat)}
    (hl : ss.length = shape.length) (P : (Nat → Nat) → Prop) :
    allOver (shape.zip ss) P ↔ ∀ idx, InB idx shape → P (vec idx ss) := by
  induction shape generalizing ss P with
  | nil =>
    cases ss with
    | cons => simp at hl
    | nil =>
      constructor
      · intro h idx hidx
        cases idx with
        | nil => exact h
        | cons => exact hidx.elim
      · intro h; exact h [] trivial
  | cons n shape ih =>
    cases ss with
    | nil => simp at hl
    | cons s ss =>
      simp only [List.zip_cons_cons, allOver, ih (show ss.length = shape.length by simpa using hl)]
      constructor
      · intro h idx hidx
        cases idx with
        | nil => exact hidx.elim
        | cons i idx => exact h i hidx.1 idx hidx.2
      · intro h i hi idx hidx
        exact h (i :: idx) ⟨hi, hidx⟩

/-! ### choice of the kernel -/

variable [SumProduct α]

theorem getLastD_eq_fn {s : List Nat} {n : Nat} (h : s.length = n + 1) : s.getLastD 0 = fn s n := by
  rw [fn, List.getLastD_eq_getLast?, List.getLast?_eq_getElem?, h, List.getD_eq_getElem?_getD]
  rfl

theorem fallback_ok {ops : List (Src α)} {s : List Nat} {count q : Nat} {dst : List α}
    (hs : s.length = ops.length + 1) (hc : 0 < count) (h1 : ∀ k < count, InV ops (fun i => k * fn s i))
    (h2 : ∀ k < count, q + k * fn s ops.length < dst.length) :
    (if s.getLastD 0 = 0 then (sopOutStride0 : SopKernel α) else sopGeneric) ops s count dst q =
      .ok (addFn dst (sopValue ops s count q)) := by
  rw [getLastD_eq_fn hs]
  split
  · exact sopOutStride0_ok hs (by assumption) hc h1 h2
  · exact sopGeneric_ok hs hc h1 h2

theorem getSopGeneric_ok {ops : List (Src α)} {s : List Nat} {count q : Nat} {dst : List α}
    (hs : s.length = ops.length + 1) (hc : 0 < count) (h1 : ∀ k < count, InV ops (fun i => k * fn s i))
    (h2 : ∀ k < count, q + k * fn s ops.length < dst.length) :
    getSopGeneric s ops s count dst q = .ok (addFn dst (sopValue ops s count q)) :=
  fallback_ok hs hc h1 h2

theorem sopValue_two (a b : Src α) (s0 s1 s2 count q : Nat) :
    sopValue [a, b] [s0, s1, s2] count q =
      ∑ k ∈ range count, hit (q + k * s2) (a.1.getD (a.2 + k * s0) 0 * b.1.getD (b.2 + k * s1) 0) := by
  obtain ⟨a, p⟩ := a
  obtain ⟨b, p'⟩ := b
  simp [sopValue, prodF, fn]

theorem assume_bind {β : Type} {c : Bool} (h : c = true) (f : Unit → Res β) : (assume c >>= f) = f () := by
  rw [assume, if_pos h]; rfl

theorem getSop_ok {K : SopKernels α} (hK : K.Correct) {ops : List (Src α)} {s : List Nat} {count q : Nat}
    {dst : List α} (hs : s.length = ops.length + 1) (hc : 0 < count)
    (h1 : ∀ k < count, InV ops (fun i => k * fn s i))
    (h2 : ∀ k < count, q + k * fn s ops.length < dst.length) (hlive : ∀ o ∈ ops, LiveBuf o.1) :
    getSop K s ops s count dst q = .ok (addFn dst (sopValue ops s count q)) := by
  have hf := fallback_ok (q := q) (dst := dst) hs hc h1 h2
  by_cases h3 : s.length = 3
  · match s, h3 with
    | [s0, s1, s2], _ =>
      match ops, hs with
      | [(a, p), (b, p')], _ =>
        have ha : ∀ k < count, p + k * s0 < a.length := fun k hk => (h1 k hk).1
        have hb : ∀ k < count, p' + k * s1 < b.length := fun k hk => (h1 k hk).2.1
        have hq : ∀ k < count, q + k * s2 < dst.length := fun k hk => h2 k hk
        have ha0 := ha 0 hc
        have hb0 := hb 0 hc
        have hq0 := hq 0 hc
        have ha1 := ha (count - 1) (by omega)
        have hb1 := hb (count - 1) (by omega)
        have hq1 := hq (count - 1) (by omega)
        rw [sopValue_two] at hf ⊢
        have e : getSop K [s0, s1, s2] = match strideCode s0 4 + strideCode s1 2 + strideCode s2 1 with
            | 2 => sop010 K
            | 3 => sop011 K
            | 4 => sop100 K
            | 5 => sop101 K
            | 6 => sop110 K
            | 7 => sop111
            | _ => (if [s0, s1, s2].getLastD 0 = 0 then (sopOutStride0 : SopKernel α) else sopGeneric) := rfl
        rw [e]
        have c0 : (s0 = 0 ∨ s0 = 1) ∨ (s0 ≠ 0 ∧ s0 ≠ 1) := by omega
        have c1 : (s1 = 0 ∨ s1 = 1) ∨ (s1 ≠ 0 ∧ s1 ≠ 1) := by omega
        have c2 : (s2 = 0 ∨ s2 = 1) ∨ (s2 ≠ 0 ∧ s2 ≠ 1) := by omega
        rcases c0 with (rfl | rfl) | ⟨n0, n0'⟩ <;> rcases c1 with (rfl | rfl) | ⟨n1, n1'⟩ <;>
          rcases c2 with (rfl | rfl) | ⟨n2, n2'⟩ <;> simp only [strideCode, if_true, one_ne_zero, if_false, *] <;>
          first
            | exact hf
            | skip
        · -- 0 1 0
          show (assume (decide _) >>= fun _ => _) = _
          rw [assume_bind (by simp)]
          rw [bufLoad_getD (by omega)]
          show K.scaledArray _ b p' dst q count = _
          rw [hK.scaledArray hc (by omega) (by omega),
            (mul_sum_live hc fun k hk => (hlive (b, p') (by simp)).getD (i := p' + k) (show p' + k < b.length by have := hb k hk; omega)).1, hit_sum]
          simp
        · -- 0 1 1
          show (assume (decide _) >>= fun _ => _) = _
          rw [assume_bind (by simp)]
          rw [bufLoad_getD (by omega)]
          show K.muladd _ b p' dst q count = _
          rw [hK.muladd hc (by omega) (by omega)]
          simp
        · -- 1 0 0
          show (assume (decide _) >>= fun _ => _) = _
          rw [assume_bind (by simp)]
          rw [bufLoad_getD (by omega)]
          show K.scaledArray _ a p dst q count = _
          rw [hK.scaledArray hc (by omega) (by omega),
            (mul_sum_live hc fun k hk => (hlive (a, p) (by simp)).getD (i := p + k) (show p + k < a.length by have := ha k hk; omega)).1, hit_sum]
          simp [mul_comm]
        · -- 1 0 1
          show (assume (decide _) >>= fun _ => _) = _
          rw [assume_bind (by simp)]
          rw [bufLoad_getD (by omega)]
          show K.muladd _ a p dst q count = _
          rw [hK.muladd hc (by omega) (by omega)]
          simp [mul_comm]
        · -- 1 1 0
          show (assume (decide _) >>= fun _ => _) = _
          rw [assume_bind (by simp)]
          rw [assume_bind (by simpa using hc)]
          show K.dot a p b p' dst q count = _
          rw [hK.dot hc (by omega) (by omega) (by omega), hit_sum]
          simp
        · -- 1 1 1
          show (assume (decide _) >>= fun _ => _) = _
          rw [assume_bind (by simp)]
          rw [assume_bind (by simpa using hc)]
          show sop111Loop a b count p p' dst q = _
          rw [sop111Loop_ok (by omega) (by omega) (by omega)]
          simp
  · have e : getSop K s = (if s.getLastD 0 = 0 then (sopOutStride0 : SopKernel α) else sopGeneric) := by
      match s, h3 with
      | [], _ => rfl
      | [_], _ => rfl
      | [_, _], _ => rfl
      | [_, _, _], h => exact (h rfl).elim
      | _ :: _ :: _ :: _ :: _, _ => rfl
    rw [e]; exact hf

/-! ### the generator of several flat indices -/

/-- countdown form of a multi-index -/
def countdown (shape idx : List Nat) : List Nat := List.zipWith (fun n i => n - i) shape idx

theorem zipWith_add_range (F : Nat → Nat) (s : List Nat) :
    List.zipWith (· + ·) ((List.range s.length).map F) s = (List.range s.length).map fun o => F o + fn s o := by
  apply List.ext_getElem
  · simp
  · intro i h1 h2
    simp at h1
    simp [fn, h1]

theorem subAll_map {m : Nat} (F G : Nat → Nat) (h : ∀ o < m, G o ≤ F o) :
    subAll ((List.range m).map F) ((List.range m).map G) = .ok ((List.range m).map fun o => F o - G o) := by
  have key : ∀ l : List Nat, (∀ o ∈ l, G o ≤ F o) → subAll (l.map F) (l.map G) = .ok (l.map fun o => F o - G o) := by
    intro l
    induction l with
    | nil => intro _; rfl
    | cons o l ih =>
      intro hl
      simp only [List.map_cons, subAll]
      rw [ih fun o ho => hl o (by simp [ho])]
      simp only [usub, hl o (by simp), if_true]
      rfl
  exact key _ fun o ho => h o (by simpa using ho)

theorem map_eq_range (s : List Nat) (c : Nat) : s.map (· * c) = (List.range s.length).map fun o => fn s o * c := by
  apply List.ext_getElem
  · simp
  · intro i h1 h2
    simp at h1
    simp [fn, h1]

theorem vec_zeros (k : Nat) (ss : List (Nat → Nat)) : vec (List.replicate k 0) ss = fun _ => 0 := by
  induction k generalizing ss with
  | zero => rfl
  | succ k ih => cases ss <;> simp [List.replicate_succ, vec, ih]

theorem countdown_zeros (s : List Nat) : countdown s (List.replicate s.length 0) = s := by
  induction s with
  | nil => rfl
  | cons n s ih => simpa [countdown, List.replicate_succ] using ih

omit [SumProduct α] in
theorem multiAdvance_spec {s idx : List Nat} {strides : List (List Nat)} {m : Nat} {B : Nat → Nat}
    (hl : strides.length = s.length) (hr : ∀ r ∈ strides, r.length = m) (h : InB idx s) :
    multiAdvance (countdown s idx) s strides ((List.range m).map fun o => B o + vec idx (strides.map fn) o) =
      .ok (if rank idx s + 1 < numel s then
        (countdown s (unrank s (rank idx s + 1)),
          (List.range m).map fun o => B o + vec (unrank s (rank idx s + 1)) (strides.map fn) o, false)
      else (countdown s (List.replicate s.length 0), (List.range m).map B, true)) := by
  induction s generalizing strides idx B with
  | nil => cases idx with
    | nil => simp [multiAdvance, rank, countdown, vec]
    | cons => exact h.elim
  | cons n s ih => cases idx with
    | nil => exact h.elim
    | cons i idx => cases strides with
      | nil => simp at hl
      | cons d st =>
        obtain ⟨hi, hidx⟩ := h
        simp at hl
        have hd : d.length = m := hr d (by simp)
        have hrk := rank_lt hidx
        have ih' := ih (B := fun o => B o + i * fn d o) hl (fun r hr' => hr r (by simp [hr'])) hidx
        simp only [countdown, List.zipWith_cons_cons, multiAdvance, List.map_cons, vec]
        simp only [countdown, Nat.add_assoc] at ih'
        rw [ih']
        by_cases hc : rank idx s + 1 < numel s
        · have e1 : (i * numel s + rank idx s + 1) / numel s = i := by
            rw [Nat.add_assoc, Nat.mul_comm, Nat.mul_add_div (by omega), Nat.div_eq_of_lt hc, Nat.add_zero]
          have e2 : (i * numel s + rank idx s + 1) % numel s = rank idx s + 1 := by
            rw [Nat.add_assoc, Nat.mul_comm, Nat.mul_add_mod, Nat.mod_eq_of_lt hc]
          have e3 : i * numel s + rank idx s + 1 < n * numel s := by
            have := Nat.mul_le_mul_right (numel s) (show i + 1 ≤ n from hi)
            rw [Nat.add_mul, Nat.one_mul] at this; omega
          rw [if_pos hc, if_pos (show rank (i :: idx) (n :: s) + 1 < numel (n :: s) from e3)]
          simp only [rank, unrank, List.zipWith_cons_cons]
          rw [e1, e2]
          rfl
        · have hs : numel s = rank idx s + 1 := by omega
          rw [if_neg hc]
          have e0 : i * numel s + rank idx s + 1 = (i + 1) * numel s := by
            rw [Nat.add_mul, Nat.one_mul]; omega
          simp only [rank, numel_cons, unrank, e0]
          show (usub (n - i) 1 >>= fun i' => _) = _
          have hu : usub (n - i) 1 = .ok (n - i - 1) := by simp [usub]; omega
          rw [hu]
          show (if n - i - 1 ≠ 0 then _ else _) = _
          by_cases hn : i + 1 < n
          · have e3 : (i + 1) * numel s < n * numel s := Nat.mul_lt_mul_of_pos_right hn (by omega)
            rw [if_pos (by omega), if_pos e3, Nat.mul_div_cancel (i+1) (show 0 < numel s by omega),
              Nat.mul_mod_left, unrank_zero]
            subst hd
            rw [zipWith_add_range]
            simp only [List.zipWith_cons_cons, vec_zeros, vec, Nat.add_zero]
            have e4 : n - i - 1 = n - (i + 1) := by omega
            rw [e4]
            simp only [Nat.add_mul, Nat.one_mul, Nat.add_assoc]
            rfl
          · have hin : i + 1 = n := by omega
            have hnn : ¬ (i + 1) * numel s < n * numel s := by rw [hin]; omega
            rw [if_neg (by omega), if_neg hnn]
            subst hd
            rw [map_eq_range, subAll_map _ _ (fun o _ => by
              have : n - 1 = i := by omega
              rw [this, Nat.mul_comm]; omega)]
            simp only [List.length_cons, List.replicate_succ, List.zipWith_cons_cons, Nat.sub_zero]
            have e5 : ∀ o, B o + i * fn d o - fn d o * (n - 1) = B o := by
              intro o
              have : n - 1 = i := by omega
              rw [this, Nat.mul_comm]; omega
            simp only [e5]
            rfl

/-- state of the generator at a multi-index -/
def MultiGen.at (shape : List Nat) (strides : List (List Nat)) (m k : Nat) : MultiGen :=
  { shape, strides, indices := countdown shape (if k < numel shape then unrank shape k else List.replicate shape.length 0)
    flat := (List.range m).map fun o => if k < numel shape then vec (unrank shape k) (strides.map fn) o else 0 }

omit [SumProduct α] in
theorem MultiGen.increment_at {shape : List Nat} {strides : List (List Nat)} {m k : Nat}
    (hl : strides.length = shape.length) (hr : ∀ r ∈ strides, r.length = m) (hk : k < numel shape) :
    (MultiGen.at shape strides m k).increment = .ok (MultiGen.at shape strides m (k + 1)) := by
  have h := multiAdvance_spec (B := fun _ => 0) hl hr (InB_unrank hk)
  rw [rank_unrank hk] at h
  simp only [Nat.zero_add] at h
  simp only [MultiGen.increment, MultiGen.at, hk, if_true]
  rw [h]
  split <;> rfl

omit [SumProduct α] in
theorem MultiGen.from_ok {shape : List Nat} {strides : List (List Nat)} {m : Nat}
    (hl : strides.length = shape.length) (hm : m ≤ maxArgs) (hd : shape.length ≤ maxDims) (hp : 0 < numel shape) :
    MultiGen.from m shape strides = .ok (MultiGen.at shape strides m 0) := by
  show (assert (decide _) >>= fun _ => assert (decide _) >>= fun _ => assert (decide _) >>= fun _ => _) = _
  simp only [assert, hl, hm, hd, decide_true, if_true]
  show Except.ok _ = Except.ok _
  simp only [MultiGen.at, hp, if_true, unrank_zero, vec_zeros]
  congr 2
  · show shape = countdown shape _
    rw [countdown_zeros]
  · simp

theorem einsumLoop_ok {kernel : SopKernel α} {ops : List (Src α)} {inner : List Nat} {count q : Nat}
    {shape : List Nat} {strides : List (List Nat)} {len : Nat} {V : (Nat → Nat) → Nat → α}
    (hl : strides.length = shape.length) (hr : ∀ r ∈ strides, r.length = ops.length + 1)
    (hk : ∀ idx, InB idx shape → ∀ d : List Nat, d.length = ops.length + 1 → (∀ o ≤ ops.length, fn d o = vec idx (strides.map fn) o) →
      ∀ dst : List α, dst.length = len →
      kernel (shiftOps ops d) inner count dst (q + fn d ops.length) = .ok (addFn dst (V (vec idx (strides.map fn))))) :
    ∀ (n k : Nat) (dst : List α), dst.length = len → k + n = numel shape →
    einsumLoop kernel ops inner count q n (MultiGen.at shape strides (ops.length + 1) k) dst =
      .ok (addFn dst (∑ j ∈ range n, V (vec (unrank shape (k + j)) (strides.map fn)))) := by
  intro n
  induction n with
  | zero => intro k dst _ _; simp [einsumLoop]
  | succ n ih =>
    intro k dst hdst hkn
    have hlt : k < numel shape := by omega
    simp only [einsumLoop]
    have hflat : ∀ o ≤ ops.length, fn (MultiGen.at shape strides (ops.length + 1) k).flat o =
        vec (unrank shape k) (strides.map fn) o := by
      intro o ho
      simp [MultiGen.at, hlt, fn, Nat.lt_succ_of_le ho]
    have := hk _ (InB_unrank hlt) (MultiGen.at shape strides (ops.length + 1) k).flat (by simp [MultiGen.at]) hflat dst hdst
    simp only [fn] at this
    rw [this, MultiGen.increment_at hl hr hlt]
    show einsumLoop kernel ops inner count q n (MultiGen.at shape strides (ops.length + 1) (k + 1)) _ = _
    rw [ih (k + 1) _ (by simpa using hdst) (by omega), addFn_addFn, Finset.sum_range_succ' _ n, add_comm]
    simp only [Nat.add_zero, show ∀ a k, a + 1 + k = a + (k + 1) from fun a k => by omega]

/-! ### the whole loop nest -/

/-- what the loop nest has to add to the destination -/
def einsumValue (ops : List (Src α)) (axes : List (Nat × (Nat → Nat))) (q : Nat) : Nat → α :=
  sumOver axes fun v => hit (q + v ops.length) (prodF ops v)

/-- the axes of a plan -/
def axesOf (shape : List Nat) (strides : List (List Nat)) : List (Nat × (Nat → Nat)) := shape.zip (strides.map fn)

theorem fn_map_mul (s : List Nat) (i o : Nat) : fn (s.map (i * ·)) o = i * fn s o := by
  simp only [fn, List.getD_eq_getElem?_getD, List.getElem?_map]
  cases s[o]? <;> simp

theorem sopValue_shift {ops : List (Src α)} {d s : List Nat} (hd : ops.length ≤ d.length) (count q : Nat) :
    sopValue (shiftOps ops d) s count q =
      ∑ k ∈ range count, hit (q + k * fn s ops.length) (prodF ops (fun i => k * fn s i + fn d i)) := by
  simp only [sopValue, length_shiftOps hd]
  refine Finset.sum_congr rfl fun k _ => ?_
  rw [prodF_shift hd]
  simp only [Nat.add_comm]

theorem live_shiftOps {ops : List (Src α)} (h : ∀ o ∈ ops, LiveBuf o.1) (d : List Nat) : ∀ o ∈ shiftOps ops d, LiveBuf o.1 := by
  intro o ho
  obtain ⟨i, hi, rfl⟩ := List.mem_iff_getElem.1 ho
  simp only [shiftOps, List.getElem_zipWith]
  exact h _ (List.getElem_mem _)

/-- one call of the inner kernel -/
theorem kernel_at {kernel : SopKernel α} {s : List Nat}
    (hk : ∀ {ops : List (Src α)} {count q : Nat} {dst : List α}, s.length = ops.length + 1 → 0 < count →
      (∀ k < count, InV ops (fun i => k * fn s i)) → (∀ k < count, q + k * fn s ops.length < dst.length) →
      (∀ o ∈ ops, LiveBuf o.1) → kernel ops s count dst q = .ok (addFn dst (sopValue ops s count q)))
    {ops : List (Src α)} {d : List Nat} {v : Nat → Nat} {count q : Nat} {dst : List α}
    (hs : s.length = ops.length + 1) (hd : d.length = ops.length + 1) (hc : 0 < count)
    (hv : ∀ o ≤ ops.length, fn d o = v o)
    (h : ∀ k < count, InV ops (fun o => k * fn s o + v o) ∧
      q + (k * fn s ops.length + v ops.length) < dst.length) (hlive : ∀ o ∈ ops, LiveBuf o.1) :
    kernel (shiftOps ops d) s count dst (q + fn d ops.length) =
      .ok (addFn dst (∑ k ∈ range count,
        hit (q + (k * fn s ops.length + v ops.length)) (prodF ops (fun o => k * fn s o + v o)))) := by
  have hd' : ops.length ≤ d.length := by omega
  rw [hk (by rw [length_shiftOps hd']; exact hs) hc]
  · rw [sopValue_shift hd']
    congr 2
    refine Finset.sum_congr rfl fun k _ => ?_
    rw [hv _ (Nat.le_refl _)]
    congr 1
    · omega
    · exact prodF_congr fun i hi => by rw [hv i (by omega)]
  · intro k hk'
    rw [InV_shift hd']
    exact (InV_congr fun i hi => by rw [hv i (by omega), Nat.add_comm]).1 (h k hk').1
  · intro k hk'
    rw [length_shiftOps hd', hv _ (Nat.le_refl _)]
    have := (h k hk').2
    omega
  · exact live_shiftOps hlive d

theorem numel_pos {s : List Nat} (h : ∀ n ∈ s, 0 < n) : 0 < numel s := by
  induction s with
  | nil => simp
  | cons n s ih => exact Nat.mul_pos (h n (by simp)) (ih fun m hm => h m (by simp [hm]))

theorem einsumUnspecialized_ok {ops : List (Src α)} {plan : EinsumPlan} {dst : List α} {q : Nat}
    (hl : plan.strides.length = plan.iterShape.length) (hr : ∀ r ∈ plan.strides, r.length = ops.length + 1)
    (hpos : ∀ n ∈ plan.iterShape, 0 < n) (hne : plan.iterShape ≠ []) (hops : ops.length < maxArgs)
    (hdims : plan.iterShape.length ≤ maxDims)
    (h : allOver (axesOf plan.iterShape plan.strides) fun v => InV ops v ∧ q + v ops.length < dst.length)
    (hlive : ∀ o ∈ ops, LiveBuf o.1) :
    einsumUnspecialized ops plan dst q =
      .ok (addFn dst (einsumValue ops (axesOf plan.iterShape plan.strides) q)) := by
  obtain ⟨strides, iterShape, outShape⟩ := plan
  match iterShape, strides, hl with
  | [], _, _ => exact (hne rfl).elim
  | n :: shape, inner :: strides, hl =>
    simp only [einsumUnspecialized]
    have hpos' : 0 < numel shape := numel_pos fun m hm => hpos m (by simp [hm])
    have hl' : strides.length = shape.length := by simpa using hl
    rw [MultiGen.from_ok hl' (by omega) (by simp at hdims; omega) hpos']
    show einsumLoop _ ops inner n q (numel shape) _ dst = _
    have hr' : ∀ r ∈ strides, r.length = ops.length + 1 := fun r hr' => hr r (by simp [hr'])
    simp only [axesOf, List.map_cons, List.zip_cons_cons, allOver] at h
    rw [einsumLoop_ok (V := fun v => ∑ k ∈ range n,
        hit (q + (k * fn inner ops.length + v ops.length)) (prodF ops (fun o => k * fn inner o + v o)))
        hl' hr' (len := dst.length) ?_ _ _ dst rfl (by simp)]
    · congr 2
      simp only [einsumValue, axesOf, List.map_cons, List.zip_cons_cons, sumOver, Nat.zero_add]
      rw [Finset.sum_comm]
      refine Finset.sum_congr rfl fun k _ => ?_
      rw [sumOver_eq (by simpa using hl'), indices_eq_unrank, List.map_map]
      rw [Finset.sum_eq_multiset_sum]
      rfl
    · intro idx hidx d hd hv dst' hdst'
      refine kernel_at (fun {ops count q dst} h0 h1 h2 h3 _ => getSopGeneric_ok h0 h1 h2 h3) (hr inner (by simp)) hd
        (hpos n (by simp)) hv ?_ hlive
      intro k hk
      have := (allOver_iff (by simpa using hl') _).1 (h k hk) idx hidx
      rw [hdst']
      exact this

theorem einsum2labels_ok {K : SopKernels α} (hK : K.Correct) {ops : List (Src α)} {s0 s1 : List Nat} {n0 n1 q : Nat}
    {dst : List α} (h0 : s0.length = ops.length + 1) (h1 : s1.length = ops.length + 1) (p0 : 0 < n0) (p1 : 0 < n1)
    (h : allOver [(n0, fn s0), (n1, fn s1)] fun v => InV ops v ∧ q + v ops.length < dst.length)
    (hlive : ∀ o ∈ ops, LiveBuf o.1) :
    einsum2labels K ops s0 s1 n0 n1 dst q =
      .ok (addFn dst (einsumValue ops [(n0, fn s0), (n1, fn s1)] q)) := by
  show (assume _ >>= fun _ => assume _ >>= fun _ => _) = _
  rw [assume_bind (by simpa using p0), assume_bind (by simpa using p1)]
  rw [foldlM_addFn (m := dst.length) (C := fun i => ∑ k ∈ range n0,
        hit (q + (k * fn s0 ops.length + i * fn s1 ops.length)) (prodF ops (fun o => k * fn s0 o + i * fn s1 o)))
        ?_ _ rfl]
  · congr 2
    simp only [einsumValue, sumOver, Nat.add_zero]
    rw [Finset.sum_comm]
  · intro dst' i hi hdst'
    have := kernel_at (fun {ops count q dst} h0 h1 h2 h3 h4 => getSop_ok (α := α) hK h0 h1 h2 h3 h4) (ops := ops) (d := s1.map (i * ·))
      (v := fun o => i * fn s1 o) (q := q) (dst := dst') h0 (by simpa using h1) p0 (fun o _ => fn_map_mul _ _ _) (by
        intro k hk
        have := h k hk i hi
        rw [hdst']
        simpa [allOver] using this) hlive
    rw [fn_map_mul] at this
    exact this

theorem einsum3labels_ok {K : SopKernels α} (hK : K.Correct) {ops : List (Src α)} {s0 s1 s2 : List Nat}
    {n0 n1 n2 q : Nat} {dst : List α} (h0 : s0.length = ops.length + 1) (h1 : s1.length = ops.length + 1)
    (h2 : s2.length = ops.length + 1) (p0 : 0 < n0) (p1 : 0 < n1) (p2 : 0 < n2)
    (h : allOver [(n0, fn s0), (n1, fn s1), (n2, fn s2)] fun v => InV ops v ∧ q + v ops.length < dst.length)
    (hlive : ∀ o ∈ ops, LiveBuf o.1) :
    einsum3labels K ops s0 s1 s2 n0 n1 n2 dst q =
      .ok (addFn dst (einsumValue ops [(n0, fn s0), (n1, fn s1), (n2, fn s2)] q)) := by
  show (assume _ >>= fun _ => assume _ >>= fun _ => assume _ >>= fun _ => _) = _
  rw [assume_bind (by simpa using p0), assume_bind (by simpa using p1), assume_bind (by simpa using p2)]
  have hfn : ∀ i j o : Nat, o ≤ ops.length → fn (List.zipWith (fun x y => i * x + j * y) s2 s1) o = i * fn s2 o + j * fn s1 o := by
    intro i j o ho
    have e2 : o < s2.length := by omega
    have e1 : o < s1.length := by omega
    simp [fn, List.getElem?_zipWith, List.getElem?_eq_getElem e1, List.getElem?_eq_getElem e2]
  rw [foldlM_addFn (m := dst.length) (C := fun i => ∑ j ∈ range n1, ∑ k ∈ range n0,
        hit (q + (k * fn s0 ops.length + (i * fn s2 ops.length + j * fn s1 ops.length)))
          (prodF ops (fun o => k * fn s0 o + (i * fn s2 o + j * fn s1 o))))
        ?_ _ rfl]
  · congr 2
    simp only [einsumValue, sumOver, Nat.add_zero]
    rw [Finset.sum_comm]
    rw [Finset.sum_congr rfl fun j _ => Finset.sum_comm]
    rw [Finset.sum_comm]
    refine Finset.sum_congr rfl fun k _ => Finset.sum_congr rfl fun j _ => Finset.sum_congr rfl fun i _ => ?_
    simp only [Nat.add_comm (i * _)]
  · intro dst' i hi hdst'
    refine foldlM_addFn (m := dst.length) ?_ _ hdst'
    intro dst'' j hj hdst''
    have := kernel_at (fun {ops count q dst} h0 h1 h2 h3 h4 => getSop_ok (α := α) hK h0 h1 h2 h3 h4) (ops := ops)
      (d := List.zipWith (fun x y => i * x + j * y) s2 s1)
      (v := fun o => i * fn s2 o + j * fn s1 o) (q := q) (dst := dst'') h0 (by simp [h1, h2]) p0
      (fun o ho => hfn i j o ho) (by
        intro k hk
        have := h k hk j hj i hi
        rw [hdst'']
        simp only [allOver, Nat.add_zero] at this
        simpa only [Nat.add_comm (j * _)] using this) hlive
    rw [hfn i j _ (Nat.le_refl _)] at this
    exact this

/-- The loops of einsum, whichever is chosen, add the sum of products over the iteration space. -/
theorem einsumRun_ok {K : SopKernels α} (hK : K.Correct) {ops : List (Src α)} {plan : EinsumPlan} {dst : List α} {q : Nat}
    (hl : plan.strides.length = plan.iterShape.length) (hr : ∀ r ∈ plan.strides, r.length = ops.length + 1)
    (hpos : ∀ n ∈ plan.iterShape, 0 < n) (hne : plan.iterShape ≠ []) (hops : ops.length < maxArgs)
    (hdims : plan.iterShape.length ≤ maxDims)
    (h : allOver (axesOf plan.iterShape plan.strides) fun v => InV ops v ∧ q + v ops.length < dst.length)
    (hlive : ∀ o ∈ ops, LiveBuf o.1) :
    einsumRun K ops plan dst q =
      .ok (addFn dst (einsumValue ops (axesOf plan.iterShape plan.strides) q)) := by
  have hu := einsumUnspecialized_ok hl hr hpos hne hops hdims h hlive
  unfold einsumRun
  split
  · obtain ⟨strides, iterShape, outShape⟩ := plan
    dsimp only at *
    split
    · exact einsum2labels_ok hK (hr _ (by simp)) (hr _ (by simp)) (hpos _ (by simp)) (hpos _ (by simp)) h hlive
    · exact einsum3labels_ok hK (hr _ (by simp)) (hr _ (by simp)) (hr _ (by simp)) (hpos _ (by simp))
        (hpos _ (by simp)) (hpos _ (by simp)) h hlive
    · exact hu
  · exact hu

end Verif
