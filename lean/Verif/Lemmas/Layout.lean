import Verif.Model.Layout
import Verif.Lemmas.Index

/-! Lemmas: strides, merging of dimensions, the odometer. -/

set_option linter.unusedSimpArgs false

namespace Verif

/-! ### row-major strides -/

theorem strideAux_snd (s : List Nat) : (strideAux s).2 = numel s := by
  induction s with
  | nil => rfl
  | cons n s ih => simp [strideAux, ih, Nat.mul_comm]

@[simp] theorem strideFromShape_nil : strideFromShape [] = [] := rfl

@[simp] theorem strideFromShape_cons (n : Nat) (s : List Nat) :
    strideFromShape (n :: s) = numel s :: strideFromShape s := by
  simp [strideFromShape, strideAux, strideAux_snd]

@[simp] theorem length_strideFromShape (s : List Nat) : (strideFromShape s).length = s.length := by
  induction s with
  | nil => rfl
  | cons n s ih => simp [ih]

theorem offset_strideFromShape {idx s : List Nat} (h : idx.length = s.length) :
    offset idx (strideFromShape s) = rank idx s := by
  induction s generalizing idx with
  | nil => cases idx <;> simp [rank]
  | cons n s ih => cases idx with
    | nil => simp [rank]
    | cons i idx => simp at h; simp [rank, ih h]

theorem offsets_strideFromShape (s : List Nat) : offsets s (strideFromShape s) = List.range (numel s) := by
  rw [offsets_eq_range]
  apply List.ext_getElem (by simp)
  intro k h1 h2
  simp at h1
  simp [offset_strideFromShape (length_unrank s k), rank_unrank h1]

/-! ### merging of dimensions -/

theorem flatMap_range_mul (f : Nat → List α) (n m : Nat) :
    (List.range n).flatMap (fun i => (List.range m).flatMap fun j => f (i * m + j)) =
      (List.range (n * m)).flatMap f := by
  induction n with
  | zero => simp
  | succ n ih =>
    rw [List.range_succ, List.flatMap_append, ih, Nat.succ_mul, List.range_add, List.flatMap_append]
    simp [List.flatMap_map]

theorem offsets_merge (cn n d : Nat) (s st : List Nat) :
    offsets (cn :: n :: s) (n * d :: d :: st) = offsets (cn * n :: s) (d :: st) := by
  simp only [offsets_cons, List.map_flatMap]
  rw [← flatMap_range_mul]
  congr 1; funext i; congr 1; funext j
  simp only [List.map_map]
  apply List.map_congr_left
  intro x _
  simp only [Function.comp, Nat.add_mul, Nat.mul_assoc, Nat.add_assoc]

theorem offsets_merge_one (n d : Nat) (s st : List Nat) :
    offsets (1 :: n :: s) (0 :: d :: st) = offsets (1 * n :: s) (d :: st) := by
  simp only [offsets_cons, Nat.one_mul]
  simp [List.range_one]

theorem offsets_collapseAux (cn cd : Nat) (s st : List Nat) (h : s.length = st.length) :
    offsets (collapseAux cn cd s st).1 (collapseAux cn cd s st).2 = offsets (cn :: s) (cd :: st) := by
  induction s generalizing cn cd st with
  | nil => cases st with
    | nil => simp [collapseAux]
    | cons => simp at h
  | cons n s ih => cases st with
    | nil => simp at h
    | cons d st =>
      simp at h
      unfold collapseAux
      split
      · rename_i hc
        rw [ih _ _ _ h]
        rcases hc with rfl | ⟨rfl, rfl⟩
        · rw [offsets_merge]
        · rw [offsets_merge_one]
      · simp only [offsets_cons cn cd]
        rw [ih _ _ _ h]

/-- Merging dimensions never changes the sequence of memory positions, for any shape and strides. -/
theorem offsets_collapse {s st : List Nat} (h : s.length = st.length) :
    offsets (collapseToUniformStride s st).1 (collapseToUniformStride s st).2 = offsets s st := by
  cases s with
  | nil => cases st with
    | nil => rfl
    | cons => simp at h
  | cons n s => cases st with
    | nil => simp at h
    | cons d st => simp at h; exact offsets_collapseAux n d s st h

theorem length_collapseAux (cn cd : Nat) (s st : List Nat) :
    (collapseAux cn cd s st).1.length = (collapseAux cn cd s st).2.length ∧
    (collapseAux cn cd s st).1.length ≤ s.length + 1 ∧ 0 < (collapseAux cn cd s st).1.length := by
  induction s generalizing cn cd st with
  | nil => simp [collapseAux]
  | cons n s ih => cases st with
    | nil => simp [collapseAux]
    | cons d st =>
      unfold collapseAux
      split
      · have := ih (cn * n) d st; simp only [List.length_cons]; omega
      · have := ih n d st; simp only [List.length_cons]; omega

theorem length_collapse (s st : List Nat) :
    (collapseToUniformStride s st).1.length = (collapseToUniformStride s st).2.length ∧
    (collapseToUniformStride s st).1.length ≤ s.length := by
  cases s with
  | nil => simp [collapseToUniformStride]
  | cons n s => cases st with
    | nil => simp [collapseToUniformStride]
    | cons d st =>
      have := length_collapseAux n d s st
      simp only [collapseToUniformStride, List.length_cons]; omega

theorem numel_collapse {s st : List Nat} (h : s.length = st.length) :
    numel (collapseToUniformStride s st).1 = numel s := by
  rw [← length_offsets _ (collapseToUniformStride s st).2, offsets_collapse h, length_offsets]

/-! ### the odometer -/

theorem odometer_spec {s st idx : List Nat} {base : Nat} (hl : s.length = st.length) (h : InB idx s) :
    odometer s st idx (base + offset idx st) =
      if rank idx s + 1 < numel s then
        (unrank s (rank idx s + 1), base + offset (unrank s (rank idx s + 1)) st, false)
      else (List.replicate s.length 0, base, true) := by
  induction s generalizing st idx base with
  | nil => cases idx with
    | nil => simp [odometer, rank]
    | cons => exact h.elim
  | cons n s ih => cases idx with
    | nil => exact h.elim
    | cons i idx => cases st with
      | nil => simp at hl
      | cons d st =>
        obtain ⟨hi, hidx⟩ := h
        simp at hl
        have hr := rank_lt hidx
        simp only [odometer, offset_cons]
        rw [← Nat.add_assoc, ih hl hidx]
        by_cases hc : rank idx s + 1 < numel s
        · have e1 : (i * numel s + rank idx s + 1) / numel s = i := by
            rw [Nat.add_assoc, Nat.mul_comm, Nat.mul_add_div (by omega), Nat.div_eq_of_lt hc, Nat.add_zero]
          have e2 : (i * numel s + rank idx s + 1) % numel s = rank idx s + 1 := by
            rw [Nat.add_assoc, Nat.mul_comm, Nat.mul_add_mod, Nat.mod_eq_of_lt hc]
          have e3 : i * numel s + rank idx s + 1 < n * numel s := by
            have := Nat.mul_le_mul_right (numel s) (show i + 1 ≤ n from hi)
            rw [Nat.add_mul, Nat.one_mul] at this; omega
          rw [if_pos hc, if_pos (show rank (i :: idx) (n :: s) + 1 < numel (n :: s) from e3)]
          simp only [rank, unrank, offset_cons]
          rw [e1, e2, Nat.add_assoc]
        · have hs : numel s = rank idx s + 1 := by omega
          rw [if_neg hc]
          have e0 : i * numel s + rank idx s + 1 = (i + 1) * numel s := by
            rw [Nat.add_mul, Nat.one_mul]; omega
          simp only [rank, numel_cons, unrank, e0]
          by_cases hn : i + 1 < n
          · have e3 : (i + 1) * numel s < n * numel s := Nat.mul_lt_mul_of_pos_right hn (by omega)
            have u0 : ∀ t : List Nat, unrank t 0 = List.replicate t.length 0 := by
              intro t; induction t with
              | nil => rfl
              | cons m t iht => simp [unrank, iht, List.replicate_succ]
            have o0 : ∀ (k : Nat) (t : List Nat), offset (List.replicate k 0) t = 0 := by
              intro k; induction k with
              | zero => simp
              | succ k ihk => intro t; cases t <;> simp [List.replicate_succ, ihk]
            rw [if_pos hn, if_pos e3, Nat.mul_div_cancel (i+1) (show 0 < numel s by omega), Nat.mul_mod_left, u0,
              offset_cons, o0, Nat.add_mul, Nat.one_mul, Nat.add_assoc]
            rfl
          · have hin : i + 1 = n := by omega
            have : ¬ (i + 1) * numel s < n * numel s := by rw [hin]; omega
            simp only [hn, this, if_false, List.length_cons, List.replicate_succ]
            have : base + i * d - d * (n - 1) = base := by
              have : n - 1 = i := by omega
              rw [this, Nat.mul_comm]; omega
            rw [this]

theorem unrank_zero (t : List Nat) : unrank t 0 = List.replicate t.length 0 := by
  induction t with
  | nil => rfl
  | cons m t iht => simp [unrank, iht, List.replicate_succ]

theorem offset_replicate_zero (k : Nat) (t : List Nat) : offset (List.replicate k 0) t = 0 := by
  induction k generalizing t with
  | zero => simp
  | succ k ihk => cases t <;> simp [List.replicate_succ, ihk]

/-- The state of a generator after `k` calls of `next`. -/
def FlatGen.stateAt (s st : List Nat) (k : Nat) : FlatGen :=
  { shape := s, stride := st, size := numel s, iteratorIndex := k,
    indices := if k < numel s then unrank s k else List.replicate s.length 0,
    flatIndex := if k < numel s then offset (unrank s k) st else 0 }

theorem FlatGen.next_stateAt {s st : List Nat} {k : Nat} (hl : s.length = st.length) (hk : k < numel s) :
    (FlatGen.stateAt s st k).next = some (offset (unrank s k) st, FlatGen.stateAt s st (k + 1)) := by
  have h := odometer_spec (base := 0) hl (InB_unrank hk)
  rw [rank_unrank hk] at h
  simp only [Nat.zero_add] at h
  simp only [FlatGen.next, FlatGen.stateAt, hk, if_true, Nat.ne_of_lt hk, if_false, h]
  split <;> simp

theorem FlatGen.next_stateAt_end (s st : List Nat) : (FlatGen.stateAt s st (numel s)).next = none := by
  simp [FlatGen.next, FlatGen.stateAt]

theorem FlatGen.collect_stateAt {s st : List Nat} (hl : s.length = st.length) (m k : Nat) (hk : k + m = numel s)
    (fuel : Nat) (hf : m < fuel) :
    FlatGen.collect fuel (FlatGen.stateAt s st k) = (List.range' k m).map fun j => offset (unrank s j) st := by
  induction m generalizing k fuel with
  | zero =>
    cases fuel with
    | zero => omega
    | succ fuel =>
      have : k = numel s := by omega
      subst this
      simp [FlatGen.collect, FlatGen.next_stateAt_end]
  | succ m ih =>
    cases fuel with
    | zero => omega
    | succ fuel =>
      simp only [FlatGen.collect, FlatGen.next_stateAt hl (show k < numel s by omega)]
      rw [ih (k + 1) (by omega) fuel (by omega)]
      simp [List.range'_succ]

theorem FlatGen.nexts_stateAt {s st : List Nat} (hl : s.length = st.length) (m k : Nat) (hk : k + m ≤ numel s) :
    FlatGen.nextsUnchecked m (FlatGen.stateAt s st k) =
      .ok ((List.range' k m).map fun j => offset (unrank s j) st) := by
  induction m generalizing k with
  | zero => rfl
  | succ m ih =>
    simp only [FlatGen.nextsUnchecked, FlatGen.next_stateAt hl (show k < numel s by omega)]
    rw [ih (k + 1) (by omega)]
    simp [List.range'_succ, bind, Except.bind, pure, Except.pure]

/-- The axes that remain after neighbouring axes have been merged fit into the fixed-size arrays of a generator. -/
def AxesFit (s st : List Nat) : Prop := (collapseToUniformStride s st).1.length ≤ maxDims

instance (s st : List Nat) : Decidable (AxesFit s st) := inferInstanceAs (Decidable (_ ≤ _))

theorem axesFit_of_rank {s st : List Nat} (hd : s.length ≤ maxDims) : AxesFit s st := by
  have hlen := length_collapse s st
  unfold AxesFit; omega

theorem FlatGen.mk'_fits {s st : List Nat} (hd : AxesFit s st) :
    FlatGen.mk' s st = .ok (FlatGen.stateAt (collapseToUniformStride s st).1 (collapseToUniformStride s st).2 0) := by
  unfold AxesFit at hd
  simp only [FlatGen.mk']
  rw [if_pos hd]
  simp only [FlatGen.stateAt, unrank_zero, offset_replicate_zero, ite_self]

theorem FlatGen.mk'_eq {s st : List Nat} (hd : s.length ≤ maxDims) :
    FlatGen.mk' s st = .ok (FlatGen.stateAt (collapseToUniformStride s st).1 (collapseToUniformStride s st).2 0) :=
  FlatGen.mk'_fits (axesFit_of_rank hd)

theorem FlatGen.mk'_panic {s st : List Nat} (hd : ¬ AxesFit s st) : FlatGen.mk' s st = .error .panic := by
  unfold AxesFit at hd
  simp only [FlatGen.mk']
  rw [if_neg hd]

/-- A generator made from a shape and strides yields exactly the memory positions of all elements, in
row-major order. -/
theorem FlatGen.toList_fits {s st : List Nat} (hl : s.length = st.length) (hd : AxesFit s st) :
    ∃ g, FlatGen.mk' s st = .ok g ∧ g.toList = offsets s st := by
  refine ⟨_, FlatGen.mk'_fits hd, ?_⟩
  have hlen := length_collapse s st
  have := FlatGen.collect_stateAt hlen.1 (numel (collapseToUniformStride s st).1) 0 (by omega)
    (numel (collapseToUniformStride s st).1 + 1) (by omega)
  simp only [FlatGen.toList]
  rw [show (FlatGen.stateAt (collapseToUniformStride s st).1 (collapseToUniformStride s st).2 0).size
    = numel (collapseToUniformStride s st).1 from rfl, this, ← List.range_eq_range', ← offsets_eq_range,
    offsets_collapse hl]

theorem FlatGen.toList_mk' {s st : List Nat} (hl : s.length = st.length) (hd : s.length ≤ maxDims) :
    ∃ g, FlatGen.mk' s st = .ok g ∧ g.toList = offsets s st := FlatGen.toList_fits hl (axesFit_of_rank hd)

theorem FlatGen.nexts_fits {s st : List Nat} (hl : s.length = st.length) (hd : AxesFit s st) :
    ∃ g, FlatGen.mk' s st = .ok g ∧ g.nextsUnchecked (numel s) = .ok (offsets s st) := by
  refine ⟨_, FlatGen.mk'_fits hd, ?_⟩
  have hlen := length_collapse s st
  rw [FlatGen.nexts_stateAt hlen.1 _ 0 (by rw [numel_collapse hl]; omega), ← numel_collapse hl,
    ← List.range_eq_range', ← offsets_eq_range, offsets_collapse hl]

theorem FlatGen.nexts_mk' {s st : List Nat} (hl : s.length = st.length) (hd : s.length ≤ maxDims) :
    ∃ g, FlatGen.mk' s st = .ok g ∧ g.nextsUnchecked (numel s) = .ok (offsets s st) := FlatGen.nexts_fits hl (axesFit_of_rank hd)

end Verif
