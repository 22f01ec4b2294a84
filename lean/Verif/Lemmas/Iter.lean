import Verif.Model.Iter
import Verif.Lemmas.Reduce
import Verif.Lemmas.Basics

set_option linter.unusedSimpArgs false

/-!
# Facts about sub-array iteration
-/

namespace Verif

variable {α : Type}

def keepMask : List Bool → List Nat → List Nat
  | b :: mask, x :: l => if b then x :: keepMask mask l else keepMask mask l
  | _, _ => []

theorem keepMask_zipIdx (ks : List Nat) (l : List Nat) (j : Nat) :
    keepMask ((List.range' j l.length).map fun k => decide (k ∈ ks)) l =
      ((l.zipIdx j).filter fun p => p.2 ∈ ks).map (·.1) := by
  induction l generalizing j with
  | nil => rfl
  | cons x l ih =>
    simp only [List.length_cons, List.range'_succ, List.map_cons, keepMask, List.zipIdx_cons, List.filter_cons]
    by_cases h : j ∈ ks <;> simp [h, ih]

theorem keepMask_maskOf (ks l : List Nat) : keepMask (maskOf l.length ks) l = keepAxes ks l := by
  have := keepMask_zipIdx ks l 0
  simpa [maskOf, keepAxes, List.range_eq_range'] using this

theorem splitByMask_eq (mask : List Bool) (l : List Nat) : splitByMask mask l = (keepMask mask l, dropMask mask l) := by
  induction mask generalizing l with
  | nil => rfl
  | cons b mask ih => cases l with
    | nil => rfl
    | cons x l => cases b <;> simp [splitByMask, keepMask, dropMask, ih]

theorem markIndices_ok {n : Nat} {ks : List Nat} (h : ∀ k ∈ ks, k < n) (ks0 : List Nat)
    (hnd : (ks0 ++ ks).Nodup) : markIndices ks (maskOf n ks0) = .ok (maskOf n (ks0 ++ ks)) := by
  induction ks generalizing ks0 with
  | nil => simp [markIndices]
  | cons k ks ih =>
    have hk : k ∉ ks0 := fun hk => by
      rw [List.nodup_append] at hnd
      exact hnd.2.2 k hk k (by simp) rfl
    have hkn := h k (by simp)
    have e : (maskOf n ks0)[k]? = some false := by simp [maskOf, hkn, hk]
    simp only [markIndices, e]
    rw [maskOf_set hkn, ih (fun x hx => h x (by simp [hx])) (k :: ks0)]
    · congr 1
      exact maskOf_congr fun x => by simp; tauto
    · have : (ks0 ++ k :: ks).Perm (k :: ks0 ++ ks) := List.perm_middle
      exact this.nodup_iff.1 hnd

theorem markIndices_error {n : Nat} {ks : List Nat} (ks0 : List Nat) (h0 : ks0.Nodup)
    (h : ¬ ((∀ k ∈ ks, k < n) ∧ (ks0 ++ ks).Nodup)) : markIndices ks (maskOf n ks0) = .error .panic := by
  induction ks generalizing ks0 with
  | nil => simp at h; exact absurd h0 h
  | cons k ks ih =>
    by_cases hkn : k < n
    · by_cases hk : k ∈ ks0
      · have e : (maskOf n ks0)[k]? = some true := by simp [maskOf, hkn, hk]
        simp only [markIndices, e]
      · have e : (maskOf n ks0)[k]? = some false := by simp [maskOf, hkn, hk]
        simp only [markIndices, e]
        rw [maskOf_set hkn]
        apply ih (k :: ks0) (by simp [hk, h0])
        rintro ⟨h1, h2⟩
        apply h
        refine ⟨fun x hx => ?_, ?_⟩
        · rcases List.mem_cons.1 hx with rfl | hx
          · exact hkn
          · exact h1 x hx
        · have : (ks0 ++ k :: ks).Perm (k :: ks0 ++ ks) := List.perm_middle
          exact this.nodup_iff.2 h2
    · have e : (maskOf n ks0)[k]? = none := by simp [maskOf]; omega
      simp only [markIndices, e]

theorem splitByIndices_ok {ks data : List Nat} (h : ∀ k ∈ ks, k < data.length) (hnd : ks.Nodup) :
    splitByIndices data ks = .ok (keepAxes ks data, dropAxes ks data) := by
  unfold splitByIndices
  have : List.replicate data.length false = maskOf data.length [] := by simp [maskOf]
  rw [this, markIndices_ok h [] (by simpa using hnd), ok_bind, List.nil_append, splitByMask_eq, keepMask_maskOf,
    dropMask_maskOf]
  rfl

theorem splitByIndices_error {ks data : List Nat} (h : ¬ ((∀ k ∈ ks, k < data.length) ∧ ks.Nodup)) :
    splitByIndices data ks = .error .panic := by
  unfold splitByIndices
  have : List.replicate data.length false = maskOf data.length [] := by simp [maskOf]
  rw [this, markIndices_error [] (by simp) (by simpa using h)]
  rfl

/-! ### the odometer -/

/-- value of the odometer digits, which run from 0 to `n` inclusive -/
def odo : List Nat → List Nat → Nat
  | i :: idx, _ :: s => i * numel (s.map (· + 1)) + odo idx s
  | _, _ => 0

def DigitsLe : List Nat → List Nat → Prop
  | i :: idx, n :: s => i ≤ n ∧ DigitsLe idx s
  | [], [] => True
  | _, _ => False

theorem numel_map_succ_pos (s : List Nat) : 0 < numel (s.map (· + 1)) := by
  induction s with
  | nil => simp
  | cons n s ih => simp only [List.map_cons, numel_cons]; exact Nat.mul_pos (by omega) ih

theorem odo_lt {idx s : List Nat} (h : DigitsLe idx s) : odo idx s < numel (s.map (· + 1)) := by
  induction s generalizing idx with
  | nil => cases idx <;> simp [odo]
  | cons n s ih => cases idx with
    | nil => cases h
    | cons i idx =>
      have := ih h.2
      have h1 := h.1
      simp only [odo, List.map_cons, numel_cons]
      calc i * numel (s.map (· + 1)) + odo idx s < i * numel (s.map (· + 1)) + numel (s.map (· + 1)) := by omega
        _ = (i + 1) * numel (s.map (· + 1)) := by ring
        _ ≤ (n + 1) * numel (s.map (· + 1)) := Nat.mul_le_mul_right _ (by omega)

/-- One step of the odometer. If it does not run through, the value goes up by one and the pointer moves by
`q`; if it does, all digits return to 0 and the pointer moves back by one
row-major block less one `q`. -/
theorem ndAdvance_spec (q : Nat) {s idx : List Nat} (h : DigitsLe idx s) (hpos : ∀ n ∈ s, 0 < n) :
    DigitsLe (ndAdvance s (chainStride q s) idx).1 s ∧
    ((ndAdvance s (chainStride q s) idx).2.2 = false →
      odo (ndAdvance s (chainStride q s) idx).1 s = odo idx s + 1 ∧ (ndAdvance s (chainStride q s) idx).2.1 = q) ∧
    ((ndAdvance s (chainStride q s) idx).2.2 = true →
      odo idx s + 1 = numel (s.map (· + 1)) ∧ odo (ndAdvance s (chainStride q s) idx).1 s = 0 ∧
      (ndAdvance s (chainStride q s) idx).2.1 = (q : Int) - q * numel s) := by
  induction s generalizing idx with
  | nil => cases idx with
    | nil => simp [ndAdvance, odo, DigitsLe]
    | cons => cases h
  | cons n s ih => cases idx with
    | nil => cases h
    | cons i idx =>
      obtain ⟨h1, h2, h3⟩ := ih h.2 (fun m hm => hpos m (by simp [hm]))
      have hn := hpos n (by simp)
      simp only [chainStride, ndAdvance]
      cases hc : (ndAdvance s (chainStride q s) idx).2.2 with
      | false =>
        obtain ⟨h4, h5⟩ := h2 hc
        simp only [hc, Bool.false_eq_true, if_false, odo, DigitsLe, h4, h5, h.1, h1, and_self, true_and, false_imp_iff,
          and_true, implies_true]
        intro _; omega
      | true =>
        obtain ⟨h4, h5, h6⟩ := h3 hc
        simp only [hc, if_true]
        by_cases hi : i = n
        · subst hi
          simp only [ne_eq, not_true_eq_false, if_false, DigitsLe, h1, Nat.zero_le, and_self, true_and, Bool.true_eq_false,
            false_imp_iff, odo, h5, h6, List.map_cons, numel_cons, Nat.zero_mul, forall_const, Nat.add_zero]
          refine ⟨?_, ?_⟩
          · rw [← h4]; ring
          · have : ((i - 1 : Nat) : Int) = (i : Int) - 1 := by omega
            push_cast [this]
            ring
        · have hlt : i < n := Nat.lt_of_le_of_ne h.1 hi
          simp only [ne_eq, hi, not_false_eq_true, if_true, DigitsLe, h1, odo, h5, h6, and_true, true_and,
            Bool.false_eq_true, false_imp_iff, forall_const]
          refine ⟨by omega, ?_, ?_⟩
          · have e : (i + 1) * numel (s.map (· + 1)) = i * numel (s.map (· + 1)) + numel (s.map (· + 1)) := by ring
            rw [e]; omega
          · push_cast; ring

theorem numel_le_succ (s : List Nat) : numel s ≤ numel (s.map (· + 1)) := by
  induction s with
  | nil => simp
  | cons n s ih => simp only [List.map_cons, numel_cons]; exact Nat.mul_le_mul (by omega) ih

theorem numel_lt_succ {s : List Nat} (h : s ≠ []) : numel s < numel (s.map (· + 1)) := by
  cases s with
  | nil => exact absurd rfl h
  | cons n s =>
    simp only [List.map_cons, numel_cons]
    have := numel_le_succ s
    have hp := numel_map_succ_pos s
    calc n * numel s ≤ n * numel (s.map (· + 1)) := Nat.mul_le_mul_left _ this
      _ < (n + 1) * numel (s.map (· + 1)) := by rw [Nat.add_mul]; omega

/-- The iterator over a row-major chain of axes yields the sub-array at displacement `k * q` as `k`-th item. -/
theorem collect_chain {it : NdIter α} {q m : Nat} (hst : it.stride = chainStride q it.shape) (hsz : it.size = numel it.shape)
    (hdig : DigitsLe it.indices it.shape) (hodo : odo it.indices it.shape = it.iteratorIndex)
    (hmv : it.moved = it.iteratorIndex * q) (hk : it.iteratorIndex + m = it.size) (fuel : Nat) (hf : m < fuel)
    (g : Nat → Arr α) (hg : ∀ k, it.iteratorIndex ≤ k → k < it.size → (Arr.clone { it.result with off := it.result.off + k * q }) = .ok (g k)) :
    it.collect fuel = .ok ((List.range' it.iteratorIndex m).map g) := by
  induction m generalizing it fuel with
  | zero =>
    cases fuel with
    | zero => omega
    | succ fuel => simp [NdIter.collect, NdIter.next, show it.iteratorIndex = it.size by omega]
  | succ m ih =>
    cases fuel with
    | zero => omega
    | succ fuel =>
      have hlt : it.iteratorIndex < it.size := by omega
      have hne : it.iteratorIndex ≠ it.size := by omega
      have hpos : ∀ n ∈ it.shape, 0 < n := by
        intro n hn
        rcases Nat.eq_zero_or_pos n with rfl | h
        · have := numel_eq_zero.2 hn; omega
        · exact h
      have hoff : it.result.offsetPtr it.moved = .ok { it.result with off := it.result.off + it.iteratorIndex * q } := by
        unfold Arr.offsetPtr
        rw [hmv, if_pos (by positivity)]
        congr 2
      simp only [NdIter.collect, NdIter.next, hne, if_false, hoff, ok_bind, hg _ (Nat.le_refl _) hlt]
      obtain ⟨s1, s2, s3⟩ := ndAdvance_spec q hdig hpos
      rw [← hst] at s1 s2 s3
      rcases Nat.eq_zero_or_pos m with rfl | hm
      · cases fuel with
        | zero => omega
        | succ fuel => simp [NdIter.collect, NdIter.next, show it.iteratorIndex + 1 = it.size by omega]
      · have hc : (ndAdvance it.shape it.stride it.indices).2.2 = false := by
          by_contra hc
          rw [Bool.not_eq_false] at hc
          obtain ⟨h1, _⟩ := s3 hc
          have := numel_le_succ it.shape
          omega
        obtain ⟨h1, h2⟩ := s2 hc
        have := ih (it := { it with iteratorIndex := it.iteratorIndex + 1, indices := (ndAdvance it.shape it.stride it.indices).1, moved := it.moved + (ndAdvance it.shape it.stride it.indices).2.1 })
          hst hsz s1 (by rw [h1, hodo]) (by simp only [h2, hmv]; push_cast; ring) (by simp only; omega) fuel (by omega)
          (fun k h3 h4 => hg k (by simp only at h3; omega) h4)
        rw [this]
        simp [List.range'_succ]

theorem digitsLe_zero (s : List Nat) : DigitsLe (List.replicate s.length 0) s := by
  induction s with
  | nil => trivial
  | cons n s ih => exact ⟨Nat.zero_le _, ih⟩

theorem odo_zero (s : List Nat) (k : Nat) : odo (List.replicate k 0) s = 0 := by
  induction s generalizing k with
  | nil => cases k <;> rfl
  | cons n s ih => cases k with
    | zero => rfl
    | succ k => simp [List.replicate_succ, odo, ih]

/-! ### weaving coordinates together -/

def weave : List Bool → List Nat → List Nat → List Nat
  | true :: mask, i :: I, J => i :: weave mask I J
  | false :: mask, I, j :: J => j :: weave mask I J
  | _, _, _ => []

theorem weave_facts {mask : List Bool} {s st I J : List Nat} (hm : mask.length = s.length) (hst : st.length = s.length)
    (hI : InB I (keepMask mask s)) (hJ : InB J (dropMask mask s)) :
    InB (weave mask I J) s ∧ offset (weave mask I J) st = offset I (keepMask mask st) + offset J (dropMask mask st) := by
  induction mask generalizing s st I J with
  | nil => cases s with
    | nil =>
      cases I with
      | nil => simp [weave, keepMask, dropMask]
      | cons => cases hI
    | cons => cases hm
  | cons b mask ih => cases s with
    | nil => cases hm
    | cons n s => cases st with
      | nil => cases hst
      | cons d st =>
        cases b with
        | true => cases I with
          | nil => simp [keepMask] at hI
          | cons i I =>
            simp only [keepMask, if_true, InB_cons] at hI
            obtain ⟨h1, h2⟩ := ih (by simpa using hm) (st := st) (by simpa using hst) hI.2 (by simpa [dropMask] using hJ)
            simp only [weave, InB_cons, hI.1, h1, and_self, true_and, offset_cons, h2, keepMask, if_true, dropMask]
            omega
        | false => cases J with
          | nil => simp [dropMask] at hJ
          | cons j J =>
            simp only [dropMask, Bool.false_eq_true, if_false, InB_cons] at hJ
            obtain ⟨h1, h2⟩ := ih (by simpa using hm) (st := st) (by simpa using hst) (by simpa [keepMask] using hI) hJ.2
            simp only [weave, InB_cons, hJ.1, h1, and_self, true_and, offset_cons, h2, keepMask, dropMask,
              Bool.false_eq_true, if_false]
            omega

theorem weave_split {mask : List Bool} {idx : List Nat} (hm : mask.length = idx.length) :
    weave mask (keepMask mask idx) (dropMask mask idx) = idx := by
  induction mask generalizing idx with
  | nil => cases idx with
    | nil => rfl
    | cons => cases hm
  | cons b mask ih => cases idx with
    | nil => cases hm
    | cons i idx =>
      have := ih (idx := idx) (by simpa using hm)
      cases b <;> simp [weave, keepMask, dropMask, this]

theorem InB_keepMask {mask : List Bool} {idx s : List Nat} (hi : InB idx s) : InB (keepMask mask idx) (keepMask mask s) := by
  induction mask generalizing s idx with
  | nil => trivial
  | cons b mask ih => cases s with
    | nil => cases idx with
      | nil => trivial
      | cons => cases hi
    | cons n s => cases idx with
      | nil => cases hi
      | cons i idx => cases b <;> simp [keepMask, ih hi.2, hi.1]

theorem InB_keepAxes {ks idx s : List Nat} (hi : InB idx s) : InB (keepAxes ks idx) (keepAxes ks s) := by
  have := InB_keepMask (mask := maskOf s.length ks) hi
  rw [keepMask_maskOf] at this
  rw [← hi.length, keepMask_maskOf] at this
  exact this

theorem InB_dropAxes {ks idx s : List Nat} (hi : InB idx s) : InB (dropAxes ks idx) (dropAxes ks s) := by
  have := InB_dropMask (mask := maskOf s.length ks) hi
  rw [dropMask_maskOf] at this
  rw [← hi.length, dropMask_maskOf] at this
  exact this

theorem offset_chain {q : Nat} {I s : List Nat} (h : InB I s) : offset I (chainStride q s) = rank I s * q := by
  induction s generalizing I with
  | nil => cases I with
    | nil => simp [rank]
    | cons => cases h
  | cons n s ih => cases I with
    | nil => cases h
    | cons i I => simp only [chainStride, offset_cons, rank, ih h.2]; ring

theorem length_keepAxes {ks : List Nat} {n : Nat} (hnd : ks.Nodup) (h : ∀ k ∈ ks, k < n) {l : List Nat} (hl : l.length = n) :
    (keepAxes ks l).length = ks.length := by
  subst hl
  unfold keepAxes
  rw [List.length_map]
  have h2 : (l.zipIdx.filter fun p => decide (p.2 ∈ ks)).length = ((List.range l.length).filter fun k => decide (k ∈ ks)).length := by
    rw [← List.countP_eq_length_filter, ← List.countP_eq_length_filter]
    have : List.range l.length = l.zipIdx.map (·.2) := by
      rw [List.zipIdx_map_snd, List.range_eq_range']
    rw [this, List.countP_map]; rfl
  rw [h2]
  apply List.Perm.length_eq
  rw [List.perm_ext_iff_of_nodup (List.nodup_range.filter _) hnd]
  intro k
  simp only [List.mem_filter, List.mem_range, decide_eq_true_eq]
  exact ⟨fun h => h.2, fun hk => ⟨h k hk, hk⟩⟩

theorem length_dropAxes_eq {l l' : List Nat} (ks : List Nat) (hl : l.length = l'.length) :
    (dropAxes ks l).length = (dropAxes ks l').length := by
  unfold dropAxes
  rw [List.length_map, List.length_map, ← List.countP_eq_length_filter, ← List.countP_eq_length_filter]
  have e1 : ∀ l : List Nat, List.countP (fun p => decide (p.2 ∉ ks)) l.zipIdx = List.countP (fun k => decide (k ∉ ks)) (List.range l.length) := by
    intro l
    have : List.range l.length = l.zipIdx.map (·.2) := by
      rw [List.zipIdx_map_snd, List.range_eq_range']
    rw [this, List.countP_map]; rfl
  rw [e1, e1, hl]

/-- `nditer` over axes that form a row-major chain, if the remaining axes can be cloned. -/
theorem nditer_clone_ok {a : Arr α} {s : List Nat} {f : List Nat → α} (ha : a.Denotes s f) (hd : s.length ≤ maxDims) {ks : List Nat}
    (hr : ∀ k ∈ ks, k < s.length) (hnd : ks.Nodup) {q : Nat} (hc : keepAxes ks a.stride = chainStride q (keepAxes ks s))
    (hz : numel (keepAxes ks s) ≠ 0 → (a.reshapedView (dropAxes ks s) (dropAxes ks a.stride)).CloneOK) :
    ∃ rs, a.nditer ks = .ok rs ∧ rs.length = numel (keepAxes ks s) ∧
      ∀ k < numel (keepAxes ks s), ∃ r, rs[k]? = some r ∧
        r.Denotes (dropAxes ks s) (fun J => f (weave (maskOf s.length ks) (unrank (keepAxes ks s) k) J)) := by
  obtain ⟨hs, hl, hf⟩ := ha
  have hdl : (dropAxes ks s).length ≤ maxDims := by
    have : (dropAxes ks s).length ≤ s.length := by
      unfold dropAxes
      rw [List.length_map]
      exact le_trans (List.length_filter_le _ _) (by simp)
    omega
  have hden : ∀ k < numel (keepAxes ks s),
      (Arr.Denotes { (a.reshapedView (dropAxes ks s) (dropAxes ks a.stride)) with off := a.off + k * q } (dropAxes ks s)
        (fun J => f (weave (maskOf s.length ks) (unrank (keepAxes ks s) k) J))) := by
    intro k hk
    refine ⟨rfl, ?_, fun J hJ => ?_⟩
    · exact length_dropAxes_eq ks hl
    · have hI := InB_unrank hk
      rw [← keepMask_maskOf] at hI
      rw [← dropMask_maskOf] at hJ
      obtain ⟨h1, h2⟩ := weave_facts (length_maskOf _ _) hl hI hJ
      have := hf _ h1
      rw [h2, ← hl, keepMask_maskOf, dropMask_maskOf, hc, hl, keepMask_maskOf, offset_chain (InB_unrank hk), rank_unrank hk] at this
      show a.buf[a.off + k * q + offset J (dropAxes ks a.stride)]? = _
      rw [← this, Nat.add_assoc]
  have hclone : ∀ k < numel (keepAxes ks s),
      Arr.clone { (a.reshapedView (dropAxes ks s) (dropAxes ks a.stride)) with off := a.off + k * q } =
        .ok (Arr.fromContiguousOwnedBuffer (dropAxes ks s)
          (elements (dropAxes ks s) (fun J => f (weave (maskOf s.length ks) (unrank (keepAxes ks s) k) J)))) := by
    intro k hk
    have hdk := hden k hk
    have hfl : Arr.FlagsExact { (a.reshapedView (dropAxes ks s) (dropAxes ks a.stride)) with off := a.off + k * q } :=
      flagsExact_update
    have hok : Arr.CloneOK { (a.reshapedView (dropAxes ks s) (dropAxes ks a.stride)) with off := a.off + k * q } :=
      fun hcont => hz (by omega) hcont
    unfold Arr.clone
    rw [cloneData_ok hdk hok hfl hdl]
    rfl
  refine ⟨(List.range (numel (keepAxes ks s))).map fun k => Arr.fromContiguousOwnedBuffer (dropAxes ks s)
    (elements (dropAxes ks s) (fun J => f (weave (maskOf s.length ks) (unrank (keepAxes ks s) k) J))), ?_, by simp, ?_⟩
  · unfold Arr.nditer NdIter.from
    rw [hs, splitByIndices_ok hr hnd, ok_bind, splitByIndices_ok (by rw [hl]; exact hr) hnd, ok_bind]
    show NdIter.toList _ = _
    unfold NdIter.toList
    rw [List.range_eq_range']
    refine collect_chain (q := q) hc rfl ?_ (odo_zero _ _) (by simp) (by simp) _ (by simp) _ (fun k _ hk => hclone k hk)
    rw [← length_keepAxes hnd hr rfl]
    exact digitsLe_zero _
  · intro k hk
    exact ⟨_, by simp [hk], denotes_fromContiguous⟩

/-- `nditer` over axes that form a row-major chain. -/
theorem nditer_ok {a : Arr α} {s : List Nat} {f : List Nat → α} (ha : a.Denotes s f) (hd : s.length ≤ maxDims) {ks : List Nat}
    (hr : ∀ k ∈ ks, k < s.length) (hnd : ks.Nodup) {q : Nat} (hc : keepAxes ks a.stride = chainStride q (keepAxes ks s))
    (hz : numel (keepAxes ks s) ≠ 0 → NoZero (dropAxes ks s) (dropAxes ks a.stride)) :
    ∃ rs, a.nditer ks = .ok rs ∧ rs.length = numel (keepAxes ks s) ∧
      ∀ k < numel (keepAxes ks s), ∃ r, rs[k]? = some r ∧
        r.Denotes (dropAxes ks s) (fun J => f (weave (maskOf s.length ks) (unrank (keepAxes ks s) k) J)) := by
  refine nditer_clone_ok ha hd hr hnd hc fun h0 hcont => ?_
  have hfl : (a.reshapedView (dropAxes ks s) (dropAxes ks a.stride)).FlagsExact := flagsExact_update
  obtain ⟨e, he, h1⟩ := hfl.contiguous hcont
  exact ⟨rfl, offsets_contiguous (length_dropAxes_eq ks ha.2.1.symm) (hz h0) he h1⟩

theorem keepAxes_range (m : Nat) (l : List Nat) : keepAxes (List.range m) l = l.take m := by
  have : ∀ (l : List Nat) (j : Nat), ((l.zipIdx j).filter fun p => decide (p.2 ∈ List.range m)).map (·.1) = l.take (m - j) := by
    intro l
    induction l with
    | nil => intro j; simp
    | cons x l ih =>
      intro j
      simp only [List.zipIdx_cons, List.filter_cons, List.mem_range]
      by_cases h : j < m
      · have e : m - j = (m - (j + 1)) + 1 := by omega
        have := ih (j + 1)
        simp only [List.mem_range] at this
        simp only [h, decide_true, if_true, List.map_cons, this, e, List.take_succ_cons]
      · have := ih (j + 1)
        simp only [List.mem_range] at this
        simp only [h, decide_false, Bool.false_eq_true, if_false, this]
        rw [show m - j = 0 by omega, show m - (j + 1) = 0 by omega]; simp
  exact this l 0

theorem take_strideFromShape (m : Nat) (s : List Nat) :
    (strideFromShape s).take m = chainStride (numel (s.drop m)) (s.take m) := by
  induction s generalizing m with
  | nil => simp [chainStride]
  | cons n s ih => cases m with
    | zero => rfl
    | succ m =>
      simp only [strideFromShape_cons, List.take_succ_cons, List.drop_succ_cons, chainStride, ih]
      congr 1
      rw [Nat.mul_comm, ← numel_append, List.take_append_drop]

theorem keepAxes_single {k : Nat} {l : List Nat} {x : Nat} (h : l[k]? = some x) : keepAxes [k] l = [x] := by
  have : ∀ (l : List Nat) (j : Nat), (∀ k < j, True) → ∀ k x, l[k]? = some x →
      ((l.zipIdx j).filter fun p => decide (p.2 ∈ [j + k])).map (·.1) = [x] := by
    intro l
    induction l with
    | nil => intro j _ k x h; simp at h
    | cons y l ih =>
      intro j _ k x h
      simp only [List.zipIdx_cons, List.filter_cons]
      cases k with
      | zero =>
        simp at h
        subst h
        have : ((l.zipIdx (j + 1)).filter fun p => decide (p.2 ∈ [j + 0])) = [] := by
          rw [List.filter_eq_nil_iff]
          intro p hp
          have := List.le_snd_of_mem_zipIdx hp
          simp; omega
        simp only [this]; simp
      | succ k =>
        have := ih (j + 1) (fun _ _ => trivial) k x (by simpa using h)
        rw [show j + 1 + k = j + (k + 1) by omega] at this
        simp only [List.mem_singleton, show ¬ (j = j + (k + 1)) by omega, decide_false, Bool.false_eq_true, if_false]
        simpa using this
  have := this l 0 (fun _ _ => trivial) k x h
  simpa [keepAxes] using this

theorem dropAxes_single (k : Nat) (l : List Nat) : dropAxes [k] l = l.eraseIdx k := by
  have : ∀ (l : List Nat) (j k : Nat), ((l.zipIdx j).filter fun p => decide (p.2 ∉ [j + k])).map (·.1) = l.eraseIdx k := by
    intro l
    induction l with
    | nil => intro j k; simp
    | cons y l ih =>
      intro j k
      simp only [List.zipIdx_cons, List.filter_cons]
      cases k with
      | zero =>
        have : ((l.zipIdx (j + 1)).filter fun p => decide (p.2 ∉ [j + 0])) = l.zipIdx (j + 1) := by
          rw [List.filter_eq_self]
          intro p hp
          have := List.le_snd_of_mem_zipIdx hp
          simp; omega
        simp only [this]; simp [List.zipIdx_map_fst]
      | succ k =>
        have := ih (j + 1) k
        rw [show j + 1 + k = j + (k + 1) by omega] at this
        simp only [List.mem_singleton, show ¬ (j = j + (k + 1)) by omega, not_false_eq_true, decide_true, if_true,
          List.map_cons, List.eraseIdx_cons_succ]
        congr 1
        simpa using this
  have := this l 0 k
  simpa [dropAxes] using this

theorem mem_dropAxes {ks l : List Nat} {x : Nat} (h : x ∈ dropAxes ks l) : x ∈ l := by
  unfold dropAxes at h
  obtain ⟨p, hp, rfl⟩ := List.mem_map.1 h
  exact List.fst_mem_of_mem_zipIdx (List.mem_filter.1 hp).1

theorem numel_mask (mask : List Bool) (s : List Nat) (h : mask.length = s.length) :
    numel s = numel (keepMask mask s) * numel (dropMask mask s) := by
  induction mask generalizing s with
  | nil => cases s <;> simp_all [keepMask, dropMask]
  | cons b mask ih => cases s with
    | nil => cases h
    | cons n s => cases b <;> simp [keepMask, dropMask, ih s (by simpa using h)] <;> ring

theorem numel_keep_drop (ks s : List Nat) : numel s = numel (keepAxes ks s) * numel (dropAxes ks s) := by
  rw [← keepMask_maskOf, ← dropMask_maskOf]; exact numel_mask _ _ (length_maskOf _ _)

theorem PosStride.dropAxes {s st : List Nat} (h : PosStride s st) {ks : List Nat} (h0 : numel (keepAxes ks s) ≠ 0) :
    NoZero (dropAxes ks s) (dropAxes ks st) := by
  apply PosStride.noZero
  rcases h with h | h
  · left
    rw [numel_keep_drop ks] at h
    rcases Nat.mul_eq_zero.1 h with h | h
    · exact absurd h h0
    · exact h
  · exact .inr fun d hd => h d (mem_dropAxes hd)

end Verif
