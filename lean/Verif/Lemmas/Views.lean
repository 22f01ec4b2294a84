import Mathlib.Algebra.BigOperators.Group.List.Basic
import Verif.Spec.Slices
import Verif.Lemmas.Uniform

set_option linter.unusedSimpArgs false

namespace Verif

variable {α : Type}

/-! ### axes -/

theorem asAbsolute_ok {axis : Int} {n k : Nat} (h : AxisIs axis n k) : asAbsolute axis n = .ok k := by
  obtain ⟨h1, h2⟩ := h
  unfold asAbsolute
  rw [if_neg (by omega)]
  congr 1
  split <;> omega

theorem asAbsolute_eq_ok {axis : Int} {n k : Nat} : asAbsolute axis n = .ok k ↔ AxisIs axis n k := by
  refine ⟨fun h => ?_, asAbsolute_ok⟩
  unfold asAbsolute at h
  split at h
  · cases h
  · simp only [Except.ok.injEq] at h
    unfold AxisIs
    split at h <;> omega

theorem asAbsolute_error {axis : Int} {n : Nat} (h : ∀ k, ¬ AxisIs axis n k) : asAbsolute axis n = .error .panic := by
  have h1 : axis < -(n : Int) ∨ axis ≥ (n : Int) := by
    by_contra hc
    by_cases hn : axis < 0
    · exact h (axis + n).toNat ⟨by omega, by omega⟩
    · exact h axis.toNat ⟨by omega, by omega⟩
  unfold asAbsolute
  rw [if_pos h1]

/-! ### zip characterisations -/

theorem offset_eq_sum (idx st : List Nat) : offset idx st = ((idx.zip st).map fun p => p.1 * p.2).sum := by
  induction idx generalizing st with
  | nil => simp
  | cons i idx ih => cases st <;> simp [ih]

theorem InB_iff {idx s : List Nat} : InB idx s ↔ idx.length = s.length ∧ ∀ p ∈ idx.zip s, p.1 < p.2 := by
  induction s generalizing idx with
  | nil => cases idx <;> simp
  | cons n s ih => cases idx with
    | nil => simp
    | cons i idx => simp [ih]; tauto

theorem InB.getElem? {idx s : List Nat} (h : InB idx s) {k i n : Nat} (hi : idx[k]? = some i) (hn : s[k]? = some n) :
    i < n := by
  have h2 := (InB_iff.1 h).2
  apply h2 (i, n)
  rw [List.mem_iff_getElem?]
  exact ⟨k, by simp [List.getElem?_zip_eq_some, hi, hn]⟩

/-! ### exchanging two axes -/

theorem length_exchange (i j : Nat) (l : List α) : (exchange i j l).length = l.length := by simp [exchange]

theorem exchange_eq_set {i j : Nat} {l : List α} (hi : i < l.length) (hj : j < l.length) :
    exchange i j l = (l.set i l[j]).set j l[i] := by
  apply List.ext_getElem
  · simp [exchange]
  · intro k h1 h2
    simp only [exchange, List.getElem_mapIdx]
    rw [List.getElem_set, List.getElem_set]
    simp only [List.getD_eq_getElem?_getD, List.getElem?_eq_getElem hi, List.getElem?_eq_getElem hj,
      Option.getD_some]
    by_cases h1 : k = i
    · by_cases h2 : k = j
      · have h3 : i = j := by omega
        simp [h1, h2, h3]
      · simp [h1, Ne.symm h2]
        intro h; subst h; subst h1; rfl
    · by_cases h2 : k = j
      · simp [h2]
        intro h; exact absurd (h2.trans h) h1
      · simp [h1, h2, Ne.symm h1, Ne.symm h2]

theorem swapAt_ok {i j : Nat} {l : List α} (hi : i < l.length) (hj : j < l.length) :
    swapAt l i j = .ok (exchange i j l) := by
  rw [exchange_eq_set hi hj]
  simp [swapAt, hi, hj]

theorem zip_set {β : Type} (l : List α) (m : List β) (i : Nat) (a : α) (b : β) :
    (l.set i a).zip (m.set i b) = (l.zip m).set i (a, b) := by
  induction l generalizing m i with
  | nil => simp
  | cons x l ih => cases m with
    | nil => simp
    | cons y m => cases i <;> simp [ih]

theorem zip_exchange {β : Type} {i j : Nat} {l : List α} {m : List β} (hl : l.length = m.length)
    (hi : i < l.length) (hj : j < l.length) :
    (exchange i j l).zip (exchange i j m) = exchange i j (l.zip m) := by
  rw [exchange_eq_set hi hj, exchange_eq_set (hl ▸ hi) (hl ▸ hj), zip_set, zip_set,
    exchange_eq_set (by simp; omega) (by simp; omega)]
  simp

theorem exchange_perm {i j : Nat} {l : List α} (hi : i < l.length) (hj : j < l.length) :
    (exchange i j l).Perm l := by
  rw [exchange_eq_set hi hj]
  exact List.set_set_perm hi hj

theorem offset_exchange {i j : Nat} {idx st : List Nat} (hl : idx.length = st.length) (hi : i < st.length)
    (hj : j < st.length) : offset (exchange i j idx) (exchange i j st) = offset idx st := by
  rw [offset_eq_sum, offset_eq_sum, zip_exchange hl (by omega) (by omega)]
  exact ((exchange_perm (by simp; omega) (by simp; omega)).map _).sum_eq

theorem exchange_exchange (i j : Nat) (l : List α) (hi : i < l.length) (hj : j < l.length) :
    exchange i j (exchange i j l) = l := by
  apply List.ext_getElem
  · simp [exchange]
  · intro k h1 h2
    simp only [exchange, List.getElem_mapIdx]
    simp [List.getD_eq_getElem?_getD, hi, hj]
    by_cases h1 : k = i
    · subst h1; by_cases h3 : j = k
      · subst h3; simp
      · simp [h3]
    · by_cases h2 : k = j
      · subst h2; simp [h1]; intro h h'; exact absurd h h'
      · simp [h1, h2]

theorem InB_exchange {i j : Nat} {idx s : List Nat} (hi : i < s.length) (hj : j < s.length)
    (h : InB idx (exchange i j s)) : InB (exchange i j idx) s := by
  have hlen := h.length
  rw [length_exchange] at hlen
  rw [InB_iff] at h ⊢
  refine ⟨by rw [length_exchange]; exact hlen, ?_⟩
  intro p hp
  have hs : s = exchange i j (exchange i j s) := (exchange_exchange i j s hi hj).symm
  rw [hs, zip_exchange h.1 (by omega) (by omega)] at hp
  exact h.2 p ((exchange_perm (by simp [length_exchange]; omega) (by simp [length_exchange]; omega)).mem_iff.1 hp)

theorem numel_eq_prod (s : List Nat) : numel s = s.prod := by
  induction s with
  | nil => rfl
  | cons n s ih => simp [ih]

theorem numel_perm {s t : List Nat} (h : s.Perm t) : numel s = numel t := by
  rw [numel_eq_prod, numel_eq_prod]; exact h.prod_eq

theorem numel_exchange {i j : Nat} {s : List Nat} (hi : i < s.length) (hj : j < s.length) :
    numel (exchange i j s) = numel s := numel_perm (exchange_perm hi hj)

/-! ### unit axes -/

theorem squeeze_nil : ((([] : List Nat).zip ([] : List Nat)).filter fun p => p.1 != 1).unzip = ([], []) := rfl

/-- shape and stride lists after `squeeze` -/
def sqz (s st : List Nat) : List Nat × List Nat := ((s.zip st).filter fun p => p.1 != 1).unzip

theorem sqz_cons (n d : Nat) (s st : List Nat) :
    sqz (n :: s) (d :: st) = if n = 1 then sqz s st else (n :: (sqz s st).1, d :: (sqz s st).2) := by
  unfold sqz
  by_cases h : n = 1 <;> simp [h]

theorem sqz_shape {s st : List Nat} (hl : s.length = st.length) : (sqz s st).1 = s.filter (· ≠ 1) := by
  induction s generalizing st with
  | nil => simp [sqz]
  | cons n s ih => cases st with
    | nil => simp at hl
    | cons d st =>
      rw [sqz_cons]
      by_cases h : n = 1
      · simp [h, ih (by simpa using hl)]
      · simp [h, ih (by simpa using hl)]

theorem sqz_length (s st : List Nat) : (sqz s st).2.length = (sqz s st).1.length := by
  simp [sqz]

theorem InB_withUnits {s J : List Nat} (h : InB J (s.filter (· ≠ 1))) : InB (withUnits s J) s := by
  induction s generalizing J with
  | nil => trivial
  | cons n s ih =>
    by_cases hn : n = 1
    · simp [hn] at h
      simp [withUnits, hn]
      exact ih (by simpa using h)
    · cases J with
      | nil => simp [hn] at h
      | cons j J =>
        simp [hn] at h
        simp [withUnits, hn]
        exact ⟨h.1, ih (by simpa using h.2)⟩

theorem offset_withUnits {s st J : List Nat} (hl : s.length = st.length) (h : InB J (s.filter (· ≠ 1))) :
    offset (withUnits s J) st = offset J (sqz s st).2 := by
  induction s generalizing J st with
  | nil => cases J <;> simp_all [withUnits]
  | cons n s ih =>
    cases st with
    | nil => simp at hl
    | cons d st =>
      rw [sqz_cons]
      by_cases hn : n = 1
      · simp [hn] at h
        simp [withUnits, hn]
        exact ih (by simpa using hl) (by simpa using h)
      · cases J with
        | nil => simp [hn] at h
        | cons j J =>
          simp [hn] at h
          simp [withUnits, hn]
          exact ih (by simpa using hl) (by simpa using h.2)

theorem numel_filter_one (s : List Nat) : numel (s.filter (· ≠ 1)) = numel s := by
  induction s with
  | nil => rfl
  | cons n s ih => by_cases h : n = 1 <;> simp [h] <;> simp at ih <;> simp [ih]

theorem rank_withUnits {s J : List Nat} (h : InB J (s.filter (· ≠ 1))) :
    rank (withUnits s J) s = rank J (s.filter (· ≠ 1)) := by
  induction s generalizing J with
  | nil => cases J <;> simp_all [withUnits, rank]
  | cons n s ih =>
    by_cases hn : n = 1
    · simp [hn] at h
      simp [withUnits, hn, rank]
      simpa using ih (by simpa using h)
    · cases J with
      | nil => simp [hn] at h
      | cons j J =>
        simp [hn] at h
        have := ih (J := J) (by simpa using h.2)
        have h2 := numel_filter_one s
        simp at this h2
        simp [withUnits, hn, rank, this, h2]

/-! ### inserting an axis -/

theorem InB_eraseIdx {s idx : List Nat} {k : Nat} (hk : k ≤ s.length) (h : InB idx (s.insertIdx k 1)) :
    InB (idx.eraseIdx k) s ∧ idx[k]? = some 0 := by
  induction s generalizing idx k with
  | nil =>
    simp at hk; subst hk
    cases idx with
    | nil => simp at h
    | cons i idx =>
      simp at h
      cases idx with
      | nil => simp; omega
      | cons => simp at h
  | cons n s ih =>
    cases k with
    | zero => cases idx with
      | nil => simp at h
      | cons i idx => simp at h ⊢; exact ⟨h.2, h.1⟩
    | succ k => cases idx with
      | nil => simp at h
      | cons i idx =>
        simp at h hk
        have := ih hk h.2
        simp; exact ⟨⟨h.1, this.1⟩, this.2⟩

theorem offset_eraseIdx {idx st : List Nat} {k d : Nat} (hk : k ≤ st.length) (h0 : idx[k]? = some 0) :
    offset idx (st.insertIdx k d) = offset (idx.eraseIdx k) st := by
  induction st generalizing idx k with
  | nil =>
    simp at hk; subst hk
    cases idx with
    | nil => simp at h0
    | cons i idx => simp at h0; simp [h0]
  | cons e st ih =>
    cases k with
    | zero => cases idx with
      | nil => simp at h0
      | cons i idx => simp at h0 ⊢; simp [h0]
    | succ k => cases idx with
      | nil => simp at h0
      | cons i idx =>
        simp at h0 hk
        simp [ih hk h0]

theorem numel_insertIdx_one {s : List Nat} {k : Nat} (hk : k ≤ s.length) : numel (s.insertIdx k 1) = numel s := by
  induction s generalizing k with
  | nil => simp at hk; subst hk; simp
  | cons n s ih => cases k with
    | zero => simp
    | succ k => simp at hk; simp [ih hk]

/-! ### reshape strides -/

theorem reshapeStrides_eq (acc : Nat) (s : List Nat) :
    reshapeStrides acc s = ((strideFromShape s).map (· * acc), numel s * acc) := by
  induction s with
  | nil => simp [reshapeStrides, strideFromShape_nil]
  | cons n s ih => simp [reshapeStrides, ih, strideFromShape_cons]; ring

/-! ### slices -/

theorem InB_selectIndex {xs : List Select} {s J : List Nat} (hf : SelectFits xs s) (h : InB J (selectShape xs s)) :
    InB (selectIndex xs J) s := by
  induction xs generalizing s J with
  | nil => cases s <;> simpa [selectIndex, selectShape] using h
  | cons x xs ih =>
    cases s with
    | nil => exact hf.elim
    | cons n s =>
      cases x with
      | fix i => exact ⟨hf.1, ih hf.2 (by simpa [selectShape] using h)⟩
      | keep a len =>
        cases J with
        | nil => simp [selectShape] at h
        | cons j J =>
          simp [selectShape] at h
          have := hf.1
          simp [Select.Fits] at this
          exact ⟨by omega, ih hf.2 h.2⟩

/-! ### diagonals -/

theorem others_eq_dropTwo (i j : Nat) (l : List α) : dropTwo i j 0 l = others i j l := by
  have : ∀ (l : List α) (k : Nat), dropTwo i j k l = ((l.zipIdx k).filter fun p => p.2 ≠ i ∧ p.2 ≠ j).map Prod.fst := by
    intro l
    induction l with
    | nil => intro k; rfl
    | cons x l ih =>
      intro k
      simp only [dropTwo, List.zipIdx_cons]
      by_cases h : k = i ∨ k = j
      · rw [if_pos h, ih, List.filter_cons_of_neg (by simp; omega)]
      · rw [if_neg h, ih, List.filter_cons_of_pos (by simp; omega)]; rfl
  exact this l 0

/-- contribution of position `i` -/
def contrib (i x : Nat) (k : Nat) (st : List Nat) : Nat := if k ≤ i then x * st.getD (i - k) 0 else 0

theorem contrib_cons {i x k d : Nat} {st : List Nat} :
    contrib i x k (d :: st) = if k = i then x * d else contrib i x (k + 1) st := by
  unfold contrib
  by_cases h : k = i
  · subst h; simp
  · by_cases h2 : k ≤ i
    · have : i - k = (i - (k + 1)) + 1 := by omega
      rw [if_pos h2, if_neg h, if_pos (by omega), this]; simp
    · rw [if_neg h2, if_neg h, if_neg (by omega)]

theorem contrib_lt {i x k : Nat} {st : List Nat} (h : i < k) : contrib i x k st = 0 := by
  unfold contrib; rw [if_neg (by omega)]

theorem offset_putTwo {i x j y : Nat} (hij : i ≠ j) (st J : List Nat) (k : Nat)
    (hJ : J.length = (dropTwo i j k st).length) :
    offset (putTwo i x j y st.length k J) st =
      offset J (dropTwo i j k st) + contrib i x k st + contrib j y k st := by
  induction st generalizing k J with
  | nil => simp [putTwo, dropTwo, contrib]
  | cons d st ih =>
    simp only [List.length_cons, putTwo, dropTwo]
    rw [contrib_cons, contrib_cons]
    by_cases hi : k = i
    · have hj : ¬ k = j := by omega
      rw [if_pos hi, if_pos hi, if_neg hj, if_pos (Or.inl hi)]
      simp [dropTwo, hi] at hJ
      rw [offset_cons, ih J (k + 1) (by rw [hi]; exact hJ)]
      have h2 : contrib i x (k + 1) st = 0 := contrib_lt (by omega)
      rw [h2]; omega
    · by_cases hj : k = j
      · rw [if_neg hi, if_pos hj, if_neg hi, if_pos hj, if_pos (Or.inr hj)]
        simp [dropTwo, hj] at hJ
        rw [offset_cons, ih J (k + 1) (by rw [hj]; exact hJ)]
        have h2 : contrib j y (k + 1) st = 0 := contrib_lt (by omega)
        rw [h2]; omega
      · have hor : ¬ (k = i ∨ k = j) := by omega
        rw [if_neg hi, if_neg hj, if_neg hi, if_neg hj, if_neg hor]
        simp [dropTwo, hor] at hJ
        cases J with
        | nil => simp at hJ
        | cons a J =>
          simp at hJ
          simp only [offset_cons, ih J (k + 1) hJ]
          omega

theorem InB_putTwo {i x j y : Nat} (hij : i ≠ j) (s J : List Nat) (k : Nat)
    (hJ : InB J (dropTwo i j k s)) (hx : k ≤ i → ∀ n, s[i - k]? = some n → x < n)
    (hy : k ≤ j → ∀ n, s[j - k]? = some n → y < n) :
    InB (putTwo i x j y s.length k J) s := by
  induction s generalizing k J with
  | nil => simp [putTwo]
  | cons n s ih =>
    have hx' : k + 1 ≤ i → ∀ m, s[i - (k + 1)]? = some m → x < m := by
      intro h m hm
      apply hx (by omega) m
      have : i - k = (i - (k + 1)) + 1 := by omega
      rw [this]; simpa using hm
    have hy' : k + 1 ≤ j → ∀ m, s[j - (k + 1)]? = some m → y < m := by
      intro h m hm
      apply hy (by omega) m
      have : j - k = (j - (k + 1)) + 1 := by omega
      rw [this]; simpa using hm
    simp only [List.length_cons, putTwo]
    simp only [dropTwo] at hJ
    by_cases hi : k = i
    · rw [if_pos hi]
      rw [if_pos (Or.inl hi)] at hJ
      exact ⟨hx (by omega) n (by simp [hi]), ih J (k + 1) hJ hx' hy'⟩
    · by_cases hj : k = j
      · rw [if_neg hi, if_pos hj]
        rw [if_pos (Or.inr hj)] at hJ
        exact ⟨hy (by omega) n (by simp [hj]), ih J (k + 1) hJ hx' hy'⟩
      · rw [if_neg hi, if_neg hj]
        rw [if_neg (by omega)] at hJ
        cases J with
        | nil => simp at hJ
        | cons a J => exact ⟨hJ.1, ih J (k + 1) hJ.2 hx' hy'⟩

theorem length_dropTwo_eq {β : Type} {i j k : Nat} {l : List α} {m : List β} (h : l.length = m.length) :
    (dropTwo i j k l).length = (dropTwo i j k m).length := by
  induction l generalizing m k with
  | nil => cases m <;> simp_all [dropTwo]
  | cons x l ih => cases m with
    | nil => simp at h
    | cons y m =>
      simp only [dropTwo]
      by_cases hh : k = i ∨ k = j <;> simp [hh, ih (m := m) (by simpa using h)]

end Verif
