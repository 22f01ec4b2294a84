import Mathlib.Data.Int.ModEq
import Verif.Model.UsizeSlice
import Verif.Props.Usize
import Verif.Props.ExactSlice
import Verif.Props.Empty

/-!
# C76 slices with machine integers
-/

namespace Verif

variable {α : Type}

/-! ## Arithmetic -/

theorem uSub_ok {M a b : Nat} (c : Bool) (h : b ≤ a) : uSub M c a b = .ok (a - b) := if_pos h

theorem uSub_debug {M a b z : Nat} (h : uSub M true a b = .ok z) : b ≤ a ∧ z = a - b := by
  unfold uSub at h
  by_cases hb : b ≤ a
  · rw [if_pos hb] at h; cases h; exact ⟨hb, rfl⟩
  · rw [if_neg hb, if_pos rfl] at h; cases h

theorem uResult_debug {M z y : Nat} (h : uResult M true z = .ok y) : y = z := by
  unfold uResult at h
  by_cases hz : z < M
  · rw [if_pos hz] at h; cases h; rfl
  · rw [if_neg hz, if_pos rfl] at h; cases h

theorem uResult_release (M z : Nat) : uResult M false z = .ok (z % M) := by
  unfold uResult
  split
  · rename_i h; rw [Nat.mod_eq_of_lt h]
  · rfl

theorem uSub_release {M a b : Nat} (h : a < b) : uSub M false a b = .ok (a + M - b) := by
  unfold uSub; rw [if_neg (by omega)]; rfl

/-- An indexer within its axis has its length computed without overflow. -/
theorem indexedLengthU_ok {M n : Nat} (c : Bool) {ix : Indexer} (h : ix.InRange n) (hn : n < M) :
    ix.indexedLengthU M c n = ix.indexedLength n := by
  obtain ⟨ho, hf⟩ := h
  cases ix with
  | «at» i => rfl
  | range a b => exact (uSub_ok c ho).trans (usub_ok ho).symm
  | rangeFrom a => exact (uSub_ok c ho).trans (usub_ok ho).symm
  | full => rfl
  | rangeIncl a b =>
    simp only [Indexer.indexedLengthU, Indexer.indexedLength]
    rw [uSub_ok c ho, usub_ok ho, ok_bind, ok_bind]
    have : a + (b - a + 1) ≤ n := hf
    exact uResult_ok c (by omega)
  | rangeTo b => rfl
  | rangeToIncl b =>
    have : 0 + (b + 1) ≤ n := hf
    exact uResult_ok c (by omega)

theorem sliceLoopU_ok {M : Nat} (c : Bool) {ixs : List Indexer} {s st : List Nat} (acc : Nat) (hl : s.length = st.length)
    (h : IndexersInRange ixs s) (hs : ∀ n ∈ s, n < M) (ho : acc + selectOffset (sels ixs s) st < M) :
    sliceLoopU M c ixs s st acc =
      .ok (selectShape (sels ixs s) s, selectStride (sels ixs s) st, acc + selectOffset (sels ixs s) st) := by
  induction ixs generalizing s st acc with
  | nil => cases s <;> cases st <;> simp [sliceLoopU, sels, selectShape, selectStride, selectOffset]
  | cons ix ixs ih =>
    cases s with
    | nil => exact h.elim
    | cons n s => cases st with
      | nil => simp at hl
      | cons d st =>
        have hl' : s.length = st.length := by simpa using hl
        have hs' : ∀ n ∈ s, n < M := fun m hm => hs m (by simp [hm])
        simp only [sliceLoopU, sels] at ho ⊢
        rw [indexedLengthU_ok c h.1 (hs n (by simp))]
        rcases Indexer.sel_cases h.1.1 with ⟨h1, h2, h3⟩ | ⟨len, h1, h2, h3⟩
        · rw [h2] at ho ⊢
          simp only [selectOffset] at ho ⊢
          rw [h3, ok_bind, uResult_ok c (by omega), ok_bind, uResult_ok c (by omega), ok_bind,
            ih _ hl' h.2 hs' (by omega), ok_bind, h1]
          simp only [selectShape, selectStride, if_true, pure_res, Nat.add_assoc]
        · rw [h2] at ho ⊢
          simp only [selectOffset] at ho ⊢
          rw [h3, ok_bind, uResult_ok c (by omega), ok_bind, uResult_ok c (by omega), ok_bind,
            ih _ hl' h.2 hs' (by omega), ok_bind, h1]
          simp only [selectShape, selectStride, Bool.false_eq_true, if_false, pure_res, Nat.add_assoc]

theorem uBufferLength_ok {M : Nat} (c : Bool) {s st : List Nat} (acc : Nat) (hp : ∀ n ∈ s, 0 < n) (h : acc + span s st + 1 < M) :
    uBufferLength M c s st acc = .ok (acc + span s st + 1) := by
  induction s generalizing st acc with
  | nil => cases st <;> exact uResult_ok c h
  | cons n s ih =>
    cases st with
    | nil => exact uResult_ok c (by simpa [span] using h)
    | cons d st =>
      rw [span_cons] at h
      rw [uBufferLength, uSub_ok (b := 1) c (hp n (by simp)), ok_bind, uResult_ok c (by omega), ok_bind, uResult_ok c (by omega), ok_bind,
        ih _ (fun m hm => hp m (by simp [hm])) (by omega), span_cons, Nat.add_assoc acc]

/-! ## In-range slices -/

/-- The cell of the far corner. -/
theorem corner_in_buffer {s st : List Nat} (hp : ∀ n ∈ s, 0 < n) (hl : st.length = s.length) :
    ∃ idx, InB idx s ∧ offset idx st = span s st := by
  induction s generalizing st with
  | nil => exact ⟨[], trivial, by simp⟩
  | cons n s ih => cases st with
    | nil => simp at hl
    | cons d st =>
      obtain ⟨idx, h1, h2⟩ := ih (st := st) (fun m hm => hp m (by simp [hm])) (by simpa using hl)
      refine ⟨(n - 1) :: idx, ⟨by have := hp n (by simp); omega, h1⟩, ?_⟩
      rw [offset_cons, span_cons, h2, Nat.mul_comm]

theorem sliceResultU_ok {M : Nat} (c : Bool) {a : Arr α} {s : List Nat} {f : List Nat → α} (ha : a.Denotes s f)
    (hb : 2 * a.buf.length ≤ M) (hst : ∀ d ∈ a.stride, d < M) {xs : List Select} (hf : SelectFits xs s)
    (hne : numel (selectShape xs s) ≠ 0) (k : Bool) :
    selectOffset xs a.stride < a.buf.length ∧
    a.sliceResultU M c (selectShape xs s) (selectStride xs a.stride) (selectOffset xs a.stride) k =
      a.sliceResult (selectShape xs s) (selectStride xs a.stride) (selectOffset xs a.stride) k := by
  have hs := ha.1
  subst hs
  have hls := length_selectStride (xs := xs) ha.2.1.symm
  have hp : ∀ n ∈ selectShape xs a.shape, 0 < n := fun n hn => Nat.pos_of_ne_zero (numel_ne_zero.1 hne n hn)
  have hlen : calculateStridedBufferLength (selectShape xs a.shape) (selectStride xs a.stride) =
      .ok (span (selectShape xs a.shape) (selectStride xs a.stride) + 1) := calculateStridedBufferLength_ok hne
  obtain ⟨r, hok⟩ : ∃ r, a.sliceResult (selectShape xs a.shape) (selectStride xs a.stride) (selectOffset xs a.stride) k = .ok r := by
    unfold Arr.sliceResult; rw [hlen]; exact ⟨_, rfl⟩
  obtain ⟨h0, h1, h2, h3, h4, h5, _⟩ := sliceResult_inv ha.2.1 hf hok
  have hden := h4.denotes ha
  unfold Arr.sliceResult at hok
  rw [hlen] at hok
  cases hok
  obtain ⟨J, hJ, hJ'⟩ := corner_in_buffer hp hls
  have hcell : a.off + selectOffset xs a.stride + offset J (selectStride xs a.stride) < a.buf.length :=
    (List.getElem?_eq_some_iff.1 (hden.2.2 J hJ)).1
  refine ⟨by omega, ?_⟩
  unfold Arr.sliceResultU Arr.sliceResult
  rw [uBufferLength_ok c 0 hp (by omega), hlen, ok_bind, ok_bind, uUpdateFlags_ok c _
    (fits_of_denotes hden hp hb fun p hpm _ => hst _ (mem_selectStride (List.of_mem_zip hpm).2)), ok_bind, Nat.zero_add]

/-- **C76** (part). A slice within the array that has elements is exactly the view asked for, in debug and release builds. -/
theorem C76_in_range_partial {M : Nat} (checks : Bool) {a : Arr α} {s : List Nat} {f : List Nat → α} (ha : a.Denotes s f)
    (hb : 2 * a.buf.length ≤ M) (hs : ∀ n ∈ s, n < M) (hst : ∀ d ∈ a.stride, d < M) {ixs : List Indexer}
    (h : IndexersInRange ixs s) (hne : numel (selectShape (sels ixs s) s) ≠ 0) :
    ∃ r, a.sliceU M checks ixs = .ok r ∧ a.slice ixs = .ok r ∧ r.buf = a.buf ∧
      r.Denotes (selectShape (sels ixs s) s) (fun J => f (selectIndex (sels ixs s) J)) := by
  obtain ⟨r, h1, h2, h3, _⟩ := C16_slice_partial ha h hne
  refine ⟨r, ?_, h1, h2, h3⟩
  obtain ⟨h4, h5⟩ := sliceResultU_ok checks ha hb hst h.fits hne false
  have hs' := ha.1
  subst hs'
  unfold Arr.sliceU
  rw [sliceLoopU_ok checks 0 ha.2.1.symm h hs (by omega), ok_bind, Nat.zero_add]
  exact h5.trans ((slice_ok ha.2.1 h).symm.trans h1)

example := C76_in_range_partial (M := 2 ^ 64) false demo_denotes (by decide) (by decide) (by decide) (ixs := [.full, .range 1 3])
  ⟨by decide, by decide, trivial⟩ (by decide)

/-- **C76** (part). Likewise for `slice_along`. -/
theorem C76_along_in_range_partial {M : Nat} (checks : Bool) {a : Arr α} {s : List Nat} {f : List Nat → α} (ha : a.Denotes s f)
    (hb : 2 * a.buf.length ≤ M) (hs : ∀ n ∈ s, n < M) (hst : ∀ d ∈ a.stride, d < M) {axis : Int} {k n : Nat} {ix : Indexer}
    (hk : AxisIs axis s.length k) (hn : s[k]? = some n) (hr : ix.InRange n)
    (hne : numel (selectShape (selectAt s k (ix.sel n)) s) ≠ 0) :
    ∃ r, a.sliceAlongU M checks axis ix = .ok r ∧ a.sliceAlong axis ix = .ok r ∧ r.buf = a.buf ∧
      r.Denotes (selectShape (selectAt s k (ix.sel n)) s) (fun J => f (selectIndex (selectAt s k (ix.sel n)) J)) := by
  obtain ⟨r, h1, h2, h3⟩ := C16_sliceAlong_partial ha hk hn hr hne
  refine ⟨r, ?_, h1, h2, h3⟩
  have hs' := ha.1
  subst hs'
  obtain ⟨hf, he⟩ := sliceAlong_ok ha.2.1 hk hn hr
  obtain ⟨h4, h5⟩ := sliceResultU_ok checks ha hb hst hf hne true
  rw [← he, h1] at h5
  have hk1 : k < a.shape.length := hk.1
  have hlen := ha.2.1
  have hd : a.stride[k]? = some (a.stride[k]'(by omega)) := List.getElem?_eq_getElem (by omega)
  generalize a.stride[k]'(by omega) = d at hd
  unfold Arr.sliceAlongU
  rw [asAbsolute_ok (n := a.ndims) hk]
  simp only [ok_bind]
  rw [hn, hd]
  have hfit := hr.2
  have hix := indexedLengthU_ok checks hr (hs n (List.mem_of_getElem? hn))
  rcases Indexer.sel_cases hr.1 with ⟨g1, g2, g3⟩ | ⟨len, g1, g2, g3⟩
  · rw [g2] at hfit h4 h5
    obtain ⟨_, e2, e3, e4⟩ := selectAt_fix ha.2.1.symm hn hd hfit
    rw [e4] at h4
    rw [e2, e3, e4] at h5
    simp only [g1, if_true]
    rw [uResult_ok checks (by omega), ok_bind, h5]
  · rw [g2] at hfit h4 h5
    obtain ⟨_, e2, e3, e4⟩ := selectAt_keep ha.2.1.symm hn hd hfit
    rw [e4] at h4
    rw [e2, e3, e4] at h5
    simp only [g1, Bool.false_eq_true, if_false]
    rw [hix, g3, ok_bind, uResult_ok checks (by omega), ok_bind, h5]

example := C76_along_in_range_partial (M := 2 ^ 64) false demo_denotes (by decide) (by decide) (by decide) (axis := -1) (k := 1) (n := 3)
  (ix := .range 1 3) ⟨by decide, by decide⟩ rfl (by decide) (by decide)

/-! ## Debug builds -/

theorem indexedLengthU_debug {M n m : Nat} {ix : Indexer} (h : ix.indexedLengthU M true n = .ok m) : ix.indexedLength n = .ok m := by
  cases ix with
  | «at» i => exact h
  | range a b => obtain ⟨h1, rfl⟩ := uSub_debug h; exact usub_ok h1
  | rangeFrom a => obtain ⟨h1, rfl⟩ := uSub_debug h; exact usub_ok h1
  | full => exact h
  | rangeIncl a b =>
    obtain ⟨d, h1, h2⟩ := bind_eq_ok.1 h
    obtain ⟨h3, rfl⟩ := uSub_debug h1
    rw [uResult_debug h2]
    simp only [Indexer.indexedLength]
    rw [usub_ok h3]; rfl
  | rangeTo b => exact h
  | rangeToIncl b => rw [uResult_debug h]; rfl

theorem sliceLoopU_debug {M acc : Nat} {ixs : List Indexer} {s st : List Nat} {r : List Nat × List Nat × Nat}
    (h : sliceLoopU M true ixs s st acc = .ok r) :
    ∃ o, sliceLoop ixs s st = .ok (r.1, r.2.1, o) ∧ r.2.2 = acc + o := by
  induction ixs generalizing s st acc r with
  | nil => cases h; exact ⟨0, rfl, rfl⟩
  | cons ix ixs ih =>
    cases s with
    | nil => cases h
    | cons n s => cases st with
      | nil => cases h
      | cons d st =>
        obtain ⟨len, h1, h⟩ := bind_eq_ok.1 h
        obtain ⟨p, h2, h⟩ := bind_eq_ok.1 h
        obtain ⟨acc', h3, h⟩ := bind_eq_ok.1 h
        obtain ⟨r', h4, h7⟩ := bind_eq_ok.1 h
        clear h
        obtain ⟨o, h5, h6⟩ := ih h4
        have e2 := uResult_debug h2
        have e3 := uResult_debug h3
        subst e2 e3
        refine ⟨d * ix.first + o, ?_⟩
        rw [sliceLoop, indexedLengthU_debug h1, ok_bind, h5, ok_bind]
        cases hc : ix.collapse <;> rw [hc] at h7
        · cases h7; exact ⟨rfl, by simp only; omega⟩
        · cases h7; exact ⟨rfl, by omega⟩

theorem uBufferLength_debug {M acc L : Nat} {s st : List Nat} (hl : s.length = st.length)
    (h : uBufferLength M true s st acc = .ok L) : (∀ n ∈ s, 0 < n) ∧ L = acc + span s st + 1 := by
  induction s generalizing st acc with
  | nil => cases st <;> exact ⟨by simp, uResult_debug h⟩
  | cons n s ih => cases st with
    | nil => simp at hl
    | cons d st =>
      obtain ⟨m, h1, h⟩ := bind_eq_ok.1 h
      obtain ⟨p, h2, h⟩ := bind_eq_ok.1 h
      obtain ⟨acc', h3, h⟩ := bind_eq_ok.1 h
      obtain ⟨h4, e1⟩ := uSub_debug h1
      have e2 := uResult_debug h2
      have e3 := uResult_debug h3
      subst e1 e2 e3
      obtain ⟨h5, h6⟩ := ih (by simpa using hl) h
      refine ⟨fun k hk => ?_, by rw [span_cons]; omega⟩
      rcases List.mem_cons.1 hk with rfl | hk
      · omega
      · exact h5 k hk

theorem uHasUniformStride_debug {M : Nat} {s st : List Nat} {r : Option Nat} (h : uHasUniformStride M true s st = .ok r) :
    r = hasUniformStride s st := by
  induction s generalizing st with
  | nil => cases st <;> (cases h; rfl)
  | cons m s ih =>
    cases s with
    | nil => rcases st with _ | ⟨d, _ | ⟨e, st⟩⟩ <;> (cases h; rfl)
    | cons n s =>
      rcases st with _ | ⟨e, _ | ⟨d, st⟩⟩
      · cases h; rfl
      · cases h; rfl
      · rw [uHasUniformStride] at h
        rw [hasUniformStride]
        by_cases he : e = 0
        · subst he
          simp only [ne_eq, not_true_eq_false, if_false] at h
          simpa using ih h
        · rw [if_pos he] at h
          obtain ⟨p, h1, h⟩ := bind_eq_ok.1 h
          have e1 := uResult_debug h1
          subst e1
          by_cases hp : e = n * d
          · simp only [hp, ne_eq, not_true_eq_false, if_false] at h
            simpa [hp] using ih h
          · simp only [ne_eq, hp, not_false_eq_true, if_true, pure_res] at h
            cases h
            simp [he, hp]

/-- **C76.** A debug build never returns a view that differs from the one of exact arithmetic: what it accepts has no range that ends
before its start, has elements, and is the view asked for; everything else is refused. -/
theorem C76_debug {M : Nat} {a r : Arr α} (hl : a.stride.length = a.shape.length) {ixs : List Indexer}
    (h : a.sliceU M true ixs = .ok r) :
    IndexersOrdered ixs a.shape ∧ numel (selectShape (sels ixs a.shape) a.shape) ≠ 0 ∧ a.slice ixs = .ok r := by
  have key : a.slice ixs = .ok r := by
    obtain ⟨l, h1, h⟩ := bind_eq_ok.1 h
    obtain ⟨o, h2, h3⟩ := sliceLoopU_debug h1
    rw [Nat.zero_add] at h3
    have ho := ordered_of_sliceLoop h2
    have h2' := sliceLoop_ordered hl.symm ho
    have hls : l.1.length = l.2.1.length := by
      rw [h2] at h2'
      injection h2' with h2'
      rw [show l.1 = _ from congrArg (·.1) h2', show l.2.1 = _ from congrArg (·.2.1) h2']
      exact (length_selectStride hl.symm).symm
    unfold Arr.slice
    rw [h2, ok_bind]
    obtain ⟨len, h4, h⟩ := bind_eq_ok.1 h
    obtain ⟨fl, h5, h⟩ := bind_eq_ok.1 h
    obtain ⟨hp, e⟩ := uBufferLength_debug hls h4
    unfold Arr.sliceResult
    rw [calculateStridedBufferLength_ok (Nat.pos_iff_ne_zero.1 (numel_pos' hp)), ok_bind]
    have hfl : fl = updateFlagsWithContiguity a.flags l.1 l.2.1 := by
      obtain ⟨u, h6, h7⟩ := bind_eq_ok.1 h5
      rw [uHasUniformStride_debug h6] at h7
      unfold updateFlagsWithContiguity
      cases hu : hasUniformStride l.1 l.2.1 <;> rw [hu] at h7 <;> (cases h7; rfl)
    cases h
    rw [hfl, h3, e]
    simp [span, pure_res]
  have := (C17_accepted_exact hl ixs).1 ⟨r, key⟩
  exact ⟨this.1, this.2, key⟩

example := C76_debug (M := 2 ^ 64) (a := demo) rfl (ixs := [.full, .range 1 3]) rfl

/-! ## Release builds: empty slices -/

theorem sliceLoopU_release {M : Nat} {ixs : List Indexer} {s st : List Nat} (acc : Nat) (hl : s.length = st.length)
    (h : IndexersInRange ixs s) (hs : ∀ n ∈ s, n < M) :
    ∃ o, sliceLoopU M false ixs s st acc = .ok (selectShape (sels ixs s) s, selectStride (sels ixs s) st, o) := by
  induction ixs generalizing s st acc with
  | nil => exact ⟨acc, by cases s <;> cases st <;> simp [sliceLoopU, sels, selectShape, selectStride]⟩
  | cons ix ixs ih =>
    cases s with
    | nil => exact h.elim
    | cons n s => cases st with
      | nil => simp at hl
      | cons d st =>
        simp only [sliceLoopU, sels]
        rw [indexedLengthU_ok false h.1 (hs n (by simp))]
        rcases Indexer.sel_cases h.1.1 with ⟨h1, h2, h3⟩ | ⟨len, h1, h2, h3⟩
        all_goals
          rw [h3, ok_bind, uResult_release, ok_bind, uResult_release, ok_bind]
          obtain ⟨o, ho⟩ := ih (s := s) (st := st) ((acc + d * ix.first % M) % M) (by simpa using hl) h.2 fun m hm => hs m (by simp [hm])
          rw [ho, ok_bind, h1, h2]
          exact ⟨o, rfl⟩

/-- The distance between the first and the last cell; an extent of 0 counts `-1` strides. -/
def spanZ (s st : List Nat) : Int := ((s.zip st).map fun p => (p.2 : Int) * ((p.1 : Int) - 1)).sum

@[simp] theorem spanZ_cons (n d : Nat) (s st : List Nat) : spanZ (n :: s) (d :: st) = d * ((n : Int) - 1) + spanZ s st := by
  simp [spanZ]

theorem uBufferLength_release {M : Nat} (hM : 0 < M) (s st : List Nat) (acc : Nat) :
    ∃ L, uBufferLength M false s st acc = .ok L ∧ L < M ∧ (L : Int) ≡ acc + spanZ s st + 1 [ZMOD M] := by
  have base : ∀ acc, ∃ L, uResult M false (acc + 1) = .ok L ∧ L < M ∧ (L : Int) ≡ acc + 0 + 1 [ZMOD M] := fun acc =>
    ⟨_, uResult_release _ _, Nat.mod_lt _ hM, by push_cast; rw [add_zero]; exact Int.mod_modEq _ _⟩
  induction s generalizing st acc with
  | nil => cases st <;> exact base acc
  | cons n s ih => cases st with
    | nil => exact base acc
    | cons d st =>
      obtain ⟨m, h1, h2⟩ : ∃ m, uSub M false n 1 = .ok m ∧ (m : Int) ≡ (n : Int) - 1 [ZMOD M] := by
        by_cases hn : 1 ≤ n
        · exact ⟨_, uSub_ok _ hn, by rw [Nat.cast_sub hn]; rfl⟩
        · refine ⟨_, uSub_release (by omega), ?_⟩
          have : ((n + M - 1 : Nat) : Int) = (n : Int) - 1 + M := by omega
          rw [this]
          exact Int.add_modEq_right
      obtain ⟨L, h3, h4, h5⟩ := ih st ((acc + d * m % M) % M)
      refine ⟨L, ?_, h4, h5.trans ?_⟩
      · rw [uBufferLength, h1, ok_bind, uResult_release, ok_bind, uResult_release, ok_bind, h3]
      · rw [spanZ_cons]
        push_cast
        have e1 : ((acc : Int) + d * m % M) % M ≡ acc + d * ((n : Int) - 1) [ZMOD M] :=
          (Int.mod_modEq _ _).trans (Int.ModEq.add_left _ ((Int.mod_modEq _ _).trans (h2.mul_left _)))
        have := (e1.add_right (spanZ s st)).add_right 1
        rwa [show (acc : Int) + d * ((n : Int) - 1) + spanZ s st + 1 = acc + (d * ((n : Int) - 1) + spanZ s st) + 1 by ring] at this

theorem spanZ_uniform {s st : List Nat} {e : Nat} (hl : s.length = st.length) (hne : s ≠ []) (hp : ∀ d ∈ st, 0 < d)
    (h : hasUniformStride s st = some e) : spanZ s st = numel s * e - e ∧ s.headD 0 * st.headD 0 = numel s * e := by
  induction s generalizing st with
  | nil => exact absurd rfl hne
  | cons m s ih =>
    cases s with
    | nil =>
      rcases st with _ | ⟨d, _ | ⟨c, st⟩⟩
      · simp at hl
      · simp only [hasUniformStride, Option.some.injEq] at h
        subst h
        simp only [spanZ, numel_cons, numel_nil]
        refine ⟨by simp; ring, by simp⟩
      · simp at hl
    | cons n s =>
      rcases st with _ | ⟨c, _ | ⟨d, st⟩⟩
      · simp at hl
      · simp at hl
      · rw [hasUniformStride] at h
        split at h
        · cases h
        · rename_i hc
          have hc0 : c ≠ 0 := Nat.pos_iff_ne_zero.1 (hp c (by simp))
          have hcd : c = n * d := by
            by_contra hcd
            exact hc (by simp [hc0, hcd])
          obtain ⟨h1, h2⟩ := ih (st := d :: st) (by simpa using hl) (by simp) (fun x hx => hp x (by simp at hx ⊢; tauto)) h
          simp only [List.headD_cons] at h2 ⊢
          rw [spanZ_cons, h1, numel_cons (s := n :: s)]
          have h3 : (c : Int) = numel (n :: s) * e := by rw [hcd, h2]; push_cast; ring
          exact ⟨by rw [h3]; push_cast; ring, by rw [hcd, h2, Nat.mul_assoc]⟩

theorem fits_select {M : Nat} {xs : List Select} {s st : List Nat} (hf : SelectFits xs s) (h : Fits M s st) :
    Fits M (selectShape xs s) (selectStride xs st) := by
  induction xs generalizing s st with
  | nil => cases s <;> cases st <;> simpa [selectShape, selectStride] using h
  | cons x xs ih =>
    cases s with
    | nil => exact hf.elim
    | cons n s => cases st with
      | nil => cases x <;> (intro p hp; simp [selectStride] at hp)
      | cons d st =>
        have ht : Fits M s st := fun p hp => h p (by simp [hp])
        have ih := ih (s := s) (st := st) hf.2 ht
        cases x with
        | fix i => exact ih
        | keep a len =>
          intro p hp
          rcases List.mem_cons.1 hp with rfl | hp
          · have h1 : a + len ≤ n := hf.1
            have h2 : n * d < M := h (n, d) (by simp)
            have := Nat.mul_le_mul_right d (show len ≤ n by omega)
            show len * d < M
            omega
          · exact ih p hp

theorem selectShape_length_le (xs : List Select) (s : List Nat) : (selectShape xs s).length ≤ s.length := by
  induction xs generalizing s with
  | nil => cases s <;> simp [selectShape]
  | cons x xs ih =>
    cases s with
    | nil => cases x <;> simp [selectShape]
    | cons n s =>
      have := ih s
      cases x <;> simp [selectShape] <;> omega

/-- **C76** (part). A slice within the array that has no elements is accepted by release builds (debug builds refuse it,
`C76_debug`), provided that no stride is 0. The length field wraps around; nevertheless the view has the shape asked for, iterates over
nothing, its copies are empty and its reductions are the start value. Missing: zero strides (`C76_false`). -/
theorem C76_release_empty_partial {M : Nat} (hM : 1 < M) {a : Arr α} (hl : a.stride.length = a.shape.length)
    (hs : ∀ n ∈ a.shape, n < M) (hfit : ∀ p ∈ a.shape.zip a.stride, p.1 * p.2 < M) (hpos : ∀ d ∈ a.stride, 0 < d)
    (hd : a.shape.length ≤ 32) {ixs : List Indexer} (h : IndexersInRange ixs a.shape)
    (h0 : 0 ∈ selectShape (sels ixs a.shape) a.shape) (step : α → α → α) (init : α) :
    ∃ r, a.sliceU M false ixs = .ok r ∧ r.buf = a.buf ∧ r.shape = selectShape (sels ixs a.shape) a.shape ∧
      r.flatiter = .ok [] ∧ (∃ c, r.clone = .ok c ∧ c.shape = r.shape ∧ c.buf = []) ∧
      (∃ c, r.flatten = .ok c ∧ c.shape = [0] ∧ c.buf = []) ∧
      ∃ v, r.reduceAll step init (portableRed step init) = .ok v ∧ v.Denotes [] (fun _ => init) := by
  obtain ⟨o, h1⟩ := sliceLoopU_release (M := M) 0 hl.symm h hs
  have hls := length_selectStride (xs := sels ixs a.shape) hl.symm
  have hpos' : ∀ d ∈ selectStride (sels ixs a.shape) a.stride, 0 < d := fun d hd => hpos d (mem_selectStride hd)
  have hfit' := fits_select h.fits (M := M) (st := a.stride) hfit
  have hdim : (selectShape (sels ixs a.shape) a.shape).length ≤ 32 := by
    have := selectShape_length_le (sels ixs a.shape) a.shape
    omega
  generalize selectShape (sels ixs a.shape) a.shape = s at *
  generalize selectStride (sels ixs a.shape) a.stride = st at *
  obtain ⟨L, h2, h3, h4⟩ := uBufferLength_release (M := M) (by omega) s st 0
  refine ⟨{ buf := a.buf, off := a.off + o, len := L, cap := 0, shape := s, stride := st,
            flags := { updateFlagsWithContiguity a.flags s st with owned := false, userCreated := false } }, ?_, rfl, rfl, ?_⟩
  · unfold Arr.sliceU
    rw [h1, ok_bind]
    unfold Arr.sliceResultU
    simp only [h2, ok_bind]
    rw [uUpdateFlags_ok false _ hfit']
    rfl
  generalize hr : Arr.mk (α := α) a.buf _ _ _ _ _ _ = r
  have hrs : r.shape = s := by rw [← hr]
  have hrst : r.stride = st := by rw [← hr]
  have hden := fun f => denotes_of_zero (a := r) (by rw [hrs, hrst, hls]) (by rw [hrs]; exact h0) f
  have hfl : r.FlagsExact := by rw [← hr]; exact flagsExact_update
  have hnum : numel r.shape = 0 := by rw [hrs]; exact numel_eq_zero.2 h0
  have h0' : 0 ∈ r.shape := by rw [hrs]; exact h0
  have hok : r.CloneOK := fun hc => by
    obtain ⟨e, he, h5⟩ := hfl.contiguous hc
    refine ⟨?_, ?_⟩
    · rw [hrs, hrst] at he
      have hne : s ≠ [] := fun hn => by rw [hn] at h0; simp at h0
      obtain ⟨h6, _⟩ := spanZ_uniform hls.symm hne hpos' he
      have he1 : e = 1 := by
        have : 0 < e := by
          rcases Nat.eq_zero_or_pos e with h7 | h7
          · exact absurd (hpos' e (List.mem_of_getLast? (hasUniformStride_getLast hls.symm he hne))) (by omega)
          · exact h7
        omega
      rw [he1, numel_eq_zero.2 h0] at h6
      rw [h6] at h4
      have h7 : (L : Int) ≡ 0 [ZMOD M] := by simpa using h4
      have h8 := Int.emod_emod_of_dvd (L : Int) (dvd_refl (M : Int))
      have h9 : (L : Int) % M = 0 := by simpa [Int.ModEq] using h7
      rw [Int.emod_eq_of_lt (by omega) (by omega)] at h9
      rw [hnum, ← hr]
      show L = 0
      omega
    · rw [hnum]
      unfold offsets
      rw [indices_of_zero h0']; rfl
  have hcd : r.cloneData = .ok [] := by
    rw [cloneData_ok (hden fun _ => init) hok hfl (by rw [hrs]; exact hdim), elements_of_zero h0']
  refine ⟨?_, ⟨Arr.fromContiguousOwnedBuffer r.shape [], ?_, rfl, rfl⟩, ⟨Arr.fromContiguousOwnedBuffer [0] [], ?_, rfl, rfl⟩, ?_⟩
  · rw [(hden fun _ => init).flatiter (by rw [hrs]; exact hdim), elements_of_zero h0']
  · unfold Arr.clone; rw [hcd]; rfl
  · unfold Arr.flatten; rw [hcd]
    show Except.ok (Arr.fromContiguousOwnedBuffer [r.size] []) = _
    rw [show r.size = 0 from hnum]
  · obtain ⟨v, h5, h6⟩ := C09_reduce_partial step init (hden fun _ => init) (by rw [hrs]; exact hdim) (.inr (.inl (.inl hnum)))
    rw [indices_of_zero h0'] at h6
    exact ⟨v, h5, h6⟩

example := C76_release_empty_partial (M := 2 ^ 64) (by decide) (a := demo) rfl (by decide) (by decide) (by decide) (by decide)
  (ixs := [.full, .range 2 2]) ⟨by decide, by decide, trivial⟩ (by decide) (fun x y => x + y) 0

/-! ## Release builds: what goes wrong -/

/-- **C76, negation for every vector.** A release build accepts every range that ends before its start, as a view of enormous extent;
reading it at an index within its shape leaves the buffer. -/
theorem C76_reversed {M : Nat} {data : List α} (hM : data.length < M) {b c : Nat} (hcb : c < b) (hb : b ≤ data.length) :
    ∃ r, (Arr.fromContiguousOwnedBuffer [data.length] data).sliceU M false [.range b c] = .ok r ∧
      r.shape = [c + M - b] ∧ InB [data.length - b] r.shape ∧ r.index [data.length - b] = .error .oob := by
  have hlt : c + M - b < M := by omega
  have hstr : (Arr.fromContiguousOwnedBuffer [data.length] data).stride = [1] := rfl
  have h1 : sliceLoopU M false [.range b c] [data.length] [1] 0 = .ok ([c + M - b], [1], b) := by
    simp only [sliceLoopU, Indexer.indexedLengthU]
    rw [uSub_release hcb, ok_bind]
    simp only [Indexer.first, Nat.one_mul]
    rw [uResult_ok false (show b < M by omega), ok_bind, Nat.zero_add, uResult_ok false (show b < M by omega), ok_bind]
    rfl
  have h2 : uBufferLength M false [c + M - b] [1] 0 = .ok (c + M - b) := by
    rw [uBufferLength, uSub_ok (b := 1) false (by omega), ok_bind, Nat.one_mul, uResult_ok false (by omega), ok_bind, Nat.zero_add,
      uResult_ok false (by omega), ok_bind, uBufferLength, Nat.sub_add_cancel (by omega), uResult_ok false hlt]
    all_goals simp
  obtain ⟨fl, h3⟩ : ∃ fl, (Arr.fromContiguousOwnedBuffer [data.length] data).sliceU M false [.range b c] =
      .ok { buf := data, off := 0 + b, len := c + M - b, cap := 0, shape := [c + M - b], stride := [1], flags := fl } := by
    unfold Arr.sliceU
    show ∃ fl, (sliceLoopU M false [.range b c] [data.length] [1] 0 >>= fun r => _) = _
    rw [h1, ok_bind]
    unfold Arr.sliceResultU
    simp only [h2, ok_bind]
    exact ⟨_, rfl⟩
  refine ⟨_, h3, rfl, ?_, ?_⟩
  · rw [InB_cons]; exact ⟨by omega, trivial⟩
  · unfold Arr.index
    rw [assert_ok (by rfl)]
    simp only [ok_bind]
    rw [assert_ok (by simp [offset]; omega)]
    simp only [ok_bind]
    unfold Arr.read
    simp [offset]
    rw [List.getElem?_eq_none (by omega)]

example := C76_reversed (M := 2 ^ 64) (data := [1, 2, 3, 4, 5]) (by decide) (b := 3) (c := 1) (by decide) (by decide)

/-- **C76** fails in release builds, whatever the width of `usize`. The slice `3..1` of five numbers is accepted with extent `M - 2`, and
reading its index 2 leaves the buffer; the slice `1..1` of a broadcast vector is a view without elements whose clone has one. Debug builds
refuse both. -/
theorem C76_false {M : Nat} (hM : 5 < M) :
    (∃ r, (Arr.fromContiguousOwnedBuffer [5] [1, 2, 3, 4, (5 : Int)]).sliceU M false [.range 3 1] = .ok r ∧
      r.shape = [1 + M - 3] ∧ InB [2] r.shape ∧ r.index [2] = .error .oob) ∧
    (Arr.fromContiguousOwnedBuffer [5] [1, 2, 3, 4, (5 : Int)]).sliceU M true [.range 3 1] = .error .panic ∧
    ∃ v, (Arr.fromContiguousOwnedBuffer [1] [(7 : Int)]).broadcastTo [3] = .ok v ∧
      (∃ r c, v.sliceU M false [.range 1 1] = .ok r ∧ r.shape = [0] ∧ r.flatiter = .ok [] ∧ r.clone = .ok c ∧ c.buf = [7]) ∧
      v.sliceU M true [.range 1 1] = .error .panic := by
  refine ⟨C76_reversed (data := [1, 2, 3, 4, (5 : Int)]) hM (by omega) (by simp), rfl, _, rfl, ?_, ?_⟩
  · have h0 : ∀ c, uResult M c 0 = .ok 0 := fun c => uResult_ok c (by omega)
    have h1 : uResult M false 1 = .ok 1 := uResult_ok _ (by omega)
    unfold Arr.sliceU
    show ∃ r c, (sliceLoopU M false [.range 1 1] [3] [0] 0 >>= fun l => _) = _ ∧ _
    have h2 : sliceLoopU M false [.range 1 1] [3] [0] 0 = .ok ([0], [0], 0) := by
      simp only [sliceLoopU, Indexer.indexedLengthU, Indexer.first, Nat.zero_mul, h0, ok_bind, Nat.add_zero]; rfl
    have h3 : uBufferLength M false [0] [0] 0 = .ok 1 := by
      rw [uBufferLength, uSub_release (by omega), ok_bind, Nat.zero_mul, h0, ok_bind, Nat.add_zero, h0, ok_bind, uBufferLength, h1]
      all_goals simp
    rw [h2, ok_bind]
    unfold Arr.sliceResultU
    simp only [h3, ok_bind]
    exact ⟨_, _, rfl, rfl, rfl, rfl, rfl⟩
  · have h0 : ∀ c, uResult M c 0 = .ok 0 := fun c => uResult_ok c (by omega)
    unfold Arr.sliceU
    show (sliceLoopU M true [.range 1 1] [3] [0] 0 >>= fun l => _) = _
    have h2 : sliceLoopU M true [.range 1 1] [3] [0] 0 = .ok ([0], [0], 0) := by
      simp only [sliceLoopU, Indexer.indexedLengthU, Indexer.first, Nat.zero_mul, h0, ok_bind, Nat.add_zero]; rfl
    rw [h2, ok_bind]
    rfl

example := C76_false (M := 2 ^ 64) (by decide)

/-! ### the hypotheses can be met -/

/-- A 3×4 array, a block with elements and an empty block. -/
example : (∀ n ∈ [3, 4], n < 2 ^ 64) ∧ (∀ d ∈ strideFromShape [3, 4], d < 2 ^ 64 ∧ 0 < d) ∧
    (∀ p ∈ [3, 4].zip (strideFromShape [3, 4]), p.1 * p.2 < 2 ^ 64) ∧
    IndexersInRange [.range 1 3, .rangeFrom 2] [3, 4] ∧
    numel (selectShape (sels [.range 1 3, .rangeFrom 2] [3, 4]) [3, 4]) ≠ 0 ∧
    IndexersInRange [.range 2 2, .full] [3, 4] ∧ 0 ∈ selectShape (sels [.range 2 2, .full] [3, 4]) [3, 4] := by decide

/-- A debug build does accept slices, and a release build an empty one (here with an 8-bit `usize`). -/
example : (∃ r, (Arr.fromContiguousOwnedBuffer [3, 4] (List.range 12)).sliceU 256 true [.range 1 3, .rangeFrom 2] = .ok r ∧
      r.flatiter = .ok [6, 7, 10, 11]) ∧
    ((Arr.fromContiguousOwnedBuffer [3, 4] (List.range 12)).sliceU 256 false [.range 2 2, .full]).map (·.shape) = .ok [0, 4] ∧
    ∃ r, (Arr.fromContiguousOwnedBuffer [3, 4] (List.range 12)).sliceAlongU 256 true (-1) (.rangeIncl 1 2) = .ok r ∧
      r.flatiter = .ok [1, 2, 5, 6, 9, 10] :=
  ⟨⟨_, rfl, rfl⟩, by decide +kernel, ⟨_, rfl, rfl⟩⟩

end Verif
