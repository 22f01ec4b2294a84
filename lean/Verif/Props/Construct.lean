import Verif.Props.History
import Verif.Lemmas.Basics

set_option linter.unusedSimpArgs false

/-!
# C01 construction, C02 flat iteration, C18/C19 indexing, C20 clone, C21 flatten, C22 equality, C24 fill,
C48 astype, C50 full/zeros/ones/scalar
-/

namespace Verif

variable {α β : Type}

/-! ## C01 -/

/-- **C01.** An array built from a row-major buffer returns, at every in-range multi-index, the entry of
the buffer at the row-major rank of that index. -/
theorem C01_index {s : List Nat} {data : List α} (h : data.length = numel s) {idx : List Nat} (hi : InB idx s) :
    ∃ v, data[rank idx s]? = some v ∧ (Arr.fromContiguousOwnedBuffer s data).index idx = .ok v := by
  have hr : rank idx s < data.length := by rw [h]; exact rank_lt hi
  refine ⟨_, List.getElem?_eq_getElem hr, ?_⟩
  unfold Arr.index
  rw [assert_ok (by simp [Arr.ndims, Arr.fromContiguousOwnedBuffer, hi.length])]
  simp only [ok_bind]
  have ho : offset idx (strideFromShape s) = rank idx s := offset_strideFromShape hi.length
  rw [assert_ok (by simp only [Arr.fromContiguousOwnedBuffer, ho]; exact decide_eq_true hr)]
  simp only [ok_bind]
  apply Arr.read_ok
  simp only [Arr.fromContiguousOwnedBuffer, ho, Nat.zero_add]
  exact List.getElem?_eq_getElem hr

example := C01_index (s := [2, 3]) (data := [10, 11, 12, 13, 14, 15]) rfl (idx := [1, 0]) (by decide)

/-- **C01**, as a statement about the whole tensor. -/
theorem C01_denotes {s : List Nat} {f : List Nat → α} :
    (Arr.fromContiguousOwnedBuffer s (elements s f)).Denotes s f := denotes_fromContiguous

example : (Arr.fromContiguousOwnedBuffer [2, 2, 2] [0, 1, 2, 3, 4, 5, 6, 7]).index [1, 0, 1] = .ok 5 := by decide

/-! ## C02 -/

/-- **C02.** `flatiter()` yields the elements at all multi-indices, in row-major order, once each, for any
layout (rank at most 32). -/
theorem C02_flatiter {a : Arr α} {s : List Nat} {f : List Nat → α} (ha : a.Denotes s f) (hd : s.length ≤ 32) :
    a.flatiter = .ok ((indices s).map f) := ha.flatiter hd

example := C02_flatiter demoT_denotes (by decide)

/-- **C02**: `indices` really lists every in-range multi-index exactly once. -/
theorem C02_indices (s : List Nat) : (indices s).Nodup ∧ ∀ idx, idx ∈ indices s ↔ InB idx s :=
  ⟨indices_nodup s, fun _ => mem_indices⟩

/-- **C02**: the order is lexicographic: the `k`-th index is the one of row-major rank `k`. -/
theorem C02_order {s idx : List Nat} (h : InB idx s) : (indices s)[rank idx s]? = some idx := by
  rw [getElem?_indices (rank_lt h), unrank_rank h]

example := C02_order (s := [3, 2]) (idx := [2, 0]) (by decide)

/-- **C02**: rank order is lexicographic order. -/
theorem C02_lex {s i j : List Nat} (hi : InB i s) (hj : InB j s) : List.Lex (· < ·) i j ↔ rank i s < rank j s := by
  induction s generalizing i j with
  | nil => cases i <;> cases j <;> simp_all [rank]
  | cons n s ih =>
    cases i with
    | nil => simp at hi
    | cons x i => cases j with
      | nil => simp at hj
      | cons y j =>
        simp only [InB_cons] at hi hj
        have h1 := rank_lt hi.2
        have h2 := rank_lt hj.2
        simp only [rank]
        rw [show List.Lex (· < ·) (x :: i) (y :: j) ↔ x < y ∨ x = y ∧ List.Lex (· < ·) i j from
          ⟨fun h => by cases h with
            | rel h => exact .inl h
            | cons h => exact .inr ⟨rfl, h⟩, fun h => by
              rcases h with h | ⟨rfl, h⟩
              · exact .rel h
              · exact .cons h⟩]
        constructor
        · rintro (h | ⟨rfl, h⟩)
          · have : (x + 1) * numel s ≤ y * numel s := Nat.mul_le_mul_right _ h
            rw [Nat.succ_mul] at this; omega
          · have := (ih hi.2 hj.2).1 h; omega
        · intro h
          by_cases hxy : x < y
          · exact .inl hxy
          · by_cases hyx : y < x
            · have : (y + 1) * numel s ≤ x * numel s := Nat.mul_le_mul_right _ hyx
              rw [Nat.succ_mul] at this; omega
            · have : x = y := by omega
              subst this
              exact .inr ⟨rfl, (ih hi.2 hj.2).2 (by omega)⟩

example := C02_lex (s := [3, 2]) (i := [1, 1]) (j := [2, 0]) (by decide) (by decide)

example : demoT.flatiter = .ok [10, 13, 11, 14, 12, 15] := by decide
example : demoT.Denotes [3, 2] (fun idx => demoFn (exchange 0 1 idx)) := demoT_denotes

/-! ## C50 -/

/-- **C50.** `full(v, shape)` has the given shape and every element `v`; it panics exactly when some extent
is 0. -/
theorem C50_full (v : α) (s : List Nat) :
    (0 ∉ s → ∃ r, Arr.full v s = .ok r ∧ r.Denotes s (fun _ => v)) ∧ (0 ∈ s → Arr.full v s = .error .panic) := by
  constructor
  · intro h
    have hn : numel s ≠ 0 := by rw [Ne, numel_eq_zero]; exact h
    refine ⟨Arr.fromContiguousOwnedBuffer s (List.replicate (numel s) v), ?_, ?_⟩
    · show (assert (!(List.replicate (numel s) v).isEmpty) >>= fun _ => _) = _
      rw [assert_ok (by simp [List.isEmpty_iff, hn])]; rfl
    · have : List.replicate (numel s) v = elements s (fun _ => v) := by
        symm; rw [List.eq_replicate_iff]
        exact ⟨length_elements _ _, fun b hb => by obtain ⟨_, _, rfl⟩ := List.mem_map.1 hb; rfl⟩
      rw [this]; exact denotes_fromContiguous
  · intro h
    have hn : numel s = 0 := numel_eq_zero.2 h
    unfold Arr.full
    rw [hn]; rfl

/-- **C50.** `zeros`, `ones` -/
theorem C50_zeros_ones [Zero α] [One α] (s : List Nat) :
    (0 ∉ s → ∃ r, (Arr.zeros s : Res (Arr α)) = .ok r ∧ r.Denotes s (fun _ => 0)) ∧
    (0 ∉ s → ∃ r, (Arr.ones s : Res (Arr α)) = .ok r ∧ r.Denotes s (fun _ => 1)) ∧
    (0 ∈ s → (Arr.zeros s : Res (Arr α)) = .error .panic ∧ (Arr.ones s : Res (Arr α)) = .error .panic) :=
  ⟨(C50_full 0 s).1, (C50_full 1 s).1, fun h => ⟨(C50_full 0 s).2 h, (C50_full 1 s).2 h⟩⟩

/-- **C50.** `scalar(v)` has rank 0 and `value()` gives back `v`. -/
theorem C50_scalar (v : α) : ∃ r, Arr.scalar v = .ok r ∧ r.ndims = 0 ∧ r.value = .ok v := ⟨_, rfl, rfl, rfl⟩

/-- **C50.** `value()` returns the only element of a one-element array of any shape and panics on others. -/
theorem C50_value {a : Arr α} {s : List Nat} {f : List Nat → α} (ha : a.Denotes s f) :
    (numel s = 1 → a.value = .ok (f (List.replicate s.length 0))) ∧ (numel s ≠ 1 → a.value = .error .panic) := by
  obtain ⟨rfl, hl, h⟩ := ha
  unfold Arr.value
  constructor
  · intro h1
    rw [assert_ok (decide_eq_true (show a.size = 1 from h1))]
    simp only [ok_bind]
    have hin : InB (List.replicate a.shape.length 0) a.shape := by
      rw [← unrank_zero]; exact InB_unrank (by omega)
    have := h _ hin
    rw [offset_replicate_zero] at this
    exact Arr.read_ok this
  · intro h1
    rw [assert_fail (decide_eq_false (show ¬ a.size = 1 from h1))]; rfl

example := (C50_value (denotes_fromContiguous (s := [1, 1]) (f := fun _ => 7))).1 rfl

example : ∃ r, Arr.full 7 [2, 3] = .ok r ∧ r.index [1, 2] = .ok 7 := ⟨_, rfl, rfl⟩
example : Arr.full 7 [2, 0] = .error .panic := by decide

/-! ## C18: indexed reads -/

/-- **C18**: an index with a wrong number of coordinates panics, for every array. -/
theorem C18_wrong_rank {a : Arr α} {idx : List Nat} (h : idx.length ≠ a.ndims) : a.index idx = .error .panic := by
  unfold Arr.index
  rw [assert_fail (by simpa using h)]; rfl

example := C18_wrong_rank (a := demo) (idx := [1]) (by decide)

theorem index_ok {a : Arr α} {s : List Nat} {f : List Nat → α} (ha : a.Denotes s f) {idx : List Nat} (hi : InB idx s)
    (hlen : offset idx a.stride < a.len) : a.index idx = .ok (f idx) := by
  obtain ⟨rfl, hl, h⟩ := ha
  unfold Arr.index
  rw [assert_ok (by simp [Arr.ndims, hi.length])]
  simp only [ok_bind]
  rw [assert_ok (by simpa using hlen)]
  simp only [ok_bind]
  exact Arr.read_ok (h idx hi)

/-- **C18** (part): on every array reached from a fresh one by view operations other than `broadcast_to`
that reports itself contiguous, every in-range index returns the element.
Missing: non-contiguous views that are not slices (false: `C18_diagonal_panics`), broadcast views
(false), and rejection of out-of-range coordinates (false: `C18_aliases`). -/
theorem C18_contiguous_partial {a b : Arr α} (ha : Fresh a) (hh : History NoBroadcast a b) {s : List Nat}
    {f : List Nat → α} (hb : b.Denotes s f) (hc : b.isContiguous = true) {idx : List Nat} (hi : InB idx s) :
    b.index idx = .ok (f idx) := by
  apply index_ok hb hi
  have hw := wf_history ha.wf hh
  rw [hw.len_contiguous hc, hb.1]
  have := C26_contiguous_partial ha hh hc
  rw [hb.1] at this
  rw [← List.mem_range, ← this]
  exact List.mem_map.2 ⟨idx, mem_indices.2 hi, rfl⟩

example := C18_contiguous_partial demo_fresh .refl demo_denotes rfl (idx := [1, 2]) (by decide)

/-- **C18** (part): on every slice (of any array or view whatsoever) every in-range index returns the
element. -/
theorem C18_slice_partial {a c : Arr α} {s : List Nat} {f : List Nat → α} (ha : a.Denotes s f) {ixs : List Indexer}
    (hr : IndexersInRange ixs s) (h : a.slice ixs = .ok c) {idx : List Nat} (hi : InB idx c.shape) :
    c.index idx = .ok (f (selectIndex (sels ixs s) idx)) := by
  obtain ⟨rfl, hl, hf⟩ := ha
  rw [slice_ok hl hr] at h
  obtain ⟨h0, h1, h2, h3, h4, h5, h6⟩ := sliceResult_inv hl hr.fits h
  refine index_ok (h4.denotes ⟨rfl, hl, hf⟩) hi ?_
  rw [h1]
  exact offset_lt_bufferLength hi h4.len.symm

example := C18_slice_partial demo_denotes (ixs := [.full, .range 1 3]) ⟨by decide, by decide, trivial⟩ rfl (idx := [1, 1]) (by decide)

/-- **C18** (part): on every array reached without `broadcast_to`, indexing with *any* coordinates never
reads outside the buffer (it returns a value or panics). -/
theorem C18_in_buffer_partial {a b : Arr α} (ha : Fresh a) (hh : History NoBroadcast a b) (idx : List Nat) :
    (∃ v, b.index idx = .ok v) ∨ b.index idx = .error .panic := by
  have hw := wf_history ha.wf hh
  have hinj := inj_history ha.wf ha.inj hh
  unfold Arr.index
  by_cases h1 : idx.length = b.ndims
  · rw [assert_ok (by simpa using h1)]
    simp only [ok_bind]
    by_cases h2 : offset idx b.stride < b.len
    · rw [assert_ok (by simpa using h2)]
      simp only [ok_bind]
      left
      have hspan : b.len ≤ span b.shape b.stride + 1 := by
        rcases hw.len with h | ⟨_, h⟩
        · rw [h]; exact hinj.numel_le_span hw.valid.1
        · omega
      have hne : numel b.shape ≠ 0 := by
        intro h0
        rcases hw.len with h | ⟨h, _⟩
        · omega
        · exact h h0
      -- the last element
      have hlast : ∃ J, InB J b.shape ∧ offset J b.stride = span b.shape b.stride := by
        have hl := hw.valid.1
        clear hspan h2 h1 hinj hw
        generalize b.shape = s at *
        generalize b.stride = st at *
        induction s generalizing st with
        | nil => exact ⟨[], trivial, by simp⟩
        | cons n s ih => cases st with
          | nil => simp at hl
          | cons d st =>
            have hn : n ≠ 0 := by rintro rfl; simp at hne
            obtain ⟨J, hJ, e⟩ := ih (by intro h0; apply hne; simp [h0]) st (by simpa using hl)
            refine ⟨(n - 1) :: J, ⟨by omega, hJ⟩, ?_⟩
            rw [offset_cons, span_cons, e, Nat.mul_comm]
      obtain ⟨J, hJ, e⟩ := hlast
      have := hw.valid.2 J hJ
      exact ⟨_, Arr.read_ok (List.getElem?_eq_getElem (show b.off + offset idx b.stride < b.buf.length by omega))⟩
    · rw [assert_fail (by simpa using h2)]; exact .inr rfl
  · rw [assert_fail (by simpa using h1)]; exact .inr rfl

example := C18_in_buffer_partial demo_fresh demoT_history [7, 1]

example : ∃ c, demo.slice [.full, .range 1 3] = .ok c ∧ c.index [1, 1] = .ok 15 := ⟨_, rfl, rfl⟩

/-- **C18 is false** (1): an out-of-range coordinate is not rejected; `a[[0, 3]]` on a 2x3 array returns
the element at `[1, 0]`. -/
theorem C18_aliases : ¬ InB [0, 3] demo.shape ∧ demo.index [0, 3] = .ok 13 ∧ demo.index [1, 0] = .ok 13 := by decide

/-- **C18 is false** (2): a valid index of a diagonal view panics: the bounds check compares the strided
position 4 with the number of elements 3. -/
theorem C18_diagonal_panics : ∃ r : Arr Nat,
    (Arr.fromContiguousOwnedBuffer [3, 3] [0, 1, 2, 3, 4, 5, 6, 7, 8]).diagonal = .ok r ∧
      InB [1] r.shape ∧ r.index [1] = .error .panic := ⟨_, rfl, by decide, by decide⟩

/-- **C18 is false** (3): on a broadcast view an out-of-range coordinate reads outside the buffer. -/
theorem C18_broadcast_oob : ∃ r : Arr Nat,
    (Arr.fromContiguousOwnedBuffer [2] [1, 2]).broadcastTo [3, 2] = .ok r ∧ r.index [0, 4] = .error .oob :=
  ⟨_, rfl, by decide⟩

/-! ## C19: indexed writes -/

/-- **C19** (part). On every array reached without `broadcast_to`: if index `idx` is in range and readable
(see C18), then `a[idx] = v` succeeds, sets the element at `idx` to `v`, leaves all other elements and all
other memory cells as they were.
Missing: refusal on read-only views (`C19_false`), indices the bounds check wrongly refuses (C18). -/
theorem C19_write_partial {a b : Arr α} (ha : Fresh a) (hh : History NoBroadcast a b) {s : List Nat}
    {f : List Nat → α} (hb : b.Denotes s f) {idx : List Nat} (hi : InB idx s) {x v : α} (hx : b.index idx = .ok x) :
    ∃ buf', b.indexSet idx v = .ok buf' ∧
      ({ b with buf := buf' } : Arr α).Denotes s (fun j => if j = idx then v else f j) ∧
      (∀ i, i ≠ b.off + offset idx b.stride → buf'[i]? = b.buf[i]?) ∧ buf'.length = b.buf.length := by
  have hinj := inj_history ha.wf ha.inj hh
  obtain ⟨hs, hl, hf⟩ := hb
  have hlt : offset idx b.stride < b.len := by
    unfold Arr.index at hx
    rw [assert_ok (by simp [Arr.ndims, hi.length, hs])] at hx
    simp only [ok_bind] at hx
    obtain ⟨_, h1, _⟩ := bind_eq_ok.1 hx
    rw [assert_eq_ok] at h1
    simpa using h1
  have hin : b.off + offset idx b.stride < b.buf.length := (List.getElem?_eq_some_iff.1 (hf idx hi)).1
  refine ⟨b.buf.set (b.off + offset idx b.stride) v, ?_, ⟨hs, hl, fun j hj => ?_⟩, fun i hne => ?_, by simp⟩
  · unfold Arr.indexSet
    rw [assert_ok (by simp [Arr.ndims, hi.length, hs])]
    simp only [ok_bind]
    rw [assert_ok (by simpa using hlt)]
    simp only [ok_bind]
    rw [if_pos hin]; rfl
  · simp only
    by_cases hji : j = idx
    · subst hji
      simp [hin]
    · rw [if_neg hji, List.getElem?_set_ne]
      · exact hf j hj
      · intro he
        apply hji
        exact hinj j idx (hs ▸ hj) (hs ▸ hi) (by omega)
  · rw [List.getElem?_set_ne (by omega)]

example := C19_write_partial demo_fresh .refl demo_denotes (idx := [1, 0]) (by decide) (v := 99) (x := 13) rfl

example : demo.indexSet [1, 0] 99 = .ok [10, 11, 12, 99, 14, 15] := by decide

/-- **C19 is false** on read-only views: writing element `[0, 1]` of a broadcast view is accepted and also
changes element `[1, 1]` (and the base array). -/
theorem C19_false : ∃ r : Arr Nat, (Arr.fromContiguousOwnedBuffer [2] [1, 2]).broadcastTo [2, 2] = .ok r ∧
    r.flags.writeable = false ∧ ∃ buf', r.indexSet [0, 1] 9 = .ok buf' ∧
      ({ r with buf := buf' } : Arr Nat).index [1, 1] = .ok 9 ∧ r.index [1, 1] = .ok 2 :=
  ⟨_, rfl, rfl, _, rfl, rfl, rfl⟩

/-- **C19**: writes also accept too few coordinates (`a[[1]] = 9` on a matrix), which reads reject. -/
theorem C19_short_index : demo.indexSet [1] 9 = .ok [10, 11, 12, 9, 14, 15] ∧ demo.index [1] = .error .panic := by decide

/-! ## C20, C21: clone and flatten -/

/-- **C20** (part). For every array reached without `broadcast_to`: `clone()` has the same shape and
elements, and a buffer of its own consisting of exactly the elements in row-major order; it is contiguous
and owned. (The clone carries its own buffer in the model, so writing to one cannot affect the other.)
Missing: broadcast views that report themselves contiguous, where it is false (`C20_false`). -/
theorem C20_clone_partial {a b : Arr α} (ha : Fresh a) (hh : History NoBroadcast a b) {s : List Nat}
    {f : List Nat → α} (hb : b.Denotes s f) (hd : s.length ≤ 32) :
    ∃ r, b.clone = .ok r ∧ r.Denotes s f ∧ r.buf = elements s f ∧ r.off = 0 ∧ r.len = numel s ∧
      r.isContiguous = true ∧ r.flags.owned = true ∧ r.flags.writeable = true := by
  have hw := wf_history ha.wf hh
  refine ⟨Arr.fromContiguousOwnedBuffer s (elements s f), ?_, denotes_fromContiguous, rfl, rfl,
    length_elements _ _, rfl, rfl, rfl⟩
  unfold Arr.clone
  rw [cloneData_ok hb hw.cloneOK hw.flags hd, hb.1]; rfl

example := C20_clone_partial demo_fresh demoT_history demoT_denotes (by decide)

/-- **C20** (part): the same for *every* view, broadcast or not, that does not report itself contiguous. -/
theorem C20_noncontiguous_partial {b : Arr α} {s : List Nat} {f : List Nat → α} (hb : b.Denotes s f) (hs : s ≠ [])
    (hc : b.isContiguous = false) (hd : s.length ≤ 32) :
    ∃ r, b.clone = .ok r ∧ r.Denotes s f ∧ r.buf = elements s f := by
  refine ⟨Arr.fromContiguousOwnedBuffer s (elements s f), ?_, denotes_fromContiguous, rfl⟩
  unfold Arr.clone Arr.cloneData
  rw [hc, if_neg (by simp), cloneNonContiguous_ok hb hd hs, hb.1]; rfl

example := C20_noncontiguous_partial demoT_denotes (by decide) rfl (by decide)

example : ∃ r, demoT.clone = .ok r ∧ r.buf = [10, 13, 11, 14, 12, 15] := ⟨_, rfl, rfl⟩

/-- **C20 is false** for broadcast views that report themselves contiguous: cloning `[1, 2]` broadcast to
3x2 copies 6 cells from a buffer of 2. -/
theorem C20_false : ∃ r : Arr Nat, (Arr.fromContiguousOwnedBuffer [2] [1, 2]).broadcastTo [3, 2] = .ok r ∧
    r.clone = .error .oob ∧ r.flatten = .error .oob := ⟨_, rfl, by decide, by decide⟩

/-- **C20 is false** (2): even when no read leaves the buffer, cloned values are wrong: row 0 of a 2x3
array, broadcast to 2x3, clones to the whole array. -/
theorem C20_false_values : ∃ row r : Arr Nat, demo.sliceAlong 0 (.at 0) = .ok row ∧ row.broadcastTo [2, 3] = .ok r ∧
    r.index [1, 0] = .ok 10 ∧ ∃ c, r.clone = .ok c ∧ c.index [1, 0] = .ok 13 :=
  ⟨_, _, rfl, rfl, rfl, _, rfl, rfl⟩

/-- **C21** (part). `flatten()` is the 1-D array of all elements in row-major order, for every array reached
without `broadcast_to`. Missing: broadcast views (`C20_false`). -/
theorem C21_flatten_partial {a b : Arr α} (ha : Fresh a) (hh : History NoBroadcast a b) {s : List Nat}
    {f : List Nat → α} (hb : b.Denotes s f) (hd : s.length ≤ 32) :
    ∃ r, b.flatten = .ok r ∧ r.Denotes [numel s] (fun k => f (unrank s (k.headD 0))) ∧ r.buf = elements s f := by
  have hw := wf_history ha.wf hh
  have he : elements s f = elements [numel s] (fun k => f (unrank s (k.headD 0))) := by
    apply List.ext_getElem?
    intro k
    by_cases hk : k < numel s
    · rw [getElem?_elements hk, getElem?_elements (by simpa using hk)]
      simp [unrank]
    · rw [List.getElem?_eq_none (by rw [length_elements]; omega),
        List.getElem?_eq_none (by rw [length_elements]; simp; omega)]
  refine ⟨Arr.fromContiguousOwnedBuffer [numel s] (elements s f), ?_, ?_, rfl⟩
  · unfold Arr.flatten
    rw [cloneData_ok hb hw.cloneOK hw.flags hd, Arr.size, hb.1]; rfl
  · rw [he]; exact denotes_fromContiguous

example := C21_flatten_partial demo_fresh demoT_history demoT_denotes (by decide)

example : ∃ r, demoT.flatten = .ok r ∧ r.shape = [6] ∧ r.index [2] = .ok 11 := ⟨_, rfl, rfl, rfl⟩

/-! ## C22: equality -/

theorem eq_of_flatiter [BEq α] {a b : Arr α} {s t : List Nat} {f g : List Nat → α} (ha : a.Denotes s f) (hb : b.Denotes t g)
    (h1 : a.flatiter = .ok (elements s f)) (h2 : b.flatiter = .ok (elements t g)) :
    ∃ r, a.eq b = .ok r ∧ (r = true ↔ s = t ∧ ∀ idx, InB idx s → (f idx == g idx) = true) := by
  unfold Arr.eq
  by_cases h : a.shape ≠ b.shape
  · rw [if_pos h]
    refine ⟨false, rfl, ?_⟩
    rw [ha.1, hb.1] at h
    simp [h]
  · rw [if_neg h]
    rw [ha.1, hb.1] at h
    have h : s = t := by simpa using h
    subst h
    rw [h1, h2]
    refine ⟨_, rfl, ?_⟩
    simp only [true_and]
    unfold elements
    rw [List.zip_map', List.all_map, List.all_eq_true]
    constructor
    · intro h1 idx hi; exact h1 idx (mem_indices.2 hi)
    · intro h1 idx hi; exact h1 idx (mem_indices.1 hi)

/-- **C22.** `a == b` is true exactly when the shapes agree and corresponding elements are equal, whatever
the layouts; it always completes. -/
theorem C22_eq [BEq α] {a b : Arr α} {s t : List Nat} {f g : List Nat → α} (ha : a.Denotes s f) (hb : b.Denotes t g)
    (hs : s.length ≤ 32) :
    ∃ r, a.eq b = .ok r ∧ (r = true ↔ s = t ∧ ∀ idx, InB idx s → (f idx == g idx) = true) := by
  by_cases h : s = t
  · exact eq_of_flatiter ha hb (ha.flatiter hs) (hb.flatiter (h ▸ hs))
  · refine ⟨false, ?_, by simp [h]⟩
    unfold Arr.eq
    rw [if_pos (by rw [ha.1, hb.1]; exact h)]

example := C22_eq demo_denotes demoT_denotes (by decide)

/-- **C22**: equality is reflexive, symmetric and transitive when the element equality is. -/
theorem C22_equivalence [BEq α] [EquivBEq α] {a b c : Arr α} {s t u : List Nat} {f g h : List Nat → α}
    (ha : a.Denotes s f) (hb : b.Denotes t g) (hc : c.Denotes u h) (hs : s.length ≤ 32) (ht : t.length ≤ 32) :
    a.eq a = .ok true ∧ (a.eq b = .ok true → b.eq a = .ok true) ∧
    (a.eq b = .ok true → b.eq c = .ok true → a.eq c = .ok true) := by
  refine ⟨?_, fun hab => ?_, fun hab hbc => ?_⟩
  · obtain ⟨r, e, h1⟩ := C22_eq ha ha hs
    rw [e, h1.2 ⟨rfl, fun _ _ => BEq.rfl⟩]
  · obtain ⟨r, e, h1⟩ := C22_eq ha hb hs
    rw [hab] at e; cases e
    obtain ⟨h2, h3⟩ := h1.1 rfl
    obtain ⟨r, e, h4⟩ := C22_eq hb ha ht
    rw [e, h4.2 ⟨h2.symm, fun idx hi => BEq.symm (h3 idx (h2 ▸ hi))⟩]
  · obtain ⟨r, e, h1⟩ := C22_eq ha hb hs
    rw [hab] at e; cases e
    obtain ⟨h2, h3⟩ := h1.1 rfl
    obtain ⟨r, e, h1'⟩ := C22_eq hb hc ht
    rw [hbc] at e; cases e
    obtain ⟨h2', h3'⟩ := h1'.1 rfl
    obtain ⟨r, e, h4⟩ := C22_eq ha hc hs
    rw [e, h4.2 ⟨h2.trans h2', fun idx hi => BEq.trans (h3 idx hi) (h3' idx (h2 ▸ hi))⟩]

example := C22_equivalence demo_denotes demo_denotes demoT_denotes (by decide) (by decide)

example : demoT.eq (Arr.fromContiguousOwnedBuffer [3, 2] [10, 13, 11, 14, 12, 15]) = .ok true ∧
    demoT.eq demo = .ok false := by decide

/-! ## C24: fill -/

/-- **C24** (part). For every array reached without `broadcast_to`: `fill(v)` sets exactly the cells of the
array's elements to `v` and leaves all other memory as it was; afterwards every element is `v`.
Missing: broadcast views, where it is false (`C24_false`). -/
theorem C24_fill_partial {a b : Arr α} (ha : Fresh a) (hh : History NoBroadcast a b) (v : α) :
    ∃ buf', b.fill v = .ok buf' ∧ buf'.length = b.buf.length ∧
      ({ b with buf := buf' } : Arr α).Denotes b.shape (fun _ => v) ∧
      (∀ i, (∀ idx, InB idx b.shape → i ≠ b.off + offset idx b.stride) → buf'[i]? = b.buf[i]?) := by
  have hw := wf_history ha.wf hh
  refine ⟨_, fill_ok hw v, by simp, ⟨rfl, hw.valid.1, fun idx hi => ?_⟩, fun i hne => ?_⟩
  · simp only
    rw [getElem?_setAll (hw.valid.2 idx hi), if_pos]
    exact List.mem_map.2 ⟨_, List.mem_map.2 ⟨idx, mem_indices.2 hi, rfl⟩, rfl⟩
  · by_cases hlt : i < b.buf.length
    · rw [getElem?_setAll hlt, if_neg]
      intro hm
      obtain ⟨o, ho, rfl⟩ := List.mem_map.1 hm
      obtain ⟨idx, hidx, rfl⟩ := List.mem_map.1 ho
      exact hne idx (mem_indices.1 hidx) rfl
    · rw [List.getElem?_eq_none (by simp; omega), List.getElem?_eq_none (by omega)]

example := C24_fill_partial demo_fresh demoT_history 7

/-- **C24**: `zero()` is `fill(0)`. -/
theorem C24_zero_partial [Zero α] {a b : Arr α} (ha : Fresh a) (hh : History NoBroadcast a b) :
    ∃ buf', b.zero = .ok buf' ∧ ({ b with buf := buf' } : Arr α).Denotes b.shape (fun _ => 0) := by
  obtain ⟨buf', h1, _, h2, _⟩ := C24_fill_partial ha hh (0 : α)
  exact ⟨buf', h1, h2⟩

example := C24_zero_partial demo_fresh demoT_history

example : ∃ c, demo.slice [.full, .range 1 3] = .ok c ∧ c.fill 0 = .ok [10, 0, 0, 13, 0, 0] := ⟨_, rfl, rfl⟩

/-- **C24 is false** for broadcast views: they are written although read-only, and `fill` on `[1, 2]`
broadcast to 3x2 writes outside the two-element buffer. -/
theorem C24_false : ∃ r : Arr Nat, (Arr.fromContiguousOwnedBuffer [2] [1, 2]).broadcastTo [3, 2] = .ok r ∧
    r.flags.writeable = false ∧ r.fill 9 = .error .oob := ⟨_, rfl, rfl, by decide⟩

/-- **C24 is false** (2): filling a read-only view changes the base array. -/
theorem C24_readonly_false : ∃ r : Arr Nat, (Arr.fromContiguousOwnedBuffer [2, 1] [1, 2]).broadcastTo [2, 2] = .ok r ∧
    r.flags.writeable = false ∧ r.fill 9 = .ok [9, 9] := ⟨_, rfl, rfl, by decide⟩

/-! ## C48: astype -/

theorem astype_of_flatiter {a : Arr α} {s : List Nat} {f : List Nat → α} (ha : a.Denotes s f) (hs : a.flatiter = .ok (elements s f))
    (cast : α → Option β) (dflt : β) :
    (∀ g : List Nat → β, (∀ idx, InB idx s → cast (f idx) = some (g idx)) →
      ∃ r, a.astype cast dflt = .ok r ∧ r.Denotes s g) ∧
    ((∃ idx, InB idx s ∧ cast (f idx) = none) → a.astype cast dflt = .error .panic) := by
  constructor
  · intro g hg
    refine ⟨Arr.fromContiguousOwnedBuffer s (elements s g), ?_, denotes_fromContiguous⟩
    unfold Arr.astype
    rw [hs]
    simp only [ok_bind]
    rw [List.take_of_length_le (by rw [length_elements, Arr.size, ha.1])]
    have : (elements s f).mapM (castOne cast) = .ok (elements s g) := by
      have e : ∀ l : List (List Nat), (∀ x ∈ l, InB x s) → (l.map f).mapM (castOne cast) = .ok (l.map g) := by
        intro l
        induction l with
        | nil => intro _; rfl
        | cons x l ih =>
          intro hl
          rw [List.map_cons, List.mapM_cons, castOne, hg x (hl x (by simp)), ih (fun y hy => hl y (List.mem_cons_of_mem _ hy))]; rfl
      exact e _ (fun x hx => mem_indices.1 hx)
    rw [this]
    simp only [ok_bind]
    rw [length_elements, Arr.size, ha.1]
    simp
  · rintro ⟨idx, hi, hc⟩
    unfold Arr.astype
    rw [hs]
    simp only [ok_bind]
    rw [List.take_of_length_le (by rw [length_elements, Arr.size, ha.1])]
    have e : ∀ l : List α, (∃ x ∈ l, cast x = none) → l.mapM (castOne cast) = .error .panic := by
      intro l
      induction l with
      | nil => simp
      | cons x l ih =>
        rintro ⟨y, hy, hn⟩
        rw [List.mapM_cons, castOne]
        cases hcx : cast x with
        | none => rfl
        | some z =>
          simp only [ok_bind]
          rw [ih]; rfl
          rcases List.mem_cons.1 hy with rfl | hy
          · rw [hn] at hcx; cases hcx
          · exact ⟨y, hy, hn⟩
    rw [e (elements s f) ⟨f idx, List.mem_map.2 ⟨idx, mem_indices.2 hi, rfl⟩, hc⟩]; rfl

/-- **C48.** `astype` has the same shape and the cast of each element, for any layout, when every element is
representable; otherwise it panics. -/
theorem C48_astype {a : Arr α} {s : List Nat} {f : List Nat → α} (ha : a.Denotes s f) (hs : s.length ≤ 32)
    (cast : α → Option β) (dflt : β) :
    (∀ g : List Nat → β, (∀ idx, InB idx s → cast (f idx) = some (g idx)) →
      ∃ r, a.astype cast dflt = .ok r ∧ r.Denotes s g) ∧
    ((∃ idx, InB idx s ∧ cast (f idx) = none) → a.astype cast dflt = .error .panic) :=
  astype_of_flatiter ha (ha.flatiter hs) cast dflt

example := (C48_astype demoT_denotes (by decide) (fun n : Nat => some (Int.ofNat n)) 0).1 _ fun _ _ => rfl

example : ∃ r, demoT.astype (fun n : Nat => some (Int.ofNat n)) 0 = .ok r ∧ r.index [2, 1] = .ok 15 := ⟨_, rfl, rfl⟩
example : demoT.astype (fun n => if n < 15 then some n else none) 0 = .error .panic := by decide

end Verif
