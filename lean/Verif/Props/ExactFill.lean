import Verif.Props.Exact

/-!
# C24, exactly: which layouts `fill` handles right
-/

namespace Verif

variable {α : Type}

/-! ### the cells that are written -/

/-- The positions that `fillPtr` writes, relative to its pointer. -/
def fillPos : List Nat → List Nat → Nat → List Nat
  | n :: s, d :: st, len =>
    match hasUniformStride (n :: s) (d :: st) with
    | some e => if e = 1 then List.range len else (List.range (numel (n :: s))).map (· * e)
    | none => (List.range n).flatMap fun k => (fillPos s st (s.headD 0 * st.headD 0)).map (k * d + ·)
  | s, st, len =>
    match hasUniformStride s st with
    | some e => if e = 1 then List.range len else (List.range (numel s)).map (· * e)
    | none => []

theorem fillPtr_uniform (e len N : Nat) (v : α) (b : List α) (p : Nat)
    (hin : ∀ o ∈ (if e = 1 then List.range len else (List.range N).map (· * e)), p + o < b.length) :
    (if e = 1 then fillContiguous len b p v else fillUniformStride N b p e v) =
      .ok (setAll b ((if e = 1 then List.range len else (List.range N).map (· * e)).map (p + ·)) v) := by
  by_cases h1 : e = 1
  · simp only [h1, if_true] at hin ⊢
    rw [fillContiguous, fillUniformStride_ok fun k hk => by simpa using hin k (List.mem_range.2 hk)]
    simp
  · simp only [h1, if_false] at hin ⊢
    rw [fillUniformStride_ok fun k hk => hin _ (List.mem_map.2 ⟨k, List.mem_range.2 hk, rfl⟩), List.map_map]
    rfl

theorem fillPtr_pos {s st : List Nat} (hl : s.length = st.length) {len : Nat} {v : α} {b : List α} {p : Nat}
    (hin : ∀ o ∈ fillPos s st len, p + o < b.length) :
    fillPtr s st len v b p = .ok (setAll b ((fillPos s st len).map (p + ·)) v) := by
  induction s generalizing st len b p with
  | nil =>
    cases st with
    | cons => simp at hl
    | nil => exact fillPtr_uniform 0 len 1 v b p hin
  | cons n s ih => cases st with
    | nil => simp at hl
    | cons d st =>
      simp only [fillPtr, fillPos] at hin ⊢
      cases hu : hasUniformStride (n :: s) (d :: st) with
      | some e =>
        rw [hu] at hin
        exact fillPtr_uniform e len _ v b p hin
      | none =>
        rw [hu] at hin
        simp only at hin ⊢
        rw [fillLoop_ok (os := fillPos s st (s.headD 0 * st.headD 0)) (v := v) b.length n b p (fun k hk b' hb' => ?_) rfl]
        · rw [List.map_flatMap]
          congr 2
          apply List.flatMap_congr
          intro k _
          rw [List.map_map]
          apply List.map_congr_left
          intro o _
          simp only [Function.comp]; omega
        · refine ih (by simpa using hl) fun o ho => ?_
          rw [hb']
          have := hin (k * d + o) (List.mem_flatMap.2 ⟨k, List.mem_range.2 hk, List.mem_map.2 ⟨o, ho, rfl⟩⟩)
          omega

theorem fillUniformStride_bounds {v : α} {e : Nat} : ∀ {N : Nat} {b b' : List α} {p : Nat}, fillUniformStride N b p e v = .ok b' →
    b'.length = b.length ∧ ∀ k < N, p + k * e < b.length
  | 0, b, b', p, h => by cases h; exact ⟨rfl, fun k hk => by omega⟩
  | N + 1, b, b', p, h => by
    unfold fillUniformStride bufStore at h
    by_cases hp : p < b.length
    · rw [if_pos hp, ok_bind] at h
      obtain ⟨h1, h2⟩ := fillUniformStride_bounds h
      refine ⟨by simpa using h1, fun k hk => ?_⟩
      cases k with
      | zero => simpa using hp
      | succ k =>
        have := h2 k (by omega)
        rw [List.length_set] at this
        rw [Nat.succ_mul]; omega
    · rw [if_neg hp] at h
      cases h

theorem fillLoop_bounds {body : List α → Nat → Res (List α)} {os : List Nat} {step : Nat}
    (hbody : ∀ {b b' : List α} {p : Nat}, body b p = .ok b' → b'.length = b.length ∧ ∀ o ∈ os, p + o < b.length) :
    ∀ {n : Nat} {b b' : List α} {p : Nat}, fillLoop body step n b p = .ok b' →
      b'.length = b.length ∧ ∀ k < n, ∀ o ∈ os, p + k * step + o < b.length
  | 0, b, b', p, h => by cases h; exact ⟨rfl, fun k hk => by omega⟩
  | n + 1, b, b', p, h => by
    obtain ⟨c, h1, h2⟩ := bind_eq_ok.1 h
    obtain ⟨h3, h4⟩ := hbody h1
    obtain ⟨h5, h6⟩ := fillLoop_bounds hbody h2
    refine ⟨h5.trans h3, fun k hk o ho => ?_⟩
    cases k with
    | zero => simpa using h4 o ho
    | succ k =>
      have := h6 k (by omega) o ho
      rw [Nat.succ_mul]; omega

theorem fillPtr_bounds {s st : List Nat} (hl : s.length = st.length) {len : Nat} {v : α} {b b' : List α} {p : Nat}
    (h : fillPtr s st len v b p = .ok b') : b'.length = b.length ∧ ∀ o ∈ fillPos s st len, p + o < b.length := by
  have uni : ∀ {e len N : Nat} {b b' : List α} {p : Nat},
      (if e = 1 then fillContiguous len b p v else fillUniformStride N b p e v) = .ok b' →
      b'.length = b.length ∧ ∀ o ∈ (if e = 1 then List.range len else (List.range N).map (· * e)), p + o < b.length := by
    intro e len N b b' p h
    by_cases h1 : e = 1
    · simp only [h1, if_true] at h ⊢
      obtain ⟨h2, h3⟩ := fillUniformStride_bounds h
      exact ⟨h2, fun o ho => by simpa using h3 o (List.mem_range.1 ho)⟩
    · simp only [h1, if_false] at h ⊢
      obtain ⟨h2, h3⟩ := fillUniformStride_bounds h
      refine ⟨h2, fun o ho => ?_⟩
      obtain ⟨k, hk, rfl⟩ := List.mem_map.1 ho
      exact h3 k (List.mem_range.1 hk)
  induction s generalizing st len b b' p with
  | nil =>
    cases st with
    | cons => simp at hl
    | nil => exact uni (e := 0) (len := len) (N := 1) h
  | cons n s ih => cases st with
    | nil => simp at hl
    | cons d st =>
      simp only [fillPtr, fillPos] at h ⊢
      cases hu : hasUniformStride (n :: s) (d :: st) with
      | some e => rw [hu] at h; exact uni h
      | none =>
        rw [hu] at h
        obtain ⟨h1, h2⟩ := fillLoop_bounds (os := fillPos s st (s.headD 0 * st.headD 0)) (fun h => ih (by simpa using hl) h) h
        refine ⟨h1, fun o ho => ?_⟩
        obtain ⟨k, hk, ho⟩ := List.mem_flatMap.1 ho
        obtain ⟨o', ho', rfl⟩ := List.mem_map.1 ho
        have := h2 k (List.mem_range.1 hk) o' ho'
        omega

/-- `fill` is right for all contents if and only if it writes the cells of the elements and no others. -/
theorem fill_iff_pos [Nontrivial α] {a : Arr α} (hv : a.Valid) :
    (∀ (buf : List α) (v : α), buf.length = a.buf.length → ∃ buf', (a.over buf).fill v = .ok buf' ∧
      buf'.length = buf.length ∧ (a.over buf').Denotes a.shape (fun _ => v) ∧
      ∀ i, (∀ idx, InB idx a.shape → i ≠ a.off + offset idx a.stride) → buf'[i]? = buf[i]?) ↔
    ∀ o, o ∈ fillPos a.shape a.stride a.len ↔ o ∈ offsets a.shape a.stride := by
  have hmem : ∀ o, o ∈ offsets a.shape a.stride ↔ ∃ idx, InB idx a.shape ∧ offset idx a.stride = o := fun o => by
    unfold offsets; simp only [List.mem_map, mem_indices]
  constructor
  · intro h
    obtain ⟨x, z, hxz⟩ := exists_pair_ne α
    obtain ⟨buf', h1, h2, h3, h4⟩ := h (List.replicate a.buf.length z) x (by simp)
    have h5 : fillPtr a.shape a.stride a.len x (List.replicate a.buf.length z) a.off = .ok buf' := h1
    obtain ⟨_, h6⟩ := fillPtr_bounds hv.1.symm h5
    rw [fillPtr_pos hv.1.symm h6] at h5
    injection h5 with h5
    intro o
    constructor
    · intro ho
      by_contra hno
      have h7 := h4 (a.off + o) fun idx hidx hc => hno ((hmem o).2 ⟨idx, hidx, by omega⟩)
      rw [← h5, getElem?_setAll (h6 o ho), if_pos (List.mem_map.2 ⟨o, ho, rfl⟩), List.getElem?_replicate] at h7
      split at h7
      · simp only [Option.some.injEq] at h7
        exact hxz h7
      · cases h7
    · intro ho
      by_contra hno
      obtain ⟨idx, hidx, rfl⟩ := (hmem o).1 ho
      have h7 := h3.2.2 idx hidx
      have hlt := hv.2 idx hidx
      change buf'[a.off + offset idx a.stride]? = some x at h7
      rw [← h5, getElem?_setAll (by simpa using hlt), if_neg, List.getElem?_replicate, if_pos hlt] at h7
      · simp only [Option.some.injEq] at h7
        exact hxz h7.symm
      · intro hm
        obtain ⟨o', ho', e⟩ := List.mem_map.1 hm
        exact hno (by rwa [show o' = offset idx a.stride by omega] at ho')
  · intro h buf v hlb
    have hin : ∀ o ∈ fillPos a.shape a.stride a.len, a.off + o < buf.length := fun o ho => by
      obtain ⟨idx, hidx, rfl⟩ := (hmem o).1 ((h o).1 ho)
      rw [hlb]; exact hv.2 idx hidx
    refine ⟨_, fillPtr_pos hv.1.symm hin, by simp [Arr.over], ⟨rfl, hv.1, fun idx hidx => ?_⟩, fun i hi => ?_⟩
    · show (setAll _ _ _)[a.off + offset idx a.stride]? = _
      have hm : offset idx a.stride ∈ fillPos a.shape a.stride a.len := (h _).2 ((hmem _).2 ⟨idx, hidx, rfl⟩)
      exact (getElem?_setAll (hin _ hm)).trans (if_pos (List.mem_map.2 ⟨_, hm, rfl⟩))
    · by_cases hlt : i < buf.length
      · refine (getElem?_setAll hlt).trans (if_neg fun hm => ?_)
        obtain ⟨o, ho, e⟩ := List.mem_map.1 hm
        obtain ⟨idx, h1, h2⟩ := (hmem o).1 ((h o).1 ho)
        exact hi idx h1 (by show i = a.off + _; rw [h2]; exact e.symm)
      · rw [List.getElem?_eq_none (by simpa [Arr.over] using hlt), List.getElem?_eq_none (by simpa using hlt)]

/-! ### the layouts -/

/-- In the longest run of trailing axes in which the code finds a common stride, that stride is the distance of neighbouring
elements; if it is 1, the run is moreover entered through a first axis whose extent times stride is the number of elements. -/
def FillsRow : List Nat → List Nat → Prop
  | n :: s, d :: st =>
    match hasUniformStride (n :: s) (d :: st) with
    | some e => if e = 1 then n * d = numel (n :: s) else Good (n :: s) (d :: st)
    | none => FillsRow s st
  | _, _ => True

/-- The condition under which `fill` is right. With a common stride of 1 the recorded length decides. -/
def Arr.Fills (a : Arr α) : Prop :=
  match hasUniformStride a.shape a.stride with
  | some e => if e = 1 then ∀ i, i < a.len ↔ i ∈ offsets a.shape a.stride else Good a.shape a.stride
  | none => numel a.shape = 0 ∨ FillsRow a.shape a.stride

theorem uniform_span {s st : List Nat} {e : Nat} (hl : s.length = st.length) (hne : s ≠ []) (h0 : numel s ≠ 0)
    (h : hasUniformStride s st = some e) :
    s.headD 0 * st.headD 0 ≤ numel s * e ∧ span s st + e ≤ numel s * e ∧
      (e ≠ 0 → (∃ k n : Nat, s[k]? = some n ∧ st[k]? = some 0 ∧ 2 ≤ n) → span s st + e < numel s * e) := by
  induction s generalizing st with
  | nil => exact absurd rfl hne
  | cons m s ih =>
    cases s with
    | nil =>
      rcases st with _ | ⟨d, _ | ⟨c, st⟩⟩
      · simp at hl
      · simp only [hasUniformStride, Option.some.injEq] at h
        subst h
        have hm : 1 ≤ m := Nat.pos_of_ne_zero (by simpa using h0)
        have e1 : span [m] [d] + d = m * d := by
          obtain ⟨m, rfl⟩ : ∃ k, m = k + 1 := ⟨m - 1, by omega⟩
          simp [span]; ring
        simp only [numel_cons, numel_nil, Nat.mul_one, List.headD_cons]
        refine ⟨le_rfl, by omega, fun hd ⟨k, n, h1, h2, h3⟩ => ?_⟩
        cases k with
        | zero => simp at h2; exact absurd h2 hd
        | succ k => simp at h1
      · simp at hl
    | cons n s =>
      rcases st with _ | ⟨c, _ | ⟨d, st⟩⟩
      · simp at hl
      · simp at hl
      · have h0' : numel (n :: s) ≠ 0 := fun hz => h0 (by rw [numel_cons, hz, Nat.mul_zero])
        have hm : 1 ≤ m := Nat.pos_of_ne_zero fun hz => h0 (by rw [numel_cons, hz, Nat.zero_mul])
        rw [hasUniformStride] at h
        split at h
        · cases h
        · rename_i hc
          obtain ⟨h1, h2, h3⟩ := ih (st := d :: st) (by simpa using hl) (by simp) h0' h
          simp only [List.headD_cons] at h1 ⊢
          have hcle : c ≤ numel (n :: s) * e := by
            by_cases hc0 : c = 0
            · omega
            · have hcd : c = n * d := by
                by_contra hcd
                exact hc (by simp [hc0, hcd])
              omega
          rw [span_cons, numel_cons (s := n :: s)]
          generalize numel (n :: s) = N at *
          generalize span (n :: s) (d :: st) = S at *
          obtain ⟨m, rfl⟩ : ∃ k, m = k + 1 := ⟨m - 1, by omega⟩
          simp only [Nat.add_sub_cancel]
          have e1 : (m + 1) * N * e = m * (N * e) + N * e := by ring
          have e2 : c * m ≤ m * (N * e) := by rw [Nat.mul_comm c]; exact Nat.mul_le_mul_left m hcle
          refine ⟨?_, by omega, fun he ⟨k, n', g1, g2, g3⟩ => ?_⟩
          · rw [show (m + 1) * N * e = (m + 1) * (N * e) by ring]; exact Nat.mul_le_mul_left _ hcle
          · cases k with
            | zero =>
              simp at g1 g2
              subst g2
              have : 0 < m * (N * e) :=
                Nat.mul_pos (by omega) (Nat.mul_pos (Nat.pos_of_ne_zero h0') (Nat.pos_of_ne_zero he))
              omega
            | succ k =>
              have := h3 he ⟨k, n', by simpa using g1, by simpa using g2, g3⟩
              omega

theorem mem_offsets {s st : List Nat} {o : Nat} : o ∈ offsets s st ↔ ∃ idx, InB idx s ∧ offset idx st = o := by
  unfold offsets; simp only [List.mem_map, mem_indices]

theorem offsets_le_span {s st : List Nat} (hl : s.length = st.length) {o : Nat} (h : o ∈ offsets s st) : o ≤ span s st := by
  obtain ⟨idx, h1, rfl⟩ := mem_offsets.1 h
  exact Nat.lt_succ_iff.1 (offset_lt_bufferLength h1 hl)

/-- With a common stride other than 1, the last cell that is written lies beyond all elements if the layout is not `Good`. -/
theorem uniform_beyond {s st : List Nat} {e : Nat} (hl : s.length = st.length) (he : hasUniformStride s st = some e) (hg : ¬ Good s st) :
    ∃ q ∈ (List.range (numel s)).map (· * e), ∀ o ∈ offsets s st, o < q := by
  obtain ⟨h1, h2, h3⟩ := not_good hl he hg
  have hne : s ≠ [] := by
    rintro rfl
    obtain ⟨k, n, h, _⟩ := h3
    simp at h
  have h4 := (uniform_span hl hne h2 he).2.2 h1 h3
  refine ⟨(numel s - 1) * e, List.mem_map.2 ⟨_, List.mem_range.2 (by omega), rfl⟩, fun o ho => ?_⟩
  have h5 := offsets_le_span hl ho
  have h6 : (numel s - 1) * e + e = numel s * e := by
    obtain ⟨k, hk⟩ : ∃ k, numel s = k + 1 := ⟨numel s - 1, by omega⟩
    rw [hk]; simp; ring
  omega

/-- With common stride 1 the layout is that of adjacent elements if extent times stride of the first axis is their number. -/
theorem uniform_one_offsets {n d : Nat} {s st : List Nat} (hl : (n :: s).length = (d :: st).length)
    (he : hasUniformStride (n :: s) (d :: st) = some 1) (h0 : numel (n :: s) ≠ 0) (h : n * d = numel (n :: s)) :
    offsets (n :: s) (d :: st) = List.range (numel (n :: s)) := by
  have hd : d ≠ 0 := by rintro rfl; exact h0 (by rw [← h, Nat.mul_zero])
  obtain ⟨h1, _⟩ := hasUniformStride_ne_zero (by simpa using hl) he hd
  have h2 : d :: st = strideFromShape (n :: s) := by simpa using h1
  have h3 := hasUniformStride_strideFromShape (n :: s)
  refine offsets_contiguous hl ?_ he le_rfl
  rw [h2]
  exact (posStride_strideFromShape (n :: s)).noZero

theorem fillPos_row {s st : List Nat} (hl : s.length = st.length) (h0 : numel s ≠ 0) :
    (FillsRow s st → ∀ o, o ∈ fillPos s st (s.headD 0 * st.headD 0) ↔ o ∈ offsets s st) ∧
    (¬ FillsRow s st → fillPos s st (s.headD 0 * st.headD 0) = [] ∨
      ∃ q ∈ fillPos s st (s.headD 0 * st.headD 0), ∀ o ∈ offsets s st, o < q) := by
  induction s generalizing st with
  | nil =>
    cases st with
    | cons => simp at hl
    | nil => exact ⟨fun _ o => by simp [fillPos, hasUniformStride, offsets_nil], fun h => absurd trivial h⟩
  | cons n s ih => cases st with
    | nil => simp at hl
    | cons d st =>
      simp only [FillsRow, fillPos, List.headD_cons]
      cases hu : hasUniformStride (n :: s) (d :: st) with
      | some e =>
        simp only
        by_cases h1 : e = 1
        · subst h1
          simp only [if_true]
          refine ⟨fun h o => by rw [h, uniform_one_offsets hl hu h0 h], fun h => .inl ?_⟩
          have hd : d = 0 := by
            by_contra hd
            obtain ⟨h2, _⟩ := hasUniformStride_ne_zero (by simpa using hl) hu hd
            rw [strideFromShape_cons] at h2
            simp at h2
            exact h (by rw [h2.1, numel_cons])
          rw [hd]; rfl
        · simp only [h1, if_false]
          exact ⟨fun h o => by rw [offsets_uniform hl h hu], fun h => .inr (uniform_beyond hl hu h)⟩
      | none =>
        have h0' : numel s ≠ 0 := fun hz => h0 (by rw [numel_cons, hz, Nat.mul_zero])
        have hn : n ≠ 0 := fun hz => h0 (by rw [numel_cons, hz, Nat.zero_mul])
        obtain ⟨ih1, ih2⟩ := ih (st := st) (by simpa using hl) h0'
        simp only
        refine ⟨fun h o => ?_, fun h => ?_⟩
        · rw [offsets_cons]
          simp only [List.mem_flatMap, List.mem_map, ih1 h]
        · rcases ih2 h with h2 | ⟨q, h2, h3⟩
          · left; rw [h2]; simp
          · right
            refine ⟨(n - 1) * d + q, List.mem_flatMap.2 ⟨n - 1, List.mem_range.2 (by omega), List.mem_map.2 ⟨q, h2, rfl⟩⟩, fun o ho => ?_⟩
            rw [offsets_cons] at ho
            obtain ⟨k, hk, ho⟩ := List.mem_flatMap.1 ho
            obtain ⟨o', ho', rfl⟩ := List.mem_map.1 ho
            have h4 := h3 o' ho'
            have h5 : k * d ≤ (n - 1) * d := Nat.mul_le_mul_right d (by have := List.mem_range.1 hk; omega)
            omega

theorem fillPos_empty {s st : List Nat} (hl : s.length = st.length) (h0 : numel s = 0) :
    fillPos s st (s.headD 0 * st.headD 0) = [] := by
  induction s generalizing st with
  | nil => simp at h0
  | cons n s ih => cases st with
    | nil => simp at hl
    | cons d st =>
      simp only [fillPos, List.headD_cons]
      cases hu : hasUniformStride (n :: s) (d :: st) with
      | some e =>
        simp only
        by_cases h1 : e = 1
        · subst h1
          rw [if_pos rfl, uniform_one_len (by simpa using hl) hu (.inl h0), h0]; rfl
        · rw [if_neg h1, h0]; rfl
      | none =>
        simp only
        rw [numel_cons, Nat.mul_eq_zero] at h0
        rcases h0 with h0 | h0
        · rw [h0]; rfl
        · rw [ih (by simpa using hl) h0]; simp

/-- **C24, exactly.** For every valid view, broadcast or not, uniformly strided or not: `fill` sets exactly the elements of the view,
for all contents of the memory, if and only if the layout is one of those of `Arr.Fills`. -/
theorem C24_fill_layout_exact [Nontrivial α] {a : Arr α} (hv : a.Valid) :
    (∀ (buf : List α) (v : α), buf.length = a.buf.length → ∃ buf', (a.over buf).fill v = .ok buf' ∧
      buf'.length = buf.length ∧ (a.over buf').Denotes a.shape (fun _ => v) ∧
      ∀ i, (∀ idx, InB idx a.shape → i ≠ a.off + offset idx a.stride) → buf'[i]? = buf[i]?) ↔ a.Fills := by
  rw [fill_iff_pos hv]
  unfold Arr.Fills
  have hl := hv.1.symm
  generalize a.shape = s at *
  generalize a.stride = st at *
  generalize a.len = len
  cases hu : hasUniformStride s st with
  | some e =>
    have hpos : fillPos s st len = if e = 1 then List.range len else (List.range (numel s)).map (· * e) := by
      unfold fillPos
      split <;> rw [hu]
    rw [hpos]
    simp only
    by_cases h1 : e = 1
    · simp only [h1, if_true, List.mem_range]
    · simp only [h1, if_false]
      constructor
      · intro h
        by_contra hg
        obtain ⟨q, h2, h3⟩ := uniform_beyond hl hu hg
        exact lt_irrefl q (h3 q ((h q).1 h2))
      · intro hg o
        rw [offsets_uniform hl hg hu]
  | none =>
    have hpos : fillPos s st len = fillPos s st (s.headD 0 * st.headD 0) := by
      unfold fillPos
      split <;> rw [hu]
    rw [hpos]
    simp only
    by_cases h0 : numel s = 0
    · rw [fillPos_empty hl h0, offsets_of_numel_zero h0]
      simp [h0]
    · obtain ⟨h1, h2⟩ := fillPos_row hl h0
      constructor
      · intro h
        right
        by_contra hn
        rcases h2 hn with h3 | ⟨q, h3, h4⟩
        · have h5 : offset (unrank s 0) st ∈ offsets s st := mem_offsets.2 ⟨_, InB_unrank (by omega), rfl⟩
          have h6 := (h _).2 h5
          rw [h3] at h6
          cases h6
        · exact lt_irrefl q (h4 q ((h q).1 h3))
      · rintro (h | h)
        · exact absurd h h0
        · exact h1 h

example := C24_fill_layout_exact (wf_history demo_fresh.wf demoT_history).valid

/-- The condition holds of a block of a matrix and fails of a repeated block, of a repeated row with the length of a broadcast view, and
of a block that is entered through a unit axis of stride 0. -/
example : FillsRow [2, 3] [5, 1] ∧ ¬ FillsRow [2, 2, 3] [10, 0, 1] ∧ ¬ FillsRow [2, 1, 3] [5, 0, 1] ∧
    ¬ (∀ i, i < 6 ↔ i ∈ offsets [2, 3] [0, 1]) ∧ ∀ i, i < 3 ↔ i ∈ offsets [2, 3] [0, 1] := by
  refine ⟨by simp [FillsRow, hasUniformStride], by simp [FillsRow, hasUniformStride], by simp [FillsRow, hasUniformStride],
    fun h => absurd ((h 5).1 (by omega)) (by decide), fun i => ?_⟩
  have : offsets [2, 3] [0, 1] = [0, 1, 2, 0, 1, 2] := by decide
  rw [this]
  simp
  omega

end Verif
