import Verif.Model.Usize
import Verif.Props.Views
import Verif.Props.Broadcast
import Verif.Props.History
import Verif.Lemmas.History

/-!
# C62 sizes and offsets never wrap around

This is also the justification for taking `usize` to be `Nat` in the rest of the model.
-/

namespace Verif

variable {α : Type}

/-! ## Arithmetic -/

theorem uResult_ok {M z : Nat} (c : Bool) (h : z < M) : uResult M c z = .ok z := if_pos h

theorem uResult_panic {M z : Nat} (h : M ≤ z) : uResult M true z = .error .panic := by
  unfold uResult; rw [if_neg (by omega)]; rfl

theorem numel_pos' {s : List Nat} (h : ∀ n ∈ s, 0 < n) : 0 < numel s :=
  Nat.pos_of_ne_zero (numel_ne_zero.2 fun n hn => Nat.pos_iff_ne_zero.1 (h n hn))

theorem uProd_ok {M : Nat} (c : Bool) {s : List Nat} (h : ∀ n ∈ s, 0 < n) (acc : Nat) (hm : acc * numel s < M) :
    uProd M c s acc = .ok (acc * numel s) := by
  induction s generalizing acc with
  | nil => simp [uProd]
  | cons n s ih =>
    have hp := numel_pos' (s := s) fun m hm' => h m (by simp [hm'])
    have h1 : acc * n ≤ acc * n * numel s := Nat.le_mul_of_pos_right _ hp
    rw [numel_cons, ← Nat.mul_assoc] at hm
    rw [uProd, uResult_ok c (by omega), ok_bind, ih (fun m hm' => h m (by simp [hm'])) _ hm, numel_cons, Nat.mul_assoc]

theorem uProd_panic {M : Nat} {s : List Nat} (h : ∀ n ∈ s, 0 < n) (acc : Nat) (ha : acc < M) (hm : M ≤ acc * numel s) :
    uProd M true s acc = .error .panic := by
  induction s generalizing acc with
  | nil => simp at hm; omega
  | cons n s ih =>
    rw [numel_cons, ← Nat.mul_assoc] at hm
    rw [uProd]
    by_cases hn : acc * n < M
    · rw [uResult_ok _ hn, ok_bind]
      exact ih (fun m hm' => h m (by simp [hm'])) _ hn hm
    · rw [uResult_panic (by omega)]; rfl

theorem uProd_release {M : Nat} {s : List Nat} (acc : Nat) (ha : acc < M) :
    uProd M false s acc = .ok (acc * numel s % M) := by
  induction s generalizing acc with
  | nil => simp [uProd, Nat.mod_eq_of_lt ha]
  | cons n s ih =>
    rw [uProd]
    have h1 : uResult M false (acc * n) = .ok (acc * n % M) := by
      unfold uResult
      split
      · rename_i h; rw [Nat.mod_eq_of_lt h]
      · rfl
    rw [h1, ok_bind, ih _ (Nat.mod_lt _ (by omega)), numel_cons, ← Nat.mul_assoc, Nat.mod_mul_mod]

/-- The running product of a shape with a zero extent either overflows or ends at 0. -/
theorem uProd_zero {M : Nat} (c : Bool) {s : List Nat} (h : 0 ∈ s) (acc : Nat) (hM : 0 < M) (ha : acc < M):
    uProd M c s acc = .ok 0 ∨ uProd M c s acc = .error .panic := by
  cases c with
  | false =>
    left; rw [uProd_release acc ha, numel_eq_zero.2 h]; simp
  | true =>
    induction s generalizing acc with
    | nil => cases h
    | cons n s ih =>
      rw [uProd]
      by_cases hn : acc * n < M
      · rw [uResult_ok _ hn, ok_bind]
        rcases List.mem_cons.1 h with rfl | h
        · have : ∀ t : List Nat, uProd M true t 0 = .ok 0 := by
            intro t
            induction t with
            | nil => rfl
            | cons m t ih => rw [uProd, Nat.zero_mul, uResult_ok _ hM, ok_bind, ih]
          left; simpa using this s
        · exact ih h _ hn
      · right; rw [uResult_panic (by omega)]; rfl

theorem reshapeStrides_snd (acc : Nat) (s : List Nat) : (reshapeStrides acc s).2 = acc * numel s := by
  induction s with
  | nil => simp [reshapeStrides]
  | cons n s ih => simp [reshapeStrides, ih, Nat.mul_assoc, Nat.mul_comm n]

theorem reshapeStrides_one (s : List Nat) : reshapeStrides 1 s = strideAux s := by
  induction s with
  | nil => rfl
  | cons n s ih => simp [reshapeStrides, strideAux, ih]

theorem uStrides_ok {M : Nat} (c : Bool) {s : List Nat} (h : ∀ n ∈ s, 0 < n) (acc : Nat) (hm : acc * numel s < M) :
    uStrides M c acc s = .ok (reshapeStrides acc s) := by
  induction s with
  | nil => rfl
  | cons n s ih =>
    have h1 : acc * numel s ≤ acc * numel (n :: s) := by
      rw [numel_cons]; exact Nat.mul_le_mul_left _ (Nat.le_mul_of_pos_left _ (h n (by simp)))
    rw [uStrides, ih (fun m hm' => h m (by simp [hm'])) (by omega), ok_bind, reshapeStrides_snd, uResult_ok c
      (by rw [Nat.mul_assoc, Nat.mul_comm (numel s)]; exact hm), ok_bind]
    simp [reshapeStrides, reshapeStrides_snd, pure_res]

/-- Each extent times its stride is below `M`. -/
def Fits (M : Nat) (s st : List Nat) : Prop := ∀ p ∈ s.zip st, p.1 * p.2 < M

theorem uHasUniformStride_ok {M : Nat} (c : Bool) {s st : List Nat} (h : Fits M s st) :
    uHasUniformStride M c s st = .ok (hasUniformStride s st) := by
  induction s generalizing st with
  | nil => cases st <;> rfl
  | cons m s ih =>
    cases s with
    | nil => rcases st with _ | ⟨d, _ | ⟨e, st⟩⟩ <;> rfl
    | cons n s =>
      rcases st with _ | ⟨e, _ | ⟨d, st⟩⟩
      · rfl
      · rfl
      · have ih' := ih (st := d :: st) fun p hp => h p (by simp at hp ⊢; tauto)
        rw [uHasUniformStride, hasUniformStride]
        by_cases he : e = 0
        · subst he; simp [ih']
        · rw [if_pos he, uResult_ok c (h (n, d) (by simp)), ok_bind]
          by_cases hp : e = n * d
          · simp [he, hp, ih']
          · simp [he, hp, pure_res]

theorem uUpdateFlags_ok {M : Nat} (c : Bool) (fl : Flags) {s st : List Nat} (h : Fits M s st) :
    uUpdateFlags M c fl s st = .ok (updateFlagsWithContiguity fl s st) := by
  unfold uUpdateFlags updateFlagsWithContiguity
  rw [uHasUniformStride_ok c h, ok_bind]
  cases hasUniformStride s st <;> rfl

theorem reshapedViewU_ok {M : Nat} (c : Bool) (a : Arr α) {s st : List Nat} (h : Fits M s st) (hp : ∀ n ∈ s, 0 < n)
    (hm : numel s < M) : a.reshapedViewU M c s st = .ok (a.reshapedView s st) := by
  unfold Arr.reshapedViewU
  rw [uUpdateFlags_ok c _ h, ok_bind, uProd_ok c hp 1 (by omega), ok_bind, Nat.one_mul]
  rfl

theorem fits_reshapeStrides {M acc : Nat} {s : List Nat} (hp : ∀ n ∈ s, 0 < n) (h : acc * numel s < M) :
    Fits M s (reshapeStrides acc s).1 := by
  induction s with
  | nil => intro p hp; simp at hp
  | cons n s ih =>
    have h1 : acc * numel s ≤ acc * numel (n :: s) := by
      rw [numel_cons]; exact Nat.mul_le_mul_left _ (Nat.le_mul_of_pos_left _ (hp n (by simp)))
    intro p hpm
    simp only [reshapeStrides, List.zip_cons_cons, List.mem_cons] at hpm
    rcases hpm with rfl | hpm
    · rw [reshapeStrides_snd, Nat.mul_left_comm]; exact h
    · exact ih (fun m hm => hp m (by simp [hm])) (by omega) p hpm

/-! ## Positions inside a buffer -/

theorem uOffset_ok {M : Nat} (c : Bool) (idx st : List Nat) (acc : Nat) (h : acc + offset idx st < M) :
    uOffset M c idx st acc = .ok (acc + offset idx st) := by
  induction idx generalizing st acc with
  | nil => cases st <;> simp [uOffset]
  | cons i idx ih =>
    cases st with
    | nil => simp [uOffset]
    | cons d st =>
      rw [offset_cons] at h
      rw [uOffset, uResult_ok c (by omega), ok_bind, uResult_ok c (by omega), ok_bind, ih st _ (by omega), offset_cons]
      congr 1; omega

/-- The index of the element at the far end along one axis. -/
theorem axis_in_buffer {s st : List Nat} (hp : ∀ n ∈ s, 0 < n) (hl : st.length = s.length) {p : Nat × Nat} (h : p ∈ s.zip st) :
    ∃ idx, InB idx s ∧ offset idx st = (p.1 - 1) * p.2 := by
  induction s generalizing st with
  | nil => simp at h
  | cons n s ih =>
    cases st with
    | nil => simp at h
    | cons d st =>
      have hz : ∀ {t : List Nat}, (∀ n ∈ t, 0 < n) → ∀ u : List Nat, ∃ idx, InB idx t ∧ offset idx u = 0 := by
        intro t ht
        induction t with
        | nil => exact fun u => ⟨[], trivial, by simp⟩
        | cons m t ih => intro u; cases u with
          | nil =>
            obtain ⟨idx, h1, h2⟩ := ih (fun k hk => ht k (by simp [hk])) []
            exact ⟨0 :: idx, ⟨ht m (by simp), h1⟩, by simp⟩
          | cons e u =>
            obtain ⟨idx, h1, h2⟩ := ih (fun k hk => ht k (by simp [hk])) u
            exact ⟨0 :: idx, ⟨ht m (by simp), h1⟩, by simp [h2]⟩
      rw [List.zip_cons_cons, List.mem_cons] at h
      rcases h with rfl | h
      · obtain ⟨idx, h1, h2⟩ := hz (t := s) (fun k hk => hp k (by simp [hk])) st
        exact ⟨(n - 1) :: idx, ⟨by have := hp n (by simp); omega, h1⟩, by simp [h2]⟩
      · obtain ⟨idx, h1, h2⟩ := ih (fun k hk => hp k (by simp [hk])) (by simpa using hl) h
        exact ⟨0 :: idx, ⟨hp n (by simp), h1⟩, by simp [h2]⟩

/-- Allocations have at most `isize::MAX` bytes, so at most half of the `usize` values are positions; then extents times strides of
arrays that lie in a buffer do not overflow. -/
theorem fits_of_denotes {M : Nat} {a : Arr α} {s : List Nat} {f : List Nat → α} (ha : a.Denotes s f) (hp : ∀ n ∈ s, 0 < n)
    (hb : 2 * a.buf.length ≤ M) (hu : ∀ p ∈ s.zip a.stride, p.1 = 1 → p.2 < M) : Fits M s a.stride := by
  intro p hpm
  have hpos : 0 < p.1 := hp _ (List.of_mem_zip hpm).1
  by_cases h1 : p.1 = 1
  · rw [h1, Nat.one_mul]; exact hu p hpm h1
  · obtain ⟨idx, h2, h3⟩ := axis_in_buffer hp ha.2.1 hpm
    have h4 := ha.2.2 idx h2
    have h5 : a.off + offset idx a.stride < a.buf.length := (List.getElem?_eq_some_iff.1 h4).1
    have h6 : p.1 * p.2 ≤ 2 * ((p.1 - 1) * p.2) := by
      rw [← Nat.mul_assoc]; exact Nat.mul_le_mul_right _ (by omega)
    omega

theorem broadcastStrideLoop_unit {st t s r : List Nat} (h : broadcastStrideLoop st t s = .ok r) :
    ∀ p ∈ t.zip r, p.1 = 1 → p.2 = 0 := by
  induction s generalizing st t r with
  | nil =>
    have : r = [] := by cases st <;> cases t <;> (simp [broadcastStrideLoop] at h; exact h)
    subst this; simp
  | cons n s ih =>
    rcases st with _ | ⟨d, st⟩
    · simp [broadcastStrideLoop] at h; subst h; simp
    rcases t with _ | ⟨b, t⟩
    · simp
    rw [broadcastStrideLoop] at h
    by_cases h1 : n = 1
    · rw [if_pos h1] at h
      cases h2 : broadcastStrideLoop st t s with
      | error e => rw [h2] at h; cases h
      | ok w =>
        rw [h2] at h; cases h
        intro p hp hp1
        rw [List.zip_cons_cons, List.mem_cons] at hp
        rcases hp with rfl | hp
        · rfl
        · exact ih h2 p hp hp1
    · rw [if_neg h1] at h
      by_cases hb : n = b
      · rw [if_pos hb] at h
        cases h2 : broadcastStrideLoop st t s with
        | error e => rw [h2] at h; cases h
        | ok w =>
          rw [h2] at h; cases h
          intro p hp hp1
          rw [List.zip_cons_cons, List.mem_cons] at hp
          rcases hp with rfl | hp
          · exact absurd (hb.trans hp1) h1
          · exact ih h2 p hp hp1
      · rw [if_neg hb] at h; cases h

theorem broadcastStride_unit {st t s r : List Nat} (h : broadcastStride st t s = .ok r) : ∀ p ∈ t.zip r, p.1 = 1 → p.2 = 0 := by
  unfold broadcastStride at h
  split at h
  · cases h
  · rename_i hlt
    change (do
      let r ← broadcastStrideLoop st (t.drop (t.length - s.length)) s
      pure (List.replicate (t.length - s.length) 0 ++ r)) = Except.ok r at h
    cases h2 : broadcastStrideLoop st (t.drop (t.length - s.length)) s with
    | error e => rw [h2] at h; cases h
    | ok w =>
      rw [h2] at h; cases h
      intro p hp hp1
      rw [← List.take_append_drop (t.length - s.length) t, List.zip_append (by simp)] at hp
      rcases List.mem_append.1 hp with hp | hp
      · try simp only [List.take_append_drop] at hp
        exact List.eq_of_mem_replicate (List.of_mem_zip hp).2
      · try simp only [List.take_append_drop] at hp
        exact broadcastStrideLoop_unit h2 p hp hp1

theorem uUpdateFlags_debug {M : Nat} (fl : Flags) (s st : List Nat) :
    (∃ r, uUpdateFlags M true fl s st = .ok r) ∨ uUpdateFlags M true fl s st = .error .panic := by
  have key : (∃ r, uHasUniformStride M true s st = .ok r) ∨ uHasUniformStride M true s st = .error .panic := by
    induction s generalizing st with
    | nil => left; cases st <;> exact ⟨_, rfl⟩
    | cons m s ih =>
      cases s with
      | nil => left; rcases st with _ | ⟨d, _ | ⟨e, st⟩⟩ <;> exact ⟨_, rfl⟩
      | cons n s =>
        rcases st with _ | ⟨e, _ | ⟨d, st⟩⟩
        · left; exact ⟨_, rfl⟩
        · left; exact ⟨_, rfl⟩
        · rw [uHasUniformStride]
          by_cases he : e = 0
          · subst he; simpa using ih (d :: st)
          · rw [if_pos he]
            by_cases hnd : n * d < M
            · rw [uResult_ok _ hnd, ok_bind]
              by_cases hp : e = n * d
              · simpa [hp] using ih (d :: st)
              · left; exact ⟨none, by simp [hp, pure_res]⟩
            · right; rw [uResult_panic (by omega)]; rfl
  unfold uUpdateFlags
  rcases key with ⟨r, h⟩ | h
  · left; rw [h, ok_bind]; cases r <;> exact ⟨_, rfl⟩
  · right; rw [h]; rfl

theorem hasUniformStride_last {s st : List Nat} {d e : Nat} (hl : st.length = s.length) (h : hasUniformStride s st = some e)
    (hd : st.getLast? = some d) : d = e := by
  induction s generalizing st with
  | nil => cases st <;> simp_all
  | cons m s ih =>
    rcases st with _ | ⟨c, st⟩
    · simp at hl
    cases s with
    | nil =>
      cases st with
      | nil => simp [hasUniformStride] at h hd; omega
      | cons => simp at hl
    | cons n s =>
      rcases st with _ | ⟨d', st⟩
      · simp at hl
      · rw [hasUniformStride] at h
        split at h
        · cases h
        · exact ih (by simpa using hl) h (by simpa using hd)

/-! ## C62 -/

/-- **C62.** `full` (hence `zeros`, `ones`, `scalar`) to a shape whose element count fits in `usize` gives exactly the array asked for, in
debug and release builds. -/
theorem C62_full (M : Nat) (checks : Bool) (v : α) {s : List Nat} (hp : ∀ n ∈ s, 0 < n) (hm : numel s < M) :
    ∃ r, Arr.fullU M checks v s = .ok r ∧ r.Denotes s (fun _ => v) ∧ r.len = numel s := by
  refine ⟨Arr.fromContiguousOwnedBuffer s (List.replicate (numel s) v), ?_, ?_, by simp [Arr.fromContiguousOwnedBuffer]⟩
  · unfold Arr.fullU
    rw [uProd_ok checks hp 1 (by omega), ok_bind, Nat.one_mul]
    have h0 := numel_pos' hp
    have hne : (!(List.replicate (numel s) v).isEmpty) = true := by
      cases h : numel s with
      | zero => omega
      | succ k => rfl
    show (do
      assert (!(List.replicate (numel s) v).isEmpty)
      let st ← uStrides M checks 1 s
      return { Arr.fromContiguousOwnedBuffer s (List.replicate (numel s) v) with stride := st.1 }) = _
    rw [hne, uStrides_ok checks hp 1 (by omega), reshapeStrides_one]
    rfl
  · have : List.replicate (numel s) v = elements s (fun _ => v) := by
      rw [List.eq_replicate_iff.2 ⟨length_elements s _, fun b hb => by
        obtain ⟨i, _, rfl⟩ := List.mem_map.1 hb; rfl⟩]
    rw [this]
    exact denotes_fromContiguous

example := C62_full (2 ^ 64) false 7 (s := [2, 3]) (by decide) (by decide)

/-- **C62.** In a debug build an element count that does not fit is refused. -/
theorem C62_full_refused (M : Nat) (v : α) {s : List Nat} (hp : ∀ n ∈ s, 0 < n) (hM : 1 < M) (hm : M ≤ numel s) :
    Arr.fullU M true v s = .error .panic := by
  unfold Arr.fullU
  rw [uProd_panic hp 1 hM (by omega)]; rfl

example := C62_full_refused (2 ^ 64) 7 (s := [2 ^ 32, 2 ^ 32]) (by decide) (by decide) (by decide)

/-- **C62.** A zero extent is refused in either build, whatever the other extents are. -/
theorem C62_full_empty (M : Nat) (checks : Bool) (v : α) {s : List Nat} (h0 : 0 ∈ s) (hM : 1 < M) :
    Arr.fullU M checks v s = .error .panic := by
  unfold Arr.fullU
  rcases uProd_zero checks h0 1 (by omega) hM with h | h <;> rw [h] <;> rfl

example := C62_full_empty (2 ^ 64) false 7 (s := [2, 0]) (by decide) (by decide)

/-- **C62.** Every in-range index of an array or view (broadcast ones included) is found at its exact position. -/
theorem C62_index {M : Nat} (checks : Bool) {a : Arr α} {s : List Nat} {f : List Nat → α} (ha : a.Denotes s f)
    (hb : a.buf.length ≤ M) {idx : List Nat} (hi : InB idx s) : a.indexU M checks idx = a.index idx := by
  have h5 : a.off + offset idx a.stride < a.buf.length := (List.getElem?_eq_some_iff.1 (ha.2.2 idx hi)).1
  unfold Arr.indexU Arr.index
  rw [uOffset_ok checks idx a.stride 0 (by omega), Nat.zero_add]
  rfl

example := C62_index (M := 2 ^ 64) false demo_denotes (by decide) (idx := [1, 2]) (by decide)

/-- **C62.** In a debug build indexing never wraps: it does what exact arithmetic does, or panics where exact arithmetic finds the
position beyond the array. -/
theorem C62_index_debug {M : Nat} {a : Arr α} (hM : 0 < M) (hb : a.len ≤ M) (idx : List Nat) : a.indexU M true idx = a.index idx := by
  have key : ∀ (idx st : List Nat) (acc : Nat), acc < M →
      uOffset M true idx st acc = .ok (acc + offset idx st) ∨
      (uOffset M true idx st acc = .error .panic ∧ M ≤ acc + offset idx st) := by
    intro idx
    induction idx with
    | nil => intro st acc _; left; cases st <;> simp [uOffset]
    | cons i idx ih =>
      intro st acc hacc
      cases st with
      | nil => left; simp [uOffset]
      | cons d st =>
        rw [uOffset, offset_cons]
        by_cases h1 : i * d < M
        · rw [uResult_ok _ h1, ok_bind]
          by_cases h2 : acc + i * d < M
          · rw [uResult_ok _ h2, ok_bind]
            rcases ih st _ h2 with h | ⟨h, h'⟩
            · left; rw [h, Nat.add_assoc]
            · right; exact ⟨h, by omega⟩
          · right; rw [uResult_panic (by omega)]; exact ⟨rfl, by omega⟩
        · right; rw [uResult_panic (by omega)]; exact ⟨rfl, by omega⟩
  unfold Arr.indexU Arr.index
  by_cases hl : idx.length = a.ndims
  · rw [assert_ok (by simpa using hl), ok_bind, ok_bind]
    rcases key idx a.stride 0 hM with h | ⟨h, h'⟩
    · rw [h, ok_bind, Nat.zero_add]
    · rw [h]
      show _ = (do assert (decide (offset idx a.stride < a.len)); a.read (offset idx a.stride))
      rw [assert_fail (by simp; omega)]
      rfl
  · rw [assert_fail (by simpa using hl)]; rfl

example := C62_index_debug (M := 2 ^ 64) (a := demo) (by decide) (by decide) [7, 2 ^ 63]

/-- **C62** (part). Broadcasting to a shape whose element count fits gives exactly the view asked for, in both builds. Missing: counts that
do not fit are accepted by release builds (`C62_broadcast_false`). -/
theorem C62_broadcast_partial {M : Nat} (checks : Bool) {a : Arr α} {s t : List Nat} {f : List Nat → α} (ha : a.Denotes s f)
    (hb : 2 * a.buf.length ≤ M) (ht : BroadcastsTo s t) (hp : ∀ n ∈ t, 0 < n) (hm : numel t < M) :
    ∃ r, a.broadcastToU M checks t = .ok r ∧ a.broadcastTo t = .ok r ∧ r.Denotes t (fun idx => f (broadcastIndex s idx)) ∧
      r.len = numel t := by
  have hs := ha.1
  subst hs
  obtain ⟨r, h1, h2, h3, h4, h5, h6, h7, h8⟩ := broadcastTo_ok ha.2.1 ht
  have hden := h3.denotes ha
  rw [h2] at hden
  refine ⟨r, ?_, h1, hden, h6⟩
  have hbs : broadcastShape a.shape t = .ok t := by
    cases h : broadcastShape a.shape t with
    | error e => unfold Arr.broadcastTo at h1; rw [h] at h1; cases h1
    | ok u =>
      unfold Arr.broadcastTo at h1
      rw [h, ok_bind] at h1
      cases h9 : broadcastStride a.stride u a.shape with
      | error e => rw [h9] at h1; cases h1
      | ok w =>
        rw [h9, ok_bind] at h1
        cases h1
        exact congrArg _ h2
  have hrbuf : r.buf = a.buf := h3.1
  have hfits : Fits M t r.stride := by
    apply fits_of_denotes hden hp (by rw [hrbuf]; exact hb)
    intro p hpm h1
    rw [broadcastStride_unit h8 p hpm h1]; omega
  have hcalc : a.broadcastToU M checks t = a.broadcastTo t := by
    unfold Arr.broadcastToU Arr.broadcastTo
    rw [hbs, ok_bind, ok_bind, h8, ok_bind, ok_bind, reshapedViewU_ok checks a hfits hp hm]
    rfl
  rw [hcalc, h1]

example := C62_broadcast_partial (M := 2 ^ 64) false demo_denotes (by decide) (t := [4, 2, 3]) (by decide) (by decide) (by decide)

/-- **C62.** In a debug build broadcasting to a count that does not fit is refused. -/
theorem C62_broadcast_refused {M : Nat} (a : Arr α) {t : List Nat} (hl : a.stride.length = a.shape.length)
    (hM : 1 < M) (hp : ∀ n ∈ t, 0 < n) (hm : M ≤ numel t) : a.broadcastToU M true t = .error .panic := by
  by_cases hbt : BroadcastsTo a.shape t
  · obtain ⟨st, h1, _, _⟩ := broadcastStride_ok hl hbt
    unfold Arr.broadcastToU
    rw [broadcastShape_ok hbt, ok_bind, h1, ok_bind]
    unfold Arr.reshapedViewU
    rw [uProd_panic hp 1 hM (by omega)]
    rcases uUpdateFlags_debug (M := M) a.flags t st with ⟨fl, h⟩ | h <;> rw [h] <;> rfl
  · unfold Arr.broadcastToU
    rw [broadcastShape_error hbt]; rfl

example := C62_broadcast_refused (M := 2 ^ 64) demo (t := [2 ^ 63, 2, 3]) rfl (by decide) (by decide) (by decide)

/-- **C62** (part). Reshaping an array whose element count fits, to a shape whose count fits, does what exact arithmetic does (C13), in both
builds. Missing: in release builds a count that does not fit can be mistaken for the right one (`C62_reshape_false`). -/
theorem C62_reshape_partial {M : Nat} (checks : Bool) {a : Arr α} {s ns : List Nat} {f : List Nat → α} (ha : a.Denotes s f)
    (hf : a.FlagsExact) (hg : Good s a.stride) (hb : 2 * a.buf.length ≤ M) (hu : ∀ d ∈ a.stride, d < M)
    (hp : ∀ n ∈ s, 0 < n) (hm : numel s < M) (hpn : ∀ n ∈ ns, 0 < n) (hmn : numel ns < M) :
    a.reshapeU M checks ns = a.reshape ns := by
  have hs := ha.1
  subst hs
  unfold Arr.reshapeU Arr.reshape Arr.reshapeLayout
  by_cases h0 : ns = a.shape
  · rw [if_pos h0, if_pos h0, reshapedViewU_ok checks a (fits_of_denotes ha hp hb fun p hpm _ => hu _ (List.of_mem_zip hpm).2) hp hm]
    rfl
  · rw [if_neg h0, if_neg h0]
    cases hun : a.isUniformlyStrided with
    | false => rfl
    | true =>
      simp only [assert, if_true, ok_bind]
      unfold Arr.sizeU
      rw [uProd_ok checks hp 1 (by omega), ok_bind, uProd_ok checks hpn 1 (by omega), ok_bind, Nat.one_mul, Nat.one_mul]
      by_cases hsz : numel a.shape = numel ns
      · rw [if_neg (by simpa using hsz), if_neg (by simpa [Arr.size] using hsz)]
        cases hgl : a.stride.getLast? with
        | none => rfl
        | some d =>
          obtain ⟨e, he⟩ := hf.uniform hun
          have hde := hasUniformStride_last ha.2.1 he hgl
          subst hde
          have hd : d * numel ns < M := by
            rw [← hsz]
            have hn := numel_pos' hp
            by_cases h1 : numel a.shape = 1
            · rw [h1, Nat.mul_one]; exact hu d (List.mem_of_getLast? hgl)
            · have hmem : (numel a.shape - 1) * d ∈ offsets a.shape a.stride := by
                rw [offsets_uniform ha.2.1.symm hg he]
                exact List.mem_map.2 ⟨numel a.shape - 1, List.mem_range.2 (by omega), rfl⟩
              obtain ⟨idx, hi, ho⟩ := List.mem_map.1 hmem
              have h5 := (List.getElem?_eq_some_iff.1 (ha.2.2 idx (mem_indices.1 hi))).1
              have h6 : d * numel a.shape ≤ 2 * ((numel a.shape - 1) * d) := by
                rw [Nat.mul_comm, ← Nat.mul_assoc]; exact Nat.mul_le_mul_right _ (by omega)
              omega
          simp only [ok_bind, uStrides_ok checks hpn d hd, reshapedViewU_ok checks a (fits_reshapeStrides hpn hd) hpn hmn]
          rfl
      · rw [if_pos (by simpa using hsz), if_pos (by simpa [Arr.size] using hsz)]
        rfl

example := C62_reshape_partial (M := 2 ^ 64) false demo_denotes (flagsExact_fromContiguous _ _) (by decide) (by decide) (by decide) (by decide)
  (by decide) (ns := [3, 2]) (by decide) (by decide)

/-- **C62.** In a debug build a reshape to a count that does not fit is refused, unless the shape is the array's own. -/
theorem C62_reshape_refused {M : Nat} (a : Arr α) {ns : List Nat} (hne : ns ≠ a.shape) (hM : 1 < M) (hpn : ∀ n ∈ ns, 0 < n)
    (hm : M ≤ numel ns) : a.reshapeU M true ns = .error .panic := by
  unfold Arr.reshapeU
  rw [if_neg hne]
  cases a.isUniformlyStrided with
  | false => rfl
  | true =>
    simp only [assert, if_true, ok_bind, uProd_panic hpn 1 hM (show M ≤ 1 * numel ns by omega)]
    have : ∀ (s : List Nat) (acc : Nat), (∃ r, uProd M true s acc = .ok r) ∨ uProd M true s acc = .error .panic := by
      intro s
      induction s with
      | nil => exact fun acc => .inl ⟨_, rfl⟩
      | cons n s ih =>
        intro acc
        rw [uProd]
        by_cases h : acc * n < M
        · rw [uResult_ok _ h, ok_bind]; exact ih _
        · rw [uResult_panic (by omega)]; exact .inr rfl
    rcases this a.shape 1 with ⟨r, h⟩ | h <;> unfold Arr.sizeU <;> rw [h] <;> rfl

example := C62_reshape_refused (M := 2 ^ 64) demo (ns := [2 ^ 63, 2]) (by decide) (by decide) (by decide) (by decide)

/-- **C62** fails in release builds: `full(7, [2^63 + 1, 2])` returns an array over a buffer of two elements, whose element `[1, 0]` cannot
be read. -/
theorem C62_false : ∃ r, Arr.fullU (2 ^ 64) false 7 [2 ^ 63 + 1, 2] = .ok r ∧ r.shape = [2 ^ 63 + 1, 2] ∧ r.buf = [7, 7] ∧
    r.indexU (2 ^ 64) false [1, 0] = .error .panic ∧ r.sizeU (2 ^ 64) false = .ok 2 := ⟨_, rfl, rfl, rfl, rfl, rfl⟩

/-- **C62** fails in release builds for `reshape`: an array of 4 elements is reshaped to `2^64 + 4` of them. -/
theorem C62_reshape_false : ∃ r, (Arr.fromContiguousOwnedBuffer [4] [1, 2, 3, 4]).reshapeU (2 ^ 64) false [2 ^ 63 + 2, 2] = .ok r ∧
    r.shape = [2 ^ 63 + 2, 2] ∧ r.len = 4 := ⟨_, rfl, rfl, rfl⟩

/-- **C62** fails in release builds for `broadcast_to`: a view of `2^64` elements reports size 0 and its first element cannot be read. -/
theorem C62_broadcast_false : ∃ r, (Arr.fromContiguousOwnedBuffer [1] [5]).broadcastToU (2 ^ 64) false [2 ^ 32, 2 ^ 32] = .ok r ∧
    r.shape = [2 ^ 32, 2 ^ 32] ∧ r.sizeU (2 ^ 64) false = .ok 0 ∧ r.indexU (2 ^ 64) false [0, 0] = .error .panic :=
  ⟨_, rfl, rfl, rfl, rfl⟩

/-- **C62** fails in release builds for indexing: row `2^63` of a 2x2 array is row 0. -/
theorem C62_index_false : (Arr.fromContiguousOwnedBuffer [2, 2] [1, 2, 3, 4]).indexU (2 ^ 64) false [2 ^ 63, 1] = .ok 2 ∧
    (Arr.fromContiguousOwnedBuffer [2, 2] [1, 2, 3, 4]).indexU (2 ^ 64) true [2 ^ 63, 1] = .error .panic := ⟨rfl, rfl⟩

/-- the hypotheses for the 2x3 example array, its transpose and a broadcast view of it -/
example : (∀ n ∈ [2, 3], 0 < n) ∧ numel [2, 3] < 2 ^ 64 ∧ 2 * demo.buf.length ≤ 2 ^ 64 ∧ (∀ d ∈ demo.stride, d < 2 ^ 64) := by decide
example : demo.Denotes [2, 3] demoFn ∧ demo.FlagsExact ∧ Good [2, 3] demo.stride :=
  ⟨demo_denotes, flagsExact_fromContiguous _ _, by decide⟩
example : BroadcastsTo [2, 3] [4, 2, 3] ∧ InB [1, 2] [2, 3] := by decide
example : 2 ^ 64 ≤ numel [2 ^ 32, 2 ^ 32] := by decide
example : ∃ r, demo.reshapeU (2 ^ 64) true [3, 2] = .ok r ∧ r.indexU (2 ^ 64) true [2, 1] = .ok 15 := ⟨_, rfl, rfl⟩

end Verif
