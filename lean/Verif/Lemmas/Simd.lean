import Verif.Model.Simd
import Verif.Lemmas.Kernels

/-!
# The vector kernels for elementwise operations compute what the portable loops compute
-/

namespace Verif

variable {α : Type}

/-! ### blocks of memory -/

/-- The values `u o, u (o + 1), …`, `n` of them. -/
def gen (u : Nat → α) (o n : Nat) : List α := (List.range n).map fun i => u (o + i)

@[simp] theorem length_gen (u : Nat → α) (o n : Nat) : (gen u o n).length = n := by simp [gen]

theorem getElem?_gen {u : Nat → α} {o n i : Nat} (h : i < n) : (gen u o n)[i]? = some (u (o + i)) := by
  simp [gen, h]

theorem gen_append (u : Nat → α) (o a b : Nat) : gen u o a ++ gen u (o + a) b = gen u o (a + b) := by
  simp [gen, List.range_add, Function.comp_def, Nat.add_assoc]

theorem gen_shift (u : Nat → α) (o d n : Nat) : gen (fun k => u (d + k)) o n = gen u (d + o) n := by
  simp [gen, Nat.add_assoc]

theorem zipWith_gen {β γ : Type} (f : α → β → γ) (u : Nat → α) (v : Nat → β) (o o' n : Nat) :
    List.zipWith f (gen u o n) (gen v o' n) = gen (fun k => f (u (o + k)) (v (o' + k))) 0 n := by
  simp [gen, List.zipWith_map, List.zipWith_self]

theorem writeAt_append {r : List α} {o : Nat} {a b : List α} (h : o + (a.length + b.length) ≤ r.length) :
    writeAt (writeAt r o a) (o + a.length) b = writeAt r o (a ++ b) := by
  have hl : (writeAt r o a).length = r.length := length_writeAt (by omega)
  apply List.ext_getElem?
  intro i
  rw [getElem?_writeAt (by rw [hl]; omega), getElem?_writeAt (by omega), getElem?_writeAt (by simp; omega)]
  simp only [List.length_append]
  by_cases h1 : o + a.length ≤ i ∧ i < o + a.length + b.length
  · rw [if_pos h1, if_pos (by omega), List.getElem?_append_right (by omega)]
    congr 1; omega
  · rw [if_neg h1]
    by_cases h2 : o ≤ i ∧ i < o + a.length
    · rw [if_pos h2, if_pos (by omega), List.getElem?_append_left (by omega)]
    · rw [if_neg h2, if_neg (by omega)]

theorem Mem.write_append {m : Mem α} {p : Ptr} {r : List α} (h : m[p.reg]? = some r) {a b : List α}
    (hr : p.off + (a.length + b.length) ≤ r.length) :
    (m.write p a).write (p.add a.length) b = m.write p (a ++ b) := by
  have hlt := (List.getElem?_eq_some_iff.1 h).1
  rw [Mem.write_of h, Mem.write_of h, Mem.write_of (m := m.set p.reg (writeAt r p.off a))
    (r := writeAt r p.off a) (p := p.add a.length) (List.getElem?_set_self hlt)]
  simp only [Ptr.add, List.set_set, writeAt_append hr]

theorem Mem.region_write {m : Mem α} {p : Ptr} {r : List α} (h : m[p.reg]? = some r) (a : List α) :
    (m.write p a)[p.reg]? = some (writeAt r p.off a) := by
  rw [Mem.write_of h, List.getElem?_set_self (List.getElem?_eq_some_iff.1 h).1]

/-- A load elsewhere does not see a block of stores. -/
theorem Mem.load_write_ne {m : Mem α} {p q : Ptr} {r : List α} (h : m[q.reg]? = some r) {a : List α}
    (hr : q.off + a.length ≤ r.length) (hne : ∀ j < a.length, p ≠ q.add j) : (m.write q a).load p = m.load p := by
  unfold Mem.load
  by_cases h1 : p.reg = q.reg
  · rw [h1, Mem.region_write h, h]
    simp only
    rw [getElem?_writeAt hr, if_neg]
    rintro ⟨h2, h3⟩
    apply hne (p.off - q.off) (by omega)
    cases p; cases q; simp_all [Ptr.add]
  · rw [Mem.write_of h, List.getElem?_set_ne (Ne.symm h1)]

theorem vecStore_ok {m : Mem α} {p : Ptr} {r : List α} (h : m[p.reg]? = some r) {vs : List α}
    (hr : p.off + vs.length ≤ r.length) : vecStore vs p m = .ok (m.write p vs) := by
  induction vs generalizing m p r with
  | nil => simp [vecStore]
  | cons v vs ih =>
    simp only [List.length_cons] at hr
    have hlt := (List.getElem?_eq_some_iff.1 h).1
    rw [vecStore, Mem.store_ok h (by omega)]
    simp only [ok_bind]
    rw [ih (m := m.set p.reg (r.set p.off v)) (r := r.set p.off v) (p := p.add 1) (List.getElem?_set_self hlt) (by simp [Ptr.add]; omega)]
    congr 1
    rw [Mem.write_of h, Mem.write_of (m := m.set p.reg (r.set p.off v)) (r := r.set p.off v) (p := p.add 1)
      (List.getElem?_set_self hlt)]
    simp only [Ptr.add, List.set_set]
    rw [writeAt_cons (by omega)]

theorem vecLoad_ok {L : Nat} {m : Mem α} {p : Ptr} {s : Nat} {u : Nat → α} {o : Nat}
    (h : ∀ i < L, m.load (p.add (i * s)) = .ok (u (o + i))) : vecLoad L m p s = .ok (gen u o L) := by
  unfold vecLoad
  rw [mapM_ok (g := fun i => u (o + i))]
  · rfl
  · intro i hi
    exact h i (List.mem_range.1 hi)

/-- The operand read through `p`, whose elements are `u`. -/
def Operand.Reads (A : Operand α) (m : Mem α) (p : Ptr) (n : Nat) (u : Nat → α) : Prop :=
  (∀ k < n, m.load (p.add (k * A.stride)) = .ok (u k)) ∧ ∀ v, A = .const v → ∀ k < n, u k = v

theorem Operand.vec_ok {A : Operand α} {m : Mem α} {p : Ptr} {n : Nat} {u : Nat → α} (h : A.Reads m p n u) {L k : Nat}
    (hk : (k + 1) * L ≤ n) : A.vec L m p k = .ok (gen u (k * L) L) := by
  have hk' : k * L + L ≤ n := by rw [Nat.succ_mul] at hk; exact hk
  obtain ⟨h1, h2⟩ := h
  cases A with
  | const v =>
    simp only [Operand.vec, gen]
    congr 1
    symm
    apply List.eq_replicate_iff.2 ⟨?_, ?_⟩
    · simp
    · intro b hb
      simp only [List.mem_map, List.mem_range] at hb
      obtain ⟨i, hi, rfl⟩ := hb
      exact h2 v rfl _ (by omega)
  | unit =>
    simp only [Operand.vec]
    apply vecLoad_ok
    intro i hi
    have := h1 (k * L + i) (by omega)
    simp only [Operand.stride, Nat.mul_one] at this
    rw [Ptr.add_add, Nat.mul_one]; exact this
  | strided s =>
    simp only [Operand.vec]
    apply vecLoad_ok
    intro i hi
    have := h1 (k * L + i) (by omega)
    simp only [Operand.stride] at this
    rw [Ptr.add_add, show k * s * L + i * s = (k * L + i) * s by
      rw [Nat.add_mul, Nat.mul_assoc, Nat.mul_comm s L, Nat.mul_assoc]]
    exact this

/-! ### the loops -/

theorem simdBlock_ok {f : α → α → α} {L : Nat} {A B : Operand α} {m : Mem α} {lhs rhs dst : Ptr} {n : Nat}
    {u v : Nat → α} (hA : A.Reads m lhs n u) (hB : B.Reads m rhs n v) (hn : 4 * L ≤ n) {r : List α}
    (hr : m[dst.reg]? = some r) (hroom : dst.off + n ≤ r.length) :
    simdBlock f L A B lhs rhs dst m = .ok (m.write dst (gen (fun k => f (u k) (v k)) 0 (4 * L))) := by
  unfold simdBlock
  rw [Operand.vec_ok hA (L := L) (k := 0) (by omega), Operand.vec_ok hB (L := L) (k := 0) (by omega),
    Operand.vec_ok hA (L := L) (k := 1) (by omega), Operand.vec_ok hB (L := L) (k := 1) (by omega),
    Operand.vec_ok hA (L := L) (k := 2) (by omega), Operand.vec_ok hB (L := L) (k := 2) (by omega),
    Operand.vec_ok hA (L := L) (k := 3) (by omega), Operand.vec_ok hB (L := L) (k := 3) (by omega)]
  simp only [ok_bind]
  have hz : ∀ k, List.zipWith f (gen u (k * L) L) (gen v (k * L) L) = gen (fun k => f (u k) (v k)) (k * L) L := by
    intro k
    rw [zipWith_gen]
    exact gen_shift (fun k => f (u k) (v k)) 0 (k * L) L
  rw [hz, hz, hz, hz]
  generalize hw : (fun k => f (u k) (v k)) = w
  have e : ∀ k, gen w 0 (k * L) ++ gen w (k * L) L = gen w 0 ((k + 1) * L) := by
    intro k
    have := gen_append w 0 (k * L) L
    rw [Nat.zero_add] at this
    rw [this, Nat.succ_mul]
  have step : ∀ k, (k + 1) * L ≤ n → vecStore (gen w (k * L) L) (dst.add (k * L)) (m.write dst (gen w 0 (k * L))) =
      .ok (m.write dst (gen w 0 ((k + 1) * L))) := by
    intro k hk
    rw [Nat.succ_mul] at hk
    have hreg := Mem.region_write hr (gen w 0 (k * L))
    rw [vecStore_ok (p := dst.add (k * L)) (r := writeAt r dst.off (gen w 0 (k * L))) hreg]
    · have := Mem.write_append hr (a := gen w 0 (k * L)) (b := gen w (k * L) L) (by simp; omega)
      rw [length_gen] at this
      rw [this, e]
    · rw [length_writeAt (by simp; omega)]; simp [Ptr.add]; omega
  have s0 := step 0 (by omega)
  rw [show gen w 0 (0 * L) = [] by simp [gen], Mem.write_nil] at s0
  rw [s0]; simp only [ok_bind]
  rw [step 1 (by omega)]; simp only [ok_bind]
  rw [step 2 (by omega)]; simp only [ok_bind]
  exact step 3 (by omega)

theorem Operand.Reads.rest {A : Operand α} {m m' : Mem α} {p : Ptr} {n : Nat} {u : Nat → α} (h : A.Reads m p n u)
    (d : Nat) (hm : ∀ k, d ≤ k → k < n → m'.load (p.add (k * A.stride)) = m.load (p.add (k * A.stride))) :
    A.Reads m' (p.add (d * A.stride)) (n - d) fun k => u (d + k) := by
  refine ⟨fun k hk => ?_, fun v hv k hk => h.2 v hv _ (by omega)⟩
  rw [Ptr.add_add, ← Nat.add_mul, hm _ (by omega) (by omega)]
  exact h.1 _ (by omega)

/-- The portable loop on readable operands. -/
theorem strideNN_ok {f : α → α → α} {m : Mem α} {lhs rhs dst : Ptr} {ls rs n : Nat} {u v : Nat → α}
    (hA : ∀ k < n, m.load (lhs.add (k * ls)) = .ok (u k)) (hB : ∀ k < n, m.load (rhs.add (k * rs)) = .ok (v k))
    (hroom : n ≠ 0 → ∃ r, m[dst.reg]? = some r ∧ dst.off + n ≤ r.length)
    (hl : ∀ j k, j < k → k < n → lhs.add (k * ls) ≠ dst.add j)
    (hr : ∀ j k, j < k → k < n → rhs.add (k * rs) ≠ dst.add j) :
    strideNN (fun x y => .ok (f x y)) ls rs n lhs rhs dst m = .ok (m.write dst (gen (fun k => f (u k) (v k)) 0 n)) := by
  have hR : Ready (fun x y => .ok (f x y)) m lhs rhs dst (multiples n ls) (multiples n rs)
      ((gen (fun k => f (u k) (v k)) 0 n).map Except.ok) := by
    refine ⟨by simp, by simp, fun h => ?_, ?_, ?_, ?_⟩
    · simpa using hroom (by rintro rfl; simp [gen] at h)
    · intro k x y hx hy
      have hk : k < n := by
        have := (List.getElem?_eq_some_iff.1 hx).1
        simpa using this
      rw [getElem?_multiples hk, Option.some.injEq] at hx hy
      subst hx; subst hy
      exact ⟨u k, v k, hA k hk, hB k hk, by simp [getElem?_gen hk]⟩
    · intro j k x hjk hx
      have hk : k < n := by
        have := (List.getElem?_eq_some_iff.1 hx).1
        simpa using this
      rw [getElem?_multiples hk, Option.some.injEq] at hx
      subst hx
      exact hl j k hjk hk
    · intro j k x hjk hx
      have hk : k < n := by
        have := (List.getElem?_eq_some_iff.1 hx).1
        simpa using this
      rw [getElem?_multiples hk, Option.some.injEq] at hx
      subst hx
      exact hr j k hjk hk
  rw [strideNN_eq, runPairs_ok hR, finish]
  have : ((gen (fun k => f (u k) (v k)) 0 n).map (Except.ok : α → Res α)).mapM id =
      .ok (gen (fun k => f (u k) (v k)) 0 n) := by
    induction gen (fun k => f (u k) (v k)) 0 n with
    | nil => rfl
    | cons z zs ih => simp [List.mapM_cons, ih, pure_res]
  rw [this]; rfl

/-- The vector loop computes the same. -/
theorem simdBin_ok {f : α → α → α} {L : Nat} {A B : Operand α} {m : Mem α} {lhs rhs dst : Ptr} {n : Nat}
    {u v : Nat → α} (hA : A.Reads m lhs n u) (hB : B.Reads m rhs n v)
    (hroom : n ≠ 0 → ∃ r, m[dst.reg]? = some r ∧ dst.off + n ≤ r.length)
    (hl : ∀ j k, j < k → k < n → lhs.add (k * A.stride) ≠ dst.add j)
    (hr : ∀ j k, j < k → k < n → rhs.add (k * B.stride) ≠ dst.add j) :
    simdBin f L A B n lhs rhs dst m = .ok (m.write dst (gen (fun k => f (u k) (v k)) 0 n)) := by
  induction n using Nat.strong_induction_on generalizing m lhs rhs dst u v with
  | _ n ih =>
    rw [simdBin]
    split
    · rename_i h
      obtain ⟨hL, hn⟩ := h
      obtain ⟨r, hreg, hle⟩ := hroom (by omega)
      rw [simdBlock_ok hA hB hn hreg hle]
      simp only [ok_bind]
      have ec : ∀ s, 4 * s * L = 4 * L * s := fun s => by
        rw [Nat.mul_assoc, Nat.mul_comm s L, Nat.mul_assoc]
      rw [ec, ec]
      have hw : dst.off + (gen (fun k => f (u k) (v k)) 0 (4 * L)).length ≤ r.length := by simp; omega
      rw [ih (n - 4 * L) (by omega) (u := fun k => u (4 * L + k)) (v := fun k => v (4 * L + k))]
      · have := Mem.write_append hreg (a := gen (fun k => f (u k) (v k)) 0 (4 * L))
          (b := gen (fun k => f (u (4 * L + k)) (v (4 * L + k))) 0 (n - 4 * L)) (by simp; omega)
        rw [length_gen] at this
        rw [this]
        have h2 := gen_shift (fun k => f (u k) (v k)) 0 (4 * L) (n - 4 * L)
        have h3 := gen_append (fun k => f (u k) (v k)) 0 (4 * L) (n - 4 * L)
        rw [Nat.zero_add] at h3
        rw [h2, Nat.add_zero, h3, show 4 * L + (n - 4 * L) = n by omega]
      · apply hA.rest
        intro k h1 h2
        apply Mem.load_write_ne hreg hw
        intro j hj
        rw [length_gen] at hj
        exact hl j k (by omega) h2
      · apply hB.rest
        intro k h1 h2
        apply Mem.load_write_ne hreg hw
        intro j hj
        rw [length_gen] at hj
        exact hr j k (by omega) h2
      · intro _
        refine ⟨_, Mem.region_write hreg _, ?_⟩
        rw [length_writeAt hw]; simp [Ptr.add]; omega
      · intro j k hjk hk
        rw [Ptr.add_add, Ptr.add_add, ← Nat.add_mul]
        exact hl _ _ (by omega) (by omega)
      · intro j k hjk hk
        rw [Ptr.add_add, Ptr.add_add, ← Nat.add_mul]
        exact hr _ _ (by omega) (by omega)
    · exact strideNN_ok hA.1 hB.1 hroom hl hr

/-! ### readiness -/

/-- What `Ready` says for a total operator on uniformly strided operands. -/
theorem Ready.reads {f : α → α → α} {m : Mem α} {lhs rhs dst : Ptr} {ls rs n : Nat} {ws : List (Res α)}
    (h : Ready (fun x y => .ok (f x y)) m lhs rhs dst (multiples n ls) (multiples n rs) ws) (h0 : n ≠ 0) :
    ∃ u v : Nat → α, (∀ k < n, m.load (lhs.add (k * ls)) = .ok (u k)) ∧ (∀ k < n, m.load (rhs.add (k * rs)) = .ok (v k)) ∧
      (n ≠ 0 → ∃ r, m[dst.reg]? = some r ∧ dst.off + n ≤ r.length) ∧
      (∀ j k, j < k → k < n → lhs.add (k * ls) ≠ dst.add j) ∧ (∀ j k, j < k → k < n → rhs.add (k * rs) ≠ dst.add j) ∧
      finish m dst ws = .ok (m.write dst (gen (fun k => f (u k) (v k)) 0 n)) := by
  have hn : ws.length = n := by have := h.ll; simpa using this.symm
  have hs := fun k (hk : k < n) => h.step k _ _ (getElem?_multiples hk) (getElem?_multiples hk)
  obtain ⟨u0, v0, _⟩ := hs 0 (by omega)
  have hs' : ∀ k, ∃ u v, k < n → m.load (lhs.add (k * ls)) = .ok u ∧ m.load (rhs.add (k * rs)) = .ok v ∧
      ws[k]? = some (.ok (f u v)) := by
    intro k
    by_cases hk : k < n
    · obtain ⟨u, v, h1⟩ := hs k hk
      exact ⟨u, v, fun _ => h1⟩
    · exact ⟨u0, v0, fun h => absurd h hk⟩
  choose u v huv using hs'
  have hroom : n ≠ 0 → ∃ r, m[dst.reg]? = some r ∧ dst.off + n ≤ r.length := by
    intro _
    have := h.room (by rintro rfl; simp at hn; omega)
    rwa [hn] at this
  have hl := fun j k (hjk : j < k) (hk : k < n) => h.sepl j k _ hjk (getElem?_multiples hk)
  have hr := fun j k (hjk : j < k) (hk : k < n) => h.sepr j k _ hjk (getElem?_multiples hk)
  refine ⟨u, v, fun k hk => (huv k hk).1, fun k hk => (huv k hk).2.1, hroom, hl, hr, ?_⟩
  rw [← runPairs_ok h, ← strideNN_eq]
  exact strideNN_ok (fun k hk => (huv k hk).1) (fun k hk => (huv k hk).2.1) hroom hl hr

theorem Operand.reads_unit {m : Mem α} {p : Ptr} {n : Nat} {u : Nat → α} (h : ∀ k < n, m.load (p.add (k * 1)) = .ok (u k)) :
    Operand.unit.Reads m p n u := ⟨h, fun _ h => by cases h⟩

theorem Operand.reads_strided {m : Mem α} {p : Ptr} {n s : Nat} {u : Nat → α}
    (h : ∀ k < n, m.load (p.add (k * s)) = .ok (u k)) : (Operand.strided s).Reads m p n u := ⟨h, fun _ h => by cases h⟩

theorem Operand.reads_const {m : Mem α} {p : Ptr} {n : Nat} {u : Nat → α} (h : ∀ k < n, m.load (p.add (k * 0)) = .ok (u k))
    (h0 : n ≠ 0) : m.load p = .ok (u 0) ∧ (Operand.const (u 0)).Reads m p n u := by
  have h1 := h 0 (by omega)
  refine ⟨h1, h, fun v hv k hk => ?_⟩
  cases hv
  have h2 := h k hk
  simp only [Nat.mul_zero] at h1 h2
  exact Except.ok.inj (h2.symm.trans h1)

/-- The vector kernels are correct for every non-zero count. -/
theorem simd_correct (f : α → α → α) (L : Nat) :
    (simdKernels f L).Correct (fun x y => .ok (f x y)) fun n => n ≠ 0 where
  s01 _ _ _ _ _ _ h0 h := by
    obtain ⟨u, v, h1, h2, h3, h4, h5, h6⟩ := h.reads h0
    obtain ⟨e1, e2⟩ := Operand.reads_const h1 h0
    simp only [simdKernels, e1, ok_bind]
    rw [h6, simdBin_ok e2 (Operand.reads_unit h2) h3 h4 h5]
  s10 _ _ _ _ _ _ h0 h := by
    obtain ⟨u, v, h1, h2, h3, h4, h5, h6⟩ := h.reads h0
    obtain ⟨e1, e2⟩ := Operand.reads_const h2 h0
    simp only [simdKernels, e1, ok_bind]
    rw [h6, simdBin_ok (Operand.reads_unit h1) e2 h3 h4 h5]
  sn0 _ _ _ _ _ _ _ h0 h := by
    obtain ⟨u, v, h1, h2, h3, h4, h5, h6⟩ := h.reads h0
    obtain ⟨e1, e2⟩ := Operand.reads_const h2 h0
    simp only [simdKernels, e1, ok_bind]
    rw [h6, simdBin_ok (Operand.reads_strided h1) e2 h3 h4 h5]
  s0n _ _ _ _ _ _ _ h0 h := by
    obtain ⟨u, v, h1, h2, h3, h4, h5, h6⟩ := h.reads h0
    obtain ⟨e1, e2⟩ := Operand.reads_const h1 h0
    simp only [simdKernels, e1, ok_bind]
    rw [h6, simdBin_ok e2 (Operand.reads_strided h2) h3 h4 h5]
  s11 _ _ _ _ _ _ h0 h := by
    obtain ⟨u, v, h1, h2, h3, h4, h5, h6⟩ := h.reads h0
    simp only [simdKernels]
    rw [h6, simdBin_ok (Operand.reads_unit h1) (Operand.reads_unit h2) h3 h4 h5]
  sn1 _ _ _ _ _ _ _ h0 h := by
    obtain ⟨u, v, h1, h2, h3, h4, h5, h6⟩ := h.reads h0
    simp only [simdKernels]
    rw [h6, simdBin_ok (Operand.reads_strided h1) (Operand.reads_unit h2) h3 h4 h5]
  s1n _ _ _ _ _ _ _ h0 h := by
    obtain ⟨u, v, h1, h2, h3, h4, h5, h6⟩ := h.reads h0
    simp only [simdKernels]
    rw [h6, simdBin_ok (Operand.reads_unit h1) (Operand.reads_strided h2) h3 h4 h5]
  snn _ _ _ _ _ _ _ _ h0 h := by
    obtain ⟨u, v, h1, h2, h3, h4, h5, h6⟩ := h.reads h0
    simp only [simdKernels]
    rw [h6, simdBin_ok (Operand.reads_strided h1) (Operand.reads_strided h2) h3 h4 h5]

/-! ### negation -/

theorem bind_twice {β γ : Type} (x : Res β) (k : β → β → Res γ) :
    (x >>= fun a => x >>= fun b => k a b) = x >>= fun a => k a a := by
  cases x <;> rfl

theorem negStrideN_eq_strideNN (g : α → α) (s : Nat) (n : Nat) (src dst : Ptr) (m : Mem α) :
    negStrideN (fun x => .ok (g x)) s n src dst m = strideNN (fun x _ => .ok (g x)) s s n src src dst m := by
  induction n generalizing src dst m with
  | zero => rfl
  | succ n ih =>
    simp only [negStrideN, strideNN, unStep, binStep, bind_twice]
    congr 1; funext m'
    exact ih ..

theorem simdNeg_eq_simdBin (g : α → α) (L : Nat) (A : Operand α) (n : Nat) (src dst : Ptr) (m : Mem α) :
    simdNeg g L A n src dst m = simdBin (fun x _ => g x) L A A n src src dst m := by
  induction n using Nat.strong_induction_on generalizing m src dst with
  | _ n ih =>
    rw [simdNeg, simdBin]
    split
    · rename_i h
      have : simdNegBlock g L A src dst m = simdBlock (fun x _ => g x) L A A src src dst m := by
        have hz : ∀ a : List α, List.zipWith (fun x _ => g x) a a = a.map g := fun a => by
          rw [List.zipWith_self]
        simp only [simdNegBlock, simdBlock, bind_twice, hz]
      rw [this]
      congr 1; funext m'
      exact ih _ (by omega) ..
    · exact negStrideN_eq_strideNN ..

theorem simdNeg_correct (g : α → α) (L : Nat) :
    (simdNegKernels g L).Correct (fun x => .ok (g x)) fun n => n ≠ 0 where
  s0 _ _ _ _ _ h0 h := by
    obtain ⟨u, v, h1, h2, h3, h4, h5, h6⟩ := Ready.reads (f := fun x _ => g x) h h0
    simp only [simdNegKernels, simdNeg_eq_simdBin]
    rw [h6, simdBin_ok (Operand.reads_strided h1) (Operand.reads_strided h2) h3 h4 h5]
  s1 _ _ _ _ _ h0 h := by
    obtain ⟨u, v, h1, h2, h3, h4, h5, h6⟩ := Ready.reads (f := fun x _ => g x) h h0
    simp only [simdNegKernels, simdNeg_eq_simdBin]
    rw [h6, simdBin_ok (Operand.reads_unit h1) (Operand.reads_unit h2) h3 h4 h5]
  sn _ _ _ _ _ _ h0 h := by
    obtain ⟨u, v, h1, h2, h3, h4, h5, h6⟩ := Ready.reads (f := fun x _ => g x) h h0
    simp only [simdNegKernels, simdNeg_eq_simdBin]
    rw [h6, simdBin_ok (Operand.reads_strided h1) (Operand.reads_strided h2) h3 h4 h5]

end Verif
