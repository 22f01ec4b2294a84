import Verif.Lemmas.Simd
import Verif.Lemmas.SimdReduce
import Verif.Lemmas.Blas
import Verif.Lemmas.MatrixOps
import Verif.Model.Vdsp

/-!
# Lemmas about the vDSP kernels
-/

namespace Verif

variable {α : Type}

/-! ### elementwise -/

theorem vdspVadd_ok {f : α → α → α} {m : Mem α} {a b c : Ptr} {ia ib n : Nat} {u v : Nat → α}
    (h1 : ∀ k < n, m.load (a.add (k * ia)) = .ok (u k)) (h2 : ∀ k < n, m.load (b.add (k * ib)) = .ok (v k))
    (h0 : n ≠ 0) (hr : n ≠ 0 → ∃ r, m[c.reg]? = some r ∧ c.off + n ≤ r.length) :
    vdspVadd f a ia b ib c n m = .ok (m.write c (gen (fun k => f (u k) (v k)) 0 n)) := by
  obtain ⟨r, hr, hl⟩ := hr h0
  unfold vdspVadd
  rw [vecLoad_ok (u := u) (o := 0) (by simpa using h1), vecLoad_ok (u := v) (o := 0) (by simpa using h2)]
  simp only [ok_bind]
  rw [zipWith_gen]
  simp only [Nat.zero_add]
  exact vecStore_ok (vs := gen (fun k => f (u k) (v k)) 0 n) hr (by simpa using hl)

theorem vdspVsub_ok {f : α → α → α} {m : Mem α} {a b c : Ptr} {ia ib n : Nat} {u v : Nat → α}
    (h1 : ∀ k < n, m.load (a.add (k * ia)) = .ok (u k)) (h2 : ∀ k < n, m.load (b.add (k * ib)) = .ok (v k))
    (h0 : n ≠ 0) (hr : n ≠ 0 → ∃ r, m[c.reg]? = some r ∧ c.off + n ≤ r.length) :
    vdspVsub f b ib a ia c n m = .ok (m.write c (gen (fun k => f (u k) (v k)) 0 n)) := by
  obtain ⟨r, hr, hl⟩ := hr h0
  unfold vdspVsub
  rw [vecLoad_ok (u := v) (o := 0) (by simpa using h2), vecLoad_ok (u := u) (o := 0) (by simpa using h1)]
  simp only [ok_bind]
  rw [zipWith_gen]
  simp only [Nat.zero_add]
  exact vecStore_ok (vs := gen (fun k => f (u k) (v k)) 0 n) hr (by simpa using hl)

theorem vdspVsadd_ok {f : α → α → α} {m : Mem α} {a b c : Ptr} {ia n : Nat} {u v : Nat → α}
    (h1 : ∀ k < n, m.load (a.add (k * ia)) = .ok (u k)) (h2 : ∀ k < n, m.load (b.add (k * 0)) = .ok (v k))
    (h0 : n ≠ 0) (hr : n ≠ 0 → ∃ r, m[c.reg]? = some r ∧ c.off + n ≤ r.length) :
    vdspVsadd f a ia b c n m = .ok (m.write c (gen (fun k => f (u k) (v k)) 0 n)) := by
  obtain ⟨r, hr, hl⟩ := hr h0
  obtain ⟨e1, _, e2⟩ := Operand.reads_const h2 h0
  unfold vdspVsadd
  rw [if_neg h0, vecLoad_ok (u := u) (o := 0) (by simpa using h1), e1]
  simp only [ok_bind]
  have : (gen u 0 n).map (fun x => f x (v 0)) = gen (fun k => f (u k) (v k)) 0 n := by
    unfold gen
    rw [List.map_map]
    apply List.map_congr_left
    intro i hi
    have := e2 _ rfl i (List.mem_range.1 hi)
    simp [this]
  rw [this]
  exact vecStore_ok hr (by simpa using hl)

theorem Ready.empty {f : α → α → Res α} {m : Mem α} {lhs rhs dst : Ptr} {ls rs : Nat} {ws : List (Res α)}
    (h : Ready f m lhs rhs dst (multiples 0 ls) (multiples 0 rs) ws) : finish m dst ws = .ok m := by
  have hw : ws = [] := List.length_eq_zero_iff.1 (by simpa using h.ll.symm)
  subst hw
  simp [finish, pure_res, ok_bind]

theorem vdspVadd_finish {f : α → α → α} {m : Mem α} {lhs rhs dst : Ptr} {ls rs n : Nat} {ws : List (Res α)}
    (h : Ready (fun x y => .ok (f x y)) m lhs rhs dst (multiples n ls) (multiples n rs) ws) :
    vdspVadd f lhs ls rhs rs dst n m = finish m dst ws := by
  by_cases h0 : n = 0
  · subst h0
    rw [h.empty]; rfl
  · obtain ⟨u, v, h1, h2, h3, _, _, h6⟩ := h.reads h0
    exact (vdspVadd_ok h1 h2 h0 h3).trans h6.symm

theorem vdspVsub_finish {f : α → α → α} {m : Mem α} {lhs rhs dst : Ptr} {ls rs n : Nat} {ws : List (Res α)}
    (h : Ready (fun x y => .ok (f x y)) m lhs rhs dst (multiples n ls) (multiples n rs) ws) :
    vdspVsub f rhs rs lhs ls dst n m = finish m dst ws := by
  by_cases h0 : n = 0
  · subst h0
    rw [h.empty]; rfl
  · obtain ⟨u, v, h1, h2, h3, _, _, h6⟩ := h.reads h0
    exact (vdspVsub_ok h1 h2 h0 h3).trans h6.symm

theorem vdspVsadd_finish {f : α → α → α} {m : Mem α} {lhs rhs dst : Ptr} {ls n : Nat} {ws : List (Res α)}
    (h : Ready (fun x y => .ok (f x y)) m lhs rhs dst (multiples n ls) (multiples n 0) ws) :
    vdspVsadd f lhs ls rhs dst n m = finish m dst ws := by
  by_cases h0 : n = 0
  · subst h0
    rw [h.empty]; rfl
  · obtain ⟨u, v, h1, h2, h3, _, _, h6⟩ := h.reads h0
    exact (vdspVsadd_ok h1 h2 h0 h3).trans h6.symm

theorem vdspVsadd_finish_swap {f : α → α → α} (hf : ∀ x y, f x y = f y x) {m : Mem α} {lhs rhs dst : Ptr} {rs n : Nat}
    {ws : List (Res α)} (h : Ready (fun x y => .ok (f x y)) m lhs rhs dst (multiples n 0) (multiples n rs) ws) :
    vdspVsadd f rhs rs lhs dst n m = finish m dst ws := by
  by_cases h0 : n = 0
  · subst h0
    rw [h.empty]; rfl
  · obtain ⟨u, v, h1, h2, h3, _, _, h6⟩ := h.reads h0
    rw [show (fun k => f (u k) (v k)) = fun k => f (v k) (u k) from funext fun _ => hf ..] at h6
    exact (vdspVsadd_ok h2 h1 h0 h3).trans h6.symm

theorem vdspAdd_correct {f : α → α → α} (hf : ∀ x y, f x y = f y x) :
    (vdspAddKernels f).Correct (fun x y => .ok (f x y)) fun _ => True where
  s01 _ _ _ _ _ _ _ h := vdspVadd_finish h
  s10 _ _ _ _ _ _ _ h := vdspVadd_finish h
  sn0 _ _ _ _ _ _ _ _ h := vdspVsadd_finish h
  s0n _ _ _ _ _ _ _ _ h := vdspVsadd_finish_swap hf h
  s11 _ _ _ _ _ _ _ h := vdspVadd_finish h
  sn1 _ _ _ _ _ _ _ _ h := vdspVadd_finish h
  s1n _ _ _ _ _ _ _ _ h := vdspVadd_finish h
  snn _ _ _ _ _ _ _ _ _ h := vdspVadd_finish h

theorem vdspSub_correct (f : α → α → α) : (vdspSubKernels f).Correct (fun x y => .ok (f x y)) fun _ => True where
  s01 _ _ _ _ _ _ _ h := vdspVsub_finish h
  s10 _ _ _ _ _ _ _ h := vdspVsub_finish h
  sn0 _ _ _ _ _ _ _ _ h := vdspVsub_finish h
  s0n _ _ _ _ _ _ _ _ h := vdspVsub_finish h
  s11 _ _ _ _ _ _ _ h := vdspVsub_finish h
  sn1 _ _ _ _ _ _ _ _ h := vdspVsub_finish h
  s1n _ _ _ _ _ _ _ _ h := vdspVsub_finish h
  snn _ _ _ _ _ _ _ _ _ h := vdspVsub_finish h

theorem vdspDiv_correct (f : α → α → α) : (vdspDivKernels f).Correct (fun x y => .ok (f x y)) fun _ => True :=
  { vdspSub_correct f with sn0 := fun _ _ _ _ _ _ _ _ h => vdspVsadd_finish h }

/-! ### 32-bit integers -/

theorem addI32_comm (x y : Int) : addI32 x y = addI32 y x := by unfold addI32; rw [Int.add_comm]

theorem addI32_of_fits {x y : Int} (h : -2147483648 ≤ x + y ∧ x + y < 2147483648) : addI32 x y = x + y := by
  unfold addI32
  rw [Int.bmod_eq_of_le] <;> omega

theorem bmod_eq (x : Int) : ∃ k : Int, x.bmod 4294967296 = x + k * 4294967296 := by
  have h := @Int.bmod_emod x 4294967296
  generalize x.bmod 4294967296 = y at h ⊢
  exact ⟨(y - x) / 4294967296, by omega⟩

theorem addU32_eq (x y : Nat) : addU32 x y = (x + y) % 4294967296 := by
  have e : ∀ n : Nat, asI32 n = (n : Int).bmod 4294967296 := fun _ => rfl
  obtain ⟨k, hk⟩ := bmod_eq x
  obtain ⟨l, hl⟩ := bmod_eq y
  unfold addU32 addI32
  rw [e, e, hk, hl]
  obtain ⟨t, ht⟩ := bmod_eq (x + k * 4294967296 + (y + l * 4294967296))
  rw [ht]
  have : ((x : Int) + k * 4294967296 + (y + l * 4294967296) + t * 4294967296) % 4294967296 = (x + y) % 4294967296 := by
    rw [show (x : Int) + k * 4294967296 + (y + l * 4294967296) + t * 4294967296 = x + y + (k + l + t) * 4294967296 by ring]
    exact Int.add_mul_emod_self_right ..
  rw [this]
  clear this ht hk hl e
  omega

/-! ### fill -/

theorem foldlM_map_eq {β γ δ : Type} (g : β → γ) (f : δ → γ → Res δ) (l : List β) (d : δ) :
    (l.map g).foldlM f d = l.foldlM (fun d b => f d (g b)) d := by
  induction l generalizing d with
  | nil => rfl
  | cons b l ih =>
    simp only [List.map_cons, List.foldlM_cons]
    congr 1; funext d'; exact ih d'

theorem vdspVfill_eq (v : α) (n : Nat) (c : List α) (p ic : Nat) :
    vdspVfill v c p ic n = fillUniformStride n c p ic v := by
  unfold vdspVfill
  induction n generalizing c p with
  | zero => rfl
  | succ n ih =>
    rw [List.range_succ_eq_map, List.foldlM_cons, fillUniformStride]
    simp only [Nat.zero_mul, Nat.add_zero]
    congr 1; funext c'
    rw [← ih, foldlM_map_eq]
    congr 1
    funext c i
    congr 1
    rw [Nat.succ_mul]; omega

/-! ### reductions -/

theorem redUniform_eq (step : α → α → α) (s n : Nat) (buf : List α) (p : Nat) (x : α) :
    redUniform step s n buf p x = (do
      let vs ← bufVec n buf p s
      return vs.foldl (fun acc v => step v acc) x) := by
  have := redUniform_add (step := step) (op := fun acc v => step v acc) (fun _ _ => rfl) s n 0 buf p x
  simpa [redUniform, pure_res] using this

/-- Started with the value of the portable loop, the vDSP reductions are the portable ones. -/
theorem vdspRed_eq (step : α → α → α) (init : α) : vdspRed step init = portableRed step init := by
  unfold vdspRed portableRed
  congr 1
  · funext buf p n
    exact (redUniform_eq ..).symm
  · funext buf p n s
    exact (redUniform_eq ..).symm

theorem bufVec_mem {L : Nat} {buf : List α} {p s : Nat} {vs : List α} (h : bufVec L buf p s = .ok vs) :
    ∀ x ∈ vs, x ∈ buf := by
  induction L generalizing p vs with
  | zero => simp [bufVec, pure_res] at h; subst h; simp
  | succ L ih =>
    rw [bufVec_succ] at h
    cases h1 : bufLoad buf p with
    | error e => rw [h1] at h; simp [error_bind] at h
    | ok y =>
      rw [h1, ok_bind] at h
      cases h2 : bufVec L buf (p + s) s with
      | error e => rw [h2] at h; simp [error_bind] at h
      | ok v =>
        rw [h2, ok_bind] at h
        cases h
        intro x hx
        rcases List.mem_cons.1 hx with rfl | hx
        · unfold bufLoad at h1
          split at h1
          · rename_i h3; cases h1; exact List.mem_of_getElem? h3
          · cases h1
        · exact ih h2 x hx

theorem redUniform_start {step : α → α → α} {i j : α} {buf : List α} (h : ∀ x ∈ buf, step x i = step x j) (s : Nat) {n : Nat}
    (hn : n ≠ 0) (p : Nat) : redUniform step s n buf p i = redUniform step s n buf p j := by
  rw [redUniform_eq, redUniform_eq]
  cases h1 : bufVec n buf p s with
  | error e => rfl
  | ok vs =>
    have hl := bufVec_length h1
    have hm := bufVec_mem h1
    cases vs with
    | nil => simp at hl; omega
    | cons v vs =>
      simp only [ok_bind, List.foldl_cons]
      rw [h v (hm v (by simp))]

/-- The starting value does not matter to a non-empty array if the first element supersedes it. -/
theorem reduceAll_start {step : α → α → α} {i j : α} {a : Arr α} (h : ∀ x ∈ a.buf, step x i = step x j)
    (hn : numel a.shape ≠ 0) :
    a.reduceAll step i (vdspRed step j) = a.reduceAll step i (portableRed step i) := by
  unfold Arr.reduceAll redKernel
  rw [vdspRed_eq]
  cases hasUniformStride a.shape a.stride with
  | none => rfl
  | some d =>
    simp only [portableRed]
    rw [redUniform_start h 1 hn, redUniform_start h d hn]

/-! ### dot product -/

theorem vdspDot_ok [SumProduct α] {a b : Src α} {sa sb count : Nat} {dst : List α} {q : Nat} {u v : Nat → α}
    (h1 : ∀ k < count, a.1[a.2 + k * sa]? = some (u k)) (h2 : ∀ k < count, b.1[b.2 + k * sb]? = some (v k))
    (hq : q < dst.length) : vdspDot a b sa sb count dst q = .ok (addFn dst (hit q (innerProduct count u v))) := by
  unfold vdspDot vdspDotpr
  rw [products_ok (p := fun t => a.2 + t * sa) (q := fun t => b.2 + t * sb) h1 h2]
  exact bufAdd_ok _ hq

theorem withVdspDot_correct [SumProduct α] {K : SopKernels α} (hK : K.Correct) : (withVdspDot K).Correct :=
  { hK with
    dot := fun {a b dst p p' q count} h0 h1 h2 h3 => by
      refine (vdspDot_ok (u := fun k => a.getD (p + k) 0) (v := fun k => b.getD (p' + k) 0) ?_ ?_ h3).trans ?_
      · intro k hk
        have : p + k < a.length := by omega
        simp [this]
      · intro k hk
        have : p' + k < b.length := by omega
        simp [this]
      · rw [innerProduct_eq] }

end Verif
