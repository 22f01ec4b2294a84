import Verif.Props.Reduce
import Verif.Props.Construct
import Verif.Props.Iter
import Verif.Props.Macros

/-!
# Exactly which layouts are handled right

`C09`, `C20`, `C21`, `C26` and `C35` hold for some layouts and fail for others. Here the layouts are determined: each theorem says
that the operation is right *for all contents of the memory* if and only if the layout satisfies a condition on offsets.
-/

namespace Verif

variable {α : Type}

/-- The same view, of other contents. -/
def Arr.over (a : Arr α) (buf : List α) : Arr α := { a with buf := buf }

/-! ### layouts -/

theorem not_good {s st : List Nat} {e : Nat} (hl : s.length = st.length) (he : hasUniformStride s st = some e) (hg : ¬ Good s st) :
    e ≠ 0 ∧ numel s ≠ 0 ∧ ∃ k n : Nat, s[k]? = some n ∧ st[k]? = some 0 ∧ 2 ≤ n := by
  unfold Good NoZero at hg
  push Not at hg
  obtain ⟨⟨h0, ⟨n, d⟩, hp, hd, hn⟩, _⟩ := hg
  refine ⟨?_, h0, ?_⟩
  · rintro rfl
    obtain ⟨d', hd', hne⟩ := ‹∃ d ∈ st, d ≠ 0›
    exact hne (hasUniformStride_zero hl he d' hd')
  · simp only at hd hn
    subst hd
    obtain ⟨k, hk, e'⟩ := List.getElem_of_mem hp
    rw [List.getElem_zip] at e'
    rw [List.length_zip] at hk
    simp only [Prod.mk.injEq] at e'
    refine ⟨k, n, ?_, ?_, by omega⟩
    · rw [List.getElem?_eq_getElem (by omega), e'.1]
    · rw [List.getElem?_eq_getElem (by omega), e'.2]

theorem inB_set {s idx : List Nat} {k n i : Nat} (h : InB idx s) (hn : s[k]? = some n) (hi : i < n) : InB (idx.set k i) s := by
  induction s generalizing idx k with
  | nil => simp at hn
  | cons m s ih =>
    cases idx with
    | nil => cases h
    | cons j idx =>
      cases k with
      | zero => simp at hn; subst hn; exact ⟨hi, h.2⟩
      | succ k => exact ⟨h.1, ih h.2 (by simpa using hn)⟩

theorem offset_set_zero {idx st : List Nat} {k i : Nat} (h : st[k]? = some 0) : offset (idx.set k i) st = offset idx st := by
  induction st generalizing idx k with
  | nil => simp at h
  | cons d st ih =>
    cases idx with
    | nil => simp
    | cons j idx =>
      cases k with
      | zero => simp at h; subst h; simp
      | succ k => simp [ih (by simpa using h)]

/-- With such a layout two elements share a cell. -/
theorem offsets_not_nodup {s st : List Nat} {k n : Nat} (h0 : numel s ≠ 0) (hn : s[k]? = some n) (hz : st[k]? = some 0)
    (h2 : 2 ≤ n) : ¬ (offsets s st).Nodup := by
  intro hnd
  have hi : InB (unrank s 0) s := InB_unrank (by omega)
  have h1 := inB_set hi hn (show 0 < n by omega)
  have h3 := inB_set hi hn (show 1 < n by omega)
  have hinj := List.inj_on_of_nodup_map hnd (mem_indices.2 h1) (mem_indices.2 h3)
    (by rw [offset_set_zero hz, offset_set_zero hz])
  have hk : k < (unrank s 0).length := by
    rw [hi.length]; exact (List.getElem?_eq_some_iff.1 hn).1
  have := congrArg (fun l => l[k]?) hinj
  simp [hk] at this

/-- **C26, exactly.** If the code finds a common stride `e`, it is the distance of neighbouring elements if and only if the layout
is `Good`: no elements, no repeated axis, or all elements in one cell. -/
theorem C26_uniform_exact {s st : List Nat} {e : Nat} (hl : s.length = st.length) (he : hasUniformStride s st = some e) :
    offsets s st = (List.range (numel s)).map (· * e) ↔ Good s st := by
  constructor
  · intro h
    by_contra hg
    obtain ⟨h1, h2, k, n, h3, h4, h5⟩ := not_good hl he hg
    refine offsets_not_nodup h2 h3 h4 h5 ?_
    rw [h]
    exact List.nodup_range.map fun x y hxy => Nat.eq_of_mul_eq_mul_right (by omega) hxy
  · exact fun hg => offsets_uniform hl hg he

example := C26_uniform_exact (s := [2, 3]) (st := [6, 2]) (e := 2) rfl rfl

/-- The collapsed layout of a uniformly strided one starts with the common stride. -/
theorem head_collapseAux {cn cd e : Nat} {s st : List Nat} (hl : s.length = st.length) (k : Nat)
    (he : hasUniformStride (k :: s) (cd :: st) = some e)
    (hz : (cd = 0 → cn = 1) ∧ (∀ p ∈ s.zip st, p.2 = 0 → p.1 = 1) ∨ (cd = 0 ∧ ∀ d ∈ st, d = 0)) :
    firstOf (collapseAux cn cd s st).2 = .ok e := by
  induction s generalizing cn cd st k with
  | nil => cases st with
    | nil => simpa [hasUniformStride, collapseAux, firstOf] using he
    | cons _ _ => simp at hl
  | cons n s ih => cases st with
    | nil => simp at hl
    | cons d st =>
      simp only [hasUniformStride] at he
      split at he
      · cases he
      rename_i hc
      have hm : cd = n * d ∨ (cd = 0 ∧ cn = 1) := by
        rcases hz with ⟨h1, _⟩ | ⟨h1, h2⟩
        · by_cases h0 : cd = 0
          · exact .inr ⟨h0, h1 h0⟩
          · left; by_contra h3; exact hc ⟨h0, h3⟩
        · left; rw [h1, h2 d (by simp)]; rfl
      rw [collapseAux, if_pos hm]
      refine ih (by simpa using hl) n he ?_
      rcases hz with ⟨h1, h2⟩ | ⟨h1, h2⟩
      · by_cases hd : d = 0
        · have hn : n = 1 := h2 (n, d) (by simp) hd
          have hcd : cd = 0 := by
            rcases hm with h | h
            · rw [h, hd]; simp
            · exact h.1
          exact .inl ⟨fun _ => by rw [h1 hcd, hn], fun p hp => h2 p (by simp [hp])⟩
        · exact .inl ⟨fun h => absurd h hd, fun p hp => h2 p (by simp [hp])⟩
      · exact .inr ⟨h2 d (by simp), fun x hx => h2 x (by simp [hx])⟩

/-- On a good layout with elements the method and the function agree. -/
theorem uniformStride_good {a : Arr α} (hl : a.shape.length = a.stride.length) (hf : a.FlagsExact)
    (hg : Good a.shape a.stride) (h0 : numel a.shape ≠ 0) :
    a.uniformStride = .ok (hasUniformStride a.shape a.stride) := by
  unfold Arr.uniformStride Arr.isUniformlyStrided
  rw [hf.1]
  cases he : hasUniformStride a.shape a.stride with
  | none => rfl
  | some e =>
    simp only [Option.isSome_some, Bool.not_true, Bool.false_eq_true, if_false]
    have hcol : a.shape ≠ [] → firstOf (collapseToUniformStride a.shape a.stride).2 = .ok e := by
      generalize a.shape = s at *
      generalize a.stride = st at *
      intro hs
      cases s with
      | nil => exact absurd rfl hs
      | cons n s => cases st with
        | nil => simp at hl
        | cons d st =>
          refine head_collapseAux (by simpa using hl) n he ?_
          have hz := numel_ne_zero.1 h0
          rcases hg with (h | h) | h
          · exact absurd h h0
          · refine .inl ⟨fun hd => ?_, fun p hp hp0 => ?_⟩
            · have := h (n, d) (by simp) hd
              have := hz n (by simp)
              simp only at *; omega
            · have := h p (by simp [hp]) hp0
              have := hz p.1 (by simp [(List.of_mem_zip (a := p.1) (b := p.2) (by simpa using hp)).1])
              omega
          · exact .inr ⟨h d (by simp), fun x hx => h x (by simp [hx])⟩
    by_cases hs : a.shape = []
    · have hst : a.stride = [] := by
        rw [hs] at hl; exact List.length_eq_zero_iff.1 (by simpa using hl.symm)
      rw [hs, hst] at he
      rw [if_pos (show a.ndims = 0 by simp [Arr.ndims, hs])]
      simp [hasUniformStride] at he
      rw [← he]; rfl
    · rw [if_neg (show ¬ a.ndims = 0 by simpa [Arr.ndims] using hs), hcol hs]; rfl

/-- **C26**, for the method `has_uniform_stride()`, after any history without `broadcast_to`: it does not panic, gives `None` exactly
if the array reports itself not uniformly strided, gives a number only if the `k`-th element is that many times `k` cells from the
first, and if no axis has extent 0 or 1 gives `None` only if there is no such number. Missing: histories with `broadcast_to`, for
which it is false (`C26_method_false`). -/
theorem C26_method_partial {a b : Arr α} (ha : Fresh a) (h : History NoBroadcast a b) :
    ∃ r, b.uniformStride = .ok r ∧ (r = none ↔ b.isUniformlyStrided = false) ∧
      (∀ e, r = some e → offsets b.shape b.stride = (List.range (numel b.shape)).map (· * e)) ∧
      ((∀ n ∈ b.shape, 2 ≤ n) → r = none → ¬ ∃ e, offsets b.shape b.stride = (List.range (numel b.shape)).map (· * e)) := by
  have hb := wf_history ha.wf h
  have hl := hb.valid.1.symm
  by_cases h0 : numel b.shape = 0
  · have hne : b.shape ≠ [] := by intro hs; rw [hs] at h0; simp at h0
    obtain ⟨_, _, h4, _⟩ := collapse_facts hl hne
    obtain ⟨d, hd⟩ : ∃ d, firstOf (collapseToUniformStride b.shape b.stride).2 = .ok d := by
      cases hc : (collapseToUniformStride b.shape b.stride).2 with
      | nil => exact absurd hc h4
      | cons d _ => exact ⟨d, rfl⟩
    have ho : ∀ e, offsets b.shape b.stride = (List.range (numel b.shape)).map (· * e) := fun e => by
      have : (offsets b.shape b.stride).length = 0 := by rw [length_offsets, h0]
      rw [List.length_eq_zero_iff.1 this, h0]; rfl
    refine ⟨if b.isUniformlyStrided then some d else none, ?_, ?_, fun e _ => ho e, fun h2 => ?_⟩
    · unfold Arr.uniformStride
      rw [hd]
      cases b.isUniformlyStrided <;> simp [Arr.ndims, hne, pure, Except.pure]
    · cases b.isUniformlyStrided <;> simp
    · obtain ⟨n, hn, hn0⟩ : ∃ n ∈ b.shape, n = 0 := ⟨0, numel_eq_zero.1 h0, rfl⟩
      have := h2 n hn; omega
  · refine ⟨_, uniformStride_good hl hb.flags hb.pos.good h0, ?_, fun e he => offsets_uniform hl hb.pos.good he,
      fun h2 hn => C26_nonuniform_partial hl h2 hn⟩
    unfold Arr.isUniformlyStrided
    rw [hb.flags.1]
    cases hasUniformStride b.shape b.stride <;> simp

example := C26_method_partial demo_fresh demoT_history

theorem head_collapse_fresh (cn : Nat) (s : List Nat) :
    firstOf (collapseAux cn (numel s) s (strideFromShape s)).2 = .ok 1  := by
  induction s generalizing cn with
  | nil => simp [collapseAux, firstOf]
  | cons m s ih =>
    rw [strideFromShape_cons, collapseAux, if_pos (.inl (by simp))]
    exact ih _

/-- **C26**: a new array that is not a scalar reports the uniform stride 1, whatever its extents. -/
theorem C26_method_fresh {a : Arr α} (ha : Fresh a) (hn : a.shape ≠ []) : a.uniformStride = .ok (some 1) := by
  obtain ⟨s, data, hl, rfl⟩ := ha
  cases s with
  | nil => exact absurd rfl hn
  | cons n s =>
    unfold Arr.uniformStride
    simp only [Arr.fromContiguousOwnedBuffer, Arr.isUniformlyStrided, Arr.ndims, strideFromShape_cons, collapseToUniformStride,
      head_collapse_fresh n s]
    simp [pure, Except.pure]

example := C26_method_fresh demo_fresh (by decide)

/-- The array of the documentation of the method (src/common/methods.rs 153-163) and its two views. -/
example : ∃ a b c : Arr Nat, Fresh a ∧ History NoBroadcast a b ∧ History NoBroadcast a c ∧ a.uniformStride = .ok (some 1) ∧
    b.uniformStride = .ok (some 3) ∧ c.uniformStride = .ok none ∧ c.shape = [2, 2] :=
  ⟨demo, _, _, ⟨[2, 3], [10, 11, 12, 13, 14, 15], rfl, rfl⟩, .step (.slice [.range 0 2, .at 0]) .refl rfl ⟨by decide, by decide, trivial⟩ rfl,
    .step (.slice [.range 0 2, .range 0 2]) .refl rfl ⟨by decide, by decide, trivial⟩ rfl, by decide, by decide, by decide, by decide⟩

/-- **C26 is false** for the method after `broadcast_to`: `[1, 2].broadcast_to([3, 2])` answers `Some(0)`, but its elements lie in
two cells. -/
theorem C26_method_false : ∃ a b : Arr Nat, Fresh a ∧ History (fun _ => True) a b ∧ b.uniformStride = .ok (some 0) ∧
    offsets b.shape b.stride = [0, 1, 0, 1, 0, 1] := by
  refine ⟨Arr.fromContiguousOwnedBuffer [2] [1, 2], _, ⟨[2], [1, 2], rfl, rfl⟩,
    .step (.broadcastTo [3, 2]) .refl trivial trivial rfl, by decide, by decide⟩
/-- Otherwise one of the cells that are visited does not belong to the view. -/
theorem exists_foreign {s st : List Nat} {e : Nat} (hl : s.length = st.length) (he : hasUniformStride s st = some e)
    (hg : ¬ Good s st) : e ≠ 0 ∧ ∃ i < numel s, i * e ∉ offsets s st := by
  obtain ⟨h1, h2, k, n, h3, h4, h5⟩ := not_good hl he hg
  refine ⟨h1, ?_⟩
  by_contra hc
  push Not at hc
  refine offsets_not_nodup h2 h3 h4 h5 ?_
  have hnd : ((List.range (numel s)).map (· * e)).Nodup :=
    List.nodup_range.map fun x y hxy => Nat.eq_of_mul_eq_mul_right (by omega) hxy
  have hsub : (List.range (numel s)).map (· * e) ⊆ offsets s st := by
    intro x hx
    obtain ⟨i, hi, rfl⟩ := List.mem_map.1 hx
    exact hc i (List.mem_range.1 hi)
  have hp := (List.subperm_of_subset hnd hsub).perm_of_length_le (by simp [length_offsets])
  exact hp.nodup_iff.1 hnd

/-! ### C09 -/

/-- The contents in which one cell holds `x` and all others `z`. -/
def spike (n c : Nat) (x z : α) : List α := (List.replicate n z).set c x

theorem getElem?_spike {n c i : Nat} {x z : α} : (spike n c x z)[i]? = if i < n then some (if i = c then x else z) else none := by
  unfold spike
  rw [List.getElem?_set]
  by_cases h : i < n <;> by_cases h2 : c = i <;> simp [h, h2] <;> grind

/-- What the portable loop returns on such contents, if it returns: `x` counts once. -/
theorem redUniform_spike {step : α → α → α} {z x : α} (hz : ∀ v, step z v = v) {e n c : Nat} (he : e ≠ 0) :
    ∀ (N p : Nat) (acc r : α), redUniform step e N (spike n c x z) p acc = .ok r →
      ((∃ i < N, c = p + i * e) → r = step x acc) ∧ ((∀ i < N, c ≠ p + i * e) → r = acc)
  | 0, p, acc, r, h => by
    cases h
    exact ⟨by rintro ⟨i, hi, _⟩; omega, fun _ => rfl⟩
  | N + 1, p, acc, r, h => by
    unfold redUniform bufLoad at h
    rw [getElem?_spike] at h
    by_cases hp : p < n
    · rw [if_pos hp] at h
      obtain ⟨h1, h2⟩ := redUniform_spike hz he N (p + e) _ r h
      by_cases hpc : p = c
      · rw [if_pos hpc] at h1 h2
        have hr : r = step x acc := h2 fun i _ => by subst hpc; omega
        refine ⟨fun _ => hr, fun hno => absurd (by omega) (hno 0 (by omega))⟩
      · rw [if_neg hpc, hz] at h1 h2
        refine ⟨?_, fun hno => h2 fun i hi => ?_⟩
        · rintro ⟨i, hi, rfl⟩
          cases i with
          | zero => simp at hpc
          | succ i => exact h1 ⟨i, by omega, by ring⟩
        · have := hno (i + 1) (by omega)
          rwa [show p + e + i * e = p + (i + 1) * e by ring]
    · rw [if_neg hp] at h
      cases h

theorem foldOver_neutral {step : α → α → α} {z : α} (hz : ∀ v, step z v = v) (f : List Nat → α) (l : List (List Nat))
    (h : ∀ idx ∈ l, f idx = z) (acc : α) : foldOver step acc f l = acc := by
  unfold foldOver
  induction l generalizing acc with
  | nil => rfl
  | cons i l ih =>
    rw [List.map_cons, List.foldl_cons, h i (by simp), hz]
    exact ih (fun j hj => h j (by simp [hj])) acc

/-- The elements of a view of such contents. -/
theorem denotes_spike {a : Arr α} (hv : a.Valid) (c : Nat) (x z : α) :
    (a.over (spike a.buf.length c x z)).Denotes a.shape (fun idx => if a.off + offset idx a.stride = c then x else z) :=
  ⟨rfl, hv.1, fun idx hi => by
    show (spike _ _ _ _)[a.off + offset idx a.stride]? = _
    rw [getElem?_spike, if_pos (hv.2 idx hi)]⟩

/-- **C09, exactly.** Let `step` be an accumulator step that ignores its start value `z` as an element but not some other value
`x` (a sum: 0 and 1; a product: 1 and 0; a maximum: the least number and another one). Then the reduction of a view is right
for all contents of the memory if and only if its layout is `Reducible`. -/
theorem C09_reduce_exact {step : α → α → α} {z x : α} (hz : ∀ v, step z v = v) (hx : step x z ≠ z) {a : Arr α} (hv : a.Valid)
    (hd : a.shape.length ≤ 32) :
    (∀ (buf : List α) (f : List Nat → α), buf.length = a.buf.length → (a.over buf).Denotes a.shape f →
      ∃ r, (a.over buf).reduceAll step z (portableRed step z) = .ok r ∧
        r.Denotes [] (fun _ => foldOver step z f (indices a.shape))) ↔ Reducible a.shape a.stride := by
  constructor
  · intro h
    by_contra hr
    unfold Reducible at hr
    push Not at hr
    obtain ⟨h1, hg⟩ := hr
    obtain ⟨e, he⟩ := Option.ne_none_iff_exists'.1 h1
    obtain ⟨he0, i, hi, hni⟩ := exists_foreign hv.1.symm he hg
    obtain ⟨r, hr, hden⟩ := h (spike a.buf.length (a.off + i * e) x z) _ (by simp [spike]) (denotes_spike hv _ x z)
    have hval : foldOver step z (fun idx => if a.off + offset idx a.stride = a.off + i * e then x else z) (indices a.shape) = z := by
      refine foldOver_neutral hz _ _ (fun idx hidx => if_neg fun hc => hni ?_) z
      rw [← Nat.add_left_cancel hc]
      exact List.mem_map.2 ⟨idx, hidx, rfl⟩
    rw [hval] at hden
    unfold Arr.reduceAll redKernel at hr
    have hsh : (a.over (spike a.buf.length (a.off + i * e) x z)).shape = a.shape := rfl
    have hst : (a.over (spike a.buf.length (a.off + i * e) x z)).stride = a.stride := rfl
    rw [hsh, hst, he] at hr
    simp only [portableRed] at hr
    have hr' : (redUniform step e (numel a.shape) (spike a.buf.length (a.off + i * e) x z) a.off z >>= Arr.scalar) = .ok r := by
      by_cases h1 : e = 1
      · subst h1; exact hr
      · rw [if_neg h1] at hr; exact hr
    match hrun : redUniform step e (numel a.shape) (spike a.buf.length (a.off + i * e) x z) a.off z with
    | .error err => rw [hrun] at hr'; cases hr'
    | .ok v =>
      rw [hrun, ok_bind] at hr'
      obtain ⟨r', hr1, hr2⟩ := denotes_scalar v
      rw [hr1] at hr'
      cases hr'
      have e1 := hden.2.2 [] trivial
      have e2 := hr2.2.2 [] trivial
      rw [e1] at e2
      cases e2
      exact hx ((redUniform_spike hz he0 _ _ _ _ hrun).1 ⟨i, hi, rfl⟩).symm
  · intro hr buf f hlen hden
    exact C09_reduce_partial step z hden hd hr

example := C09_reduce_exact (step := fun x y : Nat => x + y) (z := 0) (x := 1) (fun v => Nat.zero_add v) (by decide)
  (wf_history demo_fresh.wf demoT_history).valid (by decide)

/-- **C09, exactly**, for sums over any monoid with more than one element. -/
theorem C09_sum_exact [AddCommMonoid α] [Nontrivial α] {a : Arr α} (hv : a.Valid) (hd : a.shape.length ≤ 32) :
    (∀ (buf : List α) (f : List Nat → α), buf.length = a.buf.length → (a.over buf).Denotes a.shape f →
      ∃ r, (a.over buf).sum = .ok r ∧ r.Denotes [] (fun _ => (elements a.shape f).sum)) ↔ Reducible a.shape a.stride := by
  obtain ⟨x, hx⟩ := exists_ne (0 : α)
  have key := C09_reduce_exact (step := fun v acc : α => acc + v) (z := 0) (x := x) (fun v => by simp) (by simpa using hx) hv hd
  rw [← key]
  refine forall_congr' fun buf => forall_congr' fun f => imp_congr_right fun _ => imp_congr_right fun _ => exists_congr fun r => ?_
  have : foldOver (fun v acc : α => acc + v) 0 f (indices a.shape) = (elements a.shape f).sum := by
    unfold foldOver elements
    rw [← List.sum_eq_foldl]
  rw [this]
  rfl

example := C09_sum_exact (wf_history demo_fresh.wf demoT_history).valid (by decide)

/-- **C09, exactly**, for products. -/
theorem C09_product_exact [CommMonoid α] [Nontrivial α] {a : Arr α} (hv : a.Valid) (hd : a.shape.length ≤ 32) :
    (∀ (buf : List α) (f : List Nat → α), buf.length = a.buf.length → (a.over buf).Denotes a.shape f →
      ∃ r, (a.over buf).product = .ok r ∧ r.Denotes [] (fun _ => (elements a.shape f).prod)) ↔ Reducible a.shape a.stride := by
  obtain ⟨x, hx⟩ := exists_ne (1 : α)
  have key := C09_reduce_exact (step := fun v acc : α => acc * v) (z := 1) (x := x) (fun v => by simp) (by simpa using hx) hv hd
  rw [← key]
  refine forall_congr' fun buf => forall_congr' fun f => imp_congr_right fun _ => imp_congr_right fun _ => exists_congr fun r => ?_
  have : foldOver (fun v acc : α => acc * v) 1 f (indices a.shape) = (elements a.shape f).prod := by
    unfold foldOver elements
    rw [← List.prod_eq_foldl]
  rw [this]
  rfl

example := C09_product_exact (wf_history demo_fresh.wf demoT_history).valid (by decide)

/-- A row of a matrix, repeated: valid, and not handled right. A repeated column is. -/
example : ∃ row r : Arr Nat, demo.sliceAlong 0 (.at 0) = .ok row ∧ row.broadcastTo [2, 3] = .ok r ∧
    r.shape = [2, 3] ∧ r.stride = [0, 1] ∧ ¬ Reducible [2, 3] [0, 1] :=
  ⟨_, _, rfl, rfl, rfl, rfl, by unfold Reducible; decide⟩
example : ∃ col r : Arr Nat, demo.slice [.full, .range 0 1] = .ok col ∧ col.broadcastTo [2, 3] = .ok r ∧
    r.shape = [2, 3] ∧ r.stride = [3, 0] ∧ Reducible [2, 3] [3, 0] :=
  ⟨_, _, rfl, rfl, rfl, rfl, by unfold Reducible; decide⟩

/-! ### C20, C21 -/

theorem mapM_res_ok {β γ : Type} {f : β → Res γ} : ∀ {l : List β} {ys : List γ}, l.mapM f = .ok ys →
    ys.length = l.length ∧ ∀ (i : Nat) (b : β), l[i]? = some b → ∃ y, ys[i]? = some y ∧ f b = .ok y
  | [], ys, h => by
    cases h
    exact ⟨rfl, fun i b hb => by simp at hb⟩
  | b :: l, ys, h => by
    rw [List.mapM_cons] at h
    match hb : f b with
    | .error e => rw [hb] at h; cases h
    | .ok y =>
      rw [hb, ok_bind] at h
      match hl : l.mapM f with
      | .error e => rw [hl] at h; cases h
      | .ok zs =>
        rw [hl, ok_bind] at h
        cases h
        obtain ⟨h1, h2⟩ := mapM_res_ok hl
        refine ⟨by simp [h1], fun i c hc => ?_⟩
        cases i with
        | zero => simp at hc; subst hc; exact ⟨y, by simp, hb⟩
        | succ i => simpa using h2 i c (by simpa using hc)

/-- Elements in consecutive cells, in row-major order, and as many as the length recorded with the view. -/
def Arr.Packed (a : Arr α) : Prop := a.len = numel a.shape ∧ offsets a.shape a.stride = List.range (numel a.shape)

/-- If `len` cells from the first on hold the elements in order, for all contents, then the view is packed. -/
theorem packed_of_run {x z : α} (hxz : x ≠ z) {a : Arr α}
    (hrun : ∀ c, (List.range a.len).mapM (a.over (spike a.buf.length c x z)).read =
      .ok (elements a.shape fun idx => if a.off + offset idx a.stride = c then x else z)) : a.Packed := by
  have hlen : a.len = numel a.shape := by
    have := (mapM_res_ok (hrun 0)).1
    rw [length_elements, List.length_range] at this
    exact this.symm
  refine ⟨hlen, ?_⟩
  by_contra hne
  obtain ⟨k, hk, hko⟩ : ∃ k < numel a.shape, offset (unrank a.shape k) a.stride ≠ k := by
    by_contra hcon
    push Not at hcon
    apply hne
    rw [offsets_eq_range]
    refine (List.map_congr_left fun k hk => ?_).trans (List.map_id _)
    exact hcon k (List.mem_range.1 hk)
  obtain ⟨_, h2⟩ := mapM_res_ok (hrun (a.off + offset (unrank a.shape k) a.stride))
  obtain ⟨y, hy, hf⟩ := h2 k k (by rw [List.getElem?_range (by omega)])
  rw [getElem?_elements hk, if_pos rfl] at hy
  cases hy
  unfold Arr.read at hf
  simp only [Arr.over, getElem?_spike] at hf
  by_cases hlt : a.off + k < a.buf.length
  · rw [if_pos hlt, if_neg (by omega)] at hf
    simp only [Except.ok.injEq] at hf
    exact hxz hf.symm
  · rw [if_neg hlt] at hf
    cases hf

theorem cloneData_packed [Nontrivial α] {a : Arr α} (hv : a.Valid)
    (h : ∀ (buf : List α) (f : List Nat → α), buf.length = a.buf.length → (a.over buf).Denotes a.shape f →
      (a.over buf).cloneData = .ok (elements a.shape f)) (hc : a.isContiguous = true) : a.Packed := by
  obtain ⟨x, z, hxz⟩ := exists_pair_ne α
  refine packed_of_run hxz fun c => ?_
  have := h _ _ (by simp [spike]) (denotes_spike hv c x z)
  unfold Arr.cloneData at this
  rw [if_pos (show (a.over (spike a.buf.length c x z)).isContiguous = true from hc)] at this
  unfold Arr.cloneDataContiguous Arr.readRun at this
  simp only [Nat.zero_add] at this
  exact this

/-- **C20, exactly.** For a view with exact flags (every array the library makes has them), `clone()` is right for all contents
if and only if the view does not report itself contiguous, or is packed: its elements lie in consecutive cells. -/
theorem C20_clone_exact [Nontrivial α] {a : Arr α} (hv : a.Valid) (hd : a.shape.length ≤ 32) (hf : a.FlagsExact) :
    (∀ (buf : List α) (f : List Nat → α), buf.length = a.buf.length → (a.over buf).Denotes a.shape f →
      ∃ r, (a.over buf).clone = .ok r ∧ r.Denotes a.shape f ∧ r.buf = elements a.shape f) ↔
    (a.isContiguous = true → a.Packed) := by
  constructor
  · intro h
    refine cloneData_packed hv fun buf f hl hden => ?_
    obtain ⟨r, hr, _, hb⟩ := h buf f hl hden
    unfold Arr.clone at hr
    match hcd : (a.over buf).cloneData with
    | .error e => rw [hcd] at hr; cases hr
    | .ok data =>
      rw [hcd, ok_bind] at hr
      cases hr
      rw [← hb]
      rfl
  · intro hp buf f hl hden
    refine ⟨Arr.fromContiguousOwnedBuffer a.shape (elements a.shape f), ?_, denotes_fromContiguous, rfl⟩
    unfold Arr.clone
    rw [cloneData_ok hden (show (a.over buf).CloneOK from hp) (show (a.over buf).FlagsExact from hf) hd]
    rfl

example := C20_clone_exact (wf_history demo_fresh.wf demoT_history).valid (by decide) (wf_history demo_fresh.wf demoT_history).flags

/-- **C21, exactly.** The same for `flatten()`. -/
theorem C21_flatten_exact [Nontrivial α] {a : Arr α} (hv : a.Valid) (hd : a.shape.length ≤ 32) (hf : a.FlagsExact) :
    (∀ (buf : List α) (f : List Nat → α), buf.length = a.buf.length → (a.over buf).Denotes a.shape f →
      ∃ r, (a.over buf).flatten = .ok r ∧ r.shape = [numel a.shape] ∧ r.buf = elements a.shape f) ↔
    (a.isContiguous = true → a.Packed) := by
  constructor
  · intro h
    refine cloneData_packed hv fun buf f hl hden => ?_
    obtain ⟨r, hr, _, hb⟩ := h buf f hl hden
    unfold Arr.flatten at hr
    match hcd : (a.over buf).cloneData with
    | .error e => rw [hcd] at hr; cases hr
    | .ok data =>
      rw [hcd, ok_bind] at hr
      cases hr
      rw [← hb]
      rfl
  · intro hp buf f hl hden
    refine ⟨Arr.fromContiguousOwnedBuffer [numel a.shape] (elements a.shape f), ?_, rfl, rfl⟩
    unfold Arr.flatten
    rw [cloneData_ok hden (show (a.over buf).CloneOK from hp) (show (a.over buf).FlagsExact from hf) hd]
    rfl

example := C21_flatten_exact (wf_history demo_fresh.wf demoT_history).valid (by decide) (wf_history demo_fresh.wf demoT_history).flags

/-- **C60, exactly.** For a view that reports itself contiguous, `data_slice()` is the list of its elements for all contents if
and only if it is packed. (Otherwise it panics, `C60_not_contiguous`.) -/
theorem C60_data_slice_exact [Nontrivial α] {a : Arr α} (hv : a.Valid) (hc : a.isContiguous = true) :
    (∀ (buf : List α) (f : List Nat → α), buf.length = a.buf.length → (a.over buf).Denotes a.shape f →
      (a.over buf).dataSlice = .ok (elements a.shape f)) ↔ a.Packed := by
  have hslice : ∀ buf, (a.over buf).dataSlice = (List.range a.len).mapM (a.over buf).read := fun buf => by
    unfold Arr.dataSlice
    rw [show (a.over buf).isContiguous = true from hc]
    rfl
  constructor
  · intro h
    obtain ⟨x, z, hxz⟩ := exists_pair_ne α
    refine packed_of_run hxz fun c => ?_
    rw [← hslice]
    exact h _ _ (by simp [spike]) (denotes_spike hv c x z)
  · intro ⟨h1, h2⟩ buf f hl hden
    have := cloneContiguous_ok hden (show (a.over buf).len = _ from h1) (show offsets a.shape (a.over buf).stride = _ from h2)
    unfold Arr.cloneDataContiguous Arr.readRun at this
    simp only [Nat.zero_add] at this
    rw [hslice]
    exact this

example := C60_data_slice_exact demo_fresh.wf.valid rfl

/-- A row of a matrix is packed, the row repeated is not, and reports itself contiguous all the same. -/
example : ∃ row r : Arr Nat, demo.sliceAlong 0 (.at 0) = .ok row ∧ row.Packed ∧ row.isContiguous = true ∧
    row.broadcastTo [2, 3] = .ok r ∧ r.isContiguous = true ∧ ¬ r.Packed :=
  ⟨_, _, rfl, ⟨rfl, rfl⟩, rfl, rfl, rfl, fun h => absurd h.2 (by decide)⟩

/-! ### C35 -/

/-- the first item of an iteration -/
theorem nditer_head {a : Arr α} {k n : Nat} (hk : a.shape[k]? = some n) (hl : a.stride.length = a.shape.length) (hn : n ≠ 0)
    {rs : List (Arr α)} (h : a.nditer [k] = .ok rs) :
    ∃ r, rs[0]? = some r ∧ (a.reshapedView (a.shape.eraseIdx k) (a.stride.eraseIdx k)).clone = .ok r := by
  have hlt : k < a.shape.length := (List.getElem?_eq_some_iff.1 hk).1
  obtain ⟨d, hd⟩ : ∃ d, a.stride[k]? = some d := ⟨_, List.getElem?_eq_getElem (by omega)⟩
  unfold Arr.nditer NdIter.from at h
  rw [splitByIndices_ok (by simpa using hlt) (by simp), ok_bind, splitByIndices_ok (by simpa [hl] using hlt) (by simp), ok_bind] at h
  rw [keepAxes_single hk, keepAxes_single hd, dropAxes_single, dropAxes_single] at h
  simp only [pure_res, ok_bind] at h
  unfold NdIter.toList NdIter.collect NdIter.next at h
  simp only [numel_cons, numel_nil, Nat.mul_one] at h
  rw [if_neg (by omega)] at h
  have hptr : (a.reshapedView (a.shape.eraseIdx k) (a.stride.eraseIdx k)).offsetPtr 0 =
      .ok (a.reshapedView (a.shape.eraseIdx k) (a.stride.eraseIdx k)) := by
    unfold Arr.offsetPtr
    rw [if_pos (by omega)]
    simp
  rw [hptr, ok_bind] at h
  match hcl : (a.reshapedView (a.shape.eraseIdx k) (a.stride.eraseIdx k)).clone with
  | .error e => rw [hcl] at h; cases h
  | .ok r =>
    rw [hcl] at h
    simp only [ok_bind] at h
    generalize NdIter.collect n _ = y at h
    cases y with
    | error e => cases h
    | ok xs =>
      cases h
      exact ⟨r, rfl, rfl⟩

theorem offset_insertIdx_zero {J st : List Nat} {k : Nat} (hk : k < st.length) (hJ : J.length + 1 = st.length) :
    offset (J.insertIdx k 0) st = offset J (st.eraseIdx k) := by
  induction st generalizing J k with
  | nil => simp at hk
  | cons d st ih =>
    cases k with
    | zero => simp
    | succ k =>
      cases J with
      | nil => simp at hJ hk; subst hJ; simp at hk
      | cons j J => simp [ih (by simpa using hk) (by simpa using hJ)]

theorem fromContiguous_denotes_inv {s : List Nat} {data : List α} {g : List Nat → α} (hl : data.length = numel s)
    (h : (Arr.fromContiguousOwnedBuffer s data).Denotes s g) : data = elements s g := by
  apply List.ext_getElem?
  intro i
  by_cases hi : i < numel s
  · rw [getElem?_elements hi]
    have := h.2.2 _ (InB_unrank hi)
    simp only [Arr.fromContiguousOwnedBuffer, Nat.zero_add] at this
    rwa [offset_strideFromShape (InB_unrank hi).length, rank_unrank hi] at this
  · rw [List.getElem?_eq_none (by omega), List.getElem?_eq_none (by rw [length_elements]; omega)]

/-- **C35, exactly.** Iteration along an axis with at least one entry is right for all contents if and only if the sub-arrays do
not report themselves contiguous, or are packed. -/
theorem C35_iter_along_exact [Nontrivial α] {a : Arr α} (hv : a.Valid) (hd : a.shape.length ≤ 32) {axis : Int} {k n : Nat}
    (hax : AxisIs axis a.shape.length k) (hn : a.shape[k]? = some n) (h0 : n ≠ 0) :
    (∀ (buf : List α) (f : List Nat → α), buf.length = a.buf.length → (a.over buf).Denotes a.shape f →
      ∃ rs, (a.over buf).iterAlong axis = .ok rs ∧ rs.length = n ∧
        ∀ i < n, ∃ r, rs[i]? = some r ∧ r.Denotes (a.shape.eraseIdx k) (fun J => f (J.insertIdx k i))) ↔
    ((a.reshapedView (a.shape.eraseIdx k) (a.stride.eraseIdx k)).isContiguous = true →
      (a.reshapedView (a.shape.eraseIdx k) (a.stride.eraseIdx k)).Packed) := by
  have hk : k < a.shape.length := hax.1
  have hl := hv.1
  constructor
  · intro h hc
    obtain ⟨x, z, hxz⟩ := exists_pair_ne α
    refine packed_of_run hxz fun c => ?_
    obtain ⟨rs, h1, _, h3⟩ := h _ _ (by simp [spike]) (denotes_spike hv c x z)
    unfold Arr.iterAlong at h1
    rw [show (a.over (spike a.buf.length c x z)).ndims = a.shape.length from rfl, asAbsolute_ok hax, ok_bind] at h1
    obtain ⟨r, hr0, hcl⟩ := nditer_head (a := a.over (spike a.buf.length c x z)) hn hl h0 h1
    obtain ⟨r', hr0', hden⟩ := h3 0 (by omega)
    rw [hr0] at hr0'
    cases hr0'
    unfold Arr.clone Arr.cloneData at hcl
    rw [if_pos (show ((a.over (spike a.buf.length c x z)).reshapedView ((a.over (spike a.buf.length c x z)).shape.eraseIdx k)
      ((a.over (spike a.buf.length c x z)).stride.eraseIdx k)).isContiguous = true from hc)] at hcl
    unfold Arr.cloneDataContiguous Arr.readRun at hcl
    simp only [Nat.zero_add] at hcl
    show (List.range (numel (a.shape.eraseIdx k))).mapM
      ((a.over (spike a.buf.length c x z)).reshapedView (a.shape.eraseIdx k) (a.stride.eraseIdx k)).read = _
    generalize hdat : (List.range (numel (a.shape.eraseIdx k))).mapM
      ((a.over (spike a.buf.length c x z)).reshapedView (a.shape.eraseIdx k) (a.stride.eraseIdx k)).read = dat
    have hcl' : (dat >>= fun data => pure (Arr.fromContiguousOwnedBuffer (a.shape.eraseIdx k) data)) = .ok r := by
      rw [← hdat]; exact hcl
    cases dat with
    | error e => cases hcl'
    | ok data =>
      cases hcl'
      have hlen := (mapM_res_ok hdat).1
      rw [List.length_range] at hlen
      rw [fromContiguous_denotes_inv hlen hden]
      congr 1
      refine List.map_congr_left fun J hJ => ?_
      have hJl := (mem_indices.1 hJ).length
      rw [offset_insertIdx_zero (by omega) (by rw [hJl, List.length_eraseIdx_of_lt hk]; omega)]
      rfl
  · intro hp buf f _ ha
    obtain ⟨d, hdk⟩ : ∃ d, a.stride[k]? = some d := ⟨_, List.getElem?_eq_getElem (by omega)⟩
    obtain ⟨rs, h4, h2, h6⟩ := nditer_clone_ok ha hd (ks := [k]) (by simpa using hk) (by simp) (q := d)
      (by rw [show (a.over buf).stride = a.stride from rfl, keepAxes_single hdk, keepAxes_single hn]; simp [chainStride])
      (fun _ => by rw [dropAxes_single, dropAxes_single]; exact hp)
    rw [keepAxes_single hn] at h2 h6
    refine ⟨rs, ?_, by simpa using h2, fun i hi => ?_⟩
    · unfold Arr.iterAlong
      rw [show (a.over buf).ndims = a.shape.length from rfl, asAbsolute_ok hax]; exact h4
    · obtain ⟨r, h7, h8⟩ := h6 i (by simpa using hi)
      rw [dropAxes_single] at h8
      refine ⟨r, h7, h8.congr fun J hJ => ?_⟩
      obtain ⟨e1, e2, e3⟩ := insertIdx_InB hn hi hJ
      have := weave_split (mask := maskOf a.shape.length [k]) (idx := J.insertIdx k i) (by rw [length_maskOf, e1.length])
      rw [← e1.length, keepMask_maskOf, dropMask_maskOf, keepAxes_single e2, dropAxes_single, e3, e1.length] at this
      rw [show unrank [n] i = [i] by simp [unrank]]
      rw [this]

example := C35_iter_along_exact demo_fresh.wf.valid (by decide) (axis := -1) (k := 1) (n := 3) ⟨by decide, by decide⟩ rfl (by decide)

/-- the columns of a repeated row are single cells repeated; its rows are packed -/
example : ∃ row r : Arr Nat, demo.sliceAlong 0 (.at 0) = .ok row ∧ row.broadcastTo [2, 3] = .ok r ∧
    (r.reshapedView [3] [1]).Packed ∧ (r.reshapedView [2] [0]).isContiguous = true ∧ ¬ (r.reshapedView [2] [0]).Packed :=
  ⟨_, _, rfl, rfl, ⟨rfl, rfl⟩, rfl, fun h => absurd h.2 (by decide)⟩

/-! ### C13 -/

/-- **C13, exactly.** For a view with exact flags and at least one axis that reports itself uniformly strided, `reshape` to another
shape with as many elements is right for all contents if and only if the layout is `Good`. (Without the flag it panics, see
`C13_reshape_accepts`.) -/
theorem C13_reshape_exact [Nontrivial α] {a : Arr α} (hv : a.Valid) (hf : a.FlagsExact) (hu : a.isUniformlyStrided = true)
    {ns : List Nat} (hns : ns ≠ a.shape) (hsz : numel ns = numel a.shape) (hne : a.shape ≠ []) :
    (∀ (buf : List α) (f : List Nat → α), buf.length = a.buf.length → (a.over buf).Denotes a.shape f →
      ∃ r g, (a.over buf).reshape ns = .ok r ∧ r.Denotes ns g ∧ elements ns g = elements a.shape f) ↔ Good a.shape a.stride := by
  obtain ⟨e, he⟩ := hf.uniform hu
  constructor
  · intro h
    by_contra hg
    obtain ⟨he0, i, hi, hni⟩ := exists_foreign hv.1.symm he hg
    obtain ⟨x, z, hxz⟩ := exists_pair_ne α
    obtain ⟨r, g, hr, hden, hel⟩ := h (spike a.buf.length (a.off + i * e) x z) _ (by simp [spike]) (denotes_spike hv _ x z)
    have hr' : (a.over (spike a.buf.length (a.off + i * e) x z)).reshapedView ns ((strideFromShape ns).map (· * e)) = r := by
      unfold Arr.reshape Arr.reshapeLayout at hr
      rw [if_neg (show ns ≠ (a.over (spike a.buf.length (a.off + i * e) x z)).shape from hns),
        assert_ok (show (a.over (spike a.buf.length (a.off + i * e) x z)).isUniformlyStrided = true from hu)] at hr
      simp only [ok_bind] at hr
      rw [if_neg (show ¬ ((a.over (spike a.buf.length (a.off + i * e) x z)).size ≠ numel ns) by simp [hsz, Arr.size, Arr.over]),
        show (a.over (spike a.buf.length (a.off + i * e) x z)).stride = a.stride from rfl,
        hasUniformStride_getLast hv.1.symm he hne] at hr
      simp only [pure_res, ok_bind, Except.ok.injEq, reshapeStrides_eq] at hr
      exact hr
    have hi' : i < numel ns := by omega
    have h1 := hden.2.2 _ (InB_unrank hi')
    rw [← hr'] at h1
    simp only [Arr.reshapedView] at h1
    rw [offset_scaled e (InB_unrank hi').length, rank_unrank hi'] at h1
    simp only [Arr.over] at h1
    rw [getElem?_spike] at h1
    have h2 : (elements ns g)[i]? = some (g (unrank ns i)) := getElem?_elements hi'
    rw [hel, getElem?_elements hi, if_neg ?_] at h2
    · split at h1
      · rw [if_pos rfl] at h1
        rw [← h1] at h2
        simp only [Option.some.injEq] at h2
        exact hxz h2.symm
      · cases h1
    · intro hc
      apply hni
      rw [← Nat.add_left_cancel hc]
      exact List.mem_map.2 ⟨_, mem_indices.2 (InB_unrank hi), rfl⟩
  · intro hg buf f hl hden
    obtain ⟨⟨r, g, h1, _, h3, h4⟩, _⟩ := C13_reshape_partial (a := a.over buf) hden hf hg hu hsz hne
    exact ⟨r, g, h1, h3, h4⟩

example := C13_reshape_exact demo_fresh.wf.valid demo_fresh.wf.flags rfl (ns := [3, 2]) (by decide) rfl (by decide)

/-! ### C18 -/

/-- **C18, exactly.** An in-range index of any array returns the element if and only if its strided position is below the length
recorded with the array; otherwise indexing panics. -/
theorem C18_index_exact {a : Arr α} {f : List Nat → α} (ha : a.Denotes a.shape f) {idx : List Nat} (hi : InB idx a.shape) :
    (a.index idx = .ok (f idx) ↔ offset idx a.stride < a.len) ∧ (¬ offset idx a.stride < a.len → a.index idx = .error .panic) := by
  have hno : ¬ offset idx a.stride < a.len → a.index idx = .error .panic := fun h => by
    unfold Arr.index
    rw [assert_ok (by simp [Arr.ndims, hi.length])]
    simp only [ok_bind]
    rw [assert_fail (by simpa using h)]
    rfl
  refine ⟨⟨fun h => ?_, index_ok ha hi⟩, hno⟩
  by_contra hc
  rw [hno hc] at h
  cases h

example := C18_index_exact demoT_denotes (idx := [2, 1]) (by decide)

/-- **C18, exactly**, for any coordinates, in range or not, of an array that has just been created: the element whose row-major
position is the strided position, if there is one. -/
theorem C18_fresh_exact {a : Arr α} {f : List Nat → α} (hfr : Fresh a) (ha : a.Denotes a.shape f) {idx : List Nat}
    (hl : idx.length = a.shape.length) :
    a.index idx = if offset idx a.stride < numel a.shape then .ok (f (unrank a.shape (offset idx a.stride))) else .error .panic := by
  obtain ⟨s, data, hd, rfl⟩ := hfr
  have hlen : (Arr.fromContiguousOwnedBuffer s data).len = numel s := hd
  unfold Arr.index
  rw [assert_ok (decide_eq_true (show idx.length = (Arr.fromContiguousOwnedBuffer s data).ndims from hl))]
  simp only [ok_bind]
  show _ = if offset idx (Arr.fromContiguousOwnedBuffer s data).stride < numel s then
    (Except.ok (f (unrank s (offset idx (Arr.fromContiguousOwnedBuffer s data).stride))) : Res α) else .error .panic
  by_cases h : offset idx (Arr.fromContiguousOwnedBuffer s data).stride < numel s
  · rw [assert_ok (by rw [hlen]; simpa using h), if_pos h]
    simp only [ok_bind]
    have h1 := ha.2.2 _ (InB_unrank (s := s) h)
    unfold Arr.read
    have hst : (Arr.fromContiguousOwnedBuffer s data).stride = strideFromShape s := rfl
    rw [hst] at h1 h ⊢
    rw [offset_strideFromShape (InB_unrank h).length, rank_unrank h] at h1
    rw [h1]
  · rw [assert_fail (by rw [hlen]; simpa using h), if_neg h]
    rfl

example := C18_fresh_exact demo_fresh demo_denotes (idx := [0, 4]) rfl

example : demo.index [0, 4] = .ok 14 ∧ demo.index [1, 1] = .ok 14 ∧ demo.index [1, 3] = .error .panic := by decide
/-- the diagonal of a 3x3 matrix: the first element can be read, the others have strided positions 4 and 8, and the length is 3 -/
example : ∃ r : Arr Nat, (Arr.fromContiguousOwnedBuffer [3, 3] [0, 1, 2, 3, 4, 5, 6, 7, 8]).diagonal = .ok r ∧ r.len = 3 ∧
    r.index [0] = .ok 0 ∧ offset [1] r.stride = 4 ∧ r.index [1] = .error .panic := ⟨_, rfl, rfl, by decide, by decide, by decide⟩

/-! ### C24 -/

theorem fillUniformStride_hits {v : α} {e : Nat} : ∀ {N : Nat} {b b' : List α} {p : Nat}, fillUniformStride N b p e v = .ok b' →
    b'.length = b.length ∧ (∀ i < N, b'[p + i * e]? = some v) ∧ ∀ j : Nat, b[j]? = some v → b'[j]? = some v
  | 0, b, b', p, h => by
    cases h
    exact ⟨rfl, fun i hi => by omega, fun j hj => hj⟩
  | N + 1, b, b', p, h => by
    unfold fillUniformStride bufStore at h
    by_cases hp : p < b.length
    · rw [if_pos hp, ok_bind] at h
      obtain ⟨h1, h2, h3⟩ := fillUniformStride_hits h
      have hp' : (b.set p v)[p]? = some v := List.getElem?_set_self hp
      refine ⟨by simpa using h1, fun i hi => ?_, fun j hj => h3 j ?_⟩
      · cases i with
        | zero => simpa using h3 p hp'
        | succ i =>
          have := h2 i (by omega)
          rwa [show p + e + i * e = p + (i + 1) * e by ring] at this
      · by_cases hjp : p = j
        · subst hjp; exact hp'
        · rw [List.getElem?_set_ne hjp]; exact hj
    · rw [if_neg hp] at h
      cases h

theorem fillPtr_of_uniform {s st : List Nat} {e : Nat} (he : hasUniformStride s st = some e) (len : Nat) (v : α)
    (b : List α) (p : Nat) (hlen : len = numel s) : fillPtr s st len v b p = fillUniformStride (numel s) b p e v := by
  unfold fillPtr
  split
  · rw [he]
    simp only
    split
    · rename_i h1; subst h1; rw [hlen]; rfl
    · rfl
  · rw [he]
    simp only
    split
    · rename_i h1; subst h1; rw [hlen]; rfl
    · rfl

/-- **C24, exactly**, for the layouts in which the code finds a common stride (and a length that is the number of elements, as
for every owned array and every broadcast view): `fill` is right for all contents if and only if the layout is `Good`. -/
theorem C24_fill_exact [Nontrivial α] {a : Arr α} (hv : a.Valid) {e : Nat} (he : hasUniformStride a.shape a.stride = some e)
    (hlen : a.len = numel a.shape) :
    (∀ (buf : List α) (v : α), buf.length = a.buf.length → ∃ buf', (a.over buf).fill v = .ok buf' ∧
      buf'.length = buf.length ∧ (a.over buf').Denotes a.shape (fun _ => v) ∧
      ∀ i, (∀ idx, InB idx a.shape → i ≠ a.off + offset idx a.stride) → buf'[i]? = buf[i]?) ↔ Good a.shape a.stride := by
  have hfill : ∀ buf v, (a.over buf).fill v = fillUniformStride (numel a.shape) buf a.off e v := fun buf v =>
    fillPtr_of_uniform he a.len v buf a.off hlen
  constructor
  · intro h
    by_contra hg
    obtain ⟨he0, i, hi, hni⟩ := exists_foreign hv.1.symm he hg
    obtain ⟨x, z, hxz⟩ := exists_pair_ne α
    obtain ⟨buf', h1, h2, _, h4⟩ := h (List.replicate a.buf.length z) x (by simp)
    rw [hfill] at h1
    have h5 := (fillUniformStride_hits h1).2.1 i hi
    rw [h4 (a.off + i * e) fun idx hidx hc => hni ?_] at h5
    · rw [List.getElem?_replicate] at h5
      split at h5
      · simp only [Option.some.injEq] at h5
        exact hxz h5.symm
      · cases h5
    · rw [Nat.add_left_cancel hc]
      exact List.mem_map.2 ⟨idx, mem_indices.2 hidx, rfl⟩
  · intro hg buf v hl
    have hoff := offsets_uniform hv.1.symm hg he
    have hcell : ∀ k < numel a.shape, a.off + k * e < buf.length := fun k hk => by
      have h1 := hv.2 _ (InB_unrank hk)
      have h2 := getElem?_offsets (st := a.stride) hk
      rw [hoff, List.getElem?_map, List.getElem?_range hk] at h2
      simp only [Option.map_some, Option.some.injEq] at h2
      rw [hl, h2]
      exact h1
    have hmem : ∀ i, i ∈ (List.range (numel a.shape)).map (fun k => a.off + k * e) ↔
        ∃ idx, InB idx a.shape ∧ i = a.off + offset idx a.stride := fun i => by
      constructor
      · intro h
        obtain ⟨k, hk, rfl⟩ := List.mem_map.1 h
        have : k * e ∈ offsets a.shape a.stride := by rw [hoff]; exact List.mem_map.2 ⟨k, hk, rfl⟩
        obtain ⟨idx, h1, h2⟩ := List.mem_map.1 this
        exact ⟨idx, mem_indices.1 h1, by rw [h2]⟩
      · rintro ⟨idx, h1, rfl⟩
        have : offset idx a.stride ∈ offsets a.shape a.stride := List.mem_map.2 ⟨idx, mem_indices.2 h1, rfl⟩
        rw [hoff] at this
        obtain ⟨k, hk, h2⟩ := List.mem_map.1 this
        exact List.mem_map.2 ⟨k, hk, by rw [h2]⟩
    refine ⟨_, (hfill buf v).trans (fillUniformStride_ok hcell), by simp, ⟨rfl, hv.1, fun idx hidx => ?_⟩, fun i hi => ?_⟩
    · show (setAll _ _ _)[a.off + offset idx a.stride]? = _
      rw [getElem?_setAll (by rw [hl]; exact hv.2 idx hidx), if_pos ((hmem _).2 ⟨idx, hidx, rfl⟩)]
    · by_cases hlt : i < buf.length
      · rw [getElem?_setAll hlt, if_neg]
        intro hm
        obtain ⟨idx, h1, h2⟩ := (hmem i).1 hm
        exact hi idx h1 h2
      · rw [List.getElem?_eq_none (by simpa using hlt), List.getElem?_eq_none (by simpa using hlt)]

example := C24_fill_exact demo_fresh.wf.valid (e := 1) rfl rfl

/-- A repeated row: uniformly strided according to the code, but not `Good`. A single cell repeated is. -/
example : hasUniformStride [2, 3] [0, 1] = some 1 ∧ ¬ Good [2, 3] [0, 1] ∧ hasUniformStride [2, 3] [0, 0] = some 0 ∧
    Good [2, 3] [0, 0] := by unfold Good NoZero; decide

end Verif
