import Verif.Model.Reduce
import Verif.Spec.Reduce
import Verif.Lemmas.Elementwise
import Verif.Lemmas.History

set_option linter.unusedSimpArgs false

/-!
# Facts about reductions
-/

namespace Verif

variable {α : Type}

/-! ### whole-array kernels -/

/-- A pair of leaf loops folds the elements they are pointed at. -/
structure RedKernels.Correct (step : α → α → α) (init : α) (K : RedKernels α) : Prop where
  contiguous : ∀ (buf : List α) (p : Nat) (vs : List α), (∀ k < vs.length, buf[p + k]? = vs[k]?) →
    K.contiguous buf p vs.length = .ok (vs.foldl (fun acc v => step v acc) init)
  uniform : ∀ (buf : List α) (p d : Nat) (vs : List α), (∀ k < vs.length, buf[p + k * d]? = vs[k]?) →
    K.uniform buf p vs.length d = .ok (vs.foldl (fun acc v => step v acc) init)

theorem bufLoad_ok {buf : List α} {i : Nat} {v : α} (h : buf[i]? = some v) : bufLoad buf i = .ok v := by
  simp [bufLoad, h]

theorem redUniform_ok (step : α → α → α) (d : Nat) (buf : List α) (vs : List α) (p : Nat) (acc : α)
    (h : ∀ k < vs.length, buf[p + k * d]? = vs[k]?) :
    redUniform step d vs.length buf p acc = .ok (vs.foldl (fun acc v => step v acc) acc) := by
  induction vs generalizing p acc with
  | nil => rfl
  | cons v vs ih =>
    have h0 := h 0 (by simp)
    simp at h0
    simp only [List.length_cons, redUniform, bufLoad_ok h0, ok_bind, List.foldl_cons]
    apply ih
    intro k hk
    have := h (k + 1) (by simp; omega)
    rw [show p + d + k * d = p + (k + 1) * d by ring, this]
    simp

theorem portableRed_correct (step : α → α → α) (init : α) : (portableRed step init).Correct step init where
  contiguous buf p vs h := redUniform_ok step 1 buf vs p init (by simpa using h)
  uniform buf p d vs h := redUniform_ok step d buf vs p init h

theorem foldlM_load (step : α → α → α) (buf : List α) (p : Nat) (l : List (List Nat)) (st : List Nat) (f : List Nat → α)
    (h : ∀ idx ∈ l, buf[p + offset idx st]? = some (f idx)) (init : α) :
    (l.map (offset · st)).foldlM (fun acc i => do
      let v ← bufLoad buf (p + i)
      return step v acc) init = Except.ok (foldOver step init f l) := by
  induction l generalizing init with
  | nil => rfl
  | cons x l ih =>
    simp only [List.map_cons, List.foldlM_cons, bufLoad_ok (h x (by simp)), ok_bind, pure_res]
    exact ih (fun idx hi => h idx (by simp [hi])) _

theorem redKernel_or {step : α → α → α} {init : α} {K : RedKernels α} (hK : K.Correct step init) {a : Arr α} {s : List Nat}
    {f : List Nat → α} (ha : a.Denotes s f)
    (hg : hasUniformStride s a.stride = none ∨ Good s a.stride) :
    redKernel step init K a.buf a.off s a.stride = .ok (foldOver step init f (indices s)) ∨
      (hasUniformStride s a.stride = none ∧ ¬ AxesFit s a.stride ∧ redKernel step init K a.buf a.off s a.stride = .error .panic) := by
  obtain ⟨rfl, hl, hf⟩ := ha
  unfold redKernel
  have key : ∀ d, hasUniformStride a.shape a.stride = some d →
      ∀ k < (elements a.shape f).length, a.buf[a.off + k * d]? = (elements a.shape f)[k]? := by
    intro d hu k hk
    have hg' : Good a.shape a.stride := by
      rcases hg with h | h
      · rw [hu] at h; cases h
      · exact h
    rw [length_elements] at hk
    rw [getElem?_elements hk, ← hf _ (InB_unrank hk), offset_uniform hl.symm hg' hu (InB_unrank hk), rank_unrank hk]
  have hlen := length_elements a.shape f
  split
  · rename_i d hu
    have hk := key d hu
    left
    split
    · rename_i h1
      subst h1
      rw [← hlen]
      exact hK.contiguous _ _ _ (by simpa using hk)
    · rw [← hlen]
      exact hK.uniform _ _ _ _ hk
  · rename_i hu
    by_cases hfit : AxesFit a.shape a.stride
    · obtain ⟨g, hg, hgl⟩ := FlatGen.toList_fits (s := a.shape) (st := a.stride) hl.symm hfit
      rw [hg, ok_bind, hgl]
      exact .inl (foldlM_load step a.buf a.off (indices a.shape) a.stride f (fun idx hi => hf idx (mem_indices.1 hi)) init)
    · rw [FlatGen.mk'_panic hfit]
      exact .inr ⟨hu, hfit, rfl⟩

theorem redKernel_ok {step : α → α → α} {init : α} {K : RedKernels α} (hK : K.Correct step init) {a : Arr α} {s : List Nat}
    {f : List Nat → α} (ha : a.Denotes s f) (hd : s.length ≤ maxDims)
    (hg : hasUniformStride s a.stride = none ∨ Good s a.stride) :
    redKernel step init K a.buf a.off s a.stride = .ok (foldOver step init f (indices s)) :=
  (redKernel_or hK ha hg).resolve_right fun h => h.2.1 (axesFit_of_rank hd)

theorem denotes_scalar (v : α) : ∃ r, Arr.scalar v = .ok r ∧ r.Denotes [] (fun _ => v) :=
  ⟨_, rfl, rfl, rfl, fun idx hi => by cases idx with
    | nil => rfl
    | cons => cases hi⟩

theorem reduceAll_or {step : α → α → α} {init : α} {K : RedKernels α} (hK : K.Correct step init) {a : Arr α} {s : List Nat}
    {f : List Nat → α} (ha : a.Denotes s f)
    (hg : hasUniformStride s a.stride = none ∨ Good s a.stride) :
    (∃ r, a.reduceAll step init K = .ok r ∧ r.Denotes [] (fun _ => foldOver step init f (indices s))) ∨
      (hasUniformStride s a.stride = none ∧ ¬ AxesFit s a.stride ∧ a.reduceAll step init K = .error .panic) := by
  obtain ⟨r, hr, hd'⟩ := denotes_scalar (foldOver step init f (indices s))
  unfold Arr.reduceAll
  rw [ha.1]
  rcases redKernel_or hK ha hg with h | ⟨h1, h2, h3⟩
  · rw [h, ok_bind, hr]
    exact .inl ⟨r, rfl, hd'⟩
  · rw [h3]
    exact .inr ⟨h1, h2, rfl⟩

theorem reduceAll_ok {step : α → α → α} {init : α} {K : RedKernels α} (hK : K.Correct step init) {a : Arr α} {s : List Nat}
    {f : List Nat → α} (ha : a.Denotes s f) (hd : s.length ≤ maxDims)
    (hg : hasUniformStride s a.stride = none ∨ Good s a.stride) :
    ∃ r, a.reduceAll step init K = .ok r ∧ r.Denotes [] (fun _ => foldOver step init f (indices s)) := by
  obtain ⟨r, hr, hd'⟩ := denotes_scalar (foldOver step init f (indices s))
  refine ⟨r, ?_, hd'⟩
  unfold Arr.reduceAll
  rw [ha.1, redKernel_ok hK ha hd hg, ok_bind, hr]

/-! ### removing axes -/

def dropMask : List Bool → List Nat → List Nat
  | b :: mask, x :: l => if b then dropMask mask l else x :: dropMask mask l
  | _, _ => []

def maskOf (n : Nat) (ks : List Nat) : List Bool := (List.range n).map fun k => decide (k ∈ ks)

theorem dropMask_zipIdx (ks : List Nat) (l : List Nat) (j : Nat) :
    dropMask ((List.range' j l.length).map fun k => decide (k ∈ ks)) l =
      ((l.zipIdx j).filter fun p => p.2 ∉ ks).map (·.1) := by
  induction l generalizing j with
  | nil => rfl
  | cons x l ih =>
    simp only [List.length_cons, List.range'_succ, List.map_cons, dropMask, List.zipIdx_cons, List.filter_cons]
    by_cases h : j ∈ ks <;> simp [h, ih]

theorem dropMask_maskOf (ks l : List Nat) : dropMask (maskOf l.length ks) l = dropAxes ks l := by
  have := dropMask_zipIdx ks l 0
  simpa [maskOf, dropAxes, List.range_eq_range'] using this

theorem reducedAux_fst (mask : List Bool) (s : List Nat) : (reducedAux mask s).1 = dropMask mask s := by
  induction mask generalizing s with
  | nil => rfl
  | cons b mask ih => cases s with
    | nil => rfl
    | cons n s => cases b <;> simp [reducedAux, dropMask, ih]

theorem reducedAux_run (mask : List Bool) (s : List Nat) : (reducedAux mask s).2.2 = numel (reducedAux mask s).1 := by
  induction mask generalizing s with
  | nil => rfl
  | cons b mask ih => cases s with
    | nil => rfl
    | cons n s => cases b <;> simp [reducedAux, ih, Nat.mul_comm]

theorem reducedAux_len (mask : List Bool) (s : List Nat) (h : mask.length = s.length) :
    (reducedAux mask s).2.1.length = s.length := by
  induction mask generalizing s with
  | nil => cases s <;> simp_all [reducedAux]
  | cons b mask ih => cases s with
    | nil => cases h
    | cons n s => cases b <;> simp [reducedAux, ih s (by simpa using h)]

theorem reducedAux_offset (mask : List Bool) (s idx : List Nat) (h : mask.length = s.length) (hi : InB idx s) :
    offset idx (reducedAux mask s).2.1 = rank (dropMask mask idx) (reducedAux mask s).1 := by
  induction mask generalizing s idx with
  | nil => cases s with
    | nil => cases idx <;> simp [reducedAux, dropMask, rank]
    | cons => cases h
  | cons b mask ih => cases s with
    | nil => cases h
    | cons n s => cases idx with
      | nil => cases hi
      | cons i idx =>
        have := ih s idx (by simpa using h) hi.2
        cases b <;> simp [reducedAux, dropMask, rank, this, reducedAux_run]

theorem InB_dropMask {mask : List Bool} {idx s : List Nat} (hi : InB idx s) : InB (dropMask mask idx) (dropMask mask s) := by
  induction mask generalizing s idx with
  | nil => trivial
  | cons b mask ih => cases s with
    | nil => cases idx with
      | nil => trivial
      | cons => cases hi
    | cons n s => cases idx with
      | nil => cases hi
      | cons i idx => cases b <;> simp [dropMask, ih hi.2, hi.1]

/-! ### the axis mask -/

theorem length_maskOf (n : Nat) (ks : List Nat) : (maskOf n ks).length = n := by simp [maskOf]

theorem maskOf_getD {n k : Nat} {ks : List Nat} (h : k < n) : (maskOf n ks).getD k false = decide (k ∈ ks) := by
  simp [maskOf, h]

theorem maskOf_set {n k : Nat} {ks : List Nat} (h : k < n) : (maskOf n ks).set k true = maskOf n (k :: ks) := by
  apply List.ext_getElem?
  intro i
  rw [List.getElem?_set]
  simp only [maskOf, List.length_map, List.length_range, List.getElem?_map, List.mem_cons]
  by_cases hik : k = i
  · subst hik; simp [h]
  · by_cases hi : i < n
    · simp [hik, hi, Ne.symm hik]
    · simp [hik, hi]

theorem maskOf_congr {n : Nat} {ks ks' : List Nat} (h : ∀ k, k ∈ ks ↔ k ∈ ks') : maskOf n ks = maskOf n ks' := by
  simp [maskOf, h]

theorem markAxes_ok {n : Nat} {axes : List Int} {ks : List Nat} (h : AxesAre axes n ks) (ks0 : List Nat)
    (hnd : (ks0 ++ ks).Nodup) : markAxes n axes (maskOf n ks0) = .ok (maskOf n (ks0 ++ ks)) := by
  induction axes generalizing ks ks0 with
  | nil => cases ks with
    | nil => simp [markAxes]
    | cons => cases h
  | cons ax axes ih => cases ks with
    | nil => cases h
    | cons k ks =>
      have hk : k ∉ ks0 := fun hk => by
        rw [List.nodup_append] at hnd
        exact hnd.2.2 k hk k (by simp) rfl
      unfold markAxes
      rw [asAbsolute_ok h.1, ok_bind, maskOf_getD h.1.1]
      simp only [hk, decide_false, Bool.false_eq_true, if_false, pure_res, ok_bind]
      rw [maskOf_set h.1.1, ih h.2 (k :: ks0)]
      · congr 1
        exact maskOf_congr fun x => by simp; tauto
      · have : (ks0 ++ k :: ks).Perm (k :: ks0 ++ ks) := List.perm_middle
        exact this.nodup_iff.1 hnd

theorem markAxes_dup {n : Nat} {axes : List Int} {ks : List Nat} (h : AxesAre axes n ks) (ks0 : List Nat)
    (h0 : ks0.Nodup) (hnd : ¬ (ks0 ++ ks).Nodup) : markAxes n axes (maskOf n ks0) = .error .panic := by
  induction axes generalizing ks ks0 with
  | nil => cases ks with
    | nil => simp at hnd; exact absurd h0 hnd
    | cons => cases h
  | cons ax axes ih => cases ks with
    | nil => cases h
    | cons k ks =>
      unfold markAxes
      rw [asAbsolute_ok h.1, ok_bind, maskOf_getD h.1.1]
      by_cases hk : k ∈ ks0
      · simp only [hk, decide_true, if_true, throw_res, error_bind]
      · simp only [hk, decide_false, Bool.false_eq_true, if_false, pure_res, ok_bind]
        rw [maskOf_set h.1.1]
        apply ih h.2 (k :: ks0)
        · simp [hk, h0]
        · intro hc
          have : (ks0 ++ k :: ks).Perm (k :: ks0 ++ ks) := List.perm_middle
          exact hnd (this.nodup_iff.2 hc)

theorem markAxes_range {n : Nat} {axes : List Int} (h : ∃ ax ∈ axes, ∀ k, ¬ AxisIs ax n k) (mask : List Bool) :
    markAxes n axes mask = .error .panic := by
  induction axes generalizing mask with
  | nil => simp at h
  | cons ax axes ih =>
    unfold markAxes
    by_cases hax : ∃ k, AxisIs ax n k
    · obtain ⟨k, hk⟩ := hax
      rw [asAbsolute_ok hk, ok_bind]
      have : ∃ ax ∈ axes, ∀ k, ¬ AxisIs ax n k := by
        obtain ⟨x, hx, hn⟩ := h
        rcases List.mem_cons.1 hx with rfl | hx
        · exact absurd hk (hn k)
        · exact ⟨x, hx, hn⟩
      split
      · rfl
      · exact ih this _
    · rw [asAbsolute_error (fun k hk => hax ⟨k, hk⟩)]; rfl

theorem reducedShapeAndStride_ok {axes : List Int} {s ks : List Nat} (h : AxesAre axes s.length ks) (hnd : ks.Nodup) :
    reducedShapeAndStride axes s = .ok ((reducedAux (maskOf s.length ks) s).1, (reducedAux (maskOf s.length ks) s).2.1) := by
  unfold reducedShapeAndStride
  have : List.replicate s.length false = maskOf s.length [] := by simp [maskOf]
  rw [this, markAxes_ok h [] (by simpa using hnd)]
  rfl

theorem reducedShapeAndStride_dup {axes : List Int} {s ks : List Nat} (h : AxesAre axes s.length ks) (hnd : ¬ ks.Nodup) :
    reducedShapeAndStride axes s = .error .panic := by
  unfold reducedShapeAndStride
  have : List.replicate s.length false = maskOf s.length [] := by simp [maskOf]
  rw [this, markAxes_dup h [] (by simp) (by simpa using hnd)]
  rfl

theorem reducedShapeAndStride_range {axes : List Int} {s : List Nat} (h : ∃ ax ∈ axes, ∀ k, ¬ AxisIs ax s.length k) :
    reducedShapeAndStride axes s = .error .panic := by
  unfold reducedShapeAndStride
  rw [markAxes_range h]; rfl

/-! ### the accumulation loop -/

/-- Accumulate values into the cells they are addressed to. -/
def scatter (func : α → α → α) : List (α × Nat) → List α → List α
  | [], out => out
  | (v, i) :: ps, out => scatter func ps (match out[i]? with
    | some acc => out.set i (func v acc)
    | none => out)

theorem length_scatter (func : α → α → α) (ps : List (α × Nat)) (out : List α) : (scatter func ps out).length = out.length := by
  induction ps generalizing out with
  | nil => rfl
  | cons p ps ih => simp only [scatter, ih]; split <;> simp

theorem getElem?_scatter (func : α → α → α) (ps : List (α × Nat)) (out : List α) (j : Nat) :
    (scatter func ps out)[j]? =
      (out[j]?).map fun x => ((ps.filter fun p => p.2 = j).map (·.1)).foldl (fun acc v => func v acc) x := by
  induction ps generalizing out with
  | nil => simp [scatter]
  | cons p ps ih =>
    obtain ⟨v, i⟩ := p
    simp only [scatter, ih, List.filter_cons]
    by_cases hij : i = j
    · subst hij
      cases h : out[i]? with
      | none => simp [h]
      | some acc =>
        have : i < out.length := (List.getElem?_eq_some_iff.1 h).1
        simp [this]
    · simp only [hij, decide_false, Bool.false_eq_true, if_false]
      cases h : out[i]? with
      | none => simp
      | some acc => simp [List.getElem?_set, hij]

theorem reduceLoop_ok (func : α → α → α) {s st : List Nat} (hl : s.length = st.length) (els : List α) (k : Nat)
    (hk : k + els.length = numel s) (out : List α) (hb : ∀ j, k ≤ j → j < numel s → offset (unrank s j) st < out.length) :
    reduceLoop func els (FlatGen.stateAt s st k) out =
      .ok (scatter func (els.zip ((List.range' k els.length).map fun j => offset (unrank s j) st)) out) := by
  induction els generalizing k out with
  | nil => rfl
  | cons e els ih =>
    simp only [List.length_cons] at hk
    have hlt : offset (unrank s k) st < out.length := hb k (Nat.le_refl _) (by omega)
    simp only [reduceLoop, FlatGen.next_stateAt hl (show k < numel s by omega), List.getElem?_eq_getElem hlt,
      List.length_cons, List.range'_succ, List.map_cons, List.zip_cons_cons, scatter]
    exact ih (k + 1) (by omega) _ (fun j h1 h2 => by simpa using hb j (by omega) h2)

theorem reduceAlong_or (func : α → α → α) {a : Arr α} {s : List Nat} {f : List Nat → α} (ha : a.Denotes s f)
    {axes : List Int} {ks : List Nat} (hax : AxesAre axes s.length ks) (hnd : ks.Nodup) (init : α) :
    a.reduceAlong func axes init = .ok (Arr.fromContiguousOwnedBuffer (dropAxes ks s)
      (elements (dropAxes ks s) (fun J => foldOver func init f (fibre ks s J)))) ∨
    (¬ s.length ≤ maxDims ∧ a.reduceAlong func axes init = .error .panic) := by
  have hs := ha.1
  have hsh : (reducedAux (maskOf s.length ks) s).1 = dropAxes ks s := by rw [reducedAux_fst, dropMask_maskOf]
  set mst := (reducedAux (maskOf s.length ks) s).2.1 with hmst
  have hml : s.length = mst.length := (reducedAux_len _ _ (length_maskOf _ _)).symm
  have hoff : ∀ idx, InB idx s → offset idx mst = rank (dropAxes ks idx) (dropAxes ks s) := by
    intro idx hi
    rw [hmst, reducedAux_offset _ _ _ (length_maskOf _ _) hi, hsh, ← hi.length, dropMask_maskOf]
  have hinb : ∀ idx, InB idx s → InB (dropAxes ks idx) (dropAxes ks s) := by
    intro idx hi
    have := InB_dropMask (mask := maskOf s.length ks) hi
    rw [dropMask_maskOf] at this
    rw [← hi.length, dropMask_maskOf] at this
    exact this
  have hc := length_collapse s mst
  set cs := (collapseToUniformStride s mst).1
  set cst := (collapseToUniformStride s mst).2
  have hcc := length_collapse cs cst
  set cs' := (collapseToUniformStride cs cst).1
  set cst' := (collapseToUniformStride cs cst).2
  have hoffs : offsets cs' cst' = offsets s mst := by
    rw [offsets_collapse hc.1, offsets_collapse hml]
  have hnum : numel cs' = numel s := by rw [numel_collapse hc.1, numel_collapse hml]
  set out0 := List.replicate (numel (dropAxes ks s)) init
  have hbound : ∀ j, 0 ≤ j → j < numel cs' → offset (unrank cs' j) cst' < out0.length := by
    intro j _ hj
    have h1 : offset (unrank cs' j) cst' ∈ offsets s mst := by
      rw [← hoffs]
      exact List.mem_map.2 ⟨_, mem_indices.2 (InB_unrank hj), rfl⟩
    obtain ⟨idx, hidx, he⟩ := List.mem_map.1 h1
    rw [mem_indices] at hidx
    rw [← he, hoff idx hidx]
    simpa [out0] using rank_lt (hinb idx hidx)
  have hloop := reduceLoop_ok func hcc.1 (elements s f) 0 (by rw [length_elements, hnum]; omega) out0 hbound
  have hzip : (elements s f).zip ((List.range' 0 (elements s f).length).map fun j => offset (unrank cs' j) cst')
      = (indices s).map fun idx => (f idx, rank (dropAxes ks idx) (dropAxes ks s)) := by
    rw [length_elements, ← hnum, ← List.range_eq_range', ← offsets_eq_range, hoffs, elements, offsets, List.zip_map']
    apply List.map_congr_left
    intro idx hi
    rw [hoff idx (mem_indices.1 hi)]
  rw [hzip] at hloop
  · rw [show a.reduceAlong func axes init = (do
      let g ← FlatGen.mk' cs cst
      let els ← a.flatiter
      let out ← reduceLoop func els g (List.replicate (numel (reducedAux (maskOf s.length ks) s).1) init)
      return Arr.fromContiguousOwnedBuffer (reducedAux (maskOf s.length ks) s).1 out) by
        unfold Arr.reduceAlong
        rw [hs, reducedShapeAndStride_ok hax hnd, ok_bind]]
    by_cases hf1 : AxesFit cs cst
    rotate_left
    · rw [FlatGen.mk'_panic hf1]
      exact .inr ⟨fun h => hf1 (axesFit_of_rank (by omega)), rfl⟩
    by_cases hf2 : AxesFit s a.stride
    rotate_left
    · rw [FlatGen.mk'_fits hf1, ok_bind, show a.flatiter = .error .panic by
        unfold Arr.flatiter; rw [hs, FlatGen.mk'_panic hf2]; rfl]
      exact .inr ⟨fun h => hf2 (axesFit_of_rank h), rfl⟩
    left
    rw [FlatGen.mk'_fits hf1, ok_bind, ha.flatiter_fits hf2, ok_bind, hsh, hloop, ok_bind]
    show Except.ok _ = Except.ok _
    congr 2
    apply List.ext_getElem?
    intro j
    rw [getElem?_scatter]
    by_cases hj : j < numel (dropAxes ks s)
    · rw [getElem?_elements hj]
      simp only [out0, List.getElem?_replicate, hj, if_true, Option.map_some, Option.some.injEq]
      unfold foldOver fibre
      rw [List.filter_map, List.map_map]
      congr 1
      have : (indices s).filter ((fun p => decide (p.2 = j)) ∘ fun idx => (f idx, rank (dropAxes ks idx) (dropAxes ks s)))
          = (indices s).filter fun idx => decide (dropAxes ks idx = unrank (dropAxes ks s) j) := by
        apply List.filter_congr
        intro idx hi
        have hi' := hinb idx (mem_indices.1 hi)
        simp only [Function.comp]
        congr 1
        apply propext
        constructor
        · intro h; rw [← h, unrank_rank hi']
        · intro h; rw [h, rank_unrank hj]
      rw [this]; rfl
    · have h1 : out0[j]? = none := by simp [out0]; omega
      have h2 : (elements (dropAxes ks s) fun J => foldOver func init f (fibre ks s J))[j]? = none := by
        rw [List.getElem?_eq_none_iff, length_elements]; omega
      rw [h1, h2]; rfl

theorem reduceAlong_eq (func : α → α → α) {a : Arr α} {s : List Nat} {f : List Nat → α} (ha : a.Denotes s f)
    (hd : s.length ≤ maxDims) {axes : List Int} {ks : List Nat} (hax : AxesAre axes s.length ks) (hnd : ks.Nodup) (init : α) :
    a.reduceAlong func axes init = .ok (Arr.fromContiguousOwnedBuffer (dropAxes ks s)
      (elements (dropAxes ks s) (fun J => foldOver func init f (fibre ks s J)))) :=
  (reduceAlong_or func ha hax hnd init).resolve_right fun h => h.1 hd

theorem reduceAlong_ok (func : α → α → α) {a : Arr α} {s : List Nat} {f : List Nat → α} (ha : a.Denotes s f)
    (hd : s.length ≤ maxDims) {axes : List Int} {ks : List Nat} (hax : AxesAre axes s.length ks) (hnd : ks.Nodup) (init : α) :
    ∃ r, a.reduceAlong func axes init = .ok r ∧
      r.Denotes (dropAxes ks s) (fun J => foldOver func init f (fibre ks s J)) :=
  ⟨_, reduceAlong_eq func ha hd hax hnd init, denotes_fromContiguous⟩

end Verif

namespace Verif

variable {α : Type}

/-! ### folds -/

theorem foldOver_add [AddCommMonoid α] (f : List Nat → α) (l : List (List Nat)) :
    foldOver (fun v acc => acc + v) 0 f l = (l.map f).sum := by
  unfold foldOver
  exact List.sum_eq_foldl.symm

theorem foldOver_mul [CommMonoid α] (f : List Nat → α) (l : List (List Nat)) :
    foldOver (fun v acc => acc * v) 1 f l = (l.map f).prod := by
  unfold foldOver
  exact List.prod_eq_foldl.symm

/-- A fold that keeps the smaller (in the order `le`) of the accumulator and `g value`. -/
theorem foldl_extremal {β : Type} (le : β → β → Prop) (hrefl : ∀ x, le x x) (htrans : ∀ x y z, le x y → le y z → le x z)
    (step : β → β → β) (g : β → β)
    (hstep : ∀ v acc, le (step v acc) acc ∧ le (step v acc) (g v) ∧ (step v acc = acc ∨ step v acc = g v))
    (vs : List β) (init : β) :
    let r := vs.foldl (fun acc v => step v acc) init
    le r init ∧ (∀ v ∈ vs, le r (g v)) ∧ (r = init ∨ ∃ v ∈ vs, r = g v) := by
  induction vs generalizing init with
  | nil => exact ⟨hrefl _, by simp, .inl rfl⟩
  | cons v vs ih =>
    obtain ⟨h1, h2, h3⟩ := ih (step v init)
    obtain ⟨s1, s2, s3⟩ := hstep v init
    refine ⟨htrans _ _ _ h1 s1, ?_, ?_⟩
    · intro w hw
      rcases List.mem_cons.1 hw with rfl | hw
      · exact htrans _ _ _ h1 s2
      · exact h2 w hw
    · rcases h3 with h3 | ⟨w, hw, h3⟩
      · rcases s3 with s3 | s3
        · left; simp only [List.foldl_cons]; rw [h3, s3]
        · right; exact ⟨v, by simp, by simp only [List.foldl_cons]; rw [h3, s3]⟩
      · right; exact ⟨w, by simp [hw], h3⟩

/-! ### counting fibres -/

/-- Product of the removed extents. -/
def maskProd : List Bool → List Nat → Nat
  | b :: mask, n :: s => if b then n * maskProd mask s else maskProd mask s
  | _, _ => 1

theorem maskProd_set (mask : List Bool) (s : List Nat) (k n : Nat) (hs : s[k]? = some n) (hm : mask[k]? = some false) :
    maskProd (mask.set k true) s = n * maskProd mask s := by
  induction mask generalizing s k with
  | nil => simp at hm
  | cons b mask ih => cases s with
    | nil => simp at hs
    | cons m s => cases k with
      | zero => simp at hs hm; subst hs hm; simp [maskProd]
      | succ k =>
        simp at hs hm
        cases b <;> simp [maskProd, ih s k hs hm]
        ring

theorem maskProd_nil (s : List Nat) (n : Nat) : maskProd (maskOf n []) s = 1 := by
  have : ∀ (m : List Bool) (s : List Nat), (∀ b ∈ m, b = false) → maskProd m s = 1 := by
    intro m
    induction m with
    | nil => intros; rfl
    | cons b m ih =>
      intro s h
      cases s with
      | nil => rfl
      | cons x s =>
        have hb := h b (by simp)
        subst hb
        simp [maskProd, ih s (fun b hb => h b (by simp [hb]))]
  exact this _ _ (by simp [maskOf])

theorem length_filter_dropMask (mask : List Bool) (s J : List Nat) (hm : mask.length = s.length) (hJ : InB J (dropMask mask s)) :
    ((indices s).filter fun idx => decide (dropMask mask idx = J)).length = maskProd mask s := by
  induction mask generalizing s J with
  | nil => cases s with
    | nil => cases J with
      | nil => rfl
      | cons => cases hJ
    | cons => cases hm
  | cons b mask ih => cases s with
    | nil => cases hm
    | cons n s =>
      simp only [indices, List.filter_flatMap, List.length_flatMap, List.filter_map, List.length_map]
      cases b with
      | true =>
        have := ih s J (by simpa using hm) (by simpa [dropMask] using hJ)
        have e : ∀ i, ((indices s).filter ((fun idx => decide (dropMask (true :: mask) idx = J)) ∘ fun x => i :: x)).length
            = maskProd mask s := by
          intro i; rw [← this]; rfl
        simp only [e, maskProd, if_true, List.map_const', List.length_range, List.sum_replicate]; rfl
      | false => cases J with
        | nil => simp [dropMask] at hJ
        | cons j J =>
          simp only [dropMask, Bool.false_eq_true, if_false, InB_cons] at hJ
          have := ih s J (by simpa using hm) hJ.2
          have e : ∀ i, ((indices s).filter ((fun idx => decide (dropMask (false :: mask) idx = j :: J)) ∘ fun x => i :: x)).length
              = if i = j then maskProd mask s else 0 := by
            intro i
            by_cases hij : i = j
            · subst hij; rw [← this]; simp [dropMask, Function.comp_def]
            · simp [dropMask, Function.comp_def, hij]
          simp only [e, maskProd, Bool.false_eq_true, if_false]
          rw [show (List.range n).map (fun i => if i = j then maskProd mask s else 0)
            = (List.range n).map (fun i => if j = i then maskProd mask s else 0) by simp only [eq_comm]]
          have hsum : ∀ m, ((List.range m).map fun i => if j = i then maskProd mask s else 0).sum
              = if j < m then maskProd mask s else 0 := by
            intro m
            induction m with
            | zero => simp
            | succ m ihm =>
              rw [List.range_succ, List.map_append, List.sum_append, ihm]
              rcases Nat.lt_trichotomy j m with h | h | h
              · simp [h, Nat.ne_of_lt h, Nat.lt_succ_of_lt h]
              · subst h; simp
              · simp [Nat.not_lt.2 (Nat.le_of_lt h), Nat.ne_of_gt h]; intro h'; omega
          rw [hsum, if_pos hJ.1]

theorem length_fibre {ks s J : List Nat} (hJ : InB J (dropAxes ks s)) :
    (fibre ks s J).length = maskProd (maskOf s.length ks) s := by
  rw [← dropMask_maskOf] at hJ
  rw [← length_filter_dropMask _ _ _ (length_maskOf _ _) hJ]
  unfold fibre
  congr 1
  apply List.filter_congr
  intro idx hi
  rw [← (mem_indices.1 hi).length, dropMask_maskOf]

theorem meanCount_ok {s : List Nat} {axes : List Int} {ks : List Nat} (hax : axes = ks.map Int.ofNat)
    (hr : ∀ k ∈ ks, k < s.length) (ks0 : List Nat) (hnd : (ks0 ++ ks).Nodup) :
    meanCount s axes (maskProd (maskOf s.length ks0) s) = .ok (maskProd (maskOf s.length (ks0 ++ ks)) s) := by
  induction ks generalizing axes ks0 with
  | nil => subst hax; simp [meanCount]
  | cons k ks ih =>
    subst hax
    have hk := hr k (by simp)
    have hk0 : k ∉ ks0 := fun hk => by
      rw [List.nodup_append] at hnd
      exact hnd.2.2 k hk k (by simp) rfl
    have hperm : (ks0 ++ k :: ks).Perm (k :: ks0 ++ ks) := List.perm_middle
    simp only [List.map_cons, meanCount, Int.ofNat_eq_natCast, Int.natCast_nonneg, decide_true, assert_ok, ok_bind, Int.toNat_natCast,
      List.getElem?_eq_getElem hk]
    have h1 := maskProd_set (maskOf s.length ks0) s k s[k] (List.getElem?_eq_getElem hk) (by simp [maskOf, hk, hk0])
    rw [maskOf_set hk] at h1
    rw [Nat.mul_comm, ← h1, ih rfl (fun x hx => hr x (by simp [hx])) (k :: ks0) (hperm.nodup_iff.1 hnd)]
    congr 2
    exact maskOf_congr fun x => by simp; tauto

theorem meanCount_neg {s : List Nat} {axes : List Int} {n : Nat} (h : ∃ ax ∈ axes, ax < 0) :
    meanCount s axes n = .error .panic := by
  induction axes generalizing n with
  | nil => simp at h
  | cons ax axes ih =>
    unfold meanCount
    by_cases hax : 0 ≤ ax
    · rw [assert_ok (by simpa using hax), ok_bind]
      have : ∃ ax ∈ axes, ax < 0 := by
        obtain ⟨x, hx, hn⟩ := h
        rcases List.mem_cons.1 hx with rfl | hx
        · omega
        · exact ⟨x, hx, hn⟩
      split
      · rfl
      · exact ih this
    · rw [assert_fail (by simpa using hax)]; rfl

theorem axesAre_ofNat {ks : List Nat} {n : Nat} (h : ∀ k ∈ ks, k < n) : AxesAre (ks.map Int.ofNat) n ks := by
  induction ks with
  | nil => trivial
  | cons k ks ih => exact ⟨⟨h k (by simp), .inl rfl⟩, ih fun x hx => h x (by simp [hx])⟩

end Verif
