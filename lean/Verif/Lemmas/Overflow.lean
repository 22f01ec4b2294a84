import Verif.Model.Overflow
import Verif.Lemmas.Reduce
import Mathlib.Data.Int.ModEq

set_option linter.unusedSimpArgs false

/-!
# Facts about reductions with arithmetic that can fail
-/

namespace Verif

variable {α : Type}

/-! ### whole arrays -/

theorem redUniformM_ok (step : α → α → Res α) (d : Nat) (buf : List α) (vs : List α) (p : Nat) (acc : α)
    (h : ∀ k < vs.length, buf[p + k * d]? = vs[k]?) :
    redUniformM step d vs.length buf p acc = vs.foldlM (fun acc v => step v acc) acc := by
  induction vs generalizing p acc with
  | nil => rfl
  | cons v vs ih =>
    have h0 := h 0 (by simp)
    simp at h0
    simp only [List.length_cons, redUniformM, bufLoad_ok h0, ok_bind, List.foldlM_cons]
    congr 1
    funext acc'
    apply ih
    intro k hk
    have := h (k + 1) (by simp; omega)
    rw [show p + d + k * d = p + (k + 1) * d by ring, this]
    simp

theorem foldlM_loadM (step : α → α → Res α) (buf : List α) (p : Nat) (l : List (List Nat)) (st : List Nat) (f : List Nat → α)
    (h : ∀ idx ∈ l, buf[p + offset idx st]? = some (f idx)) (init : α) :
    (l.map (offset · st)).foldlM (fun acc i => do
      let v ← bufLoad buf (p + i)
      step v acc) init = (l.map f).foldlM (fun acc v => step v acc) init := by
  induction l generalizing init with
  | nil => rfl
  | cons x l ih =>
    simp only [List.map_cons, List.foldlM_cons, bufLoad_ok (h x (by simp)), ok_bind, pure_res]
    congr 1
    funext acc'
    exact ih (fun idx hi => h idx (by simp [hi])) _

/-- A whole-array reduction is the monadic fold over the elements in row-major order. -/
theorem reduceAllM_eq (step : α → α → Res α) (init : α) {a : Arr α} {s : List Nat} {f : List Nat → α} (ha : a.Denotes s f)
    (hd : s.length ≤ maxDims) (hg : hasUniformStride s a.stride = none ∨ Good s a.stride) :
    a.reduceAllM step init = (elements s f).foldlM (fun acc v => step v acc) init >>= Arr.scalar := by
  obtain ⟨rfl, hl, hf⟩ := ha
  unfold Arr.reduceAllM redKernelM
  have key : ∀ d, hasUniformStride a.shape a.stride = some d →
      ∀ k < (elements a.shape f).length, a.buf[a.off + k * d]? = (elements a.shape f)[k]? := by
    intro d hu k hk
    have hg' : Good a.shape a.stride := by
      rcases hg with h | h
      · rw [hu] at h; cases h
      · exact h
    rw [length_elements] at hk
    rw [getElem?_elements hk, ← hf _ (InB_unrank hk), offset_uniform hl.symm hg' hu (InB_unrank hk), rank_unrank hk]
  have hlen := length_elements a.shape f
  congr 1
  split
  · rename_i d hu
    have hk := key d hu
    split
    · rename_i h1
      subst h1
      rw [← hlen]
      exact redUniformM_ok _ _ _ _ _ _ hk
    · rw [← hlen]
      exact redUniformM_ok _ _ _ _ _ _ hk
  · obtain ⟨g, hg, hgl⟩ := FlatGen.toList_mk' (s := a.shape) (st := a.stride) hl.symm hd
    rw [hg, ok_bind, hgl]
    exact foldlM_loadM step a.buf a.off (indices a.shape) a.stride f (fun idx hi => hf idx (mem_indices.1 hi)) init

/-- Steps that never fail: the model of `Model/Reduce.lean`. -/
theorem redUniformM_total (step : α → α → α) (d n : Nat) (buf : List α) (p : Nat) (acc : α) :
    redUniformM (fun v a => .ok (step v a)) d n buf p acc = redUniform step d n buf p acc := by
  induction n generalizing p acc with
  | zero => rfl
  | succ n ih =>
    simp only [redUniformM, redUniform]
    congr 1
    funext v
    exact ih _ _

theorem reduceAllM_total (step : α → α → α) (init : α) (a : Arr α) :
    a.reduceAllM (fun v acc => .ok (step v acc)) init = a.reduceAll step init (portableRed step init) := by
  unfold Arr.reduceAllM Arr.reduceAll redKernelM redKernel
  simp only [redUniformM_total, portableRed]
  rfl

/-! ### along axes -/

/-- A failing step on possibly failed values: failures stay. -/
def liftStep (func : α → α → Res α) (v acc : Res α) : Res α := do
  let x ← acc
  let y ← v
  func y x

theorem liftStep_ok (func : α → α → Res α) (v x : α) : liftStep func (.ok v) (.ok x) = func v x := rfl
theorem liftStep_error (func : α → α → Res α) (v : Res α) (e : Err) : liftStep func v (.error e) = .error e := rfl

theorem reduceLoop_sticky (func : α → α → Res α) (els : List (Res α)) (g : FlatGen) (out R : List (Res α)) (e : Err)
    (he : Except.error e ∈ out) (h : reduceLoop (liftStep func) els g out = .ok R) : Except.error e ∈ R := by
  induction els generalizing g out with
  | nil => cases h; exact he
  | cons v els ih =>
    simp only [reduceLoop] at h
    split at h
    · cases h
    · rename_i i g' _
      split at h
      · cases h
      · rename_i acc hacc
        apply ih _ _ _ h
        obtain ⟨j, hj, hje⟩ := List.mem_iff_getElem.1 he
        by_cases hij : i = j
        · subst hij
          rw [List.getElem?_eq_getElem hj, hje] at hacc
          cases hacc
          rw [liftStep_error]
          exact List.mem_iff_getElem.2 ⟨i, by simpa using hj, by simp⟩
        · exact List.mem_iff_getElem.2 ⟨j, by simpa using hj, by rw [List.getElem_set_ne hij]; exact hje⟩

theorem reduceLoop_errors (func : α → α → Res α) (hp : ∀ v x e, func v x = .error e → e = .panic) (els : List α) (g : FlatGen)
    (out R : List (Res α)) (ho : ∀ e, Except.error e ∈ out → e = .panic)
    (h : reduceLoop (liftStep func) (els.map .ok) g out = .ok R) : ∀ e, Except.error e ∈ R → e = .panic := by
  induction els generalizing g out with
  | nil => cases h; exact ho
  | cons v els ih =>
    simp only [List.map_cons, reduceLoop] at h
    split at h
    · cases h
    · rename_i i g' _
      split at h
      · cases h
      · rename_i acc hacc
        apply ih _ _ _ h
        intro e he
        rcases List.mem_or_eq_of_mem_set he with he | he
        · exact ho e he
        · cases acc with
          | ok x => exact hp v x e he.symm
          | error e' =>
            rw [liftStep_error] at he
            cases he
            exact ho e (List.mem_of_getElem? hacc)

theorem mapM_id_ok (l : List α) : (l.map Except.ok : List (Res α)).mapM id = .ok l := by
  induction l with
  | nil => rfl
  | cons x l ih => simp only [List.map_cons, List.mapM_cons, id, ok_bind, ih]; rfl

theorem reduceLoopM_eq (func : α → α → Res α) (hp : ∀ v x e, func v x = .error e → e = .panic) (els : List α) (g : FlatGen)
    (out : List α) (R : List (Res α)) (h : reduceLoop (liftStep func) (els.map .ok) g (out.map .ok) = .ok R) :
    reduceLoopM func els g out = R.mapM id := by
  induction els generalizing g out with
  | nil => cases h; rw [mapM_id_ok]; rfl
  | cons v els ih =>
    have h' := h
    simp only [List.map_cons, reduceLoop] at h
    simp only [reduceLoopM]
    split at h
    · cases h
    · rename_i i g' hg
      rw [hg]
      simp only
      rw [List.getElem?_map] at h
      cases hacc : out[i]? with
      | none => rw [hacc] at h; cases h
      | some acc =>
        rw [hacc] at h
        simp only [Option.map_some, liftStep_ok] at h
        simp only
        cases hf : func v acc with
        | ok x =>
          rw [hf, ← List.map_set] at h
          rw [ok_bind]
          exact ih _ _ h
        | error e =>
          have he := hp _ _ _ hf
          subst he
          rw [error_bind, mapM_id_panic]
          · rw [hf] at h
            refine ⟨_, reduceLoop_sticky func _ _ _ _ .panic ?_ h⟩
            have hi : i < out.length := (List.getElem?_eq_some_iff.1 hacc).1
            exact List.mem_iff_getElem.2 ⟨i, by simpa using hi, by simp⟩
          · apply reduceLoop_errors func hp (v :: els) g (out.map .ok) R _ h'
            intro e he
            simp at he

theorem foldl_liftStep (func : α → α → Res α) (vs : List α) (acc : Res α) :
    (vs.map Except.ok).foldl (fun acc v => liftStep func v acc) acc = acc >>= fun x => vs.foldlM (fun acc v => func v acc) x := by
  induction vs generalizing acc with
  | nil => cases acc <;> rfl
  | cons v vs ih =>
    rw [List.map_cons, List.foldl_cons, ih]
    cases acc with
    | ok x => rw [liftStep_ok, ok_bind, List.foldlM_cons]
    | error e => rfl

/-- A reduction along axes is the monadic fold over each fibre (the failures being panics). -/
theorem reduceAlongM_eq (func : α → α → Res α) (hp : ∀ v x e, func v x = .error e → e = .panic) {a : Arr α} {s : List Nat}
    {f : List Nat → α} (ha : a.Denotes s f) (hd : s.length ≤ maxDims) {axes : List Int} {ks : List Nat}
    (hax : AxesAre axes s.length ks) (hnd : ks.Nodup) (init : α) :
    a.reduceAlongM func axes init = (elements (dropAxes ks s) (fun J => ((fibre ks s J).map f).foldlM (fun acc v => func v acc) init)).mapM id
      >>= fun data => pure (Arr.fromContiguousOwnedBuffer (dropAxes ks s) data) := by
  let b : Arr (Res α) :=
    { buf := a.buf.map .ok, off := a.off, len := a.len, cap := a.cap, shape := a.shape, stride := a.stride, flags := a.flags }
  have hbd : b.Denotes s (fun idx => .ok (f idx)) := by
    refine ⟨ha.1, ha.2.1, fun idx hi => ?_⟩
    show (a.buf.map Except.ok)[a.off + offset idx a.stride]? = _
    rw [List.getElem?_map, ha.2.2 idx hi]; rfl
  have h := reduceAlong_eq (liftStep func) hbd hd hax hnd (.ok init)
  unfold Arr.reduceAlong at h
  unfold Arr.reduceAlongM
  rw [show b.shape = a.shape from rfl] at h
  rw [ha.1] at h ⊢
  rw [reducedShapeAndStride_ok hax hnd, ok_bind] at h ⊢
  simp only at h ⊢
  rw [hbd.flatiter hd] at h
  rw [ha.flatiter hd]
  have hsh : (reducedAux (maskOf s.length ks) s).1 = dropAxes ks s := by rw [reducedAux_fst, dropMask_maskOf]
  rw [hsh] at h ⊢
  cases hg : FlatGen.mk' (collapseToUniformStride s (reducedAux (maskOf s.length ks) s).2.1).1
      (collapseToUniformStride s (reducedAux (maskOf s.length ks) s).2.1).2 with
  | error e => rw [hg] at h; cases h
  | ok g =>
    rw [hg] at h
    simp only [ok_bind] at h ⊢
    have hel : elements s (fun idx => (Except.ok (f idx) : Res α)) = (elements s f).map Except.ok := by simp [elements]
    have hrep : List.replicate (numel (dropAxes ks s)) (Except.ok init : Res α) = (List.replicate (numel (dropAxes ks s)) init).map Except.ok := by simp
    rw [hel, hrep] at h
    cases hR : reduceLoop (liftStep func) ((elements s f).map Except.ok) g ((List.replicate (numel (dropAxes ks s)) init).map Except.ok) with
    | error e => rw [hR] at h; cases h
    | ok R =>
      rw [hR] at h
      have hRe : R = elements (dropAxes ks s) (fun J => ((fibre ks s J).map f).foldlM (fun acc v => func v acc) init) := by
        have h2 := congrArg (fun r : Res (Arr (Res α)) => match r with | .ok x => x.buf | .error _ => []) h
        simp only [pure_res, ok_bind, Arr.fromContiguousOwnedBuffer] at h2
        rw [h2]
        unfold elements
        apply List.map_congr_left
        intro J _
        unfold foldOver
        have := foldl_liftStep func ((fibre ks s J).map f) (.ok init)
        rw [List.map_map] at this
        exact this
      rw [reduceLoopM_eq func hp _ _ _ _ hR, hRe]

/-! ### results of integer operations -/

section ints
variable {lo hi : Int}

theorem intResult_fits (checks : Bool) {z : Int} (h : lo ≤ z ∧ z ≤ hi) : intResult checks lo hi z = .ok z := by
  unfold intResult; rw [if_pos h]

theorem intResult_panic {z : Int} (h : ¬ (lo ≤ z ∧ z ≤ hi)) : intResult true lo hi z = .error .panic := by
  unfold intResult; rw [if_neg h]; rfl

theorem intResult_errors (checks : Bool) {z : Int} {e : Err} (h : intResult checks lo hi z = .error e) : e = .panic := by
  unfold intResult at h
  split at h
  · cases h
  · split at h <;> cases h
    rfl

/-- Without checks the result is the representative of the residue class in the range of the type. -/
theorem intResult_wraps (hr : lo ≤ hi) (z : Int) :
    ∃ v, intResult false lo hi z = .ok v ∧ lo ≤ v ∧ v ≤ hi ∧ v ≡ z [ZMOD hi - lo + 1] := by
  by_cases h : lo ≤ z ∧ z ≤ hi
  · exact ⟨z, intResult_fits _ h, h.1, h.2, Int.ModEq.refl _⟩
  · refine ⟨(z - lo) % (hi - lo + 1) + lo, by unfold intResult; rw [if_neg h]; rfl, ?_, ?_, ?_⟩
    · have := Int.emod_nonneg (z - lo) (show hi - lo + 1 ≠ 0 by omega)
      omega
    · have := Int.emod_lt_of_pos (z - lo) (show 0 < hi - lo + 1 by omega)
      omega
    · have h1 : (z - lo) % (hi - lo + 1) ≡ z - lo [ZMOD hi - lo + 1] := Int.mod_modEq _ _
      simpa using h1.add_right lo

/-- There is only one number in the range of the type in each residue class. -/
theorem residue_unique {v w : Int} (hv : lo ≤ v ∧ v ≤ hi) (hw : lo ≤ w ∧ w ≤ hi) (h : v ≡ w [ZMOD hi - lo + 1]) : v = w := by
  have h1 := h.dvd
  obtain ⟨c, hc⟩ := h1
  have hc0 : c = 0 := by
    by_contra hne
    rcases lt_or_gt_of_ne hne with hlt | hgt
    · have : (hi - lo + 1) * c ≤ (hi - lo + 1) * (-1) := by
        apply mul_le_mul_of_nonneg_left (by omega) (by omega)
      omega
    · have : (hi - lo + 1) * 1 ≤ (hi - lo + 1) * c := by
        apply mul_le_mul_of_nonneg_left (by omega) (by omega)
      omega
  subst hc0
  omega

/-- Folding without checks: the exact result modulo the number of values of the type. -/
theorem fold_wraps (op : Int → Int → Int) (hr : lo ≤ hi)
    (hop : ∀ x y v, x ≡ y [ZMOD hi - lo + 1] → op x v ≡ op y v [ZMOD hi - lo + 1]) (vs : List Int) (acc acc' : Int)
    (hacc : lo ≤ acc ∧ acc ≤ hi) (hc : acc ≡ acc' [ZMOD hi - lo + 1]) :
    ∃ v, vs.foldlM (fun acc v => intResult false lo hi (op acc v)) acc = Except.ok v ∧ lo ≤ v ∧ v ≤ hi ∧
      v ≡ vs.foldl op acc' [ZMOD hi - lo + 1] := by
  induction vs generalizing acc acc' with
  | nil => exact ⟨acc, rfl, hacc.1, hacc.2, hc⟩
  | cons x vs ih =>
    obtain ⟨w, hw, h1, h2, h3⟩ := intResult_wraps hr (op acc x)
    rw [List.foldlM_cons, hw, ok_bind, List.foldl_cons]
    exact ih w (op acc' x) ⟨h1, h2⟩ (h3.trans (hop _ _ _ hc))

/-- Folding with checks: exact, if all intermediate results fit. -/
theorem fold_fits (checks : Bool) (op : Int → Int → Int) (vs : List Int) (acc : Int)
    (h : ∀ k, 0 < k → k ≤ vs.length → lo ≤ (vs.take k).foldl op acc ∧ (vs.take k).foldl op acc ≤ hi) :
    vs.foldlM (fun acc v => intResult checks lo hi (op acc v)) acc = Except.ok (vs.foldl op acc) := by
  induction vs generalizing acc with
  | nil => rfl
  | cons x vs ih =>
    rw [List.foldlM_cons, intResult_fits checks (show lo ≤ op acc x ∧ op acc x ≤ hi from h 1 (by omega) (by simp)), ok_bind, List.foldl_cons]
    apply ih
    intro k hk hkl
    exact h (k + 1) (by omega) (by simp; omega)

/-- Folding with checks: a panic as soon as an intermediate result does not fit. -/
theorem fold_panics (op : Int → Int → Int) (vs : List Int) (acc : Int)
    (h : ∃ k, 0 < k ∧ k ≤ vs.length ∧ ¬ (lo ≤ (vs.take k).foldl op acc ∧ (vs.take k).foldl op acc ≤ hi)) :
    vs.foldlM (fun acc v => intResult true lo hi (op acc v)) acc = (Except.error .panic : Res Int) := by
  induction vs generalizing acc with
  | nil => obtain ⟨k, h1, h2, _⟩ := h; simp at h2; omega
  | cons x vs ih =>
    obtain ⟨k, h1, h2, h3⟩ := h
    rw [List.foldlM_cons]
    by_cases hx : lo ≤ op acc x ∧ op acc x ≤ hi
    · rw [intResult_fits _ hx, ok_bind]
      apply ih
      obtain ⟨k, rfl⟩ : ∃ j, k = j + 1 := ⟨k - 1, by omega⟩
      refine ⟨k, ?_, by simpa using h2, h3⟩
      rcases Nat.eq_zero_or_pos k with rfl | hk
      · exact absurd hx h3
      · exact hk
    · rw [intResult_panic hx]; rfl

theorem fold_errors (op : Int → Int → Int) (checks : Bool) (vs : List Int) (acc : Int) (e : Err)
    (h : vs.foldlM (fun acc v => intResult checks lo hi (op acc v)) acc = Except.error e) : e = .panic := by
  induction vs generalizing acc with
  | nil => cases h
  | cons x vs ih =>
    rw [List.foldlM_cons] at h
    cases hx : intResult checks lo hi (op acc x) with
    | ok y => rw [hx, ok_bind] at h; exact ih _ h
    | error e' =>
      rw [hx, error_bind] at h
      cases h
      exact intResult_errors _ hx

end ints

end Verif
