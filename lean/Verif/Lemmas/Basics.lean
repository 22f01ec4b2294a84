import Verif.Lemmas.Inj
import Verif.Model.Basics

set_option linter.unusedSimpArgs false

/-!
# clone, fill
-/

namespace Verif

variable {α : Type}

/-! ### clone -/

theorem Arr.WF.len_contiguous {a : Arr α} (h : a.WF) (hc : a.isContiguous = true) : a.len = numel a.shape := by
  rcases h.len with h1 | ⟨h0, h1⟩
  · exact h1
  · obtain ⟨e, he, hle⟩ := h.flags.contiguous hc
    have hl := h.valid.1
    by_cases hne : a.shape = []
    · rw [h1, hne]; simp
    · rcases h.pos with hp | hp
      · exact absurd hp h0
      · obtain ⟨h2, h3⟩ := uniform_strides hl.symm hp he hne
        rw [h1, h2, span_strideFromShape _ _ h0]
        have : e = 1 := by omega
        subst this; omega

theorem mapM_flatten {β γ : Type} {f : β → Res (List γ)} {g : β → List γ} {l : List β} (h : ∀ x ∈ l, f x = .ok (g x)) :
    l.mapM f = .ok (l.map g) := mapM_ok h

theorem offsets_append {s t st tt : List Nat} (hl : s.length = st.length) :
    offsets (s ++ t) (st ++ tt) = (offsets s st).flatMap fun x => (offsets t tt).map (x + ·) := by
  unfold offsets
  rw [indices_append, List.map_flatMap, List.flatMap_map]
  apply List.flatMap_congr
  intro i hi
  rw [List.map_map, List.map_map]
  apply List.map_congr_left
  intro j _
  simp only [Function.comp]
  rw [offset_append (by rw [(mem_indices.1 hi).length, hl])]

theorem offsets_singleton (n d : Nat) : offsets [n] [d] = (List.range n).map (· * d) := by
  simp [offsets, indices, List.map_flatMap]
  induction n with
  | zero => rfl
  | succ n ih => simp [List.range_succ, ih]

/-- `clone_data_non_contiguous` copies the elements in row-major order, whatever the strides. -/
theorem cloneNonContiguous_or {a : Arr α} {s : List Nat} {f : List Nat → α} (ha : a.Denotes s f)
    (hne : s ≠ []) : a.cloneDataNonContiguous = .ok (elements s f) ∨
      (¬ AxesFit s a.stride ∧ a.cloneDataNonContiguous = .error .panic) := by
  have hl := ha.2.1
  have hs := ha.1
  obtain ⟨n, s', rfl⟩ := List.exists_cons_of_ne_nil hne
  obtain ⟨d, st', hst⟩ : ∃ d st', a.stride = d :: st' := by
    cases h : a.stride with
    | nil => simp [h] at hl
    | cons d st' => exact ⟨d, st', rfl⟩
  have hc := offsets_collapse (s := n :: s') (st := a.stride) hl.symm
  have hlen := length_collapse (n :: s') a.stride
  have hcne : (collapseToUniformStride (n :: s') a.stride).2 ≠ [] := by
    have : ∀ (t u : List Nat) (x y : Nat), (collapseAux x y t u).2 ≠ [] := by
      intro t
      induction t with
      | nil => intro u x y; simp [collapseAux]
      | cons m t ih =>
        intro u x y
        cases u with
        | nil => simp [collapseAux]
        | cons c u =>
          simp only [collapseAux]
          split
          · exact ih _ _ _
          · simp
    rw [hst]; exact this s' st' n d
  have hread : ∀ i ∈ offsets (n :: s') a.stride, ∃ v, a.read i = .ok v := by
    intro i hi
    obtain ⟨idx, hidx, rfl⟩ := List.mem_map.1 hi
    exact ⟨_, Arr.read_ok (ha.2.2 idx (mem_indices.1 hidx))⟩
  unfold Arr.cloneDataNonContiguous AxesFit
  have hsize : a.size = numel (n :: s') := by rw [Arr.size, hs]
  rw [hs]
  generalize hcoll : collapseToUniformStride (n :: s') a.stride = c at *
  obtain ⟨cs, cst⟩ := c
  simp only at hc hlen hcne ⊢
  obtain ⟨cst', d', rfl⟩ : ∃ l x, cst = l ++ [x] :=
    ⟨cst.dropLast, cst.getLast hcne, (List.dropLast_append_getLast hcne).symm⟩
  obtain ⟨cs', n', rfl⟩ : ∃ l x, cs = l ++ [x] := by
    have : cs ≠ [] := by rintro rfl; simp at hlen
    exact ⟨cs.dropLast, cs.getLast this, (List.dropLast_append_getLast this).symm⟩
  simp at hlen
  rw [List.getLast?_concat]
  simp only
  -- the values
  have hval : ∀ (g : FlatGen) (run : Nat) (L : List Nat), g.toList = L →
      L.flatMap (fun x => (List.range run).map (x + ·)) = offsets (n :: s') a.stride →
      (do
        let runs ← g.toList.mapM fun i => a.readRun i run
        if runs.flatten.length = a.size then return runs.flatten else throw .ub : Res (List α)) = .ok (elements (n :: s') f) := by
    intro g run L hg hL
    have he := ha.elements_eq
    rw [← hL] at he
    have hr2 : ∀ x ∈ L, ∃ vs, a.readRun x run = .ok vs := by
      intro x hx
      have : ∀ k ∈ List.range run, ∃ v, a.read (x + k) = .ok v := by
        intro k hk
        apply hread
        rw [← hL]
        exact List.mem_flatMap.2 ⟨x, hx, List.mem_map.2 ⟨k, hk, rfl⟩⟩
      unfold Arr.readRun
      clear hL he
      revert this
      generalize List.range run = R
      intro this
      induction R with
      | nil => exact ⟨[], rfl⟩
      | cons k R ih =>
        obtain ⟨v, hv⟩ := this k (by simp)
        obtain ⟨vs, hvs⟩ := ih (fun k hk => this k (List.mem_cons_of_mem _ hk))
        exact ⟨v :: vs, by rw [List.mapM_cons, hv]; simp only [ok_bind]; rw [hvs]; rfl⟩
    have key : ∀ L : List Nat, (∀ x ∈ L, ∃ vs, a.readRun x run = .ok vs) →
        ∃ runs, L.mapM (fun i => a.readRun i run) = .ok runs ∧
          (L.flatMap (fun x => (List.range run).map (x + ·))).mapM a.read = .ok runs.flatten := by
      intro L
      induction L with
      | nil => intro _; exact ⟨[], rfl, rfl⟩
      | cons x L ih =>
        intro hL
        obtain ⟨vs, hvs⟩ := hL x (by simp)
        obtain ⟨runs, e1, e2⟩ := ih (fun y hy => hL y (List.mem_cons_of_mem _ hy))
        refine ⟨vs :: runs, by rw [List.mapM_cons, hvs]; simp only [ok_bind]; rw [e1]; rfl, ?_⟩
        rw [List.flatMap_cons, List.mapM_append, e2]
        have : ((List.range run).map (x + ·)).mapM a.read = a.readRun x run := by
          unfold Arr.readRun
          generalize List.range run = R
          induction R with
          | nil => rfl
          | cons y R ih => simp only [List.map_cons, List.mapM_cons, ih]
        rw [this, hvs]; rfl
    obtain ⟨runs, e1, e2⟩ := key L hr2
    rw [hg, e1]
    simp only [ok_bind]
    rw [he] at e2
    injection e2 with e2
    rw [← e2, hsize, length_elements, if_pos rfl]; rfl
  by_cases hd1 : d' = 1
  · subst hd1
    simp only [if_true, List.dropLast_concat, List.getLastD_concat]
    by_cases hfit : AxesFit cs' cst'
    rotate_left
    · rw [FlatGen.mk'_panic hfit]
      exact .inr ⟨fun h => hfit (axesFit_of_rank (by simp at h; omega)), rfl⟩
    left
    obtain ⟨g, hg, hgl⟩ := FlatGen.toList_fits (s := cs') (st := cst') (by omega) hfit
    rw [hg]
    simp only [ok_bind]
    refine hval g n' _ hgl ?_
    rw [← hc, offsets_append (by omega), offsets_singleton]
    simp
  · simp only [if_neg hd1]
    by_cases hfit : AxesFit (cs' ++ [n']) (cst' ++ [d'])
    rotate_left
    · rw [FlatGen.mk'_panic hfit]
      exact .inr ⟨fun h => hfit (axesFit_of_rank h), rfl⟩
    left
    obtain ⟨g, hg, hgl⟩ := FlatGen.toList_fits (s := cs' ++ [n']) (st := cst' ++ [d']) (by simp; omega) hfit
    rw [hg]
    simp only [ok_bind]
    refine hval g 1 _ hgl ?_
    rw [← hc]
    simp [List.flatMap_singleton']

theorem cloneNonContiguous_ok {a : Arr α} {s : List Nat} {f : List Nat → α} (ha : a.Denotes s f)
    (hd : s.length ≤ maxDims) (hne : s ≠ []) : a.cloneDataNonContiguous = .ok (elements s f) :=
  (cloneNonContiguous_or ha hne).resolve_right fun h => h.1 (axesFit_of_rank hd)

theorem cloneContiguous_ok {a : Arr α} {s : List Nat} {f : List Nat → α} (ha : a.Denotes s f)
    (hlen : a.len = numel s) (hoff : offsets s a.stride = List.range (numel s)) :
    a.cloneDataContiguous = .ok (elements s f) := by
  unfold Arr.cloneDataContiguous Arr.readRun
  simp only [Nat.zero_add]
  rw [hlen, ← hoff, ha.elements_eq]

/-- what `clone_data` needs: contiguous views must really be contiguous -/
def Arr.CloneOK (a : Arr α) : Prop :=
  a.isContiguous = true → a.len = numel a.shape ∧ offsets a.shape a.stride = List.range (numel a.shape)

theorem Arr.WF.cloneOK {a : Arr α} (h : a.WF) : a.CloneOK := fun hc => by
  obtain ⟨e, he, h1⟩ := h.flags.contiguous hc
  exact ⟨h.len_contiguous hc, offsets_contiguous h.valid.1.symm h.pos.noZero he h1⟩

theorem cloneData_or {a : Arr α} {s : List Nat} {f : List Nat → α} (ha : a.Denotes s f) (hok : a.CloneOK)
    (hfl : a.FlagsExact) : a.cloneData = .ok (elements s f) ∨
      (a.isContiguous = false ∧ ¬ AxesFit s a.stride ∧ a.cloneData = .error .panic) := by
  unfold Arr.cloneData
  by_cases hc : a.isContiguous = true
  · rw [if_pos hc]
    obtain ⟨h1, h2⟩ := hok hc
    rw [ha.1] at h1 h2
    exact .inl (cloneContiguous_ok ha h1 h2)
  · rw [if_neg hc]
    refine (cloneNonContiguous_or ha ?_).imp_right fun h => ⟨by simpa using hc, h⟩
    rintro rfl
    apply hc
    have := hfl.2
    rw [Arr.isContiguous, this, ha.1]
    have : a.stride = [] := List.length_eq_zero_iff.1 ha.2.1
    rw [this]; decide

theorem cloneData_ok {a : Arr α} {s : List Nat} {f : List Nat → α} (ha : a.Denotes s f) (hok : a.CloneOK)
    (hfl : a.FlagsExact) (hd : s.length ≤ maxDims) : a.cloneData = .ok (elements s f) :=
  (cloneData_or ha hok hfl).resolve_right fun h => h.2.1 (axesFit_of_rank hd)

/-! ### fill -/

/-- overwrite a list of positions -/
def setAll (b : List α) (ps : List Nat) (v : α) : List α := ps.foldl (fun b p => b.set p v) b

@[simp] theorem length_setAll (b : List α) (ps : List Nat) (v : α) : (setAll b ps v).length = b.length := by
  unfold setAll
  induction ps generalizing b with
  | nil => rfl
  | cons p ps ih => rw [List.foldl_cons, ih]; simp

theorem setAll_append (b : List α) (ps qs : List Nat) (v : α) : setAll b (ps ++ qs) v = setAll (setAll b ps v) qs v := by
  simp [setAll]

theorem getElem?_setAll {b : List α} {ps : List Nat} {v : α} {i : Nat} (hi : i < b.length) :
    (setAll b ps v)[i]? = if i ∈ ps then some v else b[i]? := by
  induction ps generalizing b with
  | nil => simp [setAll]
  | cons p ps ih =>
    show (setAll (b.set p v) ps v)[i]? = _
    rw [ih (by simpa using hi)]
    by_cases h1 : i ∈ ps
    · simp [h1]
    · by_cases h2 : i = p
      · subst h2
        rw [if_neg h1, if_pos (by simp)]
        simp [hi]
      · rw [if_neg h1, if_neg (by simp [h1, h2])]
        rw [List.getElem?_set_ne (by omega)]

theorem fillUniformStride_ok {count : Nat} {b : List α} {p stride : Nat} {v : α}
    (h : ∀ k < count, p + k * stride < b.length) :
    fillUniformStride count b p stride v = .ok (setAll b ((List.range count).map fun k => p + k * stride) v) := by
  induction count generalizing b p with
  | zero => rfl
  | succ c ih =>
    have h0 := h 0 (by omega)
    simp only [fillUniformStride, bufStore]
    rw [if_pos (by simpa using h0)]
    simp only [ok_bind]
    rw [ih]
    · rw [List.range_succ_eq_map]
      simp only [List.map_cons, List.map_map]
      show _ = Except.ok (setAll (b.set (p + 0 * stride) v) _ v)
      simp only [Nat.zero_mul, Nat.add_zero]
      congr 2
      apply List.map_congr_left
      intro k _
      simp only [Function.comp]
      rw [Nat.succ_mul]; omega
    · intro k hk
      have := h (k + 1) (by omega)
      rw [Nat.succ_mul] at this
      simp; omega

theorem fillLoop_ok {body : List α → Nat → Res (List α)} {os : List Nat} {v : α} {step : Nat} (L : Nat)
    (n : Nat) (b : List α) (p : Nat)
    (hbody : ∀ k < n, ∀ b : List α, b.length = L → body b (p + k * step) = .ok (setAll b (os.map (p + k * step + ·)) v))
    (hb : b.length = L) :
    fillLoop body step n b p =
      .ok (setAll b ((List.range n).flatMap fun k => os.map (p + k * step + ·)) v) := by
  induction n generalizing b p with
  | zero => rfl
  | succ n ih =>
    simp only [fillLoop]
    have h0 := hbody 0 (by omega) b hb
    simp only [Nat.zero_mul, Nat.add_zero] at h0
    rw [h0]
    simp only [ok_bind]
    rw [ih]
    · rw [List.range_succ_eq_map, List.flatMap_cons, setAll_append, List.flatMap_map]
      simp only [Nat.zero_mul, Nat.add_zero]
      congr 2
      apply List.flatMap_congr
      intro k _
      apply List.map_congr_left
      intro o _
      rw [Nat.succ_mul]; omega
    · intro k hk b' hb'
      have := hbody (k + 1) (by omega) b' hb'
      rw [Nat.succ_mul] at this
      rw [show p + step + k * step = p + (k * step + step) by omega]
      exact this
    · simpa using hb

theorem PosStride.tail {n d : Nat} {s st : List Nat} (h : PosStride (n :: s) (d :: st)) (hn : n ≠ 0) : PosStride s st := by
  rcases h with h | h
  · left
    simp at h
    rcases h with h | h
    · exact absurd h hn
    · exact h
  · right; intro x hx; exact h x (List.mem_cons_of_mem _ hx)

/-- with step 1, the first axis spans extent times stride cells -/
theorem uniform_one_len {n d : Nat} {s st : List Nat} (hl : s.length = st.length)
    (h : hasUniformStride (n :: s) (d :: st) = some 1) (hp : PosStride (n :: s) (d :: st)) :
    n * d = numel (n :: s) := by
  by_cases hd : d = 0
  · rcases hp with hp | hp
    · rw [hp, hd]; simp
    · have := hp d (by simp); omega
  · obtain ⟨h1, _⟩ := hasUniformStride_ne_zero hl h hd
    rw [strideFromShape_cons] at h1
    simp at h1
    rw [h1.1, numel_cons]

theorem fillPtr_ok {s st : List Nat} (hl : s.length = st.length) {len : Nat} {v : α} {b : List α} {p : Nat}
    (hp : PosStride s st) (hlen : hasUniformStride s st = some 1 → len = numel s)
    (hin : ∀ o ∈ offsets s st, p + o < b.length) :
    fillPtr s st len v b p = .ok (setAll b ((offsets s st).map (p + ·)) v) := by
  have uni : ∀ {s st : List Nat} {e len : Nat} {b : List α} {p : Nat}, s.length = st.length → PosStride s st →
      (hasUniformStride s st = some 1 → len = numel s) → (∀ o ∈ offsets s st, p + o < b.length) →
      hasUniformStride s st = some e →
      (if e = 1 then fillContiguous len b p v else fillUniformStride (numel s) b p e v) =
        .ok (setAll b ((offsets s st).map (p + ·)) v) := by
    intro s st e len b p hl hp hlen hin he
    have ho := offsets_uniform hl hp.good he
    have hin' : ∀ k < numel s, p + k * e < b.length := by
      intro k hk
      apply hin
      rw [ho]
      exact List.mem_map.2 ⟨k, List.mem_range.2 hk, rfl⟩
    by_cases h1 : e = 1
    · subst h1
      rw [if_pos rfl, fillContiguous, hlen he, fillUniformStride_ok hin', ho, List.map_map]; rfl
    · rw [if_neg h1, fillUniformStride_ok hin', ho, List.map_map]; rfl
  induction s generalizing st len b p with
  | nil =>
    cases st with
    | cons => simp at hl
    | nil =>
      have he : hasUniformStride [] [] = some 0 := rfl
      have := uni rfl hp hlen hin he
      simpa [fillPtr, he] using this
  | cons n s ih => cases st with
    | nil => simp at hl
    | cons d st =>
      have hl' : s.length = st.length := by simpa using hl
      simp only [fillPtr]
      cases hu : hasUniformStride (n :: s) (d :: st) with
      | some e => exact uni hl hp hlen hin hu
      | none =>
        simp only
        have hsub : ∀ k < n, ∀ b' : List α, b'.length = b.length →
            fillPtr s st (s.headD 0 * st.headD 0) v b' (p + k * d) =
              .ok (setAll b' ((offsets s st).map (p + k * d + ·)) v) := by
          intro k hk b' hb'
          have hp' := hp.tail (show n ≠ 0 by omega)
          refine ih hl' hp' ?_ ?_
          · intro h1
            cases s with
            | nil => cases st <;> simp_all [hasUniformStride]
            | cons m s => cases st with
              | nil => simp at hl'
              | cons c st => exact uniform_one_len (by simpa using hl') h1 hp'
          · intro o ho
            rw [hb']
            have := hin (k * d + o) (by
              rw [offsets_cons]
              exact List.mem_flatMap.2 ⟨k, List.mem_range.2 hk, List.mem_map.2 ⟨o, ho, rfl⟩⟩)
            omega
        rw [fillLoop_ok b.length n b p hsub rfl]
        rw [offsets_cons, List.map_flatMap]
        congr 2
        apply List.flatMap_congr
        intro k _
        rw [List.map_map]
        apply List.map_congr_left
        intro o _
        simp only [Function.comp]; omega

theorem fill_ok {a : Arr α} (h : a.WF) (v : α) :
    a.fill v = .ok (setAll a.buf ((offsets a.shape a.stride).map (a.off + ·)) v) := by
  refine fillPtr_ok h.valid.1.symm h.pos (fun h1 => ?_) (fun o ho => ?_)
  · apply h.len_contiguous
    rw [Arr.isContiguous, h.flags.2]
    simp [h1]
  · obtain ⟨idx, hi, rfl⟩ := List.mem_map.1 ho
    exact h.valid.2 idx (mem_indices.1 hi)

end Verif
