import Verif.Lemmas.EinsumPlan
import Verif.Spec.Einsum

/-! Lemmas: the axis ordering and the whole plan of einsum. -/

namespace Verif

variable {α : Type}

theorem shiftLoop_perm {ipos : Nat} (x : Nat) : ∀ {i : Nat} {order : List Nat}, ipos ≤ i → i < order.length →
    ((shiftLoop ipos i order).set ipos x).Perm (order.set i x) := by
  intro i
  induction i with
  | zero =>
    intro order h _
    have : ipos = 0 := by omega
    subst this
    exact List.Perm.refl _
  | succ i ih =>
    intro order h hl
    by_cases e : ipos ≤ i
    · rw [shiftLoop, if_pos e]
      refine (ih e (by simp; omega)).trans ?_
      have hi : i < (order.set (i + 1) x).length := by simp; omega
      have hi1 : i + 1 < (order.set (i + 1) x).length := by simpa using hl
      have := List.set_set_perm (as := order.set (i + 1) x) hi1 hi
      have e1 : (order.set (i + 1) x)[i] = order.getD i 0 := by
        rw [List.getElem_set_ne (by omega)]
        simp [List.getD_eq_getElem?_getD, show i < order.length by omega]
      have e2 : (order.set (i + 1) x)[i + 1] = x := List.getElem_set_self _
      rw [e1, e2, List.set_set] at this
      exact this
    · have : ipos = i + 1 := by omega
      subst this
      rw [shiftLoop, if_neg e]

theorem findPos_le (strides : List (List Nat)) (order s0 : List Nat) : ∀ {i1 ipos : Nat}, i1 ≤ ipos →
    findPos strides order s0 i1 ipos ≤ ipos := by
  intro i1
  induction i1 with
  | zero => intro ipos _; exact Nat.le_refl _
  | succ i1 ih =>
    intro ipos h
    simp only [findPos]
    split
    · exact ih (by omega)
    · split
      · have := ih (Nat.le_refl i1); omega
      · exact Nat.le_refl _

theorem orderStep_perm (strides : List (List Nat)) {i0 : Nat} {r : List Nat × Bool} (h : i0 < r.1.length) :
    (orderStep strides i0 r).1.Perm r.1 := by
  simp only [orderStep]
  split
  · refine (shiftLoop_perm _ (findPos_le _ _ _ (Nat.le_refl _)) h).trans ?_
    have : r.1.set i0 (r.1.getD i0 0) = r.1 := by
      apply List.ext_getElem?
      intro j
      rw [List.getElem?_set]
      split
      · next e => subst e; simp [h]
      · rfl
    rw [this]
  · exact List.Perm.refl _

theorem findBestAxisOrdering_ok {n : Nat} (h : n ≤ maxDims) (strides : List (List Nat)) :
    ∃ r, findBestAxisOrdering n strides = .ok r ∧ ∀ order, r = some order → order.Perm (List.range n) := by
  have key : ∀ (l : List Nat) (r : List Nat × Bool), (∀ i ∈ l, i < n) → r.1.Perm (List.range n) →
      (l.foldl (fun r i0 => orderStep strides i0 r) r).1.Perm (List.range n) := by
    intro l
    induction l with
    | nil => intro r _ h; exact h
    | cons i l ih =>
      intro r hi hp
      refine ih _ (fun j hj => hi j (by simp [hj])) ((orderStep_perm strides ?_).trans hp)
      have := hp.length_eq
      simp at this
      have := hi i (by simp)
      omega
  have hk := key (List.range' 1 (n - 1)) (List.range n, false) (fun i hi => by
    rw [List.mem_range'_1] at hi; omega) (List.Perm.refl _)
  unfold findBestAxisOrdering
  rw [assert_ok (by simpa using h)]
  refine ⟨_, rfl, ?_⟩
  intro order ho
  split at ho
  · rw [← Option.some.inj ho]; exact hk
  · simp at ho

theorem permuteArray_ok {β : Type} {I order : List Nat} (h : order.Perm (List.range I.length)) (g : Nat → β) :
    permuteArray (I.map g) order = .ok ((order.map (I.getD · 0)).map g) := by
  unfold permuteArray
  have hl : (I.map g).length = order.length := by
    have := h.length_eq
    simpa using this.symm
  rw [assert_ok (by simp [hl])]
  show List.mapM _ order = _
  rw [mapM_ok (g := fun i => g (I.getD i 0))]
  · simp
  · intro i hi
    have : i < I.length := by simpa using h.mem_iff.1 hi
    simp [getChecked, this]

theorem map_getD_perm {I order : List Nat} (h : order.Perm (List.range I.length)) :
    (order.map (I.getD · 0)).Perm I := by
  refine (h.map _).trans ?_
  have : (List.range I.length).map (I.getD · 0) = I := by
    apply List.ext_getElem
    · simp
    · intro i h1 h2
      simp at h1
      simp [h1]
  rw [this]

/-- the row of the stride table of label `l` -/
def planRow (ts : List (Arr α × List Char)) (out : List Nat) (outStride : List Nat) (l : Nat) : List Nat :=
  ts.map (fun t => strideSum (codes t.2) t.1.stride l) ++ [strideSum out outStride l]

theorem strideSum_getD {ls st : List Nat} (hn : ls.Nodup) (hl : st.length ≤ ls.length) {j : Nat} {l : Nat}
    (h : ls[j]? = some l) : strideSum ls st l = st.getD j 0 := by
  induction ls generalizing st j with
  | nil => simp at h
  | cons x ls ih =>
    have hx := List.nodup_cons.1 hn
    cases st with
    | nil => simp [strideSum]
    | cons d st =>
      cases j with
      | zero =>
        simp at h
        subst h
        simp [strideSum, strideSum_notMem hx.1]
      | succ j =>
        have hm : l ∈ ls := List.mem_of_getElem? (by simpa using h)
        have : x ≠ l := by rintro rfl; exact hx.1 hm
        simp only [strideSum, this, if_false, Nat.zero_add, List.getD_cons_succ]
        exact ih hx.2 (by simpa using hl) (by simpa using h)

theorem strideRows_ok {ts : List (Arr α × List Char)} {O R outStride : List Nat} (hn : (O ++ R).Nodup)
    (hl : outStride.length = O.length) :
    strideRows (O ++ R).length (ts.map fun t => (O ++ R).map (strideSum (codes t.2) t.1.stride)) outStride =
      (O ++ R).map (planRow ts O outStride) := by
  apply List.ext_getElem?
  intro j
  by_cases hj : j < (O ++ R).length
  · have hI : (O ++ R)[j]? = some (O ++ R)[j] := List.getElem?_eq_getElem hj
    simp only [strideRows, List.getElem?_map, List.getElem?_range hj, hI, Option.map_some, List.map_map, planRow]
    congr 2
    · apply List.map_congr_left
      intro t _
      simp only [Function.comp_apply, List.getD_eq_getElem?_getD, List.getElem?_map, hI]
      rfl
    · congr 1
      generalize (O ++ R)[j] = l at hI
      by_cases hO : j < O.length
      · rw [List.getElem?_append_left hO] at hI
        exact (strideSum_getD (List.nodup_append.1 hn).1 (Nat.le_of_eq hl) hI).symm
      · have hm : l ∉ O := by
          intro hm
          rw [List.getElem?_append_right (by omega)] at hI
          exact (List.nodup_append.1 hn).2.2 l hm l (List.mem_of_getElem? hI) rfl
        rw [strideSum_notMem hm, List.getD_eq_getElem?_getD, List.getElem?_eq_none (by omega)]
        rfl
  · rw [List.getElem?_eq_none (by simp [strideRows]; simpa using hj), List.getElem?_eq_none (by simpa using hj)]

theorem flatMap_eq {ts : List (Arr α × List Char)} : (ts.map (·.2)).flatMap codes = ts.flatMap (codes ·.2) := by
  simp [List.flatMap_map]

/-- hypotheses of a well-formed einsum call, with letters as codes -/
structure PlanHyp (ts : List (Arr α × List Char)) (out : List Char) (R : List Nat) (dim : Nat → Nat) : Prop where
  nargs : ts.length < maxArgs
  alpha : ∀ t ∈ ts, ∀ c ∈ t.2, c.isAlpha = true
  ndims : ∀ t ∈ ts, t.2.length ≤ maxDims
  shape : ∀ t ∈ ts, t.1.shape = (codes t.2).map dim
  stride : ∀ t ∈ ts, t.1.stride.length = t.2.length
  nodup : (codes out ++ R).Nodup
  out_mem : ∀ c ∈ out, ∃ t ∈ ts, c ∈ t.2
  rest_mem : ∀ l, l ∈ R ↔ l ∈ ts.flatMap (codes ·.2) ∧ l ∉ codes out
  total : (codes out ++ R).length ≤ maxDims

theorem sumLabels_perm {ts : List (Arr α × List Char)} {out : List Char} {R : List Nat} {dim : Nat → Nat}
    (h : PlanHyp ts out R dim) {counts : Nat → Nat} (hc : ∀ l, counts l = (ts.flatMap (codes ·.2)).count l) :
    (sumLabels counts ((codes out).map Int.ofNat)).Perm R := by
  refine (List.perm_ext_iff_of_nodup ((List.nodup_range).filter _) (List.nodup_append.1 h.nodup).2.1).2 ?_
  intro l
  rw [h.rest_mem, List.mem_filter]
  simp only [List.mem_range, hc, Bool.and_eq_true, decide_eq_true_eq, Bool.not_eq_true', List.contains_eq_mem,
    decide_eq_false_iff_not, ne_eq, List.count_eq_zero, not_not]
  have e : (l : Int) ∈ (codes out).map Int.ofNat ↔ l ∈ codes out := by
    simp only [List.mem_map]
    constructor
    · rintro ⟨x, hx, e⟩
      have : x = l := by simpa using e
      rwa [← this]
    · exact fun h => ⟨l, h, rfl⟩
  rw [e]
  constructor
  · rintro ⟨_, h1, h2⟩
    exact ⟨h1, h2⟩
  · rintro ⟨h1, h2⟩
    refine ⟨?_, h1, h2⟩
    obtain ⟨t, ht, hl⟩ := List.mem_flatMap.1 h1
    obtain ⟨c, hc, rfl⟩ := List.mem_map.1 hl
    exact (alpha_facts (h.alpha t ht c hc)).2.1

theorem prepareEinsum_ok {ts : List (Arr α × List Char)} {out : List Char} {R : List Nat} {dim : Nat → Nat}
    (h : PlanHyp ts out R dim) :
    ∃ I : List Nat, I.Perm (codes out ++ R) ∧
      prepareEinsum (ts.map (·.1)) (ts.map (·.2)) out =
        .ok ⟨I.map (planRow ts (codes out) (strideFromShape ((codes out).map dim))), I.map dim, (codes out).map dim⟩ := by
  have hO : (codes out).Nodup := (List.nodup_append.1 h.nodup).1
  have houtn : out.Nodup := List.Nodup.of_map _ hO
  have houtl : out.length ≤ maxDims := by
    have := h.total
    simp [codes] at this; omega
  have halpha : ∀ c ∈ out, c.isAlpha = true := fun c hc => by
    obtain ⟨t, ht, hc⟩ := h.out_mem c hc
    exact h.alpha t ht c hc
  obtain ⟨t, et, ht⟩ := parseOperands_ok (dim := dim) (subs := ts.map (·.2)) (fun cs hcs => by
    obtain ⟨t, ht, rfl⟩ := List.mem_map.1 hcs
    exact ⟨h.alpha t ht, h.ndims t ht⟩) (tablesOK_empty dim)
  rw [List.nil_append, flatMap_eq] at ht
  have eshape : (ts.map (·.1)).map (·.shape) = (ts.map (·.2)).map fun cs => (codes cs).map dim := by
    rw [List.map_map, List.map_map]
    exact List.map_congr_left h.shape
  have eout := parseOutput_ok (counts := t.counts) halpha (fun c hc => by
    obtain ⟨t', ht', hc'⟩ := h.out_mem c hc
    rw [ht.counts]
    have : c.toNat ∈ ts.flatMap (codes ·.2) := List.mem_flatMap.2 ⟨t', ht', mem_codes.2 hc'⟩
    have := List.count_pos_iff.2 this
    omega) houtn houtl
  have etake : ((codes out).map Int.ofNat ++ List.replicate (maxDims - out.length) 0).take out.length =
      (codes out).map Int.ofNat := by
    rw [List.take_append_of_le_length (by simp [codes]), List.take_of_length_le (by simp [codes])]
  have hpos : ∀ t ∈ ts, ∀ l ∈ codes t.2, 0 < l := fun t ht l hl => by
    obtain ⟨c, hc, rfl⟩ := List.mem_map.1 hl
    exact (alpha_facts (h.alpha t ht c hc)).1
  -- the call that decides about the warning
  have hview : ∃ r, warnCheck (ts.map (·.1)) ((ts.map (·.2)).map fun cs => labelList (codes cs)) out.length
      ((codes out).map Int.ofNat) = .ok r := by
    match ts, h, hpos with
    | [], _, _ => exact ⟨_, rfl⟩
    | [t], h, hpos =>
      have e := viewLayout_ok (dim := dim) (cs := codes t.2) (stride := t.1.stride) hO (hpos t (by simp)) (by
        rw [h.stride t (by simp)]; simp [codes])
      rw [← h.shape t (by simp), show (codes out).length = out.length by simp [codes]] at e
      exact ⟨_, e⟩
    | _ :: _ :: _, _, _ => exact ⟨_, rfl⟩
  obtain ⟨rv, hview⟩ := hview
  -- combining
  have hcomb : ∀ t ∈ ts, ∃ x : List Nat × List Nat × List Int,
      combineOperand t.1.shape t.1.stride (labelList (codes t.2)) = .ok x ∧
      ∀ I : List Nat, (∀ l ∈ I, 0 < l) → operandStride x.2.1 x.2.2 (I.map Int.ofNat) = .ok (I.map (strideSum (codes t.2) t.1.stride)) := by
    intro t ht
    obtain ⟨s', st', l', ls, e1, e2, e3, e4⟩ := combineOperand_ok (dim := dim) (cs := codes t.2) (stride := t.1.stride)
      (by simpa [codes] using h.ndims t ht) (by simpa [codes] using h.stride t ht)
    rw [← h.shape t ht] at e1
    refine ⟨_, e1, fun I hI => ?_⟩
    rw [operandStride_ok e2 e3 hI]
    congr 1
    exact List.map_congr_left fun l _ => e4 l
  have hrest := sumLabels_perm h ht.counts
  set S := sumLabels t.counts ((codes out).map Int.ofNat) with hS
  have hIpos : ∀ l ∈ codes out ++ S, 0 < l := by
    intro l hl
    rcases List.mem_append.1 hl with hl | hl
    · obtain ⟨c, hc, rfl⟩ := List.mem_map.1 hl
      exact (alpha_facts (halpha c hc)).1
    · obtain ⟨t, ht, hl⟩ := List.mem_flatMap.1 ((h.rest_mem l).1 (hrest.mem_iff.1 hl)).1
      exact hpos t ht l hl
  have hstr : ∃ combined : List (List Nat × List Nat × List Int),
      ((ts.map (·.1)).zip ((ts.map (·.2)).map fun cs => labelList (codes cs))).mapM
        (fun x => combineOperand x.1.shape x.1.stride x.2) = .ok combined ∧
      combined.mapM (fun x => operandStride x.2.1 x.2.2 ((codes out ++ S).map Int.ofNat)) =
        .ok (ts.map fun t => (codes out ++ S).map (strideSum (codes t.2) t.1.stride)) := by
    clear hview eshape et eout ht hpos hS
    have : ∀ ts' : List (Arr α × List Char), (∀ t ∈ ts', t ∈ ts) → ∃ combined : List (List Nat × List Nat × List Int),
        ((ts'.map (·.1)).zip ((ts'.map (·.2)).map fun cs => labelList (codes cs))).mapM
          (fun x => combineOperand x.1.shape x.1.stride x.2) = .ok combined ∧
        combined.mapM (fun x => operandStride x.2.1 x.2.2 ((codes out ++ S).map Int.ofNat)) =
          .ok (ts'.map fun t => (codes out ++ S).map (strideSum (codes t.2) t.1.stride)) := by
      intro ts'
      induction ts' with
      | nil => intro _; exact ⟨[], rfl, rfl⟩
      | cons t ts' ih =>
        intro hmem
        obtain ⟨x, e1, e2⟩ := hcomb t (hmem t (by simp))
        obtain ⟨combined, e3, e4⟩ := ih fun t ht => hmem t (by simp [ht])
        refine ⟨x :: combined, ?_, ?_⟩
        · simp only [List.map_cons, List.zip_cons_cons, List.mapM_cons, e1]
          rw [e3]; rfl
        · simp only [List.map_cons, List.mapM_cons, e2 _ hIpos]
          rw [e4]; rfl
    exact this ts fun t ht => ht
  obtain ⟨combined, ec, es⟩ := hstr
  have hnodup : (codes out ++ S).Nodup := (hrest.append_left _).nodup_iff.2 h.nodup
  have hlen : (codes out ++ S).length ≤ maxDims := by
    rw [(hrest.append_left _).length_eq]; exact h.total
  have edims : ∀ l ∈ codes out ++ S, t.dims l = dim l := by
    intro l hl
    refine ht.dims l ?_
    rcases List.mem_append.1 hl with hl | hl
    · obtain ⟨c, hc, rfl⟩ := List.mem_map.1 hl
      obtain ⟨t', ht', hc'⟩ := h.out_mem c hc
      exact List.mem_flatMap.2 ⟨t', ht', mem_codes.2 hc'⟩
    · exact ((h.rest_mem l).1 (hrest.mem_iff.1 hl)).1
  have eshp : ((codes out).map Int.ofNat).map (fun l => t.dims l.toNat) = (codes out).map dim := by
    rw [List.map_map]
    refine List.map_congr_left fun l hl => ?_
    exact edims l (by simp [hl])
  have eshp2 : S.map t.dims = S.map dim := List.map_congr_left fun l hl => edims l (by simp [hl])
  obtain ⟨ord, eo, ho⟩ := findBestAxisOrdering_ok hlen
    ((codes out ++ S).map (planRow ts (codes out) (strideFromShape ((codes out).map dim))))
  have hrows := strideRows_ok (ts := ts) (outStride := strideFromShape ((codes out).map dim)) hnodup
    (by simp [length_strideFromShape])
  refine ⟨if ord = none then codes out ++ S else (ord.getD []).map ((codes out ++ S).getD · 0), ?_, ?_⟩
  · split
    · exact hrest.append_left _
    · next hne =>
      cases ord with
      | none => exact (hne rfl).elim
      | some order => exact (map_getD_perm (ho order rfl)).trans (hrest.append_left _)
  unfold prepareEinsum
  rw [assert_ok (by simpa using h.nargs), eshape, et]
  show (parseOutput out 0 t.counts >>= fun o => _) = _
  rw [eout]
  show (assert (decide (out.length ≤ maxDims)) >>= fun _ => _) = _
  rw [assert_ok (by simpa using houtl)]
  show (warnCheck _ _ out.length (List.take out.length _) >>= fun _ => buildPlan _ _ t (List.take out.length _)) = _
  rw [etake, hview]
  show buildPlan _ _ t _ = _
  unfold buildPlan
  rw [ec]
  show (assert (decide (((codes out).map Int.ofNat).length + S.length ≤ maxDims)) >>= fun _ =>
    List.mapM (fun x => operandStride x.2.1 x.2.2 ((codes out).map Int.ofNat ++ S.map Int.ofNat)) combined >>= fun opStrides =>
    reorderPlan (strideRows ((codes out).map Int.ofNat ++ S.map Int.ofNat).length opStrides
      (strideFromShape (((codes out).map Int.ofNat).map fun l => t.dims l.toNat)))
      (((codes out).map Int.ofNat).map (fun l => t.dims l.toNat) ++ S.map t.dims) (((codes out).map Int.ofNat).map fun l => t.dims l.toNat)) = _
  rw [assert_ok (by simpa using hlen), ← List.map_append, es, eshp, eshp2]
  show reorderPlan (strideRows ((codes out ++ S).map Int.ofNat).length _ _) _ _ = _
  rw [List.length_map, hrows, ← List.map_append]
  unfold reorderPlan
  rw [List.length_map, eo]
  cases ord with
  | none => rfl
  | some order =>
    have hp := ho order rfl
    show (permuteArray _ order >>= _) = _
    rw [permuteArray_ok hp]
    show (permuteArray _ order >>= _) = _
    rw [permuteArray_ok hp]
    rfl

end Verif
