import Verif.Props.EmptyProducts

/-!
# C28: exactly which well-formed requests einsum refuses

With at least 16 operands, more than 32 letters in one subscript, more than 32 different letters or no letters at all, einsum panics;
it answers every other well-formed request without extents 0 (`C28_exact`).
-/

namespace Verif

variable {α : Type}

theorem OkOrPanic.eq_panic {β : Type} {x : Res β} (h : OkOrPanic x) (hn : ∀ v, x ≠ .ok v) : x = .error .panic :=
  h.resolve_left fun ⟨v, e⟩ => hn v e

theorem okOrPanic_mapM {β γ : Type} {f : β → Res γ} : ∀ {l : List β}, (∀ x ∈ l, OkOrPanic (f x)) → OkOrPanic (l.mapM f)
  | [], _ => by rw [List.mapM_nil]; exact .ok _
  | x :: l, h => by
    rw [List.mapM_cons]
    exact (h x (by simp)).bind fun _ _ => (okOrPanic_mapM fun y hy => h y (by simp [hy])).bind fun _ _ => .ok _

theorem okOrPanic_resolve (labels : List Int) (i : Nat) : OkOrPanic (resolveLabel labels i) := by
  refine (okOrPanic_getChecked _ _).bind fun l _ => ?_
  split
  · exact okOrPanic_getChecked _ _
  · exact .ok _

theorem okOrPanic_viewLoop (labels out : List Int) : ∀ (i : Nat) (shape stride ns nt : List Nat),
    OkOrPanic (viewLoop labels out i shape stride ns nt)
  | i, [], stride, ns, nt => by unfold viewLoop; exact .ok _
  | i, n :: shape, [], ns, nt => by unfold viewLoop; exact .ok _
  | i, n :: shape, d :: stride, ns, nt => by
    unfold viewLoop
    refine (okOrPanic_resolve _ _).bind fun l _ => ?_
    split
    · exact .panic
    · split
      · exact .ok _
      · exact okOrPanic_viewLoop ..

theorem okOrPanic_warnCheck (ops : List (Arr α)) (labels : List (List Int)) (n : Nat) (out : List Int) :
    OkOrPanic (warnCheck ops labels n out) := by
  unfold warnCheck
  split
  · exact okOrPanic_viewLoop ..
  · exact .ok _

theorem okOrPanic_combineLoop (labels : List Int) : ∀ (axis : Nat) (shape stride : List Nat) (cmap : List (Option Nat))
    (s' t' : List Nat), OkOrPanic (combineLoop labels axis shape stride cmap s' t')
  | _, [], _, _, _, _ => by unfold combineLoop; exact .ok _
  | _, _ :: _, [], _, _, _ => by unfold combineLoop; exact .ok _
  | axis, n :: shape, d :: stride, cmap, s', t' => by
    unfold combineLoop
    refine (okOrPanic_getChecked _ _).bind fun l _ => ?_
    split
    · exact okOrPanic_combineLoop ..
    · split
      · refine (okOrPanic_getChecked _ _).bind fun m _ => ?_
        split
        · exact .panic
        · exact okOrPanic_combineLoop ..
      · exact .panic

theorem okOrPanic_relabelLoop : ∀ (axis : Nat) (cmap : List (Option Nat)) (labels : List Int), OkOrPanic (relabelLoop axis cmap labels)
  | _, [], _ => by unfold relabelLoop; exact .ok _
  | _, none :: _, _ => by unfold relabelLoop; exact okOrPanic_relabelLoop ..
  | _, some _ :: _, _ => by
    unfold relabelLoop
    exact (okOrPanic_getChecked _ _).bind fun _ _ => (okOrPanic_setChecked _ _ _).bind fun _ _ => okOrPanic_relabelLoop ..

theorem okOrPanic_combineOperand (shape stride : List Nat) (labels : List Int) : OkOrPanic (combineOperand shape stride labels) := by
  unfold combineOperand
  split
  · exact .ok _
  · exact (okOrPanic_combineLoop ..).bind fun _ _ => (okOrPanic_relabelLoop ..).bind fun _ _ => .ok _

/-! ### what the parser needs -/

theorem setChecked_ok {β : Type} {l l' : List β} {i : Nat} {v : β} (h : setChecked l i v = .ok l') :
    i < l.length ∧ l'.length = l.length := by
  unfold setChecked at h
  split at h
  · next hi => cases h; exact ⟨hi, by simp⟩
  · cases h

theorem parseLoop_fits {shape : List Nat} {bd : Nat} : ∀ {cs : List Char} {i : Nat} {st st' : ParseState},
    (∀ c ∈ cs, c.isAlpha = true) → st.check = false → st.ellipsis = false → parseLoop shape bd i cs st = .ok st' →
    ∀ k, k < cs.length → i + k < st.labels.length
  | [], _, _, _, _, _, _, _ => fun k hk => by simp at hk
  | c :: cs, i, st, st', hc, h1, h2, h => fun k hk => by
    obtain ⟨st1, e, h⟩ := bind_eq_ok.1 h
    obtain ⟨a1, a2, _⟩ := (parseStep_inv (shape := shape) (bd := bd) (i := i) (hc c (by simp)) h1 h2).2 st1 e
    have key : i < st.labels.length ∧ st1.labels.length = st.labels.length := by
      unfold parseStep at e
      rw [if_neg (by simp [h1]), if_pos (hc c (by simp)), if_neg (by simp [h2])] at e
      obtain ⟨_, _, e⟩ := bind_eq_ok.1 e
      obtain ⟨r, er, e⟩ := bind_eq_ok.1 e
      obtain ⟨_, _, e⟩ := bind_eq_ok.1 e
      obtain ⟨_, _, e⟩ := bind_eq_ok.1 e
      cases e
      unfold placeLabel at er
      split at er
      · obtain ⟨l, el, er⟩ := bind_eq_ok.1 er
        cases er
        exact setChecked_ok el
      · obtain ⟨l, el, er⟩ := bind_eq_ok.1 er
        cases er
        exact setChecked_ok el
    have ih := parseLoop_fits (fun d hd => hc d (by simp [hd])) a1 a2 h
    cases k with
    | zero => simpa using key.1
    | succ k =>
      have := ih k (by simpa using hk)
      omega

theorem parseOperand_fits {cs : List Char} {shape : List Nat} {t : Tables} (hc : ∀ c ∈ cs, c.isAlpha = true)
    {r : List Int × Tables × Nat} (h : parseOperand cs shape t = .ok r) : cs.length ≤ maxDims := by
  obtain ⟨_, _, h⟩ := bind_eq_ok.1 h
  obtain ⟨_, _, h⟩ := bind_eq_ok.1 h
  obtain ⟨st, h1, _⟩ := bind_eq_ok.1 h
  have := parseLoop_fits hc rfl rfl h1
  by_contra hn
  have := this (cs.length - 1) (by omega)
  simp only [List.length_replicate] at this
  omega

theorem parseOperands_fits : ∀ {ts : List (List Char × List Nat)} {t : Tables} {bd : Nat} {r : List (List Int) × Tables × Nat},
    (∀ p ∈ ts, ∀ c ∈ p.1, c.isAlpha = true) → parseOperands (ts.map (·.1)) (ts.map (·.2)) t bd = .ok r →
    ∀ p ∈ ts, p.1.length ≤ maxDims
  | [], _, _, _, _, _ => fun p hp => by simp at hp
  | q :: ts, t, bd, r, hc, h => fun p hp => by
    obtain ⟨_, h1, h⟩ := bind_eq_ok.1 h
    obtain ⟨_, h2, _⟩ := bind_eq_ok.1 h
    rcases List.mem_cons.1 hp with rfl | hp
    · exact parseOperand_fits (hc _ (by simp)) h1
    · exact parseOperands_fits (fun p hp => hc p (by simp [hp])) h2 p hp

theorem parseOutLoop_fits {counts : Nat → Nat} : ∀ {cs : List Char} {i : Nat} {labels : List Int} {r : List Int × Bool},
    (∀ c ∈ cs, c.isAlpha = true) → parseOutLoop 0 counts i cs labels false false = .ok r → ∀ k, k < cs.length → i + k < labels.length
  | [], _, _, _, _, _ => fun k hk => by simp at hk
  | c :: cs, i, labels, r, hc, h => fun k hk => by
    unfold parseOutLoop at h
    rw [if_neg (by simp), if_pos (hc c (by simp)), if_neg (by simp)] at h
    obtain ⟨_, _, h⟩ := bind_eq_ok.1 h
    obtain ⟨_, _, h⟩ := bind_eq_ok.1 h
    obtain ⟨l, el, h⟩ := bind_eq_ok.1 h
    have hs := setChecked_ok el
    cases k with
    | zero => simpa using hs.1
    | succ k =>
      have := parseOutLoop_fits (fun d hd => hc d (by simp [hd])) h k (by simpa using hk)
      omega

theorem parseOutput_fits {counts : Nat → Nat} {cs : List Char} (hc : ∀ c ∈ cs, c.isAlpha = true) {r : List Int × Nat}
    (h : parseOutput cs 0 counts = .ok r) : cs.length ≤ maxDims := by
  obtain ⟨_, _, h⟩ := bind_eq_ok.1 h
  obtain ⟨_, h1, _⟩ := bind_eq_ok.1 h
  by_contra hn
  have := parseOutLoop_fits hc h1 (cs.length - 1) (by omega)
  simp only [List.length_replicate] at this
  omega

/-! ### the theorems -/

section
variable [CommSemiring α] {K : SopKernels α} {ops : List (Arr α)} {fs : List (Factor α)} {out rest : List Char}
  {dim : Char → Nat}

/-- **C28, refusals.** Extents may be 0. -/
theorem C28_refused (hw : Subscripts fs out rest)
    (hd : List.Forall₂ (fun a f => a.Denotes (f.letters.map dim) f.elem) ops fs)
    (hbad : 16 ≤ ops.length ∨ (∃ f ∈ fs, 32 < f.letters.length) ∨ 32 < (out ++ rest).length ∨ out ++ rest = []) :
    einsum K ops (fs.map (·.letters)) out = .error .panic := by
  by_cases hnil : out ++ rest = []
  · have hl : ∀ f ∈ fs, f.letters = [] := fun f hf => by
      by_contra hne
      obtain ⟨c, hc⟩ := List.exists_mem_of_ne_nil _ hne
      have ho : c ∉ out := by rw [(List.append_eq_nil_iff.1 hnil).1]; simp
      have := (hw.rest_mem c).2 ⟨⟨f, hf, hc⟩, ho⟩
      rw [(List.append_eq_nil_iff.1 hnil).2] at this
      cases this
    have e1 : fs.map (·.letters) = ops.map fun _ => [] := by
      rw [List.map_congr_left (g := fun _ => []) hl]
      rw [List.map_const', List.map_const', hd.length_eq]
    rw [e1, (List.append_eq_nil_iff.1 hnil).1]
    refine C28_letterless fun a ha => ?_
    obtain ⟨k, hk⟩ := List.mem_iff_getElem?.1 ha
    obtain ⟨hk', rfl⟩ := List.getElem?_eq_some_iff.1 hk
    have hk2 : k < fs.length := hd.length_eq ▸ hk'
    have h := hd.get hk' hk2
    simp only [List.get_eq_getElem] at h
    have e := hl fs[k] (List.getElem_mem hk2)
    rw [e] at h
    refine ⟨fs[k].elem [], h.1, h.2.1, fun idx hi => ?_⟩
    have := h.2.2 idx hi
    match idx, hi with
    | [], _ => exact this
  suffices hp : prepareEinsum ops (fs.map (·.letters)) out = .error .panic by unfold einsum; rw [hp]; rfl
  obtain ⟨ts, rfl, rfl, hts⟩ := forall2_terms hd
  by_cases hargs : (ts.map (·.1)).length < maxArgs
  swap
  · unfold prepareEinsum
    rw [assert_fail (decide_eq_false hargs)]
    rfl
  have halpha : ∀ t ∈ ts, ∀ c ∈ t.2.letters, c.isAlpha = true := fun t ht => hw.alpha t.2 (List.mem_map.2 ⟨t, ht, rfl⟩)
  have hout : ∀ c ∈ out, c.isAlpha = true := fun c hc => by
    obtain ⟨f, hf, hcf⟩ := hw.out_mem c hc
    exact hw.alpha f hf c hcf
  unfold prepareEinsum
  rw [assert_ok (decide_eq_true hargs)]
  simp only [ok_bind, List.map_map]
  have e1 : ts.map ((fun f : Factor α => f.letters) ∘ fun x => x.2) = (ts.map fun t => (t.2.letters, t.1.shape)).map (·.1) := by
    rw [List.map_map]; rfl
  have e2 : ts.map ((fun a : Arr α => a.shape) ∘ fun x => x.1) = (ts.map fun t => (t.2.letters, t.1.shape)).map (·.2) := by
    rw [List.map_map]; rfl
  have hpo := parseOperands_inv (ts := ts.map fun t => (t.2.letters, t.1.shape)) (t := Tables.empty) (by
    intro q hq
    obtain ⟨t, ht, rfl⟩ := List.mem_map.1 hq
    exact halpha t ht)
  by_cases hdims : ∀ t ∈ ts, t.2.letters.length ≤ maxDims
  swap
  · rw [e1, e2, hpo.1.eq_panic]
    · rfl
    · intro r hr
      refine hdims fun t ht => ?_
      exact parseOperands_fits (by
        intro q hq
        obtain ⟨t, ht, rfl⟩ := List.mem_map.1 hq
        exact halpha t ht) hr (t.2.letters, t.1.shape) (List.mem_map.2 ⟨t, ht, rfl⟩)
  have htot : 32 < (out ++ rest).length := by
    rcases hbad with h | ⟨f, hf, h⟩ | h | h
    · exact absurd hargs (by simpa [maxArgs] using h)
    · obtain ⟨t, ht, rfl⟩ := List.mem_map.1 hf
      exact absurd (hdims t ht) (by simpa [maxDims] using h)
    · exact h
    · exact absurd h hnil
  obtain ⟨t', et, htab⟩ := parseOperands_ok (dim := fun l => dim (Char.ofNat l)) (subs := ts.map (·.2.letters)) (seen := [])
    (t := Tables.empty) (by
      intro cs hcs
      obtain ⟨t, ht, rfl⟩ := List.mem_map.1 hcs
      exact ⟨halpha t ht, hdims t ht⟩) (tablesOK_empty _)
  have eshape : (ts.map (·.2.letters)).map (fun cs => (codes cs).map fun l => dim (Char.ofNat l)) =
      ts.map ((fun a : Arr α => a.shape) ∘ fun x => x.1) := by
    rw [List.map_map]
    refine List.map_congr_left fun t ht => ?_
    simp only [Function.comp]
    rw [(hts t ht).1]
    simp [codes, Function.comp_def]
  rw [eshape] at et
  rw [show ts.map ((fun f : Factor α => f.letters) ∘ fun x => x.2) = ts.map (·.2.letters) from rfl, et]
  simp only [ok_bind]
  have hcount : ∀ l, t'.counts l = ((ts.map (·.2.letters)).flatMap codes).count l := fun l => by
    rw [htab.counts l, List.nil_append]
  have hmem : ∀ c : Char, t'.counts c.toNat ≠ 0 ↔ ∃ t ∈ ts, c ∈ t.2.letters := fun c => by
    rw [hcount, Nat.ne_zero_iff_zero_lt, List.count_pos_iff, List.mem_flatMap]
    constructor
    · rintro ⟨cs, hcs, hc⟩
      obtain ⟨t, ht, rfl⟩ := List.mem_map.1 hcs
      exact ⟨t, ht, mem_codes.1 hc⟩
    · rintro ⟨t, ht, hc⟩
      exact ⟨_, List.mem_map.2 ⟨t, ht, rfl⟩, mem_codes.2 hc⟩
  have hpout := parseOutput_inv (counts := t'.counts) hout
  by_cases hol : out.length ≤ maxDims
  swap
  · rw [hpout.1.eq_panic fun r hr => hol (parseOutput_fits hout hr)]
    rfl
  rw [parseOutput_ok hout (fun c hc => by
    obtain ⟨f, hf, hcf⟩ := hw.out_mem c hc
    obtain ⟨t, ht, rfl⟩ := List.mem_map.1 hf
    exact (hmem c).2 ⟨t, ht, hcf⟩) (List.nodup_append.1 hw.nodup).1 hol]
  simp only [ok_bind]
  rw [assert_ok (decide_eq_true hol)]
  simp only [ok_bind]
  have etake : ((codes out).map Int.ofNat ++ List.replicate (maxDims - out.length) 0).take out.length = (codes out).map Int.ofNat := by
    rw [List.take_append_of_le_length (by simp [codes]), List.take_of_length_le (by simp [codes])]
  rw [etake]
  rcases okOrPanic_warnCheck (ts.map (·.1)) ((ts.map (·.2.letters)).map fun cs => labelList (codes cs)) out.length
    ((codes out).map Int.ofNat) with ⟨w, e⟩ | e
  swap
  · rw [e]; rfl
  rw [e]
  simp only [ok_bind]
  unfold buildPlan
  rcases okOrPanic_mapM (f := fun p : Arr α × List Int => combineOperand p.1.shape p.1.stride p.2)
    (l := (ts.map (·.1)).zip ((ts.map (·.2.letters)).map fun cs => labelList (codes cs)))
    (fun p _ => okOrPanic_combineOperand _ _ _) with ⟨w, e⟩ | e
  swap
  · rw [e]; rfl
  rw [e]
  simp only [ok_bind]
  have hrest : rest.length ≤ (sumLabels t'.counts ((codes out).map Int.ofNat)).length := by
    have hn : (codes rest).Nodup := nodup_codes (List.nodup_append.1 hw.nodup).2.1
    have hsub : codes rest ⊆ sumLabels t'.counts ((codes out).map Int.ofNat) := by
      intro l hl
      obtain ⟨c, hc, rfl⟩ := List.mem_map.1 hl
      obtain ⟨⟨f, hf, hcf⟩, ho⟩ := (hw.rest_mem c).1 hc
      obtain ⟨t, ht, rfl⟩ := List.mem_map.1 hf
      have ha := halpha t ht c hcf
      refine List.mem_filter.2 ⟨List.mem_range.2 ?_, ?_⟩
      · have := all_ascii (cs := [c]) (by simpa using ha)
        simpa using this
      · simp only [Bool.and_eq_true, decide_eq_true_eq, Bool.not_eq_true', List.contains_eq_mem, decide_eq_false_iff_not]
        refine ⟨(hmem c).2 ⟨t, ht, hcf⟩, fun hmm => ho ?_⟩
        obtain ⟨x, hx, hxe⟩ := List.mem_map.1 hmm
        have : x = c.toNat := by simpa using hxe
        exact mem_codes.1 (this ▸ hx)
    have := (hn.subperm hsub).length_le
    simpa [codes] using this
  rw [assert_fail (decide_eq_false _)]
  · rfl
  · simp only [List.length_append] at htot
    simp only [List.length_map, codes, maxDims]
    simp only [codes] at hrest
    omega

/-- **C28, exactly.** Of the well-formed requests without extents 0, einsum answers those with fewer than 16 operands, at most 32
letters in every subscript, at most 32 different letters and at least one letter, with the array of the Einstein sum, and refuses the
others. -/
theorem C28_exact (hK : K.Correct) (hw : WellFormed fs out rest dim)
    (hd : List.Forall₂ (fun a f => a.Denotes (f.letters.map dim) f.elem) ops fs) :
    ((∃ r, einsum K ops (fs.map (·.letters)) out = .ok r ∧ r.Denotes (out.map dim) (einsteinSum out rest dim fs)) ∧
        ops.length < 16 ∧ (∀ f ∈ fs, f.letters.length ≤ 32) ∧ (out ++ rest).length ≤ 32 ∧ out ++ rest ≠ []) ∨
      (einsum K ops (fs.map (·.letters)) out = .error .panic ∧
        (16 ≤ ops.length ∨ (∃ f ∈ fs, 32 < f.letters.length) ∨ 32 < (out ++ rest).length ∨ out ++ rest = [])) := by
  by_cases h : 16 ≤ ops.length ∨ (∃ f ∈ fs, 32 < f.letters.length) ∨ 32 < (out ++ rest).length ∨ out ++ rest = []
  · exact .inr ⟨C28_refused hw.subscripts hd h, h⟩
  · simp only [not_or, not_exists, not_and, not_le, not_lt] at h
    exact .inl ⟨C28_einsum_partial hK hw hd h.1 h.2.1 h.2.2.1 h.2.2.2, h⟩

end

/-- sixteen vectors, `"a,a,…,a->"` -/
example := C28_refused (α := Int) (K := portableSop) (ops := List.replicate 16 (Arr.fromContiguousOwnedBuffer [2] [1, 2]))
  (fs := List.replicate 16 ⟨['a'], fun i => i.getD 0 0 + 1⟩) (out := []) (rest := ['a']) (dim := fun _ => 2)
  ⟨by simp, by decide, by simp, by simp [List.mem_replicate]⟩
  (List.forall₂_iff_get.2 ⟨by simp, fun k h1 h2 => by
    simp only [List.get_eq_getElem, List.getElem_replicate]
    exact denotes_fromContiguous (s := [2]) (f := fun i => ((i.getD 0 0 : Nat) : Int) + 1)⟩) (.inl (by simp))

/-- two operands with 17 letters each, all different -/
example := C28_refused (α := Int) (K := portableSop) (ops := List.replicate 2 (Arr.fromContiguousOwnedBuffer (List.replicate 17 1) [5]))
  (fs := [⟨"abcdefghijklmnopq".toList, fun _ => 5⟩, ⟨"ABCDEFGHIJKLMNOPQ".toList, fun _ => 5⟩]) (out := [])
  (rest := "abcdefghijklmnopqABCDEFGHIJKLMNOPQ".toList) (dim := fun _ => 1)
  ⟨by decide, by decide, by simp, fun c => by
    simp only [List.mem_cons, List.not_mem_nil, or_false, exists_eq_or_imp, exists_eq_left, not_false_iff, and_true]
    rw [show "abcdefghijklmnopqABCDEFGHIJKLMNOPQ".toList = "abcdefghijklmnopq".toList ++ "ABCDEFGHIJKLMNOPQ".toList by decide,
      List.mem_append]⟩
  (.cons (denotes_fromContiguous (s := List.replicate 17 1) (f := fun _ => 5))
    (.cons (denotes_fromContiguous (s := List.replicate 17 1) (f := fun _ => 5)) .nil)) (.inr (.inr (.inl (by decide))))

example := C28_exact portableSop_correct (ein_wellFormed (fun i => (i.headD 0 : Int)) fun i => i.headD 0)
  (.cons (denotes_fromContiguous (s := [2, 3])) (.cons (denotes_fromContiguous (s := [3, 2])) .nil))

end Verif
