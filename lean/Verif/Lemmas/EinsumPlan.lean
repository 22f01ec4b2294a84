import Verif.Lemmas.EinsumParse
import Verif.Lemmas.EinsumRun
import Mathlib.Tactic.Ring

/-! Lemmas: the iteration plan of einsum. -/

namespace Verif

variable {α : Type}

/-- sum of the strides of the axes labelled `l` -/
def strideSum : List Nat → List Nat → Nat → Nat
  | c :: cs, d :: ds, l => (if c = l then d else 0) + strideSum cs ds l
  | _, _, _ => 0

theorem strideSum_append {cs ds : List Nat} (h : cs.length = ds.length) (cs' ds' : List Nat) (l : Nat) :
    strideSum (cs ++ cs') (ds ++ ds') l = strideSum cs ds l + strideSum cs' ds' l := by
  induction cs generalizing ds with
  | nil => cases ds with
    | nil => simp [strideSum]
    | cons => simp at h
  | cons c cs ih => cases ds with
    | nil => simp at h
    | cons d ds => simp [strideSum, ih (by simpa using h), Nat.add_assoc]

theorem strideSum_notMem {cs ds : List Nat} {l : Nat} (h : l ∉ cs) : strideSum cs ds l = 0 := by
  induction cs generalizing ds with
  | nil => simp [strideSum]
  | cons c cs ih => cases ds with
    | nil => simp [strideSum]
    | cons d ds =>
      simp at h
      simp [strideSum, ih h.2, Ne.symm h.1]

theorem strideSum_modify {ls st : List Nat} (hn : ls.Nodup) (hl : st.length = ls.length) {c : Nat} (hc : c ∈ ls)
    (d l : Nat) : strideSum ls (st.modify (ls.idxOf c) (· + d)) l = strideSum ls st l + if c = l then d else 0 := by
  induction ls generalizing st with
  | nil => simp at hc
  | cons x ls ih => cases st with
    | nil => simp at hl
    | cons y st =>
      have hx := List.nodup_cons.1 hn
      by_cases e : x = c
      · subst e
        simp [strideSum]
        split <;> omega
      · have hc' : c ∈ ls := by
          rcases List.mem_cons.1 hc with h | h
          · exact (e h.symm).elim
          · exact h
        rw [List.idxOf_cons_ne _ e]
        simp only [List.modify_succ_cons, strideSum, ih hx.2 (by simpa using hl) hc']
        omega

theorem labelList_getElem? {cs : List Nat} {a c : Nat} (h : cs[a]? = some c) :
    (labelList cs)[a]? = some (if cs.idxOf c = a then (c : Int) else (cs.idxOf c : Int) - a) := by
  have ha : a < cs.length := (List.getElem?_eq_some_iff.1 h).1
  rw [labelList, List.getElem?_append_left (by simpa using ha)]
  have e : cs[a] = c := (List.getElem?_eq_some_iff.1 h).2
  simp [labelOf, h, ha, e]

theorem length_labelList {cs : List Nat} (h : cs.length ≤ maxDims) : (labelList cs).length = maxDims := by
  simp [labelList]; omega

theorem getElem?_idxOf {cs : List Nat} {c : Nat} (h : c ∈ cs) : cs[cs.idxOf c]? = some c := by
  have := List.idxOf_lt_length_iff.2 h
  rw [List.getElem?_eq_getElem this]
  simp

theorem idxOf_le {cs : List Nat} {a c : Nat} (h : cs[a]? = some c) : cs.idxOf c ≤ a := by
  induction cs generalizing a with
  | nil => simp at h
  | cons x cs ih =>
    by_cases e : x = c
    · simp [e]
    · cases a with
      | zero => simp at h; exact (e h).elim
      | succ a =>
        rw [List.idxOf_cons_ne _ e]
        exact Nat.succ_le_succ (ih (by simpa using h))

theorem resolveLabel_ok {cs : List Nat} {a c : Nat} (h : cs[a]? = some c) :
    resolveLabel (labelList cs) a = .ok (c : Int) := by
  have hle := idxOf_le h
  have hm : c ∈ cs := List.mem_of_getElem? h
  simp only [resolveLabel, getChecked, labelList_getElem? h]
  by_cases e : cs.idxOf c = a
  · rw [if_pos e]
    simp only [bind, Except.bind]
    rw [if_neg (by omega)]
    rfl
  · rw [if_neg e]
    show (if (cs.idxOf c : Int) - a < 0 then _ else _) = _
    rw [if_pos (by omega)]
    have e2 : ((a : Int) + ((cs.idxOf c : Int) - a)).toNat = cs.idxOf c := by omega
    rw [e2, labelList_getElem? (getElem?_idxOf hm), if_pos rfl]

theorem position_ok (O : List Nat) (l : Nat) :
    position (O.map Int.ofNat) (l : Int) = if l ∈ O then some (O.idxOf l) else none := by
  induction O with
  | nil => rfl
  | cons x O ih =>
    simp only [position, List.map_cons, List.findIdx?_cons] at ih ⊢
    by_cases e : x = l
    · subst e; simp
    · have e' : (Int.ofNat x == (l : Int)) = false := by
        simp only [Int.ofNat_eq_natCast, beq_eq_false_iff_ne, ne_eq, Nat.cast_inj]
        exact e
      rw [e', ih, List.idxOf_cons_ne _ e]
      simp only [Bool.false_eq_true, if_false]
      by_cases hm : l ∈ O <;> simp [hm, Ne.symm e]

theorem map_set_idxOf {β : Type} {O : List Nat} (hn : O.Nodup) {l : Nat} (h : l ∈ O) (g : Nat → β) (v : β) :
    (O.map g).set (O.idxOf l) v = O.map (fun x => if x = l then v else g x) := by
  induction O with
  | nil => simp at h
  | cons x O ih =>
    have hx := List.nodup_cons.1 hn
    by_cases e : x = l
    · subst e
      simp only [List.idxOf_cons_self, List.map_cons, List.set_cons_zero, if_true]
      congr 1
      apply List.map_congr_left
      intro y hy
      rw [if_neg]
      rintro rfl
      exact hx.1 hy
    · have hm : l ∈ O := by
        rcases List.mem_cons.1 h with h | h
        · exact (e h.symm).elim
        · exact h
      rw [List.idxOf_cons_ne _ e]
      simp [ih hx.2 hm, e]

theorem map_modify_idxOf {β : Type} {O : List Nat} (hn : O.Nodup) {l : Nat} (h : l ∈ O) (g : Nat → β) (f : β → β) :
    (O.map g).modify (O.idxOf l) f = O.map (fun x => if x = l then f (g x) else g x) := by
  induction O with
  | nil => simp at h
  | cons x O ih =>
    have hx := List.nodup_cons.1 hn
    by_cases e : x = l
    · subst e
      simp only [List.idxOf_cons_self, List.map_cons, List.modify_zero_cons, if_true]
      congr 1
      apply List.map_congr_left
      intro y hy
      rw [if_neg]
      rintro rfl
      exact hx.1 hy
    · have hm : l ∈ O := by
        rcases List.mem_cons.1 h with h | h
        · exact (e h.symm).elim
        · exact h
      rw [List.idxOf_cons_ne _ e]
      simp [ih hx.2 hm, e]

/-! ### einsum_view -/

theorem viewLoop_ok {cs O : List Nat} {dim : Nat → Nat} (hO : O.Nodup) (hpos : ∀ c ∈ cs, 0 < c) :
    ∀ {post pre st st' : List Nat}, cs = pre ++ post → st.length = pre.length → st'.length = post.length →
    viewLoop (labelList cs) (O.map Int.ofNat) pre.length (post.map dim) st'
        (O.map fun l => if l ∈ pre then dim l else 0) (O.map (strideSum pre st)) =
      .ok (if ∀ l ∈ post, l ∈ O then
        some (O.map (fun l => if l ∈ cs then dim l else 0), O.map (strideSum cs (st ++ st'))) else none) := by
  intro post
  induction post with
  | nil =>
    intro pre st st' h _ h'
    have : st' = [] := by simpa using h'
    subst this
    simp [viewLoop, h]
  | cons c post ih =>
    intro pre st st' h hst hst'
    cases st' with
    | nil => simp at hst'
    | cons d st' =>
      have hc : cs[pre.length]? = some c := by simp [h]
      simp only [List.map_cons, viewLoop, resolveLabel_ok hc]
      show (if (c : Int) = 0 then _ else _) = _
      have := hpos c (List.mem_of_getElem? hc)
      rw [if_neg (by omega), position_ok]
      by_cases hm : c ∈ O
      · rw [if_pos hm]
        simp only
        have e1 : (O.map fun l => if l ∈ pre then dim l else 0).set (O.idxOf c) (dim c) =
            O.map fun l => if l ∈ pre ++ [c] then dim l else 0 := by
          rw [map_set_idxOf hO hm]
          apply List.map_congr_left
          intro l _
          by_cases e : l = c
          · simp [e]
          · simp [e]
        have e2 : (O.map (strideSum pre st)).modify (O.idxOf c) (· + d) = O.map (strideSum (pre ++ [c]) (st ++ [d])) := by
          rw [map_modify_idxOf hO hm]
          apply List.map_congr_left
          intro l _
          rw [strideSum_append hst.symm]
          by_cases e : l = c
          · simp [strideSum, e]
          · simp [strideSum, e, Ne.symm e]
        rw [e1, e2]
        have := ih (pre := pre ++ [c]) (st := st ++ [d]) (st' := st') (by simp [h]) (by simp [hst]) (by simpa using hst')
        simp only [List.length_append, List.length_singleton, List.append_assoc, List.singleton_append] at this
        rw [this]
        simp [hm]
      · rw [if_neg hm]
        simp [hm]

theorem viewLayout_ok {cs O stride : List Nat} {dim : Nat → Nat} (hO : O.Nodup) (hpos : ∀ c ∈ cs, 0 < c)
    (hs : stride.length = cs.length) :
    viewLayout (cs.map dim) stride (labelList cs) O.length (O.map Int.ofNat) =
      .ok (if ∀ l ∈ cs, l ∈ O then
        some (O.map (fun l => if l ∈ cs then dim l else 0), O.map (strideSum cs stride)) else none) := by
  have := viewLoop_ok (dim := dim) hO hpos (post := cs) (pre := []) (st := []) (st' := stride) (by simp) (by simp) hs
  simp only [List.length_nil, List.not_mem_nil, if_false, List.nil_append] at this
  rw [← this, viewLayout]
  congr 1 <;> · apply List.ext_getElem <;> simp [strideSum]

/-! ### combining repeated labels -/

theorem relabelLoop_append (cmap cmap' : List (Option Nat)) (a : Nat) (labels : List Int) :
    relabelLoop a (cmap ++ cmap') labels = relabelLoop a cmap labels >>= relabelLoop (a + cmap.length) cmap' := by
  induction cmap generalizing a labels with
  | nil => rfl
  | cons x cmap ih =>
    have e : a + (cmap.length + 1) = a + 1 + cmap.length := by omega
    cases x with
    | none => simp only [List.cons_append, relabelLoop, List.length_cons, e, ih]
    | some i =>
      simp only [List.cons_append, relabelLoop, List.length_cons, e]
      cases getChecked labels a with
      | error x => rfl
      | ok l =>
        show (setChecked labels i l >>= _) = (setChecked labels i l >>= _) >>= _
        cases setChecked labels i l with
        | error x => rfl
        | ok labels' => exact ih _ _

/-- invariant of the two loops after the axes labelled `pre` -/
structure CombineInv (labels : List Int) (dim : Nat → Nat) (pre st : List Nat) (cmap : List (Option Nat))
    (shape' stride' ls : List Nat) : Prop where
  cmap_len : cmap.length = pre.length
  cmap_get : ∀ l ∈ pre, cmap[pre.idxOf l]? = some (some (ls.idxOf l))
  nodup : ls.Nodup
  mem : ∀ l, l ∈ ls ↔ l ∈ pre
  shape : shape' = ls.map dim
  len : stride'.length = ls.length
  le : ls.length ≤ pre.length
  sum : ∀ l, strideSum ls stride' l = strideSum pre st l
  relabel : ∃ labels', relabelLoop 0 cmap labels = .ok labels' ∧ labels'.length = labels.length ∧
    labels'.take ls.length = ls.map Int.ofNat ∧ ∀ b, pre.length ≤ b → labels'[b]? = labels[b]?

theorem combineLoop_ok {cs : List Nat} {dim : Nat → Nat} (hcs : cs.length ≤ maxDims) :
    ∀ {post pre st st' shape' stride' ls : List Nat} {cmap : List (Option Nat)}, cs = pre ++ post →
    st.length = pre.length → st'.length = post.length →
    CombineInv (labelList cs) dim pre st cmap shape' stride' ls →
    ∃ cmap' shape'' stride'' ls', combineLoop (labelList cs) pre.length (post.map dim) st' cmap shape' stride' =
        .ok (cmap', shape'', stride'') ∧
      CombineInv (labelList cs) dim cs (st ++ st') cmap' shape'' stride'' ls' := by
  intro post
  induction post with
  | nil =>
    intro pre st st' shape' stride' ls cmap h hst hst' inv
    have : st' = [] := by simpa using hst'
    subst this
    have : cs = pre := by simpa using h
    subst this
    exact ⟨cmap, shape', stride', ls, rfl, by simpa using inv⟩
  | cons c post ih =>
    intro pre st st' shape' stride' ls cmap h hst hst' inv
    cases st' with
    | nil => simp at hst'
    | cons d st' =>
      have hc : cs[pre.length]? = some c := by simp [h]
      have hlen : (labelList cs).length = maxDims := length_labelList hcs
      have hplt : pre.length < cs.length := (List.getElem?_eq_some_iff.1 hc).1
      have hsum : ∀ l, strideSum (pre ++ [c]) (st ++ [d]) l = strideSum pre st l + if c = l then d else 0 := by
        intro l; rw [strideSum_append hst.symm]; simp [strideSum]
      obtain ⟨labels', r1, r2, r3, r4⟩ := inv.relabel
      have hget := labelList_getElem? hc
      simp only [List.map_cons, combineLoop, getChecked, hget]
      by_cases hm : c ∈ pre
      · -- repeated label
        have hi : cs.idxOf c = pre.idxOf c := by rw [h, List.idxOf_append_of_mem hm]
        have hlt : pre.idxOf c < pre.length := List.idxOf_lt_length_iff.2 hm
        rw [hi, if_neg (by omega)]
        show ∃ cmap' shape'' stride'' ls', (if 0 ≤ (pre.idxOf c : Int) - pre.length then _ else _) = _ ∧ _
        rw [if_neg (by omega)]
        have e : ((pre.length : Int) + ((pre.idxOf c : Int) - pre.length)).toNat = pre.idxOf c := by omega
        rw [e, inv.cmap_get c hm]
        have hml : c ∈ ls := (inv.mem c).2 hm
        have hsh : shape'[ls.idxOf c]? = some (dim c) := by rw [inv.shape]; simp [getElem?_idxOf hml]
        simp only [hsh]
        show ∃ cmap' shape'' stride'' ls', (if dim c ≠ dim c then _ else _) = _ ∧ _
        rw [if_neg (by simp)]
        have inv' : CombineInv (labelList cs) dim (pre ++ [c]) (st ++ [d]) (cmap ++ [none]) shape'
            (stride'.modify (ls.idxOf c) (· + d)) ls := by
          refine ⟨by simp [inv.cmap_len], ?_, inv.nodup, ?_, inv.shape, by simp [inv.len], ?_, ?_, ?_⟩
          · intro l hl
            have hl' : l ∈ pre := by
              rcases List.mem_append.1 hl with h | h
              · exact h
              · rw [List.mem_singleton.1 h]; exact hm
            rw [List.idxOf_append_of_mem hl', List.getElem?_append_left
              (by rw [inv.cmap_len]; exact List.idxOf_lt_length_iff.2 hl')]
            exact inv.cmap_get l hl'
          · intro l
            rw [inv.mem, List.mem_append, List.mem_singleton]
            constructor
            · exact Or.inl
            · rintro (h | h)
              · exact h
              · rw [h]; exact hm
          · have := inv.le; simp; omega
          · intro l
            rw [strideSum_modify inv.nodup inv.len hml, inv.sum, hsum]
          · refine ⟨labels', ?_, r2, r3, ?_⟩
            · rw [relabelLoop_append, r1]; rfl
            · intro b hb; exact r4 b (by simp at hb; omega)
        have := ih (pre := pre ++ [c]) (st := st ++ [d]) (st' := st') (by simp [h]) (by simp [hst]) (by simpa using hst') inv'
        simpa only [List.length_append, List.length_singleton, List.append_assoc, List.singleton_append] using this
      · -- new label
        have hi : cs.idxOf c = pre.length := by rw [h]; exact idxOf_append_new hm _
        rw [hi, if_pos rfl]
        simp only [bind, Except.bind]
        rw [if_pos (by omega)]
        have hnl : c ∉ ls := fun h => hm ((inv.mem c).1 h)
        have hlsh : shape'.length = ls.length := by rw [inv.shape]; simp
        have inv' : CombineInv (labelList cs) dim (pre ++ [c]) (st ++ [d]) (cmap ++ [some shape'.length])
            (shape' ++ [dim c]) (stride' ++ [d]) (ls ++ [c]) := by
          refine ⟨by simp [inv.cmap_len], ?_, ?_, ?_, by simp [inv.shape], by simp [inv.len], ?_, ?_, ?_⟩
          · intro l hl
            by_cases hl' : l ∈ pre
            · rw [List.idxOf_append_of_mem hl', List.getElem?_append_left
                (by rw [inv.cmap_len]; exact List.idxOf_lt_length_iff.2 hl'),
                List.idxOf_append_of_mem ((inv.mem l).2 hl')]
              exact inv.cmap_get l hl'
            · have : l = c := by
                rcases List.mem_append.1 hl with h | h
                · exact (hl' h).elim
                · exact List.mem_singleton.1 h
              subst this
              rw [idxOf_append_new hm [], idxOf_append_new hnl [], ← inv.cmap_len, hlsh]
              simp
          · exact List.nodup_append.2 ⟨inv.nodup, by simp, by
              intro a ha b hb
              rw [List.mem_singleton.1 hb]
              rintro rfl
              exact hnl ha⟩
          · intro l; simp [inv.mem]
          · have := inv.le; simp; omega
          · intro l
            rw [strideSum_append inv.len.symm, inv.sum, hsum]
            simp [strideSum]
          · have hle := inv.le
            have hlt : ls.length < labels'.length := by rw [r2, hlen]; omega
            refine ⟨labels'.set ls.length (c : Int), ?_, by simp [r2], ?_, ?_⟩
            · rw [relabelLoop_append, r1]
              show relabelLoop (0 + cmap.length) [some shape'.length] labels' = _
              simp only [relabelLoop, inv.cmap_len, Nat.zero_add, getChecked, r4 pre.length (Nat.le_refl _), hget, hi, if_true]
              show (setChecked labels' shape'.length (c : Int) >>= fun l => Except.ok l) = _
              rw [hlsh, setChecked, if_pos hlt]
              rfl
            · rw [List.length_append, List.length_singleton, List.take_add_one, List.take_set,
                List.set_eq_of_length_le (by simp), r3, List.getElem?_set_self hlt]
              simp
            · intro b hb
              simp only [List.length_append, List.length_singleton] at hb
              rw [List.getElem?_set_ne (by omega)]
              exact r4 b (by omega)
        have := ih (pre := pre ++ [c]) (st := st ++ [d]) (st' := st') (by simp [h]) (by simp [hst]) (by simpa using hst') inv'
        simpa only [List.length_append, List.length_singleton, List.append_assoc, List.singleton_append] using this

theorem combineOperand_ok {cs stride : List Nat} {dim : Nat → Nat} (hcs : cs.length ≤ maxDims)
    (hs : stride.length = cs.length) :
    ∃ shape' stride' labels' ls, combineOperand (cs.map dim) stride (labelList cs) = .ok (shape', stride', labels') ∧
      stride'.length = ls.length ∧ labels'.take ls.length = ls.map Int.ofNat ∧
      ∀ l, strideSum ls stride' l = strideSum cs stride l := by
  unfold combineOperand
  split
  · next hall =>
    refine ⟨cs.map dim, stride, labelList cs, cs, rfl, hs, ?_, fun _ => rfl⟩
    apply List.ext_getElem?
    intro a
    by_cases ha : a < cs.length
    · rw [List.getElem?_take_of_lt ha]
      have hc : cs[a]? = some cs[a] := List.getElem?_eq_getElem ha
      rw [labelList_getElem? hc]
      have hle := idxOf_le hc
      rw [List.all_eq_true] at hall
      have := hall _ (List.mem_of_getElem? (labelList_getElem? hc))
      simp only [decide_eq_true_eq] at this
      split at this
      · next e => rw [if_pos e]; simp [hc]
      · next e => omega
    · rw [List.getElem?_eq_none (by simp; omega), List.getElem?_eq_none (by simp; omega)]
  · have inv : CombineInv (labelList cs) dim [] [] [] [] [] [] :=
      ⟨rfl, fun l h => by simp at h, by simp, by simp, rfl, rfl, by simp, fun l => rfl,
        ⟨labelList cs, rfl, rfl, by simp, fun b _ => rfl⟩⟩
    obtain ⟨cmap, shape', stride', ls, e, inv'⟩ := combineLoop_ok hcs (post := cs) (pre := []) (st := []) (st' := stride)
      (by simp) rfl hs inv
    obtain ⟨labels', r1, _, r3, _⟩ := inv'.relabel
    refine ⟨shape', stride', labels', ls, ?_, inv'.len, r3, inv'.sum⟩
    simp only [List.length_nil] at e
    rw [e]
    show (relabelLoop 0 cmap (labelList cs) >>= fun labels' => Except.ok (shape', stride', labels')) = _
    rw [r1]
    rfl

theorem labelStride_ok {labels : List Int} {label : Nat} : ∀ {ls stride : List Nat} {i acc : Nat},
    stride.length = ls.length → (∀ j < ls.length, labels[i + j]? = (ls[j]?).map Int.ofNat) →
    labelStride labels (label : Int) i stride acc = .ok (acc + strideSum ls stride label) := by
  intro ls
  induction ls with
  | nil =>
    intro stride i acc h _
    have : stride = [] := by simpa using h
    subst this
    simp [labelStride, strideSum]
  | cons l ls ih =>
    intro stride i acc h hl
    cases stride with
    | nil => simp at h
    | cons d stride =>
      have h0 := hl 0 (by simp)
      simp only [Nat.add_zero, List.getElem?_cons_zero, Option.map_some] at h0
      have hr : resolveLabel labels i = .ok (l : Int) := by
        simp only [resolveLabel, getChecked, h0]
        simp only [bind, Except.bind]
        rw [if_neg (by simp)]
        rfl
      simp only [labelStride, hr]
      show labelStride labels (label : Int) (i + 1) stride (if (label : Int) = (l : Int) then acc + d else acc) = _
      rw [ih (by simpa using h) (fun j hj => by
        have := hl (j + 1) (by simpa using hj)
        rw [show i + 1 + j = i + (j + 1) by omega, this]
        simp)]
      congr 1
      simp only [strideSum, Nat.cast_inj]
      by_cases e : label = l
      · simp [e, Nat.add_assoc]
      · simp [e, Ne.symm e]

theorem operandStride_ok {labels : List Int} {ls stride I : List Nat} (h : stride.length = ls.length)
    (hl : labels.take ls.length = ls.map Int.ofNat) (hI : ∀ l ∈ I, 0 < l) :
    operandStride stride labels (I.map Int.ofNat) = .ok (I.map (strideSum ls stride)) := by
  have key : ∀ j < ls.length, labels[0 + j]? = (ls[j]?).map Int.ofNat := by
    intro j hj
    rw [Nat.zero_add, ← List.getElem?_take_of_lt (l := labels) hj, hl]
    simp
  unfold operandStride
  rw [List.mapM_map]
  induction I with
  | nil => rfl
  | cons l I ih =>
    rw [List.mapM_cons]
    have hp := hI l (by simp)
    have e : (if Int.ofNat l = 0 then (Except.error Err.panic : Res Nat) else labelStride labels (Int.ofNat l) 0 stride 0) =
        .ok (strideSum ls stride l) := by
      rw [if_neg (by simp; omega)]
      have := labelStride_ok (label := l) (acc := 0) h key
      rw [Nat.zero_add] at this
      exact this
    simp only [Function.comp_apply, e] at ih ⊢
    rw [ih fun x hx => hI x (by simp [hx])]
    rfl

end Verif
