import Verif.Model.Einsum
import Verif.Lemmas.Basic
import Mathlib.Data.List.Nodup

/-! Lemmas: parsing of einsum subscripts that consist of letters. -/

namespace Verif

variable {α : Type}

theorem alpha_facts {c : Char} (h : c.isAlpha = true) : 0 < c.toNat ∧ c.toNat < 128 ∧ c.isAlphanum = true := by
  have h' := h
  simp only [Char.isAlpha, Char.isUpper, Char.isLower, Bool.or_eq_true, decide_eq_true_eq, Bool.and_eq_true,
    ge_iff_le, UInt32.le_iff_toNat_le] at h
  have e : c.val.toNat = c.toNat := rfl
  simp only [e] at h
  refine ⟨?_, ?_, by simp [Char.isAlphanum, h']⟩
  · rcases h with h | h
    · have : 65 ≤ c.toNat := h.1
      omega
    · have : 97 ≤ c.toNat := h.1
      omega
  · rcases h with h | h
    · have : c.toNat ≤ 90 := h.2
      omega
    · have : c.toNat ≤ 122 := h.2
      omega

theorem toNat_inj {c d : Char} (h : c.toNat = d.toNat) : c = d := by
  have := congrArg Char.ofNat h
  simpa using this

/-- codes of the letters -/
def codes (cs : List Char) : List Nat := cs.map Char.toNat

theorem mem_codes {cs : List Char} {c : Char} : c.toNat ∈ codes cs ↔ c ∈ cs := by
  simp only [codes, List.mem_map]
  constructor
  · rintro ⟨d, hd, e⟩
    rwa [← toNat_inj e]
  · exact fun h => ⟨c, h, rfl⟩

theorem nodup_codes {cs : List Char} (h : cs.Nodup) : (codes cs).Nodup :=
  List.Nodup.map (fun _ _ => toNat_inj) h

/-- the label the parser gives axis `a` -/
def labelOf (cs : List Nat) (a : Nat) : Int :=
  let c := cs.getD a 0
  if cs.idxOf c = a then (c : Int) else (cs.idxOf c : Int) - a

/-- the tables after parsing letters `seen` -/
structure TablesOK (t : Tables) (dim : Nat → Nat) (seen : List Nat) : Prop where
  counts : ∀ l, t.counts l = seen.count l
  dims : ∀ l ∈ seen, t.dims l = dim l

theorem tablesOK_empty (dim : Nat → Nat) : TablesOK Tables.empty dim [] :=
  ⟨fun _ => rfl, fun _ h => by simp at h⟩

/-- state of the parser after the letters `pre` -/
structure ParseOK (st : ParseState) (dim : Nat → Nat) (seen pre : List Nat) : Prop where
  ellipsis : st.ellipsis = false
  check : st.check = false
  first : ∀ l, st.first l = if l ∈ pre then some (pre.idxOf l) else none
  length : st.labels.length = maxDims
  labels : ∀ a < pre.length, st.labels[a]? = some (labelOf pre a)
  rest : ∀ a, pre.length ≤ a → a < maxDims → st.labels[a]? = some 0
  tables : TablesOK st.tables dim (seen ++ pre)

theorem idxOf_append_new {l : Nat} {pre : List Nat} (h : l ∉ pre) (post : List Nat) :
    (pre ++ l :: post).idxOf l = pre.length := by
  rw [List.idxOf_append_of_notMem h]; simp

theorem labelOf_append {pre : List Nat} {a : Nat} (h : a < pre.length) (post : List Nat) :
    labelOf (pre ++ post) a = labelOf pre a := by
  have e : (pre ++ post).getD a 0 = pre.getD a 0 := by
    simp [List.getD_eq_getElem?_getD, List.getElem?_append_left h]
  have hm : pre.getD a 0 ∈ pre := by
    simp [List.getD_eq_getElem?_getD, List.getElem?_eq_getElem h]
  simp only [labelOf, e, List.idxOf_append_of_mem hm]

theorem parseStep_ok {shape : List Nat} {c : Char} {st : ParseState} {dim : Nat → Nat} {seen pre : List Nat}
    (hc : c.isAlpha = true) (h : ParseOK st dim seen pre) (hs : shape[pre.length]? = some (dim c.toNat))
    (hd : pre.length < maxDims) :
    ∃ st', parseStep shape 0 pre.length c st = .ok st' ∧ ParseOK st' dim seen (pre ++ [c.toNat]) := by
  have hlt : pre.length < shape.length := (List.getElem?_eq_some_iff.1 hs).1
  set l := c.toNat with hl
  have hcnt : st.tables.counts l = (seen ++ pre).count l := h.tables.counts l
  -- the new tables
  have hdims : ∃ dims, recordDim st.tables.dims l (st.tables.counts l + 1) (dim l) = .ok dims ∧
      TablesOK ⟨setFn st.tables.counts l (st.tables.counts l + 1), dims⟩ dim (seen ++ (pre ++ [l])) := by
    have hcounts : ∀ x, setFn st.tables.counts l (st.tables.counts l + 1) x = (seen ++ (pre ++ [l])).count x := by
      intro x
      simp only [setFn]
      split
      · next e => subst e; rw [hcnt]; simp only [List.count_append, List.count_singleton_self]; omega
      · next e =>
        rw [h.tables.counts x]
        simp only [List.count_append]
        rw [List.count_eq_zero_of_not_mem (show x ∉ [l] by simpa using e)]
        omega
    by_cases hm : l ∈ seen ++ pre
    · have hp : 0 < (seen ++ pre).count l := List.count_pos_iff.2 hm
      refine ⟨st.tables.dims, ?_, hcounts, ?_⟩
      · rw [recordDim, if_neg (by omega), if_neg (by simp [h.tables.dims l hm])]
      · intro x hx
        refine h.tables.dims x ?_
        rw [← List.append_assoc, List.mem_append] at hx
        rcases hx with hx | hx
        · exact hx
        · rw [List.mem_singleton.1 hx]; exact hm
    · have hp : (seen ++ pre).count l = 0 := List.count_eq_zero_of_not_mem hm
      refine ⟨setFn st.tables.dims l (dim l), ?_, hcounts, ?_⟩
      · rw [recordDim, if_pos (by omega)]
      · intro x hx
        show setFn st.tables.dims l (dim l) x = dim x
        simp only [setFn]
        split
        · next e => rw [e]
        · next e =>
          refine h.tables.dims x ?_
          rw [← List.append_assoc, List.mem_append] at hx
          rcases hx with hx | hx
          · exact hx
          · exact (e (List.mem_singleton.1 hx)).elim
  obtain ⟨dims, e1, e2⟩ := hdims
  have hset : ∀ v : Int, setChecked st.labels pre.length v = .ok (st.labels.set pre.length v) := by
    intro v; simp [setChecked, h.length, hd]
  have hnew : labelOf (pre ++ [l]) pre.length = if l ∈ pre then (pre.idxOf l : Int) - pre.length else (l : Int) := by
    have e : (pre ++ [l]).getD pre.length 0 = l := by simp
    simp only [labelOf, e]
    split
    · next hi =>
      rw [if_neg]
      intro hm
      rw [List.idxOf_append_of_mem hm] at hi
      have := List.idxOf_lt_length_iff.2 hm
      omega
    · next hi =>
      have hm : l ∈ pre := by
        by_contra hm
        exact hi (idxOf_append_new hm [])
      rw [if_pos hm, List.idxOf_append_of_mem hm]
  have hlab : ∀ v, v = labelOf (pre ++ [l]) pre.length →
      (∀ a < (pre ++ [l]).length, (st.labels.set pre.length v)[a]? = some (labelOf (pre ++ [l]) a)) ∧
      (∀ a, (pre ++ [l]).length ≤ a → a < maxDims → (st.labels.set pre.length v)[a]? = some 0) := by
    intro v hv
    constructor
    · intro a ha
      simp only [List.length_append, List.length_singleton] at ha
      by_cases e : pre.length = a
      · subst e; rw [List.getElem?_set_self (by rw [h.length]; exact hd), hv]
      · rw [List.getElem?_set_ne e, h.labels a (by omega), labelOf_append (by omega)]
    · intro a ha ha'
      simp only [List.length_append, List.length_singleton] at ha
      rw [List.getElem?_set_ne (by omega), h.rest a (by omega) ha']
  have hfirst : ∀ f : Nat → Option Nat, (∀ x, f x = if x ∈ pre then some (pre.idxOf x) else if x = l then some pre.length else none) →
      ∀ x, f x = if x ∈ pre ++ [l] then some ((pre ++ [l]).idxOf x) else none := by
    intro f hf x
    rw [hf x]
    by_cases hx : x ∈ pre
    · simp [hx, List.idxOf_append_of_mem]
    · by_cases hxl : x = l
      · subst hxl; simp [hx, idxOf_append_new hx []]
      · simp [hx, hxl]
  unfold parseStep
  simp only [h.check, hc, if_true, h.ellipsis, Bool.false_eq_true, if_false]
  rw [← hl]
  rw [assert_ok (by simpa using hlt)]
  have hgc : getChecked shape pre.length = .ok (dim l) := by simp [getChecked, hs]
  show ∃ st', (placeLabel st.labels st.first l pre.length pre.length >>= fun r => getChecked shape pre.length >>=
    fun n => recordDim st.tables.dims l (st.tables.counts l + 1) n >>= fun dims => (Except.ok
      { labels := r.1, first := r.2, tables := ⟨setFn st.tables.counts l (st.tables.counts l + 1), dims⟩, ellipsis := false, check := false } : Res ParseState)) =
      Except.ok st' ∧ _
  rw [hgc]
  by_cases hm : l ∈ pre
  · have hf : st.first l = some (pre.idxOf l) := by rw [h.first, if_pos hm]
    have hp : placeLabel st.labels st.first l pre.length pre.length =
        .ok (st.labels.set pre.length ((pre.idxOf l : Int) - pre.length), st.first) := by
      simp only [placeLabel, hf, hset]; rfl
    rw [hp]
    refine ⟨{ ellipsis := false, check := false, labels := st.labels.set pre.length ((pre.idxOf l : Int) - pre.length), first := st.first, tables := ⟨setFn st.tables.counts l (st.tables.counts l + 1), dims⟩ }, ?_, ?_⟩
    · show (recordDim st.tables.dims l (st.tables.counts l + 1) (dim l) >>= _) = _
      rw [e1]; rfl
    · have := hlab _ (by rw [hnew, if_pos hm])
      refine ⟨rfl, rfl, ?_, by simp [h.length], this.1, this.2, e2⟩
      apply hfirst
      intro x
      rw [h.first x]
      by_cases hx : x ∈ pre
      · simp [hx]
      · have : x ≠ l := fun e => hx (e ▸ hm)
        simp [hx, this]
  · have hf : st.first l = none := by rw [h.first, if_neg hm]
    have hp : placeLabel st.labels st.first l pre.length pre.length =
        .ok (st.labels.set pre.length (l : Int), setFn st.first l (some pre.length)) := by
      simp only [placeLabel, hf, hset]; rfl
    rw [hp]
    refine ⟨{ ellipsis := false, check := false, labels := st.labels.set pre.length (l : Int), first := setFn st.first l (some pre.length), tables := ⟨setFn st.tables.counts l (st.tables.counts l + 1), dims⟩ }, ?_, ?_⟩
    · show (recordDim st.tables.dims l (st.tables.counts l + 1) (dim l) >>= _) = _
      rw [e1]; rfl
    · have := hlab _ (by rw [hnew, if_neg hm])
      refine ⟨rfl, rfl, ?_, by simp [h.length], this.1, this.2, e2⟩
      apply hfirst
      intro x
      simp only [setFn]
      by_cases hx : x ∈ pre
      · have : x ≠ l := fun e => hm (e ▸ hx)
        simp [hx, this, h.first]
      · by_cases hxl : x = l
        · simp [hxl, hm]
        · simp [hx, hxl, h.first]

theorem parseLoop_ok {shape : List Nat} {dim : Nat → Nat} {seen : List Nat} :
    ∀ {post : List Char} {pre : List Nat} {st : ParseState}, (∀ c ∈ post, c.isAlpha = true) →
    ParseOK st dim seen pre → shape = (pre ++ codes post).map dim → (pre ++ codes post).length ≤ maxDims →
    ∃ st', parseLoop shape 0 pre.length post st = .ok st' ∧ ParseOK st' dim seen (pre ++ codes post) := by
  intro post
  induction post with
  | nil => intro pre st _ h _ _; exact ⟨st, rfl, by simpa [codes] using h⟩
  | cons c post ih =>
    intro pre st hc h hs hl
    have hlt : pre.length < maxDims := by simp [codes] at hl; omega
    obtain ⟨st', e, h'⟩ := parseStep_ok (hc c (by simp)) h (shape := shape) (by rw [hs]; simp [codes]) hlt
    obtain ⟨st'', e', h''⟩ := ih (fun d hd => hc d (by simp [hd])) h' (by rw [hs]; simp [codes]) (by simpa [codes] using hl)
    refine ⟨st'', ?_, by simpa [codes] using h''⟩
    simp only [parseLoop, e]
    simp only [List.length_append, List.length_singleton] at e'
    exact e'

theorem filter_alnum {cs : List Char} (h : ∀ c ∈ cs, c.isAlpha = true) : cs.filter Char.isAlphanum = cs :=
  List.filter_eq_self.2 fun c hc => (alpha_facts (h c hc)).2.2

theorem all_ascii {cs : List Char} (h : ∀ c ∈ cs, c.isAlpha = true) :
    (cs.all fun c => decide (c.toNat < 128)) = true :=
  List.all_eq_true.2 fun c hc => by simpa using (alpha_facts (h c hc)).2.1

/-- the labels of an operand whose subscripts are letters -/
def labelList (cs : List Nat) : List Int :=
  (List.range cs.length).map (labelOf cs) ++ List.replicate (maxDims - cs.length) 0

theorem labels_eq {l : List Int} {cs : List Nat} (h1 : l.length = maxDims) (hcs : cs.length ≤ maxDims)
    (h2 : ∀ a < cs.length, l[a]? = some (labelOf cs a)) (h3 : ∀ a, cs.length ≤ a → a < maxDims → l[a]? = some 0) :
    l = labelList cs := by
  apply List.ext_getElem?
  intro a
  by_cases ha : a < cs.length
  · rw [h2 a ha, labelList, List.getElem?_append_left (by simpa using ha)]
    simp [ha]
  · rw [labelList, List.getElem?_append_right (by simpa using ha)]
    by_cases ha' : a < maxDims
    · rw [h3 a (by omega) ha']
      rw [List.getElem?_replicate, if_pos (by simp; omega)]
    · rw [List.getElem?_eq_none (by omega), List.getElem?_eq_none (by simp; omega)]

theorem parseOperand_ok {cs : List Char} {dim : Nat → Nat} {seen : List Nat} {t : Tables}
    (hc : ∀ c ∈ cs, c.isAlpha = true) (ht : TablesOK t dim seen) (hl : cs.length ≤ maxDims) :
    ∃ t', parseOperand cs ((codes cs).map dim) t = .ok (labelList (codes cs), t', 0) ∧
      TablesOK t' dim (seen ++ codes cs) := by
  have hlen : ((codes cs).map dim).length = cs.length := by simp [codes]
  have h0 : ParseOK { labels := List.replicate maxDims 0, tables := t, first := fun _ => none, ellipsis := false, check := false } dim seen [] :=
    ⟨rfl, rfl, fun l => by simp, by simp, fun a ha => by simp at ha,
      fun a _ ha => by simp [ha], by simpa using ht⟩
  obtain ⟨st, e, h⟩ := parseLoop_ok (post := cs) (shape := (codes cs).map dim) hc h0 (by simp) (by simpa [codes] using hl)
  simp only [List.nil_append, List.length_nil] at e h
  refine ⟨st.tables, ?_, h.tables⟩
  unfold parseOperand
  simp only [filter_alnum hc, hlen, Nat.sub_self, all_ascii hc]
  rw [e, assert_ok rfl, assert_ok (by simp)]
  show (assert (!st.check) >>= fun _ => assert (st.ellipsis || decide (0 = 0)) >>= fun _ =>
    Except.ok (st.labels, st.tables, 0)) = _
  rw [h.check, h.ellipsis, assert_ok (c := !false) rfl, assert_ok (c := false || decide (0 = 0)) rfl]
  show Except.ok (st.labels, st.tables, 0) = _
  rw [labels_eq h.length (by simpa [codes] using hl) h.labels h.rest]

theorem parseOperands_ok {dim : Nat → Nat} : ∀ {subs : List (List Char)} {seen : List Nat} {t : Tables},
    (∀ cs ∈ subs, (∀ c ∈ cs, c.isAlpha = true) ∧ cs.length ≤ maxDims) → TablesOK t dim seen →
    ∃ t', parseOperands subs (subs.map fun cs => (codes cs).map dim) t 0 =
        .ok (subs.map fun cs => labelList (codes cs), t', 0) ∧
      TablesOK t' dim (seen ++ subs.flatMap codes) := by
  intro subs
  induction subs with
  | nil => intro seen t _ ht; exact ⟨t, rfl, by simpa using ht⟩
  | cons cs subs ih =>
    intro seen t h ht
    obtain ⟨t1, e1, h1⟩ := parseOperand_ok (h cs (by simp)).1 ht (h cs (by simp)).2
    obtain ⟨t2, e2, h2⟩ := ih (fun cs' h' => h cs' (by simp [h'])) h1
    refine ⟨t2, ?_, by simpa using h2⟩
    simp only [List.map_cons, parseOperands, e1]
    show (parseOperands subs _ t1 (max 0 0) >>= _) = _
    rw [Nat.max_self, e2]
    rfl

/-! ### the output -/

theorem parseOutLoop_ok {counts : Nat → Nat} : ∀ {post pre : List Char} {labels : List Int},
    (∀ c ∈ post, c.isAlpha = true) → (∀ c ∈ post, counts c.toNat ≠ 0) → post.Nodup →
    (pre ++ post).length ≤ maxDims →
    labels = (codes pre).map Int.ofNat ++ List.replicate (maxDims - pre.length) 0 →
    parseOutLoop 0 counts pre.length post labels false false =
      .ok ((codes (pre ++ post)).map Int.ofNat ++ List.replicate (maxDims - (pre ++ post).length) 0, false) := by
  intro post
  induction post with
  | nil => intro pre labels _ _ _ _ h; simp [parseOutLoop, h]
  | cons c post ih =>
    intro pre labels hc hn hd hl h
    have hlt : pre.length < maxDims := by simp at hl; omega
    simp only [parseOutLoop, hc c (by simp), if_true, Bool.false_eq_true, if_false]
    rw [assert_ok (by simpa using hn c (by simp)), assert_ok (by simpa using (List.nodup_cons.1 hd).1)]
    have hset : setChecked labels pre.length (c.toNat : Int) = .ok
        ((codes (pre ++ [c])).map Int.ofNat ++ List.replicate (maxDims - (pre ++ [c]).length) 0) := by
      have hlen : pre.length < labels.length := by rw [h]; simp [codes]; omega
      rw [setChecked, if_pos hlen, h]
      congr 1
      rw [List.set_append_right _ _ (by simp [codes])]
      obtain ⟨m, hm⟩ : ∃ m, maxDims - pre.length = m + 1 := ⟨maxDims - pre.length - 1, by omega⟩
      have hm' : maxDims - (pre ++ [c]).length = m := by simp; omega
      rw [hm, hm']
      simp [codes, List.replicate_succ]
    show (setChecked labels pre.length (c.toNat : Int) >>= fun labels' => parseOutLoop 0 counts (pre.length + 1) post labels' false false) = _
    rw [hset]
    show parseOutLoop 0 counts (pre.length + 1) post _ false false = _
    have := ih (pre := pre ++ [c]) (fun d hd' => hc d (by simp [hd'])) (fun d hd' => hn d (by simp [hd']))
      (List.nodup_cons.1 hd).2 (by simpa using hl) rfl
    simp only [List.length_append, List.length_singleton, List.append_assoc, List.singleton_append] at this ⊢
    exact this

theorem parseOutput_ok {out : List Char} {counts : Nat → Nat} (hc : ∀ c ∈ out, c.isAlpha = true)
    (hn : ∀ c ∈ out, counts c.toNat ≠ 0) (hd : out.Nodup) (hl : out.length ≤ maxDims) :
    parseOutput out 0 counts =
      .ok ((codes out).map Int.ofNat ++ List.replicate (maxDims - out.length) 0, out.length) := by
  have := parseOutLoop_ok (pre := []) (labels := List.replicate maxDims 0) hc hn hd (by simpa using hl) (by simp [codes])
  simp only [List.nil_append, List.length_nil] at this
  unfold parseOutput
  rw [assert_ok (all_ascii hc), this]
  rfl

end Verif
