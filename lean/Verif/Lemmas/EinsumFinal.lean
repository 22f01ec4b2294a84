import Verif.Lemmas.EinsumOrder

/-! Lemmas: einsum computes the Einstein sum. -/

namespace Verif

variable {α : Type}

/-- `Σ idx_j * g L_j` -/
def wsum : List Nat → List Nat → (Nat → Nat) → Nat
  | i :: idx, l :: ls, g => i * g l + wsum idx ls g
  | _, _, _ => 0

theorem vec_map (idx I : List Nat) (row : Nat → Nat → Nat) (o : Nat) :
    vec idx (I.map row) o = wsum idx I (fun l => row l o) := by
  induction idx generalizing I with
  | nil => cases I <;> rfl
  | cons i idx ih => cases I with
    | nil => rfl
    | cons l I => simp [vec, wsum, ih]

theorem wsum_add (idx I : List Nat) (g h : Nat → Nat) :
    wsum idx I (fun l => g l + h l) = wsum idx I g + wsum idx I h := by
  induction idx generalizing I with
  | nil => cases I <;> rfl
  | cons i idx ih => cases I with
    | nil => rfl
    | cons l I => simp only [wsum, ih]; ring

theorem wsum_zero (idx I : List Nat) : wsum idx I (fun _ => 0) = 0 := by
  induction idx generalizing I with
  | nil => cases I <;> rfl
  | cons i idx ih => cases I with
    | nil => rfl
    | cons l I => simp [wsum, ih]

theorem wsum_congr {idx I : List Nat} {g h : Nat → Nat} (e : ∀ l ∈ I, g l = h l) : wsum idx I g = wsum idx I h := by
  induction idx generalizing I with
  | nil => cases I <;> rfl
  | cons i idx ih => cases I with
    | nil => rfl
    | cons l I =>
      simp only [wsum, e l (by simp)]
      rw [ih fun x hx => e x (by simp [hx])]

theorem wsum_single {idx : List Nat} {L : List Char} {c : Char} (hn : L.Nodup) (hc : c ∈ L)
    (hl : idx.length = L.length) (d : Nat) :
    wsum idx (codes L) (fun l => if c.toNat = l then d else 0) = valueOf L idx c * d := by
  induction L generalizing idx with
  | nil => simp at hc
  | cons x L ih =>
    cases idx with
    | nil => simp at hl
    | cons i idx =>
      have hx := List.nodup_cons.1 hn
      simp only [codes, List.map_cons, wsum, valueOf]
      by_cases e : c = x
      · subst e
        rw [if_pos rfl, if_pos rfl]
        have : wsum idx (L.map Char.toNat) (fun l => if c.toNat = l then d else 0) = wsum idx (L.map Char.toNat) fun _ => 0 := by
          apply wsum_congr
          intro l hl
          rw [if_neg]
          rintro rfl
          exact hx.1 (mem_codes.1 hl)
        rw [this, wsum_zero]
        omega
      · have hc' : c ∈ L := by
          rcases List.mem_cons.1 hc with h | h
          · exact (e h).elim
          · exact h
        rw [if_neg e, if_neg (fun h => e (toNat_inj h))]
        have := ih hx.2 hc' (by simpa using hl)
        simp only [codes] at this
        rw [this]
        omega

theorem wsum_strideSum {idx : List Nat} {L cs : List Char} {st : List Nat} (hn : L.Nodup) (hc : ∀ c ∈ cs, c ∈ L)
    (hl : idx.length = L.length) (hs : st.length = cs.length) :
    wsum idx (codes L) (strideSum (codes cs) st) = offset (cs.map (valueOf L idx)) st := by
  induction cs generalizing st with
  | nil =>
    have : st = [] := by simpa using hs
    subst this
    have : strideSum (codes []) [] = fun _ => 0 := by funext l; simp [strideSum, codes]
    rw [this, wsum_zero]; rfl
  | cons c cs ih => cases st with
    | nil => simp at hs
    | cons d st =>
      have e : strideSum (codes (c :: cs)) (d :: st) = fun l => (if c.toNat = l then d else 0) + strideSum (codes cs) st l := by
        funext l; simp [strideSum, codes]
      rw [e, wsum_add, wsum_single hn (hc c (by simp)) hl, ih (fun x hx => hc x (by simp [hx])) (by simpa using hs)]
      simp [offset]

theorem valueOf_left {out rest : List Char} {o r : List Nat} (hn : (out ++ rest).Nodup) (ho : o.length = out.length) :
    out.map (valueOf (out ++ rest) (o ++ r)) = o := by
  induction out generalizing o with
  | nil => cases o with
    | nil => rfl
    | cons => simp at ho
  | cons c out ih => cases o with
    | nil => simp at ho
    | cons i o =>
      simp only [List.cons_append, List.nodup_cons] at hn
      simp only [List.cons_append, List.map_cons, valueOf, if_true]
      congr 1
      refine Eq.trans (List.map_congr_left fun x hx => ?_) (ih hn.2 (by simpa using ho))
      rw [if_neg]
      rintro rfl
      exact hn.1 (by simp [hx])

theorem valueOf_lt {dim : Char → Nat} {L : List Char} {idx : List Nat} (h : InB idx (L.map dim)) {c : Char} (hc : c ∈ L) :
    valueOf L idx c < dim c := by
  induction L generalizing idx with
  | nil => simp at hc
  | cons x L ih => cases idx with
    | nil => exact h.elim
    | cons i idx =>
      simp only [valueOf]
      split
      · next e => subst e; exact h.1
      · next e =>
        rcases List.mem_cons.1 hc with h' | h'
        · exact (e h').elim
        · exact ih h.2 h'

theorem InB_map_valueOf {dim : Char → Nat} {L cs : List Char} {idx : List Nat} (h : InB idx (L.map dim))
    (hc : ∀ c ∈ cs, c ∈ L) : InB (cs.map (valueOf L idx)) (cs.map dim) := by
  induction cs with
  | nil => trivial
  | cons c cs ih => exact ⟨valueOf_lt h (hc c (by simp)), ih fun x hx => hc x (by simp [hx])⟩

/-- a term of the sum: an operand and what it denotes -/
abbrev Term (α : Type) := Arr α × Factor α

/-- operand and subscript -/
def Term.sub (t : Term α) : Arr α × List Char := (t.1, t.2.letters)

theorem forall2_terms {R : Arr α → Factor α → Prop} {ops : List (Arr α)} {fs : List (Factor α)}
    (h : List.Forall₂ R ops fs) : ∃ ts : List (Term α), ops = ts.map (·.1) ∧ fs = ts.map (·.2) ∧ ∀ t ∈ ts, R t.1 t.2 := by
  induction h with
  | nil => exact ⟨[], rfl, rfl, by simp⟩
  | @cons a f ops fs h _ ih =>
    obtain ⟨ts, e1, e2, e3⟩ := ih
    refine ⟨(a, f) :: ts, by simp [e1], by simp [e2], ?_⟩
    intro t ht
    rcases List.mem_cons.1 ht with rfl | ht
    · exact h
    · exact e3 t ht

theorem planHyp {ts : List (Term α)} {out rest : List Char} {dim : Char → Nat}
    (hw : Subscripts (ts.map (·.2)) out rest) (hd : ∀ t ∈ ts, t.1.Denotes (t.2.letters.map dim) t.2.elem)
    (hargs : ts.length < maxArgs) (hdims : ∀ t ∈ ts, t.2.letters.length ≤ maxDims) (htot : (out ++ rest).length ≤ maxDims) :
    PlanHyp (ts.map Term.sub) out (codes rest) (fun l => dim (Char.ofNat l)) := by
  have e : codes out ++ codes rest = codes (out ++ rest) := by simp [codes]
  refine ⟨by simpa using hargs, ?_, ?_, ?_, ?_, ?_, ?_, ?_, ?_⟩
  · intro t' ht'
    obtain ⟨t, ht, rfl⟩ := List.mem_map.1 ht'
    exact hw.alpha t.2 (List.mem_map.2 ⟨t, ht, rfl⟩)
  · intro t' ht'
    obtain ⟨t, ht, rfl⟩ := List.mem_map.1 ht'
    exact hdims t ht
  · intro t' ht'
    obtain ⟨t, ht, rfl⟩ := List.mem_map.1 ht'
    rw [show (Term.sub t).1 = t.1 from rfl, (hd t ht).1]
    simp [codes, Term.sub, Function.comp_def]
  · intro t' ht'
    obtain ⟨t, ht, rfl⟩ := List.mem_map.1 ht'
    simpa [Term.sub] using (hd t ht).2.1
  · rw [e]; exact nodup_codes hw.nodup
  · intro c hc
    obtain ⟨f, hf, hc⟩ := hw.out_mem c hc
    obtain ⟨t, ht, rfl⟩ := List.mem_map.1 hf
    exact ⟨Term.sub t, List.mem_map.2 ⟨t, ht, rfl⟩, hc⟩
  · intro l
    constructor
    · intro h
      obtain ⟨c, hc, rfl⟩ := List.mem_map.1 h
      obtain ⟨⟨f, hf, hcf⟩, ho⟩ := (hw.rest_mem c).1 hc
      obtain ⟨t, ht, rfl⟩ := List.mem_map.1 hf
      exact ⟨List.mem_flatMap.2 ⟨Term.sub t, List.mem_map.2 ⟨t, ht, rfl⟩, mem_codes.2 hcf⟩, fun h => ho (mem_codes.1 h)⟩
    · rintro ⟨h, ho⟩
      obtain ⟨t', ht', hl⟩ := List.mem_flatMap.1 h
      obtain ⟨t, ht, rfl⟩ := List.mem_map.1 ht'
      obtain ⟨c, hc, rfl⟩ := List.mem_map.1 hl
      exact mem_codes.2 ((hw.rest_mem c).2 ⟨⟨t.2, List.mem_map.2 ⟨t, ht, rfl⟩, hc⟩, fun h => ho (mem_codes.2 h)⟩)
  · rw [e]; simpa [codes] using htot

theorem sum_hit {M : Type} [AddCommMonoid M] {s o : List Nat} (ho : InB o s) (F : List Nat → M) :
    ((indices s).map fun i => if rank i s = rank o s then F i else 0).sum = F o := by
  have h1 : ((indices s).map fun i => if rank i s = rank o s then F i else 0) =
      (indices s).map fun i => if i = o then F i else 0 := by
    refine List.map_congr_left fun i hi => ?_
    have hi := mem_indices.1 hi
    by_cases e : i = o
    · simp [e]
    · rw [if_neg e, if_neg]
      intro h
      exact e (by rw [← unrank_rank hi, ← unrank_rank ho, h])
  rw [h1]
  have key : ∀ l : List (List Nat), l.Nodup → o ∈ l → (l.map fun i => if i = o then F i else 0).sum = F o := by
    intro l
    induction l with
    | nil => simp
    | cons x l ih =>
      intro hn hm
      have hx := List.nodup_cons.1 hn
      by_cases e : x = o
      · subst e
        have : (l.map fun i => if i = x then F i else 0) = l.map fun _ => 0 :=
          List.map_congr_left fun i hi => by
            rw [if_neg]; rintro rfl; exact hx.1 hi
        simp [this]
      · have : o ∈ l := by
          rcases List.mem_cons.1 hm with h | h
          · exact (e h.symm).elim
          · exact h
        simp [e, ih hx.2 this]
  exact key _ (indices_nodup s) (mem_indices.2 ho)

theorem sum_map_zero {β M : Type} [AddCommMonoid M] (l : List β) : (l.map fun _ => (0 : M)).sum = 0 := by
  induction l with
  | nil => rfl
  | cons _ l ih => simp [ih]

theorem list_sum_apply {β M : Type} [AddCommMonoid M] (l : List β) (f : β → Nat → M) (p : Nat) :
    (l.map f).sum p = (l.map fun x => f x p).sum := by
  induction l with
  | nil => rfl
  | cons x l ih => simp [ih]

theorem sum_flatMap {β M : Type} [AddCommMonoid M] (l : List β) (f : β → List M) :
    (l.flatMap f).sum = (l.map fun x => (f x).sum).sum := by
  induction l with
  | nil => rfl
  | cons x l ih => simp [ih]

variable [SumProduct α]

omit [SumProduct α] in
theorem InV_of {ts : List (Term α)} {v : Nat → Nat} (h : ∀ k t, ts[k]? = some t → t.1.off + v k < t.1.buf.length) :
    InV (srcs (ts.map (·.1))) v := by
  induction ts generalizing v with
  | nil => trivial
  | cons t ts ih => exact ⟨h 0 t rfl, ih fun k t hk => h (k + 1) t hk⟩

theorem prodF_of {ts : List (Term α)} {v : Nat → Nat} {g : Term α → α}
    (h : ∀ k t, ts[k]? = some t → t.1.buf[t.1.off + v k]? = some (g t)) :
    prodF (srcs (ts.map (·.1))) v = (ts.map g).prod := by
  induction ts generalizing v with
  | nil => rfl
  | cons t ts ih =>
    have h0 := h 0 t rfl
    simp only [srcs, List.map_cons, prodF, List.prod_cons] at ih ⊢
    rw [ih fun k t hk => h (k + 1) t hk]
    simp [h0]

/-- the value einsum adds at flat position `p` of its output -/
theorem einsumRun_plan {K : SopKernels α} (hK : K.Correct) {ts : List (Term α)} {out rest : List Char}
    {dim : Char → Nat} (hw : WellFormed (ts.map (·.2)) out rest dim)
    (hd : ∀ t ∈ ts, t.1.Denotes (t.2.letters.map dim) t.2.elem) (hargs : ts.length < maxArgs)
    (hdims : ∀ t ∈ ts, t.2.letters.length ≤ maxDims) (htot : (out ++ rest).length ≤ maxDims)
    (hne : out ++ rest ≠ []) (hlive : ∀ t ∈ ts, LiveBuf t.1.buf) :
    ∃ plan, prepareEinsum (ts.map (·.1)) (ts.map fun t => t.2.letters) out = .ok plan ∧
      plan.outShape = out.map dim ∧
      ∀ (dst : List α) (q : Nat), q + numel (out.map dim) ≤ dst.length →
        ∃ c : Nat → α, einsumRun K (srcs (ts.map (·.1))) plan dst q = .ok (addFn dst c) ∧
          (∀ o, InB o (out.map dim) → c (q + rank o (out.map dim)) = einsteinSum out rest dim (ts.map (·.2)) o) ∧
          ∀ p, (p < q ∨ q + numel (out.map dim) ≤ p) → c p = 0 := by
  have hp := planHyp hw.subscripts hd hargs hdims htot
  obtain ⟨I, hI, e⟩ := prepareEinsum_ok hp
  have e1 : (ts.map Term.sub).map (·.1) = ts.map (·.1) := by simp [Term.sub, Function.comp_def]
  have e2 : (ts.map Term.sub).map (·.2) = ts.map fun t => t.2.letters := by simp [Term.sub, Function.comp_def]
  rw [e1, e2] at e
  have eout : (codes out).map (fun l => dim (Char.ofNat l)) = out.map dim := by simp [codes, Function.comp_def]
  have ecodes : codes out ++ codes rest = codes (out ++ rest) := by simp [codes]
  have eall : (codes (out ++ rest)).map (fun l => dim (Char.ofNat l)) = (out ++ rest).map dim := by
    simp [codes, Function.comp_def]
  rw [ecodes] at hI
  rw [eout] at e
  refine ⟨_, e, rfl, ?_⟩
  intro dst q hq
  set row := planRow (ts.map Term.sub) (codes out) (strideFromShape (out.map dim)) with hrow
  have hletters : ∀ t ∈ ts, ∀ c ∈ t.2.letters, c ∈ out ++ rest := by
    intro t ht c hc
    by_cases ho : c ∈ out
    · simp [ho]
    · have := (hw.rest_mem c).2 ⟨⟨t.2, List.mem_map.2 ⟨t, ht, rfl⟩, hc⟩, ho⟩
      simp [this]
  have hdimpos : ∀ c ∈ out ++ rest, 0 < dim c := by
    intro c hc
    rcases List.mem_append.1 hc with hc | hc
    · obtain ⟨f, hf, h⟩ := hw.out_mem c hc; exact hw.pos f hf c h
    · obtain ⟨⟨f, hf, h⟩, _⟩ := (hw.rest_mem c).1 hc; exact hw.pos f hf c h
  -- the axes in the order of the letters
  have eaxes : axesOf (I.map fun l => dim (Char.ofNat l)) (I.map row) = I.map fun l => (dim (Char.ofNat l), fn (row l)) := by
    simp [axesOf, List.zip_map', List.map_map, Function.comp_def]
  have eaxes' : ((out ++ rest).map dim).zip ((codes (out ++ rest)).map (fun l => fn (row l))) =
      (codes (out ++ rest)).map fun l => (dim (Char.ofNat l), fn (row l)) := by
    rw [← eall, List.zip_map']
  have hperm : (axesOf (I.map fun l => dim (Char.ofNat l)) (I.map row)).Perm
      (((out ++ rest).map dim).zip ((codes (out ++ rest)).map (fun l => fn (row l)))) := by
    rw [eaxes, eaxes']; exact hI.map _
  have hlen : ((codes (out ++ rest)).map (fun l => fn (row l))).length = ((out ++ rest).map dim).length := by simp [codes]
  -- offsets
  have hop : ∀ idx, InB idx ((out ++ rest).map dim) → ∀ k t, ts[k]? = some t →
      vec idx ((codes (out ++ rest)).map (fun l => fn (row l))) k =
        offset (t.2.letters.map (valueOf (out ++ rest) idx)) t.1.stride := by
    intro idx hidx k t hk
    have hmem := List.mem_of_getElem? hk
    rw [vec_map]
    have : (fun l => fn (row l) k) = strideSum (codes t.2.letters) t.1.stride := by
      funext l
      have hkl : k < ts.length := (List.getElem?_eq_some_iff.1 hk).1
      have hkt : ts[k] = t := (List.getElem?_eq_some_iff.1 hk).2
      simp [hrow, planRow, fn, List.getElem?_append_left, hkl, hkt, Term.sub]
    rw [this, wsum_strideSum hw.nodup (hletters t hmem) (by simpa using hidx.length) (by simpa using (hd t hmem).2.1)]
  have hres : ∀ o r, InB o (out.map dim) → InB r (rest.map dim) →
      vec (o ++ r) ((codes (out ++ rest)).map (fun l => fn (row l))) ts.length = rank o (out.map dim) := by
    intro o r ho hr
    rw [vec_map]
    have : (fun l => fn (row l) ts.length) = strideSum (codes out) (strideFromShape (out.map dim)) := by
      funext l
      simp [hrow, planRow, fn]
    have ho' : o.length = out.length := by simpa using ho.length
    have hr' : r.length = rest.length := by simpa using hr.length
    rw [this, wsum_strideSum hw.nodup (fun c hc => by simp [hc]) (by simp [ho', hr']) (by simp [length_strideFromShape]),
      valueOf_left hw.nodup ho', offset_strideFromShape ho.length]
  have hsplit : ∀ idx, InB idx ((out ++ rest).map dim) → ∃ o r, idx = o ++ r ∧ InB o (out.map dim) ∧ InB r (rest.map dim) := by
    intro idx hidx
    rw [List.map_append] at hidx
    have := mem_indices.2 hidx
    rw [indices_append] at this
    obtain ⟨o, ho, hr'⟩ := List.mem_flatMap.1 this
    obtain ⟨r, hr, rfl⟩ := List.mem_map.1 hr'
    exact ⟨o, r, rfl, mem_indices.1 ho, mem_indices.1 hr⟩
  have hsl : (srcs (ts.map (·.1))).length = ts.length := by simp [srcs]
  have hin : allOver (axesOf (I.map fun l => dim (Char.ofNat l)) (I.map row)) fun v =>
      InV (srcs (ts.map (·.1))) v ∧ q + v (srcs (ts.map (·.1))).length < dst.length := by
    rw [allOver_perm hperm, allOver_iff hlen]
    intro idx hidx
    constructor
    · apply InV_of
      intro k t hk
      have hmem := List.mem_of_getElem? hk
      rw [hop idx hidx k t hk]
      exact (List.getElem?_eq_some_iff.1 ((hd t hmem).2.2 _ (InB_map_valueOf hidx (hletters t hmem)))).1
    · obtain ⟨o, r, rfl, ho, hr⟩ := hsplit idx hidx
      rw [hsl, hres o r ho hr]
      have := rank_lt ho
      omega
  have hpos : ∀ n ∈ I.map (fun l => dim (Char.ofNat l)), 0 < n := by
    intro n hn
    obtain ⟨l, hl, rfl⟩ := List.mem_map.1 hn
    obtain ⟨c, hc, rfl⟩ := List.mem_map.1 (hI.mem_iff.1 hl)
    simpa using hdimpos c hc
  have hIlen : I.length = (out ++ rest).length := by rw [hI.length_eq]; simp [codes]
  have hrun := einsumRun_ok hK (ops := srcs (ts.map (·.1)))
    (plan := ⟨I.map row, I.map fun l => dim (Char.ofNat l), out.map dim⟩) (dst := dst) (q := q) (by simp)
    (fun r hr => by
      obtain ⟨l, _, rfl⟩ := List.mem_map.1 hr
      simp [hrow, planRow, srcs])
    hpos (by
      intro h
      have h := congrArg List.length h
      simp [hIlen] at h
      exact hne (by simp [h])) (by rw [hsl]; exact hargs) (by simp only [List.length_map]; rw [hIlen]; exact htot) hin
    (by
      intro o ho
      obtain ⟨a, ha, rfl⟩ := List.mem_map.1 ho
      obtain ⟨t, ht, rfl⟩ := List.mem_map.1 ha
      exact hlive t ht)
  have hval : ∀ p, einsumValue (srcs (ts.map (·.1))) (axesOf (I.map fun l => dim (Char.ofNat l)) (I.map row)) q p =
      ((indices (out.map dim)).map fun i => if q + rank i (out.map dim) = p
        then einsteinSum out rest dim (ts.map (·.2)) i else 0).sum := by
    intro p
    rw [einsumValue, sumOver_perm hperm, sumOver_eq hlen, List.map_append, indices_append, hsl, list_sum_apply,
      List.map_flatMap, sum_flatMap]
    refine congrArg List.sum (List.map_congr_left fun o ho => ?_)
    have ho := mem_indices.1 ho
    rw [List.map_map]
    have : (indices (rest.map dim)).map ((fun idx => hit (q + vec idx ((codes (out ++ rest)).map fun l => fn (row l)) ts.length)
          (prodF (srcs (ts.map (·.1))) (vec idx ((codes (out ++ rest)).map fun l => fn (row l)))) p) ∘ (o ++ ·)) =
        (indices (rest.map dim)).map fun r => if q + rank o (out.map dim) = p then
          ((ts.map (·.2)).map fun f => f.elem (f.letters.map (valueOf (out ++ rest) (o ++ r)))).prod else 0 := by
      refine List.map_congr_left fun r hr => ?_
      have hr := mem_indices.1 hr
      have hor : InB (o ++ r) ((out ++ rest).map dim) := by
        rw [List.map_append]; exact (InB_append ho.length).2 ⟨ho, hr⟩
      simp only [Function.comp_apply, hit, hres o r ho hr]
      congr 1
      rw [List.map_map]
      apply prodF_of
      intro k t hk
      have hmem := List.mem_of_getElem? hk
      rw [hop _ hor k t hk]
      exact (hd t hmem).2.2 _ (InB_map_valueOf hor (hletters t hmem))
    rw [this]
    split
    · rfl
    · exact sum_map_zero _
  refine ⟨_, hrun, ?_, ?_⟩
  · intro o ho
    refine (hval _).trans ?_
    rw [← sum_hit ho (fun o => einsteinSum out rest dim (ts.map (·.2)) o)]
    simp
  · intro p hp
    refine (hval _).trans ?_
    refine Eq.trans (congrArg List.sum (List.map_congr_left (g := fun _ => 0) fun o ho => ?_)) (sum_map_zero _)
    have := rank_lt (mem_indices.1 ho)
    rw [if_neg (by omega)]

theorem einsum_denotes {K : SopKernels α} (hK : K.Correct) {ops : List (Arr α)} {fs : List (Factor α)}
    {out rest : List Char} {dim : Char → Nat} (hw : WellFormed fs out rest dim)
    (hd : List.Forall₂ (fun a f => a.Denotes (f.letters.map dim) f.elem) ops fs) (hargs : ops.length < maxArgs)
    (hdims : ∀ f ∈ fs, f.letters.length ≤ maxDims) (htot : (out ++ rest).length ≤ maxDims)
    (hne : out ++ rest ≠ []) (hlive : ∀ a ∈ ops, LiveBuf a.buf) :
    ∃ r, einsum K ops (fs.map (·.letters)) out = .ok r ∧ r.Denotes (out.map dim) (einsteinSum out rest dim fs) := by
  obtain ⟨ts, rfl, rfl, hd'⟩ := forall2_terms hd
  obtain ⟨plan, e, es, h⟩ := einsumRun_plan hK hw hd' (by simpa using hargs)
    (fun t ht => hdims _ (List.mem_map.2 ⟨t, ht, rfl⟩)) htot hne (fun t ht => hlive _ (List.mem_map.2 ⟨t, ht, rfl⟩))
  obtain ⟨c, er, hc, _⟩ := h (List.replicate (numel (out.map dim)) 0) 0 (by simp)
  refine ⟨Arr.fromContiguousOwnedBuffer (out.map dim) (addFn (List.replicate (numel (out.map dim)) 0) c), ?_, ?_⟩
  · unfold einsum
    rw [List.map_map]
    show (prepareEinsum _ (ts.map fun t => t.2.letters) out >>= fun plan => _) = _
    rw [e]
    show (einsumRun _ _ plan (List.replicate (numel plan.outShape) 0) 0 >>= fun data => _) = _
    rw [es, er]
    rfl
  · have : addFn (List.replicate (numel (out.map dim)) 0) c =
        elements (out.map dim) (einsteinSum out rest dim (ts.map (·.2))) := by
      apply List.ext_getElem?
      intro p
      rw [getElem?_addFn]
      by_cases hp : p < numel (out.map dim)
      · have hi := InB_unrank hp
        have := hc _ hi
        rw [rank_unrank hp, Nat.zero_add] at this
        rw [List.getElem?_replicate, if_pos hp, elements, List.getElem?_map, getElem?_indices hp, Option.map_some,
          Option.map_some, this, zero_add]
      · rw [List.getElem?_eq_none (by simpa using hp), List.getElem?_eq_none (by rw [length_elements]; omega)]
        rfl
    rw [this]
    exact denotes_fromContiguous

end Verif
