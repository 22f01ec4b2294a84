import Verif.Lemmas.EinsumFinal

/-! Lemmas: what a successful run of the einsum parser implies. -/

namespace Verif

variable {α : Type}

/-- the computation succeeds or panics -/
def OkOrPanic {β : Type} (x : Res β) : Prop := (∃ v, x = .ok v) ∨ x = .error .panic

theorem OkOrPanic.ok {β : Type} (v : β) : OkOrPanic (.ok v : Res β) := .inl ⟨v, rfl⟩
theorem OkOrPanic.panic {β : Type} : OkOrPanic (.error .panic : Res β) := .inr rfl

theorem OkOrPanic.bind {β γ : Type} {x : Res β} {f : β → Res γ} (h : OkOrPanic x) (hf : ∀ v, x = .ok v → OkOrPanic (f v)) :
    OkOrPanic (x >>= f) := by
  rcases h with ⟨v, rfl⟩ | rfl
  · exact hf v rfl
  · exact .inr rfl

theorem okOrPanic_assert (c : Bool) : OkOrPanic (assert c) := by
  cases c
  · exact .inr rfl
  · exact .inl ⟨(), rfl⟩

theorem okOrPanic_setChecked {β : Type} (l : List β) (i : Nat) (v : β) : OkOrPanic (setChecked l i v) := by
  unfold setChecked; split
  · exact .ok _
  · exact .panic

theorem okOrPanic_getChecked {β : Type} (l : List β) (i : Nat) : OkOrPanic (getChecked l i) := by
  unfold getChecked; split
  · exact .ok _
  · exact .panic

theorem okOrPanic_placeLabel (labels : List Int) (first : Nat → Option Nat) (l i axis : Nat) :
    OkOrPanic (placeLabel labels first l i axis) := by
  unfold placeLabel
  split
  · exact (okOrPanic_setChecked _ _ _).bind fun _ _ => .ok _
  · exact (okOrPanic_setChecked _ _ _).bind fun _ _ => .ok _

theorem okOrPanic_recordDim (dims : Nat → Nat) (l count n : Nat) : OkOrPanic (recordDim dims l count n) := by
  unfold recordDim
  split
  · exact .ok _
  · split
    · exact .panic
    · exact .ok _

/-- labels already counted keep their extents -/
def Stable (t t' : Tables) : Prop := ∀ l, t.counts l ≠ 0 → t'.counts l ≠ 0 ∧ t'.dims l = t.dims l

theorem Stable.refl (t : Tables) : Stable t t := fun _ h => ⟨h, rfl⟩
theorem Stable.trans {t t' t'' : Tables} (h : Stable t t') (h' : Stable t' t'') : Stable t t'' := fun l hl =>
  ⟨(h' l (h l hl).1).1, (h' l (h l hl).1).2.trans (h l hl).2⟩

/-- the tables count exactly the letters `seen` and those before -/
def Counts (t t' : Tables) (seen : List Nat) : Prop := ∀ l, t'.counts l ≠ 0 ↔ t.counts l ≠ 0 ∨ l ∈ seen

theorem parseStep_inv {shape : List Nat} {bd i : Nat} {c : Char} {st : ParseState} (hc : c.isAlpha = true)
    (h1 : st.check = false) (h2 : st.ellipsis = false) :
    OkOrPanic (parseStep shape bd i c st) ∧ ∀ st', parseStep shape bd i c st = .ok st' →
      st'.check = false ∧ st'.ellipsis = false ∧ Stable st.tables st'.tables ∧ Counts st.tables st'.tables [c.toNat] ∧
      shape[i]? = some (st'.tables.dims c.toNat) := by
  unfold parseStep
  simp only [h1, hc, if_true, h2, Bool.false_eq_true, if_false]
  constructor
  · refine (okOrPanic_assert _).bind fun _ _ => (okOrPanic_placeLabel _ _ _ _ _).bind fun _ _ =>
      (okOrPanic_getChecked _ _).bind fun _ _ => (okOrPanic_recordDim _ _ _ _).bind fun _ _ => .ok _
  · intro st' h
    obtain ⟨_, _, h⟩ := bind_eq_ok.1 h
    obtain ⟨r, _, h⟩ := bind_eq_ok.1 h
    obtain ⟨n, hn, h⟩ := bind_eq_ok.1 h
    obtain ⟨dims, hd, h⟩ := bind_eq_ok.1 h
    have h := Except.ok.inj h
    subst h
    have hn' : shape[i]? = some n := by
      unfold getChecked at hn
      split at hn
      · next v hv => rw [hv, Except.ok.inj hn]
      · exact absurd hn (by simp)
    refine ⟨rfl, rfl, ?_, ?_, ?_⟩
    · intro l hl
      constructor
      · show setFn _ _ _ l ≠ 0
        simp only [setFn]
        split
        · omega
        · exact hl
      · show dims l = st.tables.dims l
        unfold recordDim at hd
        split at hd
        · next e =>
          rw [← Except.ok.inj hd]
          simp only [setFn]
          rw [if_neg]
          rintro rfl
          omega
        · split at hd
          · exact absurd hd (by simp)
          · rw [← Except.ok.inj hd]
    · intro l
      show setFn _ _ _ l ≠ 0 ↔ _
      simp only [setFn, List.mem_singleton]
      by_cases e : l = c.toNat
      · simp [e]
      · simp [e]
    · show _ = some (dims c.toNat)
      rw [hn']
      unfold recordDim at hd
      split at hd
      · rw [← Except.ok.inj hd]; simp [setFn]
      · split at hd
        · exact absurd hd (by simp)
        · next e => rw [← Except.ok.inj hd]; simp at e; rw [e]

theorem parseLoop_inv {shape : List Nat} {bd : Nat} : ∀ {cs : List Char} {i : Nat} {st : ParseState},
    (∀ c ∈ cs, c.isAlpha = true) → st.check = false → st.ellipsis = false →
    OkOrPanic (parseLoop shape bd i cs st) ∧ ∀ st', parseLoop shape bd i cs st = .ok st' →
      st'.check = false ∧ st'.ellipsis = false ∧ Stable st.tables st'.tables ∧ Counts st.tables st'.tables (codes cs) ∧
      ∀ k c, cs[k]? = some c → shape[i + k]? = some (st'.tables.dims c.toNat) := by
  intro cs
  induction cs with
  | nil =>
    intro i st _ h1 h2
    refine ⟨.ok _, ?_⟩
    intro st' h
    have h := Except.ok.inj h
    subst h
    exact ⟨h1, h2, .refl _, fun l => by simp [codes], fun k c h => by simp at h⟩
  | cons c cs ih =>
    intro i st hc h1 h2
    have hs := parseStep_inv (shape := shape) (bd := bd) (i := i) (hc c (by simp)) h1 h2
    constructor
    · refine hs.1.bind fun st' e => ?_
      have := hs.2 st' e
      exact (ih (fun d hd => hc d (by simp [hd])) this.1 this.2.1).1
    · intro st' h
      obtain ⟨st1, e, h⟩ := bind_eq_ok.1 h
      obtain ⟨a1, a2, a3, a4, a5⟩ := hs.2 st1 e
      obtain ⟨b1, b2, b3, b4, b5⟩ := (ih (fun d hd => hc d (by simp [hd])) a1 a2).2 st' h
      refine ⟨b1, b2, a3.trans b3, ?_, ?_⟩
      · intro l
        rw [b4 l, a4 l]
        simp [codes, or_assoc]
      · intro k d hk
        cases k with
        | zero =>
          simp at hk
          subst hk
          rw [Nat.add_zero, a5, (b3 c.toNat ((a4 _).2 (by simp))).2]
        | succ k =>
          rw [show i + (k + 1) = i + 1 + k by omega]
          exact b5 k d (by simpa using hk)

theorem parseOperand_inv {cs : List Char} {shape : List Nat} {t : Tables} (hc : ∀ c ∈ cs, c.isAlpha = true) :
    OkOrPanic (parseOperand cs shape t) ∧ ∀ r, parseOperand cs shape t = .ok r →
      shape = (codes cs).map r.2.1.dims ∧ Stable t r.2.1 ∧ Counts t r.2.1 (codes cs) ∧ r.2.2 = 0 := by
  have hl := parseLoop_inv (shape := shape) (bd := shape.length - cs.length) (i := 0)
    (st := { labels := List.replicate maxDims 0, tables := t, first := fun _ => none, ellipsis := false, check := false }) hc rfl rfl
  unfold parseOperand
  rw [assert_ok (all_ascii hc), filter_alnum hc]
  constructor
  · exact (OkOrPanic.ok _).bind fun _ _ => (okOrPanic_assert _).bind fun _ _ => hl.1.bind fun _ _ =>
      (okOrPanic_assert _).bind fun _ _ => (okOrPanic_assert _).bind fun _ _ => .ok _
  · intro r h
    obtain ⟨_, _, h⟩ := bind_eq_ok.1 h
    obtain ⟨_, h1, h⟩ := bind_eq_ok.1 h
    obtain ⟨st, h2, h⟩ := bind_eq_ok.1 h
    obtain ⟨_, _, h⟩ := bind_eq_ok.1 h
    obtain ⟨_, h3, h⟩ := bind_eq_ok.1 h
    have h := Except.ok.inj h
    subst h
    obtain ⟨_, e, a3, a4, a5⟩ := hl.2 st h2
    have hle : cs.length ≤ shape.length := by
      by_contra hn
      rw [assert_fail (by simpa using hn)] at h1
      cases h1
    have hz : shape.length - cs.length = 0 := by
      by_contra hn
      rw [assert_fail (by simp [e, hn])] at h3
      cases h3
    refine ⟨?_, a3, a4, hz⟩
    apply List.ext_getElem?
    intro k
    by_cases hk : k < cs.length
    · have := a5 k cs[k] (List.getElem?_eq_getElem hk)
      rw [Nat.zero_add] at this
      rw [this]
      simp [codes, hk]
    · rw [List.getElem?_eq_none (by omega), List.getElem?_eq_none (by simp [codes]; omega)]

theorem parseOperands_inv : ∀ {ts : List (List Char × List Nat)} {t : Tables},
    (∀ p ∈ ts, ∀ c ∈ p.1, c.isAlpha = true) →
    OkOrPanic (parseOperands (ts.map (·.1)) (ts.map (·.2)) t 0) ∧
    ∀ r, parseOperands (ts.map (·.1)) (ts.map (·.2)) t 0 = .ok r →
      (∀ p ∈ ts, p.2 = (codes p.1).map r.2.1.dims) ∧ Stable t r.2.1 ∧ Counts t r.2.1 (ts.flatMap (codes ·.1)) ∧ r.2.2 = 0 := by
  intro ts
  induction ts with
  | nil =>
    intro t _
    refine ⟨.ok _, ?_⟩
    intro r h
    have h := Except.ok.inj h
    subst h
    exact ⟨by simp, .refl _, fun l => by simp, rfl⟩
  | cons p ts ih =>
    intro t hc
    have hp := parseOperand_inv (shape := p.2) (t := t) (hc p (by simp))
    constructor
    · refine hp.1.bind fun r e => ?_
      obtain ⟨l, t', bd⟩ := r
      have hb : bd = 0 := (hp.2 _ e).2.2.2
      subst hb
      exact ((ih fun q hq => hc q (by simp [hq])).1).bind fun _ _ => .ok _
    · intro r h
      obtain ⟨r1, e1, h⟩ := bind_eq_ok.1 h
      obtain ⟨a1, a2, a3, a4⟩ := hp.2 r1 e1
      obtain ⟨l, t', bd⟩ := r1
      simp only at a1 a2 a3 a4
      subst a4
      obtain ⟨r2, e2, h⟩ := bind_eq_ok.1 h
      obtain ⟨b1, b2, b3, b4⟩ := (ih fun q hq => hc q (by simp [hq])).2 r2 e2
      obtain ⟨ls, t'', bd''⟩ := r2
      have h := Except.ok.inj h
      subst h
      simp only at b1 b2 b3 b4
      refine ⟨?_, a2.trans b2, ?_, b4⟩
      · intro q hq
        rcases List.mem_cons.1 hq with rfl | hq
        · rw [a1]
          apply List.map_congr_left
          intro l hl
          exact ((b2 l ((a3 l).2 (.inr hl))).2).symm
        · exact b1 q hq
      · intro l
        show t''.counts l ≠ 0 ↔ _
        rw [b3 l, a3 l]
        simp [or_assoc]

theorem parseOutLoop_inv {counts : Nat → Nat} : ∀ {cs : List Char} {i : Nat} {labels : List Int},
    (∀ c ∈ cs, c.isAlpha = true) →
    OkOrPanic (parseOutLoop 0 counts i cs labels false false) ∧
    ∀ r, parseOutLoop 0 counts i cs labels false false = .ok r → r.2 = false ∧ cs.Nodup ∧ ∀ c ∈ cs, counts c.toNat ≠ 0 := by
  intro cs
  induction cs with
  | nil =>
    intro i labels _
    refine ⟨.ok _, fun r h => ?_⟩
    have h := Except.ok.inj h
    subst h
    simp
  | cons c cs ih =>
    intro i labels hc
    have ih' := fun i labels => ih (i := i) (labels := labels) fun d hd => hc d (by simp [hd])
    simp only [parseOutLoop, hc c (by simp), if_true, Bool.false_eq_true, if_false]
    constructor
    · exact (okOrPanic_assert _).bind fun _ _ => (okOrPanic_assert _).bind fun _ _ =>
        (okOrPanic_setChecked _ _ _).bind fun _ _ => (ih' _ _).1
    · intro r h
      obtain ⟨_, h1, h⟩ := bind_eq_ok.1 h
      obtain ⟨_, h2, h⟩ := bind_eq_ok.1 h
      obtain ⟨l', _, h⟩ := bind_eq_ok.1 h
      obtain ⟨a1, a2, a3⟩ := (ih' _ _).2 r h
      refine ⟨a1, List.nodup_cons.2 ⟨?_, a2⟩, ?_⟩
      · intro hm
        rw [assert_fail (by simp [hm])] at h2
        cases h2
      · intro d hd
        rcases List.mem_cons.1 hd with rfl | hd
        · intro h0
          rw [assert_fail (by simp [h0])] at h1
          cases h1
        · exact a3 d hd

theorem parseOutput_inv {counts : Nat → Nat} {cs : List Char} (hc : ∀ c ∈ cs, c.isAlpha = true) :
    OkOrPanic (parseOutput cs 0 counts) ∧
    ∀ r, parseOutput cs 0 counts = .ok r → cs.Nodup ∧ ∀ c ∈ cs, counts c.toNat ≠ 0 := by
  have hl := parseOutLoop_inv (counts := counts) (i := 0) (labels := List.replicate maxDims 0) hc
  unfold parseOutput
  rw [assert_ok (all_ascii hc)]
  constructor
  · refine (OkOrPanic.ok _).bind fun _ _ => hl.1.bind fun r e => ?_
    obtain ⟨labels, found⟩ := r
    have hf : found = false := (hl.2 _ e).1
    subst hf
    exact .ok _
  · intro r h
    obtain ⟨_, _, h⟩ := bind_eq_ok.1 h
    obtain ⟨x, hx, h⟩ := bind_eq_ok.1 h
    exact (hl.2 x hx).2

/-! ### characters -/

/-- The characters allowed in subscripts. -/
def Allowed (c : Char) : Prop := c.isAlpha = true ∨ c = '.' ∨ c = ' '

theorem parseStep_allowed {shape : List Nat} {bd i : Nat} {c : Char} {st st' : ParseState}
    (h : parseStep shape bd i c st = .ok st') : Allowed c := by
  unfold parseStep at h
  by_cases h1 : st.check = true
  · rw [if_pos h1] at h
    by_cases h2 : c = '.'
    · exact .inr (.inl h2)
    · rw [if_pos h2] at h; cases h
  · rw [if_neg h1] at h
    by_cases h2 : c.isAlpha = true
    · exact .inl h2
    · rw [if_neg h2] at h
      by_cases h3 : c = '.'
      · exact .inr (.inl h3)
      · rw [if_neg h3] at h
        by_cases h4 : c = ' '
        · exact .inr (.inr h4)
        · rw [if_pos h4] at h; cases h

theorem parseLoop_allowed {shape : List Nat} {bd : Nat} {cs : List Char} : ∀ {i : Nat} {st st' : ParseState},
    parseLoop shape bd i cs st = .ok st' → ∀ c ∈ cs, Allowed c := by
  induction cs with
  | nil => intro _ _ _ _ c hc; cases hc
  | cons x cs ih =>
    intro i st st' h c hc
    obtain ⟨st1, h1, h2⟩ := bind_eq_ok.1 h
    rcases List.mem_cons.1 hc with rfl | hc
    · exact parseStep_allowed h1
    · exact ih h2 c hc

theorem parseOperand_allowed {cs : List Char} {shape : List Nat} {t : Tables} {r : List Int × Tables × Nat}
    (h : parseOperand cs shape t = .ok r) : ∀ c ∈ cs, Allowed c := by
  obtain ⟨_, _, h⟩ := bind_eq_ok.1 h
  obtain ⟨_, _, h⟩ := bind_eq_ok.1 h
  obtain ⟨st, h, _⟩ := bind_eq_ok.1 h
  exact parseLoop_allowed h

theorem parseOutLoop_allowed {bd : Nat} {counts : Nat → Nat} {cs : List Char} : ∀ {i : Nat} {labels : List Int} {f k : Bool}
    {r : List Int × Bool}, parseOutLoop bd counts i cs labels f k = .ok r → ∀ c ∈ cs, Allowed c := by
  induction cs with
  | nil => intro _ _ _ _ _ _ c hc; cases hc
  | cons x cs ih =>
    intro i labels f k r h
    suffices Allowed x ∧ ∀ c ∈ cs, Allowed c by
      intro c hc
      rcases List.mem_cons.1 hc with rfl | hc
      · exact this.1
      · exact this.2 c hc
    unfold parseOutLoop at h
    by_cases h1 : k = true
    · rw [if_pos h1] at h
      by_cases h2 : x = '.'
      · rw [if_neg (not_not.2 h2)] at h
        exact ⟨.inr (.inl h2), ih h⟩
      · rw [if_pos h2] at h; cases h
    · rw [if_neg h1] at h
      by_cases h2 : x.isAlpha = true
      · rw [if_pos h2] at h
        obtain ⟨_, _, h⟩ := bind_eq_ok.1 h
        obtain ⟨_, _, h⟩ := bind_eq_ok.1 h
        obtain ⟨_, _, h⟩ := bind_eq_ok.1 h
        exact ⟨.inl h2, ih h⟩
      · rw [if_neg h2] at h
        by_cases h3 : x = '.'
        · rw [if_pos h3] at h
          by_cases h4 : f = true
          · rw [if_pos h4] at h; cases h
          · rw [if_neg h4] at h
            obtain ⟨_, _, h⟩ := bind_eq_ok.1 h
            obtain ⟨_, _, h⟩ := bind_eq_ok.1 h
            exact ⟨.inr (.inl h3), ih h⟩
        · rw [if_neg h3] at h
          by_cases h4 : x = ' '
          · rw [if_neg (not_not.2 h4)] at h
            exact ⟨.inr (.inr h4), ih h⟩
          · rw [if_pos h4] at h; cases h

theorem parseOutput_allowed {cs : List Char} {bd : Nat} {counts : Nat → Nat} {r : List Int × Nat}
    (h : parseOutput cs bd counts = .ok r) : ∀ c ∈ cs, Allowed c := by
  obtain ⟨_, _, h⟩ := bind_eq_ok.1 h
  obtain ⟨_, h, _⟩ := bind_eq_ok.1 h
  exact parseOutLoop_allowed h

end Verif
