import Verif.Lemmas.EinsumReject

/-!
# Output subscripts with dots and spaces
-/

namespace Verif

theorem setChecked_eq_ok {β : Type} {l r : List β} {i : Nat} {v : β} (h : setChecked l i v = .ok r) : i < l.length ∧ r = l.set i v := by
  unfold setChecked at h
  split at h
  · cases h; exact ⟨by assumption, rfl⟩
  · cases h

theorem zeroRange_inv : ∀ {n i : Nat} {l r : List Int}, zeroRange l i n = .ok r →
    r.length = l.length ∧ (∀ k < i, r[k]? = l[k]?) ∧ ∀ k : Nat, (∀ x : Int, l[k]? = some x → x = 0) → ∀ x : Int, r[k]? = some x → x = 0 := by
  intro n
  induction n with
  | zero => intro i l r h; cases h; exact ⟨rfl, fun _ _ => rfl, fun _ h => h⟩
  | succ n ih =>
    intro i l r h
    obtain ⟨l', h1, h⟩ := bind_eq_ok.1 h
    obtain ⟨_, rfl⟩ := setChecked_eq_ok h1
    obtain ⟨a, b, c⟩ := ih h
    refine ⟨by simpa using a, fun k hk => ?_, fun k hk => c k fun x hx => ?_⟩
    · rw [b k (by omega), List.getElem?_set_ne (by omega)]
    · rw [List.getElem?_set] at hx
      split at hx
      · cases hx; rfl
      · exact hk x hx

/-- After an ellipsis: what was written stays, and only letters leave no zero behind. -/
theorem parseOutLoop_after {bd : Nat} {counts : Nat → Nat} {cs : List Char} : ∀ {i : Nat} {labels : List Int}
    {r : List Int × Bool}, 2 ≤ i → parseOutLoop bd counts i cs labels true false = .ok r →
    r.2 = true ∧ (∀ k < i - 2 + bd, r.1[k]? = labels[k]?) ∧
      ((∀ k, i - 2 + bd ≤ k → ∀ x, labels[k]? = some x → x = 0) → i - 2 + bd + cs.length ≤ labels.length →
        (∀ k < i - 2 + bd + cs.length, r.1[k]? ≠ some 0) → ∀ c ∈ cs, c.isAlpha = true) := by
  induction cs with
  | nil => intro i labels r _ h; cases h; exact ⟨rfl, fun _ _ => rfl, fun _ _ _ c hc => by cases hc⟩
  | cons x cs ih =>
    intro i labels r hi h
    unfold parseOutLoop at h
    rw [if_neg (by simp)] at h
    by_cases h2 : x.isAlpha = true
    · rw [if_pos h2] at h
      obtain ⟨_, _, h⟩ := bind_eq_ok.1 h
      obtain ⟨_, _, h⟩ := bind_eq_ok.1 h
      obtain ⟨l', h1, h⟩ := bind_eq_ok.1 h
      rw [if_pos rfl] at h1
      obtain ⟨_, rfl⟩ := setChecked_eq_ok h1
      obtain ⟨a, b, c⟩ := ih (by omega) h
      refine ⟨a, fun k hk => ?_, fun hz hl hn y hy => ?_⟩
      · rw [b k (by omega), List.getElem?_set_ne (by omega)]
      · rcases List.mem_cons.1 hy with rfl | hy
        · exact h2
        · refine c (fun k hk x hx => ?_) ?_ (fun k hk => ?_) y hy
          · rw [List.getElem?_set_ne (by omega)] at hx
            exact hz k (by omega) x hx
          · rw [List.length_cons] at hl; rw [List.length_set]; omega
          · exact hn k (by rw [List.length_cons]; omega)
    · rw [if_neg h2] at h
      by_cases h3 : x = '.'
      · rw [if_pos h3, if_pos rfl] at h; cases h
      · rw [if_neg h3] at h
        by_cases h4 : x = ' '
        · rw [if_neg (not_not.2 h4)] at h
          obtain ⟨a, b, c⟩ := ih (by omega) h
          refine ⟨a, fun k hk => b k (by omega), fun hz hl hn y hy => ?_⟩
          exfalso
          rw [List.length_cons] at hl hn
          have hlt : i - 2 + bd < labels.length := by omega
          refine hn (i - 2 + bd) (by omega) ?_
          rw [b _ (by omega), List.getElem?_eq_getElem hlt, hz _ le_rfl _ (List.getElem?_eq_getElem hlt)]
        · rw [if_pos h4] at h; cases h

/-- Output subscripts without a lone dot at the end: if no label of an output axis is 0, there are only letters and dots,
and dots only if they stand for no axes. -/
theorem parseOutLoop_letters {bd : Nat} {counts : Nat → Nat} {cs : List Char} : ∀ {i : Nat} {labels : List Int}
    {r : List Int × Bool}, parseOutLoop bd counts i cs labels false false = .ok r →
    (∀ k < i, r.1[k]? = labels[k]? ∨ ∃ pre, '.' ∉ pre ∧ cs = pre ++ ['.']) ∧
      ((∀ k, i ≤ k → ∀ x, labels[k]? = some x → x = 0) → (∀ pre, '.' ∉ pre → cs ≠ pre ++ ['.']) →
        ∀ N, N = (if r.2 then i + cs.length - 2 + bd else i + cs.length) → N ≤ labels.length →
        (∀ k < N, r.1[k]? ≠ some 0) → (∀ c ∈ cs, c.isAlpha = true ∨ c = '.') ∧ ('.' ∈ cs → bd = 0)) := by
  induction cs with
  | nil => intro i labels r h; cases h; exact ⟨fun _ _ => .inl rfl, fun _ _ _ _ _ _ => ⟨by simp, by simp⟩⟩
  | cons x cs ih =>
    intro i labels r h
    unfold parseOutLoop at h
    rw [if_neg (by simp)] at h
    have lift : (∃ pre, '.' ∉ pre ∧ cs = pre ++ ['.']) → x ≠ '.' → ∃ pre, '.' ∉ pre ∧ x :: cs = pre ++ ['.'] := by
      rintro ⟨pre, h1, h2⟩ hx
      exact ⟨x :: pre, by simp [h1, hx.symm], by rw [h2]; rfl⟩
    by_cases h2 : x.isAlpha = true
    · have hx : x ≠ '.' := by rintro rfl; simp [Char.isAlpha, Char.isUpper, Char.isLower] at h2
      rw [if_pos h2] at h
      obtain ⟨_, _, h⟩ := bind_eq_ok.1 h
      obtain ⟨_, _, h⟩ := bind_eq_ok.1 h
      obtain ⟨l', h1, h⟩ := bind_eq_ok.1 h
      rw [if_neg (by simp)] at h1
      obtain ⟨_, rfl⟩ := setChecked_eq_ok h1
      obtain ⟨b, c⟩ := ih h
      refine ⟨fun k hk => ?_, fun hz hd N hN hl hn => ?_⟩
      · rcases b k (by omega) with b | b
        · left; rw [b, List.getElem?_set_ne (by omega)]
        · right; exact lift b hx
      · have := c (fun k hk x hx => by rw [List.getElem?_set_ne (by omega)] at hx; exact hz k (by omega) x hx)
          (fun pre hp he => by obtain ⟨q, h1, h2⟩ := lift ⟨pre, hp, he⟩ hx; exact hd q h1 h2) N
          (by rw [hN, List.length_cons]; congr 1 <;> omega) (by simpa using hl) hn
        refine ⟨fun y hy => ?_, fun hm => ?_⟩
        · rcases List.mem_cons.1 hy with rfl | hy
          · exact .inl h2
          · exact this.1 y hy
        · rcases List.mem_cons.1 hm with hm | hm
          · exact absurd hm.symm hx
          · exact this.2 hm
    · rw [if_neg h2] at h
      by_cases h3 : x = '.'
      · subst h3
        rw [if_pos rfl, if_neg (by simp)] at h
        obtain ⟨_, _, h⟩ := bind_eq_ok.1 h
        obtain ⟨l', h1, h⟩ := bind_eq_ok.1 h
        obtain ⟨z1, z2, z3⟩ := zeroRange_inv h1
        cases cs with
        | nil => exact ⟨fun k hk => .inr ⟨[], by simp, rfl⟩, fun _ hd => absurd rfl (hd [] (by simp))⟩
        | cons y cs =>
          unfold parseOutLoop at h
          rw [if_pos rfl] at h
          by_cases hy : y = '.'
          · rw [if_neg (not_not.2 hy)] at h
            obtain ⟨a, b, c⟩ := parseOutLoop_after (by omega) h
            refine ⟨fun k hk => .inl ?_, fun hz hd N hN hl hn => ?_⟩
            · rw [b k (by omega), z2 k hk]
            · rw [a, if_pos rfl, List.length_cons, List.length_cons] at hN
              have hb : bd = 0 := by
                by_contra hb
                have hlt : i < l'.length := by omega
                refine hn i (by omega) ?_
                rw [b _ (by omega), List.getElem?_eq_getElem hlt,
                  z3 i (hz i le_rfl) _ (List.getElem?_eq_getElem hlt)]
              refine ⟨fun w hw => ?_, fun _ => hb⟩
              rcases List.mem_cons.1 hw with rfl | hw
              · exact .inr rfl
              · rcases List.mem_cons.1 hw with rfl | hw
                · exact .inr hy
                · exact .inl (c (fun k hk => z3 k (hz k (by omega))) (by omega) (fun k hk => hn k (by omega)) w hw)
          · rw [if_pos hy] at h; cases h
      · rw [if_neg h3] at h
        by_cases h4 : x = ' '
        · rw [if_neg (not_not.2 h4)] at h
          obtain ⟨b, c⟩ := ih h
          refine ⟨fun k hk => ?_, fun hz hd N hN hl hn => ?_⟩
          · rcases b k (by omega) with b | b
            · exact .inl b
            · exact .inr (lift b h3)
          · exfalso
            have hno : ¬ ∃ pre, '.' ∉ pre ∧ cs = pre ++ ['.'] := fun e => by
              obtain ⟨q, h1, h2⟩ := lift e h3; exact hd q h1 h2
            have hi : i < N := by
              by_cases hf : r.2 = true
              · rw [if_pos hf] at hN
                have : 2 ≤ cs.length := by
                  match cs, h, hno with
                  | [], h, _ => cases h; cases hf
                  | [y], h, hno =>
                    exfalso
                    unfold parseOutLoop at h
                    rw [if_neg (by simp)] at h
                    split at h
                    · obtain ⟨_, _, h⟩ := bind_eq_ok.1 h
                      obtain ⟨_, _, h⟩ := bind_eq_ok.1 h
                      obtain ⟨_, _, h⟩ := bind_eq_ok.1 h
                      cases h; cases hf
                    · split at h
                      · rename_i hy
                        exact hno ⟨[], by simp, by rw [hy]; rfl⟩
                      · split at h
                        · cases h
                        · cases h; cases hf
                  | _ :: _ :: _, _, _ => simp
                rw [List.length_cons] at hN
                omega
              · rw [if_neg hf, List.length_cons] at hN
                omega
            have hlt : i < labels.length := by omega
            refine hn i hi ?_
            rcases b i (by omega) with b | b
            · rw [b, List.getElem?_eq_getElem hlt, hz i le_rfl _ (List.getElem?_eq_getElem hlt)]
            · exact absurd b hno
        · rw [if_pos h4] at h; cases h

theorem parseOutput_letters {cs : List Char} {bd : Nat} {counts : Nat → Nat} {r : List Int × Nat}
    (h : parseOutput cs bd counts = .ok r) (hr : r.2 ≤ maxDims) (hd : ∀ pre, '.' ∉ pre → cs ≠ pre ++ ['.'])
    (hn : ∀ l ∈ r.1.take r.2, l ≠ 0) : (∀ c ∈ cs, c.isAlpha = true ∨ c = '.') ∧ ('.' ∈ cs → bd = 0) := by
  obtain ⟨_, _, h⟩ := bind_eq_ok.1 h
  obtain ⟨⟨labels, found⟩, h1, h⟩ := bind_eq_ok.1 h
  have hz : ∀ k, 0 ≤ k → ∀ x, (List.replicate maxDims (0 : Int))[k]? = some x → x = 0 := by
    intro k _ x hx
    exact List.eq_of_mem_replicate (List.mem_of_getElem? hx)
  have key : r.1 = labels ∧ r.2 = if found then 0 + cs.length - 2 + bd else 0 + cs.length := by
    cases found with
    | true =>
      obtain ⟨n, h2, h⟩ := bind_eq_ok.1 h
      obtain ⟨_, rfl⟩ := usub_eq_ok.1 h2
      cases h
      simp
    | false => cases h; simp
  refine (parseOutLoop_letters h1).2 hz hd r.2 key.2 (by simpa using hr) fun k hk he => ?_
  have : (labels.take r.2)[k]? = some 0 := by rw [List.getElem?_take_of_lt hk]; exact he
  exact hn 0 (by rw [key.1]; exact List.mem_of_getElem? this) rfl

theorem parseOperands_bd {α : Type} : ∀ {ops : List (Arr α)} {subs : List (List Char)} {t : Tables} {bd : Nat}
    {r : List (List Int) × Tables × Nat}, parseOperands subs (ops.map (·.shape)) t bd = .ok r →
    r.1.length = ops.length ∧ bd ≤ r.2.2 ∧
      ∀ p ∈ ops.zip subs, (p.2.filter Char.isAlphanum).length ≤ p.1.shape.length ∧
        p.1.shape.length - (p.2.filter Char.isAlphanum).length ≤ r.2.2 := by
  intro ops
  induction ops with
  | nil =>
    intro subs t bd r h
    cases subs <;> cases h <;> exact ⟨by simp, le_rfl, by simp⟩
  | cons a ops ih =>
    intro subs t bd r h
    cases subs with
    | nil => cases h; exact ⟨by simp, le_rfl, by simp⟩
    | cons s subs =>
      obtain ⟨u, h1, h⟩ := bind_eq_ok.1 h
      obtain ⟨w, h2, h⟩ := bind_eq_ok.1 h
      cases h
      obtain ⟨c0, c1, c2⟩ := ih h2
      obtain ⟨_, _, h1⟩ := bind_eq_ok.1 h1
      obtain ⟨⟨⟩, h3, h1⟩ := bind_eq_ok.1 h1
      obtain ⟨_, _, h1⟩ := bind_eq_ok.1 h1
      obtain ⟨_, _, h1⟩ := bind_eq_ok.1 h1
      obtain ⟨_, _, h1⟩ := bind_eq_ok.1 h1
      cases h1
      have h3 := of_decide_eq_true (assert_eq_ok.1 h3)
      refine ⟨by simp [c0], le_trans (Nat.le_max_left _ _) c1, fun p hp => ?_⟩
      rw [List.zip_cons_cons, List.mem_cons] at hp
      rcases hp with rfl | hp
      · exact ⟨h3, le_trans (Nat.le_max_right _ _) c1⟩
      · exact c2 p hp

theorem mapM_mem_ok {α β : Type} {f : α → Res β} {l : List α} {r : List β} (h : l.mapM f = .ok r) :
    ∀ x ∈ l, ∃ y, f x = .ok y := by
  intro x hx
  cases hf : f x with
  | ok y => exact ⟨y, rfl⟩
  | error e =>
    obtain ⟨e', he⟩ := mapM_error hx hf
    rw [he] at h; cases h

theorem buildPlan_labels {α : Type} {ops : List (Arr α)} {labels : List (List Int)} {t : Tables} {out : List Int} {plan : EinsumPlan}
    (h : buildPlan ops labels t out = .ok plan) (h0 : ops.zip labels ≠ []) : ∀ l ∈ out, l ≠ 0 := by
  obtain ⟨comb, h1, h⟩ := bind_eq_ok.1 h
  obtain ⟨_, _, h⟩ := bind_eq_ok.1 h
  obtain ⟨_, h2, _⟩ := bind_eq_ok.1 h
  have hl := mapM_eq_ok_length h1
  match comb, hl, h2 with
  | [], hl, _ => exact absurd (List.length_eq_zero_iff.1 hl.symm) h0
  | q :: comb, _, h2 =>
    obtain ⟨_, h3⟩ := mapM_mem_ok h2 q (by simp)
    intro l hl h4
    obtain ⟨_, h5⟩ := mapM_mem_ok h3 l (by simp [hl])
    rw [if_pos h4] at h5
    cases h5

/-! ### an output ellipsis without axes -/

theorem parseOutLoop_shift {counts : Nat → Nat} {cs : List Char} (hc : ∀ c ∈ cs, c.isAlpha = true) :
    ∀ {i : Nat} {labels : List Int}, parseOutLoop 0 counts (i + 2) cs labels true false =
      (parseOutLoop 0 counts i cs labels false false).map fun r => (r.1, true) := by
  induction cs with
  | nil => intro i labels; rfl
  | cons c cs ih =>
    intro i labels
    have ih := @ih fun c h => hc c (List.mem_cons_of_mem _ h)
    unfold parseOutLoop
    simp only [Bool.false_eq_true, if_false, hc c (by simp), if_true, Nat.add_sub_cancel, Nat.add_zero]
    cases assert (decide (counts c.toNat ≠ 0)) with
    | error e => rfl
    | ok _ =>
      cases assert (!cs.contains c) with
      | error e => rfl
      | ok _ =>
        simp only [ok_bind]
        cases setChecked labels i (c.toNat : Int) with
        | error e => rfl
        | ok l' =>
          simp only [ok_bind]
          have := @ih (i + 1) l'
          rw [show i + 1 + 2 = i + 2 + 1 by omega] at this
          exact this

theorem parseOutLoop_dots {counts : Nat → Nat} {pre post : List Char} (h1 : ∀ c ∈ pre, c.isAlpha = true)
    (h2 : ∀ c ∈ post, c.isAlpha = true) : ∀ {i : Nat} {labels : List Int}, labels.length = maxDims → i ≤ maxDims →
    parseOutLoop 0 counts i (pre ++ '.' :: '.' :: post) labels false false =
      (parseOutLoop 0 counts i (pre ++ post) labels false false).map fun r => (r.1, true) := by
  induction pre with
  | nil =>
    intro i labels hl hi
    rw [List.nil_append, List.nil_append]
    rw [parseOutLoop]
    simp only [Bool.false_eq_true, if_false, show Char.isAlpha '.' = false from rfl, if_true]
    rw [assert_ok (by simpa using hi)]
    simp only [ok_bind, zeroRange]
    rw [parseOutLoop]
    simp only [if_true, ne_eq, not_true, if_false]
    exact parseOutLoop_shift h2
  | cons c pre ih =>
    intro i labels hl hi
    have ih := @ih fun c h => h1 c (List.mem_cons_of_mem _ h)
    have ha := h1 c (by simp)
    rw [List.cons_append, List.cons_append, parseOutLoop, parseOutLoop]
    simp only [Bool.false_eq_true, if_false, ha, if_true]
    have hdot : c ≠ '.' := by rintro rfl; revert ha; decide
    have : (pre ++ '.' :: '.' :: post).contains c = (pre ++ post).contains c := by
      rw [Bool.eq_iff_iff]
      simp [hdot]
    rw [this]
    cases assert (decide (counts c.toNat ≠ 0)) with
    | error e => rfl
    | ok _ =>
      cases assert (!(pre ++ post).contains c) with
      | error e => rfl
      | ok _ =>
        simp only [ok_bind]
        by_cases hlt : i < labels.length
        · simp only [setChecked, if_pos hlt, ok_bind]
          exact ih (by rw [List.length_set]; exact hl) (by omega)
        · simp only [setChecked, if_neg hlt]; rfl

theorem parseOutput_dots {counts : Nat → Nat} {pre post : List Char} (h1 : ∀ c ∈ pre, c.isAlpha = true)
    (h2 : ∀ c ∈ post, c.isAlpha = true) :
    parseOutput (pre ++ '.' :: '.' :: post) 0 counts = parseOutput (pre ++ post) 0 counts := by
  unfold parseOutput
  have e1 : (pre ++ '.' :: '.' :: post).all (fun c => decide (c.toNat < 128)) =
      (pre ++ post).all fun c => decide (c.toNat < 128) := by simp
  rw [e1, parseOutLoop_dots h1 h2 (by simp) (Nat.zero_le _)]
  cases assert ((pre ++ post).all fun c => decide (c.toNat < 128)) with
  | error e => rfl
  | ok _ =>
    simp only [ok_bind]
    have hf := fun r => (parseOutLoop_inv (counts := counts) (cs := pre ++ post) (i := 0) (labels := List.replicate maxDims 0)
      (fun c hc => (List.mem_append.1 hc).elim (h1 c) (h2 c))).2 r
    cases hp : parseOutLoop 0 counts 0 (pre ++ post) (List.replicate maxDims 0) false false with
    | error e => rfl
    | ok r =>
      obtain ⟨l, f⟩ := r
      obtain rfl : f = false := (hf _ hp).1
      simp only [Except.map, ok_bind, if_true, Bool.false_eq_true, if_false]
      rw [usub_ok (by simp; omega)]
      simp only [ok_bind, pure_res, Nat.add_zero, List.length_append, List.length_cons, Nat.add_assoc, Nat.reduceAdd]
      rw [show pre.length + (post.length + 2) - 2 = pre.length + post.length by omega]

theorem parseOperands_bd_zero {α : Type} : ∀ {ops : List (Arr α)} {subs : List (List Char)} {t : Tables}
    {r : List (List Int) × Tables × Nat}, parseOperands subs (ops.map (·.shape)) t 0 = .ok r →
    (∀ p ∈ ops.zip subs, p.1.shape.length = (p.2.filter Char.isAlphanum).length) → r.2.2 = 0 := by
  intro ops
  induction ops with
  | nil => intro subs t r h _; cases subs <;> cases h <;> rfl
  | cons a ops ih =>
    intro subs t r h hz
    cases subs with
    | nil => cases h; rfl
    | cons s subs =>
      obtain ⟨⟨l, t', bd'⟩, h1, h⟩ := bind_eq_ok.1 h
      have hb : bd' = 0 := by
        have := hz (a, s) (by simp)
        obtain ⟨_, _, h1⟩ := bind_eq_ok.1 h1
        obtain ⟨_, _, h1⟩ := bind_eq_ok.1 h1
        obtain ⟨_, _, h1⟩ := bind_eq_ok.1 h1
        obtain ⟨_, _, h1⟩ := bind_eq_ok.1 h1
        obtain ⟨_, _, h1⟩ := bind_eq_ok.1 h1
        cases h1
        show a.shape.length - (s.filter Char.isAlphanum).length = 0
        exact Nat.sub_eq_zero_of_le (Nat.le_of_eq this)
      subst hb
      simp only at h
      obtain ⟨⟨ls, t'', bd''⟩, h2, h⟩ := bind_eq_ok.1 h
      cases h
      exact ih (r := (ls, t'', bd'')) h2 fun p hp => hz p (List.mem_cons_of_mem _ hp)

end Verif
