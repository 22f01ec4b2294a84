import Verif.Props.Batches

/-!
# C99: freezing a parameter

A session with `set_requires_grad(true)` on one more tensor: the values and the gradients of the other tensors are the same without that call, and
where `backward` completes with it, it completes without.
-/

namespace Verif

section spec
variable {α β : Type} [Add β] [Sub β] [Mul β] [Div β] [Neg β] [Zero β]

omit [Add β] [Sub β] [Mul β] [Div β] [Neg β] in
theorem get_push (σ : SpecState β) (t : MT β) (d : Bool) (i : Nat) :
    (σ.push t d).get i = if i = σ.env.length then (t, d) else σ.get i := by
  split
  · next h => exact push_get_last h.symm t d
  · next h =>
    by_cases hi : i < σ.env.length
    · exact push_get_old hi t d
    · show (σ.env ++ [(t, d)]).getD i _ = σ.env.getD i _
      rw [List.getD_eq_getElem?_getD, List.getD_eq_getElem?_getD, List.getElem?_eq_none (by simp; omega), List.getElem?_eq_none (by omega)]

omit [Add β] [Sub β] [Mul β] [Div β] [Neg β] in
theorem get_set (σ : SpecState β) (i m : Nat) (a : MT β × Bool) (j : Nat) :
    SpecState.get ⟨σ.env.set i a, m⟩ j = if i = j ∧ i < σ.env.length then a else σ.get j := by
  unfold SpecState.get
  rw [List.getD_eq_getElem?_getD, List.getD_eq_getElem?_getD, List.getElem?_set]
  by_cases h1 : i = j
  · subst h1
    by_cases h2 : i < σ.env.length
    · simp [h2]
    · simp [h2]
  · simp [h1]

/-- The states of a program with (`σ`) and without (`σ'`) a further variable, tensor `a`. `L`: which tensors were constructed; `K`: the number of the variable. -/
structure Thawed (a K : Nat) (L : List Bool) (σ σ' : SpecState β) : Prop where
  len : σ.env.length = L.length
  len' : σ'.env.length = L.length
  late : K ≤ σ'.vars
  vars : σ.vars = σ'.vars + 1
  elem : ∀ i, (σ.get i).1 = (σ'.get i).1
  flag : ∀ i, i ≠ a → L[i]? ≠ some false → (σ.get i).2 = (σ'.get i).2

omit [Add β] [Sub β] [Mul β] [Div β] [Neg β] in
theorem Thawed.push {a K : Nat} {L : List Bool} {σ σ' : SpecState β} (h : Thawed a K L σ σ') {t t' : MT β} {d d' b : Bool} (ht : t = t')
    (hd : b = true → d = d') : Thawed a K (L ++ [b]) (σ.push t d) (σ'.push t' d') where
  len := by rw [push_length, h.len, List.length_append]; rfl
  len' := by rw [push_length, h.len', List.length_append]; rfl
  late := h.late
  vars := h.vars
  elem := fun i => by
    rw [get_push, get_push, h.len, h.len']
    split
    · exact ht
    · exact h.elem i
  flag := fun i hi hL => by
    rw [get_push, get_push, h.len, h.len']
    split
    · next e =>
      refine hd ?_
      rw [e, List.getElem?_append_right (Nat.le_refl _), Nat.sub_self] at hL
      cases b
      · exact absurd rfl hL
      · rfl
    · next e =>
      refine h.flag i hi fun hf => hL ?_
      rw [List.getElem?_append_left (List.getElem?_eq_some_iff.1 hf).1]; exact hf

theorem Thawed.step {I I' : Interp α β} {a K : Nat} (hc : I'.const = I.const) (hcut : I'.cut = I.cut) (hv : ∀ k, K ≤ k → I'.var k = I.var (k + 1)) (d : α)
    {L : List Bool} {σ σ' : SpecState β} (h : Thawed a K L σ σ') {x : Instr α} (hx : ∀ i b, x = .setReq i b → i ≠ a ∧ L[i]? ≠ some false) :
    Thawed a K (x.extend L x.isLeafInstr) (σ.step I d x) (σ'.step I' d x) := by
  have he := h.elem
  cases x with
  | leaf s data => exact h.push (by rw [hc]) fun _ => rfl
  | setReq i b =>
    obtain ⟨h1, h2⟩ := hx i b rfl
    have hf := h.flag i h1 h2
    have key : ∀ (t : MT β) (b : Bool) (m : Nat), K ≤ m → Thawed a K L ⟨σ.env.set i (t, b), m + 1⟩ ⟨σ'.env.set i (t, b), m⟩ := fun t b m hm =>
      { len := by rw [← h.len]; exact List.length_set
        len' := by rw [← h.len']; exact List.length_set
        late := hm
        vars := rfl
        elem := fun j => by
          rw [get_set, get_set, h.len, h.len']
          split
          · rfl
          · exact he j
        flag := fun j hj hL => by
          rw [get_set, get_set, h.len, h.len']
          split
          · rfl
          · exact h.flag j hj hL }
    cases b with
    | true =>
      show Thawed a K L (if (σ.get i).2 then σ else _) (if (σ'.get i).2 then σ' else _)
      rw [hf]
      split
      · exact h
      · rw [he i, h.vars, hv _ h.late]
        exact key _ _ _ (Nat.le_succ_of_le h.late)
    | false =>
      show Thawed a K L ⟨_, σ.vars⟩ ⟨_, σ'.vars⟩
      rw [he i, h.vars, hcut]
      exact key _ _ _ h.late
  | neg i => exact h.push (by rw [he]) (by intro e; cases e)
  | bin op i j => exact h.push (by rw [he, he]) (by intro e; cases e)
  | scal op i c => exact h.push (by rw [he, hc]) (by intro e; cases e)
  | dot i j => exact h.push (by rw [he, he]) (by intro e; cases e)
  | matmul i j => exact h.push (by rw [he, he]) (by intro e; cases e)
  | bmm i j => exact h.push (by rw [he, he]) (by intro e; cases e)
  | view op i => exact h.push (by rw [he]) (by intro e; cases e)
  | into op sh i => exact h.push (by rw [he]) (by intro e; cases e)

theorem Thawed.run {I I' : Interp α β} {a K : Nat} (hc : I'.const = I.const) (hcut : I'.cut = I.cut) (hv : ∀ k, K ≤ k → I'.var k = I.var (k + 1)) (d : α)
    (q : List (Instr α)) {L : List Bool} {σ σ' : SpecState β} (h : Thawed a K L σ σ')
    (hq : ∀ i b, .setReq i b ∈ q → i ≠ a ∧ (q.foldl (fun L x => x.extend L x.isLeafInstr) L)[i]? ≠ some false) :
    Thawed a K (q.foldl (fun L x => x.extend L x.isLeafInstr) L) (q.foldl (SpecState.step I d) σ) (q.foldl (SpecState.step I' d) σ') := by
  induction q generalizing L σ σ' with
  | nil => exact h
  | cons x q ih =>
    have hpre : ∀ (q : List (Instr α)) (L : List Bool), L <+: q.foldl (fun L x => x.extend L x.isLeafInstr) L := by
      intro q
      induction q with
      | nil => exact fun L => List.prefix_rfl
      | cons x q ih =>
        intro L
        refine List.IsPrefix.trans ?_ (ih _)
        cases x <;> first | exact List.prefix_rfl | exact List.prefix_append _ _
    refine ih (h.step hc hcut hv d fun i b e => ?_) fun i b hb => hq i b (List.mem_cons_of_mem _ hb)
    obtain ⟨h1, h2⟩ := hq i b (by rw [e]; exact List.mem_cons_self)
    refine ⟨h1, fun hf => h2 ?_⟩
    rw [prefix_get (hpre (x :: q) L) (List.getElem?_eq_some_iff.1 hf).1]; exact hf

/-- Interpretations that agree on the variables of a program. -/
theorem spec_vars_le (I : Interp α β) (d : α) (σ : SpecState β) (x : Instr α) : σ.vars ≤ (σ.step I d x).vars := by
  cases x with
  | setReq i b =>
    cases b with
    | true =>
      show σ.vars ≤ (if (σ.get i).2 then σ else _ : SpecState β).vars
      split
      · exact Nat.le_refl _
      · exact Nat.le_succ _
    | false => exact Nat.le_refl _
  | _ => exact Nat.le_refl _

theorem spec_agree {I I' : Interp α β} (hc : I'.const = I.const) (hcut : I'.cut = I.cut) (d : α) {p : List (Instr α)}
    (hv : ∀ k, k < (specRun I d p).vars → I'.var k = I.var k) : specRun I' d p = specRun I d p := by
  induction p using List.reverseRecOn with
  | nil => rfl
  | append_singleton p x ih =>
    have e : ∀ J : Interp α β, specRun J d (p ++ [x]) = (specRun J d p).step J d x := fun J => by
      unfold specRun; rw [List.foldl_append]; rfl
    rw [e] at hv
    rw [e, e, ih fun k hk => hv k (Nat.lt_of_lt_of_le hk (spec_vars_le I d _ x))]
    generalize specRun I d p = σ at hv
    cases x with
    | leaf s data => simp only [SpecState.step, hc]
    | setReq i b =>
      cases b with
      | true =>
        show (if (σ.get i).2 then σ else _) = (if (σ.get i).2 then σ else _)
        split
        · rfl
        · next hf =>
          rw [hv σ.vars]
          show _ < (if (σ.get i).2 then σ else _ : SpecState β).vars
          rw [if_neg hf]
          exact Nat.lt_succ_self _
      | false => simp only [SpecState.step, hcut]
    | scal op i c => simp only [SpecState.step, hc]
    | _ => rfl

end spec

section field
variable {α : Type} [Field α]

/-! ### tensors that depend on no variable do not move -/

def Still (σ : SpecState (Dual α)) : Prop := ∀ i, (σ.get i).2 = false → ∀ idx, ((σ.get i).1.elem idx).eps = 0

theorem Still.push {σ : SpecState (Dual α)} (h : Still σ) {t : MT (Dual α)} {d : Bool} (ht : d = false → ∀ idx, (t.elem idx).eps = 0) : Still (σ.push t d) := by
  intro i hi idx
  rw [get_push] at hi ⊢
  split at hi
  · next e => rw [if_pos e]; exact ht hi idx
  · next e => rw [if_neg e]; exact h i hi idx

theorem still_inner {k : Nat} {f g : Nat → Dual α} (hf : ∀ t, (f t).eps = 0) (hg : ∀ t, (g t).eps = 0) : (innerProduct k f g).eps = 0 := by
  unfold innerProduct
  have : ∀ l : List Nat, (l.map fun t => f t * g t).sum.eps = 0 := by
    intro l
    induction l with
    | nil => rfl
    | cons t l ih =>
      rw [List.map_cons, List.sum_cons]
      show (f t).re * (g t).eps + (f t).eps * (g t).re + (l.map fun t => f t * g t).sum.eps = 0
      rw [ih, hf, hg]; ring
  exact this _

theorem still_op (op : SOp) {x y : Dual α} (hx : x.eps = 0) (hy : y.eps = 0) : (op.run x y).eps = 0 := by
  cases op with
  | add => show x.eps + y.eps = 0; rw [hx, hy, add_zero]
  | sub => show x.eps - y.eps = 0; rw [hx, hy, sub_zero]
  | mul => show x.re * y.eps + x.eps * y.re = 0; rw [hx, hy]; ring
  | div => show (x.eps * y.re - x.re * y.eps) / (y.re * y.re) = 0; rw [hx, hy]; simp

theorem Still.step {σ : SpecState (Dual α)} (h : Still σ) (v : Nat → List Nat → α) (x : Instr α) : Still (σ.step (Dual.interp v) 0 x) := by
  have two : ∀ {a b : Bool}, (a || b) = false → a = false ∧ b = false := fun h => by simpa using h
  cases x with
  | leaf s data => exact h.push fun _ _ => rfl
  | setReq i b =>
    have key : ∀ (t : MT (Dual α)) (b : Bool) (m : Nat), (b = false → ∀ idx, (t.elem idx).eps = 0) → Still ⟨σ.env.set i (t, b), m⟩ := by
      intro t b m ht j hj idx
      rw [get_set] at hj ⊢
      split at hj
      · next e => rw [if_pos e]; exact ht hj idx
      · next e => rw [if_neg e]; exact h j hj idx
    cases b with
    | true =>
      show Still (if (σ.get i).2 then σ else _)
      split
      · exact h
      · exact key _ _ _ (by intro e; cases e)
    | false => exact key _ _ _ fun _ _ => rfl
  | neg i =>
    refine h.push fun e idx => ?_
    show -((σ.get i).1.elem idx).eps = 0
    rw [h i e, neg_zero]
  | bin op i j => exact h.push fun e idx => still_op op (h i (two e).1 _) (h j (two e).2 _)
  | scal op i c => exact h.push fun e idx => still_op op (h i e _) rfl
  | dot i j => exact h.push fun e idx => still_inner (fun _ => h i (two e).1 _) fun _ => h j (two e).2 _
  | matmul i j =>
    refine h.push fun e idx => ?_
    unfold MT.matmul
    split
    · exact still_inner (fun _ => h i (two e).1 _) fun _ => h j (two e).2 _
    · exact still_inner (fun _ => h i (two e).1 _) fun _ => h j (two e).2 _
    · exact still_inner (fun _ => h i (two e).1 _) fun _ => h j (two e).2 _
  | bmm i j => exact h.push fun e idx => still_inner (fun _ => h i (two e).1 _) fun _ => h j (two e).2 _
  | view op i => exact h.push fun e idx => by cases op <;> exact h i e _
  | into op sh i => exact h.push fun e idx => by cases op <;> exact h i e _

theorem still_run (v : Nat → List Nat → α) (p : List (Instr α)) : Still (specRun (Dual.interp v) 0 p) := by
  induction p using List.reverseRecOn with
  | nil => intro i _ idx; rfl
  | append_singleton p x ih =>
    unfold specRun at ih ⊢
    rw [List.foldl_append]
    exact ih.step v x

/-! ### the two programs -/

/-- The variables after number `K` move down by one. -/
def skip (K k : Nat) : Nat := if k < K then k else k + 1

theorem skip_ne (K k : Nat) : skip K k ≠ K := by unfold skip; split <;> omega

theorem skip_inj {K k k' : Nat} (h : skip K k = skip K k') : k = k' := by
  unfold skip at h
  split at h <;> split at h <;> omega

theorem thawed_value (hd tl : List (Instr α)) {a : Nat} (ha : requiresOf hd a = false)
    (htl : ∀ i b, .setReq i b ∈ tl → i ≠ a ∧ (constructed (hd ++ .setReq a true :: tl))[i]? ≠ some false) :
    Thawed a (specRun Interp.value 0 hd).vars (constructed (hd ++ tl)) (specRun Interp.value 0 (hd ++ .setReq a true :: tl)) (specRun Interp.value 0 (hd ++ tl)) := by
  have e1 : constructed (hd ++ .setReq a true :: tl) = tl.foldl (fun L x => x.extend L x.isLeafInstr) (constructed hd) := by
    unfold constructed; rw [List.foldl_append]; rfl
  have e2 : constructed (hd ++ tl) = tl.foldl (fun L x => x.extend L x.isLeafInstr) (constructed hd) := by
    unfold constructed; rw [List.foldl_append]
  have s1 : specRun Interp.value 0 (hd ++ .setReq a true :: tl) = tl.foldl (SpecState.step Interp.value 0) ((specRun Interp.value 0 hd).step Interp.value 0 (.setReq a true)) := by
    unfold specRun; rw [List.foldl_append]; rfl
  have s2 : specRun Interp.value 0 (hd ++ tl) = tl.foldl (SpecState.step Interp.value 0) (specRun Interp.value 0 hd) := by
    unfold specRun; rw [List.foldl_append]
  rw [s1, s2, e2]
  refine Thawed.run rfl rfl (fun _ _ => rfl) 0 tl ?_ fun i b hb => by rw [← e1]; exact htl i b hb
  have hl := spec_length Interp.value 0 hd
  show Thawed a _ _ (if ((specRun Interp.value 0 hd).get a).2 then _ else _) _
  rw [if_neg (by unfold requiresOf at ha; rw [ha]; decide)]
  exact
    { len := by rw [← hl]; exact List.length_set
      len' := hl
      late := Nat.le_refl _
      vars := rfl
      elem := fun j => by
        rw [get_set]
        split
        · next e => rw [← e.1]; rfl
        · rfl
      flag := fun j hj _ => by
        rw [get_set, if_neg fun e => hj e.1.symm] }

theorem thawed_dual (hd tl : List (Instr α)) {a : Nat} (ha : requiresOf hd a = false)
    (htl : ∀ i b, .setReq i b ∈ tl → i ≠ a ∧ (constructed (hd ++ .setReq a true :: tl))[i]? ≠ some false) {v : Nat → List Nat → α}
    (hv : v (specRun Interp.value 0 hd).vars = fun _ => 0) (y : Nat) :
    ((specRun (Dual.interp v) 0 (hd ++ .setReq a true :: tl)).get y).1 =
      ((specRun (Dual.interp fun k => v (skip (specRun Interp.value 0 hd).vars k)) 0 (hd ++ tl)).get y).1 := by
  have hK : ∀ v, (specRun (Dual.interp v) 0 hd).vars = (specRun Interp.value 0 hd).vars := fun v => ((sim_value v).run 0 hd).1
  set K := (specRun Interp.value 0 hd).vars with eK
  set v' : Nat → List Nat → α := fun k => v (skip K k) with ev
  have e1 : constructed (hd ++ .setReq a true :: tl) = tl.foldl (fun L x => x.extend L x.isLeafInstr) (constructed hd) := by
    unfold constructed; rw [List.foldl_append]; rfl
  have s1 : specRun (Dual.interp v) 0 (hd ++ .setReq a true :: tl) =
      tl.foldl (SpecState.step (Dual.interp v) 0) ((specRun (Dual.interp v) 0 hd).step (Dual.interp v) 0 (.setReq a true)) := by
    unfold specRun; rw [List.foldl_append]; rfl
  have s2 : specRun (Dual.interp v') 0 (hd ++ tl) = tl.foldl (SpecState.step (Dual.interp v') 0) (specRun (Dual.interp v) 0 hd) := by
    rw [← spec_agree (I := Dual.interp v) (I' := Dual.interp v') rfl rfl 0 (p := hd) fun k hk => by
      rw [hK] at hk
      funext idx x
      show (⟨x.re, v (skip K k) idx⟩ : Dual α) = ⟨x.re, v k idx⟩
      unfold skip; rw [if_pos hk]]
    unfold specRun; rw [List.foldl_append]
  have hfl : ((specRun (Dual.interp v) 0 hd).get a).2 = false := (dual_value hd v a).1.trans ha
  rw [s1, s2]
  refine (Thawed.run (I := Dual.interp v) (I' := Dual.interp v') (a := a) (K := K) (L := constructed hd) rfl rfl (fun k hk => ?_) 0 tl ?_ fun i b hb => by
    rw [← e1]; exact htl i b hb).elem y
  · funext idx x
    show (⟨x.re, v (skip K k) idx⟩ : Dual α) = ⟨x.re, v (k + 1) idx⟩
    unfold skip; rw [if_neg (by omega)]
  have hl := spec_length (Dual.interp v) 0 hd
  show Thawed a _ _ (if ((specRun (Dual.interp v) 0 hd).get a).2 then _ else _) _
  rw [hfl, if_neg (by decide)]
  exact
    { len := by rw [← hl]; exact List.length_set
      len' := hl
      late := by rw [hK]
      vars := rfl
      elem := fun j => by
        rw [get_set]
        split
        · next e =>
          rw [← e.1]
          have hs := still_run v hd a hfl
          refine congrArg (MT.mk _) ?_
          funext idx
          show (⟨_, v (specRun (Dual.interp v) 0 hd).vars idx⟩ : Dual α) = _
          rw [hK, hv]
          refine Eq.trans ?_ (show (⟨(((specRun (Dual.interp v) 0 hd).get a).1.elem idx).re, (((specRun (Dual.interp v) 0 hd).get a).1.elem idx).eps⟩ : Dual α) = _ from rfl)
          rw [hs]
        · rfl
      flag := fun j hj _ => by
        rw [get_set, if_neg fun e => hj e.1.symm] }

end field

section flow
variable {α : Type}

/-! ### whether `backward` gets through -/

/-- Wherever a gradient gets through `f`, it gets through `f'`. -/
def Flow.Le (f' f : Flow) : Prop := f'.req = true → f.req = true ∧ ∀ d, f.ok d → f'.ok d

def noFlow : Flow := ⟨false, fun _ => True⟩

theorem Flow.Le.takes {f f' : Flow} (h : f'.Le f) {d : List Nat} (ht : f.takes d) : f'.takes d := fun e => (h e).2 d (ht (h e).1)

theorem Flow.Le.receives {f f' : Flow} (h : f'.Le f) {k : Bool} {s r d : List Nat} (ht : f.receives k s r d) : f'.receives k s r d := fun e =>
  ⟨(ht (h e).1).1, (h e).2 _ (ht (h e).1).2⟩

theorem Flow.Le.through {f f' : Flow} (h : f'.Le f) (e : f'.req = true) {s r d : List Nat} {op : SView} (ht : f.through s r d op) : f'.through s r d op := by
  have k := (h e).2
  have two : (r = s ∧ f.ok d ∨ r ≠ [] ∧ ∃ e, d = evenStrides r e ∧ f.ok (evenStrides s e)) →
      (r = s ∧ f'.ok d ∨ r ≠ [] ∧ ∃ e, d = evenStrides r e ∧ f'.ok (evenStrides s e)) := by
    rintro (⟨h1, h2⟩ | ⟨h1, c, h2, h3⟩)
    · exact .inl ⟨h1, k _ h2⟩
    · exact .inr ⟨h1, c, h2, k _ h3⟩
  cases op with
  | view => exact k _ ht
  | transpose ax1 ax2 => exact k _ ht
  | reshape ns => exact two ht
  | squeeze => exact two ht
  | unsqueeze ax => exact two ht

def FlowsLe (F' F : List Flow) : Prop := F'.length = F.length ∧ ∀ i, (F'.getD i noFlow).Le (F.getD i noFlow)

theorem FlowsLe.push {F F' : List Flow} (h : FlowsLe F' F) {f f' : Flow} (hf : f'.Le f) : FlowsLe (F' ++ [f']) (F ++ [f]) := by
  refine ⟨by simp [h.1], fun i => ?_⟩
  have := h.2 i
  rw [List.getD_eq_getElem?_getD, List.getD_eq_getElem?_getD] at *
  by_cases hi : i < F.length
  · rw [List.getElem?_append_left hi, List.getElem?_append_left (h.1 ▸ hi)]; exact this
  · rw [List.getElem?_append_right (by rw [h.1]; omega), List.getElem?_append_right (by omega), h.1]
    cases i - F.length with
    | zero => exact hf
    | succ n => intro e; cases e

theorem FlowsLe.set {F F' : List Flow} (h : FlowsLe F' F) {f f' : Flow} (hf : f'.Le f) (i : Nat) : FlowsLe (F'.set i f') (F.set i f) := by
  refine ⟨by simp [h.1], fun j => ?_⟩
  have := h.2 j
  rw [List.getD_eq_getElem?_getD, List.getD_eq_getElem?_getD] at *
  rw [List.getElem?_set, List.getElem?_set, h.1]
  by_cases hj : i = j
  · rw [if_pos hj, if_pos hj]
    split
    · exact hf
    · intro e; cases e
  · rw [if_neg hj, if_neg hj]; exact this

theorem FlowsLe.step {F F' : List Flow} (h : FlowsLe F' F) (Γ : List (List Nat)) (x : Instr α) : FlowsLe (x.flow Γ F') (x.flow Γ F) := by
  have g := h.2
  have two : ∀ {i j : Nat}, ((F'.getD i noFlow).req || (F'.getD j noFlow).req) = true → ((F.getD i noFlow).req || (F.getD j noFlow).req) = true := by
    intro i j e
    rw [Bool.or_eq_true] at e ⊢
    exact e.imp (fun e => (g i e).1) fun e => (g j e).1
  cases x with
  | leaf s data => exact h.push fun e => by cases e
  | setReq i b => exact h.set (f := ⟨b, (F.getD i noFlow).takes⟩) (f' := ⟨b, (F'.getD i noFlow).takes⟩) (fun e => ⟨e, fun d ht => (g i).takes ht⟩) i
  | neg i => exact h.push fun e => ⟨(g i e).1, fun d ht => (g i e).2 _ ht⟩
  | scal op i c => exact h.push fun e => ⟨(g i e).1, fun d ht => (g i e).2 _ ht⟩
  | bin op i j =>
    unfold Instr.flow
    dsimp only
    rw [h.1]
    exact h.push fun e => ⟨two e, fun d ht => ⟨(g i).receives ht.1, (g j).receives ht.2⟩⟩
  | dot i j => exact h.push fun e => ⟨two e, fun d ht => ⟨(g i).takes ht.1, (g j).takes ht.2⟩⟩
  | matmul i j => exact h.push fun e => ⟨two e, fun d ht => ⟨(g i).takes ht.1, (g j).takes ht.2⟩⟩
  | bmm i j => exact h.push fun e => ⟨two e, fun d ht => ⟨(g i).takes ht.1, (g j).takes ht.2⟩⟩
  | view op i =>
    unfold Instr.flow
    dsimp only
    rw [h.1]
    exact h.push fun e => ⟨(g i e).1, fun d ht => (g i).through e ht⟩
  | into op sh i =>
    unfold Instr.flow
    dsimp only
    rw [h.1]
    exact h.push fun e => ⟨(g i e).1, fun d ht => (g i).through e ht⟩

theorem freeze_passes {Γ : List (List Nat)} {hd tl : List (Instr α)} {a y : Nat} {d : List Nat} (h : Passes Γ (hd ++ .setReq a true :: tl) y d) :
    Passes Γ (hd ++ tl) y d := by
  unfold Passes at h ⊢
  rw [List.foldl_append] at h ⊢
  rw [List.foldl_cons] at h
  generalize hd.foldl (Instr.flow Γ) [] = F at h
  have key : ∀ (tl : List (Instr α)) {F F' : List Flow}, FlowsLe F' F → FlowsLe (tl.foldl (Instr.flow Γ) F') (tl.foldl (Instr.flow Γ) F) := by
    intro tl
    induction tl with
    | nil => exact fun h => h
    | cons x tl ih => exact fun h => ih (h.step Γ x)
  have h0 : FlowsLe F (Instr.flow Γ F (.setReq a true : Instr α)) := by
    refine ⟨by simp [Instr.flow], fun j => ?_⟩
    show (F.getD j noFlow).Le ((F.set a ⟨true, (F.getD a noFlow).takes⟩).getD j noFlow)
    intro e
    rw [List.getD_eq_getElem?_getD, List.getElem?_set]
    split
    · next hj =>
      subst hj
      split
      · exact ⟨rfl, fun d ht => ht e⟩
      · next hn =>
        rw [List.getD_eq_getElem?_getD, List.getElem?_eq_none (by omega)] at e
        cases e
    · rw [← List.getD_eq_getElem?_getD]; exact ⟨e, fun _ h => h⟩
  exact ((key tl h0).2 y).takes h

theorem freeze_shaped {Γ Γ' : List (List Nat)} {B : List Bool} {hd tl : List (Instr α)} {a : Nat} {b : Bool}
    (h : WellShaped Γ B (hd ++ .setReq a b :: tl) Γ') : WellShaped Γ B (hd ++ tl) Γ' := by
  induction hd generalizing Γ B with
  | nil => obtain ⟨r, _, _, _, _, h⟩ := h; exact h
  | cons x hd ih => obtain ⟨r, h1, h2, h3, h4, h⟩ := h; exact ⟨r, h1, h2, h3, h4, ih h⟩

theorem freeze_constructed (hd tl : List (Instr α)) (a : Nat) (b : Bool) : constructed (hd ++ .setReq a b :: tl) = constructed (hd ++ tl) := by
  unfold constructed
  rw [List.foldl_append, List.foldl_append]
  rfl

end flow

section field
variable {α : Type} [Field α]

theorem freeze_collected (hd tl : List (Instr α)) {a : Nat} (ha : requiresOf hd a = false)
    (htl : ∀ i b, .setReq i b ∈ tl → i ≠ a ∧ (constructed (hd ++ .setReq a true :: tl))[i]? ≠ some false) (i k : Nat) (J : List Nat) (c : List (Cmd α)) :
    collected (hd ++ .setReq a true :: tl) i (skip (specRun Interp.value 0 hd).vars k) J 0 c = collected (hd ++ tl) i k J 0 c := by
  have hj : ∀ y, jacobian (hd ++ .setReq a true :: tl) y (skip (specRun Interp.value 0 hd).vars k) J = jacobian (hd ++ tl) y k J := fun y => by
    funext idx
    unfold jacobian
    rw [thawed_dual hd tl ha htl (by funext idx; exact if_neg fun h => skip_ne _ _ h.1.symm)]
    have : (fun k' => unitDir (α := α) (skip (specRun Interp.value 0 hd).vars k) J (skip (specRun Interp.value 0 hd).vars k')) = unitDir k J := by
      funext k' J'
      unfold unitDir
      refine if_congr ⟨fun h => ⟨skip_inj h.1, h.2⟩, fun h => ⟨by rw [h.1], h.2⟩⟩ rfl rfl
    rw [this]
  have ht : ∀ y, tensorOf (hd ++ .setReq a true :: tl) y = tensorOf (hd ++ tl) y := (thawed_value hd tl ha htl).elem
  unfold collected
  simp only [hj, ht]

variable [Build]

/-- **C99.** A session whose header is `hd`, then `set_requires_grad(true)` on tensor `a`, which did not require gradient, then `tl`, in which
`set_requires_grad` is called on constructed tensors other than `a`. If it completes, so does the session without that call, with the same elements of
every tensor, and the same gradient of every constructed tensor other than `a`. -/
theorem C99_freeze {hd tl : List (Instr α)} {a : Nat} {body : List (Cmd α)} {Γ : List (List Nat)} (ha : requiresOf hd a = false)
    (htl : ∀ i b, .setReq i b ∈ tl → i ≠ a ∧ (constructed (hd ++ .setReq a true :: tl))[i]? = some true)
    (h : WellShaped [] [] (hd ++ .setReq a true :: tl ++ program body) Γ)
    (hb : Legal (constructed (hd ++ .setReq a true :: tl ++ program body)) Γ (constructed (hd ++ .setReq a true :: tl)).length body)
    {σ : RunState α} (hσ : runSession ((hd ++ .setReq a true :: tl).map .op ++ body) = .ok σ) :
    ∃ τ, runSession ((hd ++ tl).map .op ++ body) = .ok τ ∧ σ.env.map (fun t => t.arr.shape) = Γ ∧ τ.env.map (fun t => t.arr.shape) = Γ ∧
      (∀ (i : Nat) (t u : Tensor α), σ.env[i]? = some t → τ.env[i]? = some u → ∃ s f, t.arr.Denotes s f ∧ u.arr.Denotes s f) ∧
      ∀ i, i ≠ a → (constructed (hd ++ .setReq a true :: tl ++ program body))[i]? = some true →
        requiresOf (hd ++ tl ++ program body) i = requiresOf (hd ++ .setReq a true :: tl ++ program body) i ∧
        (requiresOf (hd ++ .setReq a true :: tl ++ program body) i = true →
        ∃ (t u : Tensor α) (g g' : Arr α) (s : List Nat) (f : List Nat → α), σ.env[i]? = some t ∧ τ.env[i]? = some u ∧
          t.gradient σ.store = some g ∧ u.gradient τ.store = some g' ∧ g.Denotes s f ∧ g'.Denotes s f) := by
  have hA := C91_loop h hb
  have eP : hd ++ .setReq a true :: tl ++ program body = hd ++ .setReq a true :: (tl ++ program body) := by simp
  have eQ : hd ++ tl ++ program body = hd ++ (tl ++ program body) := by simp
  have ec := freeze_constructed hd (tl ++ program body) a true
  have hnos := loop_no_setReq hb
  have htl' : ∀ i b, .setReq i b ∈ tl ++ program body → i ≠ a ∧ (constructed (hd ++ .setReq a true :: (tl ++ program body)))[i]? ≠ some false := by
    intro i b hm
    rcases List.mem_append.1 hm with hm | hm
    · obtain ⟨h1, h2⟩ := htl i b hm
      refine ⟨h1, ?_⟩
      rw [← eP, prefix_get (constructed_append _ _) (List.getElem?_eq_some_iff.1 h2).1, h2]
      simp
    · exact absurd rfl (hnos _ hm i b)
  have hall : ∀ c ∈ body, c.passes Γ (hd ++ .setReq a true :: tl ++ program body) := Classical.byContradiction fun hn => by
    rw [hA.2 hn] at hσ; cases hσ
  obtain ⟨σ', h1, h2, h3, h4⟩ := hA.1 hall
  obtain rfl : σ = σ' := by rw [h1] at hσ; cases hσ; rfl
  have hQ : WellShaped [] [] (hd ++ tl ++ program body) Γ := by rw [eQ]; rw [eP] at h; exact freeze_shaped h
  have lQ : Legal (constructed (hd ++ tl ++ program body)) Γ (constructed (hd ++ tl)).length body := by
    rw [eQ, ← ec, ← eP, ← freeze_constructed hd tl a true]; exact hb
  obtain ⟨τ, g1, g2, g3, g4⟩ := (C91_loop hQ lQ).1 fun c hc => by
    have := hall c hc
    rw [eP] at this
    rw [eQ]
    cases c with
    | backward y => exact freeze_passes this
    | backwardWith y g => exact freeze_passes this
    | op x => trivial
    | zeroGradient i => trivial
  have hval := thawed_value hd (tl ++ program body) ha htl'
  have ht : ∀ y, tensorOf (hd ++ .setReq a true :: (tl ++ program body)) y = tensorOf (hd ++ (tl ++ program body)) y := hval.elem
  rw [eP] at h3 h4 ⊢
  rw [eQ] at g3 g4 ⊢
  refine ⟨τ, g1, h2, g2, fun i t u hti hui => ⟨_, _, h3 i t hti, by rw [ht]; exact g3 i u hui⟩, fun i hia hi => ?_⟩
  have hreq : requiresOf (hd ++ .setReq a true :: (tl ++ program body)) i = requiresOf (hd ++ (tl ++ program body)) i := hval.flag i hia (by rw [← ec, hi]; simp)
  refine ⟨hreq.symm, fun hq => ?_⟩
  obtain ⟨t, k, g, hti, hv, hg, hdn⟩ := h4 i hi hq
  obtain ⟨u, k', g', hui, hv', hg', hdn'⟩ := g4 i (by rw [← ec]; exact hi) (by rw [← hreq]; exact hq)
  have h0 : 0 ∉ (tensorOf (hd ++ (tl ++ program body)) i).shape := by
    rw [← (g3 i u hui).1]
    exact (wellShaped_small hQ (fun s hs => by cases hs) _ (by rw [← g2]; exact List.mem_map_of_mem (List.mem_of_getElem? hui))).1
  obtain ⟨idx, hidx⟩ : ∃ idx, InB idx (tensorOf (hd ++ (tl ++ program body)) i).shape := ⟨_, exists_inB h0⟩
  obtain rfl : k = skip (specRun Interp.value 0 hd).vars k' := by
    have e1 := hv (unitDir (skip (specRun Interp.value 0 hd).vars k') idx) idx (by rw [ht]; exact hidx)
    rw [thawed_dual hd _ ha htl' (by funext idx; exact if_neg fun h => skip_ne _ _ h.1.symm), hv' _ idx hidx] at e1
    refine Classical.byContradiction fun hne => ?_
    simp [unitDir, hne] at e1
  refine ⟨t, u, g, g', _, _, hti, hui, hg, hg', hdn, ?_⟩
  simp only [freeze_collected hd (tl ++ program body) ha htl', ht]
  exact hdn'

end field

/-- **C99, elements of any type**, so the floats as well: if the session completes, so does the one without the call. -/
theorem C99_any {α : Type} [Add α] [Sub α] [Mul α] [Div α] [Neg α] [Zero α] [One α] [MulAdd α] [Build] {hd tl : List (Instr α)} {a : Nat} {body : List (Cmd α)}
    {Γ : List (List Nat)} (h : WellShaped [] [] (hd ++ .setReq a true :: tl ++ program body) Γ)
    (hb : Legal (constructed (hd ++ .setReq a true :: tl ++ program body)) Γ (constructed (hd ++ .setReq a true :: tl)).length body)
    (hσ : ∃ σ, runSession ((hd ++ .setReq a true :: tl).map .op ++ body) = .ok σ) : ∃ τ, runSession ((hd ++ tl).map .op ++ body) = .ok τ := by
  have eP : hd ++ .setReq a true :: tl ++ program body = hd ++ .setReq a true :: (tl ++ program body) := by simp
  have eQ : hd ++ tl ++ program body = hd ++ (tl ++ program body) := by simp
  have hQ : WellShaped [] [] (hd ++ tl ++ program body) Γ := by rw [eQ]; rw [eP] at h; exact freeze_shaped h
  have lQ : Legal (constructed (hd ++ tl ++ program body)) Γ (constructed (hd ++ tl)).length body := by
    rw [eQ, ← freeze_constructed hd (tl ++ program body) a true, ← eP, ← freeze_constructed hd tl a true]; exact hb
  refine (C91_any hQ lQ).1.2 fun c hc => ?_
  have := (C91_any h hb).1.1 hσ c hc
  rw [eP] at this
  rw [eQ]
  cases c with
  | backward y => exact freeze_passes this
  | backwardWith y g => exact freeze_passes this
  | op x => trivial
  | zeroGradient i => trivial

/-- `a` and `b` require gradient, `y = a * b`, `y.backward()`; `a` is frozen. -/
example [Build] : requiresOf ([.leaf [2] [1, 2], .leaf [2] [3, 4]] : List (Instr ℚ)) 0 = false ∧
    (∀ i b, (.setReq i b : Instr ℚ) ∈ [.setReq 1 true] →
      i ≠ 0 ∧ (constructed ([.leaf [2] [1, 2], .leaf [2] [3, 4]] ++ .setReq 0 true :: [.setReq 1 true] : List (Instr ℚ)))[i]? = some true) ∧
    (WellShaped [] [] ([.leaf [2] [1, 2], .leaf [2] [3, 4]] ++ .setReq 0 true :: [.setReq 1 true] ++
      program [.op (.bin .mul 0 1), .backward 2] : List (Instr ℚ)) [[2], [2], [2]]) ∧
    (Legal (constructed ([.leaf [2] [1, 2], .leaf [2] [3, 4]] ++ .setReq 0 true :: [.setReq 1 true] ++ program [.op (.bin .mul 0 1), .backward 2] :
      List (Instr ℚ))) [[2], [2], [2]] 2 ([.op (.bin .mul 0 1), .backward 2] : List (Cmd ℚ))) ∧
    ∃ σ, runSession (([.leaf [2] [1, 2], .leaf [2] [3, 4]] ++ .setReq 0 true :: [.setReq 1 true] : List (Instr ℚ)).map .op ++
      [.op (.bin .mul 0 1), .backward 2]) = .ok σ := by
  have h : WellShaped [] [] ([.leaf [2] [1, 2], .leaf [2] [3, 4]] ++ .setReq 0 true :: [.setReq 1 true] ++
      program [.op (.bin .mul 0 1), .backward 2] : List (Instr ℚ)) [[2], [2], [2]] :=
    ⟨[2], ⟨rfl, rfl⟩, by simp, by simp, rfl, [2], ⟨rfl, rfl⟩, by simp, by simp, rfl, [2], rfl, by simp, by simp, rfl, [2], rfl, by simp, by simp, rfl,
      [2], ⟨[2], [2], rfl, rfl, (BroadcastsTo.refl [2]).compatible, (BroadcastsTo.refl [2]).joint⟩, by simp, by simp, rfl, rfl⟩
  have hb : ∀ C, Legal C [[2], [2], [2]] 2 ([.op (.bin .mul 0 1), .backward 2] : List (Cmd ℚ)) := fun C => ⟨(by intro _ _ h; cases h), by decide, trivial⟩
  refine ⟨rfl, by intro i b h; simp at h; obtain ⟨rfl, rfl⟩ := h; decide, h, hb _, (C91_any h (hb _)).1.2 ?_⟩
  simp [Cmd.passes, Passes, Instr.flow, Flow.takes, Flow.receives, KeepsAxis, evenStrides, rowStrides, numel, program, Cmd.instr, List.filterMap_cons, List.filterMap_nil]

end Verif
