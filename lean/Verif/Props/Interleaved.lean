import Verif.Props.Separate

/-!
# C102, interleaved sessions

Two sessions on tensors of their own, their commands mixed in any way, give what they give when each is run alone.
-/

namespace Verif

section like
variable {α : Type}

/-- The same graph, accumulator `i` standing at place `K[i]`. -/
inductive GradFn.Like (K : List Nat) : GradFn α → GradFn α → Prop
  | none : Like K .none .none
  | acc {i j : Nat} (h : K[i]? = some j) : Like K (.acc i) (.acc j)
  | add {l l' r r' : GradFn α} {ls rs : List Nat} (hl : Like K l l') (hr : Like K r r') : Like K (.add l r ls rs) (.add l' r' ls rs)
  | sub {l l' r r' : GradFn α} {ls rs : List Nat} (hl : Like K l l') (hr : Like K r r') : Like K (.sub l r ls rs) (.sub l' r' ls rs)
  | mul {l l' r r' : GradFn α} {a b : Arr α} (hl : Like K l l') (hr : Like K r r') : Like K (.mul l r a b) (.mul l' r' a b)
  | mulScalar {n n' : GradFn α} {s : List Nat} {c : α} (h : Like K n n') : Like K (.mulScalar n s c) (.mulScalar n' s c)
  | div {l l' r r' : GradFn α} {a b : Arr α} (hl : Like K l l') (hr : Like K r r') : Like K (.div l r a b) (.div l' r' a b)
  | divScalar {n n' : GradFn α} {s : List Nat} {c : α} (h : Like K n n') : Like K (.divScalar n s c) (.divScalar n' s c)
  | neg {n n' : GradFn α} {s : List Nat} (h : Like K n n') : Like K (.neg n s) (.neg n' s)
  | dot {l l' r r' : GradFn α} {a b : Arr α} (hl : Like K l l') (hr : Like K r r') : Like K (.dot l r a b) (.dot l' r' a b)
  | matVec {l l' r r' : GradFn α} {a b : Arr α} (hl : Like K l l') (hr : Like K r r') : Like K (.matVec l r a b) (.matVec l' r' a b)
  | matMul {l l' r r' : GradFn α} {a b : Arr α} (hl : Like K l l') (hr : Like K r r') : Like K (.matMul l r a b) (.matMul l' r' a b)
  | bmm {l l' r r' : GradFn α} {a b : Arr α} (hl : Like K l l') (hr : Like K r r') : Like K (.bmm l r a b) (.bmm l' r' a b)
  | reshape {n n' : GradFn α} {s : List Nat} (h : Like K n n') : Like K (.reshape n s) (.reshape n' s)
  | transpose {n n' : GradFn α} {a b : Int} (h : Like K n n') : Like K (.transpose n a b) (.transpose n' a b)

theorem GradFn.Like.mono {K K' : List Nat} (hK : K <+: K') {n n' : GradFn α} (h : n.Like K n') : n.Like K' n' := by
  induction h with
  | none => exact .none
  | acc h =>
    obtain ⟨D, rfl⟩ := hK
    exact .acc (by rw [List.getElem?_append_left (List.getElem?_eq_some_iff.1 h).1]; exact h)
  | add _ _ a b => exact .add a b
  | sub _ _ a b => exact .sub a b
  | mul _ _ a b => exact .mul a b
  | mulScalar _ a => exact .mulScalar a
  | div _ _ a b => exact .div a b
  | divScalar _ a => exact .divScalar a
  | neg _ a => exact .neg a
  | dot _ _ a b => exact .dot a b
  | matVec _ _ a b => exact .matVec a b
  | matMul _ _ a b => exact .matMul a b
  | bmm _ _ a b => exact .bmm a b
  | reshape _ a => exact .reshape a
  | transpose _ a => exact .transpose a

theorem GradFn.Like.isNone {K : List Nat} {n n' : GradFn α} (h : n.Like K n') : n'.isNone = n.isNone := by cases h <;> rfl

/-- The accumulators of a session among those of a larger one. -/
structure StoreAt (K : List Nat) (st st' : Store α) : Prop where
  len : K.length = st.length
  nodup : K.Nodup
  get : ∀ k j : Nat, K[k]? = some j → st'[j]? = st[k]?

theorem bind_fails {β γ : Type} {x : Res β} {k : β → Res γ} {e : Err} : (x >>= k) = .error e ↔ x = .error e ∨ ∃ a, x = .ok a ∧ k a = .error e := by
  cases x <;> simp

/-- If `R` completes, so does `R'`, with the corresponding accumulators, the others being as in `st'`; if `R` fails, so does `R'`, in the same way. -/
structure Adv (K : List Nat) (st' : Store α) (R R' : Res (Store α)) : Prop where
  err : ∀ e, R = .error e → R' = .error e
  ok : ∀ s, R = .ok s → ∃ s', R' = .ok s' ∧ StoreAt K s s' ∧ s'.length = st'.length ∧ ∀ j : Nat, j ∉ K → s'[j]? = st'[j]?

theorem Adv.refl {K : List Nat} {st st' : Store α} (h : StoreAt K st st') : Adv K st' (.ok st) (.ok st') := by
  refine ⟨fun e he => (by cases he), fun s hs => ?_⟩
  obtain rfl := Except.ok.inj hs
  exact ⟨st', rfl, h, rfl, fun _ _ => rfl⟩

theorem Adv.fail {K : List Nat} {st' : Store α} (e : Err) : Adv K st' (.error e) (.error e) := ⟨fun _ h => h, fun _ h => (by cases h)⟩

theorem Adv.bind {K : List Nat} {st' : Store α} {R R' : Res (Store α)} {k k' : Store α → Res (Store α)} (h : Adv K st' R R')
    (hk : ∀ s s', StoreAt K s s' → Adv K s' (k s) (k' s')) : Adv K st' (R >>= k) (R' >>= k') := by
  refine ⟨fun e he => ?_, fun s hs => ?_⟩
  · rcases bind_fails.1 he with he | ⟨s₁, e1, he⟩
    · rw [h.err e he]; rfl
    · obtain ⟨s₁', e', h1, h2, h3⟩ := h.ok s₁ e1
      rw [e']
      exact (hk s₁ s₁' h1).err e he
  · obtain ⟨s₁, e, hs⟩ := bind_eq_ok.1 hs
    obtain ⟨s₁', e', h1, h2, h3⟩ := h.ok s₁ e
    obtain ⟨s', e'', h4, h5, h6⟩ := (hk s₁ s₁' h1).ok s hs
    exact ⟨s', bind_eq_ok.2 ⟨s₁', e', e''⟩, h4, h5.trans h2, fun j hj => (h6 j hj).trans (h3 j hj)⟩

theorem Adv.after {β : Type} {K : List Nat} {st' : Store α} (R : Res β) {k k' : β → Res (Store α)} (hk : ∀ x, Adv K st' (k x) (k' x)) : Adv K st' (R >>= k) (R >>= k') := by
  cases R with
  | error e => exact .fail e
  | ok x => exact hk x

theorem Adv.next {K : List Nat} {n n' : GradFn α} (hn : n.Like K n') {st st' : Store α} (h : StoreAt K st st') {G G' : Res (GradArr α)} (hG : G' = G)
    (hs : ∀ g, G = .ok g → g.src = .none) {f f' : GradArr α → Res (Store α)} (hf : ∀ g : GradArr α, g.src = .none → Adv K st' (f g) (f' g)) :
    Adv K st' (callNext n.isNone st G f) (callNext n'.isNone st' G' f') := by
  unfold callNext
  rw [hn.isNone, hG]
  split
  · exact Adv.refl h
  · cases G with
    | error e => exact .fail e
    | ok g => exact hf g (hs g rfl)

theorem get_none {g : GradArr α} (h : g.src = .none) (st : Store α) : g.get st = g.arr := by
  unfold GradArr.get; rw [h]

theorem fresh_none {r : Res (Arr α)} {g : GradArr α} (h : fresh r = .ok g) : g.src = .none := by
  cases r with
  | error e => cases h
  | ok a => rw [← Except.ok.inj h]

end like

section any
variable {α : Type} [Add α] [Sub α] [Mul α] [Div α] [Neg α] [Zero α] [One α] [MulAdd α] [Build]

omit [Sub α] [Mul α] [Div α] [Neg α] [One α] [MulAdd α] [Build] in
theorem fit_same {g : GradArr α} (h : g.src = .none) (st st' : Store α) (s : List Nat) : fit g st' s = fit g st s := by
  unfold fit; rw [get_none h, get_none h]

omit [Sub α] [Mul α] [Div α] [Neg α] [One α] [MulAdd α] [Build] in
theorem fit_none {g g' : GradArr α} (h : g.src = .none) {st : Store α} {s : List Nat} (hg : fit g st s = .ok g') : g'.src = .none := by
  unfold fit at hg
  split at hg
  · rw [← Except.ok.inj hg]; exact h
  · exact fresh_none hg

omit [Sub α] [Mul α] [Div α] [Neg α] [One α] [MulAdd α] [Build] in
theorem freshFit_store (r : Res (Arr α)) (st st' : Store α) (s : List Nat) : freshFit r st' s = freshFit r st s := by
  cases r with
  | error e => rfl
  | ok a => exact fit_same (g := ⟨a, .none⟩) rfl st st' s

omit [Sub α] [Mul α] [Div α] [Neg α] [One α] [MulAdd α] [Build] in
theorem freshFit_none {r : Res (Arr α)} {st : Store α} {s : List Nat} {g : GradArr α} (h : freshFit r st s = .ok g) : g.src = .none := by
  cases r with
  | error e => cases h
  | ok a => exact fit_none (g := ⟨a, .none⟩) rfl h

omit [Add α] [Sub α] [Mul α] [Div α] [Neg α] [Zero α] [One α] [MulAdd α] [Build] in
theorem adv_set {K : List Nat} {i j : Nat} (hij : K[i]? = some j) {st st' : Store α} (h : StoreAt K st st') (a : Arr α) : Adv K st' (.ok (st.set i a)) (.ok (st'.set j a)) := by
  refine ⟨fun e he => (by cases he), fun s hs => ?_⟩
  obtain rfl := Except.ok.inj hs
  have hi : i < st.length := h.len ▸ (List.getElem?_eq_some_iff.1 hij).1
  have hj : j < st'.length := by
    have := h.get i j hij
    rw [List.getElem?_eq_getElem hi] at this
    exact (List.getElem?_eq_some_iff.1 this).1
  refine ⟨st'.set j a, rfl, ⟨?_, h.nodup, fun k l hkl => ?_⟩, by simp, fun l hl => ?_⟩
  · rw [List.length_set]; exact h.len
  · rw [List.getElem?_set, List.getElem?_set]
    by_cases hk : i = k
    · subst hk
      obtain rfl : j = l := Option.some.inj (hij.symm.trans hkl)
      rw [if_pos rfl, if_pos rfl, if_pos hj, if_pos hi]
    · have : j ≠ l := by
        rintro rfl
        obtain ⟨p1, q1⟩ := List.getElem?_eq_some_iff.1 hij
        obtain ⟨p2, q2⟩ := List.getElem?_eq_some_iff.1 hkl
        exact hk ((List.Nodup.getElem_inj_iff h.nodup).1 (q1.trans q2.symm))
      rw [if_neg hk, if_neg this, h.get k l hkl]
  · rw [List.getElem?_set, if_neg]
    rintro rfl
    exact hl (List.mem_of_getElem? hij)

omit [Sub α] [Mul α] [Div α] [Neg α] [Zero α] [One α] [MulAdd α] in
theorem adv_accumulate {K : List Nat} {i j : Nat} (hij : K[i]? = some j) {g : GradArr α} (hg : g.src = .none) {st st' : Store α} (h : StoreAt K st st') :
    Adv K st' (accumulate i g st) (accumulate j g st') := by
  unfold accumulate
  rw [h.get i j hij]
  have hi : i < st.length := h.len ▸ (List.getElem?_eq_some_iff.1 hij).1
  rw [List.getElem?_eq_getElem hi]
  dsimp only
  rw [get_none hg, get_none hg, hg]
  exact Adv.after _ fun _ => Adv.after _ fun _ => adv_set hij h _

theorem adv_backward {K : List Nat} {n n' : GradFn α} (hn : n.Like K n') : ∀ (g : GradArr α) (st st' : Store α), g.src = .none → StoreAt K st st' →
    Adv K st' (backward n g st) (backward n' g st') := by
  induction hn with
  | none => intro g st st' hg h; exact Adv.refl h
  | acc hij => intro g st st' hg h; exact adv_accumulate hij hg h
  | add hl hr a b =>
    intro g st st' hg h
    simp only [backward]
    exact (Adv.next hl h (fit_same hg _ _ _) (fun _ e => fit_none hg e) fun g' hg' => a g' _ _ hg' h).bind fun s s' h =>
      Adv.next hr h (fit_same hg _ _ _) (fun _ e => fit_none hg e) fun g' hg' => b g' _ _ hg' h
  | sub hl hr a b =>
    intro g st st' hg h
    simp only [backward, get_none hg]
    exact (Adv.next hl h (fit_same hg _ _ _) (fun _ e => fit_none hg e) fun g' hg' => a g' _ _ hg' h).bind fun s s' h =>
      Adv.next hr h (freshFit_store _ _ _ _) (fun _ e => freshFit_none e) fun g' hg' => b g' _ _ hg' h
  | mul hl hr a b =>
    intro g st st' hg h
    simp only [backward, get_none hg]
    exact (Adv.next hl h (freshFit_store _ _ _ _) (fun _ e => freshFit_none e) fun g' hg' => a g' _ _ hg' h).bind fun s s' h =>
      Adv.next hr h (freshFit_store _ _ _ _) (fun _ e => freshFit_none e) fun g' hg' => b g' _ _ hg' h
  | mulScalar hn a =>
    intro g st st' hg h
    simp only [backward, get_none hg]
    exact Adv.next hn h (freshFit_store _ _ _ _) (fun _ e => freshFit_none e) fun g' hg' => a g' _ _ hg' h
  | @div l l' r r' x y hl hr a b =>
    intro g st st' hg h
    simp only [backward, get_none hg]
    rw [show l'.isNone = l.isNone from hl.isNone]
    split
    · exact Adv.next hr h (freshFit_store _ _ _ _) (fun _ e => freshFit_none e) fun g' hg' => b g' _ _ hg' h
    · cases divLeft g.arr y with
      | error e => exact .fail e
      | ok lg =>
        have := (Adv.next hl h (fit_same (g := ⟨lg, .none⟩) rfl st st' x.shape) (fun _ e => fit_none rfl e) fun g' hg' => a g' _ _ hg' h).bind fun s s' h =>
          Adv.next hr h (freshFit_store (divRight lg x y) s s' y.shape) (fun _ e => freshFit_none e) fun g' hg' => b g' _ _ hg' h
        rwa [show l'.isNone = l.isNone from hl.isNone] at this
  | @divScalar n n' s c hn a =>
    intro g st st' hg h
    simp only [backward, get_none hg]
    cases SOp.mul.arrScalar g.arr c with
    | error e => exact .fail e
    | ok g' => exact Adv.next hn h (fit_same (g := ⟨g', .none⟩) rfl _ _ _) (fun _ e => fit_none rfl e) fun g' hg' => a g' _ _ hg' h
  | neg hn a =>
    intro g st st' hg h
    simp only [backward, get_none hg]
    exact Adv.next hn h (freshFit_store _ _ _ _) (fun _ e => freshFit_none e) fun g' hg' => a g' _ _ hg' h
  | dot hl hr a b =>
    intro g st st' hg h
    simp only [backward, get_none hg]
    exact (Adv.next hl h rfl (fun _ e => fresh_none e) fun g' hg' => a g' _ _ hg' h).bind fun s s' h =>
      Adv.next hr h rfl (fun _ e => fresh_none e) fun g' hg' => b g' _ _ hg' h
  | matVec hl hr a b =>
    intro g st st' hg h
    simp only [backward, get_none hg]
    exact (Adv.next hl h rfl (fun _ e => fresh_none e) fun g' hg' => a g' _ _ hg' h).bind fun s s' h =>
      Adv.next hr h rfl (fun _ e => fresh_none e) fun g' hg' => b g' _ _ hg' h
  | matMul hl hr a b =>
    intro g st st' hg h
    simp only [backward, get_none hg]
    exact (Adv.next hl h rfl (fun _ e => fresh_none e) fun g' hg' => a g' _ _ hg' h).bind fun s s' h =>
      Adv.next hr h rfl (fun _ e => fresh_none e) fun g' hg' => b g' _ _ hg' h
  | bmm hl hr a b =>
    intro g st st' hg h
    simp only [backward, get_none hg]
    exact (Adv.next hl h rfl (fun _ e => fresh_none e) fun g' hg' => a g' _ _ hg' h).bind fun s s' h =>
      Adv.next hr h rfl (fun _ e => fresh_none e) fun g' hg' => b g' _ _ hg' h
  | reshape hn a =>
    intro g st st' hg h
    simp only [backward, gradReshape, get_none hg]
    refine Adv.next hn h rfl (fun g' e => ?_) fun g' hg' => a g' _ _ hg' h
    obtain ⟨r, _, e⟩ := bind_eq_ok.1 e
    rw [← Except.ok.inj e]; exact hg
  | transpose hn a =>
    intro g st st' hg h
    simp only [backward, gradTranspose, get_none hg]
    refine Adv.next hn h rfl (fun g' e => ?_) fun g' hg' => a g' _ _ hg' h
    obtain ⟨r, _, e⟩ := bind_eq_ok.1 e
    rw [← Except.ok.inj e]; exact hg

/-- The same tensor, its accumulators at the places `K`. -/
def Tensor.Like (K : List Nat) (t t' : Tensor α) : Prop := ∃ n, t.gradFn.Like K n ∧ t' = { t with gradFn := n }

omit [Add α] [Sub α] [Mul α] [Div α] [Neg α] [Zero α] [One α] [MulAdd α] [Build] in
theorem Tensor.Like.mono {K K' : List Nat} (hK : K <+: K') {t t' : Tensor α} (h : t.Like K t') : t.Like K' t' := by
  obtain ⟨n, h, e⟩ := h
  exact ⟨n, h.mono hK, e⟩

/-- Completes with a tensor alike, or fails in the same way. -/
structure Yields (K : List Nat) (R R' : Res (Tensor α)) : Prop where
  err : ∀ e, R = .error e → R' = .error e
  ok : ∀ t, R = .ok t → ∃ t', R' = .ok t' ∧ t.Like K t'

omit [Add α] [Sub α] [Mul α] [Div α] [Neg α] [Zero α] [One α] [MulAdd α] [Build] in
theorem Yields.after {β : Type} {K : List Nat} (R : Res β) {k k' : β → Res (Tensor α)} (hk : ∀ x, Yields K (k x) (k' x)) : Yields K (R >>= k) (R >>= k') := by
  cases R with
  | error e => exact ⟨fun _ h => h, fun _ h => (by cases h)⟩
  | ok x => exact hk x

omit [Add α] [Sub α] [Mul α] [Div α] [Neg α] [Zero α] [One α] [MulAdd α] [Build] in
theorem yields_mk {K : List Nat} (R : Res (Arr α)) (r : Bool) {n n' : GradFn α} (h : n.Like K n') :
    Yields K (R >>= fun a => pure (Tensor.mk' a r n)) (R >>= fun a => pure (Tensor.mk' a r n')) := by
  refine Yields.after R fun a => ⟨fun e he => (by cases he), fun t ht => ?_⟩
  obtain rfl := Except.ok.inj ht
  refine ⟨_, rfl, if r then n' else .none, ?_, rfl⟩
  show GradFn.Like K (if r then n else .none) _
  cases r
  · exact .none
  · exact h

omit [Add α] [Sub α] [Mul α] [Div α] [One α] [MulAdd α] in
theorem like_neg {K : List Nat} {t t' : Tensor α} (h : t.Like K t') : Yields K t.neg t'.neg := by
  obtain ⟨n, h, rfl⟩ := h
  exact yields_mk t.arr.negA t.requiresGrad (.neg h)

omit [Neg α] [One α] [MulAdd α] in
theorem like_bin {K : List Nat} (op : SOp) {t t' u u' : Tensor α} (h : t.Like K t') (k : u.Like K u') : Yields K (Tensor.bin op t u) (Tensor.bin op t' u') := by
  obtain ⟨n, h, rfl⟩ := h
  obtain ⟨m, k, rfl⟩ := k
  refine yields_mk (op.arr t.arr u.arr) (t.requiresGrad || u.requiresGrad) ?_
  cases op
  · exact .add h k
  · exact .sub h k
  · exact .mul h k
  · exact .div h k

omit [Neg α] [MulAdd α] in
theorem like_scalar {K : List Nat} (op : SOp) (c : α) {t t' : Tensor α} (h : t.Like K t') : Yields K (Tensor.binScalar op t c) (Tensor.binScalar op t' c) := by
  obtain ⟨n, h, rfl⟩ := h
  refine yields_mk (op.arrScalar t.arr c) t.requiresGrad ?_
  cases op
  · exact h
  · exact h
  · exact .mulScalar h
  · exact .divScalar h

omit [Sub α] [Div α] [Neg α] [One α] [MulAdd α] [Build] in
theorem like_dot {K : List Nat} {t t' u u' : Tensor α} (h : t.Like K t') (k : u.Like K u') : Yields K (t.dot u) (t'.dot u') := by
  obtain ⟨n, h, rfl⟩ := h
  obtain ⟨m, k, rfl⟩ := k
  exact yields_mk (t.arr.dot u.arr) (t.requiresGrad || u.requiresGrad) (.dot h k)

omit [Sub α] [Div α] [Neg α] in
theorem like_bmm {K : List Nat} {t t' u u' : Tensor α} (h : t.Like K t') (k : u.Like K u') : Yields K (t.bmm u) (t'.bmm u') := by
  obtain ⟨n, h, rfl⟩ := h
  obtain ⟨m, k, rfl⟩ := k
  exact yields_mk (t.arr.bmm sopLoops u.arr) (t.requiresGrad || u.requiresGrad) (.bmm h k)

omit [Sub α] [Div α] [Neg α] in
theorem like_matmul {K : List Nat} {t t' u u' : Tensor α} (h : t.Like K t') (k : u.Like K u') : Yields K (t.matmul u) (t'.matmul u') := by
  have hd := like_dot h k
  obtain ⟨n, h, rfl⟩ := h
  obtain ⟨m, k, rfl⟩ := k
  unfold Tensor.matmul
  dsimp only
  split
  · exact hd
  · split
    · exact yields_mk _ (t.requiresGrad || u.requiresGrad) (.matVec h k)
    · split
      · exact yields_mk _ (t.requiresGrad || u.requiresGrad) (.matMul h k)
      · split
        · exact Yields.after _ fun _ => ⟨fun _ h => h, fun _ h => (by cases h)⟩
        · exact yields_mk _ (t.requiresGrad || u.requiresGrad) .none

omit [Add α] [Sub α] [Mul α] [Div α] [Neg α] [Zero α] [One α] [MulAdd α] [Build] in
theorem like_node {K : List Nat} (op : SView) {t : Tensor α} {n : GradFn α} (h : t.gradFn.Like K n) : (op.node t).Like K (op.node { t with gradFn := n }) := by
  cases op with
  | view => exact h
  | reshape s =>
    unfold SView.node
    dsimp only
    split
    · exact h
    · exact .reshape h
  | squeeze => exact .reshape h
  | unsqueeze a => exact .reshape h
  | transpose a b => exact .transpose h

omit [Add α] [Sub α] [Mul α] [Div α] [Neg α] [Zero α] [One α] [MulAdd α] [Build] in
theorem like_view {K : List Nat} (op : SView) {t t' : Tensor α} (h : t.Like K t') : Yields K (t.viewOp op) (t'.viewOp op) := by
  obtain ⟨n, h, rfl⟩ := h
  exact yields_mk (op.arr t.arr) t.requiresGrad (like_node op h)

omit [Add α] [Sub α] [Mul α] [Div α] [Neg α] [Zero α] [One α] [MulAdd α] [Build] in
theorem like_into {K : List Nat} (op : SView) (sh : Bool) {t t' : Tensor α} (h : t.Like K t') : Yields K (t.intoViewOp sh op) (t'.intoViewOp sh op) := by
  obtain ⟨n, h, rfl⟩ := h
  exact Yields.after _ fun b => yields_mk (op.intoArr t.arr b) t.requiresGrad (like_node op h)

/-! ### a session among others -/

/-- The state `σ` of a session within the state `ρ` of a larger one: its tensors are at the places `L`, its accumulators at the places `K`. -/
structure Embeds (L K : List Nat) (σ ρ : RunState α) : Prop where
  len : L.length = σ.env.length
  nodup : L.Nodup
  lt : ∀ j ∈ L, j < ρ.env.length
  ltK : ∀ j ∈ K, j < ρ.store.length
  get : ∀ i j : Nat, L[i]? = some j → ∃ t t' : Tensor α, σ.env[i]? = some t ∧ ρ.env[j]? = some t' ∧ t.Like K t'
  store : StoreAt K σ.store ρ.store

/-- Whether a command makes a new tensor. -/
def Cmd.grows : Cmd α → Bool
  | .op (.setReq _ _) => false
  | .op _ => true
  | _ => false

/-- What a command of one session leaves alone: everything that belongs to others. -/
structure Leaves (L K K' : List Nat) (ρ ρ' : RunState α) : Prop where
  env : ∀ j : Nat, j ∉ L → j < ρ.env.length → ρ'.env[j]? = ρ.env[j]?
  store : ∀ j : Nat, j ∉ K → j < ρ.store.length → ρ'.store[j]? = ρ.store[j]?
  new : ∀ j ∈ K', j ∈ K ∨ ρ.store.length ≤ j
  lenE : ρ.env.length ≤ ρ'.env.length
  lenS : ρ.store.length ≤ ρ'.store.length

omit [Add α] [Sub α] [Mul α] [Div α] [Neg α] [Zero α] [One α] [MulAdd α] [Build] in
theorem Embeds.other {L K L' K' K'' : List Nat} {σ ρ ρ' : RunState α} (h : Embeds L K σ ρ) (hl : Leaves L' K' K'' ρ ρ') (dL : ∀ j ∈ L, j ∉ L') (dK : ∀ j ∈ K, j ∉ K') :
    Embeds L K σ ρ' where
  len := h.len
  nodup := h.nodup
  lt := fun j hj => Nat.lt_of_lt_of_le (h.lt j hj) hl.lenE
  ltK := fun j hj => Nat.lt_of_lt_of_le (h.ltK j hj) hl.lenS
  get := fun i j hij => by
    obtain ⟨t, t', h1, h2, h3⟩ := h.get i j hij
    have hj := List.mem_of_getElem? hij
    exact ⟨t, t', h1, by rw [hl.env j (dL j hj) (h.lt j hj)]; exact h2, h3⟩
  store := ⟨h.store.len, h.store.nodup, fun k j hkj => by
    have hj := List.mem_of_getElem? hkj
    rw [hl.store j (dK j hj) (h.ltK j hj)]; exact h.store.get k j hkj⟩

omit [Add α] [Sub α] [Mul α] [Div α] [Neg α] [Zero α] [One α] [MulAdd α] [Build] in
theorem Embeds.push {L K : List Nat} {σ ρ : RunState α} (h : Embeds L K σ ρ) {t t' : Tensor α} (ht : t.Like K t') :
    Embeds (L ++ [ρ.env.length]) K ⟨σ.env ++ [t], σ.store⟩ ⟨ρ.env ++ [t'], ρ.store⟩ ∧ Leaves L K K ρ ⟨ρ.env ++ [t'], ρ.store⟩ := by
  refine ⟨⟨by simp [h.len], ?_, ?_, h.ltK, fun i j hij => ?_, h.store⟩, fun j _ hj => ?_, fun _ _ _ => rfl, fun j hj => .inl hj, by simp, Nat.le_refl _⟩
  · refine List.nodup_append.2 ⟨h.nodup, by simp, ?_⟩
    rintro a ha b hb rfl
    rw [List.mem_singleton] at hb
    exact absurd (h.lt a ha) (by omega)
  · intro j hj
    rw [List.length_append, List.length_singleton]
    rcases List.mem_append.1 hj with hj | hj
    · exact Nat.lt_succ_of_lt (h.lt j hj)
    · rw [List.mem_singleton.1 hj]; exact Nat.lt_succ_self _
  · by_cases hi : i < L.length
    · rw [List.getElem?_append_left hi] at hij
      obtain ⟨u, u', h1, h2, h3⟩ := h.get i j hij
      exact ⟨u, u', by rw [List.getElem?_append_left (h.len ▸ hi)]; exact h1,
        by rw [List.getElem?_append_left (h.lt j (List.mem_of_getElem? hij))]; exact h2, h3⟩
    · have hl := (List.getElem?_eq_some_iff.1 hij).1
      rw [List.length_append, List.length_singleton] at hl
      obtain rfl : i = L.length := by omega
      obtain rfl : ρ.env.length = j := by simpa using hij
      exact ⟨t, t', by rw [h.len]; simp, by simp, ht⟩
  · exact List.getElem?_append_left hj

omit [Add α] [Sub α] [Mul α] [Div α] [Neg α] [One α] [MulAdd α] [Build] in
theorem adv_zero {K : List Nat} {t t' : Tensor α} (ht : t.Like K t') {st st' : Store α} (h : StoreAt K st st') : Adv K st' (t.zeroGradient st) (t'.zeroGradient st') := by
  obtain ⟨a, r, u, m⟩ := t
  obtain ⟨n, hn, rfl⟩ := ht
  cases hn with
  | @acc i j hij =>
    unfold Tensor.zeroGradient
    dsimp only
    rw [h.get i j hij]
    cases st[i]? with
    | none => exact .fail _
    | some a =>
      exact Adv.after _ fun _ => adv_set hij h _
  | _ => exact Adv.refl h

theorem adv_with {K : List Nat} {t t' : Tensor α} (ht : t.Like K t') {st st' : Store α} (h : StoreAt K st st') (g : Arr α) :
    Adv K st' (t.backwardWith ⟨g, .none⟩ st) (t'.backwardWith ⟨g, .none⟩ st') := by
  obtain ⟨n, hn, rfl⟩ := ht
  exact Adv.after _ fun _ => adv_backward hn ⟨g, .none⟩ st st' rfl h

theorem adv_one {K : List Nat} {t t' : Tensor α} (ht : t.Like K t') {st st' : Store α} (h : StoreAt K st st') : Adv K st' (t.backward st) (t'.backward st') := by
  obtain ⟨n, hn, rfl⟩ := ht
  exact Adv.after _ fun o => adv_with ⟨n, hn, rfl⟩ h o

omit [Add α] [Sub α] [Mul α] [Div α] [Neg α] [Zero α] [One α] [MulAdd α] [Build] in
theorem Embeds.set {L K : List Nat} {σ ρ : RunState α} (h : Embeds L K σ ρ) {i j : Nat} (hij : L[i]? = some j) {t t' : Tensor α} (ht : t.Like K t') :
    Embeds L K ⟨σ.env.set i t, σ.store⟩ ⟨ρ.env.set j t', ρ.store⟩ ∧ Leaves L K K ρ ⟨ρ.env.set j t', ρ.store⟩ := by
  have hi : i < σ.env.length := h.len ▸ (List.getElem?_eq_some_iff.1 hij).1
  have hj : j < ρ.env.length := h.lt j (List.mem_of_getElem? hij)
  refine ⟨⟨by simp [h.len], h.nodup, by simpa using h.lt, h.ltK, fun k l hkl => ?_, h.store⟩, fun l hl _ => ?_, fun _ _ _ => rfl, fun j hj => .inl hj, by simp, Nat.le_refl _⟩
  · by_cases hk : i = k
    · subst hk
      obtain rfl : j = l := Option.some.inj (hij.symm.trans hkl)
      exact ⟨t, t', by simp [hi], by simp [hj], ht⟩
    · have : j ≠ l := by
        rintro rfl
        obtain ⟨p1, q1⟩ := List.getElem?_eq_some_iff.1 hij
        obtain ⟨p2, q2⟩ := List.getElem?_eq_some_iff.1 hkl
        exact hk ((List.Nodup.getElem_inj_iff h.nodup).1 (q1.trans q2.symm))
      obtain ⟨u, u', h1, h2, h3⟩ := h.get k l hkl
      exact ⟨u, u', by simpa [List.getElem?_set, hk] using h1, by simpa [List.getElem?_set, this] using h2, h3⟩
  · rw [List.getElem?_set, if_neg]
    rintro rfl
    exact hl (List.mem_of_getElem? hij)

omit [Add α] [Sub α] [Mul α] [Div α] [Neg α] [Zero α] [One α] [MulAdd α] [Build] in
theorem Embeds.grow {L K : List Nat} {σ ρ : RunState α} (h : Embeds L K σ ρ) (z : Arr α) :
    Embeds L (K ++ [ρ.store.length]) ⟨σ.env, σ.store ++ [z]⟩ ⟨ρ.env, ρ.store ++ [z]⟩ where
  len := h.len
  nodup := h.nodup
  lt := h.lt
  ltK := fun j hj => by
    rw [List.length_append, List.length_singleton]
    rcases List.mem_append.1 hj with hj | hj
    · exact Nat.lt_succ_of_lt (h.ltK j hj)
    · rw [List.mem_singleton.1 hj]; exact Nat.lt_succ_self _
  get := fun i j hij => by
    obtain ⟨t, t', h1, h2, h3⟩ := h.get i j hij
    exact ⟨t, t', h1, h2, h3.mono (List.prefix_append _ _)⟩
  store := by
    refine ⟨by simp [h.store.len], ?_, fun k j hkj => ?_⟩
    · refine List.nodup_append.2 ⟨h.store.nodup, by simp, ?_⟩
      rintro a ha b hb rfl
      rw [List.mem_singleton] at hb
      exact absurd (h.ltK a ha) (by omega)
    · by_cases hk : k < K.length
      · rw [List.getElem?_append_left hk] at hkj
        rw [List.getElem?_append_left (h.ltK j (List.mem_of_getElem? hkj)), List.getElem?_append_left (h.store.len ▸ hk)]
        exact h.store.get k j hkj
      · have hl := (List.getElem?_eq_some_iff.1 hkj).1
        rw [List.length_append, List.length_singleton] at hl
        obtain rfl : k = K.length := by omega
        obtain rfl : ρ.store.length = j := by simpa using hkj
        rw [h.store.len]; simp

theorem exec_within {L K : List Nat} {σ ρ σ' : RunState α} (h : Embeds L K σ ρ) {c : Cmd α} (hc : σ.exec c = .ok σ') :
    ∃ ρ' K', ρ.exec (c.rename fun i => L.getD i ρ.env.length) = .ok ρ' ∧
      Embeds (if c.grows then L ++ [ρ.env.length] else L) K' σ' ρ' ∧ Leaves L K K' ρ ρ' ∧ K <+: K' ∧
      ρ'.env.length = ρ.env.length + if c.grows then 1 else 0 := by
  have hg : ∀ {i : Nat} {t : Tensor α}, getT σ.env i = .ok t → ∃ t', getT ρ.env (L.getD i ρ.env.length) = .ok t' ∧ t.Like K t' ∧ L[i]? = some (L.getD i ρ.env.length) := fun {i t} ht => by
    have ht := getT_some ht
    have hi : i < L.length := h.len ▸ (List.getElem?_eq_some_iff.1 ht).1
    have hL : L[i]? = some (L.getD i ρ.env.length) := by rw [List.getD_eq_getElem?_getD, List.getElem?_eq_getElem hi]; rfl
    obtain ⟨u, u', h1, h2, h3⟩ := h.get i _ hL
    obtain rfl : u = t := Option.some.inj (h1.symm.trans ht)
    exact ⟨u', by unfold getT; rw [h2], h3, hL⟩
  have push : ∀ {R R' : Res (Tensor α)}, Yields K R R' → σ.push R = .ok σ' → ∃ ρ' K', ρ.push R' = .ok ρ' ∧ Embeds (L ++ [ρ.env.length]) K' σ' ρ' ∧ Leaves L K K' ρ ρ' ∧
      K <+: K' ∧ ρ'.env.length = ρ.env.length + 1 := fun {R R'} hy hp => by
    obtain ⟨t, rfl, rfl⟩ := push_grows hp
    obtain ⟨t', rfl, h2⟩ := hy.ok t rfl
    obtain ⟨h3, h4⟩ := h.push h2
    exact ⟨_, K, rfl, h3, h4, List.prefix_refl K, by simp⟩
  have one : ∀ (i : Nat) (k : Tensor α → Res (Tensor α)), (∀ {t t'}, Tensor.Like K t t' → Yields K (k t) (k t')) → (do let u ← getT σ.env i; σ.push (k u)) = .ok σ' →
      ∃ ρ' K', (do let u ← getT ρ.env (L.getD i ρ.env.length); ρ.push (k u)) = .ok ρ' ∧ Embeds (L ++ [ρ.env.length]) K' σ' ρ' ∧ Leaves L K K' ρ ρ' ∧
        K <+: K' ∧ ρ'.env.length = ρ.env.length + 1 := fun i k hk hs => by
    obtain ⟨u, e, hs⟩ := bind_eq_ok.1 hs
    obtain ⟨u', e', hu, hL⟩ := hg e
    obtain ⟨ρ', K', h1, h2⟩ := push (hk hu) hs
    exact ⟨ρ', K', bind_eq_ok.2 ⟨u', e', h1⟩, h2⟩
  have two : ∀ (i j : Nat) (k : Tensor α → Tensor α → Res (Tensor α)), (∀ {t t' u u'}, Tensor.Like K t t' → Tensor.Like K u u' → Yields K (k t u) (k t' u')) →
      (do let u ← getT σ.env i; let v ← getT σ.env j; σ.push (k u v)) = .ok σ' →
      ∃ ρ' K', (do let u ← getT ρ.env (L.getD i ρ.env.length); let v ← getT ρ.env (L.getD j ρ.env.length); ρ.push (k u v)) = .ok ρ' ∧
        Embeds (L ++ [ρ.env.length]) K' σ' ρ' ∧ Leaves L K K' ρ ρ' ∧ K <+: K' ∧ ρ'.env.length = ρ.env.length + 1 := fun i j k hk hs => by
    obtain ⟨u, e, hs⟩ := bind_eq_ok.1 hs
    obtain ⟨u', e', hu, hL⟩ := hg e
    obtain ⟨v, f, hs⟩ := bind_eq_ok.1 hs
    obtain ⟨v', f', hv, _⟩ := hg f
    obtain ⟨ρ', K', h1, h2⟩ := push (hk hu hv) hs
    exact ⟨ρ', K', bind_eq_ok.2 ⟨u', e', bind_eq_ok.2 ⟨v', f', h1⟩⟩, h2⟩
  have st : ∀ (i : Nat) (k : Tensor α → Store α → Res (Store α)),
      (∀ {t t'}, Tensor.Like K t t' → Adv K ρ.store (k t σ.store) (k t' ρ.store)) → (do let u ← getT σ.env i; σ.withStore (k u σ.store)) = .ok σ' →
      ∃ ρ' K', (do let u ← getT ρ.env (L.getD i ρ.env.length); ρ.withStore (k u ρ.store)) = .ok ρ' ∧ Embeds L K' σ' ρ' ∧ Leaves L K K' ρ ρ' ∧
        K <+: K' ∧ ρ'.env.length = ρ.env.length + 0 := fun i k hk hs => by
    obtain ⟨u, e, hs⟩ := bind_eq_ok.1 hs
    obtain ⟨u', e', hu, hL⟩ := hg e
    obtain ⟨s, f, hs⟩ := bind_eq_ok.1 hs
    obtain rfl := Except.ok.inj hs
    obtain ⟨s', f', h1, h2, h3⟩ := (hk hu).ok s f
    exact ⟨⟨ρ.env, s'⟩, K, bind_eq_ok.2 ⟨u', e', bind_eq_ok.2 ⟨s', f', rfl⟩⟩, ⟨h.len, h.nodup, h.lt, fun j hj => h2.symm ▸ h.ltK j hj, h.get, h1⟩,
      ⟨fun _ _ _ => rfl, fun j hj _ => h3 j hj, fun j hj => .inl hj, Nat.le_refl _, Nat.le_of_eq h2.symm⟩, List.prefix_refl K, rfl⟩
  cases c with
  | op x =>
    change σ.step x = .ok σ' at hc
    cases x with
    | leaf s d =>
      simp only [RunState.step] at hc
      obtain ⟨u, e, hc⟩ := bind_eq_ok.1 hc
      obtain ⟨ρ', K', h1, h2⟩ := push (R := .ok (Tensor.fromContiguousOwnedBuffer s d)) (R' := .ok (Tensor.fromContiguousOwnedBuffer s d))
        ⟨fun _ h => h, fun t ht => ⟨t, ht, by obtain rfl := Except.ok.inj ht; exact ⟨.none, .none, rfl⟩⟩⟩ hc
      refine ⟨ρ', K', ?_, h2⟩
      show ρ.step (.leaf s d) = _
      simp only [RunState.step]
      exact bind_eq_ok.2 ⟨u, e, h1⟩
    | setReq i b =>
      obtain ⟨u, e, hc⟩ := bind_eq_ok.1 hc
      obtain ⟨u', e', hu, hL⟩ := hg e
      obtain ⟨r, f, hc⟩ := bind_eq_ok.1 hc
      obtain rfl := Except.ok.inj hc
      obtain ⟨n, hn, rfl⟩ := hu
      have fin : ∀ r', ({ u with gradFn := n } : Tensor α).setRequiresGrad b ρ.store = .ok r' →
          ρ.exec (Cmd.rename (fun i => L.getD i ρ.env.length) (.op (.setReq i b))) = .ok ⟨ρ.env.set (L.getD i ρ.env.length) r'.1, r'.2⟩ := fun r' hr =>
        bind_eq_ok.2 ⟨_, e', bind_eq_ok.2 ⟨r', hr, rfl⟩⟩
      unfold Tensor.setRequiresGrad at f fin
      by_cases h1 : (!u.requiresGrad && b) = true
      · rw [if_pos h1] at f fin
        obtain ⟨z, ez, f⟩ := bind_eq_ok.1 f
        obtain rfl := Except.ok.inj f
        have hK : (K ++ [ρ.store.length])[σ.store.length]? = some ρ.store.length := by rw [← h.store.len]; simp
        obtain ⟨h2, h3⟩ := (h.grow z).set hL (t := { u with requiresGrad := b, gradFn := .acc σ.store.length }) (t' := { u with requiresGrad := b, gradFn := .acc ρ.store.length })
          ⟨.acc ρ.store.length, .acc hK, rfl⟩
        refine ⟨_, K ++ [ρ.store.length], fin _ (bind_eq_ok.2 ⟨z, ez, rfl⟩), h2, ⟨h3.env, fun j _ hj => List.getElem?_append_left hj, fun j hj => ?_, h3.lenE, by simp⟩,
          List.prefix_append _ _, by simp [Cmd.grows]⟩
        rcases List.mem_append.1 hj with hj | hj
        · exact .inl hj
        · exact .inr (by rw [List.mem_singleton.1 hj])
      · rw [if_neg h1] at f fin
        by_cases h4 : (u.requiresGrad && !b) = true
        · rw [if_pos h4] at f fin
          obtain rfl := Except.ok.inj f
          obtain ⟨h2, h3⟩ := h.set hL (t := { u with requiresGrad := b, gradFn := .none }) (t' := { u with requiresGrad := b, gradFn := .none }) ⟨.none, .none, rfl⟩
          exact ⟨_, K, fin _ rfl, h2, h3, List.prefix_refl K, by simp [Cmd.grows]⟩
        · rw [if_neg h4] at f fin
          obtain rfl := Except.ok.inj f
          obtain ⟨h2, h3⟩ := h.set hL (t := { u with requiresGrad := b }) (t' := { u with requiresGrad := b, gradFn := n }) ⟨n, hn, rfl⟩
          exact ⟨_, K, fin _ rfl, h2, h3, List.prefix_refl K, by simp [Cmd.grows]⟩
    | neg i => exact one i _ like_neg hc
    | bin op i j => exact two i j _ (like_bin op) hc
    | scal op i c => exact one i _ (like_scalar op c) hc
    | dot i j => exact two i j _ like_dot hc
    | matmul i j => exact two i j _ like_matmul hc
    | bmm i j => exact two i j _ like_bmm hc
    | view op i => exact one i _ (like_view op) hc
    | into op sh i => exact one i _ (like_into op sh) hc
  | backward y => exact st y (fun t s => t.backward s) (fun ht => adv_one ht h.store) hc
  | backwardWith y g => exact st y (fun t s => t.backwardWith ⟨g, .none⟩ s) (fun ht => adv_with ht h.store g) hc
  | zeroGradient i => exact st i (fun t s => t.zeroGradient s) (fun ht => adv_zero ht h.store) hc

/-- A command that fails alone fails among the others, in the same way. -/
theorem exec_fails {L K : List Nat} {σ ρ : RunState α} (h : Embeds L K σ ρ) {c : Cmd α} {e : Err} (hc : σ.exec c = .error e) :
    ρ.exec (c.rename fun i => L.getD i ρ.env.length) = .error e := by
  have arg : ∀ (i : Nat) {k k' : Tensor α → Res (RunState α)}, (∀ {t t'}, Tensor.Like K t t' → k t = .error e → k' t' = .error e) →
      (getT σ.env i >>= k) = .error e → (getT ρ.env (L.getD i ρ.env.length) >>= k') = .error e := fun i k k' hk hs => by
    by_cases hi : i < L.length
    · have hL : L[i]? = some (L.getD i ρ.env.length) := by rw [List.getD_eq_getElem?_getD, List.getElem?_eq_getElem hi]; rfl
      obtain ⟨u, u', h1, h2, h3⟩ := h.get i _ hL
      have e1 : getT σ.env i = .ok u := by unfold getT; rw [h1]
      have e2 : getT ρ.env (L.getD i ρ.env.length) = .ok u' := by unfold getT; rw [h2]
      rw [e1] at hs
      rw [e2]
      exact hk h3 hs
    · have h1 : L.getD i ρ.env.length = ρ.env.length := by rw [List.getD_eq_getElem?_getD, List.getElem?_eq_none (Nat.le_of_not_lt hi)]; rfl
      unfold getT at hs ⊢
      rw [List.getElem?_eq_none (h.len ▸ Nat.le_of_not_lt hi)] at hs
      rw [h1, List.getElem?_eq_none (Nat.le_refl _)]
      exact hs
  have push : ∀ {R R' : Res (Tensor α)}, Yields K R R' → σ.push R = .error e → ρ.push R' = .error e := fun {R R'} hy hp => by
    rcases bind_fails.1 hp with hp | ⟨t, _, hp⟩
    · exact bind_fails.2 (.inl (hy.err e hp))
    · cases hp
  have store : ∀ {R R' : Res (Store α)}, Adv K ρ.store R R' → σ.withStore R = .error e → ρ.withStore R' = .error e := fun {R R'} hy hp => by
    rcases bind_fails.1 hp with hp | ⟨t, _, hp⟩
    · exact bind_fails.2 (.inl (hy.err e hp))
    · cases hp
  cases c with
  | op x =>
    change σ.step x = .error e at hc
    cases x with
    | leaf s d =>
      show ρ.step (.leaf s d) = _
      simp only [RunState.step] at hc ⊢
      rcases bind_fails.1 hc with hc | ⟨_, _, hc⟩
      · exact bind_fails.2 (.inl hc)
      · cases hc
    | setReq i b =>
      refine arg i (fun {t t'} ht hk => ?_) hc
      obtain ⟨n, hn, rfl⟩ := ht
      rcases bind_fails.1 hk with hk | ⟨_, _, hk⟩
      · refine bind_fails.2 (.inl ?_)
        unfold Tensor.setRequiresGrad at hk ⊢
        split at hk
        · rename_i h1
          rw [if_pos h1]
          rcases bind_fails.1 hk with hk | ⟨_, _, hk⟩
          · exact bind_fails.2 (.inl hk)
          · cases hk
        · split at hk <;> cases hk
      · cases hk
    | neg i => exact arg i (fun ht => push (like_neg ht)) hc
    | bin op i j => exact arg i (fun ht => arg j fun hu => push (like_bin op ht hu)) hc
    | scal op i c => exact arg i (fun ht => push (like_scalar op c ht)) hc
    | dot i j => exact arg i (fun ht => arg j fun hu => push (like_dot ht hu)) hc
    | matmul i j => exact arg i (fun ht => arg j fun hu => push (like_matmul ht hu)) hc
    | bmm i j => exact arg i (fun ht => arg j fun hu => push (like_bmm ht hu)) hc
    | view op i => exact arg i (fun ht => push (like_view op ht)) hc
    | into op sh i => exact arg i (fun ht => push (like_into op sh ht)) hc
  | backward y => exact arg y (fun ht => store (adv_one ht h.store)) hc
  | backwardWith y g => exact arg y (fun ht => store (adv_with ht h.store g)) hc
  | zeroGradient i => exact arg i (fun ht => store (adv_zero ht h.store)) hc

/-! ### any number of sessions -/

/-- The commands of session `s`. -/
def part (w : List (Nat × Cmd α)) (s : Nat) : List (Cmd α) := w.filterMap fun x => if x.1 = s then some x.2 else .none

/-- The places of the tensors of each session after a command of session `x.1`, `n` tensors being there before it. -/
def placed (L : Nat → List Nat) (n : Nat) (x : Nat × Cmd α) : Nat → List Nat := fun s => if s = x.1 ∧ x.2.grows = true then L s ++ [n] else L s

/-- The commands of all sessions as one program: each operand is renumbered to the place its tensor has among all of them. -/
def mixed : List (Nat × Cmd α) → (Nat → List Nat) → Nat → List (Cmd α)
  | [], _, _ => []
  | x :: w, L, n => x.2.rename (fun i => (L x.1).getD i n) :: mixed w (placed L n x) (n + if x.2.grows then 1 else 0)

/-- Where the tensors of session `s` are in the end. -/
def places : List (Nat × Cmd α) → (Nat → List Nat) → Nat → Nat → List Nat
  | [], L, _ => L
  | x :: w, L, n => places w (placed L n x) (n + if x.2.grows then 1 else 0)

/-- The states of all sessions within one, apart from each other. -/
structure AllEmbed (L K : Nat → List Nat) (σ : Nat → RunState α) (ρ : RunState α) : Prop where
  each : ∀ s, Embeds (L s) (K s) (σ s) ρ
  tensors : ∀ s r, s ≠ r → ∀ j ∈ L s, j ∉ L r
  stores : ∀ s r, s ≠ r → ∀ j ∈ K s, j ∉ K r

theorem AllEmbed.step {L K : Nat → List Nat} {σ : Nat → RunState α} {ρ : RunState α} (hA : AllEmbed L K σ ρ) {a : Nat} {c : Cmd α} {σa : RunState α} (e : (σ a).exec c = .ok σa) :
    ∃ (ρ₁ : RunState α) (K₁ : Nat → List Nat), ρ.exec (c.rename fun i => (L a).getD i ρ.env.length) = .ok ρ₁ ∧
      AllEmbed (placed L ρ.env.length (a, c)) K₁ (Function.update σ a σa) ρ₁ ∧ ρ₁.env.length = ρ.env.length + if c.grows then 1 else 0 := by
  obtain ⟨h, dL, dK⟩ := hA
  obtain ⟨ρ₁, Ka, e1, h1, h2, hp, hl⟩ := exec_within (h a) e
  have hpl : ∀ s, s ≠ a → placed L ρ.env.length (a, c) s = L s := fun s hs => if_neg fun h => hs h.1
  have hpa : placed L ρ.env.length (a, c) a = if c.grows then L a ++ [ρ.env.length] else L a := by
    unfold placed; by_cases hg : c.grows = true <;> simp [hg]
  have memP : ∀ j ∈ placed L ρ.env.length (a, c) a, j ∈ L a ∨ j = ρ.env.length := fun j hj => by
    rw [hpa] at hj
    split at hj
    · simpa using hj
    · exact .inl hj
  have i1 : ∀ s, Embeds (placed L ρ.env.length (a, c) s) (Function.update K a Ka s) (Function.update σ a σa s) ρ₁ := fun s => by
    by_cases hs : s = a
    · subst hs
      rw [Function.update_self, Function.update_self, hpa]
      exact h1
    · rw [Function.update_of_ne hs, Function.update_of_ne hs, hpl s hs]
      exact (h s).other h2 (dL s a hs) (dK s a hs)
  have i2 : ∀ s r, s ≠ r → ∀ j ∈ placed L ρ.env.length (a, c) s, j ∉ placed L ρ.env.length (a, c) r := fun s r hsr j hj hr => by
    by_cases hs : s = a
    · subst hs
      rw [hpl r (Ne.symm hsr)] at hr
      rcases memP j hj with hj | rfl
      · exact dL s r hsr j hj hr
      · exact absurd ((h r).lt _ hr) (Nat.lt_irrefl _)
    · rw [hpl s hs] at hj
      by_cases hra : r = a
      · subst hra
        rcases memP j hr with hr | rfl
        · exact dL s r hsr j hj hr
        · exact absurd ((h s).lt _ hj) (Nat.lt_irrefl _)
      · rw [hpl r hra] at hr
        exact dL s r hsr j hj hr
  have i3 : ∀ s r, s ≠ r → ∀ j ∈ Function.update K a Ka s, j ∉ Function.update K a Ka r := fun s r hsr j hj hr => by
    by_cases hs : s = a
    · subst hs
      rw [Function.update_self] at hj
      rw [Function.update_of_ne (Ne.symm hsr)] at hr
      rcases h2.new j hj with hj | hj
      · exact dK s r hsr j hj hr
      · exact absurd ((h r).ltK _ hr) (Nat.not_lt.2 hj)
    · rw [Function.update_of_ne hs] at hj
      by_cases hra : r = a
      · subst hra
        rw [Function.update_self] at hr
        rcases h2.new j hr with hr | hr
        · exact dK s r hsr j hj hr
        · exact absurd ((h s).ltK _ hj) (Nat.not_lt.2 hr)
      · rw [Function.update_of_ne hra] at hr
        exact dK s r hsr j hj hr
  exact ⟨ρ₁, Function.update K a Ka, e1, ⟨i1, i2, i3⟩, hl⟩

omit [Add α] [Sub α] [Mul α] [Div α] [Neg α] [Zero α] [One α] [MulAdd α] [Build] in
theorem part_self (a : Nat) (c : Cmd α) (w : List (Nat × Cmd α)) : part ((a, c) :: w) a = c :: part w a := List.filterMap_cons_some (if_pos rfl)

omit [Add α] [Sub α] [Mul α] [Div α] [Neg α] [Zero α] [One α] [MulAdd α] [Build] in
theorem part_other {a s : Nat} (h : s ≠ a) (c : Cmd α) (w : List (Nat × Cmd α)) : part ((a, c) :: w) s = part w s := List.filterMap_cons_none (if_neg (Ne.symm h))

theorem part_step {σ : Nat → RunState α} {a : Nat} {c : Cmd α} {σa : RunState α} (e : (σ a).exec c = .ok σa) (w : List (Nat × Cmd α)) (s : Nat) :
    (part w s).foldlM RunState.exec (Function.update σ a σa s) = (part ((a, c) :: w) s).foldlM RunState.exec (σ s) := by
  by_cases hs : s = a
  · subst hs
    rw [Function.update_self, part_self, List.foldlM_cons, e]
    rfl
  · rw [Function.update_of_ne hs, part_other hs]

theorem mixed_runs (w : List (Nat × Cmd α)) : ∀ (L K : Nat → List Nat) (σ τ : Nat → RunState α) (ρ : RunState α), AllEmbed L K σ ρ →
    (∀ s, (part w s).foldlM RunState.exec (σ s) = .ok (τ s)) →
    ∃ (ρ' : RunState α) (K' : Nat → List Nat), (mixed w L ρ.env.length).foldlM RunState.exec ρ = .ok ρ' ∧ ∀ s, Embeds (places w L ρ.env.length s) (K' s) (τ s) ρ' := by
  induction w with
  | nil =>
    intro L K σ τ ρ h ht
    refine ⟨ρ, K, rfl, fun s => ?_⟩
    rw [← Except.ok.inj (ht s)]
    exact h.each s
  | cons x w ih =>
    obtain ⟨a, c⟩ := x
    intro L K σ τ ρ h ht
    have ha := ht a
    rw [part_self, List.foldlM_cons] at ha
    obtain ⟨σa, e, ha⟩ := bind_eq_ok.1 ha
    obtain ⟨ρ₁, K₁, e1, h1, hl⟩ := h.step e
    obtain ⟨ρ', K', h5, h6⟩ := ih _ K₁ (Function.update σ a σa) τ ρ₁ h1 fun s => (part_step e w s).trans (ht s)
    rw [hl] at h5
    refine ⟨ρ', K', ?_, fun s => ?_⟩
    · rw [mixed, List.foldlM_cons]
      exact bind_eq_ok.2 ⟨ρ₁, e1, h5⟩
    · have := h6 s
      rw [hl] at this
      exact this

theorem mixed_fails (w : List (Nat × Cmd α)) : ∀ (L K : Nat → List Nat) (σ : Nat → RunState α) (ρ : RunState α), AllEmbed L K σ ρ →
    (∃ s e, (part w s).foldlM RunState.exec (σ s) = .error e) →
    ∃ s e, (part w s).foldlM RunState.exec (σ s) = .error e ∧ (mixed w L ρ.env.length).foldlM RunState.exec ρ = .error e := by
  induction w with
  | nil =>
    rintro L K σ ρ h ⟨s, e, hs⟩
    cases hs
  | cons x w ih =>
    obtain ⟨a, c⟩ := x
    rintro L K σ ρ h ⟨s, e, hs⟩
    cases ha : (σ a).exec c with
    | error x =>
      refine ⟨a, x, ?_, ?_⟩
      · rw [part_self, List.foldlM_cons, ha]; rfl
      · rw [mixed, List.foldlM_cons]
        exact bind_fails.2 (.inl (exec_fails (h.each a) ha))
    | ok σa =>
      obtain ⟨ρ₁, K₁, e1, h1, hl⟩ := h.step ha
      obtain ⟨r, x, h2, h3⟩ := ih _ K₁ (Function.update σ a σa) ρ₁ h1 ⟨s, e, (part_step ha w s).trans hs⟩
      refine ⟨r, x, (part_step ha w r).symm.trans h2, ?_⟩
      rw [hl] at h3
      rw [mixed, List.foldlM_cons]
      exact bind_fails.2 (.inr ⟨ρ₁, e1, h3⟩)

omit [Add α] [Sub α] [Mul α] [Div α] [Neg α] [Zero α] [One α] [MulAdd α] [Build] in
theorem like_gradient {K : List Nat} {t t' : Tensor α} (ht : t.Like K t') {st st' : Store α} (h : StoreAt K st st') : t'.gradient st' = t.gradient st := by
  obtain ⟨a, r, u, m⟩ := t
  obtain ⟨n, hn, rfl⟩ := ht
  cases hn with
  | @acc i j hij =>
    unfold Tensor.gradient
    dsimp only
    rw [h.get i j hij]
  | _ => rfl

omit [Add α] [Sub α] [Mul α] [Div α] [Neg α] [Zero α] [One α] [MulAdd α] [Build] in
theorem all_empty : AllEmbed (α := α) (fun _ => []) (fun _ => []) (fun _ => ⟨[], []⟩) ⟨[], []⟩ :=
  ⟨fun _ => ⟨rfl, List.nodup_nil, fun _ h => (by cases h), fun _ h => (by cases h), fun _ _ h => (by cases h), ⟨rfl, List.nodup_nil, fun _ _ h => (by cases h)⟩⟩,
    fun _ _ _ _ h => (by cases h), fun _ _ _ _ h => (by cases h)⟩

/-- **C102.** Any number of sessions on tensors of their own, their commands mixed in any order: if each completes alone, the mixture completes, and every tensor of every session
has the array, the flag and the gradient that it has when its session is run alone. -/
theorem C102_interleaved {w : List (Nat × Cmd α)} {σ : Nat → RunState α} (h : ∀ s, runSession (part w s) = .ok (σ s)) :
    ∃ ρ, runSession (mixed w (fun _ => []) 0) = .ok ρ ∧ ∀ (s i : Nat) (t : Tensor α), (σ s).env[i]? = some t →
      ∃ (j : Nat) (t' : Tensor α), (places w (fun _ => []) 0 s)[i]? = some j ∧ ρ.env[j]? = some t' ∧ t'.arr = t.arr ∧ t'.requiresGrad = t.requiresGrad ∧
        t'.gradient ρ.store = t.gradient (σ s).store := by
  obtain ⟨ρ, K, e, hw⟩ := mixed_runs w (fun _ => []) (fun _ => []) (fun _ => ⟨[], []⟩) σ ⟨[], []⟩ all_empty h
  refine ⟨ρ, e, fun s i t ht => ?_⟩
  have hl : i < (places w (fun _ => []) 0 s).length := (hw s).len ▸ (List.getElem?_eq_some_iff.1 ht).1
  obtain ⟨u, t', h1, h2, h3⟩ := (hw s).get i _ (List.getElem?_eq_getElem hl)
  obtain rfl : u = t := Option.some.inj (h1.symm.trans ht)
  refine ⟨_, t', List.getElem?_eq_getElem hl, h2, ?_, ?_, like_gradient h3 (hw s).store⟩ <;> · obtain ⟨n, _, rfl⟩ := h3; rfl

/-- **C102.** The mixture panics only if some session panics alone, and then with the error of such a session. -/
theorem C102_interleaved_panics {w : List (Nat × Cmd α)} {e : Err} (he : runSession (mixed w (fun _ => []) 0) = .error e) : ∃ s, runSession (part w s) = .error e := by
  by_cases hs : ∃ s e, runSession (part w s) = .error e
  · obtain ⟨s, x, h1, h2⟩ := mixed_fails w (fun _ => []) (fun _ => []) (fun _ => ⟨[], []⟩) ⟨[], []⟩ all_empty hs
    obtain rfl : x = e := Except.error.inj (h2.symm.trans he)
    exact ⟨s, h1⟩
  · have ok : ∀ s, ∃ τ, runSession (part w s) = .ok τ := fun s => by
      cases h : runSession (part w s) with
      | error x => exact absurd ⟨s, x, h⟩ hs
      | ok τ => exact ⟨τ, rfl⟩
    choose σ hσ using ok
    obtain ⟨ρ, h, _⟩ := C102_interleaved hσ
    rw [h] at he
    cases he

/-- **C102.** The mixture completes exactly if every session completes alone. -/
theorem C102_interleaved_completes {w : List (Nat × Cmd α)} :
    (∃ ρ, runSession (mixed w (fun _ => []) 0) = .ok ρ) ↔ ∀ s, ∃ σ, runSession (part w s) = .ok σ := by
  refine ⟨fun ⟨ρ, h⟩ s => ?_, fun h => ?_⟩
  · cases hs : runSession (part w s) with
    | ok σ => exact ⟨σ, rfl⟩
    | error x =>
      obtain ⟨_, _, _, h2⟩ := mixed_fails w (fun _ => []) (fun _ => []) (fun _ => ⟨[], []⟩) ⟨[], []⟩ all_empty ⟨s, x, hs⟩
      cases h.symm.trans h2
  · choose σ hσ using h
    obtain ⟨ρ, h, _⟩ := C102_interleaved hσ
    exact ⟨ρ, h⟩

/-- **C102.** The order in which the commands of different sessions are mixed is of no consequence: two mixtures of the same sessions complete or panic together, and give
every tensor the same array, flag and gradient. -/
theorem C102_any_order {w w' : List (Nat × Cmd α)} (h : ∀ s, part w s = part w' s) {ρ : RunState α} (hr : runSession (mixed w (fun _ => []) 0) = .ok ρ) :
    ∃ ρ', runSession (mixed w' (fun _ => []) 0) = .ok ρ' ∧ ∀ (s i j : Nat) (t : Tensor α), (places w (fun _ => []) 0 s)[i]? = some j → ρ.env[j]? = some t →
      ∃ (j' : Nat) (t' : Tensor α), (places w' (fun _ => []) 0 s)[i]? = some j' ∧ ρ'.env[j']? = some t' ∧ t'.arr = t.arr ∧ t'.requiresGrad = t.requiresGrad ∧
        t'.gradient ρ'.store = t.gradient ρ.store := by
  choose σ hσ using C102_interleaved_completes.1 ⟨ρ, hr⟩
  obtain ⟨ρ₁, K, e₁, h₁⟩ := mixed_runs w (fun _ => []) (fun _ => []) (fun _ => ⟨[], []⟩) σ ⟨[], []⟩ all_empty hσ
  obtain rfl : ρ = ρ₁ := Except.ok.inj (hr.symm.trans e₁)
  obtain ⟨ρ', h', k'⟩ := C102_interleaved (w := w') (σ := σ) fun s => h s ▸ hσ s
  refine ⟨ρ', h', fun s i j t hij ht => ?_⟩
  obtain ⟨u, u', h1, h2, h3⟩ := (h₁ s).get i j hij
  obtain rfl : u' = t := Option.some.inj (h2.symm.trans ht)
  obtain ⟨j', t', k1, k2, k3, k4, k5⟩ := k' s i u h1
  have hu := like_gradient h3 (h₁ s).store
  refine ⟨j', t', k1, k2, ?_, ?_, k5.trans hu.symm⟩ <;> obtain ⟨n, _, rfl⟩ := h3
  · exact k3
  · exact k4

end any

theorem part_alternate {α : Type} (c : List (Cmd α)) (s : Nat) : part (c.flatMap fun x => [(0, x), (1, x)]) s = if s < 2 then c else [] := by
  induction c with
  | nil => simp [part]
  | cons x c ih =>
    rw [List.flatMap_cons]
    unfold part at ih ⊢
    rw [List.filterMap_append, ih]
    by_cases h0 : s = 0
    · subst h0; rfl
    · by_cases h1 : s = 1
      · subst h1; rfl
      · rw [if_neg (by omega), if_neg (by omega)]
        simp [Ne.symm h0, Ne.symm h1]

/-- The sessions of `twoVariables`, twice, command by command in turn. -/
example [Build] : ∃ ρ : RunState ℚ, runSession (mixed (twoVariables.flatMap fun x => [(0, x), (1, x)]) (fun _ => []) 0) = .ok ρ := by
  obtain ⟨σ, x, w, e, y, z, gx, st, hr, he, _⟩ := twoVariables_runs
  obtain ⟨ρ, h, _⟩ := C102_interleaved (w := twoVariables.flatMap fun x => [(0, x), (1, x)]) (σ := fun s => if s < 2 then σ else ⟨[], []⟩) fun s => by
    rw [part_alternate]
    split
    · exact hr
    · rfl
  exact ⟨ρ, h⟩

/-- Two mixtures of the same sessions. -/
example (s : Nat) : part (α := ℚ) [(0, .op (.leaf [] [1])), (1, .op (.leaf [] [2])), (0, .op (.neg 0)), (1, .op (.neg 0))] s =
    part [(1, .op (.leaf [] [2])), (1, .op (.neg 0)), (0, .op (.leaf [] [1])), (0, .op (.neg 0))] s := by
  by_cases h0 : 0 = s
  · subst h0; rfl
  · by_cases h1 : 1 = s
    · subst h1; rfl
    · simp [part, h0, h1]

/-- A session that fails by itself (two elements wanted, one given), and so in the mixture. -/
example [Build] : runSession (α := ℚ) (mixed [(0, .op (.leaf [] [1])), (1, .op (.leaf [2] [1])), (0, .op (.neg 0))] (fun _ => []) 0) = .error .panic := rfl

/-- What the second command of session 1 is called in the mixture. -/
example : places (α := ℚ) [(0, .op (.leaf [] [1])), (1, .op (.leaf [] [2])), (0, .op (.neg 0)), (1, .op (.neg 0))] (fun _ => []) 0 1 = [1, 3] := rfl

example : mixed (α := ℚ) [(0, .op (.leaf [] [1])), (1, .op (.leaf [] [2])), (0, .op (.neg 0)), (1, .op (.neg 0))] (fun _ => []) 0 =
    [.op (.leaf [] [1]), .op (.leaf [] [2]), .op (.neg 0), .op (.neg 1)] := rfl

end Verif
