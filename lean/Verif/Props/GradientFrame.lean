import Verif.Props.GradientShared
import Verif.Spec.Origins

/-!
# C41, C43: shapes of gradients, and what backward leaves alone, without restrictions

For everything that can be done with tensors (`Done`: all operations in borrowing and consuming forms, `backward`, `backward_with` with any
seed, also a view of a gradient, `zero_gradient`), for all shapes, also with extents 0 and more than 32 axes, and any arithmetic, also that
of floats with infinities and NaN.
-/

namespace Verif

variable {α : Type} [Add α] [Sub α] [Mul α] [Div α] [Neg α] [Zero α] [One α] [MulAdd α] [Build]

/-- What can be done with tensors: the program consists of the operations so far. -/
inductive Done : List (Instr α) → RunState α → Prop
  | start : Done [] ⟨[], []⟩
  | op {p : List (Instr α)} {σ σ' : RunState α} (x : Instr α) : Done p σ → σ.step x = .ok σ' → Done (p ++ [x]) σ'
  | backward {p : List (Instr α)} {σ : RunState α} {y : Nat} {t : Tensor α} {st : Store α} : Done p σ → σ.env[y]? = some t → t.backward σ.store = .ok st → Done p ⟨σ.env, st⟩
  | backwardWith {p : List (Instr α)} {σ : RunState α} {y : Nat} {t : Tensor α} {st : Store α} (g : GradArr α) : Done p σ → σ.env[y]? = some t → t.backwardWith g σ.store = .ok st → Done p ⟨σ.env, st⟩
  | zeroGradient {p : List (Instr α)} {σ : RunState α} {y : Nat} {t : Tensor α} {st : Store α} : Done p σ → σ.env[y]? = some t → t.zeroGradient σ.store = .ok st → Done p ⟨σ.env, st⟩

omit [Add α] [Sub α] [Mul α] [Div α] [Neg α] [Zero α] [One α] [MulAdd α] [Build] in
theorem getT_some {env : List (Tensor α)} {i : Nat} {t : Tensor α} (h : getT env i = .ok t) : env[i]? = some t := by
  unfold getT at h
  split at h
  · cases h; assumption
  · cases h

theorem done_exec {p : List (Instr α)} {σ σ' : RunState α} (h : Done p σ) {x : Cmd α} (hr : σ.exec x = .ok σ') :
    Done (p ++ program [x]) σ' := by
  cases x with
  | op x => exact .op x h hr
  | backward y =>
    obtain ⟨t, ht, hr⟩ := bind_eq_ok.1 hr
    obtain ⟨st, e, hr⟩ := bind_eq_ok.1 hr
    cases hr
    rw [show program [_] = ([] : List (Instr α)) from rfl, List.append_nil]
    exact h.backward (getT_some ht) e
  | backwardWith y g =>
    obtain ⟨t, ht, hr⟩ := bind_eq_ok.1 hr
    obtain ⟨st, e, hr⟩ := bind_eq_ok.1 hr
    cases hr
    rw [show program [_] = ([] : List (Instr α)) from rfl, List.append_nil]
    exact h.backwardWith _ (getT_some ht) e
  | zeroGradient y =>
    obtain ⟨t, ht, hr⟩ := bind_eq_ok.1 hr
    obtain ⟨st, e, hr⟩ := bind_eq_ok.1 hr
    cases hr
    rw [show program [_] = ([] : List (Instr α)) from rfl, List.append_nil]
    exact h.zeroGradient (getT_some ht) e

/-- Sessions are among what can be done. -/
theorem Done.of_session {c : List (Cmd α)} {σ : RunState α} (hr : runSession c = .ok σ) : Done (program c) σ := by
  have key : ∀ (c : List (Cmd α)) (p : List (Instr α)) (σ σ' : RunState α), Done p σ → c.foldlM RunState.exec σ = .ok σ' →
      Done (p ++ program c) σ' := by
    intro c
    induction c with
    | nil => intro p σ σ' h hr; cases hr; simpa [program] using h
    | cons x c ih =>
      intro p σ σ' h hr
      rw [List.foldlM_cons] at hr
      obtain ⟨σ₁, h1, hr⟩ := bind_eq_ok.1 hr
      have := ih _ _ _ (done_exec h h1) hr
      have e : program (x :: c) = program [x] ++ program c := by cases x <;> rfl
      rwa [e, ← List.append_assoc]
  exact key c [] _ _ .start hr

/-- The accumulators a backward pass can reach. -/
def GradFn.accs : GradFn α → List Nat
  | .none => []
  | .acc i => [i]
  | .add l r _ _ => l.accs ++ r.accs
  | .sub l r _ _ => l.accs ++ r.accs
  | .mul l r _ _ => l.accs ++ r.accs
  | .mulScalar n _ _ => n.accs
  | .div l r _ _ => l.accs ++ r.accs
  | .divScalar n _ _ => n.accs
  | .neg n _ => n.accs
  | .dot l r _ _ => l.accs ++ r.accs
  | .matVec l r _ _ => l.accs ++ r.accs
  | .matMul l r _ _ => l.accs ++ r.accs
  | .bmm l r _ _ => l.accs ++ r.accs
  | .reshape n _ => n.accs
  | .transpose n _ _ => n.accs

/-- At most the accumulators in `ks` differ, and all have the shapes they had. -/
def Kept (ks : List Nat) (st st' : Store α) : Prop :=
  st'.map (·.shape) = st.map (·.shape) ∧ ∀ k, k ∉ ks → st'[k]? = st[k]?

omit [Add α] [Sub α] [Mul α] [Div α] [Neg α] [Zero α] [One α] [MulAdd α] [Build] in
theorem Kept.refl (ks : List Nat) (st : Store α) : Kept ks st st := ⟨rfl, fun _ _ => rfl⟩

omit [Add α] [Sub α] [Mul α] [Div α] [Neg α] [Zero α] [One α] [MulAdd α] [Build] in
theorem Kept.trans {ks ks' : List Nat} {st st' st'' : Store α} (h : Kept ks st st') (h' : Kept ks' st' st'') : Kept (ks ++ ks') st st'' :=
  ⟨h'.1.trans h.1, fun k hk => by
    rw [List.mem_append, not_or] at hk
    rw [h'.2 k hk.2, h.2 k hk.1]⟩

omit [Add α] [Sub α] [Mul α] [Div α] [Neg α] [Zero α] [One α] [MulAdd α] [Build] in
theorem kept_set {st : Store α} {i : Nat} {a : Arr α} (ha : st[i]? = some a) (buf : List α) : Kept [i] st (st.set i { a with buf := buf }) := by
  refine ⟨?_, fun k hk => ?_⟩
  · apply List.ext_getElem?
    intro k
    rw [List.getElem?_map, List.getElem?_map, List.getElem?_set]
    by_cases hik : i = k
    · subst hik
      rw [if_pos rfl, if_pos (List.getElem?_eq_some_iff.1 ha).1, ha]; rfl
    · rw [if_neg hik]
  · rw [List.getElem?_set, if_neg fun h => hk (by simp [h])]

omit [Add α] [Sub α] [Mul α] [Div α] [Neg α] [Zero α] [One α] [MulAdd α] [Build] in
theorem callNext_kept {b : Bool} {ks : List Nat} {st st' : Store α} {r : Res (GradArr α)} {f : GradArr α → Res (Store α)}
    (hf : ∀ g st', f g = .ok st' → Kept ks st st') (h : callNext b st r f = .ok st') : Kept ks st st' := by
  unfold callNext at h
  split at h
  · cases h; exact .refl _ _
  · obtain ⟨g, _, h⟩ := bind_eq_ok.1 h
    exact hf g st' h

omit [Add α] [Sub α] [Mul α] [Div α] [Neg α] [Zero α] [One α] [MulAdd α] [Build] in
theorem two_kept {b b' : Bool} {ks ks' : List Nat} {st st' : Store α} {r : Res (GradArr α)} {r' : Store α → Res (GradArr α)}
    {l l' : GradArr α → Store α → Res (Store α)} (hl : ∀ g st st', l g st = .ok st' → Kept ks st st')
    (hl' : ∀ g st st', l' g st = .ok st' → Kept ks' st st')
    (h : (callNext b st r (fun g => l g st) >>= fun s => callNext b' s (r' s) fun g => l' g s) = .ok st') : Kept (ks ++ ks') st st' := by
  obtain ⟨s, h1, h⟩ := bind_eq_ok.1 h
  exact (callNext_kept (fun g st' => hl g st st') h1).trans (callNext_kept (fun g st' => hl' g s st') h)

/-- A backward pass changes only accumulators that it can reach, and no shapes. -/
theorem backward_kept (gf : GradFn α) : ∀ (g : GradArr α) (st st' : Store α), backward gf g st = .ok st' → Kept gf.accs st st' := by
  induction gf with
  | none => intro g st st' h; unfold backward at h; cases h; exact .refl _ _
  | acc i =>
    intro g st st' h
    unfold backward accumulate at h
    split at h
    · cases h
    · rename_i a ha
      obtain ⟨_, _, h⟩ := bind_eq_ok.1 h
      obtain ⟨_, _, h⟩ := bind_eq_ok.1 h
      cases h
      exact kept_set ha _
  | add l r ls rs hl hr => intro g st st' h; unfold backward at h; exact two_kept (r' := fun st => fit g st rs) hl hr h
  | sub l r ls rs hl hr => intro g st st' h; unfold backward at h; exact two_kept (r' := fun st => freshFit (g.get st).negA st rs) hl hr h
  | mul l r a b hl hr => intro g st st' h; unfold backward at h; exact two_kept (r' := fun st => freshFit (a.mulA (g.get st)) st b.shape) hl hr h
  | mulScalar n s c hn => intro g st st' h; unfold backward at h; exact callNext_kept (fun g st' => hn g st st') h
  | div l r a b hl hr =>
    intro g st st' h
    unfold backward at h
    split at h
    · have := callNext_kept (fun g st' => hr g st st') h
      exact ⟨this.1, fun k hk => this.2 k fun h => hk (List.mem_append_right _ h)⟩
    · obtain ⟨lg, _, h⟩ := bind_eq_ok.1 h
      exact two_kept (r' := fun st => freshFit (divRight lg a b) st b.shape) hl hr h
  | divScalar n s c hn =>
    intro g st st' h; unfold backward at h
    obtain ⟨_, _, h⟩ := bind_eq_ok.1 h
    exact callNext_kept (fun g st' => hn g st st') h
  | neg n s hn => intro g st st' h; unfold backward at h; exact callNext_kept (fun g st' => hn g st st') h
  | dot l r a b hl hr => intro g st st' h; unfold backward at h; exact two_kept (r' := fun st => fresh (a.mulA (g.get st))) hl hr h
  | matVec l r a b hl hr => intro g st st' h; unfold backward at h; exact two_kept (r' := fun st => fresh (transposedMatmul a (g.get st))) hl hr h
  | matMul l r a b hl hr => intro g st st' h; unfold backward at h; exact two_kept (r' := fun st => fresh (transposedMatmul a (g.get st))) hl hr h
  | bmm l r a b hl hr => intro g st st' h; unfold backward at h; exact two_kept (r' := fun st => fresh (transposedBmm a (g.get st))) hl hr h
  | reshape n s hn => intro g st st' h; unfold backward at h; exact callNext_kept (fun g st' => hn g st st') h
  | transpose n a b hn => intro g st st' h; unfold backward at h; exact callNext_kept (fun g st' => hn g st st') h

theorem backwardWith_kept {t : Tensor α} {g : GradArr α} {st st' : Store α} (h : t.backwardWith g st = .ok st') : Kept t.gradFn.accs st st' := by
  obtain ⟨_, _, h⟩ := bind_eq_ok.1 h
  exact backward_kept _ _ _ _ h

theorem backward_kept' {t : Tensor α} {st st' : Store α} (h : t.backward st = .ok st') : Kept t.gradFn.accs st st' := by
  obtain ⟨_, _, h⟩ := bind_eq_ok.1 h
  exact backwardWith_kept h

omit [Add α] [Sub α] [Mul α] [Div α] [Neg α] [One α] [MulAdd α] [Build] in
theorem zeroGradient_kept {t : Tensor α} {st st' : Store α} (h : t.zeroGradient st = .ok st') : Kept t.gradFn.accs st st' := by
  unfold Tensor.zeroGradient at h
  split at h
  · rename_i i hi
    rw [hi]
    split at h
    · cases h
    · rename_i a ha
      obtain ⟨_, _, h⟩ := bind_eq_ok.1 h
      cases h
      exact kept_set ha _
  · cases h; exact .refl _ _

/-! ### the invariant -/

/-- A tensor, given where it comes from and the shapes of the accumulators. -/
structure Tracks (sh : List (List Nat)) (t : Tensor α) (x : List Nat × Bool) : Prop where
  req : t.requiresGrad = x.2
  none : t.requiresGrad = false → t.gradFn = .none
  accs : ∀ k ∈ t.gradFn.accs, k ∈ x.1
  acc : ∀ k, t.gradFn = .acc k → x.1 = [k] ∧ sh[k]? = some t.arr.shape

structure Tracked (σ : RunState α) (o : Origins) : Prop where
  vars : o.vars = σ.store.length
  len : o.env.length = σ.env.length
  all : ∀ (i : Nat) (t : Tensor α), σ.env[i]? = some t → Tracks (σ.store.map (·.shape)) t (o.get i)

section
omit [Add α] [Sub α] [Mul α] [Div α] [Neg α] [Zero α] [One α] [MulAdd α] [Build]

theorem Tracked.store {σ : RunState α} {o : Origins} (h : Tracked σ o) {ks : List Nat} {st : Store α} (hk : Kept ks σ.store st) :
    Tracked ⟨σ.env, st⟩ o := by
  refine ⟨?_, h.len, fun i t ht => ?_⟩
  · rw [h.vars]
    have := congrArg List.length hk.1
    simpa using this.symm
  · show Tracks (st.map (·.shape)) t _
    rw [hk.1]
    exact h.all i t ht

theorem Tracked.push {σ σ' : RunState α} {o : Origins} (h : Tracked σ o) {r : Res (Tensor α)} {x : List Nat × Bool}
    (hp : σ.push r = .ok σ') (hx : ∀ t, r = .ok t → Tracks (σ.store.map (·.shape)) t x) : Tracked σ' (o.push x) := by
  obtain ⟨t, e, hp⟩ := bind_eq_ok.1 hp
  cases hp
  refine ⟨h.vars, by simp [Origins.push, h.len], fun i u hu => ?_⟩
  by_cases hi : i < σ.env.length
  · have hu' : σ.env[i]? = some u := by rw [← hu]; exact (List.getElem?_append_left hi).symm
    have e : (o.push x).get i = o.get i := by
      unfold Origins.get Origins.push
      rw [List.getD_eq_getElem?_getD, List.getD_eq_getElem?_getD]
      show Option.getD (o.env ++ [x])[i]? _ = _
      rw [List.getElem?_append_left (h.len ▸ hi)]
    rw [e]
    exact h.all i u hu'
  · have hi' : i = σ.env.length := by
      have hu : (σ.env ++ [t])[i]? = some u := hu
      have := (List.getElem?_eq_some_iff.1 hu).1
      simp at this; omega
    subst hi'
    have hu : (σ.env ++ [t])[σ.env.length]? = some u := hu
    simp at hu
    subst hu
    have e' : (o.push x).get σ.env.length = x := by
      unfold Origins.get Origins.push
      rw [← h.len, List.getD_eq_getElem?_getD]
      simp
    rw [e']
    exact hx _ e

theorem tracks_mk {sh : List (List Nat)} {a : Arr α} {q : Bool} {node : GradFn α} {x : List Nat × Bool} (hq : q = x.2)
    (h1 : ∀ k ∈ node.accs, k ∈ x.1) (h2 : ∀ k, node = .acc k → x.1 = [k] ∧ sh[k]? = some a.shape) : Tracks sh (Tensor.mk' a q node) x := by
  cases q with
  | true => exact ⟨hq, fun h => (by cases h), h1, h2⟩
  | false => exact ⟨hq, fun _ => rfl, fun k hk => (by cases hk), fun k hk => by cases hk⟩

/-- The result of an operation with two operands. -/
theorem tracks_two {sh : List (List Nat)} {a : Arr α} {l r : Tensor α} {o : Origins} {i j : Nat} (hl : Tracks sh l (o.get i))
    (hr : Tracks sh r (o.get j)) {node : GradFn α} (hn : node.accs = l.gradFn.accs ++ r.gradFn.accs) (hna : ∀ k, node ≠ .acc k) :
    Tracks sh (Tensor.mk' a (l.requiresGrad || r.requiresGrad) node) (o.join i j) := by
  refine tracks_mk (by rw [hl.req, hr.req]; rfl) (fun k hk => ?_) fun k hk => absurd hk (hna k)
  rw [hn] at hk
  rcases List.mem_append.1 hk with hk | hk
  · exact List.mem_append_left _ (hl.accs k hk)
  · exact List.mem_append_right _ (hr.accs k hk)

theorem tracks_one {sh : List (List Nat)} {a : Arr α} {t : Tensor α} {x : List Nat × Bool} (h : Tracks sh t x)
    {node : GradFn α} (hn : node.accs = t.gradFn.accs) (hna : node = t.gradFn ∧ a.shape = t.arr.shape ∨ ∀ k, node ≠ .acc k) :
    Tracks sh (Tensor.mk' a t.requiresGrad node) x := by
  refine tracks_mk h.req (fun k hk => h.accs k (hn ▸ hk)) fun k hk => ?_
  rcases hna with ⟨h1, h2⟩ | h1
  · rw [h2]; exact h.acc k (h1 ▸ hk)
  · exact absurd hk (h1 k)

theorem Tracked.set {σ : RunState α} {o : Origins} (h : Tracked σ o) {i : Nat} {t : Tensor α} {x : List Nat × Bool} {st : Store α} {n : Nat}
    (hn : n = st.length) (hi : i < σ.env.length) (hp : ∀ (k : Nat) (s : List Nat), (σ.store.map (·.shape))[k]? = some s → (st.map (·.shape))[k]? = some s)
    (hx : Tracks (st.map (·.shape)) t x) : Tracked ⟨σ.env.set i t, st⟩ ⟨o.env.set i x, n⟩ := by
  refine ⟨hn, by simp [h.len], fun j u hu => ?_⟩
  have hu : (σ.env.set i t)[j]? = some u := hu
  have e : (⟨o.env.set i x, n⟩ : Origins).get j = if i = j then x else o.get j := by
    unfold Origins.get
    rw [List.getD_eq_getElem?_getD, List.getD_eq_getElem?_getD, List.getElem?_set]
    by_cases hij : i = j
    · rw [if_pos hij, if_pos hij, if_pos (h.len ▸ hi)]; rfl
    · rw [if_neg hij, if_neg hij]
  rw [e]
  rw [List.getElem?_set] at hu
  by_cases hij : i = j
  · rw [if_pos hij, if_pos hi] at hu
    cases hu
    rw [if_pos hij]
    exact hx
  · rw [if_neg hij] at hu
    rw [if_neg hij]
    have := h.all j u hu
    exact ⟨this.req, this.none, this.accs, fun k hk => ⟨(this.acc k hk).1, hp k _ (this.acc k hk).2⟩⟩

end

theorem tracked_step {σ σ' : RunState α} {o : Origins} (h : Tracked σ o) {x : Instr α} (hr : σ.step x = .ok σ') :
    Tracked σ' (o.step x) := by
  have hT : ∀ {i t}, getT σ.env i = .ok t → Tracks (σ.store.map (·.shape)) t (o.get i) := fun ht => h.all _ _ (getT_some ht)
  cases x with
  | leaf s data =>
    obtain ⟨_, _, hr⟩ := bind_eq_ok.1 hr
    refine h.push hr fun t e => ?_
    cases e
    exact ⟨rfl, fun _ => rfl, fun k hk => (by cases hk), fun k hk => by cases hk⟩
  | setReq i b =>
    obtain ⟨t, ht, hr⟩ := bind_eq_ok.1 hr
    obtain ⟨⟨t', st'⟩, hq, hr⟩ := bind_eq_ok.1 hr
    cases hr
    have hi := (List.getElem?_eq_some_iff.1 (getT_some ht)).1
    have htr := hT ht
    unfold Tensor.setRequiresGrad at hq
    cases b with
    | true =>
      show Tracked _ (if (o.get i).2 then o else _)
      rw [← htr.req]
      cases hreq : t.requiresGrad with
      | true =>
        rw [hreq] at hq
        simp at hq
        obtain ⟨rfl, rfl⟩ := hq
        have e : ({ t with requiresGrad := true } : Tensor α) = t := by cases t; simp_all
        have hset : σ.env.set i t = σ.env := by
          apply List.ext_getElem?
          intro j
          rw [List.getElem?_set]
          by_cases hj : i = j
          · subst hj; rw [if_pos rfl, if_pos hi, getT_some ht]
          · rw [if_neg hj]
        simp only [e, hset]
        exact ⟨h.vars, h.len, h.all⟩
      | false =>
        rw [hreq] at hq
        simp only [Bool.not_false, Bool.and_self, if_true] at hq
        obtain ⟨z, hz, hq⟩ := bind_eq_ok.1 hq
        cases hq
        have hzs : z.shape = t.arr.shape := by
          obtain ⟨_, _, hz⟩ := bind_eq_ok.1 hz
          cases hz; rfl
        refine h.set (by simp [h.vars]) hi (fun k s hk => ?_) ⟨rfl, fun h => (by cases h), fun k hk => ?_, fun k hk => ?_⟩
        · rw [List.map_append, List.getElem?_append_left (List.getElem?_eq_some_iff.1 hk).1]; exact hk
        · rw [h.vars]; exact hk
        · cases hk
          refine ⟨by rw [h.vars], ?_⟩
          simp [hzs]
    | false =>
      have hst : st' = σ.store ∧ t'.requiresGrad = false ∧ t'.gradFn = .none := by
        cases hreq : t.requiresGrad with
        | true => rw [hreq] at hq; simp at hq; exact ⟨hq.2.symm, by rw [← hq.1], by rw [← hq.1]⟩
        | false =>
          rw [hreq] at hq
          simp at hq
          exact ⟨hq.2.symm, by rw [← hq.1], by rw [← hq.1]; exact htr.none hreq⟩
      obtain ⟨rfl, h1, h2⟩ := hst
      refine h.set h.vars hi (fun _ _ h => h) ⟨h1, fun _ => h2, fun k hk => ?_, fun k hk => ?_⟩
      · rw [h2] at hk; cases hk
      · rw [h2] at hk; cases hk
  | neg i =>
    obtain ⟨t, ht, hr⟩ := bind_eq_ok.1 hr
    refine h.push hr fun r e => ?_
    obtain ⟨_, _, e⟩ := bind_eq_ok.1 e
    cases e
    exact tracks_one (hT ht) rfl (.inr fun k hk => by cases hk)
  | scal op i c =>
    obtain ⟨t, ht, hr⟩ := bind_eq_ok.1 hr
    refine h.push hr fun r e => ?_
    obtain ⟨a, ha, e⟩ := bind_eq_ok.1 e
    cases e
    have hs : a.shape = t.arr.shape := by
      obtain ⟨_, _, ha⟩ := bind_eq_ok.1 ha
      obtain ⟨_, _, ha⟩ := bind_eq_ok.1 ha
      cases ha; rfl
    cases op with
    | add => exact tracks_one (hT ht) rfl (.inl ⟨rfl, hs⟩)
    | sub => exact tracks_one (hT ht) rfl (.inl ⟨rfl, hs⟩)
    | mul => exact tracks_one (hT ht) rfl (.inr fun k hk => by cases hk)
    | div => exact tracks_one (hT ht) rfl (.inr fun k hk => by cases hk)
  | view op i =>
    obtain ⟨t, ht, hr⟩ := bind_eq_ok.1 hr
    refine h.push hr fun r e => ?_
    obtain ⟨a, ha, e⟩ := bind_eq_ok.1 e
    cases e
    cases op with
    | view => cases ha; exact tracks_one (hT ht) rfl (.inl ⟨rfl, rfl⟩)
    | reshape s =>
      by_cases hs : s = t.arr.shape
      · have e : SView.node t (.reshape s) = t.gradFn := by simp [SView.node, hs]
        rw [e]
        refine tracks_one (hT ht) rfl (.inl ⟨rfl, ?_⟩)
        obtain ⟨l, hl, ha⟩ := bind_eq_ok.1 ha
        cases ha
        unfold Arr.reshapeLayout at hl
        rw [if_pos hs] at hl
        cases hl; rfl
      · have e : SView.node t (.reshape s) = .reshape t.gradFn t.arr.shape := by simp [SView.node, hs]
        rw [e]
        exact tracks_one (hT ht) rfl (.inr fun k hk => by cases hk)
    | squeeze => exact tracks_one (hT ht) rfl (.inr fun k hk => by cases hk)
    | unsqueeze _ => exact tracks_one (hT ht) rfl (.inr fun k hk => by cases hk)
    | transpose _ _ => exact tracks_one (hT ht) rfl (.inr fun k hk => by cases hk)
  | into op shared i =>
    obtain ⟨t, ht, hr⟩ := bind_eq_ok.1 hr
    refine h.push hr fun r e => ?_
    obtain ⟨b, hb, e⟩ := bind_eq_ok.1 e
    obtain ⟨a, ha, e⟩ := bind_eq_ok.1 e
    cases e
    have hbs : b.shape = t.arr.shape := by
      unfold Tensor.intoNdarray at hb
      split at hb
      · obtain ⟨_, _, hb⟩ := bind_eq_ok.1 hb
        cases hb; rfl
      · cases hb; rfl
    cases op with
    | view => cases ha; exact tracks_one (hT ht) rfl (.inl ⟨rfl, hbs⟩)
    | reshape s =>
      by_cases hs : s = t.arr.shape
      · have e : SView.node t (.reshape s) = t.gradFn := by simp [SView.node, hs]
        rw [e]
        refine tracks_one (hT ht) rfl (.inl ⟨rfl, ?_⟩)
        unfold SView.intoArr at ha
        simp only [hs, if_true] at ha
        cases ha; exact hbs
      · have e : SView.node t (.reshape s) = .reshape t.gradFn t.arr.shape := by simp [SView.node, hs]
        rw [e]
        exact tracks_one (hT ht) rfl (.inr fun k hk => by cases hk)
    | squeeze => exact tracks_one (hT ht) rfl (.inr fun k hk => by cases hk)
    | unsqueeze _ => exact tracks_one (hT ht) rfl (.inr fun k hk => by cases hk)
    | transpose _ _ => exact tracks_one (hT ht) rfl (.inr fun k hk => by cases hk)
  | bin op i j =>
    obtain ⟨a, ha, hr⟩ := bind_eq_ok.1 hr
    obtain ⟨b, hb, hr⟩ := bind_eq_ok.1 hr
    refine h.push hr fun r e => ?_
    obtain ⟨_, _, e⟩ := bind_eq_ok.1 e
    cases e
    exact tracks_two (hT ha) (hT hb) (by cases op <;> rfl) fun k hk => by cases op <;> cases hk
  | dot i j =>
    obtain ⟨a, ha, hr⟩ := bind_eq_ok.1 hr
    obtain ⟨b, hb, hr⟩ := bind_eq_ok.1 hr
    refine h.push hr fun r e => ?_
    obtain ⟨_, _, e⟩ := bind_eq_ok.1 e
    cases e
    exact tracks_two (hT ha) (hT hb) rfl fun k hk => by cases hk
  | matmul i j =>
    obtain ⟨a, ha, hr⟩ := bind_eq_ok.1 hr
    obtain ⟨b, hb, hr⟩ := bind_eq_ok.1 hr
    refine h.push hr fun r e => ?_
    unfold Tensor.matmul at e
    split at e
    · obtain ⟨_, _, e⟩ := bind_eq_ok.1 e
      cases e
      exact tracks_two (hT ha) (hT hb) rfl fun k hk => by cases hk
    · obtain ⟨_, _, e⟩ := bind_eq_ok.1 e
      simp only at e
      split at e
      · cases e
        exact tracks_two (hT ha) (hT hb) rfl fun k hk => by cases hk
      · split at e
        · cases e
          exact tracks_two (hT ha) (hT hb) rfl fun k hk => by cases hk
        · split at e
          · cases e
          · cases e
            exact tracks_mk (by rw [(hT ha).req, (hT hb).req]; rfl) (fun k hk => (by cases hk)) fun k hk => by cases hk
  | bmm i j =>
    obtain ⟨a, ha, hr⟩ := bind_eq_ok.1 hr
    obtain ⟨b, hb, hr⟩ := bind_eq_ok.1 hr
    refine h.push hr fun r e => ?_
    obtain ⟨_, _, e⟩ := bind_eq_ok.1 e
    cases e
    exact tracks_two (hT ha) (hT hb) rfl fun k hk => by cases hk

theorem Done.tracked {p : List (Instr α)} {σ : RunState α} (h : Done p σ) : Tracked σ (origins p) := by
  induction h with
  | start => exact ⟨rfl, rfl, fun i t h => by simp at h⟩
  | op x _ hr ih =>
    have := tracked_step ih hr
    rw [origins, List.foldl_append]
    exact this
  | backward _ _ e ih => exact ih.store (backward_kept' e)
  | backwardWith _ _ _ e ih => exact ih.store (backwardWith_kept e)
  | zeroGradient _ _ e ih => exact ih.store (zeroGradient_kept e)

/-! ## C41 -/

/-- Two variables `x` and `w` of shape `[1]`, an empty `y = x + e` and `z = -w`, after `z.backward()`. -/
def twoVariables : List (Cmd ℚ) :=
  [.op (.leaf [1] [5]), .op (.setReq 0 true), .op (.leaf [1] [6]), .op (.setReq 1 true), .op (.leaf [0] []), .op (.bin .add 0 2),
    .op (.neg 1), .backward 4]

omit [Build] in
theorem twoVariables_runs [k : Build] : ∃ (σ : RunState ℚ) (x w e y z : Tensor ℚ) (gx : Arr ℚ) (st : Store ℚ), runSession twoVariables = .ok σ ∧
    σ.env = [x, w, e, y, z] ∧ x.gradient σ.store = some gx ∧ z.backward σ.store = .ok st ∧ w.gradient st ≠ w.gradient σ.store := by
  suffices h : ∃ (σ : RunState ℚ) (x w e y z : Tensor ℚ) (gx gw gw' : Arr ℚ) (st : Store ℚ), runSession twoVariables = .ok σ ∧
      σ.env = [x, w, e, y, z] ∧ x.gradient σ.store = some gx ∧ z.backward σ.store = .ok st ∧ w.gradient st = some gw ∧
      w.gradient σ.store = some gw' ∧ gw.buf = [0 + -1 + -1] ∧ gw'.buf = [0 + -1] by
    obtain ⟨σ, x, w, e, y, z, gx, gw, gw', st, h1, h2, h3, h4, h5, h6, h7, h8⟩ := h
    refine ⟨σ, x, w, e, y, z, gx, st, h1, h2, h3, h4, fun h => ?_⟩
    rw [h5, h6] at h
    cases h
    rw [h7] at h8
    norm_num at h8
  obtain ⟨l⟩ := k
  cases l <;> with_unfolding_all exact ⟨_, _, _, _, _, _, _, _, _, _, rfl, rfl, rfl, rfl, rfl, rfl, rfl, rfl⟩

/-- **C41.** Whatever has been done, the gradient of a tensor has the shape of the tensor. -/
theorem C41_shape {p : List (Instr α)} {σ : RunState α} (h : Done p σ) {x : Tensor α} (hx : x ∈ σ.env) {gx : Arr α}
    (hgx : x.gradient σ.store = some gx) : gx.shape = x.arr.shape := by
  obtain ⟨i, hi⟩ := List.getElem?_of_mem hx
  have ht := h.tracked.all i x hi
  unfold Tensor.gradient at hgx
  split at hgx
  · rename_i k hk
    have h2 := (ht.acc k hk).2
    rw [List.getElem?_map] at h2
    cases ha : σ.store[k]? with
    | none => rw [ha] at h2; cases h2
    | some a =>
      rw [ha] at h2 hgx
      cases hgx
      exact Option.some.inj h2
  · cases hgx

omit [Build] in
example [Build] : ∃ (σ : RunState ℚ) (x : Tensor ℚ) (gx : Arr ℚ), runSession twoVariables = .ok σ ∧ x ∈ σ.env ∧
    x.gradient σ.store = some gx ∧ gx.shape = x.arr.shape := by
  obtain ⟨σ, x, _, _, _, _, gx, _, hr, he, hgx, _⟩ := twoVariables_runs
  have hx : x ∈ σ.env := by rw [he]; simp
  exact ⟨σ, x, gx, hr, hx, hgx, C41_shape (.of_session hr) hx hgx⟩

/-! ## C43 -/

/-- **C43.** Whatever has been done, a tensor requires a gradient exactly when `set_requires_grad(true)` was called for it or for something it
was computed from (and not revoked). -/
theorem C43_requires {p : List (Instr α)} {σ : RunState α} (h : Done p σ) {y : Nat} {t : Tensor α} (ht : σ.env[y]? = some t) :
    t.requiresGrad = requiresOf p y := by
  rw [(h.tracked.all y t ht).req]
  have key : ∀ (p : List (Instr α)) (S : SpecState α) (o : Origins), S.env.map (·.2) = o.env.map (·.2) →
      (p.foldl (SpecState.step Interp.value 0) S).env.map (·.2) = (p.foldl Origins.step o).env.map (·.2) := by
    intro p
    induction p with
    | nil => intro S o h; exact h
    | cons x p ih =>
      intro S o h
      have hget : ∀ i, (S.get i).2 = (o.get i).2 := by
        intro i
        have := congrArg (fun l : List Bool => l[i]?) h
        simp only [List.getElem?_map] at this
        unfold SpecState.get Origins.get
        rw [List.getD_eq_getElem?_getD, List.getD_eq_getElem?_getD]
        cases h1 : S.env[i]? <;> cases h2 : o.env[i]? <;> rw [h1, h2] at this <;> simp_all
      have hset : ∀ (i : Nat) (a : MT α) (l : List Nat) (b : Bool), (S.env.set i (a, b)).map (·.2) = (o.env.set i (l, b)).map (·.2) := by
        intro i a l b
        rw [List.map_set, List.map_set, h]
      rw [List.foldl_cons, List.foldl_cons]
      apply ih
      cases x with
      | setReq i b =>
        cases b with
        | true =>
          show (if (S.get i).2 then S else _ : SpecState α).env.map (·.2) = (if (o.get i).2 then o else _ : Origins).env.map (·.2)
          rw [hget i]
          split
          · exact h
          · exact hset _ _ _ _
        | false => exact hset _ _ _ _
      | _ => simp [SpecState.step, Origins.step, SpecState.push, Origins.push, Origins.join, h, hget]
  have := key p ⟨[], 0⟩ ⟨[], 0⟩ rfl
  have := congrArg (fun l : List Bool => l[y]?) this
  simp only [List.getElem?_map] at this
  unfold requiresOf specRun SpecState.get origins Origins.get
  rw [List.getD_eq_getElem?_getD, List.getD_eq_getElem?_getD]
  cases h1 : (p.foldl (SpecState.step Interp.value 0) ⟨[], 0⟩ : SpecState α).env[y]? <;>
    cases h2 : (p.foldl Origins.step ⟨[], 0⟩).env[y]? <;> rw [h1, h2] at this <;> simp_all

omit [Build] in
example [Build] : ∃ (σ : RunState ℚ) (y : Tensor ℚ), runSession twoVariables = .ok σ ∧ σ.env[3]? = some y ∧ y.requiresGrad = true := by
  obtain ⟨σ, x, w, e, y, z, gx, st, hr, he, _⟩ := twoVariables_runs
  have hy : σ.env[3]? = some y := by rw [he]; rfl
  exact ⟨σ, y, hr, hy, by rw [C43_requires (.of_session hr) hy]; decide +kernel⟩

/-- **C43.** Whatever has been done, a tensor that does not require a gradient has none, and its `backward_with` and `zero_gradient` change
no gradient. -/
theorem C43_not_required {p : List (Instr α)} {σ : RunState α} (h : Done p σ) {t : Tensor α} (ht : t ∈ σ.env) (hq : t.requiresGrad = false)
    (g : GradArr α) (st : Store α) :
    t.gradient σ.store = none ∧ (t.backwardWith g σ.store = .ok st → st = σ.store) ∧ t.zeroGradient σ.store = .ok σ.store := by
  obtain ⟨i, hi⟩ := List.getElem?_of_mem ht
  have hg := (h.tracked.all i t hi).none hq
  refine ⟨by unfold Tensor.gradient; rw [hg], fun e => ?_, by unfold Tensor.zeroGradient; rw [hg]⟩
  obtain ⟨_, _, e⟩ := bind_eq_ok.1 e
  rw [hg] at e
  unfold backward at e
  cases e; rfl

omit [Build] in
example [Build] : ∃ (σ : RunState ℚ) (e : Tensor ℚ), runSession twoVariables = .ok σ ∧ σ.env[2]? = some e ∧ e.gradient σ.store = none := by
  obtain ⟨σ, x, w, e, y, z, gx, st, hr, he, _⟩ := twoVariables_runs
  have hy : σ.env[2]? = some e := by rw [he]; rfl
  have hq : e.requiresGrad = false := by rw [C43_requires (.of_session hr) hy]; decide +kernel
  exact ⟨σ, e, hr, hy, (C43_not_required (.of_session hr) (List.mem_of_getElem? hy) hq ⟨gx, none⟩ st).1⟩

/-- **C43.** Whatever has been done, `y.backward_with(g)` and `y.backward()` leave the gradient of `x` as it is, bit for bit, if `y` was not
computed from a variable that `x` was computed from. -/
theorem C43_unreached {p : List (Instr α)} {σ : RunState α} (h : Done p σ) {i y : Nat} {x t : Tensor α} (hx : σ.env[i]? = some x)
    (ht : σ.env[y]? = some t) (hn : ∀ k ∈ variablesOf p i, k ∉ variablesOf p y) {st : Store α} {g : GradArr α}
    (hb : t.backwardWith g σ.store = .ok st ∨ t.backward σ.store = .ok st) : x.gradient st = x.gradient σ.store := by
  have hk : Kept t.gradFn.accs σ.store st := hb.elim backwardWith_kept backward_kept'
  have hX := h.tracked.all i x hx
  have hY := h.tracked.all y t ht
  unfold Tensor.gradient
  split
  · rename_i k hgk
    have e : k ∈ variablesOf p i := by
      show k ∈ ((origins p).get i).1
      rw [(hX.acc k hgk).1]; simp
    rw [hk.2 k fun hm => hn k e (hY.accs k hm)]
  · rfl

omit [Build] in
example [Build] : ∃ (σ : RunState ℚ) (x z : Tensor ℚ) (gx : Arr ℚ) (st : Store ℚ), runSession twoVariables = .ok σ ∧ σ.env[0]? = some x ∧
    σ.env[4]? = some z ∧ z.backward σ.store = .ok st ∧ x.gradient st = some gx ∧ x.gradient σ.store = some gx := by
  obtain ⟨σ, x, w, e, y, z, gx, st, hr, he, hgx, hb, _⟩ := twoVariables_runs
  have hx : σ.env[0]? = some x := by rw [he]; rfl
  have hz : σ.env[4]? = some z := by rw [he]; rfl
  have := C43_unreached (.of_session hr) hx hz (by decide +kernel) (g := ⟨gx, none⟩) (.inr hb)
  exact ⟨σ, x, z, gx, st, hr, hx, hz, hb, this.trans hgx, hgx⟩

/-- **C43.** Only gradients of tensors that require gradient, and that the output was computed from, are ever changed by `backward`: `x` has a
gradient, it is (up to constants) the only variable `x` was computed from, and `y` was computed from it. -/
theorem C43_changed {p : List (Instr α)} {σ : RunState α} (h : Done p σ) {i y : Nat} {x t : Tensor α} (hx : σ.env[i]? = some x)
    (ht : σ.env[y]? = some t) {st : Store α} {g : GradArr α} (hb : t.backwardWith g σ.store = .ok st ∨ t.backward σ.store = .ok st)
    (hne : x.gradient st ≠ x.gradient σ.store) :
    x.requiresGrad = true ∧ t.requiresGrad = true ∧ (x.gradient σ.store).isSome = true ∧
      ∃ k, variablesOf p i = [k] ∧ k ∈ variablesOf p y := by
  have hX := h.tracked.all i x hx
  have hY := h.tracked.all y t ht
  have hacc : ∃ k, x.gradFn = .acc k := by
    by_contra hc
    refine hne ?_
    unfold Tensor.gradient
    split
    · rename_i k hk; exact absurd ⟨k, hk⟩ hc
    · rfl
  obtain ⟨k, hk⟩ := hacc
  have hv : variablesOf p i = [k] := (hX.acc k hk).1
  have hky : k ∈ variablesOf p y := by
    by_contra hc
    exact hne (C43_unreached h hx ht (fun j hj => by rw [hv] at hj; simp at hj; rw [hj]; exact hc) hb)
  have hlt := (hX.acc k hk).2
  refine ⟨?_, ?_, ?_, k, hv, hky⟩
  · by_contra hq
    rw [hX.none (by simpa using hq)] at hk; cases hk
  · by_contra hq
    have hg := hY.none (by simpa using hq)
    have hkept : Kept t.gradFn.accs σ.store st := hb.elim backwardWith_kept backward_kept'
    rw [hg] at hkept
    refine hne ?_
    unfold Tensor.gradient
    rw [hk]
    simp only [hkept.2 k (by simp [GradFn.accs])]
  · unfold Tensor.gradient
    rw [hk]
    rw [List.getElem?_map] at hlt
    cases ha : σ.store[k]? with
    | none => rw [ha] at hlt; cases hlt
    | some a => simp [ha]

omit [Build] in
example [Build] : ∃ (σ : RunState ℚ) (w z : Tensor ℚ) (st : Store ℚ), runSession twoVariables = .ok σ ∧ σ.env[1]? = some w ∧
    σ.env[4]? = some z ∧ z.backward σ.store = .ok st ∧
    ∃ k, variablesOf (program twoVariables) 1 = [k] ∧ k ∈ variablesOf (program twoVariables) 4 := by
  obtain ⟨σ, x, w, e, y, z, gx, st, hr, he, _, hb, hne⟩ := twoVariables_runs
  have hw : σ.env[1]? = some w := by rw [he]; rfl
  have hz : σ.env[4]? = some z := by rw [he]; rfl
  exact ⟨σ, w, z, st, hr, hw, hz, hb, (C43_changed (.of_session hr) hw hz (g := ⟨gx, none⟩) (.inr hb) hne).2.2.2⟩

omit [Build] in
/-- **C43 is false** in that only leaves are changed by `backward`: `z = -x` on which `set_requires_grad(true)` was called is not a leaf,
and `z.backward_with([7])` changes its gradient from 0 to 7. -/
theorem C43_only_leaves_false [k : Build] : ∃ (σ σ' : RunState ℚ) (x z : Tensor ℚ) (g g' : Arr ℚ),
    runSession [.op (.leaf [1] [5]), .op (.neg 0), .op (.setReq 1 true)] = .ok σ ∧ σ.env = [x, z] ∧ z.isLeaf = false ∧
    σ.exec (.backwardWith 1 (.fromContiguousOwnedBuffer [1] [7])) = .ok σ' ∧ z.gradient σ.store = some g ∧ z.gradient σ'.store = some g' ∧
    g.buf = [0] ∧ g'.buf = [7] := by
  have h7 : [(0 + 7 : ℚ)] = [7] := by norm_num
  obtain ⟨l⟩ := k
  cases l <;> with_unfolding_all exact ⟨_, _, _, _, _, _, rfl, rfl, rfl, rfl, rfl, rfl, rfl, h7⟩

end Verif
