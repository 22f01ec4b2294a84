import Verif.Lemmas.Session
import Verif.Spec.Jacobian

/-! # Relating interpretations of a program; increments as Jacobian products -/

namespace Verif

/-! ### two interpretations of one program -/

section sim
variable {α β γ : Type} [Add β] [Sub β] [Mul β] [Div β] [Neg β] [Zero β] [Add γ] [Sub γ] [Mul γ] [Div γ] [Neg γ] [Zero γ]

/-- A relation kept by all operations. -/
structure Sim (R : β → γ → Prop) (I : Interp α β) (J : Interp α γ) : Prop where
  zero : R 0 0
  add : ∀ x y x' y', R x x' → R y y' → R (x + y) (x' + y')
  sub : ∀ x y x' y', R x x' → R y y' → R (x - y) (x' - y')
  mul : ∀ x y x' y', R x x' → R y y' → R (x * y) (x' * y')
  div : ∀ x y x' y', R x x' → R y y' → R (x / y) (x' / y')
  neg : ∀ x x', R x x' → R (-x) (-x')
  const : ∀ c, R (I.const c) (J.const c)
  var : ∀ k idx x x', R x x' → R (I.var k idx x) (J.var k idx x')
  cut : ∀ x x', R x x' → R (I.cut x) (J.cut x')

def MTRel (R : β → γ → Prop) (a : MT β × Bool) (b : MT γ × Bool) : Prop :=
  a.2 = b.2 ∧ a.1.shape = b.1.shape ∧ ∀ idx, R (a.1.elem idx) (b.1.elem idx)

def StRel (R : β → γ → Prop) (σ : SpecState β) (τ : SpecState γ) : Prop :=
  σ.vars = τ.vars ∧ σ.env.length = τ.env.length ∧ ∀ i, MTRel R (σ.get i) (τ.get i)

variable {R : β → γ → Prop} {I : Interp α β} {J : Interp α γ}

theorem Sim.op (h : Sim R I J) (op : SOp) {x y : β} {x' y' : γ} (hx : R x x') (hy : R y y') : R (op.run x y) (op.run x' y') := by
  cases op with
  | add => exact h.add _ _ _ _ hx hy
  | sub => exact h.sub _ _ _ _ hx hy
  | mul => exact h.mul _ _ _ _ hx hy
  | div => exact h.div _ _ _ _ hx hy

theorem Sim.sum (h : Sim R I J) {ι : Type} (l : List ι) {f : ι → β} {g : ι → γ} (hl : ∀ i ∈ l, R (f i) (g i)) :
    R (l.map f).sum (l.map g).sum := by
  induction l with
  | nil => exact h.zero
  | cons a l ih =>
    rw [List.map_cons, List.map_cons, List.sum_cons, List.sum_cons]
    exact h.add _ _ _ _ (hl a (by simp)) (ih fun i hi => hl i (by simp [hi]))

theorem Sim.inner (h : Sim R I J) (k : Nat) {f g : Nat → β} {f' g' : Nat → γ} (hf : ∀ t, R (f t) (f' t)) (hg : ∀ t, R (g t) (g' t)) :
    R (innerProduct k f g) (innerProduct k f' g') := h.sum _ fun t _ => h.mul _ _ _ _ (hf t) (hg t)

theorem StRel.push {σ : SpecState β} {τ : SpecState γ} (h : StRel R σ τ) {a : MT β} {b : MT γ} {d e : Bool} (hz : R 0 0) (hab : MTRel R (a, d) (b, e)) :
    StRel R (σ.push a d) (τ.push b e) := by
  refine ⟨h.1, by simp [SpecState.push, h.2.1], fun i => ?_⟩
  have hg := h.2.2 i
  unfold SpecState.get SpecState.push at *
  simp only [List.getD_eq_getElem?_getD] at *
  by_cases h1 : i < σ.env.length
  · rw [List.getElem?_append_left h1, List.getElem?_append_left (h.2.1 ▸ h1)]
    exact hg
  · rw [List.getElem?_append_right (by omega), List.getElem?_append_right (by rw [← h.2.1]; omega), ← h.2.1]
    cases h2 : i - σ.env.length with
    | zero => exact hab
    | succ n => exact ⟨rfl, rfl, fun _ => hz⟩

theorem StRel.set {σ : SpecState β} {τ : SpecState γ} (h : StRel R σ τ) {i m : Nat} {a : MT β × Bool} {b : MT γ × Bool}
    (hz : R 0 0) (hab : MTRel R a b) : StRel R ⟨σ.env.set i a, m⟩ ⟨τ.env.set i b, m⟩ := by
  refine ⟨rfl, by simp [h.2.1], fun j => ?_⟩
  have hg := h.2.2 j
  unfold SpecState.get at *
  simp only [List.getD_eq_getElem?_getD, List.getElem?_set] at *
  by_cases h1 : i = j
  · rw [if_pos h1, if_pos h1, h.2.1]
    by_cases h2 : i < τ.env.length
    · rw [if_pos h2, if_pos h2]; exact hab
    · rw [if_neg h2, if_neg h2]; exact ⟨rfl, rfl, fun _ => hz⟩
  · rw [if_neg h1, if_neg h1]; exact hg

theorem Sim.step (h : Sim R I J) {σ : SpecState β} {τ : SpecState γ} (hs : StRel R σ τ) (d : α) (x : Instr α) :
    StRel R (σ.step I d x) (τ.step J d x) := by
  have hg := hs.2.2
  cases x with
  | leaf s data => exact hs.push h.zero ⟨rfl, rfl, fun idx => h.const _⟩
  | setReq i b =>
    obtain ⟨h1, h2, h3⟩ := hg i
    cases b with
    | true =>
      show StRel R (if (σ.get i).2 then σ else _) (if (τ.get i).2 then τ else _)
      rw [h1]
      split
      · exact hs
      · rw [hs.1]
        exact hs.set h.zero ⟨rfl, h2, fun idx => h.var _ _ _ _ (h3 idx)⟩
    | false =>
      have := hs.set (i := i) (m := σ.vars) h.zero (a := ((σ.get i).1.map I.cut, false)) (b := ((τ.get i).1.map J.cut, false))
        ⟨rfl, h2, fun idx => h.cut _ _ (h3 idx)⟩
      show StRel R ⟨_, σ.vars⟩ ⟨_, τ.vars⟩
      rw [← hs.1]
      exact this
  | neg i =>
    obtain ⟨h1, h2, h3⟩ := hg i
    exact hs.push h.zero ⟨h1, h2, fun idx => h.neg _ _ (h3 idx)⟩
  | bin op i j =>
    obtain ⟨h1, h2, h3⟩ := hg i
    obtain ⟨k1, k2, k3⟩ := hg j
    refine hs.push h.zero ⟨by rw [h1, k1], ?_, fun idx => ?_⟩
    · show jointShape _ _ = jointShape _ _
      rw [h2, k2]
    · show R (op.run _ _) (op.run _ _)
      rw [h2, k2]
      exact h.op op (h3 _) (k3 _)
  | scal op i c =>
    obtain ⟨h1, h2, h3⟩ := hg i
    exact hs.push h.zero ⟨h1, h2, fun idx => h.op op (h3 idx) (h.const c)⟩
  | dot i j =>
    obtain ⟨h1, h2, h3⟩ := hg i
    obtain ⟨k1, k2, k3⟩ := hg j
    refine hs.push h.zero ⟨by rw [h1, k1], rfl, fun idx => ?_⟩
    show R (innerProduct _ _ _) (innerProduct _ _ _)
    rw [h2]
    exact h.inner _ (fun _ => h3 _) fun _ => k3 _
  | matmul i j =>
    obtain ⟨h1, h2, h3⟩ := hg i
    obtain ⟨k1, k2, k3⟩ := hg j
    have key : ((σ.get i).1.matmul (σ.get j).1).shape = ((τ.get i).1.matmul (τ.get j).1).shape ∧
        ∀ idx, R (((σ.get i).1.matmul (σ.get j).1).elem idx) (((τ.get i).1.matmul (τ.get j).1).elem idx) := by
      unfold MT.matmul
      rw [h2, k2]
      split
      · exact ⟨rfl, fun idx => h.inner _ (fun _ => h3 _) fun _ => k3 _⟩
      · exact ⟨rfl, fun idx => h.inner _ (fun _ => h3 _) fun _ => k3 _⟩
      · refine ⟨rfl, fun idx => ?_⟩
        show R (innerProduct _ _ _) (innerProduct _ _ _)
        rw [h2]
        exact h.inner _ (fun _ => h3 _) fun _ => k3 _
    exact hs.push h.zero ⟨by rw [h1, k1], key.1, key.2⟩
  | bmm i j =>
    obtain ⟨h1, h2, h3⟩ := hg i
    obtain ⟨k1, k2, k3⟩ := hg j
    refine hs.push h.zero ⟨by rw [h1, k1], ?_, fun idx => ?_⟩
    · show [_, _, _] = [_, _, _]
      rw [h2, k2]
    · show R (innerProduct _ _ _) (innerProduct _ _ _)
      rw [h2]
      exact h.inner _ (fun _ => h3 _) fun _ => k3 _
  | view op i =>
    obtain ⟨h1, h2, h3⟩ := hg i
    refine hs.push h.zero ⟨h1, ?_, fun idx => ?_⟩
    · cases op <;> simp only [MT.reshaped, h2]
    · cases op <;> simp only [MT.reshaped, h2] <;> exact h3 _
  | into op sh i =>
    obtain ⟨h1, h2, h3⟩ := hg i
    refine hs.push h.zero ⟨h1, ?_, fun idx => ?_⟩
    · cases op <;> simp only [MT.reshaped, h2]
    · cases op <;> simp only [MT.reshaped, h2] <;> exact h3 _

theorem Sim.run (h : Sim R I J) (d : α) (p : List (Instr α)) : StRel R (specRun I d p) (specRun J d p) := by
  have : ∀ (p : List (Instr α)) (σ : SpecState β) (τ : SpecState γ), StRel R σ τ →
      StRel R (p.foldl (SpecState.step I d) σ) (p.foldl (SpecState.step J d) τ) := by
    intro p
    induction p with
    | nil => intro σ τ h; exact h
    | cons x p ih => intro σ τ hs; exact ih _ _ (h.step hs d x)
  refine this p _ _ ⟨rfl, rfl, fun i => ?_⟩
  simp only [SpecState.get, List.getD_nil]
  exact ⟨rfl, rfl, fun _ => h.zero⟩

end sim

variable {α : Type} [Field α]

theorem sim_value (v : Nat → List Nat → α) : Sim (fun (x : Dual α) y => x.re = y) (Dual.interp v) Interp.value where
  zero := rfl
  add := by rintro x y _ _ rfl rfl; rfl
  sub := by rintro x y _ _ rfl rfl; rfl
  mul := by rintro x y _ _ rfl rfl; rfl
  div := by rintro x y _ _ rfl rfl; rfl
  neg := by rintro x _ rfl; rfl
  const := fun _ => rfl
  var := fun _ _ _ _ h => h
  cut := fun _ _ h => h

/-- The dual-number meaning of a tensor has its values. -/
theorem dual_value (p : List (Instr α)) (v : Nat → List Nat → α) (y : Nat) :
    ((specRun (Dual.interp v) 0 p).get y).2 = requiresOf p y ∧
    ((specRun (Dual.interp v) 0 p).get y).1.shape = (tensorOf p y).shape ∧
    ∀ idx, (((specRun (Dual.interp v) 0 p).get y).1.elem idx).re = (tensorOf p y).elem idx :=
  ((sim_value v).run 0 p).2.2 y

theorem sim_deps (v : Nat → List Nat → α) :
    Sim (fun (x : Dual α) (d : Deps) => (∀ e ∈ d.elems, v e.1 e.2 = 0) → x.eps = 0) (Dual.interp v) Deps.interp where
  zero := fun _ => rfl
  add := by
    intro x y x' y' hx hy h
    show x.eps + y.eps = 0
    rw [hx fun e he => h e (List.mem_append_left _ he), hy fun e he => h e (List.mem_append_right _ he), add_zero]
  sub := by
    intro x y x' y' hx hy h
    show x.eps - y.eps = 0
    rw [hx fun e he => h e (List.mem_append_left _ he), hy fun e he => h e (List.mem_append_right _ he), sub_zero]
  mul := by
    intro x y x' y' hx hy h
    show x.re * y.eps + x.eps * y.re = 0
    rw [hx fun e he => h e (List.mem_append_left _ he), hy fun e he => h e (List.mem_append_right _ he), mul_zero, zero_mul, add_zero]
  div := by
    intro x y x' y' hx hy h
    show (x.eps * y.re - x.re * y.eps) / (y.re * y.re) = 0
    rw [hx fun e he => h e (List.mem_append_left _ he), hy fun e he => h e (List.mem_append_right _ he), mul_zero, zero_mul, sub_zero, zero_div]
  neg := by
    intro x x' hx h
    show - x.eps = 0
    rw [hx h, neg_zero]
  const := fun _ _ => rfl
  var := fun k idx x x' _ h => h (k, idx) (by simp [Deps.interp])
  cut := fun _ _ _ _ => rfl

/-- Derivatives with respect to elements that were not used are 0. -/
theorem jacobian_deps {p : List (Instr α)} {y k : Nat} {J idx : List Nat} (h : ¬ Reaches p k J y idx) : jacobian p y k J idx = 0 := by
  have := ((sim_deps (unitDir k J)).run 0 p).2.2 y
  refine this.2.2 idx fun e he => ?_
  unfold unitDir
  rw [if_neg]
  rintro ⟨rfl, rfl⟩
  exact h he

/-! ### increments -/

theorem total_unit {sh : List (List Nat)} (D : Nat → List Nat → α) {k : Nat} {s J : List Nat} (hk : sh[k]? = some s) (hJ : InB J s) :
    total sh D (unitDir k J) = D k J := by
  have hlt : k < sh.length := (List.getElem?_eq_some_iff.1 hk).1
  unfold total
  rw [Finset.sum_eq_single k]
  · have e : (unitDir k J : Nat → List Nat → α) k = fun i => if i = J then 1 else 0 := by
      funext i; unfold unitDir; simp
    rw [e, List.getD_eq_getElem?_getD, hk]
    exact pair_single _ hJ
  · intro j _ hj
    refine pair_zero_right _ fun i _ => ?_
    unfold unitDir
    rw [if_neg fun h => hj h.1]
  · intro h; exact absurd (Finset.mem_range.2 hlt) h

theorem total_congr {sh : List (List Nat)} {D D' v v' : Nat → List Nat → α}
    (h : ∀ (k : Nat) (s J : List Nat), sh[k]? = some s → InB J s → D k J = D' k J ∧ v k J = v' k J) : total sh D v = total sh D' v' := by
  refine Finset.sum_congr rfl fun k hk => ?_
  have hk := Finset.mem_range.1 hk
  have e : sh[k]? = some (sh.getD k []) := by
    rw [List.getD_eq_getElem?_getD, List.getElem?_eq_getElem hk]; rfl
  exact pair_congr (fun i hi => (h k _ i e hi).1) fun i hi => (h k _ i e hi).2

theorem Adds.unique {sh : List (List Nat)} {st st' : Store α} {D D' : Nat → List Nat → α} (hst : StoreOK sh st) (h : Adds sh st st' D)
    (h' : Adds sh st st' D') {k : Nat} {s J : List Nat} (hk : sh[k]? = some s) (hJ : InB J s) : D k J = D' k J := by
  obtain ⟨a, ha⟩ : ∃ a, st[k]? = some a :=
    ⟨_, List.getElem?_eq_getElem (by rw [hst.1]; exact (List.getElem?_eq_some_iff.1 hk).1)⟩
  have hs : a.shape = s := by
    have := (hst.2 k a ha).2
    rw [hk] at this; exact (Option.some.inj this).symm
  obtain ⟨b, F, h1, h2, h3⟩ := h.2 k a ha
  obtain ⟨b', F', h1', h2', h3'⟩ := h'.2 k a ha
  rw [h1] at h1'
  cases h1'
  rw [← hs] at hJ
  have e1 := denotes_unique h2 h2' hJ
  have e2 := denotes_unique h3 h3' hJ
  rw [e1] at e2
  exact add_left_cancel e2

variable [Build]

/-- What accumulator `k` of a tensor says about the tensor. -/
theorem acc_inv {sh : List (List Nat)} {σ : RunState α} {S : (Nat → List Nat → α) → SpecState (Dual α)} (h : RunInv sh σ S)
    (hs : SmallEnv σ.env) {i k : Nat} {t : Tensor α} (ht : σ.env[i]? = some t) (hg : t.gradFn = .acc k) :
    sh[k]? = some t.arr.shape ∧ ∀ v idx, InB idx t.arr.shape → (((S v).get i).1.elem idx).eps = v k idx := by
  obtain ⟨F, E, hw, _, _, hdf, hm⟩ := h.tok i t ht
  rw [hg] at hdf
  have hcall := fun G => hdf.adj sh (List.prefix_refl _) _ (Arr.fromContiguousOwnedBuffer t.arr.shape (elements t.arr.shape G)) G
    (Arr.WF.fromContiguous (length_elements _ _)).laid denotes_fromContiguous
  have hk : sh[k]? = some t.arr.shape := by
    have hc := hcall fun _ => 0
    have hne : ∀ e, backward (.acc k) ⟨Arr.fromContiguousOwnedBuffer t.arr.shape (elements t.arr.shape fun _ => (0 : α)), none⟩ σ.store = .error e →
        e = .panic := by
      intro e he
      rcases hc with ⟨hc, _⟩ | ⟨_, D, hc, _⟩
      · rw [hc _ h.store] at he; cases he; rfl
      · obtain ⟨st', hc, _⟩ := hc _ h.store
        rw [hc] at he; cases he
    cases ha : σ.store[k]? with
    | none =>
      have := hne .ub (by
        show accumulate k _ _ = _
        unfold accumulate
        rw [ha])
      cases this
    | some a =>
      rw [(h.store.2 k a ha).2]
      by_contra hc
      have hc : a.shape ≠ t.arr.shape := fun e => hc (by rw [e])
      have := hne .ub (by
        show accumulate k _ _ = _
        unfold accumulate
        rw [ha]
        show (assume (decide (a.shape = t.arr.shape)) >>= fun _ => _) = _
        unfold assume
        rw [if_neg (by simpa using hc)]
        rfl)
      cases this
  refine ⟨hk, fun v idx hi => ?_⟩
  rw [(hm v).2.2 idx hi]
  show E v idx = v k idx
  have hd2 := diff_acc (α := α) hk (hs t (List.mem_of_getElem? ht)).2 (hs t (List.mem_of_getElem? ht)).1
  have hpair : ∀ G, pair t.arr.shape G (E v) = pair t.arr.shape G (v k) := by
    intro G
    have hc2 := hd2.adj sh (List.prefix_refl _) _ (Arr.fromContiguousOwnedBuffer t.arr.shape (elements t.arr.shape G)) G
      (Arr.WF.fromContiguous (length_elements _ _)).laid denotes_fromContiguous
    rcases hcall G with ⟨_, hp⟩ | ⟨_, D, hD, p1⟩
    · exact absurd trivial hp
    · rcases hc2 with ⟨_, hp⟩ | ⟨_, D', hD', p2⟩
      · exact absurd trivial hp
      · obtain ⟨st', e1, a1⟩ := hD _ h.store
        obtain ⟨st'', e2, a2⟩ := hD' _ h.store
        rw [e1] at e2
        cases e2
        rw [p1 v, p2 v]
        exact total_congr fun k s J hk hJ => ⟨a1.unique h.store a2 hk hJ, rfl⟩
  have := hpair fun j => if j = idx then 1 else 0
  simp only [pair_eq, ite_mul, one_mul, zero_mul, Finset.sum_ite_eq', List.mem_toFinset, mem_indices, hi, if_true] at this
  exact this

/-- Either `backward_with` panics whatever the accumulators contain, or it always completes and the increments are the
vector-Jacobian products. `Safe` says which. -/
theorem backwardWith_cases {sh : List (List Nat)} {σ : RunState α} {p : List (Instr α)}
    (h : RunInv sh σ fun v => specRun (Dual.interp v) 0 p) {y : Nat} {t : Tensor α} (ht : σ.env[y]? = some t) {g : Arr α} {G : List Nat → α}
    {u : List Nat} (hw : g.Ready (some u)) (hg : g.Denotes t.arr.shape G) :
    ((∀ st, StoreOK sh st → t.backwardWith ⟨g, none⟩ st = .error .panic) ∧ ¬ Safe t.gradFn t.arr.shape u) ∨
    (Safe t.gradFn t.arr.shape u ∧ ∀ st, StoreOK sh st → ∃ st', t.backwardWith ⟨g, none⟩ st = .ok st' ∧
      Adds sh st st' (fun k J => pair t.arr.shape G (jacobian p y k J))) := by
  rcases backwardWith_ok h ht hw hg with hp | ⟨hsafe, D, hp, hv⟩
  · exact .inl hp
  refine .inr ⟨hsafe, fun st hst => ?_⟩
  obtain ⟨st', e, ha⟩ := hp st hst
  refine ⟨st', e, ha.1, fun k a hk => ?_⟩
  obtain ⟨a', F, h1, h2, h3⟩ := ha.2 k a hk
  refine ⟨a', F, h1, h2, h3.congr fun J hJ => ?_⟩
  have := hv (unitDir k J)
  rw [total_unit D (hst.2 k a hk).2 hJ] at this
  rw [← this]
  rfl

/-- The increments of a completed backward pass are the vector-Jacobian products. -/
theorem backwardWith_incr {sh : List (List Nat)} {σ : RunState α} {p : List (Instr α)}
    (h : RunInv sh σ fun v => specRun (Dual.interp v) 0 p) {y : Nat} {t : Tensor α} (ht : σ.env[y]? = some t) {g : Arr α} {G : List Nat → α}
    (hw : g.WF) (hg : g.Denotes t.arr.shape G) {st st' : Store α} (hst : StoreOK sh st) (hr : t.backwardWith ⟨g, none⟩ st = .ok st') :
    Adds sh st st' (fun k J => pair t.arr.shape G (jacobian p y k J)) := by
  rcases backwardWith_cases h ht hw.laid hg with ⟨hp, _⟩ | ⟨_, hp⟩
  · rw [hp st hst] at hr; cases hr
  · obtain ⟨st'', e, ha⟩ := hp st hst
    rw [e] at hr; cases hr; exact ha

end Verif
