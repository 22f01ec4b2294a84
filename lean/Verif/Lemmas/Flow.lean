import Verif.Lemmas.Completes
import Verif.Spec.Passes

/-! # `Passes` and the recorded graph -/

namespace Verif

variable {α : Type} [Field α]

theorem rowStrides_eq (s : List Nat) : rowStrides s = strideFromShape s := by
  induction s with
  | nil => rfl
  | cons n s ih => rw [strideFromShape_cons, ← ih]; rfl

theorem evenStrides_one (s : List Nat) : evenStrides s 1 = strideFromShape s := by
  unfold evenStrides
  rw [rowStrides_eq]
  simp

/-- Strides that gradients have. -/
def GoodStrides (s d : List Nat) : Prop := d.length = s.length ∧ ∀ c ∈ d, 0 < c

theorem goodStrides_even {s : List Nat} (h : 0 ∉ s) {e : Nat} (he : 0 < e) : GoodStrides s (evenStrides s e) := by
  refine ⟨by simp [evenStrides, rowStrides_eq], fun c hc => ?_⟩
  obtain ⟨b, hb, rfl⟩ := List.mem_map.1 hc
  rw [rowStrides_eq] at hb
  rcases posStride_strideFromShape s with h1 | h1
  · exact absurd (numel_eq_zero.1 h1) h
  · exact Nat.mul_pos (h1 b hb) he

theorem goodStrides_exchange {i j : Nat} {s d : List Nat} (hi : i < s.length) (hj : j < s.length) (h : GoodStrides s d) :
    GoodStrides (exchange i j s) (exchange i j d) := by
  refine ⟨by simp [length_exchange, h.1], fun c hc => ?_⟩
  unfold exchange at hc
  obtain ⟨k, hk, rfl⟩ := List.mem_iff_getElem.1 hc
  simp only [List.getElem_mapIdx]
  have h1 : ∀ m, m < s.length → ∀ z, 0 < d.getD m z := fun m hm z => by
    rw [List.getD_eq_getElem?_getD, List.getElem?_eq_getElem (by rw [h.1]; exact hm)]
    exact h.2 _ (List.getElem_mem _)
  split
  · exact h1 j hj _
  · split
    · exact h1 i hi _
    · exact h.2 _ (List.getElem_mem _)

theorem hasUniformStride_even {s d : List Nat} (h : GoodStrides s d) (hs : s ≠ []) {e : Nat} :
    hasUniformStride s d = some e ↔ d = evenStrides s e := by
  obtain ⟨hl, hp⟩ := h
  cases s with
  | nil => exact absurd rfl hs
  | cons n s =>
    cases d with
    | nil => simp at hl
    | cons c d =>
      unfold evenStrides
      rw [rowStrides_eq]
      constructor
      · intro h
        exact (hasUniformStride_ne_zero (by simpa using hl.symm) h (by have := hp c (by simp); omega)).1
      · intro h
        obtain ⟨e', he⟩ := hasUniformStride_scale (n :: s) e
        rw [← h] at he
        have h2 := (hasUniformStride_ne_zero (by simpa using hl.symm) he (by have := hp c (by simp); omega)).1
        rw [he]
        have h3 : (strideFromShape (n :: s)).getLast? = some 1 := hasUniformStride_getLast (by simp) (hasUniformStride_fresh (by simp)) (by simp)
        have h4 := congrArg List.getLast? (h.symm.trans h2)
        rw [List.getLast?_map, List.getLast?_map, h3] at h4
        simpa [eq_comm] using h4

theorem even_pos {s : List Nat} (hs : s ≠ []) {e : Nat} (h : GoodStrides s (evenStrides s e)) : 0 < e := by
  have h3 : (rowStrides s).getLast? = some 1 := by
    rw [rowStrides_eq]
    exact hasUniformStride_getLast (by simp) (hasUniformStride_fresh hs) hs
  have : (evenStrides s e).getLast? = some (1 * e) := by
    unfold evenStrides
    rw [List.getLast?_map, h3]; rfl
  have := h.2 _ (List.mem_of_getLast? this)
  omega

/-- Giving a gradient back its shape. -/
theorem safe_reshape {n : GradFn α} (hn : n.isNone = false) {s r d : List Nat} (h0 : 0 ∉ s) (hd : GoodStrides r d) {ok : List Nat → Prop}
    (h : ∀ d, GoodStrides s d → (Safe n s d ↔ ok d)) :
    Safe (.reshape n s) r d ↔ (r = s ∧ ok d ∨ r ≠ [] ∧ ∃ e, d = evenStrides r e ∧ ok (evenStrides s e)) := by
  show ((n.isNone = false → CanView r s d) ∧ Safe n s (viewStride r s d)) ↔ _
  by_cases hrs : r = s
  · subst hrs
    have hv : viewStride r r d = d := by unfold viewStride; rw [if_pos rfl]
    rw [hv, h d hd]
    constructor
    · exact fun hh => .inl ⟨rfl, hh.2⟩
    · rintro (⟨_, hh⟩ | ⟨_, e, rfl, hh⟩)
      · exact ⟨fun _ => .inl rfl, hh⟩
      · exact ⟨fun _ => .inl rfl, hh⟩
  · have hsr : ¬ s = r := fun e => hrs e.symm
    constructor
    · rintro ⟨h1, h2⟩
      rcases h1 hn with e | ⟨h1, hne⟩
      · exact absurd e hsr
      · obtain ⟨e, he⟩ := Option.isSome_iff_exists.1 h1
        have hd' := (hasUniformStride_even hd hne).1 he
        refine .inr ⟨hne, e, hd', ?_⟩
        have hv : viewStride r s d = evenStrides s e := by
          unfold viewStride evenStrides
          rw [if_neg hsr, he, rowStrides_eq]; rfl
        rw [hv] at h2
        exact (h _ (goodStrides_even h0 (even_pos hne (hd' ▸ hd)))).1 h2
    · rintro (⟨e, _⟩ | ⟨hne, e, hd', hh⟩)
      · exact absurd e hrs
      · have he := (hasUniformStride_even hd hne).2 hd'
        have hv : viewStride r s d = evenStrides s e := by
          unfold viewStride evenStrides
          rw [if_neg hsr, he, rowStrides_eq]; rfl
        rw [hv]
        exact ⟨fun _ => .inr ⟨by rw [he]; rfl, hne⟩, (h _ (goodStrides_even h0 (even_pos hne (hd' ▸ hd)))).2 hh⟩

/-- What `Flow` says about a tensor. -/
structure FlowOf (t : Tensor α) (f : Flow) : Prop where
  req : f.req = t.requiresGrad
  none : t.gradFn.isNone = !t.requiresGrad
  safe : ∀ d, GoodStrides t.arr.shape d → (Safe t.gradFn t.arr.shape d ↔ f.takes d)

/-- What the flows say about the tensors. -/
def FlowsOf (Γ : List (List Nat)) (env : List (Tensor α)) (F : List Flow) : Prop :=
  F.length = env.length ∧ ∀ (i : Nat) (t : Tensor α), env[i]? = some t → Γ[i]? = some t.arr.shape ∧ ∃ f, F[i]? = some f ∧ FlowOf t f

theorem FlowsOf.push {Γ : List (List Nat)} {env : List (Tensor α)} {F : List Flow} (h : FlowsOf Γ env F) {r : Tensor α} {f : Flow}
    (hr : Γ[env.length]? = some r.arr.shape) (hf : FlowOf r f) : FlowsOf Γ (env ++ [r]) (F ++ [f]) := by
  refine ⟨by simp [h.1], fun i t ht => ?_⟩
  by_cases hlt : i < env.length
  · rw [List.getElem?_append_left hlt] at ht
    rw [List.getElem?_append_left (h.1 ▸ hlt)]
    exact h.2 i t ht
  · have hi := (List.getElem?_eq_some_iff.1 ht).1
    have : i = env.length := by simp at hi; omega
    subst this
    simp at ht
    subst ht
    exact ⟨hr, f, by rw [← h.1]; simp, hf⟩

theorem FlowOf.mk' {a : Arr α} {req : Bool} {node : GradFn α} {f : Flow} (h1 : f.req = req) (h2 : req = true → node.isNone = false)
    (h3 : req = true → ∀ d, GoodStrides a.shape d → (Safe node a.shape d ↔ f.ok d)) : FlowOf (Tensor.mk' a req node) f := by
  cases req with
  | false => exact ⟨h1, rfl, fun d _ => ⟨fun _ h => (by rw [h1] at h; cases h), fun _ => trivial⟩⟩
  | true => exact ⟨h1, h2 rfl, fun d hd => ⟨fun h _ => (h3 rfl d hd).1 h, fun h => (h3 rfl d hd).2 (h h1)⟩⟩

theorem FlowOf.some {t : Tensor α} {f : Flow} (h : FlowOf t f) (hr : t.requiresGrad = true) {d : List Nat} (hd : GoodStrides t.arr.shape d) :
    Safe t.gradFn t.arr.shape d ↔ f.ok d := by
  rw [h.safe d hd]
  exact ⟨fun hh => hh (h.req.trans hr), fun hh _ => hh⟩

/-- Handing a gradient to an operand. -/
theorem FlowOf.receives {t : Tensor α} {f : Flow} (h : FlowOf t f) (h0 : 0 ∉ t.arr.shape) {r d : List Nat} (hd : GoodStrides r d) (keeps : Bool) :
    ((t.gradFn.isNone = false → CanReduce t.arr.shape r) ∧
      Safe t.gradFn t.arr.shape (if keeps = true then fitStride d t.arr.shape r else strideFromShape t.arr.shape)) ↔ f.receives keeps t.arr.shape r d := by
  have e : (if keeps = true then fitStride d t.arr.shape r else strideFromShape t.arr.shape) =
      if keeps = true ∧ t.arr.shape = r then d else evenStrides t.arr.shape 1 := by
    rw [evenStrides_one]
    unfold fitStride
    cases keeps <;> simp
  rw [e]
  have hg : GoodStrides t.arr.shape (if keeps = true ∧ t.arr.shape = r then d else evenStrides t.arr.shape 1) := by
    split
    · rename_i hh; rw [hh.2]; exact hd
    · exact goodStrides_even h0 (by omega)
  rw [h.safe _ hg]
  unfold Flow.receives Flow.takes
  have hn : t.gradFn.isNone = false ↔ f.req = true := by rw [h.none, h.req]; simp
  rw [hn]
  exact ⟨fun ⟨h1, h2⟩ hq => ⟨h1 hq, h2 hq⟩, fun hh => ⟨fun hq => (hh hq).1, fun hq => (hh hq).2⟩⟩

theorem FlowOf.fresh {t : Tensor α} {f : Flow} (h : FlowOf t f) (h0 : 0 ∉ t.arr.shape) :
    Safe t.gradFn t.arr.shape (strideFromShape t.arr.shape) ↔ f.takes (evenStrides t.arr.shape 1) := by
  rw [← evenStrides_one]
  exact h.safe _ (goodStrides_even h0 (by omega))

theorem FlowOf.through {t r : Tensor α} {f : Flow} (h : FlowOf t f) (h0 : 0 ∉ t.arr.shape) {op : SView} (hap : op.Applies t.arr.shape)
    (hq : r.requiresGrad = t.requiresGrad) (hg : r.gradFn = if t.requiresGrad then op.node t else .none) (hsh : r.arr.shape = (op.out t.arr.shape).1) :
    FlowOf r ⟨f.req, fun d => f.through t.arr.shape r.arr.shape d op⟩ := by
  have hn : t.requiresGrad = true → t.gradFn.isNone = false := fun hr => by rw [h.none, hr]; rfl
  have key : FlowOf (⟨r.arr, t.requiresGrad, r.userCreated, if t.requiresGrad then op.node t else .none⟩ : Tensor α)
      ⟨f.req, fun d => f.through t.arr.shape r.arr.shape d op⟩ := by
    cases hr : t.requiresGrad with
    | false => exact ⟨by rw [h.req, hr], rfl, fun d _ => ⟨fun _ hh => (by rw [h.req, hr] at hh; cases hh), fun _ => trivial⟩⟩
    | true =>
      have hf : f.req = true := by rw [h.req, hr]
      refine ⟨hf, ?_, fun d hd => ?_⟩
      · cases op with
        | view => exact hn hr
        | reshape s => simp only [if_true, SView.node]; split; exact hn hr; rfl
        | _ => rfl
      · show Safe (op.node t) r.arr.shape d ↔ (f.req = true → _)
        rw [show (f.req = true → f.through t.arr.shape r.arr.shape d op) ↔ f.through t.arr.shape r.arr.shape d op from ⟨fun hh => hh hf, fun hh _ => hh⟩]
        have hre := fun hd' : GoodStrides r.arr.shape d => safe_reshape (hn hr) h0 hd' (ok := f.ok) (fun d hd => h.some hr hd)
        cases op with
        | view =>
          have hd : GoodStrides r.arr.shape d := hd
          rw [show r.arr.shape = t.arr.shape from hsh] at hd ⊢
          exact h.some hr hd
        | reshape s =>
          have hsh : r.arr.shape = s := hsh
          by_cases hs : s = t.arr.shape
          · show Safe (if s = t.arr.shape then t.gradFn else _) _ _ ↔ _
            rw [if_pos hs]
            refine Iff.trans ?_ (hre hd)
            have hd : GoodStrides r.arr.shape d := hd
            rw [hsh, hs] at hd ⊢
            show _ ↔ ((_ → CanView _ _ _) ∧ Safe _ _ (viewStride _ _ _))
            have hv : viewStride t.arr.shape t.arr.shape d = d := by unfold viewStride; rw [if_pos rfl]
            rw [hv]
            exact ⟨fun hh => ⟨fun _ => .inl rfl, hh⟩, fun hh => hh.2⟩
          · show Safe (if s = t.arr.shape then t.gradFn else _) _ _ ↔ _
            rw [if_neg hs]
            exact hre hd
        | squeeze => exact hre hd
        | unsqueeze ax => exact hre hd
        | transpose a b =>
          have hd : GoodStrides r.arr.shape d := hd
          have e := exchange_safe hap
          simp only at e
          rw [← hsh] at e
          show Safe t.gradFn (exchange (axisNat a r.arr.shape.length) (axisNat b r.arr.shape.length) r.arr.shape)
            (exchange (axisNat a r.arr.shape.length) (axisNat b r.arr.shape.length) d) ↔ _
          rw [e]
          refine h.some hr ?_
          obtain ⟨⟨i, hi⟩, ⟨j, hj⟩⟩ := hap
          have hlen : r.arr.shape.length = t.arr.shape.length := by rw [hsh]; simp [SView.out, length_exchange]
          have := goodStrides_exchange (i := axisNat a r.arr.shape.length) (j := axisNat b r.arr.shape.length)
            (by rw [hlen, axisNat_of hi]; exact hi.1) (by rw [hlen, axisNat_of hj]; exact hj.1) hd
          rwa [e] at this
  refine ⟨by rw [hq]; exact key.req, by rw [hg, hq]; exact key.none, fun d hd => ?_⟩
  rw [hg]
  exact key.safe d hd

variable [Build]

theorem flow_step {Γ : List (List Nat)} {sh sh' : List (List Nat)} {σ σ' : RunState α}
    {S : (Nat → List Nat → α) → SpecState (Dual α)} (h : RunInv sh σ S) {x : Instr α}
    (hs : SmallEnv σ.env) (hx : x.Plain σ.env) (h' : RunInv sh' σ' (fun v => (S v).step (Dual.interp v) 0 x)) (hr : σ.step x = .ok σ')
    (hΓ : ∀ (i : Nat) (t : Tensor α), σ'.env[i]? = some t → Γ[i]? = some t.arr.shape) {F : List Flow} (hF : FlowsOf Γ σ.env F) :
    FlowsOf Γ σ'.env (x.flow Γ F) := by
  have hsh : ∀ {i : Nat} {t : Tensor α}, σ.env[i]? = some t → ((S fun _ _ => 0).get i).1.shape = t.arr.shape := by
    intro i t ht
    obtain ⟨F, E, _, _, _, _, hm⟩ := h.tok i t ht
    exact (hm _).2.1
  have hl := h.len fun _ _ => 0
  have hget : ∀ {i : Nat} {t : Tensor α}, σ.env[i]? = some t →
      Γ.getD i [] = t.arr.shape ∧ FlowOf t (F.getD i ⟨false, fun _ => True⟩) ∧ 0 ∉ t.arr.shape := by
    intro i t ht
    obtain ⟨h1, f, h2, h3⟩ := hF.2 i t ht
    simp only [List.getD_eq_getElem?_getD, h1, h2]
    exact ⟨rfl, h3, (hs t (List.mem_of_getElem? ht)).1⟩
  have hlast : ∀ (r : Tensor α), σ'.env = σ.env ++ [r] → Γ[σ.env.length]? = some r.arr.shape ∧ Γ.getD F.length [] = r.arr.shape := by
    intro r e
    have := hΓ σ.env.length r (by rw [e]; simp)
    refine ⟨this, ?_⟩
    rw [hF.1, List.getD_eq_getElem?_getD, this]; rfl
  -- both operands receive new gradients
  have hboth : ∀ {i j : Nat} {a b : Tensor α} (ha : σ.env[i]? = some a) (hb : σ.env[j]? = some b) {q : Arr α} {node : GradFn α}
      (_ : node.isNone = false)
      (_ : ∀ s d, Safe node s d ↔ Safe a.gradFn a.arr.shape (strideFromShape a.arr.shape) ∧ Safe b.gradFn b.arr.shape (strideFromShape b.arr.shape)),
      FlowOf (Tensor.mk' q (a.requiresGrad || b.requiresGrad) node) ⟨(F.getD i ⟨false, fun _ => True⟩).req || (F.getD j ⟨false, fun _ => True⟩).req,
        fun _ => (F.getD i ⟨false, fun _ => True⟩).takes (evenStrides (Γ.getD i []) 1) ∧ (F.getD j ⟨false, fun _ => True⟩).takes (evenStrides (Γ.getD j []) 1)⟩ := by
    intro i j a b ha hb q node hn hS
    obtain ⟨e1, f1, z1⟩ := hget ha
    obtain ⟨e2, f2, z2⟩ := hget hb
    refine .mk' (by rw [f1.req, f2.req]) (fun _ => hn) fun _ d _ => ?_
    rw [hS, f1.fresh z1, f2.fresh z2, e1, e2]
  cases x with
  | leaf s data =>
    obtain ⟨_, _, hr⟩ := bind_eq_ok.1 hr
    obtain ⟨r, e, rfl⟩ := push_ok hr
    cases e
    exact hF.push (hlast _ rfl).1 ⟨rfl, rfl, fun _ _ => ⟨fun _ _ => trivial, fun _ => trivial⟩⟩
  | setReq i b =>
    obtain ⟨t, ht, hr⟩ := bind_eq_ok.1 hr
    obtain ⟨⟨t', st'⟩, hq, hr⟩ := bind_eq_ok.1 hr
    cases hr
    have ht := getT_ok ht
    obtain ⟨e1, f1, z1⟩ := hget ht
    have hlt := (List.getElem?_eq_some_iff.1 ht).1
    refine ⟨by simp [Instr.flow, hF.1], fun j u hu => ⟨hΓ j u hu, ?_⟩⟩
    simp only [Instr.flow]
    rw [List.getElem?_set] at hu ⊢
    by_cases hij : i = j
    · subst hij
      rw [if_pos rfl, if_pos hlt] at hu
      cases hu
      rw [if_pos rfl, if_pos (hF.1 ▸ hlt)]
      refine ⟨_, rfl, ?_⟩
      unfold Tensor.setRequiresGrad at hq
      split at hq
      · rename_i hc
        obtain ⟨z, _, hq⟩ := bind_eq_ok.1 hq
        cases hq
        simp only [Bool.and_eq_true, Bool.not_eq_true'] at hc
        refine ⟨rfl, by simp [hc.2, GradFn.isNone], fun d _ => ⟨fun _ _ hh => ?_, fun _ => trivial⟩⟩
        rw [f1.req, hc.1] at hh; cases hh
      · split at hq
        · rename_i hc
          cases hq
          simp only [Bool.and_eq_true, Bool.not_eq_true'] at hc
          refine ⟨rfl, by simp [hc.2, GradFn.isNone], fun d _ => ⟨fun _ hh => ?_, fun _ => trivial⟩⟩
          exact absurd (hc.2.symm.trans hh) (by simp)
        · rename_i h1 h2
          cases hq
          have hb : b = t.requiresGrad := by
            cases b <;> cases hq : t.requiresGrad <;> simp_all
          refine ⟨rfl, by rw [hb]; exact f1.none, fun d hd => ?_⟩
          rw [show Safe ({ t with requiresGrad := b } : Tensor α).gradFn ({ t with requiresGrad := b } : Tensor α).arr.shape d ↔ _ from f1.safe d hd]
          refine ⟨fun hh _ => hh, fun hh hq => hh ?_ hq⟩
          show b = true
          rw [hb, ← f1.req]; exact hq
    · rw [if_neg hij] at hu ⊢
      exact (hF.2 j u hu).2
  | neg i =>
    obtain ⟨t, ht, hr⟩ := bind_eq_ok.1 hr
    have ht := getT_ok ht
    obtain ⟨r, e, rfl⟩ := push_ok hr
    have e1 := shape_last hl h' rfl
    obtain ⟨a, _, e⟩ := bind_eq_ok.1 e
    cases e
    obtain ⟨e2, f1, z1⟩ := hget ht
    rw [show (MT.map (- ·) ((S fun _ _ => 0).get i).1).shape = _ from hsh ht] at e1
    refine hF.push (hlast _ rfl).1 (.mk' f1.req (fun _ => rfl) fun hq d _ => ?_)
    show Safe _ _ d ↔ (F.getD i ⟨false, fun _ => True⟩).ok (evenStrides (Γ.getD i []) 1)
    rw [show a.shape = t.arr.shape from e1, e2, ← f1.some hq (goodStrides_even z1 (by omega)), evenStrides_one]
    rfl
  | scal op i c =>
    obtain ⟨t, ht, hr⟩ := bind_eq_ok.1 hr
    have ht := getT_ok ht
    obtain ⟨r, e, rfl⟩ := push_ok hr
    have e1 := shape_last hl h' rfl
    obtain ⟨a, _, e⟩ := bind_eq_ok.1 e
    cases e
    obtain ⟨e2, f1, z1⟩ := hget ht
    rw [show (MT.map (fun x => op.run x ((Dual.interp fun _ _ => 0).const c)) ((S fun _ _ => 0).get i).1).shape = _ from hsh ht] at e1
    have hn : t.requiresGrad = true → t.gradFn.isNone = false := fun hr => by rw [f1.none, hr]; rfl
    refine hF.push (hlast _ rfl).1 (.mk' f1.req (fun hq => by cases op <;> first | exact hn hq | rfl) fun hq d hd => ?_)
    rw [show a.shape = t.arr.shape from e1] at hd ⊢
    simp only [e2]
    cases op with
    | add => exact f1.some hq hd
    | sub => exact f1.some hq hd
    | mul =>
      refine Iff.trans ?_ (f1.some hq (goodStrides_even z1 (by omega)))
      rw [evenStrides_one]; rfl
    | div =>
      refine Iff.trans ?_ (f1.some hq (goodStrides_even z1 (by omega)))
      rw [evenStrides_one]; rfl
  | bin op i j =>
    obtain ⟨a, ha, hr⟩ := bind_eq_ok.1 hr
    obtain ⟨b, hb, hr⟩ := bind_eq_ok.1 hr
    obtain ⟨r, e, rfl⟩ := push_ok hr
    have ha := getT_ok ha
    have hb := getT_ok hb
    obtain ⟨q, _, e⟩ := bind_eq_ok.1 e
    cases e
    obtain ⟨e1, f1, z1⟩ := hget ha
    obtain ⟨e2, f2, z2⟩ := hget hb
    have hlst := hlast _ rfl
    refine hF.push hlst.1 (.mk' (by rw [f1.req, f2.req]) (fun hq => by cases op <;> rfl) fun hq d hd => ?_)
    simp only [e1, e2, hlst.2]
    refine Iff.trans ?_ (and_congr (f1.receives z1 hd _) (f2.receives z2 hd _))
    cases op <;> exact Iff.rfl
  | dot i j =>
    obtain ⟨a, ha, hr⟩ := bind_eq_ok.1 hr
    obtain ⟨b, hb, hr⟩ := bind_eq_ok.1 hr
    obtain ⟨r, e, rfl⟩ := push_ok hr
    obtain ⟨_, _, e⟩ := bind_eq_ok.1 e
    cases e
    exact hF.push (hlast _ rfl).1 (hboth (getT_ok ha) (getT_ok hb) rfl fun _ _ => Iff.rfl)
  | bmm i j =>
    obtain ⟨a, ha, hr⟩ := bind_eq_ok.1 hr
    obtain ⟨b, hb, hr⟩ := bind_eq_ok.1 hr
    obtain ⟨r, e, rfl⟩ := push_ok hr
    obtain ⟨_, _, e⟩ := bind_eq_ok.1 e
    cases e
    exact hF.push (hlast _ rfl).1 (hboth (getT_ok ha) (getT_ok hb) rfl fun _ _ => Iff.rfl)
  | matmul i j =>
    obtain ⟨a, ha, hr⟩ := bind_eq_ok.1 hr
    obtain ⟨b, hb, hr⟩ := bind_eq_ok.1 hr
    obtain ⟨r, e, rfl⟩ := push_ok hr
    refine hF.push (hlast _ rfl).1 ?_
    unfold Tensor.matmul at e
    split at e
    · obtain ⟨_, _, e⟩ := bind_eq_ok.1 e
      cases e
      exact hboth (getT_ok ha) (getT_ok hb) rfl fun _ _ => Iff.rfl
    · obtain ⟨_, _, e⟩ := bind_eq_ok.1 e
      simp only at e
      split at e
      · cases e
        exact hboth (getT_ok ha) (getT_ok hb) rfl fun _ _ => Iff.rfl
      · split at e
        · cases e
          exact hboth (getT_ok ha) (getT_ok hb) rfl fun _ _ => Iff.rfl
        · split at e
          · cases e
          · rename_i hq
            cases e
            have hq : (a.requiresGrad || b.requiresGrad) = false := by simpa using hq
            refine .mk' (by simp only; rw [(hget (getT_ok ha)).2.1.req, (hget (getT_ok hb)).2.1.req]) (fun hq' => ?_) fun hq' => ?_
            · rw [hq] at hq'; cases hq'
            · rw [hq] at hq'; cases hq'
  | view op i =>
    obtain ⟨t, ht, hr⟩ := bind_eq_ok.1 hr
    have ht := getT_ok ht
    obtain ⟨r, e, rfl⟩ := push_ok hr
    have e1 := shape_last hl h' rfl
    obtain ⟨_, hap, hq, hg⟩ := tok_view op (h.tok i t ht) e
    rw [reshaped_eq] at e1
    simp only [hsh ht] at e1
    obtain ⟨e2, f1, z1⟩ := hget ht
    have hlst := hlast _ rfl
    have := f1.through z1 hap hq hg e1
    rw [← e2, ← hlst.2] at this
    exact hF.push hlst.1 this
  | into op shared i =>
    obtain ⟨t, ht, hr⟩ := bind_eq_ok.1 hr
    have ht := getT_ok ht
    obtain ⟨r, e, rfl⟩ := push_ok hr
    have e1 := shape_last hl h' rfl
    obtain ⟨_, hap, hq, hg⟩ := tok_into op (fun h1 h2 => hx h1 h2 t ht) (hs t (List.mem_of_getElem? ht)) (h.tok i t ht) e
    rw [reshaped_eq] at e1
    simp only [hsh ht] at e1
    obtain ⟨e2, f1, z1⟩ := hget ht
    have hlst := hlast _ rfl
    have := f1.through z1 hap hq hg e1
    rw [← e2, ← hlst.2] at this
    exact hF.push hlst.1 this

theorem flow_session {Γ : List (List Nat)} {c : List (Cmd α)} {sh : List (List Nat)} {σ σ' : RunState α}
    {S : (Nat → List Nat → α) → SpecState (Dual α)}
    (h : RunInv sh σ S) (hp : ∀ x ∈ c, x.Fine σ'.env) (hr : c.foldlM RunState.exec σ = .ok σ') (hs : SmallEnv σ'.env)
    (hΓ : ∀ (i : Nat) (t : Tensor α), σ'.env[i]? = some t → Γ[i]? = some t.arr.shape) {F : List Flow} (hF : FlowsOf Γ σ.env F) :
    FlowsOf Γ σ'.env ((program c).foldl (Instr.flow Γ) F) := by
  induction c generalizing sh σ S F with
  | nil => cases hr; exact hF
  | cons y p ih =>
    rw [List.foldlM_cons] at hr
    obtain ⟨σ₁, h1, hr₂⟩ := bind_eq_ok.1 hr
    have hsm : SmallEnv σ₁.env := smallEnv_of_session hr₂ hs
    have hs0 := smallEnv_of_exec h1 hsm
    have hall : (y :: p).foldlM RunState.exec σ = .ok σ' := by rw [List.foldlM_cons, h1]; exact hr₂
    have hfy : y.Fine σ.env := (hp y (by simp)).mono fun i t ht => session_env hall i t ht
    have hF₁ : FlowsOf Γ σ₁.env ((program [y]).foldl (Instr.flow Γ) F) := by
      cases y with
      | op x =>
        obtain ⟨sh', _, h'⟩ := run_step h hs0 hsm hfy h1
        refine flow_step h hs0 hfy h' h1 (fun i t ht => ?_) hF
        obtain ⟨t', ht', e⟩ := session_env hr₂ i t ht
        rw [← e]
        exact hΓ i t' ht'
      | backward _ => rw [exec_grad h1 rfl]; exact hF
      | backwardWith _ _ => rw [exec_grad h1 rfl]; exact hF
      | zeroGradient _ => rw [exec_grad h1 rfl]; exact hF
    obtain ⟨sh₁, hi⟩ := run_exec h hs0 hsm hfy h1
    rw [program_cons, List.foldl_append]
    exact ih hi (fun z hz => hp z (by simp [hz])) hr₂ hF₁

/-- **`Passes` is right** about the recorded graph, after any fine session. -/
theorem passes_safe {c : List (Cmd α)} {σ : RunState α} (hc : ∀ x ∈ c, x.Fine σ.env) (hr : runSession c = .ok σ) (hs : SmallEnv σ.env)
    {Γ : List (List Nat)} (hΓ : ∀ (i : Nat) (t : Tensor α), σ.env[i]? = some t → Γ[i]? = some t.arr.shape) {y : Nat} {t : Tensor α}
    (ht : σ.env[y]? = some t) {d : List Nat} (hd : GoodStrides t.arr.shape d) :
    Safe t.gradFn t.arr.shape d ↔ Passes Γ (program c) y d := by
  have h0 : RunInv [] (⟨[], []⟩ : RunState α) (fun _ => ⟨[], 0⟩) := ⟨⟨rfl, fun k a h => by simp at h⟩, fun _ => rfl, fun _ => rfl,
    fun i t h => by simp at h⟩
  obtain ⟨_, f, hf, hfo⟩ := (flow_session h0 hc hr hs hΓ (F := []) ⟨rfl, fun i t h => by simp at h⟩).2 y t ht
  rw [hfo.safe d hd]
  unfold Passes
  rw [List.getD_eq_getElem?_getD, hf]; rfl

end Verif
