import Verif.Lemmas.AutogradRun

/-! # Whole programs -/

namespace Verif

variable {α : Type} [Field α] [Build]

/-- The consuming form takes the layout from the tensor. -/
def SView.takesLayout : SView → Bool
  | .view => false
  | .transpose _ _ => false
  | _ => true

/-- Consuming `squeeze`, `unsqueeze` and `reshape` of a tensor whose elements have other owners take the layout from the tensor but
the buffer from its clone, see `C40_shared_false`. Here: the tensor, if it has other owners, lies row by row in memory. -/
def Instr.Plain (env : List (Tensor α)) : Instr α → Prop
  | .into op shared i => shared = true → op.takesLayout = true → ∀ t : Tensor α, env[i]? = some t →
      t.arr.stride = strideFromShape t.arr.shape
  | _ => True

/-- There is no such operation. -/
def Instr.plain : Instr α → Bool
  | .into op shared _ => !shared || !op.takesLayout
  | _ => true

omit [Field α] [Build] in
theorem Instr.Plain.of_plain {x : Instr α} (h : x.plain = true) (env : List (Tensor α)) : x.Plain env := by
  cases x with
  | into op shared i =>
    intro h1 h2
    simp [Instr.plain, h1, h2] at h
  | _ => trivial

omit [Field α] [Build] in
/-- The condition is about arrays, which later operations keep. -/
theorem Instr.Plain.mono {env env' : List (Tensor α)} (h : ∀ (i : Nat) (t : Tensor α), env[i]? = some t → ∃ t', env'[i]? = some t' ∧ t'.arr = t.arr)
    {x : Instr α} (hx : x.Plain env') : x.Plain env := by
  cases x with
  | into op shared i =>
    intro h1 h2 t ht
    obtain ⟨t', ht', e⟩ := h i t ht
    rw [← e]
    exact hx h1 h2 t' ht'
  | _ => trivial

omit [Field α] [Build] in
theorem intoArr_congr {a b : Arr α} (hb : b.shape = a.shape) (hst : b.stride = a.stride) (hwa : a.WF) (hwb : b.WF) (op : SView) :
    op.intoArr a b = op.intoArr b b := by
  have hu : b.isUniformlyStrided = a.isUniformlyStrided := by
    unfold Arr.isUniformlyStrided
    rw [hwa.flags.1, hwb.flags.1, hb, hst]
  cases op with
  | view => rfl
  | transpose _ _ => rfl
  | reshape ns =>
    have : a.reshapeLayout ns = b.reshapeLayout ns := by unfold Arr.reshapeLayout Arr.size; rw [hb, hst, hu]
    show (if ns = a.shape then _ else _) = (if ns = b.shape then _ else _)
    rw [this, hb]
  | squeeze => simp [SView.intoArr, Arr.squeezeLayout, hb, hst]
  | unsqueeze ax =>
    have : a.unsqueezeLayout ax = b.unsqueezeLayout ax := by unfold Arr.unsqueezeLayout Arr.ndims; rw [hb, hst]
    show (a.unsqueezeLayout ax >>= _) = _
    rw [this]; rfl

omit [Field α] [Build] in
theorem intoArr_plain {a b : Arr α} {op : SView} (hp : op.takesLayout = true → a.stride = strideFromShape a.shape)
    (hb : b.shape = a.shape) (hst : b.stride = strideFromShape a.shape) (hwa : a.WF) (hwb : b.WF) :
    op.intoArr a b = op.intoArr b b := by
  cases h : op.takesLayout with
  | true => exact intoArr_congr hb (hst.trans (hp h).symm) hwa hwb op
  | false => cases op <;> first | rfl | cases h

theorem tok_ofArr {sh : List (List Nat)} {t : Tensor α} {m : (Nat → List Nat → α) → MT (Dual α) × Bool} (op : SView)
    {F : List Nat → α} {E : (Nat → List Nat → α) → List Nat → α} (hn : t.gradFn.isNone = !t.requiresGrad)
    (hdf : Diff sh t.gradFn t.arr.shape E) (hm : ∀ v, (m v).2 = t.requiresGrad ∧ (m v).1.shape = t.arr.shape ∧
      ∀ idx, InB idx t.arr.shape → (m v).1.elem idx = ⟨F idx, E v idx⟩) {r : Arr α} (ho : op.Applies t.arr.shape)
    (hw : r.WF) (hd : r.Denotes (op.out t.arr.shape).1 (fun i => F ((op.out t.arr.shape).2 i))) :
    TOK sh (.mk' r t.requiresGrad (op.node t)) (fun v => ((m v).1.reshaped op, (m v).2)) := by
  refine tok_mk hw hd (diff_view op hdf ho) (fun hq => ?_) (fun hq v i hi => ?_) fun v => ?_
  · rw [hq] at hn
    cases op with
    | view => exact hn
    | reshape ns =>
      unfold SView.node
      by_cases hs : ns = t.arr.shape
      · simp only [if_pos hs]; exact hn
      · simp only [if_neg hs]; rfl
    | _ => rfl
  · exact hdf.zero (isNone_of hn hq) v _ (SView.inB ho hi)
  · obtain ⟨k1, k2, k3⟩ := hm v
    rw [reshaped_eq, k2]
    exact ⟨k1, rfl, fun idx hi => k3 _ (SView.inB ho hi)⟩

theorem tok_view {sh : List (List Nat)} {t r : Tensor α} {m : (Nat → List Nat → α) → MT (Dual α) × Bool} (op : SView)
    (h : TOK sh t m) (hr : t.viewOp op = .ok r) :
    TOK sh r (fun v => ((m v).1.reshaped op, (m v).2)) ∧ op.Applies t.arr.shape ∧ r.requiresGrad = t.requiresGrad ∧
      r.gradFn = if t.requiresGrad then op.node t else .none := by
  obtain ⟨F, E, hw, ha, hn, hdf, hm⟩ := h
  unfold Tensor.viewOp at hr
  rcases gives_viewOp hw ha op with ⟨h, _⟩ | ⟨ho, ⟨q, e, w, d⟩, _⟩
  · rw [h] at hr; cases hr
  · rw [e] at hr
    cases hr
    exact ⟨tok_ofArr op hn hdf hm ho w.wf d, ho, rfl, rfl⟩

theorem tok_into {sh : List (List Nat)} {t r : Tensor α} {m : (Nat → List Nat → α) → MT (Dual α) × Bool} (op : SView)
    {shared : Bool} (hp : shared = true → op.takesLayout = true → t.arr.stride = strideFromShape t.arr.shape) (hs : SmallShape t.arr.shape)
    (h : TOK sh t m) (hr : t.intoViewOp shared op = .ok r) :
    TOK sh r (fun v => ((m v).1.reshaped op, (m v).2)) ∧ op.Applies t.arr.shape ∧ r.requiresGrad = t.requiresGrad ∧
      r.gradFn = if t.requiresGrad then op.node t else .none := by
  obtain ⟨F, E, hw, ha, hn, hdf, hm⟩ := h
  unfold Tensor.intoViewOp at hr
  obtain ⟨b, hb, hr⟩ := bind_eq_ok.1 hr
  obtain ⟨hwb, hdb, hbs⟩ : b.WF ∧ b.Denotes t.arr.shape F ∧ (shared = true → b.stride = strideFromShape t.arr.shape) := by
    unfold Tensor.intoNdarray at hb
    cases shared with
    | false => cases hb; exact ⟨hw, ha, fun h => by cases h⟩
    | true =>
      simp only [if_true] at hb
      unfold Arr.clone at hb
      rw [cloneData_ok ha hw.cloneOK hw.flags hs.2] at hb
      cases hb
      exact ⟨Arr.WF.fromContiguous (length_elements _ _), denotes_fromContiguous, fun _ => rfl⟩
  have hsame : op.intoArr t.arr b = op.intoArr b b := by
    cases shared with
    | false => cases hb; rfl
    | true => exact intoArr_plain (hp rfl) hdb.1 (hbs rfl) hw hwb
  rw [hsame] at hr
  rcases gives_viewOp hwb hdb op with ⟨_, h⟩ | ⟨ho, _, ⟨q, e, w, d⟩⟩
  · rw [h] at hr; cases hr
  · rw [e] at hr
    cases hr
    exact ⟨tok_ofArr op hn hdf hm ho w.wf d, ho, rfl, rfl⟩

theorem TOK.mono {sh sh' : List (List Nat)} {t : Tensor α} {m : (Nat → List Nat → α) → MT (Dual α) × Bool} (h : TOK sh t m)
    (hp : sh <+: sh') : TOK sh' t m := by
  obtain ⟨F, E, hw, ha, hn, hdf, hm⟩ := h
  exact ⟨F, E, hw, ha, hn, hdf.mono hp, hm⟩

theorem tok_leaf (sh : List (List Nat)) {s : List Nat} {data : List α} (hl : data.length = numel s) :
    TOK sh (Tensor.fromContiguousOwnedBuffer s data)
      (fun _ => (⟨s, fun idx => (⟨data.getD (rank idx s) 0, 0⟩ : Dual α)⟩, false)) :=
  ⟨fun idx => data.getD (rank idx s) 0, fun _ _ => 0, Arr.WF.fromContiguous hl, denotes_fromContiguous_getD hl 0, rfl,
    diff_none sh _ fun _ _ _ => rfl, fun _ => ⟨rfl, rfl, fun _ _ => rfl⟩⟩

/-- The state of a run and the states of the specification, one for each direction. -/
structure RunInv (sh : List (List Nat)) (σ : RunState α) (S : (Nat → List Nat → α) → SpecState (Dual α)) : Prop where
  store : StoreOK sh σ.store
  vars : ∀ v, (S v).vars = sh.length
  len : ∀ v, (S v).env.length = σ.env.length
  tok : ∀ (i : Nat) (t : Tensor α), σ.env[i]? = some t → TOK sh t (fun v => (S v).get i)

omit [Build] in
theorem getT_ok {env : List (Tensor α)} {i : Nat} {t : Tensor α} (h : getT env i = .ok t) : env[i]? = some t := by
  unfold getT at h
  split at h
  · cases h; assumption
  · cases h

theorem RunInv.push {sh : List (List Nat)} {σ : RunState α} {S : (Nat → List Nat → α) → SpecState (Dual α)} (h : RunInv sh σ S)
    {r : Tensor α} {m : (Nat → List Nat → α) → MT (Dual α) × Bool} (hr : TOK sh r m) :
    RunInv sh { σ with env := σ.env ++ [r] } (fun v => (S v).push (m v).1 (m v).2) := by
  refine ⟨h.store, h.vars, fun v => by simp [SpecState.push, h.len v], fun i t hi => ?_⟩
  have hget : ∀ v, ((S v).push (m v).1 (m v).2).get i = if i < σ.env.length then (S v).get i else
      if i = σ.env.length then m v else (⟨[], fun _ => 0⟩, false) := by
    intro v
    unfold SpecState.get SpecState.push
    simp only [List.getD_eq_getElem?_getD]
    rw [← h.len v]
    by_cases h1 : i < (S v).env.length
    · rw [if_pos h1, List.getElem?_append_left h1]
    · rw [if_neg h1, List.getElem?_append_right (by omega)]
      by_cases h2 : i = (S v).env.length
      · rw [if_pos h2, h2]; simp
      · rw [if_neg h2, List.getElem?_eq_none (by simp; omega)]; rfl
  simp only [hget]
  by_cases h1 : i < σ.env.length
  · simp only [if_pos h1]
    rw [List.getElem?_append_left h1] at hi
    exact h.tok i t hi
  · have h2 : i = σ.env.length := by
      have := (List.getElem?_eq_some_iff.1 hi).1
      simp at this; omega
    subst h2
    simp at hi
    subst hi
    simpa using hr

theorem RunInv.set {sh sh' : List (List Nat)} {σ : RunState α} {S : (Nat → List Nat → α) → SpecState (Dual α)} (h : RunInv sh σ S)
    {r : Tensor α} {m : (Nat → List Nat → α) → MT (Dual α) × Bool} {st : Store α} {i : Nat} (hp : sh <+: sh')
    (hst : StoreOK sh' st) (hr : TOK sh' r m) (hi : i < σ.env.length) :
    RunInv sh' { env := σ.env.set i r, store := st } (fun v => { env := (S v).env.set i (m v), vars := sh'.length }) := by
  refine ⟨hst, fun _ => rfl, fun v => by simp [h.len v], fun j t hj => ?_⟩
  have hget : ∀ v, (⟨(S v).env.set i (m v), sh'.length⟩ : SpecState (Dual α)).get j = if i = j then m v else (S v).get j := by
    intro v
    unfold SpecState.get
    simp only [List.getD_eq_getElem?_getD]
    rw [List.getElem?_set]
    by_cases h1 : i = j
    · rw [if_pos h1, if_pos h1, if_pos (by rw [h.len v]; exact hi)]; rfl
    · rw [if_neg h1, if_neg h1]
  simp only [hget]
  rw [List.getElem?_set] at hj
  by_cases h1 : i = j
  · rw [if_pos h1, if_pos (h1 ▸ hi)] at hj
    cases hj
    simpa [h1] using hr
  · rw [if_neg h1] at hj
    simp only [if_neg h1]
    exact (h.tok j t hj).mono hp

/-- All tensors have shapes to which the theorems apply. -/
def SmallEnv (env : List (Tensor α)) : Prop := ∀ t ∈ env, SmallShape t.arr.shape

omit [Build] in
theorem storeOK_snoc {sh : List (List Nat)} {st : Store α} (h : StoreOK sh st) {z : Arr α} (hz : Fresh z) :
    StoreOK (sh ++ [z.shape]) (st ++ [z]) := by
  obtain ⟨h1, h2⟩ := h
  refine ⟨by simp [h1], fun k a hk => ?_⟩
  by_cases hlt : k < st.length
  · rw [List.getElem?_append_left hlt] at hk
    rw [List.getElem?_append_left (h1 ▸ hlt)]
    exact h2 k a hk
  · have hlen := (List.getElem?_eq_some_iff.1 hk).1
    have : k = st.length := by simp at hlen; omega
    subst this
    simp at hk
    subst hk
    exact ⟨hz, by rw [h1]; simp⟩

theorem run_setReq {sh : List (List Nat)} {σ σ' : RunState α} {S : (Nat → List Nat → α) → SpecState (Dual α)} (h : RunInv sh σ S)
    (hs : SmallEnv σ.env) {i : Nat} {b : Bool} (hr : σ.step (.setReq i b) = .ok σ') :
    ∃ sh', sh <+: sh' ∧ RunInv sh' σ' (fun v => (S v).step (Dual.interp v) 0 (.setReq i b)) := by
  obtain ⟨t, ht, hr⟩ := bind_eq_ok.1 hr
  have ht := getT_ok ht
  have hi := (List.getElem?_eq_some_iff.1 ht).1
  have hts := hs t (List.mem_of_getElem? ht)
  have htok := h.tok i t ht
  obtain ⟨F, E, hw, ha, hn, hdf, hm⟩ := htok
  obtain ⟨⟨t', st'⟩, hq, hr⟩ := bind_eq_ok.1 hr
  cases hr
  unfold Tensor.setRequiresGrad at hq
  cases b with
  | true =>
    by_cases hreq : t.requiresGrad = true
    · -- already required
      rw [hreq] at hq
      simp at hq
      obtain ⟨rfl, rfl⟩ := hq
      refine ⟨sh, List.prefix_refl _, ?_⟩
      have e : ({ t with requiresGrad := true } : Tensor α) = t := by cases t; simp_all
      have hset : σ.env.set i t = σ.env := by
        apply List.ext_getElem?
        intro j
        rw [List.getElem?_set]
        by_cases hj : i = j
        · subst hj; rw [if_pos rfl, if_pos hi, ht]
        · rw [if_neg hj]
      rw [e, hset]
      have hstep : (fun v => (S v).step (Dual.interp v) 0 (.setReq i true)) = S := by
        funext v
        show (if ((S v).get i).2 then S v else _) = S v
        rw [(hm v).1, hreq]; rfl
      rw [hstep]
      exact ⟨h.store, h.vars, h.len, h.tok⟩
    · rw [Bool.not_eq_true] at hreq
      rw [hreq] at hq
      simp only [Bool.not_false, Bool.and_self, if_true] at hq
      obtain ⟨z, hz, hq⟩ := bind_eq_ok.1 hq
      cases hq
      have hz' := zeros_inv hz
      have hzs : z.shape = t.arr.shape := by rw [hz']; rfl
      have hfz : Fresh z := ⟨_, _, by simp, hz'⟩
      have hst' := storeOK_snoc h.store hfz
      rw [hzs] at hst'
      refine ⟨sh ++ [t.arr.shape], List.prefix_append _ _, ?_⟩
      have key := h.set (m := fun v => (⟨((S v).get i).1.shape, fun idx => (Dual.interp v).var sh.length idx (((S v).get i).1.elem idx)⟩, true))
        (r := ⟨t.arr, true, t.userCreated, .acc σ.store.length⟩) (List.prefix_append sh [t.arr.shape]) hst' ?_ hi
      · have hstep : (fun v => (S v).step (Dual.interp v) 0 (.setReq i true)) = (fun v =>
            { env := (S v).env.set i (⟨((S v).get i).1.shape, fun idx => (Dual.interp v).var sh.length idx (((S v).get i).1.elem idx)⟩, true),
              vars := (sh ++ [t.arr.shape]).length }) := by
          funext v
          show (if ((S v).get i).2 then S v else _) = _
          rw [(hm v).1, hreq, h.vars v]
          simp
        rw [hstep]
        exact key
      · refine ⟨F, fun v => v sh.length, hw, ha, rfl, ?_, fun v => ?_⟩
        · rw [h.store.1]
          exact diff_acc (by simp) hts.2 hts.1
        · obtain ⟨k1, k2, k3⟩ := hm v
          refine ⟨rfl, k2, fun idx hidx => ?_⟩
          show (⟨(((S v).get i).1.elem idx).re, v sh.length idx⟩ : Dual α) = _
          rw [k3 idx hidx]
  | false =>
    have hq' : t' = { t with requiresGrad := false, gradFn := .none } ∧ st' = σ.store := by
      cases hreq : t.requiresGrad with
      | true => rw [hreq] at hq; simp at hq; exact ⟨hq.1.symm, hq.2.symm⟩
      | false =>
        rw [hreq] at hq
        simp at hq
        refine ⟨?_, hq.2.symm⟩
        rw [← hq.1]
        have : t.gradFn = .none := by
          rw [hreq] at hn
          cases hg : t.gradFn <;> rw [hg] at hn <;> first | rfl | cases hn
        cases t; simp_all
    obtain ⟨rfl, rfl⟩ := hq'
    refine ⟨sh, List.prefix_refl _, ?_⟩
    have key := h.set (m := fun v => (((S v).get i).1.map (Dual.interp v).cut, false))
        (r := { t with requiresGrad := false, gradFn := .none }) (List.prefix_refl sh) h.store ?_ hi
    · have hstep : (fun v => (S v).step (Dual.interp v) 0 (.setReq i false)) = (fun v =>
            { env := (S v).env.set i (((S v).get i).1.map (Dual.interp v).cut, false), vars := sh.length }) := by
        funext v
        show (⟨_, (S v).vars⟩ : SpecState (Dual α)) = _
        rw [h.vars v]
      rw [hstep]
      exact key
    · refine ⟨F, fun _ _ => 0, hw, ha, rfl, diff_none _ _ fun _ _ _ => rfl, fun v => ?_⟩
      obtain ⟨k1, k2, k3⟩ := hm v
      refine ⟨rfl, k2, fun idx hidx => ?_⟩
      show (⟨(((S v).get i).1.elem idx).re, 0⟩ : Dual α) = _
      rw [k3 idx hidx]

omit [Build] in
theorem push_ok {σ σ' : RunState α} {x : Res (Tensor α)} (h : σ.push x = .ok σ') : ∃ r, x = .ok r ∧ σ' = { σ with env := σ.env ++ [r] } := by
  obtain ⟨r, hr, h⟩ := bind_eq_ok.1 h
  cases h
  exact ⟨r, hr, rfl⟩

theorem run_step {sh : List (List Nat)} {σ σ' : RunState α} {S : (Nat → List Nat → α) → SpecState (Dual α)} (h : RunInv sh σ S)
    (hs : SmallEnv σ.env) (hs' : SmallEnv σ'.env) {x : Instr α} (hx : x.Plain σ.env) (hr : σ.step x = .ok σ') :
    ∃ sh', sh <+: sh' ∧ RunInv sh' σ' (fun v => (S v).step (Dual.interp v) 0 x) := by
  have hsm : ∀ {i : Nat} {t : Tensor α}, σ.env[i]? = some t → SmallShape t.arr.shape := fun ht => hs _ (List.mem_of_getElem? ht)
  cases x with
  | leaf s data =>
    refine ⟨sh, List.prefix_refl _, ?_⟩
    obtain ⟨_, ha, hr⟩ := bind_eq_ok.1 hr
    obtain ⟨r, e, rfl⟩ := push_ok hr
    cases e
    have hl : data.length = numel s := by
      by_contra hc
      rw [assert_fail (decide_eq_false hc)] at ha; cases ha
    exact h.push (tok_leaf sh hl)
  | setReq i b => exact run_setReq h hs hr
  | neg i =>
    refine ⟨sh, List.prefix_refl _, ?_⟩
    obtain ⟨t, ht, hr⟩ := bind_eq_ok.1 hr
    have ht := getT_ok ht
    obtain ⟨r, e, rfl⟩ := push_ok hr
    exact h.push (tok_neg (h.tok i t ht) (hsm ht) e)
  | bin op i j =>
    refine ⟨sh, List.prefix_refl _, ?_⟩
    obtain ⟨a, ha, hr⟩ := bind_eq_ok.1 hr
    obtain ⟨b, hb, hr⟩ := bind_eq_ok.1 hr
    obtain ⟨r, e, rfl⟩ := push_ok hr
    exact h.push (tok_bin op (h.tok i a (getT_ok ha)) (h.tok j b (getT_ok hb)) e (hs' r (by simp)))
  | scal op i c =>
    refine ⟨sh, List.prefix_refl _, ?_⟩
    obtain ⟨t, ht, hr⟩ := bind_eq_ok.1 hr
    have ht := getT_ok ht
    obtain ⟨r, e, rfl⟩ := push_ok hr
    exact h.push (tok_scal op c (h.tok i t ht) (hsm ht) e)
  | dot i j =>
    refine ⟨sh, List.prefix_refl _, ?_⟩
    obtain ⟨a, ha, hr⟩ := bind_eq_ok.1 hr
    obtain ⟨b, hb, hr⟩ := bind_eq_ok.1 hr
    obtain ⟨r, e, rfl⟩ := push_ok hr
    exact h.push (tok_dot (h.tok i a (getT_ok ha)) (h.tok j b (getT_ok hb)) (hsm (getT_ok ha)) e)
  | matmul i j =>
    refine ⟨sh, List.prefix_refl _, ?_⟩
    obtain ⟨a, ha, hr⟩ := bind_eq_ok.1 hr
    obtain ⟨b, hb, hr⟩ := bind_eq_ok.1 hr
    obtain ⟨r, e, rfl⟩ := push_ok hr
    exact h.push (tok_matmul (h.tok i a (getT_ok ha)) (h.tok j b (getT_ok hb)) (hsm (getT_ok ha)) (hsm (getT_ok hb)) e)
  | bmm i j =>
    refine ⟨sh, List.prefix_refl _, ?_⟩
    obtain ⟨a, ha, hr⟩ := bind_eq_ok.1 hr
    obtain ⟨b, hb, hr⟩ := bind_eq_ok.1 hr
    obtain ⟨r, e, rfl⟩ := push_ok hr
    exact h.push (tok_bmm (h.tok i a (getT_ok ha)) (h.tok j b (getT_ok hb)) (hsm (getT_ok ha)) (hsm (getT_ok hb)) e)
  | view op i =>
    refine ⟨sh, List.prefix_refl _, ?_⟩
    obtain ⟨t, ht, hr⟩ := bind_eq_ok.1 hr
    obtain ⟨r, e, rfl⟩ := push_ok hr
    exact h.push (tok_view op (h.tok i t (getT_ok ht)) e).1
  | into op shared i =>
    refine ⟨sh, List.prefix_refl _, ?_⟩
    obtain ⟨t, ht, hr⟩ := bind_eq_ok.1 hr
    obtain ⟨r, e, rfl⟩ := push_ok hr
    exact h.push (tok_into op (fun h1 h2 => hx h1 h2 t (getT_ok ht)) (hsm (getT_ok ht)) (h.tok i t (getT_ok ht)) e).1

/-- Operations keep the arrays of all earlier tensors. -/
theorem step_env {σ σ' : RunState α} {x : Instr α} (hr : σ.step x = .ok σ') {i : Nat} {t : Tensor α} (ht : σ.env[i]? = some t) :
    ∃ t', σ'.env[i]? = some t' ∧ t'.arr = t.arr := by
  have happ : ∀ r, (σ.env ++ [r])[i]? = some t := fun r => by
    rw [List.getElem?_append_left (List.getElem?_eq_some_iff.1 ht).1]; exact ht
  cases x with
  | setReq k b =>
    obtain ⟨t₀, ht₀, hr⟩ := bind_eq_ok.1 hr
    obtain ⟨⟨t', st'⟩, hq, hr⟩ := bind_eq_ok.1 hr
    cases hr
    have harr : t'.arr = t₀.arr := by
      unfold Tensor.setRequiresGrad at hq
      split at hq
      · obtain ⟨z, _, hq⟩ := bind_eq_ok.1 hq
        cases hq; rfl
      · split at hq <;> cases hq <;> rfl
    have ht₀ := getT_ok ht₀
    simp only [List.getElem?_set]
    by_cases hk : k = i
    · subst hk
      rw [ht] at ht₀
      cases ht₀
      refine ⟨t', ?_, harr⟩
      simp [(List.getElem?_eq_some_iff.1 ht).1]
    · simp only [if_neg hk]
      exact ⟨t, ht, rfl⟩
  | leaf s data =>
    obtain ⟨_, _, hr⟩ := bind_eq_ok.1 hr
    obtain ⟨r, _, rfl⟩ := push_ok hr
    exact ⟨t, happ r, rfl⟩
  | neg _ | scal _ _ _ | view _ _ | into _ _ _ =>
    obtain ⟨_, _, hr⟩ := bind_eq_ok.1 hr
    obtain ⟨r, _, rfl⟩ := push_ok hr
    exact ⟨t, happ r, rfl⟩
  | bin _ _ _ | dot _ _ | matmul _ _ | bmm _ _ =>
    obtain ⟨_, _, hr⟩ := bind_eq_ok.1 hr
    obtain ⟨_, _, hr⟩ := bind_eq_ok.1 hr
    obtain ⟨r, _, rfl⟩ := push_ok hr
    exact ⟨t, happ r, rfl⟩

theorem smallEnv_of_step {σ σ' : RunState α} {x : Instr α} (hr : σ.step x = .ok σ') (hs : SmallEnv σ'.env) : SmallEnv σ.env := by
  intro t ht
  obtain ⟨i, hi⟩ := List.getElem?_of_mem ht
  obtain ⟨t', ht', e⟩ := step_env hr hi
  rw [← e]
  exact hs t' (List.mem_of_getElem? ht')

theorem smallEnv_of_fold {p : List (Instr α)} {σ σ' : RunState α} (hr : p.foldlM RunState.step σ = .ok σ') (hs : SmallEnv σ'.env) :
    SmallEnv σ.env := by
  induction p generalizing σ with
  | nil => cases hr; exact hs
  | cons y p ih =>
    rw [List.foldlM_cons] at hr
    obtain ⟨σ₂, h2, hr⟩ := bind_eq_ok.1 hr
    exact smallEnv_of_step h2 (ih hr)

theorem run_fold {p : List (Instr α)} {sh : List (List Nat)} {σ σ' : RunState α} {S : (Nat → List Nat → α) → SpecState (Dual α)}
    (h : SmallEnv σ.env → RunInv sh σ S) (hp : ∀ x ∈ p, x.plain = true) (hr : p.foldlM RunState.step σ = .ok σ') (hs : SmallEnv σ'.env) :
    SmallEnv σ.env ∧ ∃ sh', RunInv sh' σ' (fun v => p.foldl (SpecState.step (Dual.interp v) 0) (S v)) := by
  induction p generalizing sh σ S with
  | nil => cases hr; exact ⟨hs, sh, h hs⟩
  | cons x p ih =>
    rw [List.foldlM_cons] at hr
    obtain ⟨σ₁, h1, hr⟩ := bind_eq_ok.1 hr
    have hsm : SmallEnv σ₁.env := smallEnv_of_fold hr hs
    have hs0 := smallEnv_of_step h1 hsm
    obtain ⟨sh₁, _, hi⟩ := run_step (h hs0) hs0 hsm (.of_plain (hp x (by simp)) _) h1
    obtain ⟨_, hfin⟩ := ih (fun _ => hi) (fun y hy => hp y (by simp [hy])) hr
    exact ⟨hs0, hfin⟩

theorem run_inv {p : List (Instr α)} {σ : RunState α} (hp : ∀ x ∈ p, x.plain = true) (hr : runProg p = .ok σ)
    (hs : SmallEnv σ.env) : ∃ sh, RunInv sh σ (fun v => specRun (Dual.interp v) 0 p) := by
  refine (run_fold (sh := []) (S := fun _ => ⟨[], 0⟩) (fun _ => ⟨⟨rfl, fun k a h => by simp at h⟩, fun _ => rfl, fun _ => rfl,
    fun i t h => by simp at h⟩) hp hr hs).2

end Verif
