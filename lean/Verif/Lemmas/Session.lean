import Verif.Lemmas.AutogradProg

/-! # Sessions: programs with calls of the gradient methods -/

namespace Verif

variable {α : Type} [Field α] [Build]

/-- Commands to which the theorems apply. -/
def Cmd.Fine (env : List (Tensor α)) : Cmd α → Prop
  | .op x => x.Plain env
  | .backwardWith _ g => g.WF
  | _ => True

omit [Build] in
theorem ones_inv {s : List Nat} {z : Arr α} (h : Arr.ones s = .ok z) :
    z = Arr.fromContiguousOwnedBuffer s (List.replicate (numel s) 1) := by
  obtain ⟨_, _, h⟩ := bind_eq_ok.1 h
  cases h; rfl

omit [Build] in
theorem Arr.WF.denotesD {a : Arr α} (h : a.WF) : ∃ F, a.Denotes a.shape F := by
  letI : Inhabited α := ⟨0⟩
  exact ⟨_, h.valid.denotes⟩

/-- The outcome of `backward_with` on a tensor. -/
theorem backwardWith_ok {sh : List (List Nat)} {σ : RunState α} {S : (Nat → List Nat → α) → SpecState (Dual α)} (h : RunInv sh σ S)
    {y : Nat} {t : Tensor α} (ht : σ.env[y]? = some t) {g : Arr α} {G : List Nat → α} {u : List Nat} (hw : g.Ready (some u)) (hg : g.Denotes t.arr.shape G)
    : CallOK sh (t.backwardWith ⟨g, none⟩) t.arr.shape G
      (fun v idx => (((S v).get y).1.elem idx).eps) (Safe t.gradFn t.arr.shape u) := by
  obtain ⟨F, E, _, _, _, hdf, hm⟩ := h.tok y t ht
  have e : t.backwardWith ⟨g, none⟩ = backward t.gradFn ⟨g, none⟩ := by
    funext st
    show (assert (decide (g.shape = t.arr.shape)) >>= fun _ => _) = _
    rw [assert_ok (decide_eq_true hg.1)]; rfl
  rw [e]
  exact (hdf.congr fun v i hi => by rw [(hm v).2.2 i hi]).adj sh (List.prefix_refl _) u g G hw hg

theorem backwardWith_store {sh : List (List Nat)} {σ : RunState α} {S : (Nat → List Nat → α) → SpecState (Dual α)} (h : RunInv sh σ S)
    {y : Nat} {t : Tensor α} (ht : σ.env[y]? = some t) {g : Arr α} (hw : g.WF) {st st' : Store α} (hst : StoreOK sh st)
    (hr : t.backwardWith ⟨g, none⟩ st = .ok st') : StoreOK sh st' := by
  obtain ⟨G, hG⟩ := hw.denotesD
  have hs : g.shape = t.arr.shape := by
    obtain ⟨_, ha, _⟩ := bind_eq_ok.1 hr
    by_contra hc
    rw [assert_fail (decide_eq_false hc)] at ha; cases ha
  rw [hs] at hG
  rcases backwardWith_ok h ht hw.laid hG with ⟨hp, _⟩ | ⟨_, D, hp, _⟩
  · rw [hp st hst] at hr; cases hr
  · obtain ⟨st'', hp, ha⟩ := hp st hst
    rw [hp] at hr; cases hr; exact ha.1

omit [Build] in
/-- `zero_gradient` on a tensor with accumulator `k`. -/
theorem zeroGradient_acc {sh : List (List Nat)} {st : Store α} (hst : StoreOK sh st) {t : Tensor α} {k : Nat} {a : Arr α}
    (hg : t.gradFn = .acc k) (ha : st[k]? = some a) :
    ∃ buf, t.zeroGradient st = .ok (st.set k { a with buf := buf }) ∧ ({ a with buf := buf } : Arr α).Denotes a.shape (fun _ => 0) ∧
      Fresh ({ a with buf := buf } : Arr α) := by
  obtain ⟨hf, _⟩ := hst.2 k a ha
  obtain ⟨buf, h1, h2, h3, _⟩ := C24_fill_partial hf .refl (0 : α)
  refine ⟨buf, ?_, h3, ?_⟩
  · unfold Tensor.zeroGradient
    rw [hg]
    show (match st[k]? with | .none => _ | some a => _) = _
    rw [ha]
    show (a.fill 0 >>= fun _ => _) = _
    rw [h1]; rfl
  · obtain ⟨s, data, hl, rfl⟩ := hf
    have h2 : buf.length = data.length := h2
    exact ⟨s, buf, by rw [h2, hl], by simp [Arr.fromContiguousOwnedBuffer, h2]⟩

omit [Build] in
theorem zeroGradient_other {st : Store α} {t : Tensor α} (hg : ∀ k, t.gradFn ≠ .acc k) : t.zeroGradient st = .ok st := by
  unfold Tensor.zeroGradient
  split
  · rename_i h; exact absurd h (hg _)
  · rfl

omit [Build] in
theorem zeroGradient_store {sh : List (List Nat)} {t : Tensor α} {st st' : Store α} (hst : StoreOK sh st)
    (hr : t.zeroGradient st = .ok st') : StoreOK sh st' := by
  by_cases hk : ∃ k, t.gradFn = .acc k
  · obtain ⟨k, hk⟩ := hk
    cases ha : st[k]? with
    | none => unfold Tensor.zeroGradient at hr; rw [hk] at hr; simp only [ha] at hr; cases hr
    | some a =>
      obtain ⟨buf, h1, h2, h3⟩ := zeroGradient_acc hst hk ha
      rw [h1] at hr
      cases hr
      refine ⟨by rw [List.length_set, hst.1], fun j b hb => ?_⟩
      rw [List.getElem?_set] at hb
      by_cases hj : k = j
      · subst hj
        rw [if_pos rfl, if_pos (List.getElem?_eq_some_iff.1 ha).1] at hb
        cases hb
        exact ⟨h3, (hst.2 k a ha).2⟩
      · rw [if_neg hj] at hb
        exact hst.2 j b hb
  · rw [zeroGradient_other fun k hc => hk ⟨k, hc⟩] at hr
    cases hr; exact hst

omit [Build] in
theorem withStore_ok {σ σ' : RunState α} {r : Res (Store α)} (h : σ.withStore r = .ok σ') : ∃ st, r = .ok st ∧ σ' = { σ with store := st } := by
  obtain ⟨st, h1, h⟩ := bind_eq_ok.1 h
  cases h
  exact ⟨st, h1, rfl⟩

theorem RunInv.withStore {sh : List (List Nat)} {σ : RunState α} {S : (Nat → List Nat → α) → SpecState (Dual α)} (h : RunInv sh σ S)
    {st : Store α} (hst : StoreOK sh st) : RunInv sh { σ with store := st } S := ⟨hst, h.vars, h.len, h.tok⟩

/-- Gradient calls leave all tensors as they are. -/
theorem exec_grad {σ σ' : RunState α} {c : Cmd α} (hr : σ.exec c = .ok σ') (hc : c.instr = none) : σ'.env = σ.env := by
  cases c with
  | op x => cases hc
  | backward y =>
    obtain ⟨_, _, hr⟩ := bind_eq_ok.1 hr
    obtain ⟨_, _, rfl⟩ := withStore_ok hr; rfl
  | backwardWith y g =>
    obtain ⟨_, _, hr⟩ := bind_eq_ok.1 hr
    obtain ⟨_, _, rfl⟩ := withStore_ok hr; rfl
  | zeroGradient i =>
    obtain ⟨_, _, hr⟩ := bind_eq_ok.1 hr
    obtain ⟨_, _, rfl⟩ := withStore_ok hr; rfl

theorem backward_inv {t : Tensor α} {st st' : Store α} (h : t.backward st = .ok st') :
    ∃ one, Arr.ones t.arr.shape = .ok one ∧ t.backwardWith ⟨one, none⟩ st = .ok st' := bind_eq_ok.1 h

theorem run_exec {sh : List (List Nat)} {σ σ' : RunState α} {S : (Nat → List Nat → α) → SpecState (Dual α)} (h : RunInv sh σ S)
    (hs : SmallEnv σ.env) (hs' : SmallEnv σ'.env) {c : Cmd α} (hc : c.Fine σ.env) (hr : σ.exec c = .ok σ') :
    ∃ sh', RunInv sh' σ' (fun v => (program [c]).foldl (SpecState.step (Dual.interp v) 0) (S v)) := by
  cases c with
  | op x =>
    obtain ⟨sh', _, h'⟩ := run_step h hs hs' hc hr
    exact ⟨sh', h'⟩
  | backward y =>
    obtain ⟨t, ht, hr⟩ := bind_eq_ok.1 hr
    obtain ⟨st, e, rfl⟩ := withStore_ok hr
    obtain ⟨one, h1, e⟩ := backward_inv e
    have hone := ones_inv h1
    exact ⟨sh, h.withStore (backwardWith_store h (getT_ok ht) (by rw [hone]; exact Arr.WF.fromContiguous (by simp)) h.store e)⟩
  | backwardWith y g =>
    obtain ⟨t, ht, hr⟩ := bind_eq_ok.1 hr
    obtain ⟨st, e, rfl⟩ := withStore_ok hr
    exact ⟨sh, h.withStore (backwardWith_store h (getT_ok ht) hc h.store e)⟩
  | zeroGradient i =>
    obtain ⟨t, ht, hr⟩ := bind_eq_ok.1 hr
    obtain ⟨st, e, rfl⟩ := withStore_ok hr
    exact ⟨sh, h.withStore (zeroGradient_store h.store e)⟩

theorem smallEnv_of_exec {σ σ' : RunState α} {c : Cmd α} (hr : σ.exec c = .ok σ') (hs : SmallEnv σ'.env) : SmallEnv σ.env := by
  cases hc : c.instr with
  | none => rw [exec_grad hr hc] at hs; exact hs
  | some x => cases c <;> first | exact smallEnv_of_step hr hs | cases hc

theorem smallEnv_of_session {c : List (Cmd α)} {σ σ' : RunState α} (hr : c.foldlM RunState.exec σ = .ok σ') (hs : SmallEnv σ'.env) :
    SmallEnv σ.env := by
  induction c generalizing σ with
  | nil => cases hr; exact hs
  | cons y p ih =>
    rw [List.foldlM_cons] at hr
    obtain ⟨σ₂, h2, hr⟩ := bind_eq_ok.1 hr
    exact smallEnv_of_exec h2 (ih hr)

omit [Build] in
theorem program_cons (x : Cmd α) (c : List (Cmd α)) : program (x :: c) = program [x] ++ program c := by
  cases x <;> rfl

theorem exec_env {σ σ' : RunState α} {c : Cmd α} (hr : σ.exec c = .ok σ') (i : Nat) (t : Tensor α) (ht : σ.env[i]? = some t) :
    ∃ t', σ'.env[i]? = some t' ∧ t'.arr = t.arr := by
  cases hc : c.instr with
  | none => rw [exec_grad hr hc]; exact ⟨t, ht, rfl⟩
  | some x => cases c <;> first | exact step_env hr ht | cases hc

theorem session_env {c : List (Cmd α)} {σ σ' : RunState α} (hr : c.foldlM RunState.exec σ = .ok σ') (i : Nat) (t : Tensor α)
    (ht : σ.env[i]? = some t) : ∃ t', σ'.env[i]? = some t' ∧ t'.arr = t.arr := by
  induction c generalizing σ t with
  | nil => cases hr; exact ⟨t, ht, rfl⟩
  | cons y p ih =>
    rw [List.foldlM_cons] at hr
    obtain ⟨σ₂, h2, hr⟩ := bind_eq_ok.1 hr
    obtain ⟨t₂, ht₂, e₂⟩ := exec_env h2 i t ht
    obtain ⟨t', ht', e'⟩ := ih hr t₂ ht₂
    exact ⟨t', ht', by rw [e', e₂]⟩

omit [Field α] [Build] in
theorem Cmd.Fine.mono {env env' : List (Tensor α)} (h : ∀ (i : Nat) (t : Tensor α), env[i]? = some t → ∃ t', env'[i]? = some t' ∧ t'.arr = t.arr)
    {c : Cmd α} (hc : c.Fine env') : c.Fine env := by
  cases c with
  | op x => exact Instr.Plain.mono h hc
  | _ => exact hc

theorem session_fold {c : List (Cmd α)} {sh : List (List Nat)} {σ σ' : RunState α} {S : (Nat → List Nat → α) → SpecState (Dual α)}
    (h : RunInv sh σ S) (hp : ∀ x ∈ c, x.Fine σ'.env) (hr : c.foldlM RunState.exec σ = .ok σ') (hs : SmallEnv σ'.env) :
    ∃ sh', RunInv sh' σ' (fun v => (program c).foldl (SpecState.step (Dual.interp v) 0) (S v)) := by
  induction c generalizing sh σ S with
  | nil => cases hr; exact ⟨sh, h⟩
  | cons x p ih =>
    rw [List.foldlM_cons] at hr
    obtain ⟨σ₁, h1, hr⟩ := bind_eq_ok.1 hr
    have hsm : SmallEnv σ₁.env := smallEnv_of_session hr hs
    obtain ⟨sh₁, hi⟩ := run_exec h (smallEnv_of_exec h1 hsm) hsm ((hp x (by simp)).mono fun i t ht => session_env (c := x :: p) (by rw [List.foldlM_cons, h1]; exact hr) i t ht) h1
    obtain ⟨sh', hfin⟩ := ih hi (fun y hy => hp y (by simp [hy])) hr
    refine ⟨sh', ?_⟩
    simp only [program_cons x p, List.foldl_append]
    exact hfin

theorem session_inv {c : List (Cmd α)} {σ : RunState α} (hp : ∀ x ∈ c, x.Fine σ.env) (hr : runSession c = .ok σ)
    (hs : SmallEnv σ.env) : ∃ sh, RunInv sh σ (fun v => specRun (Dual.interp v) 0 (program c)) :=
  session_fold (sh := []) (S := fun _ => ⟨[], 0⟩) ⟨⟨rfl, fun k a h => by simp at h⟩, fun _ => rfl, fun _ => rfl,
    fun i t h => by simp at h⟩ hp hr hs

end Verif
