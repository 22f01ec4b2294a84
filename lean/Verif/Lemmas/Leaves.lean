import Verif.Lemmas.Session

/-! # The gradient functions of the tensors of a session -/

namespace Verif

variable {α : Type} [Field α] [Build]

omit [Build] in
theorem callNext_len {b : Bool} {st st' : Store α} {r : Res (GradArr α)} {f : GradArr α → Res (Store α)}
    (hf : ∀ g st', f g = .ok st' → st'.length = st.length) (h : callNext b st r f = .ok st') : st'.length = st.length := by
  unfold callNext at h
  split at h
  · cases h; rfl
  · obtain ⟨g, _, h⟩ := bind_eq_ok.1 h
    exact hf g st' h

theorem accumulate_len {i : Nat} {g : GradArr α} {st st' : Store α} (h : accumulate i g st = .ok st') : st'.length = st.length := by
  unfold accumulate at h
  split at h
  · cases h
  · obtain ⟨_, _, h⟩ := bind_eq_ok.1 h
    obtain ⟨_, _, h⟩ := bind_eq_ok.1 h
    cases h; simp

omit [Build] in
theorem two_len {b b' : Bool} {st st' : Store α} {r : Res (GradArr α)} {r' : Store α → Res (GradArr α)} {l l' : GradArr α → Store α → Res (Store α)}
    (hl : ∀ g st st', l g st = .ok st' → st'.length = st.length) (hl' : ∀ g st st', l' g st = .ok st' → st'.length = st.length)
    (h : (callNext b st r (fun g => l g st) >>= fun s => callNext b' s (r' s) fun g => l' g s) = .ok st') : st'.length = st.length := by
  obtain ⟨s, h1, h⟩ := bind_eq_ok.1 h
  rw [callNext_len (fun g st' => hl' g s st') h, callNext_len (fun g st' => hl g st st') h1]

/-- A backward pass neither adds nor removes accumulators. -/
theorem backward_len (gf : GradFn α) : ∀ (g : GradArr α) (st st' : Store α), backward gf g st = .ok st' → st'.length = st.length := by
  induction gf with
  | none => intro g st st' h; unfold backward at h; cases h; rfl
  | acc i => intro g st st' h; unfold backward at h; exact accumulate_len h
  | add l r ls rs hl hr => intro g st st' h; unfold backward at h; exact two_len (r' := fun st => fit g st rs) hl hr h
  | sub l r ls rs hl hr => intro g st st' h; unfold backward at h; exact two_len (r' := fun st => freshFit (g.get st).negA st rs) hl hr h
  | mul l r a b hl hr => intro g st st' h; unfold backward at h; exact two_len (r' := fun st => freshFit (a.mulA (g.get st)) st b.shape) hl hr h
  | mulScalar n s c hn => intro g st st' h; unfold backward at h; exact callNext_len (fun g st' => hn g st st') h
  | div l r a b hl hr =>
    intro g st st' h
    unfold backward at h
    split at h
    · exact callNext_len (fun g st' => hr g st st') h
    · obtain ⟨lg, _, h⟩ := bind_eq_ok.1 h
      exact two_len (r' := fun st => freshFit (divRight lg a b) st b.shape) hl hr h
  | divScalar n s c hn =>
    intro g st st' h; unfold backward at h
    obtain ⟨_, _, h⟩ := bind_eq_ok.1 h
    exact callNext_len (fun g st' => hn g st st') h
  | neg n s hn => intro g st st' h; unfold backward at h; exact callNext_len (fun g st' => hn g st st') h
  | dot l r a b hl hr => intro g st st' h; unfold backward at h; exact two_len (r' := fun st => fresh (a.mulA (g.get st))) hl hr h
  | matVec l r a b hl hr => intro g st st' h; unfold backward at h; exact two_len (r' := fun st => fresh (transposedMatmul a (g.get st))) hl hr h
  | matMul l r a b hl hr => intro g st st' h; unfold backward at h; exact two_len (r' := fun st => fresh (transposedMatmul a (g.get st))) hl hr h
  | bmm l r a b hl hr => intro g st st' h; unfold backward at h; exact two_len (r' := fun st => fresh (transposedBmm a (g.get st))) hl hr h
  | reshape n s hn => intro g st st' h; unfold backward at h; exact callNext_len (fun g st' => hn g st st') h
  | transpose n a b hn => intro g st st' h; unfold backward at h; exact callNext_len (fun g st' => hn g st st') h

theorem backwardWith_len {t : Tensor α} {g : GradArr α} {st st' : Store α} (h : t.backwardWith g st = .ok st') : st'.length = st.length := by
  obtain ⟨_, _, h⟩ := bind_eq_ok.1 h
  exact backward_len _ _ _ _ h

omit [Build] in
theorem zeroGradient_len {t : Tensor α} {st st' : Store α} (h : t.zeroGradient st = .ok st') : st'.length = st.length := by
  unfold Tensor.zeroGradient at h
  split at h
  · split at h
    · cases h
    · obtain ⟨_, _, h⟩ := bind_eq_ok.1 h
      cases h; simp
  · cases h; rfl

/-- What holds of every tensor of a session with `n` accumulators. -/
def LeafOK (n : Nat) (t : Tensor α) : Prop :=
  (∀ k, t.gradFn = .acc k → k < n) ∧ (t.userCreated = true → t.requiresGrad = true → ∃ k, t.gradFn = .acc k) ∧
    (t.requiresGrad = false → t.gradFn = .none)

omit [Build] in
theorem LeafOK.mono {n m : Nat} {t : Tensor α} (h : LeafOK n t) (hm : n ≤ m) : LeafOK m t :=
  ⟨fun k hk => Nat.lt_of_lt_of_le (h.1 k hk) hm, h.2⟩

omit [Build] in
theorem leafOK_mk {n : Nat} {a : Arr α} {q : Bool} {node : GradFn α} (h : ∀ k, node = .acc k → k < n) : LeafOK n (Tensor.mk' a q node) := by
  refine ⟨fun k hk => ?_, fun h => (by cases h), fun hq => ?_⟩
  · cases q with
    | true => exact h k hk
    | false => cases hk
  · have : q = false := hq
    subst this; rfl

def LeafInv (σ : RunState α) : Prop := ∀ t ∈ σ.env, LeafOK σ.store.length t

omit [Build] in
theorem LeafInv.push {σ : RunState α} (h : LeafInv σ) {r : Res (Tensor α)} {σ' : RunState α} (hr : ∀ t, r = .ok t → LeafOK σ.store.length t)
    (hp : σ.push r = .ok σ') : LeafInv σ' := by
  obtain ⟨t, h1, h2⟩ := bind_eq_ok.1 hp
  cases h2
  intro u hu
  rcases List.mem_append.1 hu with hu | hu
  · exact h u hu
  · simp only [List.mem_singleton] at hu; subst hu; exact hr u h1

omit [Build] in
theorem node_scalar {n : Nat} {t : Tensor α} (h : LeafOK n t) (op : SOp) (c : α) : ∀ k, op.nodeScalar t c = .acc k → k < n := by
  intro k hk
  cases op with
  | add => exact h.1 k hk
  | sub => exact h.1 k hk
  | mul => cases hk
  | div => cases hk

omit [Build] in
theorem node_view {n : Nat} {t : Tensor α} (h : LeafOK n t) (op : SView) : ∀ k, op.node t = .acc k → k < n := by
  intro k hk
  cases op with
  | view => exact h.1 k hk
  | reshape s =>
    simp only [SView.node] at hk
    split at hk
    · exact h.1 k hk
    · cases hk
  | squeeze => cases hk
  | unsqueeze _ => cases hk
  | transpose _ _ => cases hk

theorem leaf_matmul {n : Nat} {a b r : Tensor α} (h : a.matmul b = .ok r) : LeafOK n r := by
  unfold Tensor.matmul at h
  split at h
  · obtain ⟨_, _, h⟩ := bind_eq_ok.1 h; cases h
    exact leafOK_mk fun k hk => by cases hk
  · obtain ⟨_, _, h⟩ := bind_eq_ok.1 h
    simp only at h
    split at h
    · cases h; exact leafOK_mk fun k hk => by cases hk
    · split at h
      · cases h; exact leafOK_mk fun k hk => by cases hk
      · split at h
        · cases h
        · cases h; exact leafOK_mk fun k hk => by cases hk

theorem leaf_step {σ σ' : RunState α} (h : LeafInv σ) {x : Instr α} (hr : σ.step x = .ok σ') : LeafInv σ' := by
  have hget : ∀ {i : Nat} {t : Tensor α}, getT σ.env i = .ok t → LeafOK σ.store.length t := fun hg => h _ (List.mem_of_getElem? (getT_ok hg))
  cases x with
  | leaf s data =>
    obtain ⟨_, _, hr⟩ := bind_eq_ok.1 hr
    refine h.push (fun t ht => ?_) hr
    cases ht
    exact ⟨fun k hk => (by cases hk), fun _ hq => (by cases hq), fun _ => rfl⟩
  | setReq i b =>
    obtain ⟨t, ht, hr⟩ := bind_eq_ok.1 hr
    obtain ⟨r, h1, hr⟩ := bind_eq_ok.1 hr
    cases hr
    have key : LeafOK r.2.length r.1 ∧ σ.store.length ≤ r.2.length := by
      have ho := hget ht
      unfold Tensor.setRequiresGrad at h1
      split at h1
      · rename_i hc
        obtain ⟨z, _, h1⟩ := bind_eq_ok.1 h1
        cases h1
        refine ⟨⟨fun k hk => ?_, fun _ _ => ⟨_, rfl⟩, fun hb => ?_⟩, by simp⟩
        · cases hk; simp
        · simp only at hb; subst hb; simp at hc
      · split at h1
        · rename_i hc
          cases h1
          refine ⟨⟨fun k hk => by (simp only at hk; cases hk), fun _ hb => ?_, fun _ => rfl⟩, Nat.le_refl _⟩
          simp only at hb; subst hb; simp at hc
        · rename_i hc1 hc2
          cases h1
          have hb : b = t.requiresGrad := by cases b <;> cases hq : t.requiresGrad <;> simp_all
          subst hb
          exact ⟨ho, Nat.le_refl _⟩
    intro u hu
    rcases List.mem_or_eq_of_mem_set hu with hu | rfl
    · exact (h u hu).mono key.2
    · exact key.1
  | neg i =>
    obtain ⟨t, ht, hr⟩ := bind_eq_ok.1 hr
    refine h.push (fun r hr => ?_) hr
    obtain ⟨_, _, hr⟩ := bind_eq_ok.1 hr; cases hr
    exact leafOK_mk fun k hk => by cases hk
  | bin op i j =>
    obtain ⟨a, ha, hr⟩ := bind_eq_ok.1 hr
    obtain ⟨b, hb, hr⟩ := bind_eq_ok.1 hr
    refine h.push (fun r hr => ?_) hr
    obtain ⟨_, _, hr⟩ := bind_eq_ok.1 hr; cases hr
    exact leafOK_mk fun k hk => by cases op <;> cases hk
  | scal op i c =>
    obtain ⟨t, ht, hr⟩ := bind_eq_ok.1 hr
    refine h.push (fun r hr => ?_) hr
    obtain ⟨_, _, hr⟩ := bind_eq_ok.1 hr; cases hr
    exact leafOK_mk (node_scalar (hget ht) op c)
  | dot i j =>
    obtain ⟨a, ha, hr⟩ := bind_eq_ok.1 hr
    obtain ⟨b, hb, hr⟩ := bind_eq_ok.1 hr
    refine h.push (fun r hr => ?_) hr
    obtain ⟨_, _, hr⟩ := bind_eq_ok.1 hr; cases hr
    exact leafOK_mk fun k hk => by cases hk
  | matmul i j =>
    obtain ⟨a, ha, hr⟩ := bind_eq_ok.1 hr
    obtain ⟨b, hb, hr⟩ := bind_eq_ok.1 hr
    exact h.push (fun r hr => leaf_matmul hr) hr
  | bmm i j =>
    obtain ⟨a, ha, hr⟩ := bind_eq_ok.1 hr
    obtain ⟨b, hb, hr⟩ := bind_eq_ok.1 hr
    refine h.push (fun r hr => ?_) hr
    obtain ⟨_, _, hr⟩ := bind_eq_ok.1 hr; cases hr
    exact leafOK_mk fun k hk => by cases hk
  | view op i =>
    obtain ⟨t, ht, hr⟩ := bind_eq_ok.1 hr
    refine h.push (fun r hr => ?_) hr
    obtain ⟨_, _, hr⟩ := bind_eq_ok.1 hr; cases hr
    exact leafOK_mk (node_view (hget ht) op)
  | into op shared i =>
    obtain ⟨t, ht, hr⟩ := bind_eq_ok.1 hr
    refine h.push (fun r hr => ?_) hr
    obtain ⟨_, _, hr⟩ := bind_eq_ok.1 hr
    obtain ⟨_, _, hr⟩ := bind_eq_ok.1 hr; cases hr
    exact leafOK_mk (node_view (hget ht) op)

theorem leaf_exec {σ σ' : RunState α} (h : LeafInv σ) {c : Cmd α} (hr : σ.exec c = .ok σ') : LeafInv σ' := by
  cases c with
  | op x => exact leaf_step h hr
  | backward y =>
    obtain ⟨t, _, hr⟩ := bind_eq_ok.1 hr
    obtain ⟨st, e, rfl⟩ := withStore_ok hr
    obtain ⟨_, _, e⟩ := bind_eq_ok.1 e
    exact fun t ht => (h t ht).mono (Nat.le_of_eq (backwardWith_len e).symm)
  | backwardWith y g =>
    obtain ⟨t, _, hr⟩ := bind_eq_ok.1 hr
    obtain ⟨st, e, rfl⟩ := withStore_ok hr
    exact fun t ht => (h t ht).mono (Nat.le_of_eq (backwardWith_len e).symm)
  | zeroGradient i =>
    obtain ⟨t, _, hr⟩ := bind_eq_ok.1 hr
    obtain ⟨st, e, rfl⟩ := withStore_ok hr
    exact fun t ht => (h t ht).mono (Nat.le_of_eq (zeroGradient_len e).symm)

theorem leaf_session {c : List (Cmd α)} {σ : RunState α} (hr : runSession c = .ok σ) : LeafInv σ := by
  have : ∀ (c : List (Cmd α)) (σ σ' : RunState α), LeafInv σ → c.foldlM RunState.exec σ = .ok σ' → LeafInv σ' := by
    intro c
    induction c with
    | nil => intro σ σ' h hr; cases hr; exact h
    | cons x p ih =>
      intro σ σ' h hr
      rw [List.foldlM_cons] at hr
      obtain ⟨σ₁, h1, hr⟩ := bind_eq_ok.1 hr
      exact ih _ _ (leaf_exec h h1) hr
  exact this c _ _ (fun t ht => by cases ht) hr

end Verif
