import Verif.Props.ValueIndependence
import Verif.Lemmas.Shapes

/-!
# C87: shapes decide whether a tensor operation is accepted, and predict the shape of every result
-/

namespace Verif

/-! ### over a field -/

section field
variable {α : Type} [Field α] [Build]

theorem exec_arrs {σ σ' : RunState α} {c : Cmd α} (hw : ∀ a ∈ σ.arrs, a.WF) (hc : ∀ x, c = .op x → x.safe [] = true) (hr : σ.exec c = .ok σ') (hs' : SmallEnv σ.env) : ∀ a ∈ σ'.arrs, a.WF := by
  cases hx : c.instr with
  | none => unfold RunState.arrs; rw [exec_grad hr hx]; exact hw
  | some x =>
    obtain rfl : c = .op x := by cases c <;> first | cases hx; rfl | cases hx
    rcases step_shape (B := []) hw (fun a ha => by obtain ⟨t, ht, rfl⟩ := List.mem_map.1 ha; exact hs' t ht) (fun i a h => by simp at h) x with
      ⟨q, τ, _, e, ea, hq, _⟩ | ⟨_, e⟩
    · rw [show σ.step x = _ from hr] at e
      cases e
      rw [ea]
      have := hq (hc x rfl)
      intro a ha
      cases x <;> first | exact hw a ha | (rcases List.mem_append.1 ha with h | h; exact hw a h; rw [List.mem_singleton.1 h]; exact this)
    · rw [show σ.step x = _ from hr] at e; cases e

theorem session_arrs {c : List (Cmd α)} {σ σ' : RunState α} (hw : ∀ a ∈ σ.arrs, a.WF) (hr : c.foldlM RunState.exec σ = .ok σ')
    (hs : SmallEnv σ'.env) (hc : ∀ x, .op x ∈ c → x.safe [] = true) : ∀ a ∈ σ'.arrs, a.WF := by
  induction c generalizing σ with
  | nil => cases hr; exact hw
  | cons y p ih =>
    have hs0 := smallEnv_of_session hr hs
    rw [List.foldlM_cons] at hr
    obtain ⟨σ₂, h2, hr⟩ := bind_eq_ok.1 hr
    exact ih (exec_arrs hw (fun x e => hc x (by simp [e])) h2 hs0) hr (fun x hx => hc x (by simp [hx]))

omit [Field α] in
theorem HasShape_into {e : Nat → Prop} {Γ : List (List Nat)} {op : SView} {b : Bool} {i : Nat} {r : List Nat}
    (h : (Instr.into op b i : Instr α).HasShape e Γ r) : i < Γ.length := by
  obtain ⟨s, hs, _⟩ := h
  exact (List.getElem?_eq_some_iff.1 hs).1

theorem fold_env {p : List (Instr α)} {σ σ' : RunState α} (hr : p.foldlM RunState.step σ = .ok σ') {i : Nat} {t : Tensor α}
    (ht : σ.env[i]? = some t) : ∃ t', σ'.env[i]? = some t' ∧ t'.arr = t.arr := by
  induction p generalizing σ t with
  | nil => cases hr; exact ⟨t, ht, rfl⟩
  | cons y p ih =>
    rw [List.foldlM_cons] at hr
    obtain ⟨σ₂, h2, hr⟩ := bind_eq_ok.1 hr
    obtain ⟨t₂, ht₂, e₂⟩ := step_env h2 ht
    obtain ⟨t', ht', e'⟩ := ih hr ht₂
    exact ⟨t', ht', by rw [e', e₂]⟩

theorem program_shapes {p : List (Instr α)} {σ : RunState α} {Γ' : List (List Nat)} {B : List Bool} (hw : ∀ a ∈ σ.arrs, a.WF)
    (hs : ∀ a ∈ σ.arrs, SmallShape a.shape) (hl : B.length = σ.arrs.length)
    (hB : ∀ i a, B.getD i false = true → σ.arrs[i]? = some a → a.stride = strideFromShape a.shape)
    (h : WellShaped σ.shapes B p Γ') : ∃ σ', p.foldlM RunState.step σ = .ok σ' ∧ σ'.shapes = Γ' ∧ ∀ x ∈ p, x.Plain σ'.env := by
  induction p generalizing σ B with
  | nil => exact ⟨σ, rfl, h.symm, by simp⟩
  | cons x p ih =>
    obtain ⟨r, hx, h0, h32, hsafe, h⟩ := h
    have heven : ∀ i, B[i]? = some true → σ.even i := by
      intro i hi
      have hlt : i < σ.arrs.length := hl ▸ (List.getElem?_eq_some_iff.1 hi).1
      refine ⟨σ.arrs[i], List.getElem?_eq_getElem hlt, ?_⟩
      have hst := hB i _ (by rw [List.getD_eq_getElem?_getD, hi]; rfl) (List.getElem?_eq_getElem hlt)
      have hwf := hw _ (List.getElem_mem hlt)
      unfold Arr.isUniformlyStrided
      rw [hwf.flags.1, hst]
      obtain ⟨e, _, he⟩ := hasUniformStride_strideFromShape (σ.arrs[i]).shape
      rw [he]; rfl
    have hx' := hx.mono heven
    rcases step_shape hw hs hB x with ⟨q, σ₂, hq, e, ea, hqw, hqs⟩ | ⟨hno, _⟩
    · have hqr : q.shape = r := hq.unique hx'
      have hsh : σ₂.shapes = x.extend σ.shapes r := by
        unfold RunState.shapes
        rw [ea, ← hqr]
        cases x <;> simp [Instr.extend]
      have hxp : ∀ σ' : RunState α, p.foldlM RunState.step σ₂ = .ok σ' → x.Plain σ'.env := by
        intro σ' hf
        cases x with
        | into op b i =>
          intro h1 h2 t' ht'
          have hlt : i < σ.env.length := by
            have := HasShape_into hx
            simpa [RunState.shapes, RunState.arrs] using this
          obtain ⟨t₁, ht₁, ea₁⟩ := fold_env (p := .into op b i :: p) (by rw [List.foldlM_cons, e]; exact hf)
            (List.getElem?_eq_getElem hlt)
          rw [ht'] at ht₁
          cases ht₁
          rw [ea₁]
          refine hB i _ ?_ (show (σ.env.map _)[i]? = _ by rw [List.getElem?_map, List.getElem?_eq_getElem hlt]; rfl)
          subst h1
          cases op <;> first | exact hsafe | cases h2
        | _ => trivial
      rw [List.foldlM_cons, e]
      suffices hind : ∃ σ', p.foldlM RunState.step σ₂ = .ok σ' ∧ σ'.shapes = Γ' ∧ ∀ x ∈ p, x.Plain σ'.env by
        obtain ⟨σ', hf, hs', hp⟩ := hind
        refine ⟨σ', hf, hs', fun z hz => ?_⟩
        rcases List.mem_cons.1 hz with rfl | hz
        · exact hxp σ' hf
        · exact hp z hz
      refine ih (σ := σ₂) (B := x.extend B (x.straight B)) ?_ ?_ ?_ ?_ (by rw [hsh]; exact h)
      · intro a ha
        rw [ea] at ha
        cases x <;> first | exact hw a ha | (rcases List.mem_append.1 ha with h | h; exact hw a h; rw [List.mem_singleton.1 h]; exact hqw hsafe)
      · intro a ha
        rw [ea] at ha
        cases x <;> first | exact hs a ha | (rcases List.mem_append.1 ha with h | h; exact hs a h; rw [List.mem_singleton.1 h, hqr]; exact ⟨h0, h32⟩)
      · rw [ea]
        cases x <;> simp [Instr.extend, hl]
      · intro i a hi ha
        have hins : x.extend B (x.straight B) = B ∧ x.extend σ.arrs q = σ.arrs ∨
            x.extend B (x.straight B) = B ++ [x.straight B] ∧ x.extend σ.arrs q = σ.arrs ++ [q] := by
          cases x <;> first | exact .inl ⟨rfl, rfl⟩ | exact .inr ⟨rfl, rfl⟩
        rw [ea] at ha
        rcases hins with ⟨h1, h2⟩ | ⟨h1, h2⟩
        · rw [h1] at hi; rw [h2] at ha
          exact hB i a hi ha
        · rw [h1] at hi; rw [h2] at ha
          by_cases hlt : i < B.length
          · rw [List.getElem?_append_left (hl ▸ hlt)] at ha
            rw [List.getD_eq_getElem?_getD, List.getElem?_append_left hlt, ← List.getD_eq_getElem?_getD] at hi
            exact hB i a hi ha
          · have hlast : i = B.length := by
              have := (List.getElem?_eq_some_iff.1 ha).1
              simp at this; omega
            subst hlast
            simp at hi
            rw [hl] at ha
            simp at ha
            subst ha
            exact hqs hi
    · exact absurd hx' (hno r)

end field

/-! ### any element type -/

section any
variable {α β : Type}

theorem arrs_map (φ : α → β) (σ : RunState α) : (σ.map φ).arrs = σ.arrs.map (Arr.mapBuf φ) := by
  simp [RunState.arrs, RunState.map, Tensor.map, Function.comp_def]

theorem RunState.SameButValues.shapes {σ : RunState α} {τ : RunState β} (h : σ.SameButValues τ) :
    σ.shapes = τ.shapes ∧ ∀ i, σ.even i ↔ τ.even i := by
  have ha : σ.arrs.map (Arr.mapBuf (hide : α → Hidden)) = τ.arrs.map (Arr.mapBuf hide) := by
    rw [← arrs_map, ← arrs_map, show σ.map hide = _ from h]
  refine ⟨?_, fun i => ?_⟩
  · have := congrArg (List.map (fun a : Arr Hidden => a.shape)) ha
    rw [List.map_map, List.map_map] at this
    exact this
  · have hi : (σ.arrs[i]?).map (Arr.mapBuf (hide : α → Hidden)) = (τ.arrs[i]?).map (Arr.mapBuf hide) := by
      rw [← List.getElem?_map, ha, List.getElem?_map]
    unfold RunState.even
    cases h1 : σ.arrs[i]? <;> cases h2 : τ.arrs[i]? <;> rw [h1, h2] at hi <;> simp at hi ⊢
    have := congrArg Arr.isUniformlyStrided hi
    exact this

theorem Instr.hasShape_map (φ : α → β) {e : Nat → Prop} {Γ : List (List Nat)} {x : Instr α} {r : List Nat} :
    (x.map φ).HasShape e Γ r ↔ x.HasShape e Γ r := by
  cases x <;> simp [Instr.map, Instr.HasShape]

theorem Instr.extend_map (φ : α → β) {γ : Type} (Γ : List γ) (r : γ) (x : Instr α) : (x.map φ).extend Γ r = x.extend Γ r := by
  cases x <;> rfl

theorem Instr.safe_map (φ : α → β) (B : List Bool) (x : Instr α) : (x.map φ).safe B = x.safe B := by
  cases x with
  | into op b i => cases op <;> cases b <;> rfl
  | _ => rfl

theorem Instr.straight_map (φ : α → β) (B : List Bool) (x : Instr α) : (x.map φ).straight B = x.straight B := by
  cases x with
  | into op b i => cases op <;> rfl
  | view op i => cases op <;> rfl
  | _ => rfl

theorem WellShaped.map (φ : α → β) {Γ Γ' : List (List Nat)} {B : List Bool} {p : List (Instr α)} (h : WellShaped Γ B p Γ') :
    WellShaped Γ B (p.map (Instr.map φ)) Γ' := by
  induction p generalizing Γ B with
  | nil => exact h
  | cons x p ih =>
    obtain ⟨r, h1, h2, h3, h4, h5⟩ := h
    exact ⟨r, (Instr.hasShape_map φ).2 h1, h2, h3, by rw [Instr.safe_map]; exact h4, by
      rw [Instr.extend_map, Instr.extend_map, Instr.straight_map]; exact ih h5⟩

theorem same_zero (c : List (Cmd α)) : SameButValues c (c.map (Cmd.map fun _ => (0 : ℚ))) := by
  unfold SameButValues
  rw [List.map_map]
  congr 1
  funext x
  cases x with
  | op x =>
    cases x with
    | leaf s data =>
      show Cmd.op (.leaf s (data.map hide)) = .op (.leaf s ((data.map _).map hide))
      rw [List.map_map]; rfl
    | _ => rfl
  | backwardWith y g =>
    show Cmd.backwardWith y (g.mapBuf hide) = .backwardWith y ((g.mapBuf _).mapBuf hide)
    unfold Arr.mapBuf
    simp only [List.map_map]; rfl
  | _ => rfl

/-- **C87.** The shape foretold is the only one. -/
theorem C87_unique {e e' : Nat → Prop} {Γ : List (List Nat)} {x : Instr α} {r r' : List Nat} (h : x.HasShape e Γ r) (h' : x.HasShape e' Γ r') :
    r = r' := h.unique h'

example {r : List Nat} (h : (.matmul 0 1 : Instr ℚ).HasShape (fun _ => True) [[2, 3], [3]] r) : r = [2] :=
  C87_unique h (e' := fun _ => True) (.inr (.inl ⟨2, 3, rfl, rfl, rfl⟩))

variable [Add α] [Sub α] [Mul α] [Div α] [Neg α] [Zero α] [One α] [MulAdd α] [Build]

/-- **C87.** After any session whose tensors have no extent 0 and at most 32 axes, every operation on them either makes sense in the terms
of `Spec/Shapes.lean`, is accepted and adds a tensor of the shape foretold there, or makes no sense and panics. (The
operations of the session do not include consuming `reshape`, `squeeze`, `unsqueeze` of tensors whose array has other
owners, C43; the next operation may be any.) -/
theorem C87_next {c : List (Cmd α)} {σ : RunState α} (hr : runSession c = .ok σ) (hc : ∀ x, .op x ∈ c → x.safe [] = true)
    (hs : ∀ t ∈ σ.env, 0 ∉ t.arr.shape ∧ t.arr.shape.length ≤ 32) (x : Instr α) :
    (∃ r σ', x.HasShape σ.even σ.shapes r ∧ σ.step x = .ok σ' ∧ σ'.shapes = x.extend σ.shapes r) ∨
    ((∀ r, ¬ x.HasShape σ.even σ.shapes r) ∧ σ.step x = .error .panic) := by
  obtain ⟨τ, hτ, hsame⟩ := (C85_session (same_zero c)).ok hr
  obtain ⟨hsh, hev⟩ := hsame.shapes
  have hev' : σ.even = τ.even := funext fun i => propext (hev i)
  have hsmall : ∀ a ∈ τ.arrs, SmallShape a.shape := by
    intro a ha
    have : a.shape ∈ σ.shapes := hsh ▸ List.mem_map_of_mem ha
    obtain ⟨b, hb, e⟩ := List.mem_map.1 this
    obtain ⟨t, ht, rfl⟩ := List.mem_map.1 hb
    rw [← e]
    exact hs t ht
  have hsm : SmallEnv τ.env := fun t ht => hsmall _ (List.mem_map_of_mem ht)
  have hw : ∀ a ∈ τ.arrs, a.WF := session_arrs (by simp [RunState.arrs]) hτ hsm (fun x hx => by
    obtain ⟨y, hy, e⟩ := List.mem_map.1 hx
    cases y with
    | op y =>
      cases e
      rw [Instr.safe_map]
      exact hc y hy
    | _ => cases e)
  have hone := C85_next hsame (same_zero [.op x])
  have e1 : ([.op x] : List (Cmd α)).foldlM RunState.exec σ = σ.step x := by
    show (σ.step x >>= fun s => pure s) = _
    exact bind_pure _
  have e2 : ([.op x] : List (Cmd α)).map (Cmd.map fun _ => (0 : ℚ)) = [.op (x.map fun _ => 0)] := rfl
  have e3 : ([.op (x.map fun _ => 0)] : List (Cmd ℚ)).foldlM RunState.exec τ = τ.step (x.map fun _ => 0) := by
    show (τ.step _ >>= fun s => pure s) = _
    exact bind_pure _
  rw [e1, e2, e3] at hone
  rw [hev', hsh]
  rcases step_shape (B := []) hw hsmall (fun i a h => by simp at h) (x.map fun _ => (0 : ℚ)) with ⟨q, τ', hq, e, ea, _⟩ | ⟨hno, e⟩
  · rw [e] at hone
    cases hx : σ.step x with
    | error _ => rw [hx] at hone; exact hone.elim
    | ok σ' =>
      rw [hx] at hone
      refine .inl ⟨q.shape, σ', (Instr.hasShape_map _).1 hq, rfl, ?_⟩
      rw [(RunState.SameButValues.shapes hone).1]
      unfold RunState.shapes
      rw [ea]
      cases x <;> simp [Instr.extend, Instr.map]
  · rw [e] at hone
    refine .inr ⟨fun r h => hno r ((Instr.hasShape_map _).2 h), ?_⟩
    cases hx : σ.step x with
    | error _ => rw [hx] at hone; rw [show _ = _ from hone]
    | ok σ' => rw [hx] at hone; exact hone.elim

omit [Add α] [Sub α] [Mul α] [Div α] [Neg α] [Zero α] [One α] [MulAdd α] [Build] in
example [k : Build] : ∃ σ : RunState ℚ, runSession valuesA = .ok σ ∧
    -- vectors are not batches of matrices
    (∀ r, ¬ (.bmm 0 1 : Instr ℚ).HasShape σ.even σ.shapes r) ∧
    ∀ x, (∃ r σ', x.HasShape σ.even σ.shapes r ∧ σ.step x = .ok σ' ∧ σ'.shapes = x.extend σ.shapes r) ∨
      ((∀ r, ¬ x.HasShape σ.even σ.shapes r) ∧ σ.step x = .error .panic) := by
  obtain ⟨σ, h, hs⟩ : ∃ σ : RunState ℚ, runSession valuesA = .ok σ ∧ σ.env.map (fun t => t.arr.shape) = [[2], [2], [2]] := by
    obtain ⟨l⟩ := k
    cases l <;> with_unfolding_all exact ⟨_, rfl, rfl⟩
  have hs' : σ.shapes = [[2], [2], [2]] := by simpa [RunState.shapes, RunState.arrs, Function.comp_def] using hs
  refine ⟨σ, h, ?_, fun x => C87_next h (fun x hx => ?_) (fun t ht => ?_) x⟩
  · rw [hs']
    rintro r ⟨b, m, k, n, h, _⟩; cases h
  · simp only [valuesA, List.mem_cons, Cmd.op.injEq, List.not_mem_nil, or_false] at hx
    rcases hx with rfl | rfl | rfl | rfl | hx <;> first | rfl | cases hx
  · have : t.arr.shape ∈ σ.env.map (fun t => t.arr.shape) := List.mem_map_of_mem ht
    rw [hs] at this
    have e : t.arr.shape = [2] := by simpa using this
    rw [e]; simp

/-- **C87.** A program that makes sense runs, whatever its elements are, and its tensors have the shapes foretold. -/
theorem C87_program {p : List (Instr α)} {Γ : List (List Nat)} (h : WellShaped [] [] p Γ) :
    ∃ σ, runSession (p.map .op) = .ok σ ∧ σ.env.map (fun t => t.arr.shape) = Γ := by
  obtain ⟨τ, e, hτ, _⟩ := program_shapes (σ := (⟨[], []⟩ : RunState ℚ)) (B := []) (by simp [RunState.arrs]) (by simp [RunState.arrs]) rfl
    (fun i a h => by simp at h) (h.map (fun _ => (0 : ℚ)))
  have e' : runSession ((p.map .op).map (Cmd.map fun _ => (0 : ℚ))) = .ok τ := by
    have key : ∀ (p : List (Instr ℚ)) (σ : RunState ℚ), (p.map Cmd.op).foldlM RunState.exec σ = p.foldlM RunState.step σ := by
      intro p
      induction p with
      | nil => intro σ; rfl
      | cons x p ih => intro σ; rw [List.map_cons, List.foldlM_cons, List.foldlM_cons]; simp only [ih]; rfl
    rw [← e, ← key, List.map_map, List.map_map]
    rfl
  have hs := C85_session (same_zero (p.map .op))
  rw [e'] at hs
  cases hx : runSession (p.map Cmd.op) with
  | error _ => rw [hx] at hs; exact hs.elim
  | ok σ =>
    rw [hx] at hs
    refine ⟨σ, rfl, ?_⟩
    rw [← hτ, ← (RunState.SameButValues.shapes hs).1]
    simp [RunState.shapes, RunState.arrs, Function.comp_def]

omit [Add α] [Sub α] [Mul α] [Div α] [Neg α] [Zero α] [One α] [MulAdd α] [Build] in
/-- `(a / b * s).matmul(b).unsqueeze(0)`, for all sizes and elements -/
example [Build] {m n : Nat} (hm : 0 < m) (hn : 0 < n) {A b : List ℚ} (hA : A.length = numel [m, n]) (hb : b.length = numel [n]) (s : ℚ) :
    ∃ σ, runSession (([.leaf [m, n] A, .leaf [n] b, .bin .div 0 1, .scal .mul 2 s, .matmul 3 1, .view (.unsqueeze 0) 4] : List (Instr ℚ)).map .op) = .ok σ ∧
      σ.env.map (fun t => t.arr.shape) = [[m, n], [n], [m, n], [m, n], [m], [1, m]] := by
  have hbt : BroadcastsTo [n] [m, n] := ⟨by simp, by simp [StretchTo]⟩
  refine C87_program ⟨[m, n], ⟨hA, rfl⟩, by simp; omega, by simp, rfl, [n], ⟨hb, rfl⟩, by simp; omega, by simp, rfl,
    [m, n], ⟨[m, n], [n], rfl, rfl, hbt.compatible.symm, hbt.joint.symm hbt.compatible⟩, by simp; omega, by simp, rfl,
    [m, n], rfl, by simp; omega, by simp, rfl, [m], .inr (.inl ⟨m, n, rfl, rfl, rfl⟩), by simp; omega, by simp, rfl,
    [1, m], ⟨[m], rfl, 0, ⟨by simp, .inl rfl⟩, rfl⟩, by simp; omega, by simp, rfl, rfl⟩

end any

end Verif
