import Verif.Props.GradientFrame
import Verif.Props.Gradients
import Verif.Lemmas.TransferSession
import Verif.Lemmas.KeepLengths

/-!
# C85: the values of the elements never decide whether a program runs

Replacing every element by the same symbol `*` leaves of a session what does not depend on values: the operations,
shapes, layouts and lengths of buffers. The arithmetic of `*` is trivial, and the whole model commutes with the
replacement (`session_map`).
-/

namespace Verif

/-- An element whose value is hidden. -/
inductive Hidden
  | star
  deriving DecidableEq, Repr

namespace Hidden

instance : Add Hidden := ⟨fun _ _ => star⟩
instance : Sub Hidden := ⟨fun _ _ => star⟩
instance : Mul Hidden := ⟨fun _ _ => star⟩
instance : Div Hidden := ⟨fun _ _ => star⟩
instance : Neg Hidden := ⟨fun _ => star⟩
instance : Zero Hidden := ⟨star⟩
instance : One Hidden := ⟨star⟩

end Hidden

/-- Forgets the value of an element. -/
def hide {α : Type} (_ : α) : Hidden := .star

/-- Two lists of commands that differ at most in the values of elements: the data of new tensors, scalar operands and
the elements of gradients passed to `backward_with`. -/
def SameButValues {α β : Type} (c : List (Cmd α)) (d : List (Cmd β)) : Prop := c.map (Cmd.map hide) = d.map (Cmd.map hide)

/-- Two states whose tensors, graphs and gradients differ at most in the values of elements. -/
def RunState.SameButValues {α β : Type} (σ : RunState α) (τ : RunState β) : Prop := σ.map hide = τ.map hide

/-- Two calls have the same outcome: the same error, or results related by `R`. -/
def SameOutcome {α β : Type} (R : α → β → Prop) : Res α → Res β → Prop
  | .ok x, .ok y => R x y
  | .error e, .error e' => e = e'
  | _, _ => False

section values

variable {α β : Type} [Add α] [Sub α] [Mul α] [Div α] [Neg α] [Zero α] [One α] [MulAdd α]
  [Add β] [Sub β] [Mul β] [Div β] [Neg β] [Zero β] [One β] [MulAdd β] [Build]

omit [Build] in
theorem hideHom : GradHom (hide : α → Hidden) :=
  ⟨rfl, rfl, fun _ _ => rfl, fun _ _ => rfl, fun _ _ => rfl, fun _ _ => rfl, fun _ => rfl, fun _ _ _ => rfl⟩

omit [Add α] [Sub α] [Mul α] [Div α] [Neg α] [Zero α] [One α] [MulAdd α]
  [Add β] [Sub β] [Mul β] [Div β] [Neg β] [Zero β] [One β] [MulAdd β] [Build] in
theorem sameOutcome_of_map {γ : Type} {f : α → γ} {g : β → γ} {x : Res α} {y : Res β} (h : f <$> x = g <$> y) :
    SameOutcome (fun a b => f a = g b) x y := by
  cases x <;> cases y
  · exact Except.error.inj h
  · cases h
  · cases h
  · exact Except.ok.inj h

omit [Add α] [Sub α] [Mul α] [Div α] [Neg α] [Zero α] [One α] [MulAdd α]
  [Add β] [Sub β] [Mul β] [Div β] [Neg β] [Zero β] [One β] [MulAdd β] [Build] in
theorem SameOutcome.ok {R : α → β → Prop} {x : Res α} {y : Res β} (h : SameOutcome R x y) {a : α} (hx : x = .ok a) :
    ∃ b, y = .ok b ∧ R a b := by
  subst hx
  cases y
  · exact h.elim
  · exact ⟨_, rfl, h⟩

/-- The two sessions of the examples: `y = -(x * c)` for a variable `x` of shape `[2]`, with two different `c`, and a
backward pass. The elements of the second one are of another type. -/
def valuesA : List (Cmd ℚ) :=
  [.op (.leaf [2] [1, 2]), .op (.setReq 0 true), .op (.scal .mul 0 3), .op (.neg 1), .backward 2]

def valuesB : List (Cmd ℤ) :=
  [.op (.leaf [2] [0, -7]), .op (.setReq 0 true), .op (.scal .mul 0 0), .op (.neg 1), .backward 2]

/-- **C85.** Two sessions that differ only in the values of elements, over whatever element types, have the same outcome:
both fail with the same error, or both complete in states that differ only in the values of elements. -/
theorem C85_session {c : List (Cmd α)} {d : List (Cmd β)} (h : SameButValues c d) :
    SameOutcome RunState.SameButValues (runSession c) (runSession d) :=
  sameOutcome_of_map (by rw [← session_map hideHom, ← session_map hideHom, show List.map _ c = _ from h])

omit [Build] in
example [Build] : SameOutcome RunState.SameButValues (runSession valuesA) (runSession valuesB) := C85_session rfl

omit [Build] in
/-- Both of them complete. -/
example [k : Build] : (∃ σ, runSession valuesA = .ok σ) ∧ ∃ τ, runSession valuesB = .ok τ := by
  obtain ⟨l⟩ := k
  cases l <;> with_unfolding_all exact ⟨⟨_, rfl⟩, ⟨_, rfl⟩⟩

/-- **C85.** The same from any two states that differ only in the values of elements: whatever is done next has the same
outcome. -/
theorem C85_next {σ : RunState α} {τ : RunState β} (hs : σ.SameButValues τ) {c : List (Cmd α)} {d : List (Cmd β)} (h : SameButValues c d) :
    SameOutcome RunState.SameButValues (c.foldlM RunState.exec σ) (d.foldlM RunState.exec τ) := by
  have key : ∀ {γ : Type} [Add γ] [Sub γ] [Mul γ] [Div γ] [Neg γ] [Zero γ] [One γ] [MulAdd γ] (c : List (Cmd γ)) (σ : RunState γ),
      (c.map (Cmd.map hide)).foldlM RunState.exec (σ.map hide) = RunState.map hide <$> c.foldlM RunState.exec σ := by
    intro γ _ _ _ _ _ _ _ _ c
    induction c with
    | nil => intro σ; rfl
    | cons x c ih =>
      intro σ
      rw [List.map_cons, List.foldlM_cons, List.foldlM_cons, exec_map hideHom, bind_map_left, map_bind]
      congr 1
      funext τ
      exact ih τ
  exact sameOutcome_of_map (by rw [← key, ← key, show List.map _ c = _ from h, show RunState.map _ σ = _ from hs])

omit [Build] in
/-- Another backward pass after each of the two sessions. -/
example [k : Build] : ∃ σ τ, runSession valuesA = .ok σ ∧ runSession valuesB = .ok τ ∧
    SameOutcome RunState.SameButValues (([.backwardWith 2 (Arr.fromContiguousOwnedBuffer [2] [1, 1])] : List (Cmd ℚ)).foldlM RunState.exec σ)
      (([.backwardWith 2 (Arr.fromContiguousOwnedBuffer [2] [5, 0])] : List (Cmd ℤ)).foldlM RunState.exec τ) := by
  obtain ⟨σ, hσ⟩ : ∃ σ, runSession valuesA = .ok σ := by
    obtain ⟨l⟩ := k
    cases l <;> with_unfolding_all exact ⟨_, rfl⟩
  obtain ⟨τ, hτ, h⟩ := (C85_session (c := valuesA) (d := valuesB) rfl).ok hσ
  exact ⟨σ, τ, hσ, hτ, C85_next h rfl⟩

/-! ### gradient methods change nothing but values -/

omit [Add α] [Sub α] [Mul α] [Div α] [Neg α] [Zero α] [One α] [MulAdd α] [Build] in
theorem hide_buf {b b' : List α} (h : b'.length = b.length) : b'.map hide = b.map (hide : α → Hidden) := by
  rw [show (hide : α → Hidden) = fun _ => .star from rfl, List.map_const', List.map_const', h]

omit [Add α] [Sub α] [Mul α] [Div α] [Neg α] [Zero α] [One α] [MulAdd α] [Build] in
theorem hide_set {st : Store α} {i : Nat} {a : Arr α} (ha : st[i]? = some a) {buf : List α} (h : buf.length = a.buf.length) :
    mapStore hide (st.set i { a with buf := buf }) = mapStore hide st := by
  unfold mapStore
  apply List.ext_getElem?
  intro k
  rw [List.getElem?_map, List.getElem?_map, List.getElem?_set]
  by_cases hik : i = k
  · subst hik
    rw [if_pos rfl, if_pos (List.getElem?_eq_some_iff.1 ha).1, ha]
    show some (Arr.mapBuf hide { a with buf := buf }) = some (a.mapBuf hide)
    unfold Arr.mapBuf
    rw [hide_buf h]
  · rw [if_neg hik]

omit [Add α] [Sub α] [Mul α] [Div α] [Neg α] [Zero α] [One α] [MulAdd α] [Build] in
theorem callNext_hide {b : Bool} {st st' : Store α} {r : Res (GradArr α)} {f : GradArr α → Res (Store α)}
    (hf : ∀ g st', f g = .ok st' → mapStore hide st' = mapStore hide st) (h : callNext b st r f = .ok st') :
    mapStore hide st' = mapStore hide st := by
  unfold callNext at h
  split at h
  · cases h; rfl
  · obtain ⟨g, _, h⟩ := bind_eq_ok.1 h
    exact hf g st' h

omit [Add α] [Sub α] [Mul α] [Div α] [Neg α] [Zero α] [One α] [MulAdd α] [Build] in
theorem two_hide {b b' : Bool} {st st' : Store α} {r : Res (GradArr α)} {r' : Store α → Res (GradArr α)}
    {l l' : GradArr α → Store α → Res (Store α)} (hl : ∀ g st st', l g st = .ok st' → mapStore hide st' = mapStore hide st)
    (hl' : ∀ g st st', l' g st = .ok st' → mapStore hide st' = mapStore hide st)
    (h : (callNext b st r (fun g => l g st) >>= fun s => callNext b' s (r' s) fun g => l' g s) = .ok st') :
    mapStore hide st' = mapStore hide st := by
  obtain ⟨s, h1, h⟩ := bind_eq_ok.1 h
  exact (callNext_hide (fun g st' => hl' g s st') h).trans (callNext_hide (fun g st' => hl g st st') h1)

omit [Sub α] [Mul α] [Div α] [Neg α] [Zero α] [One α] [MulAdd α] in
theorem accumulate_hide {i : Nat} {g : GradArr α} {st st' : Store α} (h : accumulate i g st = .ok st') :
    mapStore hide st' = mapStore hide st := by
  unfold accumulate at h
  split at h
  · cases h
  · rename_i a ha
    obtain ⟨_, _, h⟩ := bind_eq_ok.1 h
    obtain ⟨buf, hb, h⟩ := bind_eq_ok.1 h
    cases h
    obtain ⟨_, _, hb⟩ := bind_eq_ok.1 hb
    obtain ⟨b', hb⟩ : ∃ b' : Arr α, (binKernel (fun x y => Except.ok (x + y)) (binLoops fun x y => x + y) ⟨0, a.off⟩ a.stride
        ⟨if (g.src == some i) = true then 0 else 1, b'.off⟩ b'.stride ⟨0, a.off⟩ a.shape [a.buf, b'.buf] >>= fun m => m.region 0) = .ok buf := by
      by_cases hsh : (g.get st).shape = a.shape
      · exact ⟨_, by simpa only [if_pos hsh, pure_bind] using hb⟩
      · simp only [if_neg hsh] at hb
        obtain ⟨b', _, hb⟩ := bind_eq_ok.1 hb
        exact ⟨b', hb⟩
    obtain ⟨m, hm, hb⟩ := bind_eq_ok.1 hb
    exact hide_set ha ((keeps_binKernel _ (binLoops_keep _) _ _ _ _ _ _ _).region hm (k := 0) rfl hb)

theorem backward_hide (gf : GradFn α) : ∀ (g : GradArr α) (st st' : Store α), backward gf g st = .ok st' →
    mapStore hide st' = mapStore hide st := by
  induction gf with
  | none => intro g st st' h; unfold backward at h; cases h; rfl
  | acc i => intro g st st' h; unfold backward at h; exact accumulate_hide h
  | add l r ls rs hl hr => intro g st st' h; unfold backward at h; exact two_hide (r' := fun st => fit g st rs) hl hr h
  | sub l r ls rs hl hr => intro g st st' h; unfold backward at h; exact two_hide (r' := fun st => freshFit (g.get st).negA st rs) hl hr h
  | mul l r a b hl hr => intro g st st' h; unfold backward at h; exact two_hide (r' := fun st => freshFit (a.mulA (g.get st)) st b.shape) hl hr h
  | mulScalar n s c hn => intro g st st' h; unfold backward at h; exact callNext_hide (fun g st' => hn g st st') h
  | div l r a b hl hr =>
    intro g st st' h
    unfold backward at h
    split at h
    · exact callNext_hide (fun g st' => hr g st st') h
    · obtain ⟨lg, _, h⟩ := bind_eq_ok.1 h
      exact two_hide (r' := fun st => freshFit (divRight lg a b) st b.shape) hl hr h
  | divScalar n s c hn =>
    intro g st st' h; unfold backward at h
    obtain ⟨_, _, h⟩ := bind_eq_ok.1 h
    exact callNext_hide (fun g st' => hn g st st') h
  | neg n s hn => intro g st st' h; unfold backward at h; exact callNext_hide (fun g st' => hn g st st') h
  | dot l r a b hl hr => intro g st st' h; unfold backward at h; exact two_hide (r' := fun st => fresh (a.mulA (g.get st))) hl hr h
  | matVec l r a b hl hr => intro g st st' h; unfold backward at h; exact two_hide (r' := fun st => fresh (transposedMatmul a (g.get st))) hl hr h
  | matMul l r a b hl hr => intro g st st' h; unfold backward at h; exact two_hide (r' := fun st => fresh (transposedMatmul a (g.get st))) hl hr h
  | bmm l r a b hl hr => intro g st st' h; unfold backward at h; exact two_hide (r' := fun st => fresh (transposedBmm a (g.get st))) hl hr h
  | reshape n s hn => intro g st st' h; unfold backward at h; exact callNext_hide (fun g st' => hn g st st') h
  | transpose n a b hn => intro g st st' h; unfold backward at h; exact callNext_hide (fun g st' => hn g st st') h

omit [Add α] [Sub α] [Mul α] [Div α] [Neg α] [Zero α] [One α] [MulAdd α] [Build] in
theorem bufStore_length {b b' : List α} {i : Nat} {v : α} (h : bufStore b i v = .ok b') : b'.length = b.length := by
  unfold bufStore at h
  split at h
  · cases h; exact List.length_set
  · cases h

omit [Add α] [Sub α] [Mul α] [Div α] [Neg α] [Zero α] [One α] [MulAdd α] [Build] in
theorem fillUniformStride_length {n : Nat} : ∀ {b b' : List α} {p e : Nat} {v : α}, fillUniformStride n b p e v = .ok b' → b'.length = b.length := by
  induction n with
  | zero => intro b b' p e v h; cases h; rfl
  | succ n ih =>
    intro b b' p e v h
    obtain ⟨_, h1, h⟩ := bind_eq_ok.1 h
    rw [ih h, bufStore_length h1]

omit [Add α] [Sub α] [Mul α] [Div α] [Neg α] [Zero α] [One α] [MulAdd α] [Build] in
theorem fillLoop_length {body : List α → Nat → Res (List α)} (hb : ∀ b p b', body b p = .ok b' → b'.length = b.length) {step n : Nat} :
    ∀ {b b' : List α} {p : Nat}, fillLoop body step n b p = .ok b' → b'.length = b.length := by
  induction n with
  | zero => intro b b' p h; cases h; rfl
  | succ n ih =>
    intro b b' p h
    obtain ⟨_, h1, h⟩ := bind_eq_ok.1 h
    rw [ih h, hb _ _ _ h1]

omit [Add α] [Sub α] [Mul α] [Div α] [Neg α] [Zero α] [One α] [MulAdd α] [Build] in
theorem fillPtr_length (v : α) : ∀ (s st : List Nat) (len : Nat) (b : List α) (p : Nat) (b' : List α), fillPtr s st len v b p = .ok b' →
    b'.length = b.length := by
  intro s
  induction s with
  | nil =>
    intro st len b p b' h
    unfold fillPtr at h
    split at h
    · split at h
      · exact fillUniformStride_length h
      · exact fillUniformStride_length h
    · cases h
  | cons n s ih =>
    intro st len b p b' h
    cases st with
    | nil =>
      unfold fillPtr at h
      split at h
      · split at h
        · exact fillUniformStride_length h
        · exact fillUniformStride_length h
      · cases h
    | cons d st =>
      unfold fillPtr at h
      split at h
      · split at h
        · exact fillUniformStride_length h
        · exact fillUniformStride_length h
      · exact fillLoop_length (fun b p b' h => ih _ _ _ _ _ h) h

omit [Add α] [Sub α] [Mul α] [Div α] [Neg α] [One α] [MulAdd α] [Build] in
theorem zeroGradient_hide {t : Tensor α} {st st' : Store α} (h : t.zeroGradient st = .ok st') : mapStore hide st' = mapStore hide st := by
  unfold Tensor.zeroGradient at h
  split at h
  · split at h
    · cases h
    · rename_i a ha
      obtain ⟨_, hb, h⟩ := bind_eq_ok.1 h
      cases h
      exact hide_set ha (fillPtr_length _ _ _ _ _ _ _ hb)
  · cases h; rfl

/-- `backward`, `backward_with` or `zero_gradient`. -/
def Cmd.onGradients {γ : Type} : Cmd γ → Prop
  | .op _ => False
  | _ => True

/-- **C85.** `backward`, `backward_with` and `zero_gradient` change nothing but the values of elements. -/
theorem C85_gradient {σ σ' : RunState α} {x : Cmd α} (hx : x.onGradients) (h : σ.exec x = .ok σ') :
    σ'.env = σ.env ∧ σ'.SameButValues σ := by
  have key : ∀ st, mapStore hide st = mapStore hide σ.store →
      RunState.env ⟨σ.env, st⟩ = σ.env ∧ RunState.SameButValues (⟨σ.env, st⟩ : RunState α) σ :=
    fun st e => ⟨rfl, by unfold RunState.SameButValues RunState.map; rw [e]⟩
  cases x with
  | op x => exact hx.elim
  | backward y =>
    obtain ⟨t, _, h⟩ := bind_eq_ok.1 h
    obtain ⟨st, e, h⟩ := bind_eq_ok.1 h
    cases h
    obtain ⟨_, _, e⟩ := bind_eq_ok.1 e
    obtain ⟨_, _, e⟩ := bind_eq_ok.1 e
    exact key _ (backward_hide _ _ _ _ e)
  | backwardWith y g =>
    obtain ⟨t, _, h⟩ := bind_eq_ok.1 h
    obtain ⟨st, e, h⟩ := bind_eq_ok.1 h
    cases h
    obtain ⟨_, _, e⟩ := bind_eq_ok.1 e
    exact key _ (backward_hide _ _ _ _ e)
  | zeroGradient i =>
    obtain ⟨t, _, h⟩ := bind_eq_ok.1 h
    obtain ⟨st, e, h⟩ := bind_eq_ok.1 h
    cases h
    exact key _ (zeroGradient_hide e)

omit [Build] in
example [k : Build] : ∃ σ σ' : RunState ℚ, runSession valuesA = .ok σ ∧ σ.exec (.backward 2) = .ok σ' ∧ σ'.SameButValues σ ∧ σ' ≠ σ := by
  obtain ⟨σ, σ', h, hb, e, e'⟩ : ∃ σ σ' : RunState ℚ, runSession valuesA = .ok σ ∧ σ.exec (.backward 2) = .ok σ' ∧
      σ.store.map (·.buf) = [[-3, -3]] ∧ σ'.store.map (·.buf) = [[-6, -6]] := by
    obtain ⟨l⟩ := k
    cases l <;> with_unfolding_all exact ⟨_, _, rfl, rfl, rfl, rfl⟩
  refine ⟨σ, σ', h, hb, (C85_gradient (x := .backward 2) trivial hb).2, fun h => ?_⟩
  rw [h, e] at e'
  revert e'
  decide

/-- **C85.** What was possible before a call of `backward`, `backward_with` or `zero_gradient` is possible after it, and
nothing else; with whatever values. -/
theorem C85_after {σ σ' : RunState α} {x : Cmd α} (hx : x.onGradients) (h : σ.exec x = .ok σ') {c d : List (Cmd α)} (hcd : SameButValues c d) :
    SameOutcome RunState.SameButValues (c.foldlM RunState.exec σ') (d.foldlM RunState.exec σ) :=
  C85_next (C85_gradient hx h).2 hcd

omit [Build] in
example [k : Build] : ∃ σ σ' : RunState ℚ, runSession valuesA = .ok σ ∧ σ.exec (.zeroGradient 0) = .ok σ' ∧
    SameOutcome RunState.SameButValues (([.op (.leaf [2] [3, 4]), .op (.bin .div 2 3), .backward 4] : List (Cmd ℚ)).foldlM RunState.exec σ')
      (([.op (.leaf [2] [0, 0]), .op (.bin .div 2 3), .backward 4] : List (Cmd ℚ)).foldlM RunState.exec σ) := by
  obtain ⟨σ, σ', h, hb⟩ : ∃ σ σ' : RunState ℚ, runSession valuesA = .ok σ ∧ σ.exec (.zeroGradient 0) = .ok σ' := by
    obtain ⟨l⟩ := k
    cases l <;> with_unfolding_all exact ⟨_, _, rfl, rfl⟩
  exact ⟨σ, σ', h, hb, C85_after (x := .zeroGradient 0) trivial hb rfl⟩

/-- **C85.** A pass that completes once completes every time: with any gradients of the same layout, as often as one likes. -/
theorem C85_again {σ σ' : RunState α} {y : Nat} {g : Arr α} (h : σ.exec (.backwardWith y g) = .ok σ') :
    ∀ gs : List (Arr α), (∀ g' ∈ gs, g'.mapBuf hide = g.mapBuf (hide : α → Hidden)) →
      ∃ τ, (gs.map (Cmd.backwardWith y)).foldlM RunState.exec σ = .ok τ ∧ τ.env = σ.env ∧ τ.SameButValues σ := by
  have key : ∀ (gs : List (Arr α)) (ρ : RunState α), ρ.env = σ.env → ρ.SameButValues σ →
      (∀ g' ∈ gs, g'.mapBuf hide = g.mapBuf (hide : α → Hidden)) →
      ∃ τ, (gs.map (Cmd.backwardWith y)).foldlM RunState.exec ρ = .ok τ ∧ τ.env = σ.env ∧ τ.SameButValues σ := by
    intro gs
    induction gs with
    | nil => intro ρ he hv _; exact ⟨ρ, rfl, he, hv⟩
    | cons g' gs ih =>
      intro ρ he hv hg
      have h1 := C85_next hv.symm (c := [.backwardWith y g]) (d := [.backwardWith y g']) (by
        unfold SameButValues
        simp only [List.map_cons, List.map_nil, Cmd.map]
        rw [hg g' List.mem_cons_self])
      obtain ⟨ρ', e, _⟩ := h1.ok (by rw [List.foldlM_cons, h]; rfl)
      rw [List.foldlM_cons] at e
      obtain ⟨ρ'', e1, e2⟩ := bind_eq_ok.1 e
      obtain ⟨q1, q2⟩ := C85_gradient (x := .backwardWith y g') trivial e1
      obtain ⟨τ, e3, e4, e5⟩ := ih ρ'' (q1.trans he) (q2.trans hv) fun g'' hg'' => hg g'' (List.mem_cons_of_mem _ hg'')
      exact ⟨τ, by rw [List.map_cons, List.foldlM_cons, e1]; exact e3, e4, e5⟩
  exact fun gs hgs => key gs σ rfl rfl hgs

omit [Build] in
example [k : Build] : ∃ σ : RunState ℚ, runSession valuesA = .ok σ ∧ ∀ n : Nat, ∃ τ,
    ((List.replicate n (Arr.fromContiguousOwnedBuffer [2] [(5 : ℚ), 7])).map (Cmd.backwardWith 2)).foldlM RunState.exec σ = .ok τ := by
  obtain ⟨σ, σ', h, hb⟩ : ∃ σ σ' : RunState ℚ, runSession valuesA = .ok σ ∧
      σ.exec (.backwardWith 2 (Arr.fromContiguousOwnedBuffer [2] [0, 0])) = .ok σ' := by
    obtain ⟨l⟩ := k
    cases l <;> with_unfolding_all exact ⟨_, _, rfl, rfl⟩
  refine ⟨σ, h, fun n => ?_⟩
  obtain ⟨τ, e, _⟩ := C85_again hb (List.replicate n (Arr.fromContiguousOwnedBuffer [2] [(5 : ℚ), 7])) fun g hg => by
    rw [List.eq_of_mem_replicate hg]; rfl
  exact ⟨τ, e⟩

end values

section order

variable {α : Type} [Field α] [Build]

/-- **C42.** Two backward passes give the same result in either order, for tensors of any shape (also with an extent 0 or
more than 32 axes): if one order completes, so does the other, and all gradients agree. -/
theorem C42_order {c : List (Cmd α)} {σ τ : RunState α} (hc : ∀ x ∈ c, x.Fine σ.env) (hr : runSession c = .ok σ)
    (y₁ y₂ : Nat) {g₁ g₂ : Arr α} (hw₁ : g₁.WF) (hw₂ : g₂.WF)
    (h : (σ.exec (.backwardWith y₁ g₁) >>= fun ρ => ρ.exec (.backwardWith y₂ g₂)) = .ok τ) :
    (σ.exec (.backwardWith y₂ g₂) >>= fun ρ => ρ.exec (.backwardWith y₁ g₁)) = .ok τ := by
  obtain ⟨sh, hi⟩ := Weak.session_inv hc hr
  obtain ⟨σ₁, h1, h12⟩ := bind_eq_ok.1 h
  have one : ∀ {ρ ρ' : RunState α} {x : Cmd α}, ρ.SameButValues ρ' → (∃ r, ρ.exec x = .ok r) → ∃ r, ρ'.exec x = .ok r := by
    rintro ρ ρ' x hs ⟨r, e⟩
    obtain ⟨r', e', _⟩ := (C85_next hs (c := [x]) (d := [x]) rfl).ok (by rw [List.foldlM_cons, e]; rfl)
    rw [List.foldlM_cons] at e'
    obtain ⟨r'', e1, _⟩ := bind_eq_ok.1 e'
    exact ⟨r'', e1⟩
  obtain ⟨σ₂, h2⟩ := one (C85_gradient (x := .backwardWith y₁ g₁) trivial h1).2 ⟨_, h12⟩
  obtain ⟨τ', h21⟩ := one (C85_gradient (x := .backwardWith y₂ g₂) trivial h2).2.symm ⟨_, h1⟩
  refine bind_eq_ok.2 ⟨σ₂, h2, h21.trans ?_⟩
  -- both are determined by the increments
  have pass : ∀ {y : Nat} {g : Arr α}, g.WF → ∃ D : Nat → List Nat → α, ∀ {st : Store α} {ρ : RunState α}, StoreOK sh st →
      RunState.exec { σ with store := st } (.backwardWith y g) = .ok ρ → ρ.env = σ.env ∧ Adds sh st ρ.store D := by
    intro y g hw
    cases ht : σ.env[y]? with
    | none =>
      refine ⟨fun _ _ => 0, fun {st ρ} _ e => ?_⟩
      obtain ⟨t, e, _⟩ := bind_eq_ok.1 e
      have := getT_ok e
      rw [show RunState.env { σ with store := st } = σ.env from rfl, ht] at this
      cases this
    | some t =>
      by_cases hsh : g.shape = t.arr.shape
      · obtain ⟨G, hG⟩ := hw.denotesD
        rw [hsh] at hG
        refine ⟨fun k J => pair t.arr.shape G (jacobian (program c) y k J), fun {st ρ} hst e => ?_⟩
        obtain ⟨t', e1, e⟩ := bind_eq_ok.1 e
        have := getT_ok e1
        rw [show RunState.env { σ with store := st } = σ.env from rfl, ht] at this
        cases this
        obtain ⟨s, e2, rfl⟩ := withStore_ok e
        exact ⟨rfl, Weak.backwardWith_incr hi ht hw hG hst e2⟩
      · refine ⟨fun _ _ => 0, fun {st ρ} _ e => ?_⟩
        obtain ⟨t', e1, e⟩ := bind_eq_ok.1 e
        have := getT_ok e1
        rw [show RunState.env { σ with store := st } = σ.env from rfl, ht] at this
        cases this
        obtain ⟨s, e2, rfl⟩ := withStore_ok e
        obtain ⟨_, e3, _⟩ := bind_eq_ok.1 e2
        exact absurd (of_decide_eq_true (assert_eq_ok.1 e3)) hsh
  obtain ⟨D₁, p₁⟩ := pass (y := y₁) hw₁
  obtain ⟨D₂, p₂⟩ := pass (y := y₂) hw₂
  obtain ⟨n1, a1⟩ := p₁ hi.store h1
  obtain ⟨n2, a2⟩ := p₂ hi.store h2
  obtain ⟨E1, S1⟩ := σ₁
  obtain ⟨E2, S2⟩ := σ₂
  cases n1
  cases n2
  obtain ⟨n12, a12⟩ := p₂ a1.1 h12
  obtain ⟨n21, a21⟩ := p₁ a2.1 h21
  obtain ⟨E12, S12⟩ := τ
  obtain ⟨E21, S21⟩ := τ'
  cases n12
  cases n21
  rw [show S21 = S12 from adds_unique hi.store (a2.trans a21) (a1.trans a12) fun _ _ _ _ _ => add_comm _ _]

omit [Build] in
example [k : Build] : ∃ (σ τ : RunState ℚ), runSession smallSession = .ok σ ∧
    (σ.exec (.backwardWith 2 (smallSeed 5)) >>= fun ρ => ρ.exec (.backwardWith 0 (smallSeed 7))) = .ok τ ∧
    (σ.exec (.backwardWith 0 (smallSeed 7)) >>= fun ρ => ρ.exec (.backwardWith 2 (smallSeed 5))) = .ok τ := by
  obtain ⟨σ, _, _, _, hc, hr, _⟩ := smallSession_runs
  obtain ⟨σ', τ, h, h'⟩ : ∃ σ τ : RunState ℚ, runSession smallSession = .ok σ ∧
      (σ.exec (.backwardWith 2 (smallSeed 5)) >>= fun ρ => ρ.exec (.backwardWith 0 (smallSeed 7))) = .ok τ := by
    obtain ⟨l⟩ := k
    cases l <;> with_unfolding_all exact ⟨_, _, rfl, rfl⟩
  obtain rfl : σ = σ' := Except.ok.inj (hr.symm.trans h)
  exact ⟨σ, τ, h, h', C42_order hc h 2 0 (smallSeed_wf 5) (smallSeed_wf 7) h'⟩

end order

end Verif
