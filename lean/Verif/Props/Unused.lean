import Verif.Props.Passes

/-!
# C101: what is computed on the side changes nothing

The claim is about runs themselves: it holds of elements of any type, floats in particular, to the last bit, and without hypotheses on shapes.
-/

namespace Verif

section
variable {α : Type}

/-- The number of tensor `i` after a further tensor has come in at place `n`. -/
def shiftPast (n i : Nat) : Nat := if i < n then i else i + 1

/-- An operation with its operands renumbered. -/
def Instr.rename (f : Nat → Nat) : Instr α → Instr α
  | .leaf s d => .leaf s d
  | .setReq i b => .setReq (f i) b
  | .neg i => .neg (f i)
  | .bin op i j => .bin op (f i) (f j)
  | .scal op i c => .scal op (f i) c
  | .dot i j => .dot (f i) (f j)
  | .matmul i j => .matmul (f i) (f j)
  | .bmm i j => .bmm (f i) (f j)
  | .view op i => .view op (f i)
  | .into op shared i => .into op shared (f i)

/-- A command with its operands renumbered. -/
def Cmd.rename (f : Nat → Nat) : Cmd α → Cmd α
  | .op x => .op (x.rename f)
  | .backward y => .backward (f y)
  | .backwardWith y g => .backwardWith (f y) g
  | .zeroGradient i => .zeroGradient (f i)

/-- A call of `backward`, `backward_with` or `zero_gradient` on one of the first `n` tensors. -/
def Cmd.GradientCall (n : Nat) : Cmd α → Prop
  | .op _ => False
  | .backward y => y < n
  | .backwardWith y _ => y < n
  | .zeroGradient i => i < n

/-- The state with the tensor `t` put in at place `n`. -/
def RunState.insert (n : Nat) (t : Tensor α) (σ : RunState α) : RunState α := ⟨σ.env.insertIdx n t, σ.store⟩

theorem get_insert (n : Nat) (l : List (Tensor α)) (t : Tensor α) (i : Nat) : (l.insertIdx n t)[shiftPast n i]? = l[i]? := by
  unfold shiftPast
  rw [List.getElem?_insertIdx]
  by_cases h : i < n
  · rw [if_pos h, if_pos h]
  · rw [if_neg h, if_neg (by omega), if_neg (by omega)]; rfl

theorem getT_insert (n : Nat) (l : List (Tensor α)) (t : Tensor α) (i : Nat) : getT (l.insertIdx n t) (shiftPast n i) = getT l i := by
  unfold getT
  rw [get_insert]

theorem insert_push {n : Nat} {l : List (Tensor α)} (hn : n ≤ l.length) (t u : Tensor α) : l.insertIdx n t ++ [u] = (l ++ [u]).insertIdx n t := by
  induction l generalizing n with
  | nil => obtain rfl : n = 0 := Nat.le_zero.1 hn; rfl
  | cons x l ih =>
    cases n with
    | zero => rfl
    | succ n => exact congrArg (x :: ·) (ih (Nat.le_of_succ_le_succ hn))

theorem insert_set (n : Nat) (l : List (Tensor α)) (t u : Tensor α) (i : Nat) :
    (l.insertIdx n t).set (shiftPast n i) u = (l.set i u).insertIdx n t := by
  induction l generalizing n i with
  | nil => cases n <;> rfl
  | cons x l ih =>
    cases n with
    | zero => rfl
    | succ n =>
      cases i with
      | zero => rfl
      | succ i =>
        have e : shiftPast (n + 1) (i + 1) = shiftPast n i + 1 := by
          unfold shiftPast
          by_cases h : i < n
          · rw [if_pos h, if_pos (by omega)]
          · rw [if_neg h, if_neg (by omega)]
        rw [e]
        exact congrArg (x :: ·) (ih n i)

theorem insert_last (l : List (Tensor α)) (t : Tensor α) : l.insertIdx l.length t = l ++ [t] := by
  induction l with
  | nil => rfl
  | cons x l ih => exact congrArg (x :: ·) ih

theorem push_insert {n : Nat} {σ : RunState α} (hn : n ≤ σ.env.length) (t : Tensor α) (r : Res (Tensor α)) :
    (σ.insert n t).push r = (σ.push r).map (RunState.insert n t) := by
  cases r with
  | error e => rfl
  | ok u => exact congrArg (fun l => Except.ok (⟨l, σ.store⟩ : RunState α)) (insert_push hn t u)

theorem push_grows {σ τ : RunState α} {r : Res (Tensor α)} (h : σ.push r = .ok τ) : ∃ t, r = .ok t ∧ τ = ⟨σ.env ++ [t], σ.store⟩ := by
  cases r with
  | error e => cases h
  | ok t => exact ⟨t, rfl, (Except.ok.inj h).symm⟩

end

section any
variable {α : Type} [Add α] [Sub α] [Mul α] [Div α] [Neg α] [Zero α] [One α] [MulAdd α] [Build]

theorem exec_insert {n : Nat} {σ : RunState α} (hn : n ≤ σ.env.length) (t : Tensor α) (c : Cmd α) :
    (σ.insert n t).exec (c.rename (shiftPast n)) = (σ.exec c).map (RunState.insert n t) := by
  have hg : ∀ i, getT (σ.insert n t).env (shiftPast n i) = getT σ.env i := getT_insert n σ.env t
  have hw : ∀ r, (σ.insert n t).withStore r = (σ.withStore r).map (RunState.insert n t) := fun r => by cases r <;> rfl
  have one : ∀ (i : Nat) (f : Tensor α → Res (Tensor α)), (do let u ← getT σ.env i; (σ.insert n t).push (f u)) =
      Except.map (RunState.insert n t) (do let u ← getT σ.env i; σ.push (f u)) := fun i f => by
    cases getT σ.env i with
    | error e => rfl
    | ok u => exact push_insert hn t _
  have two : ∀ (i j : Nat) (f : Tensor α → Tensor α → Res (Tensor α)), (do let u ← getT σ.env i; let v ← getT σ.env j; (σ.insert n t).push (f u v)) =
      Except.map (RunState.insert n t) (do let u ← getT σ.env i; let v ← getT σ.env j; σ.push (f u v)) := fun i j f => by
    cases getT σ.env i with
    | error e => rfl
    | ok u =>
      cases getT σ.env j with
      | error e => rfl
      | ok v => exact push_insert hn t _
  have st : ∀ (i : Nat) (f : Tensor α → Res (Store α)), (do let u ← getT σ.env i; (σ.insert n t).withStore (f u)) =
      Except.map (RunState.insert n t) (do let u ← getT σ.env i; σ.withStore (f u)) := fun i f => by
    cases getT σ.env i with
    | error e => rfl
    | ok u => exact hw _
  cases c with
  | op x =>
    show (σ.insert n t).step (x.rename (shiftPast n)) = (σ.step x).map _
    cases x with
    | leaf s d =>
      simp only [Instr.rename, RunState.step]
      cases assert (decide (d.length = numel s)) with
      | error e => rfl
      | ok u => exact push_insert hn t (.ok (Tensor.fromContiguousOwnedBuffer s d))
    | setReq i b =>
      simp only [Instr.rename, RunState.step, hg]
      cases getT σ.env i with
      | error e => rfl
      | ok u =>
        show (u.setRequiresGrad b σ.store >>= _) = Except.map _ (u.setRequiresGrad b σ.store >>= _)
        cases u.setRequiresGrad b σ.store with
        | error e => rfl
        | ok r => exact congrArg (fun l => Except.ok (⟨l, r.2⟩ : RunState α)) (insert_set n σ.env t r.1 i)
    | neg i => simp only [Instr.rename, RunState.step, hg]; exact one i _
    | bin op i j => simp only [Instr.rename, RunState.step, hg]; exact two i j _
    | scal op i c => simp only [Instr.rename, RunState.step, hg]; exact one i _
    | dot i j => simp only [Instr.rename, RunState.step, hg]; exact two i j _
    | matmul i j => simp only [Instr.rename, RunState.step, hg]; exact two i j _
    | bmm i j => simp only [Instr.rename, RunState.step, hg]; exact two i j _
    | view op i => simp only [Instr.rename, RunState.step, hg]; exact one i _
    | into op sh i => simp only [Instr.rename, RunState.step, hg]; exact one i _
  | backward y => simp only [Cmd.rename, RunState.exec, hg]; exact st y _
  | backwardWith y g => simp only [Cmd.rename, RunState.exec, hg]; exact st y _
  | zeroGradient i => simp only [Cmd.rename, RunState.exec, hg]; exact st i _

theorem step_adds {σ τ : RunState α} {x : Instr α} (hx : ∀ i b, x ≠ .setReq i b) (h : σ.step x = .ok τ) : ∃ t, τ = ⟨σ.env ++ [t], σ.store⟩ := by
  have one : ∀ (i : Nat) (f : Tensor α → Res (Tensor α)), (do let u ← getT σ.env i; σ.push (f u)) = .ok τ → ∃ t, τ = ⟨σ.env ++ [t], σ.store⟩ := fun i f h => by
    cases e : getT σ.env i with
    | error e' => rw [e] at h; cases h
    | ok u => rw [e] at h; obtain ⟨t, _, ht⟩ := push_grows h; exact ⟨t, ht⟩
  have two : ∀ (i j : Nat) (f : Tensor α → Tensor α → Res (Tensor α)), (do let u ← getT σ.env i; let v ← getT σ.env j; σ.push (f u v)) = .ok τ →
      ∃ t, τ = ⟨σ.env ++ [t], σ.store⟩ := fun i j f h => by
    cases e : getT σ.env i with
    | error e' => rw [e] at h; cases h
    | ok u => rw [e] at h; exact one j (f u) h
  cases x with
  | leaf s d =>
    simp only [RunState.step] at h
    cases e : assert (decide (d.length = numel s)) with
    | error e' => rw [e] at h; cases h
    | ok u =>
      rw [e] at h
      change σ.push (.ok (Tensor.fromContiguousOwnedBuffer s d)) = .ok τ at h
      obtain ⟨t, _, ht⟩ := push_grows h; exact ⟨t, ht⟩
  | setReq i b => exact absurd rfl (hx i b)
  | neg i => exact one i _ h
  | bin op i j => exact two i j _ h
  | scal op i c => exact one i _ h
  | dot i j => exact two i j _ h
  | matmul i j => exact two i j _ h
  | bmm i j => exact two i j _ h
  | view op i => exact one i _ h
  | into op sh i => exact one i _ h

theorem exec_length {σ τ : RunState α} {c : Cmd α} (h : σ.exec c = .ok τ) : σ.env.length ≤ τ.env.length := by
  have st : ∀ (i : Nat) (f : Tensor α → Res (Store α)), (do let u ← getT σ.env i; σ.withStore (f u)) = .ok τ → σ.env.length ≤ τ.env.length := fun i f h => by
    cases e : getT σ.env i with
    | error e' => rw [e] at h; cases h
    | ok u =>
      rw [e] at h
      change σ.withStore (f u) = .ok τ at h
      cases e' : f u with
      | error _ => rw [e'] at h; cases h
      | ok v => rw [e'] at h; rw [← Except.ok.inj h]
  cases c with
  | op x =>
    by_cases hx : ∀ i b, x ≠ .setReq i b
    · obtain ⟨t, rfl⟩ := step_adds hx h
      simp
    · simp only [not_forall, not_not] at hx
      obtain ⟨i, b, rfl⟩ := hx
      simp only [RunState.exec, RunState.step] at h
      cases e : getT σ.env i with
      | error e' => rw [e] at h; cases h
      | ok u =>
        rw [e] at h
        change (u.setRequiresGrad b σ.store >>= _) = .ok τ at h
        cases e' : u.setRequiresGrad b σ.store with
        | error _ => rw [e'] at h; cases h
        | ok r => rw [e'] at h; rw [← Except.ok.inj h]; simp
  | backward y => exact st y _ h
  | backwardWith y g => exact st y _ h
  | zeroGradient i => exact st i _ h

theorem run_insert {n : Nat} {σ : RunState α} (hn : n ≤ σ.env.length) (t : Tensor α) (d : List (Cmd α)) :
    (d.map (Cmd.rename (shiftPast n))).foldlM RunState.exec (σ.insert n t) = (d.foldlM RunState.exec σ).map (RunState.insert n t) := by
  induction d generalizing σ with
  | nil => rfl
  | cons c d ih =>
    rw [List.map_cons, List.foldlM_cons, List.foldlM_cons, exec_insert hn t c]
    cases e : σ.exec c with
    | error e => rfl
    | ok τ => exact ih (Nat.le_trans hn (exec_length e))

/-- **C101.** A session with a further operation somewhere, and the same session without it (later tensors then have numbers less by one): if the operation itself
does not panic, the two sessions end alike, with the same tensors but for the additional one, the same gradient functions and the same accumulators, to the last bit. -/
theorem C101_unused {c d : List (Cmd α)} {x : Instr α} (hx : ∀ i b, x ≠ .setReq i b) {σ σ' : RunState α} (hc : runSession c = .ok σ)
    (hs : runSession (c ++ [.op x]) = .ok σ') :
    ∃ t, σ'.env = σ.env ++ [t] ∧
      runSession (c ++ .op x :: d.map (Cmd.rename (shiftPast σ.env.length))) = (runSession (c ++ d)).map (RunState.insert σ.env.length t) := by
  unfold runSession at *
  rw [List.foldlM_append, hc] at hs
  have hs' : σ.step x = .ok σ' := by
    have : (σ.exec (.op x) >>= fun s => pure s) = .ok σ' := hs
    rwa [bind_pure] at this
  obtain ⟨t, rfl⟩ := step_adds hx hs'
  refine ⟨t, rfl, ?_⟩
  rw [List.foldlM_append, List.foldlM_append, hc]
  show (σ.step x >>= fun s => List.foldlM RunState.exec s _) = Except.map _ (List.foldlM RunState.exec σ d)
  rw [hs', ← run_insert (Nat.le_refl _) t d]
  show List.foldlM _ (⟨σ.env ++ [t], σ.store⟩ : RunState α) _ = List.foldlM _ (⟨σ.env.insertIdx σ.env.length t, σ.store⟩ : RunState α) _
  rw [insert_last]

/-- **C101.** In particular every tensor of the session without the operation is there in the session with it, with the same gradient. -/
theorem C101_gradients {c d : List (Cmd α)} {x : Instr α} (hx : ∀ i b, x ≠ .setReq i b) {σ σ' τ : RunState α} (hc : runSession c = .ok σ)
    (hs : runSession (c ++ [.op x]) = .ok σ') (hd : runSession (c ++ d) = .ok τ) :
    ∃ τ', runSession (c ++ .op x :: d.map (Cmd.rename (shiftPast σ.env.length))) = .ok τ' ∧
      ∀ i t, τ.env[i]? = some t → τ'.env[shiftPast σ.env.length i]? = some t ∧ t.gradient τ'.store = t.gradient τ.store := by
  obtain ⟨u, _, h⟩ := C101_unused (d := d) hx hc hs
  rw [hd] at h
  exact ⟨_, h, fun i t ht => ⟨(get_insert _ _ _ _).trans ht, rfl⟩⟩

/-- Operations and a gradient call on a tensor that is there already can change places. -/
theorem exec_swap {σ : RunState α} {x : Instr α} (hx : ∀ i b, x ≠ .setReq i b) {b : Cmd α} (hb : b.GradientCall σ.env.length) (τ : RunState α) :
    (σ.exec (.op x) >>= fun s => s.exec b) = .ok τ ↔ (σ.exec b >>= fun s => s.exec (.op x)) = .ok τ := by
  -- a gradient call only changes the accumulators
  have call : ∃ r : Res (Store α), σ.exec b = σ.withStore r ∧ ∀ t, (⟨σ.env ++ [t], σ.store⟩ : RunState α).exec b = (⟨σ.env ++ [t], σ.store⟩ : RunState α).withStore r := by
    have old : ∀ {i : Nat}, i < σ.env.length → ∃ u, getT σ.env i = .ok u ∧ ∀ t, getT (σ.env ++ [t]) i = .ok u := fun {i} hi => by
      refine ⟨σ.env[i], ?_, fun t => ?_⟩
      · unfold getT; rw [List.getElem?_eq_getElem hi]
      · unfold getT; rw [List.getElem?_append_left hi, List.getElem?_eq_getElem hi]
    cases b with
    | op x => cases hb
    | backward y =>
      obtain ⟨u, h1, h2⟩ := old (show y < _ from hb)
      exact ⟨u.backward σ.store, by simp only [RunState.exec, h1]; rfl, fun t => by simp only [RunState.exec, h2]; rfl⟩
    | backwardWith y g =>
      obtain ⟨u, h1, h2⟩ := old (show y < _ from hb)
      exact ⟨u.backwardWith ⟨g, .none⟩ σ.store, by simp only [RunState.exec, h1]; rfl, fun t => by simp only [RunState.exec, h2]; rfl⟩
    | zeroGradient y =>
      obtain ⟨u, h1, h2⟩ := old (show y < _ from hb)
      exact ⟨u.zeroGradient σ.store, by simp only [RunState.exec, h1]; rfl, fun t => by simp only [RunState.exec, h2]; rfl⟩
  -- an operation does not look at them
  have op : ∀ st : Store α, (⟨σ.env, st⟩ : RunState α).exec (.op x) = (σ.exec (.op x)).map fun s => ⟨s.env, st⟩ := fun st => by
    have one : ∀ (i : Nat) (f : Tensor α → Res (Tensor α)), (do let u ← getT σ.env i; (⟨σ.env, st⟩ : RunState α).push (f u)) =
        Except.map (fun s => ⟨s.env, st⟩) (do let u ← getT σ.env i; σ.push (f u)) := fun i f => by
      cases getT σ.env i with
      | error e => rfl
      | ok u =>
        show (⟨σ.env, st⟩ : RunState α).push (f u) = Except.map _ (σ.push (f u))
        cases f u <;> rfl
    have two : ∀ (i j : Nat) (f : Tensor α → Tensor α → Res (Tensor α)), (do let u ← getT σ.env i; let v ← getT σ.env j; (⟨σ.env, st⟩ : RunState α).push (f u v)) =
        Except.map (fun s => ⟨s.env, st⟩) (do let u ← getT σ.env i; let v ← getT σ.env j; σ.push (f u v)) := fun i j f => by
      cases getT σ.env i with
      | error e => rfl
      | ok u => exact one j (f u)
    cases x with
    | leaf s d =>
      simp only [RunState.exec, RunState.step]
      cases assert (decide (d.length = numel s)) <;> rfl
    | setReq i b => exact absurd rfl (hx i b)
    | neg i => exact one i _
    | bin op i j => exact two i j _
    | scal op i c => exact one i _
    | dot i j => exact two i j _
    | matmul i j => exact two i j _
    | bmm i j => exact two i j _
    | view op i => exact one i _
    | into op sh i => exact one i _
  obtain ⟨r, h1, h2⟩ := call
  rw [h1]
  cases e : σ.exec (.op x) with
  | error e' =>
    cases r with
    | error e'' => exact ⟨fun h => (by cases h), fun h => (by cases h)⟩
    | ok st =>
      show _ ↔ (⟨σ.env, st⟩ : RunState α).exec (.op x) = .ok τ
      rw [op, e]
      exact ⟨fun h => (by cases h), fun h => (by cases h)⟩
  | ok s =>
    obtain ⟨t, rfl⟩ := step_adds hx e
    show (⟨σ.env ++ [t], σ.store⟩ : RunState α).exec b = .ok τ ↔ _
    rw [h2]
    cases r with
    | error e'' => exact ⟨fun h => (by cases h), fun h => (by cases h)⟩
    | ok st =>
      show _ ↔ (⟨σ.env, st⟩ : RunState α).exec (.op x) = .ok τ
      rw [op, e]
      exact Iff.rfl

omit [Add α] [Sub α] [Mul α] [Div α] [Neg α] [Zero α] [One α] [MulAdd α] [Build] in
theorem gradientCall_mono {b : Cmd α} {m n : Nat} (h : m ≤ n) (hb : b.GradientCall m) : b.GradientCall n := by
  cases b with
  | op x => exact hb
  | backward y => exact Nat.lt_of_lt_of_le hb h
  | backwardWith y g => exact Nat.lt_of_lt_of_le hb h
  | zeroGradient i => exact Nat.lt_of_lt_of_le hb h

theorem ops_swap {σ : RunState α} {r : List (Instr α)} (hr : ∀ x ∈ r, ∀ i b, x ≠ .setReq i b) {b : Cmd α} (hb : b.GradientCall σ.env.length) (τ : RunState α) :
    ((r.map Cmd.op ++ [b]).foldlM RunState.exec σ = .ok τ) ↔ ((b :: r.map Cmd.op).foldlM RunState.exec σ = .ok τ) := by
  induction r generalizing σ with
  | nil => exact Iff.rfl
  | cons x r ih =>
    have hx := hr x (by simp)
    rw [List.map_cons, List.cons_append, List.foldlM_cons, List.foldlM_cons, bind_eq_ok, bind_eq_ok]
    constructor
    · rintro ⟨s, h1, h2⟩
      have := (ih (fun y hy => hr y (by simp [hy])) (gradientCall_mono (exec_length h1) hb)).1 h2
      rw [List.foldlM_cons, bind_eq_ok] at this
      obtain ⟨s', h3, h4⟩ := this
      obtain ⟨s'', h5, h6⟩ := bind_eq_ok.1 ((exec_swap hx hb s').1 (bind_eq_ok.2 ⟨s, h1, h3⟩))
      exact ⟨s'', h5, by rw [List.foldlM_cons, bind_eq_ok]; exact ⟨s', h6, h4⟩⟩
    · rintro ⟨s, h1, h2⟩
      rw [List.foldlM_cons, bind_eq_ok] at h2
      obtain ⟨s', h3, h4⟩ := h2
      obtain ⟨s'', h5, h6⟩ := bind_eq_ok.1 ((exec_swap hx hb s').2 (bind_eq_ok.2 ⟨s, h1, h3⟩))
      refine ⟨s'', h5, (ih (fun y hy => hr y (by simp [hy])) (gradientCall_mono (exec_length h5) hb)).2 ?_⟩
      rw [List.foldlM_cons, bind_eq_ok]
      exact ⟨s', h6, h4⟩

/-- **C101.** It does not matter whether `backward`, `backward_with` or `zero_gradient` is called at once or after further operations: both sessions reach the same
state, or neither completes. -/
theorem C101_postpone {c d : List (Cmd α)} {r : List (Instr α)} (hr : ∀ x ∈ r, ∀ i b, x ≠ .setReq i b) {b : Cmd α} {σ : RunState α} (hc : runSession c = .ok σ)
    (hb : b.GradientCall σ.env.length) (τ : RunState α) :
    runSession (c ++ r.map Cmd.op ++ b :: d) = .ok τ ↔ runSession (c ++ b :: r.map Cmd.op ++ d) = .ok τ := by
  rw [show c ++ r.map Cmd.op ++ b :: d = c ++ ((r.map Cmd.op ++ [b]) ++ d) by simp, show c ++ b :: r.map Cmd.op ++ d = c ++ ((b :: r.map Cmd.op) ++ d) by simp]
  unfold runSession at *
  rw [List.foldlM_append, hc, List.foldlM_append, hc]
  show List.foldlM RunState.exec σ _ = _ ↔ List.foldlM RunState.exec σ _ = _
  rw [List.foldlM_append (l := r.map Cmd.op ++ [b]), List.foldlM_append (l := b :: r.map Cmd.op), bind_eq_ok, bind_eq_ok]
  exact exists_congr fun s => and_congr_left fun _ => ops_swap hr hb s

/-- The numbers `n` and `n + 1` exchanged. -/
def swapNext (n i : Nat) : Nat := if i = n then n + 1 else if i = n + 1 then n else i

/-- The states are the same but for the numbers of the tensors. -/
structure Renamed (f : Nat → Nat) (σ σ' : RunState α) : Prop where
  store : σ'.store = σ.store
  get : ∀ i, σ'.env[f i]? = σ.env[i]?
  inj : ∀ i j, f i = f j → i = j
  next : ∀ k, f (σ.env.length + k) = σ'.env.length + k

omit [Add α] [Sub α] [Mul α] [Div α] [Neg α] [Zero α] [One α] [MulAdd α] [Build] in
theorem Renamed.push {f : Nat → Nat} {σ σ' : RunState α} (h : Renamed f σ σ') (t : Tensor α) :
    Renamed f ⟨σ.env ++ [t], σ.store⟩ ⟨σ'.env ++ [t], σ'.store⟩ where
  store := h.store
  inj := h.inj
  next := fun k => by
    rw [List.length_append, List.length_append, List.length_singleton, Nat.add_assoc, Nat.add_assoc]
    exact h.next (1 + k)
  get := fun i => by
    have h0 : f σ.env.length = σ'.env.length := h.next 0
    show (σ'.env ++ [t])[f i]? = (σ.env ++ [t])[i]?
    by_cases hi : i < σ.env.length
    · have := h.get i
      rw [List.getElem?_eq_getElem hi] at this
      rw [List.getElem?_append_left (List.getElem?_eq_some_iff.1 this).1, List.getElem?_append_left hi, List.getElem?_eq_getElem hi, this]
    · obtain ⟨k, rfl⟩ := Nat.exists_eq_add_of_le (Nat.le_of_not_lt hi)
      rw [h.next k, List.getElem?_append_right (by omega), List.getElem?_append_right (by omega)]
      congr 1; omega

theorem exec_renamed {f : Nat → Nat} {σ σ' τ : RunState α} (h : Renamed f σ σ') {c : Cmd α} (hc : σ.exec c = .ok τ) :
    ∃ τ', σ'.exec (c.rename f) = .ok τ' ∧ Renamed f τ τ' := by
  have hg : ∀ i, getT σ'.env (f i) = getT σ.env i := fun i => by unfold getT; rw [h.get i]
  have push : ∀ r : Res (Tensor α), σ.push r = .ok τ → ∃ τ', σ'.push r = .ok τ' ∧ Renamed f τ τ' := fun r hr => by
    obtain ⟨t, rfl, rfl⟩ := push_grows hr
    exact ⟨_, rfl, h.push t⟩
  have one : ∀ (i : Nat) (k : Tensor α → Res (Tensor α)), (do let u ← getT σ.env i; σ.push (k u)) = .ok τ →
      ∃ τ', (do let u ← getT σ.env i; σ'.push (k u)) = .ok τ' ∧ Renamed f τ τ' := fun i k hk => by
    obtain ⟨u, e, hk⟩ := bind_eq_ok.1 hk
    obtain ⟨τ', h1, h2⟩ := push _ hk
    exact ⟨τ', bind_eq_ok.2 ⟨u, e, h1⟩, h2⟩
  have two : ∀ (i j : Nat) (k : Tensor α → Tensor α → Res (Tensor α)), (do let u ← getT σ.env i; let v ← getT σ.env j; σ.push (k u v)) = .ok τ →
      ∃ τ', (do let u ← getT σ.env i; let v ← getT σ.env j; σ'.push (k u v)) = .ok τ' ∧ Renamed f τ τ' := fun i j k hk => by
    obtain ⟨u, e, hk⟩ := bind_eq_ok.1 hk
    obtain ⟨τ', h1, h2⟩ := one j (k u) hk
    exact ⟨τ', bind_eq_ok.2 ⟨u, e, h1⟩, h2⟩
  have st : ∀ (i : Nat) (k : Tensor α → Res (Store α)), (do let u ← getT σ.env i; σ.withStore (k u)) = .ok τ →
      ∃ τ', (do let u ← getT σ.env i; σ'.withStore (k u)) = .ok τ' ∧ Renamed f τ τ' := fun i k hk => by
    obtain ⟨u, e, hk⟩ := bind_eq_ok.1 hk
    obtain ⟨s, e', hk⟩ := bind_eq_ok.1 hk
    obtain rfl := Except.ok.inj hk
    exact ⟨⟨σ'.env, s⟩, bind_eq_ok.2 ⟨u, e, bind_eq_ok.2 ⟨s, e', rfl⟩⟩, rfl, h.get, h.inj, h.next⟩
  cases c with
  | op x =>
    change σ.step x = .ok τ at hc
    show ∃ τ', σ'.step (x.rename f) = .ok τ' ∧ _
    cases x with
    | leaf s d =>
      simp only [Instr.rename, RunState.step] at hc ⊢
      obtain ⟨u, e, hk⟩ := bind_eq_ok.1 hc
      obtain ⟨τ', h1, h2⟩ := push _ hk
      exact ⟨τ', bind_eq_ok.2 ⟨u, e, h1⟩, h2⟩
    | setReq i b =>
      simp only [Instr.rename, RunState.step, hg, h.store] at hc ⊢
      obtain ⟨u, e, hk⟩ := bind_eq_ok.1 hc
      obtain ⟨r, e', hk⟩ := bind_eq_ok.1 hk
      obtain rfl := Except.ok.inj hk
      refine ⟨⟨σ'.env.set (f i) r.1, r.2⟩, bind_eq_ok.2 ⟨u, e, bind_eq_ok.2 ⟨r, e', rfl⟩⟩, rfl, fun j => ?_, h.inj, fun k => ?_⟩
      · show (σ'.env.set (f i) r.1)[f j]? = (σ.env.set i r.1)[j]?
        have hl : f i < σ'.env.length ↔ i < σ.env.length := by
          rw [← not_iff_not, Nat.not_lt, Nat.not_lt, ← List.getElem?_eq_none_iff, ← List.getElem?_eq_none_iff, h.get i]
        rw [List.getElem?_set, List.getElem?_set, h.get j]
        by_cases hij : i = j
        · subst hij
          rw [if_pos rfl, if_pos rfl]
          by_cases hi : i < σ.env.length
          · rw [if_pos hi, if_pos (hl.2 hi)]
          · rw [if_neg hi, if_neg fun hh => hi (hl.1 hh)]
        · rw [if_neg hij, if_neg fun hh => hij (h.inj i j hh)]
      · simpa using h.next k
    | neg i => simp only [Instr.rename, RunState.step, hg] at hc ⊢; exact one i _ hc
    | bin op i j => simp only [Instr.rename, RunState.step, hg] at hc ⊢; exact two i j _ hc
    | scal op i c => simp only [Instr.rename, RunState.step, hg] at hc ⊢; exact one i _ hc
    | dot i j => simp only [Instr.rename, RunState.step, hg] at hc ⊢; exact two i j _ hc
    | matmul i j => simp only [Instr.rename, RunState.step, hg] at hc ⊢; exact two i j _ hc
    | bmm i j => simp only [Instr.rename, RunState.step, hg] at hc ⊢; exact two i j _ hc
    | view op i => simp only [Instr.rename, RunState.step, hg] at hc ⊢; exact one i _ hc
    | into op sh i => simp only [Instr.rename, RunState.step, hg] at hc ⊢; exact one i _ hc
  | backward y => simp only [Cmd.rename, RunState.exec, hg, h.store] at hc ⊢; exact st y _ hc
  | backwardWith y g => simp only [Cmd.rename, RunState.exec, hg, h.store] at hc ⊢; exact st y _ hc
  | zeroGradient i => simp only [Cmd.rename, RunState.exec, hg, h.store] at hc ⊢; exact st i _ hc

theorem run_renamed {f : Nat → Nat} {σ σ' τ : RunState α} (h : Renamed f σ σ') {d : List (Cmd α)} (hd : d.foldlM RunState.exec σ = .ok τ) :
    ∃ τ', (d.map (Cmd.rename f)).foldlM RunState.exec σ' = .ok τ' ∧ Renamed f τ τ' := by
  induction d generalizing σ σ' with
  | nil => obtain rfl := Except.ok.inj hd; exact ⟨σ', rfl, h⟩
  | cons c d ih =>
    rw [List.foldlM_cons] at hd
    obtain ⟨s, h1, h2⟩ := bind_eq_ok.1 hd
    obtain ⟨s', h3, h4⟩ := exec_renamed h h1
    obtain ⟨τ', h5, h6⟩ := ih h4 h2
    exact ⟨τ', by rw [List.map_cons, List.foldlM_cons]; exact bind_eq_ok.2 ⟨s', h3, h5⟩, h6⟩

/-- **C101.** Two operations neither of which uses the result of the other can be done in either order: whatever follows, the tensors are the same but for the numbers
of these two, and so are all gradients, to the last bit. -/
theorem C101_swap {c d : List (Cmd α)} {x y : Instr α} (hx : ∀ i b, x ≠ .setReq i b) (hy : ∀ i b, y ≠ .setReq i b) {σ σ₁ σ₂ τ : RunState α}
    (hc : runSession c = .ok σ) (h₁ : runSession (c ++ [.op x]) = .ok σ₁) (h₂ : runSession (c ++ [.op y]) = .ok σ₂)
    (hd : runSession (c ++ .op x :: .op (y.rename (shiftPast σ.env.length)) :: d) = .ok τ) :
    ∃ τ', runSession (c ++ .op y :: .op (x.rename (shiftPast σ.env.length)) :: d.map (Cmd.rename (swapNext σ.env.length))) = .ok τ' ∧
      ∀ i t, τ.env[i]? = some t → τ'.env[swapNext σ.env.length i]? = some t ∧ t.gradient τ'.store = t.gradient τ.store := by
  obtain ⟨t, e1, r1⟩ := C101_unused (d := [.op y]) hx hc h₁
  obtain ⟨u, e2, r2⟩ := C101_unused (d := [.op x]) hy hc h₂
  have f1 : σ₁ = ⟨σ.env ++ [t], σ.store⟩ := by
    have := h₁
    unfold runSession at this hc
    rw [List.foldlM_append, hc] at this
    have h' : σ.step x = .ok σ₁ := by
      have : (σ.exec (.op x) >>= fun s => pure s) = .ok σ₁ := this
      rwa [bind_pure] at this
    obtain ⟨t', rfl⟩ := step_adds hx h'
    rw [show t' = t by simpa using e1]
  have f2 : σ₂ = ⟨σ.env ++ [u], σ.store⟩ := by
    have := h₂
    unfold runSession at this hc
    rw [List.foldlM_append, hc] at this
    have h' : σ.step y = .ok σ₂ := by
      have : (σ.exec (.op y) >>= fun s => pure s) = .ok σ₂ := this
      rwa [bind_pure] at this
    obtain ⟨t', rfl⟩ := step_adds hy h'
    rw [show t' = u by simpa using e2]
  rw [h₂, f2] at r1
  rw [h₁, f1] at r2
  have g1 : RunState.insert σ.env.length t ⟨σ.env ++ [u], σ.store⟩ = ⟨σ.env ++ [t] ++ [u], σ.store⟩ := by
    unfold RunState.insert
    rw [← insert_push (Nat.le_refl _), insert_last]
  have g2 : RunState.insert σ.env.length u ⟨σ.env ++ [t], σ.store⟩ = ⟨σ.env ++ [u] ++ [t], σ.store⟩ := by
    unfold RunState.insert
    rw [← insert_push (Nat.le_refl _), insert_last]
  have r1' : runSession (c ++ [.op x, .op (y.rename (shiftPast σ.env.length))]) = .ok ⟨σ.env ++ [t] ++ [u], σ.store⟩ := r1.trans (congrArg Except.ok g1)
  have r2' : runSession (c ++ [.op y, .op (x.rename (shiftPast σ.env.length))]) = .ok ⟨σ.env ++ [u] ++ [t], σ.store⟩ := r2.trans (congrArg Except.ok g2)
  have ren : Renamed (swapNext σ.env.length) (⟨σ.env ++ [t] ++ [u], σ.store⟩ : RunState α) ⟨σ.env ++ [u] ++ [t], σ.store⟩ := by
    refine ⟨rfl, fun i => ?_, fun i j hij => ?_, fun k => ?_⟩
    · show (σ.env ++ [u] ++ [t])[swapNext σ.env.length i]? = (σ.env ++ [t] ++ [u])[i]?
      unfold swapNext
      by_cases h1 : i = σ.env.length
      · subst h1; simp
      · by_cases h2 : i = σ.env.length + 1
        · subst h2; simp
        · rw [if_neg h1, if_neg h2, List.append_assoc, List.append_assoc]
          by_cases h3 : i < σ.env.length
          · rw [List.getElem?_append_left h3, List.getElem?_append_left h3]
          · rw [List.getElem?_eq_none (by simp; omega), List.getElem?_eq_none (by simp; omega)]
    · unfold swapNext at hij; split at hij <;> split at hij <;> (try split at hij) <;> (try split at hij) <;> omega
    · simp only [List.length_append, List.length_singleton]
      unfold swapNext
      rw [if_neg (by omega), if_neg (by omega)]
  have split3 : ∀ (a b : Cmd α) (d : List (Cmd α)), c ++ a :: b :: d = (c ++ [a, b]) ++ d := fun a b d => by simp
  rw [split3] at hd ⊢
  unfold runSession at *
  rw [List.foldlM_append, r1'] at hd
  rw [List.foldlM_append, r2']
  obtain ⟨τ', h3, h4⟩ := run_renamed ren hd
  exact ⟨τ', h3, fun i t ht => ⟨(h4.get i).trans ht, by rw [h4.store]⟩⟩

end any

/-- A loss is computed and differentiated; on the way, or in between, something else is computed. -/
example [Build] : ∃ σ σ' τ : RunState ℚ, runSession [.op (.leaf [2] [1, 2]), .op (.setReq 0 true)] = .ok σ ∧
    runSession ([.op (.leaf [2] [1, 2]), .op (.setReq 0 true)] ++ [.op (.neg 0)]) = .ok σ' ∧
    runSession ([.op (.leaf [2] [1, 2]), .op (.setReq 0 true)] ++ [.op (.bin .mul 0 0), .backward 1]) = .ok τ ∧
    (Cmd.rename (shiftPast σ.env.length) (.op (.bin .mul 0 0)) : Cmd ℚ) = .op (.bin .mul 0 0) ∧ (Cmd.rename (shiftPast σ.env.length) (.backward 1) : Cmd ℚ) = .backward 2 ∧
    (Cmd.backward 0 : Cmd ℚ).GradientCall σ.env.length ∧
    (∃ τ' : RunState ℚ, runSession ([.op (.leaf [2] [1, 2]), .op (.setReq 0 true)] ++ .op (.neg 0) :: .op (Instr.rename (shiftPast σ.env.length) (.bin .mul 0 0)) ::
      [.backward 2]) = .ok τ') := by
  have hc := BroadcastsTo.refl [2]
  have h0 : WellShaped [] [] ([.leaf [2] [1, 2], .setReq 0 true] ++ program [] : List (Instr ℚ)) [[2]] :=
    ⟨[2], ⟨rfl, rfl⟩, by simp, by simp, rfl, [2], rfl, by simp, by simp, rfl, rfl⟩
  have h1 : WellShaped [] [] ([.leaf [2] [1, 2], .setReq 0 true] ++ program [.op (.neg 0)] : List (Instr ℚ)) [[2], [2]] :=
    ⟨[2], ⟨rfl, rfl⟩, by simp, by simp, rfl, [2], rfl, by simp, by simp, rfl, [2], rfl, by simp, by simp, rfl, rfl⟩
  have h2 : WellShaped [] [] ([.leaf [2] [1, 2], .setReq 0 true] ++ program [.op (.bin .mul 0 0), .backward 1] : List (Instr ℚ)) [[2], [2]] :=
    ⟨[2], ⟨rfl, rfl⟩, by simp, by simp, rfl, [2], rfl, by simp, by simp, rfl, [2], ⟨[2], [2], rfl, rfl, hc.compatible, hc.joint⟩, by simp, by simp, rfl, rfl⟩
  obtain ⟨σ, a1, a2⟩ | a := (C91_any h0 trivial).2
  · obtain ⟨σ', b1⟩ := (C91_any h1 ⟨(by intro _ _ h; cases h), trivial⟩).1.2 (by simp [Cmd.passes])
    obtain ⟨τ, d1⟩ := (C91_any h2 ⟨(by intro _ _ h; cases h), by decide, trivial⟩).1.2 (by
      simp [Cmd.passes, Passes, Instr.flow, Flow.takes, Flow.receives, KeepsAxis, evenStrides, rowStrides, numel, program, Cmd.instr, List.filterMap_cons,
        List.filterMap_nil])
    have hl : σ.env.length = 1 := by have := congrArg List.length a2; simpa using this
    refine ⟨σ, σ', τ, a1, b1, d1, ?_⟩
    rw [hl]
    refine ⟨rfl, rfl, Nat.zero_lt_one, ?_⟩
    obtain ⟨τ', d2, _⟩ := C101_gradients (x := .neg 0) (by intro _ _ h; cases h) a1 b1 d1
    rw [hl] at d2
    exact ⟨τ', d2⟩
  · obtain ⟨σ, b1⟩ := (C91_any h0 trivial).1.2 (by simp)
    rw [b1] at a; cases a

end Verif
