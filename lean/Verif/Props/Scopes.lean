import Verif.Props.Ownership
import Verif.Props.TensorMemoryExact

/-!
# C94: a scope gives back the memory it took

Full statement: if the tensors that a program holds after some operations (constructors, arithmetic, products,
borrowing views, `set_requires_grad`, `backward`, drops) are those it held before, then the buffers of elements
that are allocated after are those that were allocated before; so a loop whose iterations drop what they make
does not accumulate memory, whatever graphs it builds and whatever its gradient functions keep.

It holds for operations that change shapes by borrowing only (`C94_scope`, `C94_loop`), and fails for the
consuming ones (`C94_false`, `C94_grows`): these forget the capacity. `C94_exact` says which buffers remain.

The buffers are those of the elements of tensors; the gradients and what `backward` allocates for itself are
not in this picture. What `backward` allocates to bring a gradient back to the shape of an operand that was
broadcast is looked at separately, in the model of C23 (`C94_reduce_gradient`): it is not given back either.
-/

namespace Verif.TMem

open State

/-- Buffer `p` takes up memory: it was allocated, with a capacity other than 0, and has not been freed. -/
def State.Live (s : State) (p : Nat) : Prop :=
  (∃ b, s.boxes[p]? = some b ∧ b.ptr = p ∧ b.cap ≠ 0) ∧ ¬ s.Freed p

/-- No tensor is reshaped, viewed or transposed by value. -/
def Borrowing (os : List Op) : Prop := ∀ i share, Op.consume i share ∉ os

/-- Buffers that were allocated with a capacity are numbered by the array that allocated them. -/
def State.Numbered (s : State) : Prop := ∀ (a : Nat) (b : Box), s.boxes[a]? = some b → b.cap ≠ 0 → b.ptr = a

/-- Every array with a capacity owns its buffer. -/
def State.Kept (s : State) : Prop := ∀ (a : Nat) (b : Box), s.boxes[a]? = some b → b.cap ≠ 0 → b.owned = true

theorem Numbered.add {s : State} (hK : s.Numbered) {b : Box} {rg : Bool} {g : Grad} {l : Option Nat}
    (hb : b.cap ≠ 0 → b.ptr = s.boxes.length) : (s.add b rg g l).Numbered := by
  intro a c h hc
  rw [add_eq] at h
  rcases getElem?_snoc.mp h with h | ⟨rfl, rfl⟩
  · exact hK a c h hc
  · exact hb hc

theorem Numbered.step {s s' : State} (hK : s.Numbered) {o : Op} (h : Step s o s') : s'.Numbered := by
  cases h with
  | leaf => exact Numbered.add hK fun _ => rfl
  | requireGradSame _ _ _ => exact hK
  | requireGrad _ _ _ => exact hK
  | unary _ => exact Numbered.add hK fun _ => rfl
  | binary _ _ => exact Numbered.add hK fun _ => rfl
  | view _ _ => exact Numbered.add hK fun h => absurd rfl h
  | @consumeSole i t b share _ _ hb _ =>
    refine Numbered.add (s := s.moveOut i t.array b) ?_ fun h => absurd rfl h
    intro a c hc hcap
    by_cases ha : a = t.array
    · subst ha
      have hlt := (List.getElem?_eq_some_iff.mp hb).1
      simp only [State.moveOut, List.getElem?_set, hlt, if_true, Option.some.injEq] at hc
      subst hc
      exact hK t.array b hb hcap
    · exact hK a c ((moveOut_box ha).symm.trans hc) hcap
  | consumeShared _ _ _ => exact Numbered.add (s := s.remove _) hK fun h => absurd rfl h
  | backward _ => exact hK
  | drop _ _ => exact hK

theorem Run.numbered {s t : State} {os : List Op} (h : Run s os t) (hK : s.Numbered) : t.Numbered := by
  induction h with
  | nil => exact hK
  | cons h _ ih => exact ih (Numbered.step hK h)

theorem Numbered.init : State.init.Numbered := fun a b h => by simp [State.init] at h

theorem Kept.init : State.init.Kept := fun a b h => by simp [State.init] at h

theorem Kept.add {s : State} (hK : s.Kept) {b : Box} {rg : Bool} {g : Grad} {l : Option Nat}
    (hb : b.cap ≠ 0 → b.owned = true) : (s.add b rg g l).Kept := by
  intro a c h hc
  rw [add_eq] at h
  rcases getElem?_snoc.mp h with h | ⟨rfl, rfl⟩
  · exact hK a c h hc
  · exact hb hc

theorem Kept.step {s s' : State} (hK : s.Kept) {o : Op} (ho : ∀ i share, o ≠ .consume i share) (h : Step s o s') :
    s'.Kept := by
  cases h with
  | leaf => exact Kept.add hK fun _ => rfl
  | requireGradSame _ _ _ => exact hK
  | requireGrad _ _ _ => exact hK
  | unary _ => exact Kept.add hK fun _ => rfl
  | binary _ _ => exact Kept.add hK fun _ => rfl
  | view _ _ => exact Kept.add hK fun h => absurd rfl h
  | consumeSole _ _ _ _ => exact absurd rfl (ho _ _)
  | consumeShared _ _ _ => exact absurd rfl (ho _ _)
  | backward _ => exact hK
  | drop _ _ => exact hK

theorem Borrowing.cons {o : Op} {os : List Op} (h : Borrowing (o :: os)) :
    (∀ i share, o ≠ .consume i share) ∧ Borrowing os :=
  ⟨fun i share he => h i share (by simp [he]), fun i share hm => h i share (by simp [hm])⟩

theorem Run.kept {s t : State} {os : List Op} (h : Run s os t) (hb : Borrowing os) (hK : s.Kept) : t.Kept := by
  induction h with
  | nil => exact hK
  | cons h _ ih => exact ih hb.cons.2 (Kept.step hK hb.cons.1 h)

theorem Run.append {s t u : State} {os os' : List Op} (h : Run s os t) (h' : Run t os' u) : Run s (os ++ os') u := by
  induction h with
  | nil => exact h'
  | cons h _ ih => exact .cons h (ih h')

/-- Gradient functions are only added. -/
theorem Step.nodes {s s' : State} {o : Op} (h : Step s o s') : ∃ ns, s'.nodes = s.nodes ++ ns := by
  have add : ∀ (t : State) (c : Box) (rg : Bool) (g : Grad) (l : Option Nat), t.nodes = s.nodes →
      ∃ ns, (t.add c rg g l).nodes = s.nodes ++ ns := by
    intro t c rg g l h
    rw [add_eq]
    exact ⟨newNodes rg g, by simp only [h]⟩
  cases h with
  | leaf => exact add _ _ _ _ _ rfl
  | requireGradSame _ _ _ => exact ⟨[], by simp⟩
  | requireGrad _ _ _ => exact ⟨_, rfl⟩
  | unary _ => exact add _ _ _ _ _ rfl
  | binary _ _ => exact add _ _ _ _ _ rfl
  | view _ _ => exact add _ _ _ _ _ rfl
  | consumeSole _ _ _ _ => exact add _ _ _ _ _ rfl
  | consumeShared _ _ _ => exact add _ _ _ _ _ rfl
  | backward _ => exact ⟨[], by simp⟩
  | drop _ _ => exact ⟨[], by simp [State.remove]⟩

theorem Run.nodes {s t : State} {os : List Op} (h : Run s os t) : ∃ ns, t.nodes = s.nodes ++ ns := by
  induction h with
  | nil => exact ⟨[], by simp⟩
  | cons h _ ih =>
    obtain ⟨ns, hns⟩ := h.nodes
    obtain ⟨ms, hms⟩ := ih
    exact ⟨ns ++ ms, by rw [hms, hns, List.append_assoc]⟩

/-- Without consuming operations arrays are only added. -/
theorem Step.boxes {s s' : State} {o : Op} (ho : ∀ i share, o ≠ .consume i share) (h : Step s o s') :
    ∃ bs, s'.boxes = s.boxes ++ bs := by
  have add : ∀ (c : Box) (rg : Bool) (g : Grad) (l : Option Nat), ∃ bs, (s.add c rg g l).boxes = s.boxes ++ bs := by
    intro c rg g l
    rw [add_eq]
    exact ⟨_, rfl⟩
  cases h with
  | leaf => exact add _ _ _ _
  | requireGradSame _ _ _ => exact ⟨[], by simp⟩
  | requireGrad _ _ _ => exact ⟨[], by simp⟩
  | unary _ => exact add _ _ _ _
  | binary _ _ => exact add _ _ _ _
  | view _ _ => exact add _ _ _ _
  | consumeSole _ _ _ _ => exact absurd rfl (ho _ _)
  | consumeShared _ _ _ => exact absurd rfl (ho _ _)
  | backward _ => exact ⟨[], by simp⟩
  | drop _ _ => exact ⟨[], by simp [State.remove]⟩

theorem Run.boxes {s t : State} {os : List Op} (hb : Borrowing os) (h : Run s os t) :
    ∃ bs, t.boxes = s.boxes ++ bs := by
  induction h with
  | nil => exact ⟨[], by simp⟩
  | cons h _ ih =>
    obtain ⟨ns, hns⟩ := h.boxes hb.cons.1
    obtain ⟨ms, hms⟩ := ih hb.cons.2
    exact ⟨ns ++ ms, by rw [hms, hns, List.append_assoc]⟩

/-- What the tensors that are left hold is what they held before. -/
theorem Held.back {s t : State} (hW : s.WF) {ns : List Node} (hn : t.nodes = s.nodes ++ ns)
    (hh : ∀ i u, t.Has i u → s.Has i u) {a : Nat} (h : t.Held a) : s.Held a := by
  rcases h with ⟨i, u, hu, rfl⟩ | ⟨i, u, n, nd, hu, hr, hnd, ha⟩
  · exact Or.inl ⟨i, u, hh i u hu, rfl⟩
  · have hu' := hh i u hu
    obtain ⟨hr', hlt⟩ := Reach.old hn hW.closed hr (hW.node i u hu')
    rw [hn, List.getElem?_append_left hlt] at hnd
    exact Or.inr ⟨i, u, n, nd, hu', hr', hnd, ha⟩

theorem Held.forth {s t : State} {ns : List Node} (hn : t.nodes = s.nodes ++ ns)
    (hh : ∀ i u, s.Has i u → t.Has i u) {a : Nat} (h : s.Held a) : t.Held a := by
  rcases h with ⟨i, u, hu, rfl⟩ | ⟨i, u, n, nd, hu, hr, hnd, ha⟩
  · exact Or.inl ⟨i, u, hh i u hu, rfl⟩
  · refine Or.inr ⟨i, u, n, nd, hh i u hu, Reach.mono hn hr, ?_, ha⟩
    rw [hn, List.getElem?_append_left (List.getElem?_eq_some_iff.mp hnd).1]
    exact hnd

/-- Which buffers take up memory, after any history: those whose array is held by a tensor or a gradient function
that the program can still reach, and those of tensors reshaped by value. -/
theorem C94_exact {os : List Op} {s : State} (h : Run State.init os s) (p : Nat) :
    s.Live p ↔ ∃ b, s.boxes[p]? = some b ∧ b.cap ≠ 0 ∧ (b.owned = true → s.Held p) := by
  have hN := h.numbered Numbered.init
  constructor
  · rintro ⟨⟨b, hb, hp, hc⟩, hf⟩
    exact ⟨b, hb, hc, fun ho => Classical.byContradiction fun hh => hf ⟨p, b, hb, hp, ho, hc, hh⟩⟩
  · rintro ⟨b, hb, hc, hh⟩
    refine ⟨⟨b, hb, hN p b hb hc, hc⟩, ?_⟩
    rintro ⟨a, c, hca, hcp, hco, hcc, hn⟩
    have hap : a = p := (hN a c hca hcc).symm.trans hcp
    subst hap
    obtain rfl : b = c := Option.some.inj (hb.symm.trans hca)
    exact hn (hh hco)

/-- If every tensor held after some operations was held before, so was every buffer that takes up memory: all that
was allocated meanwhile has been freed, whatever gradient functions kept it. -/
theorem C94_released {os os' : List Op} {s t : State} (h : Run State.init os s) (hb : Borrowing os)
    (h' : Run s os' t) (hb' : Borrowing os') (hh : ∀ i u, t.Has i u → s.Has i u) {p : Nat} (hp : t.Live p) :
    s.Live p := by
  have hW := h.wf WF.init
  obtain ⟨ns, hn⟩ := h'.nodes
  obtain ⟨bs, hbs⟩ := h'.boxes hb'
  obtain ⟨b, hbp, hc, hheld⟩ := (C94_exact (h.append h') p).mp hp
  have hK := h'.kept hb' (h.kept hb Kept.init)
  have hsp := Held.back hW hn hh (hheld (hK p b hbp hc))
  have hlt : p < s.boxes.length := by
    rcases hsp with ⟨i, u, hu, rfl⟩ | ⟨i, u, n, nd, hu, hr, hnd, ha⟩
    · exact hW.array i u hu
    · exact hW.captures n nd p hnd ha
  rw [hbs, List.getElem?_append_left hlt] at hbp
  exact (C94_exact h p).mpr ⟨b, hbp, hc, fun _ => hsp⟩

/-- Nothing that a tensor held throughout needs is freed. -/
theorem C94_retained {os os' : List Op} {s t : State} (h : Run State.init os s) (h' : Run s os' t) (hb' : Borrowing os') (hh : ∀ i u, s.Has i u → t.Has i u) {p : Nat} (hp : s.Live p) :
    t.Live p := by
  obtain ⟨ns, hn⟩ := h'.nodes
  obtain ⟨bs, hbs⟩ := h'.boxes hb'
  obtain ⟨b, hbp, hc, hheld⟩ := (C94_exact h p).mp hp
  refine (C94_exact (h.append h') p).mpr ⟨b, ?_, hc, fun ho => Held.forth hn hh (hheld ho)⟩
  rw [hbs, List.getElem?_append_left (List.getElem?_eq_some_iff.mp hbp).1]
  exact hbp

/-- A scope that changes shapes by borrowing only: if the program holds the same tensors after as before, the same
buffers take up memory. -/
theorem C94_scope {os os' : List Op} {s t : State} (h : Run State.init os s) (hb : Borrowing os)
    (h' : Run s os' t) (hb' : Borrowing os') (hh : ∀ i u, t.Has i u ↔ s.Has i u) (p : Nat) :
    t.Live p ↔ s.Live p :=
  ⟨C94_released h hb h' hb' fun i u => (hh i u).mp, C94_retained h h' hb' fun i u => (hh i u).mpr⟩

/-- A loop: any number of iterations, each of which drops what it makes, take up no more memory than none. -/
theorem C94_loop {os : List Op} {s : Nat → State} {body : Nat → List Op} (h : Run State.init os (s 0))
    (hb : Borrowing os) (h' : ∀ k, Run (s k) (body k) (s (k + 1))) (hb' : ∀ k, Borrowing (body k))
    (hh : ∀ k i u, (s (k + 1)).Has i u ↔ (s k).Has i u) (n p : Nat) : (s n).Live p ↔ (s 0).Live p := by
  have key : ∀ n, ∃ os', Run (s 0) os' (s n) ∧ Borrowing os' ∧ ∀ i u, (s n).Has i u ↔ (s 0).Has i u := by
    intro n
    induction n with
    | zero => exact ⟨[], .nil _, fun _ _ h => by simp at h, fun _ _ => Iff.rfl⟩
    | succ n ih =>
      obtain ⟨os', hr, hbo, hi⟩ := ih
      refine ⟨os' ++ body n, hr.append (h' n), fun i share hm => ?_, fun i u => (hh n i u).trans (hi i u)⟩
      rcases List.mem_append.mp hm with hm | hm
      · exact hbo i share hm
      · exact hb' n i share hm
  obtain ⟨os', hr, hbo, hi⟩ := key n
  exact C94_scope h hb hr hbo hi p

/-- When the program holds no tensor, no memory is taken up. -/
theorem C94_end {os : List Op} {s : State} (h : Run State.init os s) (hb : Borrowing os)
    (hh : ∀ i u, ¬ s.Has i u) (p : Nat) : ¬ s.Live p := by
  intro hp
  obtain ⟨⟨b, hbp, _⟩, _⟩ := C94_released (.nil State.init) (fun _ _ h => by simp at h) h hb
    (fun i u hu => absurd hu (hh i u)) hp
  simp [State.init] at hbp

/-! ## A loop that meets the hypotheses -/

/-- A parameter `x` and what is left of `n` iterations of `{ let y = &x * &x; y.backward() }`. -/
def squares (n : Nat) : State where
  boxes := (List.range (n + 1)).map (⟨·, 4, true⟩)
  nodes := [⟨[], []⟩, ⟨[], []⟩] ++ List.replicate n ⟨[0, 0], [1, 1]⟩
  tens := some ⟨0, 1, true, none⟩ :: List.replicate n none

theorem squares_start : Run State.init [.leaf 4, .requireGrad 0 true] (squares 0) := by
  refine .cons .leaf (.cons (.requireGrad (t := ⟨0, 0, false, none⟩) rfl ?_ (by simp)) (.nil _))
  rintro ⟨j, t, hj, hl⟩
  match j, hj with
  | 0, hj => cases hj; cases hl
  | j + 1, hj => simp [Has, State.add, State.init] at hj

theorem squares_has {n i : Nat} {u : Ten} : (squares n).Has i u ↔ i = 0 ∧ u = ⟨0, 1, true, none⟩ := by
  cases i with
  | zero => simp [Has, squares, eq_comm]
  | succ i => simp [Has, squares, List.getElem?_replicate]

theorem squares_body (n : Nat) :
    Run (squares n) [.binary 0 0 4 true, .backward (n + 1), .drop (n + 1)] (squares (n + 1)) := by
  have hs : (squares n).add ((squares n).own 4) true (.fresh ⟨[0, 0], [1, 1]⟩) none =
      { boxes := (List.range (n + 2)).map (⟨·, 4, true⟩)
        nodes := [⟨[], []⟩, ⟨[], []⟩] ++ List.replicate (n + 1) ⟨[0, 0], [1, 1]⟩
        tens := some ⟨0, 1, true, none⟩ :: (List.replicate n none ++ [some ⟨n + 1, n + 2, true, none⟩]) } := by
    simp [State.add, squares, State.own, List.range_succ, List.replicate_succ']
  have hhas : State.Has { boxes := (List.range (n + 2)).map (⟨·, 4, true⟩)
                          nodes := [⟨[], []⟩, ⟨[], []⟩] ++ List.replicate (n + 1) ⟨[0, 0], [1, 1]⟩
                          tens := some ⟨0, 1, true, none⟩ ::
                            (List.replicate n none ++ [some ⟨n + 1, n + 2, true, none⟩]) }
      (n + 1) ⟨n + 1, n + 2, true, none⟩ := by
    simp [Has]
  refine .cons (.binary (t := ⟨0, 1, true, none⟩) (u := ⟨0, 1, true, none⟩) rfl rfl) ?_
  simp only [Bool.or_self, if_true]
  rw [hs]
  refine .cons (.backward hhas) (.cons (.drop hhas ?_) ?_)
  · rintro ⟨j, t, hj, hl⟩
    cases j with
    | zero => cases hj; cases hl
    | succ j =>
      simp only [Has, List.getElem?_cons_succ, List.getElem?_append, List.getElem?_replicate, List.length_replicate] at hj
      split at hj
      · simp_all
      · rcases hm : j - n with _ | m
        · rw [hm] at hj; cases hj; cases hl
        · rw [hm] at hj; simp at hj
  · have : State.remove { boxes := (List.range (n + 2)).map (⟨·, 4, true⟩)
                          nodes := [⟨[], []⟩, ⟨[], []⟩] ++ List.replicate (n + 1) ⟨[0, 0], [1, 1]⟩
                          tens := some ⟨0, 1, true, none⟩ ::
                            (List.replicate n none ++ [some ⟨n + 1, n + 2, true, none⟩]) } (n + 1) = squares (n + 1) := by
      simp [State.remove, squares, List.replicate_succ']
    rw [this]
    exact .nil _

/-- Each iteration allocates a buffer that a gradient function could have kept; none remains. -/
example (n p : Nat) : (squares n).Live p ↔ (squares 0).Live p :=
  C94_loop squares_start (by intro i share h; simp at h) squares_body (by intro k i share h; simp at h)
    (fun k i u => squares_has.trans squares_has.symm) n p

/-- The parameter does take up memory, so `Live` is not empty. -/
example : (squares 0).Live 0 :=
  (C94_exact squares_start 0).mpr ⟨⟨0, 4, true⟩, rfl, by simp, fun _ => Or.inl ⟨0, _, rfl, rfl⟩⟩

/-! ## Consuming operations -/

/-- `{ let x = leaf; x.view(); }` -/
theorem consume_scope {s : State} (c : Nat) (hN : ∀ i u, ¬ s.Has i u) :
    ∃ t, Run s [.leaf c, .consume s.tens.length true, .drop (s.tens.length + 1)] t ∧
      t.boxes = s.boxes ++ [⟨s.boxes.length, c, false⟩, ⟨s.boxes.length, 0, true⟩] ∧
      t.tens = s.tens ++ [none, none] := by
  have none_lent : ∀ {s' : State} {i : Nat}, (∀ j t, s'.Has j t → t.lender = none) → ¬ s'.Borrowed i := by
    rintro s' i h ⟨j, t, hj, hl⟩
    rw [h j t hj] at hl
    cases hl
  have only : ∀ (l : List (Option Ten)) (k : Ten), (∀ (i : Nat) (u : Ten), l[i]? ≠ some (some u)) → ∀ (j : Nat) (t : Ten),
      (l ++ [some k])[j]? = some (some t) → j = l.length ∧ t = k := by
    intro l k hl j t hj
    rcases getElem?_snoc.mp hj with h | ⟨h, h'⟩
    · exact absurd h (hl j t)
    · exact ⟨h, Option.some.inj h'⟩
  obtain ⟨B, N, T⟩ := s
  have hT : ∀ (i : Nat) (u : Ten), T[i]? ≠ some (some u) := fun i u h => hN i u h
  have hset : ∀ x y : Option Ten, (T ++ [x]).set T.length y = T ++ [y] := fun x y => by simp
  have hT2 : ∀ (i : Nat) (u : Ten), (T ++ [none])[i]? ≠ some (some u) := by
    intro i u h
    rcases getElem?_snoc.mp h with h | ⟨_, h⟩
    · exact hT i u h
    · cases h
  have h1 : ∀ j t, State.Has ⟨B ++ [⟨B.length, c, true⟩], N ++ [⟨[], []⟩],
      T ++ [some ⟨B.length, N.length, false, none⟩]⟩ j t → j = T.length ∧ t = ⟨B.length, N.length, false, none⟩ :=
    fun j t h => only T _ hT j t h
  refine ⟨⟨B ++ [⟨B.length, c, false⟩] ++ [⟨B.length, 0, true⟩], N ++ [⟨[], []⟩] ++ [⟨[], []⟩],
    T ++ [none] ++ [none]⟩, .cons .leaf ?_, by simp, by simp⟩
  show Run ⟨B ++ [⟨B.length, c, true⟩], N ++ [⟨[], []⟩], T ++ [some ⟨B.length, N.length, false, none⟩]⟩ _ _
  have hhas : State.Has ⟨B ++ [⟨B.length, c, true⟩], N ++ [⟨[], []⟩],
      T ++ [some ⟨B.length, N.length, false, none⟩]⟩ T.length ⟨B.length, N.length, false, none⟩ := by
    simp [Has]
  refine .cons (.consumeSole (b := ⟨B.length, c, true⟩) hhas (none_lent fun j t h => by rw [(h1 j t h).2]) (by simp)
    ⟨fun j t h _ => (h1 j t h).1, ?_⟩) ?_
  · rintro ⟨j, t, n, nd, hj, hr, hnd, ha⟩
    obtain rfl := (h1 j t hj).2
    cases hr with
    | refl =>
      simp only [List.getElem?_append_right (Nat.le_refl _), Nat.sub_self, List.getElem?_cons_zero,
        Option.some.injEq] at hnd
      subst hnd
      simp at ha
    | step h hk _ =>
      simp only [List.getElem?_append_right (Nat.le_refl _), Nat.sub_self, List.getElem?_cons_zero,
        Option.some.injEq] at h
      subst h
      simp at hk
  · simp only [State.add, State.remove, hset, Bool.false_eq_true, if_false]
    have hB : (B ++ [(⟨B.length, c, true⟩ : Box)]).set B.length ⟨B.length, c, false⟩ =
        B ++ [⟨B.length, c, false⟩] := by simp
    simp only [hB]
    have h2 : ∀ (b : List Box) (ns : List Node) (k : Ten) j t, State.Has ⟨b, ns, T ++ [none] ++ [some k]⟩ j t →
        j = T.length + 1 ∧ t = k := by
      intro b ns k j t h
      have := only _ _ hT2 j t h
      simpa using this
    have hlen : T.length + 1 = (T ++ [none]).length := by simp
    have hset2 : ∀ x y : Option Ten, (T ++ [none] ++ [x]).set (T.length + 1) y = T ++ [none] ++ [y] := by
      intro x y
      rw [hlen, List.set_append_right _ _ (Nat.le_refl _)]
      simp
    refine .cons (.drop (t := ⟨B.length + 1, N.length + 1, false, none⟩) ?_ (none_lent fun j t h => ?_)) ?_
    rotate_left
    · exact (h2 _ _ _ j t h).2 ▸ rfl
    · simp only [State.remove, hset2]
      exact .nil _
    · simp [Has]

/-- A loop whose iterations make one tensor of `c` elements, view it by value and drop it: after `n` iterations
the program holds no tensor and `n` buffers take up memory. -/
theorem C94_grows {c : Nat} (hc : c ≠ 0) (n : Nat) : ∃ (os : List Op) (s : State), Run State.init os s ∧
    os.length = 3 * n ∧ (∀ i u, ¬ s.Has i u) ∧ ∀ k < n, s.Live (2 * k) := by
  have key : ∃ (os : List Op) (s : State), Run State.init os s ∧ os.length = 3 * n ∧ s.boxes.length = 2 * n ∧
      (∀ i u, ¬ s.Has i u) ∧ ∀ k < n, s.boxes[2 * k]? = some ⟨2 * k, c, false⟩ := by
    induction n with
    | zero => exact ⟨[], State.init, .nil _, rfl, rfl, fun i u h => by simp [Has, State.init] at h, fun k h => by omega⟩
    | succ n ih =>
      obtain ⟨os, s, hr, hl, hb, hN, hk⟩ := ih
      obtain ⟨t, hr', hbt, htt⟩ := consume_scope c hN
      refine ⟨_, t, hr.append hr', by simp [hl]; omega, by simp [hbt, hb]; omega, ?_, ?_⟩
      · intro i u h
        unfold Has at h
        rw [htt, List.getElem?_append] at h
        split at h
        · exact hN i u h
        · match i - s.tens.length, h with
          | 0, h => simp at h
          | 1, h => simp at h
          | m + 2, h => simp at h
      · intro k hkn
        rw [hbt]
        by_cases he : k < n
        · rw [List.getElem?_append_left (by omega)]
          exact hk k he
        · obtain rfl : k = n := by omega
          rw [List.getElem?_append_right (by omega), hb]
          simp
  obtain ⟨os, s, hr, hl, _, hN, hk⟩ := key
  exact ⟨os, s, hr, hl, hN, fun k h => (C94_exact hr _).mpr ⟨_, hk k h, hc, fun h => by cases h⟩⟩

/-- The full statement is false: a scope can hold no tensor at its end and yet have taken memory. -/
theorem C94_false : ¬ ∀ (os : List Op) (s : State), Run State.init os s → (∀ i u, ¬ s.Has i u) → ∀ p, ¬ s.Live p := by
  intro h
  obtain ⟨os, s, hr, _, hN, hk⟩ := C94_grows (c := 4) (by decide) 1
  exact h os s hr hN 0 (hk 0 (by decide))

end Verif.TMem

namespace Verif.Own

/-- src/autograd/util.rs 5-15: `reduce_gradient` on a gradient of `n` elements, and the end of the scopes of its
argument and result (src/autograd/gradient_function.rs 40-49). If the shapes agree the result is a borrowed view;
otherwise `sum_along` makes an array of `m` elements, which is reshaped by value (src/autograd/util.rs 12, 14). -/
def reduceGradient (same : Bool) (n m : Nat) : List Op :=
  [.make [] n n] ++ (if same then [.view 0 .reshaped 0 n true, .use 1, .drop 1] else
    [.make [0] m m, .consume 1 true, .use 2, .drop 2]) ++ [.drop 0]

/-- Each gradient that is reduced to the shape of a broadcast operand leaves a buffer of that operand's size
behind, although nothing refers to it any more; one that is not reduced leaves nothing. -/
theorem C94_reduce_gradient (n m : Nat) (hn : 0 < n) :
    State.init.run (reduceGradient false n m) = .ok ⟨[⟨n, false⟩, ⟨m, true⟩], [none, none, none]⟩ ∧
      State.init.run (reduceGradient true n m) = .ok ⟨[⟨n, false⟩], [none, none]⟩ := by
  have hn' : n ≠ 0 := by omega
  constructor <;>
    simp [reduceGradient, State.run, State.step, State.init, State.touchAll, State.get, State.take, State.touch,
      State.borrowed, State.push, State.release, free, hn', bind, Except.bind]

/-- Twelve elements reduced to three. -/
example : (State.init.run (reduceGradient false 12 3)).toOption.map (·.blocks) = some [⟨12, false⟩, ⟨3, true⟩] := by
  rw [(C94_reduce_gradient 12 3 (by decide)).1]
  rfl

end Verif.Own
