import Verif.Spec.TensorMemory

/-! # Invariants of the tensor memory model -/

namespace Verif.TMem
namespace State

theorem has_lt {s : State} {i : Nat} {t : Ten} (h : s.Has i t) : i < s.tens.length :=
  (List.getElem?_eq_some_iff.mp h).1

theorem Has.unique {s : State} {i : Nat} {t u : Ten} (h : s.Has i t) (h' : s.Has i u) : t = u := by
  unfold Has at h h'; rw [h] at h'; simpa using h'

theorem has_remove {s : State} {i j : Nat} {u : Ten} :
    (s.remove i).Has j u ↔ j ≠ i ∧ s.Has j u := by
  unfold Has remove
  simp only [List.getElem?_set]
  split
  · rename_i h
    subst h
    split <;> simp_all
  · rename_i h
    simp [Ne.symm h]

/-- The gradient function of the tensor made by `add`. -/
def addNode (s : State) (rg : Bool) (g : Grad) : Nat :=
  match (if rg then g else .fresh ⟨[], []⟩ : Grad) with
  | .fresh _ => s.nodes.length
  | .shared n => n

/-- The gradient functions made by `add`. -/
def newNodes (rg : Bool) (g : Grad) : List Node :=
  match (if rg then g else .fresh ⟨[], []⟩ : Grad) with
  | .fresh n => [n]
  | .shared _ => []

theorem add_eq (s : State) (b : Box) (rg : Bool) (g : Grad) (l : Option Nat) :
    s.add b rg g l = { boxes := s.boxes ++ [b], nodes := s.nodes ++ newNodes rg g,
                       tens := s.tens ++ [some ⟨s.boxes.length, s.addNode rg g, rg, l⟩] } := by
  unfold add newNodes addNode
  split <;> simp_all

theorem has_append {s s' : State} {t : Ten} (hs : s'.tens = s.tens ++ [some t]) {j : Nat} {u : Ten} :
    s'.Has j u ↔ s.Has j u ∨ (j = s.tens.length ∧ u = t) := by
  unfold Has
  rw [hs]
  simp only [List.getElem?_append]
  split
  · rename_i h
    constructor
    · exact Or.inl
    · rintro (h' | ⟨rfl, _⟩)
      · exact h'
      · omega
  · rename_i h
    have hn : s.tens[j]? = none := by simp; omega
    rw [hn]
    by_cases hj : j = s.tens.length
    · subst hj
      simp [eq_comm]
    · have : j - s.tens.length ≠ 0 := by omega
      obtain ⟨k, hk⟩ := Nat.exists_eq_succ_of_ne_zero this
      simp [hk, hj]

/-- Gradient functions only call older ones. -/
def Closed (s : State) : Prop := ∀ (m : Nat) (nd : Node) (k : Nat), s.nodes[m]? = some nd → k ∈ nd.next → k < m

/-- Adding gradient functions does not change what old ones reach. -/
theorem Reach.old {s s' : State} {ns : List Node} (hs : s'.nodes = s.nodes ++ ns) (hc : s.Closed)
    {m n : Nat} (h : s'.Reach m n) (hm : m < s.nodes.length) : s.Reach m n ∧ n < s.nodes.length := by
  induction h with
  | refl n => exact ⟨.refl n, hm⟩
  | @step m k n nd h hk hr ih =>
    rw [hs, List.getElem?_append_left hm] at h
    have hlt := hc m nd k h hk
    obtain ⟨h1, h2⟩ := ih (by omega)
    exact ⟨.step h hk h1, h2⟩

theorem Reach.mono {s s' : State} {ns : List Node} (hs : s'.nodes = s.nodes ++ ns)
    {m n : Nat} (h : s.Reach m n) : s'.Reach m n := by
  induction h with
  | refl n => exact .refl n
  | @step m k n nd h hk hr ih =>
    refine .step ?_ hk ih
    rw [hs, List.getElem?_append_left (List.getElem?_eq_some_iff.mp h).1]
    exact h

/-- All arrays kept by what is reachable from gradient function `m` own their buffers. -/
def OkNode (s : State) (m : Nat) : Prop :=
  m < s.nodes.length ∧ ∀ n nd a, s.Reach m n → s.nodes[n]? = some nd → a ∈ nd.captures → s.Owner a

/-- The invariant of disciplined histories. -/
structure Good (s : State) : Prop where
  ptr : ∀ (a : Nat) (b : Box), s.boxes[a]? = some b → b.ptr ≤ a
  uniq : ∀ (a a' : Nat) (b b' : Box), s.boxes[a]? = some b → s.boxes[a']? = some b' → b.owned = true →
    b'.owned = true → b.ptr = b'.ptr → a = a'
  closed : s.Closed
  node : ∀ i t, s.Has i t → s.OkNode t.node
  box : ∀ i t, s.Has i t → ∃ b, s.boxes[t.array]? = some b ∧ (b.owned = false →
    ∃ w u c, t.lender = some w ∧ w < i ∧ s.Has w u ∧ s.boxes[u.array]? = some c ∧ c.ptr = b.ptr)

theorem Good.init : Good State.init := by
  refine ⟨?_, ?_, ?_, ?_, ?_⟩
  · intro a b h; simp [State.init] at h
  · intro a a' b b' h; simp [State.init] at h
  · intro m nd k h; simp [State.init] at h
  · intro i t h; simp [State.init, Has] at h
  · intro i t h; simp [State.init, Has] at h

/-- An owner that is held has not been freed. -/
theorem Good.not_freed {s : State} (hG : s.Good) {a : Nat} {b : Box} (hb : s.boxes[a]? = some b)
    (ho : b.owned = true) (hh : s.Held a) : ¬ s.Freed b.ptr := by
  rintro ⟨a', b', hb', hp, ho', _, hn⟩
  obtain rfl := hG.uniq a a' b b' hb hb' ho ho' hp.symm
  exact hn hh

/-- The buffer of a tensor that is held has not been freed. -/
theorem Good.tensor_live {s : State} (hG : s.Good) : ∀ i t b, s.Has i t → s.boxes[t.array]? = some b →
    ¬ s.Freed b.ptr := by
  intro i
  induction i using Nat.strongRecOn with
  | _ i ih =>
    intro t b h hb
    obtain ⟨b', hb', hv⟩ := hG.box i t h
    rw [hb] at hb'
    obtain rfl : b = b' := by simpa using hb'
    cases ho : b.owned with
    | true => exact hG.not_freed hb ho (Or.inl ⟨i, t, h, rfl⟩)
    | false =>
      obtain ⟨w, u, c, _, hlt, hw, hc, hp⟩ := hv ho
      rw [← hp]
      exact ih w hlt u c hw hc

theorem Good.captured {s : State} (hG : s.Good) {a : Nat} (h : s.Captured a) : s.Owner a := by
  obtain ⟨i, t, n, nd, hi, hr, hn, ha⟩ := h
  exact (hG.node i t hi).2 n nd a hr hn ha

theorem Good.reads {s : State} (hG : s.Good) {o : Op} {a : Nat} (h : Reads s o a) :
    ∃ b, s.boxes[a]? = some b ∧ ¬ s.Freed b.ptr := by
  have ten : ∀ i t, s.Has i t → ∃ b, s.boxes[t.array]? = some b ∧ ¬ s.Freed b.ptr := by
    intro i t h
    obtain ⟨b, hb, _⟩ := hG.box i t h
    exact ⟨b, hb, hG.tensor_live i t b h hb⟩
  cases h with
  | unary h => exact ten _ _ h
  | left h => exact ten _ _ h
  | right h => exact ten _ _ h
  | copy h _ => exact ten _ _ h
  | backward h hr hn ha =>
    have hc : s.Captured a := ⟨_, _, _, _, h, hr, hn, ha⟩
    obtain ⟨b, hb, ho⟩ := hG.captured hc
    exact ⟨b, hb, hG.not_freed hb ho (Or.inr hc)⟩

theorem Owner.append {s : State} {a : Nat} (h : s.Owner a) (s' : State) (b : Box)
    (hs : s'.boxes = s.boxes ++ [b]) : s'.Owner a := by
  obtain ⟨c, hc, ho⟩ := h
  refine ⟨c, ?_, ho⟩
  rw [hs, List.getElem?_append_left (List.getElem?_eq_some_iff.mp hc).1]
  exact hc

/-- What may be given to a result as gradient function. -/
def OkGrad (s : State) : Grad → Prop
  | .fresh n => (∀ a ∈ n.captures, s.Owner a) ∧ ∀ m ∈ n.next, s.OkNode m
  | .shared m => s.OkNode m

theorem getElem?_snoc {l : List α} {x y : α} {i : Nat} :
    (l ++ [x])[i]? = some y ↔ l[i]? = some y ∨ (i = l.length ∧ y = x) := by
  rw [List.getElem?_append]
  split
  · rename_i h
    constructor
    · exact Or.inl
    · rintro (h' | ⟨rfl, _⟩)
      · exact h'
      · omega
  · rename_i h
    have hn : l[i]? = none := by simp; omega
    rw [hn]
    by_cases hj : i = l.length
    · subst hj
      simp [eq_comm]
    · have : i - l.length ≠ 0 := by omega
      obtain ⟨k, hk⟩ := Nat.exists_eq_succ_of_ne_zero this
      simp [hk, hj]

/-- Old gradient functions stay as good as they were. -/
theorem OkNode.append {s : State} (hc : s.Closed) {m : Nat} (h : s.OkNode m) {s' : State} {b : Box}
    {ns : List Node} (hb : s'.boxes = s.boxes ++ [b]) (hn : s'.nodes = s.nodes ++ ns) : s'.OkNode m := by
  refine ⟨by rw [hn]; simp; have := h.1; omega, ?_⟩
  intro n nd a hr hnd ha
  obtain ⟨hr', hlt⟩ := hr.old hn hc h.1
  rw [hn, List.getElem?_append_left hlt] at hnd
  exact (h.2 n nd a hr' hnd ha).append s' b hb

theorem Good.add {s : State} (hG : s.Good) {b : Box} {rg : Bool} {g : Grad} {l : Option Nat}
    (hp : b.ptr ≤ s.boxes.length)
    (hu : b.owned = true → ∀ (a : Nat) (c : Box), s.boxes[a]? = some c → c.owned = true → c.ptr ≠ b.ptr)
    (hv : b.owned = false → ∃ w u c, l = some w ∧ s.Has w u ∧ s.boxes[u.array]? = some c ∧ c.ptr = b.ptr)
    (hg : s.OkGrad g) : (s.add b rg g l).Good := by
  have hg' : s.OkGrad (if rg then g else .fresh ⟨[], []⟩) := by
    cases rg with
    | true => exact hg
    | false => exact ⟨by simp, by simp⟩
  rw [add_eq]
  generalize hs' : (State.mk (s.boxes ++ [b]) (s.nodes ++ newNodes rg g)
    (s.tens ++ [some ⟨s.boxes.length, s.addNode rg g, rg, l⟩])) = s'
  have hB : s'.boxes = s.boxes ++ [b] := by rw [← hs']
  have hN : s'.nodes = s.nodes ++ newNodes rg g := by rw [← hs']
  have hT : s'.tens = s.tens ++ [some ⟨s.boxes.length, s.addNode rg g, rg, l⟩] := by rw [← hs']
  have hbox : ∀ (a : Nat) (c : Box), s.boxes[a]? = some c → s'.boxes[a]? = some c := by
    intro a c h
    rw [hB]
    exact getElem?_snoc.mpr (Or.inl h)
  refine ⟨?_, ?_, ?_, ?_, ?_⟩
  · intro a c h
    rw [hB] at h
    rcases getElem?_snoc.mp h with h | ⟨rfl, rfl⟩
    · exact hG.ptr a c h
    · exact hp
  · intro a a' c c' h h' ho ho' hpe
    rw [hB] at h h'
    rcases getElem?_snoc.mp h with h1 | ⟨h1, h2⟩
    · rcases getElem?_snoc.mp h' with h1' | ⟨h1', h2'⟩
      · exact hG.uniq a a' c c' h1 h1' ho ho' hpe
      · subst h2'
        exact absurd hpe (hu ho' a c h1 ho)
    · rcases getElem?_snoc.mp h' with h1' | ⟨h1', h2'⟩
      · subst h2
        exact absurd hpe.symm (hu ho a' c' h1' ho')
      · rw [h1, h1']
  · intro m nd k h hk
    rw [hN] at h
    unfold newNodes at h
    split at h
    · rename_i n hn
      rcases getElem?_snoc.mp h with h | ⟨rfl, rfl⟩
      · exact hG.closed m nd k h hk
      · rw [hn] at hg'
        exact (hg'.2 k hk).1
    · simp only [List.append_nil] at h
      exact hG.closed m nd k h hk
  · intro i t h
    rcases (has_append hT).mp h with h | ⟨rfl, rfl⟩
    · exact (hG.node i t h).append hG.closed hB hN
    · simp only
      unfold addNode
      unfold newNodes at hN
      split
      · rename_i n hn
        rw [hn] at hg' hN
        simp only at hN
        refine ⟨by rw [hN]; simp, ?_⟩
        intro n' nd a hr hnd ha
        cases hr with
        | refl =>
          rw [hN] at hnd
          rcases getElem?_snoc.mp hnd with hnd | ⟨_, rfl⟩
          · have := (List.getElem?_eq_some_iff.mp hnd).1
            omega
          · exact (hg'.1 a ha).append s' b hB
        | step h hk hr =>
          rw [hN] at h
          rcases getElem?_snoc.mp h with h | ⟨_, rfl⟩
          · have := (List.getElem?_eq_some_iff.mp h).1
            omega
          · exact ((hg'.2 _ hk).append hG.closed hB hN).2 n' nd a hr hnd ha
      · rename_i n hn
        rw [hn] at hg'
        exact hg'.append hG.closed hB (by rw [hN, hn])
  · intro i t h
    rcases (has_append hT).mp h with h | ⟨rfl, rfl⟩
    · obtain ⟨c, hc, hcv⟩ := hG.box i t h
      refine ⟨c, hbox _ _ hc, fun ho => ?_⟩
      obtain ⟨w, u, d, hl, hlt, hw, hd, hpd⟩ := hcv ho
      exact ⟨w, u, d, hl, hlt, (has_append hT).mpr (Or.inl hw), hbox _ _ hd, hpd⟩
    · refine ⟨b, by rw [hB]; exact getElem?_snoc.mpr (Or.inr ⟨rfl, rfl⟩), fun ho => ?_⟩
      obtain ⟨w, u, d, hl, hw, hd, hpd⟩ := hv ho
      exact ⟨w, u, d, hl, has_lt hw, (has_append hT).mpr (Or.inl hw), hbox _ _ hd, hpd⟩

/-- The state after array `a` was moved out of its `Rc`. -/
def moveOut (s : State) (i a : Nat) (b : Box) : State :=
  { s.remove i with boxes := s.boxes.set a { b with owned := false } }

theorem OkNode.congr {s s' : State} {m : Nat} (h : s.OkNode m) (hn : s'.nodes = s.nodes)
    (hb : ∀ a, (∃ n nd, s.Reach m n ∧ s.nodes[n]? = some nd ∧ a ∈ nd.captures) → s.Owner a → s'.Owner a) :
    s'.OkNode m := by
  have reach : ∀ {m n}, s'.Reach m n → s.Reach m n := by
    intro m n h'
    induction h' with
    | refl n => exact .refl n
    | step h1 hk _ ih =>
      rw [hn] at h1
      exact .step h1 hk ih
  refine ⟨hn ▸ h.1, ?_⟩
  intro n nd a hr hnd ha
  rw [hn] at hnd
  exact hb a ⟨n, nd, reach hr, hnd, ha⟩ (h.2 n nd a (reach hr) hnd ha)

theorem Good.remove {s : State} (hG : s.Good) {i : Nat} (hn : ¬ s.Borrowed i) : (s.remove i).Good where
  ptr := hG.ptr
  uniq := hG.uniq
  closed := hG.closed
  node j t h := (hG.node j t (has_remove.mp h).2).congr rfl (fun _ _ h => h)
  box j t h₀ := by
    obtain ⟨hne, h⟩ := has_remove.mp h₀
    obtain ⟨c, hc, hcv⟩ := hG.box j t h
    refine ⟨c, hc, fun ho => ?_⟩
    obtain ⟨w, u, d, hl, hlt, hw, hd, hpd⟩ := hcv ho
    refine ⟨w, u, d, hl, hlt, has_remove.mpr ⟨?_, hw⟩, hd, hpd⟩
    rintro rfl
    exact hn ⟨j, t, h, hl⟩

theorem moveOut_box {s : State} {i a : Nat} {b : Box} {a' : Nat} (h : a' ≠ a) :
    (s.moveOut i a b).boxes[a']? = s.boxes[a']? := by
  simp only [moveOut, List.getElem?_set, Ne.symm h, if_false]

theorem moveOut_box_some {s : State} {i a : Nat} {b : Box} (hb : s.boxes[a]? = some b) {a' : Nat} {c : Box}
    (h : (s.moveOut i a b).boxes[a']? = some c) :
    ∃ c', s.boxes[a']? = some c' ∧ c'.ptr = c.ptr ∧ (c.owned = true → c' = c ∧ a' ≠ a) := by
  by_cases ha : a' = a
  · subst ha
    simp only [moveOut, List.getElem?_set, if_true] at h
    split at h
    · simp only [Option.some.injEq] at h
      subst h
      exact ⟨b, hb, rfl, by simp⟩
    · cases h
  · rw [moveOut_box ha] at h
    exact ⟨c, h, rfl, fun _ => ⟨rfl, ha⟩⟩

theorem Good.moveOut {s : State} (hG : s.Good) {i : Nat} {t : Ten} {b : Box} (hn : ¬ s.Borrowed i)
    (hb : s.boxes[t.array]? = some b) (hs : s.Sole i t.array) : (s.moveOut i t.array b).Good where
  ptr a c h := by
    obtain ⟨c', h', hp, _⟩ := moveOut_box_some hb h
    rw [← hp]
    exact hG.ptr a c' h'
  uniq a a' c c' h h' ho ho' hp := by
    obtain ⟨d, hd, _, he⟩ := moveOut_box_some hb h
    obtain ⟨d', hd', _, he'⟩ := moveOut_box_some hb h'
    obtain ⟨rfl, _⟩ := he ho
    obtain ⟨rfl, _⟩ := he' ho'
    exact hG.uniq a a' d d' hd hd' ho ho' hp
  closed := hG.closed
  node j u h₀ := by
    obtain ⟨hne, h⟩ := has_remove.mp h₀
    refine (hG.node j u h).congr rfl ?_
    rintro a ⟨n, nd, hr, hnd, ha⟩ ⟨c, hc, ho⟩
    refine ⟨c, ?_, ho⟩
    rw [moveOut_box]
    · exact hc
    · rintro rfl
      exact hs.2 ⟨j, u, n, nd, h, hr, hnd, ha⟩
  box j u h₀ := by
    obtain ⟨hne, h⟩ := has_remove.mp h₀
    obtain ⟨c, hc, hcv⟩ := hG.box j u h
    have hua : u.array ≠ t.array := fun he => hne (hs.1 j u h he)
    refine ⟨c, by rw [moveOut_box hua]; exact hc, fun ho => ?_⟩
    obtain ⟨w, v, d, hl, hlt, hw, hd, hpd⟩ := hcv ho
    have hwi : w ≠ i := by
      rintro rfl
      exact hn ⟨j, u, h, hl⟩
    have hva : v.array ≠ t.array := fun he => hwi (hs.1 w v hw he)
    exact ⟨w, v, d, hl, hlt, has_remove.mpr ⟨hwi, hw⟩, by rw [moveOut_box hva]; exact hd, hpd⟩

theorem own_fresh {s : State} (hG : s.Good) {cap : Nat} {a : Nat} {c : Box} (h : s.boxes[a]? = some c) :
    c.ptr ≠ (s.own cap).ptr := by
  have h1 := hG.ptr a c h
  have h2 := (List.getElem?_eq_some_iff.mp h).1
  simp only [own]
  omega

theorem okGrad {s : State} {t : Ten} (h : s.OkNode t.node) (share : Bool) : s.OkGrad (t.grad share) := by
  unfold Ten.grad
  cases share with
  | true => exact h
  | false => exact ⟨by simp, by simpa using h⟩

theorem Good.step {s s' : State} (hG : s.Good) {o : Op} (ht : s.Tame o) (h : Step s o s') : s'.Good := by
  cases h with
  | leaf =>
    exact hG.add (Nat.le_refl _) (fun _ a c h _ => own_fresh hG h) (by simp [own]) ⟨by simp, by simp⟩
  | requireGradSame _ _ _ => exact hG
  | @requireGrad i t b h hb he =>
    generalize hs' : (State.mk s.boxes (s.nodes ++ [⟨[], []⟩])
      (s.tens.set i (some { t with requiresGrad := b, node := s.nodes.length }))) = s'
    have hB : s'.boxes = s.boxes := by rw [← hs']
    have hN : s'.nodes = s.nodes ++ [⟨[], []⟩] := by rw [← hs']
    have hhas : ∀ j u, s'.Has j u → ∃ u', s.Has j u' ∧ u.array = u'.array ∧ u.lender = u'.lender ∧
        (u.node = u'.node ∨ u.node = s.nodes.length) := by
      intro j u hj
      unfold Has at hj
      rw [← hs'] at hj
      simp only [List.getElem?_set] at hj
      split at hj
      · rename_i hij
        subst hij
        split at hj
        · simp only [Option.some.injEq] at hj
          subst hj
          exact ⟨t, h, rfl, rfl, Or.inr rfl⟩
        · cases hj
      · exact ⟨u, hj, rfl, rfl, Or.inl rfl⟩
    have hhas' : ∀ j u, s.Has j u → ∃ u', s'.Has j u' ∧ u'.array = u.array := by
      intro j u hj
      by_cases hij : i = j
      · subst hij
        obtain rfl := h.unique hj
        refine ⟨{ t with requiresGrad := b, node := s.nodes.length }, ?_, rfl⟩
        unfold Has
        rw [← hs']
        simp only [List.getElem?_set, if_true]
        simp [has_lt h]
      · refine ⟨u, ?_, rfl⟩
        unfold Has
        rw [← hs']
        simp only [List.getElem?_set, hij, if_false]
        exact hj
    have hown : ∀ a, s.Owner a → s'.Owner a := by
      rintro a ⟨c, hc, ho⟩
      exact ⟨c, by rw [hB]; exact hc, ho⟩
    refine ⟨?_, ?_, ?_, ?_, ?_⟩
    · rw [hB]; exact hG.ptr
    · rw [hB]; exact hG.uniq
    · intro m nd k hm hk
      rw [hN] at hm
      rcases getElem?_snoc.mp hm with hm | ⟨_, rfl⟩
      · exact hG.closed m nd k hm hk
      · simp at hk
    · intro j u hj
      obtain ⟨u', hu', _, _, hnode⟩ := hhas j u hj
      rcases hnode with hnode | hnode
      · rw [hnode]
        have hok := hG.node j u' hu'
        refine ⟨by rw [hN]; simp; have := hok.1; omega, ?_⟩
        intro n nd a hr hnd ha
        obtain ⟨hr', hlt⟩ := hr.old hN hG.closed hok.1
        rw [hN, List.getElem?_append_left hlt] at hnd
        exact hown a (hok.2 n nd a hr' hnd ha)
      · rw [hnode]
        refine ⟨by rw [hN]; simp, ?_⟩
        intro n nd a hr hnd ha
        have hlast : s'.nodes[s.nodes.length]? = some ⟨[], []⟩ := by rw [hN]; simp
        cases hr with
        | refl =>
          rw [hlast] at hnd
          simp only [Option.some.injEq] at hnd
          subst hnd
          simp at ha
        | step h1 hk _ =>
          rw [hlast] at h1
          simp only [Option.some.injEq] at h1
          subst h1
          simp at hk
    · intro j u hj
      obtain ⟨u', hu', harr, hlen, _⟩ := hhas j u hj
      obtain ⟨c, hc, hcv⟩ := hG.box j u' hu'
      refine ⟨c, by rw [hB, harr]; exact hc, fun ho => ?_⟩
      obtain ⟨w, v, d, hl, hlt, hw, hd, hpd⟩ := hcv ho
      obtain ⟨v', hv', hva⟩ := hhas' w v hw
      exact ⟨w, v', d, by rw [hlen]; exact hl, hlt, hv', by rw [hB, hva]; exact hd, hpd⟩
  | unary h =>
    exact hG.add (Nat.le_refl _) (fun _ a c h _ => own_fresh hG h) (by simp [own]) (okGrad (hG.node _ _ h) _)
  | @binary i j t u cap captures h h' =>
    by_cases hrg : (t.requiresGrad || u.requiresGrad) = true
    · refine hG.add (Nat.le_refl _) (fun _ a c h _ => own_fresh hG h) (by simp [own]) ⟨?_, ?_⟩
      · intro a ha
        cases captures with
        | false => simp at ha
        | true =>
          obtain ⟨h1, h2⟩ := ht rfl t u h h' hrg
          simp only [if_true, List.mem_cons, List.not_mem_nil, or_false] at ha
          rcases ha with rfl | rfl
          · exact h1
          · exact h2
      · intro m hm
        simp only [List.mem_cons, List.not_mem_nil, or_false] at hm
        rcases hm with rfl | rfl
        · exact hG.node _ _ h
        · exact hG.node _ _ h'
    · rw [Bool.not_eq_true] at hrg
      rw [hrg]
      have : ∀ g, s.add (s.own cap) false g none = s.add (s.own cap) false (.fresh ⟨[], []⟩) none :=
        fun g => rfl
      rw [this]
      exact hG.add (Nat.le_refl _) (fun _ a c h _ => own_fresh hG h) (by simp [own]) ⟨by simp, by simp⟩
  | @view i t b share h hb =>
    refine hG.add ?_ (by simp) (fun _ => ⟨i, t, b, rfl, h, hb, rfl⟩) (okGrad (hG.node _ _ h) _)
    have h1 := hG.ptr _ _ hb
    have h2 := (List.getElem?_eq_some_iff.mp hb).1
    simp only
    omega
  | @consumeSole i t b share h hn hb hs =>
    have hM := hG.moveOut hn hb hs
    have ho : b.owned = true := by
      obtain ⟨b', hb', hv⟩ := hG.box i t h
      rw [hb] at hb'
      obtain rfl : b = b' := by simpa using hb'
      cases ho : b.owned with
      | true => rfl
      | false =>
        obtain ⟨w, _, _, hl, _⟩ := hv ho
        rw [ht t h] at hl
        cases hl
    refine Good.add (s := s.moveOut i t.array b) hM ?_ ?_ ?_ ?_
    · have h1 := hG.ptr _ _ hb
      have h2 := (List.getElem?_eq_some_iff.mp hb).1
      simp only [State.moveOut, List.length_set]
      omega
    · intro _ a c hc hco hp
      obtain ⟨c', hc', _, he⟩ := moveOut_box_some hb hc
      obtain ⟨rfl, hne⟩ := he hco
      exact hne (hG.uniq a t.array c' b hc' hb hco ho hp)
    · intro hf
      simp only at hf
      rw [ho] at hf
      cases hf
    · refine okGrad (OkNode.congr (s' := s.moveOut i t.array b) (hG.node i t h) rfl ?_) _
      rintro a ⟨n, nd, hr, hnd, ha⟩ ⟨c, hc, hco⟩
      refine ⟨c, ?_, hco⟩
      rw [moveOut_box]
      · exact hc
      · rintro rfl
        exact hs.2 ⟨i, t, n, nd, h, hr, hnd, ha⟩
  | @consumeShared i t share h hn hs =>
    have hR := hG.remove hn
    exact hR.add (Nat.le_refl _) (fun _ a c h _ => own_fresh hG h) (by simp [own])
      (okGrad (OkNode.congr (s' := s.remove i) (hG.node i t h) rfl (fun _ _ h => h)) _)
  | backward _ => exact hG
  | drop _ hn => exact hG.remove hn

/-! ## What is freed stays freed -/

/-- Names are in range; holds in every history. -/
structure WF (s : State) : Prop where
  closed : s.Closed
  node : ∀ i t, s.Has i t → t.node < s.nodes.length
  array : ∀ i t, s.Has i t → t.array < s.boxes.length
  captures : ∀ (m : Nat) (nd : Node) (a : Nat), s.nodes[m]? = some nd → a ∈ nd.captures → a < s.boxes.length

theorem WF.init : WF State.init := by
  refine ⟨?_, ?_, ?_, ?_⟩
  · intro m nd k h; simp [State.init] at h
  · intro i t h; simp [State.init, Has] at h
  · intro i t h; simp [State.init, Has] at h
  · intro m nd k h; simp [State.init] at h

/-- The names in a gradient function are in range. -/
def InRange (s : State) : Grad → Prop
  | .fresh n => (∀ a ∈ n.captures, a < s.boxes.length) ∧ ∀ m ∈ n.next, m < s.nodes.length
  | .shared m => m < s.nodes.length

theorem WF.add {s : State} (hW : s.WF) {b : Box} {rg : Bool} {g : Grad} {l : Option Nat}
    (hg : s.InRange g) : (s.add b rg g l).WF := by
  have hg' : s.InRange (if rg then g else .fresh ⟨[], []⟩) := by
    cases rg with
    | true => exact hg
    | false => exact ⟨by simp, by simp⟩
  unfold State.add
  split
  · rename_i n hn
    rw [hn] at hg'
    refine ⟨?_, ?_, ?_, ?_⟩
    · intro m nd k h hk
      rcases getElem?_snoc.mp h with h1 | ⟨rfl, rfl⟩
      · exact hW.closed m nd k h1 hk
      · exact hg'.2 k hk
    · intro i t h
      simp only [List.length_append, List.length_cons, List.length_nil]
      rcases (has_append (s := s) rfl).mp h with h1 | ⟨rfl, rfl⟩
      · have := hW.node i t h1
        omega
      · simp
    · intro i t h
      simp only [List.length_append, List.length_cons, List.length_nil]
      rcases (has_append (s := s) rfl).mp h with h1 | ⟨rfl, rfl⟩
      · have := hW.array i t h1
        omega
      · simp
    · intro m nd a h ha
      simp only [List.length_append, List.length_cons, List.length_nil]
      rcases getElem?_snoc.mp h with h1 | ⟨rfl, rfl⟩
      · have := hW.captures m nd a h1 ha
        omega
      · have := hg'.1 a ha
        omega
  · rename_i n hn
    rw [hn] at hg'
    refine ⟨hW.closed, ?_, ?_, ?_⟩
    · intro i t h
      rcases (has_append (s := s) rfl).mp h with h1 | ⟨rfl, rfl⟩
      · exact hW.node i t h1
      · exact hg'
    · intro i t h
      simp only [List.length_append, List.length_cons, List.length_nil]
      rcases (has_append (s := s) rfl).mp h with h1 | ⟨rfl, rfl⟩
      · have := hW.array i t h1
        omega
      · simp
    · intro m nd a h ha
      simp only [List.length_append, List.length_cons, List.length_nil]
      have := hW.captures m nd a h ha
      omega

theorem WF.remove {s : State} (hW : s.WF) (i : Nat) : (s.remove i).WF where
  closed := hW.closed
  node j t h := hW.node j t (has_remove.mp h).2
  array j t h := hW.array j t (has_remove.mp h).2
  captures := hW.captures

theorem WF.moveOut {s : State} (hW : s.WF) (i a : Nat) (b : Box) : (s.moveOut i a b).WF where
  closed := hW.closed
  node j t h := hW.node j t (has_remove.mp h).2
  array j t h := by
    have := hW.array j t (has_remove.mp h).2
    simpa [State.moveOut] using this
  captures m nd c h hc := by
    have := hW.captures m nd c h hc
    simpa [State.moveOut] using this

theorem inRange_grad {s : State} {t : Ten} (h : t.node < s.nodes.length) (share : Bool) :
    s.InRange (t.grad share) := by
  unfold Ten.grad
  cases share with
  | true => exact h
  | false => exact ⟨by simp, by simpa using h⟩

theorem WF.step {s s' : State} (hW : s.WF) {o : Op} (h : Step s o s') : s'.WF := by
  cases h with
  | leaf => exact hW.add ⟨by simp, by simp⟩
  | requireGradSame _ _ _ => exact hW
  | @requireGrad i t b h hb he =>
    refine ⟨?_, ?_, ?_, ?_⟩
    · intro m nd k hm hk
      rcases getElem?_snoc.mp hm with hm | ⟨_, rfl⟩
      · exact hW.closed m nd k hm hk
      · simp at hk
    · intro j u hj
      unfold Has at hj
      simp only [List.getElem?_set] at hj
      simp only [List.length_append, List.length_cons, List.length_nil]
      split at hj
      · split at hj
        · simp only [Option.some.injEq] at hj
          subst hj
          simp
        · cases hj
      · have := hW.node j u hj
        omega
    · intro j u hj
      unfold Has at hj
      simp only [List.getElem?_set] at hj
      split at hj
      · split at hj
        · simp only [Option.some.injEq] at hj
          subst hj
          exact hW.array i t h
        · cases hj
      · exact hW.array j u hj
    · intro m nd a hm ha
      rcases getElem?_snoc.mp hm with hm | ⟨_, rfl⟩
      · exact hW.captures m nd a hm ha
      · simp at ha
  | unary h => exact hW.add (inRange_grad (hW.node _ _ h) _)
  | @binary i j t u cap captures h h' =>
    refine hW.add ⟨?_, ?_⟩
    · intro a ha
      cases captures with
      | false => simp at ha
      | true =>
        simp only [if_true, List.mem_cons, List.not_mem_nil, or_false] at ha
        rcases ha with rfl | rfl
        · exact hW.array _ _ h
        · exact hW.array _ _ h'
    · intro m hm
      simp only [List.mem_cons, List.not_mem_nil, or_false] at hm
      rcases hm with rfl | rfl
      · exact hW.node _ _ h
      · exact hW.node _ _ h'
  | view h _ => exact hW.add (inRange_grad (hW.node _ _ h) _)
  | @consumeSole i t b share h _ _ _ =>
    exact (hW.moveOut i t.array b).add
      (inRange_grad (s := s.moveOut i t.array b) (hW.node i t h) _)
  | @consumeShared i t share h _ _ =>
    exact (hW.remove i).add (inRange_grad (s := s.remove i) (hW.node i t h) _)
  | backward _ => exact hW
  | drop _ _ => exact hW.remove _

/-- Gradient functions in use after an operation. -/
theorem reach_iff {s s' : State} (h : s'.nodes = s.nodes) {m n : Nat} : s'.Reach m n ↔ s.Reach m n := by
  constructor
  · intro hr
    induction hr with
    | refl n => exact .refl n
    | step h1 hk _ ih => exact .step (h ▸ h1) hk ih
  · intro hr
    induction hr with
    | refl n => exact .refl n
    | step h1 hk _ ih => exact .step (h.symm ▸ h1) hk ih

/-- Removing a tensor adds no holder. -/
theorem Held.of_remove {s : State} {i a : Nat} (h : (s.remove i).Held a) : s.Held a := by
  rcases h with ⟨j, t, hj, ha⟩ | ⟨j, t, n, nd, hj, hr, hn, ha⟩
  · exact Or.inl ⟨j, t, (has_remove.mp hj).2, ha⟩
  · exact Or.inr ⟨j, t, n, nd, (has_remove.mp hj).2,
      (reach_iff (s := s) (s' := s.remove i) rfl).mp hr, hn, ha⟩

/-- What the gradient function of a new tensor reaches was in use before, or is new and keeps only arrays of
tensors that were held. -/
def GradFrom (s₀ : State) : Grad → Prop
  | .fresh n => (∀ a ∈ n.captures, s₀.Held a) ∧ ∀ m ∈ n.next, ∃ i t, s₀.Has i t ∧ t.node = m
  | .shared m => ∃ i t, s₀.Has i t ∧ t.node = m

/-- Adding a tensor made from tensors held in `s₀` to a state with fewer tensors gives no array of `s₀` a new
holder. -/
theorem Held.of_add {s s₀ : State} (hW : s₀.WF) (hn : s.nodes = s₀.nodes) (hl : s.boxes.length = s₀.boxes.length)
    (ht : ∀ j t, s.Has j t → s₀.Has j t) {b : Box} {rg : Bool} {g : Grad} {l : Option Nat}
    (hg : GradFrom s₀ g) {a : Nat} (ha : a < s₀.boxes.length) (h : (s.add b rg g l).Held a) : s₀.Held a := by
  have hg' : GradFrom s₀ (if rg then g else .fresh ⟨[], []⟩) := by
    cases rg with
    | true => exact hg
    | false => exact ⟨by simp, by simp⟩
  unfold State.add at h
  split at h
  · rename_i nd₀ hn₀
    rw [hn₀] at hg'
    have hN : (State.mk (s.boxes ++ [b]) (s.nodes ++ [nd₀])
        (s.tens ++ [some ⟨s.boxes.length, s.nodes.length, rg, l⟩])).nodes = s₀.nodes ++ [nd₀] := by
      rw [← hn]
    have old : ∀ {j t n nd}, s₀.Has j t → State.Reach (State.mk (s.boxes ++ [b]) (s.nodes ++ [nd₀])
        (s.tens ++ [some ⟨s.boxes.length, s.nodes.length, rg, l⟩])) t.node n →
        (s.nodes ++ [nd₀])[n]? = some nd → a ∈ nd.captures → s₀.Held a := by
      intro j t n nd hj hr hnd hac
      obtain ⟨hr', hlt⟩ := hr.old hN hW.closed (hW.node j t hj)
      rw [hn, List.getElem?_append_left hlt] at hnd
      exact Or.inr ⟨j, t, n, nd, hj, hr', hnd, hac⟩
    rcases h with ⟨j, t, hj, hja⟩ | ⟨j, t, n, nd, hj, hr, hnd, hac⟩
    · rcases (has_append (s := s) rfl).mp hj with hj | ⟨_, rfl⟩
      · exact Or.inl ⟨j, t, ht j t hj, hja⟩
      · simp only at hja
        omega
    · rcases (has_append (s := s) rfl).mp hj with hj | ⟨_, rfl⟩
      · exact old (ht j t hj) hr hnd hac
      · cases hr with
        | refl =>
          rcases getElem?_snoc.mp hnd with h1 | ⟨_, rfl⟩
          · have := (List.getElem?_eq_some_iff.mp h1).1
            simp at this
          · exact hg'.1 a hac
        | step h1 hk hr =>
          rcases getElem?_snoc.mp h1 with h1 | ⟨_, rfl⟩
          · have := (List.getElem?_eq_some_iff.mp h1).1
            simp at this
          · obtain ⟨j', t', hj', rfl⟩ := hg'.2 _ hk
            exact old hj' hr hnd hac
  · rename_i m hn₀
    rw [hn₀] at hg'
    rcases h with ⟨j, t, hj, hja⟩ | ⟨j, t, n, nd, hj, hr, hnd, hac⟩
    · rcases (has_append (s := s) rfl).mp hj with hj | ⟨_, rfl⟩
      · exact Or.inl ⟨j, t, ht j t hj, hja⟩
      · simp only at hja
        omega
    · have hr' := (reach_iff (s := s₀) (s' := ⟨s.boxes ++ [b], s.nodes,
        s.tens ++ [some ⟨s.boxes.length, m, rg, l⟩]⟩) hn).mp hr
      have hnd' : s₀.nodes[n]? = some nd := by rw [← hn]; exact hnd
      rcases (has_append (s := s) rfl).mp hj with hj | ⟨_, rfl⟩
      · exact Or.inr ⟨j, t, n, nd, ht j t hj, hr', hnd', hac⟩
      · obtain ⟨j', t', hj', rfl⟩ := hg'
        exact Or.inr ⟨j', t', n, nd, hj', hr', hnd', hac⟩

theorem gradFrom {s₀ : State} {i : Nat} {t : Ten} (h : s₀.Has i t) (share : Bool) :
    GradFrom s₀ (t.grad share) := by
  unfold Ten.grad
  cases share with
  | true => exact ⟨i, t, h, rfl⟩
  | false => exact ⟨by simp, by simpa using ⟨i, t, h, rfl⟩⟩

/-- No operation gives an array that nobody holds a holder again. -/
theorem Held.of_step {s s' : State} (hW : s.WF) {o : Op} (h : Step s o s') {a : Nat}
    (ha : a < s.boxes.length) (hh : s'.Held a) : s.Held a := by
  cases h with
  | leaf => exact Held.of_add hW rfl rfl (fun _ _ h => h) (g := .fresh ⟨[], []⟩) ⟨by simp, by simp⟩ ha hh
  | requireGradSame _ _ _ => exact hh
  | @requireGrad i t b h hb he =>
    rcases hh with ⟨j, u, hj, hja⟩ | ⟨j, u, n, nd, hj, hr, hnd, hac⟩
    · unfold Has at hj
      simp only [List.getElem?_set] at hj
      split at hj
      · split at hj
        · simp only [Option.some.injEq] at hj
          subst hj
          exact Or.inl ⟨i, t, h, hja⟩
        · cases hj
      · exact Or.inl ⟨j, u, hj, hja⟩
    · have hlast : (s.nodes ++ [⟨[], []⟩])[s.nodes.length]? = some (⟨[], []⟩ : Node) := by simp
      unfold Has at hj
      simp only [List.getElem?_set] at hj
      split at hj
      · split at hj
        · simp only [Option.some.injEq] at hj
          subst hj
          exfalso
          cases hr with
          | refl =>
            have : nd = ⟨[], []⟩ := by
              have := hnd.symm.trans hlast
              simpa using this
            subst this
            simp at hac
          | @step _ _ _ nd' h1 hk _ =>
            have : nd' = ⟨[], []⟩ := by
              have := h1.symm.trans hlast
              simpa using this
            subst this
            simp at hk
        · cases hj
      · obtain ⟨hr', hlt⟩ := hr.old (s := s) rfl hW.closed (hW.node j u hj)
        simp only at hnd
        rw [List.getElem?_append_left hlt] at hnd
        exact Or.inr ⟨j, u, n, nd, hj, hr', hnd, hac⟩
  | unary h => exact Held.of_add hW rfl rfl (fun _ _ h => h) (gradFrom h _) ha hh
  | @binary i j t u cap captures h h' =>
    refine Held.of_add hW rfl rfl (fun _ _ h => h) (g := .fresh _) ⟨?_, ?_⟩ ha hh
    · intro a ha
      cases captures with
      | false => simp at ha
      | true =>
        simp only [if_true, List.mem_cons, List.not_mem_nil, or_false] at ha
        rcases ha with rfl | rfl
        · exact Or.inl ⟨i, t, h, rfl⟩
        · exact Or.inl ⟨j, u, h', rfl⟩
    · intro m hm
      simp only [List.mem_cons, List.not_mem_nil, or_false] at hm
      rcases hm with rfl | rfl
      · exact ⟨i, t, h, rfl⟩
      · exact ⟨j, u, h', rfl⟩
  | view h _ => exact Held.of_add hW rfl rfl (fun _ _ h => h) (gradFrom h _) ha hh
  | @consumeSole i t b share h _ _ _ =>
    exact Held.of_add (s := s.moveOut i t.array b) hW rfl (by simp [State.moveOut])
      (fun _ _ h => (has_remove (s := s) (i := i).mp h).2) (gradFrom h _) ha hh
  | @consumeShared i t share h _ _ =>
    exact Held.of_add (s := s.remove i) hW rfl rfl (fun _ _ h => (has_remove.mp h).2) (gradFrom h _) ha hh
  | backward _ => exact hh
  | drop _ _ => exact Held.of_remove hh

/-- An array that nobody holds is not touched by an operation. -/
theorem box_step {s s' : State} {o : Op} (h : Step s o s') {a : Nat} {b : Box} (hb : s.boxes[a]? = some b)
    (hh : ¬ s.Held a) : s'.boxes[a]? = some b := by
  have add : ∀ (t : State) (c : Box) (rg : Bool) (g : Grad) (l : Option Nat), t.boxes[a]? = some b →
      (t.add c rg g l).boxes[a]? = some b := by
    intro t c rg g l h
    rw [add_eq]
    exact getElem?_snoc.mpr (Or.inl h)
  cases h with
  | leaf => exact add _ _ _ _ _ hb
  | requireGradSame _ _ _ => exact hb
  | requireGrad _ _ _ => exact hb
  | unary _ => exact add _ _ _ _ _ hb
  | binary _ _ => exact add _ _ _ _ _ hb
  | view _ _ => exact add _ _ _ _ _ hb
  | @consumeSole i t c share h _ _ _ =>
    refine add _ _ _ _ _ ?_
    have hne : t.array ≠ a := fun he => hh (Or.inl ⟨i, t, h, he⟩)
    simp only [List.getElem?_set, hne, if_false]
    exact hb
  | consumeShared _ _ _ => exact add _ _ _ _ _ hb
  | backward _ => exact hb
  | drop _ _ => exact hb

theorem Freed.step {s s' : State} (hW : s.WF) {o : Op} (h : Step s o s') {p : Nat} (hf : s.Freed p) :
    s'.Freed p := by
  obtain ⟨a, b, hb, hp, ho, hc, hn⟩ := hf
  exact ⟨a, b, box_step h hb hn, hp, ho, hc,
    fun hh => hn (Held.of_step hW h (List.getElem?_eq_some_iff.mp hb).1 hh)⟩

end State

end Verif.TMem
