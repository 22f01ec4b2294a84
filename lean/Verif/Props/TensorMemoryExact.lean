import Verif.Props.TensorMemory

/-!
# C45: which arrays can point to freed memory

In any history an array that owns its buffer and is read has not been freed: only views can point to freed memory, and they do exactly
when the owner of their buffer is held by nothing (`C45_exact`). If no view is reshaped by value, operations other than `backward`
never read freed memory (`C45_forward_partial`); with such a reshape they can (`C45_forward_false`).
-/

namespace Verif.TMem

namespace State

/-- Buffers are numbered by the array that allocated them, and have at most one owner. -/
structure Owns (s : State) : Prop where
  ptr : ∀ (a : Nat) (b : Box), s.boxes[a]? = some b → b.ptr ≤ a
  uniq : ∀ (a a' : Nat) (b b' : Box), s.boxes[a]? = some b → s.boxes[a']? = some b' → b.owned = true →
    b'.owned = true → b.ptr = b'.ptr → a = a'

theorem Owns.init : Owns State.init := ⟨fun a b h => by simp [State.init] at h, fun a a' b b' h => by simp [State.init] at h⟩

theorem Owns.add {s : State} (hO : s.Owns) {b : Box} {rg : Bool} {g : Grad} {l : Option Nat} (hp : b.ptr ≤ s.boxes.length)
    (hu : b.owned = true → ∀ (a : Nat) (c : Box), s.boxes[a]? = some c → c.owned = true → c.ptr ≠ b.ptr) :
    (s.add b rg g l).Owns := by
  rw [add_eq]
  refine ⟨fun a c h => ?_, fun a a' c c' h h' ho ho' hpe => ?_⟩
  · rcases getElem?_snoc.mp h with h | ⟨rfl, rfl⟩
    · exact hO.ptr a c h
    · exact hp
  · rcases getElem?_snoc.mp h with h1 | ⟨h1, h2⟩
    · rcases getElem?_snoc.mp h' with h1' | ⟨h1', h2'⟩
      · exact hO.uniq a a' c c' h1 h1' ho ho' hpe
      · subst h2'
        exact absurd hpe (hu ho' a c h1 ho)
    · rcases getElem?_snoc.mp h' with h1' | ⟨h1', h2'⟩
      · subst h2
        exact absurd hpe.symm (hu ho a' c' h1' ho')
      · rw [h1, h1']

theorem Owns.fresh {s : State} (hO : s.Owns) {cap : Nat} {a : Nat} {c : Box} (h : s.boxes[a]? = some c) :
    c.ptr ≠ (s.own cap).ptr := by
  have h1 := hO.ptr a c h
  have h2 := (List.getElem?_eq_some_iff.mp h).1
  simp only [own]
  omega

theorem Owns.addOwn {s : State} (hO : s.Owns) {cap : Nat} {rg : Bool} {g : Grad} {l : Option Nat} :
    (s.add (s.own cap) rg g l).Owns := hO.add (Nat.le_refl _) fun _ _ _ h _ => hO.fresh h

theorem Owns.moveOut {s : State} (hO : s.Owns) {i a : Nat} {b : Box} (hb : s.boxes[a]? = some b) : (s.moveOut i a b).Owns where
  ptr a' c h := by
    obtain ⟨c', h', hp, _⟩ := moveOut_box_some hb h
    rw [← hp]
    exact hO.ptr a' c' h'
  uniq a a' c c' h h' ho ho' hp := by
    obtain ⟨d, hd, _, he⟩ := moveOut_box_some hb h
    obtain ⟨d', hd', _, he'⟩ := moveOut_box_some hb h'
    obtain ⟨rfl, _⟩ := he ho
    obtain ⟨rfl, _⟩ := he' ho'
    exact hO.uniq a a' d d' hd hd' ho ho' hp

theorem Owns.step {s s' : State} (hO : s.Owns) {o : Op} (h : Step s o s') : s'.Owns := by
  cases h with
  | leaf => exact hO.addOwn
  | requireGradSame _ _ _ => exact hO
  | requireGrad _ _ _ => exact ⟨hO.ptr, hO.uniq⟩
  | unary _ => exact hO.addOwn
  | binary _ _ => exact hO.addOwn
  | view _ hb =>
    refine hO.add ?_ (by simp)
    have h1 := hO.ptr _ _ hb
    have h2 := (List.getElem?_eq_some_iff.mp hb).1
    simp only
    omega
  | @consumeSole i t b share _ _ hb _ =>
    refine Owns.add (s := s.moveOut i t.array b) (hO.moveOut hb) ?_ fun ho a c hc hco hp => ?_
    · have h1 := hO.ptr _ _ hb
      have h2 := (List.getElem?_eq_some_iff.mp hb).1
      simp only [State.moveOut, List.length_set]
      omega
    · obtain ⟨c', hc', _, he⟩ := moveOut_box_some hb hc
      obtain ⟨rfl, hne⟩ := he hco
      exact hne (hO.uniq a t.array c' b hc' hb hco ho hp)
  | @consumeShared i _ _ _ _ _ => exact Owns.addOwn (s := s.remove i) ⟨hO.ptr, hO.uniq⟩
  | backward _ => exact hO
  | drop _ _ => exact ⟨hO.ptr, hO.uniq⟩

/-- A tensor that does not own its buffer borrows from an older tensor with the same buffer, which is held. -/
def Lent (s : State) : Prop := ∀ i t, s.Has i t → ∃ b, s.boxes[t.array]? = some b ∧ (b.owned = false →
  ∃ w u c, t.lender = some w ∧ w < i ∧ s.Has w u ∧ s.boxes[u.array]? = some c ∧ c.ptr = b.ptr)

theorem Lent.add {s : State} (hL : s.Lent) {b : Box} {rg : Bool} {g : Grad} {l : Option Nat}
    (hv : b.owned = false → ∃ w u c, l = some w ∧ s.Has w u ∧ s.boxes[u.array]? = some c ∧ c.ptr = b.ptr) :
    (s.add b rg g l).Lent := by
  rw [add_eq]
  generalize hs' : (State.mk (s.boxes ++ [b]) (s.nodes ++ newNodes rg g)
    (s.tens ++ [some ⟨s.boxes.length, s.addNode rg g, rg, l⟩])) = s'
  have hB : s'.boxes = s.boxes ++ [b] := by rw [← hs']
  have hT : s'.tens = s.tens ++ [some ⟨s.boxes.length, s.addNode rg g, rg, l⟩] := by rw [← hs']
  have hbox : ∀ (a : Nat) (c : Box), s.boxes[a]? = some c → s'.boxes[a]? = some c := by
    intro a c h
    rw [hB]
    exact getElem?_snoc.mpr (Or.inl h)
  intro i t h
  rcases (has_append hT).mp h with h | ⟨rfl, rfl⟩
  · obtain ⟨c, hc, hcv⟩ := hL i t h
    refine ⟨c, hbox _ _ hc, fun ho => ?_⟩
    obtain ⟨w, u, d, hl, hlt, hw, hd, hpd⟩ := hcv ho
    exact ⟨w, u, d, hl, hlt, (has_append hT).mpr (Or.inl hw), hbox _ _ hd, hpd⟩
  · refine ⟨b, by rw [hB]; exact getElem?_snoc.mpr (Or.inr ⟨rfl, rfl⟩), fun ho => ?_⟩
    obtain ⟨w, u, d, hl, hw, hd, hpd⟩ := hv ho
    exact ⟨w, u, d, hl, has_lt hw, (has_append hT).mpr (Or.inl hw), hbox _ _ hd, hpd⟩

theorem Lent.remove {s : State} (hL : s.Lent) {i : Nat} (hn : ¬ s.Borrowed i) : (s.remove i).Lent := by
  intro j t h₀
  obtain ⟨hne, h⟩ := has_remove.mp h₀
  obtain ⟨c, hc, hcv⟩ := hL j t h
  refine ⟨c, hc, fun ho => ?_⟩
  obtain ⟨w, u, d, hl, hlt, hw, hd, hpd⟩ := hcv ho
  refine ⟨w, u, d, hl, hlt, has_remove.mpr ⟨?_, hw⟩, hd, hpd⟩
  rintro rfl
  exact hn ⟨j, t, h, hl⟩

theorem Lent.moveOut {s : State} (hL : s.Lent) {i : Nat} {t : Ten} {b : Box} (hn : ¬ s.Borrowed i) (hs : s.Sole i t.array) :
    (s.moveOut i t.array b).Lent := by
  intro j u h₀
  obtain ⟨hne, h⟩ := has_remove.mp h₀
  obtain ⟨c, hc, hcv⟩ := hL j u h
  have hua : u.array ≠ t.array := fun he => hne (hs.1 j u h he)
  refine ⟨c, by rw [moveOut_box hua]; exact hc, fun ho => ?_⟩
  obtain ⟨w, v, d, hl, hlt, hw, hd, hpd⟩ := hcv ho
  have hwi : w ≠ i := by
    rintro rfl
    exact hn ⟨j, u, h, hl⟩
  have hva : v.array ≠ t.array := fun he => hwi (hs.1 w v hw he)
  exact ⟨w, v, d, hl, hlt, has_remove.mpr ⟨hwi, hw⟩, by rw [moveOut_box hva]; exact hd, hpd⟩

/-- Only tensors that borrow from nobody are reshaped by value. -/
def Plain (s : State) : Op → Prop
  | .consume i _ => ∀ t, s.Has i t → t.lender = none
  | _ => True

theorem Lent.step {s s' : State} (hL : s.Lent) {o : Op} (hp : s.Plain o) (h : Step s o s') : s'.Lent := by
  cases h with
  | leaf => exact hL.add (by simp [own])
  | requireGradSame _ _ _ => exact hL
  | @requireGrad i t b h hb he =>
    have hset : ∀ j, (State.mk s.boxes (s.nodes ++ [⟨[], []⟩]) (s.tens.set i (some { t with requiresGrad := b, node := s.nodes.length }))).tens[j]? =
        if i = j then (if i < s.tens.length then some (some { t with requiresGrad := b, node := s.nodes.length }) else none)
        else s.tens[j]? := fun j => List.getElem?_set
    have hto : ∀ j u, s.Has j u → ∃ u', 
        State.Has (State.mk s.boxes (s.nodes ++ [⟨[], []⟩]) (s.tens.set i (some { t with requiresGrad := b, node := s.nodes.length }))) j u' ∧ u'.array = u.array := fun j u hj => by
      by_cases hij : i = j
      · subst hij
        obtain rfl := h.unique hj
        exact ⟨{ t with requiresGrad := b, node := s.nodes.length }, by unfold Has; rw [hset, if_pos rfl, if_pos (has_lt h)], rfl⟩
      · exact ⟨u, by unfold Has; rw [hset, if_neg hij]; exact hj, rfl⟩
    intro j u hj
    have hfrom : ∃ u', s.Has j u' ∧ u.array = u'.array ∧ u.lender = u'.lender := by
      unfold Has at hj
      rw [hset] at hj
      by_cases hij : i = j
      · subst hij
        rw [if_pos rfl, if_pos (has_lt h)] at hj
        cases hj
        exact ⟨t, h, rfl, rfl⟩
      · rw [if_neg hij] at hj
        exact ⟨u, hj, rfl, rfl⟩
    obtain ⟨u', hu', harr, hlen⟩ := hfrom
    obtain ⟨c, hc, hcv⟩ := hL j u' hu'
    refine ⟨c, by rw [harr]; exact hc, fun ho => ?_⟩
    obtain ⟨w, v, d, hl, hlt, hw, hd, hpd⟩ := hcv ho
    obtain ⟨v', hv', hva⟩ := hto w v hw
    exact ⟨w, v', d, by rw [hlen]; exact hl, hlt, hv', by rw [hva]; exact hd, hpd⟩
  | unary _ => exact hL.add (by simp [own])
  | binary _ _ => exact hL.add (by simp [own])
  | @view i t b share h hb => exact hL.add fun _ => ⟨i, t, b, rfl, h, hb, rfl⟩
  | @consumeSole i t b share h hn hb hs =>
    refine Lent.add (s := s.moveOut i t.array b) (hL.moveOut hn hs) fun hf => ?_
    obtain ⟨b', hb', hv⟩ := hL i t h
    rw [hb] at hb'
    cases hb'
    obtain ⟨w, _, _, hl, _⟩ := hv hf
    rw [hp t h] at hl
    cases hl
  | consumeShared _ hn _ => exact (hL.remove hn).add (by simp [own])
  | backward _ => exact hL
  | drop _ hn => exact hL.remove hn

end State

open State

/-- A history in which no view is reshaped by value. -/
inductive PlainRun : State → List Op → State → Prop
  | nil (s : State) : PlainRun s [] s
  | cons {s t u : State} {o : Op} {os : List Op} (hp : s.Plain o) (h : Step s o t) (hr : PlainRun t os u) :
      PlainRun s (o :: os) u

theorem Run.owns {s t : State} {os : List Op} (h : Run s os t) (hO : s.Owns) : t.Owns := by
  induction h with
  | nil => exact hO
  | cons h _ ih => exact ih (hO.step h)

theorem Run.wf {s t : State} {os : List Op} (h : Run s os t) (hW : s.WF) : t.WF := by
  induction h with
  | nil => exact hW
  | cons h _ ih => exact ih (hW.step h)

theorem PlainRun.run {s t : State} {os : List Op} (h : PlainRun s os t) : Run s os t := by
  induction h with
  | nil s => exact .nil s
  | cons _ h _ ih => exact .cons h ih

theorem PlainRun.lent {s t : State} {os : List Op} (h : PlainRun s os t) (hL : s.Lent) : t.Lent := by
  induction h with
  | nil => exact hL
  | cons hp h _ ih => exact ih (hL.step hp h)

/-- What is read is held. -/
theorem Reads.held {s : State} {o : Op} {a : Nat} (h : Reads s o a) : s.Held a := by
  cases h with
  | unary h => exact .inl ⟨_, _, h, rfl⟩
  | left h => exact .inl ⟨_, _, h, rfl⟩
  | right h => exact .inl ⟨_, _, h, rfl⟩
  | copy h _ => exact .inl ⟨_, _, h, rfl⟩
  | backward h hr hn ha => exact .inr ⟨_, _, _, _, h, hr, hn, ha⟩

/-- **C45, exactly.** Whatever operation, in any history: an array that is read points to freed memory if and only if it is a view,
and the array that owns its buffer (with a capacity other than 0) is held by no tensor and by no gradient function in use. -/
theorem C45_exact {os : List Op} {s : State} (h : Run State.init os s) {o : Op} {a : Nat} (hr : Reads s o a) :
    ∃ b, s.boxes[a]? = some b ∧ (s.Freed b.ptr ↔ b.owned = false ∧
      ∃ a' c, s.boxes[a']? = some c ∧ c.ptr = b.ptr ∧ c.owned = true ∧ c.cap ≠ 0 ∧ ¬ s.Held a') := by
  have hW := h.wf WF.init
  have hO := h.owns Owns.init
  have ha : a < s.boxes.length := by
    cases hr with
    | unary h => exact hW.array _ _ h
    | left h => exact hW.array _ _ h
    | right h => exact hW.array _ _ h
    | copy h _ => exact hW.array _ _ h
    | backward _ _ hn ha => exact hW.captures _ _ _ hn ha
  refine ⟨s.boxes[a], List.getElem?_eq_getElem ha, ⟨fun hf => ⟨?_, hf⟩, fun hf => hf.2⟩⟩
  rw [← Bool.not_eq_true]
  intro ho
  obtain ⟨a', c, hc, hp, hco, _, hn⟩ := hf
  obtain rfl := hO.uniq a a' _ c (List.getElem?_eq_getElem ha) hc ho hco hp.symm
  exact hn hr.held

/-- **C45.** If no view is reshaped by value, no operation other than `backward` reads memory that has been freed. Missing: `backward`
(`C45_exact`), and histories that reshape views by value (`C45_forward_false`). -/
theorem C45_forward_partial {os : List Op} {s : State} (h : PlainRun State.init os s) {o : Op} {a : Nat} (hr : Reads s o a)
    (hb : ∀ i, o ≠ .backward i) : ∃ b, s.boxes[a]? = some b ∧ ¬ s.Freed b.ptr := by
  have hO := h.run.owns Owns.init
  have hL := h.lent (s := State.init) fun i t h => by simp [State.init, Has] at h
  have live : ∀ i t b, s.Has i t → s.boxes[t.array]? = some b → ¬ s.Freed b.ptr := by
    intro i
    induction i using Nat.strongRecOn with
    | _ i ih =>
      intro t b h hb
      obtain ⟨b', hb', hv⟩ := hL i t h
      rw [hb] at hb'
      cases hb'
      cases ho : b.owned with
      | true =>
        rintro ⟨a', c, hc, hp, hco, _, hn⟩
        obtain rfl := hO.uniq _ a' b c hb hc ho hco hp.symm
        exact hn (.inl ⟨i, t, h, rfl⟩)
      | false =>
        obtain ⟨w, u, c, _, hlt, hw, hc, hp⟩ := hv ho
        rw [← hp]
        exact ih w hlt u c hw hc
  have ten : ∀ i t, s.Has i t → ∃ b, s.boxes[t.array]? = some b ∧ ¬ s.Freed b.ptr := by
    intro i t h
    obtain ⟨b, hb, _⟩ := hL i t h
    exact ⟨b, hb, live i t b h hb⟩
  cases hr with
  | unary h => exact ten _ _ h
  | left h => exact ten _ _ h
  | right h => exact ten _ _ h
  | copy h _ => exact ten _ _ h
  | backward _ _ _ _ => exact absurd rfl (hb _)

/-- `let w = (&x).view().reshape(..); drop(x); -&w`: without any gradient, the negation reads the freed buffer of `x`. -/
theorem C45_forward_false : ∃ (os : List Op) (s s' : State) (a : Nat) (b : Box), Run State.init os s ∧
    Step s (.unary 2 4 false) s' ∧ Reads s (.unary 2 4 false) a ∧ s.boxes[a]? = some b ∧ s.Freed b.ptr := by
  refine ⟨[.leaf 4, .view 0 true, .consume 1 false, .drop 0],
    ⟨[⟨0, 4, true⟩, ⟨0, 0, false⟩, ⟨0, 0, false⟩], [⟨[], []⟩, ⟨[], []⟩, ⟨[], []⟩], [none, none, some ⟨2, 2, false, none⟩]⟩,
    _, 2, ⟨0, 0, false⟩, ?_, .unary (t := ⟨2, 2, false, none⟩) rfl, .unary (t := ⟨2, 2, false, none⟩) rfl, rfl, ?_⟩
  · refine .cons .leaf (.cons (.view (t := ⟨0, 0, false, none⟩) (b := ⟨0, 4, true⟩) rfl rfl)
      (.cons (.consumeSole (t := ⟨1, 1, false, some 0⟩) (b := ⟨0, 0, false⟩) rfl ?_ rfl ⟨?_, ?_⟩)
        (.cons (.drop (t := ⟨0, 0, false, none⟩) rfl ?_) (.nil _))))
    · rintro ⟨j, t, hj, hl⟩
      match j, hj with
      | 0, hj => cases hj; cases hl
      | 1, hj => cases hj; cases hl
      | j + 2, hj => simp [Has, State.add, State.init] at hj
    · intro j t hj ha
      match j, hj with
      | 0, hj => cases hj; cases ha
      | 1, hj => rfl
      | j + 2, hj => simp [Has, State.add, State.init] at hj
    · rintro ⟨j, t, n, nd, hj, hr, hn, ha⟩
      match n, hn with
      | 0, hn => cases hn; simp at ha
      | 1, hn => cases hn; simp at ha
      | n + 2, hn => simp [State.add, State.init] at hn
    · rintro ⟨j, t, hj, hl⟩
      match j, hj with
      | 0, hj => cases hj; cases hl
      | 1, hj => cases hj
      | 2, hj => cases hj; cases hl
      | j + 3, hj => simp [Has, State.add, State.init, State.remove] at hj
  · refine ⟨0, ⟨0, 4, true⟩, rfl, rfl, rfl, by decide, ?_⟩
    rintro (⟨j, t, hj, ha⟩ | ⟨j, t, n, nd, hj, hr, hn, ha⟩)
    · match j, hj with
      | 0, hj => cases hj
      | 1, hj => cases hj
      | 2, hj => cases hj; cases ha
      | j + 3, hj => simp [Has] at hj
    · match n, hn with
      | 0, hn => cases hn; simp at ha
      | 1, hn => cases hn; simp at ha
      | 2, hn => cases hn; simp at ha
      | n + 3, hn => simp at hn

/-! A leaf, a view of it, and the negation of the view. -/

theorem viewRun : PlainRun State.init [.leaf 4, .view 0 false]
    ⟨[⟨0, 4, true⟩, ⟨0, 0, false⟩], [⟨[], []⟩, ⟨[], []⟩], [some ⟨0, 0, false, none⟩, some ⟨1, 1, false, some 0⟩]⟩ :=
  .cons trivial .leaf (.cons trivial (.view (t := ⟨0, 0, false, none⟩) (b := ⟨0, 4, true⟩) rfl rfl) (.nil _))

example := C45_exact viewRun.run (.unary (i := 1) (cap := 4) (share := false) rfl)
example := C45_forward_partial viewRun (.unary (i := 1) (cap := 4) (share := false) rfl) (by simp)

end Verif.TMem
