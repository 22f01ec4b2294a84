import Verif.Model.Nested
import Verif.Lemmas.Basics

/-! # Nested data -/

namespace Verif

variable {α β : Type}

theorem bind_eq_error {γ : Type} {x : Res β} {f : β → Res γ} {e : Err} :
    (x >>= f) = .error e ↔ x = .error e ∨ ∃ y, x = .ok y ∧ f y = .error e := by
  cases x with
  | error e' => exact ⟨fun h => .inl (by cases h; rfl), fun h => by rcases h with h | ⟨_, h, _⟩ <;> cases h; rfl⟩
  | ok y => exact ⟨fun h => .inr ⟨y, rfl, h⟩, fun h => by rcases h with h | ⟨_, h, h'⟩ <;> cases h; exact h'⟩

theorem first_ok {l : List β} {x : β} (h : first l = .ok x) : x ∈ l := by
  cases l with
  | nil => cases h
  | cons y l => cases h; exact List.mem_cons_self

theorem first_err {l : List β} {e : Err} (h : first l = .error e) : e = .panic := by
  cases l with
  | nil => cases h; rfl
  | cons y l => cases h

/-- Entry `i * m + j` of a concatenation of lists of length `m`. -/
theorem getElem?_flatten_uniform {m : Nat} {parts : List (List α)} (h : ∀ p ∈ parts, p.length = m) {i j : Nat} (hj : j < m) :
    parts.flatten[i * m + j]? = parts[i]?.bind fun p => p[j]? := by
  induction parts generalizing i with
  | nil => simp
  | cons p ps ih =>
    have hp := h p List.mem_cons_self
    rw [List.flatten_cons]
    cases i with
    | zero => rw [Nat.zero_mul, Nat.zero_add, List.getElem?_append_left (by omega)]; simp
    | succ i =>
      rw [List.getElem?_append_right (by rw [hp, Nat.succ_mul]; omega), hp,
        show (i + 1) * m + j - m = i * m + j by rw [Nat.succ_mul]; omega, ih fun q hq => h q (List.mem_cons_of_mem _ hq)]
      simp

theorem length_flatten_uniform {m : Nat} {parts : List (List α)} (h : ∀ p ∈ parts, p.length = m) : parts.flatten.length = parts.length * m := by
  induction parts with
  | nil => simp
  | cons p ps ih =>
    rw [List.flatten_cons, List.length_append, h p List.mem_cons_self, ih fun q hq => h q (List.mem_cons_of_mem _ hq), List.length_cons, Nat.succ_mul]
    omega

theorem mapM_inv {γ : Type} {f : β → Res γ} {l : List β} {r : List γ} (h : l.mapM f = .ok r) :
    r.length = l.length ∧ ∀ i : Nat, r[i]?.map Except.ok = l[i]?.map f := by
  induction l generalizing r with
  | nil => cases h; simp
  | cons x l ih =>
    rw [List.mapM_cons] at h
    obtain ⟨y, hy, h⟩ := bind_eq_ok.1 h
    obtain ⟨ys, hys, h⟩ := bind_eq_ok.1 h
    cases h
    obtain ⟨h1, h2⟩ := ih hys
    refine ⟨by simp [h1], fun i => ?_⟩
    cases i with
    | zero => simp [hy]
    | succ i => simpa using h2 i

theorem mapM_mem {γ : Type} {f : β → Res γ} {l : List β} {r : List γ} (h : l.mapM f = .ok r) {y : γ} (hy : y ∈ r) : ∃ x ∈ l, f x = .ok y := by
  obtain ⟨i, hi⟩ := List.mem_iff_getElem?.1 hy
  have := (mapM_inv h).2 i
  rw [hi] at this
  cases hx : l[i]? with
  | none => rw [hx] at this; cases this
  | some x =>
    rw [hx] at this
    exact ⟨x, List.mem_of_getElem? hx, (Option.some.inj this).symm⟩

theorem mapM_failed {γ : Type} {f : β → Res γ} {l : List β} {e : Err} (h : l.mapM f = .error e) : ∃ x ∈ l, f x = .error e := by
  induction l with
  | nil => cases h
  | cons x l ih =>
    rw [List.mapM_cons] at h
    cases hx : f x with
    | error e' =>
      rw [hx] at h
      cases h
      exact ⟨x, List.mem_cons_self, hx⟩
    | ok y =>
      rw [hx] at h
      cases hl : l.mapM f with
      | error e' =>
        rw [hl] at h
        cases h
        obtain ⟨z, hz, hz'⟩ := ih hl
        exact ⟨z, List.mem_cons_of_mem _ hz, hz'⟩
      | ok ys => rw [hl] at h; cases h

/-- What a flattened list has to be. -/
def Flat (t : NTy) (v : t.Val α) (s : List Nat) (l : List α) : Prop :=
  l.length = numel s ∧ ∀ idx, InB idx s → l[rank idx s]? = t.entry v idx

theorem flat_concat {t : NTy} {l : List (t.Val α)} {s' : List Nat} {f : t.Val α → Res (List α)} {parts : List (List α)}
    (h : l.mapM f = .ok parts) (hf : ∀ x ∈ l, ∀ p, f x = .ok p → Flat t x s' p) :
    parts.flatten.length = l.length * numel s' ∧
      ∀ i idx, i < l.length → InB idx s' → parts.flatten[i * numel s' + rank idx s']? = l[i]?.bind fun x => t.entry x idx := by
  obtain ⟨hl, hi⟩ := mapM_inv h
  have hlen : ∀ p ∈ parts, p.length = numel s' := by
    intro p hp
    obtain ⟨x, hx, e⟩ := mapM_mem h hp
    exact (hf x hx p e).1
  refine ⟨by rw [length_flatten_uniform hlen, hl], fun i idx hil hidx => ?_⟩
  rw [getElem?_flatten_uniform hlen (rank_lt hidx)]
  have h1 := hi i
  rw [List.getElem?_eq_getElem (by omega), List.getElem?_eq_getElem hil] at h1 ⊢
  have h2 : f l[i] = .ok (parts[i]'(by omega)) := (Option.some.inj h1).symm
  exact (hf _ (List.getElem_mem _) _ h2).2 idx hidx

theorem memory_flat {t : NTy} : ∀ {v : t.Val α} {s : List Nat} {l : List α}, t.Rect v s → t.memory v = .ok l → Flat t v s l := by
  induction t with
  | vec1 => intro v s l _ h; cases h
  | vec t _ => intro v s l _ h; cases h
  | arr1 n =>
    intro v s l hr h
    cases h
    cases hr
    refine ⟨by rw [v.2]; simp [numel], fun idx hi => ?_⟩
    match idx, hi with
    | [i], _ => simp [rank, NTy.entry, numel]
  | arr n t ih =>
    intro v s l hr h
    obtain ⟨s', rfl, hr⟩ := hr
    obtain ⟨parts, hp, h⟩ := bind_eq_ok.1 h
    cases h
    obtain ⟨h1, h2⟩ := flat_concat hp fun x hx p e => ih (hr x hx) e
    refine ⟨by rw [h1, v.2]; rfl, fun idx hi => ?_⟩
    match idx, hi with
    | i :: idx, hi => exact h2 i idx (by rw [v.2]; exact hi.1) hi.2

theorem rect_shape {t : NTy} : ∀ {v : t.Val α} {s s₀ : List Nat}, t.Rect v s → t.shape v = .ok s₀ → s₀ = s := by
  induction t with
  | vec1 => intro v s s₀ hr h; cases h; exact hr.symm
  | arr1 n => intro v s s₀ hr h; cases h; exact hr.symm
  | vec t ih =>
    intro v s s₀ hr h
    obtain ⟨s', rfl, hr⟩ := hr
    obtain ⟨x, hx, h⟩ := bind_eq_ok.1 h
    obtain ⟨s₁, h1, h⟩ := bind_eq_ok.1 h
    cases h
    rw [ih (hr x (first_ok hx)) h1]
  | arr n t ih =>
    intro v s s₀ hr h
    obtain ⟨s', rfl, hr⟩ := hr
    obtain ⟨x, hx, h⟩ := bind_eq_ok.1 h
    obtain ⟨s₁, h1, h⟩ := bind_eq_ok.1 h
    cases h
    rw [ih (hr x (first_ok hx)) h1]

theorem flatten_flat {t : NTy} : ∀ {v : t.Val α} {s : List Nat} {l : List α}, t.Rect v s → t.flatten v = .ok l → Flat t v s l := by
  induction t with
  | vec1 =>
    intro v s l hr h
    cases h
    cases hr
    refine ⟨by simp [numel], fun idx hi => ?_⟩
    match idx, hi with
    | [i], _ => simp [rank, NTy.entry, numel]
  | arr1 n => intro v s l hr h; exact memory_flat hr h
  | vec t ih =>
    intro v s l hr h
    obtain ⟨s', rfl, hr⟩ := hr
    obtain ⟨parts, hp, h⟩ := bind_eq_ok.1 h
    cases h
    obtain ⟨h1, h2⟩ := flat_concat hp fun x hx p e => ih (hr x hx) e
    refine ⟨h1, fun idx hi => ?_⟩
    match idx, hi with
    | i :: idx, hi => exact h2 i idx hi.1 hi.2
  | arr n t ih =>
    intro v s l hr h
    obtain ⟨s₀, hs, h⟩ := bind_eq_ok.1 h
    obtain ⟨m, hm, h⟩ := bind_eq_ok.1 h
    cases rect_shape hr hs
    have hf := memory_flat hr hm
    rw [if_pos (by rw [hf.1])] at h
    cases h
    rw [List.take_of_length_le (by rw [hf.1])]
    exact hf

/-! ### success -/

theorem shape_ok {t : NTy} : ∀ {v : t.Val α} {s : List Nat}, t.Rect v s → 0 ∉ s → t.shape v = .ok s := by
  induction t with
  | vec1 => intro v s hr _; cases hr; rfl
  | arr1 n => intro v s hr _; cases hr; rfl
  | vec t ih =>
    intro v s hr h0
    obtain ⟨s', rfl, hr⟩ := hr
    match v, hr, h0 with
    | [], _, h0 => simp at h0
    | x :: v, hr, h0 =>
      show (t.shape x >>= fun s => _) = _
      rw [ih (hr x List.mem_cons_self) fun h => h0 (List.mem_cons_of_mem _ h)]; rfl
  | arr n t ih =>
    intro v s hr h0
    obtain ⟨s', rfl, hr⟩ := hr
    match v, hr with
    | ⟨[], hn⟩, _ => simp [← hn] at h0
    | ⟨x :: l, hn⟩, hr =>
      show (t.shape x >>= fun s => _) = _
      rw [ih (hr x List.mem_cons_self) fun h => h0 (List.mem_cons_of_mem _ h)]; rfl

theorem mapM_exists {γ : Type} {f : β → Res γ} {l : List β} (h : ∀ x ∈ l, ∃ y, f x = .ok y) : ∃ r, l.mapM f = .ok r := by
  cases hm : l.mapM f with
  | ok r => exact ⟨r, rfl⟩
  | error e =>
    obtain ⟨x, hx, e'⟩ := mapM_failed hm
    obtain ⟨y, hy⟩ := h x hx
    rw [hy] at e'; cases e'

theorem memory_ok {t : NTy} (hp : t.plain = true) : ∀ (v : t.Val α), ∃ l, t.memory v = .ok l := by
  induction t with
  | vec1 => cases hp
  | vec t _ => cases hp
  | arr1 n => intro v; exact ⟨_, rfl⟩
  | arr n t ih =>
    intro v
    obtain ⟨parts, h⟩ := mapM_exists (l := v.1) fun x _ => ih hp x
    exact ⟨parts.flatten, by show (v.1.mapM t.memory >>= fun _ => _) = _; rw [h]; rfl⟩

theorem flatten_ok {t : NTy} (hn : t.noVecInArray = true) : ∀ {v : t.Val α} {s : List Nat}, t.Rect v s → 0 ∉ s → ∃ l, t.flatten v = .ok l := by
  induction t with
  | vec1 => intro v s _ _; exact ⟨_, rfl⟩
  | arr1 n => intro v s _ _; exact ⟨_, rfl⟩
  | vec t ih =>
    intro v s hr h0
    obtain ⟨s', rfl, hr⟩ := hr
    obtain ⟨parts, h⟩ := mapM_exists (l := v) fun x hx => ih hn (hr x hx) fun h => h0 (List.mem_cons_of_mem _ h)
    exact ⟨parts.flatten, by show (List.mapM t.flatten v >>= fun _ => _) = _; rw [h]; rfl⟩
  | arr n t ih =>
    intro v s hr h0
    obtain ⟨m, hm⟩ := memory_ok (t := .arr n t) hn v
    refine ⟨m.take (numel s), ?_⟩
    show (NTy.shape (.arr n t) v >>= fun _ => _) = _
    rw [shape_ok hr h0]
    show (NTy.memory (.arr n t) v >>= fun _ => _) = _
    rw [hm]
    show (if numel s ≤ m.length then _ else _) = _
    rw [if_pos (by rw [(memory_flat hr hm).1])]; rfl

theorem allShapes_ok {sh : β → Res (List Nat)} {s : List Nat} {l : List β} (h : ∀ x ∈ l, sh x = .ok s) : allShapes sh s l = .ok true := by
  induction l with
  | nil => rfl
  | cons x l ih =>
    unfold allShapes
    rw [h x List.mem_cons_self]
    show (if s = s then allShapes sh s l else _) = _
    rw [if_pos rfl]
    exact ih fun y hy => h y (List.mem_cons_of_mem _ hy)

theorem allShapes_inv {sh : β → Res (List Nat)} {s : List Nat} {l : List β} (h : allShapes sh s l = .ok true) : ∀ x ∈ l, sh x = .ok s := by
  induction l with
  | nil => intro x hx; cases hx
  | cons y l ih =>
    unfold allShapes at h
    obtain ⟨s', h1, h⟩ := bind_eq_ok.1 h
    split at h
    · rename_i e
      subst e
      intro x hx
      rcases List.mem_cons.1 hx with rfl | hx
      · exact h1
      · exact ih h x hx
    · cases h

theorem check_ok {t : NTy} {v : t.Val α} {s : List Nat} (hr : t.Rect v s) (h0 : 0 ∉ s) : t.checkHomogenous v = .ok true := by
  cases t with
  | vec1 => rfl
  | arr1 n => rfl
  | arr n t => rfl
  | vec t =>
    obtain ⟨s', rfl, hr⟩ := hr
    have hx : ∀ x ∈ (show List (t.Val α) from v), t.shape x = .ok s' := fun x hx => shape_ok (hr x hx) fun h => h0 (List.mem_cons_of_mem _ h)
    match v, hx, h0 with
    | [], _, h0 => simp at h0
    | x :: v, hx, _ =>
      show (t.shape x >>= fun s => allShapes t.shape s (x :: v)) = _
      rw [hx x List.mem_cons_self]
      exact allShapes_ok hx

theorem numel_pos_of {s : List Nat} (h : 0 ∉ s) : 0 < numel s := by
  induction s with
  | nil => simp [numel]
  | cons n s ih =>
    have hn : n ≠ 0 := fun e => h (by simp [e])
    exact Nat.mul_pos (Nat.pos_of_ne_zero hn) (ih fun h' => h (List.mem_cons_of_mem _ h'))

/-- Rectangular data without empty extents is accepted. -/
theorem new_ok {t : NTy} (hn : t.noVecInArray = true) {v : t.Val α} {s : List Nat} (hr : t.Rect v s) (h0 : 0 ∉ s) :
    ∃ data, Arr.new t v = .ok (Arr.fromContiguousOwnedBuffer s data) ∧ Flat t v s data := by
  obtain ⟨l, hl⟩ := flatten_ok hn hr h0
  have hf := flatten_flat hr hl
  refine ⟨l, ?_, hf⟩
  have hpos : l.isEmpty = false := by
    have := numel_pos_of h0
    rw [← hf.1] at this
    cases l with
    | nil => simp at this
    | cons _ _ => rfl
  unfold Arr.new
  rw [check_ok hr h0]
  show (t.shape v >>= fun _ => _) = _
  rw [shape_ok hr h0]
  show (t.flatten v >>= fun _ => _) = _
  rw [hl]
  show (assert (!l.isEmpty) >>= fun _ => _) = _
  rw [hpos]; rfl

/-! ### rejection -/

theorem shape_err {t : NTy} : ∀ {v : t.Val α} {e : Err}, t.shape v = .error e → e = .panic := by
  induction t with
  | vec1 => intro v e h; cases h
  | arr1 n => intro v e h; cases h
  | vec t ih =>
    intro v e h
    rcases bind_eq_error.1 h with h | ⟨x, _, h⟩
    · exact first_err h
    · rcases bind_eq_error.1 h with h | ⟨_, _, h⟩
      · exact ih h
      · cases h
  | arr n t ih =>
    intro v e h
    rcases bind_eq_error.1 h with h | ⟨x, _, h⟩
    · exact first_err h
    · rcases bind_eq_error.1 h with h | ⟨_, _, h⟩
      · exact ih h
      · cases h

theorem plain_rect {t : NTy} (hp : t.plain = true) : ∃ s, ∀ v : t.Val α, t.Rect v s := by
  induction t with
  | vec1 => cases hp
  | vec t _ => cases hp
  | arr1 n => exact ⟨[n], fun _ => rfl⟩
  | arr n t ih =>
    obtain ⟨s, h⟩ := ih hp
    exact ⟨n :: s, fun v => ⟨s, rfl, fun x _ => h x⟩⟩

theorem flatten_err {t : NTy} (hn : t.noVecInArray = true) : ∀ {v : t.Val α} {e : Err}, t.flatten v = .error e → e = .panic := by
  induction t with
  | vec1 => intro v e h; cases h
  | arr1 n => intro v e h; cases h
  | vec t ih =>
    intro v e h
    rcases bind_eq_error.1 h with h | ⟨_, _, h⟩
    · obtain ⟨x, _, h⟩ := mapM_failed h
      exact ih hn h
    · cases h
  | arr n t ih =>
    intro v e h
    rcases bind_eq_error.1 h with h | ⟨s₀, hs, h⟩
    · exact shape_err h
    · obtain ⟨m, hm⟩ := memory_ok (t := .arr n t) hn v
      rw [hm] at h
      obtain ⟨s, hr⟩ := plain_rect (α := α) (t := .arr n t) hn
      cases rect_shape (hr v) hs
      have hf := memory_flat (hr v) hm
      replace h : (if numel s₀ ≤ m.length then (pure (m.take (numel s₀)) : Res (List α)) else throw .oob) = .error e := h
      rw [if_pos (by rw [hf.1])] at h
      cases h

theorem allShapes_err {sh : β → Res (List Nat)} {s : List Nat} (hs : ∀ x e, sh x = .error e → e = .panic) {l : List β} {e : Err}
    (h : allShapes sh s l = .error e) : e = .panic := by
  induction l with
  | nil => cases h
  | cons x l ih =>
    unfold allShapes at h
    rcases bind_eq_error.1 h with h | ⟨_, _, h⟩
    · exact hs x e h
    · split at h
      · exact ih h
      · cases h

theorem check_err {t : NTy} {v : t.Val α} {e : Err} (h : t.checkHomogenous v = .error e) : e = .panic := by
  cases t with
  | vec1 => cases h
  | arr1 n => cases h
  | arr n t => cases h
  | vec t =>
    rcases bind_eq_error.1 h with h | ⟨_, _, h⟩
    · exact first_err h
    · rcases bind_eq_error.1 h with h | ⟨_, _, h⟩
      · exact shape_err h
      · exact allShapes_err (fun x e => shape_err) h

/-- Data without vectors in arrays is accepted or rejected with a panic. -/
theorem new_err {t : NTy} (hn : t.noVecInArray = true) {v : t.Val α} {e : Err} (h : Arr.new t v = .error e) : e = .panic := by
  rcases bind_eq_error.1 h with h | ⟨b, _, h⟩
  · exact check_err h
  rcases bind_eq_error.1 h with h | ⟨_, _, h⟩
  · unfold assert at h; split at h <;> cases h; rfl
  rcases bind_eq_error.1 h with h | ⟨s, _, h⟩
  · exact shape_err h
  rcases bind_eq_error.1 h with h | ⟨l, _, h⟩
  · exact flatten_err hn h
  rcases bind_eq_error.1 h with h | ⟨_, _, h⟩
  · unfold assert at h; split at h <;> cases h; rfl
  · cases h

theorem new_inv {t : NTy} {v : t.Val α} {r : Arr α} (h : Arr.new t v = .ok r) :
    t.checkHomogenous v = .ok true ∧ ∃ s data, t.shape v = .ok s ∧ t.flatten v = .ok data ∧ data ≠ [] ∧ r = Arr.fromContiguousOwnedBuffer s data := by
  obtain ⟨b, hb, h⟩ := bind_eq_ok.1 h
  obtain ⟨_, h1, h⟩ := bind_eq_ok.1 h
  obtain ⟨s, hs, h⟩ := bind_eq_ok.1 h
  obtain ⟨l, hl, h⟩ := bind_eq_ok.1 h
  obtain ⟨_, h2, h⟩ := bind_eq_ok.1 h
  cases h
  refine ⟨?_, s, l, hs, hl, ?_, rfl⟩
  · cases b with
    | true => exact hb
    | false => cases h1
  · rintro rfl; cases h2

/-- With at most one level of vectors, the shape determined from first elements is the shape of the data. -/
theorem shape_rect {t : NTy} (hn : t.noVecInArray = true) (hd : t.vecDepth ≤ 1) : ∀ {v : t.Val α} {s : List Nat}, t.shape v = .ok s → t.Rect v s := by
  intro v s h
  cases t with
  | vec1 => cases h; rfl
  | arr1 n => cases h; rfl
  | arr n t =>
    obtain ⟨s', hr⟩ := plain_rect (α := α) (t := .arr n t) hn
    rw [rect_shape (hr v) h]; exact hr v
  | vec t =>
    have ht : t.plain = true := by
      cases t with
      | vec1 => simp [NTy.vecDepth] at hd
      | arr1 n => rfl
      | arr n t => exact hn
      | vec t => simp [NTy.vecDepth] at hd
    obtain ⟨x, hx, h⟩ := bind_eq_ok.1 h
    obtain ⟨s₁, h1, h⟩ := bind_eq_ok.1 h
    cases h
    obtain ⟨s', hr⟩ := plain_rect (α := α) ht
    cases rect_shape (hr x) h1
    exact ⟨s₁, rfl, fun y _ => hr y⟩

/-- With at most two levels of vectors, only rectangular data is accepted. -/
theorem new_rect {t : NTy} (hn : t.noVecInArray = true) (hd : t.vecDepth ≤ 2) {v : t.Val α} {r : Arr α} (h : Arr.new t v = .ok r) : t.Rect v r.shape := by
  obtain ⟨hc, s, data, hs, _, _, rfl⟩ := new_inv h
  show t.Rect v s
  cases t with
  | vec1 => exact shape_rect hn (by simp [NTy.vecDepth]) hs
  | arr1 n => exact shape_rect hn (by simp [NTy.vecDepth]) hs
  | arr n t => exact shape_rect hn (by simp [NTy.vecDepth]) hs
  | vec t =>
    obtain ⟨x, hx, hs⟩ := bind_eq_ok.1 hs
    obtain ⟨s₁, h1, hs⟩ := bind_eq_ok.1 hs
    cases hs
    obtain ⟨x', hx', hc⟩ := bind_eq_ok.1 hc
    obtain ⟨s₂, h2, hc⟩ := bind_eq_ok.1 hc
    rw [hx] at hx'
    cases hx'
    rw [h1] at h2
    cases h2
    exact ⟨s₁, rfl, fun y hy => shape_rect (t := t) hn (by simpa [NTy.vecDepth] using hd) (allShapes_inv hc y hy)⟩

end Verif
