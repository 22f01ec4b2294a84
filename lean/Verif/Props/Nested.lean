import Verif.Lemmas.Nested
import Verif.Props.Construct

/-! # C01, C52: construction from nested vectors and arrays -/

namespace Verif

variable {α : Type}

/-- **C01.** `NdArray::new` of rectangular nested data without empty extents has the shape of the data, and its element at
`[i, j, ..]` is `data[i][j]..`. Missing: arrays containing vectors (`C01_array_of_vec_false`). -/
theorem C01_new_partial {t : NTy} (ht : t.noVecInArray = true) {v : t.Val α} {s : List Nat} (hr : t.Rect v s) (h0 : 0 ∉ s) :
    ∃ r f, Arr.new t v = .ok r ∧ r.Denotes s f ∧ ∀ idx, InB idx s → t.entry v idx = some (f idx) := by
  obtain ⟨data, h1, h2, h3⟩ := new_ok ht hr h0
  have hpos := numel_pos_of h0
  rw [← h2] at hpos
  refine ⟨_, fun idx => data.getD (rank idx s) (data[0]'hpos), h1, denotes_fromContiguous_getD h2 _, fun idx hi => ?_⟩
  have hlt : rank idx s < data.length := by rw [h2]; exact rank_lt hi
  show _ = some (data.getD (rank idx s) (data[0]'hpos))
  rw [← h3 idx hi, List.getD_eq_getElem?_getD, List.getElem?_eq_getElem hlt]; rfl

example := C01_new_partial (t := .vec .vec1) (v := ([[1, 2], [3, 4], [5, 6]] : NTy.Val Nat (.vec .vec1))) (s := [3, 2]) (by decide)
  ⟨_, rfl, fun x hx => by rcases hx with _ | ⟨_, _ | ⟨_, _ | ⟨_, ⟨⟩⟩⟩⟩ <;> rfl⟩ (by decide)

/-- `Vec<[[A; 2]; 2]>`. -/
def demoTy : NTy := .vec (.arr 2 (.arr1 2))
def demoVal : demoTy.Val Nat := [⟨[⟨[1, 2], rfl⟩, ⟨[3, 4], rfl⟩], rfl⟩, ⟨[⟨[5, 6], rfl⟩, ⟨[7, 8], rfl⟩], rfl⟩, ⟨[⟨[9, 10], rfl⟩, ⟨[11, 12], rfl⟩], rfl⟩]

example : demoTy.Rect demoVal [3, 2, 2] := ⟨_, rfl, fun _ _ => ⟨_, rfl, fun _ _ => rfl⟩⟩
example : ∃ r, Arr.new demoTy demoVal = .ok r ∧ r.shape = [3, 2, 2] ∧ r.index [2, 0, 1] = .ok 10 ∧ demoTy.entry demoVal [2, 0, 1] = some 10 :=
  ⟨_, rfl, rfl, rfl, rfl⟩

/-- **C01 is false** for arrays of vectors, e.g. `NdArray::new([vec![1, 2], vec![3, 4]])`: `flatten` copies the memory of
the array, that is, the bits of the two `Vec` headers, and takes them for numbers. -/
theorem C01_array_of_vec_false : Arr.new (.arr 2 .vec1) (⟨[[1, 2], [3, 4]], rfl⟩ : NTy.Val Nat (.arr 2 .vec1)) = .error .ub := rfl

/-- **C52** (part). With at most two nested levels of `Vec` (e.g. `Vec<Vec<A>>`, `Vec<Vec<[[A; 3]; 2]>>`), ragged data is
rejected with a panic. Missing: three and more levels (`C52_false`), vectors in arrays. -/
theorem C52_ragged_partial {t : NTy} (ht : t.noVecInArray = true) (hd : t.vecDepth ≤ 2) {v : t.Val α} (hr : ∀ s, ¬ t.Rect v s) :
    Arr.new t v = .error .panic := by
  cases h : Arr.new t v with
  | error e => rw [new_err ht h]
  | ok r => exact absurd (new_rect ht hd h) (hr _)

example : Arr.new (.vec .vec1) ([[1, 2], [3]] : NTy.Val Nat (.vec .vec1)) = .error .panic := rfl
example : ∀ s, ¬ NTy.Rect (.vec .vec1) ([[1, 2], [3]] : NTy.Val Nat (.vec .vec1)) s := by
  rintro _ ⟨s', rfl, h⟩
  have h1 : s' = [2] := h [1, 2] List.mem_cons_self
  have h2 : s' = [1] := h [3] (List.mem_cons_of_mem _ List.mem_cons_self)
  rw [h1] at h2; cases h2

/-- **C52** (part). For rectangular data of any depth, the product of the shape is the number of stored elements. -/
theorem C52_size_partial {t : NTy} {v : t.Val α} {s : List Nat} (hr : t.Rect v s) {r : Arr α} (h : Arr.new t v = .ok r) :
    r.shape = s ∧ r.len = numel r.shape ∧ r.buf.length = numel r.shape := by
  obtain ⟨_, s₀, data, hs, hf, _, rfl⟩ := new_inv h
  cases rect_shape hr hs
  have := (flatten_flat hr hf).1
  exact ⟨rfl, this, this⟩

example := C52_size_partial (t := .vec .vec1) (v := ([[1, 2], [3, 4], [5, 6]] : NTy.Val Nat (.vec .vec1))) (s := [3, 2])
  ⟨_, rfl, fun x hx => by rcases hx with _ | ⟨_, _ | ⟨_, _ | ⟨_, ⟨⟩⟩⟩⟩ <;> rfl⟩ rfl

/-- **C52** (part). Data with an empty extent is rejected. -/
theorem C52_empty_partial {t : NTy} (ht : t.noVecInArray = true) {v : t.Val α} {s : List Nat} (hr : t.Rect v s) (h0 : 0 ∈ s) :
    Arr.new t v = .error .panic := by
  cases h : Arr.new t v with
  | error e => rw [new_err ht h]
  | ok r =>
    obtain ⟨_, s₀, data, hs, hf, hne, rfl⟩ := new_inv h
    have hl := (flatten_flat hr hf).1
    have : numel s = 0 := numel_eq_zero.2 h0
    rw [this] at hl
    exact absurd (List.length_eq_zero_iff.1 hl) hne

example : Arr.new (.vec .vec1) ([[], []] : NTy.Val Nat (.vec .vec1)) = .error .panic := rfl

/-- **C52 is false** for three levels of `Vec`: `vec![vec![vec![1, 2], vec![3]], vec![vec![4, 5], vec![6, 7]]]` is accepted
(only the shapes of the outermost elements are compared, and a shape only looks at first elements); the result has shape
`[2, 2, 2]` but 7 elements, and iterating over it reads outside of its buffer. -/
theorem C52_false : ∃ r, Arr.new (.vec (.vec .vec1)) ([[[1, 2], [3]], [[4, 5], [6, 7]]] : NTy.Val Nat (.vec (.vec .vec1))) = .ok r ∧
    (∀ s, ¬ NTy.Rect (.vec (.vec .vec1)) ([[[1, 2], [3]], [[4, 5], [6, 7]]] : NTy.Val Nat (.vec (.vec .vec1))) s) ∧
    r.shape = [2, 2, 2] ∧ r.len = 7 ∧ r.flatiter = .error .oob := by
  refine ⟨_, rfl, ?_, rfl, rfl, by decide⟩
  rintro _ ⟨s', rfl, h⟩
  obtain ⟨s'', _, h⟩ := h [[1, 2], [3]] List.mem_cons_self
  have h1 : s'' = [2] := h [1, 2] List.mem_cons_self
  have h2 : s'' = [1] := h [3] (List.mem_cons_of_mem _ List.mem_cons_self)
  rw [h1] at h2; cases h2

theorem shape_iff {t : NTy} : ∀ {v : t.Val α} {s : List Nat}, t.shape v = .ok s ↔ t.Front v s := by
  induction t with
  | vec1 => exact fun {v s} => ⟨fun h => by cases h; rfl, fun h => by cases h; rfl⟩
  | arr1 n => exact fun {v s} => ⟨fun h => by cases h; rfl, fun h => by cases h; rfl⟩
  | vec t ih =>
    intro v s
    match v with
    | [] => exact ⟨fun h => (by cases h), fun h => (by obtain ⟨_, _, _, h, _⟩ := h; cases h)⟩
    | x :: l =>
      refine ⟨fun h => ?_, fun h => ?_⟩
      · obtain ⟨s₁, h1, h⟩ := bind_eq_ok.1 (show (t.shape x >>= fun s => _) = _ from h)
        cases h
        exact ⟨s₁, x, l, rfl, rfl, ih.1 h1⟩
      · obtain ⟨s', x', l', e, rfl, h⟩ := h
        cases e
        show (t.shape x >>= fun s => _) = _
        rw [ih.2 h]; rfl
  | arr n t ih =>
    intro v s
    match v with
    | ⟨[], hn⟩ => exact ⟨fun h => (by cases h), fun h => (by obtain ⟨_, _, _, h, _⟩ := h; cases h)⟩
    | ⟨x :: l, hn⟩ =>
      refine ⟨fun h => ?_, fun h => ?_⟩
      · obtain ⟨s₁, h1, h⟩ := bind_eq_ok.1 (show (t.shape x >>= fun s => _) = _ from h)
        cases h
        exact ⟨s₁, x, l, rfl, rfl, ih.1 h1⟩
      · obtain ⟨s', x', l', e, rfl, h⟩ := h
        cases e
        show (t.shape x >>= fun s => _) = _
        rw [ih.2 h]; rfl

theorem mapM_map {β γ : Type} {f : β → Res γ} {g : β → γ} {l : List β} (h : ∀ x ∈ l, f x = .ok (g x)) : l.mapM f = .ok (l.map g) := by
  induction l with
  | nil => rfl
  | cons x l ih =>
    rw [List.mapM_cons, h x List.mem_cons_self, ih fun y hy => h y (List.mem_cons_of_mem _ hy)]; rfl

theorem memory_numbers {t : NTy} (hp : t.plain = true) : ∀ (v : t.Val α), t.memory v = .ok (t.numbers v) := by
  induction t with
  | vec1 => cases hp
  | vec t _ => cases hp
  | arr1 n => intro v; rfl
  | arr n t ih =>
    intro v
    show (v.1.mapM t.memory >>= fun _ => _) = _
    rw [mapM_map fun x _ => ih hp x]; rfl

/-- Values of a type without vectors all look the same. -/
theorem plain_front {t : NTy} (hp : t.plain = true) : ∀ {w : t.Val α} {s : List Nat}, t.Front w s → ∀ v : t.Val α, t.Front v s := by
  induction t with
  | vec1 => cases hp
  | vec t _ => cases hp
  | arr1 n => intro w s h v; exact h
  | arr n t ih =>
    intro w s h v
    obtain ⟨s', x, l, e, rfl, h⟩ := h
    have hw := w.2
    rw [e] at hw
    obtain ⟨v, hv⟩ := v
    cases v with
    | nil => rw [← hv] at hw; cases hw
    | cons y v => exact ⟨s', y, v, rfl, rfl, ih hp h y⟩

/-- If some value of the type has a shape, `flatten` gives the numbers of every value, or the type holds vectors. -/
theorem flatten_numbers {t : NTy} (hn : t.noVecInArray = true) (hs : ∃ (v : t.Val α) (s : List Nat), t.Front v s) :
    ∀ v : t.Val α, t.flatten v = .ok (t.numbers v) := by
  induction t with
  | vec1 => intro v; rfl
  | arr1 n => intro v; rfl
  | vec t ih =>
    intro v
    obtain ⟨_, _, s', x, _, _, _, hx⟩ := hs
    show (List.mapM t.flatten v >>= fun _ => _) = _
    have := mapM_map (l := (show List (t.Val α) from v)) fun y _ => ih hn ⟨x, s', hx⟩ y
    exact congrArg (· >>= fun p : List (List α) => (.ok p.flatten : Res (List α))) this
  | arr n t ih =>
    intro v
    obtain ⟨w, s, hw⟩ := hs
    obtain ⟨s₀, hr⟩ := plain_rect (α := α) (t := .arr n t) hn
    cases rect_shape (hr w) (shape_iff.2 hw)
    have hv := shape_iff.2 (plain_front (t := .arr n t) hn hw v)
    have hm := memory_numbers (t := .arr n t) hn v
    have hf := memory_flat (hr v) hm
    show (NTy.shape (.arr n t) v >>= fun _ => _) = _
    rw [hv]
    show (NTy.memory (.arr n t) v >>= fun _ => _) = _
    rw [hm]
    show (if numel s ≤ (NTy.numbers (.arr n t) v).length then _ else _) = _
    rw [if_pos (by rw [hf.1]), List.take_of_length_le (by rw [hf.1])]; rfl

/-- **C52** (exactly what is accepted). Data of any depth, with no vectors in arrays: `NdArray::new` accepts it exactly if it
holds a number and the elements of the outermost `Vec` have the same lengths along their first elements; the result has
these lengths as its shape and all the numbers in its buffer. Everything else panics. -/
theorem C52_exact {t : NTy} (ht : t.noVecInArray = true) (v : t.Val α) :
    (∀ s, t.Checked v s → t.numbers v ≠ [] → Arr.new t v = .ok (Arr.fromContiguousOwnedBuffer s (t.numbers v))) ∧
    ((∀ s, ¬ t.Checked v s) ∨ t.numbers v = [] → Arr.new t v = .error .panic) := by
  have key : ∀ r, Arr.new t v = .ok r → ∃ s, t.Checked v s ∧ t.numbers v ≠ [] := by
    intro r h
    obtain ⟨hc, s, data, hs, hf, hne, rfl⟩ := new_inv h
    have hfr := shape_iff.1 hs
    rw [flatten_numbers ht ⟨v, s, hfr⟩ v] at hf
    cases hf
    refine ⟨s, ?_, hne⟩
    cases t with
    | vec1 => exact hfr
    | arr1 n => exact hfr
    | arr n t => exact hfr
    | vec t =>
      obtain ⟨s', x, l, rfl, rfl, hx⟩ := hfr
      obtain ⟨s₂, h2, hc⟩ := bind_eq_ok.1 (show (t.shape x >>= fun s => allShapes t.shape s (x :: l)) = _ from hc)
      rw [shape_iff.2 hx] at h2
      cases h2
      exact ⟨s', by simp, rfl, fun y hy => shape_iff.1 (allShapes_inv hc y hy)⟩
  refine ⟨fun s hs hne => ?_, fun h => ?_⟩
  · have hfr : t.Front v s := by
      cases t with
      | vec1 => exact hs
      | arr1 n => exact hs
      | arr n t => exact hs
      | vec t =>
        obtain ⟨s', h0, rfl, h⟩ := hs
        match v, h0, h with
        | [], h0, _ => exact absurd rfl h0
        | x :: l, _, h => exact ⟨s', x, l, rfl, rfl, h x List.mem_cons_self⟩
    have hc : t.checkHomogenous v = .ok true := by
      cases t with
      | vec1 => rfl
      | arr1 n => rfl
      | arr n t => rfl
      | vec t =>
        obtain ⟨s', h0, rfl, h⟩ := hs
        match v, h0, h with
        | [], h0, _ => exact absurd rfl h0
        | x :: l, _, h =>
          show (t.shape x >>= fun s => allShapes t.shape s (x :: l)) = _
          rw [shape_iff.2 (h x List.mem_cons_self)]
          exact allShapes_ok fun y hy => shape_iff.2 (h y hy)
    unfold Arr.new
    rw [hc]
    show (t.shape v >>= fun _ => _) = _
    rw [shape_iff.2 hfr]
    show (t.flatten v >>= fun _ => _) = _
    rw [flatten_numbers ht ⟨v, s, hfr⟩ v]
    show (assert (!(t.numbers v).isEmpty) >>= fun _ => _) = _
    rw [show (t.numbers v).isEmpty = false by simpa using hne]; rfl
  · cases hr : Arr.new t v with
    | error e => rw [new_err ht hr]
    | ok r =>
      obtain ⟨s, h1, h2⟩ := key r hr
      rcases h with h | h
      · exact absurd h1 (h s)
      · exact absurd h h2

/-- Ragged data which is accepted, as in `C52_false`. -/
example : NTy.Checked (.vec (.vec .vec1)) ([[[1, 2], [3]], [[4, 5], [6, 7]]] : NTy.Val Nat (.vec (.vec .vec1))) [2, 2, 2] :=
  ⟨_, by simp, rfl, fun x hx => by
    rcases List.mem_cons.1 hx with rfl | hx
    · exact ⟨_, _, _, rfl, rfl, rfl⟩
    · rcases List.mem_cons.1 hx with rfl | hx
      · exact ⟨_, _, _, rfl, rfl, rfl⟩
      · cases hx⟩

/-- Ragged data can even pass for rectangular: 8 numbers of shape `[2, 2, 2]`, but `data[0][1][1]` does not exist. -/
example : ∃ r, Arr.new (.vec (.vec .vec1)) ([[[1, 2], [3]], [[4, 5], [6, 7, 8]]] : NTy.Val Nat (.vec (.vec .vec1))) = .ok r ∧
    r.shape = [2, 2, 2] ∧ r.len = 8 ∧ r.index [0, 1, 1] = .ok 4 := ⟨_, rfl, rfl, rfl, rfl⟩

end Verif
