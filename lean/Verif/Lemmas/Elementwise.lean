import Verif.Lemmas.Kernels
import Verif.Lemmas.Inj

set_option linter.unusedSimpArgs false

/-!
# The operators on arrays, for any correct family of kernels
-/

namespace Verif

variable {α : Type}

theorem mapM_id_elements {s : List Nat} {w : List Nat → Res α} {h : List Nat → α}
    (hw : ∀ idx, InB idx s → w idx = .ok (h idx)) : (elements s w).mapM id = .ok (elements s h) := by
  unfold elements
  have : ∀ l : List (List Nat), (∀ x ∈ l, InB x s) → (l.map w).mapM id = (.ok (l.map h) : Res (List α)) := by
    intro l
    induction l with
    | nil => intro _; rfl
    | cons x l ih =>
      intro hx
      rw [List.map_cons, List.mapM_cons, ih (fun y hy => hx y (List.mem_cons_of_mem _ hy)), id,
        hw x (hx x (by simp))]; rfl
  exact this _ (fun x hx => mem_indices.1 hx)

/-- If some result is an error and all errors are panics, the first error is a panic. -/
theorem mapM_id_panic {ws : List (Res α)} (h1 : ∃ e, Except.error e ∈ ws) (h2 : ∀ e, Except.error e ∈ ws → e = .panic) :
    ws.mapM id = .error .panic := by
  induction ws with
  | nil => obtain ⟨e, h⟩ := h1; cases h
  | cons w ws ih =>
    rw [List.mapM_cons, id]
    cases w with
    | error e => rw [h2 e (by simp)]; rfl
    | ok v =>
      simp only [ok_bind]
      rw [ih]; rfl
      · obtain ⟨e, he⟩ := h1
        rcases List.mem_cons.1 he with h | h
        · cases h
        · exact ⟨e, h⟩
      · intro e he; exact h2 e (List.mem_cons_of_mem _ he)

theorem mem_elements {s : List Nat} {w : List Nat → α} {x : α} : x ∈ elements s w ↔ ∃ idx, InB idx s ∧ w idx = x := by
  unfold elements
  simp [mem_indices]

/-- Element `k` (in row-major order) of a denoting array. -/
theorem Arr.Denotes.load {a : Arr α} {s : List Nat} {f : List Nat → α} (ha : a.Denotes s f) {m : Mem α} {reg : Nat}
    (hm : m[reg]? = some a.buf) {k x : Nat} (hx : (offsets s a.stride)[k]? = some x) :
    m.load (Ptr.add ⟨reg, a.off⟩ x) = .ok (f (unrank s k)) := by
  have hk : k < numel s := by
    have := (List.getElem?_eq_some_iff.1 hx).1
    rwa [length_offsets] at this
  have hx' : x = offset (unrank s k) a.stride := by
    simp only [offsets, List.getElem?_map, getElem?_indices hk, Option.map_some, Option.some.injEq] at hx
    exact hx.symm
  subst hx'
  exact Mem.load_ok hm (ha.2.2 _ (InB_unrank hk))

/-- Strides that read the elements `g idx` of a buffer. -/
theorem load_offsets {m : Mem α} {reg o : Nat} {buf : List α} {s st : List Nat} {g : List Nat → α}
    (hm : m[reg]? = some buf) (h : ∀ idx, InB idx s → buf[o + offset idx st]? = some (g idx)) {k x : Nat}
    (hx : (offsets s st)[k]? = some x) : m.load (Ptr.add ⟨reg, o⟩ x) = .ok (g (unrank s k)) := by
  have hk : k < numel s := by
    have := (List.getElem?_eq_some_iff.1 hx).1
    rwa [length_offsets] at this
  have hx' : x = offset (unrank s k) st := by
    simp only [offsets, List.getElem?_map, getElem?_indices hk, Option.map_some, Option.some.injEq] at hx
    exact hx.symm
  subst hx'
  exact Mem.load_ok hm (h _ (InB_unrank hk))

theorem lt_of_offsets {s st : List Nat} {k x : Nat} (hx : (offsets s st)[k]? = some x) : k < numel s := by
  have := (List.getElem?_eq_some_iff.1 hx).1
  rwa [length_offsets] at this

theorem getElem?_offsets {s st : List Nat} {k : Nat} (hk : k < numel s) :
    (offsets s st)[k]? = some (offset (unrank s k) st) := by
  simp only [offsets, List.getElem?_map, getElem?_indices hk, Option.map_some]

/-- `a op b`, for compatible shapes. -/
theorem binOp_or {f : α → α → Res α} {K : BinKernels α} {P : Nat → Prop} (hK : K.Correct f P) (dflt : α) {a b : Arr α}
    {s t r : List Nat} {fa fb : List Nat → α} (ha : a.Denotes s fa) (hb : b.Denotes t fb) (hc : Compatible s t)
    (hj : IsJoint s t r) (hP : P (numel r)) :
    a.binOp f K dflt b = (do
      let data ← (elements r fun idx => f (fa (broadcastIndex s idx)) (fb (broadcastIndex t idx))).mapM id
      return Arr.fromContiguousOwnedBuffer r data) ∨
    ((∃ lst rst, broadcastStride a.stride r s = .ok lst ∧ broadcastStride b.stride r t = .ok rst ∧
      ¬ (AxesFit r lst ∧ AxesFit r rst)) ∧ a.binOp f K dflt b = .error .panic) := by
  obtain ⟨rfl, hla, hfa⟩ := ha
  obtain ⟨rfl, hlb, hfb⟩ := hb
  obtain ⟨r', h1, h2⟩ := (broadcastShapes_spec _ _).1 hc
  have : r' = r := h2.unique hj
  subst this
  obtain ⟨hba, hbb⟩ := hj.broadcastsTo hc
  obtain ⟨lst, e1, e2, e3⟩ := broadcastStride_ok hla hba
  obtain ⟨rst, g1, g2, g3⟩ := broadcastStride_ok hlb hbb
  unfold Arr.binOp
  rw [h1]
  simp only [ok_bind]
  rw [e1, g1]
  simp only [ok_bind]
  have hready : Ready f [a.buf, b.buf, List.replicate (numel r') dflt] ⟨0, a.off⟩ ⟨1, b.off⟩ ⟨2, 0⟩
      (offsets r' lst) (offsets r' rst)
      (elements r' fun idx => f (fa (broadcastIndex a.shape idx)) (fb (broadcastIndex b.shape idx))) := by
    refine ⟨by rw [length_offsets, length_elements], by rw [length_offsets, length_elements],
      fun _ => ⟨_, rfl, by simp [length_elements]⟩, ?_, ?_, ?_⟩
    · intro k x y hx hy
      refine ⟨_, _, load_offsets (buf := a.buf) (g := fun idx => fa (broadcastIndex a.shape idx)) rfl ?_ hx,
        load_offsets (buf := b.buf) (g := fun idx => fb (broadcastIndex b.shape idx)) rfl ?_ hy, ?_⟩
      · intro idx hi
        rw [(e3 idx hi).2]; exact hfa _ (e3 idx hi).1
      · intro idx hi
        rw [(g3 idx hi).2]; exact hfb _ (g3 idx hi).1
      · exact getElem?_elements (lt_of_offsets hx)
    · intro j k x _ _ h
      have := congrArg Ptr.reg h
      simp [Ptr.add] at this
    · intro j k x _ _ h
      have := congrArg Ptr.reg h
      simp [Ptr.add] at this
  rcases binKernel_or hK e2.symm g2.symm hP hready with hk | ⟨hk1, hk2⟩
  rotate_left
  · rw [hk2]
    exact .inr ⟨⟨lst, rst, rfl, rfl, hk1⟩, rfl⟩
  left
  rw [hk]
  unfold finish
  cases hz : (elements r' fun idx => f (fa (broadcastIndex a.shape idx)) (fb (broadcastIndex b.shape idx))).mapM id with
  | error e => rfl
  | ok zs =>
    have hlen := mapM_eq_ok_length hz
    rw [length_elements] at hlen
    simp only [ok_bind, pure_res]
    rw [Mem.write_of (r := List.replicate (numel r') dflt) (by rfl)]
    simp only [Mem.region, List.getElem?_set, List.set_cons_succ, List.set_cons_zero]
    simp only [List.getElem?_cons_succ, List.getElem?_cons_zero, ok_bind]
    rw [writeAt_full (by simp [hlen])]

theorem binOp_eq {f : α → α → Res α} {K : BinKernels α} {P : Nat → Prop} (hK : K.Correct f P) (dflt : α) {a b : Arr α}
    {s t r : List Nat} {fa fb : List Nat → α} (ha : a.Denotes s fa) (hb : b.Denotes t fb) (hc : Compatible s t)
    (hj : IsJoint s t r) (hd : r.length ≤ maxDims) (hP : P (numel r)) :
    a.binOp f K dflt b = (do
      let data ← (elements r fun idx => f (fa (broadcastIndex s idx)) (fb (broadcastIndex t idx))).mapM id
      return Arr.fromContiguousOwnedBuffer r data) :=
  (binOp_or hK dflt ha hb hc hj hP).resolve_right fun ⟨⟨_, _, _, _, h⟩, _⟩ => h ⟨axesFit_of_rank hd, axesFit_of_rank hd⟩

/-- `a op s` for a scalar. -/
theorem binOpScalar_or {f : α → α → Res α} {K : BinKernels α} {P : Nat → Prop} (hK : K.Correct f P) (dflt : α) {a : Arr α}
    {s : List Nat} {fa : List Nat → α} (ha : a.Denotes s fa) (v : α) (hP : P (numel s)) :
    a.binOpScalar f K dflt v = (do
      let data ← (elements s fun idx => f (fa idx) v).mapM id
      return Arr.fromContiguousOwnedBuffer s data) ∨
    (¬ AxesFit s a.stride ∧ a.binOpScalar f K dflt v = .error .panic) := by
  obtain ⟨rfl, hla, hfa⟩ := ha
  have hready : Ready f [a.buf, [v], List.replicate a.size dflt] ⟨0, a.off⟩ ⟨1, 0⟩ ⟨2, 0⟩
      (offsets a.shape a.stride) (multiples (numel a.shape) 0) (elements a.shape fun idx => f (fa idx) v) := by
    refine ⟨by rw [length_offsets, length_elements], by rw [length_multiples, length_elements],
      fun _ => ⟨_, rfl, by simp [length_elements, Arr.size]⟩, ?_, ?_, ?_⟩
    · intro k x y hx hy
      have hk := lt_of_offsets hx
      rw [getElem?_multiples hk] at hy
      cases hy
      exact ⟨_, v, load_offsets (buf := a.buf) (g := fa) rfl hfa hx, rfl, getElem?_elements hk⟩
    · intro j k x _ _ h
      have := congrArg Ptr.reg h
      simp [Ptr.add] at this
    · intro j k x _ _ h
      have := congrArg Ptr.reg h
      simp [Ptr.add] at this
  unfold Arr.binOpScalar
  rcases binScalarKernel_or hK hla.symm hP hready with hk | ⟨hk1, hk2⟩
  rotate_left
  · rw [hk2]
    exact .inr ⟨hk1, rfl⟩
  left
  rw [hk]
  unfold finish
  cases hz : (elements a.shape fun idx => f (fa idx) v).mapM id with
  | error e => rfl
  | ok zs =>
    have hlen := mapM_eq_ok_length hz
    rw [length_elements] at hlen
    simp only [ok_bind, pure_res]
    rw [Mem.write_of (r := List.replicate a.size dflt) (by rfl)]
    simp only [Mem.region, List.getElem?_set, List.set_cons_succ, List.set_cons_zero]
    simp only [List.getElem?_cons_succ, List.getElem?_cons_zero, ok_bind]
    rw [writeAt_full (by simp [hlen, Arr.size])]

theorem binOpScalar_eq {f : α → α → Res α} {K : BinKernels α} {P : Nat → Prop} (hK : K.Correct f P) (dflt : α) {a : Arr α}
    {s : List Nat} {fa : List Nat → α} (ha : a.Denotes s fa) (v : α) (hd : s.length ≤ maxDims) (hP : P (numel s)) :
    a.binOpScalar f K dflt v = (do
      let data ← (elements s fun idx => f (fa idx) v).mapM id
      return Arr.fromContiguousOwnedBuffer s data) :=
  (binOpScalar_or hK dflt ha v hP).resolve_right fun h => h.1 (axesFit_of_rank hd)

/-- `-a`. -/
theorem neg_or {g : α → Res α} {K : UnKernels α} {P : Nat → Prop} (hK : K.Correct g P) (dflt : α) {a : Arr α}
    {s : List Nat} {fa : List Nat → α} (ha : a.Denotes s fa) (hP : P (numel s)) :
    a.neg g K dflt = (do
      let data ← (elements s fun idx => g (fa idx)).mapM id
      return Arr.fromContiguousOwnedBuffer s data) ∨
    (¬ AxesFit s a.stride ∧ a.neg g K dflt = .error .panic) := by
  obtain ⟨rfl, hla, hfa⟩ := ha
  have hready : Ready (fun x _ => g x) [a.buf, List.replicate a.size dflt] ⟨0, a.off⟩ ⟨0, a.off⟩ ⟨1, 0⟩
      (offsets a.shape a.stride) (offsets a.shape a.stride) (elements a.shape fun idx => g (fa idx)) := by
    refine ⟨by rw [length_offsets, length_elements], by rw [length_offsets, length_elements],
      fun _ => ⟨_, rfl, by simp [length_elements, Arr.size]⟩, ?_, ?_, ?_⟩
    · intro k x y hx hy
      exact ⟨_, _, load_offsets (buf := a.buf) (g := fa) rfl hfa hx, load_offsets (buf := a.buf) (g := fa) rfl hfa hy,
        getElem?_elements (lt_of_offsets hx)⟩
    · intro j k x _ _ h
      have := congrArg Ptr.reg h
      simp [Ptr.add] at this
    · intro j k x _ _ h
      have := congrArg Ptr.reg h
      simp [Ptr.add] at this
  unfold Arr.neg
  rcases negKernel_or hK hla.symm hP hready with hk | ⟨hk1, hk2⟩
  rotate_left
  · rw [hk2]
    exact .inr ⟨hk1, rfl⟩
  left
  rw [hk]
  unfold finish
  cases hz : (elements a.shape fun idx => g (fa idx)).mapM id with
  | error e => rfl
  | ok zs =>
    have hlen := mapM_eq_ok_length hz
    rw [length_elements] at hlen
    simp only [ok_bind, pure_res]
    rw [Mem.write_of (r := List.replicate a.size dflt) (by rfl)]
    simp only [Mem.region, List.getElem?_set, List.set_cons_succ, List.set_cons_zero]
    simp only [List.getElem?_cons_succ, List.getElem?_cons_zero, ok_bind]
    rw [writeAt_full (by simp [hlen, Arr.size])]

theorem neg_eq {g : α → Res α} {K : UnKernels α} {P : Nat → Prop} (hK : K.Correct g P) (dflt : α) {a : Arr α}
    {s : List Nat} {fa : List Nat → α} (ha : a.Denotes s fa) (hd : s.length ≤ maxDims) (hP : P (numel s)) :
    a.neg g K dflt = (do
      let data ← (elements s fun idx => g (fa idx)).mapM id
      return Arr.fromContiguousOwnedBuffer s data) :=
  (neg_or hK dflt ha hP).resolve_right fun h => h.1 (axesFit_of_rank hd)

/-- What overwriting the cells of a contiguous array in row-major order means. -/
theorem writeAt_contiguous {a : Arr α} (hv : a.Valid) (hc : offsets a.shape a.stride = List.range (numel a.shape))
    (h : List Nat → α) :
    ({ a with buf := writeAt a.buf a.off (elements a.shape h) } : Arr α).Denotes a.shape h ∧
    (writeAt a.buf a.off (elements a.shape h)).length = a.buf.length ∧
    ∀ i, (∀ idx, InB idx a.shape → i ≠ a.off + offset idx a.stride) →
      (writeAt a.buf a.off (elements a.shape h))[i]? = a.buf[i]? := by
  have hoff : ∀ idx, InB idx a.shape → offset idx a.stride = rank idx a.shape := by
    intro idx hi
    have h1 := getElem?_offsets (st := a.stride) (rank_lt hi)
    rw [hc, unrank_rank hi, List.getElem?_range (rank_lt hi)] at h1
    simpa using h1.symm
  have hroom : a.off + (elements a.shape h).length ≤ a.buf.length ∨ (elements a.shape h).length = 0 := by
    rw [length_elements]
    by_cases h0 : numel a.shape = 0
    · exact .inr h0
    · left
      have hi := InB_unrank (s := a.shape) (k := numel a.shape - 1) (by omega)
      have := hv.2 _ hi
      rw [hoff _ hi, rank_unrank (by omega)] at this
      omega
  rcases hroom with hroom | h0
  · have hroom' := hroom
    rw [length_elements] at hroom'
    refine ⟨⟨rfl, hv.1, fun idx hi => ?_⟩, length_writeAt hroom, fun i hne => ?_⟩
    · simp only
      have := rank_lt hi
      rw [getElem?_writeAt hroom, hoff idx hi, length_elements, if_pos (by omega), Nat.add_sub_cancel_left]
      exact elements_getElem?_rank hi
    · rw [getElem?_writeAt hroom, length_elements, if_neg]
      intro ⟨h1, h2⟩
      have hi := InB_unrank (s := a.shape) (k := i - a.off) (by omega)
      apply hne _ hi
      rw [hoff _ hi, rank_unrank (by omega)]; omega
  · have he : elements a.shape h = [] := List.length_eq_zero_iff.1 h0
    rw [length_elements] at h0
    rw [he, writeAt_nil]
    refine ⟨⟨rfl, hv.1, fun idx hi => ?_⟩, rfl, fun i _ => rfl⟩
    have := hi.pos; omega

/-- `a op= b` on a contiguous array `a`, with the right-hand side already of the same shape. -/
theorem opAssign_or {f : α → α → Res α} {K : BinKernels α} {P : Nat → Prop} (hK : K.Correct f P) {a : Arr α}
    {fa : List Nat → α} (ha : a.Denotes a.shape fa)
    (hc : offsets a.shape a.stride = List.range (numel a.shape))
    (hP : P (numel a.shape)) {reg boff : Nat} {bbuf : List α} {bst : List Nat} {fb : List Nat → α}
    (hreg : ([a.buf, bbuf] : Mem α)[reg]? = some bbuf) (hbl : bst.length = a.shape.length)
    (hb : ∀ idx, InB idx a.shape → bbuf[boff + offset idx bst]? = some (fb idx))
    (hsep : reg = 0 → ∀ i j, InB i a.shape → InB j a.shape → rank j a.shape < rank i a.shape →
      boff + offset i bst ≠ a.off + offset j a.stride) :
    (do
      let m ← binKernel f K ⟨0, a.off⟩ a.stride ⟨reg, boff⟩ bst ⟨0, a.off⟩ a.shape [a.buf, bbuf]
      m.region 0) = (do
      let data ← (elements a.shape fun idx => f (fa idx) (fb idx)).mapM id
      return writeAt a.buf a.off data : Res (List α)) ∨
    (¬ (AxesFit a.shape a.stride ∧ AxesFit a.shape bst) ∧ (do
      let m ← binKernel f K ⟨0, a.off⟩ a.stride ⟨reg, boff⟩ bst ⟨0, a.off⟩ a.shape [a.buf, bbuf]
      m.region 0) = .error .panic) := by
  have hva := ha.valid
  have hroom : numel a.shape ≠ 0 → a.off + numel a.shape ≤ a.buf.length := by
    intro h0
    have hi := InB_unrank (s := a.shape) (k := numel a.shape - 1) (by omega)
    have h1 := hva.2 _ hi
    have h2 := getElem?_offsets (st := a.stride) (show numel a.shape - 1 < numel a.shape by omega)
    rw [hc, List.getElem?_range (by omega)] at h2
    simp only [Option.some.injEq] at h2
    omega
  have hready : Ready f [a.buf, bbuf] ⟨0, a.off⟩ ⟨reg, boff⟩ ⟨0, a.off⟩
      (offsets a.shape a.stride) (offsets a.shape bst) (elements a.shape fun idx => f (fa idx) (fb idx)) := by
    refine ⟨by rw [length_offsets, length_elements], by rw [length_offsets, length_elements],
      fun hne => ⟨_, rfl, by
        rw [length_elements]
        exact hroom (fun h0 => hne (List.length_eq_zero_iff.1 (by rw [length_elements]; exact h0)))⟩, ?_, ?_, ?_⟩
    · intro k x y hx hy
      exact ⟨_, _, load_offsets (buf := a.buf) (g := fa) rfl ha.2.2 hx,
        load_offsets (buf := bbuf) (g := fb) hreg hb hy, getElem?_elements (lt_of_offsets hx)⟩
    · intro j k x hjk hx h
      have hk := lt_of_offsets hx
      rw [hc, List.getElem?_range hk] at hx
      have := congrArg Ptr.off h
      simp only [Ptr.add, Option.some.injEq] at this hx
      omega
    · intro j k y hjk hy h
      have hk := lt_of_offsets hy
      have h1 := congrArg Ptr.reg h
      have h2 := congrArg Ptr.off h
      simp only [Ptr.add] at h1 h2
      rw [getElem?_offsets hk] at hy
      simp only [Option.some.injEq] at hy
      subst hy
      refine hsep h1 _ (unrank a.shape j) (InB_unrank hk) (InB_unrank (by omega)) ?_ ?_
      · rw [rank_unrank hk, rank_unrank (by omega)]; exact hjk
      · have h3 := getElem?_offsets (st := a.stride) (show j < numel a.shape by omega)
        rw [hc, List.getElem?_range (by omega)] at h3
        simp only [Option.some.injEq] at h3
        omega
  rcases binKernel_or hK hva.1.symm hbl.symm hP hready with hk | ⟨hk1, hk2⟩
  rotate_left
  · rw [hk2]
    exact .inr ⟨hk1, rfl⟩
  left
  rw [hk]
  unfold finish
  cases hz : (elements a.shape fun idx => f (fa idx) (fb idx)).mapM id with
  | error e => rfl
  | ok zs =>
    simp only [ok_bind, pure_res]
    rw [Mem.write_of (r := a.buf) (by rfl)]
    rfl

theorem opAssign_eq {f : α → α → Res α} {K : BinKernels α} {P : Nat → Prop} (hK : K.Correct f P) {a : Arr α}
    {fa : List Nat → α} (ha : a.Denotes a.shape fa)
    (hc : offsets a.shape a.stride = List.range (numel a.shape)) (hd : a.shape.length ≤ maxDims)
    (hP : P (numel a.shape)) {reg boff : Nat} {bbuf : List α} {bst : List Nat} {fb : List Nat → α}
    (hreg : ([a.buf, bbuf] : Mem α)[reg]? = some bbuf) (hbl : bst.length = a.shape.length)
    (hb : ∀ idx, InB idx a.shape → bbuf[boff + offset idx bst]? = some (fb idx))
    (hsep : reg = 0 → ∀ i j, InB i a.shape → InB j a.shape → rank j a.shape < rank i a.shape →
      boff + offset i bst ≠ a.off + offset j a.stride) :
    (do
      let m ← binKernel f K ⟨0, a.off⟩ a.stride ⟨reg, boff⟩ bst ⟨0, a.off⟩ a.shape [a.buf, bbuf]
      m.region 0) = (do
      let data ← (elements a.shape fun idx => f (fa idx) (fb idx)).mapM id
      return writeAt a.buf a.off data : Res (List α)) :=
  (opAssign_or hK ha hc hP hreg hbl hb hsep).resolve_right fun h => h.1 ⟨axesFit_of_rank hd, axesFit_of_rank hd⟩

end Verif
