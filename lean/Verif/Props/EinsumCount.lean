import Verif.Props.EinsumLimits

/-!
# C29: what einsum does when the number of subscripts differs from the number of operands

It does not refuse (`C29_false`). Surplus subscripts are not looked at (`C29_surplus`), and of an operand without subscripts only the
first element enters, as a factor of every term (`C29_missing`).
-/

namespace Verif

variable {α : Type}

theorem parseOperands_surplus (extra : List (List Char)) : ∀ (subs : List (List Char)) (shapes : List (List Nat)) (t : Tables) (bd : Nat),
    subs.length = shapes.length → parseOperands (subs ++ extra) shapes t bd = parseOperands subs shapes t bd
  | [], [], t, bd, _ => by cases extra <;> rfl
  | s :: subs, shape :: shapes, t, bd, h => by
    simp only [List.cons_append, parseOperands]
    congr 1
    funext x
    rw [parseOperands_surplus extra subs shapes _ _ (by simpa using h)]
  | [], _ :: _, _, _, h => by simp at h
  | _ :: _, [], _, _, h => by simp at h

/-- **C29.** Surplus subscripts make no difference, whatever they are. -/
theorem C29_surplus [CommSemiring α] (K : SopKernels α) {ops : List (Arr α)} {subs : List (List Char)} (hl : subs.length = ops.length)
    (extra : List (List Char)) (out : List Char) : einsum K ops (subs ++ extra) out = einsum K ops subs out := by
  unfold einsum prepareEinsum
  rw [parseOperands_surplus extra subs _ _ _ (by simpa using hl)]

example := C29_surplus (portableSop (α := Int)) (ops := [einA, einB]) (subs := [['i', 'j'], ['j', 'k']]) rfl [['?', '7']] ['i', 'k']

/-- The first element, as an array without axes. -/
def Arr.first (a : Arr α) : Arr α := { a with shape := [], stride := [] }

theorem parseOperands_missing (more : List (Arr α)) : ∀ (subs : List (List Char)) (shapes : List (List Nat)) (t : Tables) (bd : Nat),
    subs.length = shapes.length →
    parseOperands (subs ++ more.map fun _ => []) (shapes ++ (more.map Arr.first).map (·.shape)) t bd =
      parseOperands subs (shapes ++ more.map (·.shape)) t bd
  | [], [], t, bd, _ => by
    have h1 : parseOperands [] (more.map (·.shape)) t bd = .ok (more.map fun _ => List.replicate maxDims 0, t, bd) := by
      unfold parseOperands
      rw [List.map_map]
      rfl
    have h2 : ∀ bd, parseOperands (more.map fun _ => []) ((more.map Arr.first).map (·.shape)) t bd =
        .ok (more.map fun _ => List.replicate maxDims 0, t, bd) := by
      induction more with
      | nil => intro bd; rfl
      | cons b more ih =>
        intro bd
        simp only [List.map_cons, parseOperands]
        rw [show parseOperand [] (Arr.first b).shape t = .ok (List.replicate maxDims 0, t, 0) from rfl]
        simp only [ok_bind]
        rw [ih (by unfold parseOperands; rw [List.map_map]; rfl), Nat.max_zero]
        rfl
    simp only [List.nil_append]
    rw [h1, h2]
  | s :: subs, shape :: shapes, t, bd, h => by
    simp only [List.cons_append, parseOperands]
    congr 1
    funext x
    rw [parseOperands_missing more subs shapes _ _ (by simpa using h)]
  | [], _ :: _, _, _, h => by simp at h
  | _ :: _, [], _, _, h => by simp at h

theorem labelStride_zeros {label : Int} (h : label ≠ 0) : ∀ (i : Nat) (stride : List Nat) (acc : Nat), i + stride.length ≤ maxDims →
    labelStride (List.replicate maxDims 0) label i stride acc = .ok acc
  | _, [], _, _ => rfl
  | i, d :: stride, acc, hl => by
    simp only [List.length_cons] at hl
    unfold labelStride
    have : resolveLabel (List.replicate maxDims 0) i = .ok 0 := by
      unfold resolveLabel getChecked
      rw [List.getElem?_replicate, if_pos (by omega)]
      rfl
    rw [this]
    simp only [ok_bind, if_neg h]
    exact labelStride_zeros h (i + 1) stride acc (by omega)

theorem operandStride_zeros {stride : List Nat} (h : stride.length ≤ maxDims) (iter : List Int) :
    operandStride stride (List.replicate maxDims 0) iter = operandStride [] (List.replicate maxDims 0) iter := by
  unfold operandStride
  congr 1
  funext label
  by_cases h0 : label = 0
  · rw [if_pos h0, if_pos h0]
  · rw [if_neg h0, if_neg h0, labelStride_zeros h0 _ _ _ (by simpa using h), labelStride_zeros h0 _ _ _ (by simp)]

theorem parseOperands_labels : ∀ {subs : List (List Char)} {shapes ms : List (List Nat)} {t : Tables} {bd : Nat}
    {r : List (List Int) × Tables × Nat}, subs.length = shapes.length → parseOperands subs (shapes ++ ms) t bd = .ok r →
    ∃ ls, r.1 = ls ++ ms.map (fun _ => List.replicate maxDims 0) ∧ ls.length = shapes.length
  | [], [], ms, t, bd, r, _, h => by
    unfold parseOperands at h
    simp only [List.nil_append] at h
    cases h
    exact ⟨[], rfl, rfl⟩
  | s :: subs, shape :: shapes, ms, t, bd, r, hl, h => by
    simp only [List.cons_append, parseOperands] at h
    obtain ⟨x, _, h⟩ := bind_eq_ok.1 h
    obtain ⟨y, h2, h⟩ := bind_eq_ok.1 h
    obtain ⟨ls, e1, e2⟩ := parseOperands_labels (by simpa using hl) h2
    have h := Except.ok.inj h
    subst h
    exact ⟨x.1 :: ls, by rw [List.cons_append, ← e1], by simp [e2]⟩
  | [], _ :: _, _, _, _, _, h, _ => by simp at h
  | _ :: _, [], _, _, _, _, h, _ => by simp at h

theorem mapM_append_ok {β γ : Type} {f : β → Res γ} (l m : List β) :
    (l ++ m).mapM f = (do
      let x ← l.mapM f
      let y ← m.mapM f
      return x ++ y) := List.mapM_append

/-- A request with operands to spare is the request in which they are replaced by their first elements, with empty subscripts. -/
theorem einsum_missing [CommSemiring α] (K : SopKernels α) {ops more : List (Arr α)} {subs : List (List Char)}
    (hl : subs.length = ops.length) (h0 : ops ≠ []) (hr : ∀ b ∈ more, b.stride.length ≤ 32) (out : List Char) :
    einsum K (ops ++ more) subs out = einsum K (ops ++ more.map Arr.first) (subs ++ more.map fun _ => []) out := by
  have hsrc : srcs (ops ++ more) = srcs (ops ++ more.map Arr.first) := by
    simp [srcs, Arr.first]
  have hprep : prepareEinsum (ops ++ more) subs out =
      prepareEinsum (ops ++ more.map Arr.first) (subs ++ more.map fun _ => []) out := by
    unfold prepareEinsum
    rw [show (ops ++ more).length = (ops ++ more.map Arr.first).length by simp]
    congr 1
    funext _
    rw [List.map_append, List.map_append, parseOperands_missing more subs _ _ _ (by simpa using hl)]
    cases hp : parseOperands subs (ops.map (·.shape) ++ more.map (·.shape)) Tables.empty 0 with
    | error e => rfl
    | ok p =>
      obtain ⟨ls, e1, e2⟩ := parseOperands_labels (by simpa using hl) hp
      have e2 : ls.length = ops.length := by simpa using e2
      simp only [ok_bind]
      congr 1
      funext o
      congr 1
      funext _
      have hw : warnCheck (ops ++ more) p.1 o.2 (o.1.take o.2) = warnCheck (ops ++ more.map Arr.first) p.1 o.2 (o.1.take o.2) := by
        cases more with
        | nil => rfl
        | cons b more =>
          match ops, h0 with
          | [a], _ => rfl
          | a :: a' :: ops, _ => rfl
      rw [hw]
      congr 1
      funext _
      unfold buildPlan
      have hc : ∀ (qs : List (Arr α)), ((ops ++ qs).zip p.1).mapM (fun q => combineOperand q.1.shape q.1.stride q.2) =
          (do
            let x ← (ops.zip ls).mapM fun q => combineOperand q.1.shape q.1.stride q.2
            let y ← (qs.zip ((more.map (·.shape)).map fun _ => List.replicate maxDims 0)).mapM fun q => combineOperand q.1.shape q.1.stride q.2
            return x ++ y) := fun qs => by
        rw [e1, List.zip_append e2.symm, mapM_append_ok]
      rw [hc, hc]
      cases (ops.zip ls).mapM (fun q => combineOperand q.1.shape q.1.stride q.2) with
      | error e => rfl
      | ok x =>
        have hall : (List.replicate maxDims (0 : Int)).all (fun v => decide (0 ≤ v)) = true := by decide
        have k1 : (more.zip ((more.map (·.shape)).map fun _ => List.replicate maxDims 0)).mapM
            (fun q => combineOperand q.1.shape q.1.stride q.2) =
            .ok (more.map fun b => (b.shape, b.stride, List.replicate maxDims (0 : Int))) := by
          clear hc hw e1 hp hsrc hr
          induction more with
          | nil => rfl
          | cons b more ih =>
            simp only [List.map_cons, List.zip_cons_cons, List.mapM_cons]
            rw [ih]
            unfold combineOperand
            rw [if_pos hall]
            rfl
        have k2 : ((more.map Arr.first).zip ((more.map (·.shape)).map fun _ => List.replicate maxDims 0)).mapM
            (fun q => combineOperand q.1.shape q.1.stride q.2) =
            .ok (more.map fun _ => ([], [], List.replicate maxDims (0 : Int))) := by
          clear hc hw e1 hp hsrc hr k1
          induction more with
          | nil => rfl
          | cons b more ih =>
            simp only [List.map_cons, List.zip_cons_cons, List.mapM_cons]
            rw [ih]
            unfold combineOperand
            rw [if_pos hall]
            rfl
        simp only [ok_bind]
        rw [k1, k2]
        simp only [ok_bind, pure_res]
        congr 1
        funext _
        have hs : ∀ iter : List Int, (x ++ more.map fun b => (b.shape, b.stride, List.replicate maxDims (0 : Int))).mapM
            (fun q => operandStride q.2.1 q.2.2 iter) =
            (x ++ more.map fun _ => (([] : List Nat), ([] : List Nat), List.replicate maxDims (0 : Int))).mapM
            (fun q => operandStride q.2.1 q.2.2 iter) := fun iter => by
          rw [mapM_append_ok, mapM_append_ok]
          congr 1
          funext _
          congr 1
          clear hc hw e1 hp hsrc k1 k2
          induction more with
          | nil => rfl
          | cons b more ih =>
            simp only [List.map_cons, List.mapM_cons]
            rw [operandStride_zeros (hr b (by simp)) iter, ih fun b hb => hr b (by simp [hb])]
        rw [hs]
  unfold einsum
  rw [hprep, hsrc]

theorem offset_zeros : ∀ (s : List Nat) (st : List Nat), offset (s.map fun _ => 0) st = 0
  | [], st => by cases st <;> rfl
  | _ :: s, [] => rfl
  | _ :: s, d :: st => by rw [List.map_cons, offset_cons, offset_zeros s st, Nat.zero_mul]

theorem inB_zeros : ∀ {s : List Nat}, 0 < numel s → InB (s.map fun _ => 0) s
  | [], _ => trivial
  | n :: s, h => by
    rw [numel_cons] at h
    exact InB_cons.2 ⟨Nat.pos_of_mul_pos_right h, inB_zeros (Nat.pos_of_mul_pos_left h)⟩

/-- **C29.** A well-formed request, with further operands that have no subscripts: not refused. The first elements of the further
operands are factors of every term, the others do not enter. -/
theorem C29_missing [CommSemiring α] {K : SopKernels α} (hK : K.Correct) {ops more : List (Arr α)} {vs : List α}
    {fs : List (Factor α)} {out rest : List Char} {dim : Char → Nat} (hw : WellFormed fs out rest dim)
    (hd : List.Forall₂ (fun a f => a.Denotes (f.letters.map dim) f.elem) ops fs)
    (hm : List.Forall₂ (fun b v => ∃ s f, b.Denotes s f ∧ s.length ≤ 32 ∧ 0 < numel s ∧ f (s.map fun _ => 0) = v) more vs)
    (hargs : ops.length + more.length < 16) (hdims : ∀ f ∈ fs, f.letters.length ≤ 32) (htot : (out ++ rest).length ≤ 32)
    (hne : out ++ rest ≠ []) :
    ∃ r, einsum K (ops ++ more) (fs.map (·.letters)) out = .ok r ∧
      r.Denotes (out.map dim) (fun o => einsteinSum out rest dim fs o * vs.prod) := by
  have h0 : ops ≠ [] := by
    rintro rfl
    cases hd
    obtain ⟨c, hc⟩ := List.exists_mem_of_ne_nil _ hne
    rcases List.mem_append.1 hc with h | h
    · obtain ⟨f, hf, _⟩ := hw.out_mem c h
      cases hf
    · obtain ⟨⟨f, hf, _⟩, _⟩ := (hw.rest_mem c).1 h
      cases hf
  have hr : ∀ b ∈ more, b.stride.length ≤ 32 := fun b hb => by
    obtain ⟨k, hk, rfl⟩ := List.mem_iff_getElem.1 hb
    obtain ⟨s, f, h1, h2, _⟩ := hm.get hk (hm.length_eq ▸ hk)
    simp only [List.get_eq_getElem] at h1
    rw [h1.2.1]
    exact h2
  let gs : List (Factor α) := vs.map fun v => ⟨[], fun _ => v⟩
  have hg : gs.map (·.letters) = more.map fun _ => [] := by
    simp only [gs, List.map_map]
    rw [show ((fun f : Factor α => f.letters) ∘ fun v => (⟨[], fun _ => v⟩ : Factor α)) = fun _ => [] from rfl,
      List.map_const', List.map_const', hm.length_eq]
  have hdm : List.Forall₂ (fun a f => Arr.Denotes a (f.letters.map dim) f.elem) (more.map Arr.first) gs := by
    simp only [gs, List.forall₂_map_left_iff, List.forall₂_map_right_iff]
    refine hm.imp fun b v ⟨s, f, h1, h2, h3, h4⟩ => ⟨rfl, rfl, fun idx hi => ?_⟩
    match idx, hi with
    | [], _ =>
      have := h1.2.2 _ (inB_zeros h3)
      rw [offset_zeros, h4] at this
      exact this
  have hgl : ∀ f ∈ gs, f.letters = [] := fun f hf => by
    obtain ⟨v, _, rfl⟩ := List.mem_map.1 hf
    rfl
  have hw' : WellFormed (fs ++ gs) out rest dim := by
    have hex : ∀ c, (∃ f ∈ fs ++ gs, c ∈ f.letters) ↔ ∃ f ∈ fs, c ∈ f.letters := fun c => by
      constructor
      · rintro ⟨f, hf, hc⟩
        rcases List.mem_append.1 hf with h | h
        · exact ⟨f, h, hc⟩
        · rw [hgl f h] at hc
          cases hc
      · rintro ⟨f, hf, hc⟩
        exact ⟨f, List.mem_append_left _ hf, hc⟩
    refine ⟨fun f hf c hc => ?_, hw.nodup, fun c hc => (hex c).2 (hw.out_mem c hc), fun c => by rw [hex, hw.rest_mem],
      fun f hf c hc => ?_⟩
    · obtain ⟨f', hf', hc'⟩ := (hex c).1 ⟨f, hf, hc⟩
      exact hw.alpha f' hf' c hc'
    · obtain ⟨f', hf', hc'⟩ := (hex c).1 ⟨f, hf, hc⟩
      exact hw.pos f' hf' c hc'
  obtain ⟨r, e, h⟩ := C28_einsum_partial hK hw' (List.rel_append hd hdm) (by simpa using hargs) (fun f hf => by
    rcases List.mem_append.1 hf with h | h
    · exact hdims f h
    · rw [hgl f h]; exact Nat.zero_le _) htot hne
  rw [List.map_append, hg] at e
  refine ⟨r, by rw [einsum_missing K (by rw [List.length_map, hd.length_eq]) h0 hr, e], ?_⟩
  have hs : einsteinSum out rest dim (fs ++ gs) = fun o => einsteinSum out rest dim fs o * vs.prod := by
    funext o
    unfold einsteinSum
    rw [← List.sum_map_mul_right]
    congr 1
    refine List.map_congr_left fun r _ => ?_
    rw [List.map_append, List.prod_append]
    congr 2
    simp [gs, Function.comp_def]
  rwa [hs] at h

example := C29_missing portableSop_correct (ein_wellFormed (fun i => (i.headD 0 : Int)) fun i => i.headD 0)
  (.cons (denotes_fromContiguous (s := [2, 3])) (.cons (denotes_fromContiguous (s := [3, 2])) .nil)) (vs := [7])
  (.cons ⟨[2, 2], fun i => 7 + (i.headD 0 : Int), denotes_fromContiguous, by decide, by decide, by decide⟩ .nil)
  (by simp) (by decide) (by decide) (by decide)

end Verif
