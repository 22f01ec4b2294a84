import Verif.Lemmas.EinsumEllipsis

/-!
# C28, C29, C53 einsum
-/

namespace Verif

variable {α : Type}

/-! ## C28 einsum computes the Einstein sum -/

/-- **C28.** For every number of operands below 16, all ranks up to 32, all layouts and contents: `einsum` with
well-formed subscripts (letters; repeats allowed; equal letters with equal extents; output letters distinct and
occurring in the inputs) returns the array of the Einstein sum. `K` are the leaf kernels (any correct ones; the
portable ones are correct by `portableSop_correct`).

Missing (and false, see `C28_scalar_false`, `C28_empty_false`): no letters at all, extents 0. -/
theorem C28_einsum_partial [CommSemiring α] {K : SopKernels α} (hK : K.Correct) {ops : List (Arr α)}
    {fs : List (Factor α)} {out rest : List Char} {dim : Char → Nat} (hw : WellFormed fs out rest dim)
    (hd : List.Forall₂ (fun a f => a.Denotes (f.letters.map dim) f.elem) ops fs) (hargs : ops.length < 16)
    (hdims : ∀ f ∈ fs, f.letters.length ≤ 32) (htot : (out ++ rest).length ≤ 32) (hne : out ++ rest ≠ []) :
    ∃ r, einsum K ops (fs.map (·.letters)) out = .ok r ∧ r.Denotes (out.map dim) (einsteinSum out rest dim fs) :=
  einsum_denotes hK hw hd hargs hdims htot hne fun _ _ _ _ => trivial

/-- the order in which the summed letters are enumerated does not matter: any `rest` satisfying `WellFormed` will do,
so the specification does not depend on the code's (alphabetical) choice -/
theorem C28_rest_irrelevant [CommSemiring α] {ops : List (Arr α)}
    {fs : List (Factor α)} {out rest rest' : List Char} {dim : Char → Nat} (hw : WellFormed fs out rest dim)
    (hw' : WellFormed fs out rest' dim)
    (hd : List.Forall₂ (fun a f => a.Denotes (f.letters.map dim) f.elem) ops fs) (hargs : ops.length < 16)
    (hdims : ∀ f ∈ fs, f.letters.length ≤ 32) (htot : (out ++ rest).length ≤ 32) (hne : out ++ rest ≠ [])
    {o : List Nat} (ho : InB o (out.map dim)) :
    einsteinSum out rest dim fs o = einsteinSum out rest' dim fs o := by
  have hp : rest.Perm rest' := (List.perm_ext_iff_of_nodup (List.nodup_append.1 hw.nodup).2.1
    (List.nodup_append.1 hw'.nodup).2.1).2 fun c => by rw [hw.rest_mem, hw'.rest_mem]
  have hl : (out ++ rest').length = (out ++ rest).length := (hp.append_left out).length_eq.symm
  obtain ⟨r, e, h⟩ := C28_einsum_partial (K := portableSop) portableSop_correct hw hd hargs hdims htot hne
  obtain ⟨r', e', h'⟩ := C28_einsum_partial (K := portableSop) portableSop_correct hw' hd hargs hdims (by omega)
    (by intro h; rw [h] at hl; exact hne (List.length_eq_zero_iff.1 hl.symm))
  rw [e] at e'
  have e' := Except.ok.inj e'
  subst e'
  exact Option.some.inj ((h.2.2 o ho).symm.trans (h'.2.2 o ho))

/-- a 2x3 matrix, a 3x2 matrix stored transposed -/
def einA : Arr Int := Arr.fromContiguousOwnedBuffer [2, 3] [1, 2, 3, 4, 5, 6]
def einB : Arr Int := { Arr.fromContiguousOwnedBuffer [2, 3] [1, 0, 2, 0, 1, 5] with shape := [3, 2], stride := [1, 3] }

/-- matrix product, with the letters of the subscripts `ij, jk -> ik` -/
theorem ein_wellFormed (f g : List Nat → α) : WellFormed [⟨['i', 'j'], f⟩, ⟨['j', 'k'], g⟩] ['i', 'k'] ['j']
    (fun c => if c = 'j' then 3 else 2) :=
  ⟨by simp, by decide, by simp, by
    intro c
    simp only [List.mem_cons, List.not_mem_nil, or_false, exists_eq_or_imp, exists_eq_left, not_or]
    constructor
    · rintro rfl; decide
    · rintro ⟨h | h, h1, h2⟩
      · rcases h with h | h
        · exact (h1 h).elim
        · exact h
      · rcases h with h | h
        · exact h
        · exact (h2 h).elim, by
    intro f _ c _
    show 0 < if c = 'j' then 3 else 2
    split <;> omega⟩

example := C28_einsum_partial portableSop_correct (ein_wellFormed (fun i => (i.headD 0 : Int)) fun i => i.headD 0)
  (.cons (denotes_fromContiguous (s := [2, 3])) (.cons (denotes_fromContiguous (s := [3, 2])) .nil))
  (by simp) (by decide) (by decide) (by decide)

example := C28_rest_irrelevant (ein_wellFormed (fun i => (i.headD 0 : Int)) fun i => i.headD 0) (ein_wellFormed _ _)
  (.cons (denotes_fromContiguous (s := [2, 3])) (.cons (denotes_fromContiguous (s := [3, 2])) .nil))
  (by simp) (by decide) (by decide) (by decide) (o := [1, 1]) (by decide)

set_option maxRecDepth 10000 in
/-- ordinary, transposed output, diagonal, trace-like, three operands: the model evaluates to the sums -/
example : (einsum portableSop [einA, einB] [['i', 'j'], ['j', 'k']] ['i', 'k']).map (·.buf) = .ok [7, 17, 16, 35]
    ∧ (einsum portableSop [einA, einB] [['i', 'j'], ['j', 'k']] ['k', 'i']).map (·.buf) = .ok [7, 16, 17, 35]
    ∧ (einsum portableSop [einA] [['i', 'j']] ['j']).map (·.buf) = .ok [5, 7, 9]
    ∧ (einsum portableSop [einA, einA, einA] [['i', 'j'], ['i', 'j'], ['i', 'j']] ['i']).map (·.buf) = .ok [36, 405] := by
  decide +kernel

/-- **C28, negation for letterless subscripts.** The product of two scalars (`",->"`) is a well-formed Einstein sum
with value 6, but the code panics (it indexes the strides of the first iteration axis, and there is none). -/
theorem C28_scalar_false :
    einsum portableSop [Arr.fromContiguousOwnedBuffer [] [(2 : Int)], Arr.fromContiguousOwnedBuffer [] [3]] [[], []] [] =
      .error .panic ∧
    einsteinSum [] [] (fun _ => 1) [⟨[], fun _ => (2 : Int)⟩, ⟨[], fun _ => 3⟩] [] = 6 := by
  constructor
  · decide +kernel
  · decide +kernel

/-- **C28, negation for empty axes.** The matrix product of a 2x0 and a 0x2 matrix is a 2x2 matrix of zeros, but the
code runs into `assert_unchecked(false)`: undefined behaviour. -/
theorem C28_empty_false :
    einsum portableSop [Arr.fromContiguousOwnedBuffer [2, 0] ([] : List Int), Arr.fromContiguousOwnedBuffer [0, 2] []]
      [['i', 'j'], ['j', 'k']] ['i', 'k'] = .error .ub ∧
    einsteinSum ['i', 'k'] ['j'] (fun c => if c = 'j' then 0 else 2)
      [⟨['i', 'j'], fun _ => (1 : Int)⟩, ⟨['j', 'k'], fun _ => 1⟩] [1, 1] = 0 := by
  constructor
  · decide +kernel
  · decide +kernel

/-! ## C29 malformed requests are rejected -/

/-- letter `c` names an axis of extent `n` in one of the operands -/
def LetterExtent (ops : List (Arr α)) (subs : List (List Char)) (c : Char) (n : Nat) : Prop :=
  ∃ p ∈ ops.zip subs, ∃ a : Nat, p.2[a]? = some c ∧ p.1.shape[a]? = some n

/-- **C29.** With one subscript of letters per operand, `einsum` panics if some operand's number of axes differs from
its number of letters, or a letter names axes of different extents, or an output letter does not occur in the inputs,
or an output letter is repeated.

Missing (and false, see `C29_false`): a number of subscripts different from the number of operands. -/
theorem C29_einsum_rejects_partial [CommSemiring α] {K : SopKernels α} {ops : List (Arr α)} {subs : List (List Char)}
    {out : List Char} (hl : ops.length = subs.length) (hsubs : ∀ s ∈ subs, ∀ c ∈ s, c.isAlpha = true)
    (hout : ∀ c ∈ out, c.isAlpha = true)
    (hbad : (∃ p ∈ ops.zip subs, p.1.shape.length ≠ p.2.length) ∨
      (∃ c n m, LetterExtent ops subs c n ∧ LetterExtent ops subs c m ∧ n ≠ m) ∨
      (∃ c ∈ out, ∀ s ∈ subs, c ∉ s) ∨ ¬ out.Nodup) :
    einsum K ops subs out = .error .panic := by
  have e1 : ((ops.zip subs).map fun p => (p.2, p.1.shape)).map (·.1) = subs := by
    rw [List.map_map]
    show (ops.zip subs).map Prod.snd = subs
    exact List.map_snd_zip (Nat.le_of_eq hl.symm)
  have e2 : ((ops.zip subs).map fun p => (p.2, p.1.shape)).map (·.2) = ops.map (·.shape) := by
    rw [List.map_map]
    show (ops.zip subs).map ((·.shape) ∘ Prod.fst) = _
    rw [← List.map_map, List.map_fst_zip (Nat.le_of_eq hl)]
  have hp := parseOperands_inv (ts := (ops.zip subs).map fun p => (p.2, p.1.shape)) (t := Tables.empty) (by
    intro q hq
    obtain ⟨p, hp, rfl⟩ := List.mem_map.1 hq
    exact hsubs p.2 (List.of_mem_zip hp).2)
  rw [e1, e2] at hp
  have key : prepareEinsum ops subs out = .error .panic := by
    unfold prepareEinsum
    rcases okOrPanic_assert (decide (ops.length < maxArgs)) with ⟨⟨⟩, e⟩ | e
    · rw [e]
      show (parseOperands subs _ _ 0 >>= fun p => _) = _
      rcases hp.1 with ⟨r, er⟩ | er
      · obtain ⟨h1, _, h3, h4⟩ := hp.2 r er
        rw [er]
        show (parseOutput out r.2.2 r.2.1.counts >>= fun o => _) = _
        rw [h4]
        have ho := parseOutput_inv (counts := r.2.1.counts) hout
        rcases ho.1 with ⟨x, ex⟩ | ex
        · exfalso
          obtain ⟨b1, b2⟩ := ho.2 x ex
          have hshape : ∀ p ∈ ops.zip subs, p.1.shape = (codes p.2).map r.2.1.dims := fun p hp =>
            h1 (p.2, p.1.shape) (List.mem_map.2 ⟨p, hp, rfl⟩)
          rcases hbad with ⟨p, hp, hne⟩ | ⟨c, n, m, ⟨p, hp, a, ha1, ha2⟩, ⟨p', hp', a', hb1, hb2⟩, hne⟩ | ⟨c, hc, hno⟩ | hnd
          · exact hne (by rw [hshape p hp]; simp [codes])
          · rw [hshape p hp] at ha2
            rw [hshape p' hp'] at hb2
            simp [codes, ha1] at ha2
            simp [codes, hb1] at hb2
            omega
          · rcases (h3 c.toNat).1 (b2 c hc) with h | h
            · exact h rfl
            · obtain ⟨q, hq, hm⟩ := List.mem_flatMap.1 h
              obtain ⟨p, hp, rfl⟩ := List.mem_map.1 hq
              exact hno p.2 (List.of_mem_zip hp).2 (mem_codes.1 hm)
          · exact hnd b1
        · rw [ex]; rfl
      · rw [er]; rfl
    · rw [e]; rfl
  unfold einsum
  rw [key]
  rfl

example := C29_einsum_rejects_partial (K := portableSop) (ops := [Arr.fromContiguousOwnedBuffer [2, 3] [1, 2, 3, 4, 5, (6 : Int)]])
  (subs := [['i', 'i']]) (out := ['i']) rfl (by decide) (by decide)
  (.inr (.inl ⟨'i', 2, 3, ⟨_, List.mem_cons_self, 0, rfl, rfl⟩, ⟨_, List.mem_cons_self, 1, rfl, rfl⟩, by decide⟩))

theorem parseOperands_allowed : ∀ {ops : List (Arr α)} {subs : List (List Char)} {t : Tables} {bd : Nat}
    {r : List (List Int) × Tables × Nat}, parseOperands subs (ops.map (·.shape)) t bd = .ok r →
    ∀ p ∈ ops.zip subs, ∀ c ∈ p.2, Allowed c := by
  intro ops
  induction ops with
  | nil => intro _ _ _ _ _ p hp; simp at hp
  | cons a ops ih =>
    intro subs t bd r h p hp
    cases subs with
    | nil => simp at hp
    | cons s subs =>
      obtain ⟨_, h1, h⟩ := bind_eq_ok.1 h
      obtain ⟨_, h2, _⟩ := bind_eq_ok.1 h
      rw [List.zip_cons_cons, List.mem_cons] at hp
      rcases hp with rfl | hp
      · exact parseOperand_allowed h1
      · exact ih h2 p hp

/-- **C29, characters.** A request in which an operand's subscripts or the output subscripts contain anything but
letters, dots and spaces is refused. -/
theorem C29_characters [CommSemiring α] {K : SopKernels α} {ops : List (Arr α)} {subs : List (List Char)}
    {out : List Char} (hbad : (∃ p ∈ ops.zip subs, ∃ c ∈ p.2, c.isAlpha = false ∧ c ≠ '.' ∧ c ≠ ' ') ∨
      ∃ c ∈ out, c.isAlpha = false ∧ c ≠ '.' ∧ c ≠ ' ') (r : Arr α) : einsum K ops subs out ≠ .ok r := by
  intro h
  obtain ⟨_, h, _⟩ := bind_eq_ok.1 h
  obtain ⟨_, _, h⟩ := bind_eq_ok.1 h
  obtain ⟨_, h1, h⟩ := bind_eq_ok.1 h
  obtain ⟨_, h2, h⟩ := bind_eq_ok.1 h
  have hno : ∀ c : Char, Allowed c → ¬ (c.isAlpha = false ∧ c ≠ '.' ∧ c ≠ ' ') := by
    rintro c (hc | hc | hc) ⟨a, b, d⟩
    · rw [hc] at a; cases a
    · exact b hc
    · exact d hc
  rcases hbad with ⟨p, hp, c, hc, hb⟩ | ⟨c, hc, hb⟩
  · exact hno c (parseOperands_allowed h1 p hp c hc) hb
  · exact hno c (parseOutput_allowed h2 c hc) hb

example := C29_characters (K := portableSop) (ops := [einA]) (subs := [['i', '-', 'j']]) (out := ['i'])
  (.inl ⟨_, List.mem_cons_self, '-', by decide, by decide, by decide, by decide⟩)

set_option maxRecDepth 10000 in
example : einsum portableSop [einA] [['i', '-', 'j']] ['i'] = .error .panic
    ∧ einsum portableSop [einA] [['i', 'j']] ['i', '0'] = .error .panic := by decide +kernel

set_option maxRecDepth 10000 in
/-- the four kinds of malformed request, beside well-formed ones -/
example : einsum portableSop [einA] [['i']] ['i'] = .error .panic
    ∧ einsum portableSop [einA] [['i', 'i']] ['i'] = .error .panic
    ∧ einsum portableSop [einA, einA] [['i', 'j'], ['j', 'k']] ['i', 'k'] = .error .panic
    ∧ einsum portableSop [einA] [['i', 'j']] ['k'] = .error .panic
    ∧ einsum portableSop [einA] [['i', 'j']] ['i', 'i'] = .error .panic
    ∧ (einsum portableSop [einA] [['i', 'j']] ['j', 'i']).toOption.isSome = true := by decide +kernel

set_option maxRecDepth 10000 in
/-- **C29, negation: too few subscripts.** Two operands with one subscript: accepted, the second operand is used as if it
had no axes (its first element multiplies the sum). -/
theorem C29_false :
    (einsum portableSop [einA, einB] [['i', 'j']] ['i']).map (·.buf) = .ok [6, 15] ∧
    (einsum portableSop [einA, einB] [['i', 'j'], ['j', 'k'], ['k', 'l']] ['i', 'k']).map (·.buf) = .ok [7, 17, 16, 35] := by
  decide +kernel

set_option maxRecDepth 10000 in
/-- **C29, negation: ellipsis.** A lone ellipsis axis of one of two operands is silently read at position 0 only. -/
theorem C29_ellipsis_false :
    (einsum portableSop [einA, einB] [['i', '.', '.'], ['j', 'i']] ['i']).map (·.buf) = .ok [3, 24] := by
  decide +kernel

/-- **C29, output subscripts.** With at least one operand and output subscripts that do not end in a lone dot (see
`C29_lone_dot_false`): a space in the output is refused, and so is an ellipsis in the output unless it stands for no axes, that
is, every operand has as many axes as letters. -/
theorem C29_output [CommSemiring α] {K : SopKernels α} {ops : List (Arr α)} {subs : List (List Char)} {out : List Char}
    (h0 : ops ≠ []) (hdot : ∀ pre, '.' ∉ pre → out ≠ pre ++ ['.']) {r : Arr α} (h : einsum K ops subs out = .ok r) :
    (∀ c ∈ out, c.isAlpha = true ∨ c = '.') ∧
      ('.' ∈ out → ∀ p ∈ ops.zip subs, p.1.shape.length = (p.2.filter Char.isAlphanum).length) := by
  obtain ⟨_, h, _⟩ := bind_eq_ok.1 h
  obtain ⟨_, _, h⟩ := bind_eq_ok.1 h
  obtain ⟨p, h1, h⟩ := bind_eq_ok.1 h
  obtain ⟨o, h2, h⟩ := bind_eq_ok.1 h
  obtain ⟨⟨⟩, h3, h⟩ := bind_eq_ok.1 h
  obtain ⟨_, _, h⟩ := bind_eq_ok.1 h
  obtain ⟨hl, _, hbd⟩ := parseOperands_bd h1
  have hne : ops.zip p.1 ≠ [] := by
    intro he
    have := congrArg List.length he
    rw [List.length_zip, hl] at this
    simp at this
    exact h0 this
  obtain ⟨k1, k2⟩ := parseOutput_letters h2 (of_decide_eq_true (assert_eq_ok.1 h3)) hdot (buildPlan_labels h hne)
  refine ⟨k1, fun hm q hq => ?_⟩
  have := hbd q hq
  have := k2 hm
  omega

/-- **C29, output ellipsis.** If every operand has as many axes as letters, an ellipsis in the output stands for no axes and may be
left out: same result, same refusals. -/
theorem C29_output_ellipsis [CommSemiring α] (K : SopKernels α) {ops : List (Arr α)} {subs : List (List Char)} {pre post : List Char}
    (h1 : ∀ c ∈ pre, c.isAlpha = true) (h2 : ∀ c ∈ post, c.isAlpha = true)
    (h : ∀ p ∈ ops.zip subs, p.1.shape.length = (p.2.filter Char.isAlphanum).length) :
    einsum K ops subs (pre ++ '.' :: '.' :: post) = einsum K ops subs (pre ++ post) := by
  have : prepareEinsum ops subs (pre ++ '.' :: '.' :: post) = prepareEinsum ops subs (pre ++ post) := by
    unfold prepareEinsum
    congr 1
    funext _
    cases hp : parseOperands subs (ops.map (·.shape)) Tables.empty 0 with
    | error e => rfl
    | ok p =>
      simp only [ok_bind]
      rw [parseOperands_bd_zero hp h, parseOutput_dots h1 h2]
  unfold einsum
  rw [this]

example := C29_output_ellipsis portableSop (ops := [einA]) (subs := [['i', 'j']]) (pre := ['i']) (post := ['j']) (by decide) (by decide)
  (by intro p hp; simp at hp; subst hp; decide)

set_option maxRecDepth 10000 in
/-- an ellipsis without axes is accepted, one with an axis is not; nor is a space -/
example : (einsum portableSop [einA] [['i', 'j']] ['i', '.', '.', 'j']).map (·.shape) = .ok [2, 3]
    ∧ einsum portableSop [einA, einB] [['i', '.', '.'], ['j', 'i']] ['i', '.', '.'] = .error .panic
    ∧ einsum portableSop [einA] [['i', 'j']] ['i', ' ', 'j'] = .error .panic := by decide +kernel

set_option maxRecDepth 10000 in
/-- **C29, negation: a lone dot.** A single dot at the end of the output subscripts is not noticed; it removes the letter before it
from the output, so that `ij -> ij.` returns the sums of the rows. -/
theorem C29_lone_dot_false : (einsum portableSop [einA] [['i', 'j']] ['i', 'j', '.']).map (fun r => (r.shape, r.buf)) =
    .ok ([2], [6, 15]) := by decide +kernel

/-- **C29, negation: spaces in `einsum_view`.** The view has an additional axis of extent 0. -/
theorem C29_view_space_false : (einA.einsumView ['i', 'j'] ['i', ' ', 'j']).map (·.map (·.shape)) = .ok (some [2, 0, 3]) := by
  decide +kernel

/-! ## C53 einsum_view -/

/-- **C53.** For one operand with any layout (extents 0 allowed), subscript letters `ls` and distinct output letters
among them: if every letter is an output letter, `einsum_view` returns a view of the same buffer that is the Einstein
sum (a permutation of axes with diagonals); otherwise it returns `None`. -/
theorem C53_einsum_view [CommSemiring α] {a : Arr α} {ls out : List Char} {dim : Char → Nat} {f : List Nat → α}
    (ha : a.Denotes (ls.map dim) f) (hc : ∀ c ∈ ls, c.isAlpha = true) (hl : ls.length ≤ 32) (hn : out.Nodup)
    (hm : ∀ c ∈ out, c ∈ ls) :
    if ∀ c ∈ ls, c ∈ out then
      ∃ v, a.einsumView ls out = .ok (some v) ∧ v.buf = a.buf ∧
        v.Denotes (out.map dim) (einsteinSum out [] dim [⟨ls, f⟩])
    else a.einsumView ls out = .ok none := by
  have hole : out.length ≤ maxDims := by
    have : out.length ≤ ls.length := (List.subperm_of_subset hn hm).length_le
    exact Nat.le_trans this hl
  have eshape : a.shape = (codes ls).map fun l => dim (Char.ofNat l) := by
    rw [ha.1]; simp [codes, Function.comp_def]
  obtain ⟨t, e, ht⟩ := parseOperand_ok (dim := fun l => dim (Char.ofNat l)) hc (tablesOK_empty _) hl
  rw [← eshape] at e
  have eo := parseOutput_ok (counts := t.counts) (fun c h => hc c (hm c h)) (fun c h => by
    rw [ht.counts]
    have := List.count_pos_iff.2 (mem_codes.2 (hm c h))
    simp only [List.nil_append]
    omega) hn hole
  have etake : ((codes out).map Int.ofNat ++ List.replicate (maxDims - out.length) 0).take out.length =
      (codes out).map Int.ofNat := by
    rw [List.take_append_of_le_length (by simp [codes]), List.take_of_length_le (by simp [codes])]
  have hv := viewLayout_ok (cs := codes ls) (O := codes out) (stride := a.stride) (dim := fun l => dim (Char.ofNat l))
    (nodup_codes hn) (fun l hl => by
      obtain ⟨c, h, rfl⟩ := List.mem_map.1 hl
      exact (alpha_facts (hc c h)).1) (by simpa [codes] using ha.2.1)
  rw [← eshape, show (codes out).length = out.length by simp [codes]] at hv
  have hiff : (∀ l ∈ codes ls, l ∈ codes out) ↔ ∀ c ∈ ls, c ∈ out := by
    constructor
    · exact fun h c hc => mem_codes.1 (h _ (mem_codes.2 hc))
    · intro h l hl
      obtain ⟨c, hc, rfl⟩ := List.mem_map.1 hl
      exact mem_codes.2 (h c hc)
  have main : a.einsumView ls out = (viewLayout a.shape a.stride (labelList (codes ls)) out.length ((codes out).map Int.ofNat) >>=
      fun r => .ok (r.map fun p => a.reshapedView p.1 p.2)) := by
    unfold Arr.einsumView
    rw [e]
    show (parseOutput out 0 t.counts >>= fun o => _) = _
    rw [eo]
    show (assert (decide (out.length ≤ maxDims)) >>= fun _ => viewLayout _ _ _ out.length (List.take out.length _) >>= fun r => _) = _
    rw [assert_ok (by simpa using hole), etake]
    rfl
  rw [main, hv]
  split
  · next h =>
    rw [if_pos (hiff.2 h)]
    refine ⟨_, rfl, rfl, ?_, ?_, ?_⟩
    · show (codes out).map (fun l => if l ∈ codes ls then dim (Char.ofNat l) else 0) = _
      rw [show codes out = out.map Char.toNat from rfl, List.map_map]
      refine List.map_congr_left fun c hc => ?_
      simp [mem_codes.2 (hm c hc)]
    · show ((codes out).map (strideSum (codes ls) a.stride)).length = _
      simp [codes]
    · intro o ho
      show a.buf[a.off + offset o ((codes out).map (strideSum (codes ls) a.stride))]? = _
      have hol : o.length = out.length := by simpa using ho.length
      have eoff : ∀ (g : Nat → Nat) (idx I : List Nat), offset idx (I.map g) = wsum idx I g := by
        intro g idx
        induction idx with
        | nil => intro I; cases I <;> rfl
        | cons i idx ih => intro I; cases I with
          | nil => rfl
          | cons l I => simp [offset, wsum, ih]
      rw [eoff, wsum_strideSum hn h hol (by simpa using ha.2.1), ha.2.2 _ (InB_map_valueOf ho h)]
      simp [einsteinSum]
  · next h =>
    rw [if_neg (fun hh => h (hiff.1 hh))]
    rfl

example := C53_einsum_view (ls := ['i', 'j']) (out := ['j', 'i']) (dim := fun c => if c = 'j' then 3 else 2)
  (denotes_fromContiguous (s := [2, 3]) (f := fun i => (i.getD 0 0 : Int))) (by decide) (by decide) (by decide) (by decide)

set_option maxRecDepth 10000 in
/-- transposition and a diagonal as views, and a sum that is none -/
example : (einA.einsumView ['i', 'j'] ['j', 'i']).map (Option.map fun v => (v.shape, v.stride)) = .ok (some ([3, 2], [1, 3]))
    ∧ ((Arr.fromContiguousOwnedBuffer [2, 2] [(1 : Int), 2, 3, 4]).einsumView ['i', 'i'] ['i']).map
        (Option.map fun v => (v.shape, v.stride)) = .ok (some ([2], [3]))
    ∧ (einA.einsumView ['i', 'j'] ['j']).map Option.isNone = .ok true := by decide +kernel

end Verif
