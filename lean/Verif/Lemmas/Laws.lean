import Verif.Spec.Laws
import Verif.Props.Construct
import Verif.Props.Elementwise
import Verif.Props.Einsum
import Verif.Props.MatrixOps
import Verif.Props.Trace
import Verif.Lemmas.AutogradArr
import Mathlib.Algebra.BigOperators.Ring.Finset
import Mathlib.Algebra.BigOperators.Intervals

/-!
# Lemmas for the laws relating different operations
-/

namespace Verif

variable {α : Type}

theorem same_of_denotes [BEq α] [LawfulBEq α] {x y : Res (Arr α)} {r r' : Arr α} {s : List Nat} {f g : List Nat → α}
    (hx : x = .ok r) (hr : r.Denotes s f) (hy : y = .ok r') (hr' : r'.Denotes s g) (hs : s.length ≤ 32)
    (h : ∀ idx, InB idx s → f idx = g idx) : SameArray x y := by
  obtain ⟨b, e, hb⟩ := C22_eq hr hr' hs
  refine ⟨r, r', hx, hy, ?_⟩
  rw [e, hb.2 ⟨rfl, fun idx hi => by rw [h idx hi]; exact beq_self_eq_true _⟩]

/-- every view whose elements lie in its buffer denotes what it reads -/
theorem denotes_reads {a : Arr α} (d : α) (hl : a.stride.length = a.shape.length)
    (h : ∀ idx ∈ indices a.shape, a.off + offset idx a.stride < a.buf.length) :
    a.Denotes a.shape (fun idx => a.buf.getD (a.off + offset idx a.stride) d) :=
  ⟨rfl, hl, fun idx hi => by
    have := h idx (mem_indices.2 hi)
    simp [List.getElem?_eq_getElem this, List.getD_eq_getElem?_getD]⟩

theorem list_sum_range [AddCommMonoid α] (n : Nat) (f : Nat → α) :
    ((List.range n).map f).sum = ∑ i ∈ Finset.range n, f i := rfl

theorem innerProduct_finset [CommSemiring α] (k : Nat) (u v : Nat → α) :
    innerProduct k u v = ∑ i ∈ Finset.range k, u i * v i := rfl

theorem stretchTo_self : ∀ s : List Nat, StretchTo s s
  | [] => trivial
  | _ :: s => ⟨.inr rfl, stretchTo_self s⟩

theorem broadcastsTo_self (s : List Nat) : BroadcastsTo s s :=
  ⟨Nat.le_refl _, by simpa using stretchTo_self s⟩

theorem broadcastIndex_same {s idx : List Nat} (h : InB idx s) : broadcastIndex s idx = idx := by
  unfold broadcastIndex
  rw [h.length, Nat.sub_self, List.drop_zero]
  induction s generalizing idx with
  | nil => cases idx with
    | nil => rfl
    | cons i idx => exact h.elim
  | cons n s ih => cases idx with
    | nil => exact h.elim
    | cons i idx =>
      show (if n = 1 then 0 else i) :: clamp s idx = i :: idx
      rw [ih h.2]
      have := h.1
      split
      · rw [show i = 0 by omega]
      · rfl

/-- an operator that never fails, on arrays of equal shape -/
theorem binOp_same_shape (op : α → α → α) (dflt : α) {a b : Arr α} {s : List Nat} {f g : List Nat → α}
    (ha : a.Denotes s f) (hb : b.Denotes s g) (hd : s.length ≤ 32) :
    ∃ c, a.binOp (fun x y => .ok (op x y)) (portableKernels fun x y => .ok (op x y)) dflt b = .ok c ∧
      c.Denotes s (fun idx => op (f idx) (g idx)) :=
  C05_elementwise _ dflt ha hb (broadcastsTo_self s).compatible (broadcastsTo_self s).joint hd
    fun idx hi => by rw [broadcastIndex_same hi]

/-! ## letters -/

theorem map_dropAxes {β γ : Type} (g : β → γ) (ks : List Nat) (l : List β) :
    (dropAxes ks l).map g = dropAxes ks (l.map g) := by
  unfold dropAxes
  rw [List.zipIdx_map, List.filter_map, List.map_map, List.map_map]
  rfl

theorem map_valueOf_self {L : List Char} {idx : List Nat} (hn : L.Nodup) (hl : idx.length = L.length) :
    L.map (valueOf L idx) = idx := by
  simpa using valueOf_left (rest := []) (r := []) (by simpa using hn) hl

theorem valueOf_map {L : List Char} (g : Char → Nat) {c : Char} (hc : c ∈ L) : valueOf L (L.map g) c = g c := by
  induction L with
  | nil => simp at hc
  | cons x L ih =>
    simp only [List.map_cons, valueOf]
    split
    · next h => rw [h]
    · next h => exact ih ((List.mem_cons.1 hc).resolve_left h)

theorem dropAxes_sublist {β : Type} (ks : List Nat) (l : List β) : (dropAxes ks l).Sublist l := by
  unfold dropAxes
  have := (List.filter_sublist (p := fun p : β × Nat => decide (p.2 ∉ ks)) (l := l.zipIdx)).map Prod.fst
  rwa [List.zipIdx_map_fst] at this

theorem map_exchange {β γ : Type} {g : β → γ} {i j : Nat} {l : List β} (hi : i < l.length) (hj : j < l.length) :
    (exchange i j l).map g = exchange i j (l.map g) := by
  rw [exchange_eq_set hi hj, exchange_eq_set (by simpa using hi) (by simpa using hj)]
  simp [List.map_set]

theorem filter_indices_eq {s y : List Nat} (hy : InB y s) {P : List Nat → Bool}
    (h : ∀ x, InB x s → (P x = true ↔ x = y)) : (indices s).filter P = [y] := by
  rw [List.filter_congr (q := fun x => decide (x = y))]
  · rw [List.filter_eq, List.count_eq_one_of_mem (indices_nodup s) (mem_indices.2 hy)]
    rfl
  · intro x hx
    rw [Bool.eq_iff_iff, h x (mem_indices.1 hx)]
    simp

/-- One operand with distinct letters: the Einstein sum runs over the indices that agree with the output index. -/
theorem einsteinSum_one [CommSemiring α] {ls out rest : List Char} {s : List Nat} {f : List Nat → α} (hl : ls.length = s.length)
    (hn : ls.Nodup) (hno : (out ++ rest).Nodup) (hm : ∀ c, c ∈ out ++ rest ↔ c ∈ ls) {o : List Nat}
    (ho : InB o (out.map (valueOf ls s))) :
    einsteinSum out rest (valueOf ls s) [⟨ls, f⟩] o =
      (((indices s).filter fun idx => out.map (valueOf ls idx) = o).map f).sum := by
  have hls : ls.map (valueOf ls s) = s := map_valueOf_self hn hl.symm
  have holen : o.length = out.length := by simpa using ho.length
  unfold einsteinSum
  simp only [List.map_cons, List.map_nil, List.prod_cons, List.prod_nil, mul_one]
  rw [show ((indices (rest.map (valueOf ls s))).map fun r => f (ls.map (valueOf (out ++ rest) (o ++ r)))) =
    ((indices (rest.map (valueOf ls s))).map fun r => ls.map (valueOf (out ++ rest) (o ++ r))).map f by simp [Function.comp_def]]
  refine List.Perm.sum_eq (List.Perm.map f ?_)
  have hback : ∀ r, InB r (rest.map (valueOf ls s)) → ∀ cs : List Char, (∀ c ∈ cs, c ∈ ls) →
      cs.map (valueOf ls (ls.map (valueOf (out ++ rest) (o ++ r)))) = cs.map (valueOf (out ++ rest) (o ++ r)) :=
    fun r _ cs h => List.map_congr_left fun c hc => valueOf_map _ (h c hc)
  have hrest : ∀ r, InB r (rest.map (valueOf ls s)) → rest.map (valueOf (out ++ rest) (o ++ r)) = r := by
    intro r hr
    have h := map_valueOf_self (L := out ++ rest) (idx := o ++ r) hno
      (by have := hr.length; simp only [List.length_map] at this; simp [holen, this])
    rw [List.map_append] at h
    exact (List.append_inj h (by simp [holen])).2
  rw [List.perm_ext_iff_of_nodup]
  · intro idx
    simp only [List.mem_map, List.mem_filter, mem_indices, decide_eq_true_eq]
    constructor
    · rintro ⟨r, hr, rfl⟩
      refine ⟨?_, ?_⟩
      · have h : InB (o ++ r) ((out ++ rest).map (valueOf ls s)) := by
          rw [List.map_append]
          exact (InB_append ho.length).2 ⟨ho, hr⟩
        have := InB_map_valueOf (cs := ls) h fun c hc => (hm c).2 hc
        rwa [hls] at this
      · rw [hback r hr out fun c hc => (hm c).1 (by simp [hc])]
        exact valueOf_left hno holen
    · rintro ⟨hi, he⟩
      have hil : idx.length = ls.length := by rw [hi.length, hl]
      have hi' : InB idx (ls.map (valueOf ls s)) := by rwa [hls]
      refine ⟨rest.map (valueOf ls idx), ?_, ?_⟩
      · exact InB_map_valueOf (cs := rest) hi' fun c hc => (hm c).1 (by simp [hc])
      · rw [← he, ← List.map_append]
        refine Eq.trans (List.map_congr_left fun c hc => valueOf_map _ ((hm c).2 hc)) ?_
        exact map_valueOf_self hn hil
  · refine List.Nodup.map_on ?_ (indices_nodup _)
    intro r hr r' hr' e
    rw [mem_indices] at hr hr'
    have h := congrArg (fun l => rest.map (valueOf ls l)) e
    rwa [hback r hr rest fun c hc => (hm c).1 (by simp [hc]), hback r' hr' rest fun c hc => (hm c).1 (by simp [hc]),
      hrest r hr, hrest r' hr'] at h
  · exact (indices_nodup _).filter _

theorem wellFormed_one {ls out : List Char} {s : List Nat} {f : List Nat → α} (hl : ls.length = s.length)
    (hal : ∀ c ∈ ls, c.isAlpha) (hno : out.Nodup) (hm : ∀ c ∈ out, c ∈ ls) (hn : ls.Nodup) (hs : 0 ∉ s) :
    WellFormed [⟨ls, f⟩] out (ls.filter (· ∉ out)) (valueOf ls s) := by
  refine ⟨by simpa using hal, ?_, by simpa using hm, by simp, ?_⟩
  · rw [List.nodup_append]
    refine ⟨hno, hn.filter _, ?_⟩
    rintro a ha b hb rfl
    simp at hb
    exact hb.2 ha
  · intro f' hf c hc
    simp at hf
    subst hf
    have : valueOf ls s c ∈ s := by
      have h := List.mem_map_of_mem (f := valueOf ls s) hc
      rwa [map_valueOf_self hn hl.symm] at h
    rcases Nat.eq_zero_or_pos (valueOf ls s c) with h | h
    · rw [h] at this; exact (hs this).elim
    · exact h

/-- `einsum` of one operand with distinct letters -/
theorem einsum_one [CommSemiring α] {K : SopKernels α} (hK : K.Correct) {a : Arr α} {s : List Nat} {f : List Nat → α}
    (ha : a.Denotes s f) (h0 : 0 ∉ s) (hd : s.length ≤ 32) (hne : s ≠ []) {ls out : List Char} (hl : ls.length = s.length)
    (hal : ∀ c ∈ ls, c.isAlpha) (hn : ls.Nodup) (hno : out.Nodup) (hm : ∀ c ∈ out, c ∈ ls) :
    ∃ r, einsum K [a] [ls] out = .ok r ∧ r.Denotes (out.map (valueOf ls s)) (fun o =>
      (((indices s).filter fun idx => out.map (valueOf ls idx) = o).map f).sum) := by
  have hw := wellFormed_one (f := f) hl hal hno hm hn h0
  have hmem : ∀ c, c ∈ out ++ ls.filter (· ∉ out) ↔ c ∈ ls := by
    intro c
    simp only [List.mem_append, List.mem_filter, decide_eq_true_eq]
    have := hm c
    tauto
  have hlen : (out ++ ls.filter (· ∉ out)).length = ls.length :=
    ((List.perm_ext_iff_of_nodup hw.nodup hn).2 hmem).length_eq
  obtain ⟨r, e, h⟩ := C28_einsum_partial (ops := [a]) hK hw
    (.cons (by rw [map_valueOf_self hn hl.symm]; exact ha) .nil) (by simp) (by simp; omega) (by omega)
    (by intro e; rw [e] at hlen; exact hne (List.length_eq_zero_iff.1 (by simpa [hl] using hlen.symm)))
  exact ⟨r, e, h.congr fun o ho => einsteinSum_one hl hn hw.nodup hmem ho⟩

/-- sums over the fibres of a function add up -/
theorem sum_fibres {ι κ : Type} [DecidableEq κ] [AddCommMonoid α] {L : List ι} {M : List κ} {g : ι → κ} {f : ι → α}
    {P : κ → Bool} (h : ∀ x ∈ L, g x ∈ M) (hM : M.Nodup) :
    ((M.filter P).map fun J => ((L.filter fun x => g x = J).map f).sum).sum = ((L.filter fun x => P (g x)).map f).sum := by
  induction L with
  | nil => simp
  | cons x L ih =>
    have ih := ih fun y hy => h y (by simp [hy])
    have e : ∀ J, (((x :: L).filter fun x => g x = J).map f).sum = (if g x = J then f x else 0) + ((L.filter fun x => g x = J).map f).sum := by
      intro J
      by_cases hJ : g x = J <;> simp [List.filter_cons, hJ]
    simp only [e, List.sum_map_add, ih]
    have hsingle : ((M.filter P).map fun J => if g x = J then f x else 0).sum = if P (g x) then f x else 0 := by
      have hmem : g x ∈ M.filter P ↔ P (g x) = true := by
        rw [List.mem_filter]; exact ⟨fun h => h.2, fun hp => ⟨h x (by simp), hp⟩⟩
      have hnd := hM.filter P
      generalize M.filter P = N at hmem hnd
      clear ih e hM h
      by_cases hP : P (g x) = true
      · rw [if_pos hP]
        have hin := hmem.2 hP
        clear hmem
        induction N with
        | nil => simp at hin
        | cons J N ihN =>
          rw [List.nodup_cons] at hnd
          rcases List.mem_cons.1 hin with h1 | h1
          · subst h1
            have : (N.map fun J => if g x = J then f x else 0).sum = 0 := by
              apply List.sum_eq_zero
              intro y hy
              obtain ⟨J, hJ, rfl⟩ := List.mem_map.1 hy
              rw [if_neg]
              rintro rfl
              exact hnd.1 hJ
            simp [this]
          · have hne : g x ≠ J := by rintro rfl; exact hnd.1 h1
            simp [hne, ihN hnd.2 h1]
      · rw [if_neg hP]
        apply List.sum_eq_zero
        intro y hy
        obtain ⟨J, hJ, rfl⟩ := List.mem_map.1 hy
        rw [if_neg]
        rintro rfl
        exact hP (hmem.1 hJ)
    rw [hsingle]
    by_cases hP : P (g x) = true <;> simp [List.filter_cons, hP]

end Verif
