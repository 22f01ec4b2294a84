import Verif.Props.Passes

/-!
# C96: several losses

Calling `backward` on several losses of the same shape, one after the other, gives the gradients that one call on their sum gives: accumulating gradients over
parts of the data is the same as adding the losses up first.
-/

namespace Verif

section any
variable {α : Type}

/-- `z + y₁`, `(z + y₁) + y₂`, and so on, for `ys = [y₁, y₂, …]`; `n`: the number of tensors so far. -/
def sumOf (z n : Nat) : List Nat → List (Instr α)
  | [] => []
  | y :: ys => .bin .add z y :: sumOf n (n + 1) ys

/-- The tensor that holds the last of these sums. -/
def sumAt (z n : Nat) : List Nat → Nat
  | [] => z
  | _ :: ys => sumAt n (n + 1) ys

theorem sumOf_no_setReq (z n : Nat) (ys : List Nat) : ∀ x ∈ (sumOf z n ys : List (Instr α)), ∀ i b, x ≠ .setReq i b := by
  induction ys generalizing z n with
  | nil => intro x hx; cases hx
  | cons y ys ih =>
    intro x hx i b e
    rcases List.mem_cons.1 hx with rfl | hx
    · cases e
    · exact ih _ _ x hx i b e

theorem sumOf_length (z n : Nat) (ys : List Nat) : (sumOf z n ys : List (Instr α)).length = ys.length := by
  induction ys generalizing z n with
  | nil => rfl
  | cons y ys ih => simp [sumOf, ih]

theorem sumAt_lt {z n : Nat} (hz : z < n) (ys : List Nat) : sumAt z n ys < n + ys.length := by
  induction ys generalizing z n with
  | nil => exact hz
  | cons y ys ih =>
    have := ih (show n < n + 1 by omega)
    simp only [sumAt, List.length_cons]
    omega

theorem wellShaped_snoc {p : List (Instr α)} {Γ Γ' : List (List Nat)} {B : List Bool} (h : WellShaped Γ B p Γ') {x : Instr α} {r : List Nat}
    (hx : ∀ e, x.HasShape e Γ' r) (h0 : 0 ∉ r) (hl : r.length ≤ 32) (hs : ∀ B, x.safe B = true) : WellShaped Γ B (p ++ [x]) (x.extend Γ' r) := by
  induction p generalizing Γ B with
  | nil => cases h; exact ⟨r, hx _, h0, hl, hs _, rfl⟩
  | cons y p ih =>
    obtain ⟨r', h1, h2, h3, h4, h⟩ := h
    exact ⟨r', h1, h2, h3, h4, ih h⟩

theorem flow_congr {Γ₀ Γ Γ' : List (List Nat)} {B : List Bool} {p : List (Instr α)} (h : WellShaped Γ₀ B p Γ) (hp : Γ <+: Γ') (F : List Flow)
    (hF : F.length = Γ₀.length) : p.foldl (Instr.flow Γ') F = p.foldl (Instr.flow Γ) F := by
  have key : ∀ i, i < Γ.length → Γ'.getD i [] = Γ.getD i [] := fun i hi => by
    rw [List.getD_eq_getElem?_getD, List.getD_eq_getElem?_getD, prefix_get hp hi]
  induction p generalizing Γ₀ B F with
  | nil => rfl
  | cons x p ih =>
    obtain ⟨r, h1, _, _, _, h⟩ := h
    have hpre := (wellShaped_mem h).1.length_le
    have lt : ∀ {i : Nat} {s : List Nat}, Γ₀[i]? = some s → i < Γ₀.length := fun h => (List.getElem?_eq_some_iff.1 h).1
    have hlen : (x.extend Γ₀ r).length ≤ Γ.length := hpre
    have hx : x.flow Γ' F = x.flow Γ F := by
      cases x with
      | leaf s d => rfl
      | setReq i b => rfl
      | neg i =>
        have := lt h1
        simp only [Instr.extend, List.length_append, List.length_singleton] at hlen
        simp only [Instr.flow, key i (by omega)]
      | scal op i c =>
        have := lt h1
        simp only [Instr.extend, List.length_append, List.length_singleton] at hlen
        simp only [Instr.flow, key i (by omega)]
      | bin op i j =>
        obtain ⟨s, t, hi, hj, _⟩ := h1
        have := lt hi
        have := lt hj
        simp only [Instr.extend, List.length_append, List.length_singleton] at hlen
        simp only [Instr.flow, key i (by omega), key j (by omega), key F.length (by omega)]
      | dot i j =>
        obtain ⟨n, hi, hj, _⟩ := h1
        have := lt hi
        have := lt hj
        simp only [Instr.extend, List.length_append, List.length_singleton] at hlen
        simp only [Instr.flow, key i (by omega), key j (by omega)]
      | matmul i j =>
        have ⟨hi, hj⟩ : i < Γ₀.length ∧ j < Γ₀.length := by
          rcases h1 with ⟨n, hi, hj, _⟩ | ⟨m, k, hi, hj, _⟩ | ⟨m, k, n, hi, hj, _⟩ <;> exact ⟨lt hi, lt hj⟩
        simp only [Instr.extend, List.length_append, List.length_singleton] at hlen
        simp only [Instr.flow, key i (by omega), key j (by omega)]
      | bmm i j =>
        obtain ⟨b, m, k, n, hi, hj, _⟩ := h1
        have := lt hi
        have := lt hj
        simp only [Instr.extend, List.length_append, List.length_singleton] at hlen
        simp only [Instr.flow, key i (by omega), key j (by omega)]
      | view op i =>
        obtain ⟨s, hi, _⟩ := h1
        have := lt hi
        simp only [Instr.extend, List.length_append, List.length_singleton] at hlen
        simp only [Instr.flow, key i (by omega), key F.length (by omega)]
      | into op b i =>
        obtain ⟨s, hi, _⟩ := h1
        have := lt hi
        simp only [Instr.extend, List.length_append, List.length_singleton] at hlen
        simp only [Instr.flow, key i (by omega), key F.length (by omega)]
    rw [List.foldl_cons, List.foldl_cons, hx]
    refine ih h _ ?_
    cases x <;> simp [Instr.flow, Instr.extend, hF]

/-- Tensors made later do not matter. -/
theorem passes_extend {Γ Γ' : List (List Nat)} {p : List (Instr α)} (h : WellShaped [] [] p Γ) (hp : Γ <+: Γ') (y : Nat) (d : List Nat) :
    Passes Γ' p y d ↔ Passes Γ p y d := by
  unfold Passes
  rw [flow_congr h hp [] rfl]

theorem constructed_length {p : List (Instr α)} {Γ : List (List Nat)} (h : WellShaped [] [] p Γ) : (constructed p).length = Γ.length := by
  have key : ∀ (p : List (Instr α)) (Γ₀ : List (List Nat)) (B L : List Bool), WellShaped Γ₀ B p Γ → L.length = Γ₀.length →
      (p.foldl (fun L x => x.extend L x.isLeafInstr) L).length = Γ.length := by
    intro p
    induction p with
    | nil => intro Γ₀ B L h hL; cases h; exact hL
    | cons x p ih =>
      intro Γ₀ B L h hL
      obtain ⟨r, _, _, _, _, h⟩ := h
      refine ih _ _ _ h ?_
      cases x <;> simp [Instr.extend, hL]
  exact key p _ _ _ h rfl

theorem passes_add {Γ : List (List Nat)} {p : List (Instr α)} {z y : Nat} {s : List Nat} (hz : Γ.getD z [] = s) (hy : Γ.getD y [] = s)
    (hn : Γ.getD (constructed p).length [] = s) (d : List Nat) :
    Passes Γ (p ++ [.bin .add z y]) (constructed p).length d ↔ Passes Γ p z d ∧ Passes Γ p y d := by
  unfold Passes
  rw [List.foldl_append]
  have hl := flow_length Γ p
  generalize p.foldl (Instr.flow Γ) [] = F at hl ⊢
  simp only [List.foldl_cons, List.foldl_nil, Instr.flow, ← hl, List.getD_eq_getElem?_getD, List.getElem?_append_right (Nat.le_refl _), Nat.sub_self,
    List.getElem?_cons_zero, Option.getD_some]
  rw [← hl, List.getD_eq_getElem?_getD] at hn
  rw [List.getD_eq_getElem?_getD] at hz hy
  rw [hz, hy, hn]
  generalize F[z]?.getD _ = f
  generalize F[y]?.getD _ = g
  obtain ⟨a, f⟩ := f
  obtain ⟨b, g⟩ := g
  cases a <;> cases b <;> simp [Flow.takes, Flow.receives, KeepsAxis]

theorem passes_sum {Γ : List (List Nat)} {s : List Nat} {ys : List Nat} {p : List (Instr α)} {z : Nat} (hz : Γ.getD z [] = s) (hzn : z < (constructed p).length)
    (hy : ∀ y ∈ ys, Γ.getD y [] = s ∧ y < (constructed p).length) (hn : ∀ k, k < ys.length → Γ.getD ((constructed p).length + k) [] = s) (d : List Nat) :
    Passes Γ (p ++ sumOf z (constructed p).length ys) (sumAt z (constructed p).length ys) d ↔ Passes Γ p z d ∧ ∀ y ∈ ys, Passes Γ p y d := by
  induction ys generalizing p z with
  | nil => simp [sumOf, sumAt]
  | cons y ys ih =>
    have hns : ∀ x ∈ ([.bin .add z y] : List (Instr α)), ∀ i b, x ≠ .setReq i b := by
      intro x hx i b e
      rw [List.mem_singleton.1 hx] at e
      cases e
    have hc : (constructed (p ++ [(.bin .add z y : Instr α)])).length = (constructed p).length + 1 := by
      rw [constructed_snoc p (hns _ (by simp)), List.length_append]; rfl
    have := ih (p := p ++ [.bin .add z y]) (z := (constructed p).length) (hn 0 (by simp)) (by omega)
      (fun y' hy' => ⟨(hy y' (by simp [hy'])).1, by have := (hy y' (by simp [hy'])).2; omega⟩)
      (fun k hk => by rw [hc, Nat.add_assoc, Nat.add_comm 1 k]; exact hn (k + 1) (by simp; omega))
    rw [hc, List.append_assoc] at this
    refine this.trans ?_
    rw [passes_add hz (hy y (by simp)).1 (hn 0 (by simp))]
    have e : ∀ y' ∈ ys, (Passes Γ (p ++ [.bin .add z y]) y' d ↔ Passes Γ p y' d) := fun y' hy' => passes_prefix hns (hy y' (by simp [hy'])).2 d
    simp only [List.forall_mem_cons]
    constructor
    · exact fun ⟨⟨h1, h2⟩, h3⟩ => ⟨h1, h2, fun y' hy' => (e y' hy').1 (h3 y' hy')⟩
    · exact fun ⟨h1, h2, h3⟩ => ⟨⟨h1, h2⟩, fun y' hy' => (e y' hy').2 (h3 y' hy')⟩

theorem sum_shaped {Γ : List (List Nat)} {s : List Nat} {ys : List Nat} {p : List (Instr α)} {z : Nat} (h : WellShaped [] [] p Γ) (hz : Γ[z]? = some s)
    (hy : ∀ y ∈ ys, Γ[y]? = some s) (h0 : 0 ∉ s) (hl : s.length ≤ 32) :
    WellShaped [] [] (p ++ sumOf z Γ.length ys) (Γ ++ List.replicate ys.length s) := by
  induction ys generalizing p z Γ with
  | nil => simpa [sumOf] using h
  | cons y ys ih =>
    have hb := BroadcastsTo.refl s
    have h1 := wellShaped_snoc h (x := .bin .add z y) (r := s) (fun e => ⟨s, s, hz, hy y (by simp), hb.compatible, hb.joint⟩) h0 hl (fun B => rfl)
    have := ih (Γ := Γ ++ [s]) (z := Γ.length) h1 (by simp) (fun y' hy' => by
      have := hy y' (by simp [hy'])
      rw [List.getElem?_append_left (List.getElem?_eq_some_iff.1 this).1]; exact this)
    simpa [sumOf, List.replicate_succ] using this

/-! ### sessions -/

theorem legal_mono {C C' : List Bool} {Γ Γ' : List (List Nat)} (hC : C <+: C') (hΓ : Γ <+: Γ') {c : List (Cmd α)} {n : Nat} (h : Legal C Γ n c) :
    Legal C' Γ' n c := by
  induction c generalizing n with
  | nil => trivial
  | cons x c ih =>
    cases x with
    | op x => exact ⟨h.1, ih h.2⟩
    | backward y => exact ⟨h.1, ih h.2⟩
    | zeroGradient i => exact ⟨h.1, (prefix_get hC (List.getElem?_eq_some_iff.1 h.2.1).1).trans h.2.1, ih h.2.2⟩
    | backwardWith y g => exact ⟨h.1, ⟨(prefix_get hΓ (List.getElem?_eq_some_iff.1 h.2.1.1).1).trans h.2.1.1, h.2.1.2⟩, ih h.2.2⟩

theorem legal_append {C : List Bool} {Γ : List (List Nat)} {c d : List (Cmd α)} {n : Nat} (h : Legal C Γ n c) (hd : Legal C Γ (n + (program c).length) d) :
    Legal C Γ n (c ++ d) := by
  induction c generalizing n with
  | nil => exact hd
  | cons x c ih =>
    cases x with
    | op x =>
      refine ⟨h.1, ih h.2 ?_⟩
      have e : n + (program (Cmd.op x :: c)).length = n + 1 + (program c).length := by simp [program, Cmd.instr]; omega
      rwa [e] at hd
    | backward y => exact ⟨h.1, ih h.2 hd⟩
    | zeroGradient i => exact ⟨h.1, h.2.1, ih h.2.2 hd⟩
    | backwardWith y g => exact ⟨h.1, h.2.1, ih h.2.2 hd⟩

theorem legal_ops {C : List Bool} {Γ : List (List Nat)} {q : List (Instr α)} (hq : ∀ x ∈ q, ∀ i b, x ≠ .setReq i b) (n : Nat) : Legal C Γ n (q.map .op) := by
  induction q generalizing n with
  | nil => trivial
  | cons x q ih => exact ⟨hq x (by simp), ih (fun x hx => hq x (by simp [hx])) _⟩

theorem legal_backwards {C : List Bool} {Γ : List (List Nat)} {n : Nat} {ys : List Nat} (h : ∀ y ∈ ys, y < n) : Legal (α := α) C Γ n (ys.map .backward) := by
  induction ys with
  | nil => trivial
  | cons y ys ih => exact ⟨h y (by simp), ih fun y hy => h y (by simp [hy])⟩

theorem program_backwards (ys : List Nat) : program (ys.map (Cmd.backward (α := α))) = [] := by
  induction ys with
  | nil => rfl
  | cons y ys ih => simpa [program, Cmd.instr] using ih

/-- `backward` and `backward_with` are called on tensors that exist by then. -/
theorem legal_lt {C : List Bool} {Γ : List (List Nat)} {c : List (Cmd α)} {n : Nat} (h : Legal C Γ n c) (y : Nat)
    (hy : Cmd.backward y ∈ c ∨ ∃ g, Cmd.backwardWith y g ∈ c) : y < n + (program c).length := by
  induction c generalizing n with
  | nil => rcases hy with hy | ⟨g, hy⟩ <;> cases hy
  | cons x c ih =>
    cases x with
    | op x =>
      have := ih h.2 (by simpa using hy)
      have e : n + (program (Cmd.op x :: c)).length = n + 1 + (program c).length := by simp [program, Cmd.instr]; omega
      omega
    | backward z =>
      have e : (program (Cmd.backward z :: c)).length = (program c).length := rfl
      rw [e]
      rcases hy with hy | ⟨g, hy⟩
      · rcases List.mem_cons.1 hy with hy | hy
        · cases hy; have := h.1; omega
        · exact ih h.2 (.inl hy)
      · exact ih h.2 (.inr ⟨g, by simpa using hy⟩)
    | zeroGradient i =>
      have e : (program (Cmd.zeroGradient i :: c)).length = (program c).length := rfl
      rw [e]
      exact ih h.2.2 (by simpa using hy)
    | backwardWith z g =>
      have e : (program (Cmd.backwardWith z g :: c)).length = (program c).length := rfl
      rw [e]
      rcases hy with hy | ⟨g', hy⟩
      · exact ih h.2.2 (.inl (by simpa using hy))
      · rcases List.mem_cons.1 hy with hy | hy
        · cases hy; have := h.1; omega
        · exact ih h.2.2 (.inr ⟨g', hy⟩)

theorem legal_constructed {C : List Bool} {Γ : List (List Nat)} {c : List (Cmd α)} {p₀ : List (Instr α)} (h : Legal C Γ (constructed p₀).length c) :
    (constructed (p₀ ++ program c)).length = (constructed p₀).length + (program c).length := by
  induction c generalizing p₀ with
  | nil => simp [program]
  | cons x c ih =>
    cases x with
    | op x =>
      have e : program (Cmd.op x :: c) = x :: program c := by simp [program, Cmd.instr]
      have hc := constructed_snoc p₀ h.1
      have := ih (p₀ := p₀ ++ [x]) (by rw [hc, List.length_append]; exact h.2)
      rw [List.append_assoc, List.singleton_append, hc] at this
      rw [e, this]
      simp; omega
    | backward z => exact ih h.2
    | zeroGradient i => exact ih h.2.2
    | backwardWith z g => exact ih h.2.2

/-- The two ends of the session: `backward` on each of the losses, or on their sum. -/
theorem loss_passes {p₀ : List (Instr α)} {body : List (Cmd α)} {Γ : List (List Nat)} {z : Nat} {ys : List Nat} {s : List Nat}
    (h : WellShaped [] [] (p₀ ++ program body) Γ) (hb : Legal (constructed (p₀ ++ program body)) Γ (constructed p₀).length body)
    (hz : Γ[z]? = some s) (hy : ∀ y ∈ ys, Γ[y]? = some s) :
    (∀ c ∈ body ++ ((sumOf z Γ.length ys).map .op ++ [Cmd.backward (sumAt z Γ.length ys)]),
      c.passes (Γ ++ List.replicate ys.length s) (p₀ ++ program body ++ sumOf z Γ.length ys)) ↔
    ∀ c ∈ body ++ (z :: ys).map Cmd.backward, c.passes Γ (p₀ ++ program body) := by
  have hpre : Γ <+: Γ ++ List.replicate ys.length s := List.prefix_append _ _
  have hc := constructed_length h
  have lt : ∀ {i : Nat}, Γ[i]? = some s → i < Γ.length := fun h => (List.getElem?_eq_some_iff.1 h).1
  have get : ∀ {i : Nat}, i < Γ.length → (Γ ++ List.replicate ys.length s).getD i [] = Γ.getD i [] := fun hi => by
    rw [List.getD_eq_getElem?_getD, List.getD_eq_getElem?_getD, prefix_get hpre hi]
  have old : ∀ {y : Nat} (d : List Nat), y < Γ.length →
      (Passes (Γ ++ List.replicate ys.length s) (p₀ ++ program body ++ sumOf z Γ.length ys) y d ↔ Passes Γ (p₀ ++ program body) y d) := fun {y} d hy => by
    rw [passes_prefix (sumOf_no_setReq _ _ _) (by rw [hc]; exact hy), passes_extend h hpre]
  have hlt := fun y hy => legal_lt hb y hy
  rw [← legal_constructed hb, hc] at hlt
  have hbody : (∀ c ∈ body, c.passes (Γ ++ List.replicate ys.length s) (p₀ ++ program body ++ sumOf z Γ.length ys)) ↔
      ∀ c ∈ body, c.passes Γ (p₀ ++ program body) := by
    refine forall₂_congr fun c hcb => ?_
    cases c with
    | op x => exact Iff.rfl
    | zeroGradient i => exact Iff.rfl
    | backward y =>
      have := hlt y (.inl hcb)
      simp only [Cmd.passes, get this, old _ this]
    | backwardWith y g => exact old _ (hlt y (.inr ⟨g, hcb⟩))
  have gets : ∀ {i : Nat}, Γ[i]? = some s → Γ.getD i [] = s := fun h => by rw [List.getD_eq_getElem?_getD, h]; rfl
  have hat : (Γ ++ List.replicate ys.length s).getD (sumAt z Γ.length ys) [] = s := by
    have : ∀ (ys : List Nat) (z n k : Nat) (Γ : List (List Nat)), Γ.getD z [] = s → (∀ j, j < ys.length → Γ.getD (n + j) [] = s) →
        Γ.getD (sumAt z n ys) [] = s := by
      intro ys
      induction ys with
      | nil => exact fun z n k Γ h _ => h
      | cons y ys ih =>
        intro z n k Γ h hj
        exact ih n (n + 1) k Γ (hj 0 (by simp)) fun j hj' => by rw [Nat.add_assoc, Nat.add_comm 1 j]; exact hj (j + 1) (by simp; omega)
    refine this ys z Γ.length 0 _ (by rw [get (lt hz), gets hz]) fun j hj => ?_
    rw [List.getD_eq_getElem?_getD, List.getElem?_append_right (by omega), Nat.add_sub_cancel_left, List.getElem?_replicate, if_pos hj]; rfl
  have hsum := passes_sum (Γ := Γ ++ List.replicate ys.length s) (s := s) (ys := ys) (p := p₀ ++ program body) (z := z) (by rw [get (lt hz), gets hz])
    (by rw [hc]; exact lt hz) (fun y hy' => ⟨by rw [get (lt (hy y hy')), gets (hy y hy')], by rw [hc]; exact lt (hy y hy')⟩)
    (fun j hj => by rw [hc, List.getD_eq_getElem?_getD, List.getElem?_append_right (by omega), Nat.add_sub_cancel_left, List.getElem?_replicate, if_pos hj]; rfl)
    (rowStrides s)
  rw [hc] at hsum
  have hops : ∀ c ∈ (sumOf z Γ.length ys).map (Cmd.op (α := α)), c.passes (Γ ++ List.replicate ys.length s) (p₀ ++ program body ++ sumOf z Γ.length ys) := by
    intro c hc
    obtain ⟨x, _, rfl⟩ := List.mem_map.1 hc
    trivial
  have hA : (∀ c ∈ (z :: ys).map (Cmd.backward (α := α)), c.passes Γ (p₀ ++ program body)) ↔
      Passes Γ (p₀ ++ program body) z (rowStrides s) ∧ ∀ y ∈ ys, Passes Γ (p₀ ++ program body) y (rowStrides s) := by
    simp only [List.map_cons, List.forall_mem_cons, List.forall_mem_map, Cmd.passes, gets hz]
    refine and_congr_right fun _ => forall₂_congr fun y hy' => ?_
    rw [gets (hy y hy')]
  have hB : Cmd.passes (Γ ++ List.replicate ys.length s) (p₀ ++ program body ++ sumOf z Γ.length ys) (Cmd.backward (sumAt z Γ.length ys)) ↔
      Passes Γ (p₀ ++ program body) z (rowStrides s) ∧ ∀ y ∈ ys, Passes Γ (p₀ ++ program body) y (rowStrides s) := by
    simp only [Cmd.passes, hat]
    rw [hsum, passes_extend h hpre]
    refine and_congr_right fun _ => forall₂_congr fun y hy' => passes_extend h hpre _ _
  simp only [List.forall_mem_append, hbody, hA, List.forall_mem_singleton, hB]
  exact and_congr_right fun _ => ⟨fun h => h.2, fun h => ⟨hops, h⟩⟩

/-- The session that adds up the losses, as an instance of C91. -/
theorem loss_legal {p₀ : List (Instr α)} {body : List (Cmd α)} {Γ : List (List Nat)} {z : Nat} {ys : List Nat} {s : List Nat}
    (h : WellShaped [] [] (p₀ ++ program body) Γ) (hb : Legal (constructed (p₀ ++ program body)) Γ (constructed p₀).length body)
    (hz : Γ[z]? = some s) (hy : ∀ y ∈ ys, Γ[y]? = some s) :
    (p₀ ++ program (body ++ (z :: ys).map Cmd.backward) = p₀ ++ program body ∧
      Legal (constructed (p₀ ++ program body)) Γ (constructed p₀).length (body ++ (z :: ys).map Cmd.backward)) ∧
    (p₀ ++ program (body ++ ((sumOf z Γ.length ys).map .op ++ [Cmd.backward (sumAt z Γ.length ys)])) = p₀ ++ program body ++ sumOf z Γ.length ys ∧
      Legal (constructed (p₀ ++ program body ++ sumOf z Γ.length ys)) (Γ ++ List.replicate ys.length s) (constructed p₀).length
        (body ++ ((sumOf z Γ.length ys).map .op ++ [Cmd.backward (sumAt z Γ.length ys)]))) := by
  have hc := constructed_length h
  have hlen := legal_constructed hb
  have lt : ∀ {i : Nat}, Γ[i]? = some s → i < Γ.length := fun h => (List.getElem?_eq_some_iff.1 h).1
  refine ⟨⟨by rw [program_append, program_backwards, List.append_nil], legal_append hb ?_⟩, ?_, ?_⟩
  · rw [← hlen, hc]
    exact legal_backwards fun y hy' => by
      rcases List.mem_cons.1 hy' with rfl | hy'
      · exact lt hz
      · exact lt (hy y hy')
  · rw [program_append, program_append, program_ops, List.append_assoc]
    simp [program, Cmd.instr]
  · refine legal_append (legal_mono (constructed_append _ _) (List.prefix_append _ _) hb) ?_
    rw [← hlen, hc]
    refine legal_append (legal_ops (sumOf_no_setReq _ _ _) _) ?_
    rw [program_ops, sumOf_length]
    exact ⟨sumAt_lt (lt hz) ys, trivial⟩

end any

section field
variable {α : Type} [Field α] [Build]

theorem shaped_tensor {p : List (Instr α)} {Γ : List (List Nat)} (h : WellShaped [] [] p Γ) {i : Nat} {s : List Nat} (hi : Γ[i]? = some s) :
    (tensorOf p i).shape = s := by
  obtain ⟨σ, h1, h2, h3, _⟩ := (C91_loop (p₀ := p) (body := []) (Γ := Γ) (by simpa [program] using h) trivial).1 (by simp)
  rw [← h2, List.getElem?_map, Option.map_eq_some_iff] at hi
  obtain ⟨t, ht, rfl⟩ := hi
  have := (h3 i t ht).1
  simpa [program] using this.symm

theorem jacobian_add {p : List (Instr α)} {Γ : List (List Nat)} (h : WellShaped [] [] p Γ) {z y : Nat} {s : List Nat} (hz : Γ[z]? = some s)
    (hy : Γ[y]? = some s) (k : Nat) (J : List Nat) {idx : List Nat} (hi : InB idx s) :
    jacobian (p ++ [.bin .add z y]) Γ.length k J idx = jacobian p z k J idx + jacobian p y k J idx := by
  unfold jacobian
  set v := unitDir (α := α) k J
  have e : specRun (Dual.interp v) 0 (p ++ [.bin .add z y]) = (specRun (Dual.interp v) 0 p).step (Dual.interp v) 0 (.bin .add z y) := by
    unfold specRun
    rw [List.foldl_append]; rfl
  have hl : (specRun (Dual.interp v) 0 p).env.length = Γ.length := by rw [spec_length, constructed_length h]
  have hs : ∀ {i : Nat}, Γ[i]? = some s → ((specRun (Dual.interp v) 0 p).get i).1.shape = s := fun hi => by
    rw [(dual_value p v _).2.1, shaped_tensor h hi]
  rw [e]
  show (((SpecState.get ⟨(specRun (Dual.interp v) 0 p).env ++ [_], _⟩ Γ.length).1.elem idx).eps) = _
  conv_lhs => simp only [SpecState.get]
  rw [List.getD_eq_getElem?_getD, ← hl, List.getElem?_append_right (Nat.le_refl _), Nat.sub_self]
  show ((((specRun (Dual.interp v) 0 p).get z).1.elem (broadcastIndex ((specRun (Dual.interp v) 0 p).get z).1.shape idx)) +
    (((specRun (Dual.interp v) 0 p).get y).1.elem (broadcastIndex ((specRun (Dual.interp v) 0 p).get y).1.shape idx))).eps = _
  rw [hs hz, hs hy, broadcastIndex_self hi]
  rfl

omit [Build] in
theorem jacobian_prefix {p q : List (Instr α)} (hq : ∀ x ∈ q, ∀ i b, x ≠ .setReq i b) {y : Nat} (hy : y < (constructed p).length) (k : Nat) (J idx : List Nat) :
    jacobian (p ++ q) y k J idx = jacobian p y k J idx := by
  unfold jacobian
  rw [spec_get_append _ _ _ hq hy]

theorem jacobian_sum {p : List (Instr α)} {Γ : List (List Nat)} (h : WellShaped [] [] p Γ) {z : Nat} {ys : List Nat} {s : List Nat} (hz : Γ[z]? = some s)
    (hy : ∀ y ∈ ys, Γ[y]? = some s) (h0 : 0 ∉ s) (hl : s.length ≤ 32) (k : Nat) (J : List Nat) {idx : List Nat} (hi : InB idx s) :
    jacobian (p ++ sumOf z Γ.length ys) (sumAt z Γ.length ys) k J idx = jacobian p z k J idx + (ys.map fun y => jacobian p y k J idx).sum := by
  induction ys generalizing p z Γ with
  | nil => simp [sumOf, sumAt]
  | cons y ys ih =>
    have hb := BroadcastsTo.refl s
    have h1 := wellShaped_snoc h (x := .bin .add z y) (r := s) (fun e => ⟨s, s, hz, hy y (by simp), hb.compatible, hb.joint⟩) h0 hl (fun B => rfl)
    have lt : ∀ {i : Nat}, Γ[i]? = some s → i < Γ.length := fun h => (List.getElem?_eq_some_iff.1 h).1
    have := ih (Γ := Γ ++ [s]) (z := Γ.length) h1 (by simp) (fun y' hy' => by
      rw [List.getElem?_append_left (lt (hy y' (by simp [hy'])))]; exact hy y' (by simp [hy']))
    rw [List.length_append, List.length_singleton, List.append_assoc] at this
    refine this.trans ?_
    rw [jacobian_add h hz (hy y (by simp)) k J hi, List.map_cons, List.sum_cons, add_assoc]
    congr 2
    refine congrArg List.sum (List.map_congr_left fun y' hy' => ?_)
    exact jacobian_prefix (by intro x hx i b e; rw [List.mem_singleton.1 hx] at e; cases e) (by rw [constructed_length h]; exact lt (hy y' (by simp [hy']))) k J idx

omit [Build] in
theorem collected_backwards (p : List (Instr α)) (i k : Nat) (J : List Nat) (F : α) (ys : List Nat) :
    collected p i k J F (ys.map .backward) = F + (ys.map fun y => pair (tensorOf p y).shape (fun _ => 1) (jacobian p y k J)).sum := by
  induction ys generalizing F with
  | nil => simp [collected]
  | cons y ys ih =>
    rw [List.map_cons, List.map_cons, List.sum_cons, ← add_assoc]
    exact ih _

omit [Build] in
theorem collected_ops (p q : List (Instr α)) (i k : Nat) (J : List Nat) (F : α) : collected p i k J F (q.map .op) = F := by
  induction q with
  | nil => rfl
  | cons x q ih => exact ih

omit [Build] in
theorem collected_extend {p q : List (Instr α)} (hq : ∀ x ∈ q, ∀ i b, x ≠ .setReq i b) (i k : Nat) (J : List Nat) (F : α) {c : List (Cmd α)}
    (hc : ∀ y, Cmd.backward y ∈ c ∨ (∃ g, Cmd.backwardWith y g ∈ c) → y < (constructed p).length) :
    collected (p ++ q) i k J F c = collected p i k J F c := by
  have ht : ∀ {y}, y < (constructed p).length → tensorOf (p ++ q) y = tensorOf p y := fun hy => by unfold tensorOf; rw [spec_get_append _ _ _ hq hy]
  have hj : ∀ {y}, y < (constructed p).length → jacobian (p ++ q) y k J = jacobian p y k J := fun hy => funext fun idx => jacobian_prefix hq hy k J idx
  induction c generalizing F with
  | nil => rfl
  | cons x c ih =>
    have ih := fun F => ih F fun y hy => hc y (hy.imp (fun h => by simp [h]) fun ⟨g, h⟩ => ⟨g, by simp [h]⟩)
    cases x with
    | op x => exact ih F
    | zeroGradient j => exact ih _
    | backward y =>
      have hy := hc y (.inl (by simp))
      show collected (p ++ q) i k J (F + pair _ _ _) c = collected p i k J (F + pair _ _ _) c
      rw [ih, ht hy, hj hy]
    | backwardWith y g =>
      have hy := hc y (.inr ⟨g, by simp⟩)
      show collected (p ++ q) i k J (F + pair _ _ _) c = collected p i k J (F + pair _ _ _) c
      rw [ih, ht hy, hj hy]

omit [Build] in
theorem pair_list_sum (s : List Nat) (f : List Nat → α) (ys : List Nat) (g : Nat → List Nat → α) :
    pair s f (fun i => (ys.map fun y => g y i).sum) = (ys.map fun y => pair s f (g y)).sum := by
  induction ys with
  | nil => simp [pair]
  | cons y ys ih => simp only [List.map_cons, List.sum_cons]; rw [pair_add_right, ih]

/-- **C96.** In a session as in C91, after any operations and calls of `backward`, `backward_with` and `zero_gradient`, take tensors `z`, `y₁`, ..., `yₙ` of
the same shape. Calling `backward` on each of them, and calling it once on `z + y₁ + ... + yₙ`, either both panic, or both complete; then every
tensor has the same elements either way, and so has the gradient of every constructed tensor that requires gradient. -/
theorem C96_sum {p₀ : List (Instr α)} {body : List (Cmd α)} {Γ : List (List Nat)} {z : Nat} {ys : List Nat} {s : List Nat}
    (h : WellShaped [] [] (p₀ ++ program body) Γ) (hb : Legal (constructed (p₀ ++ program body)) Γ (constructed p₀).length body)
    (hz : Γ[z]? = some s) (hy : ∀ y ∈ ys, Γ[y]? = some s) :
    (runSession (p₀.map .op ++ (body ++ (z :: ys).map Cmd.backward)) = .error .panic ∧
      runSession (p₀.map .op ++ (body ++ ((sumOf z Γ.length ys).map .op ++ [Cmd.backward (sumAt z Γ.length ys)]))) = .error .panic) ∨
    ∃ σ τ, runSession (p₀.map .op ++ (body ++ (z :: ys).map Cmd.backward)) = .ok σ ∧
      runSession (p₀.map .op ++ (body ++ ((sumOf z Γ.length ys).map .op ++ [Cmd.backward (sumAt z Γ.length ys)]))) = .ok τ ∧
      σ.env.map (fun t => t.arr.shape) = Γ ∧ τ.env.map (fun t => t.arr.shape) = Γ ++ List.replicate ys.length s ∧
      (∀ (i : Nat) (t u : Tensor α), σ.env[i]? = some t → τ.env[i]? = some u → ∃ s f, t.arr.Denotes s f ∧ u.arr.Denotes s f) ∧
      ∀ i, (constructed (p₀ ++ program body))[i]? = some true → requiresOf (p₀ ++ program body) i = true →
        ∃ (t u : Tensor α) (g g' : Arr α) (s : List Nat) (f : List Nat → α), σ.env[i]? = some t ∧ τ.env[i]? = some u ∧
          t.gradient σ.store = some g ∧ u.gradient τ.store = some g' ∧ g.Denotes s f ∧ g'.Denotes s f := by
  obtain ⟨⟨eA, lA⟩, eB, lB⟩ := loss_legal h hb hz hy
  have hc := constructed_length h
  have hsmall := wellShaped_small h (fun s hs => by cases hs) s (List.mem_of_getElem? hz)
  have hS := sumOf_no_setReq (α := α) z Γ.length ys
  have hB' := sum_shaped h hz hy hsmall.1 hsmall.2
  have hA := C91_loop (p₀ := p₀) (body := body ++ (z :: ys).map Cmd.backward) (Γ := Γ) (by rw [eA]; exact h) (by rw [eA]; exact lA)
  have hB := C91_loop (p₀ := p₀) (body := body ++ ((sumOf z Γ.length ys).map .op ++ [Cmd.backward (sumAt z Γ.length ys)]))
    (Γ := Γ ++ List.replicate ys.length s) (by rw [eB]; exact hB') (by rw [eB]; exact lB)
  rw [eB, loss_passes h hb hz hy] at hB
  rw [eA] at hA
  have lt : ∀ {i : Nat} {s : List Nat}, Γ[i]? = some s → i < Γ.length := fun h => (List.getElem?_eq_some_iff.1 h).1
  by_cases hall : ∀ c ∈ body ++ (z :: ys).map Cmd.backward, c.passes Γ (p₀ ++ program body)
  · obtain ⟨σ, h1, h2, h3, h4⟩ := hA.1 hall
    obtain ⟨τ, g1, g2, g3, g4⟩ := hB.1 hall
    have hσ : σ.env.length = Γ.length := by rw [← h2, List.length_map]
    have ht : ∀ {y}, y < Γ.length → tensorOf (p₀ ++ program body ++ sumOf z Γ.length ys) y = tensorOf (p₀ ++ program body) y := fun hy => by
      unfold tensorOf; rw [spec_get_append _ _ _ hS (by rw [hc]; exact hy)]
    refine .inr ⟨σ, τ, h1, g1, h2, g2, fun i t u hti hui => ?_, fun i hi hq => ?_⟩
    · have hlt : i < Γ.length := by rw [← hσ]; exact (List.getElem?_eq_some_iff.1 hti).1
      have := g3 i u hui
      rw [ht hlt] at this
      exact ⟨_, _, h3 i t hti, this⟩
    · have hlt : i < Γ.length := by rw [← hc]; exact (List.getElem?_eq_some_iff.1 hi).1
      obtain ⟨t, k, g, hti, hv, hg, hd⟩ := h4 i hi hq
      obtain ⟨u, k', g', hui, hv', hg', hd'⟩ := g4 i ((prefix_get (constructed_append _ _) (by rw [hc]; exact hlt)).trans hi)
        (by unfold requiresOf; rw [spec_get_append _ _ _ hS (by rw [hc]; exact hlt)]; exact hq)
      have h0 : 0 ∉ (tensorOf (p₀ ++ program body) i).shape := by
        rw [← (h3 i t hti).1]
        exact (wellShaped_small h (fun s hs => by cases hs) _ (by rw [← h2]; exact List.mem_map_of_mem (List.mem_of_getElem? hti))).1
      have hv'' : IsVariable (p₀ ++ program body) i k' := fun v idx hidx => by
        have := hv' v idx (by rw [ht hlt]; exact hidx)
        rwa [spec_get_append _ _ _ hS (by rw [hc]; exact hlt)] at this
      obtain rfl := isVariable_unique h0 hv hv''
      rw [ht hlt] at hd'
      refine ⟨t, u, g, g', _, _, hti, hui, hg, hg', hd, ?_⟩
      refine hd'.congr fun J _ => ?_
      have hshape : ∀ {y}, Γ[y]? = some s → (tensorOf (p₀ ++ program body) y).shape = s := fun hy => shaped_tensor h hy
      have hsum : (tensorOf (p₀ ++ program body ++ sumOf z Γ.length ys) (sumAt z Γ.length ys)).shape = s := by
        refine shaped_tensor hB' ?_
        have : ∀ (ys : List Nat) (z n : Nat) (Γ : List (List Nat)), Γ[z]? = some s → (∀ j, j < ys.length → Γ[n + j]? = some s) →
            Γ[sumAt z n ys]? = some s := by
          intro ys
          induction ys with
          | nil => exact fun z n Γ h _ => h
          | cons y ys ih =>
            intro z n Γ h hj
            exact ih n (n + 1) Γ (hj 0 (by simp)) fun j hj' => by rw [Nat.add_assoc, Nat.add_comm 1 j]; exact hj (j + 1) (by simp; omega)
        refine this ys z Γ.length _ (by rw [List.getElem?_append_left (lt hz)]; exact hz) fun j hj => ?_
        rw [List.getElem?_append_right (by omega), Nat.add_sub_cancel_left, List.getElem?_replicate, if_pos hj]
      rw [collected_append, collected_append, collected_append, collected_ops, collected_backwards, collected_extend hS i k J 0 fun y hy => by
        rw [legal_constructed hb]; exact legal_lt hb y hy]
      show collected _ i k J 0 body + pair _ _ _ = _
      congr 1
      rw [hsum, pair_congr (fun _ _ => rfl) (fun idx hidx => jacobian_sum h hz hy hsmall.1 hsmall.2 k J hidx), pair_add_right,
        pair_list_sum s (fun _ => (1 : α)) ys fun y => jacobian (p₀ ++ program body) y k J, List.map_cons, List.sum_cons, hshape hz]
      congr 2
      exact List.map_congr_left fun y hy' => by rw [hshape (hy y hy')]
  · exact .inl ⟨hA.2 hall, hB.2 hall⟩

/-- `u = x * x`, `v = x * 3`; then `u.backward(); v.backward(); x.backward()`, or `(&(&u + &v) + &x).backward()`. -/
example : ∃ Γ : List (List Nat), WellShaped [] [] ([Instr.leaf [2] [1, 2], .setReq 0 true] ++
      program [Cmd.op (.bin .mul 0 0), .op (.scal .mul 0 (3 : ℚ)), .zeroGradient 0]) Γ ∧
    Legal (constructed ([Instr.leaf [2] [1, 2], .setReq 0 true] ++
      program [Cmd.op (.bin .mul 0 0), .op (.scal .mul 0 (3 : ℚ)), .zeroGradient 0])) Γ 1
      [Cmd.op (.bin .mul 0 0), .op (.scal .mul 0 (3 : ℚ)), .zeroGradient 0] ∧ Γ[1]? = some [2] ∧ (∀ y ∈ [2, 0], Γ[y]? = some [2]) ∧
    (sumOf 1 Γ.length [2, 0] : List (Instr ℚ)) = [.bin .add 1 2, .bin .add 3 0] ∧ sumAt 1 Γ.length [2, 0] = 4 ∧
    ∀ c ∈ [Cmd.op (.bin .mul 0 0), .op (.scal .mul 0 (3 : ℚ)), .zeroGradient 0] ++ [1, 2, 0].map Cmd.backward,
      c.passes Γ ([Instr.leaf [2] [1, 2], .setReq 0 true] ++ program [Cmd.op (.bin .mul 0 0), .op (.scal .mul 0 (3 : ℚ)), .zeroGradient 0]) := by
  have hb := BroadcastsTo.refl [2]
  refine ⟨[[2], [2], [2]], ⟨[2], ⟨rfl, rfl⟩, by simp, by simp, rfl, [2], rfl, by simp, by simp, rfl,
    [2], ⟨[2], [2], rfl, rfl, hb.compatible, hb.joint⟩, by simp, by simp, rfl, [2], rfl, by simp, by simp, rfl, rfl⟩,
    ⟨(by intro _ _ h; cases h), (by intro _ _ h; cases h), (show 0 < 3 by decide), rfl, trivial⟩, rfl, by simp, rfl, rfl, ?_⟩
  simp [Cmd.passes, Passes, Instr.flow, Flow.takes, Flow.receives, KeepsAxis, evenStrides, rowStrides, numel, program, Cmd.instr,
    List.filterMap_cons, List.filterMap_nil]

end field

section values
variable {α : Type} [Add α] [Sub α] [Mul α] [Div α] [Neg α] [Zero α] [One α] [MulAdd α] [Build]

/-- **C96.** On elements of any type, floats in particular, both sessions complete or both panic. -/
theorem C96_any {p₀ : List (Instr α)} {body : List (Cmd α)} {Γ : List (List Nat)} {z : Nat} {ys : List Nat} {s : List Nat}
    (h : WellShaped [] [] (p₀ ++ program body) Γ) (hb : Legal (constructed (p₀ ++ program body)) Γ (constructed p₀).length body)
    (hz : Γ[z]? = some s) (hy : ∀ y ∈ ys, Γ[y]? = some s) :
    ((∃ σ, runSession (p₀.map .op ++ (body ++ (z :: ys).map Cmd.backward)) = .ok σ) ↔
      ∃ τ, runSession (p₀.map .op ++ (body ++ ((sumOf z Γ.length ys).map .op ++ [Cmd.backward (sumAt z Γ.length ys)]))) = .ok τ) ∧
    (runSession (p₀.map .op ++ (body ++ (z :: ys).map Cmd.backward)) = .error .panic ↔
      runSession (p₀.map .op ++ (body ++ ((sumOf z Γ.length ys).map .op ++ [Cmd.backward (sumAt z Γ.length ys)]))) = .error .panic) := by
  obtain ⟨⟨eA, lA⟩, eB, lB⟩ := loss_legal h hb hz hy
  have hsmall := wellShaped_small h (fun s hs => by cases hs) s (List.mem_of_getElem? hz)
  have hA := C91_any (p₀ := p₀) (body := body ++ (z :: ys).map Cmd.backward) (Γ := Γ) (by rw [eA]; exact h) (by rw [eA]; exact lA)
  have hB := C91_any (p₀ := p₀) (body := body ++ ((sumOf z Γ.length ys).map .op ++ [Cmd.backward (sumAt z Γ.length ys)]))
    (Γ := Γ ++ List.replicate ys.length s) (by rw [eB]; exact sum_shaped h hz hy hsmall.1 hsmall.2) (by rw [eB]; exact lB)
  rw [eB, loss_passes h hb hz hy] at hB
  rw [eA] at hA
  have key := hA.1.trans hB.1.symm
  refine ⟨key, ?_⟩
  have no : ∀ {r : Res (RunState α)}, r = .error .panic → ¬ ∃ σ, r = .ok σ := fun h ⟨σ, h'⟩ => by rw [h] at h'; cases h'
  constructor
  · intro hp
    rcases hB.2 with ⟨τ, hτ, _⟩ | hτ
    · exact absurd (key.2 ⟨τ, hτ⟩) (no hp)
    · exact hτ
  · intro hp
    rcases hA.2 with ⟨τ, hτ, _⟩ | hτ
    · exact absurd (key.1 ⟨τ, hτ⟩) (no hp)
    · exact hτ

end values

end Verif
