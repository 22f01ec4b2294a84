import Verif.Lemmas.Simd
import Verif.Lemmas.Reduce
import Verif.Lemmas.Sop

/-!
# The vector kernels for reductions and sums of products
-/

namespace Verif

variable {α : Type}

/-! ### reductions -/

section red
variable {op : α → α → α}

theorem bufVec_succ (L : Nat) (buf : List α) (p s : Nat) :
    bufVec (L + 1) buf p s = (do
      let x ← bufLoad buf p
      let v ← bufVec L buf (p + s) s
      return x :: v) := by
  simp only [bufVec, List.range_succ_eq_map, List.mapM_cons, Nat.zero_mul, Nat.add_zero, List.mapM_map]
  congr 1; funext x
  congr 2; funext i
  show bufLoad buf (p + (i + 1) * s) = bufLoad buf (p + s + i * s)
  congr 1
  rw [Nat.add_mul, Nat.one_mul]; omega

theorem bufVec_length {L : Nat} {buf : List α} {p s : Nat} {v : List α} (h : bufVec L buf p s = .ok v) : v.length = L := by
  have := mapM_eq_ok_length h
  simpa using this

/-- The portable loop, taken in pieces. -/
theorem redUniform_add {step : α → α → α} (hs : ∀ v acc, step v acc = op acc v) (s L n : Nat) (buf : List α) (p : Nat)
    (x : α) : redUniform step s (L + n) buf p x = (do
      let v ← bufVec L buf p s
      redUniform step s n buf (p + L * s) (v.foldl op x)) := by
  induction L generalizing p x with
  | zero => simp [bufVec, pure_res, ok_bind]
  | succ L ih =>
    rw [bufVec_succ, show L + 1 + n = L + n + 1 by omega]
    simp only [redUniform]
    cases bufLoad buf p with
    | error e => rfl
    | ok y =>
      simp only [ok_bind]
      rw [ih]
      cases bufVec L buf (p + s) s with
      | error e => rfl
      | ok v =>
        simp only [ok_bind, pure_res, List.foldl_cons, hs]
        congr 1
        rw [Nat.add_mul, Nat.one_mul]; omega

variable [Std.Associative op] [Std.Commutative op]

/-- A horizontal operation on `L` lanes: combining lane by lane and then across is combining one after the other. -/
structure Across (op : α → α → α) (L : Nat) (h : List α → Res α) : Prop where
  init : ∀ x, op x x = x → h (List.replicate L x) = .ok x
  step : ∀ acc v x, h acc = .ok x → acc.length = L → v.length = L → h (List.zipWith op acc v) = .ok (v.foldl op x)

theorem horizontal_across {L : Nat} (hL : L = 2 ∨ L = 4) : Across op L (horizontal op) := by
  rcases hL with rfl | rfl
  · refine ⟨fun x h => ?_, fun acc v x h ha hv => ?_⟩
    · simp [List.replicate, horizontal, h]
    · match acc, v, ha, hv with
      | [a, b], [c, d], _, _ =>
        simp only [horizontal, Except.ok.injEq] at h
        subst h
        simp only [List.zipWith_cons_cons, List.zipWith_nil_left, horizontal, List.foldl_cons, List.foldl_nil]
        congr 1; ac_rfl
  · refine ⟨fun x h => ?_, fun acc v x h ha hv => ?_⟩
    · simp [List.replicate, horizontal, h]
    · match acc, v, ha, hv with
      | [a, b, c, d], [a', b', c', d'], _, _ =>
        simp only [horizontal, Except.ok.injEq] at h
        subst h
        simp only [List.zipWith_cons_cons, List.zipWith_nil_left, horizontal, List.foldl_cons, List.foldl_nil]
        congr 1; ac_rfl

theorem horizontalMul_across {L : Nat} (hL : L = 2 ∨ L = 4) : Across op L (horizontalMul op) := by
  rcases hL with rfl | rfl
  · refine ⟨fun x h => ?_, fun acc v x h ha hv => ?_⟩
    · simp [List.replicate, horizontalMul, h]
    · match acc, v, ha, hv with
      | [a, b], [c, d], _, _ =>
        simp only [horizontalMul, Except.ok.injEq] at h
        subst h
        simp only [List.zipWith_cons_cons, List.zipWith_nil_left, horizontalMul, List.foldl_cons, List.foldl_nil]
        congr 1; ac_rfl
  · refine ⟨fun x h => ?_, fun acc v x h ha hv => ?_⟩
    · simp [List.replicate, horizontalMul, h]
    · match acc, v, ha, hv with
      | [a, b, c, d], [a', b', c', d'], _, _ =>
        simp only [horizontalMul, Except.ok.injEq] at h
        subst h
        simp only [List.zipWith_cons_cons, List.zipWith_nil_left, horizontalMul, List.foldl_cons, List.foldl_nil]
        congr 1; ac_rfl

/-- The scalar that `simd_horizontal_mul` extracts from a block. -/
theorem horizontalMul_fold {L : Nat} (hL : L = 2 ∨ L = 4) {v : List α} (hv : v.length = L) (x : α) :
    ∃ y, horizontalMul op v = .ok y ∧ op x y = v.foldl op x := by
  rcases hL with rfl | rfl
  · match v, hv with
    | [a, b], _ => exact ⟨_, rfl, by simp only [List.foldl_cons, List.foldl_nil]; ac_rfl⟩
  · match v, hv with
    | [a, b, c, d], _ => exact ⟨_, rfl, by simp only [List.foldl_cons, List.foldl_nil]; ac_rfl⟩

theorem foldl_op_left (l : List α) (x y : α) : l.foldl op (op x y) = op x (l.foldl op y) := by
  induction l generalizing y with
  | nil => rfl
  | cons z l ih => rw [List.foldl_cons, List.foldl_cons, ← ih]; congr 1; ac_rfl

theorem foldl_zipWith {a b : List α} (h : a.length = b.length) (x : α) :
    (List.zipWith op a b).foldl op x = b.foldl op (a.foldl op x) := by
  induction a generalizing b x with
  | nil => cases b with
    | nil => rfl
    | cons => simp at h
  | cons y a ih => cases b with
    | nil => simp at h
    | cons z b =>
      simp only [List.zipWith_cons_cons, List.foldl_cons]
      rw [ih (by simpa using h), show op x (op y z) = op z (op x y) by ac_rfl, foldl_op_left a z,
        show op (List.foldl op (op x y) a) z = op z (List.foldl op (op x y) a) by ac_rfl]

/-- Four vectors are loaded one after the other, or as one. -/
theorem redUniform_four {step : α → α → α} (hs : ∀ v acc, step v acc = op acc v) (L n : Nat) (buf : List α) (p : Nat)
    (x : α) : redUniform step 1 (4 * L + n) buf p x = (do
      let a ← bufVec L buf (p + 0 * L) 1
      let b ← bufVec L buf (p + 1 * L) 1
      let c ← bufVec L buf (p + 2 * L) 1
      let d ← bufVec L buf (p + 3 * L) 1
      redUniform step 1 n buf (p + 4 * L)
        ((List.zipWith op (List.zipWith op a b) (List.zipWith op c d)).foldl op x)) := by
  rw [show 4 * L + n = L + (L + (L + (L + n))) by omega, redUniform_add hs]
  rw [show p + 0 * L = p by omega]
  cases ha : bufVec L buf p 1 with
  | error e => rfl
  | ok a =>
    simp only [ok_bind]
    rw [redUniform_add hs, show p + L * 1 = p + 1 * L by omega]
    cases hb : bufVec L buf (p + 1 * L) 1 with
    | error e => rfl
    | ok b =>
      simp only [ok_bind]
      rw [redUniform_add hs, show p + 1 * L + L * 1 = p + 2 * L by omega]
      cases hc : bufVec L buf (p + 2 * L) 1 with
      | error e => rfl
      | ok c =>
        simp only [ok_bind]
        rw [redUniform_add hs, show p + 2 * L + L * 1 = p + 3 * L by omega]
        cases hd : bufVec L buf (p + 3 * L) 1 with
        | error e => rfl
        | ok d =>
          simp only [ok_bind]
          have := bufVec_length ha
          have := bufVec_length hb
          have := bufVec_length hc
          have := bufVec_length hd
          rw [foldl_zipWith (by simp; omega), foldl_zipWith (by omega), foldl_zipWith (by omega)]
          congr 1; omega

omit [Std.Associative op] [Std.Commutative op] in
theorem simdRedUniform_eq {step : α → α → α} (hs : ∀ v acc, step v acc = op acc v) {L : Nat} {h : List α → Res α}
    (hh : Across op L h) (buf : List α) (s n p : Nat) (acc : List α) (ha : acc.length = L) (x : α) (hx : h acc = .ok x) :
    simdRedUniform step op h L buf s n p acc = redUniform step s n buf p x := by
  induction n using Nat.strong_induction_on generalizing p acc x with
  | _ n ih =>
    rw [simdRedUniform]
    split
    · rename_i hn
      rw [show n = L + (n - L) by omega, redUniform_add hs, show L + (n - L) - L = n - L by omega]
      cases hv : bufVec L buf p s with
      | error e => rfl
      | ok v =>
        simp only [ok_bind]
        have hl := bufVec_length hv
        rw [ih (n - L) (by omega) _ _ (by simp; omega) _ (hh.step _ _ _ hx ha hl), Nat.mul_comm]
    · rw [hx]; rfl

theorem simdRedContiguous_eq {step : α → α → α} (hs : ∀ v acc, step v acc = op acc v) {L : Nat} {h : List α → Res α}
    (hh : Across op L h) (buf : List α) (n p : Nat) (acc : List α) (ha : acc.length = L) (x : α) (hx : h acc = .ok x) :
    simdRedContiguous step op h L buf n p acc = redUniform step 1 n buf p x := by
  induction n using Nat.strong_induction_on generalizing p acc x with
  | _ n ih =>
    rw [simdRedContiguous]
    split
    · rename_i hn
      conv_rhs => rw [show n = 4 * L + (n - 4 * L) by omega]
      rw [redUniform_four hs]
      cases ha' : bufVec L buf (p + 0 * L) 1 with
      | error e => rfl
      | ok a =>
      cases hb : bufVec L buf (p + 1 * L) 1 with
      | error e => rfl
      | ok b =>
      cases hc : bufVec L buf (p + 2 * L) 1 with
      | error e => rfl
      | ok c =>
      cases hd : bufVec L buf (p + 3 * L) 1 with
      | error e => rfl
      | ok d =>
        simp only [ok_bind]
        have := bufVec_length ha'
        have := bufVec_length hb
        have := bufVec_length hc
        have := bufVec_length hd
        exact ih (n - 4 * L) (by omega) _ _ (by simp; omega) _ (hh.step _ _ _ hx ha (by simp; omega))
    · rw [hx]; rfl

theorem simdProductContiguous_eq {step : α → α → α} (hs : ∀ v acc, step v acc = op acc v) {L : Nat} (hL : L = 2 ∨ L = 4)
    (buf : List α) (n p : Nat) (x : α) : simdProductContiguous step op L buf n p x = redUniform step 1 n buf p x := by
  induction n using Nat.strong_induction_on generalizing p x with
  | _ n ih =>
    rw [simdProductContiguous]
    split
    · rename_i hn
      conv_rhs => rw [show n = 4 * L + (n - 4 * L) by omega]
      rw [redUniform_four hs]
      cases ha' : bufVec L buf (p + 0 * L) 1 with
      | error e => rfl
      | ok a =>
      cases hb : bufVec L buf (p + 1 * L) 1 with
      | error e => rfl
      | ok b =>
      cases hc : bufVec L buf (p + 2 * L) 1 with
      | error e => rfl
      | ok c =>
      cases hd : bufVec L buf (p + 3 * L) 1 with
      | error e => rfl
      | ok d =>
        simp only [ok_bind]
        have := bufVec_length ha'
        have := bufVec_length hb
        have := bufVec_length hc
        have := bufVec_length hd
        obtain ⟨y, h1, h2⟩ := horizontalMul_fold (op := op) hL
          (v := List.zipWith op (List.zipWith op a b) (List.zipWith op c d)) (by simp; omega) x
        rw [h1]
        simp only [ok_bind]
        rw [h2]
        exact ih (n - 4 * L) (by omega) ..
    · rfl

/-- The vector reductions are the portable ones, on every buffer, for every count and stride. -/
theorem simdRed_eq {step : α → α → α} (hs : ∀ v acc, step v acc = op acc v) {init : α} (hi : op init init = init) {L : Nat}
    (hL : L = 2 ∨ L = 4) : simdRed step op init L = portableRed step init := by
  unfold simdRed portableRed
  congr 1
  · funext buf p n
    exact simdRedContiguous_eq hs (horizontal_across hL) buf n p _ (by simp) init ((horizontal_across hL).init _ hi)
  · funext buf p n s
    exact simdRedUniform_eq hs (horizontal_across hL) buf s n p _ (by simp) init ((horizontal_across hL).init _ hi)

theorem simdProduct_eq {step : α → α → α} (hs : ∀ v acc, step v acc = op acc v) {init : α} (hi : op init init = init)
    {L : Nat} (hL : L = 2 ∨ L = 4) : simdProduct step op init L = portableRed step init := by
  unfold simdProduct portableRed
  congr 1
  · funext buf p n
    exact simdProductContiguous_eq hs hL buf n p init
  · funext buf p n s
    exact simdRedUniform_eq hs (horizontalMul_across hL) buf s n p _ (by simp) init ((horizontalMul_across hL).init _ hi)

end red

/-! ### sums of products -/

section sop
open Finset
variable [SumProduct α]

theorem bufVec_getD {L : Nat} {buf : List α} {p : Nat} (h : p + L ≤ buf.length) :
    bufVec L buf p 1 = .ok (gen (fun k => buf.getD (p + k) 0) 0 L) := by
  unfold bufVec
  rw [mapM_ok (g := fun i => buf.getD (p + i) 0)]
  · simp [gen]
  · intro i hi
    rw [List.mem_range] at hi
    rw [Nat.mul_one, bufLoad_getD (by omega)]

omit [SumProduct α] in
theorem bufVecStore_ok {vs : List α} {q : Nat} {b : List α} (h : q + vs.length ≤ b.length) :
    bufVecStore vs q b = .ok (writeAt b q vs) := by
  induction vs generalizing q b with
  | nil => simp [bufVecStore]
  | cons v vs ih =>
    simp only [List.length_cons] at h
    simp only [bufVecStore, bufStore]
    rw [if_pos (by omega)]
    simp only [ok_bind]
    rw [ih (by simp; omega), writeAt_cons (by omega)]

/-- What `sum_of_products_muladd` leaves in the destination. -/
def muladded (c : α) (data : List α) (p : Nat) (dst : List α) (q n : Nat) : List α :=
  writeAt dst q (gen (fun k => dst.getD (q + k) 0 + c * data.getD (p + k) 0) 0 n)

theorem getD_writeAt_ge {r : List α} {o : Nat} {zs : List α} (h : o + zs.length ≤ r.length) {i : Nat}
    (hi : o + zs.length ≤ i) : (writeAt r o zs).getD i 0 = r.getD i 0 := by
  simp only [List.getD_eq_getElem?_getD, getElem?_writeAt h]
  rw [if_neg (by omega)]

theorem muladded_add {c : α} {data : List α} {p : Nat} {dst : List α} {q a b : Nat} (h : q + (a + b) ≤ dst.length) :
    muladded c data (p + a) (muladded c data p dst q a) (q + a) b = muladded c data p dst q (a + b) := by
  unfold muladded
  have hw : q + (gen (fun k => dst.getD (q + k) 0 + c * data.getD (p + k) 0) 0 a).length ≤ dst.length := by
    simp; omega
  rw [← gen_append _ 0 a b, ← writeAt_append (by simp; omega)]
  rw [length_gen, Nat.zero_add]
  have hD : ∀ {i}, q + a ≤ i → (writeAt dst q (gen (fun k => dst.getD (q + k) 0 + c * data.getD (p + k) 0) 0 a)).getD i 0 =
      dst.getD i 0 := fun {i} hi => getD_writeAt_ge hw (by simpa using hi)
  congr 1
  apply List.map_congr_left
  intro i _
  beta_reduce
  rw [hD (by omega)]
  simp [Nat.add_assoc]

theorem length_muladded {c : α} {data : List α} {p : Nat} {dst : List α} {q n : Nat} (h : q + n ≤ dst.length) :
    (muladded c data p dst q n).length = dst.length := length_writeAt (by simpa using h)

theorem muladdLoop_muladded {c : α} {data : List α} : ∀ {n p q : Nat} {dst : List α}, p + n ≤ data.length →
    q + n ≤ dst.length → muladdLoop c data n p dst q = .ok (muladded c data p dst q n) := by
  intro n
  induction n with
  | zero => intro p q dst _ _; simp [muladdLoop, muladded, gen]
  | succ n ih =>
    intro p q dst h1 h2
    simp only [muladdLoop]
    rw [bufLoad_getD (by omega), bufLoad_getD (by omega)]
    simp only [ok_bind]
    have : dst.set q (c * data.getD p 0 + dst.getD q 0) = muladded c data p dst q 1 := by
      have := writeAt_cons (r := dst) (o := q) (z := c * data.getD p 0 + dst.getD q 0) (zs := []) (by simp; omega)
      rw [writeAt_nil] at this
      rw [this, muladded]
      simp [gen, add_comm]
    rw [mulAdd_def, this, ih (by omega) (by rw [length_muladded (by omega)]; omega), muladded_add (by omega), Nat.add_comm 1 n]

/-- One vector of `simd_sum_of_products_muladd`. -/
theorem muladd_vec {c : α} {data dst dst0 : List α} {p q L : Nat} (h1 : p + L ≤ data.length) (h2 : q + L ≤ dst.length)
    (h0 : dst0.length = dst.length) (he : ∀ k < L, dst0.getD (q + k) 0 = dst.getD (q + k) 0) :
    bufVec L data p 1 = .ok (gen (fun k => data.getD (p + k) 0) 0 L) ∧
    bufVec L dst0 q 1 = .ok (gen (fun k => dst.getD (q + k) 0) 0 L) ∧
    bufVecStore (List.zipWith (fun s v => mulAdd c v s) (gen (fun k => dst.getD (q + k) 0) 0 L)
      (gen (fun k => data.getD (p + k) 0) 0 L)) q dst = .ok (muladded c data p dst q L) := by
  refine ⟨bufVec_getD h1, ?_, ?_⟩
  · rw [bufVec_getD (by omega)]
    congr 1
    simp only [gen]
    apply List.map_congr_left
    intro i hi
    rw [List.mem_range] at hi
    simpa using he i hi
  · rw [zipWith_gen, bufVecStore_ok (by simpa using h2)]
    simp [muladded, mulAdd_def, add_comm]

theorem simdMuladd1_ok {c : α} {data : List α} {L n p q : Nat} {dst : List α} (h1 : p + n ≤ data.length)
    (h2 : q + n ≤ dst.length) : simdMuladd1 c L data n p dst q = .ok (muladded c data p dst q n) := by
  induction n using Nat.strong_induction_on generalizing p q dst with
  | _ n ih =>
    rw [simdMuladd1]
    split
    · rename_i hn
      obtain ⟨e1, e2, e3⟩ := muladd_vec (c := c) (data := data) (dst := dst) (dst0 := dst) (p := p) (q := q) (L := L)
        (by omega) (by omega) rfl (fun _ _ => rfl)
      rw [e1, e2]
      simp only [ok_bind]
      rw [e3]
      simp only [ok_bind]
      rw [ih (n - L) (by omega) (by omega) (by rw [length_muladded (by omega)]; omega), muladded_add (by omega),
        show L + (n - L) = n by omega]
    · exact muladdLoop_muladded h1 h2

theorem simdMuladd_ok {c : α} {data : List α} {L n p q : Nat} {dst : List α} (h1 : p + n ≤ data.length)
    (h2 : q + n ≤ dst.length) : simdMuladd c L data n p dst q = .ok (muladded c data p dst q n) := by
  induction n using Nat.strong_induction_on generalizing p q dst with
  | _ n ih =>
    rw [simdMuladd]
    split
    · rename_i hn
      have hlen : ∀ k, k * L ≤ 4 * L → (muladded c data p dst q (k * L)).length = dst.length := fun k hk =>
        length_muladded (by omega)
      have vec : ∀ k, (k + 1) * L ≤ 4 * L →
          bufVec L data (p + k * L) 1 = .ok (gen (fun i => data.getD (p + k * L + i) 0) 0 L) ∧
          bufVec L dst (q + k * L) 1 = .ok (gen (fun i => dst.getD (q + k * L + i) 0) 0 L) ∧
          bufVecStore (List.zipWith (fun s v => mulAdd c v s) (gen (fun i => dst.getD (q + k * L + i) 0) 0 L)
            (gen (fun i => data.getD (p + k * L + i) 0) 0 L)) (q + k * L) (muladded c data p dst q (k * L)) =
            .ok (muladded c data p dst q ((k + 1) * L)) := by
        intro k hk
        rw [Nat.succ_mul] at hk
        have hl := hlen k (by omega)
        have hget : ∀ i, dst.getD (q + k * L + i) 0 = (muladded c data p dst q (k * L)).getD (q + k * L + i) 0 := by
          intro i
          unfold muladded
          rw [getD_writeAt_ge (by simp; omega) (by simp)]
        obtain ⟨e1, e2, e3⟩ := muladd_vec (c := c) (data := data) (dst := muladded c data p dst q (k * L)) (dst0 := dst)
          (p := p + k * L) (q := q + k * L) (L := L) (by omega) (by omega) hl.symm (fun i _ => hget i)
        simp only [← hget] at e2 e3
        refine ⟨e1, e2, ?_⟩
        rw [e3, muladded_add (by omega), Nat.succ_mul]
      obtain ⟨a1, a2, a3⟩ := vec 0 (by omega)
      obtain ⟨b1, b2, b3⟩ := vec 1 (by omega)
      obtain ⟨c1, c2, c3⟩ := vec 2 (by omega)
      obtain ⟨d1, d2, d3⟩ := vec 3 (by omega)
      have z : muladded c data p dst q (0 * L) = dst := by simp [muladded, gen]
      rw [z] at a3
      rw [a1, b1, c1, d1, a2, b2, c2, d2]
      simp only [ok_bind]
      rw [a3]; simp only [ok_bind]
      rw [b3]; simp only [ok_bind]
      rw [c3]; simp only [ok_bind]
      rw [d3]
      show simdMuladd c L data (n - 4 * L) (p + 4 * L) (muladded c data p dst q (4 * L)) (q + 4 * L) = _
      rw [ih (n - 4 * L) (by omega) (by omega) (by rw [hlen 4 (by omega)]; omega), muladded_add (by omega),
        show 4 * L + (n - 4 * L) = n by omega]
    · exact simdMuladd1_ok h1 h2

instance : Std.Associative (fun x y : α => x + y) := ⟨add_assoc⟩
instance : Std.Commutative (fun x y : α => x + y) := ⟨add_comm⟩

theorem foldl_add_gen (w : Nat → α) (o n : Nat) (x : α) :
    (gen w o n).foldl (fun x y => x + y) x = x + ∑ k ∈ range n, w (o + k) := by
  induction n with
  | zero => simp [gen]
  | succ n ih =>
    rw [← gen_append, List.foldl_append, ih, Finset.sum_range_succ, ← add_assoc]
    simp [gen]

theorem sum_split (w : Nat → α) {a n : Nat} (h : a ≤ n) :
    ∑ k ∈ range n, w k = ∑ k ∈ range a, w k + ∑ k ∈ range (n - a), w (a + k) := by
  rw [← Finset.sum_range_add, show a + (n - a) = n by omega]

theorem horizontal_gen {L : Nat} (hL : L = 2 ∨ L = 4) {acc : List α} {x : α} (hx : horizontal (fun x y => x + y) acc = .ok x)
    (ha : acc.length = L) (w : Nat → α) :
    horizontal (fun x y => x + y) (List.zipWith (fun x y => x + y) acc (gen w 0 L)) = .ok (x + ∑ k ∈ range L, w k) := by
  rw [(horizontal_across hL).step acc _ x hx ha (by simp), foldl_add_gen]
  simp

theorem simdScaled1_ok {L : Nat} (hL : L = 2 ∨ L = 4) {data : List α} {n p : Nat} {acc : List α} {x : α}
    (h : p + n ≤ data.length) (ha : acc.length = L) (hx : horizontal (fun x y => x + y) acc = .ok x) :
    simdScaled1 L data n p acc = .ok (x + ∑ k ∈ range n, data.getD (p + k) 0) := by
  induction n using Nat.strong_induction_on generalizing p acc x with
  | _ n ih =>
    rw [simdScaled1]
    split
    · rename_i hn
      rw [bufVec_getD (by omega)]
      simp only [ok_bind]
      rw [ih (n - L) (by omega) (by omega) (by simp; omega) (horizontal_gen hL hx ha _), sum_split _ hn.2, add_assoc]
      simp only [Nat.add_assoc]
    · rw [hx]
      simp only [ok_bind]
      exact sumLoop_ok h

theorem sum_four (w : Nat → α) (L : Nat) : ∑ k ∈ range L, (w (0 * L + k) + w (1 * L + k) + (w (2 * L + k) + w (3 * L + k))) =
    ∑ k ∈ range (4 * L), w k := by
  rw [show 4 * L = L + L + L + L by omega]
  simp only [Finset.sum_range_add, Finset.sum_add_distrib, Nat.zero_mul, Nat.zero_add, Nat.one_mul,
    show 2 * L = L + L by omega, show 3 * L = L + L + L by omega]
  rw [add_assoc (_ + _)]

theorem simdScaled_ok {L : Nat} (hL : L = 2 ∨ L = 4) {data : List α} {n p : Nat} {acc : List α} {x : α}
    (h : p + n ≤ data.length) (ha : acc.length = L) (hx : horizontal (fun x y => x + y) acc = .ok x) :
    simdScaled L data n p acc = .ok (x + ∑ k ∈ range n, data.getD (p + k) 0) := by
  induction n using Nat.strong_induction_on generalizing p acc x with
  | _ n ih =>
    rw [simdScaled]
    split
    · rename_i hn
      rw [bufVec_getD (p := p + 0 * L) (by omega), bufVec_getD (p := p + 1 * L) (by omega),
        bufVec_getD (p := p + 2 * L) (by omega), bufVec_getD (p := p + 3 * L) (by omega)]
      simp only [ok_bind, zipWith_gen, Nat.zero_add]
      rw [ih (n - 4 * L) (by omega) (by omega) (by simp; omega) (horizontal_gen hL hx ha _), sum_split _ hn.2,
        add_assoc]
      have := sum_four (fun k => data.getD (p + k) 0) L
      simp only [← Nat.add_assoc] at this
      rw [this]
      simp only [Nat.add_assoc]
    · exact simdScaled1_ok hL h ha hx

theorem simdDotTail_ok {a b : List α} : ∀ {n p q : Nat} {x : α}, p + n ≤ a.length → q + n ≤ b.length →
    simdDotTail a b n p q x = .ok (x + ∑ k ∈ range n, a.getD (p + k) 0 * b.getD (q + k) 0) := by
  intro n
  induction n with
  | zero => intro p q x _ _; simp [simdDotTail]
  | succ n ih =>
    intro p q x h1 h2
    simp only [simdDotTail]
    rw [bufLoad_getD (by omega), bufLoad_getD (by omega)]
    simp only [ok_bind]
    rw [ih (by omega) (by omega), Finset.sum_range_succ' _ n, mulAdd_def, add_comm (_ * _) x, add_assoc, add_comm (_ * _)]
    simp only [Nat.add_zero, show ∀ a k, a + 1 + k = a + (k + 1) from fun a k => by omega]

theorem zipWith_mulAdd : ∀ (s x y : List α), List.zipWith (fun s v => mulAdd v.1 v.2 s) s (x.zip y) =
    List.zipWith (fun x y => x + y) s (List.zipWith (fun x y => x * y) x y)
  | [], _, _ => by simp
  | _ :: _, [], _ => by simp
  | _ :: _, _ :: _, [] => by simp
  | a :: s, b :: x, c :: y => by
    rw [List.zip_cons_cons, List.zipWith_cons_cons, List.zipWith_cons_cons, List.zipWith_cons_cons, zipWith_mulAdd s x y,
      mulAdd_def, add_comm]

theorem simdDot1_ok {L : Nat} (hL : L = 2 ∨ L = 4) {a b : List α} {n p q : Nat} {acc : List α} {x : α}
    (h : p + n ≤ a.length) (h' : q + n ≤ b.length) (ha : acc.length = L)
    (hx : horizontal (fun x y => x + y) acc = .ok x) :
    simdDot1 L a b n p q acc = .ok (x + ∑ k ∈ range n, a.getD (p + k) 0 * b.getD (q + k) 0) := by
  induction n using Nat.strong_induction_on generalizing p q acc x with
  | _ n ih =>
    rw [simdDot1]
    split
    · rename_i hn
      rw [bufVec_getD (by omega), bufVec_getD (by omega)]
      simp only [ok_bind, zipWith_mulAdd, zipWith_gen, Nat.zero_add]
      rw [ih (n - L) (by omega) (by omega) (by omega) (by simp; omega) (horizontal_gen hL hx ha _), sum_split _ hn.2,
        add_assoc]
      simp only [Nat.add_assoc]
    · rw [hx]
      simp only [ok_bind]
      exact simdDotTail_ok h h'

theorem simdDot_ok {L : Nat} (hL : L = 2 ∨ L = 4) {a b : List α} {n p q : Nat} {acc : List α} {x : α}
    (h : p + n ≤ a.length) (h' : q + n ≤ b.length) (ha : acc.length = L)
    (hx : horizontal (fun x y => x + y) acc = .ok x) :
    simdDot L a b n p q acc = .ok (x + ∑ k ∈ range n, a.getD (p + k) 0 * b.getD (q + k) 0) := by
  induction n using Nat.strong_induction_on generalizing p q acc x with
  | _ n ih =>
    rw [simdDot]
    split
    · rename_i hn
      rw [bufVec_getD (p := p + 0 * L) (by omega), bufVec_getD (p := p + 1 * L) (by omega),
        bufVec_getD (p := p + 2 * L) (by omega), bufVec_getD (p := p + 3 * L) (by omega),
        bufVec_getD (p := q + 0 * L) (by omega), bufVec_getD (p := q + 1 * L) (by omega),
        bufVec_getD (p := q + 2 * L) (by omega), bufVec_getD (p := q + 3 * L) (by omega)]
      simp only [ok_bind, zipWith_gen, Nat.zero_add]
      rw [ih (n - 4 * L) (by omega) (by omega) (by omega) (by simp; omega) (horizontal_gen hL hx ha _),
        sum_split _ hn.2, add_assoc]
      have := sum_four (fun k => a.getD (p + k) 0 * b.getD (q + k) 0) L
      simp only [← Nat.add_assoc] at this
      rw [this]
      simp only [Nat.add_assoc]
    · exact simdDot1_ok hL h h' ha hx

/-- The vector kernels of sum_of_products.rs and dot_product.rs do what the portable ones do. -/
theorem simdSop_correct {L : Nat} (hL : L = 2 ∨ L = 4) : (simdSop L : SopKernels α).Correct where
  muladd {c data dst p q count} hc h1 h2 := by
    rw [← portableSop_correct.muladd hc h1 h2]
    show (assume (decide _) >>= fun _ => _) = (assume (decide _) >>= fun _ => _)
    rw [simdMuladd_ok h1 h2, muladdLoop_muladded h1 h2]
  scaledArray {c data dst p q count} hc h1 h2 := by
    rw [← portableSop_correct.scaledArray hc h1 h2]
    show (assume (decide _) >>= fun _ => _) = (assume (decide _) >>= fun _ => _)
    rw [simdScaled_ok hL h1 (by simp) ((horizontal_across hL).init 0 (add_zero 0)), sumLoop_ok h1]
  dot {a b dst p p' q count} hc h1 h2 h3 := by
    rw [← portableSop_correct.dot hc h1 h2 h3]
    show (_ >>= fun _ => _) = (_ >>= fun _ => _)
    rw [simdDot_ok hL h1 h2 (by simp) ((horizontal_across hL).init 0 (add_zero 0)),
      dotLoop_ok (fun k hk => by omega) (fun k hk => by omega)]
    simp only [Nat.mul_one]

end sop

end Verif
