import Verif.Lemmas.AutogradArr

/-! # The loops keep the lengths of all buffers -/

namespace Verif

variable {α : Type}

/-- If `x` completes, all regions have the lengths they have in `m`. -/
structure Keeps (m : Mem α) (x : Res (Mem α)) : Prop where
  of_ok : ∀ m', x = .ok m' → m'.map List.length = m.map List.length

theorem Keeps.ok (m : Mem α) : Keeps m (.ok m) := ⟨fun m' h => by cases h; rfl⟩

theorem Keeps.error (m : Mem α) (e : Err) : Keeps m (.error e) := ⟨fun m' h => by cases h⟩

theorem Keeps.bind {m : Mem α} {x : Res (Mem α)} {k : Mem α → Res (Mem α)} (hx : Keeps m x) (hk : ∀ m', Keeps m' (k m')) :
    Keeps m (x >>= k) := by
  refine ⟨fun m' h => ?_⟩
  obtain ⟨m₁, h1, h⟩ := bind_eq_ok.1 h
  rw [(hk m₁).of_ok m' h, hx.of_ok m₁ h1]

theorem Keeps.bindVal {β : Type} {m : Mem α} {x : Res β} {k : β → Res (Mem α)} (hk : ∀ v, Keeps m (k v)) : Keeps m (x >>= k) := by
  refine ⟨fun m' h => ?_⟩
  obtain ⟨v, _, h⟩ := bind_eq_ok.1 h
  exact (hk v).of_ok m' h

theorem Keeps.ite {m : Mem α} {c : Prop} [Decidable c] {x y : Res (Mem α)} (hx : Keeps m x) (hy : Keeps m y) :
    Keeps m (if c then x else y) := by
  split <;> assumption

theorem keeps_store (m : Mem α) (p : Ptr) (v : α) : Keeps m (m.store p v) := by
  unfold Mem.store
  split
  · exact .error _ _
  · rename_i r hr
    split
    · refine ⟨fun m' h => ?_⟩
      cases h
      rw [List.map_set, List.length_set]
      apply List.ext_getElem?
      intro i
      rw [List.getElem?_set]
      by_cases hi : p.reg = i
      · subst hi
        rw [if_pos rfl]
        have hlt := (List.getElem?_eq_some_iff.1 hr).1
        rw [if_pos (by simpa using hlt), List.getElem?_map, hr]
        rfl
      · rw [if_neg hi]
    · exact .error _ _

theorem keeps_binStep (f : α → α → Res α) (l r d : Ptr) (m : Mem α) : Keeps m (binStep f l r d m) :=
  .bindVal fun _ => .bindVal fun _ => .bindVal fun _ => keeps_store _ _ _

theorem keeps_unStep (g : α → Res α) (p d : Ptr) (m : Mem α) : Keeps m (unStep g p d m) :=
  .bindVal fun _ => .bindVal fun _ => keeps_store _ _ _

theorem keeps_strideNN (f : α → α → Res α) (ls rs count : Nat) (l r d : Ptr) (m : Mem α) : Keeps m (strideNN f ls rs count l r d m) := by
  induction count generalizing l r d m with
  | zero => exact .ok m
  | succ n ih => exact (keeps_binStep f l r d m).bind fun m' => ih _ _ _ m'

theorem keeps_negStrideN (g : α → Res α) (st count : Nat) (p d : Ptr) (m : Mem α) : Keeps m (negStrideN g st count p d m) := by
  induction count generalizing p d m with
  | zero => exact .ok m
  | succ n ih => exact (keeps_unStep g p d m).bind fun m' => ih _ _ m'

theorem keeps_nonunifNLoop (f : α → α → Res α) (l : Ptr) (rs count : Nat) (g : FlatGen) (r d : Ptr) (m : Mem α) :
    Keeps m (nonunifNLoop f l rs count g r d m) := by
  induction count generalizing g r d m with
  | zero => exact .ok m
  | succ n ih =>
    unfold nonunifNLoop
    split
    · exact .error _ _
    · exact (keeps_binStep _ _ _ _ _).bind fun m' => ih _ _ _ m'

theorem keeps_nNonunifLoop (f : α → α → Res α) (ls : Nat) (r : Ptr) (count : Nat) (g : FlatGen) (l d : Ptr) (m : Mem α) :
    Keeps m (nNonunifLoop f ls r count g l d m) := by
  induction count generalizing g l d m with
  | zero => exact .ok m
  | succ n ih =>
    unfold nNonunifLoop
    split
    · exact .error _ _
    · exact (keeps_binStep _ _ _ _ _).bind fun m' => ih _ _ _ m'

theorem keeps_runPairs (f : α → α → Res α) (ps : List (Ptr × Ptr)) (d : Ptr) (m : Mem α) : Keeps m (runPairs f ps d m) := by
  induction ps generalizing d m with
  | nil => exact .ok m
  | cons p ps ih => exact (keeps_binStep f p.1 p.2 d m).bind fun m' => ih _ m'

theorem keeps_runUnary (g : α → Res α) (ps : List Ptr) (d : Ptr) (m : Mem α) : Keeps m (runUnary g ps d m) := by
  induction ps generalizing d m with
  | nil => exact .ok m
  | cons p ps ih => exact (keeps_unStep g p d m).bind fun m' => ih _ m'

theorem keeps_vecStore (vs : List α) (p : Ptr) (m : Mem α) : Keeps m (vecStore vs p m) := by
  induction vs generalizing p m with
  | nil => exact .ok m
  | cons v vs ih => exact (keeps_store m p v).bind fun m' => ih _ m'

theorem keeps_simdBlock (f : α → α → α) (L : Nat) (A B : Operand α) (l r d : Ptr) (m : Mem α) : Keeps m (simdBlock f L A B l r d m) := by
  unfold simdBlock
  refine .bindVal fun _ => .bindVal fun _ => .bindVal fun _ => .bindVal fun _ => .bindVal fun _ => .bindVal fun _ => .bindVal fun _ =>
    .bindVal fun _ => ?_
  exact (keeps_vecStore _ _ _).bind fun _ => (keeps_vecStore _ _ _).bind fun _ => (keeps_vecStore _ _ _).bind fun _ => keeps_vecStore _ _ _

theorem keeps_simdNegBlock (g : α → α) (L : Nat) (A : Operand α) (p d : Ptr) (m : Mem α) : Keeps m (simdNegBlock g L A p d m) := by
  unfold simdNegBlock
  refine .bindVal fun _ => .bindVal fun _ => .bindVal fun _ => .bindVal fun _ => ?_
  exact (keeps_vecStore _ _ _).bind fun _ => (keeps_vecStore _ _ _).bind fun _ => (keeps_vecStore _ _ _).bind fun _ => keeps_vecStore _ _ _

theorem keeps_simdBin (f : α → α → α) (L : Nat) (A B : Operand α) (count : Nat) (l r d : Ptr) (m : Mem α) :
    Keeps m (simdBin f L A B count l r d m) := by
  induction count using Nat.strongRecOn generalizing l r d m with
  | ind count ih =>
    rw [simdBin]
    split
    · rename_i h
      exact (keeps_simdBlock f L A B l r d m).bind fun m' => ih _ (by omega) _ _ _ m'
    · exact keeps_strideNN _ _ _ _ _ _ _ _

theorem keeps_simdNeg (g : α → α) (L : Nat) (A : Operand α) (count : Nat) (p d : Ptr) (m : Mem α) :
    Keeps m (simdNeg g L A count p d m) := by
  induction count using Nat.strongRecOn generalizing p d m with
  | ind count ih =>
    rw [simdNeg]
    split
    · rename_i h
      exact (keeps_simdNegBlock g L A p d m).bind fun m' => ih _ (by omega) _ _ m'
    · exact keeps_negStrideN _ _ _ _ _ _

/-- All eight loops keep the lengths. -/
structure BinKernels.Keep (K : BinKernels α) : Prop where
  s01 : ∀ l r d n m, Keeps m (K.s01 l r d n m)
  s10 : ∀ l r d n m, Keeps m (K.s10 l r d n m)
  sn0 : ∀ l ls r d n m, Keeps m (K.sn0 l ls r d n m)
  s0n : ∀ l r rs d n m, Keeps m (K.s0n l r rs d n m)
  s11 : ∀ l r d n m, Keeps m (K.s11 l r d n m)
  sn1 : ∀ l ls r d n m, Keeps m (K.sn1 l ls r d n m)
  s1n : ∀ l r rs d n m, Keeps m (K.s1n l r rs d n m)
  snn : ∀ l ls r rs d n m, Keeps m (K.snn l ls r rs d n m)

/-- All three loops keep the lengths. -/
structure UnKernels.Keep (K : UnKernels α) : Prop where
  s0 : ∀ p d n m, Keeps m (K.s0 p d n m)
  s1 : ∀ p d n m, Keeps m (K.s1 p d n m)
  sn : ∀ p s d n m, Keeps m (K.sn p s d n m)

theorem portableKernels_keep (f : α → α → Res α) : (portableKernels f).Keep := by
  constructor <;> intros <;> exact keeps_strideNN _ _ _ _ _ _ _ _

theorem simdKernels_keep (f : α → α → α) (L : Nat) : (simdKernels f L).Keep where
  s01 _ _ _ _ _ := .bindVal fun _ => keeps_simdBin _ _ _ _ _ _ _ _ _
  s10 _ _ _ _ _ := .bindVal fun _ => keeps_simdBin _ _ _ _ _ _ _ _ _
  sn0 _ _ _ _ _ _ := .bindVal fun _ => keeps_simdBin _ _ _ _ _ _ _ _ _
  s0n _ _ _ _ _ _ := .bindVal fun _ => keeps_simdBin _ _ _ _ _ _ _ _ _
  s11 _ _ _ _ _ := keeps_simdBin _ _ _ _ _ _ _ _ _
  sn1 _ _ _ _ _ _ := keeps_simdBin _ _ _ _ _ _ _ _ _
  s1n _ _ _ _ _ _ := keeps_simdBin _ _ _ _ _ _ _ _ _
  snn _ _ _ _ _ _ _ := keeps_simdBin _ _ _ _ _ _ _ _ _

theorem portableNeg_keep (g : α → Res α) : (portableNeg g).Keep := by
  constructor <;> intros <;> exact keeps_negStrideN _ _ _ _ _ _

theorem simdNegKernels_keep (g : α → α) (L : Nat) : (simdNegKernels g L).Keep := by
  constructor <;> intros <;> exact keeps_simdNeg _ _ _ _ _ _ _

theorem binLoops_keep [Build] (f : α → α → α) : (binLoops f).Keep := by
  unfold binLoops
  split
  · exact portableKernels_keep _
  · exact simdKernels_keep _ _
  · exact simdKernels_keep _ _

theorem negLoops_keep [Build] (f : α → α) : (negLoops f).Keep := by
  unfold negLoops
  split
  · exact portableNeg_keep _
  · exact simdNegKernels_keep _ _
  · exact simdNegKernels_keep _ _

theorem keeps_nonunifN (f : α → α → Res α) (l : Ptr) (s st : List Nat) (r : Ptr) (rs : Nat) (d : Ptr) (n : Nat) (m : Mem α) :
    Keeps m (nonunifN f l s st r rs d n m) := .bindVal fun _ => keeps_nonunifNLoop _ _ _ _ _ _ _ _

theorem keeps_nNonunif (f : α → α → Res α) (l : Ptr) (ls : Nat) (r : Ptr) (s st : List Nat) (d : Ptr) (n : Nat) (m : Mem α) :
    Keeps m (nNonunif f l ls r s st d n m) := .bindVal fun _ => keeps_nNonunifLoop _ _ _ _ _ _ _ _

theorem keeps_binKernel (f : α → α → Res α) {K : BinKernels α} (hK : K.Keep) (l : Ptr) (lst : List Nat) (r : Ptr) (rst : List Nat)
    (d : Ptr) (s : List Nat) (m : Mem α) : Keeps m (binKernel f K l lst r rst d s m) := by
  unfold binKernel
  refine .ite (keeps_binStep _ _ _ _ _) (.bindVal fun _ => .bindVal fun _ => .bindVal fun _ => .bindVal fun _ => .ite ?_ ?_)
  · exact .ite (.ite (hK.s10 ..) (hK.sn0 ..)) (.ite (.ite (hK.s01 ..) (hK.s0n ..)) (.ite (hK.s11 ..) (.ite (hK.s1n ..)
      (.ite (hK.sn1 ..) (hK.snn ..)))))
  · exact .ite (keeps_nonunifN ..) (.ite (keeps_nNonunif ..) (.ite (keeps_nonunifN ..) (.ite (keeps_nNonunif ..)
      (.ite (keeps_nonunifN ..) (.ite (keeps_nNonunif ..) (.bindVal fun _ => .bindVal fun _ => keeps_runPairs ..))))))

theorem keeps_binScalarKernel (f : α → α → Res α) {K : BinKernels α} (hK : K.Keep) (l : Ptr) (s st : List Nat) (r d : Ptr) (m : Mem α) :
    Keeps m (binScalarKernel f K l s st r d m) := by
  unfold binScalarKernel
  exact .ite (keeps_binStep ..) (.bindVal fun _ => .ite (.bindVal fun _ => .ite (hK.s10 ..) (hK.sn0 ..)) (keeps_nonunifN ..))

theorem keeps_negKernel (g : α → Res α) {K : UnKernels α} (hK : K.Keep) (p : Ptr) (s st : List Nat) (d : Ptr) (m : Mem α) :
    Keeps m (negKernel g K p s st d m) := by
  unfold negKernel
  exact .ite (keeps_unStep ..) (.ite (.bindVal fun _ => .bindVal fun _ => .ite (hK.s0 ..) (.ite (hK.s1 ..) (hK.sn ..)))
    (.bindVal fun _ => keeps_runUnary ..))

theorem Keeps.region {m : Mem α} {x : Res (Mem α)} (h : Keeps m x) {m' : Mem α} (hx : x = .ok m') {k : Nat} {l : List α} (hm : m[k]? = some l)
    {d : List α} (hd : m'.region k = .ok d) : d.length = l.length := by
  have h1 := h.of_ok m' hx
  unfold Mem.region at hd
  split at hd
  · cases hd
  · rename_i r hr
    cases hd
    have := congrArg (fun q => q[k]?) h1
    simp only [List.getElem?_map, hr, hm, Option.map_some, Option.some.injEq] at this
    exact this

/-- The results of the elementwise operators are fresh arrays. -/
theorem binOp_fresh (f : α → α → Res α) {K : BinKernels α} (hK : K.Keep) (dflt : α) {a b r : Arr α} (h : a.binOp f K dflt b = .ok r) :
    ∃ s data, broadcastShapes a.shape b.shape = .ok s ∧ data.length = numel s ∧ r = Arr.fromContiguousOwnedBuffer s data := by
  obtain ⟨s, hs, h⟩ := bind_eq_ok.1 h
  obtain ⟨_, _, h⟩ := bind_eq_ok.1 h
  obtain ⟨_, _, h⟩ := bind_eq_ok.1 h
  obtain ⟨m, hm, h⟩ := bind_eq_ok.1 h
  obtain ⟨data, hd, h⟩ := bind_eq_ok.1 h
  cases h
  exact ⟨s, data, hs, by rw [(keeps_binKernel f hK _ _ _ _ _ _ _).region hm (k := 2) rfl hd, List.length_replicate], rfl⟩

theorem binOpScalar_fresh (f : α → α → Res α) {K : BinKernels α} (hK : K.Keep) (dflt : α) {a r : Arr α} {v : α}
    (h : a.binOpScalar f K dflt v = .ok r) : ∃ data, data.length = numel a.shape ∧ r = Arr.fromContiguousOwnedBuffer a.shape data := by
  obtain ⟨m, hm, h⟩ := bind_eq_ok.1 h
  obtain ⟨data, hd, h⟩ := bind_eq_ok.1 h
  cases h
  exact ⟨data, by rw [(keeps_binScalarKernel f hK _ _ _ _ _ _).region hm (k := 2) rfl hd, List.length_replicate]; rfl, rfl⟩

theorem neg_fresh (g : α → Res α) {K : UnKernels α} (hK : K.Keep) (dflt : α) {a r : Arr α} (h : a.neg g K dflt = .ok r) :
    ∃ data, data.length = numel a.shape ∧ r = Arr.fromContiguousOwnedBuffer a.shape data := by
  obtain ⟨m, hm, h⟩ := bind_eq_ok.1 h
  obtain ⟨data, hd, h⟩ := bind_eq_ok.1 h
  cases h
  exact ⟨data, by rw [(keeps_negKernel g hK _ _ _ _ _).region hm (k := 1) rfl hd, List.length_replicate]; rfl, rfl⟩

end Verif
