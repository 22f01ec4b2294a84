import Verif.Model.Kernels
import Verif.Lemmas.Basics
import Verif.Lemmas.BroadcastShapes

set_option linter.unusedSimpArgs false

/-!
# The elementwise kernels compute the elementwise operation
-/

namespace Verif

variable {α : Type}

/-! ### memory -/

/-- Overwrite the cells from `o` on. -/
def writeAt (r : List α) (o : Nat) (zs : List α) : List α := r.take o ++ (zs ++ r.drop (o + zs.length))

@[simp] theorem writeAt_nil (r : List α) (o : Nat) : writeAt r o [] = r := by simp [writeAt]

theorem length_writeAt {r : List α} {o : Nat} {zs : List α} (h : o + zs.length ≤ r.length) :
    (writeAt r o zs).length = r.length := by simp [writeAt]; omega

theorem getElem?_writeAt {r : List α} {o : Nat} {zs : List α} (h : o + zs.length ≤ r.length) (i : Nat) :
    (writeAt r o zs)[i]? = if o ≤ i ∧ i < o + zs.length then zs[i - o]? else r[i]? := by
  unfold writeAt
  rw [List.getElem?_append, List.getElem?_append]
  simp only [List.length_take, List.getElem?_take, List.getElem?_drop]
  rw [Nat.min_eq_left (by omega)]
  by_cases h1 : i < o
  · rw [if_pos h1, if_pos h1, if_neg (by omega)]
  · rw [if_neg h1]
    by_cases h2 : i - o < zs.length
    · rw [if_pos h2, if_pos (by omega)]
    · rw [if_neg h2, if_neg (by omega)]
      congr 1; omega

theorem writeAt_full {r zs : List α} (h : zs.length = r.length) : writeAt r 0 zs = zs := by
  simp [writeAt, h]

theorem writeAt_cons {r : List α} {o : Nat} {z : α} {zs : List α} (h : o + (zs.length + 1) ≤ r.length) :
    writeAt (r.set o z) (o + 1) zs = writeAt r o (z :: zs) := by
  apply List.ext_getElem?
  intro i
  rw [getElem?_writeAt (by simp; omega), getElem?_writeAt (by simp; omega)]
  simp only [List.length_cons]
  by_cases h1 : i = o
  · subst h1
    rw [if_neg (by omega), if_pos (by omega), List.getElem?_set_self (by omega)]
    simp
  · by_cases h2 : o + 1 ≤ i ∧ i < o + 1 + zs.length
    · rw [if_pos h2, if_pos (by omega), show i - o = (i - (o + 1)) + 1 by omega, List.getElem?_cons_succ]
    · rw [if_neg h2, if_neg (by omega), List.getElem?_set_ne (by omega)]

/-- Overwrite the cells from `p` on. -/
def Mem.write (m : Mem α) (p : Ptr) (zs : List α) : Mem α :=
  match m[p.reg]? with
  | none => m
  | some r => m.set p.reg (writeAt r p.off zs)

theorem Mem.write_of {m : Mem α} {p : Ptr} {r : List α} (h : m[p.reg]? = some r) (zs : List α) :
    m.write p zs = m.set p.reg (writeAt r p.off zs) := by simp [Mem.write, h]

@[simp] theorem Mem.write_nil (m : Mem α) (p : Ptr) : m.write p [] = m := by
  unfold Mem.write
  split
  · rfl
  · rename_i r h
    rw [writeAt_nil]
    apply List.ext_getElem?
    intro i
    rw [List.getElem?_set]
    split
    · rename_i h1; subst h1
      split
      · exact h.symm
      · rename_i h2; rw [List.getElem?_eq_none (by omega)]
    · rfl

theorem Mem.store_ok {m : Mem α} {p : Ptr} {r : List α} (h : m[p.reg]? = some r) (hp : p.off < r.length) (v : α) :
    m.store p v = .ok (m.set p.reg (r.set p.off v)) := by simp [Mem.store, h, hp]

theorem Mem.load_ok {m : Mem α} {p : Ptr} {r : List α} {v : α} (h : m[p.reg]? = some r) (hv : r[p.off]? = some v) :
    m.load p = .ok v := by simp [Mem.load, h, hv]

theorem Mem.load_eq_ok {m : Mem α} {p : Ptr} {v : α} :
    m.load p = .ok v ↔ ∃ r, m[p.reg]? = some r ∧ r[p.off]? = some v := by
  unfold Mem.load
  split
  · rename_i h; simp [h]
  · rename_i r h
    simp only [h, Option.some.injEq, exists_eq_left']
    split
    · rename_i h1; simp [h1]
    · rename_i w h1; simp [h1]

/-- A load elsewhere does not see a store. -/
theorem Mem.load_set_ne {m : Mem α} {p q : Ptr} {r : List α} (h : m[q.reg]? = some r) (v : α) (hpq : p ≠ q) :
    Mem.load (m.set q.reg (r.set q.off v)) p = m.load p := by
  unfold Mem.load
  by_cases h1 : p.reg = q.reg
  · rw [h1, List.getElem?_set_self (List.getElem?_eq_some_iff.1 h).1, h]
    have : q.off ≠ p.off := by
      intro h2; apply hpq; cases p; cases q; simp_all
    simp [List.getElem?_set_ne this]
  · rw [List.getElem?_set_ne (Ne.symm h1)]

@[simp] theorem Ptr.add_zero (p : Ptr) : p.add 0 = p := rfl
theorem Ptr.add_add (p : Ptr) (i j : Nat) : (p.add i).add j = p.add (i + j) := by simp [Ptr.add, Nat.add_assoc]

/-! ### running steps -/

/-- Multiples of a stride. -/
def multiples (n d : Nat) : List Nat := (List.range n).map (· * d)

@[simp] theorem length_multiples (n d : Nat) : (multiples n d).length = n := by simp [multiples]

theorem multiples_succ (n d : Nat) : multiples (n + 1) d = 0 :: (multiples n d).map (d + ·) := by
  simp only [multiples, List.range_succ_eq_map, List.map_cons, List.map_map, Nat.zero_mul]
  congr 1
  apply List.map_congr_left
  intro k _
  simp [Nat.succ_mul, Nat.add_comm]

theorem getElem?_multiples {n d k : Nat} (h : k < n) : (multiples n d)[k]? = some (k * d) := by
  simp [multiples, h]

theorem offsets_one (n d : Nat) : offsets [n] [d] = multiples n d := by
  rw [offsets_singleton]; rfl

/-- The steps at given offsets. -/
def steps (lhs rhs : Ptr) (LO RO : List Nat) : List (Ptr × Ptr) := (LO.zip RO).map fun p => (lhs.add p.1, rhs.add p.2)

theorem steps_cons (lhs rhs : Ptr) (x y : Nat) (LO RO : List Nat) :
    steps lhs rhs (x :: LO) (y :: RO) = (lhs.add x, rhs.add y) :: steps lhs rhs LO RO := rfl

theorem steps_map (lhs rhs : Ptr) (x y : Nat) (LO RO : List Nat) :
    steps lhs rhs (LO.map (x + ·)) (RO.map (y + ·)) = steps (lhs.add x) (rhs.add y) LO RO := by
  simp [steps, List.zip_map, Ptr.add_add]

theorem steps_map_right (lhs rhs : Ptr) (y : Nat) (LO RO : List Nat) :
    steps lhs rhs LO (RO.map (y + ·)) = steps lhs (rhs.add y) LO RO := by
  simp [steps, List.zip_map_right, Ptr.add_add]

theorem steps_map_left (lhs rhs : Ptr) (x : Nat) (LO RO : List Nat) :
    steps lhs rhs (LO.map (x + ·)) RO = steps (lhs.add x) rhs LO RO := by
  simp [steps, List.zip_map_left, Ptr.add_add]

/-- What a kernel has to do when the results are `ws`: store them, or fail like the first failing one. -/
def finish (m : Mem α) (dst : Ptr) (ws : List (Res α)) : Res (Mem α) := do
  let zs ← ws.mapM id
  return m.write dst zs

/-- Everything the elementwise loop needs: the operands can be read, the destination has room, and no
location is read after it has been written. `ws` are the results of the operator. -/
structure Ready (f : α → α → Res α) (m : Mem α) (lhs rhs dst : Ptr) (LO RO : List Nat) (ws : List (Res α)) : Prop where
  ll : LO.length = ws.length
  rl : RO.length = ws.length
  room : ws ≠ [] → ∃ r, m[dst.reg]? = some r ∧ dst.off + ws.length ≤ r.length
  step : ∀ (k x y : Nat), LO[k]? = some x → RO[k]? = some y →
    ∃ u v, m.load (lhs.add x) = .ok u ∧ m.load (rhs.add y) = .ok v ∧ ws[k]? = some (f u v)
  sepl : ∀ (j k x : Nat), j < k → LO[k]? = some x → lhs.add x ≠ dst.add j
  sepr : ∀ (j k y : Nat), j < k → RO[k]? = some y → rhs.add y ≠ dst.add j

theorem runPairs_ok {f : α → α → Res α} {m : Mem α} {lhs rhs dst : Ptr} {LO RO : List Nat} {ws : List (Res α)}
    (h : Ready f m lhs rhs dst LO RO ws) : runPairs f (steps lhs rhs LO RO) dst m = finish m dst ws := by
  induction ws generalizing m dst LO RO with
  | nil =>
    have h1 : LO = [] := List.length_eq_zero_iff.1 h.ll
    subst h1
    simp [steps, runPairs, finish, pure, Except.pure, bind, Except.bind]
  | cons w ws ih =>
    cases LO with
    | nil => have := h.ll; simp at this
    | cons x LO => cases RO with
      | nil => have := h.rl; simp at this
      | cons y RO =>
        obtain ⟨r, hr, hroom⟩ := h.room (by simp)
        obtain ⟨u, v, h1, h2, h3⟩ := h.step 0 x y rfl rfl
        simp only [List.getElem?_cons_zero, Option.some.injEq] at h3
        subst h3
        simp only [List.length_cons] at hroom
        rw [steps_cons]
        simp only [runPairs, binStep, h1, h2, ok_bind, finish, List.mapM_cons, id]
        cases hf : f u v with
        | error e => rfl
        | ok z =>
          simp only [ok_bind]
          rw [Mem.store_ok hr (by omega)]
          simp only [ok_bind]
          rw [ih (m := m.set dst.reg (r.set dst.off z)) (dst := dst.add 1) (LO := LO) (RO := RO)]
          · simp only [finish]
            cases hz : ws.mapM id with
            | error e => rfl
            | ok zs =>
              have hlen := mapM_eq_ok_length hz
              simp only [ok_bind, pure, Except.pure, bind, Except.bind]
              congr 1
              rw [Mem.write_of hr, Mem.write_of (m := m.set dst.reg (r.set dst.off z)) (p := dst.add 1)
                (r := r.set dst.off z) (List.getElem?_set_self (List.getElem?_eq_some_iff.1 hr).1)]
              simp only [Ptr.add, List.set_set]
              rw [writeAt_cons (by omega)]
          · refine ⟨by simpa using h.ll, by simpa using h.rl, fun _ => ⟨r.set dst.off z, ?_, ?_⟩, ?_, ?_, ?_⟩
            · exact List.getElem?_set_self (List.getElem?_eq_some_iff.1 hr).1
            · simp [Ptr.add]; omega
            · intro k x' y' hx hy
              obtain ⟨u', v', e1, e2, e3⟩ := h.step (k + 1) x' y' (by simpa using hx) (by simpa using hy)
              refine ⟨u', v', ?_, ?_, by simpa using e3⟩
              · rw [Mem.load_set_ne hr]; exact e1
                exact h.sepl 0 (k + 1) x' (by omega) (by simpa using hx)
              · rw [Mem.load_set_ne hr]; exact e2
                exact h.sepr 0 (k + 1) y' (by omega) (by simpa using hy)
            · intro j k x' hjk hx
              rw [Ptr.add_add, Nat.add_comm]
              exact h.sepl (j + 1) (k + 1) x' (by omega) (by simpa using hx)
            · intro j k x' hjk hx
              rw [Ptr.add_add, Nat.add_comm]
              exact h.sepr (j + 1) (k + 1) x' (by omega) (by simpa using hx)

theorem strideNN_eq (f : α → α → Res α) (ls rs count : Nat) (lhs rhs dst : Ptr) (m : Mem α) :
    strideNN f ls rs count lhs rhs dst m = runPairs f (steps lhs rhs (multiples count ls) (multiples count rs)) dst m := by
  induction count generalizing lhs rhs dst m with
  | zero => rfl
  | succ count ih =>
    rw [multiples_succ, multiples_succ, steps_cons, steps_map]
    simp only [strideNN, runPairs, Ptr.add_zero]
    congr 1; funext m'
    exact ih ..

theorem nonunifNLoop_eq (f : α → α → Res α) (lhs : Ptr) (rs count : Nat) {g : FlatGen} {offs : List Nat}
    (h : g.nextsUnchecked count = .ok offs) (rhs dst : Ptr) (m : Mem α) :
    nonunifNLoop f lhs rs count g rhs dst m = runPairs f (steps lhs rhs offs (multiples count rs)) dst m := by
  induction count generalizing g offs rhs dst m with
  | zero =>
    have : offs = [] := by simpa [FlatGen.nextsUnchecked] using h.symm
    subst this; rfl
  | succ count ih =>
    simp only [FlatGen.nextsUnchecked] at h
    cases hn : g.next with
    | none => rw [hn] at h; cases h
    | some p =>
      obtain ⟨i, g'⟩ := p
      rw [hn] at h
      simp only at h
      obtain ⟨rest, h1, h2⟩ := bind_eq_ok.1 h
      cases h2
      rw [multiples_succ, steps_cons, steps_map_right]
      simp only [nonunifNLoop, hn, runPairs, Ptr.add_zero]
      congr 1; funext m'
      exact ih h1 ..

theorem nNonunifLoop_eq (f : α → α → Res α) (ls : Nat) (rhs : Ptr) (count : Nat) {g : FlatGen} {offs : List Nat}
    (h : g.nextsUnchecked count = .ok offs) (lhs dst : Ptr) (m : Mem α) :
    nNonunifLoop f ls rhs count g lhs dst m = runPairs f (steps lhs rhs (multiples count ls) offs) dst m := by
  induction count generalizing g offs lhs dst m with
  | zero =>
    have : offs = [] := by simpa [FlatGen.nextsUnchecked] using h.symm
    subst this; rfl
  | succ count ih =>
    simp only [FlatGen.nextsUnchecked] at h
    cases hn : g.next with
    | none => rw [hn] at h; cases h
    | some p =>
      obtain ⟨i, g'⟩ := p
      rw [hn] at h
      simp only at h
      obtain ⟨rest, h1, h2⟩ := bind_eq_ok.1 h
      cases h2
      rw [multiples_succ, steps_cons, steps_map_left]
      simp only [nNonunifLoop, hn, runPairs, Ptr.add_zero]
      congr 1; funext m'
      exact ih h1 ..

theorem nonunifN_or (f : α → α → Res α) (lhs : Ptr) {s st : List Nat} (hl : s.length = st.length)
    (rhs : Ptr) (rs : Nat) (dst : Ptr) (m : Mem α) :
    nonunifN f lhs s st rhs rs dst (numel s) m =
        runPairs f (steps lhs rhs (offsets s st) (multiples (numel s) rs)) dst m ∨
      (¬ s.length ≤ maxDims ∧ nonunifN f lhs s st rhs rs dst (numel s) m = .error .panic) := by
  unfold nonunifN
  by_cases hf : AxesFit s st
  · obtain ⟨g, h1, h2⟩ := FlatGen.nexts_fits hl hf
    rw [h1]
    exact .inl (nonunifNLoop_eq f lhs rs _ h2 rhs dst m)
  · rw [FlatGen.mk'_panic hf]
    exact .inr ⟨fun h => hf (axesFit_of_rank h), rfl⟩

theorem nonunifN_eq (f : α → α → Res α) (lhs : Ptr) {s st : List Nat} (hl : s.length = st.length)
    (hd : s.length ≤ maxDims) (rhs : Ptr) (rs : Nat) (dst : Ptr) (m : Mem α) :
    nonunifN f lhs s st rhs rs dst (numel s) m =
      runPairs f (steps lhs rhs (offsets s st) (multiples (numel s) rs)) dst m :=
  (nonunifN_or f lhs hl ..).resolve_right fun h => h.1 hd

theorem nNonunif_or (f : α → α → Res α) (lhs : Ptr) {s st : List Nat} (hl : s.length = st.length)
    (rhs : Ptr) (ls : Nat) (dst : Ptr) (m : Mem α) :
    nNonunif f lhs ls rhs s st dst (numel s) m =
        runPairs f (steps lhs rhs (multiples (numel s) ls) (offsets s st)) dst m ∨
      (¬ s.length ≤ maxDims ∧ nNonunif f lhs ls rhs s st dst (numel s) m = .error .panic) := by
  unfold nNonunif
  by_cases hf : AxesFit s st
  · obtain ⟨g, h1, h2⟩ := FlatGen.nexts_fits hl hf
    rw [h1]
    exact .inl (nNonunifLoop_eq f ls rhs _ h2 lhs dst m)
  · rw [FlatGen.mk'_panic hf]
    exact .inr ⟨fun h => hf (axesFit_of_rank h), rfl⟩

theorem nNonunif_eq (f : α → α → Res α) (lhs : Ptr) {s st : List Nat} (hl : s.length = st.length)
    (hd : s.length ≤ maxDims) (rhs : Ptr) (ls : Nat) (dst : Ptr) (m : Mem α) :
    nNonunif f lhs ls rhs s st dst (numel s) m =
      runPairs f (steps lhs rhs (multiples (numel s) ls) (offsets s st)) dst m :=
  (nNonunif_or f lhs hl ..).resolve_right fun h => h.1 hd

theorem binUnspecialized_or (f : α → α → Res α) (lhs : Ptr) {s st t tt : List Nat} (hl : s.length = st.length)
    (hl' : t.length = tt.length) (rhs dst : Ptr) (m : Mem α) :
    binUnspecialized f lhs s st rhs t tt dst m = runPairs f (steps lhs rhs (offsets s st) (offsets t tt)) dst m ∨
      (¬ (s.length ≤ maxDims ∧ t.length ≤ maxDims) ∧ binUnspecialized f lhs s st rhs t tt dst m = .error .panic) := by
  unfold binUnspecialized
  by_cases hf : AxesFit s st
  · obtain ⟨g, h1, h2⟩ := FlatGen.toList_fits hl hf
    by_cases hf' : AxesFit t tt
    · obtain ⟨g', h3, h4⟩ := FlatGen.toList_fits hl' hf'
      left
      rw [h1, h3]
      simp only [ok_bind]
      rw [h2, h4]; rfl
    · right
      rw [h1, FlatGen.mk'_panic hf']
      exact ⟨fun h => hf' (axesFit_of_rank h.2), rfl⟩
  · right
    rw [FlatGen.mk'_panic hf]
    exact ⟨fun h => hf (axesFit_of_rank h.1), rfl⟩

theorem binUnspecialized_eq (f : α → α → Res α) (lhs : Ptr) {s st t tt : List Nat} (hl : s.length = st.length)
    (hd : s.length ≤ maxDims) (hl' : t.length = tt.length) (hd' : t.length ≤ maxDims) (rhs dst : Ptr) (m : Mem α) :
    binUnspecialized f lhs s st rhs t tt dst m = runPairs f (steps lhs rhs (offsets s st) (offsets t tt)) dst m :=
  (binUnspecialized_or f lhs hl hl' ..).resolve_right fun h => h.1 ⟨hd, hd'⟩

/-! ### the dispatch -/

/-- A family of loops over uniformly strided operands is correct for the operator `f`, for all counts
satisfying `P`. -/
structure BinKernels.Correct (f : α → α → Res α) (K : BinKernels α) (P : Nat → Prop) : Prop where
  s01 : ∀ m lhs rhs dst n ws, P n → Ready f m lhs rhs dst (multiples n 0) (multiples n 1) ws →
    K.s01 lhs rhs dst n m = finish m dst ws
  s10 : ∀ m lhs rhs dst n ws, P n → Ready f m lhs rhs dst (multiples n 1) (multiples n 0) ws →
    K.s10 lhs rhs dst n m = finish m dst ws
  sn0 : ∀ m lhs ls rhs dst n ws, P n → Ready f m lhs rhs dst (multiples n ls) (multiples n 0) ws →
    K.sn0 lhs ls rhs dst n m = finish m dst ws
  s0n : ∀ m lhs rhs rs dst n ws, P n → Ready f m lhs rhs dst (multiples n 0) (multiples n rs) ws →
    K.s0n lhs rhs rs dst n m = finish m dst ws
  s11 : ∀ m lhs rhs dst n ws, P n → Ready f m lhs rhs dst (multiples n 1) (multiples n 1) ws →
    K.s11 lhs rhs dst n m = finish m dst ws
  sn1 : ∀ m lhs ls rhs dst n ws, P n → Ready f m lhs rhs dst (multiples n ls) (multiples n 1) ws →
    K.sn1 lhs ls rhs dst n m = finish m dst ws
  s1n : ∀ m lhs rhs rs dst n ws, P n → Ready f m lhs rhs dst (multiples n 1) (multiples n rs) ws →
    K.s1n lhs rhs rs dst n m = finish m dst ws
  snn : ∀ m lhs ls rhs rs dst n ws, P n → Ready f m lhs rhs dst (multiples n ls) (multiples n rs) ws →
    K.snn lhs ls rhs rs dst n m = finish m dst ws

theorem portable_correct (f : α → α → Res α) : (portableKernels f).Correct f fun _ => True where
  s01 _ _ _ _ _ _ _ h := (strideNN_eq ..).trans (runPairs_ok h)
  s10 _ _ _ _ _ _ _ h := (strideNN_eq ..).trans (runPairs_ok h)
  sn0 _ _ _ _ _ _ _ _ h := (strideNN_eq ..).trans (runPairs_ok h)
  s0n _ _ _ _ _ _ _ _ h := (strideNN_eq ..).trans (runPairs_ok h)
  s11 _ _ _ _ _ _ _ h := (strideNN_eq ..).trans (runPairs_ok h)
  sn1 _ _ _ _ _ _ _ _ h := (strideNN_eq ..).trans (runPairs_ok h)
  s1n _ _ _ _ _ _ _ _ h := (strideNN_eq ..).trans (runPairs_ok h)
  snn _ _ _ _ _ _ _ _ _ h := (strideNN_eq ..).trans (runPairs_ok h)

theorem innerOf_ok {l : List Nat} (h : l ≠ []) : ∃ d, innerOf l = .ok d := by
  unfold innerOf
  cases hl : l.getLast? with
  | none => simp at hl; exact absurd hl h
  | some d => exact ⟨d, rfl⟩

theorem firstOf_ok {l : List Nat} (h : l ≠ []) : ∃ d, firstOf l = .ok d := by
  cases l with
  | nil => exact absurd rfl h
  | cons d l => exact ⟨d, rfl⟩

/-- What the dispatch needs to know about a collapsed layout. -/
theorem collapse_facts {s st : List Nat} (hl : s.length = st.length) (hne : s ≠ []) :
    let l := collapseToUniformStride s st
    l.1.length = l.2.length ∧ l.1 ≠ [] ∧ l.2 ≠ [] ∧ l.1.length ≤ s.length ∧ offsets l.1 l.2 = offsets s st ∧
      numel l.1 = numel s := by
  intro l
  have h1 := length_collapse s st
  have h3 : l.1 ≠ [] := by
    cases s with
    | nil => exact absurd rfl hne
    | cons n s => cases st with
      | nil => simp at hl
      | cons d st =>
        have : ∀ (s st : List Nat) (cn cd : Nat), (collapseAux cn cd s st).1 ≠ [] := by
          intro s
          induction s with
          | nil => intro st cn cd; simp [collapseAux]
          | cons a s ih =>
            intro st cn cd
            cases st with
            | nil => simp [collapseAux]
            | cons b st =>
              simp only [collapseAux]
              split
              · exact ih _ _ _
              · simp
        exact this s st n d
  have h4 : l.2 ≠ [] := by
    intro h; apply h3
    have := h1.1
    rw [show (collapseToUniformStride s st).2 = [] from h] at this
    exact List.length_eq_zero_iff.1 (by simpa using this)
  refine ⟨h1.1, h3, h4, ?_, offsets_collapse hl, numel_collapse hl⟩
  have := h1.2; simpa using this

theorem uniform_facts {l : List Nat × List Nat} (hl : l.1.length = l.2.length) (h1 : l.1.length = 1) :
    ∃ n d, l = ([n], [d]) := by
  obtain ⟨a, b⟩ := l
  simp only at hl h1
  obtain ⟨n, rfl⟩ := List.length_eq_one_iff.1 h1
  obtain ⟨d, rfl⟩ := List.length_eq_one_iff.1 (hl ▸ h1)
  exact ⟨n, d, rfl⟩

/-- The dispatch of a binary operator is right, or it panics because an operand has too many axes. -/
theorem binKernel_or {f : α → α → Res α} {K : BinKernels α} {P : Nat → Prop} (hK : K.Correct f P)
    {shape lst rst : List Nat} (hl : shape.length = lst.length) (hr : shape.length = rst.length)
    {m : Mem α} {lhs rhs dst : Ptr} {ws : List (Res α)} (hP : P (numel shape))
    (h : Ready f m lhs rhs dst (offsets shape lst) (offsets shape rst) ws) :
    binKernel f K lhs lst rhs rst dst shape m = finish m dst ws ∨
      (¬ (AxesFit shape lst ∧ AxesFit shape rst) ∧ binKernel f K lhs lst rhs rst dst shape m = .error .panic) := by
  unfold binKernel AxesFit
  by_cases he : shape = []
  · left
    subst he
    have h1 : lst = [] := List.length_eq_zero_iff.1 hl.symm
    have h2 : rst = [] := List.length_eq_zero_iff.1 hr.symm
    subst h1; subst h2
    have := runPairs_ok h
    simp only [offsets_nil, steps, List.zip_cons_cons, List.zip_nil_left, List.map_cons, List.map_nil, runPairs,
      Ptr.add_zero] at this
    simp only [List.isEmpty_nil, Bool.and_self, if_true]
    rw [← this]
    cases binStep f lhs rhs dst m <;> rfl
  · have hlne : lst ≠ [] := by rintro rfl; exact he (List.length_eq_zero_iff.1 hl)
    rw [if_neg (by simp [hlne])]
    obtain ⟨l1, l2, l3, l4, l5, l6⟩ := collapse_facts hl he
    obtain ⟨r1, r2, r3, r4, r5, r6⟩ := collapse_facts hr he
    rw [← l5, ← r5] at h
    rw [← l6] at hP
    have r6' := r6.trans l6.symm
    clear l5 r5 l6 r6
    simp only
    generalize collapseToUniformStride shape lst = l at *
    generalize collapseToUniformStride shape rst = r at *
    by_cases hL : l.1.length = 1
    · obtain ⟨n, d, rfl⟩ := uniform_facts l1 hL
      have hln : numel [n] = n := by simp
      simp only [hln] at hP r6'
      by_cases hR : r.1.length = 1
      · left
        obtain ⟨n', d', rfl⟩ := uniform_facts r1 hR
        have : n' = n := by simpa using r6'
        subst this
        simp only [offsets_one] at h
        simp only [innerOf, firstOf, List.getLast?_singleton, List.head?_cons, ok_bind, List.length_singleton,
          and_self, if_true]
        by_cases c1 : d' = 0
        · subst c1
          rw [if_pos rfl]
          by_cases c2 : d = 1
          · subst c2; rw [if_pos rfl]; exact hK.s10 _ _ _ _ _ _ hP h
          · rw [if_neg c2]; exact hK.sn0 _ _ _ _ _ _ _ hP h
        · rw [if_neg c1]
          by_cases c2 : d = 0
          · subst c2
            rw [if_pos rfl]
            by_cases c3 : d' = 1
            · subst c3; rw [if_pos rfl]; exact hK.s01 _ _ _ _ _ _ hP h
            · rw [if_neg c3]; exact hK.s0n _ _ _ _ _ _ _ hP h
          · rw [if_neg c2]
            by_cases c3 : d = 1 <;> by_cases c4 : d' = 1
            · subst c3; subst c4; rw [if_pos ⟨rfl, rfl⟩]; exact hK.s11 _ _ _ _ _ _ hP h
            · subst c3; rw [if_neg (by simp [c4]), if_pos rfl]; exact hK.s1n _ _ _ _ _ _ _ hP h
            · subst c4; rw [if_neg (by simp [c3]), if_neg c3, if_pos rfl]; exact hK.sn1 _ _ _ _ _ _ _ hP h
            · rw [if_neg (by simp [c3]), if_neg c3, if_neg c4]; exact hK.snn _ _ _ _ _ _ _ _ hP h
      · obtain ⟨ri, hri⟩ := innerOf_ok r3
        obtain ⟨rn, hrn⟩ := firstOf_ok r2
        rw [hri, hrn]
        simp only [innerOf, firstOf, List.getLast?_singleton, List.head?_cons, ok_bind, List.length_singleton,
          hR, false_and, and_false, true_and, if_false, if_true]
        rw [offsets_one] at h
        have key : ∀ e, e = d → nNonunif f lhs e rhs r.1 r.2 dst n m = finish m dst ws ∨
            (¬ ((1 ≤ maxDims) ∧ r.1.length ≤ maxDims) ∧ nNonunif f lhs e rhs r.1 r.2 dst n m = .error .panic) := by
          rintro e rfl
          rw [← r6'] at h ⊢
          rcases nNonunif_or f lhs r1 rhs e dst m with h' | h'
          · rw [h']; exact .inl (runPairs_ok h)
          · exact .inr ⟨fun c => h'.1 c.2, h'.2⟩
        split
        · rename_i c; exact key 0 c.symm
        · split
          · rename_i c; exact key 1 c.symm
          · exact key d rfl
    · obtain ⟨li, hli⟩ := innerOf_ok l3
      obtain ⟨ln, hln⟩ := firstOf_ok l2
      rw [hli, hln]
      by_cases hR : r.1.length = 1
      · obtain ⟨n', d', rfl⟩ := uniform_facts r1 hR
        have hrn : numel [n'] = n' := by simp
        rw [hrn] at r6'
        simp only [innerOf, firstOf, List.getLast?_singleton, List.head?_cons, ok_bind, List.length_singleton,
          hL, false_and, and_false, true_and, if_false, if_true]
        rw [offsets_one] at h
        have key : ∀ e, e = d' → nonunifN f lhs l.1 l.2 rhs e dst n' m = finish m dst ws ∨
            (¬ (l.1.length ≤ maxDims ∧ 1 ≤ maxDims) ∧ nonunifN f lhs l.1 l.2 rhs e dst n' m = .error .panic) := by
          rintro e rfl
          rw [r6'] at h ⊢
          rcases nonunifN_or f lhs l1 rhs e dst m with h' | h'
          · rw [h']; exact .inl (runPairs_ok h)
          · exact .inr ⟨fun c => h'.1 c.1, h'.2⟩
        split
        · rename_i c; exact key 0 c.symm
        · split
          · rename_i c; exact key 1 c.symm
          · exact key d' rfl
      · obtain ⟨ri, hri⟩ := innerOf_ok r3
        obtain ⟨rn, hrn⟩ := firstOf_ok r2
        rw [hri, hrn]
        simp only [ok_bind, hL, hR, false_and, and_false, if_false]
        rcases binUnspecialized_or f lhs l1 r1 rhs dst m with h' | h'
        · rw [h']; exact .inl (runPairs_ok h)
        · exact .inr h'

theorem binKernel_ok {f : α → α → Res α} {K : BinKernels α} {P : Nat → Prop} (hK : K.Correct f P)
    {shape lst rst : List Nat} (hl : shape.length = lst.length) (hr : shape.length = rst.length)
    (hd : shape.length ≤ maxDims) {m : Mem α} {lhs rhs dst : Ptr} {ws : List (Res α)} (hP : P (numel shape))
    (h : Ready f m lhs rhs dst (offsets shape lst) (offsets shape rst) ws) :
    binKernel f K lhs lst rhs rst dst shape m = finish m dst ws :=
  (binKernel_or hK hl hr hP h).resolve_right fun c => c.1 ⟨axesFit_of_rank hd, axesFit_of_rank hd⟩

theorem binScalarKernel_or {f : α → α → Res α} {K : BinKernels α} {P : Nat → Prop} (hK : K.Correct f P)
    {shape lst : List Nat} (hl : shape.length = lst.length) {m : Mem α} {lhs rhs dst : Ptr} {ws : List (Res α)} (hP : P (numel shape))
    (h : Ready f m lhs rhs dst (offsets shape lst) (multiples (numel shape) 0) ws) :
    binScalarKernel f K lhs shape lst rhs dst m = finish m dst ws ∨
      (¬ AxesFit shape lst ∧ binScalarKernel f K lhs shape lst rhs dst m = .error .panic) := by
  unfold binScalarKernel AxesFit
  by_cases he : shape = []
  · left
    subst he
    have h1 : lst = [] := List.length_eq_zero_iff.1 hl.symm
    subst h1
    have := runPairs_ok h
    simp only [offsets_nil, steps, numel, multiples, List.range_one, List.map_cons, List.map_nil,
      List.zip_cons_cons, List.zip_nil_left, List.map_cons, List.map_nil, runPairs, Nat.zero_mul,
      Ptr.add_zero] at this
    simp only [List.isEmpty_nil, if_true]
    rw [← this]
    cases binStep f lhs rhs dst m <;> rfl
  · have hlne : lst ≠ [] := by rintro rfl; exact he (List.length_eq_zero_iff.1 hl)
    rw [if_neg (by simp [hlne])]
    obtain ⟨l1, l2, l3, l4, l5, l6⟩ := collapse_facts hl he
    rw [← l5, ← l6] at h
    rw [← l6] at hP
    clear l5 l6
    simp only
    generalize collapseToUniformStride shape lst = l at *
    by_cases hL : l.1.length = 1
    · left
      obtain ⟨n, d, rfl⟩ := uniform_facts l1 hL
      have hln : numel [n] = n := by simp
      rw [hln] at h hP
      simp only [innerOf, firstOf, List.getLast?_singleton, List.head?_cons, ok_bind, List.length_singleton, if_true]
      rw [offsets_one] at h
      by_cases c : d = 1
      · subst c; rw [if_pos rfl]; exact hK.s10 _ _ _ _ _ _ hP h
      · rw [if_neg c]; exact hK.sn0 _ _ _ _ _ _ _ hP h
    · obtain ⟨li, hli⟩ := innerOf_ok l3
      rw [hli]
      simp only [ok_bind, hL, if_false, nonunif0]
      rcases nonunifN_or f lhs l1 rhs 0 dst m with h' | h'
      · rw [h']; exact .inl (runPairs_ok h)
      · exact .inr h'

theorem binScalarKernel_ok {f : α → α → Res α} {K : BinKernels α} {P : Nat → Prop} (hK : K.Correct f P)
    {shape lst : List Nat} (hl : shape.length = lst.length)
    (hd : shape.length ≤ maxDims) {m : Mem α} {lhs rhs dst : Ptr} {ws : List (Res α)} (hP : P (numel shape))
    (h : Ready f m lhs rhs dst (offsets shape lst) (multiples (numel shape) 0) ws) :
    binScalarKernel f K lhs shape lst rhs dst m = finish m dst ws :=
  (binScalarKernel_or hK hl hP h).resolve_right fun c => c.1 (axesFit_of_rank hd)

/-! ### negation -/

theorem unStep_eq (g : α → Res α) (src dst : Ptr) (m : Mem α) (h : ∃ v, m.load src = .ok v) :
    unStep g src dst m = binStep (fun x _ => g x) src src dst m := by
  obtain ⟨v, hv⟩ := h
  simp [unStep, binStep, hv]

/-- A family of unary loops is correct for `g`. -/
structure UnKernels.Correct (g : α → Res α) (K : UnKernels α) (P : Nat → Prop) : Prop where
  s0 : ∀ m src dst n ws, P n → Ready (fun x _ => g x) m src src dst (multiples n 0) (multiples n 0) ws →
    K.s0 src dst n m = finish m dst ws
  s1 : ∀ m src dst n ws, P n → Ready (fun x _ => g x) m src src dst (multiples n 1) (multiples n 1) ws →
    K.s1 src dst n m = finish m dst ws
  sn : ∀ m src d dst n ws, P n → Ready (fun x _ => g x) m src src dst (multiples n d) (multiples n d) ws →
    K.sn src d dst n m = finish m dst ws

theorem runUnary_ok {g : α → Res α} {m : Mem α} {src dst : Ptr} {LO : List Nat} {ws : List (Res α)}
    (h : Ready (fun x _ => g x) m src src dst LO LO ws) :
    runUnary g (LO.map src.add) dst m = finish m dst ws := by
  rw [← runPairs_ok h]
  by_cases hws : ws = []
  · subst hws
    have h1 : LO = [] := List.length_eq_zero_iff.1 h.ll
    subst h1; rfl
  have hloads : ∀ (k x : Nat), LO[k]? = some x → ∃ u, m.load (src.add x) = .ok u := by
    intro k x hx
    obtain ⟨u, v, h1, _⟩ := h.step k x x hx hx
    exact ⟨u, h1⟩
  have hsep := h.sepl
  obtain ⟨r, hr⟩ : ∃ r, m[dst.reg]? = some r := ⟨_, (h.room hws).choose_spec.1⟩
  clear h hws
  induction LO generalizing m dst r with
  | nil => rfl
  | cons x LO ih =>
    rw [steps_cons]
    simp only [List.map_cons, runUnary, runPairs]
    rw [unStep_eq g _ _ _ (hloads 0 x rfl)]
    cases hs : binStep (fun x _ => g x) (src.add x) (src.add x) dst m with
    | error e => rfl
    | ok m' =>
      simp only [ok_bind]
      simp only [binStep] at hs
      obtain ⟨u, h1, hs⟩ := bind_eq_ok.1 hs
      obtain ⟨v, h2, hs⟩ := bind_eq_ok.1 hs
      obtain ⟨z, h3, hs⟩ := bind_eq_ok.1 hs
      unfold Mem.store at hs
      rw [hr] at hs
      simp only at hs
      split at hs
      · cases hs
        apply ih (r := r.set dst.off z)
        · intro k y hy
          rw [Mem.load_set_ne hr]
          · exact hloads (k + 1) y (by simpa using hy)
          · exact hsep 0 (k + 1) y (by omega) (by simpa using hy)
        · intro j k y hjk hy
          rw [Ptr.add_add, Nat.add_comm]
          exact hsep (j + 1) (k + 1) y (by omega) (by simpa using hy)
        · exact List.getElem?_set_self (List.getElem?_eq_some_iff.1 hr).1
      · cases hs

theorem negStrideN_eq (g : α → Res α) (d count : Nat) (src dst : Ptr) (m : Mem α) :
    negStrideN g d count src dst m = runUnary g ((multiples count d).map src.add) dst m := by
  induction count generalizing src dst m with
  | zero => rfl
  | succ count ih =>
    rw [multiples_succ]
    simp only [negStrideN, List.map_cons, runUnary, Ptr.add_zero, List.map_map]
    congr 1; funext m'
    rw [ih]
    congr 1
    apply List.map_congr_left
    intro k _
    simp [Ptr.add_add]

theorem portableNeg_correct (g : α → Res α) : (portableNeg g).Correct g fun _ => True where
  s0 _ _ _ _ _ _ h := (negStrideN_eq ..).trans (runUnary_ok h)
  s1 _ _ _ _ _ _ h := (negStrideN_eq ..).trans (runUnary_ok h)
  sn _ _ _ _ _ _ _ h := (negStrideN_eq ..).trans (runUnary_ok h)

theorem negKernel_or {g : α → Res α} {K : UnKernels α} {P : Nat → Prop} (hK : K.Correct g P)
    {shape st : List Nat} (hl : shape.length = st.length) {m : Mem α} {src dst : Ptr}
    {ws : List (Res α)} (hP : P (numel shape))
    (h : Ready (fun x _ => g x) m src src dst (offsets shape st) (offsets shape st) ws) :
    negKernel g K src shape st dst m = finish m dst ws ∨
      (¬ AxesFit shape st ∧ negKernel g K src shape st dst m = .error .panic) := by
  unfold negKernel
  rw [AxesFit]
  by_cases he : shape = []
  · left
    subst he
    have h1 : st = [] := List.length_eq_zero_iff.1 hl.symm
    subst h1
    have := runUnary_ok h
    simp only [offsets_nil, List.map_cons, List.map_nil, runUnary, Ptr.add_zero] at this
    simp only [List.isEmpty_nil, if_true]
    rw [← this]
    cases unStep g src dst m <;> rfl
  · rw [if_neg (by simp [he])]
    obtain ⟨l1, l2, l3, l4, l5, l6⟩ := collapse_facts hl he
    rw [← l5] at h
    rw [← l6] at hP
    clear l5 l6
    simp only
    generalize collapseToUniformStride shape st = l at *
    by_cases hL : l.1.length = 1
    · left
      obtain ⟨n, d, rfl⟩ := uniform_facts l1 hL
      have hln : numel [n] = n := by simp
      rw [hln] at hP
      simp only [firstOf, List.head?_cons, ok_bind, List.length_singleton, if_true]
      rw [offsets_one] at h
      by_cases c : d = 0
      · subst c; rw [if_pos rfl]; exact hK.s0 _ _ _ _ _ hP h
      · rw [if_neg c]
        by_cases c : d = 1
        · subst c; rw [if_pos rfl]; exact hK.s1 _ _ _ _ _ hP h
        · rw [if_neg c]; exact hK.sn _ _ _ _ _ _ hP h
    · rw [if_neg hL]
      by_cases hf : AxesFit l.1 l.2
      · obtain ⟨gen, e1, e2⟩ := FlatGen.toList_fits l1 hf
        left
        rw [e1]
        simp only [ok_bind]
        rw [e2]
        exact runUnary_ok h
      · rw [FlatGen.mk'_panic hf]
        exact .inr ⟨fun c => hf (axesFit_of_rank c), rfl⟩

theorem negKernel_ok {g : α → Res α} {K : UnKernels α} {P : Nat → Prop} (hK : K.Correct g P)
    {shape st : List Nat} (hl : shape.length = st.length) (hd : shape.length ≤ maxDims) {m : Mem α} {src dst : Ptr}
    {ws : List (Res α)} (hP : P (numel shape))
    (h : Ready (fun x _ => g x) m src src dst (offsets shape st) (offsets shape st) ws) :
    negKernel g K src shape st dst m = finish m dst ws :=
  (negKernel_or hK hl hP h).resolve_right fun c => c.1 (axesFit_of_rank hd)

end Verif
