import Verif.Spec.Ownership

/-! # Invariants of the ownership model -/

namespace Verif.Own

namespace State

/-- `s` without value `i`. -/
def remove (s : State) (i : Nat) : State := { s with vals := s.vals.set i none }

/-- `s` with a new block and a new owner of it. -/
def alloc (s : State) (len cap : Nat) : State :=
  { blocks := s.blocks ++ [⟨cap, true⟩],
    vals := s.vals ++ [some ⟨.array, s.blocks.length, 0, len, cap, true, true, none, none⟩] }

/-- `s` after block `p` was freed. -/
def kill (s : State) (p cap : Nat) : State := { s with blocks := s.blocks.set p ⟨cap, false⟩ }

theorem has_push {s : State} {v u : Val} {j : Nat} :
    (s.push v).Has j u ↔ s.Has j u ∨ (j = s.vals.length ∧ u = v) := by
  unfold Has push
  simp only [List.getElem?_append]
  split
  · rename_i h
    constructor
    · exact Or.inl
    · rintro (h' | ⟨rfl, _⟩)
      · exact h'
      · omega
  · rename_i h
    have hn : s.vals[j]? = none := by simp; omega
    rw [hn]
    by_cases hj : j = s.vals.length
    · subst hj
      simp [eq_comm]
    · have : j - s.vals.length ≠ 0 := by omega
      obtain ⟨k, hk⟩ := Nat.exists_eq_succ_of_ne_zero this
      simp [hk, hj]

theorem has_remove {s : State} {i j : Nat} {u : Val} :
    (s.remove i).Has j u ↔ j ≠ i ∧ s.Has j u := by
  unfold Has remove
  simp only [List.getElem?_set]
  split
  · rename_i h
    subst h
    split <;> simp_all
  · rename_i h
    simp [Ne.symm h]

theorem has_alloc {s : State} {len cap j : Nat} {u : Val} :
    (s.alloc len cap).Has j u ↔ s.Has j u ∨
      (j = s.vals.length ∧ u = ⟨.array, s.blocks.length, 0, len, cap, true, true, none, none⟩) :=
  has_push (s := s)

theorem has_kill {s : State} {p cap j : Nat} {u : Val} : (s.kill p cap).Has j u ↔ s.Has j u := Iff.rfl

theorem has_lt {s : State} {i : Nat} {v : Val} (h : s.Has i v) : i < s.vals.length :=
  (List.getElem?_eq_some_iff.mp h).1

theorem Has.unique {s : State} {i : Nat} {v w : Val} (h : s.Has i v) (h' : s.Has i w) : v = w := by
  unfold Has at h h'; rw [h] at h'; simpa using h'

theorem get_ok {s : State} {i : Nat} {v : Val} : s.get i = .ok v ↔ s.Has i v := by
  unfold get Has
  split <;> simp_all

theorem get_ne_fault {s : State} {i : Nat} {f : Fault} : s.get i ≠ .error (.fault f) := by
  unfold get
  split <;> simp

theorem borrowed_iff {s : State} {i : Nat} :
    s.borrowed i = true ↔ ∃ j v, s.Has j v ∧ v.lender = some i := by
  unfold borrowed Has
  rw [List.any_eq_true]
  constructor
  · rintro ⟨o, ho, h⟩
    cases o with
    | none => simp at h
    | some v =>
      obtain ⟨j, hj⟩ := List.mem_iff_getElem?.mp ho
      exact ⟨j, v, hj, by simpa using h⟩
  · rintro ⟨j, v, hj, h⟩
    exact ⟨some v, List.mem_iff_getElem?.mpr ⟨j, hj⟩, by simpa using h⟩

/-- Result of a move. -/
theorem take_ok {s s' : State} {i : Nat} {v : Val} :
    s.take i = .ok (v, s') ↔ s.Has i v ∧ (∀ j u, s.Has j u → u.lender ≠ some i) ∧ s' = s.remove i := by
  unfold take
  cases hg : s.get i with
  | error e =>
    simp only [Bind.bind, Except.bind, reduceCtorEq, false_iff]
    rintro ⟨h, _⟩
    rw [get_ok.mpr h] at hg
    cases hg
  | ok w =>
    simp only [Bind.bind, Except.bind]
    have hw := get_ok.mp hg
    by_cases hb : s.borrowed i = true
    · simp only [hb, if_true, reduceCtorEq, false_iff]
      rintro ⟨_, h, _⟩
      obtain ⟨j, u, hj, hu⟩ := borrowed_iff.mp hb
      exact h j u hj hu
    · have hn : ∀ j u, s.Has j u → u.lender ≠ some i :=
        fun j u hj hu => hb (borrowed_iff.mpr ⟨j, u, hj, hu⟩)
      simp only [hb, Bool.false_eq_true, if_false, Except.ok.injEq, Prod.mk.injEq]
      constructor
      · rintro ⟨rfl, rfl⟩
        exact ⟨hw, hn, rfl⟩
      · rintro ⟨h, _, rfl⟩
        exact ⟨hw.unique h, rfl⟩

theorem take_ne_fault {s : State} {i : Nat} {f : Fault} : s.take i ≠ .error (.fault f) := by
  unfold take
  cases hg : s.get i with
  | error e =>
    simp only [Bind.bind, Except.bind]
    intro h
    cases h
    exact get_ne_fault hg
  | ok w =>
    simp only [Bind.bind, Except.bind]
    split <;> simp

theorem touch_cases (s : State) (v : Val) :
    (s.touch v = .ok () ∧ s.Live v.ptr) ∨ (s.touch v = .error (.fault .useAfterFree) ∧ ¬ s.Live v.ptr) := by
  unfold touch Live
  split
  · rename_i b hb
    rw [hb]
    by_cases h : b.live = true <;> simp [h]
  · rename_i hb
    rw [hb]
    simp

theorem touchAll_fault {s : State} {is : List Nat} {f : Fault} (h : s.touchAll is = .error (.fault f)) :
    f = .useAfterFree ∧ ∃ i ∈ is, ∃ v, s.Has i v ∧ ¬ s.Live v.ptr := by
  induction is with
  | nil => simp [touchAll] at h
  | cons i is ih =>
    unfold touchAll at h
    cases hg : s.get i with
    | error e =>
      rw [hg] at h
      simp only [Bind.bind, Except.bind, Except.error.injEq] at h
      exact absurd (h ▸ hg) get_ne_fault
    | ok v =>
      rw [hg] at h
      simp only [Bind.bind, Except.bind] at h
      rcases touch_cases s v with ⟨ht, hl⟩ | ⟨ht, hl⟩
      · rw [ht] at h
        obtain ⟨hf, j, hj, w, hw⟩ := ih h
        exact ⟨hf, j, List.mem_cons_of_mem _ hj, w, hw⟩
      · rw [ht] at h
        simp only [Except.error.injEq, Stop.fault.injEq] at h
        exact ⟨h.symm, i, List.mem_cons_self, v, get_ok.mp hg, hl⟩

/-! ## Every buffer has at most one owner, and the owner knows its layout -/

structure Inv (s : State) : Prop where
  bound : ∀ i v, s.Has i v → v.ptr < s.blocks.length
  uniq : ∀ i j v w, s.Has i v → s.Has j w → v.owned = true → w.owned = true → v.ptr = w.ptr → i = j
  block : ∀ i v, s.Has i v → v.owned = true → v.cap ≠ 0 →
    v.off = 0 ∧ s.blocks[v.ptr]? = some ⟨v.cap, true⟩

theorem Inv.init : Inv State.init :=
  ⟨by intro i v h; simp [Has, State.init] at h, by intro i j v w h; simp [Has, State.init] at h,
    by intro i v h; simp [Has, State.init] at h⟩

/-- What dropping a held value does, given the invariant: it never fails. -/
theorem Inv.release {s : State} (hI : s.Inv) {i : Nat} {v : Val} (h : s.Has i v) (t : State)
    (ht : t.blocks = s.blocks) :
    t.release v = .ok (if v.owned = true ∧ v.cap ≠ 0 then t.kill v.ptr v.cap else t) := by
  unfold State.release
  by_cases ho : v.owned = true
  · simp only [ho, if_true, true_and]
    unfold free
    by_cases hc : v.cap = 0
    · simp [hc, Bind.bind, Except.bind]
    · obtain ⟨hoff, hb⟩ := hI.block i v h ho hc
      simp [hc, ht, hb, hoff, Bind.bind, Except.bind, kill]
  · simp [ho]

theorem Inv.remove {s : State} (hI : s.Inv) (i : Nat) : (s.remove i).Inv := by
  refine ⟨?_, ?_, ?_⟩
  · intro j v h
    exact hI.bound j v (has_remove.mp h).2
  · intro j k v w hv hw
    exact hI.uniq j k v w (has_remove.mp hv).2 (has_remove.mp hw).2
  · intro j v h
    exact hI.block j v (has_remove.mp h).2

/-- Removing an owner and freeing its block. -/
theorem Inv.remove_kill {s : State} (hI : s.Inv) {i : Nat} {v : Val} (h : s.Has i v)
    (ho : v.owned = true) : ((s.remove i).kill v.ptr v.cap).Inv := by
  refine ⟨?_, ?_, ?_⟩
  · intro j u hj
    have := hI.bound j u (has_remove.mp (has_kill.mp hj)).2
    simpa [kill, State.remove] using this
  · intro j k u w hu hw
    exact hI.uniq j k u w (has_remove.mp (has_kill.mp hu)).2 (has_remove.mp (has_kill.mp hw)).2
  · intro j u hj huo huc
    obtain ⟨hne, hj'⟩ := has_remove.mp (has_kill.mp hj)
    obtain ⟨hoff, hb⟩ := hI.block j u hj' huo huc
    refine ⟨hoff, ?_⟩
    have hp : v.ptr ≠ u.ptr := fun hp => hne (hI.uniq j i u v hj' h huo ho hp.symm)
    simp only [kill, State.remove, List.getElem?_set, hp, if_false]
    exact hb

/-- Adding a handle that does not own. -/
theorem Inv.push_view {s : State} (hI : s.Inv) {v : Val} (hb : v.ptr < s.blocks.length)
    (ho : v.owned = false) : (s.push v).Inv := by
  refine ⟨?_, ?_, ?_⟩
  · intro j u hj
    rcases has_push.mp hj with h | ⟨_, rfl⟩
    · exact hI.bound j u h
    · exact hb
  · intro j k u w hu hw huo hwo
    rcases has_push.mp hu with h | ⟨_, rfl⟩
    · rcases has_push.mp hw with h' | ⟨_, rfl⟩
      · exact hI.uniq j k u w h h' huo hwo
      · simp [ho] at hwo
    · simp [ho] at huo
  · intro j u hj huo huc
    rcases has_push.mp hj with h | ⟨_, rfl⟩
    · exact hI.block j u h huo huc
    · simp [ho] at huo

/-- Moving a handle: the new one owns what the old one owned, with the same capacity or capacity 0. -/
theorem Inv.move {s : State} (hI : s.Inv) {i : Nat} {v v' : Val} (h : s.Has i v)
    (hp : v'.ptr = v.ptr) (ho : v'.owned = v.owned) (hf : v'.off = v.off)
    (hc : v'.cap = v.cap ∨ v'.cap = 0) : ((s.remove i).push v').Inv := by
  refine ⟨?_, ?_, ?_⟩
  · intro j u hj
    rcases has_push.mp hj with h' | ⟨_, rfl⟩
    · exact hI.bound j u (has_remove.mp h').2
    · rw [hp]; exact hI.bound i v h
  · intro j k u w hu hw huo hwo hpe
    rcases has_push.mp hu with h1 | ⟨hj, rfl⟩
    · rcases has_push.mp hw with h2 | ⟨_, rfl⟩
      · exact hI.uniq j k u w (has_remove.mp h1).2 (has_remove.mp h2).2 huo hwo hpe
      · exact absurd (hI.uniq j i u v (has_remove.mp h1).2 h huo (ho ▸ hwo) (hpe.trans hp))
          (has_remove.mp h1).1
    · rcases has_push.mp hw with h2 | ⟨hk, rfl⟩
      · exact absurd (hI.uniq k i w v (has_remove.mp h2).2 h hwo (ho ▸ huo) (hpe.symm.trans hp))
          (has_remove.mp h2).1
      · rw [hj, hk]
  · intro j u hj huo huc
    rcases has_push.mp hj with h1 | ⟨_, rfl⟩
    · exact hI.block j u (has_remove.mp h1).2 huo huc
    · rcases hc with hc | hc
      · have := hI.block i v h (ho ▸ huo) (hc ▸ huc)
        rw [hf, hp, hc]
        exact this
      · exact absurd hc huc

theorem Inv.alloc {s : State} (hI : s.Inv) (len cap : Nat) : (s.alloc len cap).Inv := by
  refine ⟨?_, ?_, ?_⟩
  · intro j u hj
    have hlen : (s.alloc len cap).blocks.length = s.blocks.length + 1 := by simp [State.alloc]
    rw [hlen]
    rcases has_alloc.mp hj with h | ⟨_, rfl⟩
    · exact Nat.lt_succ_of_lt (hI.bound j u h)
    · exact Nat.lt_succ_self _
  · intro j k u w hu hw huo hwo hpe
    rcases has_alloc.mp hu with h1 | ⟨hj, rfl⟩
    · rcases has_alloc.mp hw with h2 | ⟨_, rfl⟩
      · exact hI.uniq j k u w h1 h2 huo hwo hpe
      · have := hI.bound j u h1
        simp only at hpe
        omega
    · rcases has_alloc.mp hw with h2 | ⟨hk, rfl⟩
      · have := hI.bound k w h2
        simp only at hpe
        omega
      · rw [hj, hk]
  · intro j u hj huo huc
    rcases has_alloc.mp hj with h | ⟨_, rfl⟩
    · obtain ⟨h1, h2⟩ := hI.block j u h huo huc
      refine ⟨h1, ?_⟩
      simp only [State.alloc]
      rw [List.getElem?_append_left (hI.bound j u h)]
      exact h2
    · simp [State.alloc]

/-! ## What a step does -/

/-- The possible effects of an operation on a state that satisfies the invariant. -/
inductive Effect (s : State) : Op → State → Prop
  | make {args len cap} (hread : ∀ i ∈ args, ∃ v, s.Has i v ∧ s.Live v.ptr) (hcap : len ≤ cap) :
      Effect s (.make args len cap) (s.alloc len cap)
  | view {x k shift len c v} (h : s.Has x v) (ha : v.kind = .array) :
      Effect s (.view x k shift len c)
        (s.push { v with off := v.off + shift, len := len, cap := k.cap v len, owned := false,
                         contiguous := c, lender := some x })
  | consume {x c v} (h : s.Has x v) (ha : v.kind = .array) (hb : ∀ j u, s.Has j u → u.lender ≠ some x) :
      Effect s (.consume x c) ((s.remove x).push { v with cap := 0, contiguous := c, lender := none })
  | intoVec {x v} (h : s.Has x v) (ha : v.kind = .array) (hb : ∀ j u, s.Has j u → u.lender ≠ some x)
      (ho : v.owned = true) :
      Effect s (.intoVec x) ((s.remove x).push { v with kind := .vector, lender := none })
  | intoVecPanic {x v} (h : s.Has x v) (ha : v.kind = .array)
      (hb : ∀ j u, s.Has j u → u.lender ≠ some x) :
      Effect s (.intoVec x)
        (if v.owned = true ∧ v.cap ≠ 0 then (s.remove x).kill v.ptr v.cap else s.remove x)
  | dataSlice {x v} (h : s.Has x v) (ha : v.kind = .array) :
      Effect s (.dataSlice x) (s.push { v with kind := .slice, owned := false, cap := 0, src := some x })
  | dataSlicePanic {x v} (h : s.Has x v) : Effect s (.dataSlice x) s
  | use {x v} (h : s.Has x v) (hl : s.Live v.ptr) : Effect s (.use x) s
  | drop {x v} (h : s.Has x v) (hb : ∀ j u, s.Has j u → u.lender ≠ some x) :
      Effect s (.drop x)
        (if v.owned = true ∧ v.cap ≠ 0 then (s.remove x).kill v.ptr v.cap else s.remove x)

theorem touchAll_ok {s : State} {is : List Nat} (h : s.touchAll is = .ok ()) :
    ∀ i ∈ is, ∃ v, s.Has i v ∧ s.Live v.ptr := by
  induction is with
  | nil => simp
  | cons i is ih =>
    unfold touchAll at h
    cases hg : s.get i with
    | error e => rw [hg] at h; cases h
    | ok v =>
      rw [hg] at h
      simp only [Bind.bind, Except.bind] at h
      rcases touch_cases s v with ⟨ht, hl⟩ | ⟨ht, hl⟩
      · rw [ht] at h
        intro j hj
        rcases List.mem_cons.mp hj with rfl | hj
        · exact ⟨v, get_ok.mp hg, hl⟩
        · exact ih h j hj
      · rw [ht] at h
        cases h

/-- An operation either has one of the effects above, or is rejected, or reads freed memory. -/
theorem Inv.step {s : State} (hI : s.Inv) (o : Op) :
    (∃ s', s.step o = .ok s' ∧ Effect s o s') ∨ s.step o = .error .rejected ∨
      (s.step o = .error (.fault .useAfterFree) ∧ ∃ i ∈ o.reads, ∃ v, s.Has i v ∧ ¬ s.Live v.ptr) := by
  have take_cases : ∀ x, (∃ v, s.take x = .ok (v, s.remove x) ∧ s.Has x v ∧
      ∀ j u, s.Has j u → u.lender ≠ some x) ∨ s.take x = .error .rejected := by
    intro x
    cases ht : s.take x with
    | error e =>
      cases e with
      | rejected => exact Or.inr rfl
      | fault f => exact absurd ht take_ne_fault
    | ok r =>
      obtain ⟨v, s'⟩ := r
      obtain ⟨h1, h2, rfl⟩ := take_ok.mp ht
      exact Or.inl ⟨v, rfl, h1, h2⟩
  have get_cases : ∀ x, (∃ v, s.get x = .ok v ∧ s.Has x v) ∨ s.get x = .error .rejected := by
    intro x
    cases ht : s.get x with
    | error e =>
      cases e with
      | rejected => exact Or.inr rfl
      | fault f => exact absurd ht get_ne_fault
    | ok v => exact Or.inl ⟨v, rfl, get_ok.mp ht⟩
  cases o with
  | make args len cap =>
    simp only [State.step]
    cases ht : s.touchAll args with
    | error e =>
      cases e with
      | rejected => exact Or.inr (Or.inl (by simp [ht, Bind.bind, Except.bind]))
      | fault f =>
        obtain ⟨rfl, h⟩ := touchAll_fault ht
        exact Or.inr (Or.inr ⟨by simp [ht, Bind.bind, Except.bind], h⟩)
    | ok u =>
      simp only [Bind.bind, Except.bind]
      by_cases hc : cap < len
      · exact Or.inr (Or.inl (by simp [hc, ht]))
      · exact Or.inl ⟨s.alloc len cap, by simp [hc, ht, State.alloc], .make (touchAll_ok ht) (by omega)⟩
  | view x k shift len c =>
    simp only [State.step]
    rcases get_cases x with ⟨v, hg, h⟩ | hg
    · rw [hg]
      simp only [Bind.bind, Except.bind]
      by_cases ha : v.kind = .array
      · exact Or.inl ⟨_, by rw [if_neg (by simp [ha])], .view h ha⟩
      · exact Or.inr (Or.inl (by simp [ha]))
    · rw [hg]
      exact Or.inr (Or.inl rfl)
  | consume x c =>
    simp only [State.step]
    rcases take_cases x with ⟨v, ht, h, hb⟩ | ht
    · rw [ht]
      simp only [Bind.bind, Except.bind]
      by_cases ha : v.kind = .array
      · exact Or.inl ⟨_, by rw [if_neg (by simp [ha])], .consume h ha hb⟩
      · exact Or.inr (Or.inl (by simp [ha]))
    · rw [ht]
      exact Or.inr (Or.inl rfl)
  | intoVec x =>
    simp only [State.step]
    rcases take_cases x with ⟨v, ht, h, hb⟩ | ht
    · rw [ht]
      simp only [Bind.bind, Except.bind]
      by_cases ha : v.kind = .array
      · rw [if_neg (by simp [ha])]
        by_cases hoc : (v.owned && v.contiguous) = true
        · rw [if_pos hoc]
          exact Or.inl ⟨_, rfl, .intoVec h ha hb (by simp at hoc; exact hoc.1)⟩
        · rw [if_neg hoc]
          exact Or.inl ⟨_, hI.release h _ rfl, .intoVecPanic h ha hb⟩
      · exact Or.inr (Or.inl (by simp [ha]))
    · rw [ht]
      exact Or.inr (Or.inl rfl)
  | dataSlice x =>
    simp only [State.step]
    rcases get_cases x with ⟨v, hg, h⟩ | hg
    · rw [hg]
      simp only [Bind.bind, Except.bind]
      by_cases ha : v.kind = .array
      · rw [if_neg (by simp [ha])]
        by_cases hc : v.contiguous = true
        · exact Or.inl ⟨_, by rw [if_pos hc], .dataSlice h ha⟩
        · exact Or.inl ⟨_, by rw [if_neg hc], .dataSlicePanic h⟩
      · exact Or.inr (Or.inl (by simp [ha]))
    · rw [hg]
      exact Or.inr (Or.inl rfl)
  | use x =>
    simp only [State.step]
    rcases get_cases x with ⟨v, hg, h⟩ | hg
    · rw [hg]
      simp only [Bind.bind, Except.bind]
      rcases touch_cases s v with ⟨ht, hl⟩ | ⟨ht, hl⟩
      · rw [ht]
        exact Or.inl ⟨_, rfl, .use h hl⟩
      · rw [ht]
        exact Or.inr (Or.inr ⟨rfl, x, by simp [Op.reads], v, h, hl⟩)
    · rw [hg]
      exact Or.inr (Or.inl rfl)
  | drop x =>
    simp only [State.step]
    rcases take_cases x with ⟨v, ht, h, hb⟩ | ht
    · rw [ht]
      simp only [Bind.bind, Except.bind]
      exact Or.inl ⟨_, hI.release h _ rfl, .drop h hb⟩
    · rw [ht]
      exact Or.inr (Or.inl rfl)

theorem Inv.dropped {s : State} (hI : s.Inv) {x : Nat} {v : Val} (h : s.Has x v) :
    State.Inv (if v.owned = true ∧ v.cap ≠ 0 then (s.remove x).kill v.ptr v.cap else s.remove x) := by
  split
  · rename_i hc
    exact hI.remove_kill h hc.1
  · exact hI.remove x

theorem Inv.effect {s s' : State} (hI : s.Inv) {o : Op} (h : Effect s o s') : s'.Inv := by
  cases h with
  | make _ _ => exact hI.alloc _ _
  | view h _ =>
    have hp := hI.bound _ _ h
    exact hI.push_view hp rfl
  | consume h _ _ => exact hI.move h rfl rfl rfl (Or.inr rfl)
  | intoVec h _ _ _ => exact hI.move h rfl rfl rfl (Or.inl rfl)
  | intoVecPanic h _ _ => exact hI.dropped h
  | dataSlice h _ =>
    have hp := hI.bound _ _ h
    exact hI.push_view hp rfl
  | dataSlicePanic _ => exact hI
  | use _ _ => exact hI
  | drop h _ => exact hI.dropped h

/-! ## Without laundering of lifetimes nothing reads freed memory -/

/-- On top of `Inv`: owners have live blocks, a view borrows from an older array of the same block, and a
slice points into the block of the array it was taken from. -/
structure Safe (s : State) : Prop extends Inv s where
  live : ∀ i v, s.Has i v → v.owned = true → s.Live v.ptr
  view : ∀ i v, s.Has i v → v.kind = .array → v.owned = false →
    ∃ w u, v.lender = some w ∧ w < i ∧ s.Has w u ∧ u.kind = .array ∧ u.ptr = v.ptr
  vec : ∀ i v, s.Has i v → v.kind = .vector → v.owned = true
  slice : ∀ i v, s.Has i v → v.kind = .slice → v.owned = false ∧ ∃ x, v.src = some x ∧ x < i ∧
    ∀ u, s.Has x u → u.kind = .array ∧ u.ptr = v.ptr
  free : ∀ i v, s.Has i v → v.owned = true → v.lender = none

theorem Safe.init : Safe State.init :=
  { Inv.init with
    live := by intro i v h; simp [Has, State.init] at h
    view := by intro i v h; simp [Has, State.init] at h
    vec := by intro i v h; simp [Has, State.init] at h
    slice := by intro i v h; simp [Has, State.init] at h
    free := by intro i v h; simp [Has, State.init] at h }

/-- Every array hangs on an owner of its block. -/
theorem Safe.root {s : State} (hS : s.Safe) : ∀ i v, s.Has i v → v.kind = .array →
    ∃ r u, s.Has r u ∧ u.owned = true ∧ u.ptr = v.ptr ∧
      (r = i ∨ ∃ j w, s.Has j w ∧ w.lender = some r) := by
  intro i
  induction i using Nat.strongRecOn with
  | _ i ih =>
    intro v h ha
    by_cases ho : v.owned = true
    · exact ⟨i, v, h, ho, rfl, Or.inl rfl⟩
    · obtain ⟨w, u, hl, hlt, hw, hk, hp⟩ := hS.view i v h ha (by simpa using ho)
      obtain ⟨r, t, hr, hto, htp, hor⟩ := ih w hlt u hw hk
      refine ⟨r, t, hr, hto, htp.trans hp, Or.inr ?_⟩
      rcases hor with rfl | hor
      · exact ⟨i, v, h, hl⟩
      · exact hor

theorem Safe.live_array {s : State} (hS : s.Safe) {i : Nat} {v : Val} (h : s.Has i v)
    (ha : v.kind = .array) : s.Live v.ptr := by
  obtain ⟨r, u, hr, ho, hp, _⟩ := hS.root i v h ha
  exact hp ▸ hS.live r u hr ho

theorem Live.alloc {s : State} {p : Nat} (h : s.Live p) (len cap : Nat) : (s.alloc len cap).Live p := by
  obtain ⟨b, hb, hl⟩ := h
  refine ⟨b, ?_, hl⟩
  simp only [State.alloc]
  rw [List.getElem?_append_left (List.getElem?_eq_some_iff.mp hb).1]
  exact hb

theorem Live.kill {s : State} {p q cap : Nat} (h : s.Live p) (hne : q ≠ p) : (s.kill q cap).Live p := by
  obtain ⟨b, hb, hl⟩ := h
  refine ⟨b, ?_, hl⟩
  simp only [State.kill, List.getElem?_set, hne, if_false]
  exact hb

/-- Dropping a value that nobody borrows. -/
theorem Safe.remove {s : State} (hS : s.Safe) {x : Nat}
    (hb : ∀ j u, s.Has j u → u.lender ≠ some x) : (s.remove x).Safe where
  toInv := hS.toInv.remove x
  live i v h := hS.live i v (has_remove.mp h).2
  view i v h ha ho := by
    obtain ⟨hne, h'⟩ := has_remove.mp h
    obtain ⟨w, u, hl, hlt, hw, hk, hp⟩ := hS.view i v h' ha ho
    refine ⟨w, u, hl, hlt, has_remove.mpr ⟨?_, hw⟩, hk, hp⟩
    rintro rfl
    exact hb i v h' hl
  vec i v h := hS.vec i v (has_remove.mp h).2
  slice i v h hk := by
    obtain ⟨ho, y, hy, hlt, hu⟩ := hS.slice i v (has_remove.mp h).2 hk
    exact ⟨ho, y, hy, hlt, fun u hu' => hu u (has_remove.mp hu').2⟩
  free i v h := hS.free i v (has_remove.mp h).2

/-- Dropping an owner that nobody borrows, and freeing its block. -/
theorem Safe.remove_kill {s : State} (hS : s.Safe) {x : Nat} {v : Val} (h : s.Has x v)
    (ho : v.owned = true) (hb : ∀ j u, s.Has j u → u.lender ≠ some x) :
    ((s.remove x).kill v.ptr v.cap).Safe := by
  have hR := hS.remove hb
  refine { hS.toInv.remove_kill h ho with live := ?_, view := ?_, vec := ?_, slice := ?_, free := ?_ }
  · intro i u hi huo
    have hi' := has_kill.mp hi
    refine (hR.live i u hi' huo).kill ?_
    intro hp
    exact (has_remove.mp hi').1 (hS.uniq i x u v (has_remove.mp hi').2 h huo ho hp.symm)
  · intro i u hi hk huo
    exact hR.view i u (has_kill.mp hi) hk huo
  · intro i u hi
    exact hR.vec i u (has_kill.mp hi)
  · intro i u hi hk
    exact hR.slice i u (has_kill.mp hi) hk
  · intro i u hi
    exact hR.free i u (has_kill.mp hi)

theorem Safe.dropped {s : State} (hS : s.Safe) {x : Nat} {v : Val} (h : s.Has x v)
    (hb : ∀ j u, s.Has j u → u.lender ≠ some x) :
    State.Safe (if v.owned = true ∧ v.cap ≠ 0 then (s.remove x).kill v.ptr v.cap else s.remove x) := by
  split
  · rename_i hc
    exact hS.remove_kill h hc.1 hb
  · exact hS.remove hb

theorem Safe.alloc {s : State} (hS : s.Safe) (len cap : Nat) : (s.alloc len cap).Safe := by
  refine { hS.toInv.alloc len cap with live := ?_, view := ?_, vec := ?_, slice := ?_, free := ?_ }
  · intro i v h ho
    rcases has_alloc.mp h with h | ⟨_, rfl⟩
    · exact (hS.live i v h ho).alloc len cap
    · exact ⟨⟨cap, true⟩, by simp [State.alloc], rfl⟩
  · intro i v h ha ho
    rcases has_alloc.mp h with h | ⟨_, rfl⟩
    · obtain ⟨w, u, hl, hlt, hw, hk, hp⟩ := hS.view i v h ha ho
      exact ⟨w, u, hl, hlt, has_alloc.mpr (Or.inl hw), hk, hp⟩
    · cases ho
  · intro i v h hk
    rcases has_alloc.mp h with h | ⟨_, rfl⟩
    · exact hS.vec i v h hk
    · rfl
  · intro i v h hk
    rcases has_alloc.mp h with h | ⟨_, rfl⟩
    · obtain ⟨ho, y, hy, hlt, hu⟩ := hS.slice i v h hk
      refine ⟨ho, y, hy, hlt, fun u hu' => ?_⟩
      rcases has_alloc.mp hu' with hu' | ⟨he, _⟩
      · exact hu u hu'
      · have := has_lt h
        omega
    · cases hk
  · intro i v h ho
    rcases has_alloc.mp h with h | ⟨_, rfl⟩
    · exact hS.free i v h ho
    · rfl

/-- A new handle with nothing borrowed from it, given what `Safe` asks of it. -/
theorem Safe.push {s : State} (hS : s.Safe) {v : Val} (hI : (s.push v).Inv)
    (hlive : v.owned = true → s.Live v.ptr)
    (hview : v.kind = .array → v.owned = false →
      ∃ w u, v.lender = some w ∧ s.Has w u ∧ u.kind = .array ∧ u.ptr = v.ptr)
    (hvec : v.kind = .vector → v.owned = true)
    (hslice : v.kind = .slice → v.owned = false ∧ ∃ x u, v.src = some x ∧ s.Has x u ∧ u.kind = .array ∧
      u.ptr = v.ptr)
    (hfree : v.owned = true → v.lender = none) : (s.push v).Safe := by
  refine { hI with live := ?_, view := ?_, vec := ?_, slice := ?_, free := ?_ }
  · intro i u h ho
    rcases has_push.mp h with h | ⟨_, rfl⟩
    · exact hS.live i u h ho
    · exact hlive ho
  · intro i u h ha ho
    rcases has_push.mp h with h | ⟨rfl, rfl⟩
    · obtain ⟨w, t, hl, hlt, hw, hk, hp⟩ := hS.view i u h ha ho
      exact ⟨w, t, hl, hlt, has_push.mpr (Or.inl hw), hk, hp⟩
    · obtain ⟨w, t, hl, hw, hk, hp⟩ := hview ha ho
      exact ⟨w, t, hl, has_lt hw, has_push.mpr (Or.inl hw), hk, hp⟩
  · intro i u h hk
    rcases has_push.mp h with h | ⟨_, rfl⟩
    · exact hS.vec i u h hk
    · exact hvec hk
  · intro i u h hk
    rcases has_push.mp h with h | ⟨rfl, rfl⟩
    · obtain ⟨ho, y, hy, hlt, hu⟩ := hS.slice i u h hk
      refine ⟨ho, y, hy, hlt, fun t ht => ?_⟩
      rcases has_push.mp ht with ht | ⟨he, _⟩
      · exact hu t ht
      · have := has_lt h
        omega
    · obtain ⟨ho, x, t, hx, ht, hk', hp⟩ := hslice hk
      refine ⟨ho, x, hx, has_lt ht, fun w hw => ?_⟩
      rcases has_push.mp hw with hw | ⟨he, _⟩
      · obtain rfl := ht.unique hw
        exact ⟨hk', hp⟩
      · have := has_lt ht
        omega
  · intro i u h ho
    rcases has_push.mp h with h | ⟨_, rfl⟩
    · exact hS.free i u h ho
    · exact hfree ho

theorem Safe.effect {s s' : State} (hS : s.Safe) {o : Op} (ht : s.Tame o) (h : Effect s o s') :
    s'.Safe := by
  have hI' := hS.toInv.effect h
  cases h with
  | make _ _ => exact hS.alloc _ _
  | view h ha =>
    exact hS.push hI' (by simp) (fun _ _ => ⟨_, _, rfl, h, ha, rfl⟩) (by simp [ha]) (by simp [ha]) (by simp)
  | @consume x c v h ha hb =>
    have hl := ht.1 x c rfl v h
    have ho : v.owned = true := by
      cases ho : v.owned with
      | true => rfl
      | false =>
        obtain ⟨w, u, hw, _⟩ := hS.view x v h ha ho
        rw [hl] at hw
        cases hw
    exact (hS.remove hb).push hI' (fun _ => hS.live x v h ho) (fun _ h' => by simp [ho] at h')
      (by simp [ha]) (by simp [ha]) (fun _ => rfl)
  | intoVec h ha hb ho =>
    have hl := hS.live _ _ h ho
    exact (hS.remove hb).push hI' (fun _ => hl) (by simp) (fun _ => ho) (by simp)
      (fun _ => rfl)
  | intoVecPanic h _ hb => exact hS.dropped h hb
  | dataSlice h ha =>
    exact hS.push hI' (by simp) (by simp) (by simp) (fun _ => ⟨rfl, _, _, rfl, h, ha, rfl⟩) (by simp)
  | dataSlicePanic _ => exact hS
  | use _ _ => exact hS
  | drop h hb => exact hS.dropped h hb

/-- Under the discipline an operation either succeeds or does not compile. -/
theorem Safe.step {s : State} (hS : s.Safe) {o : Op} (ht : s.Tame o) :
    (∃ s', s.step o = .ok s' ∧ Effect s o s') ∨ s.step o = .error .rejected := by
  rcases hS.toInv.step o with h | h | ⟨_, i, hi, v, hv, hd⟩
  · exact Or.inl h
  · exact Or.inr h
  · exfalso
    cases hk : v.kind with
    | array => exact hd (hS.live_array hv hk)
    | vector => exact hd (hS.live i v hv (hS.vec i v hv hk))
    | slice =>
      obtain ⟨_, y, hy, _, hu⟩ := hS.slice i v hv hk
      obtain ⟨u, hu'⟩ := ht.2 i hi v y hv hk hy
      obtain ⟨ha, hp⟩ := hu u hu'
      exact hd (hp ▸ hS.live_array hu' ha)

/-! ## Without reshaping by value nothing leaks -/

/-- On top of `Safe`: every owner records the capacity of its block, and a live block has an owner. -/
structure Tight (s : State) : Prop extends Safe s where
  cap : ∀ i v, s.Has i v → v.owned = true → s.blocks[v.ptr]? = some ⟨v.cap, true⟩
  owner : ∀ p b, s.blocks[p]? = some b → b.live = true → 0 < b.cap →
    ∃ i v, s.Has i v ∧ v.owned = true ∧ v.ptr = p

theorem Tight.init : Tight State.init :=
  { Safe.init with
    cap := by intro i v h; simp [Has, State.init] at h
    owner := by intro p b h; simp [State.init] at h }

theorem Tight.dropped {s : State} (hT : s.Tight) {x : Nat} {v : Val} (h : s.Has x v)
    (hb : ∀ j u, s.Has j u → u.lender ≠ some x) :
    State.Tight (if v.owned = true ∧ v.cap ≠ 0 then (s.remove x).kill v.ptr v.cap else s.remove x) := by
  have hS := hT.toSafe.dropped h hb
  refine { hS with cap := ?_, owner := ?_ }
  · intro i u hi hu
    split at hi
    · rename_i hc
      rw [if_pos hc]
      obtain ⟨hne, hi'⟩ := has_remove.mp (has_kill.mp hi)
      have hp : v.ptr ≠ u.ptr := fun hp => hne (hT.uniq i x u v hi' h hu hc.1 hp.symm)
      simp only [kill, State.remove, List.getElem?_set, hp, if_false]
      exact hT.cap i u hi' hu
    · rename_i hc
      rw [if_neg hc]
      exact hT.cap i u (has_remove.mp hi).2 hu
  · intro p b hp hl hpos
    split at hp
    · rename_i hc
      rw [if_pos hc]
      simp only [kill, State.remove, List.getElem?_set] at hp
      split at hp
      · split at hp
        · simp only [Option.some.injEq] at hp
          subst hp
          cases hl
        · cases hp
      · rename_i hne
        obtain ⟨i, u, hi, hu, hup⟩ := hT.owner p b hp hl hpos
        refine ⟨i, u, has_kill.mpr (has_remove.mpr ⟨?_, hi⟩), hu, hup⟩
        rintro rfl
        exact hne (by rw [h.unique hi]; exact hup)
    · rename_i hc
      rw [if_neg hc]
      obtain ⟨i, u, hi, hu, hup⟩ := hT.owner p b hp hl hpos
      refine ⟨i, u, has_remove.mpr ⟨?_, hi⟩, hu, hup⟩
      rintro rfl
      obtain rfl := h.unique hi
      have hcap := hT.cap i v hi hu
      rw [hup] at hcap
      have hbc : b = ⟨v.cap, true⟩ := by
        have : s.blocks[p]? = some b := hp
        rw [hcap] at this
        simpa using this.symm
      subst hbc
      exact hc ⟨hu, by simp at hpos; omega⟩

theorem Tight.effect {s s' : State} (hT : s.Tight) {o : Op} (ht : s.Tame o)
    (hnc : ∀ x c, o ≠ .consume x c) (h : Effect s o s') : s'.Tight := by
  have hS' := hT.toSafe.effect ht h
  have push_view : ∀ v : Val, v.owned = false → (s.push v).Safe → (s.push v).Tight := by
    intro v hv hS
    refine { hS with cap := ?_, owner := ?_ }
    · intro i u hi hu
      rcases has_push.mp hi with hi | ⟨_, rfl⟩
      · exact hT.cap i u hi hu
      · simp [hv] at hu
    · intro p b hp hl hpos
      obtain ⟨i, u, hi, hu⟩ := hT.owner p b hp hl hpos
      exact ⟨i, u, has_push.mpr (Or.inl hi), hu⟩
  cases h with
  | @make args len cap _ _ =>
    refine { hS' with cap := ?_, owner := ?_ }
    · intro i u hi hu
      rcases has_alloc.mp hi with hi | ⟨_, rfl⟩
      · simp only [State.alloc]
        rw [List.getElem?_append_left (hT.bound i u hi)]
        exact hT.cap i u hi hu
      · simp [State.alloc]
    · intro p b hp hl hpos
      simp only [State.alloc, List.getElem?_append] at hp
      split at hp
      · obtain ⟨i, u, hi, hu⟩ := hT.owner p b hp hl hpos
        exact ⟨i, u, has_alloc.mpr (Or.inl hi), hu⟩
      · rename_i hlt
        refine ⟨s.vals.length, _, has_alloc.mpr (Or.inr ⟨rfl, rfl⟩), rfl, ?_⟩
        have := (List.getElem?_eq_some_iff.mp hp).1
        simp at this
        simp only
        omega
  | view _ _ => exact push_view _ rfl hS'
  | @consume x c => exact absurd rfl (hnc x c)
  | @intoVec x v h ha hb ho =>
    refine { hS' with cap := ?_, owner := ?_ }
    · intro i u hi hu
      rcases has_push.mp hi with hi | ⟨_, rfl⟩
      · exact hT.cap i u (has_remove.mp hi).2 hu
      · exact hT.cap x v h ho
    · intro p b hp hl hpos
      obtain ⟨i, u, hi, hu, hup⟩ := hT.owner p b hp hl hpos
      by_cases hix : i = x
      · subst hix
        obtain rfl := h.unique hi
        exact ⟨(s.remove i).vals.length, _, has_push.mpr (Or.inr ⟨rfl, rfl⟩), ho, hup⟩
      · exact ⟨i, u, has_push.mpr (Or.inl (has_remove.mpr ⟨hix, hi⟩)), hu, hup⟩
  | intoVecPanic h _ hb => exact hT.dropped h hb
  | dataSlice _ _ => exact push_view _ rfl hS'
  | dataSlicePanic _ => exact hT
  | use _ _ => exact hT
  | drop h hb => exact hT.dropped h hb

/-! ## Histories -/

theorem run_cons (s : State) (o : Op) (os : List Op) :
    s.run (o :: os) = (s.step o >>= fun s' => s'.run os) := rfl

theorem Inv.run {s : State} (hI : s.Inv) (os : List Op) :
    (∃ s', s.run os = .ok s' ∧ s'.Inv) ∨ s.run os = .error .rejected ∨
      s.run os = .error (.fault .useAfterFree) := by
  induction os generalizing s with
  | nil => exact Or.inl ⟨s, rfl, hI⟩
  | cons o os ih =>
    rw [run_cons]
    rcases hI.step o with ⟨s', h, he⟩ | h | ⟨h, _⟩
    · rw [h]
      exact ih (hI.effect he)
    · rw [h]
      exact Or.inr (Or.inl rfl)
    · rw [h]
      exact Or.inr (Or.inr rfl)

theorem Safe.run {s : State} (hS : s.Safe) (os : List Op) (ht : Along Tame s os) :
    (∃ s', s.run os = .ok s' ∧ s'.Safe) ∨ s.run os = .error .rejected := by
  induction os generalizing s with
  | nil => exact Or.inl ⟨s, rfl, hS⟩
  | cons o os ih =>
    rw [run_cons]
    rcases hS.step ht.1 with ⟨s', h, he⟩ | h
    · rw [h]
      exact ih (hS.effect ht.1 he) (ht.2 s' h)
    · rw [h]
      exact Or.inr rfl

theorem Tight.run {s : State} (hT : s.Tight) (os : List Op) (ht : Along Tame s os)
    (hnc : ∀ o ∈ os, ∀ x c, o ≠ .consume x c) :
    (∃ s', s.run os = .ok s' ∧ s'.Tight) ∨ s.run os = .error .rejected := by
  induction os generalizing s with
  | nil => exact Or.inl ⟨s, rfl, hT⟩
  | cons o os ih =>
    rw [run_cons]
    rcases hT.toSafe.step ht.1 with ⟨s', h, he⟩ | h
    · rw [h]
      exact ih (hT.effect ht.1 (hnc o List.mem_cons_self) he) (ht.2 s' h)
        (fun o' ho' => hnc o' (List.mem_cons_of_mem _ ho'))
    · rw [h]
      exact Or.inr rfl

/-! ## A buffer reshaped by value is never freed -/

/-- Block `p` is live and no owner of it will free it. -/
structure Lost (s : State) (p : Nat) : Prop extends Inv s where
  alive : s.Live p
  zero : ∀ i v, s.Has i v → v.owned = true → v.ptr = p → v.cap = 0

theorem Lost.effect {s s' : State} {p : Nat} (hL : s.Lost p) {o : Op} (h : Effect s o s') : s'.Lost p := by
  have hI' := hL.toInv.effect h
  have drop_case : ∀ (x : Nat) (v : Val), s.Has x v → 
      State.Inv (if v.owned = true ∧ v.cap ≠ 0 then (s.remove x).kill v.ptr v.cap else s.remove x) →
      State.Lost (if v.owned = true ∧ v.cap ≠ 0 then (s.remove x).kill v.ptr v.cap else s.remove x) p := by
    intro x v hv hI
    split
    · rename_i hc
      rw [if_pos hc] at hI
      refine { hI with alive := ?_, zero := ?_ }
      · refine Live.kill (s := s.remove x) hL.alive ?_
        intro hp
        exact hc.2 (hL.zero x v hv hc.1 hp)
      · intro i u hi
        exact hL.zero i u (has_remove.mp (has_kill.mp hi)).2
    · rename_i hc
      rw [if_neg hc] at hI
      exact { hI with alive := hL.alive, zero := fun i u hi => hL.zero i u (has_remove.mp hi).2 }
  cases h with
  | make _ _ =>
    refine { hI' with alive := hL.alive.alloc _ _, zero := ?_ }
    intro i v h ho hp
    rcases has_alloc.mp h with h | ⟨_, rfl⟩
    · exact hL.zero i v h ho hp
    · obtain ⟨b, hb, _⟩ := hL.alive
      have := (List.getElem?_eq_some_iff.mp hb).1
      simp only at hp
      omega
  | view _ _ =>
    refine { hI' with alive := hL.alive, zero := ?_ }
    intro i v h ho hp
    rcases has_push.mp h with h | ⟨_, rfl⟩
    · exact hL.zero i v h ho hp
    · cases ho
  | consume _ _ _ =>
    refine { hI' with alive := hL.alive, zero := ?_ }
    intro i v h ho hp
    rcases has_push.mp h with h | ⟨_, rfl⟩
    · exact hL.zero i v (has_remove.mp h).2 ho hp
    · rfl
  | intoVec hv _ _ ho' =>
    refine { hI' with alive := hL.alive, zero := ?_ }
    intro i v h ho hp
    rcases has_push.mp h with h | ⟨_, rfl⟩
    · exact hL.zero i v (has_remove.mp h).2 ho hp
    · have hz := hL.zero _ _ hv ho' hp
      exact hz
  | intoVecPanic h _ _ => exact drop_case _ _ h hI'
  | dataSlice _ _ =>
    refine { hI' with alive := hL.alive, zero := ?_ }
    intro i v h ho hp
    rcases has_push.mp h with h | ⟨_, rfl⟩
    · exact hL.zero i v h ho hp
    · cases ho
  | dataSlicePanic _ => exact hL
  | use _ _ => exact hL
  | drop h _ => exact drop_case _ _ h hI'

theorem Lost.run {s s' : State} {p : Nat} (hL : s.Lost p) {os : List Op} (h : s.run os = .ok s') :
    s'.Lost p := by
  induction os generalizing s with
  | nil =>
    simp only [State.run, Except.ok.injEq] at h
    exact h ▸ hL
  | cons o os ih =>
    rw [run_cons] at h
    rcases hL.toInv.step o with ⟨t, ht, he⟩ | ht | ⟨ht, _⟩
    · rw [ht] at h
      exact ih (hL.effect he) h
    · rw [ht] at h; cases h
    · rw [ht] at h; cases h

end State
end Verif.Own
