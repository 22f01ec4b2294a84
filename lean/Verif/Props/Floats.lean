import Verif.Model.Floats
import Verif.Props.Reduce

/-!
# C61 NaN and infinities in min, max and the magnitudes
-/

namespace Verif

/-- three rows of two; the middle row holds a NaN -/
def fltDemo (i : List Nat) : Flt Int := if i = [1, 0] then .nan else .num (i.getD 0 0 - i.getD 1 0)

/-! ## Specification -/

/-- The values that are numbers, in order. -/
def numbers {K : Type} : List (Flt K) → List K
  | [] => []
  | .nan :: l => numbers l
  | .num x :: l => x :: numbers l

/-- `r` is the greatest of `l`, or `start` if that lies above all of `l`. -/
def IsMaxFrom {K : Type} [LE K] (r start : K) (l : List K) : Prop := r ∈ start :: l ∧ ∀ x ∈ start :: l, x ≤ r

/-- `r` is the least of `l`, or `start` if that lies below all of `l`. -/
def IsMinFrom {K : Type} [LE K] (r start : K) (l : List K) : Prop := r ∈ start :: l ∧ ∀ x ∈ start :: l, r ≤ x

/-- With a start value not above every number, `IsMaxFrom` is the greatest number. -/
theorem IsMaxFrom.mem {K : Type} [LinearOrder K] {r start : K} {l : List K} (h : IsMaxFrom r start l) {x : K} (hx : x ∈ l)
    (hs : start ≤ x) : r ∈ l := by
  rcases List.mem_cons.1 h.1 with e | e
  · have := h.2 x (List.mem_cons_of_mem _ hx)
    rw [show r = x from le_antisymm (e ▸ hs) this]; exact hx
  · exact e

theorem IsMinFrom.mem {K : Type} [LinearOrder K] {r start : K} {l : List K} (h : IsMinFrom r start l) {x : K} (hx : x ∈ l)
    (hs : x ≤ start) : r ∈ l := by
  rcases List.mem_cons.1 h.1 with e | e
  · have := h.2 x (List.mem_cons_of_mem _ hx)
    rw [show r = x from le_antisymm this (e ▸ hs)]; exact hx
  · exact e

/-- The part of a list after its last NaN. -/
def afterLastNaN {K : Type} (l : List (Flt K)) (tail : List K) : Prop := ∃ front, l = front ++ .nan :: tail.map .num

/-! ## Folds -/

section
variable {K : Type} [LinearOrder K]

theorem fold_maxFloat (l : List (Flt K)) (start : K) :
    ∃ r, l.foldl (fun acc v => partialMax Flt.lt v acc) (.num start) = .num r ∧ IsMaxFrom r start (numbers l) := by
  induction l generalizing start with
  | nil => exact ⟨start, rfl, by simp [numbers, IsMaxFrom]⟩
  | cons v l ih =>
    cases v with
    | nan => exact ih start
    | num x =>
      rcases lt_or_ge start x with h | h
      · obtain ⟨r, h1, h2, h3⟩ := ih x
        refine ⟨r, ?_, ?_, ?_⟩
        · rw [List.foldl_cons, ← h1]; simp [partialMax, Flt.lt, h]
        · exact List.mem_cons_of_mem _ h2
        · intro y hy
          rcases List.mem_cons.1 hy with rfl | hy
          · exact le_trans (le_of_lt h) (h3 x (by simp))
          · exact h3 y hy
      · obtain ⟨r, h1, h2, h3⟩ := ih start
        refine ⟨r, ?_, ?_, ?_⟩
        · rw [List.foldl_cons, ← h1]; simp [partialMax, Flt.lt, not_lt.2 h]
        · rcases List.mem_cons.1 h2 with e | e
          · simp [e]
          · exact List.mem_cons_of_mem _ (List.mem_cons_of_mem _ e)
        · intro y hy
          rcases List.mem_cons.1 hy with rfl | hy
          · exact h3 _ (by simp)
          · rcases List.mem_cons.1 hy with rfl | hy
            · exact le_trans h (h3 start (by simp))
            · exact h3 y (List.mem_cons_of_mem _ hy)

theorem fold_minFloat (l : List (Flt K)) (start : K) :
    ∃ r, l.foldl (fun acc v => partialMin Flt.lt v acc) (.num start) = .num r ∧ IsMinFrom r start (numbers l) := by
  induction l generalizing start with
  | nil => exact ⟨start, rfl, by simp [numbers, IsMinFrom]⟩
  | cons v l ih =>
    cases v with
    | nan => exact ih start
    | num x =>
      rcases lt_or_ge x start with h | h
      · obtain ⟨r, h1, h2, h3⟩ := ih x
        refine ⟨r, ?_, ?_, ?_⟩
        · rw [List.foldl_cons, ← h1]; simp [partialMin, Flt.lt, h]
        · exact List.mem_cons_of_mem _ h2
        · intro y hy
          rcases List.mem_cons.1 hy with rfl | hy
          · exact le_trans (h3 x (by simp)) (le_of_lt h)
          · exact h3 y hy
      · obtain ⟨r, h1, h2, h3⟩ := ih start
        refine ⟨r, ?_, ?_, ?_⟩
        · rw [List.foldl_cons, ← h1]; simp [partialMin, Flt.lt, not_lt.2 h]
        · rcases List.mem_cons.1 h2 with e | e
          · simp [e]
          · exact List.mem_cons_of_mem _ (List.mem_cons_of_mem _ e)
        · intro y hy
          rcases List.mem_cons.1 hy with rfl | hy
          · exact h3 _ (by simp)
          · rcases List.mem_cons.1 hy with rfl | hy
            · exact le_trans (h3 start (by simp)) h
            · exact h3 y (List.mem_cons_of_mem _ hy)

/-- On numbers the magnitude steps are the plain steps on absolute values. -/
theorem fold_maxMagFloat (abs : K → K) (l : List K) (start : K) :
    (l.map Flt.num).foldl (fun acc v => partialMaxMagnitude Flt.lt (Flt.abs abs) v acc) (.num start) =
      .num ((l.map abs).foldl (fun acc v => max v acc) start) := by
  induction l generalizing start with
  | nil => rfl
  | cons x l ih =>
    rw [List.map_cons, List.foldl_cons, List.map_cons, List.foldl_cons, ← ih]
    congr 1
    simp only [partialMaxMagnitude, Flt.abs, Flt.lt, decide_eq_true_eq]
    rcases lt_or_ge (abs x) start with h | h
    · rw [if_pos h, max_eq_right (le_of_lt h)]
    · rw [if_neg (not_lt.2 h), max_eq_left h]

theorem fold_minMagFloat (abs : K → K) (l : List K) (start : K) :
    (l.map Flt.num).foldl (fun acc v => partialMinMagnitude Flt.lt (Flt.abs abs) v acc) (.num start) =
      .num ((l.map abs).foldl (fun acc v => min v acc) start) := by
  induction l generalizing start with
  | nil => rfl
  | cons x l ih =>
    rw [List.map_cons, List.foldl_cons, List.map_cons, List.foldl_cons, ← ih]
    congr 1
    simp only [partialMinMagnitude, Flt.abs, Flt.lt, decide_eq_true_eq]
    rcases lt_or_ge start (abs x) with h | h
    · rw [if_pos h, min_eq_right (le_of_lt h)]
    · rw [if_neg (not_lt.2 h), min_eq_left h]

theorem isMaxFrom_fold (l : List K) (start : K) : IsMaxFrom (l.foldl (fun acc v => max v acc) start) start l := by
  induction l generalizing start with
  | nil => simp [IsMaxFrom]
  | cons x l ih =>
    obtain ⟨h1, h2⟩ := ih (max x start)
    refine ⟨?_, fun y hy => ?_⟩
    · rw [List.foldl_cons]
      rcases List.mem_cons.1 h1 with e | e
      · rw [e]; rcases max_choice x start with h | h <;> simp [h]
      · exact List.mem_cons_of_mem _ (List.mem_cons_of_mem _ e)
    · have h0 := h2 (max x start) (by simp)
      rcases List.mem_cons.1 hy with rfl | hy
      · exact le_trans (le_max_right _ _) h0
      · rcases List.mem_cons.1 hy with rfl | hy
        · exact le_trans (le_max_left _ _) h0
        · exact h2 y (List.mem_cons_of_mem _ hy)

theorem isMinFrom_fold (l : List K) (start : K) : IsMinFrom (l.foldl (fun acc v => min v acc) start) start l := by
  induction l generalizing start with
  | nil => simp [IsMinFrom]
  | cons x l ih =>
    obtain ⟨h1, h2⟩ := ih (min x start)
    refine ⟨?_, fun y hy => ?_⟩
    · rw [List.foldl_cons]
      rcases List.mem_cons.1 h1 with e | e
      · rw [e]; rcases min_choice x start with h | h <;> simp [h]
      · exact List.mem_cons_of_mem _ (List.mem_cons_of_mem _ e)
    · have h0 := h2 (min x start) (by simp)
      rcases List.mem_cons.1 hy with rfl | hy
      · exact le_trans h0 (min_le_right _ _)
      · rcases List.mem_cons.1 hy with rfl | hy
        · exact le_trans h0 (min_le_left _ _)
        · exact h2 y (List.mem_cons_of_mem _ hy)

/-- A step that returns the absolute value of `v` unless the accumulator compares: after a NaN the fold starts afresh. -/
theorem fold_afterNaN (step : Flt K → Flt K → Flt K) (abs : K → K) (hn : ∀ acc, step .nan acc = .nan)
    (hs : ∀ x, step (.num x) .nan = .num (abs x)) (front : List (Flt K)) (tail : List K) (init : Flt K) :
    (front ++ Flt.nan :: tail.map Flt.num).foldl (fun acc v => step v acc) init =
      match tail with
      | [] => .nan
      | x :: rest => (rest.map Flt.num).foldl (fun acc v => step v acc) (.num (abs x)) := by
  rw [List.foldl_append, List.foldl_cons, hn]
  cases tail with
  | nil => rfl
  | cons x rest => rw [List.map_cons, List.foldl_cons, hs]

/-! ## C61 -/

/-- **C61** (part). `max()` ignores NaN: the result is a number, the greatest of the elements that are numbers, or the finite start
value if that is greater than all of them. Missing (here and below): the broadcast views excluded in C09, and the start value: it
should be minus infinity (`C61_infinity_false`). -/
theorem C61_max_partial (bot : K) {a : Arr (Flt K)} {s : List Nat} {f : List Nat → Flt K} (ha : a.Denotes s f)
    (hd : s.length ≤ 32) (hg : Reducible s a.stride) :
    ∃ r v, a.maxFloat bot = .ok r ∧ r.Denotes [] (fun _ => .num v) ∧ IsMaxFrom v bot (numbers (elements s f)) := by
  obtain ⟨r, h1, h2⟩ := C09_reduce_partial (partialMax Flt.lt) (.num bot) ha hd hg
  obtain ⟨v, h3, h4⟩ := fold_maxFloat (elements s f) bot
  exact ⟨r, v, h1, h2.congr fun _ _ => h3, h4⟩

example := C61_max_partial (-2147483648) (denotes_fromContiguous (s := [3, 2]) (f := fltDemo)) (by decide) (.inr (by decide))

/-- **C61** (part). `min()` ignores NaN. -/
theorem C61_min_partial (top : K) {a : Arr (Flt K)} {s : List Nat} {f : List Nat → Flt K} (ha : a.Denotes s f)
    (hd : s.length ≤ 32) (hg : Reducible s a.stride) :
    ∃ r v, a.minFloat top = .ok r ∧ r.Denotes [] (fun _ => .num v) ∧ IsMinFrom v top (numbers (elements s f)) := by
  obtain ⟨r, h1, h2⟩ := C09_reduce_partial (partialMin Flt.lt) (.num top) ha hd hg
  obtain ⟨v, h3, h4⟩ := fold_minFloat (elements s f) top
  exact ⟨r, v, h1, h2.congr fun _ _ => h3, h4⟩

example := C61_min_partial 2147483647 (denotes_fromContiguous (s := [3, 2]) (f := fltDemo)) (by decide) (.inr (by decide))

/-- **C61** (part). `max_along` ignores NaN, for every layout. -/
theorem C61_max_along_partial (bot : K) {a : Arr (Flt K)} {s : List Nat} {f : List Nat → Flt K} (ha : a.Denotes s f)
    (hd : s.length ≤ 32) {axes : List Int} {ks : List Nat} (hax : AxesAre axes s.length ks) (hnd : ks.Nodup) :
    ∃ r, ∃ g : List Nat → K, a.maxAlongFloat bot axes = .ok r ∧ r.Denotes (dropAxes ks s) (fun J => .num (g J)) ∧
      ∀ J, IsMaxFrom (g J) bot (numbers ((fibre ks s J).map f)) := by
  obtain ⟨r, h1, h2⟩ := C10_reduce_along (partialMax Flt.lt) ha hd hax hnd (.num bot)
  choose g h3 h4 using fun J => fold_maxFloat ((fibre ks s J).map f) bot
  exact ⟨r, g, h1, h2.congr fun J _ => h3 J, h4⟩

example := C61_max_along_partial (-2147483648) (denotes_fromContiguous (s := [3, 2]) (f := fltDemo)) (by decide) (axes := [-1]) (ks := [1])
  ⟨⟨by decide, by decide⟩, trivial⟩ (by decide)

/-- **C61** (part). `min_along` ignores NaN, for every layout. -/
theorem C61_min_along_partial (top : K) {a : Arr (Flt K)} {s : List Nat} {f : List Nat → Flt K} (ha : a.Denotes s f)
    (hd : s.length ≤ 32) {axes : List Int} {ks : List Nat} (hax : AxesAre axes s.length ks) (hnd : ks.Nodup) :
    ∃ r, ∃ g : List Nat → K, a.minAlongFloat top axes = .ok r ∧ r.Denotes (dropAxes ks s) (fun J => .num (g J)) ∧
      ∀ J, IsMinFrom (g J) top (numbers ((fibre ks s J).map f)) := by
  obtain ⟨r, h1, h2⟩ := C10_reduce_along (partialMin Flt.lt) ha hd hax hnd (.num top)
  choose g h3 h4 using fun J => fold_minFloat ((fibre ks s J).map f) top
  exact ⟨r, g, h1, h2.congr fun J _ => h3 J, h4⟩

example := C61_min_along_partial 2147483647 (denotes_fromContiguous (s := [3, 2]) (f := fltDemo)) (by decide) (axes := [-1]) (ks := [1])
  ⟨⟨by decide, by decide⟩, trivial⟩ (by decide)

/-- **C61** (part). `max_magnitude()` without NaN: the greatest absolute value, infinities included. Missing: NaN, see the next
theorem. -/
theorem C61_max_magnitude_partial (abs : K → K) (bot : K) {a : Arr (Flt K)} {s : List Nat} {f : List Nat → K}
    (ha : a.Denotes s fun idx => .num (f idx)) (hd : s.length ≤ 32) (hg : Reducible s a.stride) :
    ∃ r v, a.maxMagnitudeFloat abs bot = .ok r ∧ r.Denotes [] (fun _ => .num v) ∧ IsMaxFrom v bot ((elements s f).map abs) := by
  obtain ⟨r, h1, h2⟩ := C09_reduce_partial (partialMaxMagnitude Flt.lt (Flt.abs abs)) (.num bot) ha hd hg
  refine ⟨r, _, h1, h2.congr fun _ _ => ?_, isMaxFrom_fold _ _⟩
  rw [← fold_maxMagFloat]; simp [foldOver, elements, Function.comp_def]

example := C61_max_magnitude_partial (fun x : Int => |x|) (-2147483648)
  (denotes_fromContiguous (s := [3, 2]) (f := fun i => Flt.num ((i.getD 0 0 : Int) - 1))) (by decide) (.inr (by decide))

/-- **C61** (part). `min_magnitude()` without NaN. -/
theorem C61_min_magnitude_partial (abs : K → K) (top : K) {a : Arr (Flt K)} {s : List Nat} {f : List Nat → K}
    (ha : a.Denotes s fun idx => .num (f idx)) (hd : s.length ≤ 32) (hg : Reducible s a.stride) :
    ∃ r v, a.minMagnitudeFloat abs top = .ok r ∧ r.Denotes [] (fun _ => .num v) ∧ IsMinFrom v top ((elements s f).map abs) := by
  obtain ⟨r, h1, h2⟩ := C09_reduce_partial (partialMinMagnitude Flt.lt (Flt.abs abs)) (.num top) ha hd hg
  refine ⟨r, _, h1, h2.congr fun _ _ => ?_, isMinFrom_fold _ _⟩
  rw [← fold_minMagFloat]; simp [foldOver, elements, Function.comp_def]

example := C61_min_magnitude_partial (fun x : Int => |x|) 2147483647
  (denotes_fromContiguous (s := [3, 2]) (f := fun i => Flt.num ((i.getD 0 0 : Int) - 1))) (by decide) (.inr (by decide))

/-- What `max_magnitude()` does with NaN: everything up to the last NaN is forgotten. If that NaN is the last element the result is NaN,
otherwise the greatest absolute value of the elements behind it. -/
theorem C61_max_magnitude_nan (abs : K → K) (bot : K) {a : Arr (Flt K)} {s : List Nat} {f : List Nat → Flt K} (ha : a.Denotes s f)
    (hd : s.length ≤ 32) (hg : Reducible s a.stride) {tail : List K} (ht : afterLastNaN (elements s f) tail) :
    ∃ r v, a.maxMagnitudeFloat abs bot = .ok r ∧ r.Denotes [] (fun _ => v) ∧
      (tail = [] → v = .nan) ∧
      ∀ x rest, tail = x :: rest → ∃ m, v = .num m ∧ IsMaxFrom m (abs x) (rest.map abs) := by
  obtain ⟨r, h1, h2⟩ := C09_reduce_partial (partialMaxMagnitude Flt.lt (Flt.abs abs)) (.num bot) ha hd hg
  obtain ⟨front, hf⟩ := ht
  have h3 := fold_afterNaN (partialMaxMagnitude Flt.lt (Flt.abs abs)) abs (fun acc => by cases acc <;> rfl) (fun x => rfl) front tail
    (.num bot)
  rw [← hf] at h3
  refine ⟨r, _, h1, h2.congr fun _ _ => h3, ?_, ?_⟩
  · rintro rfl; rfl
  · rintro x rest rfl
    exact ⟨_, fold_maxMagFloat abs rest (abs x), isMaxFrom_fold _ _⟩

example := C61_max_magnitude_nan (fun x : Int => |x|) (-2147483648) (denotes_fromContiguous (s := [3, 2]) (f := fltDemo)) (by decide)
  (.inr (by decide)) (tail := [0, 2, 1]) ⟨[.num 0, .num (-1)], by decide⟩

/-- What `min_magnitude()` does with NaN. -/
theorem C61_min_magnitude_nan (abs : K → K) (top : K) {a : Arr (Flt K)} {s : List Nat} {f : List Nat → Flt K} (ha : a.Denotes s f)
    (hd : s.length ≤ 32) (hg : Reducible s a.stride) {tail : List K} (ht : afterLastNaN (elements s f) tail) :
    ∃ r v, a.minMagnitudeFloat abs top = .ok r ∧ r.Denotes [] (fun _ => v) ∧
      (tail = [] → v = .nan) ∧
      ∀ x rest, tail = x :: rest → ∃ m, v = .num m ∧ IsMinFrom m (abs x) (rest.map abs) := by
  obtain ⟨r, h1, h2⟩ := C09_reduce_partial (partialMinMagnitude Flt.lt (Flt.abs abs)) (.num top) ha hd hg
  obtain ⟨front, hf⟩ := ht
  have h3 := fold_afterNaN (partialMinMagnitude Flt.lt (Flt.abs abs)) abs (fun acc => by cases acc <;> rfl) (fun x => rfl) front tail
    (.num top)
  rw [← hf] at h3
  refine ⟨r, _, h1, h2.congr fun _ _ => h3, ?_, ?_⟩
  · rintro rfl; rfl
  · rintro x rest rfl
    exact ⟨_, fold_minMagFloat abs rest (abs x), isMinFrom_fold _ _⟩

example := C61_min_magnitude_nan (fun x : Int => |x|) 2147483647 (denotes_fromContiguous (s := [3, 2]) (f := fltDemo)) (by decide)
  (.inr (by decide)) (tail := [0, 2, 1]) ⟨[.num 0, .num (-1)], by decide⟩

/-- **C61** (part). `max_magnitude_along` without NaN, for every layout. -/
theorem C61_max_magnitude_along_partial (abs : K → K) (zero : K) {a : Arr (Flt K)} {s : List Nat} {f : List Nat → K}
    (ha : a.Denotes s fun idx => .num (f idx)) (hd : s.length ≤ 32) {axes : List Int} {ks : List Nat}
    (hax : AxesAre axes s.length ks) (hnd : ks.Nodup) :
    ∃ r, ∃ g : List Nat → K, a.maxMagnitudeAlongFloat abs zero axes = .ok r ∧ r.Denotes (dropAxes ks s) (fun J => .num (g J)) ∧
      ∀ J, IsMaxFrom (g J) zero ((fibre ks s J).map fun idx => abs (f idx)) := by
  obtain ⟨r, h1, h2⟩ := C10_reduce_along (partialMaxMagnitude Flt.lt (Flt.abs abs)) ha hd hax hnd (.num zero)
  refine ⟨r, _, h1, h2.congr fun J _ => ?_, fun J => isMaxFrom_fold _ _⟩
  have := fold_maxMagFloat abs ((fibre ks s J).map f) zero
  rw [List.map_map, List.map_map] at this
  exact this

example := C61_max_magnitude_along_partial (fun x : Int => |x|) 0
  (denotes_fromContiguous (s := [3, 2]) (f := fun i => Flt.num ((i.getD 0 0 : Int) - 1))) (by decide) (axes := [-1]) (ks := [1])
  ⟨⟨by decide, by decide⟩, trivial⟩ (by decide)

/-- **C61** (part). `min_magnitude_along` without NaN, for every layout. -/
theorem C61_min_magnitude_along_partial (abs : K → K) (top : K) {a : Arr (Flt K)} {s : List Nat} {f : List Nat → K}
    (ha : a.Denotes s fun idx => .num (f idx)) (hd : s.length ≤ 32) {axes : List Int} {ks : List Nat}
    (hax : AxesAre axes s.length ks) (hnd : ks.Nodup) :
    ∃ r, ∃ g : List Nat → K, a.minMagnitudeAlongFloat abs top axes = .ok r ∧ r.Denotes (dropAxes ks s) (fun J => .num (g J)) ∧
      ∀ J, IsMinFrom (g J) top ((fibre ks s J).map fun idx => abs (f idx)) := by
  obtain ⟨r, h1, h2⟩ := C10_reduce_along (partialMinMagnitude Flt.lt (Flt.abs abs)) ha hd hax hnd (.num top)
  refine ⟨r, _, h1, h2.congr fun J _ => ?_, fun J => isMinFrom_fold _ _⟩
  have := fold_minMagFloat abs ((fibre ks s J).map f) top
  rw [List.map_map, List.map_map] at this
  exact this

example := C61_min_magnitude_along_partial (fun x : Int => |x|) 2147483647
  (denotes_fromContiguous (s := [3, 2]) (f := fun i => Flt.num ((i.getD 0 0 : Int) - 1))) (by decide) (axes := [-1]) (ks := [1])
  ⟨⟨by decide, by decide⟩, trivial⟩ (by decide)

end

/-! ### where it fails -/

/-- The numbers of the witnesses: minus infinity (`none`) and integers. -/
abbrev NegInf := Option Int
instance : LT NegInf where
  lt x y := match x, y with
    | _, none => False
    | none, some _ => True
    | some a, some b => a < b
instance : DecidableLT NegInf := fun x y => match x, y with
  | none, none => isFalse id
  | some _, none => isFalse id
  | none, some _ => isTrue trivial
  | some a, some b => inferInstanceAs (Decidable (a < b))

def intAbs (x : Int) : Int := if x < 0 then -x else x

/-- `f32::MIN`. -/
abbrev f32Min : Int := -340282346638528859811704183484516925440
/-- `f32::MAX`. -/
abbrev f32Max : Int := 340282346638528859811704183484516925440

/-- **C61** fails for magnitudes: a NaN hides everything before it. `min_magnitude([1, NaN, 5])` is 5 and
`max_magnitude([9, NaN, 5])` is 5. -/
theorem C61_false :
    (∃ r, (Arr.fromContiguousOwnedBuffer [3] [.num 1, .nan, .num 5]).minMagnitudeFloat intAbs f32Max = .ok r ∧
      r.value = .ok (.num 5)) ∧
    (∃ r, (Arr.fromContiguousOwnedBuffer [3] [.num 9, .nan, .num 5]).maxMagnitudeFloat intAbs f32Min = .ok r ∧
      r.value = .ok (.num 5)) := ⟨⟨_, rfl, rfl⟩, ⟨_, rfl, rfl⟩⟩

/-- **C61** fails along axes in the same way. -/
theorem C61_along_false :
    ∃ r, (Arr.fromContiguousOwnedBuffer [2, 3] [.num 1, .nan, .num 5, .num 2, .num 3, .nan]).minMagnitudeAlongFloat intAbs f32Max [1] =
      .ok r ∧ r.flatiter = .ok [.num 5, .nan] := ⟨_, rfl, rfl⟩

/-- **C61** fails for infinities: the maximum of an array holding only minus infinity comes out as the finite `f32::MIN`. -/
theorem C61_infinity_false :
    ∃ r, (Arr.fromContiguousOwnedBuffer [2] [.num none, .num none]).maxFloat (some f32Min : NegInf) = .ok r ∧
      r.value = .ok (.num (some f32Min)) := ⟨_, rfl, rfl⟩

/-- **C61** fails for an array of NaN only: the result is a number that is not an element. -/
theorem C61_all_nan_false :
    ∃ r, (Arr.fromContiguousOwnedBuffer [2] [.nan, .nan]).maxFloat f32Min = .ok r ∧ r.value = .ok (.num f32Min) := ⟨_, rfl, rfl⟩

/-- **C61** fails with NEON: whether a NaN is ignored depends on its place. At the front of 16 `f32` it makes the maximum NaN; as the
seventeenth it is ignored. The portable build ignores both. -/
theorem C61_neon_false :
    (do let r ← (Arr.fromContiguousOwnedBuffer [16] (Flt.nan :: List.replicate 15 (Flt.num 1))).maxFloatNeon 4 f32Min
        r.value) = .ok .nan ∧
    (do let r ← (Arr.fromContiguousOwnedBuffer [17] (List.replicate 16 (Flt.num 1) ++ [Flt.nan])).maxFloatNeon 4 f32Min
        r.value) = .ok (.num 1) ∧
    (do let r ← (Arr.fromContiguousOwnedBuffer [16] (Flt.nan :: List.replicate 15 (Flt.num 1))).maxFloat f32Min
        r.value) = .ok (.num 1) := by decide +kernel

/-- NaN at either end, infinities as elements -/
example : ∃ r, (Arr.fromContiguousOwnedBuffer [2, 2] [.nan, .num 3, .num (-7), .nan]).maxFloat f32Min = .ok r ∧
    r.value = .ok (.num 3) := ⟨_, rfl, rfl⟩
example : numbers [.nan, .num 3, .num (-7), .nan] = [3, (-7 : Int)] ∧ IsMaxFrom 3 f32Min [3, (-7 : Int)] :=
  ⟨rfl, by decide, by decide⟩
example : afterLastNaN [.num 1, .nan, .num (5 : Int)] [5] := ⟨[.num 1], rfl⟩
example : ∃ r, (Arr.fromContiguousOwnedBuffer [2, 2] [.nan, .num 3, .num (-7), .nan]).minAlongFloat f32Max [0] = .ok r ∧
    r.flatiter = .ok [.num (-7), .num 3] := ⟨_, rfl, rfl⟩
example : ∃ r, (Arr.fromContiguousOwnedBuffer [3] [.num (-4), .num 3, .num 2]).maxMagnitudeFloat intAbs f32Min = .ok r ∧
    r.value = .ok (.num 4) := ⟨_, rfl, rfl⟩

end Verif
