import Mathlib.Tactic.Tauto
import Mathlib.Tactic.ByContra
import Mathlib.Tactic.Ring
import Mathlib.Tactic.Linarith
import Verif.Model.Views
import Verif.Lemmas.Layout

set_option linter.unusedSimpArgs false

namespace Verif

variable {α : Type}

/-! ### the result monad -/

@[simp] theorem ok_bind {α β : Type} (a : α) (f : α → Res β) : ((Except.ok a : Res α) >>= f) = f a := rfl
@[simp] theorem error_bind {α β : Type} (e : Err) (f : α → Res β) :
    ((Except.error e : Res α) >>= f) = .error e := rfl
@[simp] theorem pure_res {α : Type} (a : α) : (pure a : Res α) = .ok a := rfl
@[simp] theorem throw_res {α : Type} (e : Err) : (throw e : Res α) = .error e := rfl
@[simp] theorem map_ok {α β : Type} (f : α → β) (a : α) : (f <$> (Except.ok a : Res α)) = .ok (f a) := rfl
@[simp] theorem map_error {α β : Type} (f : α → β) (e : Err) :
    (f <$> (Except.error e : Res α)) = .error e := rfl

theorem assert_ok {c : Bool} (h : c = true) : assert c = .ok () := by simp [assert, h]
theorem assert_fail {c : Bool} (h : c = false) : assert c = .error .panic := by simp [assert, h]

theorem bind_eq_ok {α β : Type} {x : Res α} {f : α → Res β} {b : β} :
    (x >>= f) = .ok b ↔ ∃ a, x = .ok a ∧ f a = .ok b := by
  cases x <;> simp

theorem assert_eq_ok {c : Bool} : assert c = .ok () ↔ c = true := by
  unfold assert; cases c <;> simp

theorem usub_ok {a b : Nat} (h : b ≤ a) : usub a b = .ok (a - b) := by simp [usub, h]
theorem usub_eq_ok {a b c : Nat} : usub a b = .ok c ↔ b ≤ a ∧ c = a - b := by
  unfold usub; split <;> simp_all [eq_comm]

theorem mapM_ok {α β : Type} {f : α → Res β} {g : α → β} {l : List α} (h : ∀ x ∈ l, f x = .ok (g x)) :
    l.mapM f = .ok (l.map g) := by
  induction l with
  | nil => rfl
  | cons x l ih =>
    rw [List.mapM_cons, h x (by simp), ih (fun y hy => h y (by simp [hy]))]
    rfl

theorem mapM_error {α β : Type} {f : α → Res β} {l : List α} {x : α} {e : Err} (hx : x ∈ l) (h : f x = .error e) :
    ∃ e', l.mapM f = .error e' := by
  induction l with
  | nil => cases hx
  | cons y l ih =>
    rw [List.mapM_cons]
    cases hfy : f y with
    | error e' => exact ⟨e', rfl⟩
    | ok v =>
      rcases List.mem_cons.1 hx with rfl | hx
      · rw [h] at hfy; cases hfy
      · obtain ⟨e', he'⟩ := ih hx
        exact ⟨e', by rw [he']; rfl⟩

theorem mapM_eq_ok_length {α β : Type} {f : α → Res β} {l : List α} {r : List β} (h : l.mapM f = .ok r) :
    r.length = l.length := by
  induction l generalizing r with
  | nil => cases h; rfl
  | cons x l ih =>
    rw [List.mapM_cons, bind_eq_ok] at h
    obtain ⟨a, _, h⟩ := h
    rw [bind_eq_ok] at h
    obtain ⟨b, hb, h⟩ := h
    cases h
    simp [ih hb]

/-! ### reading -/

theorem Arr.read_ok {a : Arr α} {i : Nat} {v : α} (h : a.buf[a.off + i]? = some v) : a.read i = .ok v := by
  simp [Arr.read, h]

theorem Arr.Denotes.valid {a : Arr α} {s : List Nat} {f : List Nat → α} (h : a.Denotes s f) : a.Valid := by
  obtain ⟨rfl, hl, h⟩ := h
  refine ⟨hl, fun idx hidx => ?_⟩
  have := h idx hidx
  exact (List.getElem?_eq_some_iff.1 this).1

theorem Arr.Valid.denotes {a : Arr α} [Inhabited α] (h : a.Valid) :
    a.Denotes a.shape (fun idx => a.buf.getD (a.off + offset idx a.stride) default) := by
  refine ⟨rfl, h.1, fun idx hidx => ?_⟩
  have := h.2 idx hidx
  simp [List.getD, List.getElem?_eq_getElem this]

theorem Arr.Denotes.congr {a : Arr α} {s : List Nat} {f g : List Nat → α} (h : a.Denotes s f)
    (hfg : ∀ idx, InB idx s → f idx = g idx) : a.Denotes s g :=
  ⟨h.1, h.2.1, fun idx hi => by rw [h.2.2 idx hi, hfg idx hi]⟩

theorem Arr.Denotes.elements_eq {a : Arr α} {s : List Nat} {f : List Nat → α} (h : a.Denotes s f) :
    (offsets s a.stride).mapM a.read = .ok (elements s f) := by
  rw [offsets]
  have : ((indices s).map (offset · a.stride)).mapM a.read = (indices s).mapM (fun i => a.read (offset i a.stride)) := by
    generalize indices s = l
    induction l with
    | nil => rfl
    | cons x l ih => simp only [List.map_cons, List.mapM_cons, ih]
  rw [this]
  exact mapM_ok fun idx hidx => Arr.read_ok (h.2.2 idx (mem_indices.1 hidx))

theorem Arr.Denotes.flatiter_fits {a : Arr α} {s : List Nat} {f : List Nat → α} (h : a.Denotes s f)
    (hd : AxesFit s a.stride) : a.flatiter = .ok (elements s f) := by
  obtain ⟨g, hg, hl⟩ := FlatGen.toList_fits (s := s) (st := a.stride) h.2.1.symm hd
  unfold Arr.flatiter
  rw [h.1, hg]
  show g.toList.mapM a.read = _
  rw [hl, h.elements_eq]

theorem Arr.Denotes.flatiter {a : Arr α} {s : List Nat} {f : List Nat → α} (h : a.Denotes s f)
    (hd : s.length ≤ maxDims) : a.flatiter = .ok (elements s f) := h.flatiter_fits (axesFit_of_rank hd)

theorem numel_replicate_one (k : Nat) : numel (List.replicate k 1) = 1 := by
  induction k <;> simp_all [List.replicate_succ]

/-! ### element sequences -/

theorem length_elements (s : List Nat) (f : List Nat → α) : (elements s f).length = numel s := by
  simp [elements, length_indices]

theorem getElem?_elements {s : List Nat} {f : List Nat → α} {k : Nat} (h : k < numel s) :
    (elements s f)[k]? = some (f (unrank s k)) := by
  simp [elements, getElem?_indices h]

theorem elements_congr {s : List Nat} {f g : List Nat → α} (h : ∀ idx, InB idx s → f idx = g idx) :
    elements s f = elements s g := by
  unfold elements
  exact List.map_congr_left fun idx hidx => h idx (mem_indices.1 hidx)

/-- Reading the row-major list of elements by rank. -/
theorem elements_getElem?_rank {s : List Nat} {f : List Nat → α} {idx : List Nat} (h : InB idx s) :
    (elements s f)[rank idx s]? = some (f idx) := by
  rw [getElem?_elements (rank_lt h), unrank_rank h]

/-- The tensor held by a row-major buffer. -/
theorem denotes_fromContiguous {s : List Nat} {f : List Nat → α} :
    (Arr.fromContiguousOwnedBuffer s (elements s f)).Denotes s f := by
  refine ⟨rfl, ?_, fun idx hidx => ?_⟩
  · simp [Arr.fromContiguousOwnedBuffer, length_strideFromShape]
  · simp only [Arr.fromContiguousOwnedBuffer, Nat.zero_add]
    rw [offset_strideFromShape hidx.length]
    exact elements_getElem?_rank hidx

theorem denotes_fromContiguous_getD {s : List Nat} {data : List α} (hlen : data.length = numel s) (d : α) :
    (Arr.fromContiguousOwnedBuffer s data).Denotes s (fun idx => data.getD (rank idx s) d) := by
  refine ⟨rfl, ?_, fun idx hidx => ?_⟩
  · simp [Arr.fromContiguousOwnedBuffer, length_strideFromShape]
  · simp only [Arr.fromContiguousOwnedBuffer, Nat.zero_add]
    rw [offset_strideFromShape hidx.length]
    have : rank idx s < data.length := by rw [hlen]; exact rank_lt hidx
    simp [List.getD, List.getElem?_eq_getElem this]

end Verif
