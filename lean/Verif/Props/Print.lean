import Verif.Props.Construct
import Verif.Lemmas.Print

/-! # C51: Debug output -/

namespace Verif

variable {α : Type}

theorem debug_of_flatiter {a : Arr α} {s : List Nat} {f : List Nat → α} (ha : a.Denotes s f) (h1 : a.flatiter = .ok (elements s f)) :
    ∃ ts, a.debugTokens = .ok ts ∧ ts.filter Tok.notSpace = nested s f := by
  obtain ⟨ts, hts, hf⟩ := fmtInner_ok s f 0 []
  refine ⟨ts, ?_, hf⟩
  rw [List.append_nil] at hts
  unfold Arr.debugTokens
  rw [h1, ok_bind, ha.1, hts]; rfl

/-- **C51.** Formatting an array of any layout (rank at most 32, also with extents 0) does not panic, and what it writes is,
apart from spaces, the nested bracket rendering of the array. -/
theorem C51_debug {a : Arr α} {s : List Nat} {f : List Nat → α} (ha : a.Denotes s f) (hd : s.length ≤ 32) :
    ∃ ts, a.debugTokens = .ok ts ∧ ts.filter Tok.notSpace = nested s f := debug_of_flatiter ha (ha.flatiter hd)

example := C51_debug demoT_denotes (by decide)

/-- **C51**: the printed values, read from left to right, are the elements in row-major order; every value stands inside as
many brackets as the array has axes; and all brackets are closed. -/
theorem C51_values_and_nesting {a : Arr α} {s : List Nat} {f : List Nat → α} (ha : a.Denotes s f) (hd : s.length ≤ 32) :
    ∃ ts, a.debugTokens = .ok ts ∧ shown ts = elements s f ∧
      nesting 0 ts = some (List.replicate (numel s) s.length, 0) := by
  obtain ⟨ts, hts, hf⟩ := C51_debug ha hd
  refine ⟨ts, hts, ?_, ?_⟩
  · rw [← shown_filter, hf, shown_nested]
  · rw [← nesting_filter, hf, nesting_nested, Nat.zero_add]

example := C51_values_and_nesting demoT_denotes (by decide)

/-- **C51**, about the text itself: if the element type prints values as non-empty words without brackets, commas and
spaces, then the words of the printed text are the printed elements in row-major order. -/
theorem C51_words {a : Arr α} {s : List Nat} {f : List Nat → α} {shw : α → List Char} (ha : a.Denotes s f)
    (hd : s.length ≤ 32) (hs : ∀ v, shw v ≠ [] ∧ ∀ c ∈ shw v, isSep c = false) :
    ∃ cs, a.debug shw = .ok cs ∧ words cs = (elements s f).map shw := by
  obtain ⟨ts, hts, hf⟩ := C51_debug ha hd
  refine ⟨ts.flatMap (Tok.text shw), ?_, ?_⟩
  · unfold Arr.debug; rw [hts]; rfl
  · rw [words_text hs (NoAdj_of_filter (by rw [hf]; exact NoAdj_nested s f))
      (SepOnly_of_filter (by rw [hf]; exact SepOnly_nested s f))]
    rw [← shown_filter, hf, shown_nested]

/-- numbers shown as strokes -/
example := C51_words (shw := fun n => List.replicate (n + 1) '|') demoT_denotes (by decide)
  fun v => ⟨by simp, fun c hc => by rw [List.eq_of_mem_replicate hc]; decide⟩

/-- **C51**: arrays of the same shape that print the same have the same elements, if different values print differently. -/
theorem C51_determines {a b : Arr α} {s : List Nat} {f g : List Nat → α} {shw : α → List Char} (ha : a.Denotes s f)
    (hb : b.Denotes s g) (hd : s.length ≤ 32) (hs : ∀ v, shw v ≠ [] ∧ ∀ c ∈ shw v, isSep c = false)
    (hinj : ∀ v w, shw v = shw w → v = w) (h : a.debug shw = b.debug shw) {idx : List Nat} (hi : InB idx s) :
    f idx = g idx := by
  obtain ⟨cs, hcs, hw⟩ := C51_words ha hd hs
  obtain ⟨cs', hcs', hw'⟩ := C51_words hb hd hs
  rw [hcs, hcs'] at h
  cases h
  have he : elements s f = elements s g :=
    (List.map_injective_iff.2 (fun v w h => hinj v w h)) (hw.symm.trans hw')
  have h1 := elements_getElem?_rank (f := f) hi
  have h2 := elements_getElem?_rank (f := g) hi
  rw [he, h2] at h1
  exact (Option.some.inj h1).symm

example := C51_determines (shw := fun n => List.replicate (n + 1) '|') demoT_denotes demoT_denotes (by decide)
  (fun v => ⟨by simp, fun c hc => by rw [List.eq_of_mem_replicate hc]; decide⟩)
  (fun v w h => by simpa using congrArg List.length h) rfl (idx := [1, 0]) (by decide)

/-- How the examples show numbers. -/
def showNat (n : Nat) : List Char := (Nat.repr n).toList

example : demoT.Denotes [3, 2] (fun idx => demoFn (exchange 0 1 idx)) := demoT_denotes
example : demoT.debugTokens = .ok
    ([.chr '[', .chr ' ', .chr ' ', .chr '[', .val 10, .chr ',', .chr ' ', .val 13, .chr ']',
      .chr ',', .chr ' ', .chr ' ', .chr '[', .val 11, .chr ',', .chr ' ', .val 14, .chr ']',
      .chr ',', .chr ' ', .chr ' ', .chr '[', .val 12, .chr ',', .chr ' ', .val 15, .chr ']', .chr ']']) := by decide
example : words "[  [10, 13],  [11, 14]]".toList = ["10".toList, "13".toList, "11".toList, "14".toList] := by decide

end Verif
