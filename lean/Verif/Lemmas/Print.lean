import Verif.Lemmas.Basics
import Verif.Model.Print

set_option linter.unusedSimpArgs false

/-! # Lemmas for the Debug output -/

namespace Verif

variable {α : Type}

/-- Characters without the spaces, as tokens. -/
def nsChars (cs : List Char) : List (Tok α) := (cs.filter (· != ' ')).map .chr

theorem filter_map_chr (cs : List Char) : (cs.map (Tok.chr (α := α))).filter Tok.notSpace = nsChars cs := by
  unfold nsChars
  induction cs with
  | nil => rfl
  | cons c cs ih =>
    simp only [List.map_cons, List.filter_cons, Tok.notSpace]
    split <;> simp_all

theorem fmtItems_ok {sep : Nat → List Char} {body : List α → Res (List (Tok α) × List α)} {e : Nat → List α}
    {g : Nat → List (Tok α)} (hb : ∀ j rest, ∃ t, body (e j ++ rest) = .ok (t, rest) ∧ t.filter Tok.notSpace = g j)
    (n i : Nat) (rest : List α) :
    ∃ ts, fmtItems sep body n i ((List.range' i n).flatMap e ++ rest) = .ok (ts, rest) ∧
      ts.filter Tok.notSpace = (List.range' i n).flatMap fun j => nsChars (sep j) ++ g j := by
  induction n generalizing i with
  | zero => exact ⟨[], rfl, rfl⟩
  | succ n ih =>
    obtain ⟨t, ht, hg⟩ := hb i ((List.range' (i + 1) n).flatMap e ++ rest)
    obtain ⟨ts, hts, hf⟩ := ih (i + 1)
    refine ⟨(sep i).map .chr ++ t ++ ts, ?_, ?_⟩
    · rw [List.range'_succ, List.flatMap_cons, List.append_assoc, fmtItems, ht]
      simp only [ok_bind]
      rw [hts]; rfl
    · rw [List.filter_append, List.filter_append, filter_map_chr, hg, hf, List.range'_succ, List.flatMap_cons]

theorem flatMap_intercalate (g : Nat → List β) (c : List β) (n : Nat) :
    ((List.range' 0 n).flatMap fun j => (if j > 0 then c else []) ++ g j) = List.intercalate c ((List.range n).map g) := by
  cases n with
  | zero => simp [List.intercalate]
  | succ n =>
    rw [List.range_eq_range', List.range'_succ]
    have key : ∀ (i : Nat) (x : List β), 0 < i → x ++ ((List.range' i n).flatMap fun j => (if j > 0 then c else []) ++ g j) =
        List.intercalate c (x :: (List.range' i n).map g) := by
      induction n with
      | zero => intro i x _; simp [List.intercalate]
      | succ n ih =>
        intro i x hi
        rw [List.range'_succ, List.flatMap_cons, List.map_cons, if_pos hi]
        rw [show List.intercalate c (x :: g i :: (List.range' (i + 1) n).map g) =
          x ++ (c ++ List.intercalate c (g i :: (List.range' (i + 1) n).map g)) by simp [List.intercalate]]
        rw [← ih (i + 1) (g i) (by omega)]
        simp [List.append_assoc]
    simpa using key 1 (g 0) (by omega)

theorem nsChars_spaces (n : Nat) : nsChars (α := α) (spaces n) = [] := by
  simp [nsChars, spaces]

theorem elements_cons (n : Nat) (s : List Nat) (f : List Nat → α) :
    elements (n :: s) f = (List.range n).flatMap fun i => elements s fun idx => f (i :: idx) := by
  simp [elements, indices, List.map_flatMap, List.map_map, Function.comp_def]

theorem fmtInner_ok (s : List Nat) (f : List Nat → α) (level : Nat) (rest : List α) :
    ∃ ts, fmtInner s level (elements s f ++ rest) = .ok (ts, rest) ∧ ts.filter Tok.notSpace = nested s f := by
  induction s generalizing f level rest with
  | nil => exact ⟨[.val (f [])], rfl, rfl⟩
  | cons n s ih =>
    cases s with
    | nil =>
      obtain ⟨ts, hts, hf⟩ := fmtItems_ok (sep := fun i => if i > 0 then [',', ' '] else []) (body := fmtNext (α := α))
        (e := fun j => [f [j]]) (g := fun j => [.val (f [j])]) (fun j rest => ⟨_, rfl, rfl⟩) n 0 rest
      refine ⟨[.chr '['] ++ ts ++ [.chr ']'], ?_, ?_⟩
      · rw [elements_cons]
        rw [show ((List.range n).flatMap fun i => elements [] fun idx => f (i :: idx)) =
          (List.range' 0 n).flatMap fun j => [f [j]] by rw [List.range_eq_range']; rfl]
        rw [fmtInner, hts]; rfl
      · rw [List.filter_append, List.filter_append, hf, nested]
        rw [show ((List.range' 0 n).flatMap fun j => nsChars (if j > 0 then [',', ' '] else []) ++ [Tok.val (f [j])]) =
          (List.range' 0 n).flatMap fun j => (if j > 0 then [Tok.chr ','] else []) ++ [Tok.val (f [j])] by
            congr 1; funext j; split <;> rfl]
        rw [flatMap_intercalate]; rfl
    | cons m s =>
      obtain ⟨ts, hts, hf⟩ := fmtItems_ok
        (sep := fun i => if i > 0 then ',' :: spaces ((level + 1) * 2) else spaces ((level + 1) * 2))
        (body := fmtInner (α := α) (m :: s) (level + 1)) (e := fun j => elements (m :: s) fun idx => f (j :: idx))
        (g := fun j => nested (m :: s) fun idx => f (j :: idx)) (fun j rest => ih _ _ rest) n 0 rest
      refine ⟨[.chr '['] ++ ts ++ (spaces (level * 2)).map .chr ++ [.chr ']'], ?_, ?_⟩
      · rw [elements_cons, List.range_eq_range', fmtInner, hts]; rfl
      · rw [List.filter_append, List.filter_append, List.filter_append, hf, filter_map_chr, nsChars_spaces, nested]
        rw [show ((List.range' 0 n).flatMap fun j => nsChars (if j > 0 then ',' :: spaces ((level + 1) * 2)
            else spaces ((level + 1) * 2)) ++ nested (m :: s) fun idx => f (j :: idx)) =
          (List.range' 0 n).flatMap fun j => (if j > 0 then [Tok.chr ','] else []) ++
            nested (m :: s) fun idx => f (j :: idx) by
              congr 1; funext j; split
              · rw [show nsChars (α := α) (',' :: spaces ((level + 1) * 2)) = .chr ',' :: nsChars (spaces ((level + 1) * 2))
                  from rfl, nsChars_spaces]
              · rw [nsChars_spaces]]
        rw [flatMap_intercalate, List.append_nil]; rfl

/-! ### reading the text -/

theorem shown_append (a b : List (Tok α)) : shown (a ++ b) = shown a ++ shown b := by
  induction a with
  | nil => rfl
  | cons t a ih => cases t <;> simp [shown, ih]

theorem shown_filter (a : List (Tok α)) : shown (a.filter Tok.notSpace) = shown a := by
  induction a with
  | nil => rfl
  | cons t a ih =>
    cases t with
    | val v => simp [shown, List.filter_cons, Tok.notSpace, ih]
    | chr c => rw [List.filter_cons]; split <;> simp [shown, ih]

theorem shown_intercalate (c : Char) (l : List (List (Tok α))) :
    shown (List.intercalate [.chr c] l) = l.flatMap shown := by
  induction l with
  | nil => rfl
  | cons x l ih =>
    cases l with
    | nil => simp [List.intercalate]
    | cons y l =>
      rw [show List.intercalate [Tok.chr c] (x :: y :: l) = x ++ (.chr c :: List.intercalate [.chr c] (y :: l)) by
        simp [List.intercalate]]
      rw [shown_append, shown, ih]; rfl

theorem shown_nested (s : List Nat) (f : List Nat → α) : shown (nested s f) = elements s f := by
  induction s generalizing f with
  | nil => rfl
  | cons n s ih =>
    rw [nested, shown_append, shown_append, shown_intercalate, elements_cons, List.flatMap_map]
    simp [shown, ih]

theorem nesting_append (d : Nat) (a b : List (Tok α)) :
    nesting d (a ++ b) = (nesting d a).bind fun r => (nesting r.2 b).map fun q => (r.1 ++ q.1, q.2) := by
  induction a generalizing d with
  | nil => simp [nesting]
  | cons t a ih =>
    cases t with
    | val v =>
      simp only [List.cons_append, nesting, ih]
      cases nesting d a with
      | none => rfl
      | some r => simp; cases nesting r.2 b <;> simp
    | chr c =>
      simp only [List.cons_append, nesting]
      split
      · exact ih _
      · split
        · split
          · rfl
          · exact ih _
        · exact ih _

theorem nesting_filter (d : Nat) (a : List (Tok α)) : nesting d (a.filter Tok.notSpace) = nesting d a := by
  induction a generalizing d with
  | nil => rfl
  | cons t a ih =>
    cases t with
    | val v => simp [nesting, List.filter_cons, Tok.notSpace, ih]
    | chr c =>
      by_cases hc : c = ' '
      · subst hc; simp [List.filter_cons, Tok.notSpace, nesting, ih]
      · rw [List.filter_cons, if_pos (by simp [Tok.notSpace, hc])]
        simp only [nesting, ih]

theorem nesting_intercalate {d : Nat} {l : List (List (Tok α))} {k : Nat}
    (h : ∀ x ∈ l, nesting d x = some (List.replicate k (d + m), d)) :
    nesting d (List.intercalate [.chr ','] l) = some (List.replicate (l.length * k) (d + m), d) := by
  induction l with
  | nil => simp [List.intercalate, nesting]
  | cons x l ih =>
    cases l with
    | nil =>
      simpa [List.intercalate] using h x (by simp)
    | cons y l =>
      rw [show List.intercalate [Tok.chr ','] (x :: y :: l) = x ++ ([.chr ','] ++ List.intercalate [.chr ','] (y :: l)) by
        simp [List.intercalate]]
      rw [nesting_append, h x (by simp)]
      simp only [Option.bind_some]
      rw [nesting_append]
      simp only [nesting, show (',' = '[') = False by simp, show (',' = ']') = False by simp, if_false, Option.bind_some]
      rw [ih (fun z hz => h z (by simp [hz]))]
      simp [List.length_cons, List.replicate_append_replicate]
      ring

theorem nesting_nested (s : List Nat) (f : List Nat → α) (d : Nat) :
    nesting d (nested s f) = some (List.replicate (numel s) (d + s.length), d) := by
  induction s generalizing f d with
  | nil => rfl
  | cons n s ih =>
    rw [nested, nesting_append, nesting_append]
    simp only [nesting, if_true, Option.bind_some]
    rw [nesting_intercalate (k := numel s) (m := s.length)]
    · simp [nesting, numel]; congr 1; omega
    · intro x hx
      obtain ⟨i, _, rfl⟩ := List.mem_map.1 hx
      rw [ih]

/-- No two values stand next to each other. -/
def NoAdj : List (Tok α) → Prop
  | .val _ :: .val _ :: _ => False
  | _ :: ts => NoAdj ts
  | [] => True

theorem NoAdj_chr {c : Char} {ts : List (Tok α)} : NoAdj (.chr c :: ts) ↔ NoAdj ts := by
  simp [NoAdj]

theorem NoAdj_val_chr {v : α} {c : Char} {ts : List (Tok α)} : NoAdj (.val v :: .chr c :: ts) ↔ NoAdj ts := by
  simp [NoAdj]

theorem NoAdj_append {a b : List (Tok α)} {c : Char} : NoAdj (a ++ .chr c :: b) ↔ NoAdj a ∧ NoAdj b := by
  induction a with
  | nil => simp [NoAdj]
  | cons t a ih =>
    cases t with
    | chr c' => simpa [NoAdj] using ih
    | val v =>
      cases a with
      | nil => simp [NoAdj]
      | cons u a =>
        cases u with
        | chr c' => simpa [NoAdj] using ih
        | val w => simp [NoAdj]

theorem NoAdj_intercalate {l : List (List (Tok α))} (h : ∀ x ∈ l, NoAdj x) : NoAdj (List.intercalate [.chr ','] l) := by
  induction l with
  | nil => simp [List.intercalate, NoAdj]
  | cons x l ih =>
    cases l with
    | nil => simpa [List.intercalate] using h x (by simp)
    | cons y l =>
      rw [show List.intercalate [Tok.chr ','] (x :: y :: l) = x ++ (.chr ',' :: List.intercalate [.chr ','] (y :: l)) by
        simp [List.intercalate]]
      exact NoAdj_append.2 ⟨h x (by simp), ih fun z hz => h z (by simp [hz])⟩

theorem NoAdj_nested (s : List Nat) (f : List Nat → α) : NoAdj (nested s f) := by
  induction s generalizing f with
  | nil => simp [nested, NoAdj]
  | cons n s ih =>
    rw [nested, List.append_assoc, List.singleton_append, NoAdj_chr, NoAdj_append]
    refine ⟨NoAdj_intercalate ?_, trivial⟩
    intro x hx
    obtain ⟨i, _, rfl⟩ := List.mem_map.1 hx
    exact ih _

theorem NoAdj_of_filter {ts : List (Tok α)} (h : NoAdj (ts.filter Tok.notSpace)) : NoAdj ts := by
  induction ts with
  | nil => trivial
  | cons t ts ih =>
    cases t with
    | chr c =>
      rw [NoAdj_chr]
      apply ih
      rw [List.filter_cons] at h
      split at h
      · exact NoAdj_chr.1 h
      · exact h
    | val v =>
      have hv : (Tok.val v :: ts).filter Tok.notSpace = .val v :: ts.filter Tok.notSpace := by
        simp [List.filter_cons, Tok.notSpace]
      rw [hv] at h
      have hts : NoAdj (ts.filter Tok.notSpace) := by
        cases hq : ts.filter Tok.notSpace with
        | nil => trivial
        | cons u us => rw [hq] at h; cases u <;> simp_all [NoAdj]
      cases ts with
      | nil => simp [NoAdj]
      | cons u us =>
        cases u with
        | chr c => rw [NoAdj_val_chr]; exact NoAdj_chr.1 (ih hts)
        | val w => simp [List.filter_cons, Tok.notSpace, NoAdj] at h

/-- Only separators are written besides the values. -/
def SepOnly : List (Tok α) → Prop
  | [] => True
  | .chr c :: ts => isSep c = true ∧ SepOnly ts
  | .val _ :: ts => SepOnly ts

theorem runs_word (w : List Char) (hw : ∀ c ∈ w, isSep c = false) (cs : List Char) :
    runs (w ++ cs) = (w ++ (runs cs).1, (runs cs).2) := by
  induction w with
  | nil => rfl
  | cons c w ih =>
    rw [List.cons_append, runs, ih fun c hc => hw c (by simp [hc])]
    simp [hw c (by simp)]

/-- What `runs` makes of a text. -/
def runsOf (shw : α → List Char) : List (Tok α) → List Char × List (List Char)
  | .val v :: us => (shw v, (shown us).map shw)
  | us => ([], (shown us).map shw)

theorem runs_text {shw : α → List Char} (hs : ∀ v, shw v ≠ [] ∧ ∀ c ∈ shw v, isSep c = false)
    {ts : List (Tok α)} (h : NoAdj ts) (hc : SepOnly ts) :
    runs (ts.flatMap (Tok.text shw)) = runsOf shw ts := by
  induction ts with
  | nil => rfl
  | cons t ts ih =>
    cases t with
    | chr c =>
      rw [NoAdj_chr] at h
      have := ih h hc.2
      rw [List.flatMap_cons]
      show runs (c :: ts.flatMap (Tok.text shw)) = _
      rw [runs, this, if_pos hc.1]
      cases ts with
      | nil => rfl
      | cons u us =>
        cases u with
        | chr c' => simp [shown, runsOf]
        | val v => simp [shown, (hs v).1, runsOf]
    | val v =>
      rw [List.flatMap_cons]
      show runs (shw v ++ _) = _
      rw [runs_word _ (hs v).2]
      cases ts with
      | nil => simp [runs, shown, runsOf]
      | cons u us =>
        cases u with
        | val w => simp [NoAdj] at h
        | chr c' =>
          rw [ih (NoAdj_chr.2 (NoAdj_val_chr.1 h)) hc]
          simp [runsOf]

theorem words_text {shw : α → List Char} (hs : ∀ v, shw v ≠ [] ∧ ∀ c ∈ shw v, isSep c = false)
    {ts : List (Tok α)} (h : NoAdj ts) (hc : SepOnly ts) :
    words (ts.flatMap (Tok.text shw)) = (shown ts).map shw := by
  unfold words
  rw [runs_text hs h hc]
  cases ts with
  | nil => rfl
  | cons t ts =>
    cases t with
    | chr c => simp [runsOf]
    | val v => simp [(hs v).1, shown, runsOf]

theorem SepOnly_append {a b : List (Tok α)} : SepOnly (a ++ b) ↔ SepOnly a ∧ SepOnly b := by
  induction a with
  | nil => simp [SepOnly]
  | cons t a ih => cases t <;> simp [SepOnly, ih, and_assoc]

theorem SepOnly_intercalate {l : List (List (Tok α))} (h : ∀ x ∈ l, SepOnly x) : SepOnly (List.intercalate [.chr ','] l) := by
  induction l with
  | nil => simp [List.intercalate, SepOnly]
  | cons x l ih =>
    cases l with
    | nil => simpa [List.intercalate] using h x (by simp)
    | cons y l =>
      rw [show List.intercalate [Tok.chr ','] (x :: y :: l) = x ++ (.chr ',' :: List.intercalate [.chr ','] (y :: l)) by
        simp [List.intercalate]]
      exact SepOnly_append.2 ⟨h x (by simp), rfl, ih fun z hz => h z (by simp [hz])⟩

theorem SepOnly_nested (s : List Nat) (f : List Nat → α) : SepOnly (nested s f) := by
  induction s generalizing f with
  | nil => simp [nested, SepOnly]
  | cons n s ih =>
    rw [nested, SepOnly_append, SepOnly_append]
    refine ⟨⟨⟨rfl, trivial⟩, SepOnly_intercalate ?_⟩, rfl, trivial⟩
    intro x hx
    obtain ⟨i, _, rfl⟩ := List.mem_map.1 hx
    exact ih _

theorem SepOnly_of_filter {ts : List (Tok α)} (h : SepOnly (ts.filter Tok.notSpace)) : SepOnly ts := by
  induction ts with
  | nil => trivial
  | cons t ts ih =>
    cases t with
    | chr c =>
      rw [List.filter_cons] at h
      by_cases hc : c = ' '
      · subst hc
        simp [Tok.notSpace] at h
        exact ⟨rfl, ih h⟩
      · rw [if_pos (by simp [Tok.notSpace, hc])] at h
        exact ⟨h.1, ih h.2⟩
    | val v =>
      rw [List.filter_cons, if_pos (by rfl)] at h
      exact ih h

end Verif
