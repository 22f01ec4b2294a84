import Verif.Spec.NoFlags
import Verif.Lemmas.IeeeNearest
import Verif.Lemmas.RelatedSession

/-!
# IEEE numbers and numbers with unbounded exponents agree while no flag is raised
-/

namespace Verif

variable {p emax : Nat}

/-- Normal numbers, and subnormal numbers that need no rounding, are rounded as if exponents were unbounded. -/
theorem rndTiny_normal {v : ℚ} (h : Flagged.normal p emax v = true) : rndTiny p emax v = rnd p v := by
  rw [Flagged.normal, Bool.or_eq_true, decide_eq_true_eq, decide_eq_true_eq] at h
  rcases h with h | h
  · have h0 : (0 : ℚ) < |v| := (zpow_pos (by norm_num) _).trans_le h
    have hl : (1 - (emax : ℤ)) ≤ Int.log 2 |v| := (Int.zpow_le_iff_le_log (by norm_num) h0).1 (by exact_mod_cast h)
    have hu : (2 : ℚ) ^ tiny p emax ≤ ulp p v := by
      rw [ulp_eq]
      exact zpow_le_zpow_right₀ (by norm_num) (by unfold tiny; omega)
    unfold rndTiny
    rw [max_eq_left hu]
    rfl
  · refine rndTiny_of_grid ⟨(v / 2 ^ tiny p emax).num, ?_⟩
    have e : ((v / 2 ^ tiny p emax).num : ℚ) = v / 2 ^ tiny p emax := Rat.coe_int_num_of_den_eq_one h
    rw [e, neg_neg, div_mul_cancel₀ _ (zpow_pos (by norm_num) _).ne']

namespace Ieee

variable [NeZero p]

theorem pack_normal (s : Bool) {m : ℚ} (h0 : 0 ≤ m) (hn : rndTiny p emax m = rnd p m) (hr : |rnd p m| < 2 ^ (emax + 1)) :
    (pack s m : Ieee p emax).Finite ∧ (pack s m : Ieee p emax).val = signed s (rnd p m) := by
  have e : rndTiny p emax |m| = rnd p m := by rw [abs_of_nonneg h0, hn]
  unfold pack
  rw [dif_pos (by rw [e]; exact (le_abs_self _).trans_lt hr)]
  exact ⟨trivial, by show signed s (rndTiny p emax |m|) = _; rw [e]⟩

theorem rnd_signed (s : Bool) (m : ℚ) : rnd p (signed s m) = signed s (rnd p m) := by
  cases s
  · rfl
  · exact rnd_neg p _

theorem pack_signed (s : Bool) {m : ℚ} (h0 : 0 ≤ m) (hn : Flagged.normal p emax (signed s m) = true)
    (hr : |rnd p (signed s m)| < 2 ^ (emax + 1)) :
    (pack s m : Ieee p emax).Finite ∧ (pack s m : Ieee p emax).val = rnd p (signed s m) := by
  have hn' := rndTiny_normal hn
  rw [← signed_rndTiny, rnd_signed] at hn'
  rw [rnd_signed, signed_abs] at hr
  rw [rnd_signed]
  refine pack_normal s h0 ?_ hr
  cases s
  · exact hn'
  · exact neg_injective hn'

theorem packSum_normal (b : Bool) {v : ℚ} (hn : Flagged.normal p emax v = true) (hr : |rnd p v| < 2 ^ (emax + 1)) :
    (packSum b v : Ieee p emax).Finite ∧ (packSum b v : Ieee p emax).val = rnd p v := by
  unfold packSum
  split
  · rename_i h
    subst h
    refine ⟨trivial, ?_⟩
    rw [rnd_zero]
    cases b <;> simp [zero, val, signed]
  · have h := pack_signed (p := p) (emax := emax) (decide (v < 0)) (abs_nonneg v) (by rwa [signed_abs_self]) (by rwa [signed_abs_self])
    rw [signed_abs_self] at h
    have e : (pack (decide (v < 0)) |v| : Ieee p emax) = pack (decide (v < 0)) v := by unfold pack; simp only [abs_abs]
    rwa [e] at h

end Ieee

namespace Flagged

variable [NeZero p]

/-- While no flag is raised, the IEEE result is finite and the same number. -/
def Agree (x : Ieee p emax) (t : Flagged p emax) : Prop := t.clean = true → x.Finite ∧ x.val = t.val.val

theorem agree_neg {x : Ieee p emax} {s : Flagged p emax} (h : Agree x s) : Agree (-x) (-s) := fun hc =>
  ⟨Ieee.neg_finite.2 (h hc).1, by rw [Ieee.neg_val, (h hc).2]; rfl⟩

theorem agree_add {x y : Ieee p emax} {s t : Flagged p emax} (hx : Agree x s) (hy : Agree y t) : Agree (x + y) (s + t) := fun hc => by
  change (s.clean && t.clean && fits emax (s.val + t.val)) = true at hc
  simp only [Bool.and_eq_true, fits, decide_eq_true_eq] at hc
  obtain ⟨h1, e1⟩ := hx hc.1.1
  obtain ⟨h2, e2⟩ := hy hc.1.2
  have := Ieee.add_val h1 h2 (by rw [e1, e2]; exact hc.2)
  rw [e1, e2] at this
  exact this

theorem agree_sub {x y : Ieee p emax} {s t : Flagged p emax} (hx : Agree x s) (hy : Agree y t) : Agree (x - y) (s - t) := fun hc => by
  change (s.clean && t.clean && fits emax (s.val - t.val)) = true at hc
  simp only [Bool.and_eq_true, fits, decide_eq_true_eq] at hc
  obtain ⟨h1, e1⟩ := hx hc.1.1
  obtain ⟨h2, e2⟩ := hy hc.1.2
  have := Ieee.add_val h1 (Ieee.neg_finite.2 h2) (by rw [Ieee.neg_val, e1, e2, ← sub_eq_add_neg]; exact hc.2)
  rw [Ieee.neg_val, e1, e2, ← sub_eq_add_neg] at this
  exact this

theorem agree_mul {x y : Ieee p emax} {s t : Flagged p emax} (hx : Agree x s) (hy : Agree y t) : Agree (x * y) (s * t) := fun hc => by
  change (s.clean && t.clean && fits emax (s.val * t.val) && normal p emax (s.val.val * t.val.val)) = true at hc
  simp only [Bool.and_eq_true, fits, decide_eq_true_eq] at hc
  obtain ⟨⟨⟨c1, c2⟩, hr⟩, hn⟩ := hc
  obtain ⟨h1, e1⟩ := hx c1
  obtain ⟨h2, e2⟩ := hy c2
  change |rnd p (s.val.val * t.val.val)| < _ at hr
  show _ ∧ _ = rnd p (s.val.val * t.val.val)
  rw [← e1, ← e2] at hr hn ⊢
  match x, y, h1, h2 with
  | .num a m hm _, .num b n hn' _, _, _ =>
    have e : (Ieee.num a m hm ‹_› : Ieee p emax).val * (Ieee.num b n hn' ‹_› : Ieee p emax).val = Ieee.signed (a ^^ b) (m * n) :=
      Ieee.signed_mul a b m n
    rw [e] at hr hn ⊢
    exact Ieee.pack_signed _ (mul_nonneg hm hn') hn hr

theorem agree_div {x y : Ieee p emax} {s t : Flagged p emax} (hx : Agree x s) (hy : Agree y t) : Agree (x / y) (s / t) := fun hc => by
  change (s.clean && t.clean && fits emax (s.val / t.val) && normal p emax (s.val.val / t.val.val) && decide (t.val.val ≠ 0)) = true at hc
  simp only [Bool.and_eq_true, fits, decide_eq_true_eq] at hc
  obtain ⟨⟨⟨⟨c1, c2⟩, hr⟩, hn⟩, h0⟩ := hc
  obtain ⟨h1, e1⟩ := hx c1
  obtain ⟨h2, e2⟩ := hy c2
  change |rnd p (s.val.val / t.val.val)| < _ at hr
  show _ ∧ _ = rnd p (s.val.val / t.val.val)
  rw [← e1, ← e2] at hr hn ⊢
  rw [← e2] at h0
  match x, y, h1, h2 with
  | .num a m hm _, .num b n hn' _, _, _ =>
    have e : (Ieee.num a m hm ‹_› : Ieee p emax).val / (Ieee.num b n hn' ‹_› : Ieee p emax).val = Ieee.signed (a ^^ b) (m / n) :=
      Ieee.signed_div a b m n
    rw [e] at hr hn ⊢
    have hz : n ≠ 0 := fun hz => h0 (by subst hz; cases b <;> simp [Ieee.val, Ieee.signed])
    have ed : (Ieee.num a m hm ‹_› : Ieee p emax) / (Ieee.num b n hn' ‹_› : Ieee p emax) = Ieee.pack (a ^^ b) (m / n) := if_neg hz
    rw [ed]
    exact Ieee.pack_signed _ (div_nonneg hm hn') hn hr

theorem agree_mulAdd {x y z : Ieee p emax} {s t w : Flagged p emax} (hx : Agree x s) (hy : Agree y t) (hz : Agree z w) :
    Agree (mulAdd x y z) (mulAdd s t w) := fun hc => by
  change (s.clean && t.clean && w.clean && fits emax (mulAdd s.val t.val w.val) &&
    normal p emax (s.val.val * t.val.val + w.val.val)) = true at hc
  simp only [Bool.and_eq_true, fits, decide_eq_true_eq] at hc
  obtain ⟨⟨⟨⟨c1, c2⟩, c3⟩, hr⟩, hn⟩ := hc
  obtain ⟨h1, e1⟩ := hx c1
  obtain ⟨h2, e2⟩ := hy c2
  obtain ⟨h3, e3⟩ := hz c3
  change |rnd p (s.val.val * t.val.val + w.val.val)| < _ at hr
  show _ ∧ _ = rnd p (s.val.val * t.val.val + w.val.val)
  rw [← e1, ← e2, ← e3] at hr hn ⊢
  match x, y, z, h1, h2, h3 with
  | .num a m hm _, .num b n hn' _, .num c k hk _, _, _, _ =>
    exact Ieee.packSum_normal _ hn hr

variable [NeZero emax] in
instance : GradClosed (Agree (p := p) (emax := emax)) where
  zero := fun _ => ⟨trivial, rfl⟩
  one := fun _ => ⟨trivial, rfl⟩
  add := agree_add
  sub := agree_sub
  mul := agree_mul
  div := agree_div
  neg := agree_neg
  mulAdd := agree_mulAdd

omit [NeZero p] in
/-- An input. Infinities and NaN count as flagged. -/
def ofIeee (x : Ieee p emax) : Flagged p emax := ⟨⟨x.val, (Ieee.isNumber_val x).bits⟩, decide x.Finite⟩

omit [NeZero p] in
theorem agree_leaf (x : Ieee p emax) : Agree x (ofIeee x) := fun hc => ⟨of_decide_eq_true hc, rfl⟩

theorem valHom : GradHom (Flagged.val : Flagged p emax → Fl p) :=
  ⟨rfl, rfl, fun _ _ => rfl, fun _ _ => rfl, fun _ _ => rfl, fun _ _ => rfl, fun _ => rfl, fun _ _ _ => rfl⟩

end Flagged

end Verif
