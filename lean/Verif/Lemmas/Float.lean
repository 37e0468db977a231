import Mathlib.Analysis.Real.Sqrt
import Mathlib.Tactic.Linarith
import Mathlib.Tactic.Positivity
import Mathlib.Tactic.FieldSimp
import Mathlib.Tactic.Ring
import Verif.Model.Float

/-!
# Rounding of single precision floats
-/

namespace FF
namespace Ieee

/-! ## Magnitude bits -/

theorem magUnits_eq (e r : Nat) (h : e = 0 ∧ r ≤ 2 ^ 24 ∨ 2 ^ 23 ≤ r ∧ r ≤ 2 ^ 24) :
    magUnits (e * 2 ^ 23 + r) = r * 2 ^ e := by
  unfold magUnits
  by_cases h1 : r < 2 ^ 23
  · have h0 : e = 0 := by omega
    subst h0
    rw [if_pos (by omega)]; simp
  · rw [if_neg (by omega)]
    by_cases h2 : r = 2 ^ 24
    · subst h2
      rw [show (e * 2 ^ 23 + 2 ^ 24) % 2 ^ 23 = 0 by omega, show (e * 2 ^ 23 + 2 ^ 24) / 2 ^ 23 - 1 = e + 1 by omega,
        pow_succ 2 e]
      ring
    · rw [show 2 ^ 23 + (e * 2 ^ 23 + r) % 2 ^ 23 = r by omega, show (e * 2 ^ 23 + r) / 2 ^ 23 - 1 = e by omega]

/-- Every magnitude has this form. -/
theorem mag_form (b : Nat) : ∃ e r, b = e * 2 ^ 23 + r ∧ (e = 0 ∧ r < 2 ^ 24 ∨ 2 ^ 23 ≤ r ∧ r < 2 ^ 24) := by
  by_cases h : b < 2 ^ 23
  · exact ⟨0, b, by omega, by omega⟩
  · exact ⟨b / 2 ^ 23 - 1, 2 ^ 23 + b % 2 ^ 23, by omega, by omega⟩

theorem roundDiv_le {n d : Nat} (m : Nat) (hd : 0 < d) (h : n ≤ m * d) : roundDiv n d ≤ m := by
  have h1 := Nat.div_add_mod n d
  have h2 := Nat.mod_lt n hd
  unfold roundDiv
  have hq : n / d ≤ m := Nat.div_le_of_le_mul (by rw [Nat.mul_comm]; exact h)
  by_cases he : n / d = m
  · have : n % d = 0 := by
      rw [he, Nat.mul_comm] at h1; omega
    rw [if_pos (by omega)]; exact hq
  · have : n / d + 1 ≤ m := by omega
    split
    · exact hq
    · split <;> omega

theorem le_roundDiv {n d : Nat} (m : Nat) (hd : 0 < d) (h : m * d ≤ n) : m ≤ roundDiv n d := by
  have hq : m ≤ n / d := (Nat.le_div_iff_mul_le hd).mpr h
  unfold roundDiv
  split
  · exact hq
  · split <;> omega

/-- `roundDiv` is within a half of the quotient. -/
theorem roundDiv_spec (n d : Nat) (hd : 0 < d) :
    (2 * roundDiv n d * d ≤ 2 * n + d) ∧ (2 * n ≤ (2 * roundDiv n d + 1) * d) := by
  have h1 := Nat.div_add_mod n d
  have h2 := Nat.mod_lt n hd
  generalize hq : n / d = q at *
  generalize hr : n % d = r at *
  have h3 : n = q * d + r := by rw [Nat.mul_comm]; omega
  unfold roundDiv
  rw [hq, hr]
  have e1 : 2 * q * d = 2 * (q * d) := by ring
  have e2 : 2 * (q + 1) * d = 2 * (q * d) + 2 * d := by ring
  have e3 : (2 * q + 1) * d = 2 * (q * d) + d := by ring
  have e4 : (2 * (q + 1) + 1) * d = 2 * (q * d) + 3 * d := by ring
  split
  · rw [e1, e3]; omega
  · split
    · rw [e2, e4]; omega
    · rcases Nat.mod_two_eq_zero_or_one q with h | h <;> rw [h]
      · simp only [Nat.add_zero]; rw [e1, e3]; omega
      · rw [e2, e4]; omega

theorem roundDiv_mono {n d n' d' : Nat} (hd : 0 < d) (hd' : 0 < d') (h : n * d' ≤ n' * d) :
    roundDiv n d ≤ roundDiv n' d' := by
  have a := Nat.div_add_mod n d
  have b := Nat.div_add_mod n' d'
  have a2 := Nat.mod_lt n hd
  have b2 := Nat.mod_lt n' hd'
  have hq : n / d ≤ n' / d' := by
    rw [Nat.le_div_iff_mul_le hd']
    have h1 : n / d * d ≤ n := Nat.div_mul_le_self n d
    have h2 : n / d * d * d' ≤ n' * d := le_trans (Nat.mul_le_mul_right d' h1) h
    have h3 : n / d * d' * d ≤ n' * d := by
      calc n / d * d' * d = n / d * d * d' := by ring
        _ ≤ _ := h2
    exact Nat.le_of_mul_le_mul_right h3 hd
  unfold roundDiv
  generalize hQ : n / d = q at *
  generalize hQ' : n' / d' = q' at *
  generalize hR : n % d = r at *
  generalize hR' : n' % d' = r' at *
  by_cases hqq : q = q'
  · subst hqq
    have hrr : r * d' ≤ r' * d := by
      rw [← a, ← b] at h
      have e1 : (d * q + r) * d' = q * d * d' + r * d' := by ring
      have e2 : (d' * q + r') * d = q * d * d' + r' * d := by ring
      rw [e1, e2] at h; omega
    by_cases c1 : 2 * r < d
    · rw [if_pos c1]
      split
      · exact le_rfl
      · split <;> omega
    · rw [if_neg c1]
      have c1' : ¬ 2 * r' < d' := by
        intro hc
        have h5 : d * d' ≤ 2 * r * d' := Nat.mul_le_mul_right d' (by omega)
        have h6 : 2 * r' * d < d' * d := Nat.mul_lt_mul_of_pos_right hc hd
        have h7 : 2 * r * d' ≤ 2 * r' * d := by
          rw [Nat.mul_assoc, Nat.mul_assoc]; omega
        have h8 : d * d' = d' * d := Nat.mul_comm _ _
        omega
      rw [if_neg c1']
      by_cases c2 : d < 2 * r
      · rw [if_pos c2]
        have : d' < 2 * r' := by
          by_contra hc
          have h5 : d * d' < 2 * r * d' := Nat.mul_lt_mul_of_pos_right c2 hd'
          have h6 : 2 * r' * d ≤ d' * d := Nat.mul_le_mul_right d (by omega)
          have h7 : 2 * r * d' ≤ 2 * r' * d := by
            rw [Nat.mul_assoc, Nat.mul_assoc]; omega
          have h8 : d * d' = d' * d := Nat.mul_comm _ _
          omega
        rw [if_pos this]
      · rw [if_neg c2]
        split <;> omega
  · have : q + 1 ≤ q' := by omega
    have l1 : (if 2 * r < d then q else if d < 2 * r then q + 1 else q + q % 2) ≤ q + 1 := by
      split
      · omega
      · split <;> omega
    have l2 : q' ≤ (if 2 * r' < d' then q' else if d' < 2 * r' then q' + 1 else q' + q' % 2) := by
      split
      · omega
      · split <;> omega
    omega

/-- The exponent that `roundMag` chooses. -/
def expo (n d : Nat) : Nat := Nat.log2 (n / d) - 23

theorem log2_spec {k : Nat} (h : k ≠ 0) : 2 ^ Nat.log2 k ≤ k ∧ k < 2 ^ (Nat.log2 k + 1) :=
  ⟨Nat.log2_self_le h, Nat.lt_log2_self⟩

theorem expo_hi (n d : Nat) (hd : 0 < d) : n < 2 ^ 24 * (d * 2 ^ expo n d) := by
  unfold expo
  have h : n < (n / d + 1) * d := by
    have := Nat.lt_div_mul_add (a := n) hd
    rw [Nat.add_mul, Nat.one_mul]; exact this
  by_cases hk : n / d = 0
  · rw [hk] at h ⊢
    have e : Nat.log2 0 = 0 := rfl
    rw [e]
    simp only [Nat.zero_sub, Nat.pow_zero]
    omega
  · obtain ⟨_, h2⟩ := log2_spec hk
    have h3 : n / d + 1 ≤ 2 ^ 24 * 2 ^ (Nat.log2 (n / d) - 23) := by
      rw [← pow_add]
      exact le_trans h2 (Nat.pow_le_pow_right (by norm_num) (by omega))
    calc n < (n / d + 1) * d := h
      _ ≤ (2 ^ 24 * 2 ^ (Nat.log2 (n / d) - 23)) * d := Nat.mul_le_mul_right d h3
      _ = _ := by ring

theorem expo_lo (n d : Nat) (h : expo n d ≠ 0) : 2 ^ 23 * (d * 2 ^ expo n d) ≤ n := by
  unfold expo at h ⊢
  have hk : n / d ≠ 0 := by
    intro hk; rw [hk] at h; exact h rfl
  obtain ⟨h1, _⟩ := log2_spec hk
  have h3 : 2 ^ 23 * 2 ^ (Nat.log2 (n / d) - 23) ≤ n / d := by
    rw [← pow_add]
    exact le_trans (Nat.pow_le_pow_right (by norm_num) (by omega)) h1
  calc 2 ^ 23 * (d * 2 ^ (Nat.log2 (n / d) - 23)) = 2 ^ 23 * 2 ^ (Nat.log2 (n / d) - 23) * d := by ring
    _ ≤ n / d * d := Nat.mul_le_mul_right d h3
    _ ≤ n := Nat.div_mul_le_self n d

/-- The magnitude bits before the overflow is cut off. -/
def rawMag (n d : Nat) : Nat := expo n d * 2 ^ 23 + roundDiv n (d * 2 ^ expo n d)

theorem roundMag_eq (n d : Nat) : roundMag n d = min infMag (rawMag n d) := rfl

theorem pow_pos' (e : Nat) : 0 < 2 ^ e := Nat.pow_pos (by norm_num)

theorem rawMag_r (n d : Nat) (hd : 0 < d) :
    expo n d = 0 ∧ roundDiv n (d * 2 ^ expo n d) ≤ 2 ^ 24 ∨
      2 ^ 23 ≤ roundDiv n (d * 2 ^ expo n d) ∧ roundDiv n (d * 2 ^ expo n d) ≤ 2 ^ 24 := by
  have hp : 0 < d * 2 ^ expo n d := Nat.mul_pos hd (pow_pos' _)
  have h1 := roundDiv_le (2 ^ 24) hp (le_of_lt (expo_hi n d hd))
  by_cases h : expo n d = 0
  · exact .inl ⟨h, h1⟩
  · exact .inr ⟨le_roundDiv (2 ^ 23) hp (expo_lo n d h), h1⟩

theorem magUnits_rawMag (n d : Nat) (hd : 0 < d) :
    magUnits (rawMag n d) = roundDiv n (d * 2 ^ expo n d) * 2 ^ expo n d :=
  magUnits_eq _ _ (rawMag_r n d hd)

theorem rawMag_mono {n d n' d' : Nat} (hd : 0 < d) (hd' : 0 < d') (h : n * d' ≤ n' * d) : rawMag n d ≤ rawMag n' d' := by
  have hq : n / d ≤ n' / d' := by
    rw [Nat.le_div_iff_mul_le hd']
    have h1 : n / d * d ≤ n := Nat.div_mul_le_self n d
    have h2 : n / d * d * d' ≤ n' * d := le_trans (Nat.mul_le_mul_right d' h1) h
    have h3 : n / d * d' * d ≤ n' * d := by
      calc n / d * d' * d = n / d * d * d' := by ring
        _ ≤ _ := h2
    exact Nat.le_of_mul_le_mul_right h3 hd
  have he : expo n d ≤ expo n' d' := by
    unfold expo
    by_cases hk : n / d = 0
    · rw [hk]; simp [show Nat.log2 0 = 0 from rfl]
    · have h1 := (log2_spec hk).1
      have h2 := (log2_spec (k := n' / d') (fun h0 => hk (Nat.le_zero.mp (h0 ▸ hq)))).2
      have : 2 ^ Nat.log2 (n / d) < 2 ^ (Nat.log2 (n' / d') + 1) := lt_of_le_of_lt (le_trans h1 hq) h2
      have := (Nat.pow_lt_pow_iff_right (by norm_num : 1 < 2)).mp this
      omega
  unfold rawMag
  by_cases hee : expo n d = expo n' d'
  · have := roundDiv_mono (n := n) (d := d * 2 ^ expo n d) (n' := n') (d' := d' * 2 ^ expo n' d')
      (Nat.mul_pos hd (pow_pos' _)) (Nat.mul_pos hd' (pow_pos' _)) (by
        rw [← hee]
        calc n * (d' * 2 ^ expo n d) = n * d' * 2 ^ expo n d := by ring
          _ ≤ n' * d * 2 ^ expo n d := Nat.mul_le_mul_right _ h
          _ = _ := by ring)
    rw [hee] at this ⊢; omega
  · have h1 := rawMag_r n d hd
    have h2 := rawMag_r n' d' hd'
    generalize roundDiv n (d * 2 ^ expo n d) = r at *
    generalize roundDiv n' (d' * 2 ^ expo n' d') = r' at *
    have : expo n d + 1 ≤ expo n' d' := by omega
    have : (expo n d + 1) * 2 ^ 23 ≤ expo n' d' * 2 ^ 23 := Nat.mul_le_mul_right _ this
    rw [Nat.add_mul] at this
    omega

theorem roundMag_mono {n d n' d' : Nat} (hd : 0 < d) (hd' : 0 < d') (h : n * d' ≤ n' * d) : roundMag n d ≤ roundMag n' d' := by
  have := rawMag_mono hd hd' h
  rw [roundMag_eq, roundMag_eq]; omega

/-- A float is rounded to itself. -/
theorem rawMag_magUnits (b d : Nat) (hd : 0 < d) : rawMag (magUnits b * d) d = b := by
  obtain ⟨e, r, hb, h⟩ := mag_form b
  have hm : magUnits b = r * 2 ^ e := by
    rw [hb]; exact magUnits_eq e r (by omega)
  have hdiv : magUnits b * d / d = magUnits b := Nat.mul_div_cancel _ hd
  have hex : expo (magUnits b * d) d = e := by
    unfold expo
    rw [hdiv, hm]
    rcases h with ⟨rfl, h⟩ | ⟨h1, h2⟩
    · simp only [Nat.pow_zero, Nat.mul_one]
      by_cases hr : r = 0
      · subst hr; rfl
      · have := (log2_spec hr).1
        have : 2 ^ Nat.log2 r < 2 ^ 24 := by omega
        have := (Nat.pow_lt_pow_iff_right (by norm_num : 1 < 2)).mp this
        omega
    · have hr : r * 2 ^ e ≠ 0 := Nat.mul_ne_zero (by omega) (pow_pos' e).ne'
      obtain ⟨a, b'⟩ := log2_spec hr
      have c1 : 2 ^ (23 + e) ≤ r * 2 ^ e := by rw [pow_add]; exact Nat.mul_le_mul_right _ h1
      have c2 : r * 2 ^ e < 2 ^ (24 + e) := by rw [pow_add]; exact Nat.mul_lt_mul_of_pos_right h2 (pow_pos' e)
      have d1 := (Nat.pow_lt_pow_iff_right (by norm_num : 1 < 2)).mp (lt_of_le_of_lt c1 b')
      have d2 := (Nat.pow_lt_pow_iff_right (by norm_num : 1 < 2)).mp (lt_of_le_of_lt a c2)
      omega
  unfold rawMag
  rw [hex, hm, show r * 2 ^ e * d = r * (d * 2 ^ e) by ring]
  have hp : 0 < d * 2 ^ e := Nat.mul_pos hd (pow_pos' _)
  have h1 := roundDiv_le r hp (le_refl (r * (d * 2 ^ e)))
  have h2 := le_roundDiv r hp (le_refl (r * (d * 2 ^ e)))
  omega

theorem magUnits_mono {a b : Nat} (h : a ≤ b) : magUnits a ≤ magUnits b := by
  by_contra hc
  have := rawMag_mono (n := magUnits b * 1) (d := 1) (n' := magUnits a * 1) (d' := 1) (by norm_num) (by norm_num) (by omega)
  rw [rawMag_magUnits _ _ (by norm_num), rawMag_magUnits _ _ (by norm_num)] at this
  have : a = b := by omega
  subst this; omega

/-! ## Values -/

/-- The float is a number. -/
def Finite (x : F32) : Prop := f32Mag x < infMag

/-- The number that a finite float stands for. -/
noncomputable def val (x : F32) : ℝ := (units x : ℝ) / 2 ^ 149

theorem pack_mag {neg : Bool} {m : Nat} (h : m ≤ infMag) : f32Mag (pack neg m) = m := by
  have : infMag = 0x7f800000 := rfl
  unfold f32Mag pack
  rw [UInt32.toNat_ofNat']
  cases neg <;> simp <;> omega

theorem pack_neg {neg : Bool} {m : Nat} (h : m ≤ infMag) : isNeg (pack neg m) = neg := by
  have : infMag = 0x7f800000 := rfl
  unfold isNeg pack
  rw [UInt32.toNat_ofNat']
  cases neg <;> simp <;> omega

theorem val_pack {neg : Bool} {m : Nat} (h : m ≤ infMag) :
    val (pack neg m) = (if neg then -1 else 1) * ((magUnits m : ℝ) / 2 ^ 149) := by
  unfold val units
  rw [pack_mag h, pack_neg h]
  cases neg <;> simp
  ring

theorem val_eq (x : F32) : val x = (if isNeg x then -1 else 1) * ((magUnits (f32Mag x) : ℝ) / 2 ^ 149) := by
  unfold val units
  cases isNeg x <;> simp
  ring

theorem abs_val (x : F32) : |val x| = (magUnits (f32Mag x) : ℝ) / 2 ^ 149 := by
  rw [val_eq, abs_mul]
  have h : |((magUnits (f32Mag x) : ℝ) / 2 ^ 149)| = (magUnits (f32Mag x) : ℝ) / 2 ^ 149 := abs_of_nonneg (by positivity)
  rw [h]
  cases isNeg x <;> simp

theorem roundMag_le (n d : Nat) : roundMag n d ≤ infMag := by rw [roundMag_eq]; omega

/-- `z` units lie on the same side of every multiple of a half unit as `n / d`. -/
structure SameSide (n d : Nat) (z : ℝ) : Prop where
  lo : ∀ j : Nat, j * d ≤ 2 * n → (j : ℝ) ≤ 2 * z
  hi : ∀ j : Nat, 2 * n ≤ j * d → 2 * z ≤ (j : ℝ)
  tie : ∀ j : Nat, 2 * z = (j : ℝ) → 2 * n = j * d

theorem sameSide_div (n d : Nat) (hd : 0 < d) : SameSide n d ((n : ℝ) / d) := by
  have hd' : (0 : ℝ) < d := by exact_mod_cast hd
  constructor
  · intro j h
    rw [← mul_div_assoc, le_div_iff₀ hd']
    exact_mod_cast h
  · intro j h
    rw [← mul_div_assoc, div_le_iff₀ hd']
    exact_mod_cast h
  · intro j h
    rw [← mul_div_assoc, div_eq_iff hd'.ne'] at h
    exact_mod_cast h

/-- The rounding error is at most half of the last place. -/
theorem rawMag_error {n d : Nat} {z : ℝ} (hd : 0 < d) (h : SameSide n d z) :
    |(magUnits (rawMag n d) : ℝ) - z| ≤ 2 ^ expo n d / 2 := by
  rw [magUnits_rawMag n d hd]
  have hp : 0 < d * 2 ^ expo n d := Nat.mul_pos hd (pow_pos' _)
  obtain ⟨h1, h2⟩ := roundDiv_spec n (d * 2 ^ expo n d) hp
  generalize roundDiv n (d * 2 ^ expo n d) = r at *
  generalize expo n d = e at *
  have hhi := h.hi ((2 * r + 1) * 2 ^ e) (by
    calc 2 * n ≤ _ := h2
      _ = _ := by ring)
  push_cast at hhi ⊢
  have hlo : (2 * r : ℝ) * 2 ^ e - 2 ^ e ≤ 2 * z := by
    by_cases hr : r = 0
    · subst hr
      have h0 := h.lo 0 (by simp)
      have : (0 : ℝ) < 2 ^ e := by positivity
      push_cast at h0 ⊢
      linarith
    · have := h.lo ((2 * r - 1) * 2 ^ e) (by
        have e1 : (2 * r - 1) * 2 ^ e * d = 2 * r * (d * 2 ^ e) - d * 2 ^ e := by
          rw [Nat.sub_mul, Nat.sub_mul]
          congr 1 <;> ring
        rw [e1]; omega)
      rw [Nat.cast_mul, Nat.cast_sub (by omega)] at this
      push_cast at this
      linarith
  rw [abs_le]
  constructor <;> linarith

/-- Unit roundoff of single precision. -/
noncomputable def roundoff : ℝ := 1 / 2 ^ 24

/-- The rounding error is relative, except that it may be half a unit. -/
theorem rawMag_rel {n d : Nat} {z : ℝ} (hd : 0 < d) (h : SameSide n d z) :
    |(magUnits (rawMag n d) : ℝ) - z| ≤ max (roundoff * z) (1 / 2) := by
  have h0 := rawMag_error hd h
  by_cases he : expo n d = 0
  · rw [he] at h0
    exact le_trans h0 (by simp)
  · have h1 := expo_lo n d he
    have h2 := h.lo (2 ^ 24 * 2 ^ expo n d) (by
      calc 2 ^ 24 * 2 ^ expo n d * d = 2 * (2 ^ 23 * (d * 2 ^ expo n d)) := by ring
        _ ≤ 2 * n := by omega)
    refine le_trans h0 (le_trans ?_ (le_max_left _ _))
    push_cast at h2
    unfold roundoff
    rw [div_mul_eq_mul_div, one_mul, le_div_iff₀ (by positivity)]
    linarith

/-- Integers below `2^24` units are exact. -/
theorem rawMag_rel_int (n : Nat) : |(magUnits (rawMag n 1) : ℝ) - n| ≤ roundoff * n := by
  by_cases he : n < 2 ^ 24
  · have hm : magUnits n = n := by
      have := magUnits_eq 0 n (by omega)
      simpa using this
    have := rawMag_magUnits n 1 (by norm_num)
    rw [hm, Nat.mul_one] at this
    rw [this, hm]
    have : (0 : ℝ) ≤ roundoff * n := by unfold roundoff; positivity
    simpa using this
  · have h := rawMag_rel (n := n) (d := 1) (z := n) (by norm_num) (by simpa using sameSide_div n 1 (by norm_num))
    rwa [max_eq_left] at h
    unfold roundoff
    have : ((2 ^ 24 : Nat) : ℝ) ≤ n := by exact_mod_cast (by omega : 2 ^ 24 ≤ n)
    push_cast at this
    rw [div_mul_eq_mul_div, one_mul, div_le_div_iff₀ (by norm_num) (by positivity)]
    linarith

theorem roundMag_of_finite {n d : Nat} (h : roundMag n d < infMag) : roundMag n d = rawMag n d := by
  rw [roundMag_eq] at h ⊢; omega

/-! ## Operations -/

theorem infMag_eq : infMag = 0x7f800000 := rfl

theorem Finite.notNan {x : F32} (h : Finite x) : isNan x = false := by
  unfold isNan; simp only [decide_eq_false_iff_not]; unfold Finite at h; omega

theorem Finite.notInf {x : F32} (h : Finite x) : isInf x = false := by
  unfold isInf; unfold Finite at h
  simp only [beq_eq_false_iff_ne]; omega

/-- A rounded magnitude with a sign. -/
theorem val_roundMag {s : Bool} {n d : Nat} {z : ℝ} (hd : 0 < d) (hz : SameSide n d z) (hf : Finite (pack s (roundMag n d))) :
    |val (pack s (roundMag n d)) - (if s then -1 else 1) * (z / 2 ^ 149)| ≤ max (roundoff * (z / 2 ^ 149)) (1 / 2 ^ 150) := by
  have hl := roundMag_le n d
  unfold Finite at hf
  rw [pack_mag hl] at hf
  rw [val_pack hl, roundMag_of_finite hf]
  have h := rawMag_rel hd hz
  rw [← mul_sub, abs_mul, ← sub_div, abs_div]
  have e1 : |((if s then -1 else 1 : ℝ))| = 1 := by cases s <;> simp
  have e2 : |((2 : ℝ) ^ 149)| = 2 ^ 149 := abs_of_pos (by positivity)
  have e3 : roundoff * (z / 2 ^ 149) * 2 ^ 149 = roundoff * z := by rw [mul_assoc, div_mul_cancel₀ _ (by positivity)]
  have e4 : (1 : ℝ) / 2 ^ 150 * 2 ^ 149 = 1 / 2 := by norm_num
  rw [e1, one_mul, e2, div_le_iff₀ (by positivity), max_mul_of_nonneg _ _ (by positivity), e3, e4]
  exact h

theorem mag_units (x : F32) : |(units x : ℝ)| = magUnits (f32Mag x) := by
  unfold units
  split <;> simp

theorem add_finite_eq {x y : F32} (hx : Finite x) (hy : Finite y) : add x y =
    if units x + units y = 0 then pack (isNeg x && isNeg y) 0
    else pack (decide (units x + units y < 0)) (roundMag (units x + units y).natAbs 1) := by
  unfold add
  simp only [hx.notNan, hy.notNan, hx.notInf, hy.notInf, Bool.or_self, Bool.false_eq_true, if_false]

theorem add_spec {x y : F32} (hx : Finite x) (hy : Finite y) (hf : Finite (add x y)) :
    |val (add x y) - (val x + val y)| ≤ roundoff * |val x + val y| := by
  have hv : val x + val y = ((units x + units y : Int) : ℝ) / 2 ^ 149 := by
    unfold val; push_cast; ring
  rw [add_finite_eq hx hy] at hf ⊢
  generalize hz : units x + units y = z at *
  by_cases h0 : z = 0
  · subst h0
    rw [if_pos rfl, hv, val_pack (by decide)]
    simp [magUnits]
  · rw [if_neg h0] at hf ⊢
    have hl := roundMag_le z.natAbs 1
    unfold Finite at hf
    rw [pack_mag hl] at hf
    rw [val_pack hl, roundMag_of_finite hf, hv]
    have h := rawMag_rel_int z.natAbs
    have hc : ((z.natAbs : Nat) : ℝ) = |(z : ℝ)| := by rw [← Int.cast_abs, Int.abs_eq_natAbs]; simp
    rw [hc] at h
    have e2 : |((2 : ℝ) ^ 149)| = 2 ^ 149 := abs_of_pos (by positivity)
    rw [abs_div, e2, ← mul_div_assoc roundoff, le_div_iff₀ (by positivity)]
    have e3 : (0 : ℝ) ≤ 2 ^ 149 := by positivity
    rw [← e2, ← abs_mul, e2, sub_mul, mul_assoc, div_mul_cancel₀ _ (by positivity), div_mul_cancel₀ _ (by positivity)]
    by_cases hn : z < 0
    · rw [decide_eq_true hn, if_pos rfl]
      have : |(z : ℝ)| = -z := abs_of_neg (by exact_mod_cast hn)
      rw [this] at h ⊢
      rw [← abs_neg]
      refine le_trans (le_of_eq (congrArg _ ?_)) h
      ring
    · rw [decide_eq_false hn, if_neg (by simp)]
      have : |(z : ℝ)| = z := abs_of_nonneg (by exact_mod_cast not_lt.mp hn)
      rw [this] at h ⊢
      rw [one_mul]
      exact h

theorem sign_mul (a b : Bool) : (if (a != b) then -1 else 1 : ℝ) = (if a then -1 else 1) * (if b then -1 else 1) := by
  cases a <;> cases b <;> simp

theorem mul_finite_eq {x y : F32} (hx : Finite x) (hy : Finite y) : mul x y =
    pack (isNeg x != isNeg y) (roundMag (magUnits (f32Mag x) * magUnits (f32Mag y)) (2 ^ 149)) := by
  unfold mul
  simp only [hx.notNan, hy.notNan, hx.notInf, hy.notInf, Bool.or_self, Bool.false_eq_true, if_false]

theorem mul_spec {x y : F32} (hx : Finite x) (hy : Finite y) (hf : Finite (mul x y)) :
    |val (mul x y) - val x * val y| ≤ max (roundoff * |val x * val y|) (1 / 2 ^ 150) := by
  rw [mul_finite_eq hx hy] at hf ⊢
  have h := val_roundMag (pow_pos' 149) (sameSide_div (magUnits (f32Mag x) * magUnits (f32Mag y)) (2 ^ 149) (pow_pos' 149)) hf
  rw [sign_mul] at h
  rw [abs_mul, abs_val, abs_val, val_eq x, val_eq y]
  rw [Nat.cast_mul, Nat.cast_pow, Nat.cast_ofNat] at h
  have e1 : ((if isNeg x then -1 else 1 : ℝ) * (if isNeg y then -1 else 1)) *
      ((magUnits (f32Mag x) : ℝ) * magUnits (f32Mag y) / 2 ^ 149 / 2 ^ 149) =
      (if isNeg x then -1 else 1) * ((magUnits (f32Mag x) : ℝ) / 2 ^ 149) *
        ((if isNeg y then -1 else 1) * ((magUnits (f32Mag y) : ℝ) / 2 ^ 149)) := by
    ring
  have e2 : (magUnits (f32Mag x) : ℝ) * magUnits (f32Mag y) / 2 ^ 149 / 2 ^ 149 =
      (magUnits (f32Mag x) : ℝ) / 2 ^ 149 * ((magUnits (f32Mag y) : ℝ) / 2 ^ 149) := by ring
  rw [e1, e2] at h
  exact h

theorem div_finite_eq {x y : F32} (hx : Finite x) (hy : Finite y) (h0 : f32Mag y ≠ 0) : div x y =
    pack (isNeg x != isNeg y) (roundMag (magUnits (f32Mag x) * 2 ^ 149) (magUnits (f32Mag y))) := by
  unfold div
  simp only [hx.notNan, hy.notNan, hx.notInf, hy.notInf, Bool.or_self, Bool.false_eq_true, if_false, beq_iff_eq, h0]

theorem magUnits_zero : magUnits 0 = 0 := rfl

theorem magUnits_pos {b : Nat} (h : b ≠ 0) : 0 < magUnits b := by
  by_contra hc
  have h1 := rawMag_magUnits b 1 (by norm_num)
  have h2 := rawMag_magUnits 0 1 (by norm_num)
  rw [show magUnits b = 0 by omega] at h1
  rw [magUnits_zero] at h2
  omega

theorem div_spec {x y : F32} (hx : Finite x) (hy : Finite y) (h0 : f32Mag y ≠ 0) (hf : Finite (div x y)) :
    |val (div x y) - val x / val y| ≤ max (roundoff * |val x / val y|) (1 / 2 ^ 150) := by
  rw [div_finite_eq hx hy h0] at hf ⊢
  have hm := magUnits_pos h0
  have hm' : (magUnits (f32Mag y) : ℝ) ≠ 0 := by exact_mod_cast hm.ne'
  have h := val_roundMag hm (sameSide_div (magUnits (f32Mag x) * 2 ^ 149) (magUnits (f32Mag y)) hm) hf
  rw [sign_mul] at h
  rw [abs_div, abs_val, abs_val, val_eq x, val_eq y]
  rw [Nat.cast_mul, Nat.cast_pow, Nat.cast_ofNat] at h
  have e1 : ((if isNeg x then -1 else 1 : ℝ) * (if isNeg y then -1 else 1)) *
      ((magUnits (f32Mag x) : ℝ) * 2 ^ 149 / magUnits (f32Mag y) / 2 ^ 149) =
      (if isNeg x then -1 else 1) * ((magUnits (f32Mag x) : ℝ) / 2 ^ 149) /
        ((if isNeg y then -1 else 1) * ((magUnits (f32Mag y) : ℝ) / 2 ^ 149)) := by
    cases isNeg x <;> cases isNeg y <;> simp <;> field_simp
  have e2 : (magUnits (f32Mag x) : ℝ) * 2 ^ 149 / magUnits (f32Mag y) / 2 ^ 149 =
      (magUnits (f32Mag x) : ℝ) / 2 ^ 149 / ((magUnits (f32Mag y) : ℝ) / 2 ^ 149) := by
    field_simp
  rw [e1, e2] at h
  exact h

/-! ### Square root -/

theorem isqrtF_spec (k n r : Nat) (h1 : r * r ≤ n) (h2 : n < (r + 2 ^ k) * (r + 2 ^ k)) :
    isqrtF k n r * isqrtF k n r ≤ n ∧ n < (isqrtF k n r + 1) * (isqrtF k n r + 1) := by
  induction k generalizing r with
  | zero => exact ⟨h1, by simpa [isqrtF] using h2⟩
  | succ k ih =>
    unfold isqrtF
    split
    · rename_i h
      exact ih _ h (by rw [Nat.add_assoc, ← Nat.two_mul, ← pow_succ']; exact h2)
    · rename_i h
      exact ih _ h1 (by omega)

theorem isqrt_spec (n : Nat) : isqrt n * isqrt n ≤ n ∧ n < (isqrt n + 1) * (isqrt n + 1) := by
  refine isqrtF_spec _ n 0 (by simp) ?_
  rw [Nat.zero_add]
  have := Nat.lt_log2_self (n := n)
  calc n < 2 ^ (Nat.log2 n + 1) := this
    _ = 2 ^ (Nat.log2 n + 1) * 1 := by ring
    _ ≤ _ := Nat.mul_le_mul_left _ (pow_pos' _)

theorem sameSide_sqrt (m : Nat) :
    SameSide (2 * isqrt (4 * m) + (if isqrt (4 * m) * isqrt (4 * m) = 4 * m then 0 else 1)) 4 (Real.sqrt m) := by
  obtain ⟨h1, h2⟩ := isqrt_spec (4 * m)
  generalize hs : isqrt (4 * m) = s at *
  have e : 2 * Real.sqrt m = Real.sqrt ((4 * m : Nat) : ℝ) := by
    push_cast
    rw [Real.sqrt_mul (by norm_num), show (4 : ℝ) = 2 ^ 2 by norm_num, Real.sqrt_sq (by norm_num)]
  have h1' : (s : ℝ) ≤ Real.sqrt ((4 * m : Nat) : ℝ) := by
    apply Real.le_sqrt_of_sq_le
    rw [pow_two]; exact_mod_cast h1
  have h2' : Real.sqrt ((4 * m : Nat) : ℝ) ≤ (s : ℝ) + 1 := by
    rw [Real.sqrt_le_left (by positivity), pow_two]
    exact_mod_cast h2.le
  constructor
  · intro j hj
    rw [e]
    refine le_trans ?_ h1'
    have : j ≤ s := by split at hj <;> omega
    exact_mod_cast this
  · intro j hj
    rw [e]
    split at hj
    · rename_i hsq
      rw [← hsq]
      push_cast
      rw [Real.sqrt_mul_self (by positivity)]
      have : s ≤ j := by omega
      exact_mod_cast this
    · refine le_trans h2' ?_
      have : s + 1 ≤ j := by omega
      exact_mod_cast this
  · intro j hj
    rw [e] at hj
    have hj2 : 4 * m = j * j := by
      have h3 := Real.mul_self_sqrt (show (0 : ℝ) ≤ ((4 * m : Nat) : ℝ) by positivity)
      rw [hj] at h3
      exact_mod_cast h3.symm
    have hsj : s = j := by
      rw [hj2] at h1 h2
      have a := Nat.mul_self_le_mul_self_iff.mp h1
      have b := Nat.mul_self_lt_mul_self_iff.mp h2
      omega
    rw [if_pos (by rw [hsj, hj2]), hsj]; omega

theorem sqrt_finite_eq {x : F32} (hx : Finite x) (h0 : f32Mag x ≠ 0) (hn : isNeg x = false) : sqrt x =
    pack false (roundMag (2 * isqrt (4 * (magUnits (f32Mag x) * 2 ^ 149)) +
      (if isqrt (4 * (magUnits (f32Mag x) * 2 ^ 149)) * isqrt (4 * (magUnits (f32Mag x) * 2 ^ 149)) =
        4 * (magUnits (f32Mag x) * 2 ^ 149) then 0 else 1)) 4) := by
  unfold sqrt
  simp only [hx.notNan, hx.notInf, Bool.false_eq_true, if_false, beq_iff_eq, h0, hn]

theorem sqrt_units (m : Nat) : Real.sqrt ((m * 2 ^ 149 : Nat) : ℝ) / 2 ^ 149 = Real.sqrt ((m : ℝ) / 2 ^ 149) := by
  rw [Real.sqrt_div (by positivity), Nat.cast_mul, Nat.cast_pow, Nat.cast_ofNat]
  rw [Real.sqrt_mul (by positivity), div_eq_div_iff (by positivity) (by positivity), mul_assoc,
    Real.mul_self_sqrt (by positivity)]

theorem sqrt_spec {x : F32} (hx : Finite x) (h0 : f32Mag x ≠ 0) (hn : isNeg x = false) (hf : Finite (sqrt x)) :
    |val (sqrt x) - Real.sqrt (val x)| ≤ roundoff * Real.sqrt (val x) := by
  rw [sqrt_finite_eq hx h0 hn] at hf ⊢
  have h := val_roundMag (by norm_num) (sameSide_sqrt (magUnits (f32Mag x) * 2 ^ 149)) hf
  rw [sqrt_units] at h
  have e : val x = (magUnits (f32Mag x) : ℝ) / 2 ^ 149 := by rw [val_eq, hn]; simp
  rw [e]
  simp only [Bool.false_eq_true, if_false, one_mul] at h
  rwa [max_eq_left] at h
  have hm : 1 ≤ magUnits (f32Mag x) := magUnits_pos h0
  have hm' : (1 : ℝ) ≤ magUnits (f32Mag x) := by exact_mod_cast hm
  have h1 : (1 : ℝ) / 2 ^ 75 ≤ Real.sqrt ((magUnits (f32Mag x) : ℝ) / 2 ^ 149) := by
    apply Real.le_sqrt_of_sq_le
    rw [div_pow, ← pow_mul, one_pow, div_le_div_iff₀ (by positivity) (by positivity)]
    have : (2 : ℝ) ^ (75 * 2) = 2 ^ 149 * 2 := by norm_num
    rw [this]; nlinarith [show (0 : ℝ) < 2 ^ 149 by positivity]
  unfold roundoff
  calc (1 : ℝ) / 2 ^ 150 ≤ 1 / 2 ^ 24 * (1 / 2 ^ 75) := by norm_num
    _ ≤ _ := mul_le_mul_of_nonneg_left h1 (by positivity)

end Ieee
end FF
