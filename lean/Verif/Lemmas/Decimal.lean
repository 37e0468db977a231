import Mathlib.Tactic.Linarith
import Mathlib.Tactic.Ring
import Mathlib.Tactic.NormNum
import Mathlib.Tactic.Positivity
import Mathlib.Algebra.Order.Ring.Abs
import Verif.Lemmas.FloatNearest
import Verif.Lemmas.Text
import Verif.Model.Decimal

/-!
# Decimal texts of floats: lemmas
-/

namespace FF
namespace Ieee

/-! ## The interval of the numbers that are rounded to a float -/

theorem mag_split (b : Nat) : ∃ r, b = lastPlace b * 2 ^ 23 + r ∧ (lastPlace b = 0 ∧ r < 2 ^ 24 ∨ 2 ^ 23 ≤ r ∧ r < 2 ^ 24) ∧
    magUnits b = r * 2 ^ lastPlace b ∧ (isPowerMag b = true ↔ r = 2 ^ 23) := by
  have hform : ∃ r, b = lastPlace b * 2 ^ 23 + r ∧ (lastPlace b = 0 ∧ r < 2 ^ 24 ∨ 2 ^ 23 ≤ r ∧ r < 2 ^ 24) ∧
      (isPowerMag b = true ↔ r = 2 ^ 23) := by
    unfold lastPlace isPowerMag
    by_cases h : b < 2 ^ 23
    · refine ⟨b, by rw [if_pos h]; omega, by rw [if_pos h]; omega, ?_⟩
      simp only [Bool.and_eq_true, decide_eq_true_eq, beq_iff_eq]
      omega
    · refine ⟨2 ^ 23 + b % 2 ^ 23, by rw [if_neg h]; omega, by omega, ?_⟩
      simp only [Bool.and_eq_true, decide_eq_true_eq, beq_iff_eq]
      omega
  obtain ⟨r, h1, h2, h3⟩ := hform
  refine ⟨r, h1, h2, ?_, h3⟩
  conv => lhs; rw [h1]
  exact magUnits_eq _ _ (by omega)

theorem gap_up (b : Nat) : magUnits (b + 1) = magUnits b + 2 ^ lastPlace b := by
  obtain ⟨r, h1, h2, h3, -⟩ := mag_split b
  have : magUnits (b + 1) = (r + 1) * 2 ^ lastPlace b := by
    conv => lhs; rw [h1, Nat.add_assoc]
    exact magUnits_eq _ _ (by omega)
  rw [this, h3]; ring

/-- The margin below a float, in quarters of a unit. -/
def marginDown (b : Nat) : Nat := if isPowerMag b then 2 ^ lastPlace b else 2 * 2 ^ lastPlace b

theorem gap_down {b : Nat} (h0 : 0 < b) : 2 * magUnits (b - 1) + marginDown b ≤ 2 * magUnits b ∧
    (b ≠ 2 ^ 23 → 2 * magUnits (b - 1) + marginDown b = 2 * magUnits b) := by
  obtain ⟨r, h1, h2, h3, h4⟩ := mag_split b
  unfold marginDown
  by_cases hp : isPowerMag b = true
  · rw [if_pos hp]
    have hr := h4.mp hp
    subst hr
    cases he : lastPlace b with
    | zero =>
      rw [he] at h1 h3
      have hb : b = 2 ^ 23 := by omega
      subst hb
      exact ⟨by decide, fun h => absurd rfl h⟩
    | succ e =>
      rw [he] at h1 h3
      have : magUnits (b - 1) = (2 ^ 24 - 1) * 2 ^ e := by
        rw [show b - 1 = e * 2 ^ 23 + (2 ^ 24 - 1) by omega]
        exact magUnits_eq _ _ (by omega)
      rw [this, h3, Nat.pow_succ]
      omega
  · rw [if_neg hp]
    have hr : r ≠ 2 ^ 23 := fun h => hp (h4.mpr h)
    have : magUnits (b - 1) = (r - 1) * 2 ^ lastPlace b := by
      rw [show b - 1 = lastPlace b * 2 ^ 23 + (r - 1) by omega]
      exact magUnits_eq _ _ (by omega)
    have hr1 : 1 ≤ r := by omega
    rw [this, h3]
    obtain ⟨q, rfl⟩ : ∃ q, r = q + 1 := ⟨r - 1, by omega⟩
    rw [Nat.add_sub_cancel]
    generalize 2 ^ lastPlace b = p
    have : (q + 1) * p = q * p + p := by ring
    omega

theorem two_mul_le_add_of_abs {a b z : ℝ} (hab : a < b) (h : |b - z| ≤ |a - z|) : a + b ≤ 2 * z := by
  by_contra hc
  have hc : 2 * z < a + b := lt_of_not_ge hc
  have h1 := le_abs_self (b - z)
  rcases abs_cases (a - z) with ⟨h2, _⟩ | ⟨h2, _⟩ <;> linarith

theorem add_le_two_mul_of_abs {a b z : ℝ} (hab : a < b) (h : |a - z| ≤ |b - z|) : 2 * z ≤ a + b := by
  by_contra hc
  have hc : a + b < 2 * z := lt_of_not_ge hc
  have h1 := neg_abs_le (a - z)
  rcases abs_cases (b - z) with ⟨h2, _⟩ | ⟨h2, _⟩ <;> linarith

/-- Numbers inside the interval are rounded to the float. -/
theorem rawMag_of_inside {b n d : Nat} {z : ℝ} (hd : 0 < d) (hs : SameSide n d z) (h0 : 0 < b)
    (hlo : (4 * magUnits b : ℝ) - marginDown b ≤ 4 * z) (hhi : 4 * z ≤ (4 * magUnits b : ℝ) + 2 * 2 ^ lastPlace b)
    (hodd : b % 2 = 1 → (4 * magUnits b : ℝ) - marginDown b < 4 * z ∧ 4 * z < (4 * magUnits b : ℝ) + 2 * 2 ^ lastPlace b) :
    rawMag n d = b := by
  obtain ⟨hn1, hn2⟩ := rawMag_nearest hd hs b
  generalize rawMag n d = r at *
  by_contra hne
  rcases Nat.lt_or_gt_of_ne hne with hlt | hgt
  · -- a float below
    have hu : magUnits r ≤ magUnits (b - 1) := magUnits_mono (by omega)
    have hgap := (gap_down h0).1
    have hg : (2 * magUnits r + marginDown b : ℝ) ≤ 2 * magUnits b := by
      exact_mod_cast le_trans (Nat.add_le_add_right (Nat.mul_le_mul_left 2 hu) _) hgap
    have hrb : (magUnits r : ℝ) < magUnits b := by exact_mod_cast magUnits_strict hlt
    have hz := add_le_two_mul_of_abs hrb hn1
    have hbe : b % 2 = 0 := by
      rcases Nat.mod_two_eq_zero_or_one b with h | h
      · exact h
      · have := (hodd h).1; linarith
    have heq : 2 * z = magUnits r + magUnits b := by linarith
    have ht : |(magUnits b : ℝ) - z| = |(magUnits r : ℝ) - z| := by
      rw [show (magUnits b : ℝ) - z = -(magUnits r - z) by linarith, abs_neg]
    have hre := hn2 ht (Ne.symm hne)
    have hr1 : magUnits r = magUnits (b - 1) := by
      have h5 : (2 * magUnits b : ℝ) ≤ 2 * magUnits r + marginDown b := by linarith
      have h6 : 2 * magUnits b ≤ 2 * magUnits r + marginDown b := by exact_mod_cast h5
      omega
    have := magUnits_inj hr1
    omega
  · have hu : magUnits (b + 1) ≤ magUnits r := magUnits_mono (by omega)
    have hgap := gap_up b
    have hg : (magUnits b + 2 ^ lastPlace b : ℝ) ≤ magUnits r := by
      exact_mod_cast hgap ▸ hu
    have hrb : (magUnits b : ℝ) < magUnits r := by exact_mod_cast magUnits_strict hgt
    have hz := two_mul_le_add_of_abs hrb hn1
    have hbe : b % 2 = 0 := by
      rcases Nat.mod_two_eq_zero_or_one b with h | h
      · exact h
      · have := (hodd h).2; linarith
    have heq : 2 * z = magUnits r + magUnits b := by linarith
    have ht : |(magUnits b : ℝ) - z| = |(magUnits r : ℝ) - z| := by
      rw [show (magUnits b : ℝ) - z = -(magUnits r - z) by linarith, abs_neg]
    have hre := hn2 ht (Ne.symm hne)
    have hr1 : magUnits r = magUnits (b + 1) := by
      have h5 : (magUnits r : ℝ) ≤ magUnits b + 2 ^ lastPlace b := by linarith
      have h6 : magUnits r ≤ magUnits b + 2 ^ lastPlace b := by exact_mod_cast h5
      omega
    have := magUnits_inj hr1
    omega

/-- Numbers that are rounded to a float are inside of the interval. -/
theorem inside_of_rawMag {b n d : Nat} {z : ℝ} (hd : 0 < d) (hs : SameSide n d z) (h0 : 0 < b) (h : rawMag n d = b) :
    (4 * z ≤ (4 * magUnits b : ℝ) + 2 * 2 ^ lastPlace b ∧ (b % 2 = 1 → 4 * z < (4 * magUnits b : ℝ) + 2 * 2 ^ lastPlace b)) ∧
    (2 * magUnits (b - 1) + 2 * magUnits b : ℝ) ≤ 4 * z ∧
      (b % 2 = 1 → (2 * magUnits (b - 1) + 2 * magUnits b : ℝ) < 4 * z) := by
  obtain ⟨u1, u2⟩ := rawMag_nearest hd hs (b + 1)
  obtain ⟨d1, d2⟩ := rawMag_nearest hd hs (b - 1)
  rw [h] at u1 u2 d1 d2
  have hgu : (magUnits (b + 1) : ℝ) = magUnits b + 2 ^ lastPlace b := by exact_mod_cast gap_up b
  have hp : (0 : ℝ) < 2 ^ lastPlace b := by positivity
  have hlt : (magUnits (b - 1) : ℝ) < magUnits b := by exact_mod_cast magUnits_strict (by omega)
  have hu := add_le_two_mul_of_abs (by rw [hgu]; linarith) u1
  have hl := two_mul_le_add_of_abs hlt d1
  refine ⟨⟨by linarith, fun hb => lt_of_le_of_ne (by linarith) fun he => ?_⟩,
    by linarith, fun hb => lt_of_le_of_ne (by linarith) fun he => ?_⟩
  · have := u2 (by rw [show (magUnits (b + 1) : ℝ) - z = -(magUnits b - z) by linarith, abs_neg]) (by omega)
    omega
  · have := d2 (by rw [show (magUnits (b - 1) : ℝ) - z = -(magUnits b - z) by linarith, abs_neg]) (by omega)
    omega

/-! ## The shortest digits -/

theorem insideBy_iff {incl : Bool} {a m : Nat} : insideBy incl a m = true ↔ a ≤ m ∧ (incl = false → a < m) := by
  unfold insideBy
  cases incl <;> simp
  omega

/-- The multiple `c` of the step is as close to `v` as the interval requires. -/
def Inside (v minus plus : Nat) (incl : Bool) (c : Nat) : Prop :=
  c ≤ v + plus ∧ v ≤ c + minus ∧ (incl = false → c < v + plus ∧ v < c + minus)

theorem inside_iff_down {v minus plus c : Nat} {incl : Bool} (hp : 0 < plus) (h : c ≤ v) :
    Inside v minus plus incl c ↔ insideBy incl (v - c) minus = true := by
  rw [insideBy_iff]
  unfold Inside
  constructor
  · rintro ⟨h1, h2, h3⟩; exact ⟨by omega, fun hi => by have := h3 hi; omega⟩
  · rintro ⟨h1, h2⟩; exact ⟨by omega, by omega, fun hi => by have := h2 hi; omega⟩

theorem inside_iff_up {v minus plus c : Nat} {incl : Bool} (hm : 0 < minus) (h : v ≤ c) :
    Inside v minus plus incl c ↔ insideBy incl (c - v) plus = true := by
  rw [insideBy_iff]
  unfold Inside
  constructor
  · rintro ⟨h1, h2, h3⟩; exact ⟨by omega, fun hi => by have := h3 hi; omega⟩
  · rintro ⟨h1, h2⟩; exact ⟨by omega, by omega, fun hi => by have := h2 hi; omega⟩

theorem insideBy_mono {incl : Bool} {a a' m : Nat} (h : a ≤ a') (hi : insideBy incl a' m = true) : insideBy incl a m = true := by
  rw [insideBy_iff] at *
  exact ⟨by omega, fun h' => by have := hi.2 h'; omega⟩

/-- What the search for the shortest digits finds. -/
theorem shortestF_spec {v minus plus : Nat} {incl : Bool} (hp : 0 < plus) (hm : 0 < minus) (hv : 2 ^ 151 ∣ v) (J : Nat) :
    (shortestF v minus plus incl J).2 ≤ J ∧
    Inside v minus plus incl ((shortestF v minus plus incl J).1 * (10 ^ (shortestF v minus plus incl J).2 * 2 ^ 151)) ∧
    (∀ j k, (shortestF v minus plus incl J).2 < j → j ≤ J → ¬ Inside v minus plus incl (k * (10 ^ j * 2 ^ 151))) ∧
    ∀ k, Inside v minus plus incl (k * (10 ^ (shortestF v minus plus incl J).2 * 2 ^ 151)) →
      ((shortestF v minus plus incl J).1 * (10 ^ (shortestF v minus plus incl J).2 * 2 ^ 151) - v) +
        (v - (shortestF v minus plus incl J).1 * (10 ^ (shortestF v minus plus incl J).2 * 2 ^ 151)) ≤
      (k * (10 ^ (shortestF v minus plus incl J).2 * 2 ^ 151) - v) +
        (v - k * (10 ^ (shortestF v minus plus incl J).2 * 2 ^ 151)) := by
  induction J with
  | zero =>
    have he : v / 2 ^ 151 * (10 ^ 0 * 2 ^ 151) = v := by rw [Nat.pow_zero, Nat.one_mul]; exact Nat.div_mul_cancel hv
    have hs : shortestF v minus plus incl 0 = (v / 2 ^ 151, 0) := by rw [shortestF]
    rw [hs]
    dsimp only
    rw [he]
    refine ⟨le_refl _, ⟨by omega, by omega, fun _ => by omega⟩, fun j k h1 h2 => by omega, fun k _ => by omega⟩
  | succ J ih =>
    rw [shortestF]
    obtain ⟨g, hgg⟩ : ∃ g, 10 ^ (J + 1) * 2 ^ 151 = g := ⟨_, rfl⟩
    have hg : 0 < g := by rw [← hgg]; exact Nat.mul_pos (Nat.pow_pos (by decide)) (Nat.pow_pos (by decide))
    rw [hgg]
    have hdiv := Nat.div_add_mod v g
    have hmod := Nat.mod_lt v hg
    have hq : v / g * g + v % g = v := by rw [Nat.mul_comm]; exact hdiv
    have hq1 : (v / g + 1) * g = v / g * g + g := by ring
    generalize hqq : v / g = q at *
    generalize hrr : v % g = r at *
    have hsides : ∀ k, k * g ≤ q * g ∨ q * g + g ≤ k * g := by
      intro k
      rcases Nat.lt_or_ge q k with h | h
      · right
        have := Nat.mul_le_mul_right g (show q + 1 ≤ k from h)
        rwa [hq1] at this
      · left; exact Nat.mul_le_mul_right g h
    have hdown : Inside v minus plus incl (q * g) ↔ insideBy incl r minus = true := by
      rw [inside_iff_down hp (by omega)]
      rw [show v - q * g = r by omega]
    have hup : Inside v minus plus incl ((q + 1) * g) ↔ insideBy incl (g - r) plus = true := by
      rw [inside_iff_up hm (by omega)]
      rw [show (q + 1) * g - v = g - r by omega]
    have hany : ∀ k, Inside v minus plus incl (k * g) →
        (k * g ≤ q * g ∧ insideBy incl r minus = true) ∨ (q * g + g ≤ k * g ∧ insideBy incl (g - r) plus = true) := by
      intro k hk
      rcases hsides k with h | h
      · left
        refine ⟨h, insideBy_mono ?_ ((inside_iff_down hp (by omega)).mp hk)⟩
        omega
      · right
        refine ⟨h, insideBy_mono ?_ ((inside_iff_up hm (by omega)).mp hk)⟩
        omega
    by_cases h1 : (insideBy incl (g - r) plus && (!insideBy incl r minus || decide (g ≤ 2 * r))) = true
    · rw [if_pos h1]
      dsimp only
      rw [hgg]
      simp only [Bool.and_eq_true, Bool.or_eq_true, Bool.not_eq_true', decide_eq_true_eq] at h1
      refine ⟨le_refl _, hup.mpr h1.1, fun j k h2 h3 => by omega, fun k hk => ?_⟩
      rcases hany k hk with ⟨h4, h5⟩ | ⟨h4, h5⟩
      · rcases h1.2 with h6 | h6
        · rw [h6] at h5; cases h5
        · omega
      · omega
    · rw [if_neg h1]
      by_cases h2 : insideBy incl r minus = true
      · rw [if_pos h2]
        dsimp only
        rw [hgg]
        refine ⟨le_refl _, hdown.mpr h2, fun j k h3 h4 => by omega, fun k hk => ?_⟩
        rcases hany k hk with ⟨h4, h5⟩ | ⟨h4, h5⟩
        · omega
        · simp only [Bool.and_eq_true, Bool.or_eq_true, Bool.not_eq_true', decide_eq_true_eq, not_and, not_or, h5, h2] at h1
          have := (h1 trivial).2
          omega
      · rw [if_neg h2]
        obtain ⟨i1, i2, i3, i4⟩ := ih
        refine ⟨by omega, i2, fun j k h3 h4 => ?_, i4⟩
        rcases Nat.lt_or_ge j (J + 1) with h5 | h5
        · exact i3 j k h3 (by omega)
        · have : j = J + 1 := by omega
          subst this
          rw [hgg]
          intro hk
          rcases hany k hk with ⟨-, h6⟩ | ⟨-, h6⟩
          · exact h2 h6
          · apply h1
            simp [h6, h2]

/-! ## The digits of a float -/

/-- The scale of `shortestF`: powers of ten below the point. -/
def tens : Nat := 10 ^ 151

theorem tens_eq : tens = 10 ^ 151 := rfl
theorem tens_pos : 0 < tens := Nat.pow_pos (by decide)

theorem shortest_eq (b : Nat) : shortest b =
    shortestF (4 * magUnits b * tens) (marginDown b * tens) (2 * 2 ^ lastPlace b * tens) (b % 2 == 0) 190 := by
  unfold shortest marginDown
  rw [← tens_eq]
  dsimp only
  rw [← Nat.mul_assoc]
  congr 1
  split <;> rfl

theorem dvd_scaled (b : Nat) : 2 ^ 151 ∣ 4 * magUnits b * tens :=
  Dvd.dvd.mul_left (by rw [tens_eq, show (10 : Nat) = 2 * 5 from rfl, Nat.mul_pow]; exact Nat.dvd_mul_right _ _) _

theorem marginDown_pos (b : Nat) : 0 < marginDown b := by
  have : 0 < 2 ^ lastPlace b := Nat.pow_pos (by decide)
  unfold marginDown
  split <;> omega

/-- The true distance to the middle between a float and the one below it, in quarters of a unit. -/
def trueDown (b : Nat) : Nat := 2 * (magUnits b - magUnits (b - 1))

theorem trueDown_eq {b : Nat} (h0 : 0 < b) (h : b ≠ 2 ^ 23) : trueDown b = marginDown b := by
  have := (gap_down h0).2 h
  have := magUnits_mono (show b - 1 ≤ b by omega)
  unfold trueDown
  omega

theorem no_multiple {a b g n : Nat} (h1 : b / g = n) (h2 : n * g < a) (k : Nat) (ha : a ≤ k * g) (hb : k * g ≤ b) : False := by
  have hg : 0 < g := by
    rcases Nat.eq_zero_or_pos g with h | h
    · subst h; omega
    · exact h
  have : k ≤ n := by rw [← h1]; exact (Nat.le_div_iff_mul_le hg).mpr hb
  have := Nat.mul_le_mul_right g this
  omega

theorem shortest_smallest : shortest (2 ^ 23) = (11754944, 106) := by decide +kernel

/-- The shortest digits are the shortest ones among all decimal numbers that are rounded to the float, also for the smallest normal
number, for which the search uses a smaller interval. -/
theorem shortest_best {b : Nat} (h0 : 0 < b) :
    (∀ j k, (shortest b).2 < j → j ≤ 190 →
      ¬ Inside (4 * magUnits b * tens) (trueDown b * tens) (2 * 2 ^ lastPlace b * tens) (b % 2 == 0) (k * (10 ^ j * 2 ^ 151))) ∧
    ∀ k, Inside (4 * magUnits b * tens) (trueDown b * tens) (2 * 2 ^ lastPlace b * tens) (b % 2 == 0)
        (k * (10 ^ (shortest b).2 * 2 ^ 151)) →
      ((shortest b).1 * (10 ^ (shortest b).2 * 2 ^ 151) - 4 * magUnits b * tens) +
        (4 * magUnits b * tens - (shortest b).1 * (10 ^ (shortest b).2 * 2 ^ 151)) ≤
      (k * (10 ^ (shortest b).2 * 2 ^ 151) - 4 * magUnits b * tens) +
        (4 * magUnits b * tens - k * (10 ^ (shortest b).2 * 2 ^ 151)) := by
  by_cases hb : b = 2 ^ 23
  · subst hb
    rw [shortest_smallest]
    dsimp only
    have e1 : magUnits (2 ^ 23) = 2 ^ 23 := by decide
    have e2 : trueDown (2 ^ 23) = 2 := by decide
    have e3 : lastPlace (2 ^ 23) = 0 := by decide
    rw [e1, e2, e3]
    obtain ⟨T, hT⟩ : ∃ T, T = tens := ⟨_, rfl⟩
    rw [← hT]
    constructor
    · intro j k h1 h2 hi
      obtain ⟨i, rfl⟩ : ∃ i, j = 107 + i := ⟨j - 107, by omega⟩
      rw [Nat.pow_add, Nat.mul_right_comm (10 ^ 107) _ _, Nat.mul_comm (10 ^ 107 * 2 ^ 151), ← Nat.mul_assoc] at hi
      obtain ⟨hi1, hi2, -⟩ := hi
      have h3 : (4 * 2 ^ 23 * T + 2 * 2 ^ 0 * T) / (10 ^ 107 * 2 ^ 151) = 1175494 := by rw [hT]; decide +kernel
      have h4 : 1175494 * (10 ^ 107 * 2 ^ 151) < 4 * 2 ^ 23 * T - 2 * T := by rw [hT]; decide +kernel
      exact no_multiple h3 h4 (k * 10 ^ i) (by omega) hi1
    · intro k hi
      obtain ⟨hi1, hi2, -⟩ := hi
      obtain ⟨g, hg⟩ : ∃ g, g = 10 ^ 106 * 2 ^ 151 := ⟨_, rfl⟩
      rw [← hg] at hi1 hi2 ⊢
      have hg0 : 0 < g := by rw [hg]; exact Nat.mul_pos (Nat.pow_pos (by decide)) (Nat.pow_pos (by decide))
      have h3 : (4 * 2 ^ 23 * T + 2 * 2 ^ 0 * T) / g = 11754944 := by rw [hT, hg]; decide +kernel
      have h4 : 11754942 * g < 4 * 2 ^ 23 * T - 2 * T := by rw [hT, hg]; decide +kernel
      have hk1 : k ≤ 11754944 := by rw [← h3]; exact (Nat.le_div_iff_mul_le hg0).mpr hi1
      have hk2 : 11754942 < k := by
        by_contra hc
        have := Nat.mul_le_mul_right g (show k ≤ 11754942 by omega)
        omega
      have h5 : 11754944 * g - 4 * 2 ^ 23 * T + (4 * 2 ^ 23 * T - 11754944 * g) ≤
          11754943 * g - 4 * 2 ^ 23 * T + (4 * 2 ^ 23 * T - 11754943 * g) := by rw [hT, hg]; decide +kernel
      rcases (show k = 11754943 ∨ k = 11754944 by omega) with rfl | rfl
      · exact h5
      · exact Nat.le_refl _
  · rw [trueDown_eq h0 hb, shortest_eq]
    have hT := tens_pos
    have hp : 0 < 2 ^ lastPlace b := Nat.pow_pos (by decide)
    have := shortestF_spec (incl := b % 2 == 0) (Nat.mul_pos (Nat.mul_pos Nat.two_pos hp) hT) (Nat.mul_pos (marginDown_pos b) hT)
      (dvd_scaled b) 190
    exact ⟨this.2.2.1, this.2.2.2⟩

/-- The value of a decimal number `k * 10^t` in units. -/
noncomputable def decUnits (k : Nat) (t : Int) : ℝ := k * (10 : ℝ) ^ t * 2 ^ 149

theorem decUnits_scaled (k j : Nat) : 4 * decUnits k ((j : Int) - 151) * (tens : ℝ) = ((k * (10 ^ j * 2 ^ 151) : Nat) : ℝ) := by
  unfold decUnits
  have h : (10 : ℝ) ^ ((j : Int) - 151) * ((10 ^ 151 : Nat) : ℝ) = (10 : ℝ) ^ j := by
    rw [Nat.cast_pow, Nat.cast_ofNat, ← zpow_natCast (10 : ℝ) 151, ← zpow_add₀ (by norm_num), ← zpow_natCast]
    congr 1
    push_cast
    ring
  rw [Nat.cast_mul, Nat.cast_mul, Nat.cast_pow, Nat.cast_pow, Nat.cast_ofNat, Nat.cast_ofNat, ← h, tens_eq,
    show (2 : ℝ) ^ 151 = 4 * 2 ^ 149 by rw [show 151 = 149 + 2 from rfl, pow_add]; ring]
  ring

/-- The printed number is inside of the interval. -/
theorem shortest_inside {b : Nat} :
    (4 * magUnits b : ℝ) - marginDown b ≤ 4 * decUnits (shortest b).1 (((shortest b).2 : Int) - 151) ∧
    4 * decUnits (shortest b).1 (((shortest b).2 : Int) - 151) ≤ (4 * magUnits b : ℝ) + 2 * 2 ^ lastPlace b ∧
    (b % 2 = 1 → (4 * magUnits b : ℝ) - marginDown b < 4 * decUnits (shortest b).1 (((shortest b).2 : Int) - 151) ∧
      4 * decUnits (shortest b).1 (((shortest b).2 : Int) - 151) < (4 * magUnits b : ℝ) + 2 * 2 ^ lastPlace b) := by
  have hT := tens_pos
  have hp : 0 < 2 ^ lastPlace b := Nat.pow_pos (by decide)
  have := (shortestF_spec (incl := b % 2 == 0) (Nat.mul_pos (Nat.mul_pos Nat.two_pos hp) hT) (Nat.mul_pos (marginDown_pos b) hT)
    (dvd_scaled b) 190).2.1
  rw [← shortest_eq] at this
  obtain ⟨h1, h2, h3⟩ := this
  have hs := decUnits_scaled (shortest b).1 (shortest b).2
  generalize (shortest b).1 * (10 ^ (shortest b).2 * 2 ^ 151) = c at *
  generalize decUnits (shortest b).1 (((shortest b).2 : Int) - 151) = z at *
  have hT' : (0 : ℝ) < tens := by exact_mod_cast hT
  generalize tens = T at *
  have up : c ≤ 4 * magUnits b * T + 2 * 2 ^ lastPlace b * T → 4 * z ≤ (4 * magUnits b : ℝ) + 2 * 2 ^ lastPlace b := by
    intro h
    refine le_of_mul_le_mul_right ?_ hT'
    rw [hs]
    have : (c : ℝ) ≤ ((4 * magUnits b * T + 2 * 2 ^ lastPlace b * T : Nat) : ℝ) := by exact_mod_cast h
    push_cast at this
    linarith
  have up' : c < 4 * magUnits b * T + 2 * 2 ^ lastPlace b * T → 4 * z < (4 * magUnits b : ℝ) + 2 * 2 ^ lastPlace b := by
    intro h
    refine lt_of_mul_lt_mul_right ?_ hT'.le
    rw [hs]
    have : (c : ℝ) < ((4 * magUnits b * T + 2 * 2 ^ lastPlace b * T : Nat) : ℝ) := by exact_mod_cast h
    push_cast at this
    linarith
  have dn : 4 * magUnits b * T ≤ c + marginDown b * T → (4 * magUnits b : ℝ) - marginDown b ≤ 4 * z := by
    intro h
    refine le_of_mul_le_mul_right ?_ hT'
    rw [hs]
    have : ((4 * magUnits b * T : Nat) : ℝ) ≤ ((c + marginDown b * T : Nat) : ℝ) := by exact_mod_cast h
    push_cast at this
    linarith
  have dn' : 4 * magUnits b * T < c + marginDown b * T → (4 * magUnits b : ℝ) - marginDown b < 4 * z := by
    intro h
    refine lt_of_mul_lt_mul_right ?_ hT'.le
    rw [hs]
    have : ((4 * magUnits b * T : Nat) : ℝ) < ((c + marginDown b * T : Nat) : ℝ) := by exact_mod_cast h
    push_cast at this
    linarith
  refine ⟨dn h2, up h1, fun hb => ?_⟩
  have := h3 (by simp [hb])
  exact ⟨dn' this.2, up' this.1⟩

theorem decimalMag_form (n : Nat) (e : Int) : ∃ N D : Nat, 0 < D ∧ decimalMag n e = roundMag N D ∧ (N : ℝ) / D = decUnits n e := by
  unfold decUnits
  cases e with
  | ofNat e =>
    refine ⟨n * 10 ^ e * 2 ^ 149, 1, by decide, rfl, ?_⟩
    rw [Nat.cast_mul, Nat.cast_mul, Nat.cast_pow, Nat.cast_pow, Nat.cast_ofNat, Nat.cast_ofNat, Nat.cast_one, div_one,
      Int.ofNat_eq_natCast, zpow_natCast]
  | negSucc e =>
    refine ⟨n * 2 ^ 149, 10 ^ (e + 1), Nat.pow_pos (by decide), rfl, ?_⟩
    rw [Nat.cast_mul, Nat.cast_pow, Nat.cast_pow, Nat.cast_ofNat, Nat.cast_ofNat, zpow_negSucc]
    ring

/-- A decimal number with the value that is printed for a float is rounded to that float. -/
theorem decimalMag_shortest {b n : Nat} {e : Int} (h0 : 0 < b) (hf : b < infMag)
    (h : decUnits n e = decUnits (shortest b).1 (((shortest b).2 : Int) - 151)) : decimalMag n e = b := by
  obtain ⟨N, D, hD, hm, hz⟩ := decimalMag_form n e
  obtain ⟨i1, i2, i3⟩ := shortest_inside (b := b)
  rw [← h, ← hz] at i1 i2 i3
  have := rawMag_of_inside hD (sameSide_div N D hD) h0 i1 i2 i3
  rw [hm, roundMag_eq, this]
  omega

/-! ## Numbers that are rounded to a float -/

theorem val_diff {s : Bool} {m : Nat} (h : m ≤ infMag) (y : ℝ) :
    |val (pack s m) - sg s * y| = |(magUnits m : ℝ) - y * 2 ^ 149| / 2 ^ 149 := by
  have hp : (0 : ℝ) < 2 ^ 149 := by positivity
  rw [val_pack' h, ← mul_sub, abs_mul, abs_sg, one_mul, ← abs_of_pos hp, ← abs_div, abs_of_pos hp, sub_div,
    mul_div_cancel_right₀ _ hp.ne']

theorem val_eq_pack (x : F32) (hx : Finite x) : val x = val (pack (isNeg x) (f32Mag x)) := by
  rw [val_pack' (show f32Mag x ≤ infMag from Nat.le_of_lt hx), val_eq]
  rfl

theorem f32_parity (x : F32) : x.toNat % 2 = f32Mag x % 2 := by unfold f32Mag; omega

set_option exponentiation.threshold 300 in
theorem inside_of_rounded {x : F32} {y : ℝ} (hx : Finite x) (h0 : 0 < f32Mag x) (hy : 0 ≤ y)
    (h : Rounded x (sg (isNeg x) * y)) :
    (4 * (y * 2 ^ 149) ≤ (4 * magUnits (f32Mag x) : ℝ) + 2 * 2 ^ lastPlace (f32Mag x) ∧
      (f32Mag x % 2 = 1 → 4 * (y * 2 ^ 149) < (4 * magUnits (f32Mag x) : ℝ) + 2 * 2 ^ lastPlace (f32Mag x))) ∧
    (2 * magUnits (f32Mag x - 1) + 2 * magUnits (f32Mag x) : ℝ) ≤ 4 * (y * 2 ^ 149) ∧
      (f32Mag x % 2 = 1 → (2 * magUnits (f32Mag x - 1) + 2 * magUnits (f32Mag x) : ℝ) < 4 * (y * 2 ^ 149)) := by
  have hp : (0 : ℝ) < 2 ^ 149 := by positivity
  unfold Rounded at h
  rw [abs_mul, abs_sg, one_mul, abs_of_nonneg hy] at h
  split at h
  · rename_i hlt
    obtain ⟨-, h1, h2⟩ := h
    have hpar := f32_parity x
    have hxv := val_eq_pack x hx
    have hfin : ∀ m, m < infMag → Finite (pack (isNeg x) m) := fun m hm => by
      unfold Finite; rw [pack_mag (Nat.le_of_lt hm)]; exact hm
    have hb : f32Mag x < infMag := hx
    have near : ∀ m, m < infMag → |(magUnits (f32Mag x) : ℝ) - y * 2 ^ 149| ≤ |(magUnits m : ℝ) - y * 2 ^ 149| := by
      intro m hm
      have := h1 _ (hfin m hm)
      rw [hxv, val_diff (Nat.le_of_lt hm), val_diff (Nat.le_of_lt hb)] at this
      exact (div_le_div_iff_of_pos_right hp).mp this
    have tie : ∀ m, m < infMag → m ≠ f32Mag x → |(magUnits m : ℝ) - y * 2 ^ 149| = |(magUnits (f32Mag x) : ℝ) - y * 2 ^ 149| →
        f32Mag x % 2 = 0 := by
      intro m hm hne he
      rw [← hpar]
      refine h2 _ (hfin m hm) ?_ ?_
      · rw [hxv, val_diff (Nat.le_of_lt hm), val_diff (Nat.le_of_lt hb), he]
      · rw [hxv, val_pack' (Nat.le_of_lt hm), val_pack' (Nat.le_of_lt hb)]
        intro hc
        apply hne
        have hs : sg (isNeg x) ≠ 0 := by
          intro hz
          have := abs_sg (isNeg x)
          rw [hz, abs_zero] at this
          exact zero_ne_one this
        have := mul_left_cancel₀ hs hc
        have := (div_left_inj' hp.ne').mp this
        exact magUnits_inj (by exact_mod_cast this)
    generalize f32Mag x = b at *
    generalize hw : y * 2 ^ 149 = w at *
    have hgu : (magUnits (b + 1) : ℝ) = magUnits b + 2 ^ lastPlace b := by exact_mod_cast gap_up b
    have hq : (0 : ℝ) < 2 ^ lastPlace b := by positivity
    have hlt' : (magUnits (b - 1) : ℝ) < magUnits b := by exact_mod_cast magUnits_strict (by omega)
    have hl := two_mul_le_add_of_abs hlt' (near (b - 1) (by omega))
    refine ⟨?_, by linarith, fun hb => lt_of_le_of_ne (by linarith) fun he => ?_⟩
    · by_cases hmax : b + 1 < infMag
      · have hu := add_le_two_mul_of_abs (by rw [hgu]; linarith) (near (b + 1) hmax)
        refine ⟨by linarith, fun hb => lt_of_le_of_ne (by linarith) fun he => ?_⟩
        have := tie (b + 1) hmax (by omega) (by
          rw [show (magUnits (b + 1) : ℝ) - w = -(magUnits b - w) by linarith, abs_neg])
        omega
      · have hbm : b = infMag - 1 := by omega
        have hlast : lastPlace b = 253 := by rw [hbm]; decide
        have hun : magUnits (b + 1) = 2 ^ 277 := by rw [hbm]; decide
        have hstrict : 4 * w < (4 * magUnits b : ℝ) + 2 * 2 ^ lastPlace b := by
          have e1 : (magUnits b : ℝ) = 2 ^ 277 - 2 ^ 253 := by
            have : (magUnits (b + 1) : ℝ) = 2 ^ 277 := by
              rw [hun, Nat.cast_pow, Nat.cast_ofNat]
            rw [hlast] at hgu
            rw [hgu] at this
            exact eq_sub_of_add_eq this
          have e2 : w < (2 ^ 128 - 2 ^ 103) * 2 ^ 149 := by
            rw [← hw]; exact mul_lt_mul_of_pos_right hlt hp
          have e3 : ((2 : ℝ) ^ 128 - 2 ^ 103) * 2 ^ 149 = 2 ^ 277 - 2 ^ 252 := by
            rw [sub_mul, ← pow_add, ← pow_add]
          have e4 : (2 : ℝ) ^ 253 = 2 * 2 ^ 252 := by rw [pow_succ]; ring
          rw [e1, hlast, e4]
          rw [e3] at e2
          generalize (2 : ℝ) ^ 277 = A at e2
          generalize (2 : ℝ) ^ 252 = B at e2
          linarith
        exact ⟨hstrict.le, fun _ => hstrict⟩
    · have := tie (b - 1) (by omega) (by omega) (by
        rw [show (magUnits (b - 1) : ℝ) - w = -(magUnits b - w) by linarith, abs_neg])
      omega
  · exfalso
    have hx' : f32Mag x < infMag := hx
    rw [h] at hx'
    split at hx'
    · exact absurd hx' (by decide)
    · exact absurd hx' (by decide)

theorem decUnits_eq (k : Nat) (t : Int) : decUnits k t = (k : ℝ) * 10 ^ t * 2 ^ 149 := rfl

/-- A decimal number that is rounded to a float is inside of the interval, in the scale of `shortestF`. -/
theorem inside_of_rounded_dec {x : F32} {k j : Nat} (hx : Finite x) (h0 : 0 < f32Mag x)
    (h : Rounded x (sg (isNeg x) * ((k : ℝ) * 10 ^ ((j : Int) - 151)))) :
    Inside (4 * magUnits (f32Mag x) * tens) (trueDown (f32Mag x) * tens) (2 * 2 ^ lastPlace (f32Mag x) * tens) (f32Mag x % 2 == 0)
      (k * (10 ^ j * 2 ^ 151)) := by
  obtain ⟨⟨u1, u2⟩, d1, d2⟩ := inside_of_rounded hx h0 (mul_nonneg (Nat.cast_nonneg _) (zpow_nonneg (by norm_num) _)) h
  have hs := decUnits_scaled k j
  unfold decUnits at hs
  generalize (k : ℝ) * 10 ^ ((j : Int) - 151) * 2 ^ 149 = w at *
  generalize k * (10 ^ j * 2 ^ 151) = c at *
  have hT' : (0 : ℝ) < tens := by exact_mod_cast tens_pos
  generalize tens = T at *
  generalize f32Mag x = b at *
  have hdn : 2 * magUnits (b - 1) + trueDown b = 2 * magUnits b := by
    have := magUnits_mono (show b - 1 ≤ b by omega)
    unfold trueDown
    omega
  have hdn' : (2 * magUnits (b - 1) : ℝ) + trueDown b = 2 * magUnits b := by exact_mod_cast hdn
  refine ⟨?_, ?_, fun hb => ?_⟩
  · have := mul_le_mul_of_nonneg_right u1 hT'.le
    rw [hs, add_mul] at this
    exact_mod_cast this
  · have := mul_le_mul_of_nonneg_right d1 hT'.le
    rw [hs] at this
    have h2 : (4 * magUnits b * T : ℝ) ≤ c + trueDown b * T := by
      have e : (4 * magUnits b * T : ℝ) = (2 * magUnits (b - 1) + 2 * magUnits b) * T + trueDown b * T := by
        rw [← add_mul]; congr 1; linarith
      rw [e]; linarith
    exact_mod_cast h2
  · have hb' : b % 2 = 1 := by
      simp only [beq_eq_false_iff_ne] at hb
      omega
    constructor
    · have := mul_lt_mul_of_pos_right (u2 hb') hT'
      rw [hs, add_mul] at this
      exact_mod_cast this
    · have := mul_lt_mul_of_pos_right (d2 hb') hT'
      rw [hs] at this
      have h2 : (4 * magUnits b * T : ℝ) < c + trueDown b * T := by
        have e : (4 * magUnits b * T : ℝ) = (2 * magUnits (b - 1) + 2 * magUnits b) * T + trueDown b * T := by
          rw [← add_mul]; congr 1; linarith
        rw [e]; linarith
      exact_mod_cast h2

set_option exponentiation.threshold 300 in
/-- No multiple of `10^39` is rounded to a positive float. -/
theorem not_inside_large {b k : Nat} {incl : Bool} (hf : b < infMag) {minus : Nat} (hm : minus < 4 * magUnits b * tens) :
    ¬ Inside (4 * magUnits b * tens) minus (2 * 2 ^ lastPlace b * tens) incl (k * (10 ^ 190 * 2 ^ 151)) := by
  rintro ⟨h1, h2, -⟩
  have hk : 1 ≤ k := by
    rcases Nat.eq_zero_or_pos k with hk | hk
    · subst hk; omega
    · exact hk
  have hup : magUnits b + 2 ^ lastPlace b ≤ 2 ^ 277 := by
    rw [← gap_up, show (2 : Nat) ^ 277 = magUnits infMag by decide]
    exact magUnits_mono hf
  have h3 : 4 * magUnits b * tens + 2 * 2 ^ lastPlace b * tens ≤ 4 * 2 ^ 277 * tens := by
    rw [← Nat.add_mul]
    exact Nat.mul_le_mul_right _ (by omega)
  have h4 : 10 ^ 190 * 2 ^ 151 ≤ k * (10 ^ 190 * 2 ^ 151) := Nat.le_mul_of_pos_left _ hk
  have h5 : 4 * 2 ^ 277 * tens < 10 ^ 190 * 2 ^ 151 := by decide +kernel
  exact absurd (lt_of_le_of_lt (le_trans h4 (le_trans h1 h3)) h5) (lt_irrefl _)

theorem trueDown_lt {b : Nat} (h0 : 0 < b) : trueDown b * tens < 4 * magUnits b * tens := by
  refine Nat.mul_lt_mul_of_pos_right ?_ tens_pos
  have := magUnits_strict h0
  unfold trueDown
  rw [magUnits_zero] at this
  omega

/-- Every decimal number that is rounded to a float ends at the last position of the printed digits or behind it, and is not closer. -/
theorem shortest_of_rounded {x : F32} {k : Nat} {q : Int} (hx : Finite x) (h0 : 0 < f32Mag x)
    (h : Rounded x (sg (isNeg x) * ((k : ℝ) * 10 ^ q))) :
    q ≤ ((shortest (f32Mag x)).2 : Int) - 151 ∧
    (q = ((shortest (f32Mag x)).2 : Int) - 151 →
      |((shortest (f32Mag x)).1 : ℝ) * 10 ^ q - abs (val x)| ≤ |(k : ℝ) * 10 ^ q - abs (val x)|) := by
  obtain ⟨b1, b2⟩ := shortest_best h0
  constructor
  · by_contra hc
    obtain ⟨j, hj⟩ : ∃ j : Nat, (j : Int) - 151 = q := ⟨(q + 151).toNat, by omega⟩
    rw [← hj] at h
    have hin := inside_of_rounded_dec hx h0 h
    by_cases hj' : j < 190
    · exact b1 j k (by omega) (by omega) hin
    · obtain ⟨i, rfl⟩ : ∃ i, j = 190 + i := ⟨j - 190, by omega⟩
      rw [show k * (10 ^ (190 + i) * 2 ^ 151) = k * 10 ^ i * (10 ^ 190 * 2 ^ 151) by rw [Nat.pow_add]; ring] at hin
      exact not_inside_large hx (trueDown_lt h0) hin
  · intro hq
    rw [hq] at h
    have hin := b2 k (inside_of_rounded_dec hx h0 h)
    rw [hq, abs_val]
    have s1 := decUnits_scaled k (shortest (f32Mag x)).2
    have s2 := decUnits_scaled (shortest (f32Mag x)).1 (shortest (f32Mag x)).2
    unfold decUnits at s1 s2
    have hT' : (0 : ℝ) < tens := by exact_mod_cast tens_pos
    have hp : (0 : ℝ) < 2 ^ 149 := by positivity
    generalize (k : ℝ) * 10 ^ (((shortest (f32Mag x)).2 : Int) - 151) = y1 at *
    generalize ((shortest (f32Mag x)).1 : ℝ) * 10 ^ (((shortest (f32Mag x)).2 : Int) - 151) = y2 at *
    generalize k * (10 ^ (shortest (f32Mag x)).2 * 2 ^ 151) = c1 at *
    generalize (shortest (f32Mag x)).1 * (10 ^ (shortest (f32Mag x)).2 * 2 ^ 151) = c2 at *
    generalize tens = T at *
    generalize f32Mag x = b at *
    have dist : ∀ (c v : Nat), |(c : ℝ) - v| = ((c - v + (v - c) : Nat) : ℝ) := by
      intro c v
      rcases Nat.le_total c v with hcv | hcv
      · rw [Nat.sub_eq_zero_of_le hcv, Nat.zero_add, Nat.cast_sub hcv, abs_sub_comm, abs_of_nonneg]
        exact sub_nonneg.mpr (by exact_mod_cast hcv)
      · rw [Nat.sub_eq_zero_of_le hcv, Nat.add_zero, Nat.cast_sub hcv, abs_of_nonneg]
        exact sub_nonneg.mpr (by exact_mod_cast hcv)
    have scale : ∀ (y : ℝ) (c : Nat), 4 * (y * 2 ^ 149) * T = c →
        |y - (magUnits b : ℝ) / 2 ^ 149| * (4 * 2 ^ 149 * T) = |(c : ℝ) - ((4 * magUnits b * T : Nat) : ℝ)| := by
      intro y c hc
      rw [← hc, ← abs_of_pos (show (0 : ℝ) < 4 * 2 ^ 149 * T by positivity), ← abs_mul]
      congr 1
      rw [sub_mul, div_mul_eq_mul_div, show (magUnits b : ℝ) * (4 * 2 ^ 149 * T) = 4 * magUnits b * T * 2 ^ 149 by ring,
        mul_div_cancel_right₀ _ hp.ne']
      rw [Nat.cast_mul, Nat.cast_mul, Nat.cast_ofNat]
      ring
    refine le_of_mul_le_mul_right ?_ (show (0 : ℝ) < 4 * 2 ^ 149 * T by positivity)
    rw [scale _ _ s1, scale _ _ s2, dist, dist]
    exact_mod_cast hin

end Ieee
end FF
