import Verif.Lemmas.FloatSum
import Verif.Props.FloatMeasures

/-!
# Single precision arithmetic on numbers that are multiplied by a power of two
-/

namespace FF
namespace Ieee

/-- The rounded quotient from the integers around it and the comparison with their mean. -/
theorem roundDiv_of {n d q : Nat} (h1 : q * d ≤ n) (h2 : n < (q + 1) * d) :
    roundDiv n d = if 2 * n < (2 * q + 1) * d then q else if (2 * q + 1) * d < 2 * n then q + 1 else q + q % 2 := by
  have hq : n / d = q := Nat.div_eq_of_lt_le h1 h2
  have hm : n = d * q + n % d := by
    have := Nat.div_add_mod n d
    rw [hq] at this; omega
  unfold roundDiv
  rw [hq]
  have e : (2 * q + 1) * d = 2 * (d * q) + d := by ring
  rw [e]
  generalize n % d = r at *
  generalize d * q = p at *
  clear h1 h2 e
  subst hm
  split_ifs <;> omega

theorem SameSide.le_iff {n d : Nat} {z : ℝ} (h : SameSide n d z) (j : Nat) : j * d ≤ 2 * n ↔ (j : ℝ) ≤ 2 * z := by
  refine ⟨h.lo j, fun hj => ?_⟩
  rcases hj.lt_or_eq with hlt | heq
  · by_contra hc
    exact absurd (h.hi j (by omega)) (not_le.mpr hlt)
  · exact (h.tie j heq.symm).ge

theorem SameSide.ge_iff {n d : Nat} {z : ℝ} (h : SameSide n d z) (j : Nat) : 2 * n ≤ j * d ↔ 2 * z ≤ (j : ℝ) := by
  refine ⟨h.hi j, fun hj => ?_⟩
  rcases hj.lt_or_eq with hlt | heq
  · by_contra hc
    exact absurd (h.lo j (by omega)) (not_le.mpr hlt)
  · exact (h.tie j heq).le

/-- Rounding commutes with powers of two if the result is a normal number. -/
theorem rawMag_scale {n d n' d' k : Nat} {z : ℝ} (hd : 0 < d) (hd' : 0 < d') (h : SameSide n d z)
    (h' : SameSide n' d' (2 ^ k * z)) (hn : 2 ^ 23 * d ≤ n) : rawMag n' d' = rawMag n d + k * 2 ^ 23 := by
  have hk0 : n / d ≠ 0 := by
    have : 2 ^ 23 ≤ n / d := (Nat.le_div_iff_mul_le hd).mpr hn
    have := pow_pos' 23
    omega
  obtain ⟨l1, l2⟩ := log2_spec hk0
  have hp : (0 : ℝ) < 2 ^ k := by positivity
  have cmp : ∀ i : Nat, i * 2 ^ k * d' ≤ 2 * n' ↔ i * d ≤ 2 * n := by
    intro i
    rw [h'.le_iff, h.le_iff]
    push_cast
    rw [show (2 : ℝ) * (2 ^ k * z) = 2 * z * 2 ^ k by ring]
    exact mul_le_mul_iff_left₀ hp
  have cmp' : ∀ i : Nat, 2 * n' ≤ i * 2 ^ k * d' ↔ 2 * n ≤ i * d := by
    intro i
    rw [h'.ge_iff, h.ge_iff]
    push_cast
    rw [show (2 : ℝ) * (2 ^ k * z) = 2 * z * 2 ^ k by ring]
    exact mul_le_mul_iff_left₀ hp
  have hL : 23 ≤ Nat.log2 (n / d) := by
    have h1 : 2 ^ 23 ≤ n / d := (Nat.le_div_iff_mul_le hd).mpr hn
    have h2 : 2 ^ 23 < 2 ^ (Nat.log2 (n / d) + 1) := lt_of_le_of_lt h1 l2
    have := (Nat.pow_lt_pow_iff_right (by norm_num : 1 < 2)).mp h2
    omega
  generalize hLe : Nat.log2 (n / d) = L at *
  have hlog : Nat.log2 (n' / d') = L + k := by
    have a : 2 ^ (L + k) ≤ n' / d' := by
      rw [Nat.le_div_iff_mul_le hd']
      have := (cmp (2 * 2 ^ L)).mpr (by
        have := (Nat.le_div_iff_mul_le hd).mp l1
        rw [Nat.mul_assoc]; omega)
      rw [pow_add]
      have e : 2 * 2 ^ L * 2 ^ k * d' = 2 * (2 ^ L * 2 ^ k * d') := by ring
      rw [e] at this
      omega
    have b : n' / d' < 2 ^ (L + k + 1) := by
      rw [Nat.div_lt_iff_lt_mul hd']
      by_contra hc
      have h1 : 2 * 2 ^ (L + 1) * 2 ^ k * d' ≤ 2 * n' := by
        have e : 2 * 2 ^ (L + 1) * 2 ^ k * d' = 2 * (2 ^ (L + k + 1) * d') := by
          rw [show L + k + 1 = L + 1 + k by omega, pow_add 2 (L + 1) k]; ring
        rw [e]; omega
      have h2 := (cmp (2 * 2 ^ (L + 1))).mp h1
      have h3 := (Nat.div_lt_iff_lt_mul hd).mp l2
      rw [Nat.mul_assoc] at h2
      omega
    have hne : n' / d' ≠ 0 := by
      have := pow_pos' (L + k); omega
    obtain ⟨c1, c2⟩ := log2_spec hne
    have x1 := (Nat.pow_lt_pow_iff_right (by norm_num : 1 < 2)).mp (lt_of_le_of_lt a c2)
    have x2 := (Nat.pow_lt_pow_iff_right (by norm_num : 1 < 2)).mp (lt_of_le_of_lt c1 b)
    omega
  have hex : expo n' d' = expo n d + k := by
    unfold expo; rw [hlog, hLe]; omega
  have hr : roundDiv n' (d' * 2 ^ (expo n d + k)) = roundDiv n (d * 2 ^ expo n d) := by
    generalize expo n d = e
    have hD : 0 < d * 2 ^ e := Nat.mul_pos hd (pow_pos' _)
    have q1 : n / (d * 2 ^ e) * (d * 2 ^ e) ≤ n := Nat.div_mul_le_self _ _
    have q2 : n < (n / (d * 2 ^ e) + 1) * (d * 2 ^ e) := by
      have := Nat.lt_div_mul_add (a := n) hD
      rw [Nat.add_mul, Nat.one_mul]; exact this
    generalize n / (d * 2 ^ e) = q at *
    have tr : ∀ i : Nat, i * (d' * 2 ^ (e + k)) = i * 2 ^ e * 2 ^ k * d' := fun i => by rw [pow_add]; ring
    have tr0 : ∀ i : Nat, i * (d * 2 ^ e) = i * 2 ^ e * d := fun i => by ring
    rw [roundDiv_of q1 q2, roundDiv_of (q := q)]
    · have c1 := cmp' ((2 * q + 1) * 2 ^ e)
      have c2 := cmp ((2 * q + 1) * 2 ^ e)
      rw [tr, tr0]
      have x1 : 2 * n' < (2 * q + 1) * 2 ^ e * 2 ^ k * d' ↔ 2 * n < (2 * q + 1) * 2 ^ e * d := by
        rw [← not_le, ← not_le, c2]
      have x2 : (2 * q + 1) * 2 ^ e * 2 ^ k * d' < 2 * n' ↔ (2 * q + 1) * 2 ^ e * d < 2 * n := by
        rw [← not_le, ← not_le, c1]
      simp only [x1, x2]
    · have := (cmp (2 * (q * 2 ^ e))).mpr (by rw [Nat.mul_assoc, ← tr0]; omega)
      rw [tr]
      have e2 : 2 * (q * 2 ^ e) * 2 ^ k * d' = 2 * (q * 2 ^ e * 2 ^ k * d') := by ring
      omega
    · rw [tr]
      by_contra hc
      have h1 : 2 * ((q + 1) * 2 ^ e) * 2 ^ k * d' ≤ 2 * n' := by
        have e2 : 2 * ((q + 1) * 2 ^ e) * 2 ^ k * d' = 2 * ((q + 1) * 2 ^ e * 2 ^ k * d') := by ring
        omega
      have h2 := (cmp _).mp h1
      rw [tr0] at q2
      have e3 : 2 * ((q + 1) * 2 ^ e) * d = 2 * ((q + 1) * 2 ^ e * d) := by ring
      omega
  unfold rawMag
  rw [hex, hr]
  ring

/-- Powers of two above a normal number. -/
theorem magUnits_shift {b : Nat} (k : Nat) (h : 2 ^ 23 ≤ b) : magUnits (b + k * 2 ^ 23) = 2 ^ k * magUnits b := by
  unfold magUnits
  rw [if_neg (by omega), if_neg (by omega)]
  have h1 : (b + k * 2 ^ 23) % 2 ^ 23 = b % 2 ^ 23 := Nat.add_mul_mod_self_right _ _ _
  have h2 : (b + k * 2 ^ 23) / 2 ^ 23 = b / 2 ^ 23 + k := Nat.add_mul_div_right _ _ (pow_pos' 23)
  have h3 : 1 ≤ b / 2 ^ 23 := (Nat.le_div_iff_mul_le (pow_pos' 23)).mpr (by omega)
  rw [h1, h2, show b / 2 ^ 23 + k - 1 = b / 2 ^ 23 - 1 + k by omega, pow_add]
  ring

theorem le_rawMag {n d : Nat} (hd : 0 < d) (h : 2 ^ 23 * d ≤ n) : 2 ^ 23 ≤ rawMag n d := by
  have h1 := rawMag_magUnits (2 ^ 23) d hd
  have h2 : magUnits (2 ^ 23) = 2 ^ 23 := by decide
  rw [h2] at h1
  have := rawMag_mono (n := 2 ^ 23 * d) (n' := n) hd hd (Nat.mul_le_mul_right d h)
  omega

theorem magUnits_scale {n d n' d' k : Nat} {z : ℝ} (hd : 0 < d) (hd' : 0 < d') (h : SameSide n d z)
    (h' : SameSide n' d' (2 ^ k * z)) (hn : 2 ^ 23 * d ≤ n) : magUnits (rawMag n' d') = 2 ^ k * magUnits (rawMag n d) := by
  rw [rawMag_scale hd hd' h h' hn, magUnits_shift k (le_rawMag hd hn)]

theorem roundDiv_exact (a : Nat) {b : Nat} (hb : 0 < b) : roundDiv (a * b) b = a :=
  Nat.le_antisymm (roundDiv_le a hb (Nat.le_refl _)) (le_roundDiv a hb (Nat.le_refl _))

/-- Integers: also small ones. -/
theorem magUnits_scale_int (n k : Nat) : magUnits (rawMag (2 ^ k * n) 1) = 2 ^ k * magUnits (rawMag n 1) := by
  by_cases hn : 2 ^ 23 * 1 ≤ n
  · refine magUnits_scale (z := n) (by norm_num) (by norm_num) ?_ ?_ hn
    · have := sameSide_div n 1 (by norm_num)
      simpa using this
    · have := sameSide_div (2 ^ k * n) 1 (by norm_num)
      simpa using this
  · have hlt : n < 2 ^ 23 := by omega
    have e1 : magUnits (rawMag n 1) = n := by
      have := rawMag_magUnits n 1 (by norm_num)
      have h2 : magUnits n = n := by unfold magUnits; rw [if_pos hlt]
      rw [h2, Nat.mul_one] at this
      rw [this, h2]
    rw [e1, magUnits_rawMag _ _ (by norm_num)]
    have hle : expo (2 ^ k * n) 1 ≤ k := by
      unfold expo
      rw [Nat.div_one]
      by_cases h0 : 2 ^ k * n = 0
      · rw [h0]; simp [show Nat.log2 0 = 0 from rfl]
      · have h1 := (log2_spec h0).1
        have h2 : 2 ^ k * n < 2 ^ (k + 23) := by
          rw [pow_add]; exact Nat.mul_lt_mul_of_pos_left hlt (pow_pos' k)
        have := (Nat.pow_lt_pow_iff_right (by norm_num : 1 < 2)).mp (lt_of_le_of_lt h1 h2)
        omega
    generalize expo (2 ^ k * n) 1 = e at *
    obtain ⟨c, rfl⟩ := Nat.exists_eq_add_of_le hle
    have e2 : 2 ^ (e + c) * n = 2 ^ c * n * (1 * 2 ^ e) := by rw [pow_add]; ring
    rw [e2, roundDiv_exact _ (by rw [Nat.one_mul]; exact pow_pos' e)]
    ring

/-- Specification: `y` is `x` times `2^k`, exactly. -/
structure Scaled (k : Nat) (x y : F32) : Prop where
  fx : Finite x
  fy : Finite y
  sign : isNeg y = isNeg x
  value : val y = 2 ^ k * val x

theorem scaled_iff {k : Nat} {x y : F32} (hx : Finite x) (hy : Finite y) (hs : isNeg y = isNeg x) :
    Scaled k x y ↔ magUnits (f32Mag y) = 2 ^ k * magUnits (f32Mag x) := by
  have e : val y = 2 ^ k * val x ↔ (magUnits (f32Mag y) : ℝ) = 2 ^ k * magUnits (f32Mag x) := by
    rw [val_eq x, val_eq y, hs]
    have hp : (2 : ℝ) ^ 149 ≠ 0 := by positivity
    cases isNeg x <;> simp <;> field_simp
  constructor
  · intro h
    have := e.mp h.value
    exact_mod_cast this
  · intro h
    exact ⟨hx, hy, hs, e.mpr (by exact_mod_cast h)⟩

theorem Scaled.units {k : Nat} {x y : F32} (h : Scaled k x y) : magUnits (f32Mag y) = 2 ^ k * magUnits (f32Mag x) :=
  (scaled_iff h.fx h.fy h.sign).mp h

theorem Scaled.zero_iff {k : Nat} {x y : F32} (h : Scaled k x y) : f32Mag y = 0 ↔ f32Mag x = 0 := by
  rw [← val_eq_zero, ← val_eq_zero, h.value]
  have : (2 : ℝ) ^ k ≠ 0 := by positivity
  simp

theorem Scaled.units_int {k : Nat} {x y : F32} (h : Scaled k x y) : Ieee.units y = 2 ^ k * Ieee.units x := by
  unfold Ieee.units
  rw [h.sign, h.units]
  split <;> push_cast <;> ring

theorem scaled_pack {k : Nat} {s : Bool} {n d n' d' : Nat}
    (hmono : rawMag n d ≤ rawMag n' d') (hf : Finite (pack s (roundMag n' d')))
    (h : magUnits (rawMag n' d') = 2 ^ k * magUnits (rawMag n d)) :
    Scaled k (pack s (roundMag n d)) (pack s (roundMag n' d')) := by
  have hl' := roundMag_le n' d'
  have hl := roundMag_le n d
  have hf' : roundMag n' d' < infMag := by
    unfold Finite at hf; rwa [pack_mag hl'] at hf
  have hfl : roundMag n d < infMag := by
    have := roundMag_of_finite hf'
    rw [roundMag_eq n d]; omega
  have hx : Finite (pack s (roundMag n d)) := by unfold Finite; rwa [pack_mag hl]
  rw [scaled_iff hx hf (by rw [pack_neg hl, pack_neg hl']), pack_mag hl, pack_mag hl', roundMag_of_finite hf',
    roundMag_of_finite hfl]
  exact h

/-- Sums scale. -/
theorem Scaled.add {k : Nat} {x x' y y' : F32} (hx : Scaled k x x') (hy : Scaled k y y') (hf : Finite (Ieee.add x' y')) :
    Scaled k (Ieee.add x y) (Ieee.add x' y') := by
  rw [add_finite_eq hx.fy hy.fy] at hf ⊢
  rw [add_finite_eq hx.fx hy.fx]
  have hz : Ieee.units x' + Ieee.units y' = 2 ^ k * (Ieee.units x + Ieee.units y) := by
    rw [hx.units_int, hy.units_int]; ring
  rw [hz, hx.sign, hy.sign] at hf ⊢
  clear hz
  generalize Ieee.units x + Ieee.units y = z at *
  have hp : (0 : Int) < 2 ^ k := by positivity
  by_cases h0 : z = 0
  · subst h0
    simp only [mul_zero, if_true]
    have hm : f32Mag (pack (isNeg x && isNeg y) 0) = 0 := pack_mag (by decide)
    have hfin : Finite (pack (isNeg x && isNeg y) 0) := by unfold Finite; rw [hm]; decide
    exact ⟨hfin, hfin, rfl, by rw [val_eq_zero.mpr hm]; simp⟩
  · have h0' : 2 ^ k * z ≠ 0 := mul_ne_zero hp.ne' h0
    rw [if_neg h0'] at hf ⊢
    rw [if_neg h0]
    have hs : decide (2 ^ k * z < 0) = decide (z < 0) := by
      congr 1
      rw [eq_iff_iff]
      constructor
      · intro h; by_contra hc; exact absurd h (not_lt.mpr (mul_nonneg hp.le (not_lt.mp hc)))
      · intro h; exact mul_neg_of_pos_of_neg hp h
    have ha : (2 ^ k * z).natAbs = 2 ^ k * z.natAbs := by
      rw [Int.natAbs_mul, Int.natAbs_pow]; rfl
    rw [hs, ha] at hf ⊢
    refine scaled_pack (rawMag_mono (by norm_num) (by norm_num) ?_) hf (magUnits_scale_int _ _)
    exact Nat.mul_le_mul_right _ (Nat.le_mul_of_pos_left _ (pow_pos' k))

/-- Products scale if they are zero or not subnormal. -/
theorem Scaled.mul {k l : Nat} {x x' y y' : F32} (hx : Scaled k x x') (hy : Scaled l y y')
    (hn : val x * val y = 0 ∨ 1 / 2 ^ 126 ≤ |val x * val y|) (hf : Finite (Ieee.mul x' y')) :
    Scaled (k + l) (Ieee.mul x y) (Ieee.mul x' y') := by
  rw [mul_finite_eq hx.fy hy.fy] at hf ⊢
  rw [mul_finite_eq hx.fx hy.fx]
  rw [hx.sign, hy.sign, hx.units, hy.units] at *
  have hN : magUnits (f32Mag x) * magUnits (f32Mag y) = 0 ∨ 2 ^ 23 * 2 ^ 149 ≤ magUnits (f32Mag x) * magUnits (f32Mag y) := by
    have e : |val x * val y| = ((magUnits (f32Mag x) * magUnits (f32Mag y) : Nat) : ℝ) / 2 ^ 298 := by
      rw [abs_mul, abs_val, abs_val]; push_cast
      rw [show (2 : ℝ) ^ 298 = 2 ^ 149 * 2 ^ 149 by rw [← pow_add]]
      field_simp
    rcases hn with hn | hn
    · left
      rw [hn, abs_zero] at e
      have := e.symm
      rw [div_eq_zero_iff] at this
      rcases this with h | h
      · exact_mod_cast h
      · exact absurd h (by positivity)
    · right
      rw [e, le_div_iff₀ (by positivity)] at hn
      have : ((2 ^ 23 * 2 ^ 149 : Nat) : ℝ) ≤ ((magUnits (f32Mag x) * magUnits (f32Mag y) : Nat) : ℝ) := by
        refine le_trans (le_of_eq ?_) hn
        rw [Nat.cast_mul, Nat.cast_pow, Nat.cast_pow, Nat.cast_ofNat, div_mul_eq_mul_div, one_mul, eq_div_iff (by positivity),
          ← pow_add, ← pow_add]
      exact_mod_cast this
  have hn' : 2 ^ k * magUnits (f32Mag x) * (2 ^ l * magUnits (f32Mag y)) =
      2 ^ (k + l) * (magUnits (f32Mag x) * magUnits (f32Mag y)) := by rw [pow_add]; ring
  rw [hn'] at hf ⊢
  generalize magUnits (f32Mag x) * magUnits (f32Mag y) = n at *
  refine scaled_pack (rawMag_mono (pow_pos' 149) (pow_pos' 149) ?_) hf ?_
  · have := pow_pos' (k + l)
    exact Nat.mul_le_mul_right _ (Nat.le_mul_of_pos_left _ this)
  · rcases hN with rfl | hN
    · have h0 : rawMag 0 (2 ^ 149) = 0 := by
        have := rawMag_magUnits 0 (2 ^ 149) (pow_pos' 149)
        rwa [magUnits_zero, Nat.zero_mul] at this
      rw [Nat.mul_zero, h0, magUnits_zero, Nat.mul_zero]
    · refine magUnits_scale (pow_pos' 149) (pow_pos' 149) (sameSide_div n (2 ^ 149) (pow_pos' 149)) ?_ hN
      have := sameSide_div (2 ^ (k + l) * n) (2 ^ 149) (pow_pos' 149)
      convert this using 1
      push_cast
      ring

theorem sqrt_big {m : Nat} (hm : 2 ^ 149 ≤ m) :
    2 ^ 23 * 4 ≤ 2 * isqrt (4 * m) + (if isqrt (4 * m) * isqrt (4 * m) = 4 * m then 0 else 1) := by
  have h2 := (isqrt_spec (4 * m)).2
  have : 2 ^ 24 ≤ isqrt (4 * m) := by
    by_contra hc
    have h3 : isqrt (4 * m) + 1 ≤ 2 ^ 24 := by omega
    have h4 := Nat.mul_le_mul h3 h3
    have h5 : 2 ^ 24 * 2 ^ 24 ≤ 2 ^ 149 := by norm_num
    omega
  omega

theorem sqrt_mag_pos {m : Nat} (hm : 2 ^ 149 ≤ m) :
    roundMag (2 * isqrt (4 * m) + (if isqrt (4 * m) * isqrt (4 * m) = 4 * m then 0 else 1)) 4 ≠ 0 := by
  have h1 := le_rawMag (by norm_num) (sqrt_big hm)
  have h2 : 0 < infMag := by decide
  have h3 := pow_pos' 23
  rw [roundMag_eq]
  omega

theorem scaled_sqrt_aux {k m : Nat} (hm : 2 ^ 149 ≤ m)
    (hf : Finite (pack false (roundMag (2 * isqrt (4 * (2 ^ (2 * k) * m)) +
      (if isqrt (4 * (2 ^ (2 * k) * m)) * isqrt (4 * (2 ^ (2 * k) * m)) = 4 * (2 ^ (2 * k) * m) then 0 else 1)) 4))) :
    Scaled k (pack false (roundMag (2 * isqrt (4 * m) + (if isqrt (4 * m) * isqrt (4 * m) = 4 * m then 0 else 1)) 4))
      (pack false (roundMag (2 * isqrt (4 * (2 ^ (2 * k) * m)) +
        (if isqrt (4 * (2 ^ (2 * k) * m)) * isqrt (4 * (2 ^ (2 * k) * m)) = 4 * (2 ^ (2 * k) * m) then 0 else 1)) 4)) := by
  have s1 := sameSide_sqrt m
  have s2 := sameSide_sqrt (2 ^ (2 * k) * m)
  have hz : Real.sqrt ((2 ^ (2 * k) * m : Nat) : ℝ) = 2 ^ k * Real.sqrt m := by
    push_cast
    rw [Real.sqrt_mul (by positivity), show (2 : ℝ) ^ (2 * k) = (2 ^ k) ^ 2 by rw [← pow_mul, Nat.mul_comm],
      Real.sqrt_sq (by positivity)]
  rw [hz] at s2
  have hbig := sqrt_big hm
  refine scaled_pack ?_ hf (magUnits_scale (by norm_num) (by norm_num) s1 s2 hbig)
  rw [rawMag_scale (by norm_num) (by norm_num) s1 s2 hbig]
  omega

theorem roundMag_scale_both (a b k P : Nat) (hb : 0 < b) : roundMag (2 ^ k * a * P) (2 ^ k * b) = roundMag (a * P) b := by
  have hp := pow_pos' k
  refine Nat.le_antisymm (roundMag_mono (Nat.mul_pos hp hb) hb (le_of_eq ?_)) (roundMag_mono hb (Nat.mul_pos hp hb) (le_of_eq ?_))
  · ring
  · ring

/-- Square roots of numbers times `4^k`. -/
theorem Scaled.sqrt {k : Nat} {x x' : F32} (hx : Scaled (2 * k) x x') (hf : Finite (Ieee.sqrt x')) :
    Scaled k (Ieee.sqrt x) (Ieee.sqrt x') := by
  obtain ⟨_, hs⟩ := sqrt_finite hf
  by_cases h0 : f32Mag x = 0
  · have h0' := hx.zero_iff.mpr h0
    have e : ∀ y : F32, f32Mag y = 0 → Ieee.sqrt y = y := by
      intro y hy
      have : isNan y = false := by unfold isNan; rw [hy]; rfl
      unfold Ieee.sqrt
      simp [this, hy]
    rw [e x h0, e x' h0']
    exact ⟨hx.fx, hx.fy, hx.sign, by rw [val_eq_zero.mpr h0, val_eq_zero.mpr h0']; simp⟩
  · have h0' : f32Mag x' ≠ 0 := fun h => h0 (hx.zero_iff.mp h)
    have hs' := hs.resolve_left h0'
    have hsx : isNeg x = false := by rw [← hx.sign]; exact hs'
    rw [sqrt_finite_eq hx.fy h0' hs'] at hf ⊢
    rw [sqrt_finite_eq hx.fx h0 hsx]
    have hu : magUnits (f32Mag x') * 2 ^ 149 = 2 ^ (2 * k) * (magUnits (f32Mag x) * 2 ^ 149) := by rw [hx.units]; ring
    rw [hu] at hf ⊢
    have hm : 2 ^ 149 ≤ magUnits (f32Mag x) * 2 ^ 149 := Nat.le_mul_of_pos_left _ (magUnits_pos h0)
    exact scaled_sqrt_aux hm hf

/-- Quotients of numbers that are scaled alike are the same. -/
theorem Scaled.div_eq {k : Nat} {x x' y y' : F32} (hx : Scaled k x x') (hy : Scaled k y y') (h0 : f32Mag y ≠ 0) :
    Ieee.div x' y' = Ieee.div x y := by
  have h0' : f32Mag y' ≠ 0 := fun h => h0 (hy.zero_iff.mp h)
  rw [div_finite_eq hx.fx hy.fx h0, div_finite_eq hx.fy hy.fy h0', hx.sign, hy.sign, hx.units, hy.units]
  rw [roundMag_scale_both _ _ _ _ (magUnits_pos h0)]

/-- Zeros that are scaled are the same. -/
theorem Scaled.eq_of_zero {k : Nat} {x y : F32} (h : Scaled k x y) (h0 : f32Mag x = 0) : y = x := by
  rw [eq_pack x, eq_pack y, h.sign, h0, h.zero_iff.mpr h0]

/-! ### Sums of lists -/

/-- `y` is `x` times `2^k`, unless it is too large. -/
def ScaledIf (k : Nat) (x y : F32) : Prop := Finite y → Scaled k x y

theorem ScaledIf.add {k : Nat} {x x' y y' : F32} (hx : ScaledIf k x x') (hy : ScaledIf k y y') :
    ScaledIf k (Ieee.add x y) (Ieee.add x' y') := fun hf =>
  (hx (add_finite hf).1).add (hy (add_finite hf).2) hf

theorem scaledIf_zero (k : Nat) : ScaledIf k 0 0 := fun hf => ⟨hf, hf, rfl, by
  rw [val_eq_zero.mpr (by decide)]; simp⟩

/-- A sum without further blocks of eight. -/
theorem unrolledSumF_short (fuel : Nat) (a0 a1 a2 a3 a4 a5 a6 a7 : F32) (ys : List F32) (hy : fuel = 0 ∨ ys.length < 8) :
    unrolledSumF fuel [a0, a1, a2, a3, a4, a5, a6, a7] ys = ys.foldl Ieee.add (Ieee.add (Ieee.add (Ieee.add (Ieee.add 0
      (Ieee.add a0 a4)) (Ieee.add a1 a5)) (Ieee.add a2 a6)) (Ieee.add a3 a7)) := by
  match fuel, ys, hy with
  | 0, _, _ => rfl
  | fuel + 1, [], _ => rfl
  | fuel + 1, [_], _ => rfl
  | fuel + 1, [_, _], _ => rfl
  | fuel + 1, [_, _, _], _ => rfl
  | fuel + 1, [_, _, _, _], _ => rfl
  | fuel + 1, [_, _, _, _, _], _ => rfl
  | fuel + 1, [_, _, _, _, _, _], _ => rfl
  | fuel + 1, [_, _, _, _, _, _, _], _ => rfl
  | fuel + 1, _ :: _ :: _ :: _ :: _ :: _ :: _ :: _ :: _, hy => simp at hy; omega

/-- Two sums are related by `A` if their terms are related by `X` and additions respect the relations. -/
structure PairRel (A X : F32 → F32 → Prop) : Prop where
  zero : A 0 0
  term : ∀ {a a' x x' : F32}, A a a' → X x x' → A (Ieee.add a x) (Ieee.add a' x')
  both : ∀ {a a' b b' : F32}, A a a' → A b b' → A (Ieee.add a b) (Ieee.add a' b')

theorem PairRel.foldl {A X : F32 → F32 → Prop} (h : PairRel A X) {xs xs' : List F32} (hx : List.Forall₂ X xs xs') {a a' : F32}
    (ha : A a a') : A (xs.foldl Ieee.add a) (xs'.foldl Ieee.add a') := by
  induction hx generalizing a a' with
  | nil => exact ha
  | cons hx _ ih => exact ih (h.term ha hx)

theorem PairRel.unrolledSumF {A X : F32 → F32 → Prop} (h : PairRel A X) (fuel : Nat) {ps ps' xs xs' : List F32}
    (hp : List.Forall₂ A ps ps') (hx : List.Forall₂ X xs xs') (h8 : ps.length = 8) :
    A (Ieee.unrolledSumF fuel ps xs) (Ieee.unrolledSumF fuel ps' xs') := by
  have base : ∀ (fuel : Nat) {ps ps' xs xs' : List F32}, List.Forall₂ A ps ps' → List.Forall₂ X xs xs' →
      ps.length = 8 → (fuel = 0 ∨ xs.length < 8) → A (Ieee.unrolledSumF fuel ps xs) (Ieee.unrolledSumF fuel ps' xs') := by
    intro fuel ps ps' xs xs' hp hx h8 hl
    have hlen := hx.length_eq
    match ps, ps', h8, hp with
    | [p0, p1, p2, p3, p4, p5, p6, p7], _, _, .cons q0 (.cons q1 (.cons q2 (.cons q3 (.cons q4 (.cons q5 (.cons q6 (.cons q7 .nil))))))) =>
      rename_i r0 r1 r2 r3 r4 r5 r6 r7
      rw [unrolledSumF_short _ _ _ _ _ _ _ _ _ _ hl, unrolledSumF_short _ _ _ _ _ _ _ _ _ _ (by rw [← hlen]; exact hl)]
      exact h.foldl hx (h.both (h.both (h.both (h.both h.zero (h.both q0 q4)) (h.both q1 q5)) (h.both q2 q6)) (h.both q3 q7))
  induction fuel generalizing ps ps' xs xs' with
  | zero => exact base 0 hp hx h8 (.inl rfl)
  | succ fuel ih =>
    match xs, xs', hx with
    | x0 :: x1 :: x2 :: x3 :: x4 :: x5 :: x6 :: x7 :: xs, _,
      .cons a0 (.cons a1 (.cons a2 (.cons a3 (.cons a4 (.cons a5 (.cons a6 (.cons a7 hx))))))) =>
      match ps, ps', h8, hp with
      | [p0, p1, p2, p3, p4, p5, p6, p7], _, _,
        .cons q0 (.cons q1 (.cons q2 (.cons q3 (.cons q4 (.cons q5 (.cons q6 (.cons q7 .nil))))))) =>
        rw [Ieee.unrolledSumF, Ieee.unrolledSumF]
        refine ih ?_ hx rfl
        exact .cons (h.term q0 a0) (.cons (h.term q1 a1) (.cons (h.term q2 a2) (.cons (h.term q3 a3) (.cons (h.term q4 a4) (.cons (h.term q5 a5)
          (.cons (h.term q6 a6) (.cons (h.term q7 a7) .nil)))))))
    | [], _, g => exact base _ hp g h8 (.inr (by simp))
    | [_], _, g => exact base _ hp g h8 (.inr (by simp))
    | [_, _], _, g => exact base _ hp g h8 (.inr (by simp))
    | [_, _, _], _, g => exact base _ hp g h8 (.inr (by simp))
    | [_, _, _, _], _, g => exact base _ hp g h8 (.inr (by simp))
    | [_, _, _, _, _], _, g => exact base _ hp g h8 (.inr (by simp))
    | [_, _, _, _, _, _], _, g => exact base _ hp g h8 (.inr (by simp))
    | [_, _, _, _, _, _, _], _, g => exact base _ hp g h8 (.inr (by simp))

theorem PairRel.unrolledSum {A X : F32 → F32 → Prop} (h : PairRel A X) {xs xs' : List F32} (hx : List.Forall₂ X xs xs') :
    A (Ieee.unrolledSum xs) (Ieee.unrolledSum xs') := by
  unfold Ieee.unrolledSum
  rw [← hx.length_eq]
  refine h.unrolledSumF _ ?_ hx (by simp)
  simp only [List.replicate]
  have := h.zero
  exact .cons this (.cons this (.cons this (.cons this (.cons this (.cons this (.cons this (.cons this .nil)))))))

theorem scaledIf_unrolledSum {k : Nat} {xs xs' : List F32} (hx : List.Forall₂ (ScaledIf k) xs xs') :
    ScaledIf k (unrolledSum xs) (unrolledSum xs') :=
  PairRel.unrolledSum ⟨scaledIf_zero k, fun a b => a.add b, fun a b => a.add b⟩ hx

end Ieee
end FF
