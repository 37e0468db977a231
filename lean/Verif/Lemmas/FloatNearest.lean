import Verif.Lemmas.FloatMono

/-!
# The operations give the nearest float
-/

namespace FF
namespace Ieee

theorem magUnits_inj {a b : Nat} (h : magUnits a = magUnits b) : a = b := by
  have h1 := rawMag_magUnits a 1 (by norm_num)
  have h2 := rawMag_magUnits b 1 (by norm_num)
  rw [h, h2] at h1
  exact h1.symm

theorem magUnits_strict {a b : Nat} (h : a < b) : magUnits a < magUnits b := by
  rcases Nat.lt_or_eq_of_le (magUnits_mono h.le) with h1 | h1
  · exact h1
  · have := magUnits_inj h1; omega

/-- The next float is at least one place away. -/
theorem next_gap (n d : Nat) (hd : 0 < d) : magUnits (rawMag n d) + 2 ^ expo n d ≤ magUnits (rawMag n d + 1) := by
  have hr := rawMag_r n d hd
  rw [magUnits_rawMag n d hd]
  unfold rawMag
  generalize roundDiv n (d * 2 ^ expo n d) = r at *
  generalize expo n d = e at *
  by_cases h : r = 2 ^ 24
  · subst h
    have := magUnits_eq (e + 1) (2 ^ 23 + 1) (.inr (by norm_num))
    rw [show (e + 1) * 2 ^ 23 + (2 ^ 23 + 1) = e * 2 ^ 23 + 2 ^ 24 + 1 by omega] at this
    rw [this, pow_succ]
    have := pow_pos' e
    omega
  · rw [Nat.add_assoc, magUnits_eq e (r + 1) (by omega), Nat.add_mul, Nat.one_mul]

/-- The previous float is at least one place away, unless the last place changes there. -/
theorem prev_gap (n d : Nat) (hd : 0 < d) (h : rawMag n d ≠ 0) :
    magUnits (rawMag n d - 1) + 2 ^ expo n d ≤ magUnits (rawMag n d) ∨
      expo n d ≠ 0 ∧ magUnits (rawMag n d) = 2 ^ 23 * 2 ^ expo n d := by
  have hr := rawMag_r n d hd
  rw [magUnits_rawMag n d hd]
  unfold rawMag at h ⊢
  generalize roundDiv n (d * 2 ^ expo n d) = r at *
  generalize expo n d = e at *
  by_cases h1 : e ≠ 0 ∧ r = 2 ^ 23
  · exact .inr ⟨h1.1, by rw [h1.2]⟩
  · left
    have hr0 : 1 ≤ r := by
      rcases hr with ⟨he, _⟩ | ⟨h2, _⟩
      · subst he; omega
      · omega
    rw [show e * 2 ^ 23 + r - 1 = e * 2 ^ 23 + (r - 1) by omega, magUnits_eq e (r - 1) (by omega), ← Nat.succ_mul]
    exact Nat.mul_le_mul_right _ (by omega)

theorem roundDiv_tie_up {n d q : Nat} (hd : 0 < d) (h : 2 * n = (2 * q + 1) * d) : roundDiv n d = q + q % 2 := by
  have h1 : 2 * n = 2 * (q * d) + d := by rw [h]; ring
  have h2 : n = q * d + d / 2 ∧ 2 * (d / 2) = d := by omega
  have hm : n % d = d / 2 := by
    rw [h2.1, Nat.add_comm, Nat.add_mul_mod_self_right, Nat.mod_eq_of_lt (by omega)]
  have hq : n / d = q := by
    rw [h2.1, Nat.add_comm, Nat.add_mul_div_right _ _ hd, Nat.div_eq_of_lt (by omega)]; omega
  unfold roundDiv
  rw [hm, hq, if_neg (by omega), if_neg (by omega)]

/-- No float is closer, and if another is as close then the last bit is zero. -/
theorem rawMag_nearest {n d : Nat} {z : ℝ} (hd : 0 < d) (h : SameSide n d z) (b : Nat) :
    |(magUnits (rawMag n d) : ℝ) - z| ≤ |(magUnits b : ℝ) - z| ∧
    (|(magUnits b : ℝ) - z| = |(magUnits (rawMag n d) : ℝ) - z| → b ≠ rawMag n d → rawMag n d % 2 = 0) := by
  have herr := rawMag_error hd h
  have hp : 0 < d * 2 ^ expo n d := Nat.mul_pos hd (pow_pos' _)
  have hform := magUnits_rawMag n d hd
  have hparity : rawMag n d % 2 = roundDiv n (d * 2 ^ expo n d) % 2 := by unfold rawMag; omega
  rcases Nat.lt_trichotomy b (rawMag n d) with hlt | heq | hgt
  · have hb : magUnits b ≤ magUnits (rawMag n d - 1) := magUnits_mono (by omega)
    rcases prev_gap n d hd (by omega) with hg | ⟨he, hm⟩
    · have hg2 : magUnits b + 2 ^ expo n d ≤ magUnits (rawMag n d) := by omega
      have hg3 : (magUnits b : ℝ) + 2 ^ expo n d ≤ (magUnits (rawMag n d) : ℝ) := by exact_mod_cast hg2
      have hz := (abs_le.mp herr)
      have hbz : (2 : ℝ) ^ expo n d / 2 ≤ z - magUnits b := by linarith [hz.2]
      have hab : |(magUnits b : ℝ) - z| = z - magUnits b := by
        rw [abs_sub_comm, abs_of_nonneg]
        have : (0 : ℝ) < 2 ^ expo n d := by positivity
        linarith
      rw [hab]
      refine ⟨by linarith, fun heq _ => ?_⟩
      have htie : (magUnits (rawMag n d) : ℝ) - z = 2 ^ expo n d / 2 := by linarith [hz.2]
      rw [hparity]
      rw [hform] at htie
      generalize hr : roundDiv n (d * 2 ^ expo n d) = r at *
      generalize expo n d = e at *
      have hr1 : 1 ≤ r := by
        by_contra hc
        have : r = 0 := by omega
        rw [this, Nat.zero_mul] at hform
        have : magUnits 0 < magUnits (rawMag n d) := magUnits_strict (by omega)
        rw [magUnits_zero] at this
        omega
      have h2 := h.tie ((2 * (r - 1) + 1) * 2 ^ e) (by
        push_cast [Nat.cast_sub hr1] at htie ⊢
        linarith)
      have h3 := roundDiv_tie_up (q := r - 1) hp (by rw [h2]; ring)
      rw [hr] at h3
      omega
    · have hz : (magUnits (rawMag n d) : ℝ) ≤ z := by
        have h1 := h.lo (2 ^ 24 * 2 ^ expo n d) (by
          have := expo_lo n d he
          calc 2 ^ 24 * 2 ^ expo n d * d = 2 * (2 ^ 23 * (d * 2 ^ expo n d)) := by ring
            _ ≤ 2 * n := Nat.mul_le_mul_left 2 this)
        rw [hm]
        push_cast at h1 ⊢
        linarith
      have hb2 : magUnits b < magUnits (rawMag n d) := magUnits_strict hlt
      have hb3 : (magUnits b : ℝ) < magUnits (rawMag n d) := by exact_mod_cast hb2
      rw [abs_sub_comm, abs_of_nonneg (by linarith), abs_sub_comm, abs_of_nonneg (by linarith)]
      exact ⟨by linarith, fun heq => by linarith⟩
  · subst heq
    exact ⟨le_rfl, fun _ h => absurd rfl h⟩
  · have hb : magUnits (rawMag n d + 1) ≤ magUnits b := magUnits_mono (by omega)
    have hg := next_gap n d hd
    have hg2 : magUnits (rawMag n d) + 2 ^ expo n d ≤ magUnits b := by omega
    have hg3 : (magUnits (rawMag n d) : ℝ) + 2 ^ expo n d ≤ (magUnits b : ℝ) := by exact_mod_cast hg2
    have hz := (abs_le.mp herr)
    have hab : |(magUnits b : ℝ) - z| = magUnits b - z := by
      rw [abs_of_nonneg]
      have : (0 : ℝ) < 2 ^ expo n d := by positivity
      linarith
    rw [hab]
    refine ⟨by linarith, fun heq _ => ?_⟩
    have htie : (magUnits (rawMag n d) : ℝ) - z = - (2 ^ expo n d / 2) := by linarith [hz.1]
    rw [hparity]
    rw [hform] at htie
    generalize hr : roundDiv n (d * 2 ^ expo n d) = r at *
    generalize expo n d = e at *
    have h2 := h.tie ((2 * r + 1) * 2 ^ e) (by
      push_cast at htie ⊢
      linarith)
    have h3 := roundDiv_tie_up (q := r) hp (by rw [h2]; ring)
    rw [hr] at h3
    omega

/-- Specification (IEEE 754, round to nearest, ties to even): `r` is a finite float, no finite float is closer to `z`, and if another
one is as close then the last bit of `r` is zero. -/
def Nearest (r : F32) (z : ℝ) : Prop :=
  Finite r ∧ (∀ b, Finite b → |val r - z| ≤ |val b - z|) ∧
  ∀ b, Finite b → |val b - z| = |val r - z| → val b ≠ val r → r.toNat % 2 = 0

/-- Specification: the float for the exact result `z`: the nearest one, or infinity if `z` is not below the middle between the largest
float and `2^128`. -/
def Rounded (r : F32) (z : ℝ) : Prop :=
  if |z| < 2 ^ 128 - 2 ^ 103 then Nearest r z else r = if z < 0 then 0xff800000 else 0x7f800000

theorem sameSide_nonneg {n d : Nat} {z : ℝ} (h : SameSide n d z) : 0 ≤ z := by
  have := h.lo 0 (by omega)
  push_cast at this
  linarith

theorem pack_parity (s : Bool) (m : Nat) : (pack s m).toNat % 2 = m % 2 := by
  unfold pack
  rw [UInt32.toNat_ofNat']
  cases s
  · simp only [Bool.false_eq_true, if_false]; omega
  · simp only [if_true]; omega

theorem abs_sg (s : Bool) : |sg s| = 1 := by cases s <;> simp [sg]

theorem nearest_pack {s : Bool} {n d : Nat} {z : ℝ} (hd : 0 < d) (h : SameSide n d z) (hf : Finite (pack s (roundMag n d))) :
    Nearest (pack s (roundMag n d)) (sg s * (z / 2 ^ 149)) := by
  have hz := sameSide_nonneg h
  have hfm : roundMag n d < infMag := by
    unfold Finite at hf; rwa [pack_mag (roundMag_le _ _)] at hf
  have hraw := roundMag_of_finite hfm
  have hp : (0 : ℝ) < 2 ^ 149 := by positivity
  have hval : val (pack s (roundMag n d)) = sg s * ((magUnits (rawMag n d) : ℝ) / 2 ^ 149) := by
    rw [val_pack' (roundMag_le _ _), hraw]
  have hdist : |val (pack s (roundMag n d)) - sg s * (z / 2 ^ 149)| = |(magUnits (rawMag n d) : ℝ) - z| / 2 ^ 149 := by
    rw [hval, ← mul_sub, abs_mul, abs_sg, one_mul, ← sub_div, abs_div, abs_of_pos hp]
  have hb : ∀ b : F32, (isNeg b = s ∧ |val b - sg s * (z / 2 ^ 149)| = |(magUnits (f32Mag b) : ℝ) - z| / 2 ^ 149) ∨
      (isNeg b ≠ s ∧ |val b - sg s * (z / 2 ^ 149)| = ((magUnits (f32Mag b) : ℝ) + z) / 2 ^ 149) := by
    intro b
    by_cases hs : isNeg b = s
    · left
      refine ⟨hs, ?_⟩
      rw [val_eq, hs]
      change |sg s * _ - _| = _
      rw [← mul_sub, abs_mul, abs_sg, one_mul, ← sub_div, abs_div, abs_of_pos hp]
    · right
      refine ⟨hs, ?_⟩
      have hm : (0 : ℝ) ≤ magUnits (f32Mag b) := Nat.cast_nonneg _
      have e : val b = sg s * (-((magUnits (f32Mag b) : ℝ) / 2 ^ 149)) := by
        rw [val_eq]
        cases hn : isNeg b <;> cases s <;> simp_all [sg]
      rw [e, ← mul_sub, abs_mul, abs_sg, one_mul, ← neg_div, ← sub_div, abs_div, abs_of_pos hp]
      congr 1
      rw [abs_of_nonpos (by linarith)]; ring
  have h0 := rawMag_nearest hd h 0
  rw [magUnits_zero, Nat.cast_zero, zero_sub, abs_neg, abs_of_nonneg hz] at h0
  refine ⟨hf, fun b _ => ?_, fun b _ heq hne => ?_⟩
  · rw [hdist]
    rcases hb b with ⟨_, e⟩ | ⟨_, e⟩
    · rw [e]
      exact (div_le_div_iff_of_pos_right hp).mpr (rawMag_nearest hd h (f32Mag b)).1
    · rw [e]
      have hm : (0 : ℝ) ≤ magUnits (f32Mag b) := Nat.cast_nonneg _
      exact (div_le_div_iff_of_pos_right hp).mpr (by linarith [h0.1])
  · rw [pack_parity, hraw]
    rw [hdist] at heq
    rcases hb b with ⟨hs, e⟩ | ⟨hs, e⟩
    · rw [e, div_left_inj' hp.ne'] at heq
      refine (rawMag_nearest hd h (f32Mag b)).2 heq ?_
      intro hc
      apply hne
      rw [hval, val_eq, hs, hc]; rfl
    · rw [e, div_left_inj' hp.ne'] at heq
      have hm : (0 : ℝ) ≤ magUnits (f32Mag b) := Nat.cast_nonneg _
      have hm0 : (magUnits (f32Mag b) : ℝ) = 0 := by linarith [h0.1]
      refine h0.2 (by linarith) ?_
      intro hc
      apply hne
      have hv : val b = 0 := by rw [val_eq, hm0]; simp
      rw [hv, hval, ← hc, magUnits_zero]; simp

/-- Overflow. -/
theorem roundMag_overflow {n d : Nat} {z : ℝ} (hd : 0 < d) (h : SameSide n d z) :
    roundMag n d < infMag ↔ z / 2 ^ 149 < 2 ^ 128 - 2 ^ 103 := by
  have hp : (0 : ℝ) < 2 ^ 149 := by positivity
  rw [div_lt_iff₀ hp]
  have e : ((2 : ℝ) ^ 128 - 2 ^ 103) * 2 ^ 149 = (2 ^ 25 - 1) * 2 ^ 252 := by
    rw [sub_mul, sub_mul, one_mul, ← pow_add, ← pow_add, ← pow_add]
  rw [e, roundMag_eq]
  have hmax : magUnits 0x7f7fffff = (2 ^ 24 - 1) * 2 ^ 253 := by decide +kernel
  have hinf : magUnits infMag = 2 ^ 24 * 2 ^ 253 := by decide +kernel
  have p253 : (2 : ℝ) ^ 253 = 2 * 2 ^ 252 := by rw [pow_succ]; ring
  have hq : (0 : ℝ) < 2 ^ 252 := by positivity
  constructor
  · intro hlt
    by_contra hc
    push Not at hc
    have hr : rawMag n d ≤ 0x7f7fffff := by rw [infMag_eq] at hlt; omega
    have hm : magUnits (rawMag n d) ≤ magUnits 0x7f7fffff := magUnits_mono hr
    have hn := rawMag_nearest hd h infMag
    have hm' : (magUnits (rawMag n d) : ℝ) ≤ (2 ^ 24 - 1) * (2 * 2 ^ 252) := by
      have : (magUnits (rawMag n d) : ℝ) ≤ ((magUnits 0x7f7fffff : Nat) : ℝ) := Nat.cast_le.mpr hm
      rw [hmax, Nat.cast_mul, Nat.cast_pow, Nat.cast_ofNat, p253] at this
      refine le_trans this (le_of_eq ?_)
      congr 1
      norm_num
    have hi' : (magUnits infMag : ℝ) = 2 ^ 24 * (2 * 2 ^ 252) := by
      rw [hinf, Nat.cast_mul, Nat.cast_pow, Nat.cast_pow, Nat.cast_ofNat, p253]
    rw [hi'] at hn
    have key : (magUnits (rawMag n d) : ℝ) = (2 ^ 24 - 1) * (2 * 2 ^ 252) ∧
        |(2 : ℝ) ^ 24 * (2 * 2 ^ 252) - z| = |(magUnits (rawMag n d) : ℝ) - z| := by
      have h1 := hn.1
      generalize (2 : ℝ) ^ 252 = w at *
      generalize (magUnits (rawMag n d) : ℝ) = m at *
      rw [abs_of_nonpos (show m - z ≤ 0 by nlinarith)] at h1 ⊢
      rcases abs_cases ((2 : ℝ) ^ 24 * (2 * w) - z) with ⟨h2, _⟩ | ⟨h2, _⟩ <;> rw [h2] at h1 ⊢ <;> constructor <;> nlinarith
    have hodd : rawMag n d = 0x7f7fffff := by
      apply magUnits_inj
      rw [hmax]
      have h1 := key.1
      have h2 : ((2 : ℝ) ^ 24 - 1) * (2 * 2 ^ 252) = (((2 ^ 24 - 1) * 2 ^ 253 : Nat) : ℝ) := by
        rw [Nat.cast_mul, Nat.cast_pow, Nat.cast_ofNat, p253]
        congr 1
        norm_num
      rw [h2] at h1
      exact Nat.cast_injective h1
    have := hn.2 key.2 (by rw [hodd]; decide)
    omega
  · intro hlt
    by_contra hc
    have hr : infMag ≤ rawMag n d := by omega
    have hm : magUnits infMag ≤ magUnits (rawMag n d) := magUnits_mono hr
    have hn := (rawMag_nearest hd h 0x7f7fffff).1
    have hm' : (2 : ℝ) ^ 24 * (2 * 2 ^ 252) ≤ (magUnits (rawMag n d) : ℝ) := by
      have : ((magUnits infMag : Nat) : ℝ) ≤ (magUnits (rawMag n d) : ℝ) := Nat.cast_le.mpr hm
      rwa [hinf, Nat.cast_mul, Nat.cast_pow, Nat.cast_pow, Nat.cast_ofNat, p253] at this
    have hx : (magUnits 0x7f7fffff : ℝ) = (2 ^ 24 - 1) * (2 * 2 ^ 252) := by
      rw [hmax, Nat.cast_mul, Nat.cast_pow, Nat.cast_ofNat, p253]
      congr 1
      norm_num
    rw [hx] at hn
    generalize (2 : ℝ) ^ 252 = w at *
    generalize (magUnits (rawMag n d) : ℝ) = m at *
    rw [abs_of_nonneg (by nlinarith)] at hn
    rcases abs_cases ((2 ^ 24 - 1) * (2 * w) - z) with ⟨h1, _⟩ | ⟨h1, _⟩ <;> rw [h1] at hn <;> nlinarith

theorem rounded_pack {s : Bool} {n d : Nat} {z : ℝ} (hd : 0 < d) (h : SameSide n d z) :
    Rounded (pack s (roundMag n d)) (sg s * (z / 2 ^ 149)) := by
  have hz := sameSide_nonneg h
  have hp : (0 : ℝ) < 2 ^ 149 := by positivity
  have habs : |sg s * (z / 2 ^ 149)| = z / 2 ^ 149 := by
    rw [abs_mul, abs_sg, one_mul, abs_of_nonneg (div_nonneg hz hp.le)]
  unfold Rounded
  rw [habs]
  have ho := roundMag_overflow hd h
  split
  · next hlt =>
    refine nearest_pack hd h ?_
    unfold Finite
    rw [pack_mag (roundMag_le _ _)]
    exact ho.mpr hlt
  · next hge =>
    have hm : roundMag n d = infMag := by
      have := roundMag_le n d
      have h2 : ¬ roundMag n d < infMag := fun hc => hge (ho.mp hc)
      omega
    rw [hm]
    have hzp : 0 < z / 2 ^ 149 := by
      push Not at hge
      exact lt_of_lt_of_le (by norm_num) hge
    cases s
    · rw [if_neg (by simp only [sg, Bool.false_eq_true, if_false]; linarith)]; decide
    · rw [if_pos (by simp only [sg, if_true]; linarith)]; decide

theorem nearest_zero (s : Bool) : Rounded (pack s 0) 0 := by
  have := rounded_pack (s := s) (n := 0) (d := 1) (by norm_num) (sameSide_div 0 1 (by norm_num))
  rw [roundMag_zero] at this
  simpa using this

/-- **C76.** Addition of the model is IEEE addition. -/
theorem ieee_add {x y : F32} (hx : Finite x) (hy : Finite y) : Rounded (add x y) (val x + val y) := by
  have hv : val x + val y = ((units x + units y : Int) : ℝ) / 2 ^ 149 := by
    unfold val; push_cast; ring
  rw [add_finite_eq hx hy, hv]
  generalize units x + units y = z
  split
  · next h => rw [h]; simpa using nearest_zero _
  · have := rounded_pack (s := decide (z < 0)) (n := z.natAbs) (d := 1) (by norm_num) (sameSide_div _ 1 (by norm_num))
    refine cast (congrArg _ ?_) this
    unfold sg
    push_cast
    rw [Nat.cast_natAbs, div_one]
    by_cases hz : z < 0
    · simp only [hz, decide_true, if_true]
      rw [abs_of_neg hz]; push_cast; ring
    · simp only [hz, decide_false, Bool.false_eq_true, if_false]
      rw [abs_of_nonneg (by omega), one_mul]

/-- **C76.** Subtraction of the model is IEEE subtraction. -/
theorem ieee_sub {x y : F32} (hx : Finite x) (hy : Finite y) : Rounded (sub x y) (val x - val y) := by
  have := ieee_add hx (neg_finite hy)
  rw [val_neg hy] at this
  exact this

/-- **C76.** Multiplication of the model is IEEE multiplication. -/
theorem ieee_mul {x y : F32} (hx : Finite x) (hy : Finite y) : Rounded (mul x y) (val x * val y) := by
  rw [mul_finite_eq hx hy]
  have := rounded_pack (s := isNeg x != isNeg y) (pow_pos' 149)
    (sameSide_div (magUnits (f32Mag x) * magUnits (f32Mag y)) (2 ^ 149) (pow_pos' 149))
  refine cast (congrArg _ ?_) this
  rw [val_eq, val_eq, sg, sign_mul, Nat.cast_mul, Nat.cast_pow, Nat.cast_ofNat]
  ring

/-- **C76.** Division of the model is IEEE division. -/
theorem ieee_div {x y : F32} (hx : Finite x) (hy : Finite y) (h0 : val y ≠ 0) : Rounded (div x y) (val x / val y) := by
  have h0 : f32Mag y ≠ 0 := fun h => h0 (val_eq_zero.mpr h)
  rw [div_finite_eq hx hy h0]
  have hm := magUnits_pos h0
  have hm' : (magUnits (f32Mag y) : ℝ) ≠ 0 := by exact_mod_cast hm.ne'
  have := rounded_pack (s := isNeg x != isNeg y) hm (sameSide_div (magUnits (f32Mag x) * 2 ^ 149) _ hm)
  refine cast (congrArg _ ?_) this
  rw [val_eq, val_eq, sg, sign_mul, Nat.cast_mul, Nat.cast_pow, Nat.cast_ofNat]
  have h2 : (if isNeg y then -1 else 1 : ℝ) * (if isNeg y then -1 else 1) = 1 := by cases isNeg y <;> simp
  have h3 : (if isNeg y then -1 else 1 : ℝ) ≠ 0 := by cases isNeg y <;> simp
  field_simp
  rw [pow_two, h2, one_mul]

/-- **C76.** The root of the model is the IEEE root. -/
theorem ieee_sqrt {x : F32} (hx : Finite x) (h : 0 ≤ val x) : Rounded (sqrt x) (Real.sqrt (val x)) := by
  by_cases h0 : f32Mag x = 0
  · have e : sqrt x = x := by unfold sqrt; rw [hx.notNan]; simp [h0]
    have e2 : x = pack (isNeg x) 0 := by
      apply UInt32.toNat_inj.mp
      have := x.toNat_lt
      unfold f32Mag at h0
      unfold pack isNeg
      rw [UInt32.toNat_ofNat']
      by_cases h : 2 ^ 31 ≤ x.toNat
      · simp only [h, decide_true, if_true]; omega
      · simp only [h, decide_false, Bool.false_eq_true, if_false]; omega
    rw [e, val_eq_zero.mpr h0, Real.sqrt_zero, e2]
    exact nearest_zero _
  · have hn : isNeg x = false := by
      by_contra hc
      have hc : isNeg x = true := by simpa using hc
      rw [val_eq, hc] at h
      have := magUnits_pos h0
      have : (0 : ℝ) < magUnits (f32Mag x) := by exact_mod_cast this
      have : (0 : ℝ) < (magUnits (f32Mag x) : ℝ) / 2 ^ 149 := by positivity
      simp only [if_true] at h
      linarith
    rw [sqrt_finite_eq hx h0 hn]
    have := rounded_pack (s := false) (by norm_num) (sameSide_sqrt (magUnits (f32Mag x) * 2 ^ 149))
    rw [sqrt_units] at this
    refine cast (congrArg _ ?_) this
    rw [val_eq, hn]
    simp [sg]

/-- Specification: positive and negative infinity, and a number that is not zero. -/
abbrev posInf : F32 := 0x7f800000
/-- Specification: negative infinity. -/
abbrev negInf : F32 := 0xff800000

/-- **C76.** What is not a number stays so. -/
theorem ieee_nan (x y : F32) :
    (isNan x = true ∨ isNan y = true → isNan (add x y) = true ∧ isNan (sub x y) = true ∧ isNan (mul x y) = true ∧ isNan (div x y) = true) ∧
    (isNan x = true → isNan (sqrt x) = true) := by
  have hneg : isNan (neg y) = isNan y := by
    unfold isNan neg f32Mag pack
    rw [UInt32.toNat_ofNat']
    have : y.toNat % 2 ^ 31 < 2 ^ 31 := Nat.mod_lt _ (by norm_num)
    have e : ∀ b : Bool, (if b then 2 ^ 31 + y.toNat % 2 ^ 31 else y.toNat % 2 ^ 31) % 2 ^ 32 % 2 ^ 31 = y.toNat % 2 ^ 31 := by
      intro b; cases b
      · simp only [Bool.false_eq_true, if_false]; omega
      · simp only [if_true]; omega
    simp only [e]
  constructor
  · intro h
    have h' : (isNan x || isNan y) = true := by simpa using h
    refine ⟨?_, ?_, ?_, ?_⟩
    · unfold add; rw [if_pos h']; decide
    · unfold sub add; rw [hneg, if_pos h']; decide
    · unfold mul; rw [if_pos h']; decide
    · unfold div; rw [if_pos h']; decide
  · intro h
    unfold sqrt; rw [if_pos h]; decide

/-- **C76.** Infinite operands, and divisions by zero. -/
theorem ieee_infinite {x : F32} (hx : Finite x) :
    add posInf x = posInf ∧ add x posInf = posInf ∧ add negInf x = negInf ∧ add x negInf = negInf ∧
    add posInf posInf = posInf ∧ add negInf negInf = negInf ∧ isNan (add posInf negInf) = true ∧ isNan (add negInf posInf) = true ∧
    (0 < val x → mul posInf x = posInf ∧ mul x posInf = posInf ∧ div posInf x = posInf ∧ val (div x posInf) = 0) ∧
    (val x < 0 → mul posInf x = negInf ∧ mul x posInf = negInf ∧ div posInf x = negInf ∧ val (div x posInf) = 0) ∧
    (val x = 0 → isNan (mul posInf x) = true ∧ isNan (mul x posInf) = true ∧ isNan (div x x) = true) ∧
    (0 < val x → div x 0 = posInf) ∧ (val x < 0 → div x 0 = negInf ∧ isNan (sqrt x) = true) ∧ sqrt posInf = posInf := by
  have hn := hx.notNan
  have hi := hx.notInf
  have c1 : isNan posInf = false := by decide
  have c2 : isInf posInf = true := by decide
  have c3 : isNan negInf = false := by decide
  have c4 : isInf negInf = true := by decide
  have c5 : isNeg posInf = false := by decide
  have c6 : isNan 0 = false := by decide
  have c7 : isInf 0 = false := by decide
  have c8 : isNeg 0 = false := by decide
  have c9 : f32Mag 0 = 0 := by decide
  have c10 : f32Mag posInf ≠ 0 := by decide
  have p1 : pack false infMag = posInf := by decide
  have p2 : pack true infMag = negInf := by decide
  have pos : 0 < val x → isNeg x = false ∧ f32Mag x ≠ 0 := by
    intro h
    constructor
    · by_contra hc
      have hc : isNeg x = true := by simpa using hc
      rw [val_eq, hc] at h
      have : (0 : ℝ) ≤ (magUnits (f32Mag x) : ℝ) / 2 ^ 149 := div_nonneg (Nat.cast_nonneg _) (by positivity)
      simp only [if_true] at h
      linarith
    · intro hm; rw [val_eq_zero.mpr hm] at h; exact lt_irrefl _ h
  have neg : val x < 0 → isNeg x = true ∧ f32Mag x ≠ 0 := by
    intro h
    constructor
    · by_contra hc
      have hc : isNeg x = false := by simpa using hc
      rw [val_eq, hc] at h
      have : (0 : ℝ) ≤ (magUnits (f32Mag x) : ℝ) / 2 ^ 149 := div_nonneg (Nat.cast_nonneg _) (by positivity)
      simp only [Bool.false_eq_true, if_false] at h
      linarith
    · intro hm; rw [val_eq_zero.mpr hm] at h; exact lt_irrefl _ h
  have vz : ∀ s, val (pack s 0) = 0 := by
    intro s; rw [val_pack' (by decide), magUnits_zero]; simp
  refine ⟨?_, ?_, ?_, ?_, by decide, by decide, by decide, by decide, ?_, ?_, ?_, ?_, ?_, by decide⟩
  · unfold add; simp [hn, hi, c1, c2]
  · unfold add; simp [hn, hi, c1, c2]
  · unfold add; simp [hn, hi, c3, c4]
  · unfold add; simp [hn, hi, c3, c4]
  · intro h
    obtain ⟨h1, h2⟩ := pos h
    refine ⟨?_, ?_, ?_, ?_⟩
    · unfold mul; simp [hn, hi, c1, c2, c5, c10, h1, h2, p1]
    · unfold mul; simp [hn, hi, c1, c2, c5, c10, h1, h2, p1]
    · unfold div; simp [hn, hi, c1, c2, c5, h1, p1]
    · unfold div; simp [hn, hi, c1, c2, c5, h1, vz]
  · intro h
    obtain ⟨h1, h2⟩ := neg h
    refine ⟨?_, ?_, ?_, ?_⟩
    · unfold mul; simp [hn, hi, c1, c2, c5, c10, h1, h2, p2]
    · unfold mul; simp [hn, hi, c1, c2, c5, c10, h1, h2, p2]
    · unfold div; simp [hn, hi, c1, c2, c5, h1, p2]
    · unfold div; simp [hn, hi, c1, c2, c5, h1, vz]
  · intro h
    have h2 := val_eq_zero.mp h
    refine ⟨?_, ?_, ?_⟩
    · unfold mul; simp [hn, c1, c2, h2]; decide
    · unfold mul; simp [hn, c1, c2, h2]; decide
    · unfold div; simp [hn, hi, h2]; decide
  · intro h
    obtain ⟨h1, h2⟩ := pos h
    unfold div; simp [hn, hi, c6, c7, c8, c9, h1, h2, p1]
  · intro h
    obtain ⟨h1, h2⟩ := neg h
    refine ⟨?_, ?_⟩
    · unfold div; simp [hn, hi, c6, c7, c8, c9, h1, h2, p2]
    · unfold sqrt; simp [hn, h1, h2]; decide

/-- **C76.** The signs of results: of products and quotients also if they are zero; a sum that is zero is negative only if both terms
are; a root that is zero has the sign of the argument. -/
theorem ieee_sign {x y : F32} (hx : Finite x) (hy : Finite y) :
    isNeg (mul x y) = (isNeg x != isNeg y) ∧ (val y ≠ 0 → isNeg (div x y) = (isNeg x != isNeg y)) ∧
    (val x + val y = 0 → isNeg (add x y) = (isNeg x && isNeg y)) ∧ (val x = 0 → sqrt x = x) := by
  refine ⟨?_, fun h => ?_, fun h => ?_, fun h => ?_⟩
  · rw [mul_finite_eq hx hy, pack_neg (roundMag_le _ _)]
  · rw [div_finite_eq hx hy (fun hm => h (val_eq_zero.mpr hm)), pack_neg (roundMag_le _ _)]
  · have hz : units x + units y = 0 := by
      unfold val at h
      rw [← add_div, div_eq_zero_iff] at h
      rcases h with h | h
      · exact_mod_cast h
      · exact absurd h (by positivity)
    rw [add_finite_eq hx hy, if_pos hz, pack_neg (by decide)]
  · unfold sqrt; rw [hx.notNan]; simp [val_eq_zero.mp h]

example : Finite 0x3f800000 ∧ Finite 0x40490fdb ∧ ¬ Finite 0x7f800000 ∧ ¬ Finite 0x7fc00000 := by unfold Finite; decide
example : add 0x3f800000 0x33800000 = 0x3f800000 ∧ add 0x3f800000 0x33800001 = 0x3f800001 ∧ add 0x3f800001 0x33800000 = 0x3f800002 := by
  decide +kernel
example : div 0x3f800000 0x40400000 = 0x3eaaaaab ∧ sqrt 0x40000000 = 0x3fb504f3 ∧ mul 0x3dcccccd 0x3dcccccd = 0x3c23d70b := by
  decide +kernel

/-- The floats nearest to 1 and to π: hypotheses of `ieee_add`, `ieee_sub`, `ieee_mul`, `ieee_div`, `ieee_sqrt`, `ieee_infinite`
and `ieee_sign`. -/
example := And.intro (ieee_add (x := 0x3f800000) (y := 0x40490fdb) (by unfold Finite; decide) (by unfold Finite; decide))
  (ieee_sub (x := 0x3f800000) (y := 0x40490fdb) (by unfold Finite; decide) (by unfold Finite; decide))
example := And.intro (ieee_mul (x := 0x3f800000) (y := 0x40490fdb) (by unfold Finite; decide) (by unfold Finite; decide))
  (ieee_div (x := 0x3f800000) (y := 0x40490fdb) (by unfold Finite; decide) (by unfold Finite; decide)
    (by rw [Ne, val_eq_zero]; decide))
example := And.intro (ieee_sqrt (x := 0x3f800000) (by unfold Finite; decide) (by rw [val_one]; norm_num))
  (ieee_infinite (x := 0x40490fdb) (by unfold Finite; decide))
example := ieee_sign (x := 0x3f800000) (y := 0xc0490fdb) (by unfold Finite; decide) (by unfold Finite; decide)

/-- **C76.** Two infinite operands: products have the product of the signs, quotients are not numbers; negative infinity has no root. -/
theorem ieee_infinities : mul posInf posInf = posInf ∧ mul posInf negInf = negInf ∧ mul negInf posInf = negInf ∧
    mul negInf negInf = posInf ∧ isNan (div posInf posInf) = true ∧ isNan (div posInf negInf) = true ∧
    isNan (div negInf posInf) = true ∧ isNan (div negInf negInf) = true ∧ isNan (sqrt negInf) = true ∧
    isNan (sub posInf posInf) = true ∧ sub posInf negInf = posInf ∧ isNan (div 0 0) = true ∧
    div posInf 0 = posInf ∧ div negInf 0 = negInf := by
  decide

/-- **C76.** The constants of the arithmetic are zero and one, and only the zeros count as zero. -/
theorem ieee_constants : val scalar.zero = 0 ∧ val scalar.one = 1 ∧ ∀ x, Finite x → (scalar.isZero x = true ↔ val x = 0) := by
  refine ⟨val_eq_zero.mpr (by decide), val_one, fun x _ => ?_⟩
  rw [val_eq_zero]
  exact beq_iff_eq

end Ieee
end FF
