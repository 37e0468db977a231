import Verif.Lemmas.FloatSum

/-!
# Rounding is monotone, and exact on floats
-/

namespace FF
namespace Ieee

/-- A sign as a factor. -/
def sg (s : Bool) : ℝ := if s then -1 else 1

theorem val_pack' {s : Bool} {m : Nat} (h : m ≤ infMag) : val (pack s m) = sg s * ((magUnits m : ℝ) / 2 ^ 149) := val_pack h

theorem roundMag_zero (d : Nat) : roundMag 0 d = 0 := by
  unfold roundMag roundDiv
  simp [Nat.log2_def]

/-- Rounding keeps the order. -/
theorem pack_mono {s s' : Bool} {n d n' d' : Nat} (hd : 0 < d) (hd' : 0 < d')
    (h : sg s * ((n : ℝ) / d) ≤ sg s' * ((n' : ℝ) / d')) : val (pack s (roundMag n d)) ≤ val (pack s' (roundMag n' d')) := by
  rw [val_pack' (roundMag_le _ _), val_pack' (roundMag_le _ _)]
  have rd : (0 : ℝ) < d := by exact_mod_cast hd
  have rd' : (0 : ℝ) < d' := by exact_mod_cast hd'
  have key : ∀ {n d n' d' : Nat}, 0 < d → 0 < d' → (n : ℝ) / d ≤ (n' : ℝ) / d' →
      (magUnits (roundMag n d) : ℝ) / 2 ^ 149 ≤ (magUnits (roundMag n' d') : ℝ) / 2 ^ 149 := by
    intro n d n' d' hd hd' h
    have rd : (0 : ℝ) < d := by exact_mod_cast hd
    have rd' : (0 : ℝ) < d' := by exact_mod_cast hd'
    rw [div_le_div_iff₀ rd rd'] at h
    have h2 : n * d' ≤ n' * d := by exact_mod_cast h
    have := magUnits_mono (roundMag_mono hd hd' h2)
    have h3 : (magUnits (roundMag n d) : ℝ) ≤ (magUnits (roundMag n' d') : ℝ) := Nat.cast_le.mpr this
    have h4 : (0 : ℝ) < 2 ^ 149 := by positivity
    exact (div_le_div_iff_of_pos_right h4).mpr h3
  have p0 : (0 : ℝ) ≤ 2 ^ 149 := by positivity
  have p1 : 0 ≤ (magUnits (roundMag n d) : ℝ) / 2 ^ 149 := div_nonneg (Nat.cast_nonneg _) p0
  have p2 : 0 ≤ (magUnits (roundMag n' d') : ℝ) / 2 ^ 149 := div_nonneg (Nat.cast_nonneg _) p0
  have q1 : 0 ≤ (n : ℝ) / d := by positivity
  have q2 : 0 ≤ (n' : ℝ) / d' := by positivity
  cases s <;> cases s' <;> simp only [sg, Bool.false_eq_true, if_false, if_true, one_mul, neg_mul, neg_le_neg_iff] at h ⊢
  · exact key hd hd' h
  · have e1 : (n : ℝ) / d = 0 := by linarith
    have e2 : (n' : ℝ) / d' = 0 := by linarith
    have f1 : n = 0 := by
      rcases div_eq_zero_iff.mp e1 with h | h
      · exact_mod_cast h
      · exact absurd h rd.ne'
    have f2 : n' = 0 := by
      rcases div_eq_zero_iff.mp e2 with h | h
      · exact_mod_cast h
      · exact absurd h rd'.ne'
    rw [f1, f2, roundMag_zero, roundMag_zero, magUnits_zero]; simp
  · linarith
  · exact key hd' hd h

/-- A float as a rounded number. -/
theorem val_self {b : F32} (h : Finite b) : val b = val (pack (isNeg b) (roundMag (magUnits (f32Mag b)) 1)) := by
  have e : roundMag (magUnits (f32Mag b)) 1 = f32Mag b := by
    have := rawMag_magUnits (f32Mag b) 1 (by norm_num)
    rw [roundMag_eq, ← Nat.mul_one (magUnits (f32Mag b)), this]
    unfold Finite at h; omega
  rw [e, val_pack (by unfold Finite at h; omega), val_eq]

theorem val_units (b : F32) : val b = sg (isNeg b) * ((magUnits (f32Mag b) : ℝ) / (1 : Nat)) / 2 ^ 149 := by
  rw [val_eq]; unfold sg; push_cast; ring

theorem pack_le {s : Bool} {n d : Nat} {b : F32} (hd : 0 < d) (hb : Finite b) (h : sg s * ((n : ℝ) / d) / 2 ^ 149 ≤ val b) :
    val (pack s (roundMag n d)) ≤ val b := by
  rw [val_self hb]
  refine pack_mono hd (by norm_num) ?_
  rw [val_units] at h
  exact (div_le_div_iff_of_pos_right (by positivity)).mp h

theorem le_pack {s : Bool} {n d : Nat} {b : F32} (hd : 0 < d) (hb : Finite b) (h : val b ≤ sg s * ((n : ℝ) / d) / 2 ^ 149) :
    val b ≤ val (pack s (roundMag n d)) := by
  rw [val_self hb]
  refine pack_mono (by norm_num) hd ?_
  rw [val_units] at h
  exact (div_le_div_iff_of_pos_right (by positivity)).mp h

/-! ## The operations as rounded numbers -/

/-- What a computation rounds: `s`, `n` and `d` with the exact result `± n / d` units. -/
structure Rounds (r : F32) (z : ℝ) (s : Bool) (n d : Nat) : Prop where
  pos : 0 < d
  val : Ieee.val r = Ieee.val (pack s (roundMag n d))
  exact : z = sg s * ((n : ℝ) / d) / 2 ^ 149

theorem Rounds.mono {r r' : F32} {z z' : ℝ} {s s' : Bool} {n d n' d' : Nat} (h : Rounds r z s n d) (h' : Rounds r' z' s' n' d')
    (hz : z ≤ z') : Ieee.val r ≤ Ieee.val r' := by
  rw [h.val, h'.val]
  refine pack_mono h.pos h'.pos ?_
  rw [h.exact, h'.exact] at hz
  exact (div_le_div_iff_of_pos_right (by positivity)).mp hz

theorem Rounds.le {r : F32} {z : ℝ} {s : Bool} {n d : Nat} (h : Rounds r z s n d) {b : F32} (hb : Finite b) (hz : z ≤ Ieee.val b) :
    Ieee.val r ≤ Ieee.val b := by
  rw [h.val]; exact pack_le h.pos hb (h.exact ▸ hz)

theorem Rounds.ge {r : F32} {z : ℝ} {s : Bool} {n d : Nat} (h : Rounds r z s n d) {b : F32} (hb : Finite b) (hz : Ieee.val b ≤ z) :
    Ieee.val b ≤ Ieee.val r := by
  rw [h.val]; exact le_pack h.pos hb (h.exact ▸ hz)

theorem Rounds.eq {r : F32} {z : ℝ} {s : Bool} {n d : Nat} (h : Rounds r z s n d) {b : F32} (hb : Finite b) (hz : z = Ieee.val b) :
    Ieee.val r = Ieee.val b := le_antisymm (h.le hb hz.le) (h.ge hb hz.ge)

theorem add_rounds {x y : F32} (hx : Finite x) (hy : Finite y) :
    ∃ s n d, Rounds (add x y) (Ieee.val x + Ieee.val y) s n d := by
  refine ⟨decide (units x + units y < 0), (units x + units y).natAbs, 1, by norm_num, ?_, ?_⟩
  · rw [add_finite_eq hx hy]
    split
    · next h0 => rw [h0, val_pack' (by decide), val_pack' (roundMag_le _ _), Int.natAbs_zero, roundMag_zero, magUnits_zero]; simp
    · rfl
  · have hv : Ieee.val x + Ieee.val y = ((units x + units y : Int) : ℝ) / 2 ^ 149 := by
      unfold Ieee.val; push_cast; ring
    rw [hv]
    generalize units x + units y = z
    congr 1
    unfold sg
    push_cast
    rw [Nat.cast_natAbs, div_one]
    by_cases hz : z < 0
    · simp only [hz, decide_true, if_true]
      rw [abs_of_neg hz]; push_cast; ring
    · simp only [hz, decide_false, Bool.false_eq_true, if_false]
      rw [abs_of_nonneg (by omega), one_mul]

theorem mul_rounds {x y : F32} (hx : Finite x) (hy : Finite y) :
    ∃ s n d, Rounds (mul x y) (Ieee.val x * Ieee.val y) s n d := by
  refine ⟨_, _, _, pow_pos' 149, by rw [mul_finite_eq hx hy], ?_⟩
  rw [val_eq, val_eq, sg, sign_mul, Nat.cast_mul, Nat.cast_pow, Nat.cast_ofNat]
  ring

theorem div_rounds {x y : F32} (hx : Finite x) (hy : Finite y) (h0 : f32Mag y ≠ 0) :
    ∃ s n d, Rounds (div x y) (Ieee.val x / Ieee.val y) s n d := by
  have hm := magUnits_pos h0
  have hm' : (magUnits (f32Mag y) : ℝ) ≠ 0 := by exact_mod_cast hm.ne'
  refine ⟨_, _, _, hm, by rw [div_finite_eq hx hy h0], ?_⟩
  rw [val_eq, val_eq, sg, sign_mul, Nat.cast_mul, Nat.cast_pow, Nat.cast_ofNat]
  have : ∀ b : Bool, (if b then -1 else 1 : ℝ) ≠ 0 := by intro b; cases b <;> simp
  have h2 : (if isNeg y then -1 else 1 : ℝ) * (if isNeg y then -1 else 1) = 1 := by cases isNeg y <;> simp
  have h3 := this (isNeg y)
  field_simp
  rw [pow_two, h2, mul_one]

theorem neg_finite {x : F32} (h : Finite x) : Finite (neg x) := by
  unfold Finite neg at *
  rw [pack_mag (by omega)]; exact h

theorem val_neg {x : F32} (h : Finite x) : Ieee.val (neg x) = -Ieee.val x := by
  unfold neg
  rw [val_pack (by unfold Finite at h; omega), val_eq]
  cases isNeg x <;> simp

theorem sub_rounds {x y : F32} (hx : Finite x) (hy : Finite y) :
    ∃ s n d, Rounds (sub x y) (Ieee.val x - Ieee.val y) s n d := by
  have := add_rounds hx (neg_finite hy)
  rw [val_neg hy] at this
  exact this

theorem sub_spec {x y : F32} (hx : Finite x) (hy : Finite y) (hf : Finite (sub x y)) :
    |Ieee.val (sub x y) - (Ieee.val x - Ieee.val y)| ≤ roundoff * |Ieee.val x - Ieee.val y| := by
  have := add_spec hx (neg_finite hy) hf
  rw [val_neg hy] at this
  exact this

theorem isqrt_mono {n m : Nat} (h : n ≤ m) : isqrt n ≤ isqrt m := by
  have h1 := (isqrt_spec n).1
  have h2 := (isqrt_spec m).2
  by_contra hc
  have : isqrt m + 1 ≤ isqrt n := by omega
  have := Nat.mul_le_mul this this
  omega

theorem sticky_mono {p q : Nat} (h4 : p ≤ q) :
    2 * isqrt p + (if isqrt p * isqrt p = p then 0 else 1) ≤ 2 * isqrt q + (if isqrt q * isqrt q = q then 0 else 1) := by
  have hs := isqrt_mono h4
  have hp := (isqrt_spec p).1
  have hq := (isqrt_spec q).1
  rcases Nat.lt_or_eq_of_le hs with hlt | heq
  · split <;> split <;> omega
  · rw [heq] at hp ⊢
    split <;> split <;> omega

/-- Roots keep the order. -/
theorem sqrt_mono {x y : F32} (hx : Finite x) (hy : Finite y) (h0 : 0 ≤ Ieee.val x) (h : Ieee.val x ≤ Ieee.val y) :
    Ieee.val (sqrt x) ≤ Ieee.val (sqrt y) := by
  have nonneg : ∀ {x : F32}, 0 ≤ Ieee.val x → f32Mag x = 0 ∨ isNeg x = false := by
    intro x hx
    by_cases hm : f32Mag x = 0
    · exact .inl hm
    · refine .inr ?_
      by_contra hc
      have hc : isNeg x = true := by simpa using hc
      rw [val_eq, hc] at hx
      have := magUnits_pos hm
      have : (0 : ℝ) < magUnits (f32Mag x) := by exact_mod_cast this
      have : (0 : ℝ) < (magUnits (f32Mag x) : ℝ) / 2 ^ 149 := by positivity
      simp only [if_true] at hx
      linarith
  have zero : ∀ {x : F32}, Finite x → f32Mag x = 0 → Ieee.val (sqrt x) = 0 := by
    intro x hx hm
    have e : sqrt x = x := by unfold sqrt; rw [hx.notNan]; simp [hm]
    rw [e, val_eq_zero.mpr hm]
  rcases nonneg h0 with hm | hn
  · rw [zero hx hm]
    rcases nonneg (le_trans h0 h) with hm' | hn'
    · rw [zero hy hm']
    · by_cases hm' : f32Mag y = 0
      · rw [zero hy hm']
      · rw [sqrt_finite_eq hy hm' hn', val_pack (roundMag_le _ _)]
        simp only [Bool.false_eq_true, if_false]; positivity
  · by_cases hm : f32Mag x = 0
    · rw [zero hx hm]
      rcases nonneg (le_trans h0 h) with hm' | hn'
      · rw [zero hy hm']
      · by_cases hm' : f32Mag y = 0
        · rw [zero hy hm']
        · rw [sqrt_finite_eq hy hm' hn', val_pack (roundMag_le _ _)]
          simp only [Bool.false_eq_true, if_false]; positivity
    · have hm' : f32Mag y ≠ 0 := fun hz => by
        rw [val_eq_zero.mpr hz] at h
        exact hm (val_eq_zero.mp (le_antisymm h h0))
      have hn' := (nonneg (le_trans h0 h)).resolve_left hm'
      rw [sqrt_finite_eq hx hm hn, sqrt_finite_eq hy hm' hn']
      refine pack_mono (by norm_num) (by norm_num) ?_
      have hu : magUnits (f32Mag x) ≤ magUnits (f32Mag y) := by
        rw [val_eq, val_eq y, hn, hn'] at h
        simp only [Bool.false_eq_true, if_false, one_mul] at h
        have := (div_le_div_iff_of_pos_right (c := (2 : ℝ) ^ 149) (by positivity)).mp h
        exact_mod_cast this
      have h4 : 4 * (magUnits (f32Mag x) * 2 ^ 149) ≤ 4 * (magUnits (f32Mag y) * 2 ^ 149) := by
        have := Nat.mul_le_mul_right (2 ^ 149) hu
        omega
      simp only [sg, Bool.false_eq_true, if_false, one_mul]
      have h5 : (0 : ℝ) < ((4 : Nat) : ℝ) := by norm_num
      exact (div_le_div_iff_of_pos_right h5).mpr (Nat.cast_le.mpr (sticky_mono h4))

/-! ## Some floats -/

theorem finite_of_val {x : F32} (h : |val x| ≤ 2 ^ 127) : Finite x := by
  by_contra hc
  unfold Finite at hc
  have h1 : magUnits infMag ≤ magUnits (f32Mag x) := magUnits_mono (by omega)
  have h2 : magUnits infMag = 2 ^ 277 := by decide +kernel
  rw [abs_val, div_le_iff₀ (by positivity), ← pow_add] at h
  rw [h2] at h1
  have h3 : ((2 ^ 277 : Nat) : ℝ) ≤ (magUnits (f32Mag x) : ℝ) := Nat.cast_le.mpr h1
  rw [Nat.cast_pow, Nat.cast_ofNat] at h3
  have h4 : (2 : ℝ) ^ (127 + 149) < 2 ^ 277 := pow_lt_pow_right₀ (by norm_num) (by norm_num)
  exact lt_irrefl _ (lt_of_lt_of_le h4 (h3.trans h))

theorem val_of_units {x : F32} {n : Nat} (h : units x = n * 2 ^ 149) : val x = n := by
  unfold val
  rw [h, Int.cast_mul, Int.cast_natCast, Int.cast_pow, Int.cast_ofNat]
  exact mul_div_cancel_right₀ (n : ℝ) (show (2 : ℝ) ^ 149 ≠ 0 by positivity)

theorem val_one : val 0x3f800000 = 1 := by
  have := val_of_units (x := 0x3f800000) (n := 1) (by decide +kernel); simpa using this

theorem val_two : val 0x40000000 = 2 := by
  have := val_of_units (x := 0x40000000) (n := 2) (by decide +kernel); simpa using this

theorem val_four : val 0x40800000 = 4 := by
  have := val_of_units (x := 0x40800000) (n := 4) (by decide +kernel); simpa using this

theorem finite_one : Finite 0x3f800000 := by unfold Finite; decide
theorem finite_two : Finite 0x40000000 := by unfold Finite; decide
theorem finite_four : Finite 0x40800000 := by unfold Finite; decide
theorem finite_zero : Finite 0 := by unfold Finite; decide

end Ieee
end FF
