import Verif.Lemmas.FloatMono
import Verif.Props.Float

/-!
# Similarity measures in single precision (C77)
-/

namespace FF
namespace Ieee

/-- Doubling is exact. -/
theorem double_exact {c : F32} (hc : Finite c) (h : |val c| ≤ 2 ^ 126) : Finite (mul 0x40000000 c) ∧ val (mul 0x40000000 c) = 2 * val c := by
  have hf : Finite (mul 0x40000000 c) := mul_finite_of finite_two hc (by rw [val_two, abs_mul, abs_two]; linarith [pow_succ (2 : ℝ) 126])
  refine ⟨hf, ?_⟩
  have hb : f32Mag c < infMag := hc
  rw [infMag_eq] at hb
  have hlt : f32Mag c < 2 ^ 23 ∨ f32Mag c + 2 ^ 23 < infMag := by
    by_contra hcon
    rw [infMag_eq] at hcon
    have h1 : magUnits 0x7f000000 ≤ magUnits (f32Mag c) := magUnits_mono (by omega)
    have h2 : magUnits 0x7f000000 = 2 ^ 276 := magUnits_big
    rw [h2] at h1
    rw [abs_val, div_le_iff₀ (by positivity), ← pow_add] at h
    have h3 : ((2 ^ 276 : Nat) : ℝ) ≤ (magUnits (f32Mag c) : ℝ) := Nat.cast_le.mpr h1
    rw [Nat.cast_pow, Nat.cast_ofNat] at h3
    have h4 : (2 : ℝ) ^ (126 + 149) < 2 ^ 276 := pow_lt_pow_right₀ (by norm_num) (by norm_num)
    exact lt_irrefl _ (lt_of_lt_of_le h4 (h3.trans h))
  obtain ⟨m, hm, hm2⟩ : ∃ m, m < infMag ∧ magUnits m = 2 * magUnits (f32Mag c) := by
    rcases hlt with h | h
    · refine ⟨2 * f32Mag c, by rw [infMag_eq]; omega, ?_⟩
      unfold magUnits
      rw [if_pos h]
      by_cases h2 : 2 * f32Mag c < 2 ^ 23
      · rw [if_pos h2]
      · rw [if_neg h2, show 2 * f32Mag c / 2 ^ 23 - 1 = 0 by omega]; omega
    · by_cases h3 : f32Mag c < 2 ^ 23
      · refine ⟨2 * f32Mag c, by rw [infMag_eq]; omega, ?_⟩
        unfold magUnits
        rw [if_pos h3]
        by_cases h2 : 2 * f32Mag c < 2 ^ 23
        · rw [if_pos h2]
        · rw [if_neg h2, show 2 * f32Mag c / 2 ^ 23 - 1 = 0 by omega]; omega
      · refine ⟨f32Mag c + 2 ^ 23, h, ?_⟩
        unfold magUnits
        rw [if_neg h3, if_neg (by omega), show (f32Mag c + 2 ^ 23) % 2 ^ 23 = f32Mag c % 2 ^ 23 by omega,
          show (f32Mag c + 2 ^ 23) / 2 ^ 23 - 1 = (f32Mag c / 2 ^ 23 - 1) + 1 by omega, pow_succ]
        ring
  obtain ⟨s, n, d, hr⟩ := mul_rounds finite_two hc
  have hfin : Finite (pack (isNeg c) m) := by unfold Finite; rw [pack_mag (by omega)]; exact hm
  have hv : val (pack (isNeg c) m) = 2 * val c := by
    rw [val_pack (by omega), hm2, val_eq c]; push_cast; ring
  rw [hr.eq hfin (by rw [hv, val_two]), hv]

/-- The difference below the root. -/
theorem below_root {c : F32} (hc : Finite c) (h : |val c| ≤ 1) :
    let s := sub 0x40000000 (mul 0x40000000 c)
    Finite s ∧ 0 ≤ val s ∧ val s ≤ 4 ∧ |val s - (2 - 2 * val c)| ≤ roundoff * (2 - 2 * val c) := by
  obtain ⟨hm, hv⟩ := double_exact hc (le_trans h (by norm_num))
  rw [abs_le] at h
  obtain ⟨s, n, d, hr⟩ := sub_rounds finite_two hm
  rw [val_two, hv] at hr
  have h0 : 0 ≤ val (sub 0x40000000 (mul 0x40000000 c)) := by
    have := hr.ge finite_zero (by rw [val_zero]; linarith)
    rwa [val_zero] at this
  have h4 : val (sub 0x40000000 (mul 0x40000000 c)) ≤ 4 := by
    have := hr.le finite_four (by rw [val_four]; linarith)
    rwa [val_four] at this
  have hf : Finite (sub 0x40000000 (mul 0x40000000 c)) := finite_of_val (by
    rw [abs_of_nonneg h0]; exact le_trans h4 (by norm_num))
  refine ⟨hf, h0, h4, ?_⟩
  have := sub_spec finite_two hm hf
  rw [val_two, hv, abs_of_nonneg (show 0 ≤ 2 - 2 * val c by linarith)] at this
  exact this

theorem val_sqrt_nonneg {x : F32} (hx : Finite x) (h : 0 ≤ val x) : 0 ≤ val (sqrt x) := by
  have := sqrt_mono finite_zero hx (by rw [val_zero]) (by rw [val_zero]; exact h)
  rwa [show sqrt 0 = 0 by decide, val_zero] at this

/-- **C77.** For similarities in `[-1, 1]`, Euclidean distances lie in `[0, 2]` and similarities in `[0, 1]`. -/
theorem c77_range_partial {c : F32} (hc : Finite c) (h : |val c| ≤ 1) :
    Finite (euclideanDistance c) ∧ 0 ≤ val (euclideanDistance c) ∧ val (euclideanDistance c) ≤ 2 ∧
    Finite (euclideanSimilarity c) ∧ 0 ≤ val (euclideanSimilarity c) ∧ val (euclideanSimilarity c) ≤ 1 := by
  obtain ⟨hf, h0, h4, _⟩ := below_root hc h
  have d0 : 0 ≤ val (euclideanDistance c) := val_sqrt_nonneg hf h0
  have d2 : val (euclideanDistance c) ≤ 2 := by
    have := sqrt_mono hf finite_four h0 (by rw [val_four]; exact h4)
    rwa [show sqrt 0x40800000 = 0x40000000 by decide +kernel, val_two] at this
  have df : Finite (euclideanDistance c) := finite_of_val (by rw [abs_of_nonneg d0]; exact le_trans d2 (by norm_num))
  have hm2 : f32Mag 0x40000000 ≠ 0 := by decide
  obtain ⟨s, n, d, hr⟩ := div_rounds df finite_two hm2
  rw [val_two] at hr
  have e0 : 0 ≤ val (div (euclideanDistance c) 0x40000000) := by
    have := hr.ge finite_zero (by rw [val_zero]; linarith)
    rwa [val_zero] at this
  have e1 : val (div (euclideanDistance c) 0x40000000) ≤ 1 := by
    have := hr.le finite_one (by rw [val_one]; linarith)
    rwa [val_one] at this
  have ef : Finite (div (euclideanDistance c) 0x40000000) :=
    finite_of_val (by rw [abs_of_nonneg e0]; exact le_trans e1 (by norm_num))
  obtain ⟨s, n, d, hr⟩ := sub_rounds finite_one ef
  rw [val_one] at hr
  have s0 : 0 ≤ val (euclideanSimilarity c) := by
    have := hr.ge finite_zero (by rw [val_zero]; linarith)
    rwa [val_zero] at this
  have s1 : val (euclideanSimilarity c) ≤ 1 := by
    have := hr.le finite_one (by rw [val_one]; linarith)
    rwa [val_one] at this
  exact ⟨df, d0, d2, finite_of_val (by rw [abs_of_nonneg s0]; exact le_trans s1 (by norm_num)), s0, s1⟩

/-- **C77.** A larger cosine similarity never has a larger distance or a smaller Euclidean similarity. -/
theorem c77_order {c d : F32} (hc : Finite c) (hd : Finite d) (h1 : |val c| ≤ 1) (h2 : |val d| ≤ 1) (h : val c ≤ val d) :
    val (euclideanDistance d) ≤ val (euclideanDistance c) ∧ val (euclideanSimilarity c) ≤ val (euclideanSimilarity d) := by
  obtain ⟨cf, c0, c4, _⟩ := below_root hc h1
  obtain ⟨df, d0, d4, _⟩ := below_root hd h2
  have hdist : val (euclideanDistance d) ≤ val (euclideanDistance c) := by
    refine sqrt_mono df cf d0 ?_
    obtain ⟨mc, vc⟩ := double_exact hc (le_trans h1 (by norm_num))
    obtain ⟨md, vd⟩ := double_exact hd (le_trans h2 (by norm_num))
    obtain ⟨_, _, _, r1⟩ := sub_rounds finite_two mc
    obtain ⟨_, _, _, r2⟩ := sub_rounds finite_two md
    exact r2.mono r1 (by rw [vc, vd]; linarith)
  refine ⟨hdist, ?_⟩
  have hm2 : f32Mag 0x40000000 ≠ 0 := by decide
  have rc := c77_range_partial hc h1
  have rd := c77_range_partial hd h2
  obtain ⟨_, _, _, q1⟩ := div_rounds rc.1 finite_two hm2
  obtain ⟨_, _, _, q2⟩ := div_rounds rd.1 finite_two hm2
  have hq := q2.mono q1 (by rw [val_two]; linarith)
  have fin : ∀ x : F32, Finite x → 0 ≤ val x → val x ≤ 2 → Finite (div x 0x40000000) := fun x hx a b =>
    div_finite_of hx finite_two hm2 (by
      rw [val_two, abs_of_nonneg (by linarith)]
      exact le_trans (show val x / 2 ≤ 1 by linarith) (by norm_num))
  obtain ⟨_, _, _, r1⟩ := sub_rounds finite_one (fin _ rc.1 rc.2.1 rc.2.2.1)
  obtain ⟨_, _, _, r2⟩ := sub_rounds finite_one (fin _ rd.1 rd.2.1 rd.2.2.1)
  exact r1.mono r2 (by linarith)

/-- **C77.** The distance is the one that the law of cosines gives for the similarity, up to the rounding of the difference and the
root. -/
theorem c77_distance {c : F32} (hc : Finite c) (h : |val c| ≤ 1) :
    |val (euclideanDistance c) - Real.sqrt (2 - 2 * val c)| ≤ 2 / 2 ^ 24 * Real.sqrt (2 - 2 * val c) := by
  obtain ⟨hf, h0, _, he⟩ := below_root hc h
  have hd := (c77_range_partial hc h).1
  have hr := sqrt_spec' hd
  have h1 : 0 ≤ 2 - 2 * val c := by rw [abs_le] at h; linarith
  show |val (sqrt (sub 0x40000000 (mul 0x40000000 c))) - _| ≤ _
  generalize sub 0x40000000 (mul 0x40000000 c) = s at *
  generalize 2 - 2 * val c = z at *
  have hu := roundoff_pos
  have hu1 : roundoff ≤ 1 / 1000 := by unfold roundoff; norm_num
  have e : (2 : ℝ) / 2 ^ 24 = 2 * roundoff := by unfold roundoff; ring
  rw [e]
  have a0 := Real.sqrt_nonneg z
  have b0 := Real.sqrt_nonneg (val s)
  have az := Real.sq_sqrt h1
  have bs := Real.sq_sqrt h0
  have hab : |Real.sqrt (val s) - Real.sqrt z| ≤ 3 / 4 * roundoff * Real.sqrt z := by
    rw [← az, ← bs] at he
    generalize Real.sqrt (val s) = b at *
    generalize Real.sqrt z = a at *
    generalize roundoff = u at *
    rw [abs_le] at he ⊢
    constructor
    · by_contra hcon
      push Not at hcon
      have h2 : b < (1 - 3 / 4 * u) * a := by linarith
      have h3 : 0 < (1 - 3 / 4 * u) := by nlinarith
      have h4 : b ^ 2 ≤ ((1 - 3 / 4 * u) * a) ^ 2 := pow_le_pow_left₀ b0 h2.le 2
      have ha : 0 < a := by
        by_contra hz
        have : a = 0 := by linarith
        rw [this] at h2; linarith
      have h5 : (1 - 3 / 4 * u) ^ 2 < 1 - u := by nlinarith
      have h6 : (1 - 3 / 4 * u) ^ 2 * a ^ 2 < (1 - u) * a ^ 2 := mul_lt_mul_of_pos_right h5 (by positivity)
      nlinarith
    · by_contra hcon
      push Not at hcon
      have h2 : (1 + 3 / 4 * u) * a < b := by linarith
      have h4 : ((1 + 3 / 4 * u) * a) ^ 2 ≤ b ^ 2 := pow_le_pow_left₀ (mul_nonneg (by nlinarith) a0) h2.le 2
      have h5 : 1 + u ≤ (1 + 3 / 4 * u) ^ 2 := by nlinarith
      have hb : ((1 + 3 / 4 * u) * a) ^ 2 < b ^ 2 := pow_lt_pow_left₀ h2 (mul_nonneg (by nlinarith) a0) (by norm_num)
      have h6 : (1 + u) * a ^ 2 ≤ (1 + 3 / 4 * u) ^ 2 * a ^ 2 := mul_le_mul_of_nonneg_right h5 (by positivity)
      nlinarith
  generalize Real.sqrt (val s) = b at *
  generalize Real.sqrt z = a at *
  generalize roundoff = u at *
  have h7 : b ≤ (1 + u) * a := by
    have := (abs_le.mp hab).2
    nlinarith
  have h8 : |val (sqrt s) - a| ≤ |val (sqrt s) - b| + |b - a| := by
    have := abs_add_le (val (sqrt s) - b) (b - a)
    rwa [show val (sqrt s) - b + (b - a) = val (sqrt s) - a by ring] at this
  nlinarith

/-- **C77.** The Euclidean similarity is one minus half of that distance, up to 5/2^24. -/
theorem c77_similarity {c : F32} (hc : Finite c) (h : |val c| ≤ 1) :
    |val (euclideanSimilarity c) - (1 - Real.sqrt (2 - 2 * val c) / 2)| ≤ 5 / 2 ^ 24 := by
  obtain ⟨df, d0, d2, sf, -, -⟩ := c77_range_partial hc h
  have hd := c77_distance hc h
  have hm2 : f32Mag 0x40000000 ≠ 0 := by decide
  have ef : Finite (div (euclideanDistance c) 0x40000000) := div_finite_of df finite_two hm2 (by
    rw [val_two, abs_of_nonneg (by linarith)]
    exact le_trans (show val (euclideanDistance c) / 2 ≤ 1 by linarith) (by norm_num))
  have he := div_spec df finite_two hm2 ef
  have hs := sub_spec finite_one ef sf
  have hz : Real.sqrt (2 - 2 * val c) ≤ 2 := by
    rw [Real.sqrt_le_left (by norm_num)]
    rw [abs_le] at h
    linarith
  rw [val_two, abs_of_nonneg (show 0 ≤ val (euclideanDistance c) / 2 by linarith)] at he
  rw [val_one] at hs
  have hu : roundoff = 1 / 2 ^ 24 := rfl
  have h1 : max (roundoff * (val (euclideanDistance c) / 2)) (1 / 2 ^ 150) ≤ 1 / 2 ^ 24 := by
    refine max_le ?_ (by norm_num)
    rw [hu]
    nlinarith
  replace he := le_trans he h1
  obtain ⟨e1, e2⟩ := abs_le.mp he
  have h2 : |1 - val (div (euclideanDistance c) 0x40000000)| ≤ 1 + 1 / 2 ^ 24 := by
    rw [abs_le]
    constructor <;> linarith
  have h3 : roundoff * |1 - val (div (euclideanDistance c) 0x40000000)| ≤ 1 / 2 ^ 24 * (1 + 1 / 2 ^ 24) := by
    rw [hu]
    exact mul_le_mul_of_nonneg_left h2 (by norm_num)
  obtain ⟨s1, s2⟩ := abs_le.mp (le_trans hs h3)
  have h4 : 2 / 2 ^ 24 * Real.sqrt (2 - 2 * val c) ≤ 4 / 2 ^ 24 := by linarith
  obtain ⟨d1, d3⟩ := abs_le.mp (le_trans hd h4)
  show |val (sub 0x3f800000 (div (euclideanDistance c) 0x40000000)) - _| ≤ _
  norm_num at *
  rw [abs_le]
  constructor <;> linarith

theorem isNeg_of_val {x : F32} (h : val x < 0) : isNeg x = true ∧ f32Mag x ≠ 0 := by
  constructor
  · by_contra hc
    have hc : isNeg x = false := by simpa using hc
    have := val_nonneg_of (x := x) (.inr hc)
    linarith
  · intro hm
    rw [val_eq_zero.mpr hm] at h; exact lt_irrefl _ h

theorem nan_isNan : isNan nan = true := by decide

theorem sqrt_neg {x : F32} (h : isNeg x = true) (hm : f32Mag x ≠ 0) : sqrt x = nan := by
  unfold sqrt
  simp [h, hm]

theorem pack_isNan {s : Bool} {m : Nat} (h : m ≤ infMag) : isNan (pack s m) = false := by
  unfold isNan
  rw [pack_mag h]; simp [h]

theorem eq_pack (x : F32) : x = pack (isNeg x) (f32Mag x) := by
  apply UInt32.toNat_inj.mp
  have := x.toNat_lt
  unfold pack isNeg f32Mag
  rw [UInt32.toNat_ofNat']
  by_cases h : 2 ^ 31 ≤ x.toNat
  · simp only [h, decide_true, if_true]; omega
  · simp only [h, decide_false, Bool.false_eq_true, if_false]; omega

/-- **C77.** The distance is not a number exactly for similarities that are not numbers and those above one. -/
theorem c77_nan (c : F32) : isNan (euclideanDistance c) = true ↔ isNan c = true ∨ ScalarOrd.lt 0x3f800000 c = true := by
  have hlt : ScalarOrd.lt (0x3f800000 : F32) c = true ↔ isNan c = false ∧ isNeg c = false ∧ 0x3f800000 < f32Mag c := by
    have hx := c.toNat_lt
    have h1 : f32Key 0x3f800000 = 0x3f800000 := by decide
    have h2 : f32Mag 0x3f800000 = 0x3f800000 := by decide
    show (!decide (0x7f800000 < f32Mag 0x3f800000) && !decide (0x7f800000 < f32Mag c) && decide (f32Key 0x3f800000 < f32Key c)) = true ↔ _
    rw [h1, h2]
    unfold isNan isNeg infMag f32Key
    simp only [Bool.and_eq_true, Bool.not_eq_true', decide_eq_false_iff_not, decide_eq_true_eq]
    split <;> omega
  rw [hlt]
  rcases hnan : isNan c with _ | _
  swap
  · refine iff_of_true ?_ (.inl rfl)
    have h1 : mul 0x40000000 c = nan := by unfold mul; simp [hnan]
    unfold euclideanDistance
    rw [h1]
    decide
  rcases hinf : isInf c with _ | _
  swap
  · have hm : f32Mag c = infMag := by simpa [isInf] using hinf
    have hp := eq_pack c
    rw [hm] at hp
    rcases hs : isNeg c with _ | _
    · rw [hs] at hp
      rw [hp]; decide
    · rw [hs] at hp
      rw [hp]; decide
  have hc : Finite c := by
    rcases finite_or c with h | h | h
    · exact h
    · rw [hinf] at h; cases h
    · rw [hnan] at h; cases h
  have hm : mul 0x40000000 c = pack (isNeg c) (roundMag (magUnits (f32Mag 0x40000000) * magUnits (f32Mag c)) (2 ^ 149)) := by
    rw [mul_finite_eq finite_two hc, show isNeg 0x40000000 = false by decide]
    cases isNeg c <;> rfl
  by_cases hmf : Finite (mul 0x40000000 c)
  · obtain ⟨_, _, _, r1⟩ := mul_rounds finite_two hc
    rw [val_two] at r1
    obtain ⟨_, _, _, r2⟩ := sub_rounds finite_two hmf
    rw [val_two] at r2
    by_cases hgt : isNeg c = false ∧ 0x3f800000 < f32Mag c
    · refine iff_of_true ?_ (.inr ⟨rfl, hgt⟩)
      have h1 : val 0x3f800001 ≤ val c := by
        rw [val_eq, val_eq c, hgt.1, show isNeg 0x3f800001 = false by decide]
        simp only [Bool.false_eq_true, if_false, one_mul]
        have h2 : magUnits (f32Mag 0x3f800001) ≤ magUnits (f32Mag c) := magUnits_mono (by
          rw [show f32Mag 0x3f800001 = 0x3f800001 by decide]; omega)
        exact div_le_div_of_nonneg_right (Nat.cast_le.mpr h2) (by positivity)
      have v1 : val 0x3f800001 = 1 + 1 / 2 ^ 23 := by
        unfold val
        rw [show units 0x3f800001 = (2 ^ 23 + 1) * 2 ^ 126 by decide +kernel]
        norm_num
      have v2 : val 0x40000001 = 2 * (1 + 1 / 2 ^ 23) := by
        unfold val
        rw [show units 0x40000001 = (2 ^ 23 + 1) * 2 ^ 127 by decide +kernel]
        norm_num
      have v3 : val 0xb4800000 = - (1 / 2 ^ 22) := by
        unfold val
        rw [show units 0xb4800000 = - 2 ^ 127 by decide +kernel]
        norm_num
      have f2 : Finite 0x40000001 := by unfold Finite; decide
      have f3 : Finite 0xb4800000 := by unfold Finite; decide
      have h3 := r1.ge f2 (by rw [v2]; linarith)
      rw [v2] at h3
      have h4 := r2.le f3 (by rw [v3]; norm_num at h3 ⊢; linarith)
      rw [v3] at h4
      have h5 : val (sub 0x40000000 (mul 0x40000000 c)) < 0 := lt_of_le_of_lt h4 (by norm_num)
      obtain ⟨h6, h7⟩ := isNeg_of_val h5
      unfold euclideanDistance
      rw [sqrt_neg h6 h7]; exact nan_isNan
    · refine iff_of_false ?_ (by rintro (h | h); · cases h
                                 exact hgt h.2)
      have hle : val c ≤ 1 := by
        rcases hs : isNeg c with _ | _
        · have h2 : magUnits (f32Mag c) ≤ magUnits 0x3f800000 := magUnits_mono (by
            by_contra hcon; exact hgt ⟨hs, by omega⟩)
          rw [← val_one, val_eq, val_eq 0x3f800000, hs, show isNeg 0x3f800000 = false by decide]
          simp only [Bool.false_eq_true, if_false, one_mul]
          exact div_le_div_of_nonneg_right (Nat.cast_le.mpr h2) (by positivity)
        · rw [val_eq, hs]
          have : (0 : ℝ) ≤ (magUnits (f32Mag c) : ℝ) / 2 ^ 149 := div_nonneg (Nat.cast_nonneg _) (by positivity)
          simp only [if_true]
          linarith
      have h3 := r1.le finite_two (by rw [val_two]; linarith)
      rw [val_two] at h3
      have h4 := r2.ge finite_zero (by rw [val_zero]; linarith)
      rw [val_zero] at h4
      have hsn : isNan (sub 0x40000000 (mul 0x40000000 c)) = false := by
        unfold sub
        rw [add_finite_eq finite_two (neg_finite hmf)]
        split
        · exact pack_isNan (by decide)
        · exact pack_isNan (roundMag_le _ _)
      unfold euclideanDistance
      generalize sub 0x40000000 (mul 0x40000000 c) = s at *
      unfold sqrt
      rw [hsn]
      simp only [Bool.false_eq_true, if_false]
      split
      · rw [hsn]; exact Bool.false_ne_true
      · next hm0 =>
        have hs : isNeg s = false := by
          by_contra hcon
          have hcon : isNeg s = true := by simpa using hcon
          have hm0 : f32Mag s ≠ 0 := by simpa using hm0
          rw [val_eq, hcon] at h4
          have := magUnits_pos hm0
          have : (0 : ℝ) < magUnits (f32Mag s) := by exact_mod_cast this
          have : (0 : ℝ) < (magUnits (f32Mag s) : ℝ) / 2 ^ 149 := by positivity
          simp only [if_true] at h4
          linarith
        rw [hs]
        simp only [Bool.false_eq_true, if_false]
        split
        · rw [hsn]; exact Bool.false_ne_true
        · rw [pack_isNan (roundMag_le _ _)]; exact Bool.false_ne_true
  · have hmag : roundMag (magUnits (f32Mag 0x40000000) * magUnits (f32Mag c)) (2 ^ 149) = infMag := by
      rw [hm] at hmf
      unfold Finite at hmf
      rw [pack_mag (roundMag_le _ _)] at hmf
      have := roundMag_le (magUnits (f32Mag 0x40000000) * magUnits (f32Mag c)) (2 ^ 149)
      omega
    rw [hmag] at hm
    have hbig : 0x3f800000 < f32Mag c := by
      by_contra hcon
      have h2 : magUnits (f32Mag c) ≤ magUnits 0x3f800000 := magUnits_mono (by omega)
      have h3 : roundMag (magUnits (f32Mag 0x40000000) * magUnits (f32Mag c)) (2 ^ 149) ≤ 0x40000000 := by
        refine roundMag_le_of (pow_pos' 149) ?_
        refine le_trans (Nat.mul_le_mul_left _ h2) ?_
        decide +kernel
      rw [hmag] at h3
      exact absurd h3 (by decide)
    unfold euclideanDistance
    rw [hm]
    rcases hs : isNeg c with _ | _
    · refine iff_of_true (by decide) (.inr ⟨rfl, rfl, hbig⟩)
    · refine iff_of_false (by decide) (by rintro (h | h); · cases h
                                          cases h.2.1)

end Ieee
end FF
