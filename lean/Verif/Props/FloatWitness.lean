import Mathlib.Analysis.Real.Pi.Bounds
import Verif.Lemmas.FloatNearest
import Verif.Props.FloatCosine
import Verif.Props.TextExact

/-!
# Single precision: where the ideal fails, and concrete cases (C76, C77, C78)
-/

namespace FF
namespace Ieee

attribute [local instance] scalar

/-! ## The values of floats -/

/-- The value of a float is the one of the specification of comparisons (C41). -/
theorem val_scaled (x : F32) : val x = (f32Scaled x : ℝ) / 2 ^ 149 := by
  unfold val
  congr 2
  rw [f32Scaled_eq]
  have e : magUnits (f32Mag x) = f32MagVal (f32Mag x) := by
    unfold magUnits f32MagVal
    by_cases h : f32Mag x < 2 ^ 23
    · rw [if_pos h, if_pos (by omega)]; omega
    · rw [if_neg h, if_neg (by omega)]
  unfold units isNeg
  rw [e]
  by_cases h : x.toNat < 2 ^ 31
  · rw [if_pos h, if_neg (by simp; omega)]
  · rw [if_neg h, if_pos (by simp; omega)]

/-- A float is finite if not all exponent bits are set. -/
theorem finite_scaled (x : F32) : Finite x ↔ x.toNat / 2 ^ 23 % 2 ^ 8 ≠ 255 := by
  have := x.toNat_lt
  unfold Finite f32Mag infMag
  omega

example : Finite 0x3f800000 ∧ val 0x3f800000 = 1 := ⟨finite_one, val_one⟩

/-! ## Normalisation -/

/-- **C76.** Not every finite vector other than zero is normalised: one whose sum of squares overflows becomes zero, one whose sum of
squares underflows is left as it is. -/
theorem c76_false :
    ¬ (∀ v : List F32, (∀ x ∈ v, Finite x) → (∃ x ∈ v, val x ≠ 0) →
        Finite (l2Normalize v).2 ∧ |euclideanNorm ((l2Normalize v).1.map val) - 1| ≤ 1 / 2) ∧
    l2Normalize ([0x5f800000, 0x3f800000] : List F32) = ([0, 0], 0x7f800000) ∧
    l2Normalize ([0x1a000000, 0] : List F32) = ([0x1a000000, 0], 0) := by
  have h1 : l2Normalize ([0x5f800000, 0x3f800000] : List F32) = ([0, 0], 0x7f800000) := by decide +kernel
  refine ⟨fun h => ?_, h1, by decide +kernel⟩
  have := (h [0x5f800000, 0x3f800000] (by unfold Finite; decide) ⟨0x3f800000, by simp, by rw [val_one]; norm_num⟩).1
  rw [h1] at this
  exact absurd this (by unfold Finite; decide)

/-- The vector `(1, 4)`. -/
def exampleVec : List F32 := [0x3f800000, 0x40800000]

theorem exampleVec_norm : l2Normalize exampleVec = ([1048075075, 1064852291], 1082388603) := by decide +kernel

/-- The hypotheses of `c76_norm`, `c76_unit`, `c76_restore` and `c78_range` hold for `(1, 4)`. -/
theorem exampleVec_hypotheses : exampleVec.length ≤ 2 ^ 20 ∧ Finite (l2Normalize exampleVec).2 ∧ 1 / 2 ^ 32 ≤ val (l2Normalize exampleVec).2 := by
  refine ⟨by decide, ?_, ?_⟩
  · rw [exampleVec_norm]; unfold Finite; decide
  · rw [exampleVec_norm, val_scaled, show f32Scaled 1082388603 = 8646779 * 2 ^ 128 by decide +kernel]
    norm_num

/-- `c76_restore` and `c78_range` applied to it. -/
example := c76_restore exampleVec_hypotheses.1 exampleVec_hypotheses.2.1 exampleVec_hypotheses.2.2 1 (by decide)
example := c78_range (v := exampleVec) (w := exampleVec) rfl exampleVec_hypotheses.1 exampleVec_hypotheses.2.1
  exampleVec_hypotheses.2.2 exampleVec_hypotheses.2.1 exampleVec_hypotheses.2.2

/-- The norm that is stored for `(1, 4)` is `√17` up to `20/2^24`; the computed vector has length one up to `20/2^23`. -/
example : |val 1082388603 - Real.sqrt 17| ≤ 20 / 2 ^ 24 * Real.sqrt 17 ∧
    |euclideanNorm ([1048075075, 1064852291].map val) - 1| ≤ 20 / 2 ^ 23 := by
  have h1 := c76_norm exampleVec_hypotheses.1 exampleVec_hypotheses.2.1 exampleVec_hypotheses.2.2
  have h2 := (c76_unit exampleVec_hypotheses.1 exampleVec_hypotheses.2.1 exampleVec_hypotheses.2.2).2
  rw [exampleVec_norm] at h1 h2
  have e : euclideanNorm (exampleVec.map val) = Real.sqrt 17 := by
    unfold euclideanNorm exampleVec
    simp only [List.map_cons, List.map_nil, val_one, val_four, sumSquares, List.sum_cons, List.sum_nil]
    norm_num
  rw [e, show ((exampleVec.length / 8 + 20 : Nat) : ℝ) = 20 by norm_num [exampleVec]] at h1
  rw [show ((exampleVec.length / 8 + 20 : Nat) : ℝ) = 20 by norm_num [exampleVec]] at h2
  exact ⟨h1, h2⟩

/-- The hypotheses of `c76_finite` hold for `(1, 4)`. -/
example : exampleVec.length ≤ 2 ^ 20 ∧ (∀ x ∈ exampleVec, Finite x) ∧ 1 / 2 ^ 31 ≤ euclideanNorm (exampleVec.map val) ∧
    euclideanNorm (exampleVec.map val) ≤ 2 ^ 49 := by
  have e : sumSquares (exampleVec.map val) = 17 := by
    unfold exampleVec
    simp only [List.map_cons, List.map_nil, val_one, val_four, sumSquares, List.sum_cons, List.sum_nil]
    norm_num
  refine ⟨by decide, by unfold Finite; decide, ?_, ?_⟩ <;> unfold euclideanNorm <;> rw [e]
  · exact Real.le_sqrt_of_sq_le (by norm_num)
  · rw [Real.sqrt_le_left (by norm_num)]; norm_num

/-! ## Measures -/

/-- Two words with the vector `(1, 4)` in a word2vec file. -/
def exampleSame : Bytes :=
  [0x32, 0x20, 0x32, 0x0a, 0x61, 0x20, 0, 0, 0x80, 0x3f, 0, 0, 0x80, 0x40, 0x0a, 0x62, 0x20, 0, 0, 0x80, 0x3f, 0, 0, 0x80, 0x40, 0x0a]

/-- Whether the words most similar to `w` in the embeddings of a word2vec file are the given ones. -/
def answersTo (b : Bytes) (w : Str) (limit : Nat) (r : List (WordSim F32)) : Bool :=
  match (Embeddings.readWord2vec false b 0 : Res (Embeddings Str SimpleVocab (NdArray F32) F32 × Nat)) with
  | .ok (e, _) => (match e.wordSimilarity w limit none with
    | .ok (some r') => r' == r
    | _ => false)
  | _ => false

/-- **C77.** The measures leave their ranges: of two words with the same vector in a word2vec file, one is the answer to the other
with a cosine similarity above one, for which the distance and the Euclidean similarity are not numbers. -/
theorem c77_false :
    ¬ (∀ (b : Bytes) (e : Embeddings Str SimpleVocab (NdArray F32) F32) (pos : Nat) (w : Str) (limit : Nat) (r : List (WordSim F32)),
        Embeddings.readWord2vec false b 0 = .ok (e, pos) → e.wordSimilarity w limit none = .ok (some r) →
        ∀ s ∈ r, isNan (euclideanDistance s.similarity) = false ∨ isNan (euclideanSimilarity s.similarity) = false ∨
          |val s.similarity| ≤ 1) := by
  intro h
  have h1 : answersTo exampleSame ['a'] 1 [⟨0x3f800001, ['b']⟩] = true := by decide +kernel
  unfold answersTo at h1
  split at h1
  · next e pos he =>
    split at h1
    · next r hr =>
      have h2 := h _ e pos _ _ r he hr ⟨0x3f800001, ['b']⟩ (by rw [eq_of_beq h1]; simp)
      have v1 : val 0x3f800001 = 1 + 1 / 2 ^ 23 := by
        rw [val_scaled, show f32Scaled 0x3f800001 = (2 ^ 23 + 1) * 2 ^ 126 by decide +kernel]
        norm_num
      rcases h2 with h2 | h2 | h2
      · exact absurd h2 (by decide +kernel)
      · exact absurd h2 (by decide +kernel)
      · dsimp only at h2
        rw [v1] at h2
        norm_num [abs_le] at h2
    · cases h1
  · cases h1

/-- The hypotheses of `c77_range_partial`, `c77_order`, `c77_distance` and `c77_similarity` hold for `1/2` and `1`. -/
example : Finite 0x3f000000 ∧ |val 0x3f000000| ≤ 1 ∧ val 0x3f000000 ≤ val 0x3f800000 ∧ |val 0x3f800000| ≤ 1 ∧
    euclideanDistance 0x3f000000 = 0x3f800000 ∧ euclideanSimilarity 0x3f000000 = 0x3f000000 := by
  have h : val 0x3f000000 = 1 / 2 := by
    rw [val_scaled, show f32Scaled 0x3f000000 = 2 ^ 148 by decide +kernel]
    norm_num
  rw [h, val_one]
  refine ⟨by unfold Finite; decide, ?_, by norm_num, ?_, by decide +kernel, by decide +kernel⟩ <;> rw [abs_of_pos] <;> norm_num

/-- **C77.** Angular similarities lie in `[0, 1]`, fall as the arc cosine grows, and are not numbers where the arc cosine is not a number,
for an arc cosine with values between zero and `f32::consts::PI`. -/
theorem c77_angular (acos : F32 → F32) (c d : F32) :
    (isNan (acos c) = true → isNan (angularSimilarity acos c) = true) ∧
    (Finite (acos c) → 0 ≤ val (acos c) → val (acos c) ≤ val 0x40490fdb →
      Finite (angularSimilarity acos c) ∧ 0 ≤ val (angularSimilarity acos c) ∧ val (angularSimilarity acos c) ≤ 1 ∧
      |val (angularSimilarity acos c) - (1 - val (acos c) / val 0x40490fdb)| ≤ 1 / 2 ^ 23 ∧
      (Finite (acos d) → val (acos c) ≤ val (acos d) → val (acos d) ≤ val 0x40490fdb →
        val (angularSimilarity acos d) ≤ val (angularSimilarity acos c))) := by
  have hpi : Finite 0x40490fdb := by unfold Finite; decide
  have hm : f32Mag 0x40490fdb ≠ 0 := by decide
  have vpi : 3 ≤ val 0x40490fdb := by
    rw [val_scaled, show f32Scaled 0x40490fdb = 13176795 * 2 ^ 127 by decide +kernel]
    norm_num
  have quot : ∀ a : F32, Finite a → 0 ≤ val a → val a ≤ val 0x40490fdb →
      Finite (div a 0x40490fdb) ∧ 0 ≤ val (div a 0x40490fdb) ∧ val (div a 0x40490fdb) ≤ 1 := by
    intro a ha h0 h1
    obtain ⟨_, _, _, hr⟩ := div_rounds ha hpi hm
    have e0 : 0 ≤ val (div a 0x40490fdb) := by
      have := hr.ge finite_zero (by rw [val_zero]; exact div_nonneg h0 (by linarith))
      rwa [val_zero] at this
    have e1 : val (div a 0x40490fdb) ≤ 1 := by
      have := hr.le finite_one (by rw [val_one]; exact div_le_one_of_le₀ h1 (by linarith))
      rwa [val_one] at this
    exact ⟨finite_of_val (by rw [abs_of_nonneg e0]; exact le_trans e1 (by norm_num)), e0, e1⟩
  refine ⟨fun h => ?_, fun hf h0 h1 => ?_⟩
  · unfold angularSimilarity
    exact ((ieee_nan _ _).1 (.inr ((ieee_nan _ _).1 (.inl h)).2.2.2)).2.1
  obtain ⟨qf, q0, q1⟩ := quot _ hf h0 h1
  obtain ⟨_, _, _, hr⟩ := sub_rounds finite_one qf
  rw [val_one] at hr
  have s0 : 0 ≤ val (angularSimilarity acos c) := by
    have := hr.ge finite_zero (by rw [val_zero]; linarith)
    rwa [val_zero] at this
  have s1 : val (angularSimilarity acos c) ≤ 1 := by
    have := hr.le finite_one (by rw [val_one]; linarith)
    rwa [val_one] at this
  have sf : Finite (angularSimilarity acos c) := finite_of_val (by rw [abs_of_nonneg s0]; exact le_trans s1 (by norm_num))
  refine ⟨sf, s0, s1, ?_, fun hd hcd hd1 => ?_⟩
  · have a1 := sub_spec finite_one qf sf
    have a2 := div_spec hf hpi hm qf
    rw [val_one, abs_of_nonneg (show 0 ≤ 1 - val (div (acos c) 0x40490fdb) by linarith)] at a1
    have z0 : 0 ≤ val (acos c) / val 0x40490fdb := div_nonneg h0 (by linarith)
    have z1 : val (acos c) / val 0x40490fdb ≤ 1 := div_le_one_of_le₀ h1 (by linarith)
    rw [abs_of_nonneg z0] at a2
    have hu : roundoff = 1 / 2 ^ 24 := rfl
    have a3 : |val (div (acos c) 0x40490fdb) - val (acos c) / val 0x40490fdb| ≤ roundoff := by
      refine le_trans a2 (max_le ?_ ?_)
      · rw [hu]; linarith
      · rw [hu]; norm_num
    have a4 : |val (angularSimilarity acos c) - (1 - val (div (acos c) 0x40490fdb))| ≤ roundoff := by
      refine le_trans a1 ?_
      rw [hu]; linarith
    rw [hu, abs_le] at a3 a4
    rw [abs_le]
    constructor <;> norm_num at a3 a4 ⊢ <;> linarith
  · obtain ⟨df, d0, d1⟩ := quot _ hd (le_trans h0 hcd) hd1
    obtain ⟨_, _, _, r1⟩ := div_rounds hf hpi hm
    obtain ⟨_, _, _, r2⟩ := div_rounds hd hpi hm
    have hq := r1.mono r2 (div_le_div_of_nonneg_right hcd (by linarith))
    obtain ⟨_, _, _, r3⟩ := sub_rounds finite_one df
    rw [val_one] at r3
    exact r3.mono hr (by linarith)

/-- **C77.** `f32::consts::PI` is the float nearest to the number: the distance is at most half of the spacing 2^-22. -/
theorem c77_pi : |val 0x40490fdb - Real.pi| ≤ 1 / 2 ^ 23 := by
  rw [val_scaled, show f32Scaled 0x40490fdb = 13176795 * 2 ^ 127 by decide +kernel]
  have h1 := Real.pi_gt_d20
  have h2 := Real.pi_lt_d20
  rw [abs_le]
  constructor <;> norm_num at * <;> linarith

/-- **C77.** If the arc cosine is computed up to an error `ε`, the angular similarity is one minus the angle as a fraction of a half turn,
up to `ε / 3` and 2/2^23. -/
theorem c77_angle (acos : F32 → F32) (c : F32) (ε : ℝ) (hf : Finite (acos c)) (h0 : 0 ≤ val (acos c))
    (h1 : val (acos c) ≤ val 0x40490fdb) (he : |val (acos c) - Real.arccos (val c)| ≤ ε) :
    |val (angularSimilarity acos c) - (1 - Real.arccos (val c) / Real.pi)| ≤ ε / 3 + 2 / 2 ^ 23 := by
  have ha := ((c77_angular acos c c).2 hf h0 h1).2.2.2.1
  have hp := c77_pi
  have a0 := Real.arccos_nonneg (val c)
  have a1 := Real.arccos_le_pi (val c)
  have p3 : 3 ≤ val 0x40490fdb := by
    rw [val_scaled, show f32Scaled 0x40490fdb = 13176795 * 2 ^ 127 by decide +kernel]
    norm_num
  have hpi := Real.pi_pos
  generalize Real.arccos (val c) = A at *
  generalize val 0x40490fdb = P at *
  generalize val (acos c) = a at *
  have hP : 0 < P := by linarith
  have e1 : a / P - A / Real.pi = (a - A) / P + A / Real.pi * ((Real.pi - P) / P) := by
    field_simp
    ring
  have e2 : |(a - A) / P| ≤ ε / 3 := by
    rw [abs_div, abs_of_pos hP]
    exact div_le_div₀ (le_trans (abs_nonneg _) he) he (by norm_num) p3
  have e3 : |A / Real.pi * ((Real.pi - P) / P)| ≤ 1 / 2 ^ 23 := by
    rw [abs_mul, abs_div (Real.pi - P), abs_of_pos hP, abs_of_nonneg (div_nonneg a0 hpi.le), abs_sub_comm]
    have b1 : A / Real.pi ≤ 1 := div_le_one_of_le₀ a1 hpi.le
    have b2 : |P - Real.pi| / P ≤ 1 / 2 ^ 23 :=
      le_trans (div_le_self (abs_nonneg _) (by linarith)) hp
    calc A / Real.pi * (|P - Real.pi| / P) ≤ 1 * (1 / 2 ^ 23) :=
          mul_le_mul b1 b2 (div_nonneg (abs_nonneg _) hP.le) (by norm_num)
      _ = 1 / 2 ^ 23 := one_mul _
  have e4 : |a / P - A / Real.pi| ≤ ε / 3 + 1 / 2 ^ 23 := by
    rw [e1]
    exact le_trans (abs_add_le _ _) (add_le_add e2 e3)
  have e5 : (2 : ℝ) / 2 ^ 23 = 1 / 2 ^ 23 + 1 / 2 ^ 23 := by norm_num
  rw [e5]
  rw [abs_le] at *
  constructor <;> linarith [ha.1, ha.2, e4.1, e4.2]

/-- `c77_angle` for the cosine zero: half of `f32::consts::PI` is half of the number up to 1/2^23. -/
example : |val (angularSimilarity (fun _ => 0x3fc90fdb) 0) - 1 / 2| ≤ (1 / 2 ^ 23) / 3 + 2 / 2 ^ 23 := by
  have v : val 0x3fc90fdb = 13176795 * 2 ^ 126 / 2 ^ 149 := by
    rw [val_scaled, show f32Scaled 0x3fc90fdb = 13176795 * 2 ^ 126 by decide +kernel]
    norm_num
  have w : val 0x40490fdb = 13176795 * 2 ^ 127 / 2 ^ 149 := by
    rw [val_scaled, show f32Scaled 0x40490fdb = 13176795 * 2 ^ 127 by decide +kernel]
    norm_num
  have h := c77_angle (fun _ => 0x3fc90fdb) 0 (1 / 2 ^ 23) (by unfold Finite; decide) (by rw [v]; norm_num)
    (by rw [v, w]; norm_num) (by
      have hp := c77_pi
      rw [val_zero, Real.arccos_zero, v]
      rw [w] at hp
      rw [abs_le] at *
      norm_num at *
      constructor <;> linarith [hp.1, hp.2])
  rw [val_zero, Real.arccos_zero] at h
  have e : 1 - Real.pi / 2 / Real.pi = 1 / 2 := by
    have := Real.pi_pos.ne'
    field_simp
    norm_num
  rwa [e] at h

/-- The hypotheses of `c77_angular` hold, for `acos` of zero being half of `PI`. -/
example : Finite 0x3fc90fdb ∧ 0 ≤ val 0x3fc90fdb ∧ val 0x3fc90fdb ≤ val 0x40490fdb ∧
    angularSimilarity (fun _ => 0x3fc90fdb) 0 = 0x3f000000 := by
  rw [val_scaled, val_scaled, show f32Scaled 0x3fc90fdb = 13176795 * 2 ^ 126 by decide +kernel,
    show f32Scaled 0x40490fdb = 13176795 * 2 ^ 127 by decide +kernel]
  refine ⟨by unfold Finite; decide, by norm_num, by norm_num, by decide +kernel⟩

/-! ## Cosine similarities -/

/-- The hypotheses of `c78_finite` and `c78_error` hold for `(1, 4)` with itself. -/
example : (∀ x ∈ exampleVec, Finite x) ∧ euclideanNorm (exampleVec.map val) * euclideanNorm (exampleVec.map val) ≤ 2 ^ 98 ∧
    Finite (Scalar.dot exampleVec exampleVec) := by
  have e : sumSquares (exampleVec.map val) = 17 := by
    unfold exampleVec
    simp only [List.map_cons, List.map_nil, val_one, val_four, sumSquares, List.sum_cons, List.sum_nil]
    norm_num
  refine ⟨by unfold Finite; decide, ?_, ?_⟩
  · unfold euclideanNorm; rw [e, Real.mul_self_sqrt (by norm_num)]; norm_num
  · unfold Finite; decide +kernel

end Ieee
end FF
