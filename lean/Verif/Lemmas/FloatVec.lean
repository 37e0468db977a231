import Verif.Lemmas.Euclid

/-!
# Rounding errors of vectors of single precision floats
-/

namespace FF
namespace Ieee

/-! ## Counts, differences and quotients -/

/-- Counts below `2^24` are converted exactly. -/
theorem val_ofNat {n : Nat} (h0 : 0 < n) (h : n < 2 ^ 24) : Finite (ofNat n) ∧ val (ofNat n) = n ∧ f32Mag (ofNat n) ≠ 0 := by
  obtain ⟨h1, h2⟩ := log2_spec (k := n) (by omega)
  have hk : Nat.log2 n ≤ 23 := by
    by_contra hc
    have : 2 ^ 24 ≤ 2 ^ Nat.log2 n := Nat.pow_le_pow_right (by norm_num) (by omega)
    omega
  generalize Nat.log2 n = k at *
  have hr1 : 2 ^ 23 ≤ n * 2 ^ (23 - k) := by
    calc 2 ^ 23 = 2 ^ k * 2 ^ (23 - k) := by rw [← pow_add]; congr 1; omega
      _ ≤ _ := Nat.mul_le_mul_right _ h1
  have hr2 : n * 2 ^ (23 - k) ≤ 2 ^ 24 := by
    calc n * 2 ^ (23 - k) ≤ 2 ^ (k + 1) * 2 ^ (23 - k) := Nat.mul_le_mul_right _ h2.le
      _ = 2 ^ 24 := by rw [← pow_add]; congr 1; omega
  have hm := magUnits_eq (126 + k) (n * 2 ^ (23 - k)) (.inr ⟨hr1, hr2⟩)
  have he : n * 2 ^ (23 - k) * 2 ^ (126 + k) = n * 2 ^ 149 := by
    rw [mul_assoc, ← pow_add]; congr 2; omega
  rw [he] at hm
  have hb := rawMag_magUnits ((126 + k) * 2 ^ 23 + n * 2 ^ (23 - k)) 1 (by norm_num)
  rw [hm, mul_one] at hb
  have hlt : (126 + k) * 2 ^ 23 + n * 2 ^ (23 - k) < infMag := by
    rw [infMag_eq]; omega
  have hmag : roundMag (n * 2 ^ 149) 1 = (126 + k) * 2 ^ 23 + n * 2 ^ (23 - k) := by
    rw [roundMag_eq, hb]; omega
  have hf : f32Mag (ofNat n) = (126 + k) * 2 ^ 23 + n * 2 ^ (23 - k) := by
    unfold ofNat; rw [pack_mag (roundMag_le _ _), hmag]
  refine ⟨by unfold Finite; rw [hf]; exact hlt, ?_, by rw [hf]; omega⟩
  unfold ofNat
  rw [val_pack (roundMag_le _ _), hmag, hm]
  push_cast
  norm_num

theorem finite_neg {x : F32} : Finite (neg x) ↔ Finite x := by
  refine ⟨fun h => ?_, neg_finite⟩
  unfold Finite at *
  rcases Nat.lt_or_ge infMag (f32Mag x) with hg | hg
  · unfold neg pack f32Mag at *
    rw [infMag_eq] at *
    have := x.toNat_lt
    rw [UInt32.toNat_ofNat'] at h
    split at h <;> omega
  · unfold neg at h
    rwa [pack_mag hg] at h

theorem Approx.neg {k : Nat} {a : F32} {A B : ℝ} (h : Approx k a A B) : Approx k (Ieee.neg a) (-A) B := by
  refine ⟨by rw [abs_neg]; exact h.1, fun hf => ?_⟩
  have hf := finite_neg.mp hf
  rw [val_neg hf, show -val a - -A = -(val a - A) by ring, abs_neg]
  exact h.2 hf

theorem Safe.neg {k : Nat} {a : F32} {A B : ℝ} (h : Safe k a A B) : Safe k (Ieee.neg a) (-A) B :=
  ⟨h.1.neg, fun hb => finite_neg.mpr (h.2 hb)⟩

theorem Safe.sub {k : Nat} {a b : F32} {A B C D : ℝ} (h1 : Safe k a A C) (h2 : Safe k b B D) :
    Safe (k + 1) (Ieee.sub a b) (A - B) (C + D) := by
  have := sumRel_safe.add h1 h2.neg
  rwa [← sub_eq_add_neg] at this

theorem Safe.val {a : F32} (h : Finite a) : Safe 0 a (Ieee.val a) |Ieee.val a| :=
  ⟨⟨le_rfl, fun _ => by simp⟩, fun _ => h⟩

/-- A quotient by a count, with room for underflow. -/
theorem Safe.div {k : Nat} {a : F32} {A B : ℝ} (h : Safe k a A B) {n : Nat} (h0 : 0 < n) (hn : n < 2 ^ 24) (hB : (1 + roundoff) ^ k * B ≤ 2 ^ 100) :
    Safe (k + 1) (Ieee.div a (ofNat n)) (A / n) (B / n + tiny) := by
  obtain ⟨fn, vn, mn⟩ := val_ofNat h0 hn
  have fa := h.2 hB
  have hn0 : (0 : ℝ) < n := by exact_mod_cast h0
  have hn1 : (1 : ℝ) ≤ n := by exact_mod_cast h0
  have ht : 0 < tiny := by unfold tiny; positivity
  have hB0 : 0 ≤ B := le_trans (abs_nonneg A) h.1.1
  have hu := roundoff_pos
  have va := h.1.abs_le fa
  have hq : |Ieee.val a / Ieee.val (ofNat n)| ≤ 2 ^ 127 := by
    rw [vn, abs_div, abs_of_pos hn0]
    refine le_trans (div_le_self (abs_nonneg _) hn1) (le_trans (le_trans va hB) (by norm_num))
  have ff := div_finite_of fa fn mn hq
  refine ⟨⟨?_, fun _ => ?_⟩, fun _ => ff⟩
  · rw [abs_div, abs_of_pos hn0]
    have := div_le_div_of_nonneg_right h.1.1 hn0.le
    linarith
  · have e := div_spec fa fn mn ff
    rw [vn] at e
    have hd := h.1.2 fa
    have ht2 : (1 : ℝ) / 2 ^ 150 = roundoff * tiny := by unfold roundoff tiny; norm_num
    rw [ht2] at e
    have e1 : max (roundoff * |Ieee.val a / n|) (roundoff * tiny) ≤ roundoff * ((1 + roundoff) ^ k * (B / n)) + roundoff * tiny := by
      have h1 : |Ieee.val a / n| ≤ (1 + roundoff) ^ k * (B / n) := by
        rw [abs_div, abs_of_pos hn0, ← mul_div_assoc]
        exact div_le_div_of_nonneg_right va hn0.le
      have h2 := mul_le_mul_of_nonneg_left h1 hu.le
      have h3 : 0 ≤ roundoff * tiny := by positivity
      have h4 : 0 ≤ roundoff * |Ieee.val a / n| := by positivity
      exact max_le (by linarith) (by linarith)
    have e2 : |Ieee.val a / n - A / n| ≤ ((1 + roundoff) ^ k - 1) * (B / n) := by
      rw [← sub_div, abs_div, abs_of_pos hn0, ← mul_div_assoc]
      exact div_le_div_of_nonneg_right hd hn0.le
    have e3 := abs_add_le (Ieee.val (Ieee.div a (ofNat n)) - Ieee.val a / n) (Ieee.val a / n - A / n)
    rw [sub_add_sub_cancel] at e3
    have g := one_le_growth k
    have e4 : roundoff * tiny ≤ ((1 + roundoff) ^ (k + 1) - 1) * tiny := by
      refine mul_le_mul_of_nonneg_right ?_ ht.le
      rw [pow_succ]
      nlinarith
    calc _ ≤ roundoff * ((1 + roundoff) ^ k * (B / n)) + ((1 + roundoff) ^ (k + 1) - 1) * tiny + ((1 + roundoff) ^ k - 1) * (B / n) := by linarith
      _ = _ := by ring

/-! ## Component by component -/

theorem terms_val {v : List F32} (h : ∀ a ∈ v, Finite a) : Terms Safe 0 v (v.map val) (v.map fun a => |val a|) := by
  induction v with
  | nil => exact .nil
  | cons a v ih => exact .cons (Safe.val (h a (by simp))) (ih fun b hb => h b (by simp [hb]))

theorem Terms.lengths {P : Nat → F32 → ℝ → ℝ → Prop} {k : Nat} {as : List F32} {As Bs : List ℝ} (h : Terms P k as As Bs) :
    As.length = as.length ∧ Bs.length = as.length := by
  induction h with
  | nil => exact ⟨rfl, rfl⟩
  | cons _ _ ih => simp [ih.1, ih.2]

theorem Terms.sub {k : Nat} {as bs : List F32} {As Bs Cs Ds : List ℝ} (h : Terms Safe k as As Bs) (h' : Terms Safe k bs Cs Ds) :
    Terms Safe (k + 1) (List.zipWith Ieee.sub as bs) (List.zipWith (· - ·) As Cs) (List.zipWith (· + ·) Bs Ds) := by
  induction h generalizing bs Cs Ds with
  | nil => exact .nil
  | cons h1 _ ih =>
    cases h' with
    | nil => exact .nil
    | cons h2 h3 => exact .cons (h1.sub h2) (ih h3)

theorem Terms.fold {k : Nat} {as : List F32} {As Bs : List ℝ} (h : Terms Safe k as As Bs) (rows : List (List F32))
    (hr : ∀ r ∈ rows, ∀ a ∈ r, Finite a) :
    Terms Safe (k + rows.length) (rows.foldl (List.zipWith Ieee.add) as)
      ((rows.map (List.map val)).foldl (List.zipWith (· + ·)) As)
      ((rows.map (List.map fun a => |val a|)).foldl (List.zipWith (· + ·)) Bs) := by
  induction rows generalizing k as As Bs with
  | nil => exact h
  | cons r rows ih =>
    have h1 := Terms.zip sumRel_safe h (Terms.mono sumRel_safe (terms_val (hr r (by simp))) (Nat.zero_le k))
    have h2 := ih h1 fun r' hr' => hr r' (by simp [hr'])
    rw [List.length_cons, show k + (rows.length + 1) = k + 1 + rows.length by omega]
    exact h2

theorem Terms.div {k : Nat} {as : List F32} {As Bs : List ℝ} (h : Terms Safe k as As Bs) {n : Nat} (h0 : 0 < n) (hn : n < 2 ^ 24)
    (hB : ∀ B ∈ Bs, (1 + roundoff) ^ k * B ≤ 2 ^ 100) :
    Terms Safe (k + 1) (as.map (Ieee.div · (ofNat n))) (As.map (· / n)) (Bs.map (· / n + tiny)) := by
  induction h with
  | nil => exact .nil
  | cons h1 _ ih => exact .cons (h1.div h0 hn (hB _ (by simp))) (ih fun B hb => hB B (by simp [hb]))

/-- The distance of the computed vector from the exact one. -/
theorem Terms.vecDistance {k : Nat} {as : List F32} {As Bs : List ℝ} (h : Terms Safe k as As Bs)
    (hB : (1 + roundoff) ^ k * euclideanNorm Bs ≤ 2 ^ 100) :
    (∀ a ∈ as, Finite a) ∧ FF.vecDistance (as.map val) As ≤ ((1 + roundoff) ^ k - 1) * euclideanNorm Bs := by
  have g := one_le_growth k
  have hb : ∀ B ∈ Bs, (1 + roundoff) ^ k * B ≤ 2 ^ 100 := fun B h1 =>
    le_trans (mul_le_mul_of_nonneg_left (le_trans (le_abs_self B) (abs_le_euclideanNorm h1)) (by linarith)) hB
  have key : (∀ a ∈ as, Finite a) ∧
      List.Forall₂ (fun a b => |a| ≤ b) (List.zipWith (· - ·) (as.map val) As) (Bs.map (((1 + roundoff) ^ k - 1) * ·)) := by
    clear hB
    induction h with
    | nil => exact ⟨by simp, .nil⟩
    | cons h1 _ ih =>
      obtain ⟨i1, i2⟩ := ih fun B hB => hb B (by simp [hB])
      have f := h1.2 (hb _ (by simp))
      refine ⟨?_, .cons (h1.1.2 f) i2⟩
      intro a ha
      rcases List.mem_cons.mp ha with rfl | ha
      · exact f
      · exact i1 a ha
  refine ⟨key.1, le_trans (euclideanNorm_mono key.2) ?_⟩
  rw [euclideanNorm_mul, abs_of_nonneg (by linarith)]

end Ieee
end FF
