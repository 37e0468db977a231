import Mathlib.Algebra.Order.BigOperators.Group.List
import Verif.Lemmas.Float

/-!
# Sums and products of single precision floats
-/

namespace FF
namespace Ieee

theorem nan_not_finite : ¬ Finite nan := by unfold Finite; decide

theorem not_finite_of_nan {x : F32} (h : isNan x = true) : ¬ Finite x := by
  intro hf; rw [hf.notNan] at h; exact Bool.noConfusion h

theorem not_finite_of_inf {x : F32} (h : isInf x = true) : ¬ Finite x := by
  intro hf; rw [hf.notInf] at h; exact Bool.noConfusion h

theorem not_finite_pack_inf (s : Bool) : ¬ Finite (pack s infMag) := by
  unfold Finite; rw [pack_mag le_rfl]; omega

theorem finite_or (x : F32) : Finite x ∨ isInf x = true ∨ isNan x = true := by
  unfold Finite isInf isNan
  simp only [beq_iff_eq, decide_eq_true_iff]
  omega

/-- A sum is only finite if both terms are. -/
theorem add_finite {x y : F32} (h : Finite (add x y)) : Finite x ∧ Finite y := by
  have hx := finite_or x
  have hy := finite_or y
  unfold add at h
  by_cases h1 : isNan x || isNan y
  · rw [if_pos h1] at h; exact absurd h nan_not_finite
  rw [if_neg h1] at h
  simp only [Bool.or_eq_true, not_or] at h1
  by_cases h2 : isInf x
  · rw [if_pos h2] at h
    split at h
    · exact absurd h nan_not_finite
    · exact absurd h (not_finite_of_inf h2)
  rw [if_neg h2] at h
  by_cases h3 : isInf y
  · rw [if_pos h3] at h; exact absurd h (not_finite_of_inf h3)
  exact ⟨by tauto, by tauto⟩

/-- A product is only finite if both factors are. -/
theorem mul_finite {x y : F32} (h : Finite (mul x y)) : Finite x ∧ Finite y := by
  have hx := finite_or x
  have hy := finite_or y
  unfold mul at h
  by_cases h1 : isNan x || isNan y
  · rw [if_pos h1] at h; exact absurd h nan_not_finite
  rw [if_neg h1] at h
  simp only [Bool.or_eq_true, not_or] at h1
  by_cases h2 : isInf x || isInf y
  · rw [if_pos h2] at h
    split at h
    · exact absurd h nan_not_finite
    · exact absurd h (not_finite_pack_inf _)
  simp only [Bool.or_eq_true, not_or] at h2
  exact ⟨by tauto, by tauto⟩

/-- A root is only finite if its argument is. -/
theorem sqrt_finite {x : F32} (h : Finite (sqrt x)) : Finite x ∧ (f32Mag x = 0 ∨ isNeg x = false) := by
  have hx := finite_or x
  unfold sqrt at h
  by_cases h1 : isNan x
  · rw [if_pos h1] at h; exact absurd h nan_not_finite
  rw [if_neg h1] at h
  by_cases h2 : f32Mag x == 0
  · rw [if_pos h2] at h; exact ⟨h, .inl (by simpa using h2)⟩
  rw [if_neg h2] at h
  by_cases h3 : isNeg x
  · rw [if_pos h3] at h; exact absurd h nan_not_finite
  rw [if_neg h3] at h
  by_cases h4 : isInf x
  · rw [if_pos h4] at h; exact absurd h (not_finite_of_inf h4)
  exact ⟨by tauto, .inr (by simpa using h3)⟩

/-- What rounds to something that is at most a float is at most this float. -/
theorem roundMag_le_of {n d b : Nat} (hd : 0 < d) (h : n ≤ magUnits b * d) : roundMag n d ≤ b := by
  have := rawMag_mono (n := n) (d := d) (n' := magUnits b * d) (d' := d) hd hd (Nat.mul_le_mul_right d h)
  rw [rawMag_magUnits b d hd] at this
  rw [roundMag_eq]; omega

/-- The same from below. -/
theorem le_roundMag_of {n d b : Nat} (hd : 0 < d) (hb : b ≤ infMag) (h : magUnits b * d ≤ n) : b ≤ roundMag n d := by
  have := rawMag_mono (n := magUnits b * d) (d := d) (n' := n) (d' := d) hd hd (Nat.mul_le_mul_right d h)
  rw [rawMag_magUnits b d hd] at this
  rw [roundMag_eq]; omega

/-- `2^127`. -/
def bigMag : Nat := 0x7f000000

theorem magUnits_big : magUnits bigMag = 2 ^ 276 := by decide +kernel

theorem finite_pack_of {s : Bool} {n d : Nat} (hd : 0 < d) (h : (n : ℝ) / d / 2 ^ 149 ≤ 2 ^ 127) :
    Finite (pack s (roundMag n d)) := by
  unfold Finite
  rw [pack_mag (roundMag_le _ _)]
  have hd' : (0 : ℝ) < d := by exact_mod_cast hd
  rw [div_div, div_le_iff₀ (by positivity)] at h
  have h2 : n ≤ magUnits bigMag * d := by
    rw [magUnits_big]
    have : (n : ℝ) ≤ ((2 ^ 276 * d : Nat) : ℝ) := by
      rw [Nat.cast_mul, Nat.cast_pow, Nat.cast_ofNat]
      calc (n : ℝ) ≤ _ := h
        _ = (2 ^ 127 * 2 ^ 149) * d := by ring
        _ = _ := by rw [← pow_add]
    exact_mod_cast this
  exact lt_of_le_of_lt (roundMag_le_of hd h2) (by decide)

theorem mul_finite_of {x y : F32} (hx : Finite x) (hy : Finite y) (h : |val x * val y| ≤ 2 ^ 127) : Finite (mul x y) := by
  rw [mul_finite_eq hx hy]
  refine finite_pack_of (pow_pos' 149) ?_
  rw [abs_mul, abs_val, abs_val] at h
  rw [Nat.cast_mul, Nat.cast_pow, Nat.cast_ofNat]
  refine le_trans (le_of_eq ?_) h
  ring

theorem div_finite_of {x y : F32} (hx : Finite x) (hy : Finite y) (h0 : f32Mag y ≠ 0) (h : |val x / val y| ≤ 2 ^ 127) :
    Finite (div x y) := by
  rw [div_finite_eq hx hy h0]
  have hm := magUnits_pos h0
  have hm' : (magUnits (f32Mag y) : ℝ) ≠ 0 := by exact_mod_cast hm.ne'
  refine finite_pack_of hm ?_
  rw [abs_div, abs_val, abs_val] at h
  rw [Nat.cast_mul, Nat.cast_pow, Nat.cast_ofNat]
  refine le_trans (le_of_eq ?_) h
  field_simp

theorem val_zero : val 0 = 0 := by
  have : units 0 = 0 := by decide
  unfold val; rw [this]; simp

theorem val_eq_zero {x : F32} : val x = 0 ↔ f32Mag x = 0 := by
  rw [← abs_eq_zero, abs_val]
  constructor
  · intro h
    by_contra hc
    have := magUnits_pos hc
    have : (0 : ℝ) < magUnits (f32Mag x) := by exact_mod_cast this
    have : (0 : ℝ) < magUnits (f32Mag x) / 2 ^ 149 := by positivity
    linarith
  · intro h; rw [h, magUnits_zero]; simp

/-- The largest finite float is less than `2^128`. -/
theorem abs_val_lt {x : F32} (h : Finite x) : |val x| < 2 ^ 128 := by
  rw [abs_val, div_lt_iff₀ (by positivity)]
  have h1 : magUnits (f32Mag x) ≤ magUnits 0x7f7fffff := magUnits_mono (by unfold Finite at h; rw [infMag_eq] at h; omega)
  have h2 : magUnits 0x7f7fffff < 2 ^ 277 := by decide +kernel
  have : ((magUnits (f32Mag x) : Nat) : ℝ) < ((2 ^ 277 : Nat) : ℝ) := by exact_mod_cast lt_of_le_of_lt h1 h2
  rw [Nat.cast_pow, Nat.cast_ofNat] at this
  rw [← pow_add]; exact this

/-! ## Accumulated errors -/

theorem roundoff_pos : 0 < roundoff := by unfold roundoff; positivity

/-- `a` is computed for `A` with `k` roundings; `B` is what the sum of the absolute values would be. -/
def Approx (k : Nat) (a : F32) (A B : ℝ) : Prop :=
  |A| ≤ B ∧ (Finite a → |val a - A| ≤ ((1 + roundoff) ^ k - 1) * B)

theorem Approx.mono {k j : Nat} {a : F32} {A B : ℝ} (h : Approx k a A B) (hk : k ≤ j) : Approx j a A B := by
  refine ⟨h.1, fun hf => le_trans (h.2 hf) ?_⟩
  have hB : 0 ≤ B := le_trans (abs_nonneg A) h.1
  have h1 : (1 : ℝ) ≤ 1 + roundoff := by have := roundoff_pos; linarith
  have := pow_le_pow_right₀ h1 hk
  exact mul_le_mul_of_nonneg_right (by linarith) hB

theorem Approx.zero (k : Nat) : Approx k 0 0 0 := by
  refine ⟨by simp, fun _ => by simp [val_zero]⟩

theorem Approx.add {k : Nat} {a b : F32} {A B C D : ℝ} (h1 : Approx k a A C) (h2 : Approx k b B D) :
    Approx (k + 1) (Ieee.add a b) (A + B) (C + D) := by
  refine ⟨le_trans (abs_add_le A B) (add_le_add h1.1 h2.1), fun hf => ?_⟩
  obtain ⟨fa, fb⟩ := add_finite hf
  have e := add_spec fa fb hf
  have ha := h1.2 fa
  have hb := h2.2 fb
  have hu := roundoff_pos
  generalize roundoff = u at *
  have hC := h1.1
  have hD := h2.1
  have hva : |val a| ≤ (1 + u) ^ k * C := by
    have : |val a| ≤ |val a - A| + |A| := by
      have := abs_add_le (val a - A) A
      rwa [sub_add_cancel] at this
    linarith
  have hvb : |val b| ≤ (1 + u) ^ k * D := by
    have : |val b| ≤ |val b - B| + |B| := by
      have := abs_add_le (val b - B) B
      rwa [sub_add_cancel] at this
    linarith
  have h3 : |val a + val b| ≤ (1 + u) ^ k * (C + D) := by
    have := abs_add_le (val a) (val b)
    linarith
  have h4 : |val a + val b - (A + B)| ≤ ((1 + u) ^ k - 1) * (C + D) := by
    have h5 := abs_add_le (val a - A) (val b - B)
    have h6 : val a - A + (val b - B) = val a + val b - (A + B) := by ring
    rw [h6] at h5
    linarith
  have h7 : |val (Ieee.add a b) - (A + B)| ≤ |val (Ieee.add a b) - (val a + val b)| + |val a + val b - (A + B)| := by
    have := abs_add_le (val (Ieee.add a b) - (val a + val b)) (val a + val b - (A + B))
    rwa [show val (Ieee.add a b) - (val a + val b) + (val a + val b - (A + B)) = val (Ieee.add a b) - (A + B) by ring] at this
  have h8 : u * |val a + val b| ≤ u * ((1 + u) ^ k * (C + D)) := mul_le_mul_of_nonneg_left h3 hu.le
  calc |val (Ieee.add a b) - (A + B)| ≤ u * ((1 + u) ^ k * (C + D)) + ((1 + u) ^ k - 1) * (C + D) := by linarith
    _ = ((1 + u) ^ (k + 1) - 1) * (C + D) := by ring

/-- The smallest normal float. -/
noncomputable def tiny : ℝ := 1 / 2 ^ 126

/-- A product, with room for underflow. -/
theorem Approx.mul (x y : F32) : Approx 1 (Ieee.mul x y) (val x * val y) (|val x * val y| + tiny) := by
  refine ⟨by unfold tiny; have : (0 : ℝ) < 1 / 2 ^ 126 := by positivity
             linarith, fun hf => ?_⟩
  obtain ⟨fx, fy⟩ := mul_finite hf
  refine le_trans (mul_spec fx fy hf) ?_
  have : (1 : ℝ) / 2 ^ 150 = roundoff * tiny := by unfold roundoff tiny; norm_num
  rw [this, pow_one, show (1 : ℝ) + roundoff - 1 = roundoff by ring, mul_add]
  have h1 : 0 ≤ roundoff * |val x * val y| := mul_nonneg roundoff_pos.le (abs_nonneg _)
  have h2 : 0 ≤ roundoff * tiny := mul_nonneg roundoff_pos.le (by unfold tiny; positivity)
  exact max_le (by linarith) (by linarith)

/-- What is kept along a sum. -/
structure SumRel (P : Nat → F32 → ℝ → ℝ → Prop) : Prop where
  mono : ∀ {k j a A B}, P k a A B → k ≤ j → P j a A B
  zero : ∀ k, P k 0 0 0
  add : ∀ {k a b A B C D}, P k a A C → P k b B D → P (k + 1) (Ieee.add a b) (A + B) (C + D)

theorem sumRel_approx : SumRel Approx := ⟨Approx.mono, Approx.zero, Approx.add⟩

/-- The terms of a sum. -/
inductive Terms (P : Nat → F32 → ℝ → ℝ → Prop) (k : Nat) : List F32 → List ℝ → List ℝ → Prop
  | nil : Terms P k [] [] []
  | cons {a A B as As Bs} : P k a A B → Terms P k as As Bs → Terms P k (a :: as) (A :: As) (B :: Bs)

variable {P : Nat → F32 → ℝ → ℝ → Prop}

theorem Terms.mono (hP : SumRel P) {k j : Nat} {as : List F32} {As Bs : List ℝ} (h : Terms P k as As Bs) (hk : k ≤ j) : Terms P j as As Bs := by
  induction h with
  | nil => exact .nil
  | cons h _ ih => exact .cons (hP.mono h hk) ih

theorem Terms.foldl (hP : SumRel P) {k : Nat} {as : List F32} {As Bs : List ℝ} (h : Terms P k as As Bs) {a : F32} {A B : ℝ}
    (ha : P k a A B) : P (k + as.length) (as.foldl Ieee.add a) (A + As.sum) (B + Bs.sum) := by
  induction as generalizing a A B k As Bs with
  | nil => cases h; simpa using ha
  | cons b bs ih =>
    cases h with
    | cons h1 h2 =>
      have := ih (k := k + 1) (Terms.mono hP h2 (Nat.le_succ k)) (hP.add ha h1)
      simp only [List.length_cons, List.foldl_cons, List.sum_cons]
      rwa [show k + (bs.length + 1) = k + 1 + bs.length by omega, ← add_assoc, ← add_assoc]

theorem Terms.zip (hP : SumRel P) {k : Nat} {as bs : List F32} {As Bs Cs Ds : List ℝ} (h : Terms P k as As Bs) (h' : Terms P k bs Cs Ds) :
    Terms P (k + 1) (List.zipWith Ieee.add as bs) (List.zipWith (· + ·) As Cs) (List.zipWith (· + ·) Bs Ds) := by
  induction h generalizing bs Cs Ds with
  | nil => exact .nil
  | cons h1 _ ih =>
    cases h' with
    | nil => exact .nil
    | cons h3 h4 => exact .cons (hP.add h1 h3) (ih h4)

/-- The sum in the order of ndarray, from accumulators that took `k` roundings. -/
theorem unrolledSumF_approx (hP : SumRel P) (fuel : Nat) {k : Nat} {ps xs : List F32} {V V' X X' : List ℝ} (hp : Terms P k ps V V')
    (hx : Terms P k xs X X') (h8 : ps.length = 8) (hf : xs.length ≤ fuel) :
    P (k + xs.length / 8 + 12) (unrolledSumF fuel ps xs) (V.sum + X.sum) (V'.sum + X'.sum) := by
  have base : ∀ {k : Nat} {ps xs : List F32} {V V' X X' : List ℝ}, Terms P k ps V V' → Terms P k xs X X' → ps.length = 8 →
      xs.length < 8 → ∀ fuel, P (k + xs.length / 8 + 12) (unrolledSumF fuel ps xs) (V.sum + X.sum) (V'.sum + X'.sum) := by
    intro k ps xs V V' X X' hp hx h8 hl fuel
    match ps, h8, hp with
    | [p0, p1, p2, p3, p4, p5, p6, p7], _,
      .cons a0 (.cons a1 (.cons a2 (.cons a3 (.cons a4 (.cons a5 (.cons a6 (.cons a7 .nil))))))) =>
      have e : unrolledSumF fuel [p0, p1, p2, p3, p4, p5, p6, p7] xs =
          xs.foldl Ieee.add (Ieee.add (Ieee.add (Ieee.add (Ieee.add 0 (Ieee.add p0 p4)) (Ieee.add p1 p5)) (Ieee.add p2 p6)) (Ieee.add p3 p7)) := by
        unfold unrolledSumF
        split
        · simp only [List.length_cons] at hl; omega
        · next heq => grind
        · next h => exact absurd rfl (h _ _ _ _ _ _ _ _)
      rw [e]
      have q0 := hP.add (hP.zero (k + 1)) (hP.add a0 a4)
      have q1 := hP.add q0 (hP.mono (hP.add a1 a5) (Nat.le_succ (k + 1)))
      have q2 := hP.add q1 (hP.mono (hP.add a2 a6) (show k + 1 ≤ k + 3 by omega))
      have q3 := hP.add q2 (hP.mono (hP.add a3 a7) (show k + 1 ≤ k + 4 by omega))
      have q4 := Terms.foldl hP (Terms.mono hP hx (show k ≤ k + 5 by omega)) q3
      have q5 := hP.mono q4 (show k + 5 + xs.length ≤ k + xs.length / 8 + 12 by omega)
      refine cast ?_ q5
      congr 1 <;> simp only [List.sum_cons, List.sum_nil] <;> ring
  induction fuel generalizing k ps xs V V' X X' with
  | zero => exact base hp hx h8 (by omega) 0
  | succ fuel ih =>
    by_cases hl : xs.length < 8
    · exact base hp hx h8 hl _
    · have hex : ∃ x0 x1 x2 x3 x4 x5 x6 x7 ys, xs = x0 :: x1 :: x2 :: x3 :: x4 :: x5 :: x6 :: x7 :: ys := by
        rcases xs with _ | ⟨x0, _ | ⟨x1, _ | ⟨x2, _ | ⟨x3, _ | ⟨x4, _ | ⟨x5, _ | ⟨x6, _ | ⟨x7, ys⟩⟩⟩⟩⟩⟩⟩⟩ <;>
          first
            | exact ⟨_, _, _, _, _, _, _, _, _, rfl⟩
            | exact absurd (by simp) hl
      obtain ⟨x0, x1, x2, x3, x4, x5, x6, x7, ys, rfl⟩ := hex
      match hx with
      | .cons a0 (.cons a1 (.cons a2 (.cons a3 (.cons a4 (.cons a5 (.cons a6 (.cons a7 ht))))))) =>
        have hz := Terms.zip hP hp (.cons a0 (.cons a1 (.cons a2 (.cons a3 (.cons a4 (.cons a5 (.cons a6 (.cons a7 .nil))))))))
        have q := ih hz (Terms.mono hP ht (Nat.le_succ k)) (by simp [h8]) (by simp only [List.length_cons] at hf; omega)
        have e : unrolledSumF (fuel + 1) ps (x0 :: x1 :: x2 :: x3 :: x4 :: x5 :: x6 :: x7 :: ys) =
            unrolledSumF fuel (List.zipWith Ieee.add ps [x0, x1, x2, x3, x4, x5, x6, x7]) ys := by
          rw [unrolledSumF]
        rw [e]
        match ps, h8, hp with
        | [p0, p1, p2, p3, p4, p5, p6, p7], _,
          .cons b0 (.cons b1 (.cons b2 (.cons b3 (.cons b4 (.cons b5 (.cons b6 (.cons b7 .nil))))))) =>
          refine cast ?_ q
          simp only [List.length_cons, List.zipWith_cons_cons, List.zipWith_nil_right, List.sum_cons, List.sum_nil]
          rw [show k + (ys.length + 1 + 1 + 1 + 1 + 1 + 1 + 1 + 1) / 8 + 12 = k + 1 + ys.length / 8 + 12 by omega]
          congr 1 <;> ring

/-- The exact products, and their bounds. -/
noncomputable def prods (x y : List F32) : List ℝ := List.zipWith (fun a b => val a * val b) x y

theorem dot_terms (x y : List F32) :
    Terms Approx 1 (List.zipWith Ieee.mul x y) (prods x y) (List.zipWith (fun a b => |val a * val b| + tiny) x y) := by
  induction x generalizing y with
  | nil => exact .nil
  | cons a x ih =>
    cases y with
    | nil => exact .nil
    | cons b y => exact .cons (Approx.mul a b) (ih y)

theorem terms_replicate (hP : SumRel P) (k n : Nat) : Terms P k (List.replicate n 0) (List.replicate n 0) (List.replicate n 0) := by
  induction n with
  | zero => exact .nil
  | succ n ih => exact .cons (hP.zero k) ih

theorem sum_bound (x y : List F32) : (List.zipWith (fun a b => |val a * val b| + tiny) x y).sum =
    (List.zipWith (fun a b => |val a * val b|) x y).sum + (min x.length y.length : Nat) * tiny := by
  induction x generalizing y with
  | nil => simp
  | cons a x ih =>
    cases y with
    | nil => simp
    | cons b y =>
      simp only [List.zipWith_cons_cons, List.sum_cons, List.length_cons]
      rw [ih y, show min (x.length + 1) (y.length + 1) = min x.length y.length + 1 by omega]
      push_cast; ring

/-- The error of an inner product. -/
theorem unrolledDot_error {x y : List F32} (hf : Finite (unrolledDot x y)) :
    |val (unrolledDot x y) - (prods x y).sum| ≤ ((1 + roundoff) ^ (min x.length y.length / 8 + 13) - 1) *
      ((List.zipWith (fun a b => |val a * val b|) x y).sum + (min x.length y.length : Nat) * tiny) := by
  have h := unrolledSumF_approx sumRel_approx (List.zipWith Ieee.mul x y).length (terms_replicate sumRel_approx 1 8) (dot_terms x y) (by simp) le_rfl
  have : |val (unrolledDot x y) - _| ≤ _ := h.2 hf
  rw [sum_bound] at this
  simp only [List.sum_replicate, smul_zero, zero_add, List.length_zipWith] at this
  rwa [show 1 + min x.length y.length / 8 + 12 = min x.length y.length / 8 + 13 by omega] at this

/-- The error of a sum. -/
theorem unrolledSum_error {x : List F32} (hf : Finite (unrolledSum x)) :
    |val (unrolledSum x) - (x.map val).sum| ≤ ((1 + roundoff) ^ (x.length / 8 + 12) - 1) * (x.map fun a => |val a|).sum := by
  have ht : Terms Approx 0 x (x.map val) (x.map fun a => |val a|) := by
    clear hf
    induction x with
    | nil => exact .nil
    | cons a x ih => exact .cons ⟨le_rfl, fun _ => by simp⟩ ih
  have h := unrolledSumF_approx sumRel_approx x.length (terms_replicate sumRel_approx 0 8) ht (by simp) le_rfl
  have : |val (unrolledSum x) - _| ≤ _ := h.2 hf
  simpa using this

/-! ## Small sums are finite -/

theorem add_finite_of {x y : F32} (hx : Finite x) (hy : Finite y) (h : |val x + val y| ≤ 2 ^ 127) : Finite (Ieee.add x y) := by
  rw [add_finite_eq hx hy]
  split
  · unfold Finite; rw [pack_mag (by decide)]; decide
  · refine finite_pack_of (by norm_num) ?_
    have hv : val x + val y = ((units x + units y : Int) : ℝ) / 2 ^ 149 := by
      unfold val; push_cast; ring
    rw [hv, abs_div] at h
    rw [Nat.cast_natAbs, Nat.cast_one, div_one, Int.cast_abs]
    refine le_trans (le_of_eq ?_) h
    congr 1
    exact (abs_of_nonneg (by positivity)).symm

/-- As `Approx`, if the bound is small also finite. -/
def Safe (k : Nat) (a : F32) (A B : ℝ) : Prop := Approx k a A B ∧ ((1 + roundoff) ^ k * B ≤ 2 ^ 100 → Finite a)

theorem one_le_growth (k : Nat) : (1 : ℝ) ≤ (1 + roundoff) ^ k := one_le_pow₀ (by have := roundoff_pos; linarith)

theorem Approx.abs_le {k : Nat} {a : F32} {A B : ℝ} (h : Approx k a A B) (hf : Finite a) : |val a| ≤ (1 + roundoff) ^ k * B := by
  have h1 := h.2 hf
  have h2 := h.1
  have : |val a| ≤ |val a - A| + |A| := by
    have := abs_add_le (val a - A) A
    rwa [sub_add_cancel] at this
  linarith

theorem sumRel_safe : SumRel Safe := by
  constructor
  · intro k j a A B h hk
    refine ⟨h.1.mono hk, fun hb => h.2 (le_trans ?_ hb)⟩
    have hB : 0 ≤ B := le_trans (abs_nonneg A) h.1.1
    exact mul_le_mul_of_nonneg_right (pow_le_pow_right₀ (by have := roundoff_pos; linarith) hk) hB
  · intro k
    exact ⟨Approx.zero k, fun _ => by unfold Finite; decide⟩
  · intro k a b A B C D h1 h2
    refine ⟨h1.1.add h2.1, fun hb => ?_⟩
    have hC : 0 ≤ C := le_trans (abs_nonneg A) h1.1.1
    have hD : 0 ≤ D := le_trans (abs_nonneg B) h2.1.1
    have hu := roundoff_pos
    have g := one_le_growth k
    have hs : (1 + roundoff) ^ k * (C + D) ≤ 2 ^ 100 := by
      refine le_trans ?_ hb
      rw [pow_succ]
      have : 0 ≤ (1 + roundoff) ^ k * (C + D) * roundoff := by positivity
      nlinarith
    have hc : 0 ≤ (1 + roundoff) ^ k * C := by positivity
    have hd : 0 ≤ (1 + roundoff) ^ k * D := by positivity
    have fa := h1.2 (by linarith)
    have fb := h2.2 (by linarith)
    refine add_finite_of fa fb (le_trans (abs_add_le _ _) ?_)
    have := h1.1.abs_le fa
    have := h2.1.abs_le fb
    refine le_trans (show _ ≤ (2 : ℝ) ^ 100 by linarith) (by norm_num)

theorem dot_terms_safe {x y : List F32} (hx : ∀ a ∈ x, Finite a) (hy : ∀ b ∈ y, Finite b) :
    Terms Safe 1 (List.zipWith Ieee.mul x y) (prods x y) (List.zipWith (fun a b => |val a * val b| + tiny) x y) := by
  induction x generalizing y with
  | nil => exact .nil
  | cons a x ih =>
    cases y with
    | nil => exact .nil
    | cons b y =>
      refine .cons ⟨Approx.mul a b, fun h => ?_⟩
        (ih (fun c hc => hx c (List.mem_cons_of_mem a hc)) (fun c hc => hy c (List.mem_cons_of_mem b hc)))
      refine mul_finite_of (hx a List.mem_cons_self) (hy b List.mem_cons_self) ?_
      have h0 : 0 ≤ tiny := by unfold tiny; positivity
      have h1 := abs_nonneg (val a * val b)
      have hu := roundoff_pos
      rw [pow_one] at h
      refine le_trans (show _ ≤ (2 : ℝ) ^ 100 by nlinarith) (by norm_num)

/-- Inner products of vectors that are not too large are finite. -/
theorem unrolledDot_safe {x y : List F32} (hx : ∀ a ∈ x, Finite a) (hy : ∀ b ∈ y, Finite b)
    (h : (1 + roundoff) ^ (min x.length y.length / 8 + 13) *
      ((List.zipWith (fun a b => |val a * val b|) x y).sum + (min x.length y.length : Nat) * tiny) ≤ 2 ^ 100) :
    Finite (unrolledDot x y) := by
  have hs := unrolledSumF_approx sumRel_safe (List.zipWith Ieee.mul x y).length (terms_replicate sumRel_safe 1 8)
    (dot_terms_safe hx hy) (by simp) le_rfl
  refine hs.2 ?_
  rw [sum_bound]
  simp only [List.sum_replicate, smul_zero, zero_add, List.length_zipWith]
  rwa [show 1 + min x.length y.length / 8 + 12 = min x.length y.length / 8 + 13 by omega]

theorem foldl_finite {as : List F32} {a : F32} (h : Finite (as.foldl Ieee.add a)) : Finite a ∧ ∀ x ∈ as, Finite x := by
  induction as generalizing a with
  | nil => exact ⟨h, by simp⟩
  | cons b bs ih =>
    obtain ⟨h1, h2⟩ := ih h
    obtain ⟨h3, h4⟩ := add_finite h1
    exact ⟨h3, by simpa using ⟨h4, h2⟩⟩

theorem unrolledSumF_finite (fuel : Nat) {ps xs : List F32} (h8 : ps.length = 8) (h : Finite (unrolledSumF fuel ps xs)) :
    (∀ p ∈ ps, Finite p) ∧ ∀ x ∈ xs, Finite x := by
  induction fuel, ps, xs using unrolledSumF.induct with
  | case1 fuel ps x0 x1 x2 x3 x4 x5 x6 x7 xs ih =>
    rw [unrolledSumF] at h
    obtain ⟨h1, h2⟩ := ih (by simp [h8]) h
    match ps, h8 with
    | [p0, p1, p2, p3, p4, p5, p6, p7], _ =>
      simp only [List.zipWith_cons_cons, List.zipWith_nil_right, List.mem_cons, List.not_mem_nil, or_false, forall_eq_or_imp,
        forall_eq] at h1 ⊢
      obtain ⟨a0, a1, a2, a3, a4, a5, a6, a7⟩ := h1
      exact ⟨⟨(add_finite a0).1, (add_finite a1).1, (add_finite a2).1, (add_finite a3).1, (add_finite a4).1, (add_finite a5).1,
        (add_finite a6).1, (add_finite a7).1⟩, (add_finite a0).2, (add_finite a1).2, (add_finite a2).2, (add_finite a3).2,
        (add_finite a4).2, (add_finite a5).2, (add_finite a6).2, (add_finite a7).2, h2⟩
  | case2 n xs p0 p1 p2 p3 p4 p5 p6 p7 hne =>
    rw [unrolledSumF] at h
    · obtain ⟨h1, h2⟩ := foldl_finite h
      refine ⟨?_, h2⟩
      obtain ⟨h3, a3⟩ := add_finite h1
      obtain ⟨h4, a2⟩ := add_finite h3
      obtain ⟨h5, a1⟩ := add_finite h4
      obtain ⟨h6, a0⟩ := add_finite h5
      simp only [List.mem_cons, List.not_mem_nil, or_false, forall_eq_or_imp, forall_eq]
      exact ⟨(add_finite a0).1, (add_finite a1).1, (add_finite a2).1, (add_finite a3).1, (add_finite a0).2, (add_finite a1).2,
        (add_finite a2).2, (add_finite a3).2⟩
    · exact hne
  | case3 n ps xs h1 h2 =>
    match ps, h8 with
    | [p0, p1, p2, p3, p4, p5, p6, p7], _ => exact absurd rfl (h1 _ _ _ _ _ _ _ _)

/-- An inner product is only finite if all components are. -/
theorem unrolledDot_finite {x y : List F32} (h : Finite (unrolledDot x y)) (hl : x.length = y.length) :
    (∀ a ∈ x, Finite a) ∧ ∀ b ∈ y, Finite b := by
  obtain ⟨_, h1⟩ := unrolledSumF_finite _ (by simp) h
  clear h
  induction x generalizing y with
  | nil => cases y with
    | nil => simp
    | cons b y => simp at hl
  | cons a x ih =>
    cases y with
    | nil => simp at hl
    | cons b y =>
      simp only [List.zipWith_cons_cons, List.mem_cons, forall_eq_or_imp] at h1 ⊢
      obtain ⟨h2, h3⟩ := mul_finite h1.1
      obtain ⟨h4, h5⟩ := ih (by simpa using hl) h1.2
      exact ⟨⟨h2, h4⟩, h3, h5⟩

theorem sqrt_spec' {x : F32} (hf : Finite (sqrt x)) : |val (sqrt x) - Real.sqrt (val x)| ≤ roundoff * Real.sqrt (val x) := by
  obtain ⟨hx, hp⟩ := sqrt_finite hf
  by_cases h0 : f32Mag x = 0
  · have e : sqrt x = x := by
      unfold sqrt
      rw [hx.notNan]; simp [h0]
    rw [e, val_eq_zero.mpr h0]; simp
  · exact sqrt_spec hx h0 (hp.resolve_left h0) hf

end Ieee
end FF
