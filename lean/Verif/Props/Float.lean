import Mathlib.Algebra.Order.Ring.Pow
import Verif.Lemmas.FloatMono
import Verif.Props.Measures

/-!
# Normalisation and similarity measures in single precision (C76, C77)
-/

namespace FF
namespace Ieee

/-! ## Auxiliary inequalities -/

/-- `k` roundings. -/
theorem growth {k : Nat} (hk : (k : ℝ) * roundoff ≤ 1 / 100) : (1 + roundoff) ^ k - 1 ≤ 1.02 * (k * roundoff) := by
  have hu := roundoff_pos
  have hu1 : roundoff ≤ 1 / 100 := by unfold roundoff; norm_num
  generalize roundoff = u at *
  have h1 : 1 + (k : ℝ) * (-u) ≤ (1 + -u) ^ k := one_add_mul_le_pow (by linarith) k
  have h2 : (1 + u) ^ k * (1 + -u) ^ k ≤ 1 := by
    rw [← mul_pow]
    exact pow_le_one₀ (by nlinarith) (by nlinarith)
  have h3 : (0 : ℝ) ≤ (1 + u) ^ k := by positivity
  have ht : 0 ≤ (k : ℝ) * u := by positivity
  rw [mul_neg] at h1
  generalize (k : ℝ) * u = t at *
  have h4 : (1 + u) ^ k * (1 - t) ≤ 1 := by
    have : (1 + u) ^ k * (1 - t) ≤ (1 + u) ^ k * (1 + -u) ^ k := mul_le_mul_of_nonneg_left (by linarith) h3
    linarith
  generalize (1 + u) ^ k = g at *
  nlinarith

/-- What one rounding of a root of a sum of squares does. -/
theorem norm_core {S D N g e t u : ℝ} (hu : u = 1 / 2 ^ 24) (hS : 0 ≤ S) (hD : 0 ≤ D) (ht0 : 0 ≤ t) (ht : t ≤ 1 / 100)
    (hg0 : 0 ≤ g) (hg : g ≤ 1.02 * t) (he0 : 0 ≤ e) (he : e ≤ 1 / 2 ^ 106) (h1 : |D - S| ≤ g * (S + e))
    (h2 : |N - Real.sqrt D| ≤ u * Real.sqrt D) (hN : 1 / 2 ^ 32 ≤ N) :
    0 < S ∧ (1 - 1.03 * t) * (1 - 2 * u) * S ≤ N ^ 2 ∧ N ^ 2 ≤ (1 + 1.03 * t) * (1 + 3 * u) * S := by
  have hr := Real.sq_sqrt hD
  have hr0 := Real.sqrt_nonneg D
  generalize Real.sqrt D = r at *
  rw [abs_le] at h1 h2
  have hr1 : 1 / 2 ^ 33 ≤ r := by rw [hu] at h2; norm_num at *; linarith
  have hD1 : 1 / 2 ^ 66 ≤ D := by
    rw [← hr]
    calc (1 : ℝ) / 2 ^ 66 = (1 / 2 ^ 33) ^ 2 := by norm_num
      _ ≤ r ^ 2 := pow_le_pow_left₀ (by positivity) hr1 2
  have hg1 : g ≤ 1 / 50 := by linarith
  have hge : g * e ≤ 1 / 2 ^ 106 := by nlinarith
  have hS1 : 1 / 2 ^ 67 ≤ S := by
    norm_num at *
    nlinarith
  have heS : e ≤ u * S := by
    rw [hu]; norm_num at *; linarith
  have hgt : g * (S + e) ≤ 1.03 * t * S := by
    have h3 : S + e ≤ (1 + u) * S := by linarith
    have h4 : g * (S + e) ≤ 1.02 * t * ((1 + u) * S) := mul_le_mul hg h3 (by linarith) (by linarith)
    have h5 : 1.02 * t * ((1 + u) * S) = (1.02 * (1 + u)) * (t * S) := by ring
    have h6 : 0 ≤ t * S := mul_nonneg ht0 hS
    have h7 : 1.02 * (1 + u) ≤ 1.03 := by rw [hu]; norm_num
    nlinarith
  have hSp : 0 < S := lt_of_lt_of_le (by positivity) hS1
  have hu0 : 0 < u := by rw [hu]; positivity
  have hu1 : u ≤ 1 / 1000 := by rw [hu]; norm_num
  refine ⟨hSp, ?_, ?_⟩
  · have h8 : (1 - u) * r ≤ N := by linarith
    have h9 : ((1 - u) * r) ^ 2 ≤ N ^ 2 := pow_le_pow_left₀ (mul_nonneg (by linarith) hr0) h8 2
    have h10 : (1 - u) ^ 2 * D ≤ N ^ 2 := by rw [mul_pow, hr] at h9; exact h9
    have h11 : (1 - 1.03 * t) * S ≤ D := by linarith
    have h12 : (1 - 2 * u) * ((1 - 1.03 * t) * S) ≤ (1 - u) ^ 2 * D :=
      mul_le_mul (by nlinarith) h11 (mul_nonneg (by linarith) hS) (sq_nonneg _)
    linarith
  · have h8 : N ≤ (1 + u) * r := by linarith
    have h9 : N ^ 2 ≤ ((1 + u) * r) ^ 2 := pow_le_pow_left₀ (le_trans (by positivity) hN) h8 2
    have h10 : N ^ 2 ≤ (1 + u) ^ 2 * D := by rw [mul_pow, hr] at h9; exact h9
    have h11 : D ≤ (1 + 1.03 * t) * S := by linarith
    have h12 : (1 + u) ^ 2 * D ≤ (1 + 3 * u) * ((1 + 1.03 * t) * S) :=
      mul_le_mul (by nlinarith) h11 hD (by linarith)
    linarith

theorem prods_self (v : List F32) : (prods v v).sum = sumSquares (v.map val) := by
  unfold prods sumSquares
  congr 1
  induction v with
  | nil => rfl
  | cons x v ih => simp only [List.zipWith_cons_cons, List.map_cons, ih]; rw [pow_two]

theorem abs_prods_self (v : List F32) : (List.zipWith (fun a b => |val a * val b|) v v).sum = sumSquares (v.map val) := by
  unfold sumSquares
  congr 1
  induction v with
  | nil => rfl
  | cons x v ih => simp only [List.zipWith_cons_cons, List.map_cons, ih]; rw [abs_mul_self, pow_two]

theorem val_nonneg_of {x : F32} (h : f32Mag x = 0 ∨ isNeg x = false) : 0 ≤ val x := by
  rcases h with h | h
  · exact le_of_eq (val_eq_zero.mpr h).symm
  · rw [val_eq, h]; simp only [Bool.false_eq_true, if_false]; positivity

attribute [local instance] scalar

/-- The computed norm: everything that the bounds need. -/
theorem norm_facts {v : List F32} (hl : v.length ≤ 2 ^ 20) (hf : Finite (l2Normalize v).2)
    (hn : 1 / 2 ^ 32 ≤ val (l2Normalize v).2) :
    let t := ((v.length / 8 + 13 : Nat) : ℝ) * roundoff
    let S := sumSquares (v.map val)
    0 ≤ t ∧ t ≤ 1 / 100 ∧ 0 < S ∧
    (1 - 1.03 * t) * (1 - 2 * roundoff) * S ≤ val (l2Normalize v).2 ^ 2 ∧
    val (l2Normalize v).2 ^ 2 ≤ (1 + 1.03 * t) * (1 + 3 * roundoff) * S := by
  have hN : (l2Normalize v).2 = sqrt (unrolledDot v v) := rfl
  rw [hN] at *
  obtain ⟨hd, hp⟩ := sqrt_finite hf
  have h1 := unrolledDot_error hd
  rw [prods_self, abs_prods_self, Nat.min_self] at h1
  have h2 := sqrt_spec' hf
  have hu := roundoff_pos
  have ht0 : 0 ≤ ((v.length / 8 + 13 : Nat) : ℝ) * roundoff := by positivity
  have ht : ((v.length / 8 + 13 : Nat) : ℝ) * roundoff ≤ 1 / 100 := by
    have : v.length / 8 + 13 ≤ 2 ^ 17 + 13 := by omega
    have : ((v.length / 8 + 13 : Nat) : ℝ) ≤ ((2 ^ 17 + 13 : Nat) : ℝ) := by exact_mod_cast this
    have h3 : ((v.length / 8 + 13 : Nat) : ℝ) * roundoff ≤ ((2 ^ 17 + 13 : Nat) : ℝ) * roundoff :=
      mul_le_mul_of_nonneg_right this hu.le
    refine le_trans h3 ?_
    unfold roundoff; norm_num
  have hg := growth ht
  have hg0 : 0 ≤ (1 + roundoff) ^ (v.length / 8 + 13) - 1 := by
    have := one_le_pow₀ (n := v.length / 8 + 13) (show (1 : ℝ) ≤ 1 + roundoff by linarith)
    linarith
  have he0 : 0 ≤ (v.length : ℝ) * tiny := by unfold tiny; positivity
  have he : (v.length : ℝ) * tiny ≤ 1 / 2 ^ 106 := by
    have : (v.length : ℝ) ≤ 2 ^ 20 := by exact_mod_cast hl
    have : (v.length : ℝ) * tiny ≤ 2 ^ 20 * tiny := mul_le_mul_of_nonneg_right this (by unfold tiny; positivity)
    refine le_trans this ?_
    unfold tiny; norm_num
  have hc := norm_core (u := roundoff) rfl (sumSquares_nonneg _) (val_nonneg_of hp) ht0 ht hg0 hg he0 he h1 h2 hn
  exact ⟨ht0, ht, hc.1, hc.2.1, hc.2.2⟩

/-- **C76.** The norm that `l2_normalize` returns is close to the Euclidean norm. -/
theorem c76_norm {v : List F32} (hl : v.length ≤ 2 ^ 20) (hf : Finite (l2Normalize v).2)
    (hn : 1 / 2 ^ 32 ≤ val (l2Normalize v).2) :
    |val (l2Normalize v).2 - euclideanNorm (v.map val)| ≤
      ((v.length / 8 + 20 : Nat) : ℝ) / 2 ^ 24 * euclideanNorm (v.map val) := by
  obtain ⟨ht0, ht, hS, hlo, hhi⟩ := norm_facts hl hf hn
  have hN0 : 0 ≤ val (l2Normalize v).2 := le_trans (by positivity) hn
  generalize val (l2Normalize v).2 = N at *
  unfold euclideanNorm
  generalize sumSquares (v.map val) = S at *
  have hr := Real.sq_sqrt hS.le
  have hr0 := Real.sqrt_nonneg S
  generalize Real.sqrt S = r at *
  have hc : ((v.length / 8 + 20 : Nat) : ℝ) / 2 ^ 24 = ((v.length / 8 + 13 : Nat) : ℝ) * roundoff + 7 * roundoff := by
    unfold roundoff; push_cast; ring
  rw [hc]
  generalize ((v.length / 8 + 13 : Nat) : ℝ) * roundoff = t at *
  have hu := roundoff_pos
  have hu1 : roundoff ≤ 1 / 1000000 := by unfold roundoff; norm_num
  generalize roundoff = u at *
  rw [← hr] at hlo hhi
  rw [abs_le]
  constructor
  · have h : ((1 - (t + 7 * u)) * r) ^ 2 ≤ N ^ 2 := by
      refine le_trans ?_ hlo
      rw [mul_pow]
      refine mul_le_mul_of_nonneg_right ?_ (sq_nonneg r)
      nlinarith
    have := abs_le_of_sq_le_sq' h hN0
    linarith [this.2]
  · have h : N ^ 2 ≤ ((1 + (t + 7 * u)) * r) ^ 2 := by
      refine le_trans hhi ?_
      rw [mul_pow]
      refine mul_le_mul_of_nonneg_right ?_ (sq_nonneg r)
      nlinarith
    have := abs_le_of_sq_le_sq' h (mul_nonneg (by linarith) hr0)
    linarith [this.2]

/-- Sums of squares of close numbers are close. -/
theorem squares_close {α : Type} (f g : α → ℝ) (u h : ℝ) (hu0 : 0 ≤ u) (hu : u ≤ 1 / 1000) (hh0 : 0 ≤ h) (hh : h ≤ 1 / 1000)
    (v : List α) (h1 : ∀ x ∈ v, |f x - g x| ≤ u * |g x| + h) (h2 : ∀ x ∈ v, |g x| ≤ 2) :
    |sumSquares (v.map f) - sumSquares (v.map g)| ≤ 3 * u * sumSquares (v.map g) + v.length * (5 * h) := by
  induction v with
  | nil => simp [sumSquares]
  | cons x v ih =>
    have ih' := ih (fun y hy => h1 y (List.mem_cons_of_mem x hy)) (fun y hy => h2 y (List.mem_cons_of_mem x hy))
    have a1 := h1 x List.mem_cons_self
    have a2 := h2 x List.mem_cons_self
    have e : ∀ k : α → ℝ, sumSquares ((x :: v).map k) = k x ^ 2 + sumSquares (v.map k) := fun k => by simp [sumSquares]
    rw [e, e, List.length_cons]
    have a3 : |f x ^ 2 - g x ^ 2| ≤ 3 * u * g x ^ 2 + 5 * h := by
      have q1 : f x ^ 2 - g x ^ 2 = (f x - g x) * (f x - g x + 2 * g x) := by ring
      rw [q1, abs_mul]
      have q2 : |f x - g x + 2 * g x| ≤ u * |g x| + h + 2 * |g x| := by
        have := abs_add_le (f x - g x) (2 * g x)
        rw [abs_mul, abs_two] at this
        linarith
      have q3 : g x ^ 2 = |g x| ^ 2 := (sq_abs _).symm
      rw [q3]
      have q0 := abs_nonneg (g x)
      have q4 : |f x - g x| * |f x - g x + 2 * g x| ≤ (u * |g x| + h) * (u * |g x| + h + 2 * |g x|) :=
        mul_le_mul a1 q2 (abs_nonneg _) (by positivity)
      refine le_trans q4 ?_
      generalize |g x| = w at *
      have r1 : u * u ≤ u := by nlinarith
      have r2 : h * h ≤ h * (1 / 1000) := by nlinarith
      have r3 : h * w ≤ h * 2 := by nlinarith
      have r4 : u * (h * w) ≤ 1 / 1000 * (h * w) := mul_le_mul_of_nonneg_right hu (by positivity)
      have r5 : u * u * w ^ 2 ≤ u * w ^ 2 := mul_le_mul_of_nonneg_right r1 (by positivity)
      nlinarith
    have a4 : f x ^ 2 + sumSquares (v.map f) - (g x ^ 2 + sumSquares (v.map g)) =
        (f x ^ 2 - g x ^ 2) + (sumSquares (v.map f) - sumSquares (v.map g)) := by ring
    rw [a4]
    refine le_trans (abs_add_le _ _) ?_
    push_cast
    linarith

theorem sq_le_sumSquares {v : List ℝ} {x : ℝ} (h : x ∈ v) : x ^ 2 ≤ sumSquares v := by
  induction v with
  | nil => simp at h
  | cons y v ih =>
    have e : sumSquares (y :: v) = y ^ 2 + sumSquares v := by simp [sumSquares]
    rw [e]
    rcases List.mem_cons.mp h with h | h
    · have := sumSquares_nonneg v
      rw [h]; linarith
    · have := ih h
      have := sq_nonneg y
      linarith

/-- The components that `l2_normalize` computes. -/
theorem component_facts {v : List F32} (hl : v.length ≤ 2 ^ 20) (hf : Finite (l2Normalize v).2)
    (hn : 1 / 2 ^ 32 ≤ val (l2Normalize v).2) :
    f32Mag (l2Normalize v).2 ≠ 0 ∧ (l2Normalize v).1 = v.map (fun x => div x (l2Normalize v).2) ∧
    ∀ x ∈ v, Finite x ∧ Finite (div x (l2Normalize v).2) ∧ |val x / val (l2Normalize v).2| ≤ 2 ∧
      |val (div x (l2Normalize v).2) - val x / val (l2Normalize v).2| ≤
        roundoff * |val x / val (l2Normalize v).2| + 1 / 2 ^ 150 := by
  have hfacts := norm_facts hl hf hn
  have hd : Finite (unrolledDot v v) := (sqrt_finite hf).1
  have hfin := (unrolledDot_finite hd rfl).1
  have hN0 : 0 < val (l2Normalize v).2 := lt_of_lt_of_le (by positivity) hn
  have hm : f32Mag (l2Normalize v).2 ≠ 0 := fun h => by
    rw [val_eq_zero.mpr h] at hN0; exact lt_irrefl _ hN0
  refine ⟨hm, ?_, fun x hx => ?_⟩
  · show (if (f32Mag (l2Normalize v).2 == 0) = true then v else _) = _
    rw [if_neg (by simpa using hm)]
    rfl
  · obtain ⟨ht0, ht, hS, hlo, _⟩ := hfacts
    have hsq := sq_le_sumSquares (List.mem_map_of_mem (f := val) hx)
    generalize (l2Normalize v).2 = N at *
    generalize sumSquares (v.map val) = S at *
    generalize ((v.length / 8 + 13 : Nat) : ℝ) * roundoff = t at *
    have hu1 : roundoff ≤ 1 / 1000000 := by unfold roundoff; norm_num
    have hu := roundoff_pos
    have h1 : val x ^ 2 ≤ (2 * val N) ^ 2 := by
      refine le_trans hsq ?_
      have : (1 - 1.03 * t) * (1 - 2 * roundoff) ≥ 1 / 4 := by nlinarith
      nlinarith
    have h2 : |val x / val N| ≤ 2 := by
      rw [abs_div, abs_of_pos hN0, div_le_iff₀ hN0]
      exact abs_le_of_sq_le_sq h1 (by linarith)
    have h3 := div_finite_of (hfin x hx) hf hm (le_trans h2 (by norm_num))
    refine ⟨hfin x hx, h3, h2, le_trans (div_spec (hfin x hx) hf hm h3) ?_⟩
    have : 0 ≤ roundoff * |val x / val N| := mul_nonneg hu.le (abs_nonneg _)
    exact max_le (by have : (0 : ℝ) ≤ 1 / 2 ^ 150 := by positivity
                     linarith) (by linarith)

/-- **C76.** The vector that `l2_normalize` leaves has a norm close to one. -/
theorem c76_unit {v : List F32} (hl : v.length ≤ 2 ^ 20) (hf : Finite (l2Normalize v).2)
    (hn : 1 / 2 ^ 32 ≤ val (l2Normalize v).2) :
    (∀ x ∈ (l2Normalize v).1, Finite x) ∧
    |euclideanNorm ((l2Normalize v).1.map val) - 1| ≤ ((v.length / 8 + 20 : Nat) : ℝ) / 2 ^ 23 := by
  obtain ⟨hm, he, hc⟩ := component_facts hl hf hn
  obtain ⟨ht0, ht, hS, hlo, hhi⟩ := norm_facts hl hf hn
  have hN0 : 0 < val (l2Normalize v).2 := lt_of_lt_of_le (by positivity) hn
  rw [he, List.map_map]
  constructor
  · intro x hx
    obtain ⟨y, hy, rfl⟩ := List.mem_map.mp hx
    exact (hc y hy).2.1
  have hu := roundoff_pos
  have hu1 : roundoff ≤ 1 / 1000000 := by unfold roundoff; norm_num
  have hq := squares_close (fun x => val (div x (l2Normalize v).2)) (fun x => val x / val (l2Normalize v).2) roundoff (1 / 2 ^ 150)
    hu.le (by linarith) (by positivity) (by norm_num) v (fun x hx => (hc x hx).2.2.2) (fun x hx => (hc x hx).2.2.1)
  have hW : sumSquares (v.map fun x => val x / val (l2Normalize v).2) =
      sumSquares (v.map val) / val (l2Normalize v).2 ^ 2 := by
    generalize val (l2Normalize v).2 = N
    clear hq hc he hlo hhi ht0 ht hS hm hN0 hf hn hl
    induction v with
    | nil => simp [sumSquares]
    | cons x v ih =>
      have e : ∀ k : F32 → ℝ, sumSquares ((x :: v).map k) = k x ^ 2 + sumSquares (v.map k) := fun k => by simp [sumSquares]
      rw [e, e, ih, div_pow, add_div]
  rw [hW] at hq
  have hlen : (v.length : ℝ) * (5 * (1 / 2 ^ 150)) ≤ roundoff := by
    have : (v.length : ℝ) ≤ 2 ^ 20 := by exact_mod_cast hl
    have : (v.length : ℝ) * (5 * (1 / 2 ^ 150)) ≤ 2 ^ 20 * (5 * (1 / 2 ^ 150)) := mul_le_mul_of_nonneg_right this (by positivity)
    refine le_trans this ?_
    unfold roundoff; norm_num
  have hU0 := sumSquares_nonneg (v.map fun x => val (div x (l2Normalize v).2))
  have hcomp : (val ∘ fun x => div x (l2Normalize v).2) = fun x => val (div x (l2Normalize v).2) := rfl
  rw [hcomp]
  unfold euclideanNorm
  generalize sumSquares (v.map fun x => val (div x (l2Normalize v).2)) = U at *
  generalize val (l2Normalize v).2 = N at *
  generalize sumSquares (v.map val) = S at *
  have hcst : ((v.length / 8 + 20 : Nat) : ℝ) / 2 ^ 23 = 2 * (((v.length / 8 + 13 : Nat) : ℝ) * roundoff) + 14 * roundoff := by
    unfold roundoff; push_cast; ring
  rw [hcst]
  generalize ((v.length / 8 + 13 : Nat) : ℝ) * roundoff = t at *
  generalize roundoff = u at *
  have hN2 : 0 < N ^ 2 := by positivity
  have hWlo : 1 - 1.06 * t - 4 * u ≤ S / N ^ 2 := by
    rw [le_div_iff₀ hN2]
    by_cases hneg : 0 ≤ 1 - 1.06 * t - 4 * u
    · have : (1 - 1.06 * t - 4 * u) * N ^ 2 ≤ (1 - 1.06 * t - 4 * u) * ((1 + 1.03 * t) * (1 + 3 * u) * S) :=
        mul_le_mul_of_nonneg_left hhi hneg
      have h2 : (1 - 1.06 * t - 4 * u) * ((1 + 1.03 * t) * (1 + 3 * u)) ≤ 1 := by nlinarith [mul_nonneg ht0 hu.le]
      nlinarith
    · nlinarith
  have hWhi : S / N ^ 2 ≤ 1 + 1.06 * t + 4 * u := by
    rw [div_le_iff₀ hN2]
    have h2 : 1 ≤ (1 + 1.06 * t + 4 * u) * ((1 - 1.03 * t) * (1 - 2 * u)) := by nlinarith [mul_nonneg ht0 hu.le]
    have : (1 + 1.06 * t + 4 * u) * ((1 - 1.03 * t) * (1 - 2 * u) * S) ≤ (1 + 1.06 * t + 4 * u) * N ^ 2 :=
      mul_le_mul_of_nonneg_left hlo (by linarith)
    nlinarith
  generalize S / N ^ 2 = W at *
  have hU : |U - 1| ≤ 1.06 * t + 9 * u := by
    rw [abs_le] at hq ⊢
    constructor <;> nlinarith
  have hr := Real.sq_sqrt hU0
  have hr0 := Real.sqrt_nonneg U
  generalize Real.sqrt U = r at *
  have h3 : |r - 1| ≤ |U - 1| := by
    have : U - 1 = (r - 1) * (r + 1) := by rw [← hr]; ring
    rw [this, abs_mul, abs_of_nonneg (show 0 ≤ r + 1 by linarith)]
    nlinarith [abs_nonneg (r - 1)]
  linarith

theorem length_growth {n : Nat} (hl : n ≤ 2 ^ 20) : ((n / 8 + 13 : Nat) : ℝ) * roundoff ≤ 1 / 100 := by
  have : n / 8 + 13 ≤ 2 ^ 17 + 13 := by omega
  have : ((n / 8 + 13 : Nat) : ℝ) ≤ ((2 ^ 17 + 13 : Nat) : ℝ) := by exact_mod_cast this
  have h3 : ((n / 8 + 13 : Nat) : ℝ) * roundoff ≤ ((2 ^ 17 + 13 : Nat) : ℝ) * roundoff :=
    mul_le_mul_of_nonneg_right this roundoff_pos.le
  refine le_trans h3 ?_
  unfold roundoff; norm_num

theorem length_tiny {n : Nat} (hl : n ≤ 2 ^ 20) : (n : ℝ) * tiny ≤ 1 / 2 ^ 106 := by
  have : (n : ℝ) ≤ 2 ^ 20 := by exact_mod_cast hl
  have : (n : ℝ) * tiny ≤ 2 ^ 20 * tiny := mul_le_mul_of_nonneg_right this (by unfold tiny; positivity)
  refine le_trans this ?_
  unfold tiny; norm_num

theorem length_pow {n : Nat} (hl : n ≤ 2 ^ 20) : (1 + roundoff) ^ (n / 8 + 13) ≤ 1.02 := by
  have h1 := growth (length_growth hl)
  have h2 := length_growth hl
  linarith

/-- **C76.** The computed norm is finite, and not too small, unless the Euclidean norm is very large or very small. -/
theorem c76_finite {v : List F32} (hl : v.length ≤ 2 ^ 20) (hv : ∀ x ∈ v, Finite x)
    (hlo : 1 / 2 ^ 31 ≤ euclideanNorm (v.map val)) (hhi : euclideanNorm (v.map val) ≤ 2 ^ 49) :
    Finite (l2Normalize v).2 ∧ 1 / 2 ^ 32 ≤ val (l2Normalize v).2 := by
  have hS0 := sumSquares_nonneg (v.map val)
  have hsq := Real.sq_sqrt hS0
  have hSlo : 1 / 2 ^ 62 ≤ sumSquares (v.map val) := by
    rw [← hsq]
    calc (1 : ℝ) / 2 ^ 62 = (1 / 2 ^ 31) ^ 2 := by norm_num
      _ ≤ _ := pow_le_pow_left₀ (by positivity) hlo 2
  have hShi : sumSquares (v.map val) ≤ 2 ^ 98 := by
    rw [← hsq]
    calc _ ≤ ((2 : ℝ) ^ 49) ^ 2 := pow_le_pow_left₀ (Real.sqrt_nonneg _) hhi 2
      _ = 2 ^ 98 := by norm_num
  have he := length_tiny hl
  have hp := length_pow hl
  have hg := growth (length_growth hl)
  have hgt := length_growth hl
  have he0 : 0 ≤ (v.length : ℝ) * tiny := by unfold tiny; positivity
  have g1 := one_le_growth (v.length / 8 + 13)
  have hd : Finite (unrolledDot v v) := unrolledDot_safe hv hv (by
    rw [Nat.min_self, abs_prods_self]
    generalize sumSquares (v.map val) = S at *
    generalize (v.length : ℝ) * tiny = e at *
    generalize (1 + roundoff) ^ (v.length / 8 + 13) = g at *
    have : g * (S + e) ≤ 1.02 * (2 ^ 98 + 1 / 2 ^ 106) := mul_le_mul hp (by linarith) (by linarith) (by norm_num)
    refine le_trans this (by norm_num))
  have herr := unrolledDot_error hd
  rw [prods_self, abs_prods_self, Nat.min_self] at herr
  have hD : 1 / 2 ^ 63 ≤ val (unrolledDot v v) ∧ val (unrolledDot v v) ≤ 2 ^ 100 := by
    generalize sumSquares (v.map val) = S at *
    generalize (v.length : ℝ) * tiny = e at *
    generalize (1 + roundoff) ^ (v.length / 8 + 13) = g at *
    have h1 : (g - 1) * (S + e) ≤ 1 / 50 * (S + e) := mul_le_mul_of_nonneg_right (by linarith) (by linarith)
    rw [abs_le] at herr
    constructor
    · norm_num at *; linarith
    · norm_num at *; linarith
  have hf : Finite (sqrt (unrolledDot v v)) := by
    have f1 : Finite 0x71800000 := by unfold Finite; decide
    have v1 : val 0x71800000 = 2 ^ 100 := by
      have := val_of_units (x := 0x71800000) (n := 2 ^ 100) (by decide +kernel)
      rw [this]; norm_num
    have v2 : val 0x58800000 = 2 ^ 50 := by
      have := val_of_units (x := 0x58800000) (n := 2 ^ 50) (by decide +kernel)
      rw [this]; norm_num
    have h0 : 0 ≤ val (unrolledDot v v) := le_trans (by positivity) hD.1
    have h1 := sqrt_mono hd f1 h0 (by rw [v1]; exact hD.2)
    rw [show sqrt 0x71800000 = 0x58800000 by decide +kernel, v2] at h1
    have h2 := sqrt_mono (x := 0) (by unfold Finite; decide) hd (by rw [val_zero]) (by rw [val_zero]; exact h0)
    rw [show sqrt 0 = 0 by decide, val_zero] at h2
    exact finite_of_val (by rw [abs_of_nonneg h2]; exact le_trans h1 (by norm_num))
  refine ⟨hf, ?_⟩
  show _ ≤ val (sqrt (unrolledDot v v))
  have hs := (abs_le.mp (sqrt_spec' hf)).1
  have hr : 1 / 2 ^ 31 * (2 / 3) ≤ Real.sqrt (val (unrolledDot v v)) := by
    apply Real.le_sqrt_of_sq_le
    refine le_trans ?_ hD.1
    norm_num
  have hu1 : roundoff ≤ 1 / 1000 := by unfold roundoff; norm_num
  generalize Real.sqrt (val (unrolledDot v v)) = r at *
  have : r * (999 / 1000) ≤ val (sqrt (unrolledDot v v)) := by nlinarith
  refine le_trans ?_ this
  norm_num at *
  linarith

/-- **C76.** `into_unnormalized` gives the components back up to two roundings. -/
theorem c76_restore {v : List F32} (hl : v.length ≤ 2 ^ 20) (hf : Finite (l2Normalize v).2)
    (hn : 1 / 2 ^ 32 ≤ val (l2Normalize v).2) (i : Nat) (hi : i < v.length) :
    ∃ y, (Embeddings.intoUnnormalized (l2Normalize v))[i]? = some y ∧ Finite y ∧
      |val y - val v[i]| ≤ 1 / 2 ^ 22 * |val v[i]| + 1 / 2 ^ 149 * (val (l2Normalize v).2 + 1) := by
  obtain ⟨hm, he, hc⟩ := component_facts hl hf hn
  obtain ⟨hx, hd, hq, hde⟩ := hc v[i] (List.getElem_mem hi)
  have hN0 : 0 < val (l2Normalize v).2 := lt_of_lt_of_le (by positivity) hn
  refine ⟨mul (div v[i] (l2Normalize v).2) (l2Normalize v).2, ?_, ?_⟩
  · unfold Embeddings.intoUnnormalized scale
    rw [he, List.map_map, List.getElem?_map, List.getElem?_eq_getElem hi]
    rfl
  have hNlt : val (l2Normalize v).2 ≤ 2 ^ 66 := by
    have hd2 : Finite (unrolledDot v v) := (sqrt_finite hf).1
    have h1 := (abs_le.mp (sqrt_spec' hf)).2
    have h2 : Real.sqrt (val (unrolledDot v v)) ≤ 2 ^ 64 := by
      rw [Real.sqrt_le_left (by positivity)]
      refine le_trans (le_abs_self _) (le_trans (abs_val_lt hd2).le (by norm_num))
    have hu1 : roundoff ≤ 1 / 1000 := by unfold roundoff; norm_num
    have h3 : val (l2Normalize v).2 - Real.sqrt (val (unrolledDot v v)) ≤ roundoff * Real.sqrt (val (unrolledDot v v)) := h1
    have h0 := Real.sqrt_nonneg (val (unrolledDot v v))
    generalize Real.sqrt (val (unrolledDot v v)) = r at *
    have : val (l2Normalize v).2 ≤ 2 * r := by nlinarith
    refine le_trans this (le_trans (mul_le_mul_of_nonneg_left h2 (by norm_num)) (by norm_num))
  generalize (l2Normalize v).2 = N at *
  generalize v[i] = x at *
  have hu := roundoff_pos
  have hu1 : roundoff ≤ 1 / 1000000 := by unfold roundoff; norm_num
  have hx2 : val x = val x / val N * val N := by field_simp
  generalize hw : val x / val N = w at *
  have hdl : |val (div x N)| ≤ 3 := by
    have := abs_add_le (val (div x N) - w) w
    rw [sub_add_cancel] at this
    have : (1 : ℝ) / 2 ^ 150 ≤ 1 / 1000 := by norm_num
    have : roundoff * |w| ≤ 1 / 1000000 * 2 := mul_le_mul hu1 hq (abs_nonneg _) (by norm_num)
    linarith
  have hmf : Finite (mul (div x N) N) := mul_finite_of hd hf (by
    rw [abs_mul, abs_of_pos hN0]
    have : |val (div x N)| * val N ≤ 3 * 2 ^ 66 := mul_le_mul hdl hNlt hN0.le (by norm_num)
    exact le_trans this (by norm_num))
  refine ⟨hmf, ?_⟩
  have hme := mul_spec hd hf hmf
  have hh : (1 : ℝ) / 2 ^ 149 = 2 * (1 / 2 ^ 150) := by norm_num
  have hh22 : (1 : ℝ) / 2 ^ 22 = 4 * roundoff := by unfold roundoff; norm_num
  rw [hh, hh22]
  have hh0 : (0 : ℝ) < 1 / 2 ^ 150 := by positivity
  generalize (1 : ℝ) / 2 ^ 150 = h at *
  have h1 : |val (div x N) * val N - val x| ≤ (roundoff * |w| + h) * val N := by
    rw [hx2, ← sub_mul, abs_mul, abs_of_pos hN0]
    exact mul_le_mul_of_nonneg_right hde hN0.le
  have hxw : |val x| = |w| * val N := by rw [hx2, abs_mul, abs_of_pos hN0]
  have h2 : |val (div x N) * val N| ≤ |val x| + (roundoff * |w| + h) * val N := by
    have := abs_add_le (val (div x N) * val N - val x) (val x)
    rw [sub_add_cancel] at this
    linarith
  have h3 : |val (mul (div x N) N) - val (div x N) * val N| ≤ roundoff * |val (div x N) * val N| + h := by
    refine le_trans hme (max_le ?_ ?_)
    · linarith
    · have : 0 ≤ roundoff * |val (div x N) * val N| := mul_nonneg hu.le (abs_nonneg _)
      linarith
  have h4 : |val (mul (div x N) N) - val x| ≤ |val (mul (div x N) N) - val (div x N) * val N| + |val (div x N) * val N - val x| := by
    have := abs_add_le (val (mul (div x N) N) - val (div x N) * val N) (val (div x N) * val N - val x)
    rwa [show ∀ a b c : ℝ, a - b + (b - c) = a - c by intros; ring] at this
  have h5 : (roundoff * |w| + h) * val N = roundoff * |val x| + h * val N := by rw [hxw]; ring
  rw [h5] at h1 h2
  have hax := abs_nonneg (val x)
  generalize |val x| = a at *
  generalize |val (div x N) * val N| = b at *
  generalize val N = n at *
  generalize roundoff = u at *
  have h6 : u * b ≤ u * (a + (u * a + h * n)) := mul_le_mul_of_nonneg_left h2 hu.le
  have h7 : u * (u * a) ≤ 1 * (u * a) := mul_le_mul_of_nonneg_right (by linarith) (by positivity)
  have h8 : u * (h * n) ≤ 1 * (h * n) := mul_le_mul_of_nonneg_right (by linarith) (by positivity)
  nlinarith

end Ieee
end FF
