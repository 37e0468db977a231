import Verif.Props.FloatMeasures

/-!
# Cosine similarities in single precision (C78)
-/

namespace FF
namespace Ieee

/-- The inequality of Cauchy and Schwarz for lists. -/
theorem cauchy_schwarz (x y : List F32) :
    (List.zipWith (fun a b => |val a * val b|) x y).sum ≤ euclideanNorm (x.map val) * euclideanNorm (y.map val) := by
  induction x generalizing y with
  | nil => simp [euclideanNorm, sumSquares]
  | cons a x ih =>
    cases y with
    | nil => simp [euclideanNorm, sumSquares]
    | cons b y =>
      have e : ∀ (c : F32) (l : List F32), sumSquares ((c :: l).map val) = val c ^ 2 + sumSquares (l.map val) :=
        fun c l => by simp [sumSquares]
      have h := ih y
      simp only [List.zipWith_cons_cons, List.sum_cons]
      unfold euclideanNorm at *
      rw [e, e]
      have px := sumSquares_nonneg (x.map val)
      have py := sumSquares_nonneg (y.map val)
      have sx := Real.sq_sqrt px
      have sy := Real.sq_sqrt py
      have nx := Real.sqrt_nonneg (sumSquares (x.map val))
      have ny := Real.sqrt_nonneg (sumSquares (y.map val))
      rw [← Real.sqrt_mul (by positivity)]
      refine le_trans (add_le_add le_rfl h) ?_
      apply Real.le_sqrt_of_sq_le
      rw [← sx, ← sy, abs_mul, ← sq_abs (val a), ← sq_abs (val b)]
      simp only [Real.sqrt_sq nx, Real.sqrt_sq ny]
      nlinarith [sq_nonneg (|val a| * Real.sqrt (sumSquares (y.map val)) - |val b| * Real.sqrt (sumSquares (x.map val)))]

attribute [local instance] scalar

/-- **C78.** The cosine similarity is finite for finite vectors that are not very large. -/
theorem c78_finite {x y : List F32} (hl : x.length = y.length) (hn : x.length ≤ 2 ^ 20) (hx : ∀ a ∈ x, Finite a)
    (hy : ∀ b ∈ y, Finite b) (h : euclideanNorm (x.map val) * euclideanNorm (y.map val) ≤ 2 ^ 98) :
    Finite (Scalar.dot x y) ∧ ScalarOrd.isNan (Scalar.dot x y) = false := by
  have hf : Finite (unrolledDot x y) := unrolledDot_safe hx hy (by
    rw [← hl, Nat.min_self]
    have h1 := cauchy_schwarz x y
    have h2 := length_tiny hn
    have h3 := length_pow hn
    have h4 : 0 ≤ (x.length : ℝ) * tiny := by unfold tiny; positivity
    have h5 : 0 ≤ (List.zipWith (fun a b => |val a * val b|) x y).sum := List.sum_nonneg (by
      intro z hz
      obtain ⟨i, hi, rfl⟩ := List.getElem_of_mem hz
      rw [List.getElem_zipWith]; exact abs_nonneg _)
    refine le_trans (mul_le_mul h3 (add_le_add (le_trans h1 h) h2) (by linarith) (by norm_num)) (by norm_num))
  exact ⟨hf, hf.notNan⟩

/-- **C78.** The cosine similarity is close to the inner product. -/
theorem c78_error {x y : List F32} (hl : x.length = y.length) (hn : x.length ≤ 2 ^ 20) (hf : Finite (Scalar.dot x y)) :
    |val (Scalar.dot x y) - Scalar.dot (x.map val) (y.map val)| ≤
      1.02 * ((x.length / 8 + 13 : Nat) : ℝ) / 2 ^ 24 *
        (euclideanNorm (x.map val) * euclideanNorm (y.map val) + 1 / 2 ^ 106) := by
  have h := unrolledDot_error (x := x) (y := y) hf
  rw [← hl, Nat.min_self] at h
  have e : (prods x y).sum = Scalar.dot (x.map val) (y.map val) := by
    show _ = (List.zipWith (· * ·) (x.map val) (y.map val)).sum
    rw [List.zipWith_map]; rfl
  rw [e] at h
  refine le_trans h ?_
  have h1 := cauchy_schwarz x y
  have h2 := length_tiny hn
  have h3 := growth (length_growth hn)
  have h4 : 0 ≤ (1 + roundoff) ^ (x.length / 8 + 13) - 1 := by linarith [one_le_growth (x.length / 8 + 13)]
  have h5 : 0 ≤ euclideanNorm (x.map val) * euclideanNorm (y.map val) := mul_nonneg (Real.sqrt_nonneg _) (Real.sqrt_nonneg _)
  refine le_trans (mul_le_mul h3 (add_le_add h1 h2) ?_ (le_trans h4 h3)) (le_of_eq ?_)
  · have h4 : 0 ≤ (x.length : ℝ) * tiny := by unfold tiny; positivity
    have h5 : 0 ≤ (List.zipWith (fun a b => |val a * val b|) x y).sum := List.sum_nonneg (by
      intro z hz
      obtain ⟨i, hi, rfl⟩ := List.getElem_of_mem hz
      rw [List.getElem_zipWith]; exact abs_nonneg _)
    linarith
  · unfold roundoff; ring

/-- **C78.** The cosine similarity of two vectors that were normalised exceeds one at most by rounding errors. -/
theorem c78_range {v w : List F32} (hl : v.length = w.length) (hn : v.length ≤ 2 ^ 20) (hv : Finite (l2Normalize v).2)
    (hv2 : 1 / 2 ^ 32 ≤ val (l2Normalize v).2) (hw : Finite (l2Normalize w).2) (hw2 : 1 / 2 ^ 32 ≤ val (l2Normalize w).2) :
    Finite (Scalar.dot (l2Normalize v).1 (l2Normalize w).1) ∧
    |val (Scalar.dot (l2Normalize v).1 (l2Normalize w).1)| ≤ 1 + 6 * ((v.length / 8 + 20 : Nat) : ℝ) / 2 ^ 24 := by
  obtain ⟨fv, uv⟩ := c76_unit hn hv hv2
  obtain ⟨fw, uw⟩ := c76_unit (hl ▸ hn) hw hw2
  rw [← hl] at uw
  have len : ∀ v : List F32, (l2Normalize v).1.length = v.length := by
    intro v
    show (if _ then v else v.map _).length = _
    split <;> simp
  have hl' : (l2Normalize v).1.length = (l2Normalize w).1.length := by rw [len, len, hl]
  have hn' : (l2Normalize v).1.length ≤ 2 ^ 20 := by rw [len]; exact hn
  have nv := Real.sqrt_nonneg (sumSquares ((l2Normalize v).1.map val))
  have nw := Real.sqrt_nonneg (sumSquares ((l2Normalize w).1.map val))
  have ht := length_growth hn
  have ec : ((v.length / 8 + 20 : Nat) : ℝ) / 2 ^ 23 = 2 * (((v.length / 8 + 13 : Nat) : ℝ) * roundoff) + 14 * roundoff := by
    unfold roundoff; push_cast; ring
  have ec2 : 6 * ((v.length / 8 + 20 : Nat) : ℝ) / 2 ^ 24 = 6 * (((v.length / 8 + 13 : Nat) : ℝ) * roundoff) + 42 * roundoff := by
    unfold roundoff; push_cast; ring
  have ec3 : 1.02 * ((v.length / 8 + 13 : Nat) : ℝ) / 2 ^ 24 = 1.02 * (((v.length / 8 + 13 : Nat) : ℝ) * roundoff) := by
    unfold roundoff; ring
  rw [ec] at uv uw
  have hu := roundoff_pos
  have hu1 : roundoff ≤ 1 / 1000000 := by unfold roundoff; norm_num
  have ht0 : 0 ≤ ((v.length / 8 + 13 : Nat) : ℝ) * roundoff := by positivity
  have hprod : euclideanNorm ((l2Normalize v).1.map val) * euclideanNorm ((l2Normalize w).1.map val) ≤
      1 + 4.1 * (((v.length / 8 + 13 : Nat) : ℝ) * roundoff) + 30 * roundoff := by
    change 0 ≤ euclideanNorm _ at nv
    change 0 ≤ euclideanNorm _ at nw
    rw [abs_le] at uv uw
    generalize euclideanNorm ((l2Normalize v).1.map val) = p at *
    generalize euclideanNorm ((l2Normalize w).1.map val) = q at *
    generalize ((v.length / 8 + 13 : Nat) : ℝ) * roundoff = t at *
    generalize roundoff = u at *
    have hp : p ≤ 1 + 2 * t + 14 * u := by linarith
    have hq : q ≤ 1 + 2 * t + 14 * u := by linarith
    have := mul_le_mul hp hq nw (by linarith)
    nlinarith
  obtain ⟨hf, _⟩ := c78_finite hl' hn' fv fw (by
    refine le_trans hprod ?_
    have : (1 : ℝ) + 4.1 * (1 / 100) + 30 * (1 / 1000000) ≤ 2 ^ 98 := by norm_num
    linarith)
  refine ⟨hf, ?_⟩
  have he := c78_error hl' hn' hf
  rw [len, ec3] at he
  have hcs : |Scalar.dot ((l2Normalize v).1.map val) ((l2Normalize w).1.map val)| ≤
      euclideanNorm ((l2Normalize v).1.map val) * euclideanNorm ((l2Normalize w).1.map val) := by
    refine le_trans ?_ (cauchy_schwarz _ _)
    show |(List.zipWith (· * ·) _ _).sum| ≤ _
    rw [List.zipWith_map]
    generalize (l2Normalize v).1 = x
    generalize (l2Normalize w).1 = y
    induction x generalizing y with
    | nil => simp
    | cons a x ih =>
      cases y with
      | nil => simp
      | cons b y =>
        simp only [List.zipWith_cons_cons, List.sum_cons]
        exact le_trans (abs_add_le _ _) (add_le_add le_rfl (ih y))
  rw [ec2]
  have h3 : |val (Scalar.dot (l2Normalize v).1 (l2Normalize w).1)| ≤
      |val (Scalar.dot (l2Normalize v).1 (l2Normalize w).1) - Scalar.dot ((l2Normalize v).1.map val) ((l2Normalize w).1.map val)| +
      |Scalar.dot ((l2Normalize v).1.map val) ((l2Normalize w).1.map val)| := by
    have := abs_add_le (val (Scalar.dot (l2Normalize v).1 (l2Normalize w).1) -
      Scalar.dot ((l2Normalize v).1.map val) ((l2Normalize w).1.map val))
      (Scalar.dot ((l2Normalize v).1.map val) ((l2Normalize w).1.map val))
    rwa [sub_add_cancel] at this
  have hsmall : (1 : ℝ) / 2 ^ 106 ≤ 1 / 1000 := by norm_num
  generalize euclideanNorm ((l2Normalize v).1.map val) * euclideanNorm ((l2Normalize w).1.map val) = pq at *
  generalize ((v.length / 8 + 13 : Nat) : ℝ) * roundoff = t at *
  generalize roundoff = u at *
  have h5 : 1.02 * t * (pq + 1 / 2 ^ 106) ≤ 1.02 * t * 1.1 := mul_le_mul_of_nonneg_left (by linarith) (by linarith)
  linarith

end Ieee
end FF
