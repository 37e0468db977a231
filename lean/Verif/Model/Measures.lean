import Mathlib.Analysis.SpecialFunctions.Trigonometric.Inverse
import Verif.Model.Embeddings

/-!
# Exact arithmetic: real numbers as vector components, and the similarity measures (src/similarity.rs)
-/

namespace FF

/-- Exact arithmetic. The theorems about normalisation and measures are about real numbers; rounding is in
Model/Float. Simplifies the `f32` arithmetic of e.g. src/util.rs:69-77. -/
noncomputable instance realScalar : Scalar ℝ where
  zero := 0
  one := 1
  add := (· + ·)
  sub := (· - ·)
  mul := (· * ·)
  div := (· / ·)
  sqrt := Real.sqrt
  dot a b := (List.zipWith (· * ·) a b).sum
  sum xs := xs.sum
  isZero x := @decide (x = 0) (Classical.propDecidable _)

/-- src/similarity.rs:27-29, `angular_similarity`, in exact arithmetic. -/
noncomputable def angularSimilarity (c : ℝ) : ℝ := 1 - Real.arccos c / Real.pi

/-- src/similarity.rs:32-34, `cosine_similarity`, in exact arithmetic. -/
def cosineSimilarity (c : ℝ) : ℝ := c

/-- src/similarity.rs:37-40, `euclidean_distance`, in exact arithmetic. -/
noncomputable def euclideanDistance (c : ℝ) : ℝ := Real.sqrt (2 - 2 * cosineSimilarity c)

/-- src/similarity.rs:48-50, `euclidean_similarity`, in exact arithmetic. -/
noncomputable def euclideanSimilarity (c : ℝ) : ℝ := 1 - euclideanDistance c / 2

end FF
