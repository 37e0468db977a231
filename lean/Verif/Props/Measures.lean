import Verif.Model.Measures
import Verif.Props.Similarity

/-!
# Normalisation and similarity measures in exact arithmetic (C38, C46)
-/

namespace FF

open Embeddings

/-- Specification: the sum of the squares of the components. -/
def sumSquares (v : List ℝ) : ℝ := (v.map fun x => x ^ 2).sum

/-- Specification: the Euclidean norm. -/
noncomputable def euclideanNorm (v : List ℝ) : ℝ := Real.sqrt (sumSquares v)

theorem sumSquares_nonneg (v : List ℝ) : 0 ≤ sumSquares v := by
  unfold sumSquares
  apply List.sum_nonneg
  intro x hx
  obtain ⟨y, _, rfl⟩ := List.mem_map.mp hx
  exact sq_nonneg y

theorem sumSquares_eq_zero {v : List ℝ} : sumSquares v = 0 ↔ ∀ x ∈ v, x = 0 := by
  induction v with
  | nil => simp [sumSquares]
  | cons x v ih =>
    have h1 : sumSquares (x :: v) = x ^ 2 + sumSquares v := by simp [sumSquares]
    have h2 := sumSquares_nonneg v
    rw [h1]
    constructor
    · intro h
      have hx : x ^ 2 = 0 := by nlinarith [sq_nonneg x]
      have hv : sumSquares v = 0 := by nlinarith [sq_nonneg x]
      intro y hy
      rcases List.mem_cons.mp hy with rfl | hy
      · exact pow_eq_zero_iff (two_ne_zero) |>.mp hx
      · exact ih.mp hv y hy
    · intro h
      rw [h x (by simp), ih.mpr fun y hy => h y (by simp [hy])]; simp

theorem dot_self (v : List ℝ) : Scalar.dot v v = sumSquares v := by
  show (List.zipWith (· * ·) v v).sum = _
  unfold sumSquares
  rw [List.zipWith_self]
  simp [sq]

/-- C38: `l2_normalize` returns the Euclidean norm. -/
theorem c38_norm (v : List ℝ) : (l2Normalize v).2 = euclideanNorm v := by
  show Real.sqrt (Scalar.dot v v) = _
  rw [dot_self]; rfl

theorem l2Normalize_fst (v : List ℝ) :
    (l2Normalize v).1 = if euclideanNorm v = 0 then v else v.map (· / euclideanNorm v) := by
  have h := c38_norm v
  unfold l2Normalize at h ⊢
  simp only at h ⊢
  rw [h]
  by_cases h0 : euclideanNorm v = 0
  · rw [if_pos h0]
    have : Scalar.isZero (euclideanNorm v) = true := by simp [Scalar.isZero, h0]
    rw [if_pos this]
  · rw [if_neg h0]
    have : ¬ Scalar.isZero (euclideanNorm v) = true := by simp [Scalar.isZero, h0]
    rw [if_neg this]
    rfl

theorem euclideanNorm_eq_zero {v : List ℝ} : euclideanNorm v = 0 ↔ ∀ x ∈ v, x = 0 := by
  unfold euclideanNorm
  rw [Real.sqrt_eq_zero (sumSquares_nonneg v), sumSquares_eq_zero]

/-- C38: a zero vector stays as it is. -/
theorem c38_zero (v : List ℝ) (h : ∀ x ∈ v, x = 0) : (l2Normalize v).1 = v ∧ (l2Normalize v).2 = 0 := by
  rw [c38_norm, l2Normalize_fst, euclideanNorm_eq_zero.mpr h]; simp

/-- C38: any other vector becomes a unit vector. -/
theorem c38_unit (v : List ℝ) (h : ∃ x ∈ v, x ≠ 0) : euclideanNorm (l2Normalize v).1 = 1 := by
  have h0 : euclideanNorm v ≠ 0 := by
    intro h0
    obtain ⟨x, hx, hne⟩ := h
    exact hne (euclideanNorm_eq_zero.mp h0 x hx)
  rw [l2Normalize_fst, if_neg h0]
  have : sumSquares (v.map (· / euclideanNorm v)) = sumSquares v / euclideanNorm v ^ 2 := by
    unfold sumSquares
    rw [List.map_map, div_eq_mul_inv, ← List.sum_map_mul_right]
    congr 1
    apply List.map_congr_left
    intro x _
    show (x / euclideanNorm v) ^ 2 = _
    rw [div_pow, div_eq_mul_inv]
  unfold euclideanNorm at this ⊢
  rw [this, Real.sq_sqrt (sumSquares_nonneg v), div_self, Real.sqrt_one]
  intro hz
  unfold euclideanNorm at h0
  rw [hz] at h0; simp at h0

/-- C38: the normalised vector times the returned norm is the original vector. -/
theorem c38_restore (v : List ℝ) : (l2Normalize v).1.map (· * (l2Normalize v).2) = v := by
  rw [c38_norm, l2Normalize_fst]
  by_cases h0 : euclideanNorm v = 0
  · rw [if_pos h0, h0]
    have := euclideanNorm_eq_zero.mp h0
    conv => rhs; rw [← List.map_id v]
    apply List.map_congr_left
    intro x hx
    simp [this x hx]
  · rw [if_neg h0, List.map_map]
    conv => rhs; rw [← List.map_id v]
    apply List.map_congr_left
    intro x _
    simp [h0]

/-- C38 for all rows of a matrix: shape kept, row `i` normalised with norm `i`. -/
theorem c38_array (m : Mat ℝ) :
    (l2NormalizeArray m).1.cols = m.cols ∧ (l2NormalizeArray m).1.rows.length = m.rows.length ∧
    (l2NormalizeArray m).2.length = m.rows.length ∧
    ∀ (i : Nat) (row : List ℝ), m.rows[i]? = some row → ∃ u n, (l2NormalizeArray m).1.rows[i]? = some u ∧
      (l2NormalizeArray m).2[i]? = some n ∧ n = euclideanNorm row ∧ u.map (· * n) = row ∧
      ((∀ x ∈ row, x = 0) → u = row) ∧ ((∃ x ∈ row, x ≠ 0) → euclideanNorm u = 1) := by
  unfold l2NormalizeArray
  refine ⟨rfl, by simp, by simp, ?_⟩
  intro i row hrow
  refine ⟨(l2Normalize row).1, (l2Normalize row).2, by simp [hrow], by simp [hrow], c38_norm row, c38_restore row,
    fun h => (c38_zero row h).1, c38_unit row⟩

/-- C38 for lookups: the embedding of a word answered from subwords is a unit vector or zero. -/
theorem c38_oov {T V S : Type} [Vocab V] [Storage S ℝ] (e : Embeddings T V S ℝ) (w : Str) (is : List Nat)
    (h : Vocab.idx e.vocab w = .ok (some (.subword is))) (v : List ℝ) (hv : e.embedding w = .ok (some v)) :
    euclideanNorm v = 1 ∨ ∀ x ∈ v, x = 0 := by
  unfold Embeddings.embedding at hv
  simp only [h, Res.ok_bind] at hv
  obtain ⟨m, _, hv⟩ := Res.bind_eq_ok.mp hv
  cases hv
  by_cases hz : ∀ x ∈ m.sumAxis0, x = 0
  · right; rw [(c38_zero _ hz).1]; exact hz
  · left
    apply c38_unit
    by_contra hc
    exact hz fun x hx => by
      by_contra hne
      exact hc ⟨x, hx, hne⟩

/-- The hypotheses of the theorems above hold for concrete cases. -/
example : (∃ x ∈ ([3, 4] : List ℝ), x ≠ 0) ∧ (∀ x ∈ ([0, 0] : List ℝ), x = 0) ∧
    (l2Normalize ([3, 4] : List ℝ)).2 = 5 := by
  refine ⟨⟨3, by simp, by norm_num⟩, by simp, ?_⟩
  rw [c38_norm]
  unfold euclideanNorm sumSquares
  rw [show (List.map (fun x : ℝ => x ^ 2) [3, 4]).sum = 5 ^ 2 by norm_num]
  exact Real.sqrt_sq (by norm_num)

/-- `c38_zero` and `c38_unit` applied to them, `c38_oov` to an unknown word. -/
example := And.intro (c38_zero [0, 0] (by simp)) (c38_unit [3, 4] ⟨3, by simp, by norm_num⟩)
example := c38_oov (⟨none, ⟨⟨2, [[3, 4], [0, 1]]⟩⟩, ⟨['<'], ['>'], ⟨0, 0⟩, indexMap [['a']], [['a']], 3, 6⟩, none⟩ :
    Embeddings Str BucketSubwordVocab (NdArray ℝ) ℝ) ['b'] [1] (by decide +kernel) _ rfl

/-! ## C46 -/

/-- The difference of two vectors. -/
def vecSub (u v : List ℝ) : List ℝ := List.zipWith (· - ·) u v

theorem sumSquares_sub (u v : List ℝ) (h : u.length = v.length) :
    sumSquares (vecSub u v) = sumSquares u + sumSquares v - 2 * Scalar.dot u v := by
  induction u generalizing v with
  | nil => cases v <;> simp_all [vecSub, sumSquares, Scalar.dot]
  | cons x u ih =>
    cases v with
    | nil => simp at h
    | cons y v =>
      have := ih v (by simpa using h)
      simp only [vecSub, sumSquares, Scalar.dot, List.zipWith_cons_cons, List.map_cons, List.sum_cons] at this ⊢
      rw [this]; ring

theorem sumSquares_add (u v : List ℝ) (h : u.length = v.length) :
    sumSquares (List.zipWith (· + ·) u v) = sumSquares u + sumSquares v + 2 * Scalar.dot u v := by
  induction u generalizing v with
  | nil => cases v <;> simp_all [sumSquares, Scalar.dot]
  | cons x u ih =>
    cases v with
    | nil => simp at h
    | cons y v =>
      have := ih v (by simpa using h)
      simp only [sumSquares, Scalar.dot, List.zipWith_cons_cons, List.map_cons, List.sum_cons] at this ⊢
      rw [this]; ring

theorem sumSquares_of_unit {u : List ℝ} (h : euclideanNorm u = 1) : sumSquares u = 1 := by
  unfold euclideanNorm at h
  have := Real.sq_sqrt (sumSquares_nonneg u)
  rw [h] at this; linarith

/-- The similarity of two unit vectors lies in `[-1, 1]`. -/
theorem c46_range (u v : List ℝ) (hl : u.length = v.length) (hu : euclideanNorm u = 1) (hv : euclideanNorm v = 1) :
    -1 ≤ Scalar.dot u v ∧ Scalar.dot u v ≤ 1 := by
  have h1 := sumSquares_sub u v hl
  have h2 := sumSquares_add u v hl
  have h3 := sumSquares_nonneg (vecSub u v)
  have h4 := sumSquares_nonneg (List.zipWith (· + ·) u v)
  rw [sumSquares_of_unit hu, sumSquares_of_unit hv] at h1 h2
  constructor <;> linarith

/-- C46: for unit vectors, the reported Euclidean distance is the norm of the difference. -/
theorem c46_distance (u v : List ℝ) (hl : u.length = v.length) (hu : euclideanNorm u = 1)
    (hv : euclideanNorm v = 1) : euclideanDistance (Scalar.dot u v) = euclideanNorm (vecSub u v) := by
  unfold euclideanDistance euclideanNorm cosineSimilarity
  rw [sumSquares_sub u v hl, sumSquares_of_unit hu, sumSquares_of_unit hv]
  congr 1; ring

/-- C46: angular similarity lies in `[0, 1]`; 1 exactly for similarity 1 and 0 exactly for similarity -1. -/
theorem c46_angular (c : ℝ) (h1 : -1 ≤ c) (h2 : c ≤ 1) :
    0 ≤ angularSimilarity c ∧ angularSimilarity c ≤ 1 ∧ (angularSimilarity c = 1 ↔ c = 1) ∧
    (angularSimilarity c = 0 ↔ c = -1) := by
  unfold angularSimilarity
  have hp := Real.pi_pos
  have ha := Real.arccos_nonneg c
  have hb := Real.arccos_le_pi c
  have hd : 0 ≤ Real.arccos c / Real.pi := div_nonneg ha hp.le
  have he : Real.arccos c / Real.pi ≤ 1 := (div_le_one hp).mpr hb
  refine ⟨by linarith, by linarith, ?_, ?_⟩
  · constructor
    · intro h
      have : Real.arccos c / Real.pi = 0 := by linarith
      rcases div_eq_zero_iff.mp this with h | h
      · exact le_antisymm h2 (Real.arccos_eq_zero.mp h)
      · exact absurd h hp.ne'
    · rintro rfl; simp
  · constructor
    · intro h
      have : Real.arccos c / Real.pi = 1 := by linarith
      have : Real.arccos c = Real.pi := by rwa [div_eq_one_iff_eq hp.ne'] at this
      exact le_antisymm (Real.arccos_eq_pi.mp this) h1
    · rintro rfl; simp [hp.ne']

/-- Angular similarity is one minus the angle between the vectors as a fraction of a half turn: the angle is the one
in `[0, π]` whose cosine is the similarity. -/
theorem c46_angle (c a : ℝ) (h1 : 0 ≤ a) (h2 : a ≤ Real.pi) (h : Real.cos a = c) :
    angularSimilarity c = 1 - a / Real.pi := by
  unfold angularSimilarity
  rw [← h, Real.arccos_cos h1 h2]

/-- C46: Euclidean similarity lies in `[0, 1]`. (Above 1 the code computes the root of a negative number.) -/
theorem c46_euclidean (c : ℝ) (h1 : -1 ≤ c) (_h2 : c ≤ 1) :
    0 ≤ euclideanSimilarity c ∧ euclideanSimilarity c ≤ 1 ∧ 0 ≤ euclideanDistance c ∧ euclideanDistance c ≤ 2 := by
  have ha : 0 ≤ euclideanDistance c := Real.sqrt_nonneg _
  have hb : euclideanDistance c ≤ 2 := by
    unfold euclideanDistance cosineSimilarity
    rw [Real.sqrt_le_left (by norm_num)]
    nlinarith
  unfold euclideanSimilarity
  refine ⟨by linarith, by linarith, ha, hb⟩

/-- C46: for unit vectors, the Euclidean similarity is one minus half of the norm of the difference. -/
theorem c46_similarity (u v : List ℝ) (hl : u.length = v.length) (hu : euclideanNorm u = 1)
    (hv : euclideanNorm v = 1) : euclideanSimilarity (Scalar.dot u v) = 1 - euclideanNorm (vecSub u v) / 2 := by
  unfold euclideanSimilarity
  rw [c46_distance u v hl hu hv]

/-- C46: Euclidean similarity is 1 exactly for similarity 1 and 0 exactly for similarity -1. -/
theorem c46_euclidean_ends (c : ℝ) (h1 : -1 ≤ c) (h2 : c ≤ 1) :
    (euclideanSimilarity c = 1 ↔ c = 1) ∧ (euclideanSimilarity c = 0 ↔ c = -1) := by
  unfold euclideanSimilarity euclideanDistance cosineSimilarity
  have h0 : 0 ≤ 2 - 2 * c := by linarith
  constructor
  · constructor
    · intro h
      have : Real.sqrt (2 - 2 * c) = 0 := by linarith
      have := (Real.sqrt_eq_zero h0).mp this
      linarith
    · rintro rfl; norm_num
  · constructor
    · intro h
      have : Real.sqrt (2 - 2 * c) = 2 := by linarith
      have := (Real.sqrt_eq_iff_mul_self_eq h0 (by norm_num)).mp this
      linarith
    · rintro rfl
      rw [show (2 : ℝ) - 2 * -1 = 2 * 2 by norm_num, Real.sqrt_mul_self (by norm_num)]
      norm_num

/-- C46: all measures rank like cosine similarity. -/
theorem c46_order (c d : ℝ) (hc1 : -1 ≤ c) (hc2 : c ≤ 1) (hd1 : -1 ≤ d) (hd2 : d ≤ 1) :
    (angularSimilarity c < angularSimilarity d ↔ cosineSimilarity c < cosineSimilarity d) ∧
    (euclideanSimilarity c < euclideanSimilarity d ↔ cosineSimilarity c < cosineSimilarity d) ∧
    (euclideanDistance d < euclideanDistance c ↔ cosineSimilarity c < cosineSimilarity d) := by
  have hp := Real.pi_pos
  have hdist : euclideanDistance d < euclideanDistance c ↔ cosineSimilarity c < cosineSimilarity d := by
    unfold euclideanDistance cosineSimilarity
    rw [Real.sqrt_lt_sqrt_iff (by linarith)]
    constructor <;> intro h <;> linarith
  refine ⟨?_, ?_, hdist⟩
  · unfold angularSimilarity cosineSimilarity
    have := Real.strictAntiOn_arccos.lt_iff_gt (a := d) (b := c) ⟨hd1, hd2⟩ ⟨hc1, hc2⟩
    rw [sub_lt_sub_iff_left, div_lt_div_iff_of_pos_right hp, this]
  · rw [← hdist]
    unfold euclideanSimilarity
    constructor <;> intro h <;> linarith

/-- The hypotheses of the theorems above hold for concrete unit vectors. -/
example : euclideanNorm [1, 0] = 1 ∧ euclideanNorm [3 / 5, 4 / 5] = 1 ∧
    Scalar.dot ([1, 0] : List ℝ) [3 / 5, 4 / 5] = 3 / 5 := by
  refine ⟨?_, ?_, ?_⟩
  · simp [euclideanNorm, sumSquares]
  · simp only [euclideanNorm, sumSquares, List.map_cons, List.map_nil, List.sum_cons, List.sum_nil]; norm_num
  · simp [Scalar.dot]

/-- `c46_range` and `c46_distance` applied to them; the other theorems to similarities between -1 and 1. -/
example := And.intro
  (c46_range [1, 0] [3 / 5, 4 / 5] rfl (by simp [euclideanNorm, sumSquares])
    (by simp only [euclideanNorm, sumSquares, List.map_cons, List.map_nil, List.sum_cons, List.sum_nil]; norm_num))
  (c46_distance [1, 0] [3 / 5, 4 / 5] rfl (by simp [euclideanNorm, sumSquares])
    (by simp only [euclideanNorm, sumSquares, List.map_cons, List.map_nil, List.sum_cons, List.sum_nil]; norm_num))
example := And.intro (c46_euclidean_ends (3 / 5) (by norm_num) (by norm_num))
  (c46_similarity [1, 0] [3 / 5, 4 / 5] rfl (by simp [euclideanNorm, sumSquares])
    (by simp only [euclideanNorm, sumSquares, List.map_cons, List.map_nil, List.sum_cons, List.sum_nil]; norm_num))
/-- `c46_angular`, `c46_angle`, `c46_euclidean` and `c46_order` applied to similarities between -1 and 1. -/
example := And.intro (c46_angular (3 / 5) (by norm_num) (by norm_num))
  (c46_angle 0 (Real.pi / 2) (by positivity) (by linarith [Real.pi_pos]) Real.cos_pi_div_two)
example := And.intro (c46_euclidean (3 / 5) (by norm_num) (by norm_num))
  (c46_order (-1 / 2) (3 / 5) (by norm_num) (by norm_num) (by norm_num) (by norm_num))

end FF
