import Verif.Props.FloatCosine

/-!
# Lengths and directions of lists of real numbers
-/

namespace FF

/-- Specification: the Euclidean distance of two vectors. -/
noncomputable def vecDistance (x y : List ℝ) : ℝ := euclideanNorm (List.zipWith (· - ·) x y)

/-- Specification: a vector divided by its length. -/
noncomputable def direction (x : List ℝ) : List ℝ := x.map (· / euclideanNorm x)

theorem sumSquares_cons (a : ℝ) (x : List ℝ) : sumSquares (a :: x) = a ^ 2 + sumSquares x := by simp [sumSquares]

theorem euclideanNorm_nonneg (x : List ℝ) : 0 ≤ euclideanNorm x := Real.sqrt_nonneg _

theorem sq_euclideanNorm (x : List ℝ) : euclideanNorm x ^ 2 = sumSquares x := Real.sq_sqrt (sumSquares_nonneg x)

theorem euclideanNorm_cons_sq (a : ℝ) (x : List ℝ) : euclideanNorm (a :: x) ^ 2 = a ^ 2 + euclideanNorm x ^ 2 := by
  rw [sq_euclideanNorm, sq_euclideanNorm, sumSquares_cons]

theorem euclideanNorm_nil : euclideanNorm [] = 0 := by simp [euclideanNorm, sumSquares]

/-- The triangle inequality. -/
theorem euclideanNorm_add (x y : List ℝ) : euclideanNorm (List.zipWith (· + ·) x y) ≤ euclideanNorm x + euclideanNorm y := by
  induction x generalizing y with
  | nil => rw [List.zipWith_nil_left, euclideanNorm_nil]; have := euclideanNorm_nonneg y; linarith
  | cons a x ih =>
    cases y with
    | nil => rw [List.zipWith_nil_right, euclideanNorm_nil]; have := euclideanNorm_nonneg (a :: x); linarith
    | cons b y =>
      rw [List.zipWith_cons_cons]
      have h := ih y
      have e := euclideanNorm_cons_sq (a + b) (List.zipWith (· + ·) x y)
      have ex := euclideanNorm_cons_sq a x
      have ey := euclideanNorm_cons_sq b y
      have n0 := euclideanNorm_nonneg (List.zipWith (· + ·) x y)
      have nx := euclideanNorm_nonneg x
      have ny := euclideanNorm_nonneg y
      have nx' := euclideanNorm_nonneg (a :: x)
      have ny' := euclideanNorm_nonneg (b :: y)
      generalize euclideanNorm (List.zipWith (· + ·) x y) = n at *
      generalize euclideanNorm ((a + b) :: List.zipWith (· + ·) x y) = n' at *
      generalize euclideanNorm x = p at *
      generalize euclideanNorm y = q at *
      generalize euclideanNorm (a :: x) = p' at *
      generalize euclideanNorm (b :: y) = q' at *
      have h1 : a * b + p * q ≤ p' * q' := by
        refine abs_le_of_sq_le_sq' ?_ (mul_nonneg nx' ny') |>.2
        rw [mul_pow, ex, ey]
        nlinarith [sq_nonneg (a * q - b * p)]
      have h2 : n ^ 2 ≤ (p + q) ^ 2 := pow_le_pow_left₀ n0 h 2
      refine abs_le_of_sq_le_sq' ?_ (by linarith) |>.2
      rw [e]
      nlinarith

/-- Larger components make a longer vector. -/
theorem euclideanNorm_mono {x z : List ℝ} (h : List.Forall₂ (fun a b => |a| ≤ b) x z) : euclideanNorm x ≤ euclideanNorm z := by
  refine Real.sqrt_le_sqrt ?_
  induction h with
  | nil => exact le_rfl
  | cons h _ ih =>
    rw [sumSquares_cons, sumSquares_cons]
    refine add_le_add ?_ ih
    rw [← sq_abs]
    exact pow_le_pow_left₀ (abs_nonneg _) h 2

theorem sumSquares_mul (c : ℝ) (x : List ℝ) : sumSquares (x.map (c * ·)) = c ^ 2 * sumSquares x := by
  induction x with
  | nil => simp [sumSquares]
  | cons a x ih => rw [List.map_cons, sumSquares_cons, sumSquares_cons, ih]; ring

theorem euclideanNorm_mul (c : ℝ) (x : List ℝ) : euclideanNorm (x.map (c * ·)) = |c| * euclideanNorm x := by
  unfold euclideanNorm
  rw [sumSquares_mul, Real.sqrt_mul (sq_nonneg c), Real.sqrt_sq_eq_abs]

theorem euclideanNorm_div (c : ℝ) (x : List ℝ) : euclideanNorm (x.map (· / c)) = euclideanNorm x / |c| := by
  rw [show (fun a : ℝ => a / c) = (fun a => c⁻¹ * a) by funext a; ring, euclideanNorm_mul, abs_inv]; ring

theorem euclideanNorm_abs (x : List ℝ) : euclideanNorm (x.map fun a => |a|) = euclideanNorm x := by
  unfold euclideanNorm sumSquares
  rw [List.map_map]
  congr 2
  exact List.map_congr_left fun a _ => sq_abs a

theorem euclideanNorm_replicate (d : Nat) (c : ℝ) : euclideanNorm (List.replicate d c) ≤ d * |c| := by
  induction d with
  | zero => simp [euclideanNorm_nil]
  | succ d ih =>
    have e := euclideanNorm_cons_sq c (List.replicate d c)
    rw [List.replicate_succ]
    have n0 := euclideanNorm_nonneg (List.replicate d c)
    have hc := abs_nonneg c
    have hs := sq_abs c
    refine abs_le_of_sq_le_sq' ?_ (by positivity) |>.2
    rw [e, ← hs]
    push_cast
    have hd : (0 : ℝ) ≤ d := Nat.cast_nonneg d
    have : euclideanNorm (List.replicate d c) ^ 2 ≤ (d * |c|) ^ 2 := pow_le_pow_left₀ n0 ih 2
    nlinarith [mul_nonneg hd (mul_nonneg hc hc)]

theorem abs_le_euclideanNorm {x : List ℝ} {a : ℝ} (h : a ∈ x) : |a| ≤ euclideanNorm x := by
  refine abs_le_of_sq_le_sq' ?_ (euclideanNorm_nonneg x) |>.2
  rw [sq_euclideanNorm, sq_abs]
  exact Ieee.sq_le_sumSquares h

/-! ## Distances -/

theorem vecDistance_self (x : List ℝ) : vecDistance x x = 0 := by
  unfold vecDistance
  have : List.zipWith (· - ·) x x = List.replicate x.length (0 : ℝ) := by
    induction x with
    | nil => rfl
    | cons a x _ => simp [List.replicate_succ]
  rw [this]
  refine le_antisymm ?_ (euclideanNorm_nonneg _)
  have := euclideanNorm_replicate x.length 0
  simpa using this

theorem vecDistance_triangle {x y z : List ℝ} (h1 : x.length = y.length) (h2 : y.length = z.length) :
    vecDistance x z ≤ vecDistance x y + vecDistance y z := by
  unfold vecDistance
  refine le_trans (le_of_eq ?_) (euclideanNorm_add _ _)
  congr 1
  induction x generalizing y z with
  | nil => simp
  | cons a x ih =>
    match y, z, h1, h2 with
    | b :: y, c :: z, h1, h2 =>
      simp only [List.zipWith_cons_cons]
      rw [ih (by simpa using h1) (by simpa using h2)]
      congr 1
      ring

theorem norm_le_distance {x y : List ℝ} (h : x.length = y.length) : euclideanNorm x ≤ euclideanNorm y + vecDistance x y := by
  unfold vecDistance
  refine le_trans (le_of_eq ?_) (euclideanNorm_add _ _)
  congr 1
  induction x generalizing y with
  | nil => simp
  | cons a x ih =>
    match y, h with
    | b :: y, h =>
      simp only [List.zipWith_cons_cons]
      rw [← ih (by simpa using h)]
      congr 1
      ring

theorem vecDistance_comm (x y : List ℝ) : vecDistance x y = vecDistance y x := by
  unfold vecDistance
  have : List.zipWith (· - ·) x y = (List.zipWith (· - ·) y x).map ((-1) * ·) := by
    rw [List.map_zipWith, List.zipWith_comm]
    congr 1
    funext a b
    ring
  rw [this, euclideanNorm_mul]
  simp

/-- Distance of multiples of the same vector. -/
theorem vecDistance_multiples (x : List ℝ) (p q : ℝ) : vecDistance (x.map (p * ·)) (x.map (q * ·)) = |p - q| * euclideanNorm x := by
  unfold vecDistance
  rw [← euclideanNorm_mul]
  congr 1
  induction x with
  | nil => rfl
  | cons a x ih =>
    simp only [List.map_cons, List.zipWith_cons_cons, ih]
    congr 1
    ring

theorem vecDistance_scale (x y : List ℝ) (c : ℝ) : vecDistance (x.map (c * ·)) (y.map (c * ·)) = |c| * vecDistance x y := by
  unfold vecDistance
  rw [← euclideanNorm_mul]
  congr 1
  rw [List.zipWith_map, List.map_zipWith]
  congr 1
  funext a b
  ring

theorem direction_eq (x : List ℝ) : direction x = x.map ((euclideanNorm x)⁻¹ * ·) := by
  unfold direction
  exact List.map_congr_left fun a _ => by ring

/-- Close vectors have close directions. -/
theorem direction_close {x y : List ℝ} (hl : x.length = y.length) (hx : 0 < euclideanNorm x) (hy : 0 < euclideanNorm y) :
    vecDistance (direction x) (direction y) ≤ 2 * vecDistance x y / euclideanNorm y := by
  rw [direction_eq, direction_eq]
  have h1 := vecDistance_triangle (x := x.map ((euclideanNorm x)⁻¹ * ·)) (y := x.map ((euclideanNorm y)⁻¹ * ·))
    (z := y.map ((euclideanNorm y)⁻¹ * ·)) (by simp) (by simpa using hl)
  rw [vecDistance_multiples, vecDistance_scale, abs_of_pos (inv_pos.mpr hy)] at h1
  have h2 : |(euclideanNorm x)⁻¹ - (euclideanNorm y)⁻¹| * euclideanNorm x = |euclideanNorm y - euclideanNorm x| / euclideanNorm y := by
    have : (euclideanNorm x)⁻¹ - (euclideanNorm y)⁻¹ = (euclideanNorm y - euclideanNorm x) / (euclideanNorm x * euclideanNorm y) := by
      field_simp
    rw [this, abs_div, abs_of_pos (mul_pos hx hy)]
    field_simp
  have h3 : |euclideanNorm y - euclideanNorm x| ≤ vecDistance x y := by
    have a1 := norm_le_distance hl
    have a2 := norm_le_distance hl.symm
    rw [vecDistance_comm y x] at a2
    rw [abs_le]
    constructor <;> linarith
  rw [h2] at h1
  refine le_trans h1 ?_
  have : |euclideanNorm y - euclideanNorm x| / euclideanNorm y ≤ vecDistance x y / euclideanNorm y :=
    div_le_div_of_nonneg_right h3 hy.le
  calc _ ≤ vecDistance x y / euclideanNorm y + (euclideanNorm y)⁻¹ * vecDistance x y := by linarith
    _ = _ := by ring

/-! ## Sums of columns -/

/-- Specification: the sums of the columns of rows of `d` components. -/
def columnSums (d : Nat) (rows : List (List ℝ)) : List ℝ := (List.range d).map fun j => (rows.map fun r => r.getD j 0).sum

theorem columnSums_length (d : Nat) (rows : List (List ℝ)) : (columnSums d rows).length = d := by simp [columnSums]

theorem columnSums_cons {d : Nat} {r : List ℝ} (rows : List (List ℝ)) (h : r.length = d) :
    columnSums d (r :: rows) = List.zipWith (· + ·) r (columnSums d rows) := by
  apply List.ext_getElem
  · simp [columnSums, h]
  · intro j h1 h2
    simp only [columnSums, List.length_map, List.length_range] at h1
    simp [columnSums, List.getD_eq_getElem?_getD, List.getElem?_eq_getElem (h ▸ h1 : j < r.length)]

theorem columnSums_nil (d : Nat) : columnSums d [] = List.replicate d 0 := by
  unfold columnSums
  apply List.ext_getElem <;> simp

theorem columnSums_norm {d : Nat} {rows : List (List ℝ)} (h : ∀ r ∈ rows, r.length = d) :
    euclideanNorm (columnSums d rows) ≤ (rows.map euclideanNorm).sum := by
  induction rows with
  | nil =>
    rw [columnSums_nil]
    have := euclideanNorm_replicate d 0
    simpa using this
  | cons r rows ih =>
    rw [columnSums_cons rows (h r (by simp)), List.map_cons, List.sum_cons]
    exact le_trans (euclideanNorm_add _ _) (add_le_add le_rfl (ih fun r' hr' => h r' (by simp [hr'])))

/-- Adding rows to a row. -/
theorem foldl_columnSums {d : Nat} {rows : List (List ℝ)} (h : ∀ r ∈ rows, r.length = d) {a : List ℝ} (ha : a.length = d) :
    rows.foldl (List.zipWith (· + ·)) a = columnSums d (a :: rows) := by
  induction rows generalizing a with
  | nil =>
    rw [columnSums_cons _ ha, columnSums_nil]
    subst ha
    clear h
    induction a with
    | nil => rfl
    | cons b a ih => simp only [List.foldl_nil, List.length_cons, List.replicate_succ, List.zipWith_cons_cons, add_zero]; rw [← ih]; rfl
  | cons r rows ih =>
    have hr := h r (by simp)
    rw [List.foldl_cons, ih (fun r' hr' => h r' (by simp [hr'])) (by simp [ha, hr]),
      columnSums_cons _ (by simp [ha, hr]), columnSums_cons _ ha, columnSums_cons _ hr]
    apply List.ext_getElem
    · simp [ha, hr, columnSums_length]
    · intro j _ _
      simp [add_assoc]

/-- An example: the sums of the columns of two rows, and the direction of a vector. -/
example : columnSums 2 [[1, 2], [3, 5]] = [4, 7] ∧ direction [3, 4] = [3 / 5, 4 / 5] ∧ vecDistance [1, 2] [4, 6] = 5 := by
  have h5 : Real.sqrt 25 = 5 := by rw [show (25 : ℝ) = 5 ^ 2 by norm_num]; exact Real.sqrt_sq (by norm_num)
  refine ⟨by simp [columnSums, List.range_succ]; norm_num, ?_, ?_⟩
  · simp only [direction, euclideanNorm, sumSquares, List.map_cons, List.map_nil, List.sum_cons, List.sum_nil]
    rw [show (3 : ℝ) ^ 2 + (4 ^ 2 + 0) = 25 by norm_num, h5]
  · simp only [vecDistance, euclideanNorm, sumSquares, List.zipWith_cons_cons, List.zipWith_nil_left, List.map_cons, List.map_nil, List.sum_cons, List.sum_nil]
    rw [show ((1 : ℝ) - 4) ^ 2 + ((2 - 6) ^ 2 + 0) = 25 by norm_num, h5]

end FF
