import Verif.Lemmas.FloatVec
import Verif.Props.FloatQuery
import Verif.Props.Vectors

/-!
# Vectors computed from several rows in single precision (C91)

The vector of an unknown word is a normalised sum of rows, a fastText word vector is a normalised average of rows, an analogy looks for
a normalised sum of three rows. In exact arithmetic these are the directions of the sums. This file bounds how far the computed vectors
are from these directions.
-/

namespace FF
namespace Ieee

attribute [local instance] scalar scalarNat

/-! ## Normalisation -/

/-- **C91** (one vector). A normalised vector is close to the direction of the vector. -/
theorem c91_direction {v : List F32} (h : Moderate v) :
    (∀ x ∈ (l2Normalize v).1, Finite x) ∧
    vecDistance ((l2Normalize v).1.map val) (direction (v.map val)) ≤ ((v.length / 8 + 24 : Nat) : ℝ) / 2 ^ 23 := by
  obtain ⟨hl, hfin, hlo, hhi⟩ := h
  obtain ⟨hf, hn⟩ := c76_finite hl hfin hlo hhi
  obtain ⟨hm, he, hc⟩ := component_facts hl hf hn
  have hnorm := c76_norm hl hf hn
  have hN0 : 0 < val (l2Normalize v).2 := lt_of_lt_of_le (by positivity) hn
  refine ⟨(c76_unit hl hf hn).1, ?_⟩
  rw [he, List.map_map]
  generalize (l2Normalize v).2 = N at *
  have hr0 : 0 < euclideanNorm (v.map val) := lt_of_lt_of_le (by positivity) hlo
  have h1 := vecDistance_triangle (x := v.map (val ∘ fun x => div x N)) (y := (v.map val).map ((val N)⁻¹ * ·)) (z := direction (v.map val))
    (by simp) (by simp [direction])
  have h2 : vecDistance ((v.map val).map ((val N)⁻¹ * ·)) (direction (v.map val)) =
      |val N - euclideanNorm (v.map val)| / val N := by
    rw [direction_eq, vecDistance_multiples]
    generalize euclideanNorm (v.map val) = r at *
    have : (val N)⁻¹ - r⁻¹ = (r - val N) / (val N * r) := by field_simp
    rw [this, abs_div, abs_of_pos (mul_pos hN0 hr0), abs_sub_comm]
    field_simp
  have h3 : vecDistance (v.map (val ∘ fun x => div x N)) ((v.map val).map ((val N)⁻¹ * ·)) ≤
      roundoff * (euclideanNorm (v.map val) / val N) + (v.length : ℝ) * (1 / 2 ^ 150) := by
    have hk : List.Forall₂ (fun a b => |a| ≤ b)
        (List.zipWith (· - ·) (v.map (val ∘ fun x => div x N)) ((v.map val).map ((val N)⁻¹ * ·)))
        (List.zipWith (· + ·) ((v.map val).map fun a => roundoff * (|a| / val N)) (List.replicate v.length (1 / 2 ^ 150))) := by
      clear h1 h2 hnorm hlo hhi hfin he hl hr0
      induction v with
      | nil => exact .nil
      | cons x v ih =>
        refine .cons ?_ (ih fun y hy => hc y (by simp [hy]))
        obtain ⟨-, -, -, h4⟩ := hc x (by simp)
        rw [abs_div, abs_of_pos hN0] at h4
        show |val (div x N) - (val N)⁻¹ * val x| ≤ _
        rwa [inv_mul_eq_div]
    refine le_trans (euclideanNorm_mono hk) (le_trans (euclideanNorm_add _ _) (add_le_add (le_of_eq ?_) ?_))
    · rw [show (fun a : ℝ => roundoff * (|a| / val N)) = (roundoff * (val N)⁻¹ * ·) ∘ (fun a => |a|) by funext a; simp; ring,
        ← List.map_map, euclideanNorm_mul, euclideanNorm_abs, abs_of_nonneg (mul_nonneg roundoff_pos.le (inv_nonneg.mpr hN0.le))]
      ring
    · refine le_trans (euclideanNorm_replicate _ _) ?_
      rw [abs_of_nonneg (by positivity)]
  rw [h2] at h1
  have hd : (v.length : ℝ) * (1 / 2 ^ 150) ≤ 1 / 2 ^ 130 := by
    have : (v.length : ℝ) ≤ 2 ^ 20 := by exact_mod_cast hl
    refine le_trans (mul_le_mul_of_nonneg_right this (by positivity)) ?_
    norm_num
  have hee : ((v.length / 8 + 20 : Nat) : ℝ) / 2 ^ 24 ≤ 1 / 100 := by
    have : ((v.length / 8 + 20 : Nat) : ℝ) ≤ ((2 ^ 17 + 20 : Nat) : ℝ) := by exact_mod_cast (by omega)
    refine le_trans (div_le_div_of_nonneg_right this (by positivity)) ?_
    norm_num
  have hgoal : ((v.length / 8 + 24 : Nat) : ℝ) / 2 ^ 23 = 2 * (((v.length / 8 + 20 : Nat) : ℝ) / 2 ^ 24) + 8 / 2 ^ 24 := by
    push_cast; ring
  rw [hgoal]
  have he0 : 0 ≤ ((v.length / 8 + 20 : Nat) : ℝ) / 2 ^ 24 := by positivity
  generalize ((v.length / 8 + 20 : Nat) : ℝ) / 2 ^ 24 = ε at *
  generalize euclideanNorm (v.map val) = r at *
  have h5 : r / val N ≤ 1.02 := by
    rw [div_le_iff₀ hN0]
    have := (abs_le.mp hnorm).1
    nlinarith
  have h6 : |val N - r| / val N ≤ ε * 1.02 := by
    calc |val N - r| / val N ≤ ε * r / val N := div_le_div_of_nonneg_right hnorm hN0.le
      _ = ε * (r / val N) := by ring
      _ ≤ _ := mul_le_mul_of_nonneg_left h5 he0
  have h7 : roundoff * (r / val N) ≤ 1.02 / 2 ^ 24 := by
    have := mul_le_mul_of_nonneg_left h5 roundoff_pos.le
    refine le_trans this ?_
    unfold roundoff; norm_num
  have h8 : (1 : ℝ) / 2 ^ 130 ≤ 1 / 2 ^ 24 := by norm_num
  norm_num at *
  linarith

/-- **C91** (general form). If a computed vector `v` has distance at most `κ` from an exact vector `s`, normalising it gives the
direction of `s`, up to `2 κ / |s|` and the errors of normalisation. -/
theorem c91_normalize {v : List F32} {s : List ℝ} {κ : ℝ} (hl : v.length = s.length) (hd : v.length ≤ 2 ^ 20) (hf : ∀ x ∈ v, Finite x)
    (hk : vecDistance (v.map val) s ≤ κ) (hk2 : 2 * κ ≤ euclideanNorm s) (hlo : 1 / 2 ^ 30 ≤ euclideanNorm s)
    (hhi : euclideanNorm s ≤ 2 ^ 48) :
    Moderate v ∧ vecDistance ((l2Normalize v).1.map val) (direction s) ≤ 2 * κ / euclideanNorm s + ((v.length / 8 + 24 : Nat) : ℝ) / 2 ^ 23 := by
  have hlm : (v.map val).length = s.length := by simpa using hl
  have a1 := norm_le_distance hlm
  have a2 := norm_le_distance hlm.symm
  rw [vecDistance_comm s] at a2
  have hs0 : 0 < euclideanNorm s := lt_of_lt_of_le (by positivity) hlo
  have hv1 : 1 / 2 ^ 31 ≤ euclideanNorm (v.map val) := by
    have : (1 : ℝ) / 2 ^ 31 = 1 / 2 ^ 30 / 2 := by norm_num
    rw [this]; linarith
  have hv2 : euclideanNorm (v.map val) ≤ 2 ^ 49 := by
    have : (2 : ℝ) ^ 49 = 2 * 2 ^ 48 := by norm_num
    rw [this]; linarith
  have hm : Moderate v := ⟨hd, hf, hv1, hv2⟩
  refine ⟨hm, ?_⟩
  have h1 := (c91_direction hm).2
  have h2 := direction_close hlm (lt_of_lt_of_le (by positivity) hv1) hs0
  have h3 := vecDistance_triangle (x := (l2Normalize v).1.map val) (y := direction (v.map val)) (z := direction s)
    (by simp [direction, l2Normalize_length]) (by simpa [direction] using hl)
  have h4 : 2 * vecDistance (v.map val) s / euclideanNorm s ≤ 2 * κ / euclideanNorm s :=
    div_le_div_of_nonneg_right (by linarith) hs0.le
  linarith

/-! ## Sums -/

/-- The sum of the lengths of vectors. -/
noncomputable def totalLength (rows : List (List F32)) : ℝ := (rows.map fun r => euclideanNorm (r.map val)).sum

/-- Specification: the exact sum of vectors of floats. -/
noncomputable def exactSum (d : Nat) (rows : List (List F32)) : List ℝ := columnSums d (rows.map (List.map val))

theorem zipWith_zero (x : List ℝ) : List.zipWith (· + ·) (List.replicate x.length 0) x = x := by
  induction x with
  | nil => rfl
  | cons a x ih => simp only [List.length_cons, List.replicate_succ, List.zipWith_cons_cons, zero_add, ih]

theorem columnSums_zero {d : Nat} (rows : List (List ℝ)) : columnSums d (List.replicate d 0 :: rows) = columnSums d rows := by
  rw [columnSums_cons _ (by simp)]
  conv_lhs => rw [show List.replicate d (0 : ℝ) = List.replicate (columnSums d rows).length 0 by rw [columnSums_length]]
  exact zipWith_zero _

theorem columnSums_one {rows : List (List ℝ)} (h : ∀ r ∈ rows, r.length = 1) : columnSums 1 rows = [rows.flatten.sum] := by
  induction rows with
  | nil => rw [columnSums_nil]; rfl
  | cons r rows ih =>
    have hr := h r (by simp)
    rw [columnSums_cons _ hr, ih fun r' hr' => h r' (by simp [hr'])]
    match r, hr with
    | [a], _ => simp

theorem abs_rows_norm (rows : List (List F32)) :
    ((rows.map (List.map fun a => |val a|)).map euclideanNorm).sum = totalLength rows := by
  unfold totalLength
  rw [List.map_map]
  congr 1
  refine List.map_congr_left fun r _ => ?_
  show euclideanNorm (r.map fun a => |val a|) = _
  rw [← euclideanNorm_abs (r.map val), List.map_map]
  rfl

/-- `sum_axis(0)`, component by component. -/
theorem sumAxis0_terms (m : Mat F32) (hw : ∀ r ∈ m.rows, r.length = m.cols) (hf : ∀ r ∈ m.rows, ∀ a ∈ r, Finite a) :
    Terms Safe (m.rows.length + 12) m.sumAxis0 (exactSum m.cols m.rows)
      (columnSums m.cols (m.rows.map (List.map fun a => |val a|))) := by
  unfold Mat.sumAxis0 exactSum
  split
  · next h1 =>
    rw [h1] at hw ⊢
    have hff : ∀ a ∈ m.rows.flatten, Finite a := fun a ha => by
      obtain ⟨r, hr, har⟩ := List.mem_flatten.mp ha
      exact hf r hr a har
    have hlen : m.rows.flatten.length = m.rows.length := by
      rw [List.length_flatten]
      generalize m.rows = rows at hw
      induction rows with
      | nil => rfl
      | cons r rows ih =>
        rw [List.map_cons, List.sum_cons, List.length_cons, ih fun r' hr' => hw r' (by simp [hr']), hw r (by simp)]
        omega
    have h := unrolledSumF_approx sumRel_safe m.rows.flatten.length (terms_replicate sumRel_safe 0 8) (terms_val hff) (by simp) le_rfl
    simp only [List.sum_replicate, smul_zero, zero_add] at h
    rw [columnSums_one (by simpa using hw), columnSums_one (by simpa using hw), ← List.map_flatten, ← List.map_flatten]
    refine .cons (sumRel_safe.mono h ?_) .nil
    rw [hlen]; omega
  · have h := Terms.fold (terms_replicate sumRel_safe 0 m.cols) m.rows hf
    rw [foldl_columnSums (d := m.cols) (by simpa using hw) (by simp), foldl_columnSums (d := m.cols) (by simpa using hw) (by simp),
      columnSums_zero, columnSums_zero] at h
    exact Terms.mono sumRel_safe h (by omega)

theorem growth_count {n : Nat} (hn : n ≤ 2 ^ 16) : (1 + roundoff) ^ (n + 13) ≤ 1.02 ∧
    (1 + roundoff) ^ (n + 13) - 1 ≤ ((n + 13 : Nat) : ℝ) / 2 ^ 23 := by
  have hk : ((n + 13 : Nat) : ℝ) * roundoff ≤ 1 / 100 := by
    have : ((n + 13 : Nat) : ℝ) ≤ ((2 ^ 16 + 13 : Nat) : ℝ) := by exact_mod_cast (by omega)
    refine le_trans (mul_le_mul_of_nonneg_right this roundoff_pos.le) ?_
    unfold roundoff; norm_num
  have h := growth hk
  refine ⟨by linarith, le_trans h ?_⟩
  have h0 : (0 : ℝ) ≤ ((n + 13 : Nat) : ℝ) := Nat.cast_nonneg _
  unfold roundoff at *
  have : ((n + 13 : Nat) : ℝ) / 2 ^ 23 = 2 * (((n + 13 : Nat) : ℝ) * (1 / 2 ^ 24)) := by ring
  rw [this]
  have : 0 ≤ ((n + 13 : Nat) : ℝ) * (1 / 2 ^ 24) := by positivity
  linarith

/-- A normalised vector can be used as a query. -/
theorem normalized_bounded {v : List F32} (h : Moderate v) :
    Bounded v.length (l2Normalize v).1 ∧ euclideanNorm ((l2Normalize v).1.map val) ≤ 1.1 := by
  obtain ⟨hf, hn⟩ := c76_finite h.1 h.2.1 h.2.2.1 h.2.2.2
  obtain ⟨h1, h2⟩ := c76_unit h.1 hf hn
  have hl := h.1
  have : ((v.length / 8 + 20 : Nat) : ℝ) / 2 ^ 23 ≤ 1 / 10 := by
    have : ((v.length / 8 + 20 : Nat) : ℝ) ≤ ((2 ^ 17 + 20 : Nat) : ℝ) := by exact_mod_cast (by omega)
    refine le_trans (div_le_div_of_nonneg_right this (by positivity)) ?_
    norm_num
  have h3 : euclideanNorm ((l2Normalize v).1.map val) ≤ 1.1 := by
    have := (abs_le.mp h2).2
    norm_num at *
    linarith
  exact ⟨⟨l2Normalize_length v, h1, le_trans h3 (by norm_num)⟩, h3⟩

/-- **C91** (unknown words). Let the n-grams of a word have the rows `rows`, whose exact sum is `s`. If the rows do not cancel
each other out, the vector of the word is the direction of `s`, up to `(n + 13) / 2^22` times the sum of the lengths of the rows
divided by the length of `s`, and the errors of normalisation. -/
theorem c91_unknown {T V S : Type} [Vocab V] [Storage S F32] (e : Embeddings T V S F32) (hb : BatchIsRows e.storage) (w : Str)
    (is : List Nat) (hi : Vocab.idx e.vocab w = .ok (some (.subword is)))
    (rows : List (List F32)) (hr : is.map (Storage.embedding e.storage) = rows.map Res.ok)
    (hl : ∀ r ∈ rows, r.length = e.dims) (hf : ∀ r ∈ rows, ∀ x ∈ r, Finite x)
    (hn : rows.length ≤ 2 ^ 16) (hd : e.dims ≤ 2 ^ 20) (s : List ℝ) (hs : s = exactSum e.dims rows)
    (hhi : totalLength rows ≤ 2 ^ 48) (hlo : 1 / 2 ^ 30 ≤ euclideanNorm s)
    (hc : ((rows.length + 13 : Nat) : ℝ) / 2 ^ 22 * totalLength rows ≤ euclideanNorm s) :
    ∃ v, e.embedding w = .ok (some v) ∧ v.length = e.dims ∧ (∀ x ∈ v, Finite x) ∧ euclideanNorm (v.map val) ≤ 1.1 ∧
      vecDistance (v.map val) (direction s) ≤ ((rows.length + 13 : Nat) : ℝ) / 2 ^ 22 * totalLength rows / euclideanNorm s +
        ((e.dims / 8 + 24 : Nat) : ℝ) / 2 ^ 23 := by
  subst hs
  have hm := ((hb is).1 ⟨(shape e.storage).2, rows⟩).mpr ⟨rfl, hr⟩
  have ht := Terms.mono sumRel_safe (sumAxis0_terms ⟨(shape e.storage).2, rows⟩ hl hf) (Nat.le_succ _)
  have hB : euclideanNorm (columnSums (shape e.storage).2 (rows.map (List.map fun a => |val a|))) ≤ totalLength rows := by
    rw [← abs_rows_norm]
    exact columnSums_norm (by simpa [Embeddings.dims] using hl)
  obtain ⟨g1, g2⟩ := growth_count hn
  have hA0 : 0 ≤ totalLength rows := le_trans (euclideanNorm_nonneg _) hB
  have hg := one_le_growth (rows.length + 13)
  obtain ⟨h1, h2⟩ := Terms.vecDistance ht (by
    refine le_trans (mul_le_mul g1 (le_trans hB hhi) (euclideanNorm_nonneg _) (by norm_num)) (by norm_num))
  have hlen : (Mat.sumAxis0 (⟨(shape e.storage).2, rows⟩ : Mat F32)).length = e.dims := by
    have := ht.lengths.1
    rw [exactSum, columnSums_length] at this
    exact this.symm
  have hκ : vecDistance ((Mat.sumAxis0 (⟨(shape e.storage).2, rows⟩ : Mat F32)).map val) (exactSum e.dims rows) ≤
      ((rows.length + 13 : Nat) : ℝ) / 2 ^ 23 * totalLength rows := by
    refine le_trans h2 (mul_le_mul g2 hB (euclideanNorm_nonneg _) (by positivity))
  have hnorm : euclideanNorm (exactSum e.dims rows) ≤ 2 ^ 48 := by
    refine le_trans (columnSums_norm (by simpa using hl)) (le_trans (le_of_eq ?_) hhi)
    rw [List.map_map]; rfl
  have e22 : ((rows.length + 13 : Nat) : ℝ) / 2 ^ 22 = 2 * (((rows.length + 13 : Nat) : ℝ) / 2 ^ 23) := by ring
  rw [e22] at hc ⊢
  obtain ⟨h3, h4⟩ := c91_normalize (by rw [hlen, exactSum, columnSums_length]) (by rw [hlen]; exact hd) h1 hκ (by linarith) hlo hnorm
  refine ⟨(l2Normalize (Mat.sumAxis0 (⟨(shape e.storage).2, rows⟩ : Mat F32))).1, ?_, by rw [l2Normalize_length, hlen], (c91_direction h3).1,
    (normalized_bounded h3).2, ?_⟩
  · unfold Embeddings.embedding
    rw [hi]
    simp only [Res.ok_bind]
    rw [hm]
    rfl
  · rw [hlen] at h4
    refine le_trans h4 (le_of_eq ?_)
    ring
/-! ## Averages -/

theorem average_near {d : Nat} {row : List F32} {subs : List (List F32)} (hl : ∀ r ∈ row :: subs, r.length = d)
    (hf : ∀ r ∈ row :: subs, ∀ x ∈ r, Finite x) (hn : subs.length ≤ 2 ^ 16) (hd : d ≤ 2 ^ 20)
    (hA : totalLength (row :: subs) ≤ 2 ^ 48) :
    (averageRows row subs).length = d ∧ (∀ x ∈ averageRows row subs, Finite x) ∧
    vecDistance ((averageRows row subs).map val) ((exactSum d (row :: subs)).map (· / ((subs.length + 1 : Nat) : ℝ))) ≤
      ((subs.length + 13 : Nat) : ℝ) / 2 ^ 23 * (totalLength (row :: subs) / ((subs.length + 1 : Nat) : ℝ) + 1 / 2 ^ 106) := by
  obtain ⟨g1, g2⟩ := growth_count hn
  have hrow : row.length = d := hl row (by simp)
  have hsubs : ∀ r ∈ subs, r.length = d := fun r hr => hl r (by simp [hr])
  have h := Terms.fold (terms_val (hf row (by simp))) subs fun r hr => hf r (by simp [hr])
  rw [foldl_columnSums (d := d) (by simpa using hsubs) (by simpa using hrow),
    foldl_columnSums (d := d) (by simpa using hsubs) (by simpa using hrow)] at h
  have h := Terms.mono sumRel_safe h (show 0 + subs.length ≤ subs.length + 12 by omega)
  have hB : euclideanNorm (columnSums d ((row :: subs).map (List.map fun a => |val a|))) ≤ totalLength (row :: subs) := by
    rw [← abs_rows_norm]
    exact columnSums_norm (by simpa using ⟨hrow, hsubs⟩)
  have hB0 := euclideanNorm_nonneg (columnSums d ((row :: subs).map (List.map fun a => |val a|)))
  have hA0 : 0 ≤ totalLength (row :: subs) := le_trans hB0 hB
  have hg12 : (1 + roundoff) ^ (subs.length + 12) ≤ 1.02 :=
    le_trans (pow_le_pow_right₀ (by have := roundoff_pos; linarith) (by omega)) g1
  have hdiv := Terms.div h (n := subs.length + 1) (by omega) (by omega) (by
    intro B hb
    have h1 : B ≤ 2 ^ 48 := le_trans (le_trans (le_abs_self B) (abs_le_euclideanNorm hb)) (le_trans hB hA)
    rcases le_or_gt 0 B with h0 | h0
    · exact le_trans (mul_le_mul hg12 h1 h0 (by norm_num)) (by norm_num)
    · have := mul_nonpos_of_nonneg_of_nonpos (le_trans zero_le_one (one_le_growth (subs.length + 12))) h0.le
      exact le_trans this (by norm_num))
  have hm0 : (0 : ℝ) < ((subs.length + 1 : Nat) : ℝ) := by exact_mod_cast Nat.succ_pos _
  have hm1 : (1 : ℝ) ≤ ((subs.length + 1 : Nat) : ℝ) := by exact_mod_cast Nat.succ_le_succ (Nat.zero_le _)
  have hBm : euclideanNorm ((columnSums d ((row :: subs).map (List.map fun a => |val a|))).map (· / ((subs.length + 1 : Nat) : ℝ) + tiny)) ≤
      totalLength (row :: subs) / ((subs.length + 1 : Nat) : ℝ) + 1 / 2 ^ 106 := by
    have e : ∀ x : List ℝ, x.map (· / ((subs.length + 1 : Nat) : ℝ) + tiny) =
        List.zipWith (· + ·) (x.map (· / ((subs.length + 1 : Nat) : ℝ))) (List.replicate x.length tiny) := by
      intro x
      induction x with
      | nil => rfl
      | cons a x ih => rw [List.map_cons, ih]; simp [List.replicate_succ]
    rw [e]
    refine le_trans (euclideanNorm_add _ _) (add_le_add ?_ ?_)
    · rw [euclideanNorm_div, abs_of_pos hm0]
      exact div_le_div_of_nonneg_right hB hm0.le
    · rw [columnSums_length]
      refine le_trans (euclideanNorm_replicate _ _) ?_
      rw [abs_of_nonneg (by unfold tiny; positivity)]
      exact length_tiny hd
  have hAm : totalLength (row :: subs) / ((subs.length + 1 : Nat) : ℝ) ≤ 2 ^ 48 := le_trans (div_le_self hA0 hm1) hA
  obtain ⟨h1, h2⟩ := Terms.vecDistance hdiv (by
    refine le_trans (mul_le_mul g1 (le_trans hBm (add_le_add hAm le_rfl)) (euclideanNorm_nonneg _) (by norm_num)) (by norm_num))
  refine ⟨?_, h1, le_trans h2 (mul_le_mul g2 hBm (euclideanNorm_nonneg _) (by positivity))⟩
  have := hdiv.lengths.1
  rw [List.length_map] at this
  rw [show averageRows row subs = (subs.foldl (List.zipWith Ieee.add) row).map (Ieee.div · (ofNat (subs.length + 1))) from rfl, ← this]
  exact columnSums_length _ _

theorem normalised_near {d : Nat} {v : List F32} {s : List ℝ} {κ : ℝ} (a1 : v.length = d) (hs : s.length = d) (hd : d ≤ 2 ^ 20)
    (a2 : ∀ x ∈ v, Finite x) (a3 : vecDistance (v.map val) s ≤ κ) (hc : 2 * κ ≤ euclideanNorm s) (hlo : 1 / 2 ^ 30 ≤ euclideanNorm s)
    (hsn : euclideanNorm s ≤ 2 ^ 48) :
    (l2Normalize v).1.length = d ∧ (∀ x ∈ (l2Normalize v).1, Finite x) ∧ Finite (l2Normalize v).2 ∧
    vecDistance ((l2Normalize v).1.map val) (direction s) ≤ 2 * κ / euclideanNorm s + ((d / 8 + 24 : Nat) : ℝ) / 2 ^ 23 ∧
    |val (l2Normalize v).2 - euclideanNorm s| ≤ ((d / 8 + 20 : Nat) : ℝ) / 2 ^ 24 * euclideanNorm s + 2 * κ := by
  obtain ⟨b1, b2⟩ := c91_normalize (by rw [a1, hs]) (by rw [a1]; exact hd) a2 a3 hc hlo hsn
  obtain ⟨c1, c2⟩ := c76_finite b1.1 b1.2.1 b1.2.2.1 b1.2.2.2
  have c3 := c76_norm b1.1 c1 c2
  rw [a1] at b2 c3
  refine ⟨by rw [l2Normalize_length, a1], (c91_direction b1).1, c1, b2, ?_⟩
  have hlm : (v.map val).length = s.length := by rw [List.length_map, a1, hs]
  have d1 := norm_le_distance hlm
  have d2 := norm_le_distance hlm.symm
  rw [vecDistance_comm s] at d2
  have hee : ((d / 8 + 20 : Nat) : ℝ) / 2 ^ 24 ≤ 1 / 2 := by
    have : ((d / 8 + 20 : Nat) : ℝ) ≤ ((2 ^ 17 + 20 : Nat) : ℝ) := by exact_mod_cast (by omega)
    refine le_trans (div_le_div_of_nonneg_right this (by positivity)) ?_
    norm_num
  have he0 : 0 ≤ ((d / 8 + 20 : Nat) : ℝ) / 2 ^ 24 := by positivity
  generalize ((d / 8 + 20 : Nat) : ℝ) / 2 ^ 24 = ε at *
  generalize euclideanNorm (v.map val) = r at *
  have e1 := abs_le.mp c3
  rw [abs_le]
  constructor <;> nlinarith

/-- **C91** (fastText). After a fastText model is read, the vector of a word is the direction of the exact average of the word's row
and its n-grams' rows in the file, up to rounding, unless these rows cancel each other out; the norm is the length of that average, up
to rounding. -/
theorem c91_fasttext {T : Type} [ConfigToml T] (lossy : Bool) (b : Bytes) (pos q : Nat)
    (e : Embeddings T FastTextSubwordVocab (NdArray F32) F32) (h : Embeddings.readFastText lossy b pos = .ok (e, q)) :
    ∃ (f : FtFile) (norms : List F32), Took b pos q f.bytes ∧ e.norms = some ⟨norms⟩ ∧
      ∀ (i : Nat) (w : Str), e.vocab.words[i]? = some w →
        ∃ (row : List F32) (is : Option (List Nat)) (subs : List (List F32)) (v : List F32) (n : F32),
          f.rows[i]? = some row ∧ e.vocab.subwordIndices w = .ok is ∧ (is.getD []).map (fun j => f.rows[j]?) = subs.map some ∧
          e.storage.inner.rows[i]? = some v ∧ norms[i]? = some n ∧
          ∀ (s : List ℝ) (κ : ℝ), s = (exactSum f.cols (row :: subs)).map (· / ((subs.length + 1 : Nat) : ℝ)) →
            κ = ((subs.length + 13 : Nat) : ℝ) / 2 ^ 23 * (totalLength (row :: subs) / ((subs.length + 1 : Nat) : ℝ) + 1 / 2 ^ 106) →
            (∀ r ∈ row :: subs, ∀ x ∈ r, Finite x) → subs.length ≤ 2 ^ 16 → f.cols ≤ 2 ^ 20 → totalLength (row :: subs) ≤ 2 ^ 48 →
            1 / 2 ^ 30 ≤ euclideanNorm s → 2 * κ ≤ euclideanNorm s →
            v.length = f.cols ∧ (∀ x ∈ v, Finite x) ∧ Finite n ∧
            vecDistance (v.map val) (direction s) ≤ 2 * κ / euclideanNorm s + ((f.cols / 8 + 24 : Nat) : ℝ) / 2 ^ 23 ∧
            |val n - euclideanNorm s| ≤ ((f.cols / 8 + 20 : Nat) : ℝ) / 2 ^ 24 * euclideanNorm s + 2 * κ := by
  obtain ⟨f, ws, ht, hvo, hmo, hrl, hd, ⟨ix, hix, hv⟩, -, norms, hnorms, -, hr⟩ := (c53_accepts lossy b pos q e).mp h
  have hid : f.rows.map (List.map FloatBits.ofBits) = f.rows := by
    have : (List.map FloatBits.ofBits : List F32 → List F32) = id := by funext l; exact List.map_id l
    rw [this, List.map_id]
  rw [hid] at hr
  refine ⟨f, norms, ht, hnorms, fun i w hi => ?_⟩
  obtain ⟨-, hw, -⟩ := ft_vocab_fields hix hv
  rw [hw] at hi
  obtain ⟨out, norm, h1, h2, row, avg, h3, h4, rfl, rfl⟩ := hr.words i w hi
  have core : ∀ (subs : List (List F32)), (∀ r ∈ subs, r.length = f.cols) →
      (avg = averageRows row subs ∨ avg = row ∧ subs = []) →
      ∀ (s : List ℝ) (κ : ℝ), s = (exactSum f.cols (row :: subs)).map (· / ((subs.length + 1 : Nat) : ℝ)) →
        κ = ((subs.length + 13 : Nat) : ℝ) / 2 ^ 23 * (totalLength (row :: subs) / ((subs.length + 1 : Nat) : ℝ) + 1 / 2 ^ 106) →
        (∀ r ∈ row :: subs, ∀ x ∈ r, Finite x) → subs.length ≤ 2 ^ 16 → f.cols ≤ 2 ^ 20 → totalLength (row :: subs) ≤ 2 ^ 48 →
        1 / 2 ^ 30 ≤ euclideanNorm s → 2 * κ ≤ euclideanNorm s →
        (l2Normalize avg).1.length = f.cols ∧ (∀ x ∈ (l2Normalize avg).1, Finite x) ∧ Finite (l2Normalize avg).2 ∧
        vecDistance ((l2Normalize avg).1.map val) (direction s) ≤ 2 * κ / euclideanNorm s + ((f.cols / 8 + 24 : Nat) : ℝ) / 2 ^ 23 ∧
        |val (l2Normalize avg).2 - euclideanNorm s| ≤ ((f.cols / 8 + 20 : Nat) : ℝ) / 2 ^ 24 * euclideanNorm s + 2 * κ := by
    intro subs hsl havg s κ hs hκ hfin hn hdim hA hlo hc
    have hrow : row.length = f.cols := hmo.rect row (List.mem_of_getElem? h3)
    have hl : ∀ r ∈ row :: subs, r.length = f.cols := by
      intro r hr
      rcases List.mem_cons.mp hr with rfl | hr
      · exact hrow
      · exact hsl r hr
    have hA0 : 0 ≤ totalLength (row :: subs) :=
      List.sum_nonneg (by intro x hx; obtain ⟨r, -, rfl⟩ := List.mem_map.mp hx; exact euclideanNorm_nonneg _)
    have hm1 : (1 : ℝ) ≤ ((subs.length + 1 : Nat) : ℝ) := by exact_mod_cast Nat.succ_le_succ (Nat.zero_le _)
    have hκ0 : 0 ≤ κ := by rw [hκ]; positivity
    have near : avg.length = f.cols ∧ (∀ x ∈ avg, Finite x) ∧ vecDistance (avg.map val) s ≤ κ := by
      rcases havg with rfl | ⟨rfl, rfl⟩
      · rw [hs, hκ]; exact average_near hl hfin hn hdim hA
      · refine ⟨hrow, hfin _ (by simp), ?_⟩
        have : s = avg.map val := by
          rw [hs]
          unfold exactSum
          rw [List.map_cons, List.map_nil, columnSums_cons _ (by simpa using hrow), columnSums_nil]
          apply List.ext_getElem
          · simp [hrow]
          · intro j _ _; simp
        rw [this, vecDistance_self]; exact hκ0
    have hsl' : s.length = f.cols := by rw [hs, List.length_map]; exact columnSums_length _ _
    have hsn : euclideanNorm s ≤ 2 ^ 48 := by
      rw [hs, euclideanNorm_div, abs_of_pos (by linarith)]
      refine le_trans (div_le_self (euclideanNorm_nonneg _) hm1) ?_
      refine le_trans (columnSums_norm ?_) (le_trans (le_of_eq ?_) hA)
      · intro r hr
        obtain ⟨r', h5, rfl⟩ := List.mem_map.mp hr
        simpa using hl r' h5
      · rw [List.map_map]; rfl
    obtain ⟨a1, a2, a3⟩ := near
    exact normalised_near a1 hsl' hdim a2 a3 hc hlo hsn
  rcases h4 with ⟨h5, rfl⟩ | ⟨is, subs, h5, h6, rfl⟩
  · exact ⟨avg, none, [], _, _, h3, h5, rfl, h1, h2, core [] (by simp) (.inr ⟨rfl, rfl⟩)⟩
  · refine ⟨row, some is, subs, _, _, h3, h5, h6, h1, h2, core subs (fun r hr => ?_) (.inl rfl)⟩
    have : some r ∈ is.map (fun j => f.rows[j]?) := by rw [h6]; exact List.mem_map_of_mem hr
    obtain ⟨j, -, hj⟩ := List.mem_map.mp this
    exact hmo.rect r (List.mem_of_getElem? hj)

/-! ## Queries -/

theorem realDot_le (x y : List ℝ) : |(List.zipWith (· * ·) x y).sum| ≤ euclideanNorm x * euclideanNorm y := by
  induction x generalizing y with
  | nil => simp [euclideanNorm_nil]
  | cons a x ih =>
    cases y with
    | nil => simp [euclideanNorm_nil]
    | cons b y =>
      have h := ih y
      have ex := euclideanNorm_cons_sq a x
      have ey := euclideanNorm_cons_sq b y
      have nx := euclideanNorm_nonneg x
      have ny := euclideanNorm_nonneg y
      have nx' := euclideanNorm_nonneg (a :: x)
      have ny' := euclideanNorm_nonneg (b :: y)
      rw [List.zipWith_cons_cons, List.sum_cons]
      generalize euclideanNorm x = p at *
      generalize euclideanNorm y = q at *
      generalize euclideanNorm (a :: x) = p' at *
      generalize euclideanNorm (b :: y) = q' at *
      refine le_trans (abs_add_le _ _) (le_trans (add_le_add le_rfl h) ?_)
      refine abs_le_of_sq_le_sq' ?_ (mul_nonneg nx' ny') |>.2
      rw [mul_pow, ex, ey, abs_mul, ← sq_abs a, ← sq_abs b]
      nlinarith [sq_nonneg (|a| * q - |b| * p)]

/-- Specification: the inner product of the values of a vector of floats and a vector of real numbers. -/
noncomputable def innerProduct (x : List F32) (t : List ℝ) : ℝ := (List.zipWith (fun a b => val a * b) x t).sum

/-- How far the similarity of a row may be from the inner product of the row with a direction, if the query vector has distance at most
`δ` from that direction. -/
noncomputable def similarityError (d : Nat) (δ : ℝ) (row : List F32) : ℝ :=
  euclideanNorm (row.map val) * (δ + ((d / 8 + 13 : Nat) : ℝ) / 2 ^ 23) + 1 / 2 ^ 106

theorem innerProduct_near {x q : List F32} {t : List ℝ} (hq : q.length = t.length) :
    |exactDot x q - innerProduct x t| ≤ euclideanNorm (x.map val) * vecDistance (q.map val) t := by
  unfold exactDot innerProduct vecDistance
  have e : (List.zipWith (fun a b => val a * val b) x q).sum - (List.zipWith (fun a b => val a * b) x t).sum =
      (List.zipWith (· * ·) (x.map val) (List.zipWith (· - ·) (q.map val) t)).sum := by
    induction x generalizing q t with
    | nil => simp
    | cons a x ih =>
      match q, t, hq with
      | [], [], _ => simp
      | b :: q, c :: t, hq =>
        have := ih (q := q) (t := t) (by simpa using hq)
        simp only [List.map_cons, List.zipWith_cons_cons, List.sum_cons]
        rw [← this]
        ring
  rw [e]
  exact realDot_le _ _

/-- Specification: `r` ranks words by their inner product with the direction `t`, up to the errors `err`. -/
structure NearlyRanked (ws : List Str) (rows : List (List F32)) (skip : List Str) (t : List ℝ) (err : List F32 → ℝ)
    (r : List (WordSim F32)) : Prop where
  similarity : ∀ a ∈ r, ∃ (i : Nat) (row : List F32), ws[i]? = some a.word ∧ a.word ∉ skip ∧ rows[i]? = some row ∧
    Finite a.similarity ∧ |val a.similarity - innerProduct row t| ≤ err row
  rest : ∀ (i j : Nat) (u v : Str) (ru rv : List F32), ws[i]? = some u → rows[i]? = some ru → ws[j]? = some v → rows[j]? = some rv →
    u ∈ r.map (·.word) → v ∉ r.map (·.word) → v ∉ skip → innerProduct rv t ≤ innerProduct ru t + err ru + err rv

section
variable {T V S : Type} [Vocab V] [Storage S F32] [StorageView S F32]

theorem similarity_near {d : Nat} (hd : d ≤ 2 ^ 20) {row q : List F32} (hr : Bounded d row) (hq : Bounded d q)
    (hq1 : euclideanNorm (q.map val) ≤ 1.1) {t : List ℝ} (ht : t.length = d) {δ : ℝ} (hδ : vecDistance (q.map val) t ≤ δ) :
    |val (Scalar.dot row q) - innerProduct row t| ≤ similarityError d δ row := by
  obtain ⟨-, -, h1⟩ := bounded_dot hd hr hq
  have h2 := innerProduct_near (x := row) (q := q) (t := t) (by rw [hq.1, ht])
  have h3 : euclideanNorm (row.map val) * vecDistance (q.map val) t ≤ euclideanNorm (row.map val) * δ :=
    mul_le_mul_of_nonneg_left hδ (euclideanNorm_nonneg _)
  have h4 := abs_add_le (val (Scalar.dot row q) - exactDot row q) (exactDot row q - innerProduct row t)
  rw [sub_add_sub_cancel] at h4
  have hk : ((d / 8 + 13 : Nat) : ℝ) / 2 ^ 24 ≤ 1 / 100 := by
    have : ((d / 8 + 13 : Nat) : ℝ) ≤ ((2 ^ 17 + 13 : Nat) : ℝ) := by exact_mod_cast (by omega)
    refine le_trans (div_le_div_of_nonneg_right this (by positivity)) ?_
    norm_num
  have hk0 : 0 ≤ ((d / 8 + 13 : Nat) : ℝ) / 2 ^ 24 := by positivity
  have e23 : ((d / 8 + 13 : Nat) : ℝ) / 2 ^ 23 = 2 * (((d / 8 + 13 : Nat) : ℝ) / 2 ^ 24) := by ring
  unfold similarityError
  unfold dotError at h1
  rw [mul_div_assoc] at h1
  rw [e23]
  have hr0 := euclideanNorm_nonneg (row.map val)
  have hp : (0 : ℝ) < 1 / 2 ^ 106 := by positivity
  generalize ((d / 8 + 13 : Nat) : ℝ) / 2 ^ 24 = k at *
  generalize (1 : ℝ) / 2 ^ 106 = p at *
  generalize euclideanNorm (row.map val) = n at *
  generalize euclideanNorm (q.map val) = m at *
  have h5 : 1.02 * k * (n * m + p) ≤ n * (2 * k) + p := by
    have a1 : k * (n * m) ≤ k * (n * 1.1) := mul_le_mul_of_nonneg_left (mul_le_mul_of_nonneg_left hq1 hr0) hk0
    have a2 : k * p ≤ 1 / 100 * p := mul_le_mul_of_nonneg_right hk hp.le
    have a3 : 0 ≤ k * n := mul_nonneg hk0 hr0
    nlinarith
  linarith

/-- **C91** (rankings). The results of a query with a vector close to the direction `t` are ranked by their inner product with `t`, up
to rounding. -/
theorem c91_ranking {ws : List Str} (hws : ws.Nodup) {m : Mat F32} (hd : m.cols ≤ 2 ^ 20) (hrows : ∀ row ∈ m.rows, Bounded m.cols row)
    {q : List F32} (hq : Bounded m.cols q) (hq1 : euclideanNorm (q.map val) ≤ 1.1) {t : List ℝ} (ht : t.length = m.cols) {δ : ℝ}
    (hδ : vecDistance (q.map val) t ≤ δ) (skip : List Str) (limit : Nat) (r : List (WordSim F32))
    (hr : TopResults limit (candidates ws m.rows q skip) r) :
    NearlyRanked ws m.rows skip t (similarityError m.cols δ) r := by
  have hcand : ∀ c ∈ candidates ws m.rows q skip, ∃ (i : Nat) (row : List F32),
      ws[i]? = some c.word ∧ c.word ∉ skip ∧ m.rows[i]? = some row ∧ c.similarity = Scalar.dot row q := by
    intro c hc
    unfold candidates at hc
    obtain ⟨p, hp, rfl⟩ := List.mem_map.mp hc
    obtain ⟨hp, hw⟩ := List.mem_filter.mp hp
    obtain ⟨i, hi⟩ := List.mem_iff_getElem?.mp hp
    obtain ⟨h1, h2⟩ := List.getElem?_zip_eq_some.mp hi
    exact ⟨i, p.2, h1, by simpa using hw, h2, rfl⟩
  refine ⟨fun a ha => ?_, fun i j u v ru rv hu hru hv hrv hur hvr hvw => ?_⟩
  · obtain ⟨i, row, a1, a2, a3, a4⟩ := hcand a (hr.mem a ha)
    have hb := hrows row (List.mem_of_getElem? a3)
    rw [a4]
    exact ⟨i, row, a1, a2, a3, (bounded_dot hd hb hq).1, similarity_near hd hb hq hq1 ht hδ⟩
  · obtain ⟨a, ha, rfl⟩ := List.mem_map.mp hur
    obtain ⟨i', row, a1, a2, a3, a4⟩ := hcand a (hr.mem a ha)
    have hii : i' = i := by
      obtain ⟨g1, g2⟩ := List.getElem?_eq_some_iff.mp a1
      obtain ⟨g3, g4⟩ := List.getElem?_eq_some_iff.mp hu
      exact (List.Nodup.getElem_inj_iff hws).mp (g2.trans g4.symm)
    subst hii
    rw [a3] at hru
    cases hru
    have hc : (⟨Scalar.dot rv q, v⟩ : WordSim F32) ∈ candidates ws m.rows q skip := by
      unfold candidates
      refine List.mem_map.mpr ⟨(v, rv), List.mem_filter.mpr ⟨?_, by simpa using hvw⟩, rfl⟩
      exact List.mem_iff_getElem?.mpr ⟨j, List.getElem?_zip_eq_some.mpr ⟨hv, hrv⟩⟩
    have hrr := hr.rest _ hc (fun hm => hvr (List.mem_map.mpr ⟨_, hm, rfl⟩)) a ha
    have bu := hrows ru (List.mem_of_getElem? a3)
    have bv := hrows rv (List.mem_of_getElem? hrv)
    have fu := (bounded_dot hd bu hq).1
    have fv := (bounded_dot hd bv hq).1
    have hle : val (Scalar.dot rv q) ≤ val (Scalar.dot ru q) := by
      rw [← a4] at fu ⊢
      by_contra hcon
      push Not at hcon
      have hlt := (lt_val fu fv).mpr hcon
      rcases hrr with hrr | ⟨-, hrr, -⟩
      · have := (lt_val fv fu).mp hrr
        linarith
      · rw [hlt] at hrr; cases hrr
    have e1 := abs_le.mp (similarity_near hd bu hq hq1 ht hδ)
    have e2 := abs_le.mp (similarity_near hd bv hq hq1 ht hδ)
    linarith [e1.1, e1.2, e2.1, e2.2]

omit [Storage S F32] [StorageView S F32] in
theorem noNan_of_bounded (e : Embeddings T V S F32) {m : Mat F32} (hd : m.cols ≤ 2 ^ 20) (hrows : ∀ row ∈ m.rows, Bounded m.cols row)
    {q : List F32} (hq : Bounded m.cols q) : NoNan e m q := by
  intro p hp
  have : p.2 ∈ m.rows := (List.of_mem_zip hp).2
  exact (bounded_dot hd (hrows _ this) hq).2.1

omit [Storage S F32] in
/-- **C91** (`embedding_similarity_masked`). The results are ranked by their inner product with the direction of the query vector, up
to rounding. -/
theorem c91_embedding (e : Embeddings T V S F32) {m : Mat F32} {limit : Nat} {bs : Option Nat} (h : QueryOk e m limit bs)
    (hd : m.cols ≤ 2 ^ 20) (hrows : ∀ row ∈ m.rows, Bounded m.cols row) (query : List F32) (hq : query.length = m.cols)
    (hm : Moderate query) (skip : List Str) :
    ∃ r, e.embeddingSimilarityMasked query limit skip bs = .ok (some r) ∧
      NearlyRanked (Vocab.words e.vocab) m.rows skip (direction (query.map val))
        (similarityError m.cols (((m.cols / 8 + 24 : Nat) : ℝ) / 2 ^ 23)) r := by
  obtain ⟨hb, hb1⟩ := normalized_bounded hm
  rw [hq] at hb
  obtain ⟨r, h1, h2⟩ := c41_embedding e h query skip _ rfl hq ((noNan_of_bounded e hd hrows hb).candidates skip)
  have hδ := (c91_direction hm).2
  rw [hq] at hδ
  exact ⟨r, h1, c91_ranking h.nodup hd hrows hb hb1 (by simp [direction, hq]) hδ skip limit r h2⟩

/-- **C91** (`word_similarity`, unknown words). The results for a word that is not in the vocabulary are ranked by their inner product
with the direction of the exact sum `s` of the rows of the word's n-grams, up to rounding. -/
theorem c91_word (e : Embeddings T V S F32) {m : Mat F32} {limit : Nat} {bs : Option Nat} (h : QueryOk e m limit bs)
    (hrows : ∀ row ∈ m.rows, Bounded m.cols row) (hcols : m.cols = e.dims) (hb : BatchIsRows e.storage) (w : Str)
    (is : List Nat) (hi : Vocab.idx e.vocab w = .ok (some (.subword is)))
    (rows : List (List F32)) (hr : is.map (Storage.embedding e.storage) = rows.map Res.ok)
    (hl : ∀ r ∈ rows, r.length = e.dims) (hf : ∀ r ∈ rows, ∀ x ∈ r, Finite x)
    (hn : rows.length ≤ 2 ^ 16) (hd : e.dims ≤ 2 ^ 20) (s : List ℝ) (hs : s = exactSum e.dims rows)
    (hhi : totalLength rows ≤ 2 ^ 48) (hlo : 1 / 2 ^ 30 ≤ euclideanNorm s)
    (hc : ((rows.length + 13 : Nat) : ℝ) / 2 ^ 22 * totalLength rows ≤ euclideanNorm s) :
    ∃ r, e.wordSimilarity w limit bs = .ok (some r) ∧
      NearlyRanked (Vocab.words e.vocab) m.rows [w] (direction s)
        (similarityError m.cols (((rows.length + 13 : Nat) : ℝ) / 2 ^ 22 * totalLength rows / euclideanNorm s +
          ((m.cols / 8 + 24 : Nat) : ℝ) / 2 ^ 23)) r := by
  obtain ⟨q, h1, h2, h3, h4, h5⟩ := c91_unknown e hb w is hi rows hr hl hf hn hd s hs hhi hlo hc
  rw [← hcols] at hd h2 h5
  have hq : Bounded m.cols q := ⟨h2, h3, le_trans h4 (by norm_num)⟩
  obtain ⟨r, h6, h7⟩ := c41_word e h w q h1 h2 ((noNan_of_bounded e hd hrows hq).candidates [w])
  refine ⟨r, h6, c91_ranking h.nodup hd hrows hq h4 ?_ h5 [w] limit r h7⟩
  rw [hs, hcols]
  simp [direction, exactSum, columnSums_length]

/-- **C91** (`analogy_masked`). The results of an analogy query are ranked by their inner product with the direction of
`b - a + c`, computed exactly, up to rounding. -/
theorem c91_analogy (e : Embeddings T V S F32) {m : Mat F32} {limit : Nat} {bs : Option Nat} (h : QueryOk e m limit bs)
    (hd : m.cols ≤ 2 ^ 20) (hrows : ∀ row ∈ m.rows, Bounded m.cols row) (x y z : Str) (r1 r2 r3 : Bool) {a b c : List F32}
    (ha : e.embedding x = .ok (some a)) (hb : e.embedding y = .ok (some b)) (hc : e.embedding z = .ok (some c))
    (hla : a.length = m.cols) (hlb : b.length = m.cols) (hlc : c.length = m.cols) (hf : ∀ v ∈ [a, b, c], ∀ k ∈ v, Finite k)
    (s : List ℝ) (hs : s = List.zipWith (· + ·) (List.zipWith (· - ·) (b.map val) (a.map val)) (c.map val))
    (hhi : totalLength [a, b, c] ≤ 2 ^ 48) (hlo : 1 / 2 ^ 30 ≤ euclideanNorm s)
    (hcan : 6 / 2 ^ 24 * totalLength [a, b, c] ≤ euclideanNorm s)
    (skip : List Str) (hskip : ∀ w, w ∈ skip ↔ (w = x ∧ r1 = true) ∨ (w = y ∧ r2 = true) ∨ (w = z ∧ r3 = true)) :
    ∃ r, e.analogyMasked x y z r1 r2 r3 limit bs = .ok (.ok r) ∧
      NearlyRanked (Vocab.words e.vocab) m.rows skip (direction s)
        (similarityError m.cols (6 / 2 ^ 24 * totalLength [a, b, c] / euclideanNorm s + ((m.cols / 8 + 24 : Nat) : ℝ) / 2 ^ 23)) r := by
  obtain ⟨t, ht⟩ : ∃ t, t = List.zipWith Ieee.add (List.zipWith Ieee.sub b a) c := ⟨_, rfl⟩
  have hlt : t.length = m.cols := by rw [ht]; simp [hla, hlb, hlc]
  have hoff : IsOffset a b c t := by
    refine ⟨by rw [hlt, hla], by rw [hlt, hlb], by rw [hlt, hlc], fun i p q u h1 h2 h3 => ?_⟩
    rw [ht, List.getElem?_zipWith, List.getElem?_zipWith, h1, h2, h3]
    rfl
  have hterms := Terms.zip sumRel_safe
    (Terms.sub (terms_val (hf b (by simp))) (terms_val (hf a (by simp))))
    (Terms.mono sumRel_safe (terms_val (hf c (by simp))) (Nat.zero_le 1))
  rw [← hs, ← ht] at hterms
  have hB : euclideanNorm (List.zipWith (· + ·) (List.zipWith (· + ·) (b.map fun k => |val k|) (a.map fun k => |val k|)) (c.map fun k => |val k|)) ≤
      totalLength [a, b, c] := by
    have e : ∀ v : List F32, euclideanNorm (v.map fun k => |val k|) = euclideanNorm (v.map val) := fun v => by
      rw [← euclideanNorm_abs (v.map val), List.map_map]; rfl
    refine le_trans (euclideanNorm_add _ _) ?_
    have := euclideanNorm_add (b.map fun k => |val k|) (a.map fun k => |val k|)
    rw [e, e] at this
    rw [e]
    simp only [totalLength, List.map_cons, List.map_nil, List.sum_cons, List.sum_nil]
    linarith
  have hA0 : 0 ≤ totalLength [a, b, c] := le_trans (euclideanNorm_nonneg _) hB
  have g3 : (1 + roundoff) ^ 2 - 1 ≤ 3 / 2 ^ 24 := by unfold roundoff; norm_num
  have g0 : 0 ≤ (1 + roundoff) ^ 2 - 1 := by have := one_le_growth 2; linarith
  obtain ⟨h1, h2⟩ := Terms.vecDistance hterms (by
    have : (1 + roundoff) ^ (0 + 1 + 1) ≤ 2 := by unfold roundoff; norm_num
    refine le_trans (mul_le_mul this (le_trans hB hhi) (euclideanNorm_nonneg _) (by norm_num)) (by norm_num))
  have hκ : vecDistance (t.map val) s ≤ 3 / 2 ^ 24 * totalLength [a, b, c] :=
    le_trans h2 (mul_le_mul g3 hB (euclideanNorm_nonneg _) (by positivity))
  have hsl : s.length = m.cols := by rw [hs]; simp [hla, hlb, hlc]
  have hsn : euclideanNorm s ≤ 2 ^ 48 := by
    refine le_trans ?_ hhi
    rw [hs]
    refine le_trans (euclideanNorm_add _ _) ?_
    have h5 : euclideanNorm (List.zipWith (· - ·) (b.map val) (a.map val)) ≤ euclideanNorm (b.map val) + euclideanNorm (a.map val) := by
      have h6 := euclideanNorm_add (b.map val) ((a.map val).map ((-1) * ·))
      rw [euclideanNorm_mul] at h6
      refine le_trans (le_of_eq ?_) (le_trans h6 (le_of_eq (by simp)))
      congr 1
      generalize b.map val = p
      generalize a.map val = q
      induction p generalizing q with
      | nil => simp
      | cons k p ih =>
        cases q with
        | nil => simp
        | cons l q =>
          simp only [List.map_cons, List.zipWith_cons_cons, ih q]
          congr 1
          ring
    simp only [totalLength, List.map_cons, List.map_nil, List.sum_cons, List.sum_nil]
    linarith
  have e6 : (6 : ℝ) / 2 ^ 24 * totalLength [a, b, c] = 2 * (3 / 2 ^ 24 * totalLength [a, b, c]) := by ring
  rw [e6] at hcan ⊢
  obtain ⟨h3, h4⟩ := c91_normalize (by rw [hlt, hsl]) (by rw [hlt]; exact hd) h1 hκ hcan hlo hsn
  obtain ⟨hbq, hb1⟩ := normalized_bounded h3
  rw [hlt] at hbq h4
  obtain ⟨r, h5, h6⟩ := c45_vector e h x y z r1 r2 r3 ha hb hc hoff hlt _ rfl (noNan_of_bounded e hd hrows hbq) skip hskip
  exact ⟨r, h5, c91_ranking h.nodup hd hrows hbq hb1 (by simp [direction, hsl]) h4 skip limit r h6⟩

end
/-! ## Quantized rows -/

theorem exactDot_le (x y : List F32) : |exactDot x y| ≤ euclideanNorm (x.map val) * euclideanNorm (y.map val) := by
  have := realDot_le (x.map val) (y.map val)
  rwa [List.zipWith_map] at this

/-- **C91** (quantized rows). A row of a quantized matrix with a projection is the product of the centroids `c` with the projection,
times the norm if norms are stored, up to rounding. -/
theorem c91_quantized (a : QuantizedArray F32) (i : Nat) (v : List F32) (h : Storage.embedding a i = .ok v) :
    ∃ (code : List UInt8) (c : List F32), a.codes.rows[i]? = some code ∧ a.quantizer.centroids code = .ok c ∧
      ∀ p, a.quantizer.projection = some p → c.length ≤ 2 ^ 20 → Bounded c.length c → (∀ row ∈ p.rows, Bounded c.length row) →
        v.length = p.rows.length ∧
        ∀ (j : Nat) (row : List F32) (x : F32), p.rows[j]? = some row → v[j]? = some x →
          (a.norms = none → Finite x ∧ |val x - exactDot c row| ≤ dotError c.length c row) ∧
          ∀ ns, a.norms = some ns → ∃ n, ns[i]? = some n ∧ (Finite n → |val n| ≤ 2 ^ 20 →
            Finite x ∧ |val x - exactDot c row * val n| ≤ |val n| * (1.02 * dotError c.length c row +
              1 / 2 ^ 24 * (euclideanNorm (c.map val) * euclideanNorm (row.map val))) + 1 / 2 ^ 150) := by
  have h' : quantizedRow a.quantizer a.norms a.codes.row i = .ok v := h
  unfold quantizedRow at h'
  obtain ⟨code, hcode, h'⟩ := Res.bind_eq_ok.mp h'
  obtain ⟨r, hr, h'⟩ := Res.bind_eq_ok.mp h'
  obtain ⟨c, hc, rfl⟩ := Res.map_eq_ok.mp hr
  refine ⟨code, c, Mat.row_eq_ok.mp hcode, hc, fun p hp hd hcb hpb => ?_⟩
  have hproj : a.quantizer.project c = p.rows.map fun r => Scalar.dot c r := by unfold Pq.project; rw [hp]
  rw [hproj] at h'
  cases hns : a.norms with
  | none =>
    rw [hns] at h'
    cases h'
    refine ⟨by simp, fun j row x hj hx => ⟨fun _ => ?_, fun ns hc => by cases hc⟩⟩
    rw [List.getElem?_map, hj] at hx
    cases hx
    obtain ⟨b1, -, b3⟩ := bounded_dot hd hcb (hpb row (List.mem_of_getElem? hj))
    exact ⟨b1, b3⟩
  | some ns =>
    rw [hns] at h'
    obtain ⟨n, hn, h'⟩ := Res.bind_eq_ok.mp h'
    cases h'
    have hn' : ns[i]? = some n := by
      cases e : ns[i]? with
      | none => rw [e] at hn; cases hn
      | some n' => rw [e] at hn; cases hn; rfl
    unfold scale
    refine ⟨by simp, fun j row x hj hx => ⟨fun hc => (by cases hc), fun ns' hns' => ?_⟩⟩
    cases hns'
    refine ⟨n, hn', fun fn hnb => ?_⟩
    rw [List.getElem?_map, List.getElem?_map, hj] at hx
    cases hx
    obtain ⟨b1, -, b3⟩ := bounded_dot hd hcb (hpb row (List.mem_of_getElem? hj))
    show Finite (mul (Scalar.dot c row) n) ∧ |val (mul (Scalar.dot c row) n) - _| ≤ _
    have hE := exactDot_le c row
    have hcr : euclideanNorm (c.map val) * euclideanNorm (row.map val) ≤ 2 ^ 49 * 2 ^ 49 :=
      mul_le_mul hcb.2.2 (hpb row (List.mem_of_getElem? hj)).2.2 (euclideanNorm_nonneg _) (by positivity)
    have hcr0 : 0 ≤ euclideanNorm (c.map val) * euclideanNorm (row.map val) := mul_nonneg (euclideanNorm_nonneg _) (euclideanNorm_nonneg _)
    have hde : dotError c.length c row ≤ 2 ^ 98 := by
      unfold dotError
      have hk : ((c.length / 8 + 13 : Nat) : ℝ) ≤ ((2 ^ 17 + 13 : Nat) : ℝ) := by exact_mod_cast (by omega)
      have h1 : 1.02 * ((c.length / 8 + 13 : Nat) : ℝ) / 2 ^ 24 ≤ 1 / 2 := by
        rw [div_le_iff₀ (by positivity)]
        norm_num at *
        linarith
      refine le_trans (mul_le_mul h1 (add_le_add hcr (le_refl ((1 : ℝ) / 2 ^ 106))) (by positivity) (by norm_num)) ?_
      norm_num
    have hde0 : 0 ≤ dotError c.length c row := by unfold dotError; positivity
    generalize Scalar.dot c row = y at *
    generalize dotError c.length c row = ε at *
    generalize exactDot c row = z at *
    generalize euclideanNorm (c.map val) * euclideanNorm (row.map val) = B at *
    have hy : |val y| ≤ B + ε := by
      have := abs_add_le (val y - z) z
      rw [sub_add_cancel] at this
      linarith
    have hn0 := abs_nonneg (val n)
    have fm : Finite (mul y n) := by
      refine mul_finite_of b1 fn ?_
      rw [abs_mul]
      refine le_trans (mul_le_mul (le_trans hy (add_le_add hcr hde)) hnb hn0 (by positivity)) ?_
      norm_num
    refine ⟨fm, ?_⟩
    have hm := mul_spec b1 fn fm
    have hu := roundoff_pos
    have hu1 : roundoff ≤ 0.02 := by unfold roundoff; norm_num
    have h24 : (1 : ℝ) / 2 ^ 24 = roundoff := rfl
    rw [h24]
    have e1 : |val (mul y n) - val y * val n| ≤ roundoff * (|val y| * |val n|) + 1 / 2 ^ 150 := by
      refine le_trans hm ?_
      rw [abs_mul]
      have : (0 : ℝ) < 1 / 2 ^ 150 := by positivity
      have h2 : 0 ≤ roundoff * (|val y| * |val n|) := by positivity
      exact max_le (by linarith) (by linarith)
    have e2 : |val y * val n - z * val n| ≤ ε * |val n| := by
      rw [← sub_mul, abs_mul]; exact mul_le_mul_of_nonneg_right b3 hn0
    have e3 := abs_add_le (val (mul y n) - val y * val n) (val y * val n - z * val n)
    rw [sub_add_sub_cancel] at e3
    have e4 : roundoff * (|val y| * |val n|) ≤ roundoff * ((B + ε) * |val n|) :=
      mul_le_mul_of_nonneg_left (mul_le_mul_of_nonneg_right hy hn0) hu.le
    have e5 : roundoff * (ε * |val n|) ≤ 0.02 * (ε * |val n|) := mul_le_mul_of_nonneg_right hu1 (mul_nonneg hde0 hn0)
    nlinarith

/-! ## Examples -/

theorem norm_17 (a b : ℝ) (h : a ^ 2 + b ^ 2 = 17) : 4 ≤ euclideanNorm [a, b] ∧ euclideanNorm [a, b] ≤ 5 := by
  unfold euclideanNorm sumSquares
  simp only [List.map_cons, List.map_nil, List.sum_cons, List.sum_nil, add_zero, h]
  constructor
  · exact Real.le_sqrt_of_sq_le (by norm_num)
  · rw [Real.sqrt_le_left (by norm_num)]; norm_num

theorem exampleVec_val : exampleVec.map val = [1, 4] := by
  unfold exampleVec
  simp only [List.map_cons, List.map_nil, val_one, val_four]

theorem exampleVec_norm' : 4 ≤ euclideanNorm (exampleVec.map val) ∧ euclideanNorm (exampleVec.map val) ≤ 5 := by
  rw [exampleVec_val]; exact norm_17 1 4 (by norm_num)

theorem exampleVec_finite : ∀ x ∈ exampleVec, Finite x := exampleVec_moderate.2.1

/-- The hypotheses of `c91_normalize` hold for a concrete case; that of `c91_direction` is met by `exampleVec_moderate`. -/
example : exampleVec.length = ([1, 9 / 2] : List ℝ).length ∧ exampleVec.length ≤ 2 ^ 20 ∧
    vecDistance (exampleVec.map val) [1, 9 / 2] ≤ 1 / 2 ∧ 2 * (1 / 2) ≤ euclideanNorm [1, 9 / 2] ∧
    1 / 2 ^ 30 ≤ euclideanNorm [1, 9 / 2] ∧ euclideanNorm [1, 9 / 2] ≤ 2 ^ 48 := by
  have h1 : 4 ≤ euclideanNorm [1, 9 / 2] := by
    unfold euclideanNorm sumSquares
    simp only [List.map_cons, List.map_nil, List.sum_cons, List.sum_nil, add_zero]
    exact Real.le_sqrt_of_sq_le (by norm_num)
  have h2 : euclideanNorm [1, 9 / 2] ≤ 5 := by
    unfold euclideanNorm sumSquares
    simp only [List.map_cons, List.map_nil, List.sum_cons, List.sum_nil, add_zero]
    rw [Real.sqrt_le_left (by norm_num)]; norm_num
  refine ⟨rfl, by decide, ?_, by linarith, le_trans (by norm_num) h1, le_trans h2 (by norm_num)⟩
  rw [exampleVec_val]
  unfold vecDistance euclideanNorm sumSquares
  simp only [List.zipWith_cons_cons, List.zipWith_nil_left, List.map_cons, List.map_nil, List.sum_cons, List.sum_nil, add_zero]
  rw [Real.sqrt_le_left (by norm_num)]; norm_num

theorem exampleRows_total : 8 ≤ totalLength [exampleVec, exampleVec] ∧ totalLength [exampleVec, exampleVec] ≤ 10 := by
  simp only [totalLength, List.map_cons, List.map_nil, List.sum_cons, List.sum_nil, add_zero]
  have := exampleVec_norm'
  constructor <;> linarith

theorem exampleRows_sum : exactSum 2 [exampleVec, exampleVec] = [2, 8] := by
  simp only [exactSum, List.map_cons, List.map_nil, exampleVec_val]
  rw [columnSums_cons (d := 2) _ rfl, columnSums_cons (d := 2) _ rfl, columnSums_nil]
  simp only [List.replicate, List.zipWith_cons_cons, List.zipWith_nil_left]
  norm_num

/-- The hypotheses of `c91_unknown` hold for a concrete case, a word with two n-grams. -/
example : ∃ (is : List Nat), BatchIsRows exampleUnknown.storage ∧
    Vocab.idx exampleUnknown.vocab ['b', 'c'] = .ok (some (.subword is)) ∧
    is.map (Storage.embedding exampleUnknown.storage) = [exampleVec, exampleVec].map Res.ok ∧
    (∀ r ∈ [exampleVec, exampleVec], r.length = exampleUnknown.dims) ∧ (∀ r ∈ [exampleVec, exampleVec], ∀ x ∈ r, Finite x) ∧
    [exampleVec, exampleVec].length ≤ 2 ^ 16 ∧ exampleUnknown.dims ≤ 2 ^ 20 ∧ totalLength [exampleVec, exampleVec] ≤ 2 ^ 48 ∧
    1 / 2 ^ 30 ≤ euclideanNorm (exactSum exampleUnknown.dims [exampleVec, exampleVec]) ∧
    (([exampleVec, exampleVec].length + 13 : Nat) : ℝ) / 2 ^ 22 * totalLength [exampleVec, exampleVec] ≤
      euclideanNorm (exactSum exampleUnknown.dims [exampleVec, exampleVec]) := by
  have hs : 8 ≤ euclideanNorm (exactSum exampleUnknown.dims [exampleVec, exampleVec]) := by
    rw [show exampleUnknown.dims = 2 from rfl, exampleRows_sum]
    unfold euclideanNorm sumSquares
    simp only [List.map_cons, List.map_nil, List.sum_cons, List.sum_nil, add_zero]
    exact Real.le_sqrt_of_sq_le (by norm_num)
  have ht := exampleRows_total
  obtain ⟨is, h⟩ : ∃ is, Vocab.idx exampleUnknown.vocab ['b', 'c'] = .ok (some (.subword is)) ∧
      is.map (Storage.embedding exampleUnknown.storage) = [exampleVec, exampleVec].map Res.ok :=
    ⟨[3, 1], by decide +kernel, by decide +kernel⟩
  refine ⟨is, c47_array _, h.1, h.2, ?_, ?_, by decide, by decide, le_trans ht.2 (by norm_num), le_trans (by norm_num) hs, ?_⟩
  · intro r hr; simp at hr; subst hr; rfl
  · intro r hr; simp at hr; subst hr; exact exampleVec_finite
  · refine le_trans (mul_le_mul_of_nonneg_left ht.2 (by positivity)) (le_trans ?_ hs)
    norm_num

/-- One known word and room for the n-grams of other words. -/
def exampleNeighbours : Embeddings Str BucketSubwordVocab (NdArray F32) F32 :=
  ⟨none, ⟨⟨2, [exampleVec, exampleVec, exampleVec, exampleVec, exampleVec]⟩⟩, ⟨['<'], ['>'], ⟨2, 3⟩, indexMap [['a']], [['a']], 3, 3⟩, none⟩

/-- The hypotheses of `c91_word` hold for a concrete case; those on the rows are as for `c91_unknown`. -/
example : QueryOk exampleNeighbours exampleNeighbours.storage.inner 10 none ∧
    (∀ row ∈ exampleNeighbours.storage.inner.rows, Bounded exampleNeighbours.storage.inner.cols row) ∧
    exampleNeighbours.storage.inner.cols = exampleNeighbours.dims ∧ BatchIsRows exampleNeighbours.storage ∧
    Vocab.idx exampleNeighbours.vocab ['b', 'c'] = .ok (some (.subword [4, 2])) ∧
    [4, 2].map (Storage.embedding exampleNeighbours.storage) = [exampleVec, exampleVec].map Res.ok := by
  refine ⟨⟨rfl, rfl, by decide, by decide, by unfold BatchOk; decide, by decide, by decide⟩, ?_, rfl, c47_array _, by decide +kernel, by decide +kernel⟩
  intro row hrow
  simp [exampleNeighbours] at hrow
  subst hrow
  exact ⟨rfl, exampleVec_moderate.2.1, exampleVec_moderate.2.2.2⟩

attribute [local instance] exampleConfigToml

/-- A fastText model whose rows are all `(1, 4)`. -/
def exampleFtFloats : FtFile :=
  { exampleFtFile with rows := [exampleVec, exampleVec, exampleVec, exampleVec, exampleVec] }

/-- The hypotheses of `c91_fasttext` hold for a concrete case, for a word with one n-gram. -/
example : (Embeddings.readFastText false exampleFtFloats.bytes 0 :
      Res (Embeddings FtConfig FastTextSubwordVocab (NdArray F32) F32 × Nat)).map
        (fun r => (r.1.vocab.words, (match r.1.vocab.subwordIndices ['a'] with | .ok (some is) => is | _ => []), r.1.storage.inner.rows, r.2)) =
    .ok ([['a'], ['b', 'c']], [3], [(l2Normalize exampleVec).1, (l2Normalize exampleVec).1, exampleVec, exampleVec, exampleVec],
      exampleFtFloats.bytes.length) ∧
    (∀ r ∈ [exampleVec, exampleVec], ∀ x ∈ r, Finite x) ∧ totalLength [exampleVec, exampleVec] ≤ 2 ^ 48 ∧
    ∃ s : List ℝ, s = (exactSum exampleFtFloats.cols (exampleVec :: [exampleVec])).map (· / (([exampleVec].length + 1 : Nat) : ℝ)) ∧
      1 / 2 ^ 30 ≤ euclideanNorm s ∧ 2 * ((([exampleVec].length + 13 : Nat) : ℝ) / 2 ^ 23 *
        (totalLength (exampleVec :: [exampleVec]) / (([exampleVec].length + 1 : Nat) : ℝ) + 1 / 2 ^ 106)) ≤ euclideanNorm s := by
  have ht := exampleRows_total
  refine ⟨by decide +kernel, ?_, le_trans ht.2 (by norm_num), _, rfl, ?_⟩
  · intro r hr; simp at hr; subst hr; exact exampleVec_finite
  · have hs : 4 ≤ euclideanNorm ((exactSum exampleFtFloats.cols (exampleVec :: [exampleVec])).map (· / (([exampleVec].length + 1 : Nat) : ℝ))) := by
      rw [show exampleFtFloats.cols = 2 from rfl, exampleRows_sum]
      refine le_trans (norm_17 1 4 (by norm_num)).1 (le_of_eq ?_)
      congr 1
      norm_num
    refine ⟨le_trans (by norm_num) hs, le_trans ?_ hs⟩
    have : totalLength (exampleVec :: [exampleVec]) / (([exampleVec].length + 1 : Nat) : ℝ) ≤ 10 :=
      le_trans (div_le_self (by linarith [ht.1]) (by norm_num)) ht.2
    have h2 := mul_le_mul_of_nonneg_left (add_le_add this (le_refl ((1 : ℝ) / 2 ^ 106)))
      (show (0 : ℝ) ≤ (([exampleVec].length + 13 : Nat) : ℝ) / 2 ^ 23 by positivity)
    refine le_trans (mul_le_mul_of_nonneg_left h2 (by norm_num)) ?_
    norm_num

/-- The vector `(4, 1)`. -/
def exampleOther : List F32 := [0x40800000, 0x3f800000]

theorem exampleOther_val : exampleOther.map val = [4, 1] := by
  unfold exampleOther
  simp only [List.map_cons, List.map_nil, val_one, val_four]

theorem exampleFloats_bounded : ∀ row ∈ exampleFloats.storage.inner.rows, Bounded exampleFloats.storage.inner.cols row := by
  have h1 : Bounded 2 exampleVec := ⟨rfl, exampleVec_moderate.2.1, exampleVec_moderate.2.2.2⟩
  have h2 : Bounded 2 exampleOther := by
    refine ⟨rfl, by unfold Finite; decide, ?_⟩
    rw [exampleOther_val]
    exact le_trans (norm_17 4 1 (by norm_num)).2 (by norm_num)
  intro row hrow
  have : row = exampleVec ∨ row = exampleOther := by
    simp only [exampleFloats, List.mem_cons, List.not_mem_nil, or_false] at hrow
    rcases hrow with h | h | h
    · exact .inl h
    · exact .inr h
    · exact .inl h
  rcases this with rfl | rfl
  · exact h1
  · exact h2

theorem exampleFloats_query : QueryOk exampleFloats exampleFloats.storage.inner 1 none :=
  ⟨rfl, rfl, by decide, by decide, by unfold BatchOk; decide, by decide, by decide⟩

/-- The hypotheses of `c91_embedding` and `c91_ranking` hold for a concrete case. -/
example : QueryOk exampleFloats exampleFloats.storage.inner 1 none ∧ exampleFloats.storage.inner.cols ≤ 2 ^ 20 ∧
    (∀ row ∈ exampleFloats.storage.inner.rows, Bounded exampleFloats.storage.inner.cols row) ∧
    exampleVec.length = exampleFloats.storage.inner.cols ∧ Moderate exampleVec ∧
    exampleFloats.embeddingSimilarityMasked exampleVec 1 [['a']] none = .ok (some [⟨1082388604, ['b']⟩]) ∧
    Bounded exampleFloats.storage.inner.cols (l2Normalize exampleVec).1 ∧ euclideanNorm ((l2Normalize exampleVec).1.map val) ≤ 1.1 :=
  ⟨exampleFloats_query, by decide, exampleFloats_bounded, rfl, exampleVec_moderate, by decide +kernel,
    (normalized_bounded exampleVec_moderate).1, (normalized_bounded exampleVec_moderate).2⟩

/-- The hypotheses of `c91_analogy` hold for a concrete case. -/
example : exampleFloats.embedding ['a'] = .ok (some exampleVec) ∧ exampleFloats.embedding ['c'] = .ok (some exampleOther) ∧
    exampleFloats.embedding ['b'] = .ok (some exampleVec) ∧
    (∀ v ∈ [exampleVec, exampleOther, exampleVec], ∀ k ∈ v, Finite k) ∧ totalLength [exampleVec, exampleOther, exampleVec] ≤ 2 ^ 48 ∧
    ∃ s, s = List.zipWith (· + ·) (List.zipWith (· - ·) (exampleOther.map val) (exampleVec.map val)) (exampleVec.map val) ∧
      1 / 2 ^ 30 ≤ euclideanNorm s ∧ 6 / 2 ^ 24 * totalLength [exampleVec, exampleOther, exampleVec] ≤ euclideanNorm s := by
  have hs : 4 ≤ euclideanNorm (List.zipWith (· + ·) (List.zipWith (· - ·) (exampleOther.map val) (exampleVec.map val)) (exampleVec.map val)) := by
    rw [exampleOther_val, exampleVec_val]
    refine le_trans (norm_17 4 1 (by norm_num)).1 (le_of_eq ?_)
    congr 1
    norm_num
  have ht : totalLength [exampleVec, exampleOther, exampleVec] ≤ 15 := by
    simp only [totalLength, List.map_cons, List.map_nil, List.sum_cons, List.sum_nil, add_zero]
    have h1 := exampleVec_norm'.2
    have h2 := (norm_17 4 1 (by norm_num)).2
    rw [← exampleOther_val] at h2
    linarith
  refine ⟨by decide +kernel, by decide +kernel, by decide +kernel, ?_, le_trans ht (by norm_num), _, rfl, le_trans (by norm_num) hs,
    le_trans (mul_le_mul_of_nonneg_left ht (by positivity)) (le_trans (by norm_num) hs)⟩
  unfold Finite; decide
/-- A quantized matrix with a projection and a norm. -/
def exampleProjected : QuantizedArray F32 :=
  ⟨⟨some ⟨2, [exampleVec, exampleOther]⟩, 1, 2, [⟨2, [exampleVec]⟩]⟩, ⟨1, [[0]]⟩, some [0x40800000]⟩

/-- The hypotheses of `c91_quantized` hold for a concrete case; the row is `4 * (17, 8)`. -/
example : Storage.embedding exampleProjected 0 = .ok [0x42880000, 0x42000000] ∧ Bounded 2 exampleVec ∧ Bounded 2 exampleOther ∧
    exampleProjected.quantizer.centroids [0] = .ok exampleVec ∧ Finite 0x40800000 ∧ |val 0x40800000| ≤ 2 ^ 20 := by
  refine ⟨by decide +kernel, exampleFloats_bounded _ (by decide), exampleFloats_bounded _ (by decide), by decide +kernel, finite_four, ?_⟩
  rw [val_four]; norm_num

end Ieee
end FF
