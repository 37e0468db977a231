import Verif.Props.FloatRows
import Verif.Props.FastTextRoundtrip

/-!
# fastText round trip in single precision (C92)
-/

namespace FF
namespace Ieee

attribute [local instance] scalar scalarNat

/-! ## Products and repeated differences -/

theorem safe_product {x y : F32} (hx : Finite x) (hy : Finite y) :
    Safe 1 (Ieee.mul x y) (val x * val y) (|val x * val y| + tiny) := by
  refine ⟨Approx.mul x y, fun h => mul_finite_of hx hy ?_⟩
  have ht : 0 < tiny := by unfold tiny; positivity
  have h0 : 0 ≤ |val x * val y| := abs_nonneg _
  have hu := roundoff_pos
  rw [pow_one] at h
  have : |val x * val y| ≤ 2 ^ 100 := by nlinarith
  exact le_trans this (by norm_num)

/-- A product with a count. -/
theorem safe_times {k : Nat} {a : F32} {A B : ℝ} (h : Safe k a A B) {n : Nat} (h0 : 0 < n) (hn : n < 2 ^ 24)
    (hB : (1 + roundoff) ^ k * B * n ≤ 2 ^ 100) :
    Safe (k + 1) (Ieee.mul a (ofNat n)) (A * n) (B * n + tiny) := by
  obtain ⟨fn, vn, mn⟩ := val_ofNat h0 hn
  have hn0 : (0 : ℝ) < n := by exact_mod_cast h0
  have hn1 : (1 : ℝ) ≤ n := by exact_mod_cast h0
  have ht : 0 < tiny := by unfold tiny; positivity
  have hB0 : 0 ≤ B := le_trans (abs_nonneg A) h.1.1
  have hu := roundoff_pos
  have g := one_le_growth k
  have hB' : (1 + roundoff) ^ k * B ≤ 2 ^ 100 := by
    have : 0 ≤ (1 + roundoff) ^ k * B := mul_nonneg (by linarith) hB0
    nlinarith
  have fa := h.2 hB'
  have va := h.1.abs_le fa
  have hp : |val a * val (ofNat n)| ≤ (1 + roundoff) ^ k * B * n := by
    rw [vn, abs_mul, abs_of_pos hn0]
    exact mul_le_mul_of_nonneg_right va hn0.le
  have ff := mul_finite_of fa fn (le_trans hp (le_trans hB (by norm_num)))
  refine ⟨⟨?_, fun _ => ?_⟩, fun _ => ff⟩
  · rw [abs_mul, abs_of_pos hn0]
    have := mul_le_mul_of_nonneg_right h.1.1 hn0.le
    linarith
  · have e := mul_spec fa fn ff
    have ht2 : (1 : ℝ) / 2 ^ 150 = roundoff * tiny := by unfold roundoff tiny; norm_num
    rw [ht2] at e
    have hd := mul_le_mul_of_nonneg_right (h.1.2 fa) hn0.le
    have e1 : max (roundoff * |val a * val (ofNat n)|) (roundoff * tiny) ≤ roundoff * ((1 + roundoff) ^ k * B * n) + roundoff * tiny := by
      have h2 := mul_le_mul_of_nonneg_left hp hu.le
      have h3 : 0 ≤ roundoff * tiny := by positivity
      have h4 : 0 ≤ roundoff * |val a * val (ofNat n)| := by positivity
      exact max_le (by linarith) (by linarith)
    have e2 : |val a * n - A * n| ≤ ((1 + roundoff) ^ k - 1) * B * n := by
      rw [← sub_mul, abs_mul, abs_of_pos hn0]
      exact hd
    have e3 := abs_add_le (val (Ieee.mul a (ofNat n)) - val a * n) (val a * n - A * n)
    rw [sub_add_sub_cancel] at e3
    rw [vn] at e e1
    have e4 : roundoff * tiny ≤ ((1 + roundoff) ^ (k + 1) - 1) * tiny := by
      refine mul_le_mul_of_nonneg_right ?_ ht.le
      rw [pow_succ]
      nlinarith
    calc _ ≤ roundoff * ((1 + roundoff) ^ k * B * n) + ((1 + roundoff) ^ (k + 1) - 1) * tiny + ((1 + roundoff) ^ k - 1) * B * n := by linarith
      _ = _ := by ring

theorem Terms.products {v : List F32} {n : F32} (h : ∀ a ∈ v, Finite a) (hn : Finite n) :
    Terms Safe 1 (v.map (Ieee.mul · n)) ((v.map val).map (· * val n)) (v.map fun a => |val a * val n| + tiny) := by
  induction v with
  | nil => exact .nil
  | cons a v ih => exact .cons (safe_product (h a (by simp)) hn) (ih fun b hb => h b (by simp [hb]))

theorem Terms.times {k : Nat} {as : List F32} {As Bs : List ℝ} (h : Terms Safe k as As Bs) {n : Nat} (h0 : 0 < n) (hn : n < 2 ^ 24)
    (hB : ∀ B ∈ Bs, (1 + roundoff) ^ k * B * n ≤ 2 ^ 100) :
    Terms Safe (k + 1) (as.map (Ieee.mul · (ofNat n))) (As.map (· * (n : ℝ))) (Bs.map (· * (n : ℝ) + tiny)) := by
  induction h with
  | nil => exact .nil
  | cons h1 _ ih => exact .cons (safe_times h1 h0 hn (hB _ (by simp))) (ih fun B hb => hB B (by simp [hb]))

theorem Terms.foldSub {k : Nat} {as : List F32} {As Bs : List ℝ} (h : Terms Safe k as As Bs) (rows : List (List F32))
    (hr : ∀ r ∈ rows, ∀ a ∈ r, Finite a) :
    Terms Safe (k + rows.length) (rows.foldl (List.zipWith Ieee.sub) as)
      ((rows.map (List.map val)).foldl (List.zipWith (· - ·)) As)
      ((rows.map (List.map fun a => |val a|)).foldl (List.zipWith (· + ·)) Bs) := by
  induction rows generalizing k as As Bs with
  | nil => exact h
  | cons r rows ih =>
    have h1 := Terms.sub h (Terms.mono sumRel_safe (terms_val (hr r (by simp))) (Nat.zero_le k))
    have h2 := ih h1 fun r' hr' => hr r' (by simp [hr'])
    rw [List.length_cons, show k + (rows.length + 1) = k + 1 + rows.length by omega]
    exact h2

theorem foldl_add_norm (rows : List (List ℝ)) (a : List ℝ) :
    euclideanNorm (rows.foldl (List.zipWith (· + ·)) a) ≤ euclideanNorm a + (rows.map euclideanNorm).sum := by
  induction rows generalizing a with
  | nil => simp
  | cons r rows ih =>
    rw [List.foldl_cons, List.map_cons, List.sum_cons]
    have := ih (List.zipWith (· + ·) a r)
    have := euclideanNorm_add a r
    linarith

theorem map_add_tiny {x : List ℝ} (f : ℝ → ℝ) (hd : x.length ≤ 2 ^ 20) :
    euclideanNorm (x.map fun a => f a + tiny) ≤ euclideanNorm (x.map f) + 1 / 2 ^ 106 := by
  have e : (x.map fun a => f a + tiny) = List.zipWith (· + ·) (x.map f) (List.replicate x.length tiny) := by
    clear hd
    induction x with
    | nil => rfl
    | cons a x ih => rw [List.map_cons, ih]; simp [List.replicate_succ]
  rw [e]
  refine le_trans (euclideanNorm_add _ _) (add_le_add le_rfl ?_)
  refine le_trans (euclideanNorm_replicate _ _) ?_
  rw [abs_of_nonneg (by unfold tiny; positivity)]
  exact length_tiny hd

/-- The row of a word, times its norm, after writing (the rows of the n-grams are taken out) and reading (they are put in again). -/
theorem restored_near {d : Nat} {row : List F32} {n : F32} {subs : List (List F32)} (hrow : row.length = d)
    (hl : ∀ r ∈ subs, r.length = d) (hf : ∀ x ∈ row, Finite x) (hfn : Finite n) (hfs : ∀ r ∈ subs, ∀ x ∈ r, Finite x)
    (hN : subs.length ≤ 2 ^ 15) (hd : d ≤ 2 ^ 20)
    (hA : euclideanNorm (row.map val) * |val n| + 2 * totalLength subs ≤ 2 ^ 48) :
    ∀ avg, avg = averageRows (subs.foldl (List.zipWith Scalar.sub)
        ((row.map (Scalar.mul · n)).map (Scalar.mul · (ScalarNat.ofNat (subs.length + 1))))) subs →
    avg.length = d ∧ (∀ x ∈ avg, Finite x) ∧
    vecDistance (avg.map val) ((row.map val).map (· * val n)) ≤ ((2 * subs.length + 13 : Nat) : ℝ) / 2 ^ 23 *
      (euclideanNorm (row.map val) * |val n| + 2 * totalLength subs / ((subs.length + 1 : Nat) : ℝ) + 3 / 2 ^ 106) := by
  intro avg havg
  obtain ⟨g1, g2⟩ := growth_count (n := 2 * subs.length) (by omega)
  have gle : ∀ k ≤ 2 * subs.length + 13, (1 + roundoff) ^ k ≤ 1.02 := fun k hk =>
    le_trans (pow_le_pow_right₀ (by have := roundoff_pos; linarith) hk) g1
  have hm0 : (0 : ℝ) < ((subs.length + 1 : Nat) : ℝ) := by exact_mod_cast Nat.succ_pos _
  have hm1 : (1 : ℝ) ≤ ((subs.length + 1 : Nat) : ℝ) := by exact_mod_cast Nat.succ_le_succ (Nat.zero_le _)
  have hm2 : ((subs.length + 1 : Nat) : ℝ) ≤ 2 ^ 16 := by exact_mod_cast (by omega : subs.length + 1 ≤ 2 ^ 16)
  have hT0 : 0 ≤ totalLength subs :=
    List.sum_nonneg (by intro x hx; obtain ⟨r, -, rfl⟩ := List.mem_map.mp hx; exact euclideanNorm_nonneg _)
  have hL0 : 0 ≤ euclideanNorm (row.map val) * |val n| := mul_nonneg (euclideanNorm_nonneg _) (abs_nonneg _)
  -- products
  have t0 := Terms.products hf hfn
  have b0 : euclideanNorm (row.map fun a => |val a * val n| + tiny) ≤ euclideanNorm (row.map val) * |val n| + 1 / 2 ^ 106 := by
    have := map_add_tiny (x := (row.map val).map (val n * ·)) (fun a => |a|) (by simpa [hrow] using hd)
    rw [euclideanNorm_abs, euclideanNorm_mul, List.map_map, List.map_map] at this
    rw [mul_comm (euclideanNorm _)]
    refine le_trans (le_of_eq ?_) this
    congr 1
    apply List.map_congr_left
    intro a _
    simp [mul_comm]
  obtain ⟨B0, hB0⟩ : ∃ B, B = row.map fun a => |val a * val n| + tiny := ⟨_, rfl⟩
  rw [← hB0] at t0 b0
  have hmax : ∀ {L : List ℝ} {x : ℝ}, x ∈ L → x ≤ euclideanNorm L := fun h => le_trans (le_abs_self _) (abs_le_euclideanNorm h)
  -- times the count
  have t1 := Terms.times t0 (n := subs.length + 1) (by omega) (by omega) (by
    intro B hB
    have h1 := le_trans (hmax hB) b0
    have h2 : (1 + roundoff) ^ 1 * B ≤ 1.02 * (2 ^ 48 + 1 / 2 ^ 106) := by
      rcases le_or_gt 0 B with h0 | h0
      · exact mul_le_mul (gle 1 (by omega)) (by linarith) h0 (by norm_num)
      · have := mul_nonpos_of_nonneg_of_nonpos (le_trans zero_le_one (one_le_growth 1)) h0.le
        exact le_trans this (by norm_num)
    refine le_trans (mul_le_mul h2 hm2 hm0.le (by norm_num)) (by norm_num))
  have l0 := t0.lengths
  have l1 := t1.lengths
  have b1 : euclideanNorm (B0.map (· * ((subs.length + 1 : Nat) : ℝ) + tiny)) ≤
      (euclideanNorm (row.map val) * |val n| + 1 / 2 ^ 106) * ((subs.length + 1 : Nat) : ℝ) + 1 / 2 ^ 106 := by
    refine le_trans (map_add_tiny _ (by rw [l0.2]; simpa [hrow] using hd)) (add_le_add ?_ le_rfl)
    rw [euclideanNorm_scale _ _ hm0.le]
    exact mul_le_mul_of_nonneg_right b0 hm0.le
  obtain ⟨B1, hB1⟩ : ∃ B, B = B0.map (· * ((subs.length + 1 : Nat) : ℝ) + tiny) := ⟨_, rfl⟩
  rw [← hB1] at t1 b1 l1
  -- n-grams taken out and put in again
  have t2 := Terms.fold (Terms.foldSub t1 subs hfs) subs hfs
  have b2 : euclideanNorm ((subs.map (List.map fun a => |val a|)).foldl (List.zipWith (· + ·))
      ((subs.map (List.map fun a => |val a|)).foldl (List.zipWith (· + ·)) B1)) ≤ euclideanNorm B1 + 2 * totalLength subs := by
    have h1 := foldl_add_norm (subs.map (List.map fun a => |val a|)) B1
    have h2 := foldl_add_norm (subs.map (List.map fun a => |val a|)) ((subs.map (List.map fun a => |val a|)).foldl (List.zipWith (· + ·)) B1)
    rw [abs_rows_norm] at h1 h2
    linarith
  obtain ⟨B2, hB2⟩ : ∃ B, B = (subs.map (List.map fun a => |val a|)).foldl (List.zipWith (· + ·))
      ((subs.map (List.map fun a => |val a|)).foldl (List.zipWith (· + ·)) B1) := ⟨_, rfl⟩
  rw [← hB2] at t2 b2
  have l2 := t2.lengths
  -- exact values
  have hex : (subs.map (List.map val)).foldl (List.zipWith (· + ·)) ((subs.map (List.map val)).foldl (List.zipWith (· - ·))
      (((row.map val).map (· * val n)).map (· * ((subs.length + 1 : Nat) : ℝ)))) =
      ((row.map val).map (· * val n)).map (· * ((subs.length + 1 : Nat) : ℝ)) := by
    refine add_after_sub d (subs.map (List.map val)) _ (by simp [hrow]) ?_
    intro r hr
    obtain ⟨r', h, rfl⟩ := List.mem_map.mp hr
    simpa using hl r' h
  rw [hex] at t2 l2
  have hlen2 : (subs.foldl (List.zipWith Ieee.add) (subs.foldl (List.zipWith Ieee.sub)
      ((row.map (Ieee.mul · n)).map (Ieee.mul · (ofNat (subs.length + 1)))))).length = d := by
    rw [← l2.1]; simp [hrow]
  have bb2 : euclideanNorm B2 ≤ 2 ^ 66 := by
    have : (euclideanNorm (row.map val) * |val n| + 1 / 2 ^ 106) * ((subs.length + 1 : Nat) : ℝ) ≤ (2 ^ 48 + 1 / 2 ^ 106) * 2 ^ 16 :=
      mul_le_mul (by linarith) hm2 hm0.le (by positivity)
    have : euclideanNorm B2 ≤ (2 ^ 48 + 1 / 2 ^ 106) * 2 ^ 16 + 1 / 2 ^ 106 + 2 ^ 48 := by linarith
    exact le_trans this (by norm_num)
  have t3 := Terms.div t2 (n := subs.length + 1) (by omega) (by omega) (by
    intro B hB
    have h1 := le_trans (hmax hB) bb2
    rcases le_or_gt 0 B with h0 | h0
    · exact le_trans (mul_le_mul (gle _ (by omega)) h1 h0 (by norm_num)) (by norm_num)
    · have := mul_nonpos_of_nonneg_of_nonpos (le_trans zero_le_one (one_le_growth (1 + 1 + subs.length + subs.length))) h0.le
      exact le_trans this (by norm_num))
  have b3 : euclideanNorm (B2.map (· / ((subs.length + 1 : Nat) : ℝ) + tiny)) ≤
      euclideanNorm (row.map val) * |val n| + 2 * totalLength subs / ((subs.length + 1 : Nat) : ℝ) + 3 / 2 ^ 106 := by
    refine le_trans (map_add_tiny _ (by rw [l2.2, hlen2]; exact hd)) ?_
    rw [euclideanNorm_div, abs_of_pos hm0]
    have h1 : euclideanNorm B2 / ((subs.length + 1 : Nat) : ℝ) ≤
        ((euclideanNorm (row.map val) * |val n| + 1 / 2 ^ 106) * ((subs.length + 1 : Nat) : ℝ) + 1 / 2 ^ 106 + 2 * totalLength subs) /
          ((subs.length + 1 : Nat) : ℝ) := div_le_div_of_nonneg_right (by linarith) hm0.le
    rw [add_div, add_div, mul_div_assoc, div_self hm0.ne', mul_one] at h1
    have h2 : (1 : ℝ) / 2 ^ 106 / ((subs.length + 1 : Nat) : ℝ) ≤ 1 / 2 ^ 106 := div_le_self (by positivity) hm1
    have h3 : (3 : ℝ) / 2 ^ 106 = 1 / 2 ^ 106 + 1 / 2 ^ 106 + 1 / 2 ^ 106 := by norm_num
    rw [h3]
    linarith
  obtain ⟨B3, hB3⟩ : ∃ B, B = B2.map (· / ((subs.length + 1 : Nat) : ℝ) + tiny) := ⟨_, rfl⟩
  rw [← hB3] at t3 b3
  have hs : (((row.map val).map (· * val n)).map (· * ((subs.length + 1 : Nat) : ℝ))).map (· / ((subs.length + 1 : Nat) : ℝ)) =
      (row.map val).map (· * val n) := by
    rw [List.map_map]
    conv => rhs; rw [← List.map_id ((row.map val).map (· * val n))]
    apply List.map_congr_left
    intro a _
    simp only [Function.comp_apply, id]
    field_simp
  rw [hs] at t3
  have t4 := Terms.mono sumRel_safe t3 (show 1 + 1 + subs.length + subs.length + 1 ≤ 2 * subs.length + 13 by omega)
  have hTm : 2 * totalLength subs / ((subs.length + 1 : Nat) : ℝ) ≤ 2 * totalLength subs := div_le_self (by linarith) hm1
  obtain ⟨h1, h2⟩ := Terms.vecDistance t4 (by
    refine le_trans (mul_le_mul g1 (le_trans b3 (add_le_add (le_trans (add_le_add le_rfl hTm) hA) le_rfl)) (euclideanNorm_nonneg _) (by norm_num)) (by norm_num))
  subst havg
  refine ⟨?_, h1, le_trans h2 (mul_le_mul g2 b3 (euclideanNorm_nonneg _) (by positivity))⟩
  rw [← hlen2]
  exact List.length_map _

/-! ## Round trip -/

/-- How far the row of a word times its norm may be from what it was before: `L` is its length, `T` the sum of the lengths of the rows
of its `k` n-grams. -/
noncomputable def restoreError (k : Nat) (L T : ℝ) : ℝ := ((2 * k + 13 : Nat) : ℝ) / 2 ^ 23 * (L + 2 * T / ((k + 1 : Nat) : ℝ) + 3 / 2 ^ 106)

theorem direction_scale {x : List ℝ} {c : ℝ} (hc : 0 < c) : direction (x.map (· * c)) = direction x := by
  rw [direction_eq, direction_eq, euclideanNorm_scale _ _ hc.le, List.map_map]
  apply List.map_congr_left
  intro a _
  simp only [Function.comp_apply]
  rw [mul_inv]
  field_simp

theorem distance_direction {x : List ℝ} (hx : 0 < euclideanNorm x) : vecDistance (direction x) x = |1 - euclideanNorm x| := by
  have h := vecDistance_multiples x (euclideanNorm x)⁻¹ 1
  rw [← direction_eq] at h
  have e : x.map ((1 : ℝ) * ·) = x := by simp
  rw [e] at h
  rw [h]
  generalize euclideanNorm x = r at *
  have h2 : (r⁻¹ - 1) * r = 1 - r := by field_simp
  rw [← h2, abs_mul, abs_of_pos hx]

/-- **C92.** Embeddings with a fastText vocabulary in single precision are written in fastText format and read back. Vocabulary and bucket
vectors are the same bits. The vector of a word is the direction of its old vector and the norm is the old norm (times the length of the
old vector, which is 1 up to rounding), up to rounding. Needed for a word: finite numbers, norm positive, not too many n-grams, no extreme
lengths, and the vector times its norm must not be tiny compared with the rows of the word's n-grams. -/
theorem c92_roundtrip {T T' S : Type} [Storage S F32] [ConfigToml T']
    (e : Embeddings T FastTextSubwordVocab S F32) (nb : Nat) (ix : FastTextIndexer) (hix : FastTextIndexer.new nb = .ok ix)
    (ws : List Str) (m M : Nat) (hv : SubwordVocab.new ws m M ix = .ok e.vocab)
    (hd : ∀ w ∈ ws, 1 ≤ m ∧ m ≤ M ∧ (nb ≠ 0 ∨ w.length + 2 < m)) (hm : m < 2 ^ 32) (hM : M < 2 ^ 32)
    (hnul : ∀ w ∈ ws, '\x00' ∉ w) (hl : ws.length < 2 ^ 32)
    (cols : Nat) (rows : List (List F32)) (ns : List F32) (hs : StoredRows e cols rows ns ws.length)
    (hrows : rows.length = ws.length + nb) (hc : cols < 2 ^ 32) (hmem : 4 * (rows.length * cols) ≤ isizeMax)
    (md : T') (hmd : ConfigToml.ofConfig (writtenHead ws.length nb cols m M).config = some md) (lossy : Bool) :
    e.writeFastText.Good ∧
    ∃ (e' : Embeddings T' FastTextSubwordVocab (NdArray F32) F32) (rows' : List (List F32)) (ns' : List F32),
      Embeddings.readFastText lossy e.writeFastText.bytes 0 = .ok (e', e.writeFastText.bytes.length) ∧
      e'.vocab = e.vocab ∧ e'.metadata = some ⟨md⟩ ∧ e'.storage.inner = ⟨cols, rows'⟩ ∧ e'.norms = some ⟨ns'⟩ ∧
      rows'.length = rows.length ∧ ns'.length = ws.length ∧ (∀ i, ws.length ≤ i → rows'[i]? = rows[i]?) ∧
      ∀ (i : Nat) (w : Str) (row : List F32) (n : F32), ws[i]? = some w → rows[i]? = some row → ns[i]? = some n →
        ∃ (is : Option (List Nat)) (subs : List (List F32)) (row' : List F32) (n' : F32),
          e.vocab.subwordIndices w = .ok is ∧ (is.getD []).map (fun j => rows[j]?) = subs.map some ∧
          rows'[i]? = some row' ∧ ns'[i]? = some n' ∧
          ∀ (r κ : ℝ), r = euclideanNorm (row.map val) → κ = restoreError subs.length (r * val n) (totalLength subs) →
            (∀ x ∈ row, Finite x) → Finite n → (∀ s ∈ subs, ∀ x ∈ s, Finite x) → subs.length ≤ 2 ^ 15 → cols ≤ 2 ^ 20 →
            0 < val n → 1 / 2 ^ 30 ≤ r * val n → r * val n + 2 * totalLength subs ≤ 2 ^ 48 → 2 * κ ≤ r * val n →
            row'.length = cols ∧ (∀ x ∈ row', Finite x) ∧ Finite n' ∧
            vecDistance (row'.map val) (direction (row.map val)) ≤ 2 * κ / (r * val n) + ((cols / 8 + 24 : Nat) : ℝ) / 2 ^ 23 ∧
            vecDistance (row'.map val) (row.map val) ≤ 2 * κ / (r * val n) + ((cols / 8 + 24 : Nat) : ℝ) / 2 ^ 23 + |1 - r| ∧
            |val n' - r * val n| ≤ ((cols / 8 + 20 : Nat) : ℝ) / 2 ^ 24 * (r * val n) + 2 * κ := by
  obtain ⟨hg, e', rows', ns', file, hread, q1, q2, q3, q4, hrl, hnl, hsub, hw⟩ :=
    fasttext_reread (T' := T') e nb ix hix ws m M hv hd hm hM hnul hl cols rows ns hs hrows hc hmem (fun _ _ _ _ _ _ _ _ _ _ _ => rfl)
      (fun _ _ _ _ => rfl) md hmd lossy
  refine ⟨hg, e', rows', ns', hread, q1, q2, q3, q4, hrl, hnl, fun i hi => (hsub i hi).1, ?_⟩
  intro i w row n h0 h1 h2
  obtain ⟨out, avg, h3, h4, h5, h6, h7⟩ := hw i w row n h0 h1 h2
  have hrow : row.length = cols := hs.rect row (List.mem_of_getElem? h1)
  have core : ∀ (subs : List (List F32)), (∀ s ∈ subs, s.length = cols) →
      (avg = averageRows (subs.foldl (List.zipWith Scalar.sub)
        ((row.map (Scalar.mul · n)).map (Scalar.mul · (ScalarNat.ofNat (subs.length + 1))))) subs ∨
        avg = row.map (Scalar.mul · n) ∧ subs = []) →
      ∀ (r κ : ℝ), r = euclideanNorm (row.map val) → κ = restoreError subs.length (r * val n) (totalLength subs) →
        (∀ x ∈ row, Finite x) → Finite n → (∀ s ∈ subs, ∀ x ∈ s, Finite x) → subs.length ≤ 2 ^ 15 → cols ≤ 2 ^ 20 →
        0 < val n → 1 / 2 ^ 30 ≤ r * val n → r * val n + 2 * totalLength subs ≤ 2 ^ 48 → 2 * κ ≤ r * val n →
        (l2Normalize avg).1.length = cols ∧ (∀ x ∈ (l2Normalize avg).1, Finite x) ∧ Finite (l2Normalize avg).2 ∧
        vecDistance ((l2Normalize avg).1.map val) (direction (row.map val)) ≤ 2 * κ / (r * val n) + ((cols / 8 + 24 : Nat) : ℝ) / 2 ^ 23 ∧
        vecDistance ((l2Normalize avg).1.map val) (row.map val) ≤ 2 * κ / (r * val n) + ((cols / 8 + 24 : Nat) : ℝ) / 2 ^ 23 + |1 - r| ∧
        |val (l2Normalize avg).2 - r * val n| ≤ ((cols / 8 + 20 : Nat) : ℝ) / 2 ^ 24 * (r * val n) + 2 * κ := by
    intro subs hsl havg r κ hr hκ hf hfn hfs hN hdim hn0 hlo hA hκ2
    have hT0 : 0 ≤ totalLength subs :=
      List.sum_nonneg (by intro x hx; obtain ⟨r, -, rfl⟩ := List.mem_map.mp hx; exact euclideanNorm_nonneg _)
    have near : avg.length = cols ∧ (∀ x ∈ avg, Finite x) ∧ vecDistance (avg.map val) ((row.map val).map (· * val n)) ≤ κ := by
      rcases havg with havg | ⟨rfl, rfl⟩
      · have := restored_near hrow hsl hf hfn hfs hN hdim (by rw [abs_of_pos hn0, ← hr]; exact hA) avg havg
        rw [abs_of_pos hn0, ← hr] at this
        rw [hκ]
        exact this
      · have t0 := Terms.products hf hfn
        have b0 : euclideanNorm (row.map fun a => |val a * val n| + tiny) ≤ r * val n + 1 / 2 ^ 106 := by
          have := map_add_tiny (x := (row.map val).map (val n * ·)) (fun a => |a|) (by simpa [hrow] using hdim)
          rw [euclideanNorm_abs, euclideanNorm_mul, List.map_map, List.map_map, abs_of_pos hn0, ← hr] at this
          rw [mul_comm r]
          refine le_trans (le_of_eq ?_) this
          congr 1
          apply List.map_congr_left
          intro a _
          simp [mul_comm]
        have hz : totalLength ([] : List (List F32)) = 0 := rfl
        rw [hz] at hA hκ
        obtain ⟨g1, g2⟩ := growth_count (n := 0) (by omega)
        have t1 := Terms.mono sumRel_safe t0 (show 1 ≤ 0 + 13 by omega)
        obtain ⟨k1, k2⟩ := Terms.vecDistance t1 (by
          refine le_trans (mul_le_mul g1 (le_trans b0 (add_le_add (by linarith) le_rfl)) (euclideanNorm_nonneg _) (by norm_num)) (by norm_num : (1.02 : ℝ) * (2 ^ 48 + 1 / 2 ^ 106) ≤ 2 ^ 100))
        refine ⟨by simpa using hrow, k1, le_trans k2 ?_⟩
        rw [hκ]
        unfold restoreError
        refine mul_le_mul (by simpa using g2) (le_trans b0 ?_) (euclideanNorm_nonneg _) (by positivity)
        have : (1 : ℝ) / 2 ^ 106 ≤ 3 / 2 ^ 106 := by norm_num
        simp only [mul_zero, zero_div, add_zero]
        linarith
    obtain ⟨a1, a2, a3⟩ := near
    have hnorm : euclideanNorm ((row.map val).map (· * val n)) = r * val n := by rw [euclideanNorm_scale _ _ hn0.le, hr]
    have key := normalised_near a1 (by simpa using hrow) hdim a2 a3 (by rw [hnorm]; exact hκ2) (by rw [hnorm]; exact hlo)
      (by rw [hnorm]; linarith)
    rw [hnorm, direction_scale hn0] at key
    obtain ⟨k1, k2, k3, k4, k5⟩ := key
    refine ⟨k1, k2, k3, k4, ?_, k5⟩
    have hr0 : 0 < r := by
      have : 0 < r * val n := lt_of_lt_of_le (by positivity) hlo
      exact (pos_iff_pos_of_mul_pos this).mpr hn0
    have hlen : (direction (row.map val)).length = (row.map val).length := by simp [direction]
    have tri := vecDistance_triangle (x := (l2Normalize avg).1.map val) (y := direction (row.map val)) (z := row.map val)
      (by rw [hlen, List.length_map, List.length_map, k1, hrow]) hlen
    rw [distance_direction (by rw [← hr]; exact hr0), ← hr] at tri
    linarith
  rcases h3 with ⟨h8, rfl⟩ | ⟨is, subs, h8, h9, rfl⟩
  · rcases h4 with ⟨-, rfl⟩ | ⟨is', subs', h8', -⟩
    · exact ⟨none, [], _, _, h8, rfl, h6, h7, core [] (by simp) (.inr ⟨rfl, rfl⟩)⟩
    · rw [h8] at h8'; cases h8'
  · rcases h4 with ⟨h8', -⟩ | ⟨is', subs', h8', h9', h10⟩
    · rw [h8] at h8'; cases h8'
    · rw [h8] at h8'
      cases h8'
      have : subs' = subs := by
        apply map_some_inj
        rw [← h9', ← h9]
        exact List.map_congr_left (h5 is h8)
      subst this
      have hlen : is.length = subs'.length := by simpa using congrArg List.length h9
      rw [hlen] at h10
      refine ⟨some is, subs', _, _, h8, h9, h6, h7, core subs' (fun s hs' => ?_) (.inl h10)⟩
      have : some s ∈ is.map (rows[·]?) := by rw [h9]; exact List.mem_map_of_mem hs'
      obtain ⟨j, -, hj⟩ := List.mem_map.mp this
      exact hs.rect s (List.mem_of_getElem? hj)

attribute [local instance] exampleConfigToml

/-- One word with the vector (1, 4) and the norm 1; its only n-gram has the same vector. -/
def exampleFtSingle : Embeddings FtConfig FastTextSubwordVocab (NdArray F32) F32 :=
  ⟨none, ⟨⟨2, [exampleVec, exampleVec]⟩⟩, exampleFtVocab, some ⟨[0x3f800000]⟩⟩

/-- The hypotheses of `c92_roundtrip` hold for a concrete case. -/
example : FastTextIndexer.new 1 = .ok ⟨1⟩ ∧ SubwordVocab.new [['a']] 3 6 ⟨1⟩ = .ok exampleFtSingle.vocab ∧
    StoredRows exampleFtSingle 2 [exampleVec, exampleVec] [0x3f800000] 1 ∧
    exampleFtSingle.vocab.subwordIndices ['a'] = .ok (some [1]) ∧
    (∀ x ∈ exampleVec, Finite x) ∧ Finite 0x3f800000 ∧ 0 < val 0x3f800000 ∧
    ∃ r κ : ℝ, r = euclideanNorm (exampleVec.map val) ∧ κ = restoreError 1 (r * val 0x3f800000) (totalLength [exampleVec]) ∧
      1 / 2 ^ 30 ≤ r * val 0x3f800000 ∧ r * val 0x3f800000 + 2 * totalLength [exampleVec] ≤ 2 ^ 48 ∧ 2 * κ ≤ r * val 0x3f800000 := by
  obtain ⟨n1, n2⟩ : 4 ≤ euclideanNorm (exampleVec.map val) ∧ euclideanNorm (exampleVec.map val) ≤ 5 := by
    rw [exampleVec_val]; exact norm_17 1 4 (by norm_num)
  have ht : totalLength [exampleVec] = euclideanNorm (exampleVec.map val) := by simp [totalLength]
  refine ⟨by decide +kernel, by decide +kernel, ⟨rfl, by simp [exampleVec], ?_, rfl, ?_⟩, by decide +kernel, exampleVec_finite,
    by unfold Finite; decide, by rw [val_one]; norm_num, _, _, rfl, rfl, ?_⟩
  · intro i row h
    exact Mat.row_eq_ok.mpr h
  · intro i x h
    exact Res.unwrap_eq_ok.mpr h
  · rw [ht, val_one, mul_one]
    generalize euclideanNorm (exampleVec.map val) = r at *
    refine ⟨le_trans (by norm_num) n1, by norm_num; linarith, ?_⟩
    unfold restoreError
    norm_num
    linarith

end Ieee
end FF
