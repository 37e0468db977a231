import Verif.Props.FloatWitness
import Verif.Props.Normalized

/-!
# Readers and similarity queries in single precision (C76, C78)
-/

namespace FF
namespace Ieee

attribute [local instance] scalar

/-! ## Readers -/

/-- Specification: a vector whose length is neither too large nor too small for its square to be computed in single precision. -/
def Moderate (v : List F32) : Prop :=
  v.length ≤ 2 ^ 20 ∧ (∀ x ∈ v, Finite x) ∧ 1 / 2 ^ 31 ≤ euclideanNorm (v.map val) ∧ euclideanNorm (v.map val) ≤ 2 ^ 49

/-- Specification: `rows` with `norms` are the vectors `raw` with their lengths taken out, up to rounding. -/
structure NearlyNormalizedOf (raw rows : List (List F32)) (norms : List F32) : Prop where
  rowsLen : rows.length = raw.length
  normsLen : norms.length = raw.length
  each : ∀ (i : Nat) (row : List F32), raw[i]? = some row → Moderate row → ∃ u n, rows[i]? = some u ∧ norms[i]? = some n ∧
    u.length = row.length ∧ (∀ x ∈ u, Finite x) ∧ Finite n ∧
    |euclideanNorm (u.map val) - 1| ≤ ((row.length / 8 + 20 : Nat) : ℝ) / 2 ^ 23 ∧
    |val n - euclideanNorm (row.map val)| ≤ ((row.length / 8 + 20 : Nat) : ℝ) / 2 ^ 24 * euclideanNorm (row.map val) ∧
    ∀ (j : Nat) (x y : F32), row[j]? = some x → u[j]? = some y →
      |val (mul y n) - val x| ≤ 1 / 2 ^ 22 * |val x| + 1 / 2 ^ 149 * (val n + 1)
  zero : ∀ (i : Nat) (row : List F32), raw[i]? = some row → (∀ x ∈ row, Finite x ∧ val x = 0) →
    rows[i]? = some row ∧ norms[i]? = some 0

theorem unrolledSumF_zero (fuel n : Nat) (h : n ≤ 8 * fuel + 7) :
    unrolledSumF fuel (List.replicate 8 0) (List.replicate n 0) = 0 := by
  induction fuel generalizing n with
  | zero =>
    have : n = 0 ∨ n = 1 ∨ n = 2 ∨ n = 3 ∨ n = 4 ∨ n = 5 ∨ n = 6 ∨ n = 7 := by omega
    rcases this with h | h | h | h | h | h | h | h <;> subst h <;> decide
  | succ fuel ih =>
    by_cases h8 : 8 ≤ n
    · obtain ⟨k, rfl⟩ := Nat.exists_eq_add_of_le h8
      have e : List.replicate (8 + k) (0 : F32) = 0 :: 0 :: 0 :: 0 :: 0 :: 0 :: 0 :: 0 :: List.replicate k 0 := by
        rw [List.replicate_add]; rfl
      rw [e]
      unfold unrolledSumF
      rw [show List.zipWith add (List.replicate 8 0) [0, 0, 0, 0, 0, 0, 0, 0] = List.replicate 8 0 by decide]
      exact ih k (by omega)
    · have : n = 0 ∨ n = 1 ∨ n = 2 ∨ n = 3 ∨ n = 4 ∨ n = 5 ∨ n = 6 ∨ n = 7 := by omega
      rcases this with h | h | h | h | h | h | h | h <;> subst h <;> simp [unrolledSumF, List.replicate] <;> decide

/-- **C76.** The zero vector is left as it is, with norm zero. -/
theorem c76_zero {v : List F32} (h : ∀ x ∈ v, Finite x ∧ val x = 0) : l2Normalize v = (v, 0) := by
  have e : List.zipWith mul v v = List.replicate v.length 0 := by
    apply List.ext_getElem (by simp)
    intro i h1 h2
    have hi : i < v.length := by simpa using h1
    rw [List.getElem_zipWith, List.getElem_replicate]
    have hm := val_eq_zero.mp (h v[i] (List.getElem_mem hi)).2
    rw [eq_pack v[i], hm]
    cases isNeg v[i] <;> decide
  have hd : unrolledDot v v = 0 := by
    unfold unrolledDot unrolledSum
    rw [e, List.length_replicate]
    exact unrolledSumF_zero _ _ (by omega)
  have hN : Scalar.sqrt (Scalar.dot v v) = (0 : F32) := by
    show sqrt (unrolledDot v v) = 0
    rw [hd]; decide
  unfold l2Normalize
  rw [hN]
  rfl

theorem nearly_normalized (m : Mat F32) :
    NearlyNormalizedOf m.rows (l2NormalizeArray m).1.rows (l2NormalizeArray m).2 := by
  refine ⟨by simp [l2NormalizeArray], by simp [l2NormalizeArray], fun i row hi hm => ?_, fun i row hi hz => ?_⟩
  · obtain ⟨hf, hn⟩ := c76_finite hm.1 hm.2.1 hm.2.2.1 hm.2.2.2
    obtain ⟨u1, u2⟩ := c76_unit hm.1 hf hn
    refine ⟨(l2Normalize row).1, (l2Normalize row).2, by simp [l2NormalizeArray, hi], by simp [l2NormalizeArray, hi],
      l2Normalize_length row, u1, hf, u2, c76_norm hm.1 hf hn, fun j x y hx hy => ?_⟩
    obtain ⟨hj, rfl⟩ := List.getElem?_eq_some_iff.mp hx
    obtain ⟨z, hz, -, he⟩ := c76_restore hm.1 hf hn j hj
    unfold Embeddings.intoUnnormalized scale at hz
    rw [List.getElem?_map, hy] at hz
    cases hz
    exact he
  · simp [l2NormalizeArray, hi, c76_zero hz]

theorem normalizeRead_nearly {T : Type} {e e' : Embeddings T SimpleVocab (NdArray F32) F32}
    (h : Embeddings.normalizeRead e = .ok e') :
    e'.vocab = e.vocab ∧ ∃ norms, e'.norms = some ⟨norms⟩ ∧
      NearlyNormalizedOf e.storage.inner.rows e'.storage.inner.rows norms := by
  unfold Embeddings.normalizeRead Embeddings.new at h
  simp only at h
  obtain ⟨_, _, h⟩ := Res.bind_eq_ok.mp h
  obtain ⟨-, rfl⟩ := Embeddings.newWithMaybeNorms_eq_ok.mp h
  exact ⟨rfl, _, rfl, nearly_normalized _⟩

/-- **C76** (readers). What the normalising word2vec and text readers return, compared to the vectors in the file. -/
theorem c76_readers {T : Type} [FloatText F32] (lossy : Bool) (d : Bytes) (pos : Nat)
    (e : Embeddings T SimpleVocab (NdArray F32) F32) :
    (∀ p, Embeddings.readWord2vec lossy d pos = .ok (e, p) →
      ∃ (e0 : Embeddings T SimpleVocab (NdArray F32) F32) (norms : List F32),
        Embeddings.readWord2vecRaw lossy d pos = .ok (e0, p) ∧ e.vocab = e0.vocab ∧ e.norms = some ⟨norms⟩ ∧
        NearlyNormalizedOf e0.storage.inner.rows e.storage.inner.rows norms) ∧
    (Embeddings.readText lossy d pos = .ok e →
      ∃ (e0 : Embeddings T SimpleVocab (NdArray F32) F32) (norms : List F32),
        Embeddings.readTextRaw lossy d pos = .ok e0 ∧ e.vocab = e0.vocab ∧ e.norms = some ⟨norms⟩ ∧
        NearlyNormalizedOf e0.storage.inner.rows e.storage.inner.rows norms) ∧
    (Embeddings.readTextDims lossy d pos = .ok e →
      ∃ (e0 : Embeddings T SimpleVocab (NdArray F32) F32) (norms : List F32),
        Embeddings.readTextDimsRaw lossy d pos = .ok e0 ∧ e.vocab = e0.vocab ∧ e.norms = some ⟨norms⟩ ∧
        NearlyNormalizedOf e0.storage.inner.rows e.storage.inner.rows norms) := by
  refine ⟨fun p h => ?_, fun h => ?_, fun h => ?_⟩
  · unfold Embeddings.readWord2vec at h
    obtain ⟨e0, p1, h1, h⟩ := Rd.bind_ok.mp h
    obtain ⟨h2, rfl⟩ := Rd.lift_ok.mp h
    obtain ⟨h3, norms, h4, h5⟩ := normalizeRead_nearly h2
    exact ⟨e0, norms, h1, h3, h4, h5⟩
  · obtain ⟨e0, h1, h2⟩ := Res.bind_eq_ok.mp h
    obtain ⟨h3, norms, h4, h5⟩ := normalizeRead_nearly h2
    exact ⟨e0, norms, h1, h3, h4, h5⟩
  · obtain ⟨e0, h1, h2⟩ := Res.bind_eq_ok.mp h
    obtain ⟨h3, norms, h4, h5⟩ := normalizeRead_nearly h2
    exact ⟨e0, norms, h1, h3, h4, h5⟩

/-- **C76** (unknown words). The vector of an unknown word has length one up to rounding, if the sum of the vectors of its n-grams is
moderate. -/
theorem c76_oov {T V S : Type} [Vocab V] [Storage S F32] (e : Embeddings T V S F32) (w : Str) (is : List Nat)
    (h : Vocab.idx e.vocab w = .ok (some (.subword is))) (v : List F32) (hv : e.embedding w = .ok (some v)) :
    ∃ m : Mat F32, Storage.embeddings e.storage is = .ok m ∧ v.length = m.sumAxis0.length ∧
      (Moderate m.sumAxis0 → (∀ x ∈ v, Finite x) ∧
        |euclideanNorm (v.map val) - 1| ≤ ((m.sumAxis0.length / 8 + 20 : Nat) : ℝ) / 2 ^ 23) ∧
      ((∀ x ∈ m.sumAxis0, Finite x ∧ val x = 0) → v = m.sumAxis0) := by
  unfold Embeddings.embedding at hv
  simp only [h, Res.ok_bind] at hv
  obtain ⟨m, hm, hv⟩ := Res.bind_eq_ok.mp hv
  cases hv
  refine ⟨m, hm, l2Normalize_length _, fun hs => ?_, fun hz => by rw [c76_zero hz]⟩
  obtain ⟨hf, hn⟩ := c76_finite hs.1 hs.2.1 hs.2.2.1 hs.2.2.2
  exact c76_unit hs.1 hf hn

theorem exampleVec_moderate : Moderate exampleVec := by
  have e : sumSquares (exampleVec.map val) = 17 := by
    unfold exampleVec
    simp only [List.map_cons, List.map_nil, val_one, val_four, sumSquares, List.sum_cons, List.sum_nil]
    norm_num
  refine ⟨by decide, by unfold Finite; decide, ?_, ?_⟩ <;> unfold euclideanNorm <;> rw [e]
  · exact Real.le_sqrt_of_sq_le (by norm_num)
  · rw [Real.sqrt_le_left (by norm_num)]; norm_num

/-- A word2vec file meets the hypothesis of `c76_readers`; its vectors `(1, 4)` are moderate, the zero vector meets the hypothesis of
`c76_zero`. -/
example : (match (Embeddings.readWord2vec false exampleSame 0 : Res (Embeddings Str SimpleVocab (NdArray F32) F32 × Nat)) with
    | .ok (e, p) => p == 25 && e.storage.inner.rows == [[1048075075, 1064852291], [1048075075, 1064852291]]
    | _ => false) = true ∧ Moderate exampleVec ∧ ∀ x ∈ ([0, 0x80000000] : List F32), Finite x ∧ val x = 0 := by
  refine ⟨by decide +kernel, exampleVec_moderate, ?_⟩
  intro x hx
  rcases List.mem_cons.mp hx with rfl | hx
  · exact ⟨finite_zero, val_zero⟩
  · rcases List.mem_cons.mp hx with rfl | hx
    · exact ⟨by unfold Finite; decide, val_eq_zero.mpr (by decide)⟩
    · cases hx

/-- Embeddings with a bucket vocabulary without words, and four rows `(1, 4)`. -/
def exampleUnknown : Embeddings Str BucketSubwordVocab (NdArray F32) F32 :=
  ⟨none, ⟨⟨2, [exampleVec, exampleVec, exampleVec, exampleVec]⟩⟩, ⟨['<'], ['>'], ⟨2, 3⟩, HMap.empty, [], 3, 3⟩, none⟩

/-- The hypotheses of `c76_oov` hold for a concrete case, with one n-gram, and the sum of its vectors is moderate. -/
example : ∃ (is : List Nat) (v : List F32) (m : Mat F32), Vocab.idx exampleUnknown.vocab ['b'] = .ok (some (.subword is)) ∧
    exampleUnknown.embedding ['b'] = .ok (some v) ∧ Storage.embeddings exampleUnknown.storage is = .ok m ∧ Moderate m.sumAxis0 := by
  have e : ((⟨2, [exampleVec]⟩ : Mat F32)).sumAxis0 = exampleVec := by decide +kernel
  exact ⟨[2], _, ⟨2, [exampleVec]⟩, by decide +kernel, rfl, by rfl, by rw [e]; exact exampleVec_moderate⟩

/-! ## Queries -/

/-- The comparison of finite floats is the one of their values. -/
theorem lt_val {x y : F32} (hx : Finite x) (hy : Finite y) : ScalarOrd.lt x y = true ↔ val x < val y := by
  have hn : ∀ z : F32, Finite z → ¬ F32IsNan z := fun z hz h => ((finite_scaled z).mp hz) h.1
  rw [(c41_compare x y).2, val_scaled, val_scaled]
  have hp : (0 : ℝ) < 2 ^ 149 := by positivity
  rw [div_lt_div_iff_of_pos_right hp, Int.cast_lt]
  exact ⟨fun h => h.2.2, fun h => ⟨hn x hx, hn y hy, h⟩⟩

/-- Specification: the inner product of the values of two vectors of floats. -/
noncomputable def exactDot (x y : List F32) : ℝ := (List.zipWith (fun a b => val a * val b) x y).sum

/-- Specification: vectors of a dimension and length for which inner products do not overflow. -/
def Bounded (n : Nat) (v : List F32) : Prop := v.length = n ∧ (∀ x ∈ v, Finite x) ∧ euclideanNorm (v.map val) ≤ 2 ^ 49

/-- How far a computed inner product may be from the exact one. -/
noncomputable def dotError (n : Nat) (x y : List F32) : ℝ :=
  1.02 * ((n / 8 + 13 : Nat) : ℝ) / 2 ^ 24 * (euclideanNorm (x.map val) * euclideanNorm (y.map val) + 1 / 2 ^ 106)

theorem bounded_dot {n : Nat} (hn : n ≤ 2 ^ 20) {x y : List F32} (hx : Bounded n x) (hy : Bounded n y) :
    Finite (Scalar.dot x y) ∧ ScalarOrd.isNan (Scalar.dot x y) = false ∧ |val (Scalar.dot x y) - exactDot x y| ≤ dotError n x y := by
  have hl : x.length = y.length := by rw [hx.1, hy.1]
  have hxn : x.length ≤ 2 ^ 20 := by rw [hx.1]; exact hn
  obtain ⟨hf, hnan⟩ := c78_finite hl hxn hx.2.1 hy.2.1 (by
    refine le_trans (mul_le_mul hx.2.2 hy.2.2 (Real.sqrt_nonneg _) (by positivity)) ?_
    norm_num)
  refine ⟨hf, hnan, ?_⟩
  have h := c78_error hl hxn hf
  have e : Scalar.dot (x.map val) (y.map val) = exactDot x y := by
    show (List.zipWith (· * ·) (x.map val) (y.map val)).sum = _
    rw [List.zipWith_map]; rfl
  rw [e, hx.1] at h
  exact h

variable {T V S : Type} [Vocab V] [Storage S F32] [StorageView S F32]

/-- **C78.** A similarity query with bounded vectors does not crash. The similarities are those of the vectors up to rounding, and the
results are the most similar words up to rounding: no word that was left out is more similar than a result by more than the errors of
both. -/
theorem c78_word (e : Embeddings T V S F32) {m : Mat F32} {limit : Nat} {bs : Option Nat} (h : QueryOk e m limit bs)
    (hn : m.cols ≤ 2 ^ 20) (hrows : ∀ row ∈ m.rows, Bounded m.cols row)
    (w : Str) (q : List F32) (he : e.embedding w = .ok (some q)) (hq : Bounded m.cols q) :
    ∃ r, e.wordSimilarity w limit bs = .ok (some r) ∧
      (∀ a ∈ r, ∃ (i : Nat) (row : List F32), (Vocab.words e.vocab)[i]? = some a.word ∧ a.word ≠ w ∧ m.rows[i]? = some row ∧
        Finite a.similarity ∧ |val a.similarity - exactDot row q| ≤ dotError m.cols row q) ∧
      ∀ (i j : Nat) (u v : Str) (ru rv : List F32), (Vocab.words e.vocab)[i]? = some u → m.rows[i]? = some ru →
        (Vocab.words e.vocab)[j]? = some v → m.rows[j]? = some rv → u ∈ r.map (·.word) → v ∉ r.map (·.word) → v ≠ w →
        exactDot rv q ≤ exactDot ru q + dotError m.cols ru q + dotError m.cols rv q := by
  have hcand : ∀ c ∈ candidates (Vocab.words e.vocab) m.rows q [w], ∃ (i : Nat) (row : List F32),
      (Vocab.words e.vocab)[i]? = some c.word ∧ c.word ≠ w ∧ m.rows[i]? = some row ∧ c.similarity = Scalar.dot row q := by
    intro c hc
    unfold candidates at hc
    obtain ⟨p, hp, rfl⟩ := List.mem_map.mp hc
    obtain ⟨hp, hw⟩ := List.mem_filter.mp hp
    obtain ⟨i, hi⟩ := List.mem_iff_getElem?.mp hp
    obtain ⟨h1, h2⟩ := List.getElem?_zip_eq_some.mp hi
    exact ⟨i, p.2, h1, by simpa using hw, h2, rfl⟩
  have hdot : ∀ c ∈ candidates (Vocab.words e.vocab) m.rows q [w], Finite c.similarity ∧ ScalarOrd.isNan c.similarity = false := by
    intro c hc
    obtain ⟨i, row, -, -, h3, h4⟩ := hcand c hc
    obtain ⟨a, b, -⟩ := bounded_dot hn (hrows row (List.mem_of_getElem? h3)) hq
    rw [h4]; exact ⟨a, b⟩
  obtain ⟨r, h1, h2⟩ := c41_word e h w q he hq.1 fun c hc => (hdot c hc).2
  refine ⟨r, h1, fun a ha => ?_, fun i j u v ru rv hu hru hv hrv hur hvr hvw => ?_⟩
  · obtain ⟨i, row, a1, a2, a3, a4⟩ := hcand a (h2.mem a ha)
    obtain ⟨b1, -, b3⟩ := bounded_dot hn (hrows row (List.mem_of_getElem? a3)) hq
    rw [a4]
    exact ⟨i, row, a1, a2, a3, b1, b3⟩
  · obtain ⟨a, ha, rfl⟩ := List.mem_map.mp hur
    obtain ⟨i', row, a1, a2, a3, a4⟩ := hcand a (h2.mem a ha)
    have hii : i' = i := by
      obtain ⟨g1, g2⟩ := List.getElem?_eq_some_iff.mp a1
      obtain ⟨g3, g4⟩ := List.getElem?_eq_some_iff.mp hu
      exact (List.Nodup.getElem_inj_iff h.nodup).mp (g2.trans g4.symm)
    subst hii
    rw [a3] at hru
    cases hru
    have hc : (⟨Scalar.dot rv q, v⟩ : WordSim F32) ∈ candidates (Vocab.words e.vocab) m.rows q [w] := by
      unfold candidates
      refine List.mem_map.mpr ⟨(v, rv), List.mem_filter.mpr ⟨?_, by simpa using hvw⟩, rfl⟩
      exact List.mem_iff_getElem?.mpr ⟨j, List.getElem?_zip_eq_some.mpr ⟨hv, hrv⟩⟩
    have hr := h2.rest _ hc (fun hm => hvr (List.mem_map.mpr ⟨_, hm, rfl⟩)) a ha
    have ba := bounded_dot hn (hrows ru (List.mem_of_getElem? a3)) hq
    have bc := bounded_dot hn (hrows rv (List.mem_of_getElem? hrv)) hq
    have hle : val (Scalar.dot rv q) ≤ val (Scalar.dot ru q) := by
      rw [← a4] at ba ⊢
      by_contra hcon
      push Not at hcon
      have hlt := (lt_val ba.1 bc.1).mpr hcon
      rcases hr with hr | ⟨-, hr, -⟩
      · have := (lt_val bc.1 ba.1).mp hr
        linarith
      · rw [hlt] at hr; cases hr
    have e1 := abs_le.mp ba.2.2
    have e2 := abs_le.mp bc.2.2
    linarith [e1.1, e1.2, e2.1, e2.2]

/-- Three words with the vectors `(1, 4)`, `(4, 1)` and `(1, 4)`. -/
def exampleFloats : Embeddings Str SimpleVocab (NdArray F32) F32 :=
  ⟨none, ⟨⟨2, [[0x3f800000, 0x40800000], [0x40800000, 0x3f800000], [0x3f800000, 0x40800000]]⟩⟩,
    ⟨indexMap [['a'], ['c'], ['b']], [['a'], ['c'], ['b']]⟩, none⟩

/-- The hypotheses of `c78_word` hold for a concrete case. -/
example : QueryOk exampleFloats exampleFloats.storage.inner 1 none ∧ exampleFloats.storage.inner.cols ≤ 2 ^ 20 ∧
    (∀ row ∈ exampleFloats.storage.inner.rows, Bounded exampleFloats.storage.inner.cols row) ∧
    exampleFloats.embedding ['a'] = .ok (some exampleVec) ∧ Bounded exampleFloats.storage.inner.cols exampleVec ∧
    exampleFloats.wordSimilarity ['a'] 1 none = .ok (some [⟨0x41880000, ['b']⟩]) := by
  have h1 : Bounded 2 exampleVec := ⟨rfl, exampleVec_moderate.2.1, exampleVec_moderate.2.2.2⟩
  have h2 : Bounded 2 [0x40800000, 0x3f800000] := by
    refine ⟨rfl, by unfold Finite; decide, ?_⟩
    unfold euclideanNorm
    simp only [List.map_cons, List.map_nil, val_one, val_four, sumSquares, List.sum_cons, List.sum_nil]
    rw [Real.sqrt_le_left (by norm_num)]; norm_num
  refine ⟨⟨rfl, rfl, by decide, by decide, by unfold BatchOk; decide, by decide, by decide⟩, by decide, ?_, by decide +kernel, h1,
    by decide +kernel⟩
  intro row hrow
  have : row = exampleVec ∨ row = [0x40800000, 0x3f800000] := by
    simp only [exampleFloats, List.mem_cons, List.not_mem_nil, or_false] at hrow
    rcases hrow with h | h | h
    · exact .inl h
    · exact .inr h
    · exact .inl h
  rcases this with rfl | rfl
  · exact h1
  · exact h2

end Ieee
end FF
