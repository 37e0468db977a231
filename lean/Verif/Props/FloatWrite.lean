import Verif.Props.FloatQuery
import Verif.Props.Decimal
import Verif.Props.Convert

/-!
# Writing un-normalised vectors in single precision (C98)

The readers of the word2vec and text formats take the lengths out of the vectors; the writers can multiply them in
again. What a file that was read and written that way contains, compared to the original file.
-/

namespace FF

/-! ## Embeddings without norms -/

section Plain
variable {T V S F : Type} [Vocab V] [Storage S F] [Scalar F]

theorem eachRow_plain (e : Embeddings T V S F) (hn : e.norms = none)
    (hone : ∀ i v, Storage.embedding e.storage i = .ok v → ∀ x ∈ v, Scalar.mul x Scalar.one = x) (f : Str → List F → W) :
    e.eachRow true f = e.eachRow false f := by
  unfold Embeddings.eachRow
  congr 1
  funext p
  cases hv : Storage.embedding e.storage p.2 with
  | ok v =>
    have : v.map (Scalar.mul · Scalar.one) = v := by
      conv => rhs; rw [← List.map_id v]
      exact List.map_congr_left fun x hx => hone _ v hv x hx
    simp [Embeddings.normAt, hn, Embeddings.intoUnnormalized, scale, W.ofRes, this]
  | err e => rfl
  | panic => rfl

/-- **C98** (no norms). If there are no norms and multiplying by one changes nothing, the writers write the same with and
without un-normalising. -/
theorem c98_plain [FloatBits F] [FloatText F] (e : Embeddings T V S F) (hn : e.norms = none)
    (hone : ∀ i v, Storage.embedding e.storage i = .ok v → ∀ x ∈ v, Scalar.mul x Scalar.one = x) :
    e.writeWord2vec true = e.writeWord2vec false ∧ e.writeText true = e.writeText false ∧
      e.writeTextDims true = e.writeTextDims false := by
  refine ⟨?_, ?_, ?_⟩
  · unfold Embeddings.writeWord2vec; rw [eachRow_plain e hn hone]
  · unfold Embeddings.writeText; rw [eachRow_plain e hn hone]
  · unfold Embeddings.writeTextDims Embeddings.writeText; rw [eachRow_plain e hn hone]

end Plain

/-- **C98** (no norms, exact arithmetic). -/
theorem c98_plain_real {T V S : Type} [Vocab V] [Storage S ℝ] [FloatBits ℝ] [FloatText ℝ] (e : Embeddings T V S ℝ)
    (hn : e.norms = none) :
    e.writeWord2vec true = e.writeWord2vec false ∧ e.writeText true = e.writeText false ∧
      e.writeTextDims true = e.writeTextDims false :=
  c98_plain e hn fun _ _ _ x _ => mul_one x

/-- `c98_plain_real` (and so `c98_plain`) applied to one vector. -/
example [FloatBits ℝ] [FloatText ℝ] := c98_plain_real (⟨none, ⟨⟨2, [[3, 4]]⟩⟩, ⟨indexMap [['a']], [['a']]⟩, none⟩ :
  Embeddings Str SimpleVocab (NdArray ℝ) ℝ) rfl

namespace Ieee

attribute [local instance] scalar floatText

theorem mul_one_eq {x : F32} (h : isNan x = false) : mul x 0x3f800000 = x := by
  have h1 : isNan 0x3f800000 = false := by decide
  have h2 : isInf 0x3f800000 = false := by decide
  have h3 : isNeg 0x3f800000 = false := by decide
  have h4 : f32Mag 0x3f800000 = 0x3f800000 := by decide
  have h5 : magUnits 0x3f800000 = 2 ^ 149 := by decide +kernel
  unfold mul
  rw [h, h1, h2, h3, h4]
  conv => rhs; rw [eq_pack x]
  have hb : ∀ b : Bool, (b != false) = b := by decide
  rw [hb]
  by_cases hi : isInf x = true
  · have : f32Mag x = infMag := by simpa [isInf] using hi
    rw [hi, this]
    simp [infMag]
  · have hi' : isInf x = false := by simpa using hi
    rw [hi', h5, roundMag_eq, rawMag_magUnits _ _ (by positivity)]
    have : f32Mag x ≤ infMag := by simpa [isNan] using h
    simp [Nat.min_eq_right this]

/-- **C98** (no norms, single precision). Embeddings without norms are written the same with and without un-normalising, if no
component is a NaN. -/
theorem c98_plain_f32 {T V S : Type} [Vocab V] [Storage S F32] (e : Embeddings T V S F32) (hn : e.norms = none)
    (hval : ∀ i v, Storage.embedding e.storage i = .ok v → ∀ x ∈ v, isNan x = false) :
    e.writeWord2vec true = e.writeWord2vec false ∧ e.writeText true = e.writeText false ∧
      e.writeTextDims true = e.writeTextDims false :=
  c98_plain e hn fun i v hv x hx => mul_one_eq (hval i v hv x hx)

/-! ## Normalised embeddings -/

/-- Specification: a vector of zeros (of either sign). -/
def ZeroRow (v : List F32) : Prop := ∀ x ∈ v, Finite x ∧ val x = 0

/-- Specification: `again` are the vectors `raw` up to rounding; zero vectors are the same to the bit. -/
structure Restored (raw again : List (List F32)) : Prop where
  length : again.length = raw.length
  rows : ∀ (i : Nat) (row : List F32), raw[i]? = some row → ∃ row', again[i]? = some row' ∧ row'.length = row.length ∧
    (Moderate row → ∀ (j : Nat) (x y : F32), row[j]? = some x → row'[j]? = some y → Finite y ∧
      |val y - val x| ≤ 1 / 2 ^ 22 * |val x| + 1 / 2 ^ 149 * (2 * euclideanNorm (row.map val) + 1)) ∧
    (ZeroRow row → row' = row)

theorem restored (raw : List (List F32)) : Restored raw (raw.map fun r => Embeddings.intoUnnormalized (l2Normalize r)) := by
  refine ⟨by simp, fun i row hi => ⟨_, by rw [List.getElem?_map, hi]; rfl, ?_, fun hm j x y hx hy => ?_, fun hz => ?_⟩⟩
  · simp [Embeddings.intoUnnormalized, scale, l2Normalize_length]
  · obtain ⟨hf, hn⟩ := c76_finite hm.1 hm.2.1 hm.2.2.1 hm.2.2.2
    obtain ⟨hj, rfl⟩ := List.getElem?_eq_some_iff.mp hx
    obtain ⟨z, hz, hfz, he⟩ := c76_restore hm.1 hf hn j hj
    rw [hy] at hz
    cases hz
    refine ⟨hfz, le_trans he ?_⟩
    have hb := (abs_le.mp (c76_norm hm.1 hf hn)).2
    have hE : 0 ≤ euclideanNorm (row.map val) := Real.sqrt_nonneg _
    have hc : ((row.length / 8 + 20 : Nat) : ℝ) / 2 ^ 24 ≤ 1 := by
      rw [div_le_one (by positivity)]
      have : row.length / 8 + 20 ≤ 2 ^ 24 := by have := hm.1; omega
      exact_mod_cast this
    have := mul_le_mul_of_nonneg_right hc hE
    have h2 : val (l2Normalize row).2 ≤ 2 * euclideanNorm (row.map val) := by linarith
    have h3 : (1 : ℝ) / 2 ^ 149 * (val (l2Normalize row).2 + 1) ≤ 1 / 2 ^ 149 * (2 * euclideanNorm (row.map val) + 1) :=
      mul_le_mul_of_nonneg_left (by linarith) (by positivity)
    linarith
  · show Embeddings.intoUnnormalized (l2Normalize row) = row
    rw [c76_zero hz]
    unfold Embeddings.intoUnnormalized scale
    conv => rhs; rw [← List.map_id row]
    refine List.map_congr_left fun x hx => ?_
    have hm := val_eq_zero.mp (hz x hx).2
    show mul x 0 = x
    rw [eq_pack x, hm]
    cases isNeg x <;> decide

theorem zip_ok {α β γ : Type} (f : Str × Nat → Res γ) (g : Str × α × β → γ) (ws : List Str) (us : List α) (ns : List β)
    (hf : ∀ i w u n, ws[i]? = some w → us[i]? = some u → ns[i]? = some n → f (w, i) = .ok (g (w, u, n)))
    (h1 : us.length = ws.length) (h2 : ns.length = ws.length) :
    ws.zipIdx.mapM f = .ok ((ws.zip (us.zip ns)).map g) := by
  rw [Res.mapM_eq_ok_iff]
  apply List.ext_getElem (by simp [h1, h2])
  intro i hi1 hi2
  have hw : i < ws.length := by simpa using hi1
  simp only [List.getElem_map, List.getElem_zipIdx, List.getElem_zip, Nat.zero_add]
  exact hf i _ _ _ (List.getElem?_eq_getElem hw) (List.getElem?_eq_getElem (by omega)) (List.getElem?_eq_getElem (by omega))

theorem iterWithNorms_simple {T : Type} (e : Embeddings T SimpleVocab (NdArray F32) F32) (us : List (List F32)) (ns : List F32)
    (k : Nat) (hs : e.storage = ⟨⟨k, us⟩⟩) (hn : e.norms = some ⟨ns⟩) (h1 : us.length = e.vocab.words.length)
    (h2 : ns.length = e.vocab.words.length) :
    e.iterWithNorms = .ok (e.vocab.words.zip (us.zip ns)) := by
  unfold Embeddings.iterWithNorms
  have := zip_ok (fun p => do
    let v ← Storage.embedding e.storage p.2
    let n ← e.normAt p.2
    return (p.1, v, n)) id e.vocab.words us ns (fun i w u n _ hu hn' => ?_) h1 h2
  · rw [List.map_id] at this
    exact this
  · rw [hs]
    show (Res.unwrap us[i]? >>= _) = _
    rw [hu]
    show (e.normAt i >>= _) = _
    unfold Embeddings.normAt
    rw [hn]
    show (Res.unwrap ns[i]? >>= _) = _
    rw [hn']
    rfl

/-- What is iterated over after normalising, and what is written for it. -/
theorem normalized_rows {T : Type} {e0 : Embeddings T SimpleVocab (NdArray F32) F32} (hf : SimpleFits e0) :
    ∃ (e : Embeddings T SimpleVocab (NdArray F32) F32) (rs : List (Str × List F32 × F32)),
      Embeddings.normalizeRead e0 = .ok e ∧ e.iterWithNorms = .ok rs ∧ Vocab.wordsLen e.vocab = rs.length ∧
      rs.map (·.1) = e0.vocab.words ∧ (rs.map (·.1)).Nodup ∧ e.dims = e0.storage.inner.cols ∧ (∀ r ∈ rs, r.2.1.length = e.dims) ∧
      rs.length = e0.storage.inner.rows.length ∧
      rs.map (writtenVector true) = e0.storage.inner.rows.map fun r => Embeddings.intoUnnormalized (l2Normalize r) := by
  have hr := hf.rows
  obtain ⟨hnd, hv⟩ := SimpleVocab.new_eq_ok.mp hf.vocab
  have hl : Vocab.vocabLen e0.vocab = .ok (Storage.shape e0.storage).1 := by
    show Res.ok e0.vocab.indices.len = .ok e0.storage.inner.rows.length
    rw [hr, hv, (indexMap_len_iff _).mpr hnd]
  have hq : e0.vocab.indices.len = e0.vocab.words.length := by
    have := Res.ok.inj hl
    rw [show (Storage.shape e0.storage).1 = e0.storage.inner.rows.length from rfl] at this
    omega
  have h1 : (e0.storage.inner.rows.map fun r => (l2Normalize r).1).length = e0.vocab.words.length := by simpa using hr
  have h2 : (e0.storage.inner.rows.map fun r => (l2Normalize r).2).length = e0.vocab.words.length := by simpa using hr
  have h3 : (List.zip (e0.storage.inner.rows.map fun r => (l2Normalize r).1)
      (e0.storage.inner.rows.map fun r => (l2Normalize r).2)) = e0.storage.inner.rows.map l2Normalize := by
    rw [List.zip_map']
  refine ⟨_, _, Embeddings.normalizeRead_eq hl, iterWithNorms_simple _ _ _ _ rfl rfl h1 h2, ?_, ?_, ?_, rfl, ?_, ?_, ?_⟩
  · simp only [List.length_zip, h1, h2, Nat.min_self]; exact hq
  · rw [← List.unzip_fst, List.unzip_zip (by simp [hr])]
  · rw [← List.unzip_fst, List.unzip_zip (by simp [hr])]
    exact hnd
  · intro r hr
    rw [h3] at hr
    obtain ⟨v, hv, he⟩ := List.mem_map.mp (List.of_mem_zip (a := r.1) (b := r.2) hr).2
    rw [← he, l2Normalize_length]
    exact hf.wf v hv
  · simp [hr]
  · rw [h3]
    show List.map ((fun q : List F32 × F32 => q.1.map (mul · q.2)) ∘ Prod.snd) _ = _
    rw [← List.map_map, ← List.unzip_snd, List.unzip_zip (by simp [hr]), List.map_map]
    rfl

/-- **C98** (word2vec). A word2vec file is read with normalisation and written un-normalised. Writing succeeds; the new file has
the words of the original in the same order, and its vectors up to rounding. -/
theorem c98_word2vec {T : Type} (lossy lossy' : Bool) (d : Bytes) (pos p : Nat) (e0 : Embeddings T SimpleVocab (NdArray F32) F32)
    (h : Embeddings.readWord2vecRaw lossy d pos = .ok (e0, p)) :
    ∃ (e : Embeddings T SimpleVocab (NdArray F32) F32) (e1 : Embeddings T SimpleVocab (NdArray F32) F32) (q : Nat),
      Embeddings.readWord2vec lossy d pos = .ok (e, p) ∧ (e.writeWord2vec true).status = .ok () ∧
      Embeddings.readWord2vecRaw lossy' (e.writeWord2vec true).bytes 0 = .ok (e1, q) ∧
      e1.vocab = e0.vocab ∧ e1.dims = e0.dims ∧ Restored e0.storage.inner.rows e1.storage.inner.rows := by
  obtain ⟨hf, -, -⟩ := word2vec_fits h
  obtain ⟨e, rs, h1, h2, h3, h4, h5, h6, h7, h8, h9⟩ := normalized_rows hf
  have hw := c48_words lossy d pos p e0 h
  have hd : e0.dims ≤ isizeMax := by
    obtain ⟨n, k, p1, p2, es, -, -, ⟨hp, -⟩, -, -, -, rfl⟩ := readWord2vecRaw_ok.mp h
    show k ≤ isizeMax
    by_cases hk : k = 0
    · subst hk; omega
    by_cases hn : n = 0
    · simpa [hn, hk] using hp
    · refine Nat.le_trans (Nat.le_mul_of_pos_left k (Nat.pos_of_ne_zero hn)) ?_
      simpa [hn, hk] using hp
  have hrows := hf.rows
  have hmem := hf.mem
  have hmem' := hf.words
  have hs : e0.dims = e0.storage.inner.cols := rfl
  obtain ⟨g1, e1, q, g2, g3, g4, -, -⟩ := c48_roundtrip (T' := T) (fun _ => rfl) e rs h2 h3 h5 h7
    (fun r hr => hw _ (by
      show r.1 ∈ e0.vocab.words
      rw [← h4]; exact List.mem_map.mpr ⟨r, hr, rfl⟩))
    (by rw [h8, h6]; exact hmem) (by omega) (by omega) true lossy'
  refine ⟨e, e1, q, ?_, g1, g2, ?_, ?_, ?_⟩
  · exact Rd.bind_ok.mpr ⟨e0, p, h, Rd.lift_ok.mpr ⟨h1, rfl⟩⟩
  · rw [h4, hf.vocab] at g3
    exact (Res.ok.inj g3).symm
  · show e1.storage.inner.cols = _
    rw [g4, h6]
    rfl
  · rw [g4]
    show Restored _ (rs.map (writtenVector true))
    rw [h9]
    exact restored _

theorem written_finite {v : List F32} (h : Moderate v ∨ ZeroRow v) : ∀ y ∈ Embeddings.intoUnnormalized (l2Normalize v), Finite y := by
  intro y hy
  obtain ⟨j, hj⟩ := List.getElem?_of_mem hy
  obtain ⟨-, hr⟩ := restored [v]
  obtain ⟨row', h1, h2, h3, h4⟩ := hr 0 v rfl
  have h1' : Embeddings.intoUnnormalized (l2Normalize v) = row' := by simpa using h1
  rw [h1'] at hj hy
  rcases h with h | h
  · have hj' : j < v.length := by
      rw [← h2]; exact (List.getElem?_eq_some_iff.mp hj).1
    exact (h3 h j v[j] y (List.getElem?_eq_getElem hj') hj).1
  · rw [h4 h] at hy
    exact (h y hy).1

theorem restored_reread (raw : List (List F32)) :
    Restored raw (raw.map fun r => (Embeddings.intoUnnormalized (l2Normalize r)).map reread) := by
  obtain ⟨h1, h2⟩ := restored raw
  refine ⟨by simp, fun i row hi => ?_⟩
  obtain ⟨row', g1, g2, g3, g4⟩ := h2 i row hi
  have hr : row' = Embeddings.intoUnnormalized (l2Normalize row) := by
    rw [List.getElem?_map, hi] at g1
    exact (Option.some.inj g1).symm
  refine ⟨row'.map reread, by rw [List.getElem?_map, hi, hr]; rfl, by simpa using g2, fun hm => ?_, fun hz => ?_⟩
  · have : row'.map reread = row' := map_reread fun x hx => (written_finite (.inl hm) x (hr ▸ hx)).notNan
    rw [this]
    exact g3 hm
  · have : row'.map reread = row' := map_reread fun x hx => (written_finite (.inr hz) x (hr ▸ hx)).notNan
    rw [this]
    exact g4 hz

/-- **C98** (text). The same for the text format. -/
theorem c98_text {T : Type} (lossy lossy' : Bool) (d : Bytes) (hd : d.length ≤ 2 ^ 58) (pos : Nat)
    (e0 : Embeddings T SimpleVocab (NdArray F32) F32) (h : Embeddings.readTextRaw lossy d pos = .ok e0) :
    ∃ (e : Embeddings T SimpleVocab (NdArray F32) F32) (e1 : Embeddings T SimpleVocab (NdArray F32) F32),
      Embeddings.readText lossy d pos = .ok e ∧ (e.writeText true).status = .ok () ∧
      Embeddings.readTextRaw lossy' (e.writeText true).bytes 0 = .ok e1 ∧
      e1.vocab = e0.vocab ∧ e1.dims = e0.dims ∧ Restored e0.storage.inner.rows e1.storage.inner.rows := by
  obtain ⟨rows, k, a1, a2, a3, a4, -, a5⟩ := (c50_accepts none trivial lossy d pos _ (textLines_spec _) e0).mp h
  obtain ⟨hf, -, -⟩ := table_fits hd (textLines_spec _) a1 a2 a3 a4 a5
  obtain ⟨e, rs, h1, h2, h3, h4, h5, h6, h7, h8, h9⟩ := normalized_rows hf
  have hw := c49_words none trivial lossy d pos e0 h
  have hne : rs ≠ [] := by
    rintro rfl
    have := hf.rows
    rw [a5] at h4
    exact a2 (by simpa using h4)
  obtain ⟨g1, e1, g2, g3, g4, -, -⟩ := c79_text_all (T' := T) e rs h2 hne h5 h7
    (fun r hr => hw _ (by
      show r.1 ∈ e0.vocab.words
      rw [← h4]; exact List.mem_map.mpr ⟨r, hr, rfl⟩)) true lossy'
  refine ⟨e, e1, ?_, g1, g2, ?_, ?_, ?_⟩
  · exact Res.bind_eq_ok.mpr ⟨e0, h, h1⟩
  · rw [h4, hf.vocab] at g3
    exact (Res.ok.inj g3).symm
  · show e1.storage.inner.cols = _
    rw [g4, h6]
    rfl
  · rw [g4]
    show Restored _ (rs.map ((·.map reread) ∘ writtenVector true))
    rw [← List.map_map, h9, List.map_map]
    exact restored_reread _

/-- **C98** (text with a first line). The same for the text format with a first line. -/
theorem c98_text_dims {T : Type} (lossy lossy' : Bool) (d : Bytes) (hd : d.length ≤ 2 ^ 58) (pos : Nat)
    (e0 : Embeddings T SimpleVocab (NdArray F32) F32) (h : Embeddings.readTextDimsRaw lossy d pos = .ok e0) :
    ∃ (e : Embeddings T SimpleVocab (NdArray F32) F32) (e1 : Embeddings T SimpleVocab (NdArray F32) F32),
      Embeddings.readTextDims lossy d pos = .ok e ∧ (e.writeTextDims true).status = .ok () ∧
      Embeddings.readTextDimsRaw lossy' (e.writeTextDims true).bytes 0 = .ok e1 ∧
      e1.vocab = e0.vocab ∧ e1.dims = e0.dims ∧ Restored e0.storage.inner.rows e1.storage.inner.rows := by
  obtain ⟨n, k, p1, p2, lines, rows, b1, b2, b3, b4, b5, b6, b7, b8, b9, b10, b11⟩ := (c50_dims_accepts lossy d pos e0).mp h
  subst b7
  have hne0 : rows ≠ [] := fun h0 => b8 (by rw [h0]; rfl)
  obtain ⟨hf, -, -⟩ := table_fits hd b5 b6 hne0 b9 b10 b11
  obtain ⟨e, rs, h1, h2, h3, h4, h5, h6, h7, h8, h9⟩ := normalized_rows hf
  have hw : ∀ w ∈ e0.vocab.words, IsToken w := by
    refine c49_words (some (rows.length, k)) ⟨b3, b4⟩ lossy d p2 e0 ?_
    exact (c50_accepts (some (rows.length, k)) ⟨b3, b4⟩ lossy d p2 lines b5 e0).mpr
      ⟨rows, k, b6, hne0, b9, b10, fun s hs => (Option.some.inj hs).symm, b11⟩
  have hne : rs ≠ [] := by
    rintro rfl
    rw [b11] at h4
    exact hne0 (by simpa using h4)
  have hrows := hf.rows
  have hmem := hf.mem
  have hmem' := hf.words
  obtain ⟨g1, e1, g2, g3, g4, -, -⟩ := c79_text_dims_all (T' := T) e rs h2 h3 hne h5 h7
    (fun r hr => hw _ (by rw [← h4]; exact List.mem_map.mpr ⟨r, hr, rfl⟩)) true lossy'
    (by rw [h8, h6]; exact hmem) (by omega)
  refine ⟨e, e1, ?_, g1, g2, ?_, ?_, ?_⟩
  · exact Res.bind_eq_ok.mpr ⟨e0, h, h1⟩
  · rw [h4, hf.vocab] at g3
    exact (Res.ok.inj g3).symm
  · show e1.storage.inner.cols = _
    rw [g4, h6]
    rfl
  · rw [g4]
    show Restored _ (rs.map ((·.map reread) ∘ writtenVector true))
    rw [← List.map_map, h9, List.map_map]
    exact restored_reread _

/-! ## Examples -/

/-- A text file with the vectors (1, 4) and (0, -0), at the hypothesis of `c98_text`: of moderate length or zero. In the file
that is written the first vector is restored exactly, and the sign of the second zero is kept. -/
example : ∃ e0 : Embeddings Str SimpleVocab (NdArray F32) F32,
    Embeddings.readTextRaw false (utf8 "a 1 4\nb 0 -0\n".toList) 0 = .ok e0 ∧
    (∀ row ∈ e0.storage.inner.rows, Moderate row ∨ ZeroRow row) ∧
    (match (Embeddings.readText false (utf8 "a 1 4\nb 0 -0\n".toList) 0 : Res (Embeddings Str SimpleVocab (NdArray F32) F32)) with
      | .ok e => (e.writeText true).bytes == utf8 "a 1 4\nb 0 -0\n".toList
      | _ => false) = true := by
  refine ⟨⟨none, ⟨⟨2, [exampleVec, [0, 0x80000000]]⟩⟩, ⟨indexMap [['a'], ['b']], [['a'], ['b']]⟩, none⟩, by decide +kernel, ?_,
    by decide +kernel⟩
  intro row hr
  rcases List.mem_cons.mp hr with rfl | hr
  · exact .inl exampleVec_moderate
  · rcases List.mem_cons.mp hr with rfl | hr
    · refine .inr fun x hx => ?_
      rcases List.mem_cons.mp hx with rfl | hx
      · exact ⟨finite_zero, val_zero⟩
      · rcases List.mem_cons.mp hx with rfl | hx
        · exact ⟨by unfold Finite; decide, val_eq_zero.mpr (by decide)⟩
        · cases hx
    · cases hr

/-- `c98_word2vec` applied to a file with the vector (1, 4), and `c98_text_dims` to the text. -/
example := c98_word2vec (T := Str) false false (utf8 "1 2\na ".toList ++ [0, 0, 0x80, 0x3f, 0, 0, 0x80, 0x40, 10]) 0 14
  ⟨none, ⟨⟨2, [exampleVec]⟩⟩, ⟨indexMap [['a']], [['a']]⟩, none⟩ (by decide +kernel)
example := c98_text_dims (T := Str) false false (utf8 "1 2\na 1 4\n".toList) (by decide +kernel) 0
  ⟨none, ⟨⟨2, [exampleVec]⟩⟩, ⟨indexMap [['a']], [['a']]⟩, none⟩ (by decide +kernel)

/-- **C98.** Restoring is not exact: `(0.1, 0.2, 0.3)` becomes `(0.099999994, 0.19999999, 0.3)` in the file. -/
theorem c98_inexact :
    (match (Embeddings.readText false (utf8 "a 0.1 0.2 0.3\n".toList) 0 : Res (Embeddings Str SimpleVocab (NdArray F32) F32)) with
      | .ok e => (e.writeText true).bytes == utf8 "a 0.099999994 0.19999999 0.3\n".toList
      | _ => false) = true := by
  decide +kernel

/-- **C98.** Beyond the range the vectors are lost: `(2^64, 1)` becomes two NaNs in the file. -/
theorem c98_lost :
    (match (Embeddings.readText false (utf8 "a 18446744073709551616 1\n".toList) 0 :
        Res (Embeddings Str SimpleVocab (NdArray F32) F32)) with
      | .ok e => (e.writeText true).bytes == utf8 "a NaN NaN\n".toList
      | _ => false) = true := by
  decide +kernel

/-- The hypotheses of `c98_plain_f32`: embeddings without norms and without NaN. -/
example : ∃ e : Embeddings Str SimpleVocab (NdArray F32) F32, e.norms = none ∧
    (∀ i v, Storage.embedding e.storage i = .ok v → ∀ x ∈ v, isNan x = false) ∧
    (e.writeText true).bytes = utf8 "a 0.1 -0\n".toList := by
  refine ⟨⟨none, ⟨⟨2, [[0x3dcccccd, 0x80000000]]⟩⟩, ⟨indexMap [['a']], [['a']]⟩, none⟩, rfl, ?_, by decide +kernel⟩
  intro i v hv x hx
  obtain h := Mat.row_eq_ok.mp hv
  cases i with
  | zero =>
    cases h
    revert x
    decide
  | succ i => simp at h

end Ieee
end FF
