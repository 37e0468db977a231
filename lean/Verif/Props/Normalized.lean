import Verif.Props.FastTextRoundtrip

/-!
# Vectors and norms after reading (C38)
-/

namespace FF

/-- Specification: `rows` with `norms` are the vectors `raw` with their lengths taken out. -/
structure NormalizedOf (raw rows : List (List ℝ)) (norms : List ℝ) : Prop where
  rowsLen : rows.length = raw.length
  normsLen : norms.length = raw.length
  each : ∀ (i : Nat) (row : List ℝ), raw[i]? = some row → ∃ u n, rows[i]? = some u ∧ norms[i]? = some n ∧
    n = euclideanNorm row ∧ u.map (· * n) = row ∧ (euclideanNorm u = 1 ∨ ∀ x ∈ u, x = 0)

theorem normalize_unit_or_zero (v : List ℝ) : euclideanNorm (l2Normalize v).1 = 1 ∨ ∀ x ∈ (l2Normalize v).1, x = 0 := by
  by_cases hz : ∀ x ∈ v, x = 0
  · right; rw [(c38_zero v hz).1]; exact hz
  · left; push Not at hz; exact c38_unit v hz

theorem normalizeRead_ok {T : Type} {e e' : Embeddings T SimpleVocab (NdArray ℝ) ℝ}
    (h : Embeddings.normalizeRead e = .ok e') :
    e'.vocab = e.vocab ∧ ∃ norms, e'.norms = some ⟨norms⟩ ∧
      NormalizedOf e.storage.inner.rows e'.storage.inner.rows norms := by
  unfold Embeddings.normalizeRead Embeddings.new at h
  simp only at h
  obtain ⟨_, _, h⟩ := Res.bind_eq_ok.mp h
  obtain ⟨-, rfl⟩ := Embeddings.newWithMaybeNorms_eq_ok.mp h
  obtain ⟨-, h2, h3, h4⟩ := c38_array e.storage.inner
  refine ⟨rfl, _, rfl, h2, h3, fun i row hi => ?_⟩
  obtain ⟨u, n, a, b, c, d, -, -⟩ := h4 i row hi
  refine ⟨u, n, a, b, c, d, ?_⟩
  simp only [l2NormalizeArray, List.getElem?_map, hi, Option.map_some, Option.some.injEq] at a
  rw [← a]
  exact normalize_unit_or_zero row

/-- **C38** (readers). Every vector that the normalising word2vec and text readers return is a unit vector or zero, and
the vector times its norm is the vector in the file, as the corresponding raw reader returns it. -/
theorem c38_readers {T : Type} [FloatBits ℝ] [FloatText ℝ] (lossy : Bool) (d : Bytes) (pos : Nat)
    (e : Embeddings T SimpleVocab (NdArray ℝ) ℝ) :
    (∀ p, Embeddings.readWord2vec lossy d pos = .ok (e, p) →
      ∃ (e0 : Embeddings T SimpleVocab (NdArray ℝ) ℝ) (norms : List ℝ),
        Embeddings.readWord2vecRaw lossy d pos = .ok (e0, p) ∧ e.vocab = e0.vocab ∧ e.norms = some ⟨norms⟩ ∧
        NormalizedOf e0.storage.inner.rows e.storage.inner.rows norms) ∧
    (Embeddings.readText lossy d pos = .ok e →
      ∃ (e0 : Embeddings T SimpleVocab (NdArray ℝ) ℝ) (norms : List ℝ),
        Embeddings.readTextRaw lossy d pos = .ok e0 ∧ e.vocab = e0.vocab ∧ e.norms = some ⟨norms⟩ ∧
        NormalizedOf e0.storage.inner.rows e.storage.inner.rows norms) ∧
    (Embeddings.readTextDims lossy d pos = .ok e →
      ∃ (e0 : Embeddings T SimpleVocab (NdArray ℝ) ℝ) (norms : List ℝ),
        Embeddings.readTextDimsRaw lossy d pos = .ok e0 ∧ e.vocab = e0.vocab ∧ e.norms = some ⟨norms⟩ ∧
        NormalizedOf e0.storage.inner.rows e.storage.inner.rows norms) := by
  refine ⟨fun p h => ?_, fun h => ?_, fun h => ?_⟩
  · unfold Embeddings.readWord2vec at h
    obtain ⟨e0, p1, h1, h⟩ := Rd.bind_ok.mp h
    obtain ⟨h2, rfl⟩ := Rd.lift_ok.mp h
    obtain ⟨h3, norms, h4, h5⟩ := normalizeRead_ok h2
    exact ⟨e0, norms, h1, h3, h4, h5⟩
  · obtain ⟨e0, h1, h2⟩ := Res.bind_eq_ok.mp h
    obtain ⟨h3, norms, h4, h5⟩ := normalizeRead_ok h2
    exact ⟨e0, norms, h1, h3, h4, h5⟩
  · obtain ⟨e0, h1, h2⟩ := Res.bind_eq_ok.mp h
    obtain ⟨h3, norms, h4, h5⟩ := normalizeRead_ok h2
    exact ⟨e0, norms, h1, h3, h4, h5⟩

/-- **C38** (fastText reader). Every word vector that the fastText reader returns is a unit vector or zero; the vector
times its norm is the average of the word's vector and its n-grams' vectors in the file (`c61_rows`). -/
theorem c38_fasttext {T : Type} [FloatBits ℝ] [ConfigToml T] (lossy : Bool) (d : Bytes) (pos q : Nat)
    (e : Embeddings T FastTextSubwordVocab (NdArray ℝ) ℝ) (h : Embeddings.readFastText lossy d pos = .ok (e, q)) :
    ∃ (f : FtFile) (norms : List ℝ) (avgs : List (List ℝ)), Took d pos q f.bytes ∧ e.norms = some ⟨norms⟩ ∧
      NormalizedOf avgs (e.storage.inner.rows.take e.vocab.words.length) norms ∧
      (∀ (i : Nat) (w : Str), e.vocab.words[i]? = some w → ∃ (row avg : List ℝ) (is : Option (List Nat)),
        (f.rows.map (List.map FloatBits.ofBits))[i]? = some row ∧ avgs[i]? = some avg ∧
        e.vocab.subwordIndices w = .ok is ∧
        (is = none → avg = row) ∧
        (∀ js, is = some js → ∃ subs : List (List ℝ),
          js.map (fun j => (f.rows.map (List.map FloatBits.ofBits))[j]?) = subs.map some ∧
          avg = (subs.foldl (List.zipWith (· + ·)) row).map (· / ((js.length + 1 : ℕ) : ℝ)))) := by
  obtain ⟨f, norms, ht, hn, hrl, hnl, -, hw⟩ := c61_rows lossy d pos q e h
  have hw' : ∀ i (hi : i < e.vocab.words.length), ∃ avg, norms[i]? = some (l2Normalize avg).2 ∧
      e.storage.inner.rows[i]? = some (l2Normalize avg).1 ∧ ∃ (row : List ℝ) (is : Option (List Nat)),
        (f.rows.map (List.map FloatBits.ofBits))[i]? = some row ∧
        e.vocab.subwordIndices e.vocab.words[i] = .ok is ∧
        (is = none → avg = row) ∧
        (∀ js, is = some js → ∃ subs : List (List ℝ),
          js.map (fun j => (f.rows.map (List.map FloatBits.ofBits))[j]?) = subs.map some ∧
          avg = (subs.foldl (List.zipWith (· + ·)) row).map (· / ((js.length + 1 : ℕ) : ℝ))) := by
    intro i hi
    obtain ⟨row, avg, is, h1, h2, h3, h4, h5, h6⟩ := hw i _ (List.getElem?_eq_getElem hi)
    refine ⟨avg, h5, h6, row, is, h1, h2, h3, fun js hjs => ?_⟩
    obtain ⟨subs, a, -, b⟩ := h4 js hjs
    exact ⟨subs, a, b⟩
  let g : Nat → List ℝ := fun i => if hi : i < e.vocab.words.length then (hw' i hi).choose else []
  have hg : ∀ i (hi : i < e.vocab.words.length), g i = (hw' i hi).choose := fun i hi => by simp only [g, dif_pos hi]
  have hav : ∀ i, i < e.vocab.words.length → ((List.range e.vocab.words.length).map g)[i]? = some (g i) :=
    fun i hi => by simp [hi]
  have hle : e.vocab.words.length ≤ e.storage.inner.rows.length := by
    by_contra hlt
    push Not at hlt
    obtain ⟨avg, -, h2, -⟩ := hw' e.storage.inner.rows.length hlt
    rw [List.getElem?_eq_none_iff.mpr le_rfl] at h2
    cases h2
  refine ⟨f, norms, (List.range e.vocab.words.length).map g, ht, hn, ⟨by simp [hle], by simpa using hnl, ?_⟩, ?_⟩
  · intro i row hi
    have hlt : i < e.vocab.words.length := by
      have := (List.getElem?_eq_some_iff.mp hi).1
      simpa using this
    rw [hav i hlt, hg i hlt] at hi
    cases hi
    obtain ⟨h1, h2, -⟩ := (hw' i hlt).choose_spec
    exact ⟨_, _, by rw [List.getElem?_take_of_lt hlt]; exact h2, h1, c38_norm _, c38_restore _,
      normalize_unit_or_zero _⟩
  · intro i w hi
    obtain ⟨hlt, rfl⟩ := List.getElem?_eq_some_iff.mp hi
    obtain ⟨-, -, row, is, h1, h2, h3, h4⟩ := (hw' i hlt).choose_spec
    exact ⟨row, _, is, h1, (hav i hlt).trans (by rw [hg i hlt]), h2, h3, h4⟩

/-- A word2vec file with one word and one component. -/
def exampleW2vFile : Bytes := [49, 32, 49, 10, 97, 32, 5, 0, 0, 0]

attribute [local instance] exampleFloatBits in
/-- The hypothesis of the first part of `c38_readers` holds for a concrete file. -/
example : ∃ (e : Embeddings Str SimpleVocab (NdArray ℝ) ℝ), Embeddings.readWord2vec false exampleW2vFile 0 = .ok (e, 10) := by
  have h : (Embeddings.readWord2vecRaw false exampleW2vFile 0 : Res (Embeddings Str SimpleVocab (NdArray ℝ) ℝ × Nat)) =
      .ok (⟨none, ⟨⟨1, [[FloatBits.ofBits 5]]⟩⟩, ⟨indexMap [['a']], [['a']]⟩, none⟩, 10) := by
    rfl
  exact ⟨_, c48_normalized false exampleW2vFile 0 10 _ h⟩

/-- Natural numbers in decimal, only for the example. -/
@[instance_reducible] noncomputable def exampleFloatTextReal : FloatText ℝ := ⟨fun _ => [], fun s => (parseUsize s).map fun n => (n : ℝ)⟩

attribute [local instance] exampleFloatTextReal in
/-- The hypotheses of the other parts of `c38_readers` hold for concrete files. -/
example : (∃ e : Embeddings Str SimpleVocab (NdArray ℝ) ℝ, Embeddings.readText false (ascii "a 5\n") 0 = .ok e) ∧
    ∃ e : Embeddings Str SimpleVocab (NdArray ℝ) ℝ, Embeddings.readTextDims false (ascii "1 1\na 5\n") 0 = .ok e := by
  have h : (Embeddings.readTextRaw false (ascii "a 5\n") 0 : Res (Embeddings Str SimpleVocab (NdArray ℝ) ℝ)) =
      .ok ⟨none, ⟨⟨1, [[((5 : ℕ) : ℝ)]]⟩⟩, ⟨indexMap [['a']], [['a']]⟩, none⟩ := rfl
  have h' : (Embeddings.readTextDimsRaw false (ascii "1 1\na 5\n") 0 : Res (Embeddings Str SimpleVocab (NdArray ℝ) ℝ)) =
      .ok ⟨none, ⟨⟨1, [[((5 : ℕ) : ℝ)]]⟩⟩, ⟨indexMap [['a']], [['a']]⟩, none⟩ := rfl
  constructor
  · unfold Embeddings.readText
    rw [h, Res.ok_bind, Embeddings.normalizeRead_eq rfl]
    exact ⟨_, rfl⟩
  · unfold Embeddings.readTextDims
    rw [h', Res.ok_bind, Embeddings.normalizeRead_eq rfl]
    exact ⟨_, rfl⟩

attribute [local instance] exampleFloatBits exampleConfigToml in
/-- The hypothesis of `c38_fasttext` holds for a concrete file. -/
example : ∃ (d : Bytes) (e : Embeddings FtConfig FastTextSubwordVocab (NdArray ℝ) ℝ) (q : Nat),
    Embeddings.readFastText false d 0 = .ok (e, q) ∧ e.vocab.words = [['a']] := by
  obtain ⟨h1, h2, h3, h4, -⟩ := exampleFt_hypotheses
  obtain ⟨-, e', -, -, h, hv, -⟩ := c52_roundtrip exampleFtEmbeddings 1 ⟨1⟩ h1 [['a']] 3 6 h2 (by decide) (by decide)
    (by decide) (by decide) (by decide) 2 _ [5] exampleFt_stored rfl (by decide) (by decide) h3 h4
    (writtenHead [['a']].length 1 2 3 6).config rfl false
  exact ⟨_, e', _, h, by rw [hv]; rfl⟩

end FF
