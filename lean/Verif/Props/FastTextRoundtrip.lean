import Verif.Lemmas.FastTextWrite
import Verif.Props.Measures

/-!
# fastText round trip in exact arithmetic (C52)
-/

namespace FF

open Rd

/-- Exact arithmetic: a natural number as a real number. -/
noncomputable instance realScalarNat : ScalarNat ℝ := ⟨fun n => (n : ℝ)⟩

/-! ## Taking out and adding the vectors of n-grams -/

theorem zipWith_sub_comm (a s t : List ℝ) :
    List.zipWith Scalar.sub (List.zipWith Scalar.sub a s) t = List.zipWith Scalar.sub (List.zipWith Scalar.sub a t) s := by
  induction a generalizing s t with
  | nil => rfl
  | cons x a ih =>
    cases s with
    | nil => cases t <;> rfl
    | cons y s =>
      cases t with
      | nil => rfl
      | cons z t =>
        simp only [List.zipWith_cons_cons, ih, List.cons.injEq, and_true]
        show x - y - z = x - z - y
        ring

theorem foldl_sub_comm (subs : List (List ℝ)) (u s : List ℝ) :
    subs.foldl (List.zipWith Scalar.sub) (List.zipWith Scalar.sub u s) =
      List.zipWith Scalar.sub (subs.foldl (List.zipWith Scalar.sub) u) s := by
  induction subs generalizing u with
  | nil => rfl
  | cons t subs ih =>
    simp only [List.foldl_cons]
    rw [zipWith_sub_comm, ih]

theorem foldl_zipWith_len {F : Type} (f : F → F → F) (k : Nat) (subs : List (List F)) (u : List F) (hu : u.length = k)
    (hs : ∀ s ∈ subs, s.length = k) : (subs.foldl (List.zipWith f) u).length = k := by
  induction subs generalizing u with
  | nil => exact hu
  | cons t subs ih =>
    simp only [List.foldl_cons]
    refine ih _ ?_ fun s h => hs s (by simp [h])
    simp [hu, hs t (by simp)]

theorem zipWith_add_sub (a s : List ℝ) (h : a.length = s.length) :
    List.zipWith Scalar.add (List.zipWith Scalar.sub a s) s = a := by
  induction a generalizing s with
  | nil => rfl
  | cons x a ih =>
    cases s with
    | nil => simp at h
    | cons y s =>
      simp only [List.zipWith_cons_cons, ih s (by simpa using h), List.cons.injEq, and_true]
      show x - y + y = x
      ring

theorem add_after_sub (k : Nat) (subs : List (List ℝ)) (u : List ℝ) (hu : u.length = k)
    (hs : ∀ s ∈ subs, s.length = k) :
    subs.foldl (List.zipWith Scalar.add) (subs.foldl (List.zipWith Scalar.sub) u) = u := by
  induction subs with
  | nil => rfl
  | cons t subs ih =>
    have hs' : ∀ s ∈ subs, s.length = k := fun s h => hs s (by simp [h])
    simp only [List.foldl_cons]
    rw [foldl_sub_comm, zipWith_add_sub, ih hs']
    rw [foldl_zipWith_len _ k subs u hu hs', hs t (by simp)]

/-! ## Round trip -/

theorem takenOut_length {F : Type} [Scalar F] [ScalarNat F] {v : FastTextSubwordVocab} {rows : List (List F)} {w : Str} {row out : List F} {n : F} {k : Nat}
    (h : TakenOut v rows w row n out) (hrect : ∀ r ∈ rows, r.length = k) (hr : row.length = k) : out.length = k := by
  rcases h with ⟨-, rfl⟩ | ⟨is, subs, -, h2, rfl⟩
  · simpa using hr
  · apply foldl_zipWith_len
    · simpa using hr
    · intro s hs
      have : some s ∈ is.map (rows[·]?) := by rw [h2]; exact List.mem_map_of_mem hs
      obtain ⟨j, -, hj⟩ := List.mem_map.mp this
      exact hrect s (List.mem_of_getElem? hj)

/-- Averaging a row from which the n-gram rows were taken out gives the original row times its norm. -/
theorem average_takenOut {v : FastTextSubwordVocab} {rows rows' : List (List ℝ)} {w : Str} {row out avg : List ℝ} {n : ℝ}
    {k : Nat} (h : TakenOut v rows w row n out) (hrect : ∀ r ∈ rows, r.length = k) (hr : row.length = k)
    (ha : AveragedRow v rows' w out avg)
    (hsame : ∀ is, v.subwordIndices w = .ok (some is) → ∀ j ∈ is, rows'[j]? = rows[j]?) :
    avg = row.map (· * n) := by
  rcases h with ⟨h1, rfl⟩ | ⟨is, subs, h1, h2, rfl⟩
  · rcases ha with ⟨-, rfl⟩ | ⟨is, subs, h1', -⟩
    · rfl
    · rw [h1] at h1'; cases h1'
  · rcases ha with ⟨h1', -⟩ | ⟨is', subs', h1', h2', rfl⟩
    · rw [h1] at h1'; cases h1'
    · rw [h1] at h1'
      cases h1'
      have : subs' = subs := by
        apply map_some_inj
        rw [← h2', ← h2]
        exact List.map_congr_left (hsame is h1)
      subst this
      have hlen : is.length = subs'.length := by simpa using congrArg List.length h2
      unfold averageRows
      rw [add_after_sub k]
      · rw [hlen, List.map_map]
        conv => rhs; rw [← List.map_id (row.map (· * n))]
        show List.map _ (row.map (· * n)) = _
        apply List.map_congr_left
        intro x _
        show x * ((subs'.length + 1 : ℕ) : ℝ) / ((subs'.length + 1 : ℕ) : ℝ) = x
        have : ((subs'.length + 1 : ℕ) : ℝ) ≠ 0 := by positivity
        field_simp
      · simpa using hr
      · intro s hs
        have : some s ∈ is.map (rows[·]?) := by rw [h2]; exact List.mem_map_of_mem hs
        obtain ⟨j, -, hj⟩ := List.mem_map.mp this
        exact hrect s (List.mem_of_getElem? hj)

theorem euclideanNorm_scale (v : List ℝ) (n : ℝ) (hn : 0 ≤ n) : euclideanNorm (v.map (· * n)) = euclideanNorm v * n := by
  have : sumSquares (v.map (· * n)) = sumSquares v * n ^ 2 := by
    unfold sumSquares
    rw [List.map_map, ← List.sum_map_mul_right]
    congr 1
    apply List.map_congr_left
    intro x _
    simp only [Function.comp_apply]
    ring
  unfold euclideanNorm
  rw [this, Real.sqrt_mul (sumSquares_nonneg v), Real.sqrt_sq hn]

/-- What is read back from written embeddings: bucket rows as they were; for each word the row that was written, averaged with the
rows of its n-grams and normalised. -/
theorem fasttext_reread {T T' S F : Type} [Scalar F] [ScalarNat F] [Storage S F] [FloatBits F] [ConfigToml T']
    (e : Embeddings T FastTextSubwordVocab S F) (nb : Nat) (ix : FastTextIndexer) (hix : FastTextIndexer.new nb = .ok ix)
    (ws : List Str) (m M : Nat) (hv : SubwordVocab.new ws m M ix = .ok e.vocab)
    (hd : ∀ w ∈ ws, 1 ≤ m ∧ m ≤ M ∧ (nb ≠ 0 ∨ w.length + 2 < m)) (hm : m < 2 ^ 32) (hM : M < 2 ^ 32)
    (hnul : ∀ w ∈ ws, '\x00' ∉ w) (hl : ws.length < 2 ^ 32)
    (cols : Nat) (rows : List (List F)) (ns : List F) (hs : StoredRows e cols rows ns ws.length)
    (hrows : rows.length = ws.length + nb) (hc : cols < 2 ^ 32) (hmem : 4 * (rows.length * cols) ≤ isizeMax)
    (hexact : ∀ (i : Nat) (w : Str) (row out : List F) (n : F), ws[i]? = some w → rows[i]? = some row →
      ns[i]? = some n → TakenOut e.vocab rows w row n out →
      ∀ x ∈ out, FloatBits.ofBits (FloatBits.toBits x) = x)
    (hexact' : ∀ r ∈ rows.drop ws.length, ∀ x ∈ r, FloatBits.ofBits (FloatBits.toBits x) = x)
    (md : T') (hmd : ConfigToml.ofConfig (writtenHead ws.length nb cols m M).config = some md) (lossy : Bool) :
    e.writeFastText.Good ∧
    ∃ (e' : Embeddings T' FastTextSubwordVocab (NdArray F) F) (rows' : List (List F)) (ns' : List F) (file : List (List F)),
      Embeddings.readFastText lossy e.writeFastText.bytes 0 = .ok (e', e.writeFastText.bytes.length) ∧
      e'.vocab = e.vocab ∧ e'.metadata = some ⟨md⟩ ∧ e'.storage.inner = ⟨cols, rows'⟩ ∧ e'.norms = some ⟨ns'⟩ ∧
      rows'.length = rows.length ∧ ns'.length = ws.length ∧
      (∀ i, ws.length ≤ i → rows'[i]? = rows[i]? ∧ file[i]? = rows[i]?) ∧
      ∀ (i : Nat) (w : Str) (row : List F) (n : F), ws[i]? = some w → rows[i]? = some row → ns[i]? = some n →
        ∃ out avg, TakenOut e.vocab rows w row n out ∧ AveragedRow e.vocab file w out avg ∧
          (∀ is, e.vocab.subwordIndices w = .ok (some is) → ∀ j ∈ is, file[j]? = rows[j]?) ∧
          rows'[i]? = some (l2Normalize avg).1 ∧ ns'[i]? = some (l2Normalize avg).2 := by
  obtain ⟨hg, wrows, hwl, hto, hbytes⟩ := writeFastText_bytes hix hv hd hs hrows hl hc
  refine ⟨hg, ?_⟩
  have hb : nb < 2 ^ 31 := by have := (FastTextIndexer.new_eq_ok.mp hix).1; omega
  have hvo : (writtenFile ws nb cols m M (wrows ++ rows.drop ws.length)).VocabOk lossy ws :=
    writtenFile_vocabOk lossy hnul hl hb hc hm hM
  have hnl := hs.len
  -- the words' rows
  have hword : ∀ i (hi : i < ws.length), TakenOut e.vocab rows ws[i] (rows[i]'(by omega)) (ns[i]'(by omega))
      (wrows[i]'(by omega)) := fun i hi =>
    hto i _ _ _ _ (List.getElem?_eq_getElem hi) (List.getElem?_eq_getElem _) (List.getElem?_eq_getElem _)
      (List.getElem?_eq_getElem _)
  have hrect : ∀ r ∈ wrows ++ rows.drop ws.length, r.length = cols := by
    intro r hr
    rcases List.mem_append.mp hr with hr | hr
    · obtain ⟨i, hi, rfl⟩ := List.getElem_of_mem hr
      exact takenOut_length (hword i (by omega)) hs.rect (hs.rect _ (List.getElem_mem _))
    · exact hs.rect r (List.mem_of_mem_drop hr)
  have hlen : (wrows ++ rows.drop ws.length).length = rows.length := by simp; omega
  have hex : (wrows ++ rows.drop ws.length).map (List.map fun x => FloatBits.ofBits (FloatBits.toBits x)) =
      wrows ++ rows.drop ws.length := by
    conv => rhs; rw [← List.map_id (wrows ++ rows.drop ws.length)]
    apply List.map_congr_left
    intro r hr
    show _ = r
    conv => rhs; rw [← List.map_id r]
    apply List.map_congr_left
    intro x hx
    rcases List.mem_append.mp hr with hr | hr
    · obtain ⟨i, hi, rfl⟩ := List.getElem_of_mem hr
      exact hexact i _ _ _ _ (List.getElem?_eq_getElem (by omega)) (List.getElem?_eq_getElem (by omega))
        (List.getElem?_eq_getElem (by omega)) (hword i (by omega)) x hx
    · exact hexact' r hr x hx
  have hmo : (writtenFile ws nb cols m M (wrows ++ rows.drop ws.length)).MatrixOk := by
    refine ⟨⟨by simp [writtenFile], by simp [writtenFile]⟩, ?_, ?_, ?_, ?_⟩
    · simp only [writtenFile, List.length_map, hlen]; omega
    · simp only [writtenFile]; omega
    · simp only [writtenFile, List.mem_map]
      rintro _ ⟨r, hr, rfl⟩
      simpa using hrect r hr
    · simp only [writtenFile, List.length_map, hlen]
      refine ⟨?_, hmem⟩
      unfold isizeMax at hmem ⊢
      by_cases h1 : rows.length = 0
      · by_cases h2 : cols = 0 <;> simp [h1, h2]
        omega
      · by_cases h2 : cols = 0
        · simp [h1, h2]; omega
        · simp [h1, h2]; omega
  have ht : Took e.writeFastText.bytes 0 e.writeFastText.bytes.length
      (writtenFile ws nb cols m M (wrows ++ rows.drop ws.length)).bytes := by
    rw [hbytes]; exact ⟨by simp, by simp⟩
  have hread := readFastText_of (T := T') (F := F) hvo hmo hix hv ht
  rw [show ((writtenFile ws nb cols m M (wrows ++ rows.drop ws.length)).rows.map (List.map FloatBits.ofBits) :
      List (List F)) = wrows ++ rows.drop ws.length by
    simp only [writtenFile, List.map_map]
    exact (by simpa only [Function.comp_def, List.map_map] using hex)] at hread
  obtain ⟨rows', ns', hfin, hr⟩ := finishFastText_build (T := T') (c := (writtenHead ws.length nb cols m M).config)
    (k := cols) (rows := wrows ++ rows.drop ws.length) hix hv hd (hlen.trans hrows) md hmd
  have hfin' := hread.trans (congrArg (Res.map _) hfin)
  have hsub : ∀ i, ws.length ≤ i → (wrows ++ rows.drop ws.length)[i]? = rows[i]? := by
    intro i hi
    rw [List.getElem?_append_right (by omega), List.getElem?_drop]
    congr 1
    omega
  have hrl : rows'.length = rows.length := hr.rowsLen.trans hlen
  have hsub' : ∀ i, ws.length ≤ i → rows'[i]? = rows[i]? := fun i hi => (hr.subwords i hi).trans (hsub i hi)
  refine ⟨_, rows', ns', wrows ++ rows.drop ws.length, hfin', rfl, rfl, rfl, rfl, hrl, hr.normsLen, fun i hi => ⟨hsub' i hi, hsub i hi⟩, ?_⟩
  intro i w row n h0 h1 h2
  obtain ⟨hi, rfl⟩ := List.getElem?_eq_some_iff.mp h0
  obtain ⟨out, norm, h3, h4, r, avg, h5, h6, rfl, rfl⟩ := hr.words i _ (List.getElem?_eq_getElem hi)
  obtain ⟨_, rfl⟩ := List.getElem?_eq_some_iff.mp h1
  obtain ⟨_, rfl⟩ := List.getElem?_eq_some_iff.mp h2
  rw [List.getElem?_append_left (by omega), List.getElem?_eq_getElem (by omega)] at h5
  cases h5
  refine ⟨_, avg, hword i hi, h6, ?_, h3, h4⟩
  intro is his j hj
  obtain ⟨o, ho, hin⟩ := ft_subwords hix hv ws[i] (hd _ (List.getElem_mem hi))
  rw [his] at ho
  cases ho
  exact hsub j (hin is rfl j hj).1

/-- **C52.** Embeddings with a fastText vocabulary that are written in fastText format and read back have the same
vocabulary and, in exact arithmetic, the same bucket vectors and the same un-normalised word vectors (vector times
norm); the new norms are the lengths of these. If the word vectors were unit vectors with positive norms (or zero
vectors with norm zero), as after reading any of the formats, vectors and norms are unchanged. Needed: the default
boundary markers, words without NUL, n-grams of all words can be looked up, sizes that fit into the fields of the
format and into memory, and written numbers that can be represented as 32-bit floats (`hexact`, `hexact'`). -/
theorem c52_roundtrip {T T' S : Type} [Storage S ℝ] [FloatBits ℝ] [ConfigToml T']
    (e : Embeddings T FastTextSubwordVocab S ℝ) (nb : Nat) (ix : FastTextIndexer) (hix : FastTextIndexer.new nb = .ok ix)
    (ws : List Str) (m M : Nat) (hv : SubwordVocab.new ws m M ix = .ok e.vocab)
    (hd : ∀ w ∈ ws, 1 ≤ m ∧ m ≤ M ∧ (nb ≠ 0 ∨ w.length + 2 < m)) (hm : m < 2 ^ 32) (hM : M < 2 ^ 32)
    (hnul : ∀ w ∈ ws, '\x00' ∉ w) (hl : ws.length < 2 ^ 32)
    (cols : Nat) (rows : List (List ℝ)) (ns : List ℝ) (hs : StoredRows e cols rows ns ws.length)
    (hrows : rows.length = ws.length + nb) (hc : cols < 2 ^ 32) (hmem : 4 * (rows.length * cols) ≤ isizeMax)
    (hexact : ∀ (i : Nat) (w : Str) (row out : List ℝ) (n : ℝ), ws[i]? = some w → rows[i]? = some row →
      ns[i]? = some n → TakenOut e.vocab rows w row n out →
      ∀ x ∈ out, FloatBits.ofBits (FloatBits.toBits x) = x)
    (hexact' : ∀ r ∈ rows.drop ws.length, ∀ x ∈ r, FloatBits.ofBits (FloatBits.toBits x) = x)
    (md : T') (hmd : ConfigToml.ofConfig (writtenHead ws.length nb cols m M).config = some md) (lossy : Bool) :
    e.writeFastText.Good ∧
    ∃ (e' : Embeddings T' FastTextSubwordVocab (NdArray ℝ) ℝ) (rows' : List (List ℝ)) (ns' : List ℝ),
      Embeddings.readFastText lossy e.writeFastText.bytes 0 = .ok (e', e.writeFastText.bytes.length) ∧
      e'.vocab = e.vocab ∧ e'.metadata = some ⟨md⟩ ∧ e'.storage.inner = ⟨cols, rows'⟩ ∧ e'.norms = some ⟨ns'⟩ ∧
      rows'.length = rows.length ∧ ns'.length = ws.length ∧
      (∀ i, ws.length ≤ i → rows'[i]? = rows[i]?) ∧
      (∀ (i : Nat) (row : List ℝ) (n : ℝ), i < ws.length → rows[i]? = some row → ns[i]? = some n →
        ∃ row' n', rows'[i]? = some row' ∧ ns'[i]? = some n' ∧ row'.map (· * n') = row.map (· * n) ∧
          n' = euclideanNorm (row.map (· * n))) ∧
      ((∀ (i : Nat) (row : List ℝ) (n : ℝ), i < ws.length → rows[i]? = some row → ns[i]? = some n →
          (euclideanNorm row = 1 ∧ 0 < n) ∨ ((∀ x ∈ row, x = 0) ∧ n = 0)) →
        rows' = rows ∧ ns' = ns) := by
  obtain ⟨hg, e', rows', ns', file, hread, q1, q2, q3, q4, hrl, hnl', hsub', hw⟩ :=
    fasttext_reread (T' := T') e nb ix hix ws m M hv hd hm hM hnul hl cols rows ns hs hrows hc hmem hexact hexact' md hmd lossy
  refine ⟨hg, ?_⟩
  have hnl := hs.len
  have hwd : ∀ (i : Nat) (row : List ℝ) (n : ℝ), i < ws.length → rows[i]? = some row → ns[i]? = some n →
      rows'[i]? = some (l2Normalize (row.map (· * n))).1 ∧ ns'[i]? = some (l2Normalize (row.map (· * n))).2 := by
    intro i row n hi h1 h2
    obtain ⟨out, avg, h3, h4, h5, h6, h7⟩ := hw i _ row n (List.getElem?_eq_getElem hi) h1 h2
    have : avg = row.map (· * n) := average_takenOut h3 hs.rect (hs.rect _ (List.mem_of_getElem? h1)) h4 h5
    rw [← this]
    exact ⟨h6, h7⟩
  refine ⟨e', rows', ns', hread, q1, q2, q3, q4, hrl, hnl', fun i hi => (hsub' i hi).1, ?_, ?_⟩
  · intro i row n hi h1 h2
    obtain ⟨h3, h4⟩ := hwd i row n hi h1 h2
    exact ⟨_, _, h3, h4, c38_restore _, c38_norm _⟩
  · intro hunit
    have key : ∀ i, i < ws.length → rows'[i]? = rows[i]? ∧ ns'[i]? = ns[i]? := by
      intro i hi
      have h1 : rows[i]? = some (rows[i]'(by omega)) := List.getElem?_eq_getElem (by omega)
      have h2 : ns[i]? = some (ns[i]'(by omega)) := List.getElem?_eq_getElem (by omega)
      obtain ⟨h3, h4⟩ := hwd i _ _ hi h1 h2
      rw [h3, h4, h1, h2, c38_norm, l2Normalize_fst]
      rcases hunit i _ _ hi h1 h2 with ⟨hu, hp⟩ | ⟨hz, hn⟩
      · rw [euclideanNorm_scale _ _ hp.le, hu, one_mul, if_neg hp.ne', List.map_map]
        refine ⟨?_, rfl⟩
        congr 1
        conv => rhs; rw [← List.map_id (rows[i]'(by omega))]
        apply List.map_congr_left
        intro x _
        simp only [Function.comp_apply, id]
        field_simp
      · have h0 : (rows[i]'(by omega)).map (· * ns[i]'(by omega)) = rows[i]'(by omega) := by
          conv => rhs; rw [← List.map_id (rows[i]'(by omega))]
          apply List.map_congr_left
          intro x hx
          simp [hz x hx]
        rw [h0, euclideanNorm_eq_zero.mpr hz, if_pos rfl, hn]
        exact ⟨rfl, rfl⟩
    constructor
    · apply List.ext_getElem?
      intro i
      by_cases hi : i < ws.length
      · exact (key i hi).1
      · exact (hsub' i (by omega)).1
    · apply List.ext_getElem?
      intro i
      by_cases hi : i < ws.length
      · exact (key i hi).2
      · rw [List.getElem?_eq_none_iff.mpr (by omega), List.getElem?_eq_none_iff.mpr (by omega)]

/-! ## Example -/

/-- Natural numbers below 2^32 as bit patterns, only for the example. -/
@[instance_reducible] noncomputable def exampleFloatBits : FloatBits ℝ := ⟨fun b => (b.toNat : ℝ), fun x => UInt32.ofNat ⌊x⌋₊⟩

theorem exampleFloatBits_exact (n : Nat) (h : n < 2 ^ 32) :
    exampleFloatBits.ofBits (exampleFloatBits.toBits (n : ℝ)) = n := by
  show ((UInt32.ofNat ⌊(n : ℝ)⌋₊).toNat : ℝ) = n
  rw [Nat.floor_natCast, UInt32.toNat_ofNat', Nat.mod_eq_of_lt (by omega)]

/-- A vocabulary with one word and one bucket. -/
def exampleFtVocab : FastTextSubwordVocab :=
  ⟨['<'], ['>'], ⟨1⟩, indexMap [['a']], [['a']], 3, 6⟩

/-- The word has the vector (0.6, 0.8) and the norm 5, its only n-gram the vector (1, 2). -/
noncomputable def exampleFtEmbeddings : Embeddings FtConfig FastTextSubwordVocab (NdArray ℝ) ℝ :=
  ⟨none, ⟨⟨2, [[3 / 5, 4 / 5], [1, 2]]⟩⟩, exampleFtVocab, some ⟨[5]⟩⟩

theorem exampleFt_stored : StoredRows exampleFtEmbeddings 2 [[3 / 5, 4 / 5], [1, 2]] [5] 1 := by
  refine ⟨rfl, by simp, ?_, rfl, ?_⟩
  · intro i row h
    exact Mat.row_eq_ok.mpr h
  · intro i x h
    exact Res.unwrap_eq_ok.mpr h

theorem exampleFt_takenOut (i : Nat) (w : Str) (row out : List ℝ) (n : ℝ) (h1 : [['a']][i]? = some w)
    (h2 : ([[3 / 5, 4 / 5], [1, 2]] : List (List ℝ))[i]? = some row) (h3 : ([5] : List ℝ)[i]? = some n)
    (h4 : TakenOut exampleFtEmbeddings.vocab [[3 / 5, 4 / 5], [1, 2]] w row n out) : out = [5, 6] := by
  cases i with
  | succ i => simp at h1
  | zero =>
    simp at h1 h2 h3
    subst h1 h2 h3
    have hi : exampleFtVocab.subwordIndices ['a'] = .ok (some [1]) := by decide +kernel
    rcases h4 with ⟨h, -⟩ | ⟨is, subs, h, h5, rfl⟩
    · rw [show exampleFtEmbeddings.vocab = exampleFtVocab from rfl, hi] at h; cases h
    · rw [show exampleFtEmbeddings.vocab = exampleFtVocab from rfl, hi] at h
      cases h
      have : subs = [[1, 2]] := by
        apply map_some_inj
        rw [← h5]
        rfl
      subst this
      show [(3 / 5 : ℝ) * 5 * ((1 + 1 : ℕ) : ℝ) - 1, 4 / 5 * 5 * ((1 + 1 : ℕ) : ℝ) - 2] = [5, 6]
      norm_num

attribute [local instance] exampleFloatBits in
/-- The hypotheses of `c52_roundtrip` hold for a concrete case, including those of its last part. -/
theorem exampleFt_hypotheses : FastTextIndexer.new 1 = .ok ⟨1⟩ ∧ SubwordVocab.new [['a']] 3 6 ⟨1⟩ = .ok exampleFtEmbeddings.vocab ∧
    (∀ (i : Nat) (w : Str) (row out : List ℝ) (n : ℝ), [['a']][i]? = some w →
      ([[3 / 5, 4 / 5], [1, 2]] : List (List ℝ))[i]? = some row → ([5] : List ℝ)[i]? = some n →
      TakenOut exampleFtEmbeddings.vocab [[3 / 5, 4 / 5], [1, 2]] w row n out →
      ∀ x ∈ out, FloatBits.ofBits (FloatBits.toBits x) = x) ∧
    (∀ r ∈ ([[3 / 5, 4 / 5], [1, 2]] : List (List ℝ)).drop 1, ∀ x ∈ r, FloatBits.ofBits (FloatBits.toBits x) = x) ∧
    euclideanNorm [3 / 5, 4 / 5] = 1 ∧ (0 : ℝ) < 5 := by
  refine ⟨by decide +kernel, by decide +kernel, ?_, ?_, ?_, by norm_num⟩
  · intro i w row out n h1 h2 h3 h4 x hx
    rw [exampleFt_takenOut i w row out n h1 h2 h3 h4] at hx
    simp only [List.mem_cons, List.not_mem_nil, or_false] at hx
    rcases hx with rfl | rfl
    · exact_mod_cast exampleFloatBits_exact 5 (by norm_num)
    · exact_mod_cast exampleFloatBits_exact 6 (by norm_num)
  · intro r hr x hx
    simp at hr
    subst hr
    simp only [List.mem_cons, List.not_mem_nil, or_false] at hx
    rcases hx with rfl | rfl
    · exact_mod_cast exampleFloatBits_exact 1 (by norm_num)
    · exact_mod_cast exampleFloatBits_exact 2 (by norm_num)
  · have : sumSquares [3 / 5, 4 / 5] = 1 := by norm_num [sumSquares]
    rw [euclideanNorm, this, Real.sqrt_one]

/-! ## The configuration -/

/-- Every number of a configuration fits into its field. -/
structure FtConfig.Fits (c : FtConfig) : Prop where
  dims : c.dims < 2 ^ 32
  windowSize : c.windowSize < 2 ^ 32
  epoch : c.epoch < 2 ^ 32
  minCount : c.minCount < 2 ^ 32
  neg : c.neg < 2 ^ 32
  wordNgrams : c.wordNgrams < 2 ^ 32
  bucket : c.bucket < 2 ^ 32
  minN : c.minN < 2 ^ 32
  maxN : c.maxN < 2 ^ 32
  lrUpdateRate : c.lrUpdateRate < 2 ^ 32
  samplingThreshold : c.samplingThreshold < 2 ^ 64

/-- **C52** (configuration). Every configuration that is written is read back unchanged, with any loss and model. -/
theorem c52_config (c : FtConfig) (hc : c.Fits) :
    (writeFtConfig c).Good ∧ (writeFtConfig c).bytes.length = 56 ∧
    ∀ pre post : Bytes, readFtConfig (pre ++ (writeFtConfig c).bytes ++ post) pre.length = .ok (c, pre.length + 56) := by
  obtain ⟨l, hl1, hl2, hl3⟩ : ∃ n, c.loss.code = n ∧ (1 ≤ n ∧ n ≤ 3) ∧
      c.loss = if n = 1 then .hierarchicalSoftmax else if n = 2 then .negativeSampling else .softmax := by
    cases c.loss
    · exact ⟨1, rfl, by decide, rfl⟩
    · exact ⟨2, rfl, by decide, rfl⟩
    · exact ⟨3, rfl, by decide, rfl⟩
  obtain ⟨m, hm1, hm2, hm3⟩ : ∃ n, c.model.code = n ∧ (1 ≤ n ∧ n ≤ 3) ∧
      c.model = if n = 1 then .cbow else if n = 2 then .skipGram else .supervised := by
    cases c.model
    · exact ⟨1, rfl, by decide, rfl⟩
    · exact ⟨2, rfl, by decide, rfl⟩
    · exact ⟨3, rfl, by decide, rfl⟩
  obtain ⟨h, hh⟩ : ∃ h : FtHead, h = ⟨793712314, 12, c.dims, c.windowSize, c.epoch, c.minCount, c.neg, c.wordNgrams, l, m,
      c.bucket, c.minN, c.maxN, c.lrUpdateRate, c.samplingThreshold, 0, 0, 0, 0, 2 ^ 63⟩ := ⟨_, rfl⟩
  have hb : (writeFtConfig c).bytes = h.configBytes := by
    subst hh hl1 hm1
    simp [writeFtConfig, FtHead.configBytes, W.bytes_seq]
  have hcfg : h.config = c := by
    subst hh
    simp only [FtHead.config, ← hl3, ← hm3]
  have hr : ∀ off, ReadsAt readFtConfig off (writeFtConfig c).bytes c := by
    intro off
    rw [hb]
    have := readFtConfig_readsAt (h := h) ?_ ?_ off
    · rwa [hcfg] at this
    · subst hh
      exact ⟨by dsimp only; omega, by dsimp only; omega, hc.dims, hc.windowSize, hc.epoch, hc.minCount, hc.neg, hc.wordNgrams, by dsimp only; omega, by dsimp only; omega,
        hc.bucket, hc.minN, hc.maxN, hc.lrUpdateRate, hc.samplingThreshold, by dsimp only; omega, by dsimp only; omega, by dsimp only; omega, by dsimp only; omega, by dsimp only; omega⟩
    · subst hh
      exact ⟨rfl, Nat.le_refl _, hl2, hm2, rfl, Nat.le_refl _⟩
  have hl : (writeFtConfig c).bytes.length = 56 := by
    rw [hb]; simp [FtHead.configBytes]
  refine ⟨by unfold writeFtConfig; simp, hl, fun pre post => ?_⟩
  have := hr pre.length pre post rfl
  rwa [hl, ← List.append_assoc] at this

/-- The hypothesis of `c52_config` holds for a concrete configuration, and the numbers are where they should be. -/
example : FtConfig.Fits ⟨300, 5, 10, 5, 5, 1, .softmax, .supervised, 2000000, 3, 6, 100, 0x3f1a36e2eb1c432d⟩ ∧
    (writeFtConfig ⟨300, 5, 10, 5, 5, 1, .softmax, .supervised, 2000000, 3, 6, 100, 0x3f1a36e2eb1c432d⟩).bytes.take 32 =
      [44, 1, 0, 0, 5, 0, 0, 0, 10, 0, 0, 0, 5, 0, 0, 0, 5, 0, 0, 0, 1, 0, 0, 0, 3, 0, 0, 0, 3, 0, 0, 0] :=
  ⟨⟨by decide, by decide, by decide, by decide, by decide, by decide, by decide, by decide, by decide, by decide, by decide⟩, by decide +kernel⟩

end FF
