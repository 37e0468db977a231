import Verif.Props.Floret
import Verif.Props.TextExact
import Verif.Props.Outcomes
import Verif.Props.Requests
import Verif.Props.ErrorKinds
import Verif.Props.Truncated

/-!
# C122: concatenated text files
-/

namespace FF

open Rd Embeddings

/-! ## Specification -/

/-- The last line of a file is complete: it ends with a line feed. -/
def Complete (d : Bytes) : Prop := d.getLast? = some 10

instance (d : Bytes) : Decidable (Complete d) := inferInstanceAs (Decidable (d.getLast? = some 10))

variable {T F : Type} [Scalar F] [FloatText F]

/-! ## Lines -/

theorem isLines_complete {d : Bytes} {ls : List Bytes} (h : IsLines d ls) (hc : d = [] ∨ Complete d) :
    d = ls.flatMap (· ++ [10]) := by
  obtain ⟨h1, h2 | ⟨init, last, h2, h3, h4⟩⟩ := h
  · exact h2
  · exfalso
    rcases hc with rfl | hc
    · have := congrArg List.length h4
      simp only [List.length_nil, List.length_append] at this
      exact h3 (List.length_eq_zero_iff.mp (by omega))
    · unfold Complete at hc
      have h5 : last.getLast? = some 10 := by
        cases hl : last.getLast? with
        | none => exact absurd (List.getLast?_eq_none_iff.mp hl) h3
        | some x => rw [h4, List.getLast?_append, hl] at hc; exact hc
      exact h1 last (by rw [h2]; simp) (List.mem_of_getLast? h5)

theorem IsLines.append {a b : Bytes} {la lb : List Bytes} (ha : IsLines a la) (hc : a = [] ∨ Complete a)
    (hb : IsLines b lb) : IsLines (a ++ b) (la ++ lb) := by
  have he := isLines_complete ha hc
  refine ⟨fun l hl => (List.mem_append.mp hl).elim (ha.1 l) (hb.1 l), ?_⟩
  rcases hb.2 with h | ⟨init, last, h2, h3, h4⟩
  · left; rw [List.flatMap_append, ← he, ← h]
  · right
    exact ⟨la ++ init, last, by rw [h2, List.append_assoc], h3, by rw [List.flatMap_append, ← he, h4, List.append_assoc]⟩

theorem IsLines.nil {ls : List Bytes} (h : IsLines [] ls) : ls = [] := by
  rcases h.2 with h | ⟨init, last, h, h', h''⟩
  · cases ls with
    | nil => rfl
    | cons l ls => have := congrArg List.length h; simp at this
  · have := congrArg List.length h''
    simp only [List.length_nil, List.length_append] at this
    exact absurd (List.length_eq_zero_iff.mp (by omega)) h'

theorem IsLines.ne_nil {a : Bytes} {la : List Bytes} (h : IsLines a la) (ha : a ≠ []) : la ≠ [] := by
  rintro rfl
  rcases h.2 with h | ⟨init, last, h, -⟩
  · exact ha (by simpa using h)
  · simp at h

omit [Scalar F] in
theorem LinesHave.append {lossy : Bool} {la lb : List Bytes} {ra rb : List (Str × List F)} (ha : LinesHave lossy la ra)
    (hb : LinesHave lossy lb rb) : LinesHave lossy (la ++ lb) (ra ++ rb) := by
  refine ⟨by rw [List.length_append, List.length_append, ha.1, hb.1], fun i l r hl hr => ?_⟩
  rw [List.getElem?_append] at hl hr
  rw [ha.1] at hl
  split at hl
  · next h => rw [if_pos h] at hr; exact ha.2 i l r hl hr
  · next h => rw [if_neg h] at hr; exact hb.2 _ l r hl hr

omit [Scalar F] in
/-- Either every line has its row, or some line has none. -/
theorem linesHave_or (lossy : Bool) (ls : List Bytes) :
    (∃ rows : List (Str × List F), LinesHave lossy ls rows) ∨ ∃ l ∈ ls, ∀ r : Str × List F, ¬ LineHas lossy l r := by
  induction ls with
  | nil => exact .inl ⟨[], rfl, fun i l r h => by simp at h⟩
  | cons l ls ih =>
    by_cases hl : ∃ r : Str × List F, LineHas lossy l r
    · obtain ⟨r, hr⟩ := hl
      rcases ih with ⟨rows, h⟩ | ⟨l', h1, h2⟩
      · left
        refine ⟨[r] ++ rows, LinesHave.append (la := [l]) ⟨rfl, fun i l' r' h1 h2 => ?_⟩ h⟩
        cases i with
        | zero => cases h1; cases h2; exact hr
        | succ i => simp at h1
      · exact .inr ⟨l', by simp [h1], h2⟩
    · exact .inr ⟨l, by simp, fun r hr => hl ⟨r, hr⟩⟩

/-! ## Tables -/

theorem ofFlat_append {α : Type} {n m k : Nat} {xs ys : List α} (hx : xs.length = n * k) (hy : ys.length = m * k) :
    Mat.ofFlat (n + m) k (xs ++ ys) = ⟨k, (Mat.ofFlat n k xs).rows ++ (Mat.ofFlat m k ys).rows⟩ := by
  have w1 : (Mat.ofFlat n k xs).WF := Mat.ofFlat_wf (by omega)
  have w2 : (Mat.ofFlat m k ys).WF := Mat.ofFlat_wf (by omega)
  have wf : (⟨k, (Mat.ofFlat n k xs).rows ++ (Mat.ofFlat m k ys).rows⟩ : Mat α).WF := by
    intro r hr
    rcases List.mem_append.mp hr with h | h
    · exact w1 r h
    · exact w2 r h
  have h := Mat.ofFlat_flatten wf
  have h1 : (Mat.ofFlat n k xs).rows.length = n := Mat.ofFlat_nrows n k xs
  have h2 : (Mat.ofFlat m k ys).rows.length = m := Mat.ofFlat_nrows m k ys
  rw [List.flatten_append, flatten_ofFlat hx, flatten_ofFlat hy] at h
  simpa only [Mat.nrows, List.length_append, h1, h2] using h

omit [Scalar F] in
/-- What is read from a text file, as a table. -/
theorem readTextRaw_iff (lossy : Bool) (d : Bytes) (e : Embeddings T SimpleVocab (NdArray F) F) :
    readTextRaw lossy d 0 = .ok e ↔
      ∃ (rows : List (Str × List F)) (k : Nat), LinesHave lossy (textLines d) rows ∧ rows ≠ [] ∧
        (rows.map (·.1)).Nodup ∧ (rows.map (·.2)).flatten.length = rows.length * k ∧
        e = ⟨none, ⟨Mat.ofFlat rows.length k (rows.map (·.2)).flatten⟩,
          ⟨indexMap (rows.map (·.1)), rows.map (·.1)⟩, none⟩ := by
  unfold readTextRaw
  rw [c50_accepts none trivial lossy d 0 (textLines d) (by rw [List.drop_zero]; exact textLines_spec d) e]
  simp

omit [Scalar F] in
/-- The file of two files. -/
theorem concat_raw {lossy : Bool} {a b : Bytes} (hc : Complete a) {e1 e2 : Embeddings T SimpleVocab (NdArray F) F}
    (h1 : readTextRaw lossy a 0 = .ok e1) (h2 : readTextRaw lossy b 0 = .ok e2) (hd : e1.dims = e2.dims)
    (hw : ∀ w ∈ e1.vocab.words, w ∉ e2.vocab.words) :
    readTextRaw lossy (a ++ b) 0 = .ok (⟨none, ⟨⟨e1.dims, e1.storage.inner.rows ++ e2.storage.inner.rows⟩⟩,
      ⟨indexMap (e1.vocab.words ++ e2.vocab.words), e1.vocab.words ++ e2.vocab.words⟩, none⟩ :
      Embeddings T SimpleVocab (NdArray F) F) := by
  obtain ⟨r1, k1, l1, n1, d1, f1, rfl⟩ := (readTextRaw_iff lossy a e1).mp h1
  obtain ⟨r2, k2, l2, n2, d2, f2, rfl⟩ := (readTextRaw_iff lossy b e2).mp h2
  obtain rfl : k1 = k2 := hd
  rw [readTextRaw_iff, ← ((textLines_spec a).append (.inr hc) (textLines_spec b)).eq]
  refine ⟨r1 ++ r2, k1, l1.append l2, by simp [n1], ?_, ?_, ?_⟩
  · rw [List.map_append, List.nodup_append]
    exact ⟨d1, d2, fun x hx y hy hxy => hw x hx (hxy ▸ hy)⟩
  · rw [List.map_append, List.flatten_append, List.length_append, List.length_append, f1, f2, Nat.add_mul]
  · rw [List.map_append, List.map_append, List.flatten_append, List.length_append, ofFlat_append f1 f2]
    rfl

omit [Scalar F] in
/-- As many entries in the index as rows. -/
theorem readTextRaw_sizes {lossy : Bool} {d : Bytes} {e : Embeddings T SimpleVocab (NdArray F) F}
    (h : readTextRaw lossy d 0 = .ok e) :
    e.vocab.words.Nodup ∧ e.vocab = ⟨indexMap e.vocab.words, e.vocab.words⟩ ∧
      e.vocab.words.length = e.storage.inner.rows.length ∧ e.metadata = none ∧ e.norms = none := by
  obtain ⟨r1, k1, l1, n1, d1, f1, rfl⟩ := (readTextRaw_iff lossy d e).mp h
  refine ⟨d1, rfl, ?_, rfl, rfl⟩
  have : (Mat.ofFlat r1.length k1 (r1.map (·.2)).flatten).rows.length = r1.length := Mat.ofFlat_nrows _ _ _
  simp [this]

theorem readText_iff (lossy : Bool) (d : Bytes) (e : Embeddings T SimpleVocab (NdArray F) F) :
    readText lossy d 0 = .ok e ↔ ∃ e0 : Embeddings T SimpleVocab (NdArray F) F, readTextRaw lossy d 0 = .ok e0 ∧
      e = ⟨none, ⟨⟨e0.storage.inner.cols, e0.storage.inner.rows.map fun r => (l2Normalize r).1⟩⟩,
        e0.vocab, some ⟨e0.storage.inner.rows.map fun r => (l2Normalize r).2⟩⟩ := by
  unfold readText
  rw [Res.bind_eq_ok]
  have key : ∀ e0 : Embeddings T SimpleVocab (NdArray F) F, readTextRaw lossy d 0 = .ok e0 →
      Vocab.vocabLen e0.vocab = .ok (Storage.shape e0.storage).1 := by
    intro e0 h0
    obtain ⟨h1, h2, h3, -⟩ := readTextRaw_sizes h0
    show Res.ok e0.vocab.indices.len = .ok e0.storage.inner.rows.length
    rw [← h3, h2]
    exact congrArg Res.ok ((indexMap_len_iff _).mpr h1)
  constructor
  · rintro ⟨e0, h0, h⟩
    rw [normalizeRead_eq (key e0 h0)] at h
    exact ⟨e0, h0, (Res.ok.inj h).symm⟩
  · rintro ⟨e0, h0, rfl⟩
    exact ⟨e0, h0, normalizeRead_eq (key e0 h0)⟩

/-! ## Text files -/

omit [Scalar F] in
/-- **C122** (text, without normalisation). Two files with the same number of dimensions and without a common word,
the first of which ends with a line feed: one after the other they are read as the words and vectors of the first
followed by those of the second. -/
theorem c122_text (lossy : Bool) (a b : Bytes) (hc : Complete a) (e1 e2 : Embeddings T SimpleVocab (NdArray F) F)
    (h1 : readTextRaw lossy a 0 = .ok e1) (h2 : readTextRaw lossy b 0 = .ok e2) (hd : e1.dims = e2.dims)
    (hw : ∀ w ∈ e1.vocab.words, w ∉ e2.vocab.words) :
    ∃ e : Embeddings T SimpleVocab (NdArray F) F, readTextRaw lossy (a ++ b) 0 = .ok e ∧
      SimpleVocab.new (e1.vocab.words ++ e2.vocab.words) = .ok e.vocab ∧
      e.storage.inner = ⟨e1.dims, e1.storage.inner.rows ++ e2.storage.inner.rows⟩ ∧
      e.metadata = none ∧ e.norms = none := by
  refine ⟨_, concat_raw hc h1 h2 hd hw, SimpleVocab.new_eq_ok.mpr ⟨?_, rfl⟩, rfl, rfl, rfl⟩
  rw [List.nodup_append]
  exact ⟨(readTextRaw_sizes h1).1, (readTextRaw_sizes h2).1, fun x hx y hy hxy => hw x hx (hxy ▸ hy)⟩

/-- **C122** (text, with normalisation): the norms too. -/
theorem c122_text_normalized (lossy : Bool) (a b : Bytes) (hc : Complete a)
    (e1 e2 : Embeddings T SimpleVocab (NdArray F) F) (h1 : readText lossy a 0 = .ok e1)
    (h2 : readText lossy b 0 = .ok e2) (hd : e1.dims = e2.dims) (hw : ∀ w ∈ e1.vocab.words, w ∉ e2.vocab.words) :
    ∃ (e : Embeddings T SimpleVocab (NdArray F) F) (n1 n2 : List F), readText lossy (a ++ b) 0 = .ok e ∧
      SimpleVocab.new (e1.vocab.words ++ e2.vocab.words) = .ok e.vocab ∧
      e.storage.inner = ⟨e1.dims, e1.storage.inner.rows ++ e2.storage.inner.rows⟩ ∧ e.metadata = none ∧
      e1.norms = some ⟨n1⟩ ∧ e2.norms = some ⟨n2⟩ ∧ e.norms = some ⟨n1 ++ n2⟩ := by
  obtain ⟨r1, g1, rfl⟩ := (readText_iff lossy a e1).mp h1
  obtain ⟨r2, g2, rfl⟩ := (readText_iff lossy b e2).mp h2
  obtain ⟨e, he, hv, hs, -, -⟩ := c122_text lossy a b hc r1 r2 g1 g2 hd hw
  refine ⟨_, _, _, (readText_iff lossy (a ++ b) _).mpr ⟨e, he, rfl⟩, hv, ?_, rfl, rfl, rfl, ?_⟩
  · show (⟨e.storage.inner.cols, _⟩ : Mat F) = _
    rw [hs, List.map_append]
    rfl
  · show some _ = some _
    rw [hs, List.map_append]

omit [Scalar F] in
/-- **C122 is false** for a common word: the two files with the same number of dimensions together panic. Both
readers. -/
theorem c122_common_panics [Scalar F] (lossy : Bool) (a b : Bytes) (hc : Complete a)
    (e1 e2 : Embeddings T SimpleVocab (NdArray F) F) (h1 : readTextRaw lossy a 0 = .ok e1)
    (h2 : readTextRaw lossy b 0 = .ok e2) (hd : e1.dims = e2.dims) (w : Str) (hw1 : w ∈ e1.vocab.words)
    (hw2 : w ∈ e2.vocab.words) :
    (readTextRaw lossy (a ++ b) 0 : Res (Embeddings T SimpleVocab (NdArray F) F)) = .panic ∧
    (readText lossy (a ++ b) 0 : Res (Embeddings T SimpleVocab (NdArray F) F)) = .panic := by
  have key : (readTextRaw lossy (a ++ b) 0 : Res (Embeddings T SimpleVocab (NdArray F) F)) = .panic := by
    obtain ⟨r1, k1, l1, n1, d1, f1, rfl⟩ := (readTextRaw_iff lossy a e1).mp h1
    obtain ⟨r2, k2, l2, n2, d2, f2, rfl⟩ := (readTextRaw_iff lossy b e2).mp h2
    obtain rfl : k1 = k2 := hd
    refine (c50_panics none trivial lossy (a ++ b) 0 (textLines a ++ textLines b) ?_).mpr
      (.inr ⟨r1 ++ r2, k1, l1.append l2, by simp [n1], ?_, by simp, ?_⟩)
    · rw [List.drop_zero]; exact (textLines_spec a).append (.inr hc) (textLines_spec b)
    · rw [List.map_append, List.flatten_append, List.length_append, List.length_append, f1, f2, Nat.add_mul]
    · rw [List.map_append, List.nodup_append]
      exact fun h => h.2.2 w hw1 w hw2 rfl
  exact ⟨key, by unfold readText; rw [key]; rfl⟩

omit [Scalar F] in
/-- **C122** (different numbers of dimensions): refused if the total number of components is no multiple of the number
of words. Both readers. -/
theorem c122_dims_partial [Scalar F] (lossy : Bool) (a b : Bytes) (hc : Complete a)
    (e1 e2 : Embeddings T SimpleVocab (NdArray F) F) (h1 : readTextRaw lossy a 0 = .ok e1)
    (h2 : readTextRaw lossy b 0 = .ok e2)
    (hd : ¬ e1.vocab.words.length + e2.vocab.words.length ∣
      e1.vocab.words.length * e1.dims + e2.vocab.words.length * e2.dims) :
    (readTextRaw lossy (a ++ b) 0 : Res (Embeddings T SimpleVocab (NdArray F) F)) = .err .shape ∧
    (readText lossy (a ++ b) 0 : Res (Embeddings T SimpleVocab (NdArray F) F)) = .err .shape := by
  have key : (readTextRaw lossy (a ++ b) 0 : Res (Embeddings T SimpleVocab (NdArray F) F)) = .err .shape := by
    obtain ⟨r1, k1, l1, n1, d1, f1, rfl⟩ := (readTextRaw_iff lossy a e1).mp h1
    obtain ⟨r2, k2, l2, n2, d2, f2, rfl⟩ := (readTextRaw_iff lossy b e2).mp h2
    refine ((c50_partial none trivial lossy (a ++ b) 0 (textLines a ++ textLines b) ?_).2 (r1 ++ r2)
      (l1.append l2)).2 rfl (by simp [n1]) ?_
    · rw [List.drop_zero]; exact (textLines_spec a).append (.inr hc) (textLines_spec b)
    · rw [List.map_append, List.flatten_append, List.length_append, List.length_append, f1, f2]
      simpa [Embeddings.dims, Storage.shape, Mat.dim] using hd
  exact ⟨key, by unfold readText; rw [key]; rfl⟩

omit [Scalar F] in
/-- **C122** (the exact outcomes for two accepted files). If the total number of components is a multiple of the number of
words, then files without a common word are accepted, with all words and with all components in order but not
necessarily with the words they belong to, and files with a common word panic. Otherwise the files are refused. -/
theorem c122_outcomes (lossy : Bool) (a b : Bytes) (hc : Complete a)
    (e1 e2 : Embeddings T SimpleVocab (NdArray F) F) (h1 : readTextRaw lossy a 0 = .ok e1)
    (h2 : readTextRaw lossy b 0 = .ok e2) :
    let n := e1.vocab.words.length + e2.vocab.words.length
    let total := e1.vocab.words.length * e1.dims + e2.vocab.words.length * e2.dims
    let r : Res (Embeddings T SimpleVocab (NdArray F) F) := readTextRaw lossy (a ++ b) 0
    ((∃ e, r = .ok e) ↔ n ∣ total ∧ ∀ w ∈ e1.vocab.words, w ∉ e2.vocab.words) ∧
    (r = .panic ↔ n ∣ total ∧ ∃ w ∈ e1.vocab.words, w ∈ e2.vocab.words) ∧
    (r = .err .shape ↔ ¬ n ∣ total) ∧
    ∀ e, r = .ok e → e.vocab.words = e1.vocab.words ++ e2.vocab.words ∧
      e.storage.inner.rows.flatten = e1.storage.inner.rows.flatten ++ e2.storage.inner.rows.flatten ∧ n * e.dims = total := by
  obtain ⟨r1, k1, l1, n1, d1, f1, rfl⟩ := (readTextRaw_iff lossy a e1).mp h1
  obtain ⟨r2, k2, l2, n2, d2, f2, rfl⟩ := (readTextRaw_iff lossy b e2).mp h2
  have hlines : IsLines ((a ++ b).drop 0) (textLines a ++ textLines b) := by
    rw [List.drop_zero]; exact (textLines_spec a).append (.inr hc) (textLines_spec b)
  have hl := l1.append l2
  have hf : ((r1 ++ r2).map (·.2)).flatten.length = r1.length * k1 + r2.length * k2 := by
    rw [List.map_append, List.flatten_append, List.length_append, f1, f2]
  have hnd : ((r1 ++ r2).map (·.1)).Nodup ↔ ∀ w ∈ r1.map (·.1), w ∉ r2.map (·.1) := by
    rw [List.map_append, List.nodup_append]
    exact ⟨fun h x hx hy => h.2.2 x hx x hy rfl, fun h => ⟨d1, d2, fun x hx y hy hxy => h x hx (hxy ▸ hy)⟩⟩
  have hlen : (r1 ++ r2).length = r1.length + r2.length := List.length_append
  have hne : r1 ++ r2 ≠ [] := by simp [n1]
  have hok : ∀ e : Embeddings T SimpleVocab (NdArray F) F, readTextRaw lossy (a ++ b) 0 = .ok e ↔
      ∃ k, ((r1 ++ r2).map (·.1)).Nodup ∧ r1.length * k1 + r2.length * k2 = (r1.length + r2.length) * k ∧
        e = ⟨none, ⟨Mat.ofFlat (r1 ++ r2).length k ((r1 ++ r2).map (·.2)).flatten⟩,
          ⟨indexMap ((r1 ++ r2).map (·.1)), (r1 ++ r2).map (·.1)⟩, none⟩ := by
    intro e
    rw [readTextRaw_iff, show textLines (a ++ b) = textLines a ++ textLines b from hlines.eq.symm]
    constructor
    · rintro ⟨rows, k, h, -, h3, h4, h5⟩
      obtain rfl : r1 ++ r2 = rows := Res.ok.inj ((linesHave_iff.mpr hl).symm.trans (linesHave_iff.mpr h))
      exact ⟨k, h3, by rw [← hlen, ← h4, hf], h5⟩
    · rintro ⟨k, h3, h4, h5⟩
      exact ⟨r1 ++ r2, k, hl, hne, h3, by rw [hf, hlen, h4], h5⟩
  have hpanic : (readTextRaw lossy (a ++ b) 0 : Res (Embeddings T SimpleVocab (NdArray F) F)) = .panic ↔
      ∃ k, ¬ ((r1 ++ r2).map (·.1)).Nodup ∧ r1.length * k1 + r2.length * k2 = (r1.length + r2.length) * k := by
    unfold readTextRaw
    rw [c50_panics none trivial lossy (a ++ b) 0 _ hlines]
    constructor
    · rintro (⟨h, -⟩ | ⟨rows, k, h, -, h3, -, h5⟩)
      · rw [h] at hl
        exact absurd (List.length_eq_zero_iff.mp hl.1.symm) hne
      · obtain rfl : r1 ++ r2 = rows := Res.ok.inj ((linesHave_iff.mpr hl).symm.trans (linesHave_iff.mpr h))
        exact ⟨k, h5, by rw [← hlen, ← h3, hf]⟩
    · rintro ⟨k, h3, h4⟩
      exact .inr ⟨r1 ++ r2, k, hl, hne, by rw [hf, hlen, h4], by simp, h3⟩
  have hshape : ¬ r1.length + r2.length ∣ r1.length * k1 + r2.length * k2 →
      (readTextRaw lossy (a ++ b) 0 : Res (Embeddings T SimpleVocab (NdArray F) F)) = .err .shape := by
    intro h
    exact ((c50_partial none trivial lossy (a ++ b) 0 _ hlines).2 _ hl).2 rfl hne (by rw [hf, hlen]; exact h)
  have hdims : ∀ (n k : Nat) (xs : List F) (v : SimpleVocab),
      (⟨none, ⟨Mat.ofFlat n k xs⟩, v, none⟩ : Embeddings T SimpleVocab (NdArray F) F).dims = k := fun _ _ _ _ => rfl
  simp only [hdims, List.length_map]
  refine ⟨?_, ?_, ⟨?_, hshape⟩, ?_⟩
  · constructor
    · rintro ⟨e, he⟩
      obtain ⟨k, h3, h4, -⟩ := (hok e).mp he
      exact ⟨⟨k, h4⟩, hnd.mp h3⟩
    · rintro ⟨⟨k, h4⟩, h3⟩
      exact ⟨_, (hok _).mpr ⟨k, hnd.mpr h3, h4, rfl⟩⟩
  · rw [hpanic]
    constructor
    · rintro ⟨k, h3, h4⟩
      refine ⟨⟨k, h4⟩, Classical.byContradiction fun hno => h3 (hnd.mpr fun w h1 h2 => hno ⟨w, h1, h2⟩)⟩
    · rintro ⟨⟨k, h4⟩, w, h1, h2⟩
      exact ⟨k, fun h => hnd.mp h w h1 h2, h4⟩
  · rintro h ⟨k, h4⟩
    by_cases hn : ((r1 ++ r2).map (·.1)).Nodup
    · have := (hok _).mpr ⟨k, hn, h4, rfl⟩
      rw [h] at this
      cases this
    · have := hpanic.mpr ⟨k, hn, h4⟩
      rw [h] at this
      cases this
  · intro e he
    obtain ⟨k, -, h4, rfl⟩ := (hok e).mp he
    refine ⟨List.map_append, ?_, h4.symm⟩
    show (Mat.ofFlat _ _ _).rows.flatten = _
    rw [flatten_ofFlat (by rw [hf, hlen, h4])]
    show _ = (Mat.ofFlat _ _ _).rows.flatten ++ (Mat.ofFlat _ _ _).rows.flatten
    rw [flatten_ofFlat f1, flatten_ofFlat f2, List.map_append, List.flatten_append]

omit [Scalar F] in
/-- **C122** (a line that is no line of a text file, in either file): refused. Both readers. -/
theorem c122_refused [Scalar F] (lossy : Bool) (a b : Bytes) (hc : Complete a) (la lb : List Bytes)
    (ha : IsLines a la) (hb : IsLines b lb) (l : Bytes) (hl : l ∈ la ∨ l ∈ lb)
    (hno : ∀ r : Str × List F, ¬ LineHas lossy l r) :
    (readTextRaw lossy (a ++ b) 0 : Res (Embeddings T SimpleVocab (NdArray F) F)) = .err .format ∧
    (readText lossy (a ++ b) 0 : Res (Embeddings T SimpleVocab (NdArray F) F)) = .err .format := by
  have key : (readTextRaw lossy (a ++ b) 0 : Res (Embeddings T SimpleVocab (NdArray F) F)) = .err .format := by
    refine (c50_partial none trivial lossy (a ++ b) 0 (la ++ lb) ?_).1 ⟨l, List.mem_append.mpr hl, hno⟩
    rw [List.drop_zero]; exact ha.append (.inr hc) hb
  exact ⟨key, by unfold readText; rw [key]; rfl⟩

/-! ## Formats that state their size -/

/-- A reader that does not look at data behind the position where it stops, unless it stops at the end. -/
def Rd.Stable {α : Type} (r : Rd α) : Prop :=
  ∀ (d x : Bytes) (pos : Nat) (v : α) (q : Nat), r d pos = .ok (v, q) → pos ≤ q ∧ (q < d.length → r (d ++ x) pos = .ok (v, q))

theorem Rd.Stable.bind {α β : Type} {r : Rd α} {f : α → Rd β} (hr : r.Stable) (hf : ∀ v, (f v).Stable) :
    (r >>= f).Stable := by
  intro d x pos v q h
  obtain ⟨y, p, h1, h2⟩ := Rd.bind_ok.mp h
  obtain ⟨a1, a2⟩ := hr d x pos y p h1
  obtain ⟨b1, b2⟩ := hf y d x p v q h2
  exact ⟨by omega, fun hq => Rd.bind_ok.mpr ⟨y, p, a2 (by omega), b2 hq⟩⟩

theorem Rd.Stable.lift {α : Type} (x : Res α) : (Rd.lift x).Stable := by
  intro d y pos v q h
  obtain ⟨h1, rfl⟩ := Rd.lift_ok.mp h
  exact ⟨Nat.le_refl _, fun _ => Rd.lift_ok.mpr ⟨h1, rfl⟩⟩

theorem Rd.Stable.pure {α : Type} (x : α) : (Pure.pure x : Rd α).Stable := by
  intro d y pos v q h
  cases h
  exact ⟨Nat.le_refl _, fun _ => rfl⟩

theorem stable_readUntil (delim : UInt8) : (readUntil delim).Stable := by
  intro d x pos v q h
  unfold readUntil at h ⊢
  cases h
  refine ⟨Nat.le_add_right _ _, fun hq => ?_⟩
  rw [List.drop_append_of_le_length (by omega)]
  rcases takeThrough_cases delim (d.drop pos) with ⟨s, rest, h1, h2⟩ | h
  · rw [Settles.takeThrough_more (by rw [h2]; simp)]
  · rw [takeThrough_none h, List.length_drop] at hq
    omega

theorem stable_readToken (delim : UInt8) (lossy : Bool) : (readToken delim lossy).Stable :=
  (stable_readUntil delim).bind fun _ => .lift _

theorem stable_readNumber (delim : UInt8) : (readNumber delim).Stable :=
  (stable_readToken delim false).bind fun _ => .lift _

theorem stable_readFloretHead : readFloretHead.Stable := by
  unfold readFloretHead
  exact (stable_readNumber _).bind fun _ => (stable_readNumber _).bind fun _ => (stable_readNumber _).bind fun _ =>
    (stable_readNumber _).bind fun _ => (stable_readNumber _).bind fun _ => (stable_readNumber _).bind fun _ =>
    (stable_readToken _ _).bind fun _ => (stable_readToken _ _).bind fun _ => .pure _

theorem complete_drop {d : Bytes} (h : Complete d) (n : Nat) : d.drop n = [] ∨ Complete (d.drop n) := by
  by_cases hn : n < d.length
  · right
    unfold Complete at *
    rw [List.getLast?_drop, if_neg (by omega), h]
  · left
    exact List.drop_eq_nil_of_le (by omega)

omit [Scalar F] in
/-- **C122** (text with dimensions): whatever follows an accepted file is refused. Both readers. -/
theorem c122_text_dims [Scalar F] (lossy : Bool) (a b : Bytes) (hc : Complete a) (hb : b ≠ [])
    (e1 : Embeddings T SimpleVocab (NdArray F) F) (h1 : readTextDimsRaw lossy a 0 = .ok e1) :
    ∃ x, (readTextDimsRaw lossy (a ++ b) 0 : Res (Embeddings T SimpleVocab (NdArray F) F)) = .err x ∧
      (readTextDims lossy (a ++ b) 0 : Res (Embeddings T SimpleVocab (NdArray F) F)) = .err x := by
  have key : ∃ x, (readTextDimsRaw lossy (a ++ b) 0 : Res (Embeddings T SimpleVocab (NdArray F) F)) = .err x := by
    obtain ⟨n, k, p1, p2, lines, rows, g1, g2, fit1, fit2, hl, hr, hn, h0, hnd, hlen, -⟩ :=
      (c50_dims_accepts lossy a 0 e1).mp h1
    have hp : p2 < a.length := by
      refine Nat.lt_of_not_le fun hge => ?_
      rw [List.drop_eq_nil_of_le hge] at hl
      have := hl.nil
      have := hr.1
      simp_all
    obtain ⟨s1, s2⟩ := stable_readNumber 32 a b 0 n p1 g1
    obtain ⟨s3, s4⟩ := stable_readNumber 10 a b p1 k p2 g2
    unfold readTextDimsRaw
    rw [s2 (by omega), Res.ok_bind]
    dsimp only
    rw [s4 hp, Res.ok_bind]
    dsimp only
    have hlines : IsLines ((a ++ b).drop p2) (lines ++ textLines b) := by
      rw [List.drop_append_of_le_length (by omega)]
      exact hl.append (complete_drop hc p2) (textLines_spec b)
    have hne := (textLines_spec b).ne_nil hb
    have := c50_partial (T := T) (F := F) (some (n, k)) ⟨fit1, fit2⟩ lossy (a ++ b) p2 _ hlines
    rcases linesHave_or (F := F) lossy (lines ++ textLines b) with ⟨rows', h⟩ | h
    · refine (this.2 rows' h).1 n k rfl (.inl ?_)
      have h5 := h.1
      have h6 := hr.1
      rw [List.length_append] at h5
      have := List.length_pos_iff.mpr hne
      omega
    · exact ⟨_, this.1 h⟩
  obtain ⟨x, hx⟩ := key
  exact ⟨x, hx, by unfold readTextDims; rw [hx]; rfl⟩

omit [Scalar F] in
/-- **C122** (floret): whatever follows an accepted file is refused. -/
theorem c122_floret (a b : Bytes) (hc : Complete a) (hb : b ≠ [])
    (e1 : Embeddings T FloretSubwordVocab (NdArray F) F) (h1 : Embeddings.readFloret a 0 = .ok e1) :
    ∃ x, (Embeddings.readFloret (a ++ b) 0 : Res (Embeddings T FloretSubwordVocab (NdArray F) F)) = .err x := by
  obtain ⟨h, p, lines, rows, g, c1, c2, c3, c4, c5, c6, hl, hn, -⟩ := (c60_accepts a 0 e1).mp h1
  have hp : p < a.length := by
    refine Nat.lt_of_not_le fun hge => ?_
    rw [List.drop_eq_nil_of_le hge] at hl
    have := hl.nil
    simp_all
  have hhead := (stable_readFloretHead a b 0 h p g).2 hp
  cases hres : (Embeddings.readFloret (a ++ b) 0 : Res (Embeddings T FloretSubwordVocab (NdArray F) F)) with
  | err x => exact ⟨x, rfl⟩
  | panic =>
    exfalso
    obtain ⟨h', p', g', -, -, -, -, -, hbig⟩ := (c60_panics (a ++ b) 0).mp hres
    rw [hhead] at g'
    cases g'
    omega
  | ok e =>
    exfalso
    obtain ⟨h', p', lines', rows', g', -, -, -, -, -, -, hl', hn', -⟩ := (c60_accepts (a ++ b) 0 e).mp hres
    rw [hhead] at g'
    cases g'
    have hlines : IsLines ((a ++ b).drop p) (lines ++ textLines b) := by
      rw [List.drop_append_of_le_length (by omega)]
      exact hl.append (complete_drop hc p) (textLines_spec b)
    have h7 := hl'.eq.trans hlines.eq.symm
    have := List.length_pos_iff.mpr ((textLines_spec b).ne_nil hb)
    have h8 := congrArg List.length h7
    rw [List.length_append] at h8
    omega

/-! ## Examples and counterexamples -/

attribute [local instance] exampleScalar exampleFloatText

/-- **C122 is false**: files with a common word panic together, and files with different numbers of dimensions are
accepted together if the total fits; then components move to other words. Without the line feed at the end the last
line of the first file and the first line of the second are one. -/
theorem c122_false :
    (exampleTable "a 1\n" = .ok ([['a']], [[1]]) ∧ exampleTable "a 2\n" = .ok ([['a']], [[2]]) ∧
      exampleTable ("a 1\n" ++ "a 2\n") = .panic) ∧
    (exampleTable "b 2 3 4\n" = .ok ([['b']], [[2, 3, 4]]) ∧
      exampleTable ("a 1\n" ++ "b 2 3 4\n") = .ok ([['a'], ['b']], [[1, 2], [3, 4]])) ∧
    (exampleTable "a 1" = .ok ([['a']], [[1]]) ∧ exampleTable "2 3" = .ok ([['2']], [[3]]) ∧
      exampleTable ("a 1" ++ "2 3") = .ok ([['a']], [[12, 3]])) := by
  refine ⟨⟨?_, ?_, ?_⟩, ⟨?_, ?_⟩, ?_, ?_, ?_⟩ <;> decide +kernel

/-- A file of one word as it is read. -/
def exampleOne (c : Char) (v : List F32) : Embeddings Str SimpleVocab (NdArray F32) F32 :=
  ⟨none, ⟨⟨v.length, [v]⟩⟩, ⟨indexMap [[c]], [[c]]⟩, none⟩

/-- Hypotheses of `c122_outcomes`, with files of different numbers of dimensions that are accepted together. -/
example := c122_outcomes (T := Str) false (ascii "a 1\n") (ascii "b 2 3 4") (by decide +kernel) (exampleOne 'a' [1])
  (exampleOne 'b' [2, 3, 4]) (by decide +kernel) (by decide +kernel)

/-- Hypotheses of `c122_text` and `c122_common_panics`. -/
example := c122_text (T := Str) false (ascii "a 1 2\n") (ascii "b 3 4") (by decide +kernel) (exampleOne 'a' [1, 2])
  (exampleOne 'b' [3, 4]) (by decide +kernel) (by decide +kernel) (by decide +kernel) (by decide +kernel)
example := c122_common_panics (T := Str) false (ascii "a 1 2\n") (ascii "a 3 4") (by decide +kernel)
  (exampleOne 'a' [1, 2]) (exampleOne 'a' [3, 4]) (by decide +kernel) (by decide +kernel) (by decide +kernel) ['a']
  (by decide +kernel) (by decide +kernel)

/-- Hypotheses of `c122_text_normalized`: both files are accepted. -/
example : ∃ e1 e2 : Embeddings Str SimpleVocab (NdArray F32) F32, readText false (ascii "a 1 2\n") 0 = .ok e1 ∧
    readText false (ascii "b 3 4") 0 = .ok e2 ∧ e1.dims = e2.dims ∧ ∀ w ∈ e1.vocab.words, w ∉ e2.vocab.words :=
  ⟨_, _, (readText_iff _ _ _).mpr ⟨exampleOne 'a' [1, 2], by decide +kernel, rfl⟩,
    (readText_iff _ _ _).mpr ⟨exampleOne 'b' [3, 4], by decide +kernel, rfl⟩, rfl, by decide +kernel⟩

/-- Hypotheses of `c122_dims_partial` and `c122_refused`. -/
example := c122_dims_partial (T := Str) false (ascii "a 1 2\n") (ascii "b 3") (by decide +kernel)
  (exampleOne 'a' [1, 2]) (exampleOne 'b' [3]) (by decide +kernel) (by decide +kernel) (by decide +kernel)
example := c122_refused (T := Str) (F := F32) false (ascii "a 1 2\n") (ascii "b x y") (by decide +kernel)
  [ascii "a 1 2"] [ascii "b x y"] ⟨by decide +kernel, .inl (by decide +kernel)⟩
  ⟨by decide +kernel, .inr ⟨[], _, rfl, by decide +kernel, rfl⟩⟩ (ascii "b x y") (.inr (by simp)) fun r h => by
    have := readTextLine_iff.mpr h
    rw [show readTextLine false (ascii "b x y") = (.err .format : Res (Str × List F32)) by decide +kernel] at this
    cases this
example : exampleTable ("a 1 2\n" ++ "b 3") = .err .shape ∧ exampleTable ("a 1 2\n" ++ "b x y") = .err .format := by
  refine ⟨?_, ?_⟩ <;> decide +kernel

/-- Hypotheses of `c122_text_dims` and `c122_floret`. -/
example := c122_text_dims (T := Str) false (ascii "1 2\na 1 2\n") (ascii "b 3 4\n") (by decide +kernel)
  (by decide +kernel) (exampleOne 'a' [1, 2]) (by decide +kernel)
example := c122_floret (T := Str) (F := F32) (ascii "2 1 3 3 1 7 < >\n0 5\n1 6\n") (ascii "2 7\n") (by decide +kernel)
  (by decide +kernel) ⟨none, ⟨⟨1, [[5], [6]]⟩⟩, ⟨['<'], ['>'], ⟨2, 7, 1⟩, indexMap [], [], 3, 3⟩, none⟩ (by decide +kernel)

end FF
