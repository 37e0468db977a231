import Mathlib.Data.List.Perm.Basic
import Verif.Props.Ranking
import Verif.Props.Concat

/-!
# C124: searching the parts of embeddings
-/

namespace FF

open Res Embeddings

/-! ## The best of the best -/

section
variable {F : Type} [ScalarOrd F] [LawfulScalarOrd F]

/-- A candidate of a part that is among the best of all candidates is among the best of the part. -/
theorem TopResults.part {limit : Nat} {c1 c2 r r1 : List (WordSim F)} (h : TopResults limit (c1 ++ c2) r)
    (h1 : TopResults limit c1 r1) {a : WordSim F} (ha : a ∈ r)
    (hc : a ∈ c1) : a ∈ r1 := by
  refine Classical.byContradiction fun hn => ?_
  have hb := h1.rest a hc hn
  -- all results of the part rank before `a`, so that they are results, too
  have hsub : ∀ b ∈ a :: r1, b ∈ r := by
    intro b hb'
    rcases List.mem_cons.mp hb' with rfl | hb'
    · exact ha
    · exact Classical.byContradiction fun hr =>
        (hb b hb').asymm (h.rest b (List.mem_append_left _ (h1.mem b hb')) hr a ha)
  have h3 := List.Nodup.length_le_of_subset (List.nodup_cons.mpr ⟨hn, h1.nodup'⟩) hsub
  have h4 := h.length
  have h5 := h1.length
  rw [List.length_cons] at h3
  -- the part has more candidates than results
  have h6 : r1.length < c1.length :=
    List.Nodup.length_le_of_subset (l₂ := c1) (List.nodup_cons.mpr ⟨hn, h1.nodup'⟩) fun b hb' => by
      rcases List.mem_cons.mp hb' with rfl | hb'
      · exact hc
      · exact h1.mem b hb'
  omega

/-- The best of all candidates are the best of the best ones of the parts. -/
theorem TopResults.merge {limit : Nat} {c1 c2 r r1 r2 : List (WordSim F)} (h : TopResults limit (c1 ++ c2) r)
    (h1 : TopResults limit c1 r1) (h2 : TopResults limit c2 r2) : TopResults limit (r1 ++ r2) r := by
  refine ⟨?_, h.sorted, fun a ha => ?_, h.nodup, fun c hc => h.rest c ?_⟩
  · have := h.length; have := h1.length; have := h2.length
    simp only [List.length_append] at *
    omega
  · rcases List.mem_append.mp (h.mem a ha) with hc | hc
    · exact List.mem_append_left _ (h.part h1 ha hc)
    · exact List.mem_append_right _ ((h.perm List.perm_append_comm).part h2 ha hc)
  · rcases List.mem_append.mp hc with hc | hc
    · exact List.mem_append_left _ (h1.mem c hc)
    · exact List.mem_append_right _ (h2.mem c hc)

end

/-! ## Queries -/

section
open Storage
variable {T T1 T2 V V1 V2 S S1 S2 F : Type} [Vocab V] [Vocab V1] [Vocab V2] [Storage S F] [Storage S1 F] [Storage S2 F]
  [StorageView S F] [StorageView S1 F] [StorageView S2 F] [Scalar F] [ScalarOrd F] [LawfulScalarOrd F]

/-- Specification: the words of `e`, with their rows, are those of `e1` and those of `e2`, in any order. No word is in both,
since the words of `e` are distinct. -/
structure PartsOf (e : Embeddings T V S F) (e1 : Embeddings T1 V1 S1 F) (e2 : Embeddings T2 V2 S2 F) : Prop where
  words : WordsOk e.vocab
  words1 : WordsOk e1.vocab
  words2 : WordsOk e2.vocab
  rows : ∃ m m1 m2 : Mat F, StorageView.view e.storage = .ok m ∧ StorageView.view e1.storage = .ok m1 ∧
    StorageView.view e2.storage = .ok m2 ∧ m1.cols = m.cols ∧ m2.cols = m.cols ∧
    (Vocab.words e.vocab).length ≤ m.nrows ∧ (Vocab.words e1.vocab).length ≤ m1.nrows ∧
    (Vocab.words e2.vocab).length ≤ m2.nrows ∧
    ((Vocab.words e.vocab).zip m.rows).Perm ((Vocab.words e1.vocab).zip m1.rows ++ (Vocab.words e2.vocab).zip m2.rows)

omit [Storage S F] [Storage S1 F] [Storage S2 F] [ScalarOrd F] [LawfulScalarOrd F] in
theorem PartsOf.candidates {words words1 words2 : List Str} {rows rows1 rows2 : List (List F)}
    (hp : (words.zip rows).Perm (words1.zip rows1 ++ words2.zip rows2)) (q : List F) (skip : List Str) :
    (candidates words rows q skip).Perm (candidates words1 rows1 q skip ++ candidates words2 rows2 q skip) := by
  unfold FF.candidates
  rw [← List.map_append, ← List.filter_append]
  exact (hp.filter _).map _

omit [Storage S F] [Storage S1 F] [Storage S2 F] in
theorem similarity_outcome {e : Embeddings T V S F} {e1 : Embeddings T1 V1 S1 F} {e2 : Embeddings T2 V2 S2 F}
    (h : PartsOf e e1 e2) (q : List F) (skip : List Str) (limit : Nat) (bs bs1 bs2 : Option Nat)
    (hb : bs.getD (Vocab.words e.vocab).length ≠ 0) (hb1 : bs1.getD (Vocab.words e1.vocab).length ≠ 0)
    (hb2 : bs2.getD (Vocab.words e2.vocab).length ≠ 0) :
    (∃ r, e.similarity q skip limit bs = .ok r) ↔
      (∃ r, e1.similarity q skip limit bs1 = .ok r) ∧ ∃ r, e2.similarity q skip limit bs2 = .ok r := by
  obtain ⟨m, m1, m2, v, v1, v2, k1, k2, l, l1, l2, hp⟩ := h.rows
  have hc := PartsOf.candidates hp q skip
  have hlen : (Vocab.words e.vocab).length = (Vocab.words e1.vocab).length + (Vocab.words e2.vocab).length := by
    have := hp.length_eq
    rw [List.length_append, List.length_zip, List.length_zip, List.length_zip] at this
    unfold Mat.nrows at l l1 l2
    omega
  have hnil : Vocab.words e.vocab = [] ↔ Vocab.words e1.vocab = [] ∧ Vocab.words e2.vocab = [] := by
    rw [← List.length_eq_zero_iff, hlen, ← List.length_eq_zero_iff, ← List.length_eq_zero_iff]
    omega
  have hcn : FF.candidates (Vocab.words e.vocab) m.rows q skip = [] ↔
      FF.candidates (Vocab.words e1.vocab) m1.rows q skip = [] ∧ FF.candidates (Vocab.words e2.vocab) m2.rows q skip = [] := by
    rw [← List.append_eq_nil_iff]
    exact ⟨fun h => by rw [h] at hc; exact List.nil_perm.mp hc, fun h => by rw [h] at hc; exact List.perm_nil.mp hc⟩
  rw [(similarity_ok_iff e q skip limit bs m v h.words.len).1, (similarity_ok_iff e1 q skip limit bs1 m1 v1 h.words1.len).1,
    (similarity_ok_iff e2 q skip limit bs2 m2 v2 h.words2.len).1, hnil, hcn, k1, k2]
  simp only [hc.mem_iff, List.mem_append, l, l1, l2]
  constructor
  · rintro ⟨a, -, -, b, c, d⟩
    exact ⟨⟨a, trivial, hb1, b.imp id And.left, fun x hx => c x (.inl hx), fun z => (d z).1⟩,
      a, trivial, hb2, b.imp id And.right, fun x hx => c x (.inr hx), fun z => (d z).2⟩
  · rintro ⟨⟨a, -, -, b, c, d⟩, -, -, -, b', c', d'⟩
    refine ⟨a, trivial, hb, ?_, fun x hx => hx.elim (c x) (c' x), fun z => ⟨d z, d' z⟩⟩
    rcases b with b | b
    · exact .inl b
    · exact b'.imp id fun b' => ⟨b, b'⟩

omit [Storage S F] [LawfulScalarOrd F] in
theorem masked_eq_ok {e : Embeddings T V S F} {q : List F} {limit : Nat} {skip : List Str} {bs : Option Nat}
    {r : Option (List (WordSim F))} :
    e.embeddingSimilarityMasked q limit skip bs = .ok r ↔
      ∃ l, r = some l ∧ e.similarity (l2Normalize q).1 skip limit bs = .ok l := by
  unfold embeddingSimilarityMasked
  rw [Res.bind_eq_ok]
  constructor
  · rintro ⟨l, h1, h2⟩
    exact ⟨l, (Res.ok.inj h2).symm, h1⟩
  · rintro ⟨l, rfl, h⟩
    exact ⟨l, h, rfl⟩

omit [Storage S F] [Storage S1 F] [Storage S2 F] in
/-- **C124** (outcome). A query of the whole succeeds exactly if the queries of both parts do, whatever the batch sizes are
(zero is never accepted, also as the number of words of embeddings without words). Otherwise it panics. -/
theorem c124_outcome (e : Embeddings T V S F) (e1 : Embeddings T1 V1 S1 F) (e2 : Embeddings T2 V2 S2 F)
    (h : PartsOf e e1 e2) (q : List F) (skip : List Str) (limit : Nat) (bs bs1 bs2 : Option Nat)
    (hb : bs.getD (Vocab.words e.vocab).length ≠ 0) (hb1 : bs1.getD (Vocab.words e1.vocab).length ≠ 0)
    (hb2 : bs2.getD (Vocab.words e2.vocab).length ≠ 0) :
    ((∃ r, e.embeddingSimilarityMasked q limit skip bs = .ok r) ↔
      (∃ r, e1.embeddingSimilarityMasked q limit skip bs1 = .ok r) ∧
      ∃ r, e2.embeddingSimilarityMasked q limit skip bs2 = .ok r) ∧
    ((¬ ∃ r, e.embeddingSimilarityMasked q limit skip bs = .ok r) → e.embeddingSimilarityMasked q limit skip bs = .panic) := by
  constructor
  · have key := similarity_outcome h (l2Normalize q).1 skip limit bs bs1 bs2 hb hb1 hb2
    simp only [masked_eq_ok]
    constructor
    · rintro ⟨_, l, rfl, h0⟩
      obtain ⟨⟨r1, g1⟩, r2, g2⟩ := key.mp ⟨l, h0⟩
      exact ⟨⟨_, r1, rfl, g1⟩, _, r2, rfl, g2⟩
    · rintro ⟨⟨_, r1, rfl, g1⟩, _, r2, rfl, g2⟩
      obtain ⟨r, g⟩ := key.mpr ⟨⟨r1, g1⟩, r2, g2⟩
      exact ⟨_, r, rfl, g⟩
  · intro hn
    obtain ⟨m, -, -, v, -⟩ := h.rows
    unfold embeddingSimilarityMasked
    rw [(similarity_ok_iff e (l2Normalize q).1 skip limit bs m v h.words.len).2 fun ⟨l, hl⟩ =>
      hn ⟨_, masked_eq_ok.mpr ⟨l, rfl, hl⟩⟩]
    rfl

omit [Storage S F] [Storage S1 F] [Storage S2 F] in
/-- **C124** (results). The results of the whole are the best `limit` of the results of the parts, in the same ranking. Those
that are words of a part are results of the part, with the same similarity. -/
theorem c124_results (e : Embeddings T V S F) (e1 : Embeddings T1 V1 S1 F) (e2 : Embeddings T2 V2 S2 F)
    (h : PartsOf e e1 e2) (q : List F) (skip : List Str) (limit : Nat) (h1 : 1 ≤ limit) (bs bs1 bs2 : Option Nat)
    (r r1 r2 : List (WordSim F)) (hr : e.embeddingSimilarityMasked q limit skip bs = .ok (some r))
    (hr1 : e1.embeddingSimilarityMasked q limit skip bs1 = .ok (some r1))
    (hr2 : e2.embeddingSimilarityMasked q limit skip bs2 = .ok (some r2)) :
    TopResults limit (r1 ++ r2) r ∧ (∀ a ∈ r, a.word ∈ Vocab.words e1.vocab → a ∈ r1) ∧
      ∀ a ∈ r, a.word ∈ Vocab.words e2.vocab → a ∈ r2 := by
  obtain ⟨_, x, g⟩ := masked_eq_ok.mp hr; cases x
  obtain ⟨_, x, g1⟩ := masked_eq_ok.mp hr1; cases x
  obtain ⟨_, x, g2⟩ := masked_eq_ok.mp hr2; cases x
  obtain ⟨m, m1, m2, v, v1, v2, -, -, l, l1, l2, hp⟩ := h.rows
  obtain ⟨_, v', -, -, -, -, -, t⟩ := similarity_ok_top h.words h1 g
  obtain ⟨_, v1', -, -, -, -, -, t1⟩ := similarity_ok_top h.words1 h1 g1
  obtain ⟨_, v2', -, -, -, -, -, t2⟩ := similarity_ok_top h.words2 h1 g2
  rw [v] at v'; cases v'
  rw [v1] at v1'; cases v1'
  rw [v2] at v2'; cases v2'
  have t' := t.perm (PartsOf.candidates hp _ _)
  have hmem : ∀ {ws : List Str} {rs : List (List F)} {a : WordSim F}, a ∈ FF.candidates ws rs (l2Normalize q).1 skip →
      a.word ∈ ws := by
    intro ws rs a ha
    obtain ⟨p, hp, rfl⟩ := List.mem_map.mp ha
    exact (List.of_mem_zip (List.mem_filter.mp hp).1).1
  have hdis : ∀ w ∈ Vocab.words e1.vocab, w ∉ Vocab.words e2.vocab := by
    have hn := h.words.nodup
    have := hp.map Prod.fst
    rw [List.map_append, List.map_fst_zip l, List.map_fst_zip l1, List.map_fst_zip l2] at this
    exact fun w hw hw' => (List.nodup_append.mp (this.nodup_iff.mp hn)).2.2 w hw w hw' rfl
  refine ⟨t'.merge t1 t2, fun a ha hw => ?_, fun a ha hw => ?_⟩
  · rcases List.mem_append.mp (t'.mem a ha) with hc | hc
    · exact t'.part t1 ha hc
    · exact absurd (hmem hc) (hdis _ hw)
  · rcases List.mem_append.mp (t'.mem a ha) with hc | hc
    · exact absurd hw (hdis _ (hmem hc))
    · exact (t'.perm List.perm_append_comm).part t2 ha hc

omit [LawfulScalarOrd F] in
/-- **C124** (words). The query for a word, known or not, is the query for its vector without the word, if the vector does
not change when it is normalised once more. -/
theorem c124_word (e : Embeddings T V S F) (w : Str) (q : List F) (he : e.embedding w = .ok (some q))
    (hq : (l2Normalize q).1 = q) (limit : Nat) (bs : Option Nat) :
    e.wordSimilarity w limit bs = e.embeddingSimilarityMasked q limit [w] bs := by
  unfold wordSimilarity embeddingSimilarityMasked
  simp only [he, hq, Res.ok_bind]

end

/-! ## Text files -/

section
variable {T F : Type} [Scalar F] [ScalarOrd F] [LawfulScalarOrd F] [FloatText F]

omit [Scalar F] [ScalarOrd F] [LawfulScalarOrd F] [FloatText F] in
theorem parts_concat {e e1 e2 : Embeddings T SimpleVocab (NdArray F) F} (l1 : e1.vocab.words.Nodup)
    (l2 : e2.vocab.words.Nodup) (n1 : e1.vocab.words.length = e1.storage.inner.rows.length)
    (n2 : e2.vocab.words.length = e2.storage.inner.rows.length) (hd : e1.dims = e2.dims)
    (i1 : e1.vocab = ⟨indexMap e1.vocab.words, e1.vocab.words⟩) (i2 : e2.vocab = ⟨indexMap e2.vocab.words, e2.vocab.words⟩)
    (hv : SimpleVocab.new (e1.vocab.words ++ e2.vocab.words) = .ok e.vocab)
    (hs : e.storage.inner = ⟨e1.dims, e1.storage.inner.rows ++ e2.storage.inner.rows⟩) : PartsOf e e1 e2 := by
  obtain ⟨hn, hv⟩ := SimpleVocab.new_eq_ok.mp hv
  have hw : Vocab.words e.vocab = e1.vocab.words ++ e2.vocab.words := by rw [hv]; rfl
  have hok : ∀ {v : SimpleVocab}, v.words.Nodup → v = ⟨indexMap v.words, v.words⟩ → WordsOk v := fun {v} h1 h2 =>
    ⟨by rw [h2]; exact (indexMap_len_iff _).mpr h1, h1⟩
  refine ⟨hok (by rw [hv]; exact hn) (by rw [hv]), hok l1 i1, hok l2 i2, e.storage.inner, e1.storage.inner, e2.storage.inner,
    rfl, rfl, rfl, ?_, ?_, ?_, Nat.le_of_eq n1, Nat.le_of_eq n2, ?_⟩
  · rw [hs]; rfl
  · rw [hs]; exact hd.symm
  · rw [hw, hs]
    show (e1.vocab.words ++ e2.vocab.words).length ≤ (e1.storage.inner.rows ++ e2.storage.inner.rows).length
    rw [List.length_append, List.length_append, n1, n2]
    exact Nat.le_refl _
  · rw [hw, hs]
    show ((e1.vocab.words ++ e2.vocab.words).zip (e1.storage.inner.rows ++ e2.storage.inner.rows)).Perm _
    rw [List.zip_append n1]
    exact List.Perm.refl _

omit [ScalarOrd F] [LawfulScalarOrd F] in
/-- **C124** (text files). Two text files one after the other, without a common word: what is read from each of them are the
parts of what is read from both, so that `c124_outcome` and `c124_results` hold. With and without normalisation. -/
theorem c124_text (lossy : Bool) (a b : Bytes) (hc : Complete a) (e1 e2 : Embeddings T SimpleVocab (NdArray F) F)
    (hd : e1.dims = e2.dims) (hw : ∀ w ∈ e1.vocab.words, w ∉ e2.vocab.words) :
    (readTextRaw lossy a 0 = .ok e1 → readTextRaw lossy b 0 = .ok e2 →
      ∃ e : Embeddings T SimpleVocab (NdArray F) F, readTextRaw lossy (a ++ b) 0 = .ok e ∧ PartsOf e e1 e2) ∧
    (readText lossy a 0 = .ok e1 → readText lossy b 0 = .ok e2 →
      ∃ e : Embeddings T SimpleVocab (NdArray F) F, readText lossy (a ++ b) 0 = .ok e ∧ PartsOf e e1 e2) := by
  constructor
  · intro h1 h2
    obtain ⟨e, he, hv, hs, -, -⟩ := c122_text lossy a b hc e1 e2 h1 h2 hd hw
    obtain ⟨d1, i1, n1, -⟩ := readTextRaw_sizes h1
    obtain ⟨d2, i2, n2, -⟩ := readTextRaw_sizes h2
    exact ⟨e, he, parts_concat d1 d2 n1 n2 hd i1 i2 hv hs⟩
  · intro h1 h2
    obtain ⟨e, -, -, he, hv, hs, -⟩ := c122_text_normalized lossy a b hc e1 e2 h1 h2 hd hw
    obtain ⟨r1, g1, rfl⟩ := (readText_iff lossy a e1).mp h1
    obtain ⟨r2, g2, rfl⟩ := (readText_iff lossy b e2).mp h2
    obtain ⟨d1, i1, n1, -⟩ := readTextRaw_sizes g1
    obtain ⟨d2, i2, n2, -⟩ := readTextRaw_sizes g2
    exact ⟨e, he, parts_concat d1 d2 (by rw [n1]; exact (List.length_map _).symm) (by rw [n2]; exact (List.length_map _).symm)
      hd i1 i2 hv hs⟩

end

/-! ## Examples -/

/-- A part of `exampleQuery`. -/
def exampleFirst : Embeddings Str SimpleVocab (NdArray F32) F32 :=
  ⟨none, ⟨⟨2, [[2, 5], [1, 0]]⟩⟩, ⟨indexMap [['b'], ['a']], [['b'], ['a']]⟩, none⟩
/-- The other part. -/
def exampleSecond : Embeddings Str SimpleVocab (NdArray F32) F32 :=
  ⟨none, ⟨⟨2, [[2, 1]]⟩⟩, ⟨indexMap [['c']], [['c']]⟩, none⟩

theorem exampleParts : PartsOf exampleQuery exampleFirst exampleSecond :=
  ⟨⟨by decide, by decide⟩, ⟨by decide, by decide⟩, ⟨by decide, by decide⟩, _, _, _, rfl, rfl, rfl, rfl, rfl, by decide,
    by decide, by decide, by decide⟩

attribute [local instance] exampleScalar in
/-- Hypotheses of `c124_outcome` and `c124_results`: the best two of three words. -/
example : exampleQuery.embeddingSimilarityMasked [1, 0] 2 [] none = .ok (some [⟨2, ['b']⟩, ⟨2, ['c']⟩]) ∧
    exampleFirst.embeddingSimilarityMasked [1, 0] 2 [] none = .ok (some [⟨2, ['b']⟩, ⟨1, ['a']⟩]) ∧
    exampleSecond.embeddingSimilarityMasked [1, 0] 2 [] (some 7) = .ok (some [⟨2, ['c']⟩]) := by
  refine ⟨?_, ?_, ?_⟩ <;> decide +kernel

attribute [local instance] exampleScalar in
example := c124_outcome _ _ _ exampleParts [1, 0] [['d']] 2 none (some 7) none (by decide) (by decide) (by decide)

attribute [local instance] exampleScalar in
/-- Hypotheses of `c124_word`. -/
example : exampleQuery.embedding ['a'] = .ok (some [1, 0]) ∧ (l2Normalize [(1 : F32), 0]).1 = [1, 0] ∧
    exampleQuery.wordSimilarity ['a'] 2 none = .ok (some [⟨2, ['b']⟩, ⟨2, ['c']⟩]) := by
  refine ⟨?_, ?_, ?_⟩ <;> decide +kernel

section
attribute [local instance] exampleScalar exampleFloatText

/-- Hypotheses of `c124_text`. -/
example := (c124_text (T := Str) false (ascii "a 1 2\n") (ascii "b 3 4") (by decide +kernel) (exampleOne 'a' [1, 2])
  (exampleOne 'b' [3, 4]) (by decide +kernel) (by decide +kernel)).1 (by decide +kernel) (by decide +kernel)

end

end FF
