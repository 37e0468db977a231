import Verif.Props.ExplicitFile
import Verif.Props.Vectors
import Verif.Props.Ranking

/-!
# C116: the vectors of words do not depend on the other words
-/

namespace FF

open Res Storage

section
variable {T T' S S' F : Type} [Storage S F] [Storage S' F] [Scalar F]

/-- Specification: two embeddings, with the words `ws` and `ws'`, store the same for the words that they have in common
(the rows at the positions of the words, and the norms if there are any), and the same in the rows behind the words. -/
structure SameVectors {V V' : Type} (e : Embeddings T V S F) (e' : Embeddings T' V' S' F) (ws ws' : List Str) : Prop where
  cols : (shape e.storage).2 = (shape e'.storage).2
  word : ∀ (i j : Nat) (w : Str), ws[i]? = some w → ws'[j]? = some w → embedding e.storage i = embedding e'.storage j
  norm : ∀ (i j : Nat) (w : Str), ws[i]? = some w → ws'[j]? = some w →
    (e.norms.map fun n => n.inner[i]?) = e'.norms.map fun n => n.inner[j]?
  behind : ∀ k : Nat, embedding e.storage (ws.length + k) = embedding e'.storage (ws'.length + k)

omit [Scalar F] in
/-- Rows of two storages that agree one by one agree as batches. -/
theorem embeddings_congr {s : S} {s' : S'} (hb : BatchIsRows s) (hb' : BatchIsRows s') (hc : (shape s).2 = (shape s').2)
    {is is' : List Nat} (h : is.map (embedding s) = is'.map (embedding s')) : embeddings s is = embeddings s' is' := by
  have key : ∀ m, embeddings s is = .ok m ↔ embeddings s' is' = .ok m := fun m => by
    rw [(hb is).1 m, (hb' is').1 m, h, hc]
  cases h1 : embeddings s is with
  | ok m => exact ((key m).mp h1).symm
  | err x => exact absurd h1 ((hb is).2 x)
  | panic =>
    cases h2 : embeddings s' is' with
    | ok m => rw [(key m).mpr h2] at h1; cases h1
    | err x => exact absurd h2 ((hb' is').2 x)
    | panic => rfl

/-- Specification: the lookups of one word have the same outcomes. -/
def EqualAnswers {V V' : Type} [Vocab V] [Vocab V'] (e : Embeddings T V S F) (e' : Embeddings T' V' S' F) (w : Str) : Prop :=
  e.embedding w = e'.embedding w ∧ e.embeddingWithNorm w = e'.embeddingWithNorm w ∧
    ∀ t, e.embeddingInto w t = e'.embeddingInto w t

theorem equalAnswers_word {V V' : Type} [Vocab V] [Vocab V'] {e : Embeddings T V S F} {e' : Embeddings T' V' S' F}
    {ws ws' : List Str} (h : SameVectors e e' ws ws') {w : Str} {i j : Nat} (hi : ws[i]? = some w) (hj : ws'[j]? = some w)
    (h1 : Vocab.idx e.vocab w = .ok (some (.word i))) (h2 : Vocab.idx e'.vocab w = .ok (some (.word j))) :
    EqualAnswers e e' w := by
  have hn : e.normAt i = e'.normAt j := by
    have := h.norm i j w hi hj
    unfold Embeddings.normAt
    cases hx : e.norms <;> cases hy : e'.norms <;> rw [hx, hy] at this <;> simp_all
  refine ⟨?_, ?_, fun t => ?_⟩
  · unfold Embeddings.embedding
    rw [h1, h2]
    simp only [Res.ok_bind]
    rw [h.word i j w hi hj]
  · unfold Embeddings.embeddingWithNorm
    rw [h1, h2]
    simp only [Res.ok_bind]
    rw [h.word i j w hi hj, hn]
  · unfold Embeddings.embeddingInto Embeddings.dims
    rw [h1, h2, h.cols]
    simp only [Res.ok_bind]
    rw [h.word i j w hi hj]

theorem equalAnswers_none {V V' : Type} [Vocab V] [Vocab V'] {e : Embeddings T V S F} {e' : Embeddings T' V' S' F}
    (hc : (shape e.storage).2 = (shape e'.storage).2) {w : Str}
    (h1 : Vocab.idx e.vocab w = .ok none) (h2 : Vocab.idx e'.vocab w = .ok none) : EqualAnswers e e' w := by
  refine ⟨?_, ?_, fun t => ?_⟩
  · unfold Embeddings.embedding
    rw [h1, h2]; rfl
  · unfold Embeddings.embeddingWithNorm
    rw [h1, h2]; rfl
  · unfold Embeddings.embeddingInto Embeddings.dims
    rw [h1, h2, hc]; rfl

theorem equalAnswers_subword {V V' : Type} [Vocab V] [Vocab V'] {e : Embeddings T V S F} {e' : Embeddings T' V' S' F}
    {ws ws' : List Str} (h : SameVectors e e' ws ws') (hb : BatchIsRows e.storage) (hb' : BatchIsRows e'.storage)
    {w : Str} {is : List Nat} (h1 : Vocab.idx e.vocab w = .ok (some (.subword (is.map (· + ws.length)))))
    (h2 : Vocab.idx e'.vocab w = .ok (some (.subword (is.map (· + ws'.length))))) : EqualAnswers e e' w := by
  have hm : embeddings e.storage (is.map (· + ws.length)) = embeddings e'.storage (is.map (· + ws'.length)) := by
    apply embeddings_congr hb hb' h.cols
    rw [List.map_map, List.map_map]
    apply List.map_congr_left
    intro k _
    have := h.behind k
    rw [Nat.add_comm, Nat.add_comm _ k] at this
    exact this
  refine ⟨?_, ?_, fun t => ?_⟩
  · unfold Embeddings.embedding
    rw [h1, h2]
    simp only [Res.ok_bind]
    rw [hm]
  · unfold Embeddings.embeddingWithNorm
    rw [h1, h2]
    simp only [Res.ok_bind]
    rw [hm]
  · unfold Embeddings.embeddingInto Embeddings.dims
    rw [h1, h2, h.cols]
    simp only [Res.ok_bind]
    rw [hm]

/-- **C116** (vocabularies without subwords). A word that is in both word lists or in none has the same answers. -/
theorem c116_simple (e : Embeddings T SimpleVocab S F) (e' : Embeddings T' SimpleVocab S' F) (ws ws' : List Str)
    (hv : SimpleVocab.new ws = .ok e.vocab) (hv' : SimpleVocab.new ws' = .ok e'.vocab) (h : SameVectors e e' ws ws')
    (w : Str) (hw : w ∈ ws ↔ w ∈ ws') : EqualAnswers e e' w := by
  by_cases hm : w ∈ ws
  · obtain ⟨i, hi⟩ := List.mem_iff_getElem?.mp hm
    obtain ⟨j, hj⟩ := List.mem_iff_getElem?.mp (hw.mp hm)
    exact equalAnswers_word h hi hj (((c22_simple ws _ hv).2.2 i w).mpr hi) (((c22_simple ws' _ hv').2.2 j w).mpr hj)
  · exact equalAnswers_none h.cols (c25_simple ws _ hv w hm) (c25_simple ws' _ hv' w (fun x => hm (hw.mpr x)))

/-- **C116** (vocabularies with subwords). A word that is in both word lists or in none has the same answers, if the n-gram
settings are the same. -/
theorem c116_subword {I : Type} [Indexer I] (e : Embeddings T (SubwordVocab I) S F) (e' : Embeddings T' (SubwordVocab I) S' F)
    (ws ws' : List Str) (m M : Nat) (ix : I) (bow eow : Str)
    (hv : SubwordVocab.newWithBoundaries ws m M ix bow eow = .ok e.vocab)
    (hv' : SubwordVocab.newWithBoundaries ws' m M ix bow eow = .ok e'.vocab)
    (hb : BatchIsRows e.storage) (hb' : BatchIsRows e'.storage) (h : SameVectors e e' ws ws')
    (w : Str) (hw : w ∈ ws ↔ w ∈ ws') : EqualAnswers e e' w := by
  by_cases hm : w ∈ ws
  · obtain ⟨i, hi⟩ := List.mem_iff_getElem?.mp hm
    obtain ⟨j, hj⟩ := List.mem_iff_getElem?.mp (hw.mp hm)
    exact equalAnswers_word h hi hj (((c22_subword ws m M ix bow eow _ hv).2.2 i w).mpr hi)
      (((c22_subword ws' m M ix bow eow _ hv').2.2 j w).mpr hj)
  · have hm' : w ∉ ws' := fun x => hm (hw.mpr x)
    obtain ⟨n1, _, e1⟩ := SubwordVocab.newWithBoundaries_eq_ok.mp hv
    obtain ⟨n2, _, e2⟩ := SubwordVocab.newWithBoundaries_eq_ok.mp hv'
    have key : ∀ (us : List Str) (v : SubwordVocab I), us.Nodup → w ∉ us →
        v = ⟨bow, eow, ix, indexMap us, us, m, M⟩ →
        Vocab.idx v w = (FF.subwordIndices ix (bow ++ w ++ eow) m M).map fun l =>
          if l.isEmpty then none else some (.subword (l.map (· + us.length))) := by
      intro us v hnd hx hv
      subst hv
      show SubwordVocab.idx _ w = _
      unfold SubwordVocab.idx
      simp only [(indexMap_get_none w).mpr hx]
      unfold SubwordVocab.subwordIndices SubwordVocab.bracket
      simp only [(indexMap_len_iff us).mpr hnd]
      cases FF.subwordIndices ix (bow ++ w ++ eow) m M with
      | ok l => cases l <;> rfl
      | err x => rfl
      | panic => rfl
    have k1 := key ws e.vocab n1 hm e1
    have k2 := key ws' e'.vocab n2 hm' e2
    cases hi : FF.subwordIndices ix (bow ++ w ++ eow) m M with
    | ok l =>
      rw [hi] at k1 k2
      cases l with
      | nil => exact equalAnswers_none h.cols k1 k2
      | cons a l => exact equalAnswers_subword h hb hb' (is := a :: l) k1 k2
    | err x =>
      rw [hi] at k1 k2
      refine ⟨?_, ?_, fun t => ?_⟩
      · unfold Embeddings.embedding; rw [k1, k2]; rfl
      · unfold Embeddings.embeddingWithNorm; rw [k1, k2]; rfl
      · unfold Embeddings.embeddingInto Embeddings.dims; rw [k1, k2, h.cols]; rfl
    | panic =>
      rw [hi] at k1 k2
      refine ⟨?_, ?_, fun t => ?_⟩
      · unfold Embeddings.embedding; rw [k1, k2]; rfl
      · unfold Embeddings.embeddingWithNorm; rw [k1, k2]; rfl
      · unfold Embeddings.embeddingInto Embeddings.dims; rw [k1, k2, h.cols]; rfl

end

/-! ## After conversion to explicit n-grams -/

section
variable {T I S S' R R' F : Type} [BucketIndexer I] [Storage S F] [Storage S' F] [Storage R F] [Storage R' F]
  [CloneFromMapping S R] [CloneFromMapping S' R'] [Scalar F]

/-- **C116** (conversion). Embeddings with the same words in any order and the same vectors give the same answers for every
word, known or not, after both were converted to explicit n-grams. -/
theorem c116_explicit (e : Embeddings T (SubwordVocab I) S F) (e' : Embeddings T (SubwordVocab I) S' F)
    (ws ws' : List Str) (m M : Nat) (ix : I) (bow eow : Str)
    (hv : SubwordVocab.newWithBoundaries ws m M ix bow eow = .ok e.vocab)
    (hv' : SubwordVocab.newWithBoundaries ws' m M ix bow eow = .ok e'.vocab) (h : Str → Nat) (hm : 1 ≤ m) (hM : m ≤ M)
    (hs : SingleIndex ix m M h) (hrows : Vocab.vocabLen e.vocab = .ok (shape e.storage).1)
    (hrows' : Vocab.vocabLen e'.vocab = .ok (shape e'.storage).1)
    (hmr : MapsRows (T := R) e.storage) (hmt : MapsTotal (S' := R) e.storage)
    (hmr' : MapsRows (T := R') e'.storage) (hmt' : MapsTotal (S' := R') e'.storage)
    (hb : BatchIsRows e.storage) (hb' : BatchIsRows e'.storage) (hbr : ∀ s : R, BatchIsRows s)
    (hbr' : ∀ s : R', BatchIsRows s)
    (order order' : List (Str × Nat) → List (Str × Nat)) (hord : ∀ l, (order l).Perm l) (hord' : ∀ l, (order' l).Perm l)
    (order2 order2' : List (Nat × Nat) → List (Nat × Nat)) (hord2 : ∀ l, (order2 l).Perm l)
    (hord2' : ∀ l, (order2' l).Perm l) (hsame : SameVectors e e' ws ws') (hw : ∀ w, w ∈ ws ↔ w ∈ ws') :
    ∃ (c : Embeddings T ExplicitSubwordVocab R F) (c' : Embeddings T ExplicitSubwordVocab R' F),
      e.toExplicit order order2 = .ok c ∧ e'.toExplicit order' order2' = .ok c' ∧
      ∀ w, c.embedding w = c'.embedding w ∧ c.embeddingWithNorm w = c'.embeddingWithNorm w := by
  obtain ⟨c, a1, -, -, -, ak⟩ := c32_known (S' := R) e ws m M ix bow eow hv h hs hrows hmr hmt order hord order2 hord2
  obtain ⟨c', b1, -, -, -, bk⟩ :=
    c32_known (S' := R') e' ws' m M ix bow eow hv' h hs hrows' hmr' hmt' order' hord' order2' hord2'
  obtain ⟨c1, a2, au⟩ :=
    c72_unknown (S' := R) e ws m M ix bow eow hv h hm hM hs hrows hmr hmt hb hbr order hord order2 hord2
  obtain ⟨c2, b2, bu⟩ :=
    c72_unknown (S' := R') e' ws' m M ix bow eow hv' h hm hM hs hrows' hmr' hmt' hb' hbr' order' hord' order2' hord2'
  rw [a1] at a2; cases a2
  rw [b1] at b2; cases b2
  refine ⟨c, c', a1, b1, fun w => ?_⟩
  by_cases hx : w ∈ ws
  · have hx' := (hw w).mp hx
    obtain ⟨k1, k2, -⟩ := c116_subword e e' ws ws' m M ix bow eow hv hv' hb hb' hsame w (hw w)
    rw [(ak w hx).2.1, (bk w hx').2.1, (ak w hx).2.2, (bk w hx').2.2]
    exact ⟨k1, k2⟩
  · have hx' : w ∉ ws' := fun y => hx ((hw w).mpr y)
    have ha := au w hx _ rfl
    have hb := bu w hx' _ rfl
    have hg : sharedNGrams ws' bow eow m M (bracketedNGrams ['<'] w ['>'] m M) =
        sharedNGrams ws bow eow m M (bracketedNGrams ['<'] w ['>'] m M) := by
      unfold sharedNGrams
      apply List.filter_congr
      intro g _
      simp only [List.mem_flatMap, hw]
    rw [hg] at hb
    generalize sharedNGrams ws bow eow m M (bracketedNGrams ['<'] w ['>'] m M) = gs at ha hb
    by_cases he : gs = []
    · rw [(ha.1 he).1, (ha.1 he).2, (hb.1 he).1, (hb.1 he).2]; exact ⟨rfl, rfl⟩
    · have hrow : embeddings e.storage (gs.map fun g => ws.length + h g) =
          embeddings e'.storage (gs.map fun g => ws'.length + h g) := by
        apply embeddings_congr ‹_› ‹_› hsame.cols
        rw [List.map_map, List.map_map]
        exact List.map_congr_left fun g _ => hsame.behind (h g)
      rw [(ha.2 he).1, (ha.2 he).2, (hb.2 he).1, (hb.2 he).2, hrow]; exact ⟨rfl, rfl⟩

end

/-! ## Queries -/

section
open Embeddings
variable {T T' V V' S S' F : Type} [Vocab V] [Vocab V'] [StorageView S F] [StorageView S' F] [Scalar F] [ScalarOrd F]
  [LawfulScalarOrd F]

/-- **C116** (queries). A query gives the same results in embeddings with more words, in any order, if those are skipped. -/
theorem c116_similarity (e : Embeddings T V S F) (e' : Embeddings T' V' S' F) (hv : WordsOk e.vocab) (hv' : WordsOk e'.vocab)
    (m m' : Mat F) (hm : view e.storage = .ok m) (hm' : view e'.storage = .ok m') (added : List Str)
    (hp : ((Vocab.words e.vocab).zip m.rows).Perm
      (((Vocab.words e'.vocab).zip m'.rows).filter fun p => p.1 ∉ added))
    (hrows : (Vocab.words e'.vocab).length ≤ m'.nrows) (limit : Nat) (h1 : 1 ≤ limit) (bs bs' : Option Nat)
    (hbs : bs'.getD (Vocab.words e'.vocab).length ≠ 0) (r : List (WordSim F)) (q : List F) (hq : q.length = m'.cols)
    (skip : List Str) (h : e.embeddingSimilarityMasked q limit skip bs = .ok (some r)) :
    e'.embeddingSimilarityMasked q limit (skip ++ added) bs' = .ok (some r) := by
  unfold embeddingSimilarityMasked at h ⊢
  obtain ⟨r0, h2, h⟩ := Res.bind_eq_ok.mp h
  cases h
  obtain ⟨m1, hm1, a1, a2, a3, a4, a5, a6⟩ := similarity_ok_top hv h1 h2
  rw [hm] at hm1
  cases hm1
  generalize hqn : (l2Normalize q).1 = qn at *
  have hcp : (candidates (Vocab.words e.vocab) m.rows qn skip).Perm
      (candidates (Vocab.words e'.vocab) m'.rows qn (skip ++ added)) := by
    unfold candidates
    have := (hp.filter (fun p => decide (p.1 ∉ skip))).map (fun p => (⟨Scalar.dot p.2 qn, p.1⟩ : WordSim F))
    rw [List.filter_filter] at this
    refine List.Perm.trans (by exact this) (List.Perm.of_eq ?_)
    congr 1
    apply List.filter_congr
    intro p _
    simp
  have hql : qn.length = m'.cols := by
    rw [← hqn, ← hq]
    unfold l2Normalize
    dsimp only
    split <;> simp
  obtain ⟨r', hr'⟩ := (similarity_ok_iff e' qn (skip ++ added) limit bs' m' hm' hv'.len).1.mpr
    ⟨a1, hrows, hbs, .inl hql, fun c hc' => a5 c (hcp.mem_iff.mpr hc'), by omega⟩
  obtain ⟨m2, hm2, -, -, -, -, -, b6⟩ := similarity_ok_top hv' h1 hr'
  rw [hm'] at hm2
  cases hm2
  rw [hr', b6.unique (a6.perm hcp)]
  rfl

end

/-! ## Examples -/

/-- Embeddings with three words and a bucket vocabulary with two buckets. -/
def exampleThree : Embeddings Str BucketSubwordVocab (NdArray F32) F32 :=
  ⟨none, ⟨⟨2, [[1, 2], [3, 4], [5, 6], [7, 8], [9, 1]]⟩⟩,
    ⟨['<'], ['>'], ⟨1, 1⟩, indexMap [['a'], ['b'], ['c']], [['a'], ['b'], ['c']], 1, 3⟩, some ⟨[1, 2, 3]⟩⟩

/-- Two of the words, in another order, with the same vectors. -/
def exampleTwo : Embeddings Str BucketSubwordVocab (NdArray F32) F32 :=
  ⟨none, ⟨⟨2, [[5, 6], [1, 2], [7, 8], [9, 1]]⟩⟩,
    ⟨['<'], ['>'], ⟨1, 1⟩, indexMap [['c'], ['a']], [['c'], ['a']], 1, 3⟩, some ⟨[3, 1]⟩⟩

theorem example_sameVectors : SameVectors exampleThree exampleTwo [['a'], ['b'], ['c']] [['c'], ['a']] := by
  refine ⟨rfl, ?_, ?_, ?_⟩
  · intro i j w hi hj
    match i, j with
    | 0, 0 => simp at hi hj; subst hi; cases hj
    | 0, 1 => rfl
    | 1, 0 => simp at hi hj; subst hi; cases hj
    | 1, 1 => simp at hi hj; subst hi; cases hj
    | 2, 0 => rfl
    | 2, 1 => simp at hi hj; subst hi; cases hj
    | i + 3, _ => simp at hi
    | _, j + 2 => simp at hj
  · intro i j w hi hj
    match i, j with
    | 0, 0 => simp at hi hj; subst hi; cases hj
    | 0, 1 => rfl
    | 1, 0 => simp at hi hj; subst hi; cases hj
    | 1, 1 => simp at hi hj; subst hi; cases hj
    | 2, 0 => rfl
    | 2, 1 => simp at hi hj; subst hi; cases hj
    | i + 3, _ => simp at hi
    | _, j + 2 => simp at hj
  · intro k
    match k with
    | 0 => rfl
    | 1 => rfl
    | k + 2 =>
      show Mat.row _ (3 + (k + 2)) = Mat.row _ (2 + (k + 2))
      unfold Mat.row
      rw [List.getElem?_eq_none (by simp [exampleThree]; omega), List.getElem?_eq_none (by simp [exampleTwo]; omega)]

attribute [local instance] exampleScalar in
/-- The hypotheses of `c116_subword` hold for a concrete case: of the three words two are left. The word that was left out
has another answer then; the other words, known or not, have the same. -/
example : EqualAnswers exampleThree exampleTwo ['c'] ∧ EqualAnswers exampleThree exampleTwo ['x'] ∧
    exampleThree.embedding ['b'] ≠ exampleTwo.embedding ['b'] ∧ ∃ v, exampleThree.embedding ['x'] = .ok (some v) :=
  ⟨c116_subword exampleThree exampleTwo _ _ 1 3 ⟨1, 1⟩ ['<'] ['>'] rfl rfl (c47_array _) (c47_array _) example_sameVectors _
      (by decide),
    c116_subword exampleThree exampleTwo _ _ 1 3 ⟨1, 1⟩ ['<'] ['>'] rfl rfl (c47_array _) (c47_array _) example_sameVectors _
      (by decide), by decide +kernel, by
    cases h : exampleThree.embedding ['x'] with
    | ok o =>
      cases o with
      | some v => exact ⟨v, rfl⟩
      | none => exact absurd h (by decide +kernel)
    | err x => exact absurd h (by cases x <;> decide +kernel)
    | panic => exact absurd h (by decide +kernel)⟩

attribute [local instance] exampleScalar in
/-- The hypotheses of `c116_simple` hold for a concrete case. -/
example : EqualAnswers exampleQuery exampleReordered ['b'] := by
  refine c116_simple exampleQuery exampleReordered [['a'], ['c'], ['b']] [['b'], ['a'], ['c']] rfl rfl ⟨rfl, ?_, ?_, ?_⟩ _ (by decide)
  · intro i j w hi hj
    match i, j with
    | 0, 0 => simp at hi hj; subst hi; cases hj
    | 0, 1 => rfl
    | 0, 2 => simp at hi hj; subst hi; cases hj
    | 1, 0 => simp at hi hj; subst hi; cases hj
    | 1, 1 => simp at hi hj; subst hi; cases hj
    | 1, 2 => rfl
    | 2, 0 => rfl
    | 2, 1 => simp at hi hj; subst hi; cases hj
    | 2, 2 => simp at hi hj; subst hi; cases hj
    | i + 3, _ => simp at hi
    | _, j + 3 => simp at hj
  · intro i j w _ _; rfl
  · intro k
    show Mat.row _ (3 + k) = Mat.row _ (3 + k)
    unfold Mat.row
    rw [List.getElem?_eq_none (by simp [exampleQuery]), List.getElem?_eq_none (by simp [exampleReordered])]

attribute [local instance] exampleScalar in
/-- The hypotheses of `c116_similarity` hold for a concrete case: `exampleQuery` without the word `b`. -/
example :
    let e : Embeddings Str SimpleVocab (NdArray F32) F32 :=
      ⟨none, ⟨⟨2, [[2, 1], [1, 0]]⟩⟩, ⟨indexMap [['c'], ['a']], [['c'], ['a']]⟩, none⟩
    WordsOk e.vocab ∧ (((Vocab.words e.vocab).zip e.storage.inner.rows).Perm
      (((Vocab.words exampleQuery.vocab).zip exampleQuery.storage.inner.rows).filter fun p => p.1 ∉ [['b']])) ∧
    ∃ r, e.embeddingSimilarityMasked [1, 0] 2 [] none = .ok (some r) ∧ r.length = 2 := by
  refine ⟨⟨by decide, by decide⟩, by decide, _, rfl, by decide +kernel⟩

/-- The words and vectors of `exampleTwo` the other way round. -/
def exampleSwapped : Embeddings Str BucketSubwordVocab (NdArray F32) F32 :=
  ⟨none, ⟨⟨2, [[1, 2], [5, 6], [7, 8], [9, 1]]⟩⟩,
    ⟨['<'], ['>'], ⟨1, 1⟩, indexMap [['a'], ['c']], [['a'], ['c']], 1, 3⟩, some ⟨[1, 3]⟩⟩

attribute [local instance] exampleScalar in
/-- `c116_explicit` applies to a concrete case. -/
example : ∃ (c c' : Embeddings Str ExplicitSubwordVocab (NdArray F32) F32),
    exampleTwo.toExplicit id id = .ok c ∧ exampleSwapped.toExplicit List.reverse id = .ok c' ∧
      ∀ w, c.embedding w = c'.embedding w ∧ c.embeddingWithNorm w = c'.embeddingWithNorm w := by
  refine c116_explicit (R := NdArray F32) (R' := NdArray F32) exampleTwo exampleSwapped [['c'], ['a']] [['a'], ['c']] 1 3 ⟨1, 1⟩ ['<'] ['>'] rfl rfl _ (by decide)
    (by decide) (HashIndexer.singleIndex (e := 1) rfl (by decide) (by decide)) rfl rfl (c47_clone_array _).1 (NdArray.mapsTotal _)
    (c47_clone_array _).1 (NdArray.mapsTotal _) (c47_array _) (c47_array _) (fun s => c47_array s) (fun s => c47_array s)
    id List.reverse (fun _ => List.Perm.refl _) List.reverse_perm id id (fun _ => List.Perm.refl _) (fun _ => List.Perm.refl _)
    ⟨rfl, ?_, ?_, ?_⟩ (fun w => by simp [or_comm])
  · intro i j w hi hj
    match i, j with
    | 0, 0 => simp at hi hj; subst hi; cases hj
    | 0, 1 => rfl
    | 1, 0 => rfl
    | 1, 1 => simp at hi hj; subst hi; cases hj
    | i + 2, _ => simp at hi
    | _, j + 2 => simp at hj
  · intro i j w hi hj
    match i, j with
    | 0, 0 => simp at hi hj; subst hi; cases hj
    | 0, 1 => rfl
    | 1, 0 => rfl
    | 1, 1 => simp at hi hj; subst hi; cases hj
    | i + 2, _ => simp at hi
    | _, j + 2 => simp at hj
  · intro k
    match k with
    | 0 => rfl
    | 1 => rfl
    | k + 2 =>
      show Mat.row _ (2 + (k + 2)) = Mat.row _ (2 + (k + 2))
      unfold Mat.row
      rw [List.getElem?_eq_none (by simp [exampleTwo]; omega), List.getElem?_eq_none (by simp [exampleSwapped]; omega)]

end FF
