import Verif.Lemmas.Indexers
import Verif.Props.Subword

/-!
# Properties of vocabularies (C22, C23, C24, C25, C31)
-/

namespace FF

/-! ## C22: word index and word list are inverse -/

/-- C22 for word-only vocabularies. -/
theorem c22_simple (ws : List Str) (v : SimpleVocab) (hv : SimpleVocab.new ws = .ok v) :
    Vocab.words v = ws ∧ Vocab.wordsLen v = ws.length ∧
    ∀ (i : Nat) (w : Str), Vocab.idx v w = .ok (some (.word i)) ↔ ws[i]? = some w := by
  obtain ⟨hn, rfl⟩ := SimpleVocab.new_eq_ok.mp hv
  refine ⟨rfl, (indexMap_len_iff ws).mpr hn, fun i w => ?_⟩
  rw [← indexMap_get hn]
  simp only [Vocab.idx, Res.ok.injEq]
  cases (indexMap ws).get w <;> simp

/-- C22 for every kind of subword vocabulary. -/
theorem c22_subword {I : Type} [Indexer I] (ws : List Str) (m M : Nat) (ix : I) (bow eow : Str)
    (v : SubwordVocab I) (hv : SubwordVocab.newWithBoundaries ws m M ix bow eow = .ok v) :
    Vocab.words v = ws ∧ Vocab.wordsLen v = ws.length ∧
    ∀ (i : Nat) (w : Str), Vocab.idx v w = .ok (some (.word i)) ↔ ws[i]? = some w := by
  obtain ⟨hn, _, rfl⟩ := SubwordVocab.newWithBoundaries_eq_ok.mp hv
  refine ⟨rfl, (indexMap_len_iff ws).mpr hn, fun i w => ?_⟩
  rw [← indexMap_get hn]
  simp only [Vocab.idx, SubwordVocab.idx]
  cases hg : (indexMap ws).get w with
  | some j => simp
  | none =>
    simp only [reduceCtorEq, iff_false]
    intro h
    obtain ⟨l, _, h⟩ := Res.bind_eq_ok.mp h
    cases l <;> simp at h

/-- Two words, one of them not ASCII: hypotheses of `c22_simple` and `c22_subword`. -/
example := c22_simple [['a'], ['b', 'é']] _ rfl
example := c22_subword [['a'], ['b', 'é']] 3 6 (⟨100⟩ : FastTextIndexer) ['<'] ['>'] _ rfl

example : ∃ v, SimpleVocab.new [['a'], ['b', 'é']] = .ok v := ⟨_, rfl⟩
example : ∃ ix : FastTextIndexer, ∃ v, FastTextIndexer.new 100 = .ok ix ∧
    SubwordVocab.newWithBoundaries [['a'], ['b', 'é']] 3 6 ix ['<'] ['>'] = .ok v := ⟨_, _, rfl, rfl⟩

/-! ## C23: constructors -/

/-- C23 for word-only vocabularies: accepted exactly when duplicate free, otherwise a panic. -/
theorem c23_simple (ws : List Str) :
    (ws.Nodup → ∃ v, SimpleVocab.new ws = .ok v ∧ Vocab.words v = ws) ∧
    (¬ ws.Nodup → SimpleVocab.new ws = .panic) :=
  ⟨fun h => ⟨_, SimpleVocab.new_eq_ok.mpr ⟨h, rfl⟩, rfl⟩, SimpleVocab.new_panic⟩

/-- C23 for subword vocabularies: duplicates panic; without duplicates the constructor succeeds, unless
the number of words plus n-gram indices does not fit the address space. -/
theorem c23_subword {I : Type} [Indexer I] (ws : List Str) (m M : Nat) (ix : I) (bow eow : Str) :
    (∀ ub, ws.Nodup → Indexer.upperBound ix = .ok ub → ws.length + ub ≤ usizeMax →
      ∃ v, SubwordVocab.newWithBoundaries ws m M ix bow eow = .ok v ∧ Vocab.words v = ws) ∧
    (¬ ws.Nodup → SubwordVocab.newWithBoundaries ws m M ix bow eow = .panic) :=
  ⟨fun ub h h1 h2 =>
    ⟨_, SubwordVocab.newWithBoundaries_eq_ok.mpr ⟨h, ⟨ub, h1, h2⟩, rfl⟩, rfl⟩,
    SubwordVocab.newWithBoundaries_panic⟩

example : [['a'], ['b']].Nodup ∧ ¬ [['a'], ['a']].Nodup ∧
    Indexer.upperBound (⟨10, 1023⟩ : HashIndexer) = .ok 1024 := by decide

/-! ## C24: indices stay inside the matrix -/

/-- The claim of C24 for one vocabulary: every index a lookup returns addresses the right part of a
matrix with `vocab_len` rows. -/
def IndicesInside {V : Type} [Vocab V] (v : V) : Prop :=
  ∃ n, Vocab.vocabLen v = .ok n ∧ Vocab.wordsLen v ≤ n ∧ ∀ w,
    (∀ i, Vocab.idx v w = .ok (some (.word i)) → i < Vocab.wordsLen v) ∧
    (∀ is, Vocab.idx v w = .ok (some (.subword is)) →
      is ≠ [] ∧ ∀ i ∈ is, Vocab.wordsLen v ≤ i ∧ i < n)

theorem c24_simple (ws : List Str) (v : SimpleVocab) (hv : SimpleVocab.new ws = .ok v) :
    IndicesInside v := by
  have h22 := c22_simple ws v hv
  refine ⟨_, rfl, Nat.le_refl _, fun w => ⟨fun i hi => ?_, fun is his => ?_⟩⟩
  · rw [h22.2.1]
    have := (h22.2.2 i w).mp hi
    exact (List.getElem?_eq_some_iff.mp this).1
  · simp only [Vocab.idx, Res.ok.injEq] at his
    cases h : v.indices.get w <;> simp [h] at his

/-- Shared part of C24 for all subword vocabularies. -/
theorem indicesInside_of_inRange {I : Type} [Indexer I] {ws : List Str} {m M : Nat} {ix : I}
    {bow eow : Str} {v : SubwordVocab I} (hr : InRange ix)
    (hv : SubwordVocab.newWithBoundaries ws m M ix bow eow = .ok v) : IndicesInside v := by
  have h22 := c22_subword ws m M ix bow eow v hv
  obtain ⟨hn, ⟨ub, hub, hle⟩, rfl⟩ := SubwordVocab.newWithBoundaries_eq_ok.mp hv
  have hlen : (indexMap ws).len = ws.length := (indexMap_len_iff ws).mpr hn
  refine ⟨ws.length + ub, ?_, ?_, fun w => ⟨fun i hi => ?_, fun is his => ?_⟩⟩
  · simp [Vocab.vocabLen, hub, hlen]
  · rw [h22.2.1]; omega
  · rw [h22.2.1]
    have := (h22.2.2 i w).mp hi
    exact (List.getElem?_eq_some_iff.mp this).1
  · rw [h22.2.1]
    simp only [Vocab.idx, SubwordVocab.idx] at his
    split at his
    · simp at his
    · obtain ⟨o, ho, his⟩ := Res.bind_eq_ok.mp his
      unfold SubwordVocab.subwordIndices at ho
      obtain ⟨l, hl, ho⟩ := Res.bind_eq_ok.mp ho
      simp only [Res.pure_eq, Res.ok.injEq] at ho his
      subst ho
      split at his
      · simp at his
      · rename_i he
        simp only [Option.map_some, Option.some.injEq, WordIndex.subword.injEq] at his
        subst his
        refine ⟨by simpa [List.isEmpty_iff] using he, fun i hi => ?_⟩
        obtain ⟨j, hj, rfl⟩ := List.mem_map.mp hi
        have := subwordIndices_lt hr hub hl j hj
        rw [hlen]; omega

/-- C24 for bucket-hash vocabularies. -/
theorem c24_bucket (e : Nat) (ix : HashIndexer) (hix : HashIndexer.new e = .ok ix) (ws : List Str)
    (m M : Nat) (bow eow : Str) (v : BucketSubwordVocab)
    (hv : SubwordVocab.newWithBoundaries ws m M ix bow eow = .ok v) : IndicesInside v :=
  indicesInside_of_inRange (HashIndexer.inRange hix) hv

/-- C24 for fastText vocabularies. -/
theorem c24_fasttext (b : Nat) (ix : FastTextIndexer) (_hix : FastTextIndexer.new b = .ok ix)
    (ws : List Str) (m M : Nat) (bow eow : Str) (v : FastTextSubwordVocab)
    (hv : SubwordVocab.newWithBoundaries ws m M ix bow eow = .ok v) : IndicesInside v :=
  indicesInside_of_inRange (FastTextIndexer.inRange ix) hv

/-- C24 for floret vocabularies. -/
theorem c24_floret (nb nh : Nat) (seed : UInt32) (ix : FloretIndexer)
    (hix : FloretIndexer.new nb nh seed = .ok ix) (ws : List Str)
    (m M : Nat) (bow eow : Str) (v : FloretSubwordVocab)
    (hv : SubwordVocab.newWithBoundaries ws m M ix bow eow = .ok v) : IndicesInside v :=
  indicesInside_of_inRange (FloretIndexer.inRange hix) hv

/-- C24 for explicit n-gram vocabularies, with an indexer from either constructor. -/
theorem c24_explicit (ix : ExplicitIndexer)
    (hix : (∃ ng, ExplicitIndexer.new ng = .ok ix) ∨
      ∃ t o2n, ExplicitIndexer.newWithIndices t = .ok (ix, o2n)) (ws : List Str)
    (m M : Nat) (bow eow : Str) (v : ExplicitSubwordVocab)
    (hv : SubwordVocab.newWithBoundaries ws m M ix bow eow = .ok v) : IndicesInside v := by
  refine indicesInside_of_inRange (ExplicitIndexer.inRange ?_) hv
  rcases hix with ⟨ng, h⟩ | h
  · exact ExplicitIndexer.new_built h
  · exact h

/-- Two words under each kind of vocabulary: hypotheses of `c24_simple`, `c24_bucket`, `c24_fasttext`,
`c24_floret` and `c24_explicit` (inventory with two n-grams). -/
example := c24_simple [['a'], ['b', 'é']] _ rfl
example := c24_bucket 21 _ rfl [['a'], ['b']] 3 6 ['<'] ['>'] _ rfl
example := c24_fasttext 2000000 _ rfl [['a'], ['b']] 3 6 ['<'] ['>'] _ rfl
example := c24_floret 50 2 7 _ rfl [['a'], ['b']] 3 6 ['<'] ['>'] _ rfl
example := c24_explicit _ (.inl ⟨[['a', 'b'], ['c']], rfl⟩) [['a'], ['b']] 3 6 ['<'] ['>'] _ rfl

example : ∃ ix v, HashIndexer.new 21 = .ok ix ∧
    SubwordVocab.newWithBoundaries [['a'], ['b']] 3 6 ix ['<'] ['>'] = .ok v :=
  ⟨_, _, rfl, rfl⟩
example : ∃ ix v, FloretIndexer.new 50 2 7 = .ok ix ∧
    SubwordVocab.newWithBoundaries [] 3 6 ix ['<'] ['>'] = .ok v :=
  ⟨_, _, rfl, rfl⟩
example : ∃ ix v, ExplicitIndexer.new [['a', 'b'], ['c']] = .ok ix ∧
    SubwordVocab.newWithBoundaries [['a'], ['b']] 3 6 ix ['<'] ['>'] = .ok v :=
  ⟨_, _, rfl, rfl⟩

/-! ## C25: when a lookup has an answer -/

/-- The n-grams of the word with its boundary markers. -/
def bracketedNGrams (bow w eow : Str) (m M : Nat) : List Str :=
  (NGramsSpec (bow ++ w ++ eow) m M).map (·.1)

/-- Reference hash of an n-gram in bucket vocabularies: 64-bit FNV-1a over the number of characters
(8 bytes) and the code points (4 bytes each). -/
def bucketHash (g : Str) : Nat :=
  (fnv1a64 (leBytes 8 g.length ++ g.flatMap fun c => leBytes 4 c.toNat)).toNat

theorem specFrom_inner_eq (s : Str) {m M : Nat} (hm : 1 ≤ m) :
    (specFrom m M s).map (·.inner) = (NGramsSpec s m M).map (·.1) := by
  rw [specFrom_eq_positions hm]
  simp [NGramsSpec, List.map_flatMap, Function.comp_def]

theorem bracketedNGrams_eq_nil (bow w eow : Str) {m M : Nat} (hm : 1 ≤ m) (hM : m ≤ M) :
    bracketedNGrams bow w eow m M = [] ↔ (bow ++ w ++ eow).length < m := by
  unfold bracketedNGrams
  rw [← specFrom_inner_eq _ hm, List.map_eq_nil_iff, specFrom_eq_nil_iff hm hM]

/-- Lookup of an unknown word in terms of what the indexer answers. -/
theorem idx_unknown {I : Type} [Indexer I] {ws : List Str} {m M : Nat} {ix : I} {bow eow : Str}
    {v : SubwordVocab I} (hv : SubwordVocab.newWithBoundaries ws m M ix bow eow = .ok v)
    {f : NGram → List Nat} (hf : Answers ix f) (hm : 1 ≤ m) (hM : m ≤ M) {w : Str} (hw : w ∉ ws) :
    Vocab.idx v w = .ok
      (if (indexed ix (bow ++ w ++ eow) m M).flatMap f = [] then none
       else some (.subword (((indexed ix (bow ++ w ++ eow) m M).flatMap f).map (ws.length + ·)))) := by
  obtain ⟨hn, _, rfl⟩ := SubwordVocab.newWithBoundaries_eq_ok.mp hv
  have hlen : (indexMap ws).len = ws.length := (indexMap_len_iff ws).mpr hn
  simp only [Vocab.idx, SubwordVocab.idx, (indexMap_get_none w).mpr hw, SubwordVocab.subwordIndices,
    SubwordVocab.bracket]
  rw [subwordIndices_eq hf _ hm hM]
  simp only [Res.ok_bind, Res.pure_eq, hlen]
  congr 1
  generalize (indexed ix (bow ++ w ++ eow) m M).flatMap f = l
  cases l with
  | nil => rfl
  | cons a l => simp [Nat.add_comm]

theorem idx_unknown_panic {I : Type} [Indexer I] {ws : List Str} {m M : Nat} {ix : I} {bow eow : Str}
    {v : SubwordVocab I} (hv : SubwordVocab.newWithBoundaries ws m M ix bow eow = .ok v)
    (h : m = 0 ∨ M < m) {w : Str} (hw : w ∉ ws) : Vocab.idx v w = .panic := by
  obtain ⟨hn, _, rfl⟩ := SubwordVocab.newWithBoundaries_eq_ok.mp hv
  simp only [Vocab.idx, SubwordVocab.idx, (indexMap_get_none w).mpr hw, SubwordVocab.subwordIndices]
  rw [subwordIndices_panic _ _ h]; rfl

/-- C25, bucket-hash vocabularies: an unknown word has an answer exactly when the bracketed word has at
least `min_n` characters, and the answer is one index per n-gram, its hash modulo the number of
buckets, after the words. -/
theorem c25_bucket (e : Nat) (ix : HashIndexer) (hix : HashIndexer.new e = .ok ix) (ws : List Str)
    (m M : Nat) (bow eow : Str) (v : BucketSubwordVocab)
    (hv : SubwordVocab.newWithBoundaries ws m M ix bow eow = .ok v) (hm : 1 ≤ m) (hM : m ≤ M)
    (w : Str) (hw : w ∉ ws) :
    ((bow ++ w ++ eow).length < m → Vocab.idx v w = .ok none) ∧
    (m ≤ (bow ++ w ++ eow).length → Vocab.idx v w = .ok (some (.subword
      ((bracketedNGrams bow w eow m M).map fun g => ws.length + bucketHash g % 2 ^ e)))) := by
  have key := idx_unknown hv (HashIndexer.answers hix) hm hM hw
  have e1 : (indexed ix (bow ++ w ++ eow) m M).flatMap
      (fun g => [(fnv1a64 g.hashBytes).toNat % 2 ^ e]) =
      (bracketedNGrams bow w eow m M).map fun g => bucketHash g % 2 ^ e := by
    unfold bracketedNGrams
    rw [← specFrom_inner_eq _ hm]
    show (specFrom m M _).flatMap _ = _
    rw [List.map_map]
    have : ∀ l : List NGram, (∀ g ∈ l, g = NGram.ofStr g.inner) →
        l.flatMap (fun g => [(fnv1a64 g.hashBytes).toNat % 2 ^ e]) =
        l.map ((fun g => bucketHash g % 2 ^ e) ∘ fun x => x.inner) := by
      intro l hl
      induction l with
      | nil => rfl
      | cons g l ih =>
        rw [List.flatMap_cons, List.map_cons, ih fun x hx => hl x (by simp [hx])]
        have hg := hl g (by simp)
        simp only [List.singleton_append, Function.comp_apply, List.cons.injEq, and_true]
        rw [hg]; rfl
    exact this _ fun g hg => specFrom_charLen hm hg
  rw [e1] at key
  rw [key]
  constructor
  · intro h
    rw [(bracketedNGrams_eq_nil bow w eow hm hM).mpr h]; rfl
  · intro h
    have hne : ¬ bracketedNGrams bow w eow m M = [] := by
      rw [bracketedNGrams_eq_nil bow w eow hm hM]; omega
    rw [if_neg (by simpa using hne)]
    simp [Function.comp_def]

/-- C25, fastText vocabularies with at least one bucket. -/
theorem c25_fasttext (b : Nat) (ix : FastTextIndexer) (hix : FastTextIndexer.new b = .ok ix) (hb : b ≠ 0)
    (ws : List Str) (m M : Nat) (bow eow : Str) (v : FastTextSubwordVocab)
    (hv : SubwordVocab.newWithBoundaries ws m M ix bow eow = .ok v) (hm : 1 ≤ m) (hM : m ≤ M)
    (w : Str) (hw : w ∉ ws) :
    ((bow ++ w ++ eow).length < m → Vocab.idx v w = .ok none) ∧
    (m ≤ (bow ++ w ++ eow).length → Vocab.idx v w = .ok (some (.subword
      ((bracketedNGrams bow w eow m M).map fun g => ws.length + (fasttextHash g).toNat % b)))) := by
  have key := idx_unknown hv (FastTextIndexer.answers hix hb) hm hM hw
  have e1 : (indexed ix (bow ++ w ++ eow) m M).flatMap
      (fun g => [(fasttextHash g.inner).toNat % b]) =
      (bracketedNGrams bow w eow m M).map fun g => (fasttextHash g).toNat % b := by
    unfold bracketedNGrams
    rw [← specFrom_inner_eq _ hm]
    show (specFrom m M _).flatMap _ = _
    rw [List.map_map, flatMap_single]
    rfl
  rw [e1] at key
  rw [key]
  constructor
  · intro h
    rw [(bracketedNGrams_eq_nil bow w eow hm hM).mpr h]; rfl
  · intro h
    have hne : ¬ bracketedNGrams bow w eow m M = [] := by
      rw [bracketedNGrams_eq_nil bow w eow hm hM]; omega
    rw [if_neg (by simpa using hne)]
    simp [Function.comp_def]

/-- C25, floret vocabularies: every unknown word has an answer: the `n_hashes` indices of the bracketed
word followed by those of its n-grams. -/
theorem c25_floret (nb nh : Nat) (seed : UInt32) (ix : FloretIndexer)
    (hix : FloretIndexer.new nb nh seed = .ok ix) (ws : List Str)
    (m M : Nat) (bow eow : Str) (v : FloretSubwordVocab)
    (hv : SubwordVocab.newWithBoundaries ws m M ix bow eow = .ok v) (hm : 1 ≤ m) (hM : m ≤ M)
    (w : Str) (hw : w ∉ ws) :
    ∃ is, Vocab.idx v w = .ok (some (.subword is)) ∧
      is.length = nh * (1 + (bracketedNGrams bow w eow m M).length) ∧
      is = (((bow ++ w ++ eow) :: bracketedNGrams bow w eow m M).flatMap fun g =>
        ((hashArray (murmur3 (utf8 g) seed)).take nh).map fun h => ws.length + h % nb) := by
  obtain ⟨hh, hb, _⟩ := FloretIndexer.new_eq_ok.mp hix
  have key := idx_unknown hv (FloretIndexer.answers hix) hm hM hw
  have e1 : (indexed ix (bow ++ w ++ eow) m M).flatMap
      (fun g => ((hashArray (murmur3 (utf8 g.inner) seed)).take nh).map (· % nb)) =
      ((bow ++ w ++ eow) :: bracketedNGrams bow w eow m M).flatMap fun g =>
        ((hashArray (murmur3 (utf8 g) seed)).take nh).map (· % nb) := by
    unfold bracketedNGrams
    rw [← specFrom_inner_eq _ hm]
    show ([NGram.ofStr (bow ++ w ++ eow)] ++ specFrom m M _).flatMap _ = _
    simp [List.flatMap_map, NGram.ofStr]
  rw [e1] at key
  have hne : ¬ ((bow ++ w ++ eow) :: bracketedNGrams bow w eow m M).flatMap (fun g =>
        ((hashArray (murmur3 (utf8 g) seed)).take nh).map (· % nb)) = [] := by
    intro h
    have := congrArg List.length h
    simp [hashArray_length] at this
    omega
  rw [if_neg hne] at key
  refine ⟨_, key, ?_, ?_⟩
  · rw [List.length_map, List.length_flatMap]
    have : ∀ l : List Str, (l.map fun g =>
        (((hashArray (murmur3 (utf8 g) seed)).take nh).map (· % nb)).length).sum = nh * l.length := by
      intro l
      induction l with
      | nil => simp
      | cons g l ih =>
        rw [List.map_cons, List.sum_cons, ih]
        simp only [List.length_map, List.length_take, hashArray_length, List.length_cons, Nat.mul_add]
        omega
    rw [this, List.length_cons, Nat.add_comm]
  · simp [List.map_flatMap, Function.comp_def]

/-- C25, explicit vocabularies: an unknown word has an answer exactly when one of its n-grams is in the
inventory, and then it consists of the indices of those n-grams. -/
theorem c25_explicit (ix : ExplicitIndexer)
    (hix : (∃ ng, ExplicitIndexer.new ng = .ok ix) ∨
      ∃ t o2n, ExplicitIndexer.newWithIndices t = .ok (ix, o2n)) (ws : List Str)
    (m M : Nat) (bow eow : Str) (v : ExplicitSubwordVocab)
    (hv : SubwordVocab.newWithBoundaries ws m M ix bow eow = .ok v) (hm : 1 ≤ m) (hM : m ≤ M)
    (w : Str) (hw : w ∉ ws) :
    ((∀ g ∈ bracketedNGrams bow w eow m M, g ∉ ix.ngrams) → Vocab.idx v w = .ok none) ∧
    ((∃ g ∈ bracketedNGrams bow w eow m M, g ∈ ix.ngrams) → ∃ is, is ≠ [] ∧
      Vocab.idx v w = .ok (some (.subword is)) ∧
      is = (bracketedNGrams bow w eow m M).filterMap fun g => (ix.index.get g).map (ws.length + ·)) := by
  have hb : ix.Built := by
    rcases hix with ⟨ng, h⟩ | h
    · exact ExplicitIndexer.new_built h
    · exact h
  have key := idx_unknown hv ix.answers hm hM hw
  have e1 : (indexed ix (bow ++ w ++ eow) m M).flatMap (fun g => (ix.index.get g.inner).toList) =
      (bracketedNGrams bow w eow m M).filterMap fun g => ix.index.get g := by
    unfold bracketedNGrams
    rw [← specFrom_inner_eq _ hm]
    show (specFrom m M _).flatMap _ = _
    rw [List.filterMap_map]
    generalize specFrom m M (bow ++ w ++ eow) = l
    induction l with
    | nil => rfl
    | cons g l ih =>
      rw [List.flatMap_cons, ih, List.filterMap_cons]
      simp only [Function.comp_apply]
      cases ix.index.get g.inner <;> rfl
  rw [e1] at key
  have hmem : ∀ g, g ∈ ix.ngrams ↔ ∃ i, ix.index.get g = some i := by
    intro g
    rw [← hb.keys]
    cases h : ix.index.get g with
    | none => simpa using HMap.get_eq_none_iff.mp h
    | some i =>
      simp only [Option.some.injEq, exists_eq', iff_true]
      apply Classical.byContradiction; intro hn
      rw [HMap.get_eq_none_iff.mpr hn] at h; simp at h
  constructor
  · intro h
    rw [key, if_pos]
    rw [List.filterMap_eq_nil_iff]
    intro g hg
    cases hc : ix.index.get g with
    | none => rfl
    | some i => exact absurd ((hmem g).mpr ⟨i, hc⟩) (h g hg)
  · rintro ⟨g, hg, hg2⟩
    obtain ⟨i, hi⟩ := (hmem g).mp hg2
    have hin : i ∈ (bracketedNGrams bow w eow m M).filterMap fun g => ix.index.get g :=
      List.mem_filterMap.mpr ⟨g, hg, hi⟩
    rw [if_neg (by intro h; rw [h] at hin; simp at hin)] at key
    refine ⟨_, ?_, key, ?_⟩
    · intro h
      rw [List.map_eq_nil_iff] at h
      rw [h] at hin; simp at hin
    · rw [List.map_filterMap]

/-- C25, word-only vocabularies: unknown words have no answer. -/
theorem c25_simple (ws : List Str) (v : SimpleVocab) (hv : SimpleVocab.new ws = .ok v) (w : Str)
    (hw : w ∉ ws) : Vocab.idx v w = .ok none := by
  obtain ⟨hn, rfl⟩ := SimpleVocab.new_eq_ok.mp hv
  simp [Vocab.idx, (indexMap_get_none w).mpr hw]

/-- C25, the excluded parameters: with `min_n = 0` or `min_n > max_n`, which every constructor accepts,
looking up any unknown word panics, whatever the indexer. -/
theorem c25_bad_range {I : Type} [Indexer I] (ws : List Str) (m M : Nat) (ix : I) (bow eow : Str)
    (v : SubwordVocab I) (hv : SubwordVocab.newWithBoundaries ws m M ix bow eow = .ok v)
    (h : m = 0 ∨ M < m) (w : Str) (hw : w ∉ ws) : Vocab.idx v w = .panic :=
  idx_unknown_panic hv h hw

/-- An unknown word under each kind of vocabulary: hypotheses of `c25_simple`, `c25_bucket`, `c25_fasttext`,
`c25_floret`, `c25_explicit` and `c25_bad_range`. -/
example := c25_simple [['a'], ['b']] _ rfl ['c', 'd'] (by decide)
example := c25_bucket 10 _ rfl [['a'], ['b']] 3 6 ['<'] ['>'] _ rfl (by decide) (by decide) ['c', 'd'] (by decide)
example := c25_fasttext 10 _ rfl (by decide) [['a'], ['b']] 3 6 ['<'] ['>'] _ rfl (by decide) (by decide)
  ['c', 'd'] (by decide)
example := c25_floret 50 2 7 _ rfl [['a'], ['b']] 3 6 ['<'] ['>'] _ rfl (by decide) (by decide)
  ['c', 'd'] (by decide)
example := c25_explicit _ (.inl ⟨[['<', 'c'], ['x']], rfl⟩) [['a'], ['b']] 2 3 ['<'] ['>'] _ rfl (by decide)
  (by decide) ['c'] (by decide)
example := c25_bad_range [['a'], ['b']] 0 6 (⟨10⟩ : FastTextIndexer) ['<'] ['>'] _ rfl (.inl rfl) ['c'] (by decide)

example : ∃ ix v, HashIndexer.new 10 = .ok ix ∧
    SubwordVocab.newWithBoundaries [['a'], ['b']] 3 6 ix ['<'] ['>'] = .ok v ∧
    ['c', 'd'] ∉ [['a'], ['b']] ∧ 3 ≤ (['<'] ++ ['c', 'd'] ++ ['>']).length ∧
    (['<'] ++ [] ++ ['>']).length < 3 :=
  ⟨_, _, rfl, rfl, by decide, by decide, by decide⟩
example : ∃ ix v, ExplicitIndexer.new [['<', 'c'], ['x']] = .ok ix ∧
    SubwordVocab.newWithBoundaries [['a'], ['b']] 2 3 ix ['<'] ['>'] = .ok v ∧
    ∃ g ∈ bracketedNGrams ['<'] ['c'] ['>'] 2 3, g ∈ ix.ngrams :=
  ⟨_, _, rfl, rfl, ['<', 'c'], by decide, by decide⟩
example : ∃ ix v, FastTextIndexer.new 10 = .ok ix ∧
    SubwordVocab.newWithBoundaries [['a'], ['b']] 0 6 ix ['<'] ['>'] = .ok v := ⟨_, _, rfl, rfl⟩

/-! ## C31: n-gram listing agrees with the lookup -/

/-- C31: for every subword vocabulary and word, `subword_indices` is the concatenation of the indices
listed by `ngram_indices` (`None` exactly when that is empty); both panic together. -/
theorem c31_ngram_indices {I : Type} [Indexer I] (v : SubwordVocab I) (w : Str) :
    v.subwordIndices w = (v.ngramIndices w).map fun o =>
      let l := (o.getD []).flatMap (·.2)
      if l = [] then none else some l := by
  unfold SubwordVocab.subwordIndices SubwordVocab.ngramIndices subwordIndices
  cases subwordIndicesWithNgrams v.indexer (v.bracket w) v.minN v.maxN with
  | err e => rfl
  | panic => rfl
  | ok l =>
    simp only [Res.ok_bind, Res.pure_eq, Res.map_ok]
    congr 1
    cases l with
    | nil => rfl
    | cons p l =>
      simp only [List.map_cons, List.isEmpty_cons, Bool.false_eq_true, if_false, Option.getD_some,
        List.flatMap_cons, List.flatMap_map, List.isEmpty_iff, List.map_append, List.map_flatMap]

/-- C31: the n-grams reported are the n-grams of the bracketed word, in order (substring scope), each
with the indices the indexer gives it, offset by the number of words. -/
theorem c31_listing {I : Type} [Indexer I] (v : SubwordVocab I) (w : Str) (l : List (Str × List Nat))
    (hs : Indexer.scope v.indexer = .substrings) (hm : 1 ≤ v.minN) (hM : v.minN ≤ v.maxN)
    (h : v.ngramIndices w = .ok (some l)) :
    l.map (·.1) = bracketedNGrams v.bow w v.eow v.minN v.maxN ∧
    ∀ g is, (g, is) ∈ l → ∃ js, Indexer.indexNgram v.indexer (NGram.ofStr g) = .ok js ∧
      is = js.map (· + Vocab.wordsLen v) := by
  unfold SubwordVocab.ngramIndices subwordIndicesWithNgrams at h
  rw [ngrams_eq_specFrom _ _ _ hm hM] at h
  simp only [Res.ok_bind, hs, List.nil_append] at h
  obtain ⟨ps, hps, h⟩ := Res.bind_eq_ok.mp h
  simp only [Res.pure_eq, Res.ok.injEq] at h
  split at h
  · simp at h
  · rename_i hne
    simp only [Option.some.injEq] at h
    subst h
    clear hne h
    unfold bracketedNGrams
    rw [← specFrom_inner_eq _ hm]
    unfold SubwordVocab.bracket at hps
    have hc : ∀ g ∈ specFrom v.minN v.maxN (v.bow ++ w ++ v.eow), g = NGram.ofStr g.inner :=
      fun g hg => specFrom_charLen hm hg
    generalize specFrom v.minN v.maxN (v.bow ++ w ++ v.eow) = gs at hps hc
    induction gs generalizing ps with
    | nil => simp at hps; subst hps; simp
    | cons g gs ih =>
      rw [List.mapM_cons] at hps
      obtain ⟨x, hx, hps⟩ := Res.bind_eq_ok.mp hps
      obtain ⟨xs, hxs, hps⟩ := Res.bind_eq_ok.mp hps
      obtain ⟨js, hjs, hx⟩ := Res.bind_eq_ok.mp hx
      simp only [Res.pure_eq, Res.ok.injEq] at hps hx
      subst hps; subst hx
      have := ih xs hxs fun g hg => hc g (by simp [hg])
      refine ⟨by simpa using this.1, ?_⟩
      intro g' is' hmem
      simp only [List.map_cons, List.mem_cons, Prod.mk.injEq] at hmem
      rcases hmem with ⟨rfl, rfl⟩ | hmem
      · refine ⟨js, ?_, rfl⟩
        rw [← hc g (by simp)]; exact hjs
      · exact this.2 g' is' hmem

/-- The n-grams of a word with two characters: hypotheses of `c31_listing`. -/
example := c31_listing (⟨['<'], ['>'], ⟨4, 15⟩, indexMap [['a']], [['a']], 3, 6⟩ : BucketSubwordVocab)
  ['a', 'b'] _ rfl (by decide) (by decide) rfl

example : ∃ v : BucketSubwordVocab, ∃ l, SubwordVocab.newWithBoundaries [['a']] 3 6
    (⟨4, 15⟩ : HashIndexer) ['<'] ['>'] = .ok v ∧ Indexer.scope v.indexer = .substrings ∧
    v.ngramIndices ['a', 'b'] = .ok (some l) ∧ l.length = 3 := ⟨_, _, rfl, rfl, rfl, rfl⟩

end FF
