import Verif.Props.Lookup
import Verif.Props.Hash

/-!
# C73, C74: the vectors of words and of quantized rows from first principles

C73 puts the parts of a lookup together: the word index, the n-grams of the bracketed word, the hash functions, the rows
of the storage, their sum and its normalisation. C74 says what a row of a quantized storage is.
-/

namespace FF

open Res Storage

/-! ## Specification -/

section Spec
variable {F : Type} [Scalar F]

/-- `v` has `d` components; each is the sum of the components of the rows at this position, added in order to zero. -/
def IsRowSum (d : Nat) (rows : List (List F)) (v : List F) : Prop :=
  v.length = d ∧ ∀ j, j < d → v[j]? = some ((rows.filterMap (·[j]?)).foldl Scalar.add Scalar.zero)

/-- `u` is `v` divided by its Euclidean length, or `v` itself if that is zero. -/
def IsNormalized (v u : List F) : Prop :=
  u.length = v.length ∧ ∀ (j : Nat) (x : F), v[j]? = some x →
    u[j]? = some (if Scalar.isZero (Scalar.sqrt (Scalar.dot v v)) = true then x
      else Scalar.div x (Scalar.sqrt (Scalar.dot v v)))

/-- `u` is the normalised sum of the rows of the storage at the given indices. -/
def IsSumVector {S : Type} [Storage S F] (s : S) (is : List Nat) (u : List F) : Prop :=
  ∃ rows v, is.map (embedding s) = rows.map Res.ok ∧ IsRowSum (shape s).2 rows v ∧ IsNormalized v u

end Spec

namespace HashSpec

/-- The buckets of an n-gram in floret vocabularies. -/
def floret (n k seed : Nat) (g : Str) : List Nat :=
  let bs := (utf8 g).map UInt8.toNat
  let h := murmur (chunks (bs.length / 16) 16 bs) (bs.drop (bs.length / 16 * 16)) seed
  (List.range k).map fun i => (h.1 + 2 ^ 64 * h.2) / 2 ^ (32 * i) % 2 ^ 32 % n

end HashSpec

/-! ## Proofs -/

section
variable {F : Type} [Scalar F]

theorem foldl_zipWith_getElem? (d : Nat) (rows : List (List F)) (hrows : ∀ r ∈ rows, r.length = d) (z : List F)
    (hz : z.length = d) :
    (rows.foldl (List.zipWith Scalar.add) z).length = d ∧
    ∀ (j : Nat) (x : F), z[j]? = some x → (rows.foldl (List.zipWith Scalar.add) z)[j]? =
      some ((rows.filterMap (·[j]?)).foldl Scalar.add x) := by
  induction rows generalizing z with
  | nil => exact ⟨hz, fun j x h => h⟩
  | cons r rows ih =>
    have hr := hrows r (by simp)
    obtain ⟨h1, h2⟩ := ih (fun r' h => hrows r' (by simp [h])) (List.zipWith Scalar.add z r) (by simp [hz, hr])
    refine ⟨h1, fun j x hx => ?_⟩
    obtain ⟨hj, _⟩ := List.getElem?_eq_some_iff.mp hx
    have hj' : j < r.length := by omega
    rw [List.foldl_cons, h2 j (Scalar.add x r[j]) (by rw [List.getElem?_zipWith, hx, List.getElem?_eq_getElem hj']),
      List.filterMap_cons, List.getElem?_eq_getElem hj']
    rfl

omit [Scalar F] in
theorem filterMap_zero (rows : List (List F)) (hrows : ∀ r ∈ rows, r.length = 1) :
    rows.filterMap (·[0]?) = rows.flatten := by
  induction rows with
  | nil => rfl
  | cons r rows ih =>
    obtain ⟨x, rfl⟩ := List.length_eq_one_iff.mp (hrows r (by simp))
    rw [List.flatten_cons, ← ih fun r' h => hrows r' (by simp [h])]
    rfl

theorem sumAxis0_spec (m : Mat F) (hm : m.WF)
    (hs : m.cols = 1 → ∀ xs : List F, Scalar.sum xs = xs.foldl Scalar.add Scalar.zero) :
    IsRowSum m.cols m.rows m.sumAxis0 := by
  unfold Mat.sumAxis0
  split
  · next h =>
    refine ⟨by simp [h], fun j hj => ?_⟩
    have : j = 0 := by omega
    subst this
    rw [hs h, filterMap_zero m.rows (fun r hr => by rw [hm r hr, h])]
    rfl
  · obtain ⟨h1, h2⟩ := foldl_zipWith_getElem? m.cols m.rows hm (List.replicate m.cols Scalar.zero) (by simp)
    exact ⟨h1, fun j hj => h2 j _ (by simp [hj])⟩

theorem l2Normalize_spec (v : List F) : IsNormalized v (l2Normalize v).1 := by
  unfold l2Normalize
  dsimp only
  split
  · next h => exact ⟨rfl, fun j x hx => by rw [hx, if_pos h]⟩
  · next h => exact ⟨by simp, fun j x hx => by rw [List.getElem?_map, hx, if_neg h]; rfl⟩

/-- The specification determines the vector. -/
theorem IsSumVector.unique {S : Type} [Storage S F] {s : S} {is : List Nat} {u u' : List F}
    (h : IsSumVector s is u) (h' : IsSumVector s is u') : u = u' := by
  obtain ⟨rows, v, h1, ⟨h2, h3⟩, h4, h5⟩ := h
  obtain ⟨rows', v', h1', ⟨h2', h3'⟩, h4', h5'⟩ := h'
  have hrows : rows = rows' := by
    have := h1.symm.trans h1'
    exact List.map_inj_right (fun _ _ h => Res.ok.inj h) |>.mp this
  subst hrows
  have hv : v = v' := by
    apply List.ext_getElem?
    intro j
    by_cases hj : j < (shape s).2
    · rw [h3 j hj, h3' j hj]
    · rw [List.getElem?_eq_none (by omega), List.getElem?_eq_none (by omega)]
  subst hv
  apply List.ext_getElem?
  intro j
  cases hx : v[j]? with
  | none =>
    have := List.getElem?_eq_none_iff.mp hx
    rw [List.getElem?_eq_none (by omega), List.getElem?_eq_none (by omega)]
  | some x => rw [h5 j x hx, h5' j x hx]

variable {T V S : Type} [Vocab V] [Storage S F]

/-- Lookup of a word with subword indices. -/
theorem embedding_subword (e : Embeddings T V S F) (hb : BatchIsRows e.storage) (hr : RowsSized e.storage)
    (hs : e.dims = 1 → ∀ xs : List F, Scalar.sum xs = xs.foldl Scalar.add Scalar.zero)
    {w : Str} {is : List Nat} (hi : Vocab.idx e.vocab w = .ok (some (.subword is)))
    (hrows : ∀ i ∈ is, ∃ v, embedding e.storage i = .ok v) :
    ∃ u, e.embedding w = .ok (some u) ∧ IsSumVector e.storage is u := by
  obtain ⟨rows, hr1⟩ : ∃ rows : List (List F), is.map (embedding e.storage) = rows.map Res.ok := by
    clear hi
    induction is with
    | nil => exact ⟨[], rfl⟩
    | cons i is ih =>
      obtain ⟨v, hv⟩ := hrows i (by simp)
      obtain ⟨rows, h⟩ := ih fun j hj => hrows j (by simp [hj])
      exact ⟨v :: rows, by simp [hv, h]⟩
  have hm := ((hb is).1 ⟨(shape e.storage).2, rows⟩).mpr ⟨rfl, hr1⟩
  refine ⟨_, ?_, rows, _, hr1, sumAxis0_spec ⟨(shape e.storage).2, rows⟩ ?_ hs, l2Normalize_spec _⟩
  · unfold Embeddings.embedding
    rw [hi]
    simp only [Res.ok_bind]
    rw [hm]
    rfl
  · intro r hr'
    obtain ⟨i, hi', hir⟩ : ∃ i, i ∈ is ∧ embedding e.storage i = .ok r := by
      have : Res.ok r ∈ rows.map Res.ok := List.mem_map.mpr ⟨r, hr', rfl⟩
      rw [← hr1] at this
      obtain ⟨i, h1, h2⟩ := List.mem_map.mp this
      exact ⟨i, h1, h2⟩
    exact hr i r hir

end


/-! ## C73 -/

section
variable {F : Type} [Scalar F] {T S : Type} [Storage S F]

/-- C73, known words in word-only vocabularies: the vector is the row of the word; other words have none. -/
theorem c73_simple (e : Embeddings T SimpleVocab S F) (ws : List Str) (hv : SimpleVocab.new ws = .ok e.vocab) :
    (∀ (i : Nat) (w : Str), ws[i]? = some w → e.embedding w = (embedding e.storage i).map some) ∧
    ∀ w, w ∉ ws → e.embedding w = .ok none := by
  constructor
  · intro i w h
    unfold Embeddings.embedding
    rw [((c22_simple ws _ hv).2.2 i w).mpr h]
    simp only [Res.ok_bind]
    cases embedding e.storage i <;> rfl
  · intro w h
    unfold Embeddings.embedding
    rw [c25_simple ws _ hv w h]
    rfl

/-- C73, known words in subword vocabularies: the vector is the row of the word. -/
theorem c73_known {I : Type} [Indexer I] (e : Embeddings T (SubwordVocab I) S F) (ws : List Str) (m M : Nat) (ix : I)
    (bow eow : Str) (hv : SubwordVocab.newWithBoundaries ws m M ix bow eow = .ok e.vocab) (i : Nat) (w : Str)
    (h : ws[i]? = some w) : e.embedding w = (embedding e.storage i).map some := by
  unfold Embeddings.embedding
  rw [((c22_subword ws m M ix bow eow _ hv).2.2 i w).mpr h]
  simp only [Res.ok_bind]
  cases embedding e.storage i <;> rfl

/-- C73, unknown words in bucket vocabularies. -/
theorem c73_bucket (e : Embeddings T BucketSubwordVocab S F) (exp : Nat) (ix : HashIndexer)
    (hix : BucketIndexer.newBuckets exp = .ok ix) (ws : List Str) (m M : Nat) (bow eow : Str)
    (hv : SubwordVocab.newWithBoundaries ws m M ix bow eow = .ok e.vocab) (hm : 1 ≤ m) (hM : m ≤ M)
    (hb : BatchIsRows e.storage) (hr : RowsSized e.storage)
    (hs : e.dims = 1 → ∀ xs : List F, Scalar.sum xs = xs.foldl Scalar.add Scalar.zero)
    (ht : ∀ i, i < ws.length + 2 ^ exp → ∃ v, embedding e.storage i = .ok v) (w : Str) (hw : w ∉ ws) :
    ((bow ++ w ++ eow).length < m → e.embedding w = .ok none) ∧
    (m ≤ (bow ++ w ++ eow).length → ∃ u, e.embedding w = .ok (some u) ∧ IsSumVector e.storage
      (((NGramsSpec (bow ++ w ++ eow) m M).map (·.1)).map fun g => ws.length + HashSpec.ngramHash g % 2 ^ exp) u) := by
  obtain ⟨h1, h2⟩ := c25_bucket exp ix hix ws m M bow eow _ hv hm hM w hw
  have hh : ∀ g, bucketHash g % 2 ^ exp = HashSpec.ngramHash g % 2 ^ exp := by
    intro g
    have := (HashIndexer.answers hix (NGram.ofStr g)).symm.trans (c66_bucket exp ix hix g)
    simp only [Res.ok.injEq, List.cons.injEq, and_true] at this
    rw [← this]
    rfl
  constructor
  · intro h
    unfold Embeddings.embedding
    rw [h1 h]; rfl
  · intro h
    have h3 := h2 h
    simp only [hh] at h3
    refine embedding_subword e hb hr hs h3 ?_
    intro i hi
    obtain ⟨g, _, rfl⟩ := List.mem_map.mp hi
    exact ht _ (by have := Nat.mod_lt (HashSpec.ngramHash g) (Nat.two_pow_pos exp); omega)

/-- C73, unknown words in fastText vocabularies. -/
theorem c73_fasttext (e : Embeddings T FastTextSubwordVocab S F) (n : Nat) (ix : FastTextIndexer)
    (hix : BucketIndexer.newBuckets n = .ok ix) (h0 : 0 < n) (ws : List Str) (m M : Nat) (bow eow : Str)
    (hv : SubwordVocab.newWithBoundaries ws m M ix bow eow = .ok e.vocab) (hm : 1 ≤ m) (hM : m ≤ M)
    (hb : BatchIsRows e.storage) (hr : RowsSized e.storage)
    (hs : e.dims = 1 → ∀ xs : List F, Scalar.sum xs = xs.foldl Scalar.add Scalar.zero)
    (ht : ∀ i, i < ws.length + n → ∃ v, embedding e.storage i = .ok v) (w : Str) (hw : w ∉ ws) :
    ((bow ++ w ++ eow).length < m → e.embedding w = .ok none) ∧
    (m ≤ (bow ++ w ++ eow).length → ∃ u, e.embedding w = .ok (some u) ∧ IsSumVector e.storage
      (((NGramsSpec (bow ++ w ++ eow) m M).map (·.1)).map fun g => ws.length + HashSpec.fasttext g % n) u) := by
  obtain ⟨h1, h2⟩ := c25_fasttext n ix hix (by omega) ws m M bow eow _ hv hm hM w hw
  have hh : ∀ g, (fasttextHash g).toNat % n = HashSpec.fasttext g % n := by
    intro g
    have := (FastTextIndexer.answers hix (by omega) (NGram.ofStr g)).symm.trans (c66_fasttext n ix hix h0 g)
    simp only [Res.ok.injEq, List.cons.injEq, and_true] at this
    rw [← this]
    rfl
  constructor
  · intro h
    unfold Embeddings.embedding
    rw [h1 h]; rfl
  · intro h
    have h3 := h2 h
    simp only [hh] at h3
    refine embedding_subword e hb hr hs h3 ?_
    intro i hi
    obtain ⟨g, _, rfl⟩ := List.mem_map.mp hi
    exact ht _ (by have := Nat.mod_lt (HashSpec.fasttext g) h0; omega)

theorem floret_buckets (n k : Nat) (seed : UInt32) (ix : FloretIndexer) (hix : FloretIndexer.new n k seed = .ok ix)
    (g : Str) : Indexer.indexNgram ix (NGram.ofStr g) = .ok (HashSpec.floret n k seed.toNat g) := by
  have hlen : (utf8 g).length = ((utf8 g).map UInt8.toNat).length := by simp
  have hfl : utf8 g = (chunks ((utf8 g).length / 16) 16 ((utf8 g).take ((utf8 g).length / 16 * 16))).flatten ++
      (utf8 g).drop ((utf8 g).length / 16 * 16) := by
    rw [flatten_chunks (by rw [List.length_take]; omega), List.take_append_drop]
  have hch : ∀ (q : Nat) (l : Bytes), q * 16 ≤ l.length → (chunks q 16 (l.take (q * 16))).map (fun b => b.map UInt8.toNat) =
      chunks q 16 (l.map UInt8.toNat) := by
    intro q
    induction q with
    | zero => intro l _; rfl
    | succ q ih =>
      intro l hl
      simp only [chunks, List.map_cons]
      rw [← List.map_drop, ← ih (l.drop 16) (by simp; omega), List.drop_take, List.take_take, List.map_take,
        show (q + 1) * 16 - 16 = q * 16 by omega, show min 16 ((q + 1) * 16) = 16 by omega]
  obtain ⟨h1, h2, hm, hi⟩ := c66_floret n k seed ix hix g
    (chunks ((utf8 g).length / 16) 16 ((utf8 g).take ((utf8 g).length / 16 * 16)))
    (fun b hb => chunks_mem_length (by rw [List.length_take]; omega) hb)
    ((utf8 g).drop ((utf8 g).length / 16 * 16)) (by rw [List.length_drop]; omega) hfl
  rw [hi]
  unfold HashSpec.floret
  dsimp only
  rw [hch _ _ (by omega), List.map_drop] at hm
  rw [← hlen, ← hm]

/-- C73, unknown words in floret vocabularies: the bracketed word itself counts as an n-gram. -/
theorem c73_floret (e : Embeddings T FloretSubwordVocab S F) (n k : Nat) (seed : UInt32) (ix : FloretIndexer)
    (hix : FloretIndexer.new n k seed = .ok ix) (ws : List Str) (m M : Nat) (bow eow : Str)
    (hv : SubwordVocab.newWithBoundaries ws m M ix bow eow = .ok e.vocab) (hm : 1 ≤ m) (hM : m ≤ M)
    (hb : BatchIsRows e.storage) (hr : RowsSized e.storage)
    (hs : e.dims = 1 → ∀ xs : List F, Scalar.sum xs = xs.foldl Scalar.add Scalar.zero)
    (ht : ∀ i, i < ws.length + n → ∃ v, embedding e.storage i = .ok v) (w : Str) (hw : w ∉ ws) :
    ∃ u, e.embedding w = .ok (some u) ∧ IsSumVector e.storage
      (((bow ++ w ++ eow) :: (NGramsSpec (bow ++ w ++ eow) m M).map (·.1)).flatMap fun g =>
        (HashSpec.floret n k seed.toNat g).map (ws.length + ·)) u := by
  obtain ⟨is, h1, _, h3⟩ := c25_floret n k seed ix hix ws m M bow eow _ hv hm hM w hw
  have hn : 0 < n := by
    have := (FloretIndexer.new_eq_ok.mp hix).2.1
    omega
  have hh : ∀ g, ((hashArray (murmur3 (utf8 g) seed)).take k).map (fun h => ws.length + h % n) =
      (HashSpec.floret n k seed.toNat g).map (ws.length + ·) := by
    intro g
    have := (FloretIndexer.answers hix (NGram.ofStr g)).symm.trans (floret_buckets n k seed ix hix g)
    rw [Res.ok.injEq] at this
    rw [← this, List.map_map]
    rfl
  simp only [hh] at h3
  have h4 : is = (((bow ++ w ++ eow) :: (NGramsSpec (bow ++ w ++ eow) m M).map (·.1)).flatMap fun g =>
      (HashSpec.floret n k seed.toNat g).map (ws.length + ·)) := h3
  rw [← h4]
  refine embedding_subword e hb hr hs h1 ?_
  intro i hi
  rw [h3] at hi
  obtain ⟨g, _, hi⟩ := List.mem_flatMap.mp hi
  obtain ⟨x, hx, rfl⟩ := List.mem_map.mp hi
  unfold HashSpec.floret at hx
  obtain ⟨j, _, rfl⟩ := List.mem_map.mp hx
  exact ht _ (Nat.add_lt_add_left (Nat.mod_lt _ hn) _)

/-- C73, unknown words in explicit vocabularies made from a list of n-grams: the n-gram at position `i` of the list has
row `i` after the words; n-grams that are not in the list count nothing. -/
theorem c73_explicit (e : Embeddings T ExplicitSubwordVocab S F) (ngs : List Str) (ix : ExplicitIndexer)
    (hix : ExplicitIndexer.new ngs = .ok ix) (ws : List Str) (m M : Nat) (bow eow : Str)
    (hv : SubwordVocab.newWithBoundaries ws m M ix bow eow = .ok e.vocab) (hm : 1 ≤ m) (hM : m ≤ M)
    (hb : BatchIsRows e.storage) (hr : RowsSized e.storage)
    (hs : e.dims = 1 → ∀ xs : List F, Scalar.sum xs = xs.foldl Scalar.add Scalar.zero)
    (ht : ∀ i, i < ws.length + ngs.length → ∃ v, embedding e.storage i = .ok v) (w : Str) (hw : w ∉ ws)
    (gs : List Str) (hgs : gs = ((NGramsSpec (bow ++ w ++ eow) m M).map (·.1)).filter fun g => decide (g ∈ ngs)) :
    (gs = [] → e.embedding w = .ok none) ∧
    (gs ≠ [] → ∃ u, e.embedding w = .ok (some u) ∧
      IsSumVector e.storage (gs.map fun g => ws.length + ngs.idxOf g) u) := by
  obtain ⟨h1, h2⟩ := c25_explicit ix (.inl ⟨ngs, hix⟩) ws m M bow eow _ hv hm hM w hw
  obtain ⟨hnd, rfl⟩ := ExplicitIndexer.new_eq_ok.mp hix
  have hget : ∀ g, (indexMap ngs).get g = if g ∈ ngs then some (ngs.idxOf g) else none := by
    intro g
    split
    · next h =>
      rw [indexMap_get hnd, List.getElem?_eq_getElem (List.idxOf_lt_length_of_mem h), List.getElem_idxOf]
    · next h => exact (indexMap_get_none g).mpr h
  have hidx : ((NGramsSpec (bow ++ w ++ eow) m M).map (·.1)).filterMap
      (fun g => ((indexMap ngs).get g).map (ws.length + ·)) = gs.map fun g => ws.length + ngs.idxOf g := by
    rw [hgs]
    generalize (NGramsSpec (bow ++ w ++ eow) m M).map (·.1) = l
    induction l with
    | nil => rfl
    | cons g l ih =>
      rw [List.filterMap_cons, hget, List.filter_cons]
      by_cases h : g ∈ ngs
      · simp [h, ih]
      · simp [h, ih]
  have hmem : ∀ g, g ∈ gs ↔ g ∈ bracketedNGrams bow w eow m M ∧ g ∈ ngs := by
    intro g; rw [hgs, List.mem_filter, decide_eq_true_iff]; rfl
  constructor
  · intro h
    unfold Embeddings.embedding
    rw [h1 fun g hg hg' => by have := (hmem g).mpr ⟨hg, hg'⟩; rw [h] at this; cases this]
    rfl
  · intro h
    obtain ⟨g, hg⟩ := List.exists_mem_of_ne_nil gs h
    obtain ⟨is, _, h4, h5⟩ := h2 ⟨g, (hmem g).mp hg⟩
    have h6 : is = gs.map fun g => ws.length + ngs.idxOf g := by rw [h5]; exact hidx
    rw [← h6]
    refine embedding_subword e hb hr hs h4 ?_
    intro i hi
    rw [h6] at hi
    obtain ⟨g', hg', rfl⟩ := List.mem_map.mp hi
    exact ht _ (by have := List.idxOf_lt_length_of_mem ((hmem g').mp hg').2; omega)

/-- C73, unknown words in explicit vocabularies made from n-grams with indices (as when reading a file): n-gram `g` has
the row after the words that the returned renumbering (see C30) gives its index. -/
theorem c73_explicit_indices (e : Embeddings T ExplicitSubwordVocab S F) (t : List (Str × Nat)) (ix : ExplicitIndexer)
    (o2n : HMap Nat Nat) (hix : ExplicitIndexer.newWithIndices t = .ok (ix, o2n)) (ws : List Str) (m M : Nat)
    (bow eow : Str) (hv : SubwordVocab.newWithBoundaries ws m M ix bow eow = .ok e.vocab) (hm : 1 ≤ m) (hM : m ≤ M)
    (hb : BatchIsRows e.storage) (hr : RowsSized e.storage)
    (hs : e.dims = 1 → ∀ xs : List F, Scalar.sum xs = xs.foldl Scalar.add Scalar.zero)
    (ht : ∀ i, i < ws.length + ix.bound → ∃ v, embedding e.storage i = .ok v) (w : Str) (hw : w ∉ ws)
    (new : Nat → Nat) (hnew : ∀ i j, o2n.get i = some j → new i = j)
    (olds : List Nat) (holds : olds = ((NGramsSpec (bow ++ w ++ eow) m M).map (·.1)).filterMap fun g => t.lookup g) :
    (olds = [] → e.embedding w = .ok none) ∧
    (olds ≠ [] → ∃ u, e.embedding w = .ok (some u) ∧
      IsSumVector e.storage (olds.map fun i => ws.length + new i) u) := by
  obtain ⟨h1, h2⟩ := c25_explicit ix (.inr ⟨t, o2n, hix⟩) ws m M bow eow _ hv hm hM w hw
  obtain ⟨hng, hin, hout, _, _, hbound, _⟩ := c30_renumbering t ix o2n hix
  have hget : ∀ g, ix.index.get g = (t.lookup g).map new := by
    intro g
    cases hl : t.lookup g with
    | none =>
      have hn : g ∉ t.map (·.1) := by
        intro h
        obtain ⟨⟨g', i⟩, hm, rfl⟩ := List.mem_map.mp h
        have := List.lookup_eq_none_iff.mp hl _ hm
        simp at this
      have := hout g hn
      simp only [Indexer.indexNgram, NGram.ofStr, Res.ok.injEq] at this
      cases hg : ix.index.get g with
      | none => rfl
      | some j => rw [hg] at this; cases this
    | some i =>
      have hm : (g, i) ∈ t := by
        obtain ⟨l1, l2, h, _⟩ := List.lookup_eq_some_iff.mp hl
        rw [h]; simp
      obtain ⟨j, hj, h⟩ := hin g i hm
      simp only [Indexer.indexNgram, NGram.ofStr, Res.ok.injEq] at h
      cases hg : ix.index.get g with
      | none => rw [hg] at h; cases h
      | some j' =>
        rw [hg] at h
        cases h
        rw [Option.map_some, hnew i j hj]
  have hidx : ((NGramsSpec (bow ++ w ++ eow) m M).map (·.1)).filterMap
      (fun g => (ix.index.get g).map (ws.length + ·)) = olds.map fun i => ws.length + new i := by
    rw [holds, List.map_filterMap]
    congr 1
    funext g
    rw [hget, Option.map_map]
    rfl
  have hmem : ∀ g, g ∈ ix.ngrams ↔ ∃ i, t.lookup g = some i := by
    intro g
    rw [hng]
    constructor
    · intro h
      cases hl : t.lookup g with
      | some i => exact ⟨i, rfl⟩
      | none =>
        obtain ⟨⟨g', i⟩, hm, rfl⟩ := List.mem_map.mp h
        have := List.lookup_eq_none_iff.mp hl _ hm
        simp at this
    · rintro ⟨i, hl⟩
      obtain ⟨l1, l2, h, _⟩ := List.lookup_eq_some_iff.mp hl
      rw [h]; simp
  have hne : olds ≠ [] ↔ ∃ g ∈ bracketedNGrams bow w eow m M, g ∈ ix.ngrams := by
    rw [holds]
    constructor
    · intro h
      obtain ⟨i, hi⟩ := List.exists_mem_of_ne_nil _ h
      obtain ⟨g, hg, hl⟩ := List.mem_filterMap.mp hi
      exact ⟨g, hg, (hmem g).mpr ⟨i, hl⟩⟩
    · rintro ⟨g, hg, hg'⟩ h
      obtain ⟨i, hi⟩ := (hmem g).mp hg'
      have : i ∈ ([] : List Nat) := h ▸ List.mem_filterMap.mpr ⟨g, hg, hi⟩
      cases this
  constructor
  · intro h
    unfold Embeddings.embedding
    rw [h1 fun g hg hg' => hne.mpr ⟨g, hg, hg'⟩ h]
    rfl
  · intro h
    obtain ⟨is, _, h4, h5⟩ := h2 (hne.mp h)
    have h6 : is = olds.map fun i => ws.length + new i := by rw [h5]; exact hidx
    rw [← h6]
    refine embedding_subword e hb hr hs h4 ?_
    intro k hk
    rw [h6] at hk
    obtain ⟨i, hi, rfl⟩ := List.mem_map.mp hk
    rw [holds] at hi
    obtain ⟨g, _, hl⟩ := List.mem_filterMap.mp hi
    obtain ⟨l1, l2, hl', _⟩ := List.lookup_eq_some_iff.mp hl
    obtain ⟨j, hj, _⟩ := hin g i (by rw [hl']; simp)
    rw [hnew i j hj]
    exact ht _ (by have := (hbound j).mp ⟨i, hj⟩; omega)

end


/-! ## C74 -/

section
variable {F : Type} [Scalar F]

omit [Scalar F] in
/-- Specification: piece `s` of `x` is the centroid of sub-quantizer `s` that the code names. -/
def IsCentroids (q : Pq F) (code : List UInt8) (x : List F) : Prop :=
  x.length = q.quantizers.length * q.subDim ∧
  ∀ s k, s < q.quantizers.length → k < q.subDim → ∃ c m r y, code[s]? = some c ∧ q.quantizers[s]? = some m ∧
    m.rows[c.toNat]? = some r ∧ r[k]? = some y ∧ x[s * q.subDim + k]? = some y

/-- Specification: `v` is `x`, or the product of the projection matrix and `x` if there is one. -/
def IsProjected (p : Option (Mat F)) (x v : List F) : Prop :=
  (p = none → v = x) ∧
  ∀ m, p = some m → v.length = m.rows.length ∧ ∀ (j : Nat) (r : List F), m.rows[j]? = some r → v[j]? = some (Scalar.dot x r)

/-- Specification: `u` is `v`, multiplied by the norm if there is one. -/
def IsScaled (n : Option F) (v u : List F) : Prop :=
  (n = none → u = v) ∧
  ∀ y, n = some y → u.length = v.length ∧ ∀ (j : Nat) (x : F), v[j]? = some x → u[j]? = some (Scalar.mul x y)

omit [Scalar F] in
theorem centroids_spec {q : Pq F} (h : q.WF) {code : List UInt8} {x : List F} (hx : q.centroids code = .ok x) :
    IsCentroids q code x := by
  unfold Pq.centroids at hx
  obtain ⟨_, hlen, hu⟩ := Res.bind_eq_ok.mp hx
  obtain ⟨parts, hp, hu⟩ := Res.bind_eq_ok.mp hu
  cases hu
  have hcl : code.length = q.quantizers.length := by
    by_cases hc : code.length = q.quantizedLen
    · exact hc
    · simp [hc, Res.assert] at hlen
  have hpl := mapM_length hp
  rw [List.length_zip, hcl, Nat.min_self] at hpl
  have hsub : ∀ l ∈ parts, l.length = q.subDim := by
    intro l hl
    have h2 : Res.ok l ∈ (code.zip q.quantizers).map fun p => p.2.row p.1.toNat := by
      rw [mapM_eq_ok_iff.mp hp]; exact List.mem_map_of_mem hl
    obtain ⟨⟨x, m⟩, hxm, hl⟩ := List.mem_map.mp h2
    obtain ⟨hmw, hmc, _⟩ := h.shape m (List.of_mem_zip hxm).2
    rw [← hmc]
    exact hmw l (List.mem_of_getElem? (unwrap_eq_ok.mp hl))
  refine ⟨by rw [length_flatten_of hsub, hpl], fun s k hs hk => ?_⟩
  have hc : code[s]? = some code[s] := List.getElem?_eq_getElem _
  have hq : q.quantizers[s]? = some q.quantizers[s] := List.getElem?_eq_getElem _
  have hz : (code.zip q.quantizers)[s]? = some (code[s], q.quantizers[s]) := by
    rw [List.getElem?_zip_eq_some]; exact ⟨hc, hq⟩
  obtain ⟨r, hps, hr⟩ := mapM_get hp hz
  have hrow := unwrap_eq_ok.mp hr
  have hrl : r.length = q.subDim := hsub r (List.mem_of_getElem? hps)
  refine ⟨_, _, r, r[k], hc, hq, hrow, List.getElem?_eq_getElem (by omega), ?_⟩
  have hch := chunks_flatten parts q.subDim hsub []
  rw [List.append_nil] at hch
  have hg := getElem?_chunks (n := parts.length) (k := q.subDim) (xs := parts.flatten) (i := s) (by omega)
  rw [hch, hps, Option.some.injEq] at hg
  have : r[k]? = some r[k] := List.getElem?_eq_getElem (by omega)
  rw [← this, hg, List.getElem?_take, if_pos hk, List.getElem?_drop]

theorem project_spec (q : Pq F) (x : List F) : IsProjected q.projection x (q.project x) := by
  unfold Pq.project
  cases q.projection with
  | none => exact ⟨fun _ => rfl, fun m h => by cases h⟩
  | some p =>
    refine ⟨fun h => (by cases h), fun m h => ?_⟩
    cases h
    exact ⟨by simp, fun j r hr => by simp [hr]⟩

theorem scale_spec (v : List F) (n : F) : IsScaled (some n) v (scale v n) := by
  refine ⟨fun h => (by cases h), fun y h => ?_⟩
  cases h
  exact ⟨by simp [scale], fun j x hx => by simp [scale, hx]⟩

omit [Scalar F] in
theorem centroids_ok_iff {q : Pq F} (h : q.WF) {code : List UInt8} (hl : code.length = q.quantizers.length) :
    (∃ x, q.centroids code = .ok x) ↔ ∀ c ∈ code, c.toNat < q.nCentroids := by
  unfold Pq.centroids
  rw [show decide (code.length = q.quantizedLen) = true from decide_eq_true hl]
  simp only [Res.assert, if_true, Res.ok_bind]
  constructor
  · rintro ⟨x, hx⟩ c hc
    obtain ⟨parts, hp, _⟩ := Res.bind_eq_ok.mp hx
    obtain ⟨s, hs, rfl⟩ := List.mem_iff_getElem.mp hc
    have hq : s < q.quantizers.length := by omega
    have hz : (code.zip q.quantizers)[s]? = some (code[s], q.quantizers[s]) := by
      rw [List.getElem?_zip_eq_some]; exact ⟨List.getElem?_eq_getElem _, List.getElem?_eq_getElem _⟩
    obtain ⟨r, _, hr⟩ := mapM_get hp hz
    have hrow := unwrap_eq_ok.mp hr
    obtain ⟨_, _, hn⟩ := h.shape _ (List.getElem_mem hq)
    rw [← hn]
    exact (List.getElem?_eq_some_iff.mp hrow).1
  · intro hc
    have : ∃ parts, (code.zip q.quantizers).mapM (fun p => p.2.row p.1.toNat) = .ok parts := by
      have hall : ∀ p ∈ code.zip q.quantizers, ∃ r, p.2.row p.1.toNat = .ok r := by
        rintro ⟨c, m⟩ hp
        obtain ⟨hp1, hp2⟩ := List.of_mem_zip hp
        obtain ⟨_, _, hn⟩ := h.shape m hp2
        have : c.toNat < m.rows.length := by
          have := hc c hp1
          rw [← hn] at this
          exact this
        exact ⟨_, unwrap_eq_ok.mpr (List.getElem?_eq_getElem this)⟩
      generalize code.zip q.quantizers = l at hall
      induction l with
      | nil => exact ⟨[], rfl⟩
      | cons p l ih =>
        obtain ⟨r, hr⟩ := hall p (by simp)
        obtain ⟨rs, hrs⟩ := ih fun p' hp' => hall p' (by simp [hp'])
        exact ⟨r :: rs, by rw [List.mapM_cons, hr, Res.ok_bind, hrs]; rfl⟩
    obtain ⟨parts, hp⟩ := this
    exact ⟨parts.flatten, by rw [hp]; rfl⟩

/-- C74: which row lookups in a quantized storage succeed, and what they return. All others panic. -/
theorem c74_row (a : QuantizedArray F) (h : a.WF) (i : Nat) :
    ((∃ u, embedding a i = .ok u) ↔ ∃ code, a.codes.rows[i]? = some code ∧ ∀ c ∈ code, c.toNat < a.quantizer.nCentroids) ∧
    ((∀ u, embedding a i ≠ .ok u) → embedding a i = .panic) ∧
    ∀ u, embedding a i = .ok u → ∃ code x v, a.codes.rows[i]? = some code ∧ IsCentroids a.quantizer code x ∧
      IsProjected a.quantizer.projection x v ∧ IsScaled (a.norms.bind (·[i]?)) v u := by
  have hne : NoErr (embedding a i) := noErr_quantizedRow _ _ (fun i => noErr_row _ i) i
  refine ⟨?_, ?_, ?_⟩
  · show (∃ u, quantizedRow _ _ _ i = .ok u) ↔ _
    constructor
    · rintro ⟨u, hu⟩
      unfold quantizedRow at hu
      obtain ⟨code, hc, hu⟩ := Res.bind_eq_ok.mp hu
      obtain ⟨r, hr, hu⟩ := Res.bind_eq_ok.mp hu
      have hrow := unwrap_eq_ok.mp hc
      refine ⟨code, hrow, (centroids_ok_iff h.pq ?_).mp ?_⟩
      · rw [h.codes code (List.mem_of_getElem? hrow), h.cols]; rfl
      · obtain ⟨x, hx, _⟩ := map_eq_ok.mp hr
        exact ⟨x, hx⟩
    · rintro ⟨code, hrow, hc⟩
      obtain ⟨x, hx⟩ := (centroids_ok_iff h.pq (code := code) (by
        rw [h.codes code (List.mem_of_getElem? hrow), h.cols]; rfl)).mpr hc
      unfold quantizedRow
      rw [show a.codes.row i = .ok code from unwrap_eq_ok.mpr hrow]
      simp only [Res.ok_bind]
      rw [show a.quantizer.reconstruct code = .ok (a.quantizer.project x) from map_eq_ok.mpr ⟨x, hx, rfl⟩]
      simp only [Res.ok_bind]
      cases hn : a.norms with
      | none => exact ⟨_, rfl⟩
      | some ns =>
        have hl := h.norms ns hn
        have hi : i < ns.length := by
          rw [hl]; exact (List.getElem?_eq_some_iff.mp hrow).1
        dsimp only
        rw [List.getElem?_eq_getElem hi]
        exact ⟨_, rfl⟩
  · intro hno
    cases he : embedding a i with
    | ok u => exact absurd he (hno u)
    | err x => exact absurd he (hne x)
    | panic => rfl
  · intro u hu
    have hu : quantizedRow a.quantizer a.norms a.codes.row i = .ok u := hu
    unfold quantizedRow at hu
    obtain ⟨code, hc, hu⟩ := Res.bind_eq_ok.mp hu
    obtain ⟨r, hr, hu⟩ := Res.bind_eq_ok.mp hu
    obtain ⟨x, hx, rfl⟩ := map_eq_ok.mp hr
    refine ⟨code, x, _, unwrap_eq_ok.mp hc, centroids_spec h.pq hx, project_spec _ x, ?_⟩
    cases hn : a.norms with
    | none =>
      rw [hn] at hu
      cases hu
      exact ⟨fun _ => rfl, fun y h => by cases h⟩
    | some ns =>
      rw [hn] at hu
      obtain ⟨n, hn', hu⟩ := Res.bind_eq_ok.mp hu
      cases hu
      rw [show (some ns).bind (·[i]?) = some n from unwrap_eq_ok.mp hn']
      exact scale_spec _ n

end


/-! ## Examples -/

/-- A matrix with `n` rows of two components. -/
def exampleRows (n : Nat) : NdArray F32 := ⟨⟨2, (List.range n).map fun i => [UInt32.ofNat i, 1]⟩⟩

theorem exampleRows_ok (n : Nat) : RowsSized (exampleRows n) ∧ (exampleRows n).inner.nrows = n ∧
    ∀ i, i < n → ∃ v, embedding (exampleRows n) i = .ok v := by
  refine ⟨?_, by simp [exampleRows, Mat.nrows], fun i hi => ?_⟩
  · intro i v hv
    have hv : Res.unwrap (exampleRows n).inner.rows[i]? = .ok v := hv
    have := List.mem_of_getElem? (unwrap_eq_ok.mp hv)
    obtain ⟨j, _, rfl⟩ := List.mem_map.mp this
    rfl
  · refine ⟨[UInt32.ofNat i, 1], ?_⟩
    show Res.unwrap (exampleRows n).inner.rows[i]? = _
    rw [unwrap_eq_ok]
    simp [exampleRows, hi]

attribute [local instance] exampleScalar in
/-- The hypotheses of `c73_bucket`, `c73_fasttext`, `c73_floret`, `c73_explicit` and `c73_explicit_indices` hold for
concrete embeddings with two dimensions, with known and unknown words. -/
example : ∃ (ix : HashIndexer) (v : BucketSubwordVocab) (s : NdArray F32), BucketIndexer.newBuckets 2 = .ok ix ∧
    SubwordVocab.newWithBoundaries [['a'], ['b']] 2 3 ix ['<'] ['>'] = .ok v ∧ BatchIsRows s ∧ RowsSized s ∧
    (∀ i, i < 2 + 2 ^ 2 → ∃ v, embedding s i = .ok v) ∧ ['c', 'd'] ∉ [['a'], ['b']] ∧
    2 ≤ (['<'] ++ ['c', 'd'] ++ ['>']).length :=
  ⟨_, _, exampleRows 6, rfl, rfl, c47_array _, (exampleRows_ok 6).1, (exampleRows_ok 6).2.2, by decide, by decide⟩

attribute [local instance] exampleScalar in
/-- `c73_simple` and `c73_known` applied to two words. -/
example := c73_simple (⟨none, exampleRows 2, ⟨indexMap [['a'], ['b']], [['a'], ['b']]⟩, none⟩ :
  Embeddings Str SimpleVocab (NdArray F32) F32) [['a'], ['b']] rfl
attribute [local instance] exampleScalar in
example := c73_known (⟨none, exampleRows 6, ⟨['<'], ['>'], ⟨2, 3⟩, indexMap [['a'], ['b']], [['a'], ['b']], 2, 3⟩, none⟩ :
  Embeddings Str BucketSubwordVocab (NdArray F32) F32) [['a'], ['b']] 2 3 (⟨2, 3⟩ : HashIndexer) ['<'] ['>'] rfl 1 ['b'] rfl

example : ∃ (ix : FastTextIndexer) (v : FastTextSubwordVocab), BucketIndexer.newBuckets 4 = .ok ix ∧
    SubwordVocab.newWithBoundaries [['a'], ['b']] 2 3 ix ['<'] ['>'] = .ok v := ⟨_, _, rfl, rfl⟩
example : ∃ (ix : FloretIndexer) (v : FloretSubwordVocab), FloretIndexer.new 4 2 7 = .ok ix ∧
    SubwordVocab.newWithBoundaries [] 2 3 ix ['<'] ['>'] = .ok v := ⟨_, _, rfl, rfl⟩
example : ∃ (ix : ExplicitIndexer) (v : ExplicitSubwordVocab), ExplicitIndexer.new [['<', 'c'], ['x']] = .ok ix ∧
    SubwordVocab.newWithBoundaries [['a'], ['b']] 2 3 ix ['<'] ['>'] = .ok v ∧
    ((NGramsSpec (['<'] ++ ['c', 'd'] ++ ['>']) 2 3).map (·.1)).filter (fun g => decide (g ∈ [['<', 'c'], ['x']])) =
      [['<', 'c']] := ⟨_, _, rfl, rfl, by decide⟩
example : ∃ (ix : ExplicitIndexer) (o2n : HMap Nat Nat) (v : ExplicitSubwordVocab),
    ExplicitIndexer.newWithIndices [(['<', 'c'], 7), (['c', 'd'], 3), (['d', '>'], 7)] = .ok (ix, o2n) ∧
    o2n.get 7 = some 0 ∧ o2n.get 3 = some 1 ∧ ix.bound = 2 ∧
    SubwordVocab.newWithBoundaries [['a'], ['b']] 2 3 ix ['<'] ['>'] = .ok v ∧
    ((NGramsSpec (['<'] ++ ['c', 'd'] ++ ['>']) 2 3).map (·.1)).filterMap
      (fun g => [(['<', 'c'], 7), (['c', 'd'], 3), (['d', '>'], 7)].lookup g) = [7, 3, 7] :=
  ⟨_, _, _, rfl, rfl, rfl, rfl, rfl, by decide⟩

/-- The hypotheses of `c74_row` hold for a concrete array with projection and norms. -/
example : exampleQuantized.WF ∧ exampleQuantized.quantizer.projection ≠ none ∧ exampleQuantized.norms ≠ none ∧
    ∃ code, exampleQuantized.codes.rows[0]? = some code ∧ ∀ c ∈ code, c.toNat < exampleQuantized.quantizer.nCentroids :=
  ⟨exampleQuantized_wf, by decide, by decide, _, rfl, by decide⟩

end FF
