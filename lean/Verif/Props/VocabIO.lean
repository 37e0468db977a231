import Verif.Lemmas.Explicit

/-!
# Properties of the header and of vocabulary chunks (C01, C04, C07, C08, C09, C10)
-/

namespace FF

open Rd

/-- Specification of a chunk round trip: written at any position and read from there, with any bytes
before and after, the value comes back and the reader stops exactly after the chunk. -/
def RoundTrips {X : Type} [WriteChunk X] [ReadChunk X] (x : X) : Prop :=
  ∀ pre post : Bytes,
    (writeChunk x pre.length).status = .ok () ∧
    readChunk (pre ++ (writeChunk x pre.length).bytes ++ post) pre.length =
      .ok (x, pre.length + (writeChunk x pre.length).bytes.length)

/-- Specification of chunk lengths: at every offset, `chunk_len` is the number of bytes written, and the
eight bytes after the chunk identifier hold the number of bytes that follow them. -/
def LenCorrect {X : Type} [WriteChunk X] (x : X) : Prop :=
  ∀ off, (writeChunk x off).status = .ok () ∧
    (writeChunk x off).bytes.length = chunkLen x off ∧
    12 ≤ (writeChunk x off).bytes.length ∧
    ((writeChunk x off).bytes.length < 2 ^ 64 →
      leVal (((writeChunk x off).bytes.drop 4).take 8) = ((writeChunk x off).bytes.drop 12).length)

theorem RoundTrips.of_readsAt {X : Type} [WriteChunk X] [ReadChunk X] {x : X}
    (hg : ∀ off, (writeChunk x off).Good) (h : ∀ off, ReadsAt readChunk off (writeChunk x off).bytes x) :
    RoundTrips x := by
  intro pre post
  refine ⟨hg _, ?_⟩
  rw [List.append_assoc]
  exact h pre.length pre post rfl

/-- The length field of a chunk that starts with an identifier and a length. -/
theorem lenField {id len : Nat} {rest : Bytes} (hlen : 12 + rest.length = len) (h : len < 2 ^ 64) :
    leVal (((leBytes 4 id ++ (leBytes 8 (len - 12) ++ rest)).drop 4).take 8) =
      ((leBytes 4 id ++ (leBytes 8 (len - 12) ++ rest)).drop 12).length := by
  have h4 : (leBytes 4 id).length = 4 := leBytes_length _ _
  have h8 : (leBytes 8 (len - 12)).length = 8 := leBytes_length _ _
  rw [List.drop_left' h4, List.take_left' h8, leVal_leBytes_of_lt (by omega)]
  simp; omega

/-! ## C01 -/

/-- C01: header round trip, for identifiers other than that of the header itself. -/
theorem c01_header (ids : List ChunkId) (h : ∀ i ∈ ids, i ≠ .header) (hl : ids.length < 2 ^ 32) :
    RoundTrips (Header.mk ids) :=
  .of_readsAt (fun _ => Header.write_good _) fun off => Header.read_readsAt ⟨ids⟩ off h hl

example : ∀ i ∈ [ChunkId.metadata, .simpleVocab, .ndArray], i ≠ .header := by decide

/-- C01, the excluded identifier: a header that lists the header identifier can be written but not
read back. -/
theorem c01_header_id_refused (ids : List ChunkId) (post : Bytes) (hl : ids.length < 2 ^ 31) :
    Header.read ((Header.mk (.header :: ids)).write.bytes ++ post) 0 = .err .unknownChunk := by
  rw [Header.write_bytes]
  unfold Header.read
  have h1 := ReadsAt.readExact 0 magic [] ((leBytes 4 modelVersion ++ (leBytes 4 (ids.length + 1) ++
    (leBytes 4 0 ++ ids.flatMap fun i => leBytes 4 i.code))) ++ post) rfl
  have h2 := ReadsAt.readU32 (off := 4) (v := modelVersion) (by decide) magic
    ((leBytes 4 (ids.length + 1) ++ (leBytes 4 0 ++ ids.flatMap fun i => leBytes 4 i.code)) ++ post) rfl
  have h3 := ReadsAt.readU32 (off := 8) (v := ids.length + 1) (by omega) (magic ++ leBytes 4 modelVersion)
    ((leBytes 4 0 ++ ids.flatMap fun i => leBytes 4 i.code) ++ post) (by simp [magic])
  have h4 := ReadsAt.readU32 (off := 12) (v := 0) (by decide)
    (magic ++ leBytes 4 modelVersion ++ leBytes 4 (ids.length + 1))
    ((ids.flatMap fun i => leBytes 4 i.code) ++ post) (by simp [magic])
  simp only [List.append_assoc, List.nil_append, leBytes_length, Nat.zero_add, List.length_cons,
    List.flatMap_cons, ChunkId.code] at *
  have hm : magic.length = 4 := rfl
  rw [hm] at h1
  rw [bind_apply, h1]
  simp only [Res.ok_bind, ne_eq, not_true_eq_false, if_false]
  rw [bind_apply, h2]
  simp only [Res.ok_bind, ne_eq, not_true_eq_false, if_false]
  rw [bind_apply, h3]
  have ha : 4 * (ids.length + 1) ≤ isizeMax := by unfold isizeMax; omega
  simp only [Res.ok_bind, bind_apply, Rd.alloc, ha, decide_true, Res.assert, if_true, lift_ok_apply,
    Rd.replicateM, readChunkId, h4]
  rfl

/-- A header with three chunks, and one that lists itself: hypotheses of `c01_header` and
`c01_header_id_refused`. -/
example := c01_header [.metadata, .simpleVocab, .ndArray] (by decide) (by decide)
example := c01_header_id_refused [.simpleVocab, .ndArray] [1, 2, 3] (by decide)

example : [ChunkId.simpleVocab].length < 2 ^ 31 := by decide

/-! ## C07 -/

/-- C07: simple vocabulary round trip. `hl` holds for every list of words that fits in memory. -/
theorem c07_simple (ws : List Str) (v : SimpleVocab) (hv : SimpleVocab.new ws = .ok v)
    (h : ∀ w ∈ ws, strLen w < 2 ^ 32) (hl : 24 * ws.length ≤ isizeMax) : RoundTrips v :=
  .of_readsAt (fun _ => v.write_good) fun off => SimpleVocab.read_readsAt hv off h hl

/-- Words with one, six and no bytes: hypotheses of `c07_simple`. -/
example := c07_simple [['a'], ['b', 'é', '語'], []] _ rfl (by decide) (by decide)

example : ∃ v, SimpleVocab.new [['a'], ['b', 'é', '語'], []] = .ok v ∧
    (∀ w ∈ [['a'], ['b', 'é', '語'], []], strLen w < 2 ^ 32) := ⟨_, rfl, by decide⟩

/-! ## C08 -/

/-- C08 (part): bucket-hash vocabularies with the default boundary markers. Missing: other markers are
not stored (`c08_markers_lost`). -/
theorem c08_bucket_partial (e : Nat) (ix : HashIndexer) (hix : HashIndexer.new e = .ok ix)
    (ws : List Str) (m M : Nat) (v : BucketSubwordVocab) (hv : SubwordVocab.new ws m M ix = .ok v)
    (h : ∀ w ∈ ws, strLen w < 2 ^ 32) (hl : 24 * ws.length ≤ isizeMax)
    (hm : m < 2 ^ 32) (hM : M < 2 ^ 32) : RoundTrips v := by
  have he : e ≤ 64 := by
    unfold HashIndexer.new at hix
    by_cases he : e ≤ 64
    · exact he
    · simp [Res.assert, he] at hix
  have hb : BucketIndexer.buckets ix = e := by
    unfold HashIndexer.new at hix
    simp [Res.assert, he] at hix
    rw [← hix]; rfl
  exact .of_readsAt (fun _ => writeBucketed_good _ _)
    fun off => readBucketed_readsAt (by simp) hix hb hv off h hl hm hM (by omega)

/-- C08 (part): fastText vocabularies with the default boundary markers. -/
theorem c08_fasttext_partial (b : Nat) (ix : FastTextIndexer) (hix : FastTextIndexer.new b = .ok ix)
    (ws : List Str) (m M : Nat) (v : FastTextSubwordVocab) (hv : SubwordVocab.new ws m M ix = .ok v)
    (h : ∀ w ∈ ws, strLen w < 2 ^ 32) (hl : 24 * ws.length ≤ isizeMax)
    (hm : m < 2 ^ 32) (hM : M < 2 ^ 32) : RoundTrips v := by
  have hb' : b ≤ 2 ^ 31 - 1 := by
    unfold FastTextIndexer.new at hix
    by_cases he : b ≤ 2 ^ 31 - 1
    · exact he
    · simp [Res.assert, he] at hix
  have hb : BucketIndexer.buckets ix = b := by
    unfold FastTextIndexer.new at hix
    simp [Res.assert, hb'] at hix
    rw [← hix]
    show (UInt32.ofNat b).toNat = b
    rw [UInt32.toNat_ofNat']
    exact Nat.mod_eq_of_lt (by omega)
  exact .of_readsAt (fun _ => writeBucketed_good _ _)
    fun off => readBucketed_readsAt (by simp) hix hb hv off h hl hm hM (by omega)

/-- Two words, one of them not ASCII: hypotheses of `c08_bucket_partial` and `c08_fasttext_partial`. -/
example := c08_bucket_partial 21 _ rfl [['a'], ['é']] 3 6 _ rfl (by decide) (by decide) (by decide) (by decide)
example := c08_fasttext_partial 2000000 _ rfl [['a'], ['é']] 3 6 _ rfl (by decide) (by decide) (by decide)
  (by decide)

example : ∃ ix v, HashIndexer.new 21 = .ok ix ∧ SubwordVocab.new [['a'], ['é']] 3 6 ix = .ok v :=
  ⟨_, _, rfl, rfl⟩
example : ∃ ix v, FastTextIndexer.new 2000000 = .ok ix ∧ SubwordVocab.new [['a'], ['é']] 3 6 ix = .ok v :=
  ⟨_, _, rfl, rfl⟩

/-- C08 fails for vocabularies built with other boundary markers: the chunk does not store them, and
the vocabulary that is read has the default ones. -/
theorem c08_markers_lost :
    ¬ ∀ (e : Nat) (ix : HashIndexer) (ws : List Str) (m M : Nat) (bow eow : Str) (v : BucketSubwordVocab),
      HashIndexer.new e = .ok ix → SubwordVocab.newWithBoundaries ws m M ix bow eow = .ok v →
      RoundTrips v := by
  intro h
  have h1 := h 1 ⟨1, 1⟩ [['a']] 3 6 ['^'] ['$'] _ rfl rfl [] []
  have h2 := congrArg (fun r : Res (BucketSubwordVocab × Nat) => r.map fun p => p.1.bow) h1.2
  revert h2; decide +kernel

/-! ## C09 -/

/-- C09 (part): explicit n-gram vocabularies with the default boundary markers, with an indexer from
either constructor. Missing: other markers are not stored (`c09_markers_lost`). -/
theorem c09_explicit_partial (ix : ExplicitIndexer)
    (hix : (∃ ng, ExplicitIndexer.new ng = .ok ix) ∨
      ∃ t o2n, ExplicitIndexer.newWithIndices t = .ok (ix, o2n))
    (ws : List Str) (m M : Nat) (v : ExplicitSubwordVocab) (hv : SubwordVocab.new ws m M ix = .ok v)
    (h : ∀ w ∈ ws, strLen w < 2 ^ 32) (hl : 24 * ws.length ≤ isizeMax)
    (hg : ∀ g ∈ ix.ngrams, strLen g < 2 ^ 32) (hgl : 32 * ix.ngrams.length ≤ isizeMax)
    (hm : m < 2 ^ 32) (hM : M < 2 ^ 32) : RoundTrips v := by
  have hb : ix.Built := by
    rcases hix with ⟨ng, h⟩ | h
    · exact ExplicitIndexer.new_built h
    · exact h
  have e4 : v.indexer = ix := by rw [(SubwordVocab.newWithBoundaries_eq_ok.mp hv).2.2]
  exact .of_readsAt (fun _ => writeExplicit_good (e4 ▸ hb))
    fun off => readExplicit_readsAt hb hv off h hl hg hgl hm hM

/-- Three n-grams of which two share an index: hypotheses of `c09_explicit_partial`. -/
example := c09_explicit_partial _ (.inr ⟨[(['a', 'b'], 9), (['c'], 4), (['d'], 9)], _, rfl⟩) [['a'], ['é']] 1 2 _
  rfl (by decide) (by decide) (by decide) (by decide) (by decide) (by decide)

example : ∃ ix o2n v, ExplicitIndexer.newWithIndices [(['a', 'b'], 9), (['c'], 4), (['d'], 9)] = .ok (ix, o2n) ∧
    SubwordVocab.new [['a'], ['é']] 1 2 ix = .ok v ∧ ∀ g ∈ ix.ngrams, strLen g < 2 ^ 32 :=
  ⟨_, _, _, rfl, rfl, by decide⟩

/-- C09 fails for vocabularies built with other boundary markers. -/
theorem c09_markers_lost :
    ¬ ∀ (ng : List Str) (ix : ExplicitIndexer) (ws : List Str) (m M : Nat) (bow eow : Str)
      (v : ExplicitSubwordVocab),
      ExplicitIndexer.new ng = .ok ix → SubwordVocab.newWithBoundaries ws m M ix bow eow = .ok v →
      RoundTrips v := by
  intro h
  have h1 := h [['b']] _ [['a']] 3 6 ['^'] ['$'] _ rfl rfl [] []
  have h2 := congrArg (fun r : Res (ExplicitSubwordVocab × Nat) => r.map fun p => p.1.bow) h1.2
  revert h2; decide +kernel

/-! ## C10 -/

/-- C10 (part): floret vocabularies without words (the only ones the crate's readers produce), with any
boundary markers. Missing: words are not stored (`c10_words_lost`). -/
theorem c10_floret_partial (nb nh : Nat) (seed : UInt32) (ix : FloretIndexer)
    (hix : FloretIndexer.new nb nh seed = .ok ix) (m M : Nat) (bow eow : Str) (v : FloretSubwordVocab)
    (hv : SubwordVocab.newWithBoundaries [] m M ix bow eow = .ok v)
    (h1 : strLen bow < 2 ^ 32) (h2 : strLen eow < 2 ^ 32)
    (hm : m < 2 ^ 32) (hM : M < 2 ^ 32) : RoundTrips v := by
  have hb : nb < 2 ^ 64 := by
    obtain ⟨_, ⟨ub, hub, hle⟩, _⟩ := SubwordVocab.newWithBoundaries_eq_ok.mp hv
    obtain ⟨_, _, rfl⟩ := FloretIndexer.new_eq_ok.mp hix
    simp [Indexer.upperBound, usizeMax] at hub hle
    omega
  exact .of_readsAt (fun _ => writeFloret_good _)
    fun off => readFloret_readsAt hix hv off h1 h2 hm hM hb

/-- A closing boundary with two characters: hypotheses of `c10_floret_partial`. -/
example := c10_floret_partial 50000 2 2166136261 _ rfl 4 5 ['<'] ['>', '語'] _ rfl (by decide) (by decide)
  (by decide) (by decide)

example : ∃ ix v, FloretIndexer.new 50000 2 2166136261 = .ok ix ∧
    SubwordVocab.newWithBoundaries [] 4 5 ix ['<'] ['>', '語'] = .ok v := ⟨_, _, rfl, rfl⟩

/-- C10 fails for floret vocabularies with words: the chunk does not store them. -/
theorem c10_words_lost :
    ¬ ∀ (nb nh : Nat) (seed : UInt32) (ix : FloretIndexer) (ws : List Str) (m M : Nat) (bow eow : Str)
      (v : FloretSubwordVocab), FloretIndexer.new nb nh seed = .ok ix →
      SubwordVocab.newWithBoundaries ws m M ix bow eow = .ok v → RoundTrips v := by
  intro h
  have h1 := h 10 1 0 _ [['a']] 3 6 ['<'] ['>'] _ rfl rfl [] []
  have h2 := congrArg (fun r : Res (FloretSubwordVocab × Nat) => r.map fun p => p.1.words) h1.2
  revert h2; decide +kernel

/-! ## C04 -/

theorem c04_simple (v : SimpleVocab) : LenCorrect v := by
  intro off
  have hs : v.write.bytes.length = v.len := v.write_size
  have h12 : 12 ≤ v.len := by unfold SimpleVocab.len; omega
  refine ⟨v.write_good, hs, by show 12 ≤ v.write.bytes.length; omega, fun h => ?_⟩
  show leVal ((v.write.bytes.drop 4).take 8) = (v.write.bytes.drop 12).length
  have h' : v.write.bytes.length < 2 ^ 64 := h
  have hb := SimpleVocab.write_bytes v
  have hs' := hs
  rw [hb] at hs' ⊢
  refine lenField ?_ (by omega)
  rw [← hs']; simp only [List.length_append, leBytes_length]; omega

theorem writeBucketed_lenCorrect {I : Type} [BucketIndexer I] (v : SubwordVocab I) (id : ChunkId) :
    (writeBucketed v id).status = .ok () ∧ (writeBucketed v id).bytes.length = bucketedLen v ∧
    12 ≤ (writeBucketed v id).bytes.length ∧
    ((writeBucketed v id).bytes.length < 2 ^ 64 →
      leVal (((writeBucketed v id).bytes.drop 4).take 8) = ((writeBucketed v id).bytes.drop 12).length) := by
  have hs : (writeBucketed v id).bytes.length = bucketedLen v := writeBucketed_size v id
  have h12 : 12 ≤ bucketedLen v := by unfold bucketedLen; omega
  refine ⟨writeBucketed_good v id, hs, by omega, fun h => ?_⟩
  have hb := writeBucketed_bytes v id
  have hs' := hs
  rw [hb] at hs' ⊢
  refine lenField ?_ (by omega)
  rw [← hs']; simp only [List.length_append, leBytes_length]; omega

theorem c04_bucket (v : BucketSubwordVocab) : LenCorrect v := fun _ => writeBucketed_lenCorrect v _

theorem c04_fasttext (v : FastTextSubwordVocab) : LenCorrect v := fun _ => writeBucketed_lenCorrect v _

theorem c04_explicit (v : ExplicitSubwordVocab)
    (hix : (∃ ng, ExplicitIndexer.new ng = .ok v.indexer) ∨
      ∃ t o2n, ExplicitIndexer.newWithIndices t = .ok (v.indexer, o2n)) : LenCorrect v := by
  have hbu : v.indexer.Built := by
    rcases hix with ⟨ng, h⟩ | h
    · exact ExplicitIndexer.new_built h
    · exact h
  intro off
  have hs : (writeExplicit v).bytes.length = explicitLen v := writeExplicit_size hbu
  have h12 : 12 ≤ explicitLen v := by unfold explicitLen; omega
  refine ⟨writeExplicit_good hbu, hs, by show 12 ≤ (writeExplicit v).bytes.length; omega, fun h => ?_⟩
  show leVal (((writeExplicit v).bytes.drop 4).take 8) = ((writeExplicit v).bytes.drop 12).length
  have h' : (writeExplicit v).bytes.length < 2 ^ 64 := h
  have hb := writeExplicit_bytes hbu
  have hs' := hs
  rw [hb] at hs' ⊢
  refine lenField ?_ (by omega)
  rw [← hs']; simp only [List.length_append, leBytes_length]; omega

/-- One word and two n-grams: hypotheses of `c04_explicit`. -/
example (ix : ExplicitIndexer) (h : ExplicitIndexer.new [['a', 'b'], ['c']] = .ok ix) :=
  c04_explicit ⟨['<'], ['>'], ix, indexMap [['x']], [['x']], 1, 2⟩ (.inl ⟨_, h⟩)

example : ∃ ix, ExplicitIndexer.new [['a', 'b'], ['c']] = .ok ix ∧
    (⟨['<'], ['>'], ix, indexMap [['x']], [['x']], 1, 2⟩ : ExplicitSubwordVocab).indexer = ix := ⟨_, rfl, rfl⟩

theorem c04_floret (v : FloretSubwordVocab) : LenCorrect v := by
  intro off
  have hs : (writeFloret v).bytes.length = floretLen v := writeFloret_size v
  have h12 : 12 ≤ floretLen v := by unfold floretLen; omega
  refine ⟨writeFloret_good v, hs, by show 12 ≤ (writeFloret v).bytes.length; omega, fun h => ?_⟩
  show leVal (((writeFloret v).bytes.drop 4).take 8) = ((writeFloret v).bytes.drop 12).length
  have h' : (writeFloret v).bytes.length < 2 ^ 64 := h
  have hb := writeFloret_bytes v
  have hs' := hs
  rw [hb] at hs' ⊢
  refine lenField ?_ (by omega)
  rw [← hs']; simp only [List.length_append, leBytes_length]; omega

end FF
