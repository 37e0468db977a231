import Verif.Props.EmbeddingsIO

/-!
# C65: the byte layout of finalfusion files

The round-trip theorems would also hold for a reader and a writer that agree on another format. The theorems of this
file say which bytes are written, with the numbers of the published format.
-/

namespace FF

open Rd Embeddings

/-! ## Specification -/

namespace Layout

/-- The 32-bit little-endian encoding of `n` (cut to 32 bits). -/
def le32 (n : Nat) : Bytes :=
  [UInt8.ofNat n, UInt8.ofNat (n / 256), UInt8.ofNat (n / 65536), UInt8.ofNat (n / 16777216)]

/-- The 64-bit little-endian encoding of `n` (cut to 64 bits). -/
def le64 (n : Nat) : Bytes := le32 n ++ le32 (n / 4294967296)

/-- A chunk: identifier, length of the contents in bytes, contents. -/
def chunk (id : Nat) (contents : Bytes) : Bytes := le32 id ++ le64 contents.length ++ contents

/-- A string: length of the UTF-8 encoding and the encoding. -/
def string (s : Str) : Bytes := le32 (utf8 s).length ++ utf8 s

/-- Single precision floats. -/
def floats (xs : List F32) : Bytes := xs.flatMap fun x => le32 x.toNat

/-- Between one and four zeros that bring the position `pos` to a multiple of four. -/
def IsPad (pos : Nat) (pad : Bytes) : Prop :=
  (∀ b ∈ pad, b = 0) ∧ 1 ≤ pad.length ∧ pad.length ≤ 4 ∧ (pos + pad.length) % 4 = 0

end Layout

open Layout

theorem ofNat_mod256 (n : Nat) : UInt8.ofNat (n % 256) = UInt8.ofNat n := by
  apply UInt8.toNat.inj
  simp [UInt8.toNat_ofNat']

theorem leBytes4_eq (n : Nat) : leBytes 4 n = le32 n := by
  simp only [leBytes, le32, Nat.div_div_eq_div_mul, ofNat_mod256, Nat.reduceMul]

theorem leBytes8_eq (n : Nat) : leBytes 8 n = le64 n := by
  simp only [leBytes, le64, le32, Nat.div_div_eq_div_mul, ofNat_mod256, Nat.reduceMul, List.cons_append, List.nil_append]

@[simp] theorem le32_length (n : Nat) : (le32 n).length = 4 := rfl
@[simp] theorem le64_length (n : Nat) : (le64 n).length = 8 := rfl

theorem chunk_length (id : Nat) (c : Bytes) : (chunk id c).length = 12 + c.length := by
  simp [chunk]; omega

theorem encodeF32s_eq (xs : List F32) : encodeF32s xs = floats xs := by
  unfold encodeF32s floats
  congr 1; funext x; exact leBytes4_eq _

/-- A writer that writes identifier, a length and the contents, and in all as many bytes as the length says, writes
a chunk. -/
theorem chunk_of {bs c : Bytes} {id l : Nat} (h : bs = leBytes 4 id ++ (leBytes 8 (l - 12) ++ c))
    (hl : bs.length = l) : bs = chunk id c := by
  have : l - 12 = c.length := by
    rw [← hl, h]; simp; omega
  rw [h, this, leBytes4_eq, leBytes8_eq, chunk, List.append_assoc]

/-! ## Vocabularies -/

/-- C65, header: the letters `FiFu`, version 0, the number of chunks and their identifiers. -/
theorem c65_header (h : Header) : h.write.Good ∧ h.write.bytes = [0x46, 0x69, 0x46, 0x75] ++ le32 0 ++
    le32 h.ids.length ++ h.ids.flatMap fun i => le32 (match i with
      | .header => 0 | .simpleVocab => 1 | .ndArray => 2 | .bucketSubwordVocab => 3 | .quantizedArray => 4
      | .metadata => 5 | .ndNorms => 6 | .fastTextSubwordVocab => 7 | .explicitSubwordVocab => 8
      | .floretSubwordVocab => 9) := by
  refine ⟨Header.write_good h, ?_⟩
  rw [Header.write_bytes]
  simp only [leBytes4_eq, List.append_assoc]
  refine congrArg (magic ++ ·) (congrArg (le32 0 ++ ·) (congrArg (le32 h.ids.length ++ ·) ?_))
  refine congrArg (fun f => h.ids.flatMap f) (funext fun i => ?_)
  cases i <;> rfl

theorem items_eq (l : List Str) : (l.flatMap fun s => leBytes 4 (strLen s) ++ utf8 s) = l.flatMap string := by
  simp only [leBytes4_eq]; rfl

/-- C65, simple vocabularies: chunk 1 with the number of words and the words. -/
theorem c65_simple (v : SimpleVocab) (off : Nat) : (writeChunk v off).Good ∧
    (writeChunk v off).bytes = chunk 1 (le64 v.words.length ++ v.words.flatMap string) := by
  refine ⟨SimpleVocab.write_good v, ?_⟩
  refine chunk_of (l := v.len) ?_ (SimpleVocab.write_size v)
  rw [← leBytes8_eq, ← items_eq]
  exact SimpleVocab.write_bytes v

/-- C65, bucket vocabularies: chunk 3 with the number of words, the n-gram lengths, the exponent and the words. -/
theorem c65_bucket (v : BucketSubwordVocab) (off : Nat) : (writeChunk v off).Good ∧
    (writeChunk v off).bytes = chunk 3 (le64 v.words.length ++ (le32 v.minN ++ (le32 v.maxN ++
      (le32 v.indexer.bucketsExp ++ v.words.flatMap string)))) := by
  refine ⟨writeBucketed_good v _, ?_⟩
  refine chunk_of (l := bucketedLen v) ?_ (writeBucketed_size v _)
  simp only [← leBytes8_eq, ← leBytes4_eq, ← items_eq]
  exact writeBucketed_bytes v _

/-- C65, fastText vocabularies: chunk 7 with the number of words, the n-gram lengths, the number of buckets and the
words. -/
theorem c65_fasttext (v : FastTextSubwordVocab) (off : Nat) : (writeChunk v off).Good ∧
    (writeChunk v off).bytes = chunk 7 (le64 v.words.length ++ (le32 v.minN ++ (le32 v.maxN ++
      (le32 v.indexer.buckets.toNat ++ v.words.flatMap string)))) := by
  refine ⟨writeBucketed_good v _, ?_⟩
  refine chunk_of (l := bucketedLen v) ?_ (writeBucketed_size v _)
  simp only [← leBytes8_eq, ← leBytes4_eq, ← items_eq]
  exact writeBucketed_bytes v _

/-- C65, floret vocabularies: chunk 9 with the n-gram lengths, the number of buckets, the number of hashes, the seed
and the markers. -/
theorem c65_floret (v : FloretSubwordVocab) (off : Nat) : (writeChunk v off).Good ∧
    (writeChunk v off).bytes = chunk 9 (le32 v.minN ++ (le32 v.maxN ++ (le64 v.indexer.nBuckets ++
      (le32 v.indexer.nHashes ++ (le32 v.indexer.seed.toNat ++ (string v.bow ++ string v.eow)))))) := by
  refine ⟨writeFloret_good v, ?_⟩
  refine chunk_of (l := floretLen v) ?_ (writeFloret_size v)
  simp only [string, ← leBytes8_eq, ← leBytes4_eq]
  have := writeFloret_bytes v
  simp only [strLen, List.append_assoc] at this ⊢
  exact this

/-- C65, explicit vocabularies: chunk 8 with the numbers of words and n-grams, the n-gram lengths, the words, and the
n-grams with the indices under which they are looked up. -/
theorem c65_explicit (tuples : List (Str × Nat)) (ix : ExplicitIndexer) (o2n : HMap Nat Nat)
    (hix : ExplicitIndexer.newWithIndices tuples = .ok (ix, o2n)) (v : ExplicitSubwordVocab) (hv : v.indexer = ix)
    (off : Nat) : (writeChunk v off).Good ∧ ∃ entries : List (Str × Nat), entries.map (·.1) = tuples.map (·.1) ∧
      (∀ p ∈ entries, Indexer.indexNgram ix (NGram.ofStr p.1) = .ok [p.2]) ∧
      (writeChunk v off).bytes = chunk 8 (le64 v.words.length ++ (le64 tuples.length ++ (le32 v.minN ++ (le32 v.maxN ++
        (v.words.flatMap string ++ entries.flatMap fun p => string p.1 ++ le64 p.2))))) := by
  have hb : ix.Built := ⟨_, _, hix⟩
  have hb' : v.indexer.Built := hv ▸ hb
  have hk := hb.keys
  have hn : ix.ngrams = tuples.map (·.1) := by
    rw [newWithIndices_eq] at hix
    split at hix
    · simp only [Res.ok.injEq, Prod.mk.injEq] at hix
      rw [← hix.1]
    · simp at hix
  refine ⟨writeExplicit_good hb', ix.index.entries, by rw [← hn, ← hk]; rfl, ?_, ?_⟩
  · intro p hp
    have := HMap.get_of_mem_entries (m := ix.index) (by rw [hb.keys]; exact hb.nodup) hp
    simp [Indexer.indexNgram, NGram.ofStr, this]
  · refine chunk_of (l := explicitLen v) ?_ (writeExplicit_size hb')
    simp only [string, ← leBytes8_eq, ← leBytes4_eq, ← items_eq]
    have := writeExplicit_bytes hb'
    rw [hv, show ix.ngrams.length = tuples.length by rw [hn, List.length_map]] at this
    simp only [strLen, List.append_assoc] at this ⊢
    exact this

/-- Three n-grams of which two share an index: hypotheses of `c65_explicit`. -/
example := c65_explicit [(['a', 'b'], 7), (['b', 'c'], 3), (['c', 'd'], 7)]
  ⟨[['a', 'b'], ['b', 'c'], ['c', 'd']], ⟨[(['a', 'b'], 0), (['b', 'c'], 1), (['c', 'd'], 0)]⟩, 2⟩ ⟨[(7, 0), (3, 1)]⟩
  (by decide +kernel) ⟨['<'], ['>'], _, ⟨[(['a'], 0)]⟩, [['a']], 2, 2⟩ rfl 0

/-! ## Storage, norms and metadata -/

theorem isPad_replicate (off : Nat) {pos : Nat} (h : pos % 4 = off % 4) :
    IsPad pos (List.replicate (padding 4 (off + 4)) 0) := by
  refine ⟨fun b hb => List.eq_of_mem_replicate hb, ?_, ?_, ?_⟩ <;>
    (simp only [List.length_replicate]; unfold padding; omega)

/-- C65, arrays: chunk 2 with the numbers of rows and columns, the component type 10 (single precision), padding and
the rows. -/
theorem c65_array (a : NdArray F32) (h : a.inner.WF) (off : Nat) : (writeChunk a off).Good ∧ ∃ pad,
    IsPad (off + 28) pad ∧ (writeChunk a off).bytes = chunk 2 (le64 a.inner.rows.length ++ (le32 a.inner.cols ++
      (le32 10 ++ (pad ++ floats a.inner.rows.flatten)))) := by
  refine ⟨writeNdArray_good _ _, _, isPad_replicate off (by omega), ?_⟩
  refine chunk_of (l := ndArrayLen a.inner.len off) ?_ (writeNdArray_size h off)
  simp only [← leBytes8_eq, ← leBytes4_eq, ← encodeF32s_eq]
  have : ndArrayLen a.inner.len (off + 4) = ndArrayLen a.inner.len off := by unfold ndArrayLen padding; omega
  rw [← this]
  exact writeNdArray_bytes _ _

/-- Two rows: hypothesis of `c65_array`. -/
example := c65_array ⟨⟨2, [[1, 2], [3, 0x7fc00001]]⟩⟩ (by intro r hr; revert r; decide) 5

/-- C65, norms: chunk 6 with the number of norms, the component type 10, padding and the norms. -/
theorem c65_norms (n : NdNorms F32) (off : Nat) : (writeChunk n off).Good ∧ ∃ pad, IsPad (off + 24) pad ∧
    (writeChunk n off).bytes = chunk 6 (le64 n.inner.length ++ (le32 10 ++ (pad ++ floats n.inner))) := by
  refine ⟨writeNorms_good _ _, _, isPad_replicate off (by omega), ?_⟩
  refine chunk_of (l := normsLen n.inner.length off) ?_ (writeNorms_size _ off)
  simp only [← leBytes8_eq, ← leBytes4_eq, ← encodeF32s_eq]
  have : normsLen n.inner.length (off + 4) = normsLen n.inner.length off := by unfold normsLen padding; omega
  rw [← this]
  exact writeNorms_bytes _ _

/-- C65, metadata: chunk 5 with the TOML text. -/
theorem c65_metadata {T : Type} [Toml T] (m : Metadata T) (off : Nat) : (writeChunk m off).Good ∧
    (writeChunk m off).bytes = chunk 5 (utf8 (Toml.print m.inner)) := by
  refine ⟨writeMetadata_good m, ?_⟩
  refine chunk_of (l := metadataLen m) ?_ (writeMetadata_size m)
  have : metadataLen m - 12 = strLen (Toml.print m.inner) := by unfold metadataLen; omega
  rw [this]
  exact writeMetadata_bytes m

/-- C65, quantized arrays: chunk 4 with a flag for the projection, a flag for the norms, the number of subquantizers,
the number of components, the number of centroids, the number of rows, the types 1 (bytes) and 10 (single precision),
padding, projection, subquantizers, norms and codes. -/
theorem c65_quantized (a : QuantizedArray F32) (h : a.WF) (off : Nat) : (writeChunk a off).Good ∧ ∃ pad,
    IsPad (off + 48) pad ∧ (writeChunk a off).bytes = chunk 4 (
      le32 (if a.quantizer.projection = none then 0 else 1) ++ (le32 (if a.norms = none then 0 else 1) ++
      (le32 a.quantizer.quantizers.length ++ (le32 (a.quantizer.quantizers.length * a.quantizer.subDim) ++
      (le32 a.quantizer.nCentroids ++ (le64 a.codes.rows.length ++ (le32 1 ++ (le32 10 ++ (pad ++
      ((match a.quantizer.projection with
        | some p => floats p.rows.flatten
        | none => []) ++
      ((a.quantizer.quantizers.flatMap fun m => floats m.rows.flatten) ++
      ((match a.norms with
        | some ns => floats ns
        | none => []) ++ a.codes.rows.flatten)))))))))))) := by
  refine ⟨writeQuantizedArray_good _ _ _ _, _, isPad_replicate off (by omega), ?_⟩
  refine chunk_of (l := quantizedArrayLen a.quantizer a.codes.nrows a.norms off) ?_ (QuantizedArray.size h off)
  have : quantizedArrayLen a.quantizer a.codes.nrows a.norms (off + 4) =
      quantizedArrayLen a.quantizer a.codes.nrows a.norms off := by unfold quantizedArrayLen padding; omega
  rw [← this]
  have hb := writeQuantizedArray_bytes a.quantizer a.codes a.norms off
  have h1 : encodeF32s (Mat.flats a.quantizer.projection.toList) = (match a.quantizer.projection with
        | some p => floats p.rows.flatten
        | none => []) := by
    cases a.quantizer.projection <;> simp [Mat.flats, encodeF32s_eq, floats]
  have h2 : encodeF32s (Mat.flats a.quantizer.quantizers) =
      a.quantizer.quantizers.flatMap fun m => floats m.rows.flatten := by
    rw [encodeF32s_eq]
    induction a.quantizer.quantizers with
    | nil => rfl
    | cons m ms ih => 
      simp only [Mat.flats, floats, List.map_cons, List.flatten_cons, List.flatMap_append, List.flatMap_cons] at ih ⊢
      rw [ih]
  have h3 : encodeF32s a.norms.toList.flatten = (match a.norms with
        | some ns => floats ns
        | none => []) := by
    cases a.norms <;> simp [encodeF32s_eq, floats]
  have h4 : a.quantizer.projection.isSome.toNat = (if a.quantizer.projection = none then 0 else 1) := by
    cases a.quantizer.projection <;> simp
  have h5 : a.norms.isSome.toNat = (if a.norms = none then 0 else 1) := by
    cases a.norms <;> simp
  rw [h1, h2, h3, h4, h5] at hb
  simp only [← leBytes8_eq, ← leBytes4_eq]
  exact hb

/-- Hypothesis of `c65_quantized`. -/
example := c65_quantized exampleQuantized exampleQuantized_wf 5

/-! ## Whole files -/

/-- `x` is written as one chunk whose identifier is the one that the header of a file lists for `x`. -/
def WritesChunk {X : Type} [WriteChunk X] (x : X) : Prop :=
  ∀ off, (writeChunk x off).Good ∧ ∃ body, (writeChunk x off).bytes = chunk (chunkId x).code body

/-- C65: vocabularies are written as chunks (explicit ones if their indexer was made by its constructors). -/
theorem c65_vocab_chunk (v : VocabWrap) (h : ∀ x, v = .explicit x → x.indexer.Built) : WritesChunk v := by
  intro off
  cases v with
  | simple v => exact ⟨(c65_simple v off).1, _, (c65_simple v off).2⟩
  | bucket v => exact ⟨(c65_bucket v off).1, _, (c65_bucket v off).2⟩
  | fastText v => exact ⟨(c65_fasttext v off).1, _, (c65_fasttext v off).2⟩
  | floret v => exact ⟨(c65_floret v off).1, _, (c65_floret v off).2⟩
  | explicit v =>
    obtain ⟨t, o2n, ht⟩ := h v rfl
    obtain ⟨hg, _, _, _, hb⟩ := c65_explicit t _ o2n ht v rfl off
    exact ⟨hg, _, hb⟩

/-- C65: storage is written as a chunk. The hypotheses are invariants of the types: matrices are rectangular, and maps
have the size that was mapped. -/
theorem c65_storage_chunk (s : StorageWrap) (h : match s with
    | .ndArray a => a.inner.WF
    | .quantized a => a.WF
    | .mmapArray a => ∃ m, view a = .ok m ∧ m.WF
    | .mmapQuantized a => ∃ m, a.codesView = .ok m ∧ (QuantizedArray.mk a.quantizer m a.norms).WF) :
    WritesChunk s := by
  intro off
  cases s with
  | ndArray a =>
    obtain ⟨hg, _, _, hb⟩ := c65_array a h off
    exact ⟨hg, _, hb⟩
  | quantized a =>
    obtain ⟨hg, _, _, hb⟩ := c65_quantized a h off
    exact ⟨hg, _, hb⟩
  | mmapArray a =>
    obtain ⟨m, hm, hwf⟩ := h
    obtain ⟨hg, _, _, hb⟩ := c65_array ⟨m⟩ hwf off
    have : writeChunk (StorageWrap.mmapArray a) off = writeChunk (NdArray.mk m) off := by
      show W.ofView (view a) _ = _
      rw [hm]; rfl
    rw [this]
    exact ⟨hg, _, hb⟩
  | mmapQuantized a =>
    obtain ⟨m, hm, hwf⟩ := h
    obtain ⟨hg, _, _, hb⟩ := c65_quantized _ hwf off
    have : writeChunk (StorageWrap.mmapQuantized a) off =
        writeChunk (QuantizedArray.mk a.quantizer m a.norms) off := by
      show W.ofView a.codesView _ = _
      rw [hm]; rfl
    rw [this]
    exact ⟨hg, _, hb⟩

/-- C65, files: the header (letters `FiFu`, version 0, number and identifiers of the following chunks), then the chunks:
metadata if there is any, the vocabulary, the storage, and norms if there are any. Every chunk is written for the
position at which it starts, which matters for the padding. -/
theorem c65_file {T V S : Type} [Toml T] [WriteChunk V] [WriteChunk S] (e : Embeddings T V S F32)
    (hv : WritesChunk e.vocab) (hs : WritesChunk e.storage) (off : Nat) : (e.write off).Good ∧
    ∃ (md vs st nm : List (Nat × Bytes)) (parts : List (Nat × Bytes)), parts = md ++ vs ++ st ++ nm ∧
      (e.write off).bytes = [0x46, 0x69, 0x46, 0x75] ++ le32 0 ++ le32 parts.length ++
        (parts.flatMap fun p => le32 p.1) ++ parts.flatMap (fun p => chunk p.1 p.2) ∧
      (match e.metadata with
        | none => md = []
        | some m => md = [(5, utf8 (Toml.print m.inner))]) ∧
      (∃ p, vs = [p] ∧ (writeChunk e.vocab (off + 12 + 4 * parts.length +
        (md.flatMap fun p => chunk p.1 p.2).length)).bytes = chunk p.1 p.2) ∧
      (∃ p, st = [p] ∧ (writeChunk e.storage (off + 12 + 4 * parts.length +
        ((md ++ vs).flatMap fun p => chunk p.1 p.2).length)).bytes = chunk p.1 p.2) ∧
      (match e.norms with
        | none => nm = []
        | some n => ∃ pad, IsPad (off + 12 + 4 * parts.length +
            ((md ++ vs ++ st).flatMap fun p => chunk p.1 p.2).length + 24) pad ∧
            nm = [(6, le64 n.inner.length ++ (le32 10 ++ (pad ++ floats n.inner)))]) := by
  obtain ⟨hg, o1, o2, o3, o4, ho1, ho2, ho3, ho4, hb⟩ := write_bytes e off (fun o => (hv o).1) (fun o => (hs o).1)
  refine ⟨hg, ?_⟩
  obtain ⟨bv, hbv⟩ := (hv o2).2
  obtain ⟨bs, hbs⟩ := (hs o3).2
  -- metadata
  have hmd : ∃ md : List (Nat × Bytes), (match e.metadata with
        | none => md = []
        | some m => md = [(5, utf8 (Toml.print m.inner))]) ∧
      (writeOpt e.metadata o1).bytes = md.flatMap (fun p => chunk p.1 p.2) ∧
      (e.metadata.toList.map chunkId).map ChunkId.code = md.map (·.1) := by
    cases e.metadata with
    | none => exact ⟨[], rfl, rfl, rfl⟩
    | some m => exact ⟨_, rfl, by simpa [writeOpt] using (c65_metadata m o1).2, rfl⟩
  obtain ⟨md, hmd1, hmd2, hmd3⟩ := hmd
  have hnm : ∃ nm : List (Nat × Bytes), (match e.norms with
        | none => nm = []
        | some n => ∃ pad, IsPad (o4 + 24) pad ∧
            nm = [(6, le64 n.inner.length ++ (le32 10 ++ (pad ++ floats n.inner)))]) ∧
      (writeOpt e.norms o4).bytes = nm.flatMap (fun p => chunk p.1 p.2) ∧
      (e.norms.toList.map chunkId).map ChunkId.code = nm.map (·.1) := by
    cases e.norms with
    | none => exact ⟨[], rfl, rfl, rfl⟩
    | some n =>
      obtain ⟨_, pad, hp, hb⟩ := c65_norms n o4
      exact ⟨_, ⟨pad, hp, rfl⟩, by simpa [writeOpt] using hb, rfl⟩
  obtain ⟨nm, hnm1, hnm2, hnm3⟩ := hnm
  have hids : e.chunkIds.map ChunkId.code = (md ++ [((chunkId e.vocab).code, bv)] ++
      [((chunkId e.storage).code, bs)] ++ nm).map (·.1) := by
    have : e.chunkIds = e.metadata.toList.map chunkId ++ [chunkId e.vocab, chunkId e.storage] ++
        e.norms.toList.map chunkId := by
      unfold Embeddings.chunkIds
      cases e.metadata <;> cases e.norms <;> rfl
    rw [this, List.map_append, List.map_append, hmd3, hnm3]
    simp
  have hhdr : (Header.mk e.chunkIds).write.bytes = [0x46, 0x69, 0x46, 0x75] ++ le32 0 ++
      le32 (md ++ [((chunkId e.vocab).code, bv)] ++ [((chunkId e.storage).code, bs)] ++ nm).length ++
      ((md ++ [((chunkId e.vocab).code, bv)] ++ [((chunkId e.storage).code, bs)] ++ nm).flatMap
        fun p => le32 p.1) := by
    rw [Header.write_bytes]
    have hl := congrArg List.length hids
    rw [List.length_map, List.length_map] at hl
    have hf := congrArg (fun l => List.flatMap le32 l) hids
    simp only [List.flatMap_map] at hf
    rw [← hf, ← hl]
    simp only [leBytes4_eq, List.append_assoc]
    rfl
  generalize hparts : md ++ [((chunkId e.vocab).code, bv)] ++ [((chunkId e.storage).code, bs)] ++ nm = parts at *
  have hlen : (Header.mk e.chunkIds).write.size = 12 + 4 * parts.length := by
    have : (Header.mk e.chunkIds).write.size = (Header.mk e.chunkIds).write.bytes.length := rfl
    rw [this, hhdr]
    have hc : ∀ l : List (Nat × Bytes), (l.flatMap fun p => le32 p.1).length = 4 * l.length := by
      intro l
      induction l with
      | nil => rfl
      | cons a l ih => simp only [List.flatMap_cons, List.length_append, ih, le32_length, List.length_cons]; omega
    simp only [List.length_append, hc, le32_length, List.length_cons, List.length_nil]
  have s1 : (writeOpt e.metadata o1).size = (md.flatMap fun p => chunk p.1 p.2).length := by rw [W.size, hmd2]
  have s2 : (writeChunk e.vocab o2).size = (chunk (chunkId e.vocab).code bv).length := by rw [W.size, hbv]
  have s3 : (writeChunk e.storage o3).size = (chunk (chunkId e.storage).code bs).length := by rw [W.size, hbs]
  rw [hlen] at ho1
  rw [s1] at ho2
  rw [s2] at ho3
  rw [s3] at ho4
  refine ⟨md, [((chunkId e.vocab).code, bv)], [((chunkId e.storage).code, bs)], nm, parts, hparts.symm, ?_, hmd1, ?_,
    ?_, ?_⟩
  · rw [hb, hhdr, hmd2, hbv, hbs, hnm2, ← hparts]
    simp only [List.flatMap_append, List.flatMap_cons, List.flatMap_nil, List.append_assoc, List.append_nil]
  · refine ⟨_, rfl, ?_⟩
    rw [show off + 12 + 4 * parts.length + (md.flatMap fun p => chunk p.1 p.2).length = o2 by omega]
    exact hbv
  · refine ⟨_, rfl, ?_⟩
    rw [show off + 12 + 4 * parts.length + ((md ++ [((chunkId e.vocab).code, bv)]).flatMap
        fun p => chunk p.1 p.2).length = o3 by
      simp only [List.flatMap_append, List.flatMap_cons, List.flatMap_nil, List.append_nil, List.length_append]
      omega]
    exact hbs
  · rw [show off + 12 + 4 * parts.length + ((md ++ [((chunkId e.vocab).code, bv)] ++
        [((chunkId e.storage).code, bs)]).flatMap fun p => chunk p.1 p.2).length = o4 by
      simp only [List.flatMap_append, List.flatMap_cons, List.flatMap_nil, List.append_nil, List.length_append]
      omega]
    exact hnm1

/-! ## Examples -/

example : WritesChunk exampleEmbeddings.vocab ∧ WritesChunk exampleEmbeddings.storage :=
  ⟨c65_vocab_chunk _ (by simp [exampleEmbeddings]), c65_storage_chunk _ (by intro r hr; revert r; decide)⟩

/-- `c65_file` applied to the example. -/
example := @c65_file _ _ _ exampleToml _ _ exampleEmbeddings (c65_vocab_chunk _ (by simp [exampleEmbeddings]))
  (c65_storage_chunk _ (by intro r hr; revert r; decide)) 0

attribute [local instance] exampleToml in
/-- A file byte by byte: header, vocabulary, array and norms. -/
example : (Embeddings.write (⟨none, .ndArray ⟨⟨2, [[0x3f800000, 0]]⟩⟩, .simple (SimpleVocab.mk
      ⟨[(['é'], 0)]⟩ [['é']]), some ⟨[0x40000000]⟩⟩ : Embeddings Str VocabWrap StorageWrap F32) 0).bytes =
    [0x46, 0x69, 0x46, 0x75, 0, 0, 0, 0, 3, 0, 0, 0, 1, 0, 0, 0, 2, 0, 0, 0, 6, 0, 0, 0] ++
    [1, 0, 0, 0, 14, 0, 0, 0, 0, 0, 0, 0, 1, 0, 0, 0, 0, 0, 0, 0, 2, 0, 0, 0, 0xc3, 0xa9] ++
    [2, 0, 0, 0, 26, 0, 0, 0, 0, 0, 0, 0, 1, 0, 0, 0, 0, 0, 0, 0, 2, 0, 0, 0, 10, 0, 0, 0, 0, 0,
      0, 0, 0x80, 0x3f, 0, 0, 0, 0] ++
    [6, 0, 0, 0, 20, 0, 0, 0, 0, 0, 0, 0, 1, 0, 0, 0, 0, 0, 0, 0, 10, 0, 0, 0, 0, 0, 0, 0, 0, 0, 0, 0x40] := by
  decide +kernel

/-- An explicit vocabulary and its indexer. -/
example : ExplicitIndexer.newWithIndices [(['a', 'b'], 7), (['b', 'c'], 3), (['c', 'd'], 7)] =
    .ok (⟨[['a', 'b'], ['b', 'c'], ['c', 'd']], ⟨[(['a', 'b'], 0), (['b', 'c'], 1), (['c', 'd'], 0)]⟩, 2⟩,
      ⟨[(7, 0), (3, 1)]⟩) := by decide +kernel

example : exampleQuantized.WF := exampleQuantized_wf

end FF
