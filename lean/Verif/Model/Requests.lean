import Verif.Model.FastText
import Verif.Model.Floret
import Verif.Model.Wrappers

/-!
# Memory that the readers request

The readers again, with the sizes in bytes of the heap requests whose size is a number taken from the data
(`Vec::with_capacity(n)`, `vec![0; n]`, `Array::zeros(..)`), in the order in which they are made. Requests that
follow the data itself (hash maps over the words that were read, growing vectors) are not listed. A request above
`isize::MAX` panics before it reaches the allocator and is not listed either.
-/

namespace FF

/-- A reading computation (`Rd`, src/chunks/io.rs:150-158) with the requests it makes. -/
def MRd (α : Type) := Bytes → Nat → List Nat × Res (α × Nat)

namespace MRd

/-- A reading computation that requests nothing, e.g. src/chunks/io.rs:240. -/
def of {α : Type} (m : Rd α) : MRd α := fun d pos => ([], m d pos)

/-- Go on after an outcome with requests. The `?` after each step, e.g. src/chunks/metadata.rs:55-72. -/
def andThen {α β : Type} (x : List Nat × Res α) (f : α → List Nat × Res β) : List Nat × Res β :=
  match x.2 with
  | .ok a => (x.1 ++ (f a).1, (f a).2)
  | .err e => (x.1, .err e)
  | .panic => (x.1, .panic)

/-- One thing after another, e.g. src/chunks/metadata.rs:55-72. -/
instance : Monad MRd where
  pure a := fun _ pos => ([], .ok (a, pos))
  bind p f := fun d pos => andThen (p d pos) fun r => f r.1 d r.2

/-- Readers without requests are used as they are, e.g. src/chunks/vocab/simple.rs:60-66. -/
instance : MonadLift Rd MRd := ⟨of⟩

/-- A request of `bytes` bytes, unless it panics. Users: src/chunks/vocab/mod.rs:85, :97. -/
def request (m : Rd Unit) (bytes : Nat) : MRd Unit := fun d pos =>
  match m d pos with
  | .ok r => ([bytes], .ok r)
  | x => ([], x)

/-- `Vec::with_capacity(n)` and `vec![0; n]`, as `Rd.alloc`: src/chunks/vocab/mod.rs:85, :97, src/chunks/io.rs:254,
src/chunks/metadata.rs:63, src/chunks/vocab/subword.rs:695, :700. -/
def alloc (size n : Nat) : MRd Unit := request (Rd.alloc size n) (size * n)

/-- `Array::zeros(dims)`, as `allocArray`: src/chunks/norms.rs:79, src/chunks/storage/array.rs:353,
src/chunks/storage/quantized.rs:126, :140, :340, :348. -/
def allocArray (size : Nat) (dims : List Nat) : MRd Unit := request (FF.allocArray size dims) (size * dims.prod)

/-- Run `p` `n` times, as `Rd.replicateM`: src/chunks/vocab/mod.rs:98-101, src/chunks/io.rs:255-261. -/
def replicateM {α : Type} : Nat → MRd α → MRd (List α)
  | 0, _ => pure []
  | n + 1, p => do
    let a ← p
    let as ← replicateM n p
    return a :: as

/-! ## Chunks -/

/-- src/chunks/io.rs:222-265, `Header::read_chunk`. -/
def readHeader : MRd Header := do
  let m ← Rd.readExact 4
  if m ≠ magic then (Rd.fail .format : Rd Header) else do
  let version ← Rd.readU32
  if version ≠ modelVersion then (Rd.fail .format : Rd Header) else do
  let n ← Rd.readU32
  alloc 4 n
  let ids ← replicateM n (of readChunkId)
  return ⟨ids⟩

/-- src/chunks/vocab/mod.rs:80-91, `read_string`. -/
def readString : MRd Str := do
  let n ← Rd.readU32
  alloc 1 n
  let bytes ← Rd.readExact n
  Rd.lift (Res.ofOption .format (utf8Decode bytes))

/-- src/chunks/vocab/mod.rs:93-103, `read_vocab_items`. -/
def readVocabItems (len : Nat) : MRd (List Str) := do
  alloc 24 len
  replicateM len readString

/-- src/chunks/vocab/simple.rs:54-75, `read_chunk`. -/
def readSimple : MRd SimpleVocab := do
  ensureChunkType .simpleVocab
  let _ ← Rd.readU64
  let n ← Rd.readU64
  let words ← readVocabItems n
  Rd.lift (SimpleVocab.new words)

/-- src/chunks/vocab/subword.rs:375-410, `read_bucketed_chunk`. -/
def readBucketed {I : Type} [BucketIndexer I] (id : ChunkId) : MRd (SubwordVocab I) := do
  ensureChunkType id
  let _ ← Rd.readU64
  let n ← Rd.readU64
  let minN ← Rd.readU32
  let maxN ← Rd.readU32
  let buckets ← Rd.readU32
  let words ← readVocabItems n
  let ix ← Rd.lift (BucketIndexer.newBuckets buckets)
  Rd.lift (SubwordVocab.new words minN maxN ix)

/-- src/chunks/vocab/subword.rs:697-709: one n-gram with its index. -/
def readNgram : MRd (Str × Nat) := do
  let n ← Rd.readU32
  alloc 1 n
  let bytes ← Rd.readExact n
  let item ← Rd.lift (Res.ofOption .format (utf8Decode bytes))
  let i ← Rd.readU64
  return (item, i)

/-- src/chunks/vocab/subword.rs:691-712, `read_ngrams_with_indices`. -/
def readNgrams (len : Nat) : MRd (List (Str × Nat)) := do
  alloc 32 len
  replicateM len readNgram

/-- src/chunks/vocab/subword.rs:520-548, `read_ngram_chunk`. -/
def readExplicit : MRd ExplicitSubwordVocab := do
  ensureChunkType .explicitSubwordVocab
  let _ ← Rd.readU64
  let wordsLen ← Rd.readU64
  let ngramsLen ← Rd.readU64
  let minN ← Rd.readU32
  let maxN ← Rd.readU32
  let words ← readVocabItems wordsLen
  let ngrams ← readNgrams ngramsLen
  let r ← Rd.lift (ExplicitIndexer.newWithIndices ngrams)
  Rd.lift (SubwordVocab.new words minN maxN r.1)

/-- src/chunks/vocab/subword.rs:599-650, `read_floret_chunk`. -/
def readFloret : MRd FloretSubwordVocab := do
  ensureChunkType .floretSubwordVocab
  let _ ← Rd.readU64
  let minN ← Rd.readU32
  let maxN ← Rd.readU32
  let nBuckets ← Rd.readU64
  let nHashes ← Rd.readU32
  if ¬ (1 ≤ nHashes ∧ nHashes ≤ 4) then (Rd.fail .io : Rd FloretSubwordVocab) else do
  let seed ← Rd.readU32
  let bow ← readString
  let eow ← readString
  let ix ← Rd.lift (FloretIndexer.new nBuckets nHashes (UInt32.ofNat seed))
  Rd.lift (SubwordVocab.newWithBoundaries [] minN maxN ix bow eow)

/-- src/chunks/vocab/wrappers.rs:106-149. -/
def readVocabWrap : MRd VocabWrap := do
  let id ← peekChunkId
  match id with
  | .simpleVocab => do return .simple (← readSimple)
  | .fastTextSubwordVocab => do return .fastText (← readBucketed .fastTextSubwordVocab)
  | .bucketSubwordVocab => do return .bucket (← readBucketed .bucketSubwordVocab)
  | .explicitSubwordVocab => do return .explicit (← readExplicit)
  | .floretSubwordVocab => do return .floret (← readFloret)
  | _ => (Rd.fail .format : Rd VocabWrap)

/-- src/chunks/storage/array.rs:321-359, `NdArray::read_chunk`. -/
def readNdArray : MRd (NdArray F32) := do
  let (rows, cols) ← readNdArrayHead
  allocArray 4 [rows, cols]
  let data ← Rd.readF32s (rows * cols)
  return ⟨Mat.ofFlat rows cols data⟩

/-- src/chunks/storage/quantized.rs:117-131. -/
def readProjection (flag n : Nat) : MRd (Option (Mat F32)) := do
  let p ← Rd.position
  Rd.skip (padding 4 p)
  if flag ≠ 0 then do
    allocArray 4 [n, n]
    let xs ← Rd.readF32s (n * n)
    return some (Mat.ofFlat n n xs)
  else return none

/-- src/chunks/storage/quantized.rs:133-142. -/
def readQuantizers (quantizedLen nCentroids subDim : Nat) : MRd (List (Mat F32)) := do
  allocArray 4 [quantizedLen, nCentroids, subDim]
  let xs ← Rd.readF32s (quantizedLen * (nCentroids * subDim))
  return (chunks quantizedLen (nCentroids * subDim) xs).map (Mat.ofFlat nCentroids subDim)

/-- src/chunks/storage/quantized.rs:81-149, `read_product_quantizer`. -/
def readPq : MRd PqRead := do
  let projection ← Rd.readU32
  let readNorms ← Rd.readU32
  let quantizedLen ← Rd.readU32
  let reconstructedLen ← Rd.readU32
  let nCentroids ← Rd.readU32
  let nEmbeddings ← Rd.readU64
  Rd.lift (Res.assert (decide (quantizedLen ≠ 0)))
  if reconstructedLen % quantizedLen ≠ 0 then (Rd.fail .format : Rd PqRead) else do
  ensureDataType u8TypeId
  ensureDataType f32TypeId
  let proj ← readProjection projection reconstructedLen
  let qs ← readQuantizers quantizedLen nCentroids (reconstructedLen / quantizedLen)
  let q ← Rd.lift (Pq.new proj nCentroids (reconstructedLen / quantizedLen) qs)
  return ⟨nEmbeddings, q, decide (readNorms ≠ 0)⟩

/-- src/chunks/storage/quantized.rs:339-346 (= :661-669). -/
def readQuantizedNorms (flag : Bool) (n : Nat) : MRd (Option (List F32)) :=
  if flag then do
    allocArray 4 [n]
    let ns ← Rd.readF32s n
    return some ns
  else return none

/-- src/chunks/storage/quantized.rs:326-346 (= :649-669). -/
def readQuantizedHead : MRd (PqRead × Option (List F32)) := do
  ensureChunkType .quantizedArray
  let _ ← Rd.readU64
  let r ← readPq
  let norms ← readQuantizedNorms r.readNorms r.nEmbeddings
  return (r, norms)

/-- src/chunks/storage/quantized.rs:321-358, `QuantizedArray::read_chunk`. -/
def readQuantizedArray : MRd (QuantizedArray F32) := do
  let (r, norms) ← readQuantizedHead
  allocArray 1 [r.nEmbeddings, r.quantizer.quantizedLen]
  let cs ← Rd.readExact (r.nEmbeddings * r.quantizer.quantizedLen)
  return ⟨r.quantizer, Mat.ofFlat r.nEmbeddings r.quantizer.quantizedLen cs, norms⟩

/-- src/chunks/storage/wrappers.rs:122-152. -/
def readStorageWrap : MRd StorageWrap := do
  let id ← peekChunkId
  match id with
  | .ndArray => do return .ndArray (← readNdArray)
  | .quantizedArray => do return .quantized (← readQuantizedArray)
  | _ => (Rd.fail .format : Rd StorageWrap)

/-- src/chunks/storage/quantized.rs:647-680, `MmapQuantizedArray::mmap_chunk`. The mapped codes are no heap memory. -/
def mmapQuantizedArray : MRd MmapQuantizedArray := do
  let (r, norms) ← readQuantizedHead
  Rd.lift (Res.assert (decide (r.nEmbeddings * r.quantizer.quantizedLen ≤ usizeMax)))
  let map ← mapRegion (r.nEmbeddings * r.quantizer.quantizedLen)
  return ⟨r.quantizer, map, norms⟩

/-- src/chunks/storage/wrappers.rs:154-181. A mapped matrix (src/chunks/storage/array.rs:112-163) is no heap memory. -/
def mmapStorageWrap : MRd StorageWrap := do
  let id ← peekChunkId
  match id with
  | .ndArray => do return .mmapArray (← of mmapNdArray)
  | .quantizedArray => do return .mmapQuantized (← mmapQuantizedArray)
  | _ => (Rd.fail .format : Rd StorageWrap)

/-- src/chunks/norms.rs:53-85, `read_chunk`. -/
def readNorms : MRd (NdNorms F32) := do
  ensureChunkType .ndNorms
  let _ ← Rd.readU64
  let len ← Rd.readU64
  ensureDataType f32TypeId
  let p ← Rd.position
  Rd.skip (padding 4 p)
  allocArray 4 [len]
  let data ← Rd.readF32s len
  return ⟨data⟩

/-- src/chunks/metadata.rs:49-77, `read_chunk`. -/
def readMetadata {T : Type} [Toml T] : MRd (Metadata T) := do
  ensureChunkType .metadata
  let len ← Rd.readU64
  alloc 1 len
  let buf ← Rd.readExact len
  let s ← Rd.lift (Res.ofOption .format (utf8Decode buf))
  let t ← Rd.lift (Res.ofOption .format (Toml.parse s))
  return ⟨t⟩

/-- src/chunks/metadata.rs:109-129, `ReadMetadata for Option<Metadata>`. -/
def readOptMetadata {T : Type} [Toml T] : MRd (Option (Metadata T)) := do
  let h ← readHeader
  match h.ids with
  | [] => (Rd.fail .format : Rd (Option (Metadata T)))
  | i :: _ =>
    if i = .metadata then do
      let m ← readMetadata
      return some m
    else return none

/-- src/embeddings.rs:523-537, everything before the storage, with the reader of the vocabulary as a parameter. -/
def readHead {T V : Type} [Toml T] (readVocab : MRd V) : MRd (Option (Metadata T) × V) := do
  let m ← (readOptMetadata : MRd (Option (Metadata T)))
  let v ← readVocab
  return (m, v)

/-- src/embeddings.rs:519-547, `read_embeddings`, with the readers of vocabulary and storage as parameters. The requests
of an attempt to read norms count, whatever became of it (:539). -/
def readEmbeddings {T V S : Type} [Toml T] (readVocab : MRd V) (readStorage : MRd S) (d : Bytes) (pos : Nat) :
    List Nat × Res (Embeddings T V S F32) :=
  andThen (readHead (T := T) readVocab d pos) fun ((m, v), p) =>
  andThen (readStorage d p) fun (s, p) =>
  andThen ((readNorms d p).1, Embeddings.orNone (readNorms d p).2) fun n =>
  ([], .ok ⟨m, s, v, n.map (·.1)⟩)

/-! ## Other formats -/

section
variable {T F : Type} [Scalar F]

/-- src/compat/word2vec.rs:89-116, `read_word2vec_binary_raw`. -/
def readWord2vecRaw [FloatBits F] (lossy : Bool) : MRd (Embeddings T SimpleVocab (NdArray F) F) := do
  let nWords ← readNumber 32
  let embedLen ← readNumber 10
  allocArray 4 [nWords, embedLen]
  alloc 24 nWords
  let entries ← replicateM nWords (of (Embeddings.readWord2vecEntry (F := F) embedLen lossy))
  let vocab ← Rd.lift (SimpleVocab.new (entries.map (·.1)))
  Rd.lift (Embeddings.newWithMaybeNorms none vocab (NdArray.mk ⟨embedLen, entries.map (·.2)⟩) none)

/-- A request of `bytes` bytes, unless it panics. Users: src/compat/text.rs:198-199, src/compat/floret/io.rs:62. -/
def requested (r : Res Unit) (bytes : Nat) : List Nat × Res Unit :=
  match r with
  | .ok u => ([bytes], .ok u)
  | x => ([], x)

/-- src/compat/text.rs:196-203. The multiplication panics on overflow, as in `Embeddings.allocTable`. -/
def allocTable : Option (Nat × Nat) → List Nat × Res Unit
  | some (n, dims) =>
    andThen (requested (Res.assert (24 * n ≤ isizeMax)) (24 * n)) fun _ =>
    requested (Res.assert (4 * (n * dims) ≤ isizeMax)) (4 * (n * dims))
  | none => ([], .ok ())

/-- src/compat/text.rs:188-274, `read_embeds`. The line buffers and the growth of the vectors follow the data and are not
counted. -/
def readEmbeds [FloatText F] (shape : Option (Nat × Nat)) (lossy : Bool) (d : Bytes) (pos : Nat) :
    List Nat × Res (Embeddings T SimpleVocab (NdArray F) F) :=
  andThen (allocTable shape) fun _ => ([], do
    let rows ← (textLines (d.drop pos)).mapM (Embeddings.readTextLine (F := F) lossy)
    let shape ← Embeddings.tableShape shape rows.length (rows.map (·.2)).flatten.length
    let m ← Embeddings.fromShapeVec shape (rows.map (·.2)).flatten
    let vocab ← SimpleVocab.new (rows.map (·.1))
    Embeddings.newWithMaybeNorms none vocab (NdArray.mk m) none)

/-- src/compat/text.rs:173-186, `read_text_dims_raw` and `read_text_dims_raw_lossy`. -/
def readTextDimsRaw [FloatText F] (lossy : Bool) (d : Bytes) (pos : Nat) :
    List Nat × Res (Embeddings T SimpleVocab (NdArray F) F) :=
  andThen (([], readNumber 32 d pos) : List Nat × Res (Nat × Nat)) fun (nWords, pos) =>
  andThen (([], readNumber 10 d pos) : List Nat × Res (Nat × Nat)) fun (embedLen, pos) =>
  readEmbeds (some (nWords, embedLen)) lossy d pos

/-- src/compat/floret/io.rs:28-101, `read_floret_text`. -/
def readFloretText [FloatText F] (d : Bytes) (pos : Nat) : List Nat × Res (Embeddings T FloretSubwordVocab (NdArray F) F) :=
  andThen (([], readFloretHead d pos) : List Nat × Res (FloretHead × Nat)) fun (h, pos) =>
  andThen (([], checkFloretHead h) : List Nat × Res Unit) fun _ =>
  andThen (requested (Res.assert (4 * (h.nBuckets * h.embedLen) ≤ isizeMax)) (4 * (h.nBuckets * h.embedLen))) fun _ =>
  ([], do
    let rows ← (bufLines (d.drop pos)).mapM (Embeddings.readFloretLine (F := F) h.embedLen)
    let m ← Embeddings.fromShapeVec (h.nBuckets, h.embedLen) rows.flatten
    let indexer ← FloretIndexer.new h.nBuckets h.nHashes (UInt32.ofNat h.seed)
    let vocab ← SubwordVocab.newWithBoundaries [] h.minN h.maxN indexer h.bow h.eow
    Embeddings.newWithMaybeNorms none vocab (NdArray.mk m) none)

/-- src/compat/fasttext/io.rs:502-557, `read_vocab`. -/
def readFtVocab (config : FtConfig) (lossy : Bool) : MRd FastTextSubwordVocab := do
  let size ← readFtVocabHead
  alloc 24 size
  let words ← replicateM size (of (readFtWord lossy))
  let indexer ← Rd.lift (FastTextIndexer.new config.bucket)
  Rd.lift (SubwordVocab.new words config.minN config.maxN indexer)

/-- src/compat/fasttext/io.rs:427-449, `read_embeddings`. -/
def readFtMatrix [FloatBits F] : MRd (NdArray F) := do
  let m ← Rd.readU64
  let n ← Rd.readU64
  allocArray 4 [m, n]
  let xs ← Rd.readF32s (m * n)
  return ⟨Mat.ofFlat m n (xs.map FloatBits.ofBits)⟩

/-- src/compat/fasttext/io.rs:59-120, `read_fasttext_private`. -/
def readFastText [ScalarNat F] [FloatBits F] [ConfigToml T] (lossy : Bool) :
    MRd (Embeddings T FastTextSubwordVocab (NdArray F) F) := do
  Embeddings.readFtMagic
  let config ← readFtConfig
  let vocab ← readFtVocab config lossy
  Embeddings.readFtQuantized
  let storage ← readFtMatrix (F := F)
  Rd.lift (Embeddings.finishFastText config vocab storage)

end

end MRd

end FF
