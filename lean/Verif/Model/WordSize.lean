import Verif.Model.Embeddings
import Verif.Model.Wrappers

/-!
# Reading finalfusion files on 32-bit and on 64-bit machines

The rest of the model describes 64-bit machines. Here, the readers of all chunks are modelled for both sizes of `usize`:
`try_into` refuses a number that does not fit, `as usize` drops its upper bits, and no allocation is larger than
`isize::MAX`. Memory maps and the readers of other formats are not repeated here.
-/

namespace FF

open Rd

/-- The size of `usize`. Users: e.g. src/chunks/vocab/subword.rs:94-107 ("native word size"). -/
inductive WordSize where
  | w32
  | w64
deriving DecidableEq, Repr

namespace WordSize

/-- Number of bits. Users: e.g. src/chunks/vocab/simple.rs:68. -/
def bits : WordSize → Nat
  | .w32 => 32
  | .w64 => 64

/-- `isize::MAX`: no allocation may be larger. Allocations: e.g. src/chunks/vocab/mod.rs:85, :97. -/
def isizeMax (w : WordSize) : Nat := 2 ^ (w.bits - 1) - 1

/-- `usize::MAX`. User: src/chunks/vocab/subword.rs:94-107. -/
def usizeMax (w : WordSize) : Nat := 2 ^ w.bits - 1

/-- `.try_into().map_err(|_| Error::Overflow)?`: src/chunks/vocab/simple.rs:68-69, src/chunks/norms.rs:67-68,
src/chunks/storage/array.rs:337-338, src/chunks/storage/quantized.rs:107-108. -/
def tryInto (w : WordSize) (n : Nat) : Rd Nat := if n ≤ w.usizeMax then pure n else fail .overflow

/-- `as usize`: src/chunks/vocab/subword.rs:391, :544, :545, src/chunks/metadata.rs:60. -/
def cast (w : WordSize) (n : Nat) : Nat := n % 2 ^ w.bits

/-- `Vec::with_capacity` and `vec![0; n]` for elements of `size` bytes: src/chunks/vocab/mod.rs:85, :97,
src/chunks/io.rs:254, src/chunks/metadata.rs:63, src/chunks/vocab/subword.rs:695. -/
def alloc (w : WordSize) (size n : Nat) : Rd Unit := lift (Res.assert (decide (size * n ≤ w.isizeMax)))

/-- `Array::zeros` for elements of `size` bytes: src/chunks/norms.rs:79, src/chunks/storage/array.rs:353,
src/chunks/storage/quantized.rs:126, :140, :340, :349. -/
def allocArray (w : WordSize) (size : Nat) (dims : List Nat) : Rd Unit :=
  lift (Res.assert (decide ((dims.filter (· ≠ 0)).prod ≤ w.isizeMax ∧ size * dims.prod ≤ w.isizeMax)))

/-- src/chunks/io.rs:222-265, `Header::read_chunk`. -/
def readHeader (w : WordSize) : Rd Header := do
  let m ← readExact 4
  if m ≠ magic then fail .format else do
  let version ← readU32
  if version ≠ modelVersion then fail .format else do
  let n ← readU32
  w.alloc 4 n
  let ids ← replicateM n readChunkId
  return ⟨ids⟩

/-- src/chunks/metadata.rs:49-77, `Metadata::read_chunk`. -/
def readMetadata {T : Type} [Toml T] (w : WordSize) : Rd (Metadata T) := do
  ensureChunkType .metadata
  let len ← readU64
  let len := w.cast len
  w.alloc 1 len
  let buf ← readExact len
  let s ← lift (Res.ofOption .format (utf8Decode buf))
  let t ← lift (Res.ofOption .format (Toml.parse s))
  return ⟨t⟩

/-- src/chunks/metadata.rs:109-129, `ReadMetadata for Option<Metadata>`. -/
def readOptMetadata {T : Type} [Toml T] (w : WordSize) : Rd (Option (Metadata T)) := do
  let h ← w.readHeader
  match h.ids with
  | [] => fail .format
  | i :: _ =>
    if i = .metadata then do
      let m ← w.readMetadata
      return some m
    else return none

/-- src/chunks/vocab/mod.rs:78-91, `read_string`. -/
def readString (w : WordSize) : Rd Str := do
  let n ← readU32
  w.alloc 1 n
  let bytes ← readExact n
  lift (Res.ofOption .format (utf8Decode bytes))

/-- src/chunks/vocab/mod.rs:93-103, `read_vocab_items` (a `String` is three words). -/
def readVocabItems (w : WordSize) (len : Nat) : Rd (List Str) := do
  w.alloc (3 * (w.bits / 8)) len
  replicateM len w.readString

/-- src/chunks/vocab/simple.rs:54-75, `SimpleVocab::read_chunk`. -/
def readSimple (w : WordSize) : Rd SimpleVocab := do
  ensureChunkType .simpleVocab
  let _ ← readU64
  let n ← readU64
  let n ← w.tryInto n
  let words ← w.readVocabItems n
  lift (SimpleVocab.new words)

/-- src/chunks/vocab/subword.rs:77-117, `SubwordVocab::new_with_boundaries`. -/
def newWithBoundaries {I : Type} [Indexer I] (w : WordSize) (words : List Str) (minN maxN : Nat) (indexer : I)
    (bow eow : Str) : Res (SubwordVocab I) := do
  let indices := createIndices words
  Res.assert (words.length = indices.len)
  let ub ← Indexer.upperBound indexer
  Res.assert (ub ≤ w.usizeMax)
  Res.assert (words.length + ub ≤ w.usizeMax)
  return { bow, eow, indexer, indices, words, minN, maxN }

/-- src/chunks/vocab/subword.rs:375-410, `read_bucketed_chunk`. -/
def readBucketed {I : Type} [BucketIndexer I] (w : WordSize) (id : ChunkId) : Rd (SubwordVocab I) := do
  ensureChunkType id
  let _ ← readU64
  let n ← readU64
  let n := w.cast n
  let minN ← readU32
  let maxN ← readU32
  let buckets ← readU32
  let words ← w.readVocabItems n
  let ix ← lift (BucketIndexer.newBuckets buckets)
  lift (w.newWithBoundaries words minN maxN ix SubwordVocab.defaultBow SubwordVocab.defaultEow)

/-- src/chunks/vocab/subword.rs:696-710, one iteration of `read_ngrams_with_indices`. -/
def readNgram (w : WordSize) : Rd (Str × Nat) := do
  let n ← readU32
  w.alloc 1 n
  let bytes ← readExact n
  let item ← lift (Res.ofOption .format (utf8Decode bytes))
  let i ← readU64
  return (item, i)

/-- src/chunks/vocab/subword.rs:691-712, `read_ngrams_with_indices`. An element is a `String` and a `u64`; on 32-bit machines
that align a `u64` to eight bytes it is four bytes larger than assumed here. -/
def readNgrams (w : WordSize) (len : Nat) : Rd (List (Str × Nat)) := do
  w.alloc (3 * (w.bits / 8) + 8) len
  replicateM len w.readNgram

/-- src/chunks/vocab/subword.rs:520-548, `read_ngram_chunk`. -/
def readExplicit (w : WordSize) : Rd ExplicitSubwordVocab := do
  ensureChunkType .explicitSubwordVocab
  let _ ← readU64
  let wordsLen ← readU64
  let ngramsLen ← readU64
  let minN ← readU32
  let maxN ← readU32
  let words ← w.readVocabItems (w.cast wordsLen)
  let ngrams ← w.readNgrams (w.cast ngramsLen)
  let r ← lift (ExplicitIndexer.newWithIndices ngrams)
  lift (w.newWithBoundaries words minN maxN r.1 SubwordVocab.defaultBow SubwordVocab.defaultEow)

/-- src/chunks/vocab/subword.rs:603-651, `read_floret_chunk`. -/
def readFloret (w : WordSize) : Rd FloretSubwordVocab := do
  ensureChunkType .floretSubwordVocab
  let _ ← readU64
  let minN ← readU32
  let maxN ← readU32
  let nBuckets ← readU64
  let nHashes ← readU32
  if ¬ (1 ≤ nHashes ∧ nHashes ≤ 4) then fail .io else do
  let seed ← readU32
  let bow ← w.readString
  let eow ← w.readString
  let ix ← lift (FloretIndexer.new nBuckets nHashes (UInt32.ofNat seed))
  lift (w.newWithBoundaries [] minN maxN ix bow eow)

/-- src/chunks/vocab/wrappers.rs:106-149, `VocabWrap::read_chunk`. -/
def readVocabWrap (w : WordSize) : Rd VocabWrap := do
  let id ← peekChunkId
  match id with
  | .simpleVocab => do return .simple (← w.readSimple)
  | .fastTextSubwordVocab => do return .fastText (← w.readBucketed .fastTextSubwordVocab)
  | .bucketSubwordVocab => do return .bucket (← w.readBucketed .bucketSubwordVocab)
  | .explicitSubwordVocab => do return .explicit (← w.readExplicit)
  | .floretSubwordVocab => do return .floret (← w.readFloret)
  | _ => fail .format

/-- src/chunks/storage/array.rs:321-359, `NdArray::read_chunk`. -/
def readNdArray (w : WordSize) : Rd (NdArray F32) := do
  ensureChunkType .ndArray
  let _ ← readU64
  let rows ← readU64
  let rows ← w.tryInto rows
  let cols ← readU32
  ensureDataType f32TypeId
  let p ← position
  skip (padding 4 p)
  w.allocArray 4 [rows, cols]
  let data ← readF32s (rows * cols)
  return ⟨Mat.ofFlat rows cols data⟩

/-- src/chunks/storage/quantized.rs:117-131: skip the padding and read the projection if there is one. -/
def readProjection (w : WordSize) (flag n : Nat) : Rd (Option (Mat F32)) := do
  let p ← position
  skip (padding 4 p)
  if flag ≠ 0 then do
    w.allocArray 4 [n, n]
    let xs ← readF32s (n * n)
    return some (Mat.ofFlat n n xs)
  else return none

/-- src/chunks/storage/quantized.rs:133-142: read the sub-quantizers. -/
def readQuantizers (w : WordSize) (quantizedLen nCentroids subDim : Nat) : Rd (List (Mat F32)) := do
  w.allocArray 4 [quantizedLen, nCentroids, subDim]
  let xs ← readF32s (quantizedLen * (nCentroids * subDim))
  return (chunks quantizedLen (nCentroids * subDim) xs).map (Mat.ofFlat nCentroids subDim)

/-- src/chunks/storage/quantized.rs:81-149, `read_product_quantizer`. -/
def readPq (w : WordSize) : Rd PqRead := do
  let projection ← readU32
  let readNorms ← readU32
  let quantizedLen ← readU32
  let reconstructedLen ← readU32
  let nCentroids ← readU32
  let nEmbeddings ← readU64
  let nEmbeddings ← w.tryInto nEmbeddings
  lift (Res.assert (decide (quantizedLen ≠ 0)))
  if reconstructedLen % quantizedLen ≠ 0 then fail .format else do
  ensureDataType u8TypeId
  ensureDataType f32TypeId
  let proj ← w.readProjection projection reconstructedLen
  let qs ← w.readQuantizers quantizedLen nCentroids (reconstructedLen / quantizedLen)
  let q ← lift (Pq.new proj nCentroids (reconstructedLen / quantizedLen) qs)
  return ⟨nEmbeddings, q, decide (readNorms ≠ 0)⟩

/-- src/chunks/storage/quantized.rs:339-346: the norms, if there are any. -/
def readQuantizedNorms (w : WordSize) (flag : Bool) (n : Nat) : Rd (Option (List F32)) :=
  if flag then do
    w.allocArray 4 [n]
    let ns ← readF32s n
    return some ns
  else return none

/-- src/chunks/storage/quantized.rs:321-358, `QuantizedArray::read_chunk`. -/
def readQuantizedArray (w : WordSize) : Rd (QuantizedArray F32) := do
  ensureChunkType .quantizedArray
  let _ ← readU64
  let r ← w.readPq
  let norms ← w.readQuantizedNorms r.readNorms r.nEmbeddings
  w.allocArray 1 [r.nEmbeddings, r.quantizer.quantizedLen]
  let cs ← readExact (r.nEmbeddings * r.quantizer.quantizedLen)
  return ⟨r.quantizer, Mat.ofFlat r.nEmbeddings r.quantizer.quantizedLen cs, norms⟩

/-- src/chunks/storage/wrappers.rs:122-152, `StorageWrap::read_chunk`. -/
def readStorageWrap (w : WordSize) : Rd StorageWrap := do
  let id ← peekChunkId
  match id with
  | .ndArray => do return .ndArray (← w.readNdArray)
  | .quantizedArray => do return .quantized (← w.readQuantizedArray)
  | _ => fail .format

/-- src/chunks/norms.rs:53-85, `NdNorms::read_chunk`. -/
def readNorms (w : WordSize) : Rd (NdNorms F32) := do
  ensureChunkType .ndNorms
  let _ ← readU64
  let len ← readU64
  let len ← w.tryInto len
  ensureDataType f32TypeId
  let p ← position
  skip (padding 4 p)
  w.allocArray 4 [len]
  let data ← readF32s len
  return ⟨data⟩

/-- src/embeddings.rs:519-547, `read_embeddings` for the wrapper types. -/
def readEmbeddings {T : Type} [Toml T] (w : WordSize) (d : Bytes) (pos : Nat) :
    Res (Embeddings T VocabWrap StorageWrap F32) := do
  let (m, p) ← (w.readOptMetadata : Rd (Option (Metadata T))) d pos
  let (v, p) ← w.readVocabWrap d p
  let (s, p) ← w.readStorageWrap d p
  let n ← Embeddings.orNone (w.readNorms d p)
  return ⟨m, s, v, n.map (·.1)⟩

end WordSize

end FF
