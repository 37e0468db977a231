import Verif.Model.Wrappers
import Verif.Model.Embeddings
import Verif.Model.Text

/-!
# What the readers say when they fail

The readers of the finalfusion format again, with the whole error value instead of its kind (`Err`). The `io::Error`
inside `Error::Read` is left out: the readers themselves only fail because the data ends. The texts that other crates
produce for invalid UTF-8 and invalid TOML are parameters.
-/

namespace FF

/-- src/error.rs:13-60, `enum Error`, without the inner errors of other crates. -/
inductive Error where
  | context (context : String) (error : Error)
  | format (message : String)
  | ngramConversion (message : String)
  | matrixShape
  | read (desc : String)
  | unknownChunk (id : Nat)
  | overflow
  | conversion (source target : String)
  | quantization
  | write (desc : String)
deriving DecidableEq, Repr

/-- Unsigned numbers in messages (`{}`), e.g. src/chunks/io.rs:244. -/
def number (n : Nat) : String := String.ofList (printNat n)

/-- src/error.rs:14-59, the `#[error(..)]` attributes (`Display`). -/
def Error.text : Error → String
  | .context c _ => c
  | .format m => "Invalid file format " ++ m
  | .ngramConversion m => m
  | .matrixShape => "Cannot construct matrix with the given shape"
  | .read d => d
  | .unknownChunk n => "Unknown chunk identifier " ++ number n
  | .overflow => "Data cannot be represented using native word size"
  | .conversion s t => "Can't convert " ++ s ++ " to " ++ t
  | .quantization => "Cannot quantize embeddings"
  | .write d => d

/-- The kind of an error, as the other models have it (`Err`): src/error.rs:13-60. Context does not change the kind. -/
def Error.kind : Error → Err
  | .context _ e => e.kind
  | .format _ => .format
  | .ngramConversion _ => .ngramConversion
  | .matrixShape => .shape
  | .read _ => .io
  | .unknownChunk _ => .unknownChunk
  | .overflow => .overflow
  | .conversion _ _ => .conversion
  | .quantization => .quantization
  | .write _ => .io

/-- src/chunks/io.rs:51-67, `Display for ChunkIdentifier`. -/
def ChunkId.text : ChunkId → String
  | .header => "Header"
  | .simpleVocab => "SimpleVocab"
  | .ndArray => "NdArray"
  | .fastTextSubwordVocab => "FastTextSubwordVocab"
  | .explicitSubwordVocab => "ExplicitSubwordVocab"
  | .floretSubwordVocab => "FloretSubwordVocab"
  | .bucketSubwordVocab => "BucketSubwordVocab"
  | .quantizedArray => "QuantizedArray"
  | .metadata => "Metadata"
  | .ndNorms => "NdNorms"

/-- `Result<T>` of the crate (src/error.rs:9-10), or a panic. -/
inductive ERes (α : Type) where
  | ok (a : α)
  | err (e : Error)
  | panic
deriving DecidableEq, Repr

/-- `?`, e.g. src/chunks/metadata.rs:55-72. -/
def ERes.bind {α β : Type} (x : ERes α) (f : α → ERes β) : ERes β :=
  match x with
  | .ok a => f a
  | .err e => .err e
  | .panic => .panic

/-- Only the kind of the error, see `Error.kind` (src/error.rs:13-60). -/
def ERes.kinds {α : Type} : ERes α → Res α
  | .ok a => .ok a
  | .err e => .err e.kind
  | .panic => .panic

/-- A reading computation with the whole error, compare `Rd` (src/chunks/io.rs:150-158). -/
def ERd (α : Type) := Bytes → Nat → ERes (α × Nat)

/-- What other crates say about data that they do not accept: `FromUtf8Error`, src/chunks/vocab/mod.rs:89,
`toml::de::Error`, src/chunks/metadata.rs:73. -/
class ErrorText where
  utf8 : Bytes → String
  toml : Str → String

namespace ERd

/-- One thing after another, with `?` after each, e.g. src/chunks/metadata.rs:55-72. -/
instance : Monad ERd where
  pure a := fun _ pos => .ok (a, pos)
  bind p f := fun d pos => (p d pos).bind fun r => f r.1 d r.2

/-- `.map_err(|_| e)`: any error becomes `e`. Users: e.g. src/chunks/io.rs:36, src/chunks/vocab/mod.rs:89. -/
def named {α : Type} (e : Error) (m : Rd α) : ERd α := fun d pos =>
  match m d pos with
  | .ok r => .ok r
  | .err _ => .err e
  | .panic => .panic

/-- `.map_err(|e| Error::read_error(desc, e))`, src/error.rs:81-86, e.g. src/chunks/io.rs:36. -/
def reading {α : Type} (desc : String) (m : Rd α) : ERd α := named (.read desc) m

/-- A computation that returns no error: allocation, position, constructors that at most panic. E.g.
src/chunks/vocab/simple.rs:73. -/
def quiet {α : Type} (m : Rd α) : ERd α := named .overflow m

/-- Return an error, e.g. src/chunks/io.rs:233. -/
def fail {α : Type} (e : Error) : ERd α := fun _ _ => .err e

/-- `.map_err(|e| e.context(c))`, src/error.rs:63-68, users: src/chunks/vocab/subword.rs:639-640. -/
def inContext {α : Type} (c : String) (m : ERd α) : ERd α := fun d pos =>
  match m d pos with
  | .ok r => .ok r
  | .err e => .err (.context c e)
  | .panic => .panic

/-- Run `p` `n` times, as `Rd.replicateM`: src/chunks/vocab/mod.rs:98-101, src/chunks/io.rs:255-261. -/
def replicateM {α : Type} : Nat → ERd α → ERd (List α)
  | 0, _ => pure []
  | n + 1, p => do
    let a ← p
    let as ← replicateM n p
    return a :: as

/-! ## Identifiers and header -/

/-- An identifier that is read with the description `desc`: src/chunks/io.rs:35-38, :255-259,
src/chunks/vocab/wrappers.rs:114-117, src/chunks/storage/wrappers.rs:131-134; the error for unknown identifiers is
src/chunks/io.rs:85. -/
def readChunkId (desc : String) : ERd ChunkId := do
  let c ← reading desc Rd.readU32
  match ChunkId.ofCode c with
  | some i => pure i
  | none => fail (.unknownChunk c)

/-- src/chunks/io.rs:31-47, `ChunkIdentifier::ensure_chunk_type`. -/
def ensureChunkType (id : ChunkId) : ERd Unit := do
  let c ← readChunkId "Cannot read chunk identifier"
  if c ≠ id then fail (.format ("Invalid chunk identifier, expected: " ++ id.text ++ ", got: " ++ c.text))
  else pure ()

/-- src/chunks/io.rs:101-120, `TypeId::ensure_data_type`. -/
def ensureDataType (tid : Nat) : ERd Unit := do
  let t ← reading "Cannot read type identifier" Rd.readU32
  if t ≠ tid then fail (.format ("Invalid type, expected: " ++ number tid ++ ", got: " ++ number t))
  else pure ()

/-- src/chunks/io.rs:222-265, `Header::read_chunk`. -/
def readHeader : ERd Header := do
  let m ← reading "Cannot read magic" (Rd.readExact 4)
  if m ≠ magic then fail (.format ("Expected 'FiFu' as magic, got: " ++ String.ofList (utf8Lossy m))) else do
  let version ← reading "Cannot read model version" Rd.readU32
  if version ≠ modelVersion then fail (.format ("Unknown finalfusion version: " ++ number version)) else do
  let n ← reading "Cannot read chunk identifiers length" Rd.readU32
  quiet (Rd.alloc 4 n)
  let ids ← replicateM n (readChunkId "Cannot read chunk identifier")
  return ⟨ids⟩

/-! ## Vocabularies -/

section
variable [ErrorText]

/-- `String::from_utf8(bytes).map_err(..)` for words and n-grams: src/chunks/vocab/mod.rs:88-90,
src/chunks/vocab/subword.rs:703-705. -/
def decodeItem (bytes : Bytes) : ERd Str :=
  named (.format ("Item contains invalid UTF-8: " ++ ErrorText.utf8 bytes)) (Rd.lift (Res.ofOption .format (utf8Decode bytes)))

/-- src/chunks/vocab/mod.rs:78-91, `read_string`. -/
def readString : ERd Str := do
  let n ← reading "Cannot read string length" Rd.readU32
  quiet (Rd.alloc 1 n)
  let bytes ← reading "Cannot read item" (Rd.readExact n)
  decodeItem bytes

/-- src/chunks/vocab/mod.rs:93-103, `read_vocab_items`. -/
def readVocabItems (len : Nat) : ERd (List Str) := do
  quiet (Rd.alloc 24 len)
  replicateM len readString

/-- src/chunks/vocab/simple.rs:54-75, `read_chunk`. -/
def readSimple : ERd SimpleVocab := do
  ensureChunkType .simpleVocab
  let _ ← reading "Cannot read vocabulary chunk length" Rd.readU64
  let n ← reading "Cannot read vocabulary length" Rd.readU64
  let words ← readVocabItems n
  quiet (Rd.lift (SimpleVocab.new words))

/-- src/chunks/vocab/subword.rs:375-410, `read_bucketed_chunk`. -/
def readBucketed {I : Type} [BucketIndexer I] (id : ChunkId) : ERd (SubwordVocab I) := do
  ensureChunkType id
  let _ ← reading "Cannot read vocabulary chunk length" Rd.readU64
  let n ← reading "Cannot read vocabulary length" Rd.readU64
  let minN ← reading "Cannot read minimum n-gram length" Rd.readU32
  let maxN ← reading "Cannot read maximum n-gram length" Rd.readU32
  let buckets ← reading "Cannot read number of buckets" Rd.readU32
  let words ← readVocabItems n
  let ix ← quiet (Rd.lift (BucketIndexer.newBuckets buckets))
  quiet (Rd.lift (SubwordVocab.new words minN maxN ix))

/-- src/chunks/vocab/subword.rs:696-710, one iteration of `read_ngrams_with_indices`. -/
def readNgram : ERd (Str × Nat) := do
  let n ← reading "Cannot read item length" Rd.readU32
  quiet (Rd.alloc 1 n)
  let bytes ← reading "Cannot read item" (Rd.readExact n)
  let item ← decodeItem bytes
  let i ← reading "Cannot read ngram index." Rd.readU64
  return (item, i)

/-- src/chunks/vocab/subword.rs:691-712, `read_ngrams_with_indices`. -/
def readNgrams (len : Nat) : ERd (List (Str × Nat)) := do
  quiet (Rd.alloc 32 len)
  replicateM len readNgram

/-- src/chunks/vocab/subword.rs:520-548, `read_ngram_chunk`. -/
def readExplicit : ERd ExplicitSubwordVocab := do
  ensureChunkType .explicitSubwordVocab
  let _ ← reading "Cannot read vocabulary chunk length" Rd.readU64
  let wordsLen ← reading "Cannot read number of words" Rd.readU64
  let ngramsLen ← reading "Cannot read number of ngrams" Rd.readU64
  let minN ← reading "Cannot read minimum n-gram length" Rd.readU32
  let maxN ← reading "Cannot read maximum n-gram length" Rd.readU32
  let words ← readVocabItems wordsLen
  let ngrams ← readNgrams ngramsLen
  let r ← quiet (Rd.lift (ExplicitIndexer.newWithIndices ngrams))
  quiet (Rd.lift (SubwordVocab.new words minN maxN r.1))

/-- src/chunks/vocab/subword.rs:603-651, `read_floret_chunk`. -/
def readFloret : ERd FloretSubwordVocab := do
  ensureChunkType .floretSubwordVocab
  let _ ← reading "Cannot read vocabulary chunk length" Rd.readU64
  let minN ← reading "Cannot read minimum n-gram length" Rd.readU32
  let maxN ← reading "Cannot read maximum n-gram length" Rd.readU32
  let nBuckets ← reading "Cannot read number of buckets" Rd.readU64
  let nHashes ← reading "Cannot read number of hashes" Rd.readU32
  if ¬ (1 ≤ nHashes ∧ nHashes ≤ 4) then
    fail (.read ("Number of hashes should be in be more than 0 and less than 5, was: " ++ number nHashes)) else do
  let seed ← reading "Cannot read hasher seed" Rd.readU32
  let bow ← inContext "Cannot read begin of word marker" readString
  let eow ← inContext "Cannot read end of word marker" readString
  let ix ← quiet (Rd.lift (FloretIndexer.new nBuckets nHashes (UInt32.ofNat seed)))
  quiet (Rd.lift (SubwordVocab.newWithBoundaries [] minN maxN ix bow eow))

/-- Peek at the identifier of the next chunk: src/chunks/vocab/wrappers.rs:111-120,
src/chunks/storage/wrappers.rs:127-137 (= :160-170, :307-317, :362-372). -/
def peekChunkId (desc : String) : ERd ChunkId := fun d pos =>
  match readChunkId desc d pos with
  | .ok r => .ok (r.1, pos)
  | .err e => .err e
  | .panic => .panic

/-- src/chunks/vocab/wrappers.rs:106-149. -/
def readVocabWrap : ERd VocabWrap := do
  let id ← peekChunkId "Cannot read vocabulary chunk identifier"
  match id with
  | .simpleVocab => do return .simple (← readSimple)
  | .fastTextSubwordVocab => do return .fastText (← readBucketed .fastTextSubwordVocab)
  | .bucketSubwordVocab => do return .bucket (← readBucketed .bucketSubwordVocab)
  | .explicitSubwordVocab => do return .explicit (← readExplicit)
  | .floretSubwordVocab => do return .floret (← readFloret)
  | _ => fail (.format ("Invalid chunk identifier, expected one of: " ++ ChunkId.simpleVocab.text ++ ", " ++
      ChunkId.explicitSubwordVocab.text ++ ", " ++ ChunkId.fastTextSubwordVocab.text ++ ", " ++
      ChunkId.floretSubwordVocab.text ++ " or " ++ ChunkId.bucketSubwordVocab.text ++ ", got: " ++ id.text))

end

/-! ## Storages -/

/-- src/chunks/storage/array.rs:326-351 (= :114-139): everything up to the data. -/
def readNdArrayHead : ERd (Nat × Nat) := do
  ensureChunkType .ndArray
  let _ ← reading "Cannot read embedding matrix chunk length" Rd.readU64
  let rows ← reading "Cannot read number of rows of the embedding matrix" Rd.readU64
  let cols ← reading "Cannot read number of columns of the embedding matrix" Rd.readU32
  ensureDataType f32TypeId
  let p ← quiet Rd.position
  quiet (Rd.skip (padding 4 p))
  return (rows, cols)

/-- src/chunks/storage/array.rs:321-359, `NdArray::read_chunk`. -/
def readNdArray : ERd (NdArray F32) := do
  let (rows, cols) ← readNdArrayHead
  quiet (allocArray 4 [rows, cols])
  let data ← reading "Cannot read embedding matrix" (Rd.readF32s (rows * cols))
  return ⟨Mat.ofFlat rows cols data⟩

/-- src/chunks/storage/array.rs:112-163, `MmapArray::mmap_chunk`. -/
def mmapNdArray : ERd MmapArray := do
  let (rows, cols) ← readNdArrayHead
  quiet (Rd.lift (Res.assert (decide (rows * cols * 4 ≤ usizeMax))))
  let map ← reading "Cannot memory map embedding matrix" (mapRegion (rows * cols * 4))
  return ⟨map, rows, cols⟩

/-- src/chunks/storage/quantized.rs:117-131. -/
def readProjection (flag n : Nat) : ERd (Option (Mat F32)) := do
  let p ← quiet Rd.position
  quiet (Rd.skip (padding 4 p))
  if flag ≠ 0 then do
    quiet (allocArray 4 [n, n])
    let xs ← reading "Cannot read projection matrix" (Rd.readF32s (n * n))
    return some (Mat.ofFlat n n xs)
  else return none

/-- src/chunks/storage/quantized.rs:133-142. -/
def readQuantizers (quantizedLen nCentroids subDim : Nat) : ERd (List (Mat F32)) := do
  quiet (allocArray 4 [quantizedLen, nCentroids, subDim])
  let xs ← reading "Cannot read subquantizer" (Rd.readF32s (quantizedLen * (nCentroids * subDim)))
  return (chunks quantizedLen (nCentroids * subDim) xs).map (Mat.ofFlat nCentroids subDim)

/-- src/chunks/storage/quantized.rs:34-40, `check_quantizer_invariants`. The numbers are in the order in which the code
has them. -/
def checkQuantizerInvariants (quantizedLen reconstructedLen : Nat) : ERd Unit := do
  quiet (Rd.lift (Res.assert (decide (quantizedLen ≠ 0))))
  if reconstructedLen % quantizedLen ≠ 0 then
    fail (.format ("Reconstructed embedding length (" ++ number quantizedLen ++
      ") not a multiple of the quantized embedding length: (" ++ number reconstructedLen ++ ")"))
  else pure ()

/-- src/chunks/storage/quantized.rs:81-149, `read_product_quantizer`. -/
def readPq : ERd PqRead := do
  let projection ← reading "Cannot read quantized embedding matrix projection" Rd.readU32
  let readNorms ← reading "Cannot read quantized embedding matrix norms" Rd.readU32
  let quantizedLen ← reading "Cannot read quantized embedding length" Rd.readU32
  let reconstructedLen ← reading "Cannot read reconstructed embedding length" Rd.readU32
  let nCentroids ← reading "Cannot read number of subquantizers" Rd.readU32
  let nEmbeddings ← reading "Cannot read number of quantized embeddings" Rd.readU64
  checkQuantizerInvariants quantizedLen reconstructedLen
  ensureDataType u8TypeId
  ensureDataType f32TypeId
  let proj ← readProjection projection reconstructedLen
  let qs ← readQuantizers quantizedLen nCentroids (reconstructedLen / quantizedLen)
  let q ← quiet (Rd.lift (Pq.new proj nCentroids (reconstructedLen / quantizedLen) qs))
  return ⟨nEmbeddings, q, decide (readNorms ≠ 0)⟩

/-- src/chunks/storage/quantized.rs:339-346 (= :661-669). -/
def readQuantizedNorms (flag : Bool) (n : Nat) : ERd (Option (List F32)) :=
  if flag then do
    quiet (allocArray 4 [n])
    let ns ← reading "Cannot read norms" (Rd.readF32s n)
    return some ns
  else return none

/-- src/chunks/storage/quantized.rs:326-346 (= :649-669). -/
def readQuantizedHead : ERd (PqRead × Option (List F32)) := do
  ensureChunkType .quantizedArray
  let _ ← reading "Cannot read quantized embedding matrix chunk length" Rd.readU64
  let r ← readPq
  let norms ← readQuantizedNorms r.readNorms r.nEmbeddings
  return (r, norms)

/-- src/chunks/storage/quantized.rs:321-358, `QuantizedArray::read_chunk`. -/
def readQuantizedArray : ERd (QuantizedArray F32) := do
  let (r, norms) ← readQuantizedHead
  quiet (allocArray 1 [r.nEmbeddings, r.quantizer.quantizedLen])
  let cs ← reading "Cannot read quantized embeddings" (Rd.readExact (r.nEmbeddings * r.quantizer.quantizedLen))
  return ⟨r.quantizer, Mat.ofFlat r.nEmbeddings r.quantizer.quantizedLen cs, norms⟩

/-- src/chunks/storage/quantized.rs:647-680, `MmapQuantizedArray::mmap_chunk`, with :559-587. -/
def mmapQuantizedArray : ERd MmapQuantizedArray := do
  let (r, norms) ← readQuantizedHead
  quiet (Rd.lift (Res.assert (decide (r.nEmbeddings * r.quantizer.quantizedLen ≤ usizeMax))))
  let map ← reading "Cannot memory map quantized embedding matrix" (mapRegion (r.nEmbeddings * r.quantizer.quantizedLen))
  return ⟨r.quantizer, map, norms⟩

/-- src/chunks/storage/wrappers.rs:122-152. -/
def readStorageWrap : ERd StorageWrap := do
  let id ← peekChunkId "Cannot read storage chunk identifier"
  match id with
  | .ndArray => do return .ndArray (← readNdArray)
  | .quantizedArray => do return .quantized (← readQuantizedArray)
  | _ => fail (.format ("Invalid chunk identifier, expected one of: " ++ ChunkId.ndArray.text ++ " or " ++
      ChunkId.quantizedArray.text ++ ", got: " ++ id.text))

/-- src/chunks/storage/wrappers.rs:154-181. -/
def mmapStorageWrap : ERd StorageWrap := do
  let id ← peekChunkId "Cannot read storage chunk identifier"
  match id with
  | .ndArray => do return .mmapArray (← mmapNdArray)
  | .quantizedArray => do return .mmapQuantized (← mmapQuantizedArray)
  | _ => fail (.format ("Invalid chunk identifier, expected: " ++ ChunkId.ndArray.text ++ ", got: " ++ id.text))

/-- src/chunks/storage/wrappers.rs:302-328. -/
def readStorageViewWrap : ERd StorageViewWrap := do
  let id ← peekChunkId "Cannot read storage chunk identifier"
  match id with
  | .ndArray => do return .ndArray (← readNdArray)
  | _ => fail (.format ("Invalid chunk identifier, expected: " ++ ChunkId.ndArray.text ++ ", got: " ++ id.text))

/-- src/chunks/storage/wrappers.rs:359-384. -/
def mmapStorageViewWrap : ERd StorageViewWrap := do
  let id ← peekChunkId "Cannot read storage chunk identifier"
  match id with
  | .ndArray => do return .mmapArray (← mmapNdArray)
  | _ => fail (.format ("Invalid chunk identifier, expected: " ++ ChunkId.ndArray.text ++ ", got: " ++ id.text))

/-! ## Norms, metadata, files -/

/-- src/chunks/norms.rs:53-85, `read_chunk`. -/
def readNorms : ERd (NdNorms F32) := do
  ensureChunkType .ndNorms
  let _ ← reading "Cannot read norms chunk length" Rd.readU64
  let len ← reading "Cannot read norms vector length" Rd.readU64
  ensureDataType f32TypeId
  let p ← quiet Rd.position
  quiet (Rd.skip (padding 4 p))
  quiet (allocArray 4 [len])
  let data ← reading "Cannot read norms" (Rd.readF32s len)
  return ⟨data⟩

variable [ErrorText]

/-- src/chunks/metadata.rs:49-77, `read_chunk`. -/
def readMetadata {T : Type} [Toml T] : ERd (Metadata T) := do
  ensureChunkType .metadata
  let len ← reading "Cannot read chunk length" Rd.readU64
  quiet (Rd.alloc 1 len)
  let buf ← reading "Cannot read TOML metadata" (Rd.readExact len)
  let s ← named (.format ("TOML metadata contains invalid UTF-8: " ++ ErrorText.utf8 buf))
    (Rd.lift (Res.ofOption .format (utf8Decode buf)))
  let t ← named (.format ("Cannot deserialize TOML metadata: " ++ ErrorText.toml s))
    (Rd.lift (Res.ofOption .format (Toml.parse s)))
  return ⟨t⟩

/-- src/chunks/metadata.rs:109-129, `ReadMetadata for Option<Metadata>` (= src/embeddings.rs:523-535). -/
def readOptMetadata {T : Type} [Toml T] : ERd (Option (Metadata T)) := do
  let h ← readHeader
  match h.ids with
  | [] => fail (.format "Embedding file does not contain chunks")
  | i :: _ =>
    if i = .metadata then do
      let m ← readMetadata
      return some m
    else return none

/-- src/embeddings.rs:523-537 (= :486-500), everything before the storage. -/
def readHead {T V : Type} [Toml T] (readVocab : ERd V) : ERd (Option (Metadata T) × V) := do
  let m ← (readOptMetadata : ERd (Option (Metadata T)))
  let v ← readVocab
  return (m, v)

/-- `Result::ok`: src/embeddings.rs:502, :539. -/
def orNone {α : Type} : ERes α → ERes (Option α)
  | .ok a => .ok (some a)
  | .err _ => .ok none
  | .panic => .panic

/-- src/embeddings.rs:519-547, `read_embeddings`, and :485-510, `mmap_embeddings`, with the readers of vocabulary and
storage as parameters. -/
def readEmbeddings {T V S : Type} [Toml T] (readVocab : ERd V) (readStorage : ERd S) (d : Bytes) (pos : Nat) :
    ERes (Embeddings T V S F32) :=
  (readHead (T := T) readVocab d pos).bind fun ((m, v), p) =>
  (readStorage d p).bind fun (s, p) =>
  (orNone (readNorms d p)).bind fun n =>
  .ok ⟨m, s, v, n.map (·.1)⟩

end ERd

end FF
