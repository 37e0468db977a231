import Verif.Model.VocabIO
import Verif.Model.Storage

/-!
# Run-time wrapper types (src/chunks/vocab/wrappers.rs, src/chunks/storage/wrappers.rs)
-/

namespace FF

open Rd

/-- src/chunks/vocab/wrappers.rs:23-30, `enum VocabWrap`. -/
inductive VocabWrap where
  | simple (v : SimpleVocab)
  | explicit (v : ExplicitSubwordVocab)
  | fastText (v : FastTextSubwordVocab)
  | floret (v : FloretSubwordVocab)
  | bucket (v : BucketSubwordVocab)
deriving DecidableEq

/-- src/chunks/vocab/wrappers.rs:32-74. -/
instance : Vocab VocabWrap where
  idx
    | .simple v => Vocab.idx v
    | .explicit v => Vocab.idx v
    | .fastText v => Vocab.idx v
    | .floret v => Vocab.idx v
    | .bucket v => Vocab.idx v
  wordsLen
    | .simple v => Vocab.wordsLen v
    | .explicit v => Vocab.wordsLen v
    | .fastText v => Vocab.wordsLen v
    | .floret v => Vocab.wordsLen v
    | .bucket v => Vocab.wordsLen v
  vocabLen
    | .simple v => Vocab.vocabLen v
    | .explicit v => Vocab.vocabLen v
    | .fastText v => Vocab.vocabLen v
    | .floret v => Vocab.vocabLen v
    | .bucket v => Vocab.vocabLen v
  words
    | .simple v => Vocab.words v
    | .explicit v => Vocab.words v
    | .fastText v => Vocab.words v
    | .floret v => Vocab.words v
    | .bucket v => Vocab.words v

/-- Peek at the identifier of the next chunk: src/chunks/vocab/wrappers.rs:111-120,
src/chunks/storage/wrappers.rs:127-137 (= :160-170, :307-317, :362-372). -/
def peekChunkId : Rd ChunkId := fun d pos => (readChunkId d pos).map fun r => (r.1, pos)

/-- src/chunks/vocab/wrappers.rs:106-149. -/
def readVocabWrap : Rd VocabWrap := do
  let id ← peekChunkId
  match id with
  | .simpleVocab => do return .simple (← readChunk)
  | .fastTextSubwordVocab => do return .fastText (← readChunk)
  | .bucketSubwordVocab => do return .bucket (← readChunk)
  | .explicitSubwordVocab => do return .explicit (← readChunk)
  | .floretSubwordVocab => do return .floret (← readChunk)
  | _ => fail .format

/-- src/chunks/vocab/wrappers.rs:106-149. -/
instance : ReadChunk VocabWrap := ⟨readVocabWrap⟩

/-- src/chunks/vocab/wrappers.rs:151-184. -/
instance : WriteChunk VocabWrap where
  chunkId
    | .simple v => chunkId v
    | .explicit v => chunkId v
    | .fastText v => chunkId v
    | .floret v => chunkId v
    | .bucket v => chunkId v
  chunkLen
    | .simple v => chunkLen v
    | .explicit v => chunkLen v
    | .fastText v => chunkLen v
    | .floret v => chunkLen v
    | .bucket v => chunkLen v
  writeChunk
    | .simple v => writeChunk v
    | .explicit v => writeChunk v
    | .fastText v => writeChunk v
    | .floret v => writeChunk v
    | .bucket v => writeChunk v

/-- src/chunks/storage/wrappers.rs:29-38, `enum StorageWrap` (feature memmap on). -/
inductive StorageWrap where
  | ndArray (a : NdArray F32)
  | quantized (a : QuantizedArray F32)
  | mmapArray (a : MmapArray)
  | mmapQuantized (a : MmapQuantizedArray)
deriving DecidableEq

/-- src/chunks/storage/wrappers.rs:40-73. -/
instance [Scalar F32] : Storage StorageWrap F32 where
  embedding
    | .ndArray a => embedding a
    | .quantized a => embedding a
    | .mmapArray a => embedding a
    | .mmapQuantized a => embedding a
  embeddings
    | .ndArray a => embeddings a
    | .quantized a => embeddings a
    | .mmapArray a => embeddings a
    | .mmapQuantized a => embeddings a
  shape
    | .ndArray a => shape a
    | .quantized a => shape a
    | .mmapArray a => shape a
    | .mmapQuantized a => shape a

/-- src/chunks/storage/wrappers.rs:75-94. -/
instance : CloneFromMapping StorageWrap StorageWrap where
  cloneFromMapping
    | .ndArray a, m => (cloneFromMapping a m).map .ndArray
    | .quantized a, m => (cloneFromMapping a m).map .quantized
    | .mmapArray a, m => (cloneFromMapping a m).map .ndArray
    | .mmapQuantized a, m => (cloneFromMapping a m).map .quantized

/-- src/chunks/storage/wrappers.rs:122-152. -/
def readStorageWrap : Rd StorageWrap := do
  let id ← peekChunkId
  match id with
  | .ndArray => do return .ndArray (← readChunk)
  | .quantizedArray => do return .quantized (← readChunk)
  | _ => fail .format

/-- src/chunks/storage/wrappers.rs:122-152. -/
instance : ReadChunk StorageWrap := ⟨readStorageWrap⟩

/-- src/chunks/storage/wrappers.rs:154-181. -/
def mmapStorageWrap : Rd StorageWrap := do
  let id ← peekChunkId
  match id with
  | .ndArray => do return .mmapArray (← mmapNdArray)
  | .quantizedArray => do return .mmapQuantized (← mmapQuantizedArray)
  | _ => fail .format

/-- src/chunks/storage/wrappers.rs:183-225. -/
instance : WriteChunk StorageWrap where
  chunkId
    | .ndArray a => chunkId a
    | .quantized a => chunkId a
    | .mmapArray a => chunkId a
    | .mmapQuantized a => chunkId a
  chunkLen
    | .ndArray a => chunkLen a
    | .quantized a => chunkLen a
    | .mmapArray a => chunkLen a
    | .mmapQuantized a => chunkLen a
  writeChunk
    | .ndArray a => writeChunk a
    | .quantized a => writeChunk a
    | .mmapArray a => writeChunk a
    | .mmapQuantized a => writeChunk a

/-- src/chunks/storage/wrappers.rs:231-235, `enum StorageViewWrap` (little-endian, feature memmap on). -/
inductive StorageViewWrap where
  | mmapArray (a : MmapArray)
  | ndArray (a : NdArray F32)

/-- src/chunks/storage/wrappers.rs:237-261. -/
instance : Storage StorageViewWrap F32 where
  embedding
    | .ndArray a => embedding a
    | .mmapArray a => embedding a
  embeddings
    | .ndArray a => embeddings a
    | .mmapArray a => embeddings a
  shape
    | .ndArray a => shape a
    | .mmapArray a => shape a

/-- src/chunks/storage/wrappers.rs:263-271. -/
instance : StorageView StorageViewWrap F32 where
  view
    | .ndArray a => view a
    | .mmapArray a => view a

/-- src/chunks/storage/wrappers.rs:273-287. -/
instance : CloneFromMapping StorageViewWrap StorageViewWrap where
  cloneFromMapping
    | .ndArray a, m => (cloneFromMapping a m).map .ndArray
    | .mmapArray a, m => (cloneFromMapping a m).map .ndArray

/-- src/chunks/storage/wrappers.rs:302-328. -/
def readStorageViewWrap : Rd StorageViewWrap := do
  let id ← peekChunkId
  match id with
  | .ndArray => do return .ndArray (← readChunk)
  | _ => fail .format

/-- src/chunks/storage/wrappers.rs:302-328. -/
instance : ReadChunk StorageViewWrap := ⟨readStorageViewWrap⟩

/-- src/chunks/storage/wrappers.rs:359-384. -/
def mmapStorageViewWrap : Rd StorageViewWrap := do
  let id ← peekChunkId
  match id with
  | .ndArray => do return .mmapArray (← mmapNdArray)
  | _ => fail .format

/-- src/chunks/storage/wrappers.rs:330-357. -/
instance : WriteChunk StorageViewWrap where
  chunkId
    | .ndArray a => chunkId a
    | .mmapArray a => chunkId a
  chunkLen
    | .ndArray a => chunkLen a
    | .mmapArray a => chunkLen a
  writeChunk
    | .ndArray a => writeChunk a
    | .mmapArray a => writeChunk a

end FF
