import Verif.Model.Messages
import Verif.Model.FastText
import Verif.Model.Floret

/-!
# Whole errors of the writers

The writers again, where each step carries the error that its failure is mapped to. Besides `write_all` there are the calls of
`stream_position`, which may fail as well. The inner `io::Error` is left out, as in Model/Messages.
-/

namespace FF

/-- A step of a writing function, with the error of its `map_err`: `write_all`, e.g. src/chunks/vocab/mod.rs:112-114, or
`stream_position`, e.g. src/chunks/storage/array.rs:219-221. -/
inductive Step where
  | put (b : Bytes) (e : Error)
  | tell (e : Error)
deriving DecidableEq, Repr

/-- A writing function (`W`, src/chunks/io.rs:161-175) with the errors of its steps, e.g. src/chunks/vocab/mod.rs:105-115. -/
structure EW where
  steps : List Step
  status : ERes Unit
deriving DecidableEq, Repr

namespace EW

/-- The block of a step. E.g. src/chunks/vocab/mod.rs:112-114. -/
def block : Step → Option Bytes
  | .put b _ => some b
  | .tell _ => none

/-- The writing function without its errors (src/chunks/io.rs:161-175). -/
def toW (w : EW) : W := ⟨w.steps.filterMap block, w.status.kinds⟩

/-- Nothing to write. E.g. the final `Ok(())`, src/chunks/metadata.rs:105. -/
def nil : EW := ⟨[], .ok ()⟩

/-- One `write_all` with `map_err(|e| Error::write_error(desc, e))`. E.g. src/chunks/vocab/mod.rs:112-114. -/
def emit (desc : String) (b : Bytes) : EW := ⟨[.put b (.write desc)], .ok ()⟩

/-- One `write_all` with `map_err(|e| Error::read_error(desc, e))`: src/compat/fasttext/io.rs:591-593. -/
def emitRead (desc : String) (b : Bytes) : EW := ⟨[.put b (.read desc)], .ok ()⟩

/-- One `stream_position`. E.g. src/chunks/storage/array.rs:219-221. -/
def tell (e : Error) : EW := ⟨[.tell e], .ok ()⟩

/-- Return with an outcome of its own. E.g. the `Error::Overflow` of src/compat/fasttext/io.rs:564. -/
def done (r : ERes Unit) : EW := ⟨[], r⟩

/-- Sequencing: the `?` after each call, e.g. src/chunks/metadata.rs:95-103. -/
def seq (a b : EW) : EW :=
  match a.status with
  | .ok () => ⟨a.steps ++ b.steps, b.status⟩
  | _ => a

/-- `++` for sequencing, e.g. src/chunks/metadata.rs:95-103. -/
instance : Append EW := ⟨seq⟩

/-- `write_u32::<LittleEndian>`. User: e.g. src/chunks/vocab/mod.rs:110-111. -/
def u32 (desc : String) (v : Nat) : EW := emit desc (leBytes 4 v)
/-- `write_u64::<LittleEndian>`. User: e.g. src/chunks/metadata.rs:99-100. -/
def u64 (desc : String) (v : Nat) : EW := emit desc (leBytes 8 v)
/-- `write_f32::<LittleEndian>`. User: e.g. src/chunks/norms.rs:137-138. -/
def f32 (desc : String) (x : F32) : EW := emit desc (f32Bytes x)

/-- A loop of writes. E.g. src/chunks/vocab/mod.rs:121-123. -/
def each {α : Type} (f : α → EW) : List α → EW
  | [] => nil
  | a :: as => f a ++ each f as

/-- The error of a computation within a writer (src/error.rs:14-59). Only `Error::Overflow` occurs
(src/compat/fasttext/io.rs:145-155, :564): lookups succeed or panic. The other kinds are here with empty texts. -/
def whole : Err → Error
  | .io => .write ""
  | .format => .format ""
  | .unknownChunk => .unknownChunk 0
  | .overflow => .overflow
  | .shape => .matrixShape
  | .conversion => .conversion "" ""
  | .ngramConversion => .ngramConversion ""
  | .quantization => .quantization

/-- Continue with the value of a computation that may fail or panic. E.g. src/compat/fasttext/io.rs:145-155. -/
def ofRes {α : Type} : Res α → (α → EW) → EW
  | .ok a, f => f a
  | .err e, _ => done (.err (whole e))
  | .panic, _ => done .panic

/-- `map_err(|e| e.context(c))`: src/chunks/vocab/subword.rs:682-685. -/
def inContext (c : String) (w : EW) : EW :=
  ⟨w.steps.map fun
      | .put b e => .put b (.context c e)
      | .tell e => .tell (.context c e),
    match w.status with
    | .err e => .err (.context c e)
    | r => r⟩

/-- The error of the first step that fails, for a sink that accepts `cap` bytes and then fails, and that answers `tells` calls of
`stream_position` and then fails. The `map_err(..)?` of each step, e.g. src/chunks/storage/array.rs:216-221. -/
def fails : Nat → Nat → List Step → Option Error
  | _, _, [] => none
  | cap, tells, .put b e :: ss => if b.length ≤ cap then fails (cap - b.length) tells ss else some e
  | _, 0, .tell e :: _ => some e
  | cap, tells + 1, .tell _ :: ss => fails cap tells ss

/-- What the sink accepts (as `W.feed`). E.g. src/chunks/storage/array.rs:216-221. -/
def accepted : Nat → Nat → List Step → Bytes
  | _, _, [] => []
  | cap, tells, .put b _ :: ss => if b.length ≤ cap then b ++ accepted (cap - b.length) tells ss else b.take cap
  | _, 0, .tell _ :: _ => []
  | cap, tells + 1, .tell _ :: ss => accepted cap tells ss

/-- Run against such a sink: accepted bytes and what the caller gets. E.g. src/chunks/storage/array.rs:216-221. -/
def run (w : EW) (cap tells : Nat) : Bytes × ERes Unit :=
  (accepted cap tells w.steps,
    match fails cap tells w.steps with
    | some e => .err e
    | none => w.status)

end EW

namespace EWrite

/-! ## Chunks -/

/-- src/chunks/io.rs:198-219, `Header::write_chunk`. -/
def header (h : Header) : EW :=
  EW.emit "Cannot write magic" magic ++ EW.u32 "Cannot write model version" modelVersion ++
  EW.u32 "Cannot write chunk identifiers length" h.ids.length ++
  EW.each (fun i => EW.u32 "Cannot write chunk identifier" i.code) h.ids

/-- src/chunks/metadata.rs:89-106, `write_chunk`. -/
def metadata {T : Type} [Toml T] (m : Metadata T) : EW :=
  EW.u32 "Cannot write metadata chunk identifier" ChunkId.metadata.code ++
  EW.u64 "Cannot write metadata length" (strLen (Toml.print m.inner)) ++
  EW.emit "Cannot write metadata" (utf8 (Toml.print m.inner))

/-- src/chunks/vocab/mod.rs:105-115, `write_string`. -/
def string (s : Str) : EW :=
  EW.u32 "Cannot write string length" (strLen s) ++ EW.emit "Cannot write string" (utf8 s)

/-- The error of `stream_position` where it is a write error: src/chunks/storage/array.rs:219-221,
src/chunks/storage/quantized.rs:178-180, src/chunks/norms.rs:111-113. -/
def noPosition : Error := .write "Cannot get file position for computing padding"

/-- The error of `stream_position` where it is a read error: src/chunks/storage/array.rs:225-227,
src/chunks/storage/quantized.rs:173-175, src/chunks/norms.rs:116-118, src/chunks/vocab/simple.rs:105-107. -/
def noPositionRead : Error := .read "Cannot get file position for computing padding"

/-- src/chunks/vocab/simple.rs:96-119, `write_chunk`, with src/chunks/vocab/mod.rs:117-125. -/
def simple (v : SimpleVocab) : EW :=
  EW.u32 "Cannot write vocabulary chunk identifier" ChunkId.simpleVocab.code ++
  EW.tell noPositionRead ++
  EW.u64 "Cannot write vocabulary chunk length" (v.len - (4 + 8)) ++
  EW.u64 "Cannot write vocabulary length" v.words.length ++ EW.each string v.words

/-- src/chunks/vocab/subword.rs:412-447, `write_bucketed_chunk`. -/
def bucketed {I : Type} [BucketIndexer I] (v : SubwordVocab I) (id : ChunkId) : EW :=
  EW.u32 "Cannot write subword vocabulary chunk identifier" id.code ++
  EW.u64 "Cannot write subword vocabulary chunk length" (bucketedLen v - (4 + 8)) ++
  EW.u64 "Cannot write vocabulary length" v.words.length ++ EW.u32 "Cannot write minimum n-gram length" v.minN ++
  EW.u32 "Cannot write maximum n-gram length" v.maxN ++
  EW.u32 "Cannot write number of buckets" (BucketIndexer.buckets v.indexer) ++ EW.each string v.words

/-- src/chunks/vocab/subword.rs:718-751, one n-gram of `write_ngrams_with_indices`. `index_ngram` does not fail (the branch for
its errors is not reached). -/
def ngram (ix : ExplicitIndexer) (g : Str) : EW :=
  match Indexer.indexNgram ix (NGram.ofStr g) with
  | .ok [] => EW.done (.err (.write ("Indexer could not index n-gram during serialization: " ++ String.ofList g)))
  | .ok [i] => EW.u32 "Cannot write ngram length" (strLen g) ++ EW.emit "Cannot write ngram" (utf8 g) ++
      EW.u64 "Cannot write ngram idx" i
  | .ok (_ :: _ :: _) =>
    EW.done (.err (.write ("Indexer maps n-gram to multiple indices during serialization: " ++ String.ofList g)))
  | .err e => EW.done (.err (EW.whole e))
  | .panic => EW.done .panic

/-- src/chunks/vocab/subword.rs:550-581, `write_ngram_chunk`, with :714-753. -/
def explicit (v : ExplicitSubwordVocab) : EW :=
  EW.u32 "Cannot write subword vocabulary chunk identifier" ChunkId.explicitSubwordVocab.code ++
  EW.u64 "Cannot write subword vocabulary chunk length" (explicitLen v - (4 + 8)) ++
  EW.u64 "Cannot write vocabulary length" v.words.length ++ EW.u64 "Cannot write ngram length" v.indexer.ngrams.length ++
  EW.u32 "Cannot write minimum n-gram length" v.minN ++ EW.u32 "Cannot write maximum n-gram length" v.maxN ++
  EW.each string v.words ++ EW.each (ngram v.indexer) v.indexer.ngrams

/-- src/chunks/vocab/subword.rs:653-688, `write_floret_chunk`. -/
def floret (v : FloretSubwordVocab) : EW :=
  EW.u32 "Cannot write subword vocabulary chunk identifier" ChunkId.floretSubwordVocab.code ++
  EW.u64 "Cannot write subword vocabulary chunk length" (floretLen v - (4 + 8)) ++
  EW.u32 "Cannot write minimum n-gram length" v.minN ++ EW.u32 "Cannot write maximum n-gram length" v.maxN ++
  EW.u64 "Cannot write number of buckets" v.indexer.nBuckets ++ EW.u32 "Cannot write number of hashes" v.indexer.nHashes ++
  EW.u32 "Cannot write hasher seed" v.indexer.seed.toNat ++
  EW.inContext "Cannot write begin of word marker" (string v.bow) ++
  EW.inContext "Cannot write end of word marker" (string v.eow)

/-- src/chunks/vocab/wrappers.rs:172-183, `write_chunk`. -/
def vocab : VocabWrap → EW
  | .simple v => simple v
  | .explicit v => explicit v
  | .fastText v => bucketed v .fastTextSubwordVocab
  | .floret v => floret v
  | .bucket v => bucketed v .bucketSubwordVocab

/-- src/chunks/storage/array.rs:212-272, `write_ndarray_chunk` on a writer whose position is `off`. -/
def ndArray (m : Mat F32) (off : Nat) : EW :=
  EW.u32 "Cannot write embedding matrix chunk identifier" ChunkId.ndArray.code ++
  EW.tell noPosition ++ EW.tell noPositionRead ++
  EW.u64 "Cannot write embedding matrix chunk length" (ndArrayLen m.len (off + 4) - (4 + 8)) ++
  EW.u64 "Cannot write number of rows of the embedding matrix" m.nrows ++
  EW.u32 "Cannot write number of columns of the embedding matrix" m.cols ++
  EW.u32 "Cannot write embedding matrix type identifier" f32TypeId ++
  EW.emit "Cannot write padding" (List.replicate (padding 4 (off + 4)) 0) ++
  EW.each (EW.each (EW.f32 "Cannot write embedding matrix component")) m.rows

/-- src/chunks/storage/quantized.rs:151-269, `write_chunk` on a writer whose position is `off`. -/
def quantized (q : Pq F32) (codes : Mat UInt8) (norms : Option (List F32)) (off : Nat) : EW :=
  EW.u32 "Cannot write quantized embedding matrix chunk identifier" ChunkId.quantizedArray.code ++
  EW.tell noPositionRead ++ EW.tell noPosition ++
  EW.u64 "Cannot write quantized embedding matrix chunk length"
    (quantizedArrayLen q codes.nrows norms (off + 4) - (4 + 8)) ++
  EW.u32 "Cannot write quantized embedding matrix projection" q.projection.isSome.toNat ++
  EW.u32 "Cannot write quantized embedding matrix norms" norms.isSome.toNat ++
  EW.u32 "Cannot write quantized embedding length" q.quantizedLen ++
  EW.u32 "Cannot write reconstructed embedding length" q.reconstructedLen ++
  EW.u32 "Cannot write number of subquantizers" q.nCentroids ++
  EW.u64 "Cannot write number of quantized embeddings" codes.nrows ++
  EW.u32 "Cannot write quantized embedding type identifier" u8TypeId ++
  EW.u32 "Cannot write reconstructed embedding type identifier" f32TypeId ++
  EW.emit "Cannot write padding" (List.replicate (padding 4 (off + 4)) 0) ++
  EW.each (fun p : Mat F32 => EW.each (EW.each (EW.f32 "Cannot write projection matrix component")) p.rows)
    q.projection.toList ++
  EW.each (fun m : Mat F32 => EW.each (EW.each (EW.f32 "Cannot write subquantizer component")) m.rows) q.quantizers ++
  EW.each (EW.each (EW.f32 "Cannot write norm vector component")) norms.toList ++
  EW.each (EW.each fun c : UInt8 => EW.emit "Cannot write quantized embedding matrix component" [c]) codes.rows

/-- src/chunks/storage/array.rs:176-182, `write_chunk` of a mapped matrix (see `W.ofView`). -/
def mmapArray (a : MmapArray) (off : Nat) : EW := EW.ofRes (StorageView.view a) fun m => ndArray m off

/-- src/chunks/storage/quantized.rs:697-708, `write_chunk` of a mapped quantized matrix (see `W.ofView`). -/
def mmapQuantized (a : MmapQuantizedArray) (off : Nat) : EW :=
  EW.ofRes a.codesView fun codes => quantized a.quantizer codes a.norms off

/-- src/chunks/storage/wrappers.rs:210-224, `write_chunk`. -/
def storage : StorageWrap → Nat → EW
  | .ndArray a => ndArray a.inner
  | .quantized a => quantized a.quantizer a.codes a.norms
  | .mmapArray a => mmapArray a
  | .mmapQuantized a => mmapQuantized a

/-- src/chunks/storage/wrappers.rs:347-356, `write_chunk`. -/
def storageView : StorageViewWrap → Nat → EW
  | .ndArray a => ndArray a.inner
  | .mmapArray a => mmapArray a

/-- src/chunks/norms.rs:104-142, `write_chunk`. -/
def norms (ns : List F32) (off : Nat) : EW :=
  EW.u32 "Cannot write norms chunk identifier" ChunkId.ndNorms.code ++
  EW.tell noPosition ++ EW.tell noPositionRead ++
  EW.u64 "Cannot write norms chunk length" (normsLen ns.length (off + 4) - (4 + 8)) ++
  EW.u64 "Cannot write norms vector length" ns.length ++ EW.u32 "Cannot write norms vector type identifier" f32TypeId ++
  EW.emit "Cannot write padding" (List.replicate (padding 4 (off + 4)) 0) ++
  EW.each (EW.f32 "Cannot write norm") ns

/-! ## Files -/

/-- Consecutive `write_chunk` calls, src/embeddings.rs:573-583 (as `Embeddings.andThen`). -/
def andThen (a b : Nat → EW) : Nat → EW := fun off => a off ++ b (off + (a off).toW.size)

/-- An optional chunk. The `if let` of src/embeddings.rs:574-576, :581-583. -/
def opt {X : Type} (f : X → Nat → EW) : Option X → Nat → EW
  | some x, off => f x off
  | none, _ => EW.nil

/-- src/embeddings.rs:555-586, `write_embeddings` on a writer whose position is `off`, with the writers of vocabulary and storage
as parameters. -/
def embeddings {T V S : Type} [Toml T] [WriteChunk V] [WriteChunk S] (writeVocab : V → Nat → EW) (writeStorage : S → Nat → EW)
    (e : Embeddings T V S F32) : Nat → EW :=
  andThen (fun _ => header ⟨e.chunkIds⟩) <|
  andThen (opt (fun m _ => metadata m) e.metadata) <|
  andThen (writeVocab e.vocab) <|
  andThen (writeStorage e.storage) <|
  opt (fun n => norms n.inner) e.norms

/-! ## Other formats -/

section
variable {T V S F : Type} [Scalar F]

/-- The loop over the rows, as `Embeddings.eachRow`: src/compat/word2vec.rs:147-154, src/compat/text.rs:301-306. -/
def eachRow [Vocab V] [Storage S F] (e : Embeddings T V S F) (unnormalize : Bool) (f : Str → List F → EW) : EW :=
  EW.each (fun p =>
    EW.ofRes (do
      let v ← Storage.embedding e.storage p.2
      let n ← e.normAt p.2
      return (v, n)) fun vn =>
      f p.1 (if unnormalize then Embeddings.intoUnnormalized vn else vn.1))
    (Vocab.words e.vocab).zipIdx

/-- The first line: src/compat/word2vec.rs:144-145, src/compat/text.rs:342-343. -/
def shapeLine [Vocab V] [Storage S F] (e : Embeddings T V S F) : EW :=
  EW.emit "Cannot write word embedding matrix shape"
    (utf8 (printNat (Vocab.wordsLen e.vocab)) ++ 32 :: utf8 (printNat e.dims) ++ [10])

/-- src/compat/word2vec.rs:140-166, `write_word2vec_binary`. -/
def word2vec [Vocab V] [Storage S F] [FloatBits F] (e : Embeddings T V S F) (unnormalize : Bool) : EW :=
  shapeLine e ++
  eachRow e unnormalize fun word v =>
    EW.emit "Cannot write token" (utf8 word ++ [32]) ++
    EW.each (fun x => EW.f32 "Cannot write embedding component" (FloatBits.toBits x)) v ++
    EW.emit "Cannot write embedding separator" [10]

/-- src/compat/text.rs:300-314, `write_text`. -/
def text [Vocab V] [Storage S F] [FloatText F] (e : Embeddings T V S F) (unnormalize : Bool) : EW :=
  eachRow e unnormalize fun word v =>
    EW.emit "Cannot write word embedding" (utf8 (word ++ ' ' :: Embeddings.joinFloats v) ++ [10])

/-- src/compat/text.rs:341-345, `write_text_dims`. -/
def textDims [Vocab V] [Storage S F] [FloatText F] (e : Embeddings T V S F) (unnormalize : Bool) : EW :=
  shapeLine e ++ text e unnormalize

/-- src/compat/floret/io.rs:114-142, `write_floret_text`. -/
def floretText [FloatText F] (e : Embeddings T FloretSubwordVocab (NdArray F) F) : EW :=
  EW.ofRes (Vocab.vocabLen e.vocab) (fun n =>
    EW.emit "Cannot write floret embeddings metadata"
      (utf8 (printNat (n - Vocab.wordsLen e.vocab)) ++ 32 :: utf8 (printNat e.dims) ++
      32 :: utf8 (printNat e.vocab.minN) ++ 32 :: utf8 (printNat e.vocab.maxN) ++
      32 :: utf8 (printNat e.vocab.indexer.nHashes) ++ 32 :: utf8 (printNat e.vocab.indexer.seed.toNat) ++
      32 :: utf8 e.vocab.bow ++ 32 :: utf8 e.vocab.eow ++ [10])) ++
  EW.ofRes (Res.assert (decide (Vocab.wordsLen e.vocab ≤ e.storage.inner.nrows))) (fun _ => EW.nil) ++
  EW.each (fun p => EW.emit "Cannot write embedding" (utf8 (printNat p.2 ++ ' ' :: Embeddings.joinFloats p.1) ++ [10]))
    (e.storage.inner.rows.drop (Vocab.wordsLen e.vocab)).zipIdx

/-- src/compat/fasttext/io.rs:275-314, `Config::write`, with :343-357 and :386-400. The model has the text of the loss. -/
def ftConfig (c : FtConfig) : EW :=
  EW.u32 "Cannot write number of dimensions" c.dims ++ EW.u32 "Cannot write window size" c.windowSize ++
  EW.u32 "Cannot write number of epochs" c.epoch ++ EW.u32 "Cannot write minimum count" c.minCount ++
  EW.u32 "Cannot write negative samples" c.neg ++ EW.u32 "Cannot write word n-gram length" c.wordNgrams ++
  EW.u32 "Cannot write loss function" c.loss.code ++ EW.u32 "Cannot write loss function" c.model.code ++
  EW.u32 "Cannot write number of buckets" c.bucket ++ EW.u32 "Cannot write minimum subword length" c.minN ++
  EW.u32 "Cannot write maximum subword length" c.maxN ++ EW.u32 "Cannot write LR update rate" c.lrUpdateRate ++
  EW.u64 "Cannot write sampling threshold" c.samplingThreshold

/-- src/compat/fasttext/io.rs:581-594: one vocabulary entry. -/
def ftWord (word : Str) : EW :=
  EW.emit "Cannot write word" (utf8 word) ++ EW.emit "Cannot write word terminator" [0] ++
  EW.u64 "Cannot write word frequency" 0 ++ EW.emitRead "Cannot read entry type" [0]

/-- src/compat/fasttext/io.rs:560-597, `write_vocab`. -/
def ftVocab (vocab : FastTextSubwordVocab) : EW :=
  if Vocab.wordsLen vocab < 2 ^ 32 then
    EW.u32 "Cannot write vocabulary size" (Vocab.wordsLen vocab) ++
    EW.u32 "Cannot write number of words" (Vocab.wordsLen vocab) ++ EW.u32 "Cannot write number of labels" 0 ++
    EW.u64 "Cannot write number of tokens" 0 ++ EW.u64 "Cannot write pruned vocabulary size" (2 ^ 64 - 1) ++
    EW.each ftWord vocab.words
  else EW.done (.err .overflow)

/-- src/compat/fasttext/io.rs:452-499, `write_embeddings`. -/
def ftEmbeddings [ScalarNat F] [Storage S F] [FloatBits F] (e : Embeddings T FastTextSubwordVocab S F) : EW :=
  EW.u64 "Cannot write number of embedding matrix rows" (shape e.storage).1 ++
  EW.u64 "Cannot write number of embedding matrix columns" (shape e.storage).2 ++
  EW.each (fun p => EW.ofRes (do
      let v ← Storage.embedding e.storage p.2
      let n ← e.normAt p.2
      e.ftWordRow p.1 v n) fun u => EW.each (fun x => EW.f32 "Cannot write embedding" (FloatBits.toBits x)) u)
    e.vocab.words.zipIdx ++
  EW.ofRes (Vocab.vocabLen e.vocab) fun n =>
    EW.each (fun i => EW.ofRes (Storage.embedding e.storage i) fun u =>
        EW.each (fun x => EW.f32 "Cannot write subword embedding" (FloatBits.toBits x)) u)
      (List.range' (Vocab.wordsLen e.vocab) (n - Vocab.wordsLen e.vocab))

/-- src/compat/fasttext/io.rs:135-176, `write_fasttext`. -/
def fastText [ScalarNat F] [Storage S F] [FloatBits F] (e : Embeddings T FastTextSubwordVocab S F) : EW :=
  EW.ofRes e.ftConfig fun config =>
    EW.u32 "Cannot write fastText magic" fastTextMagic ++ EW.u32 "Cannot write fastText version" fastTextVersion ++
    ftConfig config ++ ftVocab e.vocab ++ EW.emit "Cannot write quantization status" [0] ++ ftEmbeddings e

end

end EWrite

end FF
