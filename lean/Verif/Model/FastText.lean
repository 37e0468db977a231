import Verif.Model.Text

/-!
# The fastText format (src/compat/fasttext/io.rs)
-/

namespace FF

open Rd

/-- `n as f32` for a `usize`. Users: src/compat/fasttext/io.rs:419, :475. -/
class ScalarNat (F : Type) where
  ofNat : Nat → F

/-- src/compat/fasttext/io.rs:20. -/
def fastTextMagic : Nat := 793712314
/-- src/compat/fasttext/io.rs:21. -/
def fastTextVersion : Nat := 12

/-- src/compat/fasttext/io.rs:319-323, `enum Loss`. -/
inductive FtLoss where
  | hierarchicalSoftmax | negativeSampling | softmax
deriving DecidableEq, Repr

/-- src/compat/fasttext/io.rs:362-366, `enum Model`. -/
inductive FtModel where
  | cbow | skipGram | supervised
deriving DecidableEq, Repr

/-- src/compat/fasttext/io.rs:180-194, `struct Config`. The sampling threshold (`f64`) is its bit pattern. -/
structure FtConfig where
  dims : Nat
  windowSize : Nat
  epoch : Nat
  minCount : Nat
  neg : Nat
  wordNgrams : Nat
  loss : FtLoss
  model : FtModel
  bucket : Nat
  minN : Nat
  maxN : Nat
  lrUpdateRate : Nat
  samplingThreshold : Nat
deriving DecidableEq, Repr

/-- `Table::try_from(config)` (crate `toml`, through `serde`), src/compat/fasttext/io.rs:109-111. -/
class ConfigToml (T : Type) where
  ofConfig : FtConfig → Option T

/-- src/compat/fasttext/io.rs:326-341, `Loss::read`. -/
def readLoss : Rd FtLoss := do
  let n ← readU32
  if n = 1 then return .hierarchicalSoftmax
  else if n = 2 then return .negativeSampling
  else if n = 3 then return .softmax
  else fail .format

/-- src/compat/fasttext/io.rs:369-384, `Model::read`. -/
def readModel : Rd FtModel := do
  let n ← readU32
  if n = 1 then return .cbow
  else if n = 2 then return .skipGram
  else if n = 3 then return .supervised
  else fail .format

/-- src/compat/fasttext/io.rs:218-273, `Config::read`. -/
def readFtConfig : Rd FtConfig := do
  let dims ← readU32
  let windowSize ← readU32
  let epoch ← readU32
  let minCount ← readU32
  let neg ← readU32
  let wordNgrams ← readU32
  let loss ← readLoss
  let model ← readModel
  let bucket ← readU32
  let minN ← readU32
  let maxN ← readU32
  let lrUpdateRate ← readU32
  let samplingThreshold ← readU64
  return { dims, windowSize, epoch, minCount, neg, wordNgrams, loss, model, bucket, minN, maxN, lrUpdateRate,
           samplingThreshold }

/-- src/compat/fasttext/io.rs:348-352. -/
def FtLoss.code : FtLoss → Nat
  | .hierarchicalSoftmax => 1
  | .negativeSampling => 2
  | .softmax => 3

/-- src/compat/fasttext/io.rs:391-395. -/
def FtModel.code : FtModel → Nat
  | .cbow => 1
  | .skipGram => 2
  | .supervised => 3

/-- src/compat/fasttext/io.rs:275-314, `Config::write` (with :343-357 and :386-400). -/
def writeFtConfig (c : FtConfig) : W :=
  W.u32 c.dims ++ W.u32 c.windowSize ++ W.u32 c.epoch ++ W.u32 c.minCount ++ W.u32 c.neg ++ W.u32 c.wordNgrams ++
  W.u32 c.loss.code ++ W.u32 c.model.code ++ W.u32 c.bucket ++ W.u32 c.minN ++ W.u32 c.maxN ++
  W.u32 c.lrUpdateRate ++ W.u64 c.samplingThreshold

/-- src/compat/fasttext/io.rs:199-215, `Config::new`. -/
def FtConfig.new : FtConfig :=
  { dims := 0, windowSize := 0, epoch := 0, minCount := 0, neg := 0, wordNgrams := 1,
    loss := .hierarchicalSoftmax, model := .cbow, bucket := 0, minN := 0, maxN := 0, lrUpdateRate := 0,
    samplingThreshold := 0 }

/-- src/compat/fasttext/io.rs:537-548, one iteration of the loop over the words. -/
def readFtWord (lossy : Bool) : Rd Str := do
  let word ← readToken 0 lossy
  let _ ← readU64
  let entryType ← readExact 1
  if leVal entryType ≠ 0 then fail .format else return word

/-- src/compat/fasttext/io.rs:506-533: the numbers before the words; returns the number of entries. -/
def readFtVocabHead : Rd Nat := do
  let size ← readU32
  let _ ← readU32
  let nLabels ← readU32
  if nLabels > 0 then fail .format
  else do
    let _ ← readU64
    let prune ← readU64
    if prune < 2 ^ 63 then fail .format else return size

/-- src/compat/fasttext/io.rs:502-557, `read_vocab`. A 64-bit signed integer is negative exactly if its bit
pattern is at least 2^63. A `String` takes 24 bytes. -/
def readFtVocab (config : FtConfig) (lossy : Bool) : Rd FastTextSubwordVocab := do
  let size ← readFtVocabHead
  alloc 24 size
  let words ← replicateM size (readFtWord lossy)
  let indexer ← lift (FastTextIndexer.new config.bucket)
  lift (SubwordVocab.new words config.minN config.maxN indexer)

/-- src/compat/fasttext/io.rs:427-449, `read_embeddings`. `try_into` from `u64` to `usize` always succeeds on a
64-bit target. -/
def readFtMatrix {F : Type} [FloatBits F] : Rd (NdArray F) := do
  let m ← readU64
  let n ← readU64
  allocArray 4 [m, n]
  let xs ← readF32s (m * n)
  return ⟨Mat.ofFlat m n (xs.map FloatBits.ofBits)⟩

section
variable {F : Type} [Scalar F] [ScalarNat F]

/-- src/compat/fasttext/io.rs:412-419: the average of a row and the rows of its subwords. -/
def averageRows (row : List F) (subs : List (List F)) : List F :=
  (subs.foldl (List.zipWith Scalar.add) row).map (Scalar.div · (ScalarNat.ofNat (subs.length + 1)))

/-- src/compat/fasttext/io.rs:409-422: one iteration of the loop. -/
def addSubwordStep (vocab : FastTextSubwordVocab) (m : Mat F) (p : Str × Nat) : Res (Mat F) := do
  match ← vocab.subwordIndices p.1 with
  | none => return m
  | some is => do
    let row ← m.row p.2
    let subs ← is.mapM m.row
    return ⟨m.cols, m.rows.set p.2 (averageRows row subs)⟩

/-- src/compat/fasttext/io.rs:407-424, `add_subword_embeddings`. -/
def addSubwordEmbeddings (vocab : FastTextSubwordVocab) (m : Mat F) : Res (Mat F) :=
  vocab.words.zipIdx.foldlM (addSubwordStep vocab) m

/-- src/compat/fasttext/io.rs:98-100: normalise the first `n` rows; slicing panics if there are fewer. -/
def normalizeFirst (n : Nat) (m : Mat F) : Res (Mat F × List F) := do
  Res.assert (n ≤ m.nrows)
  let (top, norms) := l2NormalizeArray ⟨m.cols, m.rows.take n⟩
  return (⟨m.cols, top.rows ++ m.rows.drop n⟩, norms)

end

namespace Embeddings
variable {T S F : Type} [Scalar F] [ScalarNat F]

/-- src/compat/fasttext/io.rs:95-118: from the parts of the file to the embeddings. -/
def finishFastText [ConfigToml T] (config : FtConfig) (vocab : FastTextSubwordVocab) (storage : NdArray F) :
    Res (Embeddings T FastTextSubwordVocab (NdArray F) F) := do
  let m ← addSubwordEmbeddings vocab storage.inner
  let (m, norms) ← normalizeFirst (Vocab.wordsLen vocab) m
  if m.nrows ≠ Vocab.wordsLen vocab + config.bucket then .err .shape
  else do
    let metadata ← Res.ofOption .format (ConfigToml.ofConfig config)
    new (some ⟨metadata⟩) vocab ⟨m⟩ ⟨norms⟩

/-- src/compat/fasttext/io.rs:61-79: magic and version. -/
def readFtMagic : Rd Unit := do
  let magic ← readU32
  if magic ≠ fastTextMagic then fail .format
  else do
    let version ← readU32
    if version > fastTextVersion then fail .format else return ()

/-- src/compat/fasttext/io.rs:85-92: the quantization flag. -/
def readFtQuantized : Rd Unit := do
  let flag ← readExact 1
  if leVal flag = 1 then fail .format else return ()

/-- src/compat/fasttext/io.rs:59-120, `read_fasttext_private` (called by `read_fasttext` and
`read_fasttext_lossy`, :40-48). -/
def readFastText [FloatBits F] [ConfigToml T] (lossy : Bool) :
    Rd (Embeddings T FastTextSubwordVocab (NdArray F) F) := do
  readFtMagic
  let config ← readFtConfig
  let vocab ← readFtVocab config lossy
  readFtQuantized
  let storage ← readFtMatrix (F := F)
  lift (finishFastText config vocab storage)

/-- src/compat/fasttext/io.rs:581-594: one vocabulary entry. -/
def writeFtWord (word : Str) : W :=
  W.emit (utf8 word) ++ W.emit [0] ++ W.u64 0 ++ W.emit [0]

/-- src/compat/fasttext/io.rs:560-597, `write_vocab`. The pruned vocabulary size is `-1i64`. -/
def writeFtVocab (vocab : FastTextSubwordVocab) : W :=
  if Vocab.wordsLen vocab < 2 ^ 32 then
    W.u32 (Vocab.wordsLen vocab) ++ W.u32 (Vocab.wordsLen vocab) ++ W.u32 0 ++ W.u64 0 ++ W.u64 (2 ^ 64 - 1) ++
    W.each writeFtWord vocab.words
  else W.done (.err .overflow)

/-- src/compat/fasttext/io.rs:471-480: the row of a word as written: un-normalised, with the subword vectors
taken out. -/
def ftWordRow [Storage S F] (e : Embeddings T FastTextSubwordVocab S F) (word : Str) (v : List F) (norm : F) :
    Res (List F) := do
  let u := scale v norm
  match ← e.vocab.subwordIndices word with
  | none => return u
  | some is => do
    let subs ← is.mapM (Storage.embedding e.storage)
    return subs.foldl (List.zipWith Scalar.sub) (u.map (Scalar.mul · (ScalarNat.ofNat (is.length + 1))))

/-- src/compat/fasttext/io.rs:452-499, `write_embeddings`. -/
def writeFtEmbeddings [Storage S F] [FloatBits F] (e : Embeddings T FastTextSubwordVocab S F) : W :=
  W.u64 (shape e.storage).1 ++ W.u64 (shape e.storage).2 ++
  W.each (fun p => W.ofRes (do
      let v ← Storage.embedding e.storage p.2
      let n ← e.normAt p.2
      e.ftWordRow p.1 v n) fun u => W.each (fun x => W.f32 (FloatBits.toBits x)) u)
    e.vocab.words.zipIdx ++
  W.ofRes (Vocab.vocabLen e.vocab) fun n =>
    W.each (fun i => W.ofRes (Storage.embedding e.storage i) fun u => W.each (fun x => W.f32 (FloatBits.toBits x)) u)
      (List.range' (Vocab.wordsLen e.vocab) (n - Vocab.wordsLen e.vocab))

/-- src/compat/fasttext/io.rs:141-157: the configuration that is written. The number of buckets and the
dimensions must fit into 32 bits. -/
def ftConfig [Storage S F] (e : Embeddings T FastTextSubwordVocab S F) : Res FtConfig :=
  if BucketIndexer.buckets e.vocab.indexer < 2 ^ 32 then
    if (shape e.storage).2 < 2 ^ 32 then
      .ok { FtConfig.new with
            bucket := BucketIndexer.buckets e.vocab.indexer, dims := (shape e.storage).2,
            maxN := e.vocab.maxN, minN := e.vocab.minN }
    else .err .overflow
  else .err .overflow

/-- src/compat/fasttext/io.rs:135-176, `write_fasttext`. -/
def writeFastText [Storage S F] [FloatBits F] (e : Embeddings T FastTextSubwordVocab S F) : W :=
  W.ofRes e.ftConfig fun config =>
    W.u32 fastTextMagic ++ W.u32 fastTextVersion ++ writeFtConfig config ++ writeFtVocab e.vocab ++ W.emit [0] ++
    e.writeFtEmbeddings

end Embeddings

end FF
