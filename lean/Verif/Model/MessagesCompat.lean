import Verif.Model.Messages
import Verif.Model.FastText
import Verif.Model.Floret

/-!
# What the readers of other formats say when they fail

The readers of fastText, word2vec, text and floret files again, with the whole error value, compare Model/Messages.
-/

namespace FF

/-- What std and the crate `toml` say: `ParseIntError` (src/util.rs:92-97), `ParseFloatError` (src/compat/text.rs:237-239,
src/compat/floret/io.rs:74-76), `toml::ser::Error` (src/compat/fasttext/io.rs:109-111). -/
class ParseText where
  integer : Str → String
  float : Str → String
  config : FtConfig → String

/-- `?` in functions that do not read, e.g. src/compat/text.rs:237-239. -/
instance : Monad ERes where
  pure := .ok
  bind := ERes.bind

/-- A computation that returns no error, compare `ERd.quiet`. E.g. src/compat/text.rs:268. -/
def ERes.quiet {α : Type} : Res α → ERes α
  | .ok a => .ok a
  | .err _ => .err .overflow
  | .panic => .panic

/-- A loop with `?` in its body, results collected: src/compat/text.rs:205-240, src/compat/floret/io.rs:65-87. -/
def ERes.each {α β : Type} (f : α → ERes β) : List α → ERes (List β)
  | [] => .ok []
  | a :: as => (f a).bind fun b => (ERes.each f as).bind fun bs => .ok (b :: bs)

namespace ERd
variable [ErrorText] [ParseText]

/-! ## src/util.rs -/

/-- src/util.rs:108-113, src/compat/text.rs:219-224. -/
def decodeToken (lossy : Bool) (bs : Bytes) : ERes Str :=
  if lossy then .ok (utf8Lossy bs)
  else match utf8Decode bs with
    | some s => .ok s
    | none => .err (.format ("Token contains invalid UTF-8: " ++ ErrorText.utf8 bs))

/-- src/util.rs:101-116, `read_string`. -/
def readToken (delim : UInt8) (lossy : Bool) : ERd Str := do
  let buf ← reading "Cannot read string" (readUntil delim)
  fun _ pos => (decodeToken lossy buf.dropLast).bind fun s => .ok (s, pos)

/-- src/util.rs:88-99, `read_number`. -/
def readNumber (delim : UInt8) : ERd Nat := do
  let field ← readToken delim false
  named (.format ("Cannot parse shape component '" ++ String.ofList field ++ "': " ++ ParseText.integer field))
    (Rd.lift (Res.ofOption .format (parseUsize field)))

/-! ## fastText (src/compat/fasttext/io.rs) -/

/-- src/compat/fasttext/io.rs:61-79. -/
def readFtMagic : ERd Unit := do
  let magic ← reading "Cannot fastText read magic" Rd.readU32
  if magic ≠ fastTextMagic then
    fail (.format ("Expected " ++ number fastTextMagic ++ " as magic, got: " ++ number magic)) else do
  let version ← reading "Cannot read fastText version" Rd.readU32
  if version > fastTextVersion then
    fail (.format ("Expected " ++ number fastTextVersion ++ " as version, got: " ++ number version))
  else pure ()

/-- src/compat/fasttext/io.rs:326-341, `Loss::read`. -/
def readLoss : ERd FtLoss := do
  let n ← reading "Cannot read loss type" Rd.readU32
  if n = 1 then pure .hierarchicalSoftmax
  else if n = 2 then pure .negativeSampling
  else if n = 3 then pure .softmax
  else fail (.format ("Unknown loss: " ++ number n))

/-- src/compat/fasttext/io.rs:369-384, `Model::read`. -/
def readModel : ERd FtModel := do
  let n ← reading "Cannot read model type" Rd.readU32
  if n = 1 then pure .cbow
  else if n = 2 then pure .skipGram
  else if n = 3 then pure .supervised
  else fail (.format ("Unknown model: " ++ number n))

/-- src/compat/fasttext/io.rs:218-273, `Config::read`. -/
def readFtConfig : ERd FtConfig := do
  let dims ← reading "Cannot read number of dimensions" Rd.readU32
  let windowSize ← reading "Cannot read window size" Rd.readU32
  let epoch ← reading "Cannot read number of epochs" Rd.readU32
  let minCount ← reading "Cannot read minimum count" Rd.readU32
  let neg ← reading "Cannot read negative samples" Rd.readU32
  let wordNgrams ← reading "Cannot read word n-gram length" Rd.readU32
  let loss ← readLoss
  let model ← readModel
  let bucket ← reading "Cannot read number of buckets" Rd.readU32
  let minN ← reading "Cannot read minimum subword length" Rd.readU32
  let maxN ← reading "Cannot read maximum subword length" Rd.readU32
  let lrUpdateRate ← reading "Cannot read LR update rate" Rd.readU32
  let samplingThreshold ← reading "Cannot read sampling threshold" Rd.readU64
  return { dims, windowSize, epoch, minCount, neg, wordNgrams, loss, model, bucket, minN, maxN, lrUpdateRate,
           samplingThreshold }

/-- src/compat/fasttext/io.rs:537-548, one iteration of the loop over the words. -/
def readFtWord (lossy : Bool) : ERd Str := do
  let word ← readToken 0 lossy
  let _ ← reading "Cannot read word frequency" Rd.readU64
  let entryType ← reading "Cannot read entry type" (Rd.readExact 1)
  if leVal entryType ≠ 0 then fail (.format "Non-word entry") else pure word

/-- src/compat/fasttext/io.rs:506-533. -/
def readFtVocabHead : ERd Nat := do
  let size ← reading "Cannot read vocabulary size" Rd.readU32
  let _ ← reading "Cannot read number of words" Rd.readU32
  let nLabels ← reading "Cannot read number of labels" Rd.readU32
  if nLabels > 0 then fail (.format "fastText prediction models are not supported") else do
  let _ ← reading "Cannot read number of tokens" Rd.readU64
  let prune ← reading "Cannot read pruned vocabulary size" Rd.readU64
  if prune < 2 ^ 63 then fail (.format "Pruned vocabularies are not supported") else pure size

/-- src/compat/fasttext/io.rs:502-557, `read_vocab`. -/
def readFtVocab (config : FtConfig) (lossy : Bool) : ERd FastTextSubwordVocab := do
  let size ← readFtVocabHead
  quiet (Rd.alloc 24 size)
  let words ← replicateM size (readFtWord lossy)
  let indexer ← quiet (Rd.lift (FastTextIndexer.new config.bucket))
  quiet (Rd.lift (SubwordVocab.new words config.minN config.maxN indexer))

/-- src/compat/fasttext/io.rs:85-92. -/
def readFtQuantized : ERd Unit := do
  let flag ← reading "Cannot read quantization information" (Rd.readExact 1)
  if leVal flag = 1 then fail (.format "Quantized fastText models are not supported") else pure ()

/-- src/compat/fasttext/io.rs:427-449, `read_embeddings`. -/
def readFtMatrix {F : Type} [FloatBits F] : ERd (NdArray F) := do
  let m ← reading "Cannot read number of embedding matrix rows" Rd.readU64
  let n ← reading "Cannot read number of embedding matrix columns" Rd.readU64
  quiet (allocArray 4 [m, n])
  let xs ← reading "Cannot read embeddings" (Rd.readF32s (m * n))
  return ⟨Mat.ofFlat m n (xs.map FloatBits.ofBits)⟩

section
variable {T F : Type} [Scalar F]

/-- src/compat/fasttext/io.rs:95-118. -/
def finishFastText [ScalarNat F] [ConfigToml T] (config : FtConfig) (vocab : FastTextSubwordVocab) (storage : NdArray F) :
    ERd (Embeddings T FastTextSubwordVocab (NdArray F) F) := do
  let m ← quiet (Rd.lift (addSubwordEmbeddings vocab storage.inner))
  let r ← quiet (Rd.lift (normalizeFirst (Vocab.wordsLen vocab) m))
  if r.1.nrows ≠ Vocab.wordsLen vocab + config.bucket then fail .matrixShape else do
  let metadata ← named (.format ("Cannot serialize model metadata to TOML: " ++ ParseText.config config))
    (Rd.lift (Res.ofOption .format (ConfigToml.ofConfig config)))
  quiet (Rd.lift (Embeddings.new (some ⟨metadata⟩) vocab ⟨r.1⟩ ⟨r.2⟩))

/-- src/compat/fasttext/io.rs:59-120, `read_fasttext_private`. -/
def readFastText [ScalarNat F] [FloatBits F] [ConfigToml T] (lossy : Bool) :
    ERd (Embeddings T FastTextSubwordVocab (NdArray F) F) := do
  readFtMagic
  let config ← readFtConfig
  let vocab ← readFtVocab config lossy
  readFtQuantized
  let storage ← readFtMatrix (F := F)
  finishFastText config vocab storage

/-! ## word2vec (src/compat/word2vec.rs) -/

/-- src/compat/word2vec.rs:96-108, one iteration of the reading loop. -/
def readWord2vecEntry [FloatBits F] (embedLen : Nat) (lossy : Bool) : ERd (Str × List F) := do
  let word ← readToken 32 lossy
  let xs ← reading "Cannot read word embedding" (Rd.readF32s embedLen)
  return (trimBy isWhitespace word, xs.map FloatBits.ofBits)

/-- src/compat/word2vec.rs:91-92, src/compat/text.rs:174-175 (= :181-182): the first line. -/
def readShapeLine : ERd (Nat × Nat) := do
  let nWords ← readNumber 32
  let embedLen ← readNumber 10
  return (nWords, embedLen)

/-- src/compat/word2vec.rs:94-115: everything behind the first line. -/
def readWord2vecBody [FloatBits F] (lossy : Bool) (nWords embedLen : Nat) :
    ERd (Embeddings T SimpleVocab (NdArray F) F) := do
  quiet (allocArray 4 [nWords, embedLen])
  quiet (Rd.alloc 24 nWords)
  let entries ← replicateM nWords (readWord2vecEntry (F := F) embedLen lossy)
  let vocab ← quiet (Rd.lift (SimpleVocab.new (entries.map (·.1))))
  quiet (Rd.lift (Embeddings.newWithMaybeNorms none vocab (NdArray.mk ⟨embedLen, entries.map (·.2)⟩) none))

/-- src/compat/word2vec.rs:89-116, `read_word2vec_binary_raw`. -/
def readWord2vecRaw [FloatBits F] (lossy : Bool) : ERd (Embeddings T SimpleVocab (NdArray F) F) := do
  let s ← readShapeLine
  readWord2vecBody lossy s.1 s.2

/-- src/compat/word2vec.rs:58-72, `read_word2vec_binary` and `read_word2vec_binary_lossy`. -/
def readWord2vec [FloatBits F] (lossy : Bool) : ERd (Embeddings T SimpleVocab (NdArray F) F) := do
  let e ← (readWord2vecRaw lossy : ERd (Embeddings T SimpleVocab (NdArray F) F))
  quiet (Rd.lift (Embeddings.normalizeRead e))

/-! ## Text (src/compat/text.rs) -/

/-- src/compat/text.rs:237-239, src/compat/floret/io.rs:74-76. -/
def parseComponent [FloatText F] (p : Str) : ERes F :=
  match FloatText.parse p with
  | some x => .ok x
  | none => .err (.format ("Cannot parse vector component '" ++ String.ofList p ++ "': " ++ ParseText.float p))

/-- src/compat/text.rs:219-240, one line. -/
def readTextLine [FloatText F] (lossy : Bool) (buf : Bytes) : ERes (Str × List F) :=
  (decodeToken lossy buf).bind fun line =>
  match parts line with
  | [] => .err (.format "Spurious empty line")
  | word :: ps => (ERes.each parseComponent ps).bind fun xs => .ok (trimBy isAsciiWs word, xs)

/-- src/compat/text.rs:243-264: the shape of the matrix. -/
def tableShape (shape : Option (Nat × Nat)) (nWords nData : Nat) : ERes (Nat × Nat) :=
  match shape with
  | some (n, dims) =>
    if nWords ≠ n then
      .err (.format ("Incorrect vocabulary size, expected: " ++ number n ++ ", got: " ++ number nWords))
    else if n = 0 then .panic
    else if nData / n ≠ dims then
      .err (.format ("Incorrect embedding dimensionality, expected: " ++ number dims ++ ", got: " ++ number (nData / n)))
    else .ok (n, dims)
  | none => if nWords = 0 then .panic else .ok (nWords, nData / nWords)

/-- src/compat/text.rs:266, src/compat/floret/io.rs:90-91. -/
def fromShapeVec {α : Type} (shape : Nat × Nat) (data : List α) : ERes (Mat α) :=
  if data.length = shape.1 * shape.2 then .ok (Mat.ofFlat shape.1 shape.2 data) else .err .matrixShape

/-- src/compat/text.rs:188-274, `read_embeds`. -/
def readEmbeds [FloatText F] (shape : Option (Nat × Nat)) (lossy : Bool) (d : Bytes) (pos : Nat) :
    ERes (Embeddings T SimpleVocab (NdArray F) F) := do
  ERes.quiet (Embeddings.allocTable shape)
  let rows ← ERes.each (readTextLine (F := F) lossy) (textLines (d.drop pos))
  let shape ← tableShape shape rows.length (rows.map (·.2)).flatten.length
  let m ← fromShapeVec shape (rows.map (·.2)).flatten
  let vocab ← ERes.quiet (SimpleVocab.new (rows.map (·.1)))
  ERes.quiet (Embeddings.newWithMaybeNorms none vocab (NdArray.mk m) none)

/-- src/compat/text.rs:73-85, `read_text` and `read_text_lossy` (with :101-103). -/
def readText [FloatText F] (lossy : Bool) (d : Bytes) (pos : Nat) : ERes (Embeddings T SimpleVocab (NdArray F) F) := do
  ERes.quiet (Embeddings.normalizeRead (← readEmbeds none lossy d pos))

/-- src/compat/text.rs:173-186, `read_text_dims_raw` and `read_text_dims_raw_lossy`. -/
def readTextDimsRaw [FloatText F] (lossy : Bool) (d : Bytes) (pos : Nat) :
    ERes (Embeddings T SimpleVocab (NdArray F) F) := do
  let r ← readShapeLine d pos
  readEmbeds (some r.1) lossy d r.2

/-- src/compat/text.rs:139-151, `read_text_dims` and `read_text_dims_lossy`. -/
def readTextDims [FloatText F] (lossy : Bool) (d : Bytes) (pos : Nat) :
    ERes (Embeddings T SimpleVocab (NdArray F) F) := do
  ERes.quiet (Embeddings.normalizeRead (← readTextDimsRaw lossy d pos))

/-! ## floret (src/compat/floret/io.rs) -/

/-- src/compat/floret/io.rs:29-36. -/
def readFloretHead : ERd FloretHead := do
  let nBuckets ← readNumber 32
  let embedLen ← readNumber 32
  let minN ← readNumber 32
  let maxN ← readNumber 32
  let nHashes ← readNumber 32
  let seed ← readNumber 32
  let bow ← readToken 32 false
  let eow ← readToken 10 false
  return ⟨nBuckets, embedLen, minN % 2 ^ 32, maxN % 2 ^ 32, nHashes % 2 ^ 32, seed, bow, eow⟩

/-- src/compat/floret/io.rs:38-60. -/
def checkFloretHead (h : FloretHead) : ERes Unit :=
  if h.nBuckets = 0 then .err (.format "Expected at least 1 bucket")
  else if h.embedLen = 0 then .err (.format "Embeddings should have at least 1 dimension")
  else if h.minN > h.maxN then
    .err (.format ("The minimum n-gram length (" ++ number h.minN ++ ") must not be larger than the maximum length (" ++
      number h.maxN ++ ")"))
  else if ¬(1 ≤ h.nHashes ∧ h.nHashes ≤ 4) then
    .err (.format ("The number of hashes should be between 1 and 4 (inclusive), was: " ++ number h.nHashes))
  else .ok ()

/-- src/compat/floret/io.rs:66-85, one line. -/
def readFloretLine [FloatText F] (embedLen : Nat) (buf : Bytes) : ERes (List F) :=
  match utf8Decode buf with
  | none => .err (.read "Cannot read line")
  | some line => (ERes.each (parseComponent (F := F)) ((parts line).drop 1)).bind fun xs =>
    if xs.length ≠ embedLen then
      .err (.format ("Incorrect number of embedding components, expected: " ++ number embedLen ++ ", got: " ++
        number xs.length))
    else .ok xs

/-- src/compat/floret/io.rs:28-101, `read_floret_text`. -/
def readFloretText [FloatText F] (d : Bytes) (pos : Nat) : ERes (Embeddings T FloretSubwordVocab (NdArray F) F) := do
  let r ← readFloretHead d pos
  checkFloretHead r.1
  ERes.quiet (Res.assert (decide (4 * (r.1.nBuckets * r.1.embedLen) ≤ isizeMax)))
  let rows ← ERes.each (readFloretLine (F := F) r.1.embedLen) (bufLines (d.drop r.2))
  let m ← fromShapeVec (r.1.nBuckets, r.1.embedLen) rows.flatten
  let indexer ← ERes.quiet (FloretIndexer.new r.1.nBuckets r.1.nHashes (UInt32.ofNat r.1.seed))
  let vocab ← ERes.quiet (SubwordVocab.newWithBoundaries [] r.1.minN r.1.maxN indexer r.1.bow r.1.eow)
  ERes.quiet (Embeddings.newWithMaybeNorms none vocab (NdArray.mk m) none)

end

end ERd

end FF
