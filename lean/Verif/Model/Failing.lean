import Verif.Model.FastText
import Verif.Model.Floret
import Verif.Model.Wrappers

/-!
# Streams that fail

The readers again, on a stream that delivers the first `k` bytes of the data and then fails with an error other than the end of the
data, whenever it is asked for more. For `k` beyond the length of the data the stream does not fail: the end of the data comes
first. Such errors become the same kind of error as a missing byte (`Error::read_error`, src/error.rs:82-87), but `read_until` and
`lines` tell them from the end of the data.
-/

namespace FF

open Rd

namespace Failing

/-- A reader that gets its data with `read_exact` only (e.g. src/chunks/vocab/mod.rs:80-103): a failure at byte `k` is an I/O error exactly where the
end of the data would be one. Seeking past the end is no error in either case. -/
def exact {α : Type} (k : Nat) (m : Rd α) : Rd α := fun d pos => m (d.take k) pos

/-- `BufRead::read_until`: what was read before the failure is dropped with the error. User: src/util.rs:104. -/
def readUntil (k : Nat) (delim : UInt8) : Rd Bytes := fun d pos =>
  let l := takeThrough delim (d.drop pos)
  if (l.getLast? = some delim ∧ pos + l.length ≤ k) ∨ d.length < k then .ok (l, pos + l.length) else .err .io

/-- src/util.rs:101-116, `read_string`. -/
def readToken (k : Nat) (delim : UInt8) (lossy : Bool) : Rd Str := do
  let buf ← readUntil k delim
  lift (decodeToken lossy buf.dropLast)

/-- src/util.rs:88-99, `read_number`. -/
def readNumber (k : Nat) (delim : UInt8) : Rd Nat := do
  let field ← readToken k delim false
  lift (Res.ofOption .format (parseUsize field))

/-- A loop over lines, with `read_until(b'\n', ..)` until it returns no data: src/compat/text.rs:205-240; and with
`BufRead::lines`: src/compat/floret/io.rs:65-85. With fuel (number of bytes plus one suffices). `f` is what is done with a line and
its terminator. -/
def eachLine {α : Type} (k : Nat) (f : Bytes → Res α) (d : Bytes) : Nat → Nat → Res (List α)
  | 0, _ => .ok []
  | fuel + 1, pos => do
    let (l, pos) ← readUntil k 10 d pos
    match l with
    | [] => return []
    | b :: l => do
      let a ← f (b :: l)
      let as ← eachLine k f d fuel pos
      return a :: as

section
variable {T F : Type} [Scalar F]

/-- src/compat/word2vec.rs:96-108. -/
def readWord2vecEntry [FloatBits F] (k embedLen : Nat) (lossy : Bool) : Rd (Str × List F) := do
  let word ← readToken k 32 lossy
  let xs ← exact k (readF32s embedLen)
  return (trimBy isWhitespace word, xs.map FloatBits.ofBits)

/-- src/compat/word2vec.rs:89-116, `read_word2vec_binary_raw`. -/
def readWord2vecRaw [FloatBits F] (k : Nat) (lossy : Bool) : Rd (Embeddings T SimpleVocab (NdArray F) F) := do
  let nWords ← readNumber k 32
  let embedLen ← readNumber k 10
  allocArray 4 [nWords, embedLen]
  alloc 24 nWords
  let entries ← replicateM nWords (readWord2vecEntry (F := F) k embedLen lossy)
  let vocab ← lift (SimpleVocab.new (entries.map (·.1)))
  lift (Embeddings.newWithMaybeNorms none vocab (NdArray.mk ⟨embedLen, entries.map (·.2)⟩) none)

/-- src/compat/word2vec.rs:58-72. -/
def readWord2vec [FloatBits F] (k : Nat) (lossy : Bool) : Rd (Embeddings T SimpleVocab (NdArray F) F) := do
  let e ← (readWord2vecRaw k lossy : Rd (Embeddings T SimpleVocab (NdArray F) F))
  lift (Embeddings.normalizeRead e)

/-- src/compat/text.rs:188-274, `read_embeds`. -/
def readEmbeds [FloatText F] (k : Nat) (shape : Option (Nat × Nat)) (lossy : Bool) (d : Bytes) (pos : Nat) :
    Res (Embeddings T SimpleVocab (NdArray F) F) := do
  Embeddings.allocTable shape
  let rows ← eachLine k (fun l => Embeddings.readTextLine (F := F) lossy (stripLast 10 l)) d (d.length - pos + 1) pos
  let shape ← Embeddings.tableShape shape rows.length (rows.map (·.2)).flatten.length
  let m ← Embeddings.fromShapeVec shape (rows.map (·.2)).flatten
  let vocab ← SimpleVocab.new (rows.map (·.1))
  Embeddings.newWithMaybeNorms none vocab (NdArray.mk m) none

/-- src/compat/text.rs:73-85, `read_text` and `read_text_lossy`. -/
def readText [FloatText F] (k : Nat) (lossy : Bool) (d : Bytes) (pos : Nat) :
    Res (Embeddings T SimpleVocab (NdArray F) F) := do
  Embeddings.normalizeRead (← readEmbeds k none lossy d pos)

/-- src/compat/text.rs:173-186, `read_text_dims_raw` and `read_text_dims_raw_lossy`. -/
def readTextDimsRaw [FloatText F] (k : Nat) (lossy : Bool) (d : Bytes) (pos : Nat) :
    Res (Embeddings T SimpleVocab (NdArray F) F) := do
  let (nWords, pos) ← readNumber k 32 d pos
  let (embedLen, pos) ← readNumber k 10 d pos
  readEmbeds k (some (nWords, embedLen)) lossy d pos

/-- src/compat/text.rs:139-151, `read_text_dims` and `read_text_dims_lossy`. -/
def readTextDims [FloatText F] (k : Nat) (lossy : Bool) (d : Bytes) (pos : Nat) :
    Res (Embeddings T SimpleVocab (NdArray F) F) := do
  Embeddings.normalizeRead (← readTextDimsRaw k lossy d pos)

/-- src/compat/floret/io.rs:29-36. -/
def readFloretHead (k : Nat) : Rd FloretHead := do
  let nBuckets ← readNumber k 32
  let embedLen ← readNumber k 32
  let minN ← readNumber k 32
  let maxN ← readNumber k 32
  let nHashes ← readNumber k 32
  let seed ← readNumber k 32
  let bow ← readToken k 32 false
  let eow ← readToken k 10 false
  return ⟨nBuckets, embedLen, minN % 2 ^ 32, maxN % 2 ^ 32, nHashes % 2 ^ 32, seed, bow, eow⟩

/-- src/compat/floret/io.rs:28-101, `read_floret_text`. `BufRead::lines` (:65) passes the failure on. -/
def readFloret [FloatText F] (k : Nat) (d : Bytes) (pos : Nat) :
    Res (Embeddings T FloretSubwordVocab (NdArray F) F) := do
  let (h, pos) ← readFloretHead k d pos
  checkFloretHead h
  Res.assert (4 * (h.nBuckets * h.embedLen) ≤ isizeMax)
  let rows ← eachLine k (fun l => Embeddings.readFloretLine (F := F) h.embedLen
    (if l.getLast? = some 10 then stripLast 13 l.dropLast else l)) d (d.length - pos + 1) pos
  let m ← Embeddings.fromShapeVec (h.nBuckets, h.embedLen) rows.flatten
  let indexer ← FloretIndexer.new h.nBuckets h.nHashes (UInt32.ofNat h.seed)
  let vocab ← SubwordVocab.newWithBoundaries [] h.minN h.maxN indexer h.bow h.eow
  Embeddings.newWithMaybeNorms none vocab (NdArray.mk m) none

/-- src/compat/fasttext/io.rs:537-548. -/
def readFtWord (k : Nat) (lossy : Bool) : Rd Str := do
  let word ← readToken k 0 lossy
  let _ ← exact k readU64
  let entryType ← exact k (readExact 1)
  if leVal entryType ≠ 0 then fail .format else return word

/-- src/compat/fasttext/io.rs:502-557, `read_vocab`. -/
def readFtVocab (k : Nat) (config : FtConfig) (lossy : Bool) : Rd FastTextSubwordVocab := do
  let size ← exact k readFtVocabHead
  alloc 24 size
  let words ← replicateM size (readFtWord k lossy)
  let indexer ← lift (FastTextIndexer.new config.bucket)
  lift (SubwordVocab.new words config.minN config.maxN indexer)

/-- src/compat/fasttext/io.rs:59-120, `read_fasttext_private`. -/
def readFastText [ScalarNat F] [FloatBits F] [ConfigToml T] (k : Nat) (lossy : Bool) :
    Rd (Embeddings T FastTextSubwordVocab (NdArray F) F) := do
  exact k Embeddings.readFtMagic
  let config ← exact k readFtConfig
  let vocab ← readFtVocab k config lossy
  exact k Embeddings.readFtQuantized
  let storage ← exact k (readFtMatrix (F := F))
  lift (Embeddings.finishFastText config vocab storage)

end

/-- src/embeddings.rs:519-547, `read_embeddings`: all data is read with `read_exact`. -/
def readEmbeddings {T V S : Type} [Toml T] [ReadChunk V] [ReadChunk S] (k : Nat) (d : Bytes) (pos : Nat) :
    Res (Embeddings T V S F32) :=
  Embeddings.read (d.take k) pos

end Failing

end FF
