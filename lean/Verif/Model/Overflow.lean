import Verif.Model.Accessors
import Verif.Model.Floret
import Verif.Model.Wrappers

/-!
# Builds with and without overflow checks

Rust's arithmetic on `usize` and `u64` panics on overflow in builds with overflow checks (the default for debug builds) and
wraps around in builds without (the default for release builds). The rest of the model describes builds with checks. Here
the functions whose arithmetic can overflow for data that fits into memory, or for files, are modelled for both.
-/

namespace FF

open Rd

/-- The setting `overflow-checks` of the build profile. Matters for src/chunks/storage/array.rs:142,
src/chunks/storage/quantized.rs:570, src/compat/text.rs:199, src/compat/floret/io.rs:62, src/subword.rs:122, :380,
src/chunks/vocab/subword.rs:174, :206, :237. -/
inductive Build where
  | checked
  | unchecked
deriving DecidableEq, Repr

/-- The `u64` or `usize` that an operation with the exact result `n` gives. Users: src/chunks/storage/array.rs:142 and the
other places listed at `Build`. -/
def Build.arith (b : Build) (n : Nat) : Res Nat :=
  if n ≤ usizeMax then .ok n
  else
    match b with
    | .checked => .panic
    | .unchecked => .ok (n % 2 ^ 64)

/-! ## Vocabularies -/

/-- src/subword.rs:120-123, `HashIndexer::upper_bound`: `2u64.pow(exp)`. -/
def HashIndexer.upperBoundIn (b : Build) (ix : HashIndexer) : Res Nat := b.arith (2 ^ ix.bucketsExp)

namespace SubwordVocab

/-- src/chunks/vocab/subword.rs:58-117, `new` for `HashIndexer`; the second sum is a `checked_add` in both builds. -/
def newIn (b : Build) (words : List Str) (minN maxN : Nat) (indexer : HashIndexer) : Res BucketSubwordVocab := do
  let indices := createIndices words
  Res.assert (words.length = indices.len)
  let ub ← indexer.upperBoundIn b
  Res.assert (words.length + ub ≤ usizeMax)
  return { bow := defaultBow, eow := defaultEow, indexer, indices, words, minN, maxN }

/-- src/chunks/vocab/subword.rs:173-175, `vocab_len` for `HashIndexer`. -/
def vocabLenIn (b : Build) (v : BucketSubwordVocab) : Res Nat := do
  let ub ← v.indexer.upperBoundIn b
  b.arith (v.indices.len + ub)

variable {I : Type} [Indexer I]

/-- src/chunks/vocab/subword.rs:231-245, `subword_indices`. -/
def subwordIndicesIn (b : Build) (v : SubwordVocab I) (w : Str) : Res (Option (List Nat)) := do
  let l ← FF.subwordIndices v.indexer (v.bracket w) v.minN v.maxN
  let l ← l.mapM fun i => b.arith (i + v.indices.len)
  return if l.isEmpty then none else some l

/-- src/chunks/vocab/subword.rs:195-216, `ngram_indices`. -/
def ngramIndicesIn (b : Build) (v : SubwordVocab I) (w : Str) : Res (Option (List (Str × List Nat))) := do
  let l ← subwordIndicesWithNgrams v.indexer (v.bracket w) v.minN v.maxN
  let l ← l.mapM fun p => do
    let is ← p.2.mapM fun i => b.arith (i + v.indices.len)
    return (p.1, is)
  return if l.isEmpty then none else some l

/-- src/chunks/vocab/subword.rs:159-167, `idx`. -/
def idxIn (b : Build) (v : SubwordVocab I) (w : Str) : Res (Option WordIndex) :=
  match v.indices.get w with
  | some i => .ok (some (.word i))
  | none => do
    let l ← v.subwordIndicesIn b w
    return l.map .subword

end SubwordVocab

/-- src/chunks/vocab/subword.rs:375-410, `read_bucketed_chunk` for `BucketSubwordVocab`. -/
def readBucketedIn (b : Build) : Rd BucketSubwordVocab := do
  ensureChunkType .bucketSubwordVocab
  let _ ← readU64
  let n ← readU64
  let minN ← readU32
  let maxN ← readU32
  let buckets ← readU32
  let words ← readVocabItems n
  let ix ← lift (HashIndexer.new buckets)
  lift (SubwordVocab.newIn b words minN maxN ix)

/-- src/subword.rs:378-382, `NGrams::size_hint`. -/
def NGrams.sizeHintIn (b : Build) (it : NGrams) : Res Nat := b.arith it.sizeHint

/-- src/chunks/vocab/subword.rs:197-211: the number of elements for which `collect` allocates, as in
`SubwordVocab.ngramIndicesCapacity`. -/
def SubwordVocab.ngramIndicesCapacityIn {I : Type} [Indexer I] (b : Build) (v : SubwordVocab I) (w : Str) :
    Res (Option Nat) := do
  let it ← NGramsIndicesIter.new v.indexer (v.bracket w) v.minN v.maxN
  let (x, it) ← it.next v.indexer
  match x with
  | none => return none
  | some _ => do
    let n ← it.ngrams.sizeHintIn b
    return some (max 4 (min usizeMax (n + 1)))

/-! ## Memory maps -/

/-- src/chunks/storage/array.rs:112-163, `MmapArray::mmap_chunk`. ndarray's `size()` is the product of the two sizes. -/
def mmapNdArrayIn (b : Build) : Rd MmapArray := do
  let (rows, cols) ← readNdArrayHead
  let size ← lift (b.arith (rows * cols))
  let len ← lift (b.arith (size * 4))
  let map ← mapRegion len
  return ⟨map, rows, cols⟩

/-- src/chunks/storage/quantized.rs:647-680, `MmapQuantizedArray::mmap_chunk`. -/
def mmapQuantizedArrayIn (b : Build) : Rd MmapQuantizedArray := do
  let (r, norms) ← readQuantizedHead
  let len ← lift (b.arith (r.nEmbeddings * r.quantizer.quantizedLen))
  let map ← mapRegion len
  return ⟨r.quantizer, map, norms⟩

/-- src/chunks/storage/array.rs:49-55, :69-75: the bytes that looking up row `i` loads, as the distance of the first one from
the beginning of the map and their number; nothing if the row is refused by ndarray's own check. The pointer to the row is computed without a check against the
length of the map, modulo the size of the address space. -/
def MmapArray.loads (a : MmapArray) (i : Nat) : Option (Nat × Nat) :=
  if i < a.nRows then some (i * a.cols * 4 % 2 ^ 64, a.cols * 4) else none

/-- src/chunks/storage/quantized.rs:548-555, :599, :610: the bytes that looking up row `i` loads from the map, as for
`MmapArray.loads`; the number of rows is computed from the length of the map. -/
def MmapQuantizedArray.loads (a : MmapQuantizedArray) (i : Nat) : Option (Nat × Nat) :=
  if i < a.nRows then some (i * a.quantizer.quantizedLen % 2 ^ 64, a.quantizer.quantizedLen) else none

/-! ## Text formats -/

/-- src/compat/text.rs:196-203, as `allocTable`. -/
def allocTableIn (b : Build) (shape : Option (Nat × Nat)) : Res Unit :=
  match shape with
  | some (n, dims) => do
    Res.assert (24 * n ≤ isizeMax)
    let size ← b.arith (n * dims)
    Res.assert (4 * size ≤ isizeMax)
  | none => .ok ()

namespace Embeddings
variable {T F : Type} [Scalar F]

/-- src/compat/text.rs:188-274, `read_embeds`, as `readEmbeds`. -/
def readEmbedsIn [FloatText F] (b : Build) (shape : Option (Nat × Nat)) (lossy : Bool) (d : Bytes) (pos : Nat) :
    Res (Embeddings T SimpleVocab (NdArray F) F) := do
  allocTableIn b shape
  let rows ← (textLines (d.drop pos)).mapM (readTextLine (F := F) lossy)
  let shape ← tableShape shape rows.length (rows.map (·.2)).flatten.length
  let m ← fromShapeVec shape (rows.map (·.2)).flatten
  let vocab ← SimpleVocab.new (rows.map (·.1))
  newWithMaybeNorms none vocab (NdArray.mk m) none

/-- src/compat/text.rs:173-186, `read_text_dims_raw` and `read_text_dims_raw_lossy`. -/
def readTextDimsRawIn [FloatText F] (b : Build) (lossy : Bool) (d : Bytes) (pos : Nat) :
    Res (Embeddings T SimpleVocab (NdArray F) F) := do
  let (nWords, pos) ← readNumber 32 d pos
  let (embedLen, pos) ← readNumber 10 d pos
  readEmbedsIn b (some (nWords, embedLen)) lossy d pos

/-- src/compat/floret/io.rs:28-101, `read_floret_text`, as `readFloret`. -/
def readFloretIn [FloatText F] (b : Build) (d : Bytes) (pos : Nat) :
    Res (Embeddings T FloretSubwordVocab (NdArray F) F) := do
  let (h, pos) ← readFloretHead d pos
  checkFloretHead h
  let size ← b.arith (h.nBuckets * h.embedLen)
  Res.assert (4 * size ≤ isizeMax)
  let rows ← (bufLines (d.drop pos)).mapM (readFloretLine (F := F) h.embedLen)
  let m ← fromShapeVec (h.nBuckets, h.embedLen) rows.flatten
  let indexer ← FloretIndexer.new h.nBuckets h.nHashes (UInt32.ofNat h.seed)
  let vocab ← SubwordVocab.newWithBoundaries [] h.minN h.maxN indexer h.bow h.eow
  newWithMaybeNorms none vocab (NdArray.mk m) none

end Embeddings

end FF
