import Verif.Model.Vocab
import Verif.Model.Io

/-!
# Vocabulary chunks (src/chunks/vocab/mod.rs, simple.rs, subword.rs: serialisation)
-/

namespace FF

open Rd

/-- src/chunks/vocab/mod.rs:78-91, `read_string`. -/
def readString : Rd Str := do
  let n ← readU32
  alloc 1 n
  let bytes ← readExact n
  lift (Res.ofOption .format (utf8Decode bytes))

/-- src/chunks/vocab/mod.rs:93-103, `read_vocab_items` (a `String` is 24 bytes). -/
def readVocabItems (len : Nat) : Rd (List Str) := do
  alloc 24 len
  replicateM len readString

/-- src/chunks/vocab/mod.rs:105-115, `write_string` (the length is cast with `as u32`). -/
def writeString (s : Str) : W := W.u32 (strLen s) ++ W.emit (utf8 s)

/-- src/chunks/vocab/mod.rs:117-125, `write_vocab_items`. -/
def writeVocabItems (items : List Str) : W := W.each writeString items

/-- Sum of the serialized sizes of words: src/chunks/vocab/simple.rs:89-93 and subword.rs:368-372. -/
def itemsLen (items : List Str) : Nat := (items.map fun w => strLen w + 4).sum

/-! ## Simple vocabulary -/

/-- src/chunks/vocab/simple.rs:82-94, `chunk_len`. -/
def SimpleVocab.len (v : SimpleVocab) : Nat := 4 + 8 + 8 + itemsLen v.words

/-- src/chunks/vocab/simple.rs:96-119, `write_chunk`. -/
def SimpleVocab.write (v : SimpleVocab) : W :=
  W.u32 ChunkId.simpleVocab.code ++ W.u64 (v.len - (4 + 8)) ++ W.u64 v.words.length ++
    writeVocabItems v.words

/-- src/chunks/vocab/simple.rs:54-75, `read_chunk`. -/
def SimpleVocab.read : Rd SimpleVocab := do
  ensureChunkType .simpleVocab
  let _ ← readU64
  let n ← readU64
  let words ← readVocabItems n
  lift (SimpleVocab.new words)

/-- src/chunks/vocab/simple.rs:77-119. -/
instance : WriteChunk SimpleVocab := ⟨fun _ => .simpleVocab, fun v _ => v.len, fun v _ => v.write⟩
/-- src/chunks/vocab/simple.rs:53-75. -/
instance : ReadChunk SimpleVocab := ⟨SimpleVocab.read⟩

/-! ## Bucketed vocabularies -/

section
variable {I : Type} [BucketIndexer I]

/-- src/chunks/vocab/subword.rs:356-373, `chunk_len_`. -/
def bucketedLen (v : SubwordVocab I) : Nat := 4 + 8 + 8 + 4 + 4 + 4 + itemsLen v.words

/-- src/chunks/vocab/subword.rs:412-447, `write_bucketed_chunk`. -/
def writeBucketed (v : SubwordVocab I) (id : ChunkId) : W :=
  W.u32 id.code ++ W.u64 (bucketedLen v - (4 + 8)) ++ W.u64 v.words.length ++ W.u32 v.minN ++
    W.u32 v.maxN ++ W.u32 (BucketIndexer.buckets v.indexer) ++ writeVocabItems v.words

/-- src/chunks/vocab/subword.rs:375-410, `read_bucketed_chunk`. -/
def readBucketed (id : ChunkId) : Rd (SubwordVocab I) := do
  ensureChunkType id
  let _ ← readU64
  let n ← readU64
  let minN ← readU32
  let maxN ← readU32
  let buckets ← readU32
  let words ← readVocabItems n
  let ix ← lift (BucketIndexer.newBuckets buckets)
  lift (SubwordVocab.new words minN maxN ix)
end

/-- src/chunks/vocab/subword.rs:300-315. -/
instance : WriteChunk BucketSubwordVocab :=
  ⟨fun _ => .bucketSubwordVocab, fun v _ => bucketedLen v, fun v _ => writeBucketed v .bucketSubwordVocab⟩
/-- src/chunks/vocab/subword.rs:257-264. -/
instance : ReadChunk BucketSubwordVocab := ⟨readBucketed .bucketSubwordVocab⟩
/-- src/chunks/vocab/subword.rs:284-298. -/
instance : WriteChunk FastTextSubwordVocab :=
  ⟨fun _ => .fastTextSubwordVocab, fun v _ => bucketedLen v, fun v _ => writeBucketed v .fastTextSubwordVocab⟩
/-- src/chunks/vocab/subword.rs:248-255. -/
instance : ReadChunk FastTextSubwordVocab := ⟨readBucketed .fastTextSubwordVocab⟩

/-! ## Explicit n-gram vocabulary -/

/-- src/chunks/vocab/subword.rs:494-518, `chunk_len_`. -/
def explicitLen (v : ExplicitSubwordVocab) : Nat :=
  4 + 8 + 8 + 8 + 4 + 4 + itemsLen v.words + (v.indexer.ngrams.map fun g => strLen g + 4 + 8).sum

/-- src/chunks/vocab/subword.rs:718-751, one n-gram of `write_ngrams_with_indices`. -/
def writeNgram (ix : ExplicitIndexer) (g : Str) : W :=
  match Indexer.indexNgram ix (NGram.ofStr g) with
  | .ok [] => W.done (.err .io)
  | .ok [i] => W.u32 (strLen g) ++ W.emit (utf8 g) ++ W.u64 i
  | .ok (_ :: _ :: _) => W.done (.err .io)
  | .err e => W.done (.err e)
  | .panic => W.done .panic

/-- src/chunks/vocab/subword.rs:714-753, `write_ngrams_with_indices`. -/
def writeNgrams (ix : ExplicitIndexer) : W := W.each (writeNgram ix) ix.ngrams

/-- src/chunks/vocab/subword.rs:550-581, `write_ngram_chunk`. -/
def writeExplicit (v : ExplicitSubwordVocab) : W :=
  W.u32 ChunkId.explicitSubwordVocab.code ++ W.u64 (explicitLen v - (4 + 8)) ++
    W.u64 v.words.length ++ W.u64 v.indexer.ngrams.length ++ W.u32 v.minN ++ W.u32 v.maxN ++
    writeVocabItems v.words ++ writeNgrams v.indexer

/-- src/chunks/vocab/subword.rs:696-710, one iteration of `read_ngrams_with_indices`. -/
def readNgram : Rd (Str × Nat) := do
  let n ← readU32
  alloc 1 n
  let bytes ← readExact n
  let item ← lift (Res.ofOption .format (utf8Decode bytes))
  let i ← readU64
  return (item, i)

/-- src/chunks/vocab/subword.rs:691-712, `read_ngrams_with_indices` (an element is 32 bytes). -/
def readNgrams (len : Nat) : Rd (List (Str × Nat)) := do
  alloc 32 len
  replicateM len readNgram

/-- src/chunks/vocab/subword.rs:520-548, `read_ngram_chunk`. -/
def readExplicit : Rd ExplicitSubwordVocab := do
  ensureChunkType .explicitSubwordVocab
  let _ ← readU64
  let wordsLen ← readU64
  let ngramsLen ← readU64
  let minN ← readU32
  let maxN ← readU32
  let words ← readVocabItems wordsLen
  let ngrams ← readNgrams ngramsLen
  let r ← lift (ExplicitIndexer.newWithIndices ngrams)
  lift (SubwordVocab.new words minN maxN r.1)

/-- src/chunks/vocab/subword.rs:317-332. -/
instance : WriteChunk ExplicitSubwordVocab :=
  ⟨fun _ => .explicitSubwordVocab, fun v _ => explicitLen v, fun v _ => writeExplicit v⟩
/-- src/chunks/vocab/subword.rs:266-273. -/
instance : ReadChunk ExplicitSubwordVocab := ⟨readExplicit⟩

/-! ## Floret vocabulary -/

/-- src/chunks/vocab/subword.rs:585-601, `chunk_len_`. -/
def floretLen (v : FloretSubwordVocab) : Nat :=
  4 + 8 + 4 + 4 + 8 + 4 + 4 + strLen v.bow + 4 + strLen v.eow + 4

/-- src/chunks/vocab/subword.rs:653-688, `write_floret_chunk`. The words are not written. -/
def writeFloret (v : FloretSubwordVocab) : W :=
  W.u32 ChunkId.floretSubwordVocab.code ++ W.u64 (floretLen v - (4 + 8)) ++ W.u32 v.minN ++
    W.u32 v.maxN ++ W.u64 v.indexer.nBuckets ++ W.u32 v.indexer.nHashes ++
    W.u32 v.indexer.seed.toNat ++ writeString v.bow ++ writeString v.eow

/-- src/chunks/vocab/subword.rs:603-651, `read_floret_chunk`. -/
def readFloret : Rd FloretSubwordVocab := do
  ensureChunkType .floretSubwordVocab
  let _ ← readU64
  let minN ← readU32
  let maxN ← readU32
  let nBuckets ← readU64
  let nHashes ← readU32
  if ¬ (1 ≤ nHashes ∧ nHashes ≤ 4) then fail .io else do
  let seed ← readU32
  let bow ← readString
  let eow ← readString
  let ix ← lift (FloretIndexer.new nBuckets nHashes (UInt32.ofNat seed))
  lift (SubwordVocab.newWithBoundaries [] minN maxN ix bow eow)

/-- src/chunks/vocab/subword.rs:334-349. -/
instance : WriteChunk FloretSubwordVocab :=
  ⟨fun _ => .floretSubwordVocab, fun v _ => floretLen v, fun v _ => writeFloret v⟩
/-- src/chunks/vocab/subword.rs:275-282. -/
instance : ReadChunk FloretSubwordVocab := ⟨readFloret⟩

end FF
