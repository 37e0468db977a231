import Verif.Model.Wrappers

/-!
# Embeddings (src/embeddings.rs) and normalisation (src/util.rs)
-/

namespace FF

open Rd

/-- src/embeddings.rs:35-41, `struct Embeddings`. `T` is the type of TOML tables, `F` the type of vector
components. -/
structure Embeddings (T V S F : Type) where
  metadata : Option (Metadata T)
  storage : S
  vocab : V
  norms : Option (NdNorms F)
deriving DecidableEq, Repr

/-- src/util.rs:69-77, `l2_normalize`: the normalised vector and the norm. -/
def l2Normalize {F : Type} [Scalar F] (v : List F) : List F × F :=
  let norm := Scalar.sqrt (Scalar.dot v v)
  (if Scalar.isZero norm then v else v.map (Scalar.div · norm), norm)

/-- src/util.rs:79-86, `l2_normalize_array`: the normalised rows and the norms. -/
def l2NormalizeArray {F : Type} [Scalar F] (m : Mat F) : Mat F × List F :=
  (⟨m.cols, m.rows.map fun r => (l2Normalize r).1⟩, m.rows.map fun r => (l2Normalize r).2)

namespace Embeddings

section Lookup
variable {T V S F : Type} [Vocab V] [Storage S F]

/-- src/embeddings.rs:63-80, `new_with_maybe_norms`. -/
def newWithMaybeNorms (metadata : Option (Metadata T)) (vocab : V) (storage : S)
    (norms : Option (NdNorms F)) : Res (Embeddings T V S F) := do
  let n ← Vocab.vocabLen vocab
  Res.assert (n = (shape storage).1)
  return ⟨metadata, storage, vocab, norms⟩

/-- src/embeddings.rs:54-61, `new`. -/
def new (metadata : Option (Metadata T)) (vocab : V) (storage : S) (norms : NdNorms F) :
    Res (Embeddings T V S F) := do
  Res.assert (Vocab.wordsLen vocab = norms.inner.length)
  newWithMaybeNorms metadata vocab storage (some norms)

/-- src/embeddings.rs:131-133, `dims`. -/
def dims (e : Embeddings T V S F) : Nat := (shape e.storage).2

/-- src/embeddings.rs:317-319, `len`. -/
def len (e : Embeddings T V S F) : Nat := Vocab.wordsLen e.vocab

variable [Scalar F]

/-- src/embeddings.rs:136-147, `embedding`. -/
def embedding (e : Embeddings T V S F) (word : Str) : Res (Option (List F)) := do
  match ← Vocab.idx e.vocab word with
  | none => return none
  | some (.word i) => do
    let v ← Storage.embedding e.storage i
    return some v
  | some (.subword is) => do
    let m ← Storage.embeddings e.storage is
    return some (l2Normalize m.sumAxis0).1

/-- src/embeddings.rs:159-190, `embedding_into`: found-flag and the target vector afterwards. The shapes
of `assign` and `+=` agree because a storage returns rows of `dims` components. -/
def embeddingInto (e : Embeddings T V S F) (word : Str) (target : List F) : Res (Bool × List F) := do
  Res.assert (target.length = e.dims)
  match ← Vocab.idx e.vocab word with
  | none => return (false, target)
  | some (.word i) => do
    let v ← Storage.embedding e.storage i
    return (true, v)
  | some (.subword is) => do
    let zeroed := target.map fun _ => Scalar.zero
    let m ← Storage.embeddings e.storage is
    return (true, (l2Normalize (m.rows.foldl (List.zipWith Scalar.add) zeroed)).1)

/-- src/embeddings.rs:224-229: the positions of each word of a batch, starting to count at `i`. -/
def wordPositions : List Str → Nat → HMap Str (List Nat) → HMap Str (List Nat)
  | [], _, m => m
  | w :: ws, i, m => wordPositions ws (i + 1) (m.insert w ((m.get w).getD [] ++ [i]))

/-- src/embeddings.rs:238-243: copy row `first` to the other positions and mark them as found. -/
def copyRows (first : Nat) (st : List (List F) × List Bool) (rest : List Nat) :
    Res (List (List F) × List Bool) :=
  rest.foldlM (fun st i => do
    let r ← Res.unwrap st.1[first]?
    let _ ← Res.unwrap st.1[i]?
    return (st.1.set i r, st.2.set i true)) st

/-- src/embeddings.rs:231-245: the loop body of `embedding_batch_into` for one distinct word. -/
def batchStep (e : Embeddings T V S F) (st : List (List F) × List Bool) (p : Str × List Nat) :
    Res (List (List F) × List Bool) := do
  let first ← Res.unwrap p.2[0]?
  let target ← Res.unwrap st.1[first]?
  let (found, row) ← e.embeddingInto p.1 target
  if found then copyRows first (st.1.set first row, st.2.set first true) (p.2.drop 1)
  else return st

/-- src/embeddings.rs:208-248, `embedding_batch_into`: the output matrix afterwards and the found-flags.
`order` is the order in which the hash map is iterated. -/
def embeddingBatchInto (order : List (Str × List Nat) → List (Str × List Nat)) (e : Embeddings T V S F)
    (words : List Str) (output : Mat F) : Res (Mat F × List Bool) := do
  Res.assert (output.nrows = words.length)
  Res.assert (output.cols = e.dims)
  let (rows, found) ← (order (wordPositions words 0 HMap.empty).entries).foldlM e.batchStep
    (output.rows, words.map fun _ => false)
  return (⟨output.cols, rows⟩, found)

/-- src/embeddings.rs:196-200, `embedding_batch`. -/
def embeddingBatch (order : List (Str × List Nat) → List (Str × List Nat)) (e : Embeddings T V S F)
    (words : List Str) : Res (Mat F × List Bool) :=
  e.embeddingBatchInto order words ⟨e.dims, words.map fun _ => List.replicate e.dims Scalar.zero⟩

/-- `norms().map(|n| n[idx]).unwrap_or(1.)`, src/embeddings.rs:270, :755. -/
def normAt (e : Embeddings T V S F) (i : Nat) : Res F :=
  match e.norms with
  | some n => Res.unwrap n.inner[i]?
  | none => .ok Scalar.one

/-- src/embeddings.rs:266-284, `embedding_with_norm`: embedding and norm. -/
def embeddingWithNorm (e : Embeddings T V S F) (word : Str) : Res (Option (List F × F)) := do
  match ← Vocab.idx e.vocab word with
  | none => return none
  | some (.word i) => do
    let v ← Storage.embedding e.storage i
    let n ← e.normAt i
    return some (v, n)
  | some (.subword is) => do
    let m ← Storage.embeddings e.storage is
    return some (l2Normalize m.sumAxis0)

/-- src/embeddings.rs:715-719, `EmbeddingWithNorm::into_unnormalized`. -/
def intoUnnormalized (p : List F × F) : List F := scale p.1 p.2

/-- src/embeddings.rs:287-292 and :723-737: what an exhausted `iter()` has yielded. -/
def iter (e : Embeddings T V S F) : Res (List (Str × List F)) :=
  (Vocab.words e.vocab).zipIdx.mapM fun p => do
    let v ← Storage.embedding e.storage p.2
    return (p.1, v)

/-- src/embeddings.rs:307-313 and :739-760: what an exhausted `iter_with_norms()` has yielded. -/
def iterWithNorms (e : Embeddings T V S F) : Res (List (Str × List F × F)) :=
  (Vocab.words e.vocab).zipIdx.mapM fun p => do
    let v ← Storage.embedding e.storage p.2
    let n ← e.normAt p.2
    return (p.1, v, n)

end Lookup

section Explicit
variable {T I S S' F : Type} [BucketIndexer I] [Storage S F] [Storage S' F] [CloneFromMapping S S']

/-- src/embeddings.rs:373-376: the row mapping of `to_explicit_impl`. -/
def explicitMapping (wordsLen vocabLen : Nat) (oldToNew : List (Nat × Nat)) : Res (List Nat) :=
  oldToNew.foldlM (fun m p =>
    if wordsLen + p.2 < m.length then .ok (m.set (wordsLen + p.2) (p.1 + wordsLen)) else .panic)
    (List.range vocabLen)

/-- src/embeddings.rs:364-386, `to_explicit_impl`. `order` and `order2` are the iteration orders of the
two hash maps (n-grams to old index; old index to new index). -/
def toExplicit (order : List (Str × Nat) → List (Str × Nat)) (order2 : List (Nat × Nat) → List (Nat × Nat))
    (e : Embeddings T (SubwordVocab I) S F) : Res (Embeddings T ExplicitSubwordVocab S' F) := do
  let (ev, oldToNew) ← FF.toExplicit order e.vocab
  let vl ← Vocab.vocabLen ev
  let mapping ← explicitMapping (Vocab.wordsLen ev) vl (order2 oldToNew.entries)
  let s ← cloneFromMapping e.storage mapping
  newWithMaybeNorms none ev s e.norms

end Explicit

/-- src/embeddings.rs:340-361, `try_to_explicit`. -/
def tryToExplicit {T S S' F : Type} [Storage S F] [Storage S' F] [CloneFromMapping S S']
    (order : List (Str × Nat) → List (Str × Nat)) (order2 : List (Nat × Nat) → List (Nat × Nat))
    (e : Embeddings T VocabWrap S F) : Res (Embeddings T ExplicitSubwordVocab S' F) :=
  match e.vocab with
  | .bucket v => toExplicit order order2 (⟨e.metadata, e.storage, v, e.norms⟩ : Embeddings T _ S F)
  | .fastText v => toExplicit order order2 (⟨e.metadata, e.storage, v, e.norms⟩ : Embeddings T _ S F)
  | .simple _ => .err .conversion
  | .explicit _ => .err .conversion
  | .floret _ => .err .conversion

/-- src/embeddings.rs:388-401, `impl_embeddings_from!`: conversion with the `into` of vocabulary and
storage. -/
def into {T V S F V' S' : Type} (fv : V → V') (fs : S → S') (e : Embeddings T V S F) : Embeddings T V' S' F :=
  ⟨e.metadata, fs e.storage, fv e.vocab, e.norms⟩

/-! ## Reading and writing -/

section IO
variable {T V S : Type} [Toml T]

/-- src/embeddings.rs:560-572 (= :591-603): the identifiers listed in the header. -/
def chunkIds [WriteChunk V] [WriteChunk S] (e : Embeddings T V S F32) : List ChunkId :=
  (match e.metadata with
    | some m => [chunkId m]
    | none => []) ++ [chunkId e.vocab, chunkId e.storage] ++
  (match e.norms with
    | some n => [chunkId n]
    | none => [])

/-- Write one part after the other; each part sees the stream position at which it starts. The consecutive
`write_chunk` calls of src/embeddings.rs:573-583. -/
def andThen (a b : Nat → W) : Nat → W := fun off => a off ++ b (off + (a off).size)

/-- An optional chunk. The `if let` of src/embeddings.rs:574-576, :581-583. -/
def writeOpt {X : Type} [WriteChunk X] : Option X → Nat → W
  | some x, off => writeChunk x off
  | none, _ => W.nil

/-- src/embeddings.rs:555-586, `write_embeddings` on a writer whose position is `off`. -/
def write [WriteChunk V] [WriteChunk S] (e : Embeddings T V S F32) : Nat → W :=
  andThen (fun _ => (Header.mk e.chunkIds).write) <|
  andThen (writeOpt e.metadata) <|
  andThen (writeChunk e.vocab) <|
  andThen (writeChunk e.storage) <|
  writeOpt e.norms

/-- `chunk_len` of an optional chunk. The `if let` of src/embeddings.rs:608-610, :615-617. -/
def lenOpt {X : Type} [WriteChunk X] : Option X → Nat → Nat
  | some x, off => chunkLen x off
  | none, _ => 0

/-- src/embeddings.rs:588-620, `write_embeddings_len`. -/
def writeLen [WriteChunk V] [WriteChunk S] (e : Embeddings T V S F32) (off : Nat) : Nat :=
  let len := 0
  let len := len + chunkLen (Header.mk e.chunkIds) (off + len)
  let len := len + lenOpt e.metadata (off + len)
  let len := len + chunkLen e.vocab (off + len)
  let len := len + chunkLen e.storage (off + len)
  len + lenOpt e.norms (off + len)

/-- `Result::ok`: an error becomes `None`; a panic stays a panic. Users: src/embeddings.rs:502, :539. -/
def orNone {α : Type} : Res α → Res (Option α)
  | .ok a => .ok (some a)
  | .err _ => .ok none
  | .panic => .panic

/-- Everything before the storage: src/embeddings.rs:523-537 (= :486-500). The code up to the metadata
(:523-536) is word for word that of `read_metadata`, src/chunks/metadata.rs:114-128. -/
def readHead [ReadChunk V] : Rd (Option (Metadata T) × V) := do
  let m ← (readOptMetadata : Rd (Option (Metadata T)))
  let v ← (readChunk : Rd V)
  return (m, v)

/-- src/embeddings.rs:519-547, `read_embeddings`, with the reader of the storage as a parameter. The
position of the stream afterwards is not part of the result (after a failed attempt to read norms it is
somewhere behind the storage). -/
def readWith [ReadChunk V] (readStorage : Rd S) (d : Bytes) (pos : Nat) : Res (Embeddings T V S F32) := do
  let ((m, v), p) ← readHead (T := T) (V := V) d pos
  let (s, p) ← readStorage d p
  let n ← orNone ((readChunk : Rd (NdNorms F32)) d p)
  return ⟨m, s, v, n.map (·.1)⟩

/-- src/embeddings.rs:519-547, `read_embeddings`. -/
def read [ReadChunk V] [ReadChunk S] (d : Bytes) (pos : Nat) : Res (Embeddings T V S F32) :=
  readWith (readChunk : Rd S) d pos

/-- src/embeddings.rs:485-510, `mmap_embeddings`, with the storage's `mmap_chunk` as a parameter. -/
def mmap [ReadChunk V] (mmapStorage : Rd S) (d : Bytes) (pos : Nat) : Res (Embeddings T V S F32) :=
  readWith mmapStorage d pos

end IO

end Embeddings

end FF
