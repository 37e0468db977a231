import Verif.Model.Quantize
import Verif.Model.Similarity

/-!
# Accessors, conversions and the lazy subword iterator

Borrowing is not modelled: an accessor returns the value that the reference points to, a `&mut` accessor is a function that
applies an update to it.
-/

namespace FF

/-! ## Words and n-grams -/

/-- src/chunks/vocab/mod.rs:49-56, `WordIndex::word`. -/
def WordIndex.word? : WordIndex → Option Nat
  | .word i => some i
  | .subword _ => none

/-- src/chunks/vocab/mod.rs:58-65, `WordIndex::subword`. -/
def WordIndex.subword? : WordIndex → Option (List Nat)
  | .word _ => none
  | .subword is => some is

/-- src/subword.rs:268-270, `StrWithCharLen::as_str` (= `Deref::deref`, :280-282). -/
def NGram.asStr (g : NGram) : Str := g.inner

/-- src/subword.rs:272-274, `StrWithCharLen::char_len`. -/
def NGram.charLength (g : NGram) : Nat := g.charLen

/-- src/subword.rs:459-463, `struct NGramsIndicesIter`; the indexer is passed to `next`. -/
structure NGramsIndicesIter where
  string : Option Str
  ngrams : NGrams

/-- src/subword.rs:470-485, `NGramsIndicesIter::new` (= `subword_indices_with_ngrams` for `str`, :442-449). -/
def NGramsIndicesIter.new {I : Type} [Indexer I] (ix : I) (s : Str) (minN maxN : Nat) : Res NGramsIndicesIter := do
  let ngrams ← NGrams.new s minN maxN
  let string := match Indexer.scope ix with
    | .substrings => none
    | .stringAndSubstrings => some s
  return ⟨string, ngrams⟩

/-- src/subword.rs:495-503, `NGramsIndicesIter::next`. -/
def NGramsIndicesIter.next {I : Type} [Indexer I] (ix : I) (it : NGramsIndicesIter) :
    Res (Option (Str × List Nat) × NGramsIndicesIter) :=
  match it.string with
  | some s => do
    let is ← Indexer.indexNgram ix (NGram.ofStr s)
    return (some (s, is), { it with string := none })
  | none => do
    let (g, ngrams) ← it.ngrams.next
    match g with
    | none => return (none, { it with ngrams })
    | some g => do
      let is ← Indexer.indexNgram ix g
      return (some (g.inner, is), { it with ngrams })

/-- Call `next` until it returns `None`; `fuel` as in `NGrams.collect`. User:
src/chunks/vocab/subword.rs:197-211. -/
def NGramsIndicesIter.collect {I : Type} [Indexer I] (ix : I) : Nat → NGramsIndicesIter → Res (List (Str × List Nat))
  | 0, _ => .panic
  | fuel + 1, it => do
    let (x, it') ← it.next ix
    match x with
    | none => return []
    | some x => do
      let xs ← NGramsIndicesIter.collect ix fuel it'
      return x :: xs

/-- src/subword.rs:378-382, `NGrams::size_hint` in 64 bits. The multiplication can overflow for huge `max_n`; that is
modelled as the panic of a build with overflow checks (in other builds the hint wraps around). -/
def NGrams.sizeHint64 (it : NGrams) : Res Nat := do
  Res.assert (decide (it.sizeHint ≤ usizeMax))
  return it.sizeHint

/-- src/subword.rs:505-508, `NGramsIndicesIter::size_hint` in 64 bits. -/
def NGramsIndicesIter.sizeHint64 (it : NGramsIndicesIter) : Res Nat := it.ngrams.sizeHint64

/-! ## Vocabularies -/

namespace SubwordVocab
variable {I : Type}

/-- src/chunks/vocab/subword.rs:197-211: the number of elements for which `collect` allocates the vector of n-grams.
std's `Vec::from_iter` takes the first element and, if there is one, reserves one element more than the lower bound of
the size hint, but at least four. -/
def ngramIndicesCapacity [Indexer I] (v : SubwordVocab I) (w : Str) : Res (Option Nat) := do
  let it ← NGramsIndicesIter.new v.indexer (v.bracket w) v.minN v.maxN
  let (x, it) ← it.next v.indexer
  match x with
  | none => return none
  | some _ => do
    let n ← it.sizeHint64
    return some (max 4 (min usizeMax (n + 1)))

/-- src/chunks/vocab/subword.rs:120-122, `bow`. -/
def getBow (v : SubwordVocab I) : Str := v.bow
/-- src/chunks/vocab/subword.rs:125-127, `eow`. -/
def getEow (v : SubwordVocab I) : Str := v.eow
/-- src/chunks/vocab/subword.rs:130-132, `indexer`. -/
def getIndexer (v : SubwordVocab I) : I := v.indexer
/-- src/chunks/vocab/subword.rs:135-137, `min_n`. -/
def getMinN (v : SubwordVocab I) : Nat := v.minN
/-- src/chunks/vocab/subword.rs:140-142, `max_n`. -/
def getMaxN (v : SubwordVocab I) : Nat := v.maxN

end SubwordVocab

/-- src/compat/floret/indexer.rs:36-46, `n_buckets`, `n_hashes`, `seed`. -/
def FloretIndexer.params (ix : FloretIndexer) : Nat × Nat × UInt32 := (ix.nBuckets, ix.nHashes, ix.seed)

/-! ## Matrices, norms and metadata -/

/-- src/chunks/storage/array.rs:195-197, `NdArray::new` (= `From<Array2>`, :275-279). -/
def NdArray.new {F : Type} (m : Mat F) : NdArray F := ⟨m⟩

/-- src/chunks/storage/array.rs:281-285, `From<NdArray> for Array2`. -/
def NdArray.intoArray {F : Type} (a : NdArray F) : Mat F := a.inner

/-- src/chunks/storage/array.rs:307-311, `view_mut`: `f` is what the caller does with the view; a view cannot change the
shape. -/
def NdArray.viewMut {F : Type} (a : NdArray F) (f : Mat F → Mat F) : NdArray F := ⟨f a.inner⟩

/-- src/chunks/norms.rs:29-33, `NdNorms::new` (= `From`, :44-51). -/
def NdNorms.new {F : Type} (ns : List F) : NdNorms F := ⟨ns⟩

/-- src/chunks/norms.rs:36-42, `Deref` of norms. -/
def NdNorms.deref {F : Type} (n : NdNorms F) : List F := n.inner

/-- src/chunks/metadata.rs:24-26, `Metadata::new` (= `From<Table>`, :43-47). -/
def Metadata.new {T : Type} (t : T) : Metadata T := ⟨t⟩

/-- src/chunks/metadata.rs:29-35, `Deref` of metadata. -/
def Metadata.deref {T : Type} (m : Metadata T) : T := m.inner

/-- src/chunks/metadata.rs:37-41, `DerefMut` of metadata. -/
def Metadata.derefMut {T : Type} (m : Metadata T) (f : T → T) : Metadata T := ⟨f m.inner⟩

/-! ## Embeddings -/

namespace Embeddings
variable {T V S F : Type}

/-- src/embeddings.rs:86-88, `into_parts`. -/
def intoParts (e : Embeddings T V S F) : Option (Metadata T) × V × S × Option (NdNorms F) :=
  (e.metadata, e.vocab, e.storage, e.norms)

/-- src/embeddings.rs:91-93, `metadata`. -/
def getMetadata (e : Embeddings T V S F) : Option (Metadata T) := e.metadata

/-- src/embeddings.rs:96-98, `metadata_mut`: `f` is what the caller does with the reference, if there is one. -/
def metadataMut (e : Embeddings T V S F) (f : Metadata T → Metadata T) : Embeddings T V S F :=
  { e with metadata := e.metadata.map f }

/-- src/embeddings.rs:101-103, `norms`. -/
def getNorms (e : Embeddings T V S F) : Option (NdNorms F) := e.norms

/-- src/embeddings.rs:108-111, `set_metadata`: the embeddings afterwards and the returned value. -/
def setMetadata (e : Embeddings T V S F) (metadata : Option (Metadata T)) :
    Embeddings T V S F × Option (Metadata T) :=
  ({ e with metadata := metadata }, e.metadata)

/-- src/embeddings.rs:114-116, `storage`. -/
def getStorage (e : Embeddings T V S F) : S := e.storage

/-- src/embeddings.rs:119-121, `vocab`. -/
def getVocab (e : Embeddings T V S F) : V := e.vocab

/-- src/embeddings.rs:423-434, `IntoIterator` of `&Embeddings`. -/
def intoIter [Vocab V] [Storage S F] (e : Embeddings T V S F) : Res (List (Str × List F)) := e.iter

end Embeddings

end FF
