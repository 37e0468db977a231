import Verif.Model.Wrappers

/-!
# Equality (`==`) of vocabularies

The implementations of `PartialEq`, mostly derived, of the indexers and the vocabularies. Derived implementations compare
the fields in the order of their declaration. The order does not matter for the result, since no comparison panics.
-/

namespace FF

/-- `PartialEq for HashMap` of the standard library, used by the derived implementations at
src/chunks/vocab/simple.rs:12, src/chunks/vocab/subword.rs:33 and src/subword.rs:144: the same number of entries, and each
key of the one map is present in the other with an equal value. The order of the entries plays no role. -/
def HMap.eq {K V : Type} [DecidableEq K] [DecidableEq V] (a b : HMap K V) : Bool :=
  a.len == b.len && a.entries.all fun e =>
    match b.get e.1 with
    | some v => decide (e.2 = v)
    | none => false

/-- `PartialEq` for indexers, required by the derived implementation at src/chunks/vocab/subword.rs:33. -/
class IndexerEq (I : Type) where
  /-- `PartialEq::eq`, src/chunks/vocab/subword.rs:33. -/
  eq : I → I → Bool

/-- src/subword.rs:134-138. -/
instance : IndexerEq HashIndexer := ⟨HashIndexer.eq⟩

/-- src/compat/fasttext/indexer.rs:8 (derived). -/
instance : IndexerEq FastTextIndexer := ⟨fun a b => a.buckets == b.buckets⟩

/-- src/compat/floret/indexer.rs:12 (derived). -/
instance : IndexerEq FloretIndexer :=
  ⟨fun a b => a.nBuckets == b.nBuckets && a.seed == b.seed && a.nHashes == b.nHashes⟩

/-- src/subword.rs:144 (derived). -/
def ExplicitIndexer.eq (a b : ExplicitIndexer) : Bool :=
  decide (a.ngrams = b.ngrams) && a.index.eq b.index && a.bound == b.bound

/-- src/subword.rs:144. -/
instance : IndexerEq ExplicitIndexer := ⟨ExplicitIndexer.eq⟩

/-- src/chunks/vocab/simple.rs:12 (derived). -/
def SimpleVocab.eq (a b : SimpleVocab) : Bool := a.indices.eq b.indices && decide (a.words = b.words)

/-- src/chunks/vocab/subword.rs:33 (derived). -/
def SubwordVocab.eq {I : Type} [IndexerEq I] (a b : SubwordVocab I) : Bool :=
  decide (a.bow = b.bow) && decide (a.eow = b.eow) && IndexerEq.eq a.indexer b.indexer && a.indices.eq b.indices &&
    decide (a.words = b.words) && a.minN == b.minN && a.maxN == b.maxN

/-- src/chunks/vocab/wrappers.rs:23 (derived): different variants are not equal. -/
def VocabWrap.eq : VocabWrap → VocabWrap → Bool
  | .simple a, .simple b => a.eq b
  | .explicit a, .explicit b => a.eq b
  | .fastText a, .fastText b => a.eq b
  | .floret a, .floret b => a.eq b
  | .bucket a, .bucket b => a.eq b
  | _, _ => false

end FF
